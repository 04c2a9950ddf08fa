import Verif.Model.Matgen
import Verif.Spec.Matgen
import Mathlib.Algebra.Order.BigOperators.Group.Finset

/-! Invariants of the loops of `matrix_generator.py`. -/

namespace Verif.Matgen

open Verif Finset Spec

open Classical in
attribute [local instance 0] propDecidable

variable {R : NpRandom} {n : ℕ}

section loops

variable {σ α : Type}

theorem whileF_inv {cond : σ → Prop} {body : σ → σ} (I : σ → Prop) (hI : ∀ s, I s → cond s → I (body s)) :
    ∀ (fuel : ℕ) (s s' : σ), I s → whileF cond body fuel s = some s' → I s' ∧ ¬ cond s'
  | 0, s, s', h, hw => by
    unfold whileF at hw
    split_ifs at hw with hc
    simp only [Option.some.injEq] at hw; subst hw; exact ⟨h, hc⟩
  | f + 1, s, s', h, hw => by
    unfold whileF at hw
    split_ifs at hw with hc
    · exact whileF_inv I hI f _ s' (hI s h hc) hw
    · simp only [Option.some.injEq] at hw; subst hw; exact ⟨h, hc⟩

/-- a loop whose invariant implies the condition never ends -/
theorem whileF_hangs {cond : σ → Prop} {body : σ → σ} (I : σ → Prop) (hI : ∀ s, I s → I (body s)) (hc : ∀ s, I s → cond s) :
    ∀ (fuel : ℕ) (s : σ), I s → whileF cond body fuel s = none
  | 0, s, h => by simp [whileF, hc s h]
  | f + 1, s, h => by rw [whileF, if_pos (hc s h)]; exact whileF_hangs I hI hc f _ (hI s h)

theorem whileF_mono {cond : σ → Prop} {body : σ → σ} : ∀ {f f' : ℕ} {s s' : σ}, f ≤ f' → whileF cond body f s = some s' → whileF cond body f' s = some s'
  | 0, 0, _, _, _, h => h
  | 0, f' + 1, s, s', _, h => by
    unfold whileF at h ⊢
    split_ifs at h ⊢; exact h
  | f + 1, 0, _, _, hf, _ => by omega
  | f + 1, f' + 1, s, s', hf, h => by
    unfold whileF at h ⊢
    split_ifs at h ⊢
    · exact whileF_mono (by omega) h
    · exact h

theorem forO_mono {body body' : α → σ → Option σ} (h : ∀ a s s', body a s = some s' → body' a s = some s') :
    ∀ (l : List α) (s s' : σ), forO body l s = some s' → forO body' l s = some s'
  | [], s, s', hs => hs
  | a :: l, s, s', hs => by
    unfold forO at hs ⊢
    cases hb : body a s with
    | none => simp [hb] at hs
    | some t =>
      rw [h a s t hb]
      simp only [hb, Option.bind_some] at hs ⊢
      exact forO_mono h l t s' hs

/-- invariant `I` of a loop that establishes `Q a` for every element `a` and never destroys it -/
theorem forO_inv {body : α → σ → Option σ} (I : σ → Prop) (Q : α → σ → Prop)
    (h : ∀ a s s', I s → body a s = some s' → I s' ∧ Q a s' ∧ ∀ b, Q b s → Q b s') :
    ∀ (l : List α) (s s' : σ), I s → forO body l s = some s' → I s' ∧ (∀ a ∈ l, Q a s') ∧ ∀ b, Q b s → Q b s'
  | [], s, s', hI, hs => by
    simp only [forO, Option.some.injEq] at hs; subst hs
    exact ⟨hI, by simp, fun _ h => h⟩
  | a :: l, s, s', hI, hs => by
    unfold forO at hs
    cases hb : body a s with
    | none => simp [hb] at hs
    | some t =>
      simp only [hb, Option.bind_some] at hs
      obtain ⟨h1, h2, h3⟩ := h a s t hI hb
      obtain ⟨h4, h5, h6⟩ := forO_inv I Q h l t s' h1 hs
      refine ⟨h4, fun b hb => ?_, fun b hb => h6 b (h3 b hb)⟩
      rcases List.mem_cons.1 hb with rfl | hb
      · exact h6 _ h2
      · exact h5 b hb

/-- if the body ends on every state of the invariant, with enough fuel, the loop ends with enough fuel -/
theorem forO_ends {body : ℕ → α → σ → Option σ} (I : σ → Prop) (hmono : ∀ f f' a s s', f ≤ f' → body f a s = some s' → body f' a s = some s')
    (h : ∀ a s, I s → ∃ f s', body f a s = some s' ∧ I s') : ∀ (l : List α) (s : σ), I s → ∃ f s', forO (body f) l s = some s' ∧ I s'
  | [], s, hI => ⟨0, s, rfl, hI⟩
  | a :: l, s, hI => by
    obtain ⟨f, t, ht, hIt⟩ := h a s hI
    obtain ⟨f', s', hs', hI'⟩ := forO_ends I hmono h l t hIt
    refine ⟨max f f', s', ?_, hI'⟩
    unfold forO
    rw [hmono f _ a s t (le_max_left _ _) ht, Option.bind_some]
    exact forO_mono (fun b u u' => hmono f' _ b u u' (le_max_right _ _)) l t s' hs'

/-- a loop that ends when a good state of the random generator comes up -/
theorem whileF_ends {S : Type} {τ : Type} {cond : τ × S → Prop} {body : τ × S → τ × S} (adv : S → S) (good : S → Prop) (I : τ → Prop)
    (hadv : ∀ s, (body s).2 = adv s.2) (hI : ∀ s, I s.1 → cond s → I (body s).1) (hgood : ∀ s, I s.1 → cond s → good s.2 → ¬ cond (body s)) :
    ∀ (m : ℕ) (s : τ × S), I s.1 → good (adv^[m] s.2) → ∃ f s', whileF cond body f s = some s' ∧ I s'.1
  | 0, s, h, hg => by
    by_cases hc : cond s
    · refine ⟨1, body s, ?_, hI s h hc⟩
      simp only [whileF, if_pos hc, if_neg (hgood s h hc hg)]
    · exact ⟨0, s, by simp [whileF, hc], h⟩
  | m + 1, s, h, hg => by
    by_cases hc : cond s
    · rw [Function.iterate_succ_apply, ← hadv] at hg
      obtain ⟨f, s', h1, h2⟩ := whileF_ends adv good I hadv hI hgood m (body s) (hI s h hc) hg
      exact ⟨f + 1, s', by simp only [whileF, if_pos hc]; exact h1, h2⟩
    · exact ⟨0, s, by simp [whileF, hc], h⟩

end loops

/-! ### matrices -/

theorem setAt2_apply (A : Fin n → Fin n → ℝ) (i j : Fin n) (v : ℝ) (a b : Fin n) :
    setAt2 A i j v a b = if a = i ∧ b = j then v else A a b := by
  by_cases h : a = i
  · subst h
    by_cases h' : b = j
    · subst h'; simp [setAt2]
    · simp [setAt2, h']
  · simp [setAt2, h]

theorem copyAt2_apply (A : Fin n → Fin n → ℝ) (i j k l : Fin n) (a b : Fin n) :
    copyAt2 A i j k l a b = if a = i ∧ b = j then A k l else A a b := by
  by_cases h : a = i
  · subst h
    by_cases h' : b = j
    · subst h'; simp [copyAt2]
    · simp [copyAt2, h']
  · simp [copyAt2, h]

/-- all entries satisfy `E` -/
def Entries (E : ℝ → Prop) (A : Fin n → Fin n → ℝ) : Prop := ∀ i j, E (A i j)

/-- `A'` has all the links of `A` -/
def Grows (A A' : Fin n → Fin n → ℝ) : Prop := ∀ i j, A i j ≠ 0 → A' i j ≠ 0

/-- `i` has a link -/
def Linked (A : Fin n → Fin n → ℝ) (i : Fin n) : Prop := ∃ j, A i j ≠ 0 ∨ A j i ≠ 0

theorem Linked.grows {A A' : Fin n → Fin n → ℝ} (h : Grows A A') {i : Fin n} : Linked A i → Linked A' i :=
  fun ⟨j, hj⟩ => ⟨j, hj.imp (h i j) (h j i)⟩

theorem Grows.trans {A B C : Fin n → Fin n → ℝ} (h : Grows A B) (h' : Grows B C) : Grows A C := fun i j hij => h' i j (h i j hij)

theorem linked_of_colSum {A : Fin n → Fin n → ℝ} {i : Fin n} (h : colSum A i ≠ 0) : Linked A i := by
  obtain ⟨j, -, hj⟩ := exists_ne_zero_of_sum_ne_zero h
  exact ⟨j, .inr hj⟩

theorem linked_of_rowSum {A : Fin n → Fin n → ℝ} {i : Fin n} (h : rowSum A i ≠ 0) : Linked A i := by
  obtain ⟨j, -, hj⟩ := exists_ne_zero_of_sum_ne_zero h
  exact ⟨j, .inl hj⟩

theorem noIsolated_of {A : Fin n → Fin n → ℝ} (hl : Loopless A) (h : ∀ i, Linked A i) : NoIsolatedNode A := fun i => by
  obtain ⟨j, hj⟩ := h i
  refine ⟨j, ?_, hj⟩
  rintro rfl
  rcases hj with hj | hj <;> exact hj (hl _)

theorem col_zero {A : Fin n → Fin n → ℝ} (hA : ∀ i j, 0 ≤ A i j) {i : Fin n} (h : colSum A i = 0) (j : Fin n) : A j i = 0 :=
  (sum_eq_zero_iff_of_nonneg fun j _ => hA j i).1 h j (mem_univ j)

theorem row_zero {A : Fin n → Fin n → ℝ} (hA : ∀ i j, 0 ≤ A i j) {i : Fin n} (h : rowSum A i = 0) (j : Fin n) : A i j = 0 :=
  (sum_eq_zero_iff_of_nonneg fun j _ => hA i j).1 h j (mem_univ j)

theorem colSum_ne {A : Fin n → Fin n → ℝ} (hA : ∀ i j, 0 ≤ A i j) {i j : Fin n} (h : A j i ≠ 0) : colSum A i ≠ 0 := fun h0 => h (col_zero hA h0 j)

theorem rowSum_ne {A : Fin n → Fin n → ℝ} (hA : ∀ i j, 0 ≤ A i j) {i j : Fin n} (h : A i j ≠ 0) : rowSum A i ≠ 0 := fun h0 => h (row_zero hA h0 j)

/-! ### the directed repair -/

theorem repairStep_apply (weight : R.S → ℝ × R.S) (ind : Fin n) (s : St R n) (a b : Fin n) :
    (repairStep R weight ind s).1 a b =
      if a = ind ∧ b = ind then 0
      else if (R.random s.2).1 > 0.5 then
        if a = (drawNode R ind (weight (R.random s.2).2).2).1 ∧ b = ind then (weight (R.random s.2).2).1 else s.1 a b
      else if a = ind ∧ b = (drawNode R ind (weight (R.random s.2).2).2).1 then (weight (R.random s.2).2).1 else s.1 a b := by
  unfold repairStep
  simp only [setAt2_apply]
  split_ifs <;> simp_all [setAt2_apply]

/-- what is preserved while the isolated node `ind` is repaired -/
theorem repairStep_inv {E : ℝ → Prop} (h0 : E 0) {weight : R.S → ℝ × R.S} (hw : ∀ g, E (weight g).1)
    (hE : (∀ x, E x → 0 ≤ x) ∨ ∀ g, (weight g).1 ≠ 0) (ind : Fin n) (s : St R n) (hl : Loopless s.1) (he : Entries E s.1)
    (hc : colSum s.1 ind = 0 ∧ rowSum s.1 ind = 0) :
    Loopless (repairStep R weight ind s).1 ∧ Entries E (repairStep R weight ind s).1 ∧ Grows s.1 (repairStep R weight ind s).1 := by
  refine ⟨fun i => ?_, fun i j => ?_, fun i j hij => ?_⟩
  · rw [repairStep_apply]
    by_cases h : i = ind
    · simp [h]
    · simp [h, hl i]
  · rw [repairStep_apply]
    split_ifs
    · exact h0
    · exact hw _
    · exact he i j
    · exact hw _
    · exact he i j
  · have key : ∀ P : Prop, (P → i = ind ∨ j = ind) → P → (weight (R.random s.2).2).1 ≠ 0 := fun P hP h => by
      rcases hE with hE | hE
      · exfalso
        rcases hP h with rfl | rfl
        · exact hij (row_zero (fun i j => hE _ (he i j)) hc.2 j)
        · exact hij (col_zero (fun i j => hE _ (he i j)) hc.1 i)
      · exact hE _
    rw [repairStep_apply]
    split_ifs with h1 h2 h3 h4
    · exact absurd (h1.1 ▸ h1.2 ▸ hl ind) hij
    · exact key _ (fun h => .inr h.2) h3
    · exact hij
    · exact key _ (fun h => .inl h.1) h4
    · exact hij

theorem repair_inv {E : ℝ → Prop} (h0 : E 0) {weight : R.S → ℝ × R.S} (hw : ∀ g, E (weight g).1)
    (hE : (∀ x, E x → 0 ≤ x) ∨ ∀ g, (weight g).1 ≠ 0) (fuel : ℕ) (s s' : St R n) (hl : Loopless s.1) (he : Entries E s.1)
    (h : repair R fuel weight s = some s') : Loopless s'.1 ∧ Entries E s'.1 ∧ Grows s.1 s'.1 ∧ NoIsolatedNode s'.1 := by
  unfold repair at h
  have := forO_inv (fun t : St R n => Loopless t.1 ∧ Entries E t.1 ∧ Grows s.1 t.1) (fun i (t : St R n) => Linked t.1 i) ?_ _ s s' ⟨hl, he, fun _ _ h => h⟩ h
  · exact ⟨this.1.1, this.1.2.1, this.1.2.2, noIsolated_of this.1.1 fun i => this.2.1 i (List.mem_finRange i)⟩
  · rintro i t t' ⟨h1, h2, h3⟩ hb
    split_ifs at hb with hk
    · obtain ⟨⟨a, b, c⟩, d⟩ := whileF_inv (fun u : St R n => Loopless u.1 ∧ Entries E u.1 ∧ Grows t.1 u.1)
        (fun u ⟨a, b, c⟩ hu => by
          obtain ⟨a', b', c'⟩ := repairStep_inv h0 hw hE i u a b hu
          exact ⟨a', b', c.trans c'⟩) fuel t t' ⟨h1, h2, fun _ _ h => h⟩ hb
      refine ⟨⟨a, b, h3.trans c⟩, ?_, fun j hj => hj.grows c⟩
      rw [not_and_or] at d
      rcases d with d | d
      · exact linked_of_colSum d
      · exact linked_of_rowSum d
    · simp only [Option.some.injEq] at hb; subst hb
      refine ⟨⟨h1, h2, h3⟩, ?_, fun j hj => hj⟩
      rw [not_and_or] at hk
      rcases hk with hk | hk
      · exact (linked_of_colSum hk).grows h3
      · exact (linked_of_rowSum hk).grows h3

/-! ### the symmetric repair -/

/-- what a step of the symmetric repair preserves -/
def SymStep (E : ℝ → Prop) (step : Fin n → St R n → St R n) : Prop :=
  ∀ ind s, Loopless s.1 → SymmetricM s.1 → Entries E s.1 → colSum s.1 ind = 0 →
    Loopless (step ind s).1 ∧ SymmetricM (step ind s).1 ∧ Entries E (step ind s).1 ∧ Grows s.1 (step ind s).1

/-- the matrix with the link `{a, b}` of weight `w` -/
def link (A : Fin n → Fin n → ℝ) (a b : Fin n) (w : ℝ) : Fin n → Fin n → ℝ :=
  fun i j => if (i = a ∧ j = b) ∨ (i = b ∧ j = a) then w else A i j

theorem link_inv {E : ℝ → Prop} {A : Fin n → Fin n → ℝ} {a b : Fin n} (hab : a ≠ b) {w : ℝ} (hw : E w) (hE : (∀ x, E x → 0 ≤ x) ∨ w ≠ 0)
    (hl : Loopless A) (hs : SymmetricM A) (he : Entries E A) (hc : colSum A a = 0) :
    Loopless (link A a b w) ∧ SymmetricM (link A a b w) ∧ Entries E (link A a b w) ∧ Grows A (link A a b w) := by
  refine ⟨fun i => ?_, fun i j => ?_, fun i j => ?_, fun i j hij => ?_⟩
  · unfold link
    rw [if_neg]
    · exact hl i
    · rintro (⟨rfl, h⟩ | ⟨rfl, h⟩)
      · exact hab h
      · exact hab h.symm
  · unfold link
    rw [hs i j]
    have : ((i = a ∧ j = b) ∨ (i = b ∧ j = a)) ↔ ((j = a ∧ i = b) ∨ (j = b ∧ i = a)) := by tauto
    simp only [this]
  · unfold link; split_ifs
    · exact hw
    · exact he i j
  · unfold link; split_ifs with h
    · rcases hE with hE | hE
      · exfalso
        have hz := col_zero (fun i j => hE _ (he i j)) hc
        rcases h with ⟨rfl, rfl⟩ | ⟨rfl, rfl⟩
        · exact hij ((hs _ _).trans (hz _))
        · exact hij (hz _)
      · exact hE
    · exact hij

theorem repairStepDenseSym_eq (ind : Fin n) (s : St R n) (hl : Loopless s.1) :
    (repairStepDenseSym R ind s).1 = if (drawNode R ind s.2).1 = ind then s.1 else link s.1 ind (drawNode R ind s.2).1 1 := by
  funext i j
  unfold repairStepDenseSym
  simp only [setAt2_apply]
  split_ifs with h1 h2 h3 h4 h5 h6 <;> simp_all [link, hl ind]
  all_goals first | (exact (hl _).symm) | grind

theorem repairStepBinSym_eq (ind : Fin n) (s : St R n) (hl : Loopless s.1) :
    (repairStepBinSym R ind s).1 = if (drawNode R ind s.2).1 = ind then s.1 else link s.1 ind (drawNode R ind s.2).1 1 := by
  funext i j
  unfold repairStepBinSym
  have := hl ind
  by_cases h : (drawNode R ind s.2).1 = ind
  · simp only [h, ne_eq, not_true_eq_false, if_false, if_true, setAt2_apply]
    split_ifs with h1
    · rw [h1.1, h1.2, this]
    · rfl
  · simp only [h, ne_eq, not_false_eq_true, if_true, if_false, setAt2_apply, copyAt2_apply, link]
    grind

theorem repairStepSym_eq (weight : R.S → ℝ × R.S) (ind : Fin n) (s : St R n) :
    (repairStepSym R weight ind s).1 =
      if (drawNode R ind s.2).1 = ind then s.1 else link s.1 ind (drawNode R ind s.2).1 (weight (drawNode R ind s.2).2).1 := by
  funext i j
  unfold repairStepSym
  by_cases h : (drawNode R ind s.2).1 = ind
  · simp only [h, ne_eq, not_true_eq_false, if_false, if_true]
  · simp only [h, ne_eq, not_false_eq_true, if_true, if_false, setAt2_apply, copyAt2_apply, link]
    grind

theorem symStep_dense {E : ℝ → Prop} (h1 : E 1) : SymStep (R := R) (n := n) E (repairStepDenseSym R) := fun ind s hl hs he hc => by
  rw [repairStepDenseSym_eq ind s hl]
  split_ifs with h
  · exact ⟨hl, hs, he, fun _ _ h => h⟩
  · exact link_inv (Ne.symm h) h1 (.inr one_ne_zero) hl hs he hc

theorem symStep_bin {E : ℝ → Prop} (h1 : E 1) : SymStep (R := R) (n := n) E (repairStepBinSym R) := fun ind s hl hs he hc => by
  rw [repairStepBinSym_eq ind s hl]
  split_ifs with h
  · exact ⟨hl, hs, he, fun _ _ h => h⟩
  · exact link_inv (Ne.symm h) h1 (.inr one_ne_zero) hl hs he hc

theorem symStep_weight {E : ℝ → Prop} {weight : R.S → ℝ × R.S} (hw : ∀ g, E (weight g).1) (hE : (∀ x, E x → 0 ≤ x) ∨ ∀ g, (weight g).1 ≠ 0) :
    SymStep (n := n) E (repairStepSym R weight) := fun ind s hl hs he hc => by
  rw [repairStepSym_eq]
  split_ifs with h
  · exact ⟨hl, hs, he, fun _ _ h => h⟩
  · exact link_inv (Ne.symm h) (hw _) (hE.imp id fun h => h _) hl hs he hc

theorem repairSym_inv {E : ℝ → Prop} {step : Fin n → St R n → St R n} (hstep : SymStep E step) (fuel : ℕ) (s s' : St R n)
    (hl : Loopless s.1) (hs : SymmetricM s.1) (he : Entries E s.1) (h : repairSym R fuel step s = some s') :
    Loopless s'.1 ∧ SymmetricM s'.1 ∧ Entries E s'.1 ∧ Grows s.1 s'.1 ∧ NoIsolatedNode s'.1 := by
  unfold repairSym at h
  have := forO_inv (fun t : St R n => Loopless t.1 ∧ SymmetricM t.1 ∧ Entries E t.1 ∧ Grows s.1 t.1) (fun i (t : St R n) => Linked t.1 i) ?_ _ s s'
    ⟨hl, hs, he, fun _ _ h => h⟩ h
  · exact ⟨this.1.1, this.1.2.1, this.1.2.2.1, this.1.2.2.2, noIsolated_of this.1.1 fun i => this.2.1 i (List.mem_finRange i)⟩
  · rintro i t t' ⟨h1, h2, h3, h4⟩ hb
    split_ifs at hb with hk
    · obtain ⟨⟨a, b, c, e⟩, d⟩ := whileF_inv (fun u : St R n => Loopless u.1 ∧ SymmetricM u.1 ∧ Entries E u.1 ∧ Grows t.1 u.1)
        (fun u ⟨a, b, c, e⟩ hu => by
          obtain ⟨a', b', c', e'⟩ := hstep i u a b c hu
          exact ⟨a', b', c', e.trans e'⟩) fuel t t' ⟨h1, h2, h3, fun _ _ h => h⟩ hb
      exact ⟨⟨a, b, c, h4.trans e⟩, linked_of_colSum d, fun j hj => hj.grows e⟩
    · simp only [Option.some.injEq] at hb; subst hb
      exact ⟨⟨h1, h2, h3, h4⟩, (linked_of_colSum hk).grows h4, fun j hj => hj⟩

/-! ### the initial matrices -/

theorem forL_inv {σ α : Type} {body : α → σ → σ} (I : σ → Prop) (hI : ∀ a s, I s → I (body a s)) : ∀ (l : List α) (s : σ), I s → I (forL l body s)
  | [], _, h => h
  | a :: l, s, h => forL_inv I hI l (body a s) (hI a s h)

theorem fillRandom_entries {E : ℝ → Prop} (h0 : E 0) {draw : R.S → ℝ × R.S} (hd : ∀ g, E (draw g).1) (g : R.S) :
    Entries E (fillRandom (n := n) R draw g).1 := by
  refine forL_inv (fun s : St R n => Entries E s.1) (fun i s h => forL_inv (fun s : St R n => Entries E s.1) (fun j s h => ?_) _ s h) _ _ fun _ _ => h0
  intro a b
  simp only [setAt2_apply]; split_ifs
  · exact hd _
  · exact h a b

theorem fillDensity_entries {E : ℝ → Prop} (h0 : E 0) {weight : R.S → ℝ × R.S} (hd : ∀ g, E (weight g).1) (p : ℝ) (g : R.S) :
    Entries E (fillDensity (n := n) R p weight g).1 := by
  refine forL_inv (fun s : St R n => Entries E s.1) (fun i s h => forL_inv (fun s : St R n => Entries E s.1) (fun j s h => ?_) _ s h) _ _ fun _ _ => h0
  intro a b
  dsimp only
  split_ifs
  · simp only [setAt2_apply]; split_ifs
    · exact hd _
    · exact h a b
  · exact h a b

theorem fill_diagonal_loopless (A : Fin n → Fin n → ℝ) : Loopless (fill_diagonal A) := fun i => by simp [fill_diagonal]

theorem fill_diagonal_entries {E : ℝ → Prop} (h0 : E 0) {A : Fin n → Fin n → ℝ} (h : Entries E A) : Entries E (fill_diagonal A) := fun i j => by
  unfold fill_diagonal; split_ifs
  · exact h0
  · exact h i j

theorem fill_diagonal_symm {A : Fin n → Fin n → ℝ} (h : SymmetricM A) : SymmetricM (fill_diagonal A) := fun i j => by
  unfold fill_diagonal; rw [h i j]; simp only [eq_comm]

theorem fill_diagonal_of_loopless {A : Fin n → Fin n → ℝ} (h : Loopless A) : fill_diagonal A = A := by
  funext i j; unfold fill_diagonal; split_ifs with hij
  · rw [hij, h j]
  · rfl

theorem fillDensitySym_inv {E : ℝ → Prop} (h0 : E 0) {weight : R.S → ℝ × R.S} (hd : ∀ g, E (weight g).1) (p : ℝ) (g : R.S) :
    Loopless (fillDensitySym (n := n) R p weight g).1 ∧ SymmetricM (fillDensitySym (n := n) R p weight g).1 ∧
      Entries E (fillDensitySym (n := n) R p weight g).1 := by
  refine forL_inv (fun s : St R n => Loopless s.1 ∧ SymmetricM s.1 ∧ Entries E s.1) (fun i s h => ?_) _ _
    ⟨fun _ => rfl, fun _ _ => rfl, fun _ _ => h0⟩
  -- the inner list only contains nodes after `i`
  suffices ∀ (l : List (Fin n)), (∀ j ∈ l, i < j) → ∀ s : St R n, (Loopless s.1 ∧ SymmetricM s.1 ∧ Entries E s.1) →
      (Loopless (forL l (fun j s => let u := R.random s.2; if u.1 ≤ p then let t := weight u.2; let A := setAt2 s.1 i j t.1; (copyAt2 A j i i j, t.2)
        else (s.1, u.2)) s).1 ∧ SymmetricM (forL l (fun j s => let u := R.random s.2; if u.1 ≤ p then let t := weight u.2; let A := setAt2 s.1 i j t.1
        (copyAt2 A j i i j, t.2) else (s.1, u.2)) s).1 ∧ Entries E (forL l (fun j s => let u := R.random s.2; if u.1 ≤ p then let t := weight u.2
        let A := setAt2 s.1 i j t.1; (copyAt2 A j i i j, t.2) else (s.1, u.2)) s).1) from
    this _ (fun j hj => by simpa using (List.mem_filter.1 hj).2) s h
  intro l
  induction l with
  | nil => intro _ s h; exact h
  | cons j l ih =>
    intro hl s h
    rw [forL_cons]
    refine ih (fun k hk => hl k (List.mem_cons_of_mem _ hk)) _ ?_
    have hij : i < j := hl j (List.mem_cons_self ..)
    dsimp only
    split_ifs
    · have e : (copyAt2 (setAt2 s.1 i j (weight (R.random s.2).2).1) j i i j) =
          fun a b => if (a = i ∧ b = j) ∨ (a = j ∧ b = i) then (weight (R.random s.2).2).1 else s.1 a b := by
        funext a b
        simp only [copyAt2_apply, setAt2_apply]
        grind
      dsimp only
      rw [e]
      refine ⟨fun a => ?_, fun a b => ?_, fun a b => ?_⟩
      · dsimp only
        rw [if_neg]
        · exact h.1 a
        · rintro (⟨rfl, h⟩ | ⟨rfl, h⟩) <;> exact absurd h (by first | exact hij.ne | exact hij.ne')
      · dsimp only
        rw [h.2.1 a b]
        have : ((a = i ∧ b = j) ∨ (a = j ∧ b = i)) ↔ ((b = i ∧ a = j) ∨ (b = j ∧ a = i)) := by tauto
        simp only [this]
      · dsimp only
        split_ifs
        · exact hd _
        · exact h.2.2 a b
    · exact h

/-! ### loops that cover a list -/

theorem forL_cover {σ α : Type} {body : α → σ → σ} (I : σ → Prop) (Q : α → σ → Prop) :
    ∀ (l : List α), (∀ a ∈ l, ∀ s, I s → I (body a s) ∧ Q a (body a s) ∧ ∀ b, Q b s → Q b (body a s)) →
      ∀ s, I s → I (forL l body s) ∧ (∀ a ∈ l, Q a (forL l body s)) ∧ ∀ b, Q b s → Q b (forL l body s)
  | [], _, s, hs => ⟨hs, by simp, fun _ h => h⟩
  | a :: l, h, s, hs => by
    obtain ⟨h1, h2, h3⟩ := h a (List.mem_cons_self ..) s hs
    obtain ⟨h4, h5, h6⟩ := forL_cover I Q l (fun b hb => h b (List.mem_cons_of_mem _ hb)) (body a s) h1
    rw [forL_cons]
    refine ⟨h4, fun b hb => ?_, fun b hb => h6 b (h3 b hb)⟩
    rcases List.mem_cons.1 hb with rfl | hb
    · exact h6 _ h2
    · exact h5 b hb

/-- with `p ≥ 1` every entry is drawn -/
theorem fillDensity_full {weight : R.S → ℝ × R.S} {p : ℝ} (hp : 1 ≤ p) (g : R.S) (i j : Fin n) :
    ∃ g', (fillDensity (n := n) R p weight g).1 i j = (weight g').1 := by
  have key : ∀ s : St R n, (R.random s.2).1 ≤ p := fun s => (R.random_lt s.2).le.trans hp
  have := forL_cover (σ := St R n) (α := Fin n) (body := fun i s => forR n (fun j s =>
      let u := R.random s.2
      if u.1 ≤ p then
        let t := weight u.2
        (setAt2 s.1 i j t.1, t.2)
      else (s.1, u.2)) s) (fun _ => True) (fun i s => ∀ j, ∃ g', s.1 i j = (weight g').1) (List.finRange n) (fun i _ s _ => ?_) (fun _ _ => 0, g) trivial
  · exact this.2.1 i (List.mem_finRange i) j
  · have h := forL_cover (σ := St R n) (α := Fin n) (body := fun j s =>
      let u := R.random s.2
      if u.1 ≤ p then
        let t := weight u.2
        (setAt2 s.1 i j t.1, t.2)
      else (s.1, u.2)) (fun _ => True) (fun j s => ∃ g', s.1 i j = (weight g').1) (List.finRange n) (fun j _ s _ => ?_) s trivial
    · refine ⟨trivial, fun j => h.2.1 j (List.mem_finRange j), fun b hb j => ?_⟩
      -- rows other than `i` do not change
      by_cases hbi : b = i
      · subst hbi; exact h.2.2 j (hb j)
      · have := forL_inv (σ := St R n) (α := Fin n) (body := fun j s =>
          let u := R.random s.2
          if u.1 ≤ p then
            let t := weight u.2
            (setAt2 s.1 i j t.1, t.2)
          else (s.1, u.2)) (fun t => t.1 b j = s.1 b j) (fun a t ht => ?_) (List.finRange n) s rfl
        · obtain ⟨g', hg⟩ := hb j
          exact ⟨g', (this.trans hg)⟩
        · dsimp only
          rw [if_pos (key t)]
          simp only [setAt2_apply, hbi, false_and, if_false]
          exact ht
    · dsimp only
      rw [if_pos (key s)]
      refine ⟨trivial, ⟨_, (setAt2_apply _ _ _ _ _ _).trans (if_pos ⟨rfl, rfl⟩)⟩, fun b ⟨g', hb⟩ => ?_⟩
      simp only [setAt2_apply]
      split_ifs
      · exact ⟨_, rfl⟩
      · exact ⟨g', hb⟩

/-! ### weights on given links -/

/-- `B` has zeros where `A` has, and drawn values elsewhere -/
def WeightedFrom (weight : R.S → ℝ × R.S) (A B : Fin n → Fin n → ℝ) : Prop :=
  ∀ i j, (A i j = 0 → B i j = 0) ∧ (A i j ≠ 0 → ∃ g, B i j = (weight g).1)

theorem mem_nonzero {A : Fin n → Fin n → ℝ} {q : Fin n × Fin n} : q ∈ nonzero A ↔ A q.1 q.2 ≠ 0 := by
  unfold nonzero
  obtain ⟨a, b⟩ := q
  rw [List.mem_filter, List.pair_mem_product]
  simp

theorem mem_nonzeroTriu {A : Fin n → Fin n → ℝ} {q : Fin n × Fin n} : q ∈ nonzeroTriu A ↔ A q.1 q.2 ≠ 0 ∧ q.1 ≤ q.2 := by
  unfold nonzeroTriu
  rw [List.mem_filter, mem_nonzero]
  simp

theorem weightsDir_spec (weight : R.S → ℝ × R.S) (A : Fin n → Fin n → ℝ) (g : R.S) : WeightedFrom weight A (weightsDir R weight (A, g)).1 := by
  obtain ⟨h1, h2, -⟩ := forL_cover (σ := St R n) (body := fun (q : Fin n × Fin n) s => let t := weight s.2; (setAt2 s.1 q.1 q.2 t.1, t.2))
    (fun s => ∀ i j, A i j = 0 → s.1 i j = 0) (fun q s => ∃ g, s.1 q.1 q.2 = (weight g).1) (nonzero A) (fun q hq s hs => by
      rw [mem_nonzero] at hq
      refine ⟨fun i j hij => ?_, ⟨_, (setAt2_apply _ _ _ _ _ _).trans (if_pos ⟨rfl, rfl⟩)⟩, fun b ⟨g, hb⟩ => ?_⟩
      · simp only [setAt2_apply]
        rw [if_neg]
        · exact hs i j hij
        · rintro ⟨rfl, rfl⟩; exact hq hij
      · simp only [setAt2_apply]
        split_ifs
        · exact ⟨_, rfl⟩
        · exact ⟨g, hb⟩) (A, g) (fun _ _ h => h)
  exact fun i j => ⟨h1 i j, fun h => h2 (i, j) (mem_nonzero.2 h)⟩

theorem weightsSym_spec (weight : R.S → ℝ × R.S) (A : Fin n → Fin n → ℝ) (hA : SymmetricM A) (hl : Loopless A) (g : R.S) :
    WeightedFrom weight A (weightsSym R weight (A, g)).1 ∧ SymmetricM (weightsSym R weight (A, g)).1 := by
  obtain ⟨⟨h1, h0⟩, h2, -⟩ := forL_cover (σ := St R n) (body := fun (q : Fin n × Fin n) s =>
      let t := weight s.2; let A := setAt2 s.1 q.1 q.2 t.1; (copyAt2 A q.2 q.1 q.1 q.2, t.2))
    (fun s => (∀ i j, A i j = 0 → s.1 i j = 0) ∧ SymmetricM s.1) (fun q s => ∃ g, s.1 q.1 q.2 = (weight g).1) (nonzeroTriu A) (fun q hq s hs => by
      rw [mem_nonzeroTriu] at hq
      have hne : q.1 ≠ q.2 := fun h => hq.1 (by rw [h]; exact hl _)
      have e : copyAt2 (setAt2 s.1 q.1 q.2 (weight s.2).1) q.2 q.1 q.1 q.2 = link s.1 q.1 q.2 (weight s.2).1 := by
        funext a b
        simp only [copyAt2_apply, setAt2_apply, link]
        grind
      dsimp only
      rw [e]
      refine ⟨⟨fun i j hij => ?_, fun i j => ?_⟩, ⟨_, if_pos (.inl ⟨rfl, rfl⟩)⟩, fun b ⟨g, hb⟩ => ?_⟩
      · unfold link
        rw [if_neg]
        · exact hs.1 i j hij
        · rintro (⟨rfl, rfl⟩ | ⟨rfl, rfl⟩)
          · exact hq.1 hij
          · exact hq.1 ((hA _ _).trans hij)
      · unfold link
        rw [hs.2 i j]
        have : ((i = q.1 ∧ j = q.2) ∨ (i = q.2 ∧ j = q.1)) ↔ ((j = q.1 ∧ i = q.2) ∨ (j = q.2 ∧ i = q.1)) := by tauto
        simp only [this]
      · unfold link
        split_ifs
        · exact ⟨_, rfl⟩
        · exact ⟨g, hb⟩) (A, g) ⟨fun _ _ h => h, hA⟩
  refine ⟨fun i j => ⟨h1 i j, fun h => ?_⟩, h0⟩
  rcases le_total i j with hij | hij
  · exact h2 (i, j) (mem_nonzeroTriu.2 ⟨h, hij⟩)
  · obtain ⟨g, hg⟩ := h2 (j, i) (mem_nonzeroTriu.2 ⟨(hA i j) ▸ h, hij⟩)
    exact ⟨g, (h0 i j).trans hg⟩

/-! ### the largest component -/

theorem Reach.symm {A : Fin n → Fin n → ℝ} {i j : Fin n} (h : Reach A i j) : Reach A j i :=
  haveI : Std.Symm fun a b => A a b ≠ 0 ∨ A b a ≠ 0 := ⟨fun _ _ h => Or.symm h⟩
  (Relation.ReflTransGen.symmetric (r := fun a b => A a b ≠ 0 ∨ A b a ≠ 0)).symm _ _ h

theorem mem_component {A : Fin n → Fin n → ℝ} {i j : Fin n} : j ∈ component A i ↔ Reach A i j := by
  unfold component; simp

theorem component_nodup (A : Fin n → Fin n → ℝ) (i : Fin n) : (component A i).Nodup := (List.nodup_finRange n).filter _

theorem reach_induced {A : Fin n → Fin n → ℝ} (r : Fin n) (a : Fin (component A r).length) {x : Fin n} (h : Reach A ((component A r).get a) x) :
    ∃ b, (component A r).get b = x ∧ Reach (induced A (component A r)) a b := by
  induction h with
  | refl => exact ⟨a, rfl, Relation.ReflTransGen.refl⟩
  | tail hxy hyz ih =>
    rename_i y z
    obtain ⟨b, hb, hab⟩ := ih
    have hy : Reach A r y := mem_component.1 (hb ▸ List.get_mem _ _)
    have hz : z ∈ component A r := mem_component.2 (Relation.ReflTransGen.tail hy hyz)
    obtain ⟨c, hc⟩ := List.get_of_mem hz
    refine ⟨c, hc, Relation.ReflTransGen.tail hab ?_⟩
    simp only [induced, hb, hc]
    exact hyz

theorem induced_connected (A : Fin n → Fin n → ℝ) (r : Fin n) : ConnectedM (induced A (component A r)) := fun a b => by
  have h1 : Reach A r ((component A r).get a) := mem_component.1 (List.get_mem _ _)
  have h2 : Reach A r ((component A r).get b) := mem_component.1 (List.get_mem _ _)
  obtain ⟨c, hc, h⟩ := reach_induced r a (h1.symm.trans h2)
  have := (List.nodup_iff_injective_get.1 (component_nodup A r)) hc
  exact this ▸ h

theorem largest_cc_spec {A : Fin n → Fin n → ℝ} {l : List (Fin n)} (h : largest_cc A = some l) :
    (∃ r, l = component A r) ∧ 1 ≤ l.length ∧ ∀ i, (component A i).length ≤ l.length := by
  unfold largest_cc at h
  rw [Option.map_eq_some_iff] at h
  obtain ⟨r, hr, rfl⟩ := h
  refine ⟨⟨r, rfl⟩, List.length_pos_of_mem (mem_component.2 (Relation.ReflTransGen.refl : Reach A r r)), fun i => ?_⟩
  exact List.le_of_mem_argmax (f := fun i => (component A i).length) (List.mem_finRange i) hr

theorem largest_cc_isSome (hn : 0 < n) (A : Fin n → Fin n → ℝ) : ∃ l, largest_cc A = some l := by
  unfold largest_cc
  cases h : (List.finRange n).argmax fun i => (component A i).length with
  | none => rw [List.argmax_eq_none, List.finRange_eq_nil_iff] at h; omega
  | some r => exact ⟨_, rfl⟩

/-- no isolated node in a connected graph of two nodes or more -/
theorem noIsolated_of_connected {A : Fin n → Fin n → ℝ} (hn : 2 ≤ n) (hl : Loopless A) (h : ConnectedM A) : NoIsolatedNode A := fun i => by
  obtain ⟨j, hj⟩ : ∃ j : Fin n, j ≠ i := ⟨if i.val = 0 then ⟨1, by omega⟩ else ⟨0, by omega⟩, fun h => by
    have := congrArg Fin.val h
    split_ifs at this <;> simp at this <;> omega⟩
  rcases Relation.ReflTransGen.cases_head (h i j) with h | ⟨k, hk, -⟩
  · exact absurd h.symm hj
  · refine ⟨k, ?_, hk⟩
    rintro rfl
    rcases hk with hk | hk <;> exact hk (hl _)

theorem connected_of_sameLinks {A B : Fin n → Fin n → ℝ} (h : SameLinks A B) (hB : ConnectedM B) : ConnectedM A := fun i j =>
  Relation.ReflTransGen.mono (fun a b hab => Or.imp (h a b).2 (h b a).2 hab) _ _ (hB i j)

end Verif.Matgen
