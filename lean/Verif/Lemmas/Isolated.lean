import Verif.Lemmas.Solver

/-! A fixed-point run on a larger problem whose further coordinates stay at zero (used by C77). -/

namespace Verif.Solver

open Finset

noncomputable section

open Classical in
attribute [local instance 0] Classical.propDecidable

variable {κ κ' : Type} [Fintype κ] [DecidableEq κ] [Fintype κ'] [DecidableEq κ']

/-- `x` on the coordinates named by `J`, zero elsewhere -/
def ext (J : κ → κ') (x : κ → ℝ) : κ' → ℝ := Function.extend J x 0

variable {J : κ → κ'}

theorem ext_at (hJ : J.Injective) (x : κ → ℝ) (q : κ) : ext J x (J q) = x q := hJ.extend_apply x 0 q

theorem ext_off (x : κ → ℝ) {v : κ'} (h : ∀ q, J q ≠ v) : ext J x v = 0 := by
  unfold ext
  rw [Function.extend_apply' _ _ _ (by simpa using h)]
  rfl

theorem ext_eq (hJ : J.Injective) {x : κ → ℝ} {y : κ' → ℝ} (h1 : ∀ q, y (J q) = x q) (h2 : ∀ v, (∀ q, J q ≠ v) → y v = 0) : y = ext J x := by
  funext v
  by_cases h : ∃ q, J q = v
  · obtain ⟨q, rfl⟩ := h
    rw [h1, ext_at hJ]
  · push Not at h
    rw [h2 v h, ext_off x h]

theorem ext_zero : ext J (0 : κ → ℝ) = 0 := by
  unfold ext; funext v; simp [Function.extend_def]

theorem ext_comb (hJ : J.Injective) (x y : κ → ℝ) (a : ℝ) : ext J x + a • ext J y = ext J (x + a • y) :=
  ext_eq hJ (fun q => by simp [ext_at hJ]) fun v h => by simp [ext_off _ h]

theorem ext_smul (hJ : J.Injective) (y : κ → ℝ) (a : ℝ) : a • ext J y = ext J (a • y) :=
  ext_eq hJ (fun q => by simp [ext_at hJ]) fun v h => by simp [ext_off _ h]

theorem ext_sub (hJ : J.Injective) (x y : κ → ℝ) : ext J x - ext J y = ext J (x - y) :=
  ext_eq hJ (fun q => by simp [ext_at hJ]) fun v h => by simp [ext_off _ h]

/-- a sum with no contributions outside -/
theorem sum_ext (hJ : J.Injective) {f : κ → ℝ} {g : κ' → ℝ} (h1 : ∀ q, g (J q) = f q) (h2 : ∀ v, (∀ q, J q ≠ v) → g v = 0) : ∑ v, g v = ∑ q, f q := by
  rw [← sum_subset (s₁ := univ.map ⟨J, hJ⟩) (subset_univ _) fun v _ hv => h2 v fun q hq => hv (by simp [← hq]), sum_map]
  exact sum_congr rfl fun q _ => h1 q

theorem norm2_ext (hJ : J.Injective) (x : κ → ℝ) : norm2 (ext J x) = norm2 x := by
  unfold norm2
  rw [sum_ext hJ (f := fun i => x i ^ 2) (fun q => by rw [ext_at hJ]) fun v h => by rw [ext_off x h]; simp]

theorem maxAbs_ext [Nonempty κ] [Nonempty κ'] (hJ : J.Injective) {f : κ → ℝ} {g : κ' → ℝ} (h1 : ∀ q, g (J q) = f q) (h2 : ∀ v, (∀ q, J q ≠ v) → g v = 0) :
    maxAbs g = maxAbs f := by
  unfold maxAbs
  refine le_antisymm (sup'_le _ _ fun v _ => ?_) (sup'_le _ _ fun q _ => ?_)
  · by_cases h : ∃ q, J q = v
    · obtain ⟨q, rfl⟩ := h
      rw [h1]
      exact le_sup' (fun i => |f i|) (mem_univ q)
    · push Not at h
      rw [h2 v h, abs_zero]
      exact (abs_nonneg _).trans (le_sup' (fun i => |f i|) (mem_univ (Classical.arbitrary κ)))
  · rw [← h1]
    exact le_sup' (fun i => |g i|) (mem_univ (J q))

theorem normStage_ext (hJ : J.Injective) (dx dx_old : κ → ℝ) (a b : ℝ) (k : ℕ) : normStage (ext J dx) (ext J dx_old) a b k = normStage dx dx_old a b k := by
  unfold normStage
  simp only [ext_smul hJ, norm2_ext hJ]

/-- the positivity stages are minima -/
theorem le_positivityStage (order : List κ) (x dx : κ → ℝ) (α t : ℝ) :
    t ≤ positivityStage order x dx α ↔ t ≤ α ∧ ∀ i ∈ order, dx i ≠ 0 → (0.01 - 1) * x i / dx i ≥ 0 → t ≤ (0.01 - 1) * x i / dx i := by
  unfold positivityStage
  induction order generalizing α with
  | nil => simp [forL]
  | cons i l ih =>
    show t ≤ forL l _ _ ↔ _
    rw [ih, List.forall_mem_cons]
    by_cases h0 : dx i = 0
    · simp [h0]
    · by_cases h1 : (0.01 - 1) * x i / dx i ≥ 0
      · simp only [if_neg h0, if_pos h1, le_min_iff]
        tauto
      · simp only [if_neg h0, if_neg h1]
        tauto

theorem le_positivityStage' (order : List κ) (x dx : κ → ℝ) (α t : ℝ) :
    t ≤ positivityStage' order x dx α ↔ t ≤ α ∧ ∀ i ∈ order, dx i ≠ 0 → (0.01 - 1) * x i / dx i > 0 → t ≤ (0.01 - 1) * x i / dx i := by
  unfold positivityStage'
  induction order generalizing α with
  | nil => simp [forL]
  | cons i l ih =>
    rw [List.forall_mem_cons, List.filter_cons]
    by_cases h0 : dx i = 0
    · simp only [h0, ne_eq, not_true_eq_false, decide_false, Bool.false_eq_true, if_false, false_imp_iff, true_and]
      exact ih α
    · rw [if_pos (by simpa using h0)]
      refine Iff.trans (ih _) ?_
      by_cases h1 : (0.01 - 1) * x i / dx i > 0
      · simp only [if_pos h1, le_min_iff]
        tauto
      · simp only [if_neg h1]
        tauto

theorem positivityStage_ext (hJ : J.Injective) {order : List κ} {order' : List κ'} (h : ∀ q, q ∈ order) (h' : ∀ v, v ∈ order') (x dx : κ → ℝ) (α : ℝ) :
    positivityStage order' (ext J x) (ext J dx) α = positivityStage order x dx α := by
  refine eq_of_forall_le_iff fun t => ?_
  rw [le_positivityStage, le_positivityStage]
  refine and_congr_right fun _ => ⟨fun H q _ => ?_, fun H v _ => ?_⟩
  · have := H (J q) (h' _)
    rwa [ext_at hJ, ext_at hJ] at this
  · by_cases hv : ∃ q, J q = v
    · obtain ⟨q, rfl⟩ := hv
      rw [ext_at hJ, ext_at hJ]
      exact H q (h q)
    · push Not at hv
      rw [ext_off dx hv]
      simp

theorem positivityStage'_ext (hJ : J.Injective) {order : List κ} {order' : List κ'} (h : ∀ q, q ∈ order) (h' : ∀ v, v ∈ order') (x dx : κ → ℝ) (α : ℝ) :
    positivityStage' order' (ext J x) (ext J dx) α = positivityStage' order x dx α := by
  refine eq_of_forall_le_iff fun t => ?_
  rw [le_positivityStage', le_positivityStage']
  refine and_congr_right fun _ => ⟨fun H q _ => ?_, fun H v _ => ?_⟩
  · have := H (J q) (h' _)
    rwa [ext_at hJ, ext_at hJ] at this
  · by_cases hv : ∃ q, J q = v
    · obtain ⟨q, rfl⟩ := hv
      rw [ext_at hJ, ext_at hJ]
      exact H q (h q)
    · push Not at hv
      rw [ext_off dx hv]
      simp

/-- the state of the run on the larger problem -/
def State.embed (J : κ → κ') (s : State κ) : State κ' :=
  { x := ext J s.x, f := ext J s.f, norm := s.norm, diff := s.diff, dx_old := ext J s.dx_old, n_steps := s.n_steps, norm_seq := s.norm_seq, diff_seq := s.diff_seq,
    alfa_seq := s.alfa_seq }

/-- the fixed-point map and its line search on the larger problem, on vectors that vanish on `Z` -/
structure Embedded (J : κ → κ') (Z : κ → Prop) (C : Callbacks κ) (C' : Callbacks κ') : Prop where
  fn : ∀ x, (∀ q, Z q → x q = 0) → C'.fn (ext J x) = ext J (C.fn x)
  zero : ∀ x q, Z q → C.fn x q = 0
  search : ∀ x dx dx_old a b k, C'.linsearchFixed (ext J x) (ext J dx) (ext J dx_old) a b k = C.linsearchFixed x dx dx_old a b k

variable [Nonempty κ] [Nonempty κ']

theorem step_embed (hJ : J.Injective) {Z : κ → Prop} {C : Callbacks κ} {C' : Callbacks κ'} (h : Embedded J Z C C') {o : Opts} (hm : o.method = "fixed-point") (s : State κ)
    (hx : ∀ q, Z q → s.x q = 0) (hf : ∀ q, Z q → s.f q = 0) :
    step C' o (s.embed J) = (step C o s).map (State.embed J) ∧ ∀ s', step C o s = .ok s' → (∀ q, Z q → s'.x q = 0) ∧ ∀ q, Z q → s'.f q = 0 := by
  have hd : direction C o s.x s.f = .ok (s.f - s.x) := by simp [direction, hm]
  have hd' : direction C' o (s.embed J).x (s.embed J).f = .ok (ext J (s.f - s.x)) := by
    simp [direction, hm, ← ext_sub hJ]; rfl
  have h2 : stepLength C' o (s.embed J) (ext J (s.f - s.x)) = stepLength C o s (s.f - s.x) := by
    unfold stepLength
    have hn : ¬ (o.linsearch = true ∧ ("fixed-point" = "newton" ∨ "fixed-point" = "quasinewton")) := by simp
    simp only [hm, State.embed, h.search, if_neg hn]
  unfold step
  rw [hd, hd']
  dsimp only
  rw [h2]
  cases stepLength C o s (s.f - s.x) with
  | error er => exact ⟨rfl, by simp⟩
  | ok a =>
    have hz : ∀ q, Z q → (s.x + a • (s.f - s.x)) q = 0 := fun q hq => by simp [hx q hq, hf q hq]
    refine ⟨?_, fun s' hs' => ?_⟩
    · have h3 : (s.embed J).x + a • ext J (s.f - s.x) = ext J (s.x + a • (s.f - s.x)) := ext_comb hJ _ _ _
      have h4 : ext J (s.x + a • (s.f - s.x)) - (s.embed J).x = ext J (s.x + a • (s.f - s.x) - s.x) := ext_sub hJ _ _
      simp only [h3, h.fn _ hz, norm2_ext hJ, h4]
      simp only [ext_smul hJ]
      rfl
    · cases hs'
      exact ⟨hz, fun q hq => h.zero _ q hq⟩

/-- the run on the larger problem -/
theorem solver_embed (hJ : J.Injective) {Z : κ → Prop} {C : Callbacks κ} {C' : Callbacks κ'} (h : Embedded J Z C C') {o : Opts} (hm : o.method = "fixed-point") (x0 : κ → ℝ)
    (h0 : ∀ q, Z q → x0 q = 0) : solver C' o (ext J x0) = (solver C o x0).map (State.embed J) := by
  have key : ∀ (k : ℕ) (s : State κ), (∀ q, Z q → s.x q = 0) → (∀ q, Z q → s.f q = 0) → loop C' o k (s.embed J) = (loop C o k s).map (State.embed J) := by
    intro k
    induction k with
    | zero => intro s _ _; rfl
    | succ k ih =>
      intro s hx hf
      obtain ⟨h1, h2⟩ := step_embed hJ h hm s hx hf
      unfold loop
      by_cases hc : s.norm > o.tol ∧ s.diff > o.eps
      · rw [if_pos hc, if_pos (show (s.embed J).norm > o.tol ∧ (s.embed J).diff > o.eps from hc), h1]
        cases hst : step C o s with
        | error er => rfl
        | ok s' =>
          obtain ⟨k1, k2⟩ := h2 s' hst
          exact ih s' k1 k2
      · rw [if_neg hc, if_neg (show ¬((s.embed J).norm > o.tol ∧ (s.embed J).diff > o.eps) from hc)]
        rfl
  have : initState C' (ext J x0) = (initState C x0).embed J := by
    simp only [initState, State.embed, h.fn x0 h0, norm2_ext hJ, ext_zero]
  unfold solver
  rw [this]
  exact key _ _ h0 fun q hq => h.zero _ q hq

/-- coordinates that start at zero and are mapped to zero stay at zero -/
theorem solver_zero {Z : κ → Prop} {C : Callbacks κ} {C' : Callbacks κ'} (h : Embedded J Z C C') {o : Opts} (hm : o.method = "fixed-point") {x0 : κ → ℝ}
    (h0 : ∀ q, Z q → x0 q = 0) {s : State κ} (hs : solver C o x0 = .ok s) : ∀ q, Z q → s.x q = 0 := by
  have key : ∀ (k : ℕ) (s s' : State κ), (∀ q, Z q → s.x q = 0) → (∀ q, Z q → s.f q = 0) → loop C o k s = .ok s' → ∀ q, Z q → s'.x q = 0 := by
    intro k
    induction k with
    | zero => intro s s' hx _ hs; cases hs; exact hx
    | succ k ih =>
      intro s s' hx hf hs
      unfold loop at hs
      by_cases hc : s.norm > o.tol ∧ s.diff > o.eps
      · rw [if_pos hc] at hs
        cases hst : step C o s with
        | error er => rw [hst] at hs; cases hs
        | ok t =>
          rw [hst] at hs
          obtain ⟨dx, a, h1, -, ht⟩ := step_ok hst
          have hd : dx = s.f - s.x := by simp [direction, hm] at h1; exact h1.symm
          refine ih t s' (fun q hq => ?_) (fun q hq => ?_) hs
          · rw [ht, hd]; simp [hx q hq, hf q hq]
          · rw [ht]; exact h.zero _ q hq
      · rw [if_neg hc] at hs; cases hs; exact hx
  exact key _ _ _ h0 (fun q hq => h.zero _ q hq) hs

end

end Verif.Solver
