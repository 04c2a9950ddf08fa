import Verif.Lemmas.Existence
import Verif.Spec.Existence
import Verif.Props.FixedPoint

/-! C66: which networks can be fitted exactly by the binary models, and convergence on all of them. -/

namespace Verif.Solve

open Verif Finset Reduction Solver Spec FixedPoint Existence

noncomputable section

open Classical in
attribute [local instance 0] propDecidable

variable {n : ℕ}

/-- values below 1 that add up to at least 1 have two non-zero members -/
theorem two_of_sum (a : Fin n → ℝ) (i : Fin n) (ha : ∀ j, j ≠ i → a j < 1) (h : 1 ≤ ∑ j ∈ univ.filter (· ≠ i), a j) :
    ∃ j₁ j₂, j₁ ≠ j₂ ∧ j₁ ≠ i ∧ j₂ ≠ i ∧ a j₁ ≠ 0 ∧ a j₂ ≠ 0 := by
  by_contra hno
  push Not at hno
  by_cases hex : ∃ j₁, j₁ ≠ i ∧ a j₁ ≠ 0
  · obtain ⟨j₁, hj, h1⟩ := hex
    rw [sum_eq_single_of_mem j₁ (by simp [hj])] at h
    · exact absurd h (not_le.2 (ha j₁ hj))
    · intro j hj2 hne
      simp only [mem_filter, mem_univ, true_and] at hj2
      exact hno j₁ j hne.symm hj hj2 h1
  · push Not at hex
    rw [sum_eq_zero] at h
    · linarith
    · intro j hj
      simp only [mem_filter, mem_univ, true_and] at hj
      exact hex j hj

theorem sig_link (a b : ℝ) : sig (a + b) = Real.exp (-a) * Real.exp (-b) / (1 + Real.exp (-a) * Real.exp (-b)) := by
  unfold sig
  rw [show -(a + b) = -a + -b by ring, Real.exp_add]

theorem link_lt_one {a b : ℝ} (ha : 0 ≤ a) (hb : 0 ≤ b) : a * b / (1 + a * b) < 1 := by
  have := mul_nonneg ha hb
  rw [div_lt_one (by positivity)]; linarith

/-- C66 (UBCM): degrees that are zero or at least one, in particular those of a network, have an exact solution if and only if they are loose. -/
theorem C66_ubcm_iff (k : Fin n → ℝ) (hk : ∀ i, k i ≠ 0 → 1 ≤ k i) : (∃ x, SolvesUBCM k x) ↔ Loose k := by
  constructor
  · rintro ⟨x, h⟩
    have hpos : ∀ i, k i ≠ 0 → 0 < x i := fun i hi => lt_of_le_of_ne (h.nonneg i) fun h0 => hi (by
      rw [← h.mean i]; unfold degUBCM linkUBCM; simp [← h0])
    refine ⟨linkUBCM x, fun i j => by simp only [linkUBCM, mul_comm], fun i j _ hi hj => ?_, fun i j hij => ?_, h.mean⟩
    · have h1 := hpos i hi
      have h2 := hpos j hj
      exact ⟨by unfold linkUBCM; positivity, link_lt_one h1.le h2.le⟩
    · rcases hij with hi | hj
      · simp [linkUBCM, h.zero i hi]
      · simp [linkUBCM, h.zero j hj]
  · rintro ⟨P, hsym, hP, hP0, hsum⟩
    have hlt : ∀ i j, j ≠ i → P i j < 1 := fun i j hij => by
      by_cases hi : k i = 0
      · rw [hP0 i j (.inl hi)]; norm_num
      by_cases hj : k j = 0
      · rw [hP0 i j (.inr hj)]; norm_num
      exact (hP i j hij.symm hi hj).2
    have htwo : ∀ i, k i ≠ 0 → ∃ j₁ j₂, j₁ ≠ j₂ ∧ j₁ ≠ i ∧ j₂ ≠ i ∧ k j₁ ≠ 0 ∧ k j₂ ≠ 0 := fun i hi => by
      obtain ⟨j₁, j₂, h1, h2, h3, h4, h5⟩ := two_of_sum (P i) i (hlt i) (by rw [hsum]; exact hk i hi)
      exact ⟨j₁, j₂, h1, h2, h3, fun h => h4 (hP0 i j₁ (.inr h)), fun h => h5 (hP0 i j₂ (.inr h))⟩
    set E : Finset (Fin n × Fin n) := univ.filter fun e => e.1 ≠ e.2 ∧ k e.1 ≠ 0 ∧ k e.2 ≠ 0 with hE
    obtain ⟨θ, -, hθ⟩ := exists_min E (fun e => P e.1 e.2) (fun e he => by
      simp only [hE, mem_filter, mem_univ, true_and] at he
      exact hP _ _ he.1 he.2.1 he.2.2) (univ.filter fun i => k i ≠ 0) (fun C => ⟨3 * C / 2, fun θ _ h v hv => by
        simp only [mem_filter, mem_univ, true_and] at hv
        obtain ⟨j₁, j₂, h12, h1, h2, k1, k2⟩ := htwo v hv
        have a1 := abs_le.1 (h (v, j₁) (by simp [hE, h1.symm, hv, k1]))
        have a2 := abs_le.1 (h (v, j₂) (by simp [hE, h2.symm, hv, k2]))
        have a3 := abs_le.1 (h (j₁, j₂) (by simp [hE, h12, k1, k2]))
        simp only at a1 a2 a3
        rw [abs_le]
        constructor <;> linarith⟩)
    refine ⟨fun i => if k i = 0 then 0 else Real.exp (-θ i), fun i => ?_, fun i hi => by simp [hi], fun i => ?_⟩
    · split_ifs
      · exact le_rfl
      · exact (Real.exp_pos _).le
    · by_cases hi : k i = 0
      · unfold degUBCM linkUBCM; simp [hi]
      have h1 := hθ i (by simp [hi])
      have h2 : ∑ e ∈ E, (P e.1 e.2 - sig (θ e.1 + θ e.2)) * ((if e.1 = i then 1 else 0) + (if e.2 = i then 1 else 0)) =
          2 * ∑ j, (if i ≠ j ∧ k j ≠ 0 then P i j - sig (θ i + θ j) else 0) := by
        rw [hE, sum_filter, Fintype.sum_prod_type]
        have e1 : ∀ a b, (if a ≠ b ∧ k a ≠ 0 ∧ k b ≠ 0 then (P a b - sig (θ a + θ b)) * ((if a = i then (1 : ℝ) else 0) + (if b = i then 1 else 0)) else 0) =
            (if a = i then (if i ≠ b ∧ k b ≠ 0 then P i b - sig (θ i + θ b) else 0) else 0) +
            (if b = i then (if i ≠ a ∧ k a ≠ 0 then P i a - sig (θ i + θ a) else 0) else 0) := fun a b => by
          by_cases ha : a = i <;> by_cases hb : b = i
          · subst ha; subst hb; simp
          · subst ha
            simp [hb, hi]
          · subst hb
            by_cases hka : k a = 0
            · simp [ha, hka]
            · simp [ha, hka, hi, Ne.symm ha, hsym b a, add_comm (θ b)]
          · simp [ha, hb]
        simp only [e1, sum_add_distrib]
        rw [sum_comm (f := fun a b => if a = i then (if i ≠ b ∧ k b ≠ 0 then P i b - sig (θ i + θ b) else 0) else 0)]
        simp only [sum_ite_eq', mem_univ, if_true]
        ring
      rw [h2] at h1
      have h3 : ∑ j, (if i ≠ j ∧ k j ≠ 0 then P i j - sig (θ i + θ j) else 0) = k i - degUBCM (fun i => if k i = 0 then 0 else Real.exp (-θ i)) i := by
        rw [← hsum i, degUBCM, ← sum_sub_distrib, sum_filter]
        refine sum_congr rfl fun j _ => ?_
        by_cases hij : j = i
        · subst hij; simp
        by_cases hj : k j = 0
        · simp [hj, hij, linkUBCM, hP0 i j (.inr hj)]
        · simp only [Ne.symm hij, ne_eq, not_false_eq_true, hj, hij, and_self, if_true, linkUBCM, hi, if_false, sig_link]
      rw [h3] at h1
      linarith

/-- C66 (DBCM): out-degrees and in-degrees that are zero or at least one have an exact solution if and only if they are loose. -/
theorem C66_dbcm_iff (ko ki : Fin n → ℝ) (hko : ∀ i, ko i ≠ 0 → 1 ≤ ko i) (hki : ∀ i, ki i ≠ 0 → 1 ≤ ki i) : (∃ x y, SolvesDBCM ko ki x y) ↔ LooseD ko ki := by
  constructor
  · rintro ⟨x, y, h⟩
    have hpo : ∀ i, ko i ≠ 0 → 0 < x i := fun i hi => lt_of_le_of_ne (h.nonneg_out i) fun h0 => hi (by
      rw [← h.mean_out i]; unfold outDBCM linkDBCM; simp [← h0])
    have hpi : ∀ i, ki i ≠ 0 → 0 < y i := fun i hi => lt_of_le_of_ne (h.nonneg_in i) fun h0 => hi (by
      rw [← h.mean_in i]; unfold inDBCM linkDBCM; simp [← h0])
    refine ⟨linkDBCM x y, fun i j _ hi hj => ?_, fun i j hij => ?_, h.mean_out, h.mean_in⟩
    · have h1 := hpo i hi
      have h2 := hpi j hj
      exact ⟨by unfold linkDBCM; positivity, link_lt_one h1.le h2.le⟩
    · rcases hij with hi | hj
      · simp [linkDBCM, h.zero_out i hi]
      · simp [linkDBCM, h.zero_in j hj]
  · rintro ⟨P, hP, hP0, hrow, hcol⟩
    by_cases hex : ∃ a, ko a ≠ 0
    swap
    · push Not at hex
      have hz : ∀ j, ki j = 0 := fun j => by rw [← hcol j]; exact sum_eq_zero fun i _ => hP0 i j (.inl (hex i))
      refine ⟨fun _ => 0, fun _ => 0, fun _ => le_rfl, fun _ => le_rfl, fun _ _ => rfl, fun _ _ => rfl, fun i => ?_, fun i => ?_⟩
      · simp [outDBCM, linkDBCM, hex i]
      · simp [inDBCM, linkDBCM, hz i]
    obtain ⟨a, hka⟩ := hex
    have hlt : ∀ i j, i ≠ j → P i j < 1 := fun i j hij => by
      by_cases hi : ko i = 0
      · rw [hP0 i j (.inl hi)]; norm_num
      by_cases hj : ki j = 0
      · rw [hP0 i j (.inr hj)]; norm_num
      exact (hP i j hij hi hj).2
    have htwo : ∀ i, ko i ≠ 0 → ∃ j₁ j₂, j₁ ≠ j₂ ∧ j₁ ≠ i ∧ j₂ ≠ i ∧ ki j₁ ≠ 0 ∧ ki j₂ ≠ 0 := fun i hi => by
      obtain ⟨j₁, j₂, h1, h2, h3, h4, h5⟩ := two_of_sum (P i) i (fun j hj => hlt i j hj.symm) (by rw [hrow]; exact hko i hi)
      exact ⟨j₁, j₂, h1, h2, h3, fun h => h4 (hP0 i j₁ (.inr h)), fun h => h5 (hP0 i j₂ (.inr h))⟩
    have htwo' : ∀ j, ki j ≠ 0 → ∃ i, i ≠ j ∧ ko i ≠ 0 := fun j hj => by
      obtain ⟨i₁, i₂, h1, h2, h3, h4, h5⟩ := two_of_sum (fun i => P i j) j (fun i hi => hlt i j hi) (by rw [hcol]; exact hki j hj)
      exact ⟨i₁, h2, fun h => h4 (hP0 i₁ j (.inl h))⟩
    set A : Finset (Fin n × Fin n) := univ.filter fun e => e.1 ≠ e.2 ∧ ko e.1 ≠ 0 ∧ ki e.2 ≠ 0 with hA
    set emb : Fin n × Fin n → (Fin 2 × Fin n) × (Fin 2 × Fin n) := fun e => ((0, e.1), (1, e.2)) with hemb
    have hinj : Set.InjOn emb A := fun p _ q _ h => by
      simp only [hemb, Prod.mk.injEq, true_and] at h
      exact Prod.ext h.1 h.2
    have hmem : ∀ i j, i ≠ j → ko i ≠ 0 → ki j ≠ 0 → ((0, i), (1, j)) ∈ A.image emb := fun i j h1 h2 h3 =>
      mem_image.2 ⟨(i, j), by simp [hA, h1, h2, h3], rfl⟩
    set S : Finset (Fin 2 × Fin n) := univ.filter fun v => (v.1 = 0 ∧ v.2 ≠ a ∧ ko v.2 ≠ 0) ∨ (v.1 = 1 ∧ ki v.2 ≠ 0) with hS
    obtain ⟨θ, -, hθ⟩ := exists_min (A.image emb) (fun e => P e.1.2 e.2.2) (fun e he => by
      obtain ⟨p, hp, rfl⟩ := mem_image.1 he
      simp only [hA, mem_filter, mem_univ, true_and] at hp
      exact hP _ _ hp.1 hp.2.1 hp.2.2) S (fun C => ⟨3 * |C|, fun θ h0 h v hv => by
        have hCC := le_abs_self C
        have hC0 := abs_nonneg C
        have ha0 : θ (0, a) = 0 := h0 _ (by simp [hS])
        have hin : ∀ j, j ≠ a → ki j ≠ 0 → |θ (1, j)| ≤ |C| := fun j hj hkj => by
          have := h _ (hmem a j hj.symm hka hkj)
          simp only [ha0, zero_add] at this
          exact this.trans hCC
        have hout : ∀ i, ko i ≠ 0 → |θ (0, i)| ≤ 2 * |C| := fun i hi => by
          obtain ⟨j, hj, hja, hkj⟩ : ∃ j, j ≠ i ∧ j ≠ a ∧ ki j ≠ 0 := by
            obtain ⟨j₁, j₂, h12, h1, h2, k1, k2⟩ := htwo i hi
            by_cases hj : j₁ = a
            · exact ⟨j₂, h2, fun h => h12 (hj.trans h.symm), k2⟩
            · exact ⟨j₁, h1, hj, k1⟩
          have a1 := abs_le.1 (h _ (hmem i j hj.symm hi hkj))
          have a2 := abs_le.1 (hin j hja hkj)
          simp only at a1
          rw [abs_le]
          constructor <;> linarith
        obtain ⟨b, i⟩ := v
        simp only [hS, mem_filter, mem_univ, true_and] at hv
        rcases hv with ⟨hb, -, hi⟩ | ⟨hb, hi⟩
        · obtain rfl : b = 0 := hb
          linarith [hout i hi]
        · obtain rfl : b = 1 := hb
          obtain ⟨l, hl, hkl⟩ := htwo' i hi
          have a1 := abs_le.1 (h _ (hmem l i hl hkl hi))
          have a2 := abs_le.1 (hout l hkl)
          simp only at a1
          rw [abs_le]
          constructor <;> linarith⟩)
    set D : Fin n → Fin n → ℝ := fun i j => if i ≠ j ∧ ko i ≠ 0 ∧ ki j ≠ 0 then P i j - sig (θ (0, i) + θ (1, j)) else 0 with hD
    have key : ∀ v : Fin 2 × Fin n, ∑ e ∈ A.image emb, (P e.1.2 e.2.2 - sig (θ e.1 + θ e.2)) * ((if e.1 = v then 1 else 0) + (if e.2 = v then 1 else 0)) =
        ∑ i, ∑ j, D i j * ((if ((0, i) : Fin 2 × Fin n) = v then 1 else 0) + (if ((1, j) : Fin 2 × Fin n) = v then 1 else 0)) := fun v => by
      rw [sum_image hinj, hA, sum_filter, Fintype.sum_prod_type]
      refine sum_congr rfl fun i _ => sum_congr rfl fun j _ => ?_
      simp only [hD, hemb]
      split_ifs <;> simp
    have hrow0 : ∀ i, i ≠ a → ∑ j, D i j = 0 := fun i hia => by
      by_cases hi : ko i = 0
      · exact sum_eq_zero fun j _ => by simp [hD, hi]
      have h1 := hθ (0, i) (by simp [hS, hia, hi])
      rw [key] at h1
      rw [← h1]
      rw [sum_eq_single i (fun l _ hl => sum_eq_zero fun j _ => by simp [hl]) (by simp)]
      simp
    have hcol0 : ∀ j, ∑ i, D i j = 0 := fun j => by
      by_cases hj : ki j = 0
      · exact sum_eq_zero fun i _ => by simp [hD, hj]
      have h1 := hθ (1, j) (by simp [hS, hj])
      rw [key, sum_comm] at h1
      rw [← h1]
      rw [sum_eq_single j (fun l _ hl => sum_eq_zero fun i _ => by simp [hl]) (by simp)]
      simp
    have hrowA : ∀ i, ∑ j, D i j = 0 := fun i => by
      by_cases hia : i = a
      · subst hia
        have h1 : ∑ l, ∑ j, D l j = ∑ j, D i j := sum_eq_single i (fun l _ hl => hrow0 l hl) (fun h => absurd (mem_univ i) h)
        rw [← h1, sum_comm]
        exact sum_eq_zero fun j _ => hcol0 j
      · exact hrow0 i hia
    have hlink : ∀ i j, i ≠ j → D i j = P i j - linkDBCM (fun i => if ko i = 0 then 0 else Real.exp (-θ (0, i))) (fun i => if ki i = 0 then 0 else Real.exp (-θ (1, i))) i j := fun i j hij => by
      by_cases hi : ko i = 0
      · simp [hD, hi, linkDBCM, hP0 i j (.inl hi)]
      by_cases hj : ki j = 0
      · simp [hD, hj, linkDBCM, hP0 i j (.inr hj)]
      simp only [hD, hij, ne_eq, not_false_eq_true, hi, hj, and_self, if_true, if_false, linkDBCM, sig_link]
    refine ⟨fun i => if ko i = 0 then 0 else Real.exp (-θ (0, i)), fun i => if ki i = 0 then 0 else Real.exp (-θ (1, i)), fun i => ?_, fun i => ?_,
      fun i hi => by simp [hi], fun i hi => by simp [hi], fun i => ?_, fun j => ?_⟩
    · split_ifs
      · exact le_rfl
      · exact (Real.exp_pos _).le
    · split_ifs
      · exact le_rfl
      · exact (Real.exp_pos _).le
    · have h1 := hrowA i
      have h2 : ∑ j, D i j = ∑ j ∈ univ.filter (· ≠ i), D i j := by
        rw [sum_filter]
        refine sum_congr rfl fun j _ => ?_
        by_cases hij : j = i
        · subst hij; simp [hD]
        · simp [hij]
      rw [h2, sum_congr rfl fun j hj => hlink i j (Ne.symm (mem_filter.1 hj).2), sum_sub_distrib, hrow i] at h1
      unfold outDBCM
      linarith
    · have h1 := hcol0 j
      have h2 : ∑ i, D i j = ∑ i ∈ univ.filter (· ≠ j), D i j := by
        rw [sum_filter]
        refine sum_congr rfl fun i _ => ?_
        by_cases hij : i = j
        · subst hij; simp [hD]
        · simp [hij]
      rw [h2, sum_congr rfl fun i hi => hlink i j (mem_filter.1 hi).2, sum_sub_distrib, hcol j] at h1
      unfold inDBCM
      linarith

/-- the average of indicators over a finite set, some of which hold and some of which do not, is strictly between 0 and 1 -/
theorem avg_between {α : Type} (T : Finset α) (h : α → Bool) (h1 : ∃ a ∈ T, h a = true) (h0 : ∃ a ∈ T, h a = false) :
    0 < (∑ a ∈ T, if h a = true then (1 : ℝ) else 0) / T.card ∧ (∑ a ∈ T, if h a = true then (1 : ℝ) else 0) / T.card < 1 := by
  obtain ⟨a, ha, ha1⟩ := h1
  obtain ⟨b, hb, hb0⟩ := h0
  have hc : (0 : ℝ) < T.card := by exact_mod_cast card_pos.2 ⟨a, ha⟩
  constructor
  · refine div_pos (lt_of_lt_of_le one_pos ?_) hc
    exact le_trans (by simp [ha1]) (single_le_sum (f := fun a => if h a = true then (1 : ℝ) else 0) (fun x _ => by split_ifs <;> norm_num) ha)
  · rw [div_lt_one hc]
    have : (T.card : ℝ) = ∑ a ∈ T, (1 : ℝ) := by simp
    rw [this]
    exact sum_lt_sum (fun x _ => by split_ifs <;> norm_num) ⟨b, hb, by simp [hb0]⟩

theorem row_card (A : Fin n → Fin n → Bool) (i : Fin n) (h : A i i = false) :
    ∑ j ∈ univ.filter (· ≠ i), (if A i j = true then (1 : ℝ) else 0) = ((univ.filter fun j => A i j = true).card : ℝ) := by
  rw [card_filter, Nat.cast_sum, sum_filter]
  refine sum_congr rfl fun j _ => ?_
  by_cases hj : j = i
  · subst hj; simp [h]
  · simp [hj]

theorem loose_of_switchable {k : Fin n → ℕ} (hex : ∃ A, Realises k A) (h : Switchable k) : Loose fun i => (k i : ℝ) := by
  obtain ⟨A₀, hA₀⟩ := hex
  set T : Finset (Fin n → Fin n → Bool) := univ.filter fun A => Realises k A with hT
  have hc : (T.card : ℝ) ≠ 0 := by exact_mod_cast (card_pos.2 ⟨A₀, by simp [hT, hA₀]⟩).ne'
  have hzero : ∀ A ∈ T, ∀ i j, k i = 0 → A i j = false := fun A hA i j hi => by
    have h1 := (mem_filter.1 hA).2.deg i
    rw [hi, card_eq_zero] at h1
    by_contra hne
    have : j ∈ univ.filter fun j => A i j = true := by simpa using hne
    rw [h1] at this
    simp at this
  refine ⟨fun i j => (∑ A ∈ T, if A i j = true then (1 : ℝ) else 0) / T.card, fun i j => ?_, fun i j hij hi hj => ?_, fun i j hij => ?_, fun i => ?_⟩
  · have : (∑ A ∈ T, if A i j = true then (1 : ℝ) else 0) = ∑ A ∈ T, if A j i = true then (1 : ℝ) else 0 :=
      sum_congr rfl fun A hA => by rw [(mem_filter.1 hA).2.symm i j]
    show _ / _ = _ / _
    rw [this]
  · obtain ⟨⟨A, hA, hA1⟩, B, hB, hB0⟩ := h i j hij (Nat.cast_ne_zero.1 hi) (Nat.cast_ne_zero.1 hj)
    exact avg_between T (fun A => A i j) ⟨A, by simp [hT, hA], hA1⟩ ⟨B, by simp [hT, hB], hB0⟩
  · show _ / _ = _
    rw [sum_eq_zero, zero_div]
    intro A hA
    rcases hij with hi | hj
    · rw [hzero A hA i j (Nat.cast_eq_zero.1 hi)]; simp
    · rw [(mem_filter.1 hA).2.symm i j, hzero A hA j i (Nat.cast_eq_zero.1 hj)]; simp
  · rw [← sum_div, sum_comm, div_eq_iff hc]
    rw [sum_congr rfl fun A hA => (row_card A i ((mem_filter.1 hA).2.noself i)).trans (by rw [(mem_filter.1 hA).2.deg i])]
    rw [sum_const, nsmul_eq_mul, mul_comm]

theorem looseD_of_switchableD {ko ki : Fin n → ℕ} (hex : ∃ A, RealisesD ko ki A) (h : SwitchableD ko ki) : LooseD (fun i => (ko i : ℝ)) fun i => (ki i : ℝ) := by
  obtain ⟨A₀, hA₀⟩ := hex
  set T : Finset (Fin n → Fin n → Bool) := univ.filter fun A => RealisesD ko ki A with hT
  have hc : (T.card : ℝ) ≠ 0 := by exact_mod_cast (card_pos.2 ⟨A₀, by simp [hT, hA₀]⟩).ne'
  refine ⟨fun i j => (∑ A ∈ T, if A i j = true then (1 : ℝ) else 0) / T.card, fun i j hij hi hj => ?_, fun i j hij => ?_, fun i => ?_, fun j => ?_⟩
  · obtain ⟨⟨A, hA, hA1⟩, B, hB, hB0⟩ := h i j hij (Nat.cast_ne_zero.1 hi) (Nat.cast_ne_zero.1 hj)
    exact avg_between T (fun A => A i j) ⟨A, by simp [hT, hA], hA1⟩ ⟨B, by simp [hT, hB], hB0⟩
  · show _ / _ = _
    rw [sum_eq_zero, zero_div]
    intro A hA
    rcases hij with hi | hj
    · have h1 := (mem_filter.1 hA).2.out i
      rw [show ko i = 0 from Nat.cast_eq_zero.1 hi, card_eq_zero, filter_eq_empty_iff] at h1
      exact if_neg (h1 (mem_univ j))
    · have h1 := (mem_filter.1 hA).2.inn j
      rw [show ki j = 0 from Nat.cast_eq_zero.1 hj, card_eq_zero, filter_eq_empty_iff] at h1
      exact if_neg (h1 (mem_univ i))
  · rw [← sum_div, sum_comm, div_eq_iff hc]
    rw [sum_congr rfl fun A hA => (row_card A i ((mem_filter.1 hA).2.noself i)).trans (by rw [(mem_filter.1 hA).2.out i])]
    rw [sum_const, nsmul_eq_mul, mul_comm]
  · rw [← sum_div, sum_comm, div_eq_iff hc]
    rw [sum_congr rfl fun A hA => (row_card (fun a b => A b a) j ((mem_filter.1 hA).2.noself j)).trans (by rw [(mem_filter.1 hA).2.inn j])]
    rw [sum_const, nsmul_eq_mul, mul_comm]

theorem nat_zero_or {k : Fin n → ℕ} (i : Fin n) (h : (k i : ℝ) ≠ 0) : (1 : ℝ) ≤ k i := by
  have : k i ≠ 0 := by exact_mod_cast h
  exact_mod_cast Nat.one_le_iff_ne_zero.2 this

/-- C66 (UBCM): a node linked to every other node of non-zero degree rules out an exact solution. -/
theorem C66_ubcm_hub (k : Fin n → ℝ) (i : Fin n) (hi : k i ≠ 0) (h : ((univ.filter fun j => j ≠ i ∧ k j ≠ 0).card : ℝ) ≤ k i) : ¬ ∃ x, SolvesUBCM k x := by
  rintro ⟨x, hx⟩
  have h1 := hx.mean i
  have h2 : degUBCM x i = ∑ j ∈ univ.filter (fun j => j ≠ i ∧ k j ≠ 0), linkUBCM x i j := by
    unfold degUBCM
    rw [sum_filter, sum_filter]
    refine sum_congr rfl fun j _ => ?_
    by_cases hj : k j = 0
    · simp [hj, linkUBCM, hx.zero j hj]
    · simp [hj]
  by_cases hne : (univ.filter fun j => j ≠ i ∧ k j ≠ 0).Nonempty
  · have h3 : ∑ j ∈ univ.filter (fun j => j ≠ i ∧ k j ≠ 0), linkUBCM x i j < ∑ j ∈ univ.filter (fun j => j ≠ i ∧ k j ≠ 0), (1 : ℝ) :=
      sum_lt_sum_of_nonempty hne fun j _ => link_lt_one (hx.nonneg i) (hx.nonneg j)
    rw [sum_const, nsmul_eq_mul, mul_one, ← h2] at h3
    linarith
  · rw [not_nonempty_iff_eq_empty.1 hne, sum_empty] at h2
    exact hi (by rw [← h1, h2])

/-- C66 (DBCM): a node that links to every other node of non-zero in-degree rules out an exact solution. -/
theorem C66_dbcm_hub (ko ki : Fin n → ℝ) (i : Fin n) (hi : ko i ≠ 0) (h : ((univ.filter fun j => j ≠ i ∧ ki j ≠ 0).card : ℝ) ≤ ko i) : ¬ ∃ x y, SolvesDBCM ko ki x y := by
  rintro ⟨x, y, hx⟩
  have h1 := hx.mean_out i
  have h2 : outDBCM x y i = ∑ j ∈ univ.filter (fun j => j ≠ i ∧ ki j ≠ 0), linkDBCM x y i j := by
    unfold outDBCM
    rw [sum_filter, sum_filter]
    refine sum_congr rfl fun j _ => ?_
    by_cases hj : ki j = 0
    · simp [hj, linkDBCM, hx.zero_in j hj]
    · simp [hj]
  by_cases hne : (univ.filter fun j => j ≠ i ∧ ki j ≠ 0).Nonempty
  · have h3 : ∑ j ∈ univ.filter (fun j => j ≠ i ∧ ki j ≠ 0), linkDBCM x y i j < ∑ j ∈ univ.filter (fun j => j ≠ i ∧ ki j ≠ 0), (1 : ℝ) :=
      sum_lt_sum_of_nonempty hne fun j _ => link_lt_one (hx.nonneg_out i) (hx.nonneg_in j)
    rw [sum_const, nsmul_eq_mul, mul_one, ← h2] at h3
    linarith
  · rw [not_nonempty_iff_eq_empty.1 hne, sum_empty] at h2
    exact hi (by rw [← h1, h2])

/-- C66: on every network in which any two nodes of non-zero degree could be linked and could be not linked without changing the degrees, the fixed-point method converges
for the "cm" model: with enough steps and small enough tolerances it returns without an exception and with degrees as precise as asked for. -/
theorem C66_cm_converges [NeZero n] (e : Env) (he : e.Valid) (hr : e.NonzeroDraws) (d : UData n) (hA : ∃ A, Realises d.dseq A) (hs : Switchable d.dseq) (hne : ∃ i, d.dseq i ≠ 0) (guess : Guess n)
    (hg : guess.Positive d) {ε : ℝ} (hε : 0 < ε) : ∃ T : ℕ, ∃ τ > (0 : ℝ), ∀ (g : UAttr d) (adj : AdjSpec n) (ma : String) (ga : Guess n) (p : Params), g.beta = none →
      p.linsearch = false → T ≤ p.max_steps → p.tol < τ → p.eps < τ →
      let R := solve_tool e g "cm" "fixed-point" guess adj ma ga p
      R.exc = none ∧ ∃ x, R.g.x = some x ∧ ∀ i, |degUBCM x i - d.dseq i| ≤ ε * d.dseq i := by
  obtain ⟨xs, hS⟩ := (C66_ubcm_iff (fun i => (d.dseq i : ℝ)) nat_zero_or).2 (loose_of_switchable hA hs)
  exact C64_cm e he hr d hS hne guess hg hε

/-- C66 for the "dcm" model. -/
theorem C66_dcm_converges [NeZero n] (e : Env) (he : e.Valid) (hr : e.NonzeroDraws) (d : DData n) (hA : ∃ A, RealisesD d.dseq_out d.dseq_in A) (hs : SwitchableD d.dseq_out d.dseq_in)
    (hne : ∃ i, d.dseq_out i ≠ 0) (guess : DGuess n) (hg : guess.Positive d) {ε : ℝ} (hε : 0 < ε) :
    ∃ T : ℕ, ∃ τ > (0 : ℝ), ∀ (g : DAttr d) (adj : AdjSpec n) (ma : String) (ga : DGuess n) (p : Params),
      g.b_out = none → p.linsearch = false → T ≤ p.max_steps → p.tol < τ → p.eps < τ →
      let R := solve_tool_directed e g "dcm" "fixed-point" guess adj ma ga p
      R.exc = none ∧ ∃ x y, R.g.x = some x ∧ R.g.y = some y ∧
        ∀ i, |outDBCM x y i - d.dseq_out i| ≤ ε * d.dseq_out i ∧ |inDBCM x y i - d.dseq_in i| ≤ ε * d.dseq_in i := by
  obtain ⟨xs, ys, hS⟩ := (C66_dbcm_iff (fun i => (d.dseq_out i : ℝ)) (fun i => (d.dseq_in i : ℝ)) nat_zero_or nat_zero_or).2 (looseD_of_switchableD hA hs)
  exact C64_dcm e he hr d hS hne guess hg hε

/-- a star: its centre is linked to every other node, so there is no exact solution -/
example : ¬ ∃ x, SolvesUBCM ![(1 : ℝ), 1, 1, 3] x :=
  C66_ubcm_hub _ 3 (by simp) (by
    rw [show (univ.filter fun j : Fin 4 => j ≠ 3 ∧ ![(1 : ℝ), 1, 1, 3] j ≠ 0) = {0, 1, 2} by ext j; fin_cases j <;> simp]
    simp)

/-- a directed network in which node 0 links to both nodes that have links in -/
example : ¬ ∃ x y, SolvesDBCM ![(2 : ℝ), 0, 0] ![0, 1, 1] x y :=
  C66_dbcm_hub _ _ 0 (by simp) (by
    rw [show (univ.filter fun j : Fin 3 => j ≠ 0 ∧ ![(0 : ℝ), 1, 1] j ≠ 0) = {1, 2} by ext j; fin_cases j <;> simp]
    simp)

/-- the pentagon and the pentagram have the same degrees, and every two nodes are linked in exactly one of them -/
theorem pentagon_switchable : (∃ A, Realises (n := 5) (fun _ => 2) A) ∧ Switchable (n := 5) fun _ => 2 := by
  have h1 : Realises (n := 5) (fun _ => 2) fun a b => decide (a - b = 1 ∨ b - a = 1) := ⟨by decide, by decide, by decide⟩
  have h2 : Realises (n := 5) (fun _ => 2) fun a b => decide (a - b = 2 ∨ b - a = 2) := ⟨by decide, by decide, by decide⟩
  refine ⟨⟨_, h1⟩, fun i j hij _ _ => ?_⟩
  have h3 : ∀ i j : Fin 5, i ≠ j → ((i - j = 1 ∨ j - i = 1) ∧ ¬ (i - j = 2 ∨ j - i = 2)) ∨ (¬ (i - j = 1 ∨ j - i = 1) ∧ (i - j = 2 ∨ j - i = 2)) := by decide
  rcases h3 i j hij with ⟨a, b⟩ | ⟨a, b⟩
  · exact ⟨⟨_, h1, by simpa using a⟩, _, h2, by simpa using b⟩
  · exact ⟨⟨_, h2, by simpa using b⟩, _, h1, by simpa using a⟩

/-- the hypotheses of C66 are met by the pentagon, from a random initial guess -/
example (e : Env) (he : e.Valid) (hr : e.NonzeroDraws) : ∃ T : ℕ, ∃ τ > (0 : ℝ), ∀ p : Params, p.linsearch = false → T ≤ p.max_steps → p.tol < τ → p.eps < τ →
    let R := solve_tool e ({} : UAttr (regular 5 2 fun _ => 1)) "cm" "fixed-point" (.name "random") .other "newton" (.name "random") p
    R.exc = none ∧ ∃ x, R.g.x = some x ∧ ∀ i, |degUBCM x i - 2| ≤ 1e-6 * 2 := by
  obtain ⟨T, τ, hτ, h⟩ := C66_cm_converges e he hr (regular 5 2 fun _ => 1) pentagon_switchable.1 pentagon_switchable.2 ⟨0, by simp [regular]⟩ (.name "random")
    (by simp [Guess.Positive, guessNames]) (ε := 1e-6) (by norm_num)
  refine ⟨T, τ, hτ, fun p h1 h2 h3 h4 => ?_⟩
  obtain ⟨k1, x, k2, k3⟩ := h {} .other "newton" (.name "random") p rfl h1 h2 h3 h4
  exact ⟨k1, x, k2, fun i => by simpa [regular] using k3 i⟩

/-- three nodes on a directed cycle, which can be turned round: the hypotheses of the directed statement are met -/
theorem cycle_switchable : (∃ A, RealisesD (n := 3) (fun _ => 1) (fun _ => 1) A) ∧ SwitchableD (n := 3) (fun _ => 1) fun _ => 1 := by
  have h1 : RealisesD (n := 3) (fun _ => 1) (fun _ => 1) fun a b => decide (b - a = 1) := ⟨by decide, by decide, by decide⟩
  have h2 : RealisesD (n := 3) (fun _ => 1) (fun _ => 1) fun a b => decide (b - a = 2) := ⟨by decide, by decide, by decide⟩
  refine ⟨⟨_, h1⟩, fun i j hij _ _ => ?_⟩
  have h3 : ∀ i j : Fin 3, i ≠ j → (j - i = 1 ∧ ¬ j - i = 2) ∨ (¬ j - i = 1 ∧ j - i = 2) := by decide
  rcases h3 i j hij with ⟨a, b⟩ | ⟨a, b⟩
  · exact ⟨⟨_, h1, by simpa using a⟩, _, h2, by simpa using b⟩
  · exact ⟨⟨_, h2, by simpa using b⟩, _, h1, by simpa using a⟩

example (e : Env) (he : e.Valid) (hr : e.NonzeroDraws) : ∃ T : ℕ, ∃ τ > (0 : ℝ), ∀ p : Params, p.linsearch = false → T ≤ p.max_steps → p.tol < τ → p.eps < τ →
    let d : DData 3 := { dseq_out := fun _ => 1, dseq_in := fun _ => 1, out_strength := fun _ => 1, in_strength := fun _ => 1, nz_known := true }
    let R := solve_tool_directed e ({} : DAttr d) "dcm" "fixed-point" (.name "uniform") .other "newton" (.name "random") p
    R.exc = none ∧ ∃ x y, R.g.x = some x ∧ R.g.y = some y ∧ ∀ i, |outDBCM x y i - 1| ≤ 1e-6 * 1 ∧ |inDBCM x y i - 1| ≤ 1e-6 * 1 := by
  obtain ⟨T, τ, hτ, h⟩ := C66_dcm_converges e he hr { dseq_out := fun _ => 1, dseq_in := fun _ => 1, out_strength := fun _ => 1, in_strength := fun _ => 1, nz_known := true }
    cycle_switchable.1 cycle_switchable.2 ⟨0, by simp⟩ (.name "uniform") (by simp [DGuess.Positive, guessNames]) (ε := 1e-6) (by norm_num)
  refine ⟨T, τ, hτ, fun p h1 h2 h3 h4 => ?_⟩
  obtain ⟨k1, x, y, k2, k3, k4⟩ := h {} .other "newton" (.name "random") p rfl h1 h2 h3 h4
  exact ⟨k1, x, y, k2, k3, fun i => by simpa using k4 i⟩

end

end Verif.Solve
