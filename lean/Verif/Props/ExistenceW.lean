import Verif.Lemmas.Existence2
import Verif.Spec.ExistenceW
import Verif.Props.Existence

/-! C71: which weighted networks the enhanced configuration models fit exactly. -/

namespace Verif.Solve

open Verif Finset Spec Existence

variable {n : ℕ}

theorem exp_pair (a b c d : ℝ) : Real.exp (-(a - c)) * Real.exp (-(b - d)) * Real.exp (-c) * Real.exp (-d) = Real.exp (-(a + b)) ∧
    Real.exp (-c) * Real.exp (-d) = Real.exp (-(c + d)) := by
  simp only [← Real.exp_add]
  exact ⟨by ring_nf, by ring_nf⟩

/-- the mean weight is the link probability plus the mean excess -/
theorem weight_eq (u : ℝ) {b : ℝ} (hb : 0 < b) : Real.exp (-u) / ((1 - Real.exp (-b)) * (1 - Real.exp (-b) + Real.exp (-u))) = lnk u b + exc u b := by
  have h1 := one_sub_pos hb
  have h2 := Real.exp_pos (-u)
  have h3 : 1 - Real.exp (-b) + Real.exp (-u) ≠ 0 := by positivity
  unfold exc lnk
  field_simp
  ring

theorem pair_terms {a q : ℝ} (ha : 0 ≤ a) (hq : q < 1) : 0 ≤ a / (1 - q + a) ∧ a / (1 - q + a) < 1 ∧ 0 ≤ a / ((1 - q) * (1 - q + a)) := by
  have h : 0 < 1 - q := by linarith
  refine ⟨by positivity, ?_, by positivity⟩
  rw [div_lt_one (by positivity)]
  linarith

theorem pair_terms_pos {a q : ℝ} (ha : 0 < a) (hq0 : 0 < q) (hq : q < 1) : 0 < a / (1 - q + a) ∧ a / (1 - q + a) < a / ((1 - q) * (1 - q + a)) := by
  have h : 0 < 1 - q := by linarith
  refine ⟨by positivity, ?_⟩
  refine div_lt_div_of_pos_left ha (by positivity) ?_
  have : 0 < 1 - q + a := by positivity
  nlinarith

/-- C71 (UECM): degrees that are zero or at least one, with any strengths, have an exact solution if and only if they are the means of an ensemble in which every link between
nodes of non-zero degree is possible, not certain, and not always of weight one. -/
theorem C71_uecm_iff (k s : Fin n → ℝ) (hk : ∀ i, k i ≠ 0 → 1 ≤ k i) : (∃ x y, SolvesUECM k s x y) ↔ LooseW k s := by
  constructor
  · rintro ⟨x, y, h⟩
    set a : Fin n → Fin n → ℝ := fun i j => x i * x j * y i * y j with ha
    have ha0 : ∀ i j, 0 ≤ a i j := fun i j => mul_nonneg (mul_nonneg (mul_nonneg (h.nonneg i).1 (h.nonneg j).1) (h.nonneg i).2) (h.nonneg j).2
    have hpos : ∀ i, k i ≠ 0 → 0 < x i ∧ 0 < y i := fun i hi => by
      constructor
      · exact lt_of_le_of_ne (h.nonneg i).1 fun h0 => hi (by rw [← h.deg i]; unfold degUECM; simp [← h0])
      · exact lt_of_le_of_ne (h.nonneg i).2 fun h0 => hi (by rw [← h.deg i]; unfold degUECM; simp [← h0])
    have hzero : ∀ i j, i ≠ j → k i = 0 → a i j = 0 := fun i j hij hi => by
      have h1 := h.deg i
      rw [hi, degUECM, sum_eq_zero_iff_of_nonneg fun l hl => (pair_terms (ha0 i l) (h.domain i l (Ne.symm (mem_filter.1 hl).2))).1] at h1
      have h2 := h1 j (by simp [hij.symm])
      have h3 : 0 < 1 - y i * y j + a i j := by have := h.domain i j hij; have := ha0 i j; linarith
      exact (div_eq_zero_iff.1 h2).resolve_right h3.ne'
    have hsym : ∀ i j, a i j = a j i := fun i j => by simp only [ha]; ring
    refine ⟨fun i j => if i = j then 0 else a i j / (1 - y i * y j + a i j), fun i j => if i = j then 0 else a i j / ((1 - y i * y j) * (1 - y i * y j + a i j)),
      fun i j => ?_, fun i j hij hi hj => ?_, fun i j hij => ?_, fun i => ?_, fun i => ?_⟩
    · by_cases hij : i = j
      · subst hij; simp
      · simp only [hij, Ne.symm hij, if_false, hsym i j, mul_comm (y i), and_self]
    · simp only [hij, if_false]
      have h1 := hpos i hi
      have h2 := hpos j hj
      have h3 : 0 < a i j := mul_pos (mul_pos (mul_pos h1.1 h2.1) h1.2) h2.2
      have h4 := pair_terms_pos h3 (mul_pos h1.2 h2.2) (h.domain i j hij)
      exact ⟨h4.1, (pair_terms (ha0 i j) (h.domain i j hij)).2.1, h4.2⟩
    · by_cases he : i = j
      · simp [he]
      have h1 : a i j = 0 := by
        rcases hij with hi | hj
        · exact hzero i j he hi
        · rw [hsym]; exact hzero j i (Ne.symm he) hj
      simp [h1]
    · rw [← h.deg i]
      exact sum_congr rfl fun j hj => if_neg (Ne.symm (mem_filter.1 hj).2)
    · rw [← h.str i]
      exact sum_congr rfl fun j hj => if_neg (Ne.symm (mem_filter.1 hj).2)
  · rintro ⟨P, W, hsym, hP, hP0, hsum, hsumW⟩
    have hlt : ∀ i j, j ≠ i → P i j < 1 := fun i j hij => by
      by_cases hi : k i = 0
      · rw [(hP0 i j (.inl hi)).1]; norm_num
      by_cases hj : k j = 0
      · rw [(hP0 i j (.inr hj)).1]; norm_num
      exact (hP i j hij.symm hi hj).2.1
    have htwo : ∀ i, k i ≠ 0 → ∃ j₁ j₂, j₁ ≠ j₂ ∧ j₁ ≠ i ∧ j₂ ≠ i ∧ k j₁ ≠ 0 ∧ k j₂ ≠ 0 := fun i hi => by
      obtain ⟨j₁, j₂, h1, h2, h3, h4, h5⟩ := two_of_sum (P i) i (hlt i) (by rw [hsum]; exact hk i hi)
      exact ⟨j₁, j₂, h1, h2, h3, fun h => h4 (hP0 i j₁ (.inr h)).1, fun h => h5 (hP0 i j₂ (.inr h)).1⟩
    set E : Finset (Fin n × Fin n) := univ.filter fun e => e.1 ≠ e.2 ∧ k e.1 ≠ 0 ∧ k e.2 ≠ 0 with hE
    have hmemE : ∀ e, e ∈ E ↔ e.1 ≠ e.2 ∧ k e.1 ≠ 0 ∧ k e.2 ≠ 0 := fun e => by simp [hE]
    obtain ⟨τ, β, -, -, hpos, hτ, hβ⟩ := exists_min2 E (fun e => P e.1 e.2) (fun e => W e.1 e.2 - P e.1 e.2)
      (fun e he => ⟨(hP _ _ ((hmemE e).1 he).1 ((hmemE e).1 he).2.1 ((hmemE e).1 he).2.2).1, (hP _ _ ((hmemE e).1 he).1 ((hmemE e).1 he).2.1 ((hmemE e).1 he).2.2).2.1⟩)
      (fun e he => by linarith [(hP _ _ ((hmemE e).1 he).1 ((hmemE e).1 he).2.1 ((hmemE e).1 he).2.2).2.2]) (univ.filter fun i => k i ≠ 0) (fun C => ⟨3 * C / 2, fun θ _ h v hv => by
        simp only [mem_filter, mem_univ, true_and] at hv
        obtain ⟨j₁, j₂, h12, h1, h2, k1, k2⟩ := htwo v hv
        have a1 := abs_le.1 (h (v, j₁) (by simp [hE, h1.symm, hv, k1]))
        have a2 := abs_le.1 (h (v, j₂) (by simp [hE, h2.symm, hv, k2]))
        have a3 := abs_le.1 (h (j₁, j₂) (by simp [hE, h12, k1, k2]))
        simp only at a1 a2 a3
        rw [abs_le]
        constructor <;> linarith⟩) (fun i => if k i = 0 then 0 else 1) (fun v hv => by
          simp only [mem_filter, mem_univ, true_and, not_not] at hv; simp [hv]) (fun e he => by
          simp [((hmemE e).1 he).2.1, ((hmemE e).1 he).2.2])
    have hsumE : ∀ (D : Fin n → Fin n → ℝ), (∀ i j, D i j = D j i) → ∀ i, k i ≠ 0 →
        ∑ e ∈ E, D e.1 e.2 * ((if e.1 = i then 1 else 0) + (if e.2 = i then 1 else 0)) = 0 → ∑ j ∈ univ.filter (· ≠ i), (if k j = 0 then 0 else D i j) = 0 := fun D hD i hi h1 => by
      have h2 : ∑ e ∈ E, D e.1 e.2 * ((if e.1 = i then 1 else 0) + (if e.2 = i then 1 else 0)) = 2 * ∑ j, (if i ≠ j ∧ k j ≠ 0 then D i j else 0) := by
        rw [hE, sum_filter, Fintype.sum_prod_type]
        have e1 : ∀ a b, (if a ≠ b ∧ k a ≠ 0 ∧ k b ≠ 0 then D a b * ((if a = i then (1 : ℝ) else 0) + (if b = i then 1 else 0)) else 0) =
            (if a = i then (if i ≠ b ∧ k b ≠ 0 then D i b else 0) else 0) + (if b = i then (if i ≠ a ∧ k a ≠ 0 then D i a else 0) else 0) := fun a b => by
          by_cases ha : a = i <;> by_cases hb : b = i
          · subst ha; subst hb; simp
          · subst ha
            simp [hb, hi]
          · subst hb
            by_cases hka : k a = 0
            · simp [ha, hka]
            · simp [ha, hka, hi, Ne.symm ha, hD b a]
          · simp [ha, hb]
        simp only [e1, sum_add_distrib]
        rw [sum_comm (f := fun a b => if a = i then (if i ≠ b ∧ k b ≠ 0 then D i b else 0) else 0)]
        simp only [sum_ite_eq', mem_univ, if_true]
        ring
      rw [h2] at h1
      have h3 : ∑ j ∈ univ.filter (· ≠ i), (if k j = 0 then 0 else D i j) = ∑ j, (if i ≠ j ∧ k j ≠ 0 then D i j else 0) := by
        rw [sum_filter]
        refine sum_congr rfl fun j _ => ?_
        by_cases hij : j = i
        · subst hij; simp
        · by_cases hj : k j = 0 <;> simp [hij, hj, Ne.symm hij]
      rw [h3]
      linarith
    set x : Fin n → ℝ := fun i => if k i = 0 then 0 else Real.exp (-(τ i - β i)) with hx
    set y : Fin n → ℝ := fun i => if k i = 0 then 0 else Real.exp (-β i) with hy
    have hdom : ∀ i j, i ≠ j → y i * y j < 1 := fun i j hij => by
      simp only [hy]
      by_cases hi : k i = 0
      · simp [hi]
      by_cases hj : k j = 0
      · simp [hj]
      have h1 : 0 < β i + β j := hpos (i, j) ((hmemE _).2 ⟨hij, hi, hj⟩)
      rw [if_neg hi, if_neg hj, (exp_pair 0 0 (β i) (β j)).2, ← Real.exp_zero]
      exact Real.exp_lt_exp.2 (by linarith)
    refine ⟨x, y, ⟨fun i => ?_, hdom, fun i => ?_, fun i => ?_⟩⟩
    · simp only [hx, hy]
      split_ifs
      · exact ⟨le_rfl, le_rfl⟩
      · exact ⟨(Real.exp_pos _).le, (Real.exp_pos _).le⟩
    · by_cases hi : k i = 0
      · unfold degUECM; simp [hx, hi]
      have h1 := hsumE (fun i j => P i j - lnk (τ i + τ j) (β i + β j)) (fun i j => by simp only [(hsym i j).1, add_comm]) i hi (hτ i (by simp [hi]))
      have h2 : ∑ j ∈ univ.filter (· ≠ i), (if k j = 0 then 0 else P i j - lnk (τ i + τ j) (β i + β j)) = k i - degUECM x y i := by
        rw [← hsum i, degUECM, ← sum_sub_distrib]
        refine sum_congr rfl fun j hj => ?_
        by_cases hkj : k j = 0
        · simp [hkj, hx, (hP0 i j (.inr hkj)).1]
        · simp only [hx, hy, hi, hkj, if_false, (exp_pair (τ i) (τ j) (β i) (β j)).1, (exp_pair (τ i) (τ j) (β i) (β j)).2, lnk]
      rw [h2] at h1
      linarith
    · by_cases hi : k i = 0
      · have : s i = 0 := by rw [← hsumW i]; exact sum_eq_zero fun j _ => (hP0 i j (.inl hi)).2
        unfold strUECM; simp [hx, hi, this]
      have h0 := hsumE (fun i j => P i j - lnk (τ i + τ j) (β i + β j)) (fun i j => by simp only [(hsym i j).1, add_comm]) i hi (hτ i (by simp [hi]))
      have h1 := hsumE (fun i j => W i j - P i j - exc (τ i + τ j) (β i + β j)) (fun i j => by simp only [(hsym i j).1, (hsym i j).2, add_comm]) i hi (hβ i (by simp [hi]))
      have h2 : ∑ j ∈ univ.filter (· ≠ i), (if k j = 0 then 0 else P i j - lnk (τ i + τ j) (β i + β j)) +
          ∑ j ∈ univ.filter (· ≠ i), (if k j = 0 then 0 else W i j - P i j - exc (τ i + τ j) (β i + β j)) = s i - strUECM x y i := by
        rw [← hsumW i, strUECM, ← sum_sub_distrib, ← sum_add_distrib]
        refine sum_congr rfl fun j hj => ?_
        by_cases hkj : k j = 0
        · simp [hkj, hx, (hP0 i j (.inr hkj)).2]
        · have hb : 0 < β i + β j := hpos (i, j) ((hmemE _).2 ⟨Ne.symm (mem_filter.1 hj).2, hi, hkj⟩)
          simp only [hx, hy, hi, hkj, if_false, (exp_pair (τ i) (τ j) (β i) (β j)).1, (exp_pair (τ i) (τ j) (β i) (β j)).2, weight_eq _ hb]
          ring
      rw [h0, h1] at h2
      linarith

/-- C71 (DECM): out- and in-degrees that are zero or at least one, with any strengths, have an exact solution if and only if they are the means of an ensemble in which every
link from a node of non-zero out-degree to a node of non-zero in-degree is possible, not certain, and not always of weight one. -/
theorem C71_decm_iff (ko ki so si : Fin n → ℝ) (hko : ∀ i, ko i ≠ 0 → 1 ≤ ko i) (hki : ∀ i, ki i ≠ 0 → 1 ≤ ki i) :
    (∃ x y bo bi, SolvesDECM ko ki so si x y bo bi) ↔ LooseWD ko ki so si := by
  constructor
  · rintro ⟨x, y, bo, bi, h⟩
    set a : Fin n → Fin n → ℝ := fun i j => x i * y j * (bo i * bi j) with ha
    have ha0 : ∀ i j, 0 ≤ a i j := fun i j => mul_nonneg (mul_nonneg (h.nonneg i).1 (h.nonneg j).2.1) (mul_nonneg (h.nonneg i).2.2.1 (h.nonneg j).2.2.2)
    have hlink : ∀ i j, linkDECM x y bo bi i j = a i j / (1 - bo i * bi j + a i j) := fun i j => rfl
    have hweight : ∀ i j, weightDECM x y bo bi i j = a i j / ((1 - bo i * bi j) * (1 - bo i * bi j + a i j)) := fun i j => by
      rw [weightDECM, hlink, div_div, mul_comm]
    have hpo : ∀ i, ko i ≠ 0 → 0 < x i ∧ 0 < bo i := fun i hi => by
      constructor
      · exact lt_of_le_of_ne (h.nonneg i).1 fun h0 => hi (by rw [← h.out_deg i]; unfold outDegDECM linkDECM; simp [← h0])
      · exact lt_of_le_of_ne (h.nonneg i).2.2.1 fun h0 => hi (by rw [← h.out_deg i]; unfold outDegDECM linkDECM; simp [← h0])
    have hpi : ∀ i, ki i ≠ 0 → 0 < y i ∧ 0 < bi i := fun i hi => by
      constructor
      · exact lt_of_le_of_ne (h.nonneg i).2.1 fun h0 => hi (by rw [← h.in_deg i]; unfold inDegDECM linkDECM; simp [← h0])
      · exact lt_of_le_of_ne (h.nonneg i).2.2.2 fun h0 => hi (by rw [← h.in_deg i]; unfold inDegDECM linkDECM; simp [← h0])
    have hne : ∀ i j, i ≠ j → a i j / (1 - bo i * bi j + a i j) = 0 → a i j = 0 := fun i j hij h2 => by
      have h3 : 0 < 1 - bo i * bi j + a i j := by have := h.domain i j hij; have := ha0 i j; linarith
      exact (div_eq_zero_iff.1 h2).resolve_right h3.ne'
    have hzo : ∀ i j, i ≠ j → ko i = 0 → a i j = 0 := fun i j hij hi => by
      have h1 := h.out_deg i
      rw [hi, outDegDECM] at h1
      simp only [hlink] at h1
      rw [sum_eq_zero_iff_of_nonneg fun l hl => (pair_terms (ha0 i l) (h.domain i l (Ne.symm (mem_filter.1 hl).2))).1] at h1
      exact hne i j hij (h1 j (by simp [hij.symm]))
    have hzi : ∀ i j, i ≠ j → ki j = 0 → a i j = 0 := fun i j hij hj => by
      have h1 := h.in_deg j
      rw [hj, inDegDECM] at h1
      simp only [hlink] at h1
      rw [sum_eq_zero_iff_of_nonneg fun l hl => (pair_terms (ha0 l j) (h.domain l j (mem_filter.1 hl).2)).1] at h1
      exact hne i j hij (h1 i (by simp [hij]))
    refine ⟨fun i j => if i = j then 0 else linkDECM x y bo bi i j, fun i j => if i = j then 0 else weightDECM x y bo bi i j,
      fun i j hij hi hj => ?_, fun i j hij => ?_, fun i => ?_, fun j => ?_, fun i => ?_, fun j => ?_⟩
    · simp only [hij, if_false]
      rw [hlink, hweight]
      have h1 := hpo i hi
      have h2 := hpi j hj
      have h3 : 0 < a i j := mul_pos (mul_pos h1.1 h2.1) (mul_pos h1.2 h2.2)
      have h4 := pair_terms_pos h3 (mul_pos h1.2 h2.2) (h.domain i j hij)
      exact ⟨h4.1, (pair_terms (ha0 i j) (h.domain i j hij)).2.1, h4.2⟩
    · by_cases he : i = j
      · simp [he]
      have h1 : a i j = 0 := by
        rcases hij with hi | hj
        · exact hzo i j he hi
        · exact hzi i j he hj
      simp only [he, if_false, hlink, hweight, h1, zero_div, and_self]
    · rw [← h.out_deg i]
      exact sum_congr rfl fun j hj => if_neg (Ne.symm (mem_filter.1 hj).2)
    · rw [← h.in_deg j]
      exact sum_congr rfl fun i hi => if_neg (mem_filter.1 hi).2
    · rw [← h.out_str i]
      exact sum_congr rfl fun j hj => if_neg (Ne.symm (mem_filter.1 hj).2)
    · rw [← h.in_str j]
      exact sum_congr rfl fun i hi => if_neg (mem_filter.1 hi).2
  · rintro ⟨P, W, hP, hP0, hrow, hcol, hrowW, hcolW⟩
    by_cases hex : ∃ a, ko a ≠ 0
    swap
    · push Not at hex
      have hz : ∀ j, ki j = 0 := fun j => by rw [← hcol j]; exact sum_eq_zero fun i _ => (hP0 i j (.inl (hex i))).1
      have hzso : ∀ i, so i = 0 := fun i => by rw [← hrowW i]; exact sum_eq_zero fun j _ => (hP0 i j (.inl (hex i))).2
      have hzsi : ∀ j, si j = 0 := fun j => by rw [← hcolW j]; exact sum_eq_zero fun i _ => (hP0 i j (.inl (hex i))).2
      refine ⟨fun _ => 0, fun _ => 0, fun _ => 0, fun _ => 0, ⟨fun _ => ⟨le_rfl, le_rfl, le_rfl, le_rfl⟩, fun _ _ _ => by norm_num, fun i => ?_, fun i => ?_, fun i => ?_, fun i => ?_⟩⟩
      · simp [outDegDECM, linkDECM, hex i]
      · simp [inDegDECM, linkDECM, hz i]
      · simp [outStrDECM, weightDECM, linkDECM, hzso i]
      · simp [inStrDECM, weightDECM, linkDECM, hzsi i]
    obtain ⟨a, hka⟩ := hex
    have hlt : ∀ i j, i ≠ j → P i j < 1 := fun i j hij => by
      by_cases hi : ko i = 0
      · rw [(hP0 i j (.inl hi)).1]; norm_num
      by_cases hj : ki j = 0
      · rw [(hP0 i j (.inr hj)).1]; norm_num
      exact (hP i j hij hi hj).2.1
    have htwo : ∀ i, ko i ≠ 0 → ∃ j₁ j₂, j₁ ≠ j₂ ∧ j₁ ≠ i ∧ j₂ ≠ i ∧ ki j₁ ≠ 0 ∧ ki j₂ ≠ 0 := fun i hi => by
      obtain ⟨j₁, j₂, h1, h2, h3, h4, h5⟩ := two_of_sum (P i) i (fun j hj => hlt i j hj.symm) (by rw [hrow]; exact hko i hi)
      exact ⟨j₁, j₂, h1, h2, h3, fun h => h4 (hP0 i j₁ (.inr h)).1, fun h => h5 (hP0 i j₂ (.inr h)).1⟩
    have htwo' : ∀ j, ki j ≠ 0 → ∃ i, i ≠ j ∧ ko i ≠ 0 := fun j hj => by
      obtain ⟨i₁, i₂, h1, h2, h3, h4, h5⟩ := two_of_sum (fun i => P i j) j (fun i hi => hlt i j hi) (by rw [hcol]; exact hki j hj)
      exact ⟨i₁, h2, fun h => h4 (hP0 i₁ j (.inl h)).1⟩
    set A : Finset (Fin n × Fin n) := univ.filter fun e => e.1 ≠ e.2 ∧ ko e.1 ≠ 0 ∧ ki e.2 ≠ 0 with hA
    set emb : Fin n × Fin n → (Fin 2 × Fin n) × (Fin 2 × Fin n) := fun e => ((0, e.1), (1, e.2)) with hemb
    have hinj : Set.InjOn emb A := fun p _ q _ h => by
      simp only [hemb, Prod.mk.injEq, true_and] at h
      exact Prod.ext h.1 h.2
    have hmem : ∀ i j, i ≠ j → ko i ≠ 0 → ki j ≠ 0 → ((0, i), (1, j)) ∈ A.image emb := fun i j h1 h2 h3 =>
      mem_image.2 ⟨(i, j), by simp [hA, h1, h2, h3], rfl⟩
    have hback : ∀ e ∈ A.image emb, e.1.1 = 0 ∧ e.2.1 = 1 ∧ 0 < P e.1.2 e.2.2 ∧ P e.1.2 e.2.2 < 1 ∧ P e.1.2 e.2.2 < W e.1.2 e.2.2 ∧ ki e.2.2 ≠ 0 := fun e he => by
      obtain ⟨p, hp, rfl⟩ := mem_image.1 he
      simp only [hA, mem_filter, mem_univ, true_and] at hp
      obtain ⟨h1, h2, h3⟩ := hP _ _ hp.1 hp.2.1 hp.2.2
      exact ⟨rfl, rfl, h1, h2, h3, hp.2.2⟩
    set S : Finset (Fin 2 × Fin n) := univ.filter fun v => (v.1 = 0 ∧ v.2 ≠ a ∧ ko v.2 ≠ 0) ∨ (v.1 = 1 ∧ ki v.2 ≠ 0) with hS
    obtain ⟨τ, β, -, -, hpos, hτ, hβ⟩ := exists_min2 (A.image emb) (fun e => P e.1.2 e.2.2) (fun e => W e.1.2 e.2.2 - P e.1.2 e.2.2)
      (fun e he => ⟨(hback e he).2.2.1, (hback e he).2.2.2.1⟩) (fun e he => by linarith [(hback e he).2.2.2.2.1]) S (fun C => ⟨3 * |C|, fun θ h0 h v hv => by
        have hCC := le_abs_self C
        have hC0 := abs_nonneg C
        have ha0 : θ (0, a) = 0 := h0 _ (by simp [hS])
        have hin : ∀ j, j ≠ a → ki j ≠ 0 → |θ (1, j)| ≤ |C| := fun j hj hkj => by
          have := h _ (hmem a j hj.symm hka hkj)
          simp only [ha0, zero_add] at this
          exact this.trans hCC
        have hout : ∀ i, ko i ≠ 0 → |θ (0, i)| ≤ 2 * |C| := fun i hi => by
          obtain ⟨j, hj, hja, hkj⟩ : ∃ j, j ≠ i ∧ j ≠ a ∧ ki j ≠ 0 := by
            obtain ⟨j₁, j₂, h12, h1, h2, k1, k2⟩ := htwo i hi
            by_cases hj : j₁ = a
            · exact ⟨j₂, h2, fun h => h12 (hj.trans h.symm), k2⟩
            · exact ⟨j₁, h1, hj, k1⟩
          have a1 := abs_le.1 (h _ (hmem i j hj.symm hi hkj))
          have a2 := abs_le.1 (hin j hja hkj)
          simp only at a1
          rw [abs_le]
          constructor <;> linarith
        obtain ⟨b, i⟩ := v
        simp only [hS, mem_filter, mem_univ, true_and] at hv
        rcases hv with ⟨hb, -, hi⟩ | ⟨hb, hi⟩
        · obtain rfl : b = 0 := hb
          linarith [hout i hi]
        · obtain rfl : b = 1 := hb
          obtain ⟨l, hl, hkl⟩ := htwo' i hi
          have a1 := abs_le.1 (h _ (hmem l i hl hkl hi))
          have a2 := abs_le.1 (hout l hkl)
          simp only at a1
          rw [abs_le]
          constructor <;> linarith⟩) (fun v => if v.1 = 1 ∧ ki v.2 ≠ 0 then 1 else 0) (fun v hv => if_neg fun h => hv (by simp [hS, h.1, h.2]))
      (fun e he => by
        obtain ⟨h1, h2, -, -, -, h3⟩ := hback e he
        simp [h1, h2, h3])
    have hposP : ∀ i j, i ≠ j → ko i ≠ 0 → ki j ≠ 0 → 0 < β (0, i) + β (1, j) := fun i j h1 h2 h3 => hpos _ (hmem i j h1 h2 h3)
    have hsums : ∀ Q : Fin 2 × Fin n → Fin 2 × Fin n → ℝ, (∀ v ∈ S, ∑ e ∈ A.image emb, Q e.1 e.2 * ((if e.1 = v then 1 else 0) + (if e.2 = v then 1 else 0)) = 0) →
        (∀ i, ∑ j ∈ univ.filter (· ≠ i), (if ko i ≠ 0 ∧ ki j ≠ 0 then Q (0, i) (1, j) else 0) = 0) ∧
        ∀ j, ∑ i ∈ univ.filter (· ≠ j), (if ko i ≠ 0 ∧ ki j ≠ 0 then Q (0, i) (1, j) else 0) = 0 := fun Q hQ => by
      set D : Fin n → Fin n → ℝ := fun i j => if i ≠ j ∧ ko i ≠ 0 ∧ ki j ≠ 0 then Q (0, i) (1, j) else 0 with hD
      have key : ∀ v : Fin 2 × Fin n, ∑ e ∈ A.image emb, Q e.1 e.2 * ((if e.1 = v then 1 else 0) + (if e.2 = v then 1 else 0)) =
          ∑ i, ∑ j, D i j * ((if ((0, i) : Fin 2 × Fin n) = v then 1 else 0) + (if ((1, j) : Fin 2 × Fin n) = v then 1 else 0)) := fun v => by
        rw [sum_image hinj, hA, sum_filter, Fintype.sum_prod_type]
        refine sum_congr rfl fun i _ => sum_congr rfl fun j _ => ?_
        simp only [hD, hemb]
        split_ifs <;> simp
      have hrow0 : ∀ i, i ≠ a → ∑ j, D i j = 0 := fun i hia => by
        by_cases hi : ko i = 0
        · exact sum_eq_zero fun j _ => by simp [hD, hi]
        have h1 := hQ (0, i) (by simp [hS, hia, hi])
        rw [key] at h1
        rw [← h1]
        rw [sum_eq_single i (fun l _ hl => sum_eq_zero fun j _ => by simp [hl]) (by simp)]
        simp
      have hcol0 : ∀ j, ∑ i, D i j = 0 := fun j => by
        by_cases hj : ki j = 0
        · exact sum_eq_zero fun i _ => by simp [hD, hj]
        have h1 := hQ (1, j) (by simp [hS, hj])
        rw [key, sum_comm] at h1
        rw [← h1]
        rw [sum_eq_single j (fun l _ hl => sum_eq_zero fun i _ => by simp [hl]) (by simp)]
        simp
      have hrowA : ∀ i, ∑ j, D i j = 0 := fun i => by
        by_cases hia : i = a
        · subst hia
          have h1 : ∑ l, ∑ j, D l j = ∑ j, D i j := sum_eq_single i (fun l _ hl => hrow0 l hl) (fun h => absurd (mem_univ i) h)
          rw [← h1, sum_comm]
          exact sum_eq_zero fun j _ => hcol0 j
        · exact hrow0 i hia
      refine ⟨fun i => ?_, fun j => ?_⟩
      · refine Eq.trans ?_ (hrowA i)
        rw [sum_filter]
        refine sum_congr rfl fun j _ => ?_
        by_cases hij : j = i
        · subst hij; simp [hD]
        · rw [if_pos hij]
          simp only [hD, ne_eq, Ne.symm hij, not_false_eq_true, true_and]
      · refine Eq.trans ?_ (hcol0 j)
        rw [sum_filter]
        refine sum_congr rfl fun i _ => ?_
        by_cases hij : i = j
        · subst hij; simp [hD]
        · rw [if_pos hij]
          simp only [hD, ne_eq, hij, not_false_eq_true, true_and]
    obtain ⟨pr, pc⟩ := hsums (fun v w => P v.2 w.2 - lnk (τ v + τ w) (β v + β w)) hτ
    obtain ⟨wr, wc⟩ := hsums (fun v w => W v.2 w.2 - P v.2 w.2 - exc (τ v + τ w) (β v + β w)) hβ
    set x : Fin n → ℝ := fun i => if ko i = 0 then 0 else Real.exp (-(τ (0, i) - β (0, i))) with hx
    set y : Fin n → ℝ := fun i => if ki i = 0 then 0 else Real.exp (-(τ (1, i) - β (1, i))) with hy
    set bo : Fin n → ℝ := fun i => if ko i = 0 then 0 else Real.exp (-β (0, i)) with hbo
    set bi : Fin n → ℝ := fun i => if ki i = 0 then 0 else Real.exp (-β (1, i)) with hbi
    have hlinkP : ∀ i j, i ≠ j → linkDECM x y bo bi i j = P i j - (if ko i ≠ 0 ∧ ki j ≠ 0 then P i j - lnk (τ (0, i) + τ (1, j)) (β (0, i) + β (1, j)) else 0) := fun i j hij => by
      by_cases hi : ko i = 0
      · simp [linkDECM, hx, hi, (hP0 i j (.inl hi)).1]
      by_cases hj : ki j = 0
      · simp [linkDECM, hy, hj, (hP0 i j (.inr hj)).1]
      have hb := hposP i j hij hi hj
      have h1 := exp_pair (τ (0, i)) (τ (1, j)) (β (0, i)) (β (1, j))
      simp only [linkDECM, hx, hy, hbo, hbi, hi, hj, if_false, ne_eq, not_false_eq_true, and_self, if_true, sub_sub_cancel]
      rw [← mul_assoc, h1.1, h1.2, lnk]
    have hweightW : ∀ i j, i ≠ j → weightDECM x y bo bi i j = W i j - ((if ko i ≠ 0 ∧ ki j ≠ 0 then P i j - lnk (τ (0, i) + τ (1, j)) (β (0, i) + β (1, j)) else 0) +
        (if ko i ≠ 0 ∧ ki j ≠ 0 then W i j - P i j - exc (τ (0, i) + τ (1, j)) (β (0, i) + β (1, j)) else 0)) := fun i j hij => by
      by_cases hi : ko i = 0
      · simp [weightDECM, linkDECM, hx, hi, (hP0 i j (.inl hi)).2]
      by_cases hj : ki j = 0
      · simp [weightDECM, linkDECM, hy, hj, (hP0 i j (.inr hj)).2]
      have hb := hposP i j hij hi hj
      have h1 := exp_pair (τ (0, i)) (τ (1, j)) (β (0, i)) (β (1, j))
      have h2 := weight_eq (τ (0, i) + τ (1, j)) hb
      rw [weightDECM, hlinkP i j hij]
      simp only [hbo, hbi, hi, hj, if_false, ne_eq, not_false_eq_true, and_self, if_true, sub_sub_cancel]
      rw [h1.2, lnk, div_div, mul_comm (1 - Real.exp (-(β (0, i) + β (1, j))) + Real.exp (-(τ (0, i) + τ (1, j)))), h2, lnk]
      ring
    refine ⟨x, y, bo, bi, ⟨fun i => ⟨?_, ?_, ?_, ?_⟩, fun i j hij => ?_, fun i => ?_, fun j => ?_, fun i => ?_, fun j => ?_⟩⟩
    · simp only [hx]; split_ifs <;> [exact le_rfl; exact (Real.exp_pos _).le]
    · simp only [hy]; split_ifs <;> [exact le_rfl; exact (Real.exp_pos _).le]
    · simp only [hbo]; split_ifs <;> [exact le_rfl; exact (Real.exp_pos _).le]
    · simp only [hbi]; split_ifs <;> [exact le_rfl; exact (Real.exp_pos _).le]
    · simp only [hbo, hbi]
      by_cases hi : ko i = 0
      · simp [hi]
      by_cases hj : ki j = 0
      · simp [hj]
      have h1 := hposP i j hij hi hj
      rw [if_neg hi, if_neg hj, (exp_pair 0 0 _ _).2, ← Real.exp_zero]
      exact Real.exp_lt_exp.2 (by linarith)
    · rw [outDegDECM, sum_congr rfl fun j hj => hlinkP i j (Ne.symm (mem_filter.1 hj).2), sum_sub_distrib, pr i, hrow i, sub_zero]
    · rw [inDegDECM, sum_congr rfl fun i hi => hlinkP i j (mem_filter.1 hi).2, sum_sub_distrib, pc j, hcol j, sub_zero]
    · rw [outStrDECM, sum_congr rfl fun j hj => hweightW i j (Ne.symm (mem_filter.1 hj).2), sum_sub_distrib, sum_add_distrib, pr i, wr i, hrowW i, add_zero, sub_zero]
    · rw [inStrDECM, sum_congr rfl fun i hi => hweightW i j (mem_filter.1 hi).2, sum_sub_distrib, sum_add_distrib, pc j, wc j, hcolW j, add_zero, sub_zero]

end Verif.Solve
