import Verif.Lemmas.EMRun

/-! Exact positive solutions are best vectors, and runs of the fixed-point method converge to their strengths. -/

namespace Verif.EM

open Verif Finset Solver

noncomputable section

variable {ι : Type} [Fintype ι] {p : ι → ι → ℝ} {s : ι → ℝ}

/-- an exact solution of finite mean weights beats every other vector of rates with finite mean weights -/
theorem exact_best (h : Net p s) {b : ι → ℝ} (hpos : ∀ i j, p i j ≠ 0 → 0 < b i + b j) (hstr : ∀ i, str p b i = s i) {β : ι → ℝ}
    (hβ : ∀ i j, p i j ≠ 0 → 0 < β i + β j) : L p s β ≤ L p s b := by
  have h1 : ∀ i j, p i j * Real.log (β i + β j) ≤ p i j * Real.log (b i + b j) + (p i j / (b i + b j) * (β i + β j) - p i j) := fun i j => by
    by_cases hij : p i j = 0
    · simp [hij]
    · have hb := hpos i j hij
      have hx := hβ i j hij
      have hl := Real.log_le_sub_one_of_pos (div_pos hx hb)
      rw [Real.log_div hx.ne' hb.ne'] at hl
      have := mul_le_mul_of_nonneg_left hl (h.nonneg i j)
      have e : p i j / (b i + b j) * (β i + β j) = p i j * ((β i + β j) / (b i + b j)) := by field_simp
      rw [e]
      nlinarith
  have h2 : ∑ i, ∑ j, p i j * Real.log (β i + β j) ≤ ∑ i, ∑ j, p i j * Real.log (b i + b j) + (2 * ∑ i, s i * β i - ∑ i, ∑ j, p i j) := by
    have e : ∑ i, ∑ j, p i j / (b i + b j) * (β i + β j) = 2 * ∑ i, s i * β i := by
      rw [sum_symm (w := fun i j => p i j / (b i + b j)) (fun i j => by rw [h.symm, add_comm]) β]
      congr 1
      refine sum_congr rfl fun i _ => ?_
      rw [← hstr i, str, mul_comm]
    rw [← e, ← sum_sub_distrib, ← sum_add_distrib]
    refine sum_le_sum fun i _ => ?_
    rw [← sum_sub_distrib, ← sum_add_distrib]
    exact sum_le_sum fun j _ => h1 i j
  have h3 : ∑ i, s i * b i = (∑ i, ∑ j, p i j) / 2 := by
    rw [← sum_rate_str h hpos]
    exact sum_congr rfl fun i _ => by rw [hstr, mul_comm]
  unfold L
  linarith

theorem best_of_exact (h : Net p s) {b : ι → ℝ} (h0 : ∀ i, s i = 0 → b i = 0) (h1 : ∀ i, s i ≠ 0 → 0 < b i) (hstr : ∀ i, str p b i = s i) : Best p s b where
  nonneg i := by
    by_cases hi : s i = 0
    · rw [h0 i hi]
    · exact (h1 i hi).le
  zero := h0
  pos i j hij := add_pos (h1 i (h.act i j hij)) (h1 j (h.act j i (by rwa [h.symm])))
  best β _ hβ := exact_best h (fun i j hij => add_pos (h1 i (h.act i j hij)) (h1 j (h.act j i (by rwa [h.symm])))) hstr hβ
  str i _ := hstr i

theorem exists_low [Finite ι] (s : ι → ℝ) (hs : ∀ i, 0 ≤ s i) : ∃ σ > 0, ∀ i, s i ≠ 0 → σ ≤ s i := by
  classical
  by_cases hne : ∃ i, s i ≠ 0
  · obtain ⟨i0, hi0⟩ := hne
    have : (univ.filter fun i => s i ≠ 0).Nonempty := ⟨i0, by simp [hi0]⟩
    obtain ⟨i, hi, hmin⟩ := exists_min_image _ s this
    simp only [mem_filter, mem_univ, true_and] at hi hmin
    exact ⟨s i, lt_of_le_of_ne (hs i) (Ne.symm hi), hmin⟩
  · push Not at hne
    exact ⟨1, one_pos, fun i hi => absurd (hne i) hi⟩

variable [DecidableEq ι] [Nonempty ι]

/-- from the likelihood to the strengths -/
theorem Recipe.fits {C : Callbacks ι} (hR : Recipe C p s) (hk : Linked p s) (hne : ∃ i j, p i j ≠ 0) {b : ι → ℝ} (hb : Best p s b) (hb0 : ∀ i, s i ≠ 0 → b i ≠ 0)
    (d : ℝ) {ε : ℝ} (hε : 0 < ε) :
    ∃ T : ℕ, ∃ τ > 0, ∀ (o : Opts) (x0 : ι → ℝ), o.method = "fixed-point" → o.linsearch = false → o.tol < τ → o.eps < τ → T ≤ o.max_steps → Good p x0 → D s b x0 ≤ d →
      ∃ r, solver C o x0 = .ok r ∧ Good p r.x ∧ ∀ i, |str p r.x i - s i| ≤ ε * s i := by
  obtain ⟨c, hc, hlow⟩ := low_of_D hR.net hk hb d
  obtain ⟨σ, hσ, hσs⟩ := exists_low s hR.net.s_nonneg
  set δ : ℝ := min 1 (ε / 3) with hδ
  have hδ0 : 0 < δ := lt_min one_pos (by positivity)
  obtain ⟨T, τ, hτ, hT⟩ := hR.converges hk hne hb d (ε := σ * c * δ ^ 2) (by positivity)
  refine ⟨T, τ, hτ, fun o x0 h1 h2 h3 h4 h5 h6 h7 => ?_⟩
  obtain ⟨r, hr, hg, hD, hgap⟩ := hT o x0 h1 h2 h3 h4 h5 h6 h7
  refine ⟨r, hr, hg, fun i => ?_⟩
  by_cases hi : s i = 0
  · have : str p r.x i = 0 := sum_eq_zero fun j _ => by rw [show p i j = 0 from by_contra fun hij => hR.net.act i j hij hi, zero_div]
    rw [this, hi]; simp
  have hs : 0 < s i := lt_of_le_of_ne (hR.net.s_nonneg i) (Ne.symm hi)
  have h := str_of_gap hR.net hb hg hc hi (hlow r.x hg (hD.trans h7) i (hb0 i hi)) hgap
  have h' : (Real.sqrt (str p r.x i / s i) - 1) ^ 2 ≤ δ ^ 2 := h.trans (by
    rw [div_le_iff₀ (by positivity)]
    have := mul_le_mul_of_nonneg_right (hσs i hi) (by positivity : 0 ≤ c * δ ^ 2)
    nlinarith)
  have hq := abs_le.1 (abs_le_of_sq_le_sq h' hδ0.le)
  set q := Real.sqrt (str p r.x i / s i) with hqdef
  have hq2 : q ^ 2 = str p r.x i / s i := Real.sq_sqrt (div_nonneg (str_nonneg hR.net hg i) hs.le)
  have e : str p r.x i - s i = s i * (q ^ 2 - 1) := by rw [hq2]; field_simp
  rw [e, abs_mul, abs_of_pos hs, mul_comm]
  refine mul_le_mul_of_nonneg_right ?_ hs.le
  have h1' : δ ≤ 1 := min_le_left _ _
  have h2' : δ ≤ ε / 3 := min_le_right _ _
  rw [abs_le]
  constructor <;> nlinarith [hq.1, hq.2]

end

end Verif.EM
