import Verif.Lemmas.Solver
import Verif.Spec.LineSearch
import Verif.Spec.Domain

/-! C16: the line searches. -/

namespace Verif.Solver

open Finset Spec

open Classical in
attribute [local instance 0] propDecidable

variable {ι : Type*} [Fintype ι] [DecidableEq ι]

theorem legal_of_decrease (F : (ι → ℝ) → Option ℝ) (x dx f : ι → ℝ) {a alfa beta : ℝ} (hb0 : 0 < beta) (hb1 : beta < 1)
    (ha : 0 < alfa) (hle : alfa ≤ a) : LegalStep F x dx f a beta (decreaseStage F x dx beta alfa f) := by
  obtain ⟨h1, h2, -, h4⟩ := decreaseStage_spec F x dx f hb0 hb1 ha.le
  refine ⟨h2 ha, h1.trans hle, ?_⟩
  rcases h4 with ⟨p, q, hp, hq, h⟩ | h
  · left
    refine ⟨p, q, hp, hq, ?_⟩
    have : dot f dx = ∑ i, f i * dx i := rfl
    rw [← this]
    norm_num at h ⊢
    linarith
  · right
    rw [h]
    exact mul_le_mul_of_nonneg_right hle (by positivity)

/-! #### Models whose parameters are real numbers without constraint (cm_exp, dcm_exp, crema) -/

/-- C16 (cm_exp, dcm_exp, crema undirected and directed): the returned step is legal, for every objective, point and direction. -/
theorem C16_linsearch_free (x dx f : ι → ℝ) (F : (ι → ℝ) → Option ℝ) (beta alfa : ℝ) (hb0 : 0 < beta) (hb1 : beta < 1) (ha : 0 < alfa) :
    LegalStep F x dx f alfa beta (linsearch_fun_CM_exp x dx beta alfa f F) ∧
    LegalStep F x dx f alfa beta (linsearch_fun_DCM_exp x dx beta alfa f F) ∧
    LegalStep F x dx f alfa beta (linsearch_fun_crema_undirected x dx beta alfa f F) ∧
    LegalStep F x dx f alfa beta (linsearch_fun_crema_directed x dx beta alfa f F) := by
  have := legal_of_decrease F x dx f hb0 hb1 ha le_rfl
  exact ⟨this, this, this, this⟩

/-- C16 (fixed-point searches without constraint): the step is in `(0, alfa]`, is `alfa` on the first iteration, and on later ones the
displacement is shorter than the previous one unless 50 reductions were used. -/
theorem C16_linsearch_free_fixed (dx dx_old : ι → ℝ) (alfa beta : ℝ) (step : ℕ) (hb0 : 0 < beta) (hb1 : beta < 1) (ha : 0 < alfa)
    (g : (ι → ℝ) → (ι → ℝ) → ℝ → ℝ → ℕ → ℝ)
    (hg : g = linsearch_fun_CM_exp_fixed ∨ g = linsearch_fun_DCM_exp_fixed ∨ g = linsearch_fun_crema_undirected_fixed ∨
      g = linsearch_fun_crema_directed_fixed) :
    0 < g dx dx_old alfa beta step ∧ g dx dx_old alfa beta step ≤ alfa ∧ (step = 0 → g dx dx_old alfa beta step = alfa) ∧
    (step ≠ 0 → norm2 (g dx dx_old alfa beta step • dx) < norm2 dx_old ∨ g dx dx_old alfa beta step = alfa * beta ^ 50) := by
  have e : g = normStage := by rcases hg with h | h | h | h <;> rw [h] <;> rfl
  subst e
  obtain ⟨h1, h2, -, h4, h5⟩ := normStage_spec dx dx_old step hb0 hb1 ha.le
  exact ⟨h2 ha, h1, h4, h5⟩

/-- the hypotheses are met: the decrease test fails at step 1 and 1/2 and passes at 1/4 for `F(v) = -v²`, from `x = 1` in direction `-4` -/
example : linsearch_fun_CM_exp (ι := Fin 1) (fun _ => 1) (fun _ => -4) 0.5 1 (fun _ => 2) (fun v => some (-(v 0) ^ 2)) = 0.25 := by
  simp only [linsearch_fun_CM_exp, decreaseStage, backtrack, sufficient_decrease_condition, negF, dot]
  rw [if_neg, if_neg, if_pos]
  · norm_num
  all_goals simp; norm_num

/-! #### Positive parameters (cm, dcm) -/

/-- C16 (cm): from a positive point the step is legal and keeps every coordinate positive (at least 1% of its value). -/
theorem C16_linsearch_cm_partial (order : List ι) (ho : ∀ i, i ∈ order) (x dx f : ι → ℝ) (F : (ι → ℝ) → Option ℝ) (beta alfa : ℝ)
    (hb0 : 0 < beta) (hb1 : beta < 1) (ha : 0 < alfa) (hx : ∀ i, 0 < x i) :
    LegalStep F x dx f alfa beta (linsearch_fun_CM order x dx beta alfa f F) ∧
    KeepsPercent x dx (linsearch_fun_CM order x dx beta alfa f F) := by
  have hp := positivityStage_pos order x dx alfa ha (fun i _ _ => hx i)
  refine ⟨legal_of_decrease F x dx f hb0 hb1 hp (positivityStage_le _ _ _ _), fun i => ?_⟩
  obtain ⟨h1, -, h3, -⟩ := decreaseStage_spec F x dx f hb0 hb1 hp.le
  have := keep_percent h3 (hx i).le (fun hd => h1.trans (positivityStage_bound order x dx alfa i (ho i) (hx i).le hd))
  calc x i / 100 = 0.01 * x i := by ring
    _ ≤ _ := this

/-- C16 (cm, fixed-point). -/
theorem C16_linsearch_cm_fixed_partial (order : List ι) (ho : ∀ i, i ∈ order) (x dx dx_old : ι → ℝ) (beta alfa : ℝ) (step : ℕ)
    (hb0 : 0 < beta) (hb1 : beta < 1) (ha : 0 < alfa) (hx : ∀ i, 0 < x i) :
    0 < linsearch_fun_CM_fixed order x dx dx_old alfa beta step ∧ linsearch_fun_CM_fixed order x dx dx_old alfa beta step ≤ alfa ∧
    KeepsPercent x dx (linsearch_fun_CM_fixed order x dx dx_old alfa beta step) ∧
    (step ≠ 0 → norm2 (linsearch_fun_CM_fixed order x dx dx_old alfa beta step • dx) < norm2 dx_old ∨
      linsearch_fun_CM_fixed order x dx dx_old alfa beta step ≤ alfa * beta ^ 50) := by
  have hp := positivityStage_pos order x dx alfa ha (fun i _ _ => hx i)
  have hle := positivityStage_le order x dx alfa
  obtain ⟨h1, h2, h3, -, h5⟩ := normStage_spec dx dx_old step hb0 hb1 hp.le
  refine ⟨h2 hp, h1.trans hle, fun i => ?_, fun hs => ?_⟩
  · have := keep_percent h3 (hx i).le (fun hd => h1.trans (positivityStage_bound order x dx alfa i (ho i) (hx i).le hd))
    calc x i / 100 = 0.01 * x i := by ring
      _ ≤ _ := this
  · refine (h5 hs).imp id fun h => ?_
    exact h.le.trans (mul_le_mul_of_nonneg_right hle (by positivity))

/-- C16 (cm, limit of the guarantee): a zero parameter with a non-zero direction makes the step zero, so the iteration stalls there. -/
theorem C16_linsearch_cm_zero_stalls (order : List ι) (x dx f : ι → ℝ) (F : (ι → ℝ) → Option ℝ) (beta alfa : ℝ)
    (hb0 : 0 < beta) (hb1 : beta < 1) (ha : 0 < alfa) (i : ι) (hi : i ∈ order) (hx : x i = 0) (hd : dx i ≠ 0) :
    linsearch_fun_CM order x dx beta alfa f F = 0 := by
  have h0 : positivityStage order x dx alfa = 0 := by
    refine le_antisymm ?_ (positivityStage_nonneg order x dx alfa ha.le)
    unfold positivityStage
    refine forL_reach (fun a => a ≤ 0) order _ alfa (fun e _ a ha => ?_) i hi (fun a => ?_)
    · dsimp only
      split
      · exact ha
      · split
        · exact (min_le_left _ _).trans ha
        · exact ha
    · simp [hx, hd]
  have hs := decreaseStage_spec F x dx f hb0 hb1 (le_refl (0 : ℝ))
  show decreaseStage F x dx beta (positivityStage order x dx alfa) f = 0
  rw [h0]
  exact le_antisymm hs.1 hs.2.2.1

/-- C16 (dcm). -/
theorem C16_linsearch_dcm (order : List ι) (ho : ∀ i, i ∈ order) (x dx f : ι → ℝ) (F : (ι → ℝ) → Option ℝ) (beta alfa : ℝ)
    (hb0 : 0 < beta) (hb1 : beta < 1) (ha : 0 < alfa) :
    LegalStep F x dx f alfa beta (linsearch_fun_DCM order x dx beta alfa f F) ∧
    ((∀ i, 0 ≤ x i ∧ (x i = 0 → 0 ≤ dx i)) → KeepsPercent x dx (linsearch_fun_DCM order x dx beta alfa f F)) := by
  have hp := positivityStage'_pos order x dx alfa ha
  refine ⟨legal_of_decrease F x dx f hb0 hb1 hp (positivityStage'_le _ _ _ _), fun hx i => ?_⟩
  obtain ⟨h1, -, h3, -⟩ := decreaseStage_spec F x dx f hb0 hb1 hp.le
  have := keep_percent h3 (hx i).1 (fun hd => h1.trans (positivityStage'_bound order x dx alfa i (ho i)
    (lt_of_le_of_ne (hx i).1 fun h => absurd ((hx i).2 h.symm) (not_le.2 hd)) hd))
  calc x i / 100 = 0.01 * x i := by ring
    _ ≤ _ := this

/-- C16 (dcm, fixed-point). -/
theorem C16_linsearch_dcm_fixed (order : List ι) (ho : ∀ i, i ∈ order) (x dx dx_old : ι → ℝ) (beta alfa : ℝ) (step : ℕ)
    (hb0 : 0 < beta) (hb1 : beta < 1) (ha : 0 < alfa) :
    0 < linsearch_fun_DCM_fixed order x dx dx_old alfa beta step ∧ linsearch_fun_DCM_fixed order x dx dx_old alfa beta step ≤ alfa ∧
    ((∀ i, 0 ≤ x i ∧ (x i = 0 → 0 ≤ dx i)) → KeepsPercent x dx (linsearch_fun_DCM_fixed order x dx dx_old alfa beta step)) ∧
    (step ≠ 0 → norm2 (linsearch_fun_DCM_fixed order x dx dx_old alfa beta step • dx) < norm2 dx_old ∨
      linsearch_fun_DCM_fixed order x dx dx_old alfa beta step ≤ alfa * beta ^ 50) := by
  have hp := positivityStage'_pos order x dx alfa ha
  have hle := positivityStage'_le order x dx alfa
  obtain ⟨h1, h2, h3, -, h5⟩ := normStage_spec dx dx_old step hb0 hb1 hp.le
  refine ⟨h2 hp, h1.trans hle, fun hx i => ?_, fun hs => ?_⟩
  · have := keep_percent h3 (hx i).1 (fun hd => h1.trans (positivityStage'_bound order x dx alfa i (ho i)
      (lt_of_le_of_ne (hx i).1 fun h => absurd ((hx i).2 h.symm) (not_le.2 hd)) hd))
    calc x i / 100 = 0.01 * x i := by ring
      _ ≤ _ := this
  · refine (h5 hs).imp id fun h => ?_
    exact h.le.trans (mul_le_mul_of_nonneg_right hle (by positivity))

/-- C16 (dcm, limit of the guarantee): the hypothesis on zero entries is needed: from `x = 0` in a negative direction the search accepts
the full step and leaves the domain (the strict test `a > 0` skips the entry). -/
theorem C16_linsearch_dcm_zero_leaves :
    linsearch_fun_DCM (ι := Fin 1) [0] (fun _ => 0) (fun _ => -1) 0.5 1 (fun _ => 1) (fun v => some (-v 0)) = 1 ∧
    ¬ 0 ≤ (0 : ℝ) + 1 * (-1) := by
  refine ⟨?_, by norm_num⟩
  have h1 : positivityStage' (ι := Fin 1) [0] (fun _ => 0) (fun _ => -1) 1 = 1 := by
    simp [positivityStage', forL]
  rw [linsearch_fun_DCM, h1, decreaseStage, backtrack, if_pos]
  simp [sufficient_decrease_condition, negF, dot]
  norm_num

/-- the hypotheses of the cm theorem are met and the positivity stage matters: direction `-4` from 1 would reach -3 -/
example : positivityStage (ι := Fin 1) [0] (fun _ => 1) (fun _ => -4) 1 = 0.2475 := by
  simp [positivityStage, forL]; norm_num

/-! #### Weighted models: the `while True` stage -/

section Weighted

variable {n : ℕ}

/-- positivity of the points visited -/
theorem new_pos {x dx : ι → ℝ} {r : ℝ} (h : KeepsPercent x dx r) (hx : ∀ i, 0 < x i) (i : ι) : 0 < (x + r • dx) i := by
  have := h i
  have h2 := hx i
  simp only [Pi.add_apply, Pi.smul_apply, smul_eq_mul]
  linarith

/-- C16 (ecm): from an admissible point (positive parameters, `y_i y_j < 1` for every pair) the `while True` loop ends, the step is legal and keeps
all parameters positive; and it is obtained from a step `r0` at which all pair products are below one by at most 50 halvings of the decrease
stage. -/
theorem C16_linsearch_ecm (hn : 2 ≤ n) (order : List (Fin 2 × Fin n)) (ho : ∀ v, v ∈ order) (x dx f : Fin 2 × Fin n → ℝ)
    (F : (Fin 2 × Fin n → ℝ) → Option ℝ) (beta alfa : ℝ) (hb0 : 0 < beta) (hb1 : beta < 1) (ha : 0 < alfa) (hx : AdmECM x) :
    ∃ r r0, linsearch_fun_ECM order x dx beta alfa f F = some r ∧ LegalStep F x dx f alfa beta r ∧ KeepsPercent x dx r ∧
      AdmECM (x + r0 • dx) ∧ (r = r0 ∨ r < r0 ∧ (Improves F x dx f r ∨ r = r0 * beta ^ 50)) := by
  obtain ⟨hx0, hx1, hxy⟩ := hx
  have hpos : ∀ v, 0 < x v := by
    rintro ⟨b, i⟩
    match b with
    | 0 => exact hx0 i
    | 1 => exact hx1 i
  have hp := positivityStage_pos order x dx alfa ha (fun i _ _ => hpos i)
  have hle := positivityStage_le order x dx alfa
  -- small steps keep positivity
  have keep : ∀ t, 0 ≤ t → t ≤ positivityStage order x dx alfa → KeepsPercent x dx t := by
    intro t ht htl v
    have := keep_percent ht (hpos v).le (fun hd => htl.trans (positivityStage_bound order x dx alfa v (ho v) (hpos v).le hd))
    calc x v / 100 = 0.01 * x v := by ring
      _ ≤ _ := this
  obtain ⟨r0, hr0⟩ : ∃ r, untilLoop (fun a => topTwoProd (blk 1 (x + a • dx)) < 1) beta (positivityStage order x dx alfa) = some r := by
    apply untilLoop_terminates hb0 hb1 hp
    have h1 : ∀ i j : Fin n, i ≠ j → ∀ᶠ t in nhds (0 : ℝ), (x (1, i) + t * dx (1, i)) * (x (1, j) + t * dx (1, j)) < 1 := by
      intro i j hij
      have hc : Filter.Tendsto (fun t : ℝ => (x (1, i) + t * dx (1, i)) * (x (1, j) + t * dx (1, j))) (nhds 0)
          (nhds ((x (1, i) + 0 * dx (1, i)) * (x (1, j) + 0 * dx (1, j)))) :=
        (Continuous.tendsto (by fun_prop) 0)
      exact hc.eventually_lt_const (by simpa using hxy i j hij)
    have h2 : ∀ i : Fin n, ∀ᶠ t in nhds (0 : ℝ), 0 < x (1, i) + t * dx (1, i) := by
      intro i
      have hc : Filter.Tendsto (fun t : ℝ => x (1, i) + t * dx (1, i)) (nhds 0) (nhds (x (1, i) + 0 * dx (1, i))) :=
        (Continuous.tendsto (by fun_prop) 0)
      exact hc.eventually_const_lt (by simpa using hx1 i)
    have h3 : ∀ᶠ t in nhds (0 : ℝ), (∀ i j : Fin n, i ≠ j → (x (1, i) + t * dx (1, i)) * (x (1, j) + t * dx (1, j)) < 1) ∧
        ∀ i, 0 < x (1, i) + t * dx (1, i) := by
      refine Filter.Eventually.and ?_ (Filter.eventually_all.2 h2)
      refine Filter.eventually_all.2 fun i => Filter.eventually_all.2 fun j => ?_
      by_cases hij : i = j
      · simp [hij]
      · simpa [hij] using h1 i j hij
    filter_upwards [h3] with t ht _
    rw [topTwoProd_lt_one hn]
    · exact ht.1
    · exact fun i => (ht.2 i).le
  obtain ⟨hc, k, hk, -⟩ := untilLoop_some hr0
  have hr0pos : 0 < r0 := by rw [hk]; positivity
  have hr0le : r0 ≤ positivityStage order x dx alfa := by
    rw [hk]; exact mul_le_of_le_one_right hp.le (pow_le_one₀ hb0.le hb1.le)
  have hkp := keep r0 hr0pos.le hr0le
  obtain ⟨d1, d2, d3, d4⟩ := decreaseStage_spec F x dx f hb0 hb1 hr0pos.le
  refine ⟨decreaseStage F x dx beta r0 f, r0, ?_, legal_of_decrease F x dx f hb0 hb1 hr0pos (hr0le.trans hle),
    keep _ d3 (d1.trans hr0le), ⟨fun i => new_pos hkp hpos (0, i), fun i => new_pos hkp hpos (1, i), ?_⟩, ?_⟩
  · rw [linsearch_fun_ECM, hr0]; rfl
  · exact (topTwoProd_lt_one hn (blk 1 (x + r0 • dx)) (fun i => (new_pos hkp hpos (1, i)).le)).1 hc
  · rcases d1.eq_or_lt with h | h
    · left; exact h
    · right
      refine ⟨h, ?_⟩
      rcases d4 with ⟨p, q, hp, hq, h⟩ | h
      · left
        refine ⟨p, q, hp, hq, ?_⟩
        have : dot f dx = ∑ i, f i * dx i := rfl
        rw [← this]
        norm_num at h ⊢
        linarith
      · right; exact h

/-- C16 (ecm): if the log-likelihood is not a number outside the domain, the new point is admissible again unless 50 halvings were used: the
iteration does not leave the domain. -/
theorem C16_linsearch_ecm_domain (hn : 2 ≤ n) (order : List (Fin 2 × Fin n)) (ho : ∀ v, v ∈ order) (x dx f : Fin 2 × Fin n → ℝ)
    (F : (Fin 2 × Fin n → ℝ) → Option ℝ) (beta alfa : ℝ) (hb0 : 0 < beta) (hb1 : beta < 1) (ha : 0 < alfa) (hx : AdmECM x)
    (hF : ∀ v, (∀ w, 0 < v w) → F v ≠ none → AdmECM v) (r : ℝ) (hr : linsearch_fun_ECM order x dx beta alfa f F = some r) :
    AdmECM (x + r • dx) ∨ r ≤ alfa * beta ^ 50 := by
  obtain ⟨r', r0, h1, h2, h3, h4, h5⟩ := C16_linsearch_ecm hn order ho x dx f F beta alfa hb0 hb1 ha hx
  rw [hr, Option.some.injEq] at h1
  subst h1
  rcases h5 with h | ⟨_, h⟩
  · left; rw [h]; exact h4
  · rcases h2.improves with ⟨p, q, hp, hq, _⟩ | h
    · left
      refine hF _ (fun w => new_pos h3 ?_ w) (by simp [hq])
      rintro ⟨b, i⟩
      match b with
      | 0 => exact hx.1 i
      | 1 => exact hx.2.1 i
    · right; exact h

/-- C16 (ecm, hang): from a point with a pair product above one (or equal) and a direction that does not decrease the weight parameters, the
search never returns. -/
theorem C16_linsearch_ecm_hangs (hn : 2 ≤ n) (order : List (Fin 2 × Fin n)) (x dx f : Fin 2 × Fin n → ℝ) (F : (Fin 2 × Fin n → ℝ) → Option ℝ)
    (beta alfa : ℝ) (hb0 : 0 < beta) (ha : 0 < alfa) (hx : ∀ v, 0 < x v) (i j : Fin n) (hij : i ≠ j) (hp : 1 ≤ x (1, i) * x (1, j))
    (hd : ∀ i, 0 ≤ dx (1, i)) : linsearch_fun_ECM order x dx beta alfa f F = none := by
  have hpos := positivityStage_pos order x dx alfa ha (fun i _ _ => hx i)
  rw [linsearch_fun_ECM, untilLoop_never hb0 hpos]
  · rfl
  · intro t ht h
    have hnn : ∀ m, x (1, m) ≤ blk 1 (x + t • dx) m := by
      intro m; simp only [blk, Pi.add_apply, Pi.smul_apply, smul_eq_mul]
      have := mul_nonneg ht.le (hd m); linarith
    rw [topTwoProd_lt_one hn _ (fun m => (hx (1, m)).le.trans (hnn m))] at h
    have := h i j hij
    have h2 := mul_le_mul (hnn i) (hnn j) (hx (1, j)).le ((hx (1, i)).le.trans (hnn i))
    linarith

/-- C16 (ecm_exp): from a point with `β_i + β_j > 1e-14` for every pair the loop ends, the step is legal, and the new point is
admissible: the iteration never leaves the domain. -/
theorem C16_linsearch_ecm_exp (hn : 2 ≤ n) (x dx f : Fin 2 × Fin n → ℝ)
    (F : (Fin 2 × Fin n → ℝ) → Option ℝ) (beta alfa : ℝ) (hb0 : 0 < beta) (hb1 : beta < 1) (ha : 0 < alfa)
    (hx : ∀ i j, i ≠ j → x (1, i) + x (1, j) > 1e-14) :
    ∃ r, linsearch_fun_ECM_exp x dx beta alfa f F = some r ∧ LegalStep F x dx f alfa beta r ∧
      AdmECMexp (x + r • dx) := by
  obtain ⟨r0, hr0⟩ : ∃ r, untilLoop (fun a => lowTwoSum (blk 1 (x + a • dx)) > 1e-14) beta alfa = some r := by
    apply untilLoop_terminates hb0 hb1 ha
    have h1 : ∀ i j : Fin n, i ≠ j → ∀ᶠ t in nhds (0 : ℝ), (x (1, i) + t * dx (1, i)) + (x (1, j) + t * dx (1, j)) > 1e-14 := by
      intro i j hij
      have hc : Filter.Tendsto (fun t : ℝ => (x (1, i) + t * dx (1, i)) + (x (1, j) + t * dx (1, j))) (nhds 0)
          (nhds ((x (1, i) + 0 * dx (1, i)) + (x (1, j) + 0 * dx (1, j)))) :=
        (Continuous.tendsto (by fun_prop) 0)
      exact hc.eventually_const_lt (by simpa using hx i j hij)
    have h3 : ∀ᶠ t in nhds (0 : ℝ), ∀ i j : Fin n, i ≠ j → (x (1, i) + t * dx (1, i)) + (x (1, j) + t * dx (1, j)) > 1e-14 := by
      refine Filter.eventually_all.2 fun i => Filter.eventually_all.2 fun j => ?_
      by_cases hij : i = j
      · simp [hij]
      · simpa [hij] using h1 i j hij
    filter_upwards [h3] with t ht _
    rw [lowTwoSum_gt hn]
    exact ht
  obtain ⟨hc, k, hk, -⟩ := untilLoop_some hr0
  have hr0pos : 0 < r0 := by rw [hk]; positivity
  have hr0le : r0 ≤ alfa := by
    rw [hk]; exact mul_le_of_le_one_right ha.le (pow_le_one₀ hb0.le hb1.le)
  obtain ⟨d1, d2, d3, d4⟩ := decreaseStage_spec F x dx f hb0 hb1 hr0pos.le
  refine ⟨decreaseStage F x dx beta r0 f, ?_, legal_of_decrease F x dx f hb0 hb1 hr0pos hr0le, ?_⟩
  · rw [linsearch_fun_ECM_exp, hr0]; rfl
  · -- the constraint is linear: every smaller step satisfies it too
    rw [lowTwoSum_gt hn] at hc
    intro i j hij
    have e1 := hc i j hij
    have e0 := hx i j hij
    simp only [blk, Pi.add_apply, Pi.smul_apply, smul_eq_mul] at e1 ⊢
    set r := decreaseStage F x dx beta r0 f
    have hA : 0 ≤ r := d3
    rcases le_or_gt 0 (dx (1, i) + dx (1, j)) with h | h
    · nlinarith [mul_nonneg hA h]
    · nlinarith [mul_le_mul_of_nonpos_right d1 h.le]

/-- C16 (decm): from positive parameters with `b_out_i b_in_j < 1` for ALL `i, j` (also `i = j`) the loop ends, the step is legal and keeps the
parameters positive, and it comes from a step `r0` at which all these products are below one. -/
theorem C16_linsearch_decm [NeZero n] (order : List (Fin 4 × Fin n)) (ho : ∀ v, v ∈ order) (x dx f : Fin 4 × Fin n → ℝ)
    (F : (Fin 4 × Fin n → ℝ) → Option ℝ) (beta alfa : ℝ) (hb0 : 0 < beta) (hb1 : beta < 1) (ha : 0 < alfa) (hpos : ∀ v, 0 < x v)
    (hxy : ∀ i j, x (2, i) * x (3, j) < 1) :
    ∃ r r0, linsearch_fun_DECM order x dx beta alfa f F = some r ∧ LegalStep F x dx f alfa beta r ∧ KeepsPercent x dx r ∧
      AdmDECM (x + r0 • dx) ∧ (r = r0 ∨ r < r0 ∧ (Improves F x dx f r ∨ r = r0 * beta ^ 50)) := by
  have hp := positivityStage'_pos order x dx alfa ha
  have hle := positivityStage'_le order x dx alfa
  have keep : ∀ t, 0 ≤ t → t ≤ positivityStage' order x dx alfa → KeepsPercent x dx t := by
    intro t ht htl v
    have := keep_percent ht (hpos v).le (fun hd => htl.trans (positivityStage'_bound order x dx alfa v (ho v) (hpos v) hd))
    calc x v / 100 = 0.01 * x v := by ring
      _ ≤ _ := this
  obtain ⟨r0, hr0⟩ : ∃ r, untilLoop (fun a => maxv (blk 2 (x + a • dx)) * maxv (blk 3 (x + a • dx)) < 1) beta
      (positivityStage' order x dx alfa) = some r := by
    apply untilLoop_terminates hb0 hb1 hp
    have h1 : ∀ i j : Fin n, ∀ᶠ t in nhds (0 : ℝ), (x (2, i) + t * dx (2, i)) * (x (3, j) + t * dx (3, j)) < 1 := by
      intro i j
      have hc : Filter.Tendsto (fun t : ℝ => (x (2, i) + t * dx (2, i)) * (x (3, j) + t * dx (3, j))) (nhds 0)
          (nhds ((x (2, i) + 0 * dx (2, i)) * (x (3, j) + 0 * dx (3, j)))) :=
        (Continuous.tendsto (by fun_prop) 0)
      exact hc.eventually_lt_const (by simpa using hxy i j)
    have h2 : ∀ v, ∀ᶠ t in nhds (0 : ℝ), 0 < x v + t * dx v := by
      intro v
      have hc : Filter.Tendsto (fun t : ℝ => x v + t * dx v) (nhds 0) (nhds (x v + 0 * dx v)) :=
        (Continuous.tendsto (by fun_prop) 0)
      exact hc.eventually_const_lt (by simpa using hpos v)
    have h3 : ∀ᶠ t in nhds (0 : ℝ), (∀ i j : Fin n, (x (2, i) + t * dx (2, i)) * (x (3, j) + t * dx (3, j)) < 1) ∧
        ∀ v, 0 < x v + t * dx v :=
      Filter.Eventually.and (Filter.eventually_all.2 fun i => Filter.eventually_all.2 fun j => h1 i j) (Filter.eventually_all.2 h2)
    filter_upwards [h3] with t ht _
    rw [maxv_mul_lt_one]
    · exact ht.1
    · exact fun i => (ht.2 (2, i)).le
    · exact fun i => (ht.2 (3, i)).le
  obtain ⟨hc, k, hk, -⟩ := untilLoop_some hr0
  have hr0pos : 0 < r0 := by rw [hk]; positivity
  have hr0le : r0 ≤ positivityStage' order x dx alfa := by
    rw [hk]; exact mul_le_of_le_one_right hp.le (pow_le_one₀ hb0.le hb1.le)
  have hkp := keep r0 hr0pos.le hr0le
  obtain ⟨d1, d2, d3, d4⟩ := decreaseStage_spec F x dx f hb0 hb1 hr0pos.le
  refine ⟨decreaseStage F x dx beta r0 f, r0, ?_, legal_of_decrease F x dx f hb0 hb1 hr0pos (hr0le.trans hle),
    keep _ d3 (d1.trans hr0le), ⟨fun v => new_pos hkp hpos v, ?_⟩, ?_⟩
  · rw [linsearch_fun_DECM, hr0]; rfl
  · exact fun i j _ => (maxv_mul_lt_one (blk 2 (x + r0 • dx)) (blk 3 (x + r0 • dx)) (fun i => (new_pos hkp hpos (2, i)).le)
      (fun i => (new_pos hkp hpos (3, i)).le)).1 hc i j
  · rcases d1.eq_or_lt with h | h
    · left; exact h
    · right
      refine ⟨h, ?_⟩
      rcases d4 with ⟨p, q, hp, hq, h⟩ | h
      · left
        refine ⟨p, q, hp, hq, ?_⟩
        have : dot f dx = ∑ i, f i * dx i := rfl
        rw [← this]
        norm_num at h ⊢
        linarith
      · right; exact h

/-- C16 (decm, hang): the test also multiplies the two weight parameters of ONE node, which the model does not need: from an admissible point
with `b_out_i b_in_i ≥ 1` for some node and a direction that does not decrease the weight parameters, the search never returns. -/
theorem C16_linsearch_decm_hangs [NeZero n] (order : List (Fin 4 × Fin n)) (x dx f : Fin 4 × Fin n → ℝ)
    (F : (Fin 4 × Fin n → ℝ) → Option ℝ) (beta alfa : ℝ) (hb0 : 0 < beta) (ha : 0 < alfa) (hx : AdmDECM x) (i : Fin n)
    (hp : 1 ≤ x (2, i) * x (3, i)) (hd : ∀ i, 0 ≤ dx (2, i) ∧ 0 ≤ dx (3, i)) :
    linsearch_fun_DECM order x dx beta alfa f F = none := by
  have hpos := positivityStage'_pos order x dx alfa ha
  rw [linsearch_fun_DECM, untilLoop_never hb0 hpos]
  · rfl
  · intro t ht h
    have h2 : ∀ m, x (2, m) ≤ blk 2 (x + t • dx) m := by
      intro m; simp only [blk, Pi.add_apply, Pi.smul_apply, smul_eq_mul]
      have := mul_nonneg ht.le (hd m).1; linarith
    have h3 : ∀ m, x (3, m) ≤ blk 3 (x + t • dx) m := by
      intro m; simp only [blk, Pi.add_apply, Pi.smul_apply, smul_eq_mul]
      have := mul_nonneg ht.le (hd m).2; linarith
    rw [maxv_mul_lt_one _ _ (fun m => (hx.1 (2, m)).le.trans (h2 m)) (fun m => (hx.1 (3, m)).le.trans (h3 m))] at h
    have := h i i
    have h4 := mul_le_mul (h2 i) (h3 i) (hx.1 (3, i)).le ((hx.1 (2, i)).le.trans (h2 i))
    linarith

/-- an admissible point on which `linsearch_fun_DECM` hangs: `b_out = (2, 1/10)`, `b_in = (1, 1/10)` -/
example : AdmDECM (n := 2) (fun v => if v = (2, 0) then 2 else if v = (3, 0) then 1 else 1 / 10) ∧
    (1 : ℝ) ≤ (fun v : Fin 4 × Fin 2 => if v = (2, 0) then (2 : ℝ) else if v = (3, 0) then 1 else 1 / 10) (2, 0) *
      (fun v : Fin 4 × Fin 2 => if v = (2, 0) then (2 : ℝ) else if v = (3, 0) then 1 else 1 / 10) (3, 0) := by
  refine ⟨⟨fun v => ?_, fun i j hij => ?_⟩, by simp⟩
  · dsimp only; split
    · norm_num
    · split <;> norm_num
  · fin_cases i <;> fin_cases j <;> simp at hij ⊢ <;> norm_num

/-- C16 (decm_exp): from a point with `min β_out + min β_in > 0` the loop ends, the step is legal and the new point has
`β_out_i + β_in_j > 0` for all `i, j`: the iteration never leaves the domain. -/
theorem C16_linsearch_decm_exp [NeZero n] (x dx f : Fin 4 × Fin n → ℝ)
    (F : (Fin 4 × Fin n → ℝ) → Option ℝ) (beta alfa : ℝ) (hb0 : 0 < beta) (hb1 : beta < 1) (ha : 0 < alfa)
    (hx : ∀ i j, x (2, i) + x (3, j) > 0) :
    ∃ r, linsearch_fun_DECM_exp x dx beta alfa f F = some r ∧ LegalStep F x dx f alfa beta r ∧
      ∀ i j, (x + r • dx) (2, i) + (x + r • dx) (3, j) > 0 := by
  set tmp := minv (blk 2 x) + minv (blk 3 x) with htmp
  have htmp0 : tmp > 0 := (minv_add_gt _ _ 0).2 hx
  have hle : ∀ i j, tmp ≤ x (2, i) + x (3, j) := fun i j =>
    add_le_add (inf'_le (blk 2 x) (mem_univ i)) (inf'_le (blk 3 x) (mem_univ j))
  obtain ⟨r0, hr0⟩ : ∃ r, untilLoop (fun a => minv (blk 2 (x + a • dx)) + minv (blk 3 (x + a • dx)) > tmp * 0.01) beta alfa = some r := by
    apply untilLoop_terminates hb0 hb1 ha
    have h1 : ∀ i j : Fin n, ∀ᶠ t in nhds (0 : ℝ), (x (2, i) + t * dx (2, i)) + (x (3, j) + t * dx (3, j)) > tmp * 0.01 := by
      intro i j
      have hc : Filter.Tendsto (fun t : ℝ => (x (2, i) + t * dx (2, i)) + (x (3, j) + t * dx (3, j))) (nhds 0)
          (nhds ((x (2, i) + 0 * dx (2, i)) + (x (3, j) + 0 * dx (3, j)))) :=
        (Continuous.tendsto (by fun_prop) 0)
      refine hc.eventually_const_lt ?_
      have := hle i j
      norm_num
      linarith
    filter_upwards [Filter.eventually_all.2 fun i => Filter.eventually_all.2 fun j => h1 i j] with t ht _
    rw [minv_add_gt]
    exact ht
  obtain ⟨hc, k, hk, -⟩ := untilLoop_some hr0
  have hr0pos : 0 < r0 := by rw [hk]; positivity
  have hr0le : r0 ≤ alfa := by
    rw [hk]; exact mul_le_of_le_one_right ha.le (pow_le_one₀ hb0.le hb1.le)
  obtain ⟨d1, d2, d3, d4⟩ := decreaseStage_spec F x dx f hb0 hb1 hr0pos.le
  refine ⟨decreaseStage F x dx beta r0 f, ?_, legal_of_decrease F x dx f hb0 hb1 hr0pos hr0le, ?_⟩
  · rw [linsearch_fun_DECM_exp, ← htmp]; simp only [hr0]; rfl
  · rw [minv_add_gt] at hc
    intro i j
    have e1 := hc i j
    have e0 := hx i j
    simp only [blk, Pi.add_apply, Pi.smul_apply, smul_eq_mul] at e1 ⊢
    set r := decreaseStage F x dx beta r0 f
    have hA : 0 ≤ r := d3
    rcases le_or_gt 0 (dx (2, i) + dx (3, j)) with h | h
    · nlinarith [mul_nonneg hA h]
    · nlinarith [mul_le_mul_of_nonpos_right d1 h.le]

/-- C16 (fixed-point searches of the weighted models): same termination and positivity guarantees. -/
theorem C16_linsearch_decm_exp_fixed [NeZero n] (x dx dx_old : Fin 4 × Fin n → ℝ) (alfa beta : ℝ) (step : ℕ)
    (hb0 : 0 < beta) (hb1 : beta < 1) (ha : 0 < alfa) (hx : ∀ i j, x (2, i) + x (3, j) > 0) :
    ∃ r, linsearch_fun_DECM_exp_fixed x dx dx_old alfa beta step = some r ∧ 0 < r ∧ r ≤ alfa ∧
      (∀ i j, (x + r • dx) (2, i) + (x + r • dx) (3, j) > 0) := by
  obtain ⟨r', hr', -⟩ := C16_linsearch_decm_exp x dx 0 (fun _ => none) beta alfa hb0 hb1 ha hx
  rw [linsearch_fun_DECM_exp] at hr'
  obtain ⟨r0, hr0, -⟩ := Option.map_eq_some_iff.1 hr'
  set tmp := minv (blk 2 x) + minv (blk 3 x) with htmp
  have htmp0 : tmp > 0 := (minv_add_gt _ _ 0).2 hx
  obtain ⟨hc, k, hk, -⟩ := untilLoop_some hr0
  have hr0pos : 0 < r0 := by rw [hk]; positivity
  have hr0le : r0 ≤ alfa := by
    rw [hk]; exact mul_le_of_le_one_right ha.le (pow_le_one₀ hb0.le hb1.le)
  obtain ⟨d1, d2, d3, -, -⟩ := normStage_spec dx dx_old step hb0 hb1 hr0pos.le
  refine ⟨normStage dx dx_old r0 beta step, ?_, d2 hr0pos, d1.trans hr0le, ?_⟩
  · rw [linsearch_fun_DECM_exp_fixed, ← htmp]; simp only [hr0]; rfl
  · rw [minv_add_gt] at hc
    intro i j
    have e1 := hc i j
    have e0 := hx i j
    simp only [blk, Pi.add_apply, Pi.smul_apply, smul_eq_mul] at e1 ⊢
    set r := normStage dx dx_old r0 beta step
    have hA : 0 ≤ r := d3
    rcases le_or_gt 0 (dx (2, i) + dx (3, j)) with h | h
    · nlinarith [mul_nonneg hA h]
    · nlinarith [mul_le_mul_of_nonpos_right d1 h.le]

/-- C16 (ecm_exp, fixed-point). -/
theorem C16_linsearch_ecm_exp_fixed (hn : 2 ≤ n) (x dx dx_old : Fin 2 × Fin n → ℝ) (alfa beta : ℝ) (step : ℕ)
    (hb0 : 0 < beta) (hb1 : beta < 1) (ha : 0 < alfa) (hx : ∀ i j, i ≠ j → x (1, i) + x (1, j) > 1e-14) :
    ∃ r, linsearch_fun_ECM_exp_fixed x dx dx_old alfa beta step = some r ∧ 0 < r ∧ r ≤ alfa ∧ AdmECMexp (x + r • dx) := by
  obtain ⟨r', hr', -⟩ := C16_linsearch_ecm_exp hn x dx 0 (fun _ => none) beta alfa hb0 hb1 ha hx
  rw [linsearch_fun_ECM_exp] at hr'
  obtain ⟨r0, hr0, -⟩ := Option.map_eq_some_iff.1 hr'
  obtain ⟨hc, k, hk, -⟩ := untilLoop_some hr0
  have hr0pos : 0 < r0 := by rw [hk]; positivity
  have hr0le : r0 ≤ alfa := by
    rw [hk]; exact mul_le_of_le_one_right ha.le (pow_le_one₀ hb0.le hb1.le)
  obtain ⟨d1, d2, d3, -, -⟩ := normStage_spec dx dx_old step hb0 hb1 hr0pos.le
  refine ⟨normStage dx dx_old r0 beta step, ?_, d2 hr0pos, d1.trans hr0le, ?_⟩
  · rw [linsearch_fun_ECM_exp_fixed, hr0]; rfl
  · rw [lowTwoSum_gt hn] at hc
    intro i j hij
    have e1 := hc i j hij
    have e0 := hx i j hij
    simp only [blk, Pi.add_apply, Pi.smul_apply, smul_eq_mul] at e1 ⊢
    set r := normStage dx dx_old r0 beta step
    have hA : 0 ≤ r := d3
    rcases le_or_gt 0 (dx (1, i) + dx (1, j)) with h | h
    · nlinarith [mul_nonneg hA h]
    · nlinarith [mul_le_mul_of_nonpos_right d1 h.le]

/-- C16 (ecm, fixed-point): the loop ends and the step keeps the parameters positive. -/
theorem C16_linsearch_ecm_fixed (hn : 2 ≤ n) (order : List (Fin 2 × Fin n)) (ho : ∀ v, v ∈ order) (x dx dx_old : Fin 2 × Fin n → ℝ)
    (alfa beta : ℝ) (step : ℕ) (hb0 : 0 < beta) (hb1 : beta < 1) (ha : 0 < alfa) (hx : AdmECM x) :
    ∃ r, linsearch_fun_ECM_fixed order x dx dx_old alfa beta step = some r ∧ 0 < r ∧ r ≤ alfa ∧ KeepsPercent x dx r := by
  obtain ⟨r', -, hr', -⟩ := C16_linsearch_ecm hn order ho x dx 0 (fun _ => none) beta alfa hb0 hb1 ha hx
  rw [linsearch_fun_ECM] at hr'
  obtain ⟨r0, hr0, -⟩ := Option.map_eq_some_iff.1 hr'
  obtain ⟨hx0, hx1, hxy⟩ := hx
  have hpos : ∀ v, 0 < x v := by
    rintro ⟨b, i⟩
    match b with
    | 0 => exact hx0 i
    | 1 => exact hx1 i
  have hp := positivityStage_pos order x dx alfa ha (fun i _ _ => hpos i)
  have hle := positivityStage_le order x dx alfa
  obtain ⟨hc, k, hk, -⟩ := untilLoop_some hr0
  have hr0pos : 0 < r0 := by rw [hk]; positivity
  have hr0le : r0 ≤ positivityStage order x dx alfa := by
    rw [hk]; exact mul_le_of_le_one_right hp.le (pow_le_one₀ hb0.le hb1.le)
  obtain ⟨d1, d2, d3, -, -⟩ := normStage_spec dx dx_old step hb0 hb1 hr0pos.le
  refine ⟨normStage dx dx_old r0 beta step, ?_, d2 hr0pos, d1.trans (hr0le.trans hle), fun v => ?_⟩
  · rw [linsearch_fun_ECM_fixed, hr0]; rfl
  · have := keep_percent d3 (hpos v).le
      (fun hd => (d1.trans hr0le).trans (positivityStage_bound order x dx alfa v (ho v) (hpos v).le hd))
    calc x v / 100 = 0.01 * x v := by ring
      _ ≤ _ := this

/-- C16 (decm, fixed-point): the loop ends and the step keeps the parameters positive. -/
theorem C16_linsearch_decm_fixed [NeZero n] (order : List (Fin 4 × Fin n)) (ho : ∀ v, v ∈ order) (x dx dx_old : Fin 4 × Fin n → ℝ)
    (alfa beta : ℝ) (step : ℕ) (hb0 : 0 < beta) (hb1 : beta < 1) (ha : 0 < alfa) (hpos : ∀ v, 0 < x v)
    (hxy : ∀ i j, x (2, i) * x (3, j) < 1) :
    ∃ r, linsearch_fun_DECM_fixed order x dx dx_old alfa beta step = some r ∧ 0 < r ∧ r ≤ alfa ∧ KeepsPercent x dx r := by
  obtain ⟨r', -, hr', -⟩ := C16_linsearch_decm order ho x dx 0 (fun _ => none) beta alfa hb0 hb1 ha hpos hxy
  rw [linsearch_fun_DECM] at hr'
  obtain ⟨r0, hr0, -⟩ := Option.map_eq_some_iff.1 hr'
  have hp := positivityStage'_pos order x dx alfa ha
  have hle := positivityStage'_le order x dx alfa
  obtain ⟨hc, k, hk, -⟩ := untilLoop_some hr0
  have hr0pos : 0 < r0 := by rw [hk]; positivity
  have hr0le : r0 ≤ positivityStage' order x dx alfa := by
    rw [hk]; exact mul_le_of_le_one_right hp.le (pow_le_one₀ hb0.le hb1.le)
  obtain ⟨d1, d2, d3, -, -⟩ := normStage_spec dx dx_old step hb0 hb1 hr0pos.le
  refine ⟨normStage dx dx_old r0 beta step, ?_, d2 hr0pos, d1.trans (hr0le.trans hle), fun v => ?_⟩
  · rw [linsearch_fun_DECM_fixed, hr0]; rfl
  · have := keep_percent d3 (hpos v).le
      (fun hd => (d1.trans hr0le).trans (positivityStage'_bound order x dx alfa v (ho v) (hpos v) hd))
    calc x v / 100 = 0.01 * x v := by ring
      _ ≤ _ := this

/-- two nodes with weight parameters 1/2: the hypotheses of the ecm theorem hold -/
example : AdmECM (n := 2) (fun _ => 1 / 2) := by
  refine ⟨fun _ => by norm_num, fun _ => by norm_num, fun _ _ _ => by norm_num⟩

end Weighted

end Verif.Solver
