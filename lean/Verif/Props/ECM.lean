import Verif.Lemmas.ECM
import Verif.Spec.Domain
import Mathlib.Tactic.FieldSimp
import Mathlib.Tactic.Positivity
import Mathlib.Tactic.NormNum
import Mathlib.Tactic.FinCases

/-!
Property theorems about the UECM (`ecm`, `ecm_exp`).
-/

namespace Verif.ECM
open Verif Finset Function Spec
variable {n : ℕ}

/-- a concrete admissible point, used to show that hypotheses are satisfiable -/
theorem adm_witness : AdmECM (fun v : Fin 2 × Fin 3 => if v.1 = 0 then (v.2.val : ℝ) + 1 else 1 / 2) := by
  refine ⟨fun i => ?_, fun i => ?_, fun i j _ => ?_⟩
  · simp; positivity
  · norm_num
  · norm_num

/-! ### C06 -/

/-- C06 (ecm): every component of `loglikelihood_prime_ecm` is the partial derivative of `loglikelihood_ecm` at every
admissible point. -/
theorem C06_ecm_gradient (sol : Vec n) (k s : Fin n → ℝ) (h : AdmECM sol) (v : Fin 2 × Fin n) :
    HasDerivAt (fun t => loglikelihood_ecm (update sol v t) k s) (loglikelihood_prime_ecm sol k s v) (sol v) := by
  obtain ⟨hx, hy, hxy⟩ := h
  obtain ⟨b, i⟩ := v
  have hD : ∀ i j, i ≠ j → 0 < 1 - sol (1, i) * sol (1, j) + sol (0, i) * sol (0, j) * (sol (1, i) * sol (1, j)) := by
    intro i j hij
    have h1 := hx i; have h2 := hx j; have h3 := hy i; have h4 := hy j; have h5 := hxy i j hij
    have : 0 < sol (0, i) * sol (0, j) * (sol (1, i) * sol (1, j)) := by positivity
    linarith
  fin_cases b
  · simp only [Fin.zero_eta, ll_eq, prime_eq0, update_block2_00, update_block2_01]
    have hi := hx i
    have hu : HasDerivAt (fun t => k i * Real.log t + s i * Real.log (sol (1, i))) (k i / sol (0, i)) (sol (0, i)) := by
      refine (((Real.hasDerivAt_log hi.ne').const_mul (k i)).add_const _).congr_deriv ?_
      rw [div_eq_mul_inv]
    refine hasDerivAt_pairs (fun a => sol (0, a)) i (fun a t => k a * Real.log t + s a * Real.log (sol (1, a)))
      (fun a b s t => if b < a then Real.log ((1 - sol (1, a) * sol (1, b)) /
        (1 - sol (1, a) * sol (1, b) + s * t * (sol (1, a) * sol (1, b)))) else 0) _ _ hu ?_ ?_
    · intro j hj
      have key : HasDerivAt (fun t => Real.log ((1 - sol (1, i) * sol (1, j)) /
          (1 - sol (1, i) * sol (1, j) + t * sol (0, j) * (sol (1, i) * sol (1, j)))))
          (-((sol (0, j) * (sol (1, i) * sol (1, j))) /
          (1 - sol (1, i) * sol (1, j) + sol (0, i) * sol (0, j) * (sol (1, i) * sol (1, j))))) (sol (0, i)) := by
        have hd := hD i j hj.symm
        have hq : 0 < 1 - sol (1, i) * sol (1, j) := by have := hxy i j hj.symm; linarith
        refine hd_log (hd_div (hasDerivAt_const _ _) (hd_aff (1 - sol (1, i) * sol (1, j))
          (sol (0, j) * (sol (1, i) * sol (1, j))) (fun t => by ring) _) hd.ne' rfl) (by positivity) ?_
        field_simp
        ring
      rcases lt_or_gt_of_ne hj with hlt | hlt
      · simpa [hlt, hlt.not_gt, hj.symm] using key
      · simpa [hlt, hlt.not_gt, hj.symm, mul_comm (sol (0, j)), mul_comm (sol (1, j)) (sol (1, i))] using key
    · simpa using hasDerivAt_const _ _
  · simp only [Fin.mk_one, ll_eq, prime_eq1, update_block2_10, update_block2_11]
    have hi := hy i
    have hu : HasDerivAt (fun t => k i * Real.log (sol (0, i)) + s i * Real.log t) (s i / sol (1, i)) (sol (1, i)) := by
      refine (((Real.hasDerivAt_log hi.ne').const_mul (s i)).const_add _).congr_deriv ?_
      rw [div_eq_mul_inv]
    refine hasDerivAt_pairs (fun a => sol (1, a)) i (fun a t => k a * Real.log (sol (0, a)) + s a * Real.log t)
      (fun a b s t => if b < a then Real.log ((1 - s * t) /
        (1 - s * t + sol (0, a) * sol (0, b) * (s * t))) else 0) _ _ hu ?_ ?_
    · intro j hj
      have key : HasDerivAt (fun t => Real.log ((1 - t * sol (1, j)) /
          (1 - t * sol (1, j) + sol (0, i) * sol (0, j) * (t * sol (1, j)))))
          (-((sol (0, i) * sol (0, j) * sol (1, j)) / ((1 - sol (1, i) * sol (1, j)) *
          (1 - sol (1, i) * sol (1, j) + sol (0, i) * sol (0, j) * (sol (1, i) * sol (1, j)))))) (sol (1, i)) := by
        have hd := hD i j hj.symm
        have hq : 0 < 1 - sol (1, i) * sol (1, j) := by have := hxy i j hj.symm; linarith
        refine hd_log (hd_div (hd_aff 1 (-sol (1, j)) (fun t => by ring) _) (hd_aff 1
          (-sol (1, j) + sol (0, i) * sol (0, j) * sol (1, j)) (fun t => by ring) _) hd.ne' rfl) (by positivity) ?_
        field_simp
        ring
      rcases lt_or_gt_of_ne hj with hlt | hlt
      · simpa [hlt, hlt.not_gt, hj.symm] using key
      · simpa [hlt, hlt.not_gt, hj.symm, mul_comm (sol (0, j)) (sol (0, i)), mul_comm (sol (1, j))] using key
    · simpa using hasDerivAt_const _ _

/-- C06 (ecm): the hypotheses are satisfiable, see `adm_witness`. -/
example := adm_witness

/-! ### C09 -/

/-- C09 (ecm): the `ecm_exp` likelihood at `θ` is the `ecm` likelihood at `exp(-θ)`. -/
theorem C09_ecm_reparametrisation (θ : Vec n) (k s : Fin n → ℝ) :
    loglikelihood_ecm_exp θ k s = loglikelihood_ecm (fun v => Real.exp (-θ v)) k s := by
  rw [ll_exp_eq, ll_eq]
  refine sum_congr rfl fun i _ => ?_
  rw [Real.log_exp, Real.log_exp]
  congr 1
  · ring
  · refine sum_congr rfl fun j _ => ?_
    split
    · generalize Real.exp (-θ (1, i)) * Real.exp (-θ (1, j)) = Y
      generalize Real.exp (-θ (0, i)) * Real.exp (-θ (0, j)) = X
      rw [← Real.log_inv]
      by_cases h : 1 - Y = 0
      · simp [h]
      · rw [← inv_div]
        congr 2
        field_simp
    · rfl

/-- admissibility in the two parametrisations corresponds -/
theorem adm_exp (θ : Vec n) (h : AdmECMexp θ) : AdmECM (fun v => Real.exp (-θ v)) := by
  refine ⟨fun i => Real.exp_pos _, fun i => Real.exp_pos _, fun i j hij => ?_⟩
  have := h i j hij
  rw [← Real.exp_add, Real.exp_lt_one_iff]
  linarith

/-- C09 (ecm): gradients correspond through the chain rule factor `-x`. -/
theorem C09_ecm_gradients (θ : Vec n) (k s : Fin n → ℝ) (v : Fin 2 × Fin n) :
    loglikelihood_prime_ecm_exp θ k s v =
      -(loglikelihood_prime_ecm (fun w => Real.exp (-θ w)) k s v * Real.exp (-θ v)) := by
  obtain ⟨b, i⟩ := v
  fin_cases b
  · simp only [Fin.zero_eta]
    rw [prime_exp_eq0, prime_eq0, add_mul, sum_mul, neg_add, ← sum_neg_distrib]
    congr 1
    · field_simp
    · refine sum_congr rfl fun j _ => ?_
      split
      · simp
      · ring
  · simp only [Fin.mk_one]
    rw [prime_exp_eq1, prime_eq1, add_mul, sum_mul, neg_add, ← sum_neg_distrib]
    congr 1
    · field_simp
    · refine sum_congr rfl fun j _ => ?_
      split
      · simp
      · ring

/-- C06 (ecm_exp): every component of `loglikelihood_prime_ecm_exp` is the partial derivative of
`loglikelihood_ecm_exp` at every admissible point. -/
theorem C06_ecm_exp_gradient (θ : Vec n) (k s : Fin n → ℝ) (h : AdmECMexp θ) (v : Fin 2 × Fin n) :
    HasDerivAt (fun t => loglikelihood_ecm_exp (update θ v t) k s) (loglikelihood_prime_ecm_exp θ k s v) (θ v) := by
  have e : ∀ t, loglikelihood_ecm_exp (update θ v t) k s =
      (fun r => loglikelihood_ecm (update (fun w => Real.exp (-θ w)) v r) k s) (Real.exp (-t)) := by
    intro t
    rw [C09_ecm_reparametrisation]
    simp only
    congr 1
    funext w
    by_cases hw : w = v
    · subst hw; simp
    · simp [hw]
  simp only [e]
  exact hd_comp_exp (C06_ecm_gradient _ k s (adm_exp θ h) v) (C09_ecm_gradients θ k s v).symm

example : AdmECMexp (fun v : Fin 2 × Fin 3 => (v.2.val : ℝ) + 1) := by
  intro i j _; positivity

/-! ### C03: solutions reproduce degrees and strengths -/

/-- C03 (ecm): at an admissible point the gradient vanishes **iff** the expected degrees and strengths are the observed
ones. -/
theorem C03_ecm_solution_iff (sol : Vec n) (k s : Fin n → ℝ) (h : AdmECM sol) :
    (∀ v, loglikelihood_prime_ecm sol k s v = 0) ↔
      (∀ i, expected_ecm sol (0, i) = k i) ∧ ∀ i, expected_ecm sol (1, i) = s i := by
  obtain ⟨hx, hy, hxy⟩ := h
  have e0 : ∀ i, sol (0, i) * loglikelihood_prime_ecm sol k s (0, i) = k i - expected_ecm sol (0, i) := by
    intro i
    rw [prime_eq0, expected_eq0, mul_add, mul_sum, sub_eq_add_neg (k i), ← sum_neg_distrib]
    congr 1
    · have := (hx i).ne'; field_simp
    · refine sum_congr rfl fun j _ => ?_
      split
      · simp
      · ring
  have e1 : ∀ i, sol (1, i) * loglikelihood_prime_ecm sol k s (1, i) = s i - expected_ecm sol (1, i) := by
    intro i
    rw [prime_eq1, expected_eq1, mul_add, mul_sum, sub_eq_add_neg (s i), ← sum_neg_distrib]
    congr 1
    · have := (hy i).ne'; field_simp
    · refine sum_congr rfl fun j _ => ?_
      split
      · simp
      · rw [mul_comm (1 - _ + _)]; ring
  constructor
  · intro h
    refine ⟨fun i => ?_, fun i => ?_⟩
    · have := e0 i; rw [h] at this; linarith
    · have := e1 i; rw [h] at this; linarith
  · rintro ⟨h0, h1⟩ ⟨b, i⟩
    fin_cases b
    · have := e0 i
      rw [h0, sub_self] at this
      exact (mul_eq_zero.1 this).resolve_left (hx i).ne'
    · have := e1 i
      rw [h1, sub_self] at this
      exact (mul_eq_zero.1 this).resolve_left (hy i).ne'

/-- two nodes with `x = 1, y = 1/2`: expected degree 1/4 and strength 1/3 are reproduced -/
example : ∀ v, loglikelihood_prime_ecm (fun v : Fin 2 × Fin 2 => if v.1 = 0 then 1 else 1 / 2)
    (fun _ => 1 / 4) (fun _ => 1 / 3) v = 0 := by
  rw [C03_ecm_solution_iff]
  · constructor
    · intro i; rw [expected_eq0]; fin_cases i <;> simp <;> norm_num
    · intro i; rw [expected_eq1]; fin_cases i <;> simp <;> norm_num
  · refine ⟨fun i => by simp, fun i => by norm_num, fun i j _ => by norm_num⟩

/-- C03 (ecm_exp): the same in the exponential parametrisation; the library stores `x = exp(-θ)`. -/
theorem C03_ecm_exp_solution_iff (θ : Vec n) (k s : Fin n → ℝ) (h : AdmECMexp θ) :
    (∀ v, loglikelihood_prime_ecm_exp θ k s v = 0) ↔
      (∀ i, expected_ecm (fun v => Real.exp (-θ v)) (0, i) = k i) ∧
        ∀ i, expected_ecm (fun v => Real.exp (-θ v)) (1, i) = s i := by
  rw [← C03_ecm_solution_iff _ k s (adm_exp θ h)]
  refine forall_congr' fun v => ?_
  rw [C09_ecm_gradients, neg_eq_zero, mul_eq_zero, or_iff_left (Real.exp_pos _).ne']

/-! ### C07, C08: Hessians -/

section terms
variable (xi xj yi yj : ℝ)

private noncomputable def A : ℝ := (xj * (yi * yj)) / (1 - yi * yj + xi * xj * (yi * yj))
private noncomputable def B : ℝ := (xi * xj * yj) / ((1 - yi * yj) * (1 - yi * yj + xi * xj * (yi * yj)))

variable {xi xj yi yj} (hD : 1 - yi * yj + xi * xj * (yi * yj) ≠ 0)
include hD

private theorem dA_xi : HasDerivAt (fun t => A t xj yi yj)
    (-((xj * (yi * yj)) ^ 2 / (1 - yi * yj + xi * xj * (yi * yj)) ^ 2)) xi := by
  refine hd_div (hasDerivAt_const _ _) (hd_aff (1 - yi * yj) (xj * (yi * yj)) (fun t => by ring) _) hD ?_
  ring

private theorem dA_xj : HasDerivAt (fun t => A xi t yi yj)
    ((yi * yj * (1 - yi * yj)) / (1 - yi * yj + xi * xj * (yi * yj)) ^ 2) xj := by
  refine hd_div (hd_aff 0 (yi * yj) (fun t => by ring) _)
    (hd_aff (1 - yi * yj) (xi * (yi * yj)) (fun t => by ring) _) hD ?_
  ring

private theorem dA_yi : HasDerivAt (fun t => A xi xj t yj)
    ((xj * yj) / (1 - yi * yj + xi * xj * (yi * yj)) ^ 2) yi := by
  refine hd_div (hd_aff 0 (xj * yj) (fun t => by ring) _)
    (hd_aff 1 (-yj + xi * xj * yj) (fun t => by ring) _) hD ?_
  ring

private theorem dA_yj : HasDerivAt (fun t => A xi xj yi t)
    ((xj * yi) / (1 - yi * yj + xi * xj * (yi * yj)) ^ 2) yj := by
  refine hd_div (hd_aff 0 (xj * yi) (fun t => by ring) _)
    (hd_aff 1 (-yi + xi * xj * yi) (fun t => by ring) _) hD ?_
  ring

variable (hY : 1 - yi * yj ≠ 0)
include hY

private theorem dB_xi : HasDerivAt (fun t => B t xj yi yj)
    ((xj * yj) / (1 - yi * yj + xi * xj * (yi * yj)) ^ 2) xi := by
  refine hd_div (hd_aff 0 (xj * yj) (fun t => by ring) _)
    (hd_aff ((1 - yi * yj) ^ 2) ((1 - yi * yj) * (xj * (yi * yj))) (fun t => by ring) _) (mul_ne_zero hY hD) ?_
  rw [div_eq_div_iff (pow_ne_zero 2 (mul_ne_zero hY hD)) (pow_ne_zero 2 hD)]
  ring

private theorem dB_xj : HasDerivAt (fun t => B xi t yi yj)
    ((xi * yj) / (1 - yi * yj + xi * xj * (yi * yj)) ^ 2) xj := by
  refine hd_div (hd_aff 0 (xi * yj) (fun t => by ring) _)
    (hd_aff ((1 - yi * yj) ^ 2) ((1 - yi * yj) * (xi * (yi * yj))) (fun t => by ring) _) (mul_ne_zero hY hD) ?_
  rw [div_eq_div_iff (pow_ne_zero 2 (mul_ne_zero hY hD)) (pow_ne_zero 2 hD)]
  ring

private theorem dB_yi : HasDerivAt (fun t => B xi xj t yj)
    (-((xi * xj * yj * (xi * xj * yj * (1 - 2 * (yi * yj)) - 2 * yj * (1 - yi * yj))) /
      ((1 - yi * yj) ^ 2 * (1 - yi * yj + xi * xj * (yi * yj)) ^ 2))) yi := by
  refine hd_div (hasDerivAt_const _ _)
    (hd_quad 1 (-2 * yj + xi * xj * yj) (yj ^ 2 - xi * xj * yj ^ 2) (fun t => by ring) _) (mul_ne_zero hY hD) ?_
  field_simp
  ring

private theorem dB_yj : HasDerivAt (fun t => B xi xj yi t)
    ((xi * xj * (1 - (yi * yj) ^ 2 + xi * xj * (yi * yj) ^ 2)) /
      ((1 - yi * yj) ^ 2 * (1 - yi * yj + xi * xj * (yi * yj)) ^ 2)) yj := by
  refine hd_div (hd_aff 0 (xi * xj) (fun t => by ring) _)
    (hd_quad 1 (-2 * yi + xi * xj * yi) (yi ^ 2 - xi * xj * yi ^ 2) (fun t => by ring) _) (mul_ne_zero hY hD) ?_
  field_simp
  ring

end terms

private theorem prime_A (sol : Vec n) (k s : Fin n → ℝ) (m : Fin n) : loglikelihood_prime_ecm sol k s (0, m) =
    k m / sol (0, m) + ∑ j, if m = j then 0 else -A (sol (0, m)) (sol (0, j)) (sol (1, m)) (sol (1, j)) := by
  rw [prime_eq0]; rfl

private theorem prime_B (sol : Vec n) (k s : Fin n → ℝ) (m : Fin n) : loglikelihood_prime_ecm sol k s (1, m) =
    s m / sol (1, m) + ∑ j, if m = j then 0 else -B (sol (0, m)) (sol (0, j)) (sol (1, m)) (sol (1, j)) := by
  rw [prime_eq1]; rfl

private theorem hd_inv (a t : ℝ) (h : t ≠ 0) : HasDerivAt (fun t => a / t) (-(a / (t * t))) t := by
  refine hd_div (hasDerivAt_const _ _) (hasDerivAt_id t) h ?_
  ring

/-- C07 (ecm): `loglikelihood_hessian_ecm[v,w]` is the derivative of gradient component `v` in parameter `w`, for every pair
of components at every admissible point. -/
theorem C07_ecm_hessian (sol : Vec n) (k s : Fin n → ℝ) (h : AdmECM sol) (v w : Fin 2 × Fin n) :
    HasDerivAt (fun t => loglikelihood_prime_ecm (update sol w t) k s v)
      (loglikelihood_hessian_ecm sol k s v w) (sol w) := by
  obtain ⟨hx, hy, hxy⟩ := h
  have hY : ∀ i j, i ≠ j → 1 - sol (1, i) * sol (1, j) ≠ 0 := by
    intro i j hij; have := hxy i j hij; intro h; linarith
  have hD : ∀ i j, i ≠ j → 1 - sol (1, i) * sol (1, j) + sol (0, i) * sol (0, j) * (sol (1, i) * sol (1, j)) ≠ 0 := by
    intro i j hij
    have h1 := hx i; have h2 := hx j; have h3 := hy i; have h4 := hy j; have h5 := hxy i j hij
    have : 0 < sol (0, i) * sol (0, j) * (sol (1, i) * sol (1, j)) := by positivity
    intro h; linarith
  obtain ⟨b, i⟩ := v
  obtain ⟨b', j⟩ := w
  by_cases hij : i = j
  · subst hij
    obtain ⟨q00, q11, q01, q10⟩ := hess_eq_eq sol k s i
    fin_cases b <;> fin_cases b' <;> simp only [Fin.zero_eta, Fin.mk_one]
    · rw [q00, diag_eq0]
      simp only [prime_A, update_block2_00, update_block2_01]
      refine hasDerivAt_row_eq (fun a => sol (0, a)) i (fun t => k i / t)
        (fun b s t => if i = b then 0 else -A s t (sol (1, i)) (sol (1, b))) _ _ (hd_inv _ _ (hx i).ne') ?_ ?_
      · intro b hb
        simp only [hb, hb.symm, if_false]
        exact (dA_xi (hD i b hb.symm)).fun_neg.congr_deriv (neg_neg _)
      · simpa using hasDerivAt_const _ _
    · rw [q01, ← zero_add (∑ j, _)]
      simp only [prime_A, update_block2_10, update_block2_11]
      refine hasDerivAt_row_eq (fun a => sol (1, a)) i (fun t => k i / sol (0, i))
        (fun b s t => if i = b then 0 else -A (sol (0, i)) (sol (0, b)) s t) _ _ (hasDerivAt_const _ _) ?_ ?_
      · intro b hb
        simp only [hb, hb.symm, if_false, ne_eq, not_false_eq_true, if_true]
        exact (dA_yi (hD i b hb.symm)).fun_neg
      · simpa using hasDerivAt_const _ _
    · rw [q10, ← zero_add (∑ j, _)]
      simp only [prime_B, update_block2_00, update_block2_01]
      refine hasDerivAt_row_eq (fun a => sol (0, a)) i (fun t => s i / sol (1, i))
        (fun b s t => if i = b then 0 else -B s t (sol (1, i)) (sol (1, b))) _ _ (hasDerivAt_const _ _) ?_ ?_
      · intro b hb
        simp only [hb, hb.symm, if_false, ne_eq, not_false_eq_true, if_true]
        exact (dB_xi (hD i b hb.symm) (hY i b hb.symm)).fun_neg
      · simpa using hasDerivAt_const _ _
    · rw [q11, diag_eq1]
      simp only [prime_B, update_block2_10, update_block2_11]
      refine hasDerivAt_row_eq (fun a => sol (1, a)) i (fun t => s i / t)
        (fun b s t => if i = b then 0 else -B (sol (0, i)) (sol (0, b)) s t) _ _ (hd_inv _ _ (hy i).ne') ?_ ?_
      · intro b hb
        simp only [hb, hb.symm, if_false]
        exact (dB_yi (hD i b hb.symm) (hY i b hb.symm)).fun_neg.congr_deriv (neg_neg _)
      · simpa using hasDerivAt_const _ _
  · obtain ⟨q00, q01, q10, q11⟩ := hess_eq_ne sol k s i j hij
    fin_cases b <;> fin_cases b' <;> simp only [Fin.zero_eta, Fin.mk_one]
    · rw [q00]
      simp only [prime_A, update_block2_00, update_block2_01]
      refine hasDerivAt_row_ne (fun a => sol (0, a)) i j hij (fun t => k i / t)
        (fun b s t => if i = b then 0 else -A s t (sol (1, i)) (sol (1, b))) _ ?_
      simp only [hij, if_false]
      exact (dA_xj (hD i j hij)).fun_neg.congr_deriv (by ring)
    · rw [q01]
      simp only [prime_A, update_block2_10, update_block2_11]
      refine hasDerivAt_row_ne (fun a => sol (1, a)) i j hij (fun t => k i / sol (0, i))
        (fun b s t => if i = b then 0 else -A (sol (0, i)) (sol (0, b)) s t) _ ?_
      simp only [hij, if_false]
      exact (dA_yj (hD i j hij)).fun_neg.congr_deriv (by ring)
    · rw [q10]
      simp only [prime_B, update_block2_00, update_block2_01]
      refine hasDerivAt_row_ne (fun a => sol (0, a)) i j hij (fun t => s i / sol (1, i))
        (fun b s t => if i = b then 0 else -B s t (sol (1, i)) (sol (1, b))) _ ?_
      simp only [hij, if_false]
      exact (dB_xj (hD i j hij) (hY i j hij)).fun_neg.congr_deriv (by ring)
    · rw [q11]
      simp only [prime_B, update_block2_10, update_block2_11]
      refine hasDerivAt_row_ne (fun a => sol (1, a)) i j hij (fun t => s i / t)
        (fun b s t => if i = b then 0 else -B (sol (0, i)) (sol (0, b)) s t) _ ?_
      simp only [hij, if_false]
      exact (dB_yj (hD i j hij) (hY i j hij)).fun_neg.congr_deriv (by ring)

/-- C08 (ecm): `loglikelihood_hessian_diag_ecm` is the diagonal of the Hessian, i.e. the vector of second derivatives. -/
theorem C08_ecm_hessian_diag (sol : Vec n) (k s : Fin n → ℝ) (v : Fin 2 × Fin n) :
    loglikelihood_hessian_diag_ecm sol k s v = loglikelihood_hessian_ecm sol k s v v ∧
    (AdmECM sol → HasDerivAt (fun t => loglikelihood_prime_ecm (update sol v t) k s v)
      (loglikelihood_hessian_diag_ecm sol k s v) (sol v)) := by
  have : loglikelihood_hessian_diag_ecm sol k s v = loglikelihood_hessian_ecm sol k s v v := by
    obtain ⟨b, i⟩ := v
    obtain ⟨q00, q11, _, _⟩ := hess_eq_eq sol k s i
    fin_cases b
    · exact q00.symm
    · exact q11.symm
  refine ⟨this, fun h => ?_⟩
  rw [this]; exact C07_ecm_hessian sol k s h v v

/-! exponential parametrisation: terms composed with `exp(-·)` -/

section terms
variable (xi xj yi yj : ℝ)

private noncomputable def P : ℝ := (xi * xj * (yi * yj)) / (1 - yi * yj + xi * xj * (yi * yj))
private noncomputable def Q : ℝ := (xi * xj * (yi * yj)) / ((1 - yi * yj) * (1 - yi * yj + xi * xj * (yi * yj)))

private theorem P_swap : P xi xj yi yj = P xj xi yj yi := by
  unfold P; rw [mul_comm xi xj, mul_comm yi yj]
private theorem Q_swap : Q xi xj yi yj = Q xj xi yj yi := by
  unfold Q; rw [mul_comm xi xj, mul_comm yi yj]

variable {xi xj yi yj} (hD : 1 - yi * yj + xi * xj * (yi * yj) ≠ 0)
include hD

private theorem dP_xi : HasDerivAt (fun t => P t xj yi yj)
    (xj * (yi * yj) * (1 - yi * yj) / (1 - yi * yj + xi * xj * (yi * yj)) ^ 2) xi := by
  refine hd_div (hd_aff 0 (xj * (yi * yj)) (fun t => by ring) _)
    (hd_aff (1 - yi * yj) (xj * (yi * yj)) (fun t => by ring) _) hD ?_
  ring

private theorem dP_yi : HasDerivAt (fun t => P xi xj t yj)
    (xi * xj * yj / (1 - yi * yj + xi * xj * (yi * yj)) ^ 2) yi := by
  refine hd_div (hd_aff 0 (xi * xj * yj) (fun t => by ring) _)
    (hd_aff 1 (-yj + xi * xj * yj) (fun t => by ring) _) hD ?_
  ring

variable (hY : 1 - yi * yj ≠ 0)
include hY

private theorem dQ_xi : HasDerivAt (fun t => Q t xj yi yj)
    (xj * (yi * yj) / (1 - yi * yj + xi * xj * (yi * yj)) ^ 2) xi := by
  refine hd_div (hd_aff 0 (xj * (yi * yj)) (fun t => by ring) _)
    (hd_aff ((1 - yi * yj) ^ 2) ((1 - yi * yj) * (xj * (yi * yj))) (fun t => by ring) _) (mul_ne_zero hY hD) ?_
  rw [div_eq_div_iff (pow_ne_zero 2 (mul_ne_zero hY hD)) (pow_ne_zero 2 hD)]
  ring

private theorem dQ_yi : HasDerivAt (fun t => Q xi xj t yj)
    (xi * xj * yj * (1 - (yi * yj) ^ 2 + xi * xj * (yi * yj) ^ 2) /
      ((1 - yi * yj) ^ 2 * (1 - yi * yj + xi * xj * (yi * yj)) ^ 2)) yi := by
  refine hd_div (hd_aff 0 (xi * xj * yj) (fun t => by ring) _)
    (hd_quad 1 (-2 * yj + xi * xj * yj) (yj ^ 2 - xi * xj * yj ^ 2) (fun t => by ring) _) (mul_ne_zero hY hD) ?_
  field_simp
  ring

end terms

private theorem prime_P (sol : Vec n) (k s : Fin n → ℝ) (m : Fin n) : loglikelihood_prime_ecm_exp sol k s (0, m) =
    -k m + ∑ j, if m = j then 0 else P (Real.exp (-sol (0, m))) (Real.exp (-sol (0, j)))
      (Real.exp (-sol (1, m))) (Real.exp (-sol (1, j))) := by
  rw [prime_exp_eq0]; rfl

private theorem prime_Q (sol : Vec n) (k s : Fin n → ℝ) (m : Fin n) : loglikelihood_prime_ecm_exp sol k s (1, m) =
    -s m + ∑ j, if m = j then 0 else Q (Real.exp (-sol (0, m))) (Real.exp (-sol (0, j)))
      (Real.exp (-sol (1, m))) (Real.exp (-sol (1, j))) := by
  rw [prime_exp_eq1]; rfl

/-- C07 (ecm_exp): `loglikelihood_hessian_ecm_exp[v,w]` is the derivative of gradient component `v` in parameter `w`, for
every pair of components at every admissible point. -/
theorem C07_ecm_exp_hessian (sol : Vec n) (k s : Fin n → ℝ) (h : AdmECMexp sol) (v w : Fin 2 × Fin n) :
    HasDerivAt (fun t => loglikelihood_prime_ecm_exp (update sol w t) k s v)
      (loglikelihood_hessian_ecm_exp sol k v w) (sol w) := by
  obtain ⟨hx, hy, hxy⟩ := adm_exp sol h
  have hY : ∀ i j, i ≠ j → 1 - Real.exp (-sol (1, i)) * Real.exp (-sol (1, j)) ≠ 0 := by
    intro i j hij; have := hxy i j hij; intro h; linarith
  have hD : ∀ i j, i ≠ j → 1 - Real.exp (-sol (1, i)) * Real.exp (-sol (1, j)) + Real.exp (-sol (0, i)) *
      Real.exp (-sol (0, j)) * (Real.exp (-sol (1, i)) * Real.exp (-sol (1, j))) ≠ 0 := by
    intro i j hij
    have h5 := hxy i j hij
    have : 0 < Real.exp (-sol (0, i)) *
      Real.exp (-sol (0, j)) * (Real.exp (-sol (1, i)) * Real.exp (-sol (1, j))) := by positivity
    intro h; linarith
  obtain ⟨b, i⟩ := v
  obtain ⟨b', j⟩ := w
  by_cases hij : i = j
  · subst hij
    obtain ⟨q00, q11, q01, q10⟩ := hess_exp_eq_eq sol k i
    fin_cases b <;> fin_cases b' <;> simp only [Fin.zero_eta, Fin.mk_one]
    · rw [q00, diag_exp_eq0, ← zero_add (∑ j, _)]
      simp only [prime_P, update_block2_00, update_block2_01]
      refine hasDerivAt_row_eq (fun a => sol (0, a)) i (fun t => -k i)
        (fun b s t => if i = b then 0 else P (Real.exp (-s)) (Real.exp (-t)) (Real.exp (-sol (1, i)))
          (Real.exp (-sol (1, b)))) _ _ (hasDerivAt_const _ _) ?_ ?_
      · intro b hb
        simp only [hb, hb.symm, if_false]
        exact hd_comp_exp (dP_xi (hD i b hb.symm)) (by ring)
      · simpa using hasDerivAt_const _ _
    · rw [q01, ← zero_add (∑ j, _)]
      simp only [prime_P, update_block2_10, update_block2_11]
      refine hasDerivAt_row_eq (fun a => sol (1, a)) i (fun t => -k i)
        (fun b s t => if i = b then 0 else P (Real.exp (-sol (0, i))) (Real.exp (-sol (0, b))) (Real.exp (-s))
          (Real.exp (-t))) _ _ (hasDerivAt_const _ _) ?_ ?_
      · intro b hb
        simp only [hb, hb.symm, if_false, ne_eq, not_false_eq_true, if_true]
        exact hd_comp_exp (dP_yi (hD i b hb.symm)) (by ring)
      · simpa using hasDerivAt_const _ _
    · rw [q10, ← zero_add (∑ j, _)]
      simp only [prime_Q, update_block2_00, update_block2_01]
      refine hasDerivAt_row_eq (fun a => sol (0, a)) i (fun t => -s i)
        (fun b s t => if i = b then 0 else Q (Real.exp (-s)) (Real.exp (-t)) (Real.exp (-sol (1, i)))
          (Real.exp (-sol (1, b)))) _ _ (hasDerivAt_const _ _) ?_ ?_
      · intro b hb
        simp only [hb, hb.symm, if_false, ne_eq, not_false_eq_true, if_true]
        exact hd_comp_exp (dQ_xi (hD i b hb.symm) (hY i b hb.symm)) (by ring)
      · simpa using hasDerivAt_const _ _
    · rw [q11, diag_exp_eq1, ← zero_add (∑ j, _)]
      simp only [prime_Q, update_block2_10, update_block2_11]
      refine hasDerivAt_row_eq (fun a => sol (1, a)) i (fun t => -s i)
        (fun b s t => if i = b then 0 else Q (Real.exp (-sol (0, i))) (Real.exp (-sol (0, b))) (Real.exp (-s))
          (Real.exp (-t))) _ _ (hasDerivAt_const _ _) ?_ ?_
      · intro b hb
        simp only [hb, hb.symm, if_false]
        exact hd_comp_exp (dQ_yi (hD i b hb.symm) (hY i b hb.symm)) (by ring)
      · simpa using hasDerivAt_const _ _
  · obtain ⟨q00, q01, q10, q11⟩ := hess_exp_eq_ne sol k i j hij
    have hji : j ≠ i := fun h => hij h.symm
    fin_cases b <;> fin_cases b' <;> simp only [Fin.zero_eta, Fin.mk_one]
    · rw [q00]
      simp only [prime_P, update_block2_00, update_block2_01]
      refine hasDerivAt_row_ne (fun a => sol (0, a)) i j hij (fun t => -k i)
        (fun b s t => if i = b then 0 else P (Real.exp (-s)) (Real.exp (-t)) (Real.exp (-sol (1, i)))
          (Real.exp (-sol (1, b)))) _ ?_
      simp only [hij, if_false, P_swap (Real.exp (-sol (0, i)))]
      exact hd_comp_exp (dP_xi (hD j i hji)) (by rw [mul_comm (Real.exp (-sol (0, i))), mul_comm (Real.exp (-sol (1, i)))]; ring)
    · rw [q01]
      simp only [prime_P, update_block2_10, update_block2_11]
      refine hasDerivAt_row_ne (fun a => sol (1, a)) i j hij (fun t => -k i)
        (fun b s t => if i = b then 0 else P (Real.exp (-sol (0, i))) (Real.exp (-sol (0, b))) (Real.exp (-s))
          (Real.exp (-t))) _ ?_
      simp only [hij, if_false, P_swap (Real.exp (-sol (0, i)))]
      exact hd_comp_exp (dP_yi (hD j i hji)) (by rw [mul_comm (Real.exp (-sol (0, i))), mul_comm (Real.exp (-sol (1, i)))]; ring)
    · rw [q10]
      simp only [prime_Q, update_block2_00, update_block2_01]
      refine hasDerivAt_row_ne (fun a => sol (0, a)) i j hij (fun t => -s i)
        (fun b s t => if i = b then 0 else Q (Real.exp (-s)) (Real.exp (-t)) (Real.exp (-sol (1, i)))
          (Real.exp (-sol (1, b)))) _ ?_
      simp only [hij, if_false, Q_swap (Real.exp (-sol (0, i)))]
      exact hd_comp_exp (dQ_xi (hD j i hji) (hY j i hji)) (by rw [mul_comm (Real.exp (-sol (0, i))), mul_comm (Real.exp (-sol (1, i)))]; ring)
    · rw [q11]
      simp only [prime_Q, update_block2_10, update_block2_11]
      refine hasDerivAt_row_ne (fun a => sol (1, a)) i j hij (fun t => -s i)
        (fun b s t => if i = b then 0 else Q (Real.exp (-sol (0, i))) (Real.exp (-sol (0, b))) (Real.exp (-s))
          (Real.exp (-t))) _ ?_
      simp only [hij, if_false, Q_swap (Real.exp (-sol (0, i)))]
      exact hd_comp_exp (dQ_yi (hD j i hji) (hY j i hji)) (by rw [mul_comm (Real.exp (-sol (0, i))), mul_comm (Real.exp (-sol (1, i)))]; ring)

/-- C08 (ecm_exp): `loglikelihood_hessian_diag_ecm_exp` is the diagonal of the Hessian, i.e. the vector of second
derivatives. -/
theorem C08_ecm_exp_hessian_diag (sol : Vec n) (k s : Fin n → ℝ) (v : Fin 2 × Fin n) :
    loglikelihood_hessian_diag_ecm_exp sol k v = loglikelihood_hessian_ecm_exp sol k v v ∧
    (AdmECMexp sol → HasDerivAt (fun t => loglikelihood_prime_ecm_exp (update sol v t) k s v)
      (loglikelihood_hessian_diag_ecm_exp sol k v) (sol v)) := by
  have : loglikelihood_hessian_diag_ecm_exp sol k v = loglikelihood_hessian_ecm_exp sol k v v := by
    obtain ⟨b, i⟩ := v
    obtain ⟨q00, q11, _, _⟩ := hess_exp_eq_eq sol k i
    fin_cases b
    · exact q00.symm
    · exact q11.symm
  refine ⟨this, fun h => ?_⟩
  rw [this]; exact C07_ecm_exp_hessian sol k s h v v

/-! ### C12, C42: fixed-point maps -/

/-- C12 (ecm): with positive observed degrees and strengths, at an admissible point, `iterative_ecm sol = sol` **iff** the
gradient vanishes. -/
theorem C12_ecm_fixed_point_iff (sol : Vec n) (k s : Fin n → ℝ) (h : AdmECM sol) (hk : ∀ i, k i ≠ 0) (hs : ∀ i, s i ≠ 0) :
    (∀ v, iterative_ecm sol k s v = sol v) ↔ ∀ v, loglikelihood_prime_ecm sol k s v = 0 := by
  obtain ⟨hx, hy, hxy⟩ := h
  refine forall_congr' ?_
  have gen : ∀ (c x S : ℝ), c ≠ 0 → x ≠ 0 → ((if S ≠ 0 then c / S else 0) = x ↔ c / x + -S = 0) := by
    intro c x S hc hx
    by_cases h0 : S = 0
    · simp [h0, hc, hx, Ne.symm hx]
    · rw [if_pos h0, div_eq_iff h0, ← sub_eq_add_neg, sub_eq_zero, div_eq_iff hx]
      constructor <;> intro h <;> linarith
  rintro ⟨b, i⟩
  fin_cases b
  · simp only [Fin.zero_eta]
    rw [iter_eq0, prime_eq0, gen _ _ _ (hk i) (hx i).ne', ← sum_neg_distrib]
    have : ∀ j, -(if i ≠ j then sol (0, j) * (sol (1, i) * sol (1, j)) / (1 - sol (1, i) * sol (1, j) +
        sol (0, i) * sol (0, j) * (sol (1, i) * sol (1, j))) else 0) = if i = j then 0 else
        -(sol (0, j) * (sol (1, i) * sol (1, j)) / (1 - sol (1, i) * sol (1, j) +
        sol (0, i) * sol (0, j) * (sol (1, i) * sol (1, j)))) := by
      intro j; by_cases h : i = j <;> simp [h]
    simp only [this]
  · simp only [Fin.mk_one]
    rw [iter_eq1, prime_eq1, gen _ _ _ (hs i) (hy i).ne', ← sum_neg_distrib]
    have : ∀ j, -(if i ≠ j then sol (0, i) * sol (0, j) * sol (1, j) / ((1 - sol (1, i) * sol (1, j)) * (1 - sol (1, i) * sol (1, j) +
        sol (0, i) * sol (0, j) * (sol (1, i) * sol (1, j)))) else 0) = if i = j then 0 else
        -(sol (0, i) * sol (0, j) * sol (1, j) / ((1 - sol (1, i) * sol (1, j)) * (1 - sol (1, i) * sol (1, j) +
        sol (0, i) * sol (0, j) * (sol (1, i) * sol (1, j))))) := by
      intro j; by_cases h : i = j <;> simp [h]
    simp only [this]

example := adm_witness

/-- the exponential fixed-point map is `-log` of the plain one, at admissible points of a network with at least two nodes
and positive constraints -/
theorem iter_exp_eq_log (θ : Vec n) (k s : Fin n → ℝ) (h : AdmECMexp θ) (hk : ∀ i, 0 < k i) (hs : ∀ i, 0 < s i)
    (hn : ∀ i : Fin n, ∃ j, j ≠ i) (v : Fin 2 × Fin n) :
    iterative_ecm_exp θ k s v = -Real.log (iterative_ecm (fun v => Real.exp (-θ v)) k s v) ∧
      0 < iterative_ecm (fun v => Real.exp (-θ v)) k s v := by
  obtain ⟨hx, hy, hxy⟩ := adm_exp θ h
  have hY : ∀ i j, i ≠ j → 0 < 1 - Real.exp (-θ (1, i)) * Real.exp (-θ (1, j)) := by
    intro i j hij; have := hxy i j hij; linarith
  have hD : ∀ i j, i ≠ j → 0 < 1 - Real.exp (-θ (1, i)) * Real.exp (-θ (1, j)) + Real.exp (-θ (0, i)) *
      Real.exp (-θ (0, j)) * (Real.exp (-θ (1, i)) * Real.exp (-θ (1, j))) := by
    intro i j hij
    have h5 := hY i j hij
    positivity
  obtain ⟨b, i⟩ := v
  obtain ⟨j, hj⟩ := hn i
  fin_cases b
  · simp only [Fin.zero_eta]
    rw [iter_exp_eq0, iter_eq0]
    have hp : 0 < ∑ j, if i ≠ j then Real.exp (-θ (0, j)) * (Real.exp (-θ (1, i)) * Real.exp (-θ (1, j))) /
        (1 - Real.exp (-θ (1, i)) * Real.exp (-θ (1, j)) + Real.exp (-θ (0, i)) *
      Real.exp (-θ (0, j)) * (Real.exp (-θ (1, i)) * Real.exp (-θ (1, j)))) else 0 := by
      refine sum_pos' (fun a _ => ?_) ⟨j, mem_univ j, ?_⟩
      · by_cases ha : i = a
        · simp [ha]
        · have := hD i a ha
          simp only [ne_eq, ha, not_false_eq_true, if_true]; positivity
      · have := hD i j hj.symm
        simp only [ne_eq, hj.symm, not_false_eq_true, if_true]; positivity
    rw [if_pos hp.ne', if_pos hp.ne']
    exact ⟨rfl, div_pos (hk i) hp⟩
  · simp only [Fin.mk_one]
    rw [iter_exp_eq1, iter_eq1]
    have hp : 0 < ∑ j, if i ≠ j then Real.exp (-θ (0, i)) * Real.exp (-θ (0, j)) * Real.exp (-θ (1, j)) /
        ((1 - Real.exp (-θ (1, i)) * Real.exp (-θ (1, j))) * (1 - Real.exp (-θ (1, i)) * Real.exp (-θ (1, j)) + Real.exp (-θ (0, i)) *
      Real.exp (-θ (0, j)) * (Real.exp (-θ (1, i)) * Real.exp (-θ (1, j))))) else 0 := by
      refine sum_pos' (fun a _ => ?_) ⟨j, mem_univ j, ?_⟩
      · by_cases ha : i = a
        · simp [ha]
        · have := hD i a ha; have := hY i a ha
          simp only [ne_eq, ha, not_false_eq_true, if_true]; positivity
      · have := hD i j hj.symm; have := hY i j hj.symm
        simp only [ne_eq, hj.symm, not_false_eq_true, if_true]; positivity
    rw [if_pos hp.ne', if_pos hp.ne']
    exact ⟨rfl, div_pos (hs i) hp⟩

/-- C12 (ecm_exp): with positive constraints and at least two nodes, at an admissible point `iterative_ecm_exp θ = θ`
**iff** the gradient vanishes. -/
theorem C12_ecm_exp_fixed_point_iff (θ : Vec n) (k s : Fin n → ℝ) (h : AdmECMexp θ) (hk : ∀ i, 0 < k i) (hs : ∀ i, 0 < s i)
    (hn : ∀ i : Fin n, ∃ j, j ≠ i) :
    (∀ v, iterative_ecm_exp θ k s v = θ v) ↔ ∀ v, loglikelihood_prime_ecm_exp θ k s v = 0 := by
  have h1 : (∀ v, loglikelihood_prime_ecm_exp θ k s v = 0) ↔
      ∀ v, loglikelihood_prime_ecm (fun v => Real.exp (-θ v)) k s v = 0 := by
    refine forall_congr' fun v => ?_
    rw [C09_ecm_gradients, neg_eq_zero, mul_eq_zero, or_iff_left (Real.exp_pos _).ne']
  rw [h1, ← C12_ecm_fixed_point_iff _ k s (adm_exp θ h) (fun i => (hk i).ne') (fun i => (hs i).ne')]
  refine forall_congr' fun v => ?_
  obtain ⟨e, hp⟩ := iter_exp_eq_log θ k s h hk hs hn v
  rw [e]
  constructor
  · intro h; rw [← h, neg_neg, Real.exp_log hp]
  · intro h; rw [h, Real.log_exp, neg_neg]

/-- C42 (ecm): at an admissible point of a network with at least two nodes and positive constraints, the fixed-point map is
strictly positive (no division by zero). -/
theorem C42_ecm_iterative_pos (θ : Vec n) (k s : Fin n → ℝ) (h : AdmECMexp θ) (hk : ∀ i, 0 < k i) (hs : ∀ i, 0 < s i)
    (hn : ∀ i : Fin n, ∃ j, j ≠ i) (v : Fin 2 × Fin n) :
    0 < iterative_ecm (fun v => Real.exp (-θ v)) k s v := (iter_exp_eq_log θ k s h hk hs hn v).2

example : AdmECMexp (fun _ : Fin 2 × Fin 2 => (1 : ℝ)) ∧ (∀ i : Fin 2, ∃ j, j ≠ i) := by
  refine ⟨fun i j _ => by norm_num, fun i => ?_⟩
  fin_cases i
  exacts [⟨1, by decide⟩, ⟨0, by decide⟩]

end Verif.ECM
