import Verif.Model.CM
import Verif.Calc

/-! Closed forms of the loops of `Verif.Model.CM` and derivative lemmas. -/

namespace Verif.CM
open Verif Finset Function
variable {n : ℕ}

theorem ll_eq (x k c : Fin n → ℝ) : loglikelihood_cm x k c =
    ∑ i, (c i * k i * Real.log (x i) + ∑ j, if i = j then - ((c i * (c i - 1) * Real.log (1 + (x i) ^ 2)) / 2)
      else - ((c i * c j * Real.log (1 + x i * x j)) / 2)) := by
  simp only [loglikelihood_cm, sub_eq_add_neg, ite_acc, forR_add, add_assoc, zero_add]

theorem prime_eq (x k c : Fin n → ℝ) (m : Fin n) : loglikelihood_prime_cm x k c m =
    c m * k m / x m + ∑ j, if m = j then - (c m * (c j - 1) * (x j / (1 + (x j) ^ 2)))
      else - (c m * c j * (x j / (1 + x m * x j))) := by
  simp only [loglikelihood_prime_cm, addAt_eq, subAt_eq, ite_acc, forR_add, add_assoc, ite_single,
    sum_single_same, single_add_single, sum_single_univ, zeroFn, zero_add]

theorem hess_diag_eq (x k c : Fin n → ℝ) (m : Fin n) : loglikelihood_hessian_diag_cm x k c m =
    -(k m / (x m * x m) * c m) + ∑ j, if m = j then
        ((x j * x j) / ((1 + x j * x j) * (1 + x j * x j))) * c m * (c j - 1)
      else ((x j * x j) / ((1 + x m * x j) * (1 + x m * x j))) * c m * c j := by
  simp only [loglikelihood_hessian_diag_cm, addAt_eq, subAt_eq, ite_acc, forR_add, add_assoc, ite_single,
    sum_single_same, single_add_single, sum_single_univ, zeroFn, zero_add]

theorem hess_eq (x k c : Fin n → ℝ) (a b : Fin n) : loglikelihood_hessian_cm x k c a b =
    if a = b then loglikelihood_hessian_diag_cm x k c a
    else if a < b then
      ((x b * x b - (1 + x a * x b)) / ((1 + x a * x b) * (1 + x a * x b))) * c a * c b
    else ((x a * x a - (1 + x b * x a)) / ((1 + x b * x a) * (1 + x b * x a))) * c b * c a := by
  rw [loglikelihood_hessian_cm]
  simp only []
  rw [symWrite_le (fun i j => if i = j then _ else _)]
  rcases lt_trichotomy a b with h | h | h
  · simp [h, h.le, h.ne]
  · subst h
    simp only [le_refl, if_true]
    rw [hess_diag_eq]
    simp only [ite_acc, forR_add]
    congr 1
    ring
  · simp [h.not_ge, h.ne, h.ne', h.not_gt]

theorem expected_degree_eq (x : Fin n → ℝ) (m : Fin n) : expected_degree_cm x m =
    ∑ j, if m = j then 0 else x m * x j / (1 + x m * x j) := by
  simp only [expected_degree_cm, addAt_eq, ite_not, ite_acc_right, forR_add]
  simp only [apply_ite, ite_acc_right, forR_add, zeroFn, zero_add]
  rw [Finset.sum_apply, Finset.sum_eq_single m]
  · rw [Finset.sum_apply]
    refine Finset.sum_congr rfl ?_
    intro j _
    split <;> simp
  · intro b _ hb
    rw [Finset.sum_apply]
    refine Finset.sum_eq_zero ?_
    intro j _
    split <;> simp [Pi.single_apply, hb.symm]
  · simp

theorem iterative_eq (x k c : Fin n → ℝ) (m : Fin n) : iterative_cm x k c m =
    if (∑ j, if m = j then (c j - 1) * (x j / (1 + x j * x m)) else c j * (x j / (1 + x j * x m))) ≠ 0
    then k m / (∑ j, if m = j then (c j - 1) * (x j / (1 + x j * x m)) else c j * (x j / (1 + x j * x m)))
    else 0 := by
  simp only [iterative_cm, ite_acc, forR_add, zero_add]
  rw [forR_set_ite (fun i => (∑ j, if i = j then (c j - 1) * (x j / (1 + x j * x i)) else c j * (x j / (1 + x j * x i))) ≠ 0)]

theorem pmatrix_eq (x : Fin n → ℝ) (a b : Fin n) : pmatrix_cm x a b =
    if a = b then 0 else x a * x b / (1 + x a * x b) := by
  rw [pmatrix_cm]
  simp only []
  rw [symWrite_lt (fun i j => x i * x j / (1 + x i * x j))]
  rcases lt_trichotomy a b with h | h | h
  · simp [h, h.ne]
  · subst h; simp
  · simp [h, h.not_gt, h.ne', mul_comm]

/-! exponential parametrisation -/

theorem ll_exp_eq (x k c : Fin n → ℝ) : loglikelihood_cm_exp x k c =
    ∑ i, (-(c i * k i * x i) + ∑ j, if i = j then
        - ((c i * (c i - 1) * Real.log (1 + (Real.exp (-x i)) ^ 2)) / 2)
      else - ((c i * c j * Real.log (1 + Real.exp (-x i) * Real.exp (-x j))) / 2)) := by
  simp only [loglikelihood_cm_exp, sub_eq_add_neg, ite_acc, forR_add, add_assoc, zero_add]

theorem prime_exp_eq (x k c : Fin n → ℝ) (m : Fin n) : loglikelihood_prime_cm_exp x k c m =
    -(c m * k m) + ∑ j, if m = j then
        c m * (c m - 1) * (Real.exp (-x m) ^ 2 / (1 + Real.exp (-x m) ^ 2))
      else c m * c j * (Real.exp (-x m) * Real.exp (-x j) / (1 + Real.exp (-x m) * Real.exp (-x j))) := by
  simp only [loglikelihood_prime_cm_exp, addAt_eq, subAt_eq, ite_acc, forR_add, add_assoc, ite_single,
    sum_single_same, single_add_single, sum_single_univ, zeroFn, zero_add]

theorem hess_diag_exp_eq (x k c : Fin n → ℝ) (m : Fin n) : loglikelihood_hessian_diag_cm_exp x k c m =
    ∑ j, if m = j then
        -((Real.exp (-x j) ^ 2 / (1 + Real.exp (-x j) ^ 2)) * c m * (c j - 1))
      else -((Real.exp (-x m) * Real.exp (-x j) / (1 + Real.exp (-x m) * Real.exp (-x j))) * c m * c j) := by
  simp only [loglikelihood_hessian_diag_cm_exp, addAt_eq, subAt_eq, ite_acc, forR_add, add_assoc,
    ite_single, sum_single_same, single_add_single, sum_single_univ, zeroFn, zero_add]

theorem hess_exp_eq (x k c : Fin n → ℝ) (a b : Fin n) : loglikelihood_hessian_cm_exp x k c a b =
    if a = b then ∑ h, (if a = h then
        -((Real.exp (-x h) ^ 2 / (1 + Real.exp (-x h) ^ 2) ^ 2) * c a * (c h - 1))
      else -((Real.exp (-x a) * Real.exp (-x h) / (1 + Real.exp (-x a) * Real.exp (-x h)) ^ 2) * c a * c h))
    else -((Real.exp (-x a) * Real.exp (-x b) / (1 + Real.exp (-x a) * Real.exp (-x b)) ^ 2) * c a * c b) := by
  rw [loglikelihood_hessian_cm_exp]
  simp only []
  rw [symWrite_le (fun i j => if i = j then _ else _)]
  rcases lt_trichotomy a b with h | h | h
  · simp [h.le, h.ne]
  · subst h
    simp only [le_refl, if_true, sub_eq_add_neg, ite_acc, forR_add, zero_add]
  · simp only [h.not_ge, h.ne, h.ne', if_false]
    rw [mul_comm (Real.exp (-x b))]; ring

theorem iterative_exp_eq (x k c : Fin n → ℝ) (m : Fin n) : iterative_cm_exp x k c m =
    if (∑ j, if m = j then (c j - 1) * (Real.exp (-x j) / (1 + Real.exp (-x j) * Real.exp (-x m)))
        else c j * (Real.exp (-x j) / (1 + Real.exp (-x j) * Real.exp (-x m)))) ≠ 0
    then -Real.log (k m / (∑ j, if m = j then (c j - 1) * (Real.exp (-x j) / (1 + Real.exp (-x j) * Real.exp (-x m)))
        else c j * (Real.exp (-x j) / (1 + Real.exp (-x j) * Real.exp (-x m)))))
    else 0 := by
  simp only [iterative_cm_exp, ite_acc, forR_add, zero_add]
  rw [forR_set_ite (fun i => (∑ j, if i = j then (c j - 1) * (Real.exp (-x j) / (1 + Real.exp (-x j) * Real.exp (-x i)))
        else c j * (Real.exp (-x j) / (1 + Real.exp (-x j) * Real.exp (-x i)))) ≠ 0)]

end Verif.CM
