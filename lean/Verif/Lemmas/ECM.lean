import Verif.Model.ECM
import Verif.Calc

/-! Closed forms of the loops of `Verif.Model.ECM`. -/

namespace Verif.ECM
open Verif Finset Function
variable {n : ℕ}

theorem ll_eq (sol : Vec n) (k s : Fin n → ℝ) : loglikelihood_ecm sol k s =
    ∑ i, (k i * Real.log (sol (0, i)) + s i * Real.log (sol (1, i)) + ∑ j, if j < i then
      Real.log ((1 - sol (1, i) * sol (1, j)) /
        (1 - sol (1, i) * sol (1, j) + sol (0, i) * sol (0, j) * (sol (1, i) * sol (1, j)))) else 0) := by
  simp only [loglikelihood_ecm, ite_acc_left, forR_add, add_assoc, zero_add]

theorem prime_eq0 (sol : Vec n) (k s : Fin n → ℝ) (m : Fin n) : loglikelihood_prime_ecm sol k s (0, m) =
    k m / sol (0, m) + ∑ j, if m = j then 0 else
      -((sol (0, j) * (sol (1, m) * sol (1, j))) /
        (1 - sol (1, m) * sol (1, j) + sol (0, m) * sol (0, j) * (sol (1, m) * sol (1, j)))) := by
  simp only [loglikelihood_prime_ecm, addAt_eq, subAt_eq, ite_acc_left, forR_add, add_assoc, zeroFn, zero_add]
  rw [sum_eval_single _ _ m]
  · simp [Finset.sum_apply, ite_apply, Pi.single_apply]
  · intro i hi
    simp [Finset.sum_apply, ite_apply, Pi.single_apply, hi.symm]

theorem prime_eq1 (sol : Vec n) (k s : Fin n → ℝ) (m : Fin n) : loglikelihood_prime_ecm sol k s (1, m) =
    s m / sol (1, m) + ∑ j, if m = j then 0 else
      -((sol (0, m) * sol (0, j) * sol (1, j)) / ((1 - sol (1, m) * sol (1, j)) *
        (1 - sol (1, m) * sol (1, j) + sol (0, m) * sol (0, j) * (sol (1, m) * sol (1, j))))) := by
  simp only [loglikelihood_prime_ecm, addAt_eq, subAt_eq, ite_acc_left, forR_add, add_assoc, zeroFn, zero_add]
  rw [sum_eval_single _ _ m]
  · simp [Finset.sum_apply, ite_apply, Pi.single_apply]
  · intro i hi
    simp [Finset.sum_apply, ite_apply, Pi.single_apply, hi.symm]

theorem diag_eq0 (sol : Vec n) (k s : Fin n → ℝ) (m : Fin n) : loglikelihood_hessian_diag_ecm sol k s (0, m) =
    -(k m / (sol (0, m) * sol (0, m))) + ∑ j, if j = m then 0 else
      ((sol (0, j) * (sol (1, m) * sol (1, j))) ^ 2) / (1 - sol (1, m) * sol (1, j) + sol (0, m) * sol (0, j) * (sol (1, m) * sol (1, j))) ^ 2 := by
  simp only [loglikelihood_hessian_diag_ecm, addAt_eq, subAt_eq, ite_acc_left, forR_add, add_assoc, zeroFn, zero_add]
  rw [sum_eval_single _ _ m]
  · simp [Finset.sum_apply, ite_apply, Pi.single_apply]
  · intro i hi
    simp [Finset.sum_apply, ite_apply, Pi.single_apply, hi.symm]

theorem diag_eq1 (sol : Vec n) (k s : Fin n → ℝ) (m : Fin n) : loglikelihood_hessian_diag_ecm sol k s (1, m) =
    -(s m / (sol (1, m) * sol (1, m))) + ∑ j, if j = m then 0 else
      (sol (0, m) * sol (0, j) * sol (1, j) * (sol (0, m) * sol (0, j) * sol (1, j) * (1 - 2 * (sol (1, m) * sol (1, j)))
        - 2 * sol (1, j) * (1 - sol (1, m) * sol (1, j)))) / ((1 - sol (1, m) * sol (1, j)) ^ 2 * (1 - sol (1, m) * sol (1, j) + sol (0, m) * sol (0, j) * (sol (1, m) * sol (1, j))) ^ 2) := by
  simp only [loglikelihood_hessian_diag_ecm, addAt_eq, subAt_eq, ite_acc_left, forR_add, add_assoc, zeroFn, zero_add]
  rw [sum_eval_single _ _ m]
  · simp [Finset.sum_apply, ite_apply, Pi.single_apply]
  · intro i hi
    simp [Finset.sum_apply, ite_apply, Pi.single_apply, hi.symm]

theorem expected_eq0 (sol : Vec n) (m : Fin n) : expected_ecm sol  (0, m) =
    ∑ j, if m = j then 0 else
      (sol (0, m) * sol (0, j) * (sol (1, m) * sol (1, j))) / (1 - sol (1, m) * sol (1, j) + sol (0, m) * sol (0, j) * (sol (1, m) * sol (1, j))) := by
  simp only [expected_ecm, addAt_eq, subAt_eq, ite_acc_left, forR_add, add_assoc, zeroFn, zero_add]
  rw [sum_eval_single _ _ m]
  · simp [Finset.sum_apply, ite_apply, Pi.single_apply]
  · intro i hi
    simp [Finset.sum_apply, ite_apply, Pi.single_apply, hi.symm]

theorem expected_eq1 (sol : Vec n) (m : Fin n) : expected_ecm sol  (1, m) =
    ∑ j, if m = j then 0 else
      (sol (0, m) * sol (0, j) * (sol (1, m) * sol (1, j))) / ((1 - sol (1, m) * sol (1, j) + sol (0, m) * sol (0, j) * (sol (1, m) * sol (1, j))) * (1 - sol (1, m) * sol (1, j))) := by
  simp only [expected_ecm, addAt_eq, subAt_eq, ite_acc_left, forR_add, add_assoc, zeroFn, zero_add]
  rw [sum_eval_single _ _ m]
  · simp [Finset.sum_apply, ite_apply, Pi.single_apply]
  · intro i hi
    simp [Finset.sum_apply, ite_apply, Pi.single_apply, hi.symm]

theorem prime_exp_eq0 (sol : Vec n) (k s : Fin n → ℝ) (m : Fin n) : loglikelihood_prime_ecm_exp sol k s (0, m) =
    -k m + ∑ j, if m = j then 0 else
      (Real.exp (-sol (0, m)) * Real.exp (-sol (0, j)) * (Real.exp (-sol (1, m)) * Real.exp (-sol (1, j)))) / (1 - Real.exp (-sol (1, m)) * Real.exp (-sol (1, j)) + Real.exp (-sol (0, m)) * Real.exp (-sol (0, j)) * (Real.exp (-sol (1, m)) * Real.exp (-sol (1, j)))) := by
  simp only [loglikelihood_prime_ecm_exp, addAt_eq, subAt_eq, ite_acc_left, forR_add, add_assoc, zeroFn, zero_add]
  rw [sum_eval_single _ _ m]
  · simp [Finset.sum_apply, ite_apply, Pi.single_apply]
  · intro i hi
    simp [Finset.sum_apply, ite_apply, Pi.single_apply, hi.symm]

theorem prime_exp_eq1 (sol : Vec n) (k s : Fin n → ℝ) (m : Fin n) : loglikelihood_prime_ecm_exp sol k s (1, m) =
    -s m + ∑ j, if m = j then 0 else
      (Real.exp (-sol (0, m)) * Real.exp (-sol (0, j)) * (Real.exp (-sol (1, m)) * Real.exp (-sol (1, j)))) / ((1 - Real.exp (-sol (1, m)) * Real.exp (-sol (1, j))) * (1 - Real.exp (-sol (1, m)) * Real.exp (-sol (1, j)) + Real.exp (-sol (0, m)) * Real.exp (-sol (0, j)) * (Real.exp (-sol (1, m)) * Real.exp (-sol (1, j))))) := by
  simp only [loglikelihood_prime_ecm_exp, addAt_eq, subAt_eq, ite_acc_left, forR_add, add_assoc, zeroFn, zero_add]
  rw [sum_eval_single _ _ m]
  · simp [Finset.sum_apply, ite_apply, Pi.single_apply]
  · intro i hi
    simp [Finset.sum_apply, ite_apply, Pi.single_apply, hi.symm]

theorem diag_exp_eq0 (sol : Vec n) (k : Fin n → ℝ) (m : Fin n) : loglikelihood_hessian_diag_ecm_exp sol k (0, m) =
    ∑ j, if j = m then 0 else
      -(Real.exp (-sol (0, m)) * Real.exp (-sol (0, j)) * (Real.exp (-sol (1, m)) * Real.exp (-sol (1, j))) * (1 - Real.exp (-sol (1, m)) * Real.exp (-sol (1, j))) / (1 - Real.exp (-sol (1, m)) * Real.exp (-sol (1, j)) + Real.exp (-sol (0, m)) * Real.exp (-sol (0, j)) * (Real.exp (-sol (1, m)) * Real.exp (-sol (1, j)))) ^ 2) := by
  simp only [loglikelihood_hessian_diag_ecm_exp, addAt_eq, subAt_eq, ite_acc_left, forR_add, add_assoc, zeroFn, zero_add]
  rw [sum_eval_single _ _ m]
  · simp [Finset.sum_apply, ite_apply, Pi.single_apply]
  · intro i hi
    simp [Finset.sum_apply, ite_apply, Pi.single_apply, hi.symm]

theorem diag_exp_eq1 (sol : Vec n) (k : Fin n → ℝ) (m : Fin n) : loglikelihood_hessian_diag_ecm_exp sol k (1, m) =
    ∑ j, if j = m then 0 else
      -(Real.exp (-sol (0, m)) * Real.exp (-sol (0, j)) * (Real.exp (-sol (1, m)) * Real.exp (-sol (1, j))) * (1 - (Real.exp (-sol (1, m)) * Real.exp (-sol (1, j))) ^ 2 + Real.exp (-sol (0, m)) * Real.exp (-sol (0, j)) * (Real.exp (-sol (1, m)) * Real.exp (-sol (1, j))) ^ 2)
        / ((1 - Real.exp (-sol (1, m)) * Real.exp (-sol (1, j))) ^ 2 * (1 - Real.exp (-sol (1, m)) * Real.exp (-sol (1, j)) + Real.exp (-sol (0, m)) * Real.exp (-sol (0, j)) * (Real.exp (-sol (1, m)) * Real.exp (-sol (1, j)))) ^ 2)) := by
  simp only [loglikelihood_hessian_diag_ecm_exp, addAt_eq, subAt_eq, ite_acc_left, forR_add, add_assoc, zeroFn, zero_add]
  rw [sum_eval_single _ _ m]
  · simp [Finset.sum_apply, ite_apply, Pi.single_apply]
  · intro i hi
    simp [Finset.sum_apply, ite_apply, Pi.single_apply, hi.symm]

theorem ll_exp_eq (sol : Vec n) (k s : Fin n → ℝ) : loglikelihood_ecm_exp sol k s =
    ∑ i, (-(k i * sol (0, i) + s i * sol (1, i)) + ∑ j, if j < i then
      -Real.log (1 + Real.exp (-sol (0, i)) * Real.exp (-sol (0, j)) * (Real.exp (-sol (1, i)) * Real.exp (-sol (1, j)) /
        (1 - Real.exp (-sol (1, i)) * Real.exp (-sol (1, j))))) else 0) := by
  simp only [loglikelihood_ecm_exp, sub_eq_add_neg, ite_acc_left, forR_add, add_assoc, zero_add, Real.log_exp, neg_neg]

theorem iter_eq0 (sol : Vec n) (k s : Fin n → ℝ) (m : Fin n) : iterative_ecm sol k s (0, m) =
    if (∑ j, if m ≠ j then (sol (0, j) * (sol (1, m) * sol (1, j))) / (1 - sol (1, m) * sol (1, j) + sol (0, m) * sol (0, j) * (sol (1, m) * sol (1, j))) else 0) ≠ 0 then
      k m / (∑ j, if m ≠ j then (sol (0, j) * (sol (1, m) * sol (1, j))) / (1 - sol (1, m) * sol (1, j) + sol (0, m) * sol (0, j) * (sol (1, m) * sol (1, j))) else 0)
    else 0 := by
  simp only [iterative_ecm, ite_acc_left, forR_add, zero_add]
  apply forR_cell (m := m)
  · intro f
    split_ifs <;> simp_all [setAt_apply]
  · intro i hi f
    split_ifs <;> simp [setAt_apply, hi.symm]

theorem iter_eq1 (sol : Vec n) (k s : Fin n → ℝ) (m : Fin n) : iterative_ecm sol k s (1, m) =
    if (∑ j, if m ≠ j then (sol (0, m) * sol (0, j) * sol (1, j)) / ((1 - sol (1, m) * sol (1, j)) * (1 - sol (1, m) * sol (1, j) + sol (0, m) * sol (0, j) * (sol (1, m) * sol (1, j)))) else 0) ≠ 0 then
      s m / (∑ j, if m ≠ j then (sol (0, m) * sol (0, j) * sol (1, j)) / ((1 - sol (1, m) * sol (1, j)) * (1 - sol (1, m) * sol (1, j) + sol (0, m) * sol (0, j) * (sol (1, m) * sol (1, j)))) else 0)
    else 0 := by
  simp only [iterative_ecm, ite_acc_left, forR_add, zero_add]
  apply forR_cell (m := m)
  · intro f
    split_ifs <;> simp_all [setAt_apply]
  · intro i hi f
    split_ifs <;> simp [setAt_apply, hi.symm]

theorem iter_exp_eq0 (sol : Vec n) (k s : Fin n → ℝ) (m : Fin n) : iterative_ecm_exp sol k s (0, m) =
    if (∑ j, if m ≠ j then (Real.exp (-sol (0, j)) * (Real.exp (-sol (1, m)) * Real.exp (-sol (1, j)))) / (1 - Real.exp (-sol (1, m)) * Real.exp (-sol (1, j)) + Real.exp (-sol (0, m)) * Real.exp (-sol (0, j)) * (Real.exp (-sol (1, m)) * Real.exp (-sol (1, j)))) else 0) ≠ 0 then
      -Real.log (k m / (∑ j, if m ≠ j then (Real.exp (-sol (0, j)) * (Real.exp (-sol (1, m)) * Real.exp (-sol (1, j)))) / (1 - Real.exp (-sol (1, m)) * Real.exp (-sol (1, j)) + Real.exp (-sol (0, m)) * Real.exp (-sol (0, j)) * (Real.exp (-sol (1, m)) * Real.exp (-sol (1, j)))) else 0))
    else 0 := by
  simp only [iterative_ecm_exp, ite_acc_left, forR_add, zero_add]
  apply forR_cell (m := m)
  · intro f
    split_ifs <;> simp_all [setAt_apply]
  · intro i hi f
    split_ifs <;> simp [setAt_apply, hi.symm]

theorem iter_exp_eq1 (sol : Vec n) (k s : Fin n → ℝ) (m : Fin n) : iterative_ecm_exp sol k s (1, m) =
    if (∑ j, if m ≠ j then (Real.exp (-sol (0, m)) * Real.exp (-sol (0, j)) * Real.exp (-sol (1, j))) / ((1 - Real.exp (-sol (1, m)) * Real.exp (-sol (1, j))) * (1 - Real.exp (-sol (1, m)) * Real.exp (-sol (1, j)) + Real.exp (-sol (0, m)) * Real.exp (-sol (0, j)) * (Real.exp (-sol (1, m)) * Real.exp (-sol (1, j))))) else 0) ≠ 0 then
      -Real.log (s m / (∑ j, if m ≠ j then (Real.exp (-sol (0, m)) * Real.exp (-sol (0, j)) * Real.exp (-sol (1, j))) / ((1 - Real.exp (-sol (1, m)) * Real.exp (-sol (1, j))) * (1 - Real.exp (-sol (1, m)) * Real.exp (-sol (1, j)) + Real.exp (-sol (0, m)) * Real.exp (-sol (0, j)) * (Real.exp (-sol (1, m)) * Real.exp (-sol (1, j))))) else 0))
    else 0 := by
  simp only [iterative_ecm_exp, ite_acc_left, forR_add, zero_add]
  apply forR_cell (m := m)
  · intro f
    split_ifs <;> simp_all [setAt_apply]
  · intro i hi f
    split_ifs <;> simp [setAt_apply, hi.symm]

/-- off-diagonal blocks of `loglikelihood_hessian_ecm` -/
theorem hess_eq_ne (sol : Vec n) (k s : Fin n → ℝ) (a b : Fin n) (hab : a ≠ b) :
    loglikelihood_hessian_ecm sol k s (0, a) (0, b) =
      -(sol (1, a) * sol (1, b) * (1 - sol (1, a) * sol (1, b))) / (1 - sol (1, a) * sol (1, b) + sol (0, a) * sol (0, b) * (sol (1, a) * sol (1, b))) ^ 2 ∧
    loglikelihood_hessian_ecm sol k s (0, a) (1, b) = -(sol (0, b) * sol (1, a)) / (1 - sol (1, a) * sol (1, b) + sol (0, a) * sol (0, b) * (sol (1, a) * sol (1, b))) ^ 2 ∧
    loglikelihood_hessian_ecm sol k s (1, a) (0, b) = -(sol (0, a) * sol (1, b)) / (1 - sol (1, a) * sol (1, b) + sol (0, a) * sol (0, b) * (sol (1, a) * sol (1, b))) ^ 2 ∧
    loglikelihood_hessian_ecm sol k s (1, a) (1, b) =
      -(sol (0, a) * sol (0, b) * (1 - (sol (1, a) * sol (1, b)) ^ 2 + sol (0, a) * sol (0, b) * (sol (1, a) * sol (1, b)) ^ 2)) /
        ((1 - sol (1, a) * sol (1, b)) ^ 2 * (1 - sol (1, a) * sol (1, b) + sol (0, a) * sol (0, b) * (sol (1, a) * sol (1, b))) ^ 2) := by
  rcases lt_or_gt_of_ne hab with h | h
  · refine ⟨?_, ?_, ?_, ?_⟩ <;>
    · simp only [loglikelihood_hessian_ecm]
      apply tri_cell (a := a) (b := b) (hab := h.le)
      · intro f
        simp [hab, setAt2_apply]
      · intro i j hij hne f
        rcases eq_or_lt_of_le hij with h' | h'
        · subst h'
          have : ¬ (a = i ∧ b = i) := by rintro ⟨rfl, rfl⟩; exact hab rfl
          simp [setAt2_apply, this]
        · have h1 : ¬ (a = i ∧ b = j) := by rintro ⟨rfl, rfl⟩; exact hne ⟨rfl, rfl⟩
          have h2 : ¬ (a = j ∧ b = i) := by rintro ⟨rfl, rfl⟩; exact absurd h (not_lt.2 h'.le)
          simp [setAt2_apply, h1, h2, h'.ne]
  · refine ⟨?_, ?_, ?_, ?_⟩ <;>
    · simp only [loglikelihood_hessian_ecm]
      apply tri_cell (a := b) (b := a) (hab := h.le)
      · intro f
        simp [hab, hab.symm, setAt2_apply, mul_comm (sol (0, b)), mul_comm (sol (1, b))]
      · intro i j hij hne f
        rcases eq_or_lt_of_le hij with h' | h'
        · subst h'
          have : ¬ (a = i ∧ b = i) := by rintro ⟨rfl, rfl⟩; exact hab rfl
          simp [setAt2_apply, this]
        · have h1 : ¬ (a = i ∧ b = j) := by rintro ⟨rfl, rfl⟩; exact absurd h (not_lt.2 h'.le)
          have h2 : ¬ (a = j ∧ b = i) := by rintro ⟨rfl, rfl⟩; exact hne ⟨rfl, rfl⟩
          simp [setAt2_apply, h1, h2, h'.ne]

/-- diagonal blocks of `loglikelihood_hessian_ecm` -/
theorem hess_eq_eq (sol : Vec n) (k s : Fin n → ℝ) (m : Fin n) :
    loglikelihood_hessian_ecm sol k s (0, m) (0, m) = loglikelihood_hessian_diag_ecm sol k s (0, m) ∧
    loglikelihood_hessian_ecm sol k s (1, m) (1, m) = loglikelihood_hessian_diag_ecm sol k s (1, m) ∧
    loglikelihood_hessian_ecm sol k s (0, m) (1, m) = (∑ j, if j ≠ m then -(sol (0, j) * sol (1, j) / (1 - sol (1, m) * sol (1, j) + sol (0, m) * sol (0, j) * (sol (1, m) * sol (1, j))) ^ 2) else 0) ∧
    loglikelihood_hessian_ecm sol k s (1, m) (0, m) = (∑ j, if j ≠ m then -(sol (0, j) * sol (1, j) / (1 - sol (1, m) * sol (1, j) + sol (0, m) * sol (0, j) * (sol (1, m) * sol (1, j))) ^ 2) else 0) := by
  rw [diag_eq0, diag_eq1]
  have key : ∀ i j : Fin n, i ≤ j → ¬ (i = m ∧ j = m) → ¬ (m = i ∧ m = j) ∧ ¬ (m = j ∧ m = i) := by
    intro i j _ h
    exact ⟨fun h' => h ⟨h'.1.symm, h'.2.symm⟩, fun h' => h ⟨h'.2.symm, h'.1.symm⟩⟩
  refine ⟨?_, ?_, ?_, ?_⟩ <;>
  · simp only [loglikelihood_hessian_ecm]
    apply tri_cell (a := m) (b := m) (hab := le_refl m)
    · intro f
      simp only [sub_eq_add_neg, ite_acc_left, forR_add, zero_add]
      simp [setAt2_apply, ite_not, pow_two, neg_div]
    · intro i j hij hne f
      obtain ⟨h1, h2⟩ := key i j hij hne
      by_cases h' : i = j
      · subst h'
        have h3 : m ≠ i := fun h => hne ⟨h.symm, h.symm⟩
        simp [setAt2_apply, h3]
      · simp [setAt2_apply, h1, h2, h']

/-- off-diagonal blocks of `loglikelihood_hessian_ecm_exp` -/
theorem hess_exp_eq_ne (sol : Vec n) (k : Fin n → ℝ) (a b : Fin n) (hab : a ≠ b) :
    loglikelihood_hessian_ecm_exp sol k (0, a) (0, b) =
      -(Real.exp (-sol (0, a)) * Real.exp (-sol (0, b)) * (Real.exp (-sol (1, a)) * Real.exp (-sol (1, b)))) * (1 - Real.exp (-sol (1, a)) * Real.exp (-sol (1, b))) / (1 - Real.exp (-sol (1, a)) * Real.exp (-sol (1, b)) + Real.exp (-sol (0, a)) * Real.exp (-sol (0, b)) * (Real.exp (-sol (1, a)) * Real.exp (-sol (1, b)))) ^ 2 ∧
    loglikelihood_hessian_ecm_exp sol k (0, a) (1, b) = -(Real.exp (-sol (0, a)) * Real.exp (-sol (0, b)) * (Real.exp (-sol (1, a)) * Real.exp (-sol (1, b)))) / (1 - Real.exp (-sol (1, a)) * Real.exp (-sol (1, b)) + Real.exp (-sol (0, a)) * Real.exp (-sol (0, b)) * (Real.exp (-sol (1, a)) * Real.exp (-sol (1, b)))) ^ 2 ∧
    loglikelihood_hessian_ecm_exp sol k (1, a) (0, b) = -(Real.exp (-sol (0, a)) * Real.exp (-sol (0, b)) * (Real.exp (-sol (1, a)) * Real.exp (-sol (1, b)))) / (1 - Real.exp (-sol (1, a)) * Real.exp (-sol (1, b)) + Real.exp (-sol (0, a)) * Real.exp (-sol (0, b)) * (Real.exp (-sol (1, a)) * Real.exp (-sol (1, b)))) ^ 2 ∧
    loglikelihood_hessian_ecm_exp sol k (1, a) (1, b) =
      -(Real.exp (-sol (0, a)) * Real.exp (-sol (0, b)) * (Real.exp (-sol (1, a)) * Real.exp (-sol (1, b))) * (1 - (Real.exp (-sol (1, a)) * Real.exp (-sol (1, b))) ^ 2 + Real.exp (-sol (0, a)) * Real.exp (-sol (0, b)) * (Real.exp (-sol (1, a)) * Real.exp (-sol (1, b))) ^ 2)) /
        ((1 - Real.exp (-sol (1, a)) * Real.exp (-sol (1, b))) ^ 2 * (1 - Real.exp (-sol (1, a)) * Real.exp (-sol (1, b)) + Real.exp (-sol (0, a)) * Real.exp (-sol (0, b)) * (Real.exp (-sol (1, a)) * Real.exp (-sol (1, b)))) ^ 2) := by
  rcases lt_or_gt_of_ne hab with h | h
  · refine ⟨?_, ?_, ?_, ?_⟩ <;>
    · simp only [loglikelihood_hessian_ecm_exp]
      apply tri_cell (a := a) (b := b) (hab := h.le)
      · intro f
        simp [hab, setAt2_apply]
      · intro i j hij hne f
        rcases eq_or_lt_of_le hij with h' | h'
        · subst h'
          have : ¬ (a = i ∧ b = i) := by rintro ⟨rfl, rfl⟩; exact hab rfl
          simp [setAt2_apply, this]
        · have h1 : ¬ (a = i ∧ b = j) := by rintro ⟨rfl, rfl⟩; exact hne ⟨rfl, rfl⟩
          have h2 : ¬ (a = j ∧ b = i) := by rintro ⟨rfl, rfl⟩; exact absurd h (not_lt.2 h'.le)
          simp [setAt2_apply, h1, h2, h'.ne]
  · refine ⟨?_, ?_, ?_, ?_⟩ <;>
    · simp only [loglikelihood_hessian_ecm_exp]
      apply tri_cell (a := b) (b := a) (hab := h.le)
      · intro f
        simp [hab, hab.symm, setAt2_apply, mul_comm (Real.exp (-sol (0, b))), mul_comm (Real.exp (-sol (1, b)))]
      · intro i j hij hne f
        rcases eq_or_lt_of_le hij with h' | h'
        · subst h'
          have : ¬ (a = i ∧ b = i) := by rintro ⟨rfl, rfl⟩; exact hab rfl
          simp [setAt2_apply, this]
        · have h1 : ¬ (a = i ∧ b = j) := by rintro ⟨rfl, rfl⟩; exact absurd h (not_lt.2 h'.le)
          have h2 : ¬ (a = j ∧ b = i) := by rintro ⟨rfl, rfl⟩; exact hne ⟨rfl, rfl⟩
          simp [setAt2_apply, h1, h2, h'.ne]

/-- diagonal blocks of `loglikelihood_hessian_ecm_exp` -/
theorem hess_exp_eq_eq (sol : Vec n) (k : Fin n → ℝ) (m : Fin n) :
    loglikelihood_hessian_ecm_exp sol k (0, m) (0, m) = loglikelihood_hessian_diag_ecm_exp sol k (0, m) ∧
    loglikelihood_hessian_ecm_exp sol k (1, m) (1, m) = loglikelihood_hessian_diag_ecm_exp sol k (1, m) ∧
    loglikelihood_hessian_ecm_exp sol k (0, m) (1, m) = (∑ j, if j ≠ m then -(Real.exp (-sol (0, m)) * Real.exp (-sol (0, j)) * (Real.exp (-sol (1, m)) * Real.exp (-sol (1, j))) / (1 - Real.exp (-sol (1, m)) * Real.exp (-sol (1, j)) + Real.exp (-sol (0, m)) * Real.exp (-sol (0, j)) * (Real.exp (-sol (1, m)) * Real.exp (-sol (1, j)))) ^ 2) else 0) ∧
    loglikelihood_hessian_ecm_exp sol k (1, m) (0, m) = (∑ j, if j ≠ m then -(Real.exp (-sol (0, m)) * Real.exp (-sol (0, j)) * (Real.exp (-sol (1, m)) * Real.exp (-sol (1, j))) / (1 - Real.exp (-sol (1, m)) * Real.exp (-sol (1, j)) + Real.exp (-sol (0, m)) * Real.exp (-sol (0, j)) * (Real.exp (-sol (1, m)) * Real.exp (-sol (1, j)))) ^ 2) else 0) := by
  rw [diag_exp_eq0, diag_exp_eq1]
  have key : ∀ i j : Fin n, i ≤ j → ¬ (i = m ∧ j = m) → ¬ (m = i ∧ m = j) ∧ ¬ (m = j ∧ m = i) := by
    intro i j _ h
    exact ⟨fun h' => h ⟨h'.1.symm, h'.2.symm⟩, fun h' => h ⟨h'.2.symm, h'.1.symm⟩⟩
  refine ⟨?_, ?_, ?_, ?_⟩ <;>
  · simp only [loglikelihood_hessian_ecm_exp]
    apply tri_cell (a := m) (b := m) (hab := le_refl m)
    · intro f
      simp only [sub_eq_add_neg, ite_acc_left, forR_add, zero_add]
      simp [setAt2_apply, ite_not]
    · intro i j hij hne f
      obtain ⟨h1, h2⟩ := key i j hij hne
      by_cases h' : i = j
      · subst h'
        have h3 : m ≠ i := fun h => hne ⟨h.symm, h.symm⟩
        simp [setAt2_apply, h3]
      · simp [setAt2_apply, h1, h2, h']

end Verif.ECM
