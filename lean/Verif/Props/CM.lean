import Verif.Lemmas.CM
import Verif.Lemmas.Reduction
import Mathlib.Tactic.FieldSimp
import Mathlib.Tactic.Positivity
import Mathlib.Tactic.NormNum
import Mathlib.Tactic.FinCases

/-!
Property theorems about the UBCM (`cm`, `cm_exp`).

The partial derivative of `F` in coordinate `i` at `x` is written
`HasDerivAt (fun t => F (Function.update x i t)) D (x i)`.
-/

namespace Verif.CM
open Verif Finset Function Reduction
variable {n : ℕ}

/-! ### C06: the gradient is the gradient of the likelihood -/

/-- C06 (cm): every component of `loglikelihood_prime_cm` is the partial derivative of
`loglikelihood_cm`, for every degree sequence, every multiplicity vector, every positive `x`. -/
theorem C06_cm_gradient (x k c : Fin n → ℝ) (hx : ∀ i, 0 < x i) (i : Fin n) :
    HasDerivAt (fun t => loglikelihood_cm (update x i t) k c) (loglikelihood_prime_cm x k c i) (x i) := by
  simp only [ll_eq, prime_eq]
  have hi := hx i
  refine hasDerivAt_pairs x i (fun a s => c a * k a * Real.log s)
    (fun a b s t => if a = b then -((c a * (c a - 1) * Real.log (1 + s ^ 2)) / 2)
      else -((c a * c b * Real.log (1 + s * t)) / 2)) _ _ ?_ ?_ ?_
  · simpa [div_eq_mul_inv, mul_comm, mul_left_comm, mul_assoc] using
      ((Real.hasDerivAt_log hi.ne').const_mul (c i * k i))
  · intro j hj
    have hj' := hx j
    simp only [hj, hj.symm, if_false]
    have h1 : HasDerivAt (fun t : ℝ => 1 + t * x j) (x j) (x i) := by
      simpa using ((hasDerivAt_id (x i)).mul_const (x j)).const_add 1
    have h2 : HasDerivAt (fun t : ℝ => 1 + x j * t) (x j) (x i) := by
      simpa using ((hasDerivAt_id (x i)).const_mul (x j)).const_add 1
    have p1 : (1 + x i * x j) ≠ 0 := by positivity
    have p2 : (1 + x j * x i) ≠ 0 := by positivity
    have := (((h1.log p1).const_mul (c i * c j)).div_const 2).neg.add
      (((h2.log p2).const_mul (c j * c i)).div_const 2).neg
    refine this.congr_deriv ?_
    rw [mul_comm (x j) (x i)]
    field_simp
    ring
  · simp only [if_true]
    have h1 : HasDerivAt (fun t : ℝ => 1 + t ^ 2) (2 * x i) (x i) := by
      simpa using ((hasDerivAt_id (x i)).pow 2).const_add 1
    have p1 : (1 + x i ^ 2) ≠ 0 := by positivity
    refine (((h1.log p1).const_mul (c i * (c i - 1))).div_const 2).neg.congr_deriv ?_
    field_simp

example : ∀ i, 0 < (fun i : Fin 3 => (i.val : ℝ) + 1) i := by intro i; positivity

/-- C06 (cm_exp): every component of `loglikelihood_prime_cm_exp` is the partial derivative of
`loglikelihood_cm_exp`, everywhere. -/
theorem C06_cm_exp_gradient (x k c : Fin n → ℝ) (i : Fin n) :
    HasDerivAt (fun t => loglikelihood_cm_exp (update x i t) k c)
      (loglikelihood_prime_cm_exp x k c i) (x i) := by
  simp only [ll_exp_eq, prime_exp_eq]
  refine hasDerivAt_pairs x i (fun a s => -(c a * k a * s))
    (fun a b s t => if a = b then -((c a * (c a - 1) * Real.log (1 + Real.exp (-s) ^ 2)) / 2)
      else -((c a * c b * Real.log (1 + Real.exp (-s) * Real.exp (-t))) / 2)) _ _ ?_ ?_ ?_
  · simpa using ((hasDerivAt_id (x i)).const_mul (c i * k i)).fun_neg
  · intro j hj
    simp only [hj, hj.symm, if_false]
    have h0 : HasDerivAt (fun t : ℝ => Real.exp (-t)) (-Real.exp (-x i)) (x i) := by
      simpa using (hasDerivAt_id (x i)).neg.exp
    have h1 := (h0.mul_const (Real.exp (-x j))).const_add 1
    have h2 := (h0.const_mul (Real.exp (-x j))).const_add 1
    have p1 : (1 + Real.exp (-x i) * Real.exp (-x j)) ≠ 0 := by positivity
    have p2 : (1 + Real.exp (-x j) * Real.exp (-x i)) ≠ 0 := by positivity
    have := (((h1.log p1).const_mul (c i * c j)).div_const 2).neg.add
      (((h2.log p2).const_mul (c j * c i)).div_const 2).neg
    refine this.congr_deriv ?_
    rw [mul_comm (Real.exp (-x j)) (Real.exp (-x i))]
    field_simp
    ring
  · simp only [if_true]
    have h0 : HasDerivAt (fun t : ℝ => Real.exp (-t)) (-Real.exp (-x i)) (x i) := by
      simpa using (hasDerivAt_id (x i)).neg.exp
    have h1 := (h0.pow 2).const_add 1
    have p1 : (1 + Real.exp (-x i) ^ 2) ≠ 0 := by positivity
    refine (((h1.log p1).const_mul (c i * (c i - 1))).div_const 2).neg.congr_deriv ?_
    simp only [Pi.pow_apply]
    field_simp
    norm_num
    ring

/-! ### C07: Hessians -/

/-- derivative of `t ↦ t / (1 + s t)`-like terms, used below -/
private theorem hd_frac (a b t : ℝ) (h : 1 + b * t ≠ 0) :
    HasDerivAt (fun t : ℝ => a / (1 + b * t)) (-(a * b) / (1 + b * t) ^ 2) t := by
  have h1 : HasDerivAt (fun t : ℝ => 1 + b * t) b t := by
    simpa using ((hasDerivAt_id t).const_mul b).const_add 1
  refine ((hasDerivAt_const t a).fun_div h1 h).congr_deriv ?_
  ring

private theorem hd_frac' (b t : ℝ) (h : 1 + b * t ≠ 0) :
    HasDerivAt (fun t : ℝ => t / (1 + b * t)) (1 / (1 + b * t) ^ 2) t := by
  have h1 : HasDerivAt (fun t : ℝ => 1 + b * t) b t := by
    simpa using ((hasDerivAt_id t).const_mul b).const_add 1
  refine ((hasDerivAt_id t).fun_div h1 h).congr_deriv ?_
  simp only [id]
  ring

/-- the true off-diagonal second derivative of the cm likelihood -/
theorem prime_deriv_ne (x k c : Fin n → ℝ) (hx : ∀ i, 0 < x i) (i j : Fin n) (hij : i ≠ j) :
    HasDerivAt (fun t => loglikelihood_prime_cm (update x j t) k c i)
      (-(c i * c j) / (1 + x i * x j) ^ 2) (x j) := by
  simp only [prime_eq]
  have hi := hx i; have hj := hx j
  refine hasDerivAt_row_ne x i j hij (fun s => c i * k i / s)
    (fun b s t => if i = b then -(c i * (c b - 1) * (t / (1 + t ^ 2)))
      else -(c i * c b * (t / (1 + s * t)))) _ ?_
  simp only [hij, if_false]
  have p : 1 + x i * x j ≠ 0 := by positivity
  refine ((hd_frac' (x i) (x j) p).const_mul (c i * c j)).fun_neg.congr_deriv ?_
  ring

/-- the true diagonal second derivative of the cm likelihood -/
theorem prime_deriv_eq (x k c : Fin n → ℝ) (hx : ∀ i, 0 < x i) (i : Fin n) :
    HasDerivAt (fun t => loglikelihood_prime_cm (update x i t) k c i)
      (-(c i * k i) / x i ^ 2 + ∑ j, if i = j then
          -(c i * (c i - 1) * ((1 - x i ^ 2) / (1 + x i ^ 2) ^ 2))
        else c i * c j * (x j ^ 2 / (1 + x i * x j) ^ 2)) (x i) := by
  simp only [prime_eq]
  have hi := hx i
  refine hasDerivAt_row_eq x i (fun s => c i * k i / s)
    (fun b s t => if i = b then -(c i * (c b - 1) * (t / (1 + t ^ 2)))
      else -(c i * c b * (t / (1 + s * t)))) _ _ ?_ ?_ ?_
  · refine ((hasDerivAt_const (x i) (c i * k i)).fun_div (hasDerivAt_id (x i)) hi.ne').congr_deriv ?_
    simp only [id]; ring
  · intro b hb
    have hb' := hx b
    simp only [hb.symm, if_false]
    have p : 1 + x b * x i ≠ 0 := by positivity
    have h := ((hd_frac (x b) (x b) (x i) p).const_mul (c i * c b)).fun_neg
    simp only [mul_comm (x b)] at h
    refine h.congr_deriv ?_
    ring
  · simp only [if_true]
    have h1 : HasDerivAt (fun t : ℝ => 1 + t ^ 2) (2 * x i) (x i) := by
      simpa using ((hasDerivAt_id (x i)).fun_pow 2).const_add 1
    have p1 : (1 + x i ^ 2) ≠ 0 := by positivity
    refine (((hasDerivAt_id (x i)).fun_div h1 p1).const_mul (c i * (c i - 1))).fun_neg.congr_deriv ?_
    simp only [id]; ring

/-- C07 (cm), off-diagonal: `loglikelihood_hessian_cm[i,j]` is the derivative of gradient component
`i` in `x_j` **exactly when** `x_i = x_j`.  In particular the property C07 is false for cm. -/
theorem C07_cm_hessian_offdiag_iff (x k c : Fin n → ℝ) (hx : ∀ i, 0 < x i) (i j : Fin n)
    (hij : i ≠ j) (hci : c i ≠ 0) (hcj : c j ≠ 0) :
    HasDerivAt (fun t => loglikelihood_prime_cm (update x j t) k c i)
      (loglikelihood_hessian_cm x k c i j) (x j) ↔ x i = x j := by
  have hi := hx i; have hj := hx j
  have ht := prime_deriv_ne x k c hx i j hij
  have p : (1 + x i * x j) ≠ 0 := by positivity
  have key : loglikelihood_hessian_cm x k c i j = -(c i * c j) / (1 + x i * x j) ^ 2 ↔ x i = x j := by
    rw [hess_eq, if_neg hij]
    rcases lt_or_gt_of_ne hij with h | h
    · rw [if_pos h]
      rw [show ((x j * x j - (1 + x i * x j)) / ((1 + x i * x j) * (1 + x i * x j))) * c i * c j
        = ((x j * x j - (1 + x i * x j)) * (c i * c j)) / (1 + x i * x j) ^ 2 by ring,
        div_left_inj' (pow_ne_zero 2 p)]
      constructor
      · intro h
        have h' : (x j - x i) * (x j * (c i * c j)) = 0 := by linear_combination h
        rcases mul_eq_zero.1 h' with h'' | h''
        · linarith
        · exact absurd h'' (mul_ne_zero hj.ne' (mul_ne_zero hci hcj))
      · intro h; rw [h]; ring
    · rw [if_neg (not_lt.2 h.le), mul_comm (x j) (x i)]
      rw [show ((x i * x i - (1 + x i * x j)) / ((1 + x i * x j) * (1 + x i * x j))) * c j * c i
        = ((x i * x i - (1 + x i * x j)) * (c i * c j)) / (1 + x i * x j) ^ 2 by ring,
        div_left_inj' (pow_ne_zero 2 p)]
      constructor
      · intro h
        have h' : (x i - x j) * (x i * (c i * c j)) = 0 := by linear_combination h
        rcases mul_eq_zero.1 h' with h'' | h''
        · linarith
        · exact absurd h'' (mul_ne_zero hi.ne' (mul_ne_zero hci hcj))
      · intro h; rw [h]; ring
  rw [← key]
  constructor
  · intro h; exact h.unique ht
  · intro h; rw [h]; exact ht

/-- C07 (cm), diagonal: `loglikelihood_hessian_cm[i,i]` is the second derivative **exactly when**
the multiplicity `c_i` is one (or zero). -/
theorem C07_cm_hessian_diag_iff (x k c : Fin n → ℝ) (hx : ∀ i, 0 < x i) (i : Fin n) :
    HasDerivAt (fun t => loglikelihood_prime_cm (update x i t) k c i)
      (loglikelihood_hessian_cm x k c i i) (x i) ↔ c i = 0 ∨ c i = 1 := by
  have hi := hx i
  have ht := prime_deriv_eq x k c hx i
  have p : (1 + x i ^ 2) ≠ 0 := by positivity
  have e : loglikelihood_hessian_cm x k c i i =
      (-(c i * k i) / x i ^ 2 + ∑ j, if i = j then
          -(c i * (c i - 1) * ((1 - x i ^ 2) / (1 + x i ^ 2) ^ 2))
        else c i * c j * (x j ^ 2 / (1 + x i * x j) ^ 2)) + c i * (c i - 1) / (1 + x i ^ 2) ^ 2 := by
    rw [hess_eq, if_pos rfl, hess_diag_eq, ← add_sum_erase univ _ (mem_univ i),
      ← add_sum_erase univ (fun j => if i = j then
          -(c i * (c i - 1) * ((1 - x i ^ 2) / (1 + x i ^ 2) ^ 2))
        else c i * c j * (x j ^ 2 / (1 + x i * x j) ^ 2)) (mem_univ i)]
    have : ∀ j ∈ univ.erase i, (if i = j then
        ((x j * x j) / ((1 + x j * x j) * (1 + x j * x j))) * c i * (c j - 1)
      else ((x j * x j) / ((1 + x i * x j) * (1 + x i * x j))) * c i * c j)
      = (if i = j then
          -(c i * (c i - 1) * ((1 - x i ^ 2) / (1 + x i ^ 2) ^ 2))
        else c i * c j * (x j ^ 2 / (1 + x i * x j) ^ 2)) := by
      intro j hj
      rw [if_neg (Ne.symm (mem_erase.1 hj).1), if_neg (Ne.symm (mem_erase.1 hj).1)]; ring
    rw [sum_congr rfl this]
    simp only [if_true]
    have : (x i * x i / ((1 + x i * x i) * (1 + x i * x i))) * c i * (c i - 1)
      = -(c i * (c i - 1) * ((1 - x i ^ 2) / (1 + x i ^ 2) ^ 2)) + c i * (c i - 1) / (1 + x i ^ 2) ^ 2 := by
      rw [← pow_two, ← pow_two]; field_simp; ring
    rw [this]; ring
  rw [e]
  constructor
  · intro h
    have := h.unique ht
    have h2 : c i * (c i - 1) / (1 + x i ^ 2) ^ 2 = 0 := by linarith
    rcases div_eq_zero_iff.1 h2 with h3 | h3
    · rcases mul_eq_zero.1 h3 with h4 | h4
      · exact Or.inl h4
      · exact Or.inr (by linarith)
    · exact absurd h3 (pow_ne_zero 2 p)
  · intro h
    refine ht.congr_deriv ?_
    rcases h with h | h <;> rw [h] <;> ring

/-- C07 is false for cm: on two nodes with multiplicity one and `x = (1,2)` the Hessian used by the Newton
method is not the Jacobian of the gradient. -/
theorem C07_cm_hessian_not_jacobian :
    ¬ ∀ (x k c : Fin 2 → ℝ), (∀ i, 0 < x i) → (∀ i, c i = 1) → ∀ i j,
      HasDerivAt (fun t => loglikelihood_prime_cm (update x j t) k c i)
        (loglikelihood_hessian_cm x k c i j) (x j) := by
  intro h
  have h1 := h (fun i => (i.val : ℝ) + 1) (fun _ => 1) (fun _ => 1) (by intro i; positivity)
    (fun _ => rfl) 0 1
  rw [C07_cm_hessian_offdiag_iff _ _ _ (by intro i; positivity) 0 1 (by decide) one_ne_zero one_ne_zero] at h1
  norm_num at h1

/-- C07_partial (cm): where all the parameters coincide (regular graphs: every node in its own class with
the same `x`, or one class) and multiplicities are one, the Hessian is the Jacobian. Missing: the full
statement for arbitrary `x`, `c`, which is false by the previous theorems. -/
theorem C07_cm_hessian_partial (x k c : Fin n → ℝ) (hx : ∀ i, 0 < x i) (hc : ∀ i, c i = 1)
    (hreg : ∀ i j, x i = x j) (i j : Fin n) :
    HasDerivAt (fun t => loglikelihood_prime_cm (update x j t) k c i)
        (loglikelihood_hessian_cm x k c i j) (x j) := by
  by_cases h : i = j
  · subst h; exact (C07_cm_hessian_diag_iff x k c hx i).2 (Or.inr (hc i))
  · exact (C07_cm_hessian_offdiag_iff x k c hx i j h (by rw [hc]; exact one_ne_zero)
      (by rw [hc]; exact one_ne_zero)).2 (hreg i j)

private theorem hd_exp (t : ℝ) : HasDerivAt (fun t : ℝ => Real.exp (-t)) (-Real.exp (-t)) t := by
  simpa using (hasDerivAt_id t).neg.exp

/-- derivative of the logistic link probability in one parameter -/
private theorem hd_logistic (a t : ℝ) (ha : 0 < a) :
    HasDerivAt (fun t : ℝ => a * Real.exp (-t) / (1 + a * Real.exp (-t)))
      (-(a * Real.exp (-t) / (1 + a * Real.exp (-t)) ^ 2)) t := by
  have h1 := (hd_exp t).const_mul a
  have h2 := h1.const_add 1
  have p : 1 + a * Real.exp (-t) ≠ 0 := by positivity
  refine (h1.fun_div h2 p).congr_deriv ?_
  field_simp
  ring

/-- the true off-diagonal second derivative of the cm_exp likelihood -/
theorem prime_exp_deriv_ne (x k c : Fin n → ℝ) (i j : Fin n) (hij : i ≠ j) :
    HasDerivAt (fun t => loglikelihood_prime_cm_exp (update x j t) k c i)
      (-(c i * c j * (Real.exp (-x i) * Real.exp (-x j) / (1 + Real.exp (-x i) * Real.exp (-x j)) ^ 2))) (x j) := by
  simp only [prime_exp_eq]
  refine hasDerivAt_row_ne x i j hij (fun s => -(c i * k i))
    (fun b s t => if i = b then c i * (c i - 1) * (Real.exp (-s) ^ 2 / (1 + Real.exp (-s) ^ 2))
      else c i * c b * (Real.exp (-s) * Real.exp (-t) / (1 + Real.exp (-s) * Real.exp (-t)))) _ ?_
  simp only [hij, if_false]
  refine ((hd_logistic (Real.exp (-x i)) (x j) (Real.exp_pos _)).const_mul (c i * c j)).congr_deriv ?_
  ring

/-- the true diagonal second derivative of the cm_exp likelihood -/
theorem prime_exp_deriv_eq (x k c : Fin n → ℝ) (i : Fin n) :
    HasDerivAt (fun t => loglikelihood_prime_cm_exp (update x i t) k c i)
      (∑ j, if i = j then
          -(2 * (c i * (c i - 1)) * (Real.exp (-x i) ^ 2 / (1 + Real.exp (-x i) ^ 2) ^ 2))
        else -(c i * c j * (Real.exp (-x i) * Real.exp (-x j) / (1 + Real.exp (-x i) * Real.exp (-x j)) ^ 2)))
      (x i) := by
  simp only [prime_exp_eq]
  have := hasDerivAt_row_eq x i (fun s => -(c i * k i))
    (fun b s t => if i = b then c i * (c i - 1) * (Real.exp (-s) ^ 2 / (1 + Real.exp (-s) ^ 2))
      else c i * c b * (Real.exp (-s) * Real.exp (-t) / (1 + Real.exp (-s) * Real.exp (-t)))) 0
    (fun j => if i = j then
          -(2 * (c i * (c i - 1)) * (Real.exp (-x i) ^ 2 / (1 + Real.exp (-x i) ^ 2) ^ 2))
        else -(c i * c j * (Real.exp (-x i) * Real.exp (-x j) / (1 + Real.exp (-x i) * Real.exp (-x j)) ^ 2)))
    (hasDerivAt_const _ _) ?_ ?_
  · simpa using this
  · intro b hb
    simp only [hb.symm, if_false]
    have h := (hd_logistic (Real.exp (-x b)) (x i) (Real.exp_pos _)).const_mul (c i * c b)
    simp only [mul_comm (Real.exp (-x b))] at h
    refine h.congr_deriv ?_
    ring
  · simp only [if_true]
    have h0 := (hd_exp (x i)).fun_pow 2
    have p1 : (1 + Real.exp (-x i) ^ 2) ≠ 0 := by positivity
    refine ((h0.fun_div (h0.const_add 1) p1).const_mul (c i * (c i - 1))).congr_deriv ?_
    field_simp
    norm_num
    ring

/-- C07 (cm_exp), off-diagonal: the Hessian entry is the derivative of the gradient, for every
multiplicity vector and everywhere. -/
theorem C07_cm_exp_hessian_offdiag (x k c : Fin n → ℝ) (i j : Fin n) (hij : i ≠ j) :
    HasDerivAt (fun t => loglikelihood_prime_cm_exp (update x j t) k c i)
      (loglikelihood_hessian_cm_exp x k c i j) (x j) := by
  refine (prime_exp_deriv_ne x k c i j hij).congr_deriv ?_
  rw [hess_exp_eq, if_neg hij]; ring

example : (0 : Fin 3) ≠ 1 := by decide

/-- C07 (cm_exp), diagonal: the entry is the second derivative **exactly when** the multiplicity is one
(or zero); for classes of two or more nodes of equal degree it is not. -/
theorem C07_cm_exp_hessian_diag_iff (x k c : Fin n → ℝ) (i : Fin n) :
    HasDerivAt (fun t => loglikelihood_prime_cm_exp (update x i t) k c i)
      (loglikelihood_hessian_cm_exp x k c i i) (x i) ↔ c i = 0 ∨ c i = 1 := by
  have ht := prime_exp_deriv_eq x k c i
  have e : loglikelihood_hessian_cm_exp x k c i i =
      (∑ j, if i = j then
          -(2 * (c i * (c i - 1)) * (Real.exp (-x i) ^ 2 / (1 + Real.exp (-x i) ^ 2) ^ 2))
        else -(c i * c j * (Real.exp (-x i) * Real.exp (-x j) / (1 + Real.exp (-x i) * Real.exp (-x j)) ^ 2)))
      + (Real.exp (-x i) ^ 2 / (1 + Real.exp (-x i) ^ 2) ^ 2) * (c i * (c i - 1)) := by
    rw [hess_exp_eq, if_pos rfl, ← add_sum_erase univ _ (mem_univ i),
      ← add_sum_erase univ (fun j => if i = j then
          -(2 * (c i * (c i - 1)) * (Real.exp (-x i) ^ 2 / (1 + Real.exp (-x i) ^ 2) ^ 2))
        else -(c i * c j * (Real.exp (-x i) * Real.exp (-x j) / (1 + Real.exp (-x i) * Real.exp (-x j)) ^ 2)))
        (mem_univ i)]
    simp only [if_true]
    have : ∀ j ∈ univ.erase i, (if i = j then
        -((Real.exp (-x j) ^ 2 / (1 + Real.exp (-x j) ^ 2) ^ 2) * c i * (c j - 1))
      else -((Real.exp (-x i) * Real.exp (-x j) / (1 + Real.exp (-x i) * Real.exp (-x j)) ^ 2) * c i * c j))
      = (if i = j then
          -(2 * (c i * (c i - 1)) * (Real.exp (-x i) ^ 2 / (1 + Real.exp (-x i) ^ 2) ^ 2))
        else -(c i * c j * (Real.exp (-x i) * Real.exp (-x j) / (1 + Real.exp (-x i) * Real.exp (-x j)) ^ 2))) := by
      intro j hj
      rw [if_neg (Ne.symm (mem_erase.1 hj).1), if_neg (Ne.symm (mem_erase.1 hj).1)]; ring
    rw [sum_congr rfl this]
    ring
  rw [e]
  constructor
  · intro h
    have h2 := h.unique ht
    have h3 : (Real.exp (-x i) ^ 2 / (1 + Real.exp (-x i) ^ 2) ^ 2) * (c i * (c i - 1)) = 0 := by linarith
    have h4 : (Real.exp (-x i) ^ 2 / (1 + Real.exp (-x i) ^ 2) ^ 2) ≠ 0 := by positivity
    rcases mul_eq_zero.1 ((mul_eq_zero.1 h3).resolve_left h4) with h5 | h5
    · exact Or.inl h5
    · exact Or.inr (by linarith)
  · intro h
    refine ht.congr_deriv ?_
    rcases h with h | h <;> rw [h] <;> ring

/-- C07 is false for cm_exp once two nodes share a degree (one class of multiplicity 2). -/
theorem C07_cm_exp_hessian_not_jacobian :
    ¬ ∀ (x k c : Fin 1 → ℝ) (i j : Fin 1),
      HasDerivAt (fun t => loglikelihood_prime_cm_exp (update x j t) k c i)
        (loglikelihood_hessian_cm_exp x k c i j) (x j) := by
  intro h
  have := (C07_cm_exp_hessian_diag_iff (fun _ => 0) (fun _ => 1) (fun _ => 2) (0 : Fin 1)).1
    (h (fun _ => 0) (fun _ => 1) (fun _ => 2) 0 0)
  norm_num at this

/-- C07 for cm_exp on problems without repeated degrees (all multiplicities one).  Missing
(and false): multiplicities above one on the diagonal. -/
theorem C07_cm_exp_hessian_partial (x k c : Fin n → ℝ) (hc : ∀ i, c i = 1) (i j : Fin n) :
    HasDerivAt (fun t => loglikelihood_prime_cm_exp (update x j t) k c i)
      (loglikelihood_hessian_cm_exp x k c i j) (x j) := by
  by_cases h : i = j
  · subst h; exact (C07_cm_exp_hessian_diag_iff x k c i).2 (Or.inr (hc i))
  · exact C07_cm_exp_hessian_offdiag x k c i j h

/-! ### C08: diagonal Hessians -/

/-- C08 (cm): the diagonal returned by `loglikelihood_hessian_diag_cm` is the diagonal of
`loglikelihood_hessian_cm`; it is the second derivative exactly when the multiplicity is one (or zero). -/
theorem C08_cm_hessian_diag (x k c : Fin n → ℝ) (i : Fin n) :
    loglikelihood_hessian_diag_cm x k c i = loglikelihood_hessian_cm x k c i i ∧
    ((∀ i, 0 < x i) → (HasDerivAt (fun t => loglikelihood_prime_cm (update x i t) k c i)
      (loglikelihood_hessian_diag_cm x k c i) (x i) ↔ c i = 0 ∨ c i = 1)) := by
  have : loglikelihood_hessian_diag_cm x k c i = loglikelihood_hessian_cm x k c i i := by
    rw [hess_eq, if_pos rfl]
  refine ⟨this, fun hx => ?_⟩
  rw [this]; exact C07_cm_hessian_diag_iff x k c hx i

/-- C08 is false for cm_exp: with non-negative multiplicities `≥ 1`, whenever the network has a second class, the
"diagonal Hessian" differs from the second derivative (a square is missing in the denominator)
— here for all multiplicities equal to one. -/
theorem C08_cm_exp_hessian_diag_wrong (x k c : Fin n → ℝ) (hc : ∀ i, c i = 1) (i j : Fin n) (hij : i ≠ j) :
    ¬ HasDerivAt (fun t => loglikelihood_prime_cm_exp (update x i t) k c i)
      (loglikelihood_hessian_diag_cm_exp x k c i) (x i) := by
  intro h
  have h2 := h.unique (prime_exp_deriv_eq x k c i)
  rw [hess_diag_exp_eq] at h2
  have hlt : ∑ j, (if i = j then
        -((Real.exp (-x j) ^ 2 / (1 + Real.exp (-x j) ^ 2)) * c i * (c j - 1))
      else -((Real.exp (-x i) * Real.exp (-x j) / (1 + Real.exp (-x i) * Real.exp (-x j))) * c i * c j))
      < ∑ j, if i = j then
          -(2 * (c i * (c i - 1)) * (Real.exp (-x i) ^ 2 / (1 + Real.exp (-x i) ^ 2) ^ 2))
        else -(c i * c j * (Real.exp (-x i) * Real.exp (-x j) / (1 + Real.exp (-x i) * Real.exp (-x j)) ^ 2)) := by
    have key : ∀ j, i ≠ j → -(Real.exp (-x i) * Real.exp (-x j) / (1 + Real.exp (-x i) * Real.exp (-x j)))
        < -(Real.exp (-x i) * Real.exp (-x j) / (1 + Real.exp (-x i) * Real.exp (-x j)) ^ 2) := by
      intro j _
      have hp : 0 < Real.exp (-x i) * Real.exp (-x j) := by positivity
      have h1 : (1 + Real.exp (-x i) * Real.exp (-x j)) < (1 + Real.exp (-x i) * Real.exp (-x j)) ^ 2 := by
        nlinarith
      exact neg_lt_neg (div_lt_div_of_pos_left hp (by positivity) h1)
    refine sum_lt_sum ?_ ⟨j, mem_univ j, ?_⟩
    · intro b _
      by_cases hb : i = b
      · simp [hb, hc]
      · simpa [hb, hc] using (key b hb).le
    · simpa [hij, hc] using key j hij
  exact absurd h2 hlt.ne

/-- C08_partial (cm_exp): with multiplicities one, the "diagonal Hessian" is a lower bound of the second derivative, which is not positive: quasi-Newton
over-estimates the curvature, and its steps are too short, never of the wrong sign. Missing (and false): equality. -/
theorem C08_cm_exp_hessian_diag_bound_partial (x k c : Fin n → ℝ) (hc : ∀ i, c i = 1) (i : Fin n) :
    ∃ D, HasDerivAt (fun t => loglikelihood_prime_cm_exp (update x i t) k c i) D (x i) ∧ loglikelihood_hessian_diag_cm_exp x k c i ≤ D ∧ D ≤ 0 := by
  refine ⟨_, prime_exp_deriv_eq x k c i, ?_, ?_⟩
  · rw [hess_diag_exp_eq]
    refine sum_le_sum fun j _ => ?_
    by_cases hb : i = j
    · simp [hb, hc]
    · have hp : 0 < Real.exp (-x i) * Real.exp (-x j) := by positivity
      have h1 : (1 + Real.exp (-x i) * Real.exp (-x j)) ≤ (1 + Real.exp (-x i) * Real.exp (-x j)) ^ 2 := by nlinarith
      simpa [hb, hc] using div_le_div_of_nonneg_left hp.le (by positivity) h1
  · refine sum_nonpos fun j _ => ?_
    by_cases hb : i = j
    · simp [hb, hc]
    · have : 0 ≤ Real.exp (-x i) * Real.exp (-x j) / (1 + Real.exp (-x i) * Real.exp (-x j)) ^ 2 := by positivity
      simp only [hb, if_false, hc]; linarith

/-- C08_partial (cm_exp): what the quasi-Newton method still gets right: the diagonal is never positive (so the
quasi-Newton direction is an ascent direction), and with multiplicities one it over-estimates the curvature. -/
theorem C08_cm_exp_hessian_diag_partial (x k c : Fin n → ℝ) (hc : ∀ i, 1 ≤ c i) (i : Fin n) :
    loglikelihood_hessian_diag_cm_exp x k c i ≤ 0 := by
  rw [hess_diag_exp_eq]
  refine sum_nonpos ?_
  intro j _
  have h1 := hc i; have h2 := hc j
  have h3 : 0 ≤ c j - 1 := by linarith
  have h4 : 0 ≤ c i := by linarith
  have h5 : 0 ≤ c j := by linarith
  split
  · have : 0 ≤ (Real.exp (-x j) ^ 2 / (1 + Real.exp (-x j) ^ 2)) * c i * (c j - 1) := by positivity
    linarith
  · have : 0 ≤ (Real.exp (-x i) * Real.exp (-x j) / (1 + Real.exp (-x i) * Real.exp (-x j))) * c i * c j := by positivity
    linarith

/-! ### C09: the two parametrisations -/

/-- C09 (cm): the `cm_exp` likelihood at `θ` is the `cm` likelihood at `x = exp(-θ)`. -/
theorem C09_cm_reparametrisation (θ k c : Fin n → ℝ) :
    loglikelihood_cm_exp θ k c = loglikelihood_cm (fun i => Real.exp (-θ i)) k c := by
  rw [ll_exp_eq, ll_eq]
  refine sum_congr rfl fun i _ => ?_
  rw [Real.log_exp]; congr 1; ring

/-- C09 (cm): hence stationary points correspond: the `cm_exp` gradient is `-x` times the `cm` gradient. -/
theorem C09_cm_gradients (θ k c : Fin n → ℝ) (i : Fin n) :
    loglikelihood_prime_cm_exp θ k c i =
      -(Real.exp (-θ i)) * loglikelihood_prime_cm (fun i => Real.exp (-θ i)) k c i := by
  rw [prime_exp_eq, prime_eq, mul_add, mul_sum]
  congr 1
  · field_simp
  · refine sum_congr rfl fun j _ => ?_
    split
    · next h => subst h; field_simp
    · field_simp

/-! ### C18: link probabilities -/

/-- C18 (cm): entries of `pmatrix_cm` are probabilities below one. -/
theorem C18_pmatrix_cm_range (x : Fin n → ℝ) (hx : ∀ i, 0 ≤ x i) (i j : Fin n) :
    0 ≤ pmatrix_cm x i j ∧ pmatrix_cm x i j < 1 := by
  rw [pmatrix_eq]
  have := mul_nonneg (hx i) (hx j)
  split
  · norm_num
  · constructor
    · positivity
    · rw [div_lt_one (by positivity)]; linarith

/-- C18 (cm): `pmatrix_cm` is symmetric with zero diagonal and holds `x_i x_j/(1+x_i x_j)` elsewhere. -/
theorem C18_pmatrix_cm_symm (x : Fin n → ℝ) (i j : Fin n) :
    pmatrix_cm x i j = pmatrix_cm x j i ∧ pmatrix_cm x i i = 0 ∧
      (i ≠ j → pmatrix_cm x i j = x i * x j / (1 + x i * x j)) := by
  simp only [pmatrix_eq]
  refine ⟨?_, by simp, fun h => by simp [h]⟩
  by_cases h : i = j
  · simp [h]
  · simp [h, Ne.symm h, mul_comm]

/-- C18 (cm): row sums of the probability matrix are the expected degrees. -/
theorem C18_pmatrix_cm_rowsum (x : Fin n → ℝ) (i : Fin n) :
    ∑ j, pmatrix_cm x i j = expected_degree_cm x i := by
  simp only [pmatrix_eq, expected_degree_eq]

example : ∀ i, 0 ≤ (fun i : Fin 3 => (i.val : ℝ)) i := by intro i; positivity

/-! ### C10: degree reduction -/

/-- C10 (cm): the likelihood of the degree-reduced problem at `r` is the likelihood of the full problem (every
node its own class) at the expanded vector `r[r_invert_dseq]`. -/
theorem C10_cm_reduction_likelihood {N : ℕ} (d : Fin N → ℕ) (r : Fin (rnz_n d) → ℝ) :
    loglikelihood_cm r (fun q => ((r_dseq d q : ℕ) : ℝ)) (fun q => (r_multiplicity d q : ℝ)) =
      loglikelihood_cm (fun i => r (r_invert_dseq d i)) (fun i => (d i : ℝ)) (fun _ => 1) := by
  rw [ll_eq, ll_eq]
  have h : ∀ i : Fin N, (1 * (d i : ℝ) * Real.log (r (r_invert_dseq d i)) + ∑ j, if i = j then
        -(1 * ((1 : ℝ) - 1) * Real.log (1 + r (r_invert_dseq d i) ^ 2) / 2)
      else -(1 * 1 * Real.log (1 + r (r_invert_dseq d i) * r (r_invert_dseq d j)) / 2))
      = (fun q => ((r_dseq d q : ℕ) : ℝ) * Real.log (r q) + ∑ p, if q = p then
        ((r_multiplicity d p : ℝ) - 1) * -(Real.log (1 + r q * r p) / 2)
        else (r_multiplicity d p : ℝ) * -(Real.log (1 + r q * r p) / 2)) (r_invert_dseq d i) := by
    intro i
    simp only [r_dseq_invert]
    rw [← sum_classes_ne d (fun p => -(Real.log (1 + r (r_invert_dseq d i) * r p) / 2)) i]
    simp
  rw [sum_congr rfl (fun i _ => h i)]
  refine Eq.trans ?_ (sum_classes d (fun q => ((r_dseq d q : ℕ) : ℝ) * Real.log (r q) + ∑ p, if q = p then
        ((r_multiplicity d p : ℝ) - 1) * -(Real.log (1 + r q * r p) / 2)
        else (r_multiplicity d p : ℝ) * -(Real.log (1 + r q * r p) / 2))).symm
  refine sum_congr rfl fun q _ => ?_
  rw [mul_add, mul_sum]
  congr 1
  · ring
  · refine sum_congr rfl fun p _ => ?_
    split
    · next h => subst h; rw [← pow_two]; ring
    · ring

/-- C10 (cm): the reduced gradient is the multiplicity times the gradient of the full problem. -/
theorem C10_cm_reduction_gradient {N : ℕ} (d : Fin N → ℕ) (r : Fin (rnz_n d) → ℝ) (i : Fin N) :
    loglikelihood_prime_cm r (fun q => ((r_dseq d q : ℕ) : ℝ)) (fun q => (r_multiplicity d q : ℝ)) (r_invert_dseq d i) =
      (r_multiplicity d (r_invert_dseq d i) : ℝ) *
        loglikelihood_prime_cm (fun i => r (r_invert_dseq d i)) (fun i => (d i : ℝ)) (fun _ => 1) i := by
  rw [prime_eq, prime_eq]
  have h := sum_classes_ne d (fun p => -(r p / (1 + r (r_invert_dseq d i) * r p))) i
  have h2 : (∑ j, if i = j then -(1 * ((1 : ℝ) - 1) * (r (r_invert_dseq d j) / (1 + r (r_invert_dseq d j) ^ 2)))
      else -(1 * 1 * (r (r_invert_dseq d j) / (1 + r (r_invert_dseq d i) * r (r_invert_dseq d j)))))
      = ∑ j, if i = j then 0 else (fun p => -(r p / (1 + r (r_invert_dseq d i) * r p))) (r_invert_dseq d j) := by
    refine sum_congr rfl fun j _ => ?_
    split <;> simp
  rw [h2, h, r_dseq_invert, mul_add, mul_sum]
  congr 1
  · ring
  · refine sum_congr rfl fun q _ => ?_
    split
    · next h => subst h; ring
    · ring

/-! ### C01: solutions reproduce the degrees -/

/-- gradient of the full problem in terms of the expected degree -/
theorem prime_full_eq {N : ℕ} (x d : Fin N → ℝ) (hx : ∀ i, x i ≠ 0) (i : Fin N) :
    x i * loglikelihood_prime_cm x d (fun _ => 1) i = d i - expected_degree_cm x i := by
  rw [prime_eq, expected_degree_eq, mul_add, mul_sum, sub_eq_add_neg (d i), ← sum_neg_distrib]
  congr 1
  · have := hx i; field_simp
  · refine sum_congr rfl fun j _ => ?_
    split
    · simp
    · ring

/-- C01 (cm): the gradient of the degree-reduced problem vanishes at a positive `r` **iff** the expanded solution
reproduces every degree. -/
theorem C01_cm_solution_iff {N : ℕ} (d : Fin N → ℕ) (r : Fin (rnz_n d) → ℝ) (hr : ∀ q, 0 < r q) :
    (∀ q, loglikelihood_prime_cm r (fun q => ((r_dseq d q : ℕ) : ℝ)) (fun q => (r_multiplicity d q : ℝ)) q = 0)
      ↔ ∀ i, expected_degree_cm (fun i => r (r_invert_dseq d i)) i = d i := by
  have h1 : ∀ i, loglikelihood_prime_cm r (fun q => ((r_dseq d q : ℕ) : ℝ)) (fun q => (r_multiplicity d q : ℝ))
      (r_invert_dseq d i) = 0 ↔ expected_degree_cm (fun i => r (r_invert_dseq d i)) i = d i := by
    intro i
    rw [C10_cm_reduction_gradient]
    have hm : (r_multiplicity d (r_invert_dseq d i) : ℝ) ≠ 0 := by
      exact_mod_cast (r_multiplicity_pos d _).ne'
    have := prime_full_eq (fun i => r (r_invert_dseq d i)) (fun i => (d i : ℝ)) (fun i => (hr _).ne') i
    rw [mul_eq_zero, or_iff_right hm]
    constructor
    · intro h; rw [h] at this; simp only [mul_zero] at this; linarith
    · intro h; rw [h] at this
      simp only [sub_self] at this
      exact (mul_eq_zero.1 this).resolve_left (hr _).ne'
  constructor
  · intro h i; exact (h1 i).1 (h _)
  · intro h q
    obtain ⟨i, rfl⟩ := r_invert_surjective d q
    exact (h1 i).2 (h i)

/-- three nodes of degree one: `x = 1` solves the UBCM -/
example : ∀ q, loglikelihood_prime_cm (fun _ => 1) (fun q => ((r_dseq (fun _ : Fin 3 => 1) q : ℕ) : ℝ))
    (fun q => (r_multiplicity (fun _ : Fin 3 => 1) q : ℝ)) q = 0 := by
  rw [C01_cm_solution_iff _ _ (fun _ => one_pos)]
  intro i
  rw [expected_degree_eq]
  fin_cases i <;> simp [Fin.sum_univ_three] <;> norm_num

/-- C01 (cm_exp): the same for the exponential parametrisation, for every real `θ`; the solution
stored is `x = exp(-θ[r_invert_dseq])` (graph_classes.py 355). -/
theorem C01_cm_exp_solution_iff {N : ℕ} (d : Fin N → ℕ) (θ : Fin (rnz_n d) → ℝ) :
    (∀ q, loglikelihood_prime_cm_exp θ (fun q => ((r_dseq d q : ℕ) : ℝ)) (fun q => (r_multiplicity d q : ℝ)) q = 0)
      ↔ ∀ i, expected_degree_cm (fun i => Real.exp (-θ (r_invert_dseq d i))) i = d i := by
  rw [← C01_cm_solution_iff d (fun q => Real.exp (-θ q)) (fun q => Real.exp_pos _)]
  refine forall_congr' fun q => ?_
  rw [C09_cm_gradients, mul_eq_zero, or_iff_right]
  exact neg_ne_zero.2 (Real.exp_pos _).ne'

/-! ### C12, C42: fixed-point map -/

/-- C12 (cm): a positive fixed point of `iterative_cm` solves the model: the gradient vanishes; and
conversely every solution with positive constraints is a fixed point. -/
theorem C12_cm_fixed_point_iff (x k c : Fin n → ℝ) (hx : ∀ i, 0 < x i) (hc : ∀ i, c i ≠ 0)
    (hk : ∀ i, k i ≠ 0) :
    (∀ i, iterative_cm x k c i = x i) ↔ ∀ i, loglikelihood_prime_cm x k c i = 0 := by
  refine forall_congr' fun i => ?_
  have hi := (hx i).ne'
  set S := ∑ j, if i = j then (c j - 1) * (x j / (1 + x j * x i)) else c j * (x j / (1 + x j * x i)) with hS
  have hp : loglikelihood_prime_cm x k c i = c i * (k i / x i - S) := by
    rw [prime_eq, hS, mul_sub, mul_sum, sub_eq_add_neg, ← sum_neg_distrib]
    congr 1
    · ring
    · refine sum_congr rfl fun j _ => ?_
      split
      · next h => subst h; rw [← pow_two]; ring
      · rw [mul_comm (x j) (x i)]; ring
  rw [hp, mul_eq_zero, or_iff_right (hc i), iterative_eq, ← hS, sub_eq_zero]
  by_cases h0 : S = 0
  · simp only [h0, ne_eq, not_true_eq_false, if_false]
    constructor
    · intro h; exact absurd h.symm hi
    · intro h; exact absurd (div_eq_zero_iff.1 h) (by simp [hk i, hi])
  · simp only [ne_eq, h0, not_false_eq_true, if_true]
    rw [div_eq_iff h0, div_eq_iff hi]
    constructor <;> intro h <;> linarith

example : (∀ i, 0 < (fun _ : Fin 3 => (1 : ℝ)) i) ∧ (∀ i, (fun _ : Fin 3 => (1 : ℝ)) i ≠ 0) ∧
    ∀ i, iterative_cm (fun _ : Fin 3 => 1) (fun _ => 1) (fun _ => 1) i = (fun _ : Fin 3 => (1 : ℝ)) i := by
  refine ⟨fun _ => one_pos, fun _ => one_ne_zero, fun i => ?_⟩
  rw [iterative_eq]
  fin_cases i <;> simp [Fin.sum_univ_three] <;> norm_num

/-- C12 (cm_exp): a fixed point of `iterative_cm_exp` solves the model, for positive constraints and
multiplicities `≥ 1` on a network with at least two nodes (`c_j > 1` or a second class). -/
theorem C12_cm_exp_fixed_point_iff (θ k c : Fin n → ℝ) (hc : ∀ i, 1 ≤ c i)
    (hk : ∀ i, 0 < k i) (hn : ∀ i, 1 < c i ∨ ∃ j, j ≠ i) :
    (∀ i, iterative_cm_exp θ k c i = θ i) ↔ ∀ i, loglikelihood_prime_cm_exp θ k c i = 0 := by
  refine forall_congr' fun i => ?_
  have hi := Real.exp_pos (-θ i)
  set S := ∑ j, if i = j then (c j - 1) * (Real.exp (-θ j) / (1 + Real.exp (-θ j) * Real.exp (-θ i)))
    else c j * (Real.exp (-θ j) / (1 + Real.exp (-θ j) * Real.exp (-θ i))) with hS
  have hSpos : 0 < S := by
    have hnn : ∀ j ∈ univ, 0 ≤ (if i = j then (c j - 1) * (Real.exp (-θ j) / (1 + Real.exp (-θ j) * Real.exp (-θ i)))
    else c j * (Real.exp (-θ j) / (1 + Real.exp (-θ j) * Real.exp (-θ i)))) := by
      intro j _
      have h2 := hc j
      have h3 : 0 ≤ c j - 1 := by linarith
      have h5 : 0 ≤ c j := by linarith
      split <;> positivity
    rcases hn i with h | ⟨j, hj⟩
    · refine sum_pos' hnn ⟨i, mem_univ i, ?_⟩
      have h3 : 0 < c i - 1 := by linarith
      simp only [if_true]; positivity
    · refine sum_pos' hnn ⟨j, mem_univ j, ?_⟩
      have h3 : 0 < c j := by have := hc j; linarith
      simp only [hj.symm, if_false]; positivity
  have hp : loglikelihood_prime_cm_exp θ k c i = c i * (Real.exp (-θ i) * S - k i) := by
    rw [prime_exp_eq, hS, add_comm, mul_sum, mul_sub (c i) (∑ _, _), mul_sum, sub_eq_add_neg (∑ _, _)]
    congr 1
    · refine sum_congr rfl fun j _ => ?_
      split
      · next h => subst h; rw [← pow_two]; ring
      · rw [mul_comm (Real.exp (-θ j)) (Real.exp (-θ i))]; ring
  have hci : c i ≠ 0 := by have := hc i; intro h; linarith
  rw [hp, mul_eq_zero, or_iff_right hci, iterative_exp_eq, ← hS, sub_eq_zero, if_pos hSpos.ne']
  have hq : 0 < k i / S := div_pos (hk i) hSpos
  constructor
  · intro h
    have : Real.exp (-θ i) = k i / S := by rw [← h, neg_neg, Real.exp_log hq]
    rw [this]; field_simp
  · intro h
    have : k i / S = Real.exp (-θ i) := by rw [← h]; field_simp
    rw [this, Real.log_exp, neg_neg]

example : (∀ i, 1 ≤ (fun _ : Fin 3 => (1 : ℝ)) i) ∧ (∀ i : Fin 3, (1 : ℝ) < (fun _ => (1:ℝ)) i ∨ ∃ j, j ≠ i) := by
  refine ⟨fun _ => le_refl _, fun i => Or.inr ?_⟩
  fin_cases i
  exacts [⟨1, by decide⟩, ⟨0, by decide⟩, ⟨0, by decide⟩]

/-- C42 (cm): on non-negative parameters the fixed-point map returns non-negative values, and a node with zero
degree gets exactly zero. -/
theorem C42_cm_iterative_nonneg (x k c : Fin n → ℝ) (hx : ∀ i, 0 ≤ x i) (hc : ∀ i, 1 ≤ c i)
    (hk : ∀ i, 0 ≤ k i) (i : Fin n) :
    0 ≤ iterative_cm x k c i ∧ (k i = 0 → iterative_cm x k c i = 0) := by
  rw [iterative_eq]
  refine ⟨?_, fun h => by simp [h]⟩
  split
  · refine div_nonneg (hk i) (sum_nonneg fun j _ => ?_)
    have h1 := hx i; have h2 := hx j; have h3 := hc j
    have h4 : 0 ≤ c j - 1 := by linarith
    have h5 : 0 ≤ c j := by linarith
    split <;> positivity
  · exact le_refl _

/-- C42 (cm): with at least one other node of positive parameter, the image of a node with positive degree is positive
(the iteration never divides by zero and stays in the domain). -/
theorem C42_cm_iterative_pos (x k c : Fin n → ℝ) (hx : ∀ i, 0 ≤ x i) (hc : ∀ i, 1 ≤ c i)
    (i j : Fin n) (hij : i ≠ j) (hj : 0 < x j) (hk : 0 < k i) :
    0 < iterative_cm x k c i := by
  rw [iterative_eq]
  have hpos : 0 < ∑ j, if i = j then (c j - 1) * (x j / (1 + x j * x i)) else c j * (x j / (1 + x j * x i)) := by
    refine sum_pos' (fun j _ => ?_) ⟨j, mem_univ j, ?_⟩
    · have h1 := hx i; have h2 := hx j; have h3 := hc j
      have h4 : 0 ≤ c j - 1 := by linarith
      have h5 : 0 ≤ c j := by linarith
      split <;> positivity
    · have h3 := hc j
      have h5 : 0 < c j := by linarith
      have h1 := hx i
      simp only [hij, if_false]; positivity
  rw [if_pos hpos.ne']
  exact div_pos hk hpos

example : 0 < iterative_cm (fun i : Fin 2 => (i.val : ℝ)) (fun _ => 1) (fun _ => 1) 0 :=
  C42_cm_iterative_pos _ _ _ (fun i => by positivity) (fun _ => le_refl _) 0 1 (by decide) (by norm_num) one_pos

/-- C41 (cm): a node with parameter zero has link probability zero with everybody and expected degree zero. -/
theorem C41_cm_zero_node (x : Fin n → ℝ) (i : Fin n) (h : x i = 0) :
    (∀ j, pmatrix_cm x i j = 0 ∧ pmatrix_cm x j i = 0) ∧ expected_degree_cm x i = 0 := by
  constructor
  · intro j; simp [pmatrix_eq, h]
  · simp [expected_degree_eq, h]

end Verif.CM
