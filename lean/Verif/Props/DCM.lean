import Verif.Lemmas.DCM
import Verif.Lemmas.Reduction
import Mathlib.Data.Prod.Lex
import Mathlib.Tactic.FieldSimp
import Mathlib.Tactic.Positivity
import Mathlib.Tactic.NormNum
import Mathlib.Tactic.FinCases

/-!
Property theorems about the DBCM (`dcm`, `dcm_exp`).

`no`, `ni` are the lists of positions with non-zero out-degree and in-degree (`nz_index_out`, `nz_index_in`); the theorems about
single functions hold for every list without repetitions.
-/

namespace Verif.DCM
open Verif Finset Function Reduction
variable {n : ℕ}

/-! ### C06 -/

/-- C06 (dcm): every component of `loglikelihood_prime_dcm` is the partial derivative of `loglikelihood_dcm`, at every
point whose entries at the non-zero-degree positions are positive. -/
theorem C06_dcm_gradient (x : Vec n) (ko ki : Fin n → ℝ) (no ni : List (Fin n)) (c : Fin n → ℝ)
    (hno : no.Nodup) (hni : ni.Nodup) (hxo : ∀ i ∈ no, 0 < x (0, i)) (hxi : ∀ j ∈ ni, 0 < x (1, j))
    (v : Fin 2 × Fin n) :
    HasDerivAt (fun t => loglikelihood_dcm (update x v t) ko ki no ni c)
      (loglikelihood_prime_dcm x ko ki no ni c v) (x v) := by
  simp only [ll_eq _ _ _ _ _ _ hno hni]
  obtain ⟨b, m⟩ := v
  match b with
  | 0 =>
    rw [prime_eq0 _ _ _ _ _ _ hni]
    simp only [update_block, if_true, one_ne_zero, if_false]
    refine HasDerivAt.add_const _ ?_
    have := hasDerivAt_sum_single no.toFinset m
      (fun a t => c a * ko a * Real.log (if a = m then t else x (0, a)) +
        ∑ j ∈ ni.toFinset, -(w c a j * Real.log (1 + (if a = m then t else x (0, a)) * x (1, j))))
      (-(∑ j ∈ ni.toFinset, w c m j * x (1, j) / (1 + x (0, m) * x (1, j))) + c m * ko m / x (0, m)) (x (0, m))
      (fun a _ ha r r' => by simp [ha]) ?_
    · simpa using this
    · intro hm
      have hpos := hxo m (by simpa using hm)
      simp only [if_true]
      rw [add_comm (-_), ← sum_neg_distrib]
      refine HasDerivAt.add ?_ (HasDerivAt.fun_sum fun j hj => ?_)
      · refine ((Real.hasDerivAt_log hpos.ne').const_mul _).congr_deriv ?_
        rw [div_eq_mul_inv]
      · have hj' := hxi j (by simpa using hj)
        have p : (1 + x (0, m) * x (1, j)) ≠ 0 := by positivity
        have h1 : HasDerivAt (fun t : ℝ => 1 + t * x (1, j)) (x (1, j)) (x (0, m)) := hd_aff 1 _ (fun t => by ring) _
        refine ((h1.log p).const_mul (w c m j)).fun_neg.congr_deriv ?_
        ring
  | 1 =>
    rw [prime_eq1 _ _ _ _ _ _ hno]
    simp only [update_block, if_true, zero_ne_one, if_false]
    have h1 : ∀ a ∈ no.toFinset, HasDerivAt (fun t => c a * ko a * Real.log (x (0, a)) +
        ∑ j ∈ ni.toFinset, -(w c a j * Real.log (1 + x (0, a) * (if j = m then t else x (1, j)))))
        (if m ∈ ni.toFinset then -(w c a m * x (0, a) / (1 + x (1, m) * x (0, a))) else 0) (x (1, m)) := by
      intro a ha
      refine HasDerivAt.const_add _ (hasDerivAt_sum_single _ m
        (fun j t => -(w c a j * Real.log (1 + x (0, a) * (if j = m then t else x (1, j))))) _ _
        (fun j _ hj r r' => by simp [hj]) ?_)
      intro hm
      have hm' := hxi m (by simpa using hm)
      have ha' := hxo a (by simpa using ha)
      simp only [if_true]
      have p : (1 + x (0, a) * x (1, m)) ≠ 0 := by positivity
      have h1 : HasDerivAt (fun t : ℝ => 1 + x (0, a) * t) (x (0, a)) (x (1, m)) := hd_aff 1 _ (fun t => by ring) _
      refine ((h1.log p).const_mul (w c a m)).fun_neg.congr_deriv ?_
      rw [mul_comm (x (1, m))]; ring
    have h2 := hasDerivAt_sum_single ni.toFinset m
        (fun j t => c j * ki j * Real.log (if j = m then t else x (1, j))) (c m * ki m / x (1, m)) (x (1, m))
        (fun j _ hj r r' => by simp [hj]) (by
          intro hm
          have hm' := hxi m (by simpa using hm)
          simp only [if_true]
          refine ((Real.hasDerivAt_log hm'.ne').const_mul _).congr_deriv ?_
          rw [div_eq_mul_inv])
    refine ((HasDerivAt.fun_sum h1).add h2).congr_deriv ?_
    by_cases hm : m ∈ ni
    · simp [hm]
    · simp [hm]

example : ∃ (x : Vec 3) (no ni : List (Fin 3)), no.Nodup ∧ ni.Nodup ∧ (∀ i ∈ no, 0 < x (0, i)) ∧ (∀ j ∈ ni, 0 < x (1, j)) ∧
    no ≠ [] ∧ ni ≠ [] ∧ x (0, 2) = 0 := by
  refine ⟨fun v => if v = (0, 2) then 0 else 1, [0, 1], [1, 2], by decide, by decide, ?_, ?_, by simp, by simp, by simp⟩
  · intro i hi; simp only [List.mem_cons, List.not_mem_nil, or_false] at hi
    rcases hi with rfl | rfl <;> simp
  · intro i hi; simp

/-- C06 (dcm_exp): the same in the exponential parametrisation, at every point. -/
theorem C06_dcm_exp_gradient (x : Vec n) (ko ki : Fin n → ℝ) (no ni : List (Fin n)) (c : Fin n → ℝ)
    (hno : no.Nodup) (hni : ni.Nodup) (v : Fin 2 × Fin n) :
    HasDerivAt (fun t => loglikelihood_dcm_exp (update x v t) ko ki no ni c)
      (loglikelihood_prime_dcm_exp x ko ki no ni c v) (x v) := by
  simp only [ll_exp_eq _ _ _ _ _ _ hno hni]
  obtain ⟨b, m⟩ := v
  have key : ∀ a t : ℝ, HasDerivAt (fun t : ℝ => Real.log (1 + Real.exp (-t - a)))
      (-(Real.exp (-t) * (Real.exp (-a) / (1 + Real.exp (-t) * Real.exp (-a))))) t := by
    intro a t
    have h0 : HasDerivAt (fun t : ℝ => -t - a) (-1) t := hd_aff (-a) (-1) (fun t => by ring) t
    have h1 := (h0.exp).const_add 1
    have p : 1 + Real.exp (-t - a) ≠ 0 := by positivity
    refine (h1.log p).congr_deriv ?_
    rw [show -t - a = -t + -a by ring, Real.exp_add]
    ring
  match b with
  | 0 =>
    rw [prime_exp_eq0 _ _ _ _ _ _ hni]
    simp only [update_block, if_true, one_ne_zero, if_false]
    refine HasDerivAt.add_const _ ?_
    have := hasDerivAt_sum_single no.toFinset m
      (fun a t => -(c a * ko a * (if a = m then t else x (0, a))) +
        ∑ j ∈ ni.toFinset, -(w c a j * Real.log (1 + Real.exp (-(if a = m then t else x (0, a)) - x (1, j)))))
      (Real.exp (-x (0, m)) * (∑ j ∈ ni.toFinset, w c m j * Real.exp (-x (1, j)) / (1 + Real.exp (-x (0, m)) * Real.exp (-x (1, j))))
        - c m * ko m) (x (0, m))
      (fun a _ ha r r' => by simp [ha]) ?_
    · simpa using this
    · intro hm
      simp only [if_true]
      rw [sub_eq_add_neg, add_comm, mul_sum]
      refine HasDerivAt.add ?_ (HasDerivAt.fun_sum fun j hj => ?_)
      · exact hd_aff 0 _ (fun t => by ring) _
      · refine ((key (x (1, j)) (x (0, m))).const_mul (w c m j)).fun_neg.congr_deriv ?_
        ring
  | 1 =>
    rw [prime_exp_eq1 _ _ _ _ _ _ hno]
    simp only [update_block, if_true, zero_ne_one, if_false]
    have h1 : ∀ a ∈ no.toFinset, HasDerivAt (fun t => -(c a * ko a * x (0, a)) +
        ∑ j ∈ ni.toFinset, -(w c a j * Real.log (1 + Real.exp (-x (0, a) - (if j = m then t else x (1, j))))))
        (if m ∈ ni.toFinset then w c a m * Real.exp (-x (0, a)) / (1 + Real.exp (-x (1, m)) * Real.exp (-x (0, a))) * Real.exp (-x (1, m))
          else 0) (x (1, m)) := by
      intro a ha
      refine HasDerivAt.const_add _ (hasDerivAt_sum_single _ m
        (fun j t => -(w c a j * Real.log (1 + Real.exp (-x (0, a) - (if j = m then t else x (1, j)))))) _ _
        (fun j _ hj r r' => by simp [hj]) ?_)
      intro hm
      simp only [if_true]
      have h := ((key (x (0, a)) (x (1, m))).const_mul (w c a m)).fun_neg
      simp only [show ∀ t : ℝ, -x (0, a) - t = -t - x (0, a) from fun t => by ring]
      refine h.congr_deriv ?_
      ring
    have h2 := hasDerivAt_sum_single ni.toFinset m
        (fun j t => -(c j * ki j * (if j = m then t else x (1, j)))) (-(c m * ki m)) (x (1, m))
        (fun j _ hj r r' => by simp [hj]) (by
          intro hm
          simp only [if_true]
          exact hd_aff 0 _ (fun t => by ring) _)
    refine ((HasDerivAt.fun_sum h1).add h2).congr_deriv ?_
    by_cases hm : m ∈ ni
    · simp [hm, sum_mul, sub_eq_add_neg]
    · simp [hm]

/-! ### C07, C08 -/

/-- C07 (dcm): `loglikelihood_hessian_dcm` is the Jacobian of the gradient. -/
theorem C07_dcm_hessian (x : Vec n) (ko ki : Fin n → ℝ) (no ni : List (Fin n)) (c : Fin n → ℝ)
    (hno : no.Nodup) (hni : ni.Nodup) (hxo : ∀ i ∈ no, 0 < x (0, i)) (hxi : ∀ j ∈ ni, 0 < x (1, j))
    (u v : Fin 2 × Fin n) :
    HasDerivAt (fun t => loglikelihood_prime_dcm (update x v t) ko ki no ni c u)
      (loglikelihood_hessian_dcm x ko ki no ni c u v) (x v) := by
  obtain ⟨b, a⟩ := u
  obtain ⟨b', m⟩ := v
  match b, b' with
  | 0, 0 =>
    simp only [prime_eq0 _ _ _ _ _ _ hni, hess_eq00 _ _ _ _ _ _ hni, update_block, if_true, one_ne_zero, if_false]
    by_cases ha : a ∈ no
    · by_cases ham : a = m
      · subst ham
        have hpos := hxo a ha
        simp only [ha, if_true, true_and]
        rw [add_comm (-c a * ko a / _)]
        refine HasDerivAt.add ?_ ?_
        · simp only [← sum_neg_distrib]
          rw [show ∑ j ∈ ni.toFinset, w c a j * (x (1, j) / (1 + x (0, a) * x (1, j))) ^ 2 =
            ∑ j ∈ ni.toFinset, - (- (w c a j * (x (1, j) / (1 + x (0, a) * x (1, j))) ^ 2)) by simp]
          refine HasDerivAt.fun_sum fun j hj => ?_
          have hj' := hxi j (by simpa using hj)
          have p : (1 + x (0, a) * x (1, j)) ≠ 0 := by positivity
          have h1 : HasDerivAt (fun t : ℝ => 1 + t * x (1, j)) (x (1, j)) (x (0, a)) := hd_aff 1 _ (fun t => by ring) _
          refine HasDerivAt.fun_neg (hd_div (hasDerivAt_const _ _) h1 p ?_)
          field_simp; ring
        · refine hd_div (hasDerivAt_const _ _) (hasDerivAt_id _) hpos.ne' ?_
          simp
      · simp only [ha, ham, if_true, if_false, and_false]
        exact hasDerivAt_const _ _
    · simp only [ha, if_false, false_and]
      exact hasDerivAt_const _ _
  | 0, 1 =>
    simp only [prime_eq0 _ _ _ _ _ _ hni, hess_eq01, update_block, if_true, zero_ne_one, if_false]
    by_cases ha : a ∈ no
    · have hpos := hxo a ha
      simp only [ha, if_true, true_and]
      refine HasDerivAt.add_const _ ?_
      have := (hasDerivAt_sum_single ni.toFinset m
        (fun j t => w c a j * (if j = m then t else x (1, j)) / (1 + x (0, a) * (if j = m then t else x (1, j))))
        (w c a m / (1 + x (1, m) * x (0, a)) ^ 2) (x (1, m)) (fun j _ hj r r' => by simp [hj]) ?_).fun_neg
      · refine this.congr_deriv ?_
        by_cases hm : m ∈ ni <;> simp [hm, neg_div]
      · intro hm
        have hm' := hxi m (by simpa using hm)
        simp only [if_true]
        have p : (1 + x (0, a) * x (1, m)) ≠ 0 := by positivity
        refine hd_div (hd_aff 0 (w c a m) (fun t => by ring) _) (hd_aff 1 (x (0, a)) (fun t => by ring) _) p ?_
        rw [mul_comm (x (1, m))]
        congr 1; ring
    · simp only [ha, if_false, false_and]
      exact hasDerivAt_const _ _
  | 1, 0 =>
    simp only [prime_eq1 _ _ _ _ _ _ hno, hess_eq10, update_block, if_true, one_ne_zero, if_false]
    by_cases ha : a ∈ ni
    · have hpos := hxi a ha
      simp only [ha, if_true, true_and]
      refine HasDerivAt.add_const _ ?_
      have := (hasDerivAt_sum_single no.toFinset m
        (fun j t => w c j a * (if j = m then t else x (0, j)) / (1 + x (1, a) * (if j = m then t else x (0, j))))
        (w c m a / (1 + x (1, a) * x (0, m)) ^ 2) (x (0, m)) (fun j _ hj r r' => by simp [hj]) ?_).fun_neg
      · refine this.congr_deriv ?_
        by_cases hm : m ∈ no <;> simp [hm, neg_div]
      · intro hm
        have hm' := hxo m (by simpa using hm)
        simp only [if_true]
        have p : (1 + x (1, a) * x (0, m)) ≠ 0 := by positivity
        refine hd_div (hd_aff 0 (w c m a) (fun t => by ring) _) (hd_aff 1 (x (1, a)) (fun t => by ring) _) p ?_
        congr 1; ring
    · simp only [ha, if_false, false_and]
      exact hasDerivAt_const _ _
  | 1, 1 =>
    simp only [prime_eq1 _ _ _ _ _ _ hno, hess_eq11 _ _ _ _ _ _ hno, update_block, if_true, zero_ne_one, if_false]
    by_cases ha : a ∈ ni
    · by_cases ham : a = m
      · subst ham
        have hpos := hxi a ha
        simp only [ha, if_true, true_and]
        rw [add_comm (-c a * ki a / _)]
        refine HasDerivAt.add ?_ ?_
        · simp only [← sum_neg_distrib]
          rw [show ∑ j ∈ no.toFinset, w c j a * (x (0, j)) ^ 2 / (1 + x (1, a) * x (0, j)) ^ 2 =
            ∑ j ∈ no.toFinset, - (- (w c j a * (x (0, j)) ^ 2 / (1 + x (1, a) * x (0, j)) ^ 2)) by simp]
          refine HasDerivAt.fun_sum fun j hj => ?_
          have hj' := hxo j (by simpa using hj)
          have p : (1 + x (1, a) * x (0, j)) ≠ 0 := by positivity
          have h1 : HasDerivAt (fun t : ℝ => 1 + t * x (0, j)) (x (0, j)) (x (1, a)) := hd_aff 1 _ (fun t => by ring) _
          refine HasDerivAt.fun_neg (hd_div (hasDerivAt_const _ _) h1 p ?_)
          field_simp; ring
        · refine hd_div (hasDerivAt_const _ _) (hasDerivAt_id _) hpos.ne' ?_
          simp; ring
      · simp only [ha, ham, if_true, if_false, and_false]
        exact hasDerivAt_const _ _
    · simp only [ha, if_false, false_and]
      exact hasDerivAt_const _ _

/-- derivative of the logistic link probability -/
private theorem hd_logistic (a t : ℝ) (ha : 0 < a) :
    HasDerivAt (fun t : ℝ => a * Real.exp (-t) / (1 + a * Real.exp (-t)))
      (-(a * Real.exp (-t) / (1 + a * Real.exp (-t)) ^ 2)) t := by
  have h1 := (hd_exp_neg t).const_mul a
  have h2 := h1.const_add 1
  have p : 1 + a * Real.exp (-t) ≠ 0 := by positivity
  refine (h1.fun_div h2 p).congr_deriv ?_
  field_simp
  ring

/-- C07 (dcm_exp): `loglikelihood_hessian_dcm_exp` is the Jacobian of the gradient, everywhere. -/
theorem C07_dcm_exp_hessian (x : Vec n) (ko ki : Fin n → ℝ) (no ni : List (Fin n)) (c : Fin n → ℝ)
    (hno : no.Nodup) (hni : ni.Nodup) (u v : Fin 2 × Fin n) :
    HasDerivAt (fun t => loglikelihood_prime_dcm_exp (update x v t) ko ki no ni c u)
      (loglikelihood_hessian_dcm_exp x ko ki no ni c u v) (x v) := by
  obtain ⟨b, a⟩ := u
  obtain ⟨b', m⟩ := v
  have e0 : ∀ (i j : Fin n) (s t : ℝ), Real.exp (-s) * (w c i j * Real.exp (-t) / (1 + Real.exp (-s) * Real.exp (-t)))
      = w c i j * (Real.exp (-t) * Real.exp (-s) / (1 + Real.exp (-t) * Real.exp (-s))) := by
    intro i j s t; rw [mul_comm (Real.exp (-t))]; ring
  have e1 : ∀ (i j : Fin n) (s t : ℝ), (w c i j * Real.exp (-s) / (1 + Real.exp (-t) * Real.exp (-s))) * Real.exp (-t)
      = w c i j * (Real.exp (-s) * Real.exp (-t) / (1 + Real.exp (-s) * Real.exp (-t))) := by
    intro i j s t; rw [mul_comm (Real.exp (-t))]; ring
  match b, b' with
  | 0, 0 =>
    simp only [prime_exp_eq0 _ _ _ _ _ _ hni, (hess_exp_eq _ _ _ _ _ _ hno hni _ _).1, update_block, if_true, one_ne_zero, if_false]
    by_cases ha : a ∈ no
    · by_cases ham : a = m
      · subst ham
        simp only [ha, if_true, true_and, mul_sum, e0, ← sum_neg_distrib]
        refine HasDerivAt.sub_const _ (HasDerivAt.fun_sum fun j _ => ?_)
        refine ((hd_logistic (Real.exp (-x (1, j))) (x (0, a)) (Real.exp_pos _)).const_mul (w c a j)).congr_deriv ?_
        ring
      · simp only [ha, ham, if_true, if_false, and_false]
        exact hasDerivAt_const _ _
    · simp only [ha, if_false, false_and]
      exact hasDerivAt_const _ _
  | 0, 1 =>
    simp only [prime_exp_eq0 _ _ _ _ _ _ hni, (hess_exp_eq _ _ _ _ _ _ hno hni _ _).2.1, update_block, if_true, zero_ne_one, if_false]
    by_cases ha : a ∈ no
    · simp only [ha, if_true, true_and, mul_sum, e0]
      refine HasDerivAt.sub_const _ ?_
      have := hasDerivAt_sum_single ni.toFinset m
        (fun j t => w c a j * (Real.exp (-(if j = m then t else x (1, j))) * Real.exp (-x (0, a)) /
          (1 + Real.exp (-(if j = m then t else x (1, j))) * Real.exp (-x (0, a)))))
        (-w c a m * (Real.exp (-x (1, m)) * Real.exp (-x (0, a))) / (1 + Real.exp (-x (1, m)) * Real.exp (-x (0, a))) ^ 2)
        (x (1, m)) (fun j _ hj r r' => by simp [hj]) ?_
      · simpa using this
      · intro _
        simp only [if_true]
        have h := (hd_logistic (Real.exp (-x (0, a))) (x (1, m)) (Real.exp_pos _)).const_mul (w c a m)
        simp only [mul_comm (Real.exp (-x (0, a)))] at h
        refine h.congr_deriv ?_
        ring
    · simp only [ha, if_false, false_and]
      exact hasDerivAt_const _ _
  | 1, 0 =>
    simp only [prime_exp_eq1 _ _ _ _ _ _ hno, (hess_exp_eq _ _ _ _ _ _ hno hni _ _).2.2.2, update_block, if_true, one_ne_zero, if_false]
    by_cases ha : a ∈ ni
    · simp only [ha, if_true, true_and, sum_mul, e1]
      refine HasDerivAt.sub_const _ ?_
      have := hasDerivAt_sum_single no.toFinset m
        (fun j t => w c j a * (Real.exp (-(if j = m then t else x (0, j))) * Real.exp (-x (1, a)) /
          (1 + Real.exp (-(if j = m then t else x (0, j))) * Real.exp (-x (1, a)))))
        (-w c m a * (Real.exp (-x (0, m)) * Real.exp (-x (1, a))) / (1 + Real.exp (-x (0, m)) * Real.exp (-x (1, a))) ^ 2)
        (x (0, m)) (fun j _ hj r r' => by simp [hj]) ?_
      · simpa using this
      · intro _
        simp only [if_true]
        have h := (hd_logistic (Real.exp (-x (1, a))) (x (0, m)) (Real.exp_pos _)).const_mul (w c m a)
        simp only [mul_comm (Real.exp (-x (1, a)))] at h
        refine h.congr_deriv ?_
        ring
    · simp only [ha, if_false, false_and]
      exact hasDerivAt_const _ _
  | 1, 1 =>
    simp only [prime_exp_eq1 _ _ _ _ _ _ hno, (hess_exp_eq _ _ _ _ _ _ hno hni _ _).2.2.1, update_block, if_true, zero_ne_one, if_false]
    by_cases ha : a ∈ ni
    · by_cases ham : a = m
      · subst ham
        simp only [ha, if_true, true_and, sum_mul, e1, ← sum_neg_distrib]
        refine HasDerivAt.sub_const _ (HasDerivAt.fun_sum fun j _ => ?_)
        refine ((hd_logistic (Real.exp (-x (0, j))) (x (1, a)) (Real.exp_pos _)).const_mul (w c j a)).congr_deriv ?_
        ring
      · simp only [ha, ham, if_true, if_false, and_false]
        exact hasDerivAt_const _ _
    · simp only [ha, if_false, false_and]
      exact hasDerivAt_const _ _

/-- C08 (dcm_exp): the diagonal used by quasi-Newton is the diagonal of the Hessian, i.e. the second derivative. -/
theorem C08_dcm_exp_hessian_diag (x : Vec n) (ko ki : Fin n → ℝ) (no ni : List (Fin n)) (c : Fin n → ℝ)
    (hno : no.Nodup) (hni : ni.Nodup) (v : Fin 2 × Fin n) :
    HasDerivAt (fun t => loglikelihood_prime_dcm_exp (update x v t) ko ki no ni c v)
      (loglikelihood_hessian_diag_dcm_exp x ko ki no ni c v) (x v) := by
  refine (C07_dcm_exp_hessian x ko ki no ni c hno hni v v).congr_deriv ?_
  obtain ⟨b, a⟩ := v
  match b with
  | 0 => rw [hess_diag_exp_eq0 _ _ _ _ _ _ hni, (hess_exp_eq _ _ _ _ _ _ hno hni _ _).1]; simp
  | 1 => rw [hess_diag_exp_eq1 _ _ _ _ _ _ hno, (hess_exp_eq _ _ _ _ _ _ hno hni _ _).2.2.1]; simp

/-- the diagonal used by quasi-Newton times the multiplicity is the diagonal of the Hessian -/
theorem hess_diag_mul (x : Vec n) (ko ki : Fin n → ℝ) (no ni : List (Fin n)) (c : Fin n → ℝ)
    (hno : no.Nodup) (hni : ni.Nodup) (v : Fin 2 × Fin n) :
    loglikelihood_hessian_dcm x ko ki no ni c v v = c v.2 * loglikelihood_hessian_diag_dcm x ko ki no ni c v := by
  obtain ⟨b, a⟩ := v
  match b with
  | 0 =>
    rw [hess_diag_eq0 _ _ _ _ _ _ hni, hess_eq00 _ _ _ _ _ _ hni]
    by_cases ha : a ∈ no
    · simp only [ha, if_true, and_self]
      rw [mul_sub, mul_sum, add_comm, sub_eq_add_neg]
      congr 1
      · refine sum_congr rfl fun j _ => ?_
        unfold w
        by_cases h : a = j
        · subst h; simp only [if_true, ne_eq, not_true_eq_false, if_false]; generalize 1 + x (0, a) * x (1, a) = D; ring
        · simp only [h, if_false, ne_eq, not_false_eq_true, if_true]; generalize 1 + x (0, a) * x (1, j) = D; ring
      · rw [pow_two]; ring
    · simp [ha]
  | 1 =>
    rw [hess_diag_eq1 _ _ _ _ _ _ hno, hess_eq11 _ _ _ _ _ _ hno]
    by_cases ha : a ∈ ni
    · simp only [ha, if_true, and_self]
      rw [mul_sub, mul_sum, add_comm, sub_eq_add_neg]
      congr 1
      · refine sum_congr rfl fun j _ => ?_
        unfold w
        by_cases h : j = a
        · subst h; simp; ring
        · simp [h]; ring
      · ring
    · simp [ha]

/-- C08 (dcm): `loglikelihood_hessian_diag_dcm[v]` is the second derivative in `x_v` **iff** the multiplicity of the class is one
(or the value is zero): the code drops the factor `c`. -/
theorem C08_dcm_hessian_diag_iff (x : Vec n) (ko ki : Fin n → ℝ) (no ni : List (Fin n)) (c : Fin n → ℝ)
    (hno : no.Nodup) (hni : ni.Nodup) (hxo : ∀ i ∈ no, 0 < x (0, i)) (hxi : ∀ j ∈ ni, 0 < x (1, j))
    (v : Fin 2 × Fin n) :
    HasDerivAt (fun t => loglikelihood_prime_dcm (update x v t) ko ki no ni c v)
      (loglikelihood_hessian_diag_dcm x ko ki no ni c v) (x v) ↔
      c v.2 = 1 ∨ loglikelihood_hessian_diag_dcm x ko ki no ni c v = 0 := by
  have ht := C07_dcm_hessian x ko ki no ni c hno hni hxo hxi v v
  rw [hess_diag_mul _ _ _ _ _ _ hno hni] at ht
  constructor
  · intro h
    have := h.unique ht
    have h2 : (c v.2 - 1) * loglikelihood_hessian_diag_dcm x ko ki no ni c v = 0 := by linarith
    rcases mul_eq_zero.1 h2 with h3 | h3
    · left; linarith
    · right; exact h3
  · intro h
    refine ht.congr_deriv ?_
    rcases h with h | h <;> rw [h] <;> ring

/-- C08 is false for dcm: one class of two nodes with `k_out = k_in = 1`, at `x = 1`. -/
theorem C08_dcm_hessian_diag_wrong :
    ¬ HasDerivAt (fun t => loglikelihood_prime_dcm (update (fun _ => 1) (0, 0) t) (fun _ : Fin 1 => 1) (fun _ => 1) [0] [0] (fun _ => 2) (0, 0))
      (loglikelihood_hessian_diag_dcm (fun _ => 1) (fun _ : Fin 1 => 1) (fun _ => 1) [0] [0] (fun _ => 2) (0, 0)) 1 := by
  have h := C08_dcm_hessian_diag_iff (fun _ => 1) (fun _ : Fin 1 => 1) (fun _ => 1) [0] [0] (fun _ => 2) (by simp) (by simp)
    (fun _ _ => one_pos) (fun _ _ => one_pos) (0, 0)
  refine (not_congr h).2 ?_
  rw [hess_diag_eq0 _ _ _ _ _ _ (by simp)]
  norm_num

/-- C08_partial (dcm): with all multiplicities one the diagonal is right. Missing: classes with several nodes, where it is false. -/
theorem C08_dcm_hessian_diag_partial (x : Vec n) (ko ki : Fin n → ℝ) (no ni : List (Fin n)) (c : Fin n → ℝ) (hc : ∀ i, c i = 1)
    (hno : no.Nodup) (hni : ni.Nodup) (hxo : ∀ i ∈ no, 0 < x (0, i)) (hxi : ∀ j ∈ ni, 0 < x (1, j))
    (v : Fin 2 × Fin n) :
    HasDerivAt (fun t => loglikelihood_prime_dcm (update x v t) ko ki no ni c v)
      (loglikelihood_hessian_diag_dcm x ko ki no ni c v) (x v) :=
  (C08_dcm_hessian_diag_iff x ko ki no ni c hno hni hxo hxi v).2 (Or.inl (hc _))

/-! ### C09 -/

/-- C09 (dcm): the `dcm_exp` likelihood at `θ` is the `dcm` likelihood at `exp(-θ)`. -/
theorem C09_dcm_reparametrisation (θ : Vec n) (ko ki : Fin n → ℝ) (no ni : List (Fin n)) (c : Fin n → ℝ)
    (hno : no.Nodup) (hni : ni.Nodup) :
    loglikelihood_dcm_exp θ ko ki no ni c = loglikelihood_dcm (fun v => Real.exp (-θ v)) ko ki no ni c := by
  rw [ll_exp_eq _ _ _ _ _ _ hno hni, ll_eq _ _ _ _ _ _ hno hni]
  congr 1
  · refine sum_congr rfl fun i _ => ?_
    congr 1
    · rw [Real.log_exp]; ring
    · refine sum_congr rfl fun j _ => ?_
      rw [show -θ (0, i) - θ (1, j) = -θ (0, i) + -θ (1, j) by ring, Real.exp_add]
  · refine sum_congr rfl fun j _ => ?_
    rw [Real.log_exp]; ring

/-- C09 (dcm): the gradients correspond, so stationary points correspond. -/
theorem C09_dcm_gradients (θ : Vec n) (ko ki : Fin n → ℝ) (no ni : List (Fin n)) (c : Fin n → ℝ)
    (hno : no.Nodup) (hni : ni.Nodup) (v : Fin 2 × Fin n) :
    loglikelihood_prime_dcm_exp θ ko ki no ni c v =
      -(Real.exp (-θ v)) * loglikelihood_prime_dcm (fun v => Real.exp (-θ v)) ko ki no ni c v := by
  obtain ⟨b, a⟩ := v
  match b with
  | 0 =>
    rw [prime_exp_eq0 _ _ _ _ _ _ hni, prime_eq0 _ _ _ _ _ _ hni]
    split
    · have := (Real.exp_pos (-θ (0, a))).ne'
      rw [mul_add]
      have h : -Real.exp (-θ (0, a)) * (c a * ko a / Real.exp (-θ (0, a))) = -(c a * ko a) := by field_simp
      rw [h]; ring
    · simp
  | 1 =>
    rw [prime_exp_eq1 _ _ _ _ _ _ hno, prime_eq1 _ _ _ _ _ _ hno]
    split
    · have := (Real.exp_pos (-θ (1, a))).ne'
      rw [mul_add]
      have h : -Real.exp (-θ (1, a)) * (c a * ki a / Real.exp (-θ (1, a))) = -(c a * ki a) := by field_simp
      rw [h]; ring
    · simp

/-! ### C10, C02: degree reduction and solutions -/

/-- a degree sequence of pairs `(out, in)`, ordered as the rows of `np.unique(axis=0)` -/
abbrev DSeq (N : ℕ) := Fin N → ℕ ×ₗ ℕ

/-- observed out-degrees -/
def dOut {N : ℕ} (d : DSeq N) (i : Fin N) : ℝ := ((ofLex (d i)).1 : ℝ)
/-- observed in-degrees -/
def dIn {N : ℕ} (d : DSeq N) (i : Fin N) : ℝ := ((ofLex (d i)).2 : ℝ)
/-- graph_classes.py 1594, `self.rnz_dseq_out = self.r_dseq[:, 0]` -/
def rnz_dseq_out {N : ℕ} (d : DSeq N) (q : Fin (rnz_n d)) : ℝ := ((ofLex (r_dseq d q)).1 : ℝ)
/-- graph_classes.py 1595, `self.rnz_dseq_in = self.r_dseq[:, 1]` -/
def rnz_dseq_in {N : ℕ} (d : DSeq N) (q : Fin (rnz_n d)) : ℝ := ((ofLex (r_dseq d q)).2 : ℝ)

/-- graph_classes.py 1507-1508 (and 1524-1525): `x = r_x[r_invert_dseq]`, `y = r_y[r_invert_dseq]` -/
noncomputable def expand {N : ℕ} (d : DSeq N) (r : Vec (rnz_n d)) : Vec N := fun v => r (v.1, r_invert_dseq d v.2)

/-- graph_classes.py 2005-2011, `_set_args` for dcm: gradient of the reduced problem -/
noncomputable def reducedGradient {N : ℕ} (d : DSeq N) (r : Vec (rnz_n d)) : Vec (rnz_n d) :=
  loglikelihood_prime_dcm r (rnz_dseq_out d) (rnz_dseq_in d) (nonzero (rnz_dseq_out d)) (nonzero (rnz_dseq_in d))
    (fun q => (r_multiplicity d q : ℝ))

theorem rnz_out_invert {N : ℕ} (d : DSeq N) (i : Fin N) : rnz_dseq_out d (r_invert_dseq d i) = dOut d i := by
  simp only [rnz_dseq_out, dOut, r_dseq_invert]
theorem rnz_in_invert {N : ℕ} (d : DSeq N) (i : Fin N) : rnz_dseq_in d (r_invert_dseq d i) = dIn d i := by
  simp only [rnz_dseq_in, dIn, r_dseq_invert]

theorem sum_nonzero (k F : Fin n → ℝ) : ∑ j ∈ (nonzero k).toFinset, F j = ∑ j, if k j ≠ 0 then F j else 0 := by
  rw [← sum_filter]
  refine sum_congr (by ext j; simp [mem_nonzero]) fun _ _ => rfl

theorem w_div (c : Fin n → ℝ) (i j : Fin n) : w c i j = c i * (if i = j then c j - 1 else c j) := by
  unfold w; by_cases h : i = j
  · subst h; simp
  · simp [h]

theorem w_div' (c : Fin n → ℝ) (i j : Fin n) : w c i j = c j * (if j = i then c i - 1 else c i) := by
  rw [w_symm, w_div]

/-- C10 (dcm): the likelihood of the degree-reduced problem at `r` equals the likelihood of the full problem (every node its own
class, multiplicities one) at the expanded vector. -/
theorem C10_dcm_reduction_likelihood {N : ℕ} (d : DSeq N) (r : Vec (rnz_n d)) :
    loglikelihood_dcm r (rnz_dseq_out d) (rnz_dseq_in d) (nonzero (rnz_dseq_out d)) (nonzero (rnz_dseq_in d))
      (fun q => (r_multiplicity d q : ℝ)) =
    loglikelihood_dcm (expand d r) (dOut d) (dIn d) (nonzero (dOut d)) (nonzero (dIn d)) (fun _ => 1) := by
  rw [ll_eq _ _ _ _ _ _ (nodup_nonzero _) (nodup_nonzero _), ll_eq _ _ _ _ _ _ (nodup_nonzero _) (nodup_nonzero _)]
  simp only [sum_nonzero, expand]
  have h : ∀ i : Fin N, (if dOut d i ≠ 0 then 1 * dOut d i * Real.log (r (0, r_invert_dseq d i)) +
        ∑ j, (if dIn d j ≠ 0 then -(w (fun _ => 1) i j * Real.log (1 + r (0, r_invert_dseq d i) * r (1, r_invert_dseq d j))) else 0)
      else 0)
      = (fun q => if rnz_dseq_out d q ≠ 0 then rnz_dseq_out d q * Real.log (r (0, q)) +
        ∑ p, (if q = p then ((r_multiplicity d p : ℝ) - 1) * (if rnz_dseq_in d p ≠ 0 then -(Real.log (1 + r (0, q) * r (1, p))) else 0)
          else (r_multiplicity d p : ℝ) * (if rnz_dseq_in d p ≠ 0 then -(Real.log (1 + r (0, q) * r (1, p))) else 0)) else 0)
        (r_invert_dseq d i) := by
    intro i
    simp only [rnz_out_invert]
    rw [← sum_classes_ne d (fun p => (if rnz_dseq_in d p ≠ 0 then -(Real.log (1 + r (0, r_invert_dseq d i) * r (1, p))) else 0)) i]
    simp only [rnz_in_invert, one_mul, w, sub_self]
    congr 2
    refine sum_congr rfl fun j _ => ?_
    by_cases hij : i = j <;> simp [hij]
  rw [sum_congr rfl (fun i _ => h i),
    show (∑ j : Fin N, if dIn d j ≠ 0 then 1 * dIn d j * Real.log (r (1, r_invert_dseq d j)) else 0)
      = ∑ j : Fin N, (fun q => if rnz_dseq_in d q ≠ 0 then rnz_dseq_in d q * Real.log (r (1, q)) else 0) (r_invert_dseq d j) from
      sum_congr rfl fun j _ => by simp only [rnz_in_invert, one_mul]]
  congr 1
  · refine Eq.trans ?_ (sum_classes d (fun q => if rnz_dseq_out d q ≠ 0 then rnz_dseq_out d q * Real.log (r (0, q)) +
        ∑ p, (if q = p then ((r_multiplicity d p : ℝ) - 1) * (if rnz_dseq_in d p ≠ 0 then -(Real.log (1 + r (0, q) * r (1, p))) else 0)
          else (r_multiplicity d p : ℝ) * (if rnz_dseq_in d p ≠ 0 then -(Real.log (1 + r (0, q) * r (1, p))) else 0)) else 0)).symm
    refine sum_congr rfl fun q _ => ?_
    by_cases hq : rnz_dseq_out d q ≠ 0
    · simp only [hq, ne_eq, not_false_eq_true, if_true]
      rw [mul_add, mul_sum]
      congr 1
      · ring
      · refine sum_congr rfl fun p _ => ?_
        rw [w_div]
        by_cases hp : rnz_dseq_in d p = 0
        · simp [hp]
        · by_cases hqp : q = p
          · simp [hp, hqp]; ring
          · simp [hp, hqp]; ring
    · simp [hq]
  · refine Eq.trans ?_ (sum_classes d (fun q => if rnz_dseq_in d q ≠ 0 then rnz_dseq_in d q * Real.log (r (1, q)) else 0)).symm
    refine sum_congr rfl fun q _ => ?_
    split <;> ring

/-- C10 (dcm): the reduced gradient is multiplicity times the gradient of the full problem at the expansion. -/
theorem C10_dcm_reduction_gradient {N : ℕ} (d : DSeq N) (r : Vec (rnz_n d)) (b : Fin 2) (i : Fin N) :
    reducedGradient d r (b, r_invert_dseq d i) = (r_multiplicity d (r_invert_dseq d i) : ℝ) *
      loglikelihood_prime_dcm (expand d r) (dOut d) (dIn d) (nonzero (dOut d)) (nonzero (dIn d)) (fun _ => 1) (b, i) := by
  unfold reducedGradient
  match b with
  | 0 =>
    rw [prime_eq0 _ _ _ _ _ _ (nodup_nonzero _), prime_eq0 _ _ _ _ _ _ (nodup_nonzero _)]
    simp only [mem_nonzero, rnz_out_invert, sum_nonzero, expand]
    by_cases hd : dOut d i = 0
    · simp [hd]
    · simp only [ne_eq, hd, not_false_eq_true, if_true, mul_add, one_mul]
      congr 1
      · have h := sum_classes_ne d (fun p => if rnz_dseq_in d p ≠ 0 then r (1, p) / (1 + r (0, r_invert_dseq d i) * r (1, p)) else 0) i
        have h2 : (∑ j, if ¬ dIn d j = 0 then w (fun _ => (1 : ℝ)) i j * r (1, r_invert_dseq d j) /
              (1 + r (0, r_invert_dseq d i) * r (1, r_invert_dseq d j)) else 0)
            = ∑ j, if i = j then 0 else (fun p => if rnz_dseq_in d p ≠ 0 then r (1, p) / (1 + r (0, r_invert_dseq d i) * r (1, p)) else 0)
              (r_invert_dseq d j) := by
          refine sum_congr rfl fun j _ => ?_
          by_cases hij : i = j <;> simp [hij, w, rnz_in_invert]
        rw [h2, h, mul_neg, mul_sum]
        congr 1
        refine sum_congr rfl fun p _ => ?_
        rw [w_div]
        by_cases hp : rnz_dseq_in d p = 0
        · simp [hp]
        · by_cases hqp : r_invert_dseq d i = p
          · simp [hp, hqp]; ring
          · simp [hp, hqp]; ring
      · ring
  | 1 =>
    rw [prime_eq1 _ _ _ _ _ _ (nodup_nonzero _), prime_eq1 _ _ _ _ _ _ (nodup_nonzero _)]
    simp only [mem_nonzero, rnz_in_invert, sum_nonzero, expand]
    by_cases hd : dIn d i = 0
    · simp [hd]
    · simp only [ne_eq, hd, not_false_eq_true, if_true, mul_add, one_mul]
      congr 1
      · have h := sum_classes_ne d (fun p => if rnz_dseq_out d p ≠ 0 then r (0, p) / (1 + r (1, r_invert_dseq d i) * r (0, p)) else 0) i
        have h2 : (∑ j, if ¬ dOut d j = 0 then w (fun _ => (1 : ℝ)) j i * r (0, r_invert_dseq d j) /
              (1 + r (1, r_invert_dseq d i) * r (0, r_invert_dseq d j)) else 0)
            = ∑ j, if i = j then 0 else (fun p => if rnz_dseq_out d p ≠ 0 then r (0, p) / (1 + r (1, r_invert_dseq d i) * r (0, p)) else 0)
              (r_invert_dseq d j) := by
          refine sum_congr rfl fun j _ => ?_
          by_cases hij : i = j <;> simp [hij, w, rnz_out_invert, Ne.symm]
        rw [h2, h, mul_neg, mul_sum]
        congr 1
        refine sum_congr rfl fun p _ => ?_
        rw [w_div']
        by_cases hp : rnz_dseq_out d p = 0
        · simp [hp]
        · by_cases hqp : r_invert_dseq d i = p
          · simp [hp, hqp]; ring
          · simp [hp, hqp]; ring
      · ring

/-- gradient of the full problem in terms of the expected degrees -/
theorem prime_full_eq (sol : Vec n) (ko ki : Fin n → ℝ) (hs0 : ∀ i, sol (0, i) = 0 ↔ ko i = 0) (hs1 : ∀ i, sol (1, i) = 0 ↔ ki i = 0)
    (i : Fin n) :
    sol (0, i) * loglikelihood_prime_dcm sol ko ki (nonzero ko) (nonzero ki) (fun _ => 1) (0, i) = ko i - expected_out_degree_dcm sol i ∧
    sol (1, i) * loglikelihood_prime_dcm sol ko ki (nonzero ko) (nonzero ki) (fun _ => 1) (1, i) = ki i - expected_in_degree_dcm sol i := by
  constructor
  · rw [prime_eq0 _ _ _ _ _ _ (nodup_nonzero _), expected_out_eq]
    simp only [mem_nonzero, sum_nonzero]
    by_cases h : ko i = 0
    · have := (hs0 i).2 h
      simp [h, this]
    · have hne : sol (0, i) ≠ 0 := fun h' => h ((hs0 i).1 h')
      simp only [ne_eq, h, not_false_eq_true, if_true]
      rw [mul_add, mul_neg, mul_sum, add_comm, sub_eq_add_neg]
      congr 1
      · field_simp
      · congr 1
        refine sum_congr rfl fun j _ => ?_
        by_cases hij : i = j
        · simp [hij, w]
        · by_cases hj : ki j = 0
          · simp [hij, hj, (hs1 j).2 hj]
          · simp [hij, hj, w]; ring
  · rw [prime_eq1 _ _ _ _ _ _ (nodup_nonzero _), expected_in_eq]
    simp only [mem_nonzero, sum_nonzero]
    by_cases h : ki i = 0
    · have := (hs1 i).2 h
      simp [h, this]
    · have hne : sol (1, i) ≠ 0 := fun h' => h ((hs1 i).1 h')
      simp only [ne_eq, h, not_false_eq_true, if_true]
      rw [mul_add, mul_neg, mul_sum, add_comm, sub_eq_add_neg]
      congr 1
      · field_simp
      · congr 1
        refine sum_congr rfl fun j _ => ?_
        by_cases hij : i = j
        · simp [hij, w]
        · by_cases hj : ko j = 0
          · simp [hij, hj, (hs0 j).2 hj]
          · simp [hij, Ne.symm hij, hj, w]; rw [mul_comm (sol (1, i)) (sol (0, j))]; ring

/-- C02 (dcm): for a reduced parameter vector that is positive exactly at the positions of non-zero degree (and zero elsewhere), the
gradient used by the solver vanishes **iff** the expanded solution reproduces the out- and in-degree of every node. -/
theorem C02_dcm_solution_iff {N : ℕ} (d : DSeq N) (r : Vec (rnz_n d))
    (h0 : ∀ q, r (0, q) = 0 ↔ rnz_dseq_out d q = 0) (h1 : ∀ q, r (1, q) = 0 ↔ rnz_dseq_in d q = 0) :
    (∀ v, reducedGradient d r v = 0) ↔
      ∀ i, expected_out_degree_dcm (expand d r) i = dOut d i ∧ expected_in_degree_dcm (expand d r) i = dIn d i := by
  have hs0 : ∀ i, expand d r (0, i) = 0 ↔ dOut d i = 0 := fun i => by rw [← rnz_out_invert]; exact h0 _
  have hs1 : ∀ i, expand d r (1, i) = 0 ↔ dIn d i = 0 := fun i => by rw [← rnz_in_invert]; exact h1 _
  have key0 : ∀ i, reducedGradient d r (0, r_invert_dseq d i) = 0 ↔ expected_out_degree_dcm (expand d r) i = dOut d i := by
    intro i
    have hm : (r_multiplicity d (r_invert_dseq d i) : ℝ) ≠ 0 := by exact_mod_cast (r_multiplicity_pos d _).ne'
    rw [C10_dcm_reduction_gradient, mul_eq_zero, or_iff_right hm]
    have := (prime_full_eq (expand d r) (dOut d) (dIn d) hs0 hs1 i).1
    by_cases hz : dOut d i = 0
    · have hz' := (hs0 i).2 hz
      rw [hz', zero_mul, hz] at this
      rw [hz]
      constructor
      · intro _; linarith
      · intro _; rw [prime_eq0 _ _ _ _ _ _ (nodup_nonzero _)]; simp [mem_nonzero, hz]
    · have hz' : expand d r (0, i) ≠ 0 := fun h => hz ((hs0 i).1 h)
      constructor
      · intro h; rw [h, mul_zero] at this; linarith
      · intro h; rw [h, sub_self] at this; exact (mul_eq_zero.1 this).resolve_left hz'
  have key1 : ∀ i, reducedGradient d r (1, r_invert_dseq d i) = 0 ↔ expected_in_degree_dcm (expand d r) i = dIn d i := by
    intro i
    have hm : (r_multiplicity d (r_invert_dseq d i) : ℝ) ≠ 0 := by exact_mod_cast (r_multiplicity_pos d _).ne'
    rw [C10_dcm_reduction_gradient, mul_eq_zero, or_iff_right hm]
    have := (prime_full_eq (expand d r) (dOut d) (dIn d) hs0 hs1 i).2
    by_cases hz : dIn d i = 0
    · have hz' := (hs1 i).2 hz
      rw [hz', zero_mul, hz] at this
      rw [hz]
      constructor
      · intro _; linarith
      · intro _; rw [prime_eq1 _ _ _ _ _ _ (nodup_nonzero _)]; simp [mem_nonzero, hz]
    · have hz' : expand d r (1, i) ≠ 0 := fun h => hz ((hs1 i).1 h)
      constructor
      · intro h; rw [h, mul_zero] at this; linarith
      · intro h; rw [h, sub_self] at this; exact (mul_eq_zero.1 this).resolve_left hz'
  constructor
  · intro h i; exact ⟨(key0 i).1 (h _), (key1 i).1 (h _)⟩
  · rintro h ⟨b, q⟩
    obtain ⟨i, rfl⟩ := r_invert_surjective d q
    match b with
    | 0 => exact (key0 i).2 (h i).1
    | 1 => exact (key1 i).2 (h i).2

/-- three nodes with out- and in-degree one: all parameters one solve the DBCM -/
example : ∃ (d : DSeq 3) (r : Vec (rnz_n d)), (∀ q, r (0, q) = 0 ↔ rnz_dseq_out d q = 0) ∧ (∀ q, r (1, q) = 0 ↔ rnz_dseq_in d q = 0) ∧
    ∀ v, reducedGradient d r v = 0 := by
  refine ⟨fun _ => toLex (1, 1), fun _ => 1, ?_, ?_, ?_⟩
  · intro q; obtain ⟨i, rfl⟩ := r_invert_surjective _ q; rw [rnz_out_invert]; simp [dOut]
  · intro q; obtain ⟨i, rfl⟩ := r_invert_surjective _ q; rw [rnz_in_invert]; simp [dIn]
  · rw [C02_dcm_solution_iff]
    · intro i
      rw [expected_out_eq, expected_in_eq]
      fin_cases i <;> simp [Fin.sum_univ_three, expand, dOut, dIn] <;> norm_num
    · intro q; obtain ⟨i, rfl⟩ := r_invert_surjective _ q; rw [rnz_out_invert]; simp [dOut]
    · intro q; obtain ⟨i, rfl⟩ := r_invert_surjective _ q; rw [rnz_in_invert]; simp [dIn]

/-- C02 (dcm_exp): `r` is the stored solution: `exp(-θ)` at the positions of non-zero degree, `0` elsewhere (there `θ` is the initial guess
`1e3` or infinite and `np.exp(-1e3)` is `0.0`, graph_classes.py 1716-1717, 1514-1521).  The gradient used by the solver vanishes **iff** the expanded
solution reproduces all degrees. -/
theorem C02_dcm_exp_solution_iff {N : ℕ} (d : DSeq N) (θ r : Vec (rnz_n d))
    (h0 : ∀ q, r (0, q) = if rnz_dseq_out d q = 0 then 0 else Real.exp (-θ (0, q)))
    (h1 : ∀ q, r (1, q) = if rnz_dseq_in d q = 0 then 0 else Real.exp (-θ (1, q))) :
    (∀ v, loglikelihood_prime_dcm_exp θ (rnz_dseq_out d) (rnz_dseq_in d) (nonzero (rnz_dseq_out d)) (nonzero (rnz_dseq_in d))
      (fun q => (r_multiplicity d q : ℝ)) v = 0) ↔
      ∀ i, expected_out_degree_dcm (expand d r) i = dOut d i ∧ expected_in_degree_dcm (expand d r) i = dIn d i := by
  rw [← C02_dcm_solution_iff d r]
  · refine forall_congr' fun v => ?_
    rw [C09_dcm_gradients _ _ _ _ _ _ (nodup_nonzero _) (nodup_nonzero _), mul_eq_zero, or_iff_right (neg_ne_zero.2 (Real.exp_pos _).ne')]
    have : loglikelihood_prime_dcm (fun v => Real.exp (-θ v)) (rnz_dseq_out d) (rnz_dseq_in d) (nonzero (rnz_dseq_out d)) (nonzero (rnz_dseq_in d))
      (fun q => (r_multiplicity d q : ℝ)) v = reducedGradient d r v := by
      unfold reducedGradient
      obtain ⟨b, q⟩ := v
      match b with
      | 0 =>
        simp only [prime_eq0 _ _ _ _ _ _ (nodup_nonzero (rnz_dseq_in d)), mem_nonzero]
        by_cases hq : rnz_dseq_out d q = 0
        · simp [hq]
        · simp only [ne_eq, hq, not_false_eq_true, if_true, h0]
          congr 2
          refine sum_congr rfl fun p hp => ?_
          have hp' : rnz_dseq_in d p ≠ 0 := by simpa [mem_nonzero] using hp
          simp [h1, hp']
      | 1 =>
        simp only [prime_eq1 _ _ _ _ _ _ (nodup_nonzero (rnz_dseq_out d)), mem_nonzero]
        by_cases hq : rnz_dseq_in d q = 0
        · simp [hq]
        · simp only [ne_eq, hq, not_false_eq_true, if_true, h1]
          congr 2
          refine sum_congr rfl fun p hp => ?_
          have hp' : rnz_dseq_out d p ≠ 0 := by simpa [mem_nonzero] using hp
          simp [h0, hp']
    rw [this]
  · intro q; rw [h0]; split <;> simp [*, (Real.exp_pos _).ne']
  · intro q; rw [h1]; split <;> simp [*, (Real.exp_pos _).ne']

/-! ### C12, C42 -/

/-- C12 (dcm): for parameters positive exactly where the degree is non-zero, the fixed-point equation holds **iff** the gradient vanishes. -/
theorem C12_dcm_fixed_point_iff (x : Vec n) (ko ki c : Fin n → ℝ)
    (hs0 : ∀ i, x (0, i) = 0 ↔ ko i = 0) (hs1 : ∀ i, x (1, i) = 0 ↔ ki i = 0) (hc : ∀ i, c i ≠ 0)
    (hden : ∀ v, iterative_den x c v ≠ 0) :
    (∀ v, iterative_dcm x ko ki (nonzero ko) (nonzero ki) c v = x v) ↔
      ∀ v, loglikelihood_prime_dcm x ko ki (nonzero ko) (nonzero ki) c v = 0 := by
  refine forall_congr' fun v => ?_
  have hd := hden v
  obtain ⟨b, m⟩ := v
  unfold iterative_dcm
  rw [div_eq_iff hd]
  match b with
  | 0 =>
    rw [prime_eq0 _ _ _ _ _ _ (nodup_nonzero _)]
    simp only [mem_nonzero, sum_nonzero, concat, if_true]
    by_cases hk : ko m = 0
    · simp [hk, (hs0 m).2 hk]
    · have hx : x (0, m) ≠ 0 := fun h => hk ((hs0 m).1 h)
      simp only [ne_eq, hk, not_false_eq_true, if_true]
      have : (∑ j, if ¬ ki j = 0 then w c m j * x (1, j) / (1 + x (0, m) * x (1, j)) else 0) = c m * iterative_den x c (0, m) := by
        rw [den_eq0, mul_sum]
        refine sum_congr rfl fun j _ => ?_
        rw [w_div]
        by_cases hj : ki j = 0
        · simp [hj, (hs1 j).2 hj]
        · simp only [hj, not_false_eq_true, if_true]; ring
      rw [this]
      have hcm := hc m
      constructor
      · intro h; rw [h]; field_simp; ring
      · intro h; field_simp at h
        have h' : c m * (ko m - x (0, m) * iterative_den x c (0, m)) = 0 := by linear_combination h
        have := (mul_eq_zero.1 h').resolve_left hcm
        linarith
  | 1 =>
    rw [prime_eq1 _ _ _ _ _ _ (nodup_nonzero _)]
    simp only [mem_nonzero, sum_nonzero, concat, one_ne_zero, if_false]
    by_cases hk : ki m = 0
    · simp [hk, (hs1 m).2 hk]
    · have hx : x (1, m) ≠ 0 := fun h => hk ((hs1 m).1 h)
      simp only [ne_eq, hk, not_false_eq_true, if_true]
      have : (∑ j, if ¬ ko j = 0 then w c j m * x (0, j) / (1 + x (1, m) * x (0, j)) else 0) = c m * iterative_den x c (1, m) := by
        rw [den_eq1, mul_sum]
        refine sum_congr rfl fun j _ => ?_
        rw [w_div']
        by_cases hj : ko j = 0
        · simp [hj, (hs0 j).2 hj]
        · simp only [hj, not_false_eq_true, if_true]; rw [mul_comm (x (1, m))]; ring
      rw [this]
      have hcm := hc m
      constructor
      · intro h; rw [h]; field_simp; ring
      · intro h; field_simp at h
        have h' : c m * (ki m - x (1, m) * iterative_den x c (1, m)) = 0 := by linear_combination h
        have := (mul_eq_zero.1 h').resolve_left hcm
        linarith

/-- C42 (dcm): with non-negative parameters, multiplicities at least one and another class with positive in- (out-) parameter, the divisors
of the fixed-point map are positive, so the map is finite, non-negative, and zero exactly for the nodes of degree zero. -/
theorem C42_dcm_iterative (x : Vec n) (ko ki c : Fin n → ℝ) (no ni : List (Fin n)) (hx : ∀ v, 0 ≤ x v) (hc : ∀ i, 1 ≤ c i)
    (hko : ∀ i, 0 ≤ ko i) (hki : ∀ i, 0 ≤ ki i) (m : Fin n)
    (hj0 : ∃ j, m ≠ j ∧ 0 < x (1, j)) (hj1 : ∃ j, m ≠ j ∧ 0 < x (0, j)) (b : Fin 2) :
    0 < iterative_den x c (b, m) ∧ 0 ≤ iterative_dcm x ko ki no ni c (b, m) ∧
      (iterative_dcm x ko ki no ni c (b, m) = 0 ↔ (if b = 0 then ko m else ki m) = 0) := by
  have hpos : 0 < iterative_den x c (b, m) := by
    match b with
    | 0 =>
      rw [den_eq0]
      obtain ⟨j, hmj, hj⟩ := hj0
      refine sum_pos' (fun j _ => ?_) ⟨j, mem_univ j, ?_⟩
      · have h1 := hx (0, m); have h2 := hx (1, j); have h3 := hc j
        have h4 : 0 ≤ c j - 1 := by linarith
        have h5 : 0 ≤ c j := by linarith
        split <;> positivity
      · have h3 := hc j
        have h5 : 0 < c j := by linarith
        have h1 := hx (0, m)
        simp only [hmj, if_false]; positivity
    | 1 =>
      rw [den_eq1]
      obtain ⟨j, hmj, hj⟩ := hj1
      refine sum_pos' (fun j _ => ?_) ⟨j, mem_univ j, ?_⟩
      · have h1 := hx (1, m); have h2 := hx (0, j); have h3 := hc j
        have h4 : 0 ≤ c j - 1 := by linarith
        have h5 : 0 ≤ c j := by linarith
        split <;> positivity
      · have h3 := hc j
        have h5 : 0 < c j := by linarith
        have h1 := hx (1, m)
        simp only [hmj, if_false]; positivity
  refine ⟨hpos, ?_, ?_⟩
  · unfold iterative_dcm concat
    refine div_nonneg ?_ hpos.le
    simp only; split
    · exact hko m
    · exact hki m
  · unfold iterative_dcm concat
    simp only [div_eq_zero_iff, hpos.ne', or_false]

/-- two classes with positive parameters: the hypotheses of C12 and C42 hold -/
example : (∀ v, 0 ≤ (fun _ => 1 : Vec 2) v) ∧ (∃ j : Fin 2, (0 : Fin 2) ≠ j ∧ 0 < (fun _ => 1 : Vec 2) (1, j)) ∧
    (∀ v, iterative_den (fun _ => 1 : Vec 2) (fun _ => 1) v ≠ 0) := by
  refine ⟨fun _ => zero_le_one, ⟨1, by decide, one_pos⟩, ?_⟩
  rintro ⟨b, m⟩
  have hm : ∃ j : Fin 2, m ≠ j := by
    fin_cases m
    exacts [⟨1, by decide⟩, ⟨0, by decide⟩]
  obtain ⟨j, hj⟩ := hm
  exact (C42_dcm_iterative (fun _ => 1 : Vec 2) (fun _ => 1) (fun _ => 1) (fun _ => 1) [] [] (fun _ => zero_le_one) (fun _ => le_refl _)
    (fun _ => zero_le_one) (fun _ => zero_le_one) m ⟨j, hj, one_pos⟩ ⟨j, hj, one_pos⟩ b).1.ne'

/-- C12/C09 (dcm_exp): the exponential fixed-point map is the plain one in the variable `x = exp(-θ)`, at the positions of positive degree. -/
theorem C12_dcm_exp_conjugate (θ : Vec n) (ko ki c : Fin n → ℝ) (no ni : List (Fin n)) (v : Fin 2 × Fin n)
    (hk : 0 < concat ko ki v) (hden : 0 < iterative_den (fun v => Real.exp (-θ v)) c v) :
    Real.exp (-iterative_dcm_exp θ ko ki no ni c v) = iterative_dcm (fun v => Real.exp (-θ v)) ko ki no ni c v := by
  unfold iterative_dcm_exp iterative_dcm
  rw [neg_neg, Real.exp_log (div_pos hk hden)]

/-- C12 (dcm_exp): when all degrees are positive and there are at least two nodes, `θ` is a fixed point **iff** the gradient vanishes. -/
theorem C12_dcm_exp_fixed_point_iff (θ : Vec n) (ko ki c : Fin n → ℝ) (hko : ∀ i, 0 < ko i) (hki : ∀ i, 0 < ki i) (hc : ∀ i, 1 ≤ c i)
    (hn : ∀ i : Fin n, ∃ j, i ≠ j) :
    (∀ v, iterative_dcm_exp θ ko ki (nonzero ko) (nonzero ki) c v = θ v) ↔
      ∀ v, loglikelihood_prime_dcm_exp θ ko ki (nonzero ko) (nonzero ki) c v = 0 := by
  have hden : ∀ v, 0 < iterative_den (fun v => Real.exp (-θ v)) c v := by
    rintro ⟨b, m⟩
    obtain ⟨j, hj⟩ := hn m
    exact (C42_dcm_iterative (fun v => Real.exp (-θ v)) ko ki c [] [] (fun v => (Real.exp_pos _).le) hc (fun i => (hko i).le) (fun i => (hki i).le) m
      ⟨j, hj, Real.exp_pos _⟩ ⟨j, hj, Real.exp_pos _⟩ b).1
  have hk : ∀ v, 0 < concat ko ki v := by
    rintro ⟨b, m⟩; unfold concat; simp only; split
    · exact hko m
    · exact hki m
  have h := C12_dcm_fixed_point_iff (fun v => Real.exp (-θ v)) ko ki c
    (fun i => by simp [(Real.exp_pos _).ne', (hko i).ne']) (fun i => by simp [(Real.exp_pos _).ne', (hki i).ne'])
    (fun i => by have := hc i; intro h; linarith) (fun v => (hden v).ne')
  have e1 : (∀ v, iterative_dcm_exp θ ko ki (nonzero ko) (nonzero ki) c v = θ v) ↔
      ∀ v, iterative_dcm (fun v => Real.exp (-θ v)) ko ki (nonzero ko) (nonzero ki) c v = Real.exp (-θ v) := by
    refine forall_congr' fun v => ?_
    rw [← C12_dcm_exp_conjugate θ ko ki c _ _ v (hk v) (hden v), Real.exp_eq_exp, neg_inj]
  rw [e1, h]
  refine forall_congr' fun v => ?_
  rw [C09_dcm_gradients _ _ _ _ _ _ (nodup_nonzero _) (nodup_nonzero _), mul_eq_zero, or_iff_right (neg_ne_zero.2 (Real.exp_pos _).ne')]

example : ∀ i : Fin 3, ∃ j, i ≠ j := by
  intro i; fin_cases i
  exacts [⟨1, by decide⟩, ⟨0, by decide⟩, ⟨0, by decide⟩]

/-! ### C18, C41 -/

/-- C18 (dcm): entries of `pmatrix_dcm` are probabilities below one, with zero diagonal. -/
theorem C18_pmatrix_dcm_range (x : Vec n) (io ii : List (Fin n)) (hx : ∀ v, 0 ≤ x v) (i j : Fin n) :
    0 ≤ pmatrix_dcm x io ii i j ∧ pmatrix_dcm x io ii i j < 1 ∧ pmatrix_dcm x io ii i i = 0 := by
  have h1 := hx (0, i); have h2 := hx (1, j)
  have h3 := mul_nonneg h1 h2
  refine ⟨?_, ?_, ?_⟩
  · rw [pmatrix_eq]; split
    · positivity
    · exact le_refl _
  · rw [pmatrix_eq]; split
    · rw [div_lt_one (by positivity)]; linarith
    · exact zero_lt_one
  · rw [pmatrix_eq]; simp

/-- C18 (dcm): when the index lists are the nodes with non-zero parameters, entry `(i,j)` is `x_i y_j/(1+x_i y_j)`, row sums are the expected
out-degrees and column sums the expected in-degrees. -/
theorem C18_pmatrix_dcm_sums (x : Vec n) (io ii : List (Fin n)) (hio : ∀ i, x (0, i) ≠ 0 → i ∈ io) (hii : ∀ i, x (1, i) ≠ 0 → i ∈ ii)
    (i : Fin n) :
    (∀ j, i ≠ j → pmatrix_dcm x io ii i j = x (0, i) * x (1, j) / (1 + x (0, i) * x (1, j))) ∧
    ∑ j, pmatrix_dcm x io ii i j = expected_out_degree_dcm x i ∧
    ∑ j, pmatrix_dcm x io ii j i = expected_in_degree_dcm x i := by
  have e : ∀ a b, pmatrix_dcm x io ii a b = if a = b then 0 else x (0, a) * x (1, b) / (1 + x (0, a) * x (1, b)) := by
    intro a b
    rw [pmatrix_eq]
    by_cases hab : a = b
    · simp [hab]
    · by_cases h : a ∈ io ∧ b ∈ ii
      · simp [hab, h]
      · have : x (0, a) * x (1, b) = 0 := by
          by_contra hne
          exact h ⟨hio a (left_ne_zero_of_mul hne), hii b (right_ne_zero_of_mul hne)⟩
        rw [if_neg (fun h' => h ⟨h'.1, h'.2.1⟩), if_neg hab, this]; simp
  refine ⟨fun j hij => by rw [e, if_neg hij], ?_, ?_⟩
  · rw [expected_out_eq]; exact sum_congr rfl fun j _ => e i j
  · rw [expected_in_eq]
    refine sum_congr rfl fun j _ => ?_
    rw [e]; by_cases h : i = j
    · simp [h]
    · simp [h, Ne.symm h]

/-- C41 (dcm): a node with out-parameter zero has no outgoing link and expected out-degree zero; likewise for in. -/
theorem C41_dcm_zero_node (x : Vec n) (io ii : List (Fin n)) (i : Fin n) :
    (x (0, i) = 0 → (∀ j, pmatrix_dcm x io ii i j = 0) ∧ expected_out_degree_dcm x i = 0) ∧
    (x (1, i) = 0 → (∀ j, pmatrix_dcm x io ii j i = 0) ∧ expected_in_degree_dcm x i = 0) := by
  refine ⟨fun h => ⟨fun j => ?_, ?_⟩, fun h => ⟨fun j => ?_, ?_⟩⟩
  · simp [pmatrix_eq, h]
  · simp [expected_out_eq, h]
  · simp [pmatrix_eq, h]
  · simp [expected_in_eq, h]

end Verif.DCM
