import Verif.Model.DECM
import Verif.Calc

/-! Closed forms of the loops of `Verif.Model.DECM`. -/

set_option linter.unusedSimpArgs false

namespace Verif.DECM
open Verif Finset Function
variable {n : ℕ}

/-- expected link count of an (ordered) pair divided by the own parameter -/
noncomputable def P (a a' b b' : ℝ) : ℝ := a' * (b * b') / (1 - b * b' + a * a' * (b * b'))
/-- expected weight of an (ordered) pair divided by the own parameter -/
noncomputable def Q (a a' b b' : ℝ) : ℝ := b' / (1 - b * b') + (a * a' - 1) * b' / (1 - b * b' + a * a' * (b * b'))

theorem ite_log (k y : ℝ) : (if k ≠ 0 then k * y else 0) = k * y := by
  by_cases h : k = 0 <;> simp [h]

theorem ite_log_acc (f k y : ℝ) : (if k ≠ 0 then f + k * y else f) = f + k * y := by
  by_cases h : k = 0 <;> simp [h]

theorem ite_sub_acc (f k y : ℝ) : (if k ≠ 0 then f - k * y else f) = f - k * y := by
  by_cases h : k = 0 <;> simp [h]

theorem ite_neg_mul (k y : ℝ) : (if k ≠ 0 then -(k * y) else 0) = -(k * y) := by
  by_cases h : k = 0 <;> simp [h]

theorem fa_out_eq (x : Vec n) (i : Fin n) : fa_out x i =
    ∑ j, if i = j then 0 else P (x (0, i)) (x (1, j)) (x (2, i)) (x (3, j)) := by
  simp only [fa_out, ite_acc_left, forR_add, zero_add]
  refine sum_congr rfl fun j _ => ?_
  by_cases h : i = j <;> simp [h, P]

theorem fa_in_eq (x : Vec n) (i : Fin n) : fa_in x i =
    ∑ j, if i = j then 0 else P (x (1, i)) (x (0, j)) (x (3, i)) (x (2, j)) := by
  simp only [fa_in, ite_acc_left, forR_add, zero_add]
  refine sum_congr rfl fun j _ => ?_
  by_cases h : i = j <;> simp [h, P, mul_comm (x (2, j)), mul_comm (x (0, j)) (x (1, i))]

theorem fb_out_eq (x : Vec n) (i : Fin n) : fb_out x i =
    ∑ j, if i = j then 0 else Q (x (0, i)) (x (1, j)) (x (2, i)) (x (3, j)) := by
  simp only [fb_out, ite_acc_left, forR_add, zero_add]
  refine sum_congr rfl fun j _ => ?_
  by_cases h : i = j <;> simp [h, Q, mul_comm (x (3, j)) (x (2, i)), mul_comm (x (1, j)) (x (0, i))]

theorem fb_in_eq (x : Vec n) (i : Fin n) : fb_in x i =
    ∑ j, if i = j then 0 else Q (x (1, i)) (x (0, j)) (x (3, i)) (x (2, j)) := by
  simp only [fb_in, ite_acc_left, forR_add, zero_add]
  refine sum_congr rfl fun j _ => ?_
  by_cases h : i = j <;> simp [h, Q]

theorem fb_out_prime_eq (x : Vec n) (i : Fin n) : fb_out_prime x i =
    ∑ j, if i = j then 0 else Q (x (0, i)) (x (1, j)) (x (2, i)) (x (3, j)) := by
  simp only [fb_out_prime, ite_acc, ite_acc_left, forR_add, zero_add]
  refine sum_congr rfl fun j _ => ?_
  by_cases h : i = j
  · simp [h]
  · by_cases h0 : x (0, i) = 0
    · simp [h, h0, Q]; ring
    · simp [h, h0, Q, mul_comm (x (3, j)) (x (2, i)), mul_comm (x (1, j)) (x (0, i))]

theorem fb_in_prime_eq (x : Vec n) (i : Fin n) : fb_in_prime x i =
    ∑ j, if i = j then 0 else Q (x (1, i)) (x (0, j)) (x (3, i)) (x (2, j)) := by
  simp only [fb_in_prime, ite_acc_left, forR_add, zero_add]
  refine sum_congr rfl fun j _ => ?_
  by_cases h : i = j <;> simp [h, Q, mul_comm (x (0, j)) (x (1, i))]

theorem ll_eq (x : Vec n) (ko ki so si : Fin n → ℝ) : loglikelihood_decm x ko ki so si =
    ∑ i, (ko i * Real.log (x (0, i)) + (ki i * Real.log (x (1, i)) + (so i * Real.log (x (2, i)) + (si i * Real.log (x (3, i)) +
      ∑ j, if i = j then 0 else Real.log (1 - x (2, i) * x (3, j)) -
        Real.log (1 - x (2, i) * x (3, j) + x (0, i) * x (1, j) * (x (2, i) * x (3, j))))))) := by
  simp only [loglikelihood_decm, ite_log_acc]
  simp only [sub_eq_add_neg, add_assoc, ite_acc_left, forR_add, zero_add]
  refine sum_congr rfl fun i _ => ?_
  simp only [add_right_inj]
  refine sum_congr rfl fun j _ => ?_
  by_cases h : i = j
  · simp [h]
  · simp only [h, ne_eq, not_false_eq_true, if_true, if_false]
    rw [show x (2, i) * x (3, j) * x (0, i) * x (1, j) = x (0, i) * x (1, j) * (x (2, i) * x (3, j)) by ring]

theorem setDiv (f : Vec n) (v : Fin 4 × Fin n) (k y a : ℝ) :
    (if k ≠ 0 then setAt f v (k / y - a) else setAt f v (-a)) = setAt f v (k / y - a) := by
  by_cases h : k = 0 <;> simp [h]

theorem prime_eq (x : Vec n) (ko ki so si : Fin n → ℝ) (m : Fin n) :
    loglikelihood_prime_decm x ko ki so si (0, m) = ko m / x (0, m) - fa_out x m ∧
    loglikelihood_prime_decm x ko ki so si (1, m) = ki m / x (1, m) - fa_in x m ∧
    loglikelihood_prime_decm x ko ki so si (2, m) = so m / x (2, m) - fb_out_prime x m ∧
    loglikelihood_prime_decm x ko ki so si (3, m) = si m / x (3, m) - fb_in_prime x m := by
  simp only [loglikelihood_prime_decm, setDiv]
  refine ⟨?_, ?_, ?_, ?_⟩ <;>
  · apply forR_cell (m := m)
    · intro f; simp [setAt_apply]
    · intro i hi f; simp [setAt_apply, hi.symm]

theorem iter_eq (x : Vec n) (ko ki so si : Fin n → ℝ) (m : Fin n) :
    iterative_decm x ko ki so si (0, m) = ko m / fa_out x m ∧
    iterative_decm x ko ki so si (1, m) = ki m / fa_in x m ∧
    iterative_decm x ko ki so si (2, m) = so m / fb_out x m ∧
    iterative_decm x ko ki so si (3, m) = si m / fb_in x m := by
  have key : ∀ (f : Vec n) (v : Fin 4 × Fin n) (k y : ℝ),
    (if k ≠ 0 then setAt f v (k / y) else setAt f v 0) = setAt f v (k / y) := by
    intro f v k y; by_cases h : k = 0 <;> simp [h]
  simp only [iterative_decm, key]
  refine ⟨?_, ?_, ?_, ?_⟩ <;>
  · apply forR_cell (m := m)
    · intro f; simp [setAt_apply]
    · intro i hi f; simp [setAt_apply, hi.symm]

/-- second derivative term of the links block -/
noncomputable def PA (a a' b b' : ℝ) : ℝ := (a' * (b * b') / (1 - b * b' + a * a' * (b * b'))) ^ 2
/-- second derivative term of the weights block -/
noncomputable def QB (a a' b b' : ℝ) : ℝ :=
  (b' / (1 - b * b')) ^ 2 - ((a * a' - 1) * b' / (1 - b * b' + a * a' * (b * b'))) ^ 2
/-- mixed term -/
noncomputable def PB (a a' b b' : ℝ) : ℝ := a' * b' / (1 - b * b' + a * a' * (b * b')) ^ 2

theorem diag_eq (x : Vec n) (ko ki so si : Fin n → ℝ) (m : Fin n) :
    loglikelihood_hessian_diag_decm x ko ki so si (0, m) =
      -ko m / x (0, m) ^ 2 + ∑ j, (if m = j then 0 else PA (x (0, m)) (x (1, j)) (x (2, m)) (x (3, j))) ∧
    loglikelihood_hessian_diag_decm x ko ki so si (1, m) =
      -ki m / x (1, m) ^ 2 + ∑ j, (if m = j then 0 else PA (x (1, m)) (x (0, j)) (x (3, m)) (x (2, j))) ∧
    loglikelihood_hessian_diag_decm x ko ki so si (2, m) =
      -so m / x (2, m) ^ 2 - ∑ j, (if m = j then 0 else QB (x (0, m)) (x (1, j)) (x (2, m)) (x (3, j))) ∧
    loglikelihood_hessian_diag_decm x ko ki so si (3, m) =
      if si m = 0 then ∑ j, (if m = j then 0 else QB (x (1, m)) (x (0, j)) (x (3, m)) (x (2, j)))
      else -si m / x (3, m) ^ 2 - ∑ j, (if m = j then 0 else QB (x (1, m)) (x (0, j)) (x (3, m)) (x (2, j))) := by
  have e0 : ∀ i, (∑ j, if i ≠ j then (x (1, j) * (x (2, i) * x (3, j))) / (1 - (x (2, i) * x (3, j)) + x (0, i) * x (1, j) * (x (2, i) * x (3, j)))
      * ((x (1, j) * (x (2, i) * x (3, j))) / (1 - (x (2, i) * x (3, j)) + x (0, i) * x (1, j) * (x (2, i) * x (3, j)))) else 0)
      = ∑ j, (if i = j then 0 else PA (x (0, i)) (x (1, j)) (x (2, i)) (x (3, j))) := by
    intro i; refine sum_congr rfl fun j _ => ?_
    by_cases h : i = j <;> simp [h, PA, sq]
  have e1 : ∀ i, (∑ j, if i ≠ j then (x (0, j) * (x (2, j) * x (3, i))) / (1 - (x (2, j) * x (3, i)) + x (0, j) * x (1, i) * (x (2, j) * x (3, i)))
      * ((x (0, j) * (x (2, j) * x (3, i))) / (1 - (x (2, j) * x (3, i)) + x (0, j) * x (1, i) * (x (2, j) * x (3, i)))) else 0)
      = ∑ j, (if i = j then 0 else PA (x (1, i)) (x (0, j)) (x (3, i)) (x (2, j))) := by
    intro i; refine sum_congr rfl fun j _ => ?_
    by_cases h : i = j <;> simp [h, PA, sq, mul_comm (x (2, j)), mul_comm (x (0, j)) (x (1, i))]
  have e2 : ∀ i, (∑ j, if i ≠ j then (x (3, j) / (1 - x (3, j) * x (2, i)) * (x (3, j) / (1 - x (3, j) * x (2, i)))
      - ((x (1, j) * x (0, i) - 1) * x (3, j)) / (1 - x (3, j) * x (2, i) + x (0, i) * x (1, j) * (x (3, j) * x (2, i)))
      * (((x (1, j) * x (0, i) - 1) * x (3, j)) / (1 - x (3, j) * x (2, i) + x (0, i) * x (1, j) * (x (3, j) * x (2, i))))) else 0)
      = ∑ j, (if i = j then 0 else QB (x (0, i)) (x (1, j)) (x (2, i)) (x (3, j))) := by
    intro i; refine sum_congr rfl fun j _ => ?_
    by_cases h : i = j <;> simp [h, QB, sq, mul_comm (x (3, j)) (x (2, i)), mul_comm (x (1, j)) (x (0, i))]
  have e3 : ∀ i, (∑ j, if i ≠ j then (x (2, j) / (1 - x (3, i) * x (2, j)) * (x (2, j) / (1 - x (3, i) * x (2, j)))
      - ((x (1, i) * x (0, j) - 1) * x (2, j)) / (1 - x (3, i) * x (2, j) + x (0, j) * x (1, i) * (x (3, i) * x (2, j)))
      * (((x (1, i) * x (0, j) - 1) * x (2, j)) / (1 - x (3, i) * x (2, j) + x (0, j) * x (1, i) * (x (3, i) * x (2, j))))) else 0)
      = ∑ j, (if i = j then 0 else QB (x (1, i)) (x (0, j)) (x (3, i)) (x (2, j))) := by
    intro i; refine sum_congr rfl fun j _ => ?_
    by_cases h : i = j <;> simp [h, QB, sq, mul_comm (x (0, j)) (x (1, i))]
  have key : ∀ (p : Prop) [Decidable p] (f : Vec n) (v : Fin 4 × Fin n) (a b : ℝ),
    (if p then setAt f v a else setAt f v b) = setAt f v (if p then a else b) := by
    intro p _ f v a b; split <;> rfl
  simp only [loglikelihood_hessian_diag_decm, ite_acc_left, forR_add, zero_add, e0, e1, e2, e3, key]
  refine ⟨?_, ?_, ?_, ?_⟩
  · apply forR_cell (m := m)
    · intro f; simp only [setAt_apply, Prod.mk.injEq, and_true]; by_cases h : ko m = 0 <;> simp [h]
    · intro i hi f; simp [setAt_apply, hi.symm]
  · apply forR_cell (m := m)
    · intro f; simp only [setAt_apply, Prod.mk.injEq, and_true]; by_cases h : ki m = 0 <;> simp [h]
    · intro i hi f; simp [setAt_apply, hi.symm]
  · apply forR_cell (m := m)
    · intro f; simp only [setAt_apply, Prod.mk.injEq, and_true]; by_cases h : so m = 0 <;> simp [h]
    · intro i hi f; simp [setAt_apply, hi.symm]
  · apply forR_cell (m := m)
    · intro f; simp only [setAt_apply, Prod.mk.injEq, and_true]; by_cases h : si m = 0 <;> simp [h]
    · intro i hi f; simp [setAt_apply, hi.symm]

theorem expected_eq (x : Vec n) (m : Fin n) :
    expected_decm x (0, m) = x (0, m) * fa_out x m ∧ expected_decm x (1, m) = x (1, m) * fa_in x m ∧
    expected_decm x (2, m) = x (2, m) * fb_out x m ∧ expected_decm x (3, m) = x (3, m) * fb_in x m := by
  have e0 : ∀ i, (∑ j, if i ≠ j then x (1, j) * x (2, i) * x (3, j) / (1 - x (2, i) * x (3, j) + x (0, i) * x (1, j) * x (2, i) * x (3, j)) else 0)
      = fa_out x i := by
    intro i; rw [fa_out_eq]; refine sum_congr rfl fun j _ => ?_
    by_cases h : i = j <;> simp [h, P, mul_assoc]
  have e1 : ∀ i, (∑ j, if i ≠ j then x (0, j) * x (2, j) * x (3, i) / (1 - x (2, j) * x (3, i) + x (0, j) * x (1, i) * x (2, j) * x (3, i)) else 0)
      = fa_in x i := by
    intro i; rw [fa_in_eq]; refine sum_congr rfl fun j _ => ?_
    by_cases h : i = j
    · simp [h]
    · simp only [h, ne_eq, not_false_eq_true, if_true, if_false, P]
      congr 1 <;> ring
  have e2 : ∀ i, (∑ j, if i ≠ j then (x (3, j) / (1 - x (3, j) * x (2, i)) + (x (1, j) * x (0, i) - 1) * x (3, j)
        / (1 - x (2, i) * x (3, j) + x (0, i) * x (1, j) * x (2, i) * x (3, j))) else 0) = fb_out x i := by
    intro i; rw [fb_out_eq]; refine sum_congr rfl fun j _ => ?_
    by_cases h : i = j
    · simp [h]
    · simp only [h, ne_eq, not_false_eq_true, if_true, if_false, Q]
      congr 2 <;> ring
  have e3 : ∀ i, (∑ j, if i ≠ j then (x (2, j) / (1 - x (3, i) * x (2, j)) + (x (1, i) * x (0, j) - 1) * x (2, j)
        / (1 - x (2, j) * x (3, i) + x (0, j) * x (1, i) * x (2, j) * x (3, i))) else 0) = fb_in x i := by
    intro i; rw [fb_in_eq]; refine sum_congr rfl fun j _ => ?_
    by_cases h : i = j
    · simp [h]
    · simp only [h, ne_eq, not_false_eq_true, if_true, if_false, Q]
      congr 2; ring
  simp only [expected_decm, ite_acc_left, forR_add, zero_add, e0, e1, e2, e3]
  refine ⟨?_, ?_, ?_, ?_⟩ <;>
  · apply forR_cell (m := m)
    · intro f; simp [setAt_apply]
    · intro i hi f; simp [setAt_apply, hi.symm]

/-! Hessian -/

noncomputable def PAo (a a' b b' : ℝ) : ℝ := b * b' * (1 - b * b') / (1 - b * b' + a * a' * (b * b')) ^ 2
noncomputable def PBo (a a' b b' : ℝ) : ℝ := a' * b / (1 - b * b' + a * a' * (b * b')) ^ 2
noncomputable def QAo (a a' b b' : ℝ) : ℝ := a * b' / (1 - b * b' + a * a' * (b * b')) ^ 2
noncomputable def QBo (a a' b b' : ℝ) : ℝ := 1 / (1 - b * b') ^ 2 + (a * a' - 1) / (1 - b * b' + a * a' * (b * b')) ^ 2

theorem off_keep (x : Vec n) (h t : Fin n) (f : Mat n) (b b' : Fin 4) (i j : Fin n) (hne : ¬ (h = i ∧ t = j)) :
    hess_decm_off x h t f (b, i) (b', j) = f (b, i) (b', j) := by
  have h' : ∀ c c' : Fin 4, ¬ ((b, i) = (c, h) ∧ (b', j) = (c', t)) := by
    rintro c c' ⟨h1, h2⟩
    rw [Prod.mk.injEq] at h1 h2
    exact hne ⟨h1.2.symm, h2.2.symm⟩
  simp only [hess_decm_off, setAt2_apply, h', if_false]

theorem diag_keep (x : Vec n) (ko ki so si : Fin n → ℝ) (h t : Fin n) (f : Mat n) (b b' : Fin 4) (i j : Fin n)
    (hne : ¬ (h = i ∧ t = j)) :
    hess_decm_diag x ko ki so si h t f (b, i) (b', j) = f (b, i) (b', j) := by
  have h' : ∀ c c' : Fin 4, ¬ ((b, i) = (c, h) ∧ (b', j) = (c', t)) := by
    rintro c c' ⟨h1, h2⟩
    rw [Prod.mk.injEq] at h1 h2
    exact hne ⟨h1.2.symm, h2.2.symm⟩
  unfold hess_decm_diag
  rw [forR_obs_keep (fun f : Mat n => f (b, i) (b', j))]
  · simp only [setAt2_apply, apply_ite (fun f : Mat n => f (b, i) (b', j)), h', if_false, ite_self]
  · intro e s
    by_cases he : e = h
    · simp [he]
    · simp only [ne_eq, he, not_false_eq_true, if_true, updAt2_apply, h', if_false]

theorem hess_cell (x : Vec n) (ko ki so si : Fin n → ℝ) (b b' : Fin 4) (i j : Fin n) (G : ℝ → ℝ)
    (hset : ∀ f : Mat n, (if i = j then hess_decm_diag x ko ki so si i j f else hess_decm_off x i j f) (b, i) (b', j)
      = G (f (b, i) (b', j))) :
    loglikelihood_hessian_decm x ko ki so si (b, i) (b', j) = G 0 := by
  unfold loglikelihood_hessian_decm
  refine grid_obs_once (fun f : Mat n => f (b, i) (b', j)) _ i j G hset ?_ _
  intro h t hne f
  by_cases hht : h = t
  · simp only [hht, if_true]; rw [diag_keep]; rwa [← hht] at hne ⊢
  · simp only [hht, if_false]; exact off_keep x h t f b b' i j hne

theorem hess_ne (x : Vec n) (ko ki so si : Fin n → ℝ) (i j : Fin n) (hij : i ≠ j) :
    let H := loglikelihood_hessian_decm x ko ki so si
    (H (0, i) (0, j) = 0 ∧ H (0, i) (1, j) = -PAo (x (0, i)) (x (1, j)) (x (2, i)) (x (3, j)) ∧
     H (0, i) (2, j) = 0 ∧ H (0, i) (3, j) = -PBo (x (0, i)) (x (1, j)) (x (2, i)) (x (3, j))) ∧
    (H (1, i) (1, j) = 0 ∧ H (1, i) (0, j) = -PAo (x (1, i)) (x (0, j)) (x (3, i)) (x (2, j)) ∧
     H (1, i) (3, j) = 0 ∧ H (1, i) (2, j) = -PBo (x (1, i)) (x (0, j)) (x (3, i)) (x (2, j))) ∧
    (H (2, i) (0, j) = 0 ∧ H (2, i) (1, j) = -QAo (x (0, i)) (x (1, j)) (x (2, i)) (x (3, j)) ∧
     H (2, i) (2, j) = 0 ∧ H (2, i) (3, j) = -QBo (x (0, i)) (x (1, j)) (x (2, i)) (x (3, j))) ∧
    (H (3, i) (1, j) = 0 ∧ H (3, i) (0, j) = -QAo (x (1, i)) (x (0, j)) (x (3, i)) (x (2, j)) ∧
     H (3, i) (3, j) = 0 ∧ H (3, i) (2, j) = -QBo (x (1, i)) (x (0, j)) (x (3, i)) (x (2, j))) := by
  intro H
  have hD : x (3, j) * x (2, i) = x (2, i) * x (3, j) := mul_comm _ _
  have hA : x (1, j) * x (0, i) = x (0, i) * x (1, j) := mul_comm _ _
  have hA' : x (0, j) * x (1, i) = x (1, i) * x (0, j) := mul_comm _ _
  have g : ∀ (b b' : Fin 4) (T : ℝ), (∀ f : Mat n, hess_decm_off x i j f (b, i) (b', j) = T) → H (b, i) (b', j) = T :=
    fun b b' T h => hess_cell x ko ki so si b b' i j (fun _ => T) (fun f => by rw [if_neg hij]; exact h f)
  have z : ∀ (b b' : Fin 4), (∀ f : Mat n, hess_decm_off x i j f (b, i) (b', j) = f (b, i) (b', j)) → H (b, i) (b', j) = 0 :=
    fun b b' h => hess_cell x ko ki so si b b' i j id (fun f => by rw [if_neg hij]; exact h f)
  refine ⟨⟨z _ _ ?_, g _ _ _ ?_, z _ _ ?_, g _ _ _ ?_⟩, ⟨z _ _ ?_, g _ _ _ ?_, z _ _ ?_, g _ _ _ ?_⟩,
    ⟨z _ _ ?_, g _ _ _ ?_, z _ _ ?_, g _ _ _ ?_⟩, z _ _ ?_, g _ _ _ ?_, z _ _ ?_, g _ _ _ ?_⟩ <;> intro f <;>
    simp only [hess_decm_off, setAt2_apply, Prod.mk.injEq, and_true, Fin.reduceEq, if_true, if_false, false_and, and_false, and_self,
      PAo, PBo, QAo, QBo, hD, hA, hA', mul_assoc, neg_mul, neg_div, neg_add, sub_eq_add_neg]

theorem sub_ite_sum (F : Fin n → ℝ) (i : Fin n) : -(∑ j, if i = j then 0 else F j) = ∑ j, if i = j then 0 else -F j := by
  rw [← sum_neg_distrib]; refine sum_congr rfl fun j _ => ?_
  split <;> simp

theorem hess_eq (x : Vec n) (ko ki so si : Fin n → ℝ) (i : Fin n) :
    let H := loglikelihood_hessian_decm x ko ki so si
    (H (0, i) (0, i) = -ko i / x (0, i) ^ 2 + ∑ j, (if i = j then 0 else PA (x (0, i)) (x (1, j)) (x (2, i)) (x (3, j))) ∧
     H (0, i) (1, i) = 0 ∧
     H (0, i) (2, i) = ∑ j, (if i = j then 0 else -PB (x (0, i)) (x (1, j)) (x (2, i)) (x (3, j))) ∧
     H (0, i) (3, i) = 0) ∧
    (H (1, i) (1, i) = -ki i / x (1, i) ^ 2 + ∑ j, (if i = j then 0 else PA (x (1, i)) (x (0, j)) (x (3, i)) (x (2, j))) ∧
     H (1, i) (0, i) = 0 ∧
     H (1, i) (3, i) = ∑ j, (if i = j then 0 else -PB (x (1, i)) (x (0, j)) (x (3, i)) (x (2, j))) ∧
     H (1, i) (2, i) = 0) ∧
    (H (2, i) (0, i) = ∑ j, (if i = j then 0 else -PB (x (0, i)) (x (1, j)) (x (2, i)) (x (3, j))) ∧
     H (2, i) (1, i) = 0 ∧
     H (2, i) (2, i) = -so i / x (2, i) ^ 2 + ∑ j, (if i = j then 0 else -QB (x (0, i)) (x (1, j)) (x (2, i)) (x (3, j))) ∧
     H (2, i) (3, i) = 0) ∧
    (H (3, i) (1, i) = ∑ j, (if i = j then 0 else -PB (x (1, i)) (x (0, j)) (x (3, i)) (x (2, j))) ∧
     H (3, i) (0, i) = 0 ∧
     H (3, i) (3, i) = -si i / x (3, i) ^ 2 + ∑ j, (if i = j then 0 else -QB (x (1, i)) (x (0, j)) (x (3, i)) (x (2, j))) ∧
     H (3, i) (2, i) = 0) := by
  intro H
  -- cell accumulated by the inner loop
  have g : ∀ (b b' : Fin 4) (k y : ℝ) (F : Fin n → ℝ) ,
      (∀ f : Mat n, hess_decm_diag x ko ki so si i i f (b, i) (b', i) = (if k ≠ 0 then -k / y ^ 2 else f (b, i) (b', i)) +
        ∑ j, if i = j then 0 else F j) →
      H (b, i) (b', i) = -k / y ^ 2 + ∑ j, if i = j then 0 else F j := by
    intro b b' k y F h
    have := hess_cell x ko ki so si b b' i i (fun v => (if k ≠ 0 then -k / y ^ 2 else v) + ∑ j, if i = j then 0 else F j)
      (fun f => by rw [if_pos rfl]; exact h f)
    refine this.trans ?_
    by_cases hk : k = 0 <;> simp [hk]
  have g0 : ∀ (b b' : Fin 4) (F : Fin n → ℝ) ,
      (∀ f : Mat n, hess_decm_diag x ko ki so si i i f (b, i) (b', i) = f (b, i) (b', i) +
        ∑ j, if i = j then 0 else F j) →
      H (b, i) (b', i) = ∑ j, if i = j then 0 else F j := by
    intro b b' F h
    have := hess_cell x ko ki so si b b' i i (fun v => v + ∑ j, if i = j then 0 else F j)
      (fun f => by rw [if_pos rfl]; exact h f)
    exact this.trans (zero_add _)
  have z : ∀ (b b' : Fin 4), (∀ f : Mat n, hess_decm_diag x ko ki so si i i f (b, i) (b', i) = f (b, i) (b', i)) →
      H (b, i) (b', i) = 0 :=
    fun b b' h => hess_cell x ko ki so si b b' i i id (fun f => by rw [if_pos rfl]; exact h f)
  have hD : ∀ j, x (3, j) * x (2, i) = x (2, i) * x (3, j) := fun j => mul_comm _ _
  have hA : ∀ j, x (1, j) * x (0, i) = x (0, i) * x (1, j) := fun j => mul_comm _ _
  have hA' : ∀ j, x (0, j) * x (1, i) = x (1, i) * x (0, j) := fun j => mul_comm _ _
  refine ⟨⟨g _ _ _ _ _ ?_, z _ _ ?_, g0 _ _ _ ?_, z _ _ ?_⟩, ⟨g _ _ _ _ _ ?_, z _ _ ?_, g0 _ _ _ ?_, z _ _ ?_⟩,
    ⟨g0 _ _ _ ?_, z _ _ ?_, g _ _ _ _ _ ?_, z _ _ ?_⟩, g0 _ _ _ ?_, z _ _ ?_, g _ _ _ _ _ ?_, z _ _ ?_⟩ <;> intro f <;>
    unfold hess_decm_diag
  · refine (forR_obs_add (fun f : Mat n => f (0, i) (0, i)) _ (fun j => if i = j then 0 else PA (x (0, i)) (x (1, j)) (x (2, i)) (x (3, j))) ?_ _).trans ?_
    · intro j s
      by_cases h : i = j
      · simp [h]
      · simp only [h, ne_eq, Ne.symm h, not_false_eq_true, if_true, if_false, updAt2_apply, Prod.mk.injEq, Fin.reduceEq, and_true, and_self,
          false_and, and_false, PA, PB, QB, hD, hA, hA']
        simp only [div_pow, mul_assoc, mul_comm (x (2, i)), mul_pow]
    · simp only [apply_ite (fun f : Mat n => f (0, i) (0, i)), setAt2_apply, Prod.mk.injEq, Fin.reduceEq, and_true, and_self, false_and,
        and_false, if_true, if_false, ite_self]
  · refine (forR_obs_keep (fun f : Mat n => f (0, i) (1, i)) _ ?_ _).trans ?_
    · intro j s
      by_cases h : i = j
      · simp [h]
      · simp only [h, ne_eq, Ne.symm h, not_false_eq_true, if_true, if_false, updAt2_apply, Prod.mk.injEq, Fin.reduceEq, and_true, and_self,
          false_and, and_false]
    · simp only [apply_ite (fun f : Mat n => f (0, i) (1, i)), setAt2_apply, Prod.mk.injEq, Fin.reduceEq, and_true, and_self, false_and,
        and_false, if_true, if_false, ite_self]
  · refine (forR_obs_add (fun f : Mat n => f (0, i) (2, i)) _ (fun j => if i = j then 0 else -PB (x (0, i)) (x (1, j)) (x (2, i)) (x (3, j))) ?_ _).trans ?_
    · intro j s
      by_cases h : i = j
      · simp [h]
      · simp only [h, ne_eq, Ne.symm h, not_false_eq_true, if_true, if_false, updAt2_apply, Prod.mk.injEq, Fin.reduceEq, and_true, and_self,
          false_and, and_false, PA, PB, QB, hD, hA, hA']
        ring
    · simp only [apply_ite (fun f : Mat n => f (0, i) (2, i)), setAt2_apply, Prod.mk.injEq, Fin.reduceEq, and_true, and_self, false_and,
        and_false, if_true, if_false, ite_self]
  · refine (forR_obs_keep (fun f : Mat n => f (0, i) (3, i)) _ ?_ _).trans ?_
    · intro j s
      by_cases h : i = j
      · simp [h]
      · simp only [h, ne_eq, Ne.symm h, not_false_eq_true, if_true, if_false, updAt2_apply, Prod.mk.injEq, Fin.reduceEq, and_true, and_self,
          false_and, and_false]
    · simp only [apply_ite (fun f : Mat n => f (0, i) (3, i)), setAt2_apply, Prod.mk.injEq, Fin.reduceEq, and_true, and_self, false_and,
        and_false, if_true, if_false, ite_self]
  · refine (forR_obs_add (fun f : Mat n => f (1, i) (1, i)) _ (fun j => if i = j then 0 else PA (x (1, i)) (x (0, j)) (x (3, i)) (x (2, j))) ?_ _).trans ?_
    · intro j s
      by_cases h : i = j
      · simp [h]
      · simp only [h, ne_eq, Ne.symm h, not_false_eq_true, if_true, if_false, updAt2_apply, Prod.mk.injEq, Fin.reduceEq, and_true, and_self,
          false_and, and_false, PA, PB, QB, hD, hA, hA']
        ring
    · simp only [apply_ite (fun f : Mat n => f (1, i) (1, i)), setAt2_apply, Prod.mk.injEq, Fin.reduceEq, and_true, and_self, false_and,
        and_false, if_true, if_false, ite_self]
  · refine (forR_obs_keep (fun f : Mat n => f (1, i) (0, i)) _ ?_ _).trans ?_
    · intro j s
      by_cases h : i = j
      · simp [h]
      · simp only [h, ne_eq, Ne.symm h, not_false_eq_true, if_true, if_false, updAt2_apply, Prod.mk.injEq, Fin.reduceEq, and_true, and_self,
          false_and, and_false]
    · simp only [apply_ite (fun f : Mat n => f (1, i) (0, i)), setAt2_apply, Prod.mk.injEq, Fin.reduceEq, and_true, and_self, false_and,
        and_false, if_true, if_false, ite_self]
  · refine (forR_obs_add (fun f : Mat n => f (1, i) (3, i)) _ (fun j => if i = j then 0 else -PB (x (1, i)) (x (0, j)) (x (3, i)) (x (2, j))) ?_ _).trans ?_
    · intro j s
      by_cases h : i = j
      · simp [h]
      · simp only [h, ne_eq, Ne.symm h, not_false_eq_true, if_true, if_false, updAt2_apply, Prod.mk.injEq, Fin.reduceEq, and_true, and_self,
          false_and, and_false, PA, PB, QB, hD, hA, hA']
        ring
    · simp only [apply_ite (fun f : Mat n => f (1, i) (3, i)), setAt2_apply, Prod.mk.injEq, Fin.reduceEq, and_true, and_self, false_and,
        and_false, if_true, if_false, ite_self]
  · refine (forR_obs_keep (fun f : Mat n => f (1, i) (2, i)) _ ?_ _).trans ?_
    · intro j s
      by_cases h : i = j
      · simp [h]
      · simp only [h, ne_eq, Ne.symm h, not_false_eq_true, if_true, if_false, updAt2_apply, Prod.mk.injEq, Fin.reduceEq, and_true, and_self,
          false_and, and_false]
    · simp only [apply_ite (fun f : Mat n => f (1, i) (2, i)), setAt2_apply, Prod.mk.injEq, Fin.reduceEq, and_true, and_self, false_and,
        and_false, if_true, if_false, ite_self]
  · refine (forR_obs_add (fun f : Mat n => f (2, i) (0, i)) _ (fun j => if i = j then 0 else -PB (x (0, i)) (x (1, j)) (x (2, i)) (x (3, j))) ?_ _).trans ?_
    · intro j s
      by_cases h : i = j
      · simp [h]
      · simp only [h, ne_eq, Ne.symm h, not_false_eq_true, if_true, if_false, updAt2_apply, Prod.mk.injEq, Fin.reduceEq, and_true, and_self,
          false_and, and_false, PA, PB, QB, hD, hA, hA']
        ring
    · simp only [apply_ite (fun f : Mat n => f (2, i) (0, i)), setAt2_apply, Prod.mk.injEq, Fin.reduceEq, and_true, and_self, false_and,
        and_false, if_true, if_false, ite_self]
  · refine (forR_obs_keep (fun f : Mat n => f (2, i) (1, i)) _ ?_ _).trans ?_
    · intro j s
      by_cases h : i = j
      · simp [h]
      · simp only [h, ne_eq, Ne.symm h, not_false_eq_true, if_true, if_false, updAt2_apply, Prod.mk.injEq, Fin.reduceEq, and_true, and_self,
          false_and, and_false]
    · simp only [apply_ite (fun f : Mat n => f (2, i) (1, i)), setAt2_apply, Prod.mk.injEq, Fin.reduceEq, and_true, and_self, false_and,
        and_false, if_true, if_false, ite_self]
  · refine (forR_obs_add (fun f : Mat n => f (2, i) (2, i)) _ (fun j => if i = j then 0 else -QB (x (0, i)) (x (1, j)) (x (2, i)) (x (3, j))) ?_ _).trans ?_
    · intro j s
      by_cases h : i = j
      · simp [h]
      · simp only [h, ne_eq, Ne.symm h, not_false_eq_true, if_true, if_false, updAt2_apply, Prod.mk.injEq, Fin.reduceEq, and_true, and_self,
          false_and, and_false, PA, PB, QB, hD, hA, hA']
        ring
    · simp only [apply_ite (fun f : Mat n => f (2, i) (2, i)), setAt2_apply, Prod.mk.injEq, Fin.reduceEq, and_true, and_self, false_and,
        and_false, if_true, if_false, ite_self]
  · refine (forR_obs_keep (fun f : Mat n => f (2, i) (3, i)) _ ?_ _).trans ?_
    · intro j s
      by_cases h : i = j
      · simp [h]
      · simp only [h, ne_eq, Ne.symm h, not_false_eq_true, if_true, if_false, updAt2_apply, Prod.mk.injEq, Fin.reduceEq, and_true, and_self,
          false_and, and_false]
    · simp only [apply_ite (fun f : Mat n => f (2, i) (3, i)), setAt2_apply, Prod.mk.injEq, Fin.reduceEq, and_true, and_self, false_and,
        and_false, if_true, if_false, ite_self]
  · refine (forR_obs_add (fun f : Mat n => f (3, i) (1, i)) _ (fun j => if i = j then 0 else -PB (x (1, i)) (x (0, j)) (x (3, i)) (x (2, j))) ?_ _).trans ?_
    · intro j s
      by_cases h : i = j
      · simp [h]
      · simp only [h, ne_eq, Ne.symm h, not_false_eq_true, if_true, if_false, updAt2_apply, Prod.mk.injEq, Fin.reduceEq, and_true, and_self,
          false_and, and_false, PA, PB, QB, hD, hA, hA']
        ring
    · simp only [apply_ite (fun f : Mat n => f (3, i) (1, i)), setAt2_apply, Prod.mk.injEq, Fin.reduceEq, and_true, and_self, false_and,
        and_false, if_true, if_false, ite_self]
  · refine (forR_obs_keep (fun f : Mat n => f (3, i) (0, i)) _ ?_ _).trans ?_
    · intro j s
      by_cases h : i = j
      · simp [h]
      · simp only [h, ne_eq, Ne.symm h, not_false_eq_true, if_true, if_false, updAt2_apply, Prod.mk.injEq, Fin.reduceEq, and_true, and_self,
          false_and, and_false]
    · simp only [apply_ite (fun f : Mat n => f (3, i) (0, i)), setAt2_apply, Prod.mk.injEq, Fin.reduceEq, and_true, and_self, false_and,
        and_false, if_true, if_false, ite_self]
  · refine (forR_obs_add (fun f : Mat n => f (3, i) (3, i)) _ (fun j => if i = j then 0 else -QB (x (1, i)) (x (0, j)) (x (3, i)) (x (2, j))) ?_ _).trans ?_
    · intro j s
      by_cases h : i = j
      · simp [h]
      · simp only [h, ne_eq, Ne.symm h, not_false_eq_true, if_true, if_false, updAt2_apply, Prod.mk.injEq, Fin.reduceEq, and_true, and_self,
          false_and, and_false, PA, PB, QB, hD, hA, hA']
        ring
    · simp only [apply_ite (fun f : Mat n => f (3, i) (3, i)), setAt2_apply, Prod.mk.injEq, Fin.reduceEq, and_true, and_self, false_and,
        and_false, if_true, if_false, ite_self]
  · refine (forR_obs_keep (fun f : Mat n => f (3, i) (2, i)) _ ?_ _).trans ?_
    · intro j s
      by_cases h : i = j
      · simp [h]
      · simp only [h, ne_eq, Ne.symm h, not_false_eq_true, if_true, if_false, updAt2_apply, Prod.mk.injEq, Fin.reduceEq, and_true, and_self,
          false_and, and_false]
    · simp only [apply_ite (fun f : Mat n => f (3, i) (2, i)), setAt2_apply, Prod.mk.injEq, Fin.reduceEq, and_true, and_self, false_and,
        and_false, if_true, if_false, ite_self]

/-! exponential parametrisation -/

noncomputable def R (X Y : ℝ) : ℝ := Y * X / (1 - Y + Y * X)
noncomputable def S (X Y : ℝ) : ℝ := Y * X / ((1 - Y + Y * X) * (1 - Y))
noncomputable def RA (X Y : ℝ) : ℝ := (1 - Y) * X * Y / (1 - Y + X * Y) ^ 2
noncomputable def RB (X Y : ℝ) : ℝ := X * Y / (1 - Y + X * Y) ^ 2
noncomputable def SB (X Y : ℝ) : ℝ := X * Y * (1 - Y ^ 2 + X * Y ^ 2) / ((1 - Y) ^ 2 * (1 - Y + X * Y) ^ 2)

/-- `exp(-θ)` -/
noncomputable def ex (θ : Vec n) : Vec n := fun v => Real.exp (-θ v)
/-- product of the link parameters of the ordered pair `(i,j)` -/
noncomputable def X (x : Vec n) (i j : Fin n) : ℝ := x (0, i) * x (1, j)
/-- product of the weight parameters of the ordered pair `(i,j)` -/
noncomputable def Y (x : Vec n) (i j : Fin n) : ℝ := x (2, i) * x (3, j)

theorem ll_exp_eq (θ : Vec n) (ko ki so si : Fin n → ℝ) : loglikelihood_decm_exp θ ko ki so si =
    ∑ i, (-(ko i * θ (0, i)) + (-(ki i * θ (1, i)) + (-(so i * θ (2, i)) + (-(si i * θ (3, i)) +
      ∑ j, if i = j then 0 else -Real.log (1 + X (ex θ) i j * Y (ex θ) i j / (1 - Y (ex θ) i j)))))) := by
  simp only [loglikelihood_decm_exp, ite_sub_acc]
  simp only [sub_eq_add_neg, add_assoc, ite_acc_left, forR_add, zero_add]
  refine sum_congr rfl fun i _ => ?_
  simp only [add_right_inj]
  refine sum_congr rfl fun j _ => ?_
  by_cases h : i = j
  · simp [h]
  · simp only [h, ne_eq, not_false_eq_true, if_true, if_false, X, Y, ex, Real.exp_add]

theorem prime_exp_eq (θ : Vec n) (ko ki so si : Fin n → ℝ) (m : Fin n) :
    loglikelihood_prime_decm_exp θ ko ki so si (0, m) = -ko m + ∑ j, (if m = j then 0 else R (X (ex θ) m j) (Y (ex θ) m j)) ∧
    loglikelihood_prime_decm_exp θ ko ki so si (1, m) = -ki m + ∑ j, (if m = j then 0 else R (X (ex θ) j m) (Y (ex θ) j m)) ∧
    loglikelihood_prime_decm_exp θ ko ki so si (2, m) = -so m + ∑ j, (if m = j then 0 else S (X (ex θ) m j) (Y (ex θ) m j)) ∧
    loglikelihood_prime_decm_exp θ ko ki so si (3, m) = -si m + ∑ j, (if m = j then 0 else S (X (ex θ) j m) (Y (ex θ) j m)) := by
  have hite : ∀ i j : Fin n, ∀ a : ℝ, (if i ≠ j then a else 0) = if i = j then 0 else a := by
    intro i j a; by_cases h : i = j <;> simp [h]
  simp only [loglikelihood_prime_decm_exp, ite_acc_left, forR_add, zero_add, hite]
  refine ⟨?_, ?_, ?_, ?_⟩ <;>
  · apply forR_cell (m := m)
    · intro f; simp [setAt_apply, R, S, X, Y, ex]
    · intro i hi f; simp [setAt_apply, hi.symm]

theorem diag_exp_eq (θ : Vec n) (ko ki so si : Fin n → ℝ) (m : Fin n) :
    loglikelihood_hessian_diag_decm_exp θ ko ki so si (0, m) = ∑ j, (if m = j then 0 else -RA (X (ex θ) m j) (Y (ex θ) m j)) ∧
    loglikelihood_hessian_diag_decm_exp θ ko ki so si (1, m) = ∑ j, (if m = j then 0 else -RA (X (ex θ) j m) (Y (ex θ) j m)) ∧
    loglikelihood_hessian_diag_decm_exp θ ko ki so si (2, m) = ∑ j, (if m = j then 0 else -SB (X (ex θ) m j) (Y (ex θ) m j)) ∧
    loglikelihood_hessian_diag_decm_exp θ ko ki so si (3, m) = ∑ j, (if m = j then 0 else -SB (X (ex θ) j m) (Y (ex θ) j m)) := by
  have main : ∀ (b : Fin 4) (F : Fin n → ℝ), (∀ j (f : Vec n), j ≠ m →
      (let x := ex θ
       let tmp0 := x (0, m) * x (1, j)
       let tmp1 := x (2, m) * x (3, j)
       let f := subAt f (0, m) ((1 - tmp1) * tmp0 * tmp1 / ((1 - tmp1 + tmp0 * tmp1) ^ 2))
       let f := subAt f (2, m) (tmp0 * tmp1 * (1 - tmp1 ^ 2 + tmp0 * (tmp1 ^ 2)) / ((1 - tmp1) * (1 - tmp1 + tmp0 * tmp1)) ^ 2)
       let tmp0 := x (0, j) * x (1, m)
       let tmp1 := x (2, j) * x (3, m)
       let f := subAt f (1, m) ((1 - tmp1) * tmp0 * tmp1 / (1 - tmp1 + tmp0 * tmp1) ^ 2)
       subAt f (3, m) (tmp0 * tmp1 * (1 - tmp1 ^ 2 + tmp0 * tmp1 ^ 2) / (((1 - tmp1) ^ 2) * ((1 - tmp1 + tmp0 * tmp1) ^ 2)))) (b, m)
      = f (b, m) + -F j) → loglikelihood_hessian_diag_decm_exp θ ko ki so si (b, m) = ∑ j, (if m = j then 0 else -F j) := by
    intro b F h
    unfold loglikelihood_hessian_diag_decm_exp
    refine (forR_obs_once (fun f : Vec n => f (b, m)) _ m (fun v => v + ∑ j, (if m = j then 0 else -F j)) ?_ ?_ _).trans (zero_add _)
    · intro s
      refine forR_obs_add (fun f : Vec n => f (b, m)) _ (fun j => if m = j then 0 else -F j) ?_ s
      intro j s
      by_cases hj : m = j
      · simp [hj]
      · simp only [ne_eq, Ne.symm hj, not_false_eq_true, if_true, hj, if_false]
        exact h j s (Ne.symm hj)
    · intro i hi s
      refine forR_obs_keep (fun f : Vec n => f (b, m)) _ ?_ s
      intro j s
      by_cases hj : j = i
      · simp [hj]
      · simp [hj, subAt_eq, Pi.single_apply, hi.symm]
  refine ⟨main _ _ ?_, main _ _ ?_, main _ _ ?_, main _ _ ?_⟩ <;> intro j f hj <;>
    simp [subAt_eq, Pi.single_apply, RA, SB, X, Y, mul_pow]

theorem body_off (x : Vec n) (i j : Fin n) (hij : j ≠ i) (f : Mat n) :
    let B := hess_decm_exp_body x i j f
    (B (0, i) (1, j) = -RA (X x i j) (Y x i j) ∧ B (1, j) (0, i) = -RA (X x i j) (Y x i j)) ∧
    (B (0, i) (3, j) = -RB (X x i j) (Y x i j) ∧ B (3, j) (0, i) = -RB (X x i j) (Y x i j)) ∧
    (B (2, i) (3, j) = -SB (X x i j) (Y x i j) ∧ B (3, j) (2, i) = -SB (X x i j) (Y x i j)) ∧
    (B (1, i) (2, j) = -RB (X x j i) (Y x j i) ∧ B (2, j) (1, i) = -RB (X x j i) (Y x j i)) := by
  intro B
  have e : ∀ i j, 1 + (x (0, i) * x (1, j) - 1) * (x (2, i) * x (3, j)) = 1 - x (2, i) * x (3, j) + x (0, i) * x (1, j) * (x (2, i) * x (3, j)) := by
    intro i j; ring
  have e' : ∀ i j, 1 + (x (0, i) * x (1, j) - 1) * (x (2, i) * x (3, j)) ^ 2 = 1 - (x (2, i) * x (3, j)) ^ 2 + x (0, i) * x (1, j) * (x (2, i) * x (3, j)) ^ 2 := by
    intro i j; ring
  refine ⟨⟨?_, ?_⟩, ⟨?_, ?_⟩, ⟨?_, ?_⟩, ?_, ?_⟩ <;>
    simp only [B, hess_decm_exp_body, setAt2_apply, updAt2_apply, copyAt2_apply, Prod.mk.injEq, Fin.reduceEq, and_true, and_self,
      false_and, and_false, if_true, if_false, hij, hij.symm, RA, RB, SB, X, Y, e, e', neg_mul, neg_div]

theorem body_diag (x : Vec n) (i j : Fin n) (hij : j ≠ i) (f : Mat n) :
    let B := hess_decm_exp_body x i j f
    B (0, i) (0, i) = f (0, i) (0, i) + -RA (X x i j) (Y x i j) ∧ B (2, i) (2, i) = f (2, i) (2, i) + -SB (X x i j) (Y x i j) ∧
    B (0, i) (2, i) = f (0, i) (2, i) + -RB (X x i j) (Y x i j) ∧ B (1, i) (1, i) = f (1, i) (1, i) + -RA (X x j i) (Y x j i) ∧
    B (3, i) (3, i) = f (3, i) (3, i) + -SB (X x j i) (Y x j i) ∧ B (1, i) (3, i) = f (1, i) (3, i) + -RB (X x j i) (Y x j i) := by
  intro B
  have e : ∀ i j, 1 + (x (0, i) * x (1, j) - 1) * (x (2, i) * x (3, j)) = 1 - x (2, i) * x (3, j) + x (0, i) * x (1, j) * (x (2, i) * x (3, j)) := by
    intro i j; ring
  have e1 : ∀ i j, 1 + (-1 + x (0, i) * x (1, j)) * (x (2, i) * x (3, j)) = 1 - x (2, i) * x (3, j) + x (0, i) * x (1, j) * (x (2, i) * x (3, j)) := by
    intro i j; ring
  have e' : ∀ i j, 1 + (x (0, i) * x (1, j) - 1) * (x (2, i) * x (3, j)) ^ 2 = 1 - (x (2, i) * x (3, j)) ^ 2 + x (0, i) * x (1, j) * (x (2, i) * x (3, j)) ^ 2 := by
    intro i j; ring
  have hsq : ∀ a b : ℝ, ((1 - a) * b) ^ 2 = (1 - a) ^ 2 * b ^ 2 := fun a b => mul_pow _ _ _
  refine ⟨?_, ?_, ?_, ?_, ?_, ?_⟩ <;>
  · simp only [B, hess_decm_exp_body, setAt2_apply, updAt2_apply, copyAt2_apply, Prod.mk.injEq, Fin.reduceEq, and_true, and_self,
      false_and, and_false, if_true, if_false, hij, hij.symm, RA, RB, SB, X, Y, e, e', e1, hsq]
    exact sub_eq_add_neg _ _

/-- the double loop of the exp Hessian: a cell set by iteration `(a,b)` only -/
theorem grid_set (θ : Vec n) (ko ki so si : Fin n → ℝ) (u v : Fin 4 × Fin n) (a b : Fin n) (hab : b ≠ a) (T : ℝ)
    (hset : ∀ f, hess_decm_exp_body (ex θ) a b f u v = T)
    (hkeep : ∀ i j, j ≠ i → ¬ (i = a ∧ j = b) → ∀ f, hess_decm_exp_body (ex θ) i j f u v = f u v) :
    loglikelihood_hessian_decm_exp θ ko ki so si u v = T := by
  unfold loglikelihood_hessian_decm_exp
  refine grid_obs_once (fun f : Mat n => f u v) _ a b (fun _ => T) ?_ ?_ _
  · intro f; rw [if_pos hab]; exact hset f
  · intro i j h f
    by_cases hij : j = i
    · simp [hij]
    · simp only [ne_eq, hij, not_false_eq_true, if_true]; exact hkeep i j hij h f

/-- a cell never written -/
theorem grid_zero (θ : Vec n) (ko ki so si : Fin n → ℝ) (u v : Fin 4 × Fin n)
    (hkeep : ∀ i j, j ≠ i → ∀ f, hess_decm_exp_body (ex θ) i j f u v = f u v) :
    loglikelihood_hessian_decm_exp θ ko ki so si u v = 0 := by
  unfold loglikelihood_hessian_decm_exp
  refine (forR_obs_keep (fun f : Mat n => f u v) _ (fun i s => forR_obs_keep (fun f : Mat n => f u v) _ (fun j s => ?_) s) _).trans rfl
  by_cases hij : j = i
  · simp [hij]
  · simp only [ne_eq, hij, not_false_eq_true, if_true]; exact hkeep i j hij s

/-- a cell accumulated by the iterations `(m, j)`, `j ≠ m` -/
theorem grid_acc (θ : Vec n) (ko ki so si : Fin n → ℝ) (u v : Fin 4 × Fin n) (m : Fin n) (F : Fin n → ℝ)
    (hset : ∀ j, j ≠ m → ∀ f, hess_decm_exp_body (ex θ) m j f u v = f u v + F j)
    (hkeep : ∀ i j, j ≠ i → i ≠ m → ∀ f, hess_decm_exp_body (ex θ) i j f u v = f u v) :
    loglikelihood_hessian_decm_exp θ ko ki so si u v = ∑ j, if m = j then 0 else F j := by
  unfold loglikelihood_hessian_decm_exp
  refine (forR_obs_once (fun f : Mat n => f u v) _ m (fun v => v + ∑ j, if m = j then 0 else F j) ?_ ?_ _).trans (zero_add _)
  · intro s
    refine forR_obs_add (fun f : Mat n => f u v) _ (fun j => if m = j then 0 else F j) ?_ s
    intro j s
    by_cases hj : m = j
    · simp [hj]
    · simp only [ne_eq, Ne.symm hj, not_false_eq_true, if_true, hj, if_false]
      exact hset j (Ne.symm hj) s
  · intro i hi s
    refine forR_obs_keep (fun f : Mat n => f u v) _ ?_ s
    intro j s
    by_cases hij : j = i
    · simp [hij]
    · simp only [ne_eq, hij, not_false_eq_true, if_true]; exact hkeep i j hij hi s

/-- two cells kept equal by every iteration -/
theorem grid_copy (θ : Vec n) (ko ki so si : Fin n → ℝ) (u v u' v' : Fin 4 × Fin n)
    (h : ∀ i j, j ≠ i → ∀ f, f u v = f u' v' → hess_decm_exp_body (ex θ) i j f u v = hess_decm_exp_body (ex θ) i j f u' v') :
    loglikelihood_hessian_decm_exp θ ko ki so si u v = loglikelihood_hessian_decm_exp θ ko ki so si u' v' := by
  unfold loglikelihood_hessian_decm_exp
  refine forR_inv (fun f : Mat n => f u v = f u' v') _ _ (fun i f hf => forR_inv (fun f : Mat n => f u v = f u' v') _ _ (fun j f hf => ?_) hf) rfl
  by_cases hij : j = i
  · simp [hij, hf]
  · simp only [ne_eq, hij, not_false_eq_true, if_true]; exact h i j hij f hf

theorem hess_exp_ne (θ : Vec n) (ko ki so si : Fin n → ℝ) (i j : Fin n) (hij : i ≠ j) :
    let H := loglikelihood_hessian_decm_exp θ ko ki so si
    let x := ex θ
    (H (0, i) (0, j) = 0 ∧ H (0, i) (1, j) = -RA (X x i j) (Y x i j) ∧ H (0, i) (2, j) = 0 ∧ H (0, i) (3, j) = -RB (X x i j) (Y x i j)) ∧
    (H (1, i) (1, j) = 0 ∧ H (1, i) (0, j) = -RA (X x j i) (Y x j i) ∧ H (1, i) (3, j) = 0 ∧ H (1, i) (2, j) = -RB (X x j i) (Y x j i)) ∧
    (H (2, i) (0, j) = 0 ∧ H (2, i) (1, j) = -RB (X x i j) (Y x i j) ∧ H (2, i) (2, j) = 0 ∧ H (2, i) (3, j) = -SB (X x i j) (Y x i j)) ∧
    (H (3, i) (1, j) = 0 ∧ H (3, i) (0, j) = -RB (X x j i) (Y x j i) ∧ H (3, i) (3, j) = 0 ∧ H (3, i) (2, j) = -SB (X x j i) (Y x j i)) := by
  intro H x
  refine ⟨⟨grid_zero _ _ _ _ _ _ _ ?_, grid_set _ _ _ _ _ _ _ i j hij.symm _ (fun f => (body_off x i j hij.symm f).1.1) ?_,
    grid_zero _ _ _ _ _ _ _ ?_, grid_set _ _ _ _ _ _ _ i j hij.symm _ (fun f => (body_off x i j hij.symm f).2.1.1) ?_⟩,
    ⟨grid_zero _ _ _ _ _ _ _ ?_, grid_set _ _ _ _ _ _ _ j i hij _ (fun f => (body_off x j i hij f).1.2) ?_,
    grid_zero _ _ _ _ _ _ _ ?_, grid_set _ _ _ _ _ _ _ i j hij.symm _ (fun f => (body_off x i j hij.symm f).2.2.2.1) ?_⟩,
    ⟨grid_zero _ _ _ _ _ _ _ ?_, grid_set _ _ _ _ _ _ _ j i hij _ (fun f => (body_off x j i hij f).2.2.2.2) ?_,
    grid_zero _ _ _ _ _ _ _ ?_, grid_set _ _ _ _ _ _ _ i j hij.symm _ (fun f => (body_off x i j hij.symm f).2.2.1.1) ?_⟩,
    grid_zero _ _ _ _ _ _ _ ?_, grid_set _ _ _ _ _ _ _ j i hij _ (fun f => (body_off x j i hij f).2.1.2) ?_,
    grid_zero _ _ _ _ _ _ _ ?_, grid_set _ _ _ _ _ _ _ j i hij _ (fun f => (body_off x j i hij f).2.2.1.2) ?_⟩
  all_goals
    first
    | (intro a b hab f
       have hn : ∀ c : Fin n, ¬ (i = c ∧ j = c) := fun c h => hij (h.1.trans h.2.symm)
       simp only [hess_decm_exp_body, setAt2_apply, updAt2_apply, copyAt2_apply, Prod.mk.injEq, Fin.reduceEq, and_true, and_self,
         false_and, and_false, true_and, if_true, if_false, hn]; done)
    | (intro a b hab hne f
       have hne1 : ¬ (i = a ∧ j = b) := fun h => hne (by simp [h.1, h.2])
       simp only [hess_decm_exp_body, setAt2_apply, updAt2_apply, copyAt2_apply, Prod.mk.injEq, Fin.reduceEq, and_true, and_self,
         false_and, and_false, true_and, if_true, if_false, hne1]; done)
    | (intro a b hab hne f
       have hne1 : ¬ (i = b ∧ j = a) := fun h => hne (by simp [h.1, h.2])
       simp only [hess_decm_exp_body, setAt2_apply, updAt2_apply, copyAt2_apply, Prod.mk.injEq, Fin.reduceEq, and_true, and_self,
         false_and, and_false, true_and, if_true, if_false, hne1]; done)

theorem hess_exp_eq (θ : Vec n) (ko ki so si : Fin n → ℝ) (i : Fin n) :
    let H := loglikelihood_hessian_decm_exp θ ko ki so si
    let x := ex θ
    (H (0, i) (0, i) = ∑ j, (if i = j then 0 else -RA (X x i j) (Y x i j)) ∧ H (0, i) (1, i) = 0 ∧
     H (0, i) (2, i) = ∑ j, (if i = j then 0 else -RB (X x i j) (Y x i j)) ∧ H (0, i) (3, i) = 0) ∧
    (H (1, i) (1, i) = ∑ j, (if i = j then 0 else -RA (X x j i) (Y x j i)) ∧ H (1, i) (0, i) = 0 ∧
     H (1, i) (3, i) = ∑ j, (if i = j then 0 else -RB (X x j i) (Y x j i)) ∧ H (1, i) (2, i) = 0) ∧
    (H (2, i) (0, i) = ∑ j, (if i = j then 0 else -RB (X x i j) (Y x i j)) ∧ H (2, i) (1, i) = 0 ∧
     H (2, i) (2, i) = ∑ j, (if i = j then 0 else -SB (X x i j) (Y x i j)) ∧ H (2, i) (3, i) = 0) ∧
    (H (3, i) (1, i) = ∑ j, (if i = j then 0 else -RB (X x j i) (Y x j i)) ∧ H (3, i) (0, i) = 0 ∧
     H (3, i) (3, i) = ∑ j, (if i = j then 0 else -SB (X x j i) (Y x j i)) ∧ H (3, i) (2, i) = 0) := by
  intro H x
  have c02 : H (0, i) (2, i) = ∑ j, (if i = j then 0 else -RB (X x i j) (Y x i j)) := by
    refine grid_acc _ _ _ _ _ _ _ i _ ?_ ?_
    · exact fun j hj f => (body_diag (ex θ) i j hj f).2.2.1
    · intro a b hab ha f
      simp only [hess_decm_exp_body, setAt2_apply, updAt2_apply, copyAt2_apply, Prod.mk.injEq, Fin.reduceEq, and_true, and_self,
        false_and, and_false, if_true, if_false, ha, ha.symm]
  have c13 : H (1, i) (3, i) = ∑ j, (if i = j then 0 else -RB (X x j i) (Y x j i)) := by
    refine grid_acc _ _ _ _ _ _ _ i _ ?_ ?_
    · exact fun j hj f => (body_diag (ex θ) i j hj f).2.2.2.2.2
    · intro a b hab ha f
      simp only [hess_decm_exp_body, setAt2_apply, updAt2_apply, copyAt2_apply, Prod.mk.injEq, Fin.reduceEq, and_true, and_self,
        false_and, and_false, if_true, if_false, ha, ha.symm]
  have c20 : H (2, i) (0, i) = H (0, i) (2, i) := by
    refine grid_copy _ _ _ _ _ _ _ _ _ ?_
    intro a b hab f hf
    by_cases ha : i = a
    · subst ha
      simp only [hess_decm_exp_body, setAt2_apply, updAt2_apply, copyAt2_apply, Prod.mk.injEq, Fin.reduceEq, and_true, and_self,
        false_and, and_false, if_true, if_false]
    · simp only [hess_decm_exp_body, setAt2_apply, updAt2_apply, copyAt2_apply, Prod.mk.injEq, Fin.reduceEq, and_true, and_self,
        false_and, and_false, if_true, if_false, ha, hf]
  have c31 : H (3, i) (1, i) = H (1, i) (3, i) := by
    refine grid_copy _ _ _ _ _ _ _ _ _ ?_
    intro a b hab f hf
    by_cases ha : i = a
    · subst ha
      simp only [hess_decm_exp_body, setAt2_apply, updAt2_apply, copyAt2_apply, Prod.mk.injEq, Fin.reduceEq, and_true, and_self,
        false_and, and_false, if_true, if_false]
    · simp only [hess_decm_exp_body, setAt2_apply, updAt2_apply, copyAt2_apply, Prod.mk.injEq, Fin.reduceEq, and_true, and_self,
        false_and, and_false, if_true, if_false, ha, hf]
  refine ⟨⟨grid_acc _ _ _ _ _ _ _ i _ (fun j hj f => (body_diag (ex θ) i j hj f).1) ?_, grid_zero _ _ _ _ _ _ _ ?_, c02, grid_zero _ _ _ _ _ _ _ ?_⟩,
    ⟨grid_acc _ _ _ _ _ _ _ i _ (fun j hj f => (body_diag (ex θ) i j hj f).2.2.2.1) ?_, grid_zero _ _ _ _ _ _ _ ?_, c13, grid_zero _ _ _ _ _ _ _ ?_⟩,
    ⟨c20.trans c02, grid_zero _ _ _ _ _ _ _ ?_, grid_acc _ _ _ _ _ _ _ i _ (fun j hj f => (body_diag (ex θ) i j hj f).2.1) ?_,
      grid_zero _ _ _ _ _ _ _ ?_⟩,
    c31.trans c13, grid_zero _ _ _ _ _ _ _ ?_, grid_acc _ _ _ _ _ _ _ i _ (fun j hj f => (body_diag (ex θ) i j hj f).2.2.2.2.1) ?_,
      grid_zero _ _ _ _ _ _ _ ?_⟩
  all_goals
    first
    | (intro a b hab ha f
       simp only [hess_decm_exp_body, setAt2_apply, updAt2_apply, copyAt2_apply, Prod.mk.injEq, Fin.reduceEq, and_true, and_self,
         false_and, and_false, if_true, if_false, ha, ha.symm]
       done)
    | (intro a b hab f
       have hn : ¬ (i = a ∧ i = b) := fun h => hab (h.2.symm.trans h.1)
       have hn' : ¬ (i = b ∧ i = a) := fun h => hab (h.1.symm.trans h.2)
       simp only [hess_decm_exp_body, setAt2_apply, updAt2_apply, copyAt2_apply, Prod.mk.injEq, Fin.reduceEq, and_true, and_self,
         false_and, and_false, true_and, if_true, if_false, hn, hn']; done)

end Verif.DECM
