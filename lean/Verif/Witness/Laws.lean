import Verif.Witness.Data
import Verif.Props.Concave
import Verif.Props.Exp2
import Verif.Props.MaxLikelihood
import Verif.Props.LawExamples
import Verif.Props.Runs2

/-! Instances of the theorems about concavity, entropy and likelihood (C09, C11, C12, C49, C50, C51). -/

namespace Verif.Wit

open Spec Finset

/-! ### C11, cm -/

section
open CM

/-- the degrees expected at `θ = v3` with multiplicities `c3` -/
private noncomputable def k3 : Fin 3 → ℝ := fun i => loglikelihood_prime_cm_exp v3 (fun _ => 0) c3 i / c3 i

private theorem k3_stationary (i : Fin 3) : loglikelihood_prime_cm_exp v3 k3 c3 i = 0 := by
  have h := prime_exp_eq v3 (fun _ => 0) c3 i
  rw [mul_zero, neg_zero, zero_add] at h
  rw [prime_exp_eq, ← h, k3, mul_div_cancel₀ _ (c3_ne i)]; ring

example := C11_cm_exp_tangent v3 z3 k3 c3 c3_one
example := C11_cm_exp_global_max v3 k3 c3 c3_one k3_stationary z3

/-- on two nodes the multipliers are determined only up to their sum: `(0, 1)` and `(1, 0)` are solutions of the same problem -/
private noncomputable def k2 : Fin 2 → ℝ := fun _ => Real.exp (-1) / (1 + Real.exp (-1))

private theorem k2_stationary (i : Fin 2) : loglikelihood_prime_cm_exp ![0, 1] k2 (fun _ => 1) i = 0 ∧ loglikelihood_prime_cm_exp ![1, 0] k2 (fun _ => 1) i = 0 := by
  constructor <;> rw [prime_exp_eq] <;> fin_cases i <;> simp [k2, Fin.sum_univ_two]

example := C11_cm_exp_unique ![0, 1] ![1, 0] k2 (fun _ => 1) (fun _ => le_refl _) (fun i => (k2_stationary i).1) (fun i => (k2_stationary i).2) 0 1 (Or.inl (by decide))

end

/-! ### C11, dcm -/

section
open DCM

private theorem nd3 : ([0, 1, 2] : List (Fin 3)).Nodup := by decide

/-- the degrees expected at `θ = x2` -/
private noncomputable def d2 (b : Fin 2) : Fin 3 → ℝ := fun i => loglikelihood_prime_dcm_exp x2 (fun _ => 0) (fun _ => 0) [0, 1, 2] [0, 1, 2] c3 (b, i) / c3 i

private noncomputable def x2s : Fin 2 × Fin 3 → ℝ := fun v => if v.1 = 0 then x2 v + 1 else x2 v - 1

private theorem x2s_exp (i j : Fin 3) : Real.exp (-x2s (0, i)) * Real.exp (-x2s (1, j)) = Real.exp (-x2 (0, i)) * Real.exp (-x2 (1, j)) := by
  rw [← Real.exp_add, ← Real.exp_add]; simp [x2s]; ring

private theorem d2_stationary (v : Fin 2 × Fin 3) : loglikelihood_prime_dcm_exp x2 (d2 0) (d2 1) [0, 1, 2] [0, 1, 2] c3 v = 0 := by
  obtain ⟨b, i⟩ := v
  have hi : i ∈ ([0, 1, 2] : List (Fin 3)) := by fin_cases i <;> decide
  fin_cases b
  · have h := prime_exp_eq0 x2 (fun _ => 0) (fun _ => 0) [0, 1, 2] [0, 1, 2] c3 nd3 i
    rw [mul_zero, sub_zero, if_pos hi] at h
    show loglikelihood_prime_dcm_exp x2 (d2 0) (d2 1) [0, 1, 2] [0, 1, 2] c3 (0, i) = 0
    rw [prime_exp_eq0 _ _ _ _ _ _ nd3, if_pos hi, ← h, d2, mul_div_cancel₀ _ (c3_ne i), sub_self]
  · have h := prime_exp_eq1 x2 (fun _ => 0) (fun _ => 0) [0, 1, 2] [0, 1, 2] c3 nd3 i
    rw [mul_zero, sub_zero, if_pos hi] at h
    show loglikelihood_prime_dcm_exp x2 (d2 0) (d2 1) [0, 1, 2] [0, 1, 2] c3 (1, i) = 0
    rw [prime_exp_eq1 _ _ _ _ _ _ nd3, if_pos hi, ← h, d2, mul_div_cancel₀ _ (c3_ne i), sub_self]

private theorem d2_stationary' (v : Fin 2 × Fin 3) : loglikelihood_prime_dcm_exp x2s (d2 0) (d2 1) [0, 1, 2] [0, 1, 2] c3 v = 0 := by
  rw [← d2_stationary v]
  obtain ⟨b, i⟩ := v
  have hi : i ∈ ([0, 1, 2] : List (Fin 3)) := by fin_cases i <;> decide
  fin_cases b
  · show loglikelihood_prime_dcm_exp x2s (d2 0) (d2 1) [0, 1, 2] [0, 1, 2] c3 (0, i) = loglikelihood_prime_dcm_exp x2 (d2 0) (d2 1) [0, 1, 2] [0, 1, 2] c3 (0, i)
    rw [prime_exp_eq0 _ _ _ _ _ _ nd3, prime_exp_eq0 _ _ _ _ _ _ nd3, if_pos hi, if_pos hi, mul_sum, mul_sum]
    congr 1
    refine sum_congr rfl fun j _ => ?_
    rw [x2s_exp, mul_div_assoc', mul_div_assoc', mul_left_comm, x2s_exp, mul_left_comm]
  · show loglikelihood_prime_dcm_exp x2s (d2 0) (d2 1) [0, 1, 2] [0, 1, 2] c3 (1, i) = loglikelihood_prime_dcm_exp x2 (d2 0) (d2 1) [0, 1, 2] [0, 1, 2] c3 (1, i)
    rw [prime_exp_eq1 _ _ _ _ _ _ nd3, prime_exp_eq1 _ _ _ _ _ _ nd3, if_pos hi, if_pos hi, sum_mul, sum_mul]
    congr 1
    refine sum_congr rfl fun j _ => ?_
    rw [mul_comm (Real.exp (-x2s (1, i))), mul_comm (Real.exp (-x2 (1, i))), x2s_exp, div_mul_eq_mul_div, div_mul_eq_mul_div, mul_assoc, mul_assoc, x2s_exp]

example := C11_dcm_exp_tangent x2 (fun _ => 0) v3 v3 [0, 1, 2] [0, 1, 2] c3 nd3 nd3 c3_one
example := C11_dcm_exp_global_max x2 (d2 0) (d2 1) [0, 1, 2] [0, 1, 2] c3 nd3 nd3 c3_one d2_stationary (fun _ => 0)
example := C11_dcm_exp_unique x2 x2s (d2 0) (d2 1) [0, 1, 2] [0, 1, 2] c3 nd3 nd3 c3_one d2_stationary d2_stationary' 0 2 (by decide) (by decide) (Or.inl (by decide))

example := C12_dcm_exp_2_fixed_point_iff_partial x2 v3 v3 c3 c3_one 1
example := (C12_dcm_exp_2_fixed_point_iff_partial x2 v3 v3 c3 c3_one 1).1 (v3_pos 1) ⟨0, v3_ne 0, Or.inl (by decide)⟩
example := C12_dcm_exp_2_nan x2 z3 v3 c3 (0, 0) rfl
example := C09_dcm_exp_expected_out_partial (fun v : Fin 2 × Fin 3 => v3 v.2) (fun _ => rfl)
example := C09_dcm_exp_expected_out_wrong x2 0 1 (by decide) (fun j => by simp [x2])

end

/-! ### C11, ecm and decm -/

section
open ECM

private theorem adm2 (θ : Fin 2 × Fin 2 → ℝ) (h : 0 < θ (1, 0) + θ (1, 1)) : AdmECMexp θ := fun i j hij => by
  fin_cases i <;> fin_cases j <;> first | exact absurd rfl hij | exact h | (rw [add_comm]; exact h)

/-- two solutions of one problem on two nodes -/
private noncomputable def t2 : Fin 2 × Fin 2 → ℝ := fun v => v.2.val + 1
private noncomputable def t2' : Fin 2 × Fin 2 → ℝ := fun v => 2 - v.2.val

private noncomputable def ke (b i : Fin 2) : ℝ := expected_ecm (fun v => Real.exp (-t2 v)) (b, i)

private theorem t2_adm : AdmECMexp t2 := adm2 _ (by norm_num [t2])
private theorem t2_adm' : AdmECMexp t2' := adm2 _ (by norm_num [t2'])

private theorem t2_stationary : ∀ v, loglikelihood_prime_ecm_exp t2 (ke 0) (ke 1) v = 0 :=
  (C03_ecm_exp_solution_iff t2 _ _ t2_adm).2 ⟨fun _ => rfl, fun _ => rfl⟩

private theorem t2_stationary' : ∀ v, loglikelihood_prime_ecm_exp t2' (ke 0) (ke 1) v = 0 := by
  rintro ⟨b, i⟩
  have h := t2_stationary (b, i)
  have e : ∀ b, Real.exp (-t2' (b, 0)) * Real.exp (-t2' (b, 1)) = Real.exp (-t2 (b, 0)) * Real.exp (-t2 (b, 1)) := fun b => by
    rw [← Real.exp_add, ← Real.exp_add]; congr 1; simp [t2, t2']; norm_num
  have e' : ∀ b, Real.exp (-t2' (b, 1)) * Real.exp (-t2' (b, 0)) = Real.exp (-t2 (b, 1)) * Real.exp (-t2 (b, 0)) := fun b => by
    rw [mul_comm, e, mul_comm]
  fin_cases b
  · show loglikelihood_prime_ecm_exp t2' (ke 0) (ke 1) (0, i) = 0
    replace h : loglikelihood_prime_ecm_exp t2 (ke 0) (ke 1) (0, i) = 0 := h
    rw [prime_exp_eq0] at h ⊢
    fin_cases i <;> simpa [Fin.sum_univ_two, e, e'] using h
  · show loglikelihood_prime_ecm_exp t2' (ke 0) (ke 1) (1, i) = 0
    replace h : loglikelihood_prime_ecm_exp t2 (ke 0) (ke 1) (1, i) = 0 := h
    rw [prime_exp_eq1] at h ⊢
    fin_cases i <;> simpa [Fin.sum_univ_two, e, e'] using h

example := C03_ecm_residual u2 v3 v3 ⟨fun i => u2_pos _, fun i => u2_pos _, fun i j _ => by nlinarith [u2_pos (1, i), u2_pos (1, j), u2_lt (1, i), u2_lt (1, j)]⟩ 1
example := C11_ecm_exp_tangent t2 (fun _ => 1) (ke 0) (ke 1) t2_adm (adm2 _ (by norm_num))
example := C11_ecm_exp_global_max t2 (ke 0) (ke 1) t2_adm t2_stationary (fun _ => 1) (adm2 _ (by norm_num))
example := C11_ecm_exp_unique t2 t2' (ke 0) (ke 1) t2_adm t2_adm' t2_stationary t2_stationary' 0 1 (by decide)

end

section
open DECM

private theorem admx : AdmDECMexp x4 := fun i j _ => add_pos (x4_pos _) (x4_pos _)

/-- degrees and strengths expected at `θ = x4` -/
private noncomputable def kd (b : Fin 4) (i : Fin 3) : ℝ := expected_decm_exp x4 (b, i)

private theorem kd_stationary : ∀ v, loglikelihood_prime_decm_exp x4 (kd 0) (kd 1) (kd 2) (kd 3) v = 0 :=
  (C04_decm_exp_solution_iff x4 _ _ _ _ admx).2 fun v => by obtain ⟨b, i⟩ := v; fin_cases b <;> rfl

/-- the same solution with one added to the out-multipliers and taken from the in-multipliers -/
private noncomputable def x4s : Fin 4 × Fin 3 → ℝ := fun v => if v.1 = 0 ∨ v.1 = 2 then x4 v + 1 else x4 v - 1

private theorem x4s_exp (i j : Fin 3) : X (ex x4s) i j = X (ex x4) i j ∧ Y (ex x4s) i j = Y (ex x4) i j := by
  simp only [X, Y, ex, ← Real.exp_add]
  constructor <;> congr 1 <;> simp [x4s] <;> ring

private theorem admx' : AdmDECMexp x4s := fun i j h => by
  have : x4s (2, i) + x4s (3, j) = x4 (2, i) + x4 (3, j) := by simp [x4s]
  rw [this]; exact admx i j h

private theorem kd_stationary' : ∀ v, loglikelihood_prime_decm_exp x4s (kd 0) (kd 1) (kd 2) (kd 3) v = 0 := by
  rintro ⟨b, i⟩
  have h := kd_stationary (b, i)
  obtain ⟨p0, p1, p2, p3⟩ := prime_exp_eq x4s (kd 0) (kd 1) (kd 2) (kd 3) i
  obtain ⟨q0, q1, q2, q3⟩ := prime_exp_eq x4 (kd 0) (kd 1) (kd 2) (kd 3) i
  simp only [x4s_exp] at p0 p1 p2 p3
  fin_cases b
  · exact (p0.trans q0.symm).trans h
  · exact (p1.trans q1.symm).trans h
  · exact (p2.trans q2.symm).trans h
  · exact (p3.trans q3.symm).trans h

example := C04_decm_residual u4 v3 v3 v3 v3 (2, 1) (u4_pos _).ne'
example := C11_decm_exp_tangent x4 (fun _ => 1) v3 v3 v3 v3 admx (fun _ _ _ => by norm_num)
example := C11_decm_exp_global_max x4 (kd 0) (kd 1) (kd 2) (kd 3) admx kd_stationary (fun _ => 1) (fun _ _ _ => by norm_num)
example := C11_decm_exp_unique x4 x4s (kd 0) (kd 1) (kd 2) (kd 3) admx admx' kd_stationary kd_stationary' 0 1 (by decide)
example := C12_decm_exp_2_fixed_point_partial x4 v3 v3 v3 v3 admx other3' v3_pos v3_pos 1

private theorem kd_pos (b : Fin 4) (i : Fin 3) : 0 < kd b i := by
  rw [kd, expected_decm_exp, (forms _ (fun _ => 0) (fun _ => 0) (fun _ => 0) (fun _ => 0) _).2.1]
  refine mul_pos (Real.exp_pos _) (den_pos _ ⟨fun _ => Real.exp_pos _, fun i j h => ?_⟩ other3' _)
  rw [← Real.exp_add, Real.exp_lt_one_iff]
  linarith [admx i j h]

example := C12_decm_exp_2_fixed_point_wrong x4 (kd 0) (kd 1) (kd 2) (kd 3) admx other3' (kd_pos 2) (kd_pos 3) kd_stationary 1

end

/-! ### C49, C50, C51 -/

section
open Solve

/-- all the mass on one network -/
private noncomputable def point {α : Type} (a : α) : α → ℝ := by classical exact fun b => if b = a then 1 else 0

private theorem point_law {α : Type} (a : α) : IsLaw (point a) := by
  classical
  refine ⟨fun b => ?_, ?_⟩
  · unfold point; split_ifs <;> norm_num
  · exact hasSum_ite_eq a 1

private theorem point_mean {α : Type} (a : α) (f : α → ℝ) (m : ℝ) (h : f a = m) : HasMean (point a) f m := by
  classical
  have : (fun b => point a b * f b) = fun b => if b = a then m else 0 := by
    funext b; unfold point; split_ifs with hb
    · rw [hb, h, one_mul]
    · rw [zero_mul]
  rw [HasMean, this]; exact hasSum_ite_eq a m

private theorem ring_one (i : Fin 5) : degUBCM (fun _ => 1) i = 2 := by
  rw [degUBCM]; simp only [linkUBCM, sum_const, card_others]; norm_num

private theorem turn_one (i : Fin 3) : outDBCM (fun _ => 1) (fun _ => 1) i = 1 ∧ inDBCM (fun _ => 1) (fun _ => 1) i = 1 := by
  rw [outDBCM, inDBCM]; simp only [linkDBCM, sum_const, card_others3]; norm_num

private noncomputable def rv : Fin 2 × Fin 5 → ℝ := ring_ecm.choose
private theorem rv_adm : AdmECM rv := ring_ecm.choose_spec.1
private theorem rv_stat : ∀ w, ECM.loglikelihood_prime_ecm rv ringData.deg ringData.strength_sequence w = 0 := ring_ecm.choose_spec.2.2.2
private noncomputable def tv : Fin 4 × Fin 3 → ℝ := turn_decm.choose
private theorem tv_adm : AdmDECM tv := turn_decm.choose_spec.1
private theorem tv_stat : ∀ w, DECM.loglikelihood_prime_decm tv turnData.degOut turnData.degIn turnData.out_strength turnData.in_strength w = 0 :=
  turn_decm.choose_spec.2.2.2.2.2

private theorem rv_nonneg (w) : 0 ≤ rv w := by
  obtain ⟨b, i⟩ := w
  fin_cases b
  · exact (rv_adm.1 i).le
  · exact (rv_adm.2.1 i).le

private theorem rv_deg (i : Fin 5) : degUECM (fun i => rv (0, i)) (fun i => rv (1, i)) i = 2 := by
  rw [← deg_ecm_spec, ((ECM.C03_ecm_solution_iff _ _ _ rv_adm).1 rv_stat).1 i]
  simp only [UData.deg, ringData, ring_degree']; norm_num

private theorem rv_str (i : Fin 5) : strUECM (fun i => rv (0, i)) (fun i => rv (1, i)) i = 4 := by
  rw [← str_ecm_spec, ((ECM.C03_ecm_solution_iff _ _ _ rv_adm).1 rv_stat).2 i]
  simp only [ringData, ring_strength]; norm_num

private theorem tv_exp (i : Fin 3) : outDegDECM (blk4 tv 0) (blk4 tv 1) (blk4 tv 2) (blk4 tv 3) i = 1 ∧ inDegDECM (blk4 tv 0) (blk4 tv 1) (blk4 tv 2) (blk4 tv 3) i = 1 ∧
    outStrDECM (blk4 tv 0) (blk4 tv 1) (blk4 tv 2) (blk4 tv 3) i = 2 ∧ inStrDECM (blk4 tv 0) (blk4 tv 1) (blk4 tv 2) (blk4 tv 3) i = 2 := by
  obtain ⟨e0, e1, e2, e3⟩ := expected_decm_spec tv (fun w => (tv_adm.1 w).le) tv_adm.2 i
  obtain ⟨s0, s1, s2, s3⟩ := DECM.C04_decm_solution tv _ _ _ _ tv_adm tv_stat i
  rw [← e0, ← e1, ← e2, ← e3, s0, s1, s2, s3]
  simp only [DData.degOut, DData.degIn, turnData, (turn_degree' i).1, (turn_degree' i).2, (turn_strength i).1, (turn_strength i).2]
  norm_num

private theorem tb (b : Fin 4) (i : Fin 3) : 0 ≤ blk4 tv b i := (tv_adm.1 (b, i)).le
private theorem one_nn {n : ℕ} (i : Fin n) : (0 : ℝ) ≤ (fun _ : Fin n => (1 : ℝ)) i := zero_le_one

example := C49_ubcm_total v3 v3_nonneg
example := C49_dbcm_total v3 z3 v3_nonneg z3_nonneg
example := C49_uecm_total _ _ (fun i => rv_nonneg (0, i)) (fun i => rv_nonneg (1, i)) rv_adm.2.2
example := C49_decm_total _ _ _ _ (tb 0) (tb 1) (tb 2) (tb 3) tv_adm.2
example := C50_ubcm_dual (fun _ => 2) (fun _ : Fin 5 => by norm_num) (fun _ => 2) (fun _ h => absurd h (by norm_num)) (point (ring true)) (point_law _)
  (fun i => point_mean _ _ _ (by rw [ring_degree]; norm_num))
example := C50_ubcm_max_entropy (fun _ => 1) one_nn (point (ring true)) (point_law _) (fun i => point_mean _ _ _ (by rw [ring_degree, ring_one]; norm_num))
example := C50_ubcm_gap (fun _ => 2) (fun _ : Fin 5 => by norm_num) (fun _ => 2) (fun _ h => absurd h (by norm_num)) (point (ring true)) (point_law _)
  (fun i => point_mean _ _ _ (by rw [ring_degree]; norm_num))
example := C50_dbcm_dual (fun _ => 2) (fun _ => 3) (fun _ => by norm_num) (fun _ => by norm_num) (fun _ => 1) (fun _ => 1) (fun _ h => absurd h (by norm_num))
  (fun _ h => absurd h (by norm_num)) (point (turn true)) (point_law _)
  (fun i => point_mean _ _ _ (by rw [(turn_degree i).1]; norm_num)) (fun i => point_mean _ _ _ (by rw [(turn_degree i).2]; norm_num))
example := C50_dbcm_gap (fun _ => 2) (fun _ => 3) (fun _ => by norm_num) (fun _ => by norm_num) (fun _ => 1) (fun _ => 1) (fun _ h => absurd h (by norm_num))
  (fun _ h => absurd h (by norm_num)) (point (turn true)) (point_law _)
  (fun i => point_mean _ _ _ (by rw [(turn_degree i).1]; norm_num)) (fun i => point_mean _ _ _ (by rw [(turn_degree i).2]; norm_num))
example := C50_dbcm_max_entropy (fun _ => 1) (fun _ => 1) one_nn one_nn (point (turn true)) (point_law _)
  (fun i => point_mean _ _ _ (by rw [(turn_degree i).1, (turn_one i).1]; norm_num)) (fun i => point_mean _ _ _ (by rw [(turn_degree i).2, (turn_one i).2]; norm_num))
example := C50_uecm_dual _ _ (fun i => rv_nonneg (0, i)) (fun i => rv_nonneg (1, i)) rv_adm.2.2 (fun _ => 2) (fun _ => 4)
  (fun i h => h.elim (fun h => absurd h (rv_adm.1 i).ne') (fun h => absurd h (rv_adm.2.1 i).ne')) (point (ring 2)) (point_law _)
  (fun i => point_mean _ _ _ (by rw [ring_degree']; norm_num)) (fun i => point_mean _ _ _ (by rw [ring_strength]; norm_num))
example := C50_uecm_gap _ _ (fun i => rv_nonneg (0, i)) (fun i => rv_nonneg (1, i)) rv_adm.2.2 (fun _ => 2) (fun _ => 4)
  (fun i h => h.elim (fun h => absurd h (rv_adm.1 i).ne') (fun h => absurd h (rv_adm.2.1 i).ne')) (point (ring 2)) (point_law _)
  (fun i => point_mean _ _ _ (by rw [ring_degree']; norm_num)) (fun i => point_mean _ _ _ (by rw [ring_strength]; norm_num))
example := C50_uecm_max_entropy _ _ (fun i => rv_nonneg (0, i)) (fun i => rv_nonneg (1, i)) rv_adm.2.2 (point (ring 2)) (point_law _)
  (fun i => point_mean _ _ _ (by rw [ring_degree', rv_deg]; norm_num)) (fun i => point_mean _ _ _ (by rw [ring_strength, rv_str]; norm_num))
example := C50_decm_dual _ _ _ _ (tb 0) (tb 1) (tb 2) (tb 3) tv_adm.2 (fun _ => 1) (fun _ => 1) (fun _ => 2) (fun _ => 2)
  (fun i h => h.elim (fun h => absurd h (tv_adm.1 _).ne') (fun h => absurd h (tv_adm.1 _).ne'))
  (fun i h => h.elim (fun h => absurd h (tv_adm.1 _).ne') (fun h => absurd h (tv_adm.1 _).ne')) (point (turn 2)) (point_law _)
  (fun i => point_mean _ _ _ (by rw [(turn_degree' i).1]; norm_num)) (fun i => point_mean _ _ _ (by rw [(turn_degree' i).2]; norm_num))
  (fun i => point_mean _ _ _ (by rw [(turn_strength i).1]; norm_num)) (fun i => point_mean _ _ _ (by rw [(turn_strength i).2]; norm_num))
example := C50_decm_gap _ _ _ _ (tb 0) (tb 1) (tb 2) (tb 3) tv_adm.2 (fun _ => 1) (fun _ => 1) (fun _ => 2) (fun _ => 2)
  (fun i h => h.elim (fun h => absurd h (tv_adm.1 _).ne') (fun h => absurd h (tv_adm.1 _).ne'))
  (fun i h => h.elim (fun h => absurd h (tv_adm.1 _).ne') (fun h => absurd h (tv_adm.1 _).ne')) (point (turn 2)) (point_law _)
  (fun i => point_mean _ _ _ (by rw [(turn_degree' i).1]; norm_num)) (fun i => point_mean _ _ _ (by rw [(turn_degree' i).2]; norm_num))
  (fun i => point_mean _ _ _ (by rw [(turn_strength i).1]; norm_num)) (fun i => point_mean _ _ _ (by rw [(turn_strength i).2]; norm_num))
example := C50_decm_max_entropy _ _ _ _ (tb 0) (tb 1) (tb 2) (tb 3) tv_adm.2 (point (turn 2)) (point_law _)
  (fun i => point_mean _ _ _ (by rw [(turn_degree' i).1, (tv_exp i).1]; norm_num)) (fun i => point_mean _ _ _ (by rw [(turn_degree' i).2, (tv_exp i).2.1]; norm_num))
  (fun i => point_mean _ _ _ (by rw [(turn_strength i).1, (tv_exp i).2.2.1]; norm_num)) (fun i => point_mean _ _ _ (by rw [(turn_strength i).2, (tv_exp i).2.2.2]; norm_num))

example := C49_cm_mean z3 z3_nonneg 1
example := C49_dcm_mean v3 z3 v3_nonneg z3_nonneg 1
example := C49_ecm_mean rv rv_nonneg rv_adm.2.2 1
example := C49_decm_mean tv (fun w => (tv_adm.1 w).le) tv_adm.2 1

example := C51_ubcm_max_likelihood (ring true) (fun _ => 1) (fun _ => 3) one_nn (fun _ => by norm_num) (fun i => by rw [ring_one, ring_degree]; norm_num)
example := C51_dbcm_max_likelihood (turn true) (fun _ => 1) (fun _ => 1) v3 v3 one_nn one_nn v3_nonneg v3_nonneg
  (fun i => by rw [(turn_one i).1, (turn_degree i).1]; norm_num) (fun i => by rw [(turn_one i).2, (turn_degree i).2]; norm_num)
example := C51_uecm_max_likelihood (ring 2) _ _ (fun _ => 1) (fun _ => 1 / 2) (fun i => rv_nonneg (0, i)) (fun i => rv_nonneg (1, i)) rv_adm.2.2
  one_nn (fun _ => by norm_num) (fun _ _ _ => by norm_num) (fun i => by rw [rv_deg, ring_degree']; norm_num) (fun i => by rw [rv_str, ring_strength]; norm_num)
example := C51_decm_max_likelihood (turn 2) _ _ _ _ (fun _ => 1) (fun _ => 1) (fun _ => 1 / 2) (fun _ => 1 / 2) (tb 0) (tb 1) (tb 2) (tb 3) tv_adm.2
  one_nn one_nn (fun _ => by norm_num) (fun _ => by norm_num) (fun _ _ _ => by norm_num)
  (fun i => by rw [(turn_degree' i).1, (tv_exp i).1]; norm_num) (fun i => by rw [(turn_degree' i).2, (tv_exp i).2.1]; norm_num)
  (fun i => by rw [(turn_strength i).1, (tv_exp i).2.2.1]; norm_num) (fun i => by rw [(turn_strength i).2, (tv_exp i).2.2.2]; norm_num)

example := C50_cm_stationary ringData (fun _ => 1) (fun _ => one_pos) ring_cm.2
example := C50_cm_dual ringData (fun _ => 2) (fun _ => by norm_num) (point (ring true)) (point_law _)
  (fun i => point_mean _ _ _ (by simp only [ringData, ring_degree, ring_degree']))
example := C51_cm_stationary ringData (ring true) ring_cm.1 (fun _ => 1) (fun _ => one_pos) ring_cm.2 (fun _ => 3) (fun _ => by norm_num)
example := C50_dcm_stationary turnData (fun _ => 1) (fun _ => zero_le_one) turn_dcm.2.2.1 turn_dcm.2.2.2.1 turn_dcm.2.2.2.2
example := C51_dcm_stationary turnData (turn true) turn_dcm.1 turn_dcm.2.1 (fun _ => 1) (fun _ => zero_le_one) turn_dcm.2.2.1 turn_dcm.2.2.2.1 turn_dcm.2.2.2.2
  v3 v3 v3_nonneg v3_nonneg
example := C50_ecm_stationary ringData rv rv_adm rv_stat
example := C51_ecm_stationary ringData (ring 2) (fun _ => rfl) (fun _ => rfl) rv rv_adm rv_stat (fun _ => 1) (fun _ => 1 / 2) one_nn (fun _ => by norm_num)
  (fun _ _ _ => by norm_num)
example := C50_decm_stationary turnData tv tv_adm tv_stat
example := C51_decm_stationary turnData (turn 2) (fun _ => rfl) (fun _ => rfl) (fun _ => rfl) (fun _ => rfl) tv tv_adm tv_stat (fun _ => 1) (fun _ => 1)
  (fun _ => 1 / 2) (fun _ => 1 / 2) one_nn one_nn (fun _ => by norm_num) (fun _ => by norm_num) (fun _ _ _ => by norm_num)

/-- rates at which nodes of zero degree would have probability zero are excluded; here all degrees are positive -/
example := C49_cm_log_probability ringData (ring true).1 (ring true).2 ring_cm.1 (fun _ => 2) (fun _ => by norm_num) (fun _ _ => by norm_num)
example := C49_cm_exp_log_probability ringData (ring true).1 (ring true).2 ring_cm.1 (fun _ => 2)
example := C49_dcm_log_probability turnData (turn true).1 (turn true).2 turn_dcm.1 turn_dcm.2.1 (fun _ => 2) (fun _ _ => by norm_num) (fun _ _ => by norm_num)
example := C49_dcm_exp_log_probability turnData (turn true).1 (turn true).2 turn_dcm.1 turn_dcm.2.1 (fun _ => 2)
example := C49_ecm_log_probability ringData (ring 2).1 (ring 2).2 (fun _ => rfl) (fun _ => rfl) rv rv_nonneg
  (fun b i _ => by fin_cases b; exacts [rv_adm.1 i, rv_adm.2.1 i]) rv_adm.2.2
example := C49_ecm_exp_log_probability ringData (ring 2).1 (ring 2).2 (fun _ => rfl) (fun _ => rfl) (fun _ => 1) (fun _ _ _ => by norm_num)
example := C49_decm_log_probability turnData (turn 2).1 (turn 2).2 (fun _ => rfl) (fun _ => rfl) (fun _ => rfl) (fun _ => rfl) tv (fun w => (tv_adm.1 w).le)
  (fun _ _ => ⟨tv_adm.1 _, tv_adm.1 _⟩) (fun _ _ => ⟨tv_adm.1 _, tv_adm.1 _⟩) tv_adm.2
example := C49_decm_exp_log_probability turnData (turn 2).1 (turn 2).2 (fun _ => rfl) (fun _ => rfl) (fun _ => rfl) (fun _ => rfl) (fun _ => 1)
  (fun _ _ _ => by norm_num)

private theorem w3_zero (i j : Fin 3) (h : (turn true).1 i j = false) : (if (turn true).1 i j = true then v3 i else 0) = 0 := by simp [h]

example := C49_crema_log_density (ring true).1 (ring true).2 (fun i j => if (ring true).1 i j = true then (if i + j = 1 then 3 else 5) else 0)
  (fun i j => by simp only [(ring true).2.symm i j, add_comm i j]) (fun i j h => by simp [h]) _ (fun _ => 1) (fun _ => rfl) (fun _ _ _ => by norm_num)
example := C49_dcrema_log_density
  ⟨fun i => degree (turn 2).1 i, fun i => inDegree (turn 2).1 i, fun i => ∑ j, if (turn true).1 i j = true then v3 i else 0,
    fun i => ∑ j, if (turn true).1 j i = true then v3 j else 0, true⟩
  (turn true).1 (fun i j => if (turn true).1 i j = true then v3 i else 0) w3_zero x2 (fun _ => rfl) (fun _ => rfl)
  (fun _ _ _ => add_pos (x2_pos _) (x2_pos _))

end

end Verif.Wit
