import Verif.Witness.Data
import Verif.Props.CM
import Verif.Props.DCM
import Verif.Props.CReMa
import Verif.Props.DCReMa
import Verif.Props.ECM
import Verif.Props.DECM

/-! Instances of the theorems about the model functions (C01-C12, C18, C33, C41, C42). -/

namespace Verif.Wit

open Spec

/-! ### cm -/

section
open CM

example := C06_cm_gradient v3 v3 c3 v3_pos 1
example := C07_cm_hessian_offdiag_iff v3 v3 c3 v3_pos 0 1 (by decide) (c3_ne _) (c3_ne _)
example := C07_cm_hessian_diag_iff v3 v3 c3 v3_pos 1
example := C07_cm_hessian_partial (fun _ : Fin 3 => 2) v3 (fun _ => 1) (fun _ => by norm_num) one_eq (fun _ _ => rfl) 0 1
example := C07_cm_exp_hessian_offdiag v3 v3 c3 0 1 (by decide)
example := C07_cm_exp_hessian_partial v3 v3 (fun _ => 1) one_eq 0 1
example := C08_cm_exp_hessian_diag_wrong v3 v3 (fun _ => 1) one_eq 0 1 (by decide)
example := C08_cm_exp_hessian_diag_bound_partial v3 v3 (fun _ => 1) one_eq 0
example := C08_cm_exp_hessian_diag_partial v3 v3 c3 c3_one 0
example := C18_pmatrix_cm_range z3 z3_nonneg 0 1
example := C12_cm_fixed_point_iff v3 v3 c3 v3_pos c3_ne v3_ne
example := C12_cm_exp_fixed_point_iff v3 v3 c3 c3_one v3_pos (fun i => Or.inr (other3 i))
example := C42_cm_iterative_nonneg z3 z3 c3 z3_nonneg c3_one z3_nonneg 0
example : CM.iterative_cm z3 z3 c3 0 = 0 := (C42_cm_iterative_nonneg z3 z3 c3 z3_nonneg c3_one z3_nonneg 0).2 z3_zero
example := C41_cm_zero_node z3 0 z3_zero

end

/-! ### dcm -/

section
open DCM

private theorem nd : ([0, 2] : List (Fin 3)).Nodup := by decide

example := C06_dcm_gradient x2 v3 v3 [0, 2] [0, 2] c3 nd nd (fun i _ => x2_pos _) (fun i _ => x2_pos _) (0, 1)
example := C06_dcm_exp_gradient x2 v3 v3 [0, 2] [0, 2] c3 nd nd (0, 1)
example := C07_dcm_hessian x2 v3 v3 [0, 2] [0, 2] c3 nd nd (fun i _ => x2_pos _) (fun i _ => x2_pos _) (0, 1) (1, 2)
example := C07_dcm_exp_hessian x2 v3 v3 [0, 2] [0, 2] c3 nd nd (0, 1) (1, 2)
example := C08_dcm_exp_hessian_diag x2 v3 v3 [0, 2] [0, 2] c3 nd nd (0, 1)
example := C08_dcm_hessian_diag_iff x2 v3 v3 [0, 2] [0, 2] c3 nd nd (fun i _ => x2_pos _) (fun i _ => x2_pos _) (0, 1)
example := C08_dcm_hessian_diag_partial x2 v3 v3 [0, 2] [0, 2] (fun _ => 1) one_eq nd nd (fun i _ => x2_pos _) (fun i _ => x2_pos _) (0, 1)
example := C09_dcm_reparametrisation x2 v3 v3 [0, 2] [0, 2] c3 nd nd
example := C09_dcm_gradients x2 v3 v3 [0, 2] [0, 2] c3 nd nd (1, 1)
open Reduction in
example (d : DSeq 3) (θ : Vec (rnz_n d)) := C02_dcm_exp_solution_iff d θ
  (fun v => if v.1 = 0 then (if rnz_dseq_out d v.2 = 0 then 0 else Real.exp (-θ (0, v.2))) else if rnz_dseq_in d v.2 = 0 then 0 else Real.exp (-θ (1, v.2)))
  (fun _ => rfl) (fun _ => rfl)

private theorem den_pos (x : Vec 3) (hx : ∀ v, 0 < x v) (v : Fin 2 × Fin 3) : 0 < iterative_den x c3 v := by
  obtain ⟨j, hj⟩ := other3' v.2
  exact (C42_dcm_iterative x v3 v3 c3 [] [] (fun v => (hx v).le) c3_one v3_nonneg v3_nonneg v.2 ⟨j, hj, hx _⟩ ⟨j, hj, hx _⟩ v.1).1

example := C12_dcm_fixed_point_iff x2 v3 v3 c3 (fun i => ⟨fun h => absurd h (x2_pos _).ne', fun h => absurd h (v3_ne i)⟩)
  (fun i => ⟨fun h => absurd h (x2_pos _).ne', fun h => absurd h (v3_ne i)⟩) c3_ne (fun v => (den_pos x2 x2_pos v).ne')
example := C12_dcm_exp_conjugate x2 v3 v3 c3 [0, 1, 2] [0, 1, 2] (1, 2) (show 0 < v3 2 from v3_pos 2) (den_pos _ (fun _ => Real.exp_pos _) _)
example := C12_dcm_exp_fixed_point_iff x2 v3 v3 c3 v3_pos v3_pos c3_one other3'
example := C18_pmatrix_dcm_range x2 [0, 2] [0, 2] (fun v => (x2_pos v).le) 0 1
example := C18_pmatrix_dcm_sums x2 [0, 1, 2] [0, 1, 2] (fun i _ => by fin_cases i <;> decide) (fun i _ => by fin_cases i <;> decide) 1

end

/-! ### crema -/

section
open CReMa

private theorem r3 (i j : Fin 3) : 0 < v3 i + v3 j := add_pos (v3_pos i) (v3_pos j)

/-- the strengths of the path at unequal rates -/
private noncomputable def s3 : Fin 3 → ℝ := expected_strength_crema_undirected v3 edges3

private theorem s3_stationary : ∀ i, loglikelihood_prime_crema_undirected v3 s3 edges3 i = 0 := (C05_crema_solution_iff v3 s3 edges3).2 fun _ => rfl

example := C05_crema_expected_meaning v3 path3 path3_symm path3_diag (fun i j _ => r3 i j) 1
example := C06_crema_gradient v3 s3 edges3 (fun e _ => r3 _ _) 1
example := C07_crema_hessian v3 s3 path3 path3_symm path3_diag (fun i j _ => r3 i j) 0 1
example := C08_crema_hessian_diag v3 s3 path3 path3_symm path3_diag (fun i j _ => r3 i j) 1
example := C11_crema_tangent v3 (fun _ => 1) s3 edges3 edges3_nonneg (fun e _ => r3 _ _) (fun e _ => by norm_num)
example := C11_crema_global_max v3 s3 edges3 edges3_nonneg (fun e _ => r3 _ _) s3_stationary (fun _ => 1) (fun e _ => by norm_num)

/-- the rates `(2, 1, 4)` have the same sums along the two links of the path -/
private noncomputable def v3' : Fin 3 → ℝ := ![2, 1, 4]

private theorem v3_pos' (i : Fin 3) : 0 < v3' i := by fin_cases i <;> norm_num [v3']

private theorem s3_stationary' : ∀ i, loglikelihood_prime_crema_undirected v3' s3 edges3 i = 0 := (C05_crema_solution_iff v3' s3 edges3).2 fun i => by
  unfold s3
  have h : ∀ e ∈ edges3, v3' e.1 + v3' e.2.1 = v3 e.1 + v3 e.2.1 := by
    intro e he; simp [edges3] at he; rcases he with rfl | rfl
    · show (2 : ℝ) + 1 = 1 + 2; norm_num
    · show (1 : ℝ) + 4 = 2 + 3; norm_num
  simp only [expected_eq]
  refine congrArg List.sum (List.map_congr_left fun e he => ?_)
  rw [add_comm (v3' e.2.1), add_comm (v3 e.2.1), h e he]

example := C11_crema_unique_rates v3 v3' s3 edges3 edges3_pos (fun e _ => r3 _ _)
  (fun e _ => add_pos (v3_pos' _) (v3_pos' _)) s3_stationary s3_stationary' (0, 1, 1 / 2) (by simp [edges3])
example := C12_crema_fixed_point_iff v3 v3 edges3 v3_pos 1 (v3_ne 1)
example := C42_crema_iterative v3 v3 edges3 v3_pos edges3_nonneg 1
example : 0 < -iterative_crema_undirected v3 v3 edges3 1 :=
  (C42_crema_iterative v3 v3 edges3 v3_pos edges3_nonneg 1).1 (v3_pos 1) ⟨(1, 2, 1), by simp [edges3], Or.inl rfl, one_pos⟩
example := C33_crema_likelihood v3 s3 z3 z3_nonneg
example := C33_crema_hessian_diag sched3 sched3_perm v3 z3 z3_nonneg 1
example := C33_crema_expected v3 z3 z3_nonneg 1
example := C33_crema_iterative sched3 sched3_perm v3 v3 z3 z3_nonneg 1
example := C05_crema_sparse_solution_iff sched3 sched3_perm v3 v3 z3 z3_nonneg

end

/-! ### directed crema -/

section
open DCReMa DCM

private theorem r2 (i j : Fin 3) : 0 < x2 (0, i) + x2 (1, j) := add_pos (x2_pos _) (x2_pos _)

private noncomputable def so3 : Fin 3 → ℝ := expected_out_strength_crema_directed x2 edges3
private noncomputable def si3 : Fin 3 → ℝ := expected_in_strength_crema_directed x2 edges3

private theorem so3_stationary : ∀ v, loglikelihood_prime_crema_directed x2 so3 si3 edges3 (nonzero so3) (nonzero si3) v = 0 :=
  (C05_dcrema_solution_iff x2 so3 si3 edges3).2 ⟨fun _ => rfl, fun _ => rfl⟩

/-- one added to the out-rates and taken from the in-rates -/
private noncomputable def x2' : Fin 2 × Fin 3 → ℝ := fun v => if v.1 = 0 then x2 v + 1 / 2 else x2 v - 1 / 2

private theorem x2_sum (i j : Fin 3) : x2' (0, i) + x2' (1, j) = x2 (0, i) + x2 (1, j) := by simp [x2']

private theorem so3_stationary' : ∀ v, loglikelihood_prime_crema_directed x2' so3 si3 edges3 (nonzero so3) (nonzero si3) v = 0 :=
  (C05_dcrema_solution_iff x2' so3 si3 edges3).2 ⟨fun i => by simp only [so3, expected_out_strength_crema_directed, x2_sum], fun i => by simp only [si3, expected_in_strength_crema_directed, x2_sum]⟩

example := C05_dcrema_expected_meaning x2 path3 (fun i j _ => r2 i j) 1
example := C06_dcrema_gradient x2 so3 si3 edges3 (fun e _ => r2 _ _) (0, 1)
example := C07_dcrema_hessian x2 v3 v3 path3 (fun i j _ => r2 i j) (0, 1) (1, 2)
example := C08_dcrema_hessian_diag x2 v3 v3 path3 (fun i j _ => r2 i j) (0, 1)
example := C11_dcrema_tangent x2 (fun _ => 1) so3 si3 edges3 edges3_nonneg (fun e _ => r2 _ _) (fun e _ => by norm_num)
example := C11_dcrema_global_max x2 so3 si3 edges3 edges3_nonneg (fun e _ => r2 _ _) so3_stationary (fun _ => 1) (fun e _ => by norm_num)
example := C11_dcrema_unique_rates x2 x2' so3 si3 edges3 edges3_pos (fun e _ => r2 _ _) (fun e _ => by rw [x2_sum]; exact r2 _ _)
  so3_stationary so3_stationary' (0, 1, 1 / 2) (by simp [edges3])
example := C12_dcrema_fixed_point_iff x2 v3 v3 edges3 x2_pos (1, 1) (v3_ne 1)
example := C42_dcrema_iterative x2 v3 v3 edges3 x2_pos edges3_nonneg 1
example : 0 < -iterative_crema_directed x2 v3 v3 edges3 (nonzero v3) (nonzero v3) (0, 1) :=
  (C42_dcrema_iterative x2 v3 v3 edges3 x2_pos edges3_nonneg 1).1 (v3_pos 1) ⟨(1, 2, 1), by simp [edges3], rfl, one_pos⟩

/-- node 0 has no out-strength, node 2 no in-strength -/
private noncomputable def w3 : Fin 3 → ℝ := ![2, 1, 0]

private theorem con : Consistent z3 w3 z3 w3 z3 w3 := by
  refine ⟨z3_nonneg, fun i => ?_, fun _ h => h, fun _ h => h, fun _ => Iff.rfl, fun _ => Iff.rfl⟩
  fin_cases i <;> norm_num [w3]

private theorem nz_z3 : (nonzero z3) = [1, 2] := by
  simp [nonzero, z3, List.finRange_succ]

private theorem nz_perm : ([2, 1] : List (Fin 3)).Perm (nonzero z3) := by rw [nz_z3]; decide

example := C33_dcrema_likelihood x2 z3 w3 z3 w3 z3 w3 con
example := C33_dcrema_gradient x2 z3 w3 z3 w3 z3 w3 con [2, 1] (nonzero w3) nz_perm (List.Perm.refl _) (0, 1)
example := C33_dcrema_expected x2 z3 w3 z3 w3 z3 w3 con 1
example := C05_dcrema_sparse_solution_iff x2 z3 w3 z3 w3 z3 w3 con [2, 1] (nonzero w3) nz_perm (List.Perm.refl _)
example := C33_dcrema_hessian_diag x2 z3 w3 z3 w3 z3 w3 con sched3 sched3_perm (fun i j _ => r2 i j) 1
example := C33_dcrema_iterative_serial_partial x2 z3 w3 z3 w3 z3 w3 con (0, 1)

end

/-! ### ecm -/

section
open ECM

private theorem adm : AdmECM u2 := ⟨fun i => u2_pos _, fun i => u2_pos _, fun i j _ => by nlinarith [u2_pos (1, i), u2_pos (1, j), u2_lt (1, i), u2_lt (1, j)]⟩
private theorem adme : AdmECMexp x2 := fun i j _ => add_pos (x2_pos _) (x2_pos _)

example := C06_ecm_gradient u2 v3 v3 adm (1, 2)
example := C06_ecm_exp_gradient x2 v3 v3 adme (1, 2)
example := C03_ecm_exp_solution_iff x2 v3 v3 adme
example := C07_ecm_hessian u2 v3 v3 adm (0, 1) (1, 2)
example := C07_ecm_exp_hessian x2 v3 v3 adme (0, 1) (1, 2)
example := C12_ecm_fixed_point_iff u2 v3 v3 adm v3_ne v3_ne
example := C12_ecm_exp_fixed_point_iff x2 v3 v3 adme v3_pos v3_pos other3
example := C42_ecm_iterative_pos x2 v3 v3 adme v3_pos v3_pos other3 (1, 2)

end

/-! ### decm -/

section
open DECM

private theorem admd : AdmDECM u4 := ⟨u4_pos, fun i j _ => by nlinarith [u4_pos (2, i), u4_pos (3, j), u4_lt (2, i), u4_lt (3, j)]⟩
private theorem admde : AdmDECMexp x4 := fun i j _ => add_pos (x4_pos _) (x4_pos _)

/-- unequal positive observations in all four blocks -/
private theorem obs_pos (v : Fin 4 × Fin 3) : 0 < obs v3 v3 v3 v3 v := by unfold obs; split_ifs <;> exact v3_pos _

/-- the degrees and strengths expected at `u4` -/
private noncomputable def ex4 (b : Fin 4) (i : Fin 3) : ℝ := expected_decm u4 (b, i)

private theorem ex4_stationary : ∀ v, loglikelihood_prime_decm u4 (ex4 0) (ex4 1) (ex4 2) (ex4 3) v = 0 := by
  have h := (C04_decm_solution_iff u4 (ex4 0) (ex4 1) (ex4 2) (ex4 3)).1 fun v => by
    obtain ⟨b, i⟩ := v
    fin_cases b <;> rfl
  exact fun v => (h v).1 (u4_pos v).ne'

private theorem den_ne (v : Fin 4 × Fin 3) : den u4 v ≠ 0 := fun h => by
  have hv := C42_decm_iterative u4 v3 v3 v3 v3 admd other3' (fun v => (obs_pos v).le) v
  rw [(forms u4 v3 v3 v3 v3 v).2.2, h, div_zero] at hv
  exact (obs_pos v).ne' (hv.2.1 rfl)

private theorem ex4_fixed : ∀ v, iterative_decm u4 (ex4 0) (ex4 1) (ex4 2) (ex4 3) v = u4 v := fun v => by
  have ho : obs (ex4 0) (ex4 1) (ex4 2) (ex4 3) v = u4 v * den u4 v := by
    rw [← (forms u4 v3 v3 v3 v3 v).2.1]
    obtain ⟨b, i⟩ := v
    fin_cases b <;> rfl
  rw [(forms u4 _ _ _ _ v).2.2, ho, mul_div_cancel_right₀ _ (den_ne v)]

example := C06_decm_gradient u4 v3 v3 v3 v3 admd (3, 1)
example := C07_decm_hessian u4 v3 v3 v3 v3 admd (3, 1) (2, 0)
example := C08_decm_hessian_diag_partial u4 v3 v3 v3 v3 (3, 1) (fun _ => v3_ne 1)
example := (C08_decm_hessian_diag_partial u4 v3 v3 v3 v3 (3, 1) (fun _ => v3_ne 1)).2 admd
example := C08_decm_hessian_diag_sign u4 v3 v3 v3 z3 0 z3_zero
example := C09_decm_reparametrisation x4 v3 v3 v3 v3 admde
example := C09_decm_gradients x4 v3 v3 v3 v3 admde (2, 1)
example := C06_decm_exp_gradient x4 v3 v3 v3 v3 admde (2, 1)
example := C07_decm_exp_hessian x4 v3 v3 v3 v3 admde (2, 1) (3, 0)
example := C04_decm_solution u4 _ _ _ _ admd ex4_stationary 1
example := C12_decm_fixed_point_solution u4 _ _ _ _ (fun v _ => (u4_pos v).ne') ex4_fixed
example := C12_decm_fixed_point_iff u4 v3 v3 v3 v3 (fun v => (u4_pos v).ne') (fun v => (obs_pos v).ne')
example := C42_decm_iterative u4 v3 v3 v3 v3 admd other3' (fun v => (obs_pos v).le) (2, 1)
example := C12_decm_exp_fixed_point_partial x4 v3 v3 v3 v3 admde other3' v3_pos v3_pos 1

end

end Verif.Wit
