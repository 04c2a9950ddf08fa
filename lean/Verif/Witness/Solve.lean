import Verif.Witness.Data
import Verif.Props.LawExamples
import Verif.Props.Runs2
import Verif.Props.SolveU6
import Verif.Props.SolveD6
import Verif.Props.Agree
import Verif.Props.Reports
import Verif.Props.FixedPoint
import Verif.Props.CremaFixed

/-! Instances of the theorems about `solve_tool` (C13-C16, C36-C38, C40, C41, C46, C49, C50, C54, C61, C63, C65, C67-C69). -/

namespace Verif.Wit

open Spec Finset Solve

noncomputable section

/-- an environment: a draw of 1/2 everywhere and an exact eigendecomposition -/
def e0 : Env := env_exists.choose
theorem e0_valid : e0.Valid := env_exists.choose_spec.1
theorem e0_draws : e0.NonzeroDraws := env_exists.choose_spec.2.1
theorem e0_outside : ∀ ι x, e0.outside ι x = none := env_exists.choose_spec.2.2

/-- default options with `full_return=True` -/
def p0 : Params := { full_return := true }

/-- the ring of five nodes as a matrix -/
def ringM : Fin 5 → Fin 5 → ℝ := fun i j => if (ring true).1 i j = true then 1 else 0
theorem ringM_symm (i j) : ringM i j = ringM j i := by simp only [ringM, (ring true).2.symm i j]
theorem ringM_diag (i) : ringM i i = 0 := by simp [ringM, (ring true).2.loopless i]
theorem ringM_nonneg (i j) : 0 ≤ ringM i j := by unfold ringM; split_ifs <;> norm_num

/-- the directed triangle as a matrix -/
def turnM : Fin 3 → Fin 3 → ℝ := fun i j => if j = i + 1 then 1 else 0
theorem turnM_nonneg (i j) : 0 ≤ turnM i j := by unfold turnM; split_ifs <;> norm_num

theorem ring_deg (i : Fin 5) : ringData.dseq i ≠ 0 := by simp only [ringData, ring_degree']; norm_num
theorem ring_str (i : Fin 5) : ringData.strength_sequence i = 4 := by simp only [ringData, ring_strength]; norm_num
theorem ring_pos : ringData.Pos := ⟨ring_deg, fun i => by rw [ring_str]; norm_num⟩
theorem turn_o (i : Fin 3) : turnData.dseq_out i = 1 := by simp only [turnData, (turn_degree' i).1]
theorem turn_i (i : Fin 3) : turnData.dseq_in i = 1 := by simp only [turnData, (turn_degree' i).2]
theorem turn_so (i : Fin 3) : turnData.out_strength i = 2 := by simp only [turnData, (turn_strength i).1]; norm_num
theorem turn_si (i : Fin 3) : turnData.in_strength i = 2 := by simp only [turnData, (turn_strength i).2]; norm_num
theorem turn_sum : ∑ i, turnData.dseq_in i = ∑ i, turnData.dseq_out i := by simp only [turn_o, turn_i]
theorem turn_lt (i : Fin 3) : turnData.out_strength i < ∑ k, turnData.out_strength k ∨ turnData.in_strength i < ∑ k, turnData.in_strength k := by
  left; simp only [turn_so, sum_const, card_univ, Fintype.card_fin]; norm_num
theorem turn_spread : turnData.Spread := ⟨fun i => by rw [turn_so]; norm_num, fun i => by rw [turn_si]; norm_num, fun i j _ => by
  left; simp only [turn_so, sum_const, card_univ, Fintype.card_fin]; norm_num⟩

theorem no_method (me : Method) : "gradient" ≠ me.name := by cases me <;> decide
theorem no_method_s (me : Method) : "gradient" ≠ "sparse-" ++ me.name := by cases me <;> decide
theorem no_model (mo : UModel) : "ubcm" ≠ mo.name := by cases mo <;> decide
theorem no_dmodel (mo : DModel) : "dbcm" ≠ mo.name := by cases mo <;> decide

/-! ### undirected, C36 -/

example := C36_cm e0 (d := ringData) {} .newton (.nodes fun _ => 1) .other "" .other p0 rfl
example := C36_cm_exp e0 (d := ringData) {} .quasinewton (.nodes fun _ => 1) .other "" .other p0 rfl
example := C36_cm e0 (d := ringData) {} .fixed_point (.name "degrees") .other "" .other p0 rfl
example := C36_ecm e0 (d := ringData) {} .newton (.pairs fun _ => 1 / 2) .other "" .other p0 rfl
example := C36_ecm_exp e0 (d := ringData) {} .newton (.pairs fun _ => 1 / 2) .other "" .other p0 rfl
example := C36_crema_matrix e0 (d := ringData) {} .newton (.nodes fun _ => 1) ringM ringM_symm ringM_diag "" .other p0 rfl
example := C36_crema e0 (d := ringData) {} .newton .newton (.nodes fun _ => 1) (.nodes fun _ => 1) p0 rfl rfl
example := C36_crema_sparse e0 e0_valid (d := ringData) {} .quasinewton .newton (by decide) (.nodes fun _ => 1) (.nodes fun _ => 1) p0 rfl rfl
example := C36_unknown_method_binary e0 (d := ringData) {} .cm (Or.inl rfl) "gradient" no_method (.nodes fun _ => 1) .other "" .other p0
example := C36_unknown_method_ecm_partial e0 (d := ringData) {} .ecm (Or.inl rfl) "gradient" no_method (.pairs fun _ => 1) .other "" .other p0
example := C36_unknown_method_ecm_overwrites e0 (d := ringData) {} "gradient" no_method .other "" .other p0 ring_deg
example := C36_unknown_method_crema_partial e0 (d := ringData) {} .crema (Or.inl rfl) "gradient" no_method no_method_s (.nodes fun _ => 1) ringM "" .other p0
example := C36_unknown_model_silent e0 (d := ringData) {} rfl "ubcm" no_model "newton" (.nodes fun _ => 1) .other "" .other p0
example := C36_key_clash e0 (d := ringData) {} .newton (.nodes fun _ => 1) ringM "" .other p0 rfl

/-! ### undirected, C13, C37, C40, C46 -/

example := C37_ecm e0 (d := ringData) {} .ecm_exp (Or.inr rfl) "newton" (.name "strengths") .other "" .other p0
example := C37_cm_partial e0 (d := ringData) {} rfl .cm (Or.inl rfl) "newton" (.name "degrees") .other "" .other p0
example := C37_crema_matrix e0 (d := ringData) {} .newton (.nodes fun _ => 1) ringM ringM_symm ringM_diag "" .other p0
example := C37_crema e0 (d := ringData) {} .newton .newton (.nodes fun _ => 1) (.nodes fun _ => 1) p0
example := C37_crema_sparse e0 (d := ringData) {} .quasinewton (by decide) .newton (.nodes fun _ => 1) (.nodes fun _ => 1) p0
example := C13_cm_exp e0 (d := ringData) {} .newton (by decide) (.name "degrees") .other "" .other p0 rfl
example := C13_cm e0 (d := ringData) {} .newton (by decide) (.name "degrees") .other "" .other p0 rfl
example := C13_ecm_exp e0 (d := ringData) {} .newton (by decide) (.name "strengths") .other "" .other p0 rfl
example := C13_ecm e0 (d := ringData) {} .newton (by decide) (.name "strengths") .other "" .other p0 rfl
example := C13_crema_matrix e0 (d := ringData) {} .newton (by decide) (.name "strengths") ringM ringM_symm ringM_diag "" .other p0 rfl
example := C13_crema e0 (d := ringData) {} .newton (by decide) .newton (.nodes fun _ => 1) (.nodes fun _ => 1) p0 rfl
example := C13_crema_sparse e0 e0_valid (d := ringData) {} .newton (.nodes fun _ => 1) (.nodes fun _ => 1) p0 rfl
example := C36_crema_sparse_newton_fails e0 (d := ringData) {} .newton (.nodes fun _ => 1) (.nodes fun _ => 1) p0
example := C40_cm_negated e0 (d := ringData) {} .cm (Or.inl rfl) "newton" (.name "degrees") .other "" .other p0
example := C40_ecm_negated e0 (d := ringData) {} .ecm (Or.inl rfl) "newton" (.name "strengths") .other "" .other p0
example := C40_crema_negated e0 (d := ringData) {} .newton (.nodes fun _ => 1) ringM ringM_symm ringM_diag "" .other p0
example := C46_cm e0 (d := ringData) {} .cm (Or.inl rfl) "newton" (.nodes fun _ => 3) .other "" .other p0
example := C46_ecm_overwritten e0 (d := ringData) {} .ecm (Or.inl rfl) "newton" (fun _ => 3) .other "" .other p0
example := C46_crema_overwritten e0 (d := ringData) {} "newton" (fun _ => 3) ringM "" .other p0
example := C46_crema_refused e0 (d := ringData) {} "newton" (fun _ => 3) ringM "" .other p0

/-! ### undirected, C38 -/

example := C38_cm_partial e0 e0_valid e0_draws ringData "degrees" rfl
example := C38_cm_isolated e0 ⟨![0, 1, 1], ![0, 1, 1]⟩ "degrees" rfl 0 rfl
example (q) := C38_cm_exp e0 ringData "degrees" rfl rfl 
  (fun q => by
    have h := C38_cm_partial e0 e0_valid e0_draws ringData "degrees" rfl q
    by_cases hk : ringData.k q = 0
    · exact (h.2 hk).ge
    · exact (h.1 hk).le) q
example := C38_ecm e0 e0_valid e0_draws ringData ring_pos "strengths" rfl
example := C38_ecm_exp_partial e0 e0_valid e0_draws ringData ring_pos "strengths" rfl
example := C38_ecm_exp_false e0 ⟨![0, 0, 1, 1], ![0, 0, 1, 1]⟩ 0 1 (by decide) rfl rfl "strengths" rfl
example := C38_crema_partial e0 e0_valid e0_draws ringData (fun i => by rw [ring_str]; norm_num) ringM (fun i _ _ => by rw [ring_str]; norm_num) "strengths" rfl
example := C38_crema_false e0 ⟨![0, 0, 1, 1], ![0, 0, 1, 1]⟩ 0 1 (by decide) rfl rfl "strengths" rfl

/-! ### directed, C36 -/

example := C36_dcm e0 (d := turnData) {} .newton (.pairs fun _ => 1) .other "" .other p0 rfl
example := C36_dcm_exp e0 (d := turnData) {} .quasinewton (.name "degrees") .other "" .other p0 rfl
example := C36_decm e0 (d := turnData) {} .newton (.quads fun _ => 1 / 2) .other "" .other p0 rfl
example := C36_decm_exp e0 (d := turnData) {} .newton (.quads fun _ => 1 / 2) .other "" .other p0 rfl
example := C36_dcrema_matrix e0 (d := turnData) {} rfl .newton (.pairs fun _ => 1) turnM "" .other p0 rfl
example := C36_dcrema e0 (d := turnData) {} rfl .newton (.pairs fun _ => 1) .dcm (Or.inl rfl) .newton (.pairs fun _ => 1) p0 rfl rfl
example := C36_dcrema_sparse e0 e0_valid (d := turnData) {} rfl (.pairs fun _ => 1) .dcm (Or.inl rfl) .newton (.pairs fun _ => 1) p0 rfl rfl
example := C36_dcrema_sparse_newton_fails e0 (d := turnData) {} rfl .dcm (Or.inl rfl) "newton" (.pairs fun _ => 1) (.pairs fun _ => 1) p0
example := C36_dcrema_default_adjacency e0 (d := turnData) {} "crema" (Or.inl rfl) "newton" (.pairs fun _ => 1) "newton" (.pairs fun _ => 1) p0
example := C36_directed_unknown_method e0 (d := turnData) {} .dcm (by decide) "gradient" no_method (.pairs fun _ => 1) .other "" .other p0
example := C36_directed_unknown_model e0 (d := turnData) "dbcm" no_dmodel "newton" (.pairs fun _ => 1) .other "" .other p0
example := C36_dcrema_edgelist_fails e0 (d := ⟨![1, 1, 1], ![1, 1, 1], ![1, 1, 1], ![1, 1, 1], false⟩) {} rfl "newton" (by decide) (.pairs fun _ => 1) turnM "" .other p0

/-! ### directed, C13, C37, C40, C46 -/

example := C37_dcm_partial e0 (d := turnData) {} (Or.inl rfl) .dcm (Or.inl rfl) "newton" (.name "degrees") .other "" .other p0
example := C37_decm e0 (d := turnData) {} .decm (Or.inl rfl) "newton" (.name "strengths") .other "" .other p0
example := C37_dcrema_matrix e0 (d := turnData) {} rfl .newton (.pairs fun _ => 1) turnM "" .other p0
example := C37_dcrema e0 (d := turnData) {} rfl .newton .dcm (Or.inl rfl) "newton" (.pairs fun _ => 1) (.pairs fun _ => 1) p0
example := C37_dcrema_sparse e0 (d := turnData) {} .quasinewton (by decide) (Or.inl rfl) .dcm (Or.inl rfl) "newton" (.pairs fun _ => 1) (.pairs fun _ => 1) p0
example := C37_dcm_after_decm (d := turnData) e0 e0 .decm .dcm (Or.inl rfl) (Or.inl rfl) "newton" "newton" (.name "strengths") (.name "degrees") .other .other "" "" .other .other p0 p0
example := C13_dcm_exp e0 (d := turnData) {} .newton (by decide) (.name "degrees") .other "" .other p0 rfl (by norm_num [p0])
example := C13_dcm e0 (d := turnData) {} .newton (by decide) (.name "degrees") .other "" .other p0 rfl
example := C13_decm e0 (d := turnData) {} .newton (by decide) (.name "strengths") .other "" .other p0 rfl
example := C13_decm_exp e0 (d := turnData) {} .newton (by decide) (.name "strengths") .other "" .other p0 rfl
example := C13_dcrema_matrix e0 (d := turnData) {} rfl .newton (by decide) (.pairs fun _ => 1) turnM "" .other p0 rfl
example := C13_dcrema e0 (d := turnData) {} rfl .newton (by decide) .dcm (Or.inl rfl) "newton" (.pairs fun _ => 1) (.pairs fun _ => 1) p0 rfl
example := C13_dcrema_sparse e0 e0_valid (d := turnData) {} rfl .dcm (Or.inl rfl) "newton" (.pairs fun _ => 1) (.pairs fun _ => 1) p0 rfl
example := C40_dcm_negated e0 (d := turnData) {} "newton" (.name "degrees") .other "" .other p0
example := C40_dcm_exp_wrong e0 (d := turnData) {} "newton" (.name "degrees") .other "" .other p0
example := C40_decm_negated e0 (d := turnData) {} "newton" (.name "strengths") .other "" .other p0
example := C40_decm_exp_wrong e0 (d := turnData) {} "newton" (.name "strengths") .other "" .other p0
example := C40_dcrema_negated e0 (d := turnData) {} rfl .newton (.pairs fun _ => 1) turnM "" .other p0
example := C46_dcm e0 (d := turnData) {} .dcm (Or.inl rfl) "newton" (.pairs fun _ => 3) .other "" .other p0
example := C46_decm_overwritten e0 (d := turnData) {} .decm (Or.inl rfl) "newton" (fun _ => 3) .other "" .other p0
example := C46_dcrema_overwritten e0 (d := turnData) {} "newton" (fun _ => 3) turnM "" .other p0

/-! ### directed, C38 -/

example := C38_dcm e0 e0_valid e0_draws turnData turn_sum "degrees" rfl
example := C38_dcm_exp e0 e0_valid e0_draws turnData turn_sum "degrees" rfl rfl
example := C38_decm_partial e0 e0_valid e0_draws turnData turn_spread "strengths" rfl
example := C38_decm_exp_partial e0 e0_valid e0_draws turnData turn_spread "strengths" rfl
example := C38_decm_single_link e0 ⟨![1, 0, 0], ![0, 1, 0], ![3, 0, 0], ![0, 3, 0], true⟩ 0 1 (by simp [Fin.sum_univ_three]) (by simp [Fin.sum_univ_three])
  (by simp) (by simp) rfl
example := C38_dcrema e0 e0_valid e0_draws turnData turn_spread.out_nonneg turn_spread.in_nonneg turnM (fun i _ _ => Or.inl (by rw [turn_so]; norm_num)) "strengths" rfl

/-! ### whole runs: C13, C15, C16, C41, C49, C50 -/

example := C41_dcm e0 e0_valid (d := turnData) {} "newton" (.name "degrees") .other "" .other p0
example := C41_dcm_exp_partial e0 (d := turnData) {} .newton (by decide) (.name "degrees") .other "" .other p0
example := C16_dcm_run e0 e0_valid e0_draws turn_sum {} "newton" "degrees" .other "" .other p0 rfl
example := C13_dcm_named e0 e0_valid e0_draws turn_sum {} .newton (by decide) "degrees" .other "" .other p0 rfl rfl
example := C41_cm_fixed_point_partial e0 (d := ringData) {} (.name "degrees") .other "" .other p0
example := C41_cm_exp_positive e0 (d := ringData) {} "newton" (.inl (by decide)) (.name "degrees") .other "" .other p0
example := C16_cm_run e0 e0_valid e0_draws ring_deg {} "newton" "degrees" .other "" .other p0 rfl
example := C13_cm_named e0 e0_valid e0_draws ring_deg {} .newton (by decide) "degrees" .other "" .other p0 rfl rfl
example := C16_ecm_exp_run e0 e0_valid e0_draws ring_pos {} "newton" "strengths" .other "" .other p0 rfl
example := C13_ecm_exp_named e0 e0_valid e0_draws ring_pos {} .newton (by decide) "strengths" .other "" .other p0 rfl rfl
example := C16_ecm_run_partial e0 e0_valid e0_draws (e0_outside _) ring_pos {} .newton "strengths" .other "" .other p0 rfl rfl
example := C13_ecm_named_partial e0 e0_valid e0_draws (e0_outside _) ring_pos {} .newton (by decide) "strengths" .other "" .other p0 rfl rfl

theorem turn_obs (v) : turnData.obs v ≠ 0 := by
  obtain ⟨b, i⟩ := v
  unfold DData.obs
  split_ifs <;> simp only [DData.degOut, DData.degIn, turn_o, turn_i, turn_so, turn_si] <;> norm_num

example := C16_decm_run_partial e0 e0_valid e0_draws (e0_outside _) turn_spread turn_obs {} .newton "strengths" .other "" .other p0 rfl rfl
example := C13_decm_named_partial e0 e0_valid e0_draws (e0_outside _) turn_spread turn_obs {} .newton (by decide) "strengths" .other "" .other p0 rfl rfl
example := C16_decm_exp_run e0 e0_valid e0_draws turn_spread turn_lt {} "newton" "strengths" .other "" .other p0 rfl
example := C13_decm_exp_named e0 e0_valid e0_draws turn_spread turn_lt {} .newton (by decide) "strengths" .other "" .other p0 rfl rfl
example := C16_decm_exp_no_hang (d := turnData) e0 .newton p0 (x0 := x4) (fun i j => add_pos (x4_pos _) (x4_pos _))
example := C15_decm_exp_fixed_point_returns e0 e0_valid e0_draws turn_spread turn_lt "strengths" .other "" .other p0 rfl
example := C16_ecm_exp_no_hang_partial (d := ringData) (by norm_num) e0 .newton p0 (x0 := fun _ => 1) (fun _ _ _ => by norm_num)
example := C50_cm_run e0 e0_valid e0_draws ring_deg {} .newton (by decide) "degrees" .other "" .other p0 rfl rfl
example := C50_cm_exp_run e0 (d := ringData) {} .newton (by decide) (.name "degrees") .other "" .other p0 rfl
example := C50_dcm_run e0 e0_valid e0_draws turn_sum {} .newton (by decide) "degrees" .other "" .other p0 rfl rfl
example := C50_dcm_exp_run e0 (d := turnData) {} .newton (by decide) (.name "degrees") .other "" .other p0 rfl (by norm_num [p0])
example := C50_ecm_exp_run e0 e0_valid e0_draws ring_pos {} .newton (by decide) "strengths" .other "" .other p0 rfl rfl
example := C50_decm_exp_run e0 e0_valid e0_draws turn_spread turn_lt {} .newton (by decide) "strengths" .other "" .other p0 rfl rfl
example := C49_cm_reported e0 (d := ringData) {} .cm (Or.inl rfl) "newton" (.name "degrees") .other "" .other p0 (ring true).1 (ring true).2 ring_cm.1

/-! ### C54, C61 -/

example := C54_crema_matrix_partial e0 (d := ringData) {} .newton (.nodes fun _ => 1) ringM ringM_symm ringM_diag "" .other p0
example := C54_crema_partial e0 (d := ringData) {} "crema" .newton .newton (Or.inl rfl) (.nodes fun _ => 1) (.nodes fun _ => 1) p0
example := C54_crema_unset e0 (d := ringData) "crema" .newton .newton (Or.inl rfl) (.nodes fun _ => 1) (.nodes fun _ => 1) p0
example := C54_dcrema_matrix_partial e0 (d := turnData) {} rfl .newton (.pairs fun _ => 1) turnM "" .other p0
example := C54_dcrema_partial e0 (d := turnData) {} rfl .newton .dcm (Or.inl rfl) "newton" (.pairs fun _ => 1) (.pairs fun _ => 1) p0
example := C54_decm e0 (d := turnData) {} .decm (Or.inl rfl) "newton" (.name "strengths") .other "" .other p0
example := C61_cm e0 e0 (d := ringData) {} {} .cm .cm_exp (Or.inl rfl) (Or.inr rfl) "newton" "quasinewton" (.name "degrees") (.name "uniform") .other .other "" "" .other .other p0 p0
example := C61_ecm ring_deg (fun i => (ring_pos.2 i).ne') e0 e0 {} {} .ecm .ecm_exp (Or.inl rfl) (Or.inr rfl) "newton" "quasinewton" (.name "strengths") (.name "uniform")
  .other .other "" "" .other .other p0 p0
example := C61_crema_matrix e0 e0 (d := ringData) {} {} .newton .quasinewton (.nodes fun _ => 1) (.nodes fun _ => 2) ringM ringM_symm ringM_diag ringM_nonneg "" "" .other .other p0 p0
example := C61_dcm e0 e0 (d := turnData) {} {} .dcm .dcm_exp (Or.inl rfl) (Or.inr rfl) "newton" "quasinewton" (.name "degrees") (.name "uniform") .other .other "" "" .other .other p0 p0
example := C61_decm e0 e0 (d := turnData) {} {} .decm .decm_exp (Or.inl rfl) (Or.inr rfl) "newton" "quasinewton" (.name "strengths") (.name "uniform") .other .other "" "" .other .other p0 p0
example := C61_dcrema_matrix (d := turnData) rfl e0 e0 {} {} .newton .quasinewton (.pairs fun _ => 1) (.pairs fun _ => 2) turnM turnM_nonneg "" "" .other .other p0 p0

end

end Verif.Wit
