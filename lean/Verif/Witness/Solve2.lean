import Verif.Witness.Solve
import Verif.Props.Guess2
import Verif.Props.Monotone

/-! Instances of the theorems about the starting points, the restart and the fixed points (C17, C47, C53, C57, C63, C65, C67-C69). -/

namespace Verif.Wit

open Spec Finset Solve

noncomputable section

/-- no iteration, and `full_return=True` -/
def pz : Params := { max_steps := 0, full_return := true }

theorem ring_nn (i : Fin 5) : 0 ≤ ringData.strength_sequence i := by rw [ring_str]; norm_num
theorem ring_ssum : 0 < ∑ i, ringData.strength_sequence i := by simp only [ring_str, sum_const, card_univ, Fintype.card_fin]; norm_num
theorem turn_so_nn (i : Fin 3) : 0 ≤ turnData.out_strength i := by rw [turn_so]; norm_num
theorem turn_si_nn (i : Fin 3) : 0 ≤ turnData.in_strength i := by rw [turn_si]; norm_num
theorem turn_sosum : 0 < ∑ i, turnData.out_strength i := by simp only [turn_so, sum_const, card_univ, Fintype.card_fin]; norm_num
theorem turn_sisum : 0 < ∑ i, turnData.in_strength i := by simp only [turn_si, sum_const, card_univ, Fintype.card_fin]; norm_num

example := C47_cm e0 ringData e0_valid
example := C47_ecm e0 ringData e0_valid ring_ssum
example := C47_crema e0 ringData e0_valid ring_nn
example := C47_crema_strengths_false e0 ringData ring_nn
example := C47_dcm e0 turnData e0_valid
example := C47_dcm_degrees_minor_false e0 turnData
example := C47_dcm_chung_lu_false e0 turnData
example := C47_dcrema e0 turnData e0_valid turn_so_nn turn_si_nn
example := C47_decm e0 turnData e0_valid turn_sosum turn_sisum

example := C53_cm_exp_start (d := ringData) e0 {} .newton .other "" .other pz rfl fun _ => 1
example := C53_ecm_exp_start (d := ringData) e0 {} .newton .other "" .other pz rfl fun _ => 1
example := C53_dcm_exp_start (d := turnData) e0 {} .newton .other "" .other pz rfl (fun _ => 1) fun _ => one_pos
example := C53_decm_exp_start (d := turnData) e0 {} .newton .other "" .other pz rfl (fun _ => 1) fun _ => one_pos
example := C53_cm_restart (d := ringData) e0 e0 {} {} .newton .quasinewton (by decide) (by decide) (.name "degrees") .other .other "" "" .other .other p0 p0 rfl le_rfl ring_deg
example := C53_cm_exp_restart (d := ringData) e0 e0 {} {} .newton .quasinewton (by decide) (by decide) (.name "degrees") .other .other "" "" .other .other p0 p0 rfl le_rfl ring_deg
example := C53_ecm_restart (d := ringData) e0 e0 {} {} .newton .quasinewton (by decide) (by decide) (.name "strengths") .other .other "" "" .other .other p0 p0 rfl le_rfl ring_deg fun i => by rw [ring_str]; norm_num
example := C53_ecm_exp_restart (d := ringData) e0 e0 {} {} .newton .quasinewton (by decide) (by decide) (.name "strengths") .other .other "" "" .other .other p0 p0 rfl le_rfl ring_deg fun i => by rw [ring_str]; norm_num
theorem turn_ne (i) : turnData.dseq_out i ≠ 0 ∧ turnData.dseq_in i ≠ 0 ∧ turnData.out_strength i ≠ 0 ∧ turnData.in_strength i ≠ 0 := by
  rw [turn_o, turn_i, turn_so, turn_si]; norm_num
example := C53_dcm_restart (d := turnData) e0 e0 {} {} .newton .quasinewton (by decide) (by decide) (.name "degrees") .other .other "" "" .other .other p0 p0 rfl le_rfl (fun i => (turn_ne i).1) fun i => (turn_ne i).2.1
example := C53_dcm_exp_restart (d := turnData) e0 e0 {} {} .newton .quasinewton (by decide) (by decide) (.name "degrees") .other .other "" "" .other .other p0 p0 rfl le_rfl (fun i => (turn_ne i).1) fun i => (turn_ne i).2.1
example := C53_decm_restart (d := turnData) e0 e0 {} {} .newton .quasinewton (by decide) (by decide) (.name "strengths") .other .other "" "" .other .other p0 p0 rfl le_rfl turn_ne
example := C53_decm_exp_restart (d := turnData) e0 e0 {} {} .newton .quasinewton (by decide) (by decide) (.name "strengths") .other .other "" "" .other .other p0 p0 rfl le_rfl turn_ne


/-! ### C63, C65 -/

def reg5 : UData 5 := regular 5 2 fun _ => 1
theorem reg5_ne (i) : reg5.dseq i ≠ 0 := by simp [reg5, regular]
theorem reg5_solves : SolvesUBCM reg5.deg fun _ => Real.sqrt ((2 : ℕ) / ((5 : ℕ) - 1 - (2 : ℕ))) := solves_regular (by norm_num)
def reg5D : DData 5 := { dseq_out := fun _ => 2, dseq_in := fun _ => 2, out_strength := fun _ => 2, in_strength := fun _ => 2, nz_known := true }
theorem reg5D_solves : SolvesDBCM reg5D.degOut reg5D.degIn (fun _ => 1) fun _ => 1 := by
  convert solves_regularD using 2 <;> simp [DData.degOut, DData.degIn, reg5D]
theorem reg5D_o (i) : reg5D.dseq_out i ≠ 0 := by simp [reg5D]
theorem reg5D_i (i) : reg5D.dseq_in i ≠ 0 := by simp [reg5D]

example := C63_cm_exp e0 (d := reg5) reg5_ne reg5_solves (R := 2) (by norm_num) {} (.name "degrees") .other "" .other p0 (Nat.le_succ 3)
example := C63_dcm_no_division_by_zero (d := reg5D) ⟨0, reg5D_o 0⟩ reg5D_solves (R := 2) (by norm_num) (x := fun _ => 1) (y := fun _ => 1) (fun _ => by norm_num) (fun _ => by norm_num) 0
example := C63_dcm e0 (d := reg5D) ⟨0, reg5D_o 0⟩ reg5D_solves (R := 2) (by norm_num) {} (.name "degrees") .other "" .other p0 (Nat.le_succ 3)
example := C63_dcm_exp e0 (d := reg5D) reg5D_o reg5D_i reg5D_solves (R := 2) (by norm_num) {} (.name "degrees") .other "" .other p0 (Nat.le_succ 3)
example := C65_cm_exp_partial e0 reg5 reg5_ne reg5_solves (.name "degrees") (by simp [Guess.Accepted, guessNames]) (ε := 1e-6) (by norm_num)
example := C65_dcm_exp_partial e0 reg5D reg5D_o reg5D_i reg5D_solves (.name "degrees") (by simp [DGuess.Accepted, guessNames]) (ε := 1e-6) (by norm_num)
example := C65_cm_exp_stops_early e0 (fun _ => 1) .other "" .other p0 (by norm_num [p0])

/-! ### C67-C69 -/

theorem fitD : ∃ (d : DData 2) (a : Fin 2 → Fin 2 → ℝ) (bo bi : Fin 2 → ℝ), d.nz_known = true ∧ LinksForD a d.out_strength d.in_strength ∧
    CoversD a d.out_strength d.in_strength ∧ FitsDCReMa a d.out_strength d.in_strength bo bi := fits_two

example := C67_dcrema e0 e0_valid e0_draws zigzagData rfl zigzag links_zigzag (.name "strengths") (.inl rfl) {} {} "" .other p0 7 1000 (by norm_num)
example := C68_crema e0 { dseq := fun _ => 2, strength_sequence := fun i => ∑ j, triangle i j } triangle triangle links_triangle.symm links_triangle.nonneg links_triangle.noself
  links_triangle.symm links_triangle.nonneg (fun _ _ => Iff.rfl) fun _ => rfl
example := C68_dcrema e0 { dseq_out := 1, dseq_in := 1, out_strength := fun i => ∑ j, zigzag i j, in_strength := fun j => ∑ i, zigzag i j, nz_known := true } rfl zigzag zigzag
  links_zigzag.nonneg links_zigzag.nonneg (fun _ _ => Iff.rfl) (fun _ => rfl) fun _ => rfl
example := C68_fixed_point_misses_partial e0 e0_valid e0_draws (.name "strengths") (.inl rfl) {} "" .other p0
example := C68_fixed_point_misses_directed_partial e0 e0_valid e0_draws (.name "strengths") (.inl rfl) {} "" .other p0
example := C69_crema_likelihood e0 e0_valid e0_draws pathData pathA links_path covers_path (.name "strengths") (.inl rfl) (ε := 1e-6) (by norm_num)
example := let h := fitD.choose_spec.choose_spec.choose_spec.choose_spec
  C69_dcrema_strengths e0 e0_valid e0_draws _ h.1 _ h.2.1 h.2.2.1 h.2.2.2 (.name "strengths") (.inl rfl) (ε := 1e-6) (by norm_num)

/-! ### C17, C57 -/

theorem path_fn (e : Env) : (cbCrema e pathData (triuEdges pathA) .newton).fn (fun _ => 1) ≠ 0 := by
  intro h
  have h0 : -CReMa.loglikelihood_prime_crema_undirected (fun _ => 1) pathData.strength_sequence (triuEdges pathA) 1 = 0 := congrFun h 1
  rw [CReMa.prime_eq, CReMa.expected_eq, inc_triu pathA links_path.symm links_path.noself (fun i j w => w / (1 + 1)) (by simp), Fin.sum_univ_three] at h0
  norm_num [pathA, pathData] at h0
  rw [if_neg (by decide)] at h0
  norm_num at h0

private theorem exp_mean (r : ℝ) (hr : 0 < r) : (∫ w in Set.Ioi (0 : ℝ), w * (r * Real.exp (-(r * w)))) = 1 / r := by
  have := Real.integral_rpow_mul_exp_neg_mul_Ioi (a := 2) (by norm_num) hr
  have e : (∫ w in Set.Ioi (0 : ℝ), w * (r * Real.exp (-(r * w)))) = r * ∫ w in Set.Ioi (0 : ℝ), w ^ ((2 : ℝ) - 1) * Real.exp (-(r * w)) := by
    rw [← MeasureTheory.integral_const_mul]
    refine MeasureTheory.setIntegral_congr_fun measurableSet_Ioi fun w _ => ?_
    have : w ^ ((2 : ℝ) - 1) = w := by norm_num
    simp only [this]; ring
  have g2 : Real.Gamma 2 = 1 := by
    simpa [one_add_one_eq_two] using Real.Gamma_nat_eq_factorial 1
  rw [e, this, g2]
  rw [show (2 : ℝ) = ((2 : ℕ) : ℝ) by norm_num, Real.rpow_natCast]
  field_simp

theorem zig_fn (e : Env) : (cbDCrema e zigzagData (nzEdges zigzag) .newton).fn (fun _ => 1) ≠ 0 := by
  intro h
  have h0 : ∀ v, DCReMa.loglikelihood_prime_crema_directed (fun _ => 1) zigzagData.out_strength zigzagData.in_strength (nzEdges zigzag) (DCM.nonzero zigzagData.out_strength)
      (DCM.nonzero zigzagData.in_strength) v = 0 := fun v => neg_eq_zero.1 (congrFun h v)
  have h1 := ((DCReMa.C05_dcrema_solution_iff _ _ _ _).1 h0).1 0
  rw [(DCReMa.C05_dcrema_expected_meaning _ _ (fun i j => by norm_num) 0).1] at h1
  norm_num [Fin.sum_univ_four, zigzag, zigzagData] at h1
  rw [exp_mean 2 (by norm_num)] at h1
  norm_num at h1

example := C17_cm_direction e0 e0_valid ringData .newton (by decide) p0 fun _ => 1
example := C17_ecm_direction e0 e0_valid ringData .newton (by decide) p0 fun _ => 1 / 2
example := C17_dcm_direction e0 e0_valid turnData .newton (by decide) p0 fun _ => 1
example := C17_decm_direction e0 e0_valid turnData .newton (by decide) p0 fun _ => 1 / 2
example := C17_crema_direction e0 pathData pathA links_path.symm links_path.noself links_path.nonneg .newton (by decide) p0 (fun _ => 1) (path_fn e0)
example := C17_dcrema_direction e0 zigzagData zigzag links_zigzag.nonneg .newton (by decide) p0 (fun _ => 1) (zig_fn e0)
example := C57_cm_exp (d := ringData) e0 e0_valid {} {} .newton (by decide) (.name "degrees") .other "" .other p0 rfl rfl 3 4 (by norm_num)
example := C57_cm (d := ringData) e0 e0_valid e0_draws ring_deg {} {} .newton (by decide) "degrees" .other "" .other p0 rfl rfl 3 4 (by norm_num)
example := C57_ecm_exp (d := ringData) e0 e0_valid e0_draws ring_pos {} {} .newton (by decide) "strengths" .other "" .other p0 rfl rfl 3 4 (by norm_num)
example := C57_ecm (d := ringData) e0 e0_valid e0_draws (e0_outside _) ring_pos {} {} .newton (by decide) "strengths" .other "" .other p0 rfl rfl 3 4 (by norm_num)
example := C57_crema_matrix (d := ringData) e0 e0_valid e0_draws (e0_outside _) ring_nn ringM ringM_symm ringM_diag ringM_nonneg (fun i _ _ => by rw [ring_str]; norm_num) {} {} .newton (by decide) "strengths" "" .other p0 rfl rfl 3 4 (by norm_num)
example := C57_dcm_exp (d := turnData) e0 e0_valid {} {} .newton (by decide) (.name "degrees") .other "" .other p0 rfl rfl 3 4 (by norm_num)
example := C57_dcm (d := turnData) e0 e0_valid e0_draws turn_sum {} {} .newton (by decide) "degrees" .other "" .other p0 rfl rfl 3 4 (by norm_num)
example := C57_decm_exp (d := turnData) e0 e0_valid e0_draws turn_spread turn_lt {} {} .newton (by decide) "strengths" .other "" .other p0 rfl rfl 3 4 (by norm_num)
example := C57_decm (d := turnData) e0 e0_valid e0_draws (e0_outside _) turn_spread turn_obs {} {} .newton (by decide) "strengths" .other "" .other p0 rfl rfl 3 4 (by norm_num)
example := C57_dcrema_matrix (d := turnData) e0 e0_valid e0_draws (e0_outside _) turn_so_nn turn_si_nn rfl turnM turnM_nonneg (fun i _ _ => by left; rw [turn_so]; norm_num) {} {} .newton (by decide) "strengths" "" .other p0 rfl rfl 3 4 (by norm_num)

end

end Verif.Wit
