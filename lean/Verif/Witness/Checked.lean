import Verif.Props.Checked3
import Verif.Witness.CremaNewton
import Verif.Witness.Isolated
import Verif.Witness.Float
import Verif.Witness.Solve2

/-! Non-vacuity of C79: a weighted path between two isolated nodes, a star of arcs, and the networks of the other witnesses. -/

namespace Verif.Wit
open Verif Verif.Solver Verif.Solve Verif.Spec Verif.Checked

noncomputable section

/-- the path 1 - 2 - 3 with weights 1, between two isolated nodes -/
def weighted5 : UData 5 := ⟨![0, 1, 2, 1, 0], ![0, 1, 2, 1, 0]⟩
/-- the links 0 → 1 and 1 → 2 of strength 1, node 3 isolated -/
def weightedD : DData 4 := ⟨![1, 1, 0, 0], ![0, 1, 1, 0], ![1, 1, 0, 0], ![0, 1, 1, 0], true⟩

/-! cm -/
example := C79_cm_isolated (d := weighted5) e0 .newton (by decide) (i := 0) rfl (.nodes fun _ => 1) p0 ⟨_, rfl⟩
example := C79_cm_isolated (d := weighted5) e0 .quasinewton (by decide) (i := 4) rfl (.nodes fun _ => 1) p0 ⟨_, rfl⟩
example := C79_cm_partial (d := ringData) e0 e0_valid e0_draws .newton ring_deg (.name "degrees") (by simp [Guess.Positive, guessNames]) p0 rfl {} .other "" .other
example := C79_cm_fixed_partial (d := weighted5) e0 e0_valid e0_draws (.name "degrees") (by simp [Guess.Positive, guessNames]) p0 {} .other "" .other
/-- an isolated node: a zero parameter; two parameters with product -1: the other division -/
example : (∃ i, (![0, 1, 2] : Fin 3 → ℝ) i = 0) ∧ ∃ i j, (![1, -1, 2] : Fin 3 → ℝ) i * (![1, -1, 2] : Fin 3 → ℝ) j = -1 :=
  ⟨⟨0, rfl⟩, 0, 1, by norm_num⟩
example := C79_where_cm (![0, 1, 2] : Fin 3 → ℝ) ![0, 1, 1] ![1, 1, 1]

/-! ecm -/
example := C79_ecm_zero (d := weighted5) e0 .newton (by decide) (i := 0) (.inl rfl) (.pairs fun _ => 1 / 2) p0 ⟨_, rfl⟩
example := C79_where_ecm (fun b => if b.2 = 0 then 0 else 1 / 2 : ECM.Vec 3) ![0, 1, 1] ![0, 1, 1]

/-! dcm -/
example := C79_dcm (d := arcs5) e0 e0_valid e0_draws (by decide) .newton (.name "degrees") (by simp [DGuess.Positive, guessNames]) p0 rfl {} .other "" .other
example := C79_where_dcm (fun b => if b = (0, 0) then 0 else 1 : DCM.Vec 3) ![0, 1, 1] ![1, 1, 0] [1, 2] [0, 1] ![1, 1, 1]

/-! crema -/
theorem weighted_cm_exp : ∃ x, let R := solve_tool e0 ({} : UAttr weighted5) "cm_exp" "newton" (.nodes fun _ => 1) .other "" .other noSteps; R.exc = none ∧ R.g.x = some x := by
  have l1 : uLookup "cm_exp" "newton" = some (.cm_exp, .newton) := uLookup_name .cm_exp .newton
  obtain ⟨x, h, -⟩ := C53_cm_exp_start e0 ({} : UAttr weighted5) .newton .other "" .other noSteps rfl fun _ => 1
  refine ⟨x, ?_, h⟩
  simp [solve_tool, solveProblem, guessCM, l1, noSteps_run, solutionError, setSolvedCM, degreeError, strengthError]

example := C79_crema_cm_exp (d := weighted5) e0 e0 {} "newton" (by decide) (.nodes fun _ => 1) .other "" .other p0 noSteps
  weighted_cm_exp.choose_spec.1 weighted_cm_exp.choose_spec.2 .newton (i := 0) (j := 4) (by decide) rfl (.inl rfl) (.nodes fun _ => 1) ⟨_, rfl⟩
example := C79_crema_cm_exp (d := weighted5) e0 e0 {} "newton" (by decide) (.nodes fun _ => 1) .other "" .other p0 noSteps
  weighted_cm_exp.choose_spec.1 weighted_cm_exp.choose_spec.2 .fixed_point (i := 0) (j := 1) (by decide) rfl (.inr rfl) (.nodes fun _ => 1) ⟨_, rfl⟩
example := C79_crema_links (d := weighted5) e0 .newton [(1, 2, 1), (0, 4, 1 / 3)] (t := (0, 4, 1 / 3)) (by simp) (.inl ⟨rfl, rfl⟩) (.nodes fun _ => 1) p0 ⟨_, rfl⟩
example := C79_crema_fixed_partial (d := pathData) e0 e0_valid e0_draws Solve.pathA links_path (.name "strengths") (.inl rfl) {} "" .other p0
example := C79_dcrema_links (d := weightedD) e0 .newton [(0, 1, 1), (3, 0, 1 / 3)] (t := (3, 0, 1 / 3)) (by simp) (.inl ⟨rfl, rfl⟩) (.pairs fun _ => 1) p0 ⟨_, rfl⟩
example := C79_dcrema_fixed_partial (d := zigzagData) e0 e0_valid e0_draws rfl zigzag links_zigzag (.name "strengths") (.inl rfl) {} "" .other p0

/-! the newton methods -/

/-- the weights of `weighted5` -/
def weights : Fin 5 → Fin 5 → ℝ := ![![0, 0, 0, 0, 0], ![0, 0, 1, 0, 0], ![0, 1, 0, 1, 0], ![0, 0, 1, 0, 0], ![0, 0, 0, 0, 0]]

theorem weights_symm (i j : Fin 5) : weights i j = weights j i := by fin_cases i <;> fin_cases j <;> rfl
theorem weights_nonneg (i j : Fin 5) : 0 ≤ weights i j := by fin_cases i <;> fin_cases j <;> simp [weights]
theorem weights_noself (i : Fin 5) : weights i i = 0 := by fin_cases i <;> rfl
theorem weights_sum (i : Fin 5) : weighted5.strength_sequence i = ∑ j, weights i j := by
  fin_cases i <;> simp [weighted5, weights, Fin.sum_univ_succ] <;> norm_num
theorem weights_range (i j : Fin 5) (h : weights i j ≠ 0) : ∑ k, weighted5.strength_sequence k + 1 ≤ 10 ^ 400 * weights i j := by
  have hK : (10 : ℝ) ^ 1 ≤ 10 ^ 400 := pow_le_pow_right₀ (by norm_num) (by norm_num)
  have hw : weights i j = 1 := by revert h; fin_cases i <;> fin_cases j <;> simp [weights]
  have hs : ∑ k, weighted5.strength_sequence k = 4 := by simp [weighted5, Fin.sum_univ_succ]; norm_num
  rw [hw, hs]
  generalize (10 : ℝ) ^ 400 = K at hK ⊢
  linarith

/-- two isolated nodes: `crema` on the observed links works with every method, while on the links of "cm_exp" it raises (above) -/
example := C79_crema_network_partial (d := weighted5) e0 e0_valid e0_draws e0_outside weights weights_symm weights_nonneg weights_noself weights_sum (by norm_num) weights_range
  (name := "strengths") (.inl rfl) .newton {} "" .other {} (by norm_num) rfl

example := let h := network_start e0 e0_valid e0_draws weighted5 weights weights_symm weights_nonneg weights_noself weights_sum (by norm_num) weights_range (name := "strengths") (.inl rfl)
  C79_crema_newton_partial (d := weighted5) e0 e0_valid e0_draws e0_outside _ h.1 h.2.2.2.choose_spec.1 h.2.2.2.choose_spec.2.1 one_pos h.2.1 _ h.2.2.1 (p0 := {})
    h.2.2.2.choose_spec.2.2.choose_spec.1 h.2.2.2.choose_spec.2.2.choose_spec.2 .quasinewton (by decide) {} "" .other {} (by norm_num) rfl

example := C79_dcrema_network_partial (d := zigzagData) e0 e0_valid e0_draws e0_outside rfl (fun i j => if i = 1 ∧ j = 2 then 1 else if (i = 0 ∧ j = 2) ∨ (i = 1 ∧ j = 3) then 5 else 0)
    (fun i j => by split_ifs <;> norm_num)
    (fun i => by fin_cases i <;> simp [zigzagData, Fin.sum_univ_four] <;> norm_num) (fun i => by fin_cases i <;> simp [zigzagData, Fin.sum_univ_four] <;> norm_num)
    (by norm_num) (fun i j hij => by
      have hK : (10 : ℝ) ^ 2 ≤ 10 ^ 400 := pow_le_pow_right₀ (by norm_num) (by norm_num)
      generalize (10 : ℝ) ^ 400 = K at hK ⊢
      have : ∑ k, zigzagData.out_strength k = 11 := by simp [zigzagData, Fin.sum_univ_four]; norm_num
      rw [this]
      split_ifs at hij ⊢ <;> first | nlinarith | exact absurd rfl hij)
    (name := "strengths") (.inl rfl) .newton {} "" .other {} (by norm_num) rfl

example := C79_ecm_partial (d := ringData) e0 e0_valid e0_draws (e0_outside _) ring_pos .newton (by decide) "strengths" {} .other "" .other p0 rfl rfl

end

end Verif.Wit
