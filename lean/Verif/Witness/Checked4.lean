import Verif.Props.Checked5
import Verif.Witness.ZeroNodes

/-! Cases that meet the hypotheses of `Props/Checked4`. -/

namespace Verif.Wit

open Verif Verif.Solve Verif.Checked Finset

noncomputable section

/-- three nodes, all the weight on the link `0 → 1` -/
def oneLink : DData 3 := ⟨![1, 0, 0], ![0, 1, 0], ![3, 0, 0], ![0, 3, 0], true⟩

example := C79_decm_single_link (d := oneLink) e0 .newton (i := 0) (j := 1) (by decide) (by simp [oneLink, Fin.sum_univ_three]) (by simp [oneLink, Fin.sum_univ_three])
  (by simp [oneLink]) (by simp [oneLink]) p0
example := C79_decm_single_link (d := oneLink) e0 .fixed_point (i := 0) (j := 1) (by decide) (by simp [oneLink, Fin.sum_univ_three]) (by simp [oneLink, Fin.sum_univ_three])
  (by simp [oneLink]) (by simp [oneLink]) p0

/-- a point at which nothing is divided by zero although some parameters are zero: their constraints are zero too -/
example : Checked.loglikelihood_prime_decm (fun v => if v.2 = 0 then 0 else 1 / 2 : DECM.Vec 3) ![0, 1, 1] ![0, 1, 1] ![0, 1, 1] ![0, 1, 1] ≠ none := by
  rw [Ne, (C79_where_decm (fun v => if v.2 = 0 then 0 else 1 / 2 : DECM.Vec 3) ![0, 1, 1] ![0, 1, 1] ![0, 1, 1] ![0, 1, 1]).1.1]
  rintro (⟨i, h⟩ | ⟨i, j, hij, h⟩)
  · fin_cases i <;> simp at h
  · fin_cases i <;> fin_cases j <;> first | exact absurd rfl hij | (norm_num at h; done)
/-- and one at which it is: the product of two parameters is one -/
example : Checked.loglikelihood_prime_decm (fun v => if v = (2, 0) then 2 else 1 / 2 : DECM.Vec 3) ![0, 1, 1] ![0, 1, 1] ![0, 1, 1] ![0, 1, 1] = none := by
  rw [(C79_where_decm (fun v => if v = (2, 0) then 2 else 1 / 2 : DECM.Vec 3) ![0, 1, 1] ![0, 1, 1] ![0, 1, 1] ![0, 1, 1]).1.1]
  exact .inr ⟨0, 1, by decide, .inl (by norm_num)⟩

example := C79_decm_partial (d := weightedD) e0 e0_valid e0_draws (e0_outside _) weightedD_spread weightedD_sides .newton (by decide) "strengths" {} .other "" .other p0 rfl rfl

/-! the two descriptions of a call -/
example := C79_cm_agrees (d := tri) e0 .newton (.nodes fun _ => 1 / 2) noSteps {} .other "" .other
example := C79_ecm_agrees (d := weighted5) e0 .fixed_point (.pairs fun _ => 1 / 2) noSteps {} .other "" .other
example := C79_dcm_agrees (d := arcs5) e0 .newton (.pairs fun _ => 1 / 2) noSteps {} .other "" .other
example := C79_decm_agrees (d := weightedD) e0 .newton (.quads fun _ => 1 / 2) noSteps {} .other "" .other
/-- a call of decm that returns and divides by zero nowhere, although four constraints are zero: both descriptions give it -/
example : ∃ s k, runDECM e0 weightedD .newton (.quads fun _ => 1 / 2) noSteps = .done s k ∧
    (solve_tool_directed e0 ({} : DAttr weightedD) "decm" "newton" (.quads fun _ => 1 / 2) .other "" .other noSteps).exc = none := by
  have hE : (solve_tool_directed e0 ({} : DAttr weightedD) "decm" "newton" (.quads fun _ => 1 / 2) .other "" .other noSteps).exc = none := by
    simp [solve_tool_directed, solveProblemD, guessDECM, lookD, noSteps_run, solutionErrorD, setSolvedDECM, degreeErrorD, strengthErrorD]
  have hI : ∀ v, 0 ≤ maskSet (fun _ => 1 / 2) (fun v => weightedD.obs v = 0) 0 v ∧ maskSet (fun _ => 1 / 2) (fun v => weightedD.obs v = 0) 0 v ≤ 1 / 2 := fun v => by
    unfold maskSet; split_ifs <;> norm_num
  rcases C79_decm_agrees (d := weightedD) e0 .newton (.quads fun _ => 1 / 2) noSteps {} .other "" .other hE with h | ⟨s, k, h, -⟩
  · exfalso
    revert h
    have hP : ∀ i j, i ≠ j → PairDECM (maskSet (fun _ => 1 / 2) (fun v => weightedD.obs v = 0) 0) i j := fun i j _ => by
      obtain ⟨a0, -⟩ := hI (0, i)
      obtain ⟨b0, -⟩ := hI (1, j)
      obtain ⟨c0, c1⟩ := hI (2, i)
      obtain ⟨d0, d1⟩ := hI (3, j)
      have h1 : maskSet (fun _ => 1 / 2) (fun v => weightedD.obs v = 0) 0 (2, i) * maskSet (fun _ => 1 / 2) (fun v => weightedD.obs v = 0) 0 (3, j) < 1 := by nlinarith
      have h2 := mul_nonneg (mul_nonneg a0 b0) (mul_nonneg c0 d0)
      exact ⟨by linarith, by linarith⟩
    have hN : ∀ i, NonzeroDECM (maskSet (fun _ => 1 / 2) (fun v => weightedD.obs v = 0) 0) weightedD.degOut weightedD.degIn weightedD.out_strength weightedD.in_strength i := by
      intro i
      have q : ∀ v, weightedD.obs v ≠ 0 → maskSet (fun _ => 1 / 2) (fun v => weightedD.obs v = 0) 0 v ≠ 0 := fun v hv => by
        unfold maskSet; rw [if_neg hv]; norm_num
      exact ⟨q (0, i), q (1, i), q (2, i), q (3, i)⟩
    have h0 : (guessDECM e0 weightedD false (.quads fun _ => 1 / 2)).1 = .ok (maskSet (fun _ => 1 / 2) (fun v => weightedD.obs v = 0) 0) := rfl
    unfold runDECM
    rw [h0]
    dsimp only
    have hf : (chkDECM weightedD .newton).fn (maskSet (fun _ => 1 / 2) (fun v => weightedD.obs v = 0) 0) =
        some ((cbDECM e0 weightedD .newton).fn (maskSet (fun _ => 1 / 2) (fun v => weightedD.obs v = 0) 0)) := by
      show Option.map _ _ = _
      rw [prime_decm_guard, guard_some ⟨hP, hN⟩]; rfl
    have hS : solverE (cbDECM e0 weightedD .newton) (chkDECM weightedD .newton) (noSteps.opts Method.newton.name) (maskSet (fun _ => 1 / 2) (fun v => weightedD.obs v = 0) 0) =
        .ok (Solver.initState (cbDECM e0 weightedD .newton) (maskSet (fun _ => 1 / 2) (fun v => weightedD.obs v = 0) 0)) := by
      unfold solverE
      rw [hf]; rfl
    rw [hS]
    dsimp only
    rw [show expected_decm (Solver.initState (cbDECM e0 weightedD .newton) (maskSet (fun _ => 1 / 2) (fun v => weightedD.obs v = 0) 0)).x = _ from
      (expected_decm_guard _).trans (guard_some hP)]
    simp
  · exact ⟨s, k, h, hE⟩

end

end Verif.Wit
