import Verif.Props.ZeroNodes
import Verif.Witness.Checked
import Verif.Witness.SampleAfter

/-! Non-vacuity of the theorems on nodes without links: the weighted path between two isolated nodes and the path of two arcs. -/

namespace Verif.Wit
open Verif Verif.Solver Verif.Solve Verif.Spec Finset

noncomputable section

theorem weightedD_sides : weightedD.Weighted := by
  constructor <;> intro i <;> fin_cases i <;> simp [weightedD]

theorem weightedD_spread : weightedD.Spread := by
  refine ⟨fun i => ?_, fun i => ?_, fun i j _ => .inl ?_⟩ <;> fin_cases i <;> simp [weightedD, Fin.sum_univ_four]

/-- node 2 has no outgoing links, node 0 no incoming ones, node 3 neither -/
example : weightedD.dseq_out 2 = 0 ∧ weightedD.dseq_in 0 = 0 ∧ weightedD.dseq_out 0 ≠ 0 ∧ weightedD.dseq_in 2 ≠ 0 := ⟨rfl, rfl, by decide, by decide⟩

example := C41_decm e0 e0_valid weightedD_sides {} "newton" (.name "strengths") .other "" .other p0
/-- a call that returns -/
example := C41_decm e0 e0_valid weightedD_sides {} "newton" (.quads fun _ => 1) .other "" .other noSteps (by
  simp [solve_tool_directed, solveProblemD, guessDECM, lookD, noSteps_run, solutionErrorD, setSolvedDECM, degreeErrorD, strengthErrorD])
example := C16_decm_sides_partial e0 e0_valid e0_draws (e0_outside _) weightedD_spread weightedD_sides {} .newton "strengths" .other "" .other p0 rfl rfl
example := C13_decm_sides_partial e0 e0_valid e0_draws (e0_outside _) weightedD_spread weightedD_sides {} .newton (by decide) "strengths" .other "" .other p0 rfl rfl
example := C41_ecm_fixed_point_partial (d := weighted5) e0 {} (.name "strengths") .other "" .other p0

end
end Verif.Wit
