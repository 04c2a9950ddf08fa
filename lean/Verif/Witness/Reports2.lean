import Verif.Props.Reports2
import Verif.Witness.SampleAfterCrema

/-! Cases for `Props/Reports2`: calls that return, with fitnesses that are not negative. -/

namespace Verif.Wit

open Spec Solve Solver

noncomputable section

example := C54_crema_all_partial e0 (d := tri) {} "crema" "newton" (.inl rfl) (.nodes fun _ => 1) "cm" (.inl rfl) "newton" (.nodes fun _ => 1) noSteps (by
  simp [solve_tool, solveProblemCrema, solveCremaTail, guessCrema, setSolvedCrema, solveProblem, guessCM, look, noSteps_run, noSteps_run', solutionError, setSolvedCM, degreeError, strengthError])

example := C37_crema_all e0 (d := tri) {} "crema" "newton" (.inl rfl) (.nodes fun _ => 1) "cm" (.inl rfl) "newton" (.nodes fun _ => 1) noSteps (by
  simp [solve_tool, solveProblemCrema, solveCremaTail, guessCrema, setSolvedCrema, solveProblem, guessCM, look, noSteps_run, noSteps_run', solutionError, setSolvedCM, degreeError, strengthError])

example : ∃ β E' r', Report (strCReMa (linkMatrix fun i => maskSet (fun _ => 1) (fun q => tri.k q = 0) 0 (tri.inv i)) β) tri.strength_sequence E' r' := by
  obtain ⟨x, β, E, r, E', r', hx, hβ, -, -, -, -, -, -, -, H⟩ := C54_crema_all_partial e0 (d := tri) {} "crema-sparse" "quasinewton" (.inr rfl) (.nodes fun _ => 1) "cm" (.inl rfl) "newton" (.nodes fun _ => 1) noSteps (by
    simp [solve_tool, solveProblemCrema, solveCremaTail, guessCrema, setSolvedCrema, solveProblem, guessCM, look, noSteps_run, noSteps_run', solutionError, setSolvedCM, degreeError, strengthError])
  simp [solve_tool, solveProblemCrema, solveCremaTail, guessCrema, setSolvedCrema, solveProblem, guessCM, look, noSteps_run, noSteps_run', solutionError, setSolvedCM, degreeError, strengthError,
    initState] at hx
  subst hx
  exact ⟨β, E', r', (H fun _ i => mask_nn _ _).2⟩

example : ∃ x y bo bi E' r', Report (outIn (outStrCReMa (linkMatrixD x y) bo bi) (inStrCReMa (linkMatrixD x y) bo bi)) (outIn triD.out_strength triD.in_strength) E' r' := by
  obtain ⟨x, y, bo, bi, E, r, E', r', hx, hy, -, -, -, -, -, -, -, -, -, H⟩ := C54_dcrema_all_partial e0 (d := triD) {} "crema-sparse" "quasinewton" (.inr rfl) (.pairs fun _ => 1) "dcm" (.inl rfl) "newton"
    (.pairs fun _ => 1) noSteps (by
    simp [solve_tool_directed, solveProblemDCrema, solveDCremaTail, guessDCrema, setSolvedDCrema, solveProblemD, guessDCM, lookD, noSteps_run, noSteps_run', triD_known, solutionErrorD, setSolvedDCM, degreeErrorD, strengthErrorD])
  simp [solve_tool_directed, solveProblemDCrema, solveDCremaTail, guessDCrema, setSolvedDCrema, solveProblemD, guessDCM, lookD, noSteps_run, noSteps_run', triD_known, solutionErrorD, setSolvedDCM,
    degreeErrorD, strengthErrorD, initState] at hx hy
  subst hx hy
  exact ⟨_, _, bo, bi, E', r', (H fun _ i => ⟨mask_nn _ _, mask_nn _ _⟩).2⟩

example := C37_dcrema_all e0 (d := triD) {} "crema-sparse" "quasinewton" (.inr rfl) (.pairs fun _ => 1) "dcm" (.inl rfl) "newton"
  (.pairs fun _ => 1) noSteps (by
  simp [solve_tool_directed, solveProblemDCrema, solveDCremaTail, guessDCrema, setSolvedDCrema, solveProblemD, guessDCM, lookD, noSteps_run, noSteps_run', triD_known, solutionErrorD, setSolvedDCM, degreeErrorD, strengthErrorD])

end

end Verif.Wit
