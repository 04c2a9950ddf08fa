import Verif.Props.SampleAfterLaw
import Verif.Witness.Symmetric
import Verif.Witness.Sample

/-! Concrete cases for `Props/SampleAfter`, `Props/SampleAfterD` and `Props/SampleAfterLaw`: calls that return. -/

namespace Verif.Wit

open Verif Verif.Solve Verif.Spec Verif.Sampler

noncomputable section

theorem look : uLookup "cm" "newton" = some (.cm, .newton) ∧ uLookup "cm_exp" "newton" = some (.cm_exp, .newton) ∧ uLookup "ecm" "newton" = some (.ecm, .newton) ∧
    uLookup "crema" "newton" = some (.crema, .newton) ∧ uLookup "crema-sparse" "quasinewton" = some (.crema_sparse, .quasinewton) := by decide

theorem lookD : dLookup "dcm" "newton" = some (.dcm, .newton) ∧ dLookup "decm" "newton" = some (.decm, .newton) ∧
    dLookup "crema" "newton" = some (.crema, .newton) ∧ dLookup "crema-sparse" "quasinewton" = some (.crema_sparse, .quasinewton) := by decide

example := C80_cm (R := R0) e0 (d := tri) {} "cm" "newton" (.inl rfl) (.nodes fun _ => 1) .other "" .other noSteps (by
  simp [solve_tool, solveProblem, guessCM, look.1, noSteps_run, solutionError, setSolvedCM, degreeError, strengthError])

example := C80_ecm (R := R0) e0 (d := tri) {} "ecm" "newton" (.inl rfl) (.pairs fun _ => 1) .other "" .other noSteps (by
  simp [solve_tool, solveProblem, guessECM, look.2.2.1, noSteps_run, solutionError, setSolvedECM, degreeError, strengthError])

example := C80_crema (R := R0) e0 (d := tri) {} "newton" (.nodes fun _ => 1) "cm" (.inl rfl) "newton" (.nodes fun _ => 1) noSteps (by
  simp [solve_tool, solveProblemCrema, solveCremaTail, guessCrema, setSolvedCrema, solveProblem, guessCM, look, noSteps_run, solutionError, setSolvedCM, degreeError, strengthError])

example := C80_crema_given (R := R0) e0 (d := tri) {} "newton" (.nodes fun _ => 1) (fun i j => if i = j then 0 else 1) "" .other noSteps (by
  simp [solve_tool, solveProblemCrema, solveCremaTail, guessCrema, setSolvedCrema, look, noSteps_run, solutionError, degreeError, strengthError])

example := C80_crema_sparse (R := R0) e0 (d := tri) {} "quasinewton" (.nodes fun _ => 1) "cm" (.inl rfl) "newton" (.nodes fun _ => 1) noSteps (by
  simp [solve_tool, solveProblemCrema, solveCremaTail, guessCrema, setSolvedCrema, solveProblem, guessCM, look, noSteps_run, solutionError, setSolvedCM, degreeError, strengthError])

/-- fitnesses left by an `ecm` call, then a `cm` call refused because of its guess -/
example := C80_failed_cm_mixes (R := R0) e0 (d := tri) { x := some fun _ => 1 / 2, y := some fun _ => 1 / 2, last_model := some "ecm" } rfl "cm" "newton" (.inl rfl) .other "" .other noSteps

example := C80_failed_crema_guess (R := R0) e0 (d := ringData) (fun i => (ring_pos.2 i).ne') {} (fun _ => 1) (fun i j => if i = j then 0 else 1) "" .other noSteps

example := C80_dcm (R := R0) e0 (d := triD) {} "dcm" "newton" (.inl rfl) (.pairs fun _ => 1) .other "" .other noSteps (by
  simp [solve_tool_directed, solveProblemD, guessDCM, lookD, noSteps_run, solutionErrorD, setSolvedDCM, degreeErrorD, strengthErrorD])

example := C80_decm (R := R0) e0 (d := triD) {} "decm" "newton" (.inl rfl) (.quads fun _ => 1) .other "" .other noSteps (by
  simp [solve_tool_directed, solveProblemD, guessDECM, lookD, noSteps_run, solutionErrorD, setSolvedDECM, degreeErrorD, strengthErrorD])

example := C80_failed_dcm_mixes (R := R0) e0 (d := triD) { x := some fun _ => 1 / 2, y := some fun _ => 1 / 2, last_model := some "decm" } rfl rfl "dcm" "newton" (.inl rfl) .other "" .other noSteps

theorem noSteps_run' {ι : Type} [Fintype ι] [DecidableEq ι] [Nonempty ι] (C : Solver.Callbacks ι) (s : String) (x0 : ι → ℝ) :
    Solver.solver C (Params.opts { max_steps := noSteps.max_steps, full_return := noSteps.full_return, tol := noSteps.tol, eps := noSteps.eps } s) x0 =
      .ok (Solver.initState C x0) := rfl

theorem triD_known : triD.nz_known = true := rfl

example := C80_dcrema (R := R0) e0 (d := triD) {} "newton" (.pairs fun _ => 1) "dcm" (.inl rfl) "newton" (.pairs fun _ => 1) noSteps (by
  simp [solve_tool_directed, solveProblemDCrema, solveDCremaTail, guessDCrema, setSolvedDCrema, solveProblemD, guessDCM, lookD, noSteps_run, noSteps_run', triD_known, solutionErrorD, setSolvedDCM, degreeErrorD, strengthErrorD])

example := C80_dcrema_given (R := R0) e0 (d := triD) {} "newton" (.pairs fun _ => 1) (fun i j => if i = j then 0 else 1) "" .other noSteps (by
  simp [solve_tool_directed, solveProblemDCrema, solveDCremaTail, guessDCrema, setSolvedDCrema, lookD, noSteps_run, noSteps_run', triD_known, solutionErrorD, degreeErrorD, strengthErrorD])

example := C80_dcrema_sparse (R := R0) e0 (d := triD) {} "quasinewton" (.pairs fun _ => 1) "dcm" (.inl rfl) "newton" (.pairs fun _ => 1) noSteps (by
  simp [solve_tool_directed, solveProblemDCrema, solveDCremaTail, guessDCrema, setSolvedDCrema, solveProblemD, guessDCM, lookD, noSteps_run, noSteps_run', triD_known, solutionErrorD, setSolvedDCM, degreeErrorD, strengthErrorD])

example := C80_cm_law (R := R0) (hG := G0_pos) src.2.1 src.2.2.1 e0 (d := tri) {} "cm" "newton" (.inl rfl) (.nodes fun _ => 1) .other "" .other noSteps (by
  simp [solve_tool, solveProblem, guessCM, look.1, noSteps_run, noSteps_run', solutionError, setSolvedCM, degreeError, strengthError])

example := C80_ecm_law (R := R0) (hG := G0_pos) src.2.1 src.2.2.2.1 src.2.2.2.2 e0 (d := tri) {} "ecm" "newton" (.inl rfl) (.pairs fun _ => 1) .other "" .other noSteps (by
  simp [solve_tool, solveProblem, guessECM, look.2.2.1, noSteps_run, noSteps_run', solutionError, setSolvedECM, degreeError, strengthError])

example := C80_dcm_law (R := R0) (hG := G0_pos) src.2.1 src.2.2.1 e0 (d := triD) {} "dcm" "newton" (.inl rfl) (.pairs fun _ => 1) .other "" .other noSteps (by
  simp [solve_tool_directed, solveProblemD, guessDCM, lookD, noSteps_run, noSteps_run', solutionErrorD, setSolvedDCM, degreeErrorD, strengthErrorD])

example := C80_decm_law (R := R0) (hG := G0_pos) src.2.1 src.2.2.2.1 src.2.2.2.2 e0 (d := triD) {} "decm" "newton" (.inl rfl) (.quads fun _ => 1) .other "" .other noSteps (by
  simp [solve_tool_directed, solveProblemD, guessDECM, lookD, noSteps_run, noSteps_run', solutionErrorD, setSolvedDECM, degreeErrorD, strengthErrorD])

end

end Verif.Wit
