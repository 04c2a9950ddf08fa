import Verif.Props.TwoCalls2
import Verif.Props.TwoCalls3
import Verif.Witness.SampleAfter

/-! Cases for `Props/TwoCalls` and `Props/TwoCalls2`. -/

namespace Verif.Wit

open Verif Verif.Solve Verif.Solver

noncomputable section

/-- the hypothesis of the second part of `C82_crema` -/
example := (C82_crema e0 (d := tri) {} { last_model := some "ecm" } {} "cm" (.inl rfl) "newton" (.nodes fun _ => 1) "newton" (.nodes fun _ => 1) .other "" "" .other .other noSteps).2 (by
  simp [solve_tool, solveProblem, guessCM, look.1, noSteps_run, solutionError, setSolvedCM, degreeError, strengthError])

/-- and the second call returns -/
example : (solve_tool e0 ({} : UAttr tri) "crema" "newton" (.nodes fun _ => 1) (.matrix (linkMatrix fun _ => 1)) "" .other noSteps).exc = none := by
  simp [solve_tool, solveProblemCrema, solveCremaTail, guessCrema, setSolvedCrema, look, noSteps_run, solutionError, degreeError, strengthError]

example := (C82_dcrema e0 (d := triD) {} { last_model := some "decm" } {} "dcm" (.inl rfl) "newton" (.pairs fun _ => 1) "newton" (.pairs fun _ => 1) .other "" "" .other .other noSteps).2 (by
  simp [solve_tool_directed, solveProblemD, guessDCM, lookD, noSteps_run, noSteps_run', solutionErrorD, setSolvedDCM, degreeErrorD, strengthErrorD])

example : (solve_tool_directed e0 ({} : DAttr triD) "crema" "newton" (.pairs fun _ => 1) (.matrix (linkMatrixD (fun _ => 1) fun _ => 1)) "" .other noSteps).exc = none := by
  simp [solve_tool_directed, solveProblemDCrema, solveDCremaTail, guessDCrema, setSolvedDCrema, lookD, noSteps_run, noSteps_run', triD_known, solutionErrorD, degreeErrorD, strengthErrorD]

example := C82_unknown_adjacency e0 (d := tri) { x := some fun _ => 1, last_model := some "cm" } "crema" "newton" (.inl rfl) .other "ubcm" (by intro mo; cases mo <;> decide) "newton" .other noSteps
example := C82_unknown_adjacency_directed e0 (d := triD) { x := some fun _ => 1, last_model := some "dcm" } "crema" "newton" (.inl rfl) .other "dbcm" (by intro mo; cases mo <;> decide) "newton" .other noSteps
example := C82_sparse_ecm_wrong e0 (d := tri) { x := some fun _ => 1, last_model := some "cm" } (fun i => by change (2 : ℝ) ≠ 0; norm_num) (fun i => by change (2 : ℝ) ≠ 0; norm_num)

example := C82_sparse_decm_wrong e0 (d := triD) { x := some fun _ => 1, last_model := some "dcm" } (fun i => by change (2 : ℝ) ≠ 0; norm_num) (fun i => by change (2 : ℝ) ≠ 0; norm_num)
  (fun i => by change (2 : ℝ) ≠ 0; norm_num) (fun i => by change (2 : ℝ) ≠ 0; norm_num) rfl

example := C82_crema_sparse e0 (d := tri) {} {} "cm" (.inl rfl) "newton" (.nodes fun _ => 1) "quasinewton" (.nodes fun _ => 1) .other "" .other noSteps (by
  simp [solve_tool, solveProblem, guessCM, look.1, noSteps_run, solutionError, setSolvedCM, degreeError, strengthError]) (by
  simp [solve_tool, solveProblemCrema, solveCremaTail, guessCrema, setSolvedCrema, solveProblem, guessCM, look, noSteps_run, solutionError, setSolvedCM, degreeError, strengthError])

example := C82_dcrema_sparse e0 (d := triD) {} {} "dcm" (.inl rfl) "newton" (.pairs fun _ => 1) "quasinewton" (.pairs fun _ => 1) .other "" .other noSteps (by
  simp [solve_tool_directed, solveProblemD, guessDCM, lookD, noSteps_run, noSteps_run', solutionErrorD, setSolvedDCM, degreeErrorD, strengthErrorD]) (by
  simp [solve_tool_directed, solveProblemDCrema, solveDCremaTail, guessDCrema, setSolvedDCrema, solveProblemD, guessDCM, lookD, noSteps_run, noSteps_run', triD_known, solutionErrorD, setSolvedDCM, degreeErrorD, strengthErrorD])

/-- one step of the fixed-point method, without line search, whatever the accuracy reached -/
def oneStep : Params := { max_steps := 1, full_return := true, linsearch := false, tol := -1, eps := -1 }

theorem oneStep_run {ι : Type} [Fintype ι] [DecidableEq ι] [Nonempty ι] (C : Callbacks ι) (b : Bool) (x0 : ι → ℝ) (h : ∀ x dx dx' a b s, C.linsearchFixed x dx dx' a b s ≠ none) :
    ∃ s, solver C (Params.opts { oneStep with linsearch := b } "fixed-point") x0 = .ok s ∧ s.n_steps = 1 := by
  have hn : (0 : ℝ) ≤ norm2 (C.fn x0) := Real.sqrt_nonneg _
  have h1 : (initState C x0).norm > (Params.opts { oneStep with linsearch := b } "fixed-point").tol ∧ (initState C x0).diff > (Params.opts { oneStep with linsearch := b } "fixed-point").eps := by
    simp only [initState, Params.opts, oneStep]
    constructor <;> linarith
  obtain ⟨a, ha⟩ := Option.ne_none_iff_exists'.1 (h (initState C x0).x (C.fn x0 - x0) (initState C x0).dx_old 1 0.5 (initState C x0).n_steps)
  unfold solver
  rw [show (Params.opts { oneStep with linsearch := b } "fixed-point").max_steps = 1 from rfl]
  simp only [loop]
  rw [if_pos h1]
  have hd : direction C (Params.opts { oneStep with linsearch := b } "fixed-point") (initState C x0).x (initState C x0).f = .ok (C.fn x0 - x0) := by
    simp [direction, Params.opts, initState]
  cases b with
  | true =>
    have hs : stepLength C (Params.opts { oneStep with linsearch := true } "fixed-point") (initState C x0) (C.fn x0 - x0) = .ok a := by
      simp [stepLength, Params.opts, ha]
    simp only [step, hd, hs]
    exact ⟨_, rfl, rfl⟩
  | false =>
    have hs : stepLength C (Params.opts { oneStep with linsearch := false } "fixed-point") (initState C x0) (C.fn x0 - x0) = .ok 1 := by
      simp [stepLength, Params.opts]
    simp only [step, hd, hs]
    exact ⟨_, rfl, rfl⟩

/-- both parts of `C82_dcrema_linsearch_ignored` apply to the same call, and the run makes a step: the two attributes differ -/
example : ∃ t t', (solve_tool_directed e0.inner ({} : DAttr triD) "dcm" "fixed-point" (.pairs fun _ => 1) .other "" .other oneStep).g.trace = some t ∧
    (solve_tool_directed e0 ({} : DAttr triD) "crema" "fixed-point" (.pairs fun _ => 1) (.name "dcm") "fixed-point" (.pairs fun _ => 1) oneStep).g.trace = some t' ∧
    t.alfa_seq = [] ∧ t'.alfa_seq ≠ [] := by
  have l1 : dLookup "dcm" "fixed-point" = some (.dcm, .fixed_point) := by decide
  have l2 : dLookup "crema" "fixed-point" = some (.crema, .fixed_point) := by decide
  have x0 : ∃ v, guessDCM e0.inner triD false (.pairs fun _ => 1) = .ok v := ⟨_, rfl⟩
  obtain ⟨v, hv⟩ := x0
  obtain ⟨s, hs, hs1⟩ := oneStep_run (cbDCM e0.inner triD .fixed_point) false v (by intros; simp [cbDCM])
  obtain ⟨s', hs', hs1'⟩ := oneStep_run (cbDCM e0.inner triD .fixed_point) true v (by intros; simp [cbDCM])
  have hB : (solve_tool_directed e0.inner ({} : DAttr triD) "dcm" "fixed-point" (.pairs fun _ => 1) .other "" .other oneStep).exc = none := by
    simp [solve_tool_directed, solveProblemD, hv, l1, show Params.opts oneStep "fixed-point" = Params.opts { oneStep with linsearch := false } "fixed-point" from rfl, hs, solutionErrorD, setSolvedDCM, degreeErrorD, strengthErrorD]
  obtain ⟨bo, bi, q, hq⟩ : ∃ bo bi q, guessDCrema e0 triD (.pairs fun _ => 1) = (.ok (bo, bi), q) := ⟨_, _, _, rfl⟩
  have hR : (solve_tool_directed e0 ({} : DAttr triD) "crema" "fixed-point" (.pairs fun _ => 1) (.name "dcm") "fixed-point" (.pairs fun _ => 1) oneStep).exc = none ∧
      (solve_tool_directed e0 ({} : DAttr triD) "crema" "fixed-point" (.pairs fun _ => 1) (.name "dcm") "fixed-point" (.pairs fun _ => 1) oneStep).g.trace = some (.of s') := by
    obtain ⟨r, hr, hr1⟩ := oneStep_run (cbDCrema e0 triD (nzEdges (triD.pmat (fun i => s'.x (0, triD.inv i)) fun i => s'.x (1, triD.inv i))) .fixed_point) false (cat2 bo bi) (by intros; simp [cbDCrema])
    have hs2 : solver (cbDCM e0.inner triD .fixed_point) (Params.opts { max_steps := oneStep.max_steps, full_return := true, tol := oneStep.tol, eps := oneStep.eps } "fixed-point") v = .ok s' := hs'
    have hr2 : solver (cbDCrema e0 triD (nzEdges (triD.pmat (fun i => s'.x (0, triD.inv i)) fun i => s'.x (1, triD.inv i))) .fixed_point)
      (Params.opts { max_steps := oneStep.max_steps, full_return := true, linsearch := false, tol := oneStep.tol, eps := oneStep.eps } "fixed-point") (cat2 bo bi) = .ok r := hr
    constructor
    all_goals
      simp [solve_tool_directed, solveProblemDCrema, solveDCremaTail, hq, solveProblemD, hv, l1, l2, hs2, show Params.opts oneStep "fixed-point" = Params.opts { oneStep with linsearch := false } "fixed-point" from rfl, hr2, triD_known, solutionErrorD, setSolvedDCM, setSolvedDCrema, degreeErrorD, strengthErrorD, show oneStep.full_return = true from rfl]
  obtain ⟨h1, h2⟩ := C82_dcrema_linsearch_ignored e0 (d := triD) {} {} "dcm" (.inl rfl) "fixed-point" (.pairs fun _ => 1) "fixed-point" (.pairs fun _ => 1) .other "" .other oneStep rfl rfl
  obtain ⟨t, ht, ha⟩ := h1 hB
  obtain ⟨t', ht', ha'⟩ := h2 hR.1
  refine ⟨t, t', ht, ht', ha, fun h => ?_⟩
  obtain rfl : t' = .of s' := Option.some.inj (ht'.symm.trans hR.2)
  rw [h] at ha'
  have : (Trace.of s').n_steps = 1 := hs1'
  rw [this] at ha'
  exact absurd ha' (by simp)

end
end Verif.Wit
