import Verif.Props.Symmetric
import Verif.Witness.Relabel3

/-! Non-vacuity of C75: the triangle, undirected and directed. -/

namespace Verif.Wit
open Verif Verif.Solver Verif.Solve Verif.Spec

noncomputable section

/-- the triangle with weights 1 -/
def tri : UData 3 := ⟨fun _ => 2, fun _ => 2⟩
/-- the triangle with every link in both directions -/
def triD : DData 3 := ⟨fun _ => 2, fun _ => 2, fun _ => 2, fun _ => 2, true⟩

theorem tri_both : BothWays tri triD := ⟨rfl, rfl, rfl, rfl⟩

def noSteps : Params := { max_steps := 0 }

theorem noSteps_run {ι : Type} [Fintype ι] [DecidableEq ι] [Nonempty ι] (C : Callbacks ι) (s : String) (x0 : ι → ℝ) : solver C (noSteps.opts s) x0 = .ok (initState C x0) := rfl

/-- answers inside the domain exist on both sides: cm at 1/2 and dcm at 1/3 -/
example : ∃ x x' y' : Fin 3 → ℝ, (∀ i, 0 ≤ x i ∧ 0 ≤ x' i ∧ (x i = 0 ↔ x' i = 0)) ∧ (∀ i, 0 ≤ x i ∧ 0 ≤ y' i ∧ (x i = 0 ↔ y' i = 0)) ∧
    (let R := solve_tool e0 ({} : UAttr tri) "cm" "newton" (.nodes fun _ => 1 / 2) .other "" .other noSteps; R.exc = none ∧ R.g.x = some x) ∧
    (let R := solve_tool_directed e0 ({} : DAttr triD) "dcm" "newton" (.pairs fun _ => 1 / 3) .other "" .other noSteps; R.exc = none ∧ R.g.x = some x' ∧ R.g.y = some y') := by
  have l1 : uLookup "cm" "newton" = some (.cm, .newton) := uLookup_name .cm .newton
  have l2 : dLookup "dcm" "newton" = some (.dcm, .newton) := dLookup_name .dcm .newton
  refine ⟨fun _ => 1 / 2, fun _ => 1 / 3, fun _ => 1 / 3, by intro i; norm_num, by intro i; norm_num, ?_, ?_⟩
  · obtain ⟨x, k1, k3⟩ := C53_cm_start e0 ({} : UAttr tri) .newton .other "" .other noSteps rfl fun _ => 1 / 2
    refine ⟨?_, k1.trans (congrArg some (funext fun i => ?_))⟩
    · simp [solve_tool, solveProblem, guessCM, l1, noSteps_run, solutionError, setSolvedCM, degreeError, strengthError]
    · simpa [tri] using k3 i _ (tri.index_first i)
  · obtain ⟨x, y, k1, k2, k3⟩ := C53_dcm_start e0 ({} : DAttr triD) .newton .other "" .other noSteps rfl fun _ => 1 / 3
    refine ⟨?_, k1.trans (congrArg some (funext fun i => ?_)), k2.trans (congrArg some (funext fun i => ?_))⟩
    · simp [solve_tool_directed, solveProblemD, guessDCM, l2, noSteps_run, solutionErrorD, setSolvedDCM, degreeErrorD, strengthErrorD]
    · simpa [triD] using (k3 i _ (triD.index_first i)).1
    · simpa [triD] using (k3 i _ (triD.index_first i)).2

example := C75_cm_dcm tri_both e0 e0 {} {} .cm .dcm (.inl rfl) (.inl rfl) "newton" "newton" (.nodes fun _ => 1 / 2) (.pairs fun _ => 1 / 3) .other .other "" "" .other .other noSteps noSteps

/-- ecm at 1/2 and decm at 1/3 -/
example : ∃ x y x' y' bo bi : Fin 3 → ℝ, (∀ i, 0 < x i ∧ 0 < y i ∧ 0 < x' i ∧ 0 < y' i ∧ 0 < bo i ∧ 0 < bi i) ∧ (∀ i j, y i * y j < 1 ∧ bo i * bi j < 1) ∧
    (let R := solve_tool e0 ({} : UAttr tri) "ecm" "newton" (.pairs fun _ => 1 / 2) .other "" .other noSteps; R.exc = none ∧ R.g.x = some x ∧ R.g.y = some y) ∧
    (let R := solve_tool_directed e0 ({} : DAttr triD) "decm" "newton" (.quads fun _ => 1 / 3) .other "" .other noSteps;
      R.exc = none ∧ R.g.x = some x' ∧ R.g.y = some y' ∧ R.g.b_out = some bo ∧ R.g.b_in = some bi) := by
  have l1 : uLookup "ecm" "newton" = some (.ecm, .newton) := uLookup_name .ecm .newton
  have l2 : dLookup "decm" "newton" = some (.decm, .newton) := dLookup_name .decm .newton
  refine ⟨fun _ => 1 / 2, fun _ => 1 / 2, fun _ => 1 / 3, fun _ => 1 / 3, fun _ => 1 / 3, fun _ => 1 / 3, by intro i; norm_num, by intro i j; norm_num, ?_, ?_⟩
  · obtain ⟨x, y, k1, k2, k5⟩ := C53_ecm_start e0 ({} : UAttr tri) .newton .other "" .other noSteps rfl fun _ => 1 / 2
    refine ⟨?_, k1.trans (congrArg some (funext fun i => ?_)), k2.trans (congrArg some (funext fun i => ?_))⟩
    · simp [solve_tool, solveProblem, guessECM, l1, noSteps_run, solutionError, setSolvedECM, degreeError, strengthError]
    · simpa [tri] using (k5 i).1
    · simpa [tri] using (k5 i).2
  · obtain ⟨x, y, bo, bi, k1, k2, k3, k4, k5⟩ := C53_decm_start e0 ({} : DAttr triD) .newton .other "" .other noSteps rfl fun _ => 1 / 3
    refine ⟨?_, k1.trans (congrArg some (funext fun i => ?_)), k2.trans (congrArg some (funext fun i => ?_)), k3.trans (congrArg some (funext fun i => ?_)),
      k4.trans (congrArg some (funext fun i => ?_))⟩
    · simp [solve_tool_directed, solveProblemD, guessDECM, l2, noSteps_run, solutionErrorD, setSolvedDECM, degreeErrorD, strengthErrorD]
    · simpa [triD] using (k5 i).1
    · simpa [triD] using (k5 i).2.1
    · simpa [triD] using (k5 i).2.2.1
    · simpa [triD] using (k5 i).2.2.2

example := C75_ecm_decm tri_both (fun _ => by simp [tri]) (fun _ => by simp [tri]) e0 e0 {} {} .ecm .decm (.inl rfl) (.inl rfl) "newton" "newton" (.pairs fun _ => 1 / 2)
  (.quads fun _ => 1 / 3) .other .other "" "" .other .other noSteps noSteps

/-- crema at 1/2, undirected and directed -/
example : ∃ β bo bi : Fin 3 → ℝ, (∀ i, 0 < β i ∧ 0 < bo i ∧ 0 < bi i) ∧
    (let R := solve_tool e0 ({} : UAttr tri) "crema" "newton" (.nodes fun _ => 1 / 2) (.matrix fun i j => if i = j then 0 else 1) "" .other noSteps; R.exc = none ∧ R.g.beta = some β) ∧
    (let R := solve_tool_directed e0 ({} : DAttr triD) "crema" "newton" (.pairs fun _ => 1 / 3) (.matrix fun i j => if i = j then 0 else 1) "" .other noSteps;
      R.exc = none ∧ R.g.b_out = some bo ∧ R.g.b_in = some bi) := by
  have l1 : uLookup "crema" "newton" = some (.crema, .newton) := uLookup_name .crema .newton
  have l2 : dLookup "crema" "newton" = some (.crema, .newton) := dLookup_name .crema .newton
  refine ⟨fun _ => 1 / 2, fun _ => 1 / 3, fun _ => 1 / 3, by intro i; norm_num, ?_, ?_⟩
  · obtain ⟨b, k1, k3⟩ := C53_crema_start e0 ({} : UAttr tri) .newton "" .other noSteps rfl (fun i j => if i = j then 0 else 1) fun _ => 1 / 2
    refine ⟨?_, k1.trans (congrArg some (funext fun i => ?_))⟩
    · simp [solve_tool, solveProblemCrema, noSteps_run, solveCremaTail, guessCrema, l1, solutionError, setSolvedCrema, degreeError, strengthError]
    · simpa [tri] using k3 i
  · obtain ⟨bo, bi, k1, k2, k3⟩ := C53_dcrema_start e0 ({} : DAttr triD) .newton "" .other noSteps rfl rfl (fun i j => if i = j then 0 else 1) fun _ => 1 / 3
    refine ⟨?_, k1.trans (congrArg some (funext fun i => ?_)), k2.trans (congrArg some (funext fun i => ?_))⟩
    · simp [solve_tool_directed, solveProblemDCrema, noSteps_run, solveDCremaTail, guessDCrema, l2, triD, solutionErrorD, setSolvedDCrema, degreeErrorD, strengthErrorD]
    · simpa [triD] using (k3 i).1
    · simpa [triD] using (k3 i).2

example := C75_crema_dcrema tri_both rfl e0 e0 {} {} .newton .newton (.nodes fun _ => 1 / 2) (.pairs fun _ => 1 / 3) (fun i j => if i = j then 0 else 1)
  (fun i j => by simp [eq_comm]) (fun i => by simp) (fun i j => by split <;> norm_num) "" "" .other .other noSteps noSteps

end

end Verif.Wit
