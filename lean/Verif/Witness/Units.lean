import Verif.Props.Units
import Verif.Witness.Symmetric

/-! Non-vacuity of C76: a triangle with unequal weights, in two units. -/

namespace Verif.Wit
open Verif Verif.Solver Verif.Solve Verif.Spec

noncomputable section

/-- the triangle with weights 1, 2, 3 -/
def heavy : UData 3 := ⟨fun _ => 2, ![3, 4, 5]⟩
/-- the same triangle, weights in grams instead of kilograms -/
def grams : UData 3 := ⟨fun _ => 2, fun i => 1000 * heavy.strength_sequence i⟩
def heavyD : DData 3 := ⟨fun _ => 2, fun _ => 2, ![3, 4, 5], ![5, 4, 3], true⟩
def gramsD : DData 3 := ⟨fun _ => 2, fun _ => 2, fun i => 1000 * heavyD.out_strength i, fun i => 1000 * heavyD.in_strength i, true⟩
def full : Fin 3 → Fin 3 → ℝ := fun i j => if i = j then 0 else 1

def pKilo : Params := { max_steps := 100, full_return := true, linsearch := true, tol := 1e-8, eps := 1e-8 }
def pGram : Params := { max_steps := 100, full_return := true, linsearch := true, tol := 1e-8 / 1000, eps := 1e-8 / 1000 }

theorem kiloGram : OptionsInUnit 1000 pKilo pGram := ⟨rfl, rfl, rfl, rfl, rfl, by norm_num [pKilo, pGram]⟩

theorem heavy_ne (i : Fin 3) : heavy.strength_sequence i ≠ 0 := by fin_cases i <;> norm_num [heavy]
theorem heavyD_ne (i j : Fin 3) : heavyD.out_strength i ≠ 0 ∧ heavyD.in_strength j ≠ 0 := by fin_cases i <;> fin_cases j <;> norm_num [heavyD]

example := C76_crema_fixed_point (d := heavy) (d' := grams) (u := 1000) (a := full) (by norm_num) rfl (fun i j => by simp [full, eq_comm]) (fun i => by simp [full])
  (fun i j _ => heavy_ne i) e0 e0 {} {} .strengths "" "" .other .other kiloGram

example := C76_crema_fixed_point (d := heavy) (d' := grams) (u := 1000) (a := full) (by norm_num) rfl (fun i j => by simp [full, eq_comm]) (fun i => by simp [full])
  (fun i j _ => heavy_ne i) e0 e0 {} {} (.nodes ![1, 2, 3]) "" "" .other .other kiloGram

example := C76_dcrema_fixed_point (d := heavyD) (d' := gramsD) (u := 1000) (a := full) (by norm_num) ⟨rfl, rfl⟩ rfl rfl (fun i j _ => heavyD_ne i j) e0 e0 {} {} .strengths "" ""
  .other .other kiloGram

/-- two calls that succeed, with positive rates -/
example : ∃ β β' : Fin 3 → ℝ, (∀ i, 0 < β i ∧ 0 < β' i) ∧
    (let R := solve_tool e0 ({} : UAttr heavy) "crema" "newton" (.nodes fun _ => 1 / 2) (.matrix full) "" .other noSteps; R.exc = none ∧ R.g.beta = some β) ∧
    (let R := solve_tool e0 ({} : UAttr grams) "crema" "quasinewton" (.nodes fun _ => 1 / 3) (.matrix full) "" .other noSteps; R.exc = none ∧ R.g.beta = some β') := by
  have l1 : uLookup "crema" "newton" = some (.crema, .newton) := uLookup_name .crema .newton
  have l2 : uLookup "crema" "quasinewton" = some (.crema, .quasinewton) := uLookup_name .crema .quasinewton
  refine ⟨fun _ => 1 / 2, fun _ => 1 / 3, by intro i; norm_num, ?_, ?_⟩
  · obtain ⟨b, k1, k3⟩ := C53_crema_start e0 ({} : UAttr heavy) .newton "" .other noSteps rfl full fun _ => 1 / 2
    refine ⟨?_, k1.trans (congrArg some (funext fun i => ?_))⟩
    · simp [solve_tool, solveProblemCrema, noSteps_run, solveCremaTail, guessCrema, l1, solutionError, setSolvedCrema, degreeError, strengthError]
    · simpa [heavy_ne] using k3 i
  · obtain ⟨b, k1, k3⟩ := C53_crema_start e0 ({} : UAttr grams) .quasinewton "" .other noSteps rfl full fun _ => 1 / 3
    refine ⟨?_, k1.trans (congrArg some (funext fun i => ?_))⟩
    · simp [solve_tool, solveProblemCrema, noSteps_run, solveCremaTail, guessCrema, l2, solutionError, setSolvedCrema, degreeError, strengthError]
    · simpa [grams, heavy_ne] using k3 i

example := C76_crema (d := heavy) (d' := grams) (u := 1000) (a := full) (by norm_num) rfl (fun i j => by simp [full, eq_comm]) (fun i => by simp [full])
  (fun i j => by unfold full; split <;> norm_num) e0 e0 {} {} .newton .quasinewton (.nodes fun _ => 1 / 2) (.nodes fun _ => 1 / 3) "" "" .other .other noSteps noSteps

example := C76_dcrema (d := heavyD) (d' := gramsD) (u := 1000) (a := full) (by norm_num) ⟨rfl, rfl⟩ rfl rfl
  (fun i j => by unfold full; split <;> norm_num) e0 e0 {} {} .newton .quasinewton (.pairs fun _ => 1 / 2) (.pairs fun _ => 1 / 3) "" "" .other .other noSteps noSteps

end

end Verif.Wit
