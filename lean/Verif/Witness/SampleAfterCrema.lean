import Verif.Props.SampleAfterCrema
import Verif.Witness.SampleAfter
import Verif.Witness.Crema

/-! Concrete cases for `Props/SampleAfterCrema`: calls that return, at parameters inside the domain. -/

namespace Verif.Wit

open Spec Solve Solver MeasureTheory ProbabilityTheory Sampler

noncomputable section

theorem tri_s (i : Fin 3) : tri.strength_sequence i ≠ 0 := by change (2 : ℝ) ≠ 0; norm_num
theorem triD_so (i : Fin 3) : triD.out_strength i ≠ 0 := by change (2 : ℝ) ≠ 0; norm_num
theorem triD_si (i : Fin 3) : triD.in_strength i ≠ 0 := by change (2 : ℝ) ≠ 0; norm_num

theorem mask_f {A : Type} (v : A → ℝ) : maskSet v (fun _ => False) 0 = v := by funext i; simp [maskSet]

theorem mask_nn {A : Type} (Q : A → Prop) (i : A) : 0 ≤ maskSet (fun _ => (1 : ℝ)) Q 0 i := by
  unfold maskSet; split <;> norm_num

/-- the second of two files; every pair has the seeds it needs if those drawn are distinct -/
example : ∃ (x b : Fin 3 → ℝ) (sample : Ω1 → List (ℕ × ℕ × ℝ)), ∀ i : Fin 3, ∫ ω, weightAt (sample ω) i ∂P1 = strCReMa (linkUBCM x) b i := by
  have h := C80_crema_law (R := R0) (h0 := X1_nn) src1.2.1 src1.2.2.1 src1.2.2.2 e0 (d := tri) {} "newton" (.nodes fun _ => 1) "cm" (.inl rfl) "newton" (.nodes fun _ => 1) noSteps (by
    simp [solve_tool, solveProblemCrema, solveCremaTail, guessCrema, setSolvedCrema, solveProblem, guessCM, look, noSteps_run, noSteps_run', solutionError, setSolvedCM, degreeError, strengthError])
  have k : (solve_tool e0 ({} : UAttr tri) "crema" "newton" (.nodes fun _ => 1) (.name "cm") "newton" (.nodes fun _ => 1) noSteps).g.x =
        some (fun i => maskSet (fun _ => 1) (fun q => tri.k q = 0) 0 (tri.inv i)) ∧
      (solve_tool e0 ({} : UAttr tri) "crema" "newton" (.nodes fun _ => 1) (.name "cm") "newton" (.nodes fun _ => 1) noSteps).g.beta = some (fun _ => 1) := by
    constructor <;> simp [solve_tool, solveProblemCrema, solveCremaTail, guessCrema, setSolvedCrema, solveProblem, guessCM, look, noSteps_run, noSteps_run', solutionError, setSolvedCM,
      degreeError, strengthError, initState, mask_f, tri_s]
  obtain ⟨x, b, hx, hb, H⟩ := h
  obtain rfl := Option.some.inj (hx.symm.trans k.1)
  obtain rfl := Option.some.inj (hb.symm.trans k.2)
  obtain ⟨sample, -, -, m⟩ := H (fun i => mask_nn _ _) (fun _ _ _ _ => by norm_num) 2 "sample/" (some 0) s0 (fun _ => "w") (fun ω _ => seqEnv _) (fun ω _ => seqEnv_complete _) (fun _ => s0) 1 _ rfl
  exact ⟨_, _, sample, m⟩

example : ∃ (x y bo bi : Fin 3 → ℝ) (sample : Ω1 → List (ℕ × ℕ × ℝ)), ∀ i : Fin 3, ∫ ω, weightOut (sample ω) i ∂P1 = outStrCReMa (linkMatrixD (active triD.degOut x) (active triD.degIn y)) bo bi i := by
  have h := C80_dcrema_law (R := R0) (h0 := X1_nn) src1.2.1 src1.2.2.1 src1.2.2.2 e0 (d := triD) {} "newton" (.pairs fun _ => 1) "dcm" (.inl rfl) "newton" (.pairs fun _ => 1) noSteps (by
    simp [solve_tool_directed, solveProblemDCrema, solveDCremaTail, guessDCrema, setSolvedDCrema, solveProblemD, guessDCM, lookD, noSteps_run, noSteps_run', triD_known, solutionErrorD, setSolvedDCM, degreeErrorD, strengthErrorD])
  obtain ⟨x, y, bo, bi, hx, hy, ho, hi, H⟩ := h
  have h1 : ∀ i, 0 ≤ x i ∧ 0 ≤ y i := by
    simp [solve_tool_directed, solveProblemDCrema, solveDCremaTail, guessDCrema, setSolvedDCrema, solveProblemD, guessDCM, lookD, noSteps_run, noSteps_run', triD_known, solutionErrorD, setSolvedDCM,
        degreeErrorD, strengthErrorD, initState] at hx hy
    subst hx hy
    exact fun i => ⟨mask_nn _ _, mask_nn _ _⟩
  have h2 : ∀ i j, linkMatrixD (active triD.degOut x) (active triD.degIn y) i j ≠ 0 → 0 < bo i + bi j := by
    simp [solve_tool_directed, solveProblemDCrema, solveDCremaTail, guessDCrema, setSolvedDCrema, solveProblemD, guessDCM, lookD, noSteps_run, noSteps_run', triD_known, solutionErrorD, setSolvedDCM,
        degreeErrorD, strengthErrorD, initState, mask_f, triD_so, triD_si, cat2] at ho hi
    subst ho hi
    exact fun i j _ => by norm_num
  obtain ⟨sample, -, -, m⟩ := H h1 h2 2 "sample/" (some 0) s0 (fun _ => "w") (fun ω _ => seqEnv _) (fun ω _ => seqEnv_complete _) (fun _ => s0) 1 _ rfl
  exact ⟨_, _, _, _, sample, fun i => (m i).1⟩

example : ∃ (x y bo bi : Fin 3 → ℝ) (sample : Ω1 → List (ℕ × ℕ × ℝ)), ∀ i : Fin 3, ∫ ω, weightOut (sample ω) i ∂P1 = outStrCReMa (linkMatrixD x y) bo bi i := by
  have h := C80_dcrema_sparse_law (R := R0) (h0 := X1_nn) src1.2.1 src1.2.2.1 src1.2.2.2 e0 (d := triD) {} "quasinewton" (.pairs fun _ => 1) "dcm" (.inl rfl) "newton" (.pairs fun _ => 1) noSteps (by
    simp [solve_tool_directed, solveProblemDCrema, solveDCremaTail, guessDCrema, setSolvedDCrema, solveProblemD, guessDCM, lookD, noSteps_run, noSteps_run', triD_known, solutionErrorD, setSolvedDCM, degreeErrorD, strengthErrorD])
  obtain ⟨x, y, bo, bi, hx, hy, ho, hi, H⟩ := h
  have h1 : ∀ i, 0 ≤ x i ∧ 0 ≤ y i := by
    simp [solve_tool_directed, solveProblemDCrema, solveDCremaTail, guessDCrema, setSolvedDCrema, solveProblemD, guessDCM, lookD, noSteps_run, noSteps_run', triD_known, solutionErrorD, setSolvedDCM,
        degreeErrorD, strengthErrorD, initState] at hx hy
    subst hx hy
    exact fun i => ⟨mask_nn _ _, mask_nn _ _⟩
  have h2 : ∀ i j, i ≠ j → 0 < bo i + bi j := by
    simp [solve_tool_directed, solveProblemDCrema, solveDCremaTail, guessDCrema, setSolvedDCrema, solveProblemD, guessDCM, lookD, noSteps_run, noSteps_run', triD_known, solutionErrorD, setSolvedDCM,
        degreeErrorD, strengthErrorD, initState, mask_f, triD_so, triD_si, cat2] at ho hi
    subst ho hi
    exact fun i j _ => by norm_num
  obtain ⟨sample, -, -, m⟩ := H h1 h2 2 "sample/" (some 0) s0 (fun _ => "w") (fun ω _ => seqEnv _) (fun ω _ => seqEnv_complete _) (fun _ => s0) 1 _ rfl
  exact ⟨_, _, _, _, sample, fun i => (m i).1⟩

/-- a given matrix: the triangle with weights 1/2 -/
def half3 : Fin 3 → Fin 3 → ℝ := fun i j => if i = j then 0 else 1 / 2

example : ∃ (b : Fin 3 → ℝ) (sample : Ω1 → List (ℕ × ℕ × ℝ)), ∀ i : Fin 3, ∫ ω, weightAt (sample ω) i ∂P1 = strCReMa (pattern half3) b i := by
  have h := C80_crema_given_law (R := R0) (h0 := X1_nn) src1.2.1 src1.2.2.1 src1.2.2.2 e0 (d := tri) {} "newton" (.nodes fun _ => 1) half3 (fun i j => by simp [half3, eq_comm])
    (fun i => by simp [half3]) "" .other noSteps (by
    simp [solve_tool, solveProblemCrema, solveCremaTail, guessCrema, setSolvedCrema, look, noSteps_run, noSteps_run', solutionError, degreeError, strengthError])
  obtain ⟨b, hb, H⟩ := h
  have h1 : ∀ i j, half3 i j ≠ 0 → 0 < b i + b j := by
    simp [solve_tool, solveProblemCrema, solveCremaTail, guessCrema, setSolvedCrema, look, noSteps_run, noSteps_run', solutionError, degreeError, strengthError, initState, mask_f, tri_s] at hb
    subst hb
    exact fun i j _ => by norm_num
  obtain ⟨sample, -, -, m⟩ := H h1 2 "sample/" (some 0) s0 (fun _ => "w") (fun ω _ => seqEnv _) (fun ω _ => seqEnv_complete _) (fun _ => s0) 1 _ rfl
  exact ⟨_, sample, fun i => m i⟩

example : ∃ (bo bi : Fin 3 → ℝ) (sample : Ω1 → List (ℕ × ℕ × ℝ)), ∀ i : Fin 3, ∫ ω, weightOut (sample ω) i ∂P1 = outStrCReMa (pattern half3) bo bi i := by
  have h := C80_dcrema_given_law (R := R0) (h0 := X1_nn) src1.2.1 src1.2.2.1 src1.2.2.2 e0 (d := triD) {} "newton" (.pairs fun _ => 1) half3 "" .other noSteps (by
    simp [solve_tool_directed, solveProblemDCrema, solveDCremaTail, guessDCrema, setSolvedDCrema, lookD, noSteps_run, noSteps_run', triD_known, solutionErrorD, degreeErrorD, strengthErrorD])
  obtain ⟨bo, bi, ho, hi, H⟩ := h
  have h1 : ∀ i j, half3 i j ≠ 0 → 0 < bo i + bi j := by
    simp [solve_tool_directed, solveProblemDCrema, solveDCremaTail, guessDCrema, setSolvedDCrema, lookD, noSteps_run, noSteps_run', triD_known, solutionErrorD, degreeErrorD, strengthErrorD,
      initState, mask_f, triD_so, triD_si, cat2] at ho hi
    subst ho hi
    exact fun i j _ => by norm_num
  obtain ⟨sample, -, -, m⟩ := H h1 2 "sample/" (some 0) s0 (fun _ => "w") (fun ω _ => seqEnv _) (fun ω _ => seqEnv_complete _) (fun _ => s0) 1 _ rfl
  exact ⟨_, _, sample, fun i => (m i).1⟩

end

end Verif.Wit
