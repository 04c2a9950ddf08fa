import Verif.Witness.Sample
import Verif.Props.CremaLaw2

/-! Instances of the theorems about the law of the networks sampled after crema (C70). -/

namespace Verif.Wit

open Spec Finset Solve MeasureTheory ProbabilityTheory Sampler

noncomputable section

def Ω1 : Type := idealExp_exists.choose
instance : MeasurableSpace Ω1 := idealExp_exists.choose_spec.choose
def P1 : Measure Ω1 := idealExp_exists.choose_spec.choose_spec.choose
def U1 : ℕ → Ω1 → I01 := idealExp_exists.choose_spec.choose_spec.choose_spec.choose
def X1 : ℕ → Ω1 → ℝ := idealExp_exists.choose_spec.choose_spec.choose_spec.choose_spec.choose
theorem src1 : IsProbabilityMeasure P1 ∧ UniformSource P1 U1 ∧ ExponentialSource P1 U1 X1 ∧ IndependentSeedsE P1 U1 X1 :=
  idealExp_exists.choose_spec.choose_spec.choose_spec.choose_spec.choose_spec
instance : IsProbabilityMeasure P1 := src1.1
theorem X1_nn (s ω) : 0 ≤ X1 s ω := src1.2.2.1.nonneg s ω

theorem exDet {n : ℕ} (bo bi : Fin n → ℝ) (adj : List (Fin n × Fin n)) (hb : ∀ e ∈ adj, 0 < bo e.1 + bi e.2) : ∃ sample, SampleCremaDet R0 U1 X1 X1_nn bo bi adj (some 0) s0 sample :=
  ⟨_, fun ω => ⟨seqEnv _, seqEnv_complete _, (C21_crema_det (R0.idealExp (U1 · ω) (X1 · ω) (X1_nn · ω)) bo bi adj hb (seqEnv _) (seqEnv_complete _) (some 0) s0).choose_spec.1⟩⟩
theorem exProb {n : ℕ} (bo bi : Fin n → ℝ) (adj : List (Fin n × Fin n × ℝ)) (hb : ∀ e ∈ adj, 0 < bo e.1 + bi e.2.1) : ∃ sample, SampleCremaProb R0 U1 X1 X1_nn bo bi adj (some 0) s0 sample :=
  ⟨_, fun ω => ⟨seqEnv _, seqEnv_complete _, (C21_crema_prob (R0.idealExp (U1 · ω) (X1 · ω) (X1_nn · ω)) bo bi adj hb (seqEnv _) (seqEnv_complete _) (some 0) s0).choose_spec.1⟩⟩
theorem exSparse {n : ℕ} (bo bi x y : Fin n → ℝ) (hb : ∀ i j, i ≠ j → 0 < bo i + bi j) : ∃ sample, SampleCremaSparse R0 U1 X1 X1_nn bo bi x y (some 0) s0 sample :=
  ⟨_, fun ω => ⟨seqEnv _, seqEnv_complete _, crema_sparse_edges_eq (R0.idealExp (U1 · ω) (X1 · ω) (X1_nn · ω)) bo bi x y hb (seqEnv _) (seqEnv_complete _) (some 0) s0⟩⟩

/-- a path on three nodes -/
def pathL : List (Fin 3 × Fin 3) := [(0, 1), (1, 2)]
/-- link probabilities 1/2 -/
def pathP : List (Fin 3 × Fin 3 × ℝ) := [(0, 1, 1 / 2), (1, 2, 1 / 2)]
def h3 : Fin 3 → ℝ := fun _ => 1 / 2
theorem h3_pos (i j : Fin 3) : 0 < h3 i + h3 j := by norm_num [h3]
theorem h3_nn (i : Fin 3) : 0 ≤ h3 i := by norm_num [h3]
theorem pathP_b : ∀ e ∈ pathP, 0 ≤ e.2.2 ∧ e.2.2 ≤ 1 := by
  intro e he
  simp only [pathP, List.mem_cons, List.not_mem_nil, or_false] at he
  rcases he with rfl | rfl <;> norm_num
theorem pathP_n : (pathP.map fun e => (e.1, e.2.1)).Nodup := by
  show [((0 : Fin 3), (1 : Fin 3)), (1, 2)].Nodup
  decide

theorem seedsPath : (drawSeeds R0 pathP.length (reseed R0 (some 0) s0.1)).1.Nodup := by
  show (drawSeeds (constRng 0 le_rfl one_pos) 2 (0 : ℕ)).1.Nodup
  decide
theorem seedsNe3 : (drawSeeds R0 (pairsNe 3).length (reseed R0 (some 0) s0.1)).1.Nodup := by
  rw [show (pairsNe 3).length = 6 by decide]
  show (drawSeeds (constRng 0 le_rfl one_pos) 6 (0 : ℕ)).1.Nodup
  decide

example := C70_crema_given_weight_law src1.2.2.1 (adj := pathL) (by decide) (fun _ _ => h3_pos _ _) (exDet h3 h3 pathL fun _ _ => h3_pos _ _).choose_spec (i := 1) (j := 2) (by decide) (t := 3) (by norm_num)
example := C70_crema_weight_law src1.2.2.1 pathP_n (fun _ _ => h3_pos _ _) pathP_b (exProb h3 h3 pathP fun _ _ => h3_pos _ _).choose_spec (i := 0) (j := 1) (p := 1 / 2) (by simp [pathP]) (t := 3) (by norm_num)
example := C70_crema_sparse_weight_law src1.2.2.1 (fun i j _ => h3_pos i j) h3_nn h3_nn (exSparse h3 h3 h3 h3 fun i j _ => h3_pos i j).choose_spec (i := 0) (j := 1) (by decide) (t := 3) (by norm_num)
example := C70_crema_network_law src1.2.1 src1.2.2.1 src1.2.2.2 pathP_n (fun _ _ => h3_pos _ _) pathP_b (exProb h3 h3 pathP fun _ _ => h3_pos _ _).choose_spec seedsPath (fun i _ => decide (i = 0)) (fun _ _ => 2)
  fun _ _ => zero_le_two
example := C70_crema_sparse_network_law src1.2.1 src1.2.2.1 src1.2.2.2 (fun i j _ => h3_pos i j) h3_nn h3_nn (exSparse h3 h3 h3 h3 fun i j _ => h3_pos i j).choose_spec seedsNe3 (fun i _ => decide (i = 0)) (fun _ _ => 2)
  fun _ _ => zero_le_two

/-- three nodes, every pair linked with probability 1/2 -/
def halfM : Fin 3 → Fin 3 → ℝ := fun i j => if i = j then 0 else 1 / 2
theorem halfM_symm (i j) : halfM i j = halfM j i := by simp [halfM, eq_comm]
theorem halfM_diag (i) : halfM i i = 0 := by simp [halfM]
theorem halfM_b (i j) : 0 ≤ halfM i j ∧ halfM i j ≤ 1 := by unfold halfM; split <;> norm_num

example := C70_crema_mean_strength src1.2.1 src1.2.2.1 halfM_symm halfM_diag halfM_b (fun i j _ => h3_pos i j) (exProb h3 h3 (triuEdges halfM) fun _ _ => h3_pos _ _).choose_spec 0
example := C70_crema_given_mean_strength_partial src1.2.1 src1.2.2.1 halfM_symm halfM_diag (fun i j _ => h3_pos i j) (exDet h3 h3 ((triuEdges halfM).map fun t => (t.1, t.2.1)) fun _ _ => h3_pos _ _).choose_spec 0
example := C70_crema_sparse_undirected_doubles src1.2.1 src1.2.2.1 (fun i j _ => h3_pos i j) h3_nn (exSparse h3 h3 h3 h3 fun i j _ => h3_pos i j).choose_spec 0
example := C70_dcrema_mean_strengths src1.2.1 src1.2.2.1 halfM_b (fun i j _ => h3_pos i j) (exProb h3 h3 (nzEdges halfM) fun _ _ => h3_pos _ _).choose_spec 0
example := C70_dcrema_given_mean_strengths_partial src1.2.1 src1.2.2.1 (fun i j _ => h3_pos i j) (exDet h3 h3 ((nzEdges halfM).map fun t => (t.1, t.2.1)) fun _ _ => h3_pos _ _).choose_spec 0
example := C70_dcrema_sparse_mean_strengths src1.2.1 src1.2.2.1 (fun i j _ => h3_pos i j) h3_nn h3_nn (exSparse h3 h3 h3 h3 fun i j _ => h3_pos i j).choose_spec 0
example := C70_crema_given_probabilities_ignored R0 (h0 := X1_nn) src1.2.1 src1.2.2.1

theorem ringM_01 (i j) : ringM i j = 0 ∨ ringM i j = 1 := by unfold ringM; split <;> simp
theorem turnM_01 (i j) : turnM i j = 0 ∨ turnM i j = 1 := by unfold turnM; split <;> simp

example := C70_crema_sampled_strength e0 R0 (h0 := X1_nn) src1.2.1 src1.2.2.1 (d := ringData) {} .newton .newton (.nodes fun _ => 1) (.nodes fun _ => 1) p0
example := C70_crema_given_sampled_strength_partial e0 R0 (h0 := X1_nn) src1.2.1 src1.2.2.1 (d := ringData) {} .newton (.nodes fun _ => 1) ringM ringM_symm ringM_diag ringM_01 "" .other p0
example := C70_crema_sparse_sampled_strength_doubled e0 R0 (h0 := X1_nn) src1.2.1 src1.2.2.1 (d := ringData) {} .quasinewton .newton (by simp) (.nodes fun _ => 1) (.nodes fun _ => 1) p0
example := C70_dcrema_sampled_strengths e0 R0 (h0 := X1_nn) src1.2.1 src1.2.2.1 (d := turnData) {} rfl .newton .dcm (Or.inl rfl) "newton" (.pairs fun _ => 1) (.pairs fun _ => 1) p0
example := C70_dcrema_given_sampled_strengths_partial e0 R0 (h0 := X1_nn) src1.2.1 src1.2.2.1 (d := turnData) {} rfl .newton (.pairs fun _ => 1) turnM turnM_01 "" .other p0

/-- and a call that returns parameters in the domain of the model -/
example : ∃ g : UAttr ringData, (solve_tool e0 ({} : UAttr ringData) "crema" "newton" (.nodes fun _ => 1) (.matrix ringM) "" .other { max_steps := 0 }).exc = none ∧
    (solve_tool e0 ({} : UAttr ringData) "crema" "newton" (.nodes fun _ => 1) (.matrix ringM) "" .other { max_steps := 0 }).g = g ∧ ∃ β, g.beta = some β ∧ ∀ i j, 0 < β i + β j := by
  have he := solve_tool_crema_matrix e0 ({} : UAttr ringData) .newton (.nodes fun _ => 1) ringM "" .other { max_steps := 0 } (b := _) (guess' := _) rfl
  simp only [solver_no_step _ (({ max_steps := 0 } : Params).opts Method.newton.name) _ rfl] at he
  refine ⟨_, ?_, rfl, ?_⟩
  · refine (congrArg UResult.exc he).trans ?_
    simp [solutionError, setSolvedCrema, degreeError, strengthError]
  · have h2 := congrArg (fun r : UResult ringData => r.g.beta) he
    refine ⟨_, h2.trans (solutionError_keeps e0 _).2.2.1, fun i j => ?_⟩
    have hz (k : Fin 5) : ¬ ringData.strength_sequence k = 0 := (ring_pos.2 k).ne'
    show 0 < maskSet (fun _ => (1 : ℝ)) (fun i => ringData.strength_sequence i = 0) 0 i + maskSet (fun _ => (1 : ℝ)) (fun i => ringData.strength_sequence i = 0) 0 j
    simp only [maskSet, hz, if_false]
    norm_num

end

end Verif.Wit
