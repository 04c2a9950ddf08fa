import Verif.Witness.Solve2
import Verif.Witness.Graphs
import Verif.Props.EndToEnd
import Verif.Props.SamplerLaw2
import Verif.Props.Ensemble

/-! Instances of the theorems about sampling (C19-C24, C41, C55), about the whole pipeline (C52) and about the motif ensemble (C30, C43). -/

namespace Verif.Wit

open Spec Finset Solve MeasureTheory ProbabilityTheory Sampler

noncomputable section

/-! ### the samplers on a concrete generator, two workers, tasks in reverse order -/

def R0 : Rng := constRng 0 le_rfl one_pos
def E0 : Sampler.Env R0 := revEnv R0
theorem E0_c (T) : (E0 T).Complete := revEnv_complete R0 T
def g0 : R0.S := (7 : ℕ)
def h5 : Fin 5 → ℝ := fun _ => 1 / 2
def o5 : Fin 5 → ℝ := fun _ => 1
theorem h5_lt (i j : Fin 5) : 0 ≤ h5 i * h5 j ∧ h5 i * h5 j < 1 := by norm_num [h5]
theorem h5_pos (i j : Fin 5) : 0 < h5 i + h5 j := by norm_num [h5]

def fit (m : String) (a : Bool) : Fitted 5 :=
  { last_model := m, adjacency_given := a, x := o5, y := h5, b_out := h5, b_in := h5, adjTriples := [(0, 1, 1), (1, 2, 1)], adjX := o5, adjY := o5 }

example := C20_arcs R0 o5 o5 E0 E0_c (some 3) g0
example := C21_ecm R0 o5 h5 (fun i j _ => h5_lt i j) E0 E0_c (some 3) g0
example := C21_decm R0 o5 o5 h5 h5 (fun i j _ => h5_lt i j) E0 E0_c (some 3) g0
example := C21_ecm_outside_domain_raises R0 E0 E0_c (some 3) g0
example := C21_crema_det R0 h5 h5 [(0, 1), (1, 2)] (fun _ _ => h5_pos _ _) E0 E0_c (some 3) g0
example := C21_crema_prob R0 h5 h5 [(0, 1, 1 / 2), (1, 2, 1)] (fun _ _ => h5_pos _ _) E0 E0_c (some 3) g0
example := C21_crema_sparse_directed R0 h5 h5 o5 o5 (fun i j _ => h5_pos i j) E0 E0_c (some 3) g0
example := C22_undirected R0 (fit "ecm" false) 4 "out/" 3 (fun _ => "1.5") g0 g0 (fun _ => E0) (fun _ => seqEnv R0) (fun _ => E0_c) (fun _ => seqEnv_complete R0) (fun _ => g0) fun _ => g0
example := C22_directed R0 (fit "decm" false) 4 "out/" 3 (fun _ => "1.5") g0 g0 (fun _ => E0) (fun _ => seqEnv R0) (fun _ => E0_c) (fun _ => seqEnv_complete R0) (fun _ => g0) fun _ => g0
example := C22_writes_nothing R0 (fit "crema-sparse" true) rfl rfl 4 "out/" none (fun _ => "1.5") g0 (fun _ => E0) fun _ => g0
example := C22_unsolved_raises R0 (fit "" false) rfl 4 "out/" none (fun _ => "1.5") g0 (fun _ => E0) fun _ => g0
example := C19_files R0 (fit "cm" false) (.inl rfl) 4 "out/" none (fun _ => "1.5") g0 (fun _ => E0) (fun _ => E0_c) fun _ => g0
example := C20_files R0 (fit "dcm" false) (.inl rfl) 4 "out/" none (fun _ => "1.5") g0 (fun _ => E0) (fun _ => E0_c) fun _ => g0
example := C21_ecm_files R0 (fit "ecm" false) (.inl rfl) (fun i j _ => h5_lt i j) 4 "out/" none (fun _ => "1.5") g0 (fun _ => E0) (fun _ => E0_c) fun _ => g0
example := C21_decm_files R0 (fit "decm" false) (.inl rfl) (fun i j _ => h5_lt i j) 4 "out/" none (fun _ => "1.5") g0 (fun _ => E0) (fun _ => E0_c) fun _ => g0
example := let h := (C19_files R0 (fit "cm" false) (.inl rfl) (2 + 2) "out/" none (fun _ => "1.5") g0 (fun _ => E0) (fun _ => E0_c) fun _ => g0).choose_spec
  C22_undirected_files R0 (fit "cm" false) (by simp [fit]) 2 2 "out/" none (fun _ => "1.5") g0 (fun _ => E0) (fun _ => g0) _ h.1
example := let h := (C20_files R0 (fit "dcm" false) (.inl rfl) (2 + 2) "out/" none (fun _ => "1.5") g0 (fun _ => E0) (fun _ => E0_c) fun _ => g0).choose_spec
  C22_directed_files R0 (fit "dcm" false) (by simp [fit]) 2 2 "out/" none (fun _ => "1.5") g0 (fun _ => E0) (fun _ => g0) _ h.1

theorem se3 : SimpleEdges 3 [(0, 1), (1, 2)] := ⟨by decide, by simp [LexLt], by decide⟩
theorem sa3 : SimpleArcs 3 [(0, 1), (1, 2)] := ⟨by decide, by simp [LexLt], by decide⟩
theorem cov3 (k : ℕ) (hk : k < 3) : ∃ e ∈ ([(0, 1), (1, 2)] : List (ℕ × ℕ)), e.1 = k ∨ e.2 = k := (seen3 k).1 hk

example := C24_undirected_roundtrip _ se3 cov3
example := C24_directed_roundtrip _ sa3 cov3
example := C24_isolated_node_lost (n := 3) [(1, 2)] ⟨by decide, by simp, by decide⟩ 0 (by norm_num) (by decide)

example := C41_sample_cm R0 (fun _ : Fin 5 => 0) E0 E0_c (some 3) g0 0 rfl
example := C41_sample_dcm R0 o5 o5 E0 E0_c (some 3) g0

/-! ### the law, on an ideal source of random numbers -/

def Ω0 : Type := ideal_independent_exists.choose
instance : MeasurableSpace Ω0 := ideal_independent_exists.choose_spec.choose
def P0 : Measure Ω0 := ideal_independent_exists.choose_spec.choose_spec.choose
def U0 : ℕ → Ω0 → I01 := ideal_independent_exists.choose_spec.choose_spec.choose_spec.choose
def G0 : ℕ → ℝ → Ω0 → ℕ := ideal_independent_exists.choose_spec.choose_spec.choose_spec.choose_spec.choose
theorem src : IsProbabilityMeasure P0 ∧ UniformSource P0 U0 ∧ iIndepFun U0 P0 ∧ GeometricSource P0 U0 G0 ∧ IndependentSeeds P0 U0 G0 :=
  ideal_independent_exists.choose_spec.choose_spec.choose_spec.choose_spec.choose_spec
instance : IsProbabilityMeasure P0 := src.1
theorem G0_pos (s q ω) : 1 ≤ G0 s q ω := src.2.2.2.1.pos s q ω

def s0 : R0.S × Option ℕ := ((7 : ℕ), none)

theorem exCM {n : ℕ} (x : Fin n → ℝ) : ∃ sample, SampleCM R0 U0 G0 G0_pos x (some 0) s0 sample :=
  ⟨_, fun ω => ⟨seqEnv _, seqEnv_complete _, (C19_edges (R0.ideal (U0 · ω) (fun s q => G0 s q ω) (G0_pos · · ω)) x (seqEnv _) (seqEnv_complete _) (some 0) s0).choose_spec.1⟩⟩
theorem exDCM {n : ℕ} (x y : Fin n → ℝ) : ∃ sample, SampleDCM R0 U0 G0 G0_pos x y (some 0) s0 sample :=
  ⟨_, fun ω => ⟨seqEnv _, seqEnv_complete _, (C20_arcs (R0.ideal (U0 · ω) (fun s q => G0 s q ω) (G0_pos · · ω)) x y (seqEnv _) (seqEnv_complete _) (some 0) s0).choose_spec.1⟩⟩
theorem exECM {n : ℕ} (x y : Fin n → ℝ) (hy : ∀ i j, i < j → 0 ≤ y i * y j ∧ y i * y j < 1) : ∃ sample, SampleECM R0 U0 G0 G0_pos x y (some 0) s0 sample :=
  ⟨_, fun ω => ⟨seqEnv _, seqEnv_complete _, (C21_ecm (R0.ideal (U0 · ω) (fun s q => G0 s q ω) (G0_pos · · ω)) x y hy (seqEnv _) (seqEnv_complete _) (some 0) s0).choose_spec.1⟩⟩
theorem exDECM {n : ℕ} (x y a b : Fin n → ℝ) (hy : ∀ i j, i ≠ j → 0 ≤ a i * b j ∧ a i * b j < 1) : ∃ sample, SampleDECM R0 U0 G0 G0_pos x y a b (some 0) s0 sample :=
  ⟨_, fun ω => ⟨seqEnv _, seqEnv_complete _, (C21_decm (R0.ideal (U0 · ω) (fun s q => G0 s q ω) (G0_pos · · ω)) x y a b hy (seqEnv _) (seqEnv_complete _) (some 0) s0).choose_spec.1⟩⟩

theorem seedsLt : (drawSeeds R0 (pairsLt 5).length (reseed R0 (some 0) s0.1)).1.Nodup := by
  rw [show (pairsLt 5).length = 10 by decide]
  show (drawSeeds (constRng 0 le_rfl one_pos) 10 (0 : ℕ)).1.Nodup
  decide
theorem seedsNe : (drawSeeds R0 (pairsNe 5).length (reseed R0 (some 0) s0.1)).1.Nodup := by
  rw [show (pairsNe 5).length = 20 by decide]
  show (drawSeeds (constRng 0 le_rfl one_pos) 20 (0 : ℕ)).1.Nodup
  decide
theorem o5_nn (i : Fin 5) : 0 ≤ o5 i := zero_le_one

def sol2 : Fin 2 × Fin 5 → ℝ := fun v => if v.1 = 0 then 1 else 1 / 2
def sol4 : Fin 4 × Fin 5 → ℝ := fun v => if v.1 = 0 ∨ v.1 = 1 then 1 else 1 / 2

example := C23_cm_link_probability src.2.1 o5_nn (exCM o5).choose_spec 0 1 (by decide)
example := C23_cm_mean_degree src.2.1 o5_nn (exCM o5).choose_spec 0
example := C23_cm_mean_degree_observed src.2.1 ringData.dseq (fun _ => 1) (fun _ => one_pos) ring_cm.2 (exCM _).choose_spec 0
example := C23_dcm_link_probability src.2.1 o5_nn o5_nn (exDCM o5 o5).choose_spec 0 1 (by decide)
example := C23_dcm_mean_degrees src.2.1 (fun _ : Fin 2 × Fin 5 => 1) (fun _ => zero_le_one) (exDCM _ _).choose_spec 0
example := C23_cm_graph_law src.2.1 src.2.2.1 o5_nn (exCM o5).choose_spec seedsLt fun _ => true
example := C23_dcm_graph_law src.2.1 src.2.2.1 o5_nn o5_nn (exDCM o5 o5).choose_spec seedsNe fun _ => true
example := C23_cm_large_networks_dependent (n := 1415) le_rfl (exCM fun _ => 1).choose_spec
example := C23_ecm_weight_law src.2.2.2.1 o5_nn (fun i j _ => h5_lt i j) (exECM o5 h5 fun i j _ => h5_lt i j).choose_spec 0 1 (by decide) 3
example := C23_decm_weight_law src.2.2.2.1 o5_nn o5_nn (fun i j _ => h5_lt i j) (exDECM o5 o5 h5 h5 fun i j _ => h5_lt i j).choose_spec 0 1 (by decide) 3
example := C23_ecm_means src.2.1 src.2.2.2.1 sol2 (fun _ => by norm_num [sol2]) (fun _ _ _ => by norm_num [sol2]) (exECM _ _ fun _ _ _ => by norm_num [sol2]).choose_spec 0
example := C23_decm_means src.2.1 src.2.2.2.1 sol4 (fun _ => by norm_num [sol4]) (fun _ => by norm_num [sol4]) (fun _ _ _ => by norm_num [sol4, Fin.ext_iff])
  (exDECM _ _ _ _ fun _ _ _ => by norm_num [sol4, Fin.ext_iff]).choose_spec 0

/-- a digraph on five nodes -/
theorem di5 : IsDigraph (fun i j : Fin 5 => decide (j = i + 1)) := ⟨fun i => by fin_cases i <;> rfl⟩
theorem di5w : IsDigraph (fun i j : Fin 5 => if j = i + 1 then 3 else 0) := ⟨fun i => by fin_cases i <;> rfl⟩

example := C55_cm_network_probability src.2.1 src.2.2.1 o5_nn (exCM o5).choose_spec seedsLt (ring true).1 (ring true).2
example := C55_dcm_network_probability src.2.1 src.2.2.1 o5_nn o5_nn (exDCM o5 o5).choose_spec seedsNe _ di5
example := C55_ecm_network_probability src.2.1 src.2.2.2.1 src.2.2.2.2 o5_nn (fun i j _ => h5_lt i j) (exECM o5 h5 fun i j _ => h5_lt i j).choose_spec seedsLt (ring 2).1 (ring 2).2
example := C55_decm_network_probability src.2.1 src.2.2.2.1 src.2.2.2.2 o5_nn o5_nn (fun i j _ => h5_lt i j) (exDECM o5 o5 h5 h5 fun i j _ => h5_lt i j).choose_spec seedsNe _ di5w
example := C55_cm_reported (Rn := R0) (G := G0) (hG := G0_pos) src.2.1 src.2.2.1 e0 (d := ringData) {} .cm (.inl rfl) "newton" (.name "degrees") .other "" .other p0 (ring true).1 (ring true).2 ring_cm.1
example := C55_ecm_reported (Rn := R0) (hG := G0_pos) src.2.1 src.2.2.2.1 src.2.2.2.2 e0 (d := ringData) {} .ecm (.inl rfl) "newton" (.name "strengths") .other "" .other p0 (ring 2).1 (ring 2).2 (fun _ => rfl) fun _ => rfl
example := C55_dcm_reported (Rn := R0) (G := G0) (hG := G0_pos) src.2.1 src.2.2.1 e0 (d := turnData) {} "newton" (.name "degrees") .other "" .other p0 (turn true).1 (turn true).2
  (fun i => by fin_cases i <;> decide) (fun i => by fin_cases i <;> decide)
example := C55_decm_reported (Rn := R0) (hG := G0_pos) src.2.1 src.2.2.2.1 src.2.2.2.2 e0 (d := turnData) {} "newton" (.name "strengths") .other "" .other p0 (turn 2).1 (turn 2).2
  (fun _ => rfl) (fun _ => rfl) (fun _ => rfl) fun _ => rfl

/-! ### from the arguments to the samples, C52 -/

open Graph

def seqArgs (k s : List (Option ℝ)) : Args ℕ := { degree_sequence := some (.array k), strength_sequence := some (.array s) }
def k5 : List (Option ℝ) := [some 2, some 2, some 2, some 2, some 2]
def w5 : List (Option ℝ) := [some 4, some 4, some 4, some 4, some 4]
def k6 : List (Option ℝ) := [some 1, some 1, some 1, some 1, some 1, some 1]
def w6 : List (Option ℝ) := [some 2, some 2, some 2, some 2, some 2, some 2]
def tU : Topology ℕ := .degreesStrengths [2, 2, 2, 2, 2] [4, 4, 4, 4, 4]
def tD : Topology ℕ := .degreesStrengths [1, 1, 1, 1, 1, 1] [2, 2, 2, 2, 2, 2]
theorem askU : Asks false (seqArgs k5 w5) tU := .degreesStrengths (l := k5) (k := w5) (Or.inl rfl) (fun o ho => by simp [k5] at ho; exact ⟨2, ho, by norm_num⟩) (by simp [k5]) (by simp)
  (Or.inl rfl) (fun o ho => by simp [w5] at ho; exact ⟨4, ho, by norm_num⟩) (by simp [w5]) (by simp) (by simp [k5, w5])
theorem askD : Asks true (seqArgs k6 w6) tD := .degreesStrengths (l := k6) (k := w6) (Or.inl rfl) (fun o ho => by simp [k6] at ho; exact ⟨1, ho, by norm_num⟩) (by simp [k6]) (by simp [k6])
  (Or.inl rfl) (fun o ho => by simp [w6] at ho; exact ⟨2, ho, by norm_num⟩) (by simp [w6]) (by simp [w6]) (by simp)
def bU : UState ℕ := ((C35_undirected_succeeds_iff _).2 (Or.inl ⟨_, askU⟩)).choose
theorem bU_ok : UndirectedGraph (seqArgs k5 w5) = .ok bU := ((C35_undirected_succeeds_iff _).2 (Or.inl ⟨_, askU⟩)).choose_spec
def bD : DState ℕ := ((C35_directed_succeeds_iff _).2 (Or.inl ⟨_, askD⟩)).choose
theorem bD_ok : DirectedGraph (seqArgs k6 w6) = .ok bD := ((C35_directed_succeeds_iff _).2 (Or.inl ⟨_, askD⟩)).choose_spec
theorem builtU : BuiltU bU tU := ⟨_, bU, some tU, [], bU_ok, fun t ht => by cases ht; exact askU, fun h => (by cases h), .nil _, rfl⟩
theorem builtD : BuiltD bD tD := ⟨_, bD, some tD, [], bD_ok, fun t ht => by cases ht; exact askD, fun h => (by cases h), .nil _, rfl⟩
theorem readsU : ReadsDegrees bU ringData := by
  have h := ((C35_undirected_builds _ _ bU_ok).1 _ askU).2.2.2.2.1
  refine h.trans ?_
  simp [List.ofFn_succ, ringData, ring_degree']
theorem readsUs : ReadsStrengths bU ringData := by
  have h := ((C35_undirected_builds _ _ bU_ok).1 _ askU).2.2.2.2.2.2.1
  refine h.trans ?_
  simp [List.ofFn_succ, ring_str]
theorem halves {α : Type} {l o i : List α} {m : ℕ} (h : l = o ++ i) (hl : o.length = i.length) (hm : l.length = 2 * m) : o = l.take m ∧ i = l.drop m := by
  have : o.length = m := by have := congrArg List.length h; simp at this; omega
  subst h; subst this; simp
theorem readsD : ReadsDegreesD bD turnData := by
  obtain ⟨-, -, ⟨o, i, h1, h2, h3, h4, -⟩, -⟩ := ((C35_directed_builds _ _ bD_ok).1 _ askD).2
  obtain ⟨ho, hi⟩ := halves (m := 3) h1 h2 rfl
  refine ⟨h3.trans ?_, h4.trans ?_⟩
  · rw [ho]; simp [List.ofFn_succ, turn_o]
  · rw [hi]; simp [List.ofFn_succ, turn_i]
theorem readsDs : ReadsStrengthsD bD turnData := by
  obtain ⟨-, -, -, ⟨o, i, h1, h2, -, h3, h4, -⟩⟩ := ((C35_directed_builds _ _ bD_ok).1 _ askD).2
  obtain ⟨ho, hi⟩ := halves (m := 3) h1 h2 rfl
  refine ⟨h3.trans ?_, h4.trans ?_⟩
  · rw [ho]; simp [List.ofFn_succ, turn_so]
  · rw [hi]; simp [List.ofFn_succ, turn_si]
theorem tU_ne (s) : tU ≠ .strengths s := by simp [tU]
theorem tD_ne (s) : tD ≠ .strengths s := by simp [tD]

example := C52_degrees_read builtU readsU tU_ne
example := C52_strengths_read builtU readsUs trivial
example := C52_directed_degrees_read builtD readsD tD_ne
example := C52_directed_strengths_read builtD readsDs trivial
example := C52_readable (g := gU) (t := .weightedLinks wl) ⟨_, gU, some _, [], gU_ok, fun t ht => by cases ht; exact wl_asks false, fun h => (by cases h), .nil _, rfl⟩ (.inr (.inr ⟨_, rfl⟩))
example := C52_cm (R := R0) (G := G0) (hG := G0_pos) builtU readsU tU_ne ring_deg e0 e0_valid e0_draws {} .newton (by decide) "degrees" .other "" .other p0 rfl rfl src.2.1
example := C52_cm_exp (R := R0) (G := G0) (hG := G0_pos) builtU readsU tU_ne e0 {} .newton (by decide) (.name "degrees") .other "" .other p0 rfl src.2.1
example := C52_ecm_exp (R := R0) (hG := G0_pos) builtU readsU readsUs tU_ne trivial ring_pos e0 e0_valid e0_draws {} .newton (by decide) "strengths" .other "" .other p0 rfl rfl src.2.1 src.2.2.2.1
example := C52_dcm (R := R0) (G := G0) (hG := G0_pos) builtD readsD tD_ne turn_sum e0 e0_valid e0_draws {} .newton (by decide) "degrees" .other "" .other p0 rfl rfl src.2.1
example := C52_dcm_matrix (α := ℕ) (m := ⟨2, m2.val⟩) m2_nonneg e0 e0_valid e0_draws
example := C52_decm_exp (R := R0) (hG := G0_pos) builtD readsD readsDs tD_ne trivial turn_spread turn_lt e0 e0_valid e0_draws {} .newton (by decide) "strengths" .other "" .other p0 rfl rfl src.2.1 src.2.2.2.1

/-! ### C30, C43 -/

example := Ens.C30_expected_single (n := 3) (fun _ => 1) fun _ => zero_le_one
example := Ens.C30_expected_null (n := 3) (fun _ => 1) fun _ => zero_le_one
example := Ens.C43_dyads_standardised (n := 3) (fun _ => 1) fun _ => zero_le_one

/-! ### a nonzero standard deviation; solve, then sample -/

theorem std_ne : Ens.std3 12 (fun _ : Fin 2 × Fin 3 => (1 : ℝ)) ≠ 0 := by
  rw [Ens.std3_eq]
  have h : ∀ i j : Fin 3, Ens.pr (fun _ : Fin 2 × Fin 3 => (1 : ℝ)) i j = 1 / 2 := fun i j => by rw [Ens.pr_eq]; norm_num [dcmProb]
  simp [Ens.stdSpec, Ens.deltaCode, Ens.delta6, h, Fin.sum_univ_three]
  have h1 : ∀ a b c d e f : ℝ, Motif.term6 12 a b c d e f = a * b * c * d * e * f := fun a b c d e f => rfl
  simp only [h1]
  norm_num
example := Ens.C43_triads_vanish_iff 12 _ (fun _ _ => 1) std_ne
example := C41_dcm_solve_then_sample e0 e0_valid (d := turnData) {} "fixed-point" (.name "degrees") .other "" .other p0 (C15_dcm_fixed_point_returns e0 _ _ _ _ _ rfl) R0 E0 E0_c (some 3) g0

end

end Verif.Wit
