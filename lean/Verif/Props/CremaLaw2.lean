import Verif.Props.CremaLaw
import Verif.Props.Reports

/-!
C70: the networks sampled after `solve_tool` with crema returned. The samples are drawn from the attributes that the call left on the object: `beta` (`b_out`, `b_in`) and
the stored topology `adjacency_crema`; `adjacency_given` chooses the sampler.
-/

namespace Verif.Solve

open Verif Finset Reduction Solver Spec CReMa DCReMa MeasureTheory Sampler

open Classical in
attribute [local instance 0] propDecidable

variable {n : ℕ} [NeZero n]

theorem mem_triu {a : Fin n → Fin n → ℝ} {i j : Fin n} (h : i ≤ j) (ha : a i j ≠ 0) : (i, j, a i j) ∈ triuEdges a := by
  simp only [triuEdges, List.mem_map, List.mem_filter]
  exact ⟨(i, j), ⟨mem_pairs _, by simp [h, ha]⟩, rfl⟩

theorem mem_nz {a : Fin n → Fin n → ℝ} {i j : Fin n} (ha : a i j ≠ 0) : (i, j, a i j) ∈ nzEdges a := by
  simp only [nzEdges, List.mem_map, List.mem_filter]
  exact ⟨(i, j), ⟨mem_pairs _, by simp [ha]⟩, rfl⟩

theorem linkMatrix_bounds (x : Fin n → ℝ) (hx : ∀ i, 0 ≤ x i) (i j : Fin n) : 0 ≤ linkMatrix x i j ∧ linkMatrix x i j ≤ 1 := by
  unfold linkMatrix
  split
  · exact ⟨le_rfl, zero_le_one⟩
  · exact prob_bounds (mul_nonneg (hx i) (hx j))

theorem linkMatrixD_bounds (x y : Fin n → ℝ) (hx : ∀ i, 0 ≤ x i) (hy : ∀ i, 0 ≤ y i) (i j : Fin n) : 0 ≤ linkMatrixD x y i j ∧ linkMatrixD x y i j ≤ 1 := by
  unfold linkMatrixD
  split
  · exact ⟨le_rfl, zero_le_one⟩
  · exact prob_bounds (mul_nonneg (hx i) (hy j))

theorem strCReMa_linkMatrix (x β : Fin n → ℝ) : strCReMa (linkMatrix x) β = strCReMa (linkUBCM x) β := by
  funext i
  refine sum_congr rfl fun j hj => ?_
  rw [linkMatrix, if_neg (Ne.symm (mem_filter.1 hj).2)]

variable {d : UData n} (e : Env)
variable {Ω : Type*} [MeasurableSpace Ω] {P : Measure Ω} (R : Rng) {U : ℕ → Ω → I01} {E : ℕ → Ω → ℝ} {h0 : ∀ s ω, 0 ≤ E s ω}

/-- C70: after `solve_tool(model="crema", adjacency="cm_exp")` returned, in the networks sampled from the stored topology and `beta` the mean strength of every node
differs from the strength sequence of the graph by at most the reported `error_strength`. The parameters are assumed in the domain of the model (`β_i + β_j > 0` on
the pairs of the topology). -/
theorem C70_crema_sampled_strength [IsProbabilityMeasure P] (hU : UniformSource P U) (hE : ExponentialSource P U E)
    (g : UAttr d) (me ma : Method) (guess ga : Guess n) (p : Params) :
    let S := solve_tool e g "crema" me.name guess (.name "cm_exp") ma.name ga p
    S.exc = none → ∃ β l err, S.g.last_model = some "crema" ∧ S.g.adjacency_given = some false ∧ S.g.adjacency_crema = some (.edges l) ∧ S.g.beta = some β ∧
      S.g.error_strength = some err ∧ ((∀ t ∈ l, 0 < β t.1 + β t.2.1) → ∀ seed st sample, SampleCremaProb R U E h0 β β l seed st sample →
        ∀ i : Fin n, |∫ ω, weightAt (sample ω) i ∂P - d.strength_sequence i| ≤ err) := by
  intro R' h
  obtain ⟨x0, t, b, guess', hθ, ht, hg⟩ := solve_tool_crema_inner e g "crema" me.name (.inl rfl) guess ma ga p h
  have he := solve_tool_crema_cm_exp e g me ma guess ga p hθ ht hg
  simp only [pmatrix_spec] at he
  rw [show R' = _ from he]
  rw [show R' = _ from he] at h
  set x : Fin n → ℝ := fun i => Real.exp (-t.x (d.inv i)) with hx
  cases hsv : solver (cbCrema e d (triuEdges (linkMatrix x)) me) (p.opts me.name) b with
  | error y => rw [hsv] at h; simp at h
  | ok s =>
    set G : UAttr d := setSolvedCrema { setSolvedCM (d := d) { g with is_sparse := false, last_model := some "cm_exp", full_return := p.full_return, args := some .cm, step_fun := some .cm_exp, fun_pmatrix := true } true t with
      is_sparse := false, adjacency_crema := some (.edges (triuEdges (linkMatrix x))), adjacency_given := some false,
      last_model := some "crema", full_return := p.full_return, beta := some b, args := some (.crema (.edges (triuEdges (linkMatrix x)))), step_fun := some .crema } s
    have hex : strCReMa (linkMatrix x) s.x = CReMa.expected_strength_crema_undirected s.x (triuEdges (linkMatrix x)) :=
      funext fun i => (str_crema_spec _ (linkMatrix_symm x) (linkMatrix_diag x) s.x i).symm
    obtain ⟨h1, E', r', h2, h3, h4⟩ := report_strengths e G (.inr (.inr (.inl rfl))) rfl rfl (.inr ⟨rfl, _, rfl, hex⟩)
    obtain ⟨-, -, k3, -, -, -, k7, -, -, k10, k11, -⟩ := solutionError_keeps e G
    refine ⟨s.x, triuEdges (linkMatrix x), E', k7, k11, k10, k3, h2, fun hb seed st sample hs i => ?_⟩
    rw [C70_crema_mean_strength hU hE (linkMatrix_symm x) (linkMatrix_diag x) (linkMatrix_bounds x fun i => (Real.exp_pos _).le) (fun i j hij => ?_) hs i]
    · exact h4.1.1 i
    · rcases le_total i j with hle | hle
      · exact hb (i, j, linkMatrix x i j) (mem_triu hle hij)
      · rw [add_comm]
        exact hb (j, i, linkMatrix x j i) (mem_triu hle (by rw [linkMatrix_symm]; exact hij))

/-- C70: after `solve_tool(model="crema", adjacency=<matrix>)` returned for a symmetric matrix of zeros and ones (zero diagonal), the mean strength of every node of the sampled
networks differs from the strength sequence by at most the reported `error_strength`. (For other matrices see `C70_crema_given_mean_strength_partial`.) -/
theorem C70_crema_given_sampled_strength_partial [IsProbabilityMeasure P] (hU : UniformSource P U) (hE : ExponentialSource P U E)
    (g : UAttr d) (me : Method) (guess : Guess n) (a : Fin n → Fin n → ℝ) (hs : ∀ i j, a i j = a j i) (hd : ∀ i, a i i = 0) (ha : ∀ i j, a i j = 0 ∨ a i j = 1)
    (ma : String) (ga : Guess n) (p : Params) :
    let S := solve_tool e g "crema" me.name guess (.matrix a) ma ga p
    S.exc = none → ∃ β l err, S.g.last_model = some "crema" ∧ S.g.adjacency_given = some true ∧ S.g.adjacency_crema = some (.edges l) ∧ S.g.beta = some β ∧
      S.g.error_strength = some err ∧ ((∀ t ∈ l, 0 < β t.1 + β t.2.1) → ∀ seed st sample, SampleCremaDet R U E h0 β β (l.map fun t => (t.1, t.2.1)) seed st sample →
        ∀ i : Fin n, |∫ ω, weightAt (sample ω) i ∂P - d.strength_sequence i| ≤ err) := by
  intro R' h
  obtain ⟨b, guess', hg⟩ := solve_tool_crema_args e g me.name guess a ma ga p h
  have he := solve_tool_crema_matrix e g me guess a ma ga p hg
  simp only at he
  rw [show R' = _ from he]
  rw [show R' = _ from he] at h
  cases hsv : solver (cbCrema e d (triuEdges a) me) (p.opts me.name) b with
  | error x => rw [hsv] at h; simp at h
  | ok s =>
    set G : UAttr d := setSolvedCrema { g with
      is_sparse := false, adjacency_crema := some (.edges (triuEdges a)), adjacency_given := some true,
      last_model := some "crema", full_return := p.full_return, beta := some b, args := some (.crema (.edges (triuEdges a))), step_fun := some .crema } s
    have hex : strCReMa a s.x = CReMa.expected_strength_crema_undirected s.x (triuEdges a) := funext fun i => (str_crema_spec a hs hd s.x i).symm
    obtain ⟨h1, E', r', h2, h3, h4⟩ := report_strengths e G (.inr (.inr (.inl rfl))) rfl rfl (.inr ⟨rfl, _, rfl, hex⟩)
    obtain ⟨-, -, k3, -, -, -, k7, -, -, k10, k11, -⟩ := solutionError_keeps e G
    refine ⟨s.x, triuEdges a, E', k7, k11, k10, k3, h2, fun hb seed st sample hsa i => ?_⟩
    rw [(C70_crema_given_mean_strength_partial hU hE hs hd (fun i j hij => ?_) hsa i).2 ha]
    · exact h4.1.1 i
    · rcases le_total i j with hle | hle
      · exact hb (i, j, a i j) (mem_triu hle hij)
      · rw [add_comm]
        exact hb (j, i, a j i) (mem_triu hle (by rw [hs]; exact hij))

/-- C70 fails for a given matrix of link probabilities: the sampler lists every pair of the matrix, whatever its probability. Two nodes, linked with probability 1/2, `β = 1/2`:
the expected strength of the model is 1/2, the mean strength of the samples is 1. -/
theorem C70_crema_given_probabilities_ignored [IsProbabilityMeasure P] (hU : UniformSource P U) (hE : ExponentialSource P U E) :
    let a : Fin 2 → Fin 2 → ℝ := fun i j => if i = j then 0 else 1 / 2
    let β : Fin 2 → ℝ := fun _ => 1 / 2
    strCReMa a β 0 = 1 / 2 ∧ ∀ seed st sample, SampleCremaDet R U E h0 β β ((triuEdges a).map fun t => (t.1, t.2.1)) seed st sample → ∫ ω, weightAt (sample ω) 0 ∂P = 1 := by
  intro a β
  have hf : (univ.filter fun j : Fin 2 => j ≠ 0) = {1} := by decide
  refine ⟨?_, fun seed st sample hs => ?_⟩
  · rw [strCReMa, hf, sum_singleton]
    norm_num [a, β]
  · have hm := (C70_crema_given_mean_strength_partial hU hE (a := a) (fun i j => by simp [a, eq_comm]) (fun i => by simp [a]) (fun i j _ => by norm_num [β]) hs 0).1
    rw [show ((0 : Fin 2) : ℕ) = 0 from rfl] at hm
    rw [hm, strCReMa, hf, sum_singleton]
    norm_num [a, β, pattern]

/-- C70 fails after undirected crema-sparse: the mean strength of a sampled network is not the strength of the graph but twice that (up to twice the reported error), because
the sampler visits every unordered pair twice. -/
theorem C70_crema_sparse_sampled_strength_doubled [IsProbabilityMeasure P] (hU : UniformSource P U) (hE : ExponentialSource P U E)
    (g : UAttr d) (me ma : Method) (hme : me ≠ .newton) (guess ga : Guess n) (p : Params) :
    let S := solve_tool e g "crema-sparse" me.name guess (.name "cm_exp") ma.name ga p
    S.exc = none → ∃ β x err, S.g.last_model = some "crema-sparse" ∧ S.g.adjacency_given = some false ∧ S.g.adjacency_crema = some (.fitness x) ∧ S.g.beta = some β ∧
      S.g.error_strength = some err ∧ ((∀ i j, i ≠ j → 0 < β i + β j) → ∀ seed st sample, SampleCremaSparse R U E h0 β β x x seed st sample →
        ∀ i : Fin n, |∫ ω, weightAt (sample ω) i ∂P - 2 * d.strength_sequence i| ≤ 2 * err) := by
  intro R' h
  obtain ⟨x0, t, b, guess', hθ, ht, hg⟩ := solve_tool_crema_inner e g "crema-sparse" me.name (.inr rfl) guess ma ga p h
  have he := solve_tool_crema_sparse_cm_exp e g me ma hme guess ga p hθ ht hg
  simp only at he
  rw [show R' = _ from he]
  rw [show R' = _ from he] at h
  set x : Fin n → ℝ := fun i => Real.exp (-t.x (d.inv i)) with hx
  cases hsv : solver (cbCremaSparse e d x me) (p.opts me.name) b with
  | error y => rw [hsv] at h; simp at h
  | ok s =>
    have hex : strCReMa (linkMatrix x) s.x = CReMa.expected_strength_crema_undirected_sparse s.x x :=
      funext fun i => (str_sparse_spec x (fun i => (Real.exp_pos _).le) s.x i).symm
    dsimp only
    refine (fun G (hG : _ ∧ _ ∧ _ ∧ _ ∧ _) => ?_ : ∀ G : UAttr d, (G.last_model = some "crema-sparse" ∧ G.is_sparse = true ∧ G.adjacency_crema = some (.fitness x) ∧ G.beta = some s.x ∧
      G.adjacency_given = some false) → ∃ β x err, (solutionError e G).1.last_model = some "crema-sparse" ∧ (solutionError e G).1.adjacency_given = some false ∧
        (solutionError e G).1.adjacency_crema = some (.fitness x) ∧ (solutionError e G).1.beta = some β ∧
      (solutionError e G).1.error_strength = some err ∧ ((∀ i j, i ≠ j → 0 < β i + β j) → ∀ seed st sample, SampleCremaSparse R U E h0 β β x x seed st sample →
        ∀ i : Fin n, |∫ ω, weightAt (sample ω) i ∂P - 2 * d.strength_sequence i| ≤ 2 * err)) _ ⟨rfl, rfl, rfl, rfl, rfl⟩
    obtain ⟨g1, g2, g3, g4, g5⟩ := hG
    obtain ⟨h1, E', r', h2, h3, h4⟩ := report_strengths e G (.inr (.inr (.inr g1))) g4 g3 (.inl ⟨g2, hex⟩)
    obtain ⟨-, -, k3, -, -, -, k7, -, -, k10, k11, -⟩ := solutionError_keeps e G
    refine ⟨s.x, x, E', k7.trans g1, k11.trans g5, k10.trans g3, k3.trans g4, h2, fun hb seed st sample hsa i => ?_⟩
    rw [C70_crema_sparse_undirected_doubles hU hE hb (fun i => (Real.exp_pos _).le) hsa i, ← strCReMa_linkMatrix, ← mul_sub, abs_mul, abs_two]
    exact mul_le_mul_of_nonneg_left (h4.1.1 i) zero_le_two

variable {d : DData n}

/-- C70 (directed crema, `adjacency="dcm"` or "dcm_exp"): mean out- and in-strengths of the sampled networks differ from those of the graph by at most the reported
`error_strength`. The parameters are assumed in the domain of the model. -/
theorem C70_dcrema_sampled_strengths [IsProbabilityMeasure P] (hU : UniformSource P U) (hE : ExponentialSource P U E)
    (g : DAttr d) (hz : d.nz_known = true) (me : Method) (mo : DModel) (hmo : mo = .dcm ∨ mo = .dcm_exp) (ma : String) (guess ga : DGuess n) (p : Params) :
    let S := solve_tool_directed e g "crema" me.name guess (.name mo.name) ma ga p
    S.exc = none → ∃ x y bo bi l err, S.g.last_model = some "crema" ∧ S.g.adjacency_given = some false ∧ S.g.adjacency_crema = some (.edges l) ∧
      S.g.x = some x ∧ S.g.y = some y ∧ S.g.b_out = some bo ∧ S.g.b_in = some bi ∧ S.g.error_strength = some err ∧
      ((mo = .dcm → ∀ i, 0 ≤ x i ∧ 0 ≤ y i) → (∀ t ∈ l, 0 < bo t.1 + bi t.2.1) → ∀ seed st sample, SampleCremaProb R U E h0 bo bi l seed st sample →
        ∀ i : Fin n, |∫ ω, weightOut (sample ω) i ∂P - d.out_strength i| ≤ err ∧ |∫ ω, weightIn (sample ω) i ∂P - d.in_strength i| ≤ err) := by
  intro R' h
  obtain ⟨ma, x0, t, bo, bi, guess', rfl, hx0, ht, hg⟩ := solve_tool_dcrema_inner e g "crema" me.name (.inl rfl) guess mo hmo ma ga p h
  have hrun := binary_run e.inner { g with is_sparse := false } mo hmo ma ga { p with linsearch := true } hx0 ht
  have he := solve_tool_dcrema_named e g hz me guess mo.name ma.name ga ga p hrun rfl rfl rfl rfl hg
  simp only [pmat_spec] at he
  rw [show R' = _ from he]
  rw [show R' = _ from he] at h
  set x : Fin n → ℝ := if decide (mo = .dcm_exp) = true then fun i => Real.exp (-t.x (0, d.inv i)) else fun i => t.x (0, d.inv i) with hx
  set y : Fin n → ℝ := if decide (mo = .dcm_exp) = true then fun i => Real.exp (-t.x (1, d.inv i)) else fun i => t.x (1, d.inv i) with hy
  set a := linkMatrixD (active d.degOut x) (active d.degIn y) with ha
  cases hsv : solver (cbDCrema e d (nzEdges a) me) (p.opts me.name) (cat2 bo bi) with
  | error z => rw [hsv] at h; simp at h
  | ok s =>
    set G := setSolvedDCrema (preDCrema (withAdj (setSolvedDCM (preDCM { g with is_sparse := false } mo { p with linsearch := true })
      (mo = .dcm_exp) t) (.edges (nzEdges a)) false false) .crema (.edges (nzEdges a)) bo bi p) s
    obtain ⟨h1, E', r', h2, h3, h4⟩ := reportD_strengths G (.inr (.inr (.inl rfl))) rfl rfl rfl (.inr ⟨rfl, _, rfl,
      funext fun i => (str_dcrema_spec a (fun i => s.x (0, i)) (fun i => s.x (1, i)) i).1.symm, funext fun i => (str_dcrema_spec a (fun i => s.x (0, i)) (fun i => s.x (1, i)) i).2.symm⟩)
    refine ⟨x, y, fun i => s.x (0, i), fun i => s.x (1, i), nzEdges a, E', keepsD DAttr.last_model (fun _ => rfl) _, keepsD DAttr.adjacency_given (fun _ => rfl) _,
      keepsD DAttr.adjacency_crema (fun _ => rfl) _, keepsD DAttr.x (fun _ => rfl) _, keepsD DAttr.y (fun _ => rfl) _, keepsD DAttr.b_out (fun _ => rfl) _,
      keepsD DAttr.b_in (fun _ => rfl) _, h2, fun hpos hb seed st sample hs i => ?_⟩
    have hxy : ∀ i, 0 ≤ x i ∧ 0 ≤ y i := by
      rcases hmo with rfl | rfl
      · exact hpos rfl
      · intro i
        rw [hx, hy, if_pos (decide_eq_true rfl), if_pos (decide_eq_true rfl)]
        exact ⟨(Real.exp_pos _).le, (Real.exp_pos _).le⟩
    have hact : ∀ (k v : Fin n → ℝ), (∀ i, 0 ≤ v i) → ∀ i, 0 ≤ active k v i := fun k v hv i => by
      unfold active
      split
      · exact le_rfl
      · exact hv i
    obtain ⟨m1, m2⟩ := C70_dcrema_mean_strengths hU hE (a := a) (linkMatrixD_bounds _ _ (hact _ _ fun i => (hxy i).1) (hact _ _ fun i => (hxy i).2)) (fun i j hij =>
      hb (i, j, a i j) (mem_nz hij)) hs i
    rw [m1, m2]
    exact ⟨h4.1.1 (0, i), h4.1.1 (1, i)⟩

/-- C70 (directed crema on a given matrix of zeros and ones) -/
theorem C70_dcrema_given_sampled_strengths_partial [IsProbabilityMeasure P] (hU : UniformSource P U) (hE : ExponentialSource P U E)
    (g : DAttr d) (hz : d.nz_known = true) (me : Method) (guess : DGuess n) (a : Fin n → Fin n → ℝ) (ha : ∀ i j, a i j = 0 ∨ a i j = 1) (ma : String) (ga : DGuess n) (p : Params) :
    let S := solve_tool_directed e g "crema" me.name guess (.matrix a) ma ga p
    S.exc = none → ∃ bo bi l err, S.g.last_model = some "crema" ∧ S.g.adjacency_given = some true ∧ S.g.adjacency_crema = some (.edges l) ∧
      S.g.b_out = some bo ∧ S.g.b_in = some bi ∧ S.g.error_strength = some err ∧
      ((∀ t ∈ l, 0 < bo t.1 + bi t.2.1) → ∀ seed st sample, SampleCremaDet R U E h0 bo bi (l.map fun t => (t.1, t.2.1)) seed st sample →
        ∀ i : Fin n, |∫ ω, weightOut (sample ω) i ∂P - d.out_strength i| ≤ err ∧ |∫ ω, weightIn (sample ω) i ∂P - d.in_strength i| ≤ err) := by
  intro R' h
  obtain ⟨bo, bi, guess', hg⟩ := solve_tool_dcrema_args e g me.name guess a ma ga p h
  have he := solve_tool_dcrema_matrix e g hz me guess a ma ga p hg
  simp only at he
  rw [show R' = _ from he]
  rw [show R' = _ from he] at h
  cases hsv : solver (cbDCrema e d (nzEdges a) me) (p.opts me.name) (cat2 bo bi) with
  | error x => rw [hsv] at h; simp at h
  | ok s =>
    set G := setSolvedDCrema (preDCrema (withAdj g (.edges (nzEdges a)) false true) .crema (.edges (nzEdges a)) bo bi p) s
    obtain ⟨h1, E', r', h2, h3, h4⟩ := reportD_strengths G (.inr (.inr (.inl rfl))) rfl rfl rfl (.inr ⟨rfl, _, rfl,
      funext fun i => (str_dcrema_spec a (fun i => s.x (0, i)) (fun i => s.x (1, i)) i).1.symm, funext fun i => (str_dcrema_spec a (fun i => s.x (0, i)) (fun i => s.x (1, i)) i).2.symm⟩)
    refine ⟨fun i => s.x (0, i), fun i => s.x (1, i), nzEdges a, E', keepsD DAttr.last_model (fun _ => rfl) _, keepsD DAttr.adjacency_given (fun _ => rfl) _,
      keepsD DAttr.adjacency_crema (fun _ => rfl) _, keepsD DAttr.b_out (fun _ => rfl) _, keepsD DAttr.b_in (fun _ => rfl) _, h2, fun hb seed st sample hs i => ?_⟩
    obtain ⟨m1, m2⟩ := (C70_dcrema_given_mean_strengths_partial hU hE (a := a) (fun i j hij => hb (i, j, a i j) (mem_nz hij)) hs i).2 ha
    rw [m1, m2]
    exact ⟨h4.1.1 (0, i), h4.1.1 (1, i)⟩

end Verif.Solve
