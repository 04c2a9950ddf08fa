import Verif.Spec.EndToEnd
import Verif.Props.Graph
import Verif.Props.Runs2
import Verif.Props.SamplerLaw
import Verif.Props.MaxEntropy2

/-!
Property C52: from the network to the ensemble.  An object made by the constructor and any history of calls, a converged `solve_tool`, and the sampler: the expected
degrees (strengths), and the means over the sampled networks, are those of the network that was put in, up to the tolerance of the solver.
-/

namespace Verif.Solve

open Finset Spec Graph Solver

variable {α : Type} [LinearOrder α] {n : ℕ}

/-- C52: whatever the history, an object has the degrees of the topology in force. -/
theorem C52_degrees_read {g : UState α} {t : Topology α} (h : BuiltU g t) {d : UData n} (hd : ReadsDegrees g d) (ht : ∀ s, t ≠ .strengths s) :
    DegreesOf t (List.ofFn fun i => (d.dseq i : ℝ)) := by
  obtain ⟨a, g0, t0, ops, h1, h2, h3, h4, rfl⟩ := h
  have hD := ((C34_undirected_history a g0 h1 t0 h2 h3 ops).2 _ h4).2 _ rfl
  unfold ReadsDegrees at hd
  cases t with
  | matrix m => exact Option.some.inj (hd.symm.trans hD.2.2.2.1)
  | links l => obtain ⟨-, edges, nodes, k, -, -, hk, hR, hP, -⟩ := hD; rw [hd] at hk; cases hk; exact ⟨edges, nodes, hR, hP⟩
  | weightedLinks l => obtain ⟨-, edges, nodes, k, s, -, -, hk, -, -, hR, hP, -⟩ := hD; rw [hd] at hk; cases hk; exact ⟨edges, nodes, hR, hP⟩
  | degrees l => exact Option.some.inj (hd.symm.trans hD.2.2.2.1)
  | degreesStrengths l s => exact Option.some.inj (hd.symm.trans hD.2.2.2.1)
  | strengths s => exact absurd rfl (ht s)

/-- C52: … and its strengths, if the topology is recognised as weighted. -/
theorem C52_strengths_read {g : UState α} {t : Topology α} (h : BuiltU g t) {d : UData n} (hd : ReadsStrengths g d) (ht : HasWeights t) :
    StrengthsOf t (List.ofFn d.strength_sequence) := by
  obtain ⟨a, g0, t0, ops, h1, h2, h3, h4, rfl⟩ := h
  have hD := ((C34_undirected_history a g0 h1 t0 h2 h3 ops).2 _ h4).2 _ rfl
  unfold ReadsStrengths at hd
  cases t with
  | matrix m => exact Option.some.inj (hd.symm.trans (hD.2.2.2.2.2 ht).2)
  | links l => exact absurd ht id
  | weightedLinks l => obtain ⟨-, edges, nodes, k, s, -, -, -, hs, -, hR, -, hP, -⟩ := hD; rw [hd] at hs; cases hs; exact ⟨edges, nodes, hR, hP⟩
  | degrees l => exact absurd ht id
  | degreesStrengths l s => exact Option.some.inj (hd.symm.trans hD.2.2.2.2.2.1)
  | strengths s => exact Option.some.inj (hd.symm.trans hD.2.2.2.2.1)

/-- C52 (directed) -/
theorem C52_directed_degrees_read {g : DState α} {t : Topology α} (h : BuiltD g t) {d : DData n} (hd : ReadsDegreesD g d) (ht : ∀ s, t ≠ .strengths s) :
    DegreesOfD t (List.ofFn fun i => (d.dseq_out i : ℝ)) (List.ofFn fun i => (d.dseq_in i : ℝ)) := by
  obtain ⟨a, g0, t0, ops, h1, h2, h3, h4, rfl⟩ := h
  have hD := ((C34_directed_history a g0 h1 t0 h2 h3 ops).2 _ h4).2 _ rfl
  obtain ⟨ho, hi⟩ := hd
  cases t with
  | matrix m => exact ⟨Option.some.inj (ho.symm.trans hD.2.2.2.1), Option.some.inj (hi.symm.trans hD.2.2.2.2.1)⟩
  | links l =>
    obtain ⟨-, edges, nodes, k, k', -, -, hk, hk', hR, hP, hP', -⟩ := hD
    rw [ho] at hk; cases hk; rw [hi] at hk'; cases hk'; exact ⟨edges, nodes, hR, hP, hP'⟩
  | weightedLinks l =>
    obtain ⟨-, edges, nodes, k, k', s, s', -, -, hk, hk', -, -, hR, hP, hP', -⟩ := hD
    rw [ho] at hk; cases hk; rw [hi] at hk'; cases hk'; exact ⟨edges, nodes, hR, hP, hP'⟩
  | degrees l => obtain ⟨-, -, o, i, hl, he, -, hk, hk', -⟩ := hD; rw [ho] at hk; cases hk; rw [hi] at hk'; cases hk'; exact ⟨hl, he⟩
  | degreesStrengths l s => obtain ⟨-, -, ⟨o, i, hl, he, hk, hk', -⟩, -⟩ := hD; rw [ho] at hk; cases hk; rw [hi] at hk'; cases hk'; exact ⟨hl, he⟩
  | strengths s => exact absurd rfl (ht s)

/-- C52 (directed) -/
theorem C52_directed_strengths_read {g : DState α} {t : Topology α} (h : BuiltD g t) {d : DData n} (hd : ReadsStrengthsD g d) (ht : HasWeights t) :
    StrengthsOfD t (List.ofFn d.out_strength) (List.ofFn d.in_strength) := by
  obtain ⟨a, g0, t0, ops, h1, h2, h3, h4, rfl⟩ := h
  have hD := ((C34_directed_history a g0 h1 t0 h2 h3 ops).2 _ h4).2 _ rfl
  obtain ⟨ho, hi⟩ := hd
  cases t with
  | matrix m => exact ⟨Option.some.inj (ho.symm.trans (hD.2.2.2.2.2.2 ht).2.1), Option.some.inj (hi.symm.trans (hD.2.2.2.2.2.2 ht).2.2)⟩
  | links l => exact absurd ht id
  | weightedLinks l =>
    obtain ⟨-, edges, nodes, k, k', s, s', -, -, -, -, hs, hs', hR, -, -, hP, hP', -⟩ := hD
    rw [ho] at hs; cases hs; rw [hi] at hs'; cases hs'; exact ⟨edges, nodes, hR, hP, hP'⟩
  | degrees l => exact absurd ht id
  | degreesStrengths l s => obtain ⟨-, -, -, o, i, hl, he, -, hk, hk', -⟩ := hD; rw [ho] at hk; cases hk; rw [hi] at hk'; cases hk'; exact ⟨hl, he⟩
  | strengths s => obtain ⟨-, -, -, -, o, i, hl, he, -, hk, hk', -⟩ := hD; rw [ho] at hk; cases hk; rw [hi] at hk'; cases hk'; exact ⟨hl, he⟩

theorem at_ofFn (f : Fin n → ℝ) (i : Fin n) : At (List.ofFn f) i (f i) := by
  refine ⟨List.length_ofFn, ?_⟩
  rw [List.getElem?_ofFn, dif_pos i.isLt]

/-- C52: solving `cm` or `cm_exp` needs nothing of the object but its degrees: for matrices and edge lists there are data that `solve_tool` reads. -/
theorem C52_readable {g : UState α} {t : Topology α} (h : BuiltU g t) (hm : (∃ m, t = .matrix m) ∨ (∃ l, t = .links l) ∨ ∃ l, t = .weightedLinks l) :
    ∃ n, ∃ d : UData n, ReadsDegrees g d := by
  obtain ⟨a, g0, t0, ops, h1, h2, h3, h4, rfl⟩ := h
  have hD := ((C34_undirected_history a g0 h1 t0 h2 h3 ops).2 _ h4).2 _ rfl
  have key : ∀ (nodes : List (ℕ × α)) (k : List ℝ) (f : α → ℕ), nodes.map Prod.fst = List.range nodes.length → PerNode nodes k (fun a => (f a : ℝ)) →
      ∃ n, ∃ c : Fin n → ℕ, k = List.ofFn fun i => (c i : ℝ) := by
    intro nodes k f hkey ⟨hl, hP⟩
    refine ⟨k.length, fun i => f (nodes[i.val]'(i.isLt.trans_eq hl)).2, ?_⟩
    refine List.ext_getElem (by simp) fun i h1 h2 => ?_
    have hi : i < nodes.length := h1.trans_eq hl
    have hf : (nodes[i]).1 = i := by
      have := congrArg (fun l => l[i]?) hkey
      simp only [List.getElem?_map, List.getElem?_eq_getElem hi, Option.map_some, List.getElem?_range hi] at this
      exact Option.some.inj this
    have := hP i (nodes[i]).2 (by
      have e : ((i, (nodes[i]).2) : ℕ × α) = nodes[i] := Prod.ext hf.symm rfl
      rw [e]; exact List.getElem_mem hi)
    rw [List.getElem?_eq_getElem h1] at this
    rw [List.getElem_ofFn]
    exact Option.some.inj this
  rcases hm with ⟨m, rfl⟩ | ⟨l, rfl⟩ | ⟨l, rfl⟩
  · exact ⟨m.n, ⟨fun i => Set.ncard {j | 0 < m.val i j}, fun _ => 0⟩, hD.2.2.2.1⟩
  · obtain ⟨-, edges, nodes, k, -, -, hk, hR, hP, -⟩ := hD
    obtain ⟨n, c, rfl⟩ := key nodes k (fun a => (l.map Prod.fst).count a + (l.map Prod.snd).count a) hR.keys (by simpa using hP)
    exact ⟨n, ⟨c, fun _ => 0⟩, hk⟩
  · obtain ⟨-, edges, nodes, k, s, -, -, hk, -, -, hR, hP, -⟩ := hD
    obtain ⟨n, c, rfl⟩ := key nodes k (fun a => (l.map fun e => e.1).count a + (l.map fun e => e.2.1).count a) hR.keys (by simpa using hP)
    exact ⟨n, ⟨c, fun _ => 0⟩, hk⟩

section undirected

variable [NeZero n] {Ω : Type} [MeasurableSpace Ω] {P : MeasureTheory.Measure Ω} [MeasureTheory.IsProbabilityMeasure P] {R : Sampler.Rng} {U : ℕ → Ω → I01}
  {G : ℕ → ℝ → Ω → ℕ} {hG : ∀ s q ω, 1 ≤ G s q ω}

/-- C52 (cm): the mean degree of every node over the samples drawn after a converged run is the degree it has in the network that the object was given. -/
theorem C52_cm {g : UState α} {t : Topology α} (hb : BuiltU g t) {d : UData n} (hd : ReadsDegrees g d) (ht : ∀ s, t ≠ .strengths s) (h0 : ∀ i, d.dseq i ≠ 0)
    (e : Env) (he : e.Valid) (hr : e.NonzeroDraws) (a : UAttr d) (me : Method) (hme : me ≠ .fixed_point) (name : String) (adj : AdjSpec n) (ma : String)
    (ga : Guess n) (p : Params) (hf : p.full_return = true) (hl : p.linsearch = true) (hU : UniformSource P U) :
    let S := solve_tool e a "cm" me.name (.name name) adj ma ga p
    S.exc = none → ∃ tr x k, S.g.trace = some tr ∧ S.g.x = some x ∧ DegreesOf t k ∧ (tr.Converged p → ∀ i c, At k i c → |degUBCM x i - c| ≤ x i * p.tol ∧
      ∀ seed st sample, Sampler.SampleCM R U G hG x seed st sample → |∫ ω, (degreeIn (sample ω) i : ℝ) ∂P - c| ≤ x i * p.tol) := by
  intro S h
  obtain ⟨x, hx, px⟩ := C16_cm_run e he hr h0 a me.name name adj ma ga p hl h
  obtain ⟨tr, x', ht', hx', hc⟩ := C13_cm_named e he hr h0 a me hme name adj ma ga p hf hl h
  obtain rfl : x = x' := Option.some.inj (hx.symm.trans hx')
  refine ⟨tr, x, _, ht', hx, C52_degrees_read hb hd ht, fun hconv i c hi => ?_⟩
  obtain rfl : c = d.dseq i := Option.some.inj (hi.2.symm.trans (at_ofFn _ i).2)
  refine ⟨hc hconv i, fun seed st sample hs => ?_⟩
  rw [Sampler.C23_cm_mean_degree hU (fun i => (px i).le) hs i, deg_spec]
  exact hc hconv i

/-- C52 (cm_exp): the same, with any initial guess and also with isolated nodes. -/
theorem C52_cm_exp {g : UState α} {t : Topology α} (hb : BuiltU g t) {d : UData n} (hd : ReadsDegrees g d) (ht : ∀ s, t ≠ .strengths s)
    (e : Env) (a : UAttr d) (me : Method) (hme : me ≠ .fixed_point) (guess : Guess n) (adj : AdjSpec n) (ma : String)
    (ga : Guess n) (p : Params) (hf : p.full_return = true) (hU : UniformSource P U) :
    let S := solve_tool e a "cm_exp" me.name guess adj ma ga p
    S.exc = none → ∃ tr x k, S.g.trace = some tr ∧ S.g.x = some x ∧ DegreesOf t k ∧ (tr.Converged p → ∀ i c, At k i c → |degUBCM x i - c| ≤ p.tol ∧
      ∀ seed st sample, Sampler.SampleCM R U G hG x seed st sample → |∫ ω, (degreeIn (sample ω) i : ℝ) ∂P - c| ≤ p.tol) := by
  intro S h
  obtain ⟨tr, x, ht', hx, hc⟩ := C13_cm_exp e a me hme guess adj ma ga p hf h
  have px : ∀ i, 0 < x i := by
    obtain ⟨me', x0, s, hm, -, hs, hG⟩ := solve_tool_ok_cm_exp e a me.name guess adj ma ga p h
    have k := solutionError_keeps e (setSolvedCM (d := d) { a with last_model := some "cm_exp", full_return := p.full_return, args := some .cm, step_fun := some .cm_exp, fun_pmatrix := true } true s)
    have := k.1.symm.trans ((congrArg (fun r => r.g.x) hG).symm.trans hx)
    intro i
    rw [← Option.some.inj this]
    exact Real.exp_pos _
  refine ⟨tr, x, _, ht', hx, C52_degrees_read hb hd ht, fun hconv i c hi => ?_⟩
  obtain rfl : c = d.dseq i := Option.some.inj (hi.2.symm.trans (at_ofFn _ i).2)
  refine ⟨hc hconv i, fun seed st sample hs => ?_⟩
  rw [Sampler.C23_cm_mean_degree hU (fun i => (px i).le) hs i, deg_spec]
  exact hc hconv i

/-- C52 (ecm_exp): mean degree and mean strength over the samples are those of the network. -/
theorem C52_ecm_exp {g : UState α} {t : Topology α} (hb : BuiltU g t) {d : UData n} (hd : ReadsDegrees g d) (hs : ReadsStrengths g d) (ht : ∀ s, t ≠ .strengths s)
    (hw : HasWeights t) (h0 : d.Pos) (e : Env) (he : e.Valid) (hr : e.NonzeroDraws) (a : UAttr d) (me : Method) (hme : me ≠ .fixed_point) (name : String)
    (adj : AdjSpec n) (ma : String) (ga : Guess n) (p : Params) (hf : p.full_return = true) (hl : p.linsearch = true) (hU : UniformSource P U)
    (hGs : GeometricSource P U G) :
    let S := solve_tool e a "ecm_exp" me.name (.name name) adj ma ga p
    S.exc = none → ∃ tr x y k s, S.g.trace = some tr ∧ S.g.x = some x ∧ S.g.y = some y ∧ DegreesOf t k ∧ StrengthsOf t s ∧
      (tr.Converged p → ∀ i c w, At k i c → At s i w → |degUECM x y i - c| ≤ p.tol ∧ |strUECM x y i - w| ≤ p.tol ∧
        ∀ seed st sample, Sampler.SampleECM R U G hG x y seed st sample →
          |∫ ω, (degreeIn ((sample ω).map fun e => (e.1, e.2.1)) i : ℝ) ∂P - c| ≤ p.tol ∧ |∫ ω, (strengthIn (sample ω) i : ℝ) ∂P - w| ≤ p.tol) := by
  intro S h
  obtain ⟨x, y, hx, hy, px, py, hxy⟩ := C16_ecm_exp_run e he hr h0 a me.name name adj ma ga p hl h
  obtain ⟨tr, x', y', ht', hx', hy', hc⟩ := C13_ecm_exp_named e he hr h0 a me hme name adj ma ga p hf hl h
  obtain rfl : x = x' := Option.some.inj (hx.symm.trans hx')
  obtain rfl : y = y' := Option.some.inj (hy.symm.trans hy')
  refine ⟨tr, x, y, _, _, ht', hx, hy, C52_degrees_read hb hd ht, C52_strengths_read hb hs hw, fun hconv i c w hi hi' => ?_⟩
  obtain rfl : c = d.dseq i := Option.some.inj (hi.2.symm.trans (at_ofFn _ i).2)
  obtain rfl : w = d.strength_sequence i := Option.some.inj (hi'.2.symm.trans (at_ofFn _ i).2)
  refine ⟨(hc hconv i).1, (hc hconv i).2, fun seed st sample hs => ?_⟩
  obtain ⟨m1, m2⟩ := Sampler.C23_ecm_means hU hGs (cat2 x y) (fun i => (px i).le) (fun i j hij => ⟨mul_nonneg (py i).le (py j).le, hxy i j hij⟩) hs i
  rw [m1, m2, deg_ecm_spec, str_ecm_spec]
  exact hc hconv i

/-- C52 (dcm): mean out- and in-degree over the samples are those of the network. -/
theorem C52_dcm {g : DState α} {t : Topology α} (hb : BuiltD g t) {d : DData n} (hd : ReadsDegreesD g d) (ht : ∀ s, t ≠ .strengths s)
    (hsum : ∑ i, d.dseq_in i = ∑ i, d.dseq_out i) (e : Env) (he : e.Valid) (hr : e.NonzeroDraws) (a : DAttr d) (me : Method) (hme : me ≠ .fixed_point)
    (name : String) (adj : AdjSpec n) (ma : String) (ga : DGuess n) (p : Params) (hf : p.full_return = true) (hl : p.linsearch = true) (hU : UniformSource P U) :
    let S := solve_tool_directed e a "dcm" me.name (.name name) adj ma ga p
    S.exc = none → ∃ tr x y ko ki, S.g.trace = some tr ∧ S.g.x = some x ∧ S.g.y = some y ∧ DegreesOfD t ko ki ∧
      (tr.Converged p → ∀ i co ci, At ko i co → At ki i ci → |outDBCM x y i - co| ≤ x i * p.tol ∧ |inDBCM x y i - ci| ≤ y i * p.tol ∧
        ∀ seed st sample, Sampler.SampleDCM R U G hG x y seed st sample →
          |∫ ω, (outDegreeIn (sample ω) i : ℝ) ∂P - co| ≤ x i * p.tol ∧ |∫ ω, (inDegreeIn (sample ω) i : ℝ) ∂P - ci| ≤ y i * p.tol) := by
  intro S h
  obtain ⟨x, y, hx, hy, px, py⟩ := C16_dcm_run e he hr hsum a me.name name adj ma ga p hl h
  obtain ⟨tr, x', y', ht', hx', hy', hc⟩ := C13_dcm_named e he hr hsum a me hme name adj ma ga p hf hl h
  obtain rfl : x = x' := Option.some.inj (hx.symm.trans hx')
  obtain rfl : y = y' := Option.some.inj (hy.symm.trans hy')
  refine ⟨tr, x, y, _, _, ht', hx, hy, C52_directed_degrees_read hb hd ht, fun hconv i co ci hi hi' => ?_⟩
  obtain rfl : co = d.dseq_out i := Option.some.inj (hi.2.symm.trans (at_ofFn _ i).2)
  obtain rfl : ci = d.dseq_in i := Option.some.inj (hi'.2.symm.trans (at_ofFn _ i).2)
  refine ⟨(hc hconv i).1, (hc hconv i).2, fun seed st sample hs => ?_⟩
  have nn : ∀ v, 0 ≤ cat2 x y v := by
    rintro ⟨b, j⟩
    unfold cat2
    dsimp only
    split_ifs
    · have := px j; split_ifs at this; exacts [this.ge, this.le]
    · have := py j; split_ifs at this; exacts [this.ge, this.le]
  obtain ⟨m1, m2⟩ := Sampler.C23_dcm_mean_degrees hU (cat2 x y) nn hs i
  rw [m1, m2, out_spec, in_spec]
  exact hc hconv i

/-- C52 (dcm, adjacency matrix): the numbers of out- and in-links of a matrix have the same sum, so nothing more is needed. -/
theorem C52_dcm_matrix {m : Net.SqMat} [NeZero m.n] (hN : NonNeg m) (e : Env) (he : e.Valid) (hr : e.NonzeroDraws) :
    ∃ g : DState α, DirectedGraph ({ adjacency := some (.dense m) } : Args α) = .ok g ∧ ∃ d : DData m.n, ReadsDegreesD g d ∧ ∀ (a : DAttr d) (me : Method),
      me ≠ .fixed_point → ∀ (name : String) (adj : AdjSpec m.n) (ma : String) (ga : DGuess m.n) (p : Params), p.full_return = true → p.linsearch = true →
      let S := solve_tool_directed e a "dcm" me.name (.name name) adj ma ga p
      S.exc = none → ∃ tr x y, S.g.trace = some tr ∧ S.g.x = some x ∧ S.g.y = some y ∧ (tr.Converged p → ∀ i,
        |outDBCM x y i - rowLinks m i| ≤ x i * p.tol ∧ |inDBCM x y i - colLinks m i| ≤ y i * p.tol) := by
  have hn : 0 < m.n := Nat.pos_of_ne_zero (NeZero.ne _)
  have ha : Asks true ({ adjacency := some (.dense m) } : Args α) (.matrix m) := .dense hN hn
  obtain ⟨g, hg⟩ := (C35_directed_succeeds_iff _).2 (Or.inl ⟨_, ha⟩)
  obtain ⟨-, -, -, -, ho, hi, -⟩ := (C35_directed_builds _ g hg).1 _ ha
  refine ⟨g, hg, ⟨fun i => Set.ncard {j | 0 < m.val i j}, fun i => Set.ncard {j | 0 < m.val j i}, fun _ => 0, fun _ => 0, false⟩, ⟨ho, hi⟩, ?_⟩
  intro a me hme name adj ma ga p hf hl S h
  have hsum : ∑ i, Set.ncard {j | 0 < m.val j i} = ∑ i, Set.ncard {j | 0 < m.val i j} := by
    classical
    simp only [Set.ncard_eq_toFinset_card', Set.toFinset_setOf, card_filter]
    exact sum_comm
  obtain ⟨x, y, hx, hy, -, -⟩ := C16_dcm_run e he hr hsum a me.name name adj ma ga p hl h
  obtain ⟨tr, x', y', ht', hx', hy', hc⟩ := C13_dcm_named e he hr hsum a me hme name adj ma ga p hf hl h
  exact ⟨tr, x', y', ht', hx', hy', fun hconv i => hc hconv i⟩

/-- C52 (decm_exp): mean degrees and strengths over the samples are those of the network. -/
theorem C52_decm_exp {g : DState α} {t : Topology α} (hb : BuiltD g t) {d : DData n} (hd : ReadsDegreesD g d) (hs : ReadsStrengthsD g d)
    (ht : ∀ s, t ≠ .strengths s) (hw : HasWeights t) (h0 : d.Spread)
    (hii : ∀ i, d.out_strength i < ∑ k, d.out_strength k ∨ d.in_strength i < ∑ k, d.in_strength k) (e : Env) (he : e.Valid) (hr : e.NonzeroDraws) (a : DAttr d)
    (me : Method) (hme : me ≠ .fixed_point) (name : String) (adj : AdjSpec n) (ma : String) (ga : DGuess n) (p : Params) (hf : p.full_return = true)
    (hl : p.linsearch = true) (hU : UniformSource P U) (hGs : GeometricSource P U G) :
    let S := solve_tool_directed e a "decm_exp" me.name (.name name) adj ma ga p
    S.exc = none → ∃ tr x y bo bi ko ki so si, S.g.trace = some tr ∧ S.g.x = some x ∧ S.g.y = some y ∧ S.g.b_out = some bo ∧ S.g.b_in = some bi ∧
      DegreesOfD t ko ki ∧ StrengthsOfD t so si ∧ (tr.Converged p → ∀ i co ci wo wi, At ko i co → At ki i ci → At so i wo → At si i wi →
        (|outDegDECM x y bo bi i - co| ≤ p.tol ∧ |inDegDECM x y bo bi i - ci| ≤ p.tol ∧ |outStrDECM x y bo bi i - wo| ≤ p.tol ∧
          |inStrDECM x y bo bi i - wi| ≤ p.tol) ∧
        ∀ seed st sample, Sampler.SampleDECM R U G hG x y bo bi seed st sample →
          |∫ ω, (outDegreeIn ((sample ω).map fun e => (e.1, e.2.1)) i : ℝ) ∂P - co| ≤ p.tol ∧
          |∫ ω, (inDegreeIn ((sample ω).map fun e => (e.1, e.2.1)) i : ℝ) ∂P - ci| ≤ p.tol ∧
          |∫ ω, (outStrengthIn (sample ω) i : ℝ) ∂P - wo| ≤ p.tol ∧ |∫ ω, (inStrengthIn (sample ω) i : ℝ) ∂P - wi| ≤ p.tol) := by
  intro S h
  obtain ⟨x, y, bo, bi, hx, hy, hbo, hbi, pos, hxy⟩ := C16_decm_exp_run e he hr h0 hii a me.name name adj ma ga p hl h
  obtain ⟨tr, x', y', bo', bi', ht', hx', hy', hbo', hbi', hc⟩ := C13_decm_exp_named e he hr h0 hii a me hme name adj ma ga p hf hl h
  obtain rfl : x = x' := Option.some.inj (hx.symm.trans hx')
  obtain rfl : y = y' := Option.some.inj (hy.symm.trans hy')
  obtain rfl : bo = bo' := Option.some.inj (hbo.symm.trans hbo')
  obtain rfl : bi = bi' := Option.some.inj (hbi.symm.trans hbi')
  refine ⟨tr, x, y, bo, bi, _, _, _, _, ht', hx, hy, hbo, hbi, C52_directed_degrees_read hb hd ht, C52_directed_strengths_read hb hs hw,
    fun hconv i co ci wo wi h1 h2 h3 h4 => ?_⟩
  obtain rfl : co = d.dseq_out i := Option.some.inj (h1.2.symm.trans (at_ofFn _ i).2)
  obtain rfl : ci = d.dseq_in i := Option.some.inj (h2.2.symm.trans (at_ofFn _ i).2)
  obtain rfl : wo = d.out_strength i := Option.some.inj (h3.2.symm.trans (at_ofFn _ i).2)
  obtain rfl : wi = d.in_strength i := Option.some.inj (h4.2.symm.trans (at_ofFn _ i).2)
  refine ⟨hc hconv i, fun seed st sample hs => ?_⟩
  let v : Fin 4 × Fin n → ℝ := fun w => if w.1 = 0 then x w.2 else if w.1 = 1 then y w.2 else if w.1 = 2 then bo w.2 else bi w.2
  have hv : ∀ w, 0 ≤ v w := fun w => by
    simp only [v]; split_ifs; exacts [(pos _).1.le, (pos _).2.1.le, (pos _).2.2.1.le, (pos _).2.2.2.le]
  have hs' : Sampler.SampleDECM R U G hG (fun i => v (0, i)) (fun i => v (1, i)) (fun i => v (2, i)) (fun i => v (3, i)) seed st sample := hs
  obtain ⟨m1, m2, m3, m4⟩ := Sampler.C23_decm_means hU hGs v (fun i => hv _) (fun i => hv _) (fun i j hij => ⟨mul_nonneg (hv _) (hv _), hxy i j⟩) hs' i
  obtain ⟨e0, e1, e2, e3⟩ := expected_decm_spec v hv (fun i j _ => hxy i j) i
  rw [m1, m2, m3, m4, e0, e1, e2, e3]
  exact hc hconv i

end undirected

/-! Non-vacuity: a ring of five nodes given as a matrix, cleaned and given again; `cm_exp` started at θ = 0 converges at once. -/

/-- adjacency matrix of the ring -/
def ringMatrix : Net.SqMat := ⟨5, fun i j => if j = i + 1 ∨ i = j + 1 then 1 else 0⟩

theorem ringMatrix_nonneg : NonNeg ringMatrix := fun i j => by
  unfold ringMatrix; dsimp only; split_ifs <;> norm_num

theorem ringMatrix_links (i : Fin 5) : rowLinks ringMatrix i = 2 := by
  have : {j : Fin 5 | 0 < ringMatrix.val i j} = ((univ.filter fun j : Fin 5 => j = i + 1 ∨ i = j + 1 : Finset (Fin 5)) : Set (Fin 5)) := by
    ext j
    simp only [ringMatrix, Set.mem_setOf_eq, coe_filter, mem_univ, true_and]
    split_ifs with h
    · exact ⟨fun _ => h, fun _ => one_pos⟩
    · exact ⟨fun h => absurd h (lt_irrefl _), fun h' => absurd h' h⟩
  have hc : Set.ncard {j : Fin 5 | 0 < ringMatrix.val i j} = 2 := by
    rw [this, Set.ncard_coe_finset]
    fin_cases i <;> decide
  exact (congrArg (Nat.cast (R := ℝ)) hc).trans (by norm_num)

example : ∃ g : UState ℕ, BuiltU g (.matrix ringMatrix) ∧ ReadsDegrees g (regular 5 2 fun _ => 4) := by
  have ha : Asks false ({ adjacency := some (.dense ringMatrix) } : Args ℕ) (.matrix ringMatrix) := .dense ringMatrix_nonneg (by decide)
  obtain ⟨g, hg⟩ := (C35_undirected_succeeds_iff _).2 (Or.inl ⟨_, ha⟩)
  have hB : BuiltU (g.calls [.clean_edges, .set_adjacency_matrix (.dense ringMatrix)]) (.matrix ringMatrix) :=
    ⟨_, g, some (.matrix ringMatrix), [.clean_edges, .set_adjacency_matrix (.dense ringMatrix)], hg, fun t ht => by cases ht; exact ha, fun h => (by cases h),
      .clean _ _ _ (.set _ _ _ _ ha (.nil _)), rfl⟩
  refine ⟨_, hB, ?_⟩
  obtain ⟨a, g0, t0, ops, h1, h2, h3, h4, h5⟩ := hB
  have hD := ((C34_undirected_history a g0 h1 t0 h2 h3 ops).2 _ h4).2 _ rfl
  rw [← h5] at hD
  unfold ReadsDegrees
  rw [hD.2.2.2.1]
  congr 1
  refine congrArg List.ofFn ?_
  funext i
  exact ringMatrix_links i

example (e : Env) : ∃ t x, let R := solve_tool e ({} : UAttr (regular 5 2 fun _ => 4)) "cm_exp" "newton" (.nodes 0) .other "" .other { full_return := true }
    R.exc = none ∧ R.g.trace = some t ∧ t.Converged { full_return := true } ∧ R.g.x = some x ∧ ∀ i, x i = 1 := by
  let d := regular 5 2 fun _ => 4
  have h0 : guessCM e d true (.nodes 0) = .ok 0 := by
    simp only [guessCM]
    congr 1
    funext q
    simp [maskSet]
  have hz : (cbCMexp e d .newton).fn 0 = 0 := by
    funext q
    obtain ⟨i, hi⟩ := d.exists_class q
    have hq : q = d.inv i := Subsingleton.elim (α := Fin (regular 5 2 fun _ => 4).r) q (d.inv i)
    simp only [cbCMexp, hq, residual_cm_exp, Pi.zero_apply, neg_zero, Real.exp_zero]
    have : degUBCM (fun _ : Fin 5 => (1 : ℝ)) i = 2 := by
      unfold degUBCM linkUBCM
      rw [sum_const, filter_ne', card_erase_of_mem (mem_univ _)]
      simp; norm_num
    rw [this]
    simp [d, regular]
  have hR := solve_tool_cm_exp e ({} : UAttr d) .newton (.nodes 0) .other "" .other { full_return := true } h0
  simp only at hR
  rw [solver_at_zero _ _ _ hz (by simp [Params.opts]; norm_num)] at hR
  refine ⟨⟨0, [norm2 ((cbCMexp e d .newton).fn 0)], [1], []⟩, fun _ => 1, ?_⟩
  intro R
  rw [show R = _ from hR]
  simp only [solutionError, setSolvedCM, true_or, or_true, if_true, strengthError, degreeError, initState, Trace.of, Pi.zero_apply, neg_zero, Real.exp_zero]
  exact ⟨trivial, trivial, ⟨by norm_num, fun δ h => by simp at h; subst h; norm_num⟩, trivial, fun _ => trivial⟩

end Verif.Solve
