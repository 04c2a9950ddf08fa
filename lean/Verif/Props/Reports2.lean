import Verif.Props.Reports
import Verif.Props.SampleAfterD

/-! C54 for `crema` and `crema-sparse` on every binary model, with every method. -/

namespace Verif.Solve

open Verif Finset Reduction Solver Spec

section undirected

variable {n : ℕ} [NeZero n] {d : UData n} (e : Env)

theorem solveProblem_kept (g : UAttr d) (model method : String) (guess : Guess n) (p : Params) :
    (solveProblem e g model method guess p).1.expected_strength_seq = g.expected_strength_seq := by
  unfold solveProblem
  dsimp only
  repeat' split
  all_goals rfl

theorem solveCremaTail_kept (g : UAttr d) (adj : CremaAdj n) (model method : String) (guess : Guess n) (p : Params) :
    (solveCremaTail e g adj model method guess p).1.expected_strength_seq = g.expected_strength_seq ∧
      (solveCremaTail e g adj model method guess p).1.is_sparse = g.is_sparse := by
  refine ⟨?_, (cremaTail_memoryless e g g adj model method guess p rfl).2.2.2.2.2.1⟩
  unfold solveCremaTail
  dsimp only
  repeat' split
  all_goals rfl

theorem solveProblemCrema_kept (g : UAttr d) (model method : String) (guess : Guess n) (a ma : String) (ga : Guess n) (p : Params) :
    let r := solveProblemCrema e g model method guess (.name a) ma ga p
    r.g.expected_strength_seq = g.expected_strength_seq ∧ (r.exc = none → r.g.is_sparse = decide (model = "crema-sparse")) := by
  intro r
  simp only [r]
  unfold solveProblemCrema
  dsimp only
  have k1 := solveProblem_kept e.inner { g with is_sparse := decide (model = "crema-sparse") } a ma ga p
  have k2 := (solveProblem_memoryless e.inner { g with is_sparse := decide (model = "crema-sparse") } { g with is_sparse := decide (model = "crema-sparse") } a ma ga p).2.2.2.2.1
  generalize solveProblem e.inner { g with is_sparse := decide (model = "crema-sparse") } a ma ga p = s at k1 k2 ⊢
  obtain ⟨G, ex, gg⟩ := s
  dsimp only at k1 k2
  cases ex with
  | some x => exact ⟨k1, fun h => by simp at h⟩
  | none =>
    dsimp only
    split
    · exact ⟨k1, fun h => by simp at h⟩
    · split_ifs with h1
      · exact ⟨(solveCremaTail_kept e _ _ _ _ _ _).1.trans k1, fun _ => (solveCremaTail_kept e _ _ _ _ _ _).2.trans k2⟩
      · refine ⟨(solveCremaTail_kept e _ _ _ _ _ _).1.trans k1, fun _ => (solveCremaTail_kept e _ _ _ _ _ _).2.trans ?_⟩
        rw [← k2]
        exact (Bool.eq_false_iff.2 h1).symm
      · exact ⟨k1, fun h => by simp at h⟩

/-- C54, undirected `crema` and `crema-sparse` on "cm" or "cm_exp", every method: the reported expected degrees and strengths are those of the model at the stored parameters, and the errors
their largest deviations; only the name of the attribute of the strengths is wrong (`expected_strength_seq` is left as it was). For crema-sparse the fitnesses must not be negative. -/
theorem C54_crema_all_partial (g : UAttr d) (model method : String) (hm : model = "crema" ∨ model = "crema-sparse") (guess : Guess n) (a : String) (ha : a = "cm" ∨ a = "cm_exp")
    (ma : String) (ga : Guess n) (p : Params) :
    let R := solve_tool e g model method guess (.name a) ma ga p
    R.exc = none → ∃ x β E r E' r', R.g.x = some x ∧ R.g.beta = some β ∧ R.g.expected_dseq = some (degUBCM x) ∧ R.g.expected_strength_seq = g.expected_strength_seq ∧
      R.g.error_degree = some E ∧ R.g.relative_error_degree = some r ∧ R.g.error_strength = some E' ∧ R.g.relative_error_strength = some r' ∧ Report (degUBCM x) (fun i => d.dseq i) E r ∧
      ((model = "crema-sparse" → ∀ i, 0 ≤ x i) → R.g.expected_stregth_seq = some (strCReMa (linkMatrix x) β) ∧ Report (strCReMa (linkMatrix x) β) d.strength_sequence E' r') := by
  intro R h
  obtain ⟨x, β, hx, hβ, hl, -, hc⟩ := Sampler.crema_name_attrs e g model method hm guess a ha ma ga p h
  have hR : R = finish e _ := solve_tool_crema_finish e g model method hm guess (.name a) ma ga p
  obtain ⟨k1, k2⟩ := solveProblemCrema_kept e g model method guess a ma ga p
  have hE : (finish e (solveProblemCrema e g model method guess (.name a) ma ga p)).exc = none := hR ▸ h
  obtain ⟨h1, s1, s2, -, s4, s6, -⟩ := Sampler.finish_same e _ hE
  generalize solveProblemCrema e g model method guess (.name a) ma ga p = r at hR k1 k2 h1 s1 s2 s4 s6
  obtain ⟨G, ex, g1, g2⟩ := r
  dsimp only at k1 k2 h1 s1 s2 s4 s6
  subst h1
  have e1 : R.g = (solutionError e G).1 := by rw [hR]; rfl
  have hx' : G.x = some x := by rw [← s2, ← hR]; exact hx
  have hβ' : G.beta = some β := by rw [← s4, ← hR]; exact hβ
  have hl' : G.last_model = some model := by rw [← s1, ← hR]; exact hl
  have hc' : G.adjacency_crema = some (if model = "crema-sparse" then .fitness x else .edges (triuEdges (CM.pmatrix_cm x))) := by rw [← s6, ← hR]; exact hc
  have hmm : G.last_model = some "cm" ∨ G.last_model = some "cm_exp" ∨ G.last_model = some "crema" ∨ G.last_model = some "crema-sparse" := by
    rw [hl']; rcases hm with rfl | rfl <;> simp
  obtain ⟨d1, d2⟩ := report_degrees e G hmm
  obtain ⟨d3, E, r, d4, d5, d6⟩ := d2 x hx'
  rcases hm with rfl | rfl
  · rw [if_neg (by decide)] at hc'
    obtain ⟨t1, E', r', t2, t3, t4⟩ := report_strengths e G hmm hβ' hc' (.inr ⟨k2 rfl, _, rfl, rfl⟩)
    have hs : CReMa.expected_strength_crema_undirected β (triuEdges (CM.pmatrix_cm x)) = strCReMa (linkMatrix x) β := by
      rw [pmatrix_spec]
      exact funext fun i => str_crema_spec _ (linkMatrix_symm x) (linkMatrix_diag x) β i
    rw [hs] at t1 t4
    exact ⟨x, β, E, r, E', r', hx, hβ, by rw [e1, d3], by rw [e1, d1, k1], by rw [e1, d4], by rw [e1, d5], by rw [e1, t2], by rw [e1, t3], d6, fun _ => ⟨by rw [e1, t1], t4⟩⟩
  · rw [if_pos rfl] at hc'
    obtain ⟨t1, E', r', t2, t3, t4⟩ := report_strengths e G hmm hβ' hc' (.inl ⟨k2 rfl, rfl⟩)
    refine ⟨x, β, E, r, E', r', hx, hβ, by rw [e1, d3], by rw [e1, d1, k1], by rw [e1, d4], by rw [e1, d5], by rw [e1, t2], by rw [e1, t3], d6, fun hpos => ?_⟩
    have hs : CReMa.expected_strength_crema_undirected_sparse β x = strCReMa (linkMatrix x) β := by
      funext i
      rw [CReMa.expected_sparse_eq _ _ (hpos rfl)]
      unfold strCReMa
      rw [Finset.sum_filter]
      refine Finset.sum_congr rfl fun j _ => ?_
      by_cases h : j = i
      · simp [h]
      · simp [h, linkMatrix, linkUBCM, CReMa.pr, Ne.symm h]
    rw [show CremaAdj.asFitness e (.fitness x) = x from rfl, hs] at t1 t4
    exact ⟨by rw [e1, t1], t4⟩

/-- `error` is the larger of `error_strength` and `error_degree` when crema has solved the binary problem itself -/
theorem crema_error_max (G : UAttr d) (hn : G.last_model = some "crema" ∨ G.last_model = some "crema-sparse") (hg : G.adjacency_given = some false) {x β : Fin n → ℝ}
    (hx : G.x = some x) (hβ : G.beta = some β) {adj : CremaAdj n} (ha : G.adjacency_crema = some adj) (h : (solutionError e G).2 = none) :
    ∃ ed es, (solutionError e G).1.error_degree = some ed ∧ (solutionError e G).1.error_strength = some es ∧ (solutionError e G).1.error = some (max es ed) := by
  have hn' : G.last_model = some "cm" ∨ G.last_model = some "cm_exp" ∨ G.last_model = some "crema" ∨ G.last_model = some "crema-sparse" := by tauto
  obtain ⟨-, -, c3, -, -, -, -, -, -, c10, c11, c12⟩ := degreeError_keeps G
  revert h
  unfold solutionError
  rw [if_pos hn']
  have hd : (degreeError G).error_degree = some (maxAbs fun i => CM.expected_degree_cm x i - d.deg i) := by simp [degreeError, hx]
  unfold strengthError
  rw [c3, c10, c11, c12, hβ, ha, hg, hd]
  cases hs : G.is_sparse <;> cases adj <;> simp [hd]

/-- C37, undirected `crema` and `crema-sparse` on "cm" or "cm_exp", every method and history: `error` is the largest violation of a degree or a strength. -/
theorem C37_crema_all (g : UAttr d) (model method : String) (hm : model = "crema" ∨ model = "crema-sparse") (guess : Guess n) (a : String) (ha : a = "cm" ∨ a = "cm_exp")
    (ma : String) (ga : Guess n) (p : Params) :
    let R := solve_tool e g model method guess (.name a) ma ga p
    R.exc = none → ∃ x β E, R.g.x = some x ∧ R.g.beta = some β ∧ R.g.error = some E ∧ ((model = "crema-sparse" → ∀ i, 0 ≤ x i) →
      IsMaxAbs E (Sum.elim (fun i => degUBCM x i - d.dseq i) (fun i => strCReMa (linkMatrix x) β i - d.strength_sequence i))) := by
  intro R h
  obtain ⟨x, β, ed, r, es, r', hx, hβ, -, -, h1, -, h2, -, h3, h4⟩ := C54_crema_all_partial e g model method hm guess a ha ma ga p h
  obtain ⟨x', β', hx', hβ', hl, hg, hc⟩ := Sampler.crema_name_attrs e g model method hm guess a ha ma ga p h
  obtain rfl : x' = x := Option.some.inj (hx'.symm.trans hx)
  obtain rfl : β' = β := Option.some.inj (hβ'.symm.trans hβ)
  have hR : R = finish e _ := solve_tool_crema_finish e g model method hm guess (.name a) ma ga p
  have hE : (finish e (solveProblemCrema e g model method guess (.name a) ma ga p)).exc = none := hR ▸ h
  obtain ⟨k1, s1, s2, -, s4, s5, s6⟩ := Sampler.finish_same e _ hE
  generalize solveProblemCrema e g model method guess (.name a) ma ga p = q at hR hE k1 s1 s2 s4 s5 s6
  obtain ⟨G, ex, g1, g2⟩ := q
  dsimp only at k1 s1 s2 s4 s5 s6
  subst k1
  have e1 : R.g = (solutionError e G).1 := by rw [hR]; rfl
  have e2 : R.exc = (solutionError e G).2 := by rw [hR]; rfl
  obtain ⟨ed', es', m1, m2, m3⟩ := crema_error_max e G (by rw [← s1, ← hR, show R.g.last_model = some model from hl]; rcases hm with rfl | rfl <;> simp) (by rw [← s6, ← hR]; exact hg)
    (by rw [← s2, ← hR]; exact hx) (by rw [← s4, ← hR]; exact hβ) (by rw [← s5, ← hR]; exact hc) (by rw [← e2]; exact h)
  obtain rfl : ed' = ed := Option.some.inj (m1.symm.trans (by rw [← e1]; exact h1))
  obtain rfl : es' = es := Option.some.inj (m2.symm.trans (by rw [← e1]; exact h2))
  refine ⟨x', β', _, hx, hβ, by rw [e1, m3], fun hpos => ⟨?_, ?_⟩⟩
  · rintro (i | i)
    · exact (h3.1.1 i).trans (le_max_right _ _)
    · exact ((h4 hpos).2.1.1 i).trans (le_max_left _ _)
  · rcases le_total es' ed' with hle | hle
    · obtain ⟨i, hi⟩ := h3.1.2
      exact ⟨.inl i, by rw [max_eq_right hle]; exact hi⟩
    · obtain ⟨i, hi⟩ := (h4 hpos).2.1.2
      exact ⟨.inr i, by rw [max_eq_left hle]; exact hi⟩

end undirected

section directed

variable {n : ℕ} [NeZero n] {d : DData n} (e : Env)

theorem solveProblemD_kept (g : DAttr d) (model method : String) (guess : DGuess n) (p : Params) :
    (solveProblemD e g model method guess p).1.expected_strength_seq = g.expected_strength_seq := by
  unfold solveProblemD
  dsimp only
  repeat' split
  all_goals rfl

theorem solveDCremaTail_kept (g : DAttr d) (adj : DCremaAdj n) (model method : String) (guess : DGuess n) (p : Params) :
    (solveDCremaTail e g adj model method guess p).1.expected_strength_seq = g.expected_strength_seq ∧
      (solveDCremaTail e g adj model method guess p).1.is_sparse = g.is_sparse := by
  refine ⟨?_, (dcremaTail_memoryless e g g adj model method guess p rfl).2.2.2.2.2.1⟩
  unfold solveDCremaTail
  dsimp only
  repeat' split
  all_goals rfl

theorem solveProblemDCrema_kept (g : DAttr d) (model method : String) (guess : DGuess n) (a ma : String) (ga : DGuess n) (p : Params) :
    let r := solveProblemDCrema e g model method guess (.name a) ma ga p
    r.g.expected_strength_seq = g.expected_strength_seq ∧ (r.exc = none → r.g.is_sparse = decide (model = "crema-sparse")) := by
  intro r
  simp only [r]
  unfold solveProblemDCrema
  dsimp only
  have k1 := solveProblemD_kept e.inner { g with is_sparse := decide (model = "crema-sparse") } a ma ga { p with linsearch := true }
  have k2 := (solveProblemD_memoryless e.inner { g with is_sparse := decide (model = "crema-sparse") } { g with is_sparse := decide (model = "crema-sparse") } a ma ga { p with linsearch := true }).2.2.2.1
  generalize solveProblemD e.inner { g with is_sparse := decide (model = "crema-sparse") } a ma ga { p with linsearch := true } = s at k1 k2 ⊢
  obtain ⟨G, ex, gg⟩ := s
  dsimp only at k1 k2
  cases ex with
  | some x => exact ⟨k1, fun h => by simp at h⟩
  | none =>
    dsimp only
    split
    · split_ifs with h1
      · exact ⟨(solveDCremaTail_kept e _ _ _ _ _ _).1.trans k1, fun _ => (solveDCremaTail_kept e _ _ _ _ _ _).2.trans k2⟩
      · refine ⟨(solveDCremaTail_kept e _ _ _ _ _ _).1.trans k1, fun _ => (solveDCremaTail_kept e _ _ _ _ _ _).2.trans ?_⟩
        rw [← k2]
        exact (Bool.eq_false_iff.2 h1).symm
      · exact ⟨k1, fun h => by simp at h⟩
    · exact ⟨k1, fun h => by simp at h⟩

/-- C54, directed `crema` and `crema-sparse` on "dcm" or "dcm_exp", every method. -/
theorem C54_dcrema_all_partial (g : DAttr d) (model method : String) (hm : model = "crema" ∨ model = "crema-sparse") (guess : DGuess n) (a : String) (ha : a = "dcm" ∨ a = "dcm_exp")
    (ma : String) (ga : DGuess n) (p : Params) :
    let R := solve_tool_directed e g model method guess (.name a) ma ga p
    R.exc = none → ∃ x y bo bi E r E' r', R.g.x = some x ∧ R.g.y = some y ∧ R.g.b_out = some bo ∧ R.g.b_in = some bi ∧
      R.g.expected_dseq = some (outIn (outDBCM x y) (inDBCM x y)) ∧ R.g.expected_strength_seq = g.expected_strength_seq ∧
      R.g.error_degree = some E ∧ R.g.relative_error_degree = some r ∧ R.g.error_strength = some E' ∧ R.g.relative_error_strength = some r' ∧
      Report (outIn (outDBCM x y) (inDBCM x y)) (outIn (fun i => d.dseq_out i) fun i => d.dseq_in i) E r ∧
      let M := if model = "crema-sparse" then linkMatrixD x y else linkMatrixD (active d.degOut x) (active d.degIn y)
      ((model = "crema-sparse" → ∀ i, 0 ≤ x i ∧ 0 ≤ y i) → R.g.expected_stregth_seq = some (outIn (outStrCReMa M bo bi) (inStrCReMa M bo bi)) ∧
        Report (outIn (outStrCReMa M bo bi) (inStrCReMa M bo bi)) (outIn d.out_strength d.in_strength) E' r') := by
  intro R h
  obtain ⟨x, y, bo, bi, hx, hy, ho, hi, hl, -, hc⟩ := Sampler.dcrema_name_attrs e g model method hm guess a ha ma ga p h
  have hR : R = finishD _ := solve_tool_crema_finishD e g model method hm guess (.name a) ma ga p
  obtain ⟨k1, k2⟩ := solveProblemDCrema_kept e g model method guess a ma ga p
  have hE : (finishD (solveProblemDCrema e g model method guess (.name a) ma ga p)).exc = none := hR ▸ h
  obtain ⟨h1, s1, s2, s3, s4, s5, s7, -⟩ := Sampler.finishD_same _ hE
  generalize solveProblemDCrema e g model method guess (.name a) ma ga p = r at hR k1 k2 h1 s1 s2 s3 s4 s5 s7
  obtain ⟨G, ex, g1, g2⟩ := r
  dsimp only at k1 k2 h1 s1 s2 s3 s4 s5 s7
  subst h1
  have e1 : R.g = (solutionErrorD G).1 := by rw [hR]; rfl
  have hx' : G.x = some x := by rw [← s2, ← hR]; exact hx
  have hy' : G.y = some y := by rw [← s3, ← hR]; exact hy
  have ho' : G.b_out = some bo := by rw [← s4, ← hR]; exact ho
  have hi' : G.b_in = some bi := by rw [← s5, ← hR]; exact hi
  have hl' : G.last_model = some model := by rw [← s1, ← hR]; exact hl
  have hc' : G.adjacency_crema = some (if model = "crema-sparse" then .fitness x y else .edges (nzEdges (d.pmat x y))) := by rw [← s7, ← hR]; exact hc
  have hmm : G.last_model = some "dcm" ∨ G.last_model = some "dcm_exp" ∨ G.last_model = some "crema" ∨ G.last_model = some "crema-sparse" := by
    rw [hl']; rcases hm with rfl | rfl <;> simp
  obtain ⟨d1, d2⟩ := reportD_degrees G hmm
  obtain ⟨d3, E, r, d4, d5, d6⟩ := d2 x y hx' hy'
  rcases hm with rfl | rfl
  · rw [if_neg (by decide)] at hc'
    obtain ⟨t1, E', r', t2, t3, t4⟩ := reportD_strengths G hmm ho' hi' hc' (.inr ⟨k2 rfl, _, rfl, rfl, rfl⟩)
    have hs := fun i => str_dcrema_spec (linkMatrixD (active d.degOut x) (active d.degIn y)) bo bi i
    have hs1 : DCReMa.expected_out_strength_crema_directed (cat2 bo bi) (nzEdges (d.pmat x y)) = outStrCReMa (linkMatrixD (active d.degOut x) (active d.degIn y)) bo bi := by
      rw [pmat_spec]; exact funext fun i => (hs i).1
    have hs2 : DCReMa.expected_in_strength_crema_directed (cat2 bo bi) (nzEdges (d.pmat x y)) = inStrCReMa (linkMatrixD (active d.degOut x) (active d.degIn y)) bo bi := by
      rw [pmat_spec]; exact funext fun i => (hs i).2
    rw [hs1, hs2] at t1 t4
    refine ⟨x, y, bo, bi, E, r, E', r', hx, hy, ho, hi, by rw [e1, d3], by rw [e1, d1, k1], by rw [e1, d4], by rw [e1, d5], by rw [e1, t2], by rw [e1, t3], d6, ?_⟩
    rw [if_neg (by decide)]
    intro M _
    exact ⟨by rw [e1, t1], t4⟩
  · rw [if_pos rfl] at hc'
    obtain ⟨t1, E', r', t2, t3, t4⟩ := reportD_strengths G hmm ho' hi' hc' (.inl ⟨k2 rfl, _, _, rfl, rfl, rfl⟩)
    refine ⟨x, y, bo, bi, E, r, E', r', hx, hy, ho, hi, by rw [e1, d3], by rw [e1, d1, k1], by rw [e1, d4], by rw [e1, d5], by rw [e1, t2], by rw [e1, t3], d6, ?_⟩
    rw [if_pos rfl]
    intro M hpos
    simp only [M]
    have hs := fun i => str_dsparse_spec x y (fun i => (hpos rfl i).1) (fun i => (hpos rfl i).2) bo bi i
    rw [funext fun i => (hs i).1, funext fun i => (hs i).2] at t1 t4
    exact ⟨by rw [e1, t1], t4⟩

theorem dcrema_error_max (G : DAttr d) (hn : G.last_model = some "crema" ∨ G.last_model = some "crema-sparse") (hg : G.adjacency_given = some false) {x y bo bi : Fin n → ℝ}
    (hx : G.x = some x) (hy : G.y = some y) (ho : G.b_out = some bo) (hi : G.b_in = some bi) {adj : DCremaAdj n} (ha : G.adjacency_crema = some adj)
    (h : (solutionErrorD G).2 = none) :
    ∃ ed es, (solutionErrorD G).1.error_degree = some ed ∧ (solutionErrorD G).1.error_strength = some es ∧ (solutionErrorD G).1.error = some (max es ed) := by
  have hn' : G.last_model = some "dcm" ∨ G.last_model = some "dcm_exp" ∨ G.last_model = some "crema" ∨ G.last_model = some "crema-sparse" := by tauto
  revert h
  unfold solutionErrorD
  rw [if_pos hn']
  have hd : degreeErrorD G = { G with expected_dseq := (degreeErrorD G).expected_dseq, error_degree := some (maxAbs fun v => cat2 (DCM.expected_out_degree_dcm (cat2 x y)) (DCM.expected_in_degree_dcm (cat2 x y)) v - cat2 d.degOut d.degIn v), relative_error_degree := (degreeErrorD G).relative_error_degree, error := (degreeErrorD G).error } := by
    simp [degreeErrorD, hx, hy]
  rw [hd]
  unfold strengthErrorD
  dsimp only
  rw [ho, hi, ha, hg]
  cases hs : G.is_sparse <;> cases adj <;> simp

/-- C37, directed `crema` and `crema-sparse` on "dcm" or "dcm_exp", every method and history: `error` is the largest violation of a degree or a strength. -/
theorem C37_dcrema_all (g : DAttr d) (model method : String) (hm : model = "crema" ∨ model = "crema-sparse") (guess : DGuess n) (a : String) (ha : a = "dcm" ∨ a = "dcm_exp")
    (ma : String) (ga : DGuess n) (p : Params) :
    let R := solve_tool_directed e g model method guess (.name a) ma ga p
    R.exc = none → ∃ x y bo bi E, R.g.x = some x ∧ R.g.y = some y ∧ R.g.b_out = some bo ∧ R.g.b_in = some bi ∧ R.g.error = some E ∧
      let M := if model = "crema-sparse" then linkMatrixD x y else linkMatrixD (active d.degOut x) (active d.degIn y)
      ((model = "crema-sparse" → ∀ i, 0 ≤ x i ∧ 0 ≤ y i) →
        IsMaxAbs E (Sum.elim (fun v => outIn (outDBCM x y) (inDBCM x y) v - outIn (fun i => (d.dseq_out i : ℝ)) (fun i => (d.dseq_in i : ℝ)) v)
          fun v => outIn (outStrCReMa M bo bi) (inStrCReMa M bo bi) v - outIn d.out_strength d.in_strength v)) := by
  intro R h
  obtain ⟨x, y, bo, bi, ed, r, es, r', hx, hy, ho, hi, -, -, h1, -, h2, -, h3, h4⟩ := C54_dcrema_all_partial e g model method hm guess a ha ma ga p h
  obtain ⟨x', y', bo', bi', hx', hy', -, -, hl, hg, hc⟩ := Sampler.dcrema_name_attrs e g model method hm guess a ha ma ga p h
  have hR : R = finishD _ := solve_tool_crema_finishD e g model method hm guess (.name a) ma ga p
  have hE : (finishD (solveProblemDCrema e g model method guess (.name a) ma ga p)).exc = none := hR ▸ h
  obtain ⟨k1, s1, s2, s3, s4, s5, s7, s8⟩ := Sampler.finishD_same _ hE
  generalize solveProblemDCrema e g model method guess (.name a) ma ga p = q at hR hE k1 s1 s2 s3 s4 s5 s7 s8
  obtain ⟨G, ex, g1, g2⟩ := q
  dsimp only at k1 s1 s2 s3 s4 s5 s7 s8
  subst k1
  have e1 : R.g = (solutionErrorD G).1 := by rw [hR]; rfl
  have e2 : R.exc = (solutionErrorD G).2 := by rw [hR]; rfl
  obtain ⟨ed', es', m1, m2, m3⟩ := dcrema_error_max G (by rw [← s1, ← hR, show R.g.last_model = some model from hl]; rcases hm with rfl | rfl <;> simp) (by rw [← s8, ← hR]; exact hg)
    (by rw [← s2, ← hR]; exact hx) (by rw [← s3, ← hR]; exact hy) (by rw [← s4, ← hR]; exact ho) (by rw [← s5, ← hR]; exact hi) (by rw [← s7, ← hR]; exact hc) (by rw [← e2]; exact h)
  obtain rfl : ed' = ed := Option.some.inj (m1.symm.trans (by rw [← e1]; exact h1))
  obtain rfl : es' = es := Option.some.inj (m2.symm.trans (by rw [← e1]; exact h2))
  refine ⟨x, y, bo, bi, _, hx, hy, ho, hi, by rw [e1, m3], ?_⟩
  intro M hpos
  obtain ⟨h5, -⟩ := (h4 hpos).2
  refine ⟨?_, ?_⟩
  · rintro (v | v)
    · exact (h3.1.1 v).trans (le_max_right _ _)
    · exact (h5.1 v).trans (le_max_left _ _)
  · rcases le_total es' ed' with hle | hle
    · obtain ⟨v, hv⟩ := h3.1.2
      exact ⟨.inl v, by rw [max_eq_right hle]; exact hv⟩
    · obtain ⟨v, hv⟩ := h5.2
      exact ⟨.inr v, by rw [max_eq_left hle]; exact hv⟩

end directed

end Verif.Solve
