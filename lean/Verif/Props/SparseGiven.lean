import Verif.Props.SampleAfter2
import Verif.Props.SampleAfterD

/-!
`crema-sparse` on a matrix given by the user (C36, C13, C80): the sparse functions take the list of links for the list of fitnesses, so that the call raises an
exception unless there are as many links as nodes, and otherwise solves a problem in which the fitness of the first node is 0.
-/

namespace Verif.Solve

open Verif Verif.Solver

variable {n : ℕ}

/-- number of links of an undirected matrix (pairs of nodes, self-loops included, with a non-zero entry) -/
noncomputable def linkCount (a : Fin n → Fin n → ℝ) : ℕ := (Finset.univ.filter fun q : Fin n × Fin n => q.1 ≤ q.2 ∧ a q.1 q.2 ≠ 0).card

/-- number of arcs of a directed matrix -/
noncomputable def arcCount (a : Fin n → Fin n → ℝ) : ℕ := (Finset.univ.filter fun q : Fin n × Fin n => a q.1 q.2 ≠ 0).card

theorem pairs_all (n : ℕ) : (pairs n).Nodup ∧ ∀ q, q ∈ pairs n := by
  constructor
  · unfold pairs
    rw [List.nodup_flatMap]
    refine ⟨fun i _ => (List.nodup_finRange n).map fun j j' h => (Prod.mk.inj h).2, (List.nodup_finRange n).imp fun {i i'} hne => ?_⟩
    rw [Function.onFun, List.disjoint_left]
    intro q hq hq'
    obtain ⟨j, -, rfl⟩ := List.mem_map.1 hq
    obtain ⟨j', -, h⟩ := List.mem_map.1 hq'
    exact hne (Prod.mk.inj h).1.symm
  · rintro ⟨i, j⟩
    simp [pairs]

theorem filter_count (p : Fin n × Fin n → Prop) [DecidablePred p] : ((pairs n).filter fun q => decide (p q)).length = (Finset.univ.filter p).card := by
  obtain ⟨h1, h2⟩ := pairs_all n
  rw [← List.toFinset_card_of_nodup (h1.filter _)]
  congr 1
  ext q
  simp [h2]

theorem triu_length (a : Fin n → Fin n → ℝ) : (triuEdges a).length = linkCount a := by
  unfold triuEdges linkCount
  rw [List.length_map]
  exact filter_count fun q : Fin n × Fin n => q.1 ≤ q.2 ∧ a q.1 q.2 ≠ 0

theorem nz_length (a : Fin n → Fin n → ℝ) : (nzEdges a).length = arcCount a := by
  unfold nzEdges arcCount
  rw [List.length_map]
  exact filter_count fun q : Fin n × Fin n => a q.1 q.2 ≠ 0

/-- the links are listed row after row -/
theorem pairs_rows (n : ℕ) : (pairs n).Pairwise fun q q' => q.1 ≤ q'.1 := by
  unfold pairs
  rw [List.pairwise_flatMap]
  refine ⟨fun i _ => ?_, (List.pairwise_lt_finRange n).imp fun {i i'} h => ?_⟩
  · rw [List.pairwise_map]
    exact List.pairwise_of_forall fun _ _ => le_refl i
  · intro q hq q' hq'
    obtain ⟨j, -, rfl⟩ := List.mem_map.1 hq
    obtain ⟨j', -, rfl⟩ := List.mem_map.1 hq'
    exact h.le

theorem head_row {l : Edges n} (hl : l.Pairwise fun t t' => t.1 ≤ t'.1) {t : Fin n × Fin n × ℝ} (ht : t ∈ l) (h0 : t.1.val = 0) : ∃ u, l[0]? = some u ∧ u.1.val = 0 := by
  cases l with
  | nil => simp at ht
  | cons u l =>
    refine ⟨u, rfl, ?_⟩
    rcases List.mem_cons.1 ht with rfl | h
    · exact h0
    · have := (List.pairwise_cons.1 hl).1 t h
      have : u.1.val ≤ t.1.val := this
      omega

theorem triu_rows (a : Fin n → Fin n → ℝ) : (triuEdges a).Pairwise fun t t' => t.1 ≤ t'.1 := by
  unfold triuEdges
  rw [List.pairwise_map]
  exact (pairs_rows n).filter _

theorem nz_rows (a : Fin n → Fin n → ℝ) : (nzEdges a).Pairwise fun t t' => t.1 ≤ t'.1 := by
  unfold nzEdges
  rw [List.pairwise_map]
  exact (pairs_rows n).filter _

section
variable [NeZero n] {d : UData n}

/-- what a call of `crema-sparse` on a matrix computes -/
theorem sparse_given_run (e : Env) (g : UAttr d) (me : Method) (guess : Guess n) (a : Fin n → Fin n → ℝ) (ma : String) (ga : Guess n) (p : Params) :
    let R := solve_tool e g "crema-sparse" me.name guess (.matrix a) ma ga p
    R.exc = none → linkCount a = n ∧ ∃ b s, solver (cbCremaSparseOn e d (triuEdges a) me) (p.opts me.name) b = .ok s ∧ R.g.beta = some s.x ∧
      (p.full_return = true → R.g.trace_crema = some (.of s)) := by
  intro R h
  have hR : R = _ := solve_tool_crema_finish e g "crema-sparse" me.name (.inr rfl) guess (.matrix a) ma ga p
  have hl : uLookup "crema-sparse" me.name = some (.crema_sparse, me) := uLookup_name .crema_sparse me
  rw [hR] at h ⊢
  unfold solveProblemCrema solveCremaTail finish at h ⊢
  simp only [Bool.false_eq_true, if_false, hl] at h ⊢
  rcases hgc : guessCrema e d guess with ⟨x | b, gu⟩
  · simp [hgc] at h
  · simp only [hgc] at h ⊢
    by_cases hlen : (triuEdges a).length = n
    · simp only [if_pos hlen] at h ⊢
      refine ⟨(triu_length a).symm.trans hlen, b, ?_⟩
      cases hsv : solver (cbCremaSparseOn e d (triuEdges a) me) (p.opts me.name) b with
      | error x => simp [hsv] at h
      | ok s =>
        have k := fun g' : UAttr d => solutionError_keeps e g'
        refine ⟨s, rfl, (k _).2.2.1, fun hf => (k _).2.2.2.2.2.1.trans (by simp [setSolvedCrema, hf])⟩
    · simp only [if_neg hlen] at h
      simp at h

/-- C36 (crema-sparse on a given matrix): the call raises an exception unless the matrix has as many links as the network has nodes. -/
theorem C36_sparse_given_links (e : Env) (g : UAttr d) (me : Method) (guess : Guess n) (a : Fin n → Fin n → ℝ) (hn : linkCount a ≠ n) (ma : String) (ga : Guess n) (p : Params) :
    (solve_tool e g "crema-sparse" me.name guess (.matrix a) ma ga p).exc ≠ none :=
  fun h => hn (sparse_given_run e g me guess a ma ga p h).1

/-- the gradient of the first node is its strength, wherever it is evaluated -/
theorem sparse_given_fn (e : Env) (he : e.Valid) (me : Method) (hme : me ≠ .fixed_point) (a : Fin n → Fin n → ℝ) (i j : Fin n) (hi : i.val = 0) (ha : a i j ≠ 0) (v : Fin n → ℝ) :
    (cbCremaSparseOn e d (triuEdges a) me).fn v i = d.strength_sequence i := by
  have hmem : (i, j, a i j) ∈ triuEdges a := by
    simp only [triuEdges, List.mem_map, List.mem_filter, decide_eq_true_eq]
    exact ⟨(i, j), ⟨(pairs_all n).2 _, Fin.le_def.2 (by simp [hi]), ha⟩, rfl⟩
  obtain ⟨u, hu, hu0⟩ := head_row (triu_rows a) hmem hi
  have hx : (CremaAdj.edges (triuEdges a)).asFitness e i = 0 := by
    simp [CremaAdj.asFitness, hi, hu, hu0]
  have : (cbCremaSparseOn e d (triuEdges a) me).fn v i =
      -CReMa.loglikelihood_prime_crema_undirected_sparse (e.sched n) v d.strength_sequence ((CremaAdj.edges (triuEdges a)).asFitness e) i := by
    cases me <;> first | rfl | exact absurd rfl hme
  rw [this, CReMa.prime_sparse_eq _ ((he.sched n).nodup_iff.2 (List.nodup_finRange n)) _ _ _ i ((he.sched n).mem_iff.2 (List.mem_finRange i))]
  simp [CReMa.pr, hx]

/-- C13, C36 fail for crema-sparse on a given matrix (newton, quasinewton): if the first node has a link in the matrix, the residual never falls below the strength of that node, from
whatever guess and after whatever number of steps: the row index 0 of that link is taken for the fitness of the node. -/
theorem C36_sparse_given_never (e : Env) (he : e.Valid) (g : UAttr d) (me : Method) (hme : me ≠ .fixed_point) (guess : Guess n) (a : Fin n → Fin n → ℝ) (ma : String) (ga : Guess n)
    (p : Params) (hf : p.full_return = true) (i j : Fin n) (hi : i.val = 0) (ha : a i j ≠ 0) :
    let R := solve_tool e g "crema-sparse" me.name guess (.matrix a) ma ga p
    R.exc = none → ∃ t, R.g.trace_crema = some t ∧ t.norm_seq.length = t.n_steps + 1 ∧ ∀ r ∈ t.norm_seq, d.strength_sequence i ≤ r := by
  intro R h
  obtain ⟨-, b, s, hsv, -, ht⟩ := sparse_given_run e g me guess a ma ga p h
  refine ⟨_, ht hf, (C15_solver_trace _ _ _ _ hsv).2.1, fun r hr => ?_⟩
  obtain ⟨xs, hxs⟩ := C15_solver_history _ _ _ _ hsv
  rw [show (Trace.of s).norm_seq = s.norm_seq from rfl, hxs.norms] at hr
  obtain ⟨k, -, rfl⟩ := List.mem_map.1 hr
  rw [← sparse_given_fn e he me hme a i j hi ha (xs k)]
  exact (le_abs_self _).trans (abs_le_norm2 _ i)

end

section
variable [NeZero n] {d : DData n}

/-- what a call of the directed `crema-sparse` on a matrix computes -/
theorem dsparse_given_run (e : Env) (g : DAttr d) (me : Method) (guess : DGuess n) (a : Fin n → Fin n → ℝ) (ma : String) (ga : DGuess n) (p : Params) :
    let R := solve_tool_directed e g "crema-sparse" me.name guess (.matrix a) ma ga p
    R.exc = none → arcCount a = n ∧ (d.nz_known = true ∨ me = .fixed_point) ∧ ∃ b s, solver (cbDCremaSparseOn e d (nzEdges a) me) (p.opts me.name) b = .ok s ∧
      R.g.b_out = some (fun i => s.x (0, i)) ∧ R.g.b_in = some (fun i => s.x (1, i)) ∧ (p.full_return = true → R.g.trace_crema = some (.of s)) := by
  intro R h
  have hR : R = _ := solve_tool_crema_finishD e g "crema-sparse" me.name (.inr rfl) guess (.matrix a) ma ga p
  have hl : dLookup "crema-sparse" me.name = some (.crema_sparse, me) := dLookup_name .crema_sparse me
  rw [hR] at h ⊢
  unfold solveProblemDCrema solveDCremaTail finishD at h ⊢
  simp only [Bool.false_eq_true, if_false, hl] at h ⊢
  rcases hgc : guessDCrema e d guess with ⟨x | ⟨bo, bi⟩, gu⟩
  · simp [hgc] at h
  · simp only [hgc] at h ⊢
    by_cases hlen : (nzEdges a).length = n ∧ (d.nz_known ∨ me = .fixed_point)
    · simp only [if_pos hlen] at h ⊢
      refine ⟨(nz_length a).symm.trans hlen.1, hlen.2, cat2 bo bi, ?_⟩
      cases hsv : solver (cbDCremaSparseOn e d (nzEdges a) me) (p.opts me.name) (cat2 bo bi) with
      | error x => simp [hsv] at h
      | ok s =>
        exact ⟨s, rfl, keepsD DAttr.b_out (fun _ => rfl) _, keepsD DAttr.b_in (fun _ => rfl) _,
          fun hf => (keepsD DAttr.trace_crema (fun _ => rfl) _).trans (by simp [setSolvedDCrema, hf])⟩
    · simp only [if_neg hlen] at h
      simp at h

/-- C36 (directed crema-sparse on a given matrix): the call raises an exception unless the matrix has as many arcs as the network has nodes. -/
theorem C36_dsparse_given_links (e : Env) (g : DAttr d) (me : Method) (guess : DGuess n) (a : Fin n → Fin n → ℝ) (hn : arcCount a ≠ n) (ma : String) (ga : DGuess n) (p : Params) :
    (solve_tool_directed e g "crema-sparse" me.name guess (.matrix a) ma ga p).exc ≠ none :=
  fun h => hn (dsparse_given_run e g me guess a ma ga p h).1

/-- the gradient of the first node is its out-strength, wherever it is evaluated -/
theorem dsparse_given_fn (e : Env) (he : e.Valid) (me : Method) (hme : me ≠ .fixed_point) (a : Fin n → Fin n → ℝ) (i j : Fin n) (hi : i.val = 0) (ha : a i j ≠ 0)
    (hpos : d.out_strength i ≠ 0) (v : Fin 2 × Fin n → ℝ) : (cbDCremaSparseOn e d (nzEdges a) me).fn v (0, i) = d.out_strength i := by
  have hmem : (i, j, a i j) ∈ nzEdges a := by
    simp only [nzEdges, List.mem_map, List.mem_filter, decide_eq_true_eq]
    exact ⟨(i, j), ⟨(pairs_all n).2 _, ha⟩, rfl⟩
  obtain ⟨u, hu, hu0⟩ := head_row (nz_rows a) hmem hi
  have hx : rowsOf (nzEdges a) i = 0 := by
    simp [rowsOf, hi, hu, hu0]
  have hv : (e.visit d.out_strength).Perm (DCM.nonzero d.out_strength) := (he.sched n).filter _
  have : (cbDCremaSparseOn e d (nzEdges a) me).fn v (0, i) = -DCReMa.loglikelihood_prime_crema_directed_sparse (e.visit d.out_strength) (e.visit d.in_strength) v
      d.out_strength d.in_strength (rowsOf (nzEdges a)) (colsOf (nzEdges a)) (0, i) := by
    cases me <;> first | rfl | exact absurd rfl hme
  rw [this, DCReMa.prime_sparse_eq0 _ _ (hv.nodup_iff.2 (DCM.nodup_nonzero _)), if_pos (hv.mem_iff.2 ((DCM.mem_nonzero _ _).2 hpos))]
  simp [DCReMa.pr, hx]

/-- C13, C36 fail for the directed crema-sparse on a given matrix (newton, quasinewton): if the first node has an outgoing arc in the matrix, the residual never falls below the
out-strength of that node. -/
theorem C36_dsparse_given_never (e : Env) (he : e.Valid) (g : DAttr d) (me : Method) (hme : me ≠ .fixed_point) (guess : DGuess n) (a : Fin n → Fin n → ℝ) (ma : String) (ga : DGuess n)
    (p : Params) (hf : p.full_return = true) (i j : Fin n) (hi : i.val = 0) (ha : a i j ≠ 0) :
    let R := solve_tool_directed e g "crema-sparse" me.name guess (.matrix a) ma ga p
    R.exc = none → ∃ t, R.g.trace_crema = some t ∧ t.norm_seq.length = t.n_steps + 1 ∧ ∀ r ∈ t.norm_seq, d.out_strength i ≤ r := by
  intro R h
  obtain ⟨-, -, b, s, hsv, -, -, ht⟩ := dsparse_given_run e g me guess a ma ga p h
  refine ⟨_, ht hf, (C15_solver_trace _ _ _ _ hsv).2.1, fun r hr => ?_⟩
  obtain ⟨xs, hxs⟩ := C15_solver_history _ _ _ _ hsv
  rw [show (Trace.of s).norm_seq = s.norm_seq from rfl, hxs.norms] at hr
  obtain ⟨k, -, rfl⟩ := List.mem_map.1 hr
  by_cases hpos : d.out_strength i = 0
  · rw [hpos]; exact Real.sqrt_nonneg _
  rw [← dsparse_given_fn e he me hme a i j hi ha hpos (xs k)]
  exact (le_abs_self _).trans (abs_le_norm2 _ (0, i))

end

end Verif.Solve

namespace Verif.Sampler

open Verif Verif.Solve

variable {n : ℕ} [NeZero n] (R : Rng)

/-- C80 fails silently (directed): after `crema-sparse` on a matrix given by the user the sampler returns at once and has written nothing, whatever number of copies was asked for. -/
theorem C80_sparse_given_nothing_directed (e : Solve.Env) {d : DData n} (g : DAttr d) (method : String) (guess : DGuess n) (a : Fin n → Fin n → ℝ) (ma : String) (ga : DGuess n)
    (p : Params) :
    let S := solve_tool_directed e g "crema-sparse" method guess (.matrix a) ma ga p
    S.exc = none → ∀ (N : ℕ) (dir : String) (seed : Option ℕ) (entropy : R.S) (fmt : ℝ → String) (envs : ℕ → Env R) (states : ℕ → R.S),
      samplerD R S.g N dir seed entropy fmt envs states = .ok [] := by
  intro S h N dir seed entropy fmt envs states
  obtain ⟨bo, bi, ho, hi, hl, hg, ha⟩ := dcrema_matrix_attrs e g "crema-sparse" method (.inr rfl) guess a ma ga p h
  have hl' : S.g.last_model = some "crema-sparse" := hl
  have hg' : S.g.adjacency_given = some true := hg
  simp [samplerD, viewD, hl', hg', ensemble_sampler_directed]

end Verif.Sampler
