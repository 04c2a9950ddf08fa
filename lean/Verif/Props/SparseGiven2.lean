import Verif.Props.SparseGiven

/-!
`crema-sparse` on a matrix given by the user (C36), continued: the problem that is solved when there are as many links as nodes.
-/

namespace Verif.Solve

open Verif Verif.Solver Spec

variable {n : ℕ}

/-- `q` enumerates the set `S` of pairs of nodes row after row, and within a row column after column -/
def Enumerates (q : Fin n → Fin n × Fin n) (S : Set (Fin n × Fin n)) : Prop := StrictMono (fun i => toLex (q i)) ∧ Set.range q = S

theorem pairs_lex (n : ℕ) : (pairs n).Pairwise fun q q' => toLex q < toLex q' := by
  unfold pairs
  rw [List.pairwise_flatMap]
  refine ⟨fun i _ => ?_, (List.pairwise_lt_finRange n).imp fun {i i'} h => ?_⟩
  · rw [List.pairwise_map]
    refine (List.pairwise_lt_finRange n).imp fun {j j'} h => ?_
    exact Prod.Lex.toLex_lt_toLex.2 (.inr ⟨rfl, h⟩)
  · intro q hq q' hq'
    obtain ⟨j, -, rfl⟩ := List.mem_map.1 hq
    obtain ⟨j', -, rfl⟩ := List.mem_map.1 hq'
    exact Prod.Lex.toLex_lt_toLex.2 (.inl h)

theorem filter_enum {q : Fin n → Fin n × Fin n} {P : Fin n × Fin n → Prop} [DecidablePred P] (h : Enumerates q {z | P z}) :
    (pairs n).filter (fun z => decide (P z)) = List.ofFn q := by
  have h1 : ((pairs n).filter fun z => decide (P z)).Pairwise fun q q' => toLex q < toLex q' := (pairs_lex n).filter _
  have h2 : (List.ofFn q).Pairwise fun q q' => toLex q < toLex q' := by
    rw [List.pairwise_ofFn]
    exact fun i j hij => h.1 hij
  have hnd : (List.ofFn q).Nodup := h2.imp fun {a b} hab hne => by rw [hne] at hab; exact lt_irrefl _ hab
  refine List.Perm.eq_of_pairwise (fun a b _ _ hab hba => absurd hab (not_lt.2 hba.le)) h1 h2 ?_
  refine (List.perm_ext_iff_of_nodup ((pairs_all n).1.filter _) hnd).2 fun z => ?_
  rw [List.mem_filter, List.mem_ofFn', h.2]
  simp [(pairs_all n).2 z]

theorem triu_enum {a : Fin n → Fin n → ℝ} {q : Fin n → Fin n × Fin n} (h : Enumerates q {z | z.1 ≤ z.2 ∧ a z.1 z.2 ≠ 0}) (i : Fin n) :
    (triuEdges a).length = n ∧ (triuEdges a)[i.val]? = some ((q i).1, (q i).2, a (q i).1 (q i).2) := by
  unfold triuEdges
  rw [filter_enum h]
  simp

theorem nz_enum {a : Fin n → Fin n → ℝ} {q : Fin n → Fin n × Fin n} (h : Enumerates q {z | a z.1 z.2 ≠ 0}) (i : Fin n) :
    (nzEdges a).length = n ∧ (nzEdges a)[i.val]? = some ((q i).1, (q i).2, a (q i).1 (q i).2) := by
  unfold nzEdges
  rw [filter_enum h]
  simp

section
variable [NeZero n] {d : UData n}

/-- C36 (crema-sparse on a given matrix with as many links as nodes): the problem is that of the fitnesses "number of the first node of the `i`-th link", not that of the matrix; only
the Hessian of "newton" is the one of the matrix. -/
theorem C36_sparse_given_problem (e : Env) (he : e.Valid) (g : UAttr d) (me : Method) (guess : Guess n) (a : Fin n → Fin n → ℝ) (hs : ∀ i j, a i j = a j i) (hd : ∀ i, a i i = 0)
    {q : Fin n → Fin n × Fin n} (hq : Enumerates q {z | z.1 ≤ z.2 ∧ a z.1 z.2 ≠ 0}) (ma : String) (ga : Guess n) (p : Params)
    {b : Fin n → ℝ} {guess' : Guess n} (h0 : guessCrema e d guess = (.ok b, guess')) :
    let x : Fin n → ℝ := fun i => ((q i).1.val : ℝ)
    ∃ C : Callbacks (Fin n),
      (me ≠ .fixed_point → MinusGradient (AdmRate (linkMatrix x)) (logCReMa (linkMatrix x) d.strength_sequence) C.fn) ∧
      (me = .newton → ∃ f, MinusGradient (AdmRate a) (logCReMa a d.strength_sequence) f ∧ IsJacobian (AdmRate a) f C.jac) ∧
      (me = .quasinewton → IsJacobianDiag (AdmRate (linkMatrix x)) C.fn C.jacDiag) ∧
      (me = .fixed_point → (∀ i, 0 < d.strength_sequence i) →
        FixedAreStationary (fun β => ∀ i, 0 < β i) (logCReMa (linkMatrix x) fun i => d.strength_sequence i + Real.exp (-100)) C.fn) ∧
      (∃ F, (∀ β, (∀ i j, i ≠ j → 0 < β i + β j) → F β = some (logCReMa (linkMatrix x) d.strength_sequence β)) ∧
        ∀ x dx b a f, C.linsearch x dx b a f = some (linsearch_fun_crema_undirected x dx b a f F)) ∧
      (∀ x dx dx' a b st, C.linsearchFixed x dx dx' a b st = some (linsearch_fun_crema_undirected_fixed dx dx' a b st)) ∧
      C.hessian_regulariser = matrix_regulariser_function ∧
      let R := solve_tool e g "crema-sparse" me.name guess (.matrix a) ma ga p
      match solver C (p.opts me.name) b with
      | .error err => R.exc = some (.numeric err) ∧ R.g.solution_array = g.solution_array ∧ R.g.beta = some b ∧ R.g.x = g.x
      | .ok s => R.g.solution_array = some (.nodes s.x) ∧ R.g.beta = some s.x ∧ R.g.x = g.x ∧ R.g.last_model = some "crema-sparse" ∧
        model_loglikelihood e R.g = .ok (-logCReMa (linkMatrix x) d.strength_sequence s.x) := by
  intro x
  have hlen := (triu_enum hq 0).1
  have hx0 : ∀ i, 0 ≤ x i := fun i => Nat.cast_nonneg _
  have hx : (CremaAdj.edges (triuEdges a)).asFitness e = x := by
    funext i
    simp [CremaAdj.asFitness, (triu_enum hq i).2, x]
  have hC : cbCremaSparseOn e d (triuEdges a) me = { cbCremaSparse e d x me with jac := (cbCrema e d (triuEdges a) .newton).jac } := by
    unfold cbCremaSparseOn
    rw [hx]
    rfl
  have hll : ∀ v, CReMa.loglikelihood_crema_undirected_sparse v d.strength_sequence x = logCReMa (linkMatrix x) d.strength_sequence v := fun v => by
    rw [CReMa.C33_crema_likelihood v _ x hx0, pmatrix_spec, ll_crema_spec _ (linkMatrix_symm x) (linkMatrix_diag x)]
  refine ⟨{ cbCremaSparse e d x me with jac := (cbCrema e d (triuEdges a) .newton).jac }, fun h => cbSparse_gradient e he d x hx0 h,
    fun _ => ⟨_, cbCrema_gradient e d hs hd (me := .newton) (by decide), cbCrema_jac e d hs hd⟩, fun h => h ▸ cbSparse_jacDiag e he d x hx0,
    fun h => h ▸ cbSparse_fixed e he d x hx0, ⟨_, fun v ha => ?_, fun _ _ _ _ _ => rfl⟩, fun _ _ _ _ _ _ => rfl, rfl, ?_⟩
  · simp only [llF]
    rw [if_pos ha, hll]
  rw [← hC]
  simp only
  have hR := solve_tool_crema_finish e g "crema-sparse" me.name (.inr rfl) guess (.matrix a) ma ga p
  have hl : uLookup "crema-sparse" me.name = some (.crema_sparse, me) := uLookup_name .crema_sparse me
  rw [hR]
  unfold solveProblemCrema solveCremaTail finish
  simp only [Bool.false_eq_true, if_false, hl, h0, hlen, if_true]
  cases hsv : solver (cbCremaSparseOn e d (triuEdges a) me) (p.opts me.name) b with
  | error y => exact ⟨rfl, rfl, rfl, rfl⟩
  | ok s =>
    have k := fun g' : UAttr d => solutionError_keeps e g'
    refine ⟨(k _).2.2.2.1, (k _).2.2.1, (k _).1, (k _).2.2.2.2.2.2.1, ?_⟩
    unfold model_loglikelihood
    rw [(k _).2.2.2.1, (k _).2.2.2.2.2.2.2.1, (k _).2.2.2.2.2.2.2.2.1]
    simp only [setSolvedCrema, hx, hll]

end

section
variable [NeZero n] {d : DData n}

/-- C36 (directed crema-sparse on a given matrix with as many arcs as nodes, newton and quasinewton): the strengths are to be reproduced by the fitnesses "number of the first node of the
`i`-th arc" and "number of its second node", not by the matrix; only the Hessian of "newton" is the one of the matrix. -/
theorem C36_dsparse_given_problem (e : Env) (he : e.Valid) (g : DAttr d) (hz : d.nz_known = true) (me : Method) (hme : me ≠ .fixed_point) (guess : DGuess n) (a : Fin n → Fin n → ℝ)
    {q : Fin n → Fin n × Fin n} (hq : Enumerates q {z | a z.1 z.2 ≠ 0}) (ma : String) (ga : DGuess n) (p : Params)
    {bo bi : Fin n → ℝ} {guess' : DGuess n} (h0 : guessDCrema e d guess = (.ok (bo, bi), guess')) :
    let x : Fin n → ℝ := fun i => ((q i).1.val : ℝ)
    let y : Fin n → ℝ := fun i => ((q i).2.val : ℝ)
    ∃ C : Callbacks (Fin 2 × Fin n),
      (∀ r i, C.fn r (0, i) = if d.out_strength i = 0 then 0 else d.out_strength i - ∑ j, linkMatrixD x y i j / (r (0, i) + r (1, j))) ∧
      (∀ r i, C.fn r (1, i) = if d.in_strength i = 0 then 0 else d.in_strength i - ∑ j, linkMatrixD x y j i / (r (0, j) + r (1, i))) ∧
      (me = .newton → ∃ f, MinusGradient (AdmRateD a) (LDCrema d a) f ∧ IsJacobian (AdmRateD a) f C.jac) ∧
      C.hessian_regulariser = matrix_regulariser_function ∧
      let R := solve_tool_directed e g "crema-sparse" me.name guess (.matrix a) ma ga p
      match solver C (p.opts me.name) (cat2 bo bi) with
      | .error err => R.exc = some (.numeric err) ∧ R.g.solution_array = g.solution_array ∧ R.g.b_out = some bo ∧ R.g.b_in = some bi ∧ R.g.x = g.x ∧ R.g.y = g.y
      | .ok s => R.g.b_out = some (fun i => s.x (0, i)) ∧ R.g.b_in = some (fun i => s.x (1, i)) ∧ R.g.x = g.x ∧ R.g.y = g.y ∧
        R.g.last_model = some "crema-sparse" ∧ (p.full_return = false → (∀ i, d.out_strength i ≠ 0 ∧ d.in_strength i ≠ 0) →
          model_loglikelihood_directed R.g = .ok (-LDCrema d (linkMatrixD x y) s.x)) := by
  intro x y
  have hlen := (nz_enum hq 0).1
  have hx : rowsOf (nzEdges a) = x := by
    funext i
    simp [rowsOf, (nz_enum hq i).2, x]
  have hy : colsOf (nzEdges a) = y := by
    funext i
    simp [colsOf, (nz_enum hq i).2, y]
  have hvo : (e.visit d.out_strength).Perm (DCM.nonzero d.out_strength) := (he.sched n).filter _
  have hvi : (e.visit d.in_strength).Perm (DCM.nonzero d.in_strength) := (he.sched n).filter _
  have hfn : ∀ r v, (cbDCremaSparseOn e d (nzEdges a) me).fn r v = -DCReMa.loglikelihood_prime_crema_directed_sparse (e.visit d.out_strength) (e.visit d.in_strength) r
      d.out_strength d.in_strength x y v := by
    intro r v
    rw [← hx, ← hy]
    cases me <;> first | rfl | exact absurd rfl hme
  refine ⟨cbDCremaSparseOn e d (nzEdges a) me, fun r i => ?_, fun r i => ?_,
    fun _ => ⟨_, cbDCrema_gradient e d a (me := .newton) (by decide), cbDCrema_jac e d a⟩, rfl, ?_⟩
  · rw [hfn, DCReMa.prime_sparse_eq0 _ _ (hvo.nodup_iff.2 (DCM.nodup_nonzero _))]
    simp only [hvo.mem_iff, DCM.mem_nonzero]
    by_cases h : d.out_strength i = 0
    · simp [h]
    · rw [if_pos h, if_neg h, neg_add, neg_neg, sub_eq_add_neg]
      congr 2
      refine Finset.sum_congr rfl fun j _ => ?_
      by_cases hj : j = i
      · simp [hj, linkMatrixD]
      · simp [hj, Ne.symm hj, linkMatrixD, linkDBCM, DCReMa.pr]
  · rw [hfn, DCReMa.prime_sparse_eq1 _ _ (hvi.nodup_iff.2 (DCM.nodup_nonzero _))]
    simp only [hvi.mem_iff, DCM.mem_nonzero]
    by_cases h : d.in_strength i = 0
    · simp [h]
    · rw [if_pos h, if_neg h, neg_add, neg_neg, sub_eq_add_neg]
      congr 2
      refine Finset.sum_congr rfl fun j _ => ?_
      by_cases hj : j = i
      · simp [hj, linkMatrixD]
      · simp [hj, linkMatrixD, linkDBCM, DCReMa.pr]
  simp only
  have hR := solve_tool_crema_finishD e g "crema-sparse" me.name (.inr rfl) guess (.matrix a) ma ga p
  have hl : dLookup "crema-sparse" me.name = some (.crema_sparse, me) := dLookup_name .crema_sparse me
  rw [hR]
  unfold solveProblemDCrema solveDCremaTail finishD
  simp only [Bool.false_eq_true, if_false, hl, h0, hlen, if_true, hz, true_or, and_self]
  cases hsv : solver (cbDCremaSparseOn e d (nzEdges a) me) (p.opts me.name) (cat2 bo bi) with
  | error y => exact ⟨rfl, rfl, rfl, rfl, rfl, rfl⟩
  | ok s =>
    refine ⟨keepsD DAttr.b_out (fun _ => rfl) _, keepsD DAttr.b_in (fun _ => rfl) _, keepsD DAttr.x (fun _ => rfl) _, keepsD DAttr.y (fun _ => rfl) _,
      keepsD DAttr.last_model (fun _ => rfl) _, fun hf hpos => ?_⟩
    unfold model_loglikelihood_directed
    rw [keepsD DAttr.step_fun (fun _ => rfl), keepsD DAttr.args (fun _ => rfl), keepsD DAttr.solution_array (fun _ => rfl)]
    simp only [setSolvedDCrema, hf, Bool.false_eq_true, if_false, hz, hlen, le_refl, and_self, if_true, hx, hy]
    have hno : (DCM.nonzero d.out_strength).toFinset = Finset.univ := by
      ext i; simp [DCM.mem_nonzero, (hpos i).1]
    have hni : (DCM.nonzero d.in_strength).toFinset = Finset.univ := by
      ext i; simp [DCM.mem_nonzero, (hpos i).2]
    rw [DCReMa.ll_sparse_eq _ _ _ _ _ _ _ (DCM.nodup_nonzero _) (DCM.nodup_nonzero _) (fun i => Nat.cast_nonneg _) (fun i => Nat.cast_nonneg _), hno, hni]
    unfold LDCrema logDCReMa
    congr 3
    · rw [← Finset.sum_neg_distrib, ← Finset.sum_add_distrib]
      exact Finset.sum_congr rfl fun i _ => by ring
    · refine Finset.sum_congr rfl fun i _ => Finset.sum_congr rfl fun j _ => ?_
      by_cases hj : i = j
      · simp [hj, linkMatrixD]
      · rw [if_neg hj]
        simp [hj, linkMatrixD, linkDBCM, DCReMa.pr, x, y]

end

end Verif.Solve
