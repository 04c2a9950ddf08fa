import Verif.Props.SolveD5

/-!
Directed `crema-sparse` (C36): the same problem as the dense implementation; the error of the diagonal Hessian; "newton" and the clash of names.
-/

open Finset

namespace Verif.Solve

open Verif Verif.Solver Verif.DCReMa Verif.Spec

variable {n : ℕ} [NeZero n] {d : DData n}

section

variable (e : Env) (d : DData n)

omit [NeZero n] in
theorem P_full (x y : Fin n → ℝ) : DCReMa.P (fun _ => 1) (fun _ => 1) x y = linkMatrixD x y := by
  funext i j
  unfold DCReMa.P
  rw [DCM.pmatrix_eq, linkMatrixD, linkDBCM]
  simp only [DCM.mem_nonzero]
  by_cases hij : i = j
  · simp [hij]
  · simp [hij, DCReMa.cat]

/-- the binary fitnesses are those of the strengths: not negative, and zero exactly where the strength is zero -/
structure DData.Fits (d : DData n) (x y : Fin n → ℝ) : Prop where
  x_nonneg : ∀ i, 0 ≤ x i
  y_nonneg : ∀ i, 0 ≤ y i
  out_zero : ∀ i, d.out_strength i = 0 ↔ x i = 0
  in_zero : ∀ i, d.in_strength i = 0 ↔ y i = 0

omit [NeZero n] in
theorem DData.Fits.consistent {d : DData n} {x y : Fin n → ℝ} (h : d.Fits x y) :
    Consistent (fun _ => 1) (fun _ => 1) d.out_strength d.in_strength x y :=
  ⟨h.x_nonneg, h.y_nonneg, fun _ h => by norm_num at h, fun _ h => by norm_num at h, h.out_zero, h.in_zero⟩

omit [NeZero n] in
theorem visit_perm (he : e.Valid) (a : Fin n → ℝ) : (e.visit a).Perm (DCM.nonzero a) := by
  unfold Env.visit DCM.nonzero
  exact (he.sched n).filter _

omit [NeZero n] in
theorem cbDSparse_fn (he : e.Valid) {x y : Fin n → ℝ} (h : d.Fits x y) {me : Method} (hme : me ≠ .fixed_point) :
    (cbDCremaSparse e d x y me).fn = (cbDCrema e d (nzEdges (linkMatrixD x y)) me).fn := by
  funext b v
  have := (C33_dcrema_gradient b _ _ d.out_strength d.in_strength x y h.consistent (e.visit d.out_strength) (e.visit d.in_strength)
    (visit_perm e he _) (visit_perm e he _) v).1
  rw [P_full] at this
  cases me <;> simp_all [cbDCremaSparse, cbDCrema]

/-- the diagonal Hessian is the derivative up to exp(-100) -/
theorem cbDSparse_jacDiag (he : e.Valid) {x y : Fin n → ℝ} (h : d.Fits x y) (r : Fin 2 × Fin n → ℝ) (hr : ∀ i j, i ≠ j → 0 < r (0, i) + r (1, j))
    (i : Fin n) :
    (∃ D, HasDerivAt (fun t => (cbDCremaSparse e d x y .quasinewton).fn (Function.update r (0, i) t) (0, i)) D (r (0, i)) ∧
      |(cbDCremaSparse e d x y .quasinewton).jacDiag r (0, i) - D| ≤ Real.exp (-100) * ∑ j, linkMatrixD x y i j / (r (0, i) + r (1, j)) ^ 4) ∧
    ∃ D, HasDerivAt (fun t => (cbDCremaSparse e d x y .quasinewton).fn (Function.update r (1, i) t) (1, i)) D (r (1, i)) ∧
      |(cbDCremaSparse e d x y .quasinewton).jacDiag r (1, i) - D| ≤ Real.exp (-100) * ∑ j, linkMatrixD x y j i / (r (0, j) + r (1, i)) ^ 4 := by
  have ha : AdmRateD (linkMatrixD x y) r := fun i j hij => hr i j fun h => hij (by simp [linkMatrixD, h])
  have hJ := cbDCrema_jacDiag e d (linkMatrixD x y) r ha
  rw [← cbDSparse_fn e d he h (me := .quasinewton) (by simp)] at hJ
  obtain ⟨-, -, h0, h1⟩ := C33_dcrema_hessian_diag r _ _ d.out_strength d.in_strength x y h.consistent (e.sched n) (he.sched n) hr i
  rw [P_full] at h0 h1
  have s0 : ∀ i j, linkMatrixD x y i j = if i = j then 0 else DCReMa.pr x y i j := fun i j => rfl
  refine ⟨⟨_, hJ (0, i), ?_⟩, ⟨_, hJ (1, i), ?_⟩⟩
  · simp only [cbDCremaSparse, cbDCrema, s0]
    rw [← neg_sub', neg_sub, abs_sub_comm]
    refine (h0.trans_eq ?_) |> fun h => by simpa [abs_sub_comm] using h
    congr 1
    refine sum_congr rfl fun j _ => ?_
    by_cases hj : j = i <;> simp [hj, Ne.symm]
  · simp only [cbDCremaSparse, cbDCrema, s0]
    rw [← neg_sub', neg_sub, abs_sub_comm]
    refine (h1.trans_eq ?_) |> fun h => by simpa [abs_sub_comm] using h
    congr 1
    refine sum_congr rfl fun j _ => ?_
    by_cases hj : j = i <;> simp [hj]

end

/-- C36 (directed crema-sparse, quasinewton, `adjacency="dcm"` or "dcm_exp"): once the DBCM is solved (`t`), the rates are computed on the same log-likelihood as
in the dense implementation, with a diagonal Hessian that is right up to exp(-100).  The fitnesses must be zero exactly where the strengths are.  (The map of the
method "fixed-point" is wrong, `C33_dcrema_iterative_parallel_wrong`.) -/
theorem C36_dcrema_sparse (e : Env) (he : e.Valid) (g : DAttr d) (hz : d.nz_known = true) (guess : DGuess n) (mo : DModel)
    (hmo : mo = .dcm ∨ mo = .dcm_exp) (ma : Method) (ga : DGuess n) (p : Params) {x0 : Fin 2 × Fin d.r → ℝ}
    (hx0 : guessDCM e.inner d (mo = .dcm_exp) ga = .ok x0) {bo bi : Fin n → ℝ} {guess' : DGuess n} (h0 : guessDCrema e d guess = (.ok (bo, bi), guess')) :
    ∃ C₀ : Callbacks (Fin 2 × Fin d.r),
      (ma ≠ .fixed_point → mo = .dcm → MinusGradient (AdmDCM d) (LDCM d) C₀.fn) ∧
      (ma ≠ .fixed_point → mo = .dcm_exp → MinusGradient (fun _ => True) (fun θ => LDCM d fun v => Real.exp (-θ v)) C₀.fn) ∧
      ∀ t, solver C₀ ({ p with linsearch := true }.opts ma.name) x0 = .ok t →
      let w : Fin 2 × Fin d.r → ℝ := if mo = .dcm_exp then fun v => Real.exp (-t.x v) else t.x
      let x : Fin n → ℝ := fun i => w (0, d.inv i)
      let y : Fin n → ℝ := fun i => w (1, d.inv i)
      d.Fits x y →
      let a := linkMatrixD x y
      ∃ C : Callbacks (Fin 2 × Fin n),
      MinusGradient (AdmRateD a) (LDCrema d a) C.fn ∧
      (∀ r : Fin 2 × Fin n → ℝ, (∀ i j, i ≠ j → 0 < r (0, i) + r (1, j)) → ∀ i,
        (∃ D, HasDerivAt (fun t => C.fn (Function.update r (0, i) t) (0, i)) D (r (0, i)) ∧
          |C.jacDiag r (0, i) - D| ≤ Real.exp (-100) * ∑ j, a i j / (r (0, i) + r (1, j)) ^ 4) ∧
        ∃ D, HasDerivAt (fun t => C.fn (Function.update r (1, i) t) (1, i)) D (r (1, i)) ∧
          |C.jacDiag r (1, i) - D| ≤ Real.exp (-100) * ∑ j, a j i / (r (0, j) + r (1, i)) ^ 4) ∧
      (∃ F, (∀ b : Fin 2 × Fin n → ℝ, (∀ i j, i ≠ j → 0 < b (0, i) + b (1, j)) → F b = some (LDCrema d a b)) ∧
        ∀ x dx b a f, C.linsearch x dx b a f = some (linsearch_fun_crema_directed x dx b a f F)) ∧
      (∀ x dx dx' a b st, C.linsearchFixed x dx dx' a b st = some (linsearch_fun_crema_directed_fixed dx dx' a b st)) ∧
      C.hessian_regulariser = matrix_regulariser_function ∧
      let R := solve_tool_directed e g "crema-sparse" "quasinewton" guess (.name mo.name) ma.name ga p
      match solver C (p.opts "quasinewton") (cat2 bo bi) with
      | .error err => R.exc = some (.numeric err) ∧ R.g.solution_array = some (.reduced w) ∧ R.g.b_out = some bo ∧ R.g.b_in = some bi ∧ R.g.x = some x ∧ R.g.y = some y
      | .ok s => R.g.b_out = some (fun i => s.x (0, i)) ∧ R.g.b_in = some (fun i => s.x (1, i)) ∧ R.g.x = some x ∧ R.g.y = some y ∧
        R.g.last_model = some "crema-sparse" ∧ (p.full_return = false → R.g.solution_array = some (.pairs s.x)) := by
  refine ⟨if mo = .dcm_exp then cbDCMexp e.inner d ma else cbDCM e.inner d ma, fun hm h => ?_, fun hm h => ?_, fun t ht => ?_⟩
  · subst h; simp only [reduceCtorEq, if_false]; exact cbDCM_gradient _ d hm
  · subst h; simp only [if_true]; exact cbDCMexp_gradient _ d hm
  intro w x y hfit a
  have hrun := binary_run e.inner { g with is_sparse := true } mo hmo ma ga { p with linsearch := true } hx0 ht
  have hx : (setSolvedDCM (preDCM { g with is_sparse := true } mo { p with linsearch := true }) (mo = .dcm_exp) t).x = some x := by
    simp only [setSolvedDCM, x, w]; split <;> simp_all
  have hy : (setSolvedDCM (preDCM { g with is_sparse := true } mo { p with linsearch := true }) (mo = .dcm_exp) t).y = some y := by
    simp only [setSolvedDCM, y, w]; split <;> simp_all
  refine ⟨cbDCremaSparse e d x y .quasinewton, ?_, fun r hr i => cbDSparse_jacDiag e d he hfit r hr i, ⟨_, fun v ha => ?_, fun _ _ _ _ _ => rfl⟩,
    fun _ _ _ _ _ _ => rfl, rfl, ?_⟩
  · rw [cbDSparse_fn e d he hfit (by simp)]; exact cbDCrema_gradient e d a (by simp)
  · simp only [llF]
    rw [if_pos ha, C33_dcrema_likelihood v _ _ d.out_strength d.in_strength x y hfit.consistent, P_full, ll_dcrema_spec]
  simp only
  have hS := solve_tool_dcrema_sparse_named e g .quasinewton (by simp) (.inl hz) guess mo.name ma.name ga ga p hrun hx hy rfl h0
  rw [show Method.quasinewton.name = "quasinewton" from rfl] at hS
  rw [hS]
  cases h : solver (cbDCremaSparse e d x y .quasinewton) (p.opts "quasinewton") (cat2 bo bi) with
  | error err =>
    refine ⟨rfl, ?_, rfl, rfl, hx, hy⟩
    simp only [preDCrema, withAdj, setSolvedDCM, w]
    split <;> simp_all
  | ok s =>
    exact ⟨keepsD DAttr.b_out (fun _ => rfl) _, keepsD DAttr.b_in (fun _ => rfl) _, (keepsD DAttr.x (fun _ => rfl) _).trans hx,
      (keepsD DAttr.y (fun _ => rfl) _).trans hy, keepsD DAttr.last_model (fun _ => rfl) _,
      fun hf => (keepsD DAttr.solution_array (fun _ => rfl) _).trans (by simp [setSolvedDCrema, preDCrema, hf])⟩

omit [NeZero n] in
theorem str_dsparse_spec (x y : Fin n → ℝ) (hx : ∀ i, 0 ≤ x i) (hy : ∀ i, 0 ≤ y i) (bo bi : Fin n → ℝ) (i : Fin n) :
    expected_out_strength_crema_directed_sparse (cat2 bo bi) x y i = outStrCReMa (linkMatrixD x y) bo bi i ∧
    expected_in_stregth_crema_directed_sparse (cat2 bo bi) x y i = inStrCReMa (linkMatrixD x y) bo bi i := by
  rw [out_sparse_eq _ x y hx hy, in_sparse_eq _ x y hx hy, outStrCReMa, inStrCReMa]
  constructor <;> refine sum_congr rfl fun j _ => ?_
  · by_cases h : j = i
    · simp [linkMatrixD, h]
    · simp [linkMatrixD, h, Ne.symm h, DCReMa.pr, linkDBCM, cat2]
  · by_cases h : j = i
    · simp [linkMatrixD, h]
    · simp [linkMatrixD, h, DCReMa.pr, linkDBCM, cat2]

theorem isMaxAbs_strengths_sparse (d : DData n) (x y : Fin n → ℝ) (hx : ∀ i, 0 ≤ x i) (hy : ∀ i, 0 ≤ y i) (bo bi : Fin n → ℝ) :
    IsMaxAbs (maxAbs fun v => cat2 (expected_out_strength_crema_directed_sparse (cat2 bo bi) x y)
      (expected_in_stregth_crema_directed_sparse (cat2 bo bi) x y) v - cat2 d.out_strength d.in_strength v)
      (Sum.elim (fun i => outStrCReMa (linkMatrixD x y) bo bi i - d.out_strength i) fun i => inStrCReMa (linkMatrixD x y) bo bi i - d.in_strength i) := by
  refine isMaxAbs_cat2 (fun i => ?_) (fun i => ?_) (maxAbs_isMax _)
  · rw [← (str_dsparse_spec x y hx hy bo bi i).1]; rfl
  · rw [← (str_dsparse_spec x y hx hy bo bi i).2]; rfl

/-- the error report of the sparse CReMa -/
theorem error_dcrema_sparse (G : DAttr d) (hn : G.last_model = some "crema-sparse") (hsp : G.is_sparse = true) {x y : Fin n → ℝ}
    (ha : G.adjacency_crema = some (.fitness x y)) {bo bi : Fin n → ℝ} (hbo : G.b_out = some bo) (hbi : G.b_in = some bi)
    (hg : G.adjacency_given = some false) (hx : G.x = some x) (hy : G.y = some y) (hx0 : ∀ i, 0 ≤ x i) (hy0 : ∀ i, 0 ≤ y i) :
    (solutionErrorD G).2 = none ∧ ∃ E, (solutionErrorD G).1.error = some E ∧
      IsMaxAbs E (Sum.elim (Sum.elim (fun i => outDBCM x y i - d.dseq_out i) fun i => inDBCM x y i - d.dseq_in i)
        (Sum.elim (fun i => outStrCReMa (linkMatrixD x y) bo bi i - d.out_strength i) fun i => inStrCReMa (linkMatrixD x y) bo bi i - d.in_strength i)) := by
  have hst := isMaxAbs_strengths_sparse d x y hx0 hy0 bo bi
  have k : ∀ {α : Type} (f : DAttr d → α), (∀ g, f g.sol = f g) → f (degreeErrorD G) = f G := fun f hf => by rw [← hf, degreeErrorD_sol, hf]
  unfold solutionErrorD
  rw [if_pos (by tauto)]
  unfold strengthErrorD
  simp only [k DAttr.b_out (fun _ => rfl), hbo, k DAttr.b_in (fun _ => rfl), hbi, k DAttr.adjacency_crema (fun _ => rfl), ha,
    k DAttr.is_sparse (fun _ => rfl), hsp, k DAttr.adjacency_given (fun _ => rfl), hg]
  simp only [degreeErrorD, hx, hy]
  exact ⟨trivial, _, rfl, isMaxAbs_sum (isMaxAbs_degrees d x y) hst⟩

/-- what a call of the sparse CReMa that raises no exception has computed -/
theorem solve_tool_ok_dsparse (e : Env) (g : DAttr d) (me : Method) (hme : me ≠ .newton) (hz : d.nz_known = true ∨ me = .fixed_point) (mo : DModel)
    (hmo : mo = .dcm ∨ mo = .dcm_exp) (ma : String) (guess ga : DGuess n) (p : Params) :
    let R := solve_tool_directed e g "crema-sparse" me.name guess (.name mo.name) ma ga p
    R.exc = none → ∃ x y bo bi s G, solver (cbDCremaSparse e d x y me) (p.opts me.name) (cat2 bo bi) = .ok s ∧ R.g = (solutionErrorD G).1 ∧
      G.last_model = some "crema-sparse" ∧ G.is_sparse = true ∧ G.adjacency_crema = some (.fitness x y) ∧
      G.b_out = some (fun i => s.x (0, i)) ∧ G.b_in = some (fun i => s.x (1, i)) ∧ G.adjacency_given = some false ∧ G.x = some x ∧ G.y = some y ∧
      (p.full_return = true → G.trace_crema = some (.of s)) := by
  intro R h
  obtain ⟨ma, x0, t, bo, bi, guess', rfl, hx0, ht, h0⟩ := solve_tool_dcrema_inner e g "crema-sparse" me.name (.inr rfl) guess mo hmo ma ga p h
  have hrun := binary_run e.inner { g with is_sparse := true } mo hmo ma ga { p with linsearch := true } hx0 ht
  have he := solve_tool_dcrema_sparse_named e g me hme hz guess mo.name ma.name ga ga p hrun rfl rfl rfl h0
  set x : Fin n → ℝ := if decide (mo = .dcm_exp) = true then fun i => Real.exp (-t.x (0, d.inv i)) else fun i => t.x (0, d.inv i) with hx
  set y : Fin n → ℝ := if decide (mo = .dcm_exp) = true then fun i => Real.exp (-t.x (1, d.inv i)) else fun i => t.x (1, d.inv i) with hy
  simp only at he
  rw [show R = _ from he]
  rw [show R = _ from he] at h
  cases hsv : solver (cbDCremaSparse e d x y me) (p.opts me.name) (cat2 bo bi) with
  | error z => rw [hsv] at h; simp at h
  | ok s => exact ⟨x, y, bo, bi, s, _, hsv, rfl, rfl, rfl, rfl, rfl, rfl, rfl, rfl, rfl, fun hf => by simp [setSolvedDCrema, preDCrema, hf]⟩

/-- C37 (directed crema-sparse): the reported error is the largest violation among all degrees and strengths, on the link probabilities of the fitnesses. -/
theorem C37_dcrema_sparse (e : Env) (g : DAttr d) (me : Method) (hme : me ≠ .newton) (hz : d.nz_known = true ∨ me = .fixed_point) (mo : DModel)
    (hmo : mo = .dcm ∨ mo = .dcm_exp) (ma : String) (guess ga : DGuess n) (p : Params) :
    let R := solve_tool_directed e g "crema-sparse" me.name guess (.name mo.name) ma ga p
    R.exc = none → ∃ x y bo bi, R.g.x = some x ∧ R.g.y = some y ∧ R.g.b_out = some bo ∧ R.g.b_in = some bi ∧ ((∀ i, 0 ≤ x i ∧ 0 ≤ y i) →
      ∃ E, R.g.error = some E ∧
      IsMaxAbs E (Sum.elim (Sum.elim (fun i => outDBCM x y i - d.dseq_out i) fun i => inDBCM x y i - d.dseq_in i)
        (Sum.elim (fun i => outStrCReMa (linkMatrixD x y) bo bi i - d.out_strength i) fun i => inStrCReMa (linkMatrixD x y) bo bi i - d.in_strength i))) := by
  intro R h
  obtain ⟨x, y, bo, bi, s, G, -, hG, h1, h2, h3, h4, h5, h6, h7, h8, -⟩ := solve_tool_ok_dsparse e g me hme hz mo hmo ma guess ga p h
  rw [show R.g = _ from hG]
  refine ⟨x, y, _, _, (keepsD DAttr.x (fun _ => rfl) _).trans h7, (keepsD DAttr.y (fun _ => rfl) _).trans h8, (keepsD DAttr.b_out (fun _ => rfl) _).trans h4,
    (keepsD DAttr.b_in (fun _ => rfl) _).trans h5, fun h0 => ?_⟩
  exact (error_dcrema_sparse G h1 h2 h3 h4 h5 h6 h7 h8 (fun i => (h0 i).1) fun i => (h0 i).2).2

/-- C13 (directed crema-sparse, quasinewton): if the run for the rates stopped on its tolerance, the strengths are reproduced within `tol`. -/
theorem C13_dcrema_sparse (e : Env) (he : e.Valid) (g : DAttr d) (hz : d.nz_known = true) (mo : DModel)
    (hmo : mo = .dcm ∨ mo = .dcm_exp) (ma : String) (guess ga : DGuess n) (p : Params) (hf : p.full_return = true) :
    let R := solve_tool_directed e g "crema-sparse" "quasinewton" guess (.name mo.name) ma ga p
    R.exc = none → ∃ t x y bo bi, R.g.trace_crema = some t ∧ R.g.x = some x ∧ R.g.y = some y ∧ R.g.b_out = some bo ∧ R.g.b_in = some bi ∧
      (d.Fits x y → t.Converged p → ∀ i, |outStrCReMa (linkMatrixD x y) bo bi i - d.out_strength i| ≤ p.tol ∧
        |inStrCReMa (linkMatrixD x y) bo bi i - d.in_strength i| ≤ p.tol) := by
  intro R h
  obtain ⟨x, y, bo, bi, s, G, hsv, hG, h1, h2, h3, h4, h5, h6, h7, h8, h9⟩ :=
    solve_tool_ok_dsparse e g .quasinewton (by simp) (.inl hz) mo hmo ma guess ga p h
  rw [show R.g = _ from hG]
  refine ⟨.of s, x, y, _, _, (keepsD DAttr.trace_crema (fun _ => rfl) _).trans (h9 hf), (keepsD DAttr.x (fun _ => rfl) _).trans h7,
    (keepsD DAttr.y (fun _ => rfl) _).trans h8, (keepsD DAttr.b_out (fun _ => rfl) _).trans h4, (keepsD DAttr.b_in (fun _ => rfl) _).trans h5,
    fun hfit hc i => ?_⟩
  have hr0 := C13_solver_component _ _ _ _ hsv hc.1 hc.2 (0, i)
  have hr1 := C13_solver_component _ _ _ _ hsv hc.1 hc.2 (1, i)
  rw [cbDSparse_fn e d he hfit (by simp)] at hr0 hr1
  have hx : s.x = cat2 (fun i => s.x (0, i)) fun i => s.x (1, i) := by
    funext v; obtain ⟨b, i⟩ := v; fin_cases b <;> rfl
  obtain ⟨k0, k1⟩ := str_dcrema_spec (linkMatrixD x y) (fun i => s.x (0, i)) (fun i => s.x (1, i)) i
  rw [← hx] at k0 k1
  have hfn : ∀ v, (cbDCrema e d (nzEdges (linkMatrixD x y)) .quasinewton).fn s.x v = -DCReMa.loglikelihood_prime_crema_directed s.x d.out_strength
      d.in_strength (nzEdges (linkMatrixD x y)) (DCM.nonzero d.out_strength) (DCM.nonzero d.in_strength) v := fun v => rfl
  rw [hfn, abs_neg, DCReMa.prime_val] at hr0 hr1
  rw [← k0, ← k1]
  constructor
  · rw [sub_eq_neg_add]; exact hr0
  · rw [sub_eq_neg_add]; exact hr1

/-- the hypotheses of `C36_dcrema_sparse`, `C37_dcrema_sparse` and `C13_dcrema_sparse` are met: three nodes with all degrees and strengths 1, started at the
solution (all fitnesses 1, all rates 1/2) -/
example (e : Env) (he : e.Valid) : ∃ t x y, let R := solve_tool_directed e ({} : DAttr (regularD 3 1 1)) "crema-sparse" "quasinewton" (.pairs fun _ => 1 / 2) (.name "dcm_exp") "newton" (.pairs 0) { full_return := true }
    R.exc = none ∧ R.g.trace_crema = some t ∧ t.Converged { full_return := true } ∧ R.g.x = some x ∧ R.g.y = some y ∧ (regularD 3 1 1).Fits x y := by
  let d := regularD 3 1 1
  have h0 : guessDCM e.inner d true (.pairs 0) = .ok 0 := regular3_guess e.inner
  have hz : (cbDCMexp e.inner d .newton).fn 0 = 0 := regular3_zero e.inner
  have ht := solver_at_zero _ ({ ({ full_return := true } : Params) with linsearch := true }.opts "newton") _ hz (by simp [Params.opts]; norm_num)
  have hfit : d.Fits (fun _ => 1) fun _ => 1 := ⟨fun _ => by norm_num, fun _ => by norm_num, fun _ => by simp [d, regularD], fun _ => by simp [d, regularD]⟩
  have hb : guessDCrema e d (.pairs fun _ => 1 / 2) = (.ok (fun _ => 1 / 2, fun _ => 1 / 2), .pairs (cat2 (fun _ => 1 / 2) fun _ => 1 / 2)) := by
    have hm : maskSet (fun _ : Fin 3 => (1 / 2 : ℝ)) (fun i => d.out_strength i = 0) 0 = fun _ => 1 / 2 := by funext i; simp [maskSet, d, regularD]
    have hm' : maskSet (fun _ : Fin 3 => (1 / 2 : ℝ)) (fun i => d.in_strength i = 0) 0 = fun _ => 1 / 2 := by funext i; simp [maskSet, d, regularD]
    simp only [guessDCrema, hm, hm']
  have hz' : (cbDCremaSparse e d (fun _ => 1) (fun _ => 1) .quasinewton).fn (cat2 (fun _ => 1 / 2) fun _ => 1 / 2) = 0 := by
    rw [cbDSparse_fn e d he hfit (by simp)]
    funext v
    have hv : (cbDCrema e d (nzEdges (linkMatrixD (fun _ => 1) fun _ => 1)) .quasinewton).fn (cat2 (fun _ => 1 / 2) fun _ => 1 / 2) v =
        -DCReMa.loglikelihood_prime_crema_directed (cat2 (fun _ => 1 / 2) fun _ => 1 / 2) d.out_strength
        d.in_strength (nzEdges (linkMatrixD (fun _ => 1) fun _ => 1)) (DCM.nonzero d.out_strength) (DCM.nonzero d.in_strength) v := rfl
    obtain ⟨b, i⟩ := v
    obtain ⟨k0, k1⟩ := str_dcrema_spec (linkMatrixD (fun _ : Fin 3 => 1) fun _ => 1) (fun _ => 1 / 2) (fun _ => 1 / 2) i
    have s0 : outStrCReMa (linkMatrixD (fun _ : Fin 3 => 1) fun _ => 1) (fun _ => 1 / 2) (fun _ => 1 / 2) i = 1 := by
      fin_cases i <;> simp [outStrCReMa, linkMatrixD, linkDBCM, Fin.sum_univ_three] <;> norm_num
    have s1 : inStrCReMa (linkMatrixD (fun _ : Fin 3 => 1) fun _ => 1) (fun _ => 1 / 2) (fun _ => 1 / 2) i = 1 := by
      fin_cases i <;> simp [inStrCReMa, linkMatrixD, linkDBCM, Fin.sum_univ_three] <;> norm_num
    rw [hv, DCReMa.prime_val]
    fin_cases b
    · show -(-(1 : ℝ) + expected_out_strength_crema_directed _ _ i) = 0
      rw [k0.trans s0]; norm_num
    · show -(-(1 : ℝ) + expected_in_strength_crema_directed _ _ i) = 0
      rw [k1.trans s1]; norm_num
  have hrun := binary_run e.inner ({ is_sparse := true } : DAttr d) .dcm_exp (.inr rfl) .newton (.pairs 0) { full_return := true } (t := initState (cbDCMexp e.inner d .newton) 0)
    (by simpa using h0) (by simpa using! ht)
  have hR := solve_tool_dcrema_sparse_named e ({} : DAttr d) .quasinewton (by simp) (.inl rfl) (.pairs fun _ => 1 / 2) "dcm_exp" "newton" (.pairs 0) (.pairs 0)
    { full_return := true } (x := fun _ => 1) (y := fun _ => 1) hrun (by simp [setSolvedDCM, initState]) (by simp [setSolvedDCM, initState]) rfl hb
  rw [show Method.quasinewton.name = "quasinewton" from rfl] at hR
  rw [solver_at_zero _ _ _ hz' (by simp [Params.opts]; norm_num)] at hR
  refine ⟨⟨0, [norm2 ((cbDCremaSparse e d (fun _ => 1) (fun _ => 1) .quasinewton).fn (cat2 (fun _ => 1 / 2) fun _ => 1 / 2))], [1], []⟩, fun _ => 1, fun _ => 1, ?_⟩
  intro R
  rw [show R = _ from hR]
  refine ⟨?_, (keepsD DAttr.trace_crema (fun _ => rfl) _).trans rfl, ⟨by norm_num, fun δ h => by simp at h; subst h; norm_num⟩,
    (keepsD DAttr.x (fun _ => rfl) _).trans ?_, (keepsD DAttr.y (fun _ => rfl) _).trans ?_, hfit⟩
  · exact (error_dcrema_sparse _ rfl rfl rfl rfl rfl rfl (by simp [setSolvedDCrema, preDCrema, withAdj, setSolvedDCM, initState])
      (by simp [setSolvedDCrema, preDCrema, withAdj, setSolvedDCM, initState]) (fun _ => by norm_num) fun _ => by norm_num).1
  · simp [setSolvedDCrema, preDCrema, withAdj, setSolvedDCM, initState]
  · simp [setSolvedDCrema, preDCrema, withAdj, setSolvedDCM, initState]

/-- C36 is false for ("crema-sparse", "newton"): a call that raises no exception has made no step, the rates are the initial guess. -/
theorem C36_dcrema_sparse_newton_fails (e : Env) (g : DAttr d) (hz : d.nz_known = true) (mo : DModel) (hmo : mo = .dcm ∨ mo = .dcm_exp) (ma : String)
    (guess ga : DGuess n) (p : Params) :
    let R := solve_tool_directed e g "crema-sparse" "newton" guess (.name mo.name) ma ga p
    R.exc = none → ∃ bo bi guess', guessDCrema e d guess = (.ok (bo, bi), guess') ∧ R.g.b_out = some bo ∧ R.g.b_in = some bi := by
  intro R h
  obtain ⟨ma, x0, t, bo, bi, guess', rfl, hx0, ht, h0⟩ := solve_tool_dcrema_inner e g "crema-sparse" "newton" (.inr rfl) guess mo hmo ma ga p h
  refine ⟨bo, bi, guess', h0, ?_⟩
  have hrun := binary_run e.inner { g with is_sparse := true } mo hmo ma ga { p with linsearch := true } hx0 ht
  have hR : R = solve_tool_directed e g "crema-sparse" "newton" guess (.name mo.name) ma.name ga p := rfl
  rw [solve_tool_crema_names e g _ _ (by simp)] at hR
  unfold solveProblemDCrema at hR
  simp only [decide_true] at hR
  rw [hrun] at hR
  have hl : dLookup "crema-sparse" "newton" = some (.crema_sparse, .newton) := dLookup_name .crema_sparse .newton
  unfold setSolvedDCM preDCM solveDCremaTail at hR
  simp only [if_true, h0, hl, hz, true_or, true_and] at hR
  revert hR
  generalize (if decide (mo = DModel.dcm_exp) = true then fun i => Real.exp (-t.x (0, d.inv i)) else fun i => t.x (0, d.inv i)) = x
  generalize (if decide (mo = DModel.dcm_exp) = true then fun i => Real.exp (-t.x (1, d.inv i)) else fun i => t.x (1, d.inv i)) = y
  intro hR
  cases hsv : solver (cbDCremaSparse e d x y .newton) (p.opts "newton") (cat2 bo bi) with
  | error z => rw [hsv] at hR; rw [hR] at h; simp at h
  | ok s =>
    rw [hsv] at hR
    by_cases hn : s.n_steps = 0
    · obtain ⟨xs, hxs⟩ := C15_solver_history _ _ _ _ hsv
      have hsx : s.x = cat2 bo bi := by rw [← hxs.stop, hn, hxs.start]
      simp only [hn, ne_eq, not_true_eq_false, if_false] at hR
      rw [hR]
      exact ⟨(keepsD DAttr.b_out (fun _ => rfl) _).trans (by simp [setSolvedDCrema, hsx, cat2]),
        (keepsD DAttr.b_in (fun _ => rfl) _).trans (by simp [setSolvedDCrema, hsx, cat2])⟩
    · simp only [hn, ne_eq, not_false_eq_true, if_true] at hR
      rw [hR] at h
      simp at h

end Verif.Solve
