import Verif.Props.SolveD3

/-! C13 (CReMa on the DBCM), C40 and C46 for `DirectedGraph.solve_tool`; calls that do not solve anything. -/

namespace Verif.Solve

open Verif Finset Reduction Solver Spec

open Classical in
attribute [local instance 0] propDecidable

theorem regular3_guess (e : Env) : guessDCM e (regularD 3 1 1) true (.pairs 0) = .ok 0 := by
  set d := regularD 3 1 1 with hd
  have h1 : maskSet (negLogNonzero (fun _ : Fin d.r => (0 : ℝ))) (fun q => d.ko q = 0) 1e3 = 0 := by
    funext q; simp [maskSet, negLogNonzero, d, (regularD_ko q).1]
  have h2 : maskSet (negLogNonzero (fun _ : Fin d.r => (0 : ℝ))) (fun q => d.ki q = 0) 1e3 = 0 := by
    funext q; simp [maskSet, negLogNonzero, d, (regularD_ko q).2]
  simp only [guessDCM, finishDCM, if_true, Pi.zero_apply, h1, h2]
  congr 1
  funext v
  simp [cat2]

theorem regular3_zero (e : Env) : (cbDCMexp e (regularD 3 1 1) .newton).fn 0 = 0 := by
  let d := regularD 3 1 1
  funext v
  obtain ⟨b, q⟩ := v
  obtain ⟨i, rfl⟩ := d.inv_surj q
  have hA : AdmDCM d fun v => Real.exp (-(0 : Fin 2 × Fin d.r → ℝ) v) := ⟨fun q _ => Real.exp_pos _, fun q _ => Real.exp_pos _⟩
  obtain ⟨k0, k1⟩ := residual_dcm d (fun v => Real.exp (-(0 : Fin 2 × Fin d.r → ℝ) v)) hA i
  have hk : d.degOut i ≠ 0 ∧ d.degIn i ≠ 0 := by simp [d, regularD, DData.degOut, DData.degIn]
  have a1 : active d.degOut (fun i => Real.exp (-(0 : Fin 2 × Fin d.r → ℝ) (0, d.inv i))) = fun _ => 1 := by
    funext j; simp [active, d, regularD, DData.degOut]
  have a2 : active d.degIn (fun i => Real.exp (-(0 : Fin 2 × Fin d.r → ℝ) (1, d.inv i))) = fun _ => 1 := by
    funext j; simp [active, d, regularD, DData.degIn]
  have ho : outDBCM (fun _ : Fin 3 => (1 : ℝ)) (fun _ => 1) i = 1 := by
    unfold outDBCM linkDBCM
    rw [sum_const, filter_ne', card_erase_of_mem (mem_univ _)]
    simp; norm_num
  have hi : inDBCM (fun _ : Fin 3 => (1 : ℝ)) (fun _ => 1) i = 1 := by
    unfold inDBCM linkDBCM
    rw [sum_const, filter_ne', card_erase_of_mem (mem_univ _)]
    simp; norm_num
  have e1 := k0 hk.1
  have e2 := k1 hk.2
  rw [a1, a2, ho, show (d.dseq_out i : ℝ) = 1 by simp [d, regularD], sub_self, mul_zero] at e1
  rw [a1, a2, hi, show (d.dseq_in i : ℝ) = 1 by simp [d, regularD], sub_self, mul_zero] at e2
  have hg : ∀ v, (cbDCMexp e d .newton).fn 0 v = Real.exp (-(0 : Fin 2 × Fin d.r → ℝ) v) *
      DCM.loglikelihood_prime_dcm (fun v => Real.exp (-(0 : Fin 2 × Fin d.r → ℝ) v)) d.ko d.ki (DCM.nonzero d.ko) (DCM.nonzero d.ki) d.c v := fun v => by
    have := DCM.C09_dcm_gradients (0 : Fin 2 × Fin d.r → ℝ) d.ko d.ki (DCM.nonzero d.ko) (DCM.nonzero d.ki) d.c (DCM.nodup_nonzero _) (DCM.nodup_nonzero _) v
    simp only [cbDCMexp]
    rw [this]; ring
  rw [hg]
  fin_cases b
  · exact e1
  · exact e2

/-- the hypotheses of `C13_dcm_exp`, `C37_dcm_partial` and of the theorems on dcm_exp below are met: three nodes with all degrees 1, started at the solution -/
example (e : Env) : ∃ t x y, let R := solve_tool_directed e ({} : DAttr (regularD 3 1 1)) "dcm_exp" "newton" (.pairs 0) .other "" .other { full_return := true }
    R.exc = none ∧ R.g.trace = some t ∧ t.Converged { full_return := true } ∧ R.g.x = some x ∧ R.g.y = some y ∧ ∀ i, x i = 1 ∧ y i = 1 := by
  let d := regularD 3 1 1
  have h0 : guessDCM e d true (.pairs 0) = .ok 0 := regular3_guess e
  have hz : (cbDCMexp e d .newton).fn 0 = 0 := regular3_zero e
  have hR := solve_tool_dcm_exp e ({} : DAttr d) .newton (.pairs 0) .other "" .other { full_return := true } h0
  rw [solver_at_zero _ _ _ hz (by simp [Params.opts]; norm_num)] at hR
  refine ⟨⟨0, [norm2 ((cbDCMexp e d .newton).fn 0)], [1], []⟩, fun _ => 1, fun _ => 1, ?_⟩
  intro R
  rw [show R = _ from hR]
  simp only [solutionErrorD, setSolvedDCM, preDCM, DModel.name, true_or, or_true, if_true, strengthErrorD, degreeErrorD, initState, Trace.of, Pi.zero_apply,
    neg_zero, Real.exp_zero]
  exact ⟨trivial, trivial, ⟨by norm_num, fun δ h => by simp at h; subst h; norm_num⟩, trivial, trivial, fun _ => ⟨trivial, trivial⟩⟩

variable {n : ℕ} [NeZero n] {d : DData n}

/-- C13 (directed crema on the DBCM): if the run for the rates stopped on its tolerance, the strengths are reproduced within `tol` on the link probabilities the
call has used. -/
theorem C13_dcrema (e : Env) (g : DAttr d) (hz : d.nz_known = true) (me : Method) (hme : me ≠ .fixed_point) (mo : DModel) (hmo : mo = .dcm ∨ mo = .dcm_exp)
    (ma : String) (guess ga : DGuess n) (p : Params) (hf : p.full_return = true) :
    let R := solve_tool_directed e g "crema" me.name guess (.name mo.name) ma ga p
    R.exc = none → ∃ t x y bo bi, R.g.trace_crema = some t ∧ R.g.x = some x ∧ R.g.y = some y ∧ R.g.b_out = some bo ∧ R.g.b_in = some bi ∧ (t.Converged p → ∀ i,
      |outStrCReMa (linkMatrixD (active d.degOut x) (active d.degIn y)) bo bi i - d.out_strength i| ≤ p.tol ∧
      |inStrCReMa (linkMatrixD (active d.degOut x) (active d.degIn y)) bo bi i - d.in_strength i| ≤ p.tol) := by
  intro R h
  obtain ⟨ma, x0, t, bo, bi, guess', rfl, hx0, ht, h0⟩ := solve_tool_dcrema_inner e g "crema" me.name (.inl rfl) guess mo hmo ma ga p h
  have hrun := binary_run e.inner { g with is_sparse := false } mo hmo ma ga { p with linsearch := true } hx0 ht
  have he := solve_tool_dcrema_named e g hz me guess mo.name ma.name ga ga p hrun rfl rfl rfl rfl h0
  simp only [pmat_spec] at he
  rw [show R = _ from he]
  rw [show R = _ from he] at h
  set x : Fin n → ℝ := if decide (mo = .dcm_exp) = true then fun i => Real.exp (-t.x (0, d.inv i)) else fun i => t.x (0, d.inv i) with hx
  set y : Fin n → ℝ := if decide (mo = .dcm_exp) = true then fun i => Real.exp (-t.x (1, d.inv i)) else fun i => t.x (1, d.inv i) with hy
  set a := linkMatrixD (active d.degOut x) (active d.degIn y) with ha
  cases hsv : solver (cbDCrema e d (nzEdges a) me) (p.opts me.name) (cat2 bo bi) with
  | error z => rw [hsv] at h; simp at h
  | ok s =>
    refine ⟨.of s, x, y, _, _, ?_, keepsD DAttr.x (fun _ => rfl) _, keepsD DAttr.y (fun _ => rfl) _, keepsD DAttr.b_out (fun _ => rfl) _,
      keepsD DAttr.b_in (fun _ => rfl) _, fun hc i => dcrema_residual e d a me hme s p hsv hc i⟩
    exact (keepsD DAttr.trace_crema (fun _ => rfl) _).trans (by simp [setSolvedDCrema, preDCrema, hf])

/-! ### C40: `model_loglikelihood` -/

/-- C40 (dcm): the value is minus the log-probability of the observed degrees at the stored parameters. -/
theorem C40_dcm_negated (e : Env) (g : DAttr d) (method : String) (guess : DGuess n) (adj : AdjSpec n) (ma : String) (ga : DGuess n) (p : Params) :
    let R := solve_tool_directed e g "dcm" method guess adj ma ga p
    R.exc = none → ∃ x y, R.g.x = some x ∧ R.g.y = some y ∧
      model_loglikelihood_directed R.g = .ok (-logDBCM d.degOut d.degIn (active d.degOut x) (active d.degIn y)) := by
  intro R h
  obtain ⟨me, x0, s, -, -, -, hG, -⟩ := solve_tool_ok_dcm e g method guess adj ma ga p h
  rw [show R = _ from hG]
  refine ⟨_, _, keepsD DAttr.x (fun _ => rfl) _, keepsD DAttr.y (fun _ => rfl) _, ?_⟩
  unfold model_loglikelihood_directed
  simp only [keepsD DAttr.step_fun (fun _ => rfl), keepsD DAttr.args (fun _ => rfl), keepsD DAttr.solution_array (fun _ => rfl), setSolvedDCM, preDCM,
    Bool.false_eq_true, if_false, ll_dcm_red_spec]

/-- C40 is false for dcm_exp: the log-likelihood of the exponents is evaluated at the stored parameters `x = exp(-θ)`, that is at the parameters
`exp(-exp(-θ))`, and negated. -/
theorem C40_dcm_exp_wrong (e : Env) (g : DAttr d) (method : String) (guess : DGuess n) (adj : AdjSpec n) (ma : String) (ga : DGuess n) (p : Params) :
    let R := solve_tool_directed e g "dcm_exp" method guess adj ma ga p
    R.exc = none → ∃ x y, R.g.x = some x ∧ R.g.y = some y ∧
      model_loglikelihood_directed R.g = .ok (-logDBCM d.degOut d.degIn (active d.degOut fun i => Real.exp (-x i)) (active d.degIn fun i => Real.exp (-y i))) := by
  intro R h
  obtain ⟨me, x0, s, -, -, -, hG, -⟩ := solve_tool_ok_dcm_exp e g method guess adj ma ga p h
  rw [show R = _ from hG]
  refine ⟨_, _, keepsD DAttr.x (fun _ => rfl) _, keepsD DAttr.y (fun _ => rfl) _, ?_⟩
  unfold model_loglikelihood_directed
  simp only [keepsD DAttr.step_fun (fun _ => rfl), keepsD DAttr.args (fun _ => rfl), keepsD DAttr.solution_array (fun _ => rfl), setSolvedDCM, preDCM,
    if_true, ll_dcm_exp_red_spec]

/-- C40 (decm): negated -/
theorem C40_decm_negated (e : Env) (g : DAttr d) (method : String) (guess : DGuess n) (adj : AdjSpec n) (ma : String) (ga : DGuess n) (p : Params) :
    let R := solve_tool_directed e g "decm" method guess adj ma ga p
    R.exc = none → ∃ x y bo bi, R.g.x = some x ∧ R.g.y = some y ∧ R.g.b_out = some bo ∧ R.g.b_in = some bi ∧
      model_loglikelihood_directed R.g = .ok (-logDECM d.degOut d.degIn d.out_strength d.in_strength x y bo bi) := by
  intro R h
  obtain ⟨me, v, guess', s, -, -, -, hG⟩ := solve_tool_ok_decm e g method guess adj ma ga p h
  rw [show R = _ from hG]
  refine ⟨_, _, _, _, keepsD DAttr.x (fun _ => rfl) _, keepsD DAttr.y (fun _ => rfl) _, keepsD DAttr.b_out (fun _ => rfl) _, keepsD DAttr.b_in (fun _ => rfl) _, ?_⟩
  unfold model_loglikelihood_directed
  simp only [keepsD DAttr.step_fun (fun _ => rfl), keepsD DAttr.args (fun _ => rfl), keepsD DAttr.solution_array (fun _ => rfl), setSolvedDECM, preDECM,
    Bool.false_eq_true, if_false, ll_decm_spec]
  rfl

/-- C40 is false for decm_exp: evaluated at `exp(-exp(-θ))` and negated.  (The stored multipliers are positive, so that the point is in the domain.) -/
theorem C40_decm_exp_wrong (e : Env) (g : DAttr d) (method : String) (guess : DGuess n) (adj : AdjSpec n) (ma : String) (ga : DGuess n) (p : Params) :
    let R := solve_tool_directed e g "decm_exp" method guess adj ma ga p
    R.exc = none → ∃ x y bo bi, R.g.x = some x ∧ R.g.y = some y ∧ R.g.b_out = some bo ∧ R.g.b_in = some bi ∧
      model_loglikelihood_directed R.g = .ok (-logDECM d.degOut d.degIn d.out_strength d.in_strength (fun i => Real.exp (-x i)) (fun i => Real.exp (-y i))
        (fun i => Real.exp (-bo i)) fun i => Real.exp (-bi i)) := by
  intro R h
  obtain ⟨me, v, guess', s, -, -, -, hG⟩ := solve_tool_ok_decm_exp e g method guess adj ma ga p h
  rw [show R = _ from hG]
  refine ⟨_, _, _, _, keepsD DAttr.x (fun _ => rfl) _, keepsD DAttr.y (fun _ => rfl) _, keepsD DAttr.b_out (fun _ => rfl) _, keepsD DAttr.b_in (fun _ => rfl) _, ?_⟩
  have hA : AdmDECMexp fun v : Fin 4 × Fin n => Real.exp (-s.x v) := fun i j _ => by positivity
  unfold model_loglikelihood_directed
  simp only [keepsD DAttr.step_fun (fun _ => rfl), keepsD DAttr.args (fun _ => rfl), keepsD DAttr.solution_array (fun _ => rfl), setSolvedDECM, preDECM,
    if_true, ll_decm_exp_spec d _ hA]
  rfl

/-- C40 (directed crema on a given matrix): negated; with `full_return=True` the call fails. -/
theorem C40_dcrema_negated (e : Env) (g : DAttr d) (hz : d.nz_known = true) (me : Method) (guess : DGuess n) (a : Fin n → Fin n → ℝ)
    (ma : String) (ga : DGuess n) (p : Params) :
    let R := solve_tool_directed e g "crema" me.name guess (.matrix a) ma ga p
    R.exc = none → ∃ bo bi, R.g.b_out = some bo ∧ R.g.b_in = some bi ∧
      (p.full_return = false → model_loglikelihood_directed R.g = .ok (-logDCReMa a d.out_strength d.in_strength bo bi)) ∧
      (p.full_return = true → ∃ x, model_loglikelihood_directed R.g = .error x) := by
  intro R h
  obtain ⟨bo, bi, guess', h0⟩ := solve_tool_dcrema_args e g me.name guess a ma ga p h
  have he := solve_tool_dcrema_matrix e g hz me guess a ma ga p h0
  simp only at he
  rw [show R = _ from he]
  rw [show R = _ from he] at h
  cases hsv : solver (cbDCrema e d (nzEdges a) me) (p.opts me.name) (cat2 bo bi) with
  | error x => rw [hsv] at h; simp at h
  | ok s =>
    refine ⟨_, _, keepsD DAttr.b_out (fun _ => rfl) _, keepsD DAttr.b_in (fun _ => rfl) _, fun hf => ?_, fun hf => ?_⟩
    · unfold model_loglikelihood_directed
      simp only [keepsD DAttr.step_fun (fun _ => rfl), keepsD DAttr.args (fun _ => rfl), keepsD DAttr.solution_array (fun _ => rfl), setSolvedDCrema, preDCrema,
        hf, Bool.false_eq_true, if_false, hz, if_true, ll_dcrema_spec]
    · unfold model_loglikelihood_directed
      simp only [keepsD DAttr.step_fun (fun _ => rfl), keepsD DAttr.args (fun _ => rfl), keepsD DAttr.solution_array (fun _ => rfl), setSolvedDCrema, preDCrema,
        hf, if_true]
      exact ⟨_, rfl⟩

/-! ### C46: the caller's arrays -/

/-- C46 (dcm, dcm_exp): the caller's guesses are never modified. -/
theorem C46_dcm (e : Env) (g : DAttr d) (mo : DModel) (hmo : mo = .dcm ∨ mo = .dcm_exp) (method : String) (guess : DGuess n)
    (adj : AdjSpec n) (ma : String) (ga : DGuess n) (p : Params) :
    (solve_tool_directed e g mo.name method guess adj ma ga p).guess = guess ∧ (solve_tool_directed e g mo.name method guess adj ma ga p).guessAdj = ga := by
  have hn : mo.name = "dcm" ∨ mo.name = "dcm_exp" := by rcases hmo with rfl | rfl <;> simp [DModel.name]
  have key : (solveProblemD e g mo.name method guess p).2.2 = guess := by
    unfold solveProblemD
    rw [if_pos hn]
    cases guessDCM e d (decide (mo.name = "dcm_exp")) guess with
    | error x => rfl
    | ok x0 =>
      simp only
      cases dLookup mo.name method with
      | none => rfl
      | some w =>
        simp only
        cases solver (if mo.name = "dcm_exp" then cbDCMexp e d w.2 else cbDCM e d w.2) (p.opts method) x0 <;> rfl
  rw [solve_tool_plain e g _ _ (by tauto)]
  rcases h : solveProblemD e g mo.name method guess p with ⟨g1, _ | x, guess'⟩ <;> rw [h] at key <;> exact ⟨key, rfl⟩

/-- C46 is false for decm and decm_exp: an array passed as guess comes back overwritten, whatever the outcome of the call: with 0 where the observed value is 0
(decm), or with the negative logarithms (decm_exp; 1000 where the observed value is 0). -/
theorem C46_decm_overwritten (e : Env) (g : DAttr d) (mo : DModel) (hmo : mo = .decm ∨ mo = .decm_exp) (method : String) (v : Fin 4 × Fin n → ℝ)
    (adj : AdjSpec n) (ma : String) (ga : DGuess n) (p : Params) :
    (solve_tool_directed e g mo.name method (.quads v) adj ma ga p).guess = .quads fun w =>
      if d.obs w = 0 then (if mo = .decm_exp then 1000 else 0) else if mo = .decm_exp ∧ v w ≠ 0 then -Real.log (v w) else v w := by
  have hn : mo.name = "decm" ∨ mo.name = "decm_exp" := by rcases hmo with rfl | rfl <;> simp [DModel.name]
  have hn' : ¬ (mo.name = "dcm" ∨ mo.name = "dcm_exp") := by rcases hmo with rfl | rfl <;> simp [DModel.name]
  have key : (solveProblemD e g mo.name method (.quads v) p).2.2 = .quads (finishDECM d (decide (mo.name = "decm_exp")) v) := by
    unfold solveProblemD
    rw [if_neg hn', if_pos hn]
    simp only [guessDECM]
    cases dLookup mo.name method with
    | none => rfl
    | some w =>
      simp only
      cases solver (if mo.name = "decm_exp" then cbDECMexp e d w.2 else cbDECM e d w.2) (p.opts method) (finishDECM d (decide (mo.name = "decm_exp")) v) <;> rfl
  have hfin : finishDECM d (decide (mo.name = "decm_exp")) v = fun w =>
      if d.obs w = 0 then (if mo = .decm_exp then 1000 else 0) else if mo = .decm_exp ∧ v w ≠ 0 then -Real.log (v w) else v w := by
    funext w
    rcases hmo with rfl | rfl
    · simp [finishDECM, DModel.name, maskSet]
    · by_cases hw : d.obs w = 0
      · simp [finishDECM, DModel.name, maskSet, hw]; norm_num
      · by_cases hv : v w = 0 <;> simp [finishDECM, DModel.name, maskSet, negLogNonzero, hv, hw]
  rw [← hfin, ← key]
  rw [solve_tool_plain e g _ _ (by tauto)]
  rcases h : solveProblemD e g mo.name method (.quads v) p with ⟨g1, _ | x, guess'⟩ <;> rfl

/-- C46 is false: on a single pair of opposite links the guess `(1, …)` of decm_exp comes back as `(0, …)` -/
theorem C46_decm_false (e : Env) (g : DAttr (regularD 2 1 1)) (method : String) (adj : AdjSpec 2) (ma : String) (ga : DGuess 2) (p : Params) :
    (solve_tool_directed e g "decm_exp" method (.quads fun _ => 1) adj ma ga p).guess ≠ .quads fun _ => 1 := by
  rw [show "decm_exp" = DModel.decm_exp.name from rfl, C46_decm_overwritten e g .decm_exp (.inr rfl)]
  intro h
  have := congrFun (DGuess.quads.inj h) (0, 0)
  simp [DData.obs, DData.degOut, regularD] at this

/-- C46 is false for the directed crema: an array passed as guess comes back with 0 at the nodes of zero strength (here on a given matrix). -/
theorem C46_dcrema_overwritten (e : Env) (g : DAttr d) (method : String) (v : Fin 2 × Fin n → ℝ) (a : Fin n → Fin n → ℝ) (ma : String) (ga : DGuess n)
    (p : Params) : (solve_tool_directed e g "crema" method (.pairs v) (.matrix a) ma ga p).guess =
      .pairs fun w => if (if w.1 = 0 then d.out_strength w.2 else d.in_strength w.2) = 0 then 0 else v w := by
  have hfin : (cat2 (maskSet (fun i => v (0, i)) (fun i => d.out_strength i = 0) 0) (maskSet (fun i => v (1, i)) (fun i => d.in_strength i = 0) 0)) =
      fun w => if (if w.1 = 0 then d.out_strength w.2 else d.in_strength w.2) = 0 then 0 else v w := by
    funext w
    obtain ⟨b, i⟩ := w
    fin_cases b <;> simp [cat2, maskSet]
  rw [← hfin, solve_tool_crema_names e g _ _ (by simp)]
  unfold solveProblemDCrema solveDCremaTail
  simp only [Bool.false_eq_true, if_false, guessDCrema]
  cases dLookup "crema" method with
  | none => rfl
  | some w =>
    obtain ⟨mo', me⟩ := w
    cases mo' <;> try rfl
    · cases d.nz_known with
      | false => rfl
      | true =>
        simp only [if_true]
        cases solver (cbDCrema e d (nzEdges a) me) (p.opts method)
          (cat2 (maskSet (fun i => v (0, i)) (fun i => d.out_strength i = 0) 0) (maskSet (fun i => v (1, i)) (fun i => d.in_strength i = 0) 0)) <;> rfl
    · by_cases hlen : (nzEdges a).length = n ∧ (d.nz_known ∨ me = .fixed_point)
      · simp only [if_pos hlen]
        cases solver (cbDCremaSparseOn e d (nzEdges a) me) (p.opts method)
          (cat2 (maskSet (fun i => v (0, i)) (fun i => d.out_strength i = 0) 0) (maskSet (fun i => v (1, i)) (fun i => d.in_strength i = 0) 0)) <;> rfl
      · simp only [if_neg hlen]

/-- C46 and C53: an array with one or four values per node is refused by the directed crema with `IndexError`, but its entries at the nodes without out-strength are zero afterwards
(the first `n` entries of a longer array), and nothing else of it is changed. -/
theorem C46_dcrema_refused (e : Env) (g : DAttr d) (method : String) (u : Fin n → ℝ) (v : Fin 4 × Fin n → ℝ) (a : Fin n → Fin n → ℝ) (ma : String) (ga : DGuess n) (p : Params) :
    let R1 := solve_tool_directed e g "crema" method (.nodes u) (.matrix a) ma ga p
    let R4 := solve_tool_directed e g "crema" method (.quads v) (.matrix a) ma ga p
    R1.exc = some (.py .indexError) ∧ R1.guess = .nodes (fun i => if d.out_strength i = 0 then 0 else u i) ∧
    R4.exc = some (.py .indexError) ∧ R4.guess = .quads (fun w => if w.1 = 0 ∧ d.out_strength w.2 = 0 then 0 else v w) := by
  intro R1 R4
  have h1 : R1 = _ := solve_tool_crema_names e g _ _ (by simp) (.nodes u) (.matrix a) ma ga p
  have h4 : R4 = _ := solve_tool_crema_names e g _ _ (by simp) (.quads v) (.matrix a) ma ga p
  rw [h1, h4]
  unfold solveProblemDCrema solveDCremaTail
  simp only [Bool.false_eq_true, if_false, guessDCrema]
  exact ⟨trivial, rfl, trivial, congrArg _ (funext fun w => by unfold maskSet; congr)⟩

example (e : Env) (g : DAttr (⟨![1, 1, 0], ![0, 1, 1], ![2, 3, 0], ![0, 2, 3], true⟩ : DData 3)) (p : Params) :
    (solve_tool_directed e g "crema" "newton" (.nodes fun _ => 1) (.matrix 0) "newton" (.name "random") p).guess = .nodes ![1, 1, 0] := by
  rw [(C46_dcrema_refused e g "newton" (fun _ => 1) (fun _ => 1) 0 "newton" (.name "random") p).2.1]
  congr 1
  funext i
  fin_cases i <;> simp

/-! ### C36: calls that do not solve anything -/

/-- C36: the default `adjacency=None` of a directed "crema" or "crema-sparse" raises `ValueError` (the documentation announces "dcm_exp") and the parameters are
untouched. -/
theorem C36_dcrema_default_adjacency (e : Env) (g : DAttr d) (model : String) (hm : model = "crema" ∨ model = "crema-sparse") (method : String) (guess : DGuess n)
    (ma : String) (ga : DGuess n) (p : Params) :
    let R := solve_tool_directed e g model method guess .other ma ga p
    R.exc = some (.py .valueError) ∧ R.g.x = g.x ∧ R.g.y = g.y ∧ R.g.b_out = g.b_out ∧ R.g.b_in = g.b_in ∧ R.g.solution_array = g.solution_array := by
  intro R
  have : R = _ := solve_tool_crema_names e g _ _ hm guess .other ma ga p
  rw [this]
  exact ⟨rfl, rfl, rfl, rfl, rfl, rfl⟩

/-- C36: an unknown method of the four models without CReMa raises `ValueError` if the guess is acceptable; the DBCM leaves the parameters as they were. -/
theorem C36_directed_unknown_method (e : Env) (g : DAttr d) (mo : DModel) (hmo : mo ≠ .crema ∧ mo ≠ .crema_sparse) (method : String)
    (hme : ∀ me : Method, method ≠ me.name) (guess : DGuess n) (adj : AdjSpec n) (ma : String) (ga : DGuess n) (p : Params) :
    let R := solve_tool_directed e g mo.name method guess adj ma ga p
    (∃ x, R.exc = some (.py x)) ∧ R.g.solution_array = g.solution_array ∧ (mo = .dcm ∨ mo = .dcm_exp → R.g.x = g.x ∧ R.g.y = g.y ∧ R.g.b_out = g.b_out ∧
      R.g.b_in = g.b_in) := by
  intro R
  have hl : dLookup mo.name method = none := dLookup_unknown mo hme (fun h => absurd h hmo.1)
  have hn : mo.name = "dcm" ∨ mo.name = "dcm_exp" ∨ mo.name = "decm" ∨ mo.name = "decm_exp" := by
    cases mo <;> simp_all [DModel.name]
  have hR : R = _ := solve_tool_plain e g mo.name method hn guess adj ma ga p
  have key : ∃ x, (solveProblemD e g mo.name method guess p).2.1 = some (.py x) ∧
      (solveProblemD e g mo.name method guess p).1.solution_array = g.solution_array ∧ (mo = .dcm ∨ mo = .dcm_exp →
      (solveProblemD e g mo.name method guess p).1.x = g.x ∧ (solveProblemD e g mo.name method guess p).1.y = g.y ∧
      (solveProblemD e g mo.name method guess p).1.b_out = g.b_out ∧ (solveProblemD e g mo.name method guess p).1.b_in = g.b_in) := by
    unfold solveProblemD
    split
    · cases guessDCM e d (decide (mo.name = "dcm_exp")) guess with
      | error x => exact ⟨x, rfl, rfl, fun _ => ⟨rfl, rfl, rfl, rfl⟩⟩
      | ok x0 => simp only [hl]; exact ⟨_, rfl, trivial, fun _ => ⟨trivial, trivial, trivial, trivial⟩⟩
    · rename_i h1
      rw [if_pos (by tauto)]
      have hno : ¬ (mo = .dcm ∨ mo = .dcm_exp) := by
        rintro (rfl | rfl) <;> simp [DModel.name] at h1
      rcases guessDECM e d (decide (mo.name = "decm_exp")) guess with ⟨err | v, guess'⟩
      · exact ⟨err, rfl, rfl, fun h => absurd h hno⟩
      · simp only [hl]; exact ⟨_, rfl, trivial, fun h => absurd h hno⟩
  obtain ⟨x, h1, h2, h3⟩ := key
  rcases h : solveProblemD e g mo.name method guess p with ⟨g1, ex, guess'⟩
  rw [h] at h1 h2 h3
  simp only at h1
  subst h1
  rw [h] at hR
  rw [hR]
  exact ⟨⟨x, rfl⟩, h2, h3⟩

/-- C36: a model that does not exist is accepted in silence: on a fresh object nothing is solved, no exception is raised and no attribute is set. -/
theorem C36_directed_unknown_model (e : Env) (model : String) (hm : ∀ mo : DModel, model ≠ mo.name) (method : String) (guess : DGuess n) (adj : AdjSpec n)
    (ma : String) (ga : DGuess n) (p : Params) :
    solve_tool_directed e ({} : DAttr d) model method guess adj ma ga p = ⟨{}, none, guess, ga⟩ := by
  have h1 := hm .dcm
  have h2 := hm .dcm_exp
  have h3 := hm .decm
  have h4 := hm .decm_exp
  have h5 := hm .crema
  have h6 := hm .crema_sparse
  simp only [DModel.name] at h1 h2 h3 h4 h5 h6
  unfold solve_tool_directed
  rw [if_neg (by tauto), if_neg (by tauto)]
  simp [solutionErrorD]

/-- C36: on a graph built from a weighted edge list (the indices of the non-zero strengths are missing) the dense CReMa always fails (the name "sparse-fixed-point"
is read as the sparse implementation: see `C36_key_clash`). -/
theorem C36_dcrema_edgelist_fails (e : Env) (g : DAttr d) (hz : d.nz_known = false) (method : String) (hm : method ≠ "sparse-fixed-point") (guess : DGuess n)
    (a : Fin n → Fin n → ℝ) (ma : String) (ga : DGuess n) (p : Params) : (solve_tool_directed e g "crema" method guess (.matrix a) ma ga p).exc ≠ none := by
  rw [solve_tool_crema_names e g _ _ (by simp)]
  unfold solveProblemDCrema solveDCremaTail
  simp only [Bool.false_eq_true, if_false, hz]
  rcases h0 : guessDCrema e d guess with ⟨err | b, guess'⟩
  · simp
  · cases hl : dLookup "crema" method with
    | none => simp
    | some w =>
      obtain ⟨mo', me⟩ := w
      cases mo' <;> simp
      cases me
      · simp
      · simp
      · rcases dLookup_some (mo := .crema) hl with ⟨h, -⟩ | ⟨-, -, h⟩
        · simp at h
        · exact absurd h hm

end Verif.Solve
