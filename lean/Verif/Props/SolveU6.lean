import Verif.Props.SolveU5

/-!
Undirected CReMa on the UBCM solved first, dense and sparse: error report (C37), residuals (C13), ("crema-sparse", "newton") (C36).
-/

open Finset

namespace Verif.Solve

open Verif Verif.Solver Verif.Spec

variable {n : ℕ} [NeZero n] {d : UData n}

theorem linkMatrix_eq (x : Fin n → ℝ) : CM.pmatrix_cm x = linkMatrix x := pmatrix_spec x

theorem str_sparse_spec (x : Fin n → ℝ) (hx : ∀ i, 0 ≤ x i) (β : Fin n → ℝ) (i : Fin n) :
    CReMa.expected_strength_crema_undirected_sparse β x i = strCReMa (linkMatrix x) β i := by
  rw [CReMa.C33_crema_expected β x hx, linkMatrix_eq, str_crema_spec _ (linkMatrix_symm x) (linkMatrix_diag x)]

omit [NeZero n] in
theorem crema_fn (e : Env) (d : UData n) {a : Fin n → Fin n → ℝ} (hs : ∀ i j, a i j = a j i) (hd : ∀ i, a i i = 0) {me : Method} (hme : me ≠ .fixed_point)
    (β : Fin n → ℝ) (i : Fin n) : (cbCrema e d (triuEdges a) me).fn β i = -(strCReMa a β i - d.strength_sequence i) := by
  rw [← str_crema_spec a hs hd]
  have : CReMa.loglikelihood_prime_crema_undirected β d.strength_sequence (triuEdges a) i =
      CReMa.expected_strength_crema_undirected β (triuEdges a) i - d.strength_sequence i := by rw [CReMa.prime_eq]; ring
  rw [← this]
  cases me <;> first | rfl | exact absurd rfl hme

/-- C13 (crema with the default `adjacency="cm_exp"`): if the run for the rates stopped on its tolerance, the strengths are reproduced within `tol` on the link
probabilities of the stored fitnesses. -/
theorem C13_crema (e : Env) (g : UAttr d) (me : Method) (hme : me ≠ .fixed_point) (ma : Method) (guess ga : Guess n) (p : Params) (hf : p.full_return = true) :
    let R := solve_tool e g "crema" me.name guess (.name "cm_exp") ma.name ga p
    R.exc = none → ∃ t x β, R.g.trace_crema = some t ∧ R.g.x = some x ∧ R.g.beta = some β ∧
      (t.Converged p → ∀ i, |strCReMa (linkMatrix x) β i - d.strength_sequence i| ≤ p.tol) := by
  intro R h
  obtain ⟨x0, t, b, guess', hθ, ht, h0⟩ := solve_tool_crema_inner e g "crema" me.name (.inl rfl) guess ma ga p h
  have he := solve_tool_crema_cm_exp e g me ma guess ga p hθ ht h0
  simp only [pmatrix_spec] at he
  rw [show R = _ from he]
  rw [show R = _ from he] at h
  set x : Fin n → ℝ := fun i => Real.exp (-t.x (d.inv i)) with hx
  cases hsv : solver (cbCrema e d (triuEdges (linkMatrix x)) me) (p.opts me.name) b with
  | error y => rw [hsv] at h; simp at h
  | ok s =>
    have k := fun g' : UAttr d => solutionError_keeps e g'
    refine ⟨.of s, x, s.x, (k _).2.2.2.2.2.1.trans (by simp [setSolvedCrema, hf]), (k _).1, (k _).2.2.1, fun hc i => ?_⟩
    have hr := C13_solver_component _ _ _ _ hsv hc.1 hc.2 i
    rwa [crema_fn e d (linkMatrix_symm x) (linkMatrix_diag x) hme, abs_neg] at hr

/-- what a call of the sparse CReMa that raises no exception has computed -/
theorem solve_tool_ok_sparse (e : Env) (g : UAttr d) (me : Method) (hme : me ≠ .newton) (ma : Method) (guess ga : Guess n) (p : Params) :
    let R := solve_tool e g "crema-sparse" me.name guess (.name "cm_exp") ma.name ga p
    R.exc = none → ∃ x b s G, (∀ i, 0 < x i) ∧ solver (cbCremaSparse e d x me) (p.opts me.name) b = .ok s ∧ R.g = (solutionError e G).1 ∧
      G.last_model = some "crema-sparse" ∧ G.is_sparse = true ∧ G.adjacency_crema = some (.fitness x) ∧ G.beta = some s.x ∧
      G.adjacency_given = some false ∧ G.x = some x ∧ (p.full_return = true → G.trace_crema = some (.of s)) := by
  intro R h
  obtain ⟨x0, t, b, guess', hθ, ht, h0⟩ := solve_tool_crema_inner e g "crema-sparse" me.name (.inr rfl) guess ma ga p h
  have he := solve_tool_crema_sparse_cm_exp e g me ma hme guess ga p hθ ht h0
  simp only at he
  rw [show R = _ from he]
  rw [show R = _ from he] at h
  set x : Fin n → ℝ := fun i => Real.exp (-t.x (d.inv i)) with hx
  cases hsv : solver (cbCremaSparse e d x me) (p.opts me.name) b with
  | error y => rw [hsv] at h; simp at h
  | ok s => exact ⟨x, b, s, _, fun i => Real.exp_pos _, hsv, rfl, rfl, rfl, rfl, rfl, rfl, rfl, fun hf => by simp [setSolvedCrema, hf]⟩

/-- C37 (crema-sparse): the reported error is the largest violation among all degrees (of the binary problem) and strengths. -/
theorem C37_crema_sparse (e : Env) (g : UAttr d) (me : Method) (hme : me ≠ .newton) (ma : Method) (guess ga : Guess n) (p : Params) :
    let R := solve_tool e g "crema-sparse" me.name guess (.name "cm_exp") ma.name ga p
    R.exc = none → ∃ x β E, R.g.x = some x ∧ R.g.beta = some β ∧ R.g.error = some E ∧
      IsMaxAbs E (Sum.elim (fun i => degUBCM x i - d.dseq i) (fun i => strCReMa (linkMatrix x) β i - d.strength_sequence i)) := by
  intro R h
  obtain ⟨x, b, s, G, hx0, -, hG, h1, h2, h3, h4, h5, h6, -⟩ := solve_tool_ok_sparse e g me hme ma guess ga p h
  rw [show R.g = _ from hG]
  have k := solutionError_keeps e G
  obtain ⟨k1, k2, k3, k4, k5, k6, k7, k8, k9, k10, k11, k12⟩ := degreeError_keeps G
  have hst : IsMaxAbs (maxAbs fun i => CReMa.expected_strength_crema_undirected_sparse s.x x i - d.strength_sequence i)
      (fun i => strCReMa (linkMatrix x) s.x i - d.strength_sequence i) := by
    simp only [str_sparse_spec x (fun i => (hx0 i).le)]
    exact maxAbs_isMax _
  refine ⟨x, s.x, ?_⟩
  have key : ∃ E, (solutionError e G).1.error = some E ∧
      IsMaxAbs E (Sum.elim (fun i => degUBCM x i - d.dseq i) (fun i => strCReMa (linkMatrix x) s.x i - d.strength_sequence i)) := by
    unfold solutionError
    rw [if_pos (by tauto)]
    unfold strengthError
    simp only [k3, h4, k10, h3, k12, h2, if_true, k11, h5, CremaAdj.asFitness]
    simp only [degreeError, h6]
    refine ⟨_, rfl, isMaxAbs_sum ?_ hst⟩
    simp only [deg_spec]
    exact maxAbs_isMax _
  obtain ⟨E, hE⟩ := key
  exact ⟨E, k.1.trans h6, k.2.2.1.trans h4, hE⟩

/-- C13 (crema-sparse, quasinewton) -/
theorem C13_crema_sparse (e : Env) (he : e.Valid) (g : UAttr d) (ma : Method) (guess ga : Guess n) (p : Params) (hf : p.full_return = true) :
    let R := solve_tool e g "crema-sparse" "quasinewton" guess (.name "cm_exp") ma.name ga p
    R.exc = none → ∃ t x β, R.g.trace_crema = some t ∧ R.g.x = some x ∧ R.g.beta = some β ∧
      (t.Converged p → ∀ i, |strCReMa (linkMatrix x) β i - d.strength_sequence i| ≤ p.tol) := by
  intro R h
  obtain ⟨x, b, s, G, hx0, hsv, hG, h1, h2, h3, h4, h5, h6, h7⟩ := solve_tool_ok_sparse e g .quasinewton (by simp) ma guess ga p h
  rw [show R.g = _ from hG]
  have k := solutionError_keeps e G
  refine ⟨.of s, x, s.x, k.2.2.2.2.2.1.trans (h7 hf), k.1.trans h6, k.2.2.1.trans h4, fun hc i => ?_⟩
  have hr := C13_solver_component _ _ _ _ hsv hc.1 hc.2 i
  have hfn : (cbCremaSparse e d x .quasinewton).fn = (cbCrema e d (triuEdges (linkMatrix x)) .quasinewton).fn := by
    funext β i
    simp only [cbCremaSparse, cbCrema, ← linkMatrix_eq]
    rw [(CReMa.C33_crema_gradient (e.sched n) (he.sched n) β d.strength_sequence x (fun i => (hx0 i).le) i).1]
  rwa [hfn, crema_fn e d (linkMatrix_symm x) (linkMatrix_diag x) (by simp), abs_neg] at hr

/-- the hypotheses of `C13_crema`, `C13_crema_sparse`, `C37_crema_sparse` are met: three nodes with all degrees and strengths 1, started at the solution -/
example (e : Env) (he : e.Valid) (mo : UModel) (hmo : mo = .crema ∨ mo = .crema_sparse) :
    ∃ t x β, let R := solve_tool e ({} : UAttr (regular 3 1 fun _ => 1)) mo.name "quasinewton" (.nodes fun _ => 1 / 2) (.name "cm_exp") "newton" (.nodes 0) { full_return := true }
    R.exc = none ∧ R.g.trace_crema = some t ∧ t.Converged { full_return := true } ∧ R.g.x = some x ∧ R.g.beta = some β ∧ ∀ i, x i = 1 ∧ β i = 1 / 2 := by
  let d := regular 3 1 fun _ => 1
  have h0 : guessCM e.inner d true (.nodes 0) = .ok 0 := regular3U_guess e.inner _
  have hz : (cbCMexp e.inner d .newton).fn 0 = 0 := regular3U_zero e.inner _
  have ht := solver_at_zero _ (({ full_return := true } : Params).opts "newton") _ hz (by simp [Params.opts]; norm_num)
  have hb : guessCrema e d (.nodes fun _ => 1 / 2) = (.ok (fun _ => 1 / 2), .nodes fun _ => 1 / 2) := by
    have hm : maskSet (fun _ : Fin 3 => (1 / 2 : ℝ)) (fun i => d.strength_sequence i = 0) 0 = fun _ => 1 / 2 := by funext i; simp [maskSet, d, regular]
    simp only [guessCrema, hm]
  have hz' : (cbCrema e d (triuEdges (linkMatrix fun _ => 1)) .quasinewton).fn (fun _ => 1 / 2) = 0 := by
    funext i
    rw [crema_fn e d (linkMatrix_symm _) (linkMatrix_diag _) (by simp)]
    have s0 : strCReMa (linkMatrix (fun _ : Fin 3 => 1)) (fun _ => 1 / 2) i = 1 := by
      fin_cases i <;> simp [strCReMa, linkMatrix, linkUBCM, sum_filter, Fin.sum_univ_three] <;> norm_num [Fin.ext_iff]
    rw [s0]
    simp [d, regular]
  refine ⟨⟨0, [norm2 (0 : Fin 3 → ℝ)], [1], []⟩, fun _ => 1, fun _ => 1 / 2, ?_⟩
  have hx : (fun i => Real.exp (-(initState (cbCMexp e.inner d .newton) 0).x (d.inv i))) = fun _ => 1 := by funext i; simp [initState]
  have k := fun g' : UAttr d => solutionError_keeps e g'
  rcases hmo with rfl | rfl
  · have hR := solve_tool_crema_cm_exp e ({} : UAttr d) .quasinewton .newton (.nodes fun _ => 1 / 2) (.nodes 0) { full_return := true } h0 ht hb
    simp only [pmatrix_spec, hx] at hR
    rw [solver_at_zero _ _ _ hz' (by simp [Params.opts]; norm_num)] at hR
    intro R
    rw [show R = _ from hR]
    refine ⟨?_, (k _).2.2.2.2.2.1.trans ?_, ⟨by norm_num, fun δ h => by simp at h; subst h; norm_num⟩, (k _).1.trans ?_, (k _).2.2.1, fun _ => ⟨rfl, rfl⟩⟩
    · simp [solutionError, setSolvedCrema, setSolvedCM, strengthError, degreeError]
    · simp only [setSolvedCrema, setSolvedCM, initState, Trace.of, hz', if_true]
    · simp [setSolvedCrema, setSolvedCM, initState]
  · have hfn : (cbCremaSparse e d (fun _ => 1) .quasinewton).fn = (cbCrema e d (triuEdges (linkMatrix fun _ => 1)) .quasinewton).fn := by
      funext β i
      simp only [cbCremaSparse, cbCrema, ← linkMatrix_eq]
      rw [(CReMa.C33_crema_gradient (e.sched 3) (he.sched 3) β d.strength_sequence (fun _ => 1) (fun i => by norm_num) i).1]
    rw [← hfn] at hz'
    have hR := solve_tool_crema_sparse_cm_exp e ({} : UAttr d) .quasinewton .newton (by simp) (.nodes fun _ => 1 / 2) (.nodes 0) { full_return := true } h0 ht hb
    simp only [hx] at hR
    rw [solver_at_zero _ _ _ hz' (by simp [Params.opts]; norm_num)] at hR
    intro R
    rw [show R = _ from hR]
    refine ⟨?_, (k _).2.2.2.2.2.1.trans ?_, ⟨by norm_num, fun δ h => by simp at h; subst h; norm_num⟩, (k _).1.trans ?_, (k _).2.2.1, fun _ => ⟨rfl, rfl⟩⟩
    · simp [solutionError, setSolvedCrema, setSolvedCM, strengthError, degreeError]
    · simp only [setSolvedCrema, setSolvedCM, initState, Trace.of, hz', if_true]
    · simp [setSolvedCrema, setSolvedCM, initState]

/-- C36 is false for ("crema-sparse", "newton"): a call that raises no exception has made no step, the rates are the initial guess. -/
theorem C36_crema_sparse_newton_fails (e : Env) (g : UAttr d) (ma : Method) (guess ga : Guess n) (p : Params) :
    let R := solve_tool e g "crema-sparse" "newton" guess (.name "cm_exp") ma.name ga p
    R.exc = none → ∃ b guess', guessCrema e d guess = (.ok b, guess') ∧ R.g.beta = some b := by
  intro R h
  obtain ⟨x0, t, b, guess', hθ, ht, h0⟩ := solve_tool_crema_inner e g "crema-sparse" "newton" (.inr rfl) guess ma ga p h
  refine ⟨b, guess', h0, ?_⟩
  have hR : R = solve_tool e g "crema-sparse" "newton" guess (.name "cm_exp") ma.name ga p := rfl
  unfold solve_tool at hR
  rw [if_neg (by decide), if_pos (by simp)] at hR
  unfold solveProblemCrema at hR
  simp only [decide_true] at hR
  rw [solveProblem_cm_exp e.inner _ ma ga p hθ, ht] at hR
  have hl : uLookup "crema-sparse" "newton" = some (.crema_sparse, .newton) := by decide
  unfold setSolvedCM solveCremaTail at hR
  simp only [if_true, h0, hl, true_and, CremaAdj.asFitness] at hR
  cases hsv : solver (cbCremaSparse e d (fun i => Real.exp (-t.x (d.inv i))) .newton) (p.opts "newton") b with
  | error z => rw [hsv] at hR; rw [hR] at h; simp at h
  | ok s =>
    rw [hsv] at hR
    by_cases hn : s.n_steps = 0
    · obtain ⟨xs, hxs⟩ := C15_solver_history _ _ _ _ hsv
      have hsx : s.x = b := by rw [← hxs.stop, hn, hxs.start]
      simp only [hn, ne_eq, not_true_eq_false, if_false] at hR
      rw [hR, ← hsx]
      exact (solutionError_keeps e _).2.2.1
    · simp only [hn, ne_eq, not_false_eq_true, if_true] at hR
      rw [hR] at h
      simp at h

end Verif.Solve
