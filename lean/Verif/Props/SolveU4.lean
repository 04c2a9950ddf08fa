import Verif.Props.SolveU3

/-! C13 (consequence for the constraints), C40 and C46 for `UndirectedGraph.solve_tool`. -/

namespace Verif.Solve

open Verif Finset Reduction Solver Spec

open Classical in
attribute [local instance 0] propDecidable

variable {n : ℕ} [NeZero n] {d : UData n}

/-! ### C13: a run that stops on its tolerance satisfies the constraints within the tolerance -/

/-- what the trace of a run says: it stopped before `max_steps` and its last step was longer than `eps` -/
def Trace.Converged (t : Trace) (p : Params) : Prop := t.n_steps < p.max_steps ∧ ∀ δ, t.diff_seq.getLast? = some δ → p.eps < δ

/-- the residual of the reduced gradient is the violation of the degree times the multiplicity -/
theorem residual_cm_exp (d : UData n) (θ : Fin d.r → ℝ) (i : Fin n) :
    CM.loglikelihood_prime_cm_exp θ d.k d.c (d.inv i) = d.c (d.inv i) * (degUBCM (fun i => Real.exp (-θ (d.inv i))) i - d.dseq i) := by
  rw [CM.C09_cm_gradients]
  have h1 := CM.C10_cm_reduction_gradient d.dseq (fun q => Real.exp (-θ q)) i
  have h2 := CM.prime_full_eq (fun i => Real.exp (-θ (d.inv i))) (fun i => (d.dseq i : ℝ)) (fun i => (Real.exp_pos _).ne') i
  have h1' : CM.loglikelihood_prime_cm (fun q => Real.exp (-θ q)) d.k d.c (d.inv i) = d.c (d.inv i) *
    CM.loglikelihood_prime_cm (fun i => Real.exp (-θ (d.inv i))) (fun i => (d.dseq i : ℝ)) (fun _ => 1) i := h1
  rw [h1', ← deg_spec]
  linear_combination (-(d.c (d.inv i))) * h2

/-- C13 (cm_exp): if `solve_tool("cm_exp")` with method newton or quasinewton returns, and its trace shows that it stopped neither on `max_steps` nor on `eps`,
then every expected degree is within `tol` of the observed one. -/
theorem C13_cm_exp (e : Env) (g : UAttr d) (me : Method) (hme : me ≠ .fixed_point) (guess : Guess n) (adj : AdjSpec n) (ma : String) (ga : Guess n)
    (p : Params) (hf : p.full_return = true) :
    let R := solve_tool e g "cm_exp" me.name guess adj ma ga p
    R.exc = none → ∃ t x, R.g.trace = some t ∧ R.g.x = some x ∧ (t.Converged p → ∀ i, |degUBCM x i - d.dseq i| ≤ p.tol) := by
  intro R h
  obtain ⟨me', x0, s, hm, -, hs, hG⟩ := solve_tool_ok_cm_exp e g me.name guess adj ma ga p h
  have hme' : me' = me := by revert hm; cases me <;> cases me' <;> simp [Method.name]
  subst hme'
  have k := solutionError_keeps e (setSolvedCM (d := d) { g with last_model := some "cm_exp", full_return := p.full_return, args := some .cm, step_fun := some .cm_exp, fun_pmatrix := true } true s)
  rw [show R = _ from hG]
  refine ⟨.of s, fun i => Real.exp (-s.x (d.inv i)), ?_, k.1, fun hc i => ?_⟩
  · refine k.2.2.2.2.1.trans ?_
    simp [setSolvedCM, hf]
  · have hr := C13_solver_component _ _ _ _ hs hc.1 hc.2 (d.inv i)
    have hc1 : (1 : ℝ) ≤ d.c (d.inv i) := by
      have := r_multiplicity_pos d.dseq (d.inv i)
      simp only [UData.c]; exact_mod_cast this
    have hfn : (cbCMexp e d me').fn s.x (d.inv i) = -(d.c (d.inv i) * (degUBCM (fun i => Real.exp (-s.x (d.inv i))) i - d.dseq i)) := by
      rw [← residual_cm_exp]
      cases me' <;> first | rfl | exact absurd rfl hme
    rw [hfn, abs_neg, abs_mul, abs_of_pos (by linarith)] at hr
    calc |degUBCM (fun i => Real.exp (-s.x (d.inv i))) i - d.dseq i|
        ≤ d.c (d.inv i) * |degUBCM (fun i => Real.exp (-s.x (d.inv i))) i - d.dseq i| := le_mul_of_one_le_left (abs_nonneg _) hc1
      _ ≤ p.tol := hr

/-- C13 (cm): the same with the factor `x i`, at a positive solution -/
theorem C13_cm (e : Env) (g : UAttr d) (me : Method) (hme : me ≠ .fixed_point) (guess : Guess n) (adj : AdjSpec n) (ma : String) (ga : Guess n)
    (p : Params) (hf : p.full_return = true) :
    let R := solve_tool e g "cm" me.name guess adj ma ga p
    R.exc = none → ∃ t x, R.g.trace = some t ∧ R.g.x = some x ∧ (t.Converged p → (∀ i, 0 < x i) → ∀ i, |degUBCM x i - d.dseq i| ≤ x i * p.tol) := by
  intro R h
  obtain ⟨me', x0, s, hm, -, hs, hG⟩ := solve_tool_ok_cm e g me.name guess adj ma ga p h
  have hme' : me' = me := by revert hm; cases me <;> cases me' <;> simp [Method.name]
  subst hme'
  have k := solutionError_keeps e (setSolvedCM (d := d) { g with last_model := some "cm", full_return := p.full_return, args := some .cm, step_fun := some .cm, fun_pmatrix := true } false s)
  rw [show R = _ from hG]
  refine ⟨.of s, fun i => s.x (d.inv i), ?_, k.1, fun hc hx i => ?_⟩
  · refine k.2.2.2.2.1.trans ?_
    simp [setSolvedCM, hf]
  · have hr := C13_solver_component _ _ _ _ hs hc.1 hc.2 (d.inv i)
    have hc1 : (1 : ℝ) ≤ d.c (d.inv i) := by
      have := r_multiplicity_pos d.dseq (d.inv i)
      simp only [UData.c]; exact_mod_cast this
    have h1 : CM.loglikelihood_prime_cm s.x d.k d.c (d.inv i) = d.c (d.inv i) *
      CM.loglikelihood_prime_cm (fun i => s.x (d.inv i)) (fun i => (d.dseq i : ℝ)) (fun _ => 1) i := CM.C10_cm_reduction_gradient d.dseq s.x i
    have h2 := CM.prime_full_eq (fun i => s.x (d.inv i)) (fun i => (d.dseq i : ℝ)) (fun i => (hx i).ne') i
    rw [deg_spec] at h2
    set P := CM.loglikelihood_prime_cm (fun i => s.x (d.inv i)) (fun i => (d.dseq i : ℝ)) (fun _ => 1) i
    have hfn : (cbCM e d me').fn s.x (d.inv i) = -(d.c (d.inv i) * P) := by
      rw [← h1]
      cases me' <;> first | rfl | exact absurd rfl hme
    rw [hfn, abs_neg, abs_mul, abs_of_pos (by linarith)] at hr
    have hP : |P| ≤ p.tol := (le_mul_of_one_le_left (abs_nonneg _) hc1).trans hr
    rw [abs_sub_comm, ← h2, abs_mul, abs_of_pos (hx i)]
    exact mul_le_mul_of_nonneg_left hP (hx i).le

/-- C13 (ecm_exp), at an admissible solution -/
theorem C13_ecm_exp (e : Env) (g : UAttr d) (me : Method) (hme : me ≠ .fixed_point) (guess : Guess n) (adj : AdjSpec n) (ma : String) (ga : Guess n)
    (p : Params) (hf : p.full_return = true) :
    let R := solve_tool e g "ecm_exp" me.name guess adj ma ga p
    R.exc = none → ∃ t x y, R.g.trace = some t ∧ R.g.x = some x ∧ R.g.y = some y ∧ (t.Converged p → (∀ i j, i ≠ j → y i * y j < 1) →
      ∀ i, |degUECM x y i - d.dseq i| ≤ p.tol ∧ |strUECM x y i - d.strength_sequence i| ≤ p.tol) := by
  intro R h
  obtain ⟨me', x0, y0, guess', s, hm, -, hs, hG⟩ := solve_tool_ok_ecm_exp e g me.name guess adj ma ga p h
  have hme' : me' = me := by revert hm; cases me <;> cases me' <;> simp [Method.name]
  subst hme'
  have k := solutionError_keeps e (setSolvedECM (d := d) { g with last_model := some "ecm_exp", full_return := p.full_return, x := some x0, y := some y0, args := some .ecm, step_fun := some .ecm_exp } true s)
  rw [show R = _ from hG]
  refine ⟨.of s, fun i => Real.exp (-s.x (0, i)), fun i => Real.exp (-s.x (1, i)), ?_, k.1, k.2.1, fun hc hy i => ?_⟩
  · refine k.2.2.2.2.1.trans ?_
    simp [setSolvedECM, hf]
  · have hadm : AdmECMexp s.x := by
      intro i j hij
      have := hy i j hij
      rw [← Real.exp_add, Real.exp_lt_one_iff] at this
      linarith
    obtain ⟨h1, h2⟩ := ECM.C03_ecm_exp_residual s.x d.deg d.strength_sequence hadm i
    rw [deg_ecm_spec] at h1
    rw [str_ecm_spec] at h2
    have hr0 := C13_solver_component _ _ _ _ hs hc.1 hc.2 (0, i)
    have hr1 := C13_solver_component _ _ _ _ hs hc.1 hc.2 (1, i)
    have hfn : ∀ v, (cbECMexp e d me').fn s.x v = -ECM.loglikelihood_prime_ecm_exp s.x d.deg d.strength_sequence v := by
      intro v
      cases me' <;> first | rfl | exact absurd rfl hme
    rw [hfn, abs_neg, h1] at hr0
    rw [hfn, abs_neg, h2] at hr1
    exact ⟨hr0, hr1⟩

/-- C13 (ecm): the same with the factors `x i` and `y i` -/
theorem C13_ecm (e : Env) (g : UAttr d) (me : Method) (hme : me ≠ .fixed_point) (guess : Guess n) (adj : AdjSpec n) (ma : String) (ga : Guess n)
    (p : Params) (hf : p.full_return = true) :
    let R := solve_tool e g "ecm" me.name guess adj ma ga p
    R.exc = none → ∃ t x y, R.g.trace = some t ∧ R.g.x = some x ∧ R.g.y = some y ∧ (t.Converged p → (∀ i, 0 < x i) → (∀ i, 0 < y i) →
      (∀ i j, i ≠ j → y i * y j < 1) →
      ∀ i, |degUECM x y i - d.dseq i| ≤ x i * p.tol ∧ |strUECM x y i - d.strength_sequence i| ≤ y i * p.tol) := by
  intro R h
  obtain ⟨me', x0, y0, guess', s, hm, -, hs, hG⟩ := solve_tool_ok_ecm e g me.name guess adj ma ga p h
  have hme' : me' = me := by revert hm; cases me <;> cases me' <;> simp [Method.name]
  subst hme'
  have k := solutionError_keeps e (setSolvedECM (d := d) { g with last_model := some "ecm", full_return := p.full_return, x := some x0, y := some y0, args := some .ecm, step_fun := some .ecm } false s)
  rw [show R = _ from hG]
  refine ⟨.of s, fun i => s.x (0, i), fun i => s.x (1, i), ?_, k.1, k.2.1, fun hc hx hy hxy i => ?_⟩
  · refine k.2.2.2.2.1.trans ?_
    simp [setSolvedECM, hf]
  · have hadm : AdmECM s.x := ⟨hx, hy, hxy⟩
    obtain ⟨h1, h2⟩ := ECM.C03_ecm_residual s.x d.deg d.strength_sequence hadm i
    rw [deg_ecm_spec] at h1
    rw [str_ecm_spec] at h2
    have hr0 := C13_solver_component _ _ _ _ hs hc.1 hc.2 (0, i)
    have hr1 := C13_solver_component _ _ _ _ hs hc.1 hc.2 (1, i)
    have hfn : ∀ v, (cbECM e d me').fn s.x v = -ECM.loglikelihood_prime_ecm s.x d.deg d.strength_sequence v := by
      intro v
      cases me' <;> first | rfl | exact absurd rfl hme
    rw [hfn, abs_neg] at hr0
    rw [hfn, abs_neg] at hr1
    constructor
    · rw [abs_sub_comm, show (d.dseq i : ℝ) = d.deg i from rfl, ← h1, abs_mul, abs_of_pos (hx i)]
      exact mul_le_mul_of_nonneg_left hr0 (hx i).le
    · rw [abs_sub_comm, ← h2, abs_mul, abs_of_pos (hy i)]
      exact mul_le_mul_of_nonneg_left hr1 (hy i).le

/-- C13 (crema on a given symmetric matrix without self-loops) -/
theorem C13_crema_matrix (e : Env) (g : UAttr d) (me : Method) (hme : me ≠ .fixed_point) (guess : Guess n) (a : Fin n → Fin n → ℝ)
    (hs : ∀ i j, a i j = a j i) (hd : ∀ i, a i i = 0) (ma : String) (ga : Guess n) (p : Params) (hf : p.full_return = true) :
    let R := solve_tool e g "crema" me.name guess (.matrix a) ma ga p
    R.exc = none → ∃ t β, R.g.trace_crema = some t ∧ R.g.beta = some β ∧ (t.Converged p → ∀ i, |strCReMa a β i - d.strength_sequence i| ≤ p.tol) := by
  intro R h
  obtain ⟨b, guess', h0⟩ := solve_tool_crema_args e g me.name guess a ma ga p h
  have he := solve_tool_crema_matrix e g me guess a ma ga p h0
  simp only at he
  rw [show R = _ from he]
  rw [show R = _ from he] at h
  cases hsv : solver (cbCrema e d (triuEdges a) me) (p.opts me.name) b with
  | error x => rw [hsv] at h; simp at h
  | ok s =>
    have k := fun g' : UAttr d => solutionError_keeps e g'
    refine ⟨.of s, s.x, ?_, (k _).2.2.1, fun hc i => ?_⟩
    · refine (k _).2.2.2.2.2.1.trans ?_
      simp [setSolvedCrema, hf]
    · have hr := C13_solver_component _ _ _ _ hsv hc.1 hc.2 i
      have hfn : (cbCrema e d (triuEdges a) me).fn s.x i = -(strCReMa a s.x i - d.strength_sequence i) := by
        rw [← str_crema_spec a hs hd]
        have : CReMa.loglikelihood_prime_crema_undirected s.x d.strength_sequence (triuEdges a) i =
            CReMa.expected_strength_crema_undirected s.x (triuEdges a) i - d.strength_sequence i := by rw [CReMa.prime_eq]; ring
        rw [← this]
        cases me <;> first | rfl | exact absurd rfl hme
      rwa [hfn, abs_neg] at hr

/-! ### C40: `model_loglikelihood` -/

/-- C40 (cm, cm_exp): the value is minus the log-probability of the observed degrees at the stored fitnesses. -/
theorem C40_cm_negated (e : Env) (g : UAttr d) (mo : UModel) (hmo : mo = .cm ∨ mo = .cm_exp) (method : String) (guess : Guess n)
    (adj : AdjSpec n) (ma : String) (ga : Guess n) (p : Params) :
    let R := solve_tool e g mo.name method guess adj ma ga p
    R.exc = none → ∃ x, R.g.x = some x ∧ model_loglikelihood e R.g = .ok (-logUBCM d.deg x) := by
  intro R h
  have k := fun g' : UAttr d => solutionError_keeps e g'
  rcases hmo with rfl | rfl
  · obtain ⟨me, x0, s, -, -, -, hG⟩ := solve_tool_ok_cm e g method guess adj ma ga p h
    rw [show R = _ from hG]
    refine ⟨_, (k _).1, ?_⟩
    unfold model_loglikelihood
    simp only [(k _).2.2.2.2.2.2.2.2.1, (k _).2.2.2.2.2.2.2.1, (k _).2.2.2.1, setSolvedCM, ll_red_spec]
    rfl
  · obtain ⟨me, x0, s, -, -, -, hG⟩ := solve_tool_ok_cm_exp e g method guess adj ma ga p h
    rw [show R = _ from hG]
    refine ⟨_, (k _).1, ?_⟩
    unfold model_loglikelihood
    simp only [(k _).2.2.2.2.2.2.2.2.1, (k _).2.2.2.2.2.2.2.1, (k _).2.2.2.1, setSolvedCM, ll_exp_red_spec]
    rfl

/-- C40 (ecm, ecm_exp) -/
theorem C40_ecm_negated (e : Env) (g : UAttr d) (mo : UModel) (hmo : mo = .ecm ∨ mo = .ecm_exp) (method : String) (guess : Guess n)
    (adj : AdjSpec n) (ma : String) (ga : Guess n) (p : Params) :
    let R := solve_tool e g mo.name method guess adj ma ga p
    R.exc = none → ∃ x y, R.g.x = some x ∧ R.g.y = some y ∧ model_loglikelihood e R.g = .ok (-logUECM d.deg d.strength_sequence x y) := by
  intro R h
  have k := fun g' : UAttr d => solutionError_keeps e g'
  rcases hmo with rfl | rfl
  · obtain ⟨me, x0, y0, guess', s, -, -, -, hG⟩ := solve_tool_ok_ecm e g method guess adj ma ga p h
    rw [show R = _ from hG]
    refine ⟨_, _, (k _).1, (k _).2.1, ?_⟩
    unfold model_loglikelihood
    simp only [(k _).2.2.2.2.2.2.2.2.1, (k _).2.2.2.2.2.2.2.1, (k _).2.2.2.1, setSolvedECM, ll_ecm_spec]
    rfl
  · obtain ⟨me, x0, y0, guess', s, -, -, -, hG⟩ := solve_tool_ok_ecm_exp e g method guess adj ma ga p h
    rw [show R = _ from hG]
    refine ⟨_, _, (k _).1, (k _).2.1, ?_⟩
    unfold model_loglikelihood
    simp only [(k _).2.2.2.2.2.2.2.2.1, (k _).2.2.2.2.2.2.2.1, (k _).2.2.2.1, setSolvedECM, ll_ecm_exp_spec]
    rfl

/-- C40 (crema on a given symmetric matrix without self-loops) -/
theorem C40_crema_negated (e : Env) (g : UAttr d) (me : Method) (guess : Guess n) (a : Fin n → Fin n → ℝ)
    (hs : ∀ i j, a i j = a j i) (hd : ∀ i, a i i = 0) (ma : String) (ga : Guess n) (p : Params) :
    let R := solve_tool e g "crema" me.name guess (.matrix a) ma ga p
    R.exc = none → ∃ β, R.g.beta = some β ∧ model_loglikelihood e R.g = .ok (-logCReMa a d.strength_sequence β) := by
  intro R h
  obtain ⟨b, guess', h0⟩ := solve_tool_crema_args e g me.name guess a ma ga p h
  have he := solve_tool_crema_matrix e g me guess a ma ga p h0
  simp only at he
  rw [show R = _ from he]
  rw [show R = _ from he] at h
  cases hsv : solver (cbCrema e d (triuEdges a) me) (p.opts me.name) b with
  | error x => rw [hsv] at h; simp at h
  | ok s =>
    have k := fun g' : UAttr d => solutionError_keeps e g'
    refine ⟨s.x, (k _).2.2.1, ?_⟩
    unfold model_loglikelihood
    simp only [(k _).2.2.2.2.2.2.2.2.1, (k _).2.2.2.2.2.2.2.1, (k _).2.2.2.1, setSolvedCrema, ll_crema_spec a hs hd]

/-! ### C46: the caller's array -/

/-- C46 (cm, cm_exp): the caller's guess is never modified. -/
theorem C46_cm (e : Env) (g : UAttr d) (mo : UModel) (hmo : mo = .cm ∨ mo = .cm_exp) (method : String) (guess : Guess n)
    (adj : AdjSpec n) (ma : String) (ga : Guess n) (p : Params) :
    (solve_tool e g mo.name method guess adj ma ga p).guess = guess := by
  have hn : mo.name = "cm" ∨ mo.name = "cm_exp" := by rcases hmo with rfl | rfl <;> simp [UModel.name]
  unfold solve_tool
  rw [if_pos (by tauto)]
  unfold solveProblem
  rw [if_pos hn]
  cases guessCM e d (decide (mo.name = "cm_exp")) guess with
  | error x => rfl
  | ok x0 =>
    simp only
    cases uLookup mo.name method with
    | none => rfl
    | some v =>
      obtain ⟨mo', me⟩ := v
      simp only
      cases solver (if mo.name = "cm_exp" then cbCMexp e d me else cbCM e d me) (p.opts method) x0 <;> rfl

/-- C46 (ecm, ecm_exp): the caller's array of length `2n` holds zeros afterwards wherever the degree or the strength is zero, and is unchanged elsewhere. -/
theorem C46_ecm_overwritten (e : Env) (g : UAttr d) (mo : UModel) (hmo : mo = .ecm ∨ mo = .ecm_exp) (method : String) (v : Fin 2 × Fin n → ℝ)
    (adj : AdjSpec n) (ma : String) (ga : Guess n) (p : Params) :
    (solve_tool e g mo.name method (.pairs v) adj ma ga p).guess =
      .pairs fun u => if u.1 = 0 ∧ d.dseq u.2 = 0 ∨ u.1 = 1 ∧ d.strength_sequence u.2 = 0 then 0 else v u := by
  have hn : mo.name = "ecm" ∨ mo.name = "ecm_exp" := by rcases hmo with rfl | rfl <;> simp [UModel.name]
  have hn' : ¬ (mo.name = "cm" ∨ mo.name = "cm_exp") := by rcases hmo with rfl | rfl <;> simp [UModel.name]
  have hv : cat2 (maskSet (fun i => v (0, i)) (fun i => d.deg i = 0) 0) (maskSet (fun i => v (1, i)) (fun i => d.strength_sequence i = 0) 0) =
      fun u => if u.1 = 0 ∧ d.dseq u.2 = 0 ∨ u.1 = 1 ∧ d.strength_sequence u.2 = 0 then 0 else v u := by
    funext ⟨b, i⟩
    fin_cases b <;> simp [cat2, maskSet, UData.deg]
  rw [← hv]
  unfold solve_tool
  rw [if_pos (by tauto)]
  unfold solveProblem
  rw [if_neg hn', if_pos hn]
  simp only [guessECM]
  cases uLookup mo.name method with
  | none => rfl
  | some v =>
    obtain ⟨mo', me⟩ := v
    simp only
    cases solver (if mo.name = "ecm_exp" then cbECMexp e d me else cbECM e d me) (p.opts method) _ <;> rfl

/-- C46 is false for ecm: an array with a non-zero entry for a node of zero strength is changed. -/
theorem C46_ecm_false : ∃ (d : UData 2) (v : Fin 2 × Fin 2 → ℝ), ∀ (e : Env) (g : UAttr d) (method : String) (adj : AdjSpec 2) (ma : String) (ga : Guess 2)
    (p : Params), (solve_tool e g "ecm" method (.pairs v) adj ma ga p).guess ≠ .pairs v := by
  refine ⟨⟨fun _ => 1, fun _ => 0⟩, fun _ => 1, fun e g method adj ma ga p h => ?_⟩
  have h2 := C46_ecm_overwritten e g .ecm (.inl rfl) method (fun _ => 1) adj ma ga p
  rw [show UModel.name .ecm = "ecm" from rfl, h] at h2
  simp only [Guess.pairs.injEq] at h2
  have := congrFun h2 (1, 0)
  simp at this

/-- C46 (crema on a given matrix): the caller's array holds zeros afterwards wherever the strength is zero. -/
theorem C46_crema_overwritten (e : Env) (g : UAttr d) (method : String) (v : Fin n → ℝ)
    (a : Fin n → Fin n → ℝ) (ma : String) (ga : Guess n) (p : Params) :
    (solve_tool e g "crema" method (.nodes v) (.matrix a) ma ga p).guess = .nodes fun i => if d.strength_sequence i = 0 then 0 else v i := by
  unfold solve_tool
  rw [if_neg (by decide), if_pos (by simp)]
  unfold solveProblemCrema solveCremaTail
  simp only [Bool.false_eq_true, if_false, guessCrema]
  cases uLookup "crema" method with
  | none => rfl
  | some w =>
    obtain ⟨mo', me⟩ := w
    cases mo' <;> simp only
    case crema =>
      cases solver (cbCrema e d (triuEdges a) me) (p.opts method) (maskSet v (fun i => d.strength_sequence i = 0) 0) <;> rfl
    case crema_sparse =>
      by_cases hlen : (triuEdges a).length = n
      · simp only [if_pos hlen]
        cases solver (cbCremaSparseOn e d (triuEdges a) me) (p.opts method) (maskSet v (fun i => d.strength_sequence i = 0) 0) <;> rfl
      · simp only [if_neg hlen]
        rfl
    all_goals rfl

/-- C46 and C53: an array with two values per node is refused by crema with `IndexError` and is not changed. -/
theorem C46_crema_refused (e : Env) (g : UAttr d) (method : String) (v : Fin 2 × Fin n → ℝ) (a : Fin n → Fin n → ℝ) (ma : String) (ga : Guess n) (p : Params) :
    let R := solve_tool e g "crema" method (.pairs v) (.matrix a) ma ga p
    R.exc = some (.py .indexError) ∧ R.guess = .pairs v := by
  intro R
  have : R = solve_tool e g "crema" method (.pairs v) (.matrix a) ma ga p := rfl
  unfold solve_tool at this
  rw [if_neg (by decide), if_pos (by simp)] at this
  rw [this]
  unfold solveProblemCrema solveCremaTail
  simp only [Bool.false_eq_true, if_false, guessCrema]
  exact ⟨trivial, trivial⟩

end Verif.Solve
