import Verif.Props.Checked4

/-! C79: whatever the network, the guess and the options, a call that the other theorems describe as returning either divides by zero somewhere or is, value for value, the call with
checked divisions. -/

set_option linter.unusedSectionVars false

namespace Verif.Checked

open Verif Finset Reduction Solver Spec Solve CReMa DCReMa EM

noncomputable section

open Classical in
attribute [local instance 0] propDecidable

/-! ### the solver -/

section solver
variable {ι : Type} [Fintype ι] [DecidableEq ι] [Nonempty ι]

/-- the checked functions raise or give the values of the unchecked ones -/
def Agree (C : Callbacks ι) (K : Check ι) (m : String) : Prop :=
  ∀ x, (K.fn x = none ∨ K.fn x = some (C.fn x)) ∧ (m = "newton" → K.jac x = none ∨ K.jac x = some (C.jac x)) ∧
    (m = "quasinewton" → K.jacDiag x = none ∨ K.jacDiag x = some (C.jacDiag x))

theorem guard_or {α : Type} {P : Prop} {v : α} {o : Option α} (h : o = guard P v) : o = none ∨ o = some v := by
  subst h
  unfold guard
  split_ifs
  · exact .inr rfl
  · exact .inl rfl

theorem map_or {α β : Type} {P : Prop} {v : α} {o : Option α} (f : α → β) (h : o = guard P v) : o.map f = none ∨ o.map f = some (f v) := by
  rcases guard_or h with h | h
  · exact .inl (by rw [h]; rfl)
  · exact .inr (by rw [h]; rfl)

theorem directionE_or {C : Callbacks ι} {K : Check ι} {o : Opts} (h : Agree C K o.method) (x f : ι → ℝ) :
    directionE C K o x f = .error .zeroDivision ∨ directionE C K o x f = lift (direction C o x f) := by
  obtain ⟨h1, h2, h3⟩ := h x
  rcases h1 with h1 | h1
  swap
  · by_cases hs : SafeAt C K o.method x
    · exact .inr (directionE_eq hs f)
    · left
      unfold directionE
      by_cases a : o.method = "newton"
      · rcases h2 a with h | h
        · rw [if_pos a, h]; rfl
        · exact absurd ⟨h1, fun _ => h, fun b => absurd (a.symm.trans b) (by decide)⟩ hs
      · by_cases b : o.method = "quasinewton"
        · rcases h3 b with h | h
          · rw [if_neg a, if_pos b, h]; rfl
          · exact absurd ⟨h1, fun a' => absurd a' a, fun _ => h⟩ hs
        · exact absurd ⟨h1, fun a' => absurd a' a, fun b' => absurd b' b⟩ hs
  · unfold directionE direction
    by_cases a : o.method = "newton"
    · rw [if_pos a, if_pos a]
      rcases h2 a with h | h
      · left; rw [h]; rfl
      · rw [h]
        by_cases r : o.regularise = true
        · left; simp only [if_pos r]; rw [h1]; rfl
        · right; simp only [if_neg r]; rfl
    · rw [if_neg a, if_neg a]
      by_cases b : o.method = "quasinewton"
      · rw [if_pos b, if_pos b]
        rcases h3 b with h | h
        · left; rw [h]; rfl
        · rw [h]
          by_cases r : o.regularise = true
          · left; simp only [if_pos r]; rw [h1]; rfl
          · right
            simp only [if_neg r]
            show (if _ then _ else _) = lift (if _ then _ else _)
            split_ifs <;> rfl
      · right
        rw [if_neg b, if_neg b]
        split_ifs <;> rfl

/-- a run with checked divisions raises `ZeroDivisionError` or is the run of `Model/Solver` -/
theorem solverE_or {C : Callbacks ι} {K : Check ι} {o : Opts} (h : Agree C K o.method) (x0 : ι → ℝ) :
    solverE C K o x0 = .error .zeroDivision ∨ solverE C K o x0 = lift (solver C o x0) := by
  have key : ∀ k (s : State ι), loopE C K o k s = .error .zeroDivision ∨ loopE C K o k s = lift (loop C o k s) := by
    intro k
    induction k with
    | zero => exact fun s => .inr rfl
    | succ k ih =>
      intro s
      unfold loopE loop
      split_ifs with hc
      · unfold stepE step
        rcases directionE_or h s.x s.f with hd | hd
        · left; rw [hd]; rfl
        · rw [hd]
          cases hd : direction C o s.x s.f with
          | error e => exact .inr rfl
          | ok dx =>
            show ((lift (stepLength C o s dx) >>= _) >>= _) = _ ∨ ((lift (stepLength C o s dx) >>= _) >>= _) = _
            dsimp only
            cases ha : stepLength C o s dx with
            | error e => exact .inr rfl
            | ok alfa =>
              show ((get (K.fn (s.x + alfa • dx)) >>= _) >>= _) = _ ∨ ((get (K.fn (s.x + alfa • dx)) >>= _) >>= _) = _
              rcases (h (s.x + alfa • dx)).1 with hf | hf
              · left; rw [hf]; rfl
              · rw [hf]; exact ih _
      · exact .inr rfl
  unfold solverE solver
  rcases (h x0).1 with hf | hf
  · left; rw [hf]; rfl
  · rw [hf]; exact key _ _

end solver

variable {n : ℕ} [NeZero n]

section undirected
variable {d : UData n}

theorem agree_cm (e : Env) (m : Method) : Agree (cbCM e d m) (chkCM d m) m.name := fun x =>
  ⟨by
    cases m with
    | newton => exact map_or _ (prime_cm_guard x d.k d.c)
    | quasinewton => exact map_or _ (prime_cm_guard x d.k d.c)
    | fixed_point => exact guard_or (iterative_cm_guard x d.k d.c), fun _ => map_or _ (hessian_cm_guard x d.k d.c), fun _ => map_or _ (hessian_diag_cm_guard x d.k d.c)⟩

theorem agree_ecm (e : Env) (m : Method) : Agree (cbECM e d m) (chkECM d m) m.name := fun x =>
  ⟨by
    cases m with
    | newton => exact map_or _ (prime_ecm_guard x d.deg d.strength_sequence)
    | quasinewton => exact map_or _ (prime_ecm_guard x d.deg d.strength_sequence)
    | fixed_point => exact guard_or (iterative_ecm_guard x d.deg d.strength_sequence), fun _ => map_or _ (hessian_ecm_guard x d.deg d.strength_sequence),
    fun _ => map_or _ (hessian_diag_ecm_guard x d.deg d.strength_sequence)⟩

theorem agree_crema (e : Env) (adj : Edges n) (m : Method) : Agree (cbCrema e d adj m) (chkCrema d adj m) m.name := fun x =>
  ⟨by
    cases m with
    | newton => exact map_or _ (prime_crema_guard x d.strength_sequence adj)
    | quasinewton => exact map_or _ (prime_crema_guard x d.strength_sequence adj)
    | fixed_point => exact map_or _ (iterative_crema_guard x d.strength_sequence adj), fun _ => map_or _ (hessian_crema_guard x adj),
    fun _ => map_or _ (hessian_diag_crema_guard x adj)⟩

/-- C79 (cm), every network, guess and option: a call that returns has divided by zero, or is the checked run and stores its parameters and its expected degrees. -/
theorem C79_cm_agrees (e : Env) (m : Method) (guess : Guess n) (p : Params) (g : UAttr d) (adj : AdjSpec n) (ma : String) (ga : Guess n) :
    let R := solve_tool e g "cm" m.name guess adj ma ga p
    R.exc = none → runCM e d m guess p = .solver .zeroDivision ∨
      ∃ s k, runCM e d m guess p = .done s k ∧ R.g.x = some (fun i => s.x (d.inv i)) ∧ R.g.expected_dseq = some k ∧ k = degUBCM fun i => s.x (d.inv i) := by
  intro R h
  obtain ⟨me, x0, s, hm, h0, hsv, hG⟩ := solve_tool_ok_cm e g m.name guess adj ma ga p h
  obtain rfl : m = me := by cases m <;> cases me <;> first | rfl | (simp [Method.name] at hm)
  obtain ⟨x, E, r, ex, ek, -⟩ := C54_cm e g .cm (.inl rfl) m.name guess adj ma ga p h
  have hx1 : R.g.x = some fun i => s.x (d.inv i) := by
    rw [show R = _ from hG]; exact (solutionError_keeps e _).1
  obtain rfl : x = fun i => s.x (d.inv i) := Option.some.inj (ex.symm.trans hx1)
  unfold runCM
  rw [h0]
  dsimp only
  rcases solverE_or (o := p.opts m.name) (agree_cm e m) x0 with hE | hE
  · left; rw [hE]
  rw [hE, hsv]
  simp only [lift]
  have hs : CM.expected_degree_cm (fun i => s.x (d.inv i)) = degUBCM fun i => s.x (d.inv i) := funext fun i => deg_spec _ i
  rcases guard_or (expected_degree_cm_guard fun i => s.x (d.inv i)) with hk | hk
  · left; rw [hk]
  · right; rw [hk, hs]
    exact ⟨s, _, rfl, hx1, ek, rfl⟩

/-- C79 (ecm), every network, guess and option -/
theorem C79_ecm_agrees (e : Env) (m : Method) (guess : Guess n) (p : Params) (g : UAttr d) (adj : AdjSpec n) (ma : String) (ga : Guess n) :
    let R := solve_tool e g "ecm" m.name guess adj ma ga p
    R.exc = none → runECM e d m guess p = .solver .zeroDivision ∨
      ∃ s x y, runECM e d m guess p = .done s (cat2 (degUECM x y) (strUECM x y)) ∧ s.x = cat2 x y ∧ R.g.x = some x ∧ R.g.y = some y ∧
        R.g.expected_dseq = some (degUECM x y) ∧ R.g.expected_strength_seq = some (strUECM x y) := by
  intro R h
  obtain ⟨me', x0, y0, guess', s, hm', h0, hs, hG⟩ := solve_tool_ok_ecm e g m.name guess adj ma ga p h
  obtain rfl : me' = m := by revert hm'; cases m <;> cases me' <;> simp [Method.name]
  have k := solutionError_keeps e (setSolvedECM (d := d) { g with last_model := some "ecm", full_return := p.full_return, x := some x0, y := some y0, args := some .ecm, step_fun := some .ecm } false s)
  obtain ⟨x, y, E, r, E', r', ex, ey, ek, es, -⟩ := C54_ecm e g .ecm (.inl rfl) me'.name guess adj ma ga p h
  have hx1 : R.g.x = some fun i => s.x (0, i) := by rw [show R = _ from hG]; exact k.1
  have hy1 : R.g.y = some fun i => s.x (1, i) := by rw [show R = _ from hG]; exact k.2.1
  obtain rfl : x = fun i => s.x (0, i) := Option.some.inj (ex.symm.trans hx1)
  obtain rfl : y = fun i => s.x (1, i) := Option.some.inj (ey.symm.trans hy1)
  unfold runECM
  rw [h0]
  dsimp only
  rcases solverE_or (o := p.opts me'.name) (agree_ecm e me') (cat2 x0 y0) with hE | hE
  · left; rw [hE]
  rw [hE, hs]
  simp only [lift]
  rcases guard_or (expected_ecm_guard s.x) with hk | hk
  · left; rw [hk]
  · right; rw [hk]
    refine ⟨s, _, _, ?_, ?_, hx1, hy1, ek, es⟩
    · refine congrArg (Outcome.done s) (funext fun v => ?_)
      obtain ⟨b, i⟩ := v
      match b with
      | 0 => rw [deg_ecm_spec, EM.cat2_zero]
      | 1 => rw [str_ecm_spec, EM.cat2_one]
    · funext v
      obtain ⟨b, i⟩ := v
      match b with
      | 0 => rw [EM.cat2_zero]
      | 1 => rw [EM.cat2_one]

/-- C79 (crema on a given symmetric matrix without a diagonal), every network, guess and option -/
theorem C79_crema_agrees (e : Env) (m : Method) (guess : Guess n) (a : Fin n → Fin n → ℝ) (hs : ∀ i j, a i j = a j i) (hd : ∀ i, a i i = 0) (p : Params) (g : UAttr d)
    (ma : String) (ga : Guess n) :
    let R := solve_tool e g "crema" m.name guess (.matrix a) ma ga p
    R.exc = none → runCrema e d (triuEdges a) m guess p = .solver .zeroDivision ∨
      ∃ s, runCrema e d (triuEdges a) m guess p = .done s (strCReMa a s.x) ∧ R.g.beta = some s.x ∧ R.g.expected_stregth_seq = some (strCReMa a s.x) := by
  intro R h
  obtain ⟨b, guess', h0⟩ := solve_tool_crema_args e g m.name guess a ma ga p h
  have hG := solve_tool_crema_matrix e g m guess a ma ga p h0
  obtain ⟨β, E, r, eb, ek, -⟩ := C54_crema_matrix_partial e g m guess a hs hd ma ga p h
  unfold runCrema
  rw [h0]
  dsimp only
  rcases solverE_or (o := p.opts m.name) (agree_crema e (triuEdges a) m) b with hE | hE
  · left; rw [hE]
  cases hsv : solver (cbCrema e d (triuEdges a) m) (p.opts m.name) b with
  | error x =>
    simp only [hsv] at hG
    rw [show R = _ from hG] at h
    cases h
  | ok s =>
    obtain ⟨-, c2⟩ := crema_call e g m guess a ma ga p h0 hsv
    obtain rfl : β = s.x := Option.some.inj (eb.symm.trans c2)
    rw [hE, hsv]
    simp only [lift]
    rcases guard_or (expected_crema_guard s.x (triuEdges a)) with hk | hk
    · left; rw [hk]
    · right; rw [hk]
      refine ⟨s, ?_, c2, ek⟩
      rw [show strCReMa a s.x = CReMa.expected_strength_crema_undirected s.x (triuEdges a) from funext fun i => (str_crema_spec a hs hd s.x i).symm]

/-- and the other way round: when the checked run ends normally, so does the call (on an object without rates of an earlier crema) -/
theorem C79_cm_done (e : Env) (m : Method) (guess : Guess n) (p : Params) (g : UAttr d) (hb : g.beta = none) (adj : AdjSpec n) (ma : String) (ga : Guess n)
    {s : State (Fin d.r)} {k : Fin n → ℝ} (h : runCM e d m guess p = .done s k) : (solve_tool e g "cm" m.name guess adj ma ga p).exc = none := by
  unfold runCM at h
  cases h0 : guessCM e d false guess with
  | error er => rw [h0] at h; cases h
  | ok x0 =>
    rw [h0] at h
    dsimp only at h
    have hG := solve_tool_cm e g m guess adj ma ga p h0
    rcases solverE_or (o := p.opts m.name) (agree_cm e m) x0 with hE | hE
    · rw [hE] at h; cases h
    cases hsv : solver (cbCM e d m) (p.opts m.name) x0 with
    | error x => rw [hE, hsv] at h; cases h
    | ok s' =>
      simp only [hsv] at hG
      rw [hG]
      exact no_exc_cm e _ (.inl rfl) hb

theorem C79_ecm_done (e : Env) (m : Method) (guess : Guess n) (p : Params) (g : UAttr d) (adj : AdjSpec n) (ma : String) (ga : Guess n)
    {s : State (Fin 2 × Fin n)} {k : ECM.Vec n} (h : runECM e d m guess p = .done s k) : (solve_tool e g "ecm" m.name guess adj ma ga p).exc = none := by
  unfold runECM at h
  obtain ⟨o, guess', h0⟩ : ∃ o guess', guessECM e d false guess = (o, guess') := ⟨_, _, rfl⟩
  rw [h0] at h
  cases o with
  | error er => cases h
  | ok xy =>
    obtain ⟨x0, y0⟩ := xy
    dsimp only at h
    have hG := solve_tool_ecm e g m guess adj ma ga p h0
    rcases solverE_or (o := p.opts m.name) (agree_ecm e m) (cat2 x0 y0) with hE | hE
    · rw [hE] at h; cases h
    cases hsv : solver (cbECM e d m) (p.opts m.name) (cat2 x0 y0) with
    | error x => rw [hE, hsv] at h; cases h
    | ok s' =>
      simp only [hsv] at hG
      rw [hG]
      simp [solutionError, setSolvedECM]

theorem C79_crema_done (e : Env) (m : Method) (guess : Guess n) (a : Fin n → Fin n → ℝ) (p : Params) (g : UAttr d) (ma : String) (ga : Guess n)
    {s : State (Fin n)} {k : Fin n → ℝ} (h : runCrema e d (triuEdges a) m guess p = .done s k) : (solve_tool e g "crema" m.name guess (.matrix a) ma ga p).exc = none := by
  unfold runCrema at h
  obtain ⟨o, guess', h0⟩ : ∃ o guess', guessCrema e d guess = (o, guess') := ⟨_, _, rfl⟩
  rw [h0] at h
  cases o with
  | error er => cases h
  | ok b =>
    dsimp only at h
    rcases solverE_or (o := p.opts m.name) (agree_crema e (triuEdges a) m) b with hE | hE
    · rw [hE] at h; cases h
    cases hsv : solver (cbCrema e d (triuEdges a) m) (p.opts m.name) b with
    | error x => rw [hE, hsv] at h; cases h
    | ok s' => exact (crema_call e g m guess a ma ga p h0 hsv).1

end undirected

section directed
variable {d : DData n}

theorem agree_dcm (e : Env) (m : Method) : Agree (cbDCM e d m) (chkDCM d m) m.name := fun x =>
  ⟨by
    cases m with
    | newton => exact map_or _ (prime_dcm_guard _ _ _ _ _ _)
    | quasinewton => exact map_or _ (prime_dcm_guard _ _ _ _ _ _)
    | fixed_point => exact guard_or (iterative_dcm_guard _ _ _ [] [] _), fun _ => map_or _ (hessian_dcm_guard _ _ _ _ _ _),
    fun _ => map_or _ (hessian_diag_dcm_guard _ _ _ _ _ _)⟩

theorem agree_decm (e : Env) (m : Method) : Agree (cbDECM e d m) (chkDECM d m) m.name := fun x =>
  ⟨by
    cases m with
    | newton => exact map_or _ (prime_decm_guard x d.degOut d.degIn d.out_strength d.in_strength)
    | quasinewton => exact map_or _ (prime_decm_guard x d.degOut d.degIn d.out_strength d.in_strength)
    | fixed_point => exact guard_or (iterative_decm_guard x d.degOut d.degIn d.out_strength d.in_strength),
    fun _ => map_or _ (hessian_decm_guard x d.degOut d.degIn d.out_strength d.in_strength), fun _ => map_or _ (hessian_diag_decm_guard x d.degOut d.degIn d.out_strength d.in_strength)⟩

theorem agree_dcrema (e : Env) (adj : Edges n) (m : Method) : Agree (cbDCrema e d adj m) (chkDCrema d adj m) m.name := fun x =>
  ⟨by
    cases m with
    | newton => exact map_or _ (prime_dcrema_guard x d.out_strength d.in_strength adj (DCM.nonzero d.out_strength) (DCM.nonzero d.in_strength))
    | quasinewton => exact map_or _ (prime_dcrema_guard x d.out_strength d.in_strength adj (DCM.nonzero d.out_strength) (DCM.nonzero d.in_strength))
    | fixed_point =>
      exact map_or _ (iterative_dcrema_guard x d.out_strength d.in_strength adj (DCM.nonzero d.out_strength) (DCM.nonzero d.in_strength)
        (fun i hi => (DCM.mem_nonzero _ _).1 hi) fun i hi => (DCM.mem_nonzero _ _).1 hi), fun _ => map_or _ (hessian_dcrema_guard x adj), fun _ => map_or _ (hessian_diag_dcrema_guard x adj)⟩

/-- C79 (dcm), every network, guess and option -/
theorem C79_dcm_agrees (e : Env) (m : Method) (guess : DGuess n) (p : Params) (g : DAttr d) (adj : AdjSpec n) (ma : String) (ga : DGuess n) :
    let R := solve_tool_directed e g "dcm" m.name guess adj ma ga p
    R.exc = none → runDCM e d m guess p = .solver .zeroDivision ∨
      ∃ s x y, runDCM e d m guess p = .done s (outDBCM x y, inDBCM x y) ∧ (∀ i, x i = s.x (0, d.inv i) ∧ y i = s.x (1, d.inv i)) ∧ R.g.x = some x ∧ R.g.y = some y ∧
        R.g.expected_dseq = some (outIn (outDBCM x y) (inDBCM x y)) := by
  intro R h
  obtain ⟨me, x0, s, hm, h0, hsv, hG, -⟩ := solve_tool_ok_dcm e g m.name guess adj ma ga p h
  obtain rfl : m = me := by cases m <;> cases me <;> first | rfl | (simp [Method.name] at hm)
  obtain ⟨x, y, E, r, ex, ey, ek, -⟩ := C54_dcm e g .dcm (.inl rfl) m.name guess adj ma ga p h
  have hx1 : R.g.x = some fun i => s.x (0, d.inv i) := by
    rw [show R = _ from hG]; exact keepsD DAttr.x (fun _ => rfl) _
  have hy1 : R.g.y = some fun i => s.x (1, d.inv i) := by
    rw [show R = _ from hG]; exact keepsD DAttr.y (fun _ => rfl) _
  obtain rfl : x = fun i => s.x (0, d.inv i) := Option.some.inj (ex.symm.trans hx1)
  obtain rfl : y = fun i => s.x (1, d.inv i) := Option.some.inj (ey.symm.trans hy1)
  unfold runDCM
  rw [h0]
  dsimp only
  rcases solverE_or (o := p.opts m.name) (agree_dcm e m) x0 with hE | hE
  · left; rw [hE]
  rw [hE, hsv]
  simp only [lift]
  rcases guard_or (expected_out_guard (cat2 (fun i => s.x (0, d.inv i)) fun i => s.x (1, d.inv i))) with hk | hk
  · left; rw [hk]
  rcases guard_or (expected_in_guard (cat2 (fun i => s.x (0, d.inv i)) fun i => s.x (1, d.inv i))) with hk' | hk'
  · left; rw [hk']; cases expected_out_degree_dcm _ <;> rfl
  right
  rw [hk, hk']
  refine ⟨s, _, _, ?_, fun i => ⟨rfl, rfl⟩, hx1, hy1, ek⟩
  rw [show DCM.expected_out_degree_dcm _ = outDBCM _ _ from funext fun i => (out_spec _ _ i), show DCM.expected_in_degree_dcm _ = inDBCM _ _ from funext fun i => (in_spec _ _ i)]

/-- C79 (decm), every network, guess and option; `k` holds the expected out- and in-degrees and out- and in-strengths -/
theorem C79_decm_agrees (e : Env) (m : Method) (guess : DGuess n) (p : Params) (g : DAttr d) (adj : AdjSpec n) (ma : String) (ga : DGuess n) :
    let R := solve_tool_directed e g "decm" m.name guess adj ma ga p
    R.exc = none → runDECM e d m guess p = .solver .zeroDivision ∨
      ∃ s k, runDECM e d m guess p = .done s k ∧ R.g.x = some (fun i => s.x (0, i)) ∧ R.g.y = some (fun i => s.x (1, i)) ∧ R.g.b_out = some (fun i => s.x (2, i)) ∧
        R.g.b_in = some (fun i => s.x (3, i)) ∧ R.g.expected_dseq = some (outIn (fun i => k (0, i)) fun i => k (1, i)) ∧
        R.g.expected_strength_seq = some (outIn (fun i => k (2, i)) fun i => k (3, i)) := by
  intro R h
  obtain ⟨me', v, guess', s, hm', h0, hs, hG⟩ := solve_tool_ok_decm e g m.name guess adj ma ga p h
  obtain rfl : me' = m := by revert hm'; cases m <;> cases me' <;> simp [Method.name]
  have hx1 : R.g.x = some (blk4 s.x 0) := by rw [show R = _ from hG]; exact keepsD DAttr.x (fun _ => rfl) _
  have hy1 : R.g.y = some (blk4 s.x 1) := by rw [show R = _ from hG]; exact keepsD DAttr.y (fun _ => rfl) _
  have ho1 : R.g.b_out = some (blk4 s.x 2) := by rw [show R = _ from hG]; exact keepsD DAttr.b_out (fun _ => rfl) _
  have hi1 : R.g.b_in = some (blk4 s.x 3) := by rw [show R = _ from hG]; exact keepsD DAttr.b_in (fun _ => rfl) _
  unfold runDECM
  rw [h0]
  dsimp only
  rcases solverE_or (o := p.opts me'.name) (agree_decm e me') v with hE | hE
  · left; rw [hE]
  rw [hE, hs]
  simp only [lift]
  rcases guard_or (expected_decm_guard s.x) with hk | hk
  · left; rw [hk]
  right
  rw [hk]
  have hsol : (fun v : Fin 4 × Fin n => if v.1 = 0 then blk4 s.x 0 v.2 else if v.1 = 1 then blk4 s.x 1 v.2 else if v.1 = 2 then blk4 s.x 2 v.2 else blk4 s.x 3 v.2) = s.x := by
    funext v
    obtain ⟨b, i⟩ := v
    fin_cases b <;> rfl
  refine ⟨s, _, rfl, hx1, hy1, ho1, hi1, ?_, ?_⟩
  · rw [show R = _ from hG]
    simp only [solutionErrorD, setSolvedDECM, preDECM]
    simp
    rw [← hsol]
    rfl
  · rw [show R = _ from hG]
    simp only [solutionErrorD, setSolvedDECM, preDECM]
    simp
    rw [← hsol]
    rfl

/-- C79 (directed crema on a given matrix), every network, guess and option -/
theorem C79_dcrema_agrees (e : Env) (hz : d.nz_known = true) (m : Method) (guess : DGuess n) (a : Fin n → Fin n → ℝ) (p : Params) (g : DAttr d) (ma : String) (ga : DGuess n) :
    let R := solve_tool_directed e g "crema" m.name guess (.matrix a) ma ga p
    R.exc = none → runDCrema e d (nzEdges a) m guess p = .solver .zeroDivision ∨
      ∃ s bo bi, runDCrema e d (nzEdges a) m guess p = .done s (outStrCReMa a bo bi, inStrCReMa a bo bi) ∧ s.x = cat2 bo bi ∧ R.g.b_out = some bo ∧ R.g.b_in = some bi ∧
        R.g.expected_stregth_seq = some (outIn (outStrCReMa a bo bi) (inStrCReMa a bo bi)) := by
  intro R h
  obtain ⟨bo0, bi0, guess', h0⟩ := solve_tool_dcrema_args e g m.name guess a ma ga p h
  have hG := solve_tool_dcrema_matrix e g hz m guess a ma ga p h0
  obtain ⟨bo, bi, E, r, eo, ei, ek, -⟩ := C54_dcrema_matrix_partial e g hz m guess a ma ga p h
  unfold runDCrema
  rw [h0]
  dsimp only
  rcases solverE_or (o := p.opts m.name) (agree_dcrema e (nzEdges a) m) (cat2 bo0 bi0) with hE | hE
  · left; rw [hE]
  cases hsv : solver (cbDCrema e d (nzEdges a) m) (p.opts m.name) (cat2 bo0 bi0) with
  | error x =>
    simp only [hsv] at hG
    rw [show R = _ from hG] at h
    cases h
  | ok s =>
    obtain ⟨-, c2, c3⟩ := dcrema_call e g hz m guess a ma ga p h0 hsv
    obtain rfl : bo = fun i => s.x (0, i) := Option.some.inj (eo.symm.trans c2)
    obtain rfl : bi = fun i => s.x (1, i) := Option.some.inj (ei.symm.trans c3)
    rw [hE, hsv]
    simp only [lift]
    rcases guard_or (expected_out_dcrema_guard s.x (nzEdges a)) with hk | hk
    · left; rw [hk]
    rcases guard_or (expected_in_dcrema_guard s.x (nzEdges a)) with hk' | hk'
    · left; rw [hk, hk']
    right
    rw [hk, hk']
    refine ⟨s, _, _, ?_, ?_, c2, c3, ek⟩
    · rw [show DCReMa.expected_out_strength_crema_directed s.x (nzEdges a) = _ from funext fun i => (str_dcrema_spec' a s.x i).1,
        show DCReMa.expected_in_strength_crema_directed s.x (nzEdges a) = _ from funext fun i => (str_dcrema_spec' a s.x i).2]
    · funext v
      obtain ⟨b, i⟩ := v
      match b with
      | 0 => rw [EM.cat2_zero]
      | 1 => rw [EM.cat2_one]

/-- the other way round -/
theorem C79_dcm_done (e : Env) (m : Method) (guess : DGuess n) (p : Params) (g : DAttr d) (hb : g.b_out = none) (adj : AdjSpec n) (ma : String) (ga : DGuess n)
    {s : State (Fin 2 × Fin d.r)} {k : (Fin n → ℝ) × (Fin n → ℝ)} (h : runDCM e d m guess p = .done s k) :
    (solve_tool_directed e g "dcm" m.name guess adj ma ga p).exc = none := by
  unfold runDCM at h
  cases h0 : guessDCM e d false guess with
  | error er => rw [h0] at h; cases h
  | ok x0 =>
    rw [h0] at h
    dsimp only at h
    have hG := solve_tool_dcm e g m guess adj ma ga p h0
    rcases solverE_or (o := p.opts m.name) (agree_dcm e m) x0 with hE | hE
    · rw [hE] at h; cases h
    cases hsv : solver (cbDCM e d m) (p.opts m.name) x0 with
    | error x => rw [hE, hsv] at h; cases h
    | ok s' =>
      simp only [hsv] at hG
      rw [hG]
      exact no_exc_dcm _ (.inl rfl) hb

theorem C79_decm_done (e : Env) (m : Method) (guess : DGuess n) (p : Params) (g : DAttr d) (adj : AdjSpec n) (ma : String) (ga : DGuess n)
    {s : State (Fin 4 × Fin n)} {k : DECM.Vec n} (h : runDECM e d m guess p = .done s k) : (solve_tool_directed e g "decm" m.name guess adj ma ga p).exc = none := by
  unfold runDECM at h
  obtain ⟨o, guess', h0⟩ : ∃ o guess', guessDECM e d false guess = (o, guess') := ⟨_, _, rfl⟩
  rw [h0] at h
  cases o with
  | error er => cases h
  | ok v =>
    dsimp only at h
    have hG := solve_tool_decm e g m guess adj ma ga p h0
    rcases solverE_or (o := p.opts m.name) (agree_decm e m) v with hE | hE
    · rw [hE] at h; cases h
    cases hsv : solver (cbDECM e d m) (p.opts m.name) v with
    | error x => rw [hE, hsv] at h; cases h
    | ok s' =>
      simp only [hsv] at hG
      rw [hG]
      simp [solutionErrorD, setSolvedDECM, preDECM, DModel.name]

theorem C79_dcrema_done (e : Env) (hz : d.nz_known = true) (m : Method) (guess : DGuess n) (a : Fin n → Fin n → ℝ) (p : Params) (g : DAttr d) (ma : String) (ga : DGuess n)
    {s : State (Fin 2 × Fin n)} {k : (Fin n → ℝ) × (Fin n → ℝ)} (h : runDCrema e d (nzEdges a) m guess p = .done s k) :
    (solve_tool_directed e g "crema" m.name guess (.matrix a) ma ga p).exc = none := by
  unfold runDCrema at h
  obtain ⟨o, guess', h0⟩ : ∃ o guess', guessDCrema e d guess = (o, guess') := ⟨_, _, rfl⟩
  rw [h0] at h
  cases o with
  | error er => cases h
  | ok bb =>
    obtain ⟨bo, bi⟩ := bb
    dsimp only at h
    rcases solverE_or (o := p.opts m.name) (agree_dcrema e (nzEdges a) m) (cat2 bo bi) with hE | hE
    · rw [hE] at h; cases h
    cases hsv : solver (cbDCrema e d (nzEdges a) m) (p.opts m.name) (cat2 bo bi) with
    | error x => rw [hE, hsv] at h; cases h
    | ok s' => exact (dcrema_call e g hz m guess a ma ga p h0 hsv).1

end directed

end

end Verif.Checked
