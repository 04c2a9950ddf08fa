import Verif.Props.Psd
import Verif.Props.Runs2
import Verif.Props.SolveU6
import Verif.Props.SolveD6

/-!
C17 for every model: the directions the ten dense problems use are descent directions of minus the log-likelihood, at every point where they are defined.
C57: with the line search on, giving "newton" or "quasinewton" more steps never lowers the log-likelihood of the returned parameters.
-/

set_option linter.unusedSectionVars false

namespace Verif.Solve

open Verif Finset Reduction Solver Spec

noncomputable section

/-! ### Directions -/

section directions

theorem eigen_descent {ι : Type} [Fintype ι] [DecidableEq ι] [Nonempty ι] (e : Env) (he : e.Valid) (C : Callbacks ι) (me : Method) (hme : me ≠ .fixed_point) (p : Params)
    (hreg : C.hessian_regulariser = eigenRegulariser e) (x : ι → ℝ) (hf : C.fn x ≠ 0) :
    ∃ dx, direction C (p.opts me.name) x (C.fn x) = .ok dx ∧ dot (C.fn x) dx < 0 := by
  cases me with
  | newton =>
    refine C17_newton_eigen_descent C _ x rfl rfl (fun b => e.eigh ι b) (fun b hb => he.eigh ι b ?_) (fun b eps => by rw [hreg]; rfl) (by norm_num [Params.opts]) hf
    ext i j; exact hb j i
  | quasinewton => exact C17_quasinewton_descent C _ x rfl rfl (by norm_num [Params.opts]) hf
  | fixed_point => exact absurd rfl hme

theorem identity_descent {ι : Type} [Fintype ι] [DecidableEq ι] [Nonempty ι] (C : Callbacks ι) (me : Method) (hme : me ≠ .fixed_point) (p : Params)
    (hreg : C.hessian_regulariser = matrix_regulariser_function) (x : ι → ℝ) (hJ : PosSemi (C.jac x)) (hf : C.fn x ≠ 0) :
    ∃ dx, direction C (p.opts me.name) x (C.fn x) = .ok dx ∧ dot (C.fn x) dx < 0 := by
  cases me with
  | newton => exact C17_newton_identity_descent C _ x rfl rfl hreg (by norm_num [Params.opts]) hf hJ
  | quasinewton => exact C17_quasinewton_descent C _ x rfl rfl (by norm_num [Params.opts]) hf
  | fixed_point => exact absurd rfl hme

theorem UData.one_le_c {n : ℕ} (d : UData n) (q : Fin d.r) : 1 ≤ d.c q := by
  have := r_multiplicity_pos d.dseq q
  simp only [UData.c]; exact_mod_cast this

variable {n : ℕ} [NeZero n]

/-- C17 (cm, cm_exp): at every point the direction of "newton" and of "quasinewton" exists and is a descent direction of minus the log-likelihood. -/
theorem C17_cm_direction (e : Env) (he : e.Valid) (d : UData n) (me : Method) (hme : me ≠ .fixed_point) (p : Params) (x : Fin d.r → ℝ) :
    ((cbCM e d me).fn x ≠ 0 → ∃ dx, direction (cbCM e d me) (p.opts me.name) x ((cbCM e d me).fn x) = .ok dx ∧ dot ((cbCM e d me).fn x) dx < 0) ∧
    ((cbCMexp e d me).fn x ≠ 0 → ∃ dx, direction (cbCMexp e d me) (p.opts me.name) x ((cbCMexp e d me).fn x) = .ok dx ∧ dot ((cbCMexp e d me).fn x) dx < 0) :=
  ⟨eigen_descent e he _ me hme p rfl x, identity_descent _ me hme p rfl x (Psd.C17_cm_exp_hessian_psd x d.k d.c d.one_le_c)⟩

/-- C17 (ecm everywhere, ecm_exp where every pair has a convergent weight distribution) -/
theorem C17_ecm_direction (e : Env) (he : e.Valid) (d : UData n) (me : Method) (hme : me ≠ .fixed_point) (p : Params) (x : Fin 2 × Fin n → ℝ) :
    ((cbECM e d me).fn x ≠ 0 → ∃ dx, direction (cbECM e d me) (p.opts me.name) x ((cbECM e d me).fn x) = .ok dx ∧ dot ((cbECM e d me).fn x) dx < 0) ∧
    (AdmECMexp x → (cbECMexp e d me).fn x ≠ 0 →
      ∃ dx, direction (cbECMexp e d me) (p.opts me.name) x ((cbECMexp e d me).fn x) = .ok dx ∧ dot ((cbECMexp e d me).fn x) dx < 0) :=
  ⟨eigen_descent e he _ me hme p rfl x, fun hx => identity_descent _ me hme p rfl x (Psd.C17_ecm_exp_hessian_psd x d.deg hx)⟩

/-- C17 (dcm, dcm_exp) -/
theorem C17_dcm_direction (e : Env) (he : e.Valid) (d : DData n) (me : Method) (hme : me ≠ .fixed_point) (p : Params) (x : Fin 2 × Fin d.r → ℝ) :
    ((cbDCM e d me).fn x ≠ 0 → ∃ dx, direction (cbDCM e d me) (p.opts me.name) x ((cbDCM e d me).fn x) = .ok dx ∧ dot ((cbDCM e d me).fn x) dx < 0) ∧
    ((cbDCMexp e d me).fn x ≠ 0 → ∃ dx, direction (cbDCMexp e d me) (p.opts me.name) x ((cbDCMexp e d me).fn x) = .ok dx ∧ dot ((cbDCMexp e d me).fn x) dx < 0) :=
  ⟨eigen_descent e he _ me hme p rfl x, identity_descent _ me hme p rfl x
    (Psd.C17_dcm_exp_hessian_psd x d.ko d.ki _ _ d.c (DCM.nodup_nonzero _) (DCM.nodup_nonzero _) d.one_le_c)⟩

/-- C17 (decm everywhere, decm_exp where every ordered pair has a convergent weight distribution) -/
theorem C17_decm_direction (e : Env) (he : e.Valid) (d : DData n) (me : Method) (hme : me ≠ .fixed_point) (p : Params) (x : Fin 4 × Fin n → ℝ) :
    ((cbDECM e d me).fn x ≠ 0 → ∃ dx, direction (cbDECM e d me) (p.opts me.name) x ((cbDECM e d me).fn x) = .ok dx ∧ dot ((cbDECM e d me).fn x) dx < 0) ∧
    (AdmDECMexp x → (cbDECMexp e d me).fn x ≠ 0 →
      ∃ dx, direction (cbDECMexp e d me) (p.opts me.name) x ((cbDECMexp e d me).fn x) = .ok dx ∧ dot ((cbDECMexp e d me).fn x) dx < 0) :=
  ⟨eigen_descent e he _ me hme p rfl x, fun hx => identity_descent _ me hme p rfl x
    (Psd.C17_decm_exp_hessian_psd x d.degOut d.degIn d.out_strength d.in_strength hx)⟩

/-- C17 (crema, undirected and directed, on a non-negative matrix of link probabilities) -/
theorem C17_crema_direction (e : Env) (d : UData n) (a : Fin n → Fin n → ℝ) (hs : ∀ i j, a i j = a j i) (hd : ∀ i, a i i = 0) (ha : ∀ i j, 0 ≤ a i j)
    (me : Method) (hme : me ≠ .fixed_point) (p : Params) (x : Fin n → ℝ) (hf : (cbCrema e d (triuEdges a) me).fn x ≠ 0) :
    ∃ dx, direction (cbCrema e d (triuEdges a) me) (p.opts me.name) x ((cbCrema e d (triuEdges a) me).fn x) = .ok dx ∧
      dot ((cbCrema e d (triuEdges a) me).fn x) dx < 0 :=
  identity_descent _ me hme p rfl x (Psd.C17_crema_hessian_psd x a hs hd ha) hf

/-- C17 (directed crema) -/
theorem C17_dcrema_direction (e : Env) (d : DData n) (a : Fin n → Fin n → ℝ) (ha : ∀ i j, 0 ≤ a i j)
    (me : Method) (hme : me ≠ .fixed_point) (p : Params) (x : Fin 2 × Fin n → ℝ) (hf : (cbDCrema e d (nzEdges a) me).fn x ≠ 0) :
    ∃ dx, direction (cbDCrema e d (nzEdges a) me) (p.opts me.name) x ((cbDCrema e d (nzEdges a) me).fn x) = .ok dx ∧
      dot ((cbDCrema e d (nzEdges a) me).fn x) dx < 0 :=
  identity_descent _ me hme p rfl x (Psd.C17_dcrema_hessian_psd x a ha) hf

end directions

/-! ### Longer runs -/

section general

variable {ι : Type} [Fintype ι] [DecidableEq ι] [Nonempty ι]

/-- the last pass of the loop -/
theorem loop_succ_right (C : Callbacks ι) (o : Opts) (k : ℕ) (s r : State ι) (h : loop C o (k + 1) s = .ok r) :
    ∃ s1, loop C o k s = .ok s1 ∧ (r = s1 ∨ step C o s1 = .ok r) := by
  induction k generalizing s with
  | zero =>
    refine ⟨s, rfl, ?_⟩
    unfold loop at h
    split_ifs at h with hc
    · cases hs : step C o s with
      | error e => simp [hs] at h
      | ok s' => simp only [hs, loop, Except.ok.injEq] at h; right; rw [h]
    · left; simpa using h.symm
  | succ k ih =>
    rw [loop] at h
    rw [loop]
    split_ifs at h ⊢ with hc
    · cases hs : step C o s with
      | error e => simp [hs] at h
      | ok s' => simp only [hs] at h ⊢; exact ih s' h
    · exact ⟨s, rfl, .inl (by simpa using h.symm)⟩

theorem loop_max_steps (C : Callbacks ι) (o : Opts) (m k : ℕ) (s : State ι) : loop C { o with max_steps := m } k s = loop C o k s := by
  induction k generalizing s with
  | zero => rfl
  | succ k ih =>
    unfold loop
    simp only [ih]
    rfl

theorem loop_f (C : Callbacks ι) (o : Opts) (k : ℕ) {x0 : ι → ℝ} {r : State ι} (h : loop C o k (initState C x0) = .ok r) : r.f = C.fn r.x :=
  loop_inv C o (fun s => s.f = C.fn s.x) (fun s s' _ _ _ h => by obtain ⟨dx, alfa, h1, h2, rfl⟩ := step_ok h; rfl) _ _ r rfl h

/-- a quantity that increases at each step (longer than `c`) is not lowered by more steps -/
theorem run_monotone (C : Callbacks ι) (o : Opts) (hl : o.linsearch = true) (c : ℝ) (P : (ι → ℝ) → Prop) (L : (ι → ℝ) → ℝ) {x0 : ι → ℝ}
    (hP : ∀ k s, loop C o k (initState C x0) = .ok s → (∀ a ∈ s.alfa_seq, c < a) → P s.x)
    (hstep : ∀ s : State ι, ∀ dx alfa, P s.x → s.f = C.fn s.x → direction C o s.x s.f = .ok dx → stepLength C o s dx = .ok alfa → c < alfa →
      P (s.x + alfa • dx) → L s.x < L (s.x + alfa • dx))
    (m j : ℕ) {s s' : State ι} (h : loop C o m (initState C x0) = .ok s) (h' : loop C o (m + j) (initState C x0) = .ok s')
    (ha : ∀ a ∈ s'.alfa_seq, c < a) :
    L s.x ≤ L s'.x ∧ (s.n_steps < s'.n_steps → L s.x < L s'.x) ∧ s.n_steps ≤ s'.n_steps ∧ P s.x ∧ P s'.x := by
  have hmono : s.n_steps ≤ s'.n_steps ∧ (∀ a ∈ s.alfa_seq, a ∈ s'.alfa_seq) ∧ L s.x ≤ L s'.x ∧ (s.n_steps < s'.n_steps → L s.x < L s'.x) := by
    induction j generalizing s' with
    | zero =>
      rw [Nat.add_zero, h, Except.ok.injEq] at h'
      subst h'
      exact ⟨le_rfl, fun _ h => h, le_rfl, fun h => absurd h (lt_irrefl _)⟩
    | succ j ih =>
      obtain ⟨s1, h1, hr⟩ := loop_succ_right C o (m + j) _ _ h'
      rcases hr with rfl | hs
      · exact ih h1 ha
      · obtain ⟨dx, alfa, hd, hsl, rfl⟩ := step_ok hs
        simp only [hl, if_true] at ha
        have ha1 : ∀ a ∈ s1.alfa_seq, c < a := fun a h => ha a (List.mem_append_left _ h)
        obtain ⟨i1, i2, i3, i4⟩ := ih h1 ha1
        have hlt := hstep s1 dx alfa (hP _ s1 h1 ha1) (loop_f C o _ h1) hd hsl (ha alfa (by simp)) (hP _ _ h' (by simpa only [hl, if_true] using ha))
        refine ⟨i1.trans (Nat.le_succ _), fun a h => ?_, i3.trans hlt.le, fun _ => lt_of_le_of_lt i3 hlt⟩
        simp only [hl, if_true]
        exact List.mem_append_left _ (i2 a h)
  exact ⟨hmono.2.2.1, hmono.2.2.2, hmono.1, hP _ s h fun a hm => ha a (hmono.2.1 a hm), hP _ s' h' ha⟩

/-- the step length of newton and quasinewton with the line search on is the answer of the line search -/
theorem stepLength_newton {C : Callbacks ι} {p : Params} {me : Method} (hme : me ≠ .fixed_point) (hl : p.linsearch = true) {s : State ι} {dx : ι → ℝ} {alfa : ℝ}
    (h : stepLength C (p.opts me.name) s dx = .ok alfa) : C.linsearch s.x dx 0.5 1 s.f = some alfa := by
  unfold stepLength at h
  rw [if_pos ⟨hl, by cases me <;> simp [Params.opts, Method.name] at hme ⊢⟩] at h
  cases hc : C.linsearch s.x dx 0.5 1 s.f with
  | none => simp [hc] at h
  | some a => simp only [hc, Except.ok.injEq] at h; rw [h]

/-- an accepted step longer than `2 ^ -50` inside the domain increases the log-likelihood -/
theorem increase_of_legal {e : Env} {dom : (ι → ℝ) → Prop} {L : (ι → ℝ) → ℝ} {x dx f : ι → ℝ} {r : ℝ} (h : LegalStep (llF e dom L) x dx f 1 0.5 r)
    (hr : (1 / 2 : ℝ) ^ 50 < r) (hx : dom x) (hx' : dom (x + r • dx)) (hd : dot f dx ≤ 0) : L x < L (x + r • dx) := by
  rcases h.improves with ⟨p, q, hp, hq, hpq⟩ | h'
  · unfold llF at hp hq
    rw [if_pos hx, Option.some.injEq] at hp
    rw [if_pos hx', Option.some.injEq] at hq
    subst hp hq
    have h1 : (1 / 10000) * r * ∑ i, f i * dx i ≤ 0 := mul_nonpos_of_nonneg_of_nonpos (by have := h.pos; positivity) hd
    linarith
  · norm_num at h' hr
    linarith

/-- and it ends inside the domain if the log-likelihood is nan outside -/
theorem dom_of_legal {e : Env} {dom : (ι → ℝ) → Prop} {L : (ι → ℝ) → ℝ} (ho : ∀ x, e.outside ι x = none) {x dx f : ι → ℝ} {r : ℝ}
    (h : LegalStep (llF e dom L) x dx f 1 0.5 r) (hr : (1 / 2 : ℝ) ^ 50 < r) : dom (x + r • dx) := by
  rcases h.improves with ⟨p, q, hp, hq, hpq⟩ | h'
  · exact llF_dom e ho hq
  · norm_num at h' hr
    linarith

theorem dot_nonpos {C : Callbacks ι} {o : Opts} {x dx : ι → ℝ}
    (hC : C.fn x ≠ 0 → ∃ dx, direction C o x (C.fn x) = .ok dx ∧ dot (C.fn x) dx < 0) (h : direction C o x (C.fn x) = .ok dx) : dot (C.fn x) dx ≤ 0 := by
  by_cases hf : C.fn x = 0
  · simp [dot, hf]
  · obtain ⟨dx', h1, h2⟩ := hC hf
    rw [h, Except.ok.injEq] at h1
    rw [h1]; exact h2.le

theorem solver_loop (C : Callbacks ι) (p : Params) (nm : String) (m : ℕ) (x0 : ι → ℝ) :
    solver C (({ p with max_steps := m } : Params).opts nm) x0 = loop C (p.opts nm) m (initState C x0) :=
  loop_max_steps C (p.opts nm) m m (initState C x0)

end general

section undirected

variable {n : ℕ} [NeZero n] {d : UData n}

/-- C57 (cm_exp): two calls that differ in `max_steps` (and in whatever the object held before); if no line search of the longer run used up its 50 halvings,
the parameters of the longer run have at least the log-likelihood of those of the shorter one, and more if more steps were done. -/
theorem C57_cm_exp (e : Env) (he : e.Valid) (g g' : UAttr d) (me : Method) (hme : me ≠ .fixed_point) (guess : Guess n) (adj : AdjSpec n) (ma : String)
    (ga : Guess n) (p : Params) (hf : p.full_return = true) (hl : p.linsearch = true) (m m' : ℕ) (hm : m ≤ m') :
    let R := solve_tool e g "cm_exp" me.name guess adj ma ga { p with max_steps := m }
    let R' := solve_tool e g' "cm_exp" me.name guess adj ma ga { p with max_steps := m' }
    R.exc = none → R'.exc = none → ∃ t t' x x', R.g.trace = some t ∧ R'.g.trace = some t' ∧ R.g.x = some x ∧ R'.g.x = some x' ∧
      ((∀ a ∈ t'.alfa_seq, (1 / 2 : ℝ) ^ 50 < a) → logUBCM d.deg x ≤ logUBCM d.deg x' ∧ (t.n_steps < t'.n_steps → logUBCM d.deg x < logUBCM d.deg x')) := by
  intro R R' h h'
  obtain ⟨j, rfl⟩ := Nat.exists_eq_add_of_le hm
  obtain ⟨me1, x0, s, hm1, h0, hs, hG⟩ := solve_tool_ok_cm_exp e g me.name guess adj ma ga _ h
  obtain ⟨me2, x1, s', hm2, h1, hs', hG'⟩ := solve_tool_ok_cm_exp e g' me.name guess adj ma ga _ h'
  obtain rfl : me1 = me := by revert hm1; cases me <;> cases me1 <;> simp [Method.name]
  obtain rfl : me2 = me1 := by revert hm2; cases me2 <;> cases me1 <;> simp [Method.name]
  obtain rfl : x0 = x1 := by rw [h0] at h1; simpa using h1
  rw [solver_loop] at hs hs'
  have k := fun g' : UAttr d => solutionError_keeps e g'
  rw [show R = _ from hG, show R' = _ from hG']
  refine ⟨.of s, .of s', fun i => Real.exp (-s.x (d.inv i)), fun i => Real.exp (-s'.x (d.inv i)), (k _).2.2.2.2.1.trans (by simp [setSolvedCM, hf]),
    (k _).2.2.2.2.1.trans (by simp [setSolvedCM, hf]), (k _).1, (k _).1, fun ha => ?_⟩
  have := run_monotone (cbCMexp e d me2) (p.opts me2.name) hl ((1 / 2) ^ 50) (fun _ => True) (fun x => CM.loglikelihood_cm_exp x d.k d.c)
    (fun _ _ _ _ => trivial) (fun s dx alfa _ hf hd hsl hc _ => by
      rw [hf] at hd
      have hL := Option.some.inj (stepLength_newton hme hl hsl)
      subst hL
      refine increase_of_legal (C16_linsearch_free s.x dx s.f _ 0.5 1 (by norm_num) (by norm_num) one_pos).1 hc trivial trivial ?_
      rw [hf]; exact dot_nonpos (C17_cm_direction e he d me2 hme p s.x).2 hd) m j hs hs' ha
  simp only [ll_exp_red_spec] at this
  exact ⟨this.1, this.2.1⟩

/-- C57 (cm): the same, for networks without isolated nodes and a named guess. -/
theorem C57_cm (e : Env) (he : e.Valid) (hr : e.NonzeroDraws) (hd : ∀ i, d.dseq i ≠ 0) (g g' : UAttr d) (me : Method) (hme : me ≠ .fixed_point) (name : String)
    (adj : AdjSpec n) (ma : String) (ga : Guess n) (p : Params) (hf : p.full_return = true) (hl : p.linsearch = true) (m m' : ℕ) (hm : m ≤ m') :
    let R := solve_tool e g "cm" me.name (.name name) adj ma ga { p with max_steps := m }
    let R' := solve_tool e g' "cm" me.name (.name name) adj ma ga { p with max_steps := m' }
    R.exc = none → R'.exc = none → ∃ t t' x x', R.g.trace = some t ∧ R'.g.trace = some t' ∧ R.g.x = some x ∧ R'.g.x = some x' ∧
      ((∀ a ∈ t'.alfa_seq, (1 / 2 : ℝ) ^ 50 < a) → logUBCM d.deg x ≤ logUBCM d.deg x' ∧ (t.n_steps < t'.n_steps → logUBCM d.deg x < logUBCM d.deg x')) := by
  intro R R' h h'
  obtain ⟨j, rfl⟩ := Nat.exists_eq_add_of_le hm
  obtain ⟨me1, x0, s, hm1, h0, hs, hG⟩ := solve_tool_ok_cm e g me.name (.name name) adj ma ga _ h
  obtain ⟨me2, x1, s', hm2, h1, hs', hG'⟩ := solve_tool_ok_cm e g' me.name (.name name) adj ma ga _ h'
  obtain rfl : me1 = me := by revert hm1; cases me <;> cases me1 <;> simp [Method.name]
  obtain rfl : me2 = me1 := by revert hm2; cases me2 <;> cases me1 <;> simp [Method.name]
  obtain rfl : x0 = x1 := by rw [h0] at h1; simpa using h1
  have hx0 : ∀ q, 0 < x0 q := fun q => (C38_cm_partial e he hr d name h0 q).1 (by
    obtain ⟨i, hi⟩ := d.exists_class q
    simp only [UData.k, ← hi]
    exact_mod_cast hd i)
  rw [solver_loop] at hs hs'
  have k := fun g' : UAttr d => solutionError_keeps e g'
  rw [show R = _ from hG, show R' = _ from hG']
  refine ⟨.of s, .of s', fun i => s.x (d.inv i), fun i => s'.x (d.inv i), (k _).2.2.2.2.1.trans (by simp [setSolvedCM, hf]),
    (k _).2.2.2.2.1.trans (by simp [setSolvedCM, hf]), (k _).1, (k _).1, fun ha => ?_⟩
  have := run_monotone (cbCM e d me2) (p.opts me2.name) hl ((1 / 2) ^ 50) (fun x => ∀ q, 0 < x q) (fun x => CM.loglikelihood_cm x d.k d.c)
    (fun k s hk _ => cm_run_pos e me2 { p with max_steps := k } hl hx0 ((solver_loop _ p _ k x0).trans hk)) (fun s dx alfa hP hf hd hsl hc hP' => by
      rw [hf] at hd
      have hL := Option.some.inj (stepLength_newton hme hl hsl)
      subst hL
      refine increase_of_legal (C16_linsearch_cm_partial (List.finRange d.r) (fun q => List.mem_finRange q) s.x dx s.f _ 0.5 1 (by norm_num) (by norm_num) one_pos hP).1
        hc hP hP' ?_
      rw [hf]; exact dot_nonpos (C17_cm_direction e he d me2 hme p s.x).1 hd) m j hs hs' ha
  simp only [ll_red_spec] at this
  exact ⟨this.1, this.2.1⟩

/-- C57 (ecm_exp) -/
theorem C57_ecm_exp (e : Env) (he : e.Valid) (hr : e.NonzeroDraws) (hd : d.Pos) (g g' : UAttr d) (me : Method) (hme : me ≠ .fixed_point) (name : String)
    (adj : AdjSpec n) (ma : String) (ga : Guess n) (p : Params) (hf : p.full_return = true) (hl : p.linsearch = true) (m m' : ℕ) (hm : m ≤ m') :
    let R := solve_tool e g "ecm_exp" me.name (.name name) adj ma ga { p with max_steps := m }
    let R' := solve_tool e g' "ecm_exp" me.name (.name name) adj ma ga { p with max_steps := m' }
    R.exc = none → R'.exc = none → ∃ t t' x y x' y', R.g.trace = some t ∧ R'.g.trace = some t' ∧ R.g.x = some x ∧ R.g.y = some y ∧
      R'.g.x = some x' ∧ R'.g.y = some y' ∧ ((∀ a ∈ t'.alfa_seq, (1 / 2 : ℝ) ^ 50 < a) →
        logUECM d.deg d.strength_sequence x y ≤ logUECM d.deg d.strength_sequence x' y' ∧
        (t.n_steps < t'.n_steps → logUECM d.deg d.strength_sequence x y < logUECM d.deg d.strength_sequence x' y')) := by
  intro R R' h h'
  obtain ⟨j, rfl⟩ := Nat.exists_eq_add_of_le hm
  obtain ⟨me1, x0, y0, gs, s, hm1, h0, hs, hG⟩ := solve_tool_ok_ecm_exp e g me.name (.name name) adj ma ga _ h
  obtain ⟨me2, x1, y1, gs', s', hm2, h1, hs', hG'⟩ := solve_tool_ok_ecm_exp e g' me.name (.name name) adj ma ga _ h'
  obtain rfl : me1 = me := by revert hm1; cases me <;> cases me1 <;> simp [Method.name]
  obtain rfl : me2 = me1 := by revert hm2; cases me2 <;> cases me1 <;> simp [Method.name]
  obtain ⟨⟨rfl, rfl⟩, rfl⟩ : (x0 = x1 ∧ y0 = y1) ∧ gs = gs' := by rw [h0] at h1; simpa using h1
  have hA := C38_ecm_exp_partial e he hr d hd name h0
  rw [solver_loop] at hs hs'
  have k := fun g' : UAttr d => solutionError_keeps e g'
  rw [show R = _ from hG, show R' = _ from hG']
  refine ⟨.of s, .of s', fun i => Real.exp (-s.x (0, i)), fun i => Real.exp (-s.x (1, i)), fun i => Real.exp (-s'.x (0, i)), fun i => Real.exp (-s'.x (1, i)),
    (k _).2.2.2.2.1.trans (by simp [setSolvedECM, hf]), (k _).2.2.2.2.1.trans (by simp [setSolvedECM, hf]), (k _).1, (k _).2.1, (k _).1, (k _).2.1, fun ha => ?_⟩
  have := run_monotone (cbECMexp e d me2) (p.opts me2.name) hl ((1 / 2) ^ 50) AdmECMexp (fun x => ECM.loglikelihood_ecm_exp x d.deg d.strength_sequence)
    (fun k s hk _ => ecm_exp_run_adm e me2 { p with max_steps := k } hl hA ((solver_loop _ p _ k _).trans hk)) (fun s dx alfa hP hf hd hsl hc hP' => by
      rw [hf] at hd
      obtain ⟨r0, hu, rfl⟩ := Option.map_eq_some_iff.1 (show Option.map _ (untilLoop _ _ _) = some alfa from stepLength_newton hme hl hsl)
      obtain ⟨u1, u2⟩ := untilLoop_le one_pos hu
      refine increase_of_legal (legal_of_decrease (llF e AdmECMexp fun x => ECM.loglikelihood_ecm_exp x d.deg d.strength_sequence) s.x dx s.f (by norm_num) (by norm_num) u1 u2)
        hc hP hP' ?_
      rw [hf]; exact dot_nonpos ((C17_ecm_direction e he d me2 hme p s.x).2 hP) hd) m j hs hs' ha
  simp only [ll_ecm_exp_spec] at this
  exact ⟨this.1, this.2.1⟩

/-- C57 (ecm): the log-likelihood is taken to be nan outside its domain, as in numpy. -/
theorem C57_ecm (e : Env) (he : e.Valid) (hr : e.NonzeroDraws) (ho : ∀ x : Fin 2 × Fin n → ℝ, e.outside (Fin 2 × Fin n) x = none) (hd : d.Pos) (g g' : UAttr d)
    (me : Method) (hme : me ≠ .fixed_point) (name : String) (adj : AdjSpec n) (ma : String) (ga : Guess n) (p : Params) (hf : p.full_return = true)
    (hl : p.linsearch = true) (m m' : ℕ) (hm : m ≤ m') :
    let R := solve_tool e g "ecm" me.name (.name name) adj ma ga { p with max_steps := m }
    let R' := solve_tool e g' "ecm" me.name (.name name) adj ma ga { p with max_steps := m' }
    R.exc = none → R'.exc = none → ∃ t t' x y x' y', R.g.trace = some t ∧ R'.g.trace = some t' ∧ R.g.x = some x ∧ R.g.y = some y ∧
      R'.g.x = some x' ∧ R'.g.y = some y' ∧ ((∀ a ∈ t'.alfa_seq, (1 / 2 : ℝ) ^ 50 < a) →
        logUECM d.deg d.strength_sequence x y ≤ logUECM d.deg d.strength_sequence x' y' ∧
        (t.n_steps < t'.n_steps → logUECM d.deg d.strength_sequence x y < logUECM d.deg d.strength_sequence x' y')) := by
  intro R R' h h'
  obtain ⟨j, rfl⟩ := Nat.exists_eq_add_of_le hm
  obtain ⟨me1, x0, y0, gs, s, hm1, h0, hs, hG⟩ := solve_tool_ok_ecm e g me.name (.name name) adj ma ga _ h
  obtain ⟨me2, x1, y1, gs', s', hm2, h1, hs', hG'⟩ := solve_tool_ok_ecm e g' me.name (.name name) adj ma ga _ h'
  obtain rfl : me1 = me := by revert hm1; cases me <;> cases me1 <;> simp [Method.name]
  obtain rfl : me2 = me1 := by revert hm2; cases me2 <;> cases me1 <;> simp [Method.name]
  obtain ⟨⟨rfl, rfl⟩, rfl⟩ : (x0 = x1 ∧ y0 = y1) ∧ gs = gs' := by rw [h0] at h1; simpa using h1
  have hA : AdmECM (cat2 x0 y0) := C38_ecm e he hr d hd name h0
  have pos : ∀ {x : Fin 2 × Fin n → ℝ}, AdmECM x → ∀ v, 0 < x v := by
    rintro x hP ⟨b, i⟩
    match b with
    | 0 => exact hP.1 i
    | 1 => exact hP.2.1 i
  rw [solver_loop] at hs hs'
  have k := fun g' : UAttr d => solutionError_keeps e g'
  rw [show R = _ from hG, show R' = _ from hG']
  refine ⟨.of s, .of s', fun i => s.x (0, i), fun i => s.x (1, i), fun i => s'.x (0, i), fun i => s'.x (1, i),
    (k _).2.2.2.2.1.trans (by simp [setSolvedECM, hf]), (k _).2.2.2.2.1.trans (by simp [setSolvedECM, hf]), (k _).1, (k _).2.1, (k _).1, (k _).2.1, fun ha => ?_⟩
  have := run_monotone (cbECM e d me2) (p.opts me2.name) hl ((1 / 2) ^ 50) AdmECM (fun x => ECM.loglikelihood_ecm x d.deg d.strength_sequence)
    (fun k s hk hka => solver_alfa_inv (cbECM e d me2) (({ p with max_steps := k } : Params).opts me2.name) hl ((1 / 2) ^ 50) AdmECM
      (fun s dx alfa hP _ hd hsl hc => (ecm_step e ho me2 { p with max_steps := k } hl s dx alfa (pos hP) hd hsl).2 hme hc) hA
        ((solver_loop _ p _ k _).trans hk) hka) (fun s dx alfa hP hf hd hsl hc hP' => by
      rw [hf] at hd
      have hp := positivityStage_pos (blocks 2 n) s.x dx 1 one_pos (fun i _ _ => pos hP i)
      obtain ⟨r0, hu, rfl⟩ := Option.map_eq_some_iff.1 (show Option.map _ (untilLoop _ _ _) = some alfa from stepLength_newton hme hl hsl)
      obtain ⟨u1, u2⟩ := untilLoop_le hp hu
      refine increase_of_legal (legal_of_decrease (llF e (fun x => (∀ v, 0 < x v) ∧ ∀ i j : Fin n, i ≠ j → x (1, i) * x (1, j) < 1) fun x =>
        ECM.loglikelihood_ecm x d.deg d.strength_sequence) s.x dx s.f (by norm_num) (by norm_num) u1
        (u2.trans (positivityStage_le _ _ _ _))) hc ⟨pos hP, hP.2.2⟩ ⟨pos hP', hP'.2.2⟩ ?_
      rw [hf]; exact dot_nonpos (C17_ecm_direction e he d me2 hme p s.x).1 hd) m j hs hs' ha
  simp only [ll_ecm_spec] at this
  exact ⟨this.1, this.2.1⟩

/-- C57 (crema on a given matrix of link probabilities that vanish wherever a strength does) -/
theorem C57_crema_matrix (e : Env) (he : e.Valid) (hr : e.NonzeroDraws) (ho : ∀ x : Fin n → ℝ, e.outside (Fin n) x = none)
    (hst : ∀ i, 0 ≤ d.strength_sequence i) (a : Fin n → Fin n → ℝ) (hs : ∀ i j, a i j = a j i) (hd : ∀ i, a i i = 0) (ha : ∀ i j, 0 ≤ a i j)
    (haz : ∀ i j, a i j ≠ 0 → d.strength_sequence i ≠ 0) (g g' : UAttr d)
    (me : Method) (hme : me ≠ .fixed_point) (name : String) (ma : String) (ga : Guess n) (p : Params) (hf : p.full_return = true)
    (hl : p.linsearch = true) (m m' : ℕ) (hm : m ≤ m') :
    let R := solve_tool e g "crema" me.name (.name name) (.matrix a) ma ga { p with max_steps := m }
    let R' := solve_tool e g' "crema" me.name (.name name) (.matrix a) ma ga { p with max_steps := m' }
    R.exc = none → R'.exc = none → ∃ t t' β β', R.g.trace_crema = some t ∧ R'.g.trace_crema = some t' ∧ R.g.beta = some β ∧
      R'.g.beta = some β' ∧ ((∀ a ∈ t'.alfa_seq, (1 / 2 : ℝ) ^ 50 < a) →
        logCReMa a d.strength_sequence β ≤ logCReMa a d.strength_sequence β' ∧
        (t.n_steps < t'.n_steps → logCReMa a d.strength_sequence β < logCReMa a d.strength_sequence β')) := by
  intro R R' h h'
  obtain ⟨j, rfl⟩ := Nat.exists_eq_add_of_le hm
  obtain ⟨b, gs, h0⟩ := solve_tool_crema_args e g me.name (.name name) a ma ga _ h
  have hG := solve_tool_crema_matrix e g me (.name name) a ma ga { p with max_steps := m } h0
  have hG' := solve_tool_crema_matrix e g' me (.name name) a ma ga { p with max_steps := m + j } h0
  have hA := (C38_crema_partial e he hr d hst a haz name h0).2.2
  simp only at hG hG'
  rw [show R = _ from hG] at h ⊢
  rw [show R' = _ from hG'] at h' ⊢
  rw [solver_loop] at h h' ⊢
  rw [solver_loop]
  have k := fun g' : UAttr d => solutionError_keeps e g'
  cases hsv : loop (cbCrema e d (triuEdges a) me) (p.opts me.name) m (initState (cbCrema e d (triuEdges a) me) b) with
  | error x => rw [hsv] at h; simp at h
  | ok s =>
    cases hsv' : loop (cbCrema e d (triuEdges a) me) (p.opts me.name) (m + j) (initState (cbCrema e d (triuEdges a) me) b) with
    | error x => rw [hsv'] at h'; simp at h'
    | ok s' =>
      refine ⟨.of s, .of s', s.x, s'.x, (k _).2.2.2.2.2.1.trans (by simp [setSolvedCrema, hf]), (k _).2.2.2.2.2.1.trans (by simp [setSolvedCrema, hf]),
        (k _).2.2.1, (k _).2.2.1, fun hal => ?_⟩
      have legal : ∀ s : State (Fin n), ∀ dx alfa, stepLength (cbCrema e d (triuEdges a) me) (p.opts me.name) s dx = .ok alfa →
          LegalStep (llF e (fun x => ∀ t ∈ triuEdges a, 0 < x t.1 + x t.2.1) fun x => CReMa.loglikelihood_crema_undirected x d.strength_sequence (triuEdges a))
            s.x dx s.f 1 0.5 alfa := by
        intro s dx alfa hsl
        have hL := Option.some.inj (stepLength_newton hme hl hsl)
        rw [← hL]
        exact (C16_linsearch_free s.x dx s.f _ 0.5 1 (by norm_num) (by norm_num) one_pos).2.2.1
      have := run_monotone (cbCrema e d (triuEdges a) me) (p.opts me.name) hl ((1 / 2) ^ 50) (fun x => ∀ t ∈ triuEdges a, 0 < x t.1 + x t.2.1)
        (fun x => CReMa.loglikelihood_crema_undirected x d.strength_sequence (triuEdges a))
        (fun k s hk hka => solver_alfa_inv (cbCrema e d (triuEdges a) me) (({ p with max_steps := k } : Params).opts me.name) hl ((1 / 2) ^ 50) _
          (fun s dx alfa hP _ hd hsl hc => dom_of_legal ho (legal s dx alfa hsl) hc) (fun t ht => by
            simp only [triuEdges, List.mem_map, List.mem_filter] at ht
            obtain ⟨pr, ⟨-, h2⟩, rfl⟩ := ht
            simp at h2
            exact hA _ _ h2.2)
            ((solver_loop _ p _ k _).trans hk) hka) (fun s dx alfa hP hf hd' hsl hc hP' => by
          have hL := legal s dx alfa hsl
          rw [hf] at hd'
          refine increase_of_legal hL hc hP hP' ?_
          rw [hf]; exact dot_nonpos (C17_crema_direction e d a hs hd ha me hme p s.x) hd') m j hsv hsv' hal
      simp only [ll_crema_spec a hs hd] at this
      exact ⟨this.1, this.2.1⟩

end undirected

section directed

variable {n : ℕ} [NeZero n] {d : DData n}

/-- C57 (dcm_exp): the nodes without outgoing (incoming) links, whose parameter plays no role, are left out of the log-likelihood. -/
theorem C57_dcm_exp (e : Env) (he : e.Valid) (g g' : DAttr d) (me : Method) (hme : me ≠ .fixed_point) (guess : DGuess n) (adj : AdjSpec n) (ma : String)
    (ga : DGuess n) (p : Params) (hf : p.full_return = true) (hl : p.linsearch = true) (m m' : ℕ) (hm : m ≤ m') :
    let R := solve_tool_directed e g "dcm_exp" me.name guess adj ma ga { p with max_steps := m }
    let R' := solve_tool_directed e g' "dcm_exp" me.name guess adj ma ga { p with max_steps := m' }
    let L := fun x y : Fin n → ℝ => logDBCM d.degOut d.degIn (active d.degOut x) (active d.degIn y)
    R.exc = none → R'.exc = none → ∃ t t' x y x' y', R.g.trace = some t ∧ R'.g.trace = some t' ∧ R.g.x = some x ∧ R.g.y = some y ∧
      R'.g.x = some x' ∧ R'.g.y = some y' ∧ ((∀ a ∈ t'.alfa_seq, (1 / 2 : ℝ) ^ 50 < a) → L x y ≤ L x' y' ∧ (t.n_steps < t'.n_steps → L x y < L x' y')) := by
  intro R R' L h h'
  obtain ⟨j, rfl⟩ := Nat.exists_eq_add_of_le hm
  obtain ⟨me1, x0, s, hm1, h0, hs, hG, -⟩ := solve_tool_ok_dcm_exp e g me.name guess adj ma ga _ h
  obtain ⟨me2, x1, s', hm2, h1, hs', hG', -⟩ := solve_tool_ok_dcm_exp e g' me.name guess adj ma ga _ h'
  obtain rfl : me1 = me := by revert hm1; cases me <;> cases me1 <;> simp [Method.name]
  obtain rfl : me2 = me1 := by revert hm2; cases me2 <;> cases me1 <;> simp [Method.name]
  obtain rfl : x0 = x1 := by rw [h0] at h1; simpa using h1
  rw [solver_loop] at hs hs'
  rw [show R = _ from hG, show R' = _ from hG']
  refine ⟨.of s, .of s', fun i => Real.exp (-s.x (0, d.inv i)), fun i => Real.exp (-s.x (1, d.inv i)), fun i => Real.exp (-s'.x (0, d.inv i)),
    fun i => Real.exp (-s'.x (1, d.inv i)), (keepsD DAttr.trace (fun _ => rfl) _).trans (by simp [setSolvedDCM, preDCM, hf]),
    (keepsD DAttr.trace (fun _ => rfl) _).trans (by simp [setSolvedDCM, preDCM, hf]), keepsD DAttr.x (fun _ => rfl) _, keepsD DAttr.y (fun _ => rfl) _,
    keepsD DAttr.x (fun _ => rfl) _, keepsD DAttr.y (fun _ => rfl) _, fun ha => ?_⟩
  have := run_monotone (cbDCMexp e d me2) (p.opts me2.name) hl ((1 / 2) ^ 50) (fun _ => True)
    (fun x => DCM.loglikelihood_dcm_exp x d.ko d.ki (DCM.nonzero d.ko) (DCM.nonzero d.ki) d.c)
    (fun _ _ _ _ => trivial) (fun s dx alfa _ hf hd hsl hc _ => by
      rw [hf] at hd
      have hL := Option.some.inj (stepLength_newton hme hl hsl)
      subst hL
      refine increase_of_legal (C16_linsearch_free s.x dx s.f _ 0.5 1 (by norm_num) (by norm_num) one_pos).2.1 hc trivial trivial ?_
      rw [hf]; exact dot_nonpos (C17_dcm_direction e he d me2 hme p s.x).2 hd) m j hs hs' ha
  simp only [ll_dcm_exp_red_spec] at this
  exact ⟨this.1, this.2.1⟩

/-- C57 (dcm) -/
theorem C57_dcm (e : Env) (he : e.Valid) (hr : e.NonzeroDraws) (hsum : ∑ i, d.dseq_in i = ∑ i, d.dseq_out i) (g g' : DAttr d) (me : Method)
    (hme : me ≠ .fixed_point) (name : String) (adj : AdjSpec n) (ma : String)
    (ga : DGuess n) (p : Params) (hf : p.full_return = true) (hl : p.linsearch = true) (m m' : ℕ) (hm : m ≤ m') :
    let R := solve_tool_directed e g "dcm" me.name (.name name) adj ma ga { p with max_steps := m }
    let R' := solve_tool_directed e g' "dcm" me.name (.name name) adj ma ga { p with max_steps := m' }
    let L := fun x y : Fin n → ℝ => logDBCM d.degOut d.degIn (active d.degOut x) (active d.degIn y)
    R.exc = none → R'.exc = none → ∃ t t' x y x' y', R.g.trace = some t ∧ R'.g.trace = some t' ∧ R.g.x = some x ∧ R.g.y = some y ∧
      R'.g.x = some x' ∧ R'.g.y = some y' ∧ ((∀ a ∈ t'.alfa_seq, (1 / 2 : ℝ) ^ 50 < a) → L x y ≤ L x' y' ∧ (t.n_steps < t'.n_steps → L x y < L x' y')) := by
  intro R R' L h h'
  obtain ⟨j, rfl⟩ := Nat.exists_eq_add_of_le hm
  obtain ⟨me1, x0, s, hm1, h0, hs, hG, -⟩ := solve_tool_ok_dcm e g me.name (.name name) adj ma ga _ h
  obtain ⟨me2, x1, s', hm2, h1, hs', hG', -⟩ := solve_tool_ok_dcm e g' me.name (.name name) adj ma ga _ h'
  obtain rfl : me1 = me := by revert hm1; cases me <;> cases me1 <;> simp [Method.name]
  obtain rfl : me2 = me1 := by revert hm2; cases me2 <;> cases me1 <;> simp [Method.name]
  obtain rfl : x0 = x1 := by rw [h0] at h1; simpa using h1
  obtain ⟨g0, g1⟩ := C38_dcm e he hr d hsum name h0
  have hko : ∀ i, d.ko (d.inv i) = d.dseq_out i := fun i => (d.class_of i).1
  have hki : ∀ i, d.ki (d.inv i) = d.dseq_in i := fun i => (d.class_of i).2
  have hA : AdmDCM0 d x0 := by
    refine ⟨⟨fun q hq => ?_, fun q hq => ?_⟩, fun q hq => ?_, fun q hq => ?_⟩ <;> obtain ⟨i, rfl⟩ := d.inv_surj q
    · exact (g0 i).1 fun hh => hq (by rw [hko, hh]; simp)
    · exact (g1 i).1 fun hh => hq (by rw [hki, hh]; simp)
    · exact (g0 i).2 (by rw [hko] at hq; exact_mod_cast hq)
    · exact (g1 i).2 (by rw [hki] at hq; exact_mod_cast hq)
  rw [solver_loop] at hs hs'
  rw [show R = _ from hG, show R' = _ from hG']
  refine ⟨.of s, .of s', fun i => s.x (0, d.inv i), fun i => s.x (1, d.inv i), fun i => s'.x (0, d.inv i),
    fun i => s'.x (1, d.inv i), (keepsD DAttr.trace (fun _ => rfl) _).trans (by simp [setSolvedDCM, preDCM, hf]),
    (keepsD DAttr.trace (fun _ => rfl) _).trans (by simp [setSolvedDCM, preDCM, hf]), keepsD DAttr.x (fun _ => rfl) _, keepsD DAttr.y (fun _ => rfl) _,
    keepsD DAttr.x (fun _ => rfl) _, keepsD DAttr.y (fun _ => rfl) _, fun ha => ?_⟩
  have := run_monotone (cbDCM e d me2) (p.opts me2.name) hl ((1 / 2) ^ 50) (AdmDCM0 d)
    (fun x => DCM.loglikelihood_dcm x d.ko d.ki (DCM.nonzero d.ko) (DCM.nonzero d.ki) d.c)
    (fun k s hk _ => dcm_run_pos e he me2 { p with max_steps := k } hl hA ((solver_loop _ p _ k _).trans hk)) (fun s dx alfa hP hf hd hsl hc hP' => by
      rw [hf] at hd
      have hL := Option.some.inj (stepLength_newton hme hl hsl)
      subst hL
      refine increase_of_legal (C16_linsearch_dcm (blocks 2 d.r) (fun v => by simp [blocks]) s.x dx s.f _ 0.5 1 (by norm_num) (by norm_num) one_pos).1 hc hP.1 hP'.1 ?_
      rw [hf]; exact dot_nonpos (C17_dcm_direction e he d me2 hme p s.x).1 hd) m j hs hs' ha
  simp only [ll_dcm_red_spec] at this
  exact ⟨this.1, this.2.1⟩

/-- C57 (decm_exp) -/
theorem C57_decm_exp (e : Env) (he : e.Valid) (hr : e.NonzeroDraws) (hd : d.Spread)
    (hii : ∀ i, d.out_strength i < ∑ k, d.out_strength k ∨ d.in_strength i < ∑ k, d.in_strength k) (g g' : DAttr d) (me : Method) (hme : me ≠ .fixed_point)
    (name : String) (adj : AdjSpec n) (ma : String) (ga : DGuess n) (p : Params) (hf : p.full_return = true) (hl : p.linsearch = true) (m m' : ℕ) (hm : m ≤ m') :
    let R := solve_tool_directed e g "decm_exp" me.name (.name name) adj ma ga { p with max_steps := m }
    let R' := solve_tool_directed e g' "decm_exp" me.name (.name name) adj ma ga { p with max_steps := m' }
    let L := logDECM d.degOut d.degIn d.out_strength d.in_strength
    R.exc = none → R'.exc = none → ∃ t t' x y bo bi x' y' bo' bi', R.g.trace = some t ∧ R'.g.trace = some t' ∧
      R.g.x = some x ∧ R.g.y = some y ∧ R.g.b_out = some bo ∧ R.g.b_in = some bi ∧ R'.g.x = some x' ∧ R'.g.y = some y' ∧ R'.g.b_out = some bo' ∧ R'.g.b_in = some bi' ∧
      ((∀ a ∈ t'.alfa_seq, (1 / 2 : ℝ) ^ 50 < a) → L x y bo bi ≤ L x' y' bo' bi' ∧ (t.n_steps < t'.n_steps → L x y bo bi < L x' y' bo' bi')) := by
  intro R R' L h h'
  obtain ⟨j, rfl⟩ := Nat.exists_eq_add_of_le hm
  obtain ⟨me1, v0, gs, s, hm1, h0, hs, hG⟩ := solve_tool_ok_decm_exp e g me.name (.name name) adj ma ga _ h
  obtain ⟨me2, v1, gs', s', hm2, h1, hs', hG'⟩ := solve_tool_ok_decm_exp e g' me.name (.name name) adj ma ga _ h'
  obtain rfl : me1 = me := by revert hm1; cases me <;> cases me1 <;> simp [Method.name]
  obtain rfl : me2 = me1 := by revert hm2; cases me2 <;> cases me1 <;> simp [Method.name]
  obtain ⟨rfl, rfl⟩ : v0 = v1 ∧ gs = gs' := by rw [h0] at h1; simpa using h1
  have hA : ∀ i j, 0 < v0 (2, i) + v0 (3, j) := fun i j => guessDECMexp_pair e he hr d hd name h0 i j (by
    by_cases hij : i = j
    · subst hij; exact hii i
    · exact hd.spread i j hij)
  rw [solver_loop] at hs hs'
  rw [show R = _ from hG, show R' = _ from hG']
  refine ⟨.of s, .of s', fun i => Real.exp (-s.x (0, i)), fun i => Real.exp (-s.x (1, i)), fun i => Real.exp (-s.x (2, i)), fun i => Real.exp (-s.x (3, i)),
    fun i => Real.exp (-s'.x (0, i)), fun i => Real.exp (-s'.x (1, i)), fun i => Real.exp (-s'.x (2, i)), fun i => Real.exp (-s'.x (3, i)),
    (keepsD DAttr.trace (fun _ => rfl) _).trans (by simp [setSolvedDECM, preDECM, hf]),
    (keepsD DAttr.trace (fun _ => rfl) _).trans (by simp [setSolvedDECM, preDECM, hf]), keepsD DAttr.x (fun _ => rfl) _, keepsD DAttr.y (fun _ => rfl) _,
    keepsD DAttr.b_out (fun _ => rfl) _, keepsD DAttr.b_in (fun _ => rfl) _,
    keepsD DAttr.x (fun _ => rfl) _, keepsD DAttr.y (fun _ => rfl) _, keepsD DAttr.b_out (fun _ => rfl) _, keepsD DAttr.b_in (fun _ => rfl) _, fun ha => ?_⟩
  have := run_monotone (cbDECMexp e d me2) (p.opts me2.name) hl ((1 / 2) ^ 50) (fun x => ∀ i j, 0 < x (2, i) + x (3, j))
    (fun x => DECM.loglikelihood_decm_exp x d.degOut d.degIn d.out_strength d.in_strength)
    (fun k s hk _ => decm_exp_run_adm e me2 { p with max_steps := k } hl hA ((solver_loop _ p _ k _).trans hk)) (fun s dx alfa hP hf hd hsl hc hP' => by
      rw [hf] at hd
      obtain ⟨r0, hu, rfl⟩ := Option.map_eq_some_iff.1 (show Option.map _ (untilLoop _ _ _) = some alfa from stepLength_newton hme hl hsl)
      obtain ⟨u1, u2⟩ := untilLoop_le one_pos hu
      refine increase_of_legal (legal_of_decrease (llF e (fun x => ∀ i j : Fin n, i ≠ j → 0 < x (2, i) + x (3, j))
        fun x => DECM.loglikelihood_decm_exp x d.degOut d.degIn d.out_strength d.in_strength) s.x dx s.f (by norm_num) (by norm_num) u1 u2)
        hc (fun i j _ => hP i j) (fun i j _ => hP' i j) ?_
      rw [hf]; exact dot_nonpos ((C17_decm_direction e he d me2 hme p s.x).2 fun i j _ => hP i j) hd) m j hs hs' ha
  rw [ll_decm_exp_spec d _ fun i j _ => this.2.2.2.1 i j, ll_decm_exp_spec d _ fun i j _ => this.2.2.2.2 i j] at this
  exact ⟨this.1, this.2.1⟩

/-- C57 (decm): the log-likelihood is taken to be nan outside its domain, as in numpy. -/
theorem C57_decm (e : Env) (he : e.Valid) (hr : e.NonzeroDraws) (ho : ∀ x : Fin 4 × Fin n → ℝ, e.outside (Fin 4 × Fin n) x = none) (hd : d.Spread)
    (hz : ∀ v, d.obs v ≠ 0) (g g' : DAttr d) (me : Method) (hme : me ≠ .fixed_point)
    (name : String) (adj : AdjSpec n) (ma : String) (ga : DGuess n) (p : Params) (hf : p.full_return = true) (hl : p.linsearch = true) (m m' : ℕ) (hm : m ≤ m') :
    let R := solve_tool_directed e g "decm" me.name (.name name) adj ma ga { p with max_steps := m }
    let R' := solve_tool_directed e g' "decm" me.name (.name name) adj ma ga { p with max_steps := m' }
    let L := logDECM d.degOut d.degIn d.out_strength d.in_strength
    R.exc = none → R'.exc = none → ∃ t t' x y bo bi x' y' bo' bi', R.g.trace = some t ∧ R'.g.trace = some t' ∧
      R.g.x = some x ∧ R.g.y = some y ∧ R.g.b_out = some bo ∧ R.g.b_in = some bi ∧ R'.g.x = some x' ∧ R'.g.y = some y' ∧ R'.g.b_out = some bo' ∧ R'.g.b_in = some bi' ∧
      ((∀ a ∈ t'.alfa_seq, (1 / 2 : ℝ) ^ 50 < a) → L x y bo bi ≤ L x' y' bo' bi' ∧ (t.n_steps < t'.n_steps → L x y bo bi < L x' y' bo' bi')) := by
  intro R R' L h h'
  obtain ⟨j, rfl⟩ := Nat.exists_eq_add_of_le hm
  obtain ⟨me1, v0, gs, s, hm1, h0, hs, hG⟩ := solve_tool_ok_decm e g me.name (.name name) adj ma ga _ h
  obtain ⟨me2, v1, gs', s', hm2, h1, hs', hG'⟩ := solve_tool_ok_decm e g' me.name (.name name) adj ma ga _ h'
  obtain rfl : me1 = me := by revert hm1; cases me <;> cases me1 <;> simp [Method.name]
  obtain rfl : me2 = me1 := by revert hm2; cases me2 <;> cases me1 <;> simp [Method.name]
  obtain ⟨rfl, rfl⟩ : v0 = v1 ∧ gs = gs' := by rw [h0] at h1; simpa using h1
  obtain ⟨g1, g2⟩ := C38_decm_partial e he hr d hd name h0
  have hA : AdmDECM v0 := ⟨fun w => (g1 w).1 (hz w), g2⟩
  rw [solver_loop] at hs hs'
  rw [show R = _ from hG, show R' = _ from hG']
  refine ⟨.of s, .of s', blk4 s.x 0, blk4 s.x 1, blk4 s.x 2, blk4 s.x 3, blk4 s'.x 0, blk4 s'.x 1, blk4 s'.x 2, blk4 s'.x 3,
    (keepsD DAttr.trace (fun _ => rfl) _).trans (by simp [setSolvedDECM, preDECM, hf]),
    (keepsD DAttr.trace (fun _ => rfl) _).trans (by simp [setSolvedDECM, preDECM, hf]), keepsD DAttr.x (fun _ => rfl) _, keepsD DAttr.y (fun _ => rfl) _,
    keepsD DAttr.b_out (fun _ => rfl) _, keepsD DAttr.b_in (fun _ => rfl) _,
    keepsD DAttr.x (fun _ => rfl) _, keepsD DAttr.y (fun _ => rfl) _, keepsD DAttr.b_out (fun _ => rfl) _, keepsD DAttr.b_in (fun _ => rfl) _, fun ha => ?_⟩
  have := run_monotone (cbDECM e d me2) (p.opts me2.name) hl ((1 / 2) ^ 50) AdmDECM
    (fun x => DECM.loglikelihood_decm x d.degOut d.degIn d.out_strength d.in_strength)
    (fun k s hk hka => solver_alfa_inv (cbDECM e d me2) (({ p with max_steps := k } : Params).opts me2.name) hl ((1 / 2) ^ 50) AdmDECM
      (fun s dx alfa hP _ hd hsl hc => (decm_step e ho me2 { p with max_steps := k } hl s dx alfa hP.1 hd hsl).2 hme hc) hA
        ((solver_loop _ p _ k _).trans hk) hka) (fun s dx alfa hP hf hd hsl hc hP' => by
      rw [hf] at hd
      have hp := positivityStage'_pos (blocks 4 n) s.x dx 1 one_pos
      obtain ⟨r0, hu, rfl⟩ := Option.map_eq_some_iff.1 (show Option.map _ (untilLoop _ _ _) = some alfa from stepLength_newton hme hl hsl)
      obtain ⟨u1, u2⟩ := untilLoop_le hp hu
      refine increase_of_legal (legal_of_decrease (llF e (fun x => (∀ v, d.obs v ≠ 0 → 0 < x v) ∧ (∀ v, 0 ≤ x v) ∧ ∀ i j : Fin n, i ≠ j → x (2, i) * x (3, j) < 1)
        fun x => DECM.loglikelihood_decm x d.degOut d.degIn d.out_strength d.in_strength) s.x dx s.f (by norm_num) (by norm_num) u1
        (u2.trans (positivityStage'_le _ _ _ _))) hc ⟨fun v _ => hP.1 v, fun v => (hP.1 v).le, hP.2⟩ ⟨fun v _ => hP'.1 v, fun v => (hP'.1 v).le, hP'.2⟩ ?_
      rw [hf]; exact dot_nonpos (C17_decm_direction e he d me2 hme p s.x).1 hd) m j hs hs' ha
  simp only [ll_decm_spec] at this
  exact ⟨this.1, this.2.1⟩

/-- C57 (directed crema on a given matrix of link probabilities that vanish wherever both strengths do) -/
theorem C57_dcrema_matrix (e : Env) (he : e.Valid) (hr : e.NonzeroDraws) (ho : ∀ x : Fin 2 × Fin n → ℝ, e.outside (Fin 2 × Fin n) x = none)
    (hso : ∀ i, 0 ≤ d.out_strength i) (hsi : ∀ i, 0 ≤ d.in_strength i) (hz : d.nz_known = true) (a : Fin n → Fin n → ℝ) (ha : ∀ i j, 0 ≤ a i j)
    (haz : ∀ i j, a i j ≠ 0 → d.out_strength i ≠ 0 ∨ d.in_strength j ≠ 0) (g g' : DAttr d)
    (me : Method) (hme : me ≠ .fixed_point) (name : String) (ma : String) (ga : DGuess n) (p : Params) (hf : p.full_return = true)
    (hl : p.linsearch = true) (m m' : ℕ) (hm : m ≤ m') :
    let R := solve_tool_directed e g "crema" me.name (.name name) (.matrix a) ma ga { p with max_steps := m }
    let R' := solve_tool_directed e g' "crema" me.name (.name name) (.matrix a) ma ga { p with max_steps := m' }
    let L := logDCReMa a d.out_strength d.in_strength
    R.exc = none → R'.exc = none → ∃ t t' bo bi bo' bi', R.g.trace_crema = some t ∧ R'.g.trace_crema = some t' ∧ R.g.b_out = some bo ∧ R.g.b_in = some bi ∧
      R'.g.b_out = some bo' ∧ R'.g.b_in = some bi' ∧ ((∀ a ∈ t'.alfa_seq, (1 / 2 : ℝ) ^ 50 < a) →
        L bo bi ≤ L bo' bi' ∧ (t.n_steps < t'.n_steps → L bo bi < L bo' bi')) := by
  intro R R' L h h'
  obtain ⟨j, rfl⟩ := Nat.exists_eq_add_of_le hm
  obtain ⟨bo, bi, gs, h0⟩ := solve_tool_dcrema_args e g me.name (.name name) a ma ga _ h
  have hG := solve_tool_dcrema_matrix e g hz me (.name name) a ma ga { p with max_steps := m } h0
  have hG' := solve_tool_dcrema_matrix e g' hz me (.name name) a ma ga { p with max_steps := m + j } h0
  have hA := (C38_dcrema e he hr d hso hsi a haz name h0).2.2
  simp only at hG hG'
  rw [show R = _ from hG] at h ⊢
  rw [show R' = _ from hG'] at h' ⊢
  rw [solver_loop] at h h' ⊢
  rw [solver_loop]
  cases hsv : loop (cbDCrema e d (nzEdges a) me) (p.opts me.name) m (initState (cbDCrema e d (nzEdges a) me) (cat2 bo bi)) with
  | error x => rw [hsv] at h; simp at h
  | ok s =>
    cases hsv' : loop (cbDCrema e d (nzEdges a) me) (p.opts me.name) (m + j) (initState (cbDCrema e d (nzEdges a) me) (cat2 bo bi)) with
    | error x => rw [hsv'] at h'; simp at h'
    | ok s' =>
      refine ⟨.of s, .of s', _, _, _, _, (keepsD DAttr.trace_crema (fun _ => rfl) _).trans (by simp [setSolvedDCrema, preDCrema, hf]),
        (keepsD DAttr.trace_crema (fun _ => rfl) _).trans (by simp [setSolvedDCrema, preDCrema, hf]), keepsD DAttr.b_out (fun _ => rfl) _,
        keepsD DAttr.b_in (fun _ => rfl) _, keepsD DAttr.b_out (fun _ => rfl) _, keepsD DAttr.b_in (fun _ => rfl) _, fun hal => ?_⟩
      have legal : ∀ s : State (Fin 2 × Fin n), ∀ dx alfa, stepLength (cbDCrema e d (nzEdges a) me) (p.opts me.name) s dx = .ok alfa →
          LegalStep (llF e (fun x => ∀ t ∈ nzEdges a, 0 < x (0, t.1) + x (1, t.2.1)) fun x =>
            DCReMa.loglikelihood_crema_directed x d.out_strength d.in_strength (nzEdges a) (DCM.nonzero d.out_strength) (DCM.nonzero d.in_strength))
            s.x dx s.f 1 0.5 alfa := by
        intro s dx alfa hsl
        have hL := Option.some.inj (stepLength_newton hme hl hsl)
        rw [← hL]
        exact (C16_linsearch_free s.x dx s.f _ 0.5 1 (by norm_num) (by norm_num) one_pos).2.2.2
      have := run_monotone (cbDCrema e d (nzEdges a) me) (p.opts me.name) hl ((1 / 2) ^ 50) (fun x => ∀ t ∈ nzEdges a, 0 < x (0, t.1) + x (1, t.2.1))
        (fun x => DCReMa.loglikelihood_crema_directed x d.out_strength d.in_strength (nzEdges a) (DCM.nonzero d.out_strength) (DCM.nonzero d.in_strength))
        (fun k s hk hka => solver_alfa_inv (cbDCrema e d (nzEdges a) me) (({ p with max_steps := k } : Params).opts me.name) hl ((1 / 2) ^ 50) _
          (fun s dx alfa hP _ hd hsl hc => dom_of_legal ho (legal s dx alfa hsl) hc) (adm_nz hA)
            ((solver_loop _ p _ k _).trans hk) hka) (fun s dx alfa hP hf hd' hsl hc hP' => by
          have hL := legal s dx alfa hsl
          rw [hf] at hd'
          refine increase_of_legal hL hc hP hP' ?_
          rw [hf]; exact dot_nonpos (C17_dcrema_direction e d a ha me hme p s.x) hd') m j hsv hsv' hal
      simp only [ll_dcrema_spec] at this
      exact ⟨this.1, this.2.1⟩

end directed

/-! ### Non-vacuity -/

theorem first_fn (e : Env) (s : Fin 3 → ℝ) (q : Fin (regular 3 1 s).r) : (cbCM e (regular 3 1 s) .quasinewton).fn (fun _ => 0.5) q = -3.6 := by
  haveI : Subsingleton (Fin (regular 3 1 s).r) := inferInstance
  simp only [cbCM, CM.prime_eq, Fintype.sum_subsingleton _ q, if_true, regular_k, regular_c]; norm_num

/-- three nodes of degree 1: the first quasi-Newton step from x = 1/2 is taken with step length 1 -/
theorem first_step (e : Env) (s : Fin 3 → ℝ) : ∃ st : State (Fin (regular 3 1 s).r),
    step (cbCM e (regular 3 1 s) .quasinewton) (({} : Params).opts "quasinewton") (initState (cbCM e (regular 3 1 s) .quasinewton) fun _ => 0.5) = .ok st ∧
      st.alfa_seq = [1] ∧ st.n_steps = 1 := by
  set d := regular 3 1 s with hd
  set C := cbCM e d .quasinewton with hC
  haveI : Subsingleton (Fin d.r) := by rw [hd]; infer_instance
  have hk : ∀ q, d.k q = 1 := fun q => (regular_k q).trans (by simp)
  have hc : ∀ q, d.c q = 3 := fun q => (regular_c q).trans (by simp)
  have hf : ∀ q, C.fn (fun _ => 0.5) q = -3.6 := fun q => by
    simp only [hC, cbCM, CM.prime_eq, Fintype.sum_subsingleton _ q, if_true, hk, hc]; norm_num
  have hj : ∀ q, C.jacDiag (fun _ => 0.5) q = 11.04 := fun q => by
    simp only [hC, cbCM, CM.hess_diag_eq, Fintype.sum_subsingleton _ q, if_true, hk, hc]; norm_num
  obtain ⟨q0⟩ : Nonempty (Fin d.r) := inferInstance
  have hm : maxAbs (C.fn fun _ => 0.5) = 3.6 := by
    unfold maxAbs
    rw [funext hf]
    simp; norm_num
  have hdir : direction C (({} : Params).opts "quasinewton") (fun _ => 0.5) (C.fn fun _ => 0.5) = .ok fun _ => 15 / 46 := by
    rw [direction, if_neg (by simp [Params.opts]), if_pos (by simp [Params.opts])]
    have hr : (({} : Params).opts "quasinewton").regularise = true := rfl
    have he : (({} : Params).opts "quasinewton").regularise_eps = 1e-3 := rfl
    simp only [hr, he, if_true, hm, hf, hj]
    rw [if_neg (by norm_num)]
    congr 1; funext _; norm_num
  have hL : linsearch_fun_CM (List.finRange d.r) (fun _ => 0.5) (fun _ => 15 / 46) 0.5 1 (fun _ => -3.6)
      (llF e (fun x => ∀ q, 0 < x q) fun x => CM.loglikelihood_cm x d.k d.c) = 1 := by
    unfold linsearch_fun_CM
    have hp : positivityStage (List.finRange d.r) (fun _ => 0.5) (fun _ => (15 : ℝ) / 46) 1 = 1 := by
      unfold positivityStage
      refine forL_obs_keep id _ _ ?_ _
      intro i a
      simp; norm_num
    rw [hp]
    unfold decreaseStage
    simp only [backtrack]
    rw [if_pos]
    simp only [negF, llF]
    rw [if_pos (by intro; norm_num), if_pos (by intro; simp; norm_num)]
    simp only [Option.map_some, sufficient_decrease_condition, CM.ll_eq, Fintype.sum_subsingleton _ q0, if_true, hk, hc, dot, Pi.add_apply, Pi.smul_apply, smul_eq_mul]
    have h1 := Real.log_le_sub_one_of_pos (show (0 : ℝ) < 23 / 38 by norm_num)
    have h2 := Real.log_le_sub_one_of_pos (show (0 : ℝ) < (1 + (19 / 23) ^ 2) / (5 / 4) by norm_num)
    rw [show (23 / 38 : ℝ) = (1 / 2) / (19 / 23) by norm_num, Real.log_div (by norm_num) (by norm_num)] at h1
    rw [Real.log_div (by norm_num) (by norm_num)] at h2
    norm_num at h1 h2 ⊢
    linarith
  have : stepLength C (({} : Params).opts "quasinewton") (initState C fun _ => 0.5) (fun _ => 15 / 46) = .ok 1 := by
    rw [stepLength, if_pos (by simp [Params.opts])]
    simp only [initState, funext hf]
    simp only [hC, cbCM, hL]
  unfold step
  simp only [show (initState C fun _ => 0.5).x = fun _ => 0.5 from rfl, show (initState C fun _ => 0.5).f = C.fn fun _ => 0.5 from rfl, hdir, this]
  exact ⟨_, rfl, rfl, rfl⟩

/-- the hypotheses of `C57_cm` are met by a run that takes a step: three nodes of degree 1, "quasinewton" from the guess "uniform", 0 steps against 1 -/
example (e : Env) (s : Fin 3 → ℝ) :
    let R := solve_tool e ({} : UAttr (regular 3 1 s)) "cm" "quasinewton" (.name "uniform") .other "" .other { full_return := true, max_steps := 0 }
    let R' := solve_tool e ({} : UAttr (regular 3 1 s)) "cm" "quasinewton" (.name "uniform") .other "" .other { full_return := true, max_steps := 1 }
    R.exc = none ∧ R'.exc = none ∧ ∃ t t', R.g.trace = some t ∧ R'.g.trace = some t' ∧ t.n_steps = 0 ∧ t'.n_steps = 1 ∧ ∀ a ∈ t'.alfa_seq, (1 / 2 : ℝ) ^ 50 < a := by
  let d := regular 3 1 s
  have h0 : guessCM e d false (.name "uniform") = .ok fun _ => 0.5 := by
    simp only [guessCM, namedCM]
    rw [if_neg (by decide), if_neg (by decide), if_pos trivial]
    simp only [Bool.false_eq_true, if_false]
    congr 1; funext q
    have : d.k q ≠ 0 := by rw [show d.k q = _ from regular_k q]; norm_num
    simp [maskSet, this]
  obtain ⟨st, h1, h2, h3⟩ := first_step e s
  have hR := solve_tool_cm e ({} : UAttr d) .quasinewton (.name "uniform") .other "" .other { full_return := true, max_steps := 0 } h0
  have hR' := solve_tool_cm e ({} : UAttr d) .quasinewton (.name "uniform") .other "" .other { full_return := true, max_steps := 1 } h0
  have e0 : solver (cbCM e d .quasinewton) (({ full_return := true, max_steps := 0 } : Params).opts Method.quasinewton.name) (fun _ => 0.5) =
      .ok (initState (cbCM e d .quasinewton) fun _ => 0.5) := rfl
  have e1 : solver (cbCM e d .quasinewton) (({ full_return := true, max_steps := 1 } : Params).opts Method.quasinewton.name) (fun _ => 0.5) = .ok st := by
    have hs : step (cbCM e d .quasinewton) (({ full_return := true, max_steps := 1 } : Params).opts Method.quasinewton.name)
      (initState (cbCM e d .quasinewton) fun _ => 0.5) = .ok st := h1
    have hn : (({ full_return := true, max_steps := 1 } : Params).opts Method.quasinewton.name).tol < (initState (cbCM e d .quasinewton) fun _ => 0.5).norm := by
      show (1e-8 : ℝ) < norm2 ((cbCM e d .quasinewton).fn fun _ => 0.5)
      rw [show (cbCM e d .quasinewton).fn (fun _ => 0.5) = fun _ => -3.6 from funext (first_fn e s)]
      unfold norm2
      refine Real.lt_sqrt_of_sq_lt ?_
      obtain ⟨q0⟩ : Nonempty (Fin d.r) := inferInstance
      haveI : Subsingleton (Fin d.r) := inferInstanceAs (Subsingleton (Fin (regular 3 1 s).r))
      rw [Fintype.sum_subsingleton _ q0]; norm_num
    show loop _ _ 1 _ = _
    rw [loop, if_pos ⟨hn, show (1e-8 : ℝ) < 1 by norm_num⟩, hs]
    rfl
  simp only [e0] at hR
  simp only [e1] at hR'
  intro R R'
  rw [show R = _ from hR, show R' = _ from hR']
  have k := fun g' : UAttr d => solutionError_keeps e g'
  refine ⟨?_, ?_, .of (initState (cbCM e d .quasinewton) fun _ => 0.5), .of st, (k _).2.2.2.2.1.trans (by simp [setSolvedCM]),
    (k _).2.2.2.2.1.trans (by simp [setSolvedCM]), rfl, h3, ?_⟩
  · simp only [solutionError, setSolvedCM, true_or, or_true, if_true, strengthError, degreeError]
  · simp only [solutionError, setSolvedCM, true_or, or_true, if_true, strengthError, degreeError]
  · intro a ha
    rw [show (Trace.of st).alfa_seq = [1] from h2] at ha
    simp at ha; subst ha; norm_num

end

end Verif.Solve
