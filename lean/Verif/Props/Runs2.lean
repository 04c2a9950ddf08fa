import Verif.Props.Runs
import Verif.Props.Regulariser

/-!
C16 along whole runs of the plain weighted models (ecm, decm) and of decm_exp, and C13 without domain hypotheses for them.
-/

set_option linter.unusedSectionVars false

namespace Verif.Solve

open Verif Finset Reduction Solver Spec

noncomputable section

section general

variable {ι : Type} [Fintype ι] [DecidableEq ι] [Nonempty ι]

theorem direction_ne_diverge {C : Callbacks ι} {o : Opts} {x f : ι → ℝ} {er : Err} (h : direction C o x f = .error er) : er ≠ .diverge := by
  unfold direction linalgSolve at h
  rintro rfl
  repeat' split at h
  all_goals simp_all
  all_goals split at h <;> simp at h

/-- an invariant of the points visited by a run all of whose recorded step lengths exceed `c` -/
theorem solver_alfa_inv (C : Callbacks ι) (o : Opts) (hl : o.linsearch = true) (c : ℝ) (P : (ι → ℝ) → Prop)
    (hstep : ∀ s : State ι, ∀ dx alfa, P s.x → s.f = C.fn s.x → direction C o s.x s.f = .ok dx → stepLength C o s dx = .ok alfa → c < alfa → P (s.x + alfa • dx))
    {x0 : ι → ℝ} {r : State ι} (h0 : P x0) (h : solver C o x0 = .ok r) (ha : ∀ a ∈ r.alfa_seq, c < a) : P r.x := by
  have := loop_inv C o (fun s => ((∀ a ∈ s.alfa_seq, c < a) → P s.x) ∧ s.f = C.fn s.x) (fun s s' _ _ hs h => by
    obtain ⟨dx, alfa, h1, h2, rfl⟩ := step_ok h
    refine ⟨fun hc => ?_, rfl⟩
    simp only [hl, if_true] at hc
    exact hstep s dx alfa (hs.1 fun a ha => hc a (List.mem_append_left _ ha)) hs.2 h1 h2 (hc alfa (by simp))) _ _ r ⟨fun _ => h0, rfl⟩ h
  exact this.1 ha

/-- a run never hangs if an invariant of the visited points makes every line search end -/
theorem solver_no_hang (C : Callbacks ι) (o : Opts) (P : (ι → ℝ) → Prop)
    (hstep : ∀ s : State ι, ∀ dx alfa, P s.x → direction C o s.x s.f = .ok dx → stepLength C o s dx = .ok alfa → P (s.x + alfa • dx))
    (hls : ∀ s : State ι, ∀ dx, P s.x → stepLength C o s dx ≠ .error .diverge) {x0 : ι → ℝ} (h0 : P x0) : solver C o x0 ≠ .error .diverge := by
  unfold solver
  have h0' : P (initState C x0).x := h0
  revert h0'
  generalize initState C x0 = s0
  induction o.max_steps generalizing s0 with
  | zero => simp [loop]
  | succ k ih =>
    intro hs
    rw [loop]
    split
    · cases hd : direction C o s0.x s0.f with
      | error er =>
        simp only [step, hd]
        have : er ≠ .diverge := direction_ne_diverge hd
        simpa using this
      | ok dx =>
        cases hsl : stepLength C o s0 dx with
        | error er =>
          simp only [step, hd, hsl]
          have := hls s0 dx hs
          rw [hsl] at this
          simpa using this
        | ok a =>
          simp only [step, hd, hsl]
          exact ih _ (hstep s0 dx a hs hd hsl)
    · simp

/-- with "fixed-point" the only failure is a line search that does not end -/
theorem solver_fixed_error (C : Callbacks ι) (o : Opts) (hm : o.method = "fixed-point") {x0 : ι → ℝ} {er : Err} (h : solver C o x0 = .error er) : er = .diverge := by
  unfold solver at h
  revert h
  generalize initState C x0 = s0
  induction o.max_steps generalizing s0 with
  | zero => simp [loop]
  | succ k ih =>
    intro h
    rw [loop] at h
    split at h
    · have hd : direction C o s0.x s0.f = .ok (s0.f - s0.x) := by simp [direction, hm]
      cases hsl : stepLength C o s0 (s0.f - s0.x) with
      | error e' =>
        simp only [step, hd, hsl, Except.error.injEq] at h
        subst h
        unfold stepLength at hsl
        split at hsl
        · split at hsl <;> simp_all
        · split at hsl
          · split at hsl <;> simp_all
          · simp at hsl
      | ok a =>
        simp only [step, hd, hsl] at h
        exact ih _ h
    · simp at h

end general

/-- positivity survives a step shorter than the bound of the first stage of the line searches of cm and ecm -/
theorem pos_of_stage {ι : Type} [Fintype ι] [DecidableEq ι] (order : List ι) (ho : ∀ i, i ∈ order) {x dx : ι → ℝ} {r : ℝ} (hx : ∀ i, 0 < x i) (h0 : 0 ≤ r) (hr : r ≤ positivityStage order x dx 1) (i : ι) :
    0 < (x + r • dx) i := by
  have := keep_percent h0 (hx i).le (fun hd => hr.trans (positivityStage_bound order x dx 1 i (ho i) (hx i).le hd))
  simp only [Pi.add_apply, Pi.smul_apply, smul_eq_mul]
  have := hx i
  norm_num at *
  linarith

/-- the same for the line searches of dcm and decm -/
theorem pos_of_stage' {ι : Type} [Fintype ι] [DecidableEq ι] (order : List ι) (ho : ∀ i, i ∈ order) {x dx : ι → ℝ} {r : ℝ} (hx : ∀ i, 0 < x i) (h0 : 0 ≤ r) (hr : r ≤ positivityStage' order x dx 1) (i : ι) :
    0 < (x + r • dx) i := by
  have := keep_percent h0 (hx i).le (fun hd => hr.trans (positivityStage'_bound order x dx 1 i (ho i) (hx i) hd))
  simp only [Pi.add_apply, Pi.smul_apply, smul_eq_mul]
  have := hx i
  norm_num at *
  linarith

theorem untilLoop_le {cond : ℝ → Prop} {a r0 : ℝ} (ha : 0 < a) (hu : untilLoop cond 0.5 a = some r0) : 0 < r0 ∧ r0 ≤ a := by
  obtain ⟨-, k, hk, -⟩ := untilLoop_some hu
  rw [hk]
  exact ⟨by positivity, mul_le_of_le_one_right ha.le (pow_le_one₀ (by norm_num) (by norm_num))⟩

theorem exhausted {r0 : ℝ} (h1 : r0 ≤ 1) (h2 : (1 / 2 : ℝ) ^ 50 < r0 * 0.5 ^ 50) : False := by
  have : r0 * (0.5 : ℝ) ^ 50 ≤ 1 * (1 / 2) ^ 50 := by
    norm_num
    linarith
  linarith

/-- outside its domain the log-likelihood is nan: a value means the point is in the domain -/
theorem llF_dom (e : Env) {ι : Type} {dom : (ι → ℝ) → Prop} {L : (ι → ℝ) → ℝ} (ho : ∀ x, e.outside ι x = none) {x : ι → ℝ} {b : ℝ} (h : llF e dom L x = some b) : dom x := by
  unfold llF at h
  by_contra hd
  rw [if_neg hd, ho] at h
  simp at h

section ecm
variable {n : ℕ} [NeZero n] {d : UData n}

theorem mem_blocks2 (v : Fin 2 × Fin n) : v ∈ blocks 2 n := by simp [blocks]

/-- a step of `ecm` with the line search on: the parameters stay positive; a newton or quasinewton step longer than `2 ^ -50` stays in the domain -/
theorem ecm_step (e : Env) (ho : ∀ x : Fin 2 × Fin n → ℝ, e.outside (Fin 2 × Fin n) x = none) (me : Method) (p : Params) (hl : p.linsearch = true) (s : State (Fin 2 × Fin n)) (dx : Fin 2 × Fin n → ℝ) (alfa : ℝ)
    (hx : ∀ v, 0 < s.x v) (hd : direction (cbECM e d me) (p.opts me.name) s.x s.f = .ok dx) (hsl : stepLength (cbECM e d me) (p.opts me.name) s dx = .ok alfa) :
    (∀ v, 0 < (s.x + alfa • dx) v) ∧ (me ≠ .fixed_point → (1 / 2 : ℝ) ^ 50 < alfa → AdmECM (s.x + alfa • dx)) := by
  have hp := positivityStage_pos (blocks 2 n) s.x dx 1 one_pos (fun i _ _ => hx i)
  have hp1 := positivityStage_le (blocks 2 n) s.x dx 1
  rcases stepLength_linsearch' (by simpa [Params.opts] using hl) ⟨_, _, hd⟩ hsl with h | ⟨hm, h⟩
  · obtain ⟨r0, hu, rfl⟩ := Option.map_eq_some_iff.1 (show Option.map _ (untilLoop _ _ _) = some alfa from h)
    obtain ⟨u1, u2⟩ := untilLoop_le hp hu
    obtain ⟨d1, -, d3, d4⟩ := decreaseStage_spec (llF e (fun x => (∀ v, 0 < x v) ∧ ∀ i j : Fin n, i ≠ j → x (1, i) * x (1, j) < 1)
        fun x => ECM.loglikelihood_ecm x d.deg d.strength_sequence) s.x dx s.f (beta := 0.5) (by norm_num) (by norm_num) u1.le
    refine ⟨pos_of_stage _ mem_blocks2 hx d3 (d1.trans u2), fun _ hlong => ?_⟩
    rcases d4 with ⟨a, b, -, hb, -⟩ | h50
    · have hdom := llF_dom e ho hb
      exact ⟨fun i => hdom.1 _, fun i => hdom.1 _, hdom.2⟩
    · rw [h50] at hlong
      exact (exhausted (u2.trans hp1) hlong).elim
  · obtain ⟨r0, hu, rfl⟩ := Option.map_eq_some_iff.1 (show Option.map _ (untilLoop _ _ _) = some alfa from h)
    obtain ⟨u1, u2⟩ := untilLoop_le hp hu
    obtain ⟨d1, -, d3, -⟩ := normStage_spec dx s.dx_old (beta := 0.5) s.n_steps (by norm_num) (by norm_num) u1.le
    refine ⟨pos_of_stage _ mem_blocks2 hx d3 (d1.trans u2), fun hme _ => ?_⟩
    cases me
    · simp [Params.opts, Method.name] at hm
    · simp [Params.opts, Method.name] at hm
    · exact absurd rfl hme

/-- the network data of `UData.Pos` and the guess: positive parameters -/
theorem cat2_pos {x y : Fin n → ℝ} (hx : ∀ i, 0 < x i) (hy : ∀ i, 0 < y i) (v : Fin 2 × Fin n) : 0 < cat2 x y v := by
  unfold cat2; split_ifs
  · exact hx _
  · exact hy _

/-- C16 along a whole run (ecm): on a network with positive degrees and strengths, with the line search on, every method and every named guess, the returned
parameters are positive; after newton or quasinewton, if every recorded step length exceeds `2 ^ -50` (the decrease stage never used up its 50 halvings), they
satisfy `y i * y j < 1` for every pair.  The log-likelihood is taken to be nan outside its domain, as in numpy. -/
theorem C16_ecm_run_partial (e : Env) (he : e.Valid) (hr : e.NonzeroDraws) (ho : ∀ x : Fin 2 × Fin n → ℝ, e.outside (Fin 2 × Fin n) x = none) (hd : d.Pos) (g : UAttr d)
    (me : Method) (name : String) (adj : AdjSpec n) (ma : String) (ga : Guess n) (p : Params) (hf : p.full_return = true) (hl : p.linsearch = true) :
    let R := solve_tool e g "ecm" me.name (.name name) adj ma ga p
    R.exc = none → ∃ t x y, R.g.trace = some t ∧ R.g.x = some x ∧ R.g.y = some y ∧ (∀ i, 0 < x i) ∧ (∀ i, 0 < y i) ∧
      (me ≠ .fixed_point → (∀ a ∈ t.alfa_seq, (1 / 2 : ℝ) ^ 50 < a) → ∀ i j, i ≠ j → y i * y j < 1) := by
  intro R h
  obtain ⟨me', x0, y0, guess', s, hm, h0, hs, hG⟩ := solve_tool_ok_ecm e g me.name (.name name) adj ma ga p h
  have hme' : me' = me := by revert hm; cases me <;> cases me' <;> simp [Method.name]
  subst hme'
  have k := solutionError_keeps e (setSolvedECM (d := d) { g with last_model := some "ecm", full_return := p.full_return, x := some x0, y := some y0, args := some .ecm, step_fun := some .ecm } false s)
  rw [show R = _ from hG]
  obtain ⟨g1, g2, g3⟩ := C38_ecm e he hr d hd name h0
  have hpos : ∀ v, 0 < s.x v := by
    refine solver_point_inv _ _ (fun x => ∀ v, 0 < x v) (fun s dx alfa hP _ hd hsl => (ecm_step e ho me' p hl s dx alfa hP hd hsl).1) ?_ hs
    rintro ⟨b, i⟩
    match b with
    | 0 => exact g1 i
    | 1 => exact g2 i
  refine ⟨.of s, fun i => s.x (0, i), fun i => s.x (1, i), ?_, k.1, k.2.1, fun i => hpos _, fun i => hpos _, fun hme ha => ?_⟩
  · refine k.2.2.2.2.1.trans ?_
    simp [setSolvedECM, hf]
  · have hA : AdmECM s.x := by
      refine solver_alfa_inv _ _ (by simpa [Params.opts] using hl) ((1 / 2) ^ 50) AdmECM (fun s dx alfa hP _ hd hsl hc => ?_) ⟨g1, g2, g3⟩ hs ha
      refine (ecm_step e ho me' p hl s dx alfa ?_ hd hsl).2 hme hc
      rintro ⟨b, i⟩
      match b with
      | 0 => exact hP.1 i
      | 1 => exact hP.2.1 i
    exact hA.2.2

/-- C13 (ecm, named guesses) without hypotheses on the solution. -/
theorem C13_ecm_named_partial (e : Env) (he : e.Valid) (hr : e.NonzeroDraws) (ho : ∀ x : Fin 2 × Fin n → ℝ, e.outside (Fin 2 × Fin n) x = none) (hd : d.Pos) (g : UAttr d)
    (me : Method) (hme : me ≠ .fixed_point) (name : String) (adj : AdjSpec n) (ma : String) (ga : Guess n) (p : Params) (hf : p.full_return = true) (hl : p.linsearch = true) :
    let R := solve_tool e g "ecm" me.name (.name name) adj ma ga p
    R.exc = none → ∃ t x y, R.g.trace = some t ∧ R.g.x = some x ∧ R.g.y = some y ∧ (t.Converged p → (∀ a ∈ t.alfa_seq, (1 / 2 : ℝ) ^ 50 < a) →
      ∀ i, |degUECM x y i - d.dseq i| ≤ x i * p.tol ∧ |strUECM x y i - d.strength_sequence i| ≤ y i * p.tol) := by
  intro R h
  obtain ⟨t, x, y, ht, hx, hy, px, py, hxy⟩ := C16_ecm_run_partial e he hr ho hd g me name adj ma ga p hf hl h
  obtain ⟨t', x', y', ht', hx', hy', hc⟩ := C13_ecm e g me hme (.name name) adj ma ga p hf h
  obtain rfl : t = t' := Option.some.inj (ht.symm.trans ht')
  obtain rfl : x = x' := Option.some.inj (hx.symm.trans hx')
  obtain rfl : y = y' := Option.some.inj (hy.symm.trans hy')
  exact ⟨t, x, y, ht, hx, hy, fun hconv ha => hc hconv px py (hxy hme ha)⟩

end ecm

/-- between two points where the sums exceed the threshold of the line search of `ecm_exp`, they exceed it too -/
theorem ecm_exp_step_gt {n : ℕ} [NeZero n] {x dx : Fin 2 × Fin n → ℝ} {r r0 : ℝ} (hx : ∀ i j, i ≠ j → x (1, i) + x (1, j) > 1e-14)
    (hu : untilLoop (fun a => lowTwoSum (blk 1 (x + a • dx)) > 1e-14) 0.5 1 = some r0) (h0 : 0 ≤ r) (hr : r ≤ r0) (i j : Fin n) (hij : i ≠ j) :
    (x + r • dx) (1, i) + (x + r • dx) (1, j) > 1e-14 := by
  obtain ⟨hc, -⟩ := untilLoop_some hu
  rw [lowTwoSum_gt (two_le_of_ne hij)] at hc
  have e1 := hc i j hij
  have e0 := hx i j hij
  simp only [blk, Pi.add_apply, Pi.smul_apply, smul_eq_mul] at e1 ⊢
  have := between_pos (a := x (1, i) + x (1, j) - 1e-14) (b := dx (1, i) + dx (1, j)) (by linarith) h0 hr (by linarith)
  linarith

section decm
variable {n : ℕ} [NeZero n] {d : DData n}

theorem mem_blocks4 (v : Fin 4 × Fin n) : v ∈ blocks 4 n := by simp [blocks]

/-- a step of `decm` with the line search on -/
theorem decm_step (e : Env) (ho : ∀ x : Fin 4 × Fin n → ℝ, e.outside (Fin 4 × Fin n) x = none) (me : Method) (p : Params) (hl : p.linsearch = true)
    (s : State (Fin 4 × Fin n)) (dx : Fin 4 × Fin n → ℝ) (alfa : ℝ) (hx : ∀ v, 0 < s.x v)
    (hd : direction (cbDECM e d me) (p.opts me.name) s.x s.f = .ok dx) (hsl : stepLength (cbDECM e d me) (p.opts me.name) s dx = .ok alfa) :
    (∀ v, 0 < (s.x + alfa • dx) v) ∧ (me ≠ .fixed_point → (1 / 2 : ℝ) ^ 50 < alfa → AdmDECM (s.x + alfa • dx)) := by
  have hp := positivityStage'_pos (blocks 4 n) s.x dx 1 one_pos
  have hp1 := positivityStage'_le (blocks 4 n) s.x dx 1
  rcases stepLength_linsearch' (by simpa [Params.opts] using hl) ⟨_, _, hd⟩ hsl with h | ⟨hm, h⟩
  · obtain ⟨r0, hu, rfl⟩ := Option.map_eq_some_iff.1 (show Option.map _ (untilLoop _ _ _) = some alfa from h)
    obtain ⟨u1, u2⟩ := untilLoop_le hp hu
    obtain ⟨d1, -, d3, d4⟩ := decreaseStage_spec (llF e (fun x => (∀ v, d.obs v ≠ 0 → 0 < x v) ∧ (∀ v, 0 ≤ x v) ∧ ∀ i j : Fin n, i ≠ j → x (2, i) * x (3, j) < 1)
        fun x => DECM.loglikelihood_decm x d.degOut d.degIn d.out_strength d.in_strength) s.x dx s.f (beta := 0.5) (by norm_num) (by norm_num) u1.le
    have hpos := pos_of_stage' _ mem_blocks4 hx d3 (d1.trans u2)
    refine ⟨hpos, fun _ hlong => ?_⟩
    rcases d4 with ⟨a, b, -, hb, -⟩ | h50
    · exact ⟨hpos, (llF_dom e ho hb).2.2⟩
    · rw [h50] at hlong
      exact (exhausted (u2.trans hp1) hlong).elim
  · obtain ⟨r0, hu, rfl⟩ := Option.map_eq_some_iff.1 (show Option.map _ (untilLoop _ _ _) = some alfa from h)
    obtain ⟨u1, u2⟩ := untilLoop_le hp hu
    obtain ⟨d1, -, d3, -⟩ := normStage_spec dx s.dx_old (beta := 0.5) s.n_steps (by norm_num) (by norm_num) u1.le
    refine ⟨pos_of_stage' _ mem_blocks4 hx d3 (d1.trans u2), fun hme _ => ?_⟩
    cases me
    · simp [Params.opts, Method.name] at hm
    · simp [Params.opts, Method.name] at hm
    · exact absurd rfl hme

/-- C16 along a whole run (decm): on a network all of whose degrees and strengths are positive (and whose weight is not all on one link), with the line search on,
every method and every named guess, the returned parameters are positive; after newton or quasinewton, if every recorded step length exceeds `2 ^ -50`, they satisfy
`b_out i * b_in j < 1` for every pair. -/
theorem C16_decm_run_partial (e : Env) (he : e.Valid) (hr : e.NonzeroDraws) (ho : ∀ x : Fin 4 × Fin n → ℝ, e.outside (Fin 4 × Fin n) x = none) (hd : d.Spread)
    (hz : ∀ v, d.obs v ≠ 0) (g : DAttr d) (me : Method) (name : String) (adj : AdjSpec n) (ma : String) (ga : DGuess n) (p : Params) (hf : p.full_return = true)
    (hl : p.linsearch = true) :
    let R := solve_tool_directed e g "decm" me.name (.name name) adj ma ga p
    R.exc = none → ∃ t x y bo bi, R.g.trace = some t ∧ R.g.x = some x ∧ R.g.y = some y ∧ R.g.b_out = some bo ∧ R.g.b_in = some bi ∧
      (∀ i, 0 < x i ∧ 0 < y i ∧ 0 < bo i ∧ 0 < bi i) ∧
      (me ≠ .fixed_point → (∀ a ∈ t.alfa_seq, (1 / 2 : ℝ) ^ 50 < a) → ∀ i j, i ≠ j → bo i * bi j < 1) := by
  intro R h
  obtain ⟨me', v, guess', s, hm, h0, hs, hG⟩ := solve_tool_ok_decm e g me.name (.name name) adj ma ga p h
  have hme' : me' = me := by revert hm; cases me <;> cases me' <;> simp [Method.name]
  subst hme'
  rw [show R = _ from hG]
  obtain ⟨g1, g2⟩ := C38_decm_partial e he hr d hd name h0
  have hv : ∀ w, 0 < v w := fun w => (g1 w).1 (hz w)
  have hpos : ∀ w, 0 < s.x w :=
    solver_point_inv _ _ (fun x => ∀ w, 0 < x w) (fun s dx alfa hP _ hd hsl => (decm_step e ho me' p hl s dx alfa hP hd hsl).1) hv hs
  refine ⟨.of s, blk4 s.x 0, blk4 s.x 1, blk4 s.x 2, blk4 s.x 3, ?_, keepsD DAttr.x (fun _ => rfl) _,
    keepsD DAttr.y (fun _ => rfl) _, keepsD DAttr.b_out (fun _ => rfl) _, keepsD DAttr.b_in (fun _ => rfl) _, fun i => ⟨hpos _, hpos _, hpos _, hpos _⟩, fun hme ha => ?_⟩
  · exact (keepsD DAttr.trace (fun _ => rfl) _).trans (by simp [setSolvedDECM, preDECM, hf])
  · have hA : AdmDECM s.x :=
      solver_alfa_inv _ _ (by simpa [Params.opts] using hl) ((1 / 2) ^ 50) AdmDECM (fun s dx alfa hP _ hd hsl hc =>
        (decm_step e ho me' p hl s dx alfa hP.1 hd hsl).2 hme hc) ⟨hv, g2⟩ hs ha
    exact hA.2

/-- C13 (decm, named guesses) without hypotheses on the solution. -/
theorem C13_decm_named_partial (e : Env) (he : e.Valid) (hr : e.NonzeroDraws) (ho : ∀ x : Fin 4 × Fin n → ℝ, e.outside (Fin 4 × Fin n) x = none) (hd : d.Spread)
    (hz : ∀ v, d.obs v ≠ 0) (g : DAttr d) (me : Method) (hme : me ≠ .fixed_point) (name : String) (adj : AdjSpec n) (ma : String) (ga : DGuess n) (p : Params)
    (hf : p.full_return = true) (hl : p.linsearch = true) :
    let R := solve_tool_directed e g "decm" me.name (.name name) adj ma ga p
    R.exc = none → ∃ t x y bo bi, R.g.trace = some t ∧ R.g.x = some x ∧ R.g.y = some y ∧ R.g.b_out = some bo ∧ R.g.b_in = some bi ∧
      (t.Converged p → (∀ a ∈ t.alfa_seq, (1 / 2 : ℝ) ^ 50 < a) → ∀ i,
      |outDegDECM x y bo bi i - d.dseq_out i| ≤ x i * p.tol ∧ |inDegDECM x y bo bi i - d.dseq_in i| ≤ y i * p.tol ∧
      |outStrDECM x y bo bi i - d.out_strength i| ≤ bo i * p.tol ∧ |inStrDECM x y bo bi i - d.in_strength i| ≤ bi i * p.tol) := by
  intro R h
  obtain ⟨t, x, y, bo, bi, ht, hx, hy, hbo, hbi, pos, hxy⟩ := C16_decm_run_partial e he hr ho hd hz g me name adj ma ga p hf hl h
  obtain ⟨t', x', y', bo', bi', ht', hx', hy', hbo', hbi', hc⟩ := C13_decm e g me hme (.name name) adj ma ga p hf h
  obtain rfl : t = t' := Option.some.inj (ht.symm.trans ht')
  obtain rfl : x = x' := Option.some.inj (hx.symm.trans hx')
  obtain rfl : y = y' := Option.some.inj (hy.symm.trans hy')
  obtain rfl : bo = bo' := Option.some.inj (hbo.symm.trans hbo')
  obtain rfl : bi = bi' := Option.some.inj (hbi.symm.trans hbi')
  exact ⟨t, x, y, bo, bi, ht, hx, hy, hbo, hbi, fun hconv ha => hc hconv pos (hxy hme ha)⟩

/-! decm_exp -/

theorem decm_exp_step_adm {x dx : Fin 4 × Fin n → ℝ} {r r0 : ℝ} (hx : ∀ i j, 0 < x (2, i) + x (3, j))
    (hu : untilLoop (fun a => minv (blk 2 (x + a • dx)) + minv (blk 3 (x + a • dx)) > (minv (blk 2 x) + minv (blk 3 x)) * 0.01) 0.5 1 = some r0) (h0 : 0 ≤ r)
    (hr : r ≤ r0) : ∀ i j, 0 < (x + r • dx) (2, i) + (x + r • dx) (3, j) := by
  intro i j
  obtain ⟨hc, -⟩ := untilLoop_some hu
  have htmp : minv (blk 2 x) + minv (blk 3 x) > 0 := (minv_add_gt _ _ 0).2 hx
  rw [minv_add_gt] at hc
  have e1 := hc i j
  have e0 := hx i j
  simp only [blk, Pi.add_apply, Pi.smul_apply, smul_eq_mul] at e1 ⊢
  have := between_pos (a := x (2, i) + x (3, j)) (b := dx (2, i) + dx (3, j)) e0 h0 hr (by
    have : (minv (blk 2 x) + minv (blk 3 x)) * 0.01 > 0 := by positivity
    linarith)
  linarith

theorem decm_exp_step (e : Env) (me : Method) (p : Params) (hl : p.linsearch = true) (s : State (Fin 4 × Fin n)) (dx : Fin 4 × Fin n → ℝ) (alfa : ℝ)
    (hP : ∀ i j, 0 < s.x (2, i) + s.x (3, j)) (hd : direction (cbDECMexp e d me) (p.opts me.name) s.x s.f = .ok dx)
    (hsl : stepLength (cbDECMexp e d me) (p.opts me.name) s dx = .ok alfa) : ∀ i j, 0 < (s.x + alfa • dx) (2, i) + (s.x + alfa • dx) (3, j) := by
  rcases stepLength_linsearch (by simpa [Params.opts] using hl) ⟨_, _, hd⟩ hsl with h | h
  · obtain ⟨r0, hu, rfl⟩ := Option.map_eq_some_iff.1 (show Option.map _ (untilLoop _ _ _) = some alfa from h)
    obtain ⟨d1, -, d3, -⟩ := decreaseStage_spec (llF e (fun x => ∀ i j : Fin n, i ≠ j → 0 < x (2, i) + x (3, j))
        fun x => DECM.loglikelihood_decm_exp x d.degOut d.degIn d.out_strength d.in_strength) s.x dx s.f (beta := 0.5) (by norm_num) (by norm_num) (untilLoop_pos hu).le
    exact decm_exp_step_adm hP hu d3 d1
  · obtain ⟨r0, hu, rfl⟩ := Option.map_eq_some_iff.1 (show Option.map _ (untilLoop _ _ _) = some alfa from h)
    obtain ⟨d1, -, d3, -⟩ := normStage_spec dx s.dx_old (beta := 0.5) s.n_steps (by norm_num) (by norm_num) (untilLoop_pos hu).le
    exact decm_exp_step_adm hP hu d3 d1

/-- the step of `decm_exp` with the line search on stays in the domain -/
theorem decm_exp_run_adm (e : Env) (me : Method) (p : Params) (hl : p.linsearch = true) {x0 : Fin 4 × Fin n → ℝ} {s : State (Fin 4 × Fin n)}
    (h0 : ∀ i j, 0 < x0 (2, i) + x0 (3, j)) (hs : solver (cbDECMexp e d me) (p.opts me.name) x0 = .ok s) : ∀ i j, 0 < s.x (2, i) + s.x (3, j) := by
  refine solver_point_inv _ _ (fun x => ∀ i j, 0 < x (2, i) + x (3, j)) ?_ h0 hs
  exact fun s dx alfa hP _ hd hsl => decm_exp_step e me p hl s dx alfa hP hd hsl

/-- C16 along a whole run (decm_exp): on a network whose weight is not all on one link and of which no node carries all the outgoing and all the incoming weight,
with the line search on, every method and every named guess, the returned parameters satisfy `b_out i * b_in j < 1`. -/
theorem C16_decm_exp_run (e : Env) (he : e.Valid) (hr : e.NonzeroDraws) (hd : d.Spread)
    (hii : ∀ i, d.out_strength i < ∑ k, d.out_strength k ∨ d.in_strength i < ∑ k, d.in_strength k) (g : DAttr d) (method name : String) (adj : AdjSpec n)
    (ma : String) (ga : DGuess n) (p : Params) (hl : p.linsearch = true) :
    let R := solve_tool_directed e g "decm_exp" method (.name name) adj ma ga p
    R.exc = none → ∃ x y bo bi, R.g.x = some x ∧ R.g.y = some y ∧ R.g.b_out = some bo ∧ R.g.b_in = some bi ∧
      (∀ i, 0 < x i ∧ 0 < y i ∧ 0 < bo i ∧ 0 < bi i) ∧ ∀ i j, bo i * bi j < 1 := by
  intro R h
  obtain ⟨me, v, guess', s, rfl, h0, hs, hG⟩ := solve_tool_ok_decm_exp e g method (.name name) adj ma ga p h
  rw [show R = _ from hG]
  refine ⟨fun i => Real.exp (-s.x (0, i)), fun i => Real.exp (-s.x (1, i)), fun i => Real.exp (-s.x (2, i)), fun i => Real.exp (-s.x (3, i)), keepsD DAttr.x (fun _ => rfl) _,
    keepsD DAttr.y (fun _ => rfl) _, keepsD DAttr.b_out (fun _ => rfl) _, keepsD DAttr.b_in (fun _ => rfl) _, fun i => ⟨Real.exp_pos _, Real.exp_pos _, Real.exp_pos _, Real.exp_pos _⟩, ?_⟩
  intro i j
  have := decm_exp_run_adm e me p hl (fun i j => guessDECMexp_pair e he hr d hd name h0 i j (by
    by_cases hij : i = j
    · subst hij; exact hii i
    · exact hd.spread i j hij)) hs i j
  simp only [← Real.exp_add, Real.exp_lt_one_iff]
  linarith

/-- C13 (decm_exp, named guesses) without hypotheses on the solution. -/
theorem C13_decm_exp_named (e : Env) (he : e.Valid) (hr : e.NonzeroDraws) (hd : d.Spread)
    (hii : ∀ i, d.out_strength i < ∑ k, d.out_strength k ∨ d.in_strength i < ∑ k, d.in_strength k) (g : DAttr d) (me : Method) (hme : me ≠ .fixed_point)
    (name : String) (adj : AdjSpec n) (ma : String) (ga : DGuess n) (p : Params) (hf : p.full_return = true) (hl : p.linsearch = true) :
    let R := solve_tool_directed e g "decm_exp" me.name (.name name) adj ma ga p
    R.exc = none → ∃ t x y bo bi, R.g.trace = some t ∧ R.g.x = some x ∧ R.g.y = some y ∧ R.g.b_out = some bo ∧ R.g.b_in = some bi ∧ (t.Converged p → ∀ i,
      |outDegDECM x y bo bi i - d.dseq_out i| ≤ p.tol ∧ |inDegDECM x y bo bi i - d.dseq_in i| ≤ p.tol ∧
      |outStrDECM x y bo bi i - d.out_strength i| ≤ p.tol ∧ |inStrDECM x y bo bi i - d.in_strength i| ≤ p.tol) := by
  intro R h
  obtain ⟨x, y, bo, bi, hx, hy, hbo, hbi, -, hxy⟩ := C16_decm_exp_run e he hr hd hii g me.name name adj ma ga p hl h
  obtain ⟨t, x', y', bo', bi', ht, hx', hy', hbo', hbi', hc⟩ := C13_decm_exp e g me hme (.name name) adj ma ga p hf h
  obtain rfl : x = x' := Option.some.inj (hx.symm.trans hx')
  obtain rfl : y = y' := Option.some.inj (hy.symm.trans hy')
  obtain rfl : bo = bo' := Option.some.inj (hbo.symm.trans hbo')
  obtain rfl : bi = bi' := Option.some.inj (hbi.symm.trans hbi')
  exact ⟨t, x, y, bo, bi, ht, hx, hy, hbo, hbi, fun hconv => hc hconv fun i j _ => hxy i j⟩

/-- C16: with the line search on, a run of `decm_exp` that starts in the domain never loops for ever in its line search, whatever the method and the options: the only
failures left are those of the linear algebra. -/
theorem C16_decm_exp_no_hang (e : Env) (me : Method) (p : Params) {x0 : Fin 4 × Fin n → ℝ} (h0 : ∀ i j, 0 < x0 (2, i) + x0 (3, j)) :
    solver (cbDECMexp e d me) (p.opts me.name) x0 ≠ .error .diverge := by
  by_cases hl : p.linsearch = true
  swap
  · exact solver_no_hang _ _ (fun _ => True) (fun _ _ _ _ _ _ => trivial) (fun s dx _ => by simp [stepLength, Params.opts, hl]) trivial
  refine solver_no_hang _ _ (fun x => ∀ i j, 0 < x (2, i) + x (3, j)) ?_ ?_ h0
  · intro s dx alfa hP hd hsl
    exact decm_exp_step e me p hl s dx alfa hP hd hsl
  · intro s dx hP h
    unfold stepLength at h
    split at h
    · obtain ⟨r, hr, -⟩ := C16_linsearch_decm_exp s.x dx s.f (llF e (fun x => ∀ i j : Fin n, i ≠ j → 0 < x (2, i) + x (3, j))
        fun x => DECM.loglikelihood_decm_exp x d.degOut d.degIn d.out_strength d.in_strength) 0.5 1 (by norm_num) (by norm_num) (by norm_num) hP
      rw [show (cbDECMexp e d me).linsearch s.x dx 0.5 1 s.f = some r from hr] at h
      simp at h
    · split at h
      · obtain ⟨r, hr, -⟩ := C16_linsearch_decm_exp_fixed s.x dx s.dx_old 1 0.5 s.n_steps (by norm_num) (by norm_num) (by norm_num) hP
        rw [show (cbDECMexp e d me).linsearchFixed s.x dx s.dx_old 1 0.5 s.n_steps = some r from hr] at h
        simp at h
      · simp at h

/-- C15, C16: `solve_tool("decm_exp", "fixed-point")` from a named guess returns on every network whose strengths are spread, for every options -/
theorem C15_decm_exp_fixed_point_returns (e : Env) (he : e.Valid) (hr : e.NonzeroDraws) (hd : d.Spread)
    (hii : ∀ i, d.out_strength i < ∑ k, d.out_strength k ∨ d.in_strength i < ∑ k, d.in_strength k) (name : String) (adj : AdjSpec n)
    (ma : String) (ga : DGuess n) (p : Params) {v : Fin 4 × Fin n → ℝ} {guess' : DGuess n} (h0 : guessDECM e d true (.name name) = (.ok v, guess')) :
    (solve_tool_directed e ({} : DAttr d) "decm_exp" "fixed-point" (.name name) adj ma ga p).exc = none := by
  have hR := solve_tool_decm_exp e ({} : DAttr d) .fixed_point (.name name) adj ma ga p h0
  have hP : ∀ i j, 0 < v (2, i) + v (3, j) := fun i j => guessDECMexp_pair e he hr d hd name h0 i j (by
    by_cases hij : i = j
    · subst hij; exact hii i
    · exact hd.spread i j hij)
  have hn := C16_decm_exp_no_hang (d := d) e .fixed_point p hP
  cases hs : solver (cbDECMexp e d .fixed_point) (p.opts "fixed-point") v with
  | error x =>
    rcases solver_fixed_error _ _ rfl hs with rfl
    exact absurd hs hn
  | ok s =>
    rw [show Method.name .fixed_point = "fixed-point" from rfl, hs] at hR
    rw [hR]
    simp [solutionErrorD, setSolvedDECM, preDECM, DModel.name]

end decm

section ecm

variable {n : ℕ} [NeZero n] {d : UData n}

/-- C16: the same for `ecm_exp`, started with every `y_i + y_j` above the threshold `1e-14` of its line search -/
theorem C16_ecm_exp_no_hang_partial (hn : 2 ≤ n) (e : Env) (me : Method) (p : Params) {x0 : Fin 2 × Fin n → ℝ} (h0 : ∀ i j, i ≠ j → x0 (1, i) + x0 (1, j) > 1e-14) :
    solver (cbECMexp e d me) (p.opts me.name) x0 ≠ .error .diverge := by
  by_cases hl : p.linsearch = true
  swap
  · exact solver_no_hang _ _ (fun _ => True) (fun _ _ _ _ _ _ => trivial) (fun s dx _ => by simp [stepLength, Params.opts, hl]) trivial
  refine solver_no_hang _ _ (fun x => ∀ i j, i ≠ j → x (1, i) + x (1, j) > 1e-14) ?_ ?_ h0
  · intro s dx alfa hP hd hsl
    rcases stepLength_linsearch (by simpa [Params.opts] using hl) ⟨_, _, hd⟩ hsl with h | h
    · obtain ⟨r0, hu, rfl⟩ := Option.map_eq_some_iff.1 (show Option.map _ (untilLoop _ _ _) = some alfa from h)
      obtain ⟨d1, -, d3, -⟩ := decreaseStage_spec (llF e (fun x => ∀ i j : Fin n, i ≠ j → 0 < x (1, i) + x (1, j)) fun x =>
        ECM.loglikelihood_ecm_exp x d.deg d.strength_sequence) s.x dx s.f (beta := 0.5) (by norm_num) (by norm_num) (untilLoop_pos hu).le
      exact ecm_exp_step_gt hP hu d3 d1
    · obtain ⟨r0, hu, rfl⟩ := Option.map_eq_some_iff.1 (show Option.map _ (untilLoop _ _ _) = some alfa from h)
      obtain ⟨d1, -, d3, -⟩ := normStage_spec dx s.dx_old (beta := 0.5) s.n_steps (by norm_num) (by norm_num) (untilLoop_pos hu).le
      exact ecm_exp_step_gt hP hu d3 d1
  · intro s dx hP h
    unfold stepLength at h
    split at h
    · obtain ⟨r, hr, -⟩ := C16_linsearch_ecm_exp hn s.x dx s.f (llF e (fun x => ∀ i j : Fin n, i ≠ j → 0 < x (1, i) + x (1, j)) fun x =>
        ECM.loglikelihood_ecm_exp x d.deg d.strength_sequence) 0.5 1 (by norm_num) (by norm_num) (by norm_num) hP
      rw [show (cbECMexp e d me).linsearch s.x dx 0.5 1 s.f = some r from hr] at h
      simp at h
    · split at h
      · obtain ⟨r, hr, -⟩ := C16_linsearch_ecm_exp_fixed hn s.x dx s.dx_old 1 0.5 s.n_steps (by norm_num) (by norm_num) (by norm_num) hP
        rw [show (cbECMexp e d me).linsearchFixed s.x dx s.dx_old 1 0.5 s.n_steps = some r from hr] at h
        simp at h
      · simp at h

end ecm

theorem symm_of_transpose {ι : Type} {b : Matrix ι ι ℝ} (h : b.transpose = b) : Symm b := fun i j => by
  conv_lhs => rw [← h]
  rfl

/-- the hypotheses on the environment can be met (by the spectral theorem for `eigh`) -/
theorem env_exists : ∃ e : Env, e.Valid ∧ e.NonzeroDraws ∧ ∀ ι x, e.outside ι x = none := by
  classical
  refine ⟨⟨fun _ _ => 1 / 2, fun _ _ => 1 / 2,
    fun ι _ _ b => if h : b.transpose = b then ((isEigh_exists b (symm_of_transpose h)).choose, (isEigh_exists b (symm_of_transpose h)).choose_spec.choose) else (0, 0),
    fun n => List.finRange n, fun _ _ => none, fun _ => 0⟩, ⟨?_, ?_, ?_, ?_, ?_, ?_⟩, ?_, ?_⟩
  · intro b i; norm_num
  · intro b i; norm_num
  · intro b i; norm_num
  · intro b i; norm_num
  · intro ι _ _ b h
    simp only [dif_pos h]
    exact (isEigh_exists b (symm_of_transpose h)).choose_spec.choose_spec
  · intro n; exact List.Perm.refl _
  · intro b i; norm_num
  · intro ι x; rfl

/-- the hypotheses on the network are met by the path 0 → 1 → 2 → 0 with a reciprocated link, whose weights differ -/
example : ∃ d : DData 3, d.Spread ∧ (∀ i, d.out_strength i < ∑ k, d.out_strength k ∨ d.in_strength i < ∑ k, d.in_strength k) ∧
    ∃ v g, guessDECM (⟨fun _ _ => 1 / 2, fun _ _ => 1 / 2, fun _ _ _ _ => (0, 0), fun n => List.finRange n, fun _ _ => none, fun _ => 0⟩ : Env) d true (.name "strengths") = (.ok v, g) := by
  refine ⟨⟨![2, 1, 1], ![1, 1, 2], ![5, 2, 1], ![1, 3, 4], true⟩, ⟨?_, ?_, ?_⟩, ?_, ⟨_, _, rfl⟩⟩
  · intro i; fin_cases i <;> simp
  · intro i; fin_cases i <;> simp
  · intro i j _
    left
    fin_cases i <;> simp [Fin.sum_univ_three] <;> norm_num
  · intro i
    left
    fin_cases i <;> simp [Fin.sum_univ_three] <;> norm_num

end

end Verif.Solve
