import Verif.Props.Guess2

/-!
Property C83: a run that was stopped by `max_steps` can be continued.  With newton or quasinewton (or any method without the line search) a second call started at
the parameters of the first one does what one call with all the steps would have done.
-/

namespace Verif.Solver

open Classical in
attribute [local instance 0] propDecidable

variable {ι : Type*} [Fintype ι] [DecidableEq ι] [Nonempty ι]

theorem loop_opts (C : Callbacks ι) (o : Opts) (m k : ℕ) (s : State ι) : loop C { o with max_steps := m } k s = loop C o k s := by
  induction k generalizing s with
  | zero => rfl
  | succ k ih =>
    simp only [loop]
    have hst : step C { o with max_steps := m } s = step C o s := rfl
    rw [hst]
    split_ifs
    · cases step C o s with
      | error x => rfl
      | ok s' => exact ih s'
    · rfl

theorem loop_add (C : Callbacks ι) (o : Opts) (m k : ℕ) (s : State ι) :
    loop C o (m + k) s = match loop C o m s with
      | .error x => .error x
      | .ok t => loop C o k t := by
  induction m generalizing s with
  | zero => simp [loop]
  | succ m ih =>
    rw [show m + 1 + k = (m + k) + 1 by omega]
    simp only [loop]
    split_ifs with h
    · cases step C o s with
      | error x => rfl
      | ok s' => exact ih s'
    · cases k with
      | zero => rfl
      | succ k => simp only [loop]; rw [if_neg h]

/-- the long run, seen from the state `s` in which the first one stopped -/
structure Cont (s a b : State ι) : Prop where
  x : b.x = a.x
  f : b.f = a.f
  norm : b.norm = a.norm
  steps : b.n_steps = s.n_steps + a.n_steps
  norms : b.norm_seq = s.norm_seq ++ a.norm_seq.tail
  diffs : b.diff_seq = s.diff_seq ++ a.diff_seq.tail
  alfas : b.alfa_seq = s.alfa_seq ++ a.alfa_seq
  ne : a.norm_seq ≠ [] ∧ a.diff_seq ≠ []

theorem step_cont (C : Callbacks ι) (o : Opts) (hm : o.method = "newton" ∨ o.method = "quasinewton" ∨ o.linsearch = false) {s a b : State ι} (h : Cont s a b) :
    (∃ x, step C o a = .error x ∧ step C o b = .error x) ∨ ∃ a' b', step C o a = .ok a' ∧ step C o b = .ok b' ∧ Cont s a' b' ∧ b'.diff = a'.diff := by
  have hd : direction C o b.x b.f = direction C o a.x a.f := by rw [h.x, h.f]
  unfold step
  rw [hd]
  cases direction C o a.x a.f with
  | error x => exact .inl ⟨x, rfl, rfl⟩
  | ok dx =>
    have hl : stepLength C o b dx = stepLength C o a dx := by
      unfold stepLength
      rw [h.x, h.f]
      rcases hm with hm | hm | hm <;> simp [hm]
    dsimp only
    rw [hl]
    cases stepLength C o a dx with
    | error x => exact .inl ⟨x, rfl, rfl⟩
    | ok al =>
      refine .inr ⟨_, _, rfl, rfl, ⟨?_, ?_, ?_, ?_, ?_, ?_, ?_, ?_⟩, ?_⟩
      · simp [h.x]
      · simp [h.x]
      · simp [h.x]
      · simp only [h.steps]; omega
      · simp only [h.norms, h.x, List.tail_append_of_ne_nil h.ne.1, List.append_assoc]
      · simp only [h.diffs, h.x, List.tail_append_of_ne_nil h.ne.2, List.append_assoc]
      · simp only [h.alfas]; split_ifs <;> simp
      · simp
      · simp [h.x]

theorem loop_cont (C : Callbacks ι) (o : Opts) (hm : o.method = "newton" ∨ o.method = "quasinewton" ∨ o.linsearch = false) (k : ℕ) {s a b : State ι} (h : Cont s a b)
    (hd : b.diff = a.diff ∨ o.eps < a.diff ∧ o.eps < b.diff) :
    (∃ x, loop C o k a = .error x ∧ loop C o k b = .error x) ∨ ∃ a' b', loop C o k a = .ok a' ∧ loop C o k b = .ok b' ∧ Cont s a' b' := by
  induction k generalizing a b with
  | zero => exact .inr ⟨a, b, rfl, rfl, h⟩
  | succ k ih =>
    simp only [loop]
    have hc : (b.norm > o.tol ∧ b.diff > o.eps) ↔ (a.norm > o.tol ∧ a.diff > o.eps) := by
      rw [h.norm]
      rcases hd with hd | ⟨h1, h2⟩
      · rw [hd]
      · exact and_congr_right fun _ => ⟨fun _ => h1, fun _ => h2⟩
    by_cases hg : a.norm > o.tol ∧ a.diff > o.eps
    · rw [if_pos hg, if_pos (hc.2 hg)]
      rcases step_cont C o hm h with ⟨x, e1, e2⟩ | ⟨a', b', e1, e2, h', hd'⟩
      · rw [e1, e2]; exact .inl ⟨x, rfl, rfl⟩
      · rw [e1, e2]; exact ih h' (.inl hd')
    · rw [if_neg hg, if_neg (fun h => hg (hc.1 h))]
      exact .inr ⟨a, b, rfl, rfl, h⟩

/-- A run of `o.max_steps` steps that was not ended by `eps`, continued for `k` more steps, is the run of `o.max_steps + k` steps. -/
theorem solver_continue (C : Callbacks ι) (o : Opts) (hm : o.method = "newton" ∨ o.method = "quasinewton" ∨ o.linsearch = false) (he : o.eps < 1) {x0 : ι → ℝ}
    {s : State ι} (hs : solver C o x0 = .ok s) (hd : ∀ δ, s.diff_seq.getLast? = some δ → o.eps < δ) (k : ℕ) :
    (∃ x, solver C { o with max_steps := k } s.x = .error x ∧ solver C { o with max_steps := o.max_steps + k } x0 = .error x) ∨
      ∃ a b, solver C { o with max_steps := k } s.x = .ok a ∧ solver C { o with max_steps := o.max_steps + k } x0 = .ok b ∧ Cont s a b := by
  obtain ⟨-, -, hf, hn, hl⟩ := history_of_loop C o x0 s hs
  have h1 : solver C { o with max_steps := k } s.x = loop C o k (initState C s.x) := loop_opts C o k k _
  have h2 : solver C { o with max_steps := o.max_steps + k } x0 = loop C o k s := by
    have := loop_add C o o.max_steps k (initState C x0)
    rw [show loop C o o.max_steps (initState C x0) = .ok s from hs] at this
    exact (loop_opts C o _ _ _).trans this
  rw [h1, h2]
  refine loop_cont C o hm k (s := s) ⟨rfl, hf, hn, by simp [initState], by simp [initState], by simp [initState], by simp [initState], by simp [initState]⟩
    (.inr ⟨he, hd _ hl⟩)

end Verif.Solver

namespace Verif.Solve

open Verif Finset Reduction Solver Spec

open Classical in
attribute [local instance 0] propDecidable

/-- the trace `tl` is the trace `t` followed by the trace `t'` (whose first entries, for its starting point, are left out) -/
structure Follows (t t' tl : Trace) : Prop where
  n_steps : tl.n_steps = t.n_steps + t'.n_steps
  norm_seq : tl.norm_seq = t.norm_seq ++ t'.norm_seq.tail
  diff_seq : tl.diff_seq = t.diff_seq ++ t'.diff_seq.tail
  alfa_seq : tl.alfa_seq = t.alfa_seq ++ t'.alfa_seq

/-- the run with trace `t` was not ended by `eps` -/
def Trace.NotStuck (t : Trace) (p : Params) : Prop := ∀ δ, t.diff_seq.getLast? = some δ → p.eps < δ

theorem Follows.of {ι : Type} {s a b : State ι} [Fintype ι] [DecidableEq ι] [Nonempty ι] (h : Cont s a b) : Follows (.of s) (.of a) (.of b) :=
  ⟨h.steps, h.norms, h.diffs, h.alfas⟩

/-- the methods whose steps only look at the current point -/
def Forgets (me : Method) (p : Params) : Prop := me ≠ .fixed_point ∨ p.linsearch = false

theorem Forgets.opts {me : Method} {p : Params} (h : Forgets me p) :
    (p.opts me.name).method = "newton" ∨ (p.opts me.name).method = "quasinewton" ∨ (p.opts me.name).linsearch = false := by
  rcases h with h | h
  · cases me
    · exact .inl rfl
    · exact .inr (.inl rfl)
    · exact absurd rfl h
  · exact .inr (.inr h)

theorem solutionError_py {n : ℕ} [NeZero n] {d : UData n} (e : Env) (G : UAttr d) (x : Solver.Err) : (solutionError e G).2 ≠ some (.numeric x) := by
  unfold solutionError strengthError
  dsimp only
  repeat' split
  all_goals simp

theorem solutionErrorD_py {n : ℕ} [NeZero n] {d : DData n} (G : DAttr d) (x : Solver.Err) : (solutionErrorD G).2 ≠ some (.numeric x) := by
  unfold solutionErrorD strengthErrorD
  dsimp only
  repeat' split
  all_goals simp

section undirected

variable {n : ℕ} [NeZero n] {d : UData n} (e : Env) (g g' : UAttr d) (me : Method) (guess : Guess n) (adj adj' : AdjSpec n) (ma ma' : String) (ga ga' : Guess n) (p : Params)
  (hm : Forgets me p) (he : p.eps < 1) (hf : p.full_return = true)

include hm he hf

/-- C83 (cm) -/
theorem C83_cm (h0 : ∀ i, d.dseq i ≠ 0) :
    let R := solve_tool e g "cm" me.name guess adj ma ga p
    R.exc = none → ∃ t x, R.g.trace = some t ∧ R.g.x = some x ∧ (t.NotStuck p → ∀ k,
      let R' := solve_tool e g' "cm" me.name (.nodes x) adj' ma' ga' { p with max_steps := k }
      let L := solve_tool e g "cm" me.name guess adj ma ga { p with max_steps := p.max_steps + k }
      (∀ err, R'.exc = some (.numeric err) ↔ L.exc = some (.numeric err)) ∧
      (R'.exc = none → L.exc = none → ∃ t' tl x', R'.g.trace = some t' ∧ L.g.trace = some tl ∧ Follows t t' tl ∧ R'.g.x = some x' ∧ L.g.x = some x')) := by
  intro R h
  obtain ⟨m, x0, s, hm', hg0, hs, hG⟩ := solve_tool_ok_cm e g me.name guess adj ma ga p h
  obtain rfl := method_name_inj hm'
  have k := solutionError_keeps e (setSolvedCM (d := d) { g with last_model := some "cm", full_return := p.full_return, args := some .cm, step_fun := some .cm, fun_pmatrix := true } false s)
  rw [show R = _ from hG]
  refine ⟨.of s, fun i => s.x (d.inv i), k.2.2.2.2.1.trans (by simp [setSolvedCM, hf]), k.1, fun hc K => ?_⟩
  have hg : guessCM e d false (.nodes fun i => s.x (d.inv i)) = .ok s.x := by
    simp only [guessCM]
    congr 1
    funext q
    simp [maskSet, d.k_ne h0 q, d.inv_index]
  have hR := solve_tool_cm e g' me (.nodes fun i => s.x (d.inv i)) adj' ma' ga' { p with max_steps := K } hg
  have hL := solve_tool_cm e g me guess adj ma ga { p with max_steps := p.max_steps + K } hg0
  intro R' L
  rw [show R' = _ from hR, show L = _ from hL]
  rcases solver_continue (cbCM e d me) (p.opts me.name) hm.opts he hs hc K with ⟨x, e1, e2⟩ | ⟨a, b, e1, e2, hab⟩
  · rw [show solver (cbCM e d me) (Params.opts { p with max_steps := K } me.name) s.x = _ from e1,
      show solver (cbCM e d me) (Params.opts { p with max_steps := p.max_steps + K } me.name) x0 = _ from e2]
    exact ⟨fun _ => Iff.rfl, fun h => by simp at h⟩
  · rw [show solver (cbCM e d me) (Params.opts { p with max_steps := K } me.name) s.x = _ from e1,
      show solver (cbCM e d me) (Params.opts { p with max_steps := p.max_steps + K } me.name) x0 = _ from e2]
    refine ⟨fun err => ⟨fun h => absurd h (solutionError_py e _ _), fun h => absurd h (solutionError_py e _ _)⟩, fun _ _ => ?_⟩
    exact ⟨.of a, .of b, fun i => a.x (d.inv i), (solutionError_keeps e _).2.2.2.2.1.trans (by simp [setSolvedCM, hf]),
      (solutionError_keeps e _).2.2.2.2.1.trans (by simp [setSolvedCM, hf]), .of hab, (solutionError_keeps e _).1, (solutionError_keeps e _).1.trans (by simp [setSolvedCM, hab.x])⟩

/-- C83 (cm_exp): the array to be given is θ = −log x. -/
theorem C83_cm_exp (h0 : ∀ i, d.dseq i ≠ 0) :
    let R := solve_tool e g "cm_exp" me.name guess adj ma ga p
    R.exc = none → ∃ t x, R.g.trace = some t ∧ R.g.x = some x ∧ (t.NotStuck p → ∀ k,
      let R' := solve_tool e g' "cm_exp" me.name (.nodes fun i => -Real.log (x i)) adj' ma' ga' { p with max_steps := k }
      let L := solve_tool e g "cm_exp" me.name guess adj ma ga { p with max_steps := p.max_steps + k }
      (∀ err, R'.exc = some (.numeric err) ↔ L.exc = some (.numeric err)) ∧
      (R'.exc = none → L.exc = none → ∃ t' tl x', R'.g.trace = some t' ∧ L.g.trace = some tl ∧ Follows t t' tl ∧ R'.g.x = some x' ∧ L.g.x = some x')) := by
  intro R h
  obtain ⟨m, x0, s, hm', hg0, hs, hG⟩ := solve_tool_ok_cm_exp e g me.name guess adj ma ga p h
  obtain rfl := method_name_inj hm'
  have k := solutionError_keeps e (setSolvedCM (d := d) { g with last_model := some "cm_exp", full_return := p.full_return, args := some .cm, step_fun := some .cm_exp, fun_pmatrix := true } true s)
  rw [show R = _ from hG]
  refine ⟨.of s, fun i => Real.exp (-s.x (d.inv i)), k.2.2.2.2.1.trans (by simp [setSolvedCM, hf]), k.1, fun hc K => ?_⟩
  have hg : guessCM e d true (.nodes fun i => -Real.log (Real.exp (-s.x (d.inv i)))) = .ok s.x := by
    simp only [guessCM]
    congr 1
    funext q
    simp [maskSet, d.k_ne h0 q, d.inv_index]
  have hR := solve_tool_cm_exp e g' me (.nodes fun i => -Real.log (Real.exp (-s.x (d.inv i)))) adj' ma' ga' { p with max_steps := K } hg
  have hL := solve_tool_cm_exp e g me guess adj ma ga { p with max_steps := p.max_steps + K } hg0
  intro R' L
  rw [show R' = _ from hR, show L = _ from hL]
  rcases solver_continue (cbCMexp e d me) (p.opts me.name) hm.opts he hs hc K with ⟨x, e1, e2⟩ | ⟨a, b, e1, e2, hab⟩
  · rw [show solver (cbCMexp e d me) (Params.opts { p with max_steps := K } me.name) s.x = _ from e1,
      show solver (cbCMexp e d me) (Params.opts { p with max_steps := p.max_steps + K } me.name) x0 = _ from e2]
    exact ⟨fun _ => Iff.rfl, fun h => by simp at h⟩
  · rw [show solver (cbCMexp e d me) (Params.opts { p with max_steps := K } me.name) s.x = _ from e1,
      show solver (cbCMexp e d me) (Params.opts { p with max_steps := p.max_steps + K } me.name) x0 = _ from e2]
    refine ⟨fun err => ⟨fun h => absurd h (solutionError_py e _ _), fun h => absurd h (solutionError_py e _ _)⟩, fun _ _ => ?_⟩
    exact ⟨.of a, .of b, fun i => Real.exp (-a.x (d.inv i)), (solutionError_keeps e _).2.2.2.2.1.trans (by simp [setSolvedCM, hf]),
      (solutionError_keeps e _).2.2.2.2.1.trans (by simp [setSolvedCM, hf]), .of hab, (solutionError_keeps e _).1, (solutionError_keeps e _).1.trans (by simp [setSolvedCM, hab.x])⟩

/-- C83 (ecm) -/
theorem C83_ecm (h0 : ∀ i, d.dseq i ≠ 0) (hs0 : ∀ i, d.strength_sequence i ≠ 0) :
    let R := solve_tool e g "ecm" me.name guess adj ma ga p
    R.exc = none → ∃ t x y, R.g.trace = some t ∧ R.g.x = some x ∧ R.g.y = some y ∧ (t.NotStuck p → ∀ k,
      let R' := solve_tool e g' "ecm" me.name (.pairs fun v => if v.1 = 0 then x v.2 else y v.2) adj' ma' ga' { p with max_steps := k }
      let L := solve_tool e g "ecm" me.name guess adj ma ga { p with max_steps := p.max_steps + k }
      (∀ err, R'.exc = some (.numeric err) ↔ L.exc = some (.numeric err)) ∧
      (R'.exc = none → L.exc = none → ∃ t' tl x' y', R'.g.trace = some t' ∧ L.g.trace = some tl ∧ Follows t t' tl ∧
        R'.g.x = some x' ∧ L.g.x = some x' ∧ R'.g.y = some y' ∧ L.g.y = some y')) := by
  intro R h
  obtain ⟨m, x0, y0, guess', s, hm', hg0, hs, hG⟩ := solve_tool_ok_ecm e g me.name guess adj ma ga p h
  obtain rfl := method_name_inj hm'
  have k := solutionError_keeps e (setSolvedECM (d := d) { g with last_model := some "ecm", full_return := p.full_return, x := some x0, y := some y0, args := some .ecm, step_fun := some .ecm } false s)
  rw [show R = _ from hG]
  refine ⟨.of s, fun i => s.x (0, i), fun i => s.x (1, i), k.2.2.2.2.1.trans (by simp [setSolvedECM, hf]), k.1, k.2.1, fun hc K => ?_⟩
  have hsx : cat2 (fun i => s.x (0, i)) (fun i => s.x (1, i)) = s.x := by
    funext ⟨b, i⟩
    fin_cases b <;> rfl
  have hg : (guessECM e d false (.pairs fun v => if v.1 = 0 then s.x (0, v.2) else s.x (1, v.2))).1 = .ok (fun i => s.x (0, i), fun i => s.x (1, i)) := by
    simp only [guessECM]
    congr 2
    · funext i; simp [maskSet, UData.deg, h0 i]
    · funext i; simp [maskSet, hs0 i]
  obtain ⟨gu, hgu⟩ : ∃ gu, guessECM e d false (.pairs fun v => if v.1 = 0 then s.x (0, v.2) else s.x (1, v.2)) = (.ok (fun i => s.x (0, i), fun i => s.x (1, i)), gu) :=
    ⟨_, Prod.ext hg rfl⟩
  have hR := solve_tool_ecm e g' me _ adj' ma' ga' { p with max_steps := K } hgu
  have hL := solve_tool_ecm e g me guess adj ma ga { p with max_steps := p.max_steps + K } hg0
  rw [hsx] at hR
  intro R' L
  rw [show R' = _ from hR, show L = _ from hL]
  rcases solver_continue (cbECM e d me) (p.opts me.name) hm.opts he hs hc K with ⟨x, e1, e2⟩ | ⟨a, b, e1, e2, hab⟩
  · rw [show solver (cbECM e d me) (Params.opts { p with max_steps := K } me.name) s.x = _ from e1,
      show solver (cbECM e d me) (Params.opts { p with max_steps := p.max_steps + K } me.name) (cat2 x0 y0) = _ from e2]
    exact ⟨fun _ => Iff.rfl, fun h => by simp at h⟩
  · rw [show solver (cbECM e d me) (Params.opts { p with max_steps := K } me.name) s.x = _ from e1,
      show solver (cbECM e d me) (Params.opts { p with max_steps := p.max_steps + K } me.name) (cat2 x0 y0) = _ from e2]
    refine ⟨fun err => ⟨fun h => absurd h (solutionError_py e _ _), fun h => absurd h (solutionError_py e _ _)⟩, fun _ _ => ?_⟩
    exact ⟨.of a, .of b, fun i => a.x (0, i), fun i => a.x (1, i), (solutionError_keeps e _).2.2.2.2.1.trans (by simp [setSolvedECM, hf]),
      (solutionError_keeps e _).2.2.2.2.1.trans (by simp [setSolvedECM, hf]), .of hab, (solutionError_keeps e _).1, (solutionError_keeps e _).1.trans (by simp [setSolvedECM, hab.x]),
      (solutionError_keeps e _).2.1, (solutionError_keeps e _).2.1.trans (by simp [setSolvedECM, hab.x])⟩

/-- C83 (ecm_exp): the array to be given is θ = −log of the fitnesses. -/
theorem C83_ecm_exp (h0 : ∀ i, d.dseq i ≠ 0) (hs0 : ∀ i, d.strength_sequence i ≠ 0) :
    let R := solve_tool e g "ecm_exp" me.name guess adj ma ga p
    R.exc = none → ∃ t x y, R.g.trace = some t ∧ R.g.x = some x ∧ R.g.y = some y ∧ (t.NotStuck p → ∀ k,
      let R' := solve_tool e g' "ecm_exp" me.name (.pairs fun v => if v.1 = 0 then -Real.log (x v.2) else -Real.log (y v.2)) adj' ma' ga' { p with max_steps := k }
      let L := solve_tool e g "ecm_exp" me.name guess adj ma ga { p with max_steps := p.max_steps + k }
      (∀ err, R'.exc = some (.numeric err) ↔ L.exc = some (.numeric err)) ∧
      (R'.exc = none → L.exc = none → ∃ t' tl x' y', R'.g.trace = some t' ∧ L.g.trace = some tl ∧ Follows t t' tl ∧
        R'.g.x = some x' ∧ L.g.x = some x' ∧ R'.g.y = some y' ∧ L.g.y = some y')) := by
  intro R h
  obtain ⟨m, x0, y0, guess', s, hm', hg0, hs, hG⟩ := solve_tool_ok_ecm_exp e g me.name guess adj ma ga p h
  obtain rfl := method_name_inj hm'
  have k := solutionError_keeps e (setSolvedECM (d := d) { g with last_model := some "ecm_exp", full_return := p.full_return, x := some x0, y := some y0, args := some .ecm, step_fun := some .ecm_exp } true s)
  rw [show R = _ from hG]
  refine ⟨.of s, fun i => Real.exp (-s.x (0, i)), fun i => Real.exp (-s.x (1, i)), k.2.2.2.2.1.trans (by simp [setSolvedECM, hf]), k.1, k.2.1, fun hc K => ?_⟩
  have hsx : cat2 (fun i => s.x (0, i)) (fun i => s.x (1, i)) = s.x := by
    funext ⟨b, i⟩
    fin_cases b <;> rfl
  have hg : (guessECM e d true (.pairs fun v => if v.1 = 0 then -Real.log (Real.exp (-s.x (0, v.2))) else -Real.log (Real.exp (-s.x (1, v.2))))).1 = .ok (fun i => s.x (0, i), fun i => s.x (1, i)) := by
    simp only [guessECM]
    congr 2
    · funext i; simp [maskSet, UData.deg, h0 i]
    · funext i; simp [maskSet, hs0 i]
  obtain ⟨gu, hgu⟩ : ∃ gu, guessECM e d true (.pairs fun v => if v.1 = 0 then -Real.log (Real.exp (-s.x (0, v.2))) else -Real.log (Real.exp (-s.x (1, v.2)))) = (.ok (fun i => s.x (0, i), fun i => s.x (1, i)), gu) :=
    ⟨_, Prod.ext hg rfl⟩
  have hR := solve_tool_ecm_exp e g' me _ adj' ma' ga' { p with max_steps := K } hgu
  have hL := solve_tool_ecm_exp e g me guess adj ma ga { p with max_steps := p.max_steps + K } hg0
  rw [hsx] at hR
  intro R' L
  rw [show R' = _ from hR, show L = _ from hL]
  rcases solver_continue (cbECMexp e d me) (p.opts me.name) hm.opts he hs hc K with ⟨x, e1, e2⟩ | ⟨a, b, e1, e2, hab⟩
  · rw [show solver (cbECMexp e d me) (Params.opts { p with max_steps := K } me.name) s.x = _ from e1,
      show solver (cbECMexp e d me) (Params.opts { p with max_steps := p.max_steps + K } me.name) (cat2 x0 y0) = _ from e2]
    exact ⟨fun _ => Iff.rfl, fun h => by simp at h⟩
  · rw [show solver (cbECMexp e d me) (Params.opts { p with max_steps := K } me.name) s.x = _ from e1,
      show solver (cbECMexp e d me) (Params.opts { p with max_steps := p.max_steps + K } me.name) (cat2 x0 y0) = _ from e2]
    refine ⟨fun err => ⟨fun h => absurd h (solutionError_py e _ _), fun h => absurd h (solutionError_py e _ _)⟩, fun _ _ => ?_⟩
    exact ⟨.of a, .of b, fun i => Real.exp (-a.x (0, i)), fun i => Real.exp (-a.x (1, i)), (solutionError_keeps e _).2.2.2.2.1.trans (by simp [setSolvedECM, hf]),
      (solutionError_keeps e _).2.2.2.2.1.trans (by simp [setSolvedECM, hf]), .of hab, (solutionError_keeps e _).1, (solutionError_keeps e _).1.trans (by simp [setSolvedECM, hab.x]),
      (solutionError_keeps e _).2.1, (solutionError_keeps e _).2.1.trans (by simp [setSolvedECM, hab.x])⟩

/-- C83 (crema on a given matrix) -/
theorem C83_crema (a : Fin n → Fin n → ℝ) (hs0 : ∀ i, d.strength_sequence i ≠ 0) :
    let R := solve_tool e g "crema" me.name guess (.matrix a) ma ga p
    R.exc = none → ∃ t b, R.g.trace_crema = some t ∧ R.g.beta = some b ∧ (t.NotStuck p → ∀ k,
      let R' := solve_tool e g' "crema" me.name (.nodes b) (.matrix a) ma' ga' { p with max_steps := k }
      let L := solve_tool e g "crema" me.name guess (.matrix a) ma ga { p with max_steps := p.max_steps + k }
      (∀ err, R'.exc = some (.numeric err) ↔ L.exc = some (.numeric err)) ∧
      (R'.exc = none → L.exc = none → ∃ t' tl b', R'.g.trace_crema = some t' ∧ L.g.trace_crema = some tl ∧ Follows t t' tl ∧ R'.g.beta = some b' ∧ L.g.beta = some b')) := by
  intro R h
  obtain ⟨b, guess', hg0⟩ := solve_tool_crema_args e g me.name guess a ma ga p h
  have hG := solve_tool_crema_matrix e g me guess a ma ga p hg0
  simp only at hG
  rw [show R = _ from hG]
  rw [show R = _ from hG] at h
  cases hs : solver (cbCrema e d (triuEdges a) me) (p.opts me.name) b with
  | error x => rw [hs] at h; simp at h
  | ok s =>
    refine ⟨.of s, s.x, (solutionError_keeps e _).2.2.2.2.2.1.trans (by simp [setSolvedCrema, hf]), (solutionError_keeps e _).2.2.1, fun hc K => ?_⟩
    have hg : (guessCrema e d (.nodes s.x)).1 = .ok s.x := by
      simp only [guessCrema]
      congr 1
      funext i
      simp [maskSet, hs0 i]
    have hR := solve_tool_crema_matrix e g' me (.nodes s.x) a ma' ga' { p with max_steps := K } (Prod.ext hg rfl)
    have hL := solve_tool_crema_matrix e g me guess a ma ga { p with max_steps := p.max_steps + K } hg0
    intro R' L
    rw [show R' = _ from hR, show L = _ from hL]
    rcases solver_continue (cbCrema e d (triuEdges a) me) (p.opts me.name) hm.opts he hs hc K with ⟨x, e1, e2⟩ | ⟨u, v, e1, e2, hab⟩
    · rw [show solver (cbCrema e d (triuEdges a) me) (Params.opts { p with max_steps := K } me.name) s.x = _ from e1,
        show solver (cbCrema e d (triuEdges a) me) (Params.opts { p with max_steps := p.max_steps + K } me.name) b = _ from e2]
      exact ⟨fun _ => Iff.rfl, fun h => by simp at h⟩
    · rw [show solver (cbCrema e d (triuEdges a) me) (Params.opts { p with max_steps := K } me.name) s.x = _ from e1,
        show solver (cbCrema e d (triuEdges a) me) (Params.opts { p with max_steps := p.max_steps + K } me.name) b = _ from e2]
      refine ⟨fun err => ⟨fun h => absurd h (solutionError_py e _ _), fun h => absurd h (solutionError_py e _ _)⟩, fun _ _ => ?_⟩
      exact ⟨.of u, .of v, u.x, (solutionError_keeps e _).2.2.2.2.2.1.trans (by simp [setSolvedCrema, hf]),
        (solutionError_keeps e _).2.2.2.2.2.1.trans (by simp [setSolvedCrema, hf]), .of hab, (solutionError_keeps e _).2.2.1, (solutionError_keeps e _).2.2.1.trans (by simp [setSolvedCrema, hab.x])⟩

end undirected

section directed

variable {n : ℕ} [NeZero n] {d : DData n} (e : Env) (g g' : DAttr d) (me : Method) (guess : DGuess n) (adj adj' : AdjSpec n) (ma ma' : String) (ga ga' : DGuess n) (p : Params)
  (hm : Forgets me p) (he : p.eps < 1) (hf : p.full_return = true)

include hm he hf

/-- C83 (dcm) -/
theorem C83_dcm (ho : ∀ i, d.dseq_out i ≠ 0) (hi : ∀ i, d.dseq_in i ≠ 0) :
    let R := solve_tool_directed e g "dcm" me.name guess adj ma ga p
    R.exc = none → ∃ t x y, R.g.trace = some t ∧ R.g.x = some x ∧ R.g.y = some y ∧ (t.NotStuck p → ∀ k,
      let R' := solve_tool_directed e g' "dcm" me.name (.pairs fun v => if v.1 = 0 then x v.2 else y v.2) adj' ma' ga' { p with max_steps := k }
      let L := solve_tool_directed e g "dcm" me.name guess adj ma ga { p with max_steps := p.max_steps + k }
      (∀ err, R'.exc = some (.numeric err) ↔ L.exc = some (.numeric err)) ∧
      (R'.exc = none → L.exc = none → ∃ t' tl x' y', R'.g.trace = some t' ∧ L.g.trace = some tl ∧ Follows t t' tl ∧
        R'.g.x = some x' ∧ L.g.x = some x' ∧ R'.g.y = some y' ∧ L.g.y = some y')) := by
  intro R h
  obtain ⟨m, x0, s, hm', hg0, hs, hG, -⟩ := solve_tool_ok_dcm e g me.name guess adj ma ga p h
  obtain rfl := method_name_inj hm'
  rw [show R = _ from hG]
  refine ⟨.of s, fun i => s.x (0, d.inv i), fun i => s.x (1, d.inv i), (keepsD DAttr.trace (fun _ => rfl) _).trans (by simp [setSolvedDCM, preDCM, hf]),
    keepsD DAttr.x (fun _ => rfl) _, keepsD DAttr.y (fun _ => rfl) _, fun hc K => ?_⟩
  have hg : guessDCM e d false (.pairs fun v => if v.1 = 0 then s.x (0, d.inv v.2) else s.x (1, d.inv v.2)) = .ok s.x := by
    simp only [guessDCM]
    congr 1
    funext ⟨b, q⟩
    fin_cases b
    · simp [finishDCM, cat2, maskSet, d.ko_ne ho, d.inv_index]
    · simp [finishDCM, cat2, maskSet, d.ki_ne hi, d.inv_index]
  have hR := solve_tool_dcm e g' me _ adj' ma' ga' { p with max_steps := K } hg
  have hL := solve_tool_dcm e g me guess adj ma ga { p with max_steps := p.max_steps + K } hg0
  intro R' L
  rw [show R' = _ from hR, show L = _ from hL]
  rcases solver_continue (cbDCM e d me) (p.opts me.name) hm.opts he hs hc K with ⟨x, e1, e2⟩ | ⟨u, v, e1, e2, hab⟩
  · rw [show solver (cbDCM e d me) (Params.opts { p with max_steps := K } me.name) s.x = _ from e1,
      show solver (cbDCM e d me) (Params.opts { p with max_steps := p.max_steps + K } me.name) x0 = _ from e2]
    exact ⟨fun _ => Iff.rfl, fun h => by simp at h⟩
  · rw [show solver (cbDCM e d me) (Params.opts { p with max_steps := K } me.name) s.x = _ from e1,
      show solver (cbDCM e d me) (Params.opts { p with max_steps := p.max_steps + K } me.name) x0 = _ from e2]
    refine ⟨fun err => ⟨fun h => absurd h (solutionErrorD_py _ _), fun h => absurd h (solutionErrorD_py _ _)⟩, fun _ _ => ?_⟩
    exact ⟨.of u, .of v, fun i => u.x (0, d.inv i), fun i => u.x (1, d.inv i), (keepsD DAttr.trace (fun _ => rfl) _).trans (by simp [setSolvedDCM, preDCM, hf]),
      (keepsD DAttr.trace (fun _ => rfl) _).trans (by simp [setSolvedDCM, preDCM, hf]), .of hab,
      keepsD DAttr.x (fun _ => rfl) _, (keepsD DAttr.x (fun _ => rfl) _).trans (by simp [setSolvedDCM, preDCM, hab.x]), keepsD DAttr.y (fun _ => rfl) _, (keepsD DAttr.y (fun _ => rfl) _).trans (by simp [setSolvedDCM, preDCM, hab.x])⟩

/-- C83 (decm) -/
theorem C83_decm (h0 : ∀ i, d.dseq_out i ≠ 0 ∧ d.dseq_in i ≠ 0 ∧ d.out_strength i ≠ 0 ∧ d.in_strength i ≠ 0) :
    let R := solve_tool_directed e g "decm" me.name guess adj ma ga p
    R.exc = none → ∃ t x y bo bi, R.g.trace = some t ∧ R.g.x = some x ∧ R.g.y = some y ∧ R.g.b_out = some bo ∧ R.g.b_in = some bi ∧ (t.NotStuck p → ∀ k,
      let R' := solve_tool_directed e g' "decm" me.name (.quads fun v => if v.1 = 0 then x v.2 else if v.1 = 1 then y v.2 else if v.1 = 2 then bo v.2 else bi v.2) adj' ma' ga' { p with max_steps := k }
      let L := solve_tool_directed e g "decm" me.name guess adj ma ga { p with max_steps := p.max_steps + k }
      (∀ err, R'.exc = some (.numeric err) ↔ L.exc = some (.numeric err)) ∧
      (R'.exc = none → L.exc = none → ∃ t' tl x' y' bo' bi', R'.g.trace = some t' ∧ L.g.trace = some tl ∧ Follows t t' tl ∧
        R'.g.x = some x' ∧ L.g.x = some x' ∧ R'.g.y = some y' ∧ L.g.y = some y' ∧ R'.g.b_out = some bo' ∧ L.g.b_out = some bo' ∧ R'.g.b_in = some bi' ∧ L.g.b_in = some bi')) := by
  intro R h
  obtain ⟨m, v0, guess', s, hm', hg0, hs, hG⟩ := solve_tool_ok_decm e g me.name guess adj ma ga p h
  obtain rfl := method_name_inj hm'
  rw [show R = _ from hG]
  refine ⟨.of s, fun i => s.x (0, i), fun i => s.x (1, i), fun i => s.x (2, i), fun i => s.x (3, i),
    (keepsD DAttr.trace (fun _ => rfl) _).trans (by simp [setSolvedDECM, preDECM, hf]), keepsD DAttr.x (fun _ => rfl) _, keepsD DAttr.y (fun _ => rfl) _,
    keepsD DAttr.b_out (fun _ => rfl) _, keepsD DAttr.b_in (fun _ => rfl) _, fun hc K => ?_⟩
  have hg : (guessDECM e d false (.quads fun v => if v.1 = 0 then s.x (0, v.2) else if v.1 = 1 then s.x (1, v.2) else if v.1 = 2 then s.x (2, v.2) else s.x (3, v.2))).1 = .ok s.x := by
    simp only [guessDECM]
    congr 1
    funext ⟨b, i⟩
    obtain ⟨a1, a2, a3, a4⟩ := h0 i
    fin_cases b <;> simp [finishDECM, maskSet, DData.obs, DData.degOut, DData.degIn, a1, a2, a3, a4]
  have hR := solve_tool_decm e g' me (.quads fun v => if v.1 = 0 then s.x (0, v.2) else if v.1 = 1 then s.x (1, v.2) else if v.1 = 2 then s.x (2, v.2) else s.x (3, v.2))
    adj' ma' ga' { p with max_steps := K } (Prod.ext hg rfl)
  have hL := solve_tool_decm e g me guess adj ma ga { p with max_steps := p.max_steps + K } hg0
  intro R' L
  rw [show R' = _ from hR, show L = _ from hL]
  rcases solver_continue (cbDECM e d me) (p.opts me.name) hm.opts he hs hc K with ⟨x, e1, e2⟩ | ⟨u, v, e1, e2, hab⟩
  · rw [show solver (cbDECM e d me) (Params.opts { p with max_steps := K } me.name) s.x = _ from e1,
      show solver (cbDECM e d me) (Params.opts { p with max_steps := p.max_steps + K } me.name) v0 = _ from e2]
    exact ⟨fun _ => Iff.rfl, fun h => by simp at h⟩
  · rw [show solver (cbDECM e d me) (Params.opts { p with max_steps := K } me.name) s.x = _ from e1,
      show solver (cbDECM e d me) (Params.opts { p with max_steps := p.max_steps + K } me.name) v0 = _ from e2]
    refine ⟨fun err => ⟨fun h => absurd h (solutionErrorD_py _ _), fun h => absurd h (solutionErrorD_py _ _)⟩, fun _ _ => ?_⟩
    exact ⟨.of u, .of v, fun i => u.x (0, i), fun i => u.x (1, i), fun i => u.x (2, i), fun i => u.x (3, i), (keepsD DAttr.trace (fun _ => rfl) _).trans (by simp [setSolvedDECM, preDECM, hf]),
      (keepsD DAttr.trace (fun _ => rfl) _).trans (by simp [setSolvedDECM, preDECM, hf]), .of hab,
      keepsD DAttr.x (fun _ => rfl) _, (keepsD DAttr.x (fun _ => rfl) _).trans (by simp [setSolvedDECM, preDECM, hab.x]), keepsD DAttr.y (fun _ => rfl) _, (keepsD DAttr.y (fun _ => rfl) _).trans (by simp [setSolvedDECM, preDECM, hab.x]), keepsD DAttr.b_out (fun _ => rfl) _, (keepsD DAttr.b_out (fun _ => rfl) _).trans (by simp [setSolvedDECM, preDECM, hab.x]), keepsD DAttr.b_in (fun _ => rfl) _, (keepsD DAttr.b_in (fun _ => rfl) _).trans (by simp [setSolvedDECM, preDECM, hab.x])⟩

/-- C83 (dcm_exp) -/
theorem C83_dcm_exp (ho : ∀ i, d.dseq_out i ≠ 0) (hi : ∀ i, d.dseq_in i ≠ 0) :
    let R := solve_tool_directed e g "dcm_exp" me.name guess adj ma ga p
    R.exc = none → ∃ t x y, R.g.trace = some t ∧ R.g.x = some x ∧ R.g.y = some y ∧ (t.NotStuck p → ∀ k,
      let R' := solve_tool_directed e g' "dcm_exp" me.name (.pairs fun v => if v.1 = 0 then x v.2 else y v.2) adj' ma' ga' { p with max_steps := k }
      let L := solve_tool_directed e g "dcm_exp" me.name guess adj ma ga { p with max_steps := p.max_steps + k }
      (∀ err, R'.exc = some (.numeric err) ↔ L.exc = some (.numeric err)) ∧
      (R'.exc = none → L.exc = none → ∃ t' tl x' y', R'.g.trace = some t' ∧ L.g.trace = some tl ∧ Follows t t' tl ∧
        R'.g.x = some x' ∧ L.g.x = some x' ∧ R'.g.y = some y' ∧ L.g.y = some y')) := by
  intro R h
  obtain ⟨m, x0, s, hm', hg0, hs, hG, -⟩ := solve_tool_ok_dcm_exp e g me.name guess adj ma ga p h
  obtain rfl := method_name_inj hm'
  rw [show R = _ from hG]
  refine ⟨.of s, fun i => Real.exp (-s.x (0, d.inv i)), fun i => Real.exp (-s.x (1, d.inv i)), (keepsD DAttr.trace (fun _ => rfl) _).trans (by simp [setSolvedDCM, preDCM, hf]),
    keepsD DAttr.x (fun _ => rfl) _, keepsD DAttr.y (fun _ => rfl) _, fun hc K => ?_⟩
  have hg : guessDCM e d true (.pairs fun v => if v.1 = 0 then Real.exp (-s.x (0, d.inv v.2)) else Real.exp (-s.x (1, d.inv v.2))) = .ok s.x := by
    simp only [guessDCM]
    congr 1
    funext ⟨b, q⟩
    fin_cases b
    · simp [finishDCM, cat2, maskSet, negLogNonzero, d.ko_ne ho, d.inv_index]
    · simp [finishDCM, cat2, maskSet, negLogNonzero, d.ki_ne hi, d.inv_index]
  have hR := solve_tool_dcm_exp e g' me _ adj' ma' ga' { p with max_steps := K } hg
  have hL := solve_tool_dcm_exp e g me guess adj ma ga { p with max_steps := p.max_steps + K } hg0
  intro R' L
  rw [show R' = _ from hR, show L = _ from hL]
  rcases solver_continue (cbDCMexp e d me) (p.opts me.name) hm.opts he hs hc K with ⟨x, e1, e2⟩ | ⟨u, v, e1, e2, hab⟩
  · rw [show solver (cbDCMexp e d me) (Params.opts { p with max_steps := K } me.name) s.x = _ from e1,
      show solver (cbDCMexp e d me) (Params.opts { p with max_steps := p.max_steps + K } me.name) x0 = _ from e2]
    exact ⟨fun _ => Iff.rfl, fun h => by simp at h⟩
  · rw [show solver (cbDCMexp e d me) (Params.opts { p with max_steps := K } me.name) s.x = _ from e1,
      show solver (cbDCMexp e d me) (Params.opts { p with max_steps := p.max_steps + K } me.name) x0 = _ from e2]
    refine ⟨fun err => ⟨fun h => absurd h (solutionErrorD_py _ _), fun h => absurd h (solutionErrorD_py _ _)⟩, fun _ _ => ?_⟩
    exact ⟨.of u, .of v, fun i => Real.exp (-u.x (0, d.inv i)), fun i => Real.exp (-u.x (1, d.inv i)), (keepsD DAttr.trace (fun _ => rfl) _).trans (by simp [setSolvedDCM, preDCM, hf]),
      (keepsD DAttr.trace (fun _ => rfl) _).trans (by simp [setSolvedDCM, preDCM, hf]), .of hab,
      keepsD DAttr.x (fun _ => rfl) _, (keepsD DAttr.x (fun _ => rfl) _).trans (by simp [setSolvedDCM, preDCM, hab.x]), keepsD DAttr.y (fun _ => rfl) _, (keepsD DAttr.y (fun _ => rfl) _).trans (by simp [setSolvedDCM, preDCM, hab.x])⟩

/-- C83 (decm_exp) -/
theorem C83_decm_exp (h0 : ∀ i, d.dseq_out i ≠ 0 ∧ d.dseq_in i ≠ 0 ∧ d.out_strength i ≠ 0 ∧ d.in_strength i ≠ 0) :
    let R := solve_tool_directed e g "decm_exp" me.name guess adj ma ga p
    R.exc = none → ∃ t x y bo bi, R.g.trace = some t ∧ R.g.x = some x ∧ R.g.y = some y ∧ R.g.b_out = some bo ∧ R.g.b_in = some bi ∧ (t.NotStuck p → ∀ k,
      let R' := solve_tool_directed e g' "decm_exp" me.name (.quads fun v => if v.1 = 0 then x v.2 else if v.1 = 1 then y v.2 else if v.1 = 2 then bo v.2 else bi v.2) adj' ma' ga' { p with max_steps := k }
      let L := solve_tool_directed e g "decm_exp" me.name guess adj ma ga { p with max_steps := p.max_steps + k }
      (∀ err, R'.exc = some (.numeric err) ↔ L.exc = some (.numeric err)) ∧
      (R'.exc = none → L.exc = none → ∃ t' tl x' y' bo' bi', R'.g.trace = some t' ∧ L.g.trace = some tl ∧ Follows t t' tl ∧
        R'.g.x = some x' ∧ L.g.x = some x' ∧ R'.g.y = some y' ∧ L.g.y = some y' ∧ R'.g.b_out = some bo' ∧ L.g.b_out = some bo' ∧ R'.g.b_in = some bi' ∧ L.g.b_in = some bi')) := by
  intro R h
  obtain ⟨m, v0, guess', s, hm', hg0, hs, hG⟩ := solve_tool_ok_decm_exp e g me.name guess adj ma ga p h
  obtain rfl := method_name_inj hm'
  rw [show R = _ from hG]
  refine ⟨.of s, fun i => Real.exp (-s.x (0, i)), fun i => Real.exp (-s.x (1, i)), fun i => Real.exp (-s.x (2, i)), fun i => Real.exp (-s.x (3, i)),
    (keepsD DAttr.trace (fun _ => rfl) _).trans (by simp [setSolvedDECM, preDECM, hf]), keepsD DAttr.x (fun _ => rfl) _, keepsD DAttr.y (fun _ => rfl) _,
    keepsD DAttr.b_out (fun _ => rfl) _, keepsD DAttr.b_in (fun _ => rfl) _, fun hc K => ?_⟩
  have hg : (guessDECM e d true (.quads fun v => if v.1 = 0 then Real.exp (-s.x (0, v.2)) else if v.1 = 1 then Real.exp (-s.x (1, v.2)) else if v.1 = 2 then Real.exp (-s.x (2, v.2)) else Real.exp (-s.x (3, v.2)))).1 = .ok s.x := by
    simp only [guessDECM]
    congr 1
    funext ⟨b, i⟩
    obtain ⟨a1, a2, a3, a4⟩ := h0 i
    fin_cases b <;> simp [finishDECM, maskSet, negLogNonzero, DData.obs, DData.degOut, DData.degIn, a1, a2, a3, a4]
  have hR := solve_tool_decm_exp e g' me (.quads fun v => if v.1 = 0 then Real.exp (-s.x (0, v.2)) else if v.1 = 1 then Real.exp (-s.x (1, v.2)) else if v.1 = 2 then Real.exp (-s.x (2, v.2)) else Real.exp (-s.x (3, v.2)))
    adj' ma' ga' { p with max_steps := K } (Prod.ext hg rfl)
  have hL := solve_tool_decm_exp e g me guess adj ma ga { p with max_steps := p.max_steps + K } hg0
  intro R' L
  rw [show R' = _ from hR, show L = _ from hL]
  rcases solver_continue (cbDECMexp e d me) (p.opts me.name) hm.opts he hs hc K with ⟨x, e1, e2⟩ | ⟨u, v, e1, e2, hab⟩
  · rw [show solver (cbDECMexp e d me) (Params.opts { p with max_steps := K } me.name) s.x = _ from e1,
      show solver (cbDECMexp e d me) (Params.opts { p with max_steps := p.max_steps + K } me.name) v0 = _ from e2]
    exact ⟨fun _ => Iff.rfl, fun h => by simp at h⟩
  · rw [show solver (cbDECMexp e d me) (Params.opts { p with max_steps := K } me.name) s.x = _ from e1,
      show solver (cbDECMexp e d me) (Params.opts { p with max_steps := p.max_steps + K } me.name) v0 = _ from e2]
    refine ⟨fun err => ⟨fun h => absurd h (solutionErrorD_py _ _), fun h => absurd h (solutionErrorD_py _ _)⟩, fun _ _ => ?_⟩
    exact ⟨.of u, .of v, fun i => Real.exp (-u.x (0, i)), fun i => Real.exp (-u.x (1, i)), fun i => Real.exp (-u.x (2, i)), fun i => Real.exp (-u.x (3, i)), (keepsD DAttr.trace (fun _ => rfl) _).trans (by simp [setSolvedDECM, preDECM, hf]),
      (keepsD DAttr.trace (fun _ => rfl) _).trans (by simp [setSolvedDECM, preDECM, hf]), .of hab,
      keepsD DAttr.x (fun _ => rfl) _, (keepsD DAttr.x (fun _ => rfl) _).trans (by simp [setSolvedDECM, preDECM, hab.x]), keepsD DAttr.y (fun _ => rfl) _, (keepsD DAttr.y (fun _ => rfl) _).trans (by simp [setSolvedDECM, preDECM, hab.x]), keepsD DAttr.b_out (fun _ => rfl) _, (keepsD DAttr.b_out (fun _ => rfl) _).trans (by simp [setSolvedDECM, preDECM, hab.x]), keepsD DAttr.b_in (fun _ => rfl) _, (keepsD DAttr.b_in (fun _ => rfl) _).trans (by simp [setSolvedDECM, preDECM, hab.x])⟩

/-- C83 (directed crema on a given matrix) -/
theorem C83_dcrema (hz : d.nz_known = true) (a : Fin n → Fin n → ℝ) (h0 : ∀ i, d.out_strength i ≠ 0 ∧ d.in_strength i ≠ 0) :
    let R := solve_tool_directed e g "crema" me.name guess (.matrix a) ma ga p
    R.exc = none → ∃ t bo bi, R.g.trace_crema = some t ∧ R.g.b_out = some bo ∧ R.g.b_in = some bi ∧ (t.NotStuck p → ∀ k,
      let R' := solve_tool_directed e g' "crema" me.name (.pairs fun v => if v.1 = 0 then bo v.2 else bi v.2) (.matrix a) ma' ga' { p with max_steps := k }
      let L := solve_tool_directed e g "crema" me.name guess (.matrix a) ma ga { p with max_steps := p.max_steps + k }
      (∀ err, R'.exc = some (.numeric err) ↔ L.exc = some (.numeric err)) ∧
      (R'.exc = none → L.exc = none → ∃ t' tl bo' bi', R'.g.trace_crema = some t' ∧ L.g.trace_crema = some tl ∧ Follows t t' tl ∧
        R'.g.b_out = some bo' ∧ L.g.b_out = some bo' ∧ R'.g.b_in = some bi' ∧ L.g.b_in = some bi')) := by
  intro R h
  obtain ⟨b, c, guess', hg0⟩ := solve_tool_dcrema_args e g me.name guess a ma ga p h
  have hG := solve_tool_dcrema_matrix e g hz me guess a ma ga p hg0
  simp only at hG
  rw [show R = _ from hG]
  rw [show R = _ from hG] at h
  cases hs : solver (cbDCrema e d (nzEdges a) me) (p.opts me.name) (cat2 b c) with
  | error x => rw [hs] at h; simp at h
  | ok s =>
    refine ⟨.of s, fun i => s.x (0, i), fun i => s.x (1, i), (keepsD DAttr.trace_crema (fun _ => rfl) _).trans (by simp [setSolvedDCrema, preDCrema, hf]),
      keepsD DAttr.b_out (fun _ => rfl) _, keepsD DAttr.b_in (fun _ => rfl) _, fun hc K => ?_⟩
    have hsx : cat2 (fun i => s.x (0, i)) (fun i => s.x (1, i)) = s.x := by
      funext ⟨b, i⟩
      fin_cases b <;> rfl
    have hg : (guessDCrema e d (.pairs fun v => if v.1 = 0 then s.x (0, v.2) else s.x (1, v.2))).1 = .ok (fun i => s.x (0, i), fun i => s.x (1, i)) := by
      simp only [guessDCrema]
      congr 2
      · funext i; simp [maskSet, (h0 i).1]
      · funext i; simp [maskSet, (h0 i).2]
    have hR := solve_tool_dcrema_matrix e g' hz me (.pairs fun v => if v.1 = 0 then s.x (0, v.2) else s.x (1, v.2)) a ma' ga' { p with max_steps := K } (Prod.ext hg rfl)
    have hL := solve_tool_dcrema_matrix e g hz me guess a ma ga { p with max_steps := p.max_steps + K } hg0
    rw [hsx] at hR
    intro R' L
    rw [show R' = _ from hR, show L = _ from hL]
    rcases solver_continue (cbDCrema e d (nzEdges a) me) (p.opts me.name) hm.opts he hs hc K with ⟨x, e1, e2⟩ | ⟨u, v, e1, e2, hab⟩
    · rw [show solver (cbDCrema e d (nzEdges a) me) (Params.opts { p with max_steps := K } me.name) s.x = _ from e1,
        show solver (cbDCrema e d (nzEdges a) me) (Params.opts { p with max_steps := p.max_steps + K } me.name) (cat2 b c) = _ from e2]
      exact ⟨fun _ => Iff.rfl, fun h => by simp at h⟩
    · rw [show solver (cbDCrema e d (nzEdges a) me) (Params.opts { p with max_steps := K } me.name) s.x = _ from e1,
        show solver (cbDCrema e d (nzEdges a) me) (Params.opts { p with max_steps := p.max_steps + K } me.name) (cat2 b c) = _ from e2]
      refine ⟨fun err => ⟨fun h => absurd h (solutionErrorD_py _ _), fun h => absurd h (solutionErrorD_py _ _)⟩, fun _ _ => ?_⟩
      exact ⟨.of u, .of v, fun i => u.x (0, i), fun i => u.x (1, i), (keepsD DAttr.trace_crema (fun _ => rfl) _).trans (by simp [setSolvedDCrema, preDCrema, hf]),
        (keepsD DAttr.trace_crema (fun _ => rfl) _).trans (by simp [setSolvedDCrema, preDCrema, hf]), .of hab,
        keepsD DAttr.b_out (fun _ => rfl) _, (keepsD DAttr.b_out (fun _ => rfl) _).trans (by simp [setSolvedDCrema, preDCrema, hab.x]), keepsD DAttr.b_in (fun _ => rfl) _, (keepsD DAttr.b_in (fun _ => rfl) _).trans (by simp [setSolvedDCrema, preDCrema, hab.x])⟩

end directed

end Verif.Solve
