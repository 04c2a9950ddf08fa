import Verif.Props.Continue

/-!
Property C84: a call that asks for more (smaller `tol`, smaller `eps`, larger `max_steps`) makes the steps of the call that asks for less and then goes on.
-/

namespace Verif.Solver

open Classical in
attribute [local instance 0] propDecidable

variable {ι : Type*} [Fintype ι] [DecidableEq ι] [Nonempty ι]

/-- `b` was reached from `a`, or is `a` -/
structure Extends (a b : State ι) : Prop where
  steps : a.n_steps ≤ b.n_steps
  norms : a.norm_seq <+: b.norm_seq
  diffs : a.diff_seq <+: b.diff_seq
  alfas : a.alfa_seq <+: b.alfa_seq
  same : b.n_steps = a.n_steps → b.x = a.x

theorem loop_extends (C : Callbacks ι) (o : Opts) (k : ℕ) (a : State ι) {b : State ι} (h : loop C o k a = .ok b) : Extends a b := by
  refine loop_inv C o (fun b => Extends a b) ?_ k a b ⟨le_rfl, List.prefix_rfl, List.prefix_rfl, List.prefix_rfl, fun _ => rfl⟩ h
  intro s s' _ _ hs hst
  obtain ⟨dx, al, -, -, rfl⟩ := step_ok hst
  refine ⟨hs.steps.trans (Nat.le_succ _), hs.norms.trans (List.prefix_append _ _), hs.diffs.trans (List.prefix_append _ _), ?_, fun h => ?_⟩
  · dsimp only
    split_ifs
    · exact hs.alfas.trans (List.prefix_append _ _)
    · exact hs.alfas
  · have := hs.steps
    dsimp only at h
    omega

/-- a loop that stops later: it fails alike, or passes through the end of the first one -/
theorem loop_stricter (C : Callbacks ι) (o : Opts) {tol eps : ℝ} {m : ℕ} (ht : tol ≤ o.tol) (he : eps ≤ o.eps) (k k' : ℕ) (hk : k ≤ k') (s : State ι) :
    (∃ x, loop C o k s = .error x ∧ loop C { o with tol := tol, eps := eps, max_steps := m } k' s = .error x) ∨
      ∃ t j, loop C o k s = .ok t ∧ loop C { o with tol := tol, eps := eps, max_steps := m } k' s = loop C { o with tol := tol, eps := eps, max_steps := m } j t := by
  induction k generalizing s k' with
  | zero => exact .inr ⟨s, k', rfl, rfl⟩
  | succ k ih =>
    obtain ⟨l, rfl⟩ : ∃ l, k' = l + 1 := ⟨k' - 1, by omega⟩
    by_cases hc : s.norm > o.tol ∧ s.diff > o.eps
    · have hc' : s.norm > tol ∧ s.diff > eps := ⟨ht.trans_lt hc.1, he.trans_lt hc.2⟩
      have hst : step C { o with tol := tol, eps := eps, max_steps := m } s = step C o s := rfl
      simp only [loop]
      rw [if_pos hc, if_pos hc', hst]
      cases hs : step C o s with
      | error x => exact .inl ⟨x, rfl, rfl⟩
      | ok s' => exact ih l (by omega) s'
    · refine .inr ⟨s, l + 1, ?_, rfl⟩
      rw [loop, if_neg hc]

theorem solver_stricter (C : Callbacks ι) (o : Opts) {tol eps : ℝ} {m : ℕ} (ht : tol ≤ o.tol) (he : eps ≤ o.eps) (hm : o.max_steps ≤ m) (x0 : ι → ℝ) :
    (∃ x, solver C o x0 = .error x ∧ solver C { o with tol := tol, eps := eps, max_steps := m } x0 = .error x) ∨
      ∃ a, solver C o x0 = .ok a ∧ ((∃ x, solver C { o with tol := tol, eps := eps, max_steps := m } x0 = .error x) ∨
        ∃ b, solver C { o with tol := tol, eps := eps, max_steps := m } x0 = .ok b ∧ Extends a b) := by
  rcases loop_stricter C o ht he o.max_steps m hm (initState C x0) (m := m) with h | ⟨t, j, h1, h2⟩
  · exact .inl h
  · refine .inr ⟨t, h1, ?_⟩
    cases hj : loop C { o with tol := tol, eps := eps, max_steps := m } j t with
    | error x => exact .inl ⟨x, h2.trans hj⟩
    | ok b => exact .inr ⟨b, h2.trans hj, loop_extends C _ j t hj⟩

end Verif.Solver

namespace Verif.Solve

open Verif Finset Reduction Solver Spec

open Classical in
attribute [local instance 0] propDecidable

/-- the run with trace `t'` made the steps of the run with trace `t`, and perhaps more -/
structure Trace.StartOf (t t' : Trace) : Prop where
  n_steps : t.n_steps ≤ t'.n_steps
  norm_seq : t.norm_seq <+: t'.norm_seq
  diff_seq : t.diff_seq <+: t'.diff_seq
  alfa_seq : t.alfa_seq <+: t'.alfa_seq

theorem Trace.StartOf.of {ι : Type} [Fintype ι] [DecidableEq ι] [Nonempty ι] {a b : State ι} (h : Extends a b) : (Trace.of a).StartOf (.of b) :=
  ⟨h.steps, h.norms, h.diffs, h.alfas⟩

/-- the parameters of a call that asks for more -/
abbrev Params.more (p : Params) (tol eps : ℝ) (m : ℕ) : Params := { p with tol := tol, eps := eps, max_steps := m }

theorem opts_more (p : Params) (tol eps : ℝ) (m : ℕ) (s : String) : (p.more tol eps m).opts s = { p.opts s with tol := tol, eps := eps, max_steps := m } := rfl

section undirected

variable {n : ℕ} [NeZero n] {d : UData n} (e : Env) (g g' : UAttr d) (me : Method) (guess : Guess n) (adj adj' : AdjSpec n) (ma ma' : String) (ga ga' : Guess n) (p : Params)
  {tol eps : ℝ} {m : ℕ} (ht : tol ≤ p.tol) (he : eps ≤ p.eps) (hm : p.max_steps ≤ m) (hf : p.full_return = true)

include ht he hm hf

/-- C84 (cm) -/
theorem C84_cm :
    let R := solve_tool e g "cm" me.name guess adj ma ga p
    let R' := solve_tool e g' "cm" me.name guess adj' ma' ga' (p.more tol eps m)
    (∀ err, R.exc = some (.numeric err) → R'.exc = some (.numeric err)) ∧
    (R.exc = none → R'.exc = none → ∃ t t' v0 v0', R.g.trace = some t ∧ R'.g.trace = some t' ∧ t.StartOf t' ∧
      R.g.x = some v0 ∧ R'.g.x = some v0' ∧ (t'.n_steps = t.n_steps → v0' = v0)) := by
  intro R R'
  rcases hgs : guessCM e d false guess with x | x0
  · have hx : R.exc = some (.py x) := by simp [R, solve_tool, solveProblem, hgs]
    exact ⟨fun err h => by rw [hx] at h; simp at h, fun h => by rw [hx] at h; simp at h⟩
  · have hR := solve_tool_cm e g  me guess  adj ma ga p hgs
    have hR' := solve_tool_cm e g'  me guess  adj' ma' ga' (p.more tol eps m) hgs
    rw [show R = _ from hR, show R' = _ from hR', opts_more p tol eps m me.name]
    rcases solver_stricter (cbCM e d me) (p.opts me.name) ht he hm x0 with ⟨x, e1, e2⟩ | ⟨u, e1, ⟨x, e2⟩ | ⟨w, e2, hab⟩⟩
    · rw [e1, e2]
      exact ⟨fun err h => h, fun h => by simp at h⟩
    · rw [e1, e2]
      exact ⟨fun err h => absurd h (solutionError_py e _ _), fun _ h => by simp at h⟩
    · rw [e1, e2]
      refine ⟨fun err h => absurd h (solutionError_py e _ _), fun _ _ => ⟨.of u, .of w, _, _, ((solutionError_keeps e _).2.2.2.2.1).trans (by simp [setSolvedCM, hf]),
        ((solutionError_keeps e _).2.2.2.2.1).trans (by simp [setSolvedCM, hf]), .of hab, (solutionError_keeps e _).1, (solutionError_keeps e _).1, fun h => ?_⟩⟩
      have hx := hab.same h
      simp [setSolvedCM, hx]

/-- C84 (cm_exp) -/
theorem C84_cm_exp :
    let R := solve_tool e g "cm_exp" me.name guess adj ma ga p
    let R' := solve_tool e g' "cm_exp" me.name guess adj' ma' ga' (p.more tol eps m)
    (∀ err, R.exc = some (.numeric err) → R'.exc = some (.numeric err)) ∧
    (R.exc = none → R'.exc = none → ∃ t t' v0 v0', R.g.trace = some t ∧ R'.g.trace = some t' ∧ t.StartOf t' ∧
      R.g.x = some v0 ∧ R'.g.x = some v0' ∧ (t'.n_steps = t.n_steps → v0' = v0)) := by
  intro R R'
  rcases hgs : guessCM e d true guess with x | x0
  · have hx : R.exc = some (.py x) := by simp [R, solve_tool, solveProblem, hgs]
    exact ⟨fun err h => by rw [hx] at h; simp at h, fun h => by rw [hx] at h; simp at h⟩
  · have hR := solve_tool_cm_exp e g  me guess  adj ma ga p hgs
    have hR' := solve_tool_cm_exp e g'  me guess  adj' ma' ga' (p.more tol eps m) hgs
    rw [show R = _ from hR, show R' = _ from hR', opts_more p tol eps m me.name]
    rcases solver_stricter (cbCMexp e d me) (p.opts me.name) ht he hm x0 with ⟨x, e1, e2⟩ | ⟨u, e1, ⟨x, e2⟩ | ⟨w, e2, hab⟩⟩
    · rw [e1, e2]
      exact ⟨fun err h => h, fun h => by simp at h⟩
    · rw [e1, e2]
      exact ⟨fun err h => absurd h (solutionError_py e _ _), fun _ h => by simp at h⟩
    · rw [e1, e2]
      refine ⟨fun err h => absurd h (solutionError_py e _ _), fun _ _ => ⟨.of u, .of w, _, _, ((solutionError_keeps e _).2.2.2.2.1).trans (by simp [setSolvedCM, hf]),
        ((solutionError_keeps e _).2.2.2.2.1).trans (by simp [setSolvedCM, hf]), .of hab, (solutionError_keeps e _).1, (solutionError_keeps e _).1, fun h => ?_⟩⟩
      have hx := hab.same h
      simp [setSolvedCM, hx]

/-- C84 (ecm) -/
theorem C84_ecm :
    let R := solve_tool e g "ecm" me.name guess adj ma ga p
    let R' := solve_tool e g' "ecm" me.name guess adj' ma' ga' (p.more tol eps m)
    (∀ err, R.exc = some (.numeric err) → R'.exc = some (.numeric err)) ∧
    (R.exc = none → R'.exc = none → ∃ t t' v0 v0' v1 v1', R.g.trace = some t ∧ R'.g.trace = some t' ∧ t.StartOf t' ∧
      R.g.x = some v0 ∧ R'.g.x = some v0' ∧ R.g.y = some v1 ∧ R'.g.y = some v1' ∧ (t'.n_steps = t.n_steps → v0' = v0 ∧ v1' = v1)) := by
  intro R R'
  rcases hgs : guessECM e d false guess with ⟨x | ⟨x0, y0⟩, guess'⟩
  · have hx : R.exc = some (.py x) := by simp [R, solve_tool, solveProblem, hgs]
    exact ⟨fun err h => by rw [hx] at h; simp at h, fun h => by rw [hx] at h; simp at h⟩
  · have hR := solve_tool_ecm e g  me guess  adj ma ga p hgs
    have hR' := solve_tool_ecm e g'  me guess  adj' ma' ga' (p.more tol eps m) hgs
    rw [show R = _ from hR, show R' = _ from hR', opts_more p tol eps m me.name]
    rcases solver_stricter (cbECM e d me) (p.opts me.name) ht he hm (cat2 x0 y0) with ⟨x, e1, e2⟩ | ⟨u, e1, ⟨x, e2⟩ | ⟨w, e2, hab⟩⟩
    · rw [e1, e2]
      exact ⟨fun err h => h, fun h => by simp at h⟩
    · rw [e1, e2]
      exact ⟨fun err h => absurd h (solutionError_py e _ _), fun _ h => by simp at h⟩
    · rw [e1, e2]
      refine ⟨fun err h => absurd h (solutionError_py e _ _), fun _ _ => ⟨.of u, .of w, _, _, _, _, ((solutionError_keeps e _).2.2.2.2.1).trans (by simp [setSolvedECM, hf]),
        ((solutionError_keeps e _).2.2.2.2.1).trans (by simp [setSolvedECM, hf]), .of hab, (solutionError_keeps e _).1, (solutionError_keeps e _).1, (solutionError_keeps e _).2.1, (solutionError_keeps e _).2.1, fun h => ?_⟩⟩
      have hx := hab.same h
      exact ⟨by simp [setSolvedECM, hx], by simp [setSolvedECM, hx]⟩

/-- C84 (ecm_exp) -/
theorem C84_ecm_exp :
    let R := solve_tool e g "ecm_exp" me.name guess adj ma ga p
    let R' := solve_tool e g' "ecm_exp" me.name guess adj' ma' ga' (p.more tol eps m)
    (∀ err, R.exc = some (.numeric err) → R'.exc = some (.numeric err)) ∧
    (R.exc = none → R'.exc = none → ∃ t t' v0 v0' v1 v1', R.g.trace = some t ∧ R'.g.trace = some t' ∧ t.StartOf t' ∧
      R.g.x = some v0 ∧ R'.g.x = some v0' ∧ R.g.y = some v1 ∧ R'.g.y = some v1' ∧ (t'.n_steps = t.n_steps → v0' = v0 ∧ v1' = v1)) := by
  intro R R'
  rcases hgs : guessECM e d true guess with ⟨x | ⟨x0, y0⟩, guess'⟩
  · have hx : R.exc = some (.py x) := by simp [R, solve_tool, solveProblem, hgs]
    exact ⟨fun err h => by rw [hx] at h; simp at h, fun h => by rw [hx] at h; simp at h⟩
  · have hR := solve_tool_ecm_exp e g  me guess  adj ma ga p hgs
    have hR' := solve_tool_ecm_exp e g'  me guess  adj' ma' ga' (p.more tol eps m) hgs
    rw [show R = _ from hR, show R' = _ from hR', opts_more p tol eps m me.name]
    rcases solver_stricter (cbECMexp e d me) (p.opts me.name) ht he hm (cat2 x0 y0) with ⟨x, e1, e2⟩ | ⟨u, e1, ⟨x, e2⟩ | ⟨w, e2, hab⟩⟩
    · rw [e1, e2]
      exact ⟨fun err h => h, fun h => by simp at h⟩
    · rw [e1, e2]
      exact ⟨fun err h => absurd h (solutionError_py e _ _), fun _ h => by simp at h⟩
    · rw [e1, e2]
      refine ⟨fun err h => absurd h (solutionError_py e _ _), fun _ _ => ⟨.of u, .of w, _, _, _, _, ((solutionError_keeps e _).2.2.2.2.1).trans (by simp [setSolvedECM, hf]),
        ((solutionError_keeps e _).2.2.2.2.1).trans (by simp [setSolvedECM, hf]), .of hab, (solutionError_keeps e _).1, (solutionError_keeps e _).1, (solutionError_keeps e _).2.1, (solutionError_keeps e _).2.1, fun h => ?_⟩⟩
      have hx := hab.same h
      exact ⟨by simp [setSolvedECM, hx], by simp [setSolvedECM, hx]⟩

/-- C84 (crema on a given matrix) -/
theorem C84_crema (a : Fin n → Fin n → ℝ) :
    let R := solve_tool e g "crema" me.name guess (.matrix a) ma ga p
    let R' := solve_tool e g' "crema" me.name guess (.matrix a) ma' ga' (p.more tol eps m)
    (∀ err, R.exc = some (.numeric err) → R'.exc = some (.numeric err)) ∧
    (R.exc = none → R'.exc = none → ∃ t t' v0 v0', R.g.trace_crema = some t ∧ R'.g.trace_crema = some t' ∧ t.StartOf t' ∧
      R.g.beta = some v0 ∧ R'.g.beta = some v0' ∧ (t'.n_steps = t.n_steps → v0' = v0)) := by
  intro R R'
  rcases hgs : guessCrema e d guess with ⟨x | b0, guess'⟩
  · have hx : R.exc = some (.py x) := by simp [R, solve_tool, solveProblemCrema, solveCremaTail, hgs]
    exact ⟨fun err h => by rw [hx] at h; simp at h, fun h => by rw [hx] at h; simp at h⟩
  · have hR := solve_tool_crema_matrix e g  me guess a  ma ga p hgs
    have hR' := solve_tool_crema_matrix e g'  me guess a  ma' ga' (p.more tol eps m) hgs
    rw [show R = _ from hR, show R' = _ from hR', opts_more p tol eps m me.name]
    rcases solver_stricter (cbCrema e d (triuEdges a) me) (p.opts me.name) ht he hm b0 with ⟨x, e1, e2⟩ | ⟨u, e1, ⟨x, e2⟩ | ⟨w, e2, hab⟩⟩
    · rw [e1, e2]
      exact ⟨fun err h => h, fun h => by simp at h⟩
    · rw [e1, e2]
      exact ⟨fun err h => absurd h (solutionError_py e _ _), fun _ h => by simp at h⟩
    · rw [e1, e2]
      refine ⟨fun err h => absurd h (solutionError_py e _ _), fun _ _ => ⟨.of u, .of w, _, _, ((solutionError_keeps e _).2.2.2.2.2.1).trans (by simp [setSolvedCrema, hf]),
        ((solutionError_keeps e _).2.2.2.2.2.1).trans (by simp [setSolvedCrema, hf]), .of hab, (solutionError_keeps e _).2.2.1, (solutionError_keeps e _).2.2.1, fun h => ?_⟩⟩
      have hx := hab.same h
      simp [setSolvedCrema, hx]

end undirected

section directed

variable {n : ℕ} [NeZero n] {d : DData n} (e : Env) (g g' : DAttr d) (me : Method) (guess : DGuess n) (adj adj' : AdjSpec n) (ma ma' : String) (ga ga' : DGuess n) (p : Params)
  {tol eps : ℝ} {m : ℕ} (ht : tol ≤ p.tol) (he : eps ≤ p.eps) (hm : p.max_steps ≤ m) (hf : p.full_return = true)

include ht he hm hf

/-- C84 (dcm) -/
theorem C84_dcm :
    let R := solve_tool_directed e g "dcm" me.name guess adj ma ga p
    let R' := solve_tool_directed e g' "dcm" me.name guess adj' ma' ga' (p.more tol eps m)
    (∀ err, R.exc = some (.numeric err) → R'.exc = some (.numeric err)) ∧
    (R.exc = none → R'.exc = none → ∃ t t' v0 v0' v1 v1', R.g.trace = some t ∧ R'.g.trace = some t' ∧ t.StartOf t' ∧
      R.g.x = some v0 ∧ R'.g.x = some v0' ∧ R.g.y = some v1 ∧ R'.g.y = some v1' ∧ (t'.n_steps = t.n_steps → v0' = v0 ∧ v1' = v1)) := by
  intro R R'
  rcases hgs : guessDCM e d false guess with x | x0
  · have hx : R.exc = some (.py x) := by simp [R, solve_tool_directed, solveProblemD, hgs]
    exact ⟨fun err h => by rw [hx] at h; simp at h, fun h => by rw [hx] at h; simp at h⟩
  · have hR := solve_tool_dcm e g  me guess  adj ma ga p hgs
    have hR' := solve_tool_dcm e g'  me guess  adj' ma' ga' (p.more tol eps m) hgs
    rw [show R = _ from hR, show R' = _ from hR', opts_more p tol eps m me.name]
    rcases solver_stricter (cbDCM e d me) (p.opts me.name) ht he hm x0 with ⟨x, e1, e2⟩ | ⟨u, e1, ⟨x, e2⟩ | ⟨w, e2, hab⟩⟩
    · rw [e1, e2]
      exact ⟨fun err h => h, fun h => by simp at h⟩
    · rw [e1, e2]
      exact ⟨fun err h => absurd h (solutionErrorD_py _ _), fun _ h => by simp at h⟩
    · rw [e1, e2]
      refine ⟨fun err h => absurd h (solutionErrorD_py _ _), fun _ _ => ⟨.of u, .of w, _, _, _, _, (keepsD DAttr.trace (fun _ => rfl) _).trans (by simp [setSolvedDCM, preDCM, hf]),
        (keepsD DAttr.trace (fun _ => rfl) _).trans (by simp [setSolvedDCM, preDCM, hf]), .of hab, keepsD DAttr.x (fun _ => rfl) _, keepsD DAttr.x (fun _ => rfl) _, keepsD DAttr.y (fun _ => rfl) _, keepsD DAttr.y (fun _ => rfl) _, fun h => ?_⟩⟩
      have hx := hab.same h
      exact ⟨by simp [setSolvedDCM, preDCM, hx], by simp [setSolvedDCM, preDCM, hx]⟩

/-- C84 (decm) -/
theorem C84_decm :
    let R := solve_tool_directed e g "decm" me.name guess adj ma ga p
    let R' := solve_tool_directed e g' "decm" me.name guess adj' ma' ga' (p.more tol eps m)
    (∀ err, R.exc = some (.numeric err) → R'.exc = some (.numeric err)) ∧
    (R.exc = none → R'.exc = none → ∃ t t' v0 v0' v1 v1' v2 v2' v3 v3', R.g.trace = some t ∧ R'.g.trace = some t' ∧ t.StartOf t' ∧
      R.g.x = some v0 ∧ R'.g.x = some v0' ∧ R.g.y = some v1 ∧ R'.g.y = some v1' ∧ R.g.b_out = some v2 ∧ R'.g.b_out = some v2' ∧ R.g.b_in = some v3 ∧ R'.g.b_in = some v3' ∧ (t'.n_steps = t.n_steps → v0' = v0 ∧ v1' = v1 ∧ v2' = v2 ∧ v3' = v3)) := by
  intro R R'
  rcases hgs : guessDECM e d false guess with ⟨x | x0, guess'⟩
  · have hx : R.exc = some (.py x) := by simp [R, solve_tool_directed, solveProblemD, hgs]
    exact ⟨fun err h => by rw [hx] at h; simp at h, fun h => by rw [hx] at h; simp at h⟩
  · have hR := solve_tool_decm e g  me guess  adj ma ga p hgs
    have hR' := solve_tool_decm e g'  me guess  adj' ma' ga' (p.more tol eps m) hgs
    rw [show R = _ from hR, show R' = _ from hR', opts_more p tol eps m me.name]
    rcases solver_stricter (cbDECM e d me) (p.opts me.name) ht he hm x0 with ⟨x, e1, e2⟩ | ⟨u, e1, ⟨x, e2⟩ | ⟨w, e2, hab⟩⟩
    · rw [e1, e2]
      exact ⟨fun err h => h, fun h => by simp at h⟩
    · rw [e1, e2]
      exact ⟨fun err h => absurd h (solutionErrorD_py _ _), fun _ h => by simp at h⟩
    · rw [e1, e2]
      refine ⟨fun err h => absurd h (solutionErrorD_py _ _), fun _ _ => ⟨.of u, .of w, _, _, _, _, _, _, _, _, (keepsD DAttr.trace (fun _ => rfl) _).trans (by simp [setSolvedDECM, preDECM, hf]),
        (keepsD DAttr.trace (fun _ => rfl) _).trans (by simp [setSolvedDECM, preDECM, hf]), .of hab, keepsD DAttr.x (fun _ => rfl) _, keepsD DAttr.x (fun _ => rfl) _, keepsD DAttr.y (fun _ => rfl) _, keepsD DAttr.y (fun _ => rfl) _, keepsD DAttr.b_out (fun _ => rfl) _, keepsD DAttr.b_out (fun _ => rfl) _, keepsD DAttr.b_in (fun _ => rfl) _, keepsD DAttr.b_in (fun _ => rfl) _, fun h => ?_⟩⟩
      have hx := hab.same h
      exact ⟨by simp [setSolvedDECM, preDECM, hx], by simp [setSolvedDECM, preDECM, hx], by simp [setSolvedDECM, preDECM, hx], by simp [setSolvedDECM, preDECM, hx]⟩

/-- C84 (dcm_exp) -/
theorem C84_dcm_exp :
    let R := solve_tool_directed e g "dcm_exp" me.name guess adj ma ga p
    let R' := solve_tool_directed e g' "dcm_exp" me.name guess adj' ma' ga' (p.more tol eps m)
    (∀ err, R.exc = some (.numeric err) → R'.exc = some (.numeric err)) ∧
    (R.exc = none → R'.exc = none → ∃ t t' v0 v0' v1 v1', R.g.trace = some t ∧ R'.g.trace = some t' ∧ t.StartOf t' ∧
      R.g.x = some v0 ∧ R'.g.x = some v0' ∧ R.g.y = some v1 ∧ R'.g.y = some v1' ∧ (t'.n_steps = t.n_steps → v0' = v0 ∧ v1' = v1)) := by
  intro R R'
  rcases hgs : guessDCM e d true guess with x | x0
  · have hx : R.exc = some (.py x) := by simp [R, solve_tool_directed, solveProblemD, hgs]
    exact ⟨fun err h => by rw [hx] at h; simp at h, fun h => by rw [hx] at h; simp at h⟩
  · have hR := solve_tool_dcm_exp e g  me guess  adj ma ga p hgs
    have hR' := solve_tool_dcm_exp e g'  me guess  adj' ma' ga' (p.more tol eps m) hgs
    rw [show R = _ from hR, show R' = _ from hR', opts_more p tol eps m me.name]
    rcases solver_stricter (cbDCMexp e d me) (p.opts me.name) ht he hm x0 with ⟨x, e1, e2⟩ | ⟨u, e1, ⟨x, e2⟩ | ⟨w, e2, hab⟩⟩
    · rw [e1, e2]
      exact ⟨fun err h => h, fun h => by simp at h⟩
    · rw [e1, e2]
      exact ⟨fun err h => absurd h (solutionErrorD_py _ _), fun _ h => by simp at h⟩
    · rw [e1, e2]
      refine ⟨fun err h => absurd h (solutionErrorD_py _ _), fun _ _ => ⟨.of u, .of w, _, _, _, _, (keepsD DAttr.trace (fun _ => rfl) _).trans (by simp [setSolvedDCM, preDCM, hf]),
        (keepsD DAttr.trace (fun _ => rfl) _).trans (by simp [setSolvedDCM, preDCM, hf]), .of hab, keepsD DAttr.x (fun _ => rfl) _, keepsD DAttr.x (fun _ => rfl) _, keepsD DAttr.y (fun _ => rfl) _, keepsD DAttr.y (fun _ => rfl) _, fun h => ?_⟩⟩
      have hx := hab.same h
      exact ⟨by simp [setSolvedDCM, preDCM, hx], by simp [setSolvedDCM, preDCM, hx]⟩

/-- C84 (decm_exp) -/
theorem C84_decm_exp :
    let R := solve_tool_directed e g "decm_exp" me.name guess adj ma ga p
    let R' := solve_tool_directed e g' "decm_exp" me.name guess adj' ma' ga' (p.more tol eps m)
    (∀ err, R.exc = some (.numeric err) → R'.exc = some (.numeric err)) ∧
    (R.exc = none → R'.exc = none → ∃ t t' v0 v0' v1 v1' v2 v2' v3 v3', R.g.trace = some t ∧ R'.g.trace = some t' ∧ t.StartOf t' ∧
      R.g.x = some v0 ∧ R'.g.x = some v0' ∧ R.g.y = some v1 ∧ R'.g.y = some v1' ∧ R.g.b_out = some v2 ∧ R'.g.b_out = some v2' ∧ R.g.b_in = some v3 ∧ R'.g.b_in = some v3' ∧ (t'.n_steps = t.n_steps → v0' = v0 ∧ v1' = v1 ∧ v2' = v2 ∧ v3' = v3)) := by
  intro R R'
  rcases hgs : guessDECM e d true guess with ⟨x | x0, guess'⟩
  · have hx : R.exc = some (.py x) := by simp [R, solve_tool_directed, solveProblemD, hgs]
    exact ⟨fun err h => by rw [hx] at h; simp at h, fun h => by rw [hx] at h; simp at h⟩
  · have hR := solve_tool_decm_exp e g  me guess  adj ma ga p hgs
    have hR' := solve_tool_decm_exp e g'  me guess  adj' ma' ga' (p.more tol eps m) hgs
    rw [show R = _ from hR, show R' = _ from hR', opts_more p tol eps m me.name]
    rcases solver_stricter (cbDECMexp e d me) (p.opts me.name) ht he hm x0 with ⟨x, e1, e2⟩ | ⟨u, e1, ⟨x, e2⟩ | ⟨w, e2, hab⟩⟩
    · rw [e1, e2]
      exact ⟨fun err h => h, fun h => by simp at h⟩
    · rw [e1, e2]
      exact ⟨fun err h => absurd h (solutionErrorD_py _ _), fun _ h => by simp at h⟩
    · rw [e1, e2]
      refine ⟨fun err h => absurd h (solutionErrorD_py _ _), fun _ _ => ⟨.of u, .of w, _, _, _, _, _, _, _, _, (keepsD DAttr.trace (fun _ => rfl) _).trans (by simp [setSolvedDECM, preDECM, hf]),
        (keepsD DAttr.trace (fun _ => rfl) _).trans (by simp [setSolvedDECM, preDECM, hf]), .of hab, keepsD DAttr.x (fun _ => rfl) _, keepsD DAttr.x (fun _ => rfl) _, keepsD DAttr.y (fun _ => rfl) _, keepsD DAttr.y (fun _ => rfl) _, keepsD DAttr.b_out (fun _ => rfl) _, keepsD DAttr.b_out (fun _ => rfl) _, keepsD DAttr.b_in (fun _ => rfl) _, keepsD DAttr.b_in (fun _ => rfl) _, fun h => ?_⟩⟩
      have hx := hab.same h
      exact ⟨by simp [setSolvedDECM, preDECM, hx], by simp [setSolvedDECM, preDECM, hx], by simp [setSolvedDECM, preDECM, hx], by simp [setSolvedDECM, preDECM, hx]⟩

/-- C84 (crema on a given matrix) -/
theorem C84_dcrema (hz : d.nz_known = true) (a : Fin n → Fin n → ℝ) :
    let R := solve_tool_directed e g "crema" me.name guess (.matrix a) ma ga p
    let R' := solve_tool_directed e g' "crema" me.name guess (.matrix a) ma' ga' (p.more tol eps m)
    (∀ err, R.exc = some (.numeric err) → R'.exc = some (.numeric err)) ∧
    (R.exc = none → R'.exc = none → ∃ t t' v0 v0' v1 v1', R.g.trace_crema = some t ∧ R'.g.trace_crema = some t' ∧ t.StartOf t' ∧
      R.g.b_out = some v0 ∧ R'.g.b_out = some v0' ∧ R.g.b_in = some v1 ∧ R'.g.b_in = some v1' ∧ (t'.n_steps = t.n_steps → v0' = v0 ∧ v1' = v1)) := by
  intro R R'
  rcases hgs : guessDCrema e d guess with ⟨x | ⟨x0, y0⟩, guess'⟩
  · have hx : R.exc = some (.py x) := by simp [R, solve_tool_directed, solveProblemDCrema, solveDCremaTail, hgs]
    exact ⟨fun err h => by rw [hx] at h; simp at h, fun h => by rw [hx] at h; simp at h⟩
  · have hR := solve_tool_dcrema_matrix e g hz me guess a  ma ga p hgs
    have hR' := solve_tool_dcrema_matrix e g' hz me guess a  ma' ga' (p.more tol eps m) hgs
    rw [show R = _ from hR, show R' = _ from hR', opts_more p tol eps m me.name]
    rcases solver_stricter (cbDCrema e d (nzEdges a) me) (p.opts me.name) ht he hm (cat2 x0 y0) with ⟨x, e1, e2⟩ | ⟨u, e1, ⟨x, e2⟩ | ⟨w, e2, hab⟩⟩
    · rw [e1, e2]
      exact ⟨fun err h => h, fun h => by simp at h⟩
    · rw [e1, e2]
      exact ⟨fun err h => absurd h (solutionErrorD_py _ _), fun _ h => by simp at h⟩
    · rw [e1, e2]
      refine ⟨fun err h => absurd h (solutionErrorD_py _ _), fun _ _ => ⟨.of u, .of w, _, _, _, _, (keepsD DAttr.trace_crema (fun _ => rfl) _).trans (by simp [setSolvedDCrema, preDCrema, hf]),
        (keepsD DAttr.trace_crema (fun _ => rfl) _).trans (by simp [setSolvedDCrema, preDCrema, hf]), .of hab, keepsD DAttr.b_out (fun _ => rfl) _, keepsD DAttr.b_out (fun _ => rfl) _, keepsD DAttr.b_in (fun _ => rfl) _, keepsD DAttr.b_in (fun _ => rfl) _, fun h => ?_⟩⟩
      have hx := hab.same h
      exact ⟨by simp [setSolvedDCrema, preDCrema, hx], by simp [setSolvedDCrema, preDCrema, hx]⟩

end directed

end Verif.Solve
