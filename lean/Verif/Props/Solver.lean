import Verif.Props.LineSearch
import Verif.Props.CM
import Verif.Props.DCM
import Verif.Props.CReMa
import Verif.Props.DCReMa
import Mathlib.LinearAlgebra.Matrix.PosDef
import Mathlib.Analysis.Matrix.Spectrum

/-! C13, C14, C15, C17: the iterative solver and the Hessian regularisers. -/

namespace Verif.Solver

open Finset Spec

open Classical in
attribute [local instance 0] propDecidable

variable {ι : Type*} [Fintype ι] [DecidableEq ι] [Nonempty ι]

/-! ### C15: the trace -/

/-- The history of a run: the iterates `xs 0, xs 1, ..., xs (r.n_steps)`. -/
structure History (C : Callbacks ι) (o : Opts) (x0 : ι → ℝ) (r : State ι) (xs : ℕ → ι → ℝ) : Prop where
  start : xs 0 = x0
  stop : xs r.n_steps = r.x
  steps : r.n_steps ≤ o.max_steps
  norms : r.norm_seq = (List.range (r.n_steps + 1)).map fun k => norm2 (C.fn (xs k))
  diffs : r.diff_seq = 1 :: (List.range r.n_steps).map fun k => norm2 (xs (k + 1) - xs k)
  moves : ∀ k < r.n_steps, ∃ dx a, direction C o (xs k) (C.fn (xs k)) = .ok dx ∧ xs (k + 1) = xs k + a • dx ∧
    (o.linsearch = true → r.alfa_seq[k]? = some a) ∧ (o.linsearch = false → a = 1)
  alfas : r.alfa_seq.length = if o.linsearch then r.n_steps else 0
  goes_on : ∀ k < r.n_steps, norm2 (C.fn (xs k)) > o.tol

theorem history_of_loop (C : Callbacks ι) (o : Opts) (x0 : ι → ℝ) (r : State ι) (h : solver C o x0 = .ok r) :
    ∃ xs, History C o x0 r xs ∧ r.f = C.fn r.x ∧ r.norm = norm2 (C.fn r.x) ∧ r.diff_seq.getLast? = some r.diff := by
  have hle := (loop_exit C o o.max_steps (initState C x0) r h).1
  have hn0 : (initState C x0).n_steps = 0 := rfl
  rw [hn0, zero_add] at hle
  suffices H : ∃ xs : ℕ → ι → ℝ, (r.f = C.fn r.x ∧ r.norm = norm2 (C.fn r.x) ∧ r.diff_seq.getLast? = some r.diff) ∧ xs 0 = x0 ∧
      xs r.n_steps = r.x ∧
      (r.norm_seq = (List.range (r.n_steps + 1)).map fun k => norm2 (C.fn (xs k))) ∧
      (r.diff_seq = 1 :: (List.range r.n_steps).map fun k => norm2 (xs (k + 1) - xs k)) ∧
      (∀ k < r.n_steps, ∃ dx a, direction C o (xs k) (C.fn (xs k)) = .ok dx ∧ xs (k + 1) = xs k + a • dx ∧
        (o.linsearch = true → r.alfa_seq[k]? = some a) ∧ (o.linsearch = false → a = 1)) ∧
      (r.alfa_seq.length = if o.linsearch then r.n_steps else 0) ∧ ∀ k < r.n_steps, norm2 (C.fn (xs k)) > o.tol by
    obtain ⟨xs, h0, h1, h2, h3, h4, h5, h6, h7⟩ := H
    exact ⟨xs, ⟨h1, h2, hle, h3, h4, h5, h6, h7⟩, h0⟩
  refine loop_inv C o (fun r => ∃ xs : ℕ → ι → ℝ, (r.f = C.fn r.x ∧ r.norm = norm2 (C.fn r.x) ∧ r.diff_seq.getLast? = some r.diff) ∧ xs 0 = x0 ∧
      xs r.n_steps = r.x ∧
      (r.norm_seq = (List.range (r.n_steps + 1)).map fun k => norm2 (C.fn (xs k))) ∧
      (r.diff_seq = 1 :: (List.range r.n_steps).map fun k => norm2 (xs (k + 1) - xs k)) ∧
      (∀ k < r.n_steps, ∃ dx a, direction C o (xs k) (C.fn (xs k)) = .ok dx ∧ xs (k + 1) = xs k + a • dx ∧
        (o.linsearch = true → r.alfa_seq[k]? = some a) ∧ (o.linsearch = false → a = 1)) ∧
      (r.alfa_seq.length = if o.linsearch then r.n_steps else 0) ∧ ∀ k < r.n_steps, norm2 (C.fn (xs k)) > o.tol) ?_ o.max_steps
    (initState C x0) r ?_ h
  · rintro s s' hnorm hdiff ⟨xs, ⟨hf, hn, _⟩, h1, h2, h3, h4, h5, h6, h7⟩ hs
    obtain ⟨dx, a, hd, hst, rfl⟩ := step_ok hs
    set N := s.n_steps with hN
    have agree : ∀ k, k ≤ N → (fun k => if k ≤ N then xs k else s.x + a • dx) k = xs k := fun k hk => by simp [hk]
    refine ⟨fun k => if k ≤ N then xs k else s.x + a • dx, ⟨rfl, rfl, by simp⟩, ?_, ?_, ?_, ?_, ?_, ?_, ?_⟩
    · simp [h1]
    · simp
    · show s.norm_seq ++ [norm2 (C.fn (s.x + a • dx))] = List.map _ (List.range (N + 1 + 1))
      rw [List.range_succ, List.map_append, h3]
      refine congrArg₂ (· ++ ·) ?_ ?_
      · refine List.map_congr_left fun k hk => ?_
        rw [List.mem_range] at hk
        rw [agree k (by omega)]
      · simp
    · show s.diff_seq ++ [norm2 (s.x + a • dx - s.x)] = 1 :: List.map _ (List.range (N + 1))
      rw [List.range_succ, List.map_append, h4, List.cons_append]
      refine congrArg (List.cons 1) (congrArg₂ (· ++ ·) ?_ ?_)
      · refine List.map_congr_left fun k hk => ?_
        rw [List.mem_range] at hk
        rw [agree k (by omega), agree (k + 1) (by omega)]
      · simp [h2]
    · intro k hk
      rcases Nat.lt_or_ge k N with hk' | hk'
      · obtain ⟨dx', a', e1, e2, e3, e4⟩ := h5 k hk'
        refine ⟨dx', a', ?_, ?_, fun hl => ?_, e4⟩
        · rw [agree k (by omega)]; exact e1
        · rw [agree k (by omega), agree (k + 1) (by omega)]; exact e2
        · simp only [hl, if_true] at h6 ⊢
          rw [List.getElem?_append_left (by omega)]
          exact e3 hl
      · have hkN : k = N := by simp only at hk; omega
        subst hkN
        refine ⟨dx, a, ?_, ?_, fun hl => ?_, fun hl => ?_⟩
        · rw [agree _ le_rfl, h2, ← hf]; exact hd
        · rw [agree _ le_rfl, h2]; simp
        · simp only [hl, if_true] at h6 ⊢
          rw [← h6, List.getElem?_append_right le_rfl]; simp
        · unfold stepLength at hst
          simp only [hl, Bool.false_eq_true, false_and, if_false, Except.ok.injEq] at hst
          exact hst.symm
    · dsimp only
      split <;> rename_i hl
      · simp only [hl, if_true] at h6; simp [h6]
      · simp only [hl, if_false] at h6; simpa using h6
    · intro k hk
      rw [agree k (by simp only at hk; omega)]
      rcases Nat.lt_or_ge k N with hk' | hk'
      · exact h7 k hk'
      · have hkN : k = N := by simp only at hk; omega
        rw [hkN, h2, ← hn]; exact hnorm
  · exact ⟨fun _ => x0, ⟨rfl, rfl, rfl⟩, rfl, rfl, rfl, rfl, by simp [initState], by simp [initState], by simp [initState]⟩

/-- C15: whatever the callbacks, options and starting point, a run that returns made at most `max_steps` steps and returns the exact record of its
iterates: residual trace, step-difference trace (which starts with the conventional 1), step lengths, each move being step length times the direction
of the method; it only moves while the residual exceeds `tol`. -/
theorem C15_solver_history (C : Callbacks ι) (o : Opts) (x0 : ι → ℝ) (r : State ι) (h : solver C o x0 = .ok r) :
    ∃ xs, History C o x0 r xs := by
  obtain ⟨xs, hx, -⟩ := history_of_loop C o x0 r h
  exact ⟨xs, hx⟩

/-- C15: lengths of the traces, last residual. -/
theorem C15_solver_trace (C : Callbacks ι) (o : Opts) (x0 : ι → ℝ) (r : State ι) (h : solver C o x0 = .ok r) :
    r.n_steps ≤ o.max_steps ∧ r.norm_seq.length = r.n_steps + 1 ∧ r.diff_seq.length = r.n_steps + 1 ∧
    (o.linsearch = true → r.alfa_seq.length = r.n_steps) ∧ r.norm_seq.getLast? = some (norm2 (C.fn r.x)) := by
  obtain ⟨xs, hx⟩ := C15_solver_history C o x0 r h
  refine ⟨hx.steps, by simp [hx.norms], by simp [hx.diffs], fun hl => by simp [hx.alfas, hl], ?_⟩
  rw [hx.norms, List.range_succ, List.map_append]
  simp [hx.stop]

/-- C15 (limit): with `max_steps = 0`, or when `eps ≥ 1`, the solver returns the initial guess untouched, whatever the residual. -/
theorem C15_solver_no_step (C : Callbacks ι) (o : Opts) (x0 : ι → ℝ) (h : o.max_steps = 0 ∨ 1 ≤ o.eps) :
    solver C o x0 = .ok (initState C x0) := by
  unfold solver
  rcases h with h | h
  · rw [h]; rfl
  · cases o.max_steps with
    | zero => rfl
    | succ k =>
      rw [loop, if_neg]
      rintro ⟨-, h2⟩
      simp only [initState] at h2
      linarith

/-! ### C13: convergence claims -/

/-- C13: a run that stops before `max_steps` has residual at most `tol`, or its last displacement was at most `eps`. -/
theorem C13_solver_residual (C : Callbacks ι) (o : Opts) (x0 : ι → ℝ) (r : State ι) (h : solver C o x0 = .ok r)
    (hsteps : r.n_steps < o.max_steps) :
    norm2 (C.fn r.x) ≤ o.tol ∨ ∃ d, r.diff_seq.getLast? = some d ∧ d ≤ o.eps := by
  obtain ⟨xs, -, -, hn, hd⟩ := history_of_loop C o x0 r h
  have := (loop_exit C o o.max_steps (initState C x0) r h).2 (by simpa [initState] using hsteps)
  rcases this with h | h
  · left; rw [← hn]; exact h
  · right; exact ⟨_, hd, h⟩

theorem abs_le_norm2 {κ : Type*} [Fintype κ] (f : κ → ℝ) (i : κ) : |f i| ≤ norm2 f := by
  unfold norm2
  rw [← Real.sqrt_sq_eq_abs]
  exact Real.sqrt_le_sqrt (single_le_sum (f := fun i => f i ^ 2) (fun i _ => sq_nonneg _) (mem_univ i))

/-- C13: every component of the residual is then at most `tol`. -/
theorem C13_solver_component (C : Callbacks ι) (o : Opts) (x0 : ι → ℝ) (r : State ι) (h : solver C o x0 = .ok r)
    (hsteps : r.n_steps < o.max_steps) (hd : ∀ d, r.diff_seq.getLast? = some d → o.eps < d) (i : ι) :
    |C.fn r.x i| ≤ o.tol := by
  rcases C13_solver_residual C o x0 r h hsteps with h | ⟨d, hd', hle⟩
  · exact (abs_le_norm2 _ i).trans h
  · exact absurd hle (not_le.2 (hd d hd'))

/-- callbacks of the example: find the root of `f(x) = x - 1` -/
noncomputable def exampleCallbacks : Callbacks (Fin 1) where
  fn := fun x i => x i - 1
  jac := fun _ => 1
  jacDiag := fun _ _ => 1
  hessian_regulariser := fun H _ => H
  linsearch := fun _ _ _ a _ => some a
  linsearchFixed := fun _ _ _ a _ _ => some a

/-- options of the example -/
noncomputable def exampleOpts : Opts where
  tol := 1 / 10
  eps := 1 / 100
  max_steps := 5
  method := "quasinewton"
  regularise := false
  regularise_eps := 0
  linsearch := true

/-- the loop really runs: one quasi-Newton step on `f(x) = x - 1` from 0 with exact Jacobian finds the root, and the run stops by its tolerance -/
example : ∃ r, solver exampleCallbacks exampleOpts (fun _ => 0) = .ok r ∧ r.n_steps = 1 ∧ r.x 0 = 1 := by
  simp only [solver, exampleOpts]
  rw [loop, if_pos (by simp [initState, norm2, exampleCallbacks]; norm_num), step]
  simp only [direction, stepLength, initState, exampleCallbacks]
  simp
  rw [loop, if_neg (by simp [norm2])]
  exact ⟨_, rfl, rfl, by simp⟩

end Verif.Solver
