import Verif.Model.Solver

/-!
Model of `solver` (solver_functions.py:71-302) called with `verbose=True`: the same computation, together with the lines it prints.
Transcribed from the code separately from `Model/Solver.lean`; only the computations that contain no verbose code
(direction, step length) are shared.  The printed text is kept as structured lines (`Line`); of the timing lines only the label is kept.
-/

set_option linter.unusedSectionVars false

namespace Verif.Verbose

open Finset Verif.Solver

noncomputable section

open Classical in
attribute [local instance 0] propDecidable

variable {ι : Type*} [Fintype ι] [DecidableEq ι]

/-- a printed line (solver_functions.py:149-151, 264-286, 291-299) -/
inductive Line (ι : Type*)
  | x0 (x : ι → ℝ)                -- "x0 = {}"
  | normX0 (v : ℝ)                -- "|f(x0)| = {}"
  | step (k : ℕ)                  -- "step {}"
  | alpha (a : ℝ)                 -- "alpha = {}"
  | norm (v : ℝ)                  -- "|f(x)| = {}"
  | objective (v : Option ℝ)      -- "F(x) = {}"; `none` is nan
  | diff (v : ℝ)                  -- "diff = {}"
  | minEig (v : ℝ)                -- "min eig = {}"
  | newMinEig (v : ℝ)             -- "new mim eig = {}"
  | maxEig (v : ℝ)                -- "max eig = {}"
  | newMaxEig (v : ℝ)             -- "new max eig = {}"
  | cond (v : Option ℝ)           -- "condition number max_eig/min_eig = {}"; `none`: division by zero, inf or nan
  | newCond (v : Option ℝ)        -- "new condition number max_eig/min_eig = {}"
  | steps (k : ℕ)                 -- "Number of steps for convergence = {}"
  | time (what : String)          -- "toc_... = {}"

/-- how a verbose call can fail: as the silent one, or because `new_ml` is read before it is assigned (`UnboundLocalError`) -/
inductive ErrV
  | run (e : Err)
  | unboundEig
  deriving DecidableEq

/-- what only the printing calls: `step_fun` (solver_functions.py:271) and the eigenvalues `t` of `t, e = scipy.linalg.eigh(..)` (lines 176, 186) -/
structure Probe (ι : Type*) where
  step_fun : (ι → ℝ) → Option ℝ
  eigvals : Matrix ι ι ℝ → (ι → ℝ)

/-- `np.min(t)` -/
def npMin [Nonempty ι] (t : ι → ℝ) : ℝ := univ.inf' univ_nonempty t
/-- `np.max(t)` -/
def npMax [Nonempty ι] (t : ι → ℝ) : ℝ := univ.sup' univ_nonempty t
/-- `a / b` on numpy floats: inf or nan (here `none`) with a warning, no exception, where `b` is zero -/
def npDiv (a b : ℝ) : Option ℝ := if b = 0 then none else some (a / b)

/-- solver_functions.py:274-286: the eigenvalue lines of a newton step.  `new` is `(new_ml, new_Ml)`, `none` while unassigned;
the name `new_ml` is first read on line 276. -/
def eigLines (ml Ml : ℝ) (new : Option (ℝ × ℝ)) : List (Line ι) × Option ErrV :=
  match new with
  | none => ([.minEig ml], some .unboundEig)
  | some (new_ml, new_Ml) =>
    ([.minEig ml, .newMinEig new_ml, .maxEig Ml, .newMaxEig new_Ml, .cond (npDiv Ml ml), .newCond (npDiv new_Ml new_ml)], none)

/-- solver_functions.py:165-287 with `verbose=True`: one pass of the loop body; the lines printed and the new state or the exception.
The variables `ml`, `Ml`, `new_ml`, `new_Ml` are assigned in the same pass in which they are read (or never), so they need no place in the state. -/
def stepV [Nonempty ι] (C : Callbacks ι) (P : Probe ι) (o : Opts) (s : State ι) : List (Line ι) × Except ErrV (State ι) :=
  let H := C.jac s.x
  let t := P.eigvals H
  let ml := npMin t
  let Ml := npMax t
  let new : Option (ℝ × ℝ) :=
    if o.regularise then
      let t' := P.eigvals (C.hessian_regulariser H (maxAbs (C.fn s.x) * o.regularise_eps))
      some (npMin t', npMax t')
    else none
  match direction C o s.x s.f with
  | .error e => ([], .error (.run e))
  | .ok dx =>
    match stepLength C o s dx with
    | .error e => ([], .error (.run e))
    | .ok alfa =>
      let x := s.x + alfa • dx
      let f := C.fn x
      let norm := norm2 f
      let diff := norm2 (x - s.x)
      let s' : State ι :=
        { x := x, f := f, norm := norm, diff := diff, dx_old := alfa • dx, n_steps := s.n_steps + 1, norm_seq := s.norm_seq ++ [norm],
          diff_seq := s.diff_seq ++ [diff], alfa_seq := if o.linsearch then s.alfa_seq ++ [alfa] else s.alfa_seq }
      let l1 : List (Line ι) := [.step s'.n_steps, .alpha alfa, .norm norm]
      let l2 : List (Line ι) := if o.method = "newton" ∨ o.method = "quasinewton" then [.objective (P.step_fun x)] else []
      let l3 : List (Line ι) := [.diff diff]
      if o.method = "newton" then
        match eigLines ml Ml new with
        | (l4, some e) => (l1 ++ l2 ++ l3 ++ l4, .error e)
        | (l4, none) => (l1 ++ l2 ++ l3 ++ l4, .ok s')
      else (l1 ++ l2 ++ l3, .ok s')

/-- solver_functions.py:161-163: the `while` loop; the first argument is `max_steps - n_steps`. -/
def loopV [Nonempty ι] (C : Callbacks ι) (P : Probe ι) (o : Opts) : ℕ → State ι → List (Line ι) × Except ErrV (State ι)
  | 0, s => ([], .ok s)
  | k + 1, s =>
    if s.norm > o.tol ∧ s.diff > o.eps then
      match stepV C P o s with
      | (l, .error e) => (l, .error e)
      | (l, .ok s') => (l ++ (loopV C P o k s').1, (loopV C P o k s').2)
    else ([], .ok s)

/-- solver_functions.py:71-302 `solver(..., verbose=True)`: everything printed, and the result. -/
def solverV [Nonempty ι] (C : Callbacks ι) (P : Probe ι) (o : Opts) (x0 : ι → ℝ) : List (Line ι) × Except ErrV (State ι) :=
  let s := initState C x0
  let head : List (Line ι) := [.x0 x0, .normX0 s.norm]
  match loopV C P o o.max_steps s with
  | (l, .error e) => (head ++ l, .error e)
  | (l, .ok r) =>
    (head ++ l ++ [.steps r.n_steps, .time "toc_init", .time "toc_jacfun", .time "toc_alfa", .time "toc_dx", .time "toc_update", .time "toc_loop", .time "toc_all"], .ok r)

end

end Verif.Verbose
