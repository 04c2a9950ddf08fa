import Verif.Model.SolveU
import Verif.Model.SolveD

/-!
Infinite values.  `Model/Solver` works over the reals.  One method leaves them on common input: the fixed-point maps of cm_exp and dcm_exp return
`-log(0) = inf` for a degree 0, and the solver has code for infinite parameters.  This file models the fixed-point branch of
`/repo/src/NEMtropy/solver_functions.py` with the special values of floating-point arithmetic (`inf`, `-inf`, `nan`); rounding is still left out.
-/

set_option linter.unusedSectionVars false

namespace Verif.Flt

open Finset Verif.Solver

noncomputable section

open Classical in
attribute [local instance 0] propDecidable

/-- a float: a real number or a special value -/
inductive Fl
  | real (r : ℝ)
  | inf
  | ninf
  | nan

namespace Fl

/-- `-a` -/
def neg : Fl → Fl
  | real r => real (-r)
  | inf => ninf
  | ninf => inf
  | nan => nan

/-- `a + b` -/
def add : Fl → Fl → Fl
  | real a, real b => real (a + b)
  | nan, _ | _, nan => nan
  | inf, ninf | ninf, inf => nan
  | inf, _ | _, inf => inf
  | ninf, _ | _, ninf => ninf

/-- `a - b` -/
def sub (a b : Fl) : Fl := add a (neg b)

/-- `a * b` for a finite `a` -/
def scale (a : ℝ) : Fl → Fl
  | real b => real (a * b)
  | inf => if a = 0 then nan else if a < 0 then ninf else inf
  | ninf => if a = 0 then nan else if a < 0 then inf else ninf
  | nan => nan

/-- `a < b`; every comparison with `nan` is false -/
def lt : Fl → Fl → Prop
  | real a, real b => a < b
  | real _, inf => True
  | ninf, real _ => True
  | ninf, inf => True
  | _, _ => False

/-- `np.exp(-a)` (underflow left out) -/
def expNeg : Fl → Fl
  | real a => real (Real.exp (-a))
  | inf => real 0
  | ninf => inf
  | nan => nan

/-- `a / b` of two finite entries of numpy arrays -/
def div (a b : ℝ) : Fl := if b ≠ 0 then real (a / b) else if 0 < a then inf else if a < 0 then ninf else nan

/-- `-np.log(a)` -/
def negLog : Fl → Fl
  | real a => if 0 < a then real (-Real.log a) else if a = 0 then inf else nan
  | inf => ninf
  | ninf => nan
  | nan => nan

/-- the finite value -/
def val : Fl → ℝ
  | real a => a
  | _ => 0

end Fl

open Fl

variable {ι : Type*} [Fintype ι] [DecidableEq ι]

/-- `np.linalg.norm(f[mask])` -/
def norm (mask : ι → Prop) (f : ι → Fl) : Fl :=
  if ∃ i, mask i ∧ f i = nan then nan
  else if ∃ i, mask i ∧ (f i = inf ∨ f i = ninf) then inf
  else real (Real.sqrt (∑ i with mask i, (f i).val ^ 2))

/-- the local variables of `solver` (solver_functions.py:133-147) -/
structure FState (ι : Type*) where
  x : ι → Fl
  f : ι → Fl
  norm : Fl
  diff : Fl
  dx_old : ι → Fl
  n_steps : ℕ
  norm_seq : List Fl
  diff_seq : List Fl
  alfa_seq : List ℝ

/-- what `solver` receives with method "fixed-point": the map and the line search `linsearch_fun((x, dx, dx_old, alfa1, beta, n_steps))` -/
structure FCallbacks (ι : Type*) where
  fn : (ι → Fl) → ι → Fl
  search : (ι → Fl) → (ι → Fl) → (ι → Fl) → ℝ → ℝ → ℕ → ℝ

/-- solver_functions.py:133-147: initial state -/
def initF (C : FCallbacks ι) (x0 : ι → Fl) : FState ι :=
  let f := C.fn x0
  let nrm := norm (fun _ => True) f
  { x := x0, f := f, norm := nrm, diff := real 1, dx_old := fun _ => real 0, n_steps := 0, norm_seq := [nrm], diff_seq := [real 1], alfa_seq := [] }

/-- solver_functions.py:165-262, method "fixed-point": `dx = f - x`, then `dx[i] = inf` where `x[i] == inf`; the entries of `x - x_old` that are `nan` become -1 -/
def stepF (C : FCallbacks ι) (linsearch : Bool) (s : FState ι) : FState ι :=
  let dx : ι → Fl := fun i => if s.x i = inf then inf else sub (s.f i) (s.x i)
  let alfa : ℝ := if linsearch then C.search s.x dx s.dx_old 1 0.5 s.n_steps else 1
  let x : ι → Fl := fun i => add (s.x i) (scale alfa (dx i))
  let f := C.fn x
  let nrm := norm (fun _ => True) f
  let diff_v : ι → Fl := fun i => let v := sub (x i) (s.x i); if v = nan then real (-1) else v
  let diff := norm (fun _ => True) diff_v
  { x := x, f := f, norm := nrm, diff := diff, dx_old := fun i => scale alfa (dx i), n_steps := s.n_steps + 1, norm_seq := s.norm_seq ++ [nrm],
    diff_seq := s.diff_seq ++ [diff], alfa_seq := if linsearch then s.alfa_seq ++ [alfa] else s.alfa_seq }

/-- solver_functions.py:161-163: the loop; the first argument is `max_steps - n_steps` -/
def loopF (C : FCallbacks ι) (o : Opts) : ℕ → FState ι → FState ι
  | 0, s => s
  | k + 1, s => if lt (real o.tol) s.norm ∧ lt (real o.eps) s.diff then loopF C o k (stepF C o.linsearch s) else s

/-- solver_functions.py:71-302 with method "fixed-point" -/
def solverF (C : FCallbacks ι) (o : Opts) (x0 : ι → Fl) : FState ι := loopF C o o.max_steps (initF C x0)

/-! ### cm_exp -/

/-- models_functions.py:481-512 `linsearch_fun_CM_exp_fixed` -/
def searchCMexp (dx dx_old : ι → Fl) (alfa beta : ℝ) (step : ℕ) : ℝ :=
  if step ≠ 0 then backtrack (fun a => lt (norm (fun _ => True) fun i => scale a (dx i)) (norm (fun _ => True) dx_old)) beta 50 alfa else alfa

variable {n : ℕ}

/-- models_functions.py:285-311 `iterative_cm_exp`.  `x1[j] / (1 + x1[j] * x1[i])` is a division of numba scalars whose divisor is at least 1 for the values met
here; if some parameter is `-inf` or `nan` (which never happens, see `Props/Float`), all results are taken to be `nan`. -/
def iterativeCMexp (k c : Fin n → ℝ) (x : Fin n → Fl) : Fin n → Fl := fun i =>
  if ∃ j, x j = ninf ∨ x j = nan then nan
  else
    let x1 : Fin n → ℝ := fun j => (expNeg (x j)).val
    let fx := forR n (fun j fx =>
      if i = j then fx + (c j - 1) * (x1 j / (1 + x1 j * x1 i))
      else fx + c j * (x1 j / (1 + x1 j * x1 i))) (0 : ℝ)
    if fx ≠ 0 then negLog (real (k i / fx)) else real 0

/-- graph_classes.py:599-786, the entries of `cm_exp` for "fixed-point" -/
def fcbCMexp (d : Solve.UData n) : FCallbacks (Fin d.r) where
  fn := iterativeCMexp d.k d.c
  search := fun _ => searchCMexp

/-- `solve_tool("cm_exp", method="fixed-point", ...)`, graph_classes.py:301-356: guess, solver.  The parameters of the classes and of the nodes are
`FState.x` and `solvedCMexp`. -/
def runCMexp [NeZero n] (e : Solve.Env) (d : Solve.UData n) (guess : Solve.Guess n) (p : Solve.Params) : Except Graph.Exc (FState (Fin d.r)) :=
  (Solve.guessCM e d true guess).map fun x0 => solverF (fcbCMexp d) (p.opts "fixed-point") fun q => real (x0 q)

/-- graph_classes.py:354-355: `self.x = np.exp(-self.r_x[self.r_invert_dseq])` -/
def solvedCMexp (d : Solve.UData n) (s : FState (Fin d.r)) : Fin n → Fl := fun i => expNeg (s.x (d.inv i))

/-! ### dcm_exp -/

/-- models_functions.py:3200-3229 `linsearch_fun_DCM_exp_fixed`: the first comparison uses all entries, the others leave out those equal to `inf` -/
def searchDCMexp (dx dx_old : ι → Fl) (alfa beta : ℝ) (step : ℕ) : ℝ :=
  if step ≠ 0 then
    if lt (norm (fun _ => True) fun i => scale alfa (dx i)) (norm (fun _ => True) dx_old) then alfa
    else backtrack (fun a => lt (norm (fun i => dx i ≠ inf) fun i => scale a (dx i)) (norm (fun i => dx_old i ≠ inf) dx_old)) beta 49 (alfa * beta)
  else alfa

/-- models_functions.py:2734-2791 `iterative_dcm_exp`; same remark on `-inf` and `nan` as for `iterativeCMexp`.  The last division is one of numpy arrays. -/
def iterativeDCMexp (k_out k_in c : Fin n → ℝ) (x : Fin 2 × Fin n → Fl) : Fin 2 × Fin n → Fl := fun v =>
  if ∃ w, x w = ninf ∨ x w = nan then nan
  else negLog (div (DCM.concat k_out k_in v) (DCM.iterative_den (fun w => (expNeg (x w)).val) c v))

/-- graph_classes.py, the entries of `dcm_exp` for "fixed-point" -/
def fcbDCMexp (d : Solve.DData n) : FCallbacks (Fin 2 × Fin d.r) where
  fn := iterativeDCMexp d.ko d.ki d.c
  search := fun _ => searchDCMexp

/-- `solve_tool("dcm_exp", method="fixed-point", ...)`: guess, solver -/
def runDCMexp [NeZero n] (e : Solve.Env) (d : Solve.DData n) (guess : Solve.DGuess n) (p : Solve.Params) : Except Graph.Exc (FState (Fin 2 × Fin d.r)) :=
  (Solve.guessDCM e d true guess).map fun x0 => solverF (fcbDCMexp d) (p.opts "fixed-point") fun q => real (x0 q)

/-- `_set_solved_problem_dcm`: `np.exp(-...)` of both blocks, expanded to the nodes -/
def solvedDCMexp (d : Solve.DData n) (s : FState (Fin 2 × Fin d.r)) (b : Fin 2) : Fin n → Fl := fun i => expNeg (s.x (b, d.inv i))

end

end Verif.Flt
