import Verif.Base
import Mathlib.Analysis.SpecialFunctions.Pow.Real
import Mathlib.LinearAlgebra.Matrix.NonsingularInverse
import Mathlib.Data.Real.Sqrt
import Mathlib.Data.Fin.Tuple.Sort
import Mathlib.Algebra.BigOperators.Group.Finset.Basic

/-!
Model of `/repo/src/NEMtropy/solver_functions.py` (the iterative solver, the two Hessian regularisers and the
decrease test) and of the twenty line searches of `/repo/src/NEMtropy/models_functions.py`.

* points are functions `ι → ℝ` on a finite index type;
* an objective value is an `Option ℝ`: `none` is a float `nan` (every comparison with it is false);
* Python exceptions and non-termination are the values of `Err`.
-/

set_option linter.unusedSectionVars false

namespace Verif.Solver

open Finset

noncomputable section

open Classical in
attribute [local instance 0] propDecidable

variable {ι : Type*} [Fintype ι] [DecidableEq ι]

/-- `np.linalg.norm(f)`: the Euclidean norm. -/
def norm2 (f : ι → ℝ) : ℝ := Real.sqrt (∑ i, f i ^ 2)

/-- `np.max(np.abs(f))`. -/
def maxAbs [Nonempty ι] (f : ι → ℝ) : ℝ := univ.sup' univ_nonempty fun i => |f i|

/-- `np.dot(a, b)`. -/
def dot (a b : ι → ℝ) : ℝ := ∑ i, a i * b i

/-! ### Regularisers -/

/-- solver_functions.py:8-22 `matrix_regulariser_function`. -/
def matrix_regulariser_function (b : Matrix ι ι ℝ) (eps : ℝ) : Matrix ι ι ℝ :=
  let b := (0.5 : ℝ) • (b + b.transpose)
  b + eps • (1 : Matrix ι ι ℝ)

/-- Contract of `t, e = scipy.linalg.eigh(b)` for a symmetric `b`: `e` is orthogonal and `b = e diag(t) eᵀ`. -/
structure IsEigh (b : Matrix ι ι ℝ) (t : ι → ℝ) (e : Matrix ι ι ℝ) : Prop where
  orth : e.transpose * e = 1
  decomp : b = e * Matrix.diagonal t * e.transpose

/-- solver_functions.py:25-41 `matrix_regulariser_function_eigen_based`; `(t, e)` is the result of `scipy.linalg.eigh` on the
symmetrised matrix (its contract is `IsEigh`; the body does not use `b` otherwise). -/
def matrix_regulariser_function_eigen_based (t : ι → ℝ) (e : Matrix ι ι ℝ) (eps : ℝ) : Matrix ι ι ℝ :=
  let ll : ι → ℝ := fun i => if t i > eps then 0 else eps - t i
  e * (Matrix.diagonal ll + Matrix.diagonal t) * e.transpose

/-! ### Decrease test and loops of the line searches -/

/-- solver_functions.py:44-68 `sufficient_decrease_condition` (`c1 = 1e-4`; `c2` is unused by the code). -/
def sufficient_decrease_condition (f_old f_new : Option ℝ) (alpha : ℝ) (grad_f p : ι → ℝ) : Prop :=
  match f_old, f_new with
  | some a, some b => b < a + 0.0001 * alpha * dot grad_f p
  | _, _ => False

/-- `while (not cond(alfa)) and i < 50: alfa *= beta; i += 1`, with `k = 50 - i` iterations left. -/
def backtrack (cond : ℝ → Prop) (beta : ℝ) : ℕ → ℝ → ℝ
  | 0, alfa => alfa
  | k + 1, alfa => if cond alfa then alfa else backtrack cond beta k (alfa * beta)

/-- `while True: if cond(alfa): break else: alfa *= beta`.  `none`: the loop never ends.  The unfolding equation of the loop is
`untilLoop_unfold` in `Lemmas/Solver.lean`. -/
def untilLoop (cond : ℝ → Prop) (beta alfa : ℝ) : Option ℝ :=
  if h : ∃ k : ℕ, cond (alfa * beta ^ k) then some (alfa * beta ^ Nat.find h) else none

/-- `-step_fun(x, args)` on a float that may be nan. -/
def negF (F : (ι → ℝ) → Option ℝ) (x : ι → ℝ) : Option ℝ := (F x).map (fun v => -v)

/-- The decrease stage shared by every Newton / quasi-Newton line search, e.g. models_functions.py:207-218.
`F` is the log-likelihood handed over in `args`. -/
def decreaseStage (F : (ι → ℝ) → Option ℝ) (x dx : ι → ℝ) (beta alfa : ℝ) (f : ι → ℝ) : ℝ :=
  let s_old := negF F x
  backtrack (fun a => sufficient_decrease_condition s_old (negF F (x + a • dx)) a f dx) beta 50 alfa

/-- The norm stage shared by every fixed-point line search, e.g. models_functions.py:248-258. -/
def normStage (dx dx_old : ι → ℝ) (alfa beta : ℝ) (step : ℕ) : ℝ :=
  if step ≠ 0 then backtrack (fun a => norm2 (a • dx) < norm2 dx_old) beta 50 alfa else alfa

/-- models_functions.py:201-205 (`alfa0 = (eps2 - 1) * x / dx; for a in alfa0: if a >= 0: alfa = min(alfa, a)`).
Where `dx[i] == 0` the float quotient is an infinity or nan and never lowers `alfa`. -/
def positivityStage (order : List ι) (x dx : ι → ℝ) (alfa : ℝ) : ℝ :=
  forL order (fun i alfa =>
    if dx i = 0 then alfa
    else
      let a := (0.01 - 1) * x i / dx i
      if a ≥ 0 then min alfa a else alfa) alfa

/-- models_functions.py:2002-2006: as `positivityStage` but over the nonzero entries of `dx` only and with a strict test. -/
def positivityStage' (order : List ι) (x dx : ι → ℝ) (alfa : ℝ) : ℝ :=
  forL (order.filter fun i => decide (dx i ≠ 0)) (fun i alfa =>
      let a := (0.01 - 1) * x i / dx i
      if a > 0 then min alfa a else alfa) alfa

/-! ### The line searches.  `order` is the list of all coordinates in array order. -/

/-- models_functions.py:178-218 `linsearch_fun_CM`. -/
def linsearch_fun_CM (order : List ι) (x dx : ι → ℝ) (beta alfa : ℝ) (f : ι → ℝ) (F : (ι → ℝ) → Option ℝ) : ℝ :=
  decreaseStage F x dx beta (positivityStage order x dx alfa) f

/-- models_functions.py:222-258 `linsearch_fun_CM_fixed`. -/
def linsearch_fun_CM_fixed (order : List ι) (x dx dx_old : ι → ℝ) (alfa beta : ℝ) (step : ℕ) : ℝ :=
  normStage dx dx_old (positivityStage order x dx alfa) beta step

/-- models_functions.py:441-477 `linsearch_fun_CM_exp`. -/
def linsearch_fun_CM_exp (x dx : ι → ℝ) (beta alfa : ℝ) (f : ι → ℝ) (F : (ι → ℝ) → Option ℝ) : ℝ :=
  decreaseStage F x dx beta alfa f

/-- models_functions.py:481-512 `linsearch_fun_CM_exp_fixed`. -/
def linsearch_fun_CM_exp_fixed (dx dx_old : ι → ℝ) (alfa beta : ℝ) (step : ℕ) : ℝ := normStage dx dx_old alfa beta step

/-- models_functions.py:1979-2025 `linsearch_fun_DCM`. -/
def linsearch_fun_DCM (order : List ι) (x dx : ι → ℝ) (beta alfa : ℝ) (f : ι → ℝ) (F : (ι → ℝ) → Option ℝ) : ℝ :=
  decreaseStage F x dx beta (positivityStage' order x dx alfa) f

/-- models_functions.py:2029-2062 `linsearch_fun_DCM_fixed`. -/
def linsearch_fun_DCM_fixed (order : List ι) (x dx dx_old : ι → ℝ) (alfa beta : ℝ) (step : ℕ) : ℝ :=
  normStage dx dx_old (positivityStage' order x dx alfa) beta step

/-- models_functions.py:3161-3196 `linsearch_fun_DCM_exp`. -/
def linsearch_fun_DCM_exp (x dx : ι → ℝ) (beta alfa : ℝ) (f : ι → ℝ) (F : (ι → ℝ) → Option ℝ) : ℝ :=
  decreaseStage F x dx beta alfa f

/-- models_functions.py:3200-3229 `linsearch_fun_DCM_exp_fixed` (the entries equal to `inf`, skipped by the code, do not exist here). -/
def linsearch_fun_DCM_exp_fixed (dx dx_old : ι → ℝ) (alfa beta : ℝ) (step : ℕ) : ℝ := normStage dx dx_old alfa beta step

/-- models_functions.py:1534-1571 `linsearch_fun_crema_undirected`. -/
def linsearch_fun_crema_undirected (x dx : ι → ℝ) (beta alfa : ℝ) (f : ι → ℝ) (F : (ι → ℝ) → Option ℝ) : ℝ :=
  decreaseStage F x dx beta alfa f

/-- models_functions.py:1575-1605 `linsearch_fun_crema_undirected_fixed`. -/
def linsearch_fun_crema_undirected_fixed (dx dx_old : ι → ℝ) (alfa beta : ℝ) (step : ℕ) : ℝ :=
  normStage dx dx_old alfa beta step

/-- models_functions.py:4495-4536 `linsearch_fun_crema_directed`. -/
def linsearch_fun_crema_directed (x dx : ι → ℝ) (beta alfa : ℝ) (f : ι → ℝ) (F : (ι → ℝ) → Option ℝ) : ℝ :=
  decreaseStage F x dx beta alfa f

/-- models_functions.py:4540-4567 `linsearch_fun_crema_directed_fixed`. -/
def linsearch_fun_crema_directed_fixed (dx dx_old : ι → ℝ) (alfa beta : ℝ) (step : ℕ) : ℝ :=
  normStage dx dx_old alfa beta step

section Weighted

variable {n : ℕ}

/-- models_functions.py:767-768: `np.prod` of the entries at the positions `v.argsort()[-2:]`, the two largest entries of the
new `y` (one entry if `n = 1`).  `Tuple.sort v` is the permutation `v.argsort()`. -/
def topTwoProd (v : Fin n → ℝ) : ℝ := ∏ k : Fin n with n - 2 ≤ k.val, v (Tuple.sort v k)

/-- models_functions.py:1107-1109: `np.sum` of the entries at the positions `v.argsort()[:2]`. -/
def lowTwoSum (v : Fin n → ℝ) : ℝ := ∑ k : Fin n with k.val < 2, v (Tuple.sort v k)

/-- Slice of a vector of length `2n`: `x[nnn:]` is block 1. -/
def blk {m : ℕ} (b : Fin m) (x : Fin m × Fin n → ℝ) : Fin n → ℝ := fun i => x (b, i)

/-- models_functions.py:736-786 `linsearch_fun_ECM`; `none`: the `while True` loop never ends. -/
def linsearch_fun_ECM (order : List (Fin 2 × Fin n)) (x dx : Fin 2 × Fin n → ℝ) (beta alfa : ℝ) (f : Fin 2 × Fin n → ℝ)
    (F : (Fin 2 × Fin n → ℝ) → Option ℝ) : Option ℝ :=
  (untilLoop (fun a => topTwoProd (blk 1 (x + a • dx)) < 1) beta (positivityStage order x dx alfa)).map
    fun alfa => decreaseStage F x dx beta alfa f

/-- models_functions.py:790-836 `linsearch_fun_ECM_fixed`. -/
def linsearch_fun_ECM_fixed (order : List (Fin 2 × Fin n)) (x dx dx_old : Fin 2 × Fin n → ℝ) (alfa beta : ℝ) (step : ℕ) :
    Option ℝ :=
  (untilLoop (fun a => topTwoProd (blk 1 (x + a • dx)) < 1) beta (positivityStage order x dx alfa)).map
    fun alfa => normStage dx dx_old alfa beta step

/-- models_functions.py:1081-1129 `linsearch_fun_ECM_exp`. -/
def linsearch_fun_ECM_exp (x dx : Fin 2 × Fin n → ℝ) (beta alfa : ℝ) (f : Fin 2 × Fin n → ℝ)
    (F : (Fin 2 × Fin n → ℝ) → Option ℝ) : Option ℝ :=
  (untilLoop (fun a => lowTwoSum (blk 1 (x + a • dx)) > 1e-14) beta alfa).map
    fun alfa => decreaseStage F x dx beta alfa f

/-- models_functions.py:1133-1176 `linsearch_fun_ECM_exp_fixed`. -/
def linsearch_fun_ECM_exp_fixed (x dx dx_old : Fin 2 × Fin n → ℝ) (alfa beta : ℝ) (step : ℕ) : Option ℝ :=
  (untilLoop (fun a => lowTwoSum (blk 1 (x + a • dx)) > 1e-14) beta alfa).map
    fun alfa => normStage dx dx_old alfa beta step

/-- `v[np.argmax(v)]`. -/
def maxv [NeZero n] (v : Fin n → ℝ) : ℝ := univ.sup' univ_nonempty v

/-- `v[np.argmin(v)]`. -/
def minv [NeZero n] (v : Fin n → ℝ) : ℝ := univ.inf' univ_nonempty v

/-- models_functions.py:2556-2612 `linsearch_fun_DECM`. -/
def linsearch_fun_DECM [NeZero n] (order : List (Fin 4 × Fin n)) (x dx : Fin 4 × Fin n → ℝ) (beta alfa : ℝ)
    (f : Fin 4 × Fin n → ℝ) (F : (Fin 4 × Fin n → ℝ) → Option ℝ) : Option ℝ :=
  (untilLoop (fun a => maxv (blk 2 (x + a • dx)) * maxv (blk 3 (x + a • dx)) < 1) beta (positivityStage' order x dx alfa)).map
    fun alfa => decreaseStage F x dx beta alfa f

/-- models_functions.py:2616-2664 `linsearch_fun_DECM_fixed`. -/
def linsearch_fun_DECM_fixed [NeZero n] (order : List (Fin 4 × Fin n)) (x dx dx_old : Fin 4 × Fin n → ℝ) (alfa beta : ℝ)
    (step : ℕ) : Option ℝ :=
  (untilLoop (fun a => maxv (blk 2 (x + a • dx)) * maxv (blk 3 (x + a • dx)) < 1) beta (positivityStage' order x dx alfa)).map
    fun alfa => normStage dx dx_old alfa beta step

/-- models_functions.py:3704-3758 `linsearch_fun_DECM_exp`. -/
def linsearch_fun_DECM_exp [NeZero n] (x dx : Fin 4 × Fin n → ℝ) (beta alfa : ℝ) (f : Fin 4 × Fin n → ℝ)
    (F : (Fin 4 × Fin n → ℝ) → Option ℝ) : Option ℝ :=
  let tmp := minv (blk 2 x) + minv (blk 3 x)
  (untilLoop (fun a => minv (blk 2 (x + a • dx)) + minv (blk 3 (x + a • dx)) > tmp * 0.01) beta alfa).map
    fun alfa => decreaseStage F x dx beta alfa f

/-- models_functions.py:3762-3814 `linsearch_fun_DECM_exp_fixed`. -/
def linsearch_fun_DECM_exp_fixed [NeZero n] (x dx dx_old : Fin 4 × Fin n → ℝ) (alfa beta : ℝ) (step : ℕ) : Option ℝ :=
  let tmp := minv (blk 2 x) + minv (blk 3 x)
  (untilLoop (fun a => minv (blk 2 (x + a • dx)) + minv (blk 3 (x + a • dx)) > tmp * 0.01) beta alfa).map
    fun alfa => normStage dx dx_old alfa beta step

end Weighted

/-! ### The solver -/

/-- How a call of `solver` can fail. -/
inductive Err
  | singular      -- `np.linalg.solve` raises `LinAlgError`
  | unboundDx     -- unknown method: `dx` is read before assignment (`UnboundLocalError`)
  | nonfinite     -- `-f / b_matrix` with a zero entry of `b_matrix`: the point leaves the real numbers
  | diverge       -- the line search never returns
  deriving DecidableEq

/-- The functions `solver` receives (solver_functions.py:71-77).  `fun_jac` returns a matrix for "newton" and a vector for
"quasinewton". -/
structure Callbacks (ι : Type*) where
  fn : (ι → ℝ) → (ι → ℝ)
  jac : (ι → ℝ) → Matrix ι ι ℝ
  jacDiag : (ι → ℝ) → (ι → ℝ)
  hessian_regulariser : Matrix ι ι ℝ → ℝ → Matrix ι ι ℝ
  /-- `linsearch_fun((x, dx, beta, alfa1, f))`, newton and quasinewton -/
  linsearch : (ι → ℝ) → (ι → ℝ) → ℝ → ℝ → (ι → ℝ) → Option ℝ
  /-- `linsearch_fun((x, dx, dx_old, alfa1, beta, n_steps))`, fixed-point -/
  linsearchFixed : (ι → ℝ) → (ι → ℝ) → (ι → ℝ) → ℝ → ℝ → ℕ → Option ℝ

/-- The options of `solver` (solver_functions.py:78-86). -/
structure Opts where
  tol : ℝ
  eps : ℝ
  max_steps : ℕ
  method : String
  regularise : Bool
  regularise_eps : ℝ
  linsearch : Bool

/-- The local variables of `solver` (solver_functions.py:133-147).  The sequences are those of `full_return=True`. -/
structure State (ι : Type*) where
  x : ι → ℝ
  f : ι → ℝ
  norm : ℝ
  diff : ℝ
  dx_old : ι → ℝ
  n_steps : ℕ
  norm_seq : List ℝ
  diff_seq : List ℝ
  alfa_seq : List ℝ

/-- `np.linalg.solve(B, b)`. -/
def linalgSolve (B : Matrix ι ι ℝ) (b : ι → ℝ) : Except Err (ι → ℝ) :=
  if B.det = 0 then .error .singular else .ok (B⁻¹.mulVec b)

/-- solver_functions.py:133-147: initial state. -/
def initState (C : Callbacks ι) (x0 : ι → ℝ) : State ι :=
  let f := C.fn x0
  let norm := norm2 f
  { x := x0, f := f, norm := norm, diff := 1, dx_old := 0, n_steps := 0, norm_seq := [norm], diff_seq := [1], alfa_seq := [] }

/-- solver_functions.py:170-211: the direction. -/
def direction [Nonempty ι] (C : Callbacks ι) (o : Opts) (x f : ι → ℝ) : Except Err (ι → ℝ) :=
  if o.method = "newton" then
    let H := C.jac x
    let b_matrix := if o.regularise then C.hessian_regulariser H (maxAbs (C.fn x) * o.regularise_eps) else H
    linalgSolve b_matrix (-f)
  else if o.method = "quasinewton" then
    let b_matrix := C.jacDiag x
    let b_matrix : ι → ℝ :=
      if o.regularise then fun i => max (b_matrix i) (b_matrix i * 0 + maxAbs (C.fn x) * o.regularise_eps) else b_matrix
    if ∃ i, b_matrix i = 0 then .error .nonfinite else .ok (fun i => -f i / b_matrix i)
  else if o.method = "fixed-point" then .ok (f - x)
  else .error .unboundDx

/-- solver_functions.py:216-231: the step length (`alfa1 = 1`, `beta = 0.5`).  An unknown method never gets here. -/
def stepLength (C : Callbacks ι) (o : Opts) (s : State ι) (dx : ι → ℝ) : Except Err ℝ :=
  if o.linsearch = true ∧ (o.method = "newton" ∨ o.method = "quasinewton") then
    match C.linsearch s.x dx 0.5 1 s.f with
    | some a => .ok a
    | none => .error .diverge
  else if o.linsearch = true ∧ o.method = "fixed-point" then
    match C.linsearchFixed s.x dx s.dx_old 1 0.5 s.n_steps with
    | some a => .ok a
    | none => .error .diverge
  else .ok 1

/-- solver_functions.py:165-262: one pass of the loop body. -/
def step [Nonempty ι] (C : Callbacks ι) (o : Opts) (s : State ι) : Except Err (State ι) :=
  match direction C o s.x s.f with
  | .error e => .error e
  | .ok dx =>
    match stepLength C o s dx with
    | .error e => .error e
    | .ok alfa =>
      let x := s.x + alfa • dx
      let f := C.fn x
      let norm := norm2 f
      let diff := norm2 (x - s.x)
      .ok { x := x, f := f, norm := norm, diff := diff, dx_old := alfa • dx, n_steps := s.n_steps + 1,
            norm_seq := s.norm_seq ++ [norm], diff_seq := s.diff_seq ++ [diff],
            alfa_seq := if o.linsearch then s.alfa_seq ++ [alfa] else s.alfa_seq }

/-- solver_functions.py:161-163: the `while` loop; the first argument is `max_steps - n_steps`. -/
def loop [Nonempty ι] (C : Callbacks ι) (o : Opts) : ℕ → State ι → Except Err (State ι)
  | 0, s => .ok s
  | k + 1, s =>
    if s.norm > o.tol ∧ s.diff > o.eps then
      match step C o s with
      | .error e => .error e
      | .ok s' => loop C o k s'
    else .ok s

/-- solver_functions.py:71-302 `solver`; the result carries everything `full_return=True` returns (times and prints left out).
With `full_return=False` the code returns only `x`. -/
def solver [Nonempty ι] (C : Callbacks ι) (o : Opts) (x0 : ι → ℝ) : Except Err (State ι) :=
  loop C o o.max_steps (initState C x0)

end

end Verif.Solver
