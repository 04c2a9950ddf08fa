import Verif.Model.Float

/-!
Undefined values (`nan`) outside the exponential models: the fixed-point map of dcm and the functions of the undirected crema-sparse divide arrays, where 0/0 does not
raise but gives `nan`, and the loop of `solver` ends as soon as the norm is `nan`.  Special values as in `Model/Float`; rounding and the sign of zeros are left out.
-/

set_option linter.unusedSectionVars false

namespace Verif.Flt

open Finset Verif.Solver

noncomputable section

open Classical in
attribute [local instance 0] propDecidable

namespace Fl

/-- `a / b` of entries of numpy arrays -/
def quot : Fl → Fl → Fl
  | real a, real b => div a b
  | nan, _ | _, nan => nan
  | real _, inf | real _, ninf => real 0
  | inf, real b => if b < 0 then ninf else inf
  | ninf, real b => if b < 0 then inf else ninf
  | inf, inf | inf, ninf | ninf, inf | ninf, ninf => nan

end Fl

open Fl

variable {n : ℕ}

/-- `v.sum()` -/
def sumF (v : Fin n → Fl) : Fl := forR n (fun j s => add s (v j)) (real 0)

variable {ι : Type*} [Fintype ι] [DecidableEq ι]

/-- solver_functions.py:161-163: the loop of every method; `body` is one pass of the loop -/
def loopG (body : FState ι → FState ι) (o : Opts) : ℕ → FState ι → FState ι
  | 0, s => s
  | k + 1, s => if lt (real o.tol) s.norm ∧ lt (real o.eps) s.diff then loopG body o k (body s) else s

/-- solver_functions.py:71-302: `fn` is the function `fun` of the code, `body` one pass of the loop.  Only the pass of "fixed-point" is modelled (`stepF`), those of "newton"
and "quasinewton" are parameters. -/
def solverG (fn : (ι → Fl) → ι → Fl) (body : FState ι → FState ι) (o : Opts) (x0 : ι → Fl) : FState ι :=
  loopG body o o.max_steps (initF { fn := fn, search := fun _ _ _ a _ _ => a } x0)

/-! ### crema-sparse, undirected.  The iterations of the `prange` loops write different entries, so each entry is given on its own. -/

/-- models_functions.py:1379-1380 (and 1230-1231, the same lines): `aux = x[i] * x; aux_value = aux / (1 + aux)`; the fitnesses of the binary model are finite -/
def linkValue (x : Fin n → ℝ) (i j : Fin n) : ℝ := x i * x j / (1 + x i * x j)

/-- models_functions.py:1359-1383 `loglikelihood_prime_crema_undirected_sparse` -/
def primeSparse (s x : Fin n → ℝ) (β : Fin n → Fl) (i : Fin n) : Fl :=
  let aux : Fin n → Fl := fun j => quot (real (linkValue x i j)) (add (β i) (β j))
  add (real (0 - s i)) (sub (sumF aux) (aux i))

/-- models_functions.py:1212-1234 `iterative_crema_undirected_sparse` -/
def iterativeSparse (s x : Fin n → ℝ) (β : Fin n → Fl) (i : Fin n) : Fl :=
  let aux : Fin n → Fl := fun j => quot (real (linkValue x i j)) (add (real 1) (quot (β j) (β i)))
  quot (add (neg (sumF aux)) (aux i)) (real (s i + Real.exp (-100)))

/-- graph_classes.py:599-786, the entries of `crema-sparse` ("newton" does not exist for this model) -/
def fnSparse (d : Solve.UData n) (x : Fin n → ℝ) : Solve.Method → (Fin n → Fl) → Fin n → Fl
  | .newton | .quasinewton => fun β i => neg (primeSparse d.strength_sequence x β i)
  | .fixed_point => fun β i => neg (iterativeSparse d.strength_sequence x β i)

/-- models_functions.py:1575-1605 `linsearch_fun_crema_undirected_fixed`; the same code as `linsearch_fun_CM_exp_fixed` -/
def fcbSparse (d : Solve.UData n) (x : Fin n → ℝ) : FCallbacks (Fin n) where
  fn := fnSparse d x .fixed_point
  search := fun _ => searchCMexp

/-- `solve_tool("crema-sparse", ...)` after the binary model has given the fitnesses `x`, graph_classes.py:789-918: guess, solver -/
def runSparse [NeZero n] (e : Solve.Env) (d : Solve.UData n) (x : Fin n → ℝ) (m : Solve.Method) (body : FState (Fin n) → FState (Fin n)) (guess : Solve.Guess n)
    (p : Solve.Params) : Except Graph.Exc (FState (Fin n)) :=
  (Solve.guessCrema e d guess).1.map fun β0 => solverG (fnSparse d x m) body (p.opts m.name) fun i => real (β0 i)

/-! ### dcm -/

/-- models_functions.py:1660-1702 `iterative_dcm`: the last division is one of arrays.  If some parameter is special (which never happens in the runs of `Props/Float2`) all
results are taken to be `nan`. -/
def iterativeDCM (k_out k_in c : Fin n → ℝ) (x : Fin 2 × Fin n → Fl) : Fin 2 × Fin n → Fl := fun v =>
  if ∃ w, x w = ninf ∨ x w = nan ∨ x w = inf then nan
  else div (DCM.concat k_out k_in v) (DCM.iterative_den (fun w => (x w).val) c v)

/-- models_functions.py:2029-2062 `linsearch_fun_DCM_fixed`.  For a special `dx[i]` the quotient is `nan` or 0 and the test `a > 0` fails. -/
def searchDCM (order : List ι) (x dx dx_old : ι → Fl) (alfa beta : ℝ) (step : ℕ) : ℝ :=
  let alfa := forL order (fun i alfa =>
    match x i, dx i with
    | real xi, real di =>
      if di ≠ 0 then
        let a := (0.01 - 1) * xi / di
        if a > 0 then min alfa a else alfa
      else alfa
    | _, _ => alfa) alfa
  if step ≠ 0 then backtrack (fun a => lt (norm (fun _ => True) fun i => scale a (dx i)) (norm (fun _ => True) dx_old)) beta 50 alfa else alfa

/-- graph_classes.py, the entries of `dcm` for "fixed-point" -/
def fcbDCM (d : Solve.DData n) : FCallbacks (Fin 2 × Fin d.r) where
  fn := iterativeDCM d.ko d.ki d.c
  search := searchDCM (Solve.blocks 2 d.r)

/-- `solve_tool("dcm", method="fixed-point", ...)`: guess, solver -/
def runDCM [NeZero n] (e : Solve.Env) (d : Solve.DData n) (guess : Solve.DGuess n) (p : Solve.Params) : Except Graph.Exc (FState (Fin 2 × Fin d.r)) :=
  (Solve.guessDCM e d false guess).map fun x0 => solverF (fcbDCM d) (p.opts "fixed-point") fun q => real (x0 q)

end

end Verif.Flt
