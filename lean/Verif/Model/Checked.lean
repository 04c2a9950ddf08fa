import Verif.Model.SolveU
import Verif.Model.SolveD

/-!
Divisions by zero.  In `Model/CM`, `Model/ECM` and `Model/DCM` the quotient by 0 is 0, as in Lean's reals.  The functions of
`/repo/src/NEMtropy/models_functions.py` are compiled with `@jit(nopython=True)` and numba's default error model: a division of two scalars by 0 raises
`ZeroDivisionError`.  This file models the same functions, line by line, with every scalar division checked, and `solver` (solver_functions.py:71-302)
with callbacks that may raise.  A division of two arrays does not raise in numba (it gives inf or nan) and is not checked here.
-/

set_option linter.unusedSectionVars false

namespace Verif.Checked

open Verif Finset Verif.Solver Verif.Solve

noncomputable section

open Classical in
attribute [local instance 0] propDecidable

variable {n : ℕ} {σ α : Type}

/-- `a / b` of two scalars; `none`: `ZeroDivisionError` -/
def divE (a b : ℝ) : Option ℝ := if b = 0 then none else some (a / b)

/-- `for i in l: s = body(i, s)`, left by the first exception -/
def forLE (l : List α) (body : α → σ → Option σ) (s : σ) : Option σ := l.foldlM (fun s e => body e s) s

/-- `for i in np.arange(n): s = body(i, s)` -/
def forE (n : ℕ) (body : Fin n → σ → Option σ) (s : σ) : Option σ := forLE (List.finRange n) body s

/-! ### cm (models_functions.py:12-278) -/

section cm
variable (x k c : Fin n → ℝ)

/-- models_functions.py:12-35 `iterative_cm` -/
def iterative_cm : Option (Fin n → ℝ) :=
  forE n (fun i f => do
    let fx ← forE n (fun j fx =>
      if i = j then do return fx + (c j - 1) * (← divE (x j) (1 + x j * x i))
      else do return fx + c j * (← divE (x j) (1 + x j * x i))) (0 : ℝ)
    if fx ≠ 0 then do return setAt f i (← divE (k i) fx) else return f) (fun _ => 0)

/-- models_functions.py:65-87 `loglikelihood_prime_cm` -/
def loglikelihood_prime_cm : Option (Fin n → ℝ) :=
  forE n (fun i f => do
    let f := addAt f i (← divE (c i * k i) (x i))
    forE n (fun j f =>
      if i = j then do return subAt f i (c i * (c j - 1) * (← divE (x j) (1 + (x j) ^ 2)))
      else do return subAt f i (c i * c j * (← divE (x j) (1 + x i * x j)))) f) (fun _ => 0)

/-- models_functions.py:91-124 `loglikelihood_hessian_cm` -/
def loglikelihood_hessian_cm : Option (Fin n → Fin n → ℝ) :=
  forE n (fun i f =>
    forE n (fun j f =>
      if i ≤ j then
        let aux_f : Option ℝ :=
          if i = j then do
            forE n (fun h aux_f =>
              if i = h then do
                let aux := 1 + x h * x h
                return aux_f + (← divE (x h * x h) (aux * aux)) * c i * (c h - 1)
              else do
                let aux := 1 + x i * x h
                return aux_f + (← divE (x h * x h) (aux * aux)) * c i * c h) ((← divE (-k i) (x i * x i)) * c i)
          else do
            let aux := 1 + x i * x j
            return (← divE (x j * x j - aux) (aux * aux)) * c i * c j
        do
          let aux_f ← aux_f
          return setAt2 (setAt2 f i j aux_f) j i aux_f
      else return f) f) (fun _ _ => 0)

/-- models_functions.py:128-153 `loglikelihood_hessian_diag_cm` -/
def loglikelihood_hessian_diag_cm : Option (Fin n → ℝ) :=
  forE n (fun i f => do
    let f := subAt f i ((← divE (k i) (x i * x i)) * c i)
    forE n (fun j f =>
      if i = j then do
        let aux := 1 + x j * x j
        return addAt f i ((← divE (x j * x j) (aux * aux)) * c i * (c j - 1))
      else do
        let aux := 1 + x i * x j
        return addAt f i ((← divE (x j * x j) (aux * aux)) * c i * c j)) f) (fun _ => 0)

/-- models_functions.py:262-278 `expected_degree_cm` -/
def expected_degree_cm (sol : Fin n → ℝ) : Option (Fin n → ℝ) :=
  forE n (fun i ex_k =>
    forE n (fun j ex_k =>
      if i ≠ j then do
        let aux := sol i * sol j
        return addAt ex_k i (← divE aux (1 + aux))
      else return ex_k) ex_k) (fun _ => 0)

end cm

/-! ### ecm (models_functions.py:587-732) -/

section ecm
variable (sol : ECM.Vec n) (k s : Fin n → ℝ)

/-- models_functions.py:587-617 `loglikelihood_prime_ecm` -/
def loglikelihood_prime_ecm : Option (ECM.Vec n) :=
  let x := fun i => sol (0, i)
  let y := fun i => sol (1, i)
  forE n (fun i f => do
    let f := addAt f (0, i) (← divE (k i) (x i))
    let f := addAt f (1, i) (← divE (s i) (y i))
    forE n (fun j f =>
      if i ≠ j then do
        let aux1 := x i * x j
        let aux2 := y i * y j
        let f := subAt f (0, i) (← divE (x j * aux2) (1 - aux2 + aux1 * aux2))
        return subAt f (1, i) (← divE (aux1 * y j) ((1 - aux2) * (1 - aux2 + aux1 * aux2)))
      else return f) f) (fun _ => 0)

/-- models_functions.py:519-555 `iterative_ecm`; the accumulators `fx`, `fy` of one loop are computed by two loops -/
def iterative_ecm : Option (ECM.Vec n) :=
  let x := fun i => sol (0, i)
  let y := fun i => sol (1, i)
  forE n (fun i f => do
    let fx ← forE n (fun j fx =>
      if i ≠ j then do
        let aux1 := x i * x j
        let aux2 := y i * y j
        return fx + (← divE (x j * aux2) (1 - aux2 + aux1 * aux2))
      else return fx) (0 : ℝ)
    let fy ← forE n (fun j fy =>
      if i ≠ j then do
        let aux1 := x i * x j
        let aux2 := y i * y j
        return fy + (← divE (aux1 * y j) ((1 - aux2) * (1 - aux2 + aux1 * aux2)))
      else return fy) (0 : ℝ)
    let f : ECM.Vec n ← if fx ≠ 0 then do pure (setAt f (0, i) (← divE (k i) fx)) else pure (setAt f (0, i) 0)
    if fy ≠ 0 then do return setAt f (1, i) (← divE (s i) fy) else return setAt f (1, i) 0) (fun _ => 0)

/-- models_functions.py:621-692 `loglikelihood_hessian_ecm`; the three accumulators of the loop over `h` are computed by three loops -/
def loglikelihood_hessian_ecm : Option (Fin 2 × Fin n → Fin 2 × Fin n → ℝ) :=
  let x := fun i => sol (0, i)
  let y := fun i => sol (1, i)
  forE n (fun i f =>
    forE n (fun j f =>
      if i ≤ j then
        if i = j then do
          let f1 ← forE n (fun h f1 =>
            if h ≠ i then do
              let aux1 := x i * x h
              let aux2 := y i * y h
              let aux4 := (1 - aux2 + aux1 * aux2) ^ 2
              return f1 + (← divE ((x h * aux2) ^ 2) aux4)
            else return f1) (← divE (-k i) (x i ^ 2))
          let f2 ← forE n (fun h f2 =>
            if h ≠ i then do
              let aux1 := x i * x h
              let aux2 := y i * y h
              let aux3 := (1 - aux2) ^ 2
              let aux4 := (1 - aux2 + aux1 * aux2) ^ 2
              return f2 + (← divE (aux1 * y h * (aux1 * y h * (1 - 2 * aux2) - 2 * y h * (1 - aux2))) (aux3 * aux4))
            else return f2) (← divE (-s i) (y i ^ 2))
          let f3 ← forE n (fun h f3 =>
            if h ≠ i then do
              let aux1 := x i * x h
              let aux2 := y i * y h
              let aux4 := (1 - aux2 + aux1 * aux2) ^ 2
              return f3 - (← divE (x h * y h) aux4)
            else return f3) (0 : ℝ)
          let f := setAt2 f (0, i) (0, i) f1
          let f := setAt2 f (1, i) (1, i) f2
          let f := setAt2 f (1, i) (0, i) f3
          return setAt2 f (0, i) (1, i) f3
        else do
          let aux1 := x i * x j
          let aux2 := y i * y j
          let aux3 := (1 - aux2) ^ 2
          let aux4 := (1 - aux2 + aux1 * aux2) ^ 2
          let aux ← divE (-(aux2 * (1 - aux2))) aux4
          let f := setAt2 f (0, i) (0, j) aux
          let f := setAt2 f (0, j) (0, i) aux
          let aux ← divE (-(x j * y i)) aux4
          let f := setAt2 f (0, i) (1, j) aux
          let f := setAt2 f (1, j) (0, i) aux
          let aux ← divE (-(aux1 * (1 - aux2 ^ 2 + aux1 * (aux2 ^ 2)))) (aux3 * aux4)
          let f := setAt2 f (1, i) (1, j) aux
          let f := setAt2 f (1, j) (1, i) aux
          let aux ← divE (-(x i * y j)) aux4
          let f := setAt2 f (1, i) (0, j) aux
          return setAt2 f (0, j) (1, i) aux
      else return f) f) (fun _ _ => 0)

/-- models_functions.py:696-732 `loglikelihood_hessian_diag_ecm` -/
def loglikelihood_hessian_diag_ecm : Option (ECM.Vec n) :=
  let x := fun i => sol (0, i)
  let y := fun i => sol (1, i)
  forE n (fun i f => do
    let f := subAt f (0, i) (← divE (k i) (x i * x i))
    let f := subAt f (1, i) (← divE (s i) (y i * y i))
    forE n (fun j f =>
      if j ≠ i then do
        let aux1 := x i * x j
        let aux2 := y i * y j
        let aux3 := (1 - aux2) ^ 2
        let aux4 := (1 - aux2 + aux1 * aux2) ^ 2
        let f := addAt f (0, i) (← divE ((x j * aux2) ^ 2) aux4)
        return addAt f (1, i) (← divE (aux1 * y j * (aux1 * y j * (1 - 2 * aux2) - 2 * y j * (1 - aux2))) (aux3 * aux4))
      else return f) f) (fun _ => 0)

/-- models_functions.py:839-861 `expected_ecm` -/
def expected_ecm : Option (ECM.Vec n) :=
  let x := fun i => sol (0, i)
  let y := fun i => sol (1, i)
  forE n (fun i f => forE n (fun j f =>
    if i ≠ j then do
      let aux1 := x i * x j
      let aux2 := y i * y j
      let f := addAt f (0, i) (← divE (aux1 * aux2) (1 - aux2 + aux1 * aux2))
      return addAt f (1, i) (← divE (aux1 * aux2) ((1 - aux2 + aux1 * aux2) * (1 - aux2)))
    else return f) f) (fun _ => 0)

end ecm

/-! ### dcm (models_functions.py:1660-1975) -/

section dcm
variable (x : DCM.Vec n) (k_out k_in : Fin n → ℝ) (no ni : List (Fin n)) (c : Fin n → ℝ)

/-- models_functions.py:1660-1702 `iterative_dcm`; the last division is one of arrays -/
def iterative_dcm : Option (DCM.Vec n) := do
  let f : DCM.Vec n := fun _ => 0
  let f ← forE n (fun i f => forE n (fun j f =>
    if j ≠ i then do return addAt f (0, i) (← divE (c j * x (1, j)) (1 + x (0, i) * x (1, j)))
    else do return addAt f (0, i) (← divE ((c j - 1) * x (1, j)) (1 + x (0, i) * x (1, j)))) f) f
  let f ← forE n (fun j f => forE n (fun i f =>
    if j ≠ i then do return addAt f (1, j) (← divE (c i * x (0, i)) (1 + x (0, i) * x (1, j)))
    else do return addAt f (1, j) (← divE ((c i - 1) * x (0, i)) (1 + x (0, i) * x (1, j)))) f) f
  return fun v => DCM.concat k_out k_in v / f v

/-- models_functions.py:1742-1792 `loglikelihood_prime_dcm` -/
def loglikelihood_prime_dcm : Option (DCM.Vec n) := do
  let f : DCM.Vec n := fun _ => 0
  let f ← forLE no (fun i f => do
    let fx ← forLE ni (fun j fx => do
      let const := if i ≠ j then c i * c j else c i * (c j - 1)
      return fx + (← divE (const * x (1, j)) (1 + x (0, i) * x (1, j)))) (0 : ℝ)
    return setAt f (0, i) (-fx + (← divE (c i * k_out i) (x (0, i))))) f
  forLE ni (fun j f => do
    let fy ← forLE no (fun i fy => do
      let const := if i ≠ j then c i * c j else c i * (c j - 1)
      return fy + (← divE (const * x (0, i)) (1 + x (1, j) * x (0, i)))) (0 : ℝ)
    return setAt f (1, j) (-fy + (← divE (c j * k_in j) (x (1, j))))) f

/-- models_functions.py:1796-1847 `loglikelihood_hessian_dcm` -/
def loglikelihood_hessian_dcm : Option (Fin 2 × Fin n → Fin 2 × Fin n → ℝ) := do
  let out : Fin 2 × Fin n → Fin 2 × Fin n → ℝ := fun _ _ => 0
  let out ← forLE no (fun h out => do
    let out := setAt2 out (0, h) (0, h) (← divE (-c h * k_out h) ((x (0, h)) ^ 2))
    forLE ni (fun i out => do
      let const := if i = h then c h * (c h - 1) else c h * c i
      let out := addAt2 out (0, h) (0, h) (const * (← divE (x (1, i)) (1 + x (0, h) * x (1, i))) ^ 2)
      return setAt2 out (0, h) (1, i) (← divE (-const) ((1 + x (1, i) * x (0, h)) ^ 2))) out) out
  forLE ni (fun i out => do
    let out := setAt2 out (1, i) (1, i) (← divE (-c i * k_in i) (x (1, i) * x (1, i)))
    forLE no (fun h out => do
      let const := if i = h then c h * (c h - 1) else c h * c i
      let out := addAt2 out (1, i) (1, i) (← divE (const * (x (0, h) ^ 2)) ((1 + x (1, i) * x (0, h)) ^ 2))
      return setAt2 out (1, i) (0, h) (← divE (-const) ((1 + x (1, i) * x (0, h)) ^ 2))) out) out

/-- models_functions.py:1851-1907 `loglikelihood_hessian_diag_dcm` -/
def loglikelihood_hessian_diag_dcm : Option (DCM.Vec n) := do
  let f : DCM.Vec n := fun _ => 0
  let f ← forLE no (fun i f => do
    let fx ← forLE ni (fun j fx => do
      let const := if i ≠ j then c j else c i - 1
      let tmp := 1 + x (0, i) * x (1, j)
      return fx + (← divE (const * x (1, j) * x (1, j)) (tmp * tmp))) (0 : ℝ)
    return setAt f (0, i) (fx - (← divE (k_out i) (x (0, i) * x (0, i))))) f
  forLE ni (fun j f => do
    let fy ← forLE no (fun i fy => do
      let const := if i ≠ j then c i else c j - 1
      let tmp := (1 + x (1, j) * x (0, i)) * (1 + x (1, j) * x (0, i))
      return fy + (← divE (const * x (0, i) * x (0, i)) tmp)) (0 : ℝ)
    return setAt f (1, j) (fy - (← divE (k_in j) (x (1, j) * x (1, j))))) f

/-- models_functions.py:1935-1954 `expected_out_degree_dcm` -/
def expected_out_degree_dcm (sol : DCM.Vec n) : Option (Fin n → ℝ) :=
  let a_out := fun i => sol (0, i)
  let a_in := fun i => sol (1, i)
  forLE (DCM.nonzero a_out) (fun i k => forLE (DCM.nonzero a_in) (fun j k =>
    if i ≠ j then do return addAt k i (← divE (a_in j * a_out i) (1 + a_in j * a_out i)) else return k) k) (fun _ => 0)

/-- models_functions.py:1957-1975 `expected_in_degree_dcm` -/
def expected_in_degree_dcm (sol : DCM.Vec n) : Option (Fin n → ℝ) :=
  let a_out := fun i => sol (0, i)
  let a_in := fun i => sol (1, i)
  forLE (DCM.nonzero a_in) (fun i k => forLE (DCM.nonzero a_out) (fun j k =>
    if i ≠ j then do return addAt k i (← divE (a_in i * a_out j) (1 + a_in i * a_out j)) else return k) k) (fun _ => 0)

end dcm

/-! ### the solver -/

variable {ι : Type} [Fintype ι] [DecidableEq ι]

/-- the callbacks with checked divisions -/
structure Check (ι : Type) where
  fn : (ι → ℝ) → Option (ι → ℝ)
  jac : (ι → ℝ) → Option (Matrix ι ι ℝ)
  jacDiag : (ι → ℝ) → Option (ι → ℝ)

/-- how `solver` can raise -/
inductive Fail
  | zeroDivision
  | run (e : Err)
  deriving DecidableEq

/-- the value or `ZeroDivisionError` -/
def get {β : Type} : Option β → Except Fail β
  | none => .error .zeroDivision
  | some v => .ok v

/-- an exception of `Model/Solver` -/
def lift {β : Type} : Except Err β → Except Fail β
  | .error e => .error (.run e)
  | .ok v => .ok v

/-- solver_functions.py:170-211: the direction; `C` gives the regulariser and the line searches, `K` the checked callbacks -/
def directionE [Nonempty ι] (C : Callbacks ι) (K : Check ι) (o : Opts) (x f : ι → ℝ) : Except Fail (ι → ℝ) :=
  if o.method = "newton" then do
    let H ← get (K.jac x)
    let b_matrix ← if o.regularise then do pure (C.hessian_regulariser H (maxAbs (← get (K.fn x)) * o.regularise_eps)) else pure H
    lift (linalgSolve b_matrix (-f))
  else if o.method = "quasinewton" then do
    let b_matrix ← get (K.jacDiag x)
    let b_matrix : ι → ℝ ←
      if o.regularise then do
        let m := maxAbs (← get (K.fn x)) * o.regularise_eps
        pure fun i => max (b_matrix i) (b_matrix i * 0 + m)
      else pure b_matrix
    if ∃ i, b_matrix i = 0 then .error (.run .nonfinite) else .ok (fun i => -f i / b_matrix i)
  else if o.method = "fixed-point" then .ok (f - x)
  else .error (.run .unboundDx)

/-- solver_functions.py:165-262: one pass of the loop body.  The line searches of cm and dcm call likelihoods without divisions by variables. -/
def stepE [Nonempty ι] (C : Callbacks ι) (K : Check ι) (o : Opts) (s : State ι) : Except Fail (State ι) := do
  let dx ← directionE C K o s.x s.f
  let alfa ← lift (stepLength C o s dx)
  let x := s.x + alfa • dx
  let f ← get (K.fn x)
  let norm := norm2 f
  let diff := norm2 (x - s.x)
  .ok { x := x, f := f, norm := norm, diff := diff, dx_old := alfa • dx, n_steps := s.n_steps + 1,
        norm_seq := s.norm_seq ++ [norm], diff_seq := s.diff_seq ++ [diff],
        alfa_seq := if o.linsearch then s.alfa_seq ++ [alfa] else s.alfa_seq }

/-- solver_functions.py:161-163: the `while` loop -/
def loopE [Nonempty ι] (C : Callbacks ι) (K : Check ι) (o : Opts) : ℕ → State ι → Except Fail (State ι)
  | 0, s => .ok s
  | k + 1, s => if s.norm > o.tol ∧ s.diff > o.eps then stepE C K o s >>= loopE C K o k else .ok s

/-- solver_functions.py:71-302 -/
def solverE [Nonempty ι] (C : Callbacks ι) (K : Check ι) (o : Opts) (x0 : ι → ℝ) : Except Fail (State ι) := do
  let f ← get (K.fn x0)
  let norm := norm2 f
  loopE C K o o.max_steps { x := x0, f := f, norm := norm, diff := 1, dx_old := 0, n_steps := 0, norm_seq := [norm], diff_seq := [1], alfa_seq := [] }

/-! ### `solve_tool` -/

/-- how a call of `solve_tool` ends: the exceptions of the initial guess, those of the solver, or the state of the solver and the expected degrees -/
inductive Outcome (α β : Type*)
  | guess (e : Graph.Exc)
  | solver (e : Fail)
  | done (s : α) (expected : β)

variable [NeZero n]

/-- graph_classes.py:599-786, the entries of `cm` -/
def chkCM (d : UData n) (m : Method) : Check (Fin d.r) where
  fn := match m with
    | .newton | .quasinewton => fun x => (loglikelihood_prime_cm x d.k d.c).map fun f q => -f q
    | .fixed_point => fun x => iterative_cm x d.k d.c
  jac := fun x => (loglikelihood_hessian_cm x d.k d.c).map negM
  jacDiag := fun x => (loglikelihood_hessian_diag_cm x d.k d.c).map fun f q => -f q

/-- `solve_tool("cm", method=...)`: guess, solver, expected degrees (graph_classes.py:392-460, 512-597) -/
def runCM (e : Env) (d : UData n) (m : Method) (guess : Guess n) (p : Params) : Outcome (State (Fin d.r)) (Fin n → ℝ) :=
  match guessCM e d false guess with
  | .error er => .guess er
  | .ok x0 =>
    match solverE (cbCM e d m) (chkCM d m) (p.opts m.name) x0 with
    | .error er => .solver er
    | .ok s =>
      match expected_degree_cm fun i => s.x (d.inv i) with
      | none => .solver .zeroDivision
      | some k => .done s k

/-- graph_classes.py, the entries of `dcm` -/
def chkDCM (d : DData n) (m : Method) : Check (Fin 2 × Fin d.r) where
  fn := match m with
    | .newton | .quasinewton => fun x => (loglikelihood_prime_dcm x d.ko d.ki (DCM.nonzero d.ko) (DCM.nonzero d.ki) d.c).map fun f q => -f q
    | .fixed_point => fun x => iterative_dcm x d.ko d.ki d.c
  jac := fun x => (loglikelihood_hessian_dcm x d.ko d.ki (DCM.nonzero d.ko) (DCM.nonzero d.ki) d.c).map negM
  jacDiag := fun x => (loglikelihood_hessian_diag_dcm x d.ko d.ki (DCM.nonzero d.ko) (DCM.nonzero d.ki) d.c).map fun f q => -f q

/-- `solve_tool("dcm", method=...)`: guess, solver, expected degrees -/
def runDCM (e : Env) (d : DData n) (m : Method) (guess : DGuess n) (p : Params) : Outcome (State (Fin 2 × Fin d.r)) ((Fin n → ℝ) × (Fin n → ℝ)) :=
  match guessDCM e d false guess with
  | .error er => .guess er
  | .ok x0 =>
    match solverE (cbDCM e d m) (chkDCM d m) (p.opts m.name) x0 with
    | .error er => .solver er
    | .ok s =>
      let sol : DCM.Vec n := cat2 (fun i => s.x (0, d.inv i)) fun i => s.x (1, d.inv i)
      match expected_out_degree_dcm sol, expected_in_degree_dcm sol with
      | some o, some i => .done s (o, i)
      | _, _ => .solver .zeroDivision

/-- graph_classes.py:599-786, the entries of `ecm` -/
def chkECM (d : UData n) (m : Method) : Check (Fin 2 × Fin n) where
  fn := match m with
    | .newton | .quasinewton => fun x => (loglikelihood_prime_ecm x d.deg d.strength_sequence).map fun f q => -f q
    | .fixed_point => fun x => iterative_ecm x d.deg d.strength_sequence
  jac := fun x => (loglikelihood_hessian_ecm x d.deg d.strength_sequence).map negM
  jacDiag := fun x => (loglikelihood_hessian_diag_ecm x d.deg d.strength_sequence).map fun f q => -f q

/-- `solve_tool("ecm", method=...)`: guess, solver, expected degrees and strengths (graph_classes.py:462-597).  The line searches
are those of `Model/Solve`. -/
def runECM (e : Env) (d : UData n) (m : Method) (guess : Guess n) (p : Params) : Outcome (State (Fin 2 × Fin n)) (ECM.Vec n) :=
  match (guessECM e d false guess).1 with
  | .error er => .guess er
  | .ok (x, y) =>
    match solverE (cbECM e d m) (chkECM d m) (p.opts m.name) (cat2 x y) with
    | .error er => .solver er
    | .ok s =>
      match expected_ecm s.x with
      | none => .solver .zeroDivision
      | some k => .done s k

end

end Verif.Checked
