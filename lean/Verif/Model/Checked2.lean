import Verif.Model.Checked

/-!
Divisions by zero in CReMa: the functions of `Model/CReMa` that work on a list of links (`crema`), with every scalar division checked as in `Model/Checked`.  The sparse
variants (`crema-sparse`) divide arrays, or are kept away from 0 by `np.exp(-100)`, and do not raise.
-/

set_option linter.unusedSectionVars false

namespace Verif.Checked

open Verif Finset Verif.Solver Verif.Solve Verif.CReMa Verif.DCReMa

noncomputable section

open Classical in
attribute [local instance 0] propDecidable

variable {n : ℕ}

section undirected
variable (β s : Fin n → ℝ) (adj : Edges n)

/-- models_functions.py:1183-1208 `iterative_crema_undirected` -/
def iterative_crema_undirected : Option (Fin n → ℝ) := do
  let f : Fin n → ℝ := fun _ => 0
  let f ← forLE adj (fun e f => do
    let i := e.1; let j := e.2.1; let w := e.2.2
    let f := subAt f i (← divE w (1 + (← divE (β j) (β i))))
    return subAt f j (← divE w (1 + (← divE (β i) (β j))))) f
  forE n (fun i f => if s i ≠ 0 then do return setAt f i (← divE (f i) (s i)) else return f) f

/-- models_functions.py:1328-1355 `loglikelihood_prime_crema_undirected` -/
def loglikelihood_prime_crema_undirected : Option (Fin n → ℝ) :=
  let f : Fin n → ℝ := fun _ => 0
  let f := forR n (fun i f => subAt f i (s i)) f
  forLE adj (fun e f => do
    let i := e.1; let j := e.2.1; let w := e.2.2
    let aux := β i + β j
    let f := addAt f i (← divE w aux)
    return addAt f j (← divE w aux)) f

/-- models_functions.py:1417-1444 `loglikelihood_hessian_crema_undirected` -/
def loglikelihood_hessian_crema_undirected : Option (Fin n → Fin n → ℝ) :=
  forLE adj (fun e f => do
    let i := e.1; let j := e.2.1; let w := e.2.2
    let aux ← divE (-w) ((β i + β j) ^ 2)
    let f := setAt2 f i j aux
    let f := setAt2 f j i aux
    let f := addAt2 f i i aux
    return addAt2 f j j aux) (fun _ _ => 0)

/-- models_functions.py:1447-1471 `loglikelihood_hessian_diag_crema_undirected` -/
def loglikelihood_hessian_diag_crema_undirected : Option (Fin n → ℝ) :=
  forLE adj (fun e f => do
    let i := e.1; let j := e.2.1; let w := e.2.2
    let aux ← divE w ((β i + β j) ^ 2)
    let f := subAt f i aux
    return subAt f j aux) (fun _ => 0)

/-- models_functions.py:1608-1628 `expected_strength_crema_undirected` -/
def expected_strength_crema_undirected : Option (Fin n → ℝ) :=
  forLE adj (fun e ex_s => do
    let i := e.1; let j := e.2.1; let w := e.2.2
    let aux ← divE w (β i + β j)
    let ex_s := addAt ex_s i aux
    return addAt ex_s j aux) (fun _ => 0)

end undirected

section directed
variable (β : Fin 2 × Fin n → ℝ) (s_out s_in : Fin n → ℝ) (adj : Edges n) (no ni : List (Fin n))

/-- models_functions.py:3821-3861 `iterative_crema_directed` -/
def iterative_crema_directed : Option (Fin 2 × Fin n → ℝ) := do
  let st ← forLE adj (fun e (st : (Fin n → ℝ) × (Fin n → ℝ)) => do
    let i := e.1; let j := e.2.1; let w := e.2.2
    let xd := subAt st.1 i (← divE w (1 + (← divE (β (1, j)) (β (0, i)))))
    return (xd, subAt st.2 j (← divE w (1 + (← divE (β (0, i)) (β (1, j))))))) (fun _ => 0, fun _ => 0)
  let xd ← forLE no (fun i xd => do return setAt xd i (← divE (xd i) (s_out i))) st.1
  let yd ← forLE ni (fun i yd => do return setAt yd i (← divE (yd i) (s_in i))) st.2
  return cat xd yd

/-- models_functions.py:4058-4099 `loglikelihood_prime_crema_directed` -/
def loglikelihood_prime_crema_directed : Option (Fin 2 × Fin n → ℝ) := do
  let fo := forL no (fun i f => subAt f i (s_out i)) (fun _ => 0)
  let fi := forL ni (fun i f => subAt f i (s_in i)) (fun _ => 0)
  let st ← forLE adj (fun e (st : (Fin n → ℝ) × (Fin n → ℝ)) => do
    let i := e.1; let j := e.2.1; let w := e.2.2
    let fo := addAt st.1 i (← divE w (β (0, i) + β (1, j)))
    return (fo, addAt st.2 j (← divE w (β (0, i) + β (1, j))))) (fo, fi)
  return cat st.1 st.2

/-- models_functions.py:4205-4243 `loglikelihood_hessian_crema_directed` -/
def loglikelihood_hessian_crema_directed : Option (Fin 2 × Fin n → Fin 2 × Fin n → ℝ) :=
  forLE adj (fun e f => do
    let i := e.1; let j := e.2.1; let w := e.2.2
    let aux ← divE w ((β (0, i) + β (1, j)) ^ 2)
    let f := addAt2 f (0, i) (0, i) (-aux)
    let f := setAt2 f (0, i) (1, j) (-aux)
    let f := setAt2 f (1, j) (0, i) (-aux)
    return addAt2 f (1, j) (1, j) (-aux)) (fun _ _ => 0)

/-- models_functions.py:4247-4282 `loglikelihood_hessian_diag_crema_directed` -/
def loglikelihood_hessian_diag_crema_directed : Option (Fin 2 × Fin n → ℝ) :=
  forLE adj (fun e f => do
    let i := e.1; let j := e.2.1; let w := e.2.2
    let f := subAt f (0, i) (← divE w ((β (0, i) + β (1, j)) ^ 2))
    return subAt f (1, j) (← divE w ((β (0, i) + β (1, j)) ^ 2))) (fun _ => 0)

/-- models_functions.py:4382-4405 `expected_out_strength_crema_directed` -/
def expected_out_strength_crema_directed : Option (Fin n → ℝ) :=
  forLE adj (fun e s => do
    let i := e.1; let j := e.2.1; let w := e.2.2
    return addAt s i (← divE w (β (0, i) + β (1, j)))) (fun _ => 0)

/-- models_functions.py:4438-4461 `expected_in_strength_crema_directed` -/
def expected_in_strength_crema_directed : Option (Fin n → ℝ) :=
  forLE adj (fun e s => do
    let i := e.1; let j := e.2.1; let w := e.2.2
    return addAt s j (← divE w (β (0, i) + β (1, j)))) (fun _ => 0)

end directed

variable [NeZero n]

/-- graph_classes.py:599-786, the entries of `crema` -/
def chkCrema (d : UData n) (adj : Edges n) (m : Method) : Check (Fin n) where
  fn := match m with
    | .newton | .quasinewton => fun x => (loglikelihood_prime_crema_undirected x d.strength_sequence adj).map fun f q => -f q
    | .fixed_point => fun x => (iterative_crema_undirected x d.strength_sequence adj).map fun f q => -f q
  jac := fun x => (loglikelihood_hessian_crema_undirected x adj).map negM
  jacDiag := fun x => (loglikelihood_hessian_diag_crema_undirected x adj).map fun f q => -f q

/-- the weighted half of `solve_tool("crema", method=...)` on the list of links `adj`: guess, solver, expected strengths (graph_classes.py:434-460, 512-597, 788-871) -/
def runCrema (e : Env) (d : UData n) (adj : Edges n) (m : Method) (guess : Guess n) (p : Params) : Outcome (State (Fin n)) (Fin n → ℝ) :=
  match (guessCrema e d guess).1 with
  | .error er => .guess er
  | .ok b =>
    match solverE (cbCrema e d adj m) (chkCrema d adj m) (p.opts m.name) b with
    | .error er => .solver er
    | .ok s =>
      match expected_strength_crema_undirected s.x adj with
      | none => .solver .zeroDivision
      | some k => .done s k

/-- graph_classes.py, the entries of the directed `crema` -/
def chkDCrema (d : DData n) (adj : Edges n) (m : Method) : Check (Fin 2 × Fin n) where
  fn := match m with
    | .newton | .quasinewton => fun x =>
      (loglikelihood_prime_crema_directed x d.out_strength d.in_strength adj (DCM.nonzero d.out_strength) (DCM.nonzero d.in_strength)).map fun f q => -f q
    | .fixed_point => fun x =>
      (iterative_crema_directed x d.out_strength d.in_strength adj (DCM.nonzero d.out_strength) (DCM.nonzero d.in_strength)).map fun f q => -f q
  jac := fun x => (loglikelihood_hessian_crema_directed x adj).map negM
  jacDiag := fun x => (loglikelihood_hessian_diag_crema_directed x adj).map fun f q => -f q

/-- the weighted half of the directed `solve_tool("crema", method=...)` on the list of links `adj` -/
def runDCrema (e : Env) (d : DData n) (adj : Edges n) (m : Method) (guess : DGuess n) (p : Params) : Outcome (State (Fin 2 × Fin n)) ((Fin n → ℝ) × (Fin n → ℝ)) :=
  match (guessDCrema e d guess).1 with
  | .error er => .guess er
  | .ok (bo, bi) =>
    match solverE (cbDCrema e d adj m) (chkDCrema d adj m) (p.opts m.name) (cat2 bo bi) with
    | .error er => .solver er
    | .ok s =>
      match expected_out_strength_crema_directed s.x adj, expected_in_strength_crema_directed s.x adj with
      | some o, some i => .done s (o, i)
      | _, _ => .solver .zeroDivision

end

end Verif.Checked
