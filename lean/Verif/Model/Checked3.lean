import Verif.Model.Checked

/-!
Divisions by zero in `decm`: the functions of `Model/DECM` with every scalar division checked, as in `Model/Checked`.
Several accumulators updated in one Python loop are computed by one loop each; which division raises first is not modelled.
-/

set_option linter.unusedSectionVars false

namespace Verif.Checked

open Verif Finset Verif.Solver Verif.Solve

noncomputable section

open Classical in
attribute [local instance 0] propDecidable

variable {n : ℕ} {α : Type}

/-- `if c: <t> else: <e>`, where only `t` divides -/
def ifE (c : Prop) (t : Option α) (e : α) : Option α := if c then t else some e

section decm
variable (x : DECM.Vec n) (k_out k_in s_out s_in : Fin n → ℝ)

/-- the accumulator `fa_out` of `iterative_decm` and `loglikelihood_prime_decm` (models_functions.py 2096-2099, 2204-2207) -/
def fa_outE (i : Fin n) : Option ℝ :=
  forE n (fun j s => ifE (i ≠ j) (do
    let tmp := x (2, i) * x (3, j)
    return s + (← divE (x (1, j) * tmp) (1 - tmp + x (0, i) * x (1, j) * tmp))) s) (0 : ℝ)

/-- the accumulator `fa_in` (models_functions.py 2101-2102, 2208-2209) -/
def fa_inE (i : Fin n) : Option ℝ :=
  forE n (fun j s => ifE (i ≠ j) (do
    let tmp := x (2, j) * x (3, i)
    return s + (← divE (x (0, j) * tmp) (1 - tmp + x (0, j) * x (1, i) * tmp))) s) (0 : ℝ)

/-- the accumulator `fb_out` of `iterative_decm` (models_functions.py 2104-2108) -/
def fb_outE (i : Fin n) : Option ℝ :=
  forE n (fun j s => ifE (i ≠ j) (do
    let tmp := x (3, j) * x (2, i)
    let tmp0 := x (1, j) * x (0, i)
    return s + ((← divE (x (3, j)) (1 - tmp)) + (← divE ((tmp0 - 1) * x (3, j)) (1 - tmp + tmp0 * tmp)))) s) (0 : ℝ)

/-- the accumulator `fb_in` of `iterative_decm` (models_functions.py 2109-2113) -/
def fb_inE (i : Fin n) : Option ℝ :=
  forE n (fun j s => ifE (i ≠ j) (do
    let tmp := x (3, i) * x (2, j)
    let tmp0 := x (1, i) * x (0, j)
    return s + ((← divE (x (2, j)) (1 - tmp)) + (← divE ((tmp0 - 1) * x (2, j)) (1 - tmp + tmp0 * tmp)))) s) (0 : ℝ)

/-- models_functions.py 2069-2139, `iterative_decm` -/
def iterative_decm : Option (DECM.Vec n) :=
  forE n (fun i f => do
    let a ← fa_outE x i
    let b ← fa_inE x i
    let c ← fb_outE x i
    let d ← fb_inE x i
    let f ← ifE (k_out i ≠ 0) (do return setAt f (0, i) (← divE (k_out i) a)) (setAt f (0, i) 0)
    let f ← ifE (k_in i ≠ 0) (do return setAt f (1, i) (← divE (k_in i) b)) (setAt f (1, i) 0)
    let f ← ifE (s_out i ≠ 0) (do return setAt f (2, i) (← divE (s_out i) c)) (setAt f (2, i) 0)
    ifE (s_in i ≠ 0) (do return setAt f (3, i) (← divE (s_in i) d)) (setAt f (3, i) 0)) (fun _ => 0)

/-- the accumulator `fb_out` of `loglikelihood_prime_decm` (models_functions.py 2210-2216) -/
def fb_out_primeE (i : Fin n) : Option ℝ :=
  forE n (fun j s => ifE (i ≠ j) (
    let tmp := x (3, j) * x (2, i)
    ifE (x (0, i) ≠ 0) (do
      return s + ((← divE (x (3, j)) (1 - tmp)) + (← divE ((x (1, j) * x (0, i) - 1) * x (3, j)) (1 - tmp + x (0, i) * x (1, j) * tmp)))) (s + 0)) s) (0 : ℝ)

/-- the accumulator `fb_in` of `loglikelihood_prime_decm` (models_functions.py 2217-2220) -/
def fb_in_primeE (i : Fin n) : Option ℝ :=
  forE n (fun j s => ifE (i ≠ j) (do
    let tmp := x (3, i) * x (2, j)
    return s + ((← divE (x (2, j)) (1 - tmp)) + (← divE ((x (1, i) * x (0, j) - 1) * x (2, j)) (1 - tmp + x (0, j) * x (1, i) * tmp)))) s) (0 : ℝ)

/-- models_functions.py 2180-2238, `loglikelihood_prime_decm` -/
def loglikelihood_prime_decm : Option (DECM.Vec n) :=
  forE n (fun i f => do
    let a ← fa_outE x i
    let b ← fa_inE x i
    let c ← fb_out_primeE x i
    let d ← fb_in_primeE x i
    let f ← ifE (k_out i ≠ 0) (do return setAt f (0, i) ((← divE (k_out i) (x (0, i))) - a)) (setAt f (0, i) (-a))
    let f ← ifE (k_in i ≠ 0) (do return setAt f (1, i) ((← divE (k_in i) (x (1, i))) - b)) (setAt f (1, i) (-b))
    let f ← ifE (s_out i ≠ 0) (do return setAt f (2, i) ((← divE (s_out i) (x (2, i))) - c)) (setAt f (2, i) (-c))
    ifE (s_in i ≠ 0) (do return setAt f (3, i) ((← divE (s_in i) (x (3, i))) - d)) (setAt f (3, i) (-d))) (fun _ => 0)

/-- models_functions.py 2242-2308, `loglikelihood_hessian_diag_decm` -/
def loglikelihood_hessian_diag_decm : Option (DECM.Vec n) :=
  forE n (fun i f => do
    let fa_out ← forE n (fun j s => ifE (i ≠ j) (do
      let tmp0 := x (2, i) * x (3, j)
      let tmp ← divE (x (1, j) * tmp0) (1 - tmp0 + x (0, i) * x (1, j) * tmp0)
      return s + tmp * tmp) s) (0 : ℝ)
    let fa_in ← forE n (fun j s => ifE (i ≠ j) (do
      let tmp0 := x (2, j) * x (3, i)
      let tmp ← divE (x (0, j) * tmp0) (1 - tmp0 + x (0, j) * x (1, i) * tmp0)
      return s + tmp * tmp) s) (0 : ℝ)
    let fb_out ← forE n (fun j s => ifE (i ≠ j) (do
      let tmp0 := x (3, j) * x (2, i)
      let tmp1 ← divE (x (3, j)) (1 - tmp0)
      let tmp2 ← divE ((x (1, j) * x (0, i) - 1) * x (3, j)) (1 - tmp0 + x (0, i) * x (1, j) * tmp0)
      return s + (tmp1 * tmp1 - tmp2 * tmp2)) s) (0 : ℝ)
    let fb_in ← forE n (fun j s => ifE (i ≠ j) (do
      let tmp0 := x (3, i) * x (2, j)
      let tmp1 ← divE (x (2, j)) (1 - tmp0)
      let tmp2 ← divE ((x (1, i) * x (0, j) - 1) * x (2, j)) (1 - tmp0 + x (0, j) * x (1, i) * tmp0)
      return s + (tmp1 * tmp1 - tmp2 * tmp2)) s) (0 : ℝ)
    let f ← ifE (k_out i ≠ 0) (do return setAt f (0, i) ((← divE (-k_out i) (x (0, i) ^ 2)) + fa_out)) (setAt f (0, i) fa_out)
    let f ← ifE (k_in i ≠ 0) (do return setAt f (1, i) ((← divE (-k_in i) (x (1, i) ^ 2)) + fa_in)) (setAt f (1, i) fa_in)
    let f ← ifE (s_out i ≠ 0) (do return setAt f (2, i) ((← divE (-s_out i) (x (2, i) ^ 2)) - fb_out)) (setAt f (2, i) (-fb_out))
    ifE (s_in i ≠ 0) (do return setAt f (3, i) ((← divE (-s_in i) (x (3, i) ^ 2)) - fb_in)) (setAt f (3, i) fb_in)) (fun _ => 0)

/-- models_functions.py 2312-2552, the branch `if h == t` of the body of `loglikelihood_hessian_decm` -/
def hess_decm_diagE (h t : Fin n) (f : DECM.Mat n) : Option (DECM.Mat n) :=
  let a_out := fun i => x (0, i)
  let a_in := fun i => x (1, i)
  let b_out := fun i => x (2, i)
  let b_in := fun i => x (3, i)
  do
    let f ← ifE (k_in h ≠ 0) (do return setAt2 f (1, h) (1, t) (← divE (-k_in h) (a_in h ^ 2))) f
    let f ← ifE (k_out h ≠ 0) (do return setAt2 f (0, h) (0, t) (← divE (-k_out h) (a_out h ^ 2))) f
    let f ← ifE (s_in h ≠ 0) (do return setAt2 f (3, h) (3, t) (← divE (-s_in h) (b_in h ^ 2))) f
    let f ← ifE (s_out h ≠ 0) (do return setAt2 f (2, h) (2, t) (← divE (-s_out h) (b_out h ^ 2))) f
    forE n (fun j f => ifE (j ≠ h) (do
        let q ← divE (a_out j * b_in h * b_out j) (1 - b_in h * b_out j + a_in h * a_out j * b_in h * b_out j)
        let f := updAt2 f (1, h) (1, t) (fun v => v + q ^ 2)
        let q ← divE (a_out j * b_out j) ((1 - b_in h * b_out j + a_in h * a_out j * b_in h * b_out j) ^ 2)
        let f := updAt2 f (1, h) (3, t) (fun v => v - q)
        let q ← divE ((a_in j * b_in j * b_out h) ^ 2) ((1 - b_in j * b_out h + a_in j * a_out h * b_in j * b_out h) ^ 2)
        let f := updAt2 f (0, h) (0, t) (fun v => v + q)
        let q ← divE (a_in j * b_in j) ((1 - b_in j * b_out h + a_in j * a_out h * b_in j * b_out h) ^ 2)
        let f := updAt2 f (0, h) (2, t) (fun v => v - q)
        let q ← divE (a_out j * b_out j) ((1 - b_in h * b_out j + a_in h * a_out j * b_in h * b_out j) ^ 2)
        let f := updAt2 f (3, h) (1, t) (fun v => v - q)
        let q ← divE (b_out j) (1 - b_in h * b_out j)
        let q' ← divE (b_out j * (a_in h * a_out j - 1)) (1 - b_in h * b_out j + a_in h * a_out j * b_in h * b_out j)
        let f := updAt2 f (3, h) (3, t) (fun v => v - q ^ 2 + q' ^ 2)
        let q ← divE (a_in j * b_in j) ((1 - b_in j * b_out h + a_in j * a_out h * b_in j * b_out h) ^ 2)
        let f := updAt2 f (2, h) (0, t) (fun v => v - q)
        let q ← divE (b_in j) (1 - b_in j * b_out h)
        let q' ← divE ((a_in j * a_out h - 1) * b_in j) (1 - b_in j * b_out h + a_in j * a_out h * b_in j * b_out h)
        return updAt2 f (2, h) (2, t) (fun v => v - q ^ 2 + q' ^ 2)) f) f

/-- models_functions.py 2312-2552, the branch `else` of the body of `loglikelihood_hessian_decm` -/
def hess_decm_offE (h t : Fin n) (f : DECM.Mat n) : Option (DECM.Mat n) :=
  let a_out := fun i => x (0, i)
  let a_in := fun i => x (1, i)
  let b_out := fun i => x (2, i)
  let b_in := fun i => x (3, i)
  do
    let q ← divE (-b_in h * b_out t * (1 - b_in h * b_out t)) ((1 - b_in h * b_out t + a_in h * a_out t * b_in h * b_out t) ^ 2)
    let f := setAt2 f (1, h) (0, t) q
    let q ← divE (-a_out t * b_in h) ((1 - b_in h * b_out t + a_in h * a_out t * b_in h * b_out t) ^ 2)
    let f := setAt2 f (1, h) (2, t) q
    let q ← divE (-b_in t * b_out h * (1 - b_in t * b_out h)) ((1 - b_in t * b_out h + a_in t * a_out h * b_in t * b_out h) ^ 2)
    let f := setAt2 f (0, h) (1, t) q
    let q ← divE (-a_in t * b_out h) ((1 - b_in t * b_out h + a_in t * a_out h * b_in t * b_out h) ^ 2)
    let f := setAt2 f (0, h) (3, t) q
    let q ← divE (-a_in h * b_out t) ((1 - b_in h * b_out t + a_in h * a_out t * b_in h * b_out t) ^ 2)
    let f := setAt2 f (3, h) (0, t) q
    let q ← divE (-1) ((1 - b_in h * b_out t) ^ 2)
    let q' ← divE (a_out t * a_in h - 1) ((1 - b_in h * b_out t + a_in h * a_out t * b_in h * b_out t) ^ 2)
    let f := setAt2 f (3, h) (2, t) (q - q')
    let q ← divE (-a_out h * b_in t) ((1 - b_in t * b_out h + a_in t * a_out h * b_in t * b_out h) ^ 2)
    let f := setAt2 f (2, h) (1, t) q
    let q ← divE (-1) ((1 - b_in t * b_out h) ^ 2)
    let q' ← divE (a_in t * a_out h - 1) ((1 - b_in t * b_out h + a_in t * a_out h * b_in t * b_out h) ^ 2)
    return setAt2 f (2, h) (3, t) (q - q')

/-- models_functions.py 2312-2552, `loglikelihood_hessian_decm` -/
def loglikelihood_hessian_decm : Option (DECM.Mat n) :=
  forE n (fun h f => forE n (fun t f =>
    if h = t then hess_decm_diagE x k_out k_in s_out s_in h t f else hess_decm_offE x h t f) f) (fun _ _ => 0)

/-- models_functions.py 2668-2740, `expected_decm` -/
def expected_decm : Option (DECM.Vec n) :=
  forE n (fun i f => do
    let fa_out ← forE n (fun j s => ifE (i ≠ j) (do
      return s + (← divE (x (1, j) * x (2, i) * x (3, j)) (1 - x (2, i) * x (3, j) + x (0, i) * x (1, j) * x (2, i) * x (3, j)))) s) (0 : ℝ)
    let fa_in ← forE n (fun j s => ifE (i ≠ j) (do
      return s + (← divE (x (0, j) * x (2, j) * x (3, i)) (1 - x (2, j) * x (3, i) + x (0, j) * x (1, i) * x (2, j) * x (3, i)))) s) (0 : ℝ)
    let fb_out ← forE n (fun j s => ifE (i ≠ j) (do
      return s + ((← divE (x (3, j)) (1 - x (3, j) * x (2, i))) +
        (← divE ((x (1, j) * x (0, i) - 1) * x (3, j)) (1 - x (2, i) * x (3, j) + x (0, i) * x (1, j) * x (2, i) * x (3, j))))) s) (0 : ℝ)
    let fb_in ← forE n (fun j s => ifE (i ≠ j) (do
      return s + ((← divE (x (2, j)) (1 - x (3, i) * x (2, j))) +
        (← divE ((x (1, i) * x (0, j) - 1) * x (2, j)) (1 - x (2, j) * x (3, i) + x (0, j) * x (1, i) * x (2, j) * x (3, i))))) s) (0 : ℝ)
    let f := setAt f (0, i) (x (0, i) * fa_out)
    let f := setAt f (1, i) (x (1, i) * fa_in)
    let f := setAt f (2, i) (x (2, i) * fb_out)
    return setAt f (3, i) (x (3, i) * fb_in)) (fun _ => 0)

end decm

/-- graph_classes.py:2024-2265, the entries of `decm` -/
def chkDECM (d : DData n) (m : Method) : Check (Fin 4 × Fin n) where
  fn := match m with
    | .newton | .quasinewton => fun x => (loglikelihood_prime_decm x d.degOut d.degIn d.out_strength d.in_strength).map fun f q => -f q
    | .fixed_point => fun x => iterative_decm x d.degOut d.degIn d.out_strength d.in_strength
  jac := fun x => (loglikelihood_hessian_decm x d.degOut d.degIn d.out_strength d.in_strength).map negM
  jacDiag := fun x => (loglikelihood_hessian_diag_decm x d.degOut d.degIn d.out_strength d.in_strength).map fun f q => -f q

/-- `solve_tool("decm", method=...)`: guess, solver, expected degrees and strengths.  The line searches are those of `Model/SolveD` (they divide
arrays and take logarithms, which do not raise). -/
def runDECM (e : Env) (d : DData n) [NeZero n] (m : Method) (guess : DGuess n) (p : Params) : Outcome (State (Fin 4 × Fin n)) (DECM.Vec n) :=
  match (guessDECM e d false guess).1 with
  | .error er => .guess er
  | .ok v =>
    match solverE (cbDECM e d m) (chkDECM d m) (p.opts m.name) v with
    | .error er => .solver er
    | .ok s =>
      match expected_decm s.x with
      | none => .solver .zeroDivision
      | some k => .done s k

end

end Verif.Checked
