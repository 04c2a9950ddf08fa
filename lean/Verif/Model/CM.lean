import Verif.Base
import Mathlib.Analysis.SpecialFunctions.Log.Basic

/-!
Model of the UBCM functions (`cm` and `cm_exp`) of `/repo/src/NEMtropy/models_functions.py`.

`args = (k, c)`: `k` the (reduced) degree sequence, `c` the multiplicities.
All arrays are `Fin n → ℝ`, floats are reals.
-/

namespace Verif.CM

open Verif

variable {n : ℕ}

/-- models_functions.py 12-35, `iterative_cm`.  `if fx:` is `fx ≠ 0`; otherwise `f[i]` keeps the
initial value 0. -/
noncomputable def iterative_cm (x k c : Fin n → ℝ) : Fin n → ℝ :=
  forR n (fun i f =>
    let fx := forR n (fun j fx =>
      if i = j then fx + (c j - 1) * (x j / (1 + x j * x i))
      else fx + c j * (x j / (1 + x j * x i))) (0 : ℝ)
    if fx ≠ 0 then setAt f i (k i / fx) else f) (fun _ => 0)

/-- models_functions.py 39-61, `loglikelihood_cm`. -/
noncomputable def loglikelihood_cm (x k c : Fin n → ℝ) : ℝ :=
  forR n (fun i f =>
    let f := f + c i * k i * Real.log (x i)
    forR n (fun j f =>
      if i = j then f - (c i * (c i - 1) * Real.log (1 + (x i) ^ 2)) / 2
      else f - (c i * c j * Real.log (1 + x i * x j)) / 2) f) 0

/-- models_functions.py 65-87, `loglikelihood_prime_cm`. -/
noncomputable def loglikelihood_prime_cm (x k c : Fin n → ℝ) : Fin n → ℝ :=
  forR n (fun i f =>
    let f := addAt f i (c i * k i / x i)
    forR n (fun j f =>
      if i = j then subAt f i (c i * (c j - 1) * (x j / (1 + (x j) ^ 2)))
      else subAt f i (c i * c j * (x j / (1 + x i * x j)))) f) (fun _ => 0)

/-- models_functions.py 91-124, `loglikelihood_hessian_cm`.  The inner range is
`np.arange(i, n)`: iterations with `j < i` do nothing. -/
noncomputable def loglikelihood_hessian_cm (x k c : Fin n → ℝ) : Fin n → Fin n → ℝ :=
  forR n (fun i f =>
    forR n (fun j f =>
      if i ≤ j then
        let aux_f :=
          if i = j then
            forR n (fun h aux_f =>
              if i = h then
                let aux := 1 + x h * x h
                aux_f + ((x h * x h) / (aux * aux)) * c i * (c h - 1)
              else
                let aux := 1 + x i * x h
                aux_f + ((x h * x h) / (aux * aux)) * c i * c h) (-k i / (x i * x i) * c i)
          else
            let aux := 1 + x i * x j
            ((x j * x j - aux) / (aux * aux)) * c i * c j
        setAt2 (setAt2 f i j aux_f) j i aux_f
      else f) f) (fun _ _ => 0)

/-- models_functions.py 128-153, `loglikelihood_hessian_diag_cm`. -/
noncomputable def loglikelihood_hessian_diag_cm (x k c : Fin n → ℝ) : Fin n → ℝ :=
  forR n (fun i f =>
    let f := subAt f i (k i / (x i * x i) * c i)
    forR n (fun j f =>
      if i = j then
        let aux := 1 + x j * x j
        addAt f i (((x j * x j) / (aux * aux)) * c i * (c j - 1))
      else
        let aux := 1 + x i * x j
        addAt f i (((x j * x j) / (aux * aux)) * c i * c j)) f) (fun _ => 0)

/-- models_functions.py 156-174, `pmatrix_cm` (`args[0] = n = len(x)`).  The inner range is
`np.arange(i + 1, n)`: iterations with `j ≤ i` do nothing. -/
noncomputable def pmatrix_cm (x : Fin n → ℝ) : Fin n → Fin n → ℝ :=
  forR n (fun i f =>
    forR n (fun j f =>
      if i < j then
        let aux := x i * x j
        let aux1 := aux / (1 + aux)
        setAt2 (setAt2 f i j aux1) j i aux1
      else f) f) (fun _ _ => 0)

/-- models_functions.py 262-278, `expected_degree_cm`. -/
noncomputable def expected_degree_cm (sol : Fin n → ℝ) : Fin n → ℝ :=
  forR n (fun i ex_k =>
    forR n (fun j ex_k =>
      if i ≠ j then
        let aux := sol i * sol j
        addAt ex_k i (aux / (1 + aux))
      else ex_k) ex_k) (fun _ => 0)

/-- models_functions.py 285-311, `iterative_cm_exp`. -/
noncomputable def iterative_cm_exp (x k c : Fin n → ℝ) : Fin n → ℝ :=
  let x1 := fun i => Real.exp (-x i)
  forR n (fun i f =>
    let fx := forR n (fun j fx =>
      if i = j then fx + (c j - 1) * (x1 j / (1 + x1 j * x1 i))
      else fx + c j * (x1 j / (1 + x1 j * x1 i))) (0 : ℝ)
    if fx ≠ 0 then setAt f i (-Real.log (k i / fx)) else f) (fun _ => 0)

/-- models_functions.py 315-339, `loglikelihood_cm_exp`. -/
noncomputable def loglikelihood_cm_exp (x k c : Fin n → ℝ) : ℝ :=
  let x1 := fun i => Real.exp (-x i)
  forR n (fun i f =>
    let f := f - c i * k i * x i
    forR n (fun j f =>
      if i = j then f - (c i * (c i - 1) * Real.log (1 + (x1 i) ^ 2)) / 2
      else f - (c i * c j * Real.log (1 + x1 i * x1 j)) / 2) f) 0

/-- models_functions.py 343-369, `loglikelihood_prime_cm_exp`. -/
noncomputable def loglikelihood_prime_cm_exp (x k c : Fin n → ℝ) : Fin n → ℝ :=
  let x1 := fun i => Real.exp (-x i)
  forR n (fun i f =>
    let f := subAt f i (c i * k i)
    forR n (fun j f =>
      if i = j then
        let aux := x1 i ^ 2
        addAt f i (c i * (c i - 1) * (aux / (1 + aux)))
      else
        let aux := x1 i * x1 j
        addAt f i (c i * c j * (aux / (1 + aux)))) f) (fun _ => 0)

/-- models_functions.py 373-407, `loglikelihood_hessian_cm_exp` (`np.arange(i, n)` as above). -/
noncomputable def loglikelihood_hessian_cm_exp (x _k c : Fin n → ℝ) : Fin n → Fin n → ℝ :=
  let x1 := fun i => Real.exp (-x i)
  forR n (fun i f =>
    forR n (fun j f =>
      if i ≤ j then
        let aux_f :=
          if i = j then
            forR n (fun h aux_f =>
              if i = h then
                let aux := x1 h ^ 2
                aux_f - (aux / (1 + aux) ^ 2) * c i * (c h - 1)
              else
                let aux := x1 i * x1 h
                aux_f - (aux / (1 + aux) ^ 2) * c i * c h) 0
          else
            let aux := x1 i * x1 j;
            (-(aux / (1 + aux) ^ 2) * c i * c j)
        setAt2 (setAt2 f i j aux_f) j i aux_f
      else f) f) (fun _ _ => 0)

/-- models_functions.py 411-437, `loglikelihood_hessian_diag_cm_exp`. -/
noncomputable def loglikelihood_hessian_diag_cm_exp (x _k c : Fin n → ℝ) : Fin n → ℝ :=
  let x1 := fun i => Real.exp (-x i)
  forR n (fun i f =>
    forR n (fun j f =>
      if i = j then
        let aux := x1 j ^ 2
        subAt f i ((aux / (1 + aux)) * c i * (c j - 1))
      else
        let aux := x1 i * x1 j
        subAt f i ((aux / (1 + aux)) * c i * c j)) f) (fun _ => 0)

end Verif.CM
