import Verif.Base
import Mathlib.Analysis.SpecialFunctions.Log.Basic

/-!
Model of the UECM functions (`ecm` and `ecm_exp`) of `/repo/src/NEMtropy/models_functions.py`.

`args = (k, s)`: degree and strength sequences.  `sol` has length `2n`: position `(0,i)` is `sol[i]`
(`x`), position `(1,i)` is `sol[i+n]` (`y`).
-/

namespace Verif.ECM

open Verif

variable {n : ℕ}

/-- parameter vectors of length `2n` -/
abbrev Vec (n : ℕ) := Fin 2 × Fin n → ℝ

/-- models_functions.py 519-555, `iterative_ecm`. -/
noncomputable def iterative_ecm (sol : Vec n) (k s : Fin n → ℝ) : Vec n :=
  let x := fun i => sol (0, i)
  let y := fun i => sol (1, i)
  forR n (fun i f =>
    let fx := forR n (fun j fx =>
      if i ≠ j then
        let aux1 := x i * x j
        let aux2 := y i * y j
        fx + (x j * aux2) / (1 - aux2 + aux1 * aux2)
      else fx) (0 : ℝ)
    let fy := forR n (fun j fy =>
      if i ≠ j then
        let aux1 := x i * x j
        let aux2 := y i * y j
        fy + (aux1 * y j) / ((1 - aux2) * (1 - aux2 + aux1 * aux2))
      else fy) (0 : ℝ)
    let f := if fx ≠ 0 then setAt f (0, i) (k i / fx) else setAt f (0, i) 0
    if fy ≠ 0 then setAt f (1, i) (s i / fy) else setAt f (1, i) 0) (fun _ => 0)

/-- models_functions.py 559-583, `loglikelihood_ecm`.  Inner range `np.arange(0, i)`. -/
noncomputable def loglikelihood_ecm (sol : Vec n) (k s : Fin n → ℝ) : ℝ :=
  let x := fun i => sol (0, i)
  let y := fun i => sol (1, i)
  forR n (fun i f =>
    let f := f + (k i * Real.log (x i) + s i * Real.log (y i))
    forR n (fun j f =>
      if j < i then
        let aux := y i * y j
        f + Real.log ((1 - aux) / (1 - aux + x i * x j * aux))
      else f) f) 0

/-- models_functions.py 587-617, `loglikelihood_prime_ecm`. -/
noncomputable def loglikelihood_prime_ecm (sol : Vec n) (k s : Fin n → ℝ) : Vec n :=
  let x := fun i => sol (0, i)
  let y := fun i => sol (1, i)
  forR n (fun i f =>
    let f := addAt f (0, i) (k i / x i)
    let f := addAt f (1, i) (s i / y i)
    forR n (fun j f =>
      if i ≠ j then
        let aux1 := x i * x j
        let aux2 := y i * y j
        let f := subAt f (0, i) ((x j * aux2) / (1 - aux2 + aux1 * aux2))
        subAt f (1, i) ((aux1 * y j) / ((1 - aux2) * (1 - aux2 + aux1 * aux2)))
      else f) f) (fun _ => 0)

/-- models_functions.py 621-692, `loglikelihood_hessian_ecm`.  The three accumulators `f1, f2, f3` of the
loop over `h` are computed by three loops. -/
noncomputable def loglikelihood_hessian_ecm (sol : Vec n) (k s : Fin n → ℝ) :
    Fin 2 × Fin n → Fin 2 × Fin n → ℝ :=
  let x := fun i => sol (0, i)
  let y := fun i => sol (1, i)
  forR n (fun i f =>
    forR n (fun j f =>
      if i ≤ j then
        if i = j then
          let f1 := forR n (fun h f1 =>
            if h ≠ i then
              let aux1 := x i * x h
              let aux2 := y i * y h
              let aux4 := (1 - aux2 + aux1 * aux2) ^ 2
              f1 + ((x h * aux2) ^ 2) / aux4
            else f1) (-k i / (x i ^ 2))
          let f2 := forR n (fun h f2 =>
            if h ≠ i then
              let aux1 := x i * x h
              let aux2 := y i * y h
              let aux3 := (1 - aux2) ^ 2
              let aux4 := (1 - aux2 + aux1 * aux2) ^ 2
              f2 + (aux1 * y h * (aux1 * y h * (1 - 2 * aux2) - 2 * y h * (1 - aux2))) / (aux3 * aux4)
            else f2) (-s i / (y i ^ 2))
          let f3 := forR n (fun h f3 =>
            if h ≠ i then
              let aux1 := x i * x h
              let aux2 := y i * y h
              let aux4 := (1 - aux2 + aux1 * aux2) ^ 2
              f3 - (x h * y h) / aux4
            else f3) 0
          let f := setAt2 f (0, i) (0, i) f1
          let f := setAt2 f (1, i) (1, i) f2
          let f := setAt2 f (1, i) (0, i) f3
          setAt2 f (0, i) (1, i) f3
        else
          let aux1 := x i * x j
          let aux2 := y i * y j
          let aux3 := (1 - aux2) ^ 2
          let aux4 := (1 - aux2 + aux1 * aux2) ^ 2
          let aux := -(aux2 * (1 - aux2)) / aux4
          let f := setAt2 f (0, i) (0, j) aux
          let f := setAt2 f (0, j) (0, i) aux
          let aux := -(x j * y i) / aux4
          let f := setAt2 f (0, i) (1, j) aux
          let f := setAt2 f (1, j) (0, i) aux
          let aux := -(aux1 * (1 - aux2 ^ 2 + aux1 * (aux2 ^ 2))) / (aux3 * aux4)
          let f := setAt2 f (1, i) (1, j) aux
          let f := setAt2 f (1, j) (1, i) aux
          let aux := -(x i * y j) / aux4
          let f := setAt2 f (1, i) (0, j) aux
          setAt2 f (0, j) (1, i) aux
      else f) f) (fun _ _ => 0)

/-- models_functions.py 696-732, `loglikelihood_hessian_diag_ecm`. -/
noncomputable def loglikelihood_hessian_diag_ecm (sol : Vec n) (k s : Fin n → ℝ) : Vec n :=
  let x := fun i => sol (0, i)
  let y := fun i => sol (1, i)
  forR n (fun i f =>
    let f := subAt f (0, i) (k i / (x i * x i))
    let f := subAt f (1, i) (s i / (y i * y i))
    forR n (fun j f =>
      if j ≠ i then
        let aux1 := x i * x j
        let aux2 := y i * y j
        let aux3 := (1 - aux2) ^ 2
        let aux4 := (1 - aux2 + aux1 * aux2) ^ 2
        let f := addAt f (0, i) (((x j * aux2) ^ 2) / aux4)
        addAt f (1, i) ((aux1 * y j * (aux1 * y j * (1 - 2 * aux2) - 2 * y j * (1 - aux2))) / (aux3 * aux4))
      else f) f) (fun _ => 0)

/-- models_functions.py 840-861, `expected_ecm`. -/
noncomputable def expected_ecm (sol : Vec n) : Vec n :=
  let x := fun i => sol (0, i)
  let y := fun i => sol (1, i)
  forR n (fun i ex_ks =>
    forR n (fun j ex_ks =>
      if i ≠ j then
        let aux1 := x i * x j
        let aux2 := y i * y j
        let ex_ks := addAt ex_ks (0, i) ((aux1 * aux2) / (1 - aux2 + aux1 * aux2))
        addAt ex_ks (1, i) ((aux1 * aux2) / ((1 - aux2 + aux1 * aux2) * (1 - aux2)))
      else ex_ks) ex_ks) (fun _ => 0)

/-- models_functions.py 868-905, `iterative_ecm_exp`. -/
noncomputable def iterative_ecm_exp (sol : Vec n) (k s : Fin n → ℝ) : Vec n :=
  let x := fun i => Real.exp (-sol (0, i))
  let y := fun i => Real.exp (-sol (1, i))
  forR n (fun i f =>
    let fx := forR n (fun j fx =>
      if i ≠ j then
        let aux1 := x i * x j
        let aux2 := y i * y j
        fx + (x j * aux2) / (1 - aux2 + aux1 * aux2)
      else fx) (0 : ℝ)
    let fy := forR n (fun j fy =>
      if i ≠ j then
        let aux1 := x i * x j
        let aux2 := y i * y j
        fy + (aux1 * y j) / ((1 - aux2) * (1 - aux2 + aux1 * aux2))
      else fy) (0 : ℝ)
    let f := if fx ≠ 0 then setAt f (0, i) (-Real.log (k i / fx)) else setAt f (0, i) 0
    if fy ≠ 0 then setAt f (1, i) (-Real.log (s i / fy)) else setAt f (1, i) 0) (fun _ => 0)

/-- models_functions.py 909-936, `loglikelihood_ecm_exp`. -/
noncomputable def loglikelihood_ecm_exp (sol : Vec n) (k s : Fin n → ℝ) : ℝ :=
  let x := fun i => Real.exp (-sol (0, i))
  let y := fun i => Real.exp (-sol (1, i))
  forR n (fun i f =>
    let f := f - (k i * (-Real.log (x i)) + s i * (-Real.log (y i)))
    forR n (fun j f =>
      if j < i then
        let aux1 := x i * x j
        let aux2 := y i * y j
        f - Real.log (1 + (aux1 * (aux2 / (1 - aux2))))
      else f) f) 0

/-- models_functions.py 940-972, `loglikelihood_prime_ecm_exp`. -/
noncomputable def loglikelihood_prime_ecm_exp (sol : Vec n) (k s : Fin n → ℝ) : Vec n :=
  let x := fun i => Real.exp (-sol (0, i))
  let y := fun i => Real.exp (-sol (1, i))
  forR n (fun i f =>
    let f := subAt f (0, i) (k i)
    let f := subAt f (1, i) (s i)
    forR n (fun j f =>
      if i ≠ j then
        let aux1 := x i * x j
        let aux2 := y i * y j
        let f := addAt f (0, i) ((aux1 * aux2) / (1 - aux2 + aux1 * aux2))
        addAt f (1, i) ((aux1 * aux2) / ((1 - aux2) * (1 - aux2 + aux1 * aux2)))
      else f) f) (fun _ => 0)

/-- models_functions.py 976-1041, `loglikelihood_hessian_ecm_exp`. -/
noncomputable def loglikelihood_hessian_ecm_exp (sol : Vec n) (_k : Fin n → ℝ) :
    Fin 2 × Fin n → Fin 2 × Fin n → ℝ :=
  let x := fun i => Real.exp (-sol (0, i))
  let y := fun i => Real.exp (-sol (1, i))
  forR n (fun i f =>
    forR n (fun j f =>
      if i ≤ j then
        if i = j then
          let f1 := forR n (fun h f1 =>
            if h ≠ i then
              let aux1 := x i * x h
              let aux2 := y i * y h
              let aux3 := aux1 * aux2
              f1 - (aux3 * (1 - aux2)) / ((1 - aux2 + aux3) ^ 2)
            else f1) 0
          let f2 := forR n (fun h f2 =>
            if h ≠ i then
              let aux1 := x i * x h
              let aux2 := y i * y h
              let aux3 := aux1 * aux2
              f2 - (aux3 * (1 - (aux2 ^ 2) + aux1 * (aux2 ^ 2))) / (((1 - aux2) ^ 2) * ((1 - aux2 + aux3) ^ 2))
            else f2) 0
          let f3 := forR n (fun h f3 =>
            if h ≠ i then
              let aux1 := x i * x h
              let aux2 := y i * y h
              let aux3 := aux1 * aux2
              f3 - aux3 / ((1 - aux2 + aux3) ^ 2)
            else f3) 0
          let f := setAt2 f (0, i) (0, i) f1
          let f := setAt2 f (1, i) (1, i) f2
          let f := setAt2 f (1, i) (0, i) f3
          setAt2 f (0, i) (1, i) f3
        else
          let aux1 := x i * x j
          let aux2 := y i * y j
          let aux3 := aux1 * aux2
          let aux4 := (1 - aux2 + aux3) ^ 2
          let aux := -aux3 * (1 - aux2) / aux4
          let f := setAt2 f (0, i) (0, j) aux
          let f := setAt2 f (0, j) (0, i) aux
          let aux := -aux3 / aux4
          let f := setAt2 f (0, i) (1, j) aux
          let f := setAt2 f (1, j) (0, i) aux
          let aux := -(aux3 * (1 - (aux2 ^ 2) + aux1 * (aux2 ^ 2))) / (((1 - aux2) ^ 2) * ((1 - aux2 + aux3) ^ 2))
          let f := setAt2 f (1, i) (1, j) aux
          let f := setAt2 f (1, j) (1, i) aux
          let aux := -aux3 / aux4
          let f := setAt2 f (1, i) (0, j) aux
          setAt2 f (0, j) (1, i) aux
      else f) f) (fun _ _ => 0)

/-- models_functions.py 1045-1077, `loglikelihood_hessian_diag_ecm_exp`. -/
noncomputable def loglikelihood_hessian_diag_ecm_exp (sol : Vec n) (_k : Fin n → ℝ) : Vec n :=
  let x := fun i => Real.exp (-sol (0, i))
  let y := fun i => Real.exp (-sol (1, i))
  forR n (fun i f =>
    forR n (fun j f =>
      if j ≠ i then
        let aux1 := x i * x j
        let aux2 := y i * y j
        let aux3 := aux1 * aux2
        let f := subAt f (0, i) ((aux3 * (1 - aux2)) / ((1 - aux2 + aux3) ^ 2))
        subAt f (1, i) ((aux1 * aux2 * (1 - (aux2 ^ 2) + aux1 * (aux2 ^ 2))) /
          (((1 - aux2) ^ 2) * ((1 - aux2 + aux3) ^ 2)))
      else f) f) (fun _ => 0)

end Verif.ECM
