import Verif.Base
import Mathlib.Analysis.SpecialFunctions.Log.Basic

/-!
Model of the DECM functions (`decm` and `decm_exp`) of `/repo/src/NEMtropy/models_functions.py`.

`args = (k_out, k_in, s_out, s_in)`.  Parameter vectors have length `4n`: position `(b,i)` is `x[i + b*n]`, i.e. block
0 = `a_out`, 1 = `a_in`, 2 = `b_out`, 3 = `b_in`.

`if k_out[i]:` is `k_out i ≠ 0`.  Several accumulators updated in one Python loop are computed by one loop each.
-/

namespace Verif.DECM

open Verif

variable {n : ℕ}

/-- parameter vectors of length `4n` -/
abbrev Vec (n : ℕ) := Fin 4 × Fin n → ℝ
/-- `4n × 4n` matrices -/
abbrev Mat (n : ℕ) := Fin 4 × Fin n → Fin 4 × Fin n → ℝ

/-- the accumulator `fa_out` of `iterative_decm` and `loglikelihood_prime_decm` (models_functions.py 2096-2099, 2204-2207) -/
noncomputable def fa_out (x : Vec n) (i : Fin n) : ℝ :=
  forR n (fun j s => if i ≠ j then
    let tmp := x (2, i) * x (3, j)
    s + x (1, j) * tmp / (1 - tmp + x (0, i) * x (1, j) * tmp) else s) 0

/-- the accumulator `fa_in` (models_functions.py 2101-2102, 2208-2209) -/
noncomputable def fa_in (x : Vec n) (i : Fin n) : ℝ :=
  forR n (fun j s => if i ≠ j then
    let tmp := x (2, j) * x (3, i)
    s + x (0, j) * tmp / (1 - tmp + x (0, j) * x (1, i) * tmp) else s) 0

/-- the accumulator `fb_out` of `iterative_decm` (models_functions.py 2104-2108) -/
noncomputable def fb_out (x : Vec n) (i : Fin n) : ℝ :=
  forR n (fun j s => if i ≠ j then
    let tmp := x (3, j) * x (2, i)
    let tmp0 := x (1, j) * x (0, i)
    s + (x (3, j) / (1 - tmp) + (tmp0 - 1) * x (3, j) / (1 - tmp + tmp0 * tmp)) else s) 0

/-- the accumulator `fb_in` of `iterative_decm` (models_functions.py 2109-2113) -/
noncomputable def fb_in (x : Vec n) (i : Fin n) : ℝ :=
  forR n (fun j s => if i ≠ j then
    let tmp := x (3, i) * x (2, j)
    let tmp0 := x (1, i) * x (0, j)
    s + (x (2, j) / (1 - tmp) + (tmp0 - 1) * x (2, j) / (1 - tmp + tmp0 * tmp)) else s) 0

/-- models_functions.py 2069-2139, `iterative_decm`. -/
noncomputable def iterative_decm (x : Vec n) (k_out k_in s_out s_in : Fin n → ℝ) : Vec n :=
  forR n (fun i f =>
    let f := if k_out i ≠ 0 then setAt f (0, i) (k_out i / fa_out x i) else setAt f (0, i) 0
    let f := if k_in i ≠ 0 then setAt f (1, i) (k_in i / fa_in x i) else setAt f (1, i) 0
    let f := if s_out i ≠ 0 then setAt f (2, i) (s_out i / fb_out x i) else setAt f (2, i) 0
    if s_in i ≠ 0 then setAt f (3, i) (s_in i / fb_in x i) else setAt f (3, i) 0) (fun _ => 0)

/-- models_functions.py 2143-2176, `loglikelihood_decm`. -/
noncomputable def loglikelihood_decm (x : Vec n) (k_out k_in s_out s_in : Fin n → ℝ) : ℝ :=
  forR n (fun i f =>
    let f := if k_out i ≠ 0 then f + k_out i * Real.log (x (0, i)) else f
    let f := if k_in i ≠ 0 then f + k_in i * Real.log (x (1, i)) else f
    let f := if s_out i ≠ 0 then f + s_out i * Real.log (x (2, i)) else f
    let f := if s_in i ≠ 0 then f + s_in i * Real.log (x (3, i)) else f
    forR n (fun j f =>
      if i ≠ j then
        let tmp := x (2, i) * x (3, j)
        let f := f + Real.log (1 - tmp)
        f - Real.log (1 - tmp + tmp * x (0, i) * x (1, j))
      else f) f) 0

/-- the accumulator `fb_out` of `loglikelihood_prime_decm` (models_functions.py 2210-2216) -/
noncomputable def fb_out_prime (x : Vec n) (i : Fin n) : ℝ :=
  forR n (fun j s => if i ≠ j then
    let tmp := x (3, j) * x (2, i)
    if x (0, i) ≠ 0 then
      s + (x (3, j) / (1 - tmp) + (x (1, j) * x (0, i) - 1) * x (3, j) / (1 - tmp + x (0, i) * x (1, j) * tmp))
    else s + 0 else s) 0

/-- the accumulator `fb_in` of `loglikelihood_prime_decm` (models_functions.py 2217-2220) -/
noncomputable def fb_in_prime (x : Vec n) (i : Fin n) : ℝ :=
  forR n (fun j s => if i ≠ j then
    let tmp := x (3, i) * x (2, j)
    s + (x (2, j) / (1 - tmp) + (x (1, i) * x (0, j) - 1) * x (2, j) / (1 - tmp + x (0, j) * x (1, i) * tmp)) else s) 0

/-- models_functions.py 2180-2238, `loglikelihood_prime_decm`. -/
noncomputable def loglikelihood_prime_decm (x : Vec n) (k_out k_in s_out s_in : Fin n → ℝ) : Vec n :=
  forR n (fun i f =>
    let f := if k_out i ≠ 0 then setAt f (0, i) (k_out i / x (0, i) - fa_out x i) else setAt f (0, i) (-fa_out x i)
    let f := if k_in i ≠ 0 then setAt f (1, i) (k_in i / x (1, i) - fa_in x i) else setAt f (1, i) (-fa_in x i)
    let f := if s_out i ≠ 0 then setAt f (2, i) (s_out i / x (2, i) - fb_out_prime x i) else setAt f (2, i) (-fb_out_prime x i)
    if s_in i ≠ 0 then setAt f (3, i) (s_in i / x (3, i) - fb_in_prime x i) else setAt f (3, i) (-fb_in_prime x i)) (fun _ => 0)

/-- models_functions.py 2242-2308, `loglikelihood_hessian_diag_decm`. -/
noncomputable def loglikelihood_hessian_diag_decm (x : Vec n) (k_out k_in s_out s_in : Fin n → ℝ) : Vec n :=
  forR n (fun i f =>
    let fa_out := forR n (fun j s => if i ≠ j then
      let tmp0 := x (2, i) * x (3, j)
      let tmp := (x (1, j) * tmp0) / (1 - tmp0 + x (0, i) * x (1, j) * tmp0)
      s + tmp * tmp else s) (0 : ℝ)
    let fa_in := forR n (fun j s => if i ≠ j then
      let tmp0 := x (2, j) * x (3, i)
      let tmp := (x (0, j) * tmp0) / (1 - tmp0 + x (0, j) * x (1, i) * tmp0)
      s + tmp * tmp else s) (0 : ℝ)
    let fb_out := forR n (fun j s => if i ≠ j then
      let tmp0 := x (3, j) * x (2, i)
      let tmp1 := x (3, j) / (1 - tmp0)
      let tmp2 := ((x (1, j) * x (0, i) - 1) * x (3, j)) / (1 - tmp0 + x (0, i) * x (1, j) * tmp0)
      s + (tmp1 * tmp1 - tmp2 * tmp2) else s) (0 : ℝ)
    let fb_in := forR n (fun j s => if i ≠ j then
      let tmp0 := x (3, i) * x (2, j)
      let tmp1 := x (2, j) / (1 - tmp0)
      let tmp2 := ((x (1, i) * x (0, j) - 1) * x (2, j)) / (1 - tmp0 + x (0, j) * x (1, i) * tmp0)
      s + (tmp1 * tmp1 - tmp2 * tmp2) else s) (0 : ℝ)
    let f := if k_out i ≠ 0 then setAt f (0, i) (-k_out i / x (0, i) ^ 2 + fa_out) else setAt f (0, i) fa_out
    let f := if k_in i ≠ 0 then setAt f (1, i) (-k_in i / x (1, i) ^ 2 + fa_in) else setAt f (1, i) fa_in
    let f := if s_out i ≠ 0 then setAt f (2, i) (-s_out i / x (2, i) ^ 2 - fb_out) else setAt f (2, i) (-fb_out)
    if s_in i ≠ 0 then setAt f (3, i) (-s_in i / x (3, i) ^ 2 - fb_in) else setAt f (3, i) fb_in) (fun _ => 0)

/-- models_functions.py 2312-2552, the branch `if h == t` of the body of `loglikelihood_hessian_decm` (writes block `(h,h)`). -/
noncomputable def hess_decm_diag (x : Vec n) (k_out k_in s_out s_in : Fin n → ℝ) (h t : Fin n) (f : Mat n) : Mat n :=
  let a_out := fun i => x (0, i)
  let a_in := fun i => x (1, i)
  let b_out := fun i => x (2, i)
  let b_in := fun i => x (3, i)
  let f := if k_in h ≠ 0 then setAt2 f (1, h) (1, t) (-k_in h / a_in h ^ 2) else f
  let f := if k_out h ≠ 0 then setAt2 f (0, h) (0, t) (-k_out h / a_out h ^ 2) else f
  let f := if s_in h ≠ 0 then setAt2 f (3, h) (3, t) (-s_in h / b_in h ^ 2) else f
  let f := if s_out h ≠ 0 then setAt2 f (2, h) (2, t) (-s_out h / b_out h ^ 2) else f
  forR n (fun j f =>
    if j ≠ h then
      let f := updAt2 f (1, h) (1, t) (fun v => v
        + (a_out j * b_in h * b_out j / (1 - b_in h * b_out j + a_in h * a_out j * b_in h * b_out j)) ^ 2)
      let f := updAt2 f (1, h) (3, t) (fun v => v
        - a_out j * b_out j / (1 - b_in h * b_out j + a_in h * a_out j * b_in h * b_out j) ^ 2)
      let f := updAt2 f (0, h) (0, t) (fun v => v
        + (a_in j * b_in j * b_out h) ^ 2 / (1 - b_in j * b_out h + a_in j * a_out h * b_in j * b_out h) ^ 2)
      let f := updAt2 f (0, h) (2, t) (fun v => v
        - a_in j * b_in j / (1 - b_in j * b_out h + a_in j * a_out h * b_in j * b_out h) ^ 2)
      let f := updAt2 f (3, h) (1, t) (fun v => v
        - a_out j * b_out j / (1 - b_in h * b_out j + a_in h * a_out j * b_in h * b_out j) ^ 2)
      let f := updAt2 f (3, h) (3, t) (fun v => v
        - (b_out j / (1 - b_in h * b_out j)) ^ 2
        + (b_out j * (a_in h * a_out j - 1) / (1 - b_in h * b_out j + a_in h * a_out j * b_in h * b_out j)) ^ 2)
      let f := updAt2 f (2, h) (0, t) (fun v => v
        - a_in j * b_in j / (1 - b_in j * b_out h + a_in j * a_out h * b_in j * b_out h) ^ 2)
      updAt2 f (2, h) (2, t) (fun v => v
        - (b_in j / (1 - b_in j * b_out h)) ^ 2
        + ((a_in j * a_out h - 1) * b_in j / (1 - b_in j * b_out h + a_in j * a_out h * b_in j * b_out h)) ^ 2)
    else f) f

/-- models_functions.py 2312-2552, the branch `else` of the body of `loglikelihood_hessian_decm` (writes block `(h,t)`). -/
noncomputable def hess_decm_off (x : Vec n) (h t : Fin n) (f : Mat n) : Mat n :=
  let a_out := fun i => x (0, i)
  let a_in := fun i => x (1, i)
  let b_out := fun i => x (2, i)
  let b_in := fun i => x (3, i)
  let f := setAt2 f (1, h) (0, t) (-b_in h * b_out t * (1 - b_in h * b_out t)
    / (1 - b_in h * b_out t + a_in h * a_out t * b_in h * b_out t) ^ 2)
  let f := setAt2 f (1, h) (2, t) (-a_out t * b_in h
    / (1 - b_in h * b_out t + a_in h * a_out t * b_in h * b_out t) ^ 2)
  let f := setAt2 f (0, h) (1, t) (-b_in t * b_out h * (1 - b_in t * b_out h)
    / (1 - b_in t * b_out h + a_in t * a_out h * b_in t * b_out h) ^ 2)
  let f := setAt2 f (0, h) (3, t) (-a_in t * b_out h
    / (1 - b_in t * b_out h + a_in t * a_out h * b_in t * b_out h) ^ 2)
  let f := setAt2 f (3, h) (0, t) (-a_in h * b_out t
    / (1 - b_in h * b_out t + a_in h * a_out t * b_in h * b_out t) ^ 2)
  let f := setAt2 f (3, h) (2, t) (-1 / (1 - b_in h * b_out t) ^ 2
    - (a_out t * a_in h - 1) / (1 - b_in h * b_out t + a_in h * a_out t * b_in h * b_out t) ^ 2)
  let f := setAt2 f (2, h) (1, t) (-a_out h * b_in t
    / (1 - b_in t * b_out h + a_in t * a_out h * b_in t * b_out h) ^ 2)
  setAt2 f (2, h) (3, t) (-1 / (1 - b_in t * b_out h) ^ 2
    - (a_in t * a_out h - 1) / (1 - b_in t * b_out h + a_in t * a_out h * b_in t * b_out h) ^ 2)

/-- models_functions.py 2312-2552, `loglikelihood_hessian_decm`. -/
noncomputable def loglikelihood_hessian_decm (x : Vec n) (k_out k_in s_out s_in : Fin n → ℝ) : Mat n :=
  forR n (fun h f => forR n (fun t f =>
    if h = t then hess_decm_diag x k_out k_in s_out s_in h t f else hess_decm_off x h t f) f) (fun _ _ => 0)

/-- models_functions.py 2668-2727, `expected_decm`. -/
noncomputable def expected_decm (x : Vec n) : Vec n :=
  forR n (fun i f =>
    let fa_out := forR n (fun j s => if i ≠ j then
      s + x (1, j) * x (2, i) * x (3, j) / (1 - x (2, i) * x (3, j) + x (0, i) * x (1, j) * x (2, i) * x (3, j)) else s) (0 : ℝ)
    let fa_in := forR n (fun j s => if i ≠ j then
      s + x (0, j) * x (2, j) * x (3, i) / (1 - x (2, j) * x (3, i) + x (0, j) * x (1, i) * x (2, j) * x (3, i)) else s) (0 : ℝ)
    let fb_out := forR n (fun j s => if i ≠ j then
      s + (x (3, j) / (1 - x (3, j) * x (2, i)) + (x (1, j) * x (0, i) - 1) * x (3, j)
        / (1 - x (2, i) * x (3, j) + x (0, i) * x (1, j) * x (2, i) * x (3, j))) else s) (0 : ℝ)
    let fb_in := forR n (fun j s => if i ≠ j then
      s + (x (2, j) / (1 - x (3, i) * x (2, j)) + (x (1, i) * x (0, j) - 1) * x (2, j)
        / (1 - x (2, j) * x (3, i) + x (0, j) * x (1, i) * x (2, j) * x (3, i))) else s) (0 : ℝ)
    let f := setAt f (0, i) (x (0, i) * fa_out)
    let f := setAt f (1, i) (x (1, i) * fa_in)
    let f := setAt f (2, i) (x (2, i) * fb_out)
    setAt f (3, i) (x (3, i) * fb_in)) (fun _ => 0)

/-- models_functions.py 3236-3308, `iterative_decm_exp`. -/
noncomputable def iterative_decm_exp (theta : Vec n) (k_out k_in s_out s_in : Fin n → ℝ) : Vec n :=
  let x : Vec n := fun v => Real.exp (-theta v)
  forR n (fun i f =>
    let fa_out := forR n (fun j s => if i ≠ j then
      let tmp0 := x (0, i) * x (1, j)
      let tmp1 := x (2, i) * x (3, j)
      s + x (1, j) * tmp1 / (1 - tmp1 + tmp0 * tmp1) else s) (0 : ℝ)
    let fb_out := forR n (fun j s => if i ≠ j then
      let tmp0 := x (0, i) * x (1, j)
      let tmp1 := x (2, i) * x (3, j)
      s + tmp0 * x (3, j) / ((1 - tmp1) * (1 - tmp1 + tmp0 * tmp1)) else s) (0 : ℝ)
    let fa_in := forR n (fun j s => if i ≠ j then
      let tmp0 := x (0, j) * x (1, i)
      let tmp1 := x (2, j) * x (3, i)
      s + x (1, j) * tmp1 / (1 - tmp1 + tmp0 * tmp1) else s) (0 : ℝ)
    let fb_in := forR n (fun j s => if i ≠ j then
      let tmp0 := x (0, j) * x (1, i)
      let tmp1 := x (2, j) * x (3, i)
      s + tmp0 * x (3, j) / ((1 - tmp1) * (1 - tmp1 + tmp0 * tmp1)) else s) (0 : ℝ)
    let f := if k_out i ≠ 0 then setAt f (0, i) (-Real.log (k_out i / fa_out)) else setAt f (0, i) 1000
    let f := if s_out i ≠ 0 then setAt f (2, i) (-Real.log (s_out i / fb_out)) else setAt f (2, i) 1000
    let f := if k_in i ≠ 0 then setAt f (1, i) (-Real.log (k_in i / fa_in)) else setAt f (1, i) 1000
    if s_in i ≠ 0 then setAt f (3, i) (-Real.log (s_in i / fb_in)) else setAt f (3, i) 1000) (fun _ => 0)

/-- models_functions.py 3370-3412, `loglikelihood_decm_exp`. -/
noncomputable def loglikelihood_decm_exp (x : Vec n) (k_out k_in s_out s_in : Fin n → ℝ) : ℝ :=
  forR n (fun i f =>
    let f := if k_out i ≠ 0 then f - k_out i * x (0, i) else f
    let f := if k_in i ≠ 0 then f - k_in i * x (1, i) else f
    let f := if s_out i ≠ 0 then f - s_out i * x (2, i) else f
    let f := if s_in i ≠ 0 then f - s_in i * x (3, i) else f
    forR n (fun j f =>
      if i ≠ j then
        let tmp := Real.exp (-x (2, i) - x (3, j))
        f - Real.log (1 + Real.exp (-x (0, i) - x (1, j)) * tmp / (1 - tmp))
      else f) f) 0

/-- models_functions.py 3416-3468, `loglikelihood_prime_decm_exp`. -/
noncomputable def loglikelihood_prime_decm_exp (theta : Vec n) (k_out k_in s_out s_in : Fin n → ℝ) : Vec n :=
  let x : Vec n := fun v => Real.exp (-theta v)
  forR n (fun i f =>
    let fa_out := forR n (fun j s => if i ≠ j then
      let tmp0 := x (2, i) * x (3, j)
      let tmp1 := x (0, i) * x (1, j)
      s + tmp0 * tmp1 / (1 - tmp0 + tmp0 * tmp1) else s) (0 : ℝ)
    let fb_out := forR n (fun j s => if i ≠ j then
      let tmp0 := x (2, i) * x (3, j)
      let tmp1 := x (0, i) * x (1, j)
      s + tmp0 * tmp1 / ((1 - tmp0 + tmp0 * tmp1) * (1 - tmp0)) else s) (0 : ℝ)
    let fa_in := forR n (fun j s => if i ≠ j then
      let tmp0 := x (2, j) * x (3, i)
      let tmp1 := x (0, j) * x (1, i)
      s + tmp0 * tmp1 / (1 - tmp0 + tmp0 * tmp1) else s) (0 : ℝ)
    let fb_in := forR n (fun j s => if i ≠ j then
      let tmp0 := x (2, j) * x (3, i)
      let tmp1 := x (0, j) * x (1, i)
      s + tmp0 * tmp1 / ((1 - tmp0 + tmp0 * tmp1) * (1 - tmp0)) else s) (0 : ℝ)
    let f := setAt f (0, i) (-k_out i + fa_out)
    let f := setAt f (2, i) (-s_out i + fb_out)
    let f := setAt f (1, i) (-k_in i + fa_in)
    setAt f (3, i) (-s_in i + fb_in)) (fun _ => 0)

/-- models_functions.py 3472-3567, the body `if j != i: ...` of the double loop of `loglikelihood_hessian_decm_exp`; `x = exp(-theta)`. -/
noncomputable def hess_decm_exp_body (x : Vec n) (i j : Fin n) (f : Mat n) : Mat n :=
  let a_out := fun i => x (0, i)
  let a_in := fun i => x (1, i)
  let b_out := fun i => x (2, i)
  let b_in := fun i => x (3, i)
  let tmp0 := a_out i * a_in j
  let tmp1 := b_out i * b_in j
  let f := updAt2 f (0, i) (0, i) (fun v => v - (1 - tmp1) * tmp0 * tmp1 / ((1 + (-1 + tmp0) * tmp1) ^ 2))
  let f := updAt2 f (2, i) (2, i) (fun v => v
    - tmp0 * tmp1 * (1 + (tmp0 - 1) * (tmp1 ^ 2)) / ((1 - tmp1) * (1 + (tmp0 - 1) * tmp1)) ^ 2)
  let f := setAt2 f (0, i) (1, j) (-(1 - tmp1) * tmp0 * tmp1 / (1 + (tmp0 - 1) * tmp1) ^ 2)
  let f := copyAt2 f (1, j) (0, i) (0, i) (1, j)
  let f := updAt2 f (0, i) (2, i) (fun v => v - tmp0 * tmp1 / (1 + (tmp0 - 1) * tmp1) ^ 2)
  let f := copyAt2 f (2, i) (0, i) (0, i) (2, i)
  let f := setAt2 f (0, i) (3, j) (-tmp0 * tmp1 / (1 + (tmp0 - 1) * tmp1) ^ 2)
  let f := copyAt2 f (3, j) (0, i) (0, i) (3, j)
  let f := setAt2 f (2, i) (3, j) (-tmp0 * tmp1 * (1 + (tmp0 - 1) * tmp1 ^ 2) / (((1 - tmp1) ^ 2) * ((1 + (tmp0 - 1) * tmp1) ^ 2)))
  let f := copyAt2 f (3, j) (2, i) (2, i) (3, j)
  let tmp0 := a_out j * a_in i
  let tmp1 := b_out j * b_in i
  let f := updAt2 f (1, i) (1, i) (fun v => v - (1 - tmp1) * tmp0 * tmp1 / (1 + (tmp0 - 1) * tmp1) ^ 2)
  let f := updAt2 f (3, i) (3, i) (fun v => v
    - tmp0 * tmp1 * (1 + (tmp0 - 1) * tmp1 ^ 2) / (((1 - tmp1) ^ 2) * ((1 + (tmp0 - 1) * tmp1) ^ 2)))
  let f := setAt2 f (1, i) (2, j) (-tmp0 * tmp1 / (1 + (tmp0 - 1) * tmp1) ^ 2)
  let f := copyAt2 f (2, j) (1, i) (1, i) (2, j)
  let f := updAt2 f (1, i) (3, i) (fun v => v - tmp0 * tmp1 / (1 + (tmp0 - 1) * tmp1) ^ 2)
  copyAt2 f (3, i) (1, i) (1, i) (3, i)

/-- models_functions.py 3472-3567, `loglikelihood_hessian_decm_exp`.  The final loop replaces `nan` entries by 0; there are none over the reals. -/
noncomputable def loglikelihood_hessian_decm_exp (theta : Vec n) (_k_out _k_in _s_out _s_in : Fin n → ℝ) : Mat n :=
  let x : Vec n := fun v => Real.exp (-theta v)
  forR n (fun i f => forR n (fun j f => if j ≠ i then hess_decm_exp_body x i j f else f) f) (fun _ _ => 0)

/-- models_functions.py 3571-3636, `loglikelihood_hessian_diag_decm_exp`. -/
noncomputable def loglikelihood_hessian_diag_decm_exp (theta : Vec n) (_k_out _k_in _s_out _s_in : Fin n → ℝ) : Vec n :=
  let x : Vec n := fun v => Real.exp (-theta v)
  let a_out := fun i => x (0, i)
  let a_in := fun i => x (1, i)
  let b_out := fun i => x (2, i)
  let b_in := fun i => x (3, i)
  forR n (fun i f => forR n (fun j f =>
    if j ≠ i then
      let tmp0 := a_out i * a_in j
      let tmp1 := b_out i * b_in j
      let f := subAt f (0, i) ((1 - tmp1) * tmp0 * tmp1 / ((1 - tmp1 + tmp0 * tmp1) ^ 2))
      let f := subAt f (2, i) (tmp0 * tmp1 * (1 - tmp1 ^ 2 + tmp0 * (tmp1 ^ 2)) / ((1 - tmp1) * (1 - tmp1 + tmp0 * tmp1)) ^ 2)
      let tmp0 := a_out j * a_in i
      let tmp1 := b_out j * b_in i
      let f := subAt f (1, i) ((1 - tmp1) * tmp0 * tmp1 / (1 - tmp1 + tmp0 * tmp1) ^ 2)
      subAt f (3, i) (tmp0 * tmp1 * (1 - tmp1 ^ 2 + tmp0 * tmp1 ^ 2) / (((1 - tmp1) ^ 2) * ((1 - tmp1 + tmp0 * tmp1) ^ 2)))
    else f) f) (fun _ => 0)

/-- models_functions.py 3640-3700, `expected_decm_exp`: the body is that of `expected_decm` applied to `x = exp(-theta)`. -/
noncomputable def expected_decm_exp (theta : Vec n) : Vec n := expected_decm (fun v => Real.exp (-theta v))

end Verif.DECM
