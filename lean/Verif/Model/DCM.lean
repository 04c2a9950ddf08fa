import Verif.Base
import Mathlib.Analysis.SpecialFunctions.Log.Basic

/-!
Model of the DBCM functions (`dcm` and `dcm_exp`) of `/repo/src/NEMtropy/models_functions.py`.

`args = (k_out, k_in, nz_index_out, nz_index_in, c)`: reduced out/in degrees, positions of their non-zero
entries, multiplicities.  Parameter vectors have length `2n`: position `(0,i)` is `x[i]`, position
`(1,i)` is `x[i+n]`.
-/

namespace Verif.DCM

open Verif

variable {n : ℕ}

/-- parameter vectors of length `2n` -/
abbrev Vec (n : ℕ) := Fin 2 × Fin n → ℝ

/-- `np.nonzero(a)[0]` -/
noncomputable def nonzero (a : Fin n → ℝ) : List (Fin n) := (List.finRange n).filter (fun i => a i ≠ 0)

/-- the denominators `f` of `iterative_dcm` before the final division (models_functions.py 1682-1696); the same loops
appear in `iterative_dcm_exp` (2770-2785). -/
noncomputable def iterative_den (x : Vec n) (c : Fin n → ℝ) : Vec n :=
  let f : Vec n := fun _ => 0
  let f := forR n (fun i f => forR n (fun j f =>
    if j ≠ i then addAt f (0, i) (c j * x (1, j) / (1 + x (0, i) * x (1, j)))
    else addAt f (0, i) ((c j - 1) * x (1, j) / (1 + x (0, i) * x (1, j)))) f) f
  forR n (fun j f => forR n (fun i f =>
    if j ≠ i then addAt f (1, j) (c i * x (0, i) / (1 + x (0, i) * x (1, j)))
    else addAt f (1, j) ((c i - 1) * x (0, i) / (1 + x (0, i) * x (1, j)))) f) f

/-- `np.concatenate((k_out, k_in))` -/
def concat (k_out k_in : Fin n → ℝ) : Vec n := fun v => if v.1 = 0 then k_out v.2 else k_in v.2

/-- models_functions.py 1660-1702, `iterative_dcm`.  Division by zero gives inf/nan in numpy; here the quotient of the reals
(theorems only use it with a non-zero divisor). -/
noncomputable def iterative_dcm (x : Vec n) (k_out k_in : Fin n → ℝ) (_no _ni : List (Fin n)) (c : Fin n → ℝ) : Vec n :=
  fun v => concat k_out k_in v / iterative_den x c v

/-- models_functions.py 1706-1738, `loglikelihood_dcm`. -/
noncomputable def loglikelihood_dcm (x : Vec n) (k_out k_in : Fin n → ℝ) (no ni : List (Fin n)) (c : Fin n → ℝ) : ℝ :=
  let f := forL no (fun i f =>
    let f := f + c i * k_out i * Real.log (x (0, i))
    forL ni (fun j f =>
      if i ≠ j then f - c i * c j * Real.log (1 + x (0, i) * x (1, j))
      else f - c i * (c i - 1) * Real.log (1 + x (0, i) * x (1, j))) f) (0 : ℝ)
  forL ni (fun j f => f + c j * k_in j * Real.log (x (1, j))) f

/-- models_functions.py 1742-1792, `loglikelihood_prime_dcm`. -/
noncomputable def loglikelihood_prime_dcm (x : Vec n) (k_out k_in : Fin n → ℝ) (no ni : List (Fin n))
    (c : Fin n → ℝ) : Vec n :=
  let f : Vec n := fun _ => 0
  let f := forL no (fun i f =>
    let fx := forL ni (fun j fx =>
      let const := if i ≠ j then c i * c j else c i * (c j - 1)
      fx + const * x (1, j) / (1 + x (0, i) * x (1, j))) (0 : ℝ)
    setAt f (0, i) (-fx + c i * k_out i / x (0, i))) f
  forL ni (fun j f =>
    let fy := forL no (fun i fy =>
      let const := if i ≠ j then c i * c j else c i * (c j - 1)
      fy + const * x (0, i) / (1 + x (1, j) * x (0, i))) (0 : ℝ)
    setAt f (1, j) (-fy + c j * k_in j / x (1, j))) f

/-- models_functions.py 1796-1847, `loglikelihood_hessian_dcm`. -/
noncomputable def loglikelihood_hessian_dcm (x : Vec n) (k_out k_in : Fin n → ℝ) (no ni : List (Fin n))
    (c : Fin n → ℝ) : Fin 2 × Fin n → Fin 2 × Fin n → ℝ :=
  let out : Fin 2 × Fin n → Fin 2 × Fin n → ℝ := fun _ _ => 0
  let out := forL no (fun h out =>
    let out := setAt2 out (0, h) (0, h) (-c h * k_out h / (x (0, h)) ^ 2)
    forL ni (fun i out =>
      let const := if i = h then c h * (c h - 1) else c h * c i
      let out := addAt2 out (0, h) (0, h) (const * (x (1, i) / (1 + x (0, h) * x (1, i))) ^ 2)
      setAt2 out (0, h) (1, i) (-const / (1 + x (1, i) * x (0, h)) ^ 2)) out) out
  forL ni (fun i out =>
    let out := setAt2 out (1, i) (1, i) (-c i * k_in i / (x (1, i) * x (1, i)))
    forL no (fun h out =>
      let const := if i = h then c h * (c h - 1) else c h * c i
      let out := addAt2 out (1, i) (1, i) (const * (x (0, h) ^ 2) / (1 + x (1, i) * x (0, h)) ^ 2)
      setAt2 out (1, i) (0, h) (-const / (1 + x (1, i) * x (0, h)) ^ 2)) out) out

/-- models_functions.py 1851-1907, `loglikelihood_hessian_diag_dcm`. -/
noncomputable def loglikelihood_hessian_diag_dcm (x : Vec n) (k_out k_in : Fin n → ℝ) (no ni : List (Fin n))
    (c : Fin n → ℝ) : Vec n :=
  let f : Vec n := fun _ => 0
  let f := forL no (fun i f =>
    let fx := forL ni (fun j fx =>
      let const := if i ≠ j then c j else c i - 1
      let tmp := 1 + x (0, i) * x (1, j)
      fx + const * x (1, j) * x (1, j) / (tmp * tmp)) (0 : ℝ)
    setAt f (0, i) (fx - k_out i / (x (0, i) * x (0, i)))) f
  forL ni (fun j f =>
    let fy := forL no (fun i fy =>
      let const := if i ≠ j then c i else c j - 1
      let tmp := (1 + x (1, j) * x (0, i)) * (1 + x (1, j) * x (0, i))
      fy + const * x (0, i) * x (0, i) / tmp) (0 : ℝ)
    setAt f (1, j) (fy - k_in j / (x (1, j) * x (1, j)))) f

/-- models_functions.py 1911-1932, `pmatrix_dcm` (`args = (n, index_out, index_in)`). -/
noncomputable def pmatrix_dcm (x : Vec n) (index_out index_in : List (Fin n)) : Fin n → Fin n → ℝ :=
  forL index_out (fun i p => forL index_in (fun j p =>
    if i ≠ j then
      let aux := x (0, i) * x (1, j)
      setAt2 p i j (aux / (1 + aux))
    else p) p) (fun _ _ => 0)

/-- models_functions.py 1936-1954, `expected_out_degree_dcm`. -/
noncomputable def expected_out_degree_dcm (sol : Vec n) : Fin n → ℝ :=
  let a_out := fun i => sol (0, i)
  let a_in := fun i => sol (1, i)
  forL (nonzero a_out) (fun i k => forL (nonzero a_in) (fun j k =>
    if i ≠ j then addAt k i (a_in j * a_out i / (1 + a_in j * a_out i)) else k) k) (fun _ => 0)

/-- models_functions.py 1958-1975, `expected_in_degree_dcm`. -/
noncomputable def expected_in_degree_dcm (sol : Vec n) : Fin n → ℝ :=
  let a_out := fun i => sol (0, i)
  let a_in := fun i => sol (1, i)
  forL (nonzero a_in) (fun i k => forL (nonzero a_out) (fun j k =>
    if i ≠ j then addAt k i (a_in i * a_out j / (1 + a_in i * a_out j)) else k) k) (fun _ => 0)

/-- models_functions.py 2734-2791, `iterative_dcm_exp`. -/
noncomputable def iterative_dcm_exp (theta : Vec n) (k_out k_in : Fin n → ℝ) (_no _ni : List (Fin n))
    (c : Fin n → ℝ) : Vec n :=
  let x : Vec n := fun v => Real.exp (-theta v)
  fun v => -Real.log (concat k_out k_in v / iterative_den x c v)

/-- models_functions.py 2848-2903, `loglikelihood_dcm_exp`. -/
noncomputable def loglikelihood_dcm_exp (theta : Vec n) (k_out k_in : Fin n → ℝ) (no ni : List (Fin n))
    (c : Fin n → ℝ) : ℝ :=
  let f := forL no (fun i f =>
    let f := f - c i * k_out i * theta (0, i)
    forL ni (fun j f =>
      if i ≠ j then f - c i * c j * Real.log (1 + Real.exp (-theta (0, i) - theta (1, j)))
      else f - c i * (c i - 1) * Real.log (1 + Real.exp (-theta (0, i) - theta (1, j)))) f) (0 : ℝ)
  forL ni (fun j f => f - c j * k_in j * theta (1, j)) f

/-- models_functions.py 2907-2972, `loglikelihood_prime_dcm_exp`. -/
noncomputable def loglikelihood_prime_dcm_exp (theta : Vec n) (k_out k_in : Fin n → ℝ) (no ni : List (Fin n))
    (c : Fin n → ℝ) : Vec n :=
  let x : Vec n := fun v => Real.exp (-theta v)
  let f : Vec n := fun _ => 0
  let f := forL no (fun i f =>
    let fx := forL ni (fun j fx =>
      let const := if i ≠ j then c i * c j else c i * (c j - 1)
      fx + const * x (1, j) / (1 + x (0, i) * x (1, j))) (0 : ℝ)
    setAt f (0, i) (x (0, i) * fx - c i * k_out i)) f
  forL ni (fun j f =>
    let fy := forL no (fun i fy =>
      let const := if i ≠ j then c i * c j else c i * (c j - 1)
      fy + const * x (0, i) / (1 + x (1, j) * x (0, i))) (0 : ℝ)
    setAt f (1, j) (fy * x (1, j) - c j * k_in j)) f

/-- models_functions.py 2976-3040, `loglikelihood_hessian_dcm_exp`.  `tmp_sum` and the writes of `out[h, i+n]` are in the
same Python loop; here the accumulator is computed by its own loop. -/
noncomputable def loglikelihood_hessian_dcm_exp (theta : Vec n) (_k_out _k_in : Fin n → ℝ) (no ni : List (Fin n))
    (c : Fin n → ℝ) : Fin 2 × Fin n → Fin 2 × Fin n → ℝ :=
  let x : Vec n := fun v => Real.exp (-theta v)
  let out : Fin 2 × Fin n → Fin 2 × Fin n → ℝ := fun _ _ => 0
  let out := forL no (fun h out =>
    let tmp_sum := forL ni (fun i tmp_sum =>
      let const := if i = h then c h * (c h - 1) else c h * c i
      let tmp := x (1, i) * x (0, h)
      tmp_sum + const * tmp / (1 + tmp) ^ 2) (0 : ℝ)
    let out := forL ni (fun i out =>
      let const := if i = h then c h * (c h - 1) else c h * c i
      let tmp := x (1, i) * x (0, h)
      setAt2 out (0, h) (1, i) (-const * tmp / (1 + tmp) ^ 2)) out
    setAt2 out (0, h) (0, h) (-tmp_sum)) out
  forL ni (fun i out =>
    let tmp_sum := forL no (fun h tmp_sum =>
      let const := if i = h then c h * (c h - 1) else c h * c i
      let tmp := x (0, h) * x (1, i)
      tmp_sum + const * tmp / (1 + tmp) ^ 2) (0 : ℝ)
    let out := forL no (fun h out =>
      let const := if i = h then c h * (c h - 1) else c h * c i
      let tmp := x (0, h) * x (1, i)
      setAt2 out (1, i) (0, h) (-const * tmp / (1 + tmp) ^ 2)) out
    setAt2 out (1, i) (1, i) (-tmp_sum)) out

/-- models_functions.py 3044-3113, `loglikelihood_hessian_diag_dcm_exp`. -/
noncomputable def loglikelihood_hessian_diag_dcm_exp (theta : Vec n) (_k_out _k_in : Fin n → ℝ)
    (no ni : List (Fin n)) (c : Fin n → ℝ) : Vec n :=
  let x : Vec n := fun v => Real.exp (-theta v)
  let f : Vec n := fun _ => 0
  let f := forL no (fun i f =>
    let fx := forL ni (fun j fx =>
      let const := if i ≠ j then c i * c j else c i * (c j - 1)
      let tmp := x (1, j) * x (0, i)
      fx + const * tmp / (1 + tmp) ^ 2) (0 : ℝ)
    setAt f (0, i) (-fx)) f
  forL ni (fun j f =>
    let fy := forL no (fun i fy =>
      let const := if i ≠ j then c i * c j else c i * (c j - 1)
      let tmp := x (0, i) * x (1, j)
      fy + const * tmp / (1 + tmp) ^ 2) (0 : ℝ)
    setAt f (1, j) (-fy)) f

/-- models_functions.py 3117-3134, `expected_out_degree_dcm_exp`. -/
noncomputable def expected_out_degree_dcm_exp (sol : Vec n) : Fin n → ℝ :=
  forR n (fun i ex_k => forR n (fun j ex_k =>
    if i ≠ j then
      let aux := Real.exp (-sol (0, i)) * Real.exp (-sol (0, j))
      addAt ex_k i (aux / (1 + aux))
    else ex_k) ex_k) (fun _ => 0)

/-- models_functions.py 3138-3157, `expected_in_degree_dcm_exp`. -/
noncomputable def expected_in_degree_dcm_exp (theta : Vec n) : Fin n → ℝ :=
  let sol : Vec n := fun v => Real.exp (-theta v)
  forR n (fun i k => forR n (fun j k =>
    if i ≠ j then addAt k i (sol (1, i) * sol (0, j) / (1 + sol (1, i) * sol (0, j))) else k) k) (fun _ => 0)

end Verif.DCM
