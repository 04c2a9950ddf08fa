import Verif.Model.DCM
import Verif.Model.DECM

/-! Model of the two alternative fixed-point maps `iterative_dcm_exp_2` and `iterative_decm_exp_2` (models_functions.py 2795-2844 and
3312-3366).  `solve_tool` never uses them; they are public functions of the module.  Reals for floats. -/

namespace Verif.DCM

variable {n : ℕ}

/-- models_functions.py 2813-2834, the accumulation of `f` in `iterative_dcm_exp_2`: as in `iterative_dcm_exp`, but the loops run over the lists
`nz_index_out` and `nz_index_in` only. -/
noncomputable def iterative_den_2 (x : Vec n) (no ni : List (Fin n)) (c : Fin n → ℝ) : Vec n :=
  let f : Vec n := fun _ => 0
  let f := forL no (fun i f => forL ni (fun j f =>
    if j ≠ i then addAt f (0, i) (c j * x (1, j) / (1 + x (0, i) * x (1, j)))
    else addAt f (0, i) ((c j - 1) * x (1, j) / (1 + x (0, i) * x (1, j)))) f) f
  forL ni (fun j f => forL no (fun i f =>
    if j ≠ i then addAt f (1, j) (c i * x (0, i) / (1 + x (0, i) * x (1, j)))
    else addAt f (1, j) ((c i - 1) * x (0, i) / (1 + x (0, i) * x (1, j)))) f) f

/-- models_functions.py 2795-2844, `iterative_dcm_exp_2`.  `none` is numpy's `nan`: for a vanishing degree the code takes `-np.log(-np.inf)`
(2836-2840). -/
noncomputable def iterative_dcm_exp_2 (theta : Vec n) (k_out k_in : Fin n → ℝ) (no ni : List (Fin n)) (c : Fin n → ℝ) :
    Fin 2 × Fin n → Option ℝ :=
  let x : Vec n := fun v => Real.exp (-theta v)
  let f := iterative_den_2 x no ni c
  let tmp := concat k_out k_in
  fun v => if tmp v ≠ 0 then some (-Real.log (tmp v / f v)) else none

end Verif.DCM

namespace Verif.DECM

variable {n : ℕ}

/-- models_functions.py 3312-3366, `iterative_decm_exp_2`.  The four accumulators of the inner loop are computed by one loop each. -/
noncomputable def iterative_decm_exp_2 (theta : Vec n) (k_out k_in s_out s_in : Fin n → ℝ) : Vec n :=
  let x : Vec n := fun v => Real.exp (-theta v)
  forR n (fun i f =>
    let fa_out := forR n (fun j s => if i ≠ j then
      let tmp0 := x (2, i) * x (3, j)
      let tmp1 := tmp0 / (1 - tmp0)
      let tmp2 := x (0, i) * x (1, j)
      s + x (1, j) * tmp1 / (1 + tmp2 * tmp1) else s) (0 : ℝ)
    let fb_out := forR n (fun j s => if i ≠ j then
      let tmp0 := x (2, i) * x (3, j)
      let tmp2 := x (0, i) * x (1, j)
      s + tmp2 * x (3, j) / ((1 + tmp0 * tmp2) * (1 - tmp0)) else s) (0 : ℝ)
    let fa_in := forR n (fun j s => if i ≠ j then
      let tmp0 := x (2, j) * x (3, i)
      let tmp1 := tmp0 / (1 - tmp0)
      let tmp2 := x (0, j) * x (1, i)
      s + x (0, j) * tmp1 / (1 + tmp2 * tmp1) else s) (0 : ℝ)
    let fb_in := forR n (fun j s => if i ≠ j then
      let tmp0 := x (2, j) * x (3, i)
      let tmp2 := x (0, j) * x (1, i)
      s + tmp2 * x (2, j) / ((1 + tmp0 * tmp2) * (1 - tmp0)) else s) (0 : ℝ)
    let f := setAt f (0, i) (-Real.log (k_out i / fa_out))
    let f := setAt f (2, i) (-Real.log (s_out i / fb_out))
    let f := setAt f (1, i) (-Real.log (k_in i / fa_in))
    setAt f (3, i) (-Real.log (s_in i / fb_in))) (fun _ => 0)

end Verif.DECM
