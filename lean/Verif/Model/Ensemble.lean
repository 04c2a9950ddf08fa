import Verif.Base
import Verif.Model.Motif
import Mathlib.Analysis.SpecialFunctions.Pow.Real

/-!
Expected motif counts, their standard deviations and z-scores of the directed binary model: `ensemble_functions.py`.
`sol` is the solution vector of length `2n`: block 0 = `sol[:n]`, block 1 = `sol[n:]`.
-/

namespace Verif.Ens

open Verif.Motif

variable {n : ℕ}

/-- a vector of length `2n` -/
abbrev Vec (n : ℕ) := Fin 2 × Fin n → ℝ

/-- ensemble_functions.py:12-33 `expected_dcm_2motif_2` (here `y = sol[:n]`, `x = sol[n:]`) -/
noncomputable def expected_dcm_2motif_2 (sol : Vec n) : ℝ :=
  let y := fun i => sol (0, i)
  let x := fun i => sol (1, i)
  forR n (fun i er =>
    let temp := forR n (fun j temp => temp + x j * y j / ((1 + x i * y j) * (1 + y i * x j))) 0
    let temp := temp - x i * y i / ((1 + x i * y i) * (1 + y i * x i))
    er + x i * y i * temp) 0

/-- ensemble_functions.py:36-57 `std_dcm_2motif_2` (here `x = sol[:n]`, `y = sol[n:]`) -/
noncomputable def std_dcm_2motif_2 (sol : Vec n) : ℝ :=
  let x := fun i => sol (0, i)
  let y := fun i => sol (1, i)
  Real.sqrt (forR n (fun i temp => forR n (fun j temp =>
    if i ≠ j then
      let pij := x i * y j / (1 + x i * y j)
      let pji := x j * y i / (1 + x j * y i)
      temp + 2 * pij * pji * (1 - pij * pji)
    else temp) temp) 0)

/-- ensemble_functions.py:60-82 `expected_dcm_2motif_1` -/
noncomputable def expected_dcm_2motif_1 (sol : Vec n) : ℝ :=
  let y := fun i => sol (0, i)
  let x := fun i => sol (1, i)
  forR n (fun i er =>
    let temp := forR n (fun j temp => temp + y j * x i / ((1 + x i * y j) * (1 + y i * x j))) 0
    let temp := temp - x i * y i / ((1 + x i * y i) * (1 + y i * x i))
    er + temp) 0

/-- ensemble_functions.py:85-106 `std_dcm_2motif_1` -/
noncomputable def std_dcm_2motif_1 (sol : Vec n) : ℝ :=
  let x := fun i => sol (0, i)
  let y := fun i => sol (1, i)
  Real.sqrt (forR n (fun i temp => forR n (fun j temp =>
    if i ≠ j then
      let pij := x i * y j / (1 + x i * y j)
      let pji := x j * y i / (1 + x j * y i)
      temp + pij * (1 - pji) * (1 - pij * (1 - pji) - pji * (1 - pij))
    else temp) temp) 0)

/-- ensemble_functions.py:109-131 `expected_dcm_2motif_0` -/
noncomputable def expected_dcm_2motif_0 (sol : Vec n) : ℝ :=
  let y := fun i => sol (0, i)
  let x := fun i => sol (1, i)
  forR n (fun i er =>
    let temp := forR n (fun j temp => temp + 1 / ((1 + x i * y j) * (1 + y i * x j))) 0
    let temp := temp - 1 / ((1 + x i * y i) * (1 + y i * x i))
    er + temp) 0

/-- ensemble_functions.py:134-155 `std_dcm_2motif_0` -/
noncomputable def std_dcm_2motif_0 (sol : Vec n) : ℝ :=
  let x := fun i => sol (0, i)
  let y := fun i => sol (1, i)
  Real.sqrt (forR n (fun i temp => forR n (fun j temp =>
    if i ≠ j then
      let pij := x i * y j / (1 + x i * y j)
      let pji := x j * y i / (1 + x j * y i)
      temp + 2 * (1 - pij) * (1 - pji) * (1 - (1 - pij) * (1 - pji))
    else temp) temp) 0)

/-- `p_ij = x[i]*y[j]/(1 + x[i]*y[j])` with `x = sol[:n]`, `y = sol[n:]`: the local variables `pij, pji, pik, pki, pjk, pkj` of all the functions below
(e.g. ensemble_functions.py:193-199). -/
noncomputable def pr (sol : Vec n) (i j : Fin n) : ℝ := sol (0, i) * sol (1, j) / (1 + sol (0, i) * sol (1, j))

/-- The loop nest shared by all `expected_dcm_3motif_m` (ensemble_functions.py:176-537, numba):
```
for i in range(n):
    for j in range(n):
        if j is not i:
            pij = ...; pji = ...
            for k in range(n):
                if k is not j and k is not i:
                    pik = ...; pki = ...; pjk = ...; pkj = ...
                    s += term
```
with the terms as a function of `pij pji pik pki pjk pkj`. -/
noncomputable def expLoop (sol : Vec n) (term : ℝ → ℝ → ℝ → ℝ → ℝ → ℝ → ℝ) : ℝ :=
  forR n (fun i s => forR n (fun j s =>
    if j ≠ i then
      forR n (fun k s => if k ≠ j ∧ k ≠ i then
        s + term (pr sol i j) (pr sol j i) (pr sol i k) (pr sol k i) (pr sol j k) (pr sol k j) else s) s
    else s) s) 0

/-- ensemble_functions.py:177-202 `expected_dcm_3motif_1`. -/
noncomputable def expected_dcm_3motif_1 (sol : Vec n) : ℝ :=
  expLoop sol fun pij pji pik pki pjk pkj => (1 - pij) * pji * pjk * (1 - pkj) * (1 - pik) * (1 - pki)

/-- ensemble_functions.py:206-230 `expected_dcm_3motif_2`. -/
noncomputable def expected_dcm_3motif_2 (sol : Vec n) : ℝ :=
  expLoop sol fun pij pji pik pki pjk pkj => pij * (1 - pji) * (1 - pik) * (1 - pki) * pjk * (1 - pkj)

/-- ensemble_functions.py:234-258 `expected_dcm_3motif_3`. -/
noncomputable def expected_dcm_3motif_3 (sol : Vec n) : ℝ :=
  expLoop sol fun pij pji pik pki pjk pkj => pij * pji * (1 - pik) * (1 - pki) * pjk * (1 - pkj)

/-- ensemble_functions.py:262-286 `expected_dcm_3motif_4`. -/
noncomputable def expected_dcm_3motif_4 (sol : Vec n) : ℝ :=
  expLoop sol fun pij pji pik pki pjk pkj => (1 - pij) * (1 - pji) * (1 - pki) * pik * pjk * (1 - pkj)

/-- ensemble_functions.py:289-313 `expected_dcm_3motif_5`. -/
noncomputable def expected_dcm_3motif_5 (sol : Vec n) : ℝ :=
  expLoop sol fun pij pji pik pki pjk pkj => (1 - pij) * pji * pik * (1 - pki) * pjk * (1 - pkj)

/-- ensemble_functions.py:317-341 `expected_dcm_3motif_6`. -/
noncomputable def expected_dcm_3motif_6 (sol : Vec n) : ℝ :=
  expLoop sol fun pij pji pik pki pjk pkj => pij * pji * pik * (1 - pki) * pjk * (1 - pkj)

/-- ensemble_functions.py:345-369 `expected_dcm_3motif_7`. -/
noncomputable def expected_dcm_3motif_7 (sol : Vec n) : ℝ :=
  expLoop sol fun pij pji pik pki pjk pkj => pij * pji * (1 - pik) * (1 - pki) * (1 - pjk) * pkj

/-- ensemble_functions.py:373-397 `expected_dcm_3motif_8`. -/
noncomputable def expected_dcm_3motif_8 (sol : Vec n) : ℝ :=
  expLoop sol fun pij pji pik pki pjk pkj => pij * pji * (1 - pik) * (1 - pki) * pjk * pkj

/-- ensemble_functions.py:401-425 `expected_dcm_3motif_9`. -/
noncomputable def expected_dcm_3motif_9 (sol : Vec n) : ℝ :=
  expLoop sol fun pij pji pik pki pjk pkj => (1 - pij) * pji * pik * (1 - pki) * (1 - pjk) * pkj

/-- ensemble_functions.py:429-453 `expected_dcm_3motif_10`. -/
noncomputable def expected_dcm_3motif_10 (sol : Vec n) : ℝ :=
  expLoop sol fun pij pji pik pki pjk pkj => (1 - pij) * pji * pik * (1 - pki) * pjk * pkj

/-- ensemble_functions.py:457-481 `expected_dcm_3motif_11`. -/
noncomputable def expected_dcm_3motif_11 (sol : Vec n) : ℝ :=
  expLoop sol fun pij pji pik pki pjk pkj => pij * (1 - pji) * pik * (1 - pki) * pjk * pkj

/-- ensemble_functions.py:485-509 `expected_dcm_3motif_12`. -/
noncomputable def expected_dcm_3motif_12 (sol : Vec n) : ℝ :=
  expLoop sol fun pij pji pik pki pjk pkj => pij * pji * pik * (1 - pki) * pjk * pkj

/-- ensemble_functions.py:513-537 `expected_dcm_3motif_13`. -/
noncomputable def expected_dcm_3motif_13 (sol : Vec n) : ℝ :=
  expLoop sol fun pij pji pik pki pjk pkj => pij * pji * pik * pki * pjk * pkj

/-- The loop nest shared by all `std_dcm_3motif_m` (ensemble_functions.py:541-962):
```
tmp = 0
for i in range(n):
    for j in range(n):
        if i != j:
            pij = ...; pji = ...
            s = 0
            for k in range(n):
                if (i != k) and (j != k):
                    pik = ...; pki = ...; pjk = ...; pkj = ...
                    (updates of s)
            tmp += (1 - pji)*pji*((s)**2)
return np.sqrt(tmp)
```
`upd` is the sequence of updates of `s`, `fin` is what is squared (`s`, or `6*s` for motif 13). -/
noncomputable def stdLoop (sol : Vec n) (upd : ℝ → ℝ → ℝ → ℝ → ℝ → ℝ → ℝ → ℝ) (fin : ℝ → ℝ) : ℝ :=
  Real.sqrt (forR n (fun i tmp => forR n (fun j tmp =>
    if i ≠ j then
      let pij := pr sol i j
      let pji := pr sol j i
      let s := forR n (fun k s => if i ≠ k ∧ j ≠ k then
        upd pij pji (pr sol i k) (pr sol k i) (pr sol j k) (pr sol k j) s else s) 0
      tmp + (1 - pji) * pji * (fin s) ^ 2
    else tmp) tmp) 0)

/-- ensemble_functions.py:542-571 `std_dcm_3motif_1`. -/
noncomputable def std_dcm_3motif_1 (sol : Vec n) : ℝ :=
  stdLoop sol (fun pij _pji pik pki pjk pkj s =>
    let s := s - (2 * (1 - pjk) * pkj * (1 - pik) * pki * (1 - pij))
    let s := s + (-(1 - pkj) * (1 - pjk) * (1 - pki) * pik * pij + (1 - pkj) * pjk * (1 - pki) * (1 - pik) * (1 - pij))
    let s := s + (-pik * (1 - pki) * (1 - pkj) * (1 - pjk) * pij + pjk * (1 - pkj) * (1 - pki) * (1 - pik) * (1 - pij))
    s) (fun s => s)

/-- ensemble_functions.py:576-605 `std_dcm_3motif_2`. -/
noncomputable def std_dcm_3motif_2 (sol : Vec n) : ℝ :=
  stdLoop sol (fun pij _pji pik pki pjk pkj s =>
    let s := s - (((1 - pjk) * pkj * (1 - pki) * pik + (1 - pkj) * pjk * (1 - pik) * pki) * (1 - pij))
    let s := s + ((-(1 - pkj) * (1 - pjk) * (1 - pik) * pki * pij + (1 - pki) * (1 - pik) * (1 - pjk) * pkj * (1 - pij)))
    let s := s + ((-(1 - pik) * (1 - pki) * (1 - pkj) * pjk * pij + (1 - pjk) * (1 - pkj) * (1 - pki) * pik * (1 - pij)))
    s) (fun s => s)

/-- ensemble_functions.py:608-637 `std_dcm_3motif_3`. -/
noncomputable def std_dcm_3motif_3 (sol : Vec n) : ℝ :=
  stdLoop sol (fun pij _pji pik pki pjk pkj s =>
    let s := s - ((pjk * pkj * pki * (1 - pik) + (1 - pjk) * pkj * pik * pki) * (1 - pij))
    let s := s + ((-(1 - pkj) * (1 - pjk) * pik * pki * pij + (1 - pki) * (1 - pik) * pjk * pkj * (1 - pij)))
    let s := s + (((1 - pik) * (1 - pki) * (1 - pkj) * pjk * pij + (1 - pjk) * (1 - pkj) * (1 - pki) * pik * pij))
    s) (fun s => s)

/-- ensemble_functions.py:640-669 `std_dcm_3motif_4`. -/
noncomputable def std_dcm_3motif_4 (sol : Vec n) : ℝ :=
  stdLoop sol (fun pij _pji pik pki pjk pkj s =>
    let s := s + (((1 - pjk) * (1 - pkj) * (1 - pik) * pki * (1 - pij) - (1 - pjk) * pkj * (1 - pik) * (1 - pki) * pij))
    let s := s + (-pkj * (1 - pjk) * (1 - pik) * (1 - pki) * pij + pki * (1 - pik) * (1 - pjk) * (1 - pkj) * (1 - pij))
    let s := s - (2 * (1 - pij) * pik * (1 - pki) * (1 - pkj) * pjk)
    s) (fun s => s)

/-- ensemble_functions.py:673-702 `std_dcm_3motif_5`. -/
noncomputable def std_dcm_3motif_5 (sol : Vec n) : ℝ :=
  stdLoop sol (fun pij _pji pik pki pjk pkj s =>
    let s := s + ((1 - pjk) * pkj * (1 - pik) * pki * (1 - 2 * pij))
    let s := s + ((-pkj * (1 - pjk) * pik * (1 - pki) * pij + pki * (1 - pik) * pjk * (1 - pkj) * (1 - pij)))
    let s := s + ((1 - 2 * pij) * pik * (1 - pki) * (1 - pkj) * pjk)
    s) (fun s => s)

/-- ensemble_functions.py:706-735 `std_dcm_3motif_6`. -/
noncomputable def std_dcm_3motif_6 (sol : Vec n) : ℝ :=
  stdLoop sol (fun pij _pji pik pki pjk pkj s =>
    let s := s + (pjk * pkj * (1 - pik) * pki * (1 - pij) - (1 - pjk) * pkj * pki * pik * pij)
    let s := s + ((-pkj * (1 - pjk) * pik * pki * pij + pki * (1 - pik) * pjk * pkj * (1 - pij)))
    let s := s + (2 * pij * pik * (1 - pki) * (1 - pkj) * pjk)
    s) (fun s => s)

/-- ensemble_functions.py:739-768 `std_dcm_3motif_7`. -/
noncomputable def std_dcm_3motif_7 (sol : Vec n) : ℝ :=
  stdLoop sol (fun pij _pji pik pki pjk pkj s =>
    let s := s - (pjk * pkj * pik * (1 - pki) * (1 - pij) + pjk * (1 - pkj) * pki * pik * (1 - pij))
    let s := s + (((1 - pkj) * (1 - pjk) * pik * pki * (1 - pij) - (1 - pki) * (1 - pik) * pjk * pkj * pij))
    let s := s + (((1 - pik) * pki * (1 - pkj) * (1 - pjk) + (1 - pik) * (1 - pki) * pkj * (1 - pjk)) * pij)
    s) (fun s => s)

/-- ensemble_functions.py:772-801 `std_dcm_3motif_8`. -/
noncomputable def std_dcm_3motif_8 (sol : Vec n) : ℝ :=
  stdLoop sol (fun pij _pji pik pki pjk pkj s =>
    let s := s - (2 * pkj * pjk * pik * pki * (1 - pij))
    let s := s + (pij * ((1 - pjk) * (1 - pkj) * pik * pki + pjk * pkj * (1 - pki) * (1 - pik)))
    let s := s + ((1 - pik) * (1 - pki) * pkj * pjk * pij + pik * pki * (1 - pkj) * (1 - pjk) * pij)
    s) (fun s => s)

/-- ensemble_functions.py:805-834 `std_dcm_3motif_9`. -/
noncomputable def std_dcm_3motif_9 (sol : Vec n) : ℝ :=
  stdLoop sol (fun pij _pji pik pki pjk pkj s =>
    let s := s + (pik * (1 - pki) * pkj * (1 - pjk) * (1 - pij) - pki * (1 - pik) * pjk * (1 - pkj) * pij)
    let s := s + ((1 - pij) * (1 - pjk) * pkj * pik * (1 - pki) - pjk * (1 - pkj) * pki * (1 - pik) * pij)
    let s := s + (pik * (1 - pki) * pkj * (1 - pjk) * (1 - pij) - (1 - pik) * pki * (1 - pkj) * pjk * pij)
    s) (fun s => s)

/-- ensemble_functions.py:838-867 `std_dcm_3motif_10`. -/
noncomputable def std_dcm_3motif_10 (sol : Vec n) : ℝ :=
  stdLoop sol (fun pij _pji pik pki pjk pkj s =>
    let s := s + (pkj * (1 - pjk) * pik * pki * (1 - pij) - pjk * pkj * pki * (1 - pik) * pij)
    let s := s + (pij * ((1 - pjk) * pkj * pik * (1 - pki) + pjk * (1 - pkj) * pki * (1 - pik)))
    let s := s + (pik * (1 - pki) * pkj * pjk * (1 - pij) - pik * pki * (1 - pkj) * pjk * pij)
    s) (fun s => s)

/-- ensemble_functions.py:870-899 `std_dcm_3motif_11`. -/
noncomputable def std_dcm_3motif_11 (sol : Vec n) : ℝ :=
  stdLoop sol (fun pij _pji pik pki pjk pkj s =>
    let s := s + ((1 - pkj) * pjk * pik * pki * (1 - pij) - pjk * pkj * (1 - pki) * pik * pij)
    let s := s + ((1 - pij) * pjk * (1 - pkj) * pik * pki - pjk * pkj * (1 - pki) * pik * pij)
    let s := s + (2 * (1 - pik) * pki * pkj * (1 - pjk) * pij)
    s) (fun s => s)

/-- ensemble_functions.py:902-931 `std_dcm_3motif_12`. -/
noncomputable def std_dcm_3motif_12 (sol : Vec n) : ℝ :=
  stdLoop sol (fun pij _pji pik pki pjk pkj s =>
    let s := s + (pkj * pjk * pik * pki * (1 - 2 * pij))
    let s := s + (pij * (pjk * (1 - pkj) * pik * pki + pjk * pkj * (1 - pki) * pik))
    let s := s + (pij * (pik * pki * pkj * (1 - pjk) + pki * (1 - pik) * pkj * pjk))
    s) (fun s => s)

/-- ensemble_functions.py:935-962 `std_dcm_3motif_13`. -/
noncomputable def std_dcm_3motif_13 (sol : Vec n) : ℝ :=
  stdLoop sol (fun pij _pji pik pki pjk pkj s =>
    let s := s + (pij * pjk * pkj * pki * pik)
    s) (fun s => 6 * s)

/-- all thirteen expected counts as one family (index `m - 1`) -/
noncomputable def expected3 (m : Fin 13) : Vec n → ℝ :=
  ![expected_dcm_3motif_1, expected_dcm_3motif_2, expected_dcm_3motif_3, expected_dcm_3motif_4, expected_dcm_3motif_5, expected_dcm_3motif_6, expected_dcm_3motif_7, expected_dcm_3motif_8, expected_dcm_3motif_9, expected_dcm_3motif_10, expected_dcm_3motif_11, expected_dcm_3motif_12, expected_dcm_3motif_13] m

/-- all thirteen standard deviations as one family -/
noncomputable def std3 (m : Fin 13) : Vec n → ℝ :=
  ![std_dcm_3motif_1, std_dcm_3motif_2, std_dcm_3motif_3, std_dcm_3motif_4, std_dcm_3motif_5, std_dcm_3motif_6, std_dcm_3motif_7, std_dcm_3motif_8, std_dcm_3motif_9, std_dcm_3motif_10, std_dcm_3motif_11, std_dcm_3motif_12, std_dcm_3motif_13] m

/-- ensemble_functions.py:152-170 and 965-1041: all z-scores are `(count - exp)/std` (real division; numpy's `nan`/`inf` for `std = 0` is not modelled) -/
noncomputable def zscore (count exp std : ℝ) : ℝ := (count - exp) / std

/-- ensemble_functions.py:152-156 `zscore_dcm_2motif_2`. -/
noncomputable def zscore_dcm_2motif_2 (sol : Vec n) (a : Fin n → Fin n → ℝ) : ℝ :=
  zscore (count_2motif_2 a) (expected_dcm_2motif_2 sol) (std_dcm_2motif_2 sol)

/-- ensemble_functions.py:159-163 `zscore_dcm_2motif_1`. -/
noncomputable def zscore_dcm_2motif_1 (sol : Vec n) (a : Fin n → Fin n → ℝ) : ℝ :=
  zscore (count_2motif_1 a) (expected_dcm_2motif_1 sol) (std_dcm_2motif_1 sol)

/-- ensemble_functions.py:166-170 `zscore_dcm_2motif_0`. -/
noncomputable def zscore_dcm_2motif_0 (sol : Vec n) (a : Fin n → Fin n → ℝ) : ℝ :=
  zscore (count_2motif_0 a) (expected_dcm_2motif_0 sol) (std_dcm_2motif_0 sol)

/-- ensemble_functions.py:965-969 `zscore_dcm_3motif_1` (dense matrix). -/
noncomputable def zscore_dcm_3motif_1 (sol : Vec n) (a : Fin n → Fin n → ℝ) : ℝ :=
  zscore (count_3motif_1_ndarray a) (expected_dcm_3motif_1 sol) (std_dcm_3motif_1 sol)

/-- ensemble_functions.py:971-975 `zscore_dcm_3motif_2` (dense matrix). -/
noncomputable def zscore_dcm_3motif_2 (sol : Vec n) (a : Fin n → Fin n → ℝ) : ℝ :=
  zscore (count_3motif_2_ndarray a) (expected_dcm_3motif_2 sol) (std_dcm_3motif_2 sol)

/-- ensemble_functions.py:977-981 `zscore_dcm_3motif_3` (dense matrix). -/
noncomputable def zscore_dcm_3motif_3 (sol : Vec n) (a : Fin n → Fin n → ℝ) : ℝ :=
  zscore (count_3motif_3_ndarray a) (expected_dcm_3motif_3 sol) (std_dcm_3motif_3 sol)

/-- ensemble_functions.py:983-987 `zscore_dcm_3motif_4` (dense matrix). -/
noncomputable def zscore_dcm_3motif_4 (sol : Vec n) (a : Fin n → Fin n → ℝ) : ℝ :=
  zscore (count_3motif_4_ndarray a) (expected_dcm_3motif_4 sol) (std_dcm_3motif_4 sol)

/-- ensemble_functions.py:989-993 `zscore_dcm_3motif_5` (dense matrix). -/
noncomputable def zscore_dcm_3motif_5 (sol : Vec n) (a : Fin n → Fin n → ℝ) : ℝ :=
  zscore (count_3motif_5_ndarray a) (expected_dcm_3motif_5 sol) (std_dcm_3motif_5 sol)

/-- ensemble_functions.py:995-999 `zscore_dcm_3motif_6` (dense matrix). -/
noncomputable def zscore_dcm_3motif_6 (sol : Vec n) (a : Fin n → Fin n → ℝ) : ℝ :=
  zscore (count_3motif_6_ndarray a) (expected_dcm_3motif_6 sol) (std_dcm_3motif_6 sol)

/-- ensemble_functions.py:1001-1005 `zscore_dcm_3motif_7` (dense matrix). -/
noncomputable def zscore_dcm_3motif_7 (sol : Vec n) (a : Fin n → Fin n → ℝ) : ℝ :=
  zscore (count_3motif_7_ndarray a) (expected_dcm_3motif_7 sol) (std_dcm_3motif_7 sol)

/-- ensemble_functions.py:1007-1011 `zscore_dcm_3motif_8` (dense matrix). -/
noncomputable def zscore_dcm_3motif_8 (sol : Vec n) (a : Fin n → Fin n → ℝ) : ℝ :=
  zscore (count_3motif_8_ndarray a) (expected_dcm_3motif_8 sol) (std_dcm_3motif_8 sol)

/-- ensemble_functions.py:1013-1017 `zscore_dcm_3motif_9` (dense matrix). -/
noncomputable def zscore_dcm_3motif_9 (sol : Vec n) (a : Fin n → Fin n → ℝ) : ℝ :=
  zscore (count_3motif_9_ndarray a) (expected_dcm_3motif_9 sol) (std_dcm_3motif_9 sol)

/-- ensemble_functions.py:1019-1023 `zscore_dcm_3motif_10` (dense matrix). -/
noncomputable def zscore_dcm_3motif_10 (sol : Vec n) (a : Fin n → Fin n → ℝ) : ℝ :=
  zscore (count_3motif_10_ndarray a) (expected_dcm_3motif_10 sol) (std_dcm_3motif_10 sol)

/-- ensemble_functions.py:1025-1029 `zscore_dcm_3motif_11` (dense matrix). -/
noncomputable def zscore_dcm_3motif_11 (sol : Vec n) (a : Fin n → Fin n → ℝ) : ℝ :=
  zscore (count_3motif_11_ndarray a) (expected_dcm_3motif_11 sol) (std_dcm_3motif_11 sol)

/-- ensemble_functions.py:1031-1035 `zscore_dcm_3motif_12` (dense matrix). -/
noncomputable def zscore_dcm_3motif_12 (sol : Vec n) (a : Fin n → Fin n → ℝ) : ℝ :=
  zscore (count_3motif_12_ndarray a) (expected_dcm_3motif_12 sol) (std_dcm_3motif_12 sol)

/-- ensemble_functions.py:1037-1041 `zscore_dcm_3motif_13` (dense matrix). -/
noncomputable def zscore_dcm_3motif_13 (sol : Vec n) (a : Fin n → Fin n → ℝ) : ℝ :=
  zscore (count_3motif_13_ndarray a) (expected_dcm_3motif_13 sol) (std_dcm_3motif_13 sol)

/-- all thirteen z-scores as one family -/
noncomputable def zscore3 (m : Fin 13) : Vec n → (Fin n → Fin n → ℝ) → ℝ :=
  ![zscore_dcm_3motif_1, zscore_dcm_3motif_2, zscore_dcm_3motif_3, zscore_dcm_3motif_4, zscore_dcm_3motif_5, zscore_dcm_3motif_6, zscore_dcm_3motif_7, zscore_dcm_3motif_8, zscore_dcm_3motif_9, zscore_dcm_3motif_10, zscore_dcm_3motif_11, zscore_dcm_3motif_12, zscore_dcm_3motif_13] m

/-- graph_classes.py:2604-2628 `DirectedGraph.zscore_2motifs`: the dictionary as an association list; `sol = np.concatenate((self.x, self.y))` is the argument `sol` -/
noncomputable def zscore_2motifs (model : String) (sol : Vec n) (a : Fin n → Fin n → ℝ) : List (String × ℝ) :=
  if model = "dcm" then
    [("0", zscore_dcm_2motif_0 sol a), ("1", zscore_dcm_2motif_1 sol a), ("2", zscore_dcm_2motif_2 sol a)]
  else []

/-- graph_classes.py:2630-2674 `DirectedGraph.zscore_3motifs` -/
noncomputable def zscore_3motifs (model : String) (sol : Vec n) (a : Fin n → Fin n → ℝ) : List (String × ℝ) :=
  if model = "dcm" then
    [("1", zscore_dcm_3motif_1 sol a), ("2", zscore_dcm_3motif_2 sol a), ("3", zscore_dcm_3motif_3 sol a), ("4", zscore_dcm_3motif_4 sol a),
     ("5", zscore_dcm_3motif_5 sol a), ("6", zscore_dcm_3motif_6 sol a), ("7", zscore_dcm_3motif_7 sol a), ("8", zscore_dcm_3motif_8 sol a),
     ("9", zscore_dcm_3motif_9 sol a), ("10", zscore_dcm_3motif_10 sol a), ("11", zscore_dcm_3motif_11 sol a), ("12", zscore_dcm_3motif_12 sol a),
     ("13", zscore_dcm_3motif_13 sol a)]
  else []

end Verif.Ens
