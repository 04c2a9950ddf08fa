import Verif.Base

/-!
Motif counters of `network_functions.py`: dyads (`count_2motif_*`) and triads (`count_3motif_*`), dense (numba) and sparse (pure Python)
variants.  The matrix is a function `a : Fin n → Fin n → ℝ` (numpy integers and floats are real numbers here; the counters only add and multiply
entries and test them against 0, 1, 2).
-/

namespace Verif.Motif

variable {n : ℕ}

attribute [local instance 0] Classical.propDecidable

/-- network_functions.py:435-443 `count_2motif_2`: `tmp = a + a.transpose(); int(len(tmp[tmp == 2]))`: the number of matrix positions holding 2. -/
noncomputable def count_2motif_2 (a : Fin n → Fin n → ℝ) : ℕ :=
  let tmp : Fin n × Fin n → ℝ := fun e => a e.1 e.2 + a e.2 e.1
  (Finset.univ.filter fun e => tmp e = 2).card

/-- network_functions.py:446-454 `count_2motif_1`: `int(len(tmp[tmp == 1])/2)`; `int` truncates, which on a non-negative quotient is natural division. -/
noncomputable def count_2motif_1 (a : Fin n → Fin n → ℝ) : ℕ :=
  let tmp : Fin n × Fin n → ℝ := fun e => a e.1 e.2 + a e.2 e.1
  (Finset.univ.filter fun e => tmp e = 1).card / 2

/-- network_functions.py:457-476 `count_2motif_0`: `int(n*(n-1) - np.count_nonzero(tmp))`, an integer that can be negative. The dense and the
`csr_array` branch compute the same number; any other type of `a` falls through both `if`s and returns `None` (not modelled). -/
noncomputable def count_2motif_0 (a : Fin n → Fin n → ℝ) : ℤ :=
  let tmp : Fin n × Fin n → ℝ := fun e => a e.1 e.2 + a e.2 e.1
  n * (n - 1) - (Finset.univ.filter fun e => tmp e ≠ 0).card

/-- The loop nest shared by all `count_3motif_m_ndarray` (network_functions.py:481-738) and `count_3motif_m_sparse` (741-993):
```
for i in range(n):
    for j in range(n):
        if j is not i:
            for k in range(n):
                if k is not j and k is not i and i is not j:
                    s += term
```
`isNot` is the meaning of `is not` on the loop variables. -/
def tripleLoop (isNot : Fin n → Fin n → Prop) [DecidableRel isNot] (term : Fin n → Fin n → Fin n → ℝ) : ℝ :=
  forR n (fun i s => forR n (fun j s =>
    if isNot j i then
      forR n (fun k s => if isNot k j ∧ isNot k i ∧ isNot i j then s + term i j k else s) s
    else s) s) 0

/-- `is not` inside numba-compiled code: the operands are unboxed integers of the same type, numba lowers the test to `!=`. -/
abbrev numbaIsNot (i j : Fin n) : Prop := i ≠ j

/-- `is not` in interpreted Python on two integers produced by two different `range` iterators: object identity.  CPython keeps one shared object for
each integer from -5 to 256 and makes a fresh object for every other one, so the test is `i != j` up to 256 and always true above. -/
abbrev pyIsNot (i j : Fin n) : Prop := i ≠ j ∨ 256 < i.val

/-- network_functions.py:482-498 `count_3motif_1_ndarray`. -/
noncomputable def count_3motif_1_ndarray (a : Fin n → Fin n → ℝ) : ℝ :=
  tripleLoop numbaIsNot fun i j k => (1 - a i j) * a j i * (1 - a i k) * (1 - a k i) * a j k * (1 - a k j)

/-- network_functions.py:502-518 `count_3motif_2_ndarray`. -/
noncomputable def count_3motif_2_ndarray (a : Fin n → Fin n → ℝ) : ℝ :=
  tripleLoop numbaIsNot fun i j k => a i j * (1 - a j i) * (1 - a i k) * (1 - a k i) * a j k * (1 - a k j)

/-- network_functions.py:522-538 `count_3motif_3_ndarray`. -/
noncomputable def count_3motif_3_ndarray (a : Fin n → Fin n → ℝ) : ℝ :=
  tripleLoop numbaIsNot fun i j k => a i j * a j i * (1 - a i k) * (1 - a k i) * a j k * (1 - a k j)

/-- network_functions.py:542-558 `count_3motif_4_ndarray`. -/
noncomputable def count_3motif_4_ndarray (a : Fin n → Fin n → ℝ) : ℝ :=
  tripleLoop numbaIsNot fun i j k => (1 - a i j) * (1 - a j i) * a i k * (1 - a k i) * a j k * (1 - a k j)

/-- network_functions.py:562-578 `count_3motif_5_ndarray`. -/
noncomputable def count_3motif_5_ndarray (a : Fin n → Fin n → ℝ) : ℝ :=
  tripleLoop numbaIsNot fun i j k => (1 - a i j) * a j i * a i k * (1 - a k i) * a j k * (1 - a k j)

/-- network_functions.py:582-598 `count_3motif_6_ndarray`. -/
noncomputable def count_3motif_6_ndarray (a : Fin n → Fin n → ℝ) : ℝ :=
  tripleLoop numbaIsNot fun i j k => a i j * a j i * a i k * (1 - a k i) * a j k * (1 - a k j)

/-- network_functions.py:602-618 `count_3motif_7_ndarray`. -/
noncomputable def count_3motif_7_ndarray (a : Fin n → Fin n → ℝ) : ℝ :=
  tripleLoop numbaIsNot fun i j k => a i j * a j i * (1 - a i k) * (1 - a k i) * (1 - a j k) * a k j

/-- network_functions.py:622-638 `count_3motif_8_ndarray`. -/
noncomputable def count_3motif_8_ndarray (a : Fin n → Fin n → ℝ) : ℝ :=
  tripleLoop numbaIsNot fun i j k => a i j * a j i * (1 - a i k) * (1 - a k i) * a j k * a k j

/-- network_functions.py:642-658 `count_3motif_9_ndarray`. -/
noncomputable def count_3motif_9_ndarray (a : Fin n → Fin n → ℝ) : ℝ :=
  tripleLoop numbaIsNot fun i j k => (1 - a i j) * a j i * a i k * (1 - a k i) * (1 - a j k) * a k j

/-- network_functions.py:662-678 `count_3motif_10_ndarray`. -/
noncomputable def count_3motif_10_ndarray (a : Fin n → Fin n → ℝ) : ℝ :=
  tripleLoop numbaIsNot fun i j k => (1 - a i j) * a j i * a i k * (1 - a k i) * a j k * a k j

/-- network_functions.py:682-698 `count_3motif_11_ndarray`. -/
noncomputable def count_3motif_11_ndarray (a : Fin n → Fin n → ℝ) : ℝ :=
  tripleLoop numbaIsNot fun i j k => a i j * (1 - a j i) * a i k * (1 - a k i) * a j k * a k j

/-- network_functions.py:702-718 `count_3motif_12_ndarray`. -/
noncomputable def count_3motif_12_ndarray (a : Fin n → Fin n → ℝ) : ℝ :=
  tripleLoop numbaIsNot fun i j k => a i j * a j i * a i k * (1 - a k i) * a j k * a k j

/-- network_functions.py:722-737 `count_3motif_13_ndarray`. -/
noncomputable def count_3motif_13_ndarray (a : Fin n → Fin n → ℝ) : ℝ :=
  tripleLoop numbaIsNot fun i j k => a i j * a j i * a i k * a k i * a j k * a k j

/-- network_functions.py:741-757 `count_3motif_1_sparse`. -/
noncomputable def count_3motif_1_sparse (a : Fin n → Fin n → ℝ) : ℝ :=
  tripleLoop pyIsNot fun i j k => (1 - a i j) * a j i * (1 - a i k) * (1 - a k i) * a j k * (1 - a k j)

/-- network_functions.py:761-777 `count_3motif_2_sparse`. -/
noncomputable def count_3motif_2_sparse (a : Fin n → Fin n → ℝ) : ℝ :=
  tripleLoop pyIsNot fun i j k => a i j * (1 - a j i) * (1 - a i k) * (1 - a k i) * a j k * (1 - a k j)

/-- network_functions.py:781-797 `count_3motif_3_sparse`. -/
noncomputable def count_3motif_3_sparse (a : Fin n → Fin n → ℝ) : ℝ :=
  tripleLoop pyIsNot fun i j k => a i j * a j i * (1 - a i k) * (1 - a k i) * a j k * (1 - a k j)

/-- network_functions.py:801-817 `count_3motif_4_sparse`. -/
noncomputable def count_3motif_4_sparse (a : Fin n → Fin n → ℝ) : ℝ :=
  tripleLoop pyIsNot fun i j k => (1 - a i j) * (1 - a j i) * a i k * (1 - a k i) * a j k * (1 - a k j)

/-- network_functions.py:821-837 `count_3motif_5_sparse`. -/
noncomputable def count_3motif_5_sparse (a : Fin n → Fin n → ℝ) : ℝ :=
  tripleLoop pyIsNot fun i j k => (1 - a i j) * a j i * a i k * (1 - a k i) * a j k * (1 - a k j)

/-- network_functions.py:841-857 `count_3motif_6_sparse`. -/
noncomputable def count_3motif_6_sparse (a : Fin n → Fin n → ℝ) : ℝ :=
  tripleLoop pyIsNot fun i j k => a i j * a j i * a i k * (1 - a k i) * a j k * (1 - a k j)

/-- network_functions.py:861-877 `count_3motif_7_sparse`. -/
noncomputable def count_3motif_7_sparse (a : Fin n → Fin n → ℝ) : ℝ :=
  tripleLoop pyIsNot fun i j k => a i j * a j i * (1 - a i k) * (1 - a k i) * (1 - a j k) * a k j

/-- network_functions.py:881-897 `count_3motif_8_sparse`. -/
noncomputable def count_3motif_8_sparse (a : Fin n → Fin n → ℝ) : ℝ :=
  tripleLoop pyIsNot fun i j k => a i j * a j i * (1 - a i k) * (1 - a k i) * a j k * a k j

/-- network_functions.py:901-917 `count_3motif_9_sparse`. -/
noncomputable def count_3motif_9_sparse (a : Fin n → Fin n → ℝ) : ℝ :=
  tripleLoop pyIsNot fun i j k => (1 - a i j) * a j i * a i k * (1 - a k i) * (1 - a j k) * a k j

/-- network_functions.py:921-937 `count_3motif_10_sparse`. -/
noncomputable def count_3motif_10_sparse (a : Fin n → Fin n → ℝ) : ℝ :=
  tripleLoop pyIsNot fun i j k => (1 - a i j) * a j i * a i k * (1 - a k i) * a j k * a k j

/-- network_functions.py:941-956 `count_3motif_11_sparse`. -/
noncomputable def count_3motif_11_sparse (a : Fin n → Fin n → ℝ) : ℝ :=
  tripleLoop pyIsNot fun i j k => a i j * (1 - a j i) * a i k * (1 - a k i) * a j k * a k j

/-- network_functions.py:960-975 `count_3motif_12_sparse`. -/
noncomputable def count_3motif_12_sparse (a : Fin n → Fin n → ℝ) : ℝ :=
  tripleLoop pyIsNot fun i j k => a i j * a j i * a i k * (1 - a k i) * a j k * a k j

/-- network_functions.py:979-993 `count_3motif_13_sparse`. -/
noncomputable def count_3motif_13_sparse (a : Fin n → Fin n → ℝ) : ℝ :=
  tripleLoop pyIsNot fun i j k => a i j * a j i * a i k * a k i * a j k * a k j

/-- The three kinds of argument the dispatchers distinguish with `isinstance`. -/
inductive Arg (n : ℕ)
  /-- `np.ndarray` -/
  | dense (a : Fin n → Fin n → ℝ)
  /-- `scipy.sparse.spmatrix` -/
  | sparse (a : Fin n → Fin n → ℝ)
  /-- anything else -/
  | other

/-- the shape of all dispatchers: ndarray, spmatrix, else `raise TypeError` (`none`) -/
def dispatch (fd fs : (Fin n → Fin n → ℝ) → ℝ) : Arg n → Option ℝ
  | .dense a => some (fd a)
  | .sparse a => some (fs a)
  | .other => none

/-- network_functions.py:996-1007 `count_3motif_1`. -/
noncomputable def count_3motif_1 : Arg n → Option ℝ := dispatch count_3motif_1_ndarray count_3motif_1_sparse

/-- network_functions.py:1010-1021 `count_3motif_2`. -/
noncomputable def count_3motif_2 : Arg n → Option ℝ := dispatch count_3motif_2_ndarray count_3motif_2_sparse

/-- network_functions.py:1024-1035 `count_3motif_3`. -/
noncomputable def count_3motif_3 : Arg n → Option ℝ := dispatch count_3motif_3_ndarray count_3motif_3_sparse

/-- network_functions.py:1038-1049 `count_3motif_4`. -/
noncomputable def count_3motif_4 : Arg n → Option ℝ := dispatch count_3motif_4_ndarray count_3motif_4_sparse

/-- network_functions.py:1052-1063 `count_3motif_5`. -/
noncomputable def count_3motif_5 : Arg n → Option ℝ := dispatch count_3motif_5_ndarray count_3motif_5_sparse

/-- network_functions.py:1066-1077 `count_3motif_6`. -/
noncomputable def count_3motif_6 : Arg n → Option ℝ := dispatch count_3motif_6_ndarray count_3motif_6_sparse

/-- network_functions.py:1080-1091 `count_3motif_7`. -/
noncomputable def count_3motif_7 : Arg n → Option ℝ := dispatch count_3motif_7_ndarray count_3motif_7_sparse

/-- network_functions.py:1094-1105 `count_3motif_8`. -/
noncomputable def count_3motif_8 : Arg n → Option ℝ := dispatch count_3motif_8_ndarray count_3motif_8_sparse

/-- network_functions.py:1108-1119 `count_3motif_9`. -/
noncomputable def count_3motif_9 : Arg n → Option ℝ := dispatch count_3motif_9_ndarray count_3motif_9_sparse

/-- network_functions.py:1122-1133 `count_3motif_10`. -/
noncomputable def count_3motif_10 : Arg n → Option ℝ := dispatch count_3motif_10_ndarray count_3motif_10_sparse

/-- network_functions.py:1136-1147 `count_3motif_11`. -/
noncomputable def count_3motif_11 : Arg n → Option ℝ := dispatch count_3motif_11_ndarray count_3motif_11_sparse

/-- network_functions.py:1150-1161 `count_3motif_12`. -/
noncomputable def count_3motif_12 : Arg n → Option ℝ := dispatch count_3motif_12_ndarray count_3motif_12_sparse

/-- network_functions.py:1164-1175 `count_3motif_13`. -/
noncomputable def count_3motif_13 : Arg n → Option ℝ := dispatch count_3motif_13_ndarray count_3motif_13_sparse

/-- all thirteen dense counters as one family (index `m - 1`), used to state properties of all of them at once -/
noncomputable def count3 (m : Fin 13) : (Fin n → Fin n → ℝ) → ℝ :=
  ![count_3motif_1_ndarray, count_3motif_2_ndarray, count_3motif_3_ndarray, count_3motif_4_ndarray, count_3motif_5_ndarray, count_3motif_6_ndarray, count_3motif_7_ndarray, count_3motif_8_ndarray, count_3motif_9_ndarray, count_3motif_10_ndarray, count_3motif_11_ndarray, count_3motif_12_ndarray, count_3motif_13_ndarray] m

/-- all thirteen sparse counters as one family -/
noncomputable def count3s (m : Fin 13) : (Fin n → Fin n → ℝ) → ℝ :=
  ![count_3motif_1_sparse, count_3motif_2_sparse, count_3motif_3_sparse, count_3motif_4_sparse, count_3motif_5_sparse, count_3motif_6_sparse, count_3motif_7_sparse, count_3motif_8_sparse, count_3motif_9_sparse, count_3motif_10_sparse, count_3motif_11_sparse, count_3motif_12_sparse, count_3motif_13_sparse] m

end Verif.Motif
