import Verif.Base
import Verif.Model.DCM
import Mathlib.Analysis.SpecialFunctions.Log.Basic
import Mathlib.Analysis.SpecialFunctions.Exp

/-!
Model of the CReMa functions (conditional reconstruction of weights given the topology) of
`/repo/src/NEMtropy/models_functions.py`, undirected and directed, dense (edge triples) and sparse (product form).

Dense: `adj = (raw_ind, col_ind, weigths_val)`, three arrays of equal length that the code only uses through
`zip(raw_ind, col_ind, weigths_val)`: a list of triples `(i, j, w)`.

Sparse: `adj = (x,)` or `(x, y)`: the parameters of the binary model; the pair value is `x_i x_j / (1 + x_i x_j)`.

A `prange` loop is run by several threads.  It is modelled as a loop over an arbitrary order `sched` of its index range (iterations
are atomic): a theorem that holds for every permutation holds for every such interleaving.
-/

namespace Verif

/-- `zip(raw_ind, col_ind, weigths_val)`: a list of `(i, j, w)` -/
abbrev Edges (n : ℕ) := List (Fin n × Fin n × ℝ)

/-- all index pairs of an `n × n` array in row-major order, the order of `np.nonzero` -/
def pairs (n : ℕ) : List (Fin n × Fin n) := (List.finRange n).flatMap fun i => (List.finRange n).map fun j => (i, j)

/-- graph_classes.py 834-839, 844-848, 853-857: `raw_ind, col_ind = np.nonzero(np.triu(a))`,
`weigths_value = a[raw_ind, col_ind]`. -/
noncomputable def triuEdges {n : ℕ} (a : Fin n → Fin n → ℝ) : Edges n :=
  ((pairs n).filter fun e => e.1 ≤ e.2 ∧ a e.1 e.2 ≠ 0).map fun e => (e.1, e.2, a e.1 e.2)

/-- graph_classes.py 2314-2319, 2324-2328, 2333-2337: `raw_ind, col_ind = np.nonzero(a)`,
`weigths_value = a[raw_ind, col_ind]`. -/
noncomputable def nzEdges {n : ℕ} (a : Fin n → Fin n → ℝ) : Edges n :=
  ((pairs n).filter fun e => a e.1 e.2 ≠ 0).map fun e => (e.1, e.2, a e.1 e.2)

end Verif

namespace Verif.CReMa

open Verif

variable {n : ℕ}

/-- models_functions.py 1184-1208, `iterative_crema_undirected` (`args = (s, adj, nz_index)`). -/
noncomputable def iterative_crema_undirected (β s : Fin n → ℝ) (adj : Edges n) : Fin n → ℝ :=
  let f : Fin n → ℝ := fun _ => 0
  let f := forL adj (fun e f =>
    let i := e.1; let j := e.2.1; let w := e.2.2
    let f := subAt f i (w / (1 + (β j / β i)))
    subAt f j (w / (1 + (β i / β j)))) f
  forR n (fun i f => if s i ≠ 0 then setAt f i (f i / s i) else f) f

/-- models_functions.py 1212-1234, `iterative_crema_undirected_sparse`. -/
noncomputable def iterative_crema_undirected_sparse (sched : List (Fin n)) (β s x : Fin n → ℝ) : Fin n → ℝ :=
  forL sched (fun i f =>
    let aux : Fin n → ℝ := fun j => x i * x j
    let aux_value : Fin n → ℝ := fun j => aux j / (1 + aux j)
    let aux : Fin n → ℝ := fun j => aux_value j / (1 + (β j / β i))
    setAt f i ((-(∑ j, aux j) + aux i) / (s i + Real.exp (-100)))) (fun _ => 0)

/-- models_functions.py 1238-1266, `iterative_crema_sparse_2`.  The inner range is `np.arange(i+1, n)`. -/
noncomputable def iterative_crema_sparse_2 (β s x : Fin n → ℝ) : Fin n → ℝ :=
  let f : Fin n → ℝ := fun _ => 0
  let f := forR n (fun i f => forR n (fun j f =>
    if i < j then
      let aux := x i * x j
      let aux_value := aux / (1 + aux)
      if 0 < aux_value then
        let f := subAt f i (aux_value / (1 + (β j / β i)))
        subAt f j (aux_value / (1 + (β i / β j)))
      else f
    else f) f) f
  forR n (fun i f => if s i ≠ 0 then setAt f i (f i / s i) else f) f

/-- models_functions.py 1270-1295, `loglikelihood_crema_undirected`. -/
noncomputable def loglikelihood_crema_undirected (β s : Fin n → ℝ) (adj : Edges n) : ℝ :=
  let f := forR n (fun i f => f - s i * β i) (0 : ℝ)
  forL adj (fun e f =>
    let i := e.1; let j := e.2.1; let w := e.2.2
    f + w * Real.log (β i + β j)) f

/-- models_functions.py 1299-1325, `loglikelihood_crema_undirected_sparse`.  The inner range is `np.arange(0, i)`. -/
noncomputable def loglikelihood_crema_undirected_sparse (β s x : Fin n → ℝ) : ℝ :=
  forR n (fun i f =>
    let f := f - s i * β i
    forR n (fun j f =>
      if j < i then
        let aux := x i * x j
        let aux_value := aux / (1 + aux)
        if 0 < aux_value then f + aux_value * Real.log (β i + β j) else f
      else f) f) (0 : ℝ)

/-- models_functions.py 1329-1355, `loglikelihood_prime_crema_undirected`. -/
noncomputable def loglikelihood_prime_crema_undirected (β s : Fin n → ℝ) (adj : Edges n) : Fin n → ℝ :=
  let f : Fin n → ℝ := fun _ => 0
  let f := forR n (fun i f => subAt f i (s i)) f
  forL adj (fun e f =>
    let i := e.1; let j := e.2.1; let w := e.2.2
    let aux := β i + β j
    let f := addAt f i (w / aux)
    addAt f j (w / aux)) f

/-- models_functions.py 1359-1383, `loglikelihood_prime_crema_undirected_sparse`. -/
noncomputable def loglikelihood_prime_crema_undirected_sparse (sched : List (Fin n)) (β s x : Fin n → ℝ) : Fin n → ℝ :=
  forL sched (fun i f =>
    let f := subAt f i (s i)
    let aux : Fin n → ℝ := fun j => x i * x j
    let aux_value : Fin n → ℝ := fun j => aux j / (1 + aux j)
    let aux : Fin n → ℝ := fun j => aux_value j / (β i + β j)
    addAt f i ((∑ j, aux j) - aux i)) (fun _ => 0)

/-- models_functions.py 1387-1414, `loglikelihood_prime_crema_sparse_2`. -/
noncomputable def loglikelihood_prime_crema_sparse_2 (β s x : Fin n → ℝ) : Fin n → ℝ :=
  forR n (fun i f =>
    let f := subAt f i (s i)
    forR n (fun j f =>
      if j < i then
        let aux := x i * x j
        let aux_value := aux / (1 + aux)
        if 0 < aux_value then
          let aux := β i + β j
          let f := addAt f i (aux_value / aux)
          addAt f j (aux_value / aux)
        else f
      else f) f) (fun _ => 0)

/-- models_functions.py 1418-1444, `loglikelihood_hessian_crema_undirected`. -/
noncomputable def loglikelihood_hessian_crema_undirected (β : Fin n → ℝ) (adj : Edges n) : Fin n → Fin n → ℝ :=
  forL adj (fun e f =>
    let i := e.1; let j := e.2.1; let w := e.2.2
    let aux := -w / ((β i + β j) ^ 2)
    let f := setAt2 f i j aux
    let f := setAt2 f j i aux
    let f := addAt2 f i i aux
    addAt2 f j j aux) (fun _ _ => 0)

/-- models_functions.py 1448-1471, `loglikelihood_hessian_diag_crema_undirected`. -/
noncomputable def loglikelihood_hessian_diag_crema_undirected (β : Fin n → ℝ) (adj : Edges n) : Fin n → ℝ :=
  forL adj (fun e f =>
    let i := e.1; let j := e.2.1; let w := e.2.2
    let aux := w / ((β i + β j) ^ 2)
    let f := subAt f i aux
    subAt f j aux) (fun _ => 0)

/-- models_functions.py 1475-1498, `loglikelihood_hessian_diag_crema_undirected_sparse`. -/
noncomputable def loglikelihood_hessian_diag_crema_undirected_sparse (sched : List (Fin n)) (β x : Fin n → ℝ) : Fin n → ℝ :=
  forL sched (fun i f =>
    let aux : Fin n → ℝ := fun j => x i * x j
    let aux_value : Fin n → ℝ := fun j => aux j / (1 + aux j)
    let aux : Fin n → ℝ := fun j => aux_value j / ((β i + β j) ^ 2)
    subAt f i ((∑ j, aux j) - aux i)) (fun _ => 0)

/-- models_functions.py 1502-1530, `loglikelihood_hessian_diag_crema_sparse_2`. -/
noncomputable def loglikelihood_hessian_diag_crema_sparse_2 (β x : Fin n → ℝ) : Fin n → ℝ :=
  forR n (fun i f => forR n (fun j f =>
    if j < i then
      if i ≠ j then
        let aux := x i * x j
        let aux_value := aux / (1 + aux)
        if 0 < aux_value then
          let aux := aux_value / ((β i + β j) ^ 2)
          let f := subAt f i aux
          subAt f j aux
        else f
      else f
    else f) f) (fun _ => 0)

/-- models_functions.py 1609-1628, `expected_strength_crema_undirected`. -/
noncomputable def expected_strength_crema_undirected (sol : Fin n → ℝ) (adj : Edges n) : Fin n → ℝ :=
  forL adj (fun e ex_s =>
    let i := e.1; let j := e.2.1; let w := e.2.2
    let aux := w / (sol i + sol j)
    let ex_s := addAt ex_s i aux
    addAt ex_s j aux) (fun _ => 0)

/-- models_functions.py 1632-1653, `expected_strength_crema_undirected_sparse`. -/
noncomputable def expected_strength_crema_undirected_sparse (sol x : Fin n → ℝ) : Fin n → ℝ :=
  forR n (fun i ex_s => forR n (fun j ex_s =>
    if j < i then
      let aux := x i * x j
      let aux_value := aux / (1 + aux)
      if 0 < aux_value then
        let aux := aux_value / (sol i + sol j)
        let ex_s := addAt ex_s i aux
        addAt ex_s j aux
      else ex_s
    else ex_s) ex_s) (fun _ => 0)

end Verif.CReMa

namespace Verif.DCReMa

open Verif Verif.DCM

variable {n : ℕ}

/-- `np.concatenate((xd, yd))` -/
def cat (xd yd : Fin n → ℝ) : Vec n := fun v => if v.1 = 0 then xd v.2 else yd v.2

/-- models_functions.py 3821-3861, `iterative_crema_directed` (`args = (s_out, s_in, adj, nz_out, nz_in)`). -/
noncomputable def iterative_crema_directed (β : Vec n) (s_out s_in : Fin n → ℝ) (adj : Edges n) (no ni : List (Fin n)) : Vec n :=
  let st : (Fin n → ℝ) × (Fin n → ℝ) := forL adj (fun e st =>
    let i := e.1; let j := e.2.1; let w := e.2.2
    (subAt st.1 i (w / (1 + (β (1, j) / β (0, i)))), subAt st.2 j (w / (1 + (β (0, i) / β (1, j)))))) (fun _ => 0, fun _ => 0)
  let xd := forL no (fun i xd => setAt xd i (xd i / s_out i)) st.1
  let yd := forL ni (fun i yd => setAt yd i (yd i / s_in i)) st.2
  cat xd yd

/-- models_functions.py 3865-3916, `iterative_crema_directed_sparse`.  `sx`, `sy` are the orders in which the two `prange` loops
run over the positions of `x_indices` and `y_indices`; `x.nonzero()[0]` is `nonzero x`.  In the second loop the code writes `yd[j]`
(`j` the position in `y_indices`) but reads `yd[index]`; a position `j` is an index `j < len(y_indices) ≤ n`. -/
noncomputable def iterative_crema_directed_sparse (sx sy : List ℕ) (β : Vec n) (s_out s_in x y : Fin n → ℝ) : Vec n :=
  let xi := nonzero x
  let yi := nonzero y
  let xd := forL sx (fun i xd => match xi[i]? with
    | none => xd
    | some index =>
      let aux : Fin n → ℝ := fun j => x index * y j
      let aux_entry : Fin n → ℝ := fun j => aux j / (1 + aux j)
      let aux : Fin n → ℝ := fun j => aux_entry j / (1 + (β (1, j) / (β (0, index) + Real.exp (-100))))
      let xd := subAt xd index ((∑ j, aux j) - aux index)
      setAt xd index (xd index / (s_out index + Real.exp (-100)))) (fun _ => 0)
  let yd := forL sy (fun j yd => if hj : j < n then match yi[j]? with
    | none => yd
    | some index =>
      let aux : Fin n → ℝ := fun i => x i * y index
      let aux_entry : Fin n → ℝ := fun i => aux i / (1 + aux i)
      let aux : Fin n → ℝ := fun i => aux_entry i / (1 + (β (0, i) / (β (1, index) + Real.exp (-100))))
      let yd := subAt yd ⟨j, hj⟩ ((∑ i, aux i) - aux index)
      setAt yd ⟨j, hj⟩ (yd index / (s_in index + Real.exp (-100))) else yd) (fun _ => 0)
  cat xd yd

/-- models_functions.py 3920-3966, `iterative_crema_directed_sparse_2`. -/
noncomputable def iterative_crema_directed_sparse_2 (β : Vec n) (s_out s_in x y : Fin n → ℝ) (no ni : List (Fin n)) : Vec n :=
  let st : (Fin n → ℝ) × (Fin n → ℝ) := forL (nonzero x) (fun i st => forL (nonzero y) (fun j st =>
    if i ≠ j then
      let aux := x i * y j
      let aux_entry := aux / (1 + aux)
      if 0 < aux_entry then
        (subAt st.1 i (aux_entry / (1 + (β (1, j) / β (0, i)))), subAt st.2 j (aux_entry / (1 + (β (0, i) / β (1, j)))))
      else st
    else st) st) (fun _ => 0, fun _ => 0)
  let xd := forL no (fun i xd => setAt xd i (xd i / s_out i)) st.1
  let yd := forL ni (fun i yd => setAt yd i (yd i / s_in i)) st.2
  cat xd yd

/-- models_functions.py 3970-4009, `loglikelihood_crema_directed`. -/
noncomputable def loglikelihood_crema_directed (β : Vec n) (s_out s_in : Fin n → ℝ) (adj : Edges n) (no ni : List (Fin n)) : ℝ :=
  let f := forL no (fun i f => f - s_out i * β (0, i)) (0 : ℝ)
  let f := forL ni (fun i f => f - s_in i * β (1, i)) f
  forL adj (fun e f =>
    let i := e.1; let j := e.2.1; let w := e.2.2
    f + w * Real.log (β (0, i) + β (1, j))) f

/-- models_functions.py 4013-4056, `loglikelihood_crema_directed_sparse`. -/
noncomputable def loglikelihood_crema_directed_sparse (β : Vec n) (s_out s_in x y : Fin n → ℝ) (no ni : List (Fin n)) : ℝ :=
  let f := forL no (fun i f =>
    let f := f - s_out i * β (0, i)
    forL ni (fun j f =>
      if i ≠ j then
        let aux := x i * y j
        let aux_entry := aux / (1 + aux)
        if 0 < aux_entry then f + aux_entry * Real.log (β (0, i) + β (1, j)) else f
      else f) f) (0 : ℝ)
  forL ni (fun i f => f - s_in i * β (1, i)) f

/-- models_functions.py 4060-4099, `loglikelihood_prime_crema_directed`. -/
noncomputable def loglikelihood_prime_crema_directed (β : Vec n) (s_out s_in : Fin n → ℝ) (adj : Edges n)
    (no ni : List (Fin n)) : Vec n :=
  let fo := forL no (fun i f => subAt f i (s_out i)) (fun _ => 0)
  let fi := forL ni (fun i f => subAt f i (s_in i)) (fun _ => 0)
  let st : (Fin n → ℝ) × (Fin n → ℝ) := forL adj (fun e st =>
    let i := e.1; let j := e.2.1; let w := e.2.2
    (addAt st.1 i (w / (β (0, i) + β (1, j))), addAt st.2 j (w / (β (0, i) + β (1, j))))) (fo, fi)
  cat st.1 st.2

/-- models_functions.py 4103-4151, `loglikelihood_prime_crema_directed_sparse`; `sx`, `sy` are the orders in which the two `prange`
loops visit the entries of `nz_index_out` and `nz_index_in`. -/
noncomputable def loglikelihood_prime_crema_directed_sparse (sx sy : List (Fin n)) (β : Vec n) (s_out s_in x y : Fin n → ℝ) : Vec n :=
  let fo := forL sx (fun index f =>
    let f := subAt f index (s_out index)
    let aux : Fin n → ℝ := fun j => x index * y j
    let aux_value : Fin n → ℝ := fun j => aux j / (1 + aux j)
    let aux : Fin n → ℝ := fun j => aux_value j / (β (0, index) + β (1, j))
    addAt f index ((∑ j, aux j) - aux index)) (fun _ => 0)
  let fi := forL sy (fun index f =>
    let f := subAt f index (s_in index)
    let aux : Fin n → ℝ := fun i => x i * y index
    let aux_value : Fin n → ℝ := fun i => aux i / (1 + aux i)
    let aux : Fin n → ℝ := fun i => aux_value i / (β (0, i) + β (1, index))
    addAt f index ((∑ i, aux i) - aux index)) (fun _ => 0)
  cat fo fi

/-- models_functions.py 4155-4201, `loglikelihood_prime_crema_directed_sparse_2`. -/
noncomputable def loglikelihood_prime_crema_directed_sparse_2 (β : Vec n) (s_out s_in x y : Fin n → ℝ) : Vec n :=
  let st : (Fin n → ℝ) × (Fin n → ℝ) := forL (nonzero x) (fun i st =>
    let st := (subAt st.1 i (s_out i), st.2)
    forL (nonzero y) (fun j st =>
      if i ≠ j then
        let aux := x i * y j
        let aux_value := aux / (1 + aux)
        if 0 < aux_value then
          (addAt st.1 i (aux_value / (β (0, i) + β (1, j))), addAt st.2 j (aux_value / (β (0, i) + β (1, j))))
        else st
      else st) st) (fun _ => 0, fun _ => 0)
  let fi := forL (nonzero y) (fun j f => subAt f j (s_in j)) st.2
  cat st.1 fi

/-- models_functions.py 4205-4243, `loglikelihood_hessian_crema_directed`. -/
noncomputable def loglikelihood_hessian_crema_directed (β : Vec n) (adj : Edges n) : Fin 2 × Fin n → Fin 2 × Fin n → ℝ :=
  forL adj (fun e f =>
    let i := e.1; let j := e.2.1; let w := e.2.2
    let aux := w / ((β (0, i) + β (1, j)) ^ 2)
    let f := addAt2 f (0, i) (0, i) (-aux)
    let f := setAt2 f (0, i) (1, j) (-aux)
    let f := setAt2 f (1, j) (0, i) (-aux)
    addAt2 f (1, j) (1, j) (-aux)) (fun _ _ => 0)

/-- models_functions.py 4247-4282, `loglikelihood_hessian_diag_crema_directed`. -/
noncomputable def loglikelihood_hessian_diag_crema_directed (β : Vec n) (adj : Edges n) : Vec n :=
  forL adj (fun e f =>
    let i := e.1; let j := e.2.1; let w := e.2.2
    let f := subAt f (0, i) (w / ((β (0, i) + β (1, j)) ^ 2))
    subAt f (1, j) (w / ((β (0, i) + β (1, j)) ^ 2))) (fun _ => 0)

/-- models_functions.py 4286-4329, `loglikelihood_hessian_diag_crema_directed_sparse`. -/
noncomputable def loglikelihood_hessian_diag_crema_directed_sparse (sched : List (Fin n)) (β : Vec n) (x y : Fin n → ℝ) : Vec n :=
  forL sched (fun i f =>
    let aux : Fin n → ℝ := fun j => x i * y j
    let aux_entry : Fin n → ℝ := fun j => aux j / (1 + aux j)
    let aux : Fin n → ℝ := fun j => aux_entry j / (((β (0, i) + β (1, j)) ^ 2) + Real.exp (-100))
    let f := subAt f (0, i) ((∑ j, aux j) - aux i)
    let aux : Fin n → ℝ := fun j => x j * y i
    let aux_entry : Fin n → ℝ := fun j => aux j / (1 + aux j)
    let aux : Fin n → ℝ := fun j => aux_entry j / (((β (0, j) + β (1, i)) ^ 2) + Real.exp (-100))
    subAt f (1, i) ((∑ j, aux j) - aux i)) (fun _ => 0)

/-- models_functions.py 4333-4379, `loglikelihood_hessian_diag_crema_directed_sparse_2`. -/
noncomputable def loglikelihood_hessian_diag_crema_directed_sparse_2 (β : Vec n) (x y : Fin n → ℝ) : Vec n :=
  forR n (fun i f => forR n (fun j f =>
    if i ≠ j then
      let aux := x i * y j
      let aux_entry := aux / (1 + aux)
      let f := if 0 < aux_entry then subAt f (0, i) (aux_entry / ((β (0, i) + β (1, j)) ^ 2)) else f
      let aux := x j * y i
      let aux_entry := aux / (1 + aux)
      if 0 < aux_entry then subAt f (1, i) (aux_entry / ((β (0, j) + β (1, i)) ^ 2)) else f
    else f) f) (fun _ => 0)

/-- models_functions.py 4383-4405, `expected_out_strength_crema_directed`. -/
noncomputable def expected_out_strength_crema_directed (sol : Vec n) (adj : Edges n) : Fin n → ℝ :=
  forL adj (fun e s =>
    let i := e.1; let j := e.2.1; let w := e.2.2
    addAt s i (w / (sol (0, i) + sol (1, j)))) (fun _ => 0)

/-- models_functions.py 4409-4434, `expected_out_strength_crema_directed_sparse`. -/
noncomputable def expected_out_strength_crema_directed_sparse (sol : Vec n) (x y : Fin n → ℝ) : Fin n → ℝ :=
  forR n (fun i s => forR n (fun j s =>
    if i ≠ j then
      let aux := x i * y j
      let aux_entry := aux / (1 + aux)
      if 0 < aux_entry then addAt s i (aux_entry / (sol (0, i) + sol (1, j))) else s
    else s) s) (fun _ => 0)

/-- models_functions.py 4438-4461, `expected_in_strength_crema_directed`. -/
noncomputable def expected_in_strength_crema_directed (sol : Vec n) (adj : Edges n) : Fin n → ℝ :=
  forL adj (fun e s =>
    let i := e.1; let j := e.2.1; let w := e.2.2
    addAt s j (w / (sol (0, i) + sol (1, j)))) (fun _ => 0)

/-- models_functions.py 4465-4491, `expected_in_stregth_crema_directed_sparse`. -/
noncomputable def expected_in_stregth_crema_directed_sparse (sol : Vec n) (x y : Fin n → ℝ) : Fin n → ℝ :=
  forR n (fun i s => forR n (fun j s =>
    if i ≠ j then
      let aux := x j * y i
      let aux_entry := aux / (1 + aux)
      if 0 < aux_entry then addAt s i (aux_entry / (sol (0, j) + sol (1, i))) else s
    else s) s) (fun _ => 0)

end Verif.DCReMa
