import Verif.Base

/-!
`network_functions.py`, lines 9-432: adjacency matrices from edge lists, degrees and strengths, relabelling of edge lists.

Python exceptions are values of `Except Err`. Two simplifications hold throughout: node labels handed to the adjacency builders are natural numbers (the code
also accepts floats, which it truncates with `int`, and negative integers, which wrap around), and entries are real numbers.
-/

namespace Verif.Net

/-- the exceptions of this file; `outOfBounds` is the unchecked out-of-range write of numba code (undefined behaviour) -/
inductive Err
  | typeError | indexError | keyError | outOfBounds
deriving DecidableEq, Repr

/-- a square matrix together with its size -/
structure SqMat where
  n : ℕ
  val : Fin n → Fin n → ℝ

/-- `adj[i, j] = v` with natural-number indices -/
def write (n : ℕ) (adj : Fin n → Fin n → ℝ) (i j : ℕ) (v : ℝ) : Except Err (Fin n → Fin n → ℝ) :=
  if h : i < n ∧ j < n then .ok (setAt2 adj ⟨i, h.1⟩ ⟨j, h.2⟩ v) else .error .outOfBounds

/-- `len(set(edgelist[:, 0]) | set(edgelist[:, 1]))` -/
def nNodes (src tgt : List ℕ) : ℕ := (src.toFinset ∪ tgt.toFinset).card

/-- network_functions.py:43-71 `build_adjacency_fast` -/
def build_adjacency_fast (edgelist : List (ℕ × ℕ)) (is_directed : Bool) : Except Err SqMat :=
  if is_directed then do
    let n_nodes := nNodes (edgelist.map Prod.fst) (edgelist.map Prod.snd)
    let adj ← edgelist.foldlM (fun adj e => write n_nodes adj e.1 e.2 1) (fun _ _ => 0)
    return ⟨n_nodes, adj⟩
  else do
    let n_nodes := nNodes (edgelist.map Prod.fst) (edgelist.map Prod.snd)
    let adj ← edgelist.foldlM (fun adj e => do
      let adj ← write n_nodes adj e.1 e.2 1
      write n_nodes adj e.2 e.1 1) (fun _ _ => 0)
    return ⟨n_nodes, adj⟩

/-- network_functions.py:101-131 `build_adjacency_fast_weighted` -/
def build_adjacency_fast_weighted (edgelist : List (ℕ × ℕ × ℝ)) (is_directed : Bool) : Except Err SqMat :=
  if is_directed then do
    let n_nodes := nNodes (edgelist.map fun e => e.1) (edgelist.map fun e => e.2.1)
    let adj ← edgelist.foldlM (fun adj e => write n_nodes adj e.1 e.2.1 e.2.2) (fun _ _ => 0)
    return ⟨n_nodes, adj⟩
  else do
    let n_nodes := nNodes (edgelist.map fun e => e.1) (edgelist.map fun e => e.2.1)
    let adj ← edgelist.foldlM (fun adj e => do
      let adj ← write n_nodes adj e.1 e.2.1 e.2.2
      write n_nodes adj e.2.1 e.1 e.2.2) (fun _ _ => 0)
    return ⟨n_nodes, adj⟩

/-- the Python values that occur as `n_nodes`: in the sparse builders it is the *set* of labels, not its size -/
inductive PyVal
  | int (k : ℕ)
  | set (s : Finset ℕ)

/-- `2 * v`: sets do not support multiplication (`TypeError`) -/
def PyVal.double : PyVal → Except Err PyVal
  | .int k => .ok (.int (2 * k))
  | .set _ => .error .typeError

/-- `np.ones(v, dtype=int)`: the shape must be an integer (`TypeError`); only the length matters here -/
def npOnes : PyVal → Except Err ℕ
  | .int k => .ok k
  | .set _ => .error .typeError

/-- `csr_matrix((data, (row, columns)), shape=(v, v))`: the shape must consist of integers (`TypeError`); duplicate entries are summed -/
noncomputable def csr (v : PyVal) (entries : List (ℕ × ℕ × ℝ)) : Except Err SqMat :=
  match v with
  | .int k => .ok ⟨k, fun i j => ((entries.filter fun e => e.1 = i.val ∧ e.2.1 = j.val).map fun e => e.2.2).sum⟩
  | .set _ => .error .typeError

/-- network_functions.py:74-98 `build_adjacency_sparse` (`n_nodes` is a set) -/
noncomputable def build_adjacency_sparse (edgelist : List (ℕ × ℕ)) (is_directed : Bool) : Except Err SqMat :=
  let n_nodes : PyVal := .set ((edgelist.map Prod.fst).toFinset ∪ (edgelist.map Prod.snd).toFinset)
  if is_directed then do
    let _data ← npOnes n_nodes
    csr n_nodes (edgelist.map fun e => (e.1, e.2, 1))
  else do
    let m ← n_nodes.double
    let _data ← npOnes m
    csr n_nodes ((edgelist.map fun e => (e.1, e.2, 1)) ++ edgelist.map fun e => (e.2, e.1, 1))

/-- network_functions.py:134-157 `build_adjacency_sparse_weighted` (`n_nodes` is a set) -/
noncomputable def build_adjacency_sparse_weighted (edgelist : List (ℕ × ℕ × ℝ)) (is_directed : Bool) : Except Err SqMat :=
  let n_nodes : PyVal := .set ((edgelist.map fun e => e.1).toFinset ∪ (edgelist.map fun e => e.2.1).toFinset)
  if is_directed then csr n_nodes edgelist
  else csr n_nodes (edgelist ++ edgelist.map fun e => (e.2.1, e.1, e.2.2))

/-- the argument `edgelist` of `build_adjacency_from_edgelist`: not a numpy array, or an array with two or at least three columns -/
inductive EdgeArg
  | notArray
  | binary (l : List (ℕ × ℕ))
  | weighted (l : List (ℕ × ℕ × ℝ))

/-- the first two columns -/
def EdgeArg.pairs : EdgeArg → List (ℕ × ℕ)
  | .notArray => []
  | .binary l => l
  | .weighted l => l.map fun e => (e.1, e.2.1)

/-- network_functions.py:9-40 `build_adjacency_from_edgelist`. Reading the missing third column of a two-column array is out of range: an
`IndexError` in the sparse code, an unchecked read in the numba code (only if there is at least one edge). -/
noncomputable def build_adjacency_from_edgelist (edgelist : EdgeArg) (is_directed is_sparse is_weighted : Bool) : Except Err SqMat :=
  match edgelist with
  | .notArray => .error .typeError
  | .binary l =>
    if is_sparse then
      if is_weighted then .error .indexError else build_adjacency_sparse l is_directed
    else
      if is_weighted then (if l = [] then build_adjacency_fast l is_directed else .error .outOfBounds) else build_adjacency_fast l is_directed
  | .weighted l =>
    if is_sparse then
      if is_weighted then build_adjacency_sparse_weighted l is_directed
      else build_adjacency_sparse (l.map fun e => (e.1, e.2.1)) is_directed
    else
      if is_weighted then build_adjacency_fast_weighted l is_directed
      else build_adjacency_fast (l.map fun e => (e.1, e.2.1)) is_directed

section degrees
open Classical

variable {n : ℕ}

/-- network_functions.py:160-176 `out_degree`: `np.sum(a > 0, 1)` (dense and sparse branch compute the same; any other type returns `None`) -/
noncomputable def out_degree (a : Fin n → Fin n → ℝ) (i : Fin n) : ℕ := ∑ j, if a i j > 0 then 1 else 0
/-- network_functions.py:179-195 `in_degree`: `np.sum(a > 0, 0)` -/
noncomputable def in_degree (a : Fin n → Fin n → ℝ) (j : Fin n) : ℕ := ∑ i, if a i j > 0 then 1 else 0
/-- network_functions.py:198-213 `out_strength`: `np.sum(a, 1)` -/
def out_strength (a : Fin n → Fin n → ℝ) (i : Fin n) : ℝ := ∑ j, a i j
/-- network_functions.py:216-231 `in_strength`: `np.sum(a, 0)` -/
def in_strength (a : Fin n → Fin n → ℝ) (j : Fin n) : ℝ := ∑ i, a i j
/-- network_functions.py:234-248 `degree`: `np.sum(a > 0, 1)` -/
noncomputable def degree (a : Fin n → Fin n → ℝ) (i : Fin n) : ℕ := ∑ j, if a i j > 0 then 1 else 0
/-- network_functions.py:251-265 `strength`: `np.sum(a, 1)` -/
def strength (a : Fin n → Fin n → ℝ) (i : Fin n) : ℝ := ∑ j, a i j
end degrees

section relabel

variable {α : Type} [LinearOrder α]

/-- run-length encoding: what `np.unique(…, return_counts=True)` computes on the sorted array (`aux[1:] != aux[:-1]`, differences of run starts) -/
def runs {β : Type} [DecidableEq β] : List β → List (β × ℕ)
  | [] => []
  | a :: l => match runs l with
    | [] => [(a, 1)]
    | (b, c) :: r => if a = b then (b, c + 1) :: r else (a, 1) :: (b, c) :: r

/-- `np.unique(l, return_counts=True)` as a list of pairs -/
def npUnique {β : Type} [LinearOrder β] (l : List β) : List (β × ℕ) := runs (l.mergeSort fun a b => decide (a ≤ b))

/-- `dict(enumerate(l))` as an association list -/
def enumDict (l : List α) : List (ℕ × α) := l.zipIdx.map fun p => (p.2, p.1)

/-- `{v: k for k, v in d.items()}`: a later item overwrites an earlier one; `none` = key absent -/
def invDict (d : List (ℕ × α)) : α → Option ℕ :=
  forL d (fun kv f => Function.update f kv.2 (some kv.1)) (fun _ => none)

/-- `d[k]` -/
def lookup (d : α → Option ℕ) (a : α) : Except Err ℕ := match d a with
  | some k => .ok k
  | none => .error .keyError

/-- the edge list argument: pairs or triples (all items of the same length, as `np.array` with a structured dtype demands) -/
inductive Edges (α : Type)
  | binary (l : List (α × α))
  | weighted (l : List (α × α × ℝ))

/-- result of `edgelist_from_edgelist_undirected` -/
structure UndOut (α : Type) where
  edges : List (ℕ × ℕ)
  weights : Option (List ℝ)
  degrees : List ℕ
  strengths : Option (List ℝ)
  nodes : List (ℕ × α)

/-- network_functions.py:268-337 `edgelist_from_edgelist_undirected`. The relabelled edges and their weights are returned as two parallel lists. -/
noncomputable def edgelist_from_edgelist_undirected (edgelist : Edges α) : Except Err (UndOut α) :=
  match edgelist with
  | .binary [] => .error .indexError
  | .weighted [] => .error .indexError
  | .binary l => do
    let u := npUnique (l.map (fun e => e.1) ++ l.map (fun e => e.2))
    let nodes_dict := enumDict (u.map Prod.fst)
    let inv := invDict nodes_dict
    let edges ← l.mapM (fun e => do
      let a ← lookup inv e.1
      let b ← lookup inv e.2
      return (a, b))
    return ⟨edges, none, u.map Prod.snd, none, nodes_dict⟩
  | .weighted l => do
    let u := npUnique (l.map (fun e => e.1) ++ l.map (fun e => e.2.1))
    let nodes_dict := enumDict (u.map Prod.fst)
    let inv := invDict nodes_dict
    let edges ← l.mapM (fun e => do
      let a ← lookup inv e.1
      let b ← lookup inv e.2.1
      return (a, b))
    let weights := l.map fun e => e.2.2
    let aux := (edges.map Prod.fst ++ edges.map Prod.snd).zip (weights ++ weights)
    let strength := nodes_dict.map fun kv => ((aux.filter fun p => p.1 = kv.1).map Prod.snd).sum
    return ⟨edges, some weights, u.map Prod.snd, some strength, nodes_dict⟩

/-- result of `edgelist_from_edgelist_directed` -/
structure DirOut (α : Type) where
  edges : List (ℕ × ℕ)
  weights : Option (List ℝ)
  outDegrees : List ℕ
  inDegrees : List ℕ
  outStrengths : Option (List ℝ)
  inStrengths : Option (List ℝ)
  nodes : List (ℕ × α)

/-- `a[idx] = vals` (fancy assignment) on a list; numpy raises `IndexError` for an index out of range -/
def fancySet {β : Type} (a : List β) (iv : List (ℕ × β)) : Except Err (List β) :=
  iv.foldlM (fun a p => if p.1 < a.length then .ok (a.set p.1 p.2) else .error .indexError) a

/-- network_functions.py:340-432 `edgelist_from_edgelist_directed` -/
noncomputable def edgelist_from_edgelist_directed (edgelist : Edges α) : Except Err (DirOut α) :=
  match edgelist with
  | .binary [] => .error .indexError
  | .weighted [] => .error .indexError
  | .binary l => do
    let u := npUnique (l.map (fun e => e.1) ++ l.map (fun e => e.2))
    let nodes_dict := enumDict (u.map Prod.fst)
    let inv := invDict nodes_dict
    let edges ← l.mapM (fun e => do
      let a ← lookup inv e.1
      let b ← lookup inv e.2
      return (a, b))
    let zeros := (u.map Prod.fst).map fun _ => 0
    let out_degree ← fancySet zeros (npUnique (edges.map Prod.fst))
    let in_degree ← fancySet zeros (npUnique (edges.map Prod.snd))
    return ⟨edges, none, out_degree, in_degree, none, none, nodes_dict⟩
  | .weighted l => do
    let u := npUnique (l.map (fun e => e.1) ++ l.map (fun e => e.2.1))
    let nodes_dict := enumDict (u.map Prod.fst)
    let inv := invDict nodes_dict
    let edges ← l.mapM (fun e => do
      let a ← lookup inv e.1
      let b ← lookup inv e.2.1
      return (a, b))
    let weights := l.map fun e => e.2.2
    let zeros := (u.map Prod.fst).map fun _ => 0
    let out_degree ← fancySet zeros (npUnique (edges.map Prod.fst))
    let in_degree ← fancySet zeros (npUnique (edges.map Prod.snd))
    let zerosf := (u.map Prod.fst).map fun _ => (0 : ℝ)
    let out_counts := (npUnique (edges.map Prod.fst)).map fun p =>
      (p.1, (((edges.zip weights).filter fun ew => ew.1.1 = p.1).map Prod.snd).sum)
    let in_counts := (npUnique (edges.map Prod.snd)).map fun p =>
      (p.1, (((edges.zip weights).filter fun ew => ew.1.2 = p.1).map Prod.snd).sum)
    let out_strength ← fancySet zerosf out_counts
    let in_strength ← fancySet zerosf in_counts
    return ⟨edges, some weights, out_degree, in_degree, some out_strength, some in_strength, nodes_dict⟩

end relabel

end Verif.Net
