import Verif.Model.Network

/-!
`graph_classes.py`: construction and life cycle of `UndirectedGraph` (lines 19-299) and `DirectedGraph` (lines 1138-1449).

The object is a record of attributes; a call maps the attributes before to the attributes after together with the exception it raised, if any, so that
attributes assigned before an exception stay assigned, as in Python.  Simplifications: adjacency matrices are square and have real entries, a scipy matrix
stores no explicit zeros, sequences are one-dimensional and finite (no nan, no infinity), all items of an edge list have the same length.  The attributes that
`__init__` sets to `None` or `False` after `_initialize_graph` and that construction never reads (`avg_mat`, `x`, `beta`, ...) are not part of this record
(they are modelled in `Model/Solve.lean`), with the exception of `nz_index`, which `_initialize_graph` had already set.
-/

namespace Verif.Graph

open Net

/-- the exceptions raised by the two classes -/
inductive Exc
  | typeError | valueError | attributeError | indexError | keyError | other
deriving DecidableEq, Repr

/-- exceptions of `network_functions` passing through -/
def Exc.ofNet : Net.Err → Exc
  | .typeError => .typeError
  | .indexError => .indexError
  | .keyError => .keyError
  | .outOfBounds => .other

/-- the argument `adjacency`: something of another type, a Python list (whose items are never looked at), a numpy array, a scipy matrix -/
inductive AdjArg
  | other
  | list
  | dense (m : SqMat)
  | sparse (m : SqMat)

/-- the argument `edgelist`: something of another type, a list whose first item has more than three entries, or a list of pairs or triples -/
inductive EdgeArg (α : Type)
  | other
  | wide
  | edges (e : Edges α)

/-- the arguments `degree_sequence` and `strength_sequence`: something of another type, a Python list or a numpy array.  The item `none` is one that is
not a number (`int` raises `ValueError` or `TypeError` on it, comparing it with 0 raises `TypeError`). -/
inductive SeqArg
  | other
  | list (l : List (Option ℝ))
  | array (l : List (Option ℝ))

/-- the arguments of both constructors and of `_initialize_graph`; the outer `none` is Python's `None` -/
structure Args (α : Type) where
  adjacency : Option AdjArg := none
  edgelist : Option (EdgeArg α) := none
  degree_sequence : Option SeqArg := none
  strength_sequence : Option SeqArg := none

/-- `len(edgelist)` -/
def edgesLength {α : Type} : Edges α → ℕ
  | .binary l => l.length
  | .weighted l => l.length

/-- the tests `int(seq[0])` and `(np.array(seq) < 0).sum() > 0` on a non-empty sequence: a non-numeric item raises `TypeError` in one or the other, a
negative one `ValueError` with the class's own message -/
noncomputable def checkSeq (l : List (Option ℝ)) : Except Exc (List ℝ) :=
  if l.head? = some none then .error .typeError
  else if none ∈ l then .error .typeError
  else
    let v := l.map fun o => o.getD 0
    open Classical in
    if ∃ r ∈ v, r < 0 then .error .valueError else .ok v

/-- `np.nonzero(v)[0]` -/
noncomputable def nonzero (v : List ℝ) : List ℕ :=
  open Classical in (v.zipIdx.filter fun p => decide (p.1 ≠ 0)).map Prod.snd

/-- `adjacency.size`: number of entries of an array, number of stored entries of a scipy matrix -/
noncomputable def matSize (sparse : Bool) (m : SqMat) : ℕ :=
  open Classical in if sparse then ∑ i, ∑ j, (if m.val i j ≠ 0 then 1 else 0) else m.n * m.n

/-- `np.sum(adjacency < 0)` as a truth value -/
def hasNegative (m : SqMat) : Prop := ∃ i j, m.val i j < 0

/-- `np.sum(adjacency) == np.sum(adjacency > 0)` -/
def looksBinary (m : SqMat) : Prop :=
  open Classical in ∑ i, ∑ j, m.val i j = ∑ i, ∑ j, if m.val i j > 0 then (1 : ℝ) else 0

section undirected

/-- the attributes of an `UndirectedGraph` that construction assigns (graph_classes.py:39-49 and 84) -/
structure UState (α : Type) where
  n_nodes : Option ℕ := none
  n_edges : Option ℝ := none
  adjacency : Option SqMat := none
  is_sparse : Bool := false
  edgelist : Option (List (ℕ × ℕ) × Option (List ℝ)) := none
  dseq : Option (List ℝ) := none
  strength_sequence : Option (List ℝ) := none
  nz_index : Option (List ℕ) := none
  nodes_dict : Option (List (ℕ × α)) := none
  is_initialized : Bool := false
  is_weighted : Bool := false

variable {α : Type} [LinearOrder α]

/-- graph_classes.py:107-141: the branch `adjacency is not None` -/
noncomputable def uInitAdj (g : UState α) : AdjArg → UState α × Option Exc
  | .other => (g, some .typeError)
  | .list => (g, some .attributeError)      -- `adjacency.size` on a list
  | .dense m => go g false m
  | .sparse m => go g true m
where
  /-- lines 115-141 -/
  go (g : UState α) (sparse : Bool) (m : SqMat) : UState α × Option Exc :=
    open Classical in
    if matSize sparse m > 0 then
      if hasNegative m then (g, some .typeError)
      else
        let g := { g with adjacency := some m }
        let g := if sparse then { g with is_sparse := true } else g
        let dseq := List.ofFn fun i => (degree m.val i : ℝ)
        let g := { g with dseq := some dseq }
        let g := if looksBinary m then g else
          let s := List.ofFn fun i => strength m.val i
          { g with strength_sequence := some s, nz_index := some (nonzero s), is_weighted := true }
        ({ g with n_nodes := some dseq.length, n_edges := some (dseq.sum / 2), is_initialized := true }, none)
    else (g, none)

/-- graph_classes.py:143-173: the branch `edgelist is not None` -/
noncomputable def uInitEdges (g : UState α) : EdgeArg α → UState α × Option Exc
  | .other => (g, some .typeError)
  | .wide => (g, some .valueError)
  | .edges e =>
    if edgesLength e > 0 then
      match edgelist_from_edgelist_undirected e with
      | .error x => (g, some (.ofNet x))
      | .ok o =>
        let dseq := o.degrees.map fun k : ℕ => (k : ℝ)
        let g := { g with edgelist := some (o.edges, o.weights), dseq := some dseq, nodes_dict := some o.nodes }
        let g := match e with
          | .binary _ => g
          | .weighted _ => { g with strength_sequence := o.strengths, is_weighted := true }
        ({ g with n_nodes := some dseq.length, n_edges := some (dseq.sum / 2), is_initialized := true }, none)
    else (g, none)

/-- graph_classes.py:197-226: the strength sequence given together with a degree sequence of length `nd` -/
noncomputable def uInitStrengthWith (g : UState α) (nd : ℕ) : Option SeqArg → UState α × Option Exc
  | none => (g, none)
  | some .other => (g, some .typeError)
  | some (.list l) => go g nd l true
  | some (.array l) => go g nd l false
where
  /-- lines 203-226 -/
  go (g : UState α) (nd : ℕ) (l : List (Option ℝ)) (isList : Bool) : UState α × Option Exc :=
    if l.length = 0 then (g, none)
    else match checkSeq l with
      | .error x => (g, some x)
      | .ok v =>
        if v.length ≠ nd then (g, some .valueError)
        else
          let g := { g with n_nodes := some v.length }
          if isList then (g, some .attributeError)      -- `strength_sequence.astype`
          else ({ g with strength_sequence := some v, nz_index := some (nonzero v), is_weighted := true, is_initialized := true }, none)

/-- graph_classes.py:175-226: the branch `degree_sequence is not None` -/
noncomputable def uInitDegrees (g : UState α) (s : Option SeqArg) : SeqArg → UState α × Option Exc
  | .other => (g, some .typeError)
  | .list l => go g s l true
  | .array l => go g s l false
where
  /-- lines 181-226 -/
  go (g : UState α) (s : Option SeqArg) (l : List (Option ℝ)) (isList : Bool) : UState α × Option Exc :=
    if l.length > 0 then
      match checkSeq l with
      | .error x => (g, some x)
      | .ok v =>
        let g := { g with n_nodes := some v.length }
        if isList then (g, some .attributeError)      -- `degree_sequence.astype`
        else uInitStrengthWith { g with dseq := some v, n_edges := some (v.sum / 2), is_initialized := true } v.length s
    else (g, none)

/-- graph_classes.py:228-249: the branch `strength_sequence is not None` -/
noncomputable def uInitStrengths (g : UState α) : SeqArg → UState α × Option Exc
  | .other => (g, some .typeError)
  | .list l => go g l
  | .array l => go g l
where
  /-- lines 234-249 (no `astype` here: a list is accepted) -/
  go (g : UState α) (l : List (Option ℝ)) : UState α × Option Exc :=
    if l.length = 0 then (g, none)
    else match checkSeq l with
      | .error x => (g, some x)
      | .ok v => ({ g with n_nodes := some v.length, strength_sequence := some v, nz_index := some (nonzero v), is_weighted := true,
                           is_initialized := true }, none)

/-- graph_classes.py:97-249 `UndirectedGraph._initialize_graph` -/
noncomputable def uInit (g : UState α) (a : Args α) : UState α × Option Exc :=
  match a.adjacency, a.edgelist, a.degree_sequence, a.strength_sequence with
  | some m, _, _, _ => uInitAdj g m
  | none, some e, _, _ => uInitEdges g e
  | none, none, some d, s => uInitDegrees g s d
  | none, none, none, some s => uInitStrengths g s
  | none, none, none, none => (g, none)

/-- graph_classes.py:32-95 `UndirectedGraph.__init__`: the attributes start empty; `nz_index` is set to `None` again at the end (line 84) -/
noncomputable def UndirectedGraph (a : Args α) : Except Exc (UState α) :=
  match uInit {} a with
  | (_, some x) => .error x
  | (g, none) => .ok { g with nz_index := none }

/-- the public methods that change the topology -/
inductive Op (α : Type)
  | set_adjacency_matrix (a : AdjArg)
  | set_edgelist (e : EdgeArg α)
  | set_degree_sequences (d : SeqArg)
  | clean_edges

/-- the arguments a setter hands to `_initialize_graph` -/
def Op.args {α : Type} : Op α → Args α
  | .set_adjacency_matrix a => { adjacency := some a }
  | .set_edgelist e => { edgelist := some e }
  | .set_degree_sequences d => { degree_sequence := some d }
  | .clean_edges => {}

/-- graph_classes.py:251-299 `set_adjacency_matrix`, `set_edgelist`, `set_degree_sequences` and `clean_edges` (which also creates the attribute
`deg_seq = None`, never read anywhere) -/
noncomputable def UState.call (g : UState α) : Op α → UState α × Option Exc
  | .clean_edges => ({ g with adjacency := none, edgelist := none, is_initialized := false }, none)
  | o => if g.is_initialized then (g, none) else uInit g o.args

/-- a history of calls; exceptions are caught by the caller, who goes on -/
noncomputable def UState.calls (g : UState α) : List (Op α) → UState α
  | [] => g
  | o :: os => ((g.call o).1).calls os

end undirected

section directed

/-- the attributes of a `DirectedGraph` that construction assigns (graph_classes.py:1159-1174) -/
structure DState (α : Type) where
  n_nodes : Option ℕ := none
  n_edges : Option ℝ := none
  adjacency : Option SqMat := none
  is_sparse : Bool := false
  edgelist : Option (List (ℕ × ℕ) × Option (List ℝ)) := none
  dseq_out : Option (List ℝ) := none
  dseq_in : Option (List ℝ) := none
  out_strength : Option (List ℝ) := none
  in_strength : Option (List ℝ) := none
  nz_index_sout : Option (List ℕ) := none
  nz_index_sin : Option (List ℕ) := none
  nodes_dict : Option (List (ℕ × α)) := none
  is_initialized : Bool := false
  is_weighted : Bool := false

variable {α : Type} [LinearOrder α]

/-- graph_classes.py:1235-1276: the branch `adjacency is not None` -/
noncomputable def dInitAdj (g : DState α) : AdjArg → DState α × Option Exc
  | .other => (g, some .typeError)
  | .list => (g, some .attributeError)
  | .dense m => go g false m
  | .sparse m => go g true m
where
  /-- lines 1243-1276 -/
  go (g : DState α) (sparse : Bool) (m : SqMat) : DState α × Option Exc :=
    open Classical in
    if matSize sparse m > 0 then
      if hasNegative m then (g, some .typeError)
      else
        let g := { g with adjacency := some m }
        let g := if sparse then { g with is_sparse := true } else g
        let din := List.ofFn fun i => (in_degree m.val i : ℝ)
        let dout := List.ofFn fun i => (out_degree m.val i : ℝ)
        let g := { g with dseq_in := some din, dseq_out := some dout }
        let g := if looksBinary m then g else
          let sin := List.ofFn fun i => in_strength m.val i
          let sout := List.ofFn fun i => out_strength m.val i
          { g with in_strength := some sin, out_strength := some sout, nz_index_sout := some (nonzero sout), nz_index_sin := some (nonzero sin),
                   is_weighted := true }
        ({ g with n_nodes := some dout.length, n_edges := some dout.sum, is_initialized := true }, none)
    else (g, none)

/-- graph_classes.py:1278-1307: the branch `edgelist is not None` (neither `is_weighted` nor the `nz_index` attributes are set for triples) -/
noncomputable def dInitEdges (g : DState α) : EdgeArg α → DState α × Option Exc
  | .other => (g, some .typeError)
  | .wide => (g, some .valueError)
  | .edges e =>
    if edgesLength e > 0 then
      match edgelist_from_edgelist_directed e with
      | .error x => (g, some (.ofNet x))
      | .ok o =>
        let dout := o.outDegrees.map fun k : ℕ => (k : ℝ)
        let din := o.inDegrees.map fun k : ℕ => (k : ℝ)
        let g := { g with edgelist := some (o.edges, o.weights), dseq_out := some dout, dseq_in := some din, nodes_dict := some o.nodes }
        let g := match e with
          | .binary _ => g
          | .weighted _ => { g with out_strength := o.outStrengths, in_strength := o.inStrengths }
        ({ g with n_nodes := some dout.length, n_edges := some dout.sum, is_initialized := true }, none)
    else (g, none)

/-- graph_classes.py:1350-1371 and 1386-1399: a strength sequence (the same statements in both places) -/
noncomputable def dInitStrengths (g : DState α) : SeqArg → DState α × Option Exc
  | .other => (g, some .typeError)
  | .list l => go g l
  | .array l => go g l
where
  /-- the halves of the sequence are the out- and the in-strengths -/
  go (g : DState α) (l : List (Option ℝ)) : DState α × Option Exc :=
    if l.length = 0 then (g, none)
    else match checkSeq l with
      | .error x => (g, some x)
      | .ok v =>
        if v.length % 2 ≠ 0 then (g, some .valueError)
        else
          let n := v.length / 2
          ({ g with n_nodes := some n, out_strength := some (v.take n), in_strength := some (v.drop n), nz_index_sout := some (nonzero (v.take n)),
                    nz_index_sin := some (nonzero (v.drop n)), is_weighted := true, is_initialized := true }, none)

/-- graph_classes.py:1309-1371: the branch `degree_sequence is not None` -/
noncomputable def dInitDegrees (g : DState α) (s : Option SeqArg) : SeqArg → DState α × Option Exc
  | .other => (g, some .typeError)
  | .list l => go g s l
  | .array l => go g s l
where
  /-- lines 1315-1371 -/
  go (g : DState α) (s : Option SeqArg) (l : List (Option ℝ)) : DState α × Option Exc :=
    if l.length > 0 then
      match checkSeq l with
      | .error x => (g, some x)
      | .ok v =>
        if v.length % 2 ≠ 0 then (g, some .valueError)
        else
          let n := v.length / 2
          let g := { g with n_nodes := some n, dseq_out := some (v.take n), dseq_in := some (v.drop n), n_edges := some (v.take n).sum,
                            is_initialized := true }
          match s with
          | none => (g, none)
          | some s => dInitStrengths g s
    else (g, none)

/-- graph_classes.py:1227-1399 `DirectedGraph._initialize_graph` -/
noncomputable def dInit (g : DState α) (a : Args α) : DState α × Option Exc :=
  match a.adjacency, a.edgelist, a.degree_sequence, a.strength_sequence with
  | some m, _, _, _ => dInitAdj g m
  | none, some e, _, _ => dInitEdges g e
  | none, none, some d, s => dInitDegrees g s d
  | none, none, none, some s => dInitStrengths g s
  | none, none, none, none => (g, none)

/-- graph_classes.py:1151-1225 `DirectedGraph.__init__` -/
noncomputable def DirectedGraph (a : Args α) : Except Exc (DState α) :=
  match dInit {} a with
  | (_, some x) => .error x
  | (g, none) => .ok g

/-- graph_classes.py:1401-1449: the setters and `clean_edges` of `DirectedGraph` -/
noncomputable def DState.call (g : DState α) : Op α → DState α × Option Exc
  | .clean_edges => ({ g with adjacency := none, edgelist := none, is_initialized := false }, none)
  | o => if g.is_initialized then (g, none) else dInit g o.args

/-- a history of calls; exceptions are caught by the caller, who goes on -/
noncomputable def DState.calls (g : DState α) : List (Op α) → DState α
  | [] => g
  | o :: os => ((g.call o).1).calls os

end directed

end Verif.Graph
