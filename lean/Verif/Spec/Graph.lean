import Verif.Model.Graph
import Verif.Spec.Network
import Mathlib.Data.Set.Card

/-!
What a user expects of a graph object: which arguments are acceptable, which topology a history of calls leaves in force, and what it means for the
attributes of the object to describe a topology.  The argument and attribute records are those of the interface; none of the model's functions is used, except
the two scipy/numpy primitives in `Acceptable`.
-/

namespace Verif.Spec

open Verif.Graph Verif.Net

/-- all items are numbers and none is negative -/
def GoodSeq (l : List (Option ℝ)) : Prop := ∀ o ∈ l, ∃ r : ℝ, o = some r ∧ 0 ≤ r

/-- an item is not a number -/
def NonNumeric (l : List (Option ℝ)) : Prop := none ∈ l

/-- an item is a negative number -/
def HasNegativeItem (l : List (Option ℝ)) : Prop := ∃ r : ℝ, some r ∈ l ∧ r < 0

/-- no entry of the matrix is negative -/
def NonNeg (m : SqMat) : Prop := ∀ i j, 0 ≤ m.val i j

/-- A sequence argument that is a numpy array: its items. -/
def arrayItems : SeqArg → Option (List (Option ℝ))
  | .array l => some l
  | _ => none

/-- A sequence argument that is a numpy array or a list: its items. -/
def anyItems : SeqArg → Option (List (Option ℝ))
  | .array l => some l
  | .list l => some l
  | .other => none

/-- a topology: what a graph object is built from -/
inductive Topology (α : Type)
  | matrix (m : SqMat)
  | links (l : List (α × α))
  | weightedLinks (l : List (α × α × ℝ))
  | degrees (d : List ℝ)
  | degreesStrengths (d s : List ℝ)
  | strengths (s : List ℝ)

/-- number of links of node `i`: of its row, and of its column -/
noncomputable def rowLinks (m : SqMat) (i : Fin m.n) : ℝ := (Set.ncard {j | 0 < m.val i j} : ℝ)
@[inherit_doc rowLinks] noncomputable def colLinks (m : SqMat) (i : Fin m.n) : ℝ := (Set.ncard {j | 0 < m.val j i} : ℝ)

/-- total weight of the matrix differs from its number of links -/
def Heavy (m : SqMat) : Prop := ∑ i, ∑ j, m.val i j ≠ (Set.ncard {p : Fin m.n × Fin m.n | 0 < m.val p.1 p.2} : ℝ)

/-- the attributes of the undirected graph describe the topology -/
def DescribesU {α : Type} [LinearOrder α] (g : UState α) : Topology α → Prop
  | .matrix m => g.n_nodes = some m.n ∧ g.adjacency = some m ∧ g.edgelist = none ∧ g.dseq = some (List.ofFn (rowLinks m)) ∧
      g.n_edges = some ((∑ i, rowLinks m i) / 2) ∧
      (Heavy m → g.is_weighted = true ∧ g.strength_sequence = some (List.ofFn fun i => ∑ j, m.val i j))
  | .links l => g.adjacency = none ∧ ∃ edges nodes d, g.edgelist = some (edges, none) ∧ g.nodes_dict = some nodes ∧ g.dseq = some d ∧
      Relabelled l edges nodes ∧ PerNode nodes d (fun a => ((l.map Prod.fst).count a + (l.map Prod.snd).count a : ℝ)) ∧
      g.n_nodes = some nodes.length ∧ g.n_edges = some (l.length : ℝ)
  | .weightedLinks l => g.adjacency = none ∧ ∃ edges nodes d s, g.edgelist = some (edges, some (l.map fun e => e.2.2)) ∧ g.nodes_dict = some nodes ∧
      g.dseq = some d ∧ g.strength_sequence = some s ∧ g.is_weighted = true ∧ Relabelled (l.map fun e => (e.1, e.2.1)) edges nodes ∧
      PerNode nodes d (fun a => ((l.map fun e => e.1).count a + (l.map fun e => e.2.1).count a : ℝ)) ∧
      PerNode nodes s (fun a => ((l.filter fun e => e.1 = a).map fun e => e.2.2).sum + ((l.filter fun e => e.2.1 = a).map fun e => e.2.2).sum) ∧
      g.n_nodes = some nodes.length ∧ g.n_edges = some (l.length : ℝ)
  | .degrees d => g.adjacency = none ∧ g.edgelist = none ∧ g.n_nodes = some d.length ∧ g.dseq = some d ∧ g.n_edges = some (d.sum / 2)
  | .degreesStrengths d s => g.adjacency = none ∧ g.edgelist = none ∧ g.n_nodes = some d.length ∧ g.dseq = some d ∧ g.n_edges = some (d.sum / 2) ∧
      g.strength_sequence = some s ∧ s.length = d.length ∧ g.is_weighted = true
  | .strengths s => g.adjacency = none ∧ g.edgelist = none ∧ g.n_nodes = some s.length ∧ g.dseq = none ∧ g.strength_sequence = some s ∧
      g.is_weighted = true

/-- the attributes of the directed graph describe the topology (a sequence holds the out-values, then the in-values) -/
def DescribesD {α : Type} [LinearOrder α] (g : DState α) : Topology α → Prop
  | .matrix m => g.n_nodes = some m.n ∧ g.adjacency = some m ∧ g.edgelist = none ∧ g.dseq_out = some (List.ofFn (rowLinks m)) ∧
      g.dseq_in = some (List.ofFn (colLinks m)) ∧ g.n_edges = some (∑ i, rowLinks m i) ∧
      (Heavy m → g.is_weighted = true ∧ g.out_strength = some (List.ofFn fun i => ∑ j, m.val i j) ∧
        g.in_strength = some (List.ofFn fun i => ∑ j, m.val j i))
  | .links l => g.adjacency = none ∧ ∃ edges nodes d d', g.edgelist = some (edges, none) ∧ g.nodes_dict = some nodes ∧ g.dseq_out = some d ∧
      g.dseq_in = some d' ∧ Relabelled l edges nodes ∧ PerNode nodes d (fun a => ((l.map Prod.fst).count a : ℝ)) ∧
      PerNode nodes d' (fun a => ((l.map Prod.snd).count a : ℝ)) ∧ g.n_nodes = some nodes.length ∧ g.n_edges = some (l.length : ℝ)
  | .weightedLinks l => g.adjacency = none ∧ ∃ edges nodes d d' s s', g.edgelist = some (edges, some (l.map fun e => e.2.2)) ∧
      g.nodes_dict = some nodes ∧ g.dseq_out = some d ∧ g.dseq_in = some d' ∧ g.out_strength = some s ∧ g.in_strength = some s' ∧
      Relabelled (l.map fun e => (e.1, e.2.1)) edges nodes ∧
      PerNode nodes d (fun a => ((l.map fun e => e.1).count a : ℝ)) ∧ PerNode nodes d' (fun a => ((l.map fun e => e.2.1).count a : ℝ)) ∧
      PerNode nodes s (fun a => ((l.filter fun e => e.1 = a).map fun e => e.2.2).sum) ∧
      PerNode nodes s' (fun a => ((l.filter fun e => e.2.1 = a).map fun e => e.2.2).sum) ∧
      g.n_nodes = some nodes.length ∧ g.n_edges = some (l.length : ℝ)
  | .degrees d => g.adjacency = none ∧ g.edgelist = none ∧ ∃ o i, d = o ++ i ∧ o.length = i.length ∧ g.n_nodes = some o.length ∧
      g.dseq_out = some o ∧ g.dseq_in = some i ∧ g.n_edges = some o.sum
  | .degreesStrengths d s => g.adjacency = none ∧ g.edgelist = none ∧ (∃ o i, d = o ++ i ∧ o.length = i.length ∧ g.dseq_out = some o ∧ g.dseq_in = some i ∧
      g.n_edges = some o.sum) ∧ ∃ o i, s = o ++ i ∧ o.length = i.length ∧ g.n_nodes = some o.length ∧ g.out_strength = some o ∧
      g.in_strength = some i ∧ g.is_weighted = true
  | .strengths s => g.adjacency = none ∧ g.edgelist = none ∧ g.dseq_out = none ∧ g.dseq_in = none ∧ ∃ o i, s = o ++ i ∧ o.length = i.length ∧
      g.n_nodes = some o.length ∧ g.out_strength = some o ∧ g.in_strength = some i ∧ g.is_weighted = true

/-- the numbers of a sequence -/
def numbers (l : List (Option ℝ)) : List ℝ := l.filterMap id

/-- `Asks directed a t`: the (first given) argument is acceptable and asks for the topology `t`, which is not empty. -/
inductive Asks {α : Type} (directed : Bool) : Args α → Topology α → Prop
  | dense {m e d s} (h : NonNeg m) (hn : 0 < m.n) : Asks directed ⟨some (.dense m), e, d, s⟩ (.matrix m)
  | sparse {m e d s} (h : NonNeg m) (hn : ∃ i j, m.val i j ≠ 0) : Asks directed ⟨some (.sparse m), e, d, s⟩ (.matrix m)
  | links {l d s} (h : l ≠ []) : Asks directed ⟨none, some (.edges (.binary l)), d, s⟩ (.links l)
  | weightedLinks {l d s} (h : l ≠ []) : Asks directed ⟨none, some (.edges (.weighted l)), d, s⟩ (.weightedLinks l)
  | degrees {d l s} (hd : arrayItems d = some l ∨ (directed = true ∧ anyItems d = some l)) (h : GoodSeq l) (hl : l ≠ [])
      (hp : directed = true → 2 ∣ l.length) (hs : s = none ∨ ∃ t, s = some t ∧ anyItems t = some []) : Asks directed ⟨none, none, some d, s⟩ (.degrees (numbers l))
  | degreesStrengths {d l s k} (hd : arrayItems d = some l ∨ (directed = true ∧ anyItems d = some l)) (h : GoodSeq l) (hl : l ≠ [])
      (hp : directed = true → 2 ∣ l.length) (hs : arrayItems s = some k ∨ (directed = true ∧ anyItems s = some k)) (h' : GoodSeq k) (hk : k ≠ [])
      (hp' : directed = true → 2 ∣ k.length) (hlen : directed = false → k.length = l.length) :
      Asks directed ⟨none, none, some d, some s⟩ (.degreesStrengths (numbers l) (numbers k))
  | strengths {s k} (hs : anyItems s = some k) (h : GoodSeq k) (hk : k ≠ []) (hp : directed = true → 2 ∣ k.length) :
      Asks directed ⟨none, none, none, some s⟩ (.strengths (numbers k))

/-- The (first given) argument is empty: it asks for nothing and is silently ignored. -/
inductive EmptyArgs {α : Type} : Args α → Prop
  | nothing : EmptyArgs ⟨none, none, none, none⟩
  | dense {m e d s} (h : m.n = 0) : EmptyArgs ⟨some (.dense m), e, d, s⟩
  | sparse {m e d s} (h : ∀ i j, m.val i j = 0) : EmptyArgs ⟨some (.sparse m), e, d, s⟩
  | links {d s} : EmptyArgs ⟨none, some (.edges (.binary [])), d, s⟩
  | weightedLinks {d s} : EmptyArgs ⟨none, some (.edges (.weighted [])), d, s⟩
  | degrees {d s} (h : anyItems d = some []) : EmptyArgs ⟨none, none, some d, s⟩
  | strengths {s} (h : anyItems s = some []) : EmptyArgs ⟨none, none, none, some s⟩

/-- what is wrong with the items of a non-empty sequence: `TypeError` for a non-numeric item, `ValueError` for a negative number -/
def BadSeq (l : List (Option ℝ)) : Exc → Prop
  | .typeError => NonNumeric l
  | .valueError => ¬ NonNumeric l ∧ HasNegativeItem l
  | _ => False

/-- `Complaint directed a x`: the reasons why a constructor raises `x`.  The constructors `..._list` are the undocumented ones: the documentation promises that
lists are accepted. -/
inductive Complaint {α : Type} (directed : Bool) : Args α → Exc → Prop
  | adjacency_type {e d s} : Complaint directed ⟨some .other, e, d, s⟩ .typeError
  | adjacency_list {e d s} : Complaint directed ⟨some .list, e, d, s⟩ .attributeError
  | adjacency_dense_negative {m e d s} (h : ∃ i j, m.val i j < 0) : Complaint directed ⟨some (.dense m), e, d, s⟩ .typeError
  | adjacency_sparse_negative {m e d s} (h : ∃ i j, m.val i j < 0) : Complaint directed ⟨some (.sparse m), e, d, s⟩ .typeError
  | edgelist_type {d s} : Complaint directed ⟨none, some .other, d, s⟩ .typeError
  | edgelist_wide {d s} : Complaint directed ⟨none, some .wide, d, s⟩ .valueError
  | degrees_type {s} : Complaint directed ⟨none, none, some .other, s⟩ .typeError
  | degrees_items {d l s x} (hl : anyItems d = some l) (h : BadSeq l x) : Complaint directed ⟨none, none, some d, s⟩ x
  | degrees_odd {d l s} (hl : anyItems d = some l) (h : GoodSeq l) (hd : directed = true) (ho : ¬ 2 ∣ l.length) :
      Complaint directed ⟨none, none, some d, s⟩ .valueError
  | degrees_list {l s} (hl : l ≠ []) (h : GoodSeq l) (hd : directed = false) : Complaint directed ⟨none, none, some (.list l), s⟩ .attributeError
  | strengths_type_after {d l} (hd : arrayItems d = some l ∨ (directed = true ∧ anyItems d = some l)) (hl : l ≠ []) (h : GoodSeq l)
      (hp : directed = true → 2 ∣ l.length) : Complaint directed ⟨none, none, some d, some .other⟩ .typeError
  | strengths_items_after {d l s k x} (hd : arrayItems d = some l ∨ (directed = true ∧ anyItems d = some l)) (hl : l ≠ []) (h : GoodSeq l)
      (hp : directed = true → 2 ∣ l.length) (hk : anyItems s = some k) (hx : BadSeq k x) : Complaint directed ⟨none, none, some d, some s⟩ x
  | strengths_odd_after {d l s k} (hd : anyItems d = some l) (hl : l ≠ []) (h : GoodSeq l) (hD : directed = true) (hp : 2 ∣ l.length)
      (hk : anyItems s = some k) (hg : GoodSeq k) (ho : ¬ 2 ∣ k.length) : Complaint directed ⟨none, none, some d, some s⟩ .valueError
  | strengths_length {l s k} (hl : l ≠ []) (h : GoodSeq l) (hD : directed = false) (hk : anyItems s = some k) (hk0 : k ≠ []) (hg : GoodSeq k)
      (hne : k.length ≠ l.length) : Complaint directed ⟨none, none, some (.array l), some s⟩ .valueError
  | strengths_list {l k} (hl : l ≠ []) (h : GoodSeq l) (hD : directed = false) (hg : GoodSeq k) (he : k.length = l.length) :
      Complaint directed ⟨none, none, some (.array l), some (.list k)⟩ .attributeError
  | strengths_type : Complaint directed ⟨none, none, none, some .other⟩ .typeError
  | strengths_items {s k x} (hk : anyItems s = some k) (hx : BadSeq k x) : Complaint directed ⟨none, none, none, some s⟩ x
  | strengths_odd {s k} (hk : anyItems s = some k) (hg : GoodSeq k) (hD : directed = true) (ho : ¬ 2 ∣ k.length) :
      Complaint directed ⟨none, none, none, some s⟩ .valueError

/-- What a call asks for. -/
def OpAsks {α : Type} (directed : Bool) (o : Op α) (t : Topology α) : Prop :=
  match o with
  | .set_adjacency_matrix a => Asks directed { adjacency := some a } t
  | .set_edgelist e => Asks directed { edgelist := some e } t
  | .set_degree_sequences d => Asks directed { degree_sequence := some d } t
  | .clean_edges => False

/-- `InForce directed t ops t'`: starting with the topology `t` in force (`none`: the object is empty), `t'` is in force after the calls `ops`: a setter has an
effect only on an empty object and only if it asks for a topology, `clean_edges` empties the object. -/
inductive InForce {α : Type} (directed : Bool) : Option (Topology α) → List (Op α) → Option (Topology α) → Prop
  | nil (t) : InForce directed t [] t
  | clean (t ops t') (h : InForce directed none ops t') : InForce directed t (.clean_edges :: ops) t'
  | kept (t o ops t') (hc : o ≠ .clean_edges) (h : InForce directed (some t) ops t') : InForce directed (some t) (o :: ops) t'
  | set (o t ops t') (ha : OpAsks directed o t) (h : InForce directed (some t) ops t') : InForce directed none (o :: ops) t'
  | refused (o ops t') (hc : o ≠ .clean_edges) (ha : ¬ ∃ t, OpAsks directed o t) (h : InForce directed none ops t') :
      InForce directed none (o :: ops) t'

end Verif.Spec

namespace Verif.Spec

/-- `l` lists the positions of the non-zero entries of `v`, in increasing order -/
def IsSupport (v : List ℝ) (l : List ℕ) : Prop := l.Pairwise (· < ·) ∧ ∀ m, m ∈ l ↔ ∃ x, v[m]? = some x ∧ x ≠ 0

end Verif.Spec
