import Mathlib.Data.Real.Basic
import Mathlib.Data.List.Basic
import Mathlib.Data.List.Range

/-! Independent specification of edge-list relabelling. -/

namespace Verif.Spec

/-- `nodes` is a dictionary from `0, 1, …, n-1` to the distinct labels of the edge list `l`, in increasing order, and decoding the relabelled edge list
`edges` with it gives back `l`, edge by edge. -/
structure Relabelled {α : Type} [LinearOrder α] (l : List (α × α)) (edges : List (ℕ × ℕ)) (nodes : List (ℕ × α)) : Prop where
  keys : nodes.map Prod.fst = List.range nodes.length
  sorted : (nodes.map Prod.snd).Pairwise (· < ·)
  labels : ∀ a, a ∈ nodes.map Prod.snd ↔ ∃ e ∈ l, a = e.1 ∨ a = e.2
  back : edges.map (fun e => (nodes.lookup e.1, nodes.lookup e.2)) = l.map (fun e => (some e.1, some e.2))

/-- the sequence `d` lists, in dictionary order, `f` of the label of each node -/
def PerNode {α β : Type} (nodes : List (ℕ × α)) (d : List β) (f : α → β) : Prop :=
  d.length = nodes.length ∧ ∀ k a, (k, a) ∈ nodes → d[k]? = some (f a)

end Verif.Spec
