import Verif.Spec.Graph
import Verif.Model.SolveD

/-!
Specification for C52: the degrees and strengths of a topology, objects obtained from a constructor by a history of calls, and what `solve_tool` reads of an object.
-/

namespace Verif.Spec

open Verif.Graph Verif.Net Verif.Solve

variable {α : Type} [LinearOrder α]

/-- `k` lists the degrees of the (undirected) topology, node by node (for an edge list: in the order of the labels) -/
def DegreesOf : Topology α → List ℝ → Prop
  | .matrix m, k => k = List.ofFn (rowLinks m)
  | .links l, k => ∃ edges nodes, Relabelled l edges nodes ∧ PerNode nodes k (fun a => ((l.map Prod.fst).count a + (l.map Prod.snd).count a : ℝ))
  | .weightedLinks l, k => ∃ edges nodes, Relabelled (l.map fun e => (e.1, e.2.1)) edges nodes ∧
      PerNode nodes k (fun a => ((l.map fun e => e.1).count a + (l.map fun e => e.2.1).count a : ℝ))
  | .degrees d, k => k = d
  | .degreesStrengths d _, k => k = d
  | .strengths _, _ => False

/-- `s` lists the strengths of the (undirected) topology -/
def StrengthsOf : Topology α → List ℝ → Prop
  | .matrix m, s => s = List.ofFn fun i => ∑ j, m.val i j
  | .weightedLinks l, s => ∃ edges nodes, Relabelled (l.map fun e => (e.1, e.2.1)) edges nodes ∧
      PerNode nodes s (fun a => ((l.filter fun e => e.1 = a).map fun e => e.2.2).sum + ((l.filter fun e => e.2.1 = a).map fun e => e.2.2).sum)
  | .degreesStrengths _ s, s' => s' = s
  | .strengths s, s' => s' = s
  | _, _ => False

/-- `o` and `i` list the out- and in-degrees of the (directed) topology -/
def DegreesOfD : Topology α → List ℝ → List ℝ → Prop
  | .matrix m, o, i => o = List.ofFn (rowLinks m) ∧ i = List.ofFn (colLinks m)
  | .links l, o, i => ∃ edges nodes, Relabelled l edges nodes ∧ PerNode nodes o (fun a => ((l.map Prod.fst).count a : ℝ)) ∧
      PerNode nodes i (fun a => ((l.map Prod.snd).count a : ℝ))
  | .weightedLinks l, o, i => ∃ edges nodes, Relabelled (l.map fun e => (e.1, e.2.1)) edges nodes ∧
      PerNode nodes o (fun a => ((l.map fun e => e.1).count a : ℝ)) ∧ PerNode nodes i (fun a => ((l.map fun e => e.2.1).count a : ℝ))
  | .degrees d, o, i => d = o ++ i ∧ o.length = i.length
  | .degreesStrengths d _, o, i => d = o ++ i ∧ o.length = i.length
  | .strengths _, _, _ => False

/-- `o` and `i` list the out- and in-strengths of the (directed) topology -/
def StrengthsOfD : Topology α → List ℝ → List ℝ → Prop
  | .matrix m, o, i => (o = List.ofFn fun i => ∑ j, m.val i j) ∧ i = List.ofFn fun i => ∑ j, m.val j i
  | .weightedLinks l, o, i => ∃ edges nodes, Relabelled (l.map fun e => (e.1, e.2.1)) edges nodes ∧
      PerNode nodes o (fun a => ((l.filter fun e => e.1 = a).map fun e => e.2.2).sum) ∧
      PerNode nodes i (fun a => ((l.filter fun e => e.2.1 = a).map fun e => e.2.2).sum)
  | .degreesStrengths _ s, o, i => s = o ++ i ∧ o.length = i.length
  | .strengths s, o, i => s = o ++ i ∧ o.length = i.length
  | _, _, _ => False

/-- the topology carries weights that the library recognises (see C45 for matrices it takes for binary) -/
def HasWeights : Topology α → Prop
  | .matrix m => Heavy m
  | .weightedLinks _ => True
  | .degreesStrengths _ _ => True
  | .strengths _ => True
  | _ => False

/-- the object `g` was made by the constructor, followed by any calls of the setters and of `clean_edges`, and the topology `t` is in force -/
def BuiltU (g : UState α) (t : Topology α) : Prop :=
  ∃ a g0 t0 ops, UndirectedGraph a = .ok g0 ∧ (∀ t, t0 = some t → Asks false a t) ∧ (t0 = none → EmptyArgs a) ∧ InForce false t0 ops (some t) ∧ g = g0.calls ops

@[inherit_doc BuiltU] def BuiltD (g : DState α) (t : Topology α) : Prop :=
  ∃ a g0 t0 ops, DirectedGraph a = .ok g0 ∧ (∀ t, t0 = some t → Asks true a t) ∧ (t0 = none → EmptyArgs a) ∧ InForce true t0 ops (some t) ∧ g = g0.calls ops

/-- graph_classes.py:342-365, 395-460 …: the data `d` of a run are the attributes `dseq` of the object -/
def ReadsDegrees {n : ℕ} (g : UState α) (d : UData n) : Prop := g.dseq = some (List.ofFn fun i => (d.dseq i : ℝ))

/-- … and its `strength_sequence` -/
def ReadsStrengths {n : ℕ} (g : UState α) (d : UData n) : Prop := g.strength_sequence = some (List.ofFn d.strength_sequence)

/-- the data of a run on a directed graph are the attributes `dseq_out` and `dseq_in` -/
def ReadsDegreesD {n : ℕ} (g : DState α) (d : DData n) : Prop :=
  g.dseq_out = some (List.ofFn fun i => (d.dseq_out i : ℝ)) ∧ g.dseq_in = some (List.ofFn fun i => (d.dseq_in i : ℝ))

/-- … and `out_strength`, `in_strength` -/
def ReadsStrengthsD {n : ℕ} (g : DState α) (d : DData n) : Prop := g.out_strength = some (List.ofFn d.out_strength) ∧ g.in_strength = some (List.ofFn d.in_strength)

/-- component `i` of the observed list -/
def At (l : List ℝ) {n : ℕ} (i : Fin n) (v : ℝ) : Prop := l.length = n ∧ l[i.val]? = some v

end Verif.Spec
