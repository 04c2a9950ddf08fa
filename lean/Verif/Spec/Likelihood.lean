import Verif.Spec.SolveD
import Verif.Spec.Ensemble
import Mathlib.Topology.Algebra.InfiniteSum.Defs
import Mathlib.Topology.Instances.Real.Lemmas

/-!
Independent specification of the random-graph laws: adjacency matrices, their degrees and strengths, the probability that the model gives to a graph, Shannon entropy.
Nothing here refers to the model of the code.
-/

namespace Verif.Spec

open Finset

variable {n : ℕ}

/-- adjacency matrix of an undirected graph without self-loops -/
structure IsGraph {α : Type} [Zero α] (A : Fin n → Fin n → α) : Prop where
  symm : ∀ i j, A i j = A j i
  loopless : ∀ i, A i i = 0

/-- adjacency matrix of a directed graph without self-loops -/
structure IsDigraph {α : Type} [Zero α] (A : Fin n → Fin n → α) : Prop where
  loopless : ∀ i, A i i = 0

/-- `false` is "no link" -/
instance : Zero Bool := ⟨false⟩

/-- number of links (of arcs leaving `i`, for a directed graph) -/
def degree {α : Type} [Zero α] [DecidableEq α] (A : Fin n → Fin n → α) (i : Fin n) : ℕ := (univ.filter fun j => A i j ≠ 0).card

/-- number of arcs entering `i` -/
def inDegree {α : Type} [Zero α] [DecidableEq α] (A : Fin n → Fin n → α) (i : Fin n) : ℕ := (univ.filter fun j => A j i ≠ 0).card

/-- total weight of the links at `i` (of the arcs leaving `i`) -/
def strength (W : Fin n → Fin n → ℕ) (i : Fin n) : ℕ := ∑ j, W i j

/-- total weight of the arcs entering `i` -/
def inStrength (W : Fin n → Fin n → ℕ) (i : Fin n) : ℕ := ∑ j, W j i

/-- law of one link weight: 0 with probability `1 - p`, otherwise geometric with ratio `q` -/
def geomLaw (p q : ℝ) : ℕ → ℝ
  | 0 => 1 - p
  | w + 1 => p * ((1 - q) * q ^ w)

noncomputable section

/-- undirected enhanced model: probability of a link between `i` and `j` -/
def linkUECM (x y : Fin n → ℝ) (i j : Fin n) : ℝ := x i * x j * (y i * y j) / (1 - y i * y j + x i * x j * (y i * y j))

/-- undirected binary model: the pairs of nodes are independent -/
def probUBCM (x : Fin n → ℝ) (A : Fin n → Fin n → Bool) : ℝ := ∏ i, ∏ j ∈ univ.filter (· < i), bern (linkUBCM x i j) (A i j)

/-- directed binary model: the ordered pairs of distinct nodes are independent -/
def probDBCM (x y : Fin n → ℝ) (A : Fin n → Fin n → Bool) : ℝ := ∏ i, ∏ j ∈ univ.filter (· ≠ i), bern (linkDBCM x y i j) (A i j)

/-- undirected enhanced model -/
def probUECM (x y : Fin n → ℝ) (W : Fin n → Fin n → ℕ) : ℝ := ∏ i, ∏ j ∈ univ.filter (· < i), geomLaw (linkUECM x y i j) (y i * y j) (W i j)

/-- directed enhanced model -/
def probDECM (x y bo bi : Fin n → ℝ) (W : Fin n → Fin n → ℕ) : ℝ :=
  ∏ i, ∏ j ∈ univ.filter (· ≠ i), geomLaw (linkDECM x y bo bi i j) (bo i * bi j) (W i j)

/-- density of the exponential law of rate `b` -/
def expLaw (b w : ℝ) : ℝ := b * Real.exp (-(b * w))

/-- conditional reconstruction: given the graph `A`, the weights of its links are independent and exponential -/
def densCReMa (A : Fin n → Fin n → Bool) (β : Fin n → ℝ) (w : Fin n → Fin n → ℝ) : ℝ :=
  ∏ i, ∏ j ∈ univ.filter (· < i), if A i j = true then expLaw (β i + β j) (w i j) else 1

/-- the same for a directed graph -/
def densDCReMa (A : Fin n → Fin n → Bool) (bo bi : Fin n → ℝ) (w : Fin n → Fin n → ℝ) : ℝ :=
  ∏ i, ∏ j, if A i j = true then expLaw (bo i + bi j) (w i j) else 1

/-- the matrix of zeros and ones of a graph -/
def indicator (A : Fin n → Fin n → Bool) (i j : Fin n) : ℝ := if A i j = true then 1 else 0

/-- all undirected graphs on `n` nodes with link values in `α` -/
abbrev Graphs (n : ℕ) (α : Type) [Zero α] := {A : Fin n → Fin n → α // IsGraph A}

/-- all directed graphs on `n` nodes with link values in `α` -/
abbrev Digraphs (n : ℕ) (α : Type) [Zero α] := {A : Fin n → Fin n → α // IsDigraph A}

/-- `Q` is a probability law on the countable set `α` -/
structure IsLaw {α : Type*} (Q : α → ℝ) : Prop where
  nonneg : ∀ a, 0 ≤ Q a
  total : HasSum Q 1

/-- `f` has the expected value `m` under `Q` -/
def HasMean {α : Type*} (Q f : α → ℝ) (m : ℝ) : Prop := HasSum (fun a => Q a * f a) m

/-- `H` is the Shannon entropy of `Q` -/
def HasEntropy {α : Type*} (Q : α → ℝ) (H : ℝ) : Prop := HasSum (fun a => -(Q a * Real.log (Q a))) H

end

end Verif.Spec
