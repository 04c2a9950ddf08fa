import Verif.Spec.Likelihood
import Verif.Spec.SamplerLaw

/-! When an edge list written by a sampler describes a given network (C55), and independence of the random numbers of different seeds.  Nothing here refers to the
model of the code. -/

namespace Verif.Spec

variable {n : ℕ}

/-- `es` lists the links of the undirected graph `A`, each once and in one direction only -/
structure ListsLinks (A : Fin n → Fin n → Bool) (es : List (ℕ × ℕ)) : Prop where
  once : es.Nodup
  nodes : ∀ e ∈ es, e.1 < n ∧ e.2 < n
  oneway : ∀ e ∈ es, (e.2, e.1) ∉ es
  links : ∀ i j : Fin n, A i j = true ↔ (i.val, j.val) ∈ es ∨ (j.val, i.val) ∈ es

/-- `es` lists the arcs of the digraph `A`, each once -/
structure ListsArcs (A : Fin n → Fin n → Bool) (es : List (ℕ × ℕ)) : Prop where
  once : es.Nodup
  nodes : ∀ e ∈ es, e.1 < n ∧ e.2 < n
  arcs : ∀ i j : Fin n, A i j = true ↔ (i.val, j.val) ∈ es

/-- `es` lists the links of the undirected weighted graph `W`, each once, with their weights -/
structure ListsWeightedLinks (W : Fin n → Fin n → ℕ) (es : List (ℕ × ℕ × ℕ)) : Prop where
  links : ListsLinks (fun i j => decide (W i j ≠ 0)) (es.map fun e => (e.1, e.2.1))
  weights : ∀ (i j : Fin n) w, (i.val, j.val, w) ∈ es → W i j = w

/-- `es` lists the arcs of the weighted digraph `W`, each once, with their weights -/
structure ListsWeightedArcs (W : Fin n → Fin n → ℕ) (es : List (ℕ × ℕ × ℕ)) : Prop where
  arcs : ListsArcs (fun i j => decide (W i j ≠ 0)) (es.map fun e => (e.1, e.2.1))
  weights : ∀ (i j : Fin n) w, (i.val, j.val, w) ∈ es → W i j = w

/-- the random numbers (uniform and geometric) obtained after different seeds are independent -/
def IndependentSeeds {Ω : Type*} [MeasurableSpace Ω] (P : MeasureTheory.Measure Ω) (U : ℕ → Ω → I01) (G : ℕ → ℝ → Ω → ℕ) : Prop :=
  ProbabilityTheory.iIndepFun (fun s ω => (U s ω, fun q => G s q ω)) P

end Verif.Spec
