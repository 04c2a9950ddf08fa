import Verif.Spec.Solve
import Verif.Spec.SolveD

/-! Vocabulary of C71.  Nothing here refers to the model of the code. -/

namespace Verif.Spec

open Finset

variable {n : ℕ}

/-- `x, y` is an exact solution of the undirected enhanced model -/
structure SolvesUECM (k s x y : Fin n → ℝ) : Prop where
  nonneg : ∀ i, 0 ≤ x i ∧ 0 ≤ y i
  domain : ∀ i j, i ≠ j → y i * y j < 1
  deg : ∀ i, degUECM x y i = k i
  str : ∀ i, strUECM x y i = s i

/-- `x, y, bo, bi` is an exact solution of the directed enhanced model -/
structure SolvesDECM (ko ki so si x y bo bi : Fin n → ℝ) : Prop where
  nonneg : ∀ i, 0 ≤ x i ∧ 0 ≤ y i ∧ 0 ≤ bo i ∧ 0 ≤ bi i
  domain : ∀ i j, i ≠ j → bo i * bi j < 1
  out_deg : ∀ i, outDegDECM x y bo bi i = ko i
  in_deg : ∀ i, inDegDECM x y bo bi i = ki i
  out_str : ∀ i, outStrDECM x y bo bi i = so i
  in_str : ∀ i, inStrDECM x y bo bi i = si i

/-- the degrees `k` and strengths `s` are the means of an ensemble of weighted networks in which every link between two nodes of non-zero degree is possible but not certain
and has a weight above one with positive probability (mean weight `W` above link probability `P`) -/
def LooseW (k s : Fin n → ℝ) : Prop :=
  ∃ P W : Fin n → Fin n → ℝ, (∀ i j, P i j = P j i ∧ W i j = W j i) ∧ (∀ i j, i ≠ j → k i ≠ 0 → k j ≠ 0 → 0 < P i j ∧ P i j < 1 ∧ P i j < W i j) ∧
    (∀ i j, k i = 0 ∨ k j = 0 → P i j = 0 ∧ W i j = 0) ∧ (∀ i, ∑ j ∈ univ.filter (· ≠ i), P i j = k i) ∧ ∀ i, ∑ j ∈ univ.filter (· ≠ i), W i j = s i

/-- the same for directed networks: links from nodes with non-zero out-degree to nodes with non-zero in-degree -/
def LooseWD (ko ki so si : Fin n → ℝ) : Prop :=
  ∃ P W : Fin n → Fin n → ℝ, (∀ i j, i ≠ j → ko i ≠ 0 → ki j ≠ 0 → 0 < P i j ∧ P i j < 1 ∧ P i j < W i j) ∧
    (∀ i j, ko i = 0 ∨ ki j = 0 → P i j = 0 ∧ W i j = 0) ∧
    (∀ i, ∑ j ∈ univ.filter (· ≠ i), P i j = ko i) ∧ (∀ j, ∑ i ∈ univ.filter (· ≠ j), P i j = ki j) ∧
    (∀ i, ∑ j ∈ univ.filter (· ≠ i), W i j = so i) ∧ ∀ j, ∑ i ∈ univ.filter (· ≠ j), W i j = si j

/-- `W` is an undirected network with integer weights and without self-links in which node `i` has `k i` links and strength `s i` -/
structure RealisesW (k s : Fin n → ℕ) (W : Fin n → Fin n → ℕ) : Prop where
  symm : ∀ i j, W i j = W j i
  noself : ∀ i, W i i = 0
  deg : ∀ i, (univ.filter fun j => W i j ≠ 0).card = k i
  str : ∀ i, ∑ j, W i j = s i

/-- every two nodes of non-zero degree have a link of weight two or more in some network with the degrees `k` and strengths `s`, and are not linked in another -/
def SwitchableW (k s : Fin n → ℕ) : Prop :=
  ∀ i j, i ≠ j → k i ≠ 0 → k j ≠ 0 → (∃ W, RealisesW k s W ∧ 2 ≤ W i j) ∧ ∃ W, RealisesW k s W ∧ W i j = 0

/-- `W` is a directed network with integer weights and without self-links, with the given numbers of links and strengths -/
structure RealisesWD (ko ki so si : Fin n → ℕ) (W : Fin n → Fin n → ℕ) : Prop where
  noself : ∀ i, W i i = 0
  out_deg : ∀ i, (univ.filter fun j => W i j ≠ 0).card = ko i
  in_deg : ∀ j, (univ.filter fun i => W i j ≠ 0).card = ki j
  out_str : ∀ i, ∑ j, W i j = so i
  in_str : ∀ j, ∑ i, W i j = si j

/-- the same for directed networks -/
def SwitchableWD (ko ki so si : Fin n → ℕ) : Prop :=
  ∀ i j, i ≠ j → ko i ≠ 0 → ki j ≠ 0 → (∃ W, RealisesWD ko ki so si W ∧ 2 ≤ W i j) ∧ ∃ W, RealisesWD ko ki so si W ∧ W i j = 0

end Verif.Spec
