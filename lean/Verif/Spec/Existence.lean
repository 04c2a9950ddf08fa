import Verif.Spec.FixedPoint

/-! Vocabulary of C66.  Nothing here refers to the model of the code. -/

namespace Verif.Spec

open Finset

variable {n : ℕ}

/-- the degrees `k` are the means of an ensemble in which every link between two nodes of non-zero degree is possible but not certain -/
def Loose (k : Fin n → ℝ) : Prop :=
  ∃ P : Fin n → Fin n → ℝ, (∀ i j, P i j = P j i) ∧ (∀ i j, i ≠ j → k i ≠ 0 → k j ≠ 0 → 0 < P i j ∧ P i j < 1) ∧ (∀ i j, k i = 0 ∨ k j = 0 → P i j = 0) ∧
    ∀ i, ∑ j ∈ univ.filter (· ≠ i), P i j = k i

/-- the same for directed networks: links from nodes with non-zero out-degree to nodes with non-zero in-degree -/
def LooseD (ko ki : Fin n → ℝ) : Prop :=
  ∃ P : Fin n → Fin n → ℝ, (∀ i j, i ≠ j → ko i ≠ 0 → ki j ≠ 0 → 0 < P i j ∧ P i j < 1) ∧ (∀ i j, ko i = 0 ∨ ki j = 0 → P i j = 0) ∧
    (∀ i, ∑ j ∈ univ.filter (· ≠ i), P i j = ko i) ∧ ∀ j, ∑ i ∈ univ.filter (· ≠ j), P i j = ki j

/-- `A` is an undirected network without self-links in which node `i` has `k i` links -/
structure Realises (k : Fin n → ℕ) (A : Fin n → Fin n → Bool) : Prop where
  symm : ∀ i j, A i j = A j i
  noself : ∀ i, A i i = false
  deg : ∀ i, (univ.filter fun j => A i j = true).card = k i

/-- every two nodes of non-zero degree are linked in some network with the degrees `k` and not linked in another -/
def Switchable (k : Fin n → ℕ) : Prop :=
  ∀ i j, i ≠ j → k i ≠ 0 → k j ≠ 0 → (∃ A, Realises k A ∧ A i j = true) ∧ ∃ A, Realises k A ∧ A i j = false

/-- `A` is a directed network without self-links in which node `i` has `ko i` links out and `ki i` links in -/
structure RealisesD (ko ki : Fin n → ℕ) (A : Fin n → Fin n → Bool) : Prop where
  noself : ∀ i, A i i = false
  out : ∀ i, (univ.filter fun j => A i j = true).card = ko i
  inn : ∀ j, (univ.filter fun i => A i j = true).card = ki j

/-- the same for directed networks -/
def SwitchableD (ko ki : Fin n → ℕ) : Prop :=
  ∀ i j, i ≠ j → ko i ≠ 0 → ki j ≠ 0 → (∃ A, RealisesD ko ki A ∧ A i j = true) ∧ ∃ A, RealisesD ko ki A ∧ A i j = false

end Verif.Spec
