import Verif.Spec.Solve
import Verif.Spec.SolveD

/-! Vocabulary of C67 to C69.  Nothing here refers to the model of the code. -/

namespace Verif.Spec

open Finset

variable {n : ℕ}

/-- `a` is a matrix of link probabilities (or a 0/1 adjacency matrix) of an undirected network with strengths `s`:
symmetric, without self-links, and a node without strength has no links -/
structure LinksFor (a : Fin n → Fin n → ℝ) (s : Fin n → ℝ) : Prop where
  symm : ∀ i j, a i j = a j i
  noself : ∀ i, a i i = 0
  nonneg : ∀ i j, 0 ≤ a i j
  s_nonneg : ∀ i, 0 ≤ s i
  strong : ∀ i j, a i j ≠ 0 → s i ≠ 0

/-- every node with strength has a link, and there is such a node -/
def Covers (a : Fin n → Fin n → ℝ) (s : Fin n → ℝ) : Prop := (∀ i, s i ≠ 0 → ∃ j, a i j ≠ 0) ∧ ∃ i, s i ≠ 0

/-- the same for a directed network with out-strengths `so` and in-strengths `si` -/
structure LinksForD (a : Fin n → Fin n → ℝ) (so si : Fin n → ℝ) : Prop where
  nonneg : ∀ i j, 0 ≤ a i j
  so_nonneg : ∀ i, 0 ≤ so i
  si_nonneg : ∀ i, 0 ≤ si i
  strong : ∀ i j, a i j ≠ 0 → so i ≠ 0 ∧ si j ≠ 0

def CoversD (a : Fin n → Fin n → ℝ) (so si : Fin n → ℝ) : Prop :=
  (∀ i, so i ≠ 0 → ∃ j, a i j ≠ 0) ∧ (∀ j, si j ≠ 0 → ∃ i, a i j ≠ 0) ∧ ∃ i, so i ≠ 0

/-- rates for which every link has a finite mean weight -/
def FiniteRates (a : Fin n → Fin n → ℝ) (β : Fin n → ℝ) : Prop := ∀ i j, a i j ≠ 0 → 0 < β i + β j

def FiniteRatesD (a : Fin n → Fin n → ℝ) (bo bi : Fin n → ℝ) : Prop := ∀ i j, a i j ≠ 0 → 0 < bo i + bi j

/-- rates at which the mean strengths are the strengths `s`, positive wherever there is strength -/
structure FitsCReMa (a : Fin n → Fin n → ℝ) (s β : Fin n → ℝ) : Prop where
  pos : ∀ i, s i ≠ 0 → 0 < β i
  str : ∀ i, strCReMa a β i = s i

structure FitsDCReMa (a : Fin n → Fin n → ℝ) (so si bo bi : Fin n → ℝ) : Prop where
  pos_out : ∀ i, so i ≠ 0 → 0 < bo i
  pos_in : ∀ i, si i ≠ 0 → 0 < bi i
  out : ∀ i, outStrCReMa a bo bi i = so i
  inn : ∀ i, inStrCReMa a bo bi i = si i

end Verif.Spec
