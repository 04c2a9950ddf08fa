import Verif.Spec.Solve

/-!
Independent specification of the directed models: link probabilities, expected degrees and strengths, log-probability of a graph with given degrees (strengths).
Nothing here refers to the model of the code.
-/

namespace Verif.Spec

open Finset

noncomputable section

variable {n : ℕ}

/-- the parameters of the nodes whose observed value is not zero; the others take no part -/
def active (k x : Fin n → ℝ) (i : Fin n) : ℝ := if k i = 0 then 0 else x i

/-- directed binary configuration model: probability of the link from `i` to `j` -/
def linkDBCM (x y : Fin n → ℝ) (i j : Fin n) : ℝ := x i * y j / (1 + x i * y j)

/-- expected out-degree of node `i` -/
def outDBCM (x y : Fin n → ℝ) (i : Fin n) : ℝ := ∑ j ∈ univ.filter (· ≠ i), linkDBCM x y i j

/-- expected in-degree of node `i` -/
def inDBCM (x y : Fin n → ℝ) (i : Fin n) : ℝ := ∑ j ∈ univ.filter (· ≠ i), linkDBCM x y j i

/-- log-probability of any directed graph with out-degrees `ko` and in-degrees `ki` -/
def logDBCM (ko ki x y : Fin n → ℝ) : ℝ :=
  ∑ i, (ko i * Real.log (x i) + ki i * Real.log (y i)) - ∑ i, ∑ j ∈ univ.filter (· ≠ i), Real.log (1 + x i * y j)

/-- directed enhanced model: probability of a link from `i` to `j` -/
def linkDECM (x y bo bi : Fin n → ℝ) (i j : Fin n) : ℝ :=
  x i * y j * (bo i * bi j) / (1 - bo i * bi j + x i * y j * (bo i * bi j))

/-- expected weight of the link from `i` to `j` -/
def weightDECM (x y bo bi : Fin n → ℝ) (i j : Fin n) : ℝ := linkDECM x y bo bi i j / (1 - bo i * bi j)

/-- expected out-degree -/
def outDegDECM (x y bo bi : Fin n → ℝ) (i : Fin n) : ℝ := ∑ j ∈ univ.filter (· ≠ i), linkDECM x y bo bi i j

/-- expected in-degree -/
def inDegDECM (x y bo bi : Fin n → ℝ) (i : Fin n) : ℝ := ∑ j ∈ univ.filter (· ≠ i), linkDECM x y bo bi j i

/-- expected out-strength -/
def outStrDECM (x y bo bi : Fin n → ℝ) (i : Fin n) : ℝ := ∑ j ∈ univ.filter (· ≠ i), weightDECM x y bo bi i j

/-- expected in-strength -/
def inStrDECM (x y bo bi : Fin n → ℝ) (i : Fin n) : ℝ := ∑ j ∈ univ.filter (· ≠ i), weightDECM x y bo bi j i

/-- log-probability of any weighted directed graph with the given degrees and strengths -/
def logDECM (ko ki so si x y bo bi : Fin n → ℝ) : ℝ :=
  ∑ i, (ko i * Real.log (x i) + ki i * Real.log (y i) + so i * Real.log (bo i) + si i * Real.log (bi i)) +
    ∑ i, ∑ j ∈ univ.filter (· ≠ i), (Real.log (1 - bo i * bi j) - Real.log (1 - bo i * bi j + x i * y j * (bo i * bi j)))

/-- directed conditional reconstruction on the link probabilities `p`: expected out-strength -/
def outStrCReMa (p : Fin n → Fin n → ℝ) (bo bi : Fin n → ℝ) (i : Fin n) : ℝ := ∑ j, p i j / (bo i + bi j)

/-- expected in-strength -/
def inStrCReMa (p : Fin n → Fin n → ℝ) (bo bi : Fin n → ℝ) (i : Fin n) : ℝ := ∑ j, p j i / (bo j + bi i)

/-- its log-likelihood for the strengths `so`, `si` -/
def logDCReMa (p : Fin n → Fin n → ℝ) (so si bo bi : Fin n → ℝ) : ℝ :=
  -∑ i, (so i * bo i + si i * bi i) + ∑ i, ∑ j, p i j * Real.log (bo i + bi j)

/-- two maxima, `E` is the largest absolute value among the values of both functions -/
def IsMaxAbs2 {ι : Type} (E : ℝ) (f g : ι → ℝ) : Prop := (∀ i, |f i| ≤ E ∧ |g i| ≤ E) ∧ ∃ i, |f i| = E ∨ |g i| = E

end

end Verif.Spec
