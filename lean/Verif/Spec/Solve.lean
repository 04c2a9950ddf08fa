import Mathlib.Analysis.SpecialFunctions.Log.Basic
import Mathlib.Analysis.SpecialFunctions.Exp
import Mathlib.Analysis.Calculus.Deriv.Basic

/-!
Independent specification of what the models of the library are: log-probability of a graph with given degrees (strengths), expected degrees and strengths.
Nothing here refers to the model of the code.
-/

namespace Verif.Spec

open Finset

noncomputable section

variable {n : ℕ}

/-- undirected binary configuration model: probability of the link `{i, j}` -/
def linkUBCM (x : Fin n → ℝ) (i j : Fin n) : ℝ := x i * x j / (1 + x i * x j)

/-- expected degree of node `i` -/
def degUBCM (x : Fin n → ℝ) (i : Fin n) : ℝ := ∑ j ∈ univ.filter (· ≠ i), linkUBCM x i j

/-- log-probability of any graph with degrees `k` -/
def logUBCM (k x : Fin n → ℝ) : ℝ :=
  ∑ i, k i * Real.log (x i) - ∑ i, ∑ j ∈ univ.filter (· < i), Real.log (1 + x i * x j)

/-- undirected enhanced configuration model: expected degree -/
def degUECM (x y : Fin n → ℝ) (i : Fin n) : ℝ :=
  ∑ j ∈ univ.filter (· ≠ i), x i * x j * y i * y j / (1 - y i * y j + x i * x j * y i * y j)

/-- expected strength -/
def strUECM (x y : Fin n → ℝ) (i : Fin n) : ℝ :=
  ∑ j ∈ univ.filter (· ≠ i), x i * x j * y i * y j / ((1 - y i * y j) * (1 - y i * y j + x i * x j * y i * y j))

/-- log-probability of any weighted graph with degrees `k` and strengths `s` -/
def logUECM (k s x y : Fin n → ℝ) : ℝ :=
  ∑ i, (k i * Real.log (x i) + s i * Real.log (y i)) +
    ∑ i, ∑ j ∈ univ.filter (· < i), Real.log ((1 - y i * y j) / (1 - y i * y j + x i * x j * (y i * y j)))

/-- conditional reconstruction model on the link probabilities `p`: expected strength -/
def strCReMa (p : Fin n → Fin n → ℝ) (β : Fin n → ℝ) (i : Fin n) : ℝ := ∑ j ∈ univ.filter (· ≠ i), p i j / (β i + β j)

/-- its log-likelihood for the strengths `s` -/
def logCReMa (p : Fin n → Fin n → ℝ) (s β : Fin n → ℝ) : ℝ :=
  -∑ i, s i * β i + ∑ i, ∑ j ∈ univ.filter (· < i), p i j * Real.log (β i + β j)

/-- `E` is the largest absolute value of `f` -/
def IsMaxAbs {ι : Type} (E : ℝ) (f : ι → ℝ) : Prop := (∀ i, |f i| ≤ E) ∧ ∃ i, |f i| = E

/-- `f` is minus the gradient of `L` on `dom` -/
def MinusGradient {ι : Type} [DecidableEq ι] (dom : (ι → ℝ) → Prop) (L : (ι → ℝ) → ℝ) (f : (ι → ℝ) → ι → ℝ) : Prop :=
  ∀ x, dom x → ∀ i, HasDerivAt (fun t => L (Function.update x i t)) (-f x i) (x i)

/-- `M` is the Jacobian of `f` on `dom` -/
def IsJacobian {ι : Type} [DecidableEq ι] (dom : (ι → ℝ) → Prop) (f : (ι → ℝ) → ι → ℝ) (M : (ι → ℝ) → ι → ι → ℝ) : Prop :=
  ∀ x, dom x → ∀ i j, HasDerivAt (fun t => f (Function.update x j t) i) (M x i j) (x j)

/-- `v` is the diagonal of the Jacobian of `f` on `dom` -/
def IsJacobianDiag {ι : Type} [DecidableEq ι] (dom : (ι → ℝ) → Prop) (f : (ι → ℝ) → ι → ℝ) (v : (ι → ℝ) → ι → ℝ) : Prop :=
  ∀ x, dom x → ∀ i, HasDerivAt (fun t => f (Function.update x i t) i) (v x i) (x i)

/-- the fixed points of `f` in `dom` are the stationary points of `L` -/
def FixedAreStationary {ι : Type} [DecidableEq ι] (dom : (ι → ℝ) → Prop) (L : (ι → ℝ) → ℝ) (f : (ι → ℝ) → ι → ℝ) : Prop :=
  ∀ x, dom x → ((∀ i, f x i = x i) ↔ ∀ i, HasDerivAt (fun t => L (Function.update x i t)) 0 (x i))

end

end Verif.Spec
