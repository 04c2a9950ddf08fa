import Mathlib.Data.Real.Basic
import Mathlib.Data.Real.Sqrt
import Mathlib.Algebra.BigOperators.Fin

/-! Vocabulary of C62.  Nothing here refers to the model of the code. -/

namespace Verif.Spec

open Finset

variable {n : ℕ}

/-- some ensemble of simple undirected networks with link probabilities `P` has the mean degrees `k`; a single network is the case `P i j ∈ {0, 1}` -/
def Attainable (k : Fin n → ℝ) : Prop :=
  ∃ P : Fin n → Fin n → ℝ, (∀ i j, 0 ≤ P i j ∧ P i j ≤ 1) ∧ (∀ i j, P i j = P j i) ∧ ∀ i, ∑ j ∈ univ.filter (· ≠ i), P i j = k i

/-- the same for directed networks: mean out-degrees `ko` and in-degrees `ki` -/
def AttainableD (ko ki : Fin n → ℝ) : Prop :=
  ∃ P : Fin n → Fin n → ℝ, (∀ i j, 0 ≤ P i j ∧ P i j ≤ 1) ∧ (∀ i, ∑ j ∈ univ.filter (· ≠ i), P i j = ko i) ∧ ∀ j, ∑ i ∈ univ.filter (· ≠ j), P i j = ki j

/-- `tol` is not too small for the size of the network: with `tol = 1e-8` the condition holds up to 61 nodes, with `tol = 1e-6` up to 387.  Below it the fifty
halvings of the line search may not be enough. -/
noncomputable def TolOK (n : ℕ) (tol : ℝ) : Prop := 0 < tol ∧ (n : ℝ) ^ 2 * Real.sqrt n ≤ 3e12 * tol

/-- `eps` is small enough not to stop the run before the residual reaches `tol`; zero is always small enough -/
def EpsOK (n : ℕ) (tol eps : ℝ) : Prop := tol ≤ 1 ∧ eps * (3000 * (n : ℝ) ^ 5) ≤ tol ^ 2

/-- the documented names of initial guesses of the binary models (graph_classes.py:961-980) -/
def guessNames : List String := ["degrees_minor", "random", "uniform", "degrees", "chung_lu"]

end Verif.Spec
