import Mathlib.Data.Real.Basic

/-!
Domains of the likelihoods (where the models are defined), used as hypotheses of the theorems.
-/

namespace Verif.Spec

/-- Admissible parameters of the undirected enhanced model: all `x`, `y` positive and `y_i y_j < 1` for every pair of
distinct nodes (so that the expected weights are finite).  Block 0 is `x`, block 1 is `y`. -/
def AdmECM {n : ℕ} (sol : Fin 2 × Fin n → ℝ) : Prop :=
  (∀ i, 0 < sol (0, i)) ∧ (∀ i, 0 < sol (1, i)) ∧ ∀ i j, i ≠ j → sol (1, i) * sol (1, j) < 1

/-- Admissible parameters in the exponential parametrisation: `θ_i + θ_j > 0` for the strength multipliers of every pair
of distinct nodes. -/
def AdmECMexp {n : ℕ} (sol : Fin 2 × Fin n → ℝ) : Prop :=
  ∀ i j : Fin n, i ≠ j → 0 < sol (1, i) + sol (1, j)

/-- Admissible parameters of the directed enhanced model.  Blocks: `a_out, a_in, b_out, b_in`. -/
def AdmDECM {n : ℕ} (sol : Fin 4 × Fin n → ℝ) : Prop :=
  (∀ v, 0 < sol v) ∧ ∀ i j, i ≠ j → sol (2, i) * sol (3, j) < 1

/-- Exponential parametrisation of the directed enhanced model. -/
def AdmDECMexp {n : ℕ} (sol : Fin 4 × Fin n → ℝ) : Prop :=
  ∀ i j : Fin n, i ≠ j → 0 < sol (2, i) + sol (3, j)

end Verif.Spec
