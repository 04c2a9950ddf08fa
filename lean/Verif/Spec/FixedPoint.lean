import Verif.Spec.Solve
import Verif.Spec.SolveD

/-! Vocabulary of C63 to C65.  Nothing here refers to the model of the code. -/

namespace Verif.Spec

open Finset

variable {n : ℕ}

/-- `x` is an exact solution of the undirected binary model: every node has on average its observed degree -/
structure SolvesUBCM (k x : Fin n → ℝ) : Prop where
  nonneg : ∀ i, 0 ≤ x i
  zero : ∀ i, k i = 0 → x i = 0
  mean : ∀ i, degUBCM x i = k i

/-- `x, y` is an exact solution of the directed binary model -/
structure SolvesDBCM (ko ki x y : Fin n → ℝ) : Prop where
  nonneg_out : ∀ i, 0 ≤ x i
  nonneg_in : ∀ i, 0 ≤ y i
  zero_out : ∀ i, ko i = 0 → x i = 0
  zero_in : ∀ i, ki i = 0 → y i = 0
  mean_out : ∀ i, outDBCM x y i = ko i
  mean_in : ∀ i, inDBCM x y i = ki i

/-- no entry of `x` is off by more than the factor `R` from the entry of `xs` -/
def Within (R : ℝ) (xs x : Fin n → ℝ) : Prop := ∀ i, xs i ≤ R * x i ∧ x i ≤ R * xs i

end Verif.Spec
