import Mathlib.Data.Real.Basic
import Mathlib.Algebra.BigOperators.Fin

/-!
What the documentation of `solve_tool` says about the named initial guesses, as predicates of the vector of starting values `v` and the observed sequence
`k` (degrees or strengths).  Nothing here refers to the model of the code.
-/

namespace Verif.Spec

variable {n : ℕ}

/-- "initial guess of each node is proportional to its degree (strength)" -/
def ProportionalTo (v k : Fin n → ℝ) : Prop := ∃ c, 0 < c ∧ ∀ i, v i = c * k i

/-- "initial guess of each node is inversely proportional to its degree (strength)", for the nodes of non-zero degree -/
def InverselyProportionalTo (v k : Fin n → ℝ) : Prop := ∃ c, 0 < c ∧ ∀ i, k i ≠ 0 → v i = c / k i

/-- the same, regularised by one: `v i` is `1 / (k i + 1)` where `k i` is not zero -/
def InverseRegularised (v k : Fin n → ℝ) : Prop := ∀ i, k i ≠ 0 → v i = 1 / (k i + 1)

/-- "Chung-Lu formula": the products of the starting values are `k_i h_j / m`, the approximation of the link probability, `m` being the number of link ends -/
def ChungLu (v w k h : Fin n → ℝ) : Prop := ∀ i j, i ≠ j → v i * w j = k i * h j / ∑ l, k l

/-- "uniform initial guess in (0, 1)", for the nodes of non-zero degree (strength) -/
def UniformOn (v k : Fin n → ℝ) : Prop := ∃ c, 0 < c ∧ c < 1 ∧ ∀ i, k i ≠ 0 → v i = c

/-- "random numbers in (0, 1)", zero included because `np.random.rand` draws from [0, 1) -/
def UnitInterval (v : Fin n → ℝ) : Prop := ∀ i, 0 ≤ v i ∧ v i < 1

/-- `j` is the first node that has the same value as `i` -/
def FirstLike {β : Type} (k : Fin n → β) (i j : Fin n) : Prop := k j = k i ∧ ∀ l, k l = k i → j ≤ l

end Verif.Spec
