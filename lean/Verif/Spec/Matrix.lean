import Mathlib.Data.Real.Basic
import Mathlib.Data.Matrix.Basic
import Mathlib.Algebra.BigOperators.Fin

/-! Positive definiteness, in elementary terms. -/

namespace Verif.Spec

variable {ι : Type*} [Fintype ι]

/-- The quadratic form `vᵀ M v`. -/
def quad (M : Matrix ι ι ℝ) (v : ι → ℝ) : ℝ := ∑ i, ∑ j, v i * M i j * v j

/-- Symmetric. -/
def Symm (M : Matrix ι ι ℝ) : Prop := ∀ i j, M i j = M j i

/-- Symmetric positive definite. -/
def PosDef (M : Matrix ι ι ℝ) : Prop := Symm M ∧ ∀ v, v ≠ 0 → 0 < quad M v

/-- Positive semidefinite quadratic form (symmetry not required). -/
def PosSemi (M : Matrix ι ι ℝ) : Prop := ∀ v, 0 ≤ quad M v

end Verif.Spec
