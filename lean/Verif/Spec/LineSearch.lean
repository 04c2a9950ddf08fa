import Mathlib.Data.Real.Basic
import Mathlib.Algebra.BigOperators.Fin

/-! What a back-tracking step is supposed to satisfy. -/

namespace Verif.Spec

variable {ι : Type*} [Fintype ι]

/-- Armijo condition for the log-likelihood `F` (to be increased), at the point `x`, direction `dx` and step `r`; `f` is the gradient
of `-F` at `x`.  `F` is `none` where the floating point value is not a number. -/
def Improves (F : (ι → ℝ) → Option ℝ) (x dx f : ι → ℝ) (r : ℝ) : Prop :=
  ∃ old new, F x = some old ∧ F (x + r • dx) = some new ∧ new > old - (1 / 10000) * r * ∑ i, f i * dx i

/-- A legal outcome `r` of a back-tracking search started at step `a`, reduction factor `beta`, at most 50 reductions in the decrease
stage: positive, not larger than `a`, and the Armijo condition holds unless the 50 reductions were used up. -/
structure LegalStep (F : (ι → ℝ) → Option ℝ) (x dx f : ι → ℝ) (a beta r : ℝ) : Prop where
  pos : 0 < r
  le : r ≤ a
  improves : Improves F x dx f r ∨ r ≤ a * beta ^ 50

/-- Every coordinate keeps at least one per cent of its value, hence stays positive. -/
def KeepsPercent (x dx : ι → ℝ) (r : ℝ) : Prop := ∀ i, x i / 100 ≤ x i + r * dx i

end Verif.Spec
