import Verif.Spec.Solve

/-! What the attributes written after a solution should hold (C54). -/

namespace Verif.Spec

/-- `E` is the largest absolute and `r` the largest relative difference between the expected values `ex` and the observed values `k`.  The code regularises the
relative difference by `exp (-100)`, so that a vanishing constraint is not a division by zero. -/
def Report {ι : Type} (ex k : ι → ℝ) (E r : ℝ) : Prop :=
  IsMaxAbs E (fun i => ex i - k i) ∧ IsMaxAbs r fun i => (ex i - k i) / (k i + Real.exp (-100))

/-- the same without the regularisation (ecm) -/
def PlainReport {ι : Type} (ex k : ι → ℝ) (E r : ℝ) : Prop :=
  IsMaxAbs E (fun i => ex i - k i) ∧ IsMaxAbs r fun i => (ex i - k i) / k i

/-- out-values followed by in-values, as the code concatenates them -/
def outIn {n : ℕ} (f g : Fin n → ℝ) : Fin 2 × Fin n → ℝ := fun v => if v.1 = 0 then f v.2 else g v.2

end Verif.Spec
