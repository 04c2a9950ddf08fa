import Mathlib.Data.Real.Basic
import Mathlib.Logic.Relation

/-! What a usable adjacency matrix is.  Nothing here refers to the model of the code. -/

namespace Verif.Spec

variable {n : ℕ}

/-- zero diagonal -/
def Loopless (A : Fin n → Fin n → ℝ) : Prop := ∀ i, A i i = 0

/-- the matrix of an undirected graph -/
def SymmetricM (A : Fin n → Fin n → ℝ) : Prop := ∀ i j, A i j = A j i

/-- entries 0 and 1 -/
def BinaryM (A : Fin n → Fin n → ℝ) : Prop := ∀ i j, A i j = 0 ∨ A i j = 1

/-- entries between 0 and `w` -/
def WeightsUpTo (w : ℝ) (A : Fin n → Fin n → ℝ) : Prop := ∀ i j, 0 ≤ A i j ∧ A i j ≤ w

/-- integer entries -/
def IntegerM (A : Fin n → Fin n → ℝ) : Prop := ∀ i j, ∃ m : ℤ, A i j = m

/-- every node has a link, in or out -/
def NoIsolatedNode (A : Fin n → Fin n → ℝ) : Prop := ∀ i, ∃ j, j ≠ i ∧ (A i j ≠ 0 ∨ A j i ≠ 0)

/-- any two nodes are joined by a path of links, taken in either direction -/
def ConnectedM (A : Fin n → Fin n → ℝ) : Prop := ∀ i j, Relation.ReflTransGen (fun a b => A a b ≠ 0 ∨ A b a ≠ 0) i j

/-- `A` is, up to the choice of the nodes, `B` restricted to some nodes -/
def IsInduced {m : ℕ} (A : Fin m → Fin m → ℝ) (B : Fin n → Fin n → ℝ) : Prop := ∃ f : Fin m → Fin n, Function.Injective f ∧ ∀ i j, A i j = B (f i) (f j)

/-- `A` and `B` have the same links -/
def SameLinks (A B : Fin n → Fin n → ℝ) : Prop := ∀ i j, A i j ≠ 0 ↔ B i j ≠ 0

/-- the complete graph -/
def CompleteM (A : Fin n → Fin n → ℝ) : Prop := ∀ i j, A i j = if i = j then 0 else 1

end Verif.Spec
