import Mathlib.Data.Fintype.Pi
import Mathlib.Data.Fintype.Perm
import Mathlib.Data.Fintype.BigOperators
import Mathlib.Data.Real.Basic
import Mathlib.Data.Fin.VecNotation

/-!
Specification of dyads and triads, independent of the code.  The thirteen connected triad patterns are digraphs on the three
positions 0, 1, 2 (`i`, `j`, `k` of the documentation), given by their arcs.
-/

namespace Verif.Spec

/-- arcs of the thirteen triad patterns (motif number minus one) -/
def triadArcs : Fin 13 → List (Fin 3 × Fin 3) := ![
  [(1, 0), (1, 2)],
  [(0, 1), (1, 2)],
  [(0, 1), (1, 0), (1, 2)],
  [(0, 2), (1, 2)],
  [(1, 0), (0, 2), (1, 2)],
  [(0, 1), (1, 0), (0, 2), (1, 2)],
  [(0, 1), (1, 0), (2, 1)],
  [(0, 1), (1, 0), (1, 2), (2, 1)],
  [(1, 0), (0, 2), (2, 1)],
  [(1, 0), (0, 2), (1, 2), (2, 1)],
  [(0, 1), (0, 2), (1, 2), (2, 1)],
  [(0, 1), (1, 0), (0, 2), (1, 2), (2, 1)],
  [(0, 1), (1, 0), (0, 2), (2, 0), (1, 2), (2, 1)]]

/-- the subgraph of the digraph `g` on the positions 0, 1, 2 is exactly pattern `m` -/
def IsPattern (m : Fin 13) (g : Fin 3 → Fin 3 → Prop) : Prop := ∀ u v, u ≠ v → (g u v ↔ (u, v) ∈ triadArcs m)

/-- `t` picks three distinct nodes of `G` whose induced subgraph, in the order given by `t`, is exactly pattern `m` -/
def Induces {n : ℕ} (G : Fin n → Fin n → Prop) (m : Fin 13) (t : Fin 3 → Fin n) : Prop :=
  Function.Injective t ∧ IsPattern m fun u v => G (t u) (t v)

/-- the digraph on three positions is (weakly) connected: every position has a neighbour -/
def Connected3 (g : Fin 3 → Fin 3 → Prop) : Prop := ∀ u, ∃ v, v ≠ u ∧ (g u v ∨ g v u)

/-- 0/1 adjacency matrix of a digraph -/
noncomputable def adj {n : ℕ} (G : Fin n → Fin n → Prop) (i j : Fin n) : ℝ := open Classical in if G i j then 1 else 0

/-- number of automorphisms of pattern `m` -/
noncomputable def triadAut (m : Fin 13) : ℕ :=
  open Classical in (Finset.univ.filter fun σ : Equiv.Perm (Fin 3) => IsPattern m fun u v => (σ u, σ v) ∈ triadArcs m).card

end Verif.Spec
