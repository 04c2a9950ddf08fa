import Mathlib.Data.Real.Basic
import Mathlib.Data.Fintype.BigOperators
import Mathlib.Data.Fintype.Pi

/-!
Independent specification of the random-graph ensembles: finitely many independent coin tosses, one per possible link.
Nothing here refers to the model of the code.
-/

namespace Verif.Spec

open Finset

/-- probability that a coin with success probability `p` shows `b` -/
def bern (p : ℝ) (b : Bool) : ℝ := if b then p else 1 - p

/-- probability of the outcome `ω` of independent coins with success probabilities `p` -/
def prob {E : Type*} [Fintype E] (p : E → ℝ) (ω : E → Bool) : ℝ := ∏ e, bern (p e) (ω e)

/-- expectation of `f` under independent coins with success probabilities `p` -/
def expect {E : Type*} [Fintype E] [DecidableEq E] (p : E → ℝ) (f : (E → Bool) → ℝ) : ℝ := ∑ ω, prob p ω * f ω

/-- variance of `f` under independent coins -/
def variance {E : Type*} [Fintype E] [DecidableEq E] (p : E → ℝ) (f : (E → Bool) → ℝ) : ℝ :=
  expect p fun ω => (f ω - expect p f) ^ 2

/-- adjacency matrix of the loop-free digraph whose arcs are the ordered pairs with a successful coin -/
def diAdj {n : ℕ} (ω : Fin n × Fin n → Bool) (i j : Fin n) : ℝ := if i ≠ j ∧ ω (i, j) = true then 1 else 0

/-- adjacency matrix of the loop-free undirected graph; the coin of the pair `{i, j}` is the one indexed by `(min i j, max i j)` -/
def unAdj {n : ℕ} (ω : Fin n × Fin n → Bool) (i j : Fin n) : ℝ := if i ≠ j ∧ ω (min i j, max i j) = true then 1 else 0

/-- arc probabilities of the directed binary configuration model with multipliers `x` (out) and `y` (in), the two blocks of the solution -/
noncomputable def dcmProb {n : ℕ} (sol : Fin 2 × Fin n → ℝ) (e : Fin n × Fin n) : ℝ :=
  sol (0, e.1) * sol (1, e.2) / (1 + sol (0, e.1) * sol (1, e.2))

end Verif.Spec
