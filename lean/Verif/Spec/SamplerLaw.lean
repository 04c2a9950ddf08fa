import Mathlib.MeasureTheory.Measure.Lebesgue.Basic
import Mathlib.Probability.Independence.Basic

/-! Independent specification of ideal random numbers and of the degrees of an edge list. -/

namespace Verif.Spec

open MeasureTheory

/-- the half-open unit interval -/
abbrev I01 := Set.Ico (0 : ℝ) 1

variable {Ω : Type*} [MeasurableSpace Ω]

/-- ideal random numbers: for every seed `s`, `U s` is uniformly distributed on `[0, 1)` -/
structure UniformSource (P : Measure Ω) (U : ℕ → Ω → I01) : Prop where
  meas : ∀ s, Measurable (U s)
  law : ∀ s (t : ℝ), 0 ≤ t → t ≤ 1 → P {ω | (U s ω : ℝ) < t} = ENNReal.ofReal t

/-- ideal geometric variates: for every seed `s` and success probability `q`, `G s q` has the geometric law on `{1, 2, …}` and is independent of `U s` -/
structure GeometricSource (P : Measure Ω) (U : ℕ → Ω → I01) (G : ℕ → ℝ → Ω → ℕ) : Prop where
  meas : ∀ s q, Measurable (G s q)
  pos : ∀ s q ω, 1 ≤ G s q ω
  law : ∀ s q (t : ℝ) w, 0 < q → q ≤ 1 → 0 ≤ t → t ≤ 1 →
    P {ω | (U s ω : ℝ) < t ∧ G s q ω = w + 1} = ENNReal.ofReal (t * (q * (1 - q) ^ w))

/-- number of edges of `es` at node `k` -/
def degreeIn (es : List (ℕ × ℕ)) (k : ℕ) : ℕ := (es.filter fun e => decide (e.1 = k ∨ e.2 = k)).length

/-- number of arcs of `es` leaving node `k` -/
def outDegreeIn (es : List (ℕ × ℕ)) (k : ℕ) : ℕ := (es.filter fun e => decide (e.1 = k)).length

/-- number of arcs of `es` entering node `k` -/
def inDegreeIn (es : List (ℕ × ℕ)) (k : ℕ) : ℕ := (es.filter fun e => decide (e.2 = k)).length

/-- total weight of the edges of `es` at node `k` -/
def strengthIn (es : List (ℕ × ℕ × ℕ)) (k : ℕ) : ℕ := ((es.filter fun e => decide (e.1 = k ∨ e.2.1 = k)).map fun e => e.2.2).sum

/-- total weight of the arcs of `es` leaving node `k` -/
def outStrengthIn (es : List (ℕ × ℕ × ℕ)) (k : ℕ) : ℕ := ((es.filter fun e => decide (e.1 = k)).map fun e => e.2.2).sum

/-- total weight of the arcs of `es` entering node `k` -/
def inStrengthIn (es : List (ℕ × ℕ × ℕ)) (k : ℕ) : ℕ := ((es.filter fun e => decide (e.2.1 = k)).map fun e => e.2.2).sum

end Verif.Spec
