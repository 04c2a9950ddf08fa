import Verif.Spec.SamplerLaw
import Mathlib.Analysis.SpecialFunctions.Exp

/-! Independent specification of ideal exponential variates and of the strengths of an edge list with real weights (C70). -/

namespace Verif.Spec

open MeasureTheory

variable {Ω : Type*} [MeasurableSpace Ω]

/-- ideal exponential variates: for every seed `s`, `E s` has the exponential law of rate 1 and is independent of `U s` -/
structure ExponentialSource (P : Measure Ω) (U : ℕ → Ω → I01) (E : ℕ → Ω → ℝ) : Prop where
  meas : ∀ s, Measurable (E s)
  nonneg : ∀ s ω, 0 ≤ E s ω
  law : ∀ s (t r : ℝ), 0 ≤ t → t ≤ 1 → 0 ≤ r → P {ω | (U s ω : ℝ) < t ∧ r < E s ω} = ENNReal.ofReal (t * Real.exp (-r))

/-- the random numbers (uniform and exponential) obtained after different seeds are independent -/
def IndependentSeedsE (P : Measure Ω) (U : ℕ → Ω → I01) (E : ℕ → Ω → ℝ) : Prop :=
  ProbabilityTheory.iIndepFun (fun s ω => (U s ω, E s ω)) P

/-- total weight of the edges of `es` at node `k` -/
noncomputable def weightAt (es : List (ℕ × ℕ × ℝ)) (k : ℕ) : ℝ := ((es.filter fun e => decide (e.1 = k ∨ e.2.1 = k)).map fun e => e.2.2).sum

/-- total weight of the arcs of `es` leaving node `k` -/
noncomputable def weightOut (es : List (ℕ × ℕ × ℝ)) (k : ℕ) : ℝ := ((es.filter fun e => decide (e.1 = k)).map fun e => e.2.2).sum

/-- total weight of the arcs of `es` entering node `k` -/
noncomputable def weightIn (es : List (ℕ × ℕ × ℝ)) (k : ℕ) : ℝ := ((es.filter fun e => decide (e.2.1 = k)).map fun e => e.2.2).sum

/-- the pair `(i, j)` is listed with a weight larger than `t` -/
def Heavier (es : List (ℕ × ℕ × ℝ)) (i j : ℕ) (t : ℝ) : Prop := ∃ w, t < w ∧ (i, j, w) ∈ es

/-- the pair `(i, j)` is not listed -/
def Missing (es : List (ℕ × ℕ × ℝ)) (i j : ℕ) : Prop := ∀ w, (i, j, w) ∉ es

end Verif.Spec
