import Mathlib.Analysis.SpecialFunctions.Log.Deriv
import Mathlib.Analysis.SpecialFunctions.ExpDeriv
import Mathlib.Analysis.Calculus.LocalExtr.Basic
import Mathlib.Topology.Order.Compact
import Mathlib.Topology.Algebra.Order.LiminfLimsup

/-! Existence of solutions: the sum over pairs of `log (1 + exp (-u)) + p u` with `0 < p < 1` has a minimum when bounds on the pair sums bound the variables. -/

namespace Verif.Existence

open Finset

noncomputable section

/-- the logistic function of `-u` -/
def sig (u : ℝ) : ℝ := Real.exp (-u) / (1 + Real.exp (-u))

def f (p u : ℝ) : ℝ := Real.log (1 + Real.exp (-u)) + p * u

theorem f_ge {p : ℝ} (h0 : 0 < p) (h1 : p < 1) (u : ℝ) : min p (1 - p) * |u| ≤ f p u := by
  have hpos := Real.exp_pos (-u)
  unfold f
  rcases le_total 0 u with h | h
  · rw [abs_of_nonneg h]
    have : 0 ≤ Real.log (1 + Real.exp (-u)) := Real.log_nonneg (by linarith)
    have := mul_le_mul_of_nonneg_right (min_le_left p (1 - p)) h
    linarith
  · rw [abs_of_nonpos h]
    have h2 : -u ≤ Real.log (1 + Real.exp (-u)) := by
      rw [Real.le_log_iff_exp_le (by positivity)]; linarith
    have := mul_le_mul_of_nonneg_right (min_le_right p (1 - p)) (neg_nonneg.2 h)
    nlinarith

theorem f_nonneg {p : ℝ} (h0 : 0 < p) (h1 : p < 1) (u : ℝ) : 0 ≤ f p u :=
  le_trans (mul_nonneg (le_min h0.le (by linarith)) (abs_nonneg u)) (f_ge h0 h1 u)

theorem f_deriv (p u m : ℝ) : HasDerivAt (fun t => f p (u + t * m)) ((p - sig u) * m) 0 := by
  have h1 : HasDerivAt (fun t : ℝ => u + t * m) m 0 := by simpa using ((hasDerivAt_id (0 : ℝ)).mul_const m).const_add u
  have h2 : HasDerivAt (fun t : ℝ => 1 + Real.exp (-(u + t * m))) (Real.exp (-(u + 0 * m)) * -m) 0 := (h1.neg.exp).const_add 1
  have h3 := h2.log (by have := Real.exp_pos (-(u + 0 * m)); positivity)
  have h4 := h3.add (h1.const_mul p)
  have e : Real.exp (-(u + 0 * m)) * -m / (1 + Real.exp (-(u + 0 * m))) + p * m = (p - sig u) * m := by
    simp only [zero_mul, add_zero, sig]; ring
  rw [e] at h4
  exact h4

variable {ι : Type} [Fintype ι] [DecidableEq ι]

theorem exists_min (E : Finset (ι × ι)) (P : ι × ι → ℝ) (hP : ∀ e ∈ E, 0 < P e ∧ P e < 1) (S : Finset ι)
    (hbound : ∀ C : ℝ, ∃ B : ℝ, ∀ θ : ι → ℝ, (∀ v ∉ S, θ v = 0) → (∀ e ∈ E, |θ e.1 + θ e.2| ≤ C) → ∀ v ∈ S, |θ v| ≤ B) :
    ∃ θ : ι → ℝ, (∀ v ∉ S, θ v = 0) ∧
      ∀ v ∈ S, ∑ e ∈ E, (P e - sig (θ e.1 + θ e.2)) * ((if e.1 = v then 1 else 0) + (if e.2 = v then 1 else 0)) = 0 := by
  set G : (ι → ℝ) → ℝ := fun θ => ∑ e ∈ E, f (P e) (θ e.1 + θ e.2) with hG
  have hcont : Continuous G := by
    refine continuous_finset_sum _ fun e _ => ?_
    unfold f
    refine Continuous.add (Continuous.log (by fun_prop) fun θ => ?_) (by fun_prop)
    have := Real.exp_pos (-(θ e.1 + θ e.2))
    positivity
  have hmin : ∀ e ∈ E, 0 < min (P e) (1 - P e) := fun e he => lt_min (hP e he).1 (by linarith [(hP e he).2])
  have hG0 : ∀ θ, 0 ≤ G θ := fun θ => sum_nonneg fun e he => f_nonneg (hP e he).1 (hP e he).2 _
  obtain ⟨B, hB⟩ := hbound (∑ e ∈ E, G 0 / min (P e) (1 - P e))
  have hlevel : ∀ θ : ι → ℝ, (∀ v ∉ S, θ v = 0) → G θ ≤ G 0 → ∀ v ∈ S, |θ v| ≤ B := fun θ h0 hle => hB θ h0 fun e he => by
    have h1 : min (P e) (1 - P e) * |θ e.1 + θ e.2| ≤ G 0 :=
      (f_ge (hP e he).1 (hP e he).2 _).trans ((single_le_sum (f := fun e => f (P e) (θ e.1 + θ e.2)) (fun e he => f_nonneg (hP e he).1 (hP e he).2 _) he).trans hle)
    have h2 : |θ e.1 + θ e.2| ≤ G 0 / min (P e) (1 - P e) := by rw [le_div_iff₀ (hmin e he)]; linarith
    exact h2.trans (single_le_sum (f := fun e => G 0 / min (P e) (1 - P e)) (fun e he => div_nonneg (hG0 0) (hmin e he).le) he)
  set K : Set (ι → ℝ) := Set.pi Set.univ fun v => Set.Icc (-(if v ∈ S then max B 0 else 0)) (if v ∈ S then max B 0 else 0) with hK
  have hKc : IsCompact K := isCompact_univ_pi fun v => isCompact_Icc
  have hmem : ∀ θ : ι → ℝ, (∀ v ∉ S, θ v = 0) → (∀ v ∈ S, |θ v| ≤ B) → θ ∈ K := fun θ h0 h1 v _ => by
    by_cases hv : v ∈ S
    · simp only [if_pos hv]; exact abs_le.1 ((h1 v hv).trans (le_max_left _ _))
    · simp only [if_neg hv, h0 v hv]; simp
  have hzero : (0 : ι → ℝ) ∈ K := fun v _ => by
    by_cases hv : v ∈ S
    · simp only [if_pos hv, Pi.zero_apply]; exact ⟨by simp, le_max_right _ _⟩
    · simp [if_neg hv]
  obtain ⟨θ, hθK, hθ⟩ := hKc.exists_isMinOn ⟨0, hzero⟩ hcont.continuousOn
  have hoff : ∀ v ∉ S, θ v = 0 := fun v hv => by
    have := hθK v trivial
    simp only [if_neg hv] at this
    exact le_antisymm this.2 (by simpa using this.1)
  have hglob : ∀ θ' : ι → ℝ, (∀ v ∉ S, θ' v = 0) → G θ ≤ G θ' := fun θ' h0 => by
    rcases le_or_gt (G θ') (G 0) with h | h
    · exact hθ (hmem θ' h0 (hlevel θ' h0 h))
    · exact le_trans (hθ hzero) h.le
  refine ⟨θ, hoff, fun v hv => ?_⟩
  have hd : HasDerivAt (fun t : ℝ => ∑ e ∈ E, f (P e) ((θ e.1 + θ e.2) + t * ((if e.1 = v then 1 else 0) + (if e.2 = v then 1 else 0))))
      (∑ e ∈ E, (P e - sig (θ e.1 + θ e.2)) * ((if e.1 = v then 1 else 0) + (if e.2 = v then 1 else 0))) 0 :=
    HasDerivAt.fun_sum fun e _ => f_deriv (P e) _ _
  refine IsLocalMin.hasDerivAt_eq_zero (Filter.Eventually.of_forall fun t => ?_) hd
  have e1 : ∀ t : ℝ, (∑ e ∈ E, f (P e) ((θ e.1 + θ e.2) + t * ((if e.1 = v then 1 else 0) + (if e.2 = v then 1 else 0)))) =
      G (fun w => θ w + if w = v then t else 0) := fun t => sum_congr rfl fun e _ => by
    congr 1
    by_cases h1 : e.1 = v <;> by_cases h2 : e.2 = v <;> simp only [h1, h2, if_true, if_false] <;> ring
  rw [e1 t, e1 0]
  have e2 : (fun w => θ w + if w = v then (0 : ℝ) else 0) = θ := by funext w; simp
  rw [e2]
  refine hglob (fun w => θ w + if w = v then t else 0) fun w hw => ?_
  show θ w + (if w = v then t else 0) = 0
  rw [hoff w hw, if_neg (show ¬ w = v from fun h => hw (h ▸ hv)), add_zero]

end

end Verif.Existence
