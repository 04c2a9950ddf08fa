import Verif.Spec.Likelihood
import Verif.Lemmas.SolveU
import Verif.Lemmas.SolveD
import Mathlib.Analysis.SpecialFunctions.Log.Basic

/-! Lemmas on the laws of random graphs: log-probabilities, normalisation, the Gibbs inequality. -/

namespace Verif.Spec

open Finset

variable {n : ℕ}

theorem bool_ne_zero (b : Bool) : b ≠ 0 ↔ b = true := by
  show ¬ b = false ↔ _
  cases b <;> simp

/-! ### sums over pairs -/

theorem sum_degree {α : Type} [Zero α] [DecidableEq α] (A : Fin n → Fin n → α) (hA : IsGraph A) (a : Fin n → ℝ) :
    ∑ i, (degree A i : ℝ) * a i = ∑ i, ∑ j ∈ univ.filter (· < i), if A i j ≠ 0 then a i + a j else 0 := by
  have h1 : ∀ i, (degree A i : ℝ) * a i = ∑ j, if i = j then 0 else if A i j ≠ 0 then a i else 0 := by
    intro i
    rw [degree, card_eq_sum_ones, Nat.cast_sum, sum_filter, sum_mul]
    refine sum_congr rfl fun j _ => ?_
    by_cases h : i = j
    · subst h; simp [hA.loopless]
    · by_cases h2 : A i j = 0 <;> simp [h, h2]
  simp only [h1]
  rw [ECM.sum_lt_pairs (fun i j => if A i j ≠ 0 then a i else 0)]
  refine sum_congr rfl fun i _ => ?_
  rw [sum_filter]
  refine sum_congr rfl fun j _ => ?_
  by_cases h : j < i
  · rw [if_pos h, if_pos h, hA.symm j i]
    by_cases h2 : A i j = 0 <;> simp [h2]
  · rw [if_neg h, if_neg h]

theorem sum_strength (W : Fin n → Fin n → ℕ) (hW : IsGraph W) (a : Fin n → ℝ) :
    ∑ i, (strength W i : ℝ) * a i = ∑ i, ∑ j ∈ univ.filter (· < i), (W i j : ℝ) * (a i + a j) := by
  have h1 : ∀ i, (strength W i : ℝ) * a i = ∑ j, if i = j then 0 else (W i j : ℝ) * a i := by
    intro i
    rw [strength, Nat.cast_sum, sum_mul]
    refine sum_congr rfl fun j _ => ?_
    by_cases h : i = j
    · subst h; simp [hW.loopless]
    · simp [h]
  simp only [h1]
  rw [ECM.sum_lt_pairs (fun i j => (W i j : ℝ) * a i)]
  refine sum_congr rfl fun i _ => ?_
  rw [sum_filter]
  refine sum_congr rfl fun j _ => ?_
  by_cases h : j < i
  · rw [if_pos h, if_pos h, hW.symm j i]; ring
  · rw [if_neg h, if_neg h]

theorem sum_degrees_di {α : Type} [Zero α] [DecidableEq α] (A : Fin n → Fin n → α) (hA : IsDigraph A) (a b : Fin n → ℝ) :
    ∑ i, ((degree A i : ℝ) * a i + (inDegree A i : ℝ) * b i) = ∑ i, ∑ j ∈ univ.filter (· ≠ i), if A i j ≠ 0 then a i + b j else 0 := by
  have h1 : ∀ i, (degree A i : ℝ) * a i = ∑ j, if A i j ≠ 0 then a i else 0 := by
    intro i
    rw [degree, card_eq_sum_ones, Nat.cast_sum, sum_filter, sum_mul]
    refine sum_congr rfl fun j _ => ?_
    by_cases h2 : A i j = 0 <;> simp [h2]
  have h2 : ∀ i, (inDegree A i : ℝ) * b i = ∑ j, if A j i ≠ 0 then b i else 0 := by
    intro i
    rw [inDegree, card_eq_sum_ones, Nat.cast_sum, sum_filter, sum_mul]
    refine sum_congr rfl fun j _ => ?_
    by_cases h2 : A j i = 0 <;> simp [h2]
  rw [sum_add_distrib]
  simp only [h1, h2]
  rw [sum_comm (f := fun i j => if A j i ≠ 0 then b i else 0), ← sum_add_distrib]
  refine sum_congr rfl fun i _ => ?_
  rw [← sum_add_distrib, sum_filter]
  refine sum_congr rfl fun j _ => ?_
  by_cases h : j = i
  · subst h; simp [hA.loopless]
  · by_cases h2 : A i j = 0 <;> simp [h, h2]

theorem sum_strengths_di (W : Fin n → Fin n → ℕ) (hW : IsDigraph W) (a b : Fin n → ℝ) :
    ∑ i, ((strength W i : ℝ) * a i + (inStrength W i : ℝ) * b i) = ∑ i, ∑ j ∈ univ.filter (· ≠ i), (W i j : ℝ) * (a i + b j) := by
  rw [sum_add_distrib]
  simp only [strength, inStrength, Nat.cast_sum, sum_mul]
  rw [sum_comm (f := fun i j => (W j i : ℝ) * b i), ← sum_add_distrib]
  refine sum_congr rfl fun i _ => ?_
  rw [← sum_add_distrib, sum_filter]
  refine sum_congr rfl fun j _ => ?_
  by_cases h : j = i
  · subst h; simp [hW.loopless]
  · simp only [h, ne_eq, not_false_eq_true, if_true]; ring

/-! ### the law of one pair -/

theorem bern_pos {X : ℝ} (h : 0 ≤ X) (b : Bool) (hb : b = true → 0 < X) : 0 < bern (X / (1 + X)) b := by
  have h1 : 0 < 1 + X := by linarith
  cases b with
  | true => have := hb rfl; simp only [bern, if_true]; positivity
  | false =>
    have : 1 - X / (1 + X) = 1 / (1 + X) := by field_simp; ring
    simp only [bern, Bool.false_eq_true, if_false, this]; positivity

theorem log_bern {X : ℝ} (h : 0 ≤ X) (b : Bool) (hb : b = true → 0 < X) :
    Real.log (bern (X / (1 + X)) b) = (if b ≠ 0 then Real.log X else 0) - Real.log (1 + X) := by
  have h1 : 0 < 1 + X := by linarith
  cases b with
  | true =>
    have := hb rfl
    rw [if_pos ((bool_ne_zero _).2 rfl)]
    simp only [bern, if_true]
    rw [Real.log_div this.ne' h1.ne']
  | false =>
    have : 1 - X / (1 + X) = (1 + X)⁻¹ := by field_simp; ring
    rw [if_neg (by rw [bool_ne_zero]; simp)]
    simp only [bern, Bool.false_eq_true, if_false, this]
    rw [Real.log_inv]; ring

theorem geomLaw_pos {X Y : ℝ} (h : 0 ≤ X) (hY : 0 ≤ Y) (hY1 : Y < 1) (w : ℕ) (hw : w ≠ 0 → 0 < X ∧ 0 < Y) :
    0 < geomLaw (X * Y / (1 - Y + X * Y)) Y w := by
  have h1 : 0 < 1 - Y + X * Y := by nlinarith [mul_nonneg h hY]
  cases w with
  | zero =>
    have : 1 - X * Y / (1 - Y + X * Y) = (1 - Y) / (1 - Y + X * Y) := by field_simp; ring
    simp only [geomLaw, this]
    exact div_pos (by linarith) h1
  | succ w =>
    obtain ⟨hX, hY0⟩ := hw (by simp)
    have : 0 < 1 - Y := by linarith
    simp only [geomLaw]; positivity

theorem log_geomLaw {X Y : ℝ} (h : 0 ≤ X) (hY : 0 ≤ Y) (hY1 : Y < 1) (w : ℕ) (hw : w ≠ 0 → 0 < X ∧ 0 < Y) :
    Real.log (geomLaw (X * Y / (1 - Y + X * Y)) Y w) =
      (if w ≠ 0 then Real.log X else 0) + w * Real.log Y + Real.log ((1 - Y) / (1 - Y + X * Y)) := by
  have h1 : 0 < 1 - Y + X * Y := by nlinarith [mul_nonneg h hY]
  have h2 : 0 < 1 - Y := by linarith
  cases w with
  | zero =>
    have : 1 - X * Y / (1 - Y + X * Y) = (1 - Y) / (1 - Y + X * Y) := by field_simp; ring
    simp only [geomLaw, this]
    simp
  | succ w =>
    obtain ⟨hX, hY0⟩ := hw (by simp)
    have : X * Y / (1 - Y + X * Y) * ((1 - Y) * Y ^ w) = X * Y ^ (w + 1) * ((1 - Y) / (1 - Y + X * Y)) := by
      rw [pow_succ]; field_simp
    simp only [geomLaw, this]
    rw [Real.log_mul (by positivity) (by positivity), Real.log_mul (by positivity) (by positivity), Real.log_pow, if_pos (by simp)]

end Verif.Spec
