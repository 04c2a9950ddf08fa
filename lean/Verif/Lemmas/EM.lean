import Mathlib.Analysis.SpecialFunctions.Log.Deriv
import Mathlib.Analysis.SpecialFunctions.Pow.Continuity
import Mathlib.Analysis.Convex.SpecificFunctions.Basic
import Mathlib.Analysis.Calculus.LocalExtr.Basic
import Mathlib.Topology.Order.Compact
import Mathlib.Algebra.BigOperators.Field

/-! The fixed-point recipe of the conditional reconstruction models as a minorise-maximise step: `β i ↦ β i * (expected strength) / (observed strength)`. -/

namespace Verif.EM

open Finset

noncomputable section

variable {ι : Type} [Fintype ι]

/-- expected strength -/
def str (p : ι → ι → ℝ) (β : ι → ℝ) (i : ι) : ℝ := ∑ j, p i j / (β i + β j)

/-- the recipe -/
def F (p : ι → ι → ℝ) (s β : ι → ℝ) (i : ι) : ℝ := β i * str p β i / s i

/-- the log-likelihood -/
def L (p : ι → ι → ℝ) (s β : ι → ℝ) : ℝ := -∑ i, s i * β i + (∑ i, ∑ j, p i j * Real.log (β i + β j)) / 2

/-- divergence from `b` to `β` -/
def D (s b β : ι → ℝ) : ℝ := ∑ i, s i * (b i * Real.log (b i / β i) - b i + β i)

structure Net (p : ι → ι → ℝ) (s : ι → ℝ) : Prop where
  symm : ∀ i j, p i j = p j i
  nonneg : ∀ i j, 0 ≤ p i j
  s_nonneg : ∀ i, 0 ≤ s i
  act : ∀ i j, p i j ≠ 0 → s i ≠ 0

/-- rates at which the recipe can be applied -/
structure Good (p : ι → ι → ℝ) (β : ι → ℝ) : Prop where
  nonneg : ∀ i, 0 ≤ β i
  pos : ∀ i j, p i j ≠ 0 → 0 < β i

variable {p : ι → ι → ℝ} {s : ι → ℝ}

theorem Good.sum_pos (h : Net p s) {β : ι → ℝ} (hβ : Good p β) {i j : ι} (hij : p i j ≠ 0) : 0 < β i + β j :=
  add_pos_of_pos_of_nonneg (hβ.pos i j hij) (hβ.nonneg j)

theorem sum_symm {w : ι → ι → ℝ} (hw : ∀ i j, w i j = w j i) (c : ι → ℝ) : ∑ i, ∑ j, w i j * (c i + c j) = 2 * ∑ i, c i * ∑ j, w i j := by
  have h1 : ∑ i, ∑ j, w i j * c j = ∑ i, ∑ j, w i j * c i := by
    rw [sum_comm]
    exact sum_congr rfl fun i _ => sum_congr rfl fun j _ => by rw [hw]
  simp only [mul_add, sum_add_distrib, h1]
  rw [← two_mul]
  congr 1
  exact sum_congr rfl fun i _ => by rw [mul_sum]; exact sum_congr rfl fun j _ => mul_comm _ _

theorem s_mul_F (h : Net p s) (β : ι → ℝ) (i : ι) : s i * F p s β i = β i * str p β i := by
  unfold F
  by_cases hi : s i = 0
  · have : str p β i = 0 := sum_eq_zero fun j _ => by
      rw [show p i j = 0 from by_contra fun hne => h.act i j hne hi, zero_div]
    rw [hi, this]; ring
  · field_simp

/-- the total expected strength, weighted by the rates -/
theorem sum_rate_str (h : Net p s) {β : ι → ℝ} (hβ : ∀ i j, p i j ≠ 0 → 0 < β i + β j) : ∑ i, β i * str p β i = (∑ i, ∑ j, p i j) / 2 := by
  have h1 := sum_symm (w := fun i j => p i j / (β i + β j)) (fun i j => by rw [h.symm, add_comm]) β
  have h2 : ∑ i, ∑ j, p i j / (β i + β j) * (β i + β j) = ∑ i, ∑ j, p i j := sum_congr rfl fun i _ => sum_congr rfl fun j _ => by
    by_cases hij : p i j = 0
    · rw [hij]; simp
    · rw [div_mul_cancel₀ _ (hβ i j hij).ne']
  rw [h2] at h1
  unfold str
  linarith

theorem F_mass (h : Net p s) {β : ι → ℝ} (hβ : Good p β) : ∑ i, s i * F p s β i = (∑ i, ∑ j, p i j) / 2 := by
  rw [← sum_rate_str h (fun i j => hβ.sum_pos h)]
  exact sum_congr rfl fun i _ => s_mul_F h β i

theorem str_nonneg (h : Net p s) {β : ι → ℝ} (hβ : Good p β) (i : ι) : 0 ≤ str p β i :=
  sum_nonneg fun j _ => div_nonneg (h.nonneg i j) (add_nonneg (hβ.nonneg i) (hβ.nonneg j))

theorem str_pos (h : Net p s) {β : ι → ℝ} (hβ : Good p β) {i j : ι} (hij : p i j ≠ 0) : 0 < str p β i :=
  sum_pos' (fun j _ => div_nonneg (h.nonneg i j) (add_nonneg (hβ.nonneg i) (hβ.nonneg j)))
    ⟨j, mem_univ j, div_pos (lt_of_le_of_ne (h.nonneg i j) (Ne.symm hij)) (hβ.sum_pos h hij)⟩

theorem s_pos (h : Net p s) {i j : ι} (hij : p i j ≠ 0) : 0 < s i := lt_of_le_of_ne (h.s_nonneg i) (Ne.symm (h.act i j hij))

theorem F_good (h : Net p s) {β : ι → ℝ} (hβ : Good p β) : Good p (F p s β) :=
  ⟨fun i => div_nonneg (mul_nonneg (hβ.nonneg i) (str_nonneg h hβ i)) (h.s_nonneg i),
    fun i j hij => div_pos (mul_pos (hβ.pos i j hij) (str_pos h hβ hij)) (s_pos h hij)⟩

theorem damp_good {β γ : ι → ℝ} (hβ : Good p β) (hγ : Good p γ) {a : ℝ} (h0 : 0 ≤ a) (h1 : a ≤ 1) : Good p (β + a • (γ - β)) := by
  have e : ∀ i, (β + a • (γ - β)) i = (1 - a) * β i + a * γ i := fun i => by simp only [Pi.add_apply, Pi.smul_apply, Pi.sub_apply, smul_eq_mul]; ring
  refine ⟨fun i => ?_, fun i j hij => ?_⟩
  · rw [e]
    exact add_nonneg (mul_nonneg (by linarith) (hβ.nonneg i)) (mul_nonneg h0 (hγ.nonneg i))
  · rw [e]
    have h2 := hβ.pos i j hij
    have h3 := hγ.pos i j hij
    rcases eq_or_lt_of_le h0 with h4 | h4
    · rw [← h4]; linarith
    · have := mul_pos h4 h3
      have := mul_nonneg (sub_nonneg.2 h1) h2.le
      linarith

theorem log_concave {a b x y : ℝ} (ha : 0 ≤ a) (hb : 0 ≤ b) (hab : a + b = 1) (hx : 0 < x) (hy : 0 < y) : a * Real.log x + b * Real.log y ≤ Real.log (a * x + b * y) := by
  have := strictConcaveOn_log_Ioi.concaveOn.2 (Set.mem_Ioi.2 hx) (Set.mem_Ioi.2 hy) ha hb hab
  simpa [smul_eq_mul] using this

/-- the likelihood is concave along segments -/
theorem L_damp (h : Net p s) {β γ : ι → ℝ} (hβ : Good p β) (hγ : Good p γ) {a : ℝ} (h0 : 0 ≤ a) (h1 : a ≤ 1) :
    L p s β + a * (L p s γ - L p s β) ≤ L p s (β + a • (γ - β)) := by
  have e : ∀ i, (β + a • (γ - β)) i = (1 - a) * β i + a * γ i := fun i => by simp only [Pi.add_apply, Pi.smul_apply, Pi.sub_apply, smul_eq_mul]; ring
  have key : ∑ i, ∑ j, ((1 - a) * (p i j * Real.log (β i + β j)) + a * (p i j * Real.log (γ i + γ j))) ≤
      ∑ i, ∑ j, p i j * Real.log ((β + a • (γ - β)) i + (β + a • (γ - β)) j) := sum_le_sum fun i _ => sum_le_sum fun j _ => by
    by_cases hij : p i j = 0
    · simp [hij]
    have h2 := log_concave (sub_nonneg.2 h1) h0 (by ring) (hβ.sum_pos h hij) (hγ.sum_pos h hij)
    have h3 := mul_le_mul_of_nonneg_left h2 (h.nonneg i j)
    rw [e, e, show (1 - a) * β i + a * γ i + ((1 - a) * β j + a * γ j) = (1 - a) * (β i + β j) + a * (γ i + γ j) by ring]
    linarith
  have key2 : ∑ i, s i * (β + a • (γ - β)) i = (1 - a) * ∑ i, s i * β i + a * ∑ i, s i * γ i := by
    rw [mul_sum, mul_sum, ← sum_add_distrib]
    exact sum_congr rfl fun i _ => by rw [e]; ring
  simp only [sum_add_distrib, ← mul_sum] at key
  unfold L
  rw [key2]
  linarith

/-- the minorise-maximise inequality -/
theorem L_F (h : Net p s) {β : ι → ℝ} (hβ : Good p β) : L p s β + D s (F p s β) β ≤ L p s (F p s β) := by
  have hF := F_good h hβ
  have key : ∑ i, ∑ j, (p i j / (β i + β j)) * (β i * Real.log (F p s β i / β i) + β j * Real.log (F p s β j / β j)) ≤
      ∑ i, ∑ j, (p i j * Real.log (F p s β i + F p s β j) - p i j * Real.log (β i + β j)) := sum_le_sum fun i _ => sum_le_sum fun j _ => by
    by_cases hij : p i j = 0
    · simp [hij]
    have hji : p j i ≠ 0 := by rw [← h.symm]; exact hij
    have hi := hβ.pos i j hij
    have hj := hβ.pos j i hji
    have hu : 0 < β i + β j := add_pos hi hj
    have hFi := hF.pos i j hij
    have hFj := hF.pos j i hji
    have h2 := log_concave (a := β i / (β i + β j)) (b := β j / (β i + β j)) (by positivity) (by positivity) (by field_simp) (div_pos hFi hi) (div_pos hFj hj)
    rw [show β i / (β i + β j) * (F p s β i / β i) + β j / (β i + β j) * (F p s β j / β j) = (F p s β i + F p s β j) / (β i + β j) by field_simp,
      Real.log_div (by positivity) hu.ne'] at h2
    have h3 := mul_le_mul_of_nonneg_left h2 (h.nonneg i j)
    calc _ = p i j * (β i / (β i + β j) * Real.log (F p s β i / β i) + β j / (β i + β j) * Real.log (F p s β j / β j)) := by field_simp
      _ ≤ _ := by linarith
  have key1 := sum_symm (w := fun i j => p i j / (β i + β j)) (fun i j => by rw [h.symm, add_comm]) fun i => β i * Real.log (F p s β i / β i)
  rw [key1] at key
  have key2 : ∑ i, β i * Real.log (F p s β i / β i) * ∑ j, p i j / (β i + β j) = ∑ i, s i * (F p s β i * Real.log (F p s β i / β i)) := sum_congr rfl fun i _ => by
    have := s_mul_F h β i
    unfold str at this
    linear_combination -(Real.log (F p s β i / β i)) * this
  rw [key2] at key
  simp only [sum_sub_distrib] at key
  have e : D s (F p s β) β = ∑ i, s i * (F p s β i * Real.log (F p s β i / β i)) - ∑ i, s i * F p s β i + ∑ i, s i * β i := by
    unfold D
    rw [← sum_sub_distrib, ← sum_add_distrib]
    exact sum_congr rfl fun i _ => by ring
  rw [e]
  unfold L
  linarith

/-- a divergence term is not negative -/
theorem div_term_nonneg {b β : ℝ} (hb : 0 ≤ b) (hβ : 0 < β) : 0 ≤ b * Real.log (b / β) - b + β := by
  rcases eq_or_lt_of_le hb with h | h
  · rw [← h]; simp; exact hβ.le
  have h1 := Real.one_sub_inv_le_log_of_pos (div_pos h hβ)
  have h2 := mul_le_mul_of_nonneg_left h1 h.le
  have h3 : b * (1 - (b / β)⁻¹) = b - β := by field_simp
  linarith

/-- every node with a strength has a link -/
def Linked (p : ι → ι → ℝ) (s : ι → ℝ) : Prop := ∀ i, s i ≠ 0 → ∃ j, p i j ≠ 0

theorem D_nonneg (h : Net p s) (hl : Linked p s) {b β : ι → ℝ} (hb : ∀ i, 0 ≤ b i) (hβ : Good p β) : 0 ≤ D s b β := sum_nonneg fun i _ => by
  by_cases hi : s i = 0
  · simp [hi]
  obtain ⟨j, hj⟩ := hl i hi
  exact mul_nonneg (h.s_nonneg i) (div_term_nonneg (hb i) (hβ.pos i j hj))

theorem D_F_nonneg (h : Net p s) {β : ι → ℝ} (hβ : Good p β) : 0 ≤ D s (F p s β) β := sum_nonneg fun i _ => by
  by_cases hi : s i = 0
  · simp [hi]
  refine mul_nonneg (h.s_nonneg i) ?_
  rcases eq_or_lt_of_le (hβ.nonneg i) with h0 | h0
  · have : F p s β i = 0 := by unfold F; rw [← h0]; simp
    rw [this, ← h0]; simp
  · exact div_term_nonneg ((F_good h hβ).nonneg i) h0

/-- one step, damped or not, never lowers the likelihood -/
theorem L_step (h : Net p s) {β : ι → ℝ} (hβ : Good p β) {a : ℝ} (h0 : 0 ≤ a) (h1 : a ≤ 1) : L p s β ≤ L p s (β + a • (F p s β - β)) := by
  have h2 := L_damp h hβ (F_good h hβ) h0 h1
  have h3 := L_F h hβ
  have h4 := D_F_nonneg h hβ
  have : 0 ≤ a * (L p s (F p s β) - L p s β) := mul_nonneg h0 (by linarith)
  linarith

/-- a best vector of non-negative rates -/
structure Best (p : ι → ι → ℝ) (s b : ι → ℝ) : Prop where
  nonneg : ∀ i, 0 ≤ b i
  zero : ∀ i, s i = 0 → b i = 0
  pos : ∀ i j, p i j ≠ 0 → 0 < b i + b j
  best : ∀ β : ι → ℝ, (∀ i, 0 ≤ β i) → (∀ i j, p i j ≠ 0 → 0 < β i + β j) → L p s β ≤ L p s b
  str : ∀ i, b i ≠ 0 → str p b i = s i

theorem cancel_mid (P : ℝ) {U : ℝ} (hU : U ≠ 0) (B R : ℝ) : P / U * (U / B / R) = P / B / R := by
  rw [div_div, div_mul_div_cancel₀ hU, div_div]

/-- a step brings the rates closer to a best vector by at least what the likelihood is short of its maximum -/
theorem D_step (h : Net p s) (hl : Linked p s) {b β : ι → ℝ} (hb : Best p s b) (hβ : Good p β) : D s b (F p s β) + (L p s b - L p s β) ≤ D s b β := by
  have hmb : ∑ i, s i * b i = (∑ i, ∑ j, p i j) / 2 := by
    rw [← sum_rate_str h hb.pos]
    refine sum_congr rfl fun i _ => ?_
    by_cases hi : b i = 0
    · rw [hi]; simp
    · rw [hb.str i hi, mul_comm]
  have hmF := F_mass h hβ
  have key : ∀ i, b i * ∑ j, p i j / (b i + b j) * (Real.log (b i + b j) - Real.log (β i + β j)) ≤ s i * (b i * Real.log (str p β i / s i)) := fun i => by
    by_cases hi : b i = 0
    · rw [hi]; simp
    have hsi : s i ≠ 0 := fun h0 => hi (hb.zero i h0)
    obtain ⟨j0, hj0⟩ := hl i hsi
    have hr : 0 < str p β i / s i := div_pos (str_pos h hβ hj0) (s_pos h hj0)
    have h1 : ∑ j, p i j / (b i + b j) * (Real.log (b i + b j) - Real.log (β i + β j)) ≤
        ∑ j, (p i j / (b i + b j) * (Real.log (str p β i / s i) - 1) + p i j / (β i + β j) / (str p β i / s i)) := sum_le_sum fun j _ => by
      by_cases hij : p i j = 0
      · simp [hij]
      have hu := hβ.sum_pos h hij
      have hub := hb.pos i j hij
      have h2 := Real.log_le_sub_one_of_pos (show 0 < (b i + b j) / (β i + β j) / (str p β i / s i) by positivity)
      rw [Real.log_div (by positivity) hr.ne', Real.log_div hub.ne' hu.ne'] at h2
      have h3 := mul_le_mul_of_nonneg_left h2 (show 0 ≤ p i j / (b i + b j) from div_nonneg (h.nonneg i j) hub.le)
      have h4 : p i j / (b i + b j) * ((b i + b j) / (β i + β j) / (str p β i / s i) - 1) = p i j / (β i + β j) / (str p β i / s i) - p i j / (b i + b j) := by
        rw [mul_sub, mul_one]
        congr 1
        exact cancel_mid _ hub.ne' _ _
      rw [h4] at h3
      linarith
    rw [sum_add_distrib, ← sum_mul, ← sum_div] at h1
    have h5 : (∑ j, p i j / (b i + b j)) = s i := hb.str i hi
    have h6 : (∑ j, p i j / (β i + β j)) / (str p β i / s i) = s i := by
      show str p β i / (str p β i / s i) = s i
      have := (str_pos h hβ hj0).ne'
      field_simp
    rw [h5, h6] at h1
    have := mul_le_mul_of_nonneg_left h1 (hb.nonneg i)
    linarith
  have key1 := sum_symm (w := fun i j => p i j / (b i + b j) * (Real.log (b i + b j) - Real.log (β i + β j)))
    (fun i j => by rw [h.symm, add_comm (b i), add_comm (β i)]) b
  have key2 : ∑ i, ∑ j, p i j / (b i + b j) * (Real.log (b i + b j) - Real.log (β i + β j)) * (b i + b j) =
      ∑ i, ∑ j, (p i j * Real.log (b i + b j) - p i j * Real.log (β i + β j)) := sum_congr rfl fun i _ => sum_congr rfl fun j _ => by
    by_cases hij : p i j = 0
    · simp [hij]
    · have := (hb.pos i j hij).ne'
      field_simp
  rw [key2] at key1
  simp only [sum_sub_distrib] at key1
  have key3 := sum_le_sum fun i (_ : i ∈ univ) => key i
  have e : D s b β - D s b (F p s β) = ∑ i, s i * (b i * Real.log (str p β i / s i)) + ∑ i, s i * β i - ∑ i, s i * F p s β i := by
    unfold D
    rw [← sum_sub_distrib, ← sum_add_distrib, ← sum_sub_distrib]
    refine sum_congr rfl fun i _ => ?_
    by_cases hi : b i = 0
    · rw [hi]; simp
    have hsi : s i ≠ 0 := fun h0 => hi (hb.zero i h0)
    obtain ⟨j0, hj0⟩ := hl i hsi
    have hpos := hβ.pos i j0 hj0
    have hst := str_pos h hβ hj0
    have h1 : Real.log (b i / β i) - Real.log (b i / F p s β i) = Real.log (str p β i / s i) := by
      unfold F
      rw [Real.log_div hi hpos.ne', Real.log_div hi (by positivity), Real.log_div (by positivity) hsi, Real.log_mul hpos.ne' hst.ne', Real.log_div hst.ne' hsi]
      ring
    linear_combination s i * b i * h1
  unfold L
  linarith

/-- divergence is convex in the rates -/
theorem D_damp (h : Net p s) (hl : Linked p s) {b β γ : ι → ℝ} (hb : ∀ i, 0 ≤ b i) (hβ : Good p β) (hγ : Good p γ) {a : ℝ} (h0 : 0 ≤ a) (h1 : a ≤ 1) :
    D s b (β + a • (γ - β)) ≤ (1 - a) * D s b β + a * D s b γ := by
  unfold D
  rw [mul_sum, mul_sum, ← sum_add_distrib]
  refine sum_le_sum fun i _ => ?_
  by_cases hsi : s i = 0
  · simp [hsi]
  obtain ⟨j, hj⟩ := hl i hsi
  have h2 := hβ.pos i j hj
  have h3 := hγ.pos i j hj
  have h4 : 0 < (1 - a) * β i + a * γ i := by
    have := (damp_good hβ hγ h0 h1).pos i j hj
    rwa [show (β + a • (γ - β)) i = (1 - a) * β i + a * γ i by simp only [Pi.add_apply, Pi.smul_apply, Pi.sub_apply, smul_eq_mul]; ring] at this
  rw [show (β + a • (γ - β)) i = (1 - a) * β i + a * γ i by simp only [Pi.add_apply, Pi.smul_apply, Pi.sub_apply, smul_eq_mul]; ring]
  rcases eq_or_lt_of_le (hb i) with hbi | hbi
  · rw [← hbi]; simp; ring_nf; exact le_rfl
  have h5 := log_concave (sub_nonneg.2 h1) h0 (by ring) h2 h3
  rw [Real.log_div hbi.ne' h2.ne', Real.log_div hbi.ne' h3.ne', Real.log_div hbi.ne' h4.ne']
  have h6 := mul_le_mul_of_nonneg_left h5 (mul_nonneg (h.s_nonneg i) hbi.le)
  linarith

theorem L_deriv [DecidableEq ι] (h : Net p s) {b : ι → ℝ} (hb : ∀ i j, p i j ≠ 0 → 0 < b i + b j) (i : ι) :
    HasDerivAt (fun t : ℝ => L p s fun k => b k + t * (if k = i then 1 else 0)) (str p b i - s i) 0 := by
  have h1 : HasDerivAt (fun t : ℝ => ∑ k, s k * (b k + t * (if k = i then 1 else 0))) (∑ k, s k * (if k = i then 1 else 0)) 0 :=
    HasDerivAt.fun_sum fun k _ => by simpa using (((hasDerivAt_id (0 : ℝ)).mul_const (if k = i then (1 : ℝ) else 0)).const_add (b k)).const_mul (s k)
  have h2 : HasDerivAt (fun t : ℝ => ∑ k, ∑ j, p k j * Real.log ((b k + t * (if k = i then 1 else 0)) + (b j + t * (if j = i then 1 else 0))))
      (∑ k, ∑ j, p k j / (b k + b j) * ((if k = i then 1 else 0) + (if j = i then 1 else 0))) 0 :=
    HasDerivAt.fun_sum fun k _ => HasDerivAt.fun_sum fun j _ => by
      by_cases hkj : p k j = 0
      · simpa [hkj] using hasDerivAt_const (0 : ℝ) (0 : ℝ)
      have h3 : HasDerivAt (fun t : ℝ => (b k + t * (if k = i then 1 else 0)) + (b j + t * (if j = i then (1 : ℝ) else 0))) ((if k = i then 1 else 0) + (if j = i then 1 else 0)) 0 := by
        simpa using HasDerivAt.fun_add (((hasDerivAt_id (0 : ℝ)).mul_const (if k = i then (1 : ℝ) else 0)).const_add (b k))
          (((hasDerivAt_id (0 : ℝ)).mul_const (if j = i then (1 : ℝ) else 0)).const_add (b j))
      have h4 := (h3.log (by simpa using (hb k j hkj).ne')).const_mul (p k j)
      have e : p k j * (((if k = i then 1 else 0) + (if j = i then 1 else 0)) / ((b k + 0 * (if k = i then 1 else 0)) + (b j + 0 * (if j = i then (1 : ℝ) else 0)))) =
          p k j / (b k + b j) * ((if k = i then 1 else 0) + (if j = i then 1 else 0)) := by
        rw [zero_mul, zero_mul, add_zero, add_zero]; ring
      rw [e] at h4
      exact h4
  have h5 := HasDerivAt.fun_add h1.fun_neg (h2.div_const 2)
  rw [sum_symm (fun i j => by rw [h.symm, add_comm]) fun k => if k = i then (1 : ℝ) else 0] at h5
  have e : -(∑ k, s k * (if k = i then 1 else 0)) + 2 * (∑ k, (if k = i then (1 : ℝ) else 0) * ∑ j, p k j / (b k + b j)) / 2 = str p b i - s i := by
    simp [str]
    ring
  rw [e] at h5
  exact h5

theorem exists_best (h : Net p s) (hl : Linked p s) (hne : ∃ i j, p i j ≠ 0) : ∃ b, Best p s b := by
  classical
  obtain ⟨i0, j0, h0⟩ := hne
  set m : ℝ := (∑ i, ∑ j, p i j) / 2 with hm
  have hmpos : 0 < m := by
    refine half_pos (sum_pos' (fun i _ => sum_nonneg fun j _ => h.nonneg i j) ⟨i0, mem_univ _, sum_pos' (fun j _ => h.nonneg i0 j) ⟨j0, mem_univ _, ?_⟩⟩)
    exact lt_of_le_of_ne (h.nonneg i0 j0) (Ne.symm h0)
  set K : Set (ι → ℝ) := {β | (∀ i, 0 ≤ β i) ∧ (∀ i, s i = 0 → β i = 0) ∧ ∑ i, s i * β i = m} with hK
  have hKc : IsCompact K := by
    refine IsCompact.of_isClosed_subset (isCompact_univ_pi fun i => isCompact_Icc (a := (0 : ℝ)) (b := if s i = 0 then 0 else m / s i)) ?_ ?_
    · have e : K = (⋂ i, {β : ι → ℝ | 0 ≤ β i}) ∩ ((⋂ i, {β : ι → ℝ | s i = 0 → β i = 0}) ∩ {β : ι → ℝ | ∑ i, s i * β i = m}) := by
        ext β; simp [hK]
      rw [e]
      refine (isClosed_iInter fun i => isClosed_le continuous_const (continuous_apply i)).inter ((isClosed_iInter fun i => ?_).inter (isClosed_eq (by fun_prop) continuous_const))
      by_cases hi : s i = 0
      · simpa [hi] using isClosed_eq (continuous_apply i) continuous_const
      · simp [hi]
    · intro β hβ i _
      obtain ⟨h1, h2, h3⟩ := hβ
      by_cases hi : s i = 0
      · simp [hi, h2 i hi]
      · have hs : 0 < s i := lt_of_le_of_ne (h.s_nonneg i) (Ne.symm hi)
        simp only [hi, if_false]
        refine ⟨h1 i, ?_⟩
        rw [le_div_iff₀ hs, ← h3, mul_comm]
        exact single_le_sum (f := fun i => s i * β i) (fun i _ => mul_nonneg (h.s_nonneg i) (h1 i)) (mem_univ i)
  set G : (ι → ℝ) → ℝ := fun β => ∏ i, ∏ j, (β i + β j) ^ p i j with hG
  have hGc : Continuous G := continuous_finset_prod _ fun i _ => continuous_finset_prod _ fun j _ => (Real.continuous_rpow_const (h.nonneg i j)).comp (by fun_prop)
  have hS : 0 < ∑ i, s i := sum_pos' (fun i _ => h.s_nonneg i) ⟨i0, mem_univ _, s_pos h h0⟩
  set c : ℝ := m / ∑ i, s i with hc
  have hcpos : 0 < c := div_pos hmpos hS
  set β0 : ι → ℝ := fun i => if s i = 0 then 0 else c with hβ0
  have hβ0K : β0 ∈ K := by
    refine ⟨fun i => by simp only [hβ0]; split_ifs <;> [exact le_rfl; exact hcpos.le], fun i hi => by simp [hβ0, hi], ?_⟩
    have : ∀ i, s i * β0 i = s i * c := fun i => by by_cases hi : s i = 0 <;> simp [hβ0, hi]
    simp only [this, ← sum_mul, hc]
    field_simp
  obtain ⟨b, hbK, hbmax⟩ := hKc.exists_isMaxOn ⟨β0, hβ0K⟩ hGc.continuousOn
  have hGpos : ∀ β : ι → ℝ, (∀ i, 0 ≤ β i) → ((∀ i j, p i j ≠ 0 → 0 < β i + β j) ↔ 0 < G β) := fun β hnn => by
    constructor
    · intro hu
      refine prod_pos fun i _ => prod_pos fun j _ => ?_
      by_cases hij : p i j = 0
      · simp [hij]
      · exact Real.rpow_pos_of_pos (hu i j hij) _
    · intro hg i j hij
      refine lt_of_le_of_ne (add_nonneg (hnn i) (hnn j)) fun he => hg.ne' ?_
      refine prod_eq_zero (mem_univ i) (prod_eq_zero (mem_univ j) ?_)
      rw [← he, Real.zero_rpow hij]
  have hlog : ∀ β : ι → ℝ, (∀ i j, p i j ≠ 0 → 0 < β i + β j) → Real.log (G β) = ∑ i, ∑ j, p i j * Real.log (β i + β j) := fun β hu => by
    have hne : ∀ i j, (β i + β j) ^ p i j ≠ 0 := fun i j => by
      by_cases hij : p i j = 0
      · simp [hij]
      · exact (Real.rpow_pos_of_pos (hu i j hij) _).ne'
    rw [hG, Real.log_prod (fun i _ => prod_ne_zero_iff.2 fun j _ => hne i j)]
    refine sum_congr rfl fun i _ => ?_
    rw [Real.log_prod (fun j _ => hne i j)]
    refine sum_congr rfl fun j _ => ?_
    by_cases hij : p i j = 0
    · simp [hij]
    · exact Real.log_rpow (hu i j hij) _
  have hβ0pos : 0 < G β0 := (hGpos β0 hβ0K.1).1 fun i j hij => by
    have : s j ≠ 0 := h.act j i (by rw [h.symm]; exact hij)
    simp only [hβ0, h.act i j hij, this, if_false]
    linarith
  have hbpos : ∀ i j, p i j ≠ 0 → 0 < b i + b j := (hGpos b hbK.1).2 (hβ0pos.trans_le (hbmax hβ0K))
  have hbest : ∀ β : ι → ℝ, (∀ i, 0 ≤ β i) → (∀ i j, p i j ≠ 0 → 0 < β i + β j) → L p s β ≤ L p s b := fun β hnn hu => by
    set S : ℝ := ∑ i, s i * β i with hSdef
    have hSpos : 0 < S := by
      have hu0 := hu i0 j0 h0
      have hs1 := s_pos h h0
      have hs2 : 0 < s j0 := s_pos h (show p j0 i0 ≠ 0 by rw [h.symm]; exact h0)
      by_cases hi : 0 < β i0
      · exact sum_pos' (fun i _ => mul_nonneg (h.s_nonneg i) (hnn i)) ⟨i0, mem_univ _, mul_pos hs1 hi⟩
      · refine sum_pos' (fun i _ => mul_nonneg (h.s_nonneg i) (hnn i)) ⟨j0, mem_univ _, mul_pos hs2 ?_⟩
        have := hnn i0
        push Not at hi
        linarith
    set β1 : ι → ℝ := fun i => if s i = 0 then 0 else m / S * β i with hβ1
    have htpos : 0 < m / S := div_pos hmpos hSpos
    have h1 : ∑ i, s i * β1 i = m := by
      have : ∀ i, s i * β1 i = m / S * (s i * β i) := fun i => by
        by_cases hi : s i = 0
        · simp [hβ1, hi]
        · simp only [hβ1, hi, if_false]; ring
      simp only [this, ← mul_sum, ← hSdef]
      field_simp
    have hnn1 : ∀ i, 0 ≤ β1 i := fun i => by
      simp only [hβ1]
      split_ifs
      · exact le_rfl
      · exact mul_nonneg htpos.le (hnn i)
    have hu1 : ∀ i j, p i j ≠ 0 → β1 i + β1 j = m / S * (β i + β j) := fun i j hij => by
      have : s j ≠ 0 := h.act j i (by rw [h.symm]; exact hij)
      simp only [hβ1, h.act i j hij, this, if_false]
      ring
    have hu1pos : ∀ i j, p i j ≠ 0 → 0 < β1 i + β1 j := fun i j hij => by rw [hu1 i j hij]; exact mul_pos htpos (hu i j hij)
    have h2 : G β1 ≤ G b := hbmax ⟨hnn1, fun i hi => by simp [hβ1, hi], h1⟩
    have h3 := Real.log_le_log ((hGpos β1 hnn1).1 hu1pos) h2
    rw [hlog β1 hu1pos, hlog b hbpos] at h3
    have h4 : ∑ i, ∑ j, p i j * Real.log (β1 i + β1 j) = 2 * m * Real.log (m / S) + ∑ i, ∑ j, p i j * Real.log (β i + β j) := by
      rw [hm, mul_div_cancel₀ _ (two_ne_zero' ℝ), sum_mul, ← sum_add_distrib]
      refine sum_congr rfl fun i _ => ?_
      rw [sum_mul, ← sum_add_distrib]
      refine sum_congr rfl fun j _ => ?_
      by_cases hij : p i j = 0
      · simp [hij]
      · rw [hu1 i j hij, Real.log_mul htpos.ne' (hu i j hij).ne']; ring
    have h5 : -S ≤ -m + m * Real.log (m / S) := by
      have h6 := Real.one_sub_inv_le_log_of_pos htpos
      have h7 := mul_le_mul_of_nonneg_left h6 hmpos.le
      have h8 : m * (1 - (m / S)⁻¹) = m - S := by field_simp
      linarith
    have h9 := hbK.2.2
    unfold L
    rw [h9, ← hSdef]
    linarith
  refine ⟨b, hbK.1, hbK.2.1, hbpos, hbest, fun i hi => ?_⟩
  have hbi : 0 < b i := lt_of_le_of_ne (hbK.1 i) (Ne.symm hi)
  have hd := L_deriv h hbpos i
  have h1 := IsLocalMax.hasDerivAt_eq_zero ?_ hd
  · linarith
  · have : ∀ᶠ t in nhds (0 : ℝ), -b i < t := lt_mem_nhds (by linarith)
    filter_upwards [this] with t ht
    have e0 : (fun k => b k + (0 : ℝ) * (if k = i then 1 else 0)) = b := by funext k; simp
    rw [e0]
    have hk : ∀ k, 0 ≤ b k + t * (if k = i then 1 else 0) ∧ (b k ≠ 0 → 0 < b k + t * (if k = i then 1 else 0)) := fun k => by
      by_cases hki : k = i
      · subst hki
        simp only [if_true, mul_one]
        exact ⟨by linarith, fun _ => by linarith⟩
      · simp only [hki, if_false, mul_zero, add_zero]
        exact ⟨hbK.1 k, fun h => lt_of_le_of_ne (hbK.1 k) (Ne.symm h)⟩
    refine hbest _ (fun k => (hk k).1) fun k j hkj => ?_
    have hu := hbpos k j hkj
    by_cases hb0 : b k = 0
    · have hbj : b j ≠ 0 := by rw [hb0, zero_add] at hu; exact hu.ne'
      exact add_pos_of_nonneg_of_pos (hk k).1 ((hk j).2 hbj)
    · exact add_pos_of_pos_of_nonneg ((hk k).2 hb0) (hk j).1

/-! ### repeated steps -/

theorem iter_good (h : Net p s) {β : ι → ℝ} (hβ : Good p β) (k : ℕ) : Good p ((F p s)^[k] β) := by
  induction k with
  | zero => exact hβ
  | succ k ih => rw [Function.iterate_succ_apply']; exact F_good h ih

/-- after `k` steps the likelihood is short of its maximum by at most `1/k` times the initial divergence -/
theorem rate (h : Net p s) (hl : Linked p s) {b β : ι → ℝ} (hb : Best p s b) (hβ : Good p β) (k : ℕ) :
    k * (L p s b - L p s ((F p s)^[k] β)) + D s b ((F p s)^[k] β) ≤ D s b β := by
  induction k with
  | zero => simp
  | succ k ih =>
    have hg := iter_good h hβ k
    have h1 := D_step h hl hb hg
    have h2 := L_F h hg
    have h3 := D_F_nonneg h hg
    rw [Function.iterate_succ_apply']
    have h4 : (k : ℝ) * (L p s b - L p s (F p s ((F p s)^[k] β))) ≤ k * (L p s b - L p s ((F p s)^[k] β)) :=
      mul_le_mul_of_nonneg_left (by linarith) (Nat.cast_nonneg k)
    push_cast
    linarith

/-- the likelihood is short of its maximum by little where the next step is small -/
theorem gap_of_small (h : Net p s) (hl : Linked p s) {b β : ι → ℝ} (hb : Best p s b) (hβ : Good p β) {c η : ℝ} (hc : 0 < c) (hη : 0 ≤ η)
    (hlow : ∀ i, b i ≠ 0 → c ≤ β i) (hsmall : ∀ i, |F p s β i - β i| ≤ η) : L p s b - L p s β ≤ η * ∑ i, s i * (b i / c + 1) := by
  have h1 := D_step h hl hb hβ
  have h2 : D s b β - D s b (F p s β) ≤ η * ∑ i, s i * (b i / c + 1) := by
    unfold D
    rw [← sum_sub_distrib, mul_sum]
    refine sum_le_sum fun i _ => ?_
    have h3 := abs_le.1 (hsmall i)
    have hsi := h.s_nonneg i
    have hnn := hb.nonneg i
    have key : b i * Real.log (b i / β i) - b i * Real.log (b i / F p s β i) ≤ η * (b i / c) := by
      by_cases hi : b i = 0
      · rw [hi]; simp
      have hs0 : s i ≠ 0 := fun h0 => hi (hb.zero i h0)
      obtain ⟨j, hj⟩ := hl i hs0
      have hp := hβ.pos i j hj
      have hpF := (F_good h hβ).pos i j hj
      have hbi : 0 < b i := lt_of_le_of_ne hnn (Ne.symm hi)
      rw [Real.log_div hi hp.ne', Real.log_div hi hpF.ne']
      have h4 := Real.log_le_sub_one_of_pos (div_pos hpF hp)
      rw [Real.log_div hpF.ne' hp.ne'] at h4
      have h5 : F p s β i / β i - 1 ≤ η / c := by
        rw [div_sub_one hp.ne', div_le_div_iff₀ hp hc]
        have := hlow i hi
        nlinarith
      have h6 := mul_le_mul_of_nonneg_left (h4.trans h5) hnn
      calc _ = b i * (Real.log (F p s β i) - Real.log (β i)) := by ring
        _ ≤ b i * (η / c) := h6
        _ = _ := by ring
    have := mul_le_mul_of_nonneg_left (add_le_add key (show β i - F p s β i ≤ η by linarith)) hsi
    linarith
  linarith

/-- rates near a best vector in divergence are bounded away from zero where it is positive -/
theorem low_of_D (h : Net p s) (hl : Linked p s) {b : ι → ℝ} (hb : Best p s b) (d : ℝ) : ∃ c > 0, ∀ β, Good p β → D s b β ≤ d → ∀ i, b i ≠ 0 → c ≤ β i := by
  classical
  have hone : ∀ i, b i ≠ 0 → 0 < b i * Real.exp (-(d / (s i * b i) + 1)) := fun i hi =>
    mul_pos (lt_of_le_of_ne (hb.nonneg i) (Ne.symm hi)) (Real.exp_pos _)
  have hbound : ∀ β, Good p β → D s b β ≤ d → ∀ i, b i ≠ 0 → b i * Real.exp (-(d / (s i * b i) + 1)) ≤ β i := fun β hβ hd i hi => by
    have hs0 : s i ≠ 0 := fun h0 => hi (hb.zero i h0)
    obtain ⟨j, hj⟩ := hl i hs0
    have hp := hβ.pos i j hj
    have hs := s_pos h hj
    have hbi : 0 < b i := lt_of_le_of_ne (hb.nonneg i) (Ne.symm hi)
    have h1 : s i * (b i * Real.log (b i / β i) - b i + β i) ≤ d := le_trans (single_le_sum (f := fun i => s i * (b i * Real.log (b i / β i) - b i + β i)) (fun k _ => by
      by_cases hk : s k = 0
      · simp [hk]
      obtain ⟨l, hkl⟩ := hl k hk
      exact mul_nonneg (h.s_nonneg k) (div_term_nonneg (hb.nonneg k) (hβ.pos k l hkl))) (mem_univ i)) hd
    have h2 : Real.log (b i / β i) ≤ d / (s i * b i) + 1 := by
      rw [← sub_le_iff_le_add, le_div_iff₀ (mul_pos hs hbi)]
      have := mul_pos hs hp
      nlinarith
    have h3 := Real.exp_le_exp.2 h2
    rw [Real.exp_log (div_pos hbi hp), div_le_iff₀ hp] at h3
    rw [Real.exp_neg, ← div_eq_mul_inv, div_le_iff₀ (Real.exp_pos _)]
    linarith
  refine ⟨∏ i, (if b i = 0 then 1 else min 1 (b i * Real.exp (-(d / (s i * b i) + 1)))), prod_pos fun i _ => ?_, fun β hβ hd i hi => ?_⟩
  · split_ifs with hi
    · exact one_pos
    · exact lt_min one_pos (hone i hi)
  · refine le_trans ?_ (hbound β hβ hd i hi)
    rw [← mul_prod_erase univ _ (mem_univ i), if_neg hi]
    refine le_trans (mul_le_of_le_one_right (le_min zero_le_one (hone i hi).le) (prod_le_one (fun k _ => ?_) fun k _ => ?_)) (min_le_right _ _)
    · split_ifs with hk
      · exact zero_le_one
      · exact le_min zero_le_one (hone k hk).le
    · split_ifs
      · exact le_rfl
      · exact min_le_left _ _

/-- where the likelihood is nearly maximal the expected strengths are nearly right, at the nodes whose rate is bounded below -/
theorem str_of_gap (h : Net p s) {b β : ι → ℝ} (hb : Best p s b) (hβ : Good p β) {c η : ℝ} (hc : 0 < c) {i : ι} (hsi : s i ≠ 0) (hlow : c ≤ β i)
    (hgap : L p s b - L p s β ≤ η) : (Real.sqrt (str p β i / s i) - 1) ^ 2 ≤ η / (s i * c) := by
  have hF := F_good h hβ
  have h1 := L_F h hβ
  have h2 := hb.best (F p s β) hF.nonneg fun i j hij => hF.sum_pos h hij
  have hs : 0 < s i := lt_of_le_of_ne (h.s_nonneg i) (Ne.symm hsi)
  have hβi : 0 < β i := hc.trans_le hlow
  have h3 : s i * (F p s β i * Real.log (F p s β i / β i) - F p s β i + β i) ≤ D s (F p s β) β := by
    refine single_le_sum (f := fun i => s i * (F p s β i * Real.log (F p s β i / β i) - F p s β i + β i)) (fun k _ => ?_) (mem_univ i)
    refine mul_nonneg (h.s_nonneg k) ?_
    rcases eq_or_lt_of_le (hβ.nonneg k) with h0 | h0
    · have : F p s β k = 0 := by unfold F; rw [← h0]; simp
      rw [this, ← h0]; simp
    · exact div_term_nonneg (hF.nonneg k) h0
  set r := str p β i / s i with hr
  have hr0 : 0 ≤ r := div_nonneg (str_nonneg h hβ i) hs.le
  have hFr : F p s β i = β i * r := by unfold F; rw [hr]; ring
  have h4 : s i * (β i * (r * Real.log r - r + 1)) ≤ η := by
    have : F p s β i / β i = r := by rw [hFr]; field_simp
    rw [this, hFr] at h3
    have e : s i * (β i * r * Real.log r - β i * r + β i) = s i * (β i * (r * Real.log r - r + 1)) := by ring
    linarith
  have h5 : (Real.sqrt r - 1) ^ 2 ≤ r * Real.log r - r + 1 := by
    rcases eq_or_lt_of_le hr0 with h0 | h0
    · rw [← h0]; simp
    have hsq := Real.sqrt_pos.2 h0
    have h6 := Real.one_sub_inv_le_log_of_pos hsq
    have h7 : Real.log r = 2 * Real.log (Real.sqrt r) := by rw [Real.log_sqrt hr0]; ring
    have h8 := Real.sq_sqrt hr0
    have h9 := mul_le_mul_of_nonneg_left h6 (show 0 ≤ 2 * (Real.sqrt r) ^ 2 by positivity)
    have e : 2 * (Real.sqrt r) ^ 2 * (1 - (Real.sqrt r)⁻¹) = 2 * Real.sqrt r ^ 2 - 2 * Real.sqrt r := by field_simp
    rw [h7]
    rw [h8] at h9 e
    nlinarith
  have h10 : 0 ≤ r * Real.log r - r + 1 := le_trans (sq_nonneg _) h5
  refine h5.trans ?_
  rw [le_div_iff₀ (mul_pos hs hc)]
  have : s i * (c * (r * Real.log r - r + 1)) ≤ s i * (β i * (r * Real.log r - r + 1)) :=
    mul_le_mul_of_nonneg_left (mul_le_mul_of_nonneg_right hlow h10) hs.le
  linarith

end

end Verif.EM
