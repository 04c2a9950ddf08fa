import Mathlib.Topology.Order.Compact
import Mathlib.Topology.Algebra.Order.Field
import Mathlib.Topology.Order.Lattice
import Mathlib.Topology.Instances.Real.Lemmas
import Mathlib.Analysis.SpecialFunctions.Log.Basic
import Mathlib.Algebra.BigOperators.Fin
import Mathlib.Tactic.FieldSimp
import Mathlib.Tactic.Linarith
import Mathlib.Tactic.Positivity

/-!
The fixed-point recipe of the binary models at the level of single nodes: `z (0, i)` and `z (1, i)` are the out- and in-fitness of node `i`; the recipe replaces
`z v` by `κ v` divided by the sum `den z v` over the other nodes.  The undirected recipe is the case of equal blocks.  Nothing here refers to the model of the code.
-/

namespace Verif.FixedPoint

open Finset

variable {n : ℕ}

/-- `∑_{j ≠ i} y_j / (1 + x_i y_j)` for both blocks -/
noncomputable def den (z : Fin 2 × Fin n → ℝ) (v : Fin 2 × Fin n) : ℝ := ∑ j ∈ univ.filter (· ≠ v.2), z (v.1 + 1, j) / (1 + z (v.1 + 1, j) * z v)

/-- the recipe -/
noncomputable def F (κ z : Fin 2 × Fin n → ℝ) (v : Fin 2 × Fin n) : ℝ := κ v / den z v

/-- `z` lies between `m` and `M` times the family of scaled solutions `(c x, y / c)` -/
def Between (m M : ℝ) (s z : Fin 2 × Fin n → ℝ) : Prop :=
  (∀ i, m * s (0, i) ≤ z (0, i) ∧ z (0, i) ≤ M * s (0, i)) ∧ ∀ i, s (1, i) ≤ M * z (1, i) ∧ m * z (1, i) ≤ s (1, i)

/-- the observed values are met, and vanish where the parameters do -/
structure Sol (κ s : Fin 2 × Fin n → ℝ) : Prop where
  nonneg : ∀ v, 0 ≤ s v
  zero : ∀ v, κ v = 0 → s v = 0
  eq : ∀ v, s v * den s v = κ v

theorem den_nonneg {z : Fin 2 × Fin n → ℝ} (hz : ∀ v, 0 ≤ z v) (v : Fin 2 × Fin n) : 0 ≤ den z v :=
  sum_nonneg fun j _ => div_nonneg (hz _) (by have := mul_nonneg (hz (v.1 + 1, j)) (hz v); linarith)

section term

theorem term_le {a b p q H : ℝ} (ha : 0 ≤ a) (hb : 0 ≤ b) (hp : 0 ≤ p) (hq : 0 ≤ q) (h1 : b ≤ H * a) (h2 : p ≤ H * q) :
    b / (1 + b * q) ≤ H * (a / (1 + a * p)) := by
  have e1 : 0 < 1 + b * q := by positivity
  have e2 : 0 < 1 + a * p := by positivity
  rw [← mul_div_assoc, div_le_div_iff₀ e1 e2]
  have := mul_le_mul_of_nonneg_left h2 (mul_nonneg ha hb)
  nlinarith

theorem term_eq {a b p q H : ℝ} (ha : 0 < a) (hb : 0 < b) (hp : 0 ≤ p) (hq : 0 ≤ q) (h1 : b ≤ H * a) (h2 : p ≤ H * q)
    (h : b / (1 + b * q) = H * (a / (1 + a * p))) : b = H * a ∧ p = H * q := by
  have e1 : 0 < 1 + b * q := by positivity
  have e2 : 0 < 1 + a * p := by positivity
  rw [← mul_div_assoc, div_eq_div_iff e1.ne' e2.ne'] at h
  have hab := mul_pos ha hb
  have k1 : a * b * (H * q - p) = b - H * a := by linear_combination -h
  have k2 : 0 ≤ a * b * (H * q - p) := mul_nonneg hab.le (by linarith)
  have hb' : b = H * a := by linarith
  refine ⟨hb', ?_⟩
  have : a * b * (H * q - p) = 0 := by rw [k1, hb']; ring
  rcases mul_eq_zero.1 this with h0 | h0
  · exact absurd h0 hab.ne'
  · linarith

end term

/-- the one-sided comparison behind everything: if the other block of `s` is at most `H` times that of `z` and the own entry of `z` at most `H` times that of `s`,
the sum for `s` is at most `H` times the sum for `z` -/
theorem den_le {s z : Fin 2 × Fin n → ℝ} (hs : ∀ v, 0 ≤ s v) (hz : ∀ v, 0 ≤ z v) {H : ℝ} (v : Fin 2 × Fin n)
    (h1 : ∀ j, s (v.1 + 1, j) ≤ H * z (v.1 + 1, j)) (h2 : z v ≤ H * s v) : den s v ≤ H * den z v := by
  unfold den
  rw [mul_sum]
  exact sum_le_sum fun j _ => term_le (hz _) (hs _) (hz _) (hs _) (h1 j) h2

theorem den_eq_cases {s z : Fin 2 × Fin n → ℝ} (hs : ∀ v, 0 ≤ s v) (hz : ∀ v, 0 ≤ z v) {H : ℝ} (v : Fin 2 × Fin n)
    (h1 : ∀ j, s (v.1 + 1, j) ≤ H * z (v.1 + 1, j)) (h2 : z v ≤ H * s v) (h : den s v = H * den z v) (j : Fin n) (hj : j ≠ v.2)
    (hsj : 0 < s (v.1 + 1, j)) (hzj : 0 < z (v.1 + 1, j)) : s (v.1 + 1, j) = H * z (v.1 + 1, j) ∧ z v = H * s v := by
  unfold den at h
  rw [mul_sum] at h
  have := (sum_eq_sum_iff_of_le fun j _ => term_le (hz (v.1 + 1, j)) (hs (v.1 + 1, j)) (hz v) (hs v) (h1 j) h2).1 h j (by simp [hj])
  exact term_eq hzj hsj (hz v) (hs v) (h1 j) h2 this

namespace Sol

variable {κ s : Fin 2 × Fin n → ℝ} (hS : Sol κ s)
include hS

theorem kappa_nonneg (v : Fin 2 × Fin n) : 0 ≤ κ v := by rw [← hS.eq]; exact mul_nonneg (hS.nonneg v) (den_nonneg hS.nonneg v)

theorem kappa_pos {v : Fin 2 × Fin n} (h : s v ≠ 0) : 0 < κ v :=
  lt_of_le_of_ne (hS.kappa_nonneg v) fun h0 => h (hS.zero v h0.symm)

theorem pos {v : Fin 2 × Fin n} (h : s v ≠ 0) : 0 < s v := lt_of_le_of_ne (hS.nonneg v) h.symm

theorem den_pos {v : Fin 2 × Fin n} (h : s v ≠ 0) : 0 < den s v := by
  have h1 := hS.kappa_pos h
  rw [← hS.eq] at h1
  exact pos_of_mul_pos_right h1 (hS.nonneg v)

theorem kappa_zero {v : Fin 2 × Fin n} (h : s v = 0) : κ v = 0 := by rw [← hS.eq, h, zero_mul]

theorem fixed (v : Fin 2 × Fin n) : F κ s v = s v := by
  by_cases h : s v = 0
  · rw [F, hS.kappa_zero h, h, zero_div]
  · rw [F, ← hS.eq, mul_div_assoc, div_self (hS.den_pos h).ne', mul_one]

end Sol

theorem flip_zero : (0 : Fin 2) + 1 = 1 := rfl
theorem flip_one : (1 : Fin 2) + 1 = 0 := rfl

namespace Between

variable {m M : ℝ} {s z : Fin 2 × Fin n → ℝ}

theorem nonneg (h : Between m M s z) (hs : ∀ v, 0 ≤ s v) (hm : 0 < m) (hM : 0 < M) (v : Fin 2 × Fin n) : 0 ≤ z v := by
  obtain ⟨b, i⟩ := v
  fin_cases b
  · exact (mul_nonneg hm.le (hs _)).trans (h.1 i).1
  · exact nonneg_of_mul_nonneg_right ((hs (1, i)).trans (h.2 i).1) hM

theorem zero_iff (h : Between m M s z) (hs : ∀ v, 0 ≤ s v) (hm : 0 < m) (hM : 0 < M) (v : Fin 2 × Fin n) : z v = 0 ↔ s v = 0 := by
  have hz := h.nonneg hs hm hM v
  obtain ⟨b, i⟩ := v
  fin_cases b
  · constructor
    · intro h0
      have := (h.1 i).1
      change z (0, i) = 0 at h0
      rw [h0] at this
      exact le_antisymm (nonpos_of_mul_nonpos_right this hm) (hs _)
    · intro h0
      have := (h.1 i).2
      change s (0, i) = 0 at h0
      rw [h0, mul_zero] at this
      exact le_antisymm this hz
  · constructor
    · intro h0
      have := (h.2 i).1
      change z (1, i) = 0 at h0
      rw [h0, mul_zero] at this
      exact le_antisymm this (hs _)
    · intro h0
      have := (h.2 i).2
      change s (1, i) = 0 at h0
      rw [h0] at this
      exact le_antisymm (nonpos_of_mul_nonpos_right this hm) hz

theorem mono {m' M' : ℝ} (h : Between m M s z) (hs : ∀ v, 0 ≤ s v) (hz : ∀ v, 0 ≤ z v) (hm : m' ≤ m) (hM : M ≤ M') : Between m' M' s z :=
  ⟨fun i => ⟨(mul_le_mul_of_nonneg_right hm (hs _)).trans (h.1 i).1, (h.1 i).2.trans (mul_le_mul_of_nonneg_right hM (hs _))⟩,
    fun i => ⟨(h.2 i).1.trans (mul_le_mul_of_nonneg_right hM (hz _)), (mul_le_mul_of_nonneg_right hm (hz _)).trans (h.2 i).2⟩⟩

/-- moving part of the way keeps the bounds -/
theorem damp {y : Fin 2 × Fin n → ℝ} (h : Between m M s z) (h' : Between m M s y) {a : ℝ} (h0 : 0 ≤ a) (h1 : a ≤ 1) : Between m M s (z + a • (y - z)) := by
  constructor <;> intro i <;> simp only [Pi.add_apply, Pi.smul_apply, Pi.sub_apply, smul_eq_mul]
  · obtain ⟨p1, p2⟩ := h.1 i
    obtain ⟨q1, q2⟩ := h'.1 i
    constructor <;> nlinarith
  · obtain ⟨p1, p2⟩ := h.2 i
    obtain ⟨q1, q2⟩ := h'.2 i
    constructor <;> nlinarith

end Between

/-- the two quotients compared -/
theorem F_le {κ s z : Fin 2 × Fin n → ℝ} {H : ℝ} {v : Fin 2 × Fin n} (hκ : 0 ≤ κ v) (hs : 0 < den s v) (hz : 0 < den z v)
    (h : den s v ≤ H * den z v) : F κ z v ≤ H * F κ s v := by
  unfold F
  rw [← mul_div_assoc, div_le_div_iff₀ hz hs]
  nlinarith

theorem F_ge {κ s z : Fin 2 × Fin n → ℝ} {L : ℝ} {v : Fin 2 × Fin n} (hκ : 0 ≤ κ v) (hs : 0 < den s v) (hz : 0 < den z v)
    (h : L * den z v ≤ den s v) : L * F κ s v ≤ F κ z v := by
  unfold F
  rw [← mul_div_assoc, div_le_div_iff₀ hs hz]
  nlinarith

variable {κ s : Fin 2 × Fin n → ℝ} {m M : ℝ}

/-- the comparisons of the sums in all four cases -/
theorem den_bounds (hS : Sol κ s) {z : Fin 2 × Fin n → ℝ} (hm : 0 < m) (hM : 0 < M) (h : Between m M s z) :
    (∀ i, den s (0, i) ≤ M * den z (0, i) ∧ m * den z (0, i) ≤ den s (0, i)) ∧ ∀ i, m * den s (1, i) ≤ den z (1, i) ∧ den z (1, i) ≤ M * den s (1, i) := by
  have hz := h.nonneg hS.nonneg hm hM
  have hs := hS.nonneg
  refine ⟨fun i => ⟨den_le hs hz (0, i) (fun j => (h.2 j).1) (h.1 i).2, ?_⟩, fun i => ⟨?_, den_le hz hs (1, i) (fun j => (h.1 j).2) (h.2 i).1⟩⟩
  · have := den_le hz hs (H := m⁻¹) (0, i) (fun j => by rw [inv_mul_eq_div, le_div_iff₀ hm, mul_comm]; exact (h.2 j).2)
      (by rw [inv_mul_eq_div, le_div_iff₀ hm, mul_comm]; exact (h.1 i).1)
    rw [inv_mul_eq_div, le_div_iff₀ hm, mul_comm] at this
    exact this
  · have := den_le hs hz (H := m⁻¹) (1, i) (fun j => by rw [inv_mul_eq_div, le_div_iff₀ hm, mul_comm]; exact (h.1 j).1)
      (by rw [inv_mul_eq_div, le_div_iff₀ hm, mul_comm]; exact (h.2 i).2)
    rw [inv_mul_eq_div, le_div_iff₀ hm, mul_comm] at this
    exact this

theorem den_pos_of (hS : Sol κ s) {z : Fin 2 × Fin n → ℝ} (hm : 0 < m) (hM : 0 < M) (h : Between m M s z) {v : Fin 2 × Fin n} (hv : s v ≠ 0) : 0 < den z v := by
  have h1 := hS.den_pos hv
  have hb := den_bounds hS hm hM h
  obtain ⟨b, i⟩ := v
  fin_cases b
  · exact pos_of_mul_pos_right (h1.trans_le (hb.1 i).1) hM.le
  · exact (mul_pos hm h1).trans_le (hb.2 i).1

/-- **the recipe does not leave the region between the scaled solutions** -/
theorem F_between (hS : Sol κ s) {z : Fin 2 × Fin n → ℝ} (hm : 0 < m) (hM : 0 < M) (h : Between m M s z) : Between m M s (F κ z) := by
  have hb := den_bounds hS hm hM h
  have h0 : ∀ v, s v = 0 → F κ z v = 0 := fun v hv => by rw [F, hS.kappa_zero hv, zero_div]
  constructor <;> intro i
  · by_cases hv : s (0, i) = 0
    · simp [h0 _ hv, hv]
    · have h1 := hS.den_pos hv
      have h2 := den_pos_of hS hm hM h hv
      have h3 := hS.fixed (0, i)
      have h4 := F_le (hS.kappa_nonneg _) h1 h2 (hb.1 i).1
      have h5 := F_ge (hS.kappa_nonneg _) h1 h2 (hb.1 i).2
      rw [h3] at h4 h5
      exact ⟨h5, h4⟩
  · by_cases hv : s (1, i) = 0
    · simp [h0 _ hv, hv]
    · have h1 := hS.den_pos hv
      have h2 := den_pos_of hS hm hM h hv
      have h3 := hS.fixed (1, i)
      have h4 := F_le (κ := κ) (hS.kappa_nonneg _) h2 h1 (hb.2 i).2
      have h5 := F_ge (κ := κ) (hS.kappa_nonneg _) h2 h1 (hb.2 i).1
      rw [h3] at h4 h5
      exact ⟨h4, h5⟩

/-- the entry attains the upper factor -/
def Top (M : ℝ) (s z : Fin 2 × Fin n → ℝ) (v : Fin 2 × Fin n) : Prop := if v.1 = 0 then z v = M * s v else s v = M * z v

/-- an entry that attains the upper factor after a step attained it before, and so did all its partners -/
theorem top_step (hS : Sol κ s) {z : Fin 2 × Fin n → ℝ} (hm : 0 < m) (hM : 0 < M) (h : Between m M s z) {v : Fin 2 × Fin n} (hv : s v ≠ 0)
    (ht : Top M s (F κ z) v) : Top M s z v ∧ ∀ j, j ≠ v.2 → s (v.1 + 1, j) ≠ 0 → Top M s z (v.1 + 1, j) := by
  have hz := h.nonneg hS.nonneg hm hM
  have hs := hS.nonneg
  have hk := hS.kappa_pos hv
  have hd := hS.den_pos hv
  have hd' := den_pos_of hS hm hM h hv
  have hpos : ∀ u, s u ≠ 0 → 0 < z u := fun u hu => lt_of_le_of_ne (hz u) fun h0 => hu ((h.zero_iff hs hm hM u).1 h0.symm)
  -- some partner is active
  have hex : ∃ j, j ≠ v.2 ∧ s (v.1 + 1, j) ≠ 0 := by
    by_contra hno
    push Not at hno
    refine hd.ne' (sum_eq_zero fun j hj => ?_)
    rw [hno j (by simpa using hj), zero_div]
  obtain ⟨b, i⟩ := v
  fin_cases b
  · replace hd' : 0 < den z (0, i) := hd'
    have e : F κ z (0, i) = M * s (0, i) := ht
    have hden : den s (0, i) = M * den z (0, i) := by
      have h1 := hS.eq (0, i)
      rw [F, div_eq_iff hd'.ne', ← h1] at e
      have : s (0, i) ≠ 0 := hv
      have := mul_left_cancel₀ this (show s (0, i) * den s (0, i) = s (0, i) * (M * den z (0, i)) by linear_combination e)
      exact this
    have key : ∀ j, j ≠ i → s (1, j) ≠ 0 → s (1, j) = M * z (1, j) ∧ z (0, i) = M * s (0, i) := fun j hj hsj =>
      den_eq_cases hs hz (0, i) (fun j => (h.2 j).1) (h.1 i).2 hden j hj (hS.pos hsj) (hpos _ hsj)
    obtain ⟨j, hj, hsj⟩ := hex
    exact ⟨(key j hj hsj).2, fun j hj hsj => (key j hj hsj).1⟩
  · replace hd' : 0 < den z (1, i) := hd'
    have e : s (1, i) = M * F κ z (1, i) := ht
    have hden : den z (1, i) = M * den s (1, i) := by
      have h1 := hS.eq (1, i)
      rw [F, ← mul_div_assoc, eq_div_iff hd'.ne', ← h1] at e
      have : s (1, i) ≠ 0 := hv
      exact mul_left_cancel₀ this (show s (1, i) * den z (1, i) = s (1, i) * (M * den s (1, i)) by linear_combination e)
    have key : ∀ j, j ≠ i → s (0, j) ≠ 0 → z (0, j) = M * s (0, j) ∧ s (1, i) = M * z (1, i) := fun j hj hsj =>
      den_eq_cases hz hs (1, i) (fun j => (h.1 j).2) (h.2 i).1 hden j hj (hpos _ hsj) (hS.pos hsj)
    obtain ⟨j, hj, hsj⟩ := hex
    exact ⟨(key j hj hsj).2, fun j hj hsj => (key j hj hsj).1⟩

/-! ### the spread of the ratios shrinks -/

/-- the entries that are not zero -/
noncomputable def act (s : Fin 2 × Fin n → ℝ) : Finset (Fin 2 × Fin n) := open Classical in univ.filter fun v => s v ≠ 0

theorem mem_act {v : Fin 2 × Fin n} : v ∈ act s ↔ s v ≠ 0 := by classical simp [act]

/-- the ratio of an entry to the solution, inverted in the second block -/
noncomputable def w (s z : Fin 2 × Fin n → ℝ) (v : Fin 2 × Fin n) : ℝ := if v.1 = 0 then z v / s v else s v / z v

noncomputable def hi (hA : (act s).Nonempty) (z : Fin 2 × Fin n → ℝ) : ℝ := (act s).sup' hA (w s z)
noncomputable def lo (hA : (act s).Nonempty) (z : Fin 2 × Fin n → ℝ) : ℝ := (act s).inf' hA (w s z)

theorem w_mem (hs : ∀ v, 0 ≤ s v) {z : Fin 2 × Fin n → ℝ} (hm : 0 < m) (hM : 0 < M) (h : Between m M s z) {v : Fin 2 × Fin n} (hv : s v ≠ 0) :
    m ≤ w s z v ∧ w s z v ≤ M := by
  have hsv : 0 < s v := lt_of_le_of_ne (hs v) hv.symm
  have hzv : 0 < z v := lt_of_le_of_ne (h.nonneg hs hm hM v) fun h0 => hv ((h.zero_iff hs hm hM v).1 h0.symm)
  obtain ⟨b, i⟩ := v
  fin_cases b
  · show m ≤ z (0, i) / s (0, i) ∧ z (0, i) / s (0, i) ≤ M
    replace hsv : 0 < s (0, i) := hsv
    rw [le_div_iff₀ hsv, div_le_iff₀ hsv]
    exact h.1 i
  · show m ≤ s (1, i) / z (1, i) ∧ s (1, i) / z (1, i) ≤ M
    replace hzv : 0 < z (1, i) := hzv
    rw [le_div_iff₀ hzv, div_le_iff₀ hzv]
    exact (h.2 i).symm

/-- conversely -/
theorem between_of_w (hs : ∀ v, 0 ≤ s v) {z : Fin 2 × Fin n → ℝ} (hz : ∀ v, 0 ≤ z v) (h0 : ∀ v, z v = 0 ↔ s v = 0)
    (h : ∀ v, s v ≠ 0 → m ≤ w s z v ∧ w s z v ≤ M) : Between m M s z := by
  constructor <;> intro i
  · by_cases hv : s (0, i) = 0
    · simp [hv, (h0 _).2 hv]
    · have hsv : 0 < s (0, i) := lt_of_le_of_ne (hs _) (Ne.symm hv)
      have := h _ hv
      change m ≤ z (0, i) / s (0, i) ∧ z (0, i) / s (0, i) ≤ M at this
      rwa [le_div_iff₀ hsv, div_le_iff₀ hsv] at this
  · by_cases hv : s (1, i) = 0
    · simp [hv, (h0 _).2 hv]
    · have hzv : 0 < z (1, i) := lt_of_le_of_ne (hz _) fun h => hv ((h0 _).1 h.symm)
      have := h _ hv
      change m ≤ s (1, i) / z (1, i) ∧ s (1, i) / z (1, i) ≤ M at this
      rw [le_div_iff₀ hzv, div_le_iff₀ hzv] at this
      exact this.symm

theorem top_iff (hs : ∀ v, 0 ≤ s v) {z : Fin 2 × Fin n → ℝ} (hm : 0 < m) (hM : 0 < M) (h : Between m M s z) {v : Fin 2 × Fin n} (hv : s v ≠ 0) (c : ℝ) :
    Top c s z v ↔ w s z v = c := by
  have hzv : z v ≠ 0 := fun h0 => hv ((h.zero_iff hs hm hM v).1 h0)
  unfold Top w
  split
  · rw [div_eq_iff hv]
  · rw [div_eq_iff hzv]

section spread

variable (hS : Sol κ s) (hA : (act s).Nonempty) {z : Fin 2 × Fin n → ℝ} (hm : 0 < m) (hM : 0 < M) (h : Between m M s z)
include hS hm hM h

theorem spread_spec : m ≤ lo hA z ∧ hi hA z ≤ M ∧ lo hA z ≤ hi hA z ∧ Between (lo hA z) (hi hA z) s z := by
  refine ⟨le_inf' _ _ fun v hv => (w_mem hS.nonneg hm hM h (mem_act.1 hv)).1, sup'_le _ _ fun v hv => (w_mem hS.nonneg hm hM h (mem_act.1 hv)).2, ?_, ?_⟩
  · obtain ⟨v, hv⟩ := hA
    exact (inf'_le _ hv).trans (le_sup' _ hv)
  · exact between_of_w hS.nonneg (h.nonneg hS.nonneg hm hM) (h.zero_iff hS.nonneg hm hM) fun v hv => ⟨inf'_le _ (mem_act.2 hv), le_sup' _ (mem_act.2 hv)⟩

theorem spread_step : lo hA z ≤ lo hA (F κ z) ∧ hi hA (F κ z) ≤ hi hA z := by
  obtain ⟨h1, h2, h3, h4⟩ := spread_spec hS hA hm hM h
  have hlo : 0 < lo hA z := hm.trans_le h1
  have h5 := F_between hS hlo (hlo.trans_le h3) h4
  obtain ⟨k1, k2, -, -⟩ := spread_spec hS hA hlo (hlo.trans_le h3) h5
  exact ⟨k1, k2⟩

theorem iterate_between (t : ℕ) : Between m M s ((F κ)^[t] z) := by
  induction t with
  | zero => exact h
  | succ t ih => rw [Function.iterate_succ_apply']; exact F_between hS hm hM ih

theorem spread_iterate (t : ℕ) : lo hA z ≤ lo hA ((F κ)^[t] z) ∧ hi hA ((F κ)^[t] z) ≤ hi hA z := by
  induction t with
  | zero => exact ⟨le_rfl, le_rfl⟩
  | succ t ih =>
    rw [Function.iterate_succ_apply']
    have := spread_step hS hA hm hM (iterate_between hS hm hM h t)
    exact ⟨ih.1.trans this.1, this.2.trans ih.2⟩

/-- a set of non-zero entries closed under partnership contains all of them -/
def Linked (s : Fin 2 × Fin n → ℝ) : Prop :=
  ∀ B ⊆ act s, B.Nonempty → (∀ v ∈ B, ∀ j, j ≠ v.2 → s (v.1 + 1, j) ≠ 0 → (v.1 + 1, j) ∈ B) → B = act s

/-- if the largest ratio survives as many steps as there are entries, then all ratios have become equal to it -/
theorem spread_strict (hL : Linked s) (hh : hi hA ((F κ)^[(act s).card] z) = hi hA z) : lo hA ((F κ)^[(act s).card] z) = hi hA z := by
  classical
  have hs := hS.nonneg
  obtain ⟨h1, h2, h3, h4⟩ := spread_spec hS hA hm hM h
  have hlo : 0 < lo hA z := hm.trans_le h1
  have hhi : 0 < hi hA z := hlo.trans_le h3
  have hbt := iterate_between hS hlo hhi h4
  set S : ℕ → Finset (Fin 2 × Fin n) := fun t => (act s).filter fun v => Top (hi hA z) s ((F κ)^[t] z) v with hSdef
  have hsub : ∀ t, S (t + 1) ⊆ S t := fun t v hv => by
    simp only [hSdef, mem_filter] at hv ⊢
    rw [Function.iterate_succ_apply'] at hv
    exact ⟨hv.1, (top_step hS hlo hhi (hbt t) (mem_act.1 hv.1) hv.2).1⟩
  have hne : ∀ t, t ≤ (act s).card → (S t).Nonempty := by
    have hlast : (S (act s).card).Nonempty := by
      obtain ⟨v, hv, hw⟩ := exists_mem_eq_sup' hA (w s ((F κ)^[(act s).card] z))
      refine ⟨v, mem_filter.2 ⟨hv, (top_iff hs hlo hhi (hbt _) (mem_act.1 hv) _).2 ?_⟩⟩
      rw [← hh]; exact hw.symm
    intro t ht
    obtain ⟨k, hk⟩ := Nat.exists_eq_add_of_le ht
    have : ∀ k, S (t + k) ⊆ S t := fun k => by
      induction k with
      | zero => exact subset_rfl
      | succ k ih => exact (hsub (t + k)).trans ih
    exact (hk ▸ hlast).mono (this k)
  have hstop : ∃ t < (act s).card, S t = S (t + 1) := by
    by_contra hno
    push Not at hno
    have : ∀ t ≤ (act s).card, (S t).card + t ≤ (act s).card := fun t => by
      induction t with
      | zero => intro _; simpa using card_filter_le _ _
      | succ t ih =>
        intro ht
        have h5 := ih (by omega)
        have h6 := card_lt_card (_root_.ssubset_iff_subset_ne.2 ⟨hsub t, (hno t (by omega)).symm⟩)
        omega
    have h5 := this _ le_rfl
    have h6 := card_pos.2 (hne _ le_rfl)
    omega
  obtain ⟨t, ht, hSt⟩ := hstop
  have hall : S t = act s := hL (S t) (filter_subset _ _) (hne t ht.le) fun v hv j hj hsj => by
    rw [hSt] at hv
    simp only [hSdef, mem_filter] at hv ⊢
    rw [Function.iterate_succ_apply'] at hv
    exact ⟨mem_act.2 hsj, (top_step hS hlo hhi (hbt t) (mem_act.1 hv.1) hv.2).2 j hj hsj⟩
  have hlot : hi hA z ≤ lo hA ((F κ)^[t] z) := le_inf' _ _ fun v hv => by
    have : v ∈ S t := hall ▸ hv
    exact ((top_iff hs hlo hhi (hbt t) (mem_act.1 hv) _).1 (mem_filter.1 this).2).ge
  obtain ⟨k, hk⟩ := Nat.exists_eq_add_of_le ht.le
  have h5 := (spread_iterate hS hA hlo hhi (hbt t) k).1
  rw [← Function.iterate_add_apply, add_comm k t, ← hk] at h5
  have h6 := (spread_spec hS hA hlo hhi (hbt (act s).card)).2.2.1
  exact le_antisymm (h6.trans hh.le) (hlot.trans h5)

end spread

/-! ### compactness -/

/-- a continuous self-map of a compact set that brings a function below any bound, if it does not increase it and decreases it strictly every `N` steps while it is positive -/
theorem eventually_small {X : Type*} [TopologicalSpace X] [T2Space X] {K : Set X} (hK : IsCompact K) {f : X → X} (hfK : ∀ z ∈ K, f z ∈ K) (hf : ContinuousOn f K) {G : X → ℝ}
    (hG : ContinuousOn G K) (h0 : ∀ z ∈ K, 0 ≤ G z) (hmono : ∀ z ∈ K, G (f z) ≤ G z) (N : ℕ) (hstrict : ∀ z ∈ K, 0 < G z → G (f^[N] z) < G z) {δ : ℝ} (hδ : 0 < δ) :
    ∃ T, ∀ z ∈ K, ∀ t ≥ T, G (f^[t] z) ≤ δ := by
  have hit : ∀ t, ∀ z ∈ K, f^[t] z ∈ K := fun t => by
    induction t with
    | zero => exact fun z hz => hz
    | succ t ih => intro z hz; rw [Function.iterate_succ_apply']; exact hfK _ (ih z hz)
  have hcont : ∀ t, ContinuousOn (f^[t]) K := fun t => by
    induction t with
    | zero => exact continuousOn_id
    | succ t ih => rw [Function.iterate_succ']; exact hf.comp ih (fun z hz => hit t z hz)
  have hmono' : ∀ t k, ∀ z ∈ K, G (f^[t + k] z) ≤ G (f^[t] z) := fun t k => by
    induction k with
    | zero => exact fun z hz => le_rfl
    | succ k ih =>
      intro z hz
      rw [← add_assoc, Function.iterate_succ_apply']
      exact (hmono _ (hit _ z hz)).trans (ih z hz)
  set C : Set X := K ∩ G ⁻¹' Set.Ici δ with hC
  have hCc : IsCompact C := hK.of_isClosed_subset (hG.preimage_isClosed_of_isClosed hK.isClosed isClosed_Ici) Set.inter_subset_left
  rcases C.eq_empty_or_nonempty with hemp | hne
  · refine ⟨0, fun z hz t _ => ?_⟩
    by_contra hlt
    have : f^[t] z ∈ C := ⟨hit t z hz, le_of_lt (not_le.1 hlt)⟩
    rw [hemp] at this
    exact this
  · obtain ⟨c, hc, hmin⟩ := hCc.exists_isMinOn hne (f := fun z => G z - G (f^[N] z))
      ((hG.sub (hG.comp (hcont N) fun z hz => hit N z hz)).mono Set.inter_subset_left)
    obtain ⟨b, hb, hmax⟩ := hK.exists_isMaxOn ⟨c, hc.1⟩ hG
    set μ := G c - G (f^[N] c) with hμ
    have hμ0 : 0 < μ := sub_pos.2 (hstrict c hc.1 (hδ.trans_le hc.2))
    obtain ⟨k, hk⟩ := exists_nat_gt (G b / μ)
    refine ⟨N * k, fun z hz t ht => ?_⟩
    obtain ⟨r, rfl⟩ := Nat.exists_eq_add_of_le ht
    refine (hmono' _ r z hz).trans ?_
    by_contra hlt
    rw [not_le] at hlt
    have key : ∀ j ≤ k, G (f^[N * j] z) ≤ G b - j * μ := fun j => by
      induction j with
      | zero => intro _; simpa using hmax hz
      | succ j ih =>
        intro hj
        have h1 := ih (by omega)
        have hin : f^[N * j] z ∈ C := by
          refine ⟨hit _ z hz, ?_⟩
          obtain ⟨r, hr⟩ := Nat.exists_eq_add_of_le (Nat.mul_le_mul_left N (show j ≤ k by omega))
          have := hmono' (N * j) r z hz
          rw [← hr] at this
          exact (hlt.trans_le this).le
        have h2 : μ ≤ G (f^[N * j] z) - G (f^[N] (f^[N * j] z)) := hmin hin
        rw [← Function.iterate_add_apply, show N + N * j = N * (j + 1) by ring] at h2
        push_cast
        linarith
    have h3 := key k le_rfl
    rw [div_lt_iff₀ hμ0] at hk
    linarith

/-- on a compact set a continuous function with zeros only where `G` is zero is bounded below where `G` is not small -/
theorem bounded_below {X : Type*} [TopologicalSpace X] [T2Space X] {K : Set X} (hK : IsCompact K) {G D : X → ℝ} (hG : ContinuousOn G K) (hD : ContinuousOn D K)
    (h : ∀ z ∈ K, 0 < G z → 0 < D z) {δ : ℝ} (hδ : 0 < δ) : ∃ ν > 0, ∀ z ∈ K, D z < ν → G z ≤ δ := by
  set C : Set X := K ∩ G ⁻¹' Set.Ici δ with hC
  have hCc : IsCompact C := hK.of_isClosed_subset (hG.preimage_isClosed_of_isClosed hK.isClosed isClosed_Ici) Set.inter_subset_left
  rcases C.eq_empty_or_nonempty with hemp | hne
  · refine ⟨1, one_pos, fun z hz _ => ?_⟩
    by_contra hlt
    have : z ∈ C := ⟨hz, le_of_lt (not_le.1 hlt)⟩
    rw [hemp] at this
    exact this
  · obtain ⟨c, hc, hmin⟩ := hCc.exists_isMinOn hne (hD.mono Set.inter_subset_left)
    refine ⟨D c, h c hc.1 (hδ.trans_le hc.2), fun z hz hlt => ?_⟩
    by_contra hgt
    exact absurd (hmin (show z ∈ C from ⟨hz, le_of_lt (not_le.1 hgt)⟩)) (not_le.2 hlt)

section compact

variable (hS : Sol κ s) (hA : (act s).Nonempty) (hm : 0 < m) (hM : 0 < M)

theorem between_compact (s : Fin 2 × Fin n → ℝ) (hm : 0 < m) (hM : 0 < M) : IsCompact {z | Between m M s z} := by
  have : {z | Between m M s z} = Set.Icc (fun v => if v.1 = 0 then m * s v else s v / M) (fun v => if v.1 = 0 then M * s v else s v / m) := by
    ext z
    simp only [Set.mem_setOf_eq, Set.mem_Icc, Pi.le_def, Between]
    constructor
    · rintro ⟨h1, h2⟩
      refine ⟨fun v => ?_, fun v => ?_⟩ <;> obtain ⟨b, i⟩ := v <;> fin_cases b
      · exact (h1 i).1
      · show s (1, i) / M ≤ z (1, i)
        rw [div_le_iff₀ hM, mul_comm]; exact (h2 i).1
      · exact (h1 i).2
      · show z (1, i) ≤ s (1, i) / m
        rw [le_div_iff₀ hm, mul_comm]; exact (h2 i).2
    · rintro ⟨h1, h2⟩
      refine ⟨fun i => ⟨h1 (0, i), h2 (0, i)⟩, fun i => ⟨?_, ?_⟩⟩
      · have : s (1, i) / M ≤ z (1, i) := h1 (1, i)
        rwa [div_le_iff₀ hM, mul_comm] at this
      · have : z (1, i) ≤ s (1, i) / m := h2 (1, i)
        rwa [le_div_iff₀ hm, mul_comm] at this
  rw [this]
  exact isCompact_Icc

include hS hm hM

theorem F_continuous : ContinuousOn (F κ) {z | Between m M s z} := by
  rw [continuousOn_pi]
  intro v
  by_cases hv : s v = 0
  · refine (continuousOn_const (c := (0 : ℝ))).congr fun z _ => ?_
    rw [F, hS.kappa_zero hv, zero_div]
  · refine continuousOn_const.div ?_ fun z hz => (den_pos_of hS hm hM hz hv).ne'
    refine continuousOn_finset_sum _ fun j _ => ?_
    refine ContinuousOn.div (by fun_prop) (by fun_prop) fun z hz => ?_
    have h1 := hz.nonneg hS.nonneg hm hM (v.1 + 1, j)
    have h2 := hz.nonneg hS.nonneg hm hM v
    positivity

theorem w_continuous {v : Fin 2 × Fin n} (hv : s v ≠ 0) : ContinuousOn (fun z => w s z v) {z | Between m M s z} := by
  unfold w
  split
  · fun_prop
  · exact continuousOn_const.div (by fun_prop) fun z hz h0 => hv ((hz.zero_iff hS.nonneg hm hM v).1 h0)

theorem spread_continuous : ContinuousOn (fun z => hi hA z - lo hA z) {z | Between m M s z} := by
  unfold hi lo
  exact (ContinuousOn.finset_sup'_apply hA fun v hv => w_continuous hS hm hM (mem_act.1 hv)).sub
    (ContinuousOn.finset_inf'_apply hA fun v hv => w_continuous hS hm hM (mem_act.1 hv))

/-- **convergence of the recipe**: from every point between the bounds the ratios to the solution become equal up to `δ` after a number of steps that only depends
on the bounds, and a point that the recipe hardly moves has ratios equal up to `δ` -/
theorem converges (hL : Linked s) {δ : ℝ} (hδ : 0 < δ) :
    (∃ T, ∀ z, Between m M s z → ∀ t ≥ T, hi hA ((F κ)^[t] z) - lo hA ((F κ)^[t] z) ≤ δ) ∧
    ∃ ν > 0, ∀ z, Between m M s z → (∑ v, (F κ z v - z v) ^ 2) < ν → hi hA z - lo hA z ≤ δ := by
  have hK := between_compact s hm hM
  have hG := spread_continuous hS hA hm hM
  have hstrict : ∀ z, Between m M s z → 0 < hi hA z - lo hA z →
      hi hA ((F κ)^[(act s).card] z) - lo hA ((F κ)^[(act s).card] z) < hi hA z - lo hA z := fun z hz hpos => by
    obtain ⟨h1, h2⟩ := spread_iterate hS hA hm hM hz (act s).card
    by_contra hlt
    have h3 : hi hA ((F κ)^[(act s).card] z) = hi hA z := by linarith
    have h4 := spread_strict hS hA hm hM hz hL h3
    linarith
  constructor
  · exact eventually_small hK (fun z hz => F_between hS hm hM hz) (F_continuous hS hm hM) hG
      (fun z hz => sub_nonneg.2 (spread_spec hS hA hm hM hz).2.2.1) (fun z hz => by
        have := spread_step hS hA hm hM hz
        linarith) (act s).card hstrict hδ
  · refine bounded_below (K := {z | Between m M s z}) (D := fun z => ∑ v, (F κ z v - z v) ^ 2) hK hG ?_ ?_ hδ
    · have hF := continuousOn_pi.1 (F_continuous hS hm hM)
      exact continuousOn_finset_sum _ fun v _ => ((hF v).sub (by fun_prop)).pow 2
    · intro z hz hpos
      refine lt_of_le_of_ne (sum_nonneg fun v _ => sq_nonneg _) fun h0 => ?_
      have hfix : F κ z = z := funext fun v => by
        have := (sum_eq_zero_iff_of_nonneg fun v _ => sq_nonneg (F κ z v - z v)).1 h0.symm v (mem_univ _)
        have := pow_eq_zero_iff (two_ne_zero) |>.1 this
        linarith
      have := hstrict z hz hpos
      rw [Function.iterate_fixed hfix] at this
      exact lt_irrefl _ this

/-- the value the model gives is the observed value times the quotient of two ratios between the bounds -/
theorem value_bound {z : Fin 2 × Fin n → ℝ} (h : Between m M s z) (v : Fin 2 × Fin n) : |z v * den z v - κ v| ≤ (M - m) / m * κ v := by
  by_cases hv : s v = 0
  · rw [(h.zero_iff hS.nonneg hm hM v).2 hv, hS.kappa_zero hv]; simp
  · have hb := den_bounds hS hm hM h
    have hk := hS.kappa_pos hv
    have hd := den_pos_of hS hm hM h hv
    have hd' := hS.den_pos hv
    have hz := h.nonneg hS.nonneg hm hM v
    have hs := hS.pos hv
    have he := hS.eq v
    have hmM : 0 ≤ M - m := by
      have h1 := w_mem hS.nonneg hm hM h hv
      linarith
    have hlow : m / M * κ v ≤ z v * den z v := by
      rw [div_mul_eq_mul_div, div_le_iff₀ hM, ← he]
      obtain ⟨b, i⟩ := v
      fin_cases b
      · calc m * (s (0, i) * den s (0, i)) ≤ m * (s (0, i) * (M * den z (0, i))) :=
              mul_le_mul_of_nonneg_left (mul_le_mul_of_nonneg_left (hb.1 i).1 hs.le) hm.le
          _ = (m * s (0, i)) * den z (0, i) * M := by ring
          _ ≤ z (0, i) * den z (0, i) * M := mul_le_mul_of_nonneg_right (mul_le_mul_of_nonneg_right (h.1 i).1 hd.le) hM.le
      · calc m * (s (1, i) * den s (1, i)) = s (1, i) * (m * den s (1, i)) := by ring
          _ ≤ s (1, i) * den z (1, i) := mul_le_mul_of_nonneg_left (hb.2 i).1 hs.le
          _ ≤ (M * z (1, i)) * den z (1, i) := mul_le_mul_of_nonneg_right (h.2 i).1 hd.le
          _ = z (1, i) * den z (1, i) * M := by ring
    have hhigh : z v * den z v ≤ M / m * κ v := by
      rw [div_mul_eq_mul_div, le_div_iff₀ hm, ← he]
      obtain ⟨b, i⟩ := v
      fin_cases b
      · calc z (0, i) * den z (0, i) * m = z (0, i) * (m * den z (0, i)) := by ring
          _ ≤ z (0, i) * den s (0, i) := mul_le_mul_of_nonneg_left (hb.1 i).2 hz
          _ ≤ (M * s (0, i)) * den s (0, i) := mul_le_mul_of_nonneg_right (h.1 i).2 hd'.le
          _ = M * (s (0, i) * den s (0, i)) := by ring
      · calc z (1, i) * den z (1, i) * m ≤ z (1, i) * (M * den s (1, i)) * m :=
              mul_le_mul_of_nonneg_right (mul_le_mul_of_nonneg_left (hb.2 i).2 hz) hm.le
          _ = M * ((m * z (1, i)) * den s (1, i)) := by ring
          _ ≤ M * (s (1, i) * den s (1, i)) := mul_le_mul_of_nonneg_left (mul_le_mul_of_nonneg_right (h.2 i).2 hd'.le) hM.le
    rw [abs_le]
    constructor
    · have : -((M - m) / m * κ v) ≤ -((M - m) / M * κ v) := by
        refine neg_le_neg (mul_le_mul_of_nonneg_right (div_le_div_of_nonneg_left hmM hm (by linarith)) hk.le)
      have h2 : (M - m) / M = 1 - m / M := by field_simp
      rw [h2] at this
      nlinarith
    · have h2 : (M - m) / m = M / m - 1 := by field_simp
      rw [h2]
      nlinarith

end compact

end Verif.FixedPoint
