import Verif.Props.Order

/-!
C61: two answers with small reported errors describe nearly the same ensemble; two exact answers describe the same one.
-/

set_option linter.unusedSectionVars false

namespace Verif.Solve

open Verif Finset Reduction Solver Spec

noncomputable section

open Classical in
attribute [local instance 0] propDecidable

variable {n : ℕ}

/-! ### one pair of nodes -/

/-- the logistic function is a quarter-Lipschitz function of the log-odds -/
theorem quarter_mono : MonotoneOn (fun a : ℝ => Real.log a / 4 - a / (1 + a)) (Set.Ioi 0) := by
  have hd : ∀ a ∈ Set.Ioi (0 : ℝ), HasDerivAt (fun a : ℝ => Real.log a / 4 - a / (1 + a)) (a⁻¹ / 4 - (1 * (1 + a) - a * 1) / (1 + a) ^ 2) a := fun a ha => by
    have ha' : (0 : ℝ) < a := ha
    have h1 := (Real.hasDerivAt_log ha'.ne').div_const 4
    have h2 := (hasDerivAt_id a).div ((hasDerivAt_id a).const_add 1) (by simp; linarith)
    exact h1.sub h2
  refine monotoneOn_of_deriv_nonneg (convex_Ioi 0) (fun a ha => (hd a ha).continuousAt.continuousWithinAt)
    (fun a ha => (hd a (interior_subset ha)).differentiableAt.differentiableWithinAt) fun a ha => ?_
  have ha' : (0 : ℝ) < a := interior_subset ha
  rw [(hd a (interior_subset ha)).deriv, sub_nonneg, inv_eq_one_div, div_div, div_le_div_iff₀ (by positivity) (by positivity)]
  nlinarith [sq_nonneg (a - 1)]

theorem frac_gap {a b : ℝ} (ha : 0 < a) (hb : 0 < b) :
    (a / (1 + a) - b / (1 + b)) ^ 2 ≤ (a / (1 + a) - b / (1 + b)) * (Real.log a - Real.log b) / 4 := by
  rcases le_total b a with h | h
  · have h1 := frac_mono hb.le h
    have h2 := quarter_mono (Set.mem_Ioi.2 hb) (Set.mem_Ioi.2 ha) h
    simp only at h2
    nlinarith
  · have h1 := frac_mono ha.le h
    have h2 := quarter_mono (Set.mem_Ioi.2 ha) (Set.mem_Ioi.2 hb) h
    simp only at h2
    nlinarith

/-! ### all pairs -/

theorem pair_sum (q : Fin n → Fin n → ℝ) (u v : Fin n → ℝ) :
    ∑ i, ∑ j ∈ univ.filter (· ≠ i), q i j * (u i + v j) = ∑ i, u i * ∑ j ∈ univ.filter (· ≠ i), q i j + ∑ j, v j * ∑ i ∈ univ.filter (· ≠ j), q i j := by
  have e : ∑ j, v j * ∑ i ∈ univ.filter (· ≠ j), q i j = ∑ i, ∑ j ∈ univ.filter (· ≠ i), q i j * v j := by
    simp only [mul_sum, sum_filter]
    rw [sum_comm]
    exact sum_congr rfl fun i _ => sum_congr rfl fun j _ => by
      by_cases h : i = j
      · simp [h]
      · simp [h, Ne.symm h, mul_comm]
  rw [e, ← sum_add_distrib]
  refine sum_congr rfl fun i _ => ?_
  rw [mul_sum, ← sum_add_distrib]
  exact sum_congr rfl fun j _ => by ring

theorem dot_le {u f : Fin n → ℝ} {E : ℝ} (h : ∀ i, |f i| ≤ E) : ∑ i, u i * f i ≤ E * ∑ i, |u i| := by
  rw [mul_sum]
  refine sum_le_sum fun i _ => ?_
  calc u i * f i ≤ |u i * f i| := le_abs_self _
    _ = |u i| * |f i| := abs_mul _ _
    _ ≤ |u i| * E := mul_le_mul_of_nonneg_left (h i) (abs_nonneg _)
    _ = E * |u i| := mul_comm _ _

theorem two_near {a b k E E' : ℝ} (h : |a - k| ≤ E) (h' : |b - k| ≤ E') : |a - b| ≤ E + E' := by
  have := abs_le.1 h; have := abs_le.1 h'; exact abs_le.2 ⟨by linarith, by linarith⟩

/-- the sum over all ordered pairs vanishes only if all terms do -/
theorem sq_zero {q : Fin n → Fin n → ℝ} {B : ℝ} (h : ∑ i, ∑ j ∈ univ.filter (· ≠ i), q i j ≤ B) (hB : B = 0) (h0 : ∀ i j, i ≠ j → 0 ≤ q i j) {i j : Fin n} (hij : i ≠ j) :
    q i j = 0 := by
  have h1 : ∀ i, 0 ≤ ∑ j ∈ univ.filter (· ≠ i), q i j := fun i => sum_nonneg fun j hj => h0 i j (by simpa [eq_comm] using hj)
  have h2 : ∑ i, ∑ j ∈ univ.filter (· ≠ i), q i j = 0 := le_antisymm (hB ▸ h) (sum_nonneg fun i _ => h1 i)
  have h3 := (sum_eq_zero_iff_of_nonneg fun i _ => h1 i).1 h2 i (mem_univ _)
  exact (sum_eq_zero_iff_of_nonneg fun j hj => h0 i j (by simpa [eq_comm] using hj)).1 h3 j (by simpa [eq_comm] using hij)

theorem link_gap {x y x' y' : Fin n → ℝ} (hx : ∀ i, 0 ≤ x i ∧ 0 ≤ x' i ∧ (x i = 0 ↔ x' i = 0)) (hy : ∀ i, 0 ≤ y i ∧ 0 ≤ y' i ∧ (y i = 0 ↔ y' i = 0)) (i j : Fin n) :
    (linkDBCM x y i j - linkDBCM x' y' i j) ^ 2 ≤
      (linkDBCM x y i j - linkDBCM x' y' i j) * ((Real.log (x i) - Real.log (x' i)) + (Real.log (y j) - Real.log (y' j))) / 4 := by
  unfold linkDBCM
  by_cases h1 : x i = 0
  · simp [h1, (hx i).2.2.1 h1]
  by_cases h2 : y j = 0
  · simp [h2, (hy j).2.2.1 h2]
  have h1' : x' i ≠ 0 := fun h => h1 ((hx i).2.2.2 h)
  have h2' : y' j ≠ 0 := fun h => h2 ((hy j).2.2.2 h)
  have p1 := lt_of_le_of_ne (hx i).1 (Ne.symm h1)
  have p2 := lt_of_le_of_ne (hy j).1 (Ne.symm h2)
  have p1' := lt_of_le_of_ne (hx i).2.1 (Ne.symm h1')
  have p2' := lt_of_le_of_ne (hy j).2.1 (Ne.symm h2')
  have := frac_gap (mul_pos p1 p2) (mul_pos p1' p2')
  rw [Real.log_mul h1 h2, Real.log_mul h1' h2'] at this
  convert this using 3
  ring

theorem dbcm_gap {x y x' y' : Fin n → ℝ} (hx : ∀ i, 0 ≤ x i ∧ 0 ≤ x' i ∧ (x i = 0 ↔ x' i = 0)) (hy : ∀ i, 0 ≤ y i ∧ 0 ≤ y' i ∧ (y i = 0 ↔ y' i = 0)) {E : ℝ}
    (h1 : ∀ i, |outDBCM x y i - outDBCM x' y' i| ≤ E) (h2 : ∀ i, |inDBCM x y i - inDBCM x' y' i| ≤ E) :
    ∑ i, ∑ j ∈ univ.filter (· ≠ i), (linkDBCM x y i j - linkDBCM x' y' i j) ^ 2 ≤
      E / 4 * (∑ i, |Real.log (x i) - Real.log (x' i)| + ∑ i, |Real.log (y i) - Real.log (y' i)|) := by
  have h : ∑ i, ∑ j ∈ univ.filter (· ≠ i), (linkDBCM x y i j - linkDBCM x' y' i j) ^ 2 ≤
      (∑ i, ∑ j ∈ univ.filter (· ≠ i), (linkDBCM x y i j - linkDBCM x' y' i j) * ((Real.log (x i) - Real.log (x' i)) + (Real.log (y j) - Real.log (y' j)))) / 4 := by
    rw [sum_div]
    refine sum_le_sum fun i _ => ?_
    rw [sum_div]
    exact sum_le_sum fun j _ => link_gap hx hy i j
  rw [pair_sum (fun i j => linkDBCM x y i j - linkDBCM x' y' i j) (fun i => Real.log (x i) - Real.log (x' i)) fun j => Real.log (y j) - Real.log (y' j)] at h
  simp only [sum_sub_distrib] at h
  have a := dot_le (u := fun i => Real.log (x i) - Real.log (x' i)) h1
  have b := dot_le (u := fun i => Real.log (y i) - Real.log (y' i)) h2
  unfold outDBCM at a
  unfold inDBCM at b
  linarith

/-! ### one pair of nodes of a weighted network -/

theorem log_ge {u : ℝ} (hu : 0 < u) : 1 - u⁻¹ ≤ Real.log u := by
  have := Real.log_le_sub_one_of_pos (inv_pos.2 hu)
  rw [Real.log_inv] at this
  linarith

theorem log_gt {u : ℝ} (hu : 0 < u) (h1 : u ≠ 1) : 1 - u⁻¹ < Real.log u := by
  have := Real.log_lt_sub_one_of_pos (inv_pos.2 hu) (by simpa using h1)
  rw [Real.log_inv] at this
  linarith

/-- relative entropy of two coins -/
theorem coin_nonneg {b c : ℝ} (hb : 0 < b) (hb1 : b < 1) (hc : 0 < c) (hc1 : c < 1) :
    0 ≤ b * (Real.log b - Real.log c) + (1 - b) * (Real.log (1 - b) - Real.log (1 - c)) ∧
      (b ≠ c → 0 < b * (Real.log b - Real.log c) + (1 - b) * (Real.log (1 - b) - Real.log (1 - c))) := by
  have hb' : 0 < 1 - b := by linarith
  have hc' : 0 < 1 - c := by linarith
  rw [← Real.log_div hb.ne' hc.ne', ← Real.log_div hb'.ne' hc'.ne']
  have e1 : b * (1 - (b / c)⁻¹) = b - c := by field_simp
  have e2 : (1 - b) * (1 - ((1 - b) / (1 - c))⁻¹) = c - b := by field_simp; ring
  have h2 := mul_le_mul_of_nonneg_left (log_ge (div_pos hb' hc')) hb'.le
  constructor
  · have h1 := mul_le_mul_of_nonneg_left (log_ge (div_pos hb hc)) hb.le
    linarith
  · intro hne
    have h1 := mul_lt_mul_of_pos_left (log_gt (div_pos hb hc) (fun h => hne ((div_eq_one_iff_eq hc.ne').1 h))) hb
    linarith

/-- the symmetrised relative entropy of the weight of one pair under two laws of the weighted model -/
def pairJ (p p' w w' a a' b b' : ℝ) : ℝ := (p - p') * (Real.log a - Real.log a') + (w - w') * (Real.log b - Real.log b')

theorem pairJ_ge {a a' b b' : ℝ} (ha : 0 < a) (ha' : 0 < a') (hb : 0 < b) (hb1 : b < 1) (hb' : 0 < b') (hb1' : b' < 1) :
    let p := a * b / (1 - b + a * b)
    let p' := a' * b' / (1 - b' + a' * b')
    let J := pairJ p p' (p / (1 - b)) (p' / (1 - b')) a a' b b'
    4 * (p - p') ^ 2 ≤ J ∧ (J = 0 → b = b') := by
  intro p p' J
  have h1 : 0 < 1 - b := by linarith
  have h1' : 0 < 1 - b' := by linarith
  have ho : 0 < a * b / (1 - b) := by positivity
  have ho' : 0 < a' * b' / (1 - b') := by positivity
  have ep : p = a * b / (1 - b) / (1 + a * b / (1 - b)) := by simp only [p]; field_simp
  have ep' : p' = a' * b' / (1 - b') / (1 + a' * b' / (1 - b')) := by simp only [p']; field_simp
  have hp : 0 < p := by simp only [p]; positivity
  have hp' : 0 < p' := by simp only [p']; positivity
  have g := frac_gap ho ho'
  rw [← ep, ← ep', Real.log_div (by positivity) h1.ne', Real.log_div (by positivity) h1'.ne', Real.log_mul ha.ne' hb.ne', Real.log_mul ha'.ne' hb'.ne'] at g
  obtain ⟨k1, k1s⟩ := coin_nonneg hb hb1 hb' hb1'
  obtain ⟨k2, k2s⟩ := coin_nonneg hb' hb1' hb hb1
  have eJ : J = (p - p') * (Real.log a + Real.log b - Real.log (1 - b) - (Real.log a' + Real.log b' - Real.log (1 - b'))) +
      (p / (1 - b) * (b * (Real.log b - Real.log b') + (1 - b) * (Real.log (1 - b) - Real.log (1 - b'))) +
       p' / (1 - b') * (b' * (Real.log b' - Real.log b) + (1 - b') * (Real.log (1 - b') - Real.log (1 - b)))) := by
    have f1 : p / (1 - b) * (1 - b) = p := by field_simp
    have f2 : p' / (1 - b') * (1 - b') = p' := by field_simp
    simp only [J, pairJ]
    generalize p / (1 - b) = w at *
    generalize p' / (1 - b') = w' at *
    rw [← f1, ← f2]
    ring
  have q1 : 0 ≤ p / (1 - b) * (b * (Real.log b - Real.log b') + (1 - b) * (Real.log (1 - b) - Real.log (1 - b'))) := mul_nonneg (by positivity) k1
  have q2 : 0 ≤ p' / (1 - b') * (b' * (Real.log b' - Real.log b) + (1 - b') * (Real.log (1 - b') - Real.log (1 - b))) := mul_nonneg (by positivity) k2
  refine ⟨by rw [eJ]; linarith, fun h => ?_⟩
  by_contra hne
  have q3 : 0 < p / (1 - b) * (b * (Real.log b - Real.log b') + (1 - b) * (Real.log (1 - b) - Real.log (1 - b'))) := mul_pos (by positivity) (k1s hne)
  have := sq_nonneg (p - p')
  rw [eJ] at h
  linarith

theorem decm_pair {x y bo bi x' y' bo' bi' : Fin n → ℝ} (hx : ∀ i, 0 ≤ x i ∧ 0 ≤ x' i ∧ (x i = 0 ↔ x' i = 0)) (hy : ∀ i, 0 ≤ y i ∧ 0 ≤ y' i ∧ (y i = 0 ↔ y' i = 0))
    (hbo : ∀ i, 0 ≤ bo i ∧ 0 ≤ bo' i ∧ (bo i = 0 ↔ bo' i = 0)) (hbi : ∀ i, 0 ≤ bi i ∧ 0 ≤ bi' i ∧ (bi i = 0 ↔ bi' i = 0)) {i j : Fin n} (h1 : bo i * bi j < 1) (h1' : bo' i * bi' j < 1) :
    let J := (linkDECM x y bo bi i j - linkDECM x' y' bo' bi' i j) * ((Real.log (x i) - Real.log (x' i)) + (Real.log (y j) - Real.log (y' j))) +
      (weightDECM x y bo bi i j - weightDECM x' y' bo' bi' i j) * ((Real.log (bo i) - Real.log (bo' i)) + (Real.log (bi j) - Real.log (bi' j)))
    4 * (linkDECM x y bo bi i j - linkDECM x' y' bo' bi' i j) ^ 2 ≤ J ∧ (J = 0 → weightDECM x y bo bi i j = weightDECM x' y' bo' bi' i j) := by
  intro J
  have z : x i = 0 ∨ y j = 0 ∨ bo i = 0 ∨ bi j = 0 → linkDECM x y bo bi i j = 0 ∧ linkDECM x' y' bo' bi' i j = 0 := by
    unfold linkDECM
    rintro (h | h | h | h)
    · simp [h, (hx i).2.2.1 h]
    · simp [h, (hy j).2.2.1 h]
    · simp [h, (hbo i).2.2.1 h]
    · simp [h, (hbi j).2.2.1 h]
  by_cases hz : x i = 0 ∨ y j = 0 ∨ bo i = 0 ∨ bi j = 0
  · simp only [J, weightDECM]
    rw [(z hz).1, (z hz).2]
    simp
  · simp only [not_or] at hz
    obtain ⟨z1, z2, z3, z4⟩ := hz
    have z1' : x' i ≠ 0 := fun h => z1 ((hx i).2.2.2 h)
    have z2' : y' j ≠ 0 := fun h => z2 ((hy j).2.2.2 h)
    have z3' : bo' i ≠ 0 := fun h => z3 ((hbo i).2.2.2 h)
    have z4' : bi' j ≠ 0 := fun h => z4 ((hbi j).2.2.2 h)
    obtain ⟨m1, m2⟩ := pairJ_ge (mul_pos (lt_of_le_of_ne (hx i).1 (Ne.symm z1)) (lt_of_le_of_ne (hy j).1 (Ne.symm z2)))
      (mul_pos (lt_of_le_of_ne (hx i).2.1 (Ne.symm z1')) (lt_of_le_of_ne (hy j).2.1 (Ne.symm z2')))
      (mul_pos (lt_of_le_of_ne (hbo i).1 (Ne.symm z3)) (lt_of_le_of_ne (hbi j).1 (Ne.symm z4))) h1
      (mul_pos (lt_of_le_of_ne (hbo i).2.1 (Ne.symm z3')) (lt_of_le_of_ne (hbi j).2.1 (Ne.symm z4'))) h1'
    have eJ : J = pairJ (linkDECM x y bo bi i j) (linkDECM x' y' bo' bi' i j) (weightDECM x y bo bi i j) (weightDECM x' y' bo' bi' i j) (x i * y j) (x' i * y' j)
        (bo i * bi j) (bo' i * bi' j) := by
      unfold pairJ
      rw [Real.log_mul z1 z2, Real.log_mul z1' z2', Real.log_mul z3 z4, Real.log_mul z3' z4']
      ring
    refine ⟨le_of_le_of_eq m1 eJ.symm, fun h => ?_⟩
    have hb := m2 (eJ.symm.trans h)
    have hp : linkDECM x y bo bi i j = linkDECM x' y' bo' bi' i j := by
      have m3 := le_of_le_of_eq m1 (eJ.symm.trans h)
      have : (linkDECM x y bo bi i j - linkDECM x' y' bo' bi' i j) ^ 2 = 0 := le_antisymm (by unfold linkDECM; linarith) (sq_nonneg _)
      exact sub_eq_zero.1 (pow_eq_zero_iff two_ne_zero |>.1 this)
    unfold weightDECM
    rw [hp, hb]

theorem decm_gap {x y bo bi x' y' bo' bi' : Fin n → ℝ} (hx : ∀ i, 0 ≤ x i ∧ 0 ≤ x' i ∧ (x i = 0 ↔ x' i = 0)) (hy : ∀ i, 0 ≤ y i ∧ 0 ≤ y' i ∧ (y i = 0 ↔ y' i = 0))
    (hbo : ∀ i, 0 ≤ bo i ∧ 0 ≤ bo' i ∧ (bo i = 0 ↔ bo' i = 0)) (hbi : ∀ i, 0 ≤ bi i ∧ 0 ≤ bi' i ∧ (bi i = 0 ↔ bi' i = 0)) (hb : ∀ i j, i ≠ j → bo i * bi j < 1)
    (hb' : ∀ i j, i ≠ j → bo' i * bi' j < 1) {E E' : ℝ}
    (h1 : ∀ i, |outDegDECM x y bo bi i - outDegDECM x' y' bo' bi' i| ≤ E) (h2 : ∀ i, |inDegDECM x y bo bi i - inDegDECM x' y' bo' bi' i| ≤ E)
    (h3 : ∀ i, |outStrDECM x y bo bi i - outStrDECM x' y' bo' bi' i| ≤ E') (h4 : ∀ i, |inStrDECM x y bo bi i - inStrDECM x' y' bo' bi' i| ≤ E') :
    ∑ i, ∑ j ∈ univ.filter (· ≠ i), (linkDECM x y bo bi i j - linkDECM x' y' bo' bi' i j) ^ 2 ≤
      E / 4 * (∑ i, |Real.log (x i) - Real.log (x' i)| + ∑ i, |Real.log (y i) - Real.log (y' i)|) +
      E' / 4 * (∑ i, |Real.log (bo i) - Real.log (bo' i)| + ∑ i, |Real.log (bi i) - Real.log (bi' i)|) ∧
    (E = 0 → E' = 0 → ∀ i j, i ≠ j → linkDECM x y bo bi i j = linkDECM x' y' bo' bi' i j ∧ weightDECM x y bo bi i j = weightDECM x' y' bo' bi' i j) := by
  have pair := fun i j (hij : i ≠ j) => decm_pair hx hy hbo hbi (hb i j hij) (hb' i j hij)
  have s1 := pair_sum (fun i j => linkDECM x y bo bi i j - linkDECM x' y' bo' bi' i j) (fun i => Real.log (x i) - Real.log (x' i)) fun j => Real.log (y j) - Real.log (y' j)
  have s2 := pair_sum (fun i j => weightDECM x y bo bi i j - weightDECM x' y' bo' bi' i j) (fun i => Real.log (bo i) - Real.log (bo' i)) fun j => Real.log (bi j) - Real.log (bi' j)
  simp only [sum_sub_distrib] at s1 s2
  have a := dot_le (u := fun i => Real.log (x i) - Real.log (x' i)) h1
  have b := dot_le (u := fun i => Real.log (y i) - Real.log (y' i)) h2
  have c := dot_le (u := fun i => Real.log (bo i) - Real.log (bo' i)) h3
  have e := dot_le (u := fun i => Real.log (bi i) - Real.log (bi' i)) h4
  unfold outDegDECM at a
  unfold inDegDECM at b
  unfold outStrDECM at c
  unfold inStrDECM at e
  have B : ∑ i, ∑ j ∈ univ.filter (· ≠ i), ((linkDECM x y bo bi i j - linkDECM x' y' bo' bi' i j) * ((Real.log (x i) - Real.log (x' i)) + (Real.log (y j) - Real.log (y' j))) +
      (weightDECM x y bo bi i j - weightDECM x' y' bo' bi' i j) * ((Real.log (bo i) - Real.log (bo' i)) + (Real.log (bi j) - Real.log (bi' j)))) ≤
      E * (∑ i, |Real.log (x i) - Real.log (x' i)| + ∑ i, |Real.log (y i) - Real.log (y' i)|) +
      E' * (∑ i, |Real.log (bo i) - Real.log (bo' i)| + ∑ i, |Real.log (bi i) - Real.log (bi' i)|) := by
    simp only [sum_add_distrib]
    rw [s1, s2]; linarith
  constructor
  · have : ∑ i, ∑ j ∈ univ.filter (· ≠ i), 4 * (linkDECM x y bo bi i j - linkDECM x' y' bo' bi' i j) ^ 2 ≤ _ :=
      (sum_le_sum fun i _ => sum_le_sum fun j hj => (pair i j (by simpa [eq_comm] using hj)).1).trans B
    simp only [← mul_sum] at this
    linarith
  · intro hE hE' i j hij
    have J0 := sq_zero B (by rw [hE, hE']; simp) (fun i j hij => le_trans (by positivity) (pair i j hij).1) hij
    refine ⟨?_, (pair i j hij).2 J0⟩
    have h := le_of_le_of_eq (pair i j hij).1 J0
    have : (linkDECM x y bo bi i j - linkDECM x' y' bo' bi' i j) ^ 2 = 0 := le_antisymm (by linarith) (sq_nonneg _)
    exact sub_eq_zero.1 (pow_eq_zero_iff two_ne_zero |>.1 this)

section undirected

variable [NeZero n] {d : UData n}

/-- C61 (cm, cm_exp): the link probabilities of two answers for the same network, whatever the methods, guesses, options, earlier states of the objects and the variant of the
model, differ in the mean square by at most the sum of the two reported errors times the distance of the log-parameters.  If both errors vanish they are equal. -/
theorem C61_cm (e e' : Env) (g g' : UAttr d) (mo mo' : UModel) (hmo : mo = .cm ∨ mo = .cm_exp) (hmo' : mo' = .cm ∨ mo' = .cm_exp) (method method' : String)
    (guess guess' : Guess n) (adj adj' : AdjSpec n) (ma ma' : String) (ga ga' : Guess n) (p p' : Params) :
    let R := solve_tool e g mo.name method guess adj ma ga p
    let R' := solve_tool e' g' mo'.name method' guess' adj' ma' ga' p'
    R.exc = none → R'.exc = none → ∃ x x' E E', R.g.x = some x ∧ R'.g.x = some x' ∧ R.g.error_degree = some E ∧ R'.g.error_degree = some E' ∧
      ((∀ i, 0 ≤ x i ∧ 0 ≤ x' i ∧ (x i = 0 ↔ x' i = 0)) →
        ∑ i, ∑ j ∈ univ.filter (· ≠ i), (linkUBCM x i j - linkUBCM x' i j) ^ 2 ≤ (E + E') / 2 * ∑ i, |Real.log (x i) - Real.log (x' i)| ∧
        (E = 0 → E' = 0 → ∀ i j, i ≠ j → linkUBCM x i j = linkUBCM x' i j)) := by
  intro R R' h h'
  obtain ⟨x, E, r, h1, -, h3, -, h5, -⟩ := C54_cm e g mo hmo method guess adj ma ga p h
  obtain ⟨x', E', r', h1', -, h3', -, h5', -⟩ := C54_cm e' g' mo' hmo' method' guess' adj' ma' ga' p' h'
  refine ⟨x, x', E, E', h1, h1', h3, h3', fun hx => ?_⟩
  have near : ∀ i, |degUBCM x i - degUBCM x' i| ≤ E + E' := fun i => two_near (h5.1 i) (h5'.1 i)
  have out : ∀ x : Fin n → ℝ, outDBCM x x = degUBCM x := fun x => rfl
  have inn : ∀ x : Fin n → ℝ, inDBCM x x = degUBCM x := fun x => funext fun i => sum_congr rfl fun j _ => by unfold linkDBCM linkUBCM; rw [mul_comm]
  have gap := dbcm_gap hx hx (E := E + E') (by rw [out, out]; exact near) (by rw [inn, inn]; exact near)
  have gap' : ∑ i, ∑ j ∈ univ.filter (· ≠ i), (linkUBCM x i j - linkUBCM x' i j) ^ 2 ≤ (E + E') / 2 * ∑ i, |Real.log (x i) - Real.log (x' i)| :=
    le_of_le_of_eq gap (by ring)
  refine ⟨gap', fun hE hE' i j hij => ?_⟩
  have := sq_zero gap' (by rw [hE, hE']; simp) (fun _ _ _ => sq_nonneg _) hij
  exact sub_eq_zero.1 (pow_eq_zero_iff (two_ne_zero) |>.1 this)

theorem degUECM_eq (x y : Fin n → ℝ) (i : Fin n) : degUECM x y i = outDegDECM x x y y i ∧ degUECM x y i = inDegDECM x x y y i := by
  constructor <;> refine sum_congr rfl fun j _ => ?_ <;> unfold linkDECM
  · rw [mul_assoc (x i * x j)]
  · rw [mul_assoc (x i * x j), mul_comm (x j), mul_comm (y j)]

theorem strUECM_eq (x y : Fin n → ℝ) (i : Fin n) : strUECM x y i = outStrDECM x x y y i ∧ strUECM x y i = inStrDECM x x y y i := by
  constructor <;> refine sum_congr rfl fun j _ => ?_ <;> unfold weightDECM linkDECM
  · rw [mul_assoc (x i * x j), div_div, mul_comm (1 - y i * y j)]
  · rw [mul_assoc (x i * x j), div_div, mul_comm (1 - y i * y j), mul_comm (x j), mul_comm (y j)]

/-- C61 (ecm, ecm_exp), on networks without zero degrees or strengths, for parameters in the domain of the model: the same for the link probabilities of the weighted model; if all
errors vanish, link probabilities and expected weights are equal.  (The law of the pair `i, j` of the undirected model is that of the directed one with `y = x`, `b_in = b_out = y`.) -/
theorem C61_ecm (hd : ∀ i, d.dseq i ≠ 0) (hst : ∀ i, d.strength_sequence i ≠ 0) (e e' : Env) (g g' : UAttr d) (mo mo' : UModel) (hmo : mo = .ecm ∨ mo = .ecm_exp)
    (hmo' : mo' = .ecm ∨ mo' = .ecm_exp) (method method' : String)
    (guess guess' : Guess n) (adj adj' : AdjSpec n) (ma ma' : String) (ga ga' : Guess n) (p p' : Params) :
    let R := solve_tool e g mo.name method guess adj ma ga p
    let R' := solve_tool e' g' mo'.name method' guess' adj' ma' ga' p'
    R.exc = none → R'.exc = none → ∃ x y x' y' E E' F F', R.g.x = some x ∧ R.g.y = some y ∧ R'.g.x = some x' ∧ R'.g.y = some y' ∧ R.g.error_degree = some E ∧
      R'.g.error_degree = some E' ∧ R.g.error_strength = some F ∧ R'.g.error_strength = some F' ∧
      ((∀ i, 0 ≤ x i ∧ 0 ≤ x' i ∧ (x i = 0 ↔ x' i = 0)) → (∀ i, 0 ≤ y i ∧ 0 ≤ y' i ∧ (y i = 0 ↔ y' i = 0)) → (∀ i j, i ≠ j → y i * y j < 1 ∧ y' i * y' j < 1) →
        ∑ i, ∑ j ∈ univ.filter (· ≠ i), (linkDECM x x y y i j - linkDECM x' x' y' y' i j) ^ 2 ≤
          (E + E') / 2 * ∑ i, |Real.log (x i) - Real.log (x' i)| + (F + F') / 2 * ∑ i, |Real.log (y i) - Real.log (y' i)| ∧
        (E = 0 → E' = 0 → F = 0 → F' = 0 → ∀ i j, i ≠ j →
          linkDECM x x y y i j = linkDECM x' x' y' y' i j ∧ weightDECM x x y y i j = weightDECM x' x' y' y' i j)) := by
  intro R R' h h'
  obtain ⟨x, y, E, r, F, q, h1, h2, -, -, h5, -, h7, -, h9⟩ := C54_ecm e g mo hmo method guess adj ma ga p h
  obtain ⟨x', y', E', r', F', q', h1', h2', -, -, h5', -, h7', -, h9'⟩ := C54_ecm e' g' mo' hmo' method' guess' adj' ma' ga' p' h'
  obtain ⟨⟨k1, -⟩, ⟨k2, -⟩⟩ := h9 hd hst
  obtain ⟨⟨k1', -⟩, ⟨k2', -⟩⟩ := h9' hd hst
  refine ⟨x, y, x', y', E, E', F, F', h1, h2, h1', h2', h5, h5', h7, h7', fun hx hy hp => ?_⟩
  have near : ∀ i, |degUECM x y i - degUECM x' y' i| ≤ E + E' := fun i => two_near (k1.1 i) (k1'.1 i)
  have nears : ∀ i, |strUECM x y i - strUECM x' y' i| ≤ F + F' := fun i => two_near (k2.1 i) (k2'.1 i)
  obtain ⟨gap, ex⟩ := decm_gap hx hx hy hy (fun i j hij => (hp i j hij).1) (fun i j hij => (hp i j hij).2) (E := E + E') (E' := F + F')
    (fun i => by rw [← (degUECM_eq x y i).1, ← (degUECM_eq x' y' i).1]; exact near i) (fun i => by rw [← (degUECM_eq x y i).2, ← (degUECM_eq x' y' i).2]; exact near i)
    (fun i => by rw [← (strUECM_eq x y i).1, ← (strUECM_eq x' y' i).1]; exact nears i) (fun i => by rw [← (strUECM_eq x y i).2, ← (strUECM_eq x' y' i).2]; exact nears i)
  exact ⟨le_of_le_of_eq gap (by ring), fun a b c f => ex (by rw [a, b]; simp) (by rw [c, f]; simp)⟩

/-- C61 (crema on a given matrix): the expected weights of the links are `a i j / (β i + β j)`; their rates nearly agree, and agree if both errors vanish. -/
theorem C61_crema_matrix (e e' : Env) (g g' : UAttr d) (me me' : Method) (guess guess' : Guess n) (a : Fin n → Fin n → ℝ) (hs : ∀ i j, a i j = a j i) (hd : ∀ i, a i i = 0)
    (h0 : ∀ i j, 0 ≤ a i j) (ma ma' : String) (ga ga' : Guess n) (p p' : Params) :
    let R := solve_tool e g "crema" me.name guess (.matrix a) ma ga p
    let R' := solve_tool e' g' "crema" me'.name guess' (.matrix a) ma' ga' p'
    R.exc = none → R'.exc = none → ∃ β β' E E', R.g.beta = some β ∧ R'.g.beta = some β' ∧ R.g.error_strength = some E ∧ R'.g.error_strength = some E' ∧
      ((∀ i j, i ≠ j → a i j ≠ 0 → 0 < β i + β j ∧ 0 < β' i + β' j) →
        ∑ i, ∑ j ∈ univ.filter (· ≠ i), a i j * (β i + β j - (β' i + β' j)) ^ 2 / ((β i + β j) * (β' i + β' j)) ≤ 2 * (E + E') * ∑ i, |β i - β' i| ∧
        (E = 0 → E' = 0 → ∀ i j, i ≠ j → a i j ≠ 0 → β i + β j = β' i + β' j)) := by
  intro R R' h h'
  obtain ⟨β, E, r, h1, -, -, h4, -, h6, -⟩ := C54_crema_matrix_partial e g me guess a hs hd ma ga p h
  obtain ⟨β', E', r', h1', -, -, h4', -, h6', -⟩ := C54_crema_matrix_partial e' g' me' guess' a hs hd ma' ga' p' h'
  refine ⟨β, β', E, E', h1, h1', h4, h4', fun hp => ?_⟩
  have near : ∀ i, |strCReMa a β i - strCReMa a β' i| ≤ E + E' := fun i => two_near (h6.1 i) (h6'.1 i)
  have s := pair_sum (fun i j => a i j / (β i + β j) - a i j / (β' i + β' j)) (fun i => -(β i - β' i)) fun j => -(β j - β' j)
  simp only [sum_sub_distrib] at s
  have q := dot_le (u := fun i => -(β i - β' i)) near
  simp only [abs_neg] at q
  have col : ∀ (β : Fin n → ℝ) j, ∑ i ∈ univ.filter (· ≠ j), a i j / (β i + β j) = strCReMa a β j := fun β j => sum_congr rfl fun i _ => by rw [hs, add_comm]
  have row : ∀ (β : Fin n → ℝ) i, ∑ j ∈ univ.filter (· ≠ i), a i j / (β i + β j) = strCReMa a β i := fun β j => rfl
  simp only [col, row] at s
  have term : ∀ i j, i ≠ j → a i j * (β i + β j - (β' i + β' j)) ^ 2 / ((β i + β j) * (β' i + β' j)) =
      (a i j / (β i + β j) - a i j / (β' i + β' j)) * (-(β i - β' i) + -(β j - β' j)) := fun i j hij => by
    by_cases ha : a i j = 0
    · simp [ha]
    · have t1 := (hp i j hij ha).1.ne'
      have t2 := (hp i j hij ha).2.ne'
      field_simp
      ring
  have gap : ∑ i, ∑ j ∈ univ.filter (· ≠ i), a i j * (β i + β j - (β' i + β' j)) ^ 2 / ((β i + β j) * (β' i + β' j)) ≤ 2 * (E + E') * ∑ i, |β i - β' i| := by
    rw [sum_congr rfl fun i _ => sum_congr rfl fun j hj => term i j (by simpa [eq_comm] using hj), s]
    linarith
  refine ⟨gap, fun hE hE' i j hij ha => ?_⟩
  have nn : ∀ i j, i ≠ j → 0 ≤ a i j * (β i + β j - (β' i + β' j)) ^ 2 / ((β i + β j) * (β' i + β' j)) := fun i j hij => by
    by_cases ha : a i j = 0
    · simp [ha]
    · have t1 := (hp i j hij ha).1
      have t2 := (hp i j hij ha).2
      have t3 := h0 i j
      positivity
  have z := sq_zero gap (by rw [hE, hE']; simp) nn hij
  obtain ⟨t1, t2⟩ := hp i j hij ha
  have z2 := (div_eq_zero_iff.1 z).resolve_right (mul_pos t1 t2).ne'
  have z3 := pow_eq_zero_iff two_ne_zero |>.1 ((mul_eq_zero.1 z2).resolve_left ha)
  linarith

/-- the hypotheses of `C61_cm`, `C61_ecm`, `C61_crema_matrix` are met: a family of different answers for the same network, all inside the domain (starting points, on any network
without zero degrees and strengths) -/
example (e : Env) (d : UData n) (hd : ∀ i, d.dseq i ≠ 0) (hst : ∀ i, d.strength_sequence i ≠ 0) : let p : Params := { max_steps := 0 }
    ∀ c : ℝ, 0 < c → c < 1 →
    (let R := solve_tool e ({} : UAttr d) "cm" "newton" (.nodes fun _ => c) .other "" .other p;
      R.exc = none ∧ (R.g.x = some fun _ => c)) ∧
    (let R := solve_tool e ({} : UAttr d) "ecm" "newton" (.pairs fun _ => c) .other "" .other p;
      R.exc = none ∧ R.g.x = some (fun _ => c) ∧ (R.g.y = some fun _ => c) ∧ c * c < 1) ∧
    (let R := solve_tool e ({} : UAttr d) "crema" "newton" (.nodes fun _ => c) (.matrix fun i j => if i = j then 0 else 1) "" .other p;
      R.exc = none ∧ (R.g.beta = some fun _ => c) ∧ 0 < c + c) := by
  intro p c h0 h1
  have hs : ∀ {ι : Type} [Fintype ι] [DecidableEq ι] [Nonempty ι] (C : Callbacks ι) (s : String) (x0 : ι → ℝ),
      solver C (({ max_steps := 0 } : Params).opts s) x0 = .ok (initState C x0) := fun _ _ _ => rfl
  have l1 : uLookup "cm" "newton" = some (.cm, .newton) := uLookup_name .cm .newton
  have l2 : uLookup "ecm" "newton" = some (.ecm, .newton) := uLookup_name .ecm .newton
  have l3 : uLookup "crema" "newton" = some (.crema, .newton) := uLookup_name .crema .newton
  refine ⟨?_, ?_, ?_⟩
  · intro R
    obtain ⟨x, k1, k3⟩ := C53_cm_start e ({} : UAttr d) .newton .other "" .other p rfl fun _ => c
    refine ⟨?_, k1.trans (congrArg some (funext fun i => ?_))⟩
    · simp [R, p, solve_tool, solveProblem, guessCM, l1, hs, solutionError, setSolvedCM, degreeError, strengthError]
    · simpa [hd i] using k3 i _ (d.index_first i)
  · intro R
    obtain ⟨x, y, k1, k2, k5⟩ := C53_ecm_start e ({} : UAttr d) .newton .other "" .other p rfl fun _ => c
    refine ⟨?_, k1.trans (congrArg some (funext fun i => ?_)), k2.trans (congrArg some (funext fun i => ?_)), by nlinarith⟩
    · simp [R, p, solve_tool, solveProblem, guessECM, l2, hs, solutionError, setSolvedECM, degreeError, strengthError]
    · simpa [hd i] using (k5 i).1
    · simpa [hst i] using (k5 i).2
  · intro R
    obtain ⟨b, k1, k3⟩ := C53_crema_start e ({} : UAttr d) .newton "" .other p rfl (fun i j => if i = j then 0 else 1) fun _ => c
    refine ⟨?_, k1.trans (congrArg some (funext fun i => ?_)), by linarith⟩
    · simp [R, p, solve_tool, solveProblemCrema, hs, solveCremaTail, guessCrema, l3, solutionError, setSolvedCrema, degreeError, strengthError]
    · simpa [hst i] using k3 i

end undirected

section directed

variable [NeZero n] {d : DData n}

/-- C61 (dcm, dcm_exp) -/
theorem C61_dcm (e e' : Env) (g g' : DAttr d) (mo mo' : DModel) (hmo : mo = .dcm ∨ mo = .dcm_exp) (hmo' : mo' = .dcm ∨ mo' = .dcm_exp) (method method' : String)
    (guess guess' : DGuess n) (adj adj' : AdjSpec n) (ma ma' : String) (ga ga' : DGuess n) (p p' : Params) :
    let R := solve_tool_directed e g mo.name method guess adj ma ga p
    let R' := solve_tool_directed e' g' mo'.name method' guess' adj' ma' ga' p'
    R.exc = none → R'.exc = none → ∃ x y x' y' E E', R.g.x = some x ∧ R.g.y = some y ∧ R'.g.x = some x' ∧ R'.g.y = some y' ∧ R.g.error_degree = some E ∧
      R'.g.error_degree = some E' ∧
      ((∀ i, 0 ≤ x i ∧ 0 ≤ x' i ∧ (x i = 0 ↔ x' i = 0)) → (∀ i, 0 ≤ y i ∧ 0 ≤ y' i ∧ (y i = 0 ↔ y' i = 0)) →
        ∑ i, ∑ j ∈ univ.filter (· ≠ i), (linkDBCM x y i j - linkDBCM x' y' i j) ^ 2 ≤
          (E + E') / 4 * (∑ i, |Real.log (x i) - Real.log (x' i)| + ∑ i, |Real.log (y i) - Real.log (y' i)|) ∧
        (E = 0 → E' = 0 → ∀ i j, i ≠ j → linkDBCM x y i j = linkDBCM x' y' i j)) := by
  intro R R' h h'
  obtain ⟨x, y, E, r, h1, h2, -, h3, -, h5, -⟩ := C54_dcm e g mo hmo method guess adj ma ga p h
  obtain ⟨x', y', E', r', h1', h2', -, h3', -, h5', -⟩ := C54_dcm e' g' mo' hmo' method' guess' adj' ma' ga' p' h'
  refine ⟨x, y, x', y', E, E', h1, h2, h1', h2', h3, h3', fun hx hy => ?_⟩
  have gap := dbcm_gap hx hy (E := E + E') (fun i => two_near (by simpa [outIn] using h5.1 (0, i)) (by simpa [outIn] using h5'.1 (0, i)))
    (fun i => two_near (by simpa [outIn] using h5.1 (1, i)) (by simpa [outIn] using h5'.1 (1, i)))
  refine ⟨gap, fun hE hE' i j hij => ?_⟩
  have := sq_zero gap (by rw [hE, hE']; simp) (fun _ _ _ => sq_nonneg _) hij
  exact sub_eq_zero.1 (pow_eq_zero_iff (two_ne_zero) |>.1 this)

/-- C61 (decm, decm_exp), for parameters in the domain of the model: link probabilities nearly agree; if all errors vanish, link probabilities and expected weights are equal. -/
theorem C61_decm (e e' : Env) (g g' : DAttr d) (mo mo' : DModel) (hmo : mo = .decm ∨ mo = .decm_exp) (hmo' : mo' = .decm ∨ mo' = .decm_exp) (method method' : String)
    (guess guess' : DGuess n) (adj adj' : AdjSpec n) (ma ma' : String) (ga ga' : DGuess n) (p p' : Params) :
    let R := solve_tool_directed e g mo.name method guess adj ma ga p
    let R' := solve_tool_directed e' g' mo'.name method' guess' adj' ma' ga' p'
    R.exc = none → R'.exc = none → ∃ x y bo bi x' y' bo' bi', R.g.x = some x ∧ R.g.y = some y ∧ R.g.b_out = some bo ∧ R.g.b_in = some bi ∧
      R'.g.x = some x' ∧ R'.g.y = some y' ∧ R'.g.b_out = some bo' ∧ R'.g.b_in = some bi' ∧
      ((∀ i, 0 ≤ x i ∧ 0 ≤ x' i ∧ (x i = 0 ↔ x' i = 0)) → (∀ i, 0 ≤ y i ∧ 0 ≤ y' i ∧ (y i = 0 ↔ y' i = 0)) →
       (∀ i, 0 ≤ bo i ∧ 0 ≤ bo' i ∧ (bo i = 0 ↔ bo' i = 0)) → (∀ i, 0 ≤ bi i ∧ 0 ≤ bi' i ∧ (bi i = 0 ↔ bi' i = 0)) →
       (∀ i j, i ≠ j → bo i * bi j < 1 ∧ bo' i * bi' j < 1) →
        ∃ E E' F F', R.g.error_degree = some E ∧ R'.g.error_degree = some E' ∧ R.g.error_strength = some F ∧ R'.g.error_strength = some F' ∧
        ∑ i, ∑ j ∈ univ.filter (· ≠ i), (linkDECM x y bo bi i j - linkDECM x' y' bo' bi' i j) ^ 2 ≤
          (E + E') / 4 * (∑ i, |Real.log (x i) - Real.log (x' i)| + ∑ i, |Real.log (y i) - Real.log (y' i)|) +
          (F + F') / 4 * (∑ i, |Real.log (bo i) - Real.log (bo' i)| + ∑ i, |Real.log (bi i) - Real.log (bi' i)|) ∧
        (E = 0 → E' = 0 → F = 0 → F' = 0 → ∀ i j, i ≠ j →
          linkDECM x y bo bi i j = linkDECM x' y' bo' bi' i j ∧ weightDECM x y bo bi i j = weightDECM x' y' bo' bi' i j)) := by
  intro R R' h h'
  obtain ⟨x, y, bo, bi, h1, h2, h3, h4, h5⟩ := C54_decm e g mo hmo method guess adj ma ga p h
  obtain ⟨x', y', bo', bi', h1', h2', h3', h4', h5'⟩ := C54_decm e' g' mo' hmo' method' guess' adj' ma' ga' p' h'
  refine ⟨x, y, bo, bi, x', y', bo', bi', h1, h2, h3, h4, h1', h2', h3', h4', fun hx hy hbo hbi hp => ?_⟩
  obtain ⟨-, -, E, r, F, q, k1, -, k3, -, ⟨k5, -⟩, ⟨k6, -⟩⟩ := h5 (fun i => (hx i).1) (fun i => (hy i).1) (fun i => (hbo i).1) (fun i => (hbi i).1) fun i j hij => (hp i j hij).1
  obtain ⟨-, -, E', r', F', q', k1', -, k3', -, ⟨k5', -⟩, ⟨k6', -⟩⟩ :=
    h5' (fun i => (hx i).2.1) (fun i => (hy i).2.1) (fun i => (hbo i).2.1) (fun i => (hbi i).2.1) fun i j hij => (hp i j hij).2
  obtain ⟨gap, ex⟩ := decm_gap hx hy hbo hbi (fun i j hij => (hp i j hij).1) (fun i j hij => (hp i j hij).2) (E := E + E') (E' := F + F')
    (fun i => two_near (by simpa [outIn] using k5.1 (0, i)) (by simpa [outIn] using k5'.1 (0, i)))
    (fun i => two_near (by simpa [outIn] using k5.1 (1, i)) (by simpa [outIn] using k5'.1 (1, i)))
    (fun i => two_near (by simpa [outIn] using k6.1 (0, i)) (by simpa [outIn] using k6'.1 (0, i)))
    (fun i => two_near (by simpa [outIn] using k6.1 (1, i)) (by simpa [outIn] using k6'.1 (1, i)))
  exact ⟨E, E', F, F', k1, k1', k3, k3', gap, fun a b c f => ex (by rw [a, b]; simp) (by rw [c, f]; simp)⟩

/-- C61 (directed crema on a given matrix) -/
theorem C61_dcrema_matrix (hz : d.nz_known = true) (e e' : Env) (g g' : DAttr d) (me me' : Method) (guess guess' : DGuess n) (a : Fin n → Fin n → ℝ)
    (h0 : ∀ i j, 0 ≤ a i j) (ma ma' : String) (ga ga' : DGuess n) (p p' : Params) :
    let R := solve_tool_directed e g "crema" me.name guess (.matrix a) ma ga p
    let R' := solve_tool_directed e' g' "crema" me'.name guess' (.matrix a) ma' ga' p'
    R.exc = none → R'.exc = none → ∃ bo bi bo' bi' E E', R.g.b_out = some bo ∧ R.g.b_in = some bi ∧ R'.g.b_out = some bo' ∧ R'.g.b_in = some bi' ∧
      R.g.error_strength = some E ∧ R'.g.error_strength = some E' ∧
      ((∀ i j, a i j ≠ 0 → 0 < bo i + bi j ∧ 0 < bo' i + bi' j) →
        ∑ i, ∑ j, a i j * (bo i + bi j - (bo' i + bi' j)) ^ 2 / ((bo i + bi j) * (bo' i + bi' j)) ≤ (E + E') * (∑ i, |bo i - bo' i| + ∑ i, |bi i - bi' i|) ∧
        (E = 0 → E' = 0 → ∀ i j, a i j ≠ 0 → bo i + bi j = bo' i + bi' j)) := by
  intro R R' h h'
  obtain ⟨bo, bi, E, r, h1, h2, -, -, h4, -, h6, -⟩ := C54_dcrema_matrix_partial e g hz me guess a ma ga p h
  obtain ⟨bo', bi', E', r', h1', h2', -, -, h4', -, h6', -⟩ := C54_dcrema_matrix_partial e' g' hz me' guess' a ma' ga' p' h'
  refine ⟨bo, bi, bo', bi', E, E', h1, h2, h1', h2', h4, h4', fun hp => ?_⟩
  have near : ∀ i, |outStrCReMa a bo bi i - outStrCReMa a bo' bi' i| ≤ E + E' := fun i => two_near (by simpa [outIn] using h6.1 (0, i)) (by simpa [outIn] using h6'.1 (0, i))
  have near' : ∀ i, |inStrCReMa a bo bi i - inStrCReMa a bo' bi' i| ≤ E + E' := fun i => two_near (by simpa [outIn] using h6.1 (1, i)) (by simpa [outIn] using h6'.1 (1, i))
  have q := dot_le (u := fun i => -(bo i - bo' i)) near
  have q' := dot_le (u := fun i => -(bi i - bi' i)) near'
  simp only [abs_neg] at q q'
  have term : ∀ i j, a i j * (bo i + bi j - (bo' i + bi' j)) ^ 2 / ((bo i + bi j) * (bo' i + bi' j)) =
      -(bo i - bo' i) * (a i j / (bo i + bi j) - a i j / (bo' i + bi' j)) + -(bi j - bi' j) * (a i j / (bo i + bi j) - a i j / (bo' i + bi' j)) := fun i j => by
    by_cases ha : a i j = 0
    · simp [ha]
    · have t1 := (hp i j ha).1.ne'
      have t2 := (hp i j ha).2.ne'
      field_simp
      ring
  have gap : ∑ i, ∑ j, a i j * (bo i + bi j - (bo' i + bi' j)) ^ 2 / ((bo i + bi j) * (bo' i + bi' j)) ≤ (E + E') * (∑ i, |bo i - bo' i| + ∑ i, |bi i - bi' i|) := by
    rw [sum_congr rfl fun i _ => sum_congr rfl fun j _ => term i j]
    simp only [sum_add_distrib]
    rw [sum_comm (f := fun i j => -(bi j - bi' j) * (a i j / (bo i + bi j) - a i j / (bo' i + bi' j)))]
    simp only [← mul_sum, sum_sub_distrib]
    unfold outStrCReMa at q
    unfold inStrCReMa at q'
    linarith
  refine ⟨gap, fun hE hE' i j ha => ?_⟩
  have nn : ∀ i j, 0 ≤ a i j * (bo i + bi j - (bo' i + bi' j)) ^ 2 / ((bo i + bi j) * (bo' i + bi' j)) := fun i j => by
    by_cases ha : a i j = 0
    · simp [ha]
    · have t1 := (hp i j ha).1
      have t2 := (hp i j ha).2
      have t3 := h0 i j
      positivity
  have tot : ∑ i, ∑ j, a i j * (bo i + bi j - (bo' i + bi' j)) ^ 2 / ((bo i + bi j) * (bo' i + bi' j)) = 0 :=
    le_antisymm (le_of_le_of_eq gap (by rw [hE, hE']; simp)) (sum_nonneg fun i _ => sum_nonneg fun j _ => nn i j)
  have z := (sum_eq_zero_iff_of_nonneg fun j _ => nn i j).1 ((sum_eq_zero_iff_of_nonneg fun i _ => sum_nonneg fun j _ => nn i j).1 tot i (mem_univ _)) j (mem_univ _)
  obtain ⟨t1, t2⟩ := hp i j ha
  have z2 := (div_eq_zero_iff.1 z).resolve_right (mul_pos t1 t2).ne'
  have z3 := pow_eq_zero_iff two_ne_zero |>.1 ((mul_eq_zero.1 z2).resolve_left ha)
  linarith

/-- the hypotheses of `C61_dcm`, `C61_decm`, `C61_dcrema_matrix` are met: two different answers for the same network, all inside the domain (starting points, on any network without
zero degrees and strengths) -/
example (e : Env) (d : DData n) (hz : d.nz_known = true) (ho : ∀ i, d.dseq_out i ≠ 0) (hi : ∀ i, d.dseq_in i ≠ 0) (hso : ∀ i, d.out_strength i ≠ 0) (hsi : ∀ i, d.in_strength i ≠ 0) :
    let p : Params := { max_steps := 0 }
    ∀ c : ℝ, 0 < c → c < 1 →
    (let R := solve_tool_directed e ({} : DAttr d) "dcm" "newton" (.pairs fun _ => c) .other "" .other p;
      R.exc = none ∧ R.g.x = some (fun _ => c) ∧ (R.g.y = some fun _ => c)) ∧
    (let R := solve_tool_directed e ({} : DAttr d) "decm" "newton" (.quads fun _ => c) .other "" .other p;
      R.exc = none ∧ R.g.x = some (fun _ => c) ∧ R.g.y = some (fun _ => c) ∧ R.g.b_out = some (fun _ => c) ∧ (R.g.b_in = some fun _ => c) ∧ c * c < 1) ∧
    (let R := solve_tool_directed e ({} : DAttr d) "crema" "newton" (.pairs fun _ => c) (.matrix fun _ _ => 1) "" .other p;
      R.exc = none ∧ R.g.b_out = some (fun _ => c) ∧ (R.g.b_in = some fun _ => c) ∧ 0 < c + c) := by
  intro p c h0 h1
  have hs : ∀ {ι : Type} [Fintype ι] [DecidableEq ι] [Nonempty ι] (C : Callbacks ι) (s : String) (x0 : ι → ℝ),
      solver C (({ max_steps := 0 } : Params).opts s) x0 = .ok (initState C x0) := fun _ _ _ => rfl
  have l1 : dLookup "dcm" "newton" = some (.dcm, .newton) := dLookup_name .dcm .newton
  have l2 : dLookup "decm" "newton" = some (.decm, .newton) := dLookup_name .decm .newton
  have l3 : dLookup "crema" "newton" = some (.crema, .newton) := dLookup_name .crema .newton
  refine ⟨?_, ?_, ?_⟩
  · intro R
    obtain ⟨x, y, k1, k2, k3⟩ := C53_dcm_start e ({} : DAttr d) .newton .other "" .other p rfl fun _ => c
    refine ⟨?_, k1.trans (congrArg some (funext fun i => ?_)), k2.trans (congrArg some (funext fun i => ?_))⟩
    · simp [R, p, solve_tool_directed, solveProblemD, guessDCM, l1, hs, solutionErrorD, setSolvedDCM, degreeErrorD, strengthErrorD]
    · simpa [ho i] using (k3 i _ (d.index_first i)).1
    · simpa [hi i] using (k3 i _ (d.index_first i)).2
  · intro R
    obtain ⟨x, y, bo, bi, k1, k2, k3, k4, k5⟩ := C53_decm_start e ({} : DAttr d) .newton .other "" .other p rfl fun _ => c
    refine ⟨?_, k1.trans (congrArg some (funext fun i => ?_)), k2.trans (congrArg some (funext fun i => ?_)), k3.trans (congrArg some (funext fun i => ?_)),
      k4.trans (congrArg some (funext fun i => ?_)), by nlinarith⟩
    · simp [R, p, solve_tool_directed, solveProblemD, guessDECM, l2, hs, solutionErrorD, setSolvedDECM, degreeErrorD, strengthErrorD]
    · simpa [ho i] using (k5 i).1
    · simpa [hi i] using (k5 i).2.1
    · simpa [hso i] using (k5 i).2.2.1
    · simpa [hsi i] using (k5 i).2.2.2
  · intro R
    obtain ⟨bo, bi, k1, k2, k3⟩ := C53_dcrema_start e ({} : DAttr d) .newton "" .other p rfl hz (fun _ _ => 1) fun _ => c
    refine ⟨?_, k1.trans (congrArg some (funext fun i => ?_)), k2.trans (congrArg some (funext fun i => ?_)), by linarith⟩
    · simp [R, p, solve_tool_directed, solveProblemDCrema, hs, solveDCremaTail, guessDCrema, l3, hz, solutionErrorD, setSolvedDCrema, degreeErrorD, strengthErrorD]
    · simpa [hso i] using (k3 i).1
    · simpa [hsi i] using (k3 i).2

end directed

end

end Verif.Solve
