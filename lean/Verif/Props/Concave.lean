import Verif.Lemmas.Concave
import Mathlib.Algebra.BigOperators.Field
import Verif.Props.CM
import Verif.Props.DCM
import Verif.Props.ECM
import Verif.Props.DECM

/-! C11: the log-likelihoods are concave in the multipliers, so a zero of the gradient is the global maximum and the fitted ensemble is unique.
Each model first gets an exact expansion: log-likelihood at `θ` plus gradient times displacement minus log-likelihood at `θ'` is a sum of non-negative pair
terms. -/

namespace Verif.CM

open Finset Verif.Concave

variable {n : ℕ}

/-- the exact expansion -/
theorem expansion_exp (θ θ' k c : Fin n → ℝ) :
    loglikelihood_cm_exp θ k c + ∑ i, loglikelihood_prime_cm_exp θ k c i * (θ' i - θ i) - loglikelihood_cm_exp θ' k c =
      ∑ i, ∑ j, DCM.w c i j / 2 * spGap (-(θ i + θ j)) (-(θ' i + θ' j)) := by
  have hll : ∀ t : Fin n → ℝ, loglikelihood_cm_exp t k c =
      ∑ i, -(c i * k i * t i) - ∑ i, ∑ j, DCM.w c i j / 2 * Real.log (1 + Real.exp (-(t i + t j))) := by
    intro t
    rw [ll_exp_eq, sum_add_distrib, sub_eq_add_neg, ← sum_neg_distrib]
    congr 1
    refine sum_congr rfl fun i _ => ?_
    rw [← sum_neg_distrib]
    refine sum_congr rfl fun j _ => ?_
    unfold DCM.w
    by_cases h : i = j
    · subst h
      rw [if_pos rfl, if_pos rfl, neg_add, Real.exp_add, sq]; ring
    · rw [if_neg h, if_neg h, neg_add, Real.exp_add]; ring
  have hg : ∀ i, loglikelihood_prime_cm_exp θ k c i = -(c i * k i) +
      ∑ j, DCM.w c i j * (Real.exp (-(θ i + θ j)) / (1 + Real.exp (-(θ i + θ j)))) := by
    intro i
    rw [prime_exp_eq]
    congr 1
    refine sum_congr rfl fun j _ => ?_
    unfold DCM.w
    by_cases h : i = j
    · subst h
      rw [if_pos rfl, if_pos rfl, neg_add, Real.exp_add, sq]
    · rw [if_neg h, if_neg h, neg_add, Real.exp_add]
  have hsym : ∑ i, ∑ j, DCM.w c i j * (Real.exp (-(θ i + θ j)) / (1 + Real.exp (-(θ i + θ j)))) * (θ' i - θ i) =
      ∑ i, ∑ j, DCM.w c i j / 2 * (Real.exp (-(θ i + θ j)) / (1 + Real.exp (-(θ i + θ j)))) * ((θ' i - θ i) + (θ' j - θ j)) := by
    have h2 : ∑ i, ∑ j, DCM.w c i j * (Real.exp (-(θ i + θ j)) / (1 + Real.exp (-(θ i + θ j)))) * (θ' i - θ i) =
        ∑ i, ∑ j, DCM.w c i j * (Real.exp (-(θ i + θ j)) / (1 + Real.exp (-(θ i + θ j)))) * (θ' j - θ j) := by
      rw [sum_comm]
      refine sum_congr rfl fun i _ => sum_congr rfl fun j _ => ?_
      rw [DCM.w_symm c j i, add_comm (θ j)]
    have h3 : ∑ i, ∑ j, DCM.w c i j / 2 * (Real.exp (-(θ i + θ j)) / (1 + Real.exp (-(θ i + θ j)))) * ((θ' i - θ i) + (θ' j - θ j)) =
        (∑ i, ∑ j, DCM.w c i j * (Real.exp (-(θ i + θ j)) / (1 + Real.exp (-(θ i + θ j)))) * (θ' i - θ i) +
        ∑ i, ∑ j, DCM.w c i j * (Real.exp (-(θ i + θ j)) / (1 + Real.exp (-(θ i + θ j)))) * (θ' j - θ j)) / 2 := by
      rw [← sum_add_distrib, sum_div]
      refine sum_congr rfl fun i _ => ?_
      rw [← sum_add_distrib, sum_div]
      exact sum_congr rfl fun j _ => by ring
    rw [h3, ← h2]; ring
  simp only [hll, hg, add_mul, sum_add_distrib, sum_mul]
  rw [hsym]
  have hlin : ∑ i, -(c i * k i * θ i) + ∑ i, -(c i * k i) * (θ' i - θ i) = ∑ i, -(c i * k i * θ' i) := by
    rw [← sum_add_distrib]; exact sum_congr rfl fun i _ => by ring
  have hpair : ∑ i, ∑ j, DCM.w c i j / 2 * spGap (-(θ i + θ j)) (-(θ' i + θ' j)) =
      ∑ i, ∑ j, DCM.w c i j / 2 * Real.log (1 + Real.exp (-(θ' i + θ' j))) - ∑ i, ∑ j, DCM.w c i j / 2 * Real.log (1 + Real.exp (-(θ i + θ j))) +
      ∑ i, ∑ j, DCM.w c i j / 2 * (Real.exp (-(θ i + θ j)) / (1 + Real.exp (-(θ i + θ j)))) * ((θ' i - θ i) + (θ' j - θ j)) := by
    rw [← sum_sub_distrib, ← sum_add_distrib]
    refine sum_congr rfl fun i _ => ?_
    rw [← sum_sub_distrib, ← sum_add_distrib]
    refine sum_congr rfl fun j _ => ?_
    unfold spGap; ring
  rw [hpair]
  linarith

theorem w_nonneg (c : Fin n → ℝ) (hc : ∀ i, 1 ≤ c i) (i j : Fin n) : 0 ≤ DCM.w c i j := by
  unfold DCM.w
  split
  · exact mul_nonneg (by linarith [hc i]) (by linarith [hc i])
  · exact mul_nonneg (by linarith [hc i]) (by linarith [hc j])

/-- C11 (cm_exp): the log-likelihood lies below each of its tangent planes (concavity), for every multiplicity vector of the degree-reduced problem. -/
theorem C11_cm_exp_tangent (θ θ' k c : Fin n → ℝ) (hc : ∀ i, 1 ≤ c i) :
    loglikelihood_cm_exp θ' k c ≤ loglikelihood_cm_exp θ k c + ∑ i, loglikelihood_prime_cm_exp θ k c i * (θ' i - θ i) := by
  have := expansion_exp θ θ' k c
  have h2 : 0 ≤ ∑ i, ∑ j, DCM.w c i j / 2 * spGap (-(θ i + θ j)) (-(θ' i + θ' j)) :=
    sum_nonneg fun i _ => sum_nonneg fun j _ => mul_nonneg (by linarith [w_nonneg c hc i j]) (spGap_nonneg _ _)
  linarith

/-- C11 (cm_exp): a zero of the gradient is a global maximum. -/
theorem C11_cm_exp_global_max (θ k c : Fin n → ℝ) (hc : ∀ i, 1 ≤ c i) (h0 : ∀ i, loglikelihood_prime_cm_exp θ k c i = 0) (θ' : Fin n → ℝ) :
    loglikelihood_cm_exp θ' k c ≤ loglikelihood_cm_exp θ k c := by
  have := C11_cm_exp_tangent θ θ' k c hc
  simpa [h0] using this

/-- C11 (cm_exp): two zeros of the gradient give the same link probability to every pair of nodes: distinct classes, and two nodes of the same class. -/
theorem C11_cm_exp_unique (θ θ' k c : Fin n → ℝ) (hc : ∀ i, 1 ≤ c i) (h0 : ∀ i, loglikelihood_prime_cm_exp θ k c i = 0)
    (h1 : ∀ i, loglikelihood_prime_cm_exp θ' k c i = 0) (i j : Fin n) (hij : i ≠ j ∨ c i ≠ 1) : θ i + θ j = θ' i + θ' j := by
  have e := expansion_exp θ θ' k c
  have hle := C11_cm_exp_global_max θ' k c hc h1 θ
  have hle' := C11_cm_exp_global_max θ k c hc h0 θ'
  simp only [h0, zero_mul, sum_const_zero, add_zero] at e
  have hz : ∑ i, ∑ j, DCM.w c i j / 2 * spGap (-(θ i + θ j)) (-(θ' i + θ' j)) = 0 := by linarith
  have hnn : ∀ i j, 0 ≤ DCM.w c i j / 2 * spGap (-(θ i + θ j)) (-(θ' i + θ' j)) := fun i j =>
    mul_nonneg (by linarith [w_nonneg c hc i j]) (spGap_nonneg _ _)
  rw [sum_eq_zero_iff_of_nonneg (fun i _ => sum_nonneg fun j _ => hnn i j)] at hz
  have hz2 := hz i (mem_univ i)
  rw [sum_eq_zero_iff_of_nonneg (fun j _ => hnn i j)] at hz2
  have hz3 := hz2 j (mem_univ j)
  have hw : DCM.w c i j / 2 ≠ 0 := by
    have h1 := hc i
    have h2 := hc j
    unfold DCM.w
    split
    · rename_i h
      have : c i ≠ 1 := hij.resolve_left (fun h' => h' h)
      have : 1 < c i := lt_of_le_of_ne h1 (Ne.symm this)
      have : 0 < c i * (c i - 1) := mul_pos (by linarith) (by linarith)
      positivity
    · have : 0 < c i * c j := mul_pos (by linarith) (by linarith)
      positivity
  have := spGap_eq_zero ((mul_eq_zero.1 hz3).resolve_left hw)
  linarith

/-- the hypotheses are met: three nodes of degree one (one class of multiplicity three), solved by `θ = 0`; the maximum is then global -/
example : ∀ i, loglikelihood_prime_cm_exp (n := 1) (fun _ => 0) (fun _ => 1) (fun _ => 3) i = 0 := by
  intro i; rw [prime_exp_eq]; fin_cases i; simp; norm_num

end Verif.CM

namespace Verif.DCM

open Finset Verif.Concave

variable {n : ℕ}

/-- the exact expansion -/
theorem expansion_exp (θ θ' : Vec n) (ko ki : Fin n → ℝ) (no ni : List (Fin n)) (c : Fin n → ℝ) (hno : no.Nodup) (hni : ni.Nodup) :
    loglikelihood_dcm_exp θ ko ki no ni c + ∑ v, loglikelihood_prime_dcm_exp θ ko ki no ni c v * (θ' v - θ v) -
      loglikelihood_dcm_exp θ' ko ki no ni c =
      ∑ i ∈ no.toFinset, ∑ j ∈ ni.toFinset, w c i j * spGap (-(θ (0, i) + θ (1, j))) (-(θ' (0, i) + θ' (1, j))) := by
  have hll : ∀ t : Vec n, loglikelihood_dcm_exp t ko ki no ni c =
      ∑ i ∈ no.toFinset, -(c i * ko i * t (0, i)) + ∑ j ∈ ni.toFinset, -(c j * ki j * t (1, j)) -
        ∑ i ∈ no.toFinset, ∑ j ∈ ni.toFinset, w c i j * Real.log (1 + Real.exp (-(t (0, i) + t (1, j)))) := by
    intro t
    rw [ll_exp_eq _ _ _ _ _ _ hno hni, sum_add_distrib]
    have : ∑ i ∈ no.toFinset, ∑ j ∈ ni.toFinset, -(w c i j * Real.log (1 + Real.exp (-t (0, i) - t (1, j)))) =
        -∑ i ∈ no.toFinset, ∑ j ∈ ni.toFinset, w c i j * Real.log (1 + Real.exp (-(t (0, i) + t (1, j)))) := by
      rw [← sum_neg_distrib]
      refine sum_congr rfl fun i _ => ?_
      rw [← sum_neg_distrib]
      exact sum_congr rfl fun j _ => by rw [neg_add']
    rw [this]; ring
  have hg0 : ∀ i, loglikelihood_prime_dcm_exp θ ko ki no ni c (0, i) = if i ∈ no.toFinset then -(c i * ko i) +
      ∑ j ∈ ni.toFinset, w c i j * (Real.exp (-(θ (0, i) + θ (1, j))) / (1 + Real.exp (-(θ (0, i) + θ (1, j))))) else 0 := by
    intro i
    rw [prime_exp_eq0 _ _ _ _ _ _ hni]
    simp only [List.mem_toFinset]
    congr 1
    rw [mul_sum, sub_eq_neg_add]
    congr 1
    refine sum_congr rfl fun j _ => ?_
    rw [neg_add, Real.exp_add]; ring
  have hg1 : ∀ j, loglikelihood_prime_dcm_exp θ ko ki no ni c (1, j) = if j ∈ ni.toFinset then -(c j * ki j) +
      ∑ i ∈ no.toFinset, w c i j * (Real.exp (-(θ (0, i) + θ (1, j))) / (1 + Real.exp (-(θ (0, i) + θ (1, j))))) else 0 := by
    intro j
    rw [prime_exp_eq1 _ _ _ _ _ _ hno]
    simp only [List.mem_toFinset]
    congr 1
    rw [sum_mul, sub_eq_neg_add]
    congr 1
    refine sum_congr rfl fun i _ => ?_
    rw [neg_add, Real.exp_add, mul_comm (Real.exp (-θ (1, j)))]; ring
  rw [Fintype.sum_prod_type, Fin.sum_univ_two]
  simp only [hg0, hg1, ite_mul, zero_mul, sum_ite_mem, univ_inter, add_mul, sum_add_distrib, sum_mul, hll]
  rw [sum_comm (s := ni.toFinset)]
  have hlin : ∀ (S : Finset (Fin n)) (k : Fin n → ℝ) (b : Fin 2), ∑ i ∈ S, -(c i * k i * θ (b, i)) + ∑ i ∈ S, -(c i * k i) * (θ' (b, i) - θ (b, i)) =
      ∑ i ∈ S, -(c i * k i * θ' (b, i)) := by
    intro S k b
    rw [← sum_add_distrib]; exact sum_congr rfl fun i _ => by ring
  have hpair : ∑ i ∈ no.toFinset, ∑ j ∈ ni.toFinset, w c i j * spGap (-(θ (0, i) + θ (1, j))) (-(θ' (0, i) + θ' (1, j))) =
      ∑ i ∈ no.toFinset, ∑ j ∈ ni.toFinset, w c i j * Real.log (1 + Real.exp (-(θ' (0, i) + θ' (1, j)))) -
      ∑ i ∈ no.toFinset, ∑ j ∈ ni.toFinset, w c i j * Real.log (1 + Real.exp (-(θ (0, i) + θ (1, j)))) +
      (∑ i ∈ no.toFinset, ∑ j ∈ ni.toFinset, w c i j * (Real.exp (-(θ (0, i) + θ (1, j))) / (1 + Real.exp (-(θ (0, i) + θ (1, j))))) * (θ' (0, i) - θ (0, i)) +
      ∑ i ∈ no.toFinset, ∑ j ∈ ni.toFinset, w c i j * (Real.exp (-(θ (0, i) + θ (1, j))) / (1 + Real.exp (-(θ (0, i) + θ (1, j))))) * (θ' (1, j) - θ (1, j))) := by
    rw [← sum_sub_distrib, ← sum_add_distrib, ← sum_add_distrib]
    refine sum_congr rfl fun i _ => ?_
    rw [← sum_sub_distrib, ← sum_add_distrib, ← sum_add_distrib]
    refine sum_congr rfl fun j _ => ?_
    unfold spGap; ring
  rw [hpair]
  linarith [hlin no.toFinset ko 0, hlin ni.toFinset ki 1]

theorem w_nonneg (c : Fin n → ℝ) (hc : ∀ i, 1 ≤ c i) (i j : Fin n) : 0 ≤ w c i j := CM.w_nonneg c hc i j

/-- C11 (dcm_exp): concavity. -/
theorem C11_dcm_exp_tangent (θ θ' : Vec n) (ko ki : Fin n → ℝ) (no ni : List (Fin n)) (c : Fin n → ℝ) (hno : no.Nodup) (hni : ni.Nodup)
    (hc : ∀ i, 1 ≤ c i) :
    loglikelihood_dcm_exp θ' ko ki no ni c ≤
      loglikelihood_dcm_exp θ ko ki no ni c + ∑ v, loglikelihood_prime_dcm_exp θ ko ki no ni c v * (θ' v - θ v) := by
  have := expansion_exp θ θ' ko ki no ni c hno hni
  have h2 : 0 ≤ ∑ i ∈ no.toFinset, ∑ j ∈ ni.toFinset, w c i j * spGap (-(θ (0, i) + θ (1, j))) (-(θ' (0, i) + θ' (1, j))) :=
    sum_nonneg fun i _ => sum_nonneg fun j _ => mul_nonneg (w_nonneg c hc i j) (spGap_nonneg _ _)
  linarith

/-- C11 (dcm_exp): a zero of the gradient is a global maximum. -/
theorem C11_dcm_exp_global_max (θ : Vec n) (ko ki : Fin n → ℝ) (no ni : List (Fin n)) (c : Fin n → ℝ) (hno : no.Nodup) (hni : ni.Nodup)
    (hc : ∀ i, 1 ≤ c i) (h0 : ∀ v, loglikelihood_prime_dcm_exp θ ko ki no ni c v = 0) (θ' : Vec n) :
    loglikelihood_dcm_exp θ' ko ki no ni c ≤ loglikelihood_dcm_exp θ ko ki no ni c := by
  have := C11_dcm_exp_tangent θ θ' ko ki no ni c hno hni hc
  simpa [h0] using this

/-- C11 (dcm_exp): two zeros of the gradient give the same multiplier sum, hence the same link probability, to every ordered pair with non-zero degrees. -/
theorem C11_dcm_exp_unique (θ θ' : Vec n) (ko ki : Fin n → ℝ) (no ni : List (Fin n)) (c : Fin n → ℝ) (hno : no.Nodup) (hni : ni.Nodup)
    (hc : ∀ i, 1 ≤ c i) (h0 : ∀ v, loglikelihood_prime_dcm_exp θ ko ki no ni c v = 0)
    (h1 : ∀ v, loglikelihood_prime_dcm_exp θ' ko ki no ni c v = 0) (i j : Fin n) (hi : i ∈ no) (hj : j ∈ ni) (hij : i ≠ j ∨ c i ≠ 1) :
    θ (0, i) + θ (1, j) = θ' (0, i) + θ' (1, j) := by
  have e := expansion_exp θ θ' ko ki no ni c hno hni
  have hle := C11_dcm_exp_global_max θ' ko ki no ni c hno hni hc h1 θ
  have hle' := C11_dcm_exp_global_max θ ko ki no ni c hno hni hc h0 θ'
  simp only [h0, zero_mul, sum_const_zero, add_zero] at e
  have hz : ∑ i ∈ no.toFinset, ∑ j ∈ ni.toFinset, w c i j * spGap (-(θ (0, i) + θ (1, j))) (-(θ' (0, i) + θ' (1, j))) = 0 := by linarith
  have hnn : ∀ i j, 0 ≤ w c i j * spGap (-(θ (0, i) + θ (1, j))) (-(θ' (0, i) + θ' (1, j))) := fun i j =>
    mul_nonneg (w_nonneg c hc i j) (spGap_nonneg _ _)
  rw [sum_eq_zero_iff_of_nonneg (fun i _ => sum_nonneg fun j _ => hnn i j)] at hz
  have hz2 := hz i (List.mem_toFinset.2 hi)
  rw [sum_eq_zero_iff_of_nonneg (fun j _ => hnn i j)] at hz2
  have hz3 := hz2 j (List.mem_toFinset.2 hj)
  have hw : w c i j ≠ 0 := by
    have h1 := hc i
    have h2 := hc j
    unfold w
    split
    · rename_i h
      have : c i ≠ 1 := hij.resolve_left (fun h' => h' h)
      have : 1 < c i := lt_of_le_of_ne h1 (Ne.symm this)
      exact (mul_pos (by linarith) (by linarith)).ne'
    · exact (mul_pos (by linarith) (by linarith)).ne'
  have := spGap_eq_zero ((mul_eq_zero.1 hz3).resolve_left hw)
  linarith

/-- the hypotheses are met: three nodes with out- and in-degree one (one class of multiplicity three), solved by `θ = 0` -/
example : ∀ v, loglikelihood_prime_dcm_exp (n := 1) (fun _ => 0) (fun _ => 1) (fun _ => 1) [0] [0] (fun _ => 3) v = 0 := by
  rintro ⟨b, i⟩
  match b with
  | 0 => rw [prime_exp_eq0 _ _ _ _ _ _ (by simp)]; fin_cases i; simp [w]; norm_num
  | 1 => rw [prime_exp_eq1 _ _ _ _ _ _ (by simp)]; fin_cases i; simp [w]; norm_num

end Verif.DCM

namespace Verif.ECM

open Finset Verif.Concave Spec

variable {n : ℕ}

/-- C03 (ecm), quantitative: each gradient component times its parameter is observed minus expected. -/
theorem C03_ecm_residual (sol : Vec n) (k s : Fin n → ℝ) (h : AdmECM sol) (i : Fin n) :
    sol (0, i) * loglikelihood_prime_ecm sol k s (0, i) = k i - expected_ecm sol (0, i) ∧
    sol (1, i) * loglikelihood_prime_ecm sol k s (1, i) = s i - expected_ecm sol (1, i) := by
  obtain ⟨hx, hy, hxy⟩ := h
  constructor
  · rw [prime_eq0, expected_eq0, mul_add, mul_sum, sub_eq_add_neg (k i), ← sum_neg_distrib]
    congr 1
    · have := (hx i).ne'; field_simp
    · refine sum_congr rfl fun j _ => ?_
      split
      · simp
      · ring
  · rw [prime_eq1, expected_eq1, mul_add, mul_sum, sub_eq_add_neg (s i), ← sum_neg_distrib]
    congr 1
    · have := (hy i).ne'; field_simp
    · refine sum_congr rfl fun j _ => ?_
      split
      · simp
      · rw [mul_comm (1 - _ + _)]; ring

/-- C03 (ecm_exp), quantitative: each gradient component is expected minus observed. -/
theorem C03_ecm_exp_residual (θ : Vec n) (k s : Fin n → ℝ) (h : AdmECMexp θ) (i : Fin n) :
    loglikelihood_prime_ecm_exp θ k s (0, i) = expected_ecm (fun v => Real.exp (-θ v)) (0, i) - k i ∧
    loglikelihood_prime_ecm_exp θ k s (1, i) = expected_ecm (fun v => Real.exp (-θ v)) (1, i) - s i := by
  obtain ⟨h0, h1⟩ := C03_ecm_residual _ k s (adm_exp θ h) i
  rw [C09_ecm_gradients, C09_ecm_gradients]
  constructor <;> linarith

theorem sum_lt_pairs (f : Fin n → Fin n → ℝ) : (∑ i, ∑ j, if i = j then 0 else f i j) = ∑ i, ∑ j, if j < i then f i j + f j i else 0 := by
  have h1 : ∀ i j : Fin n, (if i = j then 0 else f i j) = (if j < i then f i j else 0) + (if i < j then f i j else 0) := by
    intro i j
    rcases lt_trichotomy i j with h | h | h
    · simp [h.ne, h, h.le, not_lt.2 h.le]
    · subst h; simp
    · simp [h.ne', h, not_lt.2 h.le]
  have h2 : (∑ i, ∑ j, if i < j then f i j else 0) = ∑ i, ∑ j, if j < i then f j i else 0 := sum_comm
  simp only [h1, sum_add_distrib, h2]
  rw [← sum_add_distrib]
  refine sum_congr rfl fun i _ => ?_
  rw [← sum_add_distrib]
  exact sum_congr rfl fun j _ => by split <;> simp

/-- the exact expansion -/
theorem expansion_exp (θ θ' : Vec n) (k s : Fin n → ℝ) (h : AdmECMexp θ) :
    loglikelihood_ecm_exp θ k s + ∑ v, loglikelihood_prime_ecm_exp θ k s v * (θ' v - θ v) - loglikelihood_ecm_exp θ' k s =
      ∑ i, ∑ j, if j < i then pairGap (θ (0, i) + θ (0, j)) (θ (1, i) + θ (1, j)) (θ' (0, i) + θ' (0, j)) (θ' (1, i) + θ' (1, j)) else 0 := by
  have hll : ∀ t : Vec n, loglikelihood_ecm_exp t k s = ∑ i, -(k i * t (0, i) + s i * t (1, i)) -
      ∑ i, ∑ j, if j < i then pairZ (t (0, i) + t (0, j)) (t (1, i) + t (1, j)) else 0 := by
    intro t
    rw [ll_exp_eq, sum_add_distrib, sub_eq_add_neg, ← sum_neg_distrib]
    congr 1
    refine sum_congr rfl fun i _ => ?_
    rw [← sum_neg_distrib]
    refine sum_congr rfl fun j _ => ?_
    unfold pairZ
    split
    · simp only [neg_add, Real.exp_add]
    · simp
  have hg0 : ∀ i, loglikelihood_prime_ecm_exp θ k s (0, i) =
      (∑ j, if i = j then 0 else pairP (θ (0, i) + θ (0, j)) (θ (1, i) + θ (1, j))) - k i := by
    intro i
    rw [(C03_ecm_exp_residual θ k s h i).1, expected_eq0]
    congr 1
    refine sum_congr rfl fun j _ => ?_
    unfold pairP
    split
    · rfl
    · simp only [neg_add, Real.exp_add]
  have hg1 : ∀ i, loglikelihood_prime_ecm_exp θ k s (1, i) =
      (∑ j, if i = j then 0 else pairP (θ (0, i) + θ (0, j)) (θ (1, i) + θ (1, j)) * (1 / (1 - Real.exp (-(θ (1, i) + θ (1, j)))))) - s i := by
    intro i
    rw [(C03_ecm_exp_residual θ k s h i).2, expected_eq1]
    congr 1
    refine sum_congr rfl fun j _ => ?_
    unfold pairP
    split
    · rfl
    · rw [div_mul_div_comm, mul_one]
      simp only [neg_add, Real.exp_add]
  rw [Fintype.sum_prod_type, Fin.sum_univ_two]
  simp only [hg0, hg1, sub_mul, sum_sub_distrib, sum_mul, ite_mul, zero_mul, hll]
  rw [sum_lt_pairs (fun i j => pairP (θ (0, i) + θ (0, j)) (θ (1, i) + θ (1, j)) * (θ' (0, i) - θ (0, i))),
    sum_lt_pairs (fun i j => pairP (θ (0, i) + θ (0, j)) (θ (1, i) + θ (1, j)) * (1 / (1 - Real.exp (-(θ (1, i) + θ (1, j))))) * (θ' (1, i) - θ (1, i)))]
  have hlin : ∑ i, -(k i * θ (0, i) + s i * θ (1, i)) - ∑ i, k i * (θ' (0, i) - θ (0, i)) - ∑ i, s i * (θ' (1, i) - θ (1, i)) =
      ∑ i, -(k i * θ' (0, i) + s i * θ' (1, i)) := by
    rw [← sum_sub_distrib, ← sum_sub_distrib]; exact sum_congr rfl fun i _ => by ring
  have hpair : (∑ i, ∑ j, if j < i then pairGap (θ (0, i) + θ (0, j)) (θ (1, i) + θ (1, j)) (θ' (0, i) + θ' (0, j)) (θ' (1, i) + θ' (1, j)) else 0) =
      (∑ i, ∑ j, if j < i then pairZ (θ' (0, i) + θ' (0, j)) (θ' (1, i) + θ' (1, j)) else 0) -
      (∑ i, ∑ j, if j < i then pairZ (θ (0, i) + θ (0, j)) (θ (1, i) + θ (1, j)) else 0) +
      (∑ i, ∑ j, if j < i then pairP (θ (0, i) + θ (0, j)) (θ (1, i) + θ (1, j)) * (θ' (0, i) - θ (0, i)) +
        pairP (θ (0, j) + θ (0, i)) (θ (1, j) + θ (1, i)) * (θ' (0, j) - θ (0, j)) else 0) +
      ∑ i, ∑ j, if j < i then pairP (θ (0, i) + θ (0, j)) (θ (1, i) + θ (1, j)) * (1 / (1 - Real.exp (-(θ (1, i) + θ (1, j))))) * (θ' (1, i) - θ (1, i)) +
        pairP (θ (0, j) + θ (0, i)) (θ (1, j) + θ (1, i)) * (1 / (1 - Real.exp (-(θ (1, j) + θ (1, i))))) * (θ' (1, j) - θ (1, j)) else 0 := by
    rw [← sum_sub_distrib, ← sum_add_distrib, ← sum_add_distrib]
    refine sum_congr rfl fun i _ => ?_
    rw [← sum_sub_distrib, ← sum_add_distrib, ← sum_add_distrib]
    refine sum_congr rfl fun j _ => ?_
    split
    · rw [add_comm (θ (0, j)), add_comm (θ (1, j))]
      unfold pairGap; ring
    · simp
  rw [hpair]
  linarith

/-- C11 (ecm_exp): concavity on the admissible domain. -/
theorem C11_ecm_exp_tangent (θ θ' : Vec n) (k s : Fin n → ℝ) (h : AdmECMexp θ) (h' : AdmECMexp θ') :
    loglikelihood_ecm_exp θ' k s ≤ loglikelihood_ecm_exp θ k s + ∑ v, loglikelihood_prime_ecm_exp θ k s v * (θ' v - θ v) := by
  have := expansion_exp θ θ' k s h
  have h2 : 0 ≤ ∑ i, ∑ j, if j < i then pairGap (θ (0, i) + θ (0, j)) (θ (1, i) + θ (1, j)) (θ' (0, i) + θ' (0, j)) (θ' (1, i) + θ' (1, j)) else 0 :=
    sum_nonneg fun i _ => sum_nonneg fun j _ => by
      split
      · rename_i hlt; exact pairGap_nonneg (h i j hlt.ne') (h' i j hlt.ne')
      · exact le_rfl
  linarith

/-- C11 (ecm_exp): a zero of the gradient is the global maximum over the admissible domain. -/
theorem C11_ecm_exp_global_max (θ : Vec n) (k s : Fin n → ℝ) (h : AdmECMexp θ) (h0 : ∀ v, loglikelihood_prime_ecm_exp θ k s v = 0)
    (θ' : Vec n) (h' : AdmECMexp θ') : loglikelihood_ecm_exp θ' k s ≤ loglikelihood_ecm_exp θ k s := by
  have := C11_ecm_exp_tangent θ θ' k s h h'
  simpa [h0] using this

/-- C11 (ecm_exp): two zeros of the gradient give every pair of nodes the same multiplier sums, hence the same law of link and weight. -/
theorem C11_ecm_exp_unique (θ θ' : Vec n) (k s : Fin n → ℝ) (h : AdmECMexp θ) (h' : AdmECMexp θ')
    (h0 : ∀ v, loglikelihood_prime_ecm_exp θ k s v = 0) (h1 : ∀ v, loglikelihood_prime_ecm_exp θ' k s v = 0) (i j : Fin n) (hij : i ≠ j) :
    θ (0, i) + θ (0, j) = θ' (0, i) + θ' (0, j) ∧ θ (1, i) + θ (1, j) = θ' (1, i) + θ' (1, j) := by
  have e := expansion_exp θ θ' k s h
  have hle := C11_ecm_exp_global_max θ' k s h' h1 θ h
  have hle' := C11_ecm_exp_global_max θ k s h h0 θ' h'
  simp only [h0, zero_mul, sum_const_zero, add_zero] at e
  have hnn : ∀ i j, 0 ≤ if j < i then pairGap (θ (0, i) + θ (0, j)) (θ (1, i) + θ (1, j)) (θ' (0, i) + θ' (0, j)) (θ' (1, i) + θ' (1, j)) else 0 :=
    fun i j => by
      split
      · rename_i hlt; exact pairGap_nonneg (h i j hlt.ne') (h' i j hlt.ne')
      · exact le_rfl
  have hz : (∑ i, ∑ j, if j < i then pairGap (θ (0, i) + θ (0, j)) (θ (1, i) + θ (1, j)) (θ' (0, i) + θ' (0, j)) (θ' (1, i) + θ' (1, j)) else 0) = 0 := by linarith
  rw [sum_eq_zero_iff_of_nonneg (fun i _ => sum_nonneg fun j _ => hnn i j)] at hz
  have key : ∀ i j, j < i → θ (0, i) + θ (0, j) = θ' (0, i) + θ' (0, j) ∧ θ (1, i) + θ (1, j) = θ' (1, i) + θ' (1, j) := by
    intro i j hlt
    have hz2 := hz i (mem_univ i)
    rw [sum_eq_zero_iff_of_nonneg (fun j _ => hnn i j)] at hz2
    have hz3 := hz2 j (mem_univ j)
    rw [if_pos hlt] at hz3
    exact pairGap_eq_zero (h i j hlt.ne') (h' i j hlt.ne') hz3
  rcases lt_or_gt_of_ne hij with hlt | hlt
  · obtain ⟨a, b⟩ := key j i hlt
    exact ⟨by linarith, by linarith⟩
  · exact key i j hlt

/-- the hypotheses are met: three nodes with degree 1 and strength 2; `θ_x = 0`, `θ_y = (log 2)/2` is admissible and makes the gradient vanish -/
example : AdmECMexp (n := 3) (fun v => if v.1 = 0 then 0 else Real.log 2 / 2) ∧
    ∀ v, loglikelihood_prime_ecm_exp (n := 3) (fun v => if v.1 = 0 then 0 else Real.log 2 / 2) (fun _ => 1) (fun _ => 2) v = 0 := by
  have hl : (0 : ℝ) < Real.log 2 := Real.log_pos (by norm_num)
  have ha : AdmECMexp (n := 3) (fun v => if v.1 = 0 then 0 else Real.log 2 / 2) := by
    intro i j _; simpa using hl
  have he : Real.exp (-(Real.log 2 / 2)) * Real.exp (-(Real.log 2 / 2)) = 1 / 2 := by
    rw [← Real.exp_add, show -(Real.log 2 / 2) + -(Real.log 2 / 2) = -Real.log 2 by ring, Real.exp_neg, Real.exp_log (by norm_num)]
    norm_num
  refine ⟨ha, ?_⟩
  rintro ⟨b, i⟩
  match b with
  | 0 =>
    rw [(C03_ecm_exp_residual _ _ _ ha i).1, expected_eq0]
    fin_cases i <;> simp [Fin.sum_univ_three, he] <;> norm_num
  | 1 =>
    rw [(C03_ecm_exp_residual _ _ _ ha i).2, expected_eq1]
    fin_cases i <;> simp [Fin.sum_univ_three, he] <;> norm_num

end Verif.ECM

namespace Verif.DECM

open Finset Verif.Concave Spec

variable {n : ℕ}

/-- C04 (decm), quantitative: each gradient component times its parameter is observed minus expected. -/
theorem C04_decm_residual (x : Vec n) (ko ki so si : Fin n → ℝ) (v : Fin 4 × Fin n) (hx : x v ≠ 0) :
    x v * loglikelihood_prime_decm x ko ki so si v = obs ko ki so si v - expected_decm x v := by
  obtain ⟨b, i⟩ := v
  obtain ⟨p0, p1, p2, p3⟩ := prime_eq x ko ki so si i
  obtain ⟨e0, e1, e2, e3⟩ := expected_eq x i
  match b with
  | 0 => rw [p0, e0, mul_sub, mul_div_cancel₀ _ hx]; rfl
  | 1 => rw [p1, e1, mul_sub, mul_div_cancel₀ _ hx]; rfl
  | 2 => rw [p2, e2, mul_sub, mul_div_cancel₀ _ hx, fb_out_prime_eq, ← fb_out_eq]; rfl
  | 3 => rw [p3, e3, mul_sub, mul_div_cancel₀ _ hx, fb_in_prime_eq, ← fb_in_eq]; rfl

/-- C04 (decm_exp), quantitative: each gradient component is expected minus observed. -/
theorem C04_decm_exp_residual (θ : Vec n) (ko ki so si : Fin n → ℝ) (h : AdmDECMexp θ) (v : Fin 4 × Fin n) :
    loglikelihood_prime_decm_exp θ ko ki so si v = expected_decm_exp θ v - obs ko ki so si v := by
  have := C04_decm_residual (fun v => Real.exp (-θ v)) ko ki so si v (Real.exp_pos _).ne'
  rw [C09_decm_gradients _ _ _ _ _ h, expected_decm_exp]
  linarith

/-- the exact expansion -/
theorem expansion_exp (θ θ' : Vec n) (ko ki so si : Fin n → ℝ) (h : AdmDECMexp θ) :
    loglikelihood_decm_exp θ ko ki so si + ∑ v, loglikelihood_prime_decm_exp θ ko ki so si v * (θ' v - θ v) - loglikelihood_decm_exp θ' ko ki so si =
      ∑ i, ∑ j, if i = j then 0 else pairGap (θ (0, i) + θ (1, j)) (θ (2, i) + θ (3, j)) (θ' (0, i) + θ' (1, j)) (θ' (2, i) + θ' (3, j)) := by
  have hll : ∀ t : Vec n, loglikelihood_decm_exp t ko ki so si =
      ∑ i, (-(ko i * t (0, i)) + (-(ki i * t (1, i)) + (-(so i * t (2, i)) + -(si i * t (3, i))))) -
      ∑ i, ∑ j, if i = j then 0 else pairZ (t (0, i) + t (1, j)) (t (2, i) + t (3, j)) := by
    intro t
    rw [ll_exp_eq, ← sum_sub_distrib]
    refine sum_congr rfl fun i _ => ?_
    have : (∑ j, if i = j then 0 else -Real.log (1 + X (ex t) i j * Y (ex t) i j / (1 - Y (ex t) i j))) =
        -∑ j, if i = j then 0 else pairZ (t (0, i) + t (1, j)) (t (2, i) + t (3, j)) := by
      rw [← sum_neg_distrib]
      refine sum_congr rfl fun j _ => ?_
      unfold pairZ X Y ex
      split
      · simp
      · simp only [neg_add, Real.exp_add, mul_div_assoc]
    rw [this]; ring
  have den : ∀ i j : Fin n, i ≠ j → (0 : ℝ) < 1 - Real.exp (-θ (2, i)) * Real.exp (-θ (3, j)) := by
    intro i j hij
    have := one_sub_exp_pos (h i j hij)
    rwa [neg_add, Real.exp_add] at this
  have hE := expected_eq (fun v => Real.exp (-θ v))
  have hg0 : ∀ i, loglikelihood_prime_decm_exp θ ko ki so si (0, i) =
      (∑ j, if i = j then 0 else pairP (θ (0, i) + θ (1, j)) (θ (2, i) + θ (3, j))) - ko i := by
    intro i
    rw [C04_decm_exp_residual θ ko ki so si h, expected_decm_exp, (hE i).1, fa_out_eq, mul_sum]
    refine congrArg₂ (· - ·) (sum_congr rfl fun j _ => ?_) rfl
    unfold pairP P
    split
    · simp
    · simp only [neg_add, Real.exp_add]; ring
  have hg1 : ∀ j, loglikelihood_prime_decm_exp θ ko ki so si (1, j) =
      (∑ i, if i = j then 0 else pairP (θ (0, i) + θ (1, j)) (θ (2, i) + θ (3, j))) - ki j := by
    intro i
    rw [C04_decm_exp_residual θ ko ki so si h, expected_decm_exp, (hE i).2.1, fa_in_eq, mul_sum]
    refine congrArg₂ (· - ·) (sum_congr rfl fun j _ => ?_) rfl
    unfold pairP P
    by_cases hij : i = j
    · simp [hij]
    · rw [if_neg hij, if_neg (Ne.symm hij)]
      simp only [neg_add, Real.exp_add]
      rw [mul_comm (Real.exp (-θ (3, i))), mul_comm (Real.exp (-θ (1, i))) (Real.exp (-θ (0, j)))]; ring
  have hg2 : ∀ i, loglikelihood_prime_decm_exp θ ko ki so si (2, i) =
      (∑ j, if i = j then 0 else pairP (θ (0, i) + θ (1, j)) (θ (2, i) + θ (3, j)) * (1 / (1 - Real.exp (-(θ (2, i) + θ (3, j)))))) - so i := by
    intro i
    rw [C04_decm_exp_residual θ ko ki so si h, expected_decm_exp, (hE i).2.2.1, fb_out_eq, mul_sum]
    refine congrArg₂ (· - ·) (sum_congr rfl fun j _ => ?_) rfl
    unfold pairP Q
    split
    · simp
    · rename_i hij
      have h1 := den i j hij
      simp only [neg_add, Real.exp_add]
      have h2 : (0 : ℝ) < 1 - Real.exp (-θ (2, i)) * Real.exp (-θ (3, j)) + Real.exp (-θ (0, i)) * Real.exp (-θ (1, j)) * (Real.exp (-θ (2, i)) * Real.exp (-θ (3, j))) := by
        positivity
      field_simp
      ring
  have hg3 : ∀ j, loglikelihood_prime_decm_exp θ ko ki so si (3, j) =
      (∑ i, if i = j then 0 else pairP (θ (0, i) + θ (1, j)) (θ (2, i) + θ (3, j)) * (1 / (1 - Real.exp (-(θ (2, i) + θ (3, j)))))) - si j := by
    intro i
    rw [C04_decm_exp_residual θ ko ki so si h, expected_decm_exp, (hE i).2.2.2, fb_in_eq, mul_sum]
    refine congrArg₂ (· - ·) (sum_congr rfl fun j _ => ?_) rfl
    unfold pairP Q
    by_cases hij : i = j
    · simp [hij]
    · rw [if_neg hij, if_neg (Ne.symm hij)]
      have h1 := den j i (Ne.symm hij)
      simp only [neg_add, Real.exp_add]
      have h2 : (0 : ℝ) < 1 - Real.exp (-θ (2, j)) * Real.exp (-θ (3, i)) + Real.exp (-θ (0, j)) * Real.exp (-θ (1, i)) * (Real.exp (-θ (2, j)) * Real.exp (-θ (3, i))) := by
        positivity
      have h1' : (1 : ℝ) - Real.exp (-θ (3, i)) * Real.exp (-θ (2, j)) ≠ 0 := by rw [mul_comm]; exact h1.ne'
      have h2' : (1 : ℝ) - Real.exp (-θ (3, i)) * Real.exp (-θ (2, j)) + Real.exp (-θ (1, i)) * Real.exp (-θ (0, j)) * (Real.exp (-θ (3, i)) * Real.exp (-θ (2, j))) ≠ 0 := by
        rw [mul_comm (Real.exp (-θ (3, i))), mul_comm (Real.exp (-θ (1, i)))]; exact h2.ne'
      rw [mul_comm (Real.exp (-θ (2, j))) (Real.exp (-θ (3, i))), mul_comm (Real.exp (-θ (0, j))) (Real.exp (-θ (1, i)))] at *
      generalize Real.exp (-θ (3, i)) = A, Real.exp (-θ (2, j)) = B, Real.exp (-θ (1, i)) = C, Real.exp (-θ (0, j)) = D at *
      rw [div_add_div _ _ h1' h2', div_mul_div_comm, ← mul_div_assoc, div_eq_div_iff (mul_ne_zero h1' h2') (mul_ne_zero h2' h1')]
      ring
  rw [Fintype.sum_prod_type, Fin.sum_univ_four]
  simp only [hg0, hg1, hg2, hg3, sub_mul, sum_sub_distrib, sum_mul, ite_mul, zero_mul, hll]
  rw [sum_comm (f := fun j i => if i = j then 0 else pairP (θ (0, i) + θ (1, j)) (θ (2, i) + θ (3, j)) * (θ' (1, j) - θ (1, j))),
    sum_comm (f := fun j i => if i = j then 0 else pairP (θ (0, i) + θ (1, j)) (θ (2, i) + θ (3, j)) *
      (1 / (1 - Real.exp (-(θ (2, i) + θ (3, j))))) * (θ' (3, j) - θ (3, j)))]
  have hlin : ∑ i, (-(ko i * θ (0, i)) + (-(ki i * θ (1, i)) + (-(so i * θ (2, i)) + -(si i * θ (3, i))))) -
      ∑ i, ko i * (θ' (0, i) - θ (0, i)) - ∑ i, ki i * (θ' (1, i) - θ (1, i)) - ∑ i, so i * (θ' (2, i) - θ (2, i)) - ∑ i, si i * (θ' (3, i) - θ (3, i)) =
      ∑ i, (-(ko i * θ' (0, i)) + (-(ki i * θ' (1, i)) + (-(so i * θ' (2, i)) + -(si i * θ' (3, i))))) := by
    rw [← sum_sub_distrib, ← sum_sub_distrib, ← sum_sub_distrib, ← sum_sub_distrib]; exact sum_congr rfl fun i _ => by ring
  have hpair : (∑ i, ∑ j, if i = j then 0 else pairGap (θ (0, i) + θ (1, j)) (θ (2, i) + θ (3, j)) (θ' (0, i) + θ' (1, j)) (θ' (2, i) + θ' (3, j))) =
      (∑ i, ∑ j, if i = j then 0 else pairZ (θ' (0, i) + θ' (1, j)) (θ' (2, i) + θ' (3, j))) -
      (∑ i, ∑ j, if i = j then 0 else pairZ (θ (0, i) + θ (1, j)) (θ (2, i) + θ (3, j))) +
      (∑ i, ∑ j, if i = j then 0 else pairP (θ (0, i) + θ (1, j)) (θ (2, i) + θ (3, j)) * (θ' (0, i) - θ (0, i))) +
      (∑ i, ∑ j, if i = j then 0 else pairP (θ (0, i) + θ (1, j)) (θ (2, i) + θ (3, j)) * (θ' (1, j) - θ (1, j))) +
      (∑ i, ∑ j, if i = j then 0 else pairP (θ (0, i) + θ (1, j)) (θ (2, i) + θ (3, j)) * (1 / (1 - Real.exp (-(θ (2, i) + θ (3, j))))) * (θ' (2, i) - θ (2, i))) +
      ∑ i, ∑ j, if i = j then 0 else pairP (θ (0, i) + θ (1, j)) (θ (2, i) + θ (3, j)) * (1 / (1 - Real.exp (-(θ (2, i) + θ (3, j))))) * (θ' (3, j) - θ (3, j)) := by
    rw [← sum_sub_distrib, ← sum_add_distrib, ← sum_add_distrib, ← sum_add_distrib, ← sum_add_distrib]
    refine sum_congr rfl fun i _ => ?_
    rw [← sum_sub_distrib, ← sum_add_distrib, ← sum_add_distrib, ← sum_add_distrib, ← sum_add_distrib]
    refine sum_congr rfl fun j _ => ?_
    split
    · simp
    · unfold pairGap; ring
  rw [hpair]
  linarith

/-- C11 (decm_exp): concavity on the admissible domain. -/
theorem C11_decm_exp_tangent (θ θ' : Vec n) (ko ki so si : Fin n → ℝ) (h : AdmDECMexp θ) (h' : AdmDECMexp θ') :
    loglikelihood_decm_exp θ' ko ki so si ≤
      loglikelihood_decm_exp θ ko ki so si + ∑ v, loglikelihood_prime_decm_exp θ ko ki so si v * (θ' v - θ v) := by
  have := expansion_exp θ θ' ko ki so si h
  have h2 : 0 ≤ ∑ i, ∑ j, if i = j then 0 else pairGap (θ (0, i) + θ (1, j)) (θ (2, i) + θ (3, j)) (θ' (0, i) + θ' (1, j)) (θ' (2, i) + θ' (3, j)) :=
    sum_nonneg fun i _ => sum_nonneg fun j _ => by
      split
      · exact le_rfl
      · rename_i hne; exact pairGap_nonneg (h i j hne) (h' i j hne)
  linarith

/-- C11 (decm_exp): a zero of the gradient is the global maximum over the admissible domain. -/
theorem C11_decm_exp_global_max (θ : Vec n) (ko ki so si : Fin n → ℝ) (h : AdmDECMexp θ)
    (h0 : ∀ v, loglikelihood_prime_decm_exp θ ko ki so si v = 0)
    (θ' : Vec n) (h' : AdmDECMexp θ') : loglikelihood_decm_exp θ' ko ki so si ≤ loglikelihood_decm_exp θ ko ki so si := by
  have := C11_decm_exp_tangent θ θ' ko ki so si h h'
  simpa [h0] using this

/-- C11 (decm_exp): two zeros of the gradient give every ordered pair the same multiplier sums, hence the same law of link and weight. -/
theorem C11_decm_exp_unique (θ θ' : Vec n) (ko ki so si : Fin n → ℝ) (h : AdmDECMexp θ) (h' : AdmDECMexp θ')
    (h0 : ∀ v, loglikelihood_prime_decm_exp θ ko ki so si v = 0) (h1 : ∀ v, loglikelihood_prime_decm_exp θ' ko ki so si v = 0)
    (i j : Fin n) (hij : i ≠ j) :
    θ (0, i) + θ (1, j) = θ' (0, i) + θ' (1, j) ∧ θ (2, i) + θ (3, j) = θ' (2, i) + θ' (3, j) := by
  have e := expansion_exp θ θ' ko ki so si h
  have hle := C11_decm_exp_global_max θ' ko ki so si h' h1 θ h
  have hle' := C11_decm_exp_global_max θ ko ki so si h h0 θ' h'
  simp only [h0, zero_mul, sum_const_zero, add_zero] at e
  have hnn : ∀ i j, 0 ≤ if i = j then 0 else pairGap (θ (0, i) + θ (1, j)) (θ (2, i) + θ (3, j)) (θ' (0, i) + θ' (1, j)) (θ' (2, i) + θ' (3, j)) :=
    fun i j => by
      split
      · exact le_rfl
      · rename_i hne; exact pairGap_nonneg (h i j hne) (h' i j hne)
  have hz : (∑ i, ∑ j, if i = j then 0 else pairGap (θ (0, i) + θ (1, j)) (θ (2, i) + θ (3, j)) (θ' (0, i) + θ' (1, j)) (θ' (2, i) + θ' (3, j))) = 0 := by linarith
  rw [sum_eq_zero_iff_of_nonneg (fun i _ => sum_nonneg fun j _ => hnn i j)] at hz
  have hz2 := hz i (mem_univ i)
  rw [sum_eq_zero_iff_of_nonneg (fun j _ => hnn i j)] at hz2
  have hz3 := hz2 j (mem_univ j)
  rw [if_neg hij] at hz3
  exact pairGap_eq_zero (h i j hij) (h' i j hij) hz3

/-- the hypotheses are met: three nodes with all degrees 1 and all strengths 2; `θ = 0` except `θ_{b_out} = log 2` is admissible and makes the
gradient vanish -/
example : AdmDECMexp (n := 3) (fun v => if v.1 = 2 then Real.log 2 else 0) ∧
    ∀ v, loglikelihood_prime_decm_exp (n := 3) (fun v => if v.1 = 2 then Real.log 2 else 0) (fun _ => 1) (fun _ => 1) (fun _ => 2) (fun _ => 2) v = 0 := by
  have hl : (0 : ℝ) < Real.log 2 := Real.log_pos (by norm_num)
  have ha : AdmDECMexp (n := 3) (fun v => if v.1 = 2 then Real.log 2 else 0) := by
    intro i j _; simpa using hl
  have he : Real.exp (-Real.log 2) = 1 / 2 := by
    rw [Real.exp_neg, Real.exp_log (by norm_num)]; norm_num
  refine ⟨ha, ?_⟩
  rintro ⟨b, i⟩
  rw [C04_decm_exp_residual _ _ _ _ _ ha, expected_decm_exp]
  obtain ⟨e0, e1, e2, e3⟩ := expected_eq (fun v : Fin 4 × Fin 3 => Real.exp (-(if v.1 = 2 then Real.log 2 else 0))) i
  match b with
  | 0 => rw [e0, fa_out_eq]; fin_cases i <;> simp [Fin.sum_univ_three, P, obs, he] <;> norm_num
  | 1 => rw [e1, fa_in_eq]; fin_cases i <;> simp [Fin.sum_univ_three, P, obs, he] <;> norm_num
  | 2 => rw [e2, fb_out_eq]; fin_cases i <;> simp [Fin.sum_univ_three, Q, obs, he] <;> norm_num
  | 3 => rw [e3, fb_in_eq]; fin_cases i <;> simp [Fin.sum_univ_three, Q, obs, he] <;> norm_num

end Verif.DECM
