import Verif.Lemmas.Ensemble
import Verif.Props.Motif

/-! C30 (dyad expectation and variance), C31 (triad expectation), C32 (triad standard deviation), C43 (z-scores).

`expect`, `variance`, `diAdj`, `dcmProb` are the independent-arcs ensemble of `Spec/Ensemble.lean`. -/

namespace Verif.Ens

open Finset Spec Verif.Motif

variable {n : ℕ}

theorem pr_eq (sol : Vec n) (i j : Fin n) : pr sol i j = dcmProb sol (i, j) := rfl

/-- C31: every expected triad count is the exact expectation of the corresponding counter over the ensemble of independent arcs with the DBCM
probabilities. -/
theorem C31_expected_triads (sol : Vec n) (m : Fin 13) : expected3 m sol = expect (dcmProb sol) (fun ω => count3 m (diAdj ω)) := by
  rw [expect_count3, expected3_eq]; rfl

/-- the family `expected3` lists the thirteen API functions in order -/
theorem C31_api (sol : Vec n) :
    expected_dcm_3motif_1 sol = expected3 0 sol ∧ expected_dcm_3motif_2 sol = expected3 1 sol ∧ expected_dcm_3motif_3 sol = expected3 2 sol ∧
    expected_dcm_3motif_4 sol = expected3 3 sol ∧ expected_dcm_3motif_5 sol = expected3 4 sol ∧ expected_dcm_3motif_6 sol = expected3 5 sol ∧
    expected_dcm_3motif_7 sol = expected3 6 sol ∧ expected_dcm_3motif_8 sol = expected3 7 sol ∧ expected_dcm_3motif_9 sol = expected3 8 sol ∧
    expected_dcm_3motif_10 sol = expected3 9 sol ∧ expected_dcm_3motif_11 sol = expected3 10 sol ∧ expected_dcm_3motif_12 sol = expected3 11 sol ∧
    expected_dcm_3motif_13 sol = expected3 12 sol :=
  ⟨rfl, rfl, rfl, rfl, rfl, rfl, rfl, rfl, rfl, rfl, rfl, rfl, rfl⟩

/-- C32: the triad standard deviations implement first-order error propagation: for every arc `(i, j)` let `D i j` be the derivative of the exact expected count
with respect to the probability of that arc (all other probabilities fixed); then `std` is the square root of `Σ_{i≠j} p_ij (1 - p_ij) D_ij²`. -/
theorem C32_std_delta_method (sol : Vec n) (m : Fin 13) :
    ∃ D : Fin n → Fin n → ℝ,
      (∀ i j, i ≠ j → HasDerivAt (fun t => expect (Function.update (dcmProb sol) (i, j) t) (fun ω => count3 m (diAdj ω))) (D i j) (dcmProb sol (i, j))) ∧
      std3 m sol = Real.sqrt (∑ i, ∑ j, if i ≠ j then dcmProb sol (i, j) * (1 - dcmProb sol (i, j)) * D i j ^ 2 else 0) := by
  let p := dcmProb sol
  refine ⟨fun u v => ∑ w, if v ≠ w ∧ u ≠ w then delta6 (term6 m) (p (u, v)) (p (v, u)) (p (u, w)) (p (w, u)) (p (v, w)) (p (w, v)) else 0, ?_, ?_⟩
  · intro u v huv
    have hfun : (fun t => expect (Function.update (dcmProb sol) (u, v) t) (fun ω => count3 m (diAdj ω))) =
        fun t => T6 (term6 m) (fun i j => Function.update p (u, v) 0 (i, j)) + t * (∑ w, if v ≠ w ∧ u ≠ w then
          delta6 (term6 m) (p (u, v)) (p (v, u)) (p (u, w)) (p (w, u)) (p (v, w)) (p (w, v)) else 0) := by
      funext t
      rw [expect_count3, ← delta_T6 _ _ u v huv]
      exact multiAffine_T6 (term6 m) (term6_affine m) p (u, v) t
    rw [hfun]
    have h1 : HasDerivAt (fun t : ℝ => t * (∑ w, if v ≠ w ∧ u ≠ w then
          delta6 (term6 m) (p (u, v)) (p (v, u)) (p (u, w)) (p (w, u)) (p (v, w)) (p (w, v)) else 0)) _ (dcmProb sol (u, v)) :=
      (hasDerivAt_id _).mul_const _
    rw [one_mul] at h1
    exact h1.const_add _
  · rw [std3_eq]
    unfold stdSpec
    congr 1
    rw [sum_comm]
    refine sum_congr rfl fun i _ => sum_congr rfl fun j _ => ?_
    by_cases h : i = j
    · simp [h]
    · rw [if_pos h, if_pos (Ne.symm h)]
      simp only [deltaCode, pr_eq]
      rw [mul_comm (1 - dcmProb sol (i, j))]

/-- the family `std3` lists the thirteen API functions in order -/
theorem C32_api (sol : Vec n) :
    std_dcm_3motif_1 sol = std3 0 sol ∧ std_dcm_3motif_2 sol = std3 1 sol ∧ std_dcm_3motif_3 sol = std3 2 sol ∧
    std_dcm_3motif_4 sol = std3 3 sol ∧ std_dcm_3motif_5 sol = std3 4 sol ∧ std_dcm_3motif_6 sol = std3 5 sol ∧
    std_dcm_3motif_7 sol = std3 6 sol ∧ std_dcm_3motif_8 sol = std3 7 sol ∧ std_dcm_3motif_9 sol = std3 8 sol ∧
    std_dcm_3motif_10 sol = std3 9 sol ∧ std_dcm_3motif_11 sol = std3 10 sol ∧ std_dcm_3motif_12 sol = std3 11 sol ∧
    std_dcm_3motif_13 sol = std3 12 sol :=
  ⟨rfl, rfl, rfl, rfl, rfl, rfl, rfl, rfl, rfl, rfl, rfl, rfl, rfl⟩

/-! ### C30: dyads -/

/-- unordered pairs -/
def pairs (n : ℕ) : Finset (Fin n × Fin n) := univ.filter fun e => e.1 < e.2

theorem sum_pairs (g : Fin n → Fin n → ℝ) (hs : ∀ i j, g i j = g j i) :
    (∑ i, ∑ j, if i ≠ j then g i j else 0) = 2 * ∑ e ∈ pairs n, g e.1 e.2 := by
  have h1 : ∀ i j : Fin n, (if i ≠ j then g i j else 0) = (if i < j then g i j else 0) + (if j < i then g i j else 0) := by
    intro i j
    rcases lt_trichotomy i j with h | h | h
    · simp [h, h.ne, not_lt_of_gt h]
    · simp [h]
    · simp [h, h.ne', not_lt_of_gt h]
  simp only [h1, sum_add_distrib]
  rw [two_mul]
  have h2 : ∑ i, ∑ j, (if i < j then g i j else 0) = ∑ e ∈ pairs n, g e.1 e.2 := by
    rw [pairs, sum_filter, Fintype.sum_prod_type]
  congr 1
  rw [sum_comm, ← h2]
  exact sum_congr rfl fun i _ => sum_congr rfl fun j _ => by rw [hs]

/-- a function of the two arcs of a pair that is affine in each and symmetric -/
structure Dyad (f : ℝ → ℝ → ℝ) : Prop where
  aff : ∀ t b, f t b = f 0 b + t * (f 1 b - f 0 b)
  symm : ∀ a b, f a b = f b a
  sq : ∀ a b : Bool, f (Spec.val a) (Spec.val b) ^ 2 = f (Spec.val a) (Spec.val b)

theorem dyad_affine (f : ℝ → ℝ → ℝ) (hf : Dyad f) (e : Fin n × Fin n) (he : e ∈ pairs n) :
    MultiAffine (fun x : Fin n × Fin n → ℝ => f (x (e.1, e.2)) (x (e.2, e.1))) := by
  have hne : e.1 ≠ e.2 := by simp only [pairs, mem_filter] at he; exact he.2.ne
  intro x e' t
  by_cases h1 : e' = (e.1, e.2)
  · subst h1
    simp only [Function.update_apply, Prod.mk.injEq, hne, Ne.symm hne, and_self, if_true, if_false]
    exact hf.aff _ _
  by_cases h2 : e' = (e.2, e.1)
  · subst h2
    simp only [Function.update_apply, Prod.mk.injEq, hne, Ne.symm hne, and_self, if_true, if_false]
    rw [hf.symm, hf.symm _ 0, hf.symm _ 1]
    exact hf.aff _ _
  simp only [Function.update_apply, Ne.symm h1, Ne.symm h2, if_false]
  ring

theorem dyad_disjoint (f : ℝ → ℝ → ℝ) (e : Fin n × Fin n) (he : e ∈ pairs n) (e' : Fin n × Fin n) (he' : e' ∈ pairs n) (hne : e ≠ e') (d : Fin n × Fin n) :
    (∀ (x : Fin n × Fin n → ℝ) t, f (Function.update x d t (e.1, e.2)) (Function.update x d t (e.2, e.1)) = f (x (e.1, e.2)) (x (e.2, e.1))) ∨
    ∀ (x : Fin n × Fin n → ℝ) t, f (Function.update x d t (e'.1, e'.2)) (Function.update x d t (e'.2, e'.1)) = f (x (e'.1, e'.2)) (x (e'.2, e'.1)) := by
  simp only [pairs, mem_filter, mem_univ, true_and] at he he'
  by_cases h : d = (e.1, e.2) ∨ d = (e.2, e.1)
  · right
    intro x t
    have h1 : (e'.1, e'.2) ≠ d := by
      rintro rfl
      rcases h with h | h
      · exact hne h.symm
      · have := Prod.mk.inj h; rw [this.1, this.2] at he'; exact absurd he (not_lt_of_gt he')
    have h2 : (e'.2, e'.1) ≠ d := by
      rintro rfl
      rcases h with h | h
      · have := Prod.mk.inj h; rw [this.1, this.2] at he'; exact absurd he (not_lt_of_gt he')
      · have := Prod.mk.inj h; exact hne (Prod.ext this.2.symm this.1.symm)
    rw [Function.update_of_ne h1, Function.update_of_ne h2]
  · left
    push Not at h
    intro x t
    rw [Function.update_of_ne (Ne.symm h.1), Function.update_of_ne (Ne.symm h.2)]

theorem dyad_expect (f : ℝ → ℝ → ℝ) (hf : Dyad f) (p : Fin n × Fin n → ℝ) :
    expect p (fun ω => ∑ e ∈ pairs n, f (Spec.val (ω (e.1, e.2))) (Spec.val (ω (e.2, e.1)))) = ∑ e ∈ pairs n, f (p (e.1, e.2)) (p (e.2, e.1)) := by
  rw [expect_sum]
  exact sum_congr rfl fun e he => expect_multiAffine p _ (dyad_affine f hf e he)

theorem dyad_variance (f : ℝ → ℝ → ℝ) (hf : Dyad f) (p : Fin n × Fin n → ℝ) :
    variance p (fun ω => ∑ e ∈ pairs n, f (Spec.val (ω (e.1, e.2))) (Spec.val (ω (e.2, e.1)))) =
      ∑ e ∈ pairs n, f (p (e.1, e.2)) (p (e.2, e.1)) * (1 - f (p (e.1, e.2)) (p (e.2, e.1))) :=
  variance_indicators (pairs n) p (fun e x => f (x (e.1, e.2)) (x (e.2, e.1))) (fun e he => dyad_affine f hf e he)
    (fun e he e' he' hne d => dyad_disjoint f e he e' he' hne d) (fun _ _ _ => hf.sq _ _)

theorem dyad2 : Dyad fun a b => a * b :=
  ⟨fun t b => by ring, fun a b => by ring, fun a b => by cases a <;> cases b <;> simp [Spec.val]⟩
theorem dyad1 : Dyad fun a b => a * (1 - b) + b * (1 - a) :=
  ⟨fun t b => by ring, fun a b => by ring, fun a b => by cases a <;> cases b <;> simp [Spec.val]⟩
theorem dyad0 : Dyad fun a b => (1 - a) * (1 - b) :=
  ⟨fun t b => by ring, fun a b => by ring, fun a b => by cases a <;> cases b <;> simp [Spec.val]⟩

/-- the arcs of a sampled graph, as a relation -/
def arc (ω : Fin n × Fin n → Bool) (i j : Fin n) : Prop := i ≠ j ∧ ω (i, j) = true

theorem diAdj_adj (ω : Fin n × Fin n → Bool) : diAdj ω = adj (arc ω) := by
  funext i j
  by_cases h : arc ω i j
  · rw [adj_pos h]; exact if_pos h
  · rw [adj_neg h]; exact if_neg h

theorem card_pairs_sum (P : Fin n → Fin n → Prop) {_ : DecidablePred fun e : Fin n × Fin n => P e.1 e.2} (f : ℝ → ℝ → ℝ) (hf : Dyad f) (ω : Fin n × Fin n → Bool)
    (h1 : ∀ i j, P i j → i ≠ j ∧ f (Spec.val (ω (i, j))) (Spec.val (ω (j, i))) = 1)
    (h0 : ∀ i j, i ≠ j → ¬ P i j → f (Spec.val (ω (i, j))) (Spec.val (ω (j, i))) = 0) :
    ((univ.filter fun e : Fin n × Fin n => P e.1 e.2).card : ℝ) = 2 * ∑ e ∈ pairs n, f (Spec.val (ω (e.1, e.2))) (Spec.val (ω (e.2, e.1))) := by
  rw [← sum_pairs (fun i j => f (Spec.val (ω (i, j))) (Spec.val (ω (j, i)))) (fun i j => hf.symm _ _), card_filter]
  push_cast
  rw [← Fintype.sum_prod_type (fun e : Fin n × Fin n => if e.1 ≠ e.2 then f (Spec.val (ω (e.1, e.2))) (Spec.val (ω (e.2, e.1))) else 0)]
  refine sum_congr rfl fun e _ => ?_
  by_cases h : P e.1 e.2
  · rw [if_pos h, if_pos (h1 _ _ h).1, (h1 _ _ h).2]
  · rw [if_neg h]
    by_cases hne : e.1 = e.2
    · rw [if_neg (not_not.2 hne)]
    · rw [if_pos hne, h0 _ _ hne h]

theorem count2_eq (ω : Fin n × Fin n → Bool) : (count_2motif_2 (diAdj ω) : ℝ) =
    2 * ∑ e ∈ pairs n, Spec.val (ω (e.1, e.2)) * Spec.val (ω (e.2, e.1)) := by
  rw [diAdj_adj, C28_mutual _ (fun i h => h.1 rfl)]
  refine card_pairs_sum (fun i j => arc ω i j ∧ arc ω j i) _ dyad2 ω (fun i j h => ⟨h.1.1, ?_⟩) (fun i j hne h => ?_)
  · simp [h.1.2, h.2.2, Spec.val]
  · cases h1 : ω (i, j) <;> cases h2 : ω (j, i) <;> simp [Spec.val]
    exact h ⟨⟨hne, h1⟩, hne.symm, h2⟩

theorem count0_eq (ω : Fin n × Fin n → Bool) : (count_2motif_0 (diAdj ω) : ℝ) =
    2 * ∑ e ∈ pairs n, (1 - Spec.val (ω (e.1, e.2))) * (1 - Spec.val (ω (e.2, e.1))) := by
  rw [diAdj_adj, C28_null _ (fun i h => h.1 rfl)]
  push_cast
  refine card_pairs_sum (fun i j => i ≠ j ∧ ¬ arc ω i j ∧ ¬ arc ω j i) _ dyad0 ω (fun i j h => ⟨h.1, ?_⟩) (fun i j hne h => ?_)
  · have h1 : ω (i, j) = false := by
      cases h1 : ω (i, j)
      · rfl
      · exact absurd ⟨h.1, h1⟩ h.2.1
    have h2 : ω (j, i) = false := by
      cases h1 : ω (j, i)
      · rfl
      · exact absurd ⟨h.1.symm, h1⟩ h.2.2
    simp [h1, h2, Spec.val]
  · cases h1 : ω (i, j) <;> cases h2 : ω (j, i) <;> simp [Spec.val]
    exact h ⟨hne, fun h => by simp [arc, h1] at h, fun h => by simp [arc, h2] at h⟩

theorem count1_eq (ω : Fin n × Fin n → Bool) : (count_2motif_1 (diAdj ω) : ℝ) =
    ∑ e ∈ pairs n, (Spec.val (ω (e.1, e.2)) * (1 - Spec.val (ω (e.2, e.1))) + Spec.val (ω (e.2, e.1)) * (1 - Spec.val (ω (e.1, e.2)))) := by
  have h := ones_card (arc ω)
  rw [← C28_single, ← diAdj_adj] at h
  have h' : ((univ.filter fun e : Fin n × Fin n => diAdj ω e.1 e.2 + diAdj ω e.2 e.1 = 1).card : ℝ) = 2 * (count_2motif_1 (diAdj ω) : ℝ) := by
    exact_mod_cast h
  have h2 : ((univ.filter fun e : Fin n × Fin n => diAdj ω e.1 e.2 + diAdj ω e.2 e.1 = 1).card : ℝ) = _ :=
    card_pairs_sum (fun i j => diAdj ω i j + diAdj ω j i = 1) _ dyad1 ω (fun i j h => by
      have hne : i ≠ j := by rintro rfl; simp [diAdj] at h
      refine ⟨hne, ?_⟩
      rw [diAdj_off ω i j hne, diAdj_off ω j i hne.symm] at h
      cases h1 : ω (i, j) <;> cases h2 : ω (j, i) <;> simp [h1, h2, Spec.val] at h ⊢) (fun i j hne h => by
      rw [diAdj_off ω i j hne, diAdj_off ω j i hne.symm] at h
      cases h1 : ω (i, j) <;> cases h2 : ω (j, i) <;> simp [h1, h2, Spec.val] at h ⊢)
  rw [h'] at h2
  linarith

theorem one_add_ne (sol : Vec n) (hs : ∀ v, 0 ≤ sol v) (i j : Fin n) : (1 : ℝ) + sol (0, i) * sol (1, j) ≠ 0 := by
  have := mul_nonneg (hs (0, i)) (hs (1, j)); linarith

theorem sum_sub_diag (g : Fin n → Fin n → ℝ) : (∑ i, (∑ j, g i j - g i i)) = ∑ i, ∑ j, if i ≠ j then g i j else 0 := by
  refine sum_congr rfl fun i _ => ?_
  have h : g i i = ∑ j, if i = j then g i j else 0 := by simp
  rw [h, ← sum_sub_distrib]
  refine sum_congr rfl fun j _ => ?_
  by_cases h : i = j <;> simp [h]

/-- C30: the expected number of mutual ordered pairs is exact. -/
theorem C30_expected_mutual (sol : Vec n) : expected_dcm_2motif_2 sol = expect (dcmProb sol) (fun ω => (count_2motif_2 (diAdj ω) : ℝ)) := by
  simp only [count2_eq]
  rw [expect_smul, dyad_expect _ dyad2, ← sum_pairs (fun i j => dcmProb sol (i, j) * dcmProb sol (j, i)) (fun i j => mul_comm _ _)]
  simp only [expected_dcm_2motif_2, forR_add, zero_add, mul_sub, mul_sum]
  rw [sum_sub_diag (fun i j => sol (1, i) * sol (0, i) * (sol (1, j) * sol (0, j) / ((1 + sol (1, i) * sol (0, j)) * (1 + sol (0, i) * sol (1, j)))))]
  refine sum_congr rfl fun i _ => sum_congr rfl fun j _ => ?_
  split
  · unfold dcmProb
    rw [div_mul_div_comm, ← mul_div_assoc]
    congr 1 <;> ring
  · rfl

/-- C30: the expected number of single pairs is exact. -/
theorem C30_expected_single (sol : Vec n) (hs : ∀ v, 0 ≤ sol v) :
    expected_dcm_2motif_1 sol = expect (dcmProb sol) (fun ω => (count_2motif_1 (diAdj ω) : ℝ)) := by
  simp only [count1_eq]
  rw [dyad_expect _ dyad1]
  have h2 : ∀ a b : ℝ, 2 * a = 2 * b → a = b := fun a b h => by linarith
  apply h2
  rw [← sum_pairs (fun i j => dcmProb sol (i, j) * (1 - dcmProb sol (j, i)) + dcmProb sol (j, i) * (1 - dcmProb sol (i, j))) (fun i j => by ring)]
  simp only [expected_dcm_2motif_1, forR_add, zero_add]
  have hd : ∀ i : Fin n, sol (1, i) * sol (0, i) / ((1 + sol (1, i) * sol (0, i)) * (1 + sol (0, i) * sol (1, i))) =
      sol (0, i) * sol (1, i) / ((1 + sol (1, i) * sol (0, i)) * (1 + sol (0, i) * sol (1, i))) := fun i => by rw [mul_comm (sol (1, i))]
  simp only [hd]
  rw [sum_sub_diag (fun i j => sol (0, j) * sol (1, i) / ((1 + sol (1, i) * sol (0, j)) * (1 + sol (0, i) * sol (1, j))))]
  have hp : ∀ i j : Fin n, sol (0, j) * sol (1, i) / ((1 + sol (1, i) * sol (0, j)) * (1 + sol (0, i) * sol (1, j))) =
      dcmProb sol (j, i) * (1 - dcmProb sol (i, j)) := by
    intro i j
    unfold dcmProb
    have h1 := one_add_ne sol hs i j
    have h2 := one_add_ne sol hs j i
    dsimp only
    rw [one_sub_div h1, div_mul_div_comm, add_sub_cancel_right, mul_one, mul_comm (sol (1, i)) (sol (0, j))]
  simp only [hp]
  rw [two_mul]
  nth_rewrite 2 [sum_comm]
  simp only [← sum_add_distrib]
  refine sum_congr rfl fun i _ => sum_congr rfl fun j _ => ?_
  by_cases h : i = j
  · simp [h]
  · rw [if_pos h, if_pos (Ne.symm h), if_pos h]; ring

/-- C30: the expected number of empty ordered pairs is exact. -/
theorem C30_expected_null (sol : Vec n) (hs : ∀ v, 0 ≤ sol v) :
    expected_dcm_2motif_0 sol = expect (dcmProb sol) (fun ω => (count_2motif_0 (diAdj ω) : ℝ)) := by
  simp only [count0_eq]
  rw [expect_smul, dyad_expect _ dyad0, ← sum_pairs (fun i j => (1 - dcmProb sol (i, j)) * (1 - dcmProb sol (j, i))) (fun i j => mul_comm _ _)]
  simp only [expected_dcm_2motif_0, forR_add, zero_add]
  rw [sum_sub_diag (fun i j => 1 / ((1 + sol (1, i) * sol (0, j)) * (1 + sol (0, i) * sol (1, j))))]
  refine sum_congr rfl fun i _ => sum_congr rfl fun j _ => ?_
  split
  · unfold dcmProb
    have h1 := one_add_ne sol hs i j
    have h2 := one_add_ne sol hs j i
    dsimp only
    rw [one_sub_div h1, one_sub_div h2, div_mul_div_comm, add_sub_cancel_right, add_sub_cancel_right, one_mul, mul_comm (1 + sol (0, i) * _),
      mul_comm (sol (1, i)) (sol (0, j))]
  · rfl

/-- C30: the standard deviation of the number of mutual ordered pairs is exact. -/
theorem C30_std_mutual (sol : Vec n) : std_dcm_2motif_2 sol = Real.sqrt (variance (dcmProb sol) (fun ω => (count_2motif_2 (diAdj ω) : ℝ))) := by
  simp only [count2_eq]
  rw [variance_smul, dyad_variance _ dyad2]
  have := sum_pairs (fun i j => dcmProb sol (i, j) * dcmProb sol (j, i) * (1 - dcmProb sol (i, j) * dcmProb sol (j, i))) (fun i j => by ring)
  rw [show (2 : ℝ) ^ 2 = 2 * 2 by norm_num, mul_assoc, ← this]
  simp only [std_dcm_2motif_2, ite_acc', forR_add, zero_add, mul_sum]
  congr 1
  refine sum_congr rfl fun i _ => sum_congr rfl fun j _ => ?_
  split
  · unfold dcmProb; ring
  · simp

/-- C30: the standard deviation of the number of single pairs is exact. -/
theorem C30_std_single (sol : Vec n) : std_dcm_2motif_1 sol = Real.sqrt (variance (dcmProb sol) (fun ω => (count_2motif_1 (diAdj ω) : ℝ))) := by
  simp only [count1_eq]
  rw [dyad_variance _ dyad1]
  have := sum_pairs (fun i j => (dcmProb sol (i, j) * (1 - dcmProb sol (j, i)) + dcmProb sol (j, i) * (1 - dcmProb sol (i, j))) *
    (1 - (dcmProb sol (i, j) * (1 - dcmProb sol (j, i)) + dcmProb sol (j, i) * (1 - dcmProb sol (i, j))))) (fun i j => by ring)
  unfold std_dcm_2motif_1
  dsimp only
  congr 1
  have h2 : ∀ a b : ℝ, 2 * a = 2 * b → a = b := fun a b h => by linarith
  apply h2
  beta_reduce
  rw [← this]
  simp only [ite_acc', forR_add, zero_add]
  rw [two_mul]
  nth_rewrite 2 [sum_comm]
  simp only [← sum_add_distrib]
  refine sum_congr rfl fun i _ => sum_congr rfl fun j _ => ?_
  by_cases h : i = j
  · simp [h]
  · rw [if_pos h, if_pos (Ne.symm h), if_pos h]; unfold dcmProb; ring

/-- C30: the standard deviation of the number of empty ordered pairs is exact. -/
theorem C30_std_null (sol : Vec n) : std_dcm_2motif_0 sol = Real.sqrt (variance (dcmProb sol) (fun ω => (count_2motif_0 (diAdj ω) : ℝ))) := by
  simp only [count0_eq]
  rw [variance_smul, dyad_variance _ dyad0]
  have := sum_pairs (fun i j => (1 - dcmProb sol (i, j)) * (1 - dcmProb sol (j, i)) * (1 - (1 - dcmProb sol (i, j)) * (1 - dcmProb sol (j, i)))) (fun i j => by ring)
  rw [show (2 : ℝ) ^ 2 = 2 * 2 by norm_num, mul_assoc, ← this]
  simp only [std_dcm_2motif_0, ite_acc', forR_add, zero_add, mul_sum]
  congr 1
  refine sum_congr rfl fun i _ => sum_congr rfl fun j _ => ?_
  split
  · unfold dcmProb; ring
  · simp

/-- a concrete non-negative solution with an isolated node -/
example : ∀ v : Fin 2 × Fin 3, 0 ≤ (fun v : Fin 2 × Fin 3 => if v.2 = 2 then (0 : ℝ) else 1) v := by
  intro v; dsimp only; split <;> norm_num

/-! ### C43: z-scores -/

theorem zscore_zero_iff (c e s : ℝ) (hs : s ≠ 0) : zscore c e s = 0 ↔ c = e := by
  unfold zscore
  rw [div_eq_zero_iff, sub_eq_zero]
  exact or_iff_left hs

theorem zscore_three (m : Fin 13) (sol : Vec n) (a : Fin n → Fin n → ℝ) : zscore3 m sol a = zscore (count3 m a) (expected3 m sol) (std3 m sol) := by
  match m with
  | 0 => rfl
  | 1 => rfl
  | 2 => rfl
  | 3 => rfl
  | 4 => rfl
  | 5 => rfl
  | 6 => rfl
  | 7 => rfl
  | 8 => rfl
  | 9 => rfl
  | 10 => rfl
  | 11 => rfl
  | 12 => rfl

/-- C43: whenever the standard deviation is not zero, a dyad z-score vanishes exactly when the observed count is the expected one. -/
theorem C43_dyads_vanish_iff (sol : Vec n) (a : Fin n → Fin n → ℝ) :
    (std_dcm_2motif_0 sol ≠ 0 → (zscore_dcm_2motif_0 sol a = 0 ↔ (count_2motif_0 a : ℝ) = expected_dcm_2motif_0 sol)) ∧
    (std_dcm_2motif_1 sol ≠ 0 → (zscore_dcm_2motif_1 sol a = 0 ↔ (count_2motif_1 a : ℝ) = expected_dcm_2motif_1 sol)) ∧
    (std_dcm_2motif_2 sol ≠ 0 → (zscore_dcm_2motif_2 sol a = 0 ↔ (count_2motif_2 a : ℝ) = expected_dcm_2motif_2 sol)) :=
  ⟨zscore_zero_iff _ _ _, zscore_zero_iff _ _ _, zscore_zero_iff _ _ _⟩

/-- C43: the same for every triad z-score. -/
theorem C43_triads_vanish_iff (m : Fin 13) (sol : Vec n) (a : Fin n → Fin n → ℝ) (hs : std3 m sol ≠ 0) :
    zscore3 m sol a = 0 ↔ count3 m a = expected3 m sol := by
  rw [zscore_three]; exact zscore_zero_iff _ _ _ hs

theorem zscore_mean {E : Type*} [Fintype E] [DecidableEq E] (p : E → ℝ) (f : (E → Bool) → ℝ) (s : ℝ) :
    expect p (fun ω => zscore (f ω) (expect p f) s) = 0 := by
  have h : (fun ω => zscore (f ω) (expect p f) s) = fun ω => s⁻¹ * (f ω + -expect p f) := by
    funext ω; unfold zscore; rw [div_eq_inv_mul]; rfl
  rw [h, expect_smul, expect_add, Spec.expect_const]; simp

theorem zscore_var {E : Type*} [Fintype E] [DecidableEq E] (p : E → ℝ) (f : (E → Bool) → ℝ) (hs : Real.sqrt (variance p f) ≠ 0) :
    variance p (fun ω => zscore (f ω) (expect p f) (Real.sqrt (variance p f))) = 1 := by
  have h : (fun ω => zscore (f ω) (expect p f) (Real.sqrt (variance p f))) = fun ω => (Real.sqrt (variance p f))⁻¹ * (f ω + -expect p f) := by
    funext ω; unfold zscore; rw [div_eq_inv_mul]; rfl
  have hv : 0 < variance p f := by
    by_contra h0
    exact hs (Real.sqrt_eq_zero_of_nonpos (not_lt.1 h0))
  rw [h, variance_smul, variance_add_const, inv_pow, Real.sq_sqrt hv.le, inv_mul_cancel₀ hv.ne']

/-- C43: over the ensemble that the solution defines, the dyad z-scores have mean zero and, when the standard deviation is not zero, variance one. -/
theorem C43_dyads_standardised (sol : Vec n) (hs : ∀ v, 0 ≤ sol v) :
    (expect (dcmProb sol) (fun ω => zscore_dcm_2motif_0 sol (diAdj ω)) = 0 ∧
      (std_dcm_2motif_0 sol ≠ 0 → variance (dcmProb sol) (fun ω => zscore_dcm_2motif_0 sol (diAdj ω)) = 1)) ∧
    (expect (dcmProb sol) (fun ω => zscore_dcm_2motif_1 sol (diAdj ω)) = 0 ∧
      (std_dcm_2motif_1 sol ≠ 0 → variance (dcmProb sol) (fun ω => zscore_dcm_2motif_1 sol (diAdj ω)) = 1)) ∧
    (expect (dcmProb sol) (fun ω => zscore_dcm_2motif_2 sol (diAdj ω)) = 0 ∧
      (std_dcm_2motif_2 sol ≠ 0 → variance (dcmProb sol) (fun ω => zscore_dcm_2motif_2 sol (diAdj ω)) = 1)) := by
  simp only [zscore_dcm_2motif_0, zscore_dcm_2motif_1, zscore_dcm_2motif_2, C30_expected_mutual, C30_expected_single sol hs, C30_expected_null sol hs,
    C30_std_mutual, C30_std_single, C30_std_null]
  exact ⟨⟨zscore_mean _ _ _, zscore_var _ _⟩, ⟨zscore_mean _ _ _, zscore_var _ _⟩, ⟨zscore_mean _ _ _, zscore_var _ _⟩⟩

/-- C43: over the ensemble that the solution defines, every triad z-score has mean zero. (Its variance is one only up to the first-order approximation of
C32.) -/
theorem C43_triads_centred (m : Fin 13) (sol : Vec n) : expect (dcmProb sol) (fun ω => zscore3 m sol (diAdj ω)) = 0 := by
  simp only [zscore_three, C31_expected_triads]
  exact zscore_mean _ _ _

/-- relabelling the nodes of a solution -/
def relabel (σ : Equiv.Perm (Fin n)) (sol : Vec n) : Vec n := fun v => sol (v.1, σ v.2)

theorem sum2_relabel (σ : Equiv.Perm (Fin n)) (g : Fin n → Fin n → ℝ) : (∑ i, ∑ j, g (σ i) (σ j)) = ∑ i, ∑ j, g i j := by
  rw [← Equiv.sum_comp σ (fun i => ∑ j, g i j)]
  exact sum_congr rfl fun i _ => Equiv.sum_comp σ (g (σ i))

theorem card_relabel (σ : Equiv.Perm (Fin n)) (P : Fin n × Fin n → Prop) {_ : DecidablePred P} {_ : DecidablePred fun e : Fin n × Fin n => P (σ e.1, σ e.2)} :
    (univ.filter fun e : Fin n × Fin n => P (σ e.1, σ e.2)).card = (univ.filter fun e : Fin n × Fin n => P e).card := by
  refine Finset.card_bij (fun e _ => (σ e.1, σ e.2)) (fun e he => by simpa using he) (fun e _ e' _ h => ?_) (fun e he => ⟨(σ.symm e.1, σ.symm e.2), ?_, ?_⟩)
  · have := Prod.mk.inj h; exact Prod.ext (σ.injective this.1) (σ.injective this.2)
  · simpa using he
  · simp

/-- C43: relabelling the nodes of the network and of the solution consistently changes no dyad z-score. -/
theorem C43_dyads_relabel (σ : Equiv.Perm (Fin n)) (sol : Vec n) (a : Fin n → Fin n → ℝ) :
    zscore_dcm_2motif_0 (relabel σ sol) (fun i j => a (σ i) (σ j)) = zscore_dcm_2motif_0 sol a ∧
    zscore_dcm_2motif_1 (relabel σ sol) (fun i j => a (σ i) (σ j)) = zscore_dcm_2motif_1 sol a ∧
    zscore_dcm_2motif_2 (relabel σ sol) (fun i j => a (σ i) (σ j)) = zscore_dcm_2motif_2 sol a := by
  have c0 : count_2motif_0 (fun i j => a (σ i) (σ j)) = count_2motif_0 a := by
    unfold count_2motif_0
    dsimp only
    rw [card_relabel σ (fun e => a e.1 e.2 + a e.2 e.1 ≠ 0)]
  have c1 : count_2motif_1 (fun i j => a (σ i) (σ j)) = count_2motif_1 a := by
    unfold count_2motif_1
    dsimp only
    rw [card_relabel σ (fun e => a e.1 e.2 + a e.2 e.1 = 1)]
  have c2 : count_2motif_2 (fun i j => a (σ i) (σ j)) = count_2motif_2 a := by
    unfold count_2motif_2
    dsimp only
    rw [card_relabel σ (fun e => a e.1 e.2 + a e.2 e.1 = 2)]
  have e0 : expected_dcm_2motif_0 (relabel σ sol) = expected_dcm_2motif_0 sol := by
    simp only [expected_dcm_2motif_0, forR_add, zero_add, relabel, ← Finset.sum_sub_distrib, Finset.sum_sub_distrib]
    congr 1
    · exact sum2_relabel σ (fun i j => 1 / ((1 + sol (1, i) * sol (0, j)) * (1 + sol (0, i) * sol (1, j))))
    · exact Equiv.sum_comp σ (fun i => 1 / ((1 + sol (1, i) * sol (0, i)) * (1 + sol (0, i) * sol (1, i))))
  have e1 : expected_dcm_2motif_1 (relabel σ sol) = expected_dcm_2motif_1 sol := by
    simp only [expected_dcm_2motif_1, forR_add, zero_add, relabel, Finset.sum_sub_distrib]
    congr 1
    · exact sum2_relabel σ (fun i j => sol (0, j) * sol (1, i) / ((1 + sol (1, i) * sol (0, j)) * (1 + sol (0, i) * sol (1, j))))
    · exact Equiv.sum_comp σ (fun i => sol (1, i) * sol (0, i) / ((1 + sol (1, i) * sol (0, i)) * (1 + sol (0, i) * sol (1, i))))
  have e2 : expected_dcm_2motif_2 (relabel σ sol) = expected_dcm_2motif_2 sol := by
    simp only [expected_dcm_2motif_2, forR_add, zero_add, relabel]
    rw [← Equiv.sum_comp σ (fun i => sol (1, i) * sol (0, i) * (∑ j, sol (1, j) * sol (0, j) / ((1 + sol (1, i) * sol (0, j)) * (1 + sol (0, i) * sol (1, j))) -
      sol (1, i) * sol (0, i) / ((1 + sol (1, i) * sol (0, i)) * (1 + sol (0, i) * sol (1, i)))))]
    refine sum_congr rfl fun i _ => ?_
    rw [← Equiv.sum_comp σ (fun j => sol (1, j) * sol (0, j) / ((1 + sol (1, σ i) * sol (0, j)) * (1 + sol (0, σ i) * sol (1, j))))]
  have s0 : std_dcm_2motif_0 (relabel σ sol) = std_dcm_2motif_0 sol := by
    simp only [std_dcm_2motif_0, ite_acc', forR_add, zero_add, relabel]
    congr 1
    symm
    rw [← sum2_relabel σ]
    simp only [ne_eq, EmbeddingLike.apply_eq_iff_eq]
  have s1 : std_dcm_2motif_1 (relabel σ sol) = std_dcm_2motif_1 sol := by
    simp only [std_dcm_2motif_1, ite_acc', forR_add, zero_add, relabel]
    congr 1
    symm
    rw [← sum2_relabel σ]
    simp only [ne_eq, EmbeddingLike.apply_eq_iff_eq]
  have s2 : std_dcm_2motif_2 (relabel σ sol) = std_dcm_2motif_2 sol := by
    simp only [std_dcm_2motif_2, ite_acc', forR_add, zero_add, relabel]
    congr 1
    symm
    rw [← sum2_relabel σ]
    simp only [ne_eq, EmbeddingLike.apply_eq_iff_eq]
  refine ⟨?_, ?_, ?_⟩
  · unfold zscore_dcm_2motif_0; rw [c0, e0, s0]
  · unfold zscore_dcm_2motif_1; rw [c1, e1, s1]
  · unfold zscore_dcm_2motif_2; rw [c2, e2, s2]

/-- C43: relabelling the nodes of the network and of the solution consistently changes no triad z-score. -/
theorem C43_triads_relabel (m : Fin 13) (σ : Equiv.Perm (Fin n)) (sol : Vec n) (a : Fin n → Fin n → ℝ) :
    zscore3 m (relabel σ sol) (fun i j => a (σ i) (σ j)) = zscore3 m sol a := by
  have he : expected3 m (relabel σ sol) = expected3 m sol := by
    rw [expected3_eq, expected3_eq, ← count3_eq, ← count3_eq]
    exact C29_relabel (pr sol) σ m
  have hs : std3 m (relabel σ sol) = std3 m sol := by
    rw [std3_eq, std3_eq]
    unfold stdSpec
    congr 1
    symm
    rw [← sum2_relabel σ]
    refine sum_congr rfl fun i _ => sum_congr rfl fun j _ => ?_
    rw [← Equiv.sum_comp σ (fun k => if σ i ≠ k ∧ σ j ≠ k then deltaCode (term6 m) (pr sol (σ i) (σ j)) (pr sol (σ j) (σ i)) (pr sol (σ i) k)
      (pr sol k (σ i)) (pr sol (σ j) k) (pr sol k (σ j)) else 0)]
    simp only [ne_eq, EmbeddingLike.apply_eq_iff_eq]
    rfl
  rw [zscore_three, zscore_three, he, hs, C29_relabel]

/-- The dictionaries returned by `DirectedGraph.zscore_2motifs` / `zscore_3motifs` contain, under the key of each motif, the z-score of that motif; for any
model other than `'dcm'` they are empty. -/
theorem C43_api (sol : Vec n) (a : Fin n → Fin n → ℝ) :
    (zscore_2motifs "dcm" sol a).lookup "0" = some (zscore_dcm_2motif_0 sol a) ∧
    (zscore_2motifs "dcm" sol a).lookup "1" = some (zscore_dcm_2motif_1 sol a) ∧
    (zscore_2motifs "dcm" sol a).lookup "2" = some (zscore_dcm_2motif_2 sol a) ∧
    (∀ m : Fin 13, (zscore_3motifs "dcm" sol a).lookup (toString (m.val + 1)) = some (zscore3 m sol a)) ∧
    (∀ model, model ≠ "dcm" → zscore_2motifs model sol a = [] ∧ zscore_3motifs model sol a = []) := by
  refine ⟨rfl, rfl, rfl, fun m => ?_, fun model h => ?_⟩
  · match m with
    | 0 => rfl
    | 1 => rfl
    | 2 => rfl
    | 3 => rfl
    | 4 => rfl
    | 5 => rfl
    | 6 => rfl
    | 7 => rfl
    | 8 => rfl
    | 9 => rfl
    | 10 => rfl
    | 11 => rfl
    | 12 => rfl
  · exact ⟨if_neg h, if_neg h⟩

/-- a two-node solution whose dyad standard deviations are not zero (hypothesis of the `vanish`/`standardised` theorems) -/
example : std_dcm_2motif_2 (n := 2) (fun _ => 1) ≠ 0 := by
  have : std_dcm_2motif_2 (n := 2) (fun _ => 1) = Real.sqrt (3 / 4) := by
    simp only [std_dcm_2motif_2, ite_acc', forR_add, zero_add]
    congr 1
    simp [Fin.sum_univ_two]; norm_num
  rw [this]; positivity

end Verif.Ens
