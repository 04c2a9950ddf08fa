import Verif.Lemmas.Likelihood
import Verif.Props.Concave

/-!
Property C49: the log-likelihood functions of the code are the log-probabilities that the models give to the observed network. The network is any graph with the
observed degrees (strengths); the nodes may be grouped into degree classes (the reduced problem); the parametrisation may be plain or exponential.
-/

namespace Verif.Spec

open Finset

variable {n : ℕ}

/-! ### the closed forms of `Spec.Solve` and `Spec.SolveD` are the log-probabilities -/

theorem probUBCM_spec (A : Fin n → Fin n → Bool) (hA : IsGraph A) (x : Fin n → ℝ) (hx : ∀ i, 0 ≤ x i) (hp : ∀ i, degree A i ≠ 0 → 0 < x i) :
    0 < probUBCM x A ∧ Real.log (probUBCM x A) = logUBCM (fun i => degree A i) x := by
  have hdeg : ∀ i j, A i j = true → 0 < x i := fun i j h => hp i (card_ne_zero_of_mem (mem_filter.2 ⟨mem_univ j, (bool_ne_zero _).2 h⟩))
  have hb : ∀ i j, A i j = true → 0 < x i * x j := fun i j h => mul_pos (hdeg i j h) (hdeg j i (by rw [hA.symm]; exact h))
  have hpos : ∀ i j, 0 < bern (linkUBCM x i j) (A i j) := fun i j => bern_pos (mul_nonneg (hx i) (hx j)) _ (hb i j)
  refine ⟨prod_pos fun i _ => prod_pos fun j _ => hpos i j, ?_⟩
  rw [probUBCM, Real.log_prod (fun i _ => (prod_pos fun j _ => hpos i j).ne'), logUBCM, sum_degree A hA, ← sum_sub_distrib]
  refine sum_congr rfl fun i _ => ?_
  rw [Real.log_prod (fun j _ => (hpos i j).ne'), ← sum_sub_distrib]
  refine sum_congr rfl fun j _ => ?_
  rw [linkUBCM, log_bern (mul_nonneg (hx i) (hx j)) _ (hb i j)]
  by_cases h : A i j = 0
  · simp [h]
  · have h' := (bool_ne_zero _).1 h
    rw [if_pos h, if_pos h, Real.log_mul (hdeg i j h').ne' (hdeg j i (by rw [hA.symm]; exact h')).ne']

theorem probDBCM_spec (A : Fin n → Fin n → Bool) (hA : IsDigraph A) (x y : Fin n → ℝ) (hx : ∀ i, 0 ≤ x i) (hy : ∀ i, 0 ≤ y i)
    (hpx : ∀ i, degree A i ≠ 0 → 0 < x i) (hpy : ∀ i, inDegree A i ≠ 0 → 0 < y i) :
    0 < probDBCM x y A ∧ Real.log (probDBCM x y A) = logDBCM (fun i => degree A i) (fun i => inDegree A i) x y := by
  have hdx : ∀ i j, A i j = true → 0 < x i := fun i j h => hpx i (card_ne_zero_of_mem (mem_filter.2 ⟨mem_univ j, (bool_ne_zero _).2 h⟩))
  have hdy : ∀ i j, A i j = true → 0 < y j := fun i j h => hpy j (card_ne_zero_of_mem (mem_filter.2 ⟨mem_univ i, (bool_ne_zero _).2 h⟩))
  have hb : ∀ i j, A i j = true → 0 < x i * y j := fun i j h => mul_pos (hdx i j h) (hdy i j h)
  have hpos : ∀ i j, 0 < bern (linkDBCM x y i j) (A i j) := fun i j => bern_pos (mul_nonneg (hx i) (hy j)) _ (hb i j)
  refine ⟨prod_pos fun i _ => prod_pos fun j _ => hpos i j, ?_⟩
  rw [probDBCM, Real.log_prod (fun i _ => (prod_pos fun j _ => hpos i j).ne'), logDBCM, sum_degrees_di A hA, ← sum_sub_distrib]
  refine sum_congr rfl fun i _ => ?_
  rw [Real.log_prod (fun j _ => (hpos i j).ne'), ← sum_sub_distrib]
  refine sum_congr rfl fun j _ => ?_
  rw [linkDBCM, log_bern (mul_nonneg (hx i) (hy j)) _ (hb i j)]
  by_cases h : A i j = 0
  · simp [h]
  · have h' := (bool_ne_zero _).1 h
    rw [if_pos h, if_pos h, Real.log_mul (hdx i j h').ne' (hdy i j h').ne']

theorem probUECM_spec (W : Fin n → Fin n → ℕ) (hW : IsGraph W) (x y : Fin n → ℝ) (hx : ∀ i, 0 ≤ x i) (hy : ∀ i, 0 ≤ y i)
    (hxy : ∀ i, degree W i ≠ 0 → 0 < x i ∧ 0 < y i) (h1 : ∀ i j, i ≠ j → y i * y j < 1) :
    0 < probUECM x y W ∧ Real.log (probUECM x y W) = logUECM (fun i => degree W i) (fun i => strength W i) x y := by
  have hd : ∀ i j, W i j ≠ 0 → 0 < x i ∧ 0 < y i := fun i j h => hxy i (card_ne_zero_of_mem (mem_filter.2 ⟨mem_univ j, h⟩))
  have hd' : ∀ i j, W i j ≠ 0 → 0 < x j ∧ 0 < y j := fun i j h => hd j i (by rw [hW.symm]; exact h)
  have hb : ∀ i j, W i j ≠ 0 → 0 < x i * x j ∧ 0 < y i * y j := fun i j h =>
    ⟨mul_pos (hd i j h).1 (hd' i j h).1, mul_pos (hd i j h).2 (hd' i j h).2⟩
  have hpos : ∀ i, ∀ j ∈ univ.filter (· < i), 0 < geomLaw (linkUECM x y i j) (y i * y j) (W i j) := fun i j hj =>
    geomLaw_pos (mul_nonneg (hx i) (hx j)) (mul_nonneg (hy i) (hy j)) (h1 i j (mem_filter.1 hj).2.ne') _ (hb i j)
  refine ⟨prod_pos fun i _ => prod_pos (hpos i), ?_⟩
  rw [probUECM, Real.log_prod (fun i _ => (prod_pos (hpos i)).ne'), logUECM, sum_add_distrib, sum_degree W hW, sum_strength W hW, ← sum_add_distrib,
    ← sum_add_distrib]
  refine sum_congr rfl fun i _ => ?_
  rw [Real.log_prod (fun j hj => (hpos i j hj).ne'), ← sum_add_distrib, ← sum_add_distrib]
  refine sum_congr rfl fun j hj => ?_
  rw [linkUECM, log_geomLaw (mul_nonneg (hx i) (hx j)) (mul_nonneg (hy i) (hy j)) (h1 i j (mem_filter.1 hj).2.ne') _ (hb i j)]
  by_cases h : W i j = 0
  · simp [h]
  · rw [if_pos h, if_pos h, Real.log_mul (hd i j h).1.ne' (hd' i j h).1.ne', Real.log_mul (hd i j h).2.ne' (hd' i j h).2.ne']

theorem probDECM_spec (W : Fin n → Fin n → ℕ) (hW : IsDigraph W) (x y bo bi : Fin n → ℝ) (hx : ∀ i, 0 ≤ x i) (hy : ∀ i, 0 ≤ y i)
    (hbo : ∀ i, 0 ≤ bo i) (hbi : ∀ i, 0 ≤ bi i) (ho : ∀ i, degree W i ≠ 0 → 0 < x i ∧ 0 < bo i) (hi : ∀ i, inDegree W i ≠ 0 → 0 < y i ∧ 0 < bi i)
    (h1 : ∀ i j, i ≠ j → bo i * bi j < 1) :
    0 < probDECM x y bo bi W ∧ Real.log (probDECM x y bo bi W) =
      logDECM (fun i => degree W i) (fun i => inDegree W i) (fun i => strength W i) (fun i => inStrength W i) x y bo bi := by
  have hd : ∀ i j, W i j ≠ 0 → 0 < x i ∧ 0 < bo i := fun i j h => ho i (card_ne_zero_of_mem (mem_filter.2 ⟨mem_univ j, h⟩))
  have hd' : ∀ i j, W i j ≠ 0 → 0 < y j ∧ 0 < bi j := fun i j h => hi j (card_ne_zero_of_mem (mem_filter.2 ⟨mem_univ i, h⟩))
  have hb : ∀ i j, W i j ≠ 0 → 0 < x i * y j ∧ 0 < bo i * bi j := fun i j h =>
    ⟨mul_pos (hd i j h).1 (hd' i j h).1, mul_pos (hd i j h).2 (hd' i j h).2⟩
  have hpos : ∀ i, ∀ j ∈ univ.filter (· ≠ i), 0 < geomLaw (linkDECM x y bo bi i j) (bo i * bi j) (W i j) := fun i j hj =>
    geomLaw_pos (mul_nonneg (hx i) (hy j)) (mul_nonneg (hbo i) (hbi j)) (h1 i j (mem_filter.1 hj).2.symm) _ (hb i j)
  refine ⟨prod_pos fun i _ => prod_pos (hpos i), ?_⟩
  have e : ∑ i, ((degree W i : ℝ) * Real.log (x i) + (inDegree W i : ℝ) * Real.log (y i) + (strength W i : ℝ) * Real.log (bo i) +
      (inStrength W i : ℝ) * Real.log (bi i)) =
      ∑ i, ((degree W i : ℝ) * Real.log (x i) + (inDegree W i : ℝ) * Real.log (y i)) +
        ∑ i, ((strength W i : ℝ) * Real.log (bo i) + (inStrength W i : ℝ) * Real.log (bi i)) := by
    rw [← sum_add_distrib]; exact sum_congr rfl fun i _ => by ring
  rw [probDECM, Real.log_prod (fun i _ => (prod_pos (hpos i)).ne'), logDECM, e, sum_degrees_di W hW, sum_strengths_di W hW, ← sum_add_distrib,
    ← sum_add_distrib]
  refine sum_congr rfl fun i _ => ?_
  rw [Real.log_prod (fun j hj => (hpos i j hj).ne'), ← sum_add_distrib, ← sum_add_distrib]
  refine sum_congr rfl fun j hj => ?_
  have hlt := h1 i j (mem_filter.1 hj).2.symm
  have hden : 0 < 1 - bo i * bi j + x i * y j * (bo i * bi j) := by
    nlinarith [mul_nonneg (mul_nonneg (hx i) (hy j)) (mul_nonneg (hbo i) (hbi j))]
  rw [linkDECM, log_geomLaw (mul_nonneg (hx i) (hy j)) (mul_nonneg (hbo i) (hbi j)) hlt _ (hb i j),
    Real.log_div (by linarith) hden.ne']
  by_cases h : W i j = 0
  · simp [h]
  · rw [if_pos h, if_pos h, Real.log_mul (hd i j h).1.ne' (hd' i j h).1.ne', Real.log_mul (hd i j h).2.ne' (hd' i j h).2.ne']

end Verif.Spec

namespace Verif.Solve

open Finset Spec

variable {n : ℕ}

/-! ### C49: the likelihood functions of the code -/

/-- C49 (cm): on the degree classes of any graph `A`, the code's log-likelihood is the log-probability of `A`. -/
theorem C49_cm_log_probability (d : UData n) (A : Fin n → Fin n → Bool) (hA : IsGraph A) (hd : ∀ i, d.dseq i = degree A i)
    (r : Fin d.r → ℝ) (hr : ∀ q, 0 ≤ r q) (hp : ∀ i, d.dseq i ≠ 0 → 0 < r (d.inv i)) :
    0 < probUBCM (fun i => r (d.inv i)) A ∧ CM.loglikelihood_cm r d.k d.c = Real.log (probUBCM (fun i => r (d.inv i)) A) := by
  obtain ⟨h1, h2⟩ := probUBCM_spec A hA (fun i => r (d.inv i)) (fun i => hr _) (fun i h => hp i (by rw [hd]; exact h))
  refine ⟨h1, ?_⟩
  rw [ll_red_spec, h2]
  congr 1
  funext i; rw [UData.deg, hd]

/-- C49 (cm_exp): the same in the exponential parametrisation, at every point. -/
theorem C49_cm_exp_log_probability (d : UData n) (A : Fin n → Fin n → Bool) (hA : IsGraph A) (hd : ∀ i, d.dseq i = degree A i) (θ : Fin d.r → ℝ) :
    0 < probUBCM (fun i => Real.exp (-θ (d.inv i))) A ∧
      CM.loglikelihood_cm_exp θ d.k d.c = Real.log (probUBCM (fun i => Real.exp (-θ (d.inv i))) A) := by
  rw [CM.C09_cm_reparametrisation]
  exact C49_cm_log_probability d A hA hd (fun q => Real.exp (-θ q)) (fun q => (Real.exp_pos _).le) (fun i _ => Real.exp_pos _)

/-- C49 (dcm): on the classes of (out, in)-degrees of any digraph `A`; the nodes of degree zero take no part. -/
theorem C49_dcm_log_probability (d : DData n) (A : Fin n → Fin n → Bool) (hA : IsDigraph A) (ho : ∀ i, d.dseq_out i = degree A i)
    (hi : ∀ i, d.dseq_in i = inDegree A i) (r : Fin 2 × Fin d.r → ℝ) (hpo : ∀ i, d.dseq_out i ≠ 0 → 0 < r (0, d.inv i))
    (hpi : ∀ i, d.dseq_in i ≠ 0 → 0 < r (1, d.inv i)) :
    0 < probDBCM (active d.degOut fun i => r (0, d.inv i)) (active d.degIn fun i => r (1, d.inv i)) A ∧
      DCM.loglikelihood_dcm r d.ko d.ki (DCM.nonzero d.ko) (DCM.nonzero d.ki) d.c =
        Real.log (probDBCM (active d.degOut fun i => r (0, d.inv i)) (active d.degIn fun i => r (1, d.inv i)) A) := by
  have e0 : ∀ i, active d.degOut (fun i => r (0, d.inv i)) i = if d.dseq_out i = 0 then 0 else r (0, d.inv i) := fun i => by
    simp only [active, DData.degOut, Nat.cast_eq_zero]
  have e1 : ∀ i, active d.degIn (fun i => r (1, d.inv i)) i = if d.dseq_in i = 0 then 0 else r (1, d.inv i) := fun i => by
    simp only [active, DData.degIn, Nat.cast_eq_zero]
  obtain ⟨h1, h2⟩ := probDBCM_spec A hA (active d.degOut fun i => r (0, d.inv i)) (active d.degIn fun i => r (1, d.inv i))
    (fun i => by rw [e0]; split; exacts [le_rfl, (hpo i ‹_›).le]) (fun i => by rw [e1]; split; exacts [le_rfl, (hpi i ‹_›).le])
    (fun i h => by rw [← ho] at h; rw [e0, if_neg h]; exact hpo i h) (fun i h => by rw [← hi] at h; rw [e1, if_neg h]; exact hpi i h)
  refine ⟨h1, ?_⟩
  rw [ll_dcm_red_spec, h2, LDCM]
  congr 1
  · funext i; rw [DData.degOut, ho]
  · funext i; rw [DData.degIn, hi]

/-- C49 (dcm_exp): the same in the exponential parametrisation, at every point. -/
theorem C49_dcm_exp_log_probability (d : DData n) (A : Fin n → Fin n → Bool) (hA : IsDigraph A) (ho : ∀ i, d.dseq_out i = degree A i)
    (hi : ∀ i, d.dseq_in i = inDegree A i) (θ : Fin 2 × Fin d.r → ℝ) :
    0 < probDBCM (active d.degOut fun i => Real.exp (-θ (0, d.inv i))) (active d.degIn fun i => Real.exp (-θ (1, d.inv i))) A ∧
      DCM.loglikelihood_dcm_exp θ d.ko d.ki (DCM.nonzero d.ko) (DCM.nonzero d.ki) d.c =
        Real.log (probDBCM (active d.degOut fun i => Real.exp (-θ (0, d.inv i))) (active d.degIn fun i => Real.exp (-θ (1, d.inv i))) A) := by
  rw [DCM.C09_dcm_reparametrisation _ _ _ _ _ _ (DCM.nodup_nonzero _) (DCM.nodup_nonzero _)]
  exact C49_dcm_log_probability d A hA ho hi (fun v => Real.exp (-θ v)) (fun i _ => Real.exp_pos _) (fun i _ => Real.exp_pos _)

/-- C49 (ecm): for any weighted graph `W` with the observed degrees and strengths. -/
theorem C49_ecm_log_probability (d : UData n) (W : Fin n → Fin n → ℕ) (hW : IsGraph W) (hk : ∀ i, d.dseq i = degree W i)
    (hs : ∀ i, d.strength_sequence i = strength W i) (v : Fin 2 × Fin n → ℝ) (hv : ∀ w, 0 ≤ v w) (hp : ∀ b i, d.dseq i ≠ 0 → 0 < v (b, i))
    (h1 : ∀ i j, i ≠ j → v (1, i) * v (1, j) < 1) :
    0 < probUECM (fun i => v (0, i)) (fun i => v (1, i)) W ∧
      ECM.loglikelihood_ecm v d.deg d.strength_sequence = Real.log (probUECM (fun i => v (0, i)) (fun i => v (1, i)) W) := by
  obtain ⟨e1, e2⟩ := probUECM_spec W hW (fun i => v (0, i)) (fun i => v (1, i)) (fun i => hv _) (fun i => hv _)
    (fun i h => ⟨hp 0 i (by rw [hk]; exact h), hp 1 i (by rw [hk]; exact h)⟩) h1
  refine ⟨e1, ?_⟩
  rw [ll_ecm_spec, e2]
  congr 1
  · funext i; rw [UData.deg, hk]
  · funext i; rw [hs]

/-- C49 (ecm_exp) -/
theorem C49_ecm_exp_log_probability (d : UData n) (W : Fin n → Fin n → ℕ) (hW : IsGraph W) (hk : ∀ i, d.dseq i = degree W i)
    (hs : ∀ i, d.strength_sequence i = strength W i) (θ : Fin 2 × Fin n → ℝ) (h : AdmECMexp θ) :
    0 < probUECM (fun i => Real.exp (-θ (0, i))) (fun i => Real.exp (-θ (1, i))) W ∧
      ECM.loglikelihood_ecm_exp θ d.deg d.strength_sequence =
        Real.log (probUECM (fun i => Real.exp (-θ (0, i))) (fun i => Real.exp (-θ (1, i))) W) := by
  rw [ECM.C09_ecm_reparametrisation]
  refine C49_ecm_log_probability d W hW hk hs (fun v => Real.exp (-θ v)) (fun _ => (Real.exp_pos _).le) (fun _ _ _ => Real.exp_pos _) fun i j hij => ?_
  rw [← Real.exp_add, Real.exp_lt_one_iff]
  linarith [h i j hij]

/-- C49 (decm): for any weighted digraph `W` with the observed degrees and strengths. -/
theorem C49_decm_log_probability (d : DData n) (W : Fin n → Fin n → ℕ) (hW : IsDigraph W) (hko : ∀ i, d.dseq_out i = degree W i)
    (hki : ∀ i, d.dseq_in i = inDegree W i) (hso : ∀ i, d.out_strength i = strength W i) (hsi : ∀ i, d.in_strength i = inStrength W i)
    (v : Fin 4 × Fin n → ℝ) (hv : ∀ w, 0 ≤ v w) (hpo : ∀ i, d.dseq_out i ≠ 0 → 0 < v (0, i) ∧ 0 < v (2, i))
    (hpi : ∀ i, d.dseq_in i ≠ 0 → 0 < v (1, i) ∧ 0 < v (3, i)) (h1 : ∀ i j, i ≠ j → v (2, i) * v (3, j) < 1) :
    0 < probDECM (fun i => v (0, i)) (fun i => v (1, i)) (fun i => v (2, i)) (fun i => v (3, i)) W ∧
      DECM.loglikelihood_decm v d.degOut d.degIn d.out_strength d.in_strength =
        Real.log (probDECM (fun i => v (0, i)) (fun i => v (1, i)) (fun i => v (2, i)) (fun i => v (3, i)) W) := by
  obtain ⟨e1, e2⟩ := probDECM_spec W hW (fun i => v (0, i)) (fun i => v (1, i)) (fun i => v (2, i)) (fun i => v (3, i)) (fun i => hv _) (fun i => hv _)
    (fun i => hv _) (fun i => hv _) (fun i h => hpo i (by rw [hko]; exact h)) (fun i h => hpi i (by rw [hki]; exact h)) h1
  refine ⟨e1, ?_⟩
  rw [ll_decm_spec, e2, LDECM]
  have a1 : d.degOut = fun i => (degree W i : ℝ) := by funext i; rw [DData.degOut, hko]
  have a2 : d.degIn = fun i => (inDegree W i : ℝ) := by funext i; rw [DData.degIn, hki]
  have a3 : d.out_strength = fun i => (strength W i : ℝ) := funext hso
  have a4 : d.in_strength = fun i => (inStrength W i : ℝ) := funext hsi
  rw [a1, a2, a3, a4]
  rfl

/-- C49 (decm_exp) -/
theorem C49_decm_exp_log_probability (d : DData n) (W : Fin n → Fin n → ℕ) (hW : IsDigraph W) (hko : ∀ i, d.dseq_out i = degree W i)
    (hki : ∀ i, d.dseq_in i = inDegree W i) (hso : ∀ i, d.out_strength i = strength W i) (hsi : ∀ i, d.in_strength i = inStrength W i)
    (θ : Fin 4 × Fin n → ℝ) (h : AdmDECMexp θ) :
    0 < probDECM (fun i => Real.exp (-θ (0, i))) (fun i => Real.exp (-θ (1, i))) (fun i => Real.exp (-θ (2, i))) (fun i => Real.exp (-θ (3, i))) W ∧
      DECM.loglikelihood_decm_exp θ d.degOut d.degIn d.out_strength d.in_strength = Real.log (probDECM (fun i => Real.exp (-θ (0, i)))
        (fun i => Real.exp (-θ (1, i))) (fun i => Real.exp (-θ (2, i))) (fun i => Real.exp (-θ (3, i))) W) := by
  rw [DECM.C09_decm_reparametrisation _ _ _ _ _ h]
  refine C49_decm_log_probability d W hW hko hki hso hsi (fun v => Real.exp (-θ v)) (fun _ => (Real.exp_pos _).le)
    (fun _ _ => ⟨Real.exp_pos _, Real.exp_pos _⟩) (fun _ _ => ⟨Real.exp_pos _, Real.exp_pos _⟩) fun i j hij => ?_
  rw [← Real.exp_add, Real.exp_lt_one_iff]
  linarith [h i j hij]

end Verif.Solve
