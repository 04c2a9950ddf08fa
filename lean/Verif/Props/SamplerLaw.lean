import Verif.Lemmas.SamplerLaw
import Verif.Spec.Ensemble
import Verif.Props.Sampler
import Verif.Props.CM
import Verif.Props.DCM
import Verif.Props.ECM
import Verif.Props.DECM
import Mathlib.Probability.Independence.InfinitePi
import Mathlib.MeasureTheory.Integral.Lebesgue.Countable

/-!
Property C23: the law of the sampled graphs when the random numbers are ideal. The generator is `R.ideal (U · ω) …`: `R` with the uniform number used for a task
(which is the first one after `np.random.seed(s)`) replaced by a random variable `U s`, and likewise for geometric variates. The stream of seeds is that of `R`, the
seed argument, the pool and the state are arbitrary.
-/

namespace Verif.Sampler

open MeasureTheory Spec Finset ProbabilityTheory Reduction

variable {Ω : Type*} [MeasurableSpace Ω] (P : Measure Ω) (R : Rng) {n : ℕ} (U : ℕ → Ω → I01) (G : ℕ → ℝ → Ω → ℕ)
  (hG : ∀ s q ω, 1 ≤ G s q ω)

/-- `sample ω` is what the undirected binary sampler returns when the random numbers are those of `ω` -/
def SampleCM (x : Fin n → ℝ) (seed : Option ℕ) (g : R.S × Option ℕ) (sample : Ω → List (ℕ × ℕ)) : Prop :=
  ∀ ω, ∃ env : Env (R.ideal (U · ω) (fun s q => G s q ω) (hG · · ω)), (∀ T, (env T).Complete) ∧ cm_edges _ x env seed g = .ok (sample ω)

/-- the same for the directed binary sampler -/
def SampleDCM (x y : Fin n → ℝ) (seed : Option ℕ) (g : R.S × Option ℕ) (sample : Ω → List (ℕ × ℕ)) : Prop :=
  ∀ ω, ∃ env : Env (R.ideal (U · ω) (fun s q => G s q ω) (hG · · ω)), (∀ T, (env T).Complete) ∧ dcm_edges _ x y env seed g = .ok (sample ω)

/-- the same for the undirected weighted sampler -/
def SampleECM (x y : Fin n → ℝ) (seed : Option ℕ) (g : R.S × Option ℕ) (sample : Ω → List (ℕ × ℕ × ℕ)) : Prop :=
  ∀ ω, ∃ env : Env (R.ideal (U · ω) (fun s q => G s q ω) (hG · · ω)), (∀ T, (env T).Complete) ∧ ecm_edges _ x y env seed g = .ok (sample ω)

/-- the same for the directed weighted sampler -/
def SampleDECM (a_out a_in b_out b_in : Fin n → ℝ) (seed : Option ℕ) (g : R.S × Option ℕ) (sample : Ω → List (ℕ × ℕ × ℕ)) : Prop :=
  ∀ ω, ∃ env : Env (R.ideal (U · ω) (fun s q => G s q ω) (hG · · ω)), (∀ T, (env T).Complete) ∧ decm_edges _ a_out a_in b_out b_in env seed g = .ok (sample ω)

variable {P R U G hG}

open Classical in
/-- the seed of each pair, drawn before any link: the sample consists of the pairs whose uniform number is below the link probability -/
theorem sampleCM_eq {x : Fin n → ℝ} {seed : Option ℕ} {g : R.S × Option ℕ} {sample : Ω → List (ℕ × ℕ)} (h : SampleCM R U G hG x seed g sample) :
    ∃ σ : Fin n × Fin n → ℕ, (drawSeeds R (pairsLt n).length (reseed R seed g.1)).1 = (pairsLt n).map σ ∧
      ∀ ω, sample ω = (pairsLt n).filterMap fun e => if (U (σ e) ω : ℝ) < x e.1 * x e.2 / (1 + x e.1 * x e.2) then some (e.1.val, e.2.val) else none := by
  obtain ⟨σ, h1, h2⟩ := zip_seeds (pairsLt n) (pairsLt_nodup n) (drawSeeds R (pairsLt n).length (reseed R seed g.1)).1 (drawSeeds_length R _ _)
  refine ⟨σ, h2, fun ω => ?_⟩
  obtain ⟨env, henv, he⟩ := h ω
  rw [cm_edges_eq _ x env henv, ideal_drawSeeds, ideal_reseed, h1, List.filterMap_map] at he
  injection he with he
  rw [← he]
  rfl

open Classical in
theorem sampleDCM_eq {x y : Fin n → ℝ} {seed : Option ℕ} {g : R.S × Option ℕ} {sample : Ω → List (ℕ × ℕ)} (h : SampleDCM R U G hG x y seed g sample) :
    ∃ σ : Fin n × Fin n → ℕ, (drawSeeds R (pairsNe n).length (reseed R seed g.1)).1 = (pairsNe n).map σ ∧
      ∀ ω, sample ω = (pairsNe n).filterMap fun e => if (U (σ e) ω : ℝ) < x e.1 * y e.2 / (1 + x e.1 * y e.2) then some (e.1.val, e.2.val) else none := by
  obtain ⟨σ, h1, h2⟩ := zip_seeds (pairsNe n) (pairsNe_nodup n) (drawSeeds R (pairsNe n).length (reseed R seed g.1)).1 (drawSeeds_length R _ _)
  refine ⟨σ, h2, fun ω => ?_⟩
  obtain ⟨env, henv, he⟩ := h ω
  rw [dcm_edges_eq _ x y env henv, ideal_drawSeeds, ideal_reseed, h1, List.filterMap_map] at he
  injection he with he
  rw [← he]
  rfl

open Classical in
theorem mem_thresholds {l : List (Fin n × Fin n)} {c : Fin n × Fin n → Prop} (i j : Fin n) :
    (i.val, j.val) ∈ (l.filterMap fun e => if c e then some (e.1.val, e.2.val) else none) ↔ (i, j) ∈ l ∧ c (i, j) := by
  rw [List.mem_filterMap]
  constructor
  · rintro ⟨e, he, h⟩
    split at h
    · rename_i hc
      obtain ⟨h1, h2⟩ := Prod.mk.inj (Option.some.inj h)
      obtain rfl : e = (i, j) := Prod.ext (Fin.ext h1) (Fin.ext h2)
      exact ⟨he, hc⟩
    · cases h
  · rintro ⟨hl, hc⟩
    exact ⟨(i, j), hl, by rw [if_pos hc]⟩

theorem prob_bounds {a : ℝ} (h : 0 ≤ a) : 0 ≤ a / (1 + a) ∧ a / (1 + a) ≤ 1 :=
  ⟨by positivity, by rw [div_le_one (by linarith)]; linarith⟩

/-- C23: with ideal uniform numbers, every pair `i < j` is linked in the sampled graph with probability exactly `x_i x_j / (1 + x_i x_j)`. -/
theorem C23_cm_link_probability [IsProbabilityMeasure P] (hU : UniformSource P U) {x : Fin n → ℝ} (hx : ∀ i, 0 ≤ x i) {seed : Option ℕ} {g : R.S × Option ℕ}
    {sample : Ω → List (ℕ × ℕ)} (h : SampleCM R U G hG x seed g sample) (i j : Fin n) (hij : i < j) :
    P {ω | (i.val, j.val) ∈ sample ω} = ENNReal.ofReal (x i * x j / (1 + x i * x j)) := by
  classical
  obtain ⟨σ, -, hs⟩ := sampleCM_eq h
  have hb := prob_bounds (mul_nonneg (hx i) (hx j))
  rw [← hU.law (σ (i, j)) _ hb.1 hb.2]
  congr 1
  ext ω
  rw [Set.mem_setOf_eq, Set.mem_setOf_eq, hs ω, mem_thresholds]
  exact and_iff_right ((mem_pairsLt _).2 hij)

/-- C23: with ideal uniform numbers, the mean degree of every node over the sampled graphs is `expected_degree_cm`. -/
theorem C23_cm_mean_degree [IsProbabilityMeasure P] (hU : UniformSource P U) {x : Fin n → ℝ} (hx : ∀ i, 0 ≤ x i) {seed : Option ℕ} {g : R.S × Option ℕ}
    {sample : Ω → List (ℕ × ℕ)} (h : SampleCM R U G hG x seed g sample) (i : Fin n) :
    ∫ ω, (degreeIn (sample ω) i : ℝ) ∂P = CM.expected_degree_cm x i := by
  classical
  obtain ⟨σ, -, hs⟩ := sampleCM_eq h
  have hd : ∀ ω, (degreeIn (sample ω) i : ℝ) = ∑ e ∈ (pairsLt n).toFinset,
      if (U (σ e) ω : ℝ) < x e.1 * x e.2 / (1 + x e.1 * x e.2) then (if e.1 = i ∨ e.2 = i then 1 else 0) else 0 := by
    intro ω
    rw [degreeIn, length_filter, hs ω, sum_filterMap, list_sum_eq _ (pairsLt_nodup n)]
    refine Finset.sum_congr rfl fun e _ => ?_
    split
    · show (if e.1.val = i.val ∨ e.2.val = i.val then (1 : ℝ) else 0) = _
      simp only [Fin.val_inj]
    · rfl
  simp only [hd]
  rw [integral_links hU (pairsLt n).toFinset σ (fun e => x e.1 * x e.2 / (1 + x e.1 * x e.2)) (fun e => if e.1 = i ∨ e.2 = i then 1 else 0)
    (fun e _ => (prob_bounds (mul_nonneg (hx e.1) (hx e.2))).1) (fun e _ => (prob_bounds (mul_nonneg (hx e.1) (hx e.2))).2), pairsLt_toFinset, CM.expected_degree_eq]
  simp only [ite_mul, one_mul, zero_mul]
  rw [sum_pairs_at i fun e => x e.1 * x e.2 / (1 + x e.1 * x e.2)]
  refine Finset.sum_congr rfl fun j _ => ?_
  rcases le_total i j with hij | hij
  · simp only [min_eq_left hij, max_eq_right hij]
  · simp only [min_eq_right hij, max_eq_left hij, mul_comm]

/-- C23: at a point where the reduced gradient vanishes, the mean degree of every node over the sampled graphs is its observed degree. -/
theorem C23_cm_mean_degree_observed [IsProbabilityMeasure P] (hU : UniformSource P U) (d : Fin n → ℕ) (r : Fin (rnz_n d) → ℝ) (hr : ∀ q, 0 < r q)
    (hsol : ∀ q, CM.loglikelihood_prime_cm r (fun q => ((r_dseq d q : ℕ) : ℝ)) (fun q => (r_multiplicity d q : ℝ)) q = 0)
    {seed : Option ℕ} {g : R.S × Option ℕ} {sample : Ω → List (ℕ × ℕ)} (h : SampleCM R U G hG (fun i => r (r_invert_dseq d i)) seed g sample) (i : Fin n) :
    ∫ ω, (degreeIn (sample ω) i : ℝ) ∂P = d i := by
  rw [C23_cm_mean_degree hU (fun i => (hr _).le) h i]
  exact (CM.C01_cm_solution_iff d r hr).1 hsol i

/-- C23: every arc `(i, j)` is present with probability exactly `x_i y_j / (1 + x_i y_j)`. -/
theorem C23_dcm_link_probability [IsProbabilityMeasure P] (hU : UniformSource P U) {x y : Fin n → ℝ} (hx : ∀ i, 0 ≤ x i) (hy : ∀ i, 0 ≤ y i) {seed : Option ℕ}
    {g : R.S × Option ℕ} {sample : Ω → List (ℕ × ℕ)} (h : SampleDCM R U G hG x y seed g sample) (i j : Fin n) (hij : i ≠ j) :
    P {ω | (i.val, j.val) ∈ sample ω} = ENNReal.ofReal (x i * y j / (1 + x i * y j)) := by
  classical
  obtain ⟨σ, -, hs⟩ := sampleDCM_eq h
  have hb := prob_bounds (mul_nonneg (hx i) (hy j))
  rw [← hU.law (σ (i, j)) _ hb.1 hb.2]
  congr 1
  ext ω
  rw [Set.mem_setOf_eq, Set.mem_setOf_eq, hs ω, mem_thresholds]
  exact and_iff_right ((mem_pairsNe _).2 hij)

/-- C23: the mean out- and in-degrees over the sampled digraphs are `expected_out_degree_dcm` and `expected_in_degree_dcm`. -/
theorem C23_dcm_mean_degrees [IsProbabilityMeasure P] (hU : UniformSource P U) (sol : Fin 2 × Fin n → ℝ) (hsol : ∀ v, 0 ≤ sol v) {seed : Option ℕ}
    {g : R.S × Option ℕ} {sample : Ω → List (ℕ × ℕ)} (h : SampleDCM R U G hG (fun i => sol (0, i)) (fun i => sol (1, i)) seed g sample) (i : Fin n) :
    ∫ ω, (outDegreeIn (sample ω) i : ℝ) ∂P = DCM.expected_out_degree_dcm sol i ∧ ∫ ω, (inDegreeIn (sample ω) i : ℝ) ∂P = DCM.expected_in_degree_dcm sol i := by
  classical
  obtain ⟨σ, -, hs⟩ := sampleDCM_eq h
  have hp : ∀ e ∈ (pairsNe n).toFinset, 0 ≤ sol (0, e.1) * sol (1, e.2) / (1 + sol (0, e.1) * sol (1, e.2)) ∧
      sol (0, e.1) * sol (1, e.2) / (1 + sol (0, e.1) * sol (1, e.2)) ≤ 1 := fun e _ => prob_bounds (mul_nonneg (hsol _) (hsol _))
  constructor
  · have hd : ∀ ω, (outDegreeIn (sample ω) i : ℝ) = ∑ e ∈ (pairsNe n).toFinset,
        if (U (σ e) ω : ℝ) < sol (0, e.1) * sol (1, e.2) / (1 + sol (0, e.1) * sol (1, e.2)) then (if e.1 = i then 1 else 0) else 0 := by
      intro ω
      rw [outDegreeIn, length_filter, hs ω, sum_filterMap, list_sum_eq _ (pairsNe_nodup n)]
      refine Finset.sum_congr rfl fun e _ => ?_
      split
      · show (if e.1.val = i.val then (1 : ℝ) else 0) = _
        simp only [Fin.val_inj]
      · rfl
    simp only [hd]
    rw [integral_links hU (pairsNe n).toFinset σ (fun e => sol (0, e.1) * sol (1, e.2) / (1 + sol (0, e.1) * sol (1, e.2))) (fun e => if e.1 = i then 1 else 0)
      (fun e he => (hp e he).1) (fun e he => (hp e he).2), pairsNe_toFinset, DCM.expected_out_eq]
    simp only [ite_mul, one_mul, zero_mul]
    rw [sum_arcs_out i fun e => sol (0, e.1) * sol (1, e.2) / (1 + sol (0, e.1) * sol (1, e.2))]
  · have hd : ∀ ω, (inDegreeIn (sample ω) i : ℝ) = ∑ e ∈ (pairsNe n).toFinset,
        if (U (σ e) ω : ℝ) < sol (0, e.1) * sol (1, e.2) / (1 + sol (0, e.1) * sol (1, e.2)) then (if e.2 = i then 1 else 0) else 0 := by
      intro ω
      rw [inDegreeIn, length_filter, hs ω, sum_filterMap, list_sum_eq _ (pairsNe_nodup n)]
      refine Finset.sum_congr rfl fun e _ => ?_
      split
      · show (if e.2.val = i.val then (1 : ℝ) else 0) = _
        simp only [Fin.val_inj]
      · rfl
    simp only [hd]
    rw [integral_links hU (pairsNe n).toFinset σ (fun e => sol (0, e.1) * sol (1, e.2) / (1 + sol (0, e.1) * sol (1, e.2))) (fun e => if e.2 = i then 1 else 0)
      (fun e he => (hp e he).1) (fun e he => (hp e he).2), pairsNe_toFinset, DCM.expected_in_eq]
    simp only [ite_mul, one_mul, zero_mul]
    rw [sum_arcs_in i fun e => sol (0, e.1) * sol (1, e.2) / (1 + sol (0, e.1) * sol (1, e.2))]

/-! ### the joint law -/

theorem indep_thresholds [IsProbabilityMeasure P] (hU : UniformSource P U) (hind : iIndepFun U P) {A : Type} (s : Finset A) (σ : A → ℕ) (hσ : Set.InjOn σ s)
    (p : A → ℝ) (h0 : ∀ e ∈ s, 0 ≤ p e) (h1 : ∀ e ∈ s, p e ≤ 1) (E : A → Bool) :
    P {ω | ∀ e ∈ s, ((U (σ e) ω : ℝ) < p e ↔ E e = true)} = ∏ e ∈ s, ENNReal.ofReal (bern (p e) (E e)) := by
  classical
  let B : A → Set I01 := fun e => {u : I01 | (u : ℝ) < p e ↔ E e = true}
  have hB : ∀ e, MeasurableSet (B e) := by
    intro e
    have hm : MeasurableSet {u : I01 | (u : ℝ) < p e} := measurableSet_lt measurable_subtype_coe measurable_const
    cases hE : E e with
    | true =>
      have : B e = {u : I01 | (u : ℝ) < p e} := by ext u; simp [B, hE]
      rw [this]; exact hm
    | false =>
      have : B e = {u : I01 | (u : ℝ) < p e}ᶜ := by ext u; simp [B, hE]
      rw [this]; exact hm.compl
  have hset : {ω | ∀ e ∈ s, ((U (σ e) ω : ℝ) < p e ↔ E e = true)} = ⋂ k ∈ s.image σ, U k ⁻¹' (⋂ e ∈ s.filter (fun e => σ e = k), B e) := by
    ext ω
    simp only [Set.mem_setOf_eq, Set.mem_iInter, Finset.mem_image, Set.mem_preimage, Finset.mem_filter]
    constructor
    · rintro h _ _ e ⟨he, rfl⟩
      exact h e he
    · intro h e he
      exact h (σ e) ⟨e, he, rfl⟩ e ⟨he, rfl⟩
  have huniq : ∀ e ∈ s, s.filter (fun e' => σ e' = σ e) = {e} := by
    intro e he
    ext e'
    simp only [Finset.mem_filter, Finset.mem_singleton]
    exact ⟨fun h => hσ (Finset.mem_coe.2 h.1) (Finset.mem_coe.2 he) h.2, fun h => by subst h; exact ⟨he, rfl⟩⟩
  rw [hset, hind.measure_inter_preimage_eq_mul (S := s.image σ) (sets := fun k => ⋂ e ∈ s.filter (fun e => σ e = k), B e)
    (fun k _ => Finset.measurableSet_biInter _ fun e _ => hB e), Finset.prod_image (fun e he e' he' h => hσ he he' h)]
  refine Finset.prod_congr rfl fun e he => ?_
  rw [huniq e he]
  simp only [Finset.mem_singleton, Set.iInter_iInter_eq_left]
  have hlaw := hU.law (σ e) (p e) (h0 e he) (h1 e he)
  cases hE : E e with
  | true =>
    rw [bern, if_pos rfl, ← hlaw]
    congr 1
    ext ω; simp [B, hE]
  | false =>
    rw [bern, if_neg (by simp)]
    have hc : U (σ e) ⁻¹' B e = {ω | (U (σ e) ω : ℝ) < p e}ᶜ := by ext ω; simp [B, hE]
    rw [hc, prob_compl_eq_one_sub (meas_lt hU.meas _ _), hlaw, ← ENNReal.ofReal_one, ENNReal.ofReal_sub _ (h0 e he)]

/-- C23: if the uniform numbers of different seeds are independent and the seeds drawn for the pairs are all different, the sampled graph has exactly the law of the
model: every set `E` of pairs is the edge set of the sample with probability `∏_{i<j} p_ij^{E_ij} (1 - p_ij)^{1 - E_ij}`. -/
theorem C23_cm_graph_law [IsProbabilityMeasure P] (hU : UniformSource P U) (hind : iIndepFun U P) {x : Fin n → ℝ} (hx : ∀ i, 0 ≤ x i) {seed : Option ℕ}
    {g : R.S × Option ℕ} {sample : Ω → List (ℕ × ℕ)} (h : SampleCM R U G hG x seed g sample)
    (hseeds : (drawSeeds R (pairsLt n).length (reseed R seed g.1)).1.Nodup) (E : Fin n × Fin n → Bool) :
    P {ω | ∀ i j : Fin n, i < j → ((i.val, j.val) ∈ sample ω ↔ E (i, j) = true)} =
      ∏ e : Fin n × Fin n with e.1 < e.2, ENNReal.ofReal (bern (x e.1 * x e.2 / (1 + x e.1 * x e.2)) (E e)) := by
  classical
  obtain ⟨σ, h2, hs⟩ := sampleCM_eq h
  rw [h2] at hseeds
  have hσ : Set.InjOn σ ((pairsLt n).toFinset : Set (Fin n × Fin n)) := by
    intro a ha b hb hab
    exact List.inj_on_of_nodup_map hseeds (List.mem_toFinset.1 ha) (List.mem_toFinset.1 hb) hab
  have key := indep_thresholds hU hind (pairsLt n).toFinset σ hσ (fun e => x e.1 * x e.2 / (1 + x e.1 * x e.2))
    (fun e _ => (prob_bounds (mul_nonneg (hx e.1) (hx e.2))).1) (fun e _ => (prob_bounds (mul_nonneg (hx e.1) (hx e.2))).2) E
  rw [← pairsLt_toFinset, ← key]
  congr 1
  ext ω
  simp only [Set.mem_setOf_eq, hs ω, mem_thresholds, List.mem_toFinset, mem_pairsLt]
  constructor
  · intro hh e he
    rw [← hh e.1 e.2 he]
    exact (and_iff_right he).symm
  · intro hh i j hij
    rw [← hh (i, j) hij]
    exact and_iff_right hij

/-- C23: the same for the directed model. -/
theorem C23_dcm_graph_law [IsProbabilityMeasure P] (hU : UniformSource P U) (hind : iIndepFun U P) {x y : Fin n → ℝ} (hx : ∀ i, 0 ≤ x i) (hy : ∀ i, 0 ≤ y i)
    {seed : Option ℕ} {g : R.S × Option ℕ} {sample : Ω → List (ℕ × ℕ)} (h : SampleDCM R U G hG x y seed g sample)
    (hseeds : (drawSeeds R (pairsNe n).length (reseed R seed g.1)).1.Nodup) (E : Fin n × Fin n → Bool) :
    P {ω | ∀ i j : Fin n, i ≠ j → ((i.val, j.val) ∈ sample ω ↔ E (i, j) = true)} =
      ∏ e : Fin n × Fin n with e.1 ≠ e.2, ENNReal.ofReal (bern (x e.1 * y e.2 / (1 + x e.1 * y e.2)) (E e)) := by
  classical
  obtain ⟨σ, h2, hs⟩ := sampleDCM_eq h
  rw [h2] at hseeds
  have hσ : Set.InjOn σ ((pairsNe n).toFinset : Set (Fin n × Fin n)) := by
    intro a ha b hb hab
    exact List.inj_on_of_nodup_map hseeds (List.mem_toFinset.1 ha) (List.mem_toFinset.1 hb) hab
  have key := indep_thresholds hU hind (pairsNe n).toFinset σ hσ (fun e => x e.1 * y e.2 / (1 + x e.1 * y e.2))
    (fun e _ => (prob_bounds (mul_nonneg (hx e.1) (hy e.2))).1) (fun e _ => (prob_bounds (mul_nonneg (hx e.1) (hy e.2))).2) E
  rw [← pairsNe_toFinset, ← key]
  congr 1
  ext ω
  simp only [Set.mem_setOf_eq, hs ω, mem_thresholds, List.mem_toFinset, mem_pairsNe]
  constructor
  · intro hh e he
    rw [← hh e.1 e.2 he]
    exact (and_iff_right he).symm
  · intro hh i j hij
    rw [← hh (i, j) hij]
    exact and_iff_right hij

theorem card_pairsLt (n : ℕ) : 2 * (pairsLt n).length + n = n * n := by
  rw [← List.toFinset_card_of_nodup (pairsLt_nodup n), pairsLt_toFinset]
  have h1 : (univ.filter fun e : Fin n × Fin n => e.1 < e.2).card = (univ.filter fun e : Fin n × Fin n => e.2 < e.1).card := by
    refine Finset.card_bij (fun e _ => (e.2, e.1)) ?_ ?_ ?_
    · intro e he; simpa using he
    · rintro ⟨a, b⟩ _ ⟨c, d⟩ _ h; simp at h; simp [h]
    · rintro ⟨a, b⟩ he; exact ⟨(b, a), by simpa using he, rfl⟩
  have h2 : (univ.filter fun e : Fin n × Fin n => e.1 = e.2).card = n := by
    have : (univ.filter fun e : Fin n × Fin n => e.1 = e.2) = univ.image fun i : Fin n => (i, i) := by
      ext ⟨a, b⟩; simp [eq_comm]
    rw [this, Finset.card_image_of_injective _ (fun a b h => (Prod.mk.inj h).1)]
    simp
  have h3 : (univ : Finset (Fin n × Fin n)).card = n * n := by simp
  have h4 : (univ : Finset (Fin n × Fin n)) = ((univ.filter fun e : Fin n × Fin n => e.1 < e.2) ∪ (univ.filter fun e : Fin n × Fin n => e.2 < e.1)) ∪ (univ.filter fun e : Fin n × Fin n => e.1 = e.2) := by
    ext ⟨a, b⟩
    simp only [mem_univ, mem_union, mem_filter, true_and, true_iff]
    rcases lt_trichotomy a b with h | h | h <;> simp [h]
  have h5 := congrArg Finset.card h4
  rw [h3, Finset.card_union_of_disjoint, Finset.card_union_of_disjoint, h2, ← h1] at h5
  · omega
  · rw [Finset.disjoint_filter]; intro e _ h; exact not_lt_of_gt h
  · rw [Finset.disjoint_left]
    intro e he he'
    simp only [mem_union, mem_filter, mem_univ, true_and] at he he'
    rcases he with h | h
    · exact h.ne he'
    · exact h.ne he'.symm

/-- C23: only one million seeds exist, so from 1415 nodes on two different pairs always share a seed, and hence their uniform number: whatever the random numbers,
the less probable of the two links is never present without the other. The links are not independent. -/
theorem C23_cm_large_networks_dependent (hn : 1415 ≤ n) {x : Fin n → ℝ} {seed : Option ℕ} {g : R.S × Option ℕ} {sample : Ω → List (ℕ × ℕ)}
    (h : SampleCM R U G hG x seed g sample) :
    ∃ i j k l : Fin n, i < j ∧ k < l ∧ (i, j) ≠ (k, l) ∧ ∀ ω, (i.val, j.val) ∈ sample ω → (k.val, l.val) ∈ sample ω := by
  classical
  obtain ⟨σ, h2, hs⟩ := sampleCM_eq h
  have hlen : 1000000 < (pairsLt n).toFinset.card := by
    rw [List.toFinset_card_of_nodup (pairsLt_nodup n)]
    have := card_pairsLt n
    nlinarith
  have hmap : ∀ e ∈ (pairsLt n).toFinset, σ e ∈ Finset.range 1000000 := by
    intro e he
    rw [Finset.mem_range]
    refine drawSeeds_lt R (pairsLt n).length (reseed R seed g.1) _ ?_
    rw [h2]
    exact List.mem_map_of_mem (List.mem_toFinset.1 he)
  obtain ⟨a, ha, b, hb, hab, hσ⟩ := Finset.exists_ne_map_eq_of_card_lt_of_maps_to (by rw [Finset.card_range]; exact hlen) hmap
  have ha := (mem_pairsLt a).1 (List.mem_toFinset.1 ha)
  have hb := (mem_pairsLt b).1 (List.mem_toFinset.1 hb)
  have key : ∀ a b : Fin n × Fin n, a.1 < a.2 → b.1 < b.2 → σ a = σ b → x a.1 * x a.2 / (1 + x a.1 * x a.2) ≤ x b.1 * x b.2 / (1 + x b.1 * x b.2) →
      ∀ ω, (a.1.val, a.2.val) ∈ sample ω → (b.1.val, b.2.val) ∈ sample ω := by
    intro a b ha hb hσ hle ω hω
    rw [hs ω, mem_thresholds] at hω ⊢
    refine ⟨(mem_pairsLt _).2 hb, ?_⟩
    have := hω.2
    rw [← show σ (a.1, a.2) = σ (b.1, b.2) from hσ]
    exact lt_of_lt_of_le this hle
  rcases le_total (x a.1 * x a.2 / (1 + x a.1 * x a.2)) (x b.1 * x b.2 / (1 + x b.1 * x b.2)) with hle | hle
  · exact ⟨a.1, a.2, b.1, b.2, ha, hb, hab, key a b ha hb hσ hle⟩
  · exact ⟨b.1, b.2, a.1, a.2, hb, ha, hab.symm, key b a hb ha hσ.symm hle⟩

/-! ### weighted samples -/

section weighted

open Classical in
theorem sampleECM_eq {x y : Fin n → ℝ} (hy : ∀ i j, i < j → 0 ≤ y i * y j ∧ y i * y j < 1) {seed : Option ℕ} {g : R.S × Option ℕ} {sample : Ω → List (ℕ × ℕ × ℕ)}
    (h : SampleECM R U G hG x y seed g sample) :
    ∃ σ : Fin n × Fin n → ℕ, (drawSeeds R (pairsLt n).length (reseed R seed g.1)).1 = (pairsLt n).map σ ∧ ∀ ω, sample ω = (pairsLt n).filterMap fun e =>
      if (U (σ e) ω : ℝ) < (x e.1 * x e.2) * (y e.1 * y e.2) / (1 - y e.1 * y e.2 + (x e.1 * x e.2) * (y e.1 * y e.2)) then
        some (e.1.val, e.2.val, G (σ e) (1 - y e.1 * y e.2) ω) else none := by
  obtain ⟨σ, h1, h2⟩ := zip_seeds (pairsLt n) (pairsLt_nodup n) (drawSeeds R (pairsLt n).length (reseed R seed g.1)).1 (drawSeeds_length R _ _)
  refine ⟨σ, h2, fun ω => ?_⟩
  obtain ⟨env, henv, he⟩ := h ω
  have he2 := sampleEdges_ok (R.ideal (U · ω) (fun s q => G s q ω) (hG · · ω)) (pairsLt n) _
    (fun (e : Fin n × Fin n) s => if unif (R.ideal (U · ω) (fun s q => G s q ω) (hG · · ω)) s < (x e.1 * x e.2) * (y e.1 * y e.2) / (1 - y e.1 * y e.2 + (x e.1 * x e.2) * (y e.1 * y e.2))
      then some (e.1.val, e.2.val, G s (1 - y e.1 * y e.2) ω) else none)
    (fun _ _ _ _ => rfl) (fun e he s => link_ecm_eq (R.ideal (U · ω) (fun s q => G s q ω) (hG · · ω)) (e.1.val, x e.1, y e.1) (e.2.val, x e.2, y e.2) s _
      (hy e.1 e.2 ((mem_pairsLt e).1 he)).1 (hy e.1 e.2 ((mem_pairsLt e).1 he)).2) env henv seed g
  have he3 := he2.symm.trans he
  rw [ideal_drawSeeds, ideal_reseed, h1, List.filterMap_map] at he3
  injection he3 with he3
  rw [← he3]
  rfl

open Classical in
theorem sampleDECM_eq {a_out a_in b_out b_in : Fin n → ℝ} (hy : ∀ i j, i ≠ j → 0 ≤ b_out i * b_in j ∧ b_out i * b_in j < 1) {seed : Option ℕ} {g : R.S × Option ℕ}
    {sample : Ω → List (ℕ × ℕ × ℕ)} (h : SampleDECM R U G hG a_out a_in b_out b_in seed g sample) :
    ∃ σ : Fin n × Fin n → ℕ, (drawSeeds R (pairsNe n).length (reseed R seed g.1)).1 = (pairsNe n).map σ ∧ ∀ ω, sample ω = (pairsNe n).filterMap fun e =>
      if (U (σ e) ω : ℝ) < (a_out e.1 * a_in e.2) * (b_out e.1 * b_in e.2) / (1 - b_out e.1 * b_in e.2 + (a_out e.1 * a_in e.2) * (b_out e.1 * b_in e.2)) then
        some (e.1.val, e.2.val, G (σ e) (1 - b_out e.1 * b_in e.2) ω) else none := by
  obtain ⟨σ, h1, h2⟩ := zip_seeds (pairsNe n) (pairsNe_nodup n) (drawSeeds R (pairsNe n).length (reseed R seed g.1)).1 (drawSeeds_length R _ _)
  refine ⟨σ, h2, fun ω => ?_⟩
  obtain ⟨env, henv, he⟩ := h ω
  have he2 := sampleEdges_ok (R.ideal (U · ω) (fun s q => G s q ω) (hG · · ω)) (pairsNe n) _
    (fun (e : Fin n × Fin n) s => if unif (R.ideal (U · ω) (fun s q => G s q ω) (hG · · ω)) s < (a_out e.1 * a_in e.2) * (b_out e.1 * b_in e.2) / (1 - b_out e.1 * b_in e.2 + (a_out e.1 * a_in e.2) * (b_out e.1 * b_in e.2))
      then some (e.1.val, e.2.val, G s (1 - b_out e.1 * b_in e.2) ω) else none)
    (fun _ _ _ _ => rfl) (fun e he s => link_decm_eq (R.ideal (U · ω) (fun s q => G s q ω) (hG · · ω)) (e.1.val, a_out e.1, b_out e.1) (e.2.val, a_in e.2, b_in e.2) s _
      (hy e.1 e.2 ((mem_pairsNe e).1 he)).1 (hy e.1 e.2 ((mem_pairsNe e).1 he)).2) env henv seed g
  have he3 := he2.symm.trans he
  rw [ideal_drawSeeds, ideal_reseed, h1, List.filterMap_map] at he3
  injection he3 with he3
  rw [← he3]
  rfl

open Classical in
theorem mem_weighted {l : List (Fin n × Fin n)} {c : Fin n × Fin n → Prop} {w : Fin n × Fin n → ℕ} (i j : Fin n) (k : ℕ) :
    (i.val, j.val, k) ∈ (l.filterMap fun e => if c e then some (e.1.val, e.2.val, w e) else none) ↔ (i, j) ∈ l ∧ c (i, j) ∧ w (i, j) = k := by
  rw [List.mem_filterMap]
  constructor
  · rintro ⟨e, he, h⟩
    split at h
    · rename_i hc
      obtain ⟨h1, h2⟩ := Prod.mk.inj (Option.some.inj h)
      obtain ⟨h2, h3⟩ := Prod.mk.inj h2
      obtain rfl : e = (i, j) := Prod.ext (Fin.ext h1) (Fin.ext h2)
      exact ⟨he, hc, h3⟩
    · cases h
  · rintro ⟨hl, hc, hw⟩
    exact ⟨(i, j), hl, by rw [if_pos hc, ← hw]⟩

theorem wprob_bounds {a b : ℝ} (ha : 0 ≤ a) (hb : 0 ≤ b) (hb1 : b < 1) : 0 ≤ a * b / (1 - b + a * b) ∧ a * b / (1 - b + a * b) ≤ 1 := by
  have : 0 < 1 - b + a * b := by nlinarith [mul_nonneg ha hb]
  exact ⟨by positivity, by rw [div_le_one this]; linarith⟩

/-- mean of a variable with values `w+1` taken with probability `p q (1-q)^w` and value 0 otherwise -/
theorem mean_geometric [IsProbabilityMeasure P] (f : Ω → ℕ) (hf : Measurable f) (p q : ℝ) (hp : 0 ≤ p) (hq : 0 < q) (hq1 : q ≤ 1)
    (hlaw : ∀ w, P {ω | f ω = w + 1} = ENNReal.ofReal (p * (q * (1 - q) ^ w))) :
    Integrable (fun ω => (f ω : ℝ)) P ∧ ∫ ω, (f ω : ℝ) ∂P = p / q := by
  have hsum : HasSum (fun w : ℕ => ((w + 1 : ℕ) : ℝ) * (p * (q * (1 - q) ^ w))) (p / q) := by
    have hr : ‖1 - q‖ < 1 := by rw [Real.norm_eq_abs, abs_lt]; constructor <;> linarith
    have h1 := hasSum_coe_mul_geometric_of_norm_lt_one hr
    have h2 := hasSum_geometric_of_norm_lt_one hr
    have h3 := (h1.add h2).mul_left (p * q)
    have e1 : p * q * ((1 - q) / (1 - (1 - q)) ^ 2 + (1 - (1 - q))⁻¹) = p / q := by
      have : q ≠ 0 := hq.ne'
      rw [sub_sub_cancel]
      field_simp
      ring
    rw [e1] at h3
    refine h3.congr_fun ?_ |> fun h => h
    intro w
    push_cast
    ring
  have hl : ∫⁻ ω, ((f ω : ℕ) : ENNReal) ∂P = ENNReal.ofReal (p / q) := by
    have h1 : ∫⁻ ω, ((f ω : ℕ) : ENNReal) ∂P = ∫⁻ k, (k : ENNReal) ∂(P.map f) := (lintegral_map (measurable_of_countable _) hf).symm
    rw [h1, lintegral_countable', tsum_eq_zero_add' ENNReal.summable]
    rw [Nat.cast_zero, zero_mul, zero_add, ← hsum.tsum_eq, ENNReal.ofReal_tsum_of_nonneg _ hsum.summable]
    · refine tsum_congr fun w => ?_
      rw [Measure.map_apply hf (measurableSet_singleton _), ENNReal.ofReal_mul (by positivity), ENNReal.ofReal_natCast]
      congr 1
      rw [← hlaw w]
      rfl
    · intro w
      have : 0 ≤ 1 - q := by linarith
      positivity
  have hm : Measurable fun ω => (f ω : ℝ) := measurable_from_nat.comp hf
  have hn : ∀ ω, ‖(f ω : ℝ)‖ₑ = ((f ω : ℕ) : ENNReal) := by
    intro ω
    rw [Real.enorm_eq_ofReal (by positivity), ENNReal.ofReal_natCast]
  refine ⟨⟨hm.aestronglyMeasurable, ?_⟩, ?_⟩
  · rw [HasFiniteIntegral]
    simp only [hn, hl]
    exact ENNReal.ofReal_lt_top
  · rw [integral_eq_lintegral_of_nonneg_ae (Filter.Eventually.of_forall fun ω => by positivity) hm.aestronglyMeasurable]
    simp only [ENNReal.ofReal_natCast, hl]
    exact ENNReal.toReal_ofReal (by positivity)

/-- the mean of a finite sum of geometric link weights -/
theorem integral_weights [IsProbabilityMeasure P] (hU : UniformSource P U) (hGs : GeometricSource P U G) {A : Type} (s : Finset A) (σ : A → ℕ) (p q : A → ℝ) (c : A → ℝ)
    (h0 : ∀ e ∈ s, 0 ≤ p e) (h1 : ∀ e ∈ s, p e ≤ 1) (hq0 : ∀ e ∈ s, 0 < q e) (hq1 : ∀ e ∈ s, q e ≤ 1) :
    ∫ ω, ∑ e ∈ s, (open Classical in if (U (σ e) ω : ℝ) < p e then c e * (G (σ e) (q e) ω : ℝ) else 0) ∂P = ∑ e ∈ s, c e * (p e / q e) := by
  classical
  let f : A → Ω → ℕ := fun e ω => if (U (σ e) ω : ℝ) < p e then G (σ e) (q e) ω else 0
  have hf : ∀ e, Measurable (f e) := fun e => Measurable.ite (meas_lt hU.meas _ _) (hGs.meas _ _) measurable_const
  have hlaw : ∀ e ∈ s, ∀ w, P {ω | f e ω = w + 1} = ENNReal.ofReal (p e * (q e * (1 - q e) ^ w)) := by
    intro e he w
    rw [← hGs.law (σ e) (q e) (p e) w (hq0 e he) (hq1 e he) (h0 e he) (h1 e he)]
    congr 1
    ext ω
    simp only [f, Set.mem_setOf_eq]
    split
    · rename_i h; simp [h]
    · rename_i h; simp [h]
  have hg : ∀ e ω, (if (U (σ e) ω : ℝ) < p e then c e * (G (σ e) (q e) ω : ℝ) else 0) = c e * (f e ω : ℝ) := by
    intro e ω; simp only [f]; split <;> simp
  simp only [hg]
  rw [integral_finsetSum]
  · refine Finset.sum_congr rfl fun e he => ?_
    rw [integral_const_mul, (mean_geometric (f e) (hf e) (p e) (q e) (h0 e he) (hq0 e he) (hq1 e he) (hlaw e he)).2]
  · intro e he
    exact (mean_geometric (f e) (hf e) (p e) (q e) (h0 e he) (hq0 e he) (hq1 e he) (hlaw e he)).1.const_mul _

/-- C23: with ideal random numbers the weight of the pair `i < j` in a sampled weighted graph is `w + 1` with probability `p_ij (1 - y_i y_j) (y_i y_j)^w`, the law
of the enhanced configuration model. -/
theorem C23_ecm_weight_law [IsProbabilityMeasure P] (hGs : GeometricSource P U G) {x y : Fin n → ℝ} (hx : ∀ i, 0 ≤ x i)
    (hy : ∀ i j, i < j → 0 ≤ y i * y j ∧ y i * y j < 1) {seed : Option ℕ} {g : R.S × Option ℕ} {sample : Ω → List (ℕ × ℕ × ℕ)}
    (h : SampleECM R U G hG x y seed g sample) (i j : Fin n) (hij : i < j) (w : ℕ) :
    P {ω | (i.val, j.val, w + 1) ∈ sample ω} = ENNReal.ofReal ((x i * x j) * (y i * y j) / (1 - y i * y j + (x i * x j) * (y i * y j)) *
      ((1 - y i * y j) * (y i * y j) ^ w)) := by
  classical
  obtain ⟨σ, -, hs⟩ := sampleECM_eq hy h
  have hb := hy i j hij
  have hp := wprob_bounds (mul_nonneg (hx i) (hx j)) hb.1 hb.2
  have hl := hGs.law (σ (i, j)) (1 - y i * y j) ((x i * x j) * (y i * y j) / (1 - y i * y j + (x i * x j) * (y i * y j))) w (by linarith) (by linarith) hp.1 hp.2
  rw [sub_sub_cancel] at hl
  rw [← hl]
  congr 1
  ext ω
  rw [Set.mem_setOf_eq, Set.mem_setOf_eq, hs ω, mem_weighted]
  exact and_iff_right ((mem_pairsLt _).2 hij)

/-- C23: the same for the directed weighted model. -/
theorem C23_decm_weight_law [IsProbabilityMeasure P] (hGs : GeometricSource P U G) {a_out a_in b_out b_in : Fin n → ℝ} (ho : ∀ i, 0 ≤ a_out i) (hi : ∀ i, 0 ≤ a_in i)
    (hy : ∀ i j, i ≠ j → 0 ≤ b_out i * b_in j ∧ b_out i * b_in j < 1) {seed : Option ℕ} {g : R.S × Option ℕ} {sample : Ω → List (ℕ × ℕ × ℕ)}
    (h : SampleDECM R U G hG a_out a_in b_out b_in seed g sample) (i j : Fin n) (hij : i ≠ j) (w : ℕ) :
    P {ω | (i.val, j.val, w + 1) ∈ sample ω} = ENNReal.ofReal ((a_out i * a_in j) * (b_out i * b_in j) / (1 - b_out i * b_in j + (a_out i * a_in j) * (b_out i * b_in j)) *
      ((1 - b_out i * b_in j) * (b_out i * b_in j) ^ w)) := by
  classical
  obtain ⟨σ, -, hs⟩ := sampleDECM_eq hy h
  have hb := hy i j hij
  have hp := wprob_bounds (mul_nonneg (ho i) (hi j)) hb.1 hb.2
  have hl := hGs.law (σ (i, j)) (1 - b_out i * b_in j) ((a_out i * a_in j) * (b_out i * b_in j) / (1 - b_out i * b_in j + (a_out i * a_in j) * (b_out i * b_in j))) w
    (by linarith) (by linarith) hp.1 hp.2
  rw [sub_sub_cancel] at hl
  rw [← hl]
  congr 1
  ext ω
  rw [Set.mem_setOf_eq, Set.mem_setOf_eq, hs ω, mem_weighted]
  exact and_iff_right ((mem_pairsNe _).2 hij)

/-- C23: the mean degree and the mean strength of every node over the sampled weighted graphs are the two blocks of `expected_ecm`. -/
theorem C23_ecm_means [IsProbabilityMeasure P] (hU : UniformSource P U) (hGs : GeometricSource P U G) (sol : Fin 2 × Fin n → ℝ) (hx : ∀ i, 0 ≤ sol (0, i))
    (hy : ∀ i j, i ≠ j → 0 ≤ sol (1, i) * sol (1, j) ∧ sol (1, i) * sol (1, j) < 1) {seed : Option ℕ} {g : R.S × Option ℕ} {sample : Ω → List (ℕ × ℕ × ℕ)}
    (h : SampleECM R U G hG (fun i => sol (0, i)) (fun i => sol (1, i)) seed g sample) (i : Fin n) :
    ∫ ω, (degreeIn ((sample ω).map fun e => (e.1, e.2.1)) i : ℝ) ∂P = ECM.expected_ecm sol (0, i) ∧
      ∫ ω, (strengthIn (sample ω) i : ℝ) ∂P = ECM.expected_ecm sol (1, i) := by
  classical
  obtain ⟨σ, -, hs⟩ := sampleECM_eq (fun i j hij => hy i j hij.ne) h
  let p : Fin n × Fin n → ℝ := fun e => (sol (0, e.1) * sol (0, e.2)) * (sol (1, e.1) * sol (1, e.2)) /
    (1 - sol (1, e.1) * sol (1, e.2) + (sol (0, e.1) * sol (0, e.2)) * (sol (1, e.1) * sol (1, e.2)))
  have hp : ∀ e ∈ (pairsLt n).toFinset, 0 ≤ p e ∧ p e ≤ 1 := by
    intro e he
    have hb := hy e.1 e.2 ((mem_pairsLt e).1 (List.mem_toFinset.1 he)).ne
    exact wprob_bounds (mul_nonneg (hx _) (hx _)) hb.1 hb.2
  have hsym : ∀ a b, p (a, b) = p (b, a) := by
    intro a b; simp only [p]; rw [mul_comm (sol (0, a)), mul_comm (sol (1, a))]
  constructor
  · have hd : ∀ ω, (degreeIn ((sample ω).map fun e => (e.1, e.2.1)) i : ℝ) = ∑ e ∈ (pairsLt n).toFinset,
        if (U (σ e) ω : ℝ) < p e then (if e.1 = i ∨ e.2 = i then 1 else 0) else 0 := by
      intro ω
      rw [degreeIn, length_filter, hs ω, List.map_map, sum_filterMap, list_sum_eq _ (pairsLt_nodup n)]
      refine Finset.sum_congr rfl fun e _ => ?_
      split
      · show (if e.1.val = i.val ∨ e.2.val = i.val then (1 : ℝ) else 0) = _
        simp only [Fin.val_inj]
      · rfl
    simp only [hd]
    rw [integral_links hU (pairsLt n).toFinset σ p (fun e => if e.1 = i ∨ e.2 = i then 1 else 0) (fun e he => (hp e he).1) (fun e he => (hp e he).2),
      pairsLt_toFinset, ECM.expected_eq0]
    simp only [ite_mul, one_mul, zero_mul]
    rw [sum_pairs_at i p]
    refine Finset.sum_congr rfl fun j _ => ?_
    rcases le_total i j with hij | hij
    · simp only [min_eq_left hij, max_eq_right hij]; rfl
    · simp only [min_eq_right hij, max_eq_left hij, hsym j i]; rfl
  · have hd : ∀ ω, (strengthIn (sample ω) i : ℝ) = ∑ e ∈ (pairsLt n).toFinset,
        if (U (σ e) ω : ℝ) < p e then (if e.1 = i ∨ e.2 = i then 1 else 0) * (G (σ e) (1 - sol (1, e.1) * sol (1, e.2)) ω : ℝ) else 0 := by
      intro ω
      rw [strengthIn, sum_filter_map, hs ω, sum_filterMap, list_sum_eq _ (pairsLt_nodup n)]
      refine Finset.sum_congr rfl fun e _ => ?_
      split
      · show (if e.1.val = i.val ∨ e.2.val = i.val then (_ : ℝ) else 0) = _
        simp only [Fin.val_inj, ite_mul, one_mul, zero_mul]
      · rfl
    simp only [hd]
    rw [integral_weights hU hGs (pairsLt n).toFinset σ p (fun e => 1 - sol (1, e.1) * sol (1, e.2)) (fun e => if e.1 = i ∨ e.2 = i then 1 else 0) (fun e he => (hp e he).1)
      (fun e he => (hp e he).2), pairsLt_toFinset, ECM.expected_eq1]
    · simp only [ite_mul, one_mul, zero_mul]
      rw [sum_pairs_at i fun e => p e / (1 - sol (1, e.1) * sol (1, e.2))]
      refine Finset.sum_congr rfl fun j _ => ?_
      rcases le_total i j with hij | hij
      · simp only [min_eq_left hij, max_eq_right hij, p, div_div]
      · simp only [min_eq_right hij, max_eq_left hij, hsym j i, mul_comm (sol (1, j)) (sol (1, i)), p, div_div]
    · intro e he
      have hb := hy e.1 e.2 ((mem_pairsLt e).1 (List.mem_toFinset.1 he)).ne
      linarith
    · intro e he
      have hb := hy e.1 e.2 ((mem_pairsLt e).1 (List.mem_toFinset.1 he)).ne
      linarith

/-- C23: the mean out/in-degrees and out/in-strengths over the sampled weighted digraphs are the four blocks of `expected_decm`. -/
theorem C23_decm_means [IsProbabilityMeasure P] (hU : UniformSource P U) (hGs : GeometricSource P U G) (sol : Fin 4 × Fin n → ℝ) (ho : ∀ i, 0 ≤ sol (0, i))
    (hi : ∀ i, 0 ≤ sol (1, i)) (hy : ∀ i j, i ≠ j → 0 ≤ sol (2, i) * sol (3, j) ∧ sol (2, i) * sol (3, j) < 1) {seed : Option ℕ} {g : R.S × Option ℕ}
    {sample : Ω → List (ℕ × ℕ × ℕ)}
    (h : SampleDECM R U G hG (fun i => sol (0, i)) (fun i => sol (1, i)) (fun i => sol (2, i)) (fun i => sol (3, i)) seed g sample) (i : Fin n) :
    ∫ ω, (outDegreeIn ((sample ω).map fun e => (e.1, e.2.1)) i : ℝ) ∂P = DECM.expected_decm sol (0, i) ∧
      ∫ ω, (inDegreeIn ((sample ω).map fun e => (e.1, e.2.1)) i : ℝ) ∂P = DECM.expected_decm sol (1, i) ∧
      ∫ ω, (outStrengthIn (sample ω) i : ℝ) ∂P = DECM.expected_decm sol (2, i) ∧
      ∫ ω, (inStrengthIn (sample ω) i : ℝ) ∂P = DECM.expected_decm sol (3, i) := by
  classical
  obtain ⟨σ, -, hs⟩ := sampleDECM_eq hy h
  let p : Fin n × Fin n → ℝ := fun e => (sol (0, e.1) * sol (1, e.2)) * (sol (2, e.1) * sol (3, e.2)) /
    (1 - sol (2, e.1) * sol (3, e.2) + (sol (0, e.1) * sol (1, e.2)) * (sol (2, e.1) * sol (3, e.2)))
  have hb : ∀ e ∈ (pairsNe n).toFinset, 0 ≤ sol (2, e.1) * sol (3, e.2) ∧ sol (2, e.1) * sol (3, e.2) < 1 :=
    fun e he => hy e.1 e.2 ((mem_pairsNe e).1 (List.mem_toFinset.1 he))
  have hp : ∀ e ∈ (pairsNe n).toFinset, 0 ≤ p e ∧ p e ≤ 1 := fun e he => wprob_bounds (mul_nonneg (ho _) (hi _)) (hb e he).1 (hb e he).2
  have hq : ∀ a b c d : ℝ, 0 ≤ a * b → 0 ≤ c * d → c * d < 1 → c * DECM.Q a b c d = a * b * (c * d) / (1 - c * d + a * b * (c * d)) / (1 - c * d) := by
    intro a b c d hab h0 h1
    have e1 : 1 - c * d ≠ 0 := by linarith
    have e2 : 1 - c * d + a * b * (c * d) ≠ 0 := by nlinarith [mul_nonneg hab h0]
    unfold DECM.Q
    generalize hD : 1 - c * d + a * b * (c * d) = D at e2 ⊢
    have hD' : a * b * (c * d) = D - (1 - c * d) := by rw [← hD]; ring
    rw [hD']
    field_simp
    linear_combination (1 - c * d) * hD'
  obtain ⟨x0, x1, x2, x3⟩ := DECM.expected_eq sol i
  rw [x0, x1, x2, x3, DECM.fa_out_eq, DECM.fa_in_eq, DECM.fb_out_eq, DECM.fb_in_eq]
  refine ⟨?_, ?_, ?_, ?_⟩
  · have hd : ∀ ω, (outDegreeIn ((sample ω).map fun e => (e.1, e.2.1)) i : ℝ) = ∑ e ∈ (pairsNe n).toFinset,
        if (U (σ e) ω : ℝ) < p e then (if e.1 = i then 1 else 0) else 0 := by
      intro ω
      rw [outDegreeIn, length_filter, hs ω, List.map_map, sum_filterMap, list_sum_eq _ (pairsNe_nodup n)]
      refine Finset.sum_congr rfl fun e _ => ?_
      split
      · show (if e.1.val = i.val then (1 : ℝ) else 0) = _
        simp only [Fin.val_inj]
      · rfl
    simp only [hd]
    rw [integral_links hU (pairsNe n).toFinset σ p (fun e => if e.1 = i then 1 else 0) (fun e he => (hp e he).1) (fun e he => (hp e he).2), pairsNe_toFinset]
    simp only [ite_mul, one_mul, zero_mul]
    rw [sum_arcs_out i p, Finset.mul_sum]
    refine Finset.sum_congr rfl fun j _ => ?_
    by_cases hij : i = j
    · simp [hij]
    · simp only [hij, if_false, p, DECM.P]
      ring
  · have hd : ∀ ω, (inDegreeIn ((sample ω).map fun e => (e.1, e.2.1)) i : ℝ) = ∑ e ∈ (pairsNe n).toFinset,
        if (U (σ e) ω : ℝ) < p e then (if e.2 = i then 1 else 0) else 0 := by
      intro ω
      rw [inDegreeIn, length_filter, hs ω, List.map_map, sum_filterMap, list_sum_eq _ (pairsNe_nodup n)]
      refine Finset.sum_congr rfl fun e _ => ?_
      split
      · show (if e.2.val = i.val then (1 : ℝ) else 0) = _
        simp only [Fin.val_inj]
      · rfl
    simp only [hd]
    rw [integral_links hU (pairsNe n).toFinset σ p (fun e => if e.2 = i then 1 else 0) (fun e he => (hp e he).1) (fun e he => (hp e he).2), pairsNe_toFinset]
    simp only [ite_mul, one_mul, zero_mul]
    rw [sum_arcs_in i p, Finset.mul_sum]
    refine Finset.sum_congr rfl fun j _ => ?_
    by_cases hij : i = j
    · simp [hij]
    · simp only [hij, if_false, p, DECM.P]
      rw [mul_comm (sol (2, j)) (sol (3, i)), mul_comm (sol (0, j)) (sol (1, i))]
      ring
  · have hd : ∀ ω, (outStrengthIn (sample ω) i : ℝ) = ∑ e ∈ (pairsNe n).toFinset,
        if (U (σ e) ω : ℝ) < p e then (if e.1 = i then 1 else 0) * (G (σ e) (1 - sol (2, e.1) * sol (3, e.2)) ω : ℝ) else 0 := by
      intro ω
      rw [outStrengthIn, sum_filter_map, hs ω, sum_filterMap, list_sum_eq _ (pairsNe_nodup n)]
      refine Finset.sum_congr rfl fun e _ => ?_
      split
      · show (if e.1.val = i.val then (_ : ℝ) else 0) = _
        simp only [Fin.val_inj, ite_mul, one_mul, zero_mul]
      · rfl
    simp only [hd]
    rw [integral_weights hU hGs (pairsNe n).toFinset σ p (fun e => 1 - sol (2, e.1) * sol (3, e.2)) (fun e => if e.1 = i then 1 else 0) (fun e he => (hp e he).1)
      (fun e he => (hp e he).2) (fun e he => by linarith [(hb e he).2]) (fun e he => by linarith [(hb e he).1]), pairsNe_toFinset]
    simp only [ite_mul, one_mul, zero_mul]
    rw [sum_arcs_out i fun e => p e / (1 - sol (2, e.1) * sol (3, e.2)), Finset.mul_sum]
    refine Finset.sum_congr rfl fun j _ => ?_
    by_cases hij : i = j
    · simp [hij]
    · have hb := hy i j hij
      simp only [hij, if_false, p]
      rw [hq _ _ _ _ (mul_nonneg (ho i) (hi j)) hb.1 hb.2]
  · have hd : ∀ ω, (inStrengthIn (sample ω) i : ℝ) = ∑ e ∈ (pairsNe n).toFinset,
        if (U (σ e) ω : ℝ) < p e then (if e.2 = i then 1 else 0) * (G (σ e) (1 - sol (2, e.1) * sol (3, e.2)) ω : ℝ) else 0 := by
      intro ω
      rw [inStrengthIn, sum_filter_map, hs ω, sum_filterMap, list_sum_eq _ (pairsNe_nodup n)]
      refine Finset.sum_congr rfl fun e _ => ?_
      split
      · show (if e.2.val = i.val then (_ : ℝ) else 0) = _
        simp only [Fin.val_inj, ite_mul, one_mul, zero_mul]
      · rfl
    simp only [hd]
    rw [integral_weights hU hGs (pairsNe n).toFinset σ p (fun e => 1 - sol (2, e.1) * sol (3, e.2)) (fun e => if e.2 = i then 1 else 0) (fun e he => (hp e he).1)
      (fun e he => (hp e he).2) (fun e he => by linarith [(hb e he).2]) (fun e he => by linarith [(hb e he).1]), pairsNe_toFinset]
    simp only [ite_mul, one_mul, zero_mul]
    rw [sum_arcs_in i fun e => p e / (1 - sol (2, e.1) * sol (3, e.2)), Finset.mul_sum]
    refine Finset.sum_congr rfl fun j _ => ?_
    by_cases hij : i = j
    · simp [hij]
    · have hb := hy j i (Ne.symm hij)
      rw [mul_comm] at hb
      simp only [hij, if_false, p]
      rw [hq _ _ _ _ (mul_nonneg (hi i) (ho j)) hb.1 hb.2, mul_comm (sol (2, j)) (sol (3, i)), mul_comm (sol (0, j)) (sol (1, i))]

end weighted

/-! ### ideal random numbers exist -/

noncomputable instance : MeasureSpace I01 := Measure.Subtype.measureSpace

instance : IsProbabilityMeasure (volume : Measure I01) := by
  constructor
  rw [Measure.Subtype.volume_univ measurableSet_Ico.nullMeasurableSet, Real.volume_Ico]
  simp

theorem preimage_volume {s : Set ℝ} (hs : MeasurableSet s) : (volume : Measure I01) (Subtype.val ⁻¹' s) = volume (s ∩ Set.Ico 0 1) := by
  show (Measure.comap Subtype.val volume) (Subtype.val ⁻¹' s) = _
  rw [comap_subtype_coe_apply measurableSet_Ico, Subtype.image_preimage_coe, Set.inter_comm]

theorem I01_lt (t : ℝ) (h1 : t ≤ 1) : (volume : Measure I01) {u | (u : ℝ) < t} = ENNReal.ofReal t := by
  rw [show {u : I01 | (u : ℝ) < t} = Subtype.val ⁻¹' (Set.Iio t) from rfl, preimage_volume measurableSet_Iio]
  have : Set.Iio t ∩ Set.Ico 0 1 = Set.Ico 0 t := by
    ext v; simp only [Set.mem_inter_iff, Set.mem_Iio, Set.mem_Ico]; constructor
    · rintro ⟨h, h', _⟩; exact ⟨h', h⟩
    · rintro ⟨h, h'⟩; exact ⟨h', h, by linarith⟩
  rw [this, Real.volume_Ico, sub_zero]

/-- inverse transform: the geometric variate with parameter `q` computed from the uniform number `v` -/
noncomputable def geoInv (q : ℝ) (v : I01) : ℕ :=
  open Classical in if h : (0 < q ∧ q ≤ 1) ∧ ∃ w : ℕ, (v : ℝ) < 1 - (1 - q) ^ (w + 1) then Nat.find h.2 + 1 else 1

theorem geoInv_exists {q : ℝ} (h0 : 0 < q) (h1 : q ≤ 1) (v : I01) : ∃ w : ℕ, (v : ℝ) < 1 - (1 - q) ^ (w + 1) := by
  obtain ⟨w, hw⟩ := exists_pow_lt_of_lt_one (show (0 : ℝ) < 1 - v by linarith [v.2.2]) (show 1 - q < 1 by linarith)
  refine ⟨w, ?_⟩
  have : (1 - q) ^ (w + 1) ≤ (1 - q) ^ w := pow_le_pow_of_le_one (by linarith) (by linarith) (Nat.le_succ w)
  linarith

theorem geoInv_eq_iff {q : ℝ} (h0 : 0 < q) (h1 : q ≤ 1) (v : I01) (w : ℕ) : geoInv q v = w + 1 ↔ 1 - (1 - q) ^ w ≤ (v : ℝ) ∧ (v : ℝ) < 1 - (1 - q) ^ (w + 1) := by
  classical
  have hex := geoInv_exists h0 h1 v
  unfold geoInv
  rw [dif_pos ⟨⟨h0, h1⟩, hex⟩, Nat.succ_inj]
  constructor
  · rintro rfl
    refine ⟨?_, by convert Nat.find_spec hex⟩
    rcases Nat.eq_zero_or_pos (Nat.find hex) with h | h
    · have : Nat.find hex = 0 := h
      rw [show (1 - q) ^ _ = (1 : ℝ) from by convert pow_zero (1 - q)]
      simpa using v.2.1
    · have := Nat.find_min hex (m := Nat.find hex - 1) (by omega)
      rw [not_lt, Nat.sub_add_cancel h] at this
      convert this
  · rintro ⟨hl, hr⟩
    rw [Nat.find_eq_iff]
    refine ⟨hr, fun m hm => ?_⟩
    rw [not_lt]
    refine le_trans ?_ hl
    have := pow_le_pow_of_le_one (show 0 ≤ 1 - q by linarith) (by linarith) (show m + 1 ≤ w by omega)
    linarith

theorem measurable_geoInv (q : ℝ) : Measurable (geoInv q) := by
  by_cases hq : 0 < q ∧ q ≤ 1
  · refine measurable_to_countable' fun k => ?_
    cases k with
    | zero =>
      have : geoInv q ⁻¹' {0} = ∅ := by
        ext v; simp only [Set.mem_preimage, Set.mem_singleton_iff, Set.mem_empty_iff_false, iff_false]
        unfold geoInv; split <;> simp
      rw [this]; exact MeasurableSet.empty
    | succ w =>
      have : geoInv q ⁻¹' {w + 1} = Subtype.val ⁻¹' (Set.Ico (1 - (1 - q) ^ w) (1 - (1 - q) ^ (w + 1))) := by
        ext v; exact geoInv_eq_iff hq.1 hq.2 v w
      rw [this]; exact measurable_subtype_coe measurableSet_Ico
  · have : geoInv q = fun _ => 1 := by
      funext v; unfold geoInv; rw [dif_neg fun h => hq h.1]
    rw [this]; exact measurable_const

theorem geoInv_law {q : ℝ} (h0 : 0 < q) (h1 : q ≤ 1) (w : ℕ) : (volume : Measure I01) {v | geoInv q v = w + 1} = ENNReal.ofReal (q * (1 - q) ^ w) := by
  have : {v : I01 | geoInv q v = w + 1} = Subtype.val ⁻¹' (Set.Ico (1 - (1 - q) ^ w) (1 - (1 - q) ^ (w + 1))) := by
    ext v; exact geoInv_eq_iff h0 h1 v w
  rw [this, preimage_volume measurableSet_Ico]
  have hq : 0 ≤ 1 - q := by linarith
  have hw : (1 - q) ^ w ≤ 1 := pow_le_one₀ hq (by linarith)
  have hw' : 0 ≤ (1 - q) ^ (w + 1) := by positivity
  have : Set.Ico (1 - (1 - q) ^ w) (1 - (1 - q) ^ (w + 1)) ∩ Set.Ico 0 1 = Set.Ico (1 - (1 - q) ^ w) (1 - (1 - q) ^ (w + 1)) := by
    refine Set.inter_eq_left.2 fun v hv => ⟨?_, ?_⟩
    · linarith [hv.1]
    · linarith [hv.2]
  rw [this, Real.volume_Ico]
  congr 1
  ring

/-- ideal random numbers exist: a probability space with independent uniform numbers for all seeds and, for every seed and parameter, a geometric variate independent of
the uniform number of that seed -/
theorem ideal_exists : ∃ (Ω : Type) (_ : MeasurableSpace Ω) (P : Measure Ω) (U : ℕ → Ω → I01) (G : ℕ → ℝ → Ω → ℕ),
    IsProbabilityMeasure P ∧ UniformSource P U ∧ iIndepFun U P ∧ GeometricSource P U G := by
  let μ : Measure (ℕ → I01) := Measure.infinitePi fun _ => (volume : Measure I01)
  have hμ : ∀ s (t : ℝ), t ≤ 1 → μ {f | (f s : ℝ) < t} = ENNReal.ofReal t := by
    intro s t h1
    rw [← I01_lt t h1, ← Measure.infinitePi_map_eval (fun _ : ℕ => (volume : Measure I01)) s, Measure.map_apply (measurable_pi_apply s)]
    · rfl
    · exact measurableSet_lt measurable_subtype_coe measurable_const
  have hm : ∀ s (t : ℝ), MeasurableSet {f : ℕ → I01 | (f s : ℝ) < t} := fun s t =>
    measurableSet_lt (measurable_subtype_coe.comp (measurable_pi_apply s)) measurable_const
  refine ⟨(ℕ → I01) × I01, inferInstance, μ.prod volume, fun s ω => ω.1 s, fun _ q ω => geoInv q ω.2, inferInstance, ⟨?_, ?_⟩, ?_, ⟨?_, ?_, ?_⟩⟩
  · intro s; exact (measurable_pi_apply s).comp measurable_fst
  · intro s t h0 h1
    have : {ω : (ℕ → I01) × I01 | (ω.1 s : ℝ) < t} = {f : ℕ → I01 | (f s : ℝ) < t} ×ˢ Set.univ := by ext ω; simp
    rw [this, Measure.prod_prod, hμ s t h1]; simp
  · have h1 : iIndepFun (fun s (f : ℕ → I01) => f s) μ := iIndepFun_infinitePi (X := fun _ v => v) (fun _ => measurable_id)
    rw [iIndepFun_iff_measure_inter_preimage_eq_mul] at h1 ⊢
    intro S sets hsets
    have h2 := h1 S hsets
    have e1 : (⋂ i ∈ S, (fun ω : (ℕ → I01) × I01 => ω.1 i) ⁻¹' sets i) = (⋂ i ∈ S, (fun f : ℕ → I01 => f i) ⁻¹' sets i) ×ˢ Set.univ := by ext ω; simp
    have e2 : ∀ i, (fun ω : (ℕ → I01) × I01 => ω.1 i) ⁻¹' sets i = ((fun f : ℕ → I01 => f i) ⁻¹' sets i) ×ˢ Set.univ := by intro i; ext ω; simp
    rw [e1]
    simp only [e2, Measure.prod_prod, measure_univ, mul_one]
    exact h2
  · intro s q; exact (measurable_geoInv q).comp measurable_snd
  · intro s q ω; show 1 ≤ geoInv q ω.2; unfold geoInv; split <;> omega
  · intro s q t w hq0 hq1 h0 h1
    have : {ω : (ℕ → I01) × I01 | (ω.1 s : ℝ) < t ∧ geoInv q ω.2 = w + 1} = {f : ℕ → I01 | (f s : ℝ) < t} ×ˢ {v | geoInv q v = w + 1} := by ext ω; simp
    rw [this, Measure.prod_prod, hμ s t h1, geoInv_law hq0 hq1, ENNReal.ofReal_mul h0]

/-- samples exist for every generator, seed and parameters: the samplers never raise (weighted: in the domain of the model) -/
example (x : Fin n → ℝ) (seed : Option ℕ) (g : R.S × Option ℕ) : ∃ sample, SampleCM R U G hG x seed g sample := by
  have : ∀ ω, ∃ es, ∃ env : Env (R.ideal (U · ω) (fun s q => G s q ω) (hG · · ω)), (∀ T, (env T).Complete) ∧ cm_edges _ x env seed g = .ok es := fun ω => by
    obtain ⟨es, h, _⟩ := C19_edges (R.ideal (U · ω) (fun s q => G s q ω) (hG · · ω)) x (seqEnv _) (seqEnv_complete _) seed g
    exact ⟨es, seqEnv _, seqEnv_complete _, h⟩
  exact ⟨fun ω => (this ω).choose, fun ω => (this ω).choose_spec⟩

/-- the counting generator draws different seeds for up to a million pairs -/
example : (drawSeeds (constRng 0 le_rfl one_pos) (pairsLt 5).length (0 : ℕ)).1.Nodup := by
  have h : (pairsLt 5).length = 10 := by decide
  rw [h]
  decide

end Verif.Sampler
