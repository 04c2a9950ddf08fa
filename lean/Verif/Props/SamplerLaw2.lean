import Verif.Spec.NetworkLaw
import Verif.Props.SamplerLaw
import Verif.Props.Likelihood
import Verif.Props.SolveD4
import Verif.Props.SolveU4

/-! C55: the probability of sampling a network is the one the model gives to it, that is the exponential of its log-likelihood. -/

namespace Verif.Sampler

open MeasureTheory Spec Finset ProbabilityTheory Reduction

variable {Ω : Type*} [MeasurableSpace Ω] {P : Measure Ω} {R : Rng} {n : ℕ} {U : ℕ → Ω → I01} {G : ℕ → ℝ → Ω → ℕ} {hG : ∀ s q ω, 1 ≤ G s q ω}

/-! ### reading the edge list -/

open Classical in
theorem nodup_thresholds {l : List (Fin n × Fin n)} (hl : l.Nodup) (c : Fin n × Fin n → Prop) :
    (l.filterMap fun e => if c e then some (e.1.val, e.2.val) else none).Nodup := by
  refine List.Nodup.filterMap ?_ hl
  intro a b t ha hb
  simp only [Option.mem_def] at ha hb
  split at ha
  · split at hb
    · have := (Option.some.inj ha).trans (Option.some.inj hb).symm
      obtain ⟨h1, h2⟩ := Prod.mk.inj this
      exact Prod.ext (Fin.ext h1) (Fin.ext h2)
    · cases hb
  · cases ha

open Classical in
theorem range_thresholds {l : List (Fin n × Fin n)} {c : Fin n × Fin n → Prop} {t : ℕ × ℕ}
    (ht : t ∈ l.filterMap fun e => if c e then some (e.1.val, e.2.val) else none) : ∃ e ∈ l, t = (e.1.val, e.2.val) := by
  rw [List.mem_filterMap] at ht
  obtain ⟨e, he, h⟩ := ht
  split at h
  · exact ⟨e, he, (Option.some.inj h).symm⟩
  · cases h

open Classical in
/-- an undirected sample lists the links of `A` iff every pair is accepted exactly if it is a link -/
theorem listsLinks_iff {A : Fin n → Fin n → Bool} (hA : IsGraph A) (c : Fin n × Fin n → Prop) :
    ListsLinks A ((pairsLt n).filterMap fun e => if c e then some (e.1.val, e.2.val) else none) ↔ ∀ e : Fin n × Fin n, e.1 < e.2 → (c e ↔ A e.1 e.2 = true) := by
  constructor
  · intro h e he
    rw [h.links, mem_thresholds, mem_thresholds, mem_pairsLt, mem_pairsLt]
    constructor
    · intro hc; exact .inl ⟨he, hc⟩
    · rintro (h | h)
      · exact h.2
      · exact absurd h.1 (not_lt_of_gt he)
  · intro h
    refine ⟨nodup_thresholds (pairsLt_nodup n) c, ?_, ?_, ?_⟩
    · intro t ht
      obtain ⟨e, -, rfl⟩ := range_thresholds ht
      exact ⟨e.1.isLt, e.2.isLt⟩
    · intro t ht ht'
      obtain ⟨e, he, rfl⟩ := range_thresholds ht
      obtain ⟨e', he', h'⟩ := range_thresholds ht'
      obtain ⟨h1, h2⟩ := Prod.mk.inj h'
      have := (mem_pairsLt _).1 he; have h4 := (mem_pairsLt _).1 he'
      rw [Fin.lt_def] at this h4
      omega
    · intro i j
      rw [mem_thresholds, mem_thresholds, mem_pairsLt, mem_pairsLt]
      rcases lt_trichotomy i j with hij | rfl | hij
      · simp only [hij, true_and, not_lt_of_gt hij, false_and, or_false]
        exact (h (i, j) hij).symm
      · have : A i i = false := hA.loopless i
        simp [this]
      · simp only [hij, true_and, not_lt_of_gt hij, false_and, false_or]
        rw [hA.symm]; exact (h (j, i) hij).symm

open Classical in
theorem listsArcs_iff {A : Fin n → Fin n → Bool} (hA : IsDigraph A) (c : Fin n × Fin n → Prop) :
    ListsArcs A ((pairsNe n).filterMap fun e => if c e then some (e.1.val, e.2.val) else none) ↔ ∀ e : Fin n × Fin n, e.1 ≠ e.2 → (c e ↔ A e.1 e.2 = true) := by
  constructor
  · intro h e he
    rw [h.arcs, mem_thresholds, mem_pairsNe]
    exact (and_iff_right he).symm
  · intro h
    refine ⟨nodup_thresholds (pairsNe_nodup n) c, ?_, ?_⟩
    · intro t ht
      obtain ⟨e, -, rfl⟩ := range_thresholds ht
      exact ⟨e.1.isLt, e.2.isLt⟩
    · intro i j
      rw [mem_thresholds, mem_pairsNe]
      by_cases hij : i = j
      · subst hij
        have : A i i = false := hA.loopless i
        simp [this]
      · simp only [ne_eq, hij, not_false_eq_true, true_and]
        exact (h (i, j) hij).symm

open Classical in
theorem map_weighted (l : List (Fin n × Fin n)) (c : Fin n × Fin n → Prop) (w : Fin n × Fin n → ℕ) :
    (l.filterMap fun e => if c e then some (e.1.val, e.2.val, w e) else none).map (fun e => (e.1, e.2.1)) =
      l.filterMap fun e => if c e then some (e.1.val, e.2.val) else none := by
  rw [List.map_filterMap]
  congr 1; funext e
  split <;> rfl

open Classical in
theorem listsWeightedLinks_iff {W : Fin n → Fin n → ℕ} (hW : IsGraph W) (c : Fin n × Fin n → Prop) (w : Fin n × Fin n → ℕ) (hw : ∀ e, 1 ≤ w e) :
    ListsWeightedLinks W ((pairsLt n).filterMap fun e => if c e then some (e.1.val, e.2.val, w e) else none) ↔
      ∀ e : Fin n × Fin n, e.1 < e.2 → if W e.1 e.2 = 0 then ¬ c e else c e ∧ w e = W e.1 e.2 := by
  have hA : IsGraph (fun i j => decide (W i j ≠ 0)) := ⟨fun i j => by rw [hW.symm], fun i => by rw [hW.loopless]; rfl⟩
  constructor
  · rintro ⟨h1, h2⟩ e he
    rw [map_weighted, listsLinks_iff hA] at h1
    have h1 := h1 e he
    simp only [decide_eq_true_eq] at h1
    split
    · rename_i h0; rw [h1]; simpa using h0
    · rename_i h0
      have hc := h1.2 h0
      exact ⟨hc, (h2 e.1 e.2 (w e) (by rw [mem_weighted, mem_pairsLt]; exact ⟨he, hc, rfl⟩)).symm⟩
  · intro h
    refine ⟨?_, ?_⟩
    · rw [map_weighted, listsLinks_iff hA]
      intro e he
      have := h e he
      simp only [decide_eq_true_eq]
      split at this
      · rename_i h0; simp [h0, this]
      · rename_i h0; simp [h0, this]
    · intro i j k hk
      rw [mem_weighted, mem_pairsLt] at hk
      have := h (i, j) hk.1
      split at this
      · exact absurd hk.2.1 this
      · rw [← hk.2.2, this.2]

open Classical in
theorem listsWeightedArcs_iff {W : Fin n → Fin n → ℕ} (hW : IsDigraph W) (c : Fin n × Fin n → Prop) (w : Fin n × Fin n → ℕ) (hw : ∀ e, 1 ≤ w e) :
    ListsWeightedArcs W ((pairsNe n).filterMap fun e => if c e then some (e.1.val, e.2.val, w e) else none) ↔
      ∀ e : Fin n × Fin n, e.1 ≠ e.2 → if W e.1 e.2 = 0 then ¬ c e else c e ∧ w e = W e.1 e.2 := by
  have hA : IsDigraph (fun i j => decide (W i j ≠ 0)) := ⟨fun i => by rw [hW.loopless]; rfl⟩
  constructor
  · rintro ⟨h1, h2⟩ e he
    rw [map_weighted, listsArcs_iff hA] at h1
    have h1 := h1 e he
    simp only [decide_eq_true_eq] at h1
    split
    · rename_i h0; rw [h1]; simpa using h0
    · rename_i h0
      have hc := h1.2 h0
      exact ⟨hc, (h2 e.1 e.2 (w e) (by rw [mem_weighted, mem_pairsNe]; exact ⟨he, hc, rfl⟩)).symm⟩
  · intro h
    refine ⟨?_, ?_⟩
    · rw [map_weighted, listsArcs_iff hA]
      intro e he
      have := h e he
      simp only [decide_eq_true_eq]
      split at this
      · rename_i h0; simp [h0, this]
      · rename_i h0; simp [h0, this]
    · intro i j k hk
      rw [mem_weighted, mem_pairsNe] at hk
      have := h (i, j) hk.1
      split at this
      · exact absurd hk.2.1 this
      · rw [← hk.2.2, this.2]

/-! ### products over pairs -/

theorem prod_pairsLt (f : Fin n → Fin n → ℝ) (hf : ∀ i j, f i j = f j i) : ∏ e : Fin n × Fin n with e.1 < e.2, f e.1 e.2 = ∏ i, ∏ j ∈ univ.filter (· < i), f i j := by
  rw [Finset.prod_filter, Fintype.prod_prod_type, Finset.prod_comm]
  refine prod_congr rfl fun i _ => ?_
  rw [Finset.prod_filter]
  refine prod_congr rfl fun j _ => ?_
  simp only
  rw [hf]

theorem prod_pairsNe (f : Fin n → Fin n → ℝ) : ∏ e : Fin n × Fin n with e.1 ≠ e.2, f e.1 e.2 = ∏ i, ∏ j ∈ univ.filter (· ≠ i), f i j := by
  rw [Finset.prod_filter, Fintype.prod_prod_type]
  refine prod_congr rfl fun i _ => ?_
  rw [Finset.prod_filter]
  refine prod_congr rfl fun j _ => ?_
  simp only [ne_eq, eq_comm]

theorem bern_nonneg {p : ℝ} (h0 : 0 ≤ p) (h1 : p ≤ 1) (b : Bool) : 0 ≤ bern p b := by
  unfold bern; split <;> linarith

theorem geomLaw_nonneg {p q : ℝ} (h0 : 0 ≤ p) (h1 : p ≤ 1) (hq : 0 ≤ q) (hq1 : q ≤ 1) (w : ℕ) : 0 ≤ geomLaw p q w := by
  cases w with
  | zero => simp only [geomLaw]; linarith
  | succ w => simp only [geomLaw]; have : 0 ≤ 1 - q := by linarith
              positivity

/-! ### binary models -/

/-- C55 (cm): if the uniform numbers of different seeds are independent and the seeds drawn for the pairs are different, the sampled graph is `A` with the probability
the model gives to `A`. -/
theorem C55_cm_network_probability [IsProbabilityMeasure P] (hU : UniformSource P U) (hind : iIndepFun U P) {x : Fin n → ℝ} (hx : ∀ i, 0 ≤ x i) {seed : Option ℕ}
    {g : R.S × Option ℕ} {sample : Ω → List (ℕ × ℕ)} (h : SampleCM R U G hG x seed g sample)
    (hseeds : (drawSeeds R (pairsLt n).length (reseed R seed g.1)).1.Nodup) (A : Fin n → Fin n → Bool) (hA : IsGraph A) :
    P {ω | ListsLinks A (sample ω)} = ENNReal.ofReal (probUBCM x A) := by
  classical
  have hl := C23_cm_graph_law hU hind hx h hseeds (fun e => A e.1 e.2)
  obtain ⟨σ, -, hs⟩ := sampleCM_eq h
  have e1 : {ω | ListsLinks A (sample ω)} = {ω | ∀ i j : Fin n, i < j → ((i.val, j.val) ∈ sample ω ↔ A i j = true)} := by
    ext ω
    simp only [Set.mem_setOf_eq, hs ω, listsLinks_iff hA, mem_thresholds, mem_pairsLt, Prod.forall]
    constructor
    · intro H i j hij; rw [← H i j hij]; exact and_iff_right hij
    · intro H i j hij; rw [← H i j hij]; exact (and_iff_right hij).symm
  rw [e1, hl, ← ENNReal.ofReal_prod_of_nonneg]
  · congr 1
    rw [prod_pairsLt (fun i j => bern (x i * x j / (1 + x i * x j)) (A i j)) fun i j => by rw [hA.symm, mul_comm]]
    rfl
  · intro e _
    have := prob_bounds (mul_nonneg (hx e.1) (hx e.2))
    exact bern_nonneg this.1 this.2 _

/-- C55 (dcm): the same for digraphs. -/
theorem C55_dcm_network_probability [IsProbabilityMeasure P] (hU : UniformSource P U) (hind : iIndepFun U P) {x y : Fin n → ℝ} (hx : ∀ i, 0 ≤ x i) (hy : ∀ i, 0 ≤ y i)
    {seed : Option ℕ} {g : R.S × Option ℕ} {sample : Ω → List (ℕ × ℕ)} (h : SampleDCM R U G hG x y seed g sample)
    (hseeds : (drawSeeds R (pairsNe n).length (reseed R seed g.1)).1.Nodup) (A : Fin n → Fin n → Bool) (hA : IsDigraph A) :
    P {ω | ListsArcs A (sample ω)} = ENNReal.ofReal (probDBCM x y A) := by
  classical
  have hl := C23_dcm_graph_law hU hind hx hy h hseeds (fun e => A e.1 e.2)
  obtain ⟨σ, -, hs⟩ := sampleDCM_eq h
  have e1 : {ω | ListsArcs A (sample ω)} = {ω | ∀ i j : Fin n, i ≠ j → ((i.val, j.val) ∈ sample ω ↔ A i j = true)} := by
    ext ω
    simp only [Set.mem_setOf_eq, hs ω, listsArcs_iff hA, mem_thresholds, mem_pairsNe, Prod.forall]
    constructor
    · intro H i j hij; rw [← H i j hij]; exact and_iff_right hij
    · intro H i j hij; rw [← H i j hij]; exact (and_iff_right hij).symm
  rw [e1, hl, ← ENNReal.ofReal_prod_of_nonneg]
  · congr 1
    rw [prod_pairsNe (fun i j => bern (x i * y j / (1 + x i * y j)) (A i j))]
    rfl
  · intro e _
    have := prob_bounds (mul_nonneg (hx e.1) (hy e.2))
    exact bern_nonneg this.1 this.2 _

/-! ### weighted models -/

theorem indep_sets [IsProbabilityMeasure P] {α : Type*} [MeasurableSpace α] {T : ℕ → Ω → α} (hind : iIndepFun T P) {A : Type} (s : Finset A) (σ : A → ℕ) (hσ : Set.InjOn σ s)
    (B : A → Set α) (hB : ∀ e ∈ s, MeasurableSet (B e)) : P {ω | ∀ e ∈ s, T (σ e) ω ∈ B e} = ∏ e ∈ s, P {ω | T (σ e) ω ∈ B e} := by
  classical
  have hset : {ω | ∀ e ∈ s, T (σ e) ω ∈ B e} = ⋂ k ∈ s.image σ, T k ⁻¹' (⋂ e ∈ s.filter (fun e => σ e = k), B e) := by
    ext ω
    simp only [Set.mem_setOf_eq, Set.mem_iInter, Finset.mem_image, Set.mem_preimage, Finset.mem_filter]
    constructor
    · rintro h _ _ e ⟨he, rfl⟩
      exact h e he
    · intro h e he
      exact h (σ e) ⟨e, he, rfl⟩ e ⟨he, rfl⟩
  have huniq : ∀ e ∈ s, s.filter (fun e' => σ e' = σ e) = {e} := by
    intro e he
    ext e'
    simp only [Finset.mem_filter, Finset.mem_singleton]
    exact ⟨fun h => hσ (Finset.mem_coe.2 h.1) (Finset.mem_coe.2 he) h.2, fun h => by subst h; exact ⟨he, rfl⟩⟩
  rw [hset, hind.measure_inter_preimage_eq_mul (S := s.image σ) (sets := fun k => ⋂ e ∈ s.filter (fun e => σ e = k), B e)
    (fun k _ => Finset.measurableSet_biInter _ fun e he => hB e (Finset.mem_filter.1 he).1), Finset.prod_image (fun e he e' he' h => hσ he he' h)]
  refine Finset.prod_congr rfl fun e he => ?_
  rw [huniq e he]
  simp only [Finset.mem_singleton, Set.iInter_iInter_eq_left]
  rfl

/-- the law of one weighted pair -/
theorem weighted_pair [IsProbabilityMeasure P] (hU : UniformSource P U) (hGs : GeometricSource P U G) (k : ℕ) (p b : ℝ) (h0 : 0 ≤ p) (h1 : p ≤ 1) (hb : 0 ≤ b) (hb1 : b < 1) (w : ℕ) :
    P {ω | if w = 0 then ¬ (U k ω : ℝ) < p else (U k ω : ℝ) < p ∧ G k (1 - b) ω = w} = ENNReal.ofReal (geomLaw p b w) := by
  cases w with
  | zero =>
    have hc : {ω | if 0 = 0 then ¬ (U k ω : ℝ) < p else (U k ω : ℝ) < p ∧ G k (1 - b) ω = 0} = {ω | (U k ω : ℝ) < p}ᶜ := by ext ω; simp
    rw [hc, prob_compl_eq_one_sub (meas_lt hU.meas _ _), hU.law k p h0 h1, ← ENNReal.ofReal_one, ← ENNReal.ofReal_sub _ h0]
    rfl
  | succ w =>
    have hl := hGs.law k (1 - b) p w (by linarith) (by linarith) h0 h1
    rw [sub_sub_cancel] at hl
    simp only [Nat.succ_ne_zero, if_false, geomLaw]
    exact hl

open Classical in
/-- the joint law of the weighted pairs -/
theorem weighted_pairs [IsProbabilityMeasure P] (hU : UniformSource P U) (hGs : GeometricSource P U G) (hind : IndependentSeeds P U G) {A : Type} (s : Finset A) (σ : A → ℕ)
    (hσ : Set.InjOn σ s) (p b : A → ℝ) (h0 : ∀ e ∈ s, 0 ≤ p e) (h1 : ∀ e ∈ s, p e ≤ 1) (hb : ∀ e ∈ s, 0 ≤ b e) (hb1 : ∀ e ∈ s, b e < 1) (w : A → ℕ) :
    P {ω | ∀ e ∈ s, if w e = 0 then ¬ (U (σ e) ω : ℝ) < p e else (U (σ e) ω : ℝ) < p e ∧ G (σ e) (1 - b e) ω = w e} =
      ENNReal.ofReal (∏ e ∈ s, geomLaw (p e) (b e) (w e)) := by
  let B : A → Set (I01 × (ℝ → ℕ)) := fun e => {t | if w e = 0 then ¬ (t.1 : ℝ) < p e else (t.1 : ℝ) < p e ∧ t.2 (1 - b e) = w e}
  have hB : ∀ e, MeasurableSet (B e) := by
    intro e
    have hm : MeasurableSet {t : I01 × (ℝ → ℕ) | (t.1 : ℝ) < p e} := measurableSet_lt (measurable_subtype_coe.comp measurable_fst) measurable_const
    by_cases hw : w e = 0
    · have : B e = {t : I01 × (ℝ → ℕ) | (t.1 : ℝ) < p e}ᶜ := by ext t; simp [B, hw]
      rw [this]; exact hm.compl
    · have : B e = {t : I01 × (ℝ → ℕ) | (t.1 : ℝ) < p e} ∩ {t | t.2 (1 - b e) = w e} := by ext t; simp [B, hw]
      rw [this]
      have hf : Measurable fun t : I01 × (ℝ → ℕ) => t.2 (1 - b e) := (measurable_pi_apply (1 - b e)).comp measurable_snd
      exact hm.inter (hf (measurableSet_singleton (w e)))
  have := indep_sets hind s σ hσ B fun e _ => hB e
  refine this.trans ?_
  rw [ENNReal.ofReal_prod_of_nonneg fun e he => geomLaw_nonneg (h0 e he) (h1 e he) (hb e he) (hb1 e he).le _]
  refine prod_congr rfl fun e he => ?_
  exact weighted_pair hU hGs (σ e) (p e) (b e) (h0 e he) (h1 e he) (hb e he) (hb1 e he) (w e)

/-- C55 (ecm): if the random numbers of different seeds are independent and the seeds drawn for the pairs are different, the sampled weighted graph is `W` with the
probability the model gives to `W`. -/
theorem C55_ecm_network_probability [IsProbabilityMeasure P] (hU : UniformSource P U) (hGs : GeometricSource P U G) (hind : IndependentSeeds P U G) {x y : Fin n → ℝ}
    (hx : ∀ i, 0 ≤ x i) (hy : ∀ i j, i < j → 0 ≤ y i * y j ∧ y i * y j < 1) {seed : Option ℕ} {g : R.S × Option ℕ} {sample : Ω → List (ℕ × ℕ × ℕ)}
    (h : SampleECM R U G hG x y seed g sample) (hseeds : (drawSeeds R (pairsLt n).length (reseed R seed g.1)).1.Nodup) (W : Fin n → Fin n → ℕ) (hW : IsGraph W) :
    P {ω | ListsWeightedLinks W (sample ω)} = ENNReal.ofReal (probUECM x y W) := by
  classical
  obtain ⟨σ, h2, hs⟩ := sampleECM_eq hy h
  rw [h2] at hseeds
  have hσ : Set.InjOn σ ((pairsLt n).toFinset : Set (Fin n × Fin n)) := by
    intro a ha b hb hab
    exact List.inj_on_of_nodup_map hseeds (List.mem_toFinset.1 ha) (List.mem_toFinset.1 hb) hab
  have hm : ∀ e ∈ (pairsLt n).toFinset, e.1 < e.2 := fun e he => (mem_pairsLt e).1 (List.mem_toFinset.1 he)
  have hp : ∀ e ∈ (pairsLt n).toFinset, _ := fun e he => wprob_bounds (mul_nonneg (hx e.1) (hx e.2)) (hy e.1 e.2 (hm e he)).1 (hy e.1 e.2 (hm e he)).2
  have key := weighted_pairs hU hGs hind (pairsLt n).toFinset σ hσ
    (fun e => (x e.1 * x e.2) * (y e.1 * y e.2) / (1 - y e.1 * y e.2 + (x e.1 * x e.2) * (y e.1 * y e.2))) (fun e => y e.1 * y e.2)
    (fun e he => (hp e he).1) (fun e he => (hp e he).2) (fun e he => (hy _ _ (hm e he)).1) (fun e he => (hy _ _ (hm e he)).2) fun e => W e.1 e.2
  have e1 : {ω | ListsWeightedLinks W (sample ω)} = {ω | ∀ e ∈ (pairsLt n).toFinset, if W e.1 e.2 = 0 then
      ¬ (U (σ e) ω : ℝ) < (x e.1 * x e.2) * (y e.1 * y e.2) / (1 - y e.1 * y e.2 + (x e.1 * x e.2) * (y e.1 * y e.2)) else
      (U (σ e) ω : ℝ) < (x e.1 * x e.2) * (y e.1 * y e.2) / (1 - y e.1 * y e.2 + (x e.1 * x e.2) * (y e.1 * y e.2)) ∧ G (σ e) (1 - y e.1 * y e.2) ω = W e.1 e.2} := by
    ext ω
    simp only [Set.mem_setOf_eq]
    rw [hs ω, listsWeightedLinks_iff hW _ _ (fun e => hG _ _ ω)]
    simp only [List.mem_toFinset, mem_pairsLt]
  rw [e1, key, pairsLt_toFinset, prod_pairsLt (fun i j => geomLaw ((x i * x j) * (y i * y j) / (1 - y i * y j + (x i * x j) * (y i * y j))) (y i * y j) (W i j))
    fun i j => by rw [hW.symm, mul_comm (x i), mul_comm (y i)]]
  rfl

/-- C55 (decm): the same for weighted digraphs. -/
theorem C55_decm_network_probability [IsProbabilityMeasure P] (hU : UniformSource P U) (hGs : GeometricSource P U G) (hind : IndependentSeeds P U G)
    {a_out a_in b_out b_in : Fin n → ℝ} (ho : ∀ i, 0 ≤ a_out i) (hi : ∀ i, 0 ≤ a_in i) (hy : ∀ i j, i ≠ j → 0 ≤ b_out i * b_in j ∧ b_out i * b_in j < 1)
    {seed : Option ℕ} {g : R.S × Option ℕ} {sample : Ω → List (ℕ × ℕ × ℕ)} (h : SampleDECM R U G hG a_out a_in b_out b_in seed g sample)
    (hseeds : (drawSeeds R (pairsNe n).length (reseed R seed g.1)).1.Nodup) (W : Fin n → Fin n → ℕ) (hW : IsDigraph W) :
    P {ω | ListsWeightedArcs W (sample ω)} = ENNReal.ofReal (probDECM a_out a_in b_out b_in W) := by
  classical
  obtain ⟨σ, h2, hs⟩ := sampleDECM_eq hy h
  rw [h2] at hseeds
  have hσ : Set.InjOn σ ((pairsNe n).toFinset : Set (Fin n × Fin n)) := by
    intro a ha b hb hab
    exact List.inj_on_of_nodup_map hseeds (List.mem_toFinset.1 ha) (List.mem_toFinset.1 hb) hab
  have hm : ∀ e ∈ (pairsNe n).toFinset, e.1 ≠ e.2 := fun e he => (mem_pairsNe e).1 (List.mem_toFinset.1 he)
  have hp : ∀ e ∈ (pairsNe n).toFinset, _ := fun e he => wprob_bounds (mul_nonneg (ho e.1) (hi e.2)) (hy e.1 e.2 (hm e he)).1 (hy e.1 e.2 (hm e he)).2
  have key := weighted_pairs hU hGs hind (pairsNe n).toFinset σ hσ
    (fun e => (a_out e.1 * a_in e.2) * (b_out e.1 * b_in e.2) / (1 - b_out e.1 * b_in e.2 + (a_out e.1 * a_in e.2) * (b_out e.1 * b_in e.2))) (fun e => b_out e.1 * b_in e.2)
    (fun e he => (hp e he).1) (fun e he => (hp e he).2) (fun e he => (hy _ _ (hm e he)).1) (fun e he => (hy _ _ (hm e he)).2) fun e => W e.1 e.2
  have e1 : {ω | ListsWeightedArcs W (sample ω)} = {ω | ∀ e ∈ (pairsNe n).toFinset, if W e.1 e.2 = 0 then
      ¬ (U (σ e) ω : ℝ) < (a_out e.1 * a_in e.2) * (b_out e.1 * b_in e.2) / (1 - b_out e.1 * b_in e.2 + (a_out e.1 * a_in e.2) * (b_out e.1 * b_in e.2)) else
      (U (σ e) ω : ℝ) < (a_out e.1 * a_in e.2) * (b_out e.1 * b_in e.2) / (1 - b_out e.1 * b_in e.2 + (a_out e.1 * a_in e.2) * (b_out e.1 * b_in e.2)) ∧
        G (σ e) (1 - b_out e.1 * b_in e.2) ω = W e.1 e.2} := by
    ext ω
    simp only [Set.mem_setOf_eq]
    rw [hs ω, listsWeightedArcs_iff hW _ _ (fun e => hG _ _ ω)]
    simp only [List.mem_toFinset, mem_pairsNe]
  rw [e1, key, pairsNe_toFinset, prod_pairsNe (fun i j => geomLaw ((a_out i * a_in j) * (b_out i * b_in j) / (1 - b_out i * b_in j + (a_out i * a_in j) * (b_out i * b_in j)))
    (b_out i * b_in j) (W i j))]
  rfl

end Verif.Sampler

namespace Verif.Solve

open MeasureTheory Spec Finset ProbabilityTheory Reduction

variable {Ω : Type*} [MeasurableSpace Ω] {P : Measure Ω} {Rn : Sampler.Rng} {n : ℕ} {U : ℕ → Ω → I01} {G : ℕ → ℝ → Ω → ℕ} {hG : ∀ s q ω, 1 ≤ G s q ω}

/-- C55 (cm, cm_exp): after `solve_tool`, the number `L` that `model_loglikelihood` reports is minus the logarithm of the probability that a sampled graph is the
observed one (or any other graph with the observed degrees). -/
theorem C55_cm_reported [NeZero n] [IsProbabilityMeasure P] (hU : UniformSource P U) (hind : iIndepFun U P) {d : UData n} (e : Env) (g : UAttr d) (mo : UModel)
    (hmo : mo = .cm ∨ mo = .cm_exp) (method : String) (guess : Guess n) (adj : AdjSpec n) (ma : String) (ga : Guess n) (p : Params)
    (A : Fin n → Fin n → Bool) (hA : IsGraph A) (hd : ∀ i, d.dseq i = degree A i) :
    let R := solve_tool e g mo.name method guess adj ma ga p
    R.exc = none → ∃ x L, R.g.x = some x ∧ model_loglikelihood e R.g = .ok L ∧ ((∀ i, 0 ≤ x i) → (∀ i, d.dseq i ≠ 0 → 0 < x i) →
      ∀ seed s sample, Sampler.SampleCM Rn U G hG x seed s sample → (Sampler.drawSeeds Rn (Sampler.pairsLt n).length (Sampler.reseed Rn seed s.1)).1.Nodup →
        P {ω | ListsLinks A (sample ω)} = ENNReal.ofReal (Real.exp (-L))) := by
  intro R h
  obtain ⟨x, hx, hl⟩ := C40_cm_negated e g mo hmo method guess adj ma ga p h
  refine ⟨x, _, hx, hl, fun h0 hp seed s sample hs hn => ?_⟩
  obtain ⟨h1, h2⟩ := probUBCM_spec A hA x h0 (fun i hi => hp i (by rw [hd]; exact hi))
  rw [Sampler.C55_cm_network_probability hU hind h0 hs hn A hA, neg_neg, show d.deg = fun i => (degree A i : ℝ) from funext fun i => by rw [UData.deg, hd],
    ← h2, Real.exp_log h1]

/-- C55 (dcm): the same for digraphs. The sampler is run on the parameters of the active nodes. -/
theorem C55_dcm_reported [NeZero n] [IsProbabilityMeasure P] (hU : UniformSource P U) (hind : iIndepFun U P) {d : DData n} (e : Env) (g : DAttr d) (method : String)
    (guess : DGuess n) (adj : AdjSpec n) (ma : String) (ga : DGuess n) (p : Params)
    (A : Fin n → Fin n → Bool) (hA : IsDigraph A) (ho : ∀ i, d.dseq_out i = degree A i) (hi : ∀ i, d.dseq_in i = inDegree A i) :
    let R := solve_tool_directed e g "dcm" method guess adj ma ga p
    R.exc = none → ∃ x y L, R.g.x = some x ∧ R.g.y = some y ∧ model_loglikelihood_directed R.g = .ok L ∧
      ((∀ i, d.dseq_out i = 0 → x i = 0) → (∀ i, d.dseq_in i = 0 → y i = 0) → (∀ i, d.dseq_out i ≠ 0 → 0 < x i) → (∀ i, d.dseq_in i ≠ 0 → 0 < y i) →
      ∀ seed s sample, Sampler.SampleDCM Rn U G hG x y seed s sample → (Sampler.drawSeeds Rn (Sampler.pairsNe n).length (Sampler.reseed Rn seed s.1)).1.Nodup →
        P {ω | ListsArcs A (sample ω)} = ENNReal.ofReal (Real.exp (-L))) := by
  intro R h
  obtain ⟨x, y, hx, hy, hl⟩ := C40_dcm_negated e g method guess adj ma ga p h
  refine ⟨x, y, _, hx, hy, hl, fun hx0 hy0 hxp hyp seed s sample hs hn => ?_⟩
  have h0 : ∀ i, 0 ≤ x i := fun i => by by_cases hz : d.dseq_out i = 0; exacts [(hx0 i hz).ge, (hxp i hz).le]
  have h0' : ∀ i, 0 ≤ y i := fun i => by by_cases hz : d.dseq_in i = 0; exacts [(hy0 i hz).ge, (hyp i hz).le]
  have ex : active d.degOut x = x := funext fun i => by
    unfold active; split
    · rename_i hz; rw [hx0 i (by simpa [DData.degOut] using hz)]
    · rfl
  have ey : active d.degIn y = y := funext fun i => by
    unfold active; split
    · rename_i hz; rw [hy0 i (by simpa [DData.degIn] using hz)]
    · rfl
  obtain ⟨h1, h2⟩ := probDBCM_spec A hA x y h0 h0' (fun i h => hxp i (by rw [ho]; exact h)) (fun i h => hyp i (by rw [hi]; exact h))
  rw [Sampler.C55_dcm_network_probability hU hind h0 h0' hs hn A hA, neg_neg, ex, ey,
    show d.degOut = fun i => (degree A i : ℝ) from funext fun i => by rw [DData.degOut, ho],
    show d.degIn = fun i => (inDegree A i : ℝ) from funext fun i => by rw [DData.degIn, hi], ← h2, Real.exp_log h1]

/-- C55 (ecm, ecm_exp): the same for weighted graphs. -/
theorem C55_ecm_reported [NeZero n] [IsProbabilityMeasure P] (hU : UniformSource P U) (hGs : GeometricSource P U G) (hind : IndependentSeeds P U G) {d : UData n} (e : Env)
    (g : UAttr d) (mo : UModel) (hmo : mo = .ecm ∨ mo = .ecm_exp) (method : String) (guess : Guess n) (adj : AdjSpec n) (ma : String) (ga : Guess n) (p : Params)
    (W : Fin n → Fin n → ℕ) (hW : IsGraph W) (hd : ∀ i, d.dseq i = degree W i) (hst : ∀ i, d.strength_sequence i = strength W i) :
    let R := solve_tool e g mo.name method guess adj ma ga p
    R.exc = none → ∃ x y L, R.g.x = some x ∧ R.g.y = some y ∧ model_loglikelihood e R.g = .ok L ∧
      ((∀ i, 0 ≤ x i) → (∀ i, 0 ≤ y i) → (∀ i, d.dseq i ≠ 0 → 0 < x i ∧ 0 < y i) → (∀ i j, i ≠ j → y i * y j < 1) →
      ∀ seed s sample, Sampler.SampleECM Rn U G hG x y seed s sample → (Sampler.drawSeeds Rn (Sampler.pairsLt n).length (Sampler.reseed Rn seed s.1)).1.Nodup →
        P {ω | ListsWeightedLinks W (sample ω)} = ENNReal.ofReal (Real.exp (-L))) := by
  intro R h
  obtain ⟨x, y, hx, hy, hl⟩ := C40_ecm_negated e g mo hmo method guess adj ma ga p h
  refine ⟨x, y, _, hx, hy, hl, fun h0 h0' hp hlt seed s sample hs hn => ?_⟩
  obtain ⟨h1, h2⟩ := probUECM_spec W hW x y h0 h0' (fun i hi => hp i (by rw [hd]; exact hi)) hlt
  rw [Sampler.C55_ecm_network_probability hU hGs hind h0 (fun i j hij => ⟨mul_nonneg (h0' i) (h0' j), hlt i j hij.ne⟩) hs hn W hW, neg_neg,
    show d.deg = fun i => (degree W i : ℝ) from funext fun i => by rw [UData.deg, hd],
    show d.strength_sequence = fun i => (strength W i : ℝ) from funext fun i => by rw [hst], ← h2, Real.exp_log h1]

/-- C55 (decm): the same for weighted digraphs. -/
theorem C55_decm_reported [NeZero n] [IsProbabilityMeasure P] (hU : UniformSource P U) (hGs : GeometricSource P U G) (hind : IndependentSeeds P U G) {d : DData n} (e : Env)
    (g : DAttr d) (method : String) (guess : DGuess n) (adj : AdjSpec n) (ma : String) (ga : DGuess n) (p : Params)
    (W : Fin n → Fin n → ℕ) (hW : IsDigraph W) (hko : ∀ i, d.dseq_out i = degree W i) (hki : ∀ i, d.dseq_in i = inDegree W i)
    (hso : ∀ i, d.out_strength i = strength W i) (hsi : ∀ i, d.in_strength i = inStrength W i) :
    let R := solve_tool_directed e g "decm" method guess adj ma ga p
    R.exc = none → ∃ x y bo bi L, R.g.x = some x ∧ R.g.y = some y ∧ R.g.b_out = some bo ∧ R.g.b_in = some bi ∧ model_loglikelihood_directed R.g = .ok L ∧
      ((∀ i, 0 ≤ x i) → (∀ i, 0 ≤ y i) → (∀ i, 0 ≤ bo i) → (∀ i, 0 ≤ bi i) → (∀ i, d.dseq_out i ≠ 0 → 0 < x i ∧ 0 < bo i) →
        (∀ i, d.dseq_in i ≠ 0 → 0 < y i ∧ 0 < bi i) → (∀ i j, i ≠ j → bo i * bi j < 1) →
      ∀ seed s sample, Sampler.SampleDECM Rn U G hG x y bo bi seed s sample → (Sampler.drawSeeds Rn (Sampler.pairsNe n).length (Sampler.reseed Rn seed s.1)).1.Nodup →
        P {ω | ListsWeightedArcs W (sample ω)} = ENNReal.ofReal (Real.exp (-L))) := by
  intro R h
  obtain ⟨x, y, bo, bi, hx, hy, hbo, hbi, hl⟩ := C40_decm_negated e g method guess adj ma ga p h
  refine ⟨x, y, bo, bi, _, hx, hy, hbo, hbi, hl, fun h0 h1 h2 h3 ho hi hlt seed s sample hs hn => ?_⟩
  obtain ⟨q1, q2⟩ := probDECM_spec W hW x y bo bi h0 h1 h2 h3 (fun i h => ho i (by rw [hko]; exact h)) (fun i h => hi i (by rw [hki]; exact h)) hlt
  rw [Sampler.C55_decm_network_probability hU hGs hind h0 h1 (fun i j hij => ⟨mul_nonneg (h2 i) (h3 j), hlt i j hij⟩) hs hn W hW, neg_neg,
    show d.degOut = fun i => (degree W i : ℝ) from funext fun i => by rw [DData.degOut, hko],
    show d.degIn = fun i => (inDegree W i : ℝ) from funext fun i => by rw [DData.degIn, hki],
    show d.out_strength = fun i => (strength W i : ℝ) from funext fun i => by rw [hso],
    show d.in_strength = fun i => (inStrength W i : ℝ) from funext fun i => by rw [hsi], ← q2, Real.exp_log q1]

end Verif.Solve

namespace Verif.Sampler

open MeasureTheory Spec Finset ProbabilityTheory

/-- ideal random numbers whose values after different seeds are independent exist -/
theorem ideal_independent_exists : ∃ (Ω : Type) (_ : MeasurableSpace Ω) (P : Measure Ω) (U : ℕ → Ω → I01) (G : ℕ → ℝ → Ω → ℕ),
    IsProbabilityMeasure P ∧ UniformSource P U ∧ iIndepFun U P ∧ GeometricSource P U G ∧ IndependentSeeds P U G := by
  let ν : Measure (I01 × I01) := (volume : Measure I01).prod volume
  let μ : Measure (ℕ → I01 × I01) := Measure.infinitePi fun _ => ν
  have hev : ∀ s (B : Set (I01 × I01)), MeasurableSet B → μ {f | f s ∈ B} = ν B := by
    intro s B hB
    rw [← Measure.infinitePi_map_eval (fun _ : ℕ => ν) s, Measure.map_apply (measurable_pi_apply s) hB]
    rfl
  have hm : ∀ t : ℝ, MeasurableSet {u : I01 | (u : ℝ) < t} := fun t => measurableSet_lt measurable_subtype_coe measurable_const
  refine ⟨ℕ → I01 × I01, inferInstance, μ, fun s ω => (ω s).1, fun s q ω => geoInv q (ω s).2, inferInstance, ⟨?_, ?_⟩, ?_, ⟨?_, ?_, ?_⟩, ?_⟩
  · intro s; exact measurable_fst.comp (measurable_pi_apply s)
  · intro s t h0 h1
    have := hev s ({u : I01 | (u : ℝ) < t} ×ˢ Set.univ) ((hm t).prod MeasurableSet.univ)
    rw [Measure.prod_prod, I01_lt t h1, measure_univ, mul_one] at this
    rw [← this]
    congr 1; ext ω; simp
  · exact iIndepFun_infinitePi (X := fun (_ : ℕ) (v : I01 × I01) => v.1) (fun _ => measurable_fst)
  · intro s q; exact (measurable_geoInv q).comp (measurable_snd.comp (measurable_pi_apply s))
  · intro s q ω; show 1 ≤ geoInv q (ω s).2; unfold geoInv; split <;> omega
  · intro s q t w hq0 hq1 h0 h1
    have := hev s ({u : I01 | (u : ℝ) < t} ×ˢ {v | geoInv q v = w + 1}) ((hm t).prod ((measurable_geoInv q) (measurableSet_singleton (w + 1))))
    rw [Measure.prod_prod, I01_lt t h1, geoInv_law hq0 hq1, ← ENNReal.ofReal_mul h0] at this
    rw [← this]
    rfl
  · exact iIndepFun_infinitePi (X := fun (_ : ℕ) (v : I01 × I01) => (v.1, fun q : ℝ => geoInv q v.2))
      (fun _ => measurable_fst.prodMk (measurable_pi_lambda _ fun q => (measurable_geoInv q).comp measurable_snd))

/-- a network on which the theorems apply: five nodes in a ring, with all fitnesses one; the counting generator draws different seeds -/
example : IsGraph (fun i j : Fin 5 => decide (j = i + 1 ∨ i = j + 1)) ∧ (∀ i : Fin 5, (0 : ℝ) ≤ (fun _ => 1 : Fin 5 → ℝ) i) ∧
    (drawSeeds (constRng 0 le_rfl one_pos) (pairsLt 5).length (0 : ℕ)).1.Nodup := by
  refine ⟨⟨fun i j => by simp [or_comm], fun i => by fin_cases i <;> rfl⟩, fun _ => zero_le_one, ?_⟩
  have h : (pairsLt 5).length = 10 := by decide
  rw [h]
  decide

/-- the same with weights -/
example : IsGraph (fun i j : Fin 5 => if j = i + 1 ∨ i = j + 1 then 3 else 0) ∧ ∀ i j : Fin 5, i < j → 0 ≤ (1 / 2 : ℝ) * (1 / 2) ∧ (1 / 2 : ℝ) * (1 / 2) < 1 :=
  ⟨⟨fun i j => by simp [or_comm], fun i => by fin_cases i <;> rfl⟩, fun _ _ _ => by norm_num⟩

end Verif.Sampler
