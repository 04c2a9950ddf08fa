import Verif.Lemmas.CremaLaw
import Verif.Lemmas.CReMa
import Verif.Spec.Solve
import Verif.Spec.SolveD

/-!
Property C70: the law of the weighted networks sampled after crema, when the random numbers are ideal. The generator is `R.idealExp (U · ω) …`: `R` with the uniform
number and the exponential variate of a task (the first ones after `np.random.seed(s)`) replaced by the random variables `U s` and `E s`. The stream of seeds is that of
`R`; the seed argument, the pool and the state are arbitrary.
-/

namespace Verif.Sampler

open MeasureTheory Spec Finset ProbabilityTheory

variable {Ω : Type*} [MeasurableSpace Ω] (P : Measure Ω) (R : Rng) {n : ℕ} (U : ℕ → Ω → I01) (E : ℕ → Ω → ℝ) (h0 : ∀ s ω, 0 ≤ E s ω)

/-- `sample ω` is what the crema sampler returns on a given topology when the random numbers are those of `ω` -/
def SampleCremaDet (b_out b_in : Fin n → ℝ) (adj : List (Fin n × Fin n)) (seed : Option ℕ) (g : R.S × Option ℕ) (sample : Ω → List (ℕ × ℕ × ℝ)) : Prop :=
  ∀ ω, ∃ env : Env (R.idealExp (U · ω) (E · ω) (h0 · ω)), (∀ T, (env T).Complete) ∧ crema_det_edges _ b_out b_in adj env seed g = .ok (sample ω)

/-- the same on a probabilistic topology -/
def SampleCremaProb (b_out b_in : Fin n → ℝ) (adj : List (Fin n × Fin n × ℝ)) (seed : Option ℕ) (g : R.S × Option ℕ) (sample : Ω → List (ℕ × ℕ × ℝ)) : Prop :=
  ∀ ω, ∃ env : Env (R.idealExp (U · ω) (E · ω) (h0 · ω)), (∀ T, (env T).Complete) ∧ crema_prob_edges _ b_out b_in adj env seed g = .ok (sample ω)

/-- the same for crema-sparse -/
def SampleCremaSparse (b_out b_in x y : Fin n → ℝ) (seed : Option ℕ) (g : R.S × Option ℕ) (sample : Ω → List (ℕ × ℕ × ℝ)) : Prop :=
  ∀ ω, ∃ env : Env (R.idealExp (U · ω) (E · ω) (h0 · ω)), (∀ T, (env T).Complete) ∧ crema_sparse_prob_edges _ b_out b_in x y env seed g = .ok (sample ω)

variable {P R U E h0}

/-! ### the form of the samples -/

theorem zip_fst_snd {A : Type} (l : List A) (s : List ℕ) (h : s.length = l.length) : (l.zip s).map Prod.fst = l ∧ (l.zip s).map Prod.snd = s :=
  ⟨List.map_fst_zip h.ge, List.map_snd_zip h.le⟩

theorem sampleCremaDet_eq {b_out b_in : Fin n → ℝ} {adj : List (Fin n × Fin n)} (hb : ∀ e ∈ adj, 0 < b_out e.1 + b_in e.2) {seed : Option ℕ} {g : R.S × Option ℕ}
    {sample : Ω → List (ℕ × ℕ × ℝ)} (h : SampleCremaDet R U E h0 b_out b_in adj seed g sample) :
    Listed U E (adj.zip (drawSeeds R adj.length (reseed R seed g.1)).1) Prod.fst Prod.snd (fun _ => 1) (fun e => b_out e.1 + b_in e.2) sample := by
  classical
  intro ω
  obtain ⟨env, henv, he⟩ := h ω
  have he2 := sampleEdges_ok (R.idealExp (U · ω) (E · ω) (h0 · ω)) adj _
    (fun (e : Fin n × Fin n) s => some (e.1.val, e.2.val, 1 / (b_out e.1 + b_in e.2) * E s ω))
    (fun _ _ _ _ => rfl) (fun e he s => link_crema_det_eq (R.idealExp (U · ω) (E · ω) (h0 · ω)) (e.1.val, b_out e.1) (e.2.val, b_in e.2) s _ (hb e he)) env henv seed g
  have he3 := he2.symm.trans he
  rw [idealExp_drawSeeds, idealExp_reseed] at he3
  injection he3 with he3
  rw [← he3]
  refine List.filterMap_congr fun as _ => ?_
  rw [if_pos (U as.2 ω).2.2]

theorem sampleCremaProb_eq {b_out b_in : Fin n → ℝ} {adj : List (Fin n × Fin n × ℝ)} (hb : ∀ e ∈ adj, 0 < b_out e.1 + b_in e.2.1) {seed : Option ℕ} {g : R.S × Option ℕ}
    {sample : Ω → List (ℕ × ℕ × ℝ)} (h : SampleCremaProb R U E h0 b_out b_in adj seed g sample) :
    Listed U E (adj.zip (drawSeeds R adj.length (reseed R seed g.1)).1) (fun e => e.1) (fun e => e.2.1) (fun e => e.2.2) (fun e => b_out e.1 + b_in e.2.1) sample := by
  classical
  intro ω
  obtain ⟨env, henv, he⟩ := h ω
  have he2 := sampleEdges_ok (R.idealExp (U · ω) (E · ω) (h0 · ω)) adj _
    (fun (e : Fin n × Fin n × ℝ) s => if (U s ω : ℝ) < e.2.2 then some (e.1.val, e.2.1.val, 1 / (b_out e.1 + b_in e.2.1) * E s ω) else none)
    (fun _ _ _ _ => rfl) (fun e he s => link_crema_prob_eq (R.idealExp (U · ω) (E · ω) (h0 · ω)) (e.1.val, b_out e.1) (e.2.1.val, b_in e.2.1) e.2.2 s _ (hb e he)) env henv seed g
  have he3 := he2.symm.trans he
  rw [idealExp_drawSeeds, idealExp_reseed] at he3
  injection he3 with he3
  rw [← he3]

theorem sampleCremaSparse_eq {b_out b_in x y : Fin n → ℝ} (hb : ∀ i j, i ≠ j → 0 < b_out i + b_in j) {seed : Option ℕ} {g : R.S × Option ℕ}
    {sample : Ω → List (ℕ × ℕ × ℝ)} (h : SampleCremaSparse R U E h0 b_out b_in x y seed g sample) :
    Listed U E ((pairsNe n).zip (drawSeeds R (pairsNe n).length (reseed R seed g.1)).1) Prod.fst Prod.snd (fun e => linkDBCM x y e.1 e.2) (fun e => b_out e.1 + b_in e.2) sample := by
  classical
  intro ω
  obtain ⟨env, henv, he⟩ := h ω
  rw [crema_sparse_edges_eq _ b_out b_in x y hb env henv, idealExp_drawSeeds, idealExp_reseed] at he
  injection he with he
  rw [← he]
  refine List.filterMap_congr fun as _ => ?_
  unfold linkDBCM
  rw [mul_comm (y as.1.2)]
  rfl

/-! ### one pair -/

/-- C70: on a given topology every given pair is listed, and its weight is exponential of rate `β_i + β_j`. -/
theorem C70_crema_given_weight_law [IsProbabilityMeasure P] (hE : ExponentialSource P U E) {b_out b_in : Fin n → ℝ} {adj : List (Fin n × Fin n)} (hn : adj.Nodup)
    (hb : ∀ e ∈ adj, 0 < b_out e.1 + b_in e.2) {seed : Option ℕ} {g : R.S × Option ℕ} {sample : Ω → List (ℕ × ℕ × ℝ)} (h : SampleCremaDet R U E h0 b_out b_in adj seed g sample)
    {i j : Fin n} (hij : (i, j) ∈ adj) {t : ℝ} (ht : 0 ≤ t) :
    P {ω | Heavier (sample ω) i j t} = ENNReal.ofReal (Real.exp (-((b_out i + b_in j) * t))) := by
  have hz := zip_fst_snd adj _ (drawSeeds_length R adj.length (reseed R seed g.1))
  have := (sampleCremaDet_eq hb h).law hE (a := (i, j)) (by rw [hz.1]; exact (List.map_id adj).symm ▸ hn) (by rw [hz.1]; exact hij) zero_le_one le_rfl (hb _ hij) ht
  rwa [one_mul] at this

/-- C70: on a probabilistic topology a pair of probability `p` is listed with a weight above `t` with probability `p exp(-(β_i + β_j) t)`. -/
theorem C70_crema_weight_law [IsProbabilityMeasure P] (hE : ExponentialSource P U E) {b_out b_in : Fin n → ℝ} {adj : List (Fin n × Fin n × ℝ)}
    (hn : (adj.map fun e => (e.1, e.2.1)).Nodup) (hb : ∀ e ∈ adj, 0 < b_out e.1 + b_in e.2.1) (hp : ∀ e ∈ adj, 0 ≤ e.2.2 ∧ e.2.2 ≤ 1) {seed : Option ℕ} {g : R.S × Option ℕ}
    {sample : Ω → List (ℕ × ℕ × ℝ)} (h : SampleCremaProb R U E h0 b_out b_in adj seed g sample) {i j : Fin n} {p : ℝ} (hij : (i, j, p) ∈ adj) {t : ℝ} (ht : 0 ≤ t) :
    P {ω | Heavier (sample ω) i j t} = ENNReal.ofReal (p * Real.exp (-((b_out i + b_in j) * t))) := by
  have hz := zip_fst_snd adj _ (drawSeeds_length R adj.length (reseed R seed g.1))
  exact (sampleCremaProb_eq hb h).law hE (a := (i, j, p)) (by rw [hz.1]; exact hn) (by rw [hz.1]; exact hij) (hp _ hij).1 (hp _ hij).2 (hb _ hij) ht

/-- C70: after crema-sparse the ordered pair `(i, j)` is listed with a weight above `t` with probability `x_i y_j / (1 + x_i y_j) exp(-(β_i + β_j) t)`. -/
theorem C70_crema_sparse_weight_law [IsProbabilityMeasure P] (hE : ExponentialSource P U E) {b_out b_in x y : Fin n → ℝ} (hb : ∀ i j, i ≠ j → 0 < b_out i + b_in j)
    (hx : ∀ i, 0 ≤ x i) (hy : ∀ i, 0 ≤ y i) {seed : Option ℕ} {g : R.S × Option ℕ} {sample : Ω → List (ℕ × ℕ × ℝ)}
    (h : SampleCremaSparse R U E h0 b_out b_in x y seed g sample) {i j : Fin n} (hij : i ≠ j) {t : ℝ} (ht : 0 ≤ t) :
    P {ω | Heavier (sample ω) i j t} = ENNReal.ofReal (linkDBCM x y i j * Real.exp (-((b_out i + b_in j) * t))) := by
  have hz := zip_fst_snd (pairsNe n) _ (drawSeeds_length R (pairsNe n).length (reseed R seed g.1))
  have hb' := prob_bounds (mul_nonneg (hx i) (hy j))
  exact (sampleCremaSparse_eq hb h).law hE (a := (i, j)) (by rw [hz.1]; exact (List.map_id (pairsNe n)).symm ▸ pairsNe_nodup n) (by rw [hz.1]; exact (mem_pairsNe _).2 hij) hb'.1 hb'.2
    (hb _ _ hij) ht

/-! ### the whole network -/

/-- C70: with different seeds for different pairs, the probability that exactly the pairs of `B` are listed, with weights above `t`, is the product of the probabilities
of the pairs: the network has the law of the model. -/
theorem C70_crema_network_law [IsProbabilityMeasure P] (hU : UniformSource P U) (hE : ExponentialSource P U E) (hind : IndependentSeedsE P U E) {b_out b_in : Fin n → ℝ}
    {adj : List (Fin n × Fin n × ℝ)} (hn : (adj.map fun e => (e.1, e.2.1)).Nodup) (hb : ∀ e ∈ adj, 0 < b_out e.1 + b_in e.2.1) (hp : ∀ e ∈ adj, 0 ≤ e.2.2 ∧ e.2.2 ≤ 1)
    {seed : Option ℕ} {g : R.S × Option ℕ} {sample : Ω → List (ℕ × ℕ × ℝ)} (h : SampleCremaProb R U E h0 b_out b_in adj seed g sample)
    (hs : (drawSeeds R adj.length (reseed R seed g.1)).1.Nodup) (B : Fin n → Fin n → Bool) (t : Fin n → Fin n → ℝ) (ht : ∀ i j, 0 ≤ t i j) :
    P {ω | ∀ e ∈ adj, if B e.1 e.2.1 = true then Heavier (sample ω) e.1 e.2.1 (t e.1 e.2.1) else Missing (sample ω) e.1 e.2.1} =
      (adj.map fun e => ENNReal.ofReal (if B e.1 e.2.1 = true then e.2.2 * Real.exp (-((b_out e.1 + b_in e.2.1) * t e.1 e.2.1)) else 1 - e.2.2)).prod := by
  have hz := zip_fst_snd adj _ (drawSeeds_length R adj.length (reseed R seed g.1))
  have hm : ∀ as ∈ adj.zip (drawSeeds R adj.length (reseed R seed g.1)).1, as.1 ∈ adj := fun as has => (List.of_mem_zip has).1
  have := (sampleCremaProb_eq hb h).joint hU hE hind (by rw [hz.1]; exact hn) (by rw [hz.2]; exact hs) (fun as has => hp _ (hm as has)) (fun as has => hb _ (hm as has))
    (fun e => B e.1 e.2.1) (fun e => t e.1 e.2.1) fun as _ => ht _ _
  rwa [hz.1] at this

/-- C70: the same for crema-sparse, over all ordered pairs. -/
theorem C70_crema_sparse_network_law [IsProbabilityMeasure P] (hU : UniformSource P U) (hE : ExponentialSource P U E) (hind : IndependentSeedsE P U E) {b_out b_in x y : Fin n → ℝ}
    (hb : ∀ i j, i ≠ j → 0 < b_out i + b_in j) (hx : ∀ i, 0 ≤ x i) (hy : ∀ i, 0 ≤ y i) {seed : Option ℕ} {g : R.S × Option ℕ} {sample : Ω → List (ℕ × ℕ × ℝ)}
    (h : SampleCremaSparse R U E h0 b_out b_in x y seed g sample) (hs : (drawSeeds R (pairsNe n).length (reseed R seed g.1)).1.Nodup) (B : Fin n → Fin n → Bool)
    (t : Fin n → Fin n → ℝ) (ht : ∀ i j, 0 ≤ t i j) :
    P {ω | ∀ i j, i ≠ j → if B i j = true then Heavier (sample ω) i j (t i j) else Missing (sample ω) i j} =
      ∏ e ∈ univ.filter fun e : Fin n × Fin n => e.1 ≠ e.2,
        ENNReal.ofReal (if B e.1 e.2 = true then linkDBCM x y e.1 e.2 * Real.exp (-((b_out e.1 + b_in e.2) * t e.1 e.2)) else 1 - linkDBCM x y e.1 e.2) := by
  have hz := zip_fst_snd (pairsNe n) _ (drawSeeds_length R (pairsNe n).length (reseed R seed g.1))
  have hm : ∀ as ∈ (pairsNe n).zip (drawSeeds R (pairsNe n).length (reseed R seed g.1)).1, as.1.1 ≠ as.1.2 := fun as has => (mem_pairsNe _).1 (List.of_mem_zip has).1
  have := (sampleCremaSparse_eq hb h).joint hU hE hind (by rw [hz.1]; exact (List.map_id (pairsNe n)).symm ▸ pairsNe_nodup n) (by rw [hz.2]; exact hs)
    (fun as _ => prob_bounds (mul_nonneg (hx _) (hy _))) (fun as has => hb _ _ (hm as has)) (fun e => B e.1 e.2) (fun e => t e.1 e.2) fun as _ => ht _ _
  rw [hz.1] at this
  rw [← pairsNe_toFinset, List.prod_toFinset _ (pairsNe_nodup n), ← this]
  congr 1
  ext ω
  simp only [Set.mem_setOf_eq, mem_pairsNe, Prod.forall]

/-! ### mean strengths -/

open Classical in
/-- where the matrix has a link -/
noncomputable def pattern (a : Fin n → Fin n → ℝ) (i j : Fin n) : ℝ := if a i j = 0 then 0 else 1

theorem triu_mem {a : Fin n → Fin n → ℝ} {t : Fin n × Fin n × ℝ} (h : t ∈ triuEdges a) : t.1 ≤ t.2.1 ∧ a t.1 t.2.1 ≠ 0 ∧ t.2.2 = a t.1 t.2.1 := by
  simp only [triuEdges, List.mem_map, List.mem_filter] at h
  obtain ⟨u, ⟨-, hu⟩, rfl⟩ := h
  simp only [decide_eq_true_eq] at hu
  exact ⟨hu.1, hu.2, rfl⟩

theorem nz_mem {a : Fin n → Fin n → ℝ} {t : Fin n × Fin n × ℝ} (h : t ∈ nzEdges a) : a t.1 t.2.1 ≠ 0 ∧ t.2.2 = a t.1 t.2.1 := by
  simp only [nzEdges, List.mem_map, List.mem_filter] at h
  obtain ⟨u, ⟨-, hu⟩, rfl⟩ := h
  simp only [decide_eq_true_eq] at hu
  exact ⟨hu, rfl⟩

/-- sum over the links at a node of an undirected network -/
theorem sum_at (a : Fin n → Fin n → ℝ) (hs : ∀ i j, a i j = a j i) (hd : ∀ i, a i i = 0) (β : Fin n → ℝ) (c : ℝ → ℝ) (hc : c 0 = 0) (i : Fin n) :
    ((triuEdges a).map fun e => if e.1.val = i.val ∨ e.2.1.val = i.val then c e.2.2 / (β e.1 + β e.2.1) else 0).sum = strCReMa (fun i j => c (a i j)) β i := by
  have h1 : ((triuEdges a).map fun e => if e.1.val = i.val ∨ e.2.1.val = i.val then c e.2.2 / (β e.1 + β e.2.1) else 0) =
      (triuEdges a).map fun e => (if i = e.1 then c e.2.2 / (β e.1 + β e.2.1) else 0) + if i = e.2.1 then c e.2.2 / (β e.2.1 + β e.1) else 0 := by
    refine List.map_congr_left fun e he => ?_
    obtain ⟨h1, h2, -⟩ := triu_mem he
    have hne : e.1 ≠ e.2.1 := fun h => h2 (by rw [← h, hd])
    simp only [Fin.val_inj, add_comm (β e.2.1)]
    by_cases h3 : i = e.1
    · have h4 : ¬ i = e.2.1 := fun h => hne (h3.symm.trans h)
      simp [h3, hne]
    · by_cases h4 : i = e.2.1
      · simp [h4, hne.symm]
      · simp [h3, h4, Ne.symm h3, Ne.symm h4]
  rw [h1, Verif.inc_triu a hs hd (fun i j w => c w / (β i + β j)) (fun _ _ => by simp [hc]) i]
  unfold strCReMa
  rw [Finset.sum_filter]
  refine Finset.sum_congr rfl fun j _ => ?_
  by_cases h : j = i
  · simp [h, hd, hc]
  · simp [h]

/-- C70: over the networks sampled on a probabilistic topology `a` the mean strength of every node is the expected strength of the model. -/
theorem C70_crema_mean_strength [IsProbabilityMeasure P] (hU : UniformSource P U) (hE : ExponentialSource P U E) {a : Fin n → Fin n → ℝ} (hs : ∀ i j, a i j = a j i)
    (hd : ∀ i, a i i = 0) (ha : ∀ i j, 0 ≤ a i j ∧ a i j ≤ 1) {β : Fin n → ℝ} (hb : ∀ i j, a i j ≠ 0 → 0 < β i + β j) {seed : Option ℕ} {g : R.S × Option ℕ}
    {sample : Ω → List (ℕ × ℕ × ℝ)} (h : SampleCremaProb R U E h0 β β (triuEdges a) seed g sample) (i : Fin n) : ∫ ω, weightAt (sample ω) i ∂P = strCReMa a β i := by
  have hz := zip_fst_snd (triuEdges a) _ (drawSeeds_length R (triuEdges a).length (reseed R seed g.1))
  have := (sampleCremaProb_eq (fun e he => hb _ _ (triu_mem he).2.1) h).mean hU hE (fun as has => by
    rw [(triu_mem (List.of_mem_zip has).1).2.2]; exact ha _ _) fun e => e.1 = i.val ∨ e.2 = i.val
  rw [hz.1] at this
  exact this.trans (sum_at a hs hd β (fun w => w) rfl i)

/-- C70: on a given topology the mean strength of every node is the expected strength of the model, as long as the matrix consists of zeros and ones. -/
theorem C70_crema_given_mean_strength_partial [IsProbabilityMeasure P] (hU : UniformSource P U) (hE : ExponentialSource P U E) {a : Fin n → Fin n → ℝ} (hs : ∀ i j, a i j = a j i)
    (hd : ∀ i, a i i = 0) {β : Fin n → ℝ} (hb : ∀ i j, a i j ≠ 0 → 0 < β i + β j) {seed : Option ℕ} {g : R.S × Option ℕ}
    {sample : Ω → List (ℕ × ℕ × ℝ)} (h : SampleCremaDet R U E h0 β β ((triuEdges a).map fun t => (t.1, t.2.1)) seed g sample) (i : Fin n) :
    ∫ ω, weightAt (sample ω) i ∂P = strCReMa (pattern a) β i ∧ ((∀ i j, a i j = 0 ∨ a i j = 1) → ∫ ω, weightAt (sample ω) i ∂P = strCReMa a β i) := by
  have hz := zip_fst_snd ((triuEdges a).map fun t => (t.1, t.2.1)) _ (drawSeeds_length R ((triuEdges a).map fun t => (t.1, t.2.1)).length (reseed R seed g.1))
  have := (sampleCremaDet_eq (fun e he => by
    obtain ⟨t, ht, rfl⟩ := List.mem_map.1 he
    exact hb _ _ (triu_mem ht).2.1) h).mean hU hE (fun _ _ => ⟨zero_le_one, le_rfl⟩) fun e => e.1 = i.val ∨ e.2 = i.val
  rw [hz.1, List.map_map] at this
  have key : ∫ ω, weightAt (sample ω) i ∂P = strCReMa (pattern a) β i := by
    refine this.trans (Eq.trans ?_ (sum_at a hs hd β (open Classical in fun w => if w = 0 then 0 else 1) (by simp) i))
    congr 1
    refine List.map_congr_left fun e he => ?_
    obtain ⟨-, h2, h3⟩ := triu_mem he
    simp [Function.comp, h3, h2]
  refine ⟨key, fun h01 => ?_⟩
  rw [key]
  congr 1
  funext i j
  unfold pattern
  rcases h01 i j with h | h <;> simp [h]

/-- C70 is violated by crema-sparse on an undirected graph: every pair is drawn twice, so the mean strength of every node over the sampled networks is twice the expected
strength of the model. -/
theorem C70_crema_sparse_undirected_doubles [IsProbabilityMeasure P] (hU : UniformSource P U) (hE : ExponentialSource P U E) {β x : Fin n → ℝ} (hb : ∀ i j, i ≠ j → 0 < β i + β j)
    (hx : ∀ i, 0 ≤ x i) {seed : Option ℕ} {g : R.S × Option ℕ} {sample : Ω → List (ℕ × ℕ × ℝ)} (h : SampleCremaSparse R U E h0 β β x x seed g sample) (i : Fin n) :
    ∫ ω, weightAt (sample ω) i ∂P = 2 * strCReMa (linkUBCM x) β i := by
  show _ = 2 * strCReMa (linkDBCM x x) β i
  have hz := zip_fst_snd (pairsNe n) _ (drawSeeds_length R (pairsNe n).length (reseed R seed g.1))
  have := (sampleCremaSparse_eq hb h).mean hU hE (fun as _ => prob_bounds (mul_nonneg (hx _) (hx _))) fun e => e.1 = i.val ∨ e.2 = i.val
  rw [hz.1] at this
  refine this.trans ?_
  rw [list_sum_eq _ (pairsNe_nodup n), pairsNe_toFinset]
  have h1 : ∀ e ∈ univ.filter fun e : Fin n × Fin n => e.1 ≠ e.2, (if e.1.val = i.val ∨ e.2.val = i.val then linkDBCM x x e.1 e.2 / (β e.1 + β e.2) else 0) =
      (if e.1 = i then linkDBCM x x e.1 e.2 / (β e.1 + β e.2) else 0) + if e.2 = i then linkDBCM x x e.1 e.2 / (β e.1 + β e.2) else 0 := fun e he => by
    have hne := (Finset.mem_filter.1 he).2
    simp only [Fin.val_inj]
    by_cases h3 : e.1 = i
    · have h4 : ¬ e.2 = i := fun h => hne (h3.trans h.symm)
      simp [h3, h4]
    · simp [h3]
  rw [Finset.sum_congr rfl h1, Finset.sum_add_distrib, sum_arcs_out i fun e => linkDBCM x x e.1 e.2 / (β e.1 + β e.2), sum_arcs_in i fun e => linkDBCM x x e.1 e.2 / (β e.1 + β e.2)]
  unfold strCReMa
  rw [Finset.sum_filter, two_mul]
  congr 1 <;> refine Finset.sum_congr rfl fun j _ => ?_ <;> by_cases hj : i = j
  · simp [hj]
  · simp [hj, Ne.symm hj]
  · simp [hj]
  · simp only [hj, Ne.symm hj, if_false, ne_eq, not_false_eq_true, if_true, add_comm (β j), linkDBCM, mul_comm (x j)]

/-- C70 (directed): the mean strengths over the networks sampled on a probabilistic topology. -/
theorem C70_dcrema_mean_strengths [IsProbabilityMeasure P] (hU : UniformSource P U) (hE : ExponentialSource P U E) {a : Fin n → Fin n → ℝ} (ha : ∀ i j, 0 ≤ a i j ∧ a i j ≤ 1)
    {bo bi : Fin n → ℝ} (hb : ∀ i j, a i j ≠ 0 → 0 < bo i + bi j) {seed : Option ℕ} {g : R.S × Option ℕ}
    {sample : Ω → List (ℕ × ℕ × ℝ)} (h : SampleCremaProb R U E h0 bo bi (nzEdges a) seed g sample) (i : Fin n) :
    ∫ ω, weightOut (sample ω) i ∂P = outStrCReMa a bo bi i ∧ ∫ ω, weightIn (sample ω) i ∂P = inStrCReMa a bo bi i := by
  have hz := zip_fst_snd (nzEdges a) _ (drawSeeds_length R (nzEdges a).length (reseed R seed g.1))
  have h1 := sampleCremaProb_eq (fun e he => hb _ _ (nz_mem he).1) h
  have hp : ∀ as ∈ (nzEdges a).zip (drawSeeds R (nzEdges a).length (reseed R seed g.1)).1, 0 ≤ as.1.2.2 ∧ as.1.2.2 ≤ 1 := fun as has => by
    rw [(nz_mem (List.of_mem_zip has).1).2]; exact ha _ _
  constructor
  · have := h1.mean hU hE hp fun e => e.1 = i.val
    rw [hz.1] at this
    refine this.trans ?_
    simp only [Fin.val_inj]
    rw [DCReMa.sum_arcs a (fun k j w => if k = i then w / (bo k + bi j) else 0) (by simp), Finset.sum_eq_single i (fun k _ hk => by simp [hk]) (by simp)]
    simp [outStrCReMa]
  · have := h1.mean hU hE hp fun e => e.2 = i.val
    rw [hz.1] at this
    refine this.trans ?_
    simp only [Fin.val_inj]
    rw [DCReMa.sum_arcs a (fun k j w => if j = i then w / (bo k + bi j) else 0) (by simp)]
    simp [inStrCReMa]

/-- C70 (directed): on a given topology, as long as the matrix consists of zeros and ones. -/
theorem C70_dcrema_given_mean_strengths_partial [IsProbabilityMeasure P] (hU : UniformSource P U) (hE : ExponentialSource P U E) {a : Fin n → Fin n → ℝ}
    {bo bi : Fin n → ℝ} (hb : ∀ i j, a i j ≠ 0 → 0 < bo i + bi j) {seed : Option ℕ} {g : R.S × Option ℕ}
    {sample : Ω → List (ℕ × ℕ × ℝ)} (h : SampleCremaDet R U E h0 bo bi ((nzEdges a).map fun t => (t.1, t.2.1)) seed g sample) (i : Fin n) :
    (∫ ω, weightOut (sample ω) i ∂P = outStrCReMa (pattern a) bo bi i ∧ ∫ ω, weightIn (sample ω) i ∂P = inStrCReMa (pattern a) bo bi i) ∧
      ((∀ i j, a i j = 0 ∨ a i j = 1) → ∫ ω, weightOut (sample ω) i ∂P = outStrCReMa a bo bi i ∧ ∫ ω, weightIn (sample ω) i ∂P = inStrCReMa a bo bi i) := by
  classical
  have hz := zip_fst_snd ((nzEdges a).map fun t => (t.1, t.2.1)) _ (drawSeeds_length R ((nzEdges a).map fun t => (t.1, t.2.1)).length (reseed R seed g.1))
  have h1 := sampleCremaDet_eq (fun e he => by
    obtain ⟨t, ht, rfl⟩ := List.mem_map.1 he
    exact hb _ _ (nz_mem ht).1) h
  have key : ∫ ω, weightOut (sample ω) i ∂P = outStrCReMa (pattern a) bo bi i ∧ ∫ ω, weightIn (sample ω) i ∂P = inStrCReMa (pattern a) bo bi i := by
    constructor
    · have := h1.mean hU hE (fun _ _ => ⟨zero_le_one, le_rfl⟩) fun e => e.1 = i.val
      rw [hz.1, List.map_map] at this
      refine this.trans ?_
      have h2 : ((nzEdges a).map ((fun e : Fin n × Fin n => if e.1.val = i.val then 1 / (bo e.1 + bi e.2) else 0) ∘ fun t => (t.1, t.2.1))) =
          (nzEdges a).map fun e => if e.1 = i then (if e.2.2 = 0 then 0 else 1) / (bo e.1 + bi e.2.1) else 0 :=
        List.map_congr_left fun e he => by
          obtain ⟨h2, h3⟩ := nz_mem he
          simp [Function.comp, h3, h2, Fin.val_inj]
      rw [h2, DCReMa.sum_arcs a (fun k j w => if k = i then (if w = 0 then 0 else 1) / (bo k + bi j) else 0) (by simp), Finset.sum_eq_single i (fun k _ hk => by simp [hk]) (by simp)]
      simp [outStrCReMa, pattern]
    · have := h1.mean hU hE (fun _ _ => ⟨zero_le_one, le_rfl⟩) fun e => e.2 = i.val
      rw [hz.1, List.map_map] at this
      refine this.trans ?_
      have h2 : ((nzEdges a).map ((fun e : Fin n × Fin n => if e.2.val = i.val then 1 / (bo e.1 + bi e.2) else 0) ∘ fun t => (t.1, t.2.1))) =
          (nzEdges a).map fun e => if e.2.1 = i then (if e.2.2 = 0 then 0 else 1) / (bo e.1 + bi e.2.1) else 0 :=
        List.map_congr_left fun e he => by
          obtain ⟨h2, h3⟩ := nz_mem he
          simp [Function.comp, h3, h2, Fin.val_inj]
      rw [h2, DCReMa.sum_arcs a (fun k j w => if j = i then (if w = 0 then 0 else 1) / (bo k + bi j) else 0) (by simp)]
      simp [inStrCReMa, pattern]
  refine ⟨key, fun h01 => ?_⟩
  have : pattern a = a := by
    funext i j
    unfold pattern
    rcases h01 i j with h | h <;> simp [h]
  rw [this] at key
  exact key

/-- C70 (directed): the mean strengths over the networks sampled after crema-sparse. -/
theorem C70_dcrema_sparse_mean_strengths [IsProbabilityMeasure P] (hU : UniformSource P U) (hE : ExponentialSource P U E) {bo bi x y : Fin n → ℝ}
    (hb : ∀ i j, i ≠ j → 0 < bo i + bi j) (hx : ∀ i, 0 ≤ x i) (hy : ∀ i, 0 ≤ y i) {seed : Option ℕ} {g : R.S × Option ℕ}
    {sample : Ω → List (ℕ × ℕ × ℝ)} (h : SampleCremaSparse R U E h0 bo bi x y seed g sample) (i : Fin n) :
    ∫ ω, weightOut (sample ω) i ∂P = ∑ j ∈ univ.filter (· ≠ i), linkDBCM x y i j / (bo i + bi j) ∧
      ∫ ω, weightIn (sample ω) i ∂P = ∑ j ∈ univ.filter (· ≠ i), linkDBCM x y j i / (bo j + bi i) := by
  have hz := zip_fst_snd (pairsNe n) _ (drawSeeds_length R (pairsNe n).length (reseed R seed g.1))
  have h1 := sampleCremaSparse_eq hb h
  constructor
  · have := h1.mean hU hE (fun as _ => prob_bounds (mul_nonneg (hx _) (hy _))) fun e => e.1 = i.val
    rw [hz.1] at this
    refine this.trans ?_
    simp only [Fin.val_inj]
    rw [list_sum_eq _ (pairsNe_nodup n), pairsNe_toFinset, sum_arcs_out i fun e => linkDBCM x y e.1 e.2 / (bo e.1 + bi e.2), Finset.sum_filter]
    refine Finset.sum_congr rfl fun j _ => ?_
    by_cases hj : i = j
    · simp [hj]
    · simp [hj, Ne.symm hj]
  · have := h1.mean hU hE (fun as _ => prob_bounds (mul_nonneg (hx _) (hy _))) fun e => e.2 = i.val
    rw [hz.1] at this
    refine this.trans ?_
    simp only [Fin.val_inj]
    rw [list_sum_eq _ (pairsNe_nodup n), pairsNe_toFinset, sum_arcs_in i fun e => linkDBCM x y e.1 e.2 / (bo e.1 + bi e.2), Finset.sum_filter]
    refine Finset.sum_congr rfl fun j _ => ?_
    by_cases hj : i = j
    · simp [hj]
    · simp [hj, Ne.symm hj]

/-! ### ideal random numbers -/

/-- ideal random numbers with exponential variates exist, independent after different seeds -/
theorem idealExp_exists : ∃ (Ω : Type) (_ : MeasurableSpace Ω) (P : Measure Ω) (U : ℕ → Ω → I01) (E : ℕ → Ω → ℝ),
    IsProbabilityMeasure P ∧ UniformSource P U ∧ ExponentialSource P U E ∧ IndependentSeedsE P U E := by
  let ν : Measure (I01 × I01) := (volume : Measure I01).prod volume
  let μ : Measure (ℕ → I01 × I01) := Measure.infinitePi fun _ => ν
  let inv : I01 → ℝ := fun v => -Real.log (1 - v)
  have hinv : Measurable inv := (Real.measurable_log.comp (measurable_const.sub measurable_subtype_coe)).neg
  have hev : ∀ s (B : Set (I01 × I01)), MeasurableSet B → μ {f | f s ∈ B} = ν B := by
    intro s B hB
    rw [← Measure.infinitePi_map_eval (fun _ : ℕ => ν) s, Measure.map_apply (measurable_pi_apply s) hB]
    rfl
  have hm : ∀ t : ℝ, MeasurableSet {u : I01 | (u : ℝ) < t} := fun t => measurableSet_lt measurable_subtype_coe measurable_const
  have hlaw : ∀ r : ℝ, 0 ≤ r → (volume : Measure I01) {v | r < inv v} = ENNReal.ofReal (Real.exp (-r)) := fun r hr => by
    have he : Real.exp (-r) ≤ 1 := Real.exp_le_one_iff.2 (by linarith)
    have h1 : {v : I01 | r < inv v} = Subtype.val ⁻¹' Set.Ioi (1 - Real.exp (-r)) := by
      ext v
      have hv : 0 < 1 - (v : ℝ) := by linarith [v.2.2]
      simp only [inv, Set.mem_setOf_eq, Set.mem_preimage, Set.mem_Ioi]
      rw [lt_neg, Real.log_lt_iff_lt_exp hv]
      constructor <;> intro h <;> linarith
    rw [h1, preimage_volume measurableSet_Ioi]
    have h2 : Set.Ioi (1 - Real.exp (-r)) ∩ Set.Ico 0 1 = Set.Ioo (1 - Real.exp (-r)) 1 := by
      ext v
      simp only [Set.mem_inter_iff, Set.mem_Ioi, Set.mem_Ico, Set.mem_Ioo]
      constructor
      · rintro ⟨a, -, b⟩; exact ⟨a, b⟩
      · rintro ⟨a, b⟩; exact ⟨a, by linarith, b⟩
    rw [h2, Real.volume_Ioo]
    congr 1; ring
  refine ⟨ℕ → I01 × I01, inferInstance, μ, fun s ω => (ω s).1, fun s ω => inv (ω s).2, inferInstance, ⟨?_, ?_⟩, ⟨?_, ?_, ?_⟩, ?_⟩
  · intro s; exact measurable_fst.comp (measurable_pi_apply s)
  · intro s t h0 h1
    have := hev s ({u : I01 | (u : ℝ) < t} ×ˢ Set.univ) ((hm t).prod MeasurableSet.univ)
    rw [Measure.prod_prod, I01_lt t h1, measure_univ, mul_one] at this
    rw [← this]
    congr 1; ext ω; simp
  · intro s; exact hinv.comp (measurable_snd.comp (measurable_pi_apply s))
  · intro s ω
    have := (ω s).2.2
    simp only [inv]
    have h2 := Real.log_nonpos (x := 1 - ((ω s).2 : ℝ)) (by linarith [this.2]) (by linarith [this.1])
    linarith
  · intro s t r h0 h1 hr
    have := hev s ({u : I01 | (u : ℝ) < t} ×ˢ {v | r < inv v}) ((hm t).prod (measurableSet_lt measurable_const hinv))
    rw [Measure.prod_prod, I01_lt t h1, hlaw r hr, ← ENNReal.ofReal_mul h0] at this
    rw [← this]
    rfl
  · exact iIndepFun_infinitePi (X := fun (_ : ℕ) (v : I01 × I01) => (v.1, inv v.2)) (fun _ => measurable_fst.prodMk (hinv.comp measurable_snd))

end Verif.Sampler
