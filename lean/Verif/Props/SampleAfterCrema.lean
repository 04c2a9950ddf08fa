import Verif.Props.SampleAfterLaw
import Verif.Props.CremaLaw2

/-! C80: the probability law of the files `ensemble_sampler` writes after `solve_tool` has returned for `crema`. -/

namespace Verif.Sampler

open Verif Verif.Solve Verif.Spec MeasureTheory ProbabilityTheory

variable {Ω : Type*} [MeasurableSpace Ω] {P : Measure Ω} {R : Rng} {n : ℕ} {U : ℕ → Ω → I01} {E : ℕ → Ω → ℝ} {h0 : ∀ s ω, 0 ≤ E s ω}

/-- the weighted network of the edge list `es` has, among the pairs of `T`, exactly the links `B`, with weights above `t` -/
def HasLinks (T : Finset (Fin n × Fin n)) (B : Fin n → Fin n → Bool) (t : Fin n → Fin n → ℝ) (es : List (ℕ × ℕ × ℝ)) : Prop :=
  ∀ q ∈ T, if B q.1 q.2 = true then Heavier es q.1 q.2 (t q.1 q.2) else Missing es q.1 q.2

/-- the probability of `HasLinks` if the pairs are independent, linked with the probabilities `p`, and weights are exponential of rate `r` -/
noncomputable def probLinks (T : Finset (Fin n × Fin n)) (p r : Fin n → Fin n → ℝ) (B : Fin n → Fin n → Bool) (t : Fin n → Fin n → ℝ) : ENNReal :=
  ∏ q ∈ T, ENNReal.ofReal (if B q.1 q.2 = true then p q.1 q.2 * Real.exp (-(r q.1 q.2 * t q.1 q.2)) else 1 - p q.1 q.2)

theorem listed_law [IsProbabilityMeasure P] (hU : UniformSource P U) (hE : ExponentialSource P U E) (hind : IndependentSeedsE P U E) {A : Type} {adj : List A} {seeds : List ℕ}
    (hlen : seeds.length = adj.length) {src dst : A → Fin n} {pe re : A → ℝ} {sample : Ω → List (ℕ × ℕ × ℝ)} (h : Listed U E (adj.zip seeds) src dst pe re sample)
    {a r : Fin n → Fin n → ℝ} (ha : ∀ i j, 0 ≤ a i j ∧ a i j ≤ 1) {T : Finset (Fin n × Fin n)} (hn : (adj.map fun e => (src e, dst e)).Nodup)
    (hmem : ∀ e ∈ adj, (src e, dst e) ∈ T ∧ pe e = a (src e) (dst e) ∧ re e = r (src e) (dst e) ∧ 0 < re e)
    (hout : ∀ q ∈ T, q ∉ adj.map (fun e => (src e, dst e)) → a q.1 q.2 = 0) (hs : seeds.Nodup)
    (B : Fin n → Fin n → Bool) (t : Fin n → Fin n → ℝ) (ht : ∀ i j, 0 ≤ t i j) :
    P {ω | HasLinks T B t (sample ω)} = probLinks T a r B t := by
  classical
  have hz := zip_fst_snd adj seeds hlen
  have hmiss : ∀ ω (q : Fin n × Fin n), q ∉ adj.map (fun e => (src e, dst e)) → Missing (sample ω) q.1 q.2 := by
    intro ω q hq w hw
    rw [h ω, List.mem_filterMap] at hw
    obtain ⟨as, has, hw⟩ := hw
    split_ifs at hw
    simp only [Option.some.injEq, Prod.mk.injEq, Fin.val_inj] at hw
    exact hq (List.mem_map.2 ⟨as.1, (List.of_mem_zip has).1, Prod.ext hw.1 hw.2.1⟩)
  by_cases hbad : ∃ q ∈ T, q ∉ adj.map (fun e => (src e, dst e)) ∧ B q.1 q.2 = true
  · obtain ⟨q, hq, hz, hB⟩ := hbad
    rw [probLinks, Finset.prod_eq_zero hq (by simp [hout q hq hz, hB])]
    convert measure_empty (μ := P)
    refine Set.eq_empty_iff_forall_notMem.2 fun ω hω => ?_
    have h1 := hω q hq
    rw [if_pos hB] at h1
    obtain ⟨w, -, hw⟩ := h1
    exact hmiss ω q hz w hw
  · push Not at hbad
    have key := h.joint hU hE hind (by rw [hz.1]; exact hn) (by rw [hz.2]; exact hs)
      (fun as has => by rw [(hmem _ (List.of_mem_zip has).1).2.1]; exact ha _ _) (fun as has => (hmem _ (List.of_mem_zip has).1).2.2.2)
      (fun e => B (src e) (dst e)) (fun e => t (src e) (dst e)) fun _ _ => ht _ _
    rw [hz.1] at key
    have hset : {ω | HasLinks T B t (sample ω)} =
        {ω | ∀ e ∈ adj, if B (src e) (dst e) = true then Heavier (sample ω) (src e) (dst e) (t (src e) (dst e)) else Missing (sample ω) (src e) (dst e)} := by
      refine Set.ext fun ω => ⟨fun H e he => H (src e, dst e) (hmem e he).1, fun H q hq => ?_⟩
      by_cases hz : q ∈ adj.map (fun e => (src e, dst e))
      · obtain ⟨e, he, rfl⟩ := List.mem_map.1 hz
        exact H e he
      · rw [if_neg (hbad q hq hz)]
        exact hmiss ω q hz
    rw [hset, key]
    have h1 : (adj.map fun e => ENNReal.ofReal (if B (src e) (dst e) = true then pe e * Real.exp (-(re e * t (src e) (dst e))) else 1 - pe e)) =
        (adj.map fun e => (src e, dst e)).map fun q => ENNReal.ofReal (if B q.1 q.2 = true then a q.1 q.2 * Real.exp (-(r q.1 q.2 * t q.1 q.2)) else 1 - a q.1 q.2) := by
      rw [List.map_map]
      refine List.map_congr_left fun e he => ?_
      simp only [Function.comp]
      rw [(hmem e he).2.1, (hmem e he).2.2.1]
    rw [h1, ← List.prod_toFinset _ hn, probLinks]
    refine Finset.prod_subset (fun q hq => ?_) fun q hq hq' => ?_
    · rw [List.mem_toFinset, List.mem_map] at hq
      obtain ⟨e, he, rfl⟩ := hq
      exact (hmem e he).1
    · rw [List.mem_toFinset] at hq'
      rw [if_neg (hbad q hq hq'), hout q hq hq']
      simp

/-- file `k` of a directory, as a random variable -/
theorem directory_file {ε β : Type} {single : Ω → ℕ → ℕ → Except ε (List β)} {seeds : List ℕ} {txt : List β → String} (htot : ∀ ω k s, ∃ es, single ω k s = .ok es)
    (dir : String) {k sk : ℕ} (hk : seeds[k]? = some sk) :
    ∃ sample : Ω → List β, (∀ ω, single ω k sk = .ok (sample ω)) ∧ (∀ ω, ∃ fs, Directory fs dir seeds (single ω) txt) ∧
      ∀ ω fs, Directory fs dir seeds (single ω) txt → fs[k]? = some (dir ++ (toString k ++ ".txt"), txt (sample ω)) := by
  choose sample hs using fun ω => htot ω k sk
  refine ⟨sample, hs, fun ω => directory_exists dir seeds (single ω) txt (htot ω), fun ω fs hd => ?_⟩
  obtain ⟨es', h1, h2⟩ := hd.2 k sk hk
  have : es' = sample ω := Except.ok.inj (h1.symm.trans (hs ω))
  rw [h2, this]

theorem prob_total {bo bi : Fin n → ℝ} {adj : List (Fin n × Fin n × ℝ)} (hb : ∀ e ∈ adj, 0 < bo e.1 + bi e.2.1) (ω : Ω)
    (env : Env (R.idealExp (U · ω) (E · ω) (h0 · ω))) (henv : ∀ T, (env T).Complete) (seed : Option ℕ) (g : R.S × Option ℕ) :
    ∃ es, crema_prob_edges (R.idealExp (U · ω) (E · ω) (h0 · ω)) bo bi adj env seed g = .ok es := by
  classical
  exact ⟨_, sampleEdges_ok (R.idealExp (U · ω) (E · ω) (h0 · ω)) adj _
    (fun (e : Fin n × Fin n × ℝ) s => if (U s ω : ℝ) < e.2.2 then some (e.1.val, e.2.1.val, 1 / (bo e.1 + bi e.2.1) * E s ω) else none)
    (fun _ _ _ _ => rfl) (fun e he s => link_crema_prob_eq (R.idealExp (U · ω) (E · ω) (h0 · ω)) (e.1.val, bo e.1) (e.2.1.val, bi e.2.1) e.2.2 s _ (hb e he)) env henv seed g⟩

theorem nodup_keys {L : List (Fin n × Fin n)} (hL : L.Nodup) (a : Fin n → Fin n → ℝ) : ((L.map fun e => (e.1, e.2, a e.1 e.2)).map fun e => (e.1, e.2.1)).Nodup := by
  rw [List.map_map]
  exact hL.map fun p q h => h

variable [NeZero n]

/-- C80 (with C70): after `solve_tool(model="crema", adjacency="cm")` (or "cm_exp") has returned, file `k` of `ensemble_sampler` is a weighted network in which every pair of nodes is linked,
independently of the others, with the probability of the binary model at the fitnesses on the object, a link has an exponential weight of rate `β_i + β_j`, and the mean strength of every node
is the expected strength of CReMa.  (The seeds drawn for the pairs are assumed distinct; fitnesses non-negative and rates positive on pairs that can be linked: the domain of the models.) -/
theorem C80_crema_law [IsProbabilityMeasure P] (hU : UniformSource P U) (hE : ExponentialSource P U E) (hind : IndependentSeedsE P U E) (e : Solve.Env) {d : UData n} (g : UAttr d)
    (method : String) (guess : Guess n) (a : String) (ha : a = "cm" ∨ a = "cm_exp") (ma : String) (ga : Guess n) (p : Params) :
    let S := solve_tool e g "crema" method guess (.name a) ma ga p
    S.exc = none → ∃ x b, S.g.x = some x ∧ S.g.beta = some b ∧ ((∀ i, 0 ≤ x i) → (∀ i j, i ≠ j → x i * x j ≠ 0 → 0 < b i + b j) →
      ∀ (N : ℕ) (dir : String) (seed : Option ℕ) (st : R.S × Option ℕ) (fmt : ℝ → String)
        (envs : ∀ ω, ℕ → Env (R.idealExp (U · ω) (E · ω) (h0 · ω))), (∀ ω k T, (envs ω k T).Complete) → ∀ (states : ℕ → R.S × Option ℕ) (k sk : ℕ),
        (drawSeeds R N (reseed R seed st.1)).1[k]? = some sk →
        ∃ sample : Ω → List (ℕ × ℕ × ℝ),
          (∀ ω, ∃ fs, samplerU (R.idealExp (U · ω) (E · ω) (h0 · ω)) S.g N dir seed st fmt (envs ω) states = .ok fs ∧
            fs[k]? = some (dir ++ (toString k ++ ".txt"), renderW fmt (sample ω))) ∧
          ((drawSeeds R (triuEdges (linkMatrix x)).length (R.seed sk)).1.Nodup → ∀ B t, (∀ i j, 0 ≤ t i j) →
            P {ω | HasLinks (Finset.univ.filter fun q => q.1 < q.2) B t (sample ω)} =
              probLinks (Finset.univ.filter fun q => q.1 < q.2) (linkUBCM x) (fun i j => b i + b j) B t) ∧
          ∀ i : Fin n, ∫ ω, weightAt (sample ω) i ∂P = strCReMa (linkUBCM x) b i) := by
  intro S h
  obtain ⟨x, b, hx, hb, -⟩ := C80_crema (R := R) e g method guess a ha ma ga p h
  refine ⟨x, b, hx, hb, fun hx0 hpos N dir seed st fmt envs henv states k sk hk => ?_⟩
  have hb1 : ∀ i j, linkMatrix x i j ≠ 0 → i ≠ j ∧ 0 < b i + b j := fun i j hij => by
    have hne : i ≠ j := fun hh => hij (by simp [linkMatrix, hh])
    exact ⟨hne, hpos i j hne fun hz => hij (by simp [linkMatrix, linkUBCM, hz])⟩
  have hbadj : ∀ e ∈ triuEdges (linkMatrix x), 0 < b e.1 + b e.2.1 := fun e he => (hb1 _ _ (triu_mem he).2.1).2
  obtain ⟨sample, hs, hex, hfile⟩ := directory_file (Ω := Ω)
    (single := fun ω k s => crema_prob_edges (R.idealExp (U · ω) (E · ω) (h0 · ω)) b b (triuEdges (linkMatrix x)) (envs ω k) (some s) (states k))
    (seeds := (drawSeeds R N (reseed R seed st.1)).1) (txt := renderW fmt) (fun ω k s => prob_total hbadj ω (envs ω k) (henv ω k) (some s) (states k)) dir hk
  have hsam : SampleCremaProb R U E h0 b b (triuEdges (linkMatrix x)) (some sk) (states k) sample := fun ω => ⟨envs ω k, henv ω k, hs ω⟩
  refine ⟨sample, fun ω => ?_, fun hn B t ht => ?_, fun i => ?_⟩
  · obtain ⟨fs, hfs⟩ := hex ω
    refine ⟨fs, ?_, hfile ω fs hfs⟩
    obtain ⟨x', b', hx', hb', -, hD⟩ := C80_crema (R := R.idealExp (U · ω) (E · ω) (h0 · ω)) e g method guess a ha ma ga p h
    obtain rfl : x' = x := Option.some.inj (hx'.symm.trans hx)
    obtain rfl : b' = b := Option.some.inj (hb'.symm.trans hb)
    refine (hD N dir seed st fmt (envs ω) states fs).2 ?_
    rw [idealExp_drawSeeds, idealExp_reseed, pmatrix_spec]
    exact hfs
  · have hl : probLinks (Finset.univ.filter fun q : Fin n × Fin n => q.1 < q.2) (linkUBCM x) (fun i j => b i + b j) B t =
        probLinks (Finset.univ.filter fun q : Fin n × Fin n => q.1 < q.2) (linkMatrix x) (fun i j => b i + b j) B t := by
      refine Finset.prod_congr rfl fun q hq => ?_
      rw [linkMatrix, if_neg (ne_of_lt (Finset.mem_filter.1 hq).2)]
    rw [hl]
    refine listed_law hU hE hind (drawSeeds_length R _ _) (sampleCremaProb_eq hbadj hsam) (linkMatrix_bounds x hx0) (nodup_keys (nodup_pairs.filter _) _) (fun e he => ?_) (fun q hq hq' => ?_) hn B t ht
    · have h1 := triu_mem he
      exact ⟨Finset.mem_filter.2 ⟨Finset.mem_univ _, lt_of_le_of_ne h1.1 (hb1 _ _ h1.2.1).1⟩, h1.2.2, rfl, hbadj e he⟩
    · by_contra hne
      exact hq' (List.mem_map.2 ⟨_, mem_triu (Finset.mem_filter.1 hq).2.le hne, rfl⟩)
  · rw [C70_crema_mean_strength hU hE (linkMatrix_symm x) (linkMatrix_diag x) (linkMatrix_bounds x hx0) (fun i j hij => (hb1 i j hij).2) hsam i, strCReMa_linkMatrix]

/-- C80 (with C70), directed `crema` on "dcm" or "dcm_exp": arcs between nodes of non-zero out- and in-degree, independent, with the probability of the binary model; weights exponential of
rate `b_out_i + b_in_j`; mean strengths those of CReMa. -/
theorem C80_dcrema_law [IsProbabilityMeasure P] (hU : UniformSource P U) (hE : ExponentialSource P U E) (hind : IndependentSeedsE P U E) (e : Solve.Env) {d : DData n} (g : DAttr d)
    (method : String) (guess : DGuess n) (a : String) (ha : a = "dcm" ∨ a = "dcm_exp") (ma : String) (ga : DGuess n) (p : Params) :
    let S := solve_tool_directed e g "crema" method guess (.name a) ma ga p
    S.exc = none → ∃ x y bo bi, S.g.x = some x ∧ S.g.y = some y ∧ S.g.b_out = some bo ∧ S.g.b_in = some bi ∧
      let M := linkMatrixD (active d.degOut x) (active d.degIn y)
      ((∀ i, 0 ≤ x i ∧ 0 ≤ y i) → (∀ i j, M i j ≠ 0 → 0 < bo i + bi j) →
      ∀ (N : ℕ) (dir : String) (seed : Option ℕ) (st : R.S × Option ℕ) (fmt : ℝ → String)
        (envs : ∀ ω, ℕ → Env (R.idealExp (U · ω) (E · ω) (h0 · ω))), (∀ ω k T, (envs ω k T).Complete) → ∀ (states : ℕ → R.S × Option ℕ) (k sk : ℕ),
        (drawSeeds R N (reseed R seed st.1)).1[k]? = some sk →
        ∃ sample : Ω → List (ℕ × ℕ × ℝ),
          (∀ ω, ∃ fs, samplerD (R.idealExp (U · ω) (E · ω) (h0 · ω)) S.g N dir seed st fmt (envs ω) states = .ok fs ∧
            fs[k]? = some (dir ++ (toString k ++ ".txt"), renderW fmt (sample ω))) ∧
          ((drawSeeds R (nzEdges M).length (R.seed sk)).1.Nodup → ∀ B t, (∀ i j, 0 ≤ t i j) →
            P {ω | HasLinks Finset.univ B t (sample ω)} = probLinks Finset.univ M (fun i j => bo i + bi j) B t) ∧
          ∀ i : Fin n, ∫ ω, weightOut (sample ω) i ∂P = outStrCReMa M bo bi i ∧ ∫ ω, weightIn (sample ω) i ∂P = inStrCReMa M bo bi i) := by
  intro S h
  obtain ⟨x, y, bo, bi, hx, hy, hbo, hbi, -⟩ := C80_dcrema (R := R) e g method guess a ha ma ga p h
  refine ⟨x, y, bo, bi, hx, hy, hbo, hbi, ?_⟩
  intro M h0xy hb1 N dir seed st fmt envs henv states k sk hk
  have hact : ∀ (k v : Fin n → ℝ), (∀ i, 0 ≤ v i) → ∀ i, 0 ≤ active k v i := fun k v hv i => by
    unfold active
    split
    · exact le_rfl
    · exact hv i
  have hM := linkMatrixD_bounds (active d.degOut x) (active d.degIn y) (hact _ _ fun i => (h0xy i).1) (hact _ _ fun i => (h0xy i).2)
  have hbadj : ∀ e ∈ nzEdges M, 0 < bo e.1 + bi e.2.1 := fun e he => hb1 _ _ (nz_mem he).1
  obtain ⟨sample, hs, hex, hfile⟩ := directory_file (Ω := Ω)
    (single := fun ω k s => crema_prob_edges (R.idealExp (U · ω) (E · ω) (h0 · ω)) bo bi (nzEdges M) (envs ω k) (some s) (states k))
    (seeds := (drawSeeds R N (reseed R seed st.1)).1) (txt := renderW fmt) (fun ω k s => prob_total hbadj ω (envs ω k) (henv ω k) (some s) (states k)) dir hk
  have hsam : SampleCremaProb R U E h0 bo bi (nzEdges M) (some sk) (states k) sample := fun ω => ⟨envs ω k, henv ω k, hs ω⟩
  refine ⟨sample, fun ω => ?_, fun hn B t ht => ?_, fun i => C70_dcrema_mean_strengths hU hE hM hb1 hsam i⟩
  · obtain ⟨fs, hfs⟩ := hex ω
    refine ⟨fs, ?_, hfile ω fs hfs⟩
    obtain ⟨x', y', bo', bi', hx', hy', hbo', hbi', -, hD⟩ := C80_dcrema (R := R.idealExp (U · ω) (E · ω) (h0 · ω)) e g method guess a ha ma ga p h
    obtain rfl : x' = x := Option.some.inj (hx'.symm.trans hx)
    obtain rfl : y' = y := Option.some.inj (hy'.symm.trans hy)
    obtain rfl : bo' = bo := Option.some.inj (hbo'.symm.trans hbo)
    obtain rfl : bi' = bi := Option.some.inj (hbi'.symm.trans hbi)
    refine (hD N dir seed st fmt (envs ω) states fs).2 ?_
    rw [idealExp_drawSeeds, idealExp_reseed, pmat_spec]
    exact hfs
  · refine listed_law hU hE hind (drawSeeds_length R _ _) (sampleCremaProb_eq hbadj hsam) hM (nodup_keys (nodup_pairs.filter _) _)
      (fun e he => ⟨Finset.mem_univ _, (nz_mem he).2, rfl, hbadj e he⟩) (fun q _ hq' => ?_) hn B t ht
    by_contra hne
    exact hq' (List.mem_map.2 ⟨_, mem_nz hne, rfl⟩)

/-- C80 (with C70), directed `crema-sparse` on "dcm" or "dcm_exp". -/
theorem C80_dcrema_sparse_law [IsProbabilityMeasure P] (hU : UniformSource P U) (hE : ExponentialSource P U E) (hind : IndependentSeedsE P U E) (e : Solve.Env) {d : DData n} (g : DAttr d)
    (method : String) (guess : DGuess n) (a : String) (ha : a = "dcm" ∨ a = "dcm_exp") (ma : String) (ga : DGuess n) (p : Params) :
    let S := solve_tool_directed e g "crema-sparse" method guess (.name a) ma ga p
    S.exc = none → ∃ x y bo bi, S.g.x = some x ∧ S.g.y = some y ∧ S.g.b_out = some bo ∧ S.g.b_in = some bi ∧
      ((∀ i, 0 ≤ x i ∧ 0 ≤ y i) → (∀ i j, i ≠ j → 0 < bo i + bi j) →
      ∀ (N : ℕ) (dir : String) (seed : Option ℕ) (st : R.S × Option ℕ) (fmt : ℝ → String)
        (envs : ∀ ω, ℕ → Env (R.idealExp (U · ω) (E · ω) (h0 · ω))), (∀ ω k T, (envs ω k T).Complete) → ∀ (states : ℕ → R.S × Option ℕ) (k sk : ℕ),
        (drawSeeds R N (reseed R seed st.1)).1[k]? = some sk →
        ∃ sample : Ω → List (ℕ × ℕ × ℝ),
          (∀ ω, ∃ fs, samplerD (R.idealExp (U · ω) (E · ω) (h0 · ω)) S.g N dir seed st fmt (envs ω) states = .ok fs ∧
            fs[k]? = some (dir ++ (toString k ++ ".txt"), renderW fmt (sample ω))) ∧
          ((drawSeeds R (pairsNe n).length (R.seed sk)).1.Nodup → ∀ B t, (∀ i j, 0 ≤ t i j) →
            P {ω | HasLinks (Finset.univ.filter fun q => q.1 ≠ q.2) B t (sample ω)} =
              probLinks (Finset.univ.filter fun q => q.1 ≠ q.2) (linkDBCM x y) (fun i j => bo i + bi j) B t) ∧
          ∀ i : Fin n, ∫ ω, weightOut (sample ω) i ∂P = outStrCReMa (linkMatrixD x y) bo bi i ∧ ∫ ω, weightIn (sample ω) i ∂P = inStrCReMa (linkMatrixD x y) bo bi i) := by
  intro S h
  obtain ⟨x, y, bo, bi, hx, hy, hbo, hbi, -⟩ := C80_dcrema_sparse (R := R) e g method guess a ha ma ga p h
  refine ⟨x, y, bo, bi, hx, hy, hbo, hbi, ?_⟩
  intro h0xy hb1 N dir seed st fmt envs henv states k sk hk
  obtain ⟨sample, hs, hex, hfile⟩ := directory_file (Ω := Ω)
    (single := fun ω k s => crema_sparse_prob_edges (R.idealExp (U · ω) (E · ω) (h0 · ω)) bo bi x y (envs ω k) (some s) (states k))
    (seeds := (drawSeeds R N (reseed R seed st.1)).1) (txt := renderW fmt)
    (fun ω k s => ⟨_, crema_sparse_edges_eq (R.idealExp (U · ω) (E · ω) (h0 · ω)) bo bi x y hb1 (envs ω k) (henv ω k) (some s) (states k)⟩) dir hk
  have hsam : SampleCremaSparse R U E h0 bo bi x y (some sk) (states k) sample := fun ω => ⟨envs ω k, henv ω k, hs ω⟩
  refine ⟨sample, fun ω => ?_, fun hn B t ht => ?_, fun i => ?_⟩
  · obtain ⟨fs, hfs⟩ := hex ω
    refine ⟨fs, ?_, hfile ω fs hfs⟩
    obtain ⟨x', y', bo', bi', hx', hy', hbo', hbi', -, hD⟩ := C80_dcrema_sparse (R := R.idealExp (U · ω) (E · ω) (h0 · ω)) e g method guess a ha ma ga p h
    obtain rfl : x' = x := Option.some.inj (hx'.symm.trans hx)
    obtain rfl : y' = y := Option.some.inj (hy'.symm.trans hy)
    obtain rfl : bo' = bo := Option.some.inj (hbo'.symm.trans hbo)
    obtain rfl : bi' = bi := Option.some.inj (hbi'.symm.trans hbi)
    refine (hD N dir seed st fmt (envs ω) states fs).2 ?_
    rw [idealExp_drawSeeds, idealExp_reseed]
    exact hfs
  · refine listed_law hU hE hind (drawSeeds_length R _ _) (sampleCremaSparse_eq hb1 hsam) (fun i j => prob_bounds (mul_nonneg (h0xy i).1 (h0xy j).2))
      (by rw [show (fun e : Fin n × Fin n => (e.1, e.2)) = id from rfl, List.map_id]; exact pairsNe_nodup n)
      (fun e he => ⟨Finset.mem_filter.2 ⟨Finset.mem_univ _, (mem_pairsNe e).1 he⟩, rfl, rfl, hb1 _ _ ((mem_pairsNe e).1 he)⟩) (fun q hq hq' => ?_) hn B t ht
    exact absurd (List.mem_map.2 ⟨q, (mem_pairsNe q).2 (Finset.mem_filter.1 hq).2, rfl⟩) hq'
  · obtain ⟨m1, m2⟩ := C70_dcrema_sparse_mean_strengths hU hE hb1 (fun i => (h0xy i).1) (fun i => (h0xy i).2) hsam i
    rw [m1, m2, outStrCReMa, inStrCReMa, Finset.sum_filter, Finset.sum_filter]
    constructor <;> refine Finset.sum_congr rfl fun j _ => ?_ <;> rcases eq_or_ne j i with hj | hj
    · simp [linkMatrixD, hj]
    · simp [linkMatrixD, hj, hj.symm]
    · simp [linkMatrixD, hj]
    · simp [linkMatrixD, hj]

theorem det_total {bo bi : Fin n → ℝ} {adj : List (Fin n × Fin n)} (hb : ∀ e ∈ adj, 0 < bo e.1 + bi e.2) (ω : Ω)
    (env : Env (R.idealExp (U · ω) (E · ω) (h0 · ω))) (henv : ∀ T, (env T).Complete) (seed : Option ℕ) (g : R.S × Option ℕ) :
    ∃ es, crema_det_edges (R.idealExp (U · ω) (E · ω) (h0 · ω)) bo bi adj env seed g = .ok es :=
  ⟨_, (C21_crema_det (R.idealExp (U · ω) (E · ω) (h0 · ω)) bo bi adj hb env henv seed g).choose_spec.1⟩

/-- C80 (with C70), `crema` on a given symmetric matrix without self-loops: the networks have exactly the links of the matrix (whatever its values), with independent exponential weights. -/
theorem C80_crema_given_law [IsProbabilityMeasure P] (hU : UniformSource P U) (hE : ExponentialSource P U E) (hind : IndependentSeedsE P U E) (e : Solve.Env) {d : UData n} (g : UAttr d)
    (method : String) (guess : Guess n) (a : Fin n → Fin n → ℝ) (hsym : ∀ i j, a i j = a j i) (hdiag : ∀ i, a i i = 0) (ma : String) (ga : Guess n) (p : Params) :
    let S := solve_tool e g "crema" method guess (.matrix a) ma ga p
    S.exc = none → ∃ b, S.g.beta = some b ∧ ((∀ i j, a i j ≠ 0 → 0 < b i + b j) →
      ∀ (N : ℕ) (dir : String) (seed : Option ℕ) (st : R.S × Option ℕ) (fmt : ℝ → String)
        (envs : ∀ ω, ℕ → Env (R.idealExp (U · ω) (E · ω) (h0 · ω))), (∀ ω k T, (envs ω k T).Complete) → ∀ (states : ℕ → R.S × Option ℕ) (k sk : ℕ),
        (drawSeeds R N (reseed R seed st.1)).1[k]? = some sk →
        ∃ sample : Ω → List (ℕ × ℕ × ℝ),
          (∀ ω, ∃ fs, samplerU (R.idealExp (U · ω) (E · ω) (h0 · ω)) S.g N dir seed st fmt (envs ω) states = .ok fs ∧
            fs[k]? = some (dir ++ (toString k ++ ".txt"), renderW fmt (sample ω))) ∧
          ((drawSeeds R (triuEdges a).length (R.seed sk)).1.Nodup → ∀ B t, (∀ i j, 0 ≤ t i j) →
            P {ω | HasLinks (Finset.univ.filter fun q => q.1 < q.2) B t (sample ω)} =
              probLinks (Finset.univ.filter fun q => q.1 < q.2) (pattern a) (fun i j => b i + b j) B t) ∧
          ∀ i : Fin n, ∫ ω, weightAt (sample ω) i ∂P = strCReMa (pattern a) b i) := by
  intro S h
  obtain ⟨b, hb, -⟩ := C80_crema_given (R := R) e g method guess a ma ga p h
  refine ⟨b, hb, fun hb1 N dir seed st fmt envs henv states k sk hk => ?_⟩
  have hbadj : ∀ e ∈ (triuEdges a).map fun t => (t.1, t.2.1), 0 < b e.1 + b e.2 := fun e he => by
    obtain ⟨t, ht, rfl⟩ := List.mem_map.1 he
    exact hb1 _ _ (triu_mem ht).2.1
  obtain ⟨sample, hs, hex, hfile⟩ := directory_file (Ω := Ω)
    (single := fun ω k s => crema_det_edges (R.idealExp (U · ω) (E · ω) (h0 · ω)) b b ((triuEdges a).map fun t => (t.1, t.2.1)) (envs ω k) (some s) (states k))
    (seeds := (drawSeeds R N (reseed R seed st.1)).1) (txt := renderW fmt) (fun ω k s => det_total hbadj ω (envs ω k) (henv ω k) (some s) (states k)) dir hk
  have hsam : SampleCremaDet R U E h0 b b ((triuEdges a).map fun t => (t.1, t.2.1)) (some sk) (states k) sample := fun ω => ⟨envs ω k, henv ω k, hs ω⟩
  refine ⟨sample, fun ω => ?_, fun hn B t ht => ?_, fun i => (C70_crema_given_mean_strength_partial hU hE hsym hdiag hb1 hsam i).1⟩
  · obtain ⟨fs, hfs⟩ := hex ω
    refine ⟨fs, ?_, hfile ω fs hfs⟩
    obtain ⟨b', hb', -, hD⟩ := C80_crema_given (R := R.idealExp (U · ω) (E · ω) (h0 · ω)) e g method guess a ma ga p h
    obtain rfl : b' = b := Option.some.inj (hb'.symm.trans hb)
    refine (hD N dir seed st fmt (envs ω) states fs).2 ?_
    rw [idealExp_drawSeeds, idealExp_reseed]
    exact hfs
  · refine listed_law hU hE hind (drawSeeds_length R _ _) (sampleCremaDet_eq hbadj hsam) (fun i j => ?_)
      (by rw [show (fun e : Fin n × Fin n => (e.1, e.2)) = id from rfl, List.map_id]; exact nodup_keys (nodup_pairs.filter _) _) (fun e he => ?_) (fun q hq hq' => ?_)
      (by rw [List.length_map]; exact hn) B t ht
    · unfold pattern
      split <;> norm_num
    · have hp := hbadj e he
      obtain ⟨t, ht, rfl⟩ := List.mem_map.1 he
      have h1 := triu_mem ht
      refine ⟨Finset.mem_filter.2 ⟨Finset.mem_univ _, lt_of_le_of_ne h1.1 fun hh => h1.2.1 ?_⟩, by simp [pattern, h1.2.1], rfl, hp⟩
      rw [hh]; exact hdiag _
    · have : a q.1 q.2 = 0 := by
        by_contra hne
        exact hq' (List.mem_map.2 ⟨q, List.mem_map.2 ⟨_, mem_triu (Finset.mem_filter.1 hq).2.le hne, rfl⟩, rfl⟩)
      simp [pattern, this]

/-- C80 (with C70), directed `crema` on a given matrix. -/
theorem C80_dcrema_given_law [IsProbabilityMeasure P] (hU : UniformSource P U) (hE : ExponentialSource P U E) (hind : IndependentSeedsE P U E) (e : Solve.Env) {d : DData n} (g : DAttr d)
    (method : String) (guess : DGuess n) (a : Fin n → Fin n → ℝ) (ma : String) (ga : DGuess n) (p : Params) :
    let S := solve_tool_directed e g "crema" method guess (.matrix a) ma ga p
    S.exc = none → ∃ bo bi, S.g.b_out = some bo ∧ S.g.b_in = some bi ∧ ((∀ i j, a i j ≠ 0 → 0 < bo i + bi j) →
      ∀ (N : ℕ) (dir : String) (seed : Option ℕ) (st : R.S × Option ℕ) (fmt : ℝ → String)
        (envs : ∀ ω, ℕ → Env (R.idealExp (U · ω) (E · ω) (h0 · ω))), (∀ ω k T, (envs ω k T).Complete) → ∀ (states : ℕ → R.S × Option ℕ) (k sk : ℕ),
        (drawSeeds R N (reseed R seed st.1)).1[k]? = some sk →
        ∃ sample : Ω → List (ℕ × ℕ × ℝ),
          (∀ ω, ∃ fs, samplerD (R.idealExp (U · ω) (E · ω) (h0 · ω)) S.g N dir seed st fmt (envs ω) states = .ok fs ∧
            fs[k]? = some (dir ++ (toString k ++ ".txt"), renderW fmt (sample ω))) ∧
          ((drawSeeds R (nzEdges a).length (R.seed sk)).1.Nodup → ∀ B t, (∀ i j, 0 ≤ t i j) →
            P {ω | HasLinks Finset.univ B t (sample ω)} = probLinks Finset.univ (pattern a) (fun i j => bo i + bi j) B t) ∧
          ∀ i : Fin n, ∫ ω, weightOut (sample ω) i ∂P = outStrCReMa (pattern a) bo bi i ∧ ∫ ω, weightIn (sample ω) i ∂P = inStrCReMa (pattern a) bo bi i) := by
  intro S h
  obtain ⟨bo, bi, hbo, hbi, -⟩ := C80_dcrema_given (R := R) e g method guess a ma ga p h
  refine ⟨bo, bi, hbo, hbi, fun hb1 N dir seed st fmt envs henv states k sk hk => ?_⟩
  have hbadj : ∀ e ∈ (nzEdges a).map fun t => (t.1, t.2.1), 0 < bo e.1 + bi e.2 := fun e he => by
    obtain ⟨t, ht, rfl⟩ := List.mem_map.1 he
    exact hb1 _ _ (nz_mem ht).1
  obtain ⟨sample, hs, hex, hfile⟩ := directory_file (Ω := Ω)
    (single := fun ω k s => crema_det_edges (R.idealExp (U · ω) (E · ω) (h0 · ω)) bo bi ((nzEdges a).map fun t => (t.1, t.2.1)) (envs ω k) (some s) (states k))
    (seeds := (drawSeeds R N (reseed R seed st.1)).1) (txt := renderW fmt) (fun ω k s => det_total hbadj ω (envs ω k) (henv ω k) (some s) (states k)) dir hk
  have hsam : SampleCremaDet R U E h0 bo bi ((nzEdges a).map fun t => (t.1, t.2.1)) (some sk) (states k) sample := fun ω => ⟨envs ω k, henv ω k, hs ω⟩
  refine ⟨sample, fun ω => ?_, fun hn B t ht => ?_, fun i => (C70_dcrema_given_mean_strengths_partial hU hE hb1 hsam i).1⟩
  · obtain ⟨fs, hfs⟩ := hex ω
    refine ⟨fs, ?_, hfile ω fs hfs⟩
    obtain ⟨bo', bi', hbo', hbi', -, hD⟩ := C80_dcrema_given (R := R.idealExp (U · ω) (E · ω) (h0 · ω)) e g method guess a ma ga p h
    obtain rfl : bo' = bo := Option.some.inj (hbo'.symm.trans hbo)
    obtain rfl : bi' = bi := Option.some.inj (hbi'.symm.trans hbi)
    refine (hD N dir seed st fmt (envs ω) states fs).2 ?_
    rw [idealExp_drawSeeds, idealExp_reseed]
    exact hfs
  · refine listed_law hU hE hind (drawSeeds_length R _ _) (sampleCremaDet_eq hbadj hsam) (fun i j => ?_)
      (by rw [show (fun e : Fin n × Fin n => (e.1, e.2)) = id from rfl, List.map_id]; exact nodup_keys (nodup_pairs.filter _) _) (fun e he => ?_) (fun q hq hq' => ?_)
      (by rw [List.length_map]; exact hn) B t ht
    · unfold pattern
      split <;> norm_num
    · have hp := hbadj e he
      obtain ⟨t, ht, rfl⟩ := List.mem_map.1 he
      exact ⟨Finset.mem_univ _, by simp [pattern, (nz_mem ht).1], rfl, hp⟩
    · have : a q.1 q.2 = 0 := by
        by_contra hne
        exact hq' (List.mem_map.2 ⟨q, List.mem_map.2 ⟨_, mem_nz hne, rfl⟩, rfl⟩)
      simp [pattern, this]

end Verif.Sampler
