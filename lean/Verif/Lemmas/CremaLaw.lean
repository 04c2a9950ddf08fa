import Verif.Props.SamplerLaw2
import Verif.Spec.CremaLaw
import Mathlib.MeasureTheory.Integral.Layercake
import Mathlib.MeasureTheory.Integral.ExpDecay
import Mathlib.MeasureTheory.Integral.IntegralEqImproper

/-! Lemmas on the law of the graphs sampled after crema (C70). -/

namespace Verif.Sampler

open MeasureTheory Spec Finset ProbabilityTheory

/-- the generator `R` with the first uniform number and the first exponential variate after `np.random.seed(s)` replaced by the given ones -/
@[reducible] noncomputable def Rng.idealExp (R : Rng) (u : ℕ → I01) (ex : ℕ → ℝ) (hex : ∀ s, 0 ≤ ex s) : Rng where
  S := R.S × Option ℕ
  seed k := (R.seed k, some k)
  randint g := ((R.randint g.1).1, ((R.randint g.1).2, none))
  random_sample g := match g.2 with
    | some k => (u k, ((R.random_sample g.1).2, some k))
    | none => ((R.random_sample g.1).1, ((R.random_sample g.1).2, none))
  geometric q g := ((R.geometric q g.1).1, ((R.geometric q g.1).2, none))
  standard_exponential g := match g.2 with
    | some k => (ex k, ((R.standard_exponential g.1).2, none))
    | none => ((R.standard_exponential g.1).1, ((R.standard_exponential g.1).2, none))
  randint_lt g := R.randint_lt g.1
  random_nonneg g := by rcases g with ⟨g, _ | k⟩; exacts [R.random_nonneg g, (u k).2.1]
  random_lt_one g := by rcases g with ⟨g, _ | k⟩; exacts [R.random_lt_one g, (u k).2.2]
  geometric_pos q g h0 h1 := R.geometric_pos q g.1 h0 h1
  exponential_nonneg g := by rcases g with ⟨g, _ | k⟩; exacts [R.exponential_nonneg g, hex k]

section
variable (R : Rng) (u : ℕ → I01) (ex : ℕ → ℝ) (hex : ∀ s, 0 ≤ ex s)

theorem idealExp_drawSeeds (k : ℕ) (g : R.S × Option ℕ) : (drawSeeds (R.idealExp u ex hex) k g).1 = (drawSeeds R k g.1).1 := by
  induction k generalizing g with
  | zero => rfl
  | succ k ih =>
    show (R.randint g.1).1 :: (drawSeeds (R.idealExp u ex hex) k ((R.randint g.1).2, none)).1 = (R.randint g.1).1 :: (drawSeeds R k (R.randint g.1).2).1
    rw [ih]

theorem idealExp_reseed (seed : Option ℕ) (g : R.S × Option ℕ) : (reseed (R.idealExp u ex hex) seed g).1 = reseed R seed g.1 := by
  cases seed <;> rfl

end

variable {Ω : Type*} [MeasurableSpace Ω] {P : Measure Ω} {U : ℕ → Ω → I01} {E : ℕ → Ω → ℝ}

/-- the mean of an exponential weight that is present with probability `p` -/
theorem mean_exponential [IsProbabilityMeasure P] (hU : UniformSource P U) (hE : ExponentialSource P U E) (s : ℕ) {p : ℝ} (h0 : 0 ≤ p) (h1 : p ≤ 1) :
    Integrable (fun ω => open Classical in if (U s ω : ℝ) < p then E s ω else 0) P ∧ ∫ ω, (open Classical in if (U s ω : ℝ) < p then E s ω else 0) ∂P = p := by
  classical
  set f : Ω → ℝ := fun ω => if (U s ω : ℝ) < p then E s ω else 0 with hf
  have hm : Measurable f := Measurable.ite (meas_lt hU.meas _ _) (hE.meas s) measurable_const
  have h00 : ∀ ω, 0 ≤ f ω := fun ω => by simp only [hf]; split_ifs; exacts [hE.nonneg s ω, le_rfl]
  have hlaw : ∀ r : ℝ, 0 ≤ r → P {ω | r < f ω} = ENNReal.ofReal (p * Real.exp (-r)) := fun r hr => by
    rw [← hE.law s p r h0 h1 hr]
    congr 1
    ext ω
    simp only [hf, Set.mem_setOf_eq]
    split_ifs with h
    · simp [h]
    · simp [h, not_lt.2 hr]
  have hint : IntegrableOn (fun r : ℝ => p * Real.exp (-r)) (Set.Ioi 0) := (exp_neg_integrableOn_Ioi 0 one_pos |>.congr_fun (fun r _ => by simp) measurableSet_Ioi).const_mul p
  have hl : ∫⁻ ω, ENNReal.ofReal (f ω) ∂P = ENNReal.ofReal p := by
    rw [lintegral_eq_lintegral_meas_lt P (Filter.Eventually.of_forall h00) hm.aemeasurable]
    rw [setLIntegral_congr_fun (g := fun r => ENNReal.ofReal (p * Real.exp (-r))) measurableSet_Ioi fun r hr => hlaw r (le_of_lt hr)]
    rw [← ofReal_integral_eq_lintegral_ofReal hint (Filter.Eventually.of_forall fun r => mul_nonneg h0 (Real.exp_pos _).le), integral_const_mul, integral_exp_neg_Ioi_zero, mul_one]
  refine ⟨⟨hm.aestronglyMeasurable, ?_⟩, ?_⟩
  · rw [hasFiniteIntegral_iff_ofReal (Filter.Eventually.of_forall h00), hl]; exact ENNReal.ofReal_lt_top
  · rw [integral_eq_lintegral_of_nonneg_ae (Filter.Eventually.of_forall h00) hm.aestronglyMeasurable, hl, ENNReal.toReal_ofReal h0]

/-- the mean of a finite sum of exponential link weights -/
theorem integral_exponentials [IsProbabilityMeasure P] (hU : UniformSource P U) (hE : ExponentialSource P U E) {A : Type} (L : List (A × ℕ)) (p c : A → ℝ)
    (h : ∀ as ∈ L, 0 ≤ p as.1 ∧ p as.1 ≤ 1) :
    Integrable (fun ω => (L.map fun as => open Classical in if (U as.2 ω : ℝ) < p as.1 then c as.1 * E as.2 ω else 0).sum) P ∧
    ∫ ω, (L.map fun as => open Classical in if (U as.2 ω : ℝ) < p as.1 then c as.1 * E as.2 ω else 0).sum ∂P = (L.map fun as => c as.1 * p as.1).sum := by
  classical
  induction L with
  | nil => simp
  | cons a L ih =>
    obtain ⟨i1, i2⟩ := ih fun as h' => h as (List.mem_cons_of_mem _ h')
    obtain ⟨m1, m2⟩ := mean_exponential hU hE a.2 (h a List.mem_cons_self).1 (h a List.mem_cons_self).2
    have hc : (fun ω => if (U a.2 ω : ℝ) < p a.1 then c a.1 * E a.2 ω else 0) = fun ω => c a.1 * if (U a.2 ω : ℝ) < p a.1 then E a.2 ω else 0 := by
      funext ω; split_ifs <;> simp
    have m1' : Integrable (fun ω => if (U a.2 ω : ℝ) < p a.1 then c a.1 * E a.2 ω else 0) P := by rw [hc]; exact m1.const_mul _
    simp only [List.map_cons, List.sum_cons]
    refine ⟨m1'.add i1, ?_⟩
    rw [integral_add m1' i1, i2, hc, integral_const_mul, m2]

end Verif.Sampler

namespace Verif.Sampler

open MeasureTheory Spec Finset ProbabilityTheory

variable {Ω : Type*} [MeasurableSpace Ω] {P : Measure Ω} {U : ℕ → Ω → I01} {E : ℕ → Ω → ℝ} {n : ℕ} {A : Type}

theorem sum_filter_real {B : Type} (l : List B) (Q : B → Prop) [DecidablePred Q] (w : B → ℝ) :
    ((l.filter fun e => decide (Q e)).map w).sum = (l.map fun e => if Q e then w e else 0).sum := by
  induction l with
  | nil => simp
  | cons a l ih =>
    rw [List.filter_cons, List.map_cons, List.sum_cons, ← ih]
    by_cases h : Q a <;> simp [h]

open Classical in
/-- the form of all samples of crema: a candidate `a` with seed `s` is listed if its uniform number is below `p a`, with weight `E s / r a` -/
def Listed (U : ℕ → Ω → I01) (E : ℕ → Ω → ℝ) (L : List (A × ℕ)) (src dst : A → Fin n) (p r : A → ℝ) (sample : Ω → List (ℕ × ℕ × ℝ)) : Prop :=
  ∀ ω, sample ω = L.filterMap fun as => if (U as.2 ω : ℝ) < p as.1 then some ((src as.1).val, (dst as.1).val, 1 / r as.1 * E as.2 ω) else none

theorem Listed.mean [IsProbabilityMeasure P] (hU : UniformSource P U) (hE : ExponentialSource P U E) {L : List (A × ℕ)} {src dst : A → Fin n} {p r : A → ℝ}
    {sample : Ω → List (ℕ × ℕ × ℝ)} (h : Listed U E L src dst p r sample) (hp : ∀ as ∈ L, 0 ≤ p as.1 ∧ p as.1 ≤ 1) (Q : ℕ × ℕ → Prop) [DecidablePred Q] :
    ∫ ω, (((sample ω).filter fun e => decide (Q (e.1, e.2.1))).map fun e => e.2.2).sum ∂P =
      ((L.map Prod.fst).map fun a => if Q ((src a).val, (dst a).val) then p a / r a else 0).sum := by
  classical
  have key : ∀ ω, (((sample ω).filter fun e => decide (Q (e.1, e.2.1))).map fun e => e.2.2).sum =
      (L.map fun as => if (U as.2 ω : ℝ) < p as.1 then (if Q ((src as.1).val, (dst as.1).val) then 1 / r as.1 else 0) * E as.2 ω else 0).sum := fun ω => by
    rw [sum_filter_real (sample ω) (fun e => Q (e.1, e.2.1)), h ω, sum_filterMap]
    congr 1
    refine List.map_congr_left fun as _ => ?_
    by_cases h1 : (U as.2 ω : ℝ) < p as.1
    · simp only [h1, if_true, Option.elim]
      split_ifs <;> simp
    · simp only [h1, if_false, Option.elim]
  simp only [key]
  rw [(integral_exponentials hU hE L p (fun a => if Q ((src a).val, (dst a).val) then 1 / r a else 0) hp).2, List.map_map]
  congr 1
  refine List.map_congr_left fun as _ => ?_
  simp only [Function.comp]
  split_ifs
  · rw [one_div, div_eq_inv_mul]
  · simp

/-- the candidate `a` is listed with a weight above `t` -/
theorem Listed.heavier {L : List (A × ℕ)} {src dst : A → Fin n} {p r : A → ℝ} {sample : Ω → List (ℕ × ℕ × ℝ)}
    (h : Listed U E L src dst p r sample) (hnd : ((L.map Prod.fst).map fun a => (src a, dst a)).Nodup) {as : A × ℕ} (has : as ∈ L) (hr : 0 < r as.1) (t : ℝ) (ω : Ω) :
    Heavier (sample ω) (src as.1) (dst as.1) t ↔ (U as.2 ω : ℝ) < p as.1 ∧ r as.1 * t < E as.2 ω := by
  classical
  have huniq : ∀ bs ∈ L, src bs.1 = src as.1 → dst bs.1 = dst as.1 → bs = as := fun bs hbs h1 h2 => by
    rw [List.map_map] at hnd
    exact List.inj_on_of_nodup_map hnd hbs has (Prod.ext h1 h2)
  unfold Heavier
  simp only [h ω, List.mem_filterMap]
  constructor
  · rintro ⟨w, hw, bs, hbs, hb⟩
    split_ifs at hb with hu
    obtain ⟨h1, h2, h3⟩ : (src bs.1).val = (src as.1).val ∧ (dst bs.1).val = (dst as.1).val ∧ 1 / r bs.1 * E bs.2 ω = w := by simpa using hb
    obtain rfl := huniq bs hbs (Fin.ext h1) (Fin.ext h2)
    refine ⟨hu, ?_⟩
    rw [← h3, one_div, ← div_eq_inv_mul, lt_div_iff₀ hr] at hw
    linarith
  · rintro ⟨hu, hw⟩
    refine ⟨1 / r as.1 * E as.2 ω, ?_, as, has, by rw [if_pos hu]⟩
    rw [one_div, ← div_eq_inv_mul, lt_div_iff₀ hr]
    linarith

theorem Listed.missing {L : List (A × ℕ)} {src dst : A → Fin n} {p r : A → ℝ} {sample : Ω → List (ℕ × ℕ × ℝ)}
    (h : Listed U E L src dst p r sample) (hnd : ((L.map Prod.fst).map fun a => (src a, dst a)).Nodup) {as : A × ℕ} (has : as ∈ L) (ω : Ω) :
    Missing (sample ω) (src as.1) (dst as.1) ↔ ¬ (U as.2 ω : ℝ) < p as.1 := by
  classical
  have huniq : ∀ bs ∈ L, src bs.1 = src as.1 → dst bs.1 = dst as.1 → bs = as := fun bs hbs h1 h2 => by
    rw [List.map_map] at hnd
    exact List.inj_on_of_nodup_map hnd hbs has (Prod.ext h1 h2)
  unfold Missing
  simp only [h ω, List.mem_filterMap]
  constructor
  · intro hm hu
    exact hm _ ⟨as, has, by rw [if_pos hu]⟩
  · rintro hu w ⟨bs, hbs, hb⟩
    split_ifs at hb with hu'
    obtain ⟨h1, h2, -⟩ : (src bs.1).val = (src as.1).val ∧ (dst bs.1).val = (dst as.1).val ∧ 1 / r bs.1 * E bs.2 ω = w := by simpa using hb
    obtain rfl := huniq bs hbs (Fin.ext h1) (Fin.ext h2)
    exact hu hu'

theorem Listed.law [IsProbabilityMeasure P] (hE : ExponentialSource P U E) {L : List (A × ℕ)} {src dst : A → Fin n} {p r : A → ℝ} {sample : Ω → List (ℕ × ℕ × ℝ)}
    (h : Listed U E L src dst p r sample) (hnd : ((L.map Prod.fst).map fun a => (src a, dst a)).Nodup) {a : A} (ha : a ∈ L.map Prod.fst) (h0 : 0 ≤ p a) (h1 : p a ≤ 1)
    (hr : 0 < r a) {t : ℝ} (ht : 0 ≤ t) : P {ω | Heavier (sample ω) (src a) (dst a) t} = ENNReal.ofReal (p a * Real.exp (-(r a * t))) := by
  obtain ⟨as, has, rfl⟩ := List.mem_map.1 ha
  simp only [h.heavier hnd has hr]
  exact hE.law as.2 _ _ h0 h1 (mul_nonneg hr.le ht)

/-- the probability of a set of weighted links -/
theorem Listed.joint [IsProbabilityMeasure P] (hU : UniformSource P U) (hE : ExponentialSource P U E) (hind : IndependentSeedsE P U E) {L : List (A × ℕ)} {src dst : A → Fin n}
    {p r : A → ℝ} {sample : Ω → List (ℕ × ℕ × ℝ)} (h : Listed U E L src dst p r sample) (hnd : ((L.map Prod.fst).map fun a => (src a, dst a)).Nodup)
    (hs : (L.map Prod.snd).Nodup) (hp : ∀ as ∈ L, 0 ≤ p as.1 ∧ p as.1 ≤ 1) (hr : ∀ as ∈ L, 0 < r as.1) (B : A → Bool) (t : A → ℝ) (ht : ∀ as ∈ L, 0 ≤ t as.1) :
    P {ω | ∀ a ∈ L.map Prod.fst, if B a = true then Heavier (sample ω) (src a) (dst a) (t a) else Missing (sample ω) (src a) (dst a)} =
      ((L.map Prod.fst).map fun a => ENNReal.ofReal (if B a = true then p a * Real.exp (-(r a * t a)) else 1 - p a)).prod := by
  classical
  have hL : L.Nodup := hs.of_map
  let S : A × ℕ → Set (I01 × ℝ) := fun as => if B as.1 = true then {v | (v.1 : ℝ) < p as.1 ∧ r as.1 * t as.1 < v.2} else {v | ¬ (v.1 : ℝ) < p as.1}
  have hm1 : ∀ q : ℝ, MeasurableSet {v : I01 × ℝ | (v.1 : ℝ) < q} := fun q => measurableSet_lt (measurable_subtype_coe.comp measurable_fst) measurable_const
  have hS : ∀ as, MeasurableSet (S as) := fun as => by
    simp only [S]
    split_ifs
    · exact (hm1 _).inter (measurableSet_lt measurable_const measurable_snd)
    · exact (hm1 _).compl
  have hset : {ω | ∀ a ∈ L.map Prod.fst, if B a = true then Heavier (sample ω) (src a) (dst a) (t a) else Missing (sample ω) (src a) (dst a)} =
      {ω | ∀ as ∈ L.toFinset, (U as.2 ω, E as.2 ω) ∈ S as} := by
    ext ω
    simp only [Set.mem_setOf_eq, List.mem_map, forall_exists_index, and_imp, forall_apply_eq_imp_iff₂, List.mem_toFinset]
    refine forall_congr' fun as => forall_congr' fun has => ?_
    simp only [S]
    by_cases hB : B as.1 = true
    · simp only [hB, if_true]; exact h.heavier hnd has (hr as has) _ ω
    · simp only [hB]; exact h.missing hnd has ω
  have hinj : Set.InjOn (fun as : A × ℕ => as.2) (L.toFinset : Set (A × ℕ)) := fun a ha b hb hab =>
    List.inj_on_of_nodup_map hs (List.mem_toFinset.1 ha) (List.mem_toFinset.1 hb) hab
  rw [hset, indep_sets hind L.toFinset (fun as => as.2) hinj S fun as _ => hS as, List.prod_toFinset _ hL, List.map_map]
  congr 1
  refine List.map_congr_left fun as has => ?_
  simp only [Function.comp, S]
  split_ifs with hB
  · exact hE.law as.2 _ _ (hp as has).1 (hp as has).2 (mul_nonneg (hr as has).le (ht as has))
  · show P {ω | (U as.2 ω : ℝ) < p as.1}ᶜ = _
    rw [prob_compl_eq_one_sub (meas_lt hU.meas _ _), hU.law _ _ (hp as has).1 (hp as has).2, ← ENNReal.ofReal_one, ← ENNReal.ofReal_sub _ (hp as has).1]

end Verif.Sampler
