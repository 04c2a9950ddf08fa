import Verif.Lemmas.Sampler
import Verif.Spec.SamplerLaw
import Mathlib.MeasureTheory.Integral.Bochner.Set
import Mathlib.Algebra.BigOperators.Group.List.Basic
import Mathlib.Algebra.BigOperators.Field

/-! Lemmas on the law of the sampled graphs. -/

namespace Verif.Sampler

open MeasureTheory Spec Finset

/-- the generator `R` with the first uniform number and the geometric variates after `np.random.seed(s)` replaced by the given ones -/
@[reducible] noncomputable def Rng.ideal (R : Rng) (u : ℕ → I01) (geo : ℕ → ℝ → ℕ) (hgeo : ∀ s q, 1 ≤ geo s q) : Rng where
  S := R.S × Option ℕ
  seed k := (R.seed k, some k)
  randint g := ((R.randint g.1).1, ((R.randint g.1).2, none))
  random_sample g := match g.2 with
    | some k => (u k, ((R.random_sample g.1).2, some k))
    | none => ((R.random_sample g.1).1, ((R.random_sample g.1).2, none))
  geometric q g := match g.2 with
    | some k => (geo k q, ((R.geometric q g.1).2, none))
    | none => (max 1 (R.geometric q g.1).1, ((R.geometric q g.1).2, none))
  standard_exponential g := ((R.standard_exponential g.1).1, ((R.standard_exponential g.1).2, none))
  randint_lt g := R.randint_lt g.1
  random_nonneg g := by rcases g with ⟨g, _ | k⟩; exacts [R.random_nonneg g, (u k).2.1]
  random_lt_one g := by rcases g with ⟨g, _ | k⟩; exacts [R.random_lt_one g, (u k).2.2]
  geometric_pos q g _ _ := by rcases g with ⟨g, _ | k⟩; exacts [le_max_left _ _, hgeo k q]
  exponential_nonneg g := R.exponential_nonneg g.1

section
variable (R : Rng) (u : ℕ → I01) (geo : ℕ → ℝ → ℕ) (hgeo : ∀ s q, 1 ≤ geo s q)

theorem ideal_drawSeeds (k : ℕ) (g : R.S × Option ℕ) : (drawSeeds (R.ideal u geo hgeo) k g).1 = (drawSeeds R k g.1).1 := by
  induction k generalizing g with
  | zero => rfl
  | succ k ih =>
    show (R.randint g.1).1 :: (drawSeeds (R.ideal u geo hgeo) k ((R.randint g.1).2, none)).1 = (R.randint g.1).1 :: (drawSeeds R k (R.randint g.1).2).1
    rw [ih]

theorem ideal_reseed (seed : Option ℕ) (g : R.S × Option ℕ) : (reseed (R.ideal u geo hgeo) seed g).1 = reseed R seed g.1 := by
  cases seed <;> rfl

theorem ideal_unif (s : ℕ) : unif (R.ideal u geo hgeo) s = u s := rfl

end

/-- every candidate has its own seed -/
theorem zip_seeds {A : Type} (l : List A) (hl : l.Nodup) (seeds : List ℕ) (hlen : seeds.length = l.length) :
    ∃ σ : A → ℕ, l.zip seeds = l.map (fun e => (e, σ e)) ∧ seeds = l.map σ := by
  classical
  induction l generalizing seeds with
  | nil => exact ⟨fun _ => 0, by simp, by simpa using hlen⟩
  | cons a l ih =>
    cases seeds with
    | nil => cases hlen
    | cons s seeds =>
      obtain ⟨σ, h1, h2⟩ := ih hl.of_cons seeds (by simpa using hlen)
      have ha : ∀ e ∈ l, e ≠ a := fun e he h => (List.nodup_cons.1 hl).1 (h ▸ he)
      refine ⟨Function.update σ a s, ?_, ?_⟩
      · rw [List.zip_cons_cons, h1, List.map_cons, Function.update_self]
        congr 1
        refine List.map_congr_left fun e he => ?_
        rw [Function.update_of_ne (ha e he)]
      · rw [List.map_cons, Function.update_self]
        conv_lhs => rw [h2]
        congr 1
        refine List.map_congr_left fun e he => ?_
        rw [Function.update_of_ne (ha e he)]

theorem pairsLt_nodup (n : ℕ) : (pairsLt n).Nodup := by
  refine (pairsLt_sorted n).imp ?_
  rintro a b (h | ⟨_, h⟩) rfl
  · exact lt_irrefl _ h
  · exact lt_irrefl _ h

theorem pairsNe_nodup (n : ℕ) : (pairsNe n).Nodup := by
  refine (pairsNe_sorted n).imp ?_
  rintro a b (h | ⟨_, h⟩) rfl
  · exact lt_irrefl _ h
  · exact lt_irrefl _ h

theorem sum_filterMap {A B : Type} (l : List A) (o : A → Option B) (f : B → ℝ) : ((l.filterMap o).map f).sum = (l.map fun a => (o a).elim 0 f).sum := by
  induction l with
  | nil => rfl
  | cons a l ih =>
    rw [List.filterMap_cons, List.map_cons, List.sum_cons, ← ih]
    cases o a <;> simp

theorem length_filter {B : Type} (l : List B) (Q : B → Prop) [DecidablePred Q] : ((l.filter fun e => decide (Q e)).length : ℝ) = (l.map fun e => if Q e then (1 : ℝ) else 0).sum := by
  induction l with
  | nil => simp
  | cons a l ih =>
    rw [List.filter_cons, List.map_cons, List.sum_cons, ← ih]
    by_cases h : Q a <;> simp [h, add_comm]

theorem sum_filter_map {B : Type} (l : List B) (Q : B → Prop) [DecidablePred Q] (w : B → ℕ) :
    (((l.filter fun e => decide (Q e)).map w).sum : ℝ) = (l.map fun e => if Q e then (w e : ℝ) else 0).sum := by
  induction l with
  | nil => simp
  | cons a l ih =>
    rw [List.filter_cons, List.map_cons, List.sum_cons, ← ih]
    by_cases h : Q a <;> simp [h]

theorem list_sum_eq {A : Type} [DecidableEq A] (l : List A) (hl : l.Nodup) (f : A → ℝ) : (l.map f).sum = ∑ e ∈ l.toFinset, f e := (List.sum_toFinset f hl).symm

theorem pairsLt_toFinset (n : ℕ) : (pairsLt n).toFinset = univ.filter fun e : Fin n × Fin n => e.1 < e.2 := by
  ext e; rw [List.mem_toFinset, mem_pairsLt, Finset.mem_filter]; simp

theorem pairsNe_toFinset (n : ℕ) : (pairsNe n).toFinset = univ.filter fun e : Fin n × Fin n => e.1 ≠ e.2 := by
  ext e; rw [List.mem_toFinset, mem_pairsNe, Finset.mem_filter]; simp

/-- the pairs at node `i` -/
theorem sum_pairs_at {n : ℕ} (i : Fin n) (f : Fin n × Fin n → ℝ) :
    ∑ e with e.1 < e.2, (if e.1 = i ∨ e.2 = i then f e else 0) = ∑ j, if i = j then 0 else f (min i j, max i j) := by
  have h1 : ∀ e : Fin n × Fin n, (if e.1 < e.2 then (if e.1 = i ∨ e.2 = i then f e else 0) else 0) =
      (if e.1 = i then (if i < e.2 then f (i, e.2) else 0) else 0) + (if e.2 = i then (if e.1 < i then f (e.1, i) else 0) else 0) := by
    rintro ⟨a, b⟩
    by_cases ha : a = i
    · subst ha
      by_cases hb : b = a
      · subst hb; simp
      · simp [hb]
    · by_cases hb : b = i
      · subst hb; simp [ha]
      · simp [ha, hb]
  rw [Finset.sum_filter]
  simp only [h1]
  rw [Finset.sum_add_distrib, Fintype.sum_prod_type, Fintype.sum_prod_type]
  have e1 : ∑ a, ∑ b, (if a = i then (if i < b then f (i, b) else 0) else 0) = ∑ b, if i < b then f (i, b) else 0 := by
    rw [Finset.sum_comm]; simp
  have e2 : ∑ a, ∑ b, (if b = i then (if a < i then f (a, i) else 0) else 0) = ∑ a, if a < i then f (a, i) else 0 := by simp
  simp only at e1 e2 ⊢
  rw [e1, e2, ← Finset.sum_add_distrib]
  refine Finset.sum_congr rfl fun j _ => ?_
  rcases lt_trichotomy i j with h | h | h
  · simp [h, h.ne, h.not_gt, min_eq_left h.le, max_eq_right h.le]
  · simp [h]
  · simp [h, h.ne', h.not_gt, min_eq_right h.le, max_eq_left h.le]

theorem sum_arcs_out {n : ℕ} (i : Fin n) (f : Fin n × Fin n → ℝ) :
    ∑ e with e.1 ≠ e.2, (if e.1 = i then f e else 0) = ∑ j, if i = j then 0 else f (i, j) := by
  rw [Finset.sum_filter, Fintype.sum_prod_type, Finset.sum_eq_single i]
  · refine Finset.sum_congr rfl fun j _ => ?_
    by_cases h : i = j <;> simp [h]
  · intro b _ hb; refine Finset.sum_eq_zero fun j _ => ?_; simp [hb]
  · simp

theorem sum_arcs_in {n : ℕ} (i : Fin n) (f : Fin n × Fin n → ℝ) :
    ∑ e with e.1 ≠ e.2, (if e.2 = i then f e else 0) = ∑ j, if i = j then 0 else f (j, i) := by
  rw [Finset.sum_filter, Fintype.sum_prod_type_right, Finset.sum_eq_single i]
  · refine Finset.sum_congr rfl fun j _ => ?_
    by_cases h : i = j
    · simp [h]
    · simp [h, Ne.symm h]
  · intro b _ hb; refine Finset.sum_eq_zero fun j _ => ?_; simp [hb]
  · simp

variable {Ω : Type*} [MeasurableSpace Ω] {P : Measure Ω}

theorem meas_lt {U : ℕ → Ω → I01} (hU : ∀ s, Measurable (U s)) (s : ℕ) (t : ℝ) : MeasurableSet {ω | (U s ω : ℝ) < t} :=
  measurableSet_lt (measurable_subtype_coe.comp (hU s)) measurable_const

/-- the mean of a finite sum of link indicators -/
theorem integral_links [IsProbabilityMeasure P] {U : ℕ → Ω → I01} (hU : UniformSource P U) {A : Type} (s : Finset A) (σ : A → ℕ) (p c : A → ℝ)
    (h0 : ∀ e ∈ s, 0 ≤ p e) (h1 : ∀ e ∈ s, p e ≤ 1) :
    ∫ ω, ∑ e ∈ s, (open Classical in if (U (σ e) ω : ℝ) < p e then c e else 0) ∂P = ∑ e ∈ s, c e * p e := by
  classical
  have hind : ∀ e, (fun ω => if (U (σ e) ω : ℝ) < p e then c e else 0) = Set.indicator {ω | (U (σ e) ω : ℝ) < p e} (fun _ => c e) := by
    intro e; funext ω; simp only [Set.indicator, Set.mem_setOf_eq]
  rw [integral_finsetSum]
  · refine Finset.sum_congr rfl fun e he => ?_
    rw [hind, integral_indicator_const _ (meas_lt hU.meas _ _), Measure.real, hU.law _ _ (h0 e he) (h1 e he), ENNReal.toReal_ofReal (h0 e he), smul_eq_mul, mul_comm]
  · intro e _
    rw [hind]
    exact (integrable_const (c e)).indicator (meas_lt hU.meas _ _)

end Verif.Sampler
