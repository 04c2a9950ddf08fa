import Verif.Lemmas.GraphLaw
import Verif.Props.Likelihood

/-!
Properties C49 (the likelihoods are those of probability laws on all graphs) and C50 (the fitted model is the law of largest entropy with the given expected degrees
and strengths).
-/

namespace Verif.Spec

open Finset

variable {n : ℕ}

theorem link_bounds {X : ℝ} (h : 0 ≤ X) : 0 ≤ X / (1 + X) ∧ X / (1 + X) ≤ 1 :=
  ⟨by positivity, by rw [div_le_one (by linarith)]; linarith⟩

theorem wlink_bounds {X Y : ℝ} (h : 0 ≤ X) (hY : 0 ≤ Y) (hY1 : Y < 1) : 0 ≤ X * Y / (1 - Y + X * Y) ∧ X * Y / (1 - Y + X * Y) ≤ 1 := by
  have : 0 < 1 - Y + X * Y := by nlinarith [mul_nonneg h hY]
  exact ⟨div_nonneg (mul_nonneg h hY) this.le, by rw [div_le_one this]; linarith⟩

theorem bern_nonneg {p : ℝ} (h : 0 ≤ p ∧ p ≤ 1) (b : Bool) : 0 ≤ bern p b := by
  cases b <;> simp only [bern] <;> simp <;> linarith [h.1, h.2]

/-! ### the laws -/

theorem ubcm_nonneg {x : Fin n → ℝ} (hx : ∀ i, 0 ≤ x i) (i j : Fin n) (_ : i ≠ j) (b : Bool) : 0 ≤ bern (linkUBCM x i j) b :=
  bern_nonneg (link_bounds (mul_nonneg (hx i) (hx j))) b

theorem dbcm_nonneg {x y : Fin n → ℝ} (hx : ∀ i, 0 ≤ x i) (hy : ∀ i, 0 ≤ y i) (i j : Fin n) (_ : i ≠ j) (b : Bool) : 0 ≤ bern (linkDBCM x y i j) b :=
  bern_nonneg (link_bounds (mul_nonneg (hx i) (hy j))) b

theorem uecm_nonneg {x y : Fin n → ℝ} (hx : ∀ i, 0 ≤ x i) (hy : ∀ i, 0 ≤ y i) (h1 : ∀ i j, i ≠ j → y i * y j < 1) (i j : Fin n) (hij : i ≠ j) (w : ℕ) :
    0 ≤ geomLaw (linkUECM x y i j) (y i * y j) w :=
  have hb := wlink_bounds (mul_nonneg (hx i) (hx j)) (mul_nonneg (hy i) (hy j)) (h1 i j hij)
  geomLaw_nonneg hb.1 hb.2 (mul_nonneg (hy i) (hy j)) (h1 i j hij).le w

theorem decm_nonneg {x y bo bi : Fin n → ℝ} (hx : ∀ i, 0 ≤ x i) (hy : ∀ i, 0 ≤ y i) (hbo : ∀ i, 0 ≤ bo i) (hbi : ∀ i, 0 ≤ bi i)
    (h1 : ∀ i j, i ≠ j → bo i * bi j < 1) (i j : Fin n) (hij : i ≠ j) (w : ℕ) : 0 ≤ geomLaw (linkDECM x y bo bi i j) (bo i * bi j) w :=
  have hb := wlink_bounds (mul_nonneg (hx i) (hy j)) (mul_nonneg (hbo i) (hbi j)) (h1 i j hij)
  geomLaw_nonneg hb.1 hb.2 (mul_nonneg (hbo i) (hbi j)) (h1 i j hij).le w

/-- C49: the probabilities of all undirected graphs add up to 1. -/
theorem C49_ubcm_total (x : Fin n → ℝ) (hx : ∀ i, 0 ≤ x i) : IsLaw (fun A : Graphs n Bool => probUBCM x A.1) :=
  lawU_isLaw (fun i j => bern (linkUBCM x i j)) (ubcm_nonneg hx) (fun _ _ _ => hasSum_bern _)

/-- C49: the probabilities of all directed graphs add up to 1. -/
theorem C49_dbcm_total (x y : Fin n → ℝ) (hx : ∀ i, 0 ≤ x i) (hy : ∀ i, 0 ≤ y i) : IsLaw (fun A : Digraphs n Bool => probDBCM x y A.1) :=
  lawD_isLaw (fun i j => bern (linkDBCM x y i j)) (dbcm_nonneg hx hy) (fun _ _ _ => hasSum_bern _)

/-- C49: the probabilities of all undirected weighted graphs add up to 1. -/
theorem C49_uecm_total (x y : Fin n → ℝ) (hx : ∀ i, 0 ≤ x i) (hy : ∀ i, 0 ≤ y i) (h1 : ∀ i j, i ≠ j → y i * y j < 1) :
    IsLaw (fun W : Graphs n ℕ => probUECM x y W.1) :=
  lawU_isLaw (fun i j => geomLaw (linkUECM x y i j) (y i * y j)) (uecm_nonneg hx hy h1) (fun i j hij => hasSum_geomLaw (mul_nonneg (hy i) (hy j)) (h1 i j hij))

/-- C49: the probabilities of all directed weighted graphs add up to 1. -/
theorem C49_decm_total (x y bo bi : Fin n → ℝ) (hx : ∀ i, 0 ≤ x i) (hy : ∀ i, 0 ≤ y i) (hbo : ∀ i, 0 ≤ bo i) (hbi : ∀ i, 0 ≤ bi i)
    (h1 : ∀ i j, i ≠ j → bo i * bi j < 1) : IsLaw (fun W : Digraphs n ℕ => probDECM x y bo bi W.1) :=
  lawD_isLaw (fun i j => geomLaw (linkDECM x y bo bi i j) (bo i * bi j)) (decm_nonneg hx hy hbo hbi h1)
    (fun i j hij => hasSum_geomLaw (mul_nonneg (hbo i) (hbi j)) (h1 i j hij))

/-! ### expected degrees and strengths -/

theorem ind_nonneg {α : Type} [Zero α] [DecidableEq α] (w : α) : 0 ≤ if w ≠ 0 then (1 : ℝ) else 0 := by split <;> norm_num

theorem mean_ubcm (x : Fin n → ℝ) (hx : ∀ i, 0 ≤ x i) (i : Fin n) :
    HasMean (fun A : Graphs n Bool => probUBCM x A.1) (fun A => (degree A.1 i : ℝ)) (degUBCM x i) := by
  have := hasMean_sum (fun A : Graphs n Bool => probUBCM x A.1) (univ.filter (· ≠ i)) (fun j A => if A.1 i j ≠ 0 then (1 : ℝ) else 0) (linkUBCM x i)
    fun j hj => lawU_pair (fun i j => bern (linkUBCM x i j)) (ubcm_nonneg hx) (fun _ _ _ => hasSum_bern _)
      (fun i j => by rw [linkUBCM, linkUBCM, mul_comm]) (fun b => if b ≠ 0 then 1 else 0) ind_nonneg i j (mem_filter.1 hj).2.symm _ (hasSum_bern_link _)
  simpa only [degUBCM, ← degree_eq_sum _ (Subtype.prop _ : IsGraph _).loopless] using this

theorem mean_dbcm (x y : Fin n → ℝ) (hx : ∀ i, 0 ≤ x i) (hy : ∀ i, 0 ≤ y i) (i : Fin n) :
    HasMean (fun A : Digraphs n Bool => probDBCM x y A.1) (fun A => (degree A.1 i : ℝ)) (outDBCM x y i) ∧
    HasMean (fun A : Digraphs n Bool => probDBCM x y A.1) (fun A => (inDegree A.1 i : ℝ)) (inDBCM x y i) := by
  have key : ∀ i j, i ≠ j → HasMean (fun A : Digraphs n Bool => probDBCM x y A.1) (fun A => if A.1 i j ≠ 0 then (1 : ℝ) else 0) (linkDBCM x y i j) :=
    fun i j hij => lawD_pair (fun i j => bern (linkDBCM x y i j)) (dbcm_nonneg hx hy) (fun _ _ _ => hasSum_bern _) (fun b => if b ≠ 0 then 1 else 0)
      ind_nonneg i j hij _ (hasSum_bern_link _)
  constructor
  · have := hasMean_sum (fun A : Digraphs n Bool => probDBCM x y A.1) (univ.filter (· ≠ i)) (fun j A => if A.1 i j ≠ 0 then (1 : ℝ) else 0) (linkDBCM x y i)
      fun j hj => key i j (mem_filter.1 hj).2.symm
    simpa only [outDBCM, ← degree_eq_sum _ (Subtype.prop _ : IsDigraph _).loopless] using this
  · have := hasMean_sum (fun A : Digraphs n Bool => probDBCM x y A.1) (univ.filter (· ≠ i)) (fun j A => if A.1 j i ≠ 0 then (1 : ℝ) else 0)
      (fun j => linkDBCM x y j i) fun j hj => key j i (mem_filter.1 hj).2
    simpa only [inDBCM, ← inDegree_eq_sum _ (Subtype.prop _ : IsDigraph _).loopless] using this

theorem strUECM_eq (x y : Fin n → ℝ) (h1 : ∀ i j, i ≠ j → y i * y j < 1) (i : Fin n) :
    strUECM x y i = ∑ j ∈ univ.filter (· ≠ i), linkUECM x y i j / (1 - y i * y j) := by
  refine sum_congr rfl fun j hj => ?_
  have := h1 i j (mem_filter.1 hj).2.symm
  rw [linkUECM, div_div, mul_comm (1 - y i * y j)]
  congr 1
  · ring
  · ring

theorem degUECM_eq (x y : Fin n → ℝ) (i : Fin n) : degUECM x y i = ∑ j ∈ univ.filter (· ≠ i), linkUECM x y i j := by
  refine sum_congr rfl fun j hj => ?_
  rw [linkUECM]
  congr 1
  · ring
  · ring

theorem mean_uecm (x y : Fin n → ℝ) (hx : ∀ i, 0 ≤ x i) (hy : ∀ i, 0 ≤ y i) (h1 : ∀ i j, i ≠ j → y i * y j < 1) (i : Fin n) :
    HasMean (fun W : Graphs n ℕ => probUECM x y W.1) (fun W => (degree W.1 i : ℝ)) (degUECM x y i) ∧
    HasMean (fun W : Graphs n ℕ => probUECM x y W.1) (fun W => (strength W.1 i : ℝ)) (strUECM x y i) := by
  have hs : ∀ i j, geomLaw (linkUECM x y i j) (y i * y j) = geomLaw (linkUECM x y j i) (y j * y i) := fun i j => by
    rw [linkUECM, linkUECM, mul_comm (y i), mul_comm (x i)]
  have ht : ∀ i j, i ≠ j → HasSum (geomLaw (linkUECM x y i j) (y i * y j)) 1 := fun i j hij => hasSum_geomLaw (mul_nonneg (hy i) (hy j)) (h1 i j hij)
  constructor
  · rw [degUECM_eq]
    have := hasMean_sum (fun W : Graphs n ℕ => probUECM x y W.1) (univ.filter (· ≠ i)) (fun j W => if W.1 i j ≠ 0 then (1 : ℝ) else 0) (linkUECM x y i)
      fun j hj => lawU_pair (fun i j => geomLaw (linkUECM x y i j) (y i * y j)) (uecm_nonneg hx hy h1) ht hs (fun b => if b ≠ 0 then 1 else 0) ind_nonneg i j
        (mem_filter.1 hj).2.symm _ (hasSum_geomLaw_link (mul_nonneg (hy i) (hy j)) (h1 i j (mem_filter.1 hj).2.symm))
    simpa only [← degree_eq_sum _ (Subtype.prop _ : IsGraph _).loopless] using this
  · rw [strUECM_eq x y h1]
    have := hasMean_sum (fun W : Graphs n ℕ => probUECM x y W.1) (univ.filter (· ≠ i)) (fun j W => (W.1 i j : ℝ)) (fun j => linkUECM x y i j / (1 - y i * y j))
      fun j hj => lawU_pair (fun i j => geomLaw (linkUECM x y i j) (y i * y j)) (uecm_nonneg hx hy h1) ht hs (fun b => (b : ℝ)) (fun _ => Nat.cast_nonneg _) i j
        (mem_filter.1 hj).2.symm _ (hasSum_geomLaw_mean (mul_nonneg (hy i) (hy j)) (h1 i j (mem_filter.1 hj).2.symm))
    simpa only [← strength_eq_sum _ (Subtype.prop _ : IsGraph _).loopless] using this

theorem mean_decm (x y bo bi : Fin n → ℝ) (hx : ∀ i, 0 ≤ x i) (hy : ∀ i, 0 ≤ y i) (hbo : ∀ i, 0 ≤ bo i) (hbi : ∀ i, 0 ≤ bi i)
    (h1 : ∀ i j, i ≠ j → bo i * bi j < 1) (i : Fin n) :
    HasMean (fun W : Digraphs n ℕ => probDECM x y bo bi W.1) (fun W => (degree W.1 i : ℝ)) (outDegDECM x y bo bi i) ∧
    HasMean (fun W : Digraphs n ℕ => probDECM x y bo bi W.1) (fun W => (inDegree W.1 i : ℝ)) (inDegDECM x y bo bi i) ∧
    HasMean (fun W : Digraphs n ℕ => probDECM x y bo bi W.1) (fun W => (strength W.1 i : ℝ)) (outStrDECM x y bo bi i) ∧
    HasMean (fun W : Digraphs n ℕ => probDECM x y bo bi W.1) (fun W => (inStrength W.1 i : ℝ)) (inStrDECM x y bo bi i) := by
  have ht : ∀ i j, i ≠ j → HasSum (geomLaw (linkDECM x y bo bi i j) (bo i * bi j)) 1 := fun i j hij =>
    hasSum_geomLaw (mul_nonneg (hbo i) (hbi j)) (h1 i j hij)
  have k1 : ∀ i j, i ≠ j → HasMean (fun W : Digraphs n ℕ => probDECM x y bo bi W.1) (fun W => if W.1 i j ≠ 0 then (1 : ℝ) else 0) (linkDECM x y bo bi i j) :=
    fun i j hij => lawD_pair (fun i j => geomLaw (linkDECM x y bo bi i j) (bo i * bi j)) (decm_nonneg hx hy hbo hbi h1) ht (fun b => if b ≠ 0 then 1 else 0)
      ind_nonneg i j hij _ (hasSum_geomLaw_link (mul_nonneg (hbo i) (hbi j)) (h1 i j hij))
  have k2 : ∀ i j, i ≠ j → HasMean (fun W : Digraphs n ℕ => probDECM x y bo bi W.1) (fun W => (W.1 i j : ℝ)) (weightDECM x y bo bi i j) :=
    fun i j hij => lawD_pair (fun i j => geomLaw (linkDECM x y bo bi i j) (bo i * bi j)) (decm_nonneg hx hy hbo hbi h1) ht (fun b => (b : ℝ))
      (fun _ => Nat.cast_nonneg _) i j hij _ (hasSum_geomLaw_mean (mul_nonneg (hbo i) (hbi j)) (h1 i j hij))
  refine ⟨?_, ?_, ?_, ?_⟩
  · have := hasMean_sum _ (univ.filter (· ≠ i)) _ _ fun j hj => k1 i j (mem_filter.1 hj).2.symm
    simpa only [outDegDECM, ← degree_eq_sum _ (Subtype.prop _ : IsDigraph _).loopless] using this
  · have := hasMean_sum _ (univ.filter (· ≠ i)) _ _ fun j hj => k1 j i (mem_filter.1 hj).2
    simpa only [inDegDECM, ← inDegree_eq_sum _ (Subtype.prop _ : IsDigraph _).loopless] using this
  · have := hasMean_sum _ (univ.filter (· ≠ i)) _ _ fun j hj => k2 i j (mem_filter.1 hj).2.symm
    simpa only [outStrDECM, ← strength_eq_sum _ (Subtype.prop _ : IsDigraph _).loopless] using this
  · have := hasMean_sum _ (univ.filter (· ≠ i)) _ _ fun j hj => k2 j i (mem_filter.1 hj).2
    simpa only [inStrDECM, ← inStrength_eq_sum _ (Subtype.prop _ : IsDigraph _).loopless] using this

/-! ### C50: largest entropy -/

theorem ubcm_support (x : Fin n → ℝ) (hx : ∀ i, 0 ≤ x i) :
    ∀ A : Graphs n Bool, probUBCM x A.1 ≠ 0 → ∀ i, degree A.1 i ≠ 0 → 0 < x i := by
  intro A hA i hi
  obtain ⟨j, hj⟩ := card_ne_zero.1 hi
  have hj := (mem_filter.1 hj).2
  refine lt_of_le_of_ne (hx i) fun h0 => hA ?_
  have hij : i ≠ j := fun h => hj (h ▸ A.2.loopless i)
  have hb : ∀ a b : Fin n, A.1 a b ≠ 0 → x a * x b = 0 → bern (linkUBCM x a b) (A.1 a b) = 0 := fun a b h1 h2 => by
      rw [(bool_ne_zero _).1 h1, linkUBCM, h2]; simp [bern]
  rcases lt_or_gt_of_ne hij with h | h
  · exact prod_eq_zero (mem_univ j) (prod_eq_zero (mem_filter.2 ⟨mem_univ i, h⟩) (hb j i (by rw [A.2.symm]; exact hj) (by rw [← h0]; ring)))
  · exact prod_eq_zero (mem_univ i) (prod_eq_zero (mem_filter.2 ⟨mem_univ j, h⟩) (hb i j hj (by rw [← h0]; ring)))

/-- C50 (undirected binary), duality: at any parameters, minus the log-likelihood bounds the entropy of every law with the given expected degrees. -/
theorem C50_ubcm_dual (x : Fin n → ℝ) (hx : ∀ i, 0 ≤ x i) (k : Fin n → ℝ) (hk0 : ∀ i, x i = 0 → k i = 0) (Q : Graphs n Bool → ℝ) (hQ : IsLaw Q)
    (hk : ∀ i, HasMean Q (fun A => (degree A.1 i : ℝ)) (k i)) :
    ∃ H, HasEntropy Q H ∧ H ≤ -logUBCM k x ∧ (H = -logUBCM k x → Q = fun A => probUBCM x A.1) := by
  have hpos := ubcm_support x hx
  have hlog : ∀ A : Graphs n Bool, probUBCM x A.1 ≠ 0 → Real.log (probUBCM x A.1) =
      ∑ i, (degree A.1 i : ℝ) * Real.log (x i) + -(∑ i, ∑ j ∈ univ.filter (· < i), Real.log (1 + x i * x j)) := fun A hA => by
    rw [(probUBCM_spec A.1 A.2 x hx (hpos A hA)).2, logUBCM, sub_eq_add_neg]
  have h0 : ∀ A : Graphs n Bool, probUBCM x A.1 = 0 → Q A = 0 := by
    intro A hA
    have : ∃ i, degree A.1 i ≠ 0 ∧ x i = 0 := by
      by_contra hc
      push Not at hc
      exact (probUBCM_spec A.1 A.2 x hx fun i hi => lt_of_le_of_ne (hx i) (hc i hi).symm).1.ne' hA
    obtain ⟨i, hi, hxi⟩ := this
    have hz : k i = 0 := hk0 i hxi
    have hm := hk i
    rw [hz] at hm
    have := congrFun ((hasSum_zero_iff_of_nonneg fun A => mul_nonneg (hQ.nonneg A) (Nat.cast_nonneg _)).1 hm) A
    exact (mul_eq_zero.1 this).resolve_right (by exact_mod_cast hi)
  obtain ⟨H, h1, h2, h3⟩ := maxent _ Q (C49_ubcm_total x hx) hQ (fun i A => (degree A.1 i : ℝ)) (fun i => Real.log (x i)) k _ hlog h0 hk
  rw [logUBCM, sub_eq_add_neg]
  exact ⟨H, h1, h2, h3⟩

theorem ubcm_entropy (x : Fin n → ℝ) (hx : ∀ i, 0 ≤ x i) : HasEntropy (fun A : Graphs n Bool => probUBCM x A.1) (-logUBCM (degUBCM x) x) := by
  have hpos := ubcm_support x hx
  have hlog : ∀ A : Graphs n Bool, probUBCM x A.1 ≠ 0 → Real.log (probUBCM x A.1) =
      ∑ i, (degree A.1 i : ℝ) * Real.log (x i) + -(∑ i, ∑ j ∈ univ.filter (· < i), Real.log (1 + x i * x j)) := fun A hA => by
    rw [(probUBCM_spec A.1 A.2 x hx (hpos A hA)).2, logUBCM, sub_eq_add_neg]
  have h4 := maxent_self _ (C49_ubcm_total x hx) (fun i A => (degree A.1 i : ℝ)) (fun i => Real.log (x i)) (degUBCM x) _ hlog (mean_ubcm x hx)
  rw [logUBCM, sub_eq_add_neg]
  exact h4

theorem ubcm_deg_zero (x : Fin n → ℝ) (i : Fin n) (h : x i = 0) : degUBCM x i = 0 := sum_eq_zero fun j _ => by rw [linkUBCM, h]; simp

/-- C50 (undirected binary): among all laws on undirected graphs with the expected degrees of the model, the model is the only one of largest entropy. -/
theorem C50_ubcm_max_entropy (x : Fin n → ℝ) (hx : ∀ i, 0 ≤ x i) (Q : Graphs n Bool → ℝ) (hQ : IsLaw Q)
    (hk : ∀ i, HasMean Q (fun A => (degree A.1 i : ℝ)) (degUBCM x i)) :
    ∃ H HP, HasEntropy Q H ∧ HasEntropy (fun A : Graphs n Bool => probUBCM x A.1) HP ∧ H ≤ HP ∧ (H = HP → Q = fun A => probUBCM x A.1) := by
  obtain ⟨H, h1, h2, h3⟩ := C50_ubcm_dual x hx _ (ubcm_deg_zero x) Q hQ hk
  exact ⟨H, _, h1, ubcm_entropy x hx, h2, h3⟩

theorem dbcm_support (x y : Fin n → ℝ) (hx : ∀ i, 0 ≤ x i) (hy : ∀ i, 0 ≤ y i) (A : Digraphs n Bool) (hA : probDBCM x y A.1 ≠ 0) :
    (∀ i, degree A.1 i ≠ 0 → 0 < x i) ∧ ∀ i, inDegree A.1 i ≠ 0 → 0 < y i := by
  have hz : ∀ A : Digraphs n Bool, ∀ i j, A.1 i j ≠ 0 → x i * y j = 0 → probDBCM x y A.1 = 0 := by
    intro A i j hj h0
    have hij : j ≠ i := fun h => hj (h ▸ A.2.loopless i)
    refine prod_eq_zero (mem_univ i) (prod_eq_zero (mem_filter.2 ⟨mem_univ j, hij⟩) ?_)
    rw [(bool_ne_zero _).1 hj, linkDBCM, h0]; simp [bern]
  have hpx : ∀ A : Digraphs n Bool, probDBCM x y A.1 ≠ 0 → ∀ i, degree A.1 i ≠ 0 → 0 < x i := by
    intro A hA i hi
    obtain ⟨j, hj⟩ := card_ne_zero.1 hi
    exact lt_of_le_of_ne (hx i) fun h0 => hA (hz A i j (mem_filter.1 hj).2 (by rw [← h0]; ring))
  have hpy : ∀ A : Digraphs n Bool, probDBCM x y A.1 ≠ 0 → ∀ i, inDegree A.1 i ≠ 0 → 0 < y i := by
    intro A hA i hi
    obtain ⟨j, hj⟩ := card_ne_zero.1 hi
    exact lt_of_le_of_ne (hy i) fun h0 => hA (hz A j i (mem_filter.1 hj).2 (by rw [← h0]; ring))
  exact ⟨hpx A hA, hpy A hA⟩

/-- C50 (directed binary), duality. -/
theorem C50_dbcm_dual (x y : Fin n → ℝ) (hx : ∀ i, 0 ≤ x i) (hy : ∀ i, 0 ≤ y i) (ko ki : Fin n → ℝ) (hko : ∀ i, x i = 0 → ko i = 0) (hki : ∀ i, y i = 0 → ki i = 0)
    (Q : Digraphs n Bool → ℝ) (hQ : IsLaw Q) (ho : ∀ i, HasMean Q (fun A => (degree A.1 i : ℝ)) (ko i)) (hi : ∀ i, HasMean Q (fun A => (inDegree A.1 i : ℝ)) (ki i)) :
    ∃ H, HasEntropy Q H ∧ H ≤ -logDBCM ko ki x y ∧ (H = -logDBCM ko ki x y → Q = fun A => probDBCM x y A.1) := by
  have hpx := fun A hA => (dbcm_support x y hx hy A hA).1
  have hpy := fun A hA => (dbcm_support x y hx hy A hA).2
  have hlog : ∀ A : Digraphs n Bool, probDBCM x y A.1 ≠ 0 → Real.log (probDBCM x y A.1) =
      ∑ v : Fin 2 × Fin n, (if v.1 = 0 then (degree A.1 v.2 : ℝ) else inDegree A.1 v.2) * (if v.1 = 0 then Real.log (x v.2) else Real.log (y v.2)) +
        -(∑ i, ∑ j ∈ univ.filter (· ≠ i), Real.log (1 + x i * y j)) := fun A hA => by
    rw [(probDBCM_spec A.1 A.2 x y hx hy (hpx A hA) (hpy A hA)).2, logDBCM, sub_eq_add_neg, Fintype.sum_prod_type, Fin.sum_univ_two, sum_add_distrib]
    simp
  have h0 : ∀ A : Digraphs n Bool, probDBCM x y A.1 = 0 → Q A = 0 := by
    intro A hA
    have : (∃ i, degree A.1 i ≠ 0 ∧ x i = 0) ∨ ∃ i, inDegree A.1 i ≠ 0 ∧ y i = 0 := by
      by_contra hc
      push Not at hc
      exact (probDBCM_spec A.1 A.2 x y hx hy (fun i hi => lt_of_le_of_ne (hx i) (hc.1 i hi).symm) (fun i hi => lt_of_le_of_ne (hy i) (hc.2 i hi).symm)).1.ne' hA
    rcases this with ⟨i, hd, hxi⟩ | ⟨i, hd, hyi⟩
    · have hm := ho i
      rw [hko i hxi] at hm
      have := congrFun ((hasSum_zero_iff_of_nonneg fun A => mul_nonneg (hQ.nonneg A) (Nat.cast_nonneg _)).1 hm) A
      exact (mul_eq_zero.1 this).resolve_right (by exact_mod_cast hd)
    · have hm := hi i
      rw [hki i hyi] at hm
      have := congrFun ((hasSum_zero_iff_of_nonneg fun A => mul_nonneg (hQ.nonneg A) (Nat.cast_nonneg _)).1 hm) A
      exact (mul_eq_zero.1 this).resolve_right (by exact_mod_cast hd)
  have hkQ : ∀ v : Fin 2 × Fin n, HasMean Q (fun A => if v.1 = 0 then (degree A.1 v.2 : ℝ) else inDegree A.1 v.2) (if v.1 = 0 then ko v.2 else ki v.2) := by
    rintro ⟨b, i⟩
    by_cases hb : b = 0
    · simpa [hb] using ho i
    · simpa [hb] using hi i
  obtain ⟨H, h1, h2, h3⟩ := maxent _ Q (C49_dbcm_total x y hx hy) hQ _ _ _ _ hlog h0 hkQ
  have e : -logDBCM ko ki x y = -(∑ v : Fin 2 × Fin n, (if v.1 = 0 then ko v.2 else ki v.2) * (if v.1 = 0 then Real.log (x v.2) else Real.log (y v.2)) +
        -(∑ i, ∑ j ∈ univ.filter (· ≠ i), Real.log (1 + x i * y j))) := by
    rw [logDBCM, sub_eq_add_neg, Fintype.sum_prod_type, Fin.sum_univ_two, sum_add_distrib]
    simp
  rw [e]
  exact ⟨H, h1, h2, h3⟩

theorem dbcm_entropy (x y : Fin n → ℝ) (hx : ∀ i, 0 ≤ x i) (hy : ∀ i, 0 ≤ y i) :
    HasEntropy (fun A : Digraphs n Bool => probDBCM x y A.1) (-logDBCM (outDBCM x y) (inDBCM x y) x y) := by
  have hpx := fun A hA => (dbcm_support x y hx hy A hA).1
  have hpy := fun A hA => (dbcm_support x y hx hy A hA).2
  have hlog : ∀ A : Digraphs n Bool, probDBCM x y A.1 ≠ 0 → Real.log (probDBCM x y A.1) =
      ∑ v : Fin 2 × Fin n, (if v.1 = 0 then (degree A.1 v.2 : ℝ) else inDegree A.1 v.2) * (if v.1 = 0 then Real.log (x v.2) else Real.log (y v.2)) +
        -(∑ i, ∑ j ∈ univ.filter (· ≠ i), Real.log (1 + x i * y j)) := fun A hA => by
    rw [(probDBCM_spec A.1 A.2 x y hx hy (hpx A hA) (hpy A hA)).2, logDBCM, sub_eq_add_neg, Fintype.sum_prod_type, Fin.sum_univ_two, sum_add_distrib]
    simp
  have hkP : ∀ v : Fin 2 × Fin n, HasMean (fun A : Digraphs n Bool => probDBCM x y A.1) (fun A => if v.1 = 0 then (degree A.1 v.2 : ℝ) else inDegree A.1 v.2)
      (if v.1 = 0 then outDBCM x y v.2 else inDBCM x y v.2) := by
    rintro ⟨b, i⟩
    by_cases hb : b = 0
    · simpa [hb] using (mean_dbcm x y hx hy i).1
    · simpa [hb] using (mean_dbcm x y hx hy i).2
  have h4 := maxent_self _ (C49_dbcm_total x y hx hy) _ _ _ _ hlog hkP
  convert h4 using 1
  rw [logDBCM, sub_eq_add_neg, Fintype.sum_prod_type, Fin.sum_univ_two, sum_add_distrib]
  simp

theorem dbcm_out_zero (x y : Fin n → ℝ) (i : Fin n) (h : x i = 0) : outDBCM x y i = 0 := sum_eq_zero fun j _ => by rw [linkDBCM, h]; simp

theorem dbcm_in_zero (x y : Fin n → ℝ) (i : Fin n) (h : y i = 0) : inDBCM x y i = 0 := sum_eq_zero fun j _ => by rw [linkDBCM, h]; simp

/-- C50 (directed binary): among all laws on directed graphs with the expected out- and in-degrees of the model, the model is the only one of largest entropy. -/
theorem C50_dbcm_max_entropy (x y : Fin n → ℝ) (hx : ∀ i, 0 ≤ x i) (hy : ∀ i, 0 ≤ y i) (Q : Digraphs n Bool → ℝ) (hQ : IsLaw Q)
    (ho : ∀ i, HasMean Q (fun A => (degree A.1 i : ℝ)) (outDBCM x y i)) (hi : ∀ i, HasMean Q (fun A => (inDegree A.1 i : ℝ)) (inDBCM x y i)) :
    ∃ H HP, HasEntropy Q H ∧ HasEntropy (fun A : Digraphs n Bool => probDBCM x y A.1) HP ∧ H ≤ HP ∧ (H = HP → Q = fun A => probDBCM x y A.1) := by
  obtain ⟨H, h1, h2, h3⟩ := C50_dbcm_dual x y hx hy _ _ (dbcm_out_zero x y) (dbcm_in_zero x y) Q hQ ho hi
  exact ⟨H, _, h1, dbcm_entropy x y hx hy, h2, h3⟩

theorem geomLaw_zero_link {q : ℝ} {w : ℕ} (hw : w ≠ 0) : geomLaw 0 q w = 0 := by
  cases w with
  | zero => exact absurd rfl hw
  | succ w => simp [geomLaw]

theorem uecm_support (x y : Fin n → ℝ) (hx : ∀ i, 0 ≤ x i) (hy : ∀ i, 0 ≤ y i) (W : Graphs n ℕ) (hW : probUECM x y W.1 ≠ 0) :
    ∀ i, degree W.1 i ≠ 0 → 0 < x i ∧ 0 < y i := by
  have hz : ∀ W : Graphs n ℕ, ∀ i j, W.1 i j ≠ 0 → x i * x j * (y i * y j) = 0 → probUECM x y W.1 = 0 := by
    intro W i j hj h0
    have hij : i ≠ j := fun h => hj (h ▸ W.2.loopless i)
    rcases lt_or_gt_of_ne hij with h | h
    · refine prod_eq_zero (mem_univ j) (prod_eq_zero (mem_filter.2 ⟨mem_univ i, h⟩) ?_)
      rw [linkUECM, show x j * x i * (y j * y i) = 0 by rw [← h0]; ring, zero_div]
      exact geomLaw_zero_link (by rw [W.2.symm]; exact hj)
    · refine prod_eq_zero (mem_univ i) (prod_eq_zero (mem_filter.2 ⟨mem_univ j, h⟩) ?_)
      rw [linkUECM, h0, zero_div]
      exact geomLaw_zero_link hj
  have hpos : ∀ W : Graphs n ℕ, probUECM x y W.1 ≠ 0 → ∀ i, degree W.1 i ≠ 0 → 0 < x i ∧ 0 < y i := by
    intro W hW i hi
    obtain ⟨j, hj⟩ := card_ne_zero.1 hi
    exact ⟨lt_of_le_of_ne (hx i) fun h0 => hW (hz W i j (mem_filter.1 hj).2 (by rw [← h0]; ring)),
      lt_of_le_of_ne (hy i) fun h0 => hW (hz W i j (mem_filter.1 hj).2 (by rw [← h0]; ring))⟩
  exact hpos W hW

/-- C50 (undirected weighted), duality. -/
theorem C50_uecm_dual (x y : Fin n → ℝ) (hx : ∀ i, 0 ≤ x i) (hy : ∀ i, 0 ≤ y i) (hy1 : ∀ i j, i ≠ j → y i * y j < 1) (k s : Fin n → ℝ)
    (hk0 : ∀ i, x i = 0 ∨ y i = 0 → k i = 0) (Q : Graphs n ℕ → ℝ) (hQ : IsLaw Q)
    (hk : ∀ i, HasMean Q (fun W => (degree W.1 i : ℝ)) (k i)) (hs : ∀ i, HasMean Q (fun W => (strength W.1 i : ℝ)) (s i)) :
    ∃ H, HasEntropy Q H ∧ H ≤ -logUECM k s x y ∧ (H = -logUECM k s x y → Q = fun W => probUECM x y W.1) := by
  have hpos := uecm_support x y hx hy
  have hlog : ∀ W : Graphs n ℕ, probUECM x y W.1 ≠ 0 → Real.log (probUECM x y W.1) =
      ∑ v : Fin 2 × Fin n, (if v.1 = 0 then (degree W.1 v.2 : ℝ) else strength W.1 v.2) * (if v.1 = 0 then Real.log (x v.2) else Real.log (y v.2)) +
        ∑ i, ∑ j ∈ univ.filter (· < i), Real.log ((1 - y i * y j) / (1 - y i * y j + x i * x j * (y i * y j))) := fun W hW => by
    rw [(probUECM_spec W.1 W.2 x y hx hy (hpos W hW) hy1).2, logUECM, Fintype.sum_prod_type, Fin.sum_univ_two, sum_add_distrib]
    simp
  have h0 : ∀ W : Graphs n ℕ, probUECM x y W.1 = 0 → Q W = 0 := by
    intro W hW
    have : ∃ i, degree W.1 i ≠ 0 ∧ (x i = 0 ∨ y i = 0) := by
      by_contra hc
      push Not at hc
      exact (probUECM_spec W.1 W.2 x y hx hy (fun i hi => ⟨lt_of_le_of_ne (hx i) (hc i hi).1.symm, lt_of_le_of_ne (hy i) (hc i hi).2.symm⟩) hy1).1.ne' hW
    obtain ⟨i, hd, hxi⟩ := this
    have hm := hk i
    rw [hk0 i hxi] at hm
    have := congrFun ((hasSum_zero_iff_of_nonneg fun A => mul_nonneg (hQ.nonneg A) (Nat.cast_nonneg _)).1 hm) W
    exact (mul_eq_zero.1 this).resolve_right (by exact_mod_cast hd)
  have hkQ : ∀ v : Fin 2 × Fin n, HasMean Q (fun W => if v.1 = 0 then (degree W.1 v.2 : ℝ) else strength W.1 v.2) (if v.1 = 0 then k v.2 else s v.2) := by
    rintro ⟨b, i⟩
    by_cases hb : b = 0
    · simpa [hb] using hk i
    · simpa [hb] using hs i
  obtain ⟨H, h1, h2, h3⟩ := maxent _ Q (C49_uecm_total x y hx hy hy1) hQ _ _ _ _ hlog h0 hkQ
  have e : -logUECM k s x y = -(∑ v : Fin 2 × Fin n, (if v.1 = 0 then k v.2 else s v.2) * (if v.1 = 0 then Real.log (x v.2) else Real.log (y v.2)) +
        ∑ i, ∑ j ∈ univ.filter (· < i), Real.log ((1 - y i * y j) / (1 - y i * y j + x i * x j * (y i * y j)))) := by
    rw [logUECM, Fintype.sum_prod_type, Fin.sum_univ_two, sum_add_distrib]
    simp
  rw [e]
  exact ⟨H, h1, h2, h3⟩

theorem uecm_entropy (x y : Fin n → ℝ) (hx : ∀ i, 0 ≤ x i) (hy : ∀ i, 0 ≤ y i) (hy1 : ∀ i j, i ≠ j → y i * y j < 1) :
    HasEntropy (fun W : Graphs n ℕ => probUECM x y W.1) (-logUECM (degUECM x y) (strUECM x y) x y) := by
  have hpos := uecm_support x y hx hy
  have hlog : ∀ W : Graphs n ℕ, probUECM x y W.1 ≠ 0 → Real.log (probUECM x y W.1) =
      ∑ v : Fin 2 × Fin n, (if v.1 = 0 then (degree W.1 v.2 : ℝ) else strength W.1 v.2) * (if v.1 = 0 then Real.log (x v.2) else Real.log (y v.2)) +
        ∑ i, ∑ j ∈ univ.filter (· < i), Real.log ((1 - y i * y j) / (1 - y i * y j + x i * x j * (y i * y j))) := fun W hW => by
    rw [(probUECM_spec W.1 W.2 x y hx hy (hpos W hW) hy1).2, logUECM, Fintype.sum_prod_type, Fin.sum_univ_two, sum_add_distrib]
    simp
  have hkP : ∀ v : Fin 2 × Fin n, HasMean (fun W : Graphs n ℕ => probUECM x y W.1) (fun W => if v.1 = 0 then (degree W.1 v.2 : ℝ) else strength W.1 v.2)
      (if v.1 = 0 then degUECM x y v.2 else strUECM x y v.2) := by
    rintro ⟨b, i⟩
    by_cases hb : b = 0
    · simpa [hb] using (mean_uecm x y hx hy hy1 i).1
    · simpa [hb] using (mean_uecm x y hx hy hy1 i).2
  have h4 := maxent_self _ (C49_uecm_total x y hx hy hy1) _ _ _ _ hlog hkP
  convert h4 using 1
  rw [logUECM, Fintype.sum_prod_type, Fin.sum_univ_two, sum_add_distrib]
  simp

theorem uecm_deg_zero (x y : Fin n → ℝ) (i : Fin n) (h : x i = 0 ∨ y i = 0) : degUECM x y i = 0 :=
  sum_eq_zero fun j _ => by rcases h with h | h <;> simp [h]

/-- C50 (undirected weighted): among all laws on undirected weighted graphs with the expected degrees and strengths of the model. -/
theorem C50_uecm_max_entropy (x y : Fin n → ℝ) (hx : ∀ i, 0 ≤ x i) (hy : ∀ i, 0 ≤ y i) (hy1 : ∀ i j, i ≠ j → y i * y j < 1) (Q : Graphs n ℕ → ℝ) (hQ : IsLaw Q)
    (hk : ∀ i, HasMean Q (fun W => (degree W.1 i : ℝ)) (degUECM x y i)) (hs : ∀ i, HasMean Q (fun W => (strength W.1 i : ℝ)) (strUECM x y i)) :
    ∃ H HP, HasEntropy Q H ∧ HasEntropy (fun W : Graphs n ℕ => probUECM x y W.1) HP ∧ H ≤ HP ∧ (H = HP → Q = fun W => probUECM x y W.1) := by
  obtain ⟨H, h1, h2, h3⟩ := C50_uecm_dual x y hx hy hy1 _ _ (uecm_deg_zero x y) Q hQ hk hs
  exact ⟨H, _, h1, uecm_entropy x y hx hy hy1, h2, h3⟩

theorem sum_four (f : Fin 4 × Fin n → ℝ) : ∑ v, f v = ∑ i, (f (0, i) + f (1, i) + f (2, i) + f (3, i)) := by
  rw [Fintype.sum_prod_type, Fin.sum_univ_four, sum_add_distrib, sum_add_distrib, sum_add_distrib]

/-- the four features of a weighted digraph -/
def feat4 (a b c d : Fin n → ℝ) (v : Fin 4 × Fin n) : ℝ := if v.1 = 0 then a v.2 else if v.1 = 1 then b v.2 else if v.1 = 2 then c v.2 else d v.2

theorem feat4_cases {a b c d : Fin n → ℝ} (Pr : Fin 4 × Fin n → ℝ → Prop) (h0 : ∀ i, Pr (0, i) (a i)) (h1 : ∀ i, Pr (1, i) (b i)) (h2 : ∀ i, Pr (2, i) (c i))
    (h3 : ∀ i, Pr (3, i) (d i)) (v : Fin 4 × Fin n) : Pr v (feat4 a b c d v) := by
  obtain ⟨q, i⟩ := v
  fin_cases q
  · exact h0 i
  · exact h1 i
  · exact h2 i
  · exact h3 i

theorem decm_support (x y bo bi : Fin n → ℝ) (hx : ∀ i, 0 ≤ x i) (hy : ∀ i, 0 ≤ y i) (hbo : ∀ i, 0 ≤ bo i) (hbi : ∀ i, 0 ≤ bi i)
    (W : Digraphs n ℕ) (hW : probDECM x y bo bi W.1 ≠ 0) :
    (∀ i, degree W.1 i ≠ 0 → 0 < x i ∧ 0 < bo i) ∧ ∀ i, inDegree W.1 i ≠ 0 → 0 < y i ∧ 0 < bi i := by
  have hz : ∀ W : Digraphs n ℕ, ∀ i j, W.1 i j ≠ 0 → x i * y j * (bo i * bi j) = 0 → probDECM x y bo bi W.1 = 0 := by
    intro W i j hj h0
    have hij : j ≠ i := fun h => hj (h ▸ W.2.loopless i)
    refine prod_eq_zero (mem_univ i) (prod_eq_zero (mem_filter.2 ⟨mem_univ j, hij⟩) ?_)
    rw [linkDECM, h0, zero_div]
    exact geomLaw_zero_link hj
  have hpo : ∀ W : Digraphs n ℕ, probDECM x y bo bi W.1 ≠ 0 → ∀ i, degree W.1 i ≠ 0 → 0 < x i ∧ 0 < bo i := by
    intro W hW i hi
    obtain ⟨j, hj⟩ := card_ne_zero.1 hi
    exact ⟨lt_of_le_of_ne (hx i) fun h0 => hW (hz W i j (mem_filter.1 hj).2 (by rw [← h0]; ring)),
      lt_of_le_of_ne (hbo i) fun h0 => hW (hz W i j (mem_filter.1 hj).2 (by rw [← h0]; ring))⟩
  have hpi : ∀ W : Digraphs n ℕ, probDECM x y bo bi W.1 ≠ 0 → ∀ i, inDegree W.1 i ≠ 0 → 0 < y i ∧ 0 < bi i := by
    intro W hW i hi
    obtain ⟨j, hj⟩ := card_ne_zero.1 hi
    exact ⟨lt_of_le_of_ne (hy i) fun h0 => hW (hz W j i (mem_filter.1 hj).2 (by rw [← h0]; ring)),
      lt_of_le_of_ne (hbi i) fun h0 => hW (hz W j i (mem_filter.1 hj).2 (by rw [← h0]; ring))⟩
  exact ⟨hpo W hW, hpi W hW⟩

/-- C50 (directed weighted), duality. -/
theorem C50_decm_dual (x y bo bi : Fin n → ℝ) (hx : ∀ i, 0 ≤ x i) (hy : ∀ i, 0 ≤ y i) (hbo : ∀ i, 0 ≤ bo i) (hbi : ∀ i, 0 ≤ bi i)
    (hb1 : ∀ i j, i ≠ j → bo i * bi j < 1) (ko ki so si : Fin n → ℝ) (hko0 : ∀ i, x i = 0 ∨ bo i = 0 → ko i = 0) (hki0 : ∀ i, y i = 0 ∨ bi i = 0 → ki i = 0)
    (Q : Digraphs n ℕ → ℝ) (hQ : IsLaw Q)
    (hko : ∀ i, HasMean Q (fun W => (degree W.1 i : ℝ)) (ko i)) (hki : ∀ i, HasMean Q (fun W => (inDegree W.1 i : ℝ)) (ki i))
    (hso : ∀ i, HasMean Q (fun W => (strength W.1 i : ℝ)) (so i)) (hsi : ∀ i, HasMean Q (fun W => (inStrength W.1 i : ℝ)) (si i)) :
    ∃ H, HasEntropy Q H ∧ H ≤ -logDECM ko ki so si x y bo bi ∧ (H = -logDECM ko ki so si x y bo bi → Q = fun W => probDECM x y bo bi W.1) := by
  have hpo := fun W hW => (decm_support x y bo bi hx hy hbo hbi W hW).1
  have hpi := fun W hW => (decm_support x y bo bi hx hy hbo hbi W hW).2
  have hlog : ∀ W : Digraphs n ℕ, probDECM x y bo bi W.1 ≠ 0 → Real.log (probDECM x y bo bi W.1) =
      ∑ v : Fin 4 × Fin n, feat4 (fun i => (degree W.1 i : ℝ)) (fun i => inDegree W.1 i) (fun i => strength W.1 i) (fun i => inStrength W.1 i) v *
        feat4 (fun i => Real.log (x i)) (fun i => Real.log (y i)) (fun i => Real.log (bo i)) (fun i => Real.log (bi i)) v +
        ∑ i, ∑ j ∈ univ.filter (· ≠ i), (Real.log (1 - bo i * bi j) - Real.log (1 - bo i * bi j + x i * y j * (bo i * bi j))) := fun W hW => by
    rw [(probDECM_spec W.1 W.2 x y bo bi hx hy hbo hbi (hpo W hW) (hpi W hW) hb1).2, logDECM, sum_four]
    simp [feat4]
  have h0 : ∀ W : Digraphs n ℕ, probDECM x y bo bi W.1 = 0 → Q W = 0 := by
    intro W hW
    have : (∃ i, degree W.1 i ≠ 0 ∧ (x i = 0 ∨ bo i = 0)) ∨ ∃ i, inDegree W.1 i ≠ 0 ∧ (y i = 0 ∨ bi i = 0) := by
      by_contra hc
      push Not at hc
      exact (probDECM_spec W.1 W.2 x y bo bi hx hy hbo hbi (fun i hi => ⟨lt_of_le_of_ne (hx i) (hc.1 i hi).1.symm, lt_of_le_of_ne (hbo i) (hc.1 i hi).2.symm⟩)
        (fun i hi => ⟨lt_of_le_of_ne (hy i) (hc.2 i hi).1.symm, lt_of_le_of_ne (hbi i) (hc.2 i hi).2.symm⟩) hb1).1.ne' hW
    rcases this with ⟨i, hd, hxi⟩ | ⟨i, hd, hxi⟩
    · have hm := hko i
      rw [hko0 i hxi] at hm
      have := congrFun ((hasSum_zero_iff_of_nonneg fun A => mul_nonneg (hQ.nonneg A) (Nat.cast_nonneg _)).1 hm) W
      exact (mul_eq_zero.1 this).resolve_right (by exact_mod_cast hd)
    · have hm := hki i
      rw [hki0 i hxi] at hm
      have := congrFun ((hasSum_zero_iff_of_nonneg fun A => mul_nonneg (hQ.nonneg A) (Nat.cast_nonneg _)).1 hm) W
      exact (mul_eq_zero.1 this).resolve_right (by exact_mod_cast hd)
  have hkQ : ∀ v : Fin 4 × Fin n, HasMean Q
      (fun W => feat4 (fun i => (degree W.1 i : ℝ)) (fun i => inDegree W.1 i) (fun i => strength W.1 i) (fun i => inStrength W.1 i) v)
      (feat4 ko ki so si v) :=
    feat4_cases (fun v m => HasMean Q (fun W => feat4 (fun i => (degree W.1 i : ℝ)) (fun i => inDegree W.1 i) (fun i => strength W.1 i) (fun i => inStrength W.1 i) v) m)
      hko hki hso hsi
  obtain ⟨H, h1, h2, h3⟩ := maxent _ Q (C49_decm_total x y bo bi hx hy hbo hbi hb1) hQ _ _ _ _ hlog h0 hkQ
  have e : -logDECM ko ki so si x y bo bi = -(∑ v : Fin 4 × Fin n, feat4 ko ki so si v *
        feat4 (fun i => Real.log (x i)) (fun i => Real.log (y i)) (fun i => Real.log (bo i)) (fun i => Real.log (bi i)) v +
        ∑ i, ∑ j ∈ univ.filter (· ≠ i), (Real.log (1 - bo i * bi j) - Real.log (1 - bo i * bi j + x i * y j * (bo i * bi j)))) := by
    rw [logDECM, sum_four]
    simp [feat4]
  rw [e]
  exact ⟨H, h1, h2, h3⟩

theorem decm_entropy (x y bo bi : Fin n → ℝ) (hx : ∀ i, 0 ≤ x i) (hy : ∀ i, 0 ≤ y i) (hbo : ∀ i, 0 ≤ bo i) (hbi : ∀ i, 0 ≤ bi i)
    (hb1 : ∀ i j, i ≠ j → bo i * bi j < 1) : HasEntropy (fun W : Digraphs n ℕ => probDECM x y bo bi W.1)
      (-logDECM (outDegDECM x y bo bi) (inDegDECM x y bo bi) (outStrDECM x y bo bi) (inStrDECM x y bo bi) x y bo bi) := by
  have hpo := fun W hW => (decm_support x y bo bi hx hy hbo hbi W hW).1
  have hpi := fun W hW => (decm_support x y bo bi hx hy hbo hbi W hW).2
  have hlog : ∀ W : Digraphs n ℕ, probDECM x y bo bi W.1 ≠ 0 → Real.log (probDECM x y bo bi W.1) =
      ∑ v : Fin 4 × Fin n, feat4 (fun i => (degree W.1 i : ℝ)) (fun i => inDegree W.1 i) (fun i => strength W.1 i) (fun i => inStrength W.1 i) v *
        feat4 (fun i => Real.log (x i)) (fun i => Real.log (y i)) (fun i => Real.log (bo i)) (fun i => Real.log (bi i)) v +
        ∑ i, ∑ j ∈ univ.filter (· ≠ i), (Real.log (1 - bo i * bi j) - Real.log (1 - bo i * bi j + x i * y j * (bo i * bi j))) := fun W hW => by
    rw [(probDECM_spec W.1 W.2 x y bo bi hx hy hbo hbi (hpo W hW) (hpi W hW) hb1).2, logDECM, sum_four]
    simp [feat4]
  have hkP : ∀ v : Fin 4 × Fin n, HasMean (fun W : Digraphs n ℕ => probDECM x y bo bi W.1)
      (fun W => feat4 (fun i => (degree W.1 i : ℝ)) (fun i => inDegree W.1 i) (fun i => strength W.1 i) (fun i => inStrength W.1 i) v)
      (feat4 (outDegDECM x y bo bi) (inDegDECM x y bo bi) (outStrDECM x y bo bi) (inStrDECM x y bo bi) v) :=
    feat4_cases (fun v m => HasMean (fun W : Digraphs n ℕ => probDECM x y bo bi W.1)
      (fun W => feat4 (fun i => (degree W.1 i : ℝ)) (fun i => inDegree W.1 i) (fun i => strength W.1 i) (fun i => inStrength W.1 i) v) m)
      (fun i => (mean_decm x y bo bi hx hy hbo hbi hb1 i).1) (fun i => (mean_decm x y bo bi hx hy hbo hbi hb1 i).2.1)
      (fun i => (mean_decm x y bo bi hx hy hbo hbi hb1 i).2.2.1) (fun i => (mean_decm x y bo bi hx hy hbo hbi hb1 i).2.2.2)
  have h4 := maxent_self _ (C49_decm_total x y bo bi hx hy hbo hbi hb1) _ _ _ _ hlog hkP
  convert h4 using 1
  rw [logDECM, sum_four]
  simp [feat4]

theorem decm_out_zero (x y bo bi : Fin n → ℝ) (i : Fin n) (h : x i = 0 ∨ bo i = 0) : outDegDECM x y bo bi i = 0 :=
  sum_eq_zero fun j _ => by rcases h with h | h <;> simp [linkDECM, h]

theorem decm_in_zero (x y bo bi : Fin n → ℝ) (i : Fin n) (h : y i = 0 ∨ bi i = 0) : inDegDECM x y bo bi i = 0 :=
  sum_eq_zero fun j _ => by rcases h with h | h <;> simp [linkDECM, h]

/-- C50 (directed weighted). -/
theorem C50_decm_max_entropy (x y bo bi : Fin n → ℝ) (hx : ∀ i, 0 ≤ x i) (hy : ∀ i, 0 ≤ y i) (hbo : ∀ i, 0 ≤ bo i) (hbi : ∀ i, 0 ≤ bi i)
    (hb1 : ∀ i j, i ≠ j → bo i * bi j < 1) (Q : Digraphs n ℕ → ℝ) (hQ : IsLaw Q)
    (hko : ∀ i, HasMean Q (fun W => (degree W.1 i : ℝ)) (outDegDECM x y bo bi i)) (hki : ∀ i, HasMean Q (fun W => (inDegree W.1 i : ℝ)) (inDegDECM x y bo bi i))
    (hso : ∀ i, HasMean Q (fun W => (strength W.1 i : ℝ)) (outStrDECM x y bo bi i)) (hsi : ∀ i, HasMean Q (fun W => (inStrength W.1 i : ℝ)) (inStrDECM x y bo bi i)) :
    ∃ H HP, HasEntropy Q H ∧ HasEntropy (fun W : Digraphs n ℕ => probDECM x y bo bi W.1) HP ∧ H ≤ HP ∧ (H = HP → Q = fun W => probDECM x y bo bi W.1) := by
  obtain ⟨H, h1, h2, h3⟩ := C50_decm_dual x y bo bi hx hy hbo hbi hb1 _ _ _ _ (decm_out_zero x y bo bi) (decm_in_zero x y bo bi) Q hQ hko hki hso hsi
  exact ⟨H, _, h1, decm_entropy x y bo bi hx hy hbo hbi hb1, h2, h3⟩

end Verif.Spec
