import Verif.Lemmas.Likelihood
import Verif.Lemmas.Expect
import Mathlib.Analysis.SpecificLimits.Normed
import Mathlib.Topology.Algebra.InfiniteSum.Ring

/-! Graphs as independent choices, one per pair: totals of the laws, and the Gibbs inequality. -/

namespace Verif.Spec

open Finset

variable {n : ℕ}

/-- unordered pairs `{i, j}`, represented by `j < i` -/
abbrev LT (n : ℕ) := {e : Fin n × Fin n // e.2 < e.1}

/-- ordered pairs of distinct nodes -/
abbrev NE (n : ℕ) := {e : Fin n × Fin n // e.2 ≠ e.1}

/-- the graph with the given value on every pair -/
def graphOf {α : Type} [Zero α] (ω : LT n → α) (i j : Fin n) : α :=
  if h : j < i then ω ⟨(i, j), h⟩ else if h : i < j then ω ⟨(j, i), h⟩ else 0

/-- the digraph with the given value on every ordered pair -/
def digraphOf {α : Type} [Zero α] (ω : NE n → α) (i j : Fin n) : α := if h : j ≠ i then ω ⟨(i, j), h⟩ else 0

theorem graphOf_isGraph {α : Type} [Zero α] (ω : LT n → α) : IsGraph (graphOf ω) where
  symm i j := by
    unfold graphOf
    rcases lt_trichotomy i j with h | h | h
    · simp [h, h.not_gt]
    · subst h; rfl
    · simp [h, h.not_gt]
  loopless i := by simp [graphOf]

theorem digraphOf_isDigraph {α : Type} [Zero α] (ω : NE n → α) : IsDigraph (digraphOf ω) where
  loopless i := by simp [digraphOf]

theorem graphOf_pair {α : Type} [Zero α] (ω : LT n → α) (e : LT n) : graphOf ω e.1.1 e.1.2 = ω e := by
  simp [graphOf, e.2]

theorem digraphOf_pair {α : Type} [Zero α] (ω : NE n → α) (e : NE n) : digraphOf ω e.1.1 e.1.2 = ω e := by
  simp [digraphOf, e.2]

theorem graphOf_eta {α : Type} [Zero α] (A : Fin n → Fin n → α) (hA : IsGraph A) : graphOf (fun e : LT n => A e.1.1 e.1.2) = A := by
  funext i j
  unfold graphOf
  rcases lt_trichotomy i j with h | h | h
  · simp only [h.not_gt, h, dif_pos, dif_neg, not_false_eq_true]; exact hA.symm _ _
  · subst h; simp [hA.loopless]
  · simp [h]

theorem digraphOf_eta {α : Type} [Zero α] (A : Fin n → Fin n → α) (hA : IsDigraph A) : digraphOf (fun e : NE n => A e.1.1 e.1.2) = A := by
  funext i j
  unfold digraphOf
  by_cases h : j = i
  · subst h; simp [hA.loopless]
  · simp [h]

/-- graphs are functions on the pairs -/
def graphEquiv (n : ℕ) (α : Type) [Zero α] : (LT n → α) ≃ Graphs n α where
  toFun ω := ⟨graphOf ω, graphOf_isGraph ω⟩
  invFun A e := A.1 e.1.1 e.1.2
  left_inv ω := funext fun e => graphOf_pair ω e
  right_inv A := Subtype.ext (graphOf_eta A.1 A.2)

/-- digraphs are functions on the ordered pairs -/
def digraphEquiv (n : ℕ) (α : Type) [Zero α] : (NE n → α) ≃ Digraphs n α where
  toFun ω := ⟨digraphOf ω, digraphOf_isDigraph ω⟩
  invFun A e := A.1 e.1.1 e.1.2
  left_inv ω := funext fun e => digraphOf_pair ω e
  right_inv A := Subtype.ext (digraphOf_eta A.1 A.2)

theorem prod_lt (f : Fin n → Fin n → ℝ) : ∏ i, ∏ j ∈ univ.filter (· < i), f i j = ∏ e : LT n, f e.1.1 e.1.2 := by
  rw [← Finset.prod_subtype (univ.filter fun e : Fin n × Fin n => e.2 < e.1) (fun e => by simp) (fun e => f e.1 e.2), prod_filter,
    Fintype.prod_prod_type]
  exact prod_congr rfl fun i _ => prod_filter _ _

theorem prod_ne (f : Fin n → Fin n → ℝ) : ∏ i, ∏ j ∈ univ.filter (· ≠ i), f i j = ∏ e : NE n, f e.1.1 e.1.2 := by
  rw [← Finset.prod_subtype (univ.filter fun e : Fin n × Fin n => e.2 ≠ e.1) (fun e => by simp) (fun e => f e.1 e.2), prod_filter,
    Fintype.prod_prod_type]
  exact prod_congr rfl fun i _ => prod_filter _ _

/-! ### the Gibbs inequality -/

theorem gibbs_term {p q : ℝ} (hq : 0 ≤ q) (hp : 0 ≤ p) (h : p = 0 → q = 0) : q * Real.log p - q * Real.log q ≤ p - q := by
  rcases hq.eq_or_lt with rfl | hq'
  · simpa using hp
  · have hp' : 0 < p := lt_of_le_of_ne hp fun h0 => hq'.ne' (h h0.symm)
    have := Real.log_le_sub_one_of_pos (div_pos hp' hq')
    rw [Real.log_div hp'.ne' hq'.ne'] at this
    have h3 := mul_le_mul_of_nonneg_left this hq
    have h4 : q * (p / q - 1) = p - q := by field_simp
    nlinarith

theorem gibbs_term_eq {p q : ℝ} (hq : 0 ≤ q) (hp : 0 ≤ p) (h : p = 0 → q = 0) (he : q * Real.log p - q * Real.log q = p - q) : q = p := by
  rcases hq.eq_or_lt with rfl | hq'
  · simpa using he
  · have hp' : 0 < p := lt_of_le_of_ne hp fun h0 => hq'.ne' (h h0.symm)
    by_contra hne
    have hne1 : p / q ≠ 1 := fun h1 => hne ((div_eq_one_iff_eq hq'.ne').1 h1).symm
    have := Real.log_lt_sub_one_of_pos (div_pos hp' hq') hne1
    rw [Real.log_div hp'.ne' hq'.ne'] at this
    have h3 := mul_lt_mul_of_pos_left this hq'
    have h4 : q * (p / q - 1) = p - q := by field_simp
    nlinarith

/-- A law whose logarithm is affine in some features has the largest entropy among the laws with the same expected features. -/
theorem maxent {α ι : Type*} [Fintype ι] (P Q : α → ℝ) (hP : IsLaw P) (hQ : IsLaw Q) (φ : ι → α → ℝ) (l k : ι → ℝ) (z : ℝ)
    (hlog : ∀ a, P a ≠ 0 → Real.log (P a) = ∑ b, φ b a * l b + z) (h0 : ∀ a, P a = 0 → Q a = 0) (hQk : ∀ b, HasMean Q (φ b) (k b)) :
    ∃ H, HasEntropy Q H ∧ H ≤ -(∑ b, k b * l b + z) ∧ (H = -(∑ b, k b * l b + z) → Q = P) := by
  have hlin : HasSum (fun a => Q a * Real.log (P a)) (∑ b, k b * l b + z) := by
    have h1 : HasSum (fun a => ∑ b, Q a * φ b a * l b + Q a * z) (∑ b, k b * l b + 1 * z) :=
      (hasSum_sum fun b _ => (hQk b).mul_right (l b)).add (hQ.total.mul_right z)
    rw [one_mul] at h1
    convert h1 using 2 with a
    by_cases ha : P a = 0
    · simp [h0 a ha]
    · rw [hlog a ha, mul_add, mul_sum]
      congr 1
      exact sum_congr rfl fun b _ => by ring
  have hrhs : HasSum (fun a => -(Q a * Real.log (P a)) + (P a - Q a)) (-(∑ b, k b * l b + z) + (1 - 1)) := hlin.neg.add (hP.total.sub hQ.total)
  rw [sub_self, add_zero] at hrhs
  have hle : ∀ a, -(Q a * Real.log (Q a)) ≤ -(Q a * Real.log (P a)) + (P a - Q a) := fun a => by
    have := gibbs_term (hQ.nonneg a) (hP.nonneg a) (h0 a); linarith
  have hnn : ∀ a, 0 ≤ -(Q a * Real.log (Q a)) := fun a => by
    have h1 : Q a ≤ 1 := le_hasSum hQ.total a fun b _ => hQ.nonneg b
    have := mul_nonpos_of_nonneg_of_nonpos (hQ.nonneg a) (Real.log_nonpos (hQ.nonneg a) h1)
    linarith
  have hs : Summable fun a => -(Q a * Real.log (Q a)) := Summable.of_nonneg_of_le hnn hle hrhs.summable
  refine ⟨_, hs.hasSum, hasSum_le hle hs.hasSum hrhs, fun he => ?_⟩
  funext a
  have h2 := hs.hasSum
  rw [he] at h2
  have h3 := hrhs.sub h2
  rw [sub_self] at h3
  have h4 := (hasSum_zero_iff_of_nonneg (fun a => sub_nonneg.2 (hle a))).1 h3
  have h5 := congrFun h4 a
  simp only [Pi.zero_apply] at h5
  exact gibbs_term_eq (hQ.nonneg a) (hP.nonneg a) (h0 a) (by linarith)

/-- The entropy of such a law. -/
theorem maxent_self {α ι : Type*} [Fintype ι] (P : α → ℝ) (hP : IsLaw P) (φ : ι → α → ℝ) (l k : ι → ℝ) (z : ℝ)
    (hlog : ∀ a, P a ≠ 0 → Real.log (P a) = ∑ b, φ b a * l b + z) (hPk : ∀ b, HasMean P (φ b) (k b)) : HasEntropy P (-(∑ b, k b * l b + z)) := by
  have h1 : HasSum (fun a => ∑ b, P a * φ b a * l b + P a * z) (∑ b, k b * l b + 1 * z) :=
    (hasSum_sum fun b _ => (hPk b).mul_right (l b)).add (hP.total.mul_right z)
  rw [one_mul] at h1
  have h2 := h1.neg
  unfold HasEntropy
  suffices e : (fun a => -(P a * Real.log (P a))) = fun a => -(∑ b, P a * φ b a * l b + P a * z) by
    rw [e]; exact h2
  funext a
  by_cases ha : P a = 0
  · simp [ha]
  · rw [hlog a ha, mul_add, mul_sum]
    congr 2
    exact sum_congr rfl fun b _ => by ring

/-! ### products of laws on the natural numbers -/

theorem hasSum_pi_fin {α : Type} (m : ℕ) (f : Fin m → α → ℝ) (a : Fin m → ℝ) (h0 : ∀ e w, 0 ≤ f e w) (h1 : ∀ e, HasSum (f e) (a e)) :
    HasSum (fun ω : Fin m → α => ∏ e, f e (ω e)) (∏ e, a e) := by
  induction m with
  | zero => simpa using hasSum_unique (f := fun ω : Fin 0 → α => ∏ e, f e (ω e))
  | succ m ih =>
    have h2 := ih (fun e => f e.succ) (fun e => a e.succ) (fun e => h0 _) (fun e => h1 _)
    have hsum : Summable fun x : α × (Fin m → α) => f 0 x.1 * ∏ e : Fin m, f e.succ (x.2 e) :=
      Summable.mul_of_nonneg (f := f 0) (g := fun ω : Fin m → α => ∏ e : Fin m, f e.succ (ω e)) (h1 0).summable h2.summable (fun w => h0 0 w)
        (fun ω => prod_nonneg fun e _ => h0 _ _)
    have h3 : HasSum (fun x : α × (Fin m → α) => f 0 x.1 * ∏ e : Fin m, f e.succ (x.2 e)) (a 0 * ∏ e : Fin m, a e.succ) :=
      HasSum.mul (f := f 0) (g := fun ω : Fin m → α => ∏ e : Fin m, f e.succ (ω e)) (h1 0) h2 hsum
    rw [Fin.prod_univ_succ, ← (Fin.consEquiv (fun _ : Fin (m + 1) => α)).hasSum_iff]
    convert h3 using 2
    simp [Fin.prod_univ_succ]

theorem hasSum_pi {α : Type} {E : Type*} [Fintype E] (f : E → α → ℝ) (a : E → ℝ) (h0 : ∀ e w, 0 ≤ f e w) (h1 : ∀ e, HasSum (f e) (a e)) :
    HasSum (fun ω : E → α => ∏ e, f e (ω e)) (∏ e, a e) := by
  have φ := Fintype.equivFin E
  have := hasSum_pi_fin _ (fun k => f (φ.symm k)) (fun k => a (φ.symm k)) (fun k => h0 _) (fun k => h1 _)
  rw [← (Equiv.arrowCongr φ.symm (Equiv.refl α)).hasSum_iff, Fintype.prod_equiv φ a (fun k => a (φ.symm k)) (fun e => by simp)]
  convert this using 2 with ω
  exact (Fintype.prod_equiv φ _ _ (fun e => by simp [Equiv.arrowCongr]))

/-- the mean of a function of one coordinate -/
theorem hasSum_pi_coord {α : Type} {E : Type*} [Fintype E] [DecidableEq E] (f : E → α → ℝ) (h0 : ∀ e w, 0 ≤ f e w) (h1 : ∀ e, HasSum (f e) 1) (e : E) (g : α → ℝ)
    (hg : ∀ w, 0 ≤ g w) (m : ℝ) (hm : HasSum (fun w => f e w * g w) m) :
    HasSum (fun ω : E → α => (∏ e, f e (ω e)) * g (ω e)) m := by
  have := hasSum_pi (fun e' w => if e' = e then f e w * g w else f e' w) (fun e' => if e' = e then m else 1)
    (fun e' w => by beta_reduce; split; exacts [mul_nonneg (h0 _ _) (hg _), h0 _ _]) (fun e' => by
      by_cases h : e' = e
      · simpa [h] using hm
      · simpa [h] using h1 e')
  rw [prod_ite_eq' univ e, if_pos (mem_univ e)] at this
  convert this using 2 with ω
  rw [← mul_prod_erase univ (fun e' => f e' (ω e')) (mem_univ e), ← mul_prod_erase univ _ (mem_univ e), if_pos rfl]
  have : ∏ x ∈ univ.erase e, (if x = e then f e (ω x) * g (ω x) else f x (ω x)) = ∏ x ∈ univ.erase e, f x (ω x) :=
    prod_congr rfl fun x hx => by rw [if_neg (ne_of_mem_erase hx)]
  rw [this]; ring

/-! ### graphs with independent link values -/

/-- the law of an undirected graph with independent link values -/
def lawU {α : Type} (f : Fin n → Fin n → α → ℝ) (A : Fin n → Fin n → α) : ℝ := ∏ i, ∏ j ∈ univ.filter (· < i), f i j (A i j)

/-- the law of a directed graph with independent link values -/
def lawD {α : Type} (f : Fin n → Fin n → α → ℝ) (A : Fin n → Fin n → α) : ℝ := ∏ i, ∏ j ∈ univ.filter (· ≠ i), f i j (A i j)

variable {α : Type} [Zero α]

theorem lawU_comp (f : Fin n → Fin n → α → ℝ) : (fun A : Graphs n α => lawU f A.1) ∘ graphEquiv n α = fun ω => ∏ e : LT n, f e.1.1 e.1.2 (ω e) := by
  funext ω
  show lawU f (graphOf ω) = _
  rw [lawU, prod_lt (fun i j => f i j (graphOf ω i j))]
  exact prod_congr rfl fun e _ => by rw [graphOf_pair]

theorem lawD_comp (f : Fin n → Fin n → α → ℝ) : (fun A : Digraphs n α => lawD f A.1) ∘ digraphEquiv n α = fun ω => ∏ e : NE n, f e.1.1 e.1.2 (ω e) := by
  funext ω
  show lawD f (digraphOf ω) = _
  rw [lawD, prod_ne (fun i j => f i j (digraphOf ω i j))]
  exact prod_congr rfl fun e _ => by rw [digraphOf_pair]

theorem lawU_isLaw (f : Fin n → Fin n → α → ℝ) (h0 : ∀ i j, i ≠ j → ∀ w, 0 ≤ f i j w) (h1 : ∀ i j, i ≠ j → HasSum (f i j) 1) :
    IsLaw (fun A : Graphs n α => lawU f A.1) where
  nonneg A := prod_nonneg fun i _ => prod_nonneg fun j hj => h0 _ _ (mem_filter.1 hj).2.ne' _
  total := by
    rw [← (graphEquiv n α).hasSum_iff, lawU_comp]
    simpa using hasSum_pi (fun e : LT n => f e.1.1 e.1.2) (fun _ => 1) (fun e => h0 _ _ e.2.ne') (fun e => h1 _ _ e.2.ne')

theorem lawD_isLaw (f : Fin n → Fin n → α → ℝ) (h0 : ∀ i j, i ≠ j → ∀ w, 0 ≤ f i j w) (h1 : ∀ i j, i ≠ j → HasSum (f i j) 1) :
    IsLaw (fun A : Digraphs n α => lawD f A.1) where
  nonneg A := prod_nonneg fun i _ => prod_nonneg fun j hj => h0 _ _ (mem_filter.1 hj).2.symm _
  total := by
    rw [← (digraphEquiv n α).hasSum_iff, lawD_comp]
    simpa using hasSum_pi (fun e : NE n => f e.1.1 e.1.2) (fun _ => 1) (fun e => h0 _ _ e.2.symm) (fun e => h1 _ _ e.2.symm)

/-- the mean of a function of one link -/
theorem lawU_pair (f : Fin n → Fin n → α → ℝ) (h0 : ∀ i j, i ≠ j → ∀ w, 0 ≤ f i j w) (h1 : ∀ i j, i ≠ j → HasSum (f i j) 1)
    (hs : ∀ i j, f i j = f j i) (g : α → ℝ) (hg : ∀ w, 0 ≤ g w) (i j : Fin n) (hij : i ≠ j) (m : ℝ) (hm : HasSum (fun w => f i j w * g w) m) :
    HasMean (fun A : Graphs n α => lawU f A.1) (fun A => g (A.1 i j)) m := by
  classical
  have key : ∀ i j : Fin n, ∀ h : j < i, HasSum (fun w => f i j w * g w) m → HasMean (fun A : Graphs n α => lawU f A.1) (fun A => g (A.1 i j)) m := by
    intro i j h hm
    unfold HasMean
    rw [← (graphEquiv n α).hasSum_iff]
    have := hasSum_pi_coord (fun e : LT n => f e.1.1 e.1.2) (fun e => h0 _ _ e.2.ne') (fun e => h1 _ _ e.2.ne') ⟨(i, j), h⟩ g hg m hm
    convert this using 2 with ω
    rw [Function.comp_apply, ← graphOf_pair ω ⟨(i, j), h⟩]
    congr 1
    exact congrFun (lawU_comp f) ω
  rcases lt_or_gt_of_ne hij with h | h
  · have := key j i h (by rw [hs]; exact hm)
    have e : (fun A : Graphs n α => g (A.1 i j)) = fun A => g (A.1 j i) := funext fun A => by rw [A.2.symm]
    rw [e]; exact this
  · exact key i j h hm

/-- the mean of a function of one link -/
theorem lawD_pair (f : Fin n → Fin n → α → ℝ) (h0 : ∀ i j, i ≠ j → ∀ w, 0 ≤ f i j w) (h1 : ∀ i j, i ≠ j → HasSum (f i j) 1)
    (g : α → ℝ) (hg : ∀ w, 0 ≤ g w) (i j : Fin n) (hij : i ≠ j) (m : ℝ) (hm : HasSum (fun w => f i j w * g w) m) :
    HasMean (fun A : Digraphs n α => lawD f A.1) (fun A => g (A.1 i j)) m := by
  classical
  unfold HasMean
  rw [← (digraphEquiv n α).hasSum_iff]
  have := hasSum_pi_coord (fun e : NE n => f e.1.1 e.1.2) (fun e => h0 _ _ e.2.symm) (fun e => h1 _ _ e.2.symm) ⟨(i, j), hij.symm⟩ g hg m hm
  convert this using 2 with ω
  rw [Function.comp_apply, ← digraphOf_pair ω ⟨(i, j), hij.symm⟩]
  congr 1
  exact congrFun (lawD_comp f) ω

/-- means add up -/
theorem hasMean_sum {β ι : Type*} (P : β → ℝ) (s : Finset ι) (g : ι → β → ℝ) (m : ι → ℝ) (h : ∀ j ∈ s, HasMean P (g j) (m j)) :
    HasMean P (fun a => ∑ j ∈ s, g j a) (∑ j ∈ s, m j) := by
  have := hasSum_sum h
  unfold HasMean
  simpa only [mul_sum] using this

theorem degree_eq_sum [DecidableEq α] (A : Fin n → Fin n → α) (h : ∀ i, A i i = 0) (i : Fin n) :
    (degree A i : ℝ) = ∑ j ∈ univ.filter (· ≠ i), if A i j ≠ 0 then (1 : ℝ) else 0 := by
  rw [degree, card_eq_sum_ones, Nat.cast_sum, sum_filter, sum_filter]
  refine sum_congr rfl fun j _ => ?_
  by_cases hj : j = i
  · subst hj; simp [h]
  · by_cases h2 : A i j = 0 <;> simp [hj, h2]

theorem inDegree_eq_sum [DecidableEq α] (A : Fin n → Fin n → α) (h : ∀ i, A i i = 0) (i : Fin n) :
    (inDegree A i : ℝ) = ∑ j ∈ univ.filter (· ≠ i), if A j i ≠ 0 then (1 : ℝ) else 0 := by
  rw [inDegree, card_eq_sum_ones, Nat.cast_sum, sum_filter, sum_filter]
  refine sum_congr rfl fun j _ => ?_
  by_cases hj : j = i
  · subst hj; simp [h]
  · by_cases h2 : A j i = 0 <;> simp [hj, h2]

theorem strength_eq_sum (W : Fin n → Fin n → ℕ) (h : ∀ i, W i i = 0) (i : Fin n) :
    (strength W i : ℝ) = ∑ j ∈ univ.filter (· ≠ i), (W i j : ℝ) := by
  rw [strength, Nat.cast_sum, sum_filter]
  refine sum_congr rfl fun j _ => ?_
  by_cases hj : j = i
  · subst hj; simp [h]
  · simp [hj]

theorem inStrength_eq_sum (W : Fin n → Fin n → ℕ) (h : ∀ i, W i i = 0) (i : Fin n) :
    (inStrength W i : ℝ) = ∑ j ∈ univ.filter (· ≠ i), (W j i : ℝ) := by
  rw [inStrength, Nat.cast_sum, sum_filter]
  refine sum_congr rfl fun j _ => ?_
  by_cases hj : j = i
  · subst hj; simp [h]
  · simp [hj]

theorem hasSum_bern (p : ℝ) : HasSum (bern p) 1 := by
  have := hasSum_fintype (bern p)
  simpa [bern] using this

theorem hasSum_bern_link (p : ℝ) : HasSum (fun b : Bool => bern p b * if b ≠ 0 then (1 : ℝ) else 0) p := by
  have := hasSum_fintype (fun b : Bool => bern p b * if b ≠ 0 then (1 : ℝ) else 0)
  simpa [bern, bool_ne_zero] using this

theorem hasSum_geomLaw {p q : ℝ} (hq : 0 ≤ q) (hq1 : q < 1) : HasSum (geomLaw p q) 1 := by
  have h := (hasSum_geometric_of_lt_one hq hq1).mul_left (p * (1 - q))
  rw [mul_assoc, mul_inv_cancel₀ (by linarith), mul_one] at h
  rw [← hasSum_nat_add_iff' 1]
  simp only [range_one, sum_singleton, geomLaw, sub_sub_cancel]
  have e : (fun w => p * ((1 - q) * q ^ w)) = fun w => p * (1 - q) * q ^ w := funext fun w => by ring
  rw [e]; exact h

theorem geomLaw_nonneg {p q : ℝ} (hp : 0 ≤ p) (hp1 : p ≤ 1) (hq : 0 ≤ q) (hq1 : q ≤ 1) (w : ℕ) : 0 ≤ geomLaw p q w := by
  cases w with
  | zero => simp only [geomLaw]; linarith
  | succ w => exact mul_nonneg hp (mul_nonneg (by linarith) (pow_nonneg hq w))

/-- the mean weight of a link -/
theorem hasSum_geomLaw_mean {p q : ℝ} (hq : 0 ≤ q) (hq1 : q < 1) : HasSum (fun w => geomLaw p q w * (w : ℝ)) (p / (1 - q)) := by
  have h1 : ‖q‖ < 1 := by rw [Real.norm_of_nonneg hq]; exact hq1
  have h := ((hasSum_coe_mul_geometric_of_norm_lt_one h1).add (hasSum_geometric_of_lt_one hq hq1)).mul_left (p * (1 - q))
  have e1 : p * (1 - q) * (q / (1 - q) ^ 2 + (1 - q)⁻¹) = p / (1 - q) := by
    have : 1 - q ≠ 0 := by linarith
    field_simp; ring
  rw [e1] at h
  rw [← hasSum_nat_add_iff' 1]
  simp only [range_one, sum_singleton, Nat.cast_zero, mul_zero, sub_zero]
  have e2 : (fun w => geomLaw p q (w + 1) * ((w + 1 : ℕ) : ℝ)) = fun w : ℕ => p * (1 - q) * ((w : ℝ) * q ^ w + q ^ w) := by
    funext w
    simp only [geomLaw]; push_cast; ring
  rw [e2]; exact h

/-- the probability of a link -/
theorem hasSum_geomLaw_link {p q : ℝ} (hq : 0 ≤ q) (hq1 : q < 1) : HasSum (fun w => geomLaw p q w * (if w ≠ 0 then 1 else 0)) p := by
  have h := (hasSum_geometric_of_lt_one hq hq1).mul_left (p * (1 - q))
  rw [mul_assoc, mul_inv_cancel₀ (by linarith), mul_one] at h
  rw [← hasSum_nat_add_iff' 1]
  simp only [range_one, sum_singleton, ne_eq, not_true_eq_false, if_false, mul_zero, sub_zero, Nat.add_eq_zero_iff, one_ne_zero, and_false, not_false_eq_true, if_true, mul_one, geomLaw]
  have e : (fun w => p * ((1 - q) * q ^ w)) = fun w => p * (1 - q) * q ^ w := funext fun w => by ring
  rw [e]; exact h

end Verif.Spec
