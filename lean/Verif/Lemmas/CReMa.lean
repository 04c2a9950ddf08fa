import Verif.Model.CReMa
import Verif.Lemmas.DCM
import Verif.Lemmas.CM
import Verif.Calc

/-! Closed forms of the loops of `Verif.Model.CReMa`. -/

namespace Verif
open Finset Function
variable {n : ℕ}

theorem addAt_apply {ι : Type*} [DecidableEq ι] (f : ι → ℝ) (i : ι) (v : ℝ) (a : ι) :
    addAt f i v a = f a + if a = i then v else 0 := by
  by_cases h : a = i
  · subst h; simp [addAt]
  · simp [addAt, h]

theorem subAt_apply {ι : Type*} [DecidableEq ι] (f : ι → ℝ) (i : ι) (v : ℝ) (a : ι) :
    subAt f i v a = f a + if a = i then -v else 0 := by
  by_cases h : a = i
  · subst h; simp [subAt, sub_eq_add_neg]
  · simp [subAt, h]

theorem mem_pairs (e : Fin n × Fin n) : e ∈ pairs n := by
  simp only [pairs, List.mem_flatMap, List.mem_map]
  exact ⟨e.1, List.mem_finRange _, e.2, List.mem_finRange _, rfl⟩

theorem nodup_pairs : (pairs n).Nodup := by
  have : pairs n = List.finRange n ×ˢ List.finRange n := rfl
  rw [this]
  exact (List.nodup_finRange n).product (List.nodup_finRange n)

theorem sum_pairs (g : Fin n × Fin n → ℝ) : ((pairs n).map g).sum = ∑ i, ∑ j, g (i, j) := by
  rw [sum_map_nodup _ nodup_pairs]
  have : (pairs n).toFinset = univ := by
    ext e; simp [mem_pairs]
  rw [this, Fintype.sum_prod_type]

theorem sum_filter_map {α β : Type*} (l : List α) (p : α → Prop) [DecidablePred p] (h : α → β) (g : β → ℝ) :
    (((l.filter fun a => p a).map h).map g).sum = (l.map fun a => if p a then g (h a) else 0).sum := by
  induction l with
  | nil => simp
  | cons a l ih =>
    rw [List.map_map] at ih ⊢
    by_cases hp : p a
    · simp [hp, ih]
    · simp [hp, ih]

theorem sum_triu (a : Fin n → Fin n → ℝ) (g : Fin n × Fin n × ℝ → ℝ) :
    ((triuEdges a).map g).sum = ∑ i, ∑ j, if i ≤ j ∧ a i j ≠ 0 then g (i, j, a i j) else 0 := by
  unfold triuEdges
  rw [sum_filter_map, sum_pairs]

theorem sum_nz (a : Fin n → Fin n → ℝ) (g : Fin n × Fin n × ℝ → ℝ) :
    ((nzEdges a).map g).sum = ∑ i, ∑ j, if a i j ≠ 0 then g (i, j, a i j) else 0 := by
  unfold nzEdges
  rw [sum_filter_map, sum_pairs]

/-- both ends of every pair `i < j` -/
theorem tri_sum (K : Fin n → Fin n → ℝ) (m : Fin n) :
    (∑ i, ∑ j, if i < j then ((if m = i then K i j else 0) + if m = j then K j i else 0) else 0) =
      ∑ j, if j = m then 0 else K m j := by
  have h1 : ∀ i j : Fin n, (if i < j then ((if m = i then K i j else 0) + if m = j then K j i else 0) else 0) =
      (if m = i then (if m < j then K m j else 0) else 0) + (if m = j then (if i < m then K m i else 0) else 0) := by
    intro i j
    by_cases hi : m = i
    · subst hi
      by_cases hj : m = j
      · subst hj; simp
      · by_cases hlt : m < j <;> simp [hj, hlt]
    · by_cases hj : m = j
      · subst hj
        by_cases hlt : i < m <;> simp [hi, hlt]
      · simp [hi, hj]
  simp only [h1, sum_add_distrib]
  have e1 : (∑ i, ∑ j, if m = i then (if m < j then K m j else 0) else 0) = ∑ j, if m < j then K m j else 0 := by
    rw [sum_comm]; simp
  have e2 : (∑ i, ∑ j, if m = j then (if i < m then K m i else 0) else 0) = ∑ i, if i < m then K m i else 0 := by
    simp
  rw [e1, e2, ← sum_add_distrib]
  refine sum_congr rfl fun j _ => ?_
  rcases lt_trichotomy m j with h | h | h
  · simp [h, h.ne', h.not_gt]
  · subst h; simp
  · simp [h, h.ne, h.not_gt]

theorem tri_sum' (K : Fin n → Fin n → ℝ) (m : Fin n) :
    (∑ i, ∑ j, if j < i then ((if m = i then K i j else 0) + if m = j then K j i else 0) else 0) =
      ∑ j, if j = m then 0 else K m j := by
  rw [sum_comm, ← tri_sum K m]
  refine sum_congr rfl fun i _ => sum_congr rfl fun j _ => ?_
  by_cases h : i < j
  · simp [h, add_comm]
  · simp [h]

/-- incidence sum over the edges of a symmetric loop-free matrix -/
theorem inc_triu (a : Fin n → Fin n → ℝ) (hs : ∀ i j, a i j = a j i) (hd : ∀ i, a i i = 0) (k : Fin n → Fin n → ℝ → ℝ)
    (hk : ∀ i j, k i j 0 = 0) (m : Fin n) :
    ((triuEdges a).map fun e => (if m = e.1 then k e.1 e.2.1 e.2.2 else 0) + if m = e.2.1 then k e.2.1 e.1 e.2.2 else 0).sum =
      ∑ j, k m j (a m j) := by
  rw [sum_triu]
  have : ∀ i j : Fin n, (if i ≤ j ∧ a i j ≠ 0 then ((if m = i then k i j (a i j) else 0) + if m = j then k j i (a i j) else 0) else 0)
      = if i < j then ((if m = i then k i j (a i j) else 0) + if m = j then k j i (a j i) else 0) else 0 := by
    intro i j
    rw [hs j i]
    rcases lt_trichotomy i j with h | h | h
    · by_cases h0 : a i j = 0
      · simp [h0, hk]
      · simp [h, h.le, h0]
    · subst h; simp [hd]
    · simp [h.not_ge, h.not_gt]
  simp only [this]
  rw [tri_sum (fun i j => k i j (a i j)) m]
  refine sum_congr rfl fun j _ => ?_
  by_cases h : j = m
  · subst h; simp [hd, hk]
  · simp [h]

/-- `for i: if s[i] != 0: f[i] = f[i] / s[i]` -/
theorem scale_loop (s f : Fin n → ℝ) (m : Fin n) :
    forR n (fun i f => if s i ≠ 0 then setAt f i (f i / s i) else f) f m = if s m ≠ 0 then f m / s m else f m := by
  refine forR_obs_once (fun f : Fin n → ℝ => f m) _ m (fun v => if s m ≠ 0 then v / s m else v) ?_ ?_ f
  · intro f
    by_cases h : s m = 0 <;> simp [h, setAt_apply]
  · intro e he f
    by_cases h : s e = 0 <;> simp [h, setAt_apply, he.symm]

/-- `for i in l: f[i] = f[i] / s[i]` -/
theorem scale_list (l : List (Fin n)) (hl : l.Nodup) (s f : Fin n → ℝ) (m : Fin n) :
    forL l (fun i f => setAt f i (f i / s i)) f m = if m ∈ l then f m / s m else f m := by
  split
  · next h =>
    refine forL_obs_once (fun f : Fin n → ℝ => f m) l _ m (fun v => v / s m) ?_ ?_ hl h f
    · intro f; simp [setAt_apply]
    · intro e he f; simp [setAt_apply, he.symm]
  · next h =>
    refine forL_obs_keep (fun f : Fin n → ℝ => f m) l _ ?_ f
    intro e he f
    have : m ≠ e := fun h' => h (h' ▸ he)
    simp [setAt_apply, this]

theorem hasDerivAt_list_sum {α : Type*} (l : List α) (g : α → ℝ → ℝ) (g' : α → ℝ) (t : ℝ)
    (h : ∀ e ∈ l, HasDerivAt (g e) (g' e) t) : HasDerivAt (fun r => (l.map fun e => g e r).sum) (l.map g').sum t := by
  induction l with
  | nil => simpa using hasDerivAt_const t (0 : ℝ)
  | cons a l ih =>
    simp only [List.map_cons, List.sum_cons]
    exact (h a List.mem_cons_self).fun_add (ih fun e he => h e (List.mem_cons_of_mem _ he))

theorem list_sum_sub {α : Type*} (l : List α) (f g : α → ℝ) :
    (l.map fun e => f e - g e).sum = (l.map f).sum - (l.map g).sum := by
  induction l with
  | nil => simp
  | cons a l ih => simp only [List.map_cons, List.sum_cons, ih]; ring

theorem list_sum_nonneg {α : Type*} (l : List α) (f : α → ℝ) (h : ∀ e ∈ l, 0 ≤ f e) : 0 ≤ (l.map f).sum := by
  induction l with
  | nil => simp
  | cons a l ih =>
    simp only [List.map_cons, List.sum_cons]
    exact add_nonneg (h a List.mem_cons_self) (ih fun e he => h e (List.mem_cons_of_mem _ he))

theorem list_sum_zero {α : Type*} (l : List α) (f : α → ℝ) (h : ∀ e ∈ l, 0 ≤ f e) (h0 : (l.map f).sum = 0) :
    ∀ e ∈ l, f e = 0 := by
  induction l with
  | nil => simp
  | cons a l ih =>
    simp only [List.map_cons, List.sum_cons] at h0
    have h1 := h a List.mem_cons_self
    have h2 := list_sum_nonneg l f fun e he => h e (List.mem_cons_of_mem _ he)
    intro e he
    rcases List.mem_cons.1 he with rfl | he
    · linarith
    · exact ih (fun e he => h e (List.mem_cons_of_mem _ he)) (by linarith) e he

/-- a loop that touches cell `e` at iteration `e`, in any order without repetitions -/
theorem cell_loop (l : List (Fin n)) (hl : l.Nodup) (body : Fin n → (Fin n → ℝ) → (Fin n → ℝ)) (G : Fin n → ℝ → ℝ)
    (hset : ∀ m f, body m f m = G m (f m)) (hkeep : ∀ e m, e ≠ m → ∀ f, body e f m = f m) (f : Fin n → ℝ) (m : Fin n) :
    forL l body f m = if m ∈ l then G m (f m) else f m := by
  split
  · next h => exact forL_obs_once (fun f : Fin n → ℝ => f m) l body m (G m) (hset m) (fun e he => hkeep e m he) hl h f
  · next h =>
    exact forL_obs_keep (fun f : Fin n → ℝ => f m) l body (fun e he f => hkeep e m (fun h' => h (h' ▸ he)) f) f

theorem sum_sub_self (g : Fin n → ℝ) (m : Fin n) : (∑ j, g j) - g m = ∑ j, if j = m then 0 else g j := by
  rw [← add_sum_erase univ g (mem_univ m), ← add_sum_erase univ (fun j => if j = m then 0 else g j) (mem_univ m)]
  simp only [if_true, zero_add, add_sub_cancel_left]
  refine sum_congr rfl fun j hj => ?_
  simp [(mem_erase.1 hj).1]

end Verif

namespace Verif.CReMa
open Verif Finset Function
variable {n : ℕ}

/-- pair probability of the undirected binary model -/
noncomputable def pr (x : Fin n → ℝ) (i j : Fin n) : ℝ := x i * x j / (1 + x i * x j)

theorem pr_symm (x : Fin n → ℝ) (i j : Fin n) : pr x i j = pr x j i := by unfold pr; rw [mul_comm]

theorem pr_nonneg {x : Fin n → ℝ} (hx : ∀ i, 0 ≤ x i) (i j : Fin n) : 0 ≤ pr x i j := by
  have := mul_nonneg (hx i) (hx j)
  exact div_nonneg this (by linarith)

/-- the test `aux_value > 0` only skips zero terms -/
theorem guard {x : Fin n → ℝ} (hx : ∀ i, 0 ≤ x i) (i j : Fin n) (g : ℝ → ℝ) (hg : g 0 = 0) :
    (if 0 < pr x i j then g (pr x i j) else 0) = g (pr x i j) := by
  split
  · rfl
  · next h => rw [le_antisymm (not_lt.1 h) (pr_nonneg hx i j), hg]

theorem ll_eq (β s : Fin n → ℝ) (adj : Edges n) : loglikelihood_crema_undirected β s adj =
    (∑ i, -(s i * β i)) + (adj.map fun e => e.2.2 * Real.log (β e.1 + β e.2.1)).sum := by
  simp only [loglikelihood_crema_undirected, sub_eq_add_neg, forR_add, forL_add, zero_add]

theorem expected_eq (β : Fin n → ℝ) (adj : Edges n) (m : Fin n) : expected_strength_crema_undirected β adj m =
    (adj.map fun e => (if m = e.1 then e.2.2 / (β e.1 + β e.2.1) else 0) + if m = e.2.1 then e.2.2 / (β e.2.1 + β e.1) else 0).sum := by
  unfold expected_strength_crema_undirected
  rw [forL_obs_add (fun f : Fin n → ℝ => f m) adj _ (fun e => (if m = e.1 then e.2.2 / (β e.1 + β e.2.1) else 0) +
    if m = e.2.1 then e.2.2 / (β e.2.1 + β e.1) else 0)]
  · simp
  · intro e f
    simp only [addAt_apply, add_comm (β e.2.1), add_assoc]

theorem sub_loop (s : Fin n → ℝ) (m : Fin n) : forR n (fun i f => subAt f i (s i)) (fun _ => 0) m = -s m := by
  rw [forR, cell_loop _ (List.nodup_finRange n) _ (fun m v => v - s m)]
  · simp
  · intro m f; simp [subAt]
  · intro e m h f; simp [subAt_apply, h.symm]

theorem prime_eq (β s : Fin n → ℝ) (adj : Edges n) (m : Fin n) : loglikelihood_prime_crema_undirected β s adj m =
    -s m + expected_strength_crema_undirected β adj m := by
  rw [expected_eq]
  simp only [loglikelihood_prime_crema_undirected]
  rw [forL_obs_add (fun f : Fin n → ℝ => f m) adj _ (fun e => (if m = e.1 then e.2.2 / (β e.1 + β e.2.1) else 0) +
    if m = e.2.1 then e.2.2 / (β e.2.1 + β e.1) else 0), sub_loop]
  intro e f
  simp only [addAt_apply, add_comm (β e.2.1), add_assoc]

theorem diag_eq (β : Fin n → ℝ) (adj : Edges n) (m : Fin n) : loglikelihood_hessian_diag_crema_undirected β adj m =
    (adj.map fun e => (if m = e.1 then -(e.2.2 / (β e.1 + β e.2.1) ^ 2) else 0) +
      if m = e.2.1 then -(e.2.2 / (β e.2.1 + β e.1) ^ 2) else 0).sum := by
  unfold loglikelihood_hessian_diag_crema_undirected
  rw [forL_obs_add (fun f : Fin n → ℝ => f m) adj _ (fun e => (if m = e.1 then -(e.2.2 / (β e.1 + β e.2.1) ^ 2) else 0) +
    if m = e.2.1 then -(e.2.2 / (β e.2.1 + β e.1) ^ 2) else 0)]
  · simp
  · intro e f
    simp only [subAt_apply, add_comm (β e.2.1), add_assoc]

theorem iter_eq (β s : Fin n → ℝ) (adj : Edges n) (m : Fin n) : iterative_crema_undirected β s adj m =
    (if s m ≠ 0 then (adj.map fun e => (if m = e.1 then -(e.2.2 / (1 + (β e.2.1 / β e.1))) else 0) +
      if m = e.2.1 then -(e.2.2 / (1 + (β e.1 / β e.2.1))) else 0).sum / s m else
      (adj.map fun e => (if m = e.1 then -(e.2.2 / (1 + (β e.2.1 / β e.1))) else 0) +
      if m = e.2.1 then -(e.2.2 / (1 + (β e.1 / β e.2.1))) else 0).sum) := by
  simp only [iterative_crema_undirected]
  rw [scale_loop, forL_obs_add (fun f : Fin n → ℝ => f m) adj _ (fun e => (if m = e.1 then -(e.2.2 / (1 + (β e.2.1 / β e.1))) else 0) +
      if m = e.2.1 then -(e.2.2 / (1 + (β e.1 / β e.2.1))) else 0)]
  · simp only [zero_add]
  · intro e f
    simp only [subAt_apply, add_assoc]

/-! sparse -/

theorem iter_sparse_eq (sched : List (Fin n)) (hn : sched.Nodup) (β s x : Fin n → ℝ) (m : Fin n) (hm : m ∈ sched) :
    iterative_crema_undirected_sparse sched β s x m =
      -(∑ j, if j = m then 0 else pr x m j / (1 + β j / β m)) / (s m + Real.exp (-100)) := by
  unfold iterative_crema_undirected_sparse
  rw [cell_loop _ hn _ (fun m _ => (-(∑ j, pr x m j / (1 + β j / β m)) + pr x m m / (1 + β m / β m)) / (s m + Real.exp (-100))), if_pos hm,
    ← sum_sub_self]
  · rw [neg_sub]; ring
  · intro m f; simp [setAt_apply, pr]
  · intro e m h f; simp [setAt_apply, h.symm]

theorem prime_sparse_eq (sched : List (Fin n)) (hn : sched.Nodup) (β s x : Fin n → ℝ) (m : Fin n) (hm : m ∈ sched) :
    loglikelihood_prime_crema_undirected_sparse sched β s x m =
      -s m + ∑ j, if j = m then 0 else pr x m j / (β m + β j) := by
  unfold loglikelihood_prime_crema_undirected_sparse
  rw [cell_loop _ hn _ (fun m v => v + (-s m) + ((∑ j, pr x m j / (β m + β j)) - pr x m m / (β m + β m))), if_pos hm, ← sum_sub_self]
  · simp
  · intro m f; simp [addAt_apply, subAt_apply, pr]
  · intro e m h f; simp [addAt_apply, subAt_apply, h.symm]

theorem diag_sparse_eq (sched : List (Fin n)) (hn : sched.Nodup) (β x : Fin n → ℝ) (m : Fin n) (hm : m ∈ sched) :
    loglikelihood_hessian_diag_crema_undirected_sparse sched β x m =
      -∑ j, if j = m then 0 else pr x m j / (β m + β j) ^ 2 := by
  unfold loglikelihood_hessian_diag_crema_undirected_sparse
  rw [cell_loop _ hn _ (fun m v => v + -((∑ j, pr x m j / (β m + β j) ^ 2) - pr x m m / (β m + β m) ^ 2)), if_pos hm, ← sum_sub_self]
  · simp
  · intro m f; simp [subAt_apply, pr]
  · intro e m h f; simp [subAt_apply, h.symm]

theorem ll_sparse_eq (β s x : Fin n → ℝ) (hx : ∀ i, 0 ≤ x i) : loglikelihood_crema_undirected_sparse β s x =
    (∑ i, -(s i * β i)) + ∑ i, ∑ j, if j < i then pr x i j * Real.log (β i + β j) else 0 := by
  have e : ∀ i j (f : ℝ), (if j < i then (if 0 < x i * x j / (1 + x i * x j) then f + x i * x j / (1 + x i * x j) * Real.log (β i + β j)
      else f) else f) = f + if j < i then pr x i j * Real.log (β i + β j) else 0 := by
    intro i j f
    by_cases h : j < i
    · have := guard hx i j (fun p => p * Real.log (β i + β j)) (zero_mul _)
      simp only [h, if_true]
      rw [← this]
      unfold pr
      split <;> simp
    · simp [h]
  simp only [loglikelihood_crema_undirected_sparse, e, forR_add, sub_eq_add_neg, add_assoc, zero_add, sum_add_distrib]

theorem expected_sparse_eq (β x : Fin n → ℝ) (hx : ∀ i, 0 ≤ x i) (m : Fin n) : expected_strength_crema_undirected_sparse β x m =
    ∑ j, if j = m then 0 else pr x m j / (β m + β j) := by
  unfold expected_strength_crema_undirected_sparse
  rw [forR_obs_add (fun f : Fin n → ℝ => f m) _ (fun i => ∑ j, if j < i then
    ((if m = i then pr x i j / (β i + β j) else 0) + if m = j then pr x j i / (β j + β i) else 0) else 0)]
  · rw [tri_sum' (fun i j => pr x i j / (β i + β j)) m]; simp
  · intro i f
    rw [forR_obs_add (fun f : Fin n → ℝ => f m) _ (fun j => if j < i then
      ((if m = i then pr x i j / (β i + β j) else 0) + if m = j then pr x j i / (β j + β i) else 0) else 0)]
    intro j f
    by_cases h : j < i
    · simp only [h, if_true]
      have g := guard hx i j (fun p => (if m = i then p / (β i + β j) else 0) + if m = j then p / (β j + β i) else 0) (by simp)
      rw [pr_symm x j i, ← g]
      unfold pr
      split
      · simp only [addAt_apply, add_comm (β j), add_assoc]
      · simp
    · simp [h]

theorem prime_sparse2_eq (β s x : Fin n → ℝ) (hx : ∀ i, 0 ≤ x i) (m : Fin n) : loglikelihood_prime_crema_sparse_2 β s x m =
    -s m + ∑ j, if j = m then 0 else pr x m j / (β m + β j) := by
  unfold loglikelihood_prime_crema_sparse_2
  rw [forR_obs_add (fun f : Fin n → ℝ => f m) _ (fun i => (if m = i then -s i else 0) + ∑ j, if j < i then
    ((if m = i then pr x i j / (β i + β j) else 0) + if m = j then pr x j i / (β j + β i) else 0) else 0)]
  · rw [sum_add_distrib, tri_sum' (fun i j => pr x i j / (β i + β j)) m]; simp
  · intro i f
    simp only []
    rw [forR_obs_add (fun f : Fin n → ℝ => f m) _ (fun j => if j < i then
      ((if m = i then pr x i j / (β i + β j) else 0) + if m = j then pr x j i / (β j + β i) else 0) else 0)]
    · simp only [subAt_apply, add_assoc]
    intro j f
    by_cases h : j < i
    · simp only [h, if_true]
      have g := guard hx i j (fun p => (if m = i then p / (β i + β j) else 0) + if m = j then p / (β j + β i) else 0) (by simp)
      rw [pr_symm x j i, ← g]
      unfold pr
      split
      · simp only [addAt_apply, add_comm (β j), add_assoc]
      · simp
    · simp [h]

theorem diag_sparse2_eq (β x : Fin n → ℝ) (hx : ∀ i, 0 ≤ x i) (m : Fin n) : loglikelihood_hessian_diag_crema_sparse_2 β x m =
    -∑ j, if j = m then 0 else pr x m j / (β m + β j) ^ 2 := by
  unfold loglikelihood_hessian_diag_crema_sparse_2
  rw [forR_obs_add (fun f : Fin n → ℝ => f m) _ (fun i => ∑ j, if j < i then
    ((if m = i then -(pr x i j / (β i + β j) ^ 2) else 0) + if m = j then -(pr x j i / (β j + β i) ^ 2) else 0) else 0)]
  · rw [tri_sum' (fun i j => -(pr x i j / (β i + β j) ^ 2)) m, zero_add, ← sum_neg_distrib]
    refine sum_congr rfl fun j _ => ?_
    split <;> simp
  · intro i f
    rw [forR_obs_add (fun f : Fin n → ℝ => f m) _ (fun j => if j < i then
      ((if m = i then -(pr x i j / (β i + β j) ^ 2) else 0) + if m = j then -(pr x j i / (β j + β i) ^ 2) else 0) else 0)]
    intro j f
    by_cases h : j < i
    · simp only [h, h.ne', ne_eq, not_false_eq_true, if_true]
      have g := guard hx i j (fun p => (if m = i then -(p / (β i + β j) ^ 2) else 0) + if m = j then -(p / (β j + β i) ^ 2) else 0) (by simp)
      rw [pr_symm x j i, ← g]
      unfold pr
      split
      · simp only [subAt_apply, add_comm (β j), add_assoc]
      · simp
    · simp [h]

theorem iter_sparse2_eq (β s x : Fin n → ℝ) (hx : ∀ i, 0 ≤ x i) (m : Fin n) : iterative_crema_sparse_2 β s x m =
    if s m ≠ 0 then (-∑ j, if j = m then 0 else pr x m j / (1 + β j / β m)) / s m
      else -∑ j, if j = m then 0 else pr x m j / (1 + β j / β m) := by
  simp only [iterative_crema_sparse_2]
  rw [scale_loop, forR_obs_add (fun f : Fin n → ℝ => f m) _ (fun i => ∑ j, if i < j then
    ((if m = i then -(pr x i j / (1 + β j / β i)) else 0) + if m = j then -(pr x j i / (1 + β i / β j)) else 0) else 0)]
  · rw [tri_sum (fun i j => -(pr x i j / (1 + β j / β i))) m]
    have : ∀ j, (if j = m then (0:ℝ) else -(pr x m j / (1 + β j / β m))) = -(if j = m then 0 else pr x m j / (1 + β j / β m)) := by
      intro j; split <;> simp
    simp only [this, sum_neg_distrib, zero_add]
  · intro i f
    rw [forR_obs_add (fun f : Fin n → ℝ => f m) _ (fun j => if i < j then
      ((if m = i then -(pr x i j / (1 + β j / β i)) else 0) + if m = j then -(pr x j i / (1 + β i / β j)) else 0) else 0)]
    intro j f
    by_cases h : i < j
    · simp only [h, if_true]
      have g := guard hx i j (fun p => (if m = i then -(p / (1 + β j / β i)) else 0) + if m = j then -(p / (1 + β i / β j)) else 0) (by simp)
      rw [pr_symm x j i, ← g]
      unfold pr
      split
      · simp only [subAt_apply, add_assoc]
      · simp
    · simp [h]

end Verif.CReMa

namespace Verif.DCReMa
open Verif Verif.DCM Finset Function
variable {n : ℕ}

/-- arc probability of the directed binary model -/
noncomputable def pr (x y : Fin n → ℝ) (i j : Fin n) : ℝ := x i * y j / (1 + x i * y j)

theorem pr_nonneg {x y : Fin n → ℝ} (hx : ∀ i, 0 ≤ x i) (hy : ∀ i, 0 ≤ y i) (i j : Fin n) : 0 ≤ pr x y i j := by
  have := mul_nonneg (hx i) (hy j)
  exact div_nonneg this (by linarith)

theorem guard {x y : Fin n → ℝ} (hx : ∀ i, 0 ≤ x i) (hy : ∀ i, 0 ≤ y i) (i j : Fin n) (g : ℝ → ℝ) (hg : g 0 = 0) :
    (if 0 < pr x y i j then g (pr x y i j) else 0) = g (pr x y i j) := by
  split
  · rfl
  · next h => rw [le_antisymm (not_lt.1 h) (pr_nonneg hx hy i j), hg]

theorem cat0 (a b : Fin n → ℝ) (m : Fin n) : cat a b (0, m) = a m := by simp [cat]
theorem cat1 (a b : Fin n → ℝ) (m : Fin n) : cat a b (1, m) = b m := by simp [cat]

theorem ll_eq (β : Vec n) (so si : Fin n → ℝ) (adj : Edges n) (no ni : List (Fin n)) (hno : no.Nodup) (hni : ni.Nodup) :
    loglikelihood_crema_directed β so si adj no ni =
    (∑ i ∈ no.toFinset, -(so i * β (0, i))) + (∑ i ∈ ni.toFinset, -(si i * β (1, i))) +
      (adj.map fun e => e.2.2 * Real.log (β (0, e.1) + β (1, e.2.1))).sum := by
  simp only [loglikelihood_crema_directed, sub_eq_add_neg, forL_add, zero_add, sum_map_nodup _ hno, sum_map_nodup _ hni]

theorem out_eq (β : Vec n) (adj : Edges n) (m : Fin n) : expected_out_strength_crema_directed β adj m =
    (adj.map fun e => if m = e.1 then e.2.2 / (β (0, e.1) + β (1, e.2.1)) else 0).sum := by
  unfold expected_out_strength_crema_directed
  rw [forL_obs_add (fun f : Fin n → ℝ => f m) adj _ (fun e => if m = e.1 then e.2.2 / (β (0, e.1) + β (1, e.2.1)) else 0)]
  · simp
  · intro e f; simp only [addAt_apply]

theorem in_eq (β : Vec n) (adj : Edges n) (m : Fin n) : expected_in_strength_crema_directed β adj m =
    (adj.map fun e => if m = e.2.1 then e.2.2 / (β (0, e.1) + β (1, e.2.1)) else 0).sum := by
  unfold expected_in_strength_crema_directed
  rw [forL_obs_add (fun f : Fin n → ℝ => f m) adj _ (fun e => if m = e.2.1 then e.2.2 / (β (0, e.1) + β (1, e.2.1)) else 0)]
  · simp
  · intro e f; simp only [addAt_apply]

theorem sub_list (l : List (Fin n)) (hl : l.Nodup) (s f : Fin n → ℝ) (m : Fin n) :
    forL l (fun i f => subAt f i (s i)) f m = f m + if m ∈ l then -s m else 0 := by
  rw [cell_loop _ hl _ (fun m v => v - s m)]
  · split <;> simp [sub_eq_add_neg]
  · intro m f; simp [subAt]
  · intro e m h f; simp [subAt_apply, h.symm]

theorem prime_eq0 (β : Vec n) (so si : Fin n → ℝ) (adj : Edges n) (no ni : List (Fin n)) (hno : no.Nodup) (m : Fin n) :
    loglikelihood_prime_crema_directed β so si adj no ni (0, m) =
      (if m ∈ no then -so m else 0) + expected_out_strength_crema_directed β adj m := by
  rw [out_eq]
  simp only [loglikelihood_prime_crema_directed, cat0]
  rw [forL_obs_add (fun st : (Fin n → ℝ) × (Fin n → ℝ) => st.1 m) adj _
    (fun e => if m = e.1 then e.2.2 / (β (0, e.1) + β (1, e.2.1)) else 0)]
  · simp only [sub_list _ hno, zero_add]
  intro e st; simp only [addAt_apply]

theorem prime_eq1 (β : Vec n) (so si : Fin n → ℝ) (adj : Edges n) (no ni : List (Fin n)) (hni : ni.Nodup) (m : Fin n) :
    loglikelihood_prime_crema_directed β so si adj no ni (1, m) =
      (if m ∈ ni then -si m else 0) + expected_in_strength_crema_directed β adj m := by
  rw [in_eq]
  simp only [loglikelihood_prime_crema_directed, cat1]
  rw [forL_obs_add (fun st : (Fin n → ℝ) × (Fin n → ℝ) => st.2 m) adj _
    (fun e => if m = e.2.1 then e.2.2 / (β (0, e.1) + β (1, e.2.1)) else 0)]
  · simp only [sub_list _ hni, zero_add]
  intro e st; simp only [addAt_apply]

theorem diag_eq0 (β : Vec n) (adj : Edges n) (m : Fin n) : loglikelihood_hessian_diag_crema_directed β adj (0, m) =
    (adj.map fun e => if m = e.1 then -(e.2.2 / (β (0, e.1) + β (1, e.2.1)) ^ 2) else 0).sum := by
  unfold loglikelihood_hessian_diag_crema_directed
  rw [forL_obs_add (fun f : Vec n => f (0, m)) adj _ (fun e => if m = e.1 then -(e.2.2 / (β (0, e.1) + β (1, e.2.1)) ^ 2) else 0)]
  · simp
  · intro e f; simp [subAt_apply]

theorem diag_eq1 (β : Vec n) (adj : Edges n) (m : Fin n) : loglikelihood_hessian_diag_crema_directed β adj (1, m) =
    (adj.map fun e => if m = e.2.1 then -(e.2.2 / (β (0, e.1) + β (1, e.2.1)) ^ 2) else 0).sum := by
  unfold loglikelihood_hessian_diag_crema_directed
  rw [forL_obs_add (fun f : Vec n => f (1, m)) adj _ (fun e => if m = e.2.1 then -(e.2.2 / (β (0, e.1) + β (1, e.2.1)) ^ 2) else 0)]
  · simp
  · intro e f; simp [subAt_apply]

theorem iter_eq0 (β : Vec n) (so si : Fin n → ℝ) (adj : Edges n) (no ni : List (Fin n)) (hno : no.Nodup) (m : Fin n) :
    iterative_crema_directed β so si adj no ni (0, m) =
      if m ∈ no then (adj.map fun e => if m = e.1 then -(e.2.2 / (1 + β (1, e.2.1) / β (0, e.1))) else 0).sum / so m
        else (adj.map fun e => if m = e.1 then -(e.2.2 / (1 + β (1, e.2.1) / β (0, e.1))) else 0).sum := by
  simp only [iterative_crema_directed, cat0]
  rw [scale_list _ hno, forL_obs_add (fun st : (Fin n → ℝ) × (Fin n → ℝ) => st.1 m) adj _
    (fun e => if m = e.1 then -(e.2.2 / (1 + β (1, e.2.1) / β (0, e.1))) else 0)]
  · simp only [zero_add]
  · intro e st; simp only [subAt_apply]

theorem iter_eq1 (β : Vec n) (so si : Fin n → ℝ) (adj : Edges n) (no ni : List (Fin n)) (hni : ni.Nodup) (m : Fin n) :
    iterative_crema_directed β so si adj no ni (1, m) =
      if m ∈ ni then (adj.map fun e => if m = e.2.1 then -(e.2.2 / (1 + β (0, e.1) / β (1, e.2.1))) else 0).sum / si m
        else (adj.map fun e => if m = e.2.1 then -(e.2.2 / (1 + β (0, e.1) / β (1, e.2.1))) else 0).sum := by
  simp only [iterative_crema_directed, cat1]
  rw [scale_list _ hni, forL_obs_add (fun st : (Fin n → ℝ) × (Fin n → ℝ) => st.2 m) adj _
    (fun e => if m = e.2.1 then -(e.2.2 / (1 + β (0, e.1) / β (1, e.2.1))) else 0)]
  · simp only [zero_add]
  · intro e st; simp only [subAt_apply]

/-! sums over the arcs of a loop-free matrix -/

theorem arc_out (a : Fin n → Fin n → ℝ) (k : Fin n → Fin n → ℝ → ℝ) (hk : ∀ i j, k i j 0 = 0) (m : Fin n) :
    ((nzEdges a).map fun e => if m = e.1 then k e.1 e.2.1 e.2.2 else 0).sum = ∑ j, k m j (a m j) := by
  rw [sum_nz]
  have : ∀ i j : Fin n, (if a i j ≠ 0 then (if m = i then k i j (a i j) else 0) else 0) = if m = i then k m j (a m j) else 0 := by
    intro i j
    by_cases h : m = i
    · subst h
      by_cases h0 : a m j = 0 <;> simp [h0, hk]
    · simp [h]
  simp only [this]
  rw [sum_comm]; simp

theorem arc_in (a : Fin n → Fin n → ℝ) (k : Fin n → Fin n → ℝ → ℝ) (hk : ∀ i j, k i j 0 = 0) (m : Fin n) :
    ((nzEdges a).map fun e => if m = e.2.1 then k e.1 e.2.1 e.2.2 else 0).sum = ∑ i, k i m (a i m) := by
  rw [sum_nz]
  have : ∀ i j : Fin n, (if a i j ≠ 0 then (if m = j then k i j (a i j) else 0) else 0) = if m = j then k i m (a i m) else 0 := by
    intro i j
    by_cases h : m = j
    · subst h
      by_cases h0 : a i m = 0 <;> simp [h0, hk]
    · simp [h]
  simp [this]

theorem sum_arcs (a : Fin n → Fin n → ℝ) (k : Fin n → Fin n → ℝ → ℝ) (hk : ∀ i j, k i j 0 = 0) :
    ((nzEdges a).map fun e => k e.1 e.2.1 e.2.2).sum = ∑ i, ∑ j, k i j (a i j) := by
  rw [sum_nz]
  refine sum_congr rfl fun i _ => sum_congr rfl fun j _ => ?_
  by_cases h0 : a i j = 0 <;> simp [h0, hk]

/-! sparse -/

theorem prime_sparse_eq0 (sx sy : List (Fin n)) (hx : sx.Nodup) (β : Vec n) (so si x y : Fin n → ℝ) (m : Fin n) :
    loglikelihood_prime_crema_directed_sparse sx sy β so si x y (0, m) =
      if m ∈ sx then -so m + ∑ j, (if j = m then 0 else pr x y m j / (β (0, m) + β (1, j))) else 0 := by
  simp only [loglikelihood_prime_crema_directed_sparse, cat0]
  rw [cell_loop _ hx _ (fun m v => v + (-so m) + ((∑ j, pr x y m j / (β (0, m) + β (1, j))) - pr x y m m / (β (0, m) + β (1, m)))), ← sum_sub_self]
  · simp
  · intro m f; simp [addAt_apply, subAt_apply, pr]
  · intro e m h f; simp [addAt_apply, subAt_apply, h.symm]

theorem prime_sparse_eq1 (sx sy : List (Fin n)) (hy : sy.Nodup) (β : Vec n) (so si x y : Fin n → ℝ) (m : Fin n) :
    loglikelihood_prime_crema_directed_sparse sx sy β so si x y (1, m) =
      if m ∈ sy then -si m + ∑ j, (if j = m then 0 else pr x y j m / (β (0, j) + β (1, m))) else 0 := by
  simp only [loglikelihood_prime_crema_directed_sparse, cat1]
  rw [cell_loop _ hy _ (fun m v => v + (-si m) + ((∑ j, pr x y j m / (β (0, j) + β (1, m))) - pr x y m m / (β (0, m) + β (1, m)))),
    ← sum_sub_self (fun j => pr x y j m / (β (0, j) + β (1, m)))]
  · simp
  · intro m f; simp [addAt_apply, subAt_apply, pr]
  · intro e m h f; simp [addAt_apply, subAt_apply, h.symm]

theorem out_sparse_eq (β : Vec n) (x y : Fin n → ℝ) (hx : ∀ i, 0 ≤ x i) (hy : ∀ i, 0 ≤ y i) (m : Fin n) :
    expected_out_strength_crema_directed_sparse β x y m = ∑ j, if j = m then 0 else pr x y m j / (β (0, m) + β (1, j)) := by
  unfold expected_out_strength_crema_directed_sparse
  rw [forR_obs_add (fun f : Fin n → ℝ => f m) _ (fun i => ∑ j, if m = i then
    (if j = m then 0 else pr x y m j / (β (0, m) + β (1, j))) else 0)]
  · rw [sum_comm]; simp
  · intro i f
    rw [forR_obs_add (fun f : Fin n → ℝ => f m) _ (fun j => if m = i then
      (if j = m then 0 else pr x y m j / (β (0, m) + β (1, j))) else 0)]
    intro j f
    by_cases h : m = i
    · subst h
      by_cases hj : j = m
      · subst hj; simp
      · have g := guard hx hy m j (fun p => p / (β (0, m) + β (1, j))) (by simp)
        simp only [hj, Ne.symm hj, ne_eq, not_false_eq_true, if_true, if_false]
        rw [← g]; unfold pr
        split
        · simp [addAt_apply]
        · simp
    · by_cases hij : i = j
      · subst hij; simp [h]
      · simp only [hij, h, ne_eq, not_false_eq_true, if_true, if_false]
        split
        · simp [addAt_apply, h]
        · simp

theorem in_sparse_eq (β : Vec n) (x y : Fin n → ℝ) (hx : ∀ i, 0 ≤ x i) (hy : ∀ i, 0 ≤ y i) (m : Fin n) :
    expected_in_stregth_crema_directed_sparse β x y m = ∑ j, if j = m then 0 else pr x y j m / (β (0, j) + β (1, m)) := by
  unfold expected_in_stregth_crema_directed_sparse
  rw [forR_obs_add (fun f : Fin n → ℝ => f m) _ (fun i => ∑ j, if m = i then
    (if j = m then 0 else pr x y j m / (β (0, j) + β (1, m))) else 0)]
  · rw [sum_comm]; simp
  · intro i f
    rw [forR_obs_add (fun f : Fin n → ℝ => f m) _ (fun j => if m = i then
      (if j = m then 0 else pr x y j m / (β (0, j) + β (1, m))) else 0)]
    intro j f
    by_cases h : m = i
    · subst h
      by_cases hj : j = m
      · subst hj; simp
      · have g := guard hx hy j m (fun p => p / (β (0, j) + β (1, m))) (by simp)
        simp only [hj, Ne.symm hj, ne_eq, not_false_eq_true, if_true, if_false]
        rw [← g]; unfold pr
        split
        · simp [addAt_apply]
        · simp
    · by_cases hij : i = j
      · subst hij; simp [h]
      · simp only [hij, h, ne_eq, not_false_eq_true, if_true, if_false]
        split
        · simp [addAt_apply, h]
        · simp

theorem ll_sparse_eq (β : Vec n) (so si x y : Fin n → ℝ) (no ni : List (Fin n)) (hno : no.Nodup) (hni : ni.Nodup)
    (hx : ∀ i, 0 ≤ x i) (hy : ∀ i, 0 ≤ y i) : loglikelihood_crema_directed_sparse β so si x y no ni =
    (∑ i ∈ no.toFinset, -(so i * β (0, i))) + (∑ i ∈ ni.toFinset, -(si i * β (1, i))) +
      ∑ i ∈ no.toFinset, ∑ j ∈ ni.toFinset, if i = j then 0 else pr x y i j * Real.log (β (0, i) + β (1, j)) := by
  have e : ∀ i j (f : ℝ), (if i ≠ j then (if 0 < x i * y j / (1 + x i * y j) then
      f + x i * y j / (1 + x i * y j) * Real.log (β (0, i) + β (1, j)) else f) else f) =
      f + if i = j then 0 else pr x y i j * Real.log (β (0, i) + β (1, j)) := by
    intro i j f
    by_cases h : i = j
    · simp [h]
    · have := guard hx hy i j (fun p => p * Real.log (β (0, i) + β (1, j))) (zero_mul _)
      simp only [h, ne_eq, not_false_eq_true, if_true, if_false]
      rw [← this]
      unfold pr
      split <;> simp
  simp only [loglikelihood_crema_directed_sparse, e, forL_add, sub_eq_add_neg, add_assoc, zero_add, sum_add_distrib,
    sum_map_nodup _ hno, sum_map_nodup _ hni]
  ring

theorem diag_sparse_eq (sched : List (Fin n)) (hs : sched.Nodup) (β : Vec n) (x y : Fin n → ℝ) (m : Fin n) (hm : m ∈ sched) :
    loglikelihood_hessian_diag_crema_directed_sparse sched β x y (0, m) =
      -(∑ j, if j = m then 0 else pr x y m j / ((β (0, m) + β (1, j)) ^ 2 + Real.exp (-100))) ∧
    loglikelihood_hessian_diag_crema_directed_sparse sched β x y (1, m) =
      -(∑ j, if j = m then 0 else pr x y j m / ((β (0, j) + β (1, m)) ^ 2 + Real.exp (-100))) := by
  unfold loglikelihood_hessian_diag_crema_directed_sparse
  constructor
  · rw [← sum_sub_self, forL_obs_once (fun f : Vec n => f (0, m)) sched _ m (fun v => v +
      -((∑ j, pr x y m j / ((β (0, m) + β (1, j)) ^ 2 + Real.exp (-100))) - pr x y m m / ((β (0, m) + β (1, m)) ^ 2 + Real.exp (-100)))) ?_ ?_ hs hm]
    · simp
    · intro f; simp [subAt_apply, pr]
    · intro e he f; simp [subAt_apply, he.symm]
  · rw [← sum_sub_self (fun j => pr x y j m / ((β (0, j) + β (1, m)) ^ 2 + Real.exp (-100))),
      forL_obs_once (fun f : Vec n => f (1, m)) sched _ m (fun v => v +
      -((∑ j, pr x y j m / ((β (0, j) + β (1, m)) ^ 2 + Real.exp (-100))) - pr x y m m / ((β (0, m) + β (1, m)) ^ 2 + Real.exp (-100)))) ?_ ?_ hs hm]
    · simp
    · intro f; simp [subAt_apply, pr]
    · intro e he f; simp [subAt_apply, he.symm]

theorem diag_sparse2_eq (β : Vec n) (x y : Fin n → ℝ) (hx : ∀ i, 0 ≤ x i) (hy : ∀ i, 0 ≤ y i) (m : Fin n) :
    loglikelihood_hessian_diag_crema_directed_sparse_2 β x y (0, m) =
      -(∑ j, if j = m then 0 else pr x y m j / (β (0, m) + β (1, j)) ^ 2) ∧
    loglikelihood_hessian_diag_crema_directed_sparse_2 β x y (1, m) =
      -(∑ j, if j = m then 0 else pr x y j m / (β (0, j) + β (1, m)) ^ 2) := by
  unfold loglikelihood_hessian_diag_crema_directed_sparse_2
  constructor
  · rw [forR_obs_once (fun f : Vec n => f (0, m)) _ m (fun v => v + -(∑ j, if j = m then 0 else pr x y m j / (β (0, m) + β (1, j)) ^ 2))]
    · simp
    · intro f
      rw [forR_obs_add (fun f : Vec n => f (0, m)) _ (fun j => -(if j = m then 0 else pr x y m j / (β (0, m) + β (1, j)) ^ 2)), sum_neg_distrib]
      intro j f
      by_cases hj : j = m
      · subst hj; simp
      · have g := guard hx hy m j (fun p => -(p / (β (0, m) + β (1, j)) ^ 2)) (by simp)
        simp only [hj, Ne.symm hj, ne_eq, not_false_eq_true, if_true, if_false]
        rw [← g]; unfold pr
        split <;> split <;> simp [subAt_apply]
    · intro i hi f
      refine forR_obs_keep (fun f : Vec n => f (0, m)) _ ?_ f
      intro j f
      by_cases hj : i = j
      · subst hj; simp
      · simp only [hj, ne_eq, not_false_eq_true, if_true]
        split <;> split <;> simp [subAt_apply, hi.symm]
  · rw [forR_obs_once (fun f : Vec n => f (1, m)) _ m (fun v => v + -(∑ j, if j = m then 0 else pr x y j m / (β (0, j) + β (1, m)) ^ 2))]
    · simp
    · intro f
      rw [forR_obs_add (fun f : Vec n => f (1, m)) _ (fun j => -(if j = m then 0 else pr x y j m / (β (0, j) + β (1, m)) ^ 2)), sum_neg_distrib]
      intro j f
      by_cases hj : j = m
      · subst hj; simp
      · have g := guard hx hy j m (fun p => -(p / (β (0, j) + β (1, m)) ^ 2)) (by simp)
        simp only [hj, Ne.symm hj, ne_eq, not_false_eq_true, if_true, if_false]
        rw [← g]; unfold pr
        split <;> split <;> simp [subAt_apply]
    · intro i hi f
      refine forR_obs_keep (fun f : Vec n => f (1, m)) _ ?_ f
      intro j f
      by_cases hj : i = j
      · subst hj; simp
      · simp only [hj, ne_eq, not_false_eq_true, if_true]
        split <;> split <;> simp [subAt_apply, hi.symm]

/-- double loop over the non-zero positions accumulating `A i j` into `st.1[i]` and `B i j` into `st.2[j]` -/
theorem nz_loop (x y : Fin n → ℝ) (S : Fin n → ℝ) (A B : Fin n → Fin n → ℝ)
    (hA : ∀ i j, x i = 0 ∨ y j = 0 → A i j = 0) (hB : ∀ i j, x i = 0 ∨ y j = 0 → B i j = 0)
    (body : Fin n → Fin n → (Fin n → ℝ) × (Fin n → ℝ) → (Fin n → ℝ) × (Fin n → ℝ))
    (h1 : ∀ i j st m, (body i j st).1 m = st.1 m + if m = i then A i j else 0)
    (h2 : ∀ i j st m, (body i j st).2 m = st.2 m + if m = j then B i j else 0) (m : Fin n) :
    (forL (nonzero x) (fun i st => forL (nonzero y) (fun j st => body i j st) (subAt st.1 i (S i), st.2))
      (fun _ => 0, fun _ => 0)).1 m = (if x m ≠ 0 then -S m else 0) + ∑ j, A m j ∧
    (forL (nonzero x) (fun i st => forL (nonzero y) (fun j st => body i j st) (subAt st.1 i (S i), st.2))
      (fun _ => 0, fun _ => 0)).2 m = ∑ i, B i m := by
  have inner : ∀ g : Fin n → ℝ, (∀ j, y j = 0 → g j = 0) → ((nonzero y).map g).sum = ∑ j, g j := by
    intro g hg
    rw [sum_map_nodup _ (nodup_nonzero y)]
    refine sum_subset (subset_univ _) fun j _ hj => hg j ?_
    by_contra h; exact hj (List.mem_toFinset.2 ((mem_nonzero y j).2 h))
  have outer : ∀ v : Fin n → ℝ, ((nonzero x).map fun i => if m = i then v i else 0).sum = if x m ≠ 0 then v m else 0 := by
    intro v
    rw [sum_map_nodup _ (nodup_nonzero x)]
    simp [mem_nonzero]
  have outer2 : ∀ g : Fin n → ℝ, (∀ j, x j = 0 → g j = 0) → ((nonzero x).map g).sum = ∑ j, g j := by
    intro g hg
    rw [sum_map_nodup _ (nodup_nonzero x)]
    refine sum_subset (subset_univ _) fun j _ hj => hg j ?_
    by_contra h; exact hj (List.mem_toFinset.2 ((mem_nonzero x j).2 h))
  constructor
  · rw [forL_obs_add (fun st : (Fin n → ℝ) × (Fin n → ℝ) => st.1 m) _ _ (fun i => if m = i then -S i + ∑ j, A i j else 0), outer]
    · by_cases h : x m = 0
      · simp [h, hA]
      · simp [h]
    · intro i st
      rw [forL_obs_add (fun st : (Fin n → ℝ) × (Fin n → ℝ) => st.1 m) _ _ (fun j => if m = i then A i j else 0) (fun j st => h1 i j st m),
        inner _ (fun j hj => by simp [hA i j (Or.inr hj)])]
      by_cases h : m = i
      · simp [h, subAt, sub_eq_add_neg, add_assoc]
      · simp [h, subAt_apply]
  · rw [forL_obs_add (fun st : (Fin n → ℝ) × (Fin n → ℝ) => st.2 m) _ _ (fun i => B i m), outer2 _ (fun j hj => hB j m (Or.inl hj))]
    · simp
    · intro i st
      rw [forL_obs_add (fun st : (Fin n → ℝ) × (Fin n → ℝ) => st.2 m) _ _ (fun j => if m = j then B i j else 0) (fun j st => h2 i j st m),
        inner _ (fun j hj => by simp [hB i j (Or.inr hj)])]
      simp

theorem pr_zero (x y : Fin n → ℝ) (i j : Fin n) (h : x i = 0 ∨ y j = 0) : pr x y i j = 0 := by
  unfold pr
  rcases h with h | h <;> simp [h]

theorem prime_sparse2_eq (β : Vec n) (so si x y : Fin n → ℝ) (hx : ∀ i, 0 ≤ x i) (hy : ∀ i, 0 ≤ y i) (m : Fin n) :
    loglikelihood_prime_crema_directed_sparse_2 β so si x y (0, m) =
      (if x m ≠ 0 then -so m else 0) + ∑ j, (if m = j then 0 else pr x y m j / (β (0, m) + β (1, j))) ∧
    loglikelihood_prime_crema_directed_sparse_2 β so si x y (1, m) =
      (if y m ≠ 0 then -si m else 0) + ∑ i, (if i = m then 0 else pr x y i m / (β (0, i) + β (1, m))) := by
  have key := nz_loop x y so (fun i j => if i = j then 0 else pr x y i j / (β (0, i) + β (1, j)))
    (fun i j => if i = j then 0 else pr x y i j / (β (0, i) + β (1, j)))
    (fun i j h => by simp [pr_zero x y i j h]) (fun i j h => by simp [pr_zero x y i j h])
    (fun i j st => if i ≠ j then (if 0 < x i * y j / (1 + x i * y j) then
      (addAt st.1 i (x i * y j / (1 + x i * y j) / (β (0, i) + β (1, j))), addAt st.2 j (x i * y j / (1 + x i * y j) / (β (0, i) + β (1, j))))
      else st) else st) ?_ ?_ m
  · simp only [loglikelihood_prime_crema_directed_sparse_2, cat0, cat1]
    refine ⟨key.1, ?_⟩
    rw [sub_list _ (nodup_nonzero y), key.2, add_comm]
    simp [mem_nonzero]
  · intro i j st m
    by_cases h : i = j
    · simp [h]
    · have g := guard hx hy i j (fun p => if m = i then p / (β (0, i) + β (1, j)) else 0) (by simp)
      simp only [h, ne_eq, not_false_eq_true, if_true, if_false]
      rw [← g]; unfold pr
      split <;> simp [addAt_apply]
  · intro i j st m
    by_cases h : i = j
    · simp [h]
    · have g := guard hx hy i j (fun p => if m = j then p / (β (0, i) + β (1, j)) else 0) (by simp)
      simp only [h, ne_eq, not_false_eq_true, if_true, if_false]
      rw [← g]; unfold pr
      split <;> simp [addAt_apply]

theorem iter_sparse2_eq (β : Vec n) (so si x y : Fin n → ℝ) (no ni : List (Fin n)) (hno : no.Nodup) (hni : ni.Nodup)
    (hx : ∀ i, 0 ≤ x i) (hy : ∀ i, 0 ≤ y i) (m : Fin n) :
    iterative_crema_directed_sparse_2 β so si x y no ni (0, m) =
      (if m ∈ no then (∑ j, -(if m = j then 0 else pr x y m j / (1 + β (1, j) / β (0, m)))) / so m
        else (∑ j, -(if m = j then 0 else pr x y m j / (1 + β (1, j) / β (0, m))))) ∧
    iterative_crema_directed_sparse_2 β so si x y no ni (1, m) =
      (if m ∈ ni then (∑ i, -(if i = m then 0 else pr x y i m / (1 + β (0, i) / β (1, m)))) / si m
        else (∑ i, -(if i = m then 0 else pr x y i m / (1 + β (0, i) / β (1, m))))) := by
  have key := nz_loop x y (fun _ => 0) (fun i j => -(if i = j then 0 else pr x y i j / (1 + β (1, j) / β (0, i))))
    (fun i j => -(if i = j then 0 else pr x y i j / (1 + β (0, i) / β (1, j))))
    (fun i j h => by simp [pr_zero x y i j h]) (fun i j h => by simp [pr_zero x y i j h])
    (fun i j st => if i ≠ j then (if 0 < x i * y j / (1 + x i * y j) then
      (subAt st.1 i (x i * y j / (1 + x i * y j) / (1 + (β (1, j) / β (0, i)))),
       subAt st.2 j (x i * y j / (1 + x i * y j) / (1 + (β (0, i) / β (1, j)))))
      else st) else st) ?_ ?_ m
  · have e : ∀ st : (Fin n → ℝ) × (Fin n → ℝ), ∀ i : Fin n, (subAt st.1 i 0, st.2) = st := by
      intro st i
      have : subAt st.1 i 0 = st.1 := by funext a; simp [subAt_apply]
      rw [this]
    simp only [e] at key
    simp only [iterative_crema_directed_sparse_2, cat0, cat1]
    rw [scale_list _ hno, scale_list _ hni, key.1, key.2]
    simp
  · intro i j st m
    by_cases h : i = j
    · simp [h]
    · have g := guard hx hy i j (fun p => if m = i then -(p / (1 + β (1, j) / β (0, i))) else 0) (by simp)
      simp only [h, ne_eq, not_false_eq_true, if_true, if_false]
      rw [← g]; unfold pr
      split <;> simp [subAt_apply]
  · intro i j st m
    by_cases h : i = j
    · simp [h]
    · have g := guard hx hy i j (fun p => if m = j then -(p / (1 + β (0, i) / β (1, j))) else 0) (by simp)
      simp only [h, ne_eq, not_false_eq_true, if_true, if_false]
      rw [← g]; unfold pr
      split <;> simp [subAt_apply]

end Verif.DCReMa
