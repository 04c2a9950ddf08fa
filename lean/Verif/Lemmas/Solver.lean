import Verif.Model.Solver
import Mathlib.Topology.Algebra.Order.Field
import Mathlib.Analysis.SpecificLimits.Basic

/-! Lemmas about the loops of `Model/Solver.lean`. -/

namespace Verif.Solver

open Finset

open Classical in
attribute [local instance 0] propDecidable

variable {ι : Type*} [Fintype ι] [DecidableEq ι]

/-- What `backtrack` returns: `k ≤ N` reductions, the test passed unless all `N` were used. -/
theorem backtrack_spec (cond : ℝ → Prop) (beta : ℝ) (N : ℕ) (a : ℝ) :
    ∃ k ≤ N, backtrack cond beta N a = a * beta ^ k ∧ (k < N → cond (a * beta ^ k)) ∧ ∀ j < k, ¬ cond (a * beta ^ j) := by
  induction N generalizing a with
  | zero => exact ⟨0, le_rfl, by simp [backtrack], by simp, by simp⟩
  | succ N ih =>
    by_cases h : cond a
    · exact ⟨0, by simp, by simp [backtrack, h], by simpa using h, by simp⟩
    · obtain ⟨k, hk, e, hc, hn⟩ := ih (a * beta)
      refine ⟨k + 1, by omega, ?_, ?_, ?_⟩
      · rw [backtrack, if_neg h, e, pow_succ', mul_assoc]
      · intro hk'; rw [pow_succ', ← mul_assoc]; exact hc (by omega)
      · intro j hj
        match j with
        | 0 => simpa using h
        | j + 1 => rw [pow_succ', ← mul_assoc]; exact hn j (by omega)

theorem untilLoop_some {cond : ℝ → Prop} {beta a r : ℝ} (h : untilLoop cond beta a = some r) :
    cond r ∧ ∃ k : ℕ, r = a * beta ^ k ∧ ∀ j < k, ¬ cond (a * beta ^ j) := by
  unfold untilLoop at h
  split at h
  · rename_i hk
    simp only [Option.some.injEq] at h
    subst h
    exact ⟨Nat.find_spec hk, _, rfl, fun j hj => Nat.find_min hk hj⟩
  · exact absurd h (by simp)

theorem untilLoop_none {cond : ℝ → Prop} {beta a : ℝ} :
    untilLoop cond beta a = none ↔ ∀ k : ℕ, ¬ cond (a * beta ^ k) := by
  unfold untilLoop
  split
  · rename_i hk; simp only [reduceCtorEq, false_iff]; push Not; exact hk
  · rename_i hk; simpa using hk

/-- The unfolding equation of `while True: if cond(alfa): break else: alfa *= beta`. -/
theorem untilLoop_unfold (cond : ℝ → Prop) (beta a : ℝ) :
    untilLoop cond beta a = if cond a then some a else untilLoop cond beta (a * beta) := by
  split
  · rename_i h
    have hk : ∃ k : ℕ, cond (a * beta ^ k) := ⟨0, by simpa using h⟩
    have : Nat.find hk = 0 := by rw [Nat.find_eq_zero]; simpa using h
    unfold untilLoop; rw [dif_pos hk]; simp [this]
  · rename_i h
    cases e : untilLoop cond beta (a * beta) with
    | none =>
      rw [untilLoop_none] at e ⊢
      intro k
      match k with
      | 0 => simpa using h
      | k + 1 => rw [pow_succ', ← mul_assoc]; exact e k
    | some r =>
      obtain ⟨hr, k, rfl, hj⟩ := untilLoop_some e
      have hk : ∃ k : ℕ, cond (a * beta ^ k) := ⟨k + 1, by rw [pow_succ', ← mul_assoc]; exact hr⟩
      have : Nat.find hk = k + 1 := by
        rw [Nat.find_eq_iff]
        refine ⟨by rw [pow_succ', ← mul_assoc]; exact hr, fun j hj' => ?_⟩
        match j with
        | 0 => simpa using h
        | j + 1 => rw [pow_succ', ← mul_assoc]; exact hj j (by omega)
      unfold untilLoop; rw [dif_pos hk, this, pow_succ', ← mul_assoc]

/-- If the test holds for every small enough positive step, the `while True` loop ends. -/
theorem untilLoop_terminates {cond : ℝ → Prop} {beta a : ℝ} (hb0 : 0 < beta) (hb1 : beta < 1) (ha : 0 < a)
    (h : ∀ᶠ t in nhds (0 : ℝ), 0 < t → cond t) : ∃ r, untilLoop cond beta a = some r := by
  cases e : untilLoop cond beta a with
  | some r => exact ⟨r, rfl⟩
  | none =>
    exfalso
    rw [untilLoop_none] at e
    have ht : Filter.Tendsto (fun k : ℕ => a * beta ^ k) Filter.atTop (nhds (a * 0)) :=
      (tendsto_pow_atTop_nhds_zero_of_lt_one hb0.le hb1).const_mul a
    rw [mul_zero] at ht
    obtain ⟨k, hk⟩ := (ht.eventually h).exists
    exact e k (hk (by positivity))

/-- If the test fails for every small enough positive step and for every larger one tried, it never ends; special case: it fails
for every positive step. -/
theorem untilLoop_never {cond : ℝ → Prop} {beta a : ℝ} (hb0 : 0 < beta) (ha : 0 < a)
    (h : ∀ t, 0 < t → ¬ cond t) : untilLoop cond beta a = none :=
  untilLoop_none.2 fun _ => h _ (by positivity)

theorem positivityStage_le (order : List ι) (x dx : ι → ℝ) (alfa : ℝ) : positivityStage order x dx alfa ≤ alfa := by
  unfold positivityStage
  refine forL_inv (fun a => a ≤ alfa) order _ alfa (fun i _ a ha => ?_) le_rfl
  dsimp only
  split
  · exact ha
  · split
    · exact (min_le_left _ _).trans ha
    · exact ha

theorem positivityStage_pos (order : List ι) (x dx : ι → ℝ) (alfa : ℝ) (ha : 0 < alfa) (hx : ∀ i ∈ order, dx i ≠ 0 → 0 < x i) :
    0 < positivityStage order x dx alfa := by
  unfold positivityStage
  refine forL_inv (fun a => 0 < a) order _ alfa (fun i hi a ha => ?_) ha
  dsimp only
  split
  · exact ha
  · rename_i hd
    split
    · rename_i hge
      refine lt_min ha (lt_of_le_of_ne hge (Ne.symm ?_))
      exact div_ne_zero (mul_ne_zero (by norm_num) (hx i hi hd).ne') hd
    · exact ha

theorem positivityStage_nonneg (order : List ι) (x dx : ι → ℝ) (alfa : ℝ) (ha : 0 ≤ alfa) :
    0 ≤ positivityStage order x dx alfa := by
  unfold positivityStage
  refine forL_inv (fun a => 0 ≤ a) order _ alfa (fun i hi a ha => ?_) ha
  dsimp only
  split
  · exact ha
  · split
    · exact le_min ha ‹_›
    · exact ha

theorem positivityStage_bound (order : List ι) (x dx : ι → ℝ) (alfa : ℝ) (i : ι) (hi : i ∈ order) (hx : 0 ≤ x i) (hd : dx i < 0) :
    positivityStage order x dx alfa ≤ (0.01 - 1) * x i / dx i := by
  unfold positivityStage
  refine forL_reach (fun a => a ≤ (0.01 - 1) * x i / dx i) order _ alfa (fun e _ a ha => ?_) i hi (fun a => ?_)
  · dsimp only
    split
    · exact ha
    · split
      · exact (min_le_left _ _).trans ha
      · exact ha
  · dsimp only
    have : (0.01 - 1) * x i / dx i ≥ 0 := div_nonneg_of_nonpos (by nlinarith) hd.le
    rw [if_neg hd.ne, if_pos this]
    exact min_le_right _ _

theorem positivityStage'_le (order : List ι) (x dx : ι → ℝ) (alfa : ℝ) : positivityStage' order x dx alfa ≤ alfa := by
  unfold positivityStage'
  refine forL_inv (fun a => a ≤ alfa) _ _ alfa (fun i _ a ha => ?_) le_rfl
  dsimp only
  split
  · exact (min_le_left _ _).trans ha
  · exact ha

theorem positivityStage'_pos (order : List ι) (x dx : ι → ℝ) (alfa : ℝ) (ha : 0 < alfa) :
    0 < positivityStage' order x dx alfa := by
  unfold positivityStage'
  refine forL_inv (fun a => 0 < a) _ _ alfa (fun i hi a ha => ?_) ha
  dsimp only
  split
  · exact lt_min ha ‹_›
  · exact ha

theorem positivityStage'_bound (order : List ι) (x dx : ι → ℝ) (alfa : ℝ) (i : ι) (hi : i ∈ order) (hx : 0 < x i) (hd : dx i < 0) :
    positivityStage' order x dx alfa ≤ (0.01 - 1) * x i / dx i := by
  unfold positivityStage'
  refine forL_reach (fun a => a ≤ (0.01 - 1) * x i / dx i) _ _ alfa (fun e _ a ha => ?_) i (by simp [hi, hd.ne]) (fun a => ?_)
  · dsimp only
    split
    · exact (min_le_left _ _).trans ha
    · exact ha
  · dsimp only
    have : (0.01 - 1) * x i / dx i > 0 := div_pos_of_neg_of_neg (by nlinarith) hd
    rw [if_pos this]
    exact min_le_right _ _

/-- A step below the bound `0.99 x_i / |dx_i|` keeps at least one per cent of `x_i`. -/
theorem keep_percent {x d r : ℝ} (hr : 0 ≤ r) (hx : 0 ≤ x) (h : d < 0 → r ≤ (0.01 - 1) * x / d) : 0.01 * x ≤ x + r * d := by
  by_cases hd : d < 0
  · have := h hd
    rw [le_div_iff_of_neg hd] at this
    linarith
  · have := mul_nonneg hr (not_lt.1 hd)
    nlinarith

/-- What the decrease stage guarantees. -/
theorem decreaseStage_spec (F : (ι → ℝ) → Option ℝ) (x dx : ι → ℝ) {beta alfa : ℝ} (f : ι → ℝ) (hb0 : 0 < beta) (hb1 : beta < 1)
    (ha : 0 ≤ alfa) :
    decreaseStage F x dx beta alfa f ≤ alfa ∧ (0 < alfa → 0 < decreaseStage F x dx beta alfa f) ∧
    0 ≤ decreaseStage F x dx beta alfa f ∧
    ((∃ a b, F x = some a ∧ F (x + decreaseStage F x dx beta alfa f • dx) = some b ∧
        a + -(0.0001 * decreaseStage F x dx beta alfa f * dot f dx) < b) ∨
      decreaseStage F x dx beta alfa f = alfa * beta ^ 50) := by
  obtain ⟨k, hk, e, hc, -⟩ := backtrack_spec
    (fun a => sufficient_decrease_condition (negF F x) (negF F (x + a • dx)) a f dx) beta 50 alfa
  have e' : decreaseStage F x dx beta alfa f = alfa * beta ^ k := e
  refine ⟨?_, ?_, ?_, ?_⟩
  · rw [e']; exact mul_le_of_le_one_right ha (pow_le_one₀ hb0.le hb1.le)
  · intro h; rw [e']; positivity
  · rw [e']; positivity
  · rcases Nat.lt_or_ge k 50 with h | h
    · left
      have := hc h
      rw [e']
      unfold sufficient_decrease_condition negF at this
      cases h1 : F x with
      | none => simp [h1] at this
      | some a =>
        cases h2 : F (x + (alfa * beta ^ k) • dx) with
        | none => simp [h1, h2] at this
        | some b =>
          simp only [h1, h2, Option.map_some] at this
          exact ⟨a, b, rfl, rfl, by linarith⟩
    · right
      rw [e', show k = 50 by omega]

/-- What the norm stage guarantees. -/
theorem normStage_spec (dx dx_old : ι → ℝ) {alfa beta : ℝ} (step : ℕ) (hb0 : 0 < beta) (hb1 : beta < 1) (ha : 0 ≤ alfa) :
    normStage dx dx_old alfa beta step ≤ alfa ∧ (0 < alfa → 0 < normStage dx dx_old alfa beta step) ∧
    0 ≤ normStage dx dx_old alfa beta step ∧
    (step = 0 → normStage dx dx_old alfa beta step = alfa) ∧
    (step ≠ 0 → norm2 (normStage dx dx_old alfa beta step • dx) < norm2 dx_old ∨
      normStage dx dx_old alfa beta step = alfa * beta ^ 50) := by
  unfold normStage
  split
  · rename_i hs
    obtain ⟨k, hk, e, hc, -⟩ := backtrack_spec (fun a => norm2 (a • dx) < norm2 dx_old) beta 50 alfa
    refine ⟨?_, ?_, ?_, fun h => absurd h hs, fun _ => ?_⟩
    · rw [e]; exact mul_le_of_le_one_right ha (pow_le_one₀ hb0.le hb1.le)
    · intro h; rw [e]; positivity
    · rw [e]; positivity
    · rcases Nat.lt_or_ge k 50 with h | h
      · left; rw [e]; exact hc h
      · right; rw [e, show k = 50 by omega]
  · rename_i hs
    exact ⟨le_rfl, id, ha, fun _ => rfl, fun h => absurd h hs⟩

/-! ### Pair products -/

section Pairs

variable {n : ℕ}

theorem topTwoProd_eq (hn : 2 ≤ n) (y : Fin n → ℝ) :
    topTwoProd y = y (Tuple.sort y ⟨n - 2, by omega⟩) * y (Tuple.sort y ⟨n - 1, by omega⟩) := by
  unfold topTwoProd
  have : (univ.filter fun k : Fin n => n - 2 ≤ k.val) = {⟨n - 2, by omega⟩, ⟨n - 1, by omega⟩} := by
    ext k
    simp only [mem_filter, mem_univ, true_and, mem_insert, mem_singleton, Fin.ext_iff]
    omega
  rw [this, prod_pair]
  simp [Fin.ext_iff]; omega

/-- The product of the two largest entries is below one iff every pair product is. -/
theorem topTwoProd_lt_one (hn : 2 ≤ n) (y : Fin n → ℝ) (hy : ∀ i, 0 ≤ y i) :
    topTwoProd y < 1 ↔ ∀ i j, i ≠ j → y i * y j < 1 := by
  rw [topTwoProd_eq hn]
  constructor
  · intro h
    have key : ∀ p q : Fin n, p < q → y (Tuple.sort y p) * y (Tuple.sort y q) < 1 := by
      intro p q hpq
      refine lt_of_le_of_lt ?_ h
      have hm := Tuple.monotone_sort y
      refine mul_le_mul (hm (show p ≤ ⟨n - 2, by omega⟩ from ?_)) (hm (show q ≤ ⟨n - 1, by omega⟩ from ?_)) (hy _) (hy _)
      · rw [Fin.le_def]; have := Fin.lt_def.1 hpq; have := q.2; simp only; omega
      · rw [Fin.le_def]; have := q.2; simp only; omega
    intro i j hij
    have hne : (Tuple.sort y).symm i ≠ (Tuple.sort y).symm j := fun h => hij ((Tuple.sort y).symm.injective h)
    rcases lt_or_gt_of_ne hne with hlt | hlt
    · simpa using key _ _ hlt
    · have := key _ _ hlt
      rw [mul_comm]; simpa using this
  · intro h
    refine h _ _ fun e => ?_
    have := (Tuple.sort y).injective e
    simp [Fin.ext_iff] at this; omega

theorem lowTwoSum_eq (hn : 2 ≤ n) (y : Fin n → ℝ) :
    lowTwoSum y = y (Tuple.sort y ⟨0, by omega⟩) + y (Tuple.sort y ⟨1, by omega⟩) := by
  unfold lowTwoSum
  have : (univ.filter fun k : Fin n => k.val < 2) = {⟨0, by omega⟩, ⟨1, by omega⟩} := by
    ext k
    simp only [mem_filter, mem_univ, true_and, mem_insert, mem_singleton, Fin.ext_iff]
    omega
  rw [this, sum_pair]
  simp [Fin.ext_iff]

/-- The sum of the two smallest entries is above `c` iff every pair sum is. -/
theorem lowTwoSum_gt (hn : 2 ≤ n) (y : Fin n → ℝ) (c : ℝ) :
    lowTwoSum y > c ↔ ∀ i j, i ≠ j → y i + y j > c := by
  rw [lowTwoSum_eq hn]
  constructor
  · intro h
    have key : ∀ p q : Fin n, p < q → y (Tuple.sort y p) + y (Tuple.sort y q) > c := by
      intro p q hpq
      refine lt_of_lt_of_le h ?_
      have hm := Tuple.monotone_sort y
      refine add_le_add (hm (show ⟨0, by omega⟩ ≤ p from ?_)) (hm (show ⟨1, by omega⟩ ≤ q from ?_))
      · rw [Fin.le_def]; simp
      · rw [Fin.le_def]; have := Fin.lt_def.1 hpq; simp only; omega
    intro i j hij
    have hne : (Tuple.sort y).symm i ≠ (Tuple.sort y).symm j := fun h => hij ((Tuple.sort y).symm.injective h)
    rcases lt_or_gt_of_ne hne with hlt | hlt
    · simpa using key _ _ hlt
    · have := key _ _ hlt
      rw [add_comm]; simpa using this
  · intro h
    refine h _ _ fun e => ?_
    have := (Tuple.sort y).injective e
    simp [Fin.ext_iff] at this

theorem maxv_mul_lt_one [NeZero n] (y z : Fin n → ℝ) (hy : ∀ i, 0 ≤ y i) (hz : ∀ i, 0 ≤ z i) :
    maxv y * maxv z < 1 ↔ ∀ i j, y i * z j < 1 := by
  unfold maxv
  constructor
  · intro h i j
    refine lt_of_le_of_lt ?_ h
    refine mul_le_mul (le_sup' y (mem_univ i)) (le_sup' z (mem_univ j)) (hz j) ?_
    exact (hy i).trans (le_sup' y (mem_univ i))
  · intro h
    obtain ⟨i, -, hi⟩ := exists_mem_eq_sup' (univ_nonempty (α := Fin n)) y
    obtain ⟨j, -, hj⟩ := exists_mem_eq_sup' (univ_nonempty (α := Fin n)) z
    rw [hi, hj]; exact h i j

theorem minv_add_gt [NeZero n] (y z : Fin n → ℝ) (c : ℝ) :
    minv y + minv z > c ↔ ∀ i j, y i + z j > c := by
  unfold minv
  constructor
  · intro h i j
    exact lt_of_lt_of_le h (add_le_add (inf'_le y (mem_univ i)) (inf'_le z (mem_univ j)))
  · intro h
    obtain ⟨i, -, hi⟩ := exists_mem_eq_inf' (univ_nonempty (α := Fin n)) y
    obtain ⟨j, -, hj⟩ := exists_mem_eq_inf' (univ_nonempty (α := Fin n)) z
    rw [hi, hj]; exact h i j

end Pairs

/-! ### The solver loop -/

section Loop

variable [Nonempty ι]

theorem loop_inv (C : Callbacks ι) (o : Opts) (I : State ι → Prop)
    (hstep : ∀ s s', s.norm > o.tol → s.diff > o.eps → I s → step C o s = .ok s' → I s') :
    ∀ (k : ℕ) (s r : State ι), I s → loop C o k s = .ok r → I r := by
  intro k
  induction k with
  | zero => intro s r hs h; simp only [loop, Except.ok.injEq] at h; rwa [← h]
  | succ k ih =>
    intro s r hs h
    rw [loop] at h
    split at h
    · rename_i hc
      cases e : step C o s with
      | error er => simp [e] at h
      | ok s' => rw [e] at h; exact ih s' r (hstep s s' hc.1 hc.2 hs e) h
    · simp only [Except.ok.injEq] at h; rwa [← h]

/-- one step, spelled out -/
theorem step_ok {C : Callbacks ι} {o : Opts} {s s' : State ι} (h : step C o s = .ok s') :
    ∃ dx alfa, direction C o s.x s.f = .ok dx ∧ stepLength C o s dx = .ok alfa ∧
      s' = { x := s.x + alfa • dx, f := C.fn (s.x + alfa • dx), norm := norm2 (C.fn (s.x + alfa • dx)),
             diff := norm2 (s.x + alfa • dx - s.x), dx_old := alfa • dx, n_steps := s.n_steps + 1,
             norm_seq := s.norm_seq ++ [norm2 (C.fn (s.x + alfa • dx))],
             diff_seq := s.diff_seq ++ [norm2 (s.x + alfa • dx - s.x)],
             alfa_seq := if o.linsearch then s.alfa_seq ++ [alfa] else s.alfa_seq } := by
  unfold step at h
  cases e1 : direction C o s.x s.f with
  | error er => simp [e1] at h
  | ok dx =>
    cases e2 : stepLength C o s dx with
    | error er => simp [e1, e2] at h
    | ok alfa =>
      refine ⟨dx, alfa, rfl, e2, ?_⟩
      simp only [e1, e2, Except.ok.injEq] at h
      exact h.symm

theorem loop_exit (C : Callbacks ι) (o : Opts) :
    ∀ (k : ℕ) (s r : State ι), loop C o k s = .ok r →
      r.n_steps ≤ s.n_steps + k ∧ (r.n_steps < s.n_steps + k → r.norm ≤ o.tol ∨ r.diff ≤ o.eps) := by
  intro k
  induction k with
  | zero => intro s r h; simp only [loop, Except.ok.injEq] at h; simp [← h]
  | succ k ih =>
    intro s r h
    rw [loop] at h
    split at h
    · cases e : step C o s with
      | error er => simp [e] at h
      | ok s' =>
        rw [e] at h
        obtain ⟨_, _, _, _, hs'⟩ := step_ok e
        have := ih s' r h
        have hn : s'.n_steps = s.n_steps + 1 := by rw [hs']
        rw [hn] at this
        exact ⟨by omega, fun h' => this.2 (by omega)⟩
    · rename_i hc
      simp only [Except.ok.injEq] at h
      subst h
      refine ⟨by omega, fun _ => ?_⟩
      by_cases h1 : s.norm > o.tol
      · right; by_contra h2; exact hc ⟨h1, not_le.1 h2⟩
      · left; exact not_lt.1 h1

end Loop

end Verif.Solver
