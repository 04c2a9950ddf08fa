import Verif.Props.Reports
import Verif.Props.Runs2
import Verif.Props.Guess2

/-!
C59: the parameters order the nodes as their degrees do.  C60: a node linked to every other node is never fitted exactly.
-/

set_option linter.unusedSectionVars false

namespace Verif.Solve

open Verif Finset Reduction Solver Spec

noncomputable section

open Classical in
attribute [local instance 0] propDecidable

variable {n : ℕ}

/-! ### comparing two rows -/

theorem swap_rows_le {i j : Fin n} {f g : Fin n → ℝ} (h : ∀ m, m ≠ i → f m ≤ g (Equiv.swap i j m)) :
    ∑ m ∈ univ.filter (· ≠ i), f m ≤ ∑ m ∈ univ.filter (· ≠ j), g m := by
  have e : ∑ m ∈ univ.filter (· ≠ j), g m = ∑ m ∈ univ.filter (· ≠ i), g (Equiv.swap i j m) := by
    refine (Finset.sum_equiv (Equiv.swap i j) (fun m => ?_) fun m _ => rfl).symm
    simp only [mem_filter, mem_univ, true_and, ne_eq]
    constructor
    · intro hm hs; exact hm ((Equiv.swap i j).injective (hs.trans (Equiv.swap_apply_left i j).symm))
    · intro hm hs; apply hm; rw [hs, Equiv.swap_apply_left]
  rw [e]
  exact sum_le_sum fun m hm => h m (by simpa using hm)

theorem frac_mono {a b : ℝ} (ha : 0 ≤ a) (h : a ≤ b) : a / (1 + a) ≤ b / (1 + b) := by
  rw [div_le_div_iff₀ (by linarith) (by linarith)]; nlinarith

theorem degUBCM_mono {x : Fin n → ℝ} (hx : ∀ i, 0 ≤ x i) {i j : Fin n} (h : x i ≤ x j) : degUBCM x i ≤ degUBCM x j := by
  refine swap_rows_le fun m hm => ?_
  unfold linkUBCM
  by_cases hj : m = j
  · subst hj; rw [Equiv.swap_apply_right, mul_comm]
  · rw [Equiv.swap_apply_of_ne_of_ne hm hj]
    exact frac_mono (mul_nonneg (hx _) (hx _)) (mul_le_mul_of_nonneg_right h (hx _))

theorem outDBCM_mono {x y : Fin n → ℝ} (hx : ∀ i, 0 ≤ x i) (hy : ∀ i, 0 ≤ y i) {i j : Fin n} (h : x i ≤ x j) (h' : y j ≤ y i) :
    outDBCM x y i ≤ outDBCM x y j := by
  refine swap_rows_le fun m hm => ?_
  unfold linkDBCM
  by_cases hj : m = j
  · subst hj; rw [Equiv.swap_apply_right]
    exact frac_mono (mul_nonneg (hx _) (hy _)) (mul_le_mul h h' (hy _) (hx _))
  · rw [Equiv.swap_apply_of_ne_of_ne hm hj]
    exact frac_mono (mul_nonneg (hx _) (hy _)) (mul_le_mul_of_nonneg_right h (hy _))

theorem inDBCM_mono {x y : Fin n → ℝ} (hx : ∀ i, 0 ≤ x i) (hy : ∀ i, 0 ≤ y i) {i j : Fin n} (h : y i ≤ y j) (h' : x j ≤ x i) :
    inDBCM x y i ≤ inDBCM x y j := by
  refine swap_rows_le fun m hm => ?_
  unfold linkDBCM
  by_cases hj : m = j
  · subst hj; rw [Equiv.swap_apply_right]
    exact frac_mono (mul_nonneg (hx _) (hy _)) (mul_le_mul h' h (hy _) (hx _))
  · rw [Equiv.swap_apply_of_ne_of_ne hm hj]
    exact frac_mono (mul_nonneg (hx _) (hy _)) (mul_le_mul_of_nonneg_left h (hx _))

theorem totalDBCM_mono {x y : Fin n → ℝ} (hx : ∀ i, 0 ≤ x i) (hy : ∀ i, 0 ≤ y i) {i j : Fin n} (h : x i ≤ x j) (h' : y i ≤ y j) :
    outDBCM x y i + inDBCM x y i ≤ outDBCM x y j + inDBCM x y j := by
  unfold outDBCM inDBCM
  rw [← sum_add_distrib, ← sum_add_distrib]
  refine swap_rows_le fun m hm => ?_
  unfold linkDBCM
  by_cases hj : m = j
  · subst hj; rw [Equiv.swap_apply_right, add_comm]
  · rw [Equiv.swap_apply_of_ne_of_ne hm hj]
    exact add_le_add (frac_mono (mul_nonneg (hx _) (hy _)) (mul_le_mul_of_nonneg_right h (hy _)))
      (frac_mono (mul_nonneg (hx _) (hy _)) (mul_le_mul_of_nonneg_left h' (hx _)))

theorem pair_link_mono {X X' Y Y' : ℝ} (hX : 0 ≤ X) (hY : 0 ≤ Y) (h : X ≤ X') (h' : Y ≤ Y') (h1 : Y' < 1) :
    X * Y / (1 - Y + X * Y) ≤ X' * Y' / (1 - Y' + X' * Y') ∧
      X * Y / ((1 - Y) * (1 - Y + X * Y)) ≤ X' * Y' / ((1 - Y') * (1 - Y' + X' * Y')) := by
  have hX' : 0 ≤ X' := hX.trans h
  have hY' : 0 ≤ Y' := hY.trans h'
  have p0 : 0 < 1 - Y := by linarith
  have p0' : 0 < 1 - Y' := by linarith
  have p1 : 0 < 1 - Y + X * Y := by positivity
  have p1' : 0 < 1 - Y' + X' * Y' := by positivity
  have key : X * Y / (1 - Y + X * Y) ≤ X' * Y' / (1 - Y' + X' * Y') := by
    rw [div_le_div_iff₀ p1 p1']
    have : X * Y ≤ X' * Y' := mul_le_mul h h' hY hX'
    nlinarith [mul_le_mul_of_nonneg_right this p0'.le, mul_nonneg (mul_nonneg hX' hY') (sub_nonneg.2 h')]
  refine ⟨key, ?_⟩
  have e1 : X * Y / ((1 - Y) * (1 - Y + X * Y)) = X * Y / (1 - Y + X * Y) * (1 / (1 - Y)) := by field_simp
  have e2 : X' * Y' / ((1 - Y') * (1 - Y' + X' * Y')) = X' * Y' / (1 - Y' + X' * Y') * (1 / (1 - Y')) := by field_simp
  rw [e1, e2]
  refine mul_le_mul key (one_div_le_one_div_of_le p0' (by linarith)) (by positivity) (by positivity)

theorem UECM_mono {x y : Fin n → ℝ} (hx : ∀ i, 0 ≤ x i) (hy : ∀ i, 0 ≤ y i) (hp : ∀ i j, i ≠ j → y i * y j < 1) {i j : Fin n} (h : x i ≤ x j) (h' : y i ≤ y j) :
    degUECM x y i ≤ degUECM x y j ∧ strUECM x y i ≤ strUECM x y j := by
  have key : ∀ m, m ≠ i → m ≠ j → _ := fun m (hm : m ≠ i) (hj : m ≠ j) => pair_link_mono (mul_nonneg (hx i) (hx m)) (mul_nonneg (hy i) (hy m))
    (mul_le_mul_of_nonneg_right h (hx m)) (mul_le_mul_of_nonneg_right h' (hy m)) (hp j m (Ne.symm hj))
  constructor
  all_goals
    refine swap_rows_le fun m hm => ?_
    by_cases hj : m = j
    · subst hj; rw [Equiv.swap_apply_right, mul_comm (y m) (y i), show x m * x i * y m * y i = x i * x m * y i * y m by ring]
    · rw [Equiv.swap_apply_of_ne_of_ne hm hj]
      have := key m hm hj
      simp only [← mul_assoc] at this
      first | exact this.1 | exact this.2

/-! ### C59 -/

theorem near {E a b k l : ℝ} (h1 : |a - k| ≤ E) (h2 : |b - l| ≤ E) (h : k + 2 * E < l) : a < b := by
  have := abs_le.1 h1; have := abs_le.1 h2; linarith

section undirected

variable [NeZero n] {d : UData n} (e : Env)

theorem inv_eq_of_deg {i j : Fin n} (h : d.dseq i = d.dseq j) : d.inv i = d.inv j := by
  refine (r_dseq_strictMono d.dseq).injective ?_
  show r_dseq d.dseq (r_invert_dseq d.dseq i) = r_dseq d.dseq (r_invert_dseq d.dseq j)
  rw [r_dseq_invert, r_dseq_invert, h]

theorem cm_class (g : UAttr d) (mo : UModel) (hmo : mo = .cm ∨ mo = .cm_exp) (method : String) (guess : Guess n) (adj : AdjSpec n) (ma : String) (ga : Guess n) (p : Params) :
    let R := solve_tool e g mo.name method guess adj ma ga p
    R.exc = none → ∀ x, R.g.x = some x → (∀ i j, d.dseq i = d.dseq j → x i = x j) ∧ (mo = .cm_exp → ∀ i, 0 ≤ x i) := by
  intro R h x hx
  rcases hmo with rfl | rfl
  · obtain ⟨me, x0, s, -, -, -, hG⟩ := solve_tool_ok_cm e g method guess adj ma ga p h
    obtain rfl := Option.some.inj (((congrArg (fun r => r.g.x) hG).trans (solutionError_keeps e _).1).symm.trans hx)
    exact ⟨fun i j hij => by simp [inv_eq_of_deg hij], by simp⟩
  · obtain ⟨me, x0, s, -, -, -, hG⟩ := solve_tool_ok_cm_exp e g method guess adj ma ga p h
    obtain rfl := Option.some.inj (((congrArg (fun r => r.g.x) hG).trans (solutionError_keeps e _).1).symm.trans hx)
    exact ⟨fun i j hij => by simp [inv_eq_of_deg hij], fun _ i => by simp [Real.exp_nonneg]⟩

/-- C59 (cm, cm_exp): if the reported error is below one half, the parameters order the nodes exactly as the degrees do: larger degree, larger parameter; equal degrees,
equal parameters.  Hence a node of larger degree is linked to every third node with at least the same probability. -/
theorem C59_cm (g : UAttr d) (mo : UModel) (hmo : mo = .cm ∨ mo = .cm_exp) (method : String) (guess : Guess n) (adj : AdjSpec n) (ma : String) (ga : Guess n) (p : Params) :
    let R := solve_tool e g mo.name method guess adj ma ga p
    R.exc = none → ∃ x E, R.g.x = some x ∧ R.g.error_degree = some E ∧ ((mo = .cm → ∀ i, 0 ≤ x i) → E < 1 / 2 → ∀ i j,
      (d.dseq i < d.dseq j ↔ x i < x j) ∧ (d.dseq i = d.dseq j ↔ x i = x j) ∧
      (d.dseq i ≤ d.dseq j → ∀ m, linkUBCM x i m ≤ linkUBCM x j m)) := by
  intro R h
  have hinv := cm_class e g mo hmo method guess adj ma ga p h
  obtain ⟨x, E, r, h1, -, h3, -, h5, -⟩ := C54_cm e g mo hmo method guess adj ma ga p h
  refine ⟨x, E, h1, h3, fun h0 hE i j => ?_⟩
  have hx : ∀ i, 0 ≤ x i := by rcases hmo with hm | hm; exacts [h0 hm, (hinv x h1).2 hm]
  have lt : ∀ i j, d.dseq i < d.dseq j → x i < x j := fun i j hij => by
    by_contra hc
    have := degUBCM_mono hx (not_lt.1 hc)
    have h6 : (d.dseq i : ℝ) + 1 ≤ d.dseq j := by exact_mod_cast hij
    exact absurd (near (h5.1 i) (h5.1 j) (by linarith)) (not_lt.2 this)
  have eq := (hinv x h1).1
  refine ⟨⟨lt i j, fun hx => ?_⟩, ⟨eq i j, fun hx => ?_⟩, fun hij m => ?_⟩
  · rcases lt_trichotomy (d.dseq i) (d.dseq j) with h | h | h
    · exact h
    · exact absurd (eq i j h) hx.ne
    · exact absurd (lt j i h) hx.le.not_gt
  · rcases lt_trichotomy (d.dseq i) (d.dseq j) with h | h | h
    · exact absurd hx (lt i j h).ne
    · exact h
    · exact absurd hx (lt j i h).ne'
  · have : x i ≤ x j := by rcases hij.lt_or_eq with h | h; exacts [(lt i j h).le, (eq i j h).le]
    exact frac_mono (mul_nonneg (hx _) (hx _)) (mul_le_mul_of_nonneg_right this (hx _))

/-- C59 (cm with the line search on, from a named guess, no isolated nodes): without the hypothesis on the sign. -/
theorem C59_cm_named (he : e.Valid) (hr : e.NonzeroDraws) (hd : ∀ i, d.dseq i ≠ 0) (g : UAttr d) (method name : String) (adj : AdjSpec n) (ma : String) (ga : Guess n)
    (p : Params) (hl : p.linsearch = true) :
    let R := solve_tool e g "cm" method (.name name) adj ma ga p
    R.exc = none → ∃ x E, R.g.x = some x ∧ R.g.error_degree = some E ∧ (E < 1 / 2 → ∀ i j,
      (d.dseq i < d.dseq j ↔ x i < x j) ∧ (d.dseq i = d.dseq j ↔ x i = x j) ∧
      (d.dseq i ≤ d.dseq j → ∀ m, linkUBCM x i m ≤ linkUBCM x j m)) := by
  intro R h
  obtain ⟨x, E, h1, h2, h3⟩ := C59_cm e g .cm (.inl rfl) method (.name name) adj ma ga p h
  obtain ⟨x', h1', h4⟩ := C16_cm_run e he hr hd g method name adj ma ga p hl h
  obtain rfl : x = x' := by have := h1.symm.trans h1'; simpa using this
  exact ⟨x, E, h1, h2, h3 fun _ i => (h4 i).le⟩

/-- C59 (ecm, ecm_exp): a node whose degree or strength is larger (by more than twice the reported error) has a larger `x` or a larger `y`. -/
theorem C59_ecm (g : UAttr d) (mo : UModel) (hmo : mo = .ecm ∨ mo = .ecm_exp) (hd : ∀ i, d.dseq i ≠ 0) (hst : ∀ i, d.strength_sequence i ≠ 0) (method : String) (guess : Guess n)
    (adj : AdjSpec n) (ma : String) (ga : Guess n) (p : Params) :
    let R := solve_tool e g mo.name method guess adj ma ga p
    R.exc = none → ∃ x y E E', R.g.x = some x ∧ R.g.y = some y ∧ R.g.error_degree = some E ∧ R.g.error_strength = some E' ∧
      ((∀ i, 0 ≤ x i) → (∀ i, 0 ≤ y i) → (∀ i j, i ≠ j → y i * y j < 1) → ∀ i j,
        (d.dseq i : ℝ) + 2 * E < d.dseq j ∨ d.strength_sequence i + 2 * E' < d.strength_sequence j → x i < x j ∨ y i < y j) := by
  intro R h
  obtain ⟨x, y, E, r, E', r', h1, h2, -, -, h5, -, h7, -, h9⟩ := C54_ecm e g mo hmo method guess adj ma ga p h
  refine ⟨x, y, E, E', h1, h2, h5, h7, fun hx hy hp i j hij => ?_⟩
  by_contra hc
  rw [not_or, not_lt, not_lt] at hc
  obtain ⟨m1, m2⟩ := UECM_mono hx hy hp hc.1 hc.2
  obtain ⟨⟨k1, -⟩, ⟨k2, -⟩⟩ := h9 hd hst
  rcases hij with hij | hij
  · exact absurd (near (k1.1 i) (k1.1 j) hij) (not_lt.2 m1)
  · exact absurd (near (k2.1 i) (k2.1 j) hij) (not_lt.2 m2)

/-! ### C60 -/

theorem sum_lt_card {i : Fin n} {f : Fin n → ℝ} (hn : 2 ≤ n) (h : ∀ m, m ≠ i → f m < 1) : ∑ m ∈ univ.filter (· ≠ i), f m < n - 1 := by
  have hc : ((univ.filter (· ≠ i) : Finset (Fin n)).card : ℝ) = n - 1 := by
    rw [filter_ne', card_erase_of_mem (mem_univ _), card_univ, Fintype.card_fin, Nat.cast_sub (by omega)]; simp
  have hne : (univ.filter (· ≠ i) : Finset (Fin n)).Nonempty := by
    have h2 : (2 : ℝ) ≤ n := by exact_mod_cast hn
    have h0 : (0 : ℝ) < (univ.filter (· ≠ i) : Finset (Fin n)).card := by
      rw [hc]; linarith
    rw [← card_pos]
    exact_mod_cast h0
  calc ∑ m ∈ univ.filter (· ≠ i), f m < ∑ _m ∈ univ.filter (· ≠ i), (1 : ℝ) := sum_lt_sum_of_nonempty hne fun m hm => h m (by simpa using hm)
    _ = n - 1 := by rw [sum_const, nsmul_eq_mul, mul_one, hc]

theorem frac_lt_one {a : ℝ} (h : 0 ≤ a) : a / (1 + a) < 1 := by rw [div_lt_one (by linarith)]; linarith

/-- C60 (cm, cm_exp): if some node is linked to all the others, no call of `solve_tool` reports a zero error. -/
theorem C60_cm (hn : 2 ≤ n) (g : UAttr d) (mo : UModel) (hmo : mo = .cm ∨ mo = .cm_exp) (method : String) (guess : Guess n) (adj : AdjSpec n) (ma : String) (ga : Guess n)
    (p : Params) (i : Fin n) (hi : d.dseq i = n - 1) :
    let R := solve_tool e g mo.name method guess adj ma ga p
    R.exc = none → ∃ x E, R.g.x = some x ∧ R.g.error_degree = some E ∧ ((mo = .cm → ∀ i, 0 ≤ x i) → 0 < E) := by
  intro R h
  obtain ⟨x, E, r, h1, -, h3, -, h5, -⟩ := C54_cm e g mo hmo method guess adj ma ga p h
  refine ⟨x, E, h1, h3, fun h0 => ?_⟩
  have hx : ∀ i, 0 ≤ x i := hmo.elim h0 (cm_class e g mo hmo method guess adj ma ga p h x h1).2
  have : degUBCM x i < n - 1 := sum_lt_card hn fun m _ => frac_lt_one (mul_nonneg (hx _) (hx _))
  refine lt_of_lt_of_le (abs_pos.2 ?_) (h5.1 i)
  dsimp only
  rw [hi, Nat.cast_sub (by omega)]
  push_cast
  linarith

/-- the degrees of a graph in which the nodes of `S` are linked to everything outside `T` and the nodes of `T` to nothing outside `S` lie on the boundary of what probabilities
below one can reach -/
theorem face {p a : Fin n → Fin n → ℝ} (hp : ∀ i j, i ≠ j → 0 ≤ p i j ∧ p i j < 1) (S T : Finset (Fin n)) (h1 : ∀ i ∈ S, ∀ m, m ∉ T → m ≠ i → a i m = 1)
    (h0 : ∀ j ∈ T, ∀ m, m ∉ S → m ≠ j → a m j = 0) {i m : Fin n} (hi : i ∈ S) (hm : m ∉ T) (him : m ≠ i) :
    ∑ i ∈ S, ∑ m ∈ univ.filter (· ≠ i), p i m - ∑ j ∈ T, ∑ m ∈ univ.filter (· ≠ j), p m j <
      ∑ i ∈ S, ∑ m ∈ univ.filter (· ≠ i), a i m - ∑ j ∈ T, ∑ m ∈ univ.filter (· ≠ j), a m j := by
  have key : ∀ q : Fin n → Fin n → ℝ, ∑ i ∈ S, ∑ m ∈ univ.filter (· ≠ i), q i m - ∑ j ∈ T, ∑ m ∈ univ.filter (· ≠ j), q m j =
      ∑ i, ∑ m, if m = i then 0 else ((if i ∈ S then q i m else 0) - if m ∈ T then q i m else 0) := by
    intro q
    have e1 : ∑ i ∈ S, ∑ m ∈ univ.filter (· ≠ i), q i m = ∑ i, ∑ m, if m = i then 0 else if i ∈ S then q i m else 0 := by
      rw [← sum_filter_add_sum_filter_not univ (· ∈ S) fun i => ∑ m, if m = i then 0 else if i ∈ S then q i m else 0]
      rw [sum_eq_zero (s := univ.filter (· ∉ S)) (by intro i hi; simp [(mem_filter.1 hi).2]), add_zero]
      refine sum_congr (by ext; simp) fun i hi => ?_
      rw [sum_filter]
      exact sum_congr rfl fun m _ => by simp [(mem_filter.1 (by simpa using hi : i ∈ univ.filter (· ∈ S))).2]
    have e2 : ∑ j ∈ T, ∑ m ∈ univ.filter (· ≠ j), q m j = ∑ i, ∑ m, if m = i then 0 else if m ∈ T then q i m else 0 := by
      rw [sum_comm]
      rw [← sum_filter_add_sum_filter_not univ (· ∈ T) fun m => ∑ i, if m = i then 0 else if m ∈ T then q i m else 0]
      rw [sum_eq_zero (s := univ.filter (· ∉ T)) (by intro i hi; simp [(mem_filter.1 hi).2]), add_zero]
      refine sum_congr (by ext; simp) fun i hi => ?_
      rw [sum_filter]
      exact sum_congr rfl fun m _ => by simp [(mem_filter.1 (by simpa using hi : i ∈ univ.filter (· ∈ T))).2, eq_comm]
    rw [e1, e2, ← sum_sub_distrib]
    refine sum_congr rfl fun i _ => ?_
    rw [← sum_sub_distrib]
    exact sum_congr rfl fun m _ => by split_ifs <;> simp
  rw [key p, key a]
  have le : ∀ i m, (if m = i then 0 else ((if i ∈ S then p i m else 0) - if m ∈ T then p i m else 0)) ≤
      if m = i then 0 else ((if i ∈ S then a i m else 0) - if m ∈ T then a i m else 0) := by
    intro i m
    by_cases e : m = i
    · simp [e]
    · have := hp i m (Ne.symm e)
      by_cases s : i ∈ S <;> by_cases t : m ∈ T <;> simp only [e, s, t, if_true, if_false]
      · simp
      · rw [h1 i s m t e]; linarith
      · rw [h0 m t i s (Ne.symm e)]; linarith
      · simp
  refine sum_lt_sum (fun i _ => sum_le_sum fun m _ => le i m) ⟨i, mem_univ _, sum_lt_sum (fun m _ => le i m) ⟨m, mem_univ _, ?_⟩⟩
  simp only [him, hi, hm, if_true, if_false, h1 i hi m hm him, sub_zero]
  exact (hp i m (Ne.symm him)).2

/-- C60 (cm, cm_exp), core and periphery: suppose the network `A` has a group `S` of nodes that are linked to every node outside a group `T`, while the nodes of `T` are linked
to no node outside `S` (a fully linked core with a periphery attached only to it; with `S` a single node and `T` empty, a node linked to all the others).  Then no call of
`solve_tool` reports a zero error. -/
theorem C60_cm_core (A : Fin n → Fin n → Bool) (hA0 : ∀ i, A i i = false) (hA : ∀ i j, A i j = A j i) (hk : ∀ i, d.dseq i = (univ.filter fun j => A i j = true).card)
    (S T : Finset (Fin n)) (hS : ∀ i ∈ S, ∀ m, m ∉ T → m ≠ i → A i m = true) (hT : ∀ j ∈ T, ∀ m, m ∉ S → A j m = false) (hne : ∃ i ∈ S, ∃ m, m ∉ T ∧ m ≠ i)
    (g : UAttr d) (mo : UModel) (hmo : mo = .cm ∨ mo = .cm_exp) (method : String) (guess : Guess n) (adj : AdjSpec n) (ma : String) (ga : Guess n) (p : Params) :
    let R := solve_tool e g mo.name method guess adj ma ga p
    R.exc = none → ∃ x E, R.g.x = some x ∧ R.g.error_degree = some E ∧ ((mo = .cm → ∀ i, 0 ≤ x i) → 0 < E) := by
  intro R h
  obtain ⟨x, E, r, h1, -, h3, -, h5, -⟩ := C54_cm e g mo hmo method guess adj ma ga p h
  refine ⟨x, E, h1, h3, fun h0 => ?_⟩
  have hx : ∀ i, 0 ≤ x i := hmo.elim h0 (cm_class e g mo hmo method guess adj ma ga p h x h1).2
  obtain ⟨i, hi, m, hm, him⟩ := hne
  by_contra hE
  have hdeg : ∀ i, degUBCM x i = d.dseq i := fun i => by
    have := abs_nonneg (degUBCM x i - d.dseq i)
    have h := h5.1 i
    dsimp only at h
    exact sub_eq_zero.1 (abs_eq_zero.1 (by linarith))
  have hrow : ∀ i, ∑ m ∈ univ.filter (· ≠ i), (if A i m = true then (1 : ℝ) else 0) = d.dseq i := fun i => by
    rw [hk, card_filter, sum_filter]
    push_cast
    refine sum_congr rfl fun m _ => ?_
    by_cases hm : m = i
    · subst hm; simp [hA0]
    · simp [hm]
  have := face (p := linkUBCM x) (a := fun i j => if A i j = true then 1 else 0) (fun i j _ => ⟨div_nonneg (mul_nonneg (hx _) (hx _)) (by have := mul_nonneg (hx i) (hx j); linarith),
    frac_lt_one (mul_nonneg (hx _) (hx _))⟩) S T (fun i hi m hm him => by simp [hS i hi m hm him]) (fun j hj m hm _ => by rw [hA, hT j hj m hm]; simp) hi hm him
  have c : ∀ j, ∑ m ∈ univ.filter (· ≠ j), linkUBCM x m j = degUBCM x j := fun j => sum_congr rfl fun m _ => by unfold linkUBCM; rw [mul_comm]
  have c' : ∀ j, ∑ m ∈ univ.filter (· ≠ j), (if A m j = true then (1 : ℝ) else 0) = d.dseq j := fun j => by rw [← hrow]; exact sum_congr rfl fun m _ => by rw [hA]
  rw [sum_congr rfl fun i _ => hrow i, sum_congr rfl fun i _ => c' i, sum_congr rfl fun j _ => c j] at this
  have c3 : ∀ i, ∑ m ∈ univ.filter (· ≠ i), linkUBCM x i m = d.dseq i := hdeg
  rw [sum_congr rfl fun i _ => c3 i, sum_congr rfl fun j _ => hdeg j] at this
  exact lt_irrefl _ this

/-- the hypotheses of `C60_cm_core` are met by the path 2 – 0 – 1 – 3, with the core {0, 1}, where no node is linked to all the others -/
example : let A : Fin 4 → Fin 4 → Bool := fun i j => decide ((i, j) ∈ [((0 : Fin 4), (1 : Fin 4)), (1, 0), (0, 2), (2, 0), (1, 3), (3, 1)])
    let S : Finset (Fin 4) := {0, 1}
    let T : Finset (Fin 4) := {2, 3}
    (∀ i, A i i = false) ∧ (∀ i j, A i j = A j i) ∧ (∀ i, (![2, 2, 1, 1] : Fin 4 → ℕ) i = (univ.filter fun j => A i j = true).card) ∧
      (∀ i ∈ S, ∀ m, m ∉ T → m ≠ i → A i m = true) ∧ (∀ j ∈ T, ∀ m, m ∉ S → A j m = false) ∧ ∃ i ∈ S, ∃ m, m ∉ T ∧ m ≠ i := by decide

/-- the hypotheses of `C59_cm` and of `C60_cm` are met: the path on three nodes, degrees 1, 2, 1, where the error is 1/3 (the middle node is linked to all the others) -/
example : let d : UData 3 := ⟨![1, 2, 1], fun _ => 1⟩
    let R := solve_tool e ({} : UAttr d) "cm" "newton" (.nodes ![1 / 2, 10, 1 / 2]) .other "" .other { max_steps := 0 }
    R.exc = none ∧ R.g.x = some ![1 / 2, 10, 1 / 2] ∧ (∃ E, R.g.error_degree = some E ∧ E < 1 / 2) ∧ d.dseq 0 < d.dseq 1 ∧ d.dseq 1 = 3 - 1 := by
  intro d R
  have hR := solve_tool_cm e ({} : UAttr d) .newton (.nodes ![1 / 2, 10, 1 / 2]) .other "" .other { max_steps := 0 } (x0 := _) rfl
  simp only [solver_no_step _ (({ max_steps := 0 } : Params).opts Method.newton.name) _ rfl] at hR
  have hx : R.g.x = some ![1 / 2, 10, 1 / 2] := by
    obtain ⟨x, h1, h2⟩ := C53_cm_start e ({} : UAttr d) .newton .other "" .other { max_steps := 0 } rfl ![1 / 2, 10, 1 / 2]
    refine h1.trans (congrArg some ?_)
    funext i
    fin_cases i
    · exact (h2 0 0 (by unfold FirstLike; decide)).trans (by simp [d])
    · exact (h2 1 1 (by unfold FirstLike; decide)).trans (by simp [d])
    · exact (h2 2 0 (by unfold FirstLike; decide)).trans (by simp [d])
  have hexc : R.exc = none := (congrArg UResult.exc hR).trans (by simp [solutionError, degreeError, strengthError, setSolvedCM])
  refine ⟨hexc, hx, ?_, by decide, by decide⟩
  obtain ⟨x, E, r, h1, -, h3, -, ⟨-, i, h5⟩, -⟩ := C54_cm e ({} : UAttr d) .cm (.inl rfl) "newton" (.nodes ![1 / 2, 10, 1 / 2]) .other "" .other { max_steps := 0 } hexc
  obtain rfl := Option.some.inj (h1.symm.trans hx)
  refine ⟨E, h3, ?_⟩
  rw [← h5]
  fin_cases i <;> simp [degUBCM, linkUBCM, Finset.sum_filter, Fin.sum_univ_three, d] <;> norm_num [abs_lt]

/-- the hypotheses of `C59_ecm` are met: the same path, with strengths 7/5, 32/15, 7/5, which are fitted exactly, while the error of the degrees is 2/5 -/
example : let d : UData 3 := ⟨![1, 2, 1], ![7 / 5, 32 / 15, 7 / 5]⟩
    let R := solve_tool e ({} : UAttr d) "ecm" "newton" (.pairs fun v => if v.1 = 0 then ![1, 12, 1] v.2 else 1 / 2) .other "" .other { max_steps := 0 }
    (∀ i, d.dseq i ≠ 0) ∧ (∀ i, d.strength_sequence i ≠ 0) ∧ R.exc = none ∧ R.g.x = some ![1, 12, 1] ∧ R.g.y = some (fun _ => 1 / 2) ∧
      (∃ E, R.g.error_degree = some E ∧ (d.dseq 0 : ℝ) + 2 * E < d.dseq 1) ∧
      (∃ E', R.g.error_strength = some E' ∧ d.strength_sequence 0 + 2 * E' < d.strength_sequence 1) := by
  intro d R
  have hd : ∀ i, d.dseq i ≠ 0 := by decide
  have hst : ∀ i, d.strength_sequence i ≠ 0 := fun i => by fin_cases i <;> simp [d]
  have hR := solve_tool_ecm e ({} : UAttr d) .newton (.pairs fun v => if v.1 = 0 then ![1, 12, 1] v.2 else 1 / 2) .other "" .other { max_steps := 0 } (x := _) (y := _) (guess' := _) rfl
  simp only [solver_no_step _ (({ max_steps := 0 } : Params).opts Method.newton.name) _ rfl] at hR
  obtain ⟨x, y, h1, h2, h3⟩ := C53_ecm_start e ({} : UAttr d) .newton .other "" .other { max_steps := 0 } rfl (fun v => if v.1 = 0 then ![1, 12, 1] v.2 else 1 / 2)
  have ex : x = ![1, 12, 1] := funext fun i => (h3 i).1.trans (by rw [if_neg (hd i)]; simp)
  have ey : y = fun _ => 1 / 2 := funext fun i => (h3 i).2.trans (by rw [if_neg (hst i)]; simp)
  subst ex ey
  have hexc : R.exc = none := (congrArg UResult.exc hR).trans (by simp [solutionError, degreeError, strengthError, setSolvedECM])
  obtain ⟨x, y, E, r, E', r', k1, k2, -, -, k5, -, k7, -, k9⟩ := C54_ecm e ({} : UAttr d) .ecm (.inl rfl) "newton" _ .other "" .other { max_steps := 0 } hexc
  obtain rfl := Option.some.inj (k1.symm.trans h1)
  obtain rfl := Option.some.inj (k2.symm.trans h2)
  obtain ⟨⟨⟨-, i, a⟩, -⟩, ⟨⟨-, j, b⟩, -⟩⟩ := k9 hd hst
  have hE : E = 2 / 5 ∨ E = 1 / 20 := by
    rw [← a]
    fin_cases i <;> simp [degUECM, Finset.sum_filter, Fin.sum_univ_three, d] <;> norm_num [abs_of_nonneg, abs_of_nonpos]
  have hE' : E' = 0 := by
    rw [← b]
    fin_cases j <;> simp [strUECM, Finset.sum_filter, Fin.sum_univ_three, d] <;> norm_num
  refine ⟨hd, hst, hexc, h1, h2, ⟨E, k5, ?_⟩, ⟨E', k7, ?_⟩⟩
  · rcases hE with rfl | rfl <;> simp [d] <;> norm_num
  · subst hE'; simp [d]; norm_num

end undirected

section directed

variable [NeZero n] {d : DData n} (e : Env)

theorem inv_eq_of_degs {i j : Fin n} (h : d.dseq_out i = d.dseq_out j) (h' : d.dseq_in i = d.dseq_in j) : d.inv i = d.inv j := by
  refine (r_dseq_strictMono d.seq).injective ?_
  show r_dseq d.seq (r_invert_dseq d.seq i) = r_dseq d.seq (r_invert_dseq d.seq j)
  rw [r_dseq_invert, r_dseq_invert]
  unfold DData.seq
  simp [h, h']

theorem dcm_class (g : DAttr d) (mo : DModel) (hmo : mo = .dcm ∨ mo = .dcm_exp) (method : String) (guess : DGuess n) (adj : AdjSpec n) (ma : String) (ga : DGuess n) (p : Params) :
    let R := solve_tool_directed e g mo.name method guess adj ma ga p
    R.exc = none → ∀ x y, R.g.x = some x → R.g.y = some y → (∀ i j, d.dseq_out i = d.dseq_out j → d.dseq_in i = d.dseq_in j → x i = x j ∧ y i = y j) ∧
      (mo = .dcm_exp → ∀ i, 0 ≤ x i ∧ 0 ≤ y i) := by
  intro R h x y hx hy
  rcases hmo with rfl | rfl
  · obtain ⟨me, x0, s, -, -, -, hG, -⟩ := solve_tool_ok_dcm e g method guess adj ma ga p h
    obtain rfl := Option.some.inj (((congrArg (fun r => r.g.x) hG).trans (keepsD DAttr.x (fun _ => rfl) _)).symm.trans hx)
    obtain rfl := Option.some.inj (((congrArg (fun r => r.g.y) hG).trans (keepsD DAttr.y (fun _ => rfl) _)).symm.trans hy)
    exact ⟨fun i j hij hij' => by simp [inv_eq_of_degs hij hij'], by simp⟩
  · obtain ⟨me, x0, s, -, -, -, hG, -⟩ := solve_tool_ok_dcm_exp e g method guess adj ma ga p h
    obtain rfl := Option.some.inj (((congrArg (fun r => r.g.x) hG).trans (keepsD DAttr.x (fun _ => rfl) _)).symm.trans hx)
    obtain rfl := Option.some.inj (((congrArg (fun r => r.g.y) hG).trans (keepsD DAttr.y (fun _ => rfl) _)).symm.trans hy)
    exact ⟨fun i j hij hij' => by simp [inv_eq_of_degs hij hij'], fun _ i => by simp [Real.exp_nonneg]⟩

/-- C59 (dcm, dcm_exp): if the reported error is below one half, a node with larger out- and larger in-degree has larger parameters `x` and `y`, and nodes with equal out- and
in-degrees have equal parameters.  (The two degrees together: with a larger out-degree alone, `x` is larger or `y` is smaller.) -/
theorem C59_dcm (g : DAttr d) (mo : DModel) (hmo : mo = .dcm ∨ mo = .dcm_exp) (method : String) (guess : DGuess n) (adj : AdjSpec n) (ma : String) (ga : DGuess n) (p : Params) :
    let R := solve_tool_directed e g mo.name method guess adj ma ga p
    R.exc = none → ∃ x y E, R.g.x = some x ∧ R.g.y = some y ∧ R.g.error_degree = some E ∧ ((mo = .dcm → ∀ i, 0 ≤ x i ∧ 0 ≤ y i) → E < 1 / 2 → ∀ i j,
      (d.dseq_out i < d.dseq_out j → d.dseq_in i < d.dseq_in j → x i < x j ∧ y i < y j) ∧
      (d.dseq_out i < d.dseq_out j → x i < x j ∨ y j < y i) ∧ (d.dseq_in i < d.dseq_in j → y i < y j ∨ x j < x i) ∧
      (d.dseq_out i = d.dseq_out j → d.dseq_in i = d.dseq_in j → x i = x j ∧ y i = y j)) := by
  intro R h
  have hinv := dcm_class e g mo hmo method guess adj ma ga p h
  obtain ⟨x, y, E, r, h1, h2, -, h3, -, h5, -⟩ := C54_dcm e g mo hmo method guess adj ma ga p h
  refine ⟨x, y, E, h1, h2, h3, fun h0 hE i j => ?_⟩
  have hxy : ∀ i, 0 ≤ x i ∧ 0 ≤ y i := by rcases hmo with hm | hm; exacts [h0 hm, (hinv x y h1 h2).2 hm]
  have hx := fun i => (hxy i).1
  have hy := fun i => (hxy i).2
  have o : ∀ i j, d.dseq_out i < d.dseq_out j → outDBCM x y i < outDBCM x y j := fun i j hij => by
    have h6 : (d.dseq_out i : ℝ) + 1 ≤ d.dseq_out j := by exact_mod_cast hij
    have a := h5.1 (0, i); have b := h5.1 (0, j)
    simp only [outIn, if_true] at a b
    exact near a b (by linarith)
  have ii : ∀ i j, d.dseq_in i < d.dseq_in j → inDBCM x y i < inDBCM x y j := fun i j hij => by
    have h6 : (d.dseq_in i : ℝ) + 1 ≤ d.dseq_in j := by exact_mod_cast hij
    have a := h5.1 (1, i); have b := h5.1 (1, j)
    simp only [outIn, one_ne_zero, if_false] at a b
    exact near a b (by linarith)
  have c1 : d.dseq_out i < d.dseq_out j → x i < x j ∨ y j < y i := fun ho => by
    by_contra hc
    rw [not_or, not_lt, not_lt] at hc
    exact absurd (o i j ho) (not_lt.2 (outDBCM_mono hx hy hc.1 hc.2))
  have c2 : d.dseq_in i < d.dseq_in j → y i < y j ∨ x j < x i := fun hi => by
    by_contra hc
    rw [not_or, not_lt, not_lt] at hc
    exact absurd (ii i j hi) (not_lt.2 (inDBCM_mono hx hy hc.1 hc.2))
  refine ⟨fun ho hi => ?_, c1, c2, (hinv x y h1 h2).1 i j⟩
  have t : ¬(x j ≤ x i ∧ y j ≤ y i) := fun hc => by
    have := totalDBCM_mono hx hy hc.1 hc.2
    linarith [o i j ho, ii i j hi]
  rcases c1 ho with a | a <;> rcases c2 hi with b | b
  · exact ⟨a, b⟩
  · exact absurd (a.trans b) (lt_irrefl _)
  · exact absurd (a.trans b) (lt_irrefl _)
  · exact absurd ⟨b.le, a.le⟩ t

/-- C60 (dcm, dcm_exp): if some node has an arc to (or from) every other node, no call of `solve_tool` reports a zero error. -/
theorem C60_dcm (hn : 2 ≤ n) (g : DAttr d) (mo : DModel) (hmo : mo = .dcm ∨ mo = .dcm_exp) (method : String) (guess : DGuess n) (adj : AdjSpec n) (ma : String)
    (ga : DGuess n) (p : Params) (i : Fin n) (hi : d.dseq_out i = n - 1 ∨ d.dseq_in i = n - 1) :
    let R := solve_tool_directed e g mo.name method guess adj ma ga p
    R.exc = none → ∃ x y E, R.g.x = some x ∧ R.g.y = some y ∧ R.g.error_degree = some E ∧ ((mo = .dcm → ∀ i, 0 ≤ x i ∧ 0 ≤ y i) → 0 < E) := by
  intro R h
  obtain ⟨x, y, E, r, h1, h2, -, h3, -, h5, -⟩ := C54_dcm e g mo hmo method guess adj ma ga p h
  refine ⟨x, y, E, h1, h2, h3, fun h0 => ?_⟩
  have hx : ∀ i, 0 ≤ x i ∧ 0 ≤ y i := hmo.elim h0 (dcm_class e g mo hmo method guess adj ma ga p h x y h1 h2).2
  have q1 : outDBCM x y i < n - 1 := sum_lt_card hn fun m _ => frac_lt_one (mul_nonneg (hx _).1 (hx _).2)
  have q2 : inDBCM x y i < n - 1 := sum_lt_card hn fun m _ => frac_lt_one (mul_nonneg (hx _).1 (hx _).2)
  rcases hi with hi | hi
  · refine lt_of_lt_of_le (abs_pos.2 ?_) (h5.1 (0, i))
    simp only [outIn, if_true]
    rw [hi, Nat.cast_sub (by omega)]
    push_cast
    linarith
  · refine lt_of_lt_of_le (abs_pos.2 ?_) (h5.1 (1, i))
    simp only [outIn, one_ne_zero, if_false]
    rw [hi, Nat.cast_sub (by omega)]
    push_cast
    linarith

/-- C60 (dcm, dcm_exp), core and periphery: suppose the network `A` has a group `S` of nodes with arcs to every node outside a group `T`, while the nodes of `T` receive arcs
from `S` only.  Then no call of `solve_tool` reports a zero error. -/
theorem C60_dcm_core (A : Fin n → Fin n → Bool) (hA0 : ∀ i, A i i = false) (hko : ∀ i, d.dseq_out i = (univ.filter fun j => A i j = true).card)
    (hki : ∀ i, d.dseq_in i = (univ.filter fun j => A j i = true).card)
    (S T : Finset (Fin n)) (hS : ∀ i ∈ S, ∀ m, m ∉ T → m ≠ i → A i m = true) (hT : ∀ j ∈ T, ∀ m, m ∉ S → A m j = false) (hne : ∃ i ∈ S, ∃ m, m ∉ T ∧ m ≠ i)
    (g : DAttr d) (mo : DModel) (hmo : mo = .dcm ∨ mo = .dcm_exp) (method : String) (guess : DGuess n) (adj : AdjSpec n) (ma : String) (ga : DGuess n) (p : Params) :
    let R := solve_tool_directed e g mo.name method guess adj ma ga p
    R.exc = none → ∃ x y E, R.g.x = some x ∧ R.g.y = some y ∧ R.g.error_degree = some E ∧ ((mo = .dcm → ∀ i, 0 ≤ x i ∧ 0 ≤ y i) → 0 < E) := by
  intro R h
  obtain ⟨x, y, E, r, h1, h2, -, h3, -, h5, -⟩ := C54_dcm e g mo hmo method guess adj ma ga p h
  refine ⟨x, y, E, h1, h2, h3, fun h0 => ?_⟩
  have hx : ∀ i, 0 ≤ x i ∧ 0 ≤ y i := hmo.elim h0 (dcm_class e g mo hmo method guess adj ma ga p h x y h1 h2).2
  obtain ⟨i, hi, m, hm, him⟩ := hne
  by_contra hE
  have ho : ∀ i, outDBCM x y i = d.dseq_out i := fun i => by
    have h := h5.1 (0, i)
    simp only [outIn, if_true] at h
    have := abs_nonneg (outDBCM x y i - d.dseq_out i)
    exact sub_eq_zero.1 (abs_eq_zero.1 (by linarith))
  have hin : ∀ i, inDBCM x y i = d.dseq_in i := fun i => by
    have h := h5.1 (1, i)
    simp only [outIn, one_ne_zero, if_false] at h
    have := abs_nonneg (inDBCM x y i - d.dseq_in i)
    exact sub_eq_zero.1 (abs_eq_zero.1 (by linarith))
  have hrow : ∀ i, ∑ m ∈ univ.filter (· ≠ i), (if A i m = true then (1 : ℝ) else 0) = d.dseq_out i := fun i => by
    rw [hko, card_filter, sum_filter]
    push_cast
    refine sum_congr rfl fun m _ => ?_
    by_cases hm : m = i
    · subst hm; simp [hA0]
    · simp [hm]
  have hcol : ∀ i, ∑ m ∈ univ.filter (· ≠ i), (if A m i = true then (1 : ℝ) else 0) = d.dseq_in i := fun i => by
    rw [hki, card_filter, sum_filter]
    push_cast
    refine sum_congr rfl fun m _ => ?_
    by_cases hm : m = i
    · subst hm; simp [hA0]
    · simp [hm]
  have := face (p := linkDBCM x y) (a := fun i j => if A i j = true then 1 else 0) (fun i j _ => ⟨div_nonneg (mul_nonneg (hx _).1 (hx _).2) (by have := mul_nonneg (hx i).1 (hx j).2; linarith),
    frac_lt_one (mul_nonneg (hx _).1 (hx _).2)⟩) S T (fun i hi m hm him => by simp [hS i hi m hm him]) (fun j hj m hm _ => by simp [hT j hj m hm]) hi hm him
  have c3 : ∀ i, ∑ m ∈ univ.filter (· ≠ i), linkDBCM x y i m = d.dseq_out i := ho
  have c4 : ∀ i, ∑ m ∈ univ.filter (· ≠ i), linkDBCM x y m i = d.dseq_in i := hin
  rw [sum_congr rfl fun i _ => hrow i, sum_congr rfl fun i _ => hcol i, sum_congr rfl fun i _ => c3 i, sum_congr rfl fun j _ => c4 j] at this
  exact lt_irrefl _ this

/-- the hypotheses of `C60_dcm_core` are met by the arcs 0 → 1, 0 → 3, 2 → 0 with `S = {0}`, `T = {2, 3}` -/
example : let A : Fin 4 → Fin 4 → Bool := fun i j => decide ((i, j) ∈ [((0 : Fin 4), (1 : Fin 4)), (0, 3), (2, 0)])
    let S : Finset (Fin 4) := {0}
    let T : Finset (Fin 4) := {2, 3}
    (∀ i, A i i = false) ∧ (∀ i, (![2, 0, 1, 0] : Fin 4 → ℕ) i = (univ.filter fun j => A i j = true).card) ∧
      (∀ i, (![1, 1, 0, 1] : Fin 4 → ℕ) i = (univ.filter fun j => A j i = true).card) ∧
      (∀ i ∈ S, ∀ m, m ∉ T → m ≠ i → A i m = true) ∧ (∀ j ∈ T, ∀ m, m ∉ S → A m j = false) ∧ ∃ i ∈ S, ∃ m, m ∉ T ∧ m ≠ i := by decide

/-- the hypotheses of `C59_dcm` and of `C60_dcm` are met: the path on three nodes with every link in both directions, where the error is 1/3 -/
example : let d : DData 3 := ⟨![1, 2, 1], ![1, 2, 1], fun _ => 1, fun _ => 1, true⟩
    let R := solve_tool_directed e ({} : DAttr d) "dcm" "newton" (.pairs fun v => ![1 / 2, 10, 1 / 2] v.2) .other "" .other { max_steps := 0 }
    R.exc = none ∧ R.g.x = some ![1 / 2, 10, 1 / 2] ∧ R.g.y = some ![1 / 2, 10, 1 / 2] ∧ (∃ E, R.g.error_degree = some E ∧ E < 1 / 2) ∧
      d.dseq_out 0 < d.dseq_out 1 ∧ d.dseq_in 0 < d.dseq_in 1 ∧ d.dseq_out 1 = 3 - 1 := by
  intro d R
  have hR := solve_tool_dcm e ({} : DAttr d) .newton (.pairs fun v => ![1 / 2, 10, 1 / 2] v.2) .other "" .other { max_steps := 0 } (x0 := _) rfl
  simp only [solver_no_step _ (({ max_steps := 0 } : Params).opts Method.newton.name) _ rfl] at hR
  have hxy : R.g.x = some ![1 / 2, 10, 1 / 2] ∧ R.g.y = some ![1 / 2, 10, 1 / 2] := by
    obtain ⟨x, y, h1, h2, h3⟩ := C53_dcm_start e ({} : DAttr d) .newton .other "" .other { max_steps := 0 } rfl fun v => ![1 / 2, 10, 1 / 2] v.2
    have k0 := h3 0 0 (by unfold FirstLike; decide)
    have k1 := h3 1 1 (by unfold FirstLike; decide)
    have k2 := h3 2 0 (by unfold FirstLike; decide)
    refine ⟨h1.trans (congrArg some ?_), h2.trans (congrArg some ?_)⟩
    · funext i; fin_cases i
      exacts [k0.1.trans (by simp [d]), k1.1.trans (by simp [d]), k2.1.trans (by simp [d])]
    · funext i; fin_cases i
      exacts [k0.2.trans (by simp [d]), k1.2.trans (by simp [d]), k2.2.trans (by simp [d])]
  have hexc : R.exc = none := (congrArg DResult.exc hR).trans (by simp [solutionErrorD, degreeErrorD, strengthErrorD, setSolvedDCM, preDCM, DModel.name])
  refine ⟨hexc, hxy.1, hxy.2, ?_, by decide, by decide, by decide⟩
  obtain ⟨x, y, E, r, h1, h2, -, h3, -, ⟨-, i, h5⟩, -⟩ := C54_dcm e ({} : DAttr d) .dcm (.inl rfl) "newton" (.pairs fun v => ![1 / 2, 10, 1 / 2] v.2) .other "" .other { max_steps := 0 } hexc
  obtain rfl := Option.some.inj (h1.symm.trans hxy.1)
  obtain rfl := Option.some.inj (h2.symm.trans hxy.2)
  refine ⟨E, h3, ?_⟩
  rw [← h5]
  obtain ⟨b, i⟩ := i
  fin_cases b <;> fin_cases i <;> simp [outIn, outDBCM, inDBCM, linkDBCM, Finset.sum_filter, Fin.sum_univ_three, d] <;> norm_num [abs_lt]

end directed

end

end Verif.Solve
