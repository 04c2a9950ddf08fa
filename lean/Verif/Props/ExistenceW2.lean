import Verif.Props.ExistenceW
import Verif.Props.Guess2
import Verif.Props.Reports

/-! C71, continued: networks that can be rewired, networks without an exact solution, and what `solve_tool` does on either. -/

namespace Verif.Solve

open Verif Finset Spec Existence

variable {n : ℕ}

/-- a family of networks, one of which has a link and one of which has not, averages strictly between; a weight above one lifts the mean weight above the mean link -/
theorem avg_weight {α : Type} [Fintype α] (w : α → ℕ) (h2 : ∃ a, 2 ≤ w a) (h0 : ∃ a, w a = 0) :
    0 < (∑ a, if w a ≠ 0 then (1 : ℝ) else 0) / Fintype.card α ∧ (∑ a, if w a ≠ 0 then (1 : ℝ) else 0) / Fintype.card α < 1 ∧
      (∑ a, if w a ≠ 0 then (1 : ℝ) else 0) / Fintype.card α < (∑ a, (w a : ℝ)) / Fintype.card α := by
  obtain ⟨a, ha⟩ := h2
  obtain ⟨b, hb⟩ := h0
  have h := avg_between (univ : Finset α) (fun a => decide (w a ≠ 0)) ⟨a, mem_univ _, by simp; omega⟩ ⟨b, mem_univ _, by simp [hb]⟩
  simp only [decide_eq_true_eq, card_univ] at h
  refine ⟨h.1, h.2, ?_⟩
  have hc : (0 : ℝ) < Fintype.card α := by exact_mod_cast Fintype.card_pos_iff.2 ⟨a⟩
  refine div_lt_div_of_pos_right (sum_lt_sum (fun x _ => ?_) ⟨a, mem_univ _, ?_⟩) hc
  · split_ifs with hx
    · exact_mod_cast Nat.one_le_iff_ne_zero.2 hx
    · positivity
  · have : (2 : ℝ) ≤ w a := by exact_mod_cast ha
    rw [if_pos (by omega)]
    linarith

theorem row_cardW (W : Fin n → Fin n → ℕ) (i : Fin n) (h : W i i = 0) :
    ∑ j ∈ univ.filter (· ≠ i), (if W i j ≠ 0 then (1 : ℝ) else 0) = ((univ.filter fun j => W i j ≠ 0).card : ℝ) := by
  have := row_card (fun i j => decide (W i j ≠ 0)) i (by simp [h])
  simpa using this

theorem row_sumW (W : Fin n → Fin n → ℕ) (i : Fin n) (h : W i i = 0) : ∑ j ∈ univ.filter (· ≠ i), (W i j : ℝ) = ((∑ j, W i j : ℕ) : ℝ) := by
  rw [Nat.cast_sum, sum_filter]
  refine sum_congr rfl fun j _ => ?_
  by_cases hj : j = i
  · subst hj; simp [h]
  · simp [hj]

theorem row_zeroW {W : Fin n → Fin n → ℕ} {i : Fin n} (h : (univ.filter fun j => W i j ≠ 0).card = 0) (j : Fin n) : W i j = 0 := by
  rw [card_eq_zero, filter_eq_empty_iff] at h
  simpa using h (mem_univ j)

theorem looseW_of_switchableW {k s : Fin n → ℕ} (hex : ∃ W, RealisesW k s W) (h : SwitchableW k s) : LooseW (fun i => (k i : ℝ)) fun i => (s i : ℝ) := by
  classical
  obtain ⟨W₀, hW₀⟩ := hex
  have hch : ∀ a : Fin n × Fin n × Bool, ∃ W, RealisesW k s W ∧ (a.1 ≠ a.2.1 → k a.1 ≠ 0 → k a.2.1 ≠ 0 → if a.2.2 = true then 2 ≤ W a.1 a.2.1 else W a.1 a.2.1 = 0) := by
    rintro ⟨i, j, b⟩
    by_cases hc : i ≠ j ∧ k i ≠ 0 ∧ k j ≠ 0
    · obtain ⟨⟨W, h1, h2⟩, W', h3, h4⟩ := h i j hc.1 hc.2.1 hc.2.2
      cases b
      · exact ⟨W', h3, fun _ _ _ => by simpa using h4⟩
      · exact ⟨W, h1, fun _ _ _ => by simpa using h2⟩
    · exact ⟨W₀, hW₀, fun a b c => absurd ⟨a, b, c⟩ hc⟩
  choose F hF hF2 using hch
  set G : Option (Fin n × Fin n × Bool) → Fin n → Fin n → ℕ := fun a => a.elim W₀ F with hG
  have hR : ∀ a, RealisesW k s (G a) := fun a => by cases a with
    | none => exact hW₀
    | some a => exact hF a
  have hc : (Fintype.card (Option (Fin n × Fin n × Bool)) : ℝ) ≠ 0 := by exact_mod_cast Fintype.card_ne_zero
  have hz : ∀ a i j, k i = 0 ∨ k j = 0 → G a i j = 0 := fun a i j hij => by
    rcases hij with hi | hj
    · exact row_zeroW ((hR a).deg i |>.trans hi) j
    · rw [(hR a).symm]; exact row_zeroW ((hR a).deg j |>.trans hj) i
  refine ⟨fun i j => (∑ a, if G a i j ≠ 0 then (1 : ℝ) else 0) / Fintype.card (Option (Fin n × Fin n × Bool)),
    fun i j => (∑ a, (G a i j : ℝ)) / Fintype.card (Option (Fin n × Fin n × Bool)), fun i j => ?_, fun i j hij hi hj => ?_, fun i j hij => ?_, fun i => ?_, fun i => ?_⟩
  · have : ∀ a, G a i j = G a j i := fun a => (hR a).symm i j
    simp only [this, and_self]
  · have hi' := Nat.cast_ne_zero.1 hi
    have hj' := Nat.cast_ne_zero.1 hj
    exact avg_weight (fun a => G a i j) ⟨some (i, j, true), by simpa [hG] using hF2 (i, j, true) hij hi' hj'⟩ ⟨some (i, j, false), by simpa [hG] using hF2 (i, j, false) hij hi' hj'⟩
  · have hij' : k i = 0 ∨ k j = 0 := hij.imp Nat.cast_eq_zero.1 Nat.cast_eq_zero.1
    simp [fun a => hz a i j hij']
  · rw [← sum_div, sum_comm, div_eq_iff hc, sum_congr rfl fun a _ => (row_cardW (G a) i ((hR a).noself i)).trans (by rw [(hR a).deg i])]
    rw [sum_const, nsmul_eq_mul, mul_comm, card_univ]
  · rw [← sum_div, sum_comm, div_eq_iff hc, sum_congr rfl fun a _ => (row_sumW (G a) i ((hR a).noself i)).trans (by rw [(hR a).str i])]
    rw [sum_const, nsmul_eq_mul, mul_comm, card_univ]

theorem looseWD_of_switchableWD {ko ki so si : Fin n → ℕ} (hex : ∃ W, RealisesWD ko ki so si W) (h : SwitchableWD ko ki so si) :
    LooseWD (fun i => (ko i : ℝ)) (fun i => (ki i : ℝ)) (fun i => (so i : ℝ)) fun i => (si i : ℝ) := by
  classical
  obtain ⟨W₀, hW₀⟩ := hex
  have hch : ∀ a : Fin n × Fin n × Bool, ∃ W, RealisesWD ko ki so si W ∧
      (a.1 ≠ a.2.1 → ko a.1 ≠ 0 → ki a.2.1 ≠ 0 → if a.2.2 = true then 2 ≤ W a.1 a.2.1 else W a.1 a.2.1 = 0) := by
    rintro ⟨i, j, b⟩
    by_cases hc : i ≠ j ∧ ko i ≠ 0 ∧ ki j ≠ 0
    · obtain ⟨⟨W, h1, h2⟩, W', h3, h4⟩ := h i j hc.1 hc.2.1 hc.2.2
      cases b
      · exact ⟨W', h3, fun _ _ _ => by simpa using h4⟩
      · exact ⟨W, h1, fun _ _ _ => by simpa using h2⟩
    · exact ⟨W₀, hW₀, fun a b c => absurd ⟨a, b, c⟩ hc⟩
  choose F hF hF2 using hch
  set G : Option (Fin n × Fin n × Bool) → Fin n → Fin n → ℕ := fun a => a.elim W₀ F with hG
  have hR : ∀ a, RealisesWD ko ki so si (G a) := fun a => by cases a with
    | none => exact hW₀
    | some a => exact hF a
  have hc : (Fintype.card (Option (Fin n × Fin n × Bool)) : ℝ) ≠ 0 := by exact_mod_cast Fintype.card_ne_zero
  have hz : ∀ a i j, ko i = 0 ∨ ki j = 0 → G a i j = 0 := fun a i j hij => by
    rcases hij with hi | hj
    · exact row_zeroW ((hR a).out_deg i |>.trans hi) j
    · exact row_zeroW (W := fun i j => G a j i) ((hR a).in_deg j |>.trans hj) i
  refine ⟨fun i j => (∑ a, if G a i j ≠ 0 then (1 : ℝ) else 0) / Fintype.card (Option (Fin n × Fin n × Bool)),
    fun i j => (∑ a, (G a i j : ℝ)) / Fintype.card (Option (Fin n × Fin n × Bool)), fun i j hij hi hj => ?_, fun i j hij => ?_, fun i => ?_, fun i => ?_, fun i => ?_, fun i => ?_⟩
  · have hi' := Nat.cast_ne_zero.1 hi
    have hj' := Nat.cast_ne_zero.1 hj
    exact avg_weight (fun a => G a i j) ⟨some (i, j, true), by simpa [hG] using hF2 (i, j, true) hij hi' hj'⟩ ⟨some (i, j, false), by simpa [hG] using hF2 (i, j, false) hij hi' hj'⟩
  · have hij' : ko i = 0 ∨ ki j = 0 := hij.imp Nat.cast_eq_zero.1 Nat.cast_eq_zero.1
    simp [fun a => hz a i j hij']
  · rw [← sum_div, sum_comm, div_eq_iff hc, sum_congr rfl fun a _ => (row_cardW (G a) i ((hR a).noself i)).trans (by rw [(hR a).out_deg i])]
    rw [sum_const, nsmul_eq_mul, mul_comm, card_univ]
  · rw [← sum_div, sum_comm, div_eq_iff hc, sum_congr rfl fun a _ => (row_cardW (fun i j => G a j i) i ((hR a).noself i)).trans (by rw [(hR a).in_deg i])]
    rw [sum_const, nsmul_eq_mul, mul_comm, card_univ]
  · rw [← sum_div, sum_comm, div_eq_iff hc, sum_congr rfl fun a _ => (row_sumW (G a) i ((hR a).noself i)).trans (by rw [(hR a).out_str i])]
    rw [sum_const, nsmul_eq_mul, mul_comm, card_univ]
  · rw [← sum_div, sum_comm, div_eq_iff hc, sum_congr rfl fun a _ => (row_sumW (fun i j => G a j i) i ((hR a).noself i)).trans (by rw [(hR a).in_str i])]
    rw [sum_const, nsmul_eq_mul, mul_comm, card_univ]

/-- C71: if every two nodes of non-zero degree can be linked with weight two or more, and can be not linked, without changing the degrees and the strengths, then the undirected
enhanced model has an exact solution. -/
theorem C71_uecm_switchable {k s : Fin n → ℕ} (hex : ∃ W, RealisesW k s W) (h : SwitchableW k s) : ∃ x y, SolvesUECM (fun i => (k i : ℝ)) (fun i => (s i : ℝ)) x y :=
  (C71_uecm_iff _ _ nat_zero_or).2 (looseW_of_switchableW hex h)

/-- C71: the same for directed networks. -/
theorem C71_decm_switchable {ko ki so si : Fin n → ℕ} (hex : ∃ W, RealisesWD ko ki so si W) (h : SwitchableWD ko ki so si) :
    ∃ x y bo bi, SolvesDECM (fun i => (ko i : ℝ)) (fun i => (ki i : ℝ)) (fun i => (so i : ℝ)) (fun i => (si i : ℝ)) x y bo bi :=
  (C71_decm_iff _ _ _ _ nat_zero_or nat_zero_or).2 (looseWD_of_switchableWD hex h)

theorem sum_lt_cardW {T : Finset (Fin n)} (hne : T.Nonempty) (a : Fin n → ℝ) (h : ∀ j ∈ T, a j < 1) : ∑ j ∈ T, a j < T.card := by
  have := sum_lt_sum_of_nonempty hne h
  simpa using this

/-- C71 (UECM): a node whose links all have weight one (strength not above degree) rules out an exact solution, and so does a node linked to every other node of non-zero degree. -/
theorem C71_uecm_none (k s : Fin n → ℝ) (hk : ∀ i, k i ≠ 0 → 1 ≤ k i) (i : Fin n) (hi : k i ≠ 0) (h : s i ≤ k i ∨ ((univ.filter fun j => j ≠ i ∧ k j ≠ 0).card : ℝ) ≤ k i) :
    ¬ ∃ x y, SolvesUECM k s x y := by
  rw [C71_uecm_iff k s hk]
  rintro ⟨P, W, -, hb, hz, hdeg, hstr⟩
  have hP : ∑ j ∈ univ.filter (fun j => j ≠ i ∧ k j ≠ 0), P i j = k i := by
    rw [← hdeg i, sum_filter, sum_filter]
    refine sum_congr rfl fun j _ => ?_
    by_cases hj : k j = 0
    · simp [hj, (hz i j (.inr hj)).1]
    · simp [hj]
  have hW : ∑ j ∈ univ.filter (fun j => j ≠ i ∧ k j ≠ 0), W i j = s i := by
    rw [← hstr i, sum_filter, sum_filter]
    refine sum_congr rfl fun j _ => ?_
    by_cases hj : k j = 0
    · simp [hj, (hz i j (.inr hj)).2]
    · simp [hj]
  have hne : (univ.filter fun j => j ≠ i ∧ k j ≠ 0).Nonempty := by
    by_contra hne
    rw [not_nonempty_iff_eq_empty.1 hne, sum_empty] at hP
    exact hi hP.symm
  have hb' : ∀ j ∈ univ.filter (fun j => j ≠ i ∧ k j ≠ 0), 0 < P i j ∧ P i j < 1 ∧ P i j < W i j := fun j hj => by
    simp only [mem_filter, mem_univ, true_and] at hj
    exact hb i j (Ne.symm hj.1) hi hj.2
  rcases h with h | h
  · have := sum_lt_sum_of_nonempty hne fun j hj => (hb' j hj).2.2
    rw [hP, hW] at this
    linarith
  · have := sum_lt_cardW hne (P i) fun j hj => (hb' j hj).2.1
    rw [hP] at this
    linarith

/-- C71 (DECM): the same for the out-links of a node; for its in-links, exchange the roles of "out" and "in". -/
theorem C71_decm_none (ko ki so si : Fin n → ℝ) (hko : ∀ i, ko i ≠ 0 → 1 ≤ ko i) (hki : ∀ i, ki i ≠ 0 → 1 ≤ ki i) (i : Fin n)
    (h : (ko i ≠ 0 ∧ (so i ≤ ko i ∨ ((univ.filter fun j => j ≠ i ∧ ki j ≠ 0).card : ℝ) ≤ ko i)) ∨
      (ki i ≠ 0 ∧ (si i ≤ ki i ∨ ((univ.filter fun j => j ≠ i ∧ ko j ≠ 0).card : ℝ) ≤ ki i))) :
    ¬ ∃ x y bo bi, SolvesDECM ko ki so si x y bo bi := by
  rw [C71_decm_iff ko ki so si hko hki]
  rintro ⟨P, W, hb, hz, hod, hid, hos, his⟩
  have key : ∀ (c : Fin n → ℝ) (p w : Fin n → ℝ) (a b : ℝ), a ≠ 0 → (∀ j, j ≠ i → c j ≠ 0 → p j < 1 ∧ p j < w j) → (∀ j, c j = 0 → p j = 0 ∧ w j = 0) →
      ∑ j ∈ univ.filter (· ≠ i), p j = a → ∑ j ∈ univ.filter (· ≠ i), w j = b → (b ≤ a ∨ ((univ.filter fun j => j ≠ i ∧ c j ≠ 0).card : ℝ) ≤ a) → False := by
    intro c p w a b ha hb hz hp hw h
    have hP : ∑ j ∈ univ.filter (fun j => j ≠ i ∧ c j ≠ 0), p j = a := by
      rw [← hp, sum_filter, sum_filter]
      refine sum_congr rfl fun j _ => ?_
      by_cases hj : c j = 0
      · simp [hj, (hz j hj).1]
      · simp [hj]
    have hW : ∑ j ∈ univ.filter (fun j => j ≠ i ∧ c j ≠ 0), w j = b := by
      rw [← hw, sum_filter, sum_filter]
      refine sum_congr rfl fun j _ => ?_
      by_cases hj : c j = 0
      · simp [hj, (hz j hj).2]
      · simp [hj]
    have hne : (univ.filter fun j => j ≠ i ∧ c j ≠ 0).Nonempty := by
      by_contra hne
      rw [not_nonempty_iff_eq_empty.1 hne, sum_empty] at hP
      exact ha hP.symm
    have hb' : ∀ j ∈ univ.filter (fun j => j ≠ i ∧ c j ≠ 0), p j < 1 ∧ p j < w j := fun j hj => by
      simp only [mem_filter, mem_univ, true_and] at hj
      exact hb j hj.1 hj.2
    rcases h with h | h
    · have := sum_lt_sum_of_nonempty hne fun j hj => (hb' j hj).2
      rw [hP, hW] at this
      linarith
    · have := sum_lt_cardW hne p fun j hj => (hb' j hj).1
      rw [hP] at this
      linarith
  rcases h with ⟨h0, h⟩ | ⟨h0, h⟩
  · exact key ki (P i) (W i) _ _ h0 (fun j hj hc => (hb i j (Ne.symm hj) h0 hc).2) (fun j hj => hz i j (.inr hj)) (hod i) (hos i) h
  · exact key ko (fun j => P j i) (fun j => W j i) _ _ h0 (fun j hj hc => (hb j i hj hc h0).2) (fun j hj => hz j i (.inl hj)) (hid i) (his i) h

/-- the largest absolute value of a vanishing vector is zero, and conversely -/
theorem isMaxAbs_zero {ι : Type} {f : ι → ℝ} {E : ℝ} (h : IsMaxAbs E f) : E = 0 ↔ ∀ i, f i = 0 := by
  constructor
  · rintro rfl i
    have := h.1 i
    exact abs_eq_zero.1 (le_antisymm this (abs_nonneg _))
  · intro h0
    obtain ⟨i, hi⟩ := h.2
    rw [h0 i, abs_zero] at hi
    exact hi.symm

/-- C71 ("ecm"): on a network whose degrees and strengths are loose there are admissible parameters which every method, with whatever options, adjacency or earlier results,
returns unchanged when they are given as the initial guess, reporting errors that are exactly zero. -/
theorem C71_ecm_exact [NeZero n] (h2 : 2 ≤ n) (d : UData n) (h0 : ∀ i, d.dseq i ≠ 0) (h : LooseW (fun i => (d.dseq i : ℝ)) d.strength_sequence) :
    ∃ v : Fin 2 × Fin n → ℝ, AdmECM v ∧ ∀ (e : Env) (g : UAttr d) (me : Method) (adj : AdjSpec n) (ma : String) (ga : Guess n) (p : Params), 0 ≤ p.tol → 0 ≤ p.eps →
      let R := solve_tool e g "ecm" me.name (.pairs v) adj ma ga p
      R.exc = none ∧ R.g.x = some (fun i => v (0, i)) ∧ R.g.y = some (fun i => v (1, i)) ∧ R.g.expected_dseq = some (fun i => (d.dseq i : ℝ)) ∧
        R.g.expected_strength_seq = some d.strength_sequence ∧ R.g.error_degree = some 0 ∧ R.g.error_strength = some 0 := by
  obtain ⟨x, y, hS⟩ := (C71_uecm_iff _ _ nat_zero_or).2 h
  have hs0 : ∀ i, d.strength_sequence i ≠ 0 := fun i hs => C71_uecm_none _ _ nat_zero_or i (Nat.cast_ne_zero.2 (h0 i)) (.inl (by rw [hs]; positivity)) ⟨x, y, hS⟩
  have hpos : ∀ i, 0 < x i ∧ 0 < y i := fun i => by
    have hi : (d.dseq i : ℝ) ≠ 0 := Nat.cast_ne_zero.2 (h0 i)
    constructor
    · exact lt_of_le_of_ne (hS.nonneg i).1 fun h0 => hi (by rw [← hS.deg i]; unfold degUECM; simp [← h0])
    · exact lt_of_le_of_ne (hS.nonneg i).2 fun h0 => hi (by rw [← hS.deg i]; unfold degUECM; simp [← h0])
  refine ⟨fun w => if w.1 = 0 then x w.2 else y w.2, ⟨fun i => (hpos i).1, fun i => (hpos i).2, fun i j hij => hS.domain i j hij⟩, fun e g me adj ma ga p ht hp => ?_⟩
  obtain ⟨h1, h2, h3⟩ := C53_ecm_kept e g me adj ma ga p ht hp h2 h0 hs0 (fun w => if w.1 = 0 then x w.2 else y w.2)
    ⟨fun i => (hpos i).1, fun i => (hpos i).2, fun i j hij => hS.domain i j hij⟩ hS.deg hS.str
  obtain ⟨x', y', E, r, E', r', k1, k2, k3, k4, k5, -, k7, -, k9⟩ := C54_ecm e g .ecm (.inl rfl) me.name (.pairs fun w => if w.1 = 0 then x w.2 else y w.2) adj ma ga p h3
  have hx : x' = x := Option.some.inj (k1.symm.trans h1)
  have hy : y' = y := Option.some.inj (k2.symm.trans h2)
  subst hx hy
  have hd : degUECM x' y' = fun i => (d.dseq i : ℝ) := funext hS.deg
  have hs : strUECM x' y' = d.strength_sequence := funext hS.str
  obtain ⟨⟨m1, -⟩, m2, -⟩ := k9 h0 hs0
  refine ⟨h3, h1, h2, hd ▸ k3, hs ▸ k4, ?_, ?_⟩
  · rw [← (isMaxAbs_zero m1).2 fun i => by rw [hd]; simp]; exact k5
  · rw [← (isMaxAbs_zero m2).2 fun i => by rw [hs]; simp]; exact k7

/-- C71 ("ecm", "ecm_exp"): on any other network without isolated nodes no call, whatever its method, initial guess and options, returns admissible parameters together with
errors that are both zero. -/
theorem C71_ecm_never [NeZero n] (e : Env) (d : UData n) (h0 : ∀ i, d.dseq i ≠ 0) (hs0 : ∀ i, d.strength_sequence i ≠ 0) (h : ¬ LooseW (fun i => (d.dseq i : ℝ)) d.strength_sequence)
    (g : UAttr d) (mo : UModel) (hmo : mo = .ecm ∨ mo = .ecm_exp) (method : String) (guess : Guess n) (adj : AdjSpec n) (ma : String) (ga : Guess n) (p : Params) :
    let R := solve_tool e g mo.name method guess adj ma ga p
    ∀ x y, R.exc = none → R.g.x = some x → R.g.y = some y → (∀ i, 0 ≤ x i ∧ 0 ≤ y i) → (∀ i j, i ≠ j → y i * y j < 1) →
      ¬ (R.g.error_degree = some 0 ∧ R.g.error_strength = some 0) := by
  intro R x y hex hx hy hn hd
  rintro ⟨he1, he2⟩
  obtain ⟨x', y', E, r, E', r', k1, k2, -, -, k5, -, k7, -, k9⟩ := C54_ecm e g mo hmo method guess adj ma ga p hex
  obtain rfl : x' = x := Option.some.inj (k1.symm.trans hx)
  obtain rfl : y' = y := Option.some.inj (k2.symm.trans hy)
  obtain ⟨⟨m1, -⟩, m2, -⟩ := k9 h0 hs0
  have z1 := (isMaxAbs_zero m1).1 (Option.some.inj (k5.symm.trans he1))
  have z2 := (isMaxAbs_zero m2).1 (Option.some.inj (k7.symm.trans he2))
  exact h ((C71_uecm_iff _ _ nat_zero_or).1 ⟨x', y', hn, hd, fun i => by linarith [z1 i], fun i => by linarith [z2 i]⟩)

/-- C71 ("decm"): the directed counterpart of `C71_ecm_exact`, for newton and quasi-newton (see C53 for the additional condition of the fixed-point method). -/
theorem C71_decm_exact [NeZero n] (d : DData n) (h0 : ∀ i, d.dseq_out i ≠ 0 ∧ d.dseq_in i ≠ 0)
    (h : LooseWD (fun i => (d.dseq_out i : ℝ)) (fun i => (d.dseq_in i : ℝ)) d.out_strength d.in_strength) :
    ∃ v : Fin 4 × Fin n → ℝ, AdmDECM v ∧ ∀ (e : Env) (g : DAttr d) (me : Method) (adj : AdjSpec n) (ma : String) (ga : DGuess n) (p : Params), 0 ≤ p.tol → 0 ≤ p.eps →
      me ≠ .fixed_point ∨ (∀ i, v (2, i) * v (3, i) < 1) →
      let R := solve_tool_directed e g "decm" me.name (.quads v) adj ma ga p
      R.exc = none ∧ R.g.x = some (fun i => v (0, i)) ∧ R.g.y = some (fun i => v (1, i)) ∧ R.g.b_out = some (fun i => v (2, i)) ∧ R.g.b_in = some (fun i => v (3, i)) ∧
        R.g.expected_dseq = some (outIn (fun i => (d.dseq_out i : ℝ)) fun i => (d.dseq_in i : ℝ)) ∧ R.g.expected_strength_seq = some (outIn d.out_strength d.in_strength) ∧
        R.g.error_degree = some 0 ∧ R.g.error_strength = some 0 := by
  obtain ⟨x, y, bo, bi, hS⟩ := (C71_decm_iff _ _ _ _ nat_zero_or nat_zero_or).2 h
  have hno := fun i => C71_decm_none (fun i => (d.dseq_out i : ℝ)) (fun i => (d.dseq_in i : ℝ)) d.out_strength d.in_strength nat_zero_or nat_zero_or i
  have hs0 : ∀ i, d.dseq_out i ≠ 0 ∧ d.dseq_in i ≠ 0 ∧ d.out_strength i ≠ 0 ∧ d.in_strength i ≠ 0 := fun i =>
    ⟨(h0 i).1, (h0 i).2, fun hs => hno i (.inl ⟨Nat.cast_ne_zero.2 (h0 i).1, .inl (by rw [hs]; positivity)⟩) ⟨x, y, bo, bi, hS⟩,
      fun hs => hno i (.inr ⟨Nat.cast_ne_zero.2 (h0 i).2, .inl (by rw [hs]; positivity)⟩) ⟨x, y, bo, bi, hS⟩⟩
  have hpos : ∀ i, 0 < x i ∧ 0 < y i ∧ 0 < bo i ∧ 0 < bi i := fun i => by
    have hi : (d.dseq_out i : ℝ) ≠ 0 := Nat.cast_ne_zero.2 (h0 i).1
    have hi' : (d.dseq_in i : ℝ) ≠ 0 := Nat.cast_ne_zero.2 (h0 i).2
    refine ⟨?_, ?_, ?_, ?_⟩
    · exact lt_of_le_of_ne (hS.nonneg i).1 fun h0 => hi (by rw [← hS.out_deg i]; unfold outDegDECM linkDECM; simp [← h0])
    · exact lt_of_le_of_ne (hS.nonneg i).2.1 fun h0 => hi' (by rw [← hS.in_deg i]; unfold inDegDECM linkDECM; simp [← h0])
    · exact lt_of_le_of_ne (hS.nonneg i).2.2.1 fun h0 => hi (by rw [← hS.out_deg i]; unfold outDegDECM linkDECM; simp [← h0])
    · exact lt_of_le_of_ne (hS.nonneg i).2.2.2 fun h0 => hi' (by rw [← hS.in_deg i]; unfold inDegDECM linkDECM; simp [← h0])
  obtain ⟨v, hv0, hv1, hv2, hv3⟩ : ∃ v : Fin 4 × Fin n → ℝ, (fun i => v (0, i)) = x ∧ (fun i => v (1, i)) = y ∧ (fun i => v (2, i)) = bo ∧ (fun i => v (3, i)) = bi :=
    ⟨fun w => ![x w.2, y w.2, bo w.2, bi w.2] w.1, rfl, rfl, rfl, rfl⟩
  have hv : AdmDECM v := by
    subst hv0 hv1 hv2 hv3
    refine ⟨?_, fun i j hij => hS.domain i j hij⟩
    rintro ⟨b, i⟩
    obtain ⟨q0, q1, q2, q3⟩ := hpos i
    fin_cases b
    exacts [q0, q1, q2, q3]
  refine ⟨v, hv, fun e g me adj ma ga p ht hp hme => ?_⟩
  obtain ⟨h1, h2, h3, h4, h5⟩ := C53_decm_kept_partial e g me adj ma ga p ht hp hs0 v hv (fun hm => hme.resolve_left (fun hn => hn hm)) fun i => by
    rw [hv0, hv1, hv2, hv3]
    exact ⟨hS.out_deg i, hS.in_deg i, hS.out_str i, hS.in_str i⟩
  obtain ⟨x', y', bo', bi', k1, k2, k3, k4, k5⟩ := C54_decm e g .decm (.inl rfl) me.name (.quads v) adj ma ga p h5
  obtain rfl : x' = x := (Option.some.inj (k1.symm.trans h1)).trans hv0
  obtain rfl : y' = y := (Option.some.inj (k2.symm.trans h2)).trans hv1
  obtain rfl : bo' = bo := (Option.some.inj (k3.symm.trans h3)).trans hv2
  obtain rfl : bi' = bi := (Option.some.inj (k4.symm.trans h4)).trans hv3
  obtain ⟨k6, k7, E, r, E', r', k8, -, k9, -, ⟨m1, -⟩, m2, -⟩ := k5 (fun i => (hpos i).1.le) (fun i => (hpos i).2.1.le) (fun i => (hpos i).2.2.1.le) (fun i => (hpos i).2.2.2.le) hS.domain
  have e1 : outDegDECM x' y' bo' bi' = fun i => (d.dseq_out i : ℝ) := funext hS.out_deg
  have e2 : inDegDECM x' y' bo' bi' = fun i => (d.dseq_in i : ℝ) := funext hS.in_deg
  have e3 : outStrDECM x' y' bo' bi' = d.out_strength := funext hS.out_str
  have e4 : inStrDECM x' y' bo' bi' = d.in_strength := funext hS.in_str
  rw [e1, e2] at k6 m1
  rw [e3, e4] at k7 m2
  refine ⟨h5, h1, h2, h3, h4, k6, k7, ?_, ?_⟩
  · rw [← (isMaxAbs_zero m1).2 fun i => by simp]; exact k8
  · rw [← (isMaxAbs_zero m2).2 fun i => by simp]; exact k9

/-- C71 ("decm", "decm_exp"): the directed counterpart of `C71_ecm_never`. -/
theorem C71_decm_never [NeZero n] (e : Env) (d : DData n) (h : ¬ LooseWD (fun i => (d.dseq_out i : ℝ)) (fun i => (d.dseq_in i : ℝ)) d.out_strength d.in_strength)
    (g : DAttr d) (mo : DModel) (hmo : mo = .decm ∨ mo = .decm_exp) (method : String) (guess : DGuess n) (adj : AdjSpec n) (ma : String) (ga : DGuess n) (p : Params) :
    let R := solve_tool_directed e g mo.name method guess adj ma ga p
    ∀ x y bo bi, R.exc = none → R.g.x = some x → R.g.y = some y → R.g.b_out = some bo → R.g.b_in = some bi → (∀ i, 0 ≤ x i ∧ 0 ≤ y i ∧ 0 ≤ bo i ∧ 0 ≤ bi i) →
      (∀ i j, i ≠ j → bo i * bi j < 1) → ¬ (R.g.error_degree = some 0 ∧ R.g.error_strength = some 0) := by
  intro R x y bo bi hex hx hy hbo hbi hn hd
  rintro ⟨he1, he2⟩
  obtain ⟨x', y', bo', bi', k1, k2, k3, k4, k5⟩ := C54_decm e g mo hmo method guess adj ma ga p hex
  obtain rfl : x' = x := Option.some.inj (k1.symm.trans hx)
  obtain rfl : y' = y := Option.some.inj (k2.symm.trans hy)
  obtain rfl : bo' = bo := Option.some.inj (k3.symm.trans hbo)
  obtain rfl : bi' = bi := Option.some.inj (k4.symm.trans hbi)
  obtain ⟨-, -, E, r, E', r', k8, -, k9, -, ⟨m1, -⟩, m2, -⟩ := k5 (fun i => (hn i).1) (fun i => (hn i).2.1) (fun i => (hn i).2.2.1) (fun i => (hn i).2.2.2) hd
  have z1 := (isMaxAbs_zero m1).1 (Option.some.inj (k8.symm.trans he1))
  have z2 := (isMaxAbs_zero m2).1 (Option.some.inj (k9.symm.trans he2))
  refine h ((C71_decm_iff _ _ _ _ nat_zero_or nat_zero_or).1 ⟨x', y', bo', bi', hn, hd, fun i => ?_, fun i => ?_, fun i => ?_, fun i => ?_⟩)
  · have := z1 (0, i); simp [outIn] at this; linarith
  · have := z1 (1, i); simp [outIn] at this; linarith
  · have := z2 (0, i); simp [outIn] at this; linarith
  · have := z2 (1, i); simp [outIn] at this; linarith

/-- the pentagon and the pentagram with all weights two: every two nodes are linked in exactly one of them -/
theorem pentagon_switchableW : (∃ W, RealisesW (n := 5) (fun _ => 2) (fun _ => 4) W) ∧ SwitchableW (n := 5) (fun _ => 2) fun _ => 4 := by
  have h1 : RealisesW (n := 5) (fun _ => 2) (fun _ => 4) fun a b => if a - b = 1 ∨ b - a = 1 then 2 else 0 := ⟨by decide, by decide, by decide, by decide⟩
  have h2 : RealisesW (n := 5) (fun _ => 2) (fun _ => 4) fun a b => if a - b = 2 ∨ b - a = 2 then 2 else 0 := ⟨by decide, by decide, by decide, by decide⟩
  refine ⟨⟨_, h1⟩, fun i j hij _ _ => ?_⟩
  have h3 : ∀ i j : Fin 5, i ≠ j → ((i - j = 1 ∨ j - i = 1) ∧ ¬ (i - j = 2 ∨ j - i = 2)) ∨ (¬ (i - j = 1 ∨ j - i = 1) ∧ (i - j = 2 ∨ j - i = 2)) := by decide
  rcases h3 i j hij with ⟨a, b⟩ | ⟨a, b⟩
  · exact ⟨⟨_, h1, by simp [a]⟩, _, h2, if_neg b⟩
  · exact ⟨⟨_, h2, by simp [b]⟩, _, h1, if_neg a⟩

/-- a directed triangle with all weights two, and the same turned round -/
theorem cycle_switchableW : (∃ W, RealisesWD (n := 3) (fun _ => 1) (fun _ => 1) (fun _ => 2) (fun _ => 2) W) ∧ SwitchableWD (n := 3) (fun _ => 1) (fun _ => 1) (fun _ => 2) fun _ => 2 := by
  have h1 : RealisesWD (n := 3) (fun _ => 1) (fun _ => 1) (fun _ => 2) (fun _ => 2) fun a b => if b - a = 1 then 2 else 0 := ⟨by decide, by decide, by decide, by decide, by decide⟩
  have h2 : RealisesWD (n := 3) (fun _ => 1) (fun _ => 1) (fun _ => 2) (fun _ => 2) fun a b => if b - a = 2 then 2 else 0 := ⟨by decide, by decide, by decide, by decide, by decide⟩
  refine ⟨⟨_, h1⟩, fun i j hij _ _ => ?_⟩
  have h3 : ∀ i j : Fin 3, i ≠ j → (j - i = 1 ∧ ¬ j - i = 2) ∨ (¬ j - i = 1 ∧ j - i = 2) := by decide
  rcases h3 i j hij with ⟨a, b⟩ | ⟨a, b⟩
  · exact ⟨⟨_, h1, by simp [a]⟩, _, h2, if_neg b⟩
  · exact ⟨⟨_, h2, by simp [b]⟩, _, h1, if_neg a⟩

example : ∃ x y, SolvesUECM (n := 5) (fun _ => (2 : ℕ)) (fun _ => (4 : ℕ)) x y := C71_uecm_switchable pentagon_switchableW.1 pentagon_switchableW.2

example : ∃ x y bo bi, SolvesDECM (n := 3) (fun _ => (1 : ℕ)) (fun _ => (1 : ℕ)) (fun _ => (2 : ℕ)) (fun _ => (2 : ℕ)) x y bo bi :=
  C71_decm_switchable cycle_switchableW.1 cycle_switchableW.2

/-- the weighted pentagon is fitted exactly by every method -/
example : ∃ v : Fin 2 × Fin 5 → ℝ, AdmECM v ∧ ∀ (e : Env) (me : Method), (solve_tool e ({} : UAttr (regular 5 2 fun _ => 4)) "ecm" me.name (.pairs v) .other "newton" (.name "random") {}).g.error_strength = some 0 := by
  obtain ⟨v, hv, h⟩ := C71_ecm_exact (by norm_num) (regular 5 2 fun _ => 4) (fun i => by simp [regular])
    (by simpa [regular] using looseW_of_switchableW pentagon_switchableW.1 pentagon_switchableW.2)
  exact ⟨v, hv, fun e me => (h e {} me .other "newton" (.name "random") {} (by norm_num) (by norm_num)).2.2.2.2.2.2⟩

/-- and the weighted triangle by newton -/
example : ∃ v : Fin 4 × Fin 3 → ℝ, AdmDECM v ∧ ∀ e : Env, (solve_tool_directed e ({} : DAttr (regularD 3 1 2)) "decm" "newton" (.quads v) .other "newton" (.name "random") {}).g.error_strength = some 0 := by
  obtain ⟨v, hv, h⟩ := C71_decm_exact (regularD 3 1 2) (fun i => by simp [regularD])
    (by simpa [regularD] using looseWD_of_switchableWD cycle_switchableW.1 cycle_switchableW.2)
  exact ⟨v, hv, fun e => (h e {} .newton .other "newton" (.name "random") {} (by norm_num) (by norm_num) (.inl (by simp))).2.2.2.2.2.2.2.2⟩

/-- the pentagon with all weights one has no exact solution: no call ever reports two vanishing errors at admissible parameters -/
example (e : Env) (guess : Guess 5) (x y : Fin 5 → ℝ) :
    let R := solve_tool e ({} : UAttr (regular 5 2 fun _ => 2)) "ecm_exp" "newton" guess .other "newton" (.name "random") {}
    R.exc = none → R.g.x = some x → R.g.y = some y → (∀ i, 0 ≤ x i ∧ 0 ≤ y i) → (∀ i j, i ≠ j → y i * y j < 1) → ¬ (R.g.error_degree = some 0 ∧ R.g.error_strength = some 0) :=
  C71_ecm_never e (regular 5 2 fun _ => 2) (fun i => by simp [regular]) (fun i => by simp [regular])
    (by rw [← C71_uecm_iff _ _ nat_zero_or]; exact C71_uecm_none _ _ nat_zero_or 0 (by simp [regular]) (.inl (by simp [regular]))) {} .ecm_exp (.inr rfl) "newton" guess .other "newton"
    (.name "random") {} x y

/-- the directed triangle with all weights one likewise -/
example (e : Env) (guess : DGuess 3) (x y bo bi : Fin 3 → ℝ) :
    let R := solve_tool_directed e ({} : DAttr (regularD 3 1 1)) "decm_exp" "newton" guess .other "newton" (.name "random") {}
    R.exc = none → R.g.x = some x → R.g.y = some y → R.g.b_out = some bo → R.g.b_in = some bi → (∀ i, 0 ≤ x i ∧ 0 ≤ y i ∧ 0 ≤ bo i ∧ 0 ≤ bi i) →
      (∀ i j, i ≠ j → bo i * bi j < 1) → ¬ (R.g.error_degree = some 0 ∧ R.g.error_strength = some 0) :=
  C71_decm_never e (regularD 3 1 1)
    (by rw [← C71_decm_iff _ _ _ _ nat_zero_or nat_zero_or]
        exact C71_decm_none _ _ _ _ nat_zero_or nat_zero_or 0 (.inl ⟨by simp [regularD], .inl (by simp [regularD])⟩))
    {} .decm_exp (.inr rfl) "newton" guess .other "newton" (.name "random") {} x y bo bi

end Verif.Solve
