import Verif.Lemmas.FixedPoint
import Verif.Props.Runs

/-! Runs of `solver` with the method `fixed-point` whose update is, node by node, the recipe of `Lemmas/FixedPoint`: the runs never fail, never leave the band
between two multiples of a solution, and converge when there is no line search. -/

namespace Verif.FixedPoint

open Finset Solver

noncomputable section

section loops

variable {ι : Type} [Fintype ι] [DecidableEq ι] [Nonempty ι]

/-- nothing in the loop but its fuel depends on `max_steps` -/
theorem loop_max (C : Callbacks ι) (o : Opts) (a : ℕ) : ∀ (k : ℕ) (s : State ι), loop C { o with max_steps := a } k s = loop C o k s := by
  intro k
  induction k with
  | zero => intro s; rfl
  | succ k ih =>
    intro s
    have hs : step C { o with max_steps := a } s = step C o s := rfl
    simp only [loop, hs, ih]

/-- a longer run is the shorter one continued -/
theorem loop_add (C : Callbacks ι) (o : Opts) : ∀ (k j : ℕ) (s r : State ι), loop C o k s = .ok r → loop C o (k + j) s = loop C o j r := by
  intro k
  induction k with
  | zero => intro j s r h; simp only [loop, Except.ok.injEq] at h; rw [Nat.zero_add, h]
  | succ k ih =>
    intro j s r h
    rw [Nat.succ_add]
    by_cases hc : s.norm > o.tol ∧ s.diff > o.eps
    · simp only [loop, if_pos hc] at h ⊢
      cases hs : step C o s with
      | error e => simp [hs] at h
      | ok s' => simp only [hs] at h ⊢; exact ih j s' r h
    · simp only [loop, if_neg hc, Except.ok.injEq] at h ⊢
      subst h
      cases j with
      | zero => rfl
      | succ j => simp only [loop, if_neg hc]

end loops

variable {n : ℕ}

/-- the callbacks `C` perform, in the coordinates `L`, the recipe that solves for `κ`; `s` is a solution and the band `[m, M]` around it is the domain -/
structure Recipe {ι : Type} [Fintype ι] (C : Callbacks ι) (L : (ι → ℝ) → Fin 2 × Fin n → ℝ) (κ s : Fin 2 × Fin n → ℝ) (m M : ℝ) : Prop where
  sol : Sol κ s
  m_pos : 0 < m
  M_pos : 0 < M
  fn : ∀ x, Between m M s (L x) → L (C.fn x) = F κ (L x)
  damp : ∀ x y (a : ℝ), 0 ≤ a → a ≤ 1 → Between m M s (L x) → Between m M s (L y) → Between m M s (L (x + a • (y - x)))
  lip : ∃ K > 0, ∀ x y, Between m M s (L x) → Between m M s (L y) → ∑ v, (L y v - L x v) ^ 2 ≤ K * norm2 (y - x) ^ 2
  len : ∀ x dx dxo t, ∃ a, C.linsearchFixed x dx dxo 1 0.5 t = some a ∧ 0 ≤ a ∧ a ≤ 1

namespace Recipe

variable {ι : Type} [Fintype ι] [DecidableEq ι] [Nonempty ι] {C : Callbacks ι} {L : (ι → ℝ) → Fin 2 × Fin n → ℝ} {κ s : Fin 2 × Fin n → ℝ} {m M : ℝ}
variable (hR : Recipe C L κ s m M) {o : Opts} (hm : o.method = "fixed-point")
include hR hm

theorem step_spec (t : State ι) (hf : t.f = C.fn t.x) : ∃ (a : ℝ) (r : State ι), 0 ≤ a ∧ a ≤ 1 ∧ (o.linsearch = false → a = 1) ∧ step C o t = .ok r ∧ r.x = t.x + a • (C.fn t.x - t.x) ∧
    r.f = C.fn r.x ∧ r.norm = norm2 (C.fn r.x) ∧ r.diff = norm2 (r.x - t.x) ∧ r.n_steps = t.n_steps + 1 := by
  have hd : direction C o t.x t.f = .ok (C.fn t.x - t.x) := by
    unfold direction; simp [hm, hf]
  have key : ∀ a, stepLength C o t (C.fn t.x - t.x) = .ok a → ∃ r, step C o t = .ok r ∧ r.x = t.x + a • (C.fn t.x - t.x) ∧
      r.f = C.fn r.x ∧ r.norm = norm2 (C.fn r.x) ∧ r.diff = norm2 (r.x - t.x) ∧ r.n_steps = t.n_steps + 1 := fun a ha => by
    unfold step
    simp only [hd, ha]
    exact ⟨_, rfl, rfl, rfl, rfl, rfl, rfl⟩
  cases hl : o.linsearch with
  | false =>
    obtain ⟨r, hr⟩ := key 1 (by unfold stepLength; simp [hl])
    exact ⟨1, r, by norm_num, le_rfl, fun _ => rfl, hr⟩
  | true =>
    obtain ⟨a, ha, h0, h1⟩ := hR.len t.x (C.fn t.x - t.x) t.dx_old t.n_steps
    obtain ⟨r, hr⟩ := key a (by unfold stepLength; simp [hl, hm, ha])
    exact ⟨a, r, h0, h1, fun h => (by cases h), hr⟩

theorem step_between (t : State ι) (hf : t.f = C.fn t.x) (hb : Between m M s (L t.x)) : ∃ r, step C o t = .ok r ∧ r.f = C.fn r.x ∧ Between m M s (L r.x) := by
  obtain ⟨a, r, h0, h1, -, hs, hx, hrf, -⟩ := hR.step_spec hm t hf
  refine ⟨r, hs, hrf, ?_⟩
  rw [hx]
  exact hR.damp _ _ a h0 h1 hb (by rw [hR.fn _ hb]; exact F_between hR.sol hR.m_pos hR.M_pos hb)

/-- the loop never fails and stays in the band -/
theorem loop_between : ∀ (k : ℕ) (t : State ι), t.f = C.fn t.x → Between m M s (L t.x) → ∃ r, loop C o k t = .ok r ∧ r.f = C.fn r.x ∧ Between m M s (L r.x) := by
  intro k
  induction k with
  | zero => intro t hf hb; exact ⟨t, rfl, hf, hb⟩
  | succ k ih =>
    intro t hf hb
    by_cases hc : t.norm > o.tol ∧ t.diff > o.eps
    · obtain ⟨r, hs, hrf, hrb⟩ := hR.step_between hm t hf hb
      obtain ⟨r', h1, h2, h3⟩ := ih r hrf hrb
      exact ⟨r', by simp only [loop, if_pos hc, hs, h1], h2, h3⟩
    · exact ⟨t, by simp only [loop, if_neg hc], hf, hb⟩

theorem solver_between {x0 : ι → ℝ} (hb : Between m M s (L x0)) : ∃ r, solver C o x0 = .ok r ∧ Between m M s (L r.x) := by
  obtain ⟨r, h1, -, h3⟩ := hR.loop_between hm o.max_steps (initState C x0) rfl hb
  exact ⟨r, h1, h3⟩

/-- every run agrees with its own continuation: a run of `k` steps that is in the band stays there for ever -/
theorem solver_later {x0 : ι → ℝ} {a b : ℕ} (hab : a ≤ b) {r : State ι} (h : solver C { o with max_steps := a } x0 = .ok r) (hb : Between m M s (L r.x)) :
    ∃ r', solver C { o with max_steps := b } x0 = .ok r' ∧ Between m M s (L r'.x) := by
  unfold solver at h ⊢
  rw [loop_max] at h
  simp only [loop_max]
  obtain ⟨j, rfl⟩ := Nat.exists_eq_add_of_le hab
  rw [loop_add C o _ j _ _ h]
  have hf : r.f = C.fn r.x := by
    refine loop_inv C o (fun t => t.f = C.fn t.x) (fun t t' _ _ _ hst => ?_) _ _ r rfl h
    obtain ⟨dx, alfa, -, -, rfl⟩ := step_ok hst
    rfl
  obtain ⟨r', h1, -, h3⟩ := hR.loop_between hm j r hf hb
  exact ⟨r', h1, h3⟩

/-- without a line search the run follows the recipe, and if it does not end for the size of the update it ends for lack of steps or because the recipe hardly
moved the point before the last -/
theorem loop_plain (hl : o.linsearch = false) (htol : ∀ x, Between m M s (L x) → o.tol < norm2 (C.fn x)) :
    ∀ (k : ℕ) (t : State ι), t.f = C.fn t.x → t.norm = norm2 (C.fn t.x) → Between m M s (L t.x) →
    (t.diff > o.eps ∨ ∃ y, Between m M s (L y) ∧ t.x = C.fn y ∧ norm2 (t.x - y) ≤ o.eps) →
    ∃ r, loop C o k t = .ok r ∧ (L r.x = (F κ)^[k] (L t.x) ∨ ∃ y, Between m M s (L y) ∧ r.x = C.fn y ∧ norm2 (r.x - y) ≤ o.eps) := by
  intro k
  induction k with
  | zero => intro t hf hn hb h; exact ⟨t, rfl, .inl rfl⟩
  | succ k ih =>
    intro t hf hn hb h
    have hnorm : t.norm > o.tol := by rw [hn]; exact htol _ hb
    rcases h with h | h
    · obtain ⟨a, r, -, -, ha, hs, hx, hrf, hrn, hrd, -⟩ := hR.step_spec hm t hf
      have hx' : r.x = C.fn t.x := by rw [hx, ha hl]; simp
      have hrb : Between m M s (L r.x) := by rw [hx', hR.fn _ hb]; exact F_between hR.sol hR.m_pos hR.M_pos hb
      obtain ⟨r', h1, h2⟩ := ih r hrf hrn hrb (by
        rcases lt_or_ge o.eps r.diff with hd | hd
        · exact .inl hd
        · exact .inr ⟨t.x, hb, hx', by rw [← hrd]; exact hd⟩)
      refine ⟨r', by simp only [loop, if_pos (And.intro hnorm h), hs, h1], ?_⟩
      rcases h2 with h2 | h2
      · left; rw [h2, Function.iterate_succ_apply, hx', hR.fn _ hb]
      · exact .inr h2
    · by_cases hd : t.diff > o.eps
      · obtain ⟨a, r, -, -, ha, hs, hx, hrf, hrn, hrd, -⟩ := hR.step_spec hm t hf
        have hx' : r.x = C.fn t.x := by rw [hx, ha hl]; simp
        have hrb : Between m M s (L r.x) := by rw [hx', hR.fn _ hb]; exact F_between hR.sol hR.m_pos hR.M_pos hb
        obtain ⟨r', h1, h2⟩ := ih r hrf hrn hrb (by
          rcases lt_or_ge o.eps r.diff with hd | hd
          · exact .inl hd
          · exact .inr ⟨t.x, hb, hx', by rw [← hrd]; exact hd⟩)
        refine ⟨r', by simp only [loop, if_pos (And.intro hnorm hd), hs, h1], ?_⟩
        rcases h2 with h2 | h2
        · left; rw [h2, Function.iterate_succ_apply, hx', hR.fn _ hb]
        · exact .inr h2
      · exact ⟨t, by simp only [loop, if_neg (fun hc : t.norm > o.tol ∧ t.diff > o.eps => hd hc.2)], .inr h⟩

omit hm in
/-- **convergence**: the numbers of steps and the tolerance below which the expected values are as close as one likes depend on the band alone -/
theorem converges (hL : Linked s) (hA : (act s).Nonempty) {ε : ℝ} (hε : 0 < ε) : ∃ T : ℕ, ∃ τ > 0, ∀ (o : Opts) (x0 : ι → ℝ), o.method = "fixed-point" → o.linsearch = false →
    (∀ x, Between m M s (L x) → o.tol < norm2 (C.fn x)) → o.eps < τ → T ≤ o.max_steps → Between m M s (L x0) →
    ∃ r, solver C o x0 = .ok r ∧ Between m M s (L r.x) ∧ ∀ v, |L r.x v * den (L r.x) v - κ v| ≤ ε * κ v := by
  obtain ⟨⟨T, hT⟩, ν, hν, hmove⟩ := FixedPoint.converges hR.sol hA hR.m_pos hR.M_pos hL (δ := m * ε) (mul_pos hR.m_pos hε)
  obtain ⟨K, hK, hlip⟩ := hR.lip
  refine ⟨T, min 1 (Real.sqrt (ν / (2 * K))), lt_min one_pos (Real.sqrt_pos.2 (by positivity)), fun o x0 hm hl htol heps hmax hb => ?_⟩
  obtain ⟨r, h1, h2⟩ := hR.loop_plain hm hl htol o.max_steps (initState C x0) rfl rfl hb (.inl (heps.trans_le (min_le_left _ _)))
  obtain ⟨r', h1', hrb⟩ := hR.solver_between hm hb
  obtain rfl : r = r' := by
    have : solver C o x0 = .ok r := h1
    rw [this] at h1'
    exact Except.ok.inj h1'
  refine ⟨r, h1, hrb, fun v => ?_⟩
  have hsp : hi hA (L r.x) - lo hA (L r.x) ≤ m * ε := by
    rcases h2 with h2 | ⟨y, hy, hxy, hd⟩
    · rw [h2]; exact hT _ hb _ hmax
    · have hFy : F κ (L y) = L r.x := by rw [hxy, hR.fn _ hy]
      have h3 := hlip y r.x hy hrb
      have h4 : ∑ v, (F κ (L y) v - L y v) ^ 2 < ν := by
        rw [hFy]
        refine lt_of_le_of_lt h3 ?_
        have h5 : norm2 (r.x - y) < Real.sqrt (ν / (2 * K)) := lt_of_le_of_lt hd (heps.trans_le (min_le_right _ _))
        have h6 : norm2 (r.x - y) ^ 2 < ν / (2 * K) := by
          have h7 : (0 : ℝ) ≤ norm2 (r.x - y) := Real.sqrt_nonneg _
          have := Real.sq_sqrt (show (0 : ℝ) ≤ ν / (2 * K) by positivity)
          rw [← this]
          exact pow_lt_pow_left₀ h5 h7 two_ne_zero
        rw [lt_div_iff₀ (by positivity)] at h6
        nlinarith [sq_nonneg (norm2 (r.x - y))]
      have h5 := hmove _ hy h4
      have h6 := spread_step hR.sol hA hR.m_pos hR.M_pos hy
      rw [hFy] at h6
      linarith
  obtain ⟨k1, k2, k3, k4⟩ := spread_spec hR.sol hA hR.m_pos hR.M_pos hrb
  have hlo : 0 < lo hA (L r.x) := hR.m_pos.trans_le k1
  refine (value_bound hR.sol hlo (hlo.trans_le k3) k4 v).trans (mul_le_mul_of_nonneg_right ?_ (hR.sol.kappa_nonneg v))
  rw [div_le_iff₀ hlo]
  nlinarith

end Recipe

end

end Verif.FixedPoint
