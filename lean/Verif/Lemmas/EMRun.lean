import Verif.Lemmas.EMExact
import Verif.Lemmas.FixedRun

/-! Runs of the solver on the fixed-point recipe of the conditional reconstruction models. -/

namespace Verif.EM

open Verif Finset Solver

noncomputable section

variable {ι : Type} [Fintype ι] [DecidableEq ι] [Nonempty ι]

structure Recipe (C : Callbacks ι) (p : ι → ι → ℝ) (s : ι → ℝ) : Prop where
  net : Net p s
  fn : ∀ x, Good p x → C.fn x = F p s x
  len : ∀ x dx dxo t, ∃ a, C.linsearchFixed x dx dxo 1 0.5 t = some a ∧ 0 ≤ a ∧ a ≤ 1

namespace Recipe

variable {C : Callbacks ι} {p : ι → ι → ℝ} {s : ι → ℝ} (hR : Recipe C p s) {o : Opts} (hm : o.method = "fixed-point")
include hR hm

theorem step_spec (t : State ι) (hf : t.f = C.fn t.x) : ∃ (a : ℝ) (r : State ι), 0 ≤ a ∧ a ≤ 1 ∧ (o.linsearch = false → a = 1) ∧ step C o t = .ok r ∧ r.x = t.x + a • (C.fn t.x - t.x) ∧
    r.f = C.fn r.x ∧ r.norm = norm2 (C.fn r.x) ∧ r.diff = norm2 (r.x - t.x) := by
  have hd : direction C o t.x t.f = .ok (C.fn t.x - t.x) := by
    unfold direction; simp [hm, hf]
  have key : ∀ a, stepLength C o t (C.fn t.x - t.x) = .ok a → ∃ r, step C o t = .ok r ∧ r.x = t.x + a • (C.fn t.x - t.x) ∧
      r.f = C.fn r.x ∧ r.norm = norm2 (C.fn r.x) ∧ r.diff = norm2 (r.x - t.x) := fun a ha => by
    unfold step
    simp only [hd, ha]
    exact ⟨_, rfl, rfl, rfl, rfl, rfl⟩
  cases hl : o.linsearch with
  | false =>
    obtain ⟨r, hr⟩ := key 1 (by unfold stepLength; simp [hl])
    exact ⟨1, r, by norm_num, le_rfl, fun _ => rfl, hr⟩
  | true =>
    obtain ⟨a, ha, h0, h1⟩ := hR.len t.x (C.fn t.x - t.x) t.dx_old t.n_steps
    obtain ⟨r, hr⟩ := key a (by unfold stepLength; simp [hl, hm, ha])
    exact ⟨a, r, h0, h1, fun h => (by cases h), hr⟩

/-- a step never fails, never lowers the likelihood and never leaves a best vector -/
theorem step_good (t : State ι) (hf : t.f = C.fn t.x) (hg : Good p t.x) : ∃ r, step C o t = .ok r ∧ r.f = C.fn r.x ∧ Good p r.x ∧ EM.L p s t.x ≤ EM.L p s r.x ∧
    ∀ b, Linked p s → Best p s b → D s b r.x ≤ D s b t.x := by
  obtain ⟨a, r, h0, h1, -, hs, hx, hrf, -⟩ := hR.step_spec hm t hf
  have hF := F_good hR.net hg
  rw [hR.fn _ hg] at hx
  refine ⟨r, hs, hrf, hx ▸ damp_good hg hF h0 h1, hx ▸ L_step hR.net hg h0 h1, fun b hl hb => ?_⟩
  rw [hx]
  have h2 := D_damp hR.net hl hb.nonneg hg hF h0 h1
  have h3 := D_step hR.net hl hb hg
  have h4 := hb.best t.x hg.nonneg fun i j hij => hg.sum_pos hR.net hij
  have : a * (D s b (F p s t.x) - D s b t.x) ≤ 0 := mul_nonpos_of_nonneg_of_nonpos h0 (by linarith)
  linarith

theorem loop_good : ∀ (k : ℕ) (t : State ι), t.f = C.fn t.x → Good p t.x → ∃ r, loop C o k t = .ok r ∧ r.f = C.fn r.x ∧ Good p r.x ∧ EM.L p s t.x ≤ EM.L p s r.x ∧
    ∀ b, Linked p s → Best p s b → D s b r.x ≤ D s b t.x := by
  intro k
  induction k with
  | zero => intro t hf hg; exact ⟨t, rfl, hf, hg, le_rfl, fun _ _ _ => le_rfl⟩
  | succ k ih =>
    intro t hf hg
    by_cases hc : t.norm > o.tol ∧ t.diff > o.eps
    · obtain ⟨r, hs, hrf, hrg, hL, hD⟩ := hR.step_good hm t hf hg
      obtain ⟨r', h1, h2, h3, h4, h5⟩ := ih r hrf hrg
      exact ⟨r', by simp only [loop, if_pos hc, hs, h1], h2, h3, hL.trans h4, fun b hl hb => (h5 b hl hb).trans (hD b hl hb)⟩
    · exact ⟨t, by simp only [loop, if_neg hc], hf, hg, le_rfl, fun _ _ _ => le_rfl⟩

theorem solver_good {x0 : ι → ℝ} (hg : Good p x0) : ∃ r, solver C o x0 = .ok r ∧ Good p r.x ∧ EM.L p s x0 ≤ EM.L p s r.x ∧ ∀ b, Linked p s → Best p s b → D s b r.x ≤ D s b x0 := by
  obtain ⟨r, h1, -, h3⟩ := hR.loop_good hm o.max_steps (initState C x0) rfl hg
  exact ⟨r, h1, h3⟩

/-- a longer run is at least as good -/
theorem solver_mono {x0 : ι → ℝ} (hg : Good p x0) {a b : ℕ} (hab : a ≤ b) : ∃ r r', solver C { o with max_steps := a } x0 = .ok r ∧ solver C { o with max_steps := b } x0 = .ok r' ∧
    Good p r.x ∧ Good p r'.x ∧ EM.L p s x0 ≤ EM.L p s r.x ∧ EM.L p s r.x ≤ EM.L p s r'.x := by
  obtain ⟨r, h1, h2, h3, h3'⟩ := hR.loop_good hm a (initState C x0) rfl hg
  obtain ⟨j, rfl⟩ := Nat.exists_eq_add_of_le hab
  obtain ⟨r', h4, h5, h6, h7, -⟩ := hR.loop_good hm j r h2 h3
  refine ⟨r, r', ?_, ?_, h3, h6, h3'.1, h7⟩
  · unfold solver
    rw [FixedPoint.loop_max]
    exact h1
  · unfold solver
    rw [FixedPoint.loop_max]
    exact (FixedPoint.loop_add C o a j _ _ h1).trans h4

/-- without line search, as long as neither test stops it, the loop iterates the recipe -/
theorem loop_plain {b : ι → ℝ} (hk : Linked p s) (hb : Best p s b) (d : ℝ) (hl : o.linsearch = false) (htol : ∀ x, Good p x → o.tol < norm2 (C.fn x)) :
    ∀ (k : ℕ) (t : State ι), t.f = C.fn t.x → t.norm = norm2 (C.fn t.x) → Good p t.x → D s b t.x ≤ d →
    (t.diff > o.eps ∨ ∃ y, Good p y ∧ D s b y ≤ d ∧ t.x = F p s y ∧ norm2 (t.x - y) ≤ o.eps) →
    ∃ r, loop C o k t = .ok r ∧ (r.x = (F p s)^[k] t.x ∨ ∃ y, Good p y ∧ D s b y ≤ d ∧ r.x = F p s y ∧ norm2 (r.x - y) ≤ o.eps) := by
  intro k
  induction k with
  | zero => intro t hf hn hb' hd h; exact ⟨t, rfl, .inl rfl⟩
  | succ k ih =>
    intro t hf hn hg hdt h
    have hnorm : t.norm > o.tol := by rw [hn]; exact htol _ hg
    by_cases hd : t.diff > o.eps
    · obtain ⟨a, r, -, -, ha, hs, hx, hrf, hrn, hrd⟩ := hR.step_spec hm t hf
      have hx' : r.x = F p s t.x := by rw [hx, ha hl, ← hR.fn _ hg]; simp
      have hrg : Good p r.x := by rw [hx']; exact F_good hR.net hg
      have hrD : D s b r.x ≤ d := by
        have h3 := D_step hR.net hk hb hg
        have h4 := hb.best t.x hg.nonneg fun i j hij => hg.sum_pos hR.net hij
        rw [hx']; linarith
      obtain ⟨r', h1, h2⟩ := ih r hrf hrn hrg hrD (by
        rcases lt_or_ge o.eps r.diff with hd | hd
        · exact .inl hd
        · exact .inr ⟨t.x, hg, hdt, hx', by rw [← hrd]; exact hd⟩)
      refine ⟨r', by simp only [loop, if_pos (And.intro hnorm hd), hs, h1], ?_⟩
      rcases h2 with h2 | h2
      · left; rw [h2, Function.iterate_succ_apply, hx']
      · exact .inr h2
    · refine ⟨t, by simp only [loop, if_neg (fun hc : t.norm > o.tol ∧ t.diff > o.eps => hd hc.2)], .inr ?_⟩
      rcases h with h | h
      · exact absurd h hd
      · exact h

omit hm in
/-- **convergence** of the likelihood to its maximum over non-negative rates -/
theorem converges (hk : Linked p s) (hne : ∃ i j, p i j ≠ 0) {b : ι → ℝ} (hb : Best p s b) (d : ℝ) {ε : ℝ} (hε : 0 < ε) :
    ∃ T : ℕ, ∃ τ > 0, ∀ (o : Opts) (x0 : ι → ℝ), o.method = "fixed-point" → o.linsearch = false → o.tol < τ → o.eps < τ → T ≤ o.max_steps → Good p x0 → D s b x0 ≤ d →
      ∃ r, solver C o x0 = .ok r ∧ Good p r.x ∧ D s b r.x ≤ D s b x0 ∧ EM.L p s b - EM.L p s r.x ≤ ε := by
  obtain ⟨c, hc, hlow⟩ := low_of_D hR.net hk hb d
  obtain ⟨i0, j0, h0⟩ := hne
  have hS : 0 < ∑ i, s i := sum_pos' (fun i _ => hR.net.s_nonneg i) ⟨i0, mem_univ _, s_pos hR.net h0⟩
  set m : ℝ := (∑ i, ∑ j, p i j) / 2 with hmdef
  have hmpos : 0 < m := by
    refine half_pos (sum_pos' (fun i _ => sum_nonneg fun j _ => hR.net.nonneg i j) ⟨i0, mem_univ _, sum_pos' (fun j _ => hR.net.nonneg i0 j) ⟨j0, mem_univ _, ?_⟩⟩)
    exact lt_of_le_of_ne (hR.net.nonneg i0 j0) (Ne.symm h0)
  set W : ℝ := ∑ i, s i * (b i / c + 1) with hW
  have hWpos : 0 < W := sum_pos' (fun i _ => mul_nonneg (hR.net.s_nonneg i) (add_nonneg (div_nonneg (hb.nonneg i) hc.le) zero_le_one))
    ⟨i0, mem_univ _, mul_pos (s_pos hR.net h0) (add_pos_of_nonneg_of_pos (div_nonneg (hb.nonneg i0) hc.le) one_pos)⟩
  have habs : ∀ (v : ι → ℝ) (i : ι), |v i| ≤ norm2 v := fun v i => by
    rw [← Real.sqrt_sq_eq_abs]
    exact Real.sqrt_le_sqrt (single_le_sum (f := fun i => v i ^ 2) (fun i _ => sq_nonneg _) (mem_univ i))
  refine ⟨⌈d / ε⌉₊ + 1, min 1 (min (m / ∑ i, s i) (ε / W)), lt_min one_pos (lt_min (div_pos hmpos hS) (div_pos hε hWpos)), fun o x0 hm hl htol heps hmax hg hd => ?_⟩
  have htol' : ∀ x, Good p x → o.tol < norm2 (C.fn x) := fun x hx => by
    refine lt_of_lt_of_le (htol.trans_le ((min_le_right _ _).trans (min_le_left _ _))) ?_
    rw [hR.fn x hx, div_le_iff₀ hS, hmdef, ← F_mass hR.net hx, mul_sum]
    refine sum_le_sum fun i _ => ?_
    rw [mul_comm]
    exact mul_le_mul_of_nonneg_right ((le_abs_self _).trans (habs _ i)) (hR.net.s_nonneg i)
  obtain ⟨r, h1, h2⟩ := hR.loop_plain hm hk hb d hl htol' o.max_steps (initState C x0) rfl rfl hg hd (.inl (heps.trans_le (min_le_left _ _)))
  obtain ⟨r', h1', hrg, -, hrD⟩ := hR.solver_good hm hg
  obtain rfl : r = r' := by
    have : solver C o x0 = .ok r := h1
    rw [this] at h1'
    exact Except.ok.inj h1'
  refine ⟨r, h1, hrg, hrD b hk hb, ?_⟩
  rcases h2 with h2 | ⟨y, hy, hyD, hxy, hyd⟩
  · have h3 := rate hR.net hk hb hg o.max_steps
    rw [h2]
    have h4 := D_nonneg hR.net hk hb.nonneg (iter_good hR.net hg o.max_steps)
    by_contra hcon
    push Not at hcon
    have h5 : (d / ε : ℝ) < o.max_steps := lt_of_lt_of_le (lt_of_le_of_lt (Nat.le_ceil _) (by push_cast; linarith)) (Nat.cast_le.2 hmax)
    rw [div_lt_iff₀ hε] at h5
    have h6 : (o.max_steps : ℝ) * ε ≤ o.max_steps * (EM.L p s b - EM.L p s ((F p s)^[o.max_steps] x0)) := mul_le_mul_of_nonneg_left hcon.le (Nat.cast_nonneg _)
    have h7 : (F p s)^[o.max_steps] (initState C x0).x = (F p s)^[o.max_steps] x0 := rfl
    linarith
  · have h3 := gap_of_small hR.net hk hb hy hc (η := ε / W) (div_pos hε hWpos).le (hlow y hy hyD) fun i => by
      have h4 := habs (r.x - y) i
      rw [← hxy]
      exact h4.trans (hyd.trans (heps.le.trans ((min_le_right _ _).trans (min_le_right _ _))))
    rw [← hW, div_mul_cancel₀ _ hWpos.ne'] at h3
    have h5 := L_F hR.net hy
    have h6 := D_F_nonneg hR.net hy
    rw [← hxy] at h5 h6
    linarith

end Recipe

end

end Verif.EM
