import Verif.Lemmas.Relabel

/-! The solver under a change of unit (fixed-point method): if the map and the line search commute with the scaling of all parameters, the runs are scalings of each other. -/

set_option linter.unusedSectionVars false

namespace Verif.Solver

open Finset

noncomputable section

open Classical in
attribute [local instance 0] propDecidable

variable {ι : Type*} [Fintype ι] [DecidableEq ι]

theorem norm2_smul (c : ℝ) (hc : 0 ≤ c) (f : ι → ℝ) : norm2 (c • f) = c * norm2 f := by
  unfold norm2
  have : ∑ i, (c • f) i ^ 2 = c ^ 2 * ∑ i, f i ^ 2 := by
    rw [mul_sum]
    exact sum_congr rfl fun i _ => by simp [mul_pow]
  rw [this, Real.sqrt_mul (sq_nonneg c), Real.sqrt_sq hc]

theorem maxAbs_smul [Nonempty ι] (c : ℝ) (hc : 0 ≤ c) (f : ι → ℝ) : maxAbs (fun i => c * f i) = c * maxAbs f := by
  unfold maxAbs
  have h : ∀ i, |c * f i| = c * |f i| := fun i => by rw [abs_mul, abs_of_nonneg hc]
  simp only [h]
  refine le_antisymm (sup'_le _ _ fun i _ => mul_le_mul_of_nonneg_left (le_sup' (fun i => |f i|) (mem_univ i)) hc) ?_
  obtain ⟨i, -, hi⟩ := exists_mem_eq_sup' (univ_nonempty (α := ι)) fun i => |f i|
  rw [hi]
  exact le_sup' (fun i => c * |f i|) (mem_univ i)

/-- the values after the first one, scaled -/
def scaleTail (c : ℝ) (l : List ℝ) : List ℝ := l.take 1 ++ (l.drop 1).map (c * ·)

theorem scaleTail_append (c : ℝ) {l : List ℝ} (h : l ≠ []) (a : ℝ) : scaleTail c (l ++ [a]) = scaleTail c l ++ [c * a] := by
  cases l with
  | nil => exact absurd rfl h
  | cons b t => simp [scaleTail]

/-- a state with the parameters multiplied by `c`; the step size `diff` is 1 by convention before the first step -/
def State.scale (c : ℝ) (s : State ι) : State ι :=
  { x := c • s.x, f := c • s.f, norm := c * s.norm, diff := if s.n_steps = 0 then s.diff else c * s.diff, dx_old := c • s.dx_old, n_steps := s.n_steps,
    norm_seq := s.norm_seq.map (c * ·), diff_seq := scaleTail c s.diff_seq, alfa_seq := s.alfa_seq }

/-- the fixed-point map and its line search in two units -/
structure ScaledFixed (c : ℝ) (C C' : Callbacks ι) : Prop where
  fn : ∀ x, C'.fn (c • x) = c • C.fn x
  search : ∀ x dx dx_old a b k, C'.linsearchFixed (c • x) (c • dx) (c • dx_old) a b k = C.linsearchFixed x dx dx_old a b k

theorem normStage_scale {c : ℝ} (hc : 0 < c) (dx dx_old : ι → ℝ) (a b : ℝ) (k : ℕ) : normStage (c • dx) (c • dx_old) a b k = normStage dx dx_old a b k := by
  unfold normStage
  have : (fun a : ℝ => norm2 (a • (c • dx)) < norm2 (c • dx_old)) = fun a : ℝ => norm2 (a • dx) < norm2 dx_old := by
    funext a
    rw [smul_comm, norm2_smul c hc.le, norm2_smul c hc.le]
    exact propext (mul_lt_mul_iff_right₀ hc)
  simp only [this]

variable [Nonempty ι]

theorem step_scale {c : ℝ} (hc : 0 < c) {C C' : Callbacks ι} (h : ScaledFixed c C C') {o o' : Opts} (hm : o.method = "fixed-point") (hm' : o'.method = "fixed-point")
    (hl : o'.linsearch = o.linsearch) (s : State ι) (hs : s.diff_seq ≠ []) : step C' o' (s.scale c) = (step C o s).map (State.scale c) := by
  have hd : ∀ (C : Callbacks ι) (o : Opts) x f, o.method = "fixed-point" → direction C o x f = .ok (f - x) := by
    intro C o x f hm
    simp [direction, hm]
  unfold step
  rw [hd _ _ _ _ hm', hd _ _ _ _ hm]
  have h1 : (s.scale c).f - (s.scale c).x = c • (s.f - s.x) := (smul_sub c s.f s.x).symm
  have h2 : stepLength C' o' (s.scale c) (c • (s.f - s.x)) = stepLength C o s (s.f - s.x) := by
    unfold stepLength
    have hn : ¬ (o.linsearch = true ∧ ("fixed-point" = "newton" ∨ "fixed-point" = "quasinewton")) := by simp
    simp only [hm, hm', hl, State.scale, h.search, if_neg hn]
  dsimp only
  rw [h1, h2]
  cases stepLength C o s (s.f - s.x) with
  | error er => rfl
  | ok a =>
    have h3 : (s.scale c).x + a • c • (s.f - s.x) = c • (s.x + a • (s.f - s.x)) := by
      rw [smul_add, smul_comm a c]; rfl
    have h4 : c • (s.x + a • (s.f - s.x)) - (s.scale c).x = c • (s.x + a • (s.f - s.x) - s.x) := (smul_sub c _ s.x).symm
    simp only [h3, h.fn, norm2_smul c hc.le, h4]
    simp only [Except.map, State.scale, hl, scaleTail_append c hs, List.map_append, List.map_cons, List.map_nil, Nat.add_eq_zero_iff,
      one_ne_zero, and_false, if_false, smul_comm a c]

theorem loop_scale {c : ℝ} (hc : 0 < c) {C C' : Callbacks ι} (h : ScaledFixed c C C') {o o' : Opts} (hm : o.method = "fixed-point") (hm' : o'.method = "fixed-point")
    (hl : o'.linsearch = o.linsearch) (ht : o'.tol = c * o.tol) (he : o'.eps = c * o.eps) (h1 : (1 : ℝ) > o.eps ↔ (1 : ℝ) > c * o.eps) : ∀ (k : ℕ) (s : State ι),
    s.diff_seq ≠ [] → (s.n_steps = 0 → s.diff = 1) → loop C' o' k (s.scale c) = (loop C o k s).map (State.scale c) := by
  intro k
  induction k with
  | zero => intro s _ _; rfl
  | succ k ih =>
    intro s hs h0
    have hc1 : (s.scale c).norm > o'.tol ↔ s.norm > o.tol := by
      show c * s.norm > o'.tol ↔ _
      rw [ht]
      exact mul_lt_mul_iff_right₀ hc
    have hc2 : (s.scale c).diff > o'.eps ↔ s.diff > o.eps := by
      show (if s.n_steps = 0 then s.diff else c * s.diff) > o'.eps ↔ _
      rw [he]
      split_ifs with hn
      · rw [h0 hn, h1]
      · exact mul_lt_mul_iff_right₀ hc
    unfold loop
    by_cases hcond : s.norm > o.tol ∧ s.diff > o.eps
    · rw [if_pos hcond, if_pos (show (s.scale c).norm > o'.tol ∧ (s.scale c).diff > o'.eps from ⟨hc1.2 hcond.1, hc2.2 hcond.2⟩), step_scale hc h hm hm' hl s hs]
      cases hst : step C o s with
      | error er => rfl
      | ok s' =>
        obtain ⟨dx, a, -, -, hs'⟩ := step_ok hst
        exact ih s' (by rw [hs']; simp) (by rw [hs']; simp)
    · rw [if_neg hcond, if_neg (show ¬((s.scale c).norm > o'.tol ∧ (s.scale c).diff > o'.eps) from fun hh => hcond ⟨hc1.1 hh.1, hc2.1 hh.2⟩)]
      rfl

/-- the run in the other unit -/
theorem solver_scale {c : ℝ} (hc : 0 < c) {C C' : Callbacks ι} (h : ScaledFixed c C C') {o o' : Opts} (hm : o.method = "fixed-point") (hm' : o'.method = "fixed-point")
    (hl : o'.linsearch = o.linsearch) (hk : o'.max_steps = o.max_steps) (ht : o'.tol = c * o.tol) (he : o'.eps = c * o.eps) (h1 : (1 : ℝ) > o.eps ↔ (1 : ℝ) > c * o.eps)
    (x0 : ι → ℝ) : solver C' o' (c • x0) = (solver C o x0).map (State.scale c) := by
  have : initState C' (c • x0) = (initState C x0).scale c := by
    simp only [initState, State.scale, h.fn, norm2_smul c hc.le, smul_zero, if_true, scaleTail, List.map_cons, List.map_nil]
    rfl
  unfold solver
  rw [this, hk]
  exact loop_scale hc h hm hm' hl ht he h1 _ _ (by simp [initState]) (fun _ => rfl)

omit [Nonempty ι] in
/-- the fixed-point method with a line search that always answers never fails -/
theorem fixed_total [Nonempty ι] {C : Callbacks ι} (hC : ∀ x dx dx_old a b k, ∃ v, C.linsearchFixed x dx dx_old a b k = some v) {o : Opts} (hm : o.method = "fixed-point")
    (x0 : ι → ℝ) : ∃ s, solver C o x0 = .ok s := by
  have key : ∀ k s, ∃ s', loop C o k s = .ok s' := by
    intro k
    induction k with
    | zero => exact fun s => ⟨s, rfl⟩
    | succ k ih =>
      intro s
      unfold loop
      by_cases hc : s.norm > o.tol ∧ s.diff > o.eps
      · rw [if_pos hc]
        have : ∃ s', step C o s = .ok s' := by
          unfold step direction stepLength
          simp only [hm]
          obtain ⟨v, hv⟩ := hC s.x (s.f - s.x) s.dx_old 1 0.5 s.n_steps
          cases o.linsearch <;> simp_all
        obtain ⟨s', hs'⟩ := this
        rw [hs']
        exact ih s'
      · rw [if_neg hc]; exact ⟨s, rfl⟩
  exact key _ _

end

end Verif.Solver
