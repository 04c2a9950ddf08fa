import Verif.Model.Float

/-! Runs of the fixed-point solver with infinite parameters: lemmas for C78. -/

set_option linter.unusedSectionVars false

namespace Verif.Flt

open Finset Verif.Solver Fl

noncomputable section

open Classical in
attribute [local instance 0] propDecidable

variable {ι : Type*} [Fintype ι] [DecidableEq ι]

theorem norm_real (mask : ι → Prop) (g : ι → ℝ) : norm mask (fun i => real (g i)) = real (Real.sqrt (∑ i with mask i, g i ^ 2)) := by
  unfold norm
  rw [if_neg (by simp), if_neg (by simp)]
  simp [Fl.val]

theorem norm_all (g : ι → ℝ) : norm (fun _ => True) (fun i => real (g i)) = real (norm2 g) := by
  rw [norm_real]
  simp [norm2]

theorem norm_inf {mask : ι → Prop} {f : ι → Fl} (h1 : ∀ i, f i ≠ nan) {i : ι} (hm : mask i) (hi : f i = inf) : norm mask f = inf := by
  unfold norm
  rw [if_neg (by rintro ⟨j, -, hj⟩; exact h1 j hj), if_pos ⟨i, hm, .inl hi⟩]

/-! ### every value finite -/

/-- the state of the real solver, as floats -/
def lift (s : State ι) : FState ι where
  x := fun i => real (s.x i)
  f := fun i => real (s.f i)
  norm := real s.norm
  diff := real s.diff
  dx_old := fun i => real (s.dx_old i)
  n_steps := s.n_steps
  norm_seq := s.norm_seq.map real
  diff_seq := s.diff_seq.map real
  alfa_seq := s.alfa_seq

/-- on the finite vectors that satisfy `I` the two sets of callbacks agree -/
structure FiniteOn (I : (ι → ℝ) → Prop) (C : Callbacks ι) (D : FCallbacks ι) : Prop where
  fn : ∀ x : ι → ℝ, I x → D.fn (fun i => real (x i)) = fun i => real (C.fn x i)
  search : ∀ (x dx dx_old : ι → ℝ) a b k, I x → C.linsearchFixed x dx dx_old a b k = some (D.search (fun i => real (x i)) (fun i => real (dx i)) (fun i => real (dx_old i)) a b k)

/-- on all finite vectors -/
abbrev Finite (C : Callbacks ι) (D : FCallbacks ι) : Prop := FiniteOn (fun _ => True) C D

variable [Nonempty ι]

theorem step_lift {I : (ι → ℝ) → Prop} {C : Callbacks ι} {D : FCallbacks ι} (h : FiniteOn I C D) {o : Opts} (ho : o.method = "fixed-point") (s : State ι) (hs : I s.x) :
    ∃ s', step C o s = .ok s' ∧ (I s'.x → stepF D o.linsearch (lift s) = lift s') := by
  have hd : direction C o s.x s.f = .ok (s.f - s.x) := by simp [direction, ho]
  have hdx : ∀ i, (if real (s.x i) = inf then inf else sub (real (s.f i)) (real (s.x i))) = real ((s.f - s.x) i) := fun i => by
    rw [if_neg (by simp)]
    simp [sub, neg, add, sub_eq_add_neg]
  have hl : ∃ a, stepLength C o s (s.f - s.x) = .ok a ∧
      (if o.linsearch then D.search (fun i => real (s.x i)) (fun i => real ((s.f - s.x) i)) (fun i => real (s.dx_old i)) 1 0.5 s.n_steps else 1) = a := by
    cases hb : o.linsearch with
    | false => exact ⟨1, by simp [stepLength, hb], by simp⟩
    | true =>
      refine ⟨_, ?_, rfl⟩
      simp [stepLength, hb, ho, h.search s.x _ _ _ _ _ hs]
  obtain ⟨a, ha, ha'⟩ := hl
  refine ⟨_, by unfold step; rw [hd]; dsimp only; rw [ha], fun hI => ?_⟩
  have hx : ∀ i, add (real (s.x i)) (scale a (real ((s.f - s.x) i))) = real ((s.x + a • (s.f - s.x)) i) := fun i => by simp [add, scale]
  have hv : ∀ i, (if sub (real ((s.x + a • (s.f - s.x)) i)) (real (s.x i)) = nan then real (-1) else sub (real ((s.x + a • (s.f - s.x)) i)) (real (s.x i))) =
      real ((s.x + a • (s.f - s.x) - s.x) i) := fun i => by
    rw [if_neg (by simp [sub, add, neg])]
    simp [sub, add, neg, sub_eq_add_neg]
  unfold stepF lift
  simp only [hdx, ha', hx, h.fn _ hI, hv, norm_all]
  cases hb : o.linsearch <;> simp [scale]

theorem loop_lift {I : (ι → ℝ) → Prop} {C : Callbacks ι} {D : FCallbacks ι} (h : FiniteOn I C D) {o : Opts} (ho : o.method = "fixed-point")
    (hstep : ∀ s s' : State ι, I s.x → s.f = C.fn s.x → step C o s = .ok s' → I s'.x) (k : ℕ) (s : State ι) (hs : I s.x) (hf : s.f = C.fn s.x) :
    ∃ s', loop C o k s = .ok s' ∧ loopF D o k (lift s) = lift s' ∧ I s'.x := by
  induction k generalizing s with
  | zero => exact ⟨s, rfl, rfl, hs⟩
  | succ k ih =>
    unfold loop loopF
    by_cases hc : s.norm > o.tol ∧ s.diff > o.eps
    · obtain ⟨s', h1, h2⟩ := step_lift h ho s hs
      have hI := hstep s s' hs hf h1
      rw [if_pos hc, if_pos (show lt (real o.tol) (lift s).norm ∧ lt (real o.eps) (lift s).diff from hc), h1, h2 hI]
      refine ih s' hI ?_
      revert h1
      unfold step
      split
      · simp
      · split
        · simp
        · intro h1
          rw [← Except.ok.inj h1]
    · rw [if_neg hc, if_neg (show ¬(lt (real o.tol) (lift s).norm ∧ lt (real o.eps) (lift s).diff) from hc)]
      exact ⟨s, rfl, rfl, hs⟩

/-- if the run of `Model/Solver` stays where the callbacks agree, the run with special values is the same -/
theorem solver_lift_on {I : (ι → ℝ) → Prop} {C : Callbacks ι} {D : FCallbacks ι} (h : FiniteOn I C D) {o : Opts} (ho : o.method = "fixed-point")
    (hstep : ∀ s s' : State ι, I s.x → s.f = C.fn s.x → step C o s = .ok s' → I s'.x) (x0 : ι → ℝ) (hx0 : I x0) :
    ∃ s, solver C o x0 = .ok s ∧ solverF D o (fun i => real (x0 i)) = lift s ∧ I s.x := by
  have h0 : initF D (fun i => real (x0 i)) = lift (initState C x0) := by
    unfold initF initState lift
    dsimp only
    rw [h.fn _ hx0, norm_all]
    simp
  unfold solver solverF
  rw [h0]
  exact loop_lift h ho hstep _ _ hx0 rfl

/-- without infinite values the run is the one of `Model/Solver` -/
theorem solver_lift {C : Callbacks ι} {D : FCallbacks ι} (h : Finite C D) {o : Opts} (ho : o.method = "fixed-point") (x0 : ι → ℝ) :
    ∃ s, solver C o x0 = .ok s ∧ solverF D o (fun i => real (x0 i)) = lift s := by
  obtain ⟨s, h1, h2, -⟩ := solver_lift_on h ho (fun _ _ _ _ _ => trivial) x0 trivial
  exact ⟨s, h1, h2⟩

/-- an undefined value at the initial point ends the run at once: the initial point is returned, after no step -/
theorem solver_nan {D : FCallbacks ι} {x0 : ι → Fl} {i : ι} (h : D.fn x0 i = nan) (o : Opts) :
    solverF D o x0 = { x := x0, f := D.fn x0, norm := nan, diff := real 1, dx_old := fun _ => real 0, n_steps := 0, norm_seq := [nan], diff_seq := [real 1], alfa_seq := [] } := by
  have hn : norm (fun _ => True) (D.fn x0) = nan := if_pos ⟨i, trivial, h⟩
  have h0 : initF D x0 = { x := x0, f := D.fn x0, norm := nan, diff := real 1, dx_old := fun _ => real 0, n_steps := 0, norm_seq := [nan], diff_seq := [real 1], alfa_seq := [] } := by
    unfold initF
    simp only [hn]
  unfold solverF
  rw [h0]
  cases o.max_steps with
  | zero => rfl
  | succ k => exact if_neg fun hc => by simpa [lt] using hc.1

/-! ### infinite parameters -/

/-- the map is infinite exactly on `Z`, whenever the parameters are finite off `Z` and finite or infinite on `Z` -/
def Blows (Z : ι → Prop) (D : FCallbacks ι) : Prop :=
  ∀ x : ι → Fl, (∀ i, ∃ r, x i = real r ∨ Z i ∧ x i = inf) → ∀ i, (Z i → D.fn x i = inf) ∧ (¬Z i → ∃ r, D.fn x i = real r)

/-- states of a run that has passed the first step -/
structure Blown (Z : ι → Prop) (s : FState ι) : Prop where
  xz : ∀ i, Z i → s.x i = inf
  xf : ∀ i, ¬Z i → ∃ r, s.x i = real r
  fz : ∀ i, Z i → s.f i = inf
  ff : ∀ i, ¬Z i → ∃ r, s.f i = real r
  dz : ∀ i, Z i → s.dx_old i = inf
  df : ∀ i, ¬Z i → ∃ r, s.dx_old i = real r
  norm : s.norm = inf
  diff : ∀ e : ℝ, e < 1 → lt (real e) s.diff
  steps : s.n_steps ≠ 0

/-- the line search returns a positive step length -/
def Positive (Z : ι → Prop) (D : FCallbacks ι) : Prop :=
  ∀ (x dx dx_old : ι → Fl) (k : ℕ), (∀ i, Z i → dx i = inf) → (∀ i, ¬Z i → ∃ r, dx i = real r) → 0 < D.search x dx dx_old 1 0.5 k

theorem scale_inf {a : ℝ} (h : 0 < a) : scale a inf = inf := by simp [scale, h.ne', h.le]

theorem norm_blown {Z : ι → Prop} {z : ι} (hz : Z z) {f : ι → Fl} (h1 : ∀ i, Z i → f i = inf) (h2 : ∀ i, ¬Z i → ∃ r, f i = real r) : norm (fun _ => True) f = inf := by
  refine norm_inf (fun i hi => ?_) trivial (h1 z hz)
  by_cases k : Z i
  · rw [h1 i k] at hi; simp at hi
  · obtain ⟨r, hr⟩ := h2 i k; rw [hr] at hi; simp at hi

theorem step_blown {Z : ι → Prop} {z : ι} (hz : Z z) {D : FCallbacks ι} (hB : Blows Z D) (hP : Positive Z D) (ls : Bool) (s : FState ι)
    (hx : ∀ i, ∃ r, s.x i = real r ∨ Z i ∧ s.x i = inf) (hf1 : ∀ i, Z i → s.f i = inf) (hf2 : ∀ i, ¬Z i → ∃ r, s.f i = real r) :
    Blown Z (stepF D ls s) := by
  have dz : ∀ i, Z i → (if s.x i = inf then inf else sub (s.f i) (s.x i)) = inf := fun i hi => by
    obtain ⟨r, hr | ⟨-, hr⟩⟩ := hx i
    · rw [hr, if_neg (by simp), hf1 i hi]; rfl
    · rw [if_pos hr]
  have xr : ∀ i, ¬Z i → ∃ r, s.x i = real r := fun i hi => by
    obtain ⟨r, hr | ⟨h, -⟩⟩ := hx i
    · exact ⟨r, hr⟩
    · exact absurd h hi
  have df : ∀ i, ¬Z i → ∃ r, (if s.x i = inf then inf else sub (s.f i) (s.x i)) = real r := fun i hi => by
    obtain ⟨r, hr⟩ := xr i hi
    obtain ⟨t, ht⟩ := hf2 i hi
    rw [hr, if_neg (by simp), ht]
    exact ⟨_, rfl⟩
  have ha : 0 < (if ls then D.search s.x (fun i => if s.x i = inf then inf else sub (s.f i) (s.x i)) s.dx_old 1 0.5 s.n_steps else 1) := by
    cases ls
    · simp
    · rw [if_pos rfl]; exact hP _ _ _ _ dz df
  generalize hA : (if ls then D.search s.x (fun i => if s.x i = inf then inf else sub (s.f i) (s.x i)) s.dx_old 1 0.5 s.n_steps else 1) = a at ha
  have xz' : ∀ i, Z i → add (s.x i) (scale a (if s.x i = inf then inf else sub (s.f i) (s.x i))) = inf := fun i hi => by
    rw [dz i hi, scale_inf ha]
    obtain ⟨r, hr | ⟨-, hr⟩⟩ := hx i <;> rw [hr] <;> rfl
  have xf' : ∀ i, ¬Z i → ∃ r, add (s.x i) (scale a (if s.x i = inf then inf else sub (s.f i) (s.x i))) = real r := fun i hi => by
    obtain ⟨r, hr⟩ := xr i hi
    obtain ⟨t, ht⟩ := df i hi
    rw [ht, hr]
    exact ⟨_, rfl⟩
  have hB' := hB (fun i => add (s.x i) (scale a (if s.x i = inf then inf else sub (s.f i) (s.x i)))) fun i => by
    by_cases hi : Z i
    · exact ⟨0, .inr ⟨hi, xz' i hi⟩⟩
    · obtain ⟨r, hr⟩ := xf' i hi; exact ⟨r, .inl hr⟩
  unfold stepF
  dsimp only
  rw [hA]
  refine ⟨xz', xf', fun i hi => (hB' i).1 hi, fun i hi => (hB' i).2 hi, fun i hi => ?_, fun i hi => ?_, ?_, ?_, Nat.succ_ne_zero _⟩
  · dsimp only; rw [dz i hi, scale_inf ha]
  · obtain ⟨t, ht⟩ := df i hi; dsimp only; rw [ht]; exact ⟨_, rfl⟩
  · exact norm_blown hz (fun i hi => (hB' i).1 hi) fun i hi => (hB' i).2 hi
  · intro e he
    dsimp only
    have hn : ∀ i, (if sub (add (s.x i) (scale a (if s.x i = inf then inf else sub (s.f i) (s.x i)))) (s.x i) = nan then real (-1)
        else sub (add (s.x i) (scale a (if s.x i = inf then inf else sub (s.f i) (s.x i)))) (s.x i)) ≠ nan := fun i => by
      split_ifs with h <;> simp_all
    by_cases hk : ∃ i, (if sub (add (s.x i) (scale a (if s.x i = inf then inf else sub (s.f i) (s.x i)))) (s.x i) = nan then real (-1)
        else sub (add (s.x i) (scale a (if s.x i = inf then inf else sub (s.f i) (s.x i)))) (s.x i)) = inf
    · obtain ⟨i, hi⟩ := hk
      rw [norm_inf hn trivial hi]
      trivial
    · push Not at hk
      have hr : ∀ i, ∃ r, (if sub (add (s.x i) (scale a (if s.x i = inf then inf else sub (s.f i) (s.x i)))) (s.x i) = nan then real (-1)
        else sub (add (s.x i) (scale a (if s.x i = inf then inf else sub (s.f i) (s.x i)))) (s.x i)) = real r ∧ (Z i → r = -1) := fun i => by
        by_cases hi : Z i
        · have h1 := hk i
          rw [xz' i hi] at h1 ⊢
          obtain ⟨r, hr | ⟨-, hr⟩⟩ := hx i
          · rw [hr, if_neg (by simp [sub, neg, add])] at h1; exact absurd rfl h1
          · rw [hr, if_pos (show sub inf inf = nan from rfl)]; exact ⟨-1, rfl, fun _ => rfl⟩
        · obtain ⟨t, ht⟩ := xf' i hi
          obtain ⟨r, hr⟩ := xr i hi
          rw [ht, hr, if_neg (by simp [sub, neg, add])]
          exact ⟨_, rfl, fun h => absurd h hi⟩
      choose r hr1 hr2 using hr
      rw [funext hr1, norm_all]
      show e < norm2 r
      refine he.trans_le ?_
      unfold norm2
      refine Real.le_sqrt_of_sq_le ?_
      calc (1 : ℝ) ^ 2 = r z ^ 2 := by rw [hr2 z hz]; norm_num
        _ ≤ _ := single_le_sum (f := fun i => r i ^ 2) (fun i _ => sq_nonneg _) (mem_univ z)

theorem loop_blown {Z : ι → Prop} {z : ι} (hz : Z z) {D : FCallbacks ι} (hB : Blows Z D) (hP : Positive Z D) {o : Opts} (he : o.eps < 1) (k : ℕ) (s : FState ι)
    (hs : Blown Z s) : Blown Z (loopF D o k s) ∧ (loopF D o k s).n_steps = s.n_steps + k := by
  induction k generalizing s with
  | zero => exact ⟨hs, rfl⟩
  | succ k ih =>
    unfold loopF
    rw [if_pos ⟨by rw [hs.norm]; trivial, hs.diff _ he⟩]
    have h1 := step_blown hz hB hP o.linsearch s (fun i => by
      by_cases hi : Z i
      · exact ⟨0, .inr ⟨hi, hs.xz i hi⟩⟩
      · obtain ⟨r, hr⟩ := hs.xf i hi; exact ⟨r, .inl hr⟩) hs.fz hs.ff
    obtain ⟨h2, h3⟩ := ih _ h1
    exact ⟨h2, h3.trans (by show s.n_steps + 1 + k = _; omega)⟩

theorem loop_succ {Z : ι → Prop} {z : ι} (hz : Z z) {D : FCallbacks ι} (hB : Blows Z D) (hP : Positive Z D) {o : Opts} (he : o.eps < 1) (k : ℕ) (s : FState ι)
    (hs : Blown Z s) : loopF D o (k + 1) s = stepF D o.linsearch (loopF D o k s) := by
  induction k generalizing s with
  | zero => unfold loopF loopF; rw [if_pos ⟨by rw [hs.norm]; trivial, hs.diff _ he⟩]
  | succ k ih =>
    have h1 := step_blown hz hB hP o.linsearch s (fun i => by
      by_cases hi : Z i
      · exact ⟨0, .inr ⟨hi, hs.xz i hi⟩⟩
      · obtain ⟨r, hr⟩ := hs.xf i hi; exact ⟨r, .inl hr⟩) hs.fz hs.ff
    have h2 : ∀ k, loopF D o (k + 1) s = loopF D o k (stepF D o.linsearch s) := fun k => by
      rw [loopF, if_pos ⟨by rw [hs.norm]; trivial, hs.diff _ he⟩]
    rw [h2, ih _ h1, h2]

/-- a run with infinite values uses all steps -/
theorem solver_blown {Z : ι → Prop} {z : ι} (hz : Z z) {D : FCallbacks ι} (hB : Blows Z D) (hP : Positive Z D) {o : Opts} (he : o.eps < 1) (hm : o.max_steps ≠ 0) (x0 : ι → ℝ) :
    Blown Z (solverF D o fun i => real (x0 i)) ∧ (solverF D o fun i => real (x0 i)).n_steps = o.max_steps := by
  obtain ⟨m, hm⟩ := Nat.exists_eq_succ_of_ne_zero hm
  have h0 := hB (fun i => real (x0 i)) fun i => ⟨x0 i, .inl rfl⟩
  have hn : norm (fun _ => True) (D.fn fun i => real (x0 i)) = inf := norm_blown hz (fun i hi => (h0 i).1 hi) fun i hi => (h0 i).2 hi
  unfold solverF
  rw [hm]
  unfold loopF
  rw [if_pos ⟨by show lt (real o.tol) (norm _ (D.fn _)); rw [hn]; trivial, he⟩]
  have h1 := step_blown hz hB hP o.linsearch (initF D fun i => real (x0 i)) (fun i => ⟨x0 i, .inl rfl⟩) (fun i hi => (h0 i).1 hi) fun i hi => (h0 i).2 hi
  obtain ⟨h2, h3⟩ := loop_blown hz hB hP he m _ h1
  exact ⟨h2, h3.trans (by show 0 + 1 + m = m + 1; omega)⟩

/-- one more step -/
theorem solver_succ {Z : ι → Prop} {z : ι} (hz : Z z) {D : FCallbacks ι} (hB : Blows Z D) (hP : Positive Z D) {o : Opts} (he : o.eps < 1) (hm : o.max_steps ≠ 0) (x0 : ι → ℝ) :
    solverF D { o with max_steps := o.max_steps + 1 } (fun i => real (x0 i)) = stepF D o.linsearch (solverF D o fun i => real (x0 i)) := by
  obtain ⟨m, hm⟩ := Nat.exists_eq_succ_of_ne_zero hm
  have h0 := hB (fun i => real (x0 i)) fun i => ⟨x0 i, .inl rfl⟩
  have hn : norm (fun _ => True) (D.fn fun i => real (x0 i)) = inf := norm_blown hz (fun i hi => (h0 i).1 hi) fun i hi => (h0 i).2 hi
  have hf : lt (real o.tol) (initF D fun i => real (x0 i)).norm ∧ lt (real o.eps) (initF D fun i => real (x0 i)).diff :=
    ⟨by show lt (real o.tol) (norm _ (D.fn _)); rw [hn]; trivial, he⟩
  have hl : ∀ k s, loopF D { o with max_steps := o.max_steps + 1 } k s = loopF D o k s := fun k => by
    induction k with
    | zero => intro s; rfl
    | succ k ih => intro s; unfold loopF; rw [ih]
  unfold solverF
  dsimp only
  rw [hl, hm]
  have h1 := step_blown hz hB hP o.linsearch (initF D fun i => real (x0 i)) (fun i => ⟨x0 i, .inl rfl⟩) (fun i hi => (h0 i).1 hi) fun i hi => (h0 i).2 hi
  have h2 : ∀ k, loopF D o (k + 1) (initF D fun i => real (x0 i)) = loopF D o k (stepF D o.linsearch (initF D fun i => real (x0 i))) := fun k => by
    rw [loopF, if_pos hf]
  rw [h2, h2, loop_succ hz hB hP he _ _ h1]

theorem backtrack_never {c : ℝ → Prop} (h : ∀ a, 0 < a → ¬c a) {b : ℝ} (hb : 0 < b) (k : ℕ) {a : ℝ} (ha : 0 < a) : backtrack c b k a = a * b ^ k := by
  induction k generalizing a with
  | zero => simp [backtrack]
  | succ k ih =>
    unfold backtrack
    rw [if_neg (h a ha), ih (mul_pos ha hb)]
    ring

theorem backtrack_pos {c : ℝ → Prop} {b : ℝ} (hb : 0 < b) (k : ℕ) {a : ℝ} (ha : 0 < a) : 0 < backtrack c b k a := by
  induction k generalizing a with
  | zero => exact ha
  | succ k ih =>
    unfold backtrack
    split_ifs
    · exact ha
    · exact ih (mul_pos ha hb)

theorem backtrack_le {c : ℝ → Prop} {b : ℝ} (hb : 0 < b) (hb1 : b < 1) (k : ℕ) {a : ℝ} (ha : 0 < a) : backtrack c b k a ≤ a := by
  induction k generalizing a with
  | zero => exact le_rfl
  | succ k ih =>
    unfold backtrack
    split_ifs
    · exact le_rfl
    · exact (ih (mul_pos ha hb)).trans (by nlinarith)

theorem search_positive (D : FCallbacks ι) (Z : ι → Prop) (h : D.search = (fun _ => searchCMexp) ∨ D.search = fun _ => searchDCMexp) : Positive Z D := by
  intro x dx dx_old k _ _
  rcases h with h | h <;> rw [h] <;> dsimp only
  · unfold searchCMexp
    split_ifs
    · exact backtrack_pos (by norm_num) _ one_pos
    · exact one_pos
  · unfold searchDCMexp
    split_ifs
    · exact one_pos
    · exact backtrack_pos (by norm_num) _ (by norm_num)
    · exact one_pos

/-- with infinite entries the search of cm_exp always halves 50 times -/
theorem searchCMexp_blown {Z : ι → Prop} {z : ι} (hz : Z z) {dx dx_old : ι → Fl} (h1 : ∀ i, Z i → dx i = inf) (h2 : ∀ i, ¬Z i → ∃ r, dx i = real r)
    (h3 : ∀ i, Z i → dx_old i = inf) (h4 : ∀ i, ¬Z i → ∃ r, dx_old i = real r) {k : ℕ} (hk : k ≠ 0) : searchCMexp dx dx_old 1 0.5 k = 0.5 ^ 50 := by
  unfold searchCMexp
  rw [if_pos hk, backtrack_never (fun a ha => ?_) (by norm_num) 50 one_pos, one_mul]
  rw [norm_blown hz h3 h4, norm_blown hz (f := fun i => scale a (dx i)) (fun i hi => by rw [h1 i hi, scale_inf ha]) fun i hi => by
    obtain ⟨r, hr⟩ := h2 i hi; rw [hr]; exact ⟨_, rfl⟩]
  simp [lt]

/-- with infinite entries the search of dcm_exp halves at least once -/
theorem searchDCMexp_blown {Z : ι → Prop} {z : ι} (hz : Z z) {dx dx_old : ι → Fl} (h1 : ∀ i, Z i → dx i = inf) (h2 : ∀ i, ¬Z i → ∃ r, dx i = real r)
    (h3 : ∀ i, Z i → dx_old i = inf) (h4 : ∀ i, ¬Z i → ∃ r, dx_old i = real r) {k : ℕ} (hk : k ≠ 0) : searchDCMexp dx dx_old 1 0.5 k ≤ 0.5 := by
  unfold searchDCMexp
  rw [if_pos hk, if_neg]
  · exact (backtrack_le (by norm_num) (by norm_num) _ (by norm_num)).trans (by norm_num)
  · rw [norm_blown hz h3 h4, norm_blown hz (f := fun i => scale 1 (dx i)) (fun i hi => by rw [h1 i hi, scale_inf one_pos]) fun i hi => by
      obtain ⟨r, hr⟩ := h2 i hi; rw [hr]; exact ⟨_, rfl⟩]
    simp [lt]

end

end Verif.Flt
