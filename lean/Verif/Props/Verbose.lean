import Verif.Spec.Verbose
import Verif.Lemmas.Solver
import Verif.Props.Regulariser
import Verif.Props.Monotone

/-! C74: `verbose=True` only prints, and prints the truth. -/

set_option linter.unusedSectionVars false

namespace Verif.Verbose

open Finset Verif Verif.Solver Verif.Spec

noncomputable section

open Classical in
attribute [local instance 0] propDecidable

variable {ι : Type*} [Fintype ι] [DecidableEq ι] [Nonempty ι]

/-- the result of a silent run as a result of a verbose one -/
def lift {α : Type*} : Except Err α → Except ErrV α
  | .error e => .error (.run e)
  | .ok a => .ok a

variable (C : Callbacks ι) (P : Probe ι) (o : Opts)

theorem stepV_error {s : State ι} {e : Err} (h : step C o s = .error e) : stepV C P o s = ([], .error (.run e)) := by
  unfold step at h
  unfold stepV
  cases h1 : direction C o s.x s.f with
  | error e' => rw [h1] at h; simp_all
  | ok dx =>
    rw [h1] at h
    dsimp only at h ⊢
    cases h2 : stepLength C o s dx with
    | error e' => rw [h2] at h; simp_all
    | ok a => rw [h2] at h; simp at h

/-- a pass that succeeds, with the lines it prints -/
theorem stepV_ok {s s' : State ι} (h : step C o s = .ok s') (hm : o.method ≠ "newton" ∨ o.regularise = true) :
    ∃ (l : List (Line ι)) (alfa : ℝ), stepV C P o s = (l, .ok s') ∧ s'.n_steps = s.n_steps + 1 ∧
      norms l = [s'.norm] ∧ s'.norm_seq = s.norm_seq ++ [s'.norm] ∧
      diffs l = [s'.diff] ∧ s'.diff_seq = s.diff_seq ++ [s'.diff] ∧
      alphas l = [alfa] ∧ s'.alfa_seq = (if o.linsearch then s.alfa_seq ++ [alfa] else s.alfa_seq) ∧ (o.linsearch = false → alfa = 1) ∧
      stepNumbers l = [s'.n_steps] ∧ counts l = [] ∧
      objectives l = (if o.method = "newton" ∨ o.method = "quasinewton" then [P.step_fun s'.x] else []) ∧
      newMinEigs l = (if o.method = "newton" then [npMin (P.eigvals (C.hessian_regulariser (C.jac s.x) (maxAbs (C.fn s.x) * o.regularise_eps)))] else []) := by
  obtain ⟨dx, alfa, h1, h2, rfl⟩ := step_ok h
  have h3 : o.linsearch = false → alfa = 1 := by
    intro hl
    simp only [stepLength, hl, Bool.false_eq_true, false_and, if_false, Except.ok.injEq] at h2
    exact h2.symm
  by_cases hn : o.method = "newton"
  · have hr : o.regularise = true := hm.resolve_left (fun h => h hn)
    simp only [stepV, h1, h2, hn, hr, if_true, eigLines, true_or]
    refine ⟨_, alfa, rfl, ?_, ?_, ?_, ?_, ?_, ?_, ?_, h3, ?_, ?_, ?_, ?_⟩ <;> first | trivial | rfl
  · simp only [stepV, h1, h2, hn, if_false, false_or]
    by_cases hq : o.method = "quasinewton"
    · simp only [hq, if_true]
      refine ⟨_, alfa, rfl, ?_, ?_, ?_, ?_, ?_, ?_, ?_, h3, ?_, ?_, ?_, ?_⟩ <;> first | trivial | rfl
    · simp only [hq, if_false]
      refine ⟨_, alfa, rfl, ?_, ?_, ?_, ?_, ?_, ?_, ?_, h3, ?_, ?_, ?_, ?_⟩ <;> first | trivial | rfl

theorem loopV_result (hm : o.method ≠ "newton" ∨ o.regularise = true) : ∀ (k : ℕ) (s : State ι), (loopV C P o k s).2 = lift (loop C o k s) := by
  intro k
  induction k with
  | zero => intro s; rfl
  | succ k ih =>
    intro s
    rw [loopV, loop]
    split_ifs with hc
    · cases h : step C o s with
      | error e => rw [stepV_error C P o h]; rfl
      | ok s' =>
        obtain ⟨l, a, hl, -⟩ := stepV_ok C P o h hm
        rw [hl]
        exact ih s'
    · rfl

theorem solverV_result (x0 : ι → ℝ) : (solverV C P o x0).2 = (loopV C P o o.max_steps (initState C x0)).2 := by
  unfold solverV
  dsimp only
  rcases h : loopV C P o o.max_steps (initState C x0) with ⟨l, _ | r⟩ <;> rfl

/-- C74 (result): with `verbose=True` the call ends as with `verbose=False` - same point, same sequences, same exception - for every method and every option,
except newton with `regularise=False`. -/
theorem C74_verbose_same_partial (x0 : ι → ℝ) (hm : o.method ≠ "newton" ∨ o.regularise = true) :
    (∀ r, (solverV C P o x0).2 = .ok r ↔ solver C o x0 = .ok r) ∧ (∀ e, (solverV C P o x0).2 = .error (.run e) ↔ solver C o x0 = .error e) ∧
    (solverV C P o x0).2 ≠ .error .unboundEig := by
  rw [solverV_result, loopV_result C P o hm]
  unfold solver
  cases loop C o o.max_steps (initState C x0) with
  | error e => simp [lift]
  | ok r => simp [lift]

theorem norms_append (a b : List (Line ι)) : norms (a ++ b) = norms a ++ norms b := List.filterMap_append
theorem diffs_append (a b : List (Line ι)) : diffs (a ++ b) = diffs a ++ diffs b := List.filterMap_append
theorem alphas_append (a b : List (Line ι)) : alphas (a ++ b) = alphas a ++ alphas b := List.filterMap_append
theorem stepNumbers_append (a b : List (Line ι)) : stepNumbers (a ++ b) = stepNumbers a ++ stepNumbers b := List.filterMap_append
theorem objectives_append (a b : List (Line ι)) : objectives (a ++ b) = objectives a ++ objectives b := List.filterMap_append
theorem counts_append (a b : List (Line ι)) : counts (a ++ b) = counts a ++ counts b := List.filterMap_append
theorem newMinEigs_append (a b : List (Line ι)) : newMinEigs (a ++ b) = newMinEigs a ++ newMinEigs b := List.filterMap_append

theorem loopV_log (hm : o.method ≠ "newton" ∨ o.regularise = true) : ∀ (k : ℕ) (s r : State ι), loop C o k s = .ok r →
    let l := (loopV C P o k s).1
    ∃ m, r.n_steps = s.n_steps + m ∧
      r.norm_seq = s.norm_seq ++ norms l ∧ r.diff_seq = s.diff_seq ++ diffs l ∧
      (o.linsearch = true → r.alfa_seq = s.alfa_seq ++ alphas l) ∧ (o.linsearch = false → alphas l = List.replicate m 1) ∧
      stepNumbers l = List.range' (s.n_steps + 1) m ∧ counts l = [] ∧
      (objectives l).length = (if o.method = "newton" ∨ o.method = "quasinewton" then m else 0) ∧
      (0 < m → o.method = "newton" ∨ o.method = "quasinewton" → (objectives l).getLast? = some (P.step_fun r.x)) ∧
      (m = 0 → r = s) := by
  intro k
  induction k with
  | zero =>
    intro s r h
    simp only [loop, Except.ok.injEq] at h
    subst h
    exact ⟨0, by simp, by simp [loopV, norms], by simp [loopV, diffs], by simp [loopV, alphas], by simp [loopV, alphas], by simp [loopV, stepNumbers],
      by simp [loopV, counts], by simp [loopV, objectives], by simp, by simp⟩
  | succ k ih =>
    intro s r h
    rw [loop] at h
    rw [loopV]
    by_cases hc : s.norm > o.tol ∧ s.diff > o.eps
    · rw [if_pos hc] at h
      simp only [if_pos hc]
      cases hs : step C o s with
      | error e => simp [hs] at h
      | ok s' =>
        rw [hs] at h
        obtain ⟨l, a, hl, h1, h2, h3, h4, h5, h6, h7, h8, h9, h10, h11, -⟩ := stepV_ok C P o hs hm
        obtain ⟨m, i1, i2, i3, i4, i5, i6, i7, i8, i9, i10⟩ := ih s' r h
        rw [hl]
        dsimp only
        refine ⟨m + 1, by omega, ?_, ?_, ?_, ?_, ?_, ?_, ?_, ?_, by simp⟩
        · rw [i2, h3, norms_append, h2]; simp
        · rw [i3, h5, diffs_append, h4]; simp
        · intro hls
          rw [i4 hls, h7, if_pos hls, alphas_append, h6]; simp
        · intro hls
          rw [alphas_append, h6, i5 hls, h8 hls]; rfl
        · rw [stepNumbers_append, h9, i6, h1, List.range'_succ]; rfl
        · rw [counts_append, h10, i7]; rfl
        · rw [objectives_append, h11, List.length_append, i8]
          split_ifs <;> simp; omega
        · intro _ hq
          rw [objectives_append, h11, if_pos hq]
          rcases Nat.eq_zero_or_pos m with hm0 | hm0
          · rw [if_pos hq, hm0] at i8
            rw [List.eq_nil_of_length_eq_zero i8, i10 hm0]; rfl
          · rw [List.getLast?_append, i9 hm0 hq]; rfl
    · rw [if_neg hc] at h
      simp only [if_neg hc]
      simp only [Except.ok.injEq] at h
      subst h
      exact ⟨0, by simp, by simp [norms], by simp [diffs], by simp [alphas], by simp [alphas], by simp [stepNumbers],
        by simp [counts], by simp [objectives], by simp, by simp⟩

/-- C74 (log): what a successful verbose call prints is what it did.  The residual norms printed (first that of the guess) are the sequence `norm_seq`
that `full_return=True` returns, the differences printed are `diff_seq` without its first entry, the step lengths are `alfa_seq` (1 without line search), the steps are
numbered from 1, the count at the end is the number of steps, one value of the objective is printed for each step of newton and quasinewton, none for fixed-point,
and the last one is the objective at the point returned. -/
theorem C74_verbose_log_partial (x0 : ι → ℝ) (hm : o.method ≠ "newton" ∨ o.regularise = true) (r : State ι) (h : solver C o x0 = .ok r) :
    let l := (solverV C P o x0).1
    norms l = r.norm_seq ∧ 1 :: diffs l = r.diff_seq ∧ (if o.linsearch then alphas l = r.alfa_seq else alphas l = List.replicate r.n_steps 1) ∧
    stepNumbers l = List.range' 1 r.n_steps ∧ counts l = [r.n_steps] ∧
    (objectives l).length = (if o.method = "newton" ∨ o.method = "quasinewton" then r.n_steps else 0) ∧
    (0 < r.n_steps → o.method = "newton" ∨ o.method = "quasinewton" → (objectives l).getLast? = some (P.step_fun r.x)) := by
  obtain ⟨m, i1, i2, i3, i4, i5, i6, i7, i8, i9, i10⟩ := loopV_log C P o hm o.max_steps (initState C x0) r h
  have hres : (loopV C P o o.max_steps (initState C x0)).2 = .ok r := by
    rw [loopV_result C P o hm]
    exact congrArg lift h
  have hn : r.n_steps = m := by rw [i1]; simp [initState]
  unfold solverV
  dsimp only
  rcases hL : loopV C P o o.max_steps (initState C x0) with ⟨l, x⟩
  rw [hL] at hres i2 i3 i4 i5 i6 i7 i8 i9
  dsimp only at hres i2 i3 i4 i5 i6 i7 i8 i9
  subst hres
  dsimp only
  have hs : (initState C x0).n_steps = 0 ∧ (initState C x0).norm_seq = [(initState C x0).norm] ∧ (initState C x0).diff_seq = [1] ∧ (initState C x0).alfa_seq = [] :=
    ⟨rfl, rfl, rfl, rfl⟩
  rw [hs.2.1] at i2
  rw [hs.2.2.1] at i3
  rw [hs.2.2.2] at i4
  rw [hs.1] at i6
  refine ⟨?_, ?_, ?_, ?_, ?_, ?_, ?_⟩
  · rw [i2]; simp [norms]
  · rw [i3]; simp [diffs]
  · cases hls : o.linsearch
    · simpa [alphas, hn] using i5 hls
    · simpa [alphas] using (i4 hls).symm
  · rw [hn]; simpa [stepNumbers] using i6
  · rw [counts_append, counts_append, i7]; rfl
  · rw [hn]
    simpa [objectives] using i8
  · intro h0 hq
    have := i9 (hn ▸ h0) hq
    simpa [objectives] using this

/-- C74 fails for newton with `regularise=False`: whenever the silent call takes at least one step, the verbose call raises instead of returning,
after it has printed the first step. -/
theorem C74_verbose_newton_fails (x0 : ι → ℝ) (hm : o.method = "newton") (hr : o.regularise = false) (r : State ι) (h : solver C o x0 = .ok r) (hs : 0 < r.n_steps) :
    (solverV C P o x0).2 = .error .unboundEig ∧ stepNumbers (solverV C P o x0).1 = [1] := by
  have hk : ∃ k, o.max_steps = k + 1 := by
    cases hmx : o.max_steps with
    | zero => rw [solver, hmx] at h; simp only [loop, Except.ok.injEq] at h; subst h; simp [initState] at hs
    | succ k => exact ⟨k, rfl⟩
  obtain ⟨k, hk⟩ := hk
  unfold solverV
  rw [solver, hk, loop] at h
  dsimp only
  rw [hk, loopV]
  split_ifs at h ⊢ with hc
  · cases hst : step C o (initState C x0) with
    | error e => simp [hst] at h
    | ok s' =>
      obtain ⟨dx, alfa, h1, h2, rfl⟩ := step_ok hst
      simp only [stepV, h1, h2, hm, hr, if_true, true_or, eigLines, Bool.false_eq_true, if_false]
      exact ⟨trivial, rfl⟩
  · simp only [Except.ok.injEq] at h; subst h; simp [initState] at hs

/-! ### The printed eigenvalues -/

theorem npMin_pos {t : ι → ℝ} (h : ∀ i, 0 < t i) : 0 < npMin t := by
  unfold npMin
  rw [Finset.lt_inf'_iff]
  exact fun i _ => h i

/-- the eigenvalues of a positive definite matrix are positive -/
theorem eigh_pos {B : Matrix ι ι ℝ} (hB : PosDef B) {t : ι → ℝ} {e : Matrix ι ι ℝ} (h : IsEigh B t e) (i : ι) : 0 < t i := by
  have hv : quad B (e.mulVec (Pi.single i 1)) = t i := by
    conv_lhs => rw [h.decomp]
    rw [quad_conj, Matrix.mulVec_mulVec, h.orth, Matrix.one_mulVec, quad_diagonal]
    rw [Finset.sum_eq_single i]
    · simp
    · intro j _ hj; simp [Pi.single_eq_of_ne hj]
    · simp
  rw [← hv]
  refine hB.2 _ fun h0 => ?_
  have : (e.transpose.mulVec (e.mulVec (Pi.single i (1 : ℝ)))) i = 1 := by
    rw [Matrix.mulVec_mulVec, h.orth, Matrix.one_mulVec]; simp
  rw [h0] at this
  simp at this

/-- C74 (eigenvalues): if the regularised matrix is positive definite wherever the residual is not zero, every "new mim eig" printed is positive. -/
theorem C74_new_min_eig_pos (x0 : ι → ℝ) (hm : o.method = "newton") (hr : o.regularise = true) (ht : 0 ≤ o.tol)
    (hP : ∀ B : Matrix ι ι ℝ, PosDef B → ∃ e, IsEigh B (P.eigvals B) e)
    (hreg : ∀ x, C.fn x ≠ 0 → PosDef (C.hessian_regulariser (C.jac x) (maxAbs (C.fn x) * o.regularise_eps))) :
    ∀ v ∈ newMinEigs (solverV C P o x0).1, 0 < v := by
  have key : ∀ (k : ℕ) (s : State ι), s.norm = norm2 (C.fn s.x) → ∀ v ∈ newMinEigs (loopV C P o k s).1, 0 < v := by
    intro k
    induction k with
    | zero => intro s _ v hv; simp [loopV, newMinEigs] at hv
    | succ k ih =>
      intro s hs v hv
      rw [loopV] at hv
      split_ifs at hv with hc
      · cases hst : step C o s with
        | error e => rw [stepV_error C P o hst] at hv; simp [newMinEigs] at hv
        | ok s' =>
          obtain ⟨l, a, hl, h1, h2, h3, h4, h5, h6, h7, h8, h9, h10, h11, h12⟩ := stepV_ok C P o hst (.inr hr)
          rw [hl] at hv
          dsimp only at hv
          rw [newMinEigs_append, h12, if_pos hm, List.mem_append] at hv
          rcases hv with hv | hv
          · rw [List.mem_singleton] at hv
            rw [hv]
            have hf : C.fn s.x ≠ 0 := by
              intro h0
              have : s.norm = 0 := by rw [hs, h0]; simp [norm2]
              linarith [hc.1]
            obtain ⟨e, he⟩ := hP _ (hreg _ hf)
            exact npMin_pos (eigh_pos (hreg _ hf) he)
          · refine ih s' ?_ v hv
            obtain ⟨dx, alfa, -, -, rfl⟩ := step_ok hst
            rfl
      · simp [newMinEigs] at hv
  intro v hv
  refine key o.max_steps (initState C x0) rfl v ?_
  unfold solverV at hv
  dsimp only at hv
  rcases hL : loopV C P o o.max_steps (initState C x0) with ⟨l, _ | r⟩ <;> rw [hL] at hv <;> simpa [newMinEigs] using hv

theorem npMin_least (t : ι → ℝ) : IsLeast (Set.range t) (npMin t) := by
  refine ⟨?_, ?_⟩
  · obtain ⟨i, -, h⟩ := exists_mem_eq_inf' univ_nonempty t
    exact ⟨i, h.symm⟩
  · rintro _ ⟨i, rfl⟩
    exact inf'_le t (mem_univ i)

theorem npMax_greatest (t : ι → ℝ) : IsGreatest (Set.range t) (npMax t) := by
  refine ⟨?_, ?_⟩
  · obtain ⟨i, -, h⟩ := exists_mem_eq_sup' univ_nonempty t
    exact ⟨i, h.symm⟩
  · rintro _ ⟨i, rfl⟩
    exact le_sup' t (mem_univ i)

/-- the regularised matrix at a point -/
def regularised (x : ι → ℝ) : Matrix ι ι ℝ := C.hessian_regulariser (C.jac x) (maxAbs (C.fn x) * o.regularise_eps)

theorem stepV_eigen {s s' : State ι} (h : step C o s = .ok s') (hm : o.method = "newton") (hr : o.regularise = true) :
    (stepV C P o s).2 = .ok s' ∧ EigenLog P.eigvals C.jac (regularised C o) (stepV C P o s).1 1 := by
  obtain ⟨dx, alfa, h1, h2, rfl⟩ := step_ok h
  simp only [stepV, h1, h2, hm, hr, if_true, eigLines, true_or]
  exact ⟨trivial, [(_, _, _, _)], rfl, fun q hq => by rw [List.mem_singleton] at hq; subst hq; exact ⟨s.x, npMin_least _, npMax_greatest _, npMin_least _, npMax_greatest _⟩, rfl, rfl, rfl, rfl, rfl, rfl⟩

theorem EigenLog.append {E : Matrix ι ι ℝ → ι → ℝ} {J R : (ι → ℝ) → Matrix ι ι ℝ} {l l' : List (Line ι)} {k k' : ℕ} (h : EigenLog E J R l k) (h' : EigenLog E J R l' k') :
    EigenLog E J R (l ++ l') (k + k') := by
  obtain ⟨v, a0, a1, a2, a3, a4, a5, a6, a7⟩ := h
  obtain ⟨w, b0, b1, b2, b3, b4, b5, b6, b7⟩ := h'
  refine ⟨v ++ w, by rw [List.length_append, a0, b0], fun q hq => (List.mem_append.1 hq).elim (a1 q) (b1 q), ?_, ?_, ?_, ?_, ?_, ?_⟩
  · rw [minEigs, List.filterMap_append, List.map_append, ← a2, ← b2]; rfl
  · rw [maxEigs, List.filterMap_append, List.map_append, ← a3, ← b3]; rfl
  · rw [conds, List.filterMap_append, List.map_append, ← a4, ← b4]; rfl
  · rw [newMinEigs, List.filterMap_append, List.map_append, ← a5, ← b5]; rfl
  · rw [newMaxEigs, List.filterMap_append, List.map_append, ← a6, ← b6]; rfl
  · rw [newConds, List.filterMap_append, List.map_append, ← a7, ← b7]; rfl

/-- C74 (condition numbers): a successful verbose newton call prints, for each step, the smallest and the largest eigenvalue of the matrix
before and after the regularisation, and as condition number the quotient largest / smallest of the two values printed. -/
theorem C74_condition_numbers (x0 : ι → ℝ) (hm : o.method = "newton") (hr : o.regularise = true) (r : State ι) (h : solver C o x0 = .ok r) :
    EigenLog P.eigvals C.jac (regularised C o) (solverV C P o x0).1 r.n_steps := by
  have h0 : EigenLog P.eigvals C.jac (regularised C o) ([] : List (Line ι)) 0 := ⟨[], rfl, fun q hq => absurd hq List.not_mem_nil, rfl, rfl, rfl, rfl, rfl, rfl⟩
  have key : ∀ (k : ℕ) (s r : State ι), loop C o k s = .ok r → ∃ m, r.n_steps = s.n_steps + m ∧ EigenLog P.eigvals C.jac (regularised C o) (loopV C P o k s).1 m := by
    intro k
    induction k with
    | zero =>
      intro s r h
      simp only [loop, Except.ok.injEq] at h
      subst h
      exact ⟨0, rfl, h0⟩
    | succ k ih =>
      intro s r h
      rw [loop] at h
      rw [loopV]
      by_cases hc : s.norm > o.tol ∧ s.diff > o.eps
      · rw [if_pos hc] at h
        simp only [if_pos hc]
        cases hs : step C o s with
        | error e => simp [hs] at h
        | ok s' =>
          rw [hs] at h
          obtain ⟨h2, h1⟩ := stepV_eigen C P o hs hm hr
          obtain ⟨m, i1, i2⟩ := ih s' r h
          have hst : s'.n_steps = s.n_steps + 1 := by
            obtain ⟨dx, alfa, -, -, rfl⟩ := step_ok hs
            rfl
          rcases hV : stepV C P o s with ⟨l, x⟩
          rw [hV] at h1 h2
          dsimp only at h1 h2
          subst h2
          exact ⟨1 + m, by omega, h1.append i2⟩
      · rw [if_neg hc] at h
        simp only [if_neg hc]
        simp only [Except.ok.injEq] at h
        subst h
        exact ⟨0, rfl, h0⟩
  obtain ⟨m, i1, i2⟩ := key o.max_steps (initState C x0) r h
  have hn : r.n_steps = m := by rw [i1]; simp [initState]
  rw [hn]
  have h3 : ∀ l : List (Line ι), minEigs l = [] → maxEigs l = [] → conds l = [] → newMinEigs l = [] → newMaxEigs l = [] → newConds l = [] → EigenLog P.eigvals C.jac (regularised C o) l 0 :=
    fun l a b c d e f => ⟨[], rfl, fun q hq => absurd hq List.not_mem_nil, a, b, c, d, e, f⟩
  unfold solverV
  dsimp only
  rcases hL : loopV C P o o.max_steps (initState C x0) with ⟨l, _ | r'⟩ <;> rw [hL] at i2
  · have := (h3 [.x0 x0, .normX0 (initState C x0).norm] rfl rfl rfl rfl rfl rfl).append i2
    rwa [Nat.zero_add] at this
  · have := ((h3 [.x0 x0, .normX0 (initState C x0).norm] rfl rfl rfl rfl rfl rfl).append i2).append
      (h3 [.steps r'.n_steps, .time "toc_init", .time "toc_jacfun", .time "toc_alfa", .time "toc_dx", .time "toc_update", .time "toc_loop", .time "toc_all"] rfl rfl rfl rfl rfl rfl)
    rwa [Nat.zero_add, Nat.add_zero] at this

/-! ### The calls `solve_tool` makes -/

section tool
open Verif.Solve

/-- C74 (`solve_tool(verbose=True)`): the class passes `verbose` on to `solver` and always regularises, so printing never changes the outcome: for every table of callbacks,
every method name and all parameters the verbose call returns the same point and sequences or raises the same exception. -/
theorem C74_verbose_solve_tool (p : Params) (method : String) (x0 : ι → ℝ) :
    (∀ r, (solverV C P (p.opts method) x0).2 = .ok r ↔ solver C (p.opts method) x0 = .ok r) ∧
    (∀ e, (solverV C P (p.opts method) x0).2 = .error (.run e) ↔ solver C (p.opts method) x0 = .error e) ∧
    (solverV C P (p.opts method) x0).2 ≠ .error .unboundEig := C74_verbose_same_partial C P _ x0 (.inr rfl)

theorem env_eigh {ι : Type} [Fintype ι] [DecidableEq ι] {e : Env} (he : e.Valid) (B : Matrix ι ι ℝ) (hB : PosDef B) : ∃ u, IsEigh B (e.eigh ι B).1 u :=
  ⟨_, he.eigh ι B (by ext i j; exact (hB.1 i j).symm)⟩

variable {n : ℕ} [NeZero n]

theorem eigen_posdef {ι : Type} [Fintype ι] [DecidableEq ι] [Nonempty ι] {e : Env} (he : e.Valid) {C : Callbacks ι} (hC : C.hessian_regulariser = eigenRegulariser e)
    (p : Params) (x : ι → ℝ) (hf : C.fn x ≠ 0) : PosDef (C.hessian_regulariser (C.jac x) (maxAbs (C.fn x) * (p.opts "newton").regularise_eps)) := by
  rw [hC]
  refine (C17_regulariser_eigen_posdef _ _ (mul_pos (maxAbs_pos hf) (by norm_num [Params.opts])) _ _ (he.eigh _ _ ?_)).1
  ext i j
  simp [add_comm]
  ring

theorem identity_posdef {ι : Type} [Fintype ι] [DecidableEq ι] [Nonempty ι] {C : Callbacks ι} (hC : C.hessian_regulariser = matrix_regulariser_function)
    (p : Params) (x : ι → ℝ) (hf : C.fn x ≠ 0) (hJ : PosSemi (C.jac x)) : PosDef (C.hessian_regulariser (C.jac x) (maxAbs (C.fn x) * (p.opts "newton").regularise_eps)) := by
  rw [hC]
  exact C17_regulariser_identity_posdef_partial _ _ (mul_pos (maxAbs_pos hf) (by norm_num [Params.opts])) hJ

/-- C74 (eigenvalues, the newton method of every model): every "new mim eig" that is printed is positive, that is, the matrix the direction is computed from is
positive definite in every step.  For cm, ecm, dcm, decm by eigenvalue clipping, for cm_exp and dcm_exp because their Hessians are negative semi-definite everywhere. -/
theorem C74_new_min_eig_models {e : Env} (he : e.Valid) (d : UData n) (d' : DData n) (p : Params) (ht : 0 ≤ p.tol) :
    (∀ F x0, ∀ v ∈ newMinEigs (solverV (cbCM e d .newton) ⟨F, fun B => (e.eigh _ B).1⟩ (p.opts "newton") x0).1, 0 < v) ∧
    (∀ F x0, ∀ v ∈ newMinEigs (solverV (cbCMexp e d .newton) ⟨F, fun B => (e.eigh _ B).1⟩ (p.opts "newton") x0).1, 0 < v) ∧
    (∀ F x0, ∀ v ∈ newMinEigs (solverV (cbECM e d .newton) ⟨F, fun B => (e.eigh _ B).1⟩ (p.opts "newton") x0).1, 0 < v) ∧
    (∀ F x0, ∀ v ∈ newMinEigs (solverV (cbDCM e d' .newton) ⟨F, fun B => (e.eigh _ B).1⟩ (p.opts "newton") x0).1, 0 < v) ∧
    (∀ F x0, ∀ v ∈ newMinEigs (solverV (cbDCMexp e d' .newton) ⟨F, fun B => (e.eigh _ B).1⟩ (p.opts "newton") x0).1, 0 < v) ∧
    (∀ F x0, ∀ v ∈ newMinEigs (solverV (cbDECM e d' .newton) ⟨F, fun B => (e.eigh _ B).1⟩ (p.opts "newton") x0).1, 0 < v) := by
  refine ⟨fun F x0 => ?_, fun F x0 => ?_, fun F x0 => ?_, fun F x0 => ?_, fun F x0 => ?_, fun F x0 => ?_⟩
  · exact C74_new_min_eig_pos _ _ _ x0 rfl rfl ht (fun B hB => env_eigh he B hB) fun x hf => eigen_posdef he rfl p x hf
  · exact C74_new_min_eig_pos _ _ _ x0 rfl rfl ht (fun B hB => env_eigh he B hB) fun x hf => identity_posdef rfl p x hf (Psd.C17_cm_exp_hessian_psd x d.k d.c d.one_le_c)
  · exact C74_new_min_eig_pos _ _ _ x0 rfl rfl ht (fun B hB => env_eigh he B hB) fun x hf => eigen_posdef he rfl p x hf
  · exact C74_new_min_eig_pos _ _ _ x0 rfl rfl ht (fun B hB => env_eigh he B hB) fun x hf => eigen_posdef he rfl p x hf
  · exact C74_new_min_eig_pos _ _ _ x0 rfl rfl ht (fun B hB => env_eigh he B hB) fun x hf => identity_posdef rfl p x hf
      (Psd.C17_dcm_exp_hessian_psd x d'.ko d'.ki _ _ d'.c (DCM.nodup_nonzero _) (DCM.nodup_nonzero _) d'.one_le_c)
  · exact C74_new_min_eig_pos _ _ _ x0 rfl rfl ht (fun B hB => env_eigh he B hB) fun x hf => eigen_posdef he rfl p x hf

end tool

end

end Verif.Verbose
