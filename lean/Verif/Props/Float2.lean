import Verif.Model.Float2
import Verif.Props.Float
import Verif.Props.Runs
import Verif.Props.CremaFixed

/-!
C81: undefined values end a run at its initial guess (`Model/Float2`).
-/

set_option linter.unusedSectionVars false

namespace Verif.Flt

open Verif Finset Solver Spec Solve Fl FixedPoint

noncomputable section

open Classical in
attribute [local instance 0] propDecidable

variable {n : ℕ}

/-! ### sums -/

theorem sumF_real (g : Fin n → ℝ) : sumF (fun j => real (g j)) = real (∑ j, g j) := by
  have h : ∀ (l : List (Fin n)) (a : ℝ), l.foldl (fun s j => add s (real (g j))) (real a) = real (a + (l.map g).sum) := by
    intro l
    induction l with
    | nil => intro a; simp
    | cons i l ih => intro a; simp only [List.foldl_cons, List.map_cons, List.sum_cons]; rw [show add (real a) (real (g i)) = real (a + g i) from rfl, ih]; congr 1; ring
  refine (h (List.finRange n) 0).trans ?_
  rw [zero_add, ← List.ofFn_eq_map, List.sum_ofFn]

/-- a sum with an infinite entry is infinite or undefined -/
theorem sumF_inf {v : Fin n → Fl} {i : Fin n} (hi : v i = inf) : sumF v = inf ∨ sumF v = nan := by
  have h1 : ∀ (l : List (Fin n)) (a : Fl), a = inf ∨ a = nan → l.foldl (fun s j => add s (v j)) a = inf ∨ l.foldl (fun s j => add s (v j)) a = nan := by
    intro l
    induction l with
    | nil => exact fun a h => h
    | cons j l ih =>
      intro a h
      refine ih _ ?_
      have ha : ∀ w, add inf w = inf ∨ add inf w = nan := fun w => by cases w <;> simp [add]
      rcases h with rfl | rfl
      · exact ha _
      · exact .inr rfl
  have h2 : ∀ (l : List (Fin n)) (a : Fl), i ∈ l → l.foldl (fun s j => add s (v j)) a = inf ∨ l.foldl (fun s j => add s (v j)) a = nan := by
    intro l
    induction l with
    | nil => intro a h; simp at h
    | cons j l ih =>
      intro a h
      rcases List.mem_cons.1 h with rfl | h
      · refine h1 l _ ?_
        show add a (v i) = inf ∨ add a (v i) = nan
        rw [hi]
        cases a <;> simp [add]
      · exact ih _ h
  exact h2 _ _ (List.mem_finRange i)

theorem sum_sub_self (g : Fin n → ℝ) (i : Fin n) : (∑ j, g j) - g i = ∑ j, if j = i then 0 else g j := by
  rw [← Finset.sum_erase_eq_sub (Finset.mem_univ i), ← Finset.sum_subset (Finset.erase_subset i univ)]
  · exact Finset.sum_congr rfl fun j hj => (if_neg (Finset.ne_of_mem_erase hj)).symm
  · intro j _ hj
    exact if_pos (by simpa using hj)

theorem div_real {a b : ℝ} (h : b ≠ 0) : div a b = real (a / b) := if_pos h

theorem quot_real {a b : ℝ} (h : b ≠ 0) : quot (real a) (real b) = real (a / b) := div_real h

theorem add_nan (a : Fl) : add a nan = nan := by cases a <;> rfl

theorem neg_nan' : neg nan = nan := rfl

theorem link_nonneg {x : Fin n → ℝ} (hx : ∀ i, 0 ≤ x i) (i j : Fin n) : 0 ≤ linkValue x i j := by
  unfold linkValue
  have := mul_nonneg (hx i) (hx j)
  positivity

/-! ### crema-sparse -/

/-- the gradient of crema-sparse at a node of parameter 0 is undefined, whatever the other values -/
theorem prime_nan {s x : Fin n → ℝ} (hx : ∀ i, 0 ≤ x i) {β : Fin n → Fl} {i : Fin n} (hi : β i = real 0) : primeSparse s x β i = nan := by
  unfold primeSparse
  have h0 : quot (real (linkValue x i i)) (add (β i) (β i)) = inf ∨ quot (real (linkValue x i i)) (add (β i) (β i)) = nan := by
    rw [hi, show add (real 0) (real 0) = real (0 + 0) from rfl, add_zero]
    show div _ 0 = inf ∨ div _ 0 = nan
    unfold Fl.div
    rw [if_neg (by simp)]
    rcases (link_nonneg hx i i).lt_or_eq with h | h
    · exact .inl (if_pos h)
    · rw [← h]; simp
  dsimp only
  rcases h0 with h | h
  · rw [h]
    rcases sumF_inf (v := fun j => quot (real (linkValue x i j)) (add (β i) (β j))) h with hs | hs <;> rw [hs] <;> rfl
  · rw [h]
    unfold Fl.sub
    rw [neg_nan', add_nan, add_nan]

/-- the fixed-point map of crema-sparse at a node of parameter 0 is undefined -/
theorem iterative_nan {s x : Fin n → ℝ} {β : Fin n → Fl} {i : Fin n} (hi : β i = real 0) : iterativeSparse s x β i = nan := by
  unfold iterativeSparse
  dsimp only
  have : quot (β i) (β i) = nan := by rw [hi]; show div 0 0 = nan; simp [Fl.div]
  rw [this, add_nan, show quot (real (linkValue x i i)) nan = nan from rfl, add_nan]
  rfl

/-- the gradient on finite values without zero divisors -/
theorem prime_real {s x β : Fin n → ℝ} {sched : List (Fin n)} (hp : sched.Perm (List.finRange n)) {i : Fin n} (h : ∀ j, β i + β j ≠ 0) :
    primeSparse s x (fun j => real (β j)) i = real (CReMa.loglikelihood_prime_crema_undirected_sparse sched β s x i) := by
  rw [CReMa.prime_sparse_eq sched (hp.nodup_iff.2 (List.nodup_finRange n)) β s x i (hp.mem_iff.2 (List.mem_finRange i))]
  unfold primeSparse
  have h1 : ∀ j, quot (real (linkValue x i j)) (add (real (β i)) (real (β j))) = real (linkValue x i j / (β i + β j)) := fun j => quot_real (h j)
  simp only [h1]
  rw [sumF_real]
  refine Eq.trans ?_ (congrArg (fun t => real (-s i + t)) (sum_sub_self (fun j => linkValue x i j / (β i + β j)) i))
  show real (0 - s i + (_ + -_)) = real _
  rw [zero_sub, ← sub_eq_add_neg]

/-- the map on finite values without zero divisors -/
theorem iterative_real {s x β : Fin n → ℝ} {sched : List (Fin n)} (hp : sched.Perm (List.finRange n)) {i : Fin n} (hs : 0 ≤ s i) (hi : β i ≠ 0) (h : ∀ j, 1 + β j / β i ≠ 0) :
    iterativeSparse s x (fun j => real (β j)) i = real (CReMa.iterative_crema_undirected_sparse sched β s x i) := by
  rw [CReMa.iter_sparse_eq sched (hp.nodup_iff.2 (List.nodup_finRange n)) β s x i (hp.mem_iff.2 (List.mem_finRange i))]
  unfold iterativeSparse
  have h1 : ∀ j, quot (real (linkValue x i j)) (add (real 1) (quot (real (β j)) (real (β i)))) = real (linkValue x i j / (1 + β j / β i)) := fun j => by
    rw [quot_real hi]
    exact quot_real (h j)
  simp only [h1]
  rw [sumF_real]
  have he : s i + Real.exp (-100) ≠ 0 := (add_pos_of_nonneg_of_pos hs (Real.exp_pos _)).ne'
  refine (quot_real he).trans ?_
  refine Eq.trans ?_ (congrArg (fun t => real (-t / (s i + Real.exp (-100)))) (sum_sub_self (fun j => linkValue x i j / (1 + β j / β i)) i))
  rw [neg_sub, ← neg_add_eq_sub]

theorem solverG_nan {ι : Type} [Fintype ι] [DecidableEq ι] {fn : (ι → Fl) → ι → Fl} {x0 : ι → Fl} {i : ι} (h : fn x0 i = nan) (body : FState ι → FState ι) (o : Opts) :
    solverG fn body o x0 =
      { x := x0, f := fn x0, norm := nan, diff := real 1, dx_old := fun _ => real 0, n_steps := 0, norm_seq := [nan], diff_seq := [real 1], alfa_seq := [] } := by
  have hn : norm (fun _ => True) (fn x0) = nan := if_pos ⟨i, trivial, h⟩
  unfold solverG initF
  simp only [hn]
  cases o.max_steps with
  | zero => rfl
  | succ k => exact if_neg fun hc => by simpa [lt] using hc.1

theorem solverG_fixed {ι : Type} [Fintype ι] [DecidableEq ι] (D : FCallbacks ι) (o : Opts) (x0 : ι → Fl) : solverG D.fn (stepF D o.linsearch) o x0 = solverF D o x0 := by
  have h : ∀ k (s : FState ι), loopG (stepF D o.linsearch) o k s = loopF D o k s := by
    intro k
    induction k with
    | zero => exact fun s => rfl
    | succ k ih => intro s; unfold loopG loopF; rw [ih]
  unfold solverG solverF
  rw [h]
  rfl

variable [NeZero n]

theorem guessCrema_zero (e : Env) {d : UData n} {guess : Guess n} {β0 : Fin n → ℝ} (h : (guessCrema e d guess).1 = .ok β0) {i : Fin n} (hi : d.strength_sequence i = 0) : β0 i = 0 := by
  unfold guessCrema at h
  split at h
  · cases h
  · split at h
    · cases h
    · cases h; simp [maskSet, hi]
  · cases h; simp [maskSet, hi]
  · cases h

/-- C81 is violated by crema-sparse on undirected networks: as soon as one node has strength 0 (for instance an isolated node), the function value at the initial guess is
undefined, for every guess and every method, whatever the passes of the loop would do; the run ends before its first step and the initial guess is returned as the solution,
with the norm `nan`. -/
theorem C81_crema_sparse_zero (e : Env) {d : UData n} {i : Fin n} (hi : d.strength_sequence i = 0) {x : Fin n → ℝ} (hx : ∀ i, 0 ≤ x i) (m : Method)
    (body : FState (Fin n) → FState (Fin n)) (guess : Guess n) (p : Params) {β0 : Fin n → ℝ} (hg : (guessCrema e d guess).1 = .ok β0) :
    ∃ s, runSparse e d x m body guess p = .ok s ∧ s.x = (fun j => real (β0 j)) ∧ s.n_steps = 0 ∧ s.norm_seq = [nan] := by
  have h0 : β0 i = 0 := guessCrema_zero e hg hi
  have hn : fnSparse d x m (fun j => real (β0 j)) i = nan := by
    cases m
    · show neg _ = nan; rw [prime_nan hx (by rw [h0])]; rfl
    · show neg _ = nan; rw [prime_nan hx (by rw [h0])]; rfl
    · show neg _ = nan; rw [iterative_nan (by rw [h0])]; rfl
  have hr : runSparse e d x m body guess p = .ok (solverG (fnSparse d x m) body (p.opts m.name) fun j => real (β0 j)) := by unfold runSparse; rw [hg]; rfl
  rw [solverG_nan hn] at hr
  exact ⟨_, hr, rfl, rfl, rfl⟩

/-- C81, where the gradient of crema-sparse is undefined: on finite parameters it is the one of `Model/CReMa` at every node whose parameter is not minus that of a node (itself
included), and undefined at every node of parameter 0. -/
theorem C81_where_crema_sparse (s x β : Fin n → ℝ) (hx : ∀ i, 0 ≤ x i) {sched : List (Fin n)} (hp : sched.Perm (List.finRange n)) (i : Fin n) :
    ((∀ j, β i + β j ≠ 0) → primeSparse s x (fun j => real (β j)) i = real (CReMa.loglikelihood_prime_crema_undirected_sparse sched β s x i)) ∧
      (β i = 0 → primeSparse s x (fun j => real (β j)) i = nan) ∧
      (0 ≤ s i → β i ≠ 0 → (∀ j, 1 + β j / β i ≠ 0) → iterativeSparse s x (fun j => real (β j)) i = real (CReMa.iterative_crema_undirected_sparse sched β s x i)) ∧
      (β i = 0 → iterativeSparse s x (fun j => real (β j)) i = nan) :=
  ⟨fun h => prime_real hp h, fun h => prime_nan hx (by rw [h]), fun hs hi h => iterative_real hp hs hi h, fun h => iterative_nan (by rw [h])⟩

/-! ### crema-sparse without zero strengths -/

theorem normStage_len (dx dxo : Fin n → ℝ) (t : ℕ) : 0 < normStage dx dxo 1 0.5 t ∧ normStage dx dxo 1 0.5 t ≤ 1 := by
  unfold normStage
  split_ifs
  · exact ⟨backtrack_pos (by norm_num) _ one_pos, backtrack_le (by norm_num) (by norm_num) _ one_pos⟩
  · exact ⟨one_pos, le_rfl⟩

theorem sparse_positive (hn : 2 ≤ n) {s x β : Fin n → ℝ} (hs : ∀ i, 0 < s i) (hx : ∀ i, 0 < x i) (hβ : ∀ i, 0 < β i) {sched : List (Fin n)}
    (hp : sched.Perm (List.finRange n)) (i : Fin n) : 0 < -CReMa.iterative_crema_undirected_sparse sched β s x i := by
  rw [CReMa.iter_sparse_eq sched (hp.nodup_iff.2 (List.nodup_finRange n)) β s x i (hp.mem_iff.2 (List.mem_finRange i)), neg_div, neg_neg]
  have hterm : ∀ j, 0 < CReMa.pr x i j / (1 + β j / β i) := fun j => by
    have h1 := mul_pos (hx i) (hx j)
    have h2 := div_pos (hβ j) (hβ i)
    unfold CReMa.pr
    positivity
  refine div_pos ?_ (add_pos (hs i) (Real.exp_pos _))
  obtain ⟨j, hj⟩ : ∃ j : Fin n, j ≠ i := by
    have : Nontrivial (Fin n) := Fin.nontrivial_iff_two_le.2 hn
    exact exists_ne i
  refine lt_of_lt_of_le (hterm j) ?_
  refine le_trans (le_of_eq ?_) (Finset.single_le_sum (f := fun j => if j = i then 0 else CReMa.pr x i j / (1 + β j / β i)) (fun k _ => ?_) (mem_univ j))
  · exact (if_neg hj).symm
  · show 0 ≤ ite _ _ _
    split_ifs
    · exact le_rfl
    · exact (hterm k).le

/-- C81 (crema-sparse, undirected, fixed point, part): when all strengths and all fitnesses of the binary model are positive, no special value occurs in the whole run, which
is the one of `Model/Solver`.  Missing: the other methods; for a strength 0 the property fails (`C81_crema_sparse_zero`). -/
theorem C81_crema_sparse_fixed_partial (e : Env) (he : e.Valid) (hr : e.NonzeroDraws) (hn : 2 ≤ n) {d : UData n} (hs : ∀ i, 0 < d.strength_sequence i) {x : Fin n → ℝ}
    (hx : ∀ i, 0 < x i) (guess : Guess n) (hg : guess.PositiveRates d) (p : Params) :
    ∃ β0 s, (guessCrema e d guess).1 = .ok β0 ∧ solver (cbCremaSparse e d x .fixed_point) (p.opts "fixed-point") β0 = .ok s ∧
      runSparse e d x .fixed_point (stepF (fcbSparse d x) p.linsearch) guess p = .ok (lift s) ∧ ∀ i, 0 < s.x i := by
  obtain ⟨β0, g', hb, hpos, -⟩ := guessCrema_positive e he hr d (fun i => (hs i).le) guess hg
  have hsched := he.sched n
  have hF : FiniteOn (fun β => ∀ i, 0 < β i) (cbCremaSparse e d x .fixed_point) (fcbSparse d x) := by
    refine ⟨fun β hβ => funext fun i => ?_, fun y dx dxo a b k _ => ?_⟩
    · show neg (iterativeSparse _ _ _ i) = real (-CReMa.iterative_crema_undirected_sparse (e.sched n) β d.strength_sequence x i)
      rw [iterative_real hsched (hs i).le (hβ i).ne' fun j => (add_pos one_pos (div_pos (hβ j) (hβ i))).ne']
      rfl
    · show some (normStage dx dxo a b k) = some (searchCMexp _ _ a b k)
      unfold normStage searchCMexp
      congr 1
      split_ifs
      · congr 1
        funext t
        rw [show (fun i => scale t (real (dx i))) = fun i => real ((t • dx) i) from rfl, norm_all, norm_all]
        rfl
      · rfl
  have hstep : ∀ s s' : State (Fin n), (∀ i, 0 < s.x i) → s.f = (cbCremaSparse e d x .fixed_point).fn s.x → step (cbCremaSparse e d x .fixed_point) (p.opts "fixed-point") s = .ok s' →
      ∀ i, 0 < s'.x i := by
    intro s s' hI hf h i
    obtain ⟨dx, a, h1, h2, rfl⟩ := step_ok h
    have hdx : dx = (cbCremaSparse e d x .fixed_point).fn s.x - s.x := by
      have h1' : direction (cbCremaSparse e d x .fixed_point) (p.opts "fixed-point") s.x s.f = .ok (s.f - s.x) := by simp [direction, Params.opts]
      rw [h1'] at h1
      rw [← hf]; exact (Except.ok.inj h1).symm
    have ha : 0 < a ∧ a ≤ 1 := by
      unfold stepLength at h2
      cases hl : p.linsearch <;> simp [Params.opts, hl, cbCremaSparse, linsearch_fun_crema_undirected_fixed] at h2 <;> rw [← h2]
      · exact ⟨one_pos, le_rfl⟩
      · exact normStage_len _ _ _
    have hfp := sparse_positive hn hs hx hI hsched i
    show 0 < s.x i + a * dx i
    rw [hdx]
    show 0 < s.x i + a * (-CReMa.iterative_crema_undirected_sparse (e.sched n) s.x d.strength_sequence x i - s.x i)
    have h3 := mul_pos ha.1 hfp
    have h4 := mul_nonneg (sub_nonneg.2 ha.2) (hI i).le
    nlinarith
  obtain ⟨s, h1, h2, h3⟩ := solver_lift_on hF (o := p.opts "fixed-point") rfl hstep β0 fun i => hpos i (hs i).ne'
  have hb' : (guessCrema e d guess).1 = .ok β0 := by rw [hb]
  refine ⟨β0, s, hb', h1, ?_, h3⟩
  have hr : runSparse e d x .fixed_point (stepF (fcbSparse d x) p.linsearch) guess p =
      .ok (solverG (fcbSparse d x).fn (stepF (fcbSparse d x) (p.opts "fixed-point").linsearch) (p.opts "fixed-point") fun j => real (β0 j)) := by
    unfold runSparse; rw [hb']; rfl
  rw [hr, solverG_fixed, h2]

/-! ### dcm -/

/-- node `i` has no out-link (in-link) and no other node has an in-link (out-link) -/
def DStar (d : DData n) : Prop := ∃ i, (d.dseq_out i = 0 ∧ ∀ j, j ≠ i → d.dseq_in j = 0) ∨ (d.dseq_in i = 0 ∧ ∀ j, j ≠ i → d.dseq_out j = 0)

/-- degrees that a network without self-loops can have -/
def Placeable (d : DData n) : Prop := ∀ i, (d.dseq_out i ≠ 0 → ∃ j, j ≠ i ∧ d.dseq_in j ≠ 0) ∧ (d.dseq_in i ≠ 0 → ∃ j, j ≠ i ∧ d.dseq_out j ≠ 0)

/-- the degrees of every network without self-loops are such degrees, and the star is the network whose links all end (all start) in one node without other links -/
theorem placeable_network (A : Fin n → Fin n → ℕ) (hA : ∀ i, A i i = 0) {d : DData n} (ho : ∀ i, d.dseq_out i = ∑ j, A i j) (hi : ∀ j, d.dseq_in j = ∑ i, A i j) :
    Placeable d ∧ (DStar d ↔ ∃ c, (∀ i j, A i j ≠ 0 → j = c) ∨ ∀ i j, A i j ≠ 0 → i = c) := by
  have hz : ∀ j, d.dseq_in j = 0 ↔ ∀ i, A i j = 0 := fun j => by rw [hi]; simp [Finset.sum_eq_zero_iff]
  have hz' : ∀ i, d.dseq_out i = 0 ↔ ∀ j, A i j = 0 := fun i => by rw [ho]; simp [Finset.sum_eq_zero_iff]
  refine ⟨fun i => ⟨fun h => ?_, fun h => ?_⟩, ?_⟩
  · rw [Ne, hz'] at h
    push Not at h
    obtain ⟨j, hj⟩ := h
    exact ⟨j, fun hji => hj (hji ▸ hA i), fun h0 => hj ((hz j).1 h0 i)⟩
  · rw [Ne, hz] at h
    push Not at h
    obtain ⟨j, hj⟩ := h
    exact ⟨j, fun hji => hj (hji ▸ hA j), fun h0 => hj ((hz' j).1 h0 i)⟩
  · constructor
    · rintro ⟨c, ⟨-, h⟩ | ⟨-, h⟩⟩
      · exact ⟨c, .inl fun i j hij => by by_contra hj; exact hij ((hz j).1 (h j hj) i)⟩
      · exact ⟨c, .inr fun i j hij => by by_contra hj; exact hij ((hz' i).1 (h i hj) j)⟩
    · rintro ⟨c, h | h⟩
      · refine ⟨c, .inl ⟨(hz' c).2 fun j => ?_, fun j hj => (hz j).2 fun i => ?_⟩⟩
        · by_contra hc; exact hc (h c j hc ▸ hA c)
        · by_contra hc; exact hj (h i j hc)
      · refine ⟨c, .inr ⟨(hz c).2 fun j => ?_, fun j hj => (hz' j).2 fun i => ?_⟩⟩
        · by_contra hc; exact hc (h j c hc ▸ hA c)
        · by_contra hc; exact hj (h j i hc)

theorem linked_of_not_star {d : DData n} (hp : Placeable d) (h : ¬DStar d) : d.Linked := by
  unfold DStar at h
  push Not at h
  intro i
  refine ⟨?_, ?_⟩
  · by_cases h0 : d.dseq_out i = 0
    · exact (h i).1 h0
    · exact (hp i).1 h0
  · by_cases h0 : d.dseq_in i = 0
    · exact (h i).2 h0
    · exact (hp i).2 h0

theorem iterativeDCM_real {r : ℕ} (ko ki c : Fin r → ℝ) (x : Fin 2 × Fin r → ℝ) (v : Fin 2 × Fin r) :
    iterativeDCM ko ki c (fun w => real (x w)) v = div (DCM.concat ko ki v) (DCM.iterative_den x c v) := if_neg (by simp)

/-- an undefined value exactly at 0/0 -/
theorem div_nan {a b : ℝ} : div a b = nan ↔ a = 0 ∧ b = 0 := by
  unfold Fl.div
  split_ifs <;> simp_all <;> linarith

theorem adm_of_guess {d : DData n} {x0 : Fin 2 × Fin d.r → ℝ} (h : ∀ i, ((d.dseq_out i ≠ 0 → 0 < x0 (0, d.inv i)) ∧ (d.dseq_out i = 0 → x0 (0, d.inv i) = 0)) ∧
    (d.dseq_in i ≠ 0 → 0 < x0 (1, d.inv i)) ∧ (d.dseq_in i = 0 → x0 (1, d.inv i) = 0)) : AdmDCM0 d x0 := by
  have ho : ∀ i, d.ko (d.inv i) = 0 ↔ d.dseq_out i = 0 := fun i => by rw [(d.class_of i).1]; exact Nat.cast_eq_zero
  have hi : ∀ i, d.ki (d.inv i) = 0 ↔ d.dseq_in i = 0 := fun i => by rw [(d.class_of i).2]; exact Nat.cast_eq_zero
  refine ⟨⟨fun q hq => ?_, fun q hq => ?_⟩, fun q hq => ?_, fun q hq => ?_⟩ <;> obtain ⟨i, rfl⟩ := d.inv_surj q
  · exact (h i).1.1 fun h0 => hq ((ho i).2 h0)
  · exact (h i).2.1 fun h0 => hq ((hi i).2 h0)
  · exact (h i).1.2 ((ho i).1 hq)
  · exact (h i).2.2 ((hi i).1 hq)

/-- where the map of dcm is undefined: at admissible parameters, exactly on the stars -/
theorem dcm_nan_iff {d : DData n} (hp : Placeable d) {x : Fin 2 × Fin d.r → ℝ} (hx : AdmDCM0 d x) : (∃ v, iterativeDCM d.ko d.ki d.c (fun w => real (x w)) v = nan) ↔ DStar d := by
  constructor
  · rintro ⟨v, hv⟩
    by_contra h
    rw [iterativeDCM_real, div_nan] at hv
    exact (Solve.den_pos d (linked_of_not_star hp h) x hx.nonneg hx.1 v).ne' hv.2
  · have hz : ∀ v : Fin 2 × Fin n, two d.degOut d.degIn v = 0 → x (v.1, d.inv v.2) = 0 := by
      rintro ⟨b, i⟩ h
      fin_cases b
      · exact hx.2.1 _ ((d.class_of i).1.trans h)
      · exact hx.2.2 _ ((d.class_of i).2.trans h)
    have key : ∀ v : Fin 2 × Fin n, two d.degOut d.degIn v = 0 → (∀ j, j ≠ v.2 → two d.degOut d.degIn (v.1 + 1, j) = 0) →
        iterativeDCM d.ko d.ki d.c (fun w => real (x w)) (v.1, d.inv v.2) = nan := by
      intro v h0 h
      rw [iterativeDCM_real, d.concat_inv, div_nan]
      refine ⟨h0, ?_⟩
      rw [← d.den_inv]
      refine Finset.sum_eq_zero fun j hj => ?_
      have := hz (v.1 + 1, j) (h j (Finset.mem_filter.1 hj).2)
      dsimp only at this ⊢
      rw [this, zero_div]
    rintro ⟨i, ⟨h0, h⟩ | ⟨h0, h⟩⟩
    · exact ⟨_, key (0, i) (Nat.cast_eq_zero.2 h0) fun j hj => Nat.cast_eq_zero.2 (h j hj)⟩
    · exact ⟨_, key (1, i) (Nat.cast_eq_zero.2 h0) fun j hj => Nat.cast_eq_zero.2 (h j hj)⟩

theorem searchDCM_real {ι : Type} [Fintype ι] [DecidableEq ι] (order : List ι) (x dx dxo : ι → ℝ) (a b : ℝ) (k : ℕ) :
    linsearch_fun_DCM_fixed order x dx dxo a b k = searchDCM order (fun i => real (x i)) (fun i => real (dx i)) (fun i => real (dxo i)) a b k := by
  have hpos : ∀ (l : List ι) (a : ℝ), positivityStage' l x dx a = forL l (fun i alfa =>
      match real (x i), real (dx i) with
      | real xi, real di =>
        if di ≠ 0 then
          let a := (0.01 - 1) * xi / di
          if a > 0 then min alfa a else alfa
        else alfa
      | _, _ => alfa) a := by
    intro l
    induction l with
    | nil => exact fun a => rfl
    | cons i l ih =>
      intro a
      unfold positivityStage' forL at ih ⊢
      by_cases h : dx i = 0
      · simpa [h] using ih a
      · simpa [h] using ih _
  unfold linsearch_fun_DCM_fixed normStage searchDCM
  rw [hpos]
  dsimp only
  split_ifs
  · congr 1
    funext t
    rw [show (fun i => scale t (real (dx i))) = fun i => real ((t • dx) i) from rfl, norm_all, norm_all]
    rfl
  · rfl

/-- C81 (dcm, fixed point): the degrees of a network.  On a star the value at the initial guess is undefined, the run ends before its first step and the initial guess is
returned as the solution with the norm `nan`; this violates the property.  On every other network, for every guess that gives positive fitnesses and with the line search on,
no special value occurs in the whole run, which is the one of `Model/Solver`.  Missing: a run without the line search. -/
theorem C81_dcm_partial (e : Env) (he : e.Valid) (hr : e.NonzeroDraws) {d : DData n} (hsum : ∑ i, d.dseq_in i = ∑ i, d.dseq_out i) (hp : Placeable d) (guess : DGuess n)
    (hg : guess.Positive d) (p : Params) :
    (DStar d → ∃ x0 s, guessDCM e d false guess = .ok x0 ∧ runDCM e d guess p = .ok s ∧ s.x = (fun q => real (x0 q)) ∧ s.n_steps = 0 ∧ s.norm_seq = [nan]) ∧
      (¬DStar d → p.linsearch = true → ∃ x0 s, guessDCM e d false guess = .ok x0 ∧ solver (cbDCM e d .fixed_point) (p.opts "fixed-point") x0 = .ok s ∧
        runDCM e d guess p = .ok (lift s)) := by
  obtain ⟨x0, h0, hpos⟩ := guessDCM_positive e he hr d hsum guess hg
  have hadm : AdmDCM0 d x0 := adm_of_guess hpos
  have hrun : runDCM e d guess p = .ok (solverF (fcbDCM d) (p.opts "fixed-point") fun q => real (x0 q)) := by unfold runDCM; rw [h0]; rfl
  refine ⟨fun hst => ?_, fun hst hl => ?_⟩
  · obtain ⟨v, hv⟩ := (dcm_nan_iff hp hadm).2 hst
    rw [solver_nan (D := fcbDCM d) hv] at hrun
    exact ⟨x0, _, h0, hrun, rfl, rfl, rfl⟩
  · have hL := linked_of_not_star hp hst
    have hF : FiniteOn (AdmDCM0 d) (cbDCM e d .fixed_point) (fcbDCM d) := by
      refine ⟨fun x hx => funext fun v => ?_, fun x dx dxo a b k _ => ?_⟩
      · show iterativeDCM d.ko d.ki d.c _ v = real (DCM.concat d.ko d.ki v / DCM.iterative_den x d.c v)
        rw [iterativeDCM_real, div_real (Solve.den_pos d hL x hx.nonneg hx.1 v).ne']
      · exact congrArg some (searchDCM_real _ x dx dxo a b k)
    obtain ⟨s, h1, h2, -⟩ := solver_lift_on hF (o := p.opts "fixed-point") rfl (fun s s' hI hf h => by
      obtain ⟨dx, a, hd, hsl, rfl⟩ := step_ok h
      exact dcm_step_pos e he .fixed_point p hl s dx a hI hf hd hsl) x0 hadm
    exact ⟨x0, s, h0, h1, by rw [hrun, h2]⟩

end

end Verif.Flt
