import Verif.Lemmas.Float
import Verif.Lemmas.FixedModels
import Verif.Props.Reports
import Verif.Props.SolveD
import Mathlib.Analysis.SpecialFunctions.Pow.Real

/-!
C78: the fixed-point method of cm_exp and dcm_exp and degrees 0 (`Model/Float`).
-/

set_option linter.unusedSectionVars false

namespace Verif.Flt

open Verif Finset Solver Spec Solve Fl FixedPoint

noncomputable section

open Classical in
attribute [local instance 0] propDecidable

variable {n : ℕ} [NeZero n]

theorem negLog_pos {a : ℝ} (h : 0 < a) : negLog (real a) = real (-Real.log a) := if_pos h

theorem negLog_zero : negLog (real 0) = inf := by simp [negLog]

/-! ### cm_exp -/

section cm
variable (e : Env) (d : UData n)

theorem loop_sum {m : ℕ} (i : Fin m) [∀ j, Decidable (i = j)] (A B : Fin m → ℝ) : forR m (fun j fx => if i = j then fx + A j else fx + B j) 0 = ∑ j, if i = j then A j else B j := by
  have h : (fun (j : Fin m) (fx : ℝ) => if i = j then fx + A j else fx + B j) = fun j fx => fx + if i = j then A j else B j := by
    funext j fx
    split_ifs <;> rfl
  rw [h, forR_add, zero_add]

/-- the fitness of the classes -/
def fitness {ι : Type*} (x : ι → Fl) : ι → ℝ := fun q => (expNeg (x q)).val

theorem iterativeCMexp_inv {x : Fin d.r → Fl} (hx : ∀ q, x q ≠ ninf ∧ x q ≠ nan) (i : Fin n) :
    iterativeCMexp d.k d.c x (d.inv i) =
      if den (fun v : Fin 2 × Fin n => fitness x (d.inv v.2)) (0, i) ≠ 0 then negLog (real (d.dseq i / den (fun v : Fin 2 × Fin n => fitness x (d.inv v.2)) (0, i))) else real 0 := by
  unfold iterativeCMexp
  rw [if_neg (by rintro ⟨j, h | h⟩; exacts [(hx j).1 h, (hx j).2 h])]
  dsimp only
  rw [loop_sum, d.den_inv (fitness x) (0, i), show (d.k (d.inv i) : ℝ) = d.dseq i from d.k_at_inv i]
  rfl

theorem fitness_nonneg {ι : Type*} {x : ι → Fl} (q : ι) : 0 ≤ fitness x q := by
  unfold fitness
  cases x q <;> simp [expNeg, Fl.val, (Real.exp_pos _).le]

theorem fitness_real {ι : Type*} {x : ι → Fl} {q : ι} {r : ℝ} (h : x q = real r) : fitness x q = Real.exp (-r) := by
  unfold fitness
  rw [h]
  rfl

theorem fitness_inf {ι : Type*} {x : ι → Fl} {q : ι} (h : x q = inf) : fitness x q = 0 := by
  unfold fitness
  rw [h]
  rfl

theorem den_nonneg {z : Fin 2 × Fin n → ℝ} (h : ∀ v, 0 ≤ z v) (v : Fin 2 × Fin n) : 0 ≤ den z v :=
  sum_nonneg fun j _ => div_nonneg (h _) (by have := mul_nonneg (h (v.1 + 1, j)) (h v); linarith)

theorem den_pos {z : Fin 2 × Fin n → ℝ} (h : ∀ v, 0 ≤ z v) {v : Fin 2 × Fin n} {j : Fin n} (hj : j ≠ v.2) (hz : 0 < z (v.1 + 1, j)) : 0 < den z v :=
  sum_pos' (fun j _ => div_nonneg (h _) (by have := mul_nonneg (h (v.1 + 1, j)) (h v); linarith))
    ⟨j, by simp [hj], div_pos hz (by have := mul_nonneg (h (v.1 + 1, j)) (h v); linarith)⟩

theorem inv_onto (q : Fin d.r) : ∃ i, d.inv i = q := by
  obtain ⟨i, hi⟩ := d.exists_class q
  refine ⟨i, ?_⟩
  have : Reduction.r_dseq d.dseq (d.inv i) = Reduction.r_dseq d.dseq q := by rw [← hi]; exact Reduction.r_dseq_invert d.dseq i
  exact (Reduction.r_dseq_strictMono d.dseq).injective this

/-- degree 0 -/
def Isolated (q : Fin d.r) : Prop := d.k q = 0

theorem isolated_inv (i : Fin n) : Isolated d (d.inv i) ↔ d.dseq i = 0 := by
  unfold Isolated
  rw [show (d.k (d.inv i) : ℝ) = d.dseq i from d.k_at_inv i, Nat.cast_eq_zero]

theorem regular {ι : Type*} {Z : ι → Prop} {x : ι → Fl} (h : ∀ q, ∃ r, x q = real r ∨ Z q ∧ x q = inf) (q : ι) : x q ≠ ninf ∧ x q ≠ nan := by
  obtain ⟨r, h | ⟨-, h⟩⟩ := h q <;> rw [h] <;> simp

theorem blows_cm {a : Fin n} (ha : d.dseq a ≠ 0) : Blows (Isolated d) (fcbCMexp d) := by
  intro x hx q
  obtain ⟨i, rfl⟩ := inv_onto d q
  show (_ → iterativeCMexp d.k d.c x _ = inf) ∧ (_ → ∃ r, iterativeCMexp d.k d.c x _ = real r)
  rw [iterativeCMexp_inv d (regular hx), isolated_inv]
  have hd := den_nonneg (z := fun v : Fin 2 × Fin n => fitness x (d.inv v.2)) (fun v => fitness_nonneg _) (0, i)
  refine ⟨fun hi => ?_, fun hi => ?_⟩
  · have hp : 0 < den (fun v : Fin 2 × Fin n => fitness x (d.inv v.2)) (0, i) := by
      refine den_pos (fun v => fitness_nonneg _) (j := a) (fun h => ha (by rw [h]; exact hi)) ?_
      obtain ⟨r, hr | ⟨hr, -⟩⟩ := hx (d.inv a)
      · show 0 < fitness x (d.inv a)
        rw [fitness_real hr]
        exact Real.exp_pos _
      · exact absurd ((isolated_inv d a).1 hr) ha
    rw [if_pos hp.ne', hi]
    simp [negLog]
  · split_ifs with h
    · have : 0 < (d.dseq i : ℝ) / den (fun v : Fin 2 × Fin n => fitness x (d.inv v.2)) (0, i) :=
        div_pos (by exact_mod_cast Nat.pos_of_ne_zero hi) (lt_of_le_of_ne hd (Ne.symm h))
      exact ⟨_, negLog_pos this⟩
    · exact ⟨_, rfl⟩

/-- C78 (cm_exp, fixed point, some degree 0).  The call uses all its steps whatever the tolerance, the reported norm is infinite, and isolated nodes get fitness 0. -/
theorem C78_cm_exp_isolated (guess : Guess n) (p : Params) {z a : Fin n} (hz : d.dseq z = 0) (ha : d.dseq a ≠ 0) (he : p.eps < 1) (hm : p.max_steps ≠ 0)
    {s : FState (Fin d.r)} (hs : runCMexp e d guess p = .ok s) :
    s.n_steps = p.max_steps ∧ s.norm = inf ∧ (∀ i, d.dseq i = 0 → solvedCMexp d s i = real 0) ∧ ∀ i, d.dseq i ≠ 0 → ∃ x, 0 < x ∧ solvedCMexp d s i = real x := by
  unfold runCMexp at hs
  cases hx : guessCM e d true guess with
  | error er => rw [hx] at hs; cases hs
  | ok x0 =>
    rw [hx] at hs
    cases hs
    have hZ : Isolated d (d.inv z) := (isolated_inv d z).2 hz
    obtain ⟨h1, h2⟩ := solver_blown hZ (blows_cm d ha) (search_positive _ _ (.inl rfl)) (o := p.opts "fixed-point") he hm x0
    refine ⟨h2, h1.norm, fun i hi => ?_, fun i hi => ?_⟩
    · unfold solvedCMexp
      rw [h1.xz _ ((isolated_inv d i).2 hi)]
      rfl
    · obtain ⟨r, hr⟩ := h1.xf (d.inv i) (fun h => hi ((isolated_inv d i).1 h))
      exact ⟨_, Real.exp_pos _, by unfold solvedCMexp; rw [hr]; rfl⟩

/-- C78 (cm_exp, fixed point with line search, some degree 0).  From the second step on every step has length 2^-50: with one more step the fitness of a node is
multiplied by (observed / expected degree)^(2^-50), that is, hardly changed. -/
theorem C78_cm_exp_stuck (guess : Guess n) (p : Params) (hl : p.linsearch = true) {z a b : Fin n} (hz : d.dseq z = 0) (ha : d.dseq a ≠ 0) (hb : d.dseq b ≠ 0) (hab : a ≠ b)
    (he : p.eps < 1) (hm : p.max_steps ≠ 0) {s s' : FState (Fin d.r)} (hs : runCMexp e d guess p = .ok s)
    (hs' : runCMexp e d guess { p with max_steps := p.max_steps + 1 } = .ok s') :
    s'.alfa_seq = s.alfa_seq ++ [1 / 2 ^ 50] ∧ ∃ x x' : Fin n → ℝ, (∀ i, solvedCMexp d s i = real (x i) ∧ solvedCMexp d s' i = real (x' i)) ∧
      ∀ i, d.dseq i ≠ 0 → 0 < x i ∧ 0 < degUBCM x i ∧ x' i = x i * (d.dseq i / degUBCM x i) ^ ((1 : ℝ) / 2 ^ 50) := by
  unfold runCMexp at hs hs'
  cases hx : guessCM e d true guess with
  | error er => rw [hx] at hs; cases hs
  | ok x0 =>
    rw [hx] at hs hs'
    cases hs
    cases hs'
    have hZ : Isolated d (d.inv z) := (isolated_inv d z).2 hz
    have hB := blows_cm d ha
    have hP := search_positive (fcbCMexp d) (Isolated d) (.inl rfl)
    obtain ⟨h1, h2⟩ := solver_blown hZ hB hP (o := p.opts "fixed-point") he hm x0
    have h3 : solverF (fcbCMexp d) (({ p with max_steps := p.max_steps + 1 } : Params).opts "fixed-point") (fun q => real (x0 q)) =
        stepF (fcbCMexp d) p.linsearch (solverF (fcbCMexp d) (p.opts "fixed-point") fun q => real (x0 q)) :=
      solver_succ hZ hB hP (o := p.opts "fixed-point") he hm x0
    dsimp only
    rw [h3, hl]
    have hfn : (solverF (fcbCMexp d) (p.opts "fixed-point") fun q => real (x0 q)).f = iterativeCMexp d.k d.c (solverF (fcbCMexp d) (p.opts "fixed-point") fun q => real (x0 q)).x := by
      have key : ∀ k s, s.f = (fcbCMexp d).fn s.x → (loopF (fcbCMexp d) (p.opts "fixed-point") k s).f = (fcbCMexp d).fn (loopF (fcbCMexp d) (p.opts "fixed-point") k s).x := by
        intro k
        induction k with
        | zero => exact fun s h => h
        | succ k ih =>
          intro s h
          unfold loopF
          split_ifs
          · exact ih _ rfl
          · exact h
      exact key _ _ rfl
    generalize hS : (solverF (fcbCMexp d) (p.opts "fixed-point") fun q => real (x0 q)) = s at h1 h2 hfn
    clear hS h3
    have dz : ∀ q, Isolated d q → (if s.x q = inf then inf else sub (s.f q) (s.x q)) = inf := fun q hq => by rw [if_pos (h1.xz q hq)]
    have df : ∀ q, ¬Isolated d q → ∃ r, (if s.x q = inf then inf else sub (s.f q) (s.x q)) = real r := fun q hq => by
      obtain ⟨r, hr⟩ := h1.xf q hq
      obtain ⟨t, ht⟩ := h1.ff q hq
      rw [hr, if_neg (by simp), ht]
      exact ⟨_, rfl⟩
    have hA : (if true = true then (fcbCMexp d).search s.x (fun q => if s.x q = inf then inf else sub (s.f q) (s.x q)) s.dx_old 1 0.5 s.n_steps else 1) = 1 / 2 ^ 50 := by
      rw [if_pos rfl]
      refine (searchCMexp_blown hZ dz df h1.dz h1.df h1.steps).trans ?_
      norm_num
    have hfit : ∀ i, solvedCMexp d s i = real (fitness s.x (d.inv i)) := fun i => by
      unfold solvedCMexp fitness
      by_cases h : Isolated d (d.inv i)
      · rw [h1.xz _ h]; rfl
      · obtain ⟨r, hr⟩ := h1.xf _ h; rw [hr]; rfl
    have hx' : ∀ q, (stepF (fcbCMexp d) true s).x q = add (s.x q) (scale (1 / 2 ^ 50) (if s.x q = inf then inf else sub (s.f q) (s.x q))) := fun q => by
      unfold stepF
      dsimp only
      rw [hA]
    refine ⟨?_, fun i => fitness s.x (d.inv i), fun i => fitness (stepF (fcbCMexp d) true s).x (d.inv i), fun i => ⟨hfit i, ?_⟩, fun i hi => ?_⟩
    · unfold stepF
      dsimp only
      rw [hA, if_pos rfl]
    · unfold solvedCMexp fitness
      dsimp only
      rw [hx']
      by_cases h : Isolated d (d.inv i)
      · rw [h1.xz _ h, if_pos rfl, scale_inf (by norm_num)]; rfl
      · obtain ⟨t, ht⟩ := df _ h
        obtain ⟨r, hr⟩ := h1.xf _ h
        rw [ht, hr]
        rfl
    · have h : ¬Isolated d (d.inv i) := fun h => hi ((isolated_inv d i).1 h)
      have hk : (0 : ℝ) < d.dseq i := by exact_mod_cast Nat.pos_of_ne_zero hi
      obtain ⟨r, hr⟩ := h1.xf _ h
      have hreg := regular (Z := Isolated d) (x := s.x) fun q => by
        by_cases hq : Isolated d q
        · exact ⟨0, .inr ⟨hq, h1.xz q hq⟩⟩
        · obtain ⟨r, hr⟩ := h1.xf q hq; exact ⟨r, .inl hr⟩
      have hpos : ∀ j, d.dseq j ≠ 0 → 0 < fitness s.x (d.inv j) := fun j hj => by
        obtain ⟨r, hr⟩ := h1.xf (d.inv j) fun h => hj ((isolated_inv d j).1 h)
        rw [fitness_real hr]
        exact Real.exp_pos _
      obtain ⟨j, hj, hji⟩ : ∃ j, d.dseq j ≠ 0 ∧ j ≠ i := by
        by_cases h : a = i
        · exact ⟨b, hb, fun hb' => hab (h.trans hb'.symm)⟩
        · exact ⟨a, ha, h⟩
      have hden : 0 < den (fun v : Fin 2 × Fin n => fitness s.x (d.inv v.2)) (0, i) := den_pos (fun v => fitness_nonneg _) (j := j) hji (hpos j hj)
      have hdeg : degUBCM (fun i => fitness s.x (d.inv i)) i = fitness s.x (d.inv i) * den (fun v : Fin 2 × Fin n => fitness s.x (d.inv v.2)) (0, i) := by
        unfold degUBCM den linkUBCM
        rw [mul_sum]
        refine sum_congr rfl fun j _ => ?_
        dsimp only
        rw [mul_div_assoc, mul_comm (fitness s.x (d.inv j)) (fitness s.x (d.inv i))]
      have hf : s.f (d.inv i) = real (-Real.log (d.dseq i / den (fun v : Fin 2 × Fin n => fitness s.x (d.inv v.2)) (0, i))) := by
        rw [hfn, iterativeCMexp_inv d hreg, if_pos hden.ne']
        exact negLog_pos (div_pos hk hden)
      refine ⟨hpos i hi, by rw [hdeg]; exact mul_pos (hpos i hi) hden, ?_⟩
      dsimp only
      rw [hdeg]
      have hx'' : (stepF (fcbCMexp d) true s).x (d.inv i) = real (r + 1 / 2 ^ 50 * (-Real.log (d.dseq i / den (fun v : Fin 2 × Fin n => fitness s.x (d.inv v.2)) (0, i)) - r)) := by
        rw [hx', hr, if_neg (by simp), hf]
        simp [add, sub, neg, scale, sub_eq_add_neg]
      rw [fitness_real hx'', Real.rpow_def_of_pos (div_pos hk (mul_pos (hpos i hi) hden)), fitness_real hr, ← Real.exp_add]
      congr 1
      rw [Real.log_div hk.ne' hden.ne', Real.log_div hk.ne' (mul_pos (Real.exp_pos _) hden).ne', Real.log_mul (Real.exp_pos _).ne' hden.ne', Real.log_exp]
      ring

/-- C78 (cm_exp, fixed point, no degree 0): all values are finite and the run is the one of `Model/Solver`. -/
theorem C78_cm_exp_finite (hd : ∀ i, d.dseq i ≠ 0) (guess : Guess n) (p : Params) {x0 : Fin d.r → ℝ} (hx : guessCM e d true guess = .ok x0) :
    ∃ s, solver (cbCMexp e d .fixed_point) (p.opts "fixed-point") x0 = .ok s ∧ runCMexp e d guess p = .ok (lift s) := by
  have hF : Flt.Finite (cbCMexp e d .fixed_point) (fcbCMexp d) := by
    refine ⟨fun x _ => funext fun q => ?_, fun x dx dxo a b k _ => ?_⟩
    · obtain ⟨i, rfl⟩ := inv_onto d q
      show iterativeCMexp d.k d.c _ _ = real (CM.iterative_cm_exp x d.k d.c (d.inv i))
      rw [iterativeCMexp_inv d (fun q => by simp), CM.iterative_exp_eq, ← d.den_inv (fun q => Real.exp (-x q)) (0, i)]
      have hfit : fitness (fun q => real (x q)) = fun q => Real.exp (-x q) := rfl
      rw [hfit]
      have hd' := den_nonneg (z := fun v : Fin 2 × Fin n => Real.exp (-x (d.inv v.2))) (fun v => (Real.exp_pos _).le) (0, i)
      by_cases h : den (fun v : Fin 2 × Fin n => Real.exp (-x (d.inv v.2))) (0, i) = 0
      · rw [if_neg (not_not.2 h), if_neg (not_not.2 h)]
      · rw [if_pos h, if_pos h]
        rw [negLog_pos (div_pos (by exact_mod_cast Nat.pos_of_ne_zero (hd i)) (lt_of_le_of_ne hd' (Ne.symm h)))]
        rw [show (d.k (d.inv i) : ℝ) = d.dseq i from d.k_at_inv i]
    · show some (linsearch_fun_CM_exp_fixed dx dxo a b k) = some (searchCMexp _ _ a b k)
      unfold linsearch_fun_CM_exp_fixed normStage searchCMexp
      congr 1
      split_ifs
      · congr 1
        funext t
        rw [show (fun i => scale t (real (dx i))) = fun i => real ((t • dx) i) from rfl, norm_all, norm_all]
        rfl
      · rfl
  obtain ⟨s, h1, h2⟩ := solver_lift hF (o := p.opts "fixed-point") rfl x0
  refine ⟨s, h1, ?_⟩
  unfold runCMexp
  rw [hx]
  exact congrArg Except.ok h2

end cm

/-! ### dcm_exp -/

section dcm
variable (e : Env) (d : DData n)

/-- an out-degree or in-degree 0 -/
def NoLinks (v : Fin 2 × Fin d.r) : Prop := DCM.concat d.ko d.ki v = 0

theorem noLinks_inv (v : Fin 2 × Fin n) : NoLinks d (v.1, d.inv v.2) ↔ two d.degOut d.degIn v = 0 := by
  unfold NoLinks
  rw [d.concat_inv]

theorem two_nonneg (v : Fin 2 × Fin n) : 0 ≤ two d.degOut d.degIn v := by
  obtain ⟨b, i⟩ := v
  fin_cases b
  · exact Nat.cast_nonneg _
  · exact Nat.cast_nonneg _

theorem onto (q : Fin 2 × Fin d.r) : ∃ v : Fin 2 × Fin n, q = (v.1, d.inv v.2) := by
  obtain ⟨b, q⟩ := q
  obtain ⟨i, rfl⟩ := d.inv_surj q
  exact ⟨(b, i), rfl⟩

/-- every node has a possible partner with a link in the other direction -/
theorem partner (hL : d.Linked) (v : Fin 2 × Fin n) : ∃ j, j ≠ v.2 ∧ two d.degOut d.degIn (v.1 + 1, j) ≠ 0 := by
  obtain ⟨b, i⟩ := v
  obtain ⟨⟨j, hj, hj'⟩, k, hk, hk'⟩ := hL i
  fin_cases b
  · exact ⟨j, hj, Nat.cast_ne_zero.2 hj'⟩
  · exact ⟨k, hk, Nat.cast_ne_zero.2 hk'⟩

theorem iterativeDCMexp_inv {x : Fin 2 × Fin d.r → Fl} (hx : ∀ q, x q ≠ ninf ∧ x q ≠ nan) (v : Fin 2 × Fin n)
    (hd : 0 < den (fun v : Fin 2 × Fin n => fitness x (v.1, d.inv v.2)) v) :
    iterativeDCMexp d.ko d.ki d.c x (v.1, d.inv v.2) = negLog (real (two d.degOut d.degIn v / den (fun v : Fin 2 × Fin n => fitness x (v.1, d.inv v.2)) v)) := by
  unfold iterativeDCMexp
  rw [if_neg (by rintro ⟨j, h | h⟩; exacts [(hx j).1 h, (hx j).2 h]), d.concat_inv]
  have h := d.den_inv (fitness x) v
  rw [h] at hd ⊢
  rw [show (fun w => (expNeg (x w)).val) = fitness x from rfl]
  unfold Fl.div
  rw [if_pos hd.ne']

theorem blows_dcm (hL : d.Linked) : Blows (NoLinks d) (fcbDCMexp d) := by
  intro x hx q
  obtain ⟨v, rfl⟩ := onto d q
  show (_ → iterativeDCMexp d.ko d.ki d.c x _ = inf) ∧ (_ → ∃ r, iterativeDCMexp d.ko d.ki d.c x _ = real r)
  have hp : 0 < den (fun v : Fin 2 × Fin n => fitness x (v.1, d.inv v.2)) v := by
    obtain ⟨j, hj, hj'⟩ := partner d hL v
    refine den_pos (fun v => fitness_nonneg _) hj ?_
    obtain ⟨r, hr | ⟨hr, -⟩⟩ := hx (v.1 + 1, d.inv j)
    · show 0 < fitness x (v.1 + 1, d.inv j)
      rw [fitness_real hr]
      exact Real.exp_pos _
    · exact absurd ((noLinks_inv d (v.1 + 1, j)).1 hr) hj'
  rw [iterativeDCMexp_inv d (regular hx) v hp, noLinks_inv]
  refine ⟨fun hi => ?_, fun hi => ?_⟩
  · rw [hi, zero_div, negLog_zero]
  · exact ⟨_, negLog_pos (div_pos (lt_of_le_of_ne (two_nonneg d v) (Ne.symm hi)) hp)⟩

/-- C78 (dcm_exp, fixed point, some degree 0).  The call uses all its steps whatever the tolerance, the reported norm is infinite, and the nodes without outgoing
(incoming) links get fitness x = 0 (y = 0); the other values are positive. -/
theorem C78_dcm_exp_zero_degree (guess : DGuess n) (p : Params) (hL : d.Linked) {z : Fin n} (hz : d.dseq_out z = 0 ∨ d.dseq_in z = 0) (he : p.eps < 1) (hm : p.max_steps ≠ 0)
    {s : FState (Fin 2 × Fin d.r)} (hs : runDCMexp e d guess p = .ok s) :
    s.n_steps = p.max_steps ∧ s.norm = inf ∧
      (∀ i, if d.dseq_out i = 0 then solvedDCMexp d s 0 i = real 0 else ∃ x, 0 < x ∧ solvedDCMexp d s 0 i = real x) ∧
      ∀ i, if d.dseq_in i = 0 then solvedDCMexp d s 1 i = real 0 else ∃ y, 0 < y ∧ solvedDCMexp d s 1 i = real y := by
  unfold runDCMexp at hs
  cases hx : guessDCM e d true guess with
  | error er => rw [hx] at hs; cases hs
  | ok x0 =>
    rw [hx] at hs
    cases hs
    obtain ⟨v, hv⟩ : ∃ v : Fin 2 × Fin n, NoLinks d (v.1, d.inv v.2) := by
      rcases hz with hz | hz
      · exact ⟨(0, z), (noLinks_inv d (0, z)).2 (Nat.cast_eq_zero.2 hz)⟩
      · exact ⟨(1, z), (noLinks_inv d (1, z)).2 (Nat.cast_eq_zero.2 hz)⟩
    obtain ⟨h1, h2⟩ := solver_blown hv (blows_dcm d hL) (search_positive _ _ (.inr rfl)) (o := p.opts "fixed-point") he hm x0
    have h3 : ∀ v : Fin 2 × Fin n, if two d.degOut d.degIn v = 0 then
        solvedDCMexp d (solverF (fcbDCMexp d) (p.opts "fixed-point") fun q => real (x0 q)) v.1 v.2 = real 0
        else ∃ x, 0 < x ∧ solvedDCMexp d (solverF (fcbDCMexp d) (p.opts "fixed-point") fun q => real (x0 q)) v.1 v.2 = real x := fun v => by
      unfold solvedDCMexp
      split_ifs with h
      · rw [h1.xz _ ((noLinks_inv d v).2 h)]; rfl
      · obtain ⟨r, hr⟩ := h1.xf (v.1, d.inv v.2) (fun h' => h ((noLinks_inv d v).1 h'))
        exact ⟨_, Real.exp_pos _, by rw [hr]; rfl⟩
    refine ⟨h2, h1.norm, fun i => ?_, fun i => ?_⟩
    · have h := h3 (0, i)
      by_cases hi : d.dseq_out i = 0
      · rw [if_pos hi]; rwa [if_pos (show two d.degOut d.degIn (0, i) = 0 from Nat.cast_eq_zero.2 hi)] at h
      · rw [if_neg hi]; rwa [if_neg (show ¬two d.degOut d.degIn (0, i) = 0 from Nat.cast_ne_zero.2 hi)] at h
    · have h := h3 (1, i)
      by_cases hi : d.dseq_in i = 0
      · rw [if_pos hi]; rwa [if_pos (show two d.degOut d.degIn (1, i) = 0 from Nat.cast_eq_zero.2 hi)] at h
      · rw [if_neg hi]; rwa [if_neg (show ¬two d.degOut d.degIn (1, i) = 0 from Nat.cast_ne_zero.2 hi)] at h

/-- C78 (dcm_exp, fixed point with line search, some degree 0).  After the first step the step length is at most 1/2: the full fixed-point step, the one with the
convergence guarantee, is never taken again. -/
theorem C78_dcm_exp_half_steps (guess : DGuess n) (p : Params) (hl : p.linsearch = true) (hL : d.Linked) {z : Fin n} (hz : d.dseq_out z = 0 ∨ d.dseq_in z = 0) (he : p.eps < 1)
    (hm : p.max_steps ≠ 0) {s s' : FState (Fin 2 × Fin d.r)} (hs : runDCMexp e d guess p = .ok s)
    (hs' : runDCMexp e d guess { p with max_steps := p.max_steps + 1 } = .ok s') : ∃ a, 0 < a ∧ a ≤ 1 / 2 ∧ s'.alfa_seq = s.alfa_seq ++ [a] := by
  unfold runDCMexp at hs hs'
  cases hx : guessDCM e d true guess with
  | error er => rw [hx] at hs; cases hs
  | ok x0 =>
    rw [hx] at hs hs'
    cases hs
    cases hs'
    obtain ⟨v, hv⟩ : ∃ v : Fin 2 × Fin n, NoLinks d (v.1, d.inv v.2) := by
      rcases hz with hz | hz
      · exact ⟨(0, z), (noLinks_inv d (0, z)).2 (Nat.cast_eq_zero.2 hz)⟩
      · exact ⟨(1, z), (noLinks_inv d (1, z)).2 (Nat.cast_eq_zero.2 hz)⟩
    have hB := blows_dcm d hL
    have hP := search_positive (fcbDCMexp d) (NoLinks d) (.inr rfl)
    obtain ⟨h1, h2⟩ := solver_blown hv hB hP (o := p.opts "fixed-point") he hm x0
    have h3 : solverF (fcbDCMexp d) (({ p with max_steps := p.max_steps + 1 } : Params).opts "fixed-point") (fun q => real (x0 q)) =
        stepF (fcbDCMexp d) p.linsearch (solverF (fcbDCMexp d) (p.opts "fixed-point") fun q => real (x0 q)) :=
      solver_succ hv hB hP (o := p.opts "fixed-point") he hm x0
    dsimp only
    rw [h3, hl]
    generalize hS : (solverF (fcbDCMexp d) (p.opts "fixed-point") fun q => real (x0 q)) = s at h1 h2
    have dz : ∀ q, NoLinks d q → (if s.x q = inf then inf else sub (s.f q) (s.x q)) = inf := fun q hq => by rw [if_pos (h1.xz q hq)]
    have df : ∀ q, ¬NoLinks d q → ∃ r, (if s.x q = inf then inf else sub (s.f q) (s.x q)) = real r := fun q hq => by
      obtain ⟨r, hr⟩ := h1.xf q hq
      obtain ⟨t, ht⟩ := h1.ff q hq
      rw [hr, if_neg (by simp), ht]
      exact ⟨_, rfl⟩
    refine ⟨searchDCMexp (fun q => if s.x q = inf then inf else sub (s.f q) (s.x q)) s.dx_old 1 0.5 s.n_steps, hP s.x _ _ _ dz df, ?_, ?_⟩
    · exact (searchDCMexp_blown hv dz df h1.dz h1.df h1.steps).trans (by norm_num)
    · unfold stepF
      dsimp only
      rw [if_pos rfl, if_pos rfl]
      rfl

/-- C78 (dcm_exp, fixed point, no degree 0): all values are finite and the run is the one of `Model/Solver`. -/
theorem C78_dcm_exp_finite (hL : d.Linked) (hd : ∀ i, d.dseq_out i ≠ 0 ∧ d.dseq_in i ≠ 0) (guess : DGuess n) (p : Params) {x0 : Fin 2 × Fin d.r → ℝ}
    (hx : guessDCM e d true guess = .ok x0) :
    ∃ s, solver (cbDCMexp e d .fixed_point) (p.opts "fixed-point") x0 = .ok s ∧ runDCMexp e d guess p = .ok (lift s) := by
  have hF : Flt.Finite (cbDCMexp e d .fixed_point) (fcbDCMexp d) := by
    refine ⟨fun x _ => funext fun q => ?_, fun x dx dxo a b k _ => ?_⟩
    · obtain ⟨v, rfl⟩ := onto d q
      have hfit : fitness (fun q => real (x q)) = fun q => Real.exp (-x q) := rfl
      have hp : 0 < den (fun v : Fin 2 × Fin n => fitness (fun q => real (x q)) (v.1, d.inv v.2)) v := by
        obtain ⟨j, hj, -⟩ := partner d hL v
        exact den_pos (fun v => fitness_nonneg _) hj (Real.exp_pos _)
      have hk : 0 < two d.degOut d.degIn v := by
        obtain ⟨b, i⟩ := v
        fin_cases b
        · exact Nat.cast_pos.2 (Nat.pos_of_ne_zero (hd i).1)
        · exact Nat.cast_pos.2 (Nat.pos_of_ne_zero (hd i).2)
      show iterativeDCMexp d.ko d.ki d.c _ _ = real (-Real.log (DCM.concat d.ko d.ki _ / DCM.iterative_den (fun v => Real.exp (-x v)) d.c _))
      rw [iterativeDCMexp_inv d (fun q => by simp) v hp, negLog_pos (div_pos hk hp), d.concat_inv]
      rw [d.den_inv (fitness fun q => real (x q)) v, hfit]
    · show some (normStage dx dxo a b k) = some (searchDCMexp _ _ a b k)
      unfold normStage searchDCMexp
      congr 1
      by_cases hk : k ≠ 0
      · rw [if_pos hk, if_pos hk]
        have hm : ∀ g : Fin 2 × Fin d.r → ℝ, norm (fun i => (real (g i) : Fl) ≠ inf) (fun i => real (g i)) = real (norm2 g) := fun g => by
          rw [norm_real]
          simp [norm2]
        have hm' : ∀ t, norm (fun i => (real (dx i) : Fl) ≠ inf) (fun i => scale t (real (dx i))) = real (norm2 (t • dx)) := fun t => by
          rw [show (fun i => scale t (real (dx i))) = fun i => real ((t • dx) i) from rfl, norm_real]
          simp [norm2]
        simp only [hm, hm']
        rw [show (fun i => scale a (real (dx i))) = fun i => real ((a • dx) i) from rfl, norm_all, norm_all]
        rw [show (50 : ℕ) = 49 + 1 from rfl, backtrack]
        rfl
      · rw [if_neg hk, if_neg hk]
  obtain ⟨s, h1, h2⟩ := solver_lift hF (o := p.opts "fixed-point") rfl x0
  refine ⟨s, h1, ?_⟩
  unfold runDCMexp
  rw [hx]
  exact congrArg Except.ok h2

end dcm

end

end Verif.Flt
