import Verif.Lemmas.Checked
import Verif.Props.Runs
import Verif.Props.FixedPoint
import Verif.Props.Reports

/-! C79: when `solve_tool` ends with `ZeroDivisionError`. -/

set_option linter.unusedSectionVars false

namespace Verif.Checked

open Verif Finset Reduction Solver Spec Solve

noncomputable section

open Classical in
attribute [local instance 0] propDecidable

variable {n : ℕ} [NeZero n]

theorem divE_none (a b : ℝ) : divE a b = none ↔ b = 0 := by
  unfold divE
  split_ifs with h <;> simp [h]

/-! ### where each function raises -/

theorem guard_iff {α : Type} {P Q : Prop} {v : α} {o : Option α} (h : o = guard P v) (hQ : Q ↔ ¬P) : (o = none ↔ Q) ∧ (¬Q → o = some v) := by
  subst h
  unfold guard
  split_ifs with hp
  · exact ⟨by simp [hQ, hp], fun _ => rfl⟩
  · exact ⟨by simp [hQ, hp], fun h => absurd (hQ.2 hp) h⟩

/-- the functions of `cm` raise exactly where a parameter is 0 (gradient, Hessian and its diagonal) or a product of two parameters is -1, and otherwise return what the
unchecked model returns -/
theorem C79_where_cm (x k c : Fin n → ℝ) :
    let pair := ∃ i j, x i * x j = -1
    ((loglikelihood_prime_cm x k c = none ↔ (∃ i, x i = 0) ∨ pair) ∧ (¬((∃ i, x i = 0) ∨ pair) → loglikelihood_prime_cm x k c = some (CM.loglikelihood_prime_cm x k c))) ∧
    ((loglikelihood_hessian_cm x k c = none ↔ (∃ i, x i = 0) ∨ pair) ∧ (¬((∃ i, x i = 0) ∨ pair) → loglikelihood_hessian_cm x k c = some (CM.loglikelihood_hessian_cm x k c))) ∧
    ((loglikelihood_hessian_diag_cm x k c = none ↔ (∃ i, x i = 0) ∨ pair) ∧
      (¬((∃ i, x i = 0) ∨ pair) → loglikelihood_hessian_diag_cm x k c = some (CM.loglikelihood_hessian_diag_cm x k c))) ∧
    ((iterative_cm x k c = none ↔ pair) ∧ (¬pair → iterative_cm x k c = some (CM.iterative_cm x k c))) ∧
    ((expected_degree_cm x = none ↔ pair) ∧ (¬pair → expected_degree_cm x = some (CM.expected_degree_cm x))) := by
  intro pair
  have hne : ∀ a : ℝ, 1 + a ≠ 0 ↔ ¬ a = -1 := fun a => not_congr ⟨fun h => by linarith, fun h => by linarith⟩
  have h1 : (∃ i, x i = 0) ∨ pair ↔ ¬∀ i, x i ≠ 0 ∧ ∀ j, 1 + x i * x j ≠ 0 := by
    simp only [hne, pair]
    push Not
    constructor
    · rintro (⟨i, h⟩ | ⟨i, j, h⟩)
      · exact ⟨i, fun h' => absurd h h'⟩
      · exact ⟨i, fun _ => ⟨j, h⟩⟩
    · rintro ⟨i, h⟩
      by_cases hi : x i = 0
      · exact .inl ⟨i, hi⟩
      · exact .inr ⟨i, h hi⟩
  have h2 : pair ↔ ¬∀ i j, 1 + x j * x i ≠ 0 := by
    simp only [hne, pair]
    push Not
    exact ⟨fun ⟨i, j, h⟩ => ⟨j, i, h⟩, fun ⟨i, j, h⟩ => ⟨j, i, h⟩⟩
  have h3 : pair ↔ ¬∀ i j, i ≠ j → 1 + x i * x j ≠ 0 := by
    simp only [hne, pair]
    push Not
    refine ⟨fun ⟨i, j, h⟩ => ⟨i, j, fun hij => ?_, h⟩, fun ⟨i, j, _, h⟩ => ⟨i, j, h⟩⟩
    subst hij
    nlinarith [mul_self_nonneg (x i)]
  exact ⟨guard_iff (prime_cm_guard x k c) h1, guard_iff (hessian_cm_guard x k c) h1, guard_iff (hessian_diag_cm_guard x k c) h1, guard_iff (iterative_cm_guard x k c) h2,
    guard_iff (expected_degree_cm_guard x) h3⟩

/-- the functions of `ecm` -/
theorem C79_where_ecm (z : ECM.Vec n) (k s : Fin n → ℝ) :
    let x := fun i => z (0, i)
    let y := fun i => z (1, i)
    let pair := ∃ i j, i ≠ j ∧ (y i * y j = 1 ∨ 1 - y i * y j + x i * x j * (y i * y j) = 0)
    let zero := ∃ i, x i = 0 ∨ y i = 0
    ((loglikelihood_prime_ecm z k s = none ↔ zero ∨ pair) ∧ (¬(zero ∨ pair) → loglikelihood_prime_ecm z k s = some (ECM.loglikelihood_prime_ecm z k s))) ∧
    ((loglikelihood_hessian_ecm z k s = none ↔ zero ∨ pair) ∧ (¬(zero ∨ pair) → loglikelihood_hessian_ecm z k s = some (ECM.loglikelihood_hessian_ecm z k s))) ∧
    ((loglikelihood_hessian_diag_ecm z k s = none ↔ zero ∨ pair) ∧ (¬(zero ∨ pair) → loglikelihood_hessian_diag_ecm z k s = some (ECM.loglikelihood_hessian_diag_ecm z k s))) ∧
    ((iterative_ecm z k s = none ↔ pair) ∧ (¬pair → iterative_ecm z k s = some (ECM.iterative_ecm z k s))) ∧
    ((expected_ecm z = none ↔ pair) ∧ (¬pair → expected_ecm z = some (ECM.expected_ecm z))) := by
  intro x y pair zero
  have hp : ∀ i j, ¬PairECM z i j ↔ (y i * y j = 1 ∨ 1 - y i * y j + x i * x j * (y i * y j) = 0) := fun i j => by
    have : 1 - z (1, i) * z (1, j) = 0 ↔ z (1, i) * z (1, j) = 1 := ⟨fun h => by linarith, fun h => by linarith⟩
    unfold PairECM
    simp only [x, y]
    rw [← this]
    tauto
  have h2 : pair ↔ ¬∀ i j, i ≠ j → PairECM z i j := by
    push Not
    simp only [pair, ← hp]
  have h1 : zero ∨ pair ↔ ¬∀ i, z (0, i) ≠ 0 ∧ z (1, i) ≠ 0 ∧ ∀ j, i ≠ j → PairECM z i j := by
    constructor
    · rintro (⟨i, h | h⟩ | ⟨i, j, h, h'⟩) H
      · exact (H i).1 h
      · exact (H i).2.1 h
      · exact (hp i j).2 h' ((H i).2.2 j h)
    · intro H
      by_contra hc
      refine H fun i => ⟨fun h => hc (.inl ⟨i, .inl h⟩), fun h => hc (.inl ⟨i, .inr h⟩), fun j hij => ?_⟩
      by_contra h
      exact hc (.inr ⟨i, j, hij, (hp i j).1 h⟩)
  exact ⟨guard_iff (prime_ecm_guard z k s) h1, guard_iff (hessian_ecm_guard z k s) h1, guard_iff (hessian_diag_ecm_guard z k s) h1, guard_iff (iterative_ecm_guard z k s) h2,
    guard_iff (expected_ecm_guard z) h2⟩

/-- the functions of `dcm`: the parameters of the nodes outside the two index lists are never divisors -/
theorem C79_where_dcm (x : DCM.Vec n) (k_out k_in : Fin n → ℝ) (no ni : List (Fin n)) (c : Fin n → ℝ) :
    let pair := ∃ i ∈ no, ∃ j ∈ ni, x (0, i) * x (1, j) = -1
    let zero := (∃ i ∈ no, x (0, i) = 0) ∨ ∃ j ∈ ni, x (1, j) = 0
    ((loglikelihood_prime_dcm x k_out k_in no ni c = none ↔ zero ∨ pair) ∧
      (¬(zero ∨ pair) → loglikelihood_prime_dcm x k_out k_in no ni c = some (DCM.loglikelihood_prime_dcm x k_out k_in no ni c))) ∧
    ((loglikelihood_hessian_dcm x k_out k_in no ni c = none ↔ zero ∨ pair) ∧
      (¬(zero ∨ pair) → loglikelihood_hessian_dcm x k_out k_in no ni c = some (DCM.loglikelihood_hessian_dcm x k_out k_in no ni c))) ∧
    ((loglikelihood_hessian_diag_dcm x k_out k_in no ni c = none ↔ zero ∨ pair) ∧
      (¬(zero ∨ pair) → loglikelihood_hessian_diag_dcm x k_out k_in no ni c = some (DCM.loglikelihood_hessian_diag_dcm x k_out k_in no ni c))) ∧
    ((iterative_dcm x k_out k_in c = none ↔ ∃ i j, x (0, i) * x (1, j) = -1) ∧
      ((¬∃ i j, x (0, i) * x (1, j) = -1) → iterative_dcm x k_out k_in c = some (DCM.iterative_dcm x k_out k_in no ni c))) := by
  intro pair zero
  have hne : ∀ a : ℝ, 1 + a ≠ 0 ↔ ¬ a = -1 := fun a => not_congr ⟨fun h => by linarith, fun h => by linarith⟩
  have h1 : zero ∨ pair ↔ ¬SafeDCM x no ni := by
    unfold SafeDCM
    simp only [hne]
    constructor
    · rintro ((⟨i, hi, h⟩ | ⟨i, hi, h⟩) | ⟨i, hi, j, hj, h⟩) ⟨H1, H2, H3⟩
      · exact H1 i hi h
      · exact H2 i hi h
      · exact H3 i hi j hj h
    · intro H
      by_contra hc
      exact H ⟨fun i hi h => hc (.inl (.inl ⟨i, hi, h⟩)), fun i hi h => hc (.inl (.inr ⟨i, hi, h⟩)), fun i hi j hj h => hc (.inr ⟨i, hi, j, hj, h⟩)⟩
  have h2 : (∃ i j, x (0, i) * x (1, j) = -1) ↔ ¬∀ i j, 1 + x (0, i) * x (1, j) ≠ 0 := by
    simp only [hne]
    push Not
    rfl
  exact ⟨guard_iff (prime_dcm_guard x k_out k_in no ni c) h1, guard_iff (hessian_dcm_guard x k_out k_in no ni c) h1, guard_iff (hessian_diag_dcm_guard x k_out k_in no ni c) h1,
    guard_iff (iterative_dcm_guard x k_out k_in no ni c) h2⟩

/-! ### cm -/

section cm
variable {d : UData n}

theorem class_surj (q : Fin d.r) : ∃ i, d.inv i = q := by
  obtain ⟨i, hi⟩ := d.exists_class q
  refine ⟨i, (r_dseq_strictMono d.dseq).injective ?_⟩
  rw [← hi]
  exact r_dseq_invert d.dseq i

theorem guessCM_zero (e : Env) {guess : Guess n} {x0 : Fin d.r → ℝ} (h : guessCM e d false guess = .ok x0) {q : Fin d.r} (hq : d.k q = 0) : x0 q = 0 := by
  unfold guessCM at h
  split at h
  · cases h
  · split at h
    · cases h
    · cases h; simp [maskSet, hq]
  · cases h; simp [maskSet, hq]
  · cases h; simp [maskSet, hq]

/-- C79 is false of `cm`: on a network with an isolated node the methods "newton" and "quasinewton" end with `ZeroDivisionError`, whatever the accepted guess
and the options. -/
theorem C79_cm_isolated (e : Env) (m : Method) (hm : m ≠ .fixed_point) {i : Fin n} (hi : d.dseq i = 0) (guess : Guess n) (p : Params)
    (hg : ∃ x0, guessCM e d false guess = .ok x0) : runCM e d m guess p = .solver .zeroDivision := by
  obtain ⟨x0, h0⟩ := hg
  have hz : x0 (d.inv i) = 0 := guessCM_zero e h0 (by rw [d.k_at_inv, hi]; simp)
  have hp : (chkCM d m).fn x0 = none := by
    have : loglikelihood_prime_cm x0 d.k d.c = none := by
      rw [prime_cm_guard]
      exact guard_none fun h => (h (d.inv i)).1 hz
    cases m with
    | newton => show Option.map _ _ = _; rw [this]; rfl
    | quasinewton => show Option.map _ _ = _; rw [this]; rfl
    | fixed_point => exact absurd rfl hm
  unfold runCM
  rw [h0]
  simp only [solverE_raises hp]

theorem safe_cm (e : Env) (m : Method) {x : Fin d.r → ℝ} (hx : ∀ q, 0 < x q) : SafeAt (cbCM e d m) (chkCM d m) m.name x := by
  have h1 : ∀ i j, 1 + x i * x j ≠ 0 := fun i j => (by have := mul_pos (hx i) (hx j); positivity)
  have h2 : ∀ i, x i ≠ 0 ∧ ∀ j, 1 + x i * x j ≠ 0 := fun i => ⟨(hx i).ne', h1 i⟩
  refine ⟨?_, fun _ => ?_, fun _ => ?_⟩
  · cases m with
    | newton => show Option.map _ _ = _; rw [prime_cm_guard, guard_some h2]; rfl
    | quasinewton => show Option.map _ _ = _; rw [prime_cm_guard, guard_some h2]; rfl
    | fixed_point => show iterative_cm _ _ _ = _; rw [iterative_cm_guard, guard_some fun i j => h1 j i]; rfl
  · show Option.map _ _ = _; rw [hessian_cm_guard, guard_some h2]; rfl
  · show Option.map _ _ = _; rw [hessian_diag_cm_guard, guard_some h2]; rfl

/-- what a run without a division by zero has to do with the call of `solve_tool` -/
theorem runCM_eq (e : Env) (m : Method) (guess : Guess n) (p : Params) {x0 : Fin d.r → ℝ} (h0 : guessCM e d false guess = .ok x0)
    (hs : solverE (cbCM e d m) (chkCM d m) (p.opts m.name) x0 = lift (solver (cbCM e d m) (p.opts m.name) x0))
    (hx : ∀ s, solver (cbCM e d m) (p.opts m.name) x0 = .ok s → ∀ i j, 1 + s.x (d.inv i) * s.x (d.inv j) ≠ 0)
    (g : UAttr d) (adj : AdjSpec n) (ma : String) (ga : Guess n) :
    let R := solve_tool e g "cm" m.name guess adj ma ga p
    runCM e d m guess p ≠ .solver .zeroDivision ∧ (R.exc = none → ∃ x s, R.g.x = some x ∧ R.g.expected_dseq = some (degUBCM x) ∧ runCM e d m guess p = .done s (degUBCM x)) := by
  intro R
  constructor
  · unfold runCM
    rw [h0]
    dsimp only
    rw [hs]
    cases h : solver (cbCM e d m) (p.opts m.name) x0 with
    | error er => simp [lift]
    | ok s =>
      simp only [lift, expected_degree_cm_guard, guard_some fun i j (_ : i ≠ j) => hx s h i j]
      simp
  · intro h
    obtain ⟨me, x1, s, hm, h1, hsv, hG⟩ := solve_tool_ok_cm e g m.name guess adj ma ga p h
    obtain rfl : m = me := by cases m <;> cases me <;> first | rfl | (simp [Method.name] at hm)
    rw [h0] at h1
    cases h1
    obtain ⟨x, E, r, ex, ek, -⟩ := C54_cm e g .cm (.inl rfl) m.name guess adj ma ga p h
    have hx1 : R.g.x = some fun i => s.x (d.inv i) := by
      rw [show R = _ from hG]; exact (solutionError_keeps e _).1
    obtain rfl : x = fun i => s.x (d.inv i) := Option.some.inj (ex.symm.trans hx1)
    refine ⟨_, s, ex, ek, ?_⟩
    unfold runCM
    rw [h0]
    dsimp only
    rw [hs, hsv]
    have hs : CM.expected_degree_cm (fun i => s.x (d.inv i)) = degUBCM fun i => s.x (d.inv i) := funext fun i => deg_spec _ i
    simp only [lift, expected_degree_cm_guard, guard_some fun i j (_ : i ≠ j) => hx s hsv i j, hs]

/-- C79, the part that holds (cm): without isolated nodes, with the line search on and a positive guess (every documented name is one), no method divides by zero and
the call is the one of the other theorems. -/
theorem C79_cm_partial (e : Env) (he : e.Valid) (hr : e.NonzeroDraws) (m : Method) (hd : ∀ i, d.dseq i ≠ 0) (guess : Guess n) (hg : guess.Positive d) (p : Params)
    (hl : p.linsearch = true) (g : UAttr d) (adj : AdjSpec n) (ma : String) (ga : Guess n) :
    let R := solve_tool e g "cm" m.name guess adj ma ga p
    runCM e d m guess p ≠ .solver .zeroDivision ∧ (R.exc = none → ∃ x s, R.g.x = some x ∧ R.g.expected_dseq = some (degUBCM x) ∧ runCM e d m guess p = .done s (degUBCM x)) := by
  obtain ⟨x0, h0, hx0⟩ := guessCM_positive e he hr d guess hg
  have hp : ∀ q, 0 < x0 q := fun q => (hx0 q).1 (by
    rw [← UData.index_class d q]
    exact_mod_cast hd _)
  refine runCM_eq e m guess p h0 ?_ ?_ g adj ma ga
  · exact solverE_eq (fun x => ∀ q, 0 < x q) (fun x hx => safe_cm e m hx) (fun s dx alfa hP _ hdr hsl => cm_step_pos e m p hl s dx alfa hP hdr hsl) hp
  · intro s hs i j
    have := cm_run_pos e m p hl hp hs
    have := mul_pos (this (d.inv i)) (this (d.inv j))
    positivity

/-- the fixed-point step of `cm` keeps nonnegative parameters nonnegative -/
theorem cm_fixed_nonneg (e : Env) (p : Params) (s : State (Fin d.r)) (dx : Fin d.r → ℝ) (alfa : ℝ) (hP : ∀ q, 0 ≤ s.x q) (hf : s.f = (cbCM e d .fixed_point).fn s.x)
    (hd : direction (cbCM e d .fixed_point) (p.opts "fixed-point") s.x s.f = .ok dx)
    (hsl : stepLength (cbCM e d .fixed_point) (p.opts "fixed-point") s dx = .ok alfa) : ∀ q, 0 ≤ (s.x + alfa • dx) q := by
  have hdx : dx = s.f - s.x := by
    unfold direction at hd
    simp only [Params.opts] at hd
    simpa using hd.symm
  have ha : 0 ≤ alfa ∧ alfa ≤ 1 := by
    unfold stepLength at hsl
    by_cases hl : p.linsearch = true
    · simp only [Params.opts, hl] at hsl
      simp only [true_and, String.reduceEq, or_self, if_false, and_false, if_true, and_self] at hsl
      change Except.ok (linsearch_fun_CM_fixed (List.finRange d.r) s.x dx s.dx_old 1 0.5 s.n_steps) = _ at hsl
      rw [← Except.ok.inj hsl]
      unfold linsearch_fun_CM_fixed
      have h := normStage_spec dx s.dx_old (beta := 0.5) s.n_steps (by norm_num) (by norm_num) (positivityStage_nonneg (List.finRange d.r) s.x dx 1 (by norm_num))
      exact ⟨h.2.2.1, h.1.trans (positivityStage_le _ _ _ _)⟩
    · simp only [Params.opts, hl] at hsl
      simp at hsl
      rw [← hsl]
      norm_num
  have hfn : ∀ q, 0 ≤ s.f q := fun q => by
    obtain ⟨i, rfl⟩ := class_surj q
    rw [hf]
    show 0 ≤ CM.iterative_cm _ _ _ _
    rw [d.F_inv s.x (0, i), FixedPoint.F]
    exact div_nonneg (by simp [dup, UData.deg]) (FixedPoint.den_nonneg (fun v => hP _) _)
  intro q
  rw [hdx]
  simp only [Pi.add_apply, Pi.smul_apply, Pi.sub_apply, smul_eq_mul]
  nlinarith [mul_nonneg ha.1 (hfn q), mul_nonneg (sub_nonneg.2 ha.2) (hP q)]

/-- C79, the part that holds (cm, "fixed-point"): on every network, with the line search on or off, from every documented guess and every array that is positive
where the degree is, the fixed-point method does not divide by zero. -/
theorem C79_cm_fixed_partial (e : Env) (he : e.Valid) (hr : e.NonzeroDraws) (guess : Guess n) (hg : guess.Positive d) (p : Params) (g : UAttr d) (adj : AdjSpec n)
    (ma : String) (ga : Guess n) :
    let R := solve_tool e g "cm" "fixed-point" guess adj ma ga p
    runCM e d .fixed_point guess p ≠ .solver .zeroDivision ∧
      (R.exc = none → ∃ x s, R.g.x = some x ∧ R.g.expected_dseq = some (degUBCM x) ∧ runCM e d .fixed_point guess p = .done s (degUBCM x)) := by
  obtain ⟨x0, h0, hx0⟩ := guessCM_positive e he hr d guess hg
  have hp : ∀ q, 0 ≤ x0 q := fun q => by
    by_cases hq : d.k q = 0
    · exact ((hx0 q).2 hq).ge
    · exact ((hx0 q).1 hq).le
  have hpair : ∀ x : Fin d.r → ℝ, (∀ q, 0 ≤ x q) → ∀ i j, 1 + x i * x j ≠ 0 := fun x hx i j => by have := mul_nonneg (hx i) (hx j); positivity
  refine runCM_eq e .fixed_point guess p h0 ?_ ?_ g adj ma ga
  · refine solverE_eq (fun x => ∀ q, 0 ≤ x q) (fun x hx => ⟨?_, fun h => absurd h (by simp [Params.opts]), fun h => absurd h (by simp [Params.opts])⟩)
      (fun s dx alfa hP hf hdr hsl => cm_fixed_nonneg e p s dx alfa hP hf hdr hsl) hp
    show iterative_cm _ _ _ = _
    rw [iterative_cm_guard, guard_some fun i j => hpair x hx j i]
    rfl
  · intro s hs i j
    exact hpair s.x (solver_point_inv _ _ (fun x => ∀ q, 0 ≤ x q) (cm_fixed_nonneg e p) hp hs) _ _

end cm

/-! ### ecm -/

section ecm
variable {d : UData n}

theorem guessECM_zero (e : Env) {guess : Guess n} {x y : Fin n → ℝ} (h : (guessECM e d false guess).1 = .ok (x, y)) (i : Fin n) :
    (d.dseq i = 0 → x i = 0) ∧ (d.strength_sequence i = 0 → y i = 0) := by
  have hdeg : d.dseq i = 0 → d.deg i = 0 := fun hi => by simp [UData.deg, hi]
  unfold guessECM at h
  split at h
  · cases h
  · split at h
    · cases h
    · cases h; exact ⟨fun hi => by simp [maskSet, hdeg hi], fun hi => by simp [maskSet, hi]⟩
  · cases h
  · cases h; exact ⟨fun hi => by simp [maskSet, hdeg hi], fun hi => by simp [maskSet, hi]⟩

/-- C79 is false of `ecm`: if some node has degree or strength zero, the methods "newton" and "quasinewton" end with `ZeroDivisionError`, whatever the accepted
guess and the options. -/
theorem C79_ecm_zero (e : Env) (m : Method) (hm : m ≠ .fixed_point) {i : Fin n} (hi : d.dseq i = 0 ∨ d.strength_sequence i = 0) (guess : Guess n) (p : Params)
    (hg : ∃ xy, (guessECM e d false guess).1 = .ok xy) : runECM e d m guess p = .solver .zeroDivision := by
  obtain ⟨⟨x, y⟩, h0⟩ := hg
  have hz := guessECM_zero e h0 i
  have hp : (chkECM d m).fn (cat2 x y) = none := by
    have : loglikelihood_prime_ecm (cat2 x y) d.deg d.strength_sequence = none := by
      rw [prime_ecm_guard]
      refine guard_none fun h => ?_
      rcases hi with hi | hi
      · exact (h i).1 (by simpa [cat2] using hz.1 hi)
      · exact (h i).2.1 (by simpa [cat2] using hz.2 hi)
    cases m with
    | newton => show Option.map _ _ = _; rw [this]; rfl
    | quasinewton => show Option.map _ _ = _; rw [this]; rfl
    | fixed_point => exact absurd rfl hm
  unfold runECM
  rw [h0]
  simp only [solverE_raises hp]

end ecm

/-! ### dcm -/

section dcm
variable {d : DData n}

theorem safe_dcm (e : Env) (m : Method) {x : Fin 2 × Fin d.r → ℝ} (hx : AdmDCM0 d x) : SafeAt (cbDCM e d m) (chkDCM d m) m.name x := by
  have h1 : ∀ i j, 1 + x (0, i) * x (1, j) ≠ 0 := fun i j => (by have := mul_nonneg (hx.nonneg (0, i)) (hx.nonneg (1, j)); positivity)
  have h2 : SafeDCM x (DCM.nonzero d.ko) (DCM.nonzero d.ki) :=
    ⟨fun i hi => (hx.1.1 i ((DCM.mem_nonzero _ _).1 hi)).ne', fun i hi => (hx.1.2 i ((DCM.mem_nonzero _ _).1 hi)).ne', fun i _ j _ => h1 i j⟩
  refine ⟨?_, fun _ => ?_, fun _ => ?_⟩
  · cases m with
    | newton => show Option.map _ _ = _; rw [prime_dcm_guard, guard_some h2]; rfl
    | quasinewton => show Option.map _ _ = _; rw [prime_dcm_guard, guard_some h2]; rfl
    | fixed_point => show iterative_dcm _ _ _ _ = _; rw [iterative_dcm_guard _ _ _ (DCM.nonzero d.ko) (DCM.nonzero d.ki), guard_some h1]; rfl
  · show Option.map _ _ = _; rw [hessian_dcm_guard, guard_some h2]; rfl
  · show Option.map _ _ = _; rw [hessian_diag_dcm_guard, guard_some h2]; rfl

/-- C79 (dcm): on every network, with the line search on and a positive guess (every documented name is one), no method divides by zero, and the call is the one
of the other theorems: the nodes without links are left out of the gradient.  The fixed-point method divides two arrays at the end of each step, which does not raise; the
divisors are the sums of the last conclusion, positive at the returned point (so, by varying `max_steps`, at every point of the run) as soon as two nodes have outgoing links
and two nodes have incoming links. -/
theorem C79_dcm (e : Env) (he : e.Valid) (hr : e.NonzeroDraws) (hsum : ∑ i, d.dseq_in i = ∑ i, d.dseq_out i) (m : Method) (guess : DGuess n) (hg : guess.Positive d)
    (p : Params) (hl : p.linsearch = true) (g : DAttr d) (adj : AdjSpec n) (ma : String) (ga : DGuess n) :
    let R := solve_tool_directed e g "dcm" m.name guess adj ma ga p
    runDCM e d m guess p ≠ .solver .zeroDivision ∧ (R.exc = none → ∃ x y s, R.g.x = some x ∧ R.g.y = some y ∧ R.g.expected_dseq = some (outIn (outDBCM x y) (inDBCM x y)) ∧
      runDCM e d m guess p = .done s (outDBCM x y, inDBCM x y) ∧
      ((∃ i j, i ≠ j ∧ d.dseq_out i ≠ 0 ∧ d.dseq_out j ≠ 0) → (∃ i j, i ≠ j ∧ d.dseq_in i ≠ 0 ∧ d.dseq_in j ≠ 0) →
        ∀ i, 0 < ∑ j ∈ univ.filter (· ≠ i), y j / (1 + x i * y j) ∧ 0 < ∑ j ∈ univ.filter (· ≠ i), x j / (1 + x j * y i))) := by
  intro R
  obtain ⟨x0, h0, hx0⟩ := guessDCM_positive e he hr d hsum guess hg
  have hA : AdmDCM0 d x0 := by
    refine ⟨⟨fun q hq => ?_, fun q hq => ?_⟩, fun q hq => ?_, fun q hq => ?_⟩ <;> obtain ⟨i, rfl⟩ := d.inv_surj q
    · exact (hx0 i).1.1 fun hh => hq (by rw [(d.class_of i).1]; simp [DData.degOut, hh])
    · exact (hx0 i).2.1 fun hh => hq (by rw [(d.class_of i).2]; simp [DData.degIn, hh])
    · exact (hx0 i).1.2 (by rw [(d.class_of i).1, DData.degOut] at hq; exact_mod_cast hq)
    · exact (hx0 i).2.2 (by rw [(d.class_of i).2, DData.degIn] at hq; exact_mod_cast hq)
  have hE : solverE (cbDCM e d m) (chkDCM d m) (p.opts m.name) x0 = lift (solver (cbDCM e d m) (p.opts m.name) x0) :=
    solverE_eq (AdmDCM0 d) (fun x hx => safe_dcm e m hx) (dcm_step_pos e he m p hl) hA
  have hexp : ∀ s : State (Fin 2 × Fin d.r), AdmDCM0 d s.x →
      let sol : DCM.Vec n := cat2 (fun i => s.x (0, d.inv i)) fun i => s.x (1, d.inv i)
      expected_out_degree_dcm sol = some (DCM.expected_out_degree_dcm sol) ∧ expected_in_degree_dcm sol = some (DCM.expected_in_degree_dcm sol) := by
    intro s hs sol
    have h1 : ∀ i j, 1 + sol (1, i) * sol (0, j) ≠ 0 := fun i j => (by have := mul_nonneg (hs.nonneg (1, d.inv i)) (hs.nonneg (0, d.inv j)); positivity)
    rw [expected_out_guard, expected_in_guard, guard_some fun i _ j _ _ => h1 j i, guard_some fun i _ j _ _ => h1 i j]
    exact ⟨rfl, rfl⟩
  constructor
  · unfold runDCM
    rw [h0]
    dsimp only
    rw [hE]
    cases h : solver (cbDCM e d m) (p.opts m.name) x0 with
    | error er => simp [lift]
    | ok s =>
      obtain ⟨h1, h2⟩ := hexp s (dcm_run_pos e he m p hl hA h)
      simp only [lift, h1, h2]
      simp
  · intro h
    obtain ⟨me, x1, s, hm, h1, hsv, hG, -⟩ := solve_tool_ok_dcm e g m.name guess adj ma ga p h
    obtain rfl : m = me := by cases m <;> cases me <;> first | rfl | (simp [Method.name] at hm)
    rw [h0] at h1
    cases h1
    obtain ⟨x, y, E, r, ex, ey, ek, -⟩ := C54_dcm e g .dcm (.inl rfl) m.name guess adj ma ga p h
    have hx1 : R.g.x = some fun i => s.x (0, d.inv i) := by
      rw [show R = _ from hG]; exact keepsD DAttr.x (fun _ => rfl) _
    have hy1 : R.g.y = some fun i => s.x (1, d.inv i) := by
      rw [show R = _ from hG]; exact keepsD DAttr.y (fun _ => rfl) _
    obtain rfl : x = fun i => s.x (0, d.inv i) := Option.some.inj (ex.symm.trans hx1)
    obtain rfl : y = fun i => s.x (1, d.inv i) := Option.some.inj (ey.symm.trans hy1)
    have hfin := dcm_run_pos e he m p hl hA hsv
    refine ⟨_, _, s, ex, ey, ek, ?_, fun ho hi => ?_⟩
    swap
    · have ko : ∀ i, d.dseq_out i ≠ 0 → 0 < s.x (0, d.inv i) := fun i h => hfin.1.1 _ (by rw [(d.class_of i).1, DData.degOut]; exact_mod_cast h)
      have ki : ∀ i, d.dseq_in i ≠ 0 → 0 < s.x (1, d.inv i) := fun i h => hfin.1.2 _ (by rw [(d.class_of i).2, DData.degIn]; exact_mod_cast h)
      have hnn := fun v => hfin.nonneg v
      have other : ∀ {f : Fin n → ℕ}, (∃ i j, i ≠ j ∧ f i ≠ 0 ∧ f j ≠ 0) → ∀ i, ∃ j, j ≠ i ∧ f j ≠ 0 := fun ⟨a, b, hab, ha, hb⟩ i => by
        by_cases h : a = i
        · exact ⟨b, fun h' => hab (h.trans h'.symm), hb⟩
        · exact ⟨a, h, ha⟩
      intro i
      constructor
      · obtain ⟨j, hj, hz⟩ := other hi i
        refine sum_pos' (fun j _ => div_nonneg (hnn _) (by have := mul_nonneg (hnn (0, d.inv i)) (hnn (1, d.inv j)); linarith)) ⟨j, by simp [hj], div_pos (ki j hz) ?_⟩
        have := mul_nonneg (hnn (0, d.inv i)) (hnn (1, d.inv j)); linarith
      · obtain ⟨j, hj, hz⟩ := other ho i
        refine sum_pos' (fun j _ => div_nonneg (hnn _) (by have := mul_nonneg (hnn (0, d.inv j)) (hnn (1, d.inv i)); linarith)) ⟨j, by simp [hj], div_pos (ko j hz) ?_⟩
        have := mul_nonneg (hnn (0, d.inv j)) (hnn (1, d.inv i)); linarith
    unfold runDCM
    rw [h0]
    dsimp only
    rw [hE, hsv]
    obtain ⟨h1, h2⟩ := hexp s (dcm_run_pos e he m p hl hA hsv)
    simp only [lift, h1, h2]
    rw [show DCM.expected_out_degree_dcm (cat2 (fun i => s.x (0, d.inv i)) fun i => s.x (1, d.inv i)) = _ from funext fun i => out_spec _ _ i,
      show DCM.expected_in_degree_dcm (cat2 (fun i => s.x (0, d.inv i)) fun i => s.x (1, d.inv i)) = _ from funext fun i => in_spec _ _ i]

end dcm

end

end Verif.Checked
