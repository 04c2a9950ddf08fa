import Verif.Props.Solver
import Verif.Props.Regulariser
import Verif.Lemmas.Concave
import Mathlib.Analysis.Calculus.Deriv.MeanValue
import Mathlib.Analysis.SpecialFunctions.ExpDeriv
import Mathlib.Analysis.SpecialFunctions.Log.Deriv
import Mathlib.Analysis.SpecialFunctions.Sqrt

/-! Convergence of the damped Newton and quasi-Newton iterations of `Model/Solver.lean` on an objective whose gradient is Lipschitz and which is bounded. -/

namespace Verif.Concave

/-- the tangent of `log(1+exp v)` misses by at most an eighth of the squared distance -/
theorem spGap_le (v v' : ℝ) : spGap v v' ≤ (v' - v) ^ 2 / 8 := by
  set σ : ℝ → ℝ := fun t => Real.exp t / (1 + Real.exp t) with hσ
  have hpos : ∀ t, 0 < 1 + Real.exp t := fun t => by positivity
  have hdσ : ∀ t, HasDerivAt σ (Real.exp t / (1 + Real.exp t) ^ 2) t := by
    intro t
    have h := (Real.hasDerivAt_exp t).div ((Real.hasDerivAt_exp t).const_add 1) (hpos t).ne'
    refine h.congr_deriv ?_
    congr 1; ring
  -- `q t = t/4 - σ t` is monotone
  set q : ℝ → ℝ := fun t => t / 4 - σ t with hq
  have hdq : ∀ t, HasDerivAt q (1 / 4 - Real.exp t / (1 + Real.exp t) ^ 2) t := fun t =>
    ((hasDerivAt_id t).div_const 4).sub (hdσ t)
  have hmq : Monotone q := monotone_of_deriv_nonneg (fun t => (hdq t).differentiableAt) fun t => by
    rw [(hdq t).deriv, sub_nonneg, div_le_iff₀ (by have := hpos t; positivity)]
    nlinarith [sq_nonneg (1 - Real.exp t)]
  set G : ℝ → ℝ := fun t => (t - v) ^ 2 / 8 - spGap v t with hG
  have hdG : ∀ t, HasDerivAt G (q t - q v) t := by
    intro t
    have h1 : HasDerivAt (fun t : ℝ => (t - v) ^ 2 / 8) ((t - v) / 4) t := by
      have := (((hasDerivAt_id t).sub_const v).pow 2).div_const 8
      refine this.congr_deriv ?_
      simp; ring
    have h2 : HasDerivAt (fun t => spGap v t) (σ t - σ v) t := by
      have ha := ((Real.hasDerivAt_exp t).const_add 1).log (hpos t).ne'
      have hb := ((hasDerivAt_id t).sub_const v).const_mul (Real.exp v / (1 + Real.exp v))
      have := (ha.sub_const (Real.log (1 + Real.exp v))).sub hb
      refine this.congr_deriv ?_
      simp [hσ]
    refine (h1.sub h2).congr_deriv ?_
    simp only [hq]; ring
  have hG0 : G v = 0 := by simp [hG, spGap_self]
  have hcont : Continuous G := continuous_iff_continuousAt.2 fun t => (hdG t).continuousAt
  suffices 0 ≤ G v' by simp only [hG] at this; linarith
  rcases le_total v v' with h | h
  · rw [← hG0]
    refine (monotoneOn_of_deriv_nonneg (convex_Ici v) hcont.continuousOn
      (fun t _ => (hdG t).differentiableAt.differentiableWithinAt) fun t ht => ?_) (Set.mem_Ici.2 le_rfl) (Set.mem_Ici.2 h) h
    rw [interior_Ici] at ht
    rw [(hdG t).deriv, sub_nonneg]; exact hmq ht.le
  · rw [← hG0]
    refine (antitoneOn_of_deriv_nonpos (convex_Iic v) hcont.continuousOn
      (fun t _ => (hdG t).differentiableAt.differentiableWithinAt) fun t ht => ?_) (Set.mem_Iic.2 h) (Set.mem_Iic.2 le_rfl) h
    rw [interior_Iic] at ht
    rw [(hdG t).deriv, sub_nonpos]; exact hmq ht.le

end Verif.Concave

namespace Verif.Solver

open Finset Spec

noncomputable section

open Classical in
attribute [local instance 0] propDecidable

variable {ι : Type*} [Fintype ι] [DecidableEq ι]

theorem norm2_sq (v : ι → ℝ) : norm2 v ^ 2 = ∑ i, v i ^ 2 := Real.sq_sqrt (sum_nonneg fun i _ => sq_nonneg _)

theorem norm2_nonneg (v : ι → ℝ) : 0 ≤ norm2 v := Real.sqrt_nonneg _

theorem norm2_smul (a : ℝ) (ha : 0 ≤ a) (v : ι → ℝ) : norm2 (a • v) = a * norm2 v := by
  unfold norm2
  rw [show ∑ i, (a • v) i ^ 2 = a ^ 2 * ∑ i, v i ^ 2 by rw [mul_sum]; exact sum_congr rfl fun i _ => by simp; ring]
  rw [Real.sqrt_mul (sq_nonneg a), Real.sqrt_sq ha]

theorem norm2_le_sqrt_card_maxAbs [Nonempty ι] (f : ι → ℝ) : norm2 f ≤ Real.sqrt (Fintype.card ι) * maxAbs f := by
  have h0 : 0 ≤ maxAbs f := le_trans (abs_nonneg (f (Classical.arbitrary ι))) (le_sup' (fun i => |f i|) (mem_univ _))
  unfold norm2
  rw [← Real.sqrt_sq h0, ← Real.sqrt_mul (by positivity)]
  refine Real.sqrt_le_sqrt ?_
  calc ∑ i, f i ^ 2 ≤ ∑ _i : ι, maxAbs f ^ 2 := sum_le_sum fun i _ => by
        rw [← sq_abs (f i)]
        exact pow_le_pow_left₀ (abs_nonneg _) (le_sup' (fun i => |f i|) (mem_univ i)) 2
    _ = _ := by simp

theorem maxAbs_le_norm2 [Nonempty ι] (f : ι → ℝ) : maxAbs f ≤ norm2 f :=
  sup'_le _ _ fun i _ => abs_le_norm2 f i

/-- a symmetric positive semidefinite matrix bounded as a form is bounded as a map -/
theorem mulVec_bound (B : Matrix ι ι ℝ) (hs : Symm B) (hB : PosSemi B) {M : ℝ} (hM : 0 ≤ M) (hb : ∀ v, quad B v ≤ M * ∑ i, v i ^ 2) (d : ι → ℝ) :
    norm2 (B.mulVec d) ≤ M * norm2 d := by
  set u := B.mulVec d with hu
  set P := ∑ i, u i ^ 2 with hP
  have hexp : ∀ t : ℝ, quad B (u + t • d) = quad B u + 2 * t * P + t ^ 2 * quad B d := by
    intro t
    have h1 : ∑ i, ∑ j, u i * B i j * d j = P := by
      rw [hP]; refine sum_congr rfl fun i _ => ?_
      rw [pow_two]; nth_rewrite 3 [hu]; rw [Matrix.mulVec, dotProduct, mul_sum]
      exact sum_congr rfl fun j _ => by ring
    have h2 : ∑ i, ∑ j, d i * B i j * u j = P := by
      rw [sum_comm, ← h1]
      exact sum_congr rfl fun i _ => sum_congr rfl fun j _ => by rw [hs]; ring
    have h3 : quad B (u + t • d) = quad B u + t * (∑ i, ∑ j, u i * B i j * d j) + t * (∑ i, ∑ j, d i * B i j * u j) + t ^ 2 * quad B d := by
      unfold quad
      simp only [mul_sum, ← sum_add_distrib]
      exact sum_congr rfl fun i _ => sum_congr rfl fun j _ => by simp; ring
    rw [h3, h1, h2]; ring
  have hS0 : 0 ≤ ∑ i, d i ^ 2 := sum_nonneg fun i _ => sq_nonneg _
  have hP0 : 0 ≤ P := sum_nonneg fun i _ => sq_nonneg _
  -- the discriminant
  have hdisc : ∀ t : ℝ, 0 ≤ M * P + 2 * t * P + t ^ 2 * (M * ∑ i, d i ^ 2) := by
    intro t
    have := hB (u + t • d)
    rw [hexp] at this
    nlinarith [hb u, mul_le_mul_of_nonneg_left (hb d) (sq_nonneg t)]
  have key : P ≤ M ^ 2 * ∑ i, d i ^ 2 := by
    by_contra hlt
    push Not at hlt
    rcases hM.eq_or_lt with h0 | h0
    · rw [← h0] at hdisc hlt
      have := hdisc (-1)
      nlinarith
    · by_cases hz : ∑ i, d i ^ 2 = 0
      · have := hdisc (-M)
        rw [hz] at this hlt
        nlinarith [mul_pos h0 (by nlinarith : 0 < P)]
      · have hSp : 0 < ∑ i, d i ^ 2 := lt_of_le_of_ne hS0 (Ne.symm hz)
        have hPp : 0 < P := lt_of_le_of_lt (by positivity) hlt
        have := hdisc (-P / (M * ∑ i, d i ^ 2))
        have he : M * P + 2 * (-P / (M * ∑ i, d i ^ 2)) * P + (-P / (M * ∑ i, d i ^ 2)) ^ 2 * (M * ∑ i, d i ^ 2) =
            (P / (M * ∑ i, d i ^ 2)) * (M ^ 2 * ∑ i, d i ^ 2 - P) := by field_simp; ring
        rw [he] at this
        have hneg : (P / (M * ∑ i, d i ^ 2)) * (M ^ 2 * ∑ i, d i ^ 2 - P) < 0 := mul_neg_of_pos_of_neg (by positivity) (by linarith)
        linarith
  unfold norm2
  rw [← Real.sqrt_sq hM, ← Real.sqrt_mul (sq_nonneg M)]
  exact Real.sqrt_le_sqrt key

/-- what a model has to offer: `L` is the log-likelihood, `C.fn` minus its gradient -/
structure Smooth (C : Callbacks ι) (L : (ι → ℝ) → ℝ) (K M : ℝ) : Prop where
  Kpos : 0 < K
  Mnonneg : 0 ≤ M
  smooth : ∀ x d, L x - dot (C.fn x) d - K * ∑ i, d i ^ 2 ≤ L (x + d)
  search : ∀ x dx f, C.linsearch x dx 0.5 1 f = some (decreaseStage (fun x => some (L x)) x dx 0.5 1 f)
  reg : C.hessian_regulariser = matrix_regulariser_function
  psd : ∀ x, PosSemi (C.jac x)
  bound : ∀ x v, quad (C.jac x) v ≤ M * ∑ i, v i ^ 2
  diag : ∀ x i, C.jacDiag x i ≤ M

variable [Nonempty ι] {C : Callbacks ι} {L : (ι → ℝ) → ℝ} {K M : ℝ}

theorem Smooth.direction (h : Smooth C L K M) (o : Opts) (hm : o.method = "newton" ∨ o.method = "quasinewton") (hr : o.regularise = true)
    (he : 0 < o.regularise_eps) (x : ι → ℝ) (hf : C.fn x ≠ 0) :
    ∃ dx, direction C o x (C.fn x) = .ok dx ∧ dot (C.fn x) dx ≤ -(maxAbs (C.fn x) * o.regularise_eps) * ∑ i, dx i ^ 2 ∧
      norm2 (C.fn x) ≤ (M + maxAbs (C.fn x) * o.regularise_eps) * norm2 dx := by
  set ε := maxAbs (C.fn x) * o.regularise_eps with hε
  have hpos : 0 < ε := mul_pos (maxAbs_pos hf) he
  rcases hm with hm | hm
  · have hform := C17_regulariser_identity_form (C.jac x) ε
    have hpd := C17_regulariser_identity_posdef_partial (C.jac x) ε hpos (h.psd x)
    obtain ⟨dx, h1, h2, -⟩ := C17_newton_descent _ hpd (C.fn x) hf
    set B := matrix_regulariser_function (C.jac x) ε with hB
    have hq : ∀ v, quad B v = quad (C.jac x) v + ε * ∑ i, v i ^ 2 := by
      intro v
      rw [hB, matrix_regulariser_function]
      simp only [quad_add, quad_smul, quad_one, quad_transpose]
      ring
    refine ⟨dx, ?_, ?_, ?_⟩
    · rw [Solver.direction, hm, if_pos rfl]
      simp only [hr, if_true, h.reg]
      exact h1
    · have e : dot (C.fn x) dx = -quad B dx := by
        rw [quad_eq_dot, h2]
        unfold dot
        rw [← sum_neg_distrib]
        exact sum_congr rfl fun i _ => by simp; ring
      rw [e, hq]
      have := h.psd x dx
      linarith
    · have hb := mulVec_bound B hpd.1 (fun v => by
        rw [hq]; exact add_nonneg (h.psd x v) (mul_nonneg hpos.le (sum_nonneg fun i _ => sq_nonneg _)))
        (M := M + ε) (by linarith [h.Mnonneg]) (fun v => by rw [hq]; linarith [h.bound x v]) dx
      rw [h2] at hb
      refine le_trans (le_of_eq ?_) hb
      unfold norm2; simp
  · set b : ι → ℝ := fun i => max (C.jacDiag x i) (C.jacDiag x i * 0 + ε) with hb
    have hbε : ∀ i, ε ≤ b i := fun i => le_trans (by simp) (le_max_right _ _)
    have hbM : ∀ i, b i ≤ M + ε := fun i => max_le (by linarith [h.diag x i]) (by simp; exact h.Mnonneg)
    have hb0 : ∀ i, 0 < b i := fun i => lt_of_lt_of_le hpos (hbε i)
    refine ⟨fun i => -C.fn x i / b i, ?_, ?_, ?_⟩
    · rw [Solver.direction, hm, if_neg (by decide), if_pos rfl]
      simp only [hr, if_true]
      rw [if_neg]
      rintro ⟨i, hi⟩
      exact (hb0 i).ne' hi
    · unfold dot
      rw [mul_sum]
      refine sum_le_sum fun i _ => ?_
      have e : C.fn x i * (-C.fn x i / b i) = -(b i * (-C.fn x i / b i) ^ 2) := by
        have := (hb0 i).ne'
        field_simp
      rw [e]
      nlinarith [hbε i, sq_nonneg (-C.fn x i / b i)]
    · have hMε : 0 ≤ M + ε := by linarith [h.Mnonneg]
      unfold norm2
      rw [← Real.sqrt_sq hMε, ← Real.sqrt_mul (sq_nonneg _)]
      refine Real.sqrt_le_sqrt ?_
      rw [mul_sum]
      refine sum_le_sum fun i _ => ?_
      have e : C.fn x i = -(b i * (-C.fn x i / b i)) := by
        have := (hb0 i).ne'
        field_simp
      calc C.fn x i ^ 2 = b i ^ 2 * (-C.fn x i / b i) ^ 2 := by nth_rewrite 1 [e]; ring
        _ ≤ _ := mul_le_mul_of_nonneg_right (pow_le_pow_left₀ (hb0 i).le (hbM i) 2) (sq_nonneg _)

/-- the Armijo search succeeds with a step length bounded below -/
theorem Smooth.search_spec (h : Smooth C L K M) {lam : ℝ} (hl : 0 < lam) (hcap : K < 0.9999 * lam * 2 ^ 50) (x dx : ι → ℝ) (hdx : 0 < ∑ i, dx i ^ 2)
    (hd : dot (C.fn x) dx ≤ -lam * ∑ i, dx i ^ 2) :
    let a := decreaseStage (fun x => some (L x)) x dx 0.5 1 (C.fn x)
    0 < a ∧ a ≤ 1 ∧ min 1 (lam / (4 * K)) ≤ a ∧ L x + 0.0001 * a * lam * ∑ i, dx i ^ 2 ≤ L (x + a • dx) := by
  intro a
  have hK := h.Kpos
  have hcond : ∀ t : ℝ, 0 < t → K * t < 0.9999 * lam →
      sufficient_decrease_condition (negF (fun x => some (L x)) x) (negF (fun x => some (L x)) (x + t • dx)) t (C.fn x) dx := by
    intro t ht hKt
    have hs := h.smooth x (t • dx)
    have e1 : dot (C.fn x) (t • dx) = t * dot (C.fn x) dx := by
      unfold dot; rw [mul_sum]; exact sum_congr rfl fun i _ => by simp; ring
    have e2 : ∑ i, (t • dx) i ^ 2 = t ^ 2 * ∑ i, dx i ^ 2 := by
      rw [mul_sum]; exact sum_congr rfl fun i _ => by simp; ring
    rw [e1, e2] at hs
    show -L (x + t • dx) < -L x + 0.0001 * t * dot (C.fn x) dx
    have h1 : K * (t ^ 2 * ∑ i, dx i ^ 2) < t * (0.9999 * lam) * ∑ i, dx i ^ 2 := by
      have : K * (t ^ 2 * ∑ i, dx i ^ 2) = t * (K * t) * ∑ i, dx i ^ 2 := by ring
      rw [this]
      exact mul_lt_mul_of_pos_right (mul_lt_mul_of_pos_left hKt ht) hdx
    have h2 : 0.9999 * t * dot (C.fn x) dx ≤ 0.9999 * t * (-lam * ∑ i, dx i ^ 2) := mul_le_mul_of_nonneg_left hd (by positivity)
    nlinarith
  obtain ⟨k, hk, e, hc, hn⟩ := backtrack_spec
    (fun a => sufficient_decrease_condition (negF (fun x => some (L x)) x) (negF (fun x => some (L x)) (x + a • dx)) a (C.fn x) dx) 0.5 50 1
  have e' : a = 1 * 0.5 ^ k := e
  have ha : 0 < a := by rw [e']; positivity
  have ha1 : a ≤ 1 := by rw [e', one_mul]; exact pow_le_one₀ (by norm_num) (by norm_num)
  have hca : sufficient_decrease_condition (negF (fun x => some (L x)) x) (negF (fun x => some (L x)) (x + a • dx)) a (C.fn x) dx := by
    rcases Nat.lt_or_ge k 50 with hk' | hk'
    · have := hc hk'; rw [← e'] at this; exact this
    · have hk50 : k = 50 := le_antisymm hk hk'
      refine hcond a ha ?_
      rw [e', hk50, one_mul]
      have : (0.5 : ℝ) ^ 50 = 1 / 2 ^ 50 := by norm_num
      rw [this, mul_one_div, div_lt_iff₀ (by positivity)]
      exact hcap
  refine ⟨ha, ha1, ?_, ?_⟩
  · rcases Nat.eq_zero_or_pos k with h0 | h0
    · rw [e', h0]; simp
    · have hnk := hn (k - 1) (by omega)
      have e2 : (1 : ℝ) * 0.5 ^ (k - 1) = 2 * a := by
        rw [e']
        obtain ⟨m, rfl⟩ : ∃ m, k = m + 1 := ⟨k - 1, by omega⟩
        simp only [Nat.add_sub_cancel, pow_succ]; ring
      rw [e2] at hnk
      have : ¬ K * (2 * a) < 0.9999 * lam := fun hlt => hnk (hcond (2 * a) (by positivity) hlt)
      push Not at this
      refine le_trans (min_le_right _ _) ?_
      rw [div_le_iff₀ (by positivity)]
      nlinarith
  · have hca' : -L (x + a • dx) < -L x + 0.0001 * a * dot (C.fn x) dx := hca
    have h2 : 0.0001 * a * dot (C.fn x) dx ≤ 0.0001 * a * (-lam * ∑ i, dx i ^ 2) := mul_le_mul_of_nonneg_left hd (by positivity)
    nlinarith

/-- smallest curvature of the regularised system while the residual exceeds `tol` -/
def lamMin (ι : Type*) [Fintype ι] (o : Opts) : ℝ := o.tol * o.regularise_eps / Real.sqrt (Fintype.card ι)

/-- shortest step taken while the residual exceeds `tol` -/
def stepMin (ι : Type*) [Fintype ι] (o : Opts) (K M : ℝ) : ℝ := min 1 (lamMin ι o / (4 * K)) * (o.tol / (M + o.tol * o.regularise_eps))

theorem lamMin_pos {o : Opts} (ht : 0 < o.tol) (he : 0 < o.regularise_eps) : 0 < lamMin ι o := by
  have : 0 < Fintype.card ι := Fintype.card_pos
  unfold lamMin; positivity

theorem stepMin_pos {o : Opts} (ht : 0 < o.tol) (he : 0 < o.regularise_eps) {K M : ℝ} (hK : 0 < K) (hM : 0 ≤ M) : 0 < stepMin ι o K M := by
  have := lamMin_pos (ι := ι) ht he
  unfold stepMin
  exact mul_pos (lt_min one_pos (by positivity)) (by positivity)

theorem Smooth.step (h : Smooth C L K M) (o : Opts) (hm : o.method = "newton" ∨ o.method = "quasinewton") (hr : o.regularise = true)
    (he : 0 < o.regularise_eps) (hls : o.linsearch = true) (ht : 0 < o.tol) (hcap : K < 0.9999 * lamMin ι o * 2 ^ 50)
    (s : State ι) (hf : s.f = C.fn s.x) (hn : s.norm = norm2 s.f) (hgt : o.tol < s.norm) :
    ∃ s', step C o s = .ok s' ∧ s'.f = C.fn s'.x ∧ s'.norm = norm2 s'.f ∧ stepMin ι o K M ≤ s'.diff ∧
      L s.x + 0.0001 * lamMin ι o * s'.diff ^ 2 ≤ L s'.x := by
  have hK := h.Kpos
  have hM := h.Mnonneg
  have hl0 := lamMin_pos (ι := ι) ht he
  rw [hn, hf] at hgt
  have hne : C.fn s.x ≠ 0 := by
    intro h0; rw [h0] at hgt
    have : norm2 (0 : ι → ℝ) = 0 := by simp [norm2]
    linarith
  obtain ⟨dx, h1, h2, h3⟩ := h.direction o hm hr he s.x hne
  set lam := maxAbs (C.fn s.x) * o.regularise_eps with hlam
  have hcard : 0 < Real.sqrt (Fintype.card ι) := Real.sqrt_pos.2 (by exact_mod_cast Fintype.card_pos)
  have hll : lamMin ι o ≤ lam := by
    rw [lamMin, div_le_iff₀ hcard, hlam]
    have := norm2_le_sqrt_card_maxAbs (C.fn s.x)
    nlinarith
  have hlpos : 0 < lam := lt_of_lt_of_le hl0 hll
  have hdx0 : 0 < norm2 dx := by
    rcases (norm2_nonneg dx).eq_or_lt with h0 | h0
    · rw [← h0, mul_zero] at h3; linarith
    · exact h0
  have hS : 0 < ∑ i, dx i ^ 2 := by rw [← norm2_sq]; positivity
  obtain ⟨ha0, ha1, ha2, ha3⟩ := h.search_spec hlpos (lt_of_lt_of_le hcap (by
    exact mul_le_mul_of_nonneg_right (mul_le_mul_of_nonneg_left hll (by norm_num)) (by positivity))) s.x dx hS h2
  set a := decreaseStage (fun x => some (L x)) s.x dx 0.5 1 (C.fn s.x) with ha
  have hsl : stepLength C o s dx = .ok a := by
    rw [stepLength, if_pos ⟨hls, hm⟩, hf, h.search]
  have hdiff : norm2 (s.x + a • dx - s.x) = a * norm2 dx := by rw [add_sub_cancel_left, norm2_smul a ha0.le]
  refine ⟨_, by rw [Solver.step, hf, h1]; simp only [hsl]; rfl, rfl, rfl, ?_, ?_⟩
  · show stepMin ι o K M ≤ norm2 (s.x + a • dx - s.x)
    rw [hdiff]
    have hA : min 1 (lamMin ι o / (4 * K)) ≤ a := le_trans (min_le_min le_rfl (div_le_div_of_nonneg_right hll (by positivity))) ha2
    have hB : o.tol / (M + o.tol * o.regularise_eps) ≤ norm2 dx := by
      rw [div_le_iff₀ (by positivity)]
      have h4 : norm2 (C.fn s.x) ≤ (M + norm2 (C.fn s.x) * o.regularise_eps) * norm2 dx :=
        h3.trans (mul_le_mul_of_nonneg_right (add_le_add le_rfl (mul_le_mul_of_nonneg_right (maxAbs_le_norm2 _) he.le)) hdx0.le)
      -- `f / (M + ρ f)` grows with `f`
      set f := norm2 (C.fn s.x) with hfd
      have hf0 : 0 < f := lt_trans ht hgt
      by_contra hlt
      push Not at hlt
      have h5 : f * (norm2 dx * (M + o.tol * o.regularise_eps)) < f * o.tol := mul_lt_mul_of_pos_left hlt hf0
      have h6 : o.tol * f ≤ o.tol * ((M + f * o.regularise_eps) * norm2 dx) := mul_le_mul_of_nonneg_left h4 ht.le
      nlinarith [mul_nonneg (mul_nonneg hM hdx0.le) (sub_nonneg.2 hgt.le)]
    unfold stepMin
    exact mul_le_mul hA hB (by positivity) ha0.le
  · show L s.x + 0.0001 * lamMin ι o * norm2 (s.x + a • dx - s.x) ^ 2 ≤ L (s.x + a • dx)
    refine le_trans ?_ ha3
    rw [hdiff, mul_pow, norm2_sq]
    have e1 : a ^ 2 * ∑ i, dx i ^ 2 ≤ a * ∑ i, dx i ^ 2 := mul_le_mul_of_nonneg_right (by nlinarith) hS.le
    have e2 : lamMin ι o * (a ^ 2 * ∑ i, dx i ^ 2) ≤ lam * (a * ∑ i, dx i ^ 2) := mul_le_mul hll e1 (by positivity) hlpos.le
    nlinarith

theorem Smooth.loop (h : Smooth C L K M) (o : Opts) (hm : o.method = "newton" ∨ o.method = "quasinewton") (hr : o.regularise = true)
    (he : 0 < o.regularise_eps) (hls : o.linsearch = true) (ht : 0 < o.tol) (hcap : K < 0.9999 * lamMin ι o * 2 ^ 50) :
    ∀ (k : ℕ) (s : State ι), s.f = C.fn s.x → s.norm = norm2 s.f → min 1 (stepMin ι o K M) ≤ s.diff →
      ∃ r, loop C o k s = .ok r ∧ r.norm = norm2 (C.fn r.x) ∧ min 1 (stepMin ι o K M) ≤ r.diff ∧
        L s.x + ((r.n_steps : ℝ) - s.n_steps) * (0.0001 * lamMin ι o * stepMin ι o K M ^ 2) ≤ L r.x := by
  have hl0 := lamMin_pos (ι := ι) ht he
  have hd0 := stepMin_pos (ι := ι) ht he h.Kpos h.Mnonneg
  intro k
  induction k with
  | zero => intro s hf hn hd; exact ⟨s, rfl, by rw [hn, hf], hd, by simp⟩
  | succ k ih =>
    intro s hf hn hd
    rw [Solver.loop]
    split
    · rename_i hc
      obtain ⟨s', e1, e2, e3, e4, e5⟩ := h.step o hm hr he hls ht hcap s hf hn hc.1
      obtain ⟨_, _, _, _, hs'⟩ := step_ok e1
      have hn' : s'.n_steps = s.n_steps + 1 := by rw [hs']
      rw [e1]
      obtain ⟨r, r1, r2, r3, r4⟩ := ih s' e2 e3 (le_trans (min_le_right _ _) e4)
      refine ⟨r, r1, r2, r3, ?_⟩
      have := mul_le_mul_of_nonneg_left (pow_le_pow_left₀ hd0.le e4 2) (by positivity : 0 ≤ 0.0001 * lamMin ι o)
      rw [hn'] at r4
      push_cast at r4
      linarith
    · exact ⟨s, rfl, by rw [hn, hf], hd, by simp⟩

/-- The iteration never fails and takes a bounded number of steps, whatever `max_steps` and `eps` are; with more steps allowed than that and a small enough `eps`
it stops at a point with residual at most `tol`. -/
theorem Smooth.solver (h : Smooth C L K M) (o : Opts) (hm : o.method = "newton" ∨ o.method = "quasinewton") (hr : o.regularise = true)
    (he : 0 < o.regularise_eps) (hls : o.linsearch = true) (ht : 0 < o.tol) (hcap : K < 0.9999 * lamMin ι o * 2 ^ 50)
    {U : ℝ} (hU : ∀ x, L x ≤ U) (x0 : ι → ℝ) (T : ℕ) (hT : U - L x0 < (T + 1) * (0.0001 * lamMin ι o * stepMin ι o K M ^ 2)) :
    ∃ r, solver C o x0 = .ok r ∧ r.n_steps ≤ T ∧ (T < o.max_steps → o.eps < min 1 (stepMin ι o K M) → norm2 (C.fn r.x) ≤ o.tol) := by
  have hl0 := lamMin_pos (ι := ι) ht he
  have hd0 := stepMin_pos (ι := ι) ht he h.Kpos h.Mnonneg
  obtain ⟨r, r1, r2, r3, r4⟩ := h.loop o hm hr he hls ht hcap o.max_steps (initState C x0) rfl rfl (min_le_left _ _)
  have hn : r.n_steps ≤ T := by
    by_contra hlt
    push Not at hlt
    have h1 : (T + 1 : ℝ) ≤ r.n_steps := by exact_mod_cast hlt
    have h2 := mul_le_mul_of_nonneg_right h1 (by positivity : 0 ≤ 0.0001 * lamMin ι o * stepMin ι o K M ^ 2)
    have h3 := hU r.x
    change L x0 + ((r.n_steps : ℝ) - ((0 : ℕ) : ℝ)) * _ ≤ L r.x at r4
    simp only [Nat.cast_zero, sub_zero] at r4
    linarith
  refine ⟨r, r1, hn, fun hmax hlt => ?_⟩
  rcases (loop_exit C o o.max_steps (initState C x0) r r1).2 (by
    show r.n_steps < 0 + o.max_steps
    omega) with h' | h'
  · rw [← r2]; exact h'
  · linarith

end

end Verif.Solver
