import Verif.Lemmas.Converge
import Verif.Lemmas.EM

/-! Convergence of the damped Newton and quasi-Newton iterations of `Model/Solver.lean` on the log-likelihood of the conditional reconstruction models, which is a sum of
logarithms: the line search itself keeps the iteration inside the domain. -/

namespace Verif.EM

open Finset

noncomputable section

variable {ι : Type} [Fintype ι] {p : ι → ι → ℝ} {s : ι → ℝ}

/-- every linked pair has a positive rate -/
def Dom (p : ι → ι → ℝ) (x : ι → ℝ) : Prop := ∀ i j, p i j ≠ 0 → 0 < x i + x j

/-- second-order term -/
def S (p : ι → ι → ℝ) (x v : ι → ℝ) : ℝ := (∑ i, ∑ j, p i j * ((v i + v j) / (x i + x j)) ^ 2) / 2

theorem log_lower {t : ℝ} (h : |t| ≤ 1 / 2) : t - 2 * t ^ 2 ≤ Real.log (1 + t) := by
  have h1 := (abs_le.1 h).1
  have h2 : 0 < 1 + t := by linarith
  refine le_trans ?_ (Real.one_sub_inv_le_log_of_pos h2)
  have e : 1 - (1 + t)⁻¹ = t / (1 + t) := by field_simp; ring
  rw [e, le_div_iff₀ h2]
  nlinarith [mul_nonneg (sq_nonneg t) (by linarith : 0 ≤ 1 + 2 * t)]

theorem S_nonneg (hp : ∀ i j, 0 ≤ p i j) (x v : ι → ℝ) : 0 ≤ S p x v :=
  div_nonneg (sum_nonneg fun i _ => sum_nonneg fun j _ => mul_nonneg (hp i j) (sq_nonneg _)) (by norm_num)

theorem S_smul (x v : ι → ℝ) (a : ℝ) : S p x (a • v) = a ^ 2 * S p x v := by
  unfold S
  rw [← mul_div_assoc, mul_sum]
  congr 1
  refine sum_congr rfl fun i _ => ?_
  rw [mul_sum]
  refine sum_congr rfl fun j _ => ?_
  simp only [Pi.smul_apply, smul_eq_mul]
  ring

theorem S_pair (hp : ∀ i j, 0 ≤ p i j) (x v : ι → ℝ) (i j : ι) : p i j * ((v i + v j) / (x i + x j)) ^ 2 ≤ 2 * S p x v := by
  unfold S
  rw [mul_div_cancel₀ _ (two_ne_zero)]
  refine le_trans ?_ (single_le_sum (f := fun i => ∑ j, p i j * ((v i + v j) / (x i + x j)) ^ 2)
    (fun i _ => sum_nonneg fun j _ => mul_nonneg (hp i j) (sq_nonneg _)) (mem_univ i))
  exact single_le_sum (f := fun j => p i j * ((v i + v j) / (x i + x j)) ^ 2) (fun j _ => mul_nonneg (hp i j) (sq_nonneg _)) (mem_univ j)

/-- a step that changes no rate by more than half of it stays in the domain and is well described to second order -/
theorem L_second (hs : ∀ i j, p i j = p j i) (hp : ∀ i j, 0 ≤ p i j) {x v : ι → ℝ} (hx : Dom p x) (hv : ∀ i j, p i j ≠ 0 → |(v i + v j) / (x i + x j)| ≤ 1 / 2) :
    Dom p (x + v) ∧ L p s x - ∑ i, (s i - str p x i) * v i - 2 * S p x v ≤ L p s (x + v) := by
  have hfac : ∀ i j, p i j ≠ 0 → (x + v) i + (x + v) j = (x i + x j) * (1 + (v i + v j) / (x i + x j)) := fun i j h => by
    have := (hx i j h).ne'
    simp only [Pi.add_apply]
    field_simp
    ring
  have hone : ∀ i j, p i j ≠ 0 → 0 < 1 + (v i + v j) / (x i + x j) := fun i j h => by linarith [(abs_le.1 (hv i j h)).1]
  constructor
  · intro i j h
    rw [hfac i j h]
    exact mul_pos (hx i j h) (hone i j h)
  · have key : ∑ i, ∑ j, (p i j * Real.log (x i + x j) + p i j * ((v i + v j) / (x i + x j)) - 2 * (p i j * ((v i + v j) / (x i + x j)) ^ 2)) ≤
        ∑ i, ∑ j, p i j * Real.log ((x + v) i + (x + v) j) := sum_le_sum fun i _ => sum_le_sum fun j _ => by
      by_cases h : p i j = 0
      · simp [h]
      · rw [hfac i j h, Real.log_mul (hx i j h).ne' (hone i j h).ne']
        have := mul_le_mul_of_nonneg_left (log_lower (hv i j h)) (hp i j)
        nlinarith
    have hlin : ∑ i, ∑ j, p i j * ((v i + v j) / (x i + x j)) = 2 * ∑ i, v i * str p x i := by
      rw [show (∑ i, ∑ j, p i j * ((v i + v j) / (x i + x j))) = ∑ i, ∑ j, p i j / (x i + x j) * (v i + v j) from
        sum_congr rfl fun i _ => sum_congr rfl fun j _ => by ring]
      exact sum_symm (w := fun i j => p i j / (x i + x j)) (fun i j => by rw [hs i j, add_comm]) v
    simp only [sum_add_distrib, sum_sub_distrib, ← mul_sum] at key
    rw [hlin] at key
    have e1 : ∑ i, (s i - str p x i) * v i = ∑ i, s i * v i - ∑ i, v i * str p x i := by
      rw [← sum_sub_distrib]; exact sum_congr rfl fun i _ => by ring
    have e2 : ∑ i, s i * (x + v) i = ∑ i, s i * x i + ∑ i, s i * v i := by
      rw [← sum_add_distrib]; exact sum_congr rfl fun i _ => by simp only [Pi.add_apply]; ring
    unfold L S
    rw [e1, e2]
    linarith

/-- the log-likelihood around an exact solution, pair by pair -/
theorem L_pairs (hs : ∀ i j, p i j = p j i) {xs : ι → ℝ} (hfit : ∀ i, str p xs i = s i) (x : ι → ℝ) :
    L p s x = (∑ i, ∑ j, p i j * (Real.log (x i + x j) - (x i + x j) / (xs i + xs j))) / 2 := by
  have h1 := sum_symm (w := fun i j => p i j / (xs i + xs j)) (fun i j => by rw [hs i j, add_comm]) x
  have h2 : ∑ i, x i * ∑ j, p i j / (xs i + xs j) = ∑ i, s i * x i := sum_congr rfl fun i _ => by rw [← hfit i, mul_comm]; rfl
  rw [h2] at h1
  have h3 : ∑ i, ∑ j, p i j * (Real.log (x i + x j) - (x i + x j) / (xs i + xs j)) =
      ∑ i, ∑ j, p i j * Real.log (x i + x j) - ∑ i, ∑ j, p i j / (xs i + xs j) * (x i + x j) := by
    rw [← sum_sub_distrib]
    refine sum_congr rfl fun i _ => ?_
    rw [← sum_sub_distrib]
    exact sum_congr rfl fun j _ => by ring
  rw [h3, h1]
  unfold L
  ring

theorem pair_gap {u us : ℝ} (hu : 0 < u) (hus : 0 < us) : 0 ≤ (Real.log us - us / us) - (Real.log u - u / us) := by
  have := Real.log_le_sub_one_of_pos (div_pos hu hus)
  rw [Real.log_div hu.ne' hus.ne'] at this
  rw [div_self hus.ne']
  linarith

/-- an exact solution is a maximum, and no pair is worse off than the whole -/
theorem L_gap (hs : ∀ i j, p i j = p j i) (hp : ∀ i j, 0 ≤ p i j) {xs : ι → ℝ} (hxs : Dom p xs) (hfit : ∀ i, str p xs i = s i) {x : ι → ℝ} (hx : Dom p x) (i j : ι)
    (hij : p i j ≠ 0) : 0 ≤ L p s xs - L p s x ∧ xs i + xs j ≤ (x i + x j) * Real.exp (1 + 2 * (L p s xs - L p s x) / p i j) := by
  have e : 2 * (L p s xs - L p s x) = ∑ i, ∑ j, p i j * ((Real.log (xs i + xs j) - (xs i + xs j) / (xs i + xs j)) - (Real.log (x i + x j) - (x i + x j) / (xs i + xs j))) := by
    rw [L_pairs hs hfit xs, L_pairs hs hfit x]
    have : ∀ A B : ℝ, 2 * (A / 2 - B / 2) = A - B := fun A B => by ring
    rw [this, ← sum_sub_distrib]
    refine sum_congr rfl fun i _ => ?_
    rw [← sum_sub_distrib]
    exact sum_congr rfl fun j _ => by ring
  have hn : ∀ i j, 0 ≤ p i j * ((Real.log (xs i + xs j) - (xs i + xs j) / (xs i + xs j)) - (Real.log (x i + x j) - (x i + x j) / (xs i + xs j))) := fun i j => by
    by_cases h : p i j = 0
    · simp [h]
    · exact mul_nonneg (hp i j) (pair_gap (hx i j h) (hxs i j h))
  have h0 : 0 ≤ L p s xs - L p s x := by
    have := sum_nonneg fun i (_ : i ∈ univ) => sum_nonneg fun j (_ : j ∈ univ) => hn i j
    linarith
  refine ⟨h0, ?_⟩
  have h1 : p i j * ((Real.log (xs i + xs j) - (xs i + xs j) / (xs i + xs j)) - (Real.log (x i + x j) - (x i + x j) / (xs i + xs j))) ≤ 2 * (L p s xs - L p s x) := by
    rw [e]
    refine le_trans ?_ (single_le_sum (fun i _ => sum_nonneg fun j _ => hn i j) (mem_univ i))
    exact single_le_sum (fun j _ => hn i j) (mem_univ j)
  have hpp : 0 < p i j := lt_of_le_of_ne (hp i j) (Ne.symm hij)
  have hu := hx i j hij
  have hus := hxs i j hij
  rw [mul_comm, ← le_div_iff₀ hpp, div_self hus.ne'] at h1
  have h2 : 0 < (x i + x j) / (xs i + xs j) := div_pos hu hus
  have h3 : Real.log (xs i + xs j) ≤ Real.log (x i + x j) + (1 + 2 * (L p s xs - L p s x) / p i j) := by linarith
  have h4 := Real.exp_le_exp.2 h3
  rwa [Real.exp_add, Real.exp_log hu, Real.exp_log hus] at h4

end

end Verif.EM

namespace Verif.Solver

open Verif Finset Spec EM

noncomputable section

variable {ι : Type} [Fintype ι] [DecidableEq ι]

/-- what a conditional reconstruction model offers: `EM.L p s` is the log-likelihood, `C.fn` minus its gradient; outside the domain its value is not a number -/
structure Barrier (C : Callbacks ι) (p : ι → ι → ℝ) (s : ι → ℝ) : Prop where
  symm : ∀ i j, p i j = p j i
  nonneg : ∀ i j, 0 ≤ p i j
  fn : ∀ x i, C.fn x i = s i - str p x i
  search : ∃ F : (ι → ℝ) → Option ℝ, (∀ x, Dom p x → F x = some (L p s x)) ∧ (∀ x, ¬ Dom p x → F x = none) ∧
    ∀ x dx f, C.linsearch x dx 0.5 1 f = some (decreaseStage F x dx 0.5 1 f)
  reg : C.hessian_regulariser = matrix_regulariser_function
  hess : ∀ x v, quad (C.jac x) v = S p x v
  diag : ∀ x i, C.jacDiag x i = ∑ j, p i j / (x i + x j) ^ 2

variable [Nonempty ι] {C : Callbacks ι} {p : ι → ι → ℝ} {s : ι → ℝ}

theorem Barrier.S_diag (h : Barrier C p s) (x v : ι → ℝ) : S p x v ≤ 2 * ∑ i, C.jacDiag x i * v i ^ 2 := by
  have h1 : ∀ i j, p i j * ((v i + v j) / (x i + x j)) ^ 2 ≤ 2 * (p i j / (x i + x j) ^ 2 * (v i ^ 2 + v j ^ 2)) := fun i j => by
    have h2 : 0 ≤ p i j / (x i + x j) ^ 2 := div_nonneg (h.nonneg i j) (sq_nonneg _)
    have e : p i j * ((v i + v j) / (x i + x j)) ^ 2 = p i j / (x i + x j) ^ 2 * (v i + v j) ^ 2 := by rw [div_pow]; ring
    rw [e]
    nlinarith [mul_nonneg h2 (sq_nonneg (v i - v j))]
  have h3 := sum_symm (w := fun i j => p i j / (x i + x j) ^ 2) (fun i j => by rw [h.symm i j, add_comm]) fun i => v i ^ 2
  unfold S
  rw [div_le_iff₀ two_pos]
  refine (sum_le_sum fun i _ => sum_le_sum fun j _ => h1 i j).trans ?_
  simp only [← mul_sum]
  rw [h3]
  refine le_of_eq ?_
  rw [show (∑ i, C.jacDiag x i * v i ^ 2) = ∑ i, v i ^ 2 * ∑ j, p i j / (x i + x j) ^ 2 from sum_congr rfl fun i _ => by rw [h.diag]; ring]
  ring

/-- bound of the curvature where all rates are at least `δ` -/
def curv (p : ι → ι → ℝ) (δ : ℝ) : ℝ := 2 * (∑ i, ∑ j, p i j) / δ ^ 2

theorem Barrier.curv_nonneg (h : Barrier C p s) (δ : ℝ) : 0 ≤ curv p δ :=
  div_nonneg (mul_nonneg two_pos.le (sum_nonneg fun i _ => sum_nonneg fun j _ => h.nonneg i j)) (sq_nonneg _)

theorem Barrier.diag_le (h : Barrier C p s) {δ : ℝ} (hδ : 0 < δ) {x : ι → ℝ} (hx : ∀ i j, p i j ≠ 0 → δ ≤ x i + x j) (i : ι) : C.jacDiag x i ≤ curv p δ / 2 := by
  rw [h.diag]
  have e : curv p δ / 2 = (∑ i, ∑ j, p i j) / δ ^ 2 := by unfold curv; ring
  rw [e, sum_div]
  refine le_trans ?_ (single_le_sum (f := fun i => (∑ j, p i j) / δ ^ 2) (fun i _ => div_nonneg (sum_nonneg fun j _ => h.nonneg i j) (sq_nonneg _)) (mem_univ i))
  show _ ≤ (∑ j, p i j) / δ ^ 2
  rw [sum_div]
  refine sum_le_sum fun j _ => ?_
  by_cases hij : p i j = 0
  · simp [hij]
  · exact div_le_div_of_nonneg_left (h.nonneg i j) (by positivity) (pow_le_pow_left₀ hδ.le (hx i j hij) 2)

theorem Barrier.bound (h : Barrier C p s) {δ : ℝ} (hδ : 0 < δ) {x : ι → ℝ} (hx : ∀ i j, p i j ≠ 0 → δ ≤ x i + x j) (v : ι → ℝ) :
    quad (C.jac x) v ≤ curv p δ * ∑ i, v i ^ 2 := by
  rw [h.hess]
  refine (h.S_diag x v).trans ?_
  rw [mul_sum, mul_sum]
  refine sum_le_sum fun i _ => ?_
  have := mul_le_mul_of_nonneg_right (h.diag_le hδ hx i) (sq_nonneg (v i))
  linarith

theorem Barrier.direction (h : Barrier C p s) (o : Opts) (hm : o.method = "newton" ∨ o.method = "quasinewton") (hr : o.regularise = true)
    (he : 0 < o.regularise_eps) {δ : ℝ} (hδ : 0 < δ) {x : ι → ℝ} (hx : ∀ i j, p i j ≠ 0 → δ ≤ x i + x j) (hf : C.fn x ≠ 0) :
    ∃ dx, direction C o x (C.fn x) = .ok dx ∧ S p x dx ≤ -(2 * dot (C.fn x) dx) ∧ dot (C.fn x) dx ≤ -(maxAbs (C.fn x) * o.regularise_eps) * ∑ i, dx i ^ 2 ∧
      norm2 (C.fn x) ≤ (curv p δ + maxAbs (C.fn x) * o.regularise_eps) * norm2 dx := by
  set ε := maxAbs (C.fn x) * o.regularise_eps with hε
  have hpos : 0 < ε := mul_pos (maxAbs_pos hf) he
  have hM := h.curv_nonneg δ
  have hpsd : PosSemi (C.jac x) := fun v => by rw [h.hess]; exact S_nonneg h.nonneg x v
  rcases hm with hm | hm
  · have hpd := C17_regulariser_identity_posdef_partial (C.jac x) ε hpos hpsd
    obtain ⟨dx, h1, h2, -⟩ := C17_newton_descent _ hpd (C.fn x) hf
    set B := matrix_regulariser_function (C.jac x) ε with hB
    have hq : ∀ v, quad B v = quad (C.jac x) v + ε * ∑ i, v i ^ 2 := by
      intro v
      rw [hB, matrix_regulariser_function]
      simp only [quad_add, quad_smul, quad_one, quad_transpose]
      ring
    have e : dot (C.fn x) dx = -quad B dx := by
      rw [quad_eq_dot, h2]
      unfold dot
      rw [← sum_neg_distrib]
      exact sum_congr rfl fun i _ => by simp; ring
    have hsq : 0 ≤ ε * ∑ i, dx i ^ 2 := mul_nonneg hpos.le (sum_nonneg fun i _ => sq_nonneg _)
    refine ⟨dx, ?_, ?_, ?_, ?_⟩
    · rw [Solver.direction, hm, if_pos rfl]
      simp only [hr, if_true, h.reg]
      exact h1
    · rw [e, hq, h.hess]
      have := S_nonneg h.nonneg x dx
      linarith
    · rw [e, hq]
      have := hpsd dx
      linarith
    · have hb := mulVec_bound B hpd.1 (fun v => by
        rw [hq]; exact add_nonneg (hpsd v) (mul_nonneg hpos.le (sum_nonneg fun i _ => sq_nonneg _)))
        (M := curv p δ + ε) (by linarith) (fun v => by rw [hq]; linarith [h.bound hδ hx v]) dx
      rw [h2] at hb
      refine le_trans (le_of_eq ?_) hb
      unfold norm2; simp
  · set b : ι → ℝ := fun i => max (C.jacDiag x i) (C.jacDiag x i * 0 + ε) with hb
    have hbε : ∀ i, ε ≤ b i := fun i => le_trans (by simp) (le_max_right _ _)
    have hbd : ∀ i, C.jacDiag x i ≤ b i := fun i => le_max_left _ _
    have hbM : ∀ i, b i ≤ curv p δ + ε := fun i => max_le (by linarith [h.diag_le hδ hx i]) (by simp; exact hM)
    have hb0 : ∀ i, 0 < b i := fun i => lt_of_lt_of_le hpos (hbε i)
    have e : ∀ i, C.fn x i * (-C.fn x i / b i) = -(b i * (-C.fn x i / b i) ^ 2) := fun i => by
      have := (hb0 i).ne'
      field_simp
    refine ⟨fun i => -C.fn x i / b i, ?_, ?_, ?_, ?_⟩
    · rw [Solver.direction, hm, if_neg (by decide), if_pos rfl]
      simp only [hr, if_true]
      rw [if_neg]
      rintro ⟨i, hi⟩
      exact (hb0 i).ne' hi
    · refine (h.S_diag x _).trans ?_
      unfold dot
      rw [mul_sum, mul_sum, ← sum_neg_distrib]
      refine sum_le_sum fun i _ => ?_
      rw [e]
      nlinarith [hbd i, sq_nonneg (-C.fn x i / b i)]
    · unfold dot
      rw [mul_sum]
      refine sum_le_sum fun i _ => ?_
      rw [e]
      nlinarith [hbε i, sq_nonneg (-C.fn x i / b i)]
    · have hMε : 0 ≤ curv p δ + ε := by linarith
      unfold norm2
      rw [← Real.sqrt_sq hMε, ← Real.sqrt_mul (sq_nonneg _)]
      refine Real.sqrt_le_sqrt ?_
      rw [mul_sum]
      refine sum_le_sum fun i _ => ?_
      have e : C.fn x i = -(b i * (-C.fn x i / b i)) := by
        have := (hb0 i).ne'
        field_simp
      calc C.fn x i ^ 2 = b i ^ 2 * (-C.fn x i / b i) ^ 2 := by nth_rewrite 1 [e]; ring
        _ ≤ _ := mul_le_mul_of_nonneg_right (pow_le_pow_left₀ (hb0 i).le (hbM i) 2) (sq_nonneg _)

/-- a short step in a descent direction stays in the domain and gains -/
theorem Barrier.gain (h : Barrier C p s) {a0 : ℝ} (ha0 : 0 < a0) (hmin : ∀ i j, p i j ≠ 0 → a0 ≤ p i j) {x dx : ι → ℝ} (hx : Dom p x)
    (hS : S p x dx ≤ -(2 * dot (C.fn x) dx)) {t : ℝ} (ht : 0 ≤ t) (hq : 16 * t ^ 2 * -dot (C.fn x) dx ≤ a0) :
    Dom p (x + t • dx) ∧ L p s x + t * (1 - 4 * t) * -dot (C.fn x) dx ≤ L p s (x + t • dx) := by
  have hpair : ∀ i j, p i j ≠ 0 → |((t • dx) i + (t • dx) j) / (x i + x j)| ≤ 1 / 2 := fun i j hij => by
    have h1 := S_pair h.nonneg x (t • dx) i j
    rw [S_smul] at h1
    set q := ((t • dx) i + (t • dx) j) / (x i + x j) with hqd
    have h2 : a0 * q ^ 2 ≤ p i j * q ^ 2 := mul_le_mul_of_nonneg_right (hmin i j hij) (sq_nonneg _)
    have h3 : t ^ 2 * S p x dx ≤ t ^ 2 * (-(2 * dot (C.fn x) dx)) := mul_le_mul_of_nonneg_left hS (sq_nonneg _)
    have h4 : a0 * q ^ 2 ≤ a0 * (1 / 4) := by linarith
    have h5 : q ^ 2 ≤ (1 / 2) ^ 2 := by
      have := le_of_mul_le_mul_left h4 ha0
      linarith
    exact abs_le_of_sq_le_sq h5 (by norm_num)
  obtain ⟨k1, k2⟩ := L_second (s := s) h.symm h.nonneg hx hpair
  refine ⟨k1, ?_⟩
  rw [S_smul] at k2
  have e : ∑ i, (s i - str p x i) * (t • dx) i = t * dot (C.fn x) dx := by
    unfold dot
    rw [mul_sum]
    refine sum_congr rfl fun i _ => ?_
    rw [h.fn]
    simp only [Pi.smul_apply, smul_eq_mul]
    ring
  rw [e] at k2
  have h3 : t ^ 2 * S p x dx ≤ t ^ 2 * (-(2 * dot (C.fn x) dx)) := mul_le_mul_of_nonneg_left hS (sq_nonneg _)
  nlinarith

/-- the largest Newton decrement at a point whose log-likelihood is within `Δ` of the maximum -/
def decMax (a0 Δ : ℝ) : ℝ := 25 * Δ + 400 * Δ ^ 2 / a0

theorem Barrier.decrement_le (h : Barrier C p s) {a0 : ℝ} (ha0 : 0 < a0) (hmin : ∀ i j, p i j ≠ 0 → a0 ≤ p i j) {x dx : ι → ℝ} (hx : Dom p x)
    (hS : S p x dx ≤ -(2 * dot (C.fn x) dx)) {Δ : ℝ} (hΔ : ∀ y, Dom p y → L p s y ≤ L p s x + Δ) : -dot (C.fn x) dx ≤ decMax a0 Δ := by
  set Λ := -dot (C.fn x) dx with hΛ
  have hΔ0 : 0 ≤ Δ := by linarith [hΔ x hx]
  unfold decMax
  by_cases hbig : 16 * (1 / 5 : ℝ) ^ 2 * Λ ≤ a0
  · obtain ⟨k1, k2⟩ := h.gain ha0 hmin hx hS (t := 1 / 5) (by norm_num) hbig
    have := hΔ _ k1
    have h2 : 0 ≤ 400 * Δ ^ 2 / a0 := by positivity
    linarith
  · push Not at hbig
    have hΛ0 : 0 < Λ := by nlinarith
    set t := Real.sqrt (a0 / (16 * Λ)) with ht
    have ht2 : t ^ 2 = a0 / (16 * Λ) := Real.sq_sqrt (by positivity)
    have ht0 : 0 < t := Real.sqrt_pos.2 (by positivity)
    have ht5 : t ≤ 1 / 5 := by
      refine abs_le_of_sq_le_sq' ?_ (by norm_num) |>.2
      rw [ht2, div_le_iff₀ (by positivity)]
      linarith
    have e16 : 16 * t ^ 2 * Λ = a0 := by rw [ht2]; field_simp
    obtain ⟨k1, k2⟩ := h.gain ha0 hmin hx hS ht0.le e16.le
    have h1 := hΔ _ k1
    have h2 : t * Λ ≤ 5 * Δ := by
      have : t * (1 / 5) * Λ ≤ t * (1 - 4 * t) * Λ := mul_le_mul_of_nonneg_right (mul_le_mul_of_nonneg_left (by linarith) ht0.le) hΛ0.le
      linarith
    have h3 : (t * Λ) ^ 2 ≤ (5 * Δ) ^ 2 := pow_le_pow_left₀ (by positivity) h2 2
    have h4 : (t * Λ) ^ 2 = a0 * Λ / 16 := by rw [mul_pow, ht2]; field_simp
    have h5 : Λ ≤ 400 * Δ ^ 2 / a0 := by
      rw [le_div_iff₀ ha0]
      rw [h4] at h3
      linarith
    linarith

/-- shortest step length -/
def alfaMin (a0 Δ : ℝ) : ℝ := min (1 / 10) (Real.sqrt (a0 / (64 * (decMax a0 Δ + 1))))

theorem alfaMin_pos {a0 Δ : ℝ} (ha0 : 0 < a0) (hΔ : 0 ≤ Δ) : 0 < alfaMin a0 Δ := by
  have : 0 ≤ decMax a0 Δ := by unfold decMax; positivity
  unfold alfaMin
  exact lt_min (by norm_num) (Real.sqrt_pos.2 (by positivity))

/-- the line search returns an acceptable step length bounded below, inside the domain -/
theorem Barrier.search_spec (h : Barrier C p s) {a0 : ℝ} (ha0 : 0 < a0) (hmin : ∀ i j, p i j ≠ 0 → a0 ≤ p i j) {x dx : ι → ℝ} (hx : Dom p x)
    (hS : S p x dx ≤ -(2 * dot (C.fn x) dx)) (hpos : dot (C.fn x) dx < 0) {Δ : ℝ} (hΔ : ∀ y, Dom p y → L p s y ≤ L p s x + Δ) (hcap : Δ ≤ 1e13 * a0) :
    ∃ a, C.linsearch x dx 0.5 1 (C.fn x) = some a ∧ a ≤ 1 ∧ alfaMin a0 Δ ≤ a ∧ Dom p (x + a • dx) ∧ L p s x + 0.0001 * a * -dot (C.fn x) dx ≤ L p s (x + a • dx) := by
  obtain ⟨F, hF1, hF2, hF3⟩ := h.search
  have hdec := h.decrement_le ha0 hmin hx hS hΔ
  have hΔ0 : 0 ≤ Δ := by linarith [hΔ x hx]
  set Λ := -dot (C.fn x) dx with hΛ
  have hΛ0 : 0 < Λ := by linarith
  have hcond : ∀ t : ℝ, 0 < t → t ≤ 1 / 5 → 16 * t ^ 2 * Λ ≤ a0 → sufficient_decrease_condition (negF F x) (negF F (x + t • dx)) t (C.fn x) dx := by
    intro t ht ht5 hq
    obtain ⟨k1, k2⟩ := h.gain ha0 hmin hx hS ht.le hq
    unfold negF
    rw [hF1 x hx, hF1 _ k1]
    show -L p s (x + t • dx) < -L p s x + 0.0001 * t * dot (C.fn x) dx
    have h1 : t * (1 / 5) * Λ ≤ t * (1 - 4 * t) * Λ := mul_le_mul_of_nonneg_right (mul_le_mul_of_nonneg_left (by linarith) ht.le) hΛ0.le
    have h2 : 0 < t * Λ := mul_pos ht hΛ0
    have h3 : dot (C.fn x) dx = -Λ := by rw [hΛ]; ring
    rw [h3]
    nlinarith
  obtain ⟨k, hk, e, hc, hn⟩ := backtrack_spec (fun a => sufficient_decrease_condition (negF F x) (negF F (x + a • dx)) a (C.fn x) dx) 0.5 50 1
  set a := decreaseStage F x dx 0.5 1 (C.fn x) with had
  have e' : a = 1 * 0.5 ^ k := e
  have ha : 0 < a := by rw [e']; positivity
  have ha1 : a ≤ 1 := by rw [e', one_mul]; exact pow_le_one₀ (by norm_num) (by norm_num)
  have hcapΛ : Λ ≤ a0 * 2 ^ 96 := by
    refine hdec.trans ?_
    unfold decMax
    have h1 : Δ ^ 2 ≤ (1e13 * a0) ^ 2 := pow_le_pow_left₀ hΔ0 hcap 2
    have h2 : 400 * Δ ^ 2 / a0 ≤ 4e28 * a0 := by
      rw [div_le_iff₀ ha0]
      nlinarith
    norm_num at hcap h2 ⊢
    linarith
  have hca : sufficient_decrease_condition (negF F x) (negF F (x + a • dx)) a (C.fn x) dx := by
    rcases Nat.lt_or_ge k 50 with hk' | hk'
    · have := hc hk'; rw [← e'] at this; exact this
    · have hk50 : k = 50 := le_antisymm hk hk'
      have ea : a = 1 / 2 ^ 50 := by rw [e', hk50]; norm_num
      refine hcond a ha (by rw [ea]; norm_num) ?_
      rw [ea]
      have : 16 * (1 / 2 ^ 50 : ℝ) ^ 2 * Λ ≤ 16 * (1 / 2 ^ 50 : ℝ) ^ 2 * (a0 * 2 ^ 96) := mul_le_mul_of_nonneg_left hcapΛ (by positivity)
      refine this.trans (le_of_eq ?_)
      field_simp
      norm_num
  have hdom : Dom p (x + a • dx) := by
    by_contra hd
    unfold negF at hca
    rw [hF1 x hx, hF2 _ hd] at hca
    exact hca
  refine ⟨a, hF3 _ _ _, ha1, ?_, hdom, ?_⟩
  · rcases Nat.eq_zero_or_pos k with h0 | h0
    · rw [e', h0]
      exact (min_le_left _ _).trans (by norm_num)
    · have hnk := hn (k - 1) (by omega)
      have e2 : (1 : ℝ) * 0.5 ^ (k - 1) = 2 * a := by
        rw [e']
        obtain ⟨m, rfl⟩ : ∃ m, k = m + 1 := ⟨k - 1, by omega⟩
        simp only [Nat.add_sub_cancel, pow_succ]; ring
      rw [e2] at hnk
      by_contra hlt
      push Not at hlt
      have h1 : a < 1 / 10 := lt_of_lt_of_le hlt (min_le_left _ _)
      have h2 : a < Real.sqrt (a0 / (64 * (decMax a0 Δ + 1))) := lt_of_lt_of_le hlt (min_le_right _ _)
      refine hnk (hcond (2 * a) (by positivity) (by linarith) ?_)
      have hd0 : 0 ≤ decMax a0 Δ := by unfold decMax; positivity
      have h3 : a ^ 2 ≤ a0 / (64 * (decMax a0 Δ + 1)) := by
        have := pow_le_pow_left₀ ha.le h2.le 2
        rwa [Real.sq_sqrt (by positivity)] at this
      rw [le_div_iff₀ (by positivity)] at h3
      have h4 : a ^ 2 * Λ ≤ a ^ 2 * (decMax a0 Δ + 1) := mul_le_mul_of_nonneg_left (by linarith) (sq_nonneg _)
      nlinarith
  · unfold negF at hca
    rw [hF1 x hx, hF1 _ hdom] at hca
    have hca' : -L p s (x + a • dx) < -L p s x + 0.0001 * a * dot (C.fn x) dx := hca
    have h3 : dot (C.fn x) dx = -Λ := by rw [hΛ]; ring
    rw [h3] at hca'
    linarith

/-- shortest move while the residual exceeds `tol` -/
def moveMin (o : Opts) (p : ι → ι → ℝ) (a0 Δ δ : ℝ) : ℝ := alfaMin a0 Δ * (o.tol / (curv p δ + o.tol * o.regularise_eps))

theorem Barrier.moveMin_pos (h : Barrier C p s) {o : Opts} (ht : 0 < o.tol) (he : 0 < o.regularise_eps) {a0 Δ : ℝ} (ha0 : 0 < a0) (hΔ : 0 ≤ Δ) (δ : ℝ) :
    0 < moveMin o p a0 Δ δ := by
  have := h.curv_nonneg δ
  exact mul_pos (alfaMin_pos ha0 hΔ) (by positivity)

theorem Barrier.step (h : Barrier C p s) (o : Opts) (hm : o.method = "newton" ∨ o.method = "quasinewton") (hr : o.regularise = true)
    (he : 0 < o.regularise_eps) (hls : o.linsearch = true) (ht : 0 < o.tol) {a0 : ℝ} (ha0 : 0 < a0) (hmin : ∀ i j, p i j ≠ 0 → a0 ≤ p i j)
    {Δ δ : ℝ} (hδ : 0 < δ) (hcap : Δ ≤ 1e13 * a0) (t : State ι) (hf : t.f = C.fn t.x) (hn : t.norm = norm2 t.f) (hgt : o.tol < t.norm)
    (hx : ∀ i j, p i j ≠ 0 → δ ≤ t.x i + t.x j) (hΔ : ∀ y, Dom p y → L p s y ≤ L p s t.x + Δ) :
    ∃ t', step C o t = .ok t' ∧ t'.f = C.fn t'.x ∧ t'.norm = norm2 t'.f ∧ moveMin o p a0 Δ δ ≤ t'.diff ∧ Dom p t'.x ∧
      L p s t.x + 0.0001 * lamMin ι o * t'.diff ^ 2 ≤ L p s t'.x := by
  have hM := h.curv_nonneg δ
  have hl0 := lamMin_pos (ι := ι) ht he
  have hdom : Dom p t.x := fun i j hij => lt_of_lt_of_le hδ (hx i j hij)
  have hΔ0 : 0 ≤ Δ := by linarith [hΔ t.x hdom]
  rw [hn, hf] at hgt
  have hne : C.fn t.x ≠ 0 := by
    intro h0; rw [h0] at hgt
    have : norm2 (0 : ι → ℝ) = 0 := by simp [norm2]
    linarith
  obtain ⟨dx, h1, h2, h3, h4⟩ := h.direction o hm hr he hδ hx hne
  set lam := maxAbs (C.fn t.x) * o.regularise_eps with hlam
  have hcard : 0 < Real.sqrt (Fintype.card ι) := Real.sqrt_pos.2 (by exact_mod_cast Fintype.card_pos)
  have hll : lamMin ι o ≤ lam := by
    rw [lamMin, div_le_iff₀ hcard, hlam]
    have := norm2_le_sqrt_card_maxAbs (C.fn t.x)
    nlinarith
  have hlpos : 0 < lam := lt_of_lt_of_le hl0 hll
  have hdx0 : 0 < norm2 dx := by
    rcases (norm2_nonneg dx).eq_or_lt with h0 | h0
    · rw [← h0, mul_zero] at h4; linarith
    · exact h0
  have hSq : 0 < ∑ i, dx i ^ 2 := by rw [← norm2_sq]; positivity
  have hneg : dot (C.fn t.x) dx < 0 := by
    have := mul_pos hlpos hSq
    linarith
  obtain ⟨a, k1, k2, k3, k4, k5⟩ := h.search_spec ha0 hmin hdom h2 hneg hΔ hcap
  have hapos : 0 < a := lt_of_lt_of_le (alfaMin_pos ha0 hΔ0) k3
  have hsl : stepLength C o t dx = .ok a := by
    rw [stepLength, if_pos ⟨hls, hm⟩, hf, k1]
  have hdiff : norm2 (t.x + a • dx - t.x) = a * norm2 dx := by rw [add_sub_cancel_left, norm2_smul a hapos.le]
  refine ⟨_, by rw [Solver.step, hf, h1]; simp only [hsl]; rfl, rfl, rfl, ?_, k4, ?_⟩
  · show moveMin o p a0 Δ δ ≤ norm2 (t.x + a • dx - t.x)
    rw [hdiff]
    have hB : o.tol / (curv p δ + o.tol * o.regularise_eps) ≤ norm2 dx := by
      rw [div_le_iff₀ (by positivity)]
      have h5 : norm2 (C.fn t.x) ≤ (curv p δ + norm2 (C.fn t.x) * o.regularise_eps) * norm2 dx :=
        h4.trans (mul_le_mul_of_nonneg_right (add_le_add le_rfl (mul_le_mul_of_nonneg_right (maxAbs_le_norm2 _) he.le)) hdx0.le)
      set f := norm2 (C.fn t.x) with hfd
      have hf0 : 0 < f := lt_trans ht hgt
      by_contra hlt
      push Not at hlt
      have h6 : f * (norm2 dx * (curv p δ + o.tol * o.regularise_eps)) < f * o.tol := mul_lt_mul_of_pos_left hlt hf0
      have h7 : o.tol * f ≤ o.tol * ((curv p δ + f * o.regularise_eps) * norm2 dx) := mul_le_mul_of_nonneg_left h5 ht.le
      nlinarith [mul_nonneg (mul_nonneg hM hdx0.le) (sub_nonneg.2 hgt.le)]
    unfold moveMin
    exact mul_le_mul k3 hB (by positivity) hapos.le
  · show L p s t.x + 0.0001 * lamMin ι o * norm2 (t.x + a • dx - t.x) ^ 2 ≤ L p s (t.x + a • dx)
    refine le_trans ?_ k5
    rw [hdiff, mul_pow, norm2_sq]
    have e1 : a ^ 2 * ∑ i, dx i ^ 2 ≤ a * ∑ i, dx i ^ 2 := mul_le_mul_of_nonneg_right (by nlinarith) hSq.le
    have e2 : lamMin ι o * (a ^ 2 * ∑ i, dx i ^ 2) ≤ lam * (a * ∑ i, dx i ^ 2) := mul_le_mul hll e1 (by positivity) hlpos.le
    have e3 : a * (lam * ∑ i, dx i ^ 2) ≤ a * -dot (C.fn t.x) dx := mul_le_mul_of_nonneg_left (by linarith) hapos.le
    nlinarith

theorem Barrier.loop (h : Barrier C p s) (o : Opts) (hm : o.method = "newton" ∨ o.method = "quasinewton") (hr : o.regularise = true)
    (he : 0 < o.regularise_eps) (hls : o.linsearch = true) (ht : 0 < o.tol) {a0 : ℝ} (ha0 : 0 < a0) (hmin : ∀ i j, p i j ≠ 0 → a0 ≤ p i j)
    {Δ δ U : ℝ} (hδ : 0 < δ) (hΔ0 : 0 ≤ Δ) (hcap : Δ ≤ 1e13 * a0) (hU : ∀ y, Dom p y → L p s y ≤ U)
    (hsub : ∀ x, Dom p x → U - Δ ≤ L p s x → ∀ i j, p i j ≠ 0 → δ ≤ x i + x j) :
    ∀ (k : ℕ) (t : State ι), t.f = C.fn t.x → t.norm = norm2 t.f → min 1 (moveMin o p a0 Δ δ) ≤ t.diff → Dom p t.x → U - Δ ≤ L p s t.x →
      ∃ r, loop C o k t = .ok r ∧ r.norm = norm2 (C.fn r.x) ∧ min 1 (moveMin o p a0 Δ δ) ≤ r.diff ∧ Dom p r.x ∧
        L p s t.x + ((r.n_steps : ℝ) - t.n_steps) * (0.0001 * lamMin ι o * moveMin o p a0 Δ δ ^ 2) ≤ L p s r.x := by
  have hl0 := lamMin_pos (ι := ι) ht he
  have hd0 := h.moveMin_pos ht he ha0 hΔ0 δ
  intro k
  induction k with
  | zero => intro t hf hn hd hdom _; exact ⟨t, rfl, by rw [hn, hf], hd, hdom, by simp⟩
  | succ k ih =>
    intro t hf hn hd hdom hlev
    rw [Solver.loop]
    split
    · rename_i hc
      obtain ⟨t', e1, e2, e3, e4, e5, e6⟩ := h.step o hm hr he hls ht ha0 hmin hδ hcap t hf hn hc.1 (hsub _ hdom hlev) (fun y hy => by linarith [hU y hy])
      obtain ⟨_, _, _, _, hs'⟩ := step_ok e1
      have hn' : t'.n_steps = t.n_steps + 1 := by rw [hs']
      rw [e1]
      have hsq : 0 ≤ 0.0001 * lamMin ι o * t'.diff ^ 2 := by positivity
      obtain ⟨r, r1, r2, r3, r4, r5⟩ := ih t' e2 e3 (le_trans (min_le_right _ _) e4) e5 (by linarith)
      refine ⟨r, r1, r2, r3, r4, ?_⟩
      have := mul_le_mul_of_nonneg_left (pow_le_pow_left₀ hd0.le e4 2) (by positivity : 0 ≤ 0.0001 * lamMin ι o)
      rw [hn'] at r5
      push_cast at r5
      linarith
    · exact ⟨t, rfl, by rw [hn, hf], hd, hdom, by simp⟩

/-- no point of the domain has a higher log-likelihood than an exact solution -/
theorem Barrier.upper (h : Barrier C p s) {xs : ι → ℝ} (hxs : Dom p xs) (hfit : ∀ i, str p xs i = s i) (y : ι → ℝ) (hy : Dom p y) : L p s y ≤ L p s xs := by
  by_cases hne : ∃ i j, p i j ≠ 0
  · obtain ⟨i, j, hij⟩ := hne
    linarith [(L_gap h.symm h.nonneg hxs hfit hy i j hij).1]
  · push Not at hne
    have : ∀ x, L p s x = 0 := fun x => by
      rw [L_pairs h.symm hfit x]; simp [hne]
    rw [this, this]

/-- on a level set of the log-likelihood the sums over the links have a positive lower bound -/
theorem Barrier.floor (h : Barrier C p s) {a0 : ℝ} (ha0 : 0 < a0) (hmin : ∀ i j, p i j ≠ 0 → a0 ≤ p i j) {xs : ι → ℝ} (hxs : Dom p xs) (hfit : ∀ i, str p xs i = s i)
    {Δ : ℝ} (hΔ0 : 0 ≤ Δ) : ∃ δ > 0, ∀ x, Dom p x → L p s xs - Δ ≤ L p s x → ∀ i j, p i j ≠ 0 → δ ≤ x i + x j := by
  have hfin : ∃ m > (0 : ℝ), ∀ q : ι × ι, p q.1 q.2 ≠ 0 → m ≤ xs q.1 + xs q.2 := by
    classical
    by_cases hne : (univ.filter fun q : ι × ι => p q.1 q.2 ≠ 0).Nonempty
    · obtain ⟨q, hq, hmin⟩ := exists_min_image _ (fun q : ι × ι => xs q.1 + xs q.2) hne
      simp only [mem_filter, mem_univ, true_and] at hq hmin
      exact ⟨_, hxs _ _ hq, fun q' hq' => hmin q' hq'⟩
    · rw [not_nonempty_iff_eq_empty, filter_eq_empty_iff] at hne
      exact ⟨1, one_pos, fun q hq => absurd hq (by simpa using hne (mem_univ q))⟩
  obtain ⟨m, hm, hmle⟩ := hfin
  refine ⟨m / Real.exp (1 + 2 * Δ / a0), by positivity, fun x hx hlev i j hij => ?_⟩
  have h1 := (L_gap h.symm h.nonneg hxs hfit hx i j hij).2
  have hpp : 0 < p i j := lt_of_lt_of_le ha0 (hmin i j hij)
  rw [div_le_iff₀ (Real.exp_pos _)]
  refine (hmle (i, j) hij).trans (h1.trans ?_)
  refine mul_le_mul_of_nonneg_left (Real.exp_le_exp.2 ?_) (hx i j hij).le
  have h2 : 2 * (L p s xs - L p s x) / p i j ≤ 2 * Δ / a0 := by
    have h3 : 2 * (L p s xs - L p s x) ≤ 2 * Δ := by linarith
    exact div_le_div₀ (by positivity) h3 ha0 (hmin i j hij)
  linarith

/-- With an exact solution inside the domain and a starting point whose log-likelihood is not absurdly low, the iteration never fails, stays in the domain and takes a bounded number
of steps; with more steps allowed than that and a small enough `eps` it stops at a point with residual at most `tol`. -/
theorem Barrier.solver (h : Barrier C p s) {a0 : ℝ} (ha0 : 0 < a0) (hmin : ∀ i j, p i j ≠ 0 → a0 ≤ p i j) {xs : ι → ℝ} (hxs : Dom p xs) (hfit : ∀ i, str p xs i = s i)
    {x0 : ι → ℝ} (hx0 : Dom p x0) (hcap : L p s xs ≤ L p s x0 + 1e13 * a0) {tol reps : ℝ} (ht : 0 < tol) (he : 0 < reps) :
    ∃ T : ℕ, ∃ τ > (0 : ℝ), ∀ (C : Callbacks ι) (o : Opts), Barrier C p s → o.tol = tol → o.regularise_eps = reps → (o.method = "newton" ∨ o.method = "quasinewton") → o.regularise = true →
      o.linsearch = true → ∃ r, solver C o x0 = .ok r ∧ r.n_steps ≤ T ∧ Dom p r.x ∧ L p s x0 ≤ L p s r.x ∧ (T < o.max_steps → o.eps < τ → norm2 (C.fn r.x) ≤ tol) := by
  have hU := h.upper hxs hfit
  set Δ := L p s xs - L p s x0 with hΔ
  have hΔ0 : 0 ≤ Δ := by linarith [hU x0 hx0]
  obtain ⟨δ, hδ, hsub⟩ := h.floor ha0 hmin hxs hfit hΔ0
  set o0 : Opts := { tol := tol, eps := 0, max_steps := 0, method := "newton", regularise := true, regularise_eps := reps, linsearch := true } with ho0
  have hl0 := lamMin_pos (ι := ι) (o := o0) ht he
  have hd0 := h.moveMin_pos (o := o0) ht he ha0 hΔ0 δ
  set γ := 0.0001 * lamMin ι o0 * moveMin o0 p a0 Δ δ ^ 2 with hγ
  have hγ0 : 0 < γ := by positivity
  obtain ⟨T, hT⟩ := exists_nat_gt (Δ / γ)
  refine ⟨T, min 1 (moveMin o0 p a0 Δ δ), lt_min one_pos hd0, fun C o h hot hoe hm hr hls => ?_⟩
  have ht' : 0 < o.tol := by rw [hot]; exact ht
  have he' : 0 < o.regularise_eps := by rw [hoe]; exact he
  have elam : lamMin ι o = lamMin ι o0 := by simp only [lamMin, hot, hoe, ho0]
  have emove : moveMin o p a0 Δ δ = moveMin o0 p a0 Δ δ := by simp only [moveMin, hot, hoe, ho0]
  obtain ⟨r, r1, r2, r3, r4, r5⟩ := h.loop o hm hr he' hls ht' ha0 hmin hδ hΔ0 (by linarith) hU hsub o.max_steps (initState C x0) rfl rfl (min_le_left _ _) hx0
    (by show L p s xs - Δ ≤ L p s x0; linarith)
  rw [elam, emove, ← hγ] at r5
  change L p s x0 + ((r.n_steps : ℝ) - ((0 : ℕ) : ℝ)) * γ ≤ L p s r.x at r5
  simp only [Nat.cast_zero, sub_zero] at r5
  have hn : r.n_steps ≤ T := by
    by_contra hlt
    push Not at hlt
    have h1 : (T : ℝ) ≤ r.n_steps := by exact_mod_cast hlt.le
    have h2 := mul_le_mul_of_nonneg_right h1 hγ0.le
    have h3 := hU r.x r4
    rw [div_lt_iff₀ hγ0] at hT
    linarith
  refine ⟨r, r1, hn, r4, ?_, fun hmax hlt => ?_⟩
  · have : 0 ≤ (r.n_steps : ℝ) * γ := by positivity
    linarith
  · rcases (loop_exit C o o.max_steps (initState C x0) r r1).2 (by
      show r.n_steps < 0 + o.max_steps
      omega) with h' | h'
    · rw [← r2, ← hot]; exact h'
    · rw [emove] at r3
      linarith

end

end Verif.Solver
