import Verif.Props.Solver
import Verif.Spec.Matrix

/-! C17: the Hessian regularisers and the directions computed from them. -/

namespace Verif.Solver

open Finset Spec

open Classical in
attribute [local instance 0] propDecidable

section Matrices

variable {ι : Type*} [Fintype ι] [DecidableEq ι]

theorem quad_eq_dot (M : Matrix ι ι ℝ) (v : ι → ℝ) : quad M v = dot v (M.mulVec v) := by
  unfold quad dot Matrix.mulVec dotProduct
  refine sum_congr rfl fun i _ => ?_
  rw [mul_sum]
  exact sum_congr rfl fun j _ => by ring

theorem quad_transpose (M : Matrix ι ι ℝ) (v : ι → ℝ) : quad M.transpose v = quad M v := by
  unfold quad
  rw [sum_comm]
  exact sum_congr rfl fun i _ => sum_congr rfl fun j _ => by rw [Matrix.transpose_apply]; ring

theorem quad_add (M N : Matrix ι ι ℝ) (v : ι → ℝ) : quad (M + N) v = quad M v + quad N v := by
  unfold quad
  simp only [← sum_add_distrib, Matrix.add_apply]
  exact sum_congr rfl fun i _ => sum_congr rfl fun j _ => by ring

theorem quad_smul (c : ℝ) (M : Matrix ι ι ℝ) (v : ι → ℝ) : quad (c • M) v = c * quad M v := by
  unfold quad
  simp only [mul_sum, Matrix.smul_apply, smul_eq_mul]
  exact sum_congr rfl fun i _ => sum_congr rfl fun j _ => by ring

theorem quad_diagonal (t : ι → ℝ) (v : ι → ℝ) : quad (Matrix.diagonal t) v = ∑ i, t i * v i ^ 2 := by
  unfold quad
  refine sum_congr rfl fun i _ => ?_
  rw [sum_eq_single i]
  · rw [Matrix.diagonal_apply_eq]; ring
  · intro j _ hj; rw [Matrix.diagonal_apply_ne _ (Ne.symm hj)]; ring
  · simp

theorem quad_one (v : ι → ℝ) : quad (1 : Matrix ι ι ℝ) v = ∑ i, v i ^ 2 := by
  rw [← Matrix.diagonal_one, quad_diagonal]; simp

theorem quad_conj (e M : Matrix ι ι ℝ) (v : ι → ℝ) : quad (e * M * e.transpose) v = quad M (e.transpose.mulVec v) := by
  have hd : ∀ a b : ι → ℝ, dot a b = a ⬝ᵥ b := fun a b => rfl
  rw [quad_eq_dot, quad_eq_dot, hd, hd, Matrix.dotProduct_mulVec, Matrix.dotProduct_mulVec, ← Matrix.dotProduct_mulVec,
    Matrix.mul_assoc, ← Matrix.mulVec_mulVec, ← Matrix.mulVec_mulVec, Matrix.dotProduct_mulVec, ← Matrix.mulVec_transpose,
    Matrix.dotProduct_mulVec]

theorem sumsq_pos {v : ι → ℝ} (hv : v ≠ 0) : 0 < ∑ i, v i ^ 2 := by
  obtain ⟨i, hi⟩ := Function.ne_iff.1 hv
  exact sum_pos' (fun i _ => sq_nonneg _) ⟨i, mem_univ i, by have : v i ≠ 0 := hi; positivity⟩

/-! ### The identity shift -/

/-- C17 (identity regulariser): the result is symmetric and its quadratic form is that of the input plus `eps |v|²`. -/
theorem C17_regulariser_identity_form (b : Matrix ι ι ℝ) (eps : ℝ) :
    Symm (matrix_regulariser_function b eps) ∧ ∀ v, quad (matrix_regulariser_function b eps) v = quad b v + eps * ∑ i, v i ^ 2 := by
  constructor
  · intro i j
    simp only [matrix_regulariser_function, Matrix.add_apply, Matrix.smul_apply, Matrix.transpose_apply, smul_eq_mul,
      Matrix.one_apply, eq_comm (a := i)]
    ring
  · intro v
    simp only [matrix_regulariser_function]
    rw [quad_add, quad_smul, quad_smul, quad_add, quad_transpose, quad_one]
    ring

/-- C17 (identity regulariser): for a positive semidefinite matrix and `eps > 0` the result is positive definite.  The hypothesis is what
the code relies on when it uses this regulariser for the concave models. -/
theorem C17_regulariser_identity_posdef_partial (b : Matrix ι ι ℝ) (eps : ℝ) (heps : 0 < eps) (hb : PosSemi b) :
    PosDef (matrix_regulariser_function b eps) := by
  obtain ⟨h1, h2⟩ := C17_regulariser_identity_form b eps
  refine ⟨h1, fun v hv => ?_⟩
  rw [h2]
  have := mul_pos heps (sumsq_pos hv)
  linarith [hb v]

/-- C17 (identity regulariser, limit): the docstring ("transforms the input matrix in a positive defined matrix") does not hold for every
symmetric matrix: for each `eps` there is one whose regularisation is not positive definite. -/
theorem C17_regulariser_identity_not_posdef (eps : ℝ) :
    ∃ b : Matrix (Fin 1) (Fin 1) ℝ, Symm b ∧ ¬ PosDef (matrix_regulariser_function b eps) := by
  refine ⟨(-eps) • (1 : Matrix (Fin 1) (Fin 1) ℝ), fun i j => by simp [Matrix.one_apply, eq_comm], fun h => ?_⟩
  have h1 := h.2 (fun _ => 1) (by intro h; have := congrFun h 0; simp at this)
  rw [(C17_regulariser_identity_form _ eps).2, quad_smul, quad_one] at h1
  simp at h1

/-! ### The eigenvalue clipping -/

/-- C17 (eigenvalue regulariser): for every square matrix `b`, every `eps > 0` and whatever eigen-decomposition `eigh` returns for the symmetrised matrix, the result
is symmetric positive definite, with quadratic form at least `eps |v|²`. -/
theorem C17_regulariser_eigen_posdef (b : Matrix ι ι ℝ) (eps : ℝ) (heps : 0 < eps) (t : ι → ℝ) (e : Matrix ι ι ℝ)
    (h : IsEigh ((0.5 : ℝ) • (b + b.transpose)) t e) :
    PosDef (matrix_regulariser_function_eigen_based t e eps) ∧
    ∀ v, eps * ∑ i, v i ^ 2 ≤ quad (matrix_regulariser_function_eigen_based t e eps) v := by
  have horth' : e * e.transpose = 1 := mul_eq_one_comm.1 h.orth
  have hform : ∀ v, quad (matrix_regulariser_function_eigen_based t e eps) v =
      ∑ i, max (t i) eps * (e.transpose.mulVec v) i ^ 2 := by
    intro v
    simp only [matrix_regulariser_function_eigen_based]
    rw [quad_conj, quad_add, quad_diagonal, quad_diagonal, ← sum_add_distrib]
    refine sum_congr rfl fun i _ => ?_
    rw [← add_mul]
    congr 1
    split
    · rename_i hgt; rw [max_eq_left hgt.le, zero_add]
    · rename_i hgt; rw [max_eq_right (not_lt.1 hgt)]; ring
  have hnorm : ∀ v, ∑ i, (e.transpose.mulVec v) i ^ 2 = ∑ i, v i ^ 2 := by
    intro v
    have := quad_conj e 1 v
    rw [Matrix.mul_one, horth', quad_one, quad_one] at this
    exact this.symm
  have hlow : ∀ v, eps * ∑ i, v i ^ 2 ≤ quad (matrix_regulariser_function_eigen_based t e eps) v := by
    intro v
    rw [hform, ← hnorm, mul_sum]
    exact sum_le_sum fun i _ => mul_le_mul_of_nonneg_right (le_max_right _ _) (sq_nonneg _)
  refine ⟨⟨?_, fun v hv => lt_of_lt_of_le (mul_pos heps (sumsq_pos hv)) (hlow v)⟩, hlow⟩
  intro i j
  have : (matrix_regulariser_function_eigen_based t e eps).transpose = matrix_regulariser_function_eigen_based t e eps := by
    simp only [matrix_regulariser_function_eigen_based, Matrix.transpose_mul, Matrix.transpose_transpose, Matrix.transpose_add,
      Matrix.diagonal_transpose, Matrix.mul_assoc]
  conv_rhs => rw [← this]
  rfl

/-- C17 (eigenvalue regulariser): a matrix whose eigenvalues all exceed `eps` is only symmetrised. -/
theorem C17_regulariser_eigen_fixed (b : Matrix ι ι ℝ) (eps : ℝ) (t : ι → ℝ) (e : Matrix ι ι ℝ)
    (h : IsEigh ((0.5 : ℝ) • (b + b.transpose)) t e) (ht : ∀ i, eps < t i) (hb : Symm b) :
    matrix_regulariser_function_eigen_based t e eps = b := by
  have hb' : (0.5 : ℝ) • (b + b.transpose) = b := by
    ext i j
    simp only [Matrix.smul_apply, Matrix.add_apply, Matrix.transpose_apply, smul_eq_mul, hb j i]
    ring
  rw [hb'] at h
  conv_rhs => rw [h.decomp]
  simp only [matrix_regulariser_function_eigen_based]
  congr 2
  rw [show (fun i => if t i > eps then (0 : ℝ) else eps - t i) = 0 from funext fun i => if_pos (ht i)]
  simp

/-- the contract of `eigh` can always be met (spectral theorem) -/
theorem isEigh_exists (b : Matrix ι ι ℝ) (hb : Symm b) : ∃ t e, IsEigh b t e := by
  have hA : b.IsHermitian := by
    ext i j; simp [Matrix.conjTranspose_apply, hb i j]
  refine ⟨hA.eigenvalues, (hA.eigenvectorUnitary : Matrix ι ι ℝ), ?_, ?_⟩
  · have := Unitary.coe_star_mul_self hA.eigenvectorUnitary
    rwa [Matrix.star_eq_conjTranspose, Matrix.conjTranspose_eq_transpose_of_trivial] at this
  · have := hA.spectral_theorem
    rw [Unitary.conjStarAlgAut_apply, Matrix.star_eq_conjTranspose, Matrix.conjTranspose_eq_transpose_of_trivial] at this
    exact this

/-- so the hypotheses of the two theorems above are met for every square matrix -/
example (b : Matrix ι ι ℝ) : ∃ t e, IsEigh ((0.5 : ℝ) • (b + b.transpose)) t e :=
  isEigh_exists _ fun i j => by simp [add_comm]

/-! ### Directions -/

theorem det_ne_zero_of_posDef {M : Matrix ι ι ℝ} (h : PosDef M) : M.det ≠ 0 := by
  intro hd
  obtain ⟨v, hv, h0⟩ := Matrix.exists_mulVec_eq_zero_iff.2 hd
  have := h.2 v hv
  rw [quad_eq_dot, h0] at this
  simp [dot] at this

/-- C17: with a positive definite matrix the Newton system is solvable and the direction decreases the objective to first order (`f` is the gradient of
the objective). -/
theorem C17_newton_descent (B : Matrix ι ι ℝ) (h : PosDef B) (f : ι → ℝ) (hf : f ≠ 0) :
    ∃ dx, linalgSolve B (-f) = .ok dx ∧ B.mulVec dx = -f ∧ dot f dx < 0 := by
  have hd := det_ne_zero_of_posDef h
  have hu : IsUnit B.det := isUnit_iff_ne_zero.2 hd
  have hs : B.mulVec (B⁻¹.mulVec (-f)) = -f := by
    rw [Matrix.mulVec_mulVec, Matrix.mul_nonsing_inv _ hu, Matrix.one_mulVec]
  refine ⟨B⁻¹.mulVec (-f), by rw [linalgSolve, if_neg hd], hs, ?_⟩
  set d := B⁻¹.mulVec (-f)
  have hd0 : d ≠ 0 := by
    intro h0; rw [h0, Matrix.mulVec_zero] at hs; exact hf (neg_eq_zero.1 hs.symm)
  have := h.2 d hd0
  rw [quad_eq_dot, hs] at this
  unfold dot at this ⊢
  simp only [Pi.neg_apply, mul_neg, sum_neg_distrib] at this
  have e : ∑ i, d i * f i = ∑ i, f i * d i := sum_congr rfl fun i _ => mul_comm _ _
  linarith

end Matrices

/-! ### The solver's own directions -/

section Directions

variable {ι : Type*} [Fintype ι] [DecidableEq ι] [Nonempty ι]

theorem maxAbs_pos {f : ι → ℝ} (hf : f ≠ 0) : 0 < maxAbs f := by
  obtain ⟨i, hi⟩ := Function.ne_iff.1 hf
  exact lt_of_lt_of_le (abs_pos.2 hi) (le_sup' (fun i => |f i|) (mem_univ i))

/-- C17 (quasinewton, regularised): the direction always exists and is a descent direction, whatever the diagonal `fun_jac` returns (even the wrong ones of C08). -/
theorem C17_quasinewton_descent (C : Callbacks ι) (o : Opts) (x : ι → ℝ) (hm : o.method = "quasinewton") (hr : o.regularise = true)
    (he : 0 < o.regularise_eps) (hf : C.fn x ≠ 0) :
    ∃ dx, direction C o x (C.fn x) = .ok dx ∧ dot (C.fn x) dx < 0 := by
  have hpos : 0 < maxAbs (C.fn x) * o.regularise_eps := mul_pos (maxAbs_pos hf) he
  have hB : ∀ i, 0 < max (C.jacDiag x i) (C.jacDiag x i * 0 + maxAbs (C.fn x) * o.regularise_eps) := fun i =>
    lt_of_lt_of_le (by simpa using hpos) (le_max_right _ _)
  refine ⟨fun i => -C.fn x i / max (C.jacDiag x i) (C.jacDiag x i * 0 + maxAbs (C.fn x) * o.regularise_eps), ?_, ?_⟩
  · rw [direction, hm, if_neg (by decide), if_pos rfl]
    simp only [hr, if_true]
    rw [if_neg]
    rintro ⟨i, hi⟩
    exact (hB i).ne' hi
  · unfold dot
    obtain ⟨i, hi⟩ := Function.ne_iff.1 hf
    have hi' : C.fn x i ≠ 0 := hi
    have : ∀ i, C.fn x i * (-C.fn x i / max (C.jacDiag x i) (C.jacDiag x i * 0 + maxAbs (C.fn x) * o.regularise_eps)) =
        -(C.fn x i ^ 2 / max (C.jacDiag x i) (C.jacDiag x i * 0 + maxAbs (C.fn x) * o.regularise_eps)) := fun i => by ring
    simp only [this, sum_neg_distrib]
    rw [neg_lt_zero]
    exact sum_pos' (fun i _ => div_nonneg (sq_nonneg _) (hB i).le) ⟨i, mem_univ i, div_pos (by positivity) (hB i)⟩

/-- C17 (newton, regularised with the identity shift): if minus the Hessian of the log-likelihood is positive semidefinite at the current point, the direction exists and is a
descent direction. -/
theorem C17_newton_identity_descent (C : Callbacks ι) (o : Opts) (x : ι → ℝ) (hm : o.method = "newton") (hr : o.regularise = true)
    (hreg : C.hessian_regulariser = matrix_regulariser_function)
    (he : 0 < o.regularise_eps) (hf : C.fn x ≠ 0) (hJ : PosSemi (C.jac x)) :
    ∃ dx, direction C o x (C.fn x) = .ok dx ∧ dot (C.fn x) dx < 0 := by
  have hpos : 0 < maxAbs (C.fn x) * o.regularise_eps := mul_pos (maxAbs_pos hf) he
  obtain ⟨dx, h1, -, h3⟩ := C17_newton_descent _ (C17_regulariser_identity_posdef_partial (C.jac x) _ hpos hJ) (C.fn x) hf
  refine ⟨dx, ?_, h3⟩
  rw [direction, hm, if_pos rfl]
  simp only [hr, if_true, hreg]
  exact h1

/-- C17 (newton, regularised by eigenvalue clipping): the direction exists and is a descent direction for every Hessian, even a wrong or indefinite one. -/
theorem C17_newton_eigen_descent (C : Callbacks ι) (o : Opts) (x : ι → ℝ) (hm : o.method = "newton") (hr : o.regularise = true)
    (eigh : Matrix ι ι ℝ → (ι → ℝ) × Matrix ι ι ℝ)
    (heigh : ∀ b, Symm b → IsEigh b (eigh b).1 (eigh b).2)
    (hreg : ∀ b eps, C.hessian_regulariser b eps = matrix_regulariser_function_eigen_based
      (eigh ((0.5 : ℝ) • (b + b.transpose))).1 (eigh ((0.5 : ℝ) • (b + b.transpose))).2 eps)
    (he : 0 < o.regularise_eps) (hf : C.fn x ≠ 0) :
    ∃ dx, direction C o x (C.fn x) = .ok dx ∧ dot (C.fn x) dx < 0 := by
  have hpos : 0 < maxAbs (C.fn x) * o.regularise_eps := mul_pos (maxAbs_pos hf) he
  have hE := heigh ((0.5 : ℝ) • (C.jac x + (C.jac x).transpose)) fun i j => by simp [add_comm]
  obtain ⟨dx, h1, -, h3⟩ := C17_newton_descent _ (C17_regulariser_eigen_posdef (C.jac x) _ hpos _ _ hE).1 (C.fn x) hf
  refine ⟨dx, ?_, h3⟩
  rw [direction, hm, if_pos rfl]
  simp only [hr, if_true, hreg]
  exact h1

end Directions

end Verif.Solver
