import Verif.Lemmas.Solver
import Mathlib.LinearAlgebra.Lagrange
import Mathlib.Data.Fin.Tuple.Sort

/-! Renaming the coordinates of a problem renames the run of `solver` (used by C56). -/

namespace Verif.Solver

open Finset

noncomputable section

open Classical in
attribute [local instance 0] Classical.propDecidable

variable {ι : Type} [Fintype ι] [DecidableEq ι]

/-- the callbacks of the problem with renamed coordinates -/
structure Renamed (τ : ι ≃ ι) (C C' : Callbacks ι) : Prop where
  fn : ∀ x, C'.fn (x ∘ τ) = C.fn x ∘ τ
  jac : ∀ x, C'.jac (x ∘ τ) = (C.jac x).submatrix τ τ
  diag : ∀ x, C'.jacDiag (x ∘ τ) = C.jacDiag x ∘ τ
  reg : ∀ x ε, C'.hessian_regulariser ((C.jac x).submatrix τ τ) ε = (C.hessian_regulariser (C.jac x) ε).submatrix τ τ
  search : ∀ x dx b a f, C'.linsearch (x ∘ τ) (dx ∘ τ) b a (f ∘ τ) = C.linsearch x dx b a f
  searchFixed : ∀ x dx dx_old a b k, C'.linsearchFixed (x ∘ τ) (dx ∘ τ) (dx_old ∘ τ) a b k = C.linsearchFixed x dx dx_old a b k

/-- the state of the run on the renamed problem -/
def State.rename (τ : ι ≃ ι) (s : State ι) : State ι := { s with x := s.x ∘ τ, f := s.f ∘ τ, dx_old := s.dx_old ∘ τ }

theorem norm2_comp (τ : ι ≃ ι) (f : ι → ℝ) : norm2 (f ∘ τ) = norm2 f := by
  unfold norm2
  rw [← Equiv.sum_comp τ fun i => f i ^ 2]
  rfl

theorem dot_comp (τ : ι ≃ ι) (f g : ι → ℝ) : dot (f ∘ τ) (g ∘ τ) = dot f g := by
  unfold dot
  rw [← Equiv.sum_comp τ fun i => f i * g i]
  rfl

theorem maxAbs_comp [Nonempty ι] (τ : ι ≃ ι) (f : ι → ℝ) : maxAbs (f ∘ τ) = maxAbs f := by
  refine le_antisymm ?_ ?_
  · exact sup'_le _ _ fun i _ => le_sup' (fun i => |f i|) (mem_univ (τ i))
  · refine sup'_le _ _ fun i _ => ?_
    have := le_sup' (fun i => |(f ∘ τ) i|) (mem_univ (τ.symm i))
    simp only [Function.comp, Equiv.apply_symm_apply] at this
    exact this

theorem linalgSolve_comp (τ : ι ≃ ι) (B : Matrix ι ι ℝ) (b : ι → ℝ) : linalgSolve (B.submatrix τ τ) (b ∘ τ) = (linalgSolve B b).map (· ∘ τ) := by
  unfold linalgSolve
  rw [Matrix.det_submatrix_equiv_self]
  by_cases h : B.det = 0
  · simp [h, Except.map]
  · rw [if_neg h, if_neg h, Matrix.inv_submatrix_equiv, Matrix.submatrix_mulVec_equiv]
    simp [Except.map, Function.comp_assoc]

theorem direction_rename [Nonempty ι] {τ : ι ≃ ι} {C C' : Callbacks ι} (h : Renamed τ C C') (o : Opts) (x f : ι → ℝ) :
    direction C' o (x ∘ τ) (f ∘ τ) = (direction C o x f).map (· ∘ τ) := by
  unfold direction
  by_cases h1 : o.method = "newton"
  · simp only [if_pos h1, h.jac, h.fn, maxAbs_comp, h.reg]
    rw [show -(f ∘ τ) = (-f) ∘ τ from rfl]
    by_cases hr : o.regularise = true
    · simp only [hr, if_true]; exact linalgSolve_comp τ _ _
    · simp only [hr, if_false]; exact linalgSolve_comp τ _ _
  · simp only [if_neg h1]
    by_cases h2 : o.method = "quasinewton"
    · simp only [if_pos h2, h.diag, h.fn, maxAbs_comp]
      have e : ∀ b : ι → ℝ, (if ∃ i, (b ∘ τ) i = 0 then (.error .nonfinite : Except Err (ι → ℝ)) else .ok fun i => -(f ∘ τ) i / (b ∘ τ) i) =
          (if ∃ i, b i = 0 then (.error .nonfinite : Except Err (ι → ℝ)) else .ok fun i => -f i / b i).map (· ∘ τ) := fun b => by
        have : (∃ i, (b ∘ τ) i = 0) ↔ ∃ i, b i = 0 := ⟨fun ⟨i, hi⟩ => ⟨τ i, hi⟩, fun ⟨i, hi⟩ => ⟨τ.symm i, by simpa using hi⟩⟩
        by_cases hb : ∃ i, b i = 0
        · rw [if_pos hb, if_pos (this.2 hb)]; rfl
        · rw [if_neg hb, if_neg (fun hc => hb (this.1 hc))]; rfl
      by_cases hr : o.regularise = true
      · simp only [hr, if_true]
        exact e fun i => max (C.jacDiag x i) (C.jacDiag x i * 0 + maxAbs (C.fn x) * o.regularise_eps)
      · simp only [hr, if_false]
        exact e (C.jacDiag x)
    · simp only [if_neg h2]
      by_cases h3 : o.method = "fixed-point"
      · simp only [if_pos h3]; rfl
      · simp only [if_neg h3]; rfl

theorem stepLength_rename {τ : ι ≃ ι} {C C' : Callbacks ι} (h : Renamed τ C C') (o : Opts) (s : State ι) (dx : ι → ℝ) :
    stepLength C' o (s.rename τ) (dx ∘ τ) = stepLength C o s dx := by
  unfold stepLength
  simp only [State.rename, h.search, h.searchFixed]

theorem step_rename [Nonempty ι] {τ : ι ≃ ι} {C C' : Callbacks ι} (h : Renamed τ C C') (o : Opts) (s : State ι) : step C' o (s.rename τ) = (step C o s).map (State.rename τ) := by
  have hd := direction_rename h o s.x s.f
  unfold step
  rw [show direction C' o (s.rename τ).x (s.rename τ).f = _ from hd]
  cases direction C o s.x s.f with
  | error er => rfl
  | ok dx =>
    simp only [Except.map]
    rw [stepLength_rename h]
    cases stepLength C o s dx with
    | error er => rfl
    | ok a =>
      have hx : (s.rename τ).x + a • (dx ∘ τ) = (s.x + a • dx) ∘ τ := rfl
      have hx' : (s.x + a • dx) ∘ τ - (s.rename τ).x = (s.x + a • dx - s.x) ∘ τ := rfl
      simp only [hx, h.fn, norm2_comp, hx']
      rfl

theorem loop_rename [Nonempty ι] {τ : ι ≃ ι} {C C' : Callbacks ι} (h : Renamed τ C C') (o : Opts) (k : ℕ) (s : State ι) :
    loop C' o k (s.rename τ) = (loop C o k s).map (State.rename τ) := by
  induction k generalizing s with
  | zero => rfl
  | succ k ih =>
    unfold loop
    by_cases hc : s.norm > o.tol ∧ s.diff > o.eps
    · rw [if_pos hc, if_pos (show (s.rename τ).norm > o.tol ∧ (s.rename τ).diff > o.eps from hc), step_rename h]
      cases step C o s with
      | error er => rfl
      | ok s' => exact ih s'
    · rw [if_neg hc, if_neg (show ¬((s.rename τ).norm > o.tol ∧ (s.rename τ).diff > o.eps) from hc)]
      rfl

/-- the run on the renamed problem is the renamed run -/
theorem solver_rename [Nonempty ι] {τ : ι ≃ ι} {C C' : Callbacks ι} (h : Renamed τ C C') (o : Opts) (x0 : ι → ℝ) :
    solver C' o (x0 ∘ τ) = (solver C o x0).map (State.rename τ) := by
  have : initState C' (x0 ∘ τ) = (initState C x0).rename τ := by
    simp only [initState, h.fn, norm2_comp, State.rename]
    rfl
  unfold solver
  rw [this, loop_rename h]

/-! ### regularisers -/

theorem regulariser_rename (τ : ι ≃ ι) (M : Matrix ι ι ℝ) (ε : ℝ) :
    matrix_regulariser_function (M.submatrix τ τ) ε = (matrix_regulariser_function M ε).submatrix τ τ := by
  ext i j
  simp [matrix_regulariser_function, Matrix.one_apply]

/-- a spectral function of a symmetric matrix does not depend on the eigenvectors chosen -/
theorem conj_poly {E : Matrix ι ι ℝ} (hE : E.transpose * E = 1) (t : ι → ℝ) (q : Polynomial ℝ) :
    Polynomial.aeval (E * Matrix.diagonal t * E.transpose) q = E * Matrix.diagonal (fun i => q.eval (t i)) * E.transpose := by
  have hE' : E * E.transpose = 1 := mul_eq_one_comm.1 hE
  have hpow : ∀ k : ℕ, (E * Matrix.diagonal t * E.transpose) ^ k = E * Matrix.diagonal (fun i => t i ^ k) * E.transpose := fun k => by
    induction k with
    | zero => simp [hE']
    | succ k ih =>
      rw [pow_succ, ih]
      calc E * Matrix.diagonal (fun i => t i ^ k) * E.transpose * (E * Matrix.diagonal t * E.transpose)
          = E * Matrix.diagonal (fun i => t i ^ k) * (E.transpose * E) * Matrix.diagonal t * E.transpose := by simp only [Matrix.mul_assoc]
        _ = _ := by rw [hE, Matrix.mul_one, Matrix.mul_assoc E, Matrix.diagonal_mul_diagonal]; simp only [pow_succ]
  induction q using Polynomial.induction_on' with
  | add a b ha hb =>
    rw [map_add, ha, hb, ← Matrix.add_mul, ← Matrix.mul_add, Matrix.diagonal_add]
    simp only [Polynomial.eval_add]
  | monomial k c =>
    rw [Polynomial.aeval_monomial, hpow, Algebra.algebraMap_eq_smul_one, smul_mul_assoc, Matrix.one_mul]
    simp only [Polynomial.eval_monomial]
    rw [show (fun i => c * t i ^ k) = c • fun i => t i ^ k from rfl, Matrix.diagonal_smul, Matrix.mul_smul, Matrix.smul_mul]

theorem conj_unique {E E' : Matrix ι ι ℝ} (hE : E.transpose * E = 1) (hE' : E'.transpose * E' = 1) {t t' : ι → ℝ} (τ : ι ≃ ι)
    (h : E' * Matrix.diagonal t' * E'.transpose = (E * Matrix.diagonal t * E.transpose).submatrix τ τ) (g : ℝ → ℝ) :
    E' * Matrix.diagonal (fun i => g (t' i)) * E'.transpose = (E * Matrix.diagonal (fun i => g (t i)) * E.transpose).submatrix τ τ := by
  set V : Finset ℝ := univ.image t ∪ univ.image t'
  set q : Polynomial ℝ := Lagrange.interpolate V id g
  have hq : ∀ v ∈ V, q.eval v = g v := fun v hv => by
    have := Lagrange.eval_interpolate_at_node (r := g) (s := V) (v := id) (Set.injOn_id _) hv
    exact this
  have h1 : (fun i => g (t' i)) = fun i => q.eval (t' i) := funext fun i => (hq _ (by simp [V])).symm
  have h2 : (fun i => g (t i)) = fun i => q.eval (t i) := funext fun i => (hq _ (by simp [V])).symm
  rw [h1, h2, ← conj_poly hE' t' q, ← conj_poly hE t q, h]
  have := Polynomial.aeval_algHom_apply (Matrix.reindexAlgEquiv ℝ ℝ τ.symm).toAlgHom (E * Matrix.diagonal t * E.transpose) q
  simpa using this

/-! ### line searches -/

theorem backtrack_congr {c c' : ℝ → Prop} (h : ∀ a, c a ↔ c' a) (b : ℝ) (k : ℕ) (a : ℝ) : backtrack c b k a = backtrack c' b k a := by
  have : c = c' := funext fun a => propext (h a)
  rw [this]

theorem normStage_comp (τ : ι ≃ ι) (dx dx_old : ι → ℝ) (a b : ℝ) (k : ℕ) : normStage (dx ∘ τ) (dx_old ∘ τ) a b k = normStage dx dx_old a b k := by
  unfold normStage
  have : ∀ a : ℝ, norm2 (a • (dx ∘ τ)) = norm2 (a • dx) := fun a => norm2_comp τ (a • dx)
  simp only [norm2_comp, this]

theorem decreaseStage_comp (τ : ι ≃ ι) {F F' : (ι → ℝ) → Option ℝ} (hF : ∀ x, F' (x ∘ τ) = F x) (x dx : ι → ℝ) (b a : ℝ) (f : ι → ℝ) :
    decreaseStage F' (x ∘ τ) (dx ∘ τ) b a (f ∘ τ) = decreaseStage F x dx b a f := by
  unfold decreaseStage
  have h1 : ∀ x, negF F' (x ∘ τ) = negF F x := fun x => by unfold negF; rw [hF]
  have h2 : ∀ a : ℝ, negF F' (x ∘ τ + a • (dx ∘ τ)) = negF F (x + a • dx) := fun a => h1 (x + a • dx)
  simp only [h1, h2, sufficient_decrease_condition, dot_comp]

theorem untilLoop_congr {c c' : ℝ → Prop} (h : ∀ a, c a ↔ c' a) (b a : ℝ) : untilLoop c b a = untilLoop c' b a := by
  have : c = c' := funext fun a => propext (h a)
  rw [this]

theorem positivityStage_comp {τ : ι ≃ ι} {order : List ι} (h : (order.map τ).Perm order) (x dx : ι → ℝ) (a : ℝ) :
    positivityStage order (x ∘ τ) (dx ∘ τ) a = positivityStage order x dx a := by
  have e1 : positivityStage order (x ∘ τ) (dx ∘ τ) a = positivityStage (order.map τ) x dx a := by
    unfold positivityStage forL
    rw [List.foldl_map]
    rfl
  rw [e1]
  unfold positivityStage forL
  refine @List.Perm.foldl_eq _ _ _ _ _ ⟨fun a i j => ?_⟩ h a
  dsimp only
  split_ifs <;> first | rfl | exact min_right_comm _ _ _

theorem positivityStage'_comp {τ : ι ≃ ι} {order : List ι} (h : (order.map τ).Perm order) (x dx : ι → ℝ) (a : ℝ) :
    positivityStage' order (x ∘ τ) (dx ∘ τ) a = positivityStage' order x dx a := by
  have e1 : positivityStage' order (x ∘ τ) (dx ∘ τ) a = positivityStage' (order.map τ) x dx a := by
    unfold positivityStage' forL
    rw [List.filter_map, List.foldl_map]
    rfl
  rw [e1]
  unfold positivityStage' forL
  refine @List.Perm.foldl_eq _ _ _ _ _ ⟨fun a i j => ?_⟩ (h.filter _) a
  dsimp only
  split_ifs <;> first | rfl | exact min_right_comm _ _ _

variable {n : ℕ}

theorem topTwoProd_comp (σ : Equiv.Perm (Fin n)) (v : Fin n → ℝ) : topTwoProd (v ∘ σ) = topTwoProd v := by
  unfold topTwoProd
  have := Tuple.comp_perm_comp_sort_eq_comp_sort (f := v) (σ := σ)
  exact prod_congr rfl fun k _ => congrFun this k

theorem lowTwoSum_comp (σ : Equiv.Perm (Fin n)) (v : Fin n → ℝ) : lowTwoSum (v ∘ σ) = lowTwoSum v := by
  unfold lowTwoSum
  have := Tuple.comp_perm_comp_sort_eq_comp_sort (f := v) (σ := σ)
  exact sum_congr rfl fun k _ => congrFun this k

theorem maxv_comp [NeZero n] (σ : Equiv.Perm (Fin n)) (v : Fin n → ℝ) : maxv (v ∘ σ) = maxv v := by
  refine le_antisymm ?_ ?_
  · exact sup'_le _ _ fun i _ => le_sup' v (mem_univ (σ i))
  · refine sup'_le _ _ fun i _ => ?_
    have := le_sup' (v ∘ σ) (mem_univ (σ.symm i))
    simp only [Function.comp, Equiv.apply_symm_apply] at this
    exact this

theorem minv_comp [NeZero n] (σ : Equiv.Perm (Fin n)) (v : Fin n → ℝ) : minv (v ∘ σ) = minv v := by
  refine le_antisymm ?_ ?_
  · refine le_inf' _ _ fun i _ => ?_
    have := inf'_le (v ∘ σ) (mem_univ (σ.symm i))
    simp only [Function.comp, Equiv.apply_symm_apply] at this
    exact this
  · exact le_inf' _ _ fun i _ => inf'_le v (mem_univ (σ i))

/-- the nodes are renamed in every block -/
def onBlocks (m : ℕ) (σ : Equiv.Perm (Fin n)) : Equiv.Perm (Fin m × Fin n) := Equiv.prodCongr (Equiv.refl _) σ

@[simp] theorem onBlocks_apply (m : ℕ) (σ : Equiv.Perm (Fin n)) (b : Fin m) (i : Fin n) : onBlocks m σ (b, i) = (b, σ i) := rfl

theorem blk_comp {m : ℕ} (σ : Equiv.Perm (Fin n)) (b : Fin m) (x : Fin m × Fin n → ℝ) : blk b (x ∘ onBlocks m σ) = blk b x ∘ σ := rfl

theorem linsearch_ECM_comp (σ : Equiv.Perm (Fin n)) {order : List (Fin 2 × Fin n)} (h : (order.map (onBlocks 2 σ)).Perm order) {F F' : (Fin 2 × Fin n → ℝ) → Option ℝ}
    (hF : ∀ x, F' (x ∘ onBlocks 2 σ) = F x) (x dx : Fin 2 × Fin n → ℝ) (b a : ℝ) (f : Fin 2 × Fin n → ℝ) :
    linsearch_fun_ECM order (x ∘ onBlocks 2 σ) (dx ∘ onBlocks 2 σ) b a (f ∘ onBlocks 2 σ) F' = linsearch_fun_ECM order x dx b a f F := by
  unfold linsearch_fun_ECM
  simp only [decreaseStage_comp _ hF, positivityStage_comp h]
  rw [untilLoop_congr fun a => ?_]
  rw [show blk 1 (x ∘ onBlocks 2 σ + a • (dx ∘ onBlocks 2 σ)) = blk 1 (x + a • dx) ∘ σ from rfl, topTwoProd_comp]

theorem linsearch_ECM_fixed_comp (σ : Equiv.Perm (Fin n)) {order : List (Fin 2 × Fin n)} (h : (order.map (onBlocks 2 σ)).Perm order) (x dx dx_old : Fin 2 × Fin n → ℝ) (a b : ℝ)
    (k : ℕ) : linsearch_fun_ECM_fixed order (x ∘ onBlocks 2 σ) (dx ∘ onBlocks 2 σ) (dx_old ∘ onBlocks 2 σ) a b k = linsearch_fun_ECM_fixed order x dx dx_old a b k := by
  unfold linsearch_fun_ECM_fixed
  simp only [normStage_comp, positivityStage_comp h]
  rw [untilLoop_congr fun a => ?_]
  rw [show blk 1 (x ∘ onBlocks 2 σ + a • (dx ∘ onBlocks 2 σ)) = blk 1 (x + a • dx) ∘ σ from rfl, topTwoProd_comp]

theorem linsearch_ECM_exp_comp (σ : Equiv.Perm (Fin n)) {F F' : (Fin 2 × Fin n → ℝ) → Option ℝ}
    (hF : ∀ x, F' (x ∘ onBlocks 2 σ) = F x) (x dx : Fin 2 × Fin n → ℝ) (b a : ℝ) (f : Fin 2 × Fin n → ℝ) :
    linsearch_fun_ECM_exp (x ∘ onBlocks 2 σ) (dx ∘ onBlocks 2 σ) b a (f ∘ onBlocks 2 σ) F' = linsearch_fun_ECM_exp x dx b a f F := by
  unfold linsearch_fun_ECM_exp
  simp only [decreaseStage_comp _ hF]
  rw [untilLoop_congr fun a => ?_]
  rw [show blk 1 (x ∘ onBlocks 2 σ + a • (dx ∘ onBlocks 2 σ)) = blk 1 (x + a • dx) ∘ σ from rfl, lowTwoSum_comp]

theorem linsearch_ECM_exp_fixed_comp (σ : Equiv.Perm (Fin n)) (x dx dx_old : Fin 2 × Fin n → ℝ) (a b : ℝ)
    (k : ℕ) : linsearch_fun_ECM_exp_fixed (x ∘ onBlocks 2 σ) (dx ∘ onBlocks 2 σ) (dx_old ∘ onBlocks 2 σ) a b k = linsearch_fun_ECM_exp_fixed x dx dx_old a b k := by
  unfold linsearch_fun_ECM_exp_fixed
  simp only [normStage_comp]
  rw [untilLoop_congr fun a => ?_]
  rw [show blk 1 (x ∘ onBlocks 2 σ + a • (dx ∘ onBlocks 2 σ)) = blk 1 (x + a • dx) ∘ σ from rfl, lowTwoSum_comp]

variable [NeZero n]

theorem linsearch_DECM_comp (σ : Equiv.Perm (Fin n)) {order : List (Fin 4 × Fin n)} (h : (order.map (onBlocks 4 σ)).Perm order) {F F' : (Fin 4 × Fin n → ℝ) → Option ℝ}
    (hF : ∀ x, F' (x ∘ onBlocks 4 σ) = F x) (x dx : Fin 4 × Fin n → ℝ) (b a : ℝ) (f : Fin 4 × Fin n → ℝ) :
    linsearch_fun_DECM order (x ∘ onBlocks 4 σ) (dx ∘ onBlocks 4 σ) b a (f ∘ onBlocks 4 σ) F' = linsearch_fun_DECM order x dx b a f F := by
  unfold linsearch_fun_DECM
  simp only [decreaseStage_comp _ hF, positivityStage'_comp h]
  rw [untilLoop_congr fun a => ?_]
  rw [show blk 2 (x ∘ onBlocks 4 σ + a • (dx ∘ onBlocks 4 σ)) = blk 2 (x + a • dx) ∘ σ from rfl,
    show blk 3 (x ∘ onBlocks 4 σ + a • (dx ∘ onBlocks 4 σ)) = blk 3 (x + a • dx) ∘ σ from rfl, maxv_comp, maxv_comp]

theorem linsearch_DECM_fixed_comp (σ : Equiv.Perm (Fin n)) {order : List (Fin 4 × Fin n)} (h : (order.map (onBlocks 4 σ)).Perm order) (x dx dx_old : Fin 4 × Fin n → ℝ) (a b : ℝ)
    (k : ℕ) : linsearch_fun_DECM_fixed order (x ∘ onBlocks 4 σ) (dx ∘ onBlocks 4 σ) (dx_old ∘ onBlocks 4 σ) a b k = linsearch_fun_DECM_fixed order x dx dx_old a b k := by
  unfold linsearch_fun_DECM_fixed
  simp only [normStage_comp, positivityStage'_comp h]
  rw [untilLoop_congr fun a => ?_]
  rw [show blk 2 (x ∘ onBlocks 4 σ + a • (dx ∘ onBlocks 4 σ)) = blk 2 (x + a • dx) ∘ σ from rfl,
    show blk 3 (x ∘ onBlocks 4 σ + a • (dx ∘ onBlocks 4 σ)) = blk 3 (x + a • dx) ∘ σ from rfl, maxv_comp, maxv_comp]

theorem linsearch_DECM_exp_comp (σ : Equiv.Perm (Fin n)) {F F' : (Fin 4 × Fin n → ℝ) → Option ℝ}
    (hF : ∀ x, F' (x ∘ onBlocks 4 σ) = F x) (x dx : Fin 4 × Fin n → ℝ) (b a : ℝ) (f : Fin 4 × Fin n → ℝ) :
    linsearch_fun_DECM_exp (x ∘ onBlocks 4 σ) (dx ∘ onBlocks 4 σ) b a (f ∘ onBlocks 4 σ) F' = linsearch_fun_DECM_exp x dx b a f F := by
  unfold linsearch_fun_DECM_exp
  simp only [decreaseStage_comp _ hF, blk_comp, minv_comp]
  rw [untilLoop_congr fun a => ?_]
  rw [show blk 2 (x ∘ onBlocks 4 σ + a • (dx ∘ onBlocks 4 σ)) = blk 2 (x + a • dx) ∘ σ from rfl,
    show blk 3 (x ∘ onBlocks 4 σ + a • (dx ∘ onBlocks 4 σ)) = blk 3 (x + a • dx) ∘ σ from rfl, minv_comp, minv_comp]

theorem linsearch_DECM_exp_fixed_comp (σ : Equiv.Perm (Fin n)) (x dx dx_old : Fin 4 × Fin n → ℝ) (a b : ℝ)
    (k : ℕ) : linsearch_fun_DECM_exp_fixed (x ∘ onBlocks 4 σ) (dx ∘ onBlocks 4 σ) (dx_old ∘ onBlocks 4 σ) a b k = linsearch_fun_DECM_exp_fixed x dx dx_old a b k := by
  unfold linsearch_fun_DECM_exp_fixed
  simp only [normStage_comp, blk_comp, minv_comp]
  rw [untilLoop_congr fun a => ?_]
  rw [show blk 2 (x ∘ onBlocks 4 σ + a • (dx ∘ onBlocks 4 σ)) = blk 2 (x + a • dx) ∘ σ from rfl,
    show blk 3 (x ∘ onBlocks 4 σ + a • (dx ∘ onBlocks 4 σ)) = blk 3 (x + a • dx) ∘ σ from rfl, minv_comp, minv_comp]

end

end Verif.Solver
