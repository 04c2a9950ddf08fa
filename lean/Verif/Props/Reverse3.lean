import Verif.Props.Reverse2

/-! C73 for dcm and dcm_exp.  The degree classes of the reversed digraph are those of the digraph with the two degrees exchanged, in another order. -/

namespace Verif.Solve
open Verif Verif.Solver Verif.Reduction Verif.Spec Finset

noncomputable section
open Classical in
attribute [local instance 0] propDecidable

/-! ### the callbacks -/

section callbacks
open DCM
variable {r : ℕ} (φ : Equiv.Perm (Fin r))

/-- exchange of the blocks and renaming of the classes -/
def revBlocks : Equiv.Perm (Fin 2 × Fin r) := (flip2 r).trans (onBlocks 2 φ)

@[simp] theorem revBlocks_0 (q : Fin r) : revBlocks φ (0, q) = (1, φ q) := rfl
@[simp] theorem revBlocks_1 (q : Fin r) : revBlocks φ (1, q) = (0, φ q) := rfl

theorem sum_nz (k f g : Fin r → ℝ) (h : ∀ q, g q = f (φ q)) : ∑ j ∈ (nonzero (k ∘ φ)).toFinset, g j = ∑ j ∈ (nonzero k).toFinset, f j := by
  refine sum_equiv φ (fun q => ?_) fun q _ => h q
  simp [mem_nonzero]

theorem w_comp (c : Fin r → ℝ) (i j : Fin r) : w (c ∘ φ) i j = w c (φ i) (φ j) := by
  unfold w; simp only [Function.comp, EmbeddingLike.apply_eq_iff_eq]

variable (x : Fin 2 × Fin r → ℝ) (ko ki c : Fin r → ℝ)

theorem dcm_prime_rev : loglikelihood_prime_dcm (x ∘ revBlocks φ) (ki ∘ φ) (ko ∘ φ) (nonzero (ki ∘ φ)) (nonzero (ko ∘ φ)) (c ∘ φ) =
    loglikelihood_prime_dcm x ko ki (nonzero ko) (nonzero ki) c ∘ revBlocks φ := by
  funext v; revert v; rw [EM.forall_pair]
  constructor
  · intro m
    simp only [Function.comp_apply, revBlocks_0, prime_eq0 _ _ _ _ _ _ (nodup_nonzero _), prime_eq1 _ _ _ _ _ _ (nodup_nonzero _), mem_nonzero]
    rw [sum_nz φ ko (fun i => w c i (φ m) * x (0, i) / (1 + x (1, φ m) * x (0, i)))]
    intro q
    rw [w_comp, w_symm]; rfl
  · intro m
    simp only [Function.comp_apply, revBlocks_1, prime_eq0 _ _ _ _ _ _ (nodup_nonzero _), prime_eq1 _ _ _ _ _ _ (nodup_nonzero _), mem_nonzero]
    rw [sum_nz φ ki (fun j => w c (φ m) j * x (1, j) / (1 + x (0, φ m) * x (1, j)))]
    intro q
    rw [w_comp, w_symm]; rfl

theorem dcm_prime_exp_rev : loglikelihood_prime_dcm_exp (x ∘ revBlocks φ) (ki ∘ φ) (ko ∘ φ) (nonzero (ki ∘ φ)) (nonzero (ko ∘ φ)) (c ∘ φ) =
    loglikelihood_prime_dcm_exp x ko ki (nonzero ko) (nonzero ki) c ∘ revBlocks φ := by
  funext v; revert v; rw [EM.forall_pair]
  constructor
  · intro m
    simp only [Function.comp_apply, revBlocks_0, prime_exp_eq0 _ _ _ _ _ _ (nodup_nonzero _), prime_exp_eq1 _ _ _ _ _ _ (nodup_nonzero _), mem_nonzero]
    rw [sum_nz φ ko (fun i => w c i (φ m) * Real.exp (-x (0, i)) / (1 + Real.exp (-x (1, φ m)) * Real.exp (-x (0, i)))), mul_comm (Real.exp _)]
    intro q
    rw [w_comp, w_symm]; rfl
  · intro m
    simp only [Function.comp_apply, revBlocks_1, prime_exp_eq0 _ _ _ _ _ _ (nodup_nonzero _), prime_exp_eq1 _ _ _ _ _ _ (nodup_nonzero _), mem_nonzero]
    rw [sum_nz φ ki (fun j => w c (φ m) j * Real.exp (-x (1, j)) / (1 + Real.exp (-x (0, φ m)) * Real.exp (-x (1, j)))), mul_comm (Real.exp (-x (0, φ m))) (∑ j ∈ _, _)]
    intro q
    rw [w_comp, w_symm]; rfl

theorem dcm_den_rev : iterative_den (x ∘ revBlocks φ) (c ∘ φ) = iterative_den x c ∘ revBlocks φ := by
  funext v; revert v; rw [EM.forall_pair]
  constructor
  · intro m
    simp only [Function.comp_apply, revBlocks_0, revBlocks_1, den_eq0, den_eq1]
    refine Fintype.sum_equiv φ _ _ fun j => ?_
    simp only [EmbeddingLike.apply_eq_iff_eq, mul_comm (x (1, φ m))]
  · intro m
    simp only [Function.comp_apply, revBlocks_0, revBlocks_1, den_eq0, den_eq1]
    refine Fintype.sum_equiv φ _ _ fun j => ?_
    simp only [EmbeddingLike.apply_eq_iff_eq, mul_comm (x (0, φ m))]

theorem concat_rev : concat (ki ∘ φ) (ko ∘ φ) = concat ko ki ∘ revBlocks φ := by
  funext v; revert v; rw [EM.forall_pair]; exact ⟨fun i => rfl, fun i => rfl⟩

theorem dcm_iter_rev : iterative_dcm (x ∘ revBlocks φ) (ki ∘ φ) (ko ∘ φ) (nonzero (ki ∘ φ)) (nonzero (ko ∘ φ)) (c ∘ φ) =
    iterative_dcm x ko ki (nonzero ko) (nonzero ki) c ∘ revBlocks φ := by
  unfold iterative_dcm
  rw [concat_rev, dcm_den_rev]
  rfl

theorem dcm_iter_exp_rev : iterative_dcm_exp (x ∘ revBlocks φ) (ki ∘ φ) (ko ∘ φ) (nonzero (ki ∘ φ)) (nonzero (ko ∘ φ)) (c ∘ φ) =
    iterative_dcm_exp x ko ki (nonzero ko) (nonzero ki) c ∘ revBlocks φ := by
  unfold iterative_dcm_exp
  have := dcm_den_rev φ (fun v => Real.exp (-x v)) c
  funext v
  show -Real.log (concat (ki ∘ φ) (ko ∘ φ) v / iterative_den ((fun v => Real.exp (-x v)) ∘ revBlocks φ) (c ∘ φ) v) = _
  rw [concat_rev, this]
  rfl

theorem dcm_diag_rev : loglikelihood_hessian_diag_dcm (x ∘ revBlocks φ) (ki ∘ φ) (ko ∘ φ) (nonzero (ki ∘ φ)) (nonzero (ko ∘ φ)) (c ∘ φ) =
    loglikelihood_hessian_diag_dcm x ko ki (nonzero ko) (nonzero ki) c ∘ revBlocks φ := by
  funext v; revert v; rw [EM.forall_pair]
  constructor
  · intro m
    simp only [Function.comp_apply, revBlocks_0, hess_diag_eq0 _ _ _ _ _ _ (nodup_nonzero _), hess_diag_eq1 _ _ _ _ _ _ (nodup_nonzero _), mem_nonzero]
    rw [sum_nz φ ko (fun i => (if i ≠ φ m then c i else c (φ m) - 1) * x (0, i) * x (0, i) / ((1 + x (1, φ m) * x (0, i)) * (1 + x (1, φ m) * x (0, i))))]
    intro q
    simp only [ne_eq, EmbeddingLike.apply_eq_iff_eq, eq_comm (a := m), revBlocks_1]
  · intro m
    simp only [Function.comp_apply, revBlocks_1, hess_diag_eq0 _ _ _ _ _ _ (nodup_nonzero _), hess_diag_eq1 _ _ _ _ _ _ (nodup_nonzero _), mem_nonzero]
    rw [sum_nz φ ki (fun j => (if φ m ≠ j then c j else c (φ m) - 1) * x (1, j) * x (1, j) / ((1 + x (0, φ m) * x (1, j)) * (1 + x (0, φ m) * x (1, j))))]
    intro q
    simp only [ne_eq, EmbeddingLike.apply_eq_iff_eq, eq_comm (a := m), revBlocks_0]

theorem dcm_diag_exp_rev : loglikelihood_hessian_diag_dcm_exp (x ∘ revBlocks φ) (ki ∘ φ) (ko ∘ φ) (nonzero (ki ∘ φ)) (nonzero (ko ∘ φ)) (c ∘ φ) =
    loglikelihood_hessian_diag_dcm_exp x ko ki (nonzero ko) (nonzero ki) c ∘ revBlocks φ := by
  funext v; revert v; rw [EM.forall_pair]
  constructor
  · intro m
    simp only [Function.comp_apply, revBlocks_0, hess_diag_exp_eq0 _ _ _ _ _ _ (nodup_nonzero _), hess_diag_exp_eq1 _ _ _ _ _ _ (nodup_nonzero _), mem_nonzero]
    rw [sum_nz φ ko (fun i => w c i (φ m) * (Real.exp (-x (0, i)) * Real.exp (-x (1, φ m))) / (1 + Real.exp (-x (0, i)) * Real.exp (-x (1, φ m))) ^ 2)]
    intro q
    rw [w_comp, w_symm]; rfl
  · intro m
    simp only [Function.comp_apply, revBlocks_1, hess_diag_exp_eq0 _ _ _ _ _ _ (nodup_nonzero _), hess_diag_exp_eq1 _ _ _ _ _ _ (nodup_nonzero _), mem_nonzero]
    rw [sum_nz φ ki (fun j => w c (φ m) j * (Real.exp (-x (1, j)) * Real.exp (-x (0, φ m))) / (1 + Real.exp (-x (1, j)) * Real.exp (-x (0, φ m))) ^ 2)]
    intro q
    rw [w_comp, w_symm]; rfl

theorem dcm_hess_rev (u v : Fin 2 × Fin r) : loglikelihood_hessian_dcm (x ∘ revBlocks φ) (ki ∘ φ) (ko ∘ φ) (nonzero (ki ∘ φ)) (nonzero (ko ∘ φ)) (c ∘ φ) u v =
    loglikelihood_hessian_dcm x ko ki (nonzero ko) (nonzero ki) c (revBlocks φ u) (revBlocks φ v) := by
  revert u v
  simp only [EM.forall_pair, revBlocks_0, revBlocks_1]
  refine ⟨fun a => ⟨fun b => ?_, fun b => ?_⟩, fun a => ⟨fun b => ?_, fun b => ?_⟩⟩
  · simp only [hess_eq00 _ _ _ _ _ _ (nodup_nonzero _), hess_eq11 _ _ _ _ _ _ (nodup_nonzero _), mem_nonzero, Function.comp_apply, revBlocks_0, EmbeddingLike.apply_eq_iff_eq]
    rw [sum_nz φ ko (fun j => w c j (φ a) * (x (0, j) ^ 2) / (1 + x (1, φ a) * x (0, j)) ^ 2), sq (x (1, φ a))]
    intro q
    rw [w_comp, w_symm, div_pow, mul_div_assoc]; rfl
  · simp only [hess_eq01, hess_eq10, mem_nonzero, Function.comp_apply, w_comp, revBlocks_0, revBlocks_1]
    rw [w_symm c (φ a), mul_comm (x (0, φ b))]
  · simp only [hess_eq01, hess_eq10, mem_nonzero, Function.comp_apply, w_comp, revBlocks_0, revBlocks_1]
    rw [w_symm c (φ a), mul_comm (x (0, φ a))]
  · simp only [hess_eq00 _ _ _ _ _ _ (nodup_nonzero _), hess_eq11 _ _ _ _ _ _ (nodup_nonzero _), mem_nonzero, Function.comp_apply, revBlocks_1, EmbeddingLike.apply_eq_iff_eq]
    rw [sum_nz φ ki (fun j => w c (φ a) j * (x (1, j) / (1 + x (0, φ a) * x (1, j))) ^ 2), sq (x (0, φ a))]
    intro q
    rw [w_comp, w_symm, div_pow, mul_div_assoc]; rfl

theorem dcm_hess_exp_rev (u v : Fin 2 × Fin r) : loglikelihood_hessian_dcm_exp (x ∘ revBlocks φ) (ki ∘ φ) (ko ∘ φ) (nonzero (ki ∘ φ)) (nonzero (ko ∘ φ)) (c ∘ φ) u v =
    loglikelihood_hessian_dcm_exp x ko ki (nonzero ko) (nonzero ki) c (revBlocks φ u) (revBlocks φ v) := by
  revert u v
  have h := hess_exp_eq (x ∘ revBlocks φ) (ki ∘ φ) (ko ∘ φ) _ _ (c ∘ φ) (nodup_nonzero (ki ∘ φ)) (nodup_nonzero (ko ∘ φ))
  have h' := hess_exp_eq x ko ki _ _ c (nodup_nonzero ko) (nodup_nonzero ki)
  simp only [EM.forall_pair, revBlocks_0, revBlocks_1]
  refine ⟨fun a => ⟨fun b => ?_, fun b => ?_⟩, fun a => ⟨fun b => ?_, fun b => ?_⟩⟩
  · rw [(h a b).1, (h' (φ a) (φ b)).2.2.1]
    simp only [mem_nonzero, Function.comp_apply, revBlocks_0, EmbeddingLike.apply_eq_iff_eq]
    rw [sum_nz φ ko (fun i => w c i (φ a) * (Real.exp (-x (0, i)) * Real.exp (-x (1, φ a))) / (1 + Real.exp (-x (0, i)) * Real.exp (-x (1, φ a))) ^ 2)]
    intro q
    rw [w_comp, w_symm]; rfl
  · rw [(h a b).2.1, (h' (φ a) (φ b)).2.2.2]
    simp only [mem_nonzero, Function.comp_apply, w_comp, revBlocks_0, revBlocks_1]
    rw [w_symm c (φ a)]
  · rw [(h a b).2.2.2, (h' (φ a) (φ b)).2.1]
    simp only [mem_nonzero, Function.comp_apply, w_comp, revBlocks_0, revBlocks_1]
    rw [w_symm c (φ a)]
  · rw [(h a b).2.2.1, (h' (φ a) (φ b)).1]
    simp only [mem_nonzero, Function.comp_apply, revBlocks_1, EmbeddingLike.apply_eq_iff_eq]
    rw [sum_nz φ ki (fun j => w c (φ a) j * (Real.exp (-x (1, j)) * Real.exp (-x (0, φ a))) / (1 + Real.exp (-x (1, j)) * Real.exp (-x (0, φ a))) ^ 2)]
    intro q
    rw [w_comp, w_symm]; rfl

theorem dcm_ll_rev : loglikelihood_dcm (x ∘ revBlocks φ) (ki ∘ φ) (ko ∘ φ) (nonzero (ki ∘ φ)) (nonzero (ko ∘ φ)) (c ∘ φ) =
    loglikelihood_dcm x ko ki (nonzero ko) (nonzero ki) c := by
  rw [ll_eq _ _ _ _ _ _ (nodup_nonzero _) (nodup_nonzero _), ll_eq _ _ _ _ _ _ (nodup_nonzero _) (nodup_nonzero _)]
  simp only [sum_add_distrib]
  have e1 : ∑ q ∈ (nonzero (ki ∘ φ)).toFinset, (c ∘ φ) q * (ki ∘ φ) q * Real.log ((x ∘ revBlocks φ) (0, q)) = _ := sum_nz φ ki (fun j => c j * ki j * Real.log (x (1, j))) _ (fun q => rfl)
  have e2 : ∑ q ∈ (nonzero (ko ∘ φ)).toFinset, (c ∘ φ) q * (ko ∘ φ) q * Real.log ((x ∘ revBlocks φ) (1, q)) = _ := sum_nz φ ko (fun j => c j * ko j * Real.log (x (0, j))) _ (fun q => rfl)
  rw [e1, e2, sum_nz φ ki (fun j => ∑ i ∈ (nonzero ko).toFinset, -(w c i j * Real.log (1 + x (0, i) * x (1, j)))), sum_comm]
  · ring
  · intro q
    refine sum_nz φ ko (fun i => -(w c i (φ q) * Real.log (1 + x (0, i) * x (1, φ q)))) _ fun i => ?_
    rw [w_comp, w_symm, Function.comp, Function.comp, revBlocks_0, revBlocks_1, mul_comm (x (1, φ q))]

theorem dcm_ll_exp_rev : loglikelihood_dcm_exp (x ∘ revBlocks φ) (ki ∘ φ) (ko ∘ φ) (nonzero (ki ∘ φ)) (nonzero (ko ∘ φ)) (c ∘ φ) =
    loglikelihood_dcm_exp x ko ki (nonzero ko) (nonzero ki) c := by
  rw [ll_exp_eq _ _ _ _ _ _ (nodup_nonzero _) (nodup_nonzero _), ll_exp_eq _ _ _ _ _ _ (nodup_nonzero _) (nodup_nonzero _)]
  simp only [sum_add_distrib]
  have e1 : ∑ q ∈ (nonzero (ki ∘ φ)).toFinset, -((c ∘ φ) q * (ki ∘ φ) q * (x ∘ revBlocks φ) (0, q)) = _ := sum_nz φ ki (fun j => -(c j * ki j * x (1, j))) _ (fun q => rfl)
  have e2 : ∑ q ∈ (nonzero (ko ∘ φ)).toFinset, -((c ∘ φ) q * (ko ∘ φ) q * (x ∘ revBlocks φ) (1, q)) = _ := sum_nz φ ko (fun j => -(c j * ko j * x (0, j))) _ (fun q => rfl)
  rw [e1, e2, sum_nz φ ki (fun j => ∑ i ∈ (nonzero ko).toFinset, -(w c i j * Real.log (1 + Real.exp (-x (0, i) - x (1, j))))), sum_comm]
  · ring
  · intro q
    refine sum_nz φ ko (fun i => -(w c i (φ q) * Real.log (1 + Real.exp (-x (0, i) - x (1, φ q))))) _ fun i => ?_
    rw [w_comp, w_symm, Function.comp, Function.comp, revBlocks_0, revBlocks_1, show -x (1, φ q) - x (0, φ i) = -x (0, φ i) - x (1, φ q) by ring]

theorem reversed_dcm {e : Env} [Nonempty (Fin r)] (he : e.Valid) (hout : ∀ (ι : Type) (τ : Equiv.Perm ι) x, e.outside ι (x ∘ τ) = e.outside ι x) (isExp : Bool) (m : Method) :
    Renamed (revBlocks φ) (tableD e isExp m ko ki c) (tableD e isExp m (ki ∘ φ) (ko ∘ φ) (c ∘ φ)) := by
  cases isExp
  · refine ⟨fun x => ?_, fun x => ?_, fun x => ?_, fun x ε => ?_, fun x dx b a f => ?_, fun x dx dx_old a b k => ?_⟩
    · cases m with
      | newton => funext v; show -_ = -_; rw [dcm_prime_rev]; rfl
      | quasinewton => funext v; show -_ = -_; rw [dcm_prime_rev]; rfl
      | fixed_point => exact dcm_iter_rev φ x ko ki c
    · funext u v
      show -_ = -_
      rw [dcm_hess_rev]
    · funext v
      show -_ = -_
      rw [dcm_diag_rev]; rfl
    · exact eigenRegulariser_rename e he _ _ _
    · refine congrArg some ?_
      unfold linsearch_fun_DCM
      rw [positivityStage'_comp (blocks_perm' 2 (revBlocks φ))]
      refine decreaseStage_comp (revBlocks φ) (llF_rename e hout _ (fun x => ?_) fun x => dcm_ll_rev φ x ko ki c) x dx b _ f
      simp only [Function.comp, revBlocks_0, revBlocks_1]
      rw [and_comm]
      exact and_congr (φ.forall_congr_right (q := fun q => ko q ≠ 0 → 0 < x (0, q))) (φ.forall_congr_right (q := fun q => ki q ≠ 0 → 0 < x (1, q)))
    · refine congrArg some ?_
      unfold linsearch_fun_DCM_fixed
      rw [positivityStage'_comp (blocks_perm' 2 (revBlocks φ)), normStage_comp]
  · refine ⟨fun x => ?_, fun x => ?_, fun x => ?_, fun x ε => ?_, fun x dx b a f => ?_, fun x dx dx_old a b k => ?_⟩
    · cases m with
      | newton => funext v; show -_ = -_; rw [dcm_prime_exp_rev]; rfl
      | quasinewton => funext v; show -_ = -_; rw [dcm_prime_exp_rev]; rfl
      | fixed_point => exact dcm_iter_exp_rev φ x ko ki c
    · funext u v
      show -_ = -_
      rw [dcm_hess_exp_rev]
    · funext v
      show -_ = -_
      rw [dcm_diag_exp_rev]; rfl
    · exact regulariser_rename _ _ _
    · exact congrArg some (decreaseStage_comp (revBlocks φ) (llF_rename e hout _ (fun x => Iff.rfl) fun x => dcm_ll_exp_rev φ x ko ki c) x dx b _ f)
    · exact congrArg some (normStage_comp (revBlocks φ) dx dx_old a b k)

end callbacks

/-! ### the classes -/

section run
variable {n : ℕ} [NeZero n]

/-- reversed problems have reversed runs -/
theorem run_revD {e : Env} (he : e.Valid) (hout : ∀ (ι : Type) (τ : Equiv.Perm ι) x, e.outside ι (x ∘ τ) = e.outside ι x) (isExp : Bool) (m : Method) (o : Opts)
    (X X' : Fin 2 → ℕ → ℝ → ℝ → ℝ) (hX : ∀ q q' a b, X' 0 q a b = X 1 q' b a ∧ X' 1 q a b = X 0 q' b a)
    {r r' : ℕ} [i1 : Nonempty (Fin r)] [i2 : Nonempty (Fin r')] {ko ki c : Fin r → ℝ} {ko' ki' c' : Fin r' → ℝ} (φ : Fin r' ≃ Fin r)
    (h : ∀ q, ko' q = ki (φ q) ∧ ki' q = ko (φ q) ∧ c' q = c (φ q)) :
    (∃ er, solver (tableD e isExp m ko ki c) o (fun w => X w.1 w.2 (ko w.2) (ki w.2)) = .error er ∧
      solver (tableD e isExp m ko' ki' c') o (fun w => X' w.1 w.2 (ko' w.2) (ki' w.2)) = .error er) ∨
    ∃ s s', solver (tableD e isExp m ko ki c) o (fun w => X w.1 w.2 (ko w.2) (ki w.2)) = .ok s ∧
      solver (tableD e isExp m ko' ki' c') o (fun w => X' w.1 w.2 (ko' w.2) (ki' w.2)) = .ok s' ∧
      Trace.of s' = Trace.of s ∧ (∀ q, s'.x (0, q) = s.x (1, φ q) ∧ s'.x (1, q) = s.x (0, φ q)) ∧ llD isExp s'.x ko' ki' c' = llD isExp s.x ko ki c := by
  obtain rfl : r' = r := by simpa using Fintype.card_congr φ
  obtain rfl : ko' = ki ∘ φ := funext fun q => (h q).1
  obtain rfl : ki' = ko ∘ φ := funext fun q => (h q).2.1
  obtain rfl : c' = c ∘ φ := funext fun q => (h q).2.2
  have hs : (fun w : Fin 2 × Fin r' => X' w.1 w.2 ((ki ∘ φ) w.2) ((ko ∘ φ) w.2)) = (fun w => X w.1 w.2 (ko w.2) (ki w.2)) ∘ revBlocks φ := by
    funext w; revert w; rw [EM.forall_pair]
    exact ⟨fun q => (hX _ _ _ _).1, fun q => (hX _ _ _ _).2⟩
  rw [hs, solver_rename (reversed_dcm φ ko ki c he hout isExp m)]
  cases hs : solver (tableD e isExp m ko ki c) o (fun w => X w.1 w.2 (ko w.2) (ki w.2)) with
  | error er => exact .inl ⟨er, rfl, rfl⟩
  | ok s =>
    refine .inr ⟨s, _, rfl, rfl, rfl, fun q => ⟨rfl, rfl⟩, ?_⟩
    unfold llD State.rename
    cases isExp
    · exact dcm_ll_rev φ s.x ko ki c
    · exact dcm_ll_exp_rev φ (fun v => Real.exp (-s.x v)) ko ki c

theorem classes_reverse {d d' : DData n} (h : ReversedData d d') : ∃ φ : Fin d'.r ≃ Fin d.r,
    (∀ q, d'.ko q = d.ki (φ q) ∧ d'.ki q = d.ko (φ q) ∧ d'.c q = d.c (φ q)) ∧ ∀ i, φ (d'.inv i) = d.inv i := by
  let sw : ℕ ×ₗ ℕ → ℕ ×ₗ ℕ := fun v => toLex ((ofLex v).2, (ofLex v).1)
  have hsw : ∀ v, sw (sw v) = v := fun v => rfl
  have hseq : ∀ i, d'.seq i = sw (d.seq i) := fun i => by simp only [DData.seq, h.dseq_out, h.dseq_in]; rfl
  have hseq' : ∀ i, sw (d'.seq i) = d.seq i := fun i => by rw [hseq, hsw]
  have hV : ∀ v, v ∈ values d'.seq → sw v ∈ values d.seq := by
    intro v hv
    simp only [values, mem_image, mem_univ, true_and] at hv ⊢
    obtain ⟨i, rfl⟩ := hv
    exact ⟨i, (hseq' i).symm⟩
  have hV' : ∀ v, v ∈ values d.seq → sw v ∈ values d'.seq := by
    intro v hv
    simp only [values, mem_image, mem_univ, true_and] at hv ⊢
    obtain ⟨i, rfl⟩ := hv
    exact ⟨i, hseq i⟩
  let S : values d'.seq ≃ values d.seq := ⟨fun v => ⟨sw v.1, hV _ v.2⟩, fun v => ⟨sw v.1, hV' _ v.2⟩, fun v => Subtype.ext (hsw _), fun v => Subtype.ext (hsw _)⟩
  let φ : Fin d'.r ≃ Fin d.r := ((values d'.seq).orderIsoOfFin rfl).toEquiv.trans (S.trans ((values d.seq).orderIsoOfFin rfl).symm.toEquiv)
  have hφ : ∀ q, r_dseq d.seq (φ q) = sw (r_dseq d'.seq q) := by
    intro q
    show ((values d.seq).orderIsoOfFin rfl (((values d.seq).orderIsoOfFin rfl).symm (S ((values d'.seq).orderIsoOfFin rfl q)))).1 = _
    rw [OrderIso.apply_symm_apply]
    rfl
  refine ⟨φ, fun q => ⟨?_, ?_, ?_⟩, fun i => ?_⟩
  · unfold DData.ko DData.ki; rw [hφ]; rfl
  · unfold DData.ko DData.ki; rw [hφ]; rfl
  · unfold DData.c r_multiplicity
    rw [show (r_dseq d.seq (φ q)) = _ from hφ q]
    congr 3
    ext i
    rw [hseq]
    exact ⟨fun h => by rw [← h, hsw], fun h => by rw [h, hsw]⟩
  · show ((values d.seq).orderIsoOfFin rfl).symm (S ((values d'.seq).orderIsoOfFin rfl (((values d'.seq).orderIsoOfFin rfl).symm ⟨d'.seq i, _⟩))) = _
    rw [OrderIso.apply_symm_apply]
    have : S ⟨d'.seq i, mem_image_of_mem _ (mem_univ i)⟩ = ⟨d.seq i, mem_image_of_mem _ (mem_univ i)⟩ := Subtype.ext (hseq' i)
    rw [this]
    rfl

/-- what the starting points of the two problems must have to do with each other -/
def RevStart : Option (Fin 2 → ℕ → ℝ → ℝ → ℝ) → Option (Fin 2 → ℕ → ℝ → ℝ → ℝ) → Prop
  | none, none => True
  | some X, some X' => ∀ q q' a b, X' 0 q a b = X 1 q' b a ∧ X' 1 q a b = X 0 q' b a
  | _, _ => False

theorem reverse_dcm {e : Env} (he : e.Valid) (hout : ∀ (ι : Type) (τ : Equiv.Perm ι) x, e.outside ι (x ∘ τ) = e.outside ι x) {d d' : DData n} (h : ReversedData d d')
    (mo : DModel) (hmo : mo = .dcm ∨ mo = .dcm_exp) (method : String) (guess guess' : DGuess n) (adj : AdjSpec n) (ma : String) (ga : DGuess n) (p : Params)
    (start start' : Bool → Option (Fin 2 → ℕ → ℝ → ℝ → ℝ)) (hst : ∀ isExp, RevStart (start isExp) (start' isExp))
    (hg : ∀ isExp, guessDCM e d isExp guess = match start isExp with
      | none => .error .valueError
      | some X => .ok fun w => X w.1 w.2 (d.ko w.2) (d.ki w.2))
    (hg' : ∀ isExp, guessDCM e d' isExp guess' = match start' isExp with
      | none => .error .valueError
      | some X => .ok fun w => X w.1 w.2 (d'.ko w.2) (d'.ki w.2)) :
    let R := solve_tool_directed e ({} : DAttr d) mo.name method guess adj ma ga p
    let R' := solve_tool_directed e ({} : DAttr d') mo.name method guess' adj ma ga p
    R'.exc = R.exc ∧ ReversedAnswer R.g R'.g := by
  obtain ⟨φ, hφ, hinv⟩ := classes_reverse h
  obtain ⟨isExp, hm⟩ : ∃ isExp : Bool, mo = if isExp then .dcm_exp else .dcm := by
    rcases hmo with rfl | rfl
    · exact ⟨false, rfl⟩
    · exact ⟨true, rfl⟩
  have hl2 : (some mo.name = some "dcm" ∨ some mo.name = some "dcm_exp") := by rcases hmo with rfl | rfl <;> simp [DModel.name]
  intro R R'
  have hR := ends_dcm e d isExp mo hm method guess adj ma ga p (start isExp) (hg isExp)
  have hR' := ends_dcm e d' isExp mo hm method guess' adj ma ga p (start' isExp) (hg' isExp)
  have hss := hst isExp
  cases hs : start isExp with
  | none =>
    cases hs' : start' isExp with
    | some X' => rw [hs, hs'] at hss; exact hss.elim
    | none =>
      rw [show R = _ from hR.1 hs, show R' = _ from hR'.1 hs']
      exact ⟨rfl, ⟨rfl, rfl, rfl, rfl, rfl, rfl, rfl, rfl, rfl, rfl, rfl, rfl, rfl, rfl, rfl⟩⟩
  | some X =>
    cases hs' : start' isExp with
    | none => rw [hs, hs'] at hss; exact hss.elim
    | some X' =>
      rw [hs, hs'] at hss
      by_cases hme : ∃ me : Method, method = me.name
      · obtain ⟨me, hme⟩ := hme
        rcases run_revD he hout isExp me (p.opts method) X X' hss φ hφ with ⟨er, h1, h2⟩ | ⟨st, st', h1, h2, h3, h4, h5⟩
        · rw [show R = _ from ((hR.2 X hs).2 me hme).1 er h1, show R' = _ from ((hR'.2 X' hs').2 me hme).1 er h2]
          refine ⟨rfl, ⟨rfl, rfl, rfl, rfl, rfl, rfl, rfl, rfl, rfl, rfl, rfl, rfl, rfl, rfl, ?_⟩⟩
          cases isExp <;> subst hm <;> rfl
        · rw [show R = _ from ((hR.2 X hs).2 me hme).2 st h1, show R' = _ from ((hR'.2 X' hs').2 me hme).2 st' h2]
          have hx : (if isExp then fun i => Real.exp (-st'.x (0, d'.inv i)) else fun i => st'.x (0, d'.inv i)) =
              if isExp then fun i => Real.exp (-st.x (1, d.inv i)) else fun i => st.x (1, d.inv i) := by
            simp only [(h4 _).1, hinv]
          have hy : (if isExp then fun i => Real.exp (-st'.x (1, d'.inv i)) else fun i => st'.x (1, d'.inv i)) =
              if isExp then fun i => Real.exp (-st.x (0, d.inv i)) else fun i => st.x (0, d.inv i) := by
            simp only [(h4 _).2, hinv]
          set G := setSolvedDCM (d := d) { last_model := some mo.name, full_return := p.full_return, args := some .dcm, step_fun := some mo, fun_pmatrix := true } isExp st with hG
          set G' := setSolvedDCM (d := d') { last_model := some mo.name, full_return := p.full_return, args := some .dcm, step_fun := some mo, fun_pmatrix := true } isExp st' with hG'
          have hA : ReversedAnswer G G' := by
            refine ⟨congrArg some hx, congrArg some hy, rfl, rfl, rfl, rfl, rfl, rfl, rfl, rfl, rfl, rfl, ?_, rfl, ?_⟩
            · rw [hG, hG']; simp only [setSolvedDCM, h3]
            · unfold model_loglikelihood_directed
              rw [hG, hG']
              simp only [setSolvedDCM]
              cases isExp <;> subst hm <;> simp only [Bool.false_eq_true, if_false, if_true] <;> exact congrArg (fun t : ℝ => Except.ok (-t)) h5
          have u {d : DData n} (G : DAttr d) (hb : G.b_out = none) (hl : G.last_model = some "dcm" ∨ G.last_model = some "dcm_exp") :
              solutionErrorD G = (degreeErrorD G, none) := by
            unfold solutionErrorD
            rw [if_pos (by tauto)]
            unfold strengthErrorD
            have : (degreeErrorD G).b_out = none := by unfold degreeErrorD; split <;> exact hb
            rw [this]
          rw [u G rfl hl2, u G' rfl hl2]
          exact ⟨rfl, degreeErrorD_reverse h hA⟩
      · have hme' : ∀ me : Method, method ≠ me.name := fun me h => hme ⟨me, h⟩
        rw [show R = _ from (hR.2 X hs).1 hme', show R' = _ from (hR'.2 X' hs').1 hme']
        exact ⟨rfl, ⟨rfl, rfl, rfl, rfl, rfl, rfl, rfl, rfl, rfl, rfl, rfl, rfl, rfl, rfl, rfl⟩⟩

theorem finD_rev (isExp : Bool) (f f' : Fin 2 → ℕ → ℝ → ℝ → ℝ) (h : ∀ q q' a b, f' 0 q a b = f 1 q' b a ∧ f' 1 q a b = f 0 q' b a) (q q' : ℕ) (a b : ℝ) :
    finD isExp f' 0 q a b = finD isExp f 1 q' b a ∧ finD isExp f' 1 q a b = finD isExp f 0 q' b a := by
  unfold finD
  simp [(h q q' a b).1, (h q q' a b).2]

theorem startD_rev (e : Env) (E : ℝ) (isExp : Bool) (s : String) (hs : s ≠ "random") : RevStart (startD e E isExp s) (startD e E isExp s) := by
  unfold startD
  simp only [if_neg hs]
  split_ifs <;> first | trivial | (intro q q' a b; exact finD_rev isExp _ _ (fun _ _ _ _ => ⟨rfl, rfl⟩) q q' a b)

/-- C73 (dcm, dcm_exp): reversing every arc exchanges the two sides of the answer and changes nothing else, whatever the method and for every named guess but the random
one, with or without line search. -/
theorem C73_dcm_reverse {e : Env} (he : e.Valid) (hout : ∀ (ι : Type) (τ : Equiv.Perm ι) x, e.outside ι (x ∘ τ) = e.outside ι x) {d d' : DData n} (h : ReversedData d d')
    (mo : DModel) (hmo : mo = .dcm ∨ mo = .dcm_exp) (method s : String) (hs : s ≠ "random") (adj : AdjSpec n) (ma : String) (ga : DGuess n) (p : Params) :
    let R := solve_tool_directed e ({} : DAttr d) mo.name method (.name s) adj ma ga p
    let R' := solve_tool_directed e ({} : DAttr d') mo.name method (.name s) adj ma ga p
    R'.exc = R.exc ∧ ReversedAnswer R.g R'.g :=
  reverse_dcm he hout h mo hmo method (.name s) (.name s) adj ma ga p (fun isExp => startD e d.n_edges isExp s) (fun isExp => startD e d.n_edges isExp s)
    (fun isExp => startD_rev e _ isExp s hs) (fun isExp => guess_startD e d isExp s) (fun isExp => h.n_edges ▸ guess_startD e d' isExp s)

/-- C73 (dcm, dcm_exp, an array as guess): the same when nodes of equal degrees are given equal values; the two halves of the array are exchanged. -/
theorem C73_dcm_reverse_array {e : Env} (he : e.Valid) (hout : ∀ (ι : Type) (τ : Equiv.Perm ι) x, e.outside ι (x ∘ τ) = e.outside ι x) {d d' : DData n} (h : ReversedData d d')
    (mo : DModel) (hmo : mo = .dcm ∨ mo = .dcm_exp) (method : String) (v : Fin 2 × Fin n → ℝ)
    (hv : ∀ b i j, d.dseq_out i = d.dseq_out j → d.dseq_in i = d.dseq_in j → v (b, i) = v (b, j)) (adj : AdjSpec n) (ma : String) (ga : DGuess n) (p : Params) :
    let R := solve_tool_directed e ({} : DAttr d) mo.name method (.pairs v) adj ma ga p
    let R' := solve_tool_directed e ({} : DAttr d') mo.name method (DGuess.pairs v).reverse adj ma ga p
    R'.exc = R.exc ∧ ReversedAnswer R.g R'.g := by
  let f : Fin 2 → ℕ → ℝ → ℝ → ℝ := fun b _ k l => if h : ∃ i, d.degOut i = k ∧ d.degIn i = l then v (b, h.choose) else 0
  let f' : Fin 2 → ℕ → ℝ → ℝ → ℝ := fun b q k l => if b = 0 then f 1 q l k else f 0 q l k
  have hf : ∀ b q i, f b q (d.degOut i) (d.degIn i) = v (b, i) := by
    intro b q i
    have hex : ∃ j, d.degOut j = d.degOut i ∧ d.degIn j = d.degIn i := ⟨i, rfl, rfl⟩
    simp only [f, dif_pos hex]
    exact hv _ _ _ (Nat.cast_injective (R := ℝ) hex.choose_spec.1) (Nat.cast_injective (R := ℝ) hex.choose_spec.2)
  have hk : ∀ (d : DData n) q, d.ko q = d.degOut (d.index q) ∧ d.ki q = d.degIn (d.index q) := by
    intro d q
    have := Finset.min'_mem (univ.filter fun i => d.seq i = r_dseq d.seq q) (by
      obtain ⟨i, hi⟩ := d.exists_class q
      exact ⟨i, by simp [hi]⟩)
    rw [mem_filter] at this
    have h2 : r_dseq d.seq q = d.seq (d.index q) := this.2.symm
    constructor
    · show ((ofLex (r_dseq d.seq q)).1 : ℝ) = _
      rw [h2]; rfl
    · show ((ofLex (r_dseq d.seq q)).2 : ℝ) = _
      rw [h2]; rfl
  refine reverse_dcm he hout h mo hmo method _ _ adj ma ga p (fun isExp => some (finD isExp f)) (fun isExp => some (finD isExp f')) ?_ ?_ ?_
  · intro isExp q q' a b
    exact finD_rev isExp f f' (fun _ _ _ _ => ⟨rfl, rfl⟩) q q' a b
  · intro isExp
    refine congrArg Except.ok (finish_start d isExp (fun q => v (0, d.index q)) (fun q => v (1, d.index q)) f ?_ ?_) <;> intro q <;> rw [(hk d q).1, (hk d q).2, hf _ q]
  · intro isExp
    refine congrArg Except.ok (finish_start d' isExp (fun q => v (1, d'.index q)) (fun q => v (0, d'.index q)) f' ?_ ?_) <;> intro q <;>
      rw [(hk d' q).1, (hk d' q).2, h.degOut, h.degIn]
    · exact (hf 1 q _).symm
    · exact (hf 0 q _).symm

end run

end

end Verif.Solve
