import Verif.Props.Relabel2

/-! C56 for decm and decm_exp. -/

namespace Verif.Solve
open Verif Verif.Solver Verif.Reduction Verif.Spec Finset

noncomputable section

variable {n : ℕ}

theorem forall_quad {P : Fin 4 × Fin n → Prop} : (∀ v, P v) ↔ (∀ i, P (0, i)) ∧ (∀ i, P (1, i)) ∧ (∀ i, P (2, i)) ∧ ∀ i, P (3, i) := by
  constructor
  · intro h; exact ⟨fun i => h _, fun i => h _, fun i => h _, fun i => h _⟩
  · rintro ⟨h0, h1, h2, h3⟩ ⟨b, i⟩
    fin_cases b
    · exact h0 i
    · exact h1 i
    · exact h2 i
    · exact h3 i

section decm
open DECM

variable (σ : Equiv.Perm (Fin n)) (x : Fin 4 × Fin n → ℝ) (ko ki so si : Fin n → ℝ)

/-- Sums over the other vertices, re-indexed. -/
local macro "resum" s:term : tactic => `(tactic| (refine Fintype.sum_equiv $s _ _ fun j => ?_; simp only [ne_eq, EmbeddingLike.apply_eq_iff_eq, Function.comp, onBlocks_apply]))

theorem fa_out_perm (i : Fin n) : fa_out (x ∘ onBlocks 4 σ) i = fa_out x (σ i) := by rw [fa_out_eq, fa_out_eq]; resum σ
theorem fa_in_perm (i : Fin n) : fa_in (x ∘ onBlocks 4 σ) i = fa_in x (σ i) := by rw [fa_in_eq, fa_in_eq]; resum σ
theorem fb_out_perm (i : Fin n) : fb_out (x ∘ onBlocks 4 σ) i = fb_out x (σ i) := by rw [fb_out_eq, fb_out_eq]; resum σ
theorem fb_in_perm (i : Fin n) : fb_in (x ∘ onBlocks 4 σ) i = fb_in x (σ i) := by rw [fb_in_eq, fb_in_eq]; resum σ
theorem fb_out_prime_perm (i : Fin n) : fb_out_prime (x ∘ onBlocks 4 σ) i = fb_out_prime x (σ i) := by rw [fb_out_prime_eq, fb_out_prime_eq]; resum σ
theorem fb_in_prime_perm (i : Fin n) : fb_in_prime (x ∘ onBlocks 4 σ) i = fb_in_prime x (σ i) := by rw [fb_in_prime_eq, fb_in_prime_eq]; resum σ

theorem decm_prime_perm : loglikelihood_prime_decm (x ∘ onBlocks 4 σ) (ko ∘ σ) (ki ∘ σ) (so ∘ σ) (si ∘ σ) = loglikelihood_prime_decm x ko ki so si ∘ onBlocks 4 σ := by
  funext v
  revert v
  rw [forall_quad]
  refine ⟨fun i => ?_, fun i => ?_, fun i => ?_, fun i => ?_⟩ <;> simp only [Function.comp_apply, onBlocks_apply]
  · rw [(prime_eq _ _ _ _ _ i).1, (prime_eq _ _ _ _ _ (σ i)).1, fa_out_perm]; rfl
  · rw [(prime_eq _ _ _ _ _ i).2.1, (prime_eq _ _ _ _ _ (σ i)).2.1, fa_in_perm]; rfl
  · rw [(prime_eq _ _ _ _ _ i).2.2.1, (prime_eq _ _ _ _ _ (σ i)).2.2.1, fb_out_prime_perm]; rfl
  · rw [(prime_eq _ _ _ _ _ i).2.2.2, (prime_eq _ _ _ _ _ (σ i)).2.2.2, fb_in_prime_perm]; rfl

theorem decm_iter_perm : iterative_decm (x ∘ onBlocks 4 σ) (ko ∘ σ) (ki ∘ σ) (so ∘ σ) (si ∘ σ) = iterative_decm x ko ki so si ∘ onBlocks 4 σ := by
  funext v
  revert v
  rw [forall_quad]
  refine ⟨fun i => ?_, fun i => ?_, fun i => ?_, fun i => ?_⟩ <;> simp only [Function.comp_apply, onBlocks_apply]
  · rw [(iter_eq _ _ _ _ _ i).1, (iter_eq _ _ _ _ _ (σ i)).1, fa_out_perm]; rfl
  · rw [(iter_eq _ _ _ _ _ i).2.1, (iter_eq _ _ _ _ _ (σ i)).2.1, fa_in_perm]; rfl
  · rw [(iter_eq _ _ _ _ _ i).2.2.1, (iter_eq _ _ _ _ _ (σ i)).2.2.1, fb_out_perm]; rfl
  · rw [(iter_eq _ _ _ _ _ i).2.2.2, (iter_eq _ _ _ _ _ (σ i)).2.2.2, fb_in_perm]; rfl

theorem decm_expected_perm : expected_decm (x ∘ onBlocks 4 σ) = expected_decm x ∘ onBlocks 4 σ := by
  funext v
  revert v
  rw [forall_quad]
  refine ⟨fun i => ?_, fun i => ?_, fun i => ?_, fun i => ?_⟩ <;> simp only [Function.comp_apply, onBlocks_apply]
  · rw [(expected_eq _ i).1, (expected_eq _ (σ i)).1, fa_out_perm]; rfl
  · rw [(expected_eq _ i).2.1, (expected_eq _ (σ i)).2.1, fa_in_perm]; rfl
  · rw [(expected_eq _ i).2.2.1, (expected_eq _ (σ i)).2.2.1, fb_out_perm]; rfl
  · rw [(expected_eq _ i).2.2.2, (expected_eq _ (σ i)).2.2.2, fb_in_perm]; rfl

theorem decm_diag_perm : loglikelihood_hessian_diag_decm (x ∘ onBlocks 4 σ) (ko ∘ σ) (ki ∘ σ) (so ∘ σ) (si ∘ σ) = loglikelihood_hessian_diag_decm x ko ki so si ∘ onBlocks 4 σ := by
  funext v
  revert v
  rw [forall_quad]
  refine ⟨fun i => ?_, fun i => ?_, fun i => ?_, fun i => ?_⟩ <;> simp only [Function.comp_apply, onBlocks_apply]
  · rw [(diag_eq _ _ _ _ _ i).1, (diag_eq _ _ _ _ _ (σ i)).1]; congr 1; resum σ
  · rw [(diag_eq _ _ _ _ _ i).2.1, (diag_eq _ _ _ _ _ (σ i)).2.1]; congr 1; resum σ
  · rw [(diag_eq _ _ _ _ _ i).2.2.1, (diag_eq _ _ _ _ _ (σ i)).2.2.1]; congr 1; resum σ
  · rw [(diag_eq _ _ _ _ _ i).2.2.2, (diag_eq _ _ _ _ _ (σ i)).2.2.2]
    refine congrArg (fun t : ℝ => if si (σ i) = 0 then t else -si (σ i) / x (3, σ i) ^ 2 - t) ?_
    resum σ

theorem decm_hess_perm (u v : Fin 4 × Fin n) : loglikelihood_hessian_decm (x ∘ onBlocks 4 σ) (ko ∘ σ) (ki ∘ σ) (so ∘ σ) (si ∘ σ) u v =
    loglikelihood_hessian_decm x ko ki so si (onBlocks 4 σ u) (onBlocks 4 σ v) := by
  obtain ⟨a, i⟩ := u
  obtain ⟨b, j⟩ := v
  simp only [onBlocks_apply]
  by_cases h : i = j
  · subst h
    obtain ⟨⟨p1, p2, p3, p4⟩, ⟨p5, p6, p7, p8⟩, ⟨p9, p10, p11, p12⟩, p13, p14, p15, p16⟩ := hess_eq (x ∘ onBlocks 4 σ) (ko ∘ σ) (ki ∘ σ) (so ∘ σ) (si ∘ σ) i
    obtain ⟨⟨q1, q2, q3, q4⟩, ⟨q5, q6, q7, q8⟩, ⟨q9, q10, q11, q12⟩, q13, q14, q15, q16⟩ := hess_eq x ko ki so si (σ i)
    fin_cases a <;> fin_cases b
    · exact p1.trans (Eq.trans (by congr 1; resum σ) q1.symm)
    · exact p2.trans q2.symm
    · exact p3.trans (Eq.trans (by resum σ) q3.symm)
    · exact p4.trans q4.symm
    · exact p6.trans q6.symm
    · exact p5.trans (Eq.trans (by congr 1; resum σ) q5.symm)
    · exact p8.trans q8.symm
    · exact p7.trans (Eq.trans (by resum σ) q7.symm)
    · exact p9.trans (Eq.trans (by resum σ) q9.symm)
    · exact p10.trans q10.symm
    · exact p11.trans (Eq.trans (by congr 1; resum σ) q11.symm)
    · exact p12.trans q12.symm
    · exact p14.trans q14.symm
    · exact p13.trans (Eq.trans (by resum σ) q13.symm)
    · exact p16.trans q16.symm
    · exact p15.trans (Eq.trans (by congr 1; resum σ) q15.symm)
  · have h' : σ i ≠ σ j := by simpa using h
    obtain ⟨⟨p1, p2, p3, p4⟩, ⟨p5, p6, p7, p8⟩, ⟨p9, p10, p11, p12⟩, p13, p14, p15, p16⟩ := hess_ne (x ∘ onBlocks 4 σ) (ko ∘ σ) (ki ∘ σ) (so ∘ σ) (si ∘ σ) i j h
    obtain ⟨⟨q1, q2, q3, q4⟩, ⟨q5, q6, q7, q8⟩, ⟨q9, q10, q11, q12⟩, q13, q14, q15, q16⟩ := hess_ne x ko ki so si (σ i) (σ j) h'
    fin_cases a <;> fin_cases b
    · exact p1.trans q1.symm
    · exact p2.trans q2.symm
    · exact p3.trans q3.symm
    · exact p4.trans q4.symm
    · exact p6.trans q6.symm
    · exact p5.trans q5.symm
    · exact p8.trans q8.symm
    · exact p7.trans q7.symm
    · exact p9.trans q9.symm
    · exact p10.trans q10.symm
    · exact p11.trans q11.symm
    · exact p12.trans q12.symm
    · exact p14.trans q14.symm
    · exact p13.trans q13.symm
    · exact p16.trans q16.symm
    · exact p15.trans q15.symm

theorem decm_ll_perm : loglikelihood_decm (x ∘ onBlocks 4 σ) (ko ∘ σ) (ki ∘ σ) (so ∘ σ) (si ∘ σ) = loglikelihood_decm x ko ki so si := by
  rw [ll_eq, ll_eq]
  refine Fintype.sum_equiv σ _ _ fun i => ?_
  simp only [Function.comp_apply, onBlocks_apply]
  congr 4
  resum σ

/-! ### decm_exp -/

theorem ex_comp : ex (x ∘ onBlocks 4 σ) = ex x ∘ onBlocks 4 σ := rfl
theorem X_comp (i j : Fin n) : X (x ∘ onBlocks 4 σ) i j = X x (σ i) (σ j) := rfl
theorem Y_comp (i j : Fin n) : Y (x ∘ onBlocks 4 σ) i j = Y x (σ i) (σ j) := rfl

theorem decm_prime_exp_perm : loglikelihood_prime_decm_exp (x ∘ onBlocks 4 σ) (ko ∘ σ) (ki ∘ σ) (so ∘ σ) (si ∘ σ) = loglikelihood_prime_decm_exp x ko ki so si ∘ onBlocks 4 σ := by
  funext v
  revert v
  rw [forall_quad]
  refine ⟨fun i => ?_, fun i => ?_, fun i => ?_, fun i => ?_⟩ <;> simp only [Function.comp_apply, onBlocks_apply]
  · rw [(prime_exp_eq _ _ _ _ _ i).1, (prime_exp_eq _ _ _ _ _ (σ i)).1]; congr 1; simp only [ex_comp, X_comp, Y_comp]; resum σ
  · rw [(prime_exp_eq _ _ _ _ _ i).2.1, (prime_exp_eq _ _ _ _ _ (σ i)).2.1]; congr 1; simp only [ex_comp, X_comp, Y_comp]; resum σ
  · rw [(prime_exp_eq _ _ _ _ _ i).2.2.1, (prime_exp_eq _ _ _ _ _ (σ i)).2.2.1]; congr 1; simp only [ex_comp, X_comp, Y_comp]; resum σ
  · rw [(prime_exp_eq _ _ _ _ _ i).2.2.2, (prime_exp_eq _ _ _ _ _ (σ i)).2.2.2]; congr 1; simp only [ex_comp, X_comp, Y_comp]; resum σ

theorem decm_diag_exp_perm : loglikelihood_hessian_diag_decm_exp (x ∘ onBlocks 4 σ) (ko ∘ σ) (ki ∘ σ) (so ∘ σ) (si ∘ σ) = loglikelihood_hessian_diag_decm_exp x ko ki so si ∘ onBlocks 4 σ := by
  funext v
  revert v
  rw [forall_quad]
  refine ⟨fun i => ?_, fun i => ?_, fun i => ?_, fun i => ?_⟩ <;> simp only [Function.comp_apply, onBlocks_apply]
  · rw [(diag_exp_eq _ _ _ _ _ i).1, (diag_exp_eq _ _ _ _ _ (σ i)).1]; simp only [ex_comp, X_comp, Y_comp]; resum σ
  · rw [(diag_exp_eq _ _ _ _ _ i).2.1, (diag_exp_eq _ _ _ _ _ (σ i)).2.1]; simp only [ex_comp, X_comp, Y_comp]; resum σ
  · rw [(diag_exp_eq _ _ _ _ _ i).2.2.1, (diag_exp_eq _ _ _ _ _ (σ i)).2.2.1]; simp only [ex_comp, X_comp, Y_comp]; resum σ
  · rw [(diag_exp_eq _ _ _ _ _ i).2.2.2, (diag_exp_eq _ _ _ _ _ (σ i)).2.2.2]; simp only [ex_comp, X_comp, Y_comp]; resum σ

theorem decm_hess_exp_perm (u v : Fin 4 × Fin n) : loglikelihood_hessian_decm_exp (x ∘ onBlocks 4 σ) (ko ∘ σ) (ki ∘ σ) (so ∘ σ) (si ∘ σ) u v =
    loglikelihood_hessian_decm_exp x ko ki so si (onBlocks 4 σ u) (onBlocks 4 σ v) := by
  obtain ⟨a, i⟩ := u
  obtain ⟨b, j⟩ := v
  simp only [onBlocks_apply]
  by_cases h : i = j
  · subst h
    obtain ⟨⟨p1, p2, p3, p4⟩, ⟨p5, p6, p7, p8⟩, ⟨p9, p10, p11, p12⟩, p13, p14, p15, p16⟩ := hess_exp_eq (x ∘ onBlocks 4 σ) (ko ∘ σ) (ki ∘ σ) (so ∘ σ) (si ∘ σ) i
    obtain ⟨⟨q1, q2, q3, q4⟩, ⟨q5, q6, q7, q8⟩, ⟨q9, q10, q11, q12⟩, q13, q14, q15, q16⟩ := hess_exp_eq x ko ki so si (σ i)
    simp only [ex_comp, X_comp, Y_comp] at p1 p3 p5 p7 p9 p11 p13 p15
    fin_cases a <;> fin_cases b
    · exact p1.trans (Eq.trans (by resum σ) q1.symm)
    · exact p2.trans q2.symm
    · exact p3.trans (Eq.trans (by resum σ) q3.symm)
    · exact p4.trans q4.symm
    · exact p6.trans q6.symm
    · exact p5.trans (Eq.trans (by resum σ) q5.symm)
    · exact p8.trans q8.symm
    · exact p7.trans (Eq.trans (by resum σ) q7.symm)
    · exact p9.trans (Eq.trans (by resum σ) q9.symm)
    · exact p10.trans q10.symm
    · exact p11.trans (Eq.trans (by resum σ) q11.symm)
    · exact p12.trans q12.symm
    · exact p14.trans q14.symm
    · exact p13.trans (Eq.trans (by resum σ) q13.symm)
    · exact p16.trans q16.symm
    · exact p15.trans (Eq.trans (by resum σ) q15.symm)
  · have h' : σ i ≠ σ j := by simpa using h
    obtain ⟨⟨p1, p2, p3, p4⟩, ⟨p5, p6, p7, p8⟩, ⟨p9, p10, p11, p12⟩, p13, p14, p15, p16⟩ := hess_exp_ne (x ∘ onBlocks 4 σ) (ko ∘ σ) (ki ∘ σ) (so ∘ σ) (si ∘ σ) i j h
    obtain ⟨⟨q1, q2, q3, q4⟩, ⟨q5, q6, q7, q8⟩, ⟨q9, q10, q11, q12⟩, q13, q14, q15, q16⟩ := hess_exp_ne x ko ki so si (σ i) (σ j) h'
    fin_cases a <;> fin_cases b
    · exact p1.trans q1.symm
    · exact p2.trans q2.symm
    · exact p3.trans q3.symm
    · exact p4.trans q4.symm
    · exact p6.trans q6.symm
    · exact p5.trans q5.symm
    · exact p8.trans q8.symm
    · exact p7.trans q7.symm
    · exact p9.trans q9.symm
    · exact p10.trans q10.symm
    · exact p11.trans q11.symm
    · exact p12.trans q12.symm
    · exact p14.trans q14.symm
    · exact p13.trans q13.symm
    · exact p16.trans q16.symm
    · exact p15.trans q15.symm

theorem decm_ll_exp_perm : loglikelihood_decm_exp (x ∘ onBlocks 4 σ) (ko ∘ σ) (ki ∘ σ) (so ∘ σ) (si ∘ σ) = loglikelihood_decm_exp x ko ki so si := by
  rw [ll_exp_eq, ll_exp_eq]
  refine Fintype.sum_equiv σ _ _ fun i => ?_
  simp only [Function.comp_apply, onBlocks_apply]
  congr 4
  simp only [ex_comp, X_comp, Y_comp]
  resum σ

/-- `iterative_decm_exp` cell by cell -/
theorem decm_iter_exp_eq (θ : Vec n) (m : Fin n) :
    iterative_decm_exp θ ko ki so si (0, m) = (if ko m ≠ 0 then -Real.log (ko m / ∑ j, (if m ≠ j then
      ex θ (1, j) * Y (ex θ) m j / (1 - Y (ex θ) m j + X (ex θ) m j * Y (ex θ) m j) else 0)) else 1000) ∧
    iterative_decm_exp θ ko ki so si (1, m) = (if ki m ≠ 0 then -Real.log (ki m / ∑ j, (if m ≠ j then
      ex θ (1, j) * Y (ex θ) j m / (1 - Y (ex θ) j m + X (ex θ) j m * Y (ex θ) j m) else 0)) else 1000) ∧
    iterative_decm_exp θ ko ki so si (2, m) = (if so m ≠ 0 then -Real.log (so m / ∑ j, (if m ≠ j then
      X (ex θ) m j * ex θ (3, j) / ((1 - Y (ex θ) m j) * (1 - Y (ex θ) m j + X (ex θ) m j * Y (ex θ) m j)) else 0)) else 1000) ∧
    iterative_decm_exp θ ko ki so si (3, m) = (if si m ≠ 0 then -Real.log (si m / ∑ j, (if m ≠ j then
      X (ex θ) j m * ex θ (3, j) / ((1 - Y (ex θ) j m) * (1 - Y (ex θ) j m + X (ex θ) j m * Y (ex θ) j m)) else 0)) else 1000) := by
  have key : ∀ (p : Prop) [Decidable p] (f : Vec n) (v : Fin 4 × Fin n) (a b : ℝ),
    (if p then setAt f v a else setAt f v b) = setAt f v (if p then a else b) := by
    intro p _ f v a b; split <;> rfl
  simp only [iterative_decm_exp, ite_acc_left, forR_add, zero_add, key]
  refine ⟨?_, ?_, ?_, ?_⟩ <;>
  · apply forR_cell (m := m)
    · intro f; simp [setAt_apply, X, Y, ex]
    · intro i hi f; simp [setAt_apply, hi.symm]

theorem decm_iter_exp_perm : iterative_decm_exp (x ∘ onBlocks 4 σ) (ko ∘ σ) (ki ∘ σ) (so ∘ σ) (si ∘ σ) = iterative_decm_exp x ko ki so si ∘ onBlocks 4 σ := by
  funext v
  revert v
  rw [forall_quad]
  refine ⟨fun i => ?_, fun i => ?_, fun i => ?_, fun i => ?_⟩ <;> simp only [Function.comp_apply, onBlocks_apply]
  · rw [(decm_iter_exp_eq _ _ _ _ _ i).1, (decm_iter_exp_eq _ _ _ _ _ (σ i)).1]
    refine congrArg (fun t : ℝ => if ko (σ i) ≠ 0 then -Real.log (ko (σ i) / t) else 1000) ?_
    simp only [ex_comp, X_comp, Y_comp]; resum σ
  · rw [(decm_iter_exp_eq _ _ _ _ _ i).2.1, (decm_iter_exp_eq _ _ _ _ _ (σ i)).2.1]
    refine congrArg (fun t : ℝ => if ki (σ i) ≠ 0 then -Real.log (ki (σ i) / t) else 1000) ?_
    simp only [ex_comp, X_comp, Y_comp]; resum σ
  · rw [(decm_iter_exp_eq _ _ _ _ _ i).2.2.1, (decm_iter_exp_eq _ _ _ _ _ (σ i)).2.2.1]
    refine congrArg (fun t : ℝ => if so (σ i) ≠ 0 then -Real.log (so (σ i) / t) else 1000) ?_
    simp only [ex_comp, X_comp, Y_comp]; resum σ
  · rw [(decm_iter_exp_eq _ _ _ _ _ i).2.2.2, (decm_iter_exp_eq _ _ _ _ _ (σ i)).2.2.2]
    refine congrArg (fun t : ℝ => if si (σ i) ≠ 0 then -Real.log (si (σ i) / t) else 1000) ?_
    simp only [ex_comp, X_comp, Y_comp]; resum σ

end decm

section callbacks
variable [NeZero n] {e : Env} (he : e.Valid) (hout : ∀ (ι : Type) (τ : Equiv.Perm ι) x, e.outside ι (x ∘ τ) = e.outside ι x)

/-- the data of a directed network with the nodes renamed -/
structure RenamedData (σ : Equiv.Perm (Fin n)) (d d' : DData n) : Prop where
  dseq_out : d'.dseq_out = d.dseq_out ∘ σ
  dseq_in : d'.dseq_in = d.dseq_in ∘ σ
  out_strength : d'.out_strength = d.out_strength ∘ σ
  in_strength : d'.in_strength = d.in_strength ∘ σ
  nz_known : d'.nz_known = d.nz_known

variable {d d' : DData n} {σ : Equiv.Perm (Fin n)} (h : RenamedData σ d d')

namespace RenamedData
include h
theorem degOut : d'.degOut = d.degOut ∘ σ := by funext i; simp [DData.degOut, h.dseq_out]
theorem degIn : d'.degIn = d.degIn ∘ σ := by funext i; simp [DData.degIn, h.dseq_in]
theorem obs (v : Fin 4 × Fin n) : d'.obs v = d.obs (onBlocks 4 σ v) := by
  obtain ⟨b, i⟩ := v
  simp only [DData.obs, h.degOut, h.degIn, h.out_strength, h.in_strength, onBlocks_apply, Function.comp_apply]
  fin_cases b <;> rfl
theorem n_edges : d'.n_edges = d.n_edges := by
  unfold DData.n_edges
  rw [h.degOut]
  exact Equiv.sum_comp σ d.degOut
end RenamedData

include h hout

include he in
theorem renamed_decm (me : Method) : Renamed (onBlocks 4 σ) (cbDECM e d me) (cbDECM e d' me) where
  fn x := by
    cases me with
    | newton => funext v; show -_ = -_; rw [h.degOut, h.degIn, h.out_strength, h.in_strength, decm_prime_perm]; rfl
    | quasinewton => funext v; show -_ = -_; rw [h.degOut, h.degIn, h.out_strength, h.in_strength, decm_prime_perm]; rfl
    | fixed_point => show DECM.iterative_decm _ _ _ _ _ = _; rw [h.degOut, h.degIn, h.out_strength, h.in_strength, decm_iter_perm]; rfl
  jac x := by
    funext u v
    show -_ = -_
    rw [h.degOut, h.degIn, h.out_strength, h.in_strength, decm_hess_perm]
  diag x := by
    funext v
    show -_ = -_
    rw [h.degOut, h.degIn, h.out_strength, h.in_strength, decm_diag_perm]; rfl
  reg x ε := eigenRegulariser_rename e he _ _ _
  search x dx b a f := by
    refine linsearch_DECM_comp σ (blocks_perm 4 σ) (llF_rename e hout _ (fun x => ?_) fun x => ?_) x dx b a f
    · simp only [h.obs, Function.comp_apply, onBlocks_apply]
      refine and_congr ((onBlocks 4 σ).forall_congr_right (q := fun v => d.obs v ≠ 0 → 0 < x v)) (and_congr ((onBlocks 4 σ).forall_congr_right (q := fun v => 0 ≤ x v)) ?_)
      exact ⟨fun h i j hij => by simpa using h (σ.symm i) (σ.symm j) (by simpa using hij), fun h i j hij => h _ _ (by simpa using hij)⟩
    · rw [h.degOut, h.degIn, h.out_strength, h.in_strength, decm_ll_perm]
  searchFixed x dx dx_old a b k := linsearch_DECM_fixed_comp σ (blocks_perm 4 σ) x dx dx_old a b k

theorem renamed_decm_exp (me : Method) : Renamed (onBlocks 4 σ) (cbDECMexp e d me) (cbDECMexp e d' me) where
  fn x := by
    cases me with
    | newton => funext v; show -_ = -_; rw [h.degOut, h.degIn, h.out_strength, h.in_strength, decm_prime_exp_perm]; rfl
    | quasinewton => funext v; show -_ = -_; rw [h.degOut, h.degIn, h.out_strength, h.in_strength, decm_prime_exp_perm]; rfl
    | fixed_point => show DECM.iterative_decm_exp _ _ _ _ _ = _; rw [h.degOut, h.degIn, h.out_strength, h.in_strength, decm_iter_exp_perm]; rfl
  jac x := by
    funext u v
    show -_ = -_
    rw [h.degOut, h.degIn, h.out_strength, h.in_strength, decm_hess_exp_perm]
  diag x := by
    funext v
    show -_ = -_
    rw [h.degOut, h.degIn, h.out_strength, h.in_strength, decm_diag_exp_perm]; rfl
  reg x ε := regulariser_rename _ _ _
  search x dx b a f := by
    refine linsearch_DECM_exp_comp σ (llF_rename e hout _ (fun x => ?_) fun x => ?_) x dx b a f
    · simp only [Function.comp, onBlocks_apply]
      exact ⟨fun h i j hij => by simpa using h (σ.symm i) (σ.symm j) (by simpa using hij), fun h i j hij => h _ _ (by simpa using hij)⟩
    · rw [h.degOut, h.degIn, h.out_strength, h.in_strength, decm_ll_exp_perm]
  searchFixed x dx dx_old a b k := linsearch_DECM_exp_fixed_comp σ x dx dx_old a b k

end callbacks

/-- the same guess with the nodes renamed -/
def DGuess.rename (σ : Equiv.Perm (Fin n)) : DGuess n → DGuess n
  | .other => .other
  | .name s => .name s
  | .nodes v => .nodes (v ∘ σ)
  | .pairs v => .pairs (v ∘ onBlocks 2 σ)
  | .quads v => .quads (v ∘ onBlocks 4 σ)

/-- What "the renamed answer" means: the node `i` of `g'` has what the node `σ i` of `g` has, and the numbers that belong to no node (errors, trace, likelihood) are
the same. -/
structure RenamedAnswerD {d d' : DData n} (σ : Equiv.Perm (Fin n)) (g : DAttr d) (g' : DAttr d') : Prop where
  x : g'.x = g.x.map (· ∘ σ)
  y : g'.y = g.y.map (· ∘ σ)
  b_out : g'.b_out = g.b_out.map (· ∘ σ)
  b_in : g'.b_in = g.b_in.map (· ∘ σ)
  expected_dseq : g'.expected_dseq = g.expected_dseq.map (fun f v => f (v.1, σ v.2))
  expected_strength_seq : g'.expected_strength_seq = g.expected_strength_seq.map (fun f v => f (v.1, σ v.2))
  expected_stregth_seq : g'.expected_stregth_seq = g.expected_stregth_seq.map (fun f v => f (v.1, σ v.2))
  error_degree : g'.error_degree = g.error_degree
  relative_error_degree : g'.relative_error_degree = g.relative_error_degree
  error_strength : g'.error_strength = g.error_strength
  relative_error_strength : g'.relative_error_strength = g.relative_error_strength
  error : g'.error = g.error
  trace : g'.trace = g.trace
  trace_crema : g'.trace_crema = g.trace_crema
  loglikelihood : model_loglikelihood_directed g' = model_loglikelihood_directed g

section directed
variable [NeZero n] {d d' : DData n} {σ : Equiv.Perm (Fin n)} (h : RenamedData σ d d')
include h

theorem finishDECM_rename (isExp : Bool) (v : Fin 4 × Fin n → ℝ) : finishDECM d' isExp (v ∘ onBlocks 4 σ) = finishDECM d isExp v ∘ onBlocks 4 σ := by
  unfold finishDECM
  funext w
  cases isExp
  · simp only [Bool.false_eq_true, if_false, maskSet, h.obs, Function.comp_apply]
  · simp only [if_true, maskSet, h.obs, Function.comp_apply, negLogNonzero]

theorem guessDECM_rename (e : Env) (isExp : Bool) (g : DGuess n) (hg : g ≠ .name "random") :
    guessDECM e d' isExp (g.rename σ) = ((guessDECM e d isExp g).1.map fun v => v ∘ onBlocks 4 σ, (guessDECM e d isExp g).2.rename σ) := by
  cases g with
  | other => rfl
  | nodes v => simp only [DGuess.rename, guessDECM, h.degOut, Except.map]; cases isExp <;> rfl
  | pairs v => simp only [DGuess.rename, guessDECM, h.degOut, h.degIn, Except.map]; cases isExp <;> rfl
  | quads v => simp only [DGuess.rename, guessDECM, finishDECM_rename h, Except.map]
  | name s =>
    have hr : s ≠ "random" := fun h => hg (h ▸ rfl)
    have hn : ∀ u, namedDECM e d' u s = (namedDECM e d u s).map (· ∘ onBlocks 4 σ) := by
      intro u
      unfold namedDECM
      simp only [h.degOut, h.degIn, h.out_strength, h.in_strength, h.n_edges, if_neg hr]
      split_ifs
      · simp only [Option.map_some, Option.some.injEq]
        funext ⟨b, i⟩
        simp only [Function.comp, onBlocks_apply]
        rw [Equiv.sum_comp σ d.out_strength, Equiv.sum_comp σ d.in_strength]
        fin_cases b <;> rfl
      all_goals rfl
    simp only [DGuess.rename, guessDECM, hn]
    cases namedDECM e d (if isExp then 0.1 else 0.9) s with
    | none => rfl
    | some v => simp only [Option.map_some, finishDECM_rename h]; rfl

omit h in
theorem solutionErrorD_decm {d : DData n} (G : DAttr d) (x : Fin 4 × Fin n → ℝ) (h1 : G.x = some (blk4 x 0)) (h2 : G.y = some (blk4 x 1)) (h3 : G.b_out = some (blk4 x 2))
    (h4 : G.b_in = some (blk4 x 3)) (hl : G.last_model = some "decm" ∨ G.last_model = some "decm_exp") :
    solutionErrorD G = ({ G with
      expected_dseq := some (cat2 (fun i => DECM.expected_decm x (0, i)) fun i => DECM.expected_decm x (1, i)),
      expected_strength_seq := some (cat2 (fun i => DECM.expected_decm x (2, i)) fun i => DECM.expected_decm x (3, i)),
      error_degree := some (max (maxAbs fun i => d.degOut i - DECM.expected_decm x (0, i)) (maxAbs fun i => d.degIn i - DECM.expected_decm x (1, i))),
      error_strength := some (max (maxAbs fun i => d.out_strength i - DECM.expected_decm x (2, i)) (maxAbs fun i => d.in_strength i - DECM.expected_decm x (3, i))),
      relative_error_strength := some (maxAbs fun v => (cat2 d.out_strength d.in_strength v - cat2 (fun i => DECM.expected_decm x (2, i)) (fun i => DECM.expected_decm x (3, i)) v) /
        (cat2 d.out_strength d.in_strength v + Real.exp (-100))),
      relative_error_degree := some (maxAbs fun v => (cat2 d.degOut d.degIn v - cat2 (fun i => DECM.expected_decm x (0, i)) (fun i => DECM.expected_decm x (1, i)) v) /
        (cat2 d.degOut d.degIn v + Real.exp (-100))),
      error := some (maxAbs fun v => DECM.expected_decm x v - d.obs v) }, none) := by
  have hx : (fun v : Fin 4 × Fin n => if v.1 = 0 then blk4 x 0 v.2 else if v.1 = 1 then blk4 x 1 v.2 else if v.1 = 2 then blk4 x 2 v.2 else blk4 x 3 v.2) = x := by
    funext v; revert v; rw [forall_quad]; exact ⟨fun i => rfl, fun i => rfl, fun i => rfl, fun i => rfl⟩
  unfold solutionErrorD
  rw [if_neg (by rcases hl with h | h <;> rw [h] <;> decide), if_pos hl]
  simp only [h1, h2, h3, h4, hx]

omit h in
theorem cat2_onBlocks (x y : Fin n → ℝ) : cat2 (x ∘ σ) (y ∘ σ) = cat2 x y ∘ onBlocks 2 σ := by
  funext v; revert v; rw [EM.forall_pair]; exact ⟨fun i => rfl, fun i => rfl⟩

theorem solutionErrorD_decm_rename {G : DAttr d} {G' : DAttr d'} {x : Fin 4 × Fin n → ℝ}
    (hm : G.last_model = some "decm" ∨ G.last_model = some "decm_exp") (hm' : G'.last_model = G.last_model) (h1 : G.x = some (blk4 x 0)) (h2 : G.y = some (blk4 x 1))
    (h3 : G.b_out = some (blk4 x 2)) (h4 : G.b_in = some (blk4 x 3)) (hR : RenamedAnswerD σ G G') :
    (solutionErrorD G').2 = (solutionErrorD G).2 ∧ RenamedAnswerD σ (solutionErrorD G).1 (solutionErrorD G').1 := by
  have g1 : G'.x = some (blk4 (x ∘ onBlocks 4 σ) 0) := by rw [hR.x, h1]; rfl
  have g2 : G'.y = some (blk4 (x ∘ onBlocks 4 σ) 1) := by rw [hR.y, h2]; rfl
  have g3 : G'.b_out = some (blk4 (x ∘ onBlocks 4 σ) 2) := by rw [hR.b_out, h3]; rfl
  have g4 : G'.b_in = some (blk4 (x ∘ onBlocks 4 σ) 3) := by rw [hR.b_in, h4]; rfl
  rw [solutionErrorD_decm G x h1 h2 h3 h4 hm, solutionErrorD_decm G' _ g1 g2 g3 g4 (hm' ▸ hm), decm_expected_perm]
  generalize DECM.expected_decm x = E
  have c1 : (cat2 (fun i => (E ∘ onBlocks 4 σ) (0, i)) fun i => (E ∘ onBlocks 4 σ) (1, i)) = cat2 (fun i => E (0, i)) (fun i => E (1, i)) ∘ onBlocks 2 σ := cat2_onBlocks (fun i => E (0, i)) fun i => E (1, i)
  have c2 : (cat2 (fun i => (E ∘ onBlocks 4 σ) (2, i)) fun i => (E ∘ onBlocks 4 σ) (3, i)) = cat2 (fun i => E (2, i)) (fun i => E (3, i)) ∘ onBlocks 2 σ := cat2_onBlocks (fun i => E (2, i)) fun i => E (3, i)
  refine ⟨rfl, ?_⟩
  constructor
  · exact hR.x
  · exact hR.y
  · exact hR.b_out
  · exact hR.b_in
  · exact congrArg some c1
  · exact congrArg some c2
  · exact hR.expected_stregth_seq
  · simp only [h.degOut, h.degIn]
    exact congrArg some (congrArg₂ max (maxAbs_perm (fun i => d.degOut i - E (0, i)) σ) (maxAbs_perm (fun i => d.degIn i - E (1, i)) σ))
  · simp only [h.degOut, h.degIn, c1, cat2_onBlocks]
    exact congrArg some (maxAbs_perm (fun v => (cat2 d.degOut d.degIn v - cat2 (fun i => E (0, i)) (fun i => E (1, i)) v) / (cat2 d.degOut d.degIn v + Real.exp (-100))) (onBlocks 2 σ))
  · simp only [h.out_strength, h.in_strength]
    exact congrArg some (congrArg₂ max (maxAbs_perm (fun i => d.out_strength i - E (2, i)) σ) (maxAbs_perm (fun i => d.in_strength i - E (3, i)) σ))
  · simp only [h.out_strength, h.in_strength, c2, cat2_onBlocks]
    exact congrArg some (maxAbs_perm (fun v => (cat2 d.out_strength d.in_strength v - cat2 (fun i => E (2, i)) (fun i => E (3, i)) v) / (cat2 d.out_strength d.in_strength v + Real.exp (-100))) (onBlocks 2 σ))
  · simp only [h.obs]
    exact congrArg some (maxAbs_perm (fun v => E v - d.obs v) (onBlocks 4 σ))
  · exact hR.trace
  · exact hR.trace_crema
  · exact hR.loglikelihood

/-- C56 (decm, decm_exp): renaming the nodes - degrees, strengths and, when the guess is an array, the guess - renames the answer and changes nothing else: same
exception or success, parameters and expected values of the renamed nodes, same errors, trace and likelihood.  Every method, every guess but the random one, with or
without line search. -/
theorem C56_decm_relabel {e : Env} (he : e.Valid) (hout : ∀ (ι : Type) (τ : Equiv.Perm ι) x, e.outside ι (x ∘ τ) = e.outside ι x)
    (mo : DModel) (hmo : mo = .decm ∨ mo = .decm_exp)
    (method : String) (guess : DGuess n) (hg : guess ≠ .name "random") (adj : AdjSpec n) (ma : String) (ga : DGuess n) (p : Params) :
    let R := solve_tool_directed e ({} : DAttr d) mo.name method guess adj ma ga p
    let R' := solve_tool_directed e ({} : DAttr d') mo.name method (guess.rename σ) adj ma ga p
    R'.exc = R.exc ∧ RenamedAnswerD σ R.g R'.g := by
  have hR : ∀ {d : DData n} (g : DAttr d) guess, solve_tool_directed e g mo.name method guess adj ma ga p = match (solveProblemD e g mo.name method guess p) with
      | (g', some x, gu) => ⟨g', some x, gu, ga⟩
      | (g', none, gu) => ⟨(solutionErrorD g').1, (solutionErrorD g').2, gu, ga⟩ := by
    intro d g guess
    unfold solve_tool_directed
    rw [if_pos (by rcases hmo with rfl | rfl <;> simp [DModel.name])]
    obtain ⟨a, b, c⟩ := solveProblemD e g mo.name method guess p
    cases b <;> rfl
  intro R R'
  have h1 : R = _ := hR _ guess
  have h2 : R' = _ := hR _ _
  have hm1 : ¬ (mo.name = "dcm" ∨ mo.name = "dcm_exp") := by rcases hmo with rfl | rfl <;> decide
  have hm2 : mo.name = "decm" ∨ mo.name = "decm_exp" := by rcases hmo with rfl | rfl <;> decide
  unfold solveProblemD at h1 h2
  rw [if_neg hm1, if_pos hm2] at h1 h2
  rw [guessDECM_rename h e _ guess hg] at h2
  rcases hG : guessDECM e d (decide (mo.name = "decm_exp")) guess with ⟨er | x, gu⟩
  · rw [hG] at h1 h2
    rw [h1, h2]
    exact ⟨rfl, ⟨rfl, rfl, rfl, rfl, rfl, rfl, rfl, rfl, rfl, rfl, rfl, rfl, rfl, rfl, rfl⟩⟩
  · rw [hG] at h1 h2
    cases hl : dLookup mo.name method with
    | none =>
      simp only [hl, Except.map] at h1 h2
      rw [h1, h2]
      exact ⟨rfl, ⟨rfl, rfl, rfl, rfl, rfl, rfl, rfl, rfl, rfl, rfl, rfl, rfl, rfl, rfl, rfl⟩⟩
    | some v =>
      simp only [hl, Except.map] at h1 h2
      have hren : Renamed (onBlocks 4 σ) (if mo.name = "decm_exp" then cbDECMexp e d v.2 else cbDECM e d v.2) (if mo.name = "decm_exp" then cbDECMexp e d' v.2 else cbDECM e d' v.2) := by
        split_ifs
        · exact renamed_decm_exp hout h v.2
        · exact renamed_decm he hout h v.2
      rw [solver_rename hren] at h2
      cases hS : solver (if mo.name = "decm_exp" then cbDECMexp e d v.2 else cbDECM e d v.2) (p.opts method) x with
      | error er =>
        rw [hS] at h1 h2
        simp only [Except.map] at h1 h2
        rw [h1, h2]
        refine ⟨rfl, ⟨rfl, rfl, rfl, rfl, rfl, rfl, rfl, rfl, rfl, rfl, rfl, rfl, rfl, rfl, ?_⟩⟩
        unfold model_loglikelihood_directed
        cases v.1 <;> rfl
      | ok st =>
        rw [hS] at h1 h2
        simp only [Except.map] at h1 h2
        rw [h1, h2]
        have hb : ∀ b, (if decide (mo.name = "decm_exp") then fun i => Real.exp (-st.x (b, i)) else fun i => st.x (b, i)) =
            blk4 (if decide (mo.name = "decm_exp") then fun v => Real.exp (-st.x v) else st.x) b := by
          intro b; split_ifs <;> rfl
        refine solutionErrorD_decm_rename h (x := if decide (mo.name = "decm_exp") then fun v => Real.exp (-st.x v) else st.x) ?_ rfl
          (congrArg some (hb 0)) (congrArg some (hb 1)) (congrArg some (hb 2)) (congrArg some (hb 3)) ?_
        · exact hm2.imp (congrArg some) (congrArg some)
        · refine ⟨?_, ?_, ?_, ?_, rfl, rfl, rfl, rfl, rfl, rfl, rfl, rfl, ?_, rfl, ?_⟩
          · simp only [setSolvedDECM]; split_ifs <;> rfl
          · simp only [setSolvedDECM]; split_ifs <;> rfl
          · simp only [setSolvedDECM]; split_ifs <;> rfl
          · simp only [setSolvedDECM]; split_ifs <;> rfl
          · simp only [setSolvedDECM]; rfl
          · unfold model_loglikelihood_directed
            have hx' : (if decide (mo.name = "decm_exp") then fun v => Real.exp (-(State.rename (onBlocks 4 σ) st).x v) else (State.rename (onBlocks 4 σ) st).x) =
              (if decide (mo.name = "decm_exp") then fun v => Real.exp (-st.x v) else st.x) ∘ onBlocks 4 σ := by split_ifs <;> rfl
            simp only [setSolvedDECM, hx']
            cases v.1
            · rfl
            · rfl
            · simp only [h.degOut, h.degIn, h.out_strength, h.in_strength, decm_ll_perm]
            · simp only [h.degOut, h.degIn, h.out_strength, h.in_strength, decm_ll_exp_perm]
            · rfl
            · rfl

end directed

end

end Verif.Solve
