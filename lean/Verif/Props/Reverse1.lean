import Verif.Props.Relabel5

/-! C73: reversing every arc exchanges the two sides of the answer.  decm and decm_exp. -/

namespace Verif.Solve
open Verif Verif.Solver Verif.Reduction Verif.Spec Finset

noncomputable section

variable {n : ℕ}

/-- exchange of the blocks 0, 1 of an array of two blocks -/
def flip2 (n : ℕ) : Equiv.Perm (Fin 2 × Fin n) := Equiv.prodCongr (Equiv.swap 0 1) (Equiv.refl _)
/-- exchange of the blocks 0, 1 and of the blocks 2, 3 of an array of four blocks -/
def flip4 (n : ℕ) : Equiv.Perm (Fin 4 × Fin n) := Equiv.prodCongr ((Equiv.swap 0 1).trans (Equiv.swap 2 3)) (Equiv.refl _)

@[simp] theorem flip2_0 (i : Fin n) : flip2 n (0, i) = (1, i) := rfl
@[simp] theorem flip2_1 (i : Fin n) : flip2 n (1, i) = (0, i) := rfl
@[simp] theorem flip4_0 (i : Fin n) : flip4 n (0, i) = (1, i) := rfl
@[simp] theorem flip4_1 (i : Fin n) : flip4 n (1, i) = (0, i) := rfl
@[simp] theorem flip4_2 (i : Fin n) : flip4 n (2, i) = (3, i) := rfl
@[simp] theorem flip4_3 (i : Fin n) : flip4 n (3, i) = (2, i) := rfl

theorem blocks_perm' (m : ℕ) (τ : Equiv.Perm (Fin m × Fin n)) : ((blocks m n).map τ).Perm (blocks m n) := by
  have hnd : (blocks m n).Nodup := by
    unfold blocks
    rw [List.nodup_flatMap]
    refine ⟨fun b _ => (List.nodup_finRange n).map fun i j h => (Prod.mk.inj h).2, ?_⟩
    refine (List.nodup_finRange m).imp fun {b c} hbc => ?_
    intro v hv hv'
    obtain ⟨i, -, rfl⟩ := List.mem_map.1 hv
    obtain ⟨j, -, h⟩ := List.mem_map.1 hv'
    exact hbc (Prod.mk.inj h).1.symm
  have hmem : ∀ v, v ∈ blocks m n := fun v => by simp [blocks]
  rw [List.perm_ext_iff_of_nodup (hnd.map τ.injective) hnd]
  intro v
  simp only [hmem, iff_true, List.mem_map]
  exact ⟨τ.symm v, trivial, Equiv.apply_symm_apply _ _⟩

section decm
open DECM

variable (x : Fin 4 × Fin n → ℝ) (ko ki so si : Fin n → ℝ)

theorem fa_out_flip (i : Fin n) : fa_out (x ∘ flip4 n) i = fa_in x i := by rw [fa_out_eq, fa_in_eq]; rfl
theorem fa_in_flip (i : Fin n) : fa_in (x ∘ flip4 n) i = fa_out x i := by rw [fa_in_eq, fa_out_eq]; rfl
theorem fb_out_flip (i : Fin n) : fb_out (x ∘ flip4 n) i = fb_in x i := by rw [fb_out_eq, fb_in_eq]; rfl
theorem fb_in_flip (i : Fin n) : fb_in (x ∘ flip4 n) i = fb_out x i := by rw [fb_in_eq, fb_out_eq]; rfl
theorem fb_out_prime_flip (i : Fin n) : fb_out_prime (x ∘ flip4 n) i = fb_in_prime x i := by rw [fb_out_prime_eq, fb_in_prime_eq]; rfl
theorem fb_in_prime_flip (i : Fin n) : fb_in_prime (x ∘ flip4 n) i = fb_out_prime x i := by rw [fb_in_prime_eq, fb_out_prime_eq]; rfl

theorem decm_prime_flip : loglikelihood_prime_decm (x ∘ flip4 n) ki ko si so = loglikelihood_prime_decm x ko ki so si ∘ flip4 n := by
  funext v
  revert v
  rw [forall_quad]
  obtain h := prime_eq (x ∘ flip4 n) ki ko si so
  obtain h' := prime_eq x ko ki so si
  refine ⟨fun i => ?_, fun i => ?_, fun i => ?_, fun i => ?_⟩
  · exact (h i).1.trans (Eq.trans (by rw [fa_out_flip]; rfl) (h' i).2.1.symm)
  · exact (h i).2.1.trans (Eq.trans (by rw [fa_in_flip]; rfl) (h' i).1.symm)
  · exact (h i).2.2.1.trans (Eq.trans (by rw [fb_out_prime_flip]; rfl) (h' i).2.2.2.symm)
  · exact (h i).2.2.2.trans (Eq.trans (by rw [fb_in_prime_flip]; rfl) (h' i).2.2.1.symm)

theorem decm_iter_flip : iterative_decm (x ∘ flip4 n) ki ko si so = iterative_decm x ko ki so si ∘ flip4 n := by
  funext v
  revert v
  rw [forall_quad]
  obtain h := iter_eq (x ∘ flip4 n) ki ko si so
  obtain h' := iter_eq x ko ki so si
  refine ⟨fun i => ?_, fun i => ?_, fun i => ?_, fun i => ?_⟩
  · exact (h i).1.trans (Eq.trans (by rw [fa_out_flip]) (h' i).2.1.symm)
  · exact (h i).2.1.trans (Eq.trans (by rw [fa_in_flip]) (h' i).1.symm)
  · exact (h i).2.2.1.trans (Eq.trans (by rw [fb_out_flip]) (h' i).2.2.2.symm)
  · exact (h i).2.2.2.trans (Eq.trans (by rw [fb_in_flip]) (h' i).2.2.1.symm)

theorem decm_expected_flip : expected_decm (x ∘ flip4 n) = expected_decm x ∘ flip4 n := by
  funext v
  revert v
  rw [forall_quad]
  obtain h := expected_eq (x ∘ flip4 n)
  obtain h' := expected_eq x
  refine ⟨fun i => ?_, fun i => ?_, fun i => ?_, fun i => ?_⟩
  · exact (h i).1.trans (Eq.trans (by rw [fa_out_flip]; rfl) (h' i).2.1.symm)
  · exact (h i).2.1.trans (Eq.trans (by rw [fa_in_flip]; rfl) (h' i).1.symm)
  · exact (h i).2.2.1.trans (Eq.trans (by rw [fb_out_flip]; rfl) (h' i).2.2.2.symm)
  · exact (h i).2.2.2.trans (Eq.trans (by rw [fb_in_flip]; rfl) (h' i).2.2.1.symm)

theorem decm_hess_flip (u v : Fin 4 × Fin n) : loglikelihood_hessian_decm (x ∘ flip4 n) ki ko si so u v =
    loglikelihood_hessian_decm x ko ki so si (flip4 n u) (flip4 n v) := by
  obtain ⟨a, i⟩ := u
  obtain ⟨b, j⟩ := v
  by_cases h : i = j
  · subst h
    obtain ⟨⟨p1, p2, p3, p4⟩, ⟨p5, p6, p7, p8⟩, ⟨p9, p10, p11, p12⟩, p13, p14, p15, p16⟩ := hess_eq (x ∘ flip4 n) ki ko si so i
    obtain ⟨⟨q1, q2, q3, q4⟩, ⟨q5, q6, q7, q8⟩, ⟨q9, q10, q11, q12⟩, q13, q14, q15, q16⟩ := hess_eq x ko ki so si i
    fin_cases a <;> fin_cases b
    · exact p1.trans q5.symm
    · exact p2.trans q6.symm
    · exact p3.trans q7.symm
    · exact p4.trans q8.symm
    · exact p6.trans q2.symm
    · exact p5.trans q1.symm
    · exact p8.trans q4.symm
    · exact p7.trans q3.symm
    · exact p9.trans q13.symm
    · exact p10.trans q14.symm
    · exact p11.trans q15.symm
    · exact p12.trans q16.symm
    · exact p14.trans q10.symm
    · exact p13.trans q9.symm
    · exact p16.trans q12.symm
    · exact p15.trans q11.symm
  · obtain ⟨⟨p1, p2, p3, p4⟩, ⟨p5, p6, p7, p8⟩, ⟨p9, p10, p11, p12⟩, p13, p14, p15, p16⟩ := hess_ne (x ∘ flip4 n) ki ko si so i j h
    obtain ⟨⟨q1, q2, q3, q4⟩, ⟨q5, q6, q7, q8⟩, ⟨q9, q10, q11, q12⟩, q13, q14, q15, q16⟩ := hess_ne x ko ki so si i j h
    fin_cases a <;> fin_cases b
    · exact p1.trans q5.symm
    · exact p2.trans q6.symm
    · exact p3.trans q7.symm
    · exact p4.trans q8.symm
    · exact p6.trans q2.symm
    · exact p5.trans q1.symm
    · exact p8.trans q4.symm
    · exact p7.trans q3.symm
    · exact p9.trans q13.symm
    · exact p10.trans q14.symm
    · exact p11.trans q15.symm
    · exact p12.trans q16.symm
    · exact p14.trans q10.symm
    · exact p13.trans q9.symm
    · exact p16.trans q12.symm
    · exact p15.trans q11.symm

theorem decm_ll_flip : loglikelihood_decm (x ∘ flip4 n) ki ko si so = loglikelihood_decm x ko ki so si := by
  rw [ll_eq, ll_eq]
  simp only [sum_add_distrib, Function.comp, flip4_0, flip4_1, flip4_2, flip4_3]
  have : (∑ i : Fin n, ∑ j, if i = j then 0 else Real.log (1 - x (3, i) * x (2, j)) - Real.log (1 - x (3, i) * x (2, j) + x (1, i) * x (0, j) * (x (3, i) * x (2, j)))) =
      ∑ i : Fin n, ∑ j, if i = j then 0 else Real.log (1 - x (2, i) * x (3, j)) - Real.log (1 - x (2, i) * x (3, j) + x (0, i) * x (1, j) * (x (2, i) * x (3, j))) := by
    rw [sum_comm]
    refine sum_congr rfl fun i _ => sum_congr rfl fun j _ => ?_
    simp only [eq_comm (a := j), mul_comm (x (3, j)), mul_comm (x (1, j))]
  rw [this]
  ring

/-! ### decm_exp -/

theorem ex_flip : ex (x ∘ flip4 n) = ex x ∘ flip4 n := rfl
theorem X_flip (i j : Fin n) : X (x ∘ flip4 n) i j = X x j i := mul_comm _ _
theorem Y_flip (i j : Fin n) : Y (x ∘ flip4 n) i j = Y x j i := mul_comm _ _

theorem decm_prime_exp_flip : loglikelihood_prime_decm_exp (x ∘ flip4 n) ki ko si so = loglikelihood_prime_decm_exp x ko ki so si ∘ flip4 n := by
  funext v
  revert v
  rw [forall_quad]
  obtain h := prime_exp_eq (x ∘ flip4 n) ki ko si so
  obtain h' := prime_exp_eq x ko ki so si
  simp only [ex_flip, X_flip, Y_flip] at h
  refine ⟨fun i => ?_, fun i => ?_, fun i => ?_, fun i => ?_⟩
  · exact (h i).1.trans (h' i).2.1.symm
  · exact (h i).2.1.trans (h' i).1.symm
  · exact (h i).2.2.1.trans (h' i).2.2.2.symm
  · exact (h i).2.2.2.trans (h' i).2.2.1.symm

theorem decm_diag_exp_flip : loglikelihood_hessian_diag_decm_exp (x ∘ flip4 n) ki ko si so = loglikelihood_hessian_diag_decm_exp x ko ki so si ∘ flip4 n := by
  funext v
  revert v
  rw [forall_quad]
  obtain h := diag_exp_eq (x ∘ flip4 n) ki ko si so
  obtain h' := diag_exp_eq x ko ki so si
  simp only [ex_flip, X_flip, Y_flip] at h
  refine ⟨fun i => ?_, fun i => ?_, fun i => ?_, fun i => ?_⟩
  · exact (h i).1.trans (h' i).2.1.symm
  · exact (h i).2.1.trans (h' i).1.symm
  · exact (h i).2.2.1.trans (h' i).2.2.2.symm
  · exact (h i).2.2.2.trans (h' i).2.2.1.symm

theorem decm_hess_exp_flip (u v : Fin 4 × Fin n) : loglikelihood_hessian_decm_exp (x ∘ flip4 n) ki ko si so u v =
    loglikelihood_hessian_decm_exp x ko ki so si (flip4 n u) (flip4 n v) := by
  obtain ⟨a, i⟩ := u
  obtain ⟨b, j⟩ := v
  by_cases h : i = j
  · subst h
    obtain ⟨⟨p1, p2, p3, p4⟩, ⟨p5, p6, p7, p8⟩, ⟨p9, p10, p11, p12⟩, p13, p14, p15, p16⟩ := hess_exp_eq (x ∘ flip4 n) ki ko si so i
    obtain ⟨⟨q1, q2, q3, q4⟩, ⟨q5, q6, q7, q8⟩, ⟨q9, q10, q11, q12⟩, q13, q14, q15, q16⟩ := hess_exp_eq x ko ki so si i
    simp only [ex_flip, X_flip, Y_flip] at p1 p3 p5 p7 p9 p11 p13 p15
    fin_cases a <;> fin_cases b
    · exact p1.trans q5.symm
    · exact p2.trans q6.symm
    · exact p3.trans q7.symm
    · exact p4.trans q8.symm
    · exact p6.trans q2.symm
    · exact p5.trans q1.symm
    · exact p8.trans q4.symm
    · exact p7.trans q3.symm
    · exact p9.trans q13.symm
    · exact p10.trans q14.symm
    · exact p11.trans q15.symm
    · exact p12.trans q16.symm
    · exact p14.trans q10.symm
    · exact p13.trans q9.symm
    · exact p16.trans q12.symm
    · exact p15.trans q11.symm
  · obtain ⟨⟨p1, p2, p3, p4⟩, ⟨p5, p6, p7, p8⟩, ⟨p9, p10, p11, p12⟩, p13, p14, p15, p16⟩ := hess_exp_ne (x ∘ flip4 n) ki ko si so i j h
    obtain ⟨⟨q1, q2, q3, q4⟩, ⟨q5, q6, q7, q8⟩, ⟨q9, q10, q11, q12⟩, q13, q14, q15, q16⟩ := hess_exp_ne x ko ki so si i j h
    simp only [ex_flip, X_flip, Y_flip] at p1 p2 p3 p4 p5 p6 p7 p8 p9 p10 p11 p12 p13 p14 p15 p16
    fin_cases a <;> fin_cases b
    · exact p1.trans q5.symm
    · exact p2.trans q6.symm
    · exact p3.trans q7.symm
    · exact p4.trans q8.symm
    · exact p6.trans q2.symm
    · exact p5.trans q1.symm
    · exact p8.trans q4.symm
    · exact p7.trans q3.symm
    · exact p9.trans q13.symm
    · exact p10.trans q14.symm
    · exact p11.trans q15.symm
    · exact p12.trans q16.symm
    · exact p14.trans q10.symm
    · exact p13.trans q9.symm
    · exact p16.trans q12.symm
    · exact p15.trans q11.symm

theorem decm_ll_exp_flip : loglikelihood_decm_exp (x ∘ flip4 n) ki ko si so = loglikelihood_decm_exp x ko ki so si := by
  rw [ll_exp_eq, ll_exp_eq]
  simp only [sum_add_distrib, ex_flip, X_flip, Y_flip]
  simp only [Function.comp, flip4_0, flip4_1, flip4_2, flip4_3]
  have : (∑ i : Fin n, ∑ j, if i = j then 0 else -Real.log (1 + X (ex x) j i * Y (ex x) j i / (1 - Y (ex x) j i))) =
      ∑ i : Fin n, ∑ j, if i = j then 0 else -Real.log (1 + X (ex x) i j * Y (ex x) i j / (1 - Y (ex x) i j)) := by
    rw [sum_comm]
    refine sum_congr rfl fun i _ => sum_congr rfl fun j _ => ?_
    simp only [eq_comm (a := j)]
  rw [this]
  ring

end decm

section search
variable [NeZero n]

theorem linsearch_DECM_flip {F F' : (Fin 4 × Fin n → ℝ) → Option ℝ} (hF : ∀ x, F' (x ∘ flip4 n) = F x) (x dx : Fin 4 × Fin n → ℝ) (b a : ℝ) (f : Fin 4 × Fin n → ℝ) :
    linsearch_fun_DECM (blocks 4 n) (x ∘ flip4 n) (dx ∘ flip4 n) b a (f ∘ flip4 n) F' = linsearch_fun_DECM (blocks 4 n) x dx b a f F := by
  unfold linsearch_fun_DECM
  simp only [decreaseStage_comp _ hF, positivityStage'_comp (blocks_perm' 4 (flip4 n))]
  rw [untilLoop_congr fun a => ?_]
  rw [mul_comm]
  rfl

theorem linsearch_DECM_fixed_flip (x dx dx_old : Fin 4 × Fin n → ℝ) (a b : ℝ) (k : ℕ) :
    linsearch_fun_DECM_fixed (blocks 4 n) (x ∘ flip4 n) (dx ∘ flip4 n) (dx_old ∘ flip4 n) a b k = linsearch_fun_DECM_fixed (blocks 4 n) x dx dx_old a b k := by
  unfold linsearch_fun_DECM_fixed
  simp only [normStage_comp, positivityStage'_comp (blocks_perm' 4 (flip4 n))]
  rw [untilLoop_congr fun a => ?_]
  rw [mul_comm]
  rfl

theorem linsearch_DECM_exp_flip {F F' : (Fin 4 × Fin n → ℝ) → Option ℝ} (hF : ∀ x, F' (x ∘ flip4 n) = F x) (x dx : Fin 4 × Fin n → ℝ) (b a : ℝ) (f : Fin 4 × Fin n → ℝ) :
    linsearch_fun_DECM_exp (x ∘ flip4 n) (dx ∘ flip4 n) b a (f ∘ flip4 n) F' = linsearch_fun_DECM_exp x dx b a f F := by
  unfold linsearch_fun_DECM_exp
  simp only [decreaseStage_comp _ hF]
  rw [untilLoop_congr fun a => ?_]
  rw [add_comm (minv (blk 2 (x ∘ flip4 n))), add_comm (minv (blk 2 (_ + _)))]
  rfl

end search

section callbacks
variable [NeZero n] {e : Env}

/-- the data of the network with every arc reversed (a network has as many arc heads as arc tails) -/
structure ReversedData (d d' : DData n) : Prop where
  dseq_out : d'.dseq_out = d.dseq_in
  dseq_in : d'.dseq_in = d.dseq_out
  out_strength : d'.out_strength = d.in_strength
  in_strength : d'.in_strength = d.out_strength
  nz_known : d'.nz_known = d.nz_known
  arcs : ∑ i, d.dseq_out i = ∑ i, d.dseq_in i

variable {d d' : DData n} (h : ReversedData d d')

namespace ReversedData
include h
theorem degOut : d'.degOut = d.degIn := by funext i; simp [DData.degOut, DData.degIn, h.dseq_out]
theorem degIn : d'.degIn = d.degOut := by funext i; simp [DData.degIn, DData.degOut, h.dseq_in]
theorem obs (v : Fin 4 × Fin n) : d'.obs v = d.obs (flip4 n v) := by
  revert v
  rw [forall_quad]
  refine ⟨fun i => ?_, fun i => ?_, fun i => ?_, fun i => ?_⟩
  · exact congrFun h.degOut i
  · exact congrFun h.degIn i
  · exact congrFun h.out_strength i
  · exact congrFun h.in_strength i
theorem n_edges : d'.n_edges = d.n_edges := by
  unfold DData.n_edges
  rw [h.degOut]
  have := congrArg (fun t : ℕ => (t : ℝ)) h.arcs
  simpa [DData.degOut, DData.degIn] using this.symm
end ReversedData

include h

theorem obs_dom (x : Fin 4 × Fin n → ℝ) : (∀ v, d'.obs v ≠ 0 → 0 < (x ∘ flip4 n) v) ↔ ∀ v, d.obs v ≠ 0 → 0 < x v := by
  simp only [h.obs, Function.comp_apply]
  exact (flip4 n).forall_congr_right (q := fun v => d.obs v ≠ 0 → 0 < x v)

theorem reversed_decm (he : e.Valid) (hout : ∀ (ι : Type) (τ : Equiv.Perm ι) x, e.outside ι (x ∘ τ) = e.outside ι x) (me : Method) {C C' : Callbacks (Fin 4 × Fin n)}
    (hC : ({ cbDECM e d me with jacDiag := C.jacDiag } : Callbacks _) = C) (hC' : ({ cbDECM e d' me with jacDiag := C'.jacDiag } : Callbacks _) = C')
    (hq : ∀ x, C'.jacDiag (x ∘ flip4 n) = C.jacDiag x ∘ flip4 n) : Renamed (flip4 n) C C' where
  fn x := by
    rw [← hC, ← hC']
    cases me with
    | newton => funext v; show -_ = -_; rw [h.degOut, h.degIn, h.out_strength, h.in_strength, decm_prime_flip]; rfl
    | quasinewton => funext v; show -_ = -_; rw [h.degOut, h.degIn, h.out_strength, h.in_strength, decm_prime_flip]; rfl
    | fixed_point => show DECM.iterative_decm _ _ _ _ _ = _; rw [h.degOut, h.degIn, h.out_strength, h.in_strength, decm_iter_flip]; rfl
  jac x := by
    rw [← hC, ← hC']
    funext u v
    show -_ = -_
    rw [h.degOut, h.degIn, h.out_strength, h.in_strength, decm_hess_flip]
  diag x := hq x
  reg x ε := by rw [← hC, ← hC']; exact eigenRegulariser_rename e he _ _ _
  search x dx b a f := by
    rw [← hC, ← hC']
    refine linsearch_DECM_flip (llF_rename e hout _ (fun x => ?_) fun x => ?_) x dx b a f
    · refine and_congr (obs_dom h x) (and_congr ((flip4 n).forall_congr_right (q := fun v => 0 ≤ x v)) ?_)
      simp only [Function.comp_apply, flip4_2, flip4_3]
      exact ⟨fun h i j hij => mul_comm (x (3, j)) (x (2, i)) ▸ h j i hij.symm, fun h i j hij => mul_comm (x (2, j)) (x (3, i)) ▸ h j i hij.symm⟩
    · rw [h.degOut, h.degIn, h.out_strength, h.in_strength, decm_ll_flip]
  searchFixed x dx dx_old a b k := by rw [← hC, ← hC']; exact linsearch_DECM_fixed_flip x dx dx_old a b k

omit h [NeZero n] in
/-- the diagonal is read by quasinewton only -/
theorem solver_diag {ι : Type} [Fintype ι] [DecidableEq ι] [Nonempty ι] (C : Callbacks ι) (D : (ι → ℝ) → ι → ℝ) (o : Opts) (ho : o.method ≠ "quasinewton") (x0 : ι → ℝ) :
    solver { C with jacDiag := D } o x0 = solver C o x0 := by
  have hd : ∀ x f, direction { C with jacDiag := D } o x f = direction C o x f := by
    intro x f
    unfold direction
    simp only [if_neg ho]
  have hs : ∀ s, step { C with jacDiag := D } o s = step C o s := by
    intro s
    unfold step
    rw [hd]
    rfl
  have hl : ∀ k s, loop { C with jacDiag := D } o k s = loop C o k s := by
    intro k
    induction k with
    | zero => intro s; rfl
    | succ k ih =>
      intro s
      unfold loop
      rw [hs]
      split_ifs
      · cases step C o s with
        | error er => rfl
        | ok s' => exact ih s'
      · rfl
  exact hl _ _

omit h [NeZero n] in
/-- quasinewton keeps at zero the unknowns that start there and whose equation is then satisfied; a diagonal that agrees on such points gives the same run -/
theorem solver_diag_on {ι : Type} [Fintype ι] [DecidableEq ι] [Nonempty ι] (C : Callbacks ι) (D : (ι → ℝ) → ι → ℝ) (Z : ι → Prop) (o : Opts) (ho : o.method = "quasinewton")
    (hfn : ∀ x, (∀ v, Z v → x v = 0) → ∀ v, Z v → C.fn x v = 0) (hD : ∀ x, (∀ v, Z v → x v = 0) → D x = C.jacDiag x) (x0 : ι → ℝ) (hx : ∀ v, Z v → x0 v = 0) :
    solver { C with jacDiag := D } o x0 = solver C o x0 := by
  have hd : ∀ x f, (∀ v, Z v → x v = 0) → direction { C with jacDiag := D } o x f = direction C o x f := by
    intro x f hx
    unfold direction
    simp only [hD x hx]
  have hl : ∀ k s, (∀ v, Z v → s.x v = 0) → s.f = C.fn s.x → loop { C with jacDiag := D } o k s = loop C o k s := by
    intro k
    induction k with
    | zero => intro s _ _; rfl
    | succ k ih =>
      intro s hsx hsf
      have hs : step { C with jacDiag := D } o s = step C o s := by
        unfold step
        rw [hd _ _ hsx]
        rfl
      unfold loop
      rw [hs]
      split_ifs
      · cases hst : step C o s with
        | error er => rfl
        | ok s' =>
          refine ih s' ?_ ?_
          · unfold step at hst
            cases hdx : direction C o s.x s.f with
            | error er => rw [hdx] at hst; simp at hst
            | ok dx =>
              rw [hdx] at hst
              cases hsl : stepLength C o s dx with
              | error er => simp [hsl] at hst
              | ok a =>
                simp only [hsl, Except.ok.injEq] at hst
                intro v hv
                have hdv : dx v = 0 := by
                  unfold direction at hdx
                  rw [if_neg (by rw [ho]; decide), if_pos ho] at hdx
                  simp only at hdx
                  split_ifs at hdx <;>
                  · injection hdx with hdx
                    rw [← hdx]
                    simp [hsf, hfn _ hsx v hv]
                rw [← hst]
                simp [hsx v hv, hdv]
          · unfold step at hst
            cases hdx : direction C o s.x s.f with
            | error er => rw [hdx] at hst; simp at hst
            | ok dx =>
              rw [hdx] at hst
              cases hsl : stepLength C o s dx with
              | error er => simp [hsl] at hst
              | ok a =>
                simp only [hsl, Except.ok.injEq] at hst
                rw [← hst]
      · rfl
  exact hl _ _ hx rfl

/-- the diagonal with the sign of the last block as it is in the other blocks -/
def evenDiag (x : Fin 4 × Fin n → ℝ) (ko ki so si : Fin n → ℝ) : Fin 4 × Fin n → ℝ := fun v =>
  if v.1 = 3 then -si v.2 / x (3, v.2) ^ 2 - ∑ j, (if v.2 = j then 0 else DECM.QB (x (1, v.2)) (x (0, j)) (x (3, v.2)) (x (2, j)))
  else DECM.loglikelihood_hessian_diag_decm x ko ki so si v

omit h [NeZero n] in
theorem evenDiag_flip (x : Fin 4 × Fin n → ℝ) (ko ki so si : Fin n → ℝ) : evenDiag (x ∘ flip4 n) ki ko si so = evenDiag x ko ki so si ∘ flip4 n := by
  funext v
  revert v
  rw [forall_quad]
  obtain h := DECM.diag_eq (x ∘ flip4 n) ki ko si so
  obtain h' := DECM.diag_eq x ko ki so si
  refine ⟨fun i => ?_, fun i => ?_, fun i => ?_, fun i => ?_⟩
  · exact (h i).1.trans (h' i).2.1.symm
  · exact (h i).2.1.trans (h' i).1.symm
  · exact (h i).2.2.1
  · exact (h' i).2.2.1.symm

omit h in
/-- quasinewton from a guess that is zero where the incoming strength is zero runs as if the sign were right -/
theorem run_decm_even (hz : ∀ i, d.in_strength i = 0 → d.dseq_in i = 0) (o : Opts) (ho : o.method = "quasinewton") (x0 : Fin 4 × Fin n → ℝ)
    (hx : ∀ v, d.obs v = 0 → x0 v = 0) :
    solver { cbDECM e d .quasinewton with jacDiag := fun x v => -evenDiag x d.degOut d.degIn d.out_strength d.in_strength v } o x0 = solver (cbDECM e d .quasinewton) o x0 := by
  have hz' : ∀ i, d.in_strength i = 0 → d.degIn i = 0 := fun i hi => by simp [DData.degIn, hz i hi]
  refine solver_diag_on (cbDECM e d .quasinewton) _ (fun v => (v.1 = 1 ∨ v.1 = 3) ∧ d.in_strength v.2 = 0) o ho ?_ ?_ x0 ?_
  · rintro x hx ⟨b, i⟩ ⟨hb, hi⟩
    have x1 : x (1, i) = 0 := hx _ ⟨.inl rfl, hi⟩
    have x3 : x (3, i) = 0 := hx _ ⟨.inr rfl, hi⟩
    show -_ = _
    obtain ⟨-, h1, -, h3⟩ := DECM.prime_eq x d.degOut d.degIn d.out_strength d.in_strength i
    rcases hb with hb | hb <;> (simp only at hb; subst hb)
    · rw [h1, DECM.fa_in_eq]
      simp [x1, x3, DECM.P]
    · rw [h3, DECM.fb_in_prime_eq]
      simp [x1, x3, DECM.Q]
  · intro x hx
    funext v
    revert v
    rw [forall_quad]
    refine ⟨fun i => rfl, fun i => rfl, fun i => rfl, fun i => ?_⟩
    show -_ = -_
    by_cases hi : d.in_strength i = 0
    · have x1 : x (1, i) = 0 := hx _ ⟨.inl rfl, hi⟩
      have x3 : x (3, i) = 0 := hx _ ⟨.inr rfl, hi⟩
      rw [(DECM.diag_eq x d.degOut d.degIn d.out_strength d.in_strength i).2.2.2]
      simp [evenDiag, hi, x1, x3, DECM.QB]
    · rw [(DECM.diag_eq x d.degOut d.degIn d.out_strength d.in_strength i).2.2.2, if_neg hi]
      simp [evenDiag]
  · rintro ⟨b, i⟩ ⟨hb, hi⟩
    refine hx _ ?_
    rcases hb with hb | hb <;> (simp only at hb; subst hb)
    · exact hz' i hi
    · exact hi

theorem run_decm_reversed (he : e.Valid) (hout : ∀ (ι : Type) (τ : Equiv.Perm ι) x, e.outside ι (x ∘ τ) = e.outside ι x) (me : Method)
    (hq : me = .quasinewton → ∀ i, (d.out_strength i = 0 → d.dseq_out i = 0) ∧ (d.in_strength i = 0 → d.dseq_in i = 0)) (p : Params) (x0 : Fin 4 × Fin n → ℝ)
    (hx : ∀ v, d.obs v = 0 → x0 v = 0) :
    solver (cbDECM e d' me) (p.opts me.name) (x0 ∘ flip4 n) = (solver (cbDECM e d me) (p.opts me.name) x0).map (State.rename (flip4 n)) := by
  by_cases hm : me = .quasinewton
  · subst hm
    rw [← run_decm_even (d := d) (fun i => (hq rfl i).2) _ rfl x0 hx,
      ← run_decm_even (d := d') (fun i => by rw [h.in_strength, h.dseq_in]; exact (hq rfl i).1) _ rfl (x0 ∘ flip4 n) (fun v hv => hx _ (h.obs v ▸ hv))]
    refine solver_rename (reversed_decm h he hout .quasinewton rfl rfl fun x => ?_) _ _
    funext v
    show -_ = -_
    rw [h.degOut, h.degIn, h.out_strength, h.in_strength, evenDiag_flip]; rfl
  · have ho : (p.opts me.name).method ≠ "quasinewton" := by cases me <;> simp_all [Params.opts, Method.name]
    rw [← solver_diag (cbDECM e d' me) (fun _ _ => 0) _ ho, ← solver_diag (cbDECM e d me) (fun _ _ => 0) _ ho]
    exact solver_rename (reversed_decm h he hout me rfl rfl fun x => rfl) _ _

theorem reversed_decm_exp (hout : ∀ (ι : Type) (τ : Equiv.Perm ι) x, e.outside ι (x ∘ τ) = e.outside ι x) (me : Method) (hme : me ≠ .fixed_point) {C C' : Callbacks (Fin 4 × Fin n)}
    (hC : ({ cbDECMexp e d me with linsearchFixed := C.linsearchFixed } : Callbacks _) = C) (hC' : ({ cbDECMexp e d' me with linsearchFixed := C'.linsearchFixed } : Callbacks _) = C')
    (hq : ∀ x dx dx_old a b k, C'.linsearchFixed (x ∘ flip4 n) (dx ∘ flip4 n) (dx_old ∘ flip4 n) a b k = C.linsearchFixed x dx dx_old a b k) :
    Renamed (flip4 n) C C' where
  fn x := by
    rw [← hC, ← hC']
    cases me with
    | newton => funext v; show -_ = -_; rw [h.degOut, h.degIn, h.out_strength, h.in_strength, decm_prime_exp_flip]; rfl
    | quasinewton => funext v; show -_ = -_; rw [h.degOut, h.degIn, h.out_strength, h.in_strength, decm_prime_exp_flip]; rfl
    | fixed_point => exact absurd rfl hme
  jac x := by
    rw [← hC, ← hC']
    funext u v
    show -_ = -_
    rw [h.degOut, h.degIn, h.out_strength, h.in_strength, decm_hess_exp_flip]
  diag x := by
    rw [← hC, ← hC']
    funext v
    show -_ = -_
    rw [h.degOut, h.degIn, h.out_strength, h.in_strength, decm_diag_exp_flip]; rfl
  reg x ε := by rw [← hC, ← hC']; exact regulariser_rename _ _ _
  search x dx b a f := by
    rw [← hC, ← hC']
    refine linsearch_DECM_exp_flip (llF_rename e hout _ (fun x => ?_) fun x => ?_) x dx b a f
    · simp only [Function.comp, flip4_2, flip4_3]
      exact ⟨fun h i j hij => add_comm (x (3, j)) (x (2, i)) ▸ h j i hij.symm, fun h i j hij => add_comm (x (2, j)) (x (3, i)) ▸ h j i hij.symm⟩
    · rw [h.degOut, h.degIn, h.out_strength, h.in_strength, decm_ll_exp_flip]
  searchFixed x dx dx_old a b k := hq x dx dx_old a b k

theorem linsearch_DECM_exp_fixed_flip (x dx dx_old : Fin 4 × Fin n → ℝ) (a b : ℝ) (k : ℕ) :
    linsearch_fun_DECM_exp_fixed (x ∘ flip4 n) (dx ∘ flip4 n) (dx_old ∘ flip4 n) a b k = linsearch_fun_DECM_exp_fixed x dx dx_old a b k := by
  unfold linsearch_fun_DECM_exp_fixed
  simp only [normStage_comp]
  rw [untilLoop_congr fun a => ?_]
  rw [add_comm (minv (blk 2 (x ∘ flip4 n))), add_comm (minv (blk 2 (_ + _)))]
  rfl

theorem run_decm_exp_reversed (hout : ∀ (ι : Type) (τ : Equiv.Perm ι) x, e.outside ι (x ∘ τ) = e.outside ι x) (me : Method) (hme : me ≠ .fixed_point) (p : Params)
    (x0 : Fin 4 × Fin n → ℝ) :
    solver (cbDECMexp e d' me) (p.opts me.name) (x0 ∘ flip4 n) = (solver (cbDECMexp e d me) (p.opts me.name) x0).map (State.rename (flip4 n)) :=
  solver_rename (reversed_decm_exp h hout me hme rfl rfl fun x dx dx_old a b k => linsearch_DECM_exp_fixed_flip h x dx dx_old a b k) _ _

end callbacks

/-- the same guess with the two sides exchanged -/
def DGuess.reverse : DGuess n → DGuess n
  | .other => .other
  | .name s => .name s
  | .nodes v => .nodes v
  | .pairs v => .pairs (v ∘ flip2 n)
  | .quads v => .quads (v ∘ flip4 n)

/-- What "the answer with its sides exchanged" means: the outgoing parameters and expectations of `g'` are the incoming ones of `g` and conversely, and the numbers
that belong to no side (errors, trace, likelihood) are the same. -/
structure ReversedAnswer {d d' : DData n} (g : DAttr d) (g' : DAttr d') : Prop where
  x : g'.x = g.y
  y : g'.y = g.x
  b_out : g'.b_out = g.b_in
  b_in : g'.b_in = g.b_out
  expected_dseq : g'.expected_dseq = g.expected_dseq.map (fun f v => f (if v.1 = 0 then 1 else 0, v.2))
  expected_strength_seq : g'.expected_strength_seq = g.expected_strength_seq.map (fun f v => f (if v.1 = 0 then 1 else 0, v.2))
  expected_stregth_seq : g'.expected_stregth_seq = g.expected_stregth_seq.map (fun f v => f (if v.1 = 0 then 1 else 0, v.2))
  error_degree : g'.error_degree = g.error_degree
  relative_error_degree : g'.relative_error_degree = g.relative_error_degree
  error_strength : g'.error_strength = g.error_strength
  relative_error_strength : g'.relative_error_strength = g.relative_error_strength
  error : g'.error = g.error
  trace : g'.trace = g.trace
  trace_crema : g'.trace_crema = g.trace_crema
  loglikelihood : model_loglikelihood_directed g' = model_loglikelihood_directed g

section directed
variable [NeZero n] {d d' : DData n} (h : ReversedData d d')

theorem cat2_flip (x y : Fin n → ℝ) : cat2 y x = cat2 x y ∘ flip2 n := by
  funext v; revert v; rw [EM.forall_pair]; exact ⟨fun i => rfl, fun i => rfl⟩

theorem flip2_if {α : Type} (f : Fin 2 × Fin n → α) : (fun v : Fin 2 × Fin n => f (if v.1 = 0 then 1 else 0, v.2)) = f ∘ flip2 n := by
  funext v; revert v; rw [EM.forall_pair]; exact ⟨fun i => rfl, fun i => rfl⟩

include h

theorem finishDECM_reverse (isExp : Bool) (v : Fin 4 × Fin n → ℝ) : finishDECM d' isExp (v ∘ flip4 n) = finishDECM d isExp v ∘ flip4 n := by
  unfold finishDECM
  funext w
  cases isExp
  · simp only [Bool.false_eq_true, if_false, maskSet, h.obs, Function.comp_apply]
  · simp only [if_true, maskSet, h.obs, Function.comp_apply, negLogNonzero]

theorem guessDECM_reverse (e : Env) (isExp : Bool) (g : DGuess n) (hg : g ≠ .name "random") :
    (guessDECM e d' isExp g.reverse).1 = (guessDECM e d isExp g).1.map fun v => v ∘ flip4 n := by
  cases g with
  | other => rfl
  | nodes v => rfl
  | pairs v => rfl
  | quads v => simp only [DGuess.reverse, guessDECM, finishDECM_reverse h, Except.map]
  | name s =>
    have hr : s ≠ "random" := fun h => hg (h ▸ rfl)
    have hn : ∀ u, namedDECM e d' u s = (namedDECM e d u s).map (· ∘ flip4 n) := by
      intro u
      unfold namedDECM
      simp only [h.degOut, h.degIn, h.out_strength, h.in_strength, h.n_edges, if_neg hr]
      split_ifs
      · simp only [Option.map_some, Option.some.injEq]
        funext v; revert v; rw [forall_quad]
        exact ⟨fun i => rfl, fun i => rfl, fun i => rfl, fun i => rfl⟩
      · simp only [Option.map_some, Option.some.injEq]
        funext v; revert v; rw [forall_quad]
        exact ⟨fun i => rfl, fun i => rfl, fun i => rfl, fun i => rfl⟩
      all_goals rfl
    simp only [DGuess.reverse, guessDECM, hn]
    cases namedDECM e d (if isExp then 0.1 else 0.9) s with
    | none => rfl
    | some v => simp only [Option.map_some, finishDECM_reverse h]; rfl

theorem solutionErrorD_decm_reverse {G : DAttr d} {G' : DAttr d'} {x : Fin 4 × Fin n → ℝ}
    (hm : G.last_model = some "decm" ∨ G.last_model = some "decm_exp") (hm' : G'.last_model = G.last_model) (h1 : G.x = some (blk4 x 0)) (h2 : G.y = some (blk4 x 1))
    (h3 : G.b_out = some (blk4 x 2)) (h4 : G.b_in = some (blk4 x 3)) (hR : ReversedAnswer G G') :
    (solutionErrorD G').2 = (solutionErrorD G).2 ∧ ReversedAnswer (solutionErrorD G).1 (solutionErrorD G').1 := by
  have g1 : G'.x = some (blk4 (x ∘ flip4 n) 0) := by rw [hR.x, h2]; rfl
  have g2 : G'.y = some (blk4 (x ∘ flip4 n) 1) := by rw [hR.y, h1]; rfl
  have g3 : G'.b_out = some (blk4 (x ∘ flip4 n) 2) := by rw [hR.b_out, h4]; rfl
  have g4 : G'.b_in = some (blk4 (x ∘ flip4 n) 3) := by rw [hR.b_in, h3]; rfl
  rw [solutionErrorD_decm G x h1 h2 h3 h4 hm, solutionErrorD_decm G' _ g1 g2 g3 g4 (hm' ▸ hm), decm_expected_flip]
  generalize DECM.expected_decm x = E
  have c1 : (cat2 (fun i => (E ∘ flip4 n) (0, i)) fun i => (E ∘ flip4 n) (1, i)) = cat2 (fun i => E (0, i)) (fun i => E (1, i)) ∘ flip2 n := cat2_flip (fun i => E (0, i)) fun i => E (1, i)
  have c2 : (cat2 (fun i => (E ∘ flip4 n) (2, i)) fun i => (E ∘ flip4 n) (3, i)) = cat2 (fun i => E (2, i)) (fun i => E (3, i)) ∘ flip2 n := cat2_flip (fun i => E (2, i)) fun i => E (3, i)
  refine ⟨rfl, ?_⟩
  constructor
  · exact hR.x
  · exact hR.y
  · exact hR.b_out
  · exact hR.b_in
  · exact congrArg some (c1.trans (flip2_if _).symm)
  · exact congrArg some (c2.trans (flip2_if _).symm)
  · exact hR.expected_stregth_seq
  · simp only [h.degOut, h.degIn]
    exact congrArg some (max_comm _ _)
  · simp only [h.degOut, h.degIn, c1, cat2_flip d.degOut d.degIn]
    exact congrArg some (maxAbs_perm (fun v => (cat2 d.degOut d.degIn v - cat2 (fun i => E (0, i)) (fun i => E (1, i)) v) / (cat2 d.degOut d.degIn v + Real.exp (-100))) (flip2 n))
  · simp only [h.out_strength, h.in_strength]
    exact congrArg some (max_comm _ _)
  · simp only [h.out_strength, h.in_strength, c2, cat2_flip d.out_strength d.in_strength]
    exact congrArg some (maxAbs_perm (fun v => (cat2 d.out_strength d.in_strength v - cat2 (fun i => E (2, i)) (fun i => E (3, i)) v) / (cat2 d.out_strength d.in_strength v + Real.exp (-100))) (flip2 n))
  · simp only [h.obs]
    exact congrArg some (maxAbs_perm (fun v => E v - d.obs v) (flip4 n))
  · exact hR.trace
  · exact hR.trace_crema
  · exact hR.loglikelihood

/-- C73 (decm, decm_exp), for the calls the code treats symmetrically: reversing every arc - exchanging the two degree sequences, the two strength sequences and, when
the guess is an array, its blocks - exchanges the two sides of the answer and changes nothing else: same exception or success, same errors, trace and likelihood.
Every guess but the random one, with or without line search.  decm by quasinewton: for a network in which a node without strength has no links
(no cancelling weights).  Left out, because the property fails there: decm_exp by fixed point. -/
theorem C73_decm_reverse_partial {e : Env} (he : e.Valid) (hout : ∀ (ι : Type) (τ : Equiv.Perm ι) x, e.outside ι (x ∘ τ) = e.outside ι x)
    (mo : DModel) (hmo : mo = .decm ∨ mo = .decm_exp)
    (method : String) (hfix : ¬ (mo = .decm_exp ∧ method = "fixed-point"))
    (hquasi : mo = .decm → method = "quasinewton" → ∀ i, (d.out_strength i = 0 → d.dseq_out i = 0) ∧ (d.in_strength i = 0 → d.dseq_in i = 0))
    (guess : DGuess n) (hg : guess ≠ .name "random") (adj : AdjSpec n) (ma : String) (ga : DGuess n) (p : Params) :
    let R := solve_tool_directed e ({} : DAttr d) mo.name method guess adj ma ga p
    let R' := solve_tool_directed e ({} : DAttr d') mo.name method guess.reverse adj ma ga p
    R'.exc = R.exc ∧ ReversedAnswer R.g R'.g := by
  have hR : ∀ {d : DData n} (g : DAttr d) guess, solve_tool_directed e g mo.name method guess adj ma ga p = match (solveProblemD e g mo.name method guess p) with
      | (g', some x, gu) => ⟨g', some x, gu, ga⟩
      | (g', none, gu) => ⟨(solutionErrorD g').1, (solutionErrorD g').2, gu, ga⟩ := by
    intro d g guess
    unfold solve_tool_directed
    rw [if_pos (by rcases hmo with rfl | rfl <;> simp [DModel.name])]
    obtain ⟨a, b, c⟩ := solveProblemD e g mo.name method guess p
    cases b <;> rfl
  intro R R'
  have h1 : R = _ := hR _ guess
  have h2 : R' = _ := hR _ _
  have hm1 : ¬ (mo.name = "dcm" ∨ mo.name = "dcm_exp") := by rcases hmo with rfl | rfl <;> decide
  have hm2 : mo.name = "decm" ∨ mo.name = "decm_exp" := by rcases hmo with rfl | rfl <;> decide
  unfold solveProblemD at h1 h2
  rw [if_neg hm1, if_pos hm2] at h1 h2
  have hgr := guessDECM_reverse h e (decide (mo.name = "decm_exp")) guess hg
  rcases hG : guessDECM e d (decide (mo.name = "decm_exp")) guess with ⟨er | x, gu⟩
  · rcases hG' : guessDECM e d' (decide (mo.name = "decm_exp")) guess.reverse with ⟨a, gu'⟩
    rw [hG, hG'] at hgr
    obtain rfl : a = _ := hgr
    rw [hG] at h1
    rw [hG'] at h2
    rw [h1, h2]
    exact ⟨rfl, ⟨rfl, rfl, rfl, rfl, rfl, rfl, rfl, rfl, rfl, rfl, rfl, rfl, rfl, rfl, rfl⟩⟩
  · rcases hG' : guessDECM e d' (decide (mo.name = "decm_exp")) guess.reverse with ⟨a, gu'⟩
    rw [hG, hG'] at hgr
    obtain rfl : a = _ := hgr
    rw [hG] at h1
    rw [hG'] at h2
    cases hl : dLookup mo.name method with
    | none =>
      simp only [hl, Except.map] at h1 h2
      rw [h1, h2]
      exact ⟨rfl, ⟨rfl, rfl, rfl, rfl, rfl, rfl, rfl, rfl, rfl, rfl, rfl, rfl, rfl, rfl, rfl⟩⟩
    | some v =>
      simp only [hl, Except.map] at h1 h2
      have hme : method = v.2.name := by
        exact name_of_dLookup (mo' := v.1) (me := v.2) hl (by rcases hmo with rfl | rfl <;> decide)
      have hren : solver (if mo.name = "decm_exp" then cbDECMexp e d' v.2 else cbDECM e d' v.2) (p.opts method) (x ∘ flip4 n) =
          (solver (if mo.name = "decm_exp" then cbDECMexp e d v.2 else cbDECM e d v.2) (p.opts method) x).map (State.rename (flip4 n)) := by
        rw [hme]
        have hx0 : mo = .decm → ∀ v, d.obs v = 0 → x v = 0 := by
          rintro rfl v hv
          have hfin : ∃ u, x = finishDECM d false u := by
            cases guess with
            | other => simp [guessDECM] at hG
            | nodes v => simp [guessDECM] at hG
            | pairs v => simp [guessDECM] at hG
            | quads u => exact ⟨u, (Except.ok.inj (Prod.mk.inj hG).1).symm⟩
            | name s =>
              simp only [guessDECM] at hG
              cases hN : namedDECM e d (if decide (DModel.decm.name = "decm_exp") then 0.1 else 0.9) s with
              | none => rw [hN] at hG; simp at hG
              | some u => rw [hN] at hG; exact ⟨u, (Except.ok.inj (Prod.mk.inj hG).1).symm⟩
          obtain ⟨u, rfl⟩ := hfin
          simp [finishDECM, maskSet, hv]
        rcases hmo with rfl | rfl
        · exact run_decm_reversed h he hout v.2 (fun hv => hquasi rfl (by rw [hme, hv]; rfl)) p x (hx0 rfl)
        · exact run_decm_exp_reversed h hout v.2 (fun hv => hfix ⟨rfl, by rw [hme, hv]; rfl⟩) p x
      rw [hren] at h2
      cases hS : solver (if mo.name = "decm_exp" then cbDECMexp e d v.2 else cbDECM e d v.2) (p.opts method) x with
      | error er =>
        rw [hS] at h1 h2
        simp only [Except.map] at h1 h2
        rw [h1, h2]
        refine ⟨rfl, ⟨rfl, rfl, rfl, rfl, rfl, rfl, rfl, rfl, rfl, rfl, rfl, rfl, rfl, rfl, ?_⟩⟩
        unfold model_loglikelihood_directed
        cases v.1 <;> rfl
      | ok st =>
        rw [hS] at h1 h2
        simp only [Except.map] at h1 h2
        rw [h1, h2]
        have hb : ∀ b, (if decide (mo.name = "decm_exp") then fun i => Real.exp (-st.x (b, i)) else fun i => st.x (b, i)) =
            blk4 (if decide (mo.name = "decm_exp") then fun v => Real.exp (-st.x v) else st.x) b := by
          intro b; split_ifs <;> rfl
        refine solutionErrorD_decm_reverse h (x := if decide (mo.name = "decm_exp") then fun v => Real.exp (-st.x v) else st.x) ?_ rfl
          (congrArg some (hb 0)) (congrArg some (hb 1)) (congrArg some (hb 2)) (congrArg some (hb 3)) ?_
        · exact hm2.imp (congrArg some) (congrArg some)
        · refine ⟨?_, ?_, ?_, ?_, rfl, rfl, rfl, rfl, rfl, rfl, rfl, rfl, ?_, rfl, ?_⟩
          · simp only [setSolvedDECM]; split_ifs <;> rfl
          · simp only [setSolvedDECM]; split_ifs <;> rfl
          · simp only [setSolvedDECM]; split_ifs <;> rfl
          · simp only [setSolvedDECM]; split_ifs <;> rfl
          · simp only [setSolvedDECM]; rfl
          · unfold model_loglikelihood_directed
            have hx' : (if decide (mo.name = "decm_exp") then fun v => Real.exp (-(State.rename (flip4 n) st).x v) else (State.rename (flip4 n) st).x) =
              (if decide (mo.name = "decm_exp") then fun v => Real.exp (-st.x v) else st.x) ∘ flip4 n := by split_ifs <;> rfl
            simp only [setSolvedDECM, hx']
            cases v.1
            · rfl
            · rfl
            · simp only [h.degOut, h.degIn, h.out_strength, h.in_strength, decm_ll_flip]
            · simp only [h.degOut, h.degIn, h.out_strength, h.in_strength, decm_ll_exp_flip]
            · rfl
            · rfl

omit h in
/-- A network whose incoming sequences equal its outgoing ones gets equal outgoing and incoming parameters, from any guess that does not itself tell the sides apart. -/
theorem C73_decm_symmetric_partial {e : Env} (he : e.Valid) (hout : ∀ (ι : Type) (τ : Equiv.Perm ι) x, e.outside ι (x ∘ τ) = e.outside ι x)
    (hd : d.dseq_in = d.dseq_out) (hs : d.in_strength = d.out_strength)
    (mo : DModel) (hmo : mo = .decm ∨ mo = .decm_exp) (method : String) (hfix : ¬ (mo = .decm_exp ∧ method = "fixed-point"))
    (hquasi : mo = .decm → method = "quasinewton" → ∀ i, d.out_strength i = 0 → d.dseq_out i = 0)
    (guess : DGuess n) (hg : guess ≠ .name "random") (hgs : ∀ v, guess = .quads v → ∀ i, v (0, i) = v (1, i) ∧ v (2, i) = v (3, i))
    (hgp : ∀ v, guess = .pairs v → ∀ i, v (0, i) = v (1, i)) (adj : AdjSpec n) (ma : String) (ga : DGuess n) (p : Params) :
    let R := solve_tool_directed e ({} : DAttr d) mo.name method guess adj ma ga p
    R.g.x = R.g.y ∧ R.g.b_out = R.g.b_in := by
  have hrev : ReversedData d d := ⟨hd.symm, hd, hs.symm, hs, rfl, by rw [hd]⟩
  have hguess : guess.reverse = guess := by
    cases guess with
    | other => rfl
    | name s => rfl
    | nodes v => rfl
    | pairs v =>
      refine congrArg DGuess.pairs ?_
      funext w; revert w; rw [EM.forall_pair]
      exact ⟨fun i => (hgp v rfl i).symm, fun i => hgp v rfl i⟩
    | quads v =>
      have := hgs v rfl
      refine congrArg DGuess.quads ?_
      funext w; revert w; rw [forall_quad]
      exact ⟨fun i => (this i).1.symm, fun i => (this i).1, fun i => (this i).2.symm, fun i => (this i).2⟩
  intro R
  have := C73_decm_reverse_partial hrev he hout mo hmo method hfix (fun h1 h2 i => ⟨hquasi h1 h2 i, by rw [hs, hd]; exact hquasi h1 h2 i⟩) guess hg adj ma ga p
  rw [hguess] at this
  exact ⟨this.2.x, this.2.b_out⟩

end directed

section failure

/-- one step of fixed point without line search -/
theorem fixed_one {ι : Type} [Fintype ι] [DecidableEq ι] [Nonempty ι] (C : Callbacks ι) (o : Opts) (ho : o.method = "fixed-point") (hl : o.linsearch = false)
    (hm : o.max_steps = 1) (ht : o.tol < 0) (he : o.eps < 0) (x0 : ι → ℝ) : ∃ s, solver C o x0 = .ok s ∧ s.x = C.fn x0 := by
  have hn : 0 ≤ norm2 (C.fn x0) := Real.sqrt_nonneg _
  have hcond : (initState C x0).norm > o.tol ∧ (initState C x0).diff > o.eps := ⟨lt_of_lt_of_le ht hn, lt_trans he one_pos⟩
  have hd : direction C o x0 (C.fn x0) = .ok (C.fn x0 - x0) := by
    unfold direction
    rw [if_neg (by rw [ho]; decide), if_neg (by rw [ho]; decide), if_pos ho]
  have hs : ∀ s dx, stepLength C o s dx = .ok 1 := by
    intro s dx
    unfold stepLength
    simp [hl]
  unfold solver
  rw [hm]
  unfold loop
  rw [if_pos hcond]
  unfold step
  have hd' : direction C o (initState C x0).x (initState C x0).f = .ok (C.fn x0 - x0) := hd
  rw [hd']
  simp only [hs]
  refine ⟨_, rfl, ?_⟩
  funext v
  simp [initState]

/-- two nodes joined by two arcs of weight one -/
def twoWay : DData 2 := ⟨fun _ => 1, fun _ => 1, fun _ => 1, fun _ => 1, true⟩

theorem twoWay_reversed : ReversedData twoWay twoWay := ⟨rfl, rfl, rfl, rfl, rfl, rfl⟩

/-- C73 fails for decm_exp by fixed point: the incoming degree update multiplies by the incoming parameter of the other node where the outgoing one belongs
(models_functions.py), so the two sides are not treated alike.  Two nodes joined by two arcs, one step. -/
theorem C73_decm_exp_fixed_point_fails (e : Env) : ∃ (guess : DGuess 2) (p : Params),
    let R := solve_tool_directed e ({} : DAttr twoWay) "decm_exp" "fixed-point" guess .other "" .other p
    let R' := solve_tool_directed e ({} : DAttr twoWay) "decm_exp" "fixed-point" guess.reverse .other "" .other p
    ReversedData twoWay twoWay ∧ R.exc = none ∧ R'.exc = none ∧ R'.g.x ≠ R.g.y := by
  let v : Fin 4 × Fin 2 → ℝ := fun w => if w.1 = 1 then 1 / 3 else 1 / 2
  let p : Params := { tol := -1, eps := -1, max_steps := 1, linsearch := false }
  refine ⟨.quads v, p, ?_⟩
  have hrun : ∀ u : Fin 4 × Fin 2 → ℝ, (∀ w, 0 < u w) →
      let R := solve_tool_directed e ({} : DAttr twoWay) "decm_exp" "fixed-point" (.quads u) .other "" .other p
      R.exc = none ∧ ∃ θ : Fin 4 × Fin 2 → ℝ, (∀ w, Real.exp (-θ w) = u w) ∧
        R.g.x = some (fun i => Real.exp (-DECM.iterative_decm_exp θ twoWay.degOut twoWay.degIn twoWay.out_strength twoWay.in_strength (0, i))) ∧
        R.g.y = some (fun i => Real.exp (-DECM.iterative_decm_exp θ twoWay.degOut twoWay.degIn twoWay.out_strength twoWay.in_strength (1, i))) := by
    intro u hu
    have hobs : ∀ w, twoWay.obs w ≠ 0 := by
      rw [forall_quad]
      refine ⟨fun i => ?_, fun i => ?_, fun i => ?_, fun i => ?_⟩ <;> simp [DData.obs, DData.degOut, DData.degIn, twoWay]
    have he := solve_tool_decm_exp e ({} : DAttr twoWay) .fixed_point (.quads u) .other "" .other p rfl
    obtain ⟨s, hs, hsx⟩ := fixed_one (cbDECMexp e twoWay .fixed_point) (p.opts Method.fixed_point.name) rfl rfl rfl (by norm_num [p, Params.opts]) (by norm_num [p, Params.opts])
      (finishDECM twoWay true u)
    rw [hs] at he
    dsimp only at he
    intro R
    have hR : R = _ := he
    rw [hR]
    let G := setSolvedDECM (preDECM ({} : DAttr twoWay) .decm_exp (finishDECM twoWay true u) p) true s
    have hse := solutionErrorD_decm G (fun w => Real.exp (-s.x w)) rfl rfl rfl rfl (.inr rfl)
    rw [show solutionErrorD (setSolvedDECM (preDECM ({} : DAttr twoWay) .decm_exp (finishDECM twoWay true u) p) true s) = _ from hse]
    refine ⟨rfl, finishDECM twoWay true u, fun w => ?_, ?_, ?_⟩
    · simp [finishDECM, maskSet, negLogNonzero, hobs w, (hu w).ne', Real.exp_log (hu w)]
    · refine congrArg some ?_
      funext i
      show Real.exp (-s.x (0, i)) = _
      rw [hsx]
      rfl
    · refine congrArg some ?_
      funext i
      show Real.exp (-s.x (1, i)) = _
      rw [hsx]
      rfl
  have hv : ∀ w, 0 < v w := fun w => by simp only [v]; split_ifs <;> norm_num
  obtain ⟨h1, θ, hθ, -, hy⟩ := hrun v hv
  obtain ⟨h2, θ', hθ', hx, -⟩ := hrun (v ∘ flip4 2) fun w => hv _
  refine ⟨twoWay_reversed, h1, h2, ?_⟩
  show (solve_tool_directed e ({} : DAttr twoWay) "decm_exp" "fixed-point" (.quads (v ∘ flip4 2)) .other "" .other p).g.x ≠ _
  rw [hx, hy]
  intro hc
  have hc := congrFun (Option.some.inj hc) 0
  rw [Real.exp_injective.eq_iff, neg_inj, (decm_iter_exp_eq _ _ _ _ θ' 0).1, (decm_iter_exp_eq _ _ _ _ θ 0).2.1] at hc
  have e1 : DECM.ex θ = v := funext hθ
  have e2 : DECM.ex θ' = v ∘ flip4 2 := funext hθ'
  rw [e1, e2] at hc
  have k0 : twoWay.degOut 0 = 1 := by simp [DData.degOut, twoWay]
  have k1 : twoWay.degIn 0 = 1 := by simp [DData.degIn, twoWay]
  rw [k0, k1] at hc
  simp [Fin.sum_univ_two, DECM.X, DECM.Y, v] at hc
  have := Real.log_injOn_pos (Set.mem_Ioi.2 (by norm_num)) (Set.mem_Ioi.2 (by norm_num)) hc
  norm_num at this

end failure

end

end Verif.Solve
