import Verif.Lemmas.SolveDTool

/-! C36: which equations `DirectedGraph.solve_tool` solves. -/

namespace Verif.Solve

open Verif Finset Reduction Solver Spec

open Classical in
attribute [local instance 0] propDecidable

variable {n : ℕ} [NeZero n] {d : DData n}

/-! ### the tables -/

/-- reduced parameters of the DBCM: positive for the classes of non-zero degree -/
def AdmDCM (d : DData n) (r : Fin 2 × Fin d.r → ℝ) : Prop := (∀ q, d.ko q ≠ 0 → 0 < r (0, q)) ∧ ∀ q, d.ki q ≠ 0 → 0 < r (1, q)

theorem dcm_deriv (d : DData n) (r : Fin 2 × Fin d.r → ℝ) (hr : AdmDCM d r) (v : Fin 2 × Fin d.r) :
    HasDerivAt (fun t => LDCM d (Function.update r v t)) (DCM.loglikelihood_prime_dcm r d.ko d.ki (DCM.nonzero d.ko) (DCM.nonzero d.ki) d.c v) (r v) := by
  have := DCM.C06_dcm_gradient r d.ko d.ki (DCM.nonzero d.ko) (DCM.nonzero d.ki) d.c (DCM.nodup_nonzero _) (DCM.nodup_nonzero _)
    (fun i hi => hr.1 i ((DCM.mem_nonzero _ _).1 hi)) (fun i hi => hr.2 i ((DCM.mem_nonzero _ _).1 hi)) v
  simpa only [ll_dcm_red_spec] using this

theorem cbDCM_gradient (e : Env) (d : DData n) {me : Method} (hme : me ≠ .fixed_point) : MinusGradient (AdmDCM d) (LDCM d) (cbDCM e d me).fn := by
  intro r hr q
  have := dcm_deriv d r hr q
  cases me <;> simp_all [cbDCM]

theorem cbDCM_jac (e : Env) (d : DData n) : IsJacobian (AdmDCM d) (cbDCM e d .newton).fn (cbDCM e d .newton).jac := by
  intro r hr i j
  exact (DCM.C07_dcm_hessian r d.ko d.ki (DCM.nonzero d.ko) (DCM.nonzero d.ki) d.c (DCM.nodup_nonzero _) (DCM.nodup_nonzero _)
    (fun i hi => hr.1 i ((DCM.mem_nonzero _ _).1 hi)) (fun i hi => hr.2 i ((DCM.mem_nonzero _ _).1 hi)) i j).neg

/-- the diagonal used by "quasinewton" for dcm is right when all pairs of degrees are different -/
theorem cbDCM_jacDiag (e : Env) (d : DData n) (hd : ∀ i j, d.dseq_out i = d.dseq_out j → d.dseq_in i = d.dseq_in j → i = j) :
    IsJacobianDiag (AdmDCM d) (cbDCM e d .quasinewton).fn (cbDCM e d .quasinewton).jacDiag := by
  intro r hr i
  have hc : ∀ q, d.c q = 1 := fun q => by
    have hp := r_multiplicity_pos d.seq q
    have : r_multiplicity d.seq q ≤ 1 := by
      unfold r_multiplicity
      rw [card_le_one]
      intro a ha b hb
      simp only [mem_filter, mem_univ, true_and] at ha hb
      have hab := ha.trans hb.symm
      simp only [DData.seq] at hab
      have := Prod.ext_iff.1 (toLex_inj.1 hab)
      exact hd a b this.1 this.2
    have : r_multiplicity d.seq q = 1 := by omega
    simp [DData.c, this]
  exact (DCM.C08_dcm_hessian_diag_partial r d.ko d.ki (DCM.nonzero d.ko) (DCM.nonzero d.ki) d.c hc (DCM.nodup_nonzero _) (DCM.nodup_nonzero _)
    (fun i hi => hr.1 i ((DCM.mem_nonzero _ _).1 hi)) (fun i hi => hr.2 i ((DCM.mem_nonzero _ _).1 hi)) i).neg

theorem cbDCMexp_gradient (e : Env) (d : DData n) {me : Method} (hme : me ≠ .fixed_point) :
    MinusGradient (fun _ => True) (fun θ => LDCM d fun v => Real.exp (-θ v)) (cbDCMexp e d me).fn := by
  intro r _ q
  have := DCM.C06_dcm_exp_gradient r d.ko d.ki (DCM.nonzero d.ko) (DCM.nonzero d.ki) d.c (DCM.nodup_nonzero _) (DCM.nodup_nonzero _) q
  simp only [ll_dcm_exp_red_spec] at this
  cases me <;> simp_all [cbDCMexp]

theorem cbDCMexp_jac (e : Env) (d : DData n) : IsJacobian (fun _ => True) (cbDCMexp e d .newton).fn (cbDCMexp e d .newton).jac := by
  intro r _ i j
  exact (DCM.C07_dcm_exp_hessian r d.ko d.ki (DCM.nonzero d.ko) (DCM.nonzero d.ki) d.c (DCM.nodup_nonzero _) (DCM.nodup_nonzero _) i j).neg

theorem cbDCMexp_jacDiag (e : Env) (d : DData n) : IsJacobianDiag (fun _ => True) (cbDCMexp e d .quasinewton).fn (cbDCMexp e d .quasinewton).jacDiag := by
  intro r _ i
  exact (DCM.C08_dcm_exp_hessian_diag r d.ko d.ki (DCM.nonzero d.ko) (DCM.nonzero d.ki) d.c (DCM.nodup_nonzero _) (DCM.nodup_nonzero _) i).neg

/-- every node has another node it can send a link to and another one it can receive a link from -/
def DData.Linked (d : DData n) : Prop := ∀ i, (∃ j, j ≠ i ∧ d.dseq_in j ≠ 0) ∧ ∃ j, j ≠ i ∧ d.dseq_out j ≠ 0

theorem DData.class_of (d : DData n) (i : Fin n) : d.ko (d.inv i) = d.degOut i ∧ d.ki (d.inv i) = d.degIn i :=
  ⟨DCM.rnz_out_invert d.seq i, DCM.rnz_in_invert d.seq i⟩

theorem DData.inv_surj (d : DData n) (q : Fin d.r) : ∃ i, d.inv i = q := by
  obtain ⟨i, hi⟩ := d.exists_class q
  refine ⟨i, ?_⟩
  have : r_dseq d.seq (d.inv i) = r_dseq d.seq q := by rw [← hi]; exact r_dseq_invert d.seq i
  exact (r_dseq_strictMono d.seq).injective this

theorem DData.one_le_c (d : DData n) (q : Fin d.r) : 1 ≤ d.c q := by
  have := r_multiplicity_pos d.seq q
  simp only [DData.c]; exact_mod_cast this

/-- two nodes of the same class -/
theorem DData.two_le_c (d : DData n) {i j : Fin n} (hij : j ≠ i) (h : d.inv j = d.inv i) : 2 ≤ d.c (d.inv i) := by
  have : 1 < r_multiplicity d.seq (d.inv i) := by
    unfold r_multiplicity
    rw [one_lt_card]
    refine ⟨j, ?_, i, ?_, hij⟩
    · simp only [mem_filter, mem_univ, true_and]; rw [← h]; exact (r_dseq_invert d.seq j).symm
    · simp only [mem_filter, mem_univ, true_and]; exact (r_dseq_invert d.seq i).symm
  simp only [DData.c]; exact_mod_cast this

theorem den_pos (d : DData n) (hl : d.Linked) (x : Fin 2 × Fin d.r → ℝ) (hx : ∀ v, 0 ≤ x v) (ha : AdmDCM d x) (v : Fin 2 × Fin d.r) :
    0 < DCM.iterative_den x d.c v := by
  obtain ⟨b, q⟩ := v
  obtain ⟨i, rfl⟩ := d.inv_surj q
  have key : ∀ (z : Fin d.r → ℝ) (w : Fin d.r → ℝ) (hz : ∀ p, 0 ≤ z p) (hw : ∀ p, 0 < w p) (j : Fin n), j ≠ i → 0 < z (d.inv j) →
      0 < ∑ p, (if d.inv i = p then d.c p - 1 else d.c p) * z p / w p := by
    intro z w hz hw j hj hzj
    have hcoef : ∀ p, 0 ≤ (if d.inv i = p then d.c p - 1 else d.c p) := fun p => by
      have := d.one_le_c p
      split <;> linarith
    refine lt_of_lt_of_le ?_ (single_le_sum (f := fun p => (if d.inv i = p then d.c p - 1 else d.c p) * z p / w p)
      (fun p _ => div_nonneg (mul_nonneg (hcoef p) (hz p)) (hw p).le) (mem_univ (d.inv j)))
    refine div_pos (mul_pos ?_ hzj) (hw _)
    split
    · rename_i h
      have := d.two_le_c hj h.symm
      rw [h] at this
      linarith
    · have := d.one_le_c (d.inv j); linarith
  fin_cases b
  · change 0 < DCM.iterative_den x d.c (0, d.inv i)
    rw [DCM.den_eq0]
    obtain ⟨⟨j, hj, hj0⟩, -⟩ := hl i
    refine key (fun p => x (1, p)) (fun p => 1 + x (0, d.inv i) * x (1, p)) (fun p => hx _)
      (fun p => by have := mul_nonneg (hx (0, d.inv i)) (hx (1, p)); linarith) j hj (ha.2 _ ?_)
    rw [(d.class_of j).2]
    simp only [DData.degIn]; exact_mod_cast hj0
  · change 0 < DCM.iterative_den x d.c (1, d.inv i)
    rw [DCM.den_eq1]
    obtain ⟨-, ⟨j, hj, hj0⟩⟩ := hl i
    refine key (fun p => x (0, p)) (fun p => 1 + x (0, p) * x (1, d.inv i)) (fun p => hx _)
      (fun p => by have := mul_nonneg (hx (0, p)) (hx (1, d.inv i)); linarith) j hj (ha.1 _ ?_)
    rw [(d.class_of j).1]
    simp only [DData.degOut]; exact_mod_cast hj0

/-- reduced parameters of the DBCM, zero for the classes of zero degree -/
def AdmDCM0 (d : DData n) (r : Fin 2 × Fin d.r → ℝ) : Prop := AdmDCM d r ∧ (∀ q, d.ko q = 0 → r (0, q) = 0) ∧ ∀ q, d.ki q = 0 → r (1, q) = 0

theorem AdmDCM0.nonneg {r : Fin 2 × Fin d.r → ℝ} (h : AdmDCM0 d r) (v : Fin 2 × Fin d.r) : 0 ≤ r v := by
  obtain ⟨b, q⟩ := v
  fin_cases b
  · by_cases hq : d.ko q = 0
    · exact (h.2.1 q hq).ge
    · exact (h.1.1 q hq).le
  · by_cases hq : d.ki q = 0
    · exact (h.2.2 q hq).ge
    · exact (h.1.2 q hq).le

theorem cbDCM_fixed (e : Env) (d : DData n) (hl : d.Linked) : FixedAreStationary (AdmDCM0 d) (LDCM d) (cbDCM e d .fixed_point).fn := by
  intro r hr
  have h0 : ∀ q, r (0, q) = 0 ↔ d.ko q = 0 := fun q => ⟨fun h => by by_contra hc; exact (hr.1.1 q hc).ne' h, hr.2.1 q⟩
  have h1 : ∀ q, r (1, q) = 0 ↔ d.ki q = 0 := fun q => ⟨fun h => by by_contra hc; exact (hr.1.2 q hc).ne' h, hr.2.2 q⟩
  rw [show (∀ q, (cbDCM e d .fixed_point).fn r q = r q) ↔ _ from DCM.C12_dcm_fixed_point_iff r d.ko d.ki d.c h0 h1
    (fun q => by have := d.one_le_c q; linarith) (fun v => (den_pos d hl r hr.nonneg hr.1 v).ne')]
  exact forall_congr' fun v => (zero_deriv_iff (dcm_deriv d r hr.1 v)).symm

theorem cbDCMexp_fixed (e : Env) (d : DData n) (h2 : 2 ≤ n) (ho : ∀ i, d.dseq_out i ≠ 0) (hi : ∀ i, d.dseq_in i ≠ 0) :
    FixedAreStationary (fun _ => True) (fun θ => LDCM d fun v => Real.exp (-θ v)) (cbDCMexp e d .fixed_point).fn := by
  intro θ _
  have hl : d.Linked := fun i => by
    have : Nontrivial (Fin n) := Fin.nontrivial_iff_two_le.2 h2
    obtain ⟨j, hj⟩ := exists_ne i
    exact ⟨⟨j, hj, hi j⟩, ⟨j, hj, ho j⟩⟩
  have hko : ∀ q, 0 < d.ko q := fun q => by
    obtain ⟨i, rfl⟩ := d.inv_surj q
    rw [(d.class_of i).1]; simp only [DData.degOut]; exact_mod_cast Nat.pos_of_ne_zero (ho i)
  have hki : ∀ q, 0 < d.ki q := fun q => by
    obtain ⟨i, rfl⟩ := d.inv_surj q
    rw [(d.class_of i).2]; simp only [DData.degIn]; exact_mod_cast Nat.pos_of_ne_zero (hi i)
  set x : Fin 2 × Fin d.r → ℝ := fun v => Real.exp (-θ v) with hx
  have hxp : ∀ v, 0 < x v := fun v => Real.exp_pos _
  have ha : AdmDCM d x := ⟨fun q _ => hxp _, fun q _ => hxp _⟩
  have hden := den_pos d hl x (fun v => (hxp v).le) ha
  have hconj : ∀ v, (cbDCMexp e d .fixed_point).fn θ v = θ v ↔
      DCM.iterative_dcm x d.ko d.ki (DCM.nonzero d.ko) (DCM.nonzero d.ki) d.c v = x v := fun v => by
    have hk : 0 < DCM.concat d.ko d.ki v := by
      unfold DCM.concat; split
      · exact hko _
      · exact hki _
    have := DCM.C12_dcm_exp_conjugate θ d.ko d.ki d.c (DCM.nonzero d.ko) (DCM.nonzero d.ki) v hk (hden v)
    simp only [cbDCMexp]
    rw [← this, hx]
    simp only [Real.exp_eq_exp, neg_inj]
  simp only [hconj]
  rw [DCM.C12_dcm_fixed_point_iff x d.ko d.ki d.c (fun q => ⟨fun h => absurd h (hxp _).ne', fun h => absurd h (hko _).ne'⟩)
    (fun q => ⟨fun h => absurd h (hxp _).ne', fun h => absurd h (hki _).ne'⟩) (fun q => by have := d.one_le_c q; linarith) (fun v => (hden v).ne')]
  refine forall_congr' fun v => ?_
  have hg := DCM.C06_dcm_exp_gradient θ d.ko d.ki (DCM.nonzero d.ko) (DCM.nonzero d.ki) d.c (DCM.nodup_nonzero _) (DCM.nodup_nonzero _) v
  simp only [ll_dcm_exp_red_spec] at hg
  rw [zero_deriv_iff hg, DCM.C09_dcm_gradients _ _ _ _ _ _ (DCM.nodup_nonzero _) (DCM.nodup_nonzero _) v]
  have : -Real.exp (-θ v) ≠ 0 := neg_ne_zero.2 (Real.exp_pos _).ne'
  constructor
  · intro h; rw [show (fun v => Real.exp (-θ v)) = x from rfl, h, mul_zero]
  · intro h; exact (mul_eq_zero.1 h).resolve_left this

theorem decm_deriv (d : DData n) (v : Fin 4 × Fin n → ℝ) (hv : AdmDECM v) (q : Fin 4 × Fin n) :
    HasDerivAt (fun t => LDECM d (Function.update v q t)) (DECM.loglikelihood_prime_decm v d.degOut d.degIn d.out_strength d.in_strength q) (v q) := by
  have := DECM.C06_decm_gradient v d.degOut d.degIn d.out_strength d.in_strength hv q
  simpa only [ll_decm_spec] using this

theorem cbDECM_gradient (e : Env) (d : DData n) {me : Method} (hme : me ≠ .fixed_point) : MinusGradient AdmDECM (LDECM d) (cbDECM e d me).fn := by
  intro r hr q
  have := decm_deriv d r hr q
  cases me <;> simp_all [cbDECM]

theorem cbDECM_jac (e : Env) (d : DData n) : IsJacobian AdmDECM (cbDECM e d .newton).fn (cbDECM e d .newton).jac := by
  intro r hr i j
  exact (DECM.C07_decm_hessian r d.degOut d.degIn d.out_strength d.in_strength hr i j).neg

theorem cbDECM_jacDiag (e : Env) (d : DData n) (hs : ∀ i, d.in_strength i ≠ 0) :
    IsJacobianDiag AdmDECM (cbDECM e d .quasinewton).fn (cbDECM e d .quasinewton).jacDiag := by
  intro r hr i
  exact ((DECM.C08_decm_hessian_diag_partial r d.degOut d.degIn d.out_strength d.in_strength i (fun _ => hs _)).2 hr).neg

theorem cbDECM_fixed (e : Env) (d : DData n) (hs : ∀ v, d.obs v ≠ 0) : FixedAreStationary AdmDECM (LDECM d) (cbDECM e d .fixed_point).fn := by
  intro r hr
  rw [show (∀ q, (cbDECM e d .fixed_point).fn r q = r q) ↔ _ from DECM.C12_decm_fixed_point_iff r d.degOut d.degIn d.out_strength d.in_strength
    (fun v => (hr.1 v).ne') hs]
  exact forall_congr' fun v => (zero_deriv_iff (decm_deriv d r hr v)).symm

theorem decm_exp_deriv (d : DData n) (θ : Fin 4 × Fin n → ℝ) (hv : AdmDECMexp θ) (q : Fin 4 × Fin n) :
    HasDerivAt (fun t => LDECM d fun v => Real.exp (-Function.update θ q t v))
      (DECM.loglikelihood_prime_decm_exp θ d.degOut d.degIn d.out_strength d.in_strength q) (θ q) := by
  refine (DECM.C06_decm_exp_gradient θ d.degOut d.degIn d.out_strength d.in_strength hv q).congr_of_eventuallyEq ?_
  filter_upwards [DECM.adm_open θ hv q] with t ht
  exact (ll_decm_exp_spec d _ ht).symm

theorem cbDECMexp_gradient (e : Env) (d : DData n) {me : Method} (hme : me ≠ .fixed_point) :
    MinusGradient AdmDECMexp (fun θ => LDECM d fun v => Real.exp (-θ v)) (cbDECMexp e d me).fn := by
  intro r hr q
  have := decm_exp_deriv d r hr q
  cases me <;> simp_all [cbDECMexp]

theorem cbDECMexp_jac (e : Env) (d : DData n) : IsJacobian AdmDECMexp (cbDECMexp e d .newton).fn (cbDECMexp e d .newton).jac := by
  intro r hr i j
  exact (DECM.C07_decm_exp_hessian r d.degOut d.degIn d.out_strength d.in_strength hr i j).neg

theorem cbDECMexp_jacDiag (e : Env) (d : DData n) : IsJacobianDiag AdmDECMexp (cbDECMexp e d .quasinewton).fn (cbDECMexp e d .quasinewton).jacDiag := by
  intro r hr i
  exact ((DECM.C08_decm_exp_hessian_diag r d.degOut d.degIn d.out_strength d.in_strength i).2 hr).neg

/-- admissible rates on the link probabilities `a` -/
def AdmRateD (a : Fin n → Fin n → ℝ) (b : Fin 2 × Fin n → ℝ) : Prop := ∀ i j, a i j ≠ 0 → 0 < b (0, i) + b (1, j)

theorem adm_nz {a : Fin n → Fin n → ℝ} {b : Fin 2 × Fin n → ℝ} (h : AdmRateD a b) : ∀ t ∈ nzEdges a, 0 < b (0, t.1) + b (1, t.2.1) := by
  intro t ht
  simp only [nzEdges, List.mem_map, List.mem_filter] at ht
  obtain ⟨u, ⟨-, hu⟩, rfl⟩ := ht
  simp only [decide_eq_true_eq] at hu
  exact h _ _ hu

theorem dcrema_deriv (d : DData n) (a : Fin n → Fin n → ℝ) (b : Fin 2 × Fin n → ℝ) (hb : AdmRateD a b) (v : Fin 2 × Fin n) :
    HasDerivAt (fun t => LDCrema d a (Function.update b v t)) (DCReMa.loglikelihood_prime_crema_directed b d.out_strength d.in_strength (nzEdges a)
      (DCM.nonzero d.out_strength) (DCM.nonzero d.in_strength) v) (b v) := by
  have := DCReMa.C06_dcrema_gradient b d.out_strength d.in_strength (nzEdges a) (adm_nz hb) v
  simpa only [ll_dcrema_spec] using this

theorem cbDCrema_gradient (e : Env) (d : DData n) (a : Fin n → Fin n → ℝ) {me : Method} (hme : me ≠ .fixed_point) :
    MinusGradient (AdmRateD a) (LDCrema d a) (cbDCrema e d (nzEdges a) me).fn := by
  intro r hr q
  have := dcrema_deriv d a r hr q
  cases me <;> simp_all [cbDCrema]

theorem cbDCrema_jac (e : Env) (d : DData n) (a : Fin n → Fin n → ℝ) :
    IsJacobian (AdmRateD a) (cbDCrema e d (nzEdges a) .newton).fn (cbDCrema e d (nzEdges a) .newton).jac := by
  intro r hr i j
  exact (DCReMa.C07_dcrema_hessian r d.out_strength d.in_strength a hr i j).neg

theorem cbDCrema_jacDiag (e : Env) (d : DData n) (a : Fin n → Fin n → ℝ) :
    IsJacobianDiag (AdmRateD a) (cbDCrema e d (nzEdges a) .quasinewton).fn (cbDCrema e d (nzEdges a) .quasinewton).jacDiag := by
  intro r hr i
  exact (DCReMa.C08_dcrema_hessian_diag r d.out_strength d.in_strength a hr i).neg

theorem cbDCrema_fixed (e : Env) (d : DData n) (a : Fin n → Fin n → ℝ) (ho : ∀ i, d.out_strength i ≠ 0) (hi : ∀ i, d.in_strength i ≠ 0) :
    FixedAreStationary (fun b => ∀ v, 0 < b v) (LDCrema d a) (cbDCrema e d (nzEdges a) .fixed_point).fn := by
  intro r hr
  refine forall_congr' fun v => ?_
  rw [zero_deriv_iff (dcrema_deriv d a r (fun i j _ => add_pos (hr _) (hr _)) v)]
  refine DCReMa.C12_dcrema_fixed_point_iff r d.out_strength d.in_strength (nzEdges a) hr v ?_
  unfold DCReMa.strengths
  split
  · exact ho _
  · exact hi _

/-- the link probabilities of the DBCM with fitnesses `x`, `y`, as a matrix with zero diagonal -/
noncomputable def linkMatrixD (x y : Fin n → ℝ) (i j : Fin n) : ℝ := if i = j then 0 else linkDBCM x y i j

theorem pmat_spec (d : DData n) (x y : Fin n → ℝ) : d.pmat x y = linkMatrixD (active d.degOut x) (active d.degIn y) := by
  funext i j
  unfold DData.pmat
  rw [DCM.pmatrix_eq, linkMatrixD, linkDBCM]
  simp only [DCM.mem_nonzero]
  by_cases hij : i = j
  · simp [hij]
  · by_cases h1 : d.degOut i = 0 <;> by_cases h2 : d.degIn j = 0 <;> simp [hij, h1, h2, active, cat2]

/-! ### C36: the documented pairs -/

/-- C36 (dcm): for every documented method, `solve_tool("dcm", method)` is the run of the iterative solver on minus the gradient of the log-probability of the
DBCM as a function of the reduced parameters (newton with its exact Jacobian; quasinewton, whose diagonal is exact when no two nodes have the same pair of
degrees) or on a map whose fixed points are its stationary points (fixed-point), with the line search evaluating the same log-probability; the solution
attributes are the outcome of that run, and nothing of them is touched if it raises. -/
theorem C36_dcm (e : Env) (g : DAttr d) (me : Method) (guess : DGuess n) (adj : AdjSpec n) (ma : String) (ga : DGuess n) (p : Params)
    {x0 : Fin 2 × Fin d.r → ℝ} (h0 : guessDCM e d false guess = .ok x0) :
    ∃ C : Callbacks (Fin 2 × Fin d.r),
      (me ≠ .fixed_point → MinusGradient (AdmDCM d) (LDCM d) C.fn) ∧
      (me = .newton → IsJacobian (AdmDCM d) C.fn C.jac) ∧
      (me = .quasinewton → (∀ i j, d.dseq_out i = d.dseq_out j → d.dseq_in i = d.dseq_in j → i = j) → IsJacobianDiag (AdmDCM d) C.fn C.jacDiag) ∧
      (me = .fixed_point → d.Linked → FixedAreStationary (AdmDCM0 d) (LDCM d) C.fn) ∧
      (∃ F, (∀ r, AdmDCM d r → F r = some (LDCM d r)) ∧
        ∀ x dx b a f, C.linsearch x dx b a f = some (linsearch_fun_DCM (blocks 2 d.r) x dx b a f F)) ∧
      (∀ x dx dx' a b st, C.linsearchFixed x dx dx' a b st = some (linsearch_fun_DCM_fixed (blocks 2 d.r) x dx dx' a b st)) ∧ C.hessian_regulariser = eigenRegulariser e ∧
      let R := solve_tool_directed e g "dcm" me.name guess adj ma ga p
      match solver C (p.opts me.name) x0 with
      | .error x => R.exc = some (.numeric x) ∧ R.g.solution_array = g.solution_array ∧ R.g.x = g.x ∧ R.g.y = g.y ∧ R.g.b_out = g.b_out ∧ R.g.b_in = g.b_in
      | .ok s => R.g.solution_array = some (.reduced s.x) ∧ R.g.x = some (fun i => s.x (0, d.inv i)) ∧ R.g.y = some (fun i => s.x (1, d.inv i)) ∧
        R.g.last_model = some "dcm" ∧ (p.full_return = true → R.g.trace = some (.of s)) := by
  refine ⟨cbDCM e d me, cbDCM_gradient e d, fun h => h ▸ cbDCM_jac e d, fun h => h ▸ cbDCM_jacDiag e d, fun h => h ▸ cbDCM_fixed e d,
    ⟨_, fun r hr => ?_, fun _ _ _ _ _ => rfl⟩, fun _ _ _ _ _ _ => rfl, rfl, ?_⟩
  · simp only [llF]; rw [if_pos ⟨hr.1, hr.2⟩, ll_dcm_red_spec]
  · simp only
    rw [solve_tool_dcm e g me guess adj ma ga p h0]
    cases h : solver (cbDCM e d me) (p.opts me.name) x0 with
    | error x => exact ⟨rfl, rfl, rfl, rfl, rfl, rfl⟩
    | ok s =>
      exact ⟨keepsD DAttr.solution_array (fun _ => rfl) _, keepsD DAttr.x (fun _ => rfl) _, keepsD DAttr.y (fun _ => rfl) _,
        keepsD DAttr.last_model (fun _ => rfl) _, fun hf => (keepsD DAttr.trace (fun _ => rfl) _).trans (by simp [setSolvedDCM, preDCM, hf])⟩

/-- C36 (dcm_exp): as for dcm, with the exponents as variables and exact diagonal; the attributes are `exp(-θ)`. -/
theorem C36_dcm_exp (e : Env) (g : DAttr d) (me : Method) (guess : DGuess n) (adj : AdjSpec n) (ma : String) (ga : DGuess n) (p : Params)
    {x0 : Fin 2 × Fin d.r → ℝ} (h0 : guessDCM e d true guess = .ok x0) :
    ∃ C : Callbacks (Fin 2 × Fin d.r),
      (me ≠ .fixed_point → MinusGradient (fun _ => True) (fun θ => LDCM d fun v => Real.exp (-θ v)) C.fn) ∧
      (me = .newton → IsJacobian (fun _ => True) C.fn C.jac) ∧
      (me = .quasinewton → IsJacobianDiag (fun _ => True) C.fn C.jacDiag) ∧
      (me = .fixed_point → 2 ≤ n → (∀ i, d.dseq_out i ≠ 0) → (∀ i, d.dseq_in i ≠ 0) →
        FixedAreStationary (fun _ => True) (fun θ => LDCM d fun v => Real.exp (-θ v)) C.fn) ∧
      (∃ F, (∀ θ, F θ = some (LDCM d fun v => Real.exp (-θ v))) ∧
        ∀ x dx b a f, C.linsearch x dx b a f = some (linsearch_fun_DCM_exp x dx b a f F)) ∧
      (∀ x dx dx' a b st, C.linsearchFixed x dx dx' a b st = some (linsearch_fun_DCM_exp_fixed dx dx' a b st)) ∧ C.hessian_regulariser = matrix_regulariser_function ∧
      let R := solve_tool_directed e g "dcm_exp" me.name guess adj ma ga p
      match solver C (p.opts me.name) x0 with
      | .error x => R.exc = some (.numeric x) ∧ R.g.solution_array = g.solution_array ∧ R.g.x = g.x ∧ R.g.y = g.y ∧ R.g.b_out = g.b_out ∧ R.g.b_in = g.b_in
      | .ok s => R.g.solution_array = some (.reduced fun v => Real.exp (-s.x v)) ∧ R.g.x = some (fun i => Real.exp (-s.x (0, d.inv i))) ∧
        R.g.y = some (fun i => Real.exp (-s.x (1, d.inv i))) ∧ R.g.last_model = some "dcm_exp" ∧ (p.full_return = true → R.g.trace = some (.of s)) := by
  refine ⟨cbDCMexp e d me, cbDCMexp_gradient e d, fun h => h ▸ cbDCMexp_jac e d, fun h => h ▸ cbDCMexp_jacDiag e d, fun h => h ▸ cbDCMexp_fixed e d,
    ⟨_, fun r => ?_, fun _ _ _ _ _ => rfl⟩, fun _ _ _ _ _ _ => rfl, rfl, ?_⟩
  · simp only [llF]; rw [if_pos trivial, ll_dcm_exp_red_spec]
  · simp only
    rw [solve_tool_dcm_exp e g me guess adj ma ga p h0]
    cases h : solver (cbDCMexp e d me) (p.opts me.name) x0 with
    | error x => exact ⟨rfl, rfl, rfl, rfl, rfl, rfl⟩
    | ok s =>
      exact ⟨keepsD DAttr.solution_array (fun _ => rfl) _, keepsD DAttr.x (fun _ => rfl) _, keepsD DAttr.y (fun _ => rfl) _,
        keepsD DAttr.last_model (fun _ => rfl) _, fun hf => (keepsD DAttr.trace (fun _ => rfl) _).trans (by simp [setSolvedDCM, preDCM, hf])⟩

/-- C36 (decm): exact Jacobian; the diagonal of quasinewton is exact when no in-strength is zero.  The guess is stored in the attributes before the run. -/
theorem C36_decm (e : Env) (g : DAttr d) (me : Method) (guess : DGuess n) (adj : AdjSpec n) (ma : String) (ga : DGuess n) (p : Params)
    {v : Fin 4 × Fin n → ℝ} {guess' : DGuess n} (h0 : guessDECM e d false guess = (.ok v, guess')) :
    ∃ C : Callbacks (Fin 4 × Fin n),
      (me ≠ .fixed_point → MinusGradient AdmDECM (LDECM d) C.fn) ∧
      (me = .newton → IsJacobian AdmDECM C.fn C.jac) ∧
      (me = .quasinewton → (∀ i, d.in_strength i ≠ 0) → IsJacobianDiag AdmDECM C.fn C.jacDiag) ∧
      (me = .fixed_point → (∀ w, d.obs w ≠ 0) → FixedAreStationary AdmDECM (LDECM d) C.fn) ∧
      (∃ F, (∀ w, AdmDECM w → F w = some (LDECM d w)) ∧
        ∀ x dx b a f, C.linsearch x dx b a f = linsearch_fun_DECM (blocks 4 n) x dx b a f F) ∧
      (∀ x dx dx' a b st, C.linsearchFixed x dx dx' a b st = linsearch_fun_DECM_fixed (blocks 4 n) x dx dx' a b st) ∧ C.hessian_regulariser = eigenRegulariser e ∧
      let R := solve_tool_directed e g "decm" me.name guess adj ma ga p
      match solver C (p.opts me.name) v with
      | .error x => R.exc = some (.numeric x) ∧ R.g.solution_array = g.solution_array ∧ R.g.x = some (blk4 v 0) ∧ R.g.y = some (blk4 v 1) ∧
        R.g.b_out = some (blk4 v 2) ∧ R.g.b_in = some (blk4 v 3)
      | .ok s => R.g.solution_array = some (.quads s.x) ∧ R.g.x = some (blk4 s.x 0) ∧ R.g.y = some (blk4 s.x 1) ∧
        R.g.b_out = some (blk4 s.x 2) ∧ R.g.b_in = some (blk4 s.x 3) ∧ R.g.last_model = some "decm" ∧ (p.full_return = true → R.g.trace = some (.of s)) := by
  refine ⟨cbDECM e d me, cbDECM_gradient e d, fun h => h ▸ cbDECM_jac e d, fun h => h ▸ cbDECM_jacDiag e d, fun h => h ▸ cbDECM_fixed e d,
    ⟨_, fun r hr => ?_, fun _ _ _ _ _ => rfl⟩, fun _ _ _ _ _ _ => rfl, rfl, ?_⟩
  · simp only [llF]; rw [if_pos ⟨fun w _ => hr.1 w, fun w => (hr.1 w).le, hr.2⟩, ll_decm_spec]
  · simp only
    rw [solve_tool_decm e g me guess adj ma ga p h0]
    cases h : solver (cbDECM e d me) (p.opts me.name) v with
    | error x => exact ⟨rfl, rfl, rfl, rfl, rfl, rfl⟩
    | ok s =>
      exact ⟨keepsD DAttr.solution_array (fun _ => rfl) _, keepsD DAttr.x (fun _ => rfl) _, keepsD DAttr.y (fun _ => rfl) _,
        keepsD DAttr.b_out (fun _ => rfl) _, keepsD DAttr.b_in (fun _ => rfl) _,
        keepsD DAttr.last_model (fun _ => rfl) _, fun hf => (keepsD DAttr.trace (fun _ => rfl) _).trans (by simp [setSolvedDECM, preDECM, hf])⟩

/-- C36 (decm_exp; newton and quasinewton.  The fixed-point map of decm_exp does not solve the equations, `C12_decm_exp_fixed_point_wrong`.) -/
theorem C36_decm_exp (e : Env) (g : DAttr d) (me : Method) (guess : DGuess n) (adj : AdjSpec n) (ma : String) (ga : DGuess n) (p : Params)
    {v : Fin 4 × Fin n → ℝ} {guess' : DGuess n} (h0 : guessDECM e d true guess = (.ok v, guess')) :
    ∃ C : Callbacks (Fin 4 × Fin n),
      (me ≠ .fixed_point → MinusGradient AdmDECMexp (fun θ => LDECM d fun v => Real.exp (-θ v)) C.fn) ∧
      (me = .newton → IsJacobian AdmDECMexp C.fn C.jac) ∧
      (me = .quasinewton → IsJacobianDiag AdmDECMexp C.fn C.jacDiag) ∧
      (∃ F, (∀ w, AdmDECMexp w → F w = some (LDECM d fun v => Real.exp (-w v))) ∧
        ∀ x dx b a f, C.linsearch x dx b a f = linsearch_fun_DECM_exp x dx b a f F) ∧
      (∀ x dx dx' a b st, C.linsearchFixed x dx dx' a b st = linsearch_fun_DECM_exp_fixed x dx dx' a b st) ∧ C.hessian_regulariser = matrix_regulariser_function ∧
      let R := solve_tool_directed e g "decm_exp" me.name guess adj ma ga p
      match solver C (p.opts me.name) v with
      | .error x => R.exc = some (.numeric x) ∧ R.g.solution_array = g.solution_array ∧ R.g.x = some (blk4 v 0) ∧ R.g.y = some (blk4 v 1) ∧
        R.g.b_out = some (blk4 v 2) ∧ R.g.b_in = some (blk4 v 3)
      | .ok s =>
        let w : Fin 4 × Fin n → ℝ := fun u => Real.exp (-s.x u)
        R.g.solution_array = some (.quads w) ∧ R.g.x = some (blk4 w 0) ∧ R.g.y = some (blk4 w 1) ∧
        R.g.b_out = some (blk4 w 2) ∧ R.g.b_in = some (blk4 w 3) ∧ R.g.last_model = some "decm_exp" ∧ (p.full_return = true → R.g.trace = some (.of s)) := by
  refine ⟨cbDECMexp e d me, cbDECMexp_gradient e d, fun h => h ▸ cbDECMexp_jac e d, fun h => h ▸ cbDECMexp_jacDiag e d,
    ⟨_, fun r hr => ?_, fun _ _ _ _ _ => rfl⟩, fun _ _ _ _ _ _ => rfl, rfl, ?_⟩
  · simp only [llF]; rw [if_pos (show ∀ i j : Fin n, i ≠ j → 0 < r (2, i) + r (3, j) from hr), ll_decm_exp_spec d r hr]
  · simp only
    rw [solve_tool_decm_exp e g me guess adj ma ga p h0]
    cases h : solver (cbDECMexp e d me) (p.opts me.name) v with
    | error x => exact ⟨rfl, rfl, rfl, rfl, rfl, rfl⟩
    | ok s =>
      exact ⟨keepsD DAttr.solution_array (fun _ => rfl) _, keepsD DAttr.x (fun _ => rfl) _, keepsD DAttr.y (fun _ => rfl) _,
        keepsD DAttr.b_out (fun _ => rfl) _, keepsD DAttr.b_in (fun _ => rfl) _,
        keepsD DAttr.last_model (fun _ => rfl) _, fun hf => (keepsD DAttr.trace (fun _ => rfl) _).trans (by simp [setSolvedDECM, preDECM, hf])⟩

/-- C36 (directed crema on a given matrix of link probabilities; self-loops of the matrix count).  With `full_return=True` the attribute `solution_array` is not
the solution but the whole tuple of the solver. -/
theorem C36_dcrema_matrix (e : Env) (g : DAttr d) (hz : d.nz_known = true) (me : Method) (guess : DGuess n) (a : Fin n → Fin n → ℝ) (ma : String)
    (ga : DGuess n) (p : Params) {bo bi : Fin n → ℝ} {guess' : DGuess n} (h0 : guessDCrema e d guess = (.ok (bo, bi), guess')) :
    ∃ C : Callbacks (Fin 2 × Fin n),
      (me ≠ .fixed_point → MinusGradient (AdmRateD a) (LDCrema d a) C.fn) ∧
      (me = .newton → IsJacobian (AdmRateD a) C.fn C.jac) ∧
      (me = .quasinewton → IsJacobianDiag (AdmRateD a) C.fn C.jacDiag) ∧
      (me = .fixed_point → (∀ i, d.out_strength i ≠ 0) → (∀ i, d.in_strength i ≠ 0) → FixedAreStationary (fun b => ∀ v, 0 < b v) (LDCrema d a) C.fn) ∧
      (∃ F, (∀ b, AdmRateD a b → F b = some (LDCrema d a b)) ∧
        ∀ x dx b a f, C.linsearch x dx b a f = some (linsearch_fun_crema_directed x dx b a f F)) ∧
      (∀ x dx dx' a b st, C.linsearchFixed x dx dx' a b st = some (linsearch_fun_crema_directed_fixed dx dx' a b st)) ∧ C.hessian_regulariser = matrix_regulariser_function ∧
      let R := solve_tool_directed e g "crema" me.name guess (.matrix a) ma ga p
      match solver C (p.opts me.name) (cat2 bo bi) with
      | .error x => R.exc = some (.numeric x) ∧ R.g.solution_array = g.solution_array ∧ R.g.b_out = some bo ∧ R.g.b_in = some bi ∧ R.g.x = g.x ∧ R.g.y = g.y
      | .ok s => R.g.b_out = some (fun i => s.x (0, i)) ∧ R.g.b_in = some (fun i => s.x (1, i)) ∧ R.g.x = g.x ∧ R.g.y = g.y ∧
        R.g.last_model = some "crema" ∧ (p.full_return = false → R.g.solution_array = some (.pairs s.x)) ∧
        (p.full_return = true → R.g.trace_crema = some (.of s)) := by
  refine ⟨cbDCrema e d (nzEdges a) me, cbDCrema_gradient e d a, fun h => h ▸ cbDCrema_jac e d a, fun h => h ▸ cbDCrema_jacDiag e d a,
    fun h => h ▸ cbDCrema_fixed e d a, ⟨_, fun v ha => ?_, fun _ _ _ _ _ => rfl⟩, fun _ _ _ _ _ _ => rfl, rfl, ?_⟩
  · simp only [llF]; rw [if_pos (adm_nz ha), ll_dcrema_spec]
  · simp only
    rw [solve_tool_dcrema_matrix e g hz me guess a ma ga p h0]
    cases h : solver (cbDCrema e d (nzEdges a) me) (p.opts me.name) (cat2 bo bi) with
    | error x => exact ⟨rfl, rfl, rfl, rfl, rfl, rfl⟩
    | ok s =>
      exact ⟨keepsD DAttr.b_out (fun _ => rfl) _, keepsD DAttr.b_in (fun _ => rfl) _, keepsD DAttr.x (fun _ => rfl) _, keepsD DAttr.y (fun _ => rfl) _,
        keepsD DAttr.last_model (fun _ => rfl) _, fun hf => (keepsD DAttr.solution_array (fun _ => rfl) _).trans (by simp [setSolvedDCrema, preDCrema, hf]),
        fun hf => (keepsD DAttr.trace_crema (fun _ => rfl) _).trans (by simp [setSolvedDCrema, preDCrema, hf])⟩

/-- the outcome of the binary problem of CReMa -/
theorem binary_run (e : Env) (g : DAttr d) (mo : DModel) (hmo : mo = .dcm ∨ mo = .dcm_exp) (ma : Method) (ga : DGuess n) (p : Params)
    {x0 : Fin 2 × Fin d.r → ℝ} (h0 : guessDCM e d (mo = .dcm_exp) ga = .ok x0) {t : State (Fin 2 × Fin d.r)}
    (ht : solver (if mo = .dcm_exp then cbDCMexp e d ma else cbDCM e d ma) (p.opts ma.name) x0 = .ok t) :
    solveProblemD e g mo.name ma.name ga p = (setSolvedDCM (preDCM g mo p) (mo = .dcm_exp) t, none, ga) := by
  rcases hmo with rfl | rfl
  · simp only [reduceCtorEq, decide_false, if_false] at h0 ht
    rw [show DModel.dcm.name = "dcm" from rfl, solveProblemD_dcm e g ma ga p h0, ht]
    simp
  · simp only [decide_true, if_true] at h0 ht
    rw [show DModel.dcm_exp.name = "dcm_exp" from rfl, solveProblemD_dcm_exp e g ma ga p h0, ht]
    simp

/-- C36 (directed crema, `adjacency="dcm"` or "dcm_exp"): the DBCM is solved first (`t`, always with line search), then the rates on its link probabilities; nodes
of zero degree have no links. -/
theorem C36_dcrema (e : Env) (g : DAttr d) (hz : d.nz_known = true) (me : Method) (guess : DGuess n) (mo : DModel) (hmo : mo = .dcm ∨ mo = .dcm_exp)
    (ma : Method) (ga : DGuess n) (p : Params) {x0 : Fin 2 × Fin d.r → ℝ} (hx0 : guessDCM e.inner d (mo = .dcm_exp) ga = .ok x0)
    {bo bi : Fin n → ℝ} {guess' : DGuess n} (h0 : guessDCrema e d guess = (.ok (bo, bi), guess')) :
    ∃ C₀ : Callbacks (Fin 2 × Fin d.r),
      (ma ≠ .fixed_point → mo = .dcm → MinusGradient (AdmDCM d) (LDCM d) C₀.fn) ∧
      (ma ≠ .fixed_point → mo = .dcm_exp → MinusGradient (fun _ => True) (fun θ => LDCM d fun v => Real.exp (-θ v)) C₀.fn) ∧
      ∀ t, solver C₀ ({ p with linsearch := true }.opts ma.name) x0 = .ok t →
      let w : Fin 2 × Fin d.r → ℝ := if mo = .dcm_exp then fun v => Real.exp (-t.x v) else t.x
      let x : Fin n → ℝ := fun i => w (0, d.inv i)
      let y : Fin n → ℝ := fun i => w (1, d.inv i)
      let a := linkMatrixD (active d.degOut x) (active d.degIn y)
      ∃ C : Callbacks (Fin 2 × Fin n),
      (me ≠ .fixed_point → MinusGradient (AdmRateD a) (LDCrema d a) C.fn) ∧
      (me = .newton → IsJacobian (AdmRateD a) C.fn C.jac) ∧
      (me = .quasinewton → IsJacobianDiag (AdmRateD a) C.fn C.jacDiag) ∧
      (me = .fixed_point → (∀ i, d.out_strength i ≠ 0) → (∀ i, d.in_strength i ≠ 0) → FixedAreStationary (fun b => ∀ v, 0 < b v) (LDCrema d a) C.fn) ∧
      (∃ F, (∀ b, AdmRateD a b → F b = some (LDCrema d a b)) ∧
        ∀ x dx b a f, C.linsearch x dx b a f = some (linsearch_fun_crema_directed x dx b a f F)) ∧
      (∀ x dx dx' a b st, C.linsearchFixed x dx dx' a b st = some (linsearch_fun_crema_directed_fixed dx dx' a b st)) ∧
      C.hessian_regulariser = matrix_regulariser_function ∧
      let R := solve_tool_directed e g "crema" me.name guess (.name mo.name) ma.name ga p
      match solver C (p.opts me.name) (cat2 bo bi) with
      | .error err => R.exc = some (.numeric err) ∧ R.g.solution_array = some (.reduced w) ∧ R.g.b_out = some bo ∧ R.g.b_in = some bi ∧ R.g.x = some x ∧ R.g.y = some y
      | .ok s => R.g.b_out = some (fun i => s.x (0, i)) ∧ R.g.b_in = some (fun i => s.x (1, i)) ∧ R.g.x = some x ∧ R.g.y = some y ∧
        R.g.last_model = some "crema" ∧ (p.full_return = false → R.g.solution_array = some (.pairs s.x)) := by
  refine ⟨if mo = .dcm_exp then cbDCMexp e.inner d ma else cbDCM e.inner d ma, fun hm h => ?_, fun hm h => ?_, fun t ht => ?_⟩
  · subst h; simp only [reduceCtorEq, if_false]; exact cbDCM_gradient _ d hm
  · subst h; simp only [if_true]; exact cbDCMexp_gradient _ d hm
  intro w x y a
  have hrun := binary_run e.inner { g with is_sparse := false } mo hmo ma ga { p with linsearch := true } hx0 ht
  have hx : (setSolvedDCM (preDCM { g with is_sparse := false } mo { p with linsearch := true }) (mo = .dcm_exp) t).x = some x := by
    simp only [setSolvedDCM, x, w]; split <;> simp_all
  have hy : (setSolvedDCM (preDCM { g with is_sparse := false } mo { p with linsearch := true }) (mo = .dcm_exp) t).y = some y := by
    simp only [setSolvedDCM, y, w]; split <;> simp_all
  have ha : d.pmat x y = a := pmat_spec d x y
  refine ⟨cbDCrema e d (nzEdges a) me, cbDCrema_gradient e d a, fun h => h ▸ cbDCrema_jac e d a, fun h => h ▸ cbDCrema_jacDiag e d a,
    fun h => h ▸ cbDCrema_fixed e d a, ⟨_, fun v ha => ?_, fun _ _ _ _ _ => rfl⟩, fun _ _ _ _ _ _ => rfl, rfl, ?_⟩
  · simp only [llF]; rw [if_pos (adm_nz ha), ll_dcrema_spec]
  simp only
  rw [solve_tool_dcrema_named e g hz me guess mo.name ma.name ga ga p hrun hx hy rfl rfl h0, ha]
  cases h : solver (cbDCrema e d (nzEdges a) me) (p.opts me.name) (cat2 bo bi) with
  | error err =>
    refine ⟨rfl, ?_, rfl, rfl, hx, hy⟩
    simp only [preDCrema, withAdj, setSolvedDCM, w]
    split <;> simp_all
  | ok s =>
    exact ⟨keepsD DAttr.b_out (fun _ => rfl) _, keepsD DAttr.b_in (fun _ => rfl) _, (keepsD DAttr.x (fun _ => rfl) _).trans hx,
      (keepsD DAttr.y (fun _ => rfl) _).trans hy, keepsD DAttr.last_model (fun _ => rfl) _,
      fun hf => (keepsD DAttr.solution_array (fun _ => rfl) _).trans (by simp [setSolvedDCrema, preDCrema, hf])⟩

end Verif.Solve
