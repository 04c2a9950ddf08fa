import Verif.Lemmas.SolveUTool

/-! C36: which equations `UndirectedGraph.solve_tool` solves, and which arguments it refuses. -/

namespace Verif.Solve

open Verif Finset Reduction Solver Spec

open Classical in
attribute [local instance 0] propDecidable

variable {n : ℕ} [NeZero n] {d : UData n}

/-! ### the tables -/

theorem zero_deriv_iff {f : ℝ → ℝ} {D x : ℝ} (h : HasDerivAt f D x) : HasDerivAt f 0 x ↔ D = 0 := by
  constructor
  · intro h0; exact h.unique h0
  · rintro rfl; exact h

theorem cbCM_gradient (e : Env) (d : UData n) {me : Method} (hme : me ≠ .fixed_point) :
    MinusGradient (fun r => ∀ q, 0 < r q) (fun r => logUBCM d.deg fun i => r (d.inv i)) (cbCM e d me).fn := by
  intro r hr q
  have := CM.C06_cm_gradient r d.k d.c hr q
  simp only [ll_red_spec] at this
  cases me <;> simp_all [cbCM]

theorem cbCM_fixed (e : Env) (d : UData n) (hk : ∀ i, d.dseq i ≠ 0) :
    FixedAreStationary (fun r => ∀ q, 0 < r q) (fun r => logUBCM d.deg fun i => r (d.inv i)) (cbCM e d .fixed_point).fn := by
  intro r hr
  have hc : ∀ q, d.c q ≠ 0 := fun q => by
    have := r_multiplicity_pos d.dseq q
    simp only [UData.c]; exact_mod_cast this.ne'
  have hk' : ∀ q, d.k q ≠ 0 := fun q => by
    obtain ⟨i, hi⟩ := d.exists_class q
    simp only [UData.k, ← hi]; exact_mod_cast hk i
  rw [show (∀ q, (cbCM e d .fixed_point).fn r q = r q) ↔ _ from CM.C12_cm_fixed_point_iff r d.k d.c hr hc hk']
  refine forall_congr' fun q => ?_
  have := CM.C06_cm_gradient r d.k d.c hr q
  simp only [ll_red_spec] at this
  exact (zero_deriv_iff this).symm

/-- on a graph whose degrees are all different every class has one node -/
theorem UData.c_eq_one (d : UData n) (hd : ∀ i j, d.dseq i = d.dseq j → i = j) (q : Fin d.r) : d.c q = 1 := by
  have hp := r_multiplicity_pos d.dseq q
  have : r_multiplicity d.dseq q ≤ 1 := by
    unfold r_multiplicity
    rw [card_le_one]
    intro a ha b hb
    simp only [mem_filter, mem_univ, true_and] at ha hb
    exact hd a b (ha.trans hb.symm)
  have : r_multiplicity d.dseq q = 1 := by omega
  simp [UData.c, this]

/-- the diagonal used by "quasinewton" for cm is right when all degrees are different -/
theorem cbCM_jacDiag (e : Env) (d : UData n) (hd : ∀ i j, d.dseq i = d.dseq j → i = j) :
    IsJacobianDiag (fun r => ∀ q, 0 < r q) (cbCM e d .quasinewton).fn (cbCM e d .quasinewton).jacDiag := by
  intro r hr q
  exact (((CM.C08_cm_hessian_diag r d.k d.c q).2 hr).2 (.inr (d.c_eq_one hd q))).neg

/-- the matrix used by "newton" for cm is right, when all degrees are different, on the diagonal and between nodes of the same fitness -/
theorem cbCM_jac (e : Env) (d : UData n) (hd : ∀ i j, d.dseq i = d.dseq j → i = j) (r : Fin d.r → ℝ) (hr : ∀ q, 0 < r q) (p q : Fin d.r)
    (hpq : r p = r q) :
    HasDerivAt (fun t => (cbCM e d .newton).fn (Function.update r q t) p) ((cbCM e d .newton).jac r p q) (r q) := by
  by_cases h : p = q
  · subst h
    exact ((CM.C07_cm_hessian_diag_iff r d.k d.c hr p).2 (.inr (d.c_eq_one hd p))).neg
  · exact ((CM.C07_cm_hessian_offdiag_iff r d.k d.c hr p q h (by simp [d.c_eq_one hd]) (by simp [d.c_eq_one hd])).2 hpq).neg

/-- the matrix used by "newton" for cm_exp is right when all degrees are different -/
theorem cbCMexp_jac (e : Env) (d : UData n) (hd : ∀ i j, d.dseq i = d.dseq j → i = j) :
    IsJacobian (fun _ => True) (cbCMexp e d .newton).fn (cbCMexp e d .newton).jac := by
  intro r _ p q
  exact (CM.C07_cm_exp_hessian_partial r d.k d.c (d.c_eq_one hd) p q).neg

/-- the diagonal used by "quasinewton" for cm_exp, when all degrees are different, is an upper bound of the right one, which is not negative -/
theorem cbCMexp_jacDiag (e : Env) (d : UData n) (hd : ∀ i j, d.dseq i = d.dseq j → i = j) (r : Fin d.r → ℝ) (q : Fin d.r) :
    ∃ D, HasDerivAt (fun t => (cbCMexp e d .quasinewton).fn (Function.update r q t) q) D (r q) ∧ 0 ≤ D ∧ D ≤ (cbCMexp e d .quasinewton).jacDiag r q := by
  obtain ⟨D, h1, h2, h3⟩ := CM.C08_cm_exp_hessian_diag_bound_partial r d.k d.c (d.c_eq_one hd) q
  exact ⟨-D, h1.neg, by linarith, neg_le_neg h2⟩

theorem cbCMexp_gradient (e : Env) (d : UData n) {me : Method} (hme : me ≠ .fixed_point) :
    MinusGradient (fun _ => True) (fun θ => logUBCM d.deg fun i => Real.exp (-θ (d.inv i))) (cbCMexp e d me).fn := by
  intro r _ q
  have := CM.C06_cm_exp_gradient r d.k d.c q
  simp only [ll_exp_red_spec] at this
  cases me <;> simp_all [cbCMexp]

/-- a graph without zero degrees has no degree class of a single node unless there is another class, or it has a single node -/
theorem class_or_other (d : UData n) (h2 : 2 ≤ n) (q : Fin d.r) : 1 < d.c q ∨ ∃ p, p ≠ q := by
  by_cases h : ∃ p, p ≠ q
  · exact .inr h
  · left
    push Not at h
    have h1 : ∀ i, d.dseq i = r_dseq d.dseq q := fun i => by
      have := h (d.inv i)
      rw [← this]
      exact (r_dseq_invert d.dseq i).symm
    have : r_multiplicity d.dseq q = n := by
      unfold r_multiplicity
      rw [filter_true_of_mem (fun i _ => h1 i)]; simp
    simp only [UData.c, this]
    exact_mod_cast h2

theorem cbCMexp_fixed (e : Env) (d : UData n) (h2 : 2 ≤ n) (hk : ∀ i, d.dseq i ≠ 0) :
    FixedAreStationary (fun _ => True) (fun θ => logUBCM d.deg fun i => Real.exp (-θ (d.inv i))) (cbCMexp e d .fixed_point).fn := by
  intro r _
  have hc : ∀ q, 1 ≤ d.c q := fun q => by
    have := r_multiplicity_pos d.dseq q
    simp only [UData.c]; exact_mod_cast this
  have hk' : ∀ q, 0 < d.k q := fun q => by
    obtain ⟨i, hi⟩ := d.exists_class q
    simp only [UData.k, ← hi]; exact_mod_cast Nat.pos_of_ne_zero (hk i)
  rw [show (∀ q, (cbCMexp e d .fixed_point).fn r q = r q) ↔ _ from CM.C12_cm_exp_fixed_point_iff r d.k d.c hc hk' (class_or_other d h2)]
  refine forall_congr' fun q => ?_
  have := CM.C06_cm_exp_gradient r d.k d.c q
  simp only [ll_exp_red_spec] at this
  exact (zero_deriv_iff this).symm

/-- the log-likelihood of the UECM as a function of `(x, y)` -/
noncomputable abbrev LECM (d : UData n) (v : Fin 2 × Fin n → ℝ) : ℝ := logUECM d.deg d.strength_sequence (fun i => v (0, i)) (fun i => v (1, i))

/-- the log-likelihood of the UECM as a function of the exponents -/
noncomputable abbrev LECMexp (d : UData n) (v : Fin 2 × Fin n → ℝ) : ℝ :=
  logUECM d.deg d.strength_sequence (fun i => Real.exp (-v (0, i))) (fun i => Real.exp (-v (1, i)))

theorem cbECM_gradient (e : Env) (d : UData n) {me : Method} (hme : me ≠ .fixed_point) :
    MinusGradient AdmECM (LECM d) (cbECM e d me).fn := by
  intro r hr q
  have := ECM.C06_ecm_gradient r d.deg d.strength_sequence hr q
  simp only [ll_ecm_spec] at this
  cases me <;> simp_all [cbECM]

theorem cbECM_fixed (e : Env) (d : UData n) (hk : ∀ i, d.dseq i ≠ 0) (hs : ∀ i, d.strength_sequence i ≠ 0) :
    FixedAreStationary AdmECM (LECM d) (cbECM e d .fixed_point).fn := by
  intro r hr
  have hk' : ∀ i, d.deg i ≠ 0 := fun i => by simp only [UData.deg]; exact_mod_cast hk i
  rw [show (∀ q, (cbECM e d .fixed_point).fn r q = r q) ↔ _ from ECM.C12_ecm_fixed_point_iff r d.deg d.strength_sequence hr hk' hs]
  refine forall_congr' fun q => ?_
  have := ECM.C06_ecm_gradient r d.deg d.strength_sequence hr q
  simp only [ll_ecm_spec] at this
  exact (zero_deriv_iff this).symm

theorem cbECM_jac (e : Env) (d : UData n) : IsJacobian AdmECM (cbECM e d .newton).fn (cbECM e d .newton).jac := by
  intro r hr i j
  exact (ECM.C07_ecm_hessian r d.deg d.strength_sequence hr i j).neg

theorem cbECM_jacDiag (e : Env) (d : UData n) : IsJacobianDiag AdmECM (cbECM e d .quasinewton).fn (cbECM e d .quasinewton).jacDiag := by
  intro r hr i
  exact ((ECM.C08_ecm_hessian_diag r d.deg d.strength_sequence i).2 hr).neg

theorem cbECMexp_gradient (e : Env) (d : UData n) {me : Method} (hme : me ≠ .fixed_point) :
    MinusGradient AdmECMexp (LECMexp d) (cbECMexp e d me).fn := by
  intro r hr q
  have := ECM.C06_ecm_exp_gradient r d.deg d.strength_sequence hr q
  simp only [ll_ecm_exp_spec] at this
  cases me <;> simp_all [cbECMexp]

theorem cbECMexp_fixed (e : Env) (d : UData n) (h2 : 2 ≤ n) (hk : ∀ i, d.dseq i ≠ 0) (hs : ∀ i, 0 < d.strength_sequence i) :
    FixedAreStationary AdmECMexp (LECMexp d) (cbECMexp e d .fixed_point).fn := by
  intro r hr
  have hk' : ∀ i, 0 < d.deg i := fun i => by simp only [UData.deg]; exact_mod_cast Nat.pos_of_ne_zero (hk i)
  have hn : ∀ i : Fin n, ∃ j, j ≠ i := fun i => by
    have : Nontrivial (Fin n) := Fin.nontrivial_iff_two_le.2 h2
    exact exists_ne i
  rw [show (∀ q, (cbECMexp e d .fixed_point).fn r q = r q) ↔ _ from ECM.C12_ecm_exp_fixed_point_iff r d.deg d.strength_sequence hr hk' hs hn]
  refine forall_congr' fun q => ?_
  have := ECM.C06_ecm_exp_gradient r d.deg d.strength_sequence hr q
  simp only [ll_ecm_exp_spec] at this
  exact (zero_deriv_iff this).symm

theorem cbECMexp_jac (e : Env) (d : UData n) : IsJacobian AdmECMexp (cbECMexp e d .newton).fn (cbECMexp e d .newton).jac := by
  intro r hr i j
  exact (ECM.C07_ecm_exp_hessian r d.deg d.strength_sequence hr i j).neg

theorem cbECMexp_jacDiag (e : Env) (d : UData n) : IsJacobianDiag AdmECMexp (cbECMexp e d .quasinewton).fn (cbECMexp e d .quasinewton).jacDiag := by
  intro r hr i
  exact ((ECM.C08_ecm_exp_hessian_diag r d.deg d.strength_sequence i).2 hr).neg

/-- admissible rates on the link probabilities `a` -/
def AdmRate (a : Fin n → Fin n → ℝ) (β : Fin n → ℝ) : Prop := ∀ i j, a i j ≠ 0 → 0 < β i + β j

theorem adm_triu {a : Fin n → Fin n → ℝ} {β : Fin n → ℝ} (h : AdmRate a β) : ∀ t ∈ triuEdges a, 0 < β t.1 + β t.2.1 := by
  intro t ht
  simp only [triuEdges, List.mem_map, List.mem_filter] at ht
  obtain ⟨u, ⟨-, hu⟩, rfl⟩ := ht
  simp only [decide_eq_true_eq] at hu
  exact h _ _ hu.2

theorem cbCrema_gradient (e : Env) (d : UData n) {a : Fin n → Fin n → ℝ} (hs : ∀ i j, a i j = a j i) (hd : ∀ i, a i i = 0) {me : Method}
    (hme : me ≠ .fixed_point) : MinusGradient (AdmRate a) (logCReMa a d.strength_sequence) (cbCrema e d (triuEdges a) me).fn := by
  intro r hr q
  have := CReMa.C06_crema_gradient r d.strength_sequence (triuEdges a) (adm_triu hr) q
  simp only [ll_crema_spec a hs hd] at this
  cases me <;> simp_all [cbCrema]

theorem cbCrema_fixed (e : Env) (d : UData n) {a : Fin n → Fin n → ℝ} (hs : ∀ i j, a i j = a j i) (hd : ∀ i, a i i = 0)
    (hst : ∀ i, d.strength_sequence i ≠ 0) :
    FixedAreStationary (fun β => ∀ i, 0 < β i) (logCReMa a d.strength_sequence) (cbCrema e d (triuEdges a) .fixed_point).fn := by
  intro r hr
  refine forall_congr' fun q => ?_
  have := CReMa.C06_crema_gradient r d.strength_sequence (triuEdges a) (fun t _ => add_pos (hr _) (hr _)) q
  simp only [ll_crema_spec a hs hd] at this
  rw [zero_deriv_iff this]
  exact CReMa.C12_crema_fixed_point_iff r d.strength_sequence _ hr q (hst q)

theorem cbCrema_jac (e : Env) (d : UData n) {a : Fin n → Fin n → ℝ} (hs : ∀ i j, a i j = a j i) (hd : ∀ i, a i i = 0) :
    IsJacobian (AdmRate a) (cbCrema e d (triuEdges a) .newton).fn (cbCrema e d (triuEdges a) .newton).jac := by
  intro r hr i j
  exact (CReMa.C07_crema_hessian r d.strength_sequence a hs hd hr i j).neg

theorem cbCrema_jacDiag (e : Env) (d : UData n) {a : Fin n → Fin n → ℝ} (hs : ∀ i j, a i j = a j i) (hd : ∀ i, a i i = 0) :
    IsJacobianDiag (AdmRate a) (cbCrema e d (triuEdges a) .quasinewton).fn (cbCrema e d (triuEdges a) .quasinewton).jacDiag := by
  intro r hr i
  exact (CReMa.C08_crema_hessian_diag r d.strength_sequence a hs hd hr i).neg

/-! ### C36: the documented pairs -/

/-- the link probabilities of the UBCM with fitnesses `x`, as a matrix with zero diagonal -/
noncomputable def linkMatrix (x : Fin n → ℝ) (i j : Fin n) : ℝ := if i = j then 0 else linkUBCM x i j

theorem linkMatrix_symm (x : Fin n → ℝ) (i j : Fin n) : linkMatrix x i j = linkMatrix x j i := by
  unfold linkMatrix linkUBCM
  by_cases h : i = j
  · subst h; rfl
  · rw [if_neg h, if_neg (Ne.symm h), mul_comm]

theorem linkMatrix_diag (x : Fin n → ℝ) (i : Fin n) : linkMatrix x i i = 0 := by simp [linkMatrix]

theorem pmatrix_spec (x : Fin n → ℝ) : CM.pmatrix_cm x = linkMatrix x := by
  funext i j
  rw [CReMa.pm]; rfl

/-- the sparse gradient is the dense one on the link probabilities -/
theorem cbSparse_gradient (e : Env) (he : e.Valid) (d : UData n) (x : Fin n → ℝ) (hx : ∀ i, 0 ≤ x i) {me : Method} (hme : me ≠ .fixed_point) :
    MinusGradient (AdmRate (linkMatrix x)) (logCReMa (linkMatrix x) d.strength_sequence) (cbCremaSparse e d x me).fn := by
  have h := cbCrema_gradient e d (linkMatrix_symm x) (linkMatrix_diag x) hme
  have : (cbCremaSparse e d x me).fn = (cbCrema e d (triuEdges (linkMatrix x)) me).fn := by
    funext b i
    cases me <;> simp_all only [cbCremaSparse, cbCrema, ← pmatrix_spec, ne_eq, not_true_eq_false]
    · rw [(CReMa.C33_crema_gradient (e.sched n) (he.sched n) b d.strength_sequence x hx i).1]
    · rw [(CReMa.C33_crema_gradient (e.sched n) (he.sched n) b d.strength_sequence x hx i).1]
  rw [this]; exact h

/-- the sparse fixed-point map solves the problem of strengths larger by exp(-100) -/
theorem cbSparse_fixed (e : Env) (he : e.Valid) (d : UData n) (x : Fin n → ℝ) (hx : ∀ i, 0 ≤ x i) (hst : ∀ i, 0 < d.strength_sequence i) :
    FixedAreStationary (fun β => ∀ i, 0 < β i) (logCReMa (linkMatrix x) fun i => d.strength_sequence i + Real.exp (-100))
      (cbCremaSparse e d x .fixed_point).fn := by
  intro r hr
  refine forall_congr' fun q => ?_
  have hq := hst q
  have he0 := Real.exp_pos (-100)
  have hg := CReMa.C06_crema_gradient r (fun i => d.strength_sequence i + Real.exp (-100)) (triuEdges (linkMatrix x)) (fun t _ => add_pos (hr _) (hr _)) q
  simp only [ll_crema_spec _ (linkMatrix_symm x) (linkMatrix_diag x)] at hg
  rw [zero_deriv_iff hg]
  have h1 := (CReMa.C33_crema_iterative (e.sched n) (he.sched n) r d.strength_sequence x hx q).2 hq.ne'
  have h2 := CReMa.iter_ratio r d.strength_sequence (triuEdges (linkMatrix x)) hr q hq.ne'
  rw [pmatrix_spec] at h1
  simp only [cbCremaSparse]
  rw [h1, ← neg_mul, h2, CReMa.prime_eq]
  set E := CReMa.expected_strength_crema_undirected r (triuEdges (linkMatrix x)) q
  have hb := (hr q).ne'
  rw [show r q * E / d.strength_sequence q * (d.strength_sequence q / (d.strength_sequence q + Real.exp (-100))) =
    r q * E / (d.strength_sequence q + Real.exp (-100)) by field_simp, div_eq_iff (by positivity), mul_right_inj' hb, neg_add_eq_zero, eq_comm]

theorem cbSparse_jacDiag (e : Env) (he : e.Valid) (d : UData n) (x : Fin n → ℝ) (hx : ∀ i, 0 ≤ x i) :
    IsJacobianDiag (AdmRate (linkMatrix x)) (cbCremaSparse e d x .quasinewton).fn (cbCremaSparse e d x .quasinewton).jacDiag := by
  have h := cbCrema_jacDiag e d (linkMatrix_symm x) (linkMatrix_diag x)
  have h1 : (cbCremaSparse e d x .quasinewton).fn = (cbCrema e d (triuEdges (linkMatrix x)) .quasinewton).fn := by
    funext b i
    simp only [cbCremaSparse, cbCrema, ← pmatrix_spec]
    rw [(CReMa.C33_crema_gradient (e.sched n) (he.sched n) b d.strength_sequence x hx i).1]
  have h2 : (cbCremaSparse e d x .quasinewton).jacDiag = (cbCrema e d (triuEdges (linkMatrix x)) .quasinewton).jacDiag := by
    funext b i
    simp only [cbCremaSparse, cbCrema, ← pmatrix_spec]
    rw [(CReMa.C33_crema_hessian_diag (e.sched n) (he.sched n) b x hx i).1]
  rw [h1, h2]; exact h

/-- C36 (cm): for every documented method, `solve_tool("cm", method)` is the run of the iterative solver on the gradient of the log-probability of the UBCM
(newton, quasinewton) or on a map whose fixed points are its stationary points (fixed-point), with the line search of the model evaluating the same
log-probability; the solution attributes are the outcome of that run, and nothing of them is touched if it raises. -/
theorem C36_cm (e : Env) (g : UAttr d) (me : Method) (guess : Guess n) (adj : AdjSpec n) (ma : String) (ga : Guess n) (p : Params)
    {x0 : Fin d.r → ℝ} (h0 : guessCM e d false guess = .ok x0) :
    ∃ C : Callbacks (Fin d.r),
      (me ≠ .fixed_point → MinusGradient (fun r => ∀ q, 0 < r q) (fun r => logUBCM d.deg fun i => r (d.inv i)) C.fn) ∧
      (me = .newton → (∀ i j, d.dseq i = d.dseq j → i = j) → ∀ r, (∀ q, 0 < r q) → ∀ p q, r p = r q →
        HasDerivAt (fun t => C.fn (Function.update r q t) p) (C.jac r p q) (r q)) ∧
      (me = .quasinewton → (∀ i j, d.dseq i = d.dseq j → i = j) → IsJacobianDiag (fun r => ∀ q, 0 < r q) C.fn C.jacDiag) ∧
      (me = .fixed_point → (∀ i, d.dseq i ≠ 0) → FixedAreStationary (fun r => ∀ q, 0 < r q) (fun r => logUBCM d.deg fun i => r (d.inv i)) C.fn) ∧
      (∃ F, (∀ r : Fin d.r → ℝ, (∀ q, 0 < r q) → F r = some (logUBCM d.deg fun i => r (d.inv i))) ∧
        ∀ x dx b a f, C.linsearch x dx b a f = some (linsearch_fun_CM (List.finRange d.r) x dx b a f F)) ∧
      (∀ x dx dx' a b st, C.linsearchFixed x dx dx' a b st = some (linsearch_fun_CM_fixed (List.finRange d.r) x dx dx' a b st)) ∧ C.hessian_regulariser = eigenRegulariser e ∧
      let R := solve_tool e g "cm" me.name guess adj ma ga p
      match solver C (p.opts me.name) x0 with
      | .error x => R.exc = some (.numeric x) ∧ R.g.solution_array = g.solution_array ∧ R.g.x = g.x ∧ R.g.beta = g.beta
      | .ok s => R.g.solution_array = some (.reduced s.x) ∧ R.g.x = some (fun i => s.x (d.inv i)) ∧ R.g.last_model = some "cm" ∧
        (p.full_return = true → R.g.trace = some (.of s)) := by
  refine ⟨cbCM e d me, cbCM_gradient e d, fun h => h ▸ cbCM_jac e d, fun h => h ▸ cbCM_jacDiag e d, fun h => h ▸ cbCM_fixed e d, ⟨_, fun r hr => ?_, fun _ _ _ _ _ => rfl⟩, fun _ _ _ _ _ _ => rfl, rfl, ?_⟩
  · simp only [llF]; rw [if_pos hr, ll_red_spec]
  · simp only
    rw [solve_tool_cm e g me guess adj ma ga p h0]
    cases h : solver (cbCM e d me) (p.opts me.name) x0 with
    | error x => exact ⟨rfl, rfl, rfl, rfl⟩
    | ok s =>
      simp only
      obtain ⟨a1, a2, a3, a4, a5, a6, a7, a8, a9, a10, a11, a12⟩ := solutionError_keeps e
        (setSolvedCM { g with last_model := some "cm", full_return := p.full_return, args := some .cm, step_fun := some .cm, fun_pmatrix := true } false s)
      exact ⟨a4, a1, a7, fun hf => by rw [a5]; simp [setSolvedCM, hf]⟩

/-- C36 (cm_exp), as for cm, with the exponents as variables -/
theorem C36_cm_exp (e : Env) (g : UAttr d) (me : Method) (guess : Guess n) (adj : AdjSpec n) (ma : String) (ga : Guess n) (p : Params)
    {x0 : Fin d.r → ℝ} (h0 : guessCM e d true guess = .ok x0) :
    ∃ C : Callbacks (Fin d.r),
      (me ≠ .fixed_point → MinusGradient (fun _ => True) (fun θ => logUBCM d.deg fun i => Real.exp (-θ (d.inv i))) C.fn) ∧
      (me = .newton → (∀ i j, d.dseq i = d.dseq j → i = j) → IsJacobian (fun _ => True) C.fn C.jac) ∧
      (me = .quasinewton → (∀ i j, d.dseq i = d.dseq j → i = j) → ∀ r q,
        ∃ D, HasDerivAt (fun t => C.fn (Function.update r q t) q) D (r q) ∧ 0 ≤ D ∧ D ≤ C.jacDiag r q) ∧
      (me = .fixed_point → 2 ≤ n → (∀ i, d.dseq i ≠ 0) →
        FixedAreStationary (fun _ => True) (fun θ => logUBCM d.deg fun i => Real.exp (-θ (d.inv i))) C.fn) ∧
      (∃ F, (∀ θ : Fin d.r → ℝ, F θ = some (logUBCM d.deg fun i => Real.exp (-θ (d.inv i)))) ∧
        ∀ x dx b a f, C.linsearch x dx b a f = some (linsearch_fun_CM_exp x dx b a f F)) ∧
      (∀ x dx dx' a b st, C.linsearchFixed x dx dx' a b st = some (linsearch_fun_CM_exp_fixed dx dx' a b st)) ∧ C.hessian_regulariser = matrix_regulariser_function ∧
      let R := solve_tool e g "cm_exp" me.name guess adj ma ga p
      match solver C (p.opts me.name) x0 with
      | .error x => R.exc = some (.numeric x) ∧ R.g.solution_array = g.solution_array ∧ R.g.x = g.x ∧ R.g.beta = g.beta
      | .ok s => R.g.solution_array = some (.reduced s.x) ∧ R.g.x = some (fun i => Real.exp (-s.x (d.inv i))) ∧ R.g.last_model = some "cm_exp" ∧
        (p.full_return = true → R.g.trace = some (.of s)) := by
  refine ⟨cbCMexp e d me, cbCMexp_gradient e d, fun h => h ▸ cbCMexp_jac e d, fun h => h ▸ cbCMexp_jacDiag e d, fun h => h ▸ cbCMexp_fixed e d, ⟨_, fun r => ?_, fun _ _ _ _ _ => rfl⟩, fun _ _ _ _ _ _ => rfl, rfl, ?_⟩
  · simp only [llF]; rw [if_pos trivial, ll_exp_red_spec]
  · simp only
    rw [solve_tool_cm_exp e g me guess adj ma ga p h0]
    cases h : solver (cbCMexp e d me) (p.opts me.name) x0 with
    | error x => exact ⟨rfl, rfl, rfl, rfl⟩
    | ok s =>
      simp only
      obtain ⟨a1, a2, a3, a4, a5, a6, a7, a8, a9, a10, a11, a12⟩ := solutionError_keeps e
        (setSolvedCM { g with last_model := some "cm_exp", full_return := p.full_return, args := some .cm, step_fun := some .cm_exp, fun_pmatrix := true } true s)
      exact ⟨a4, a1, a7, fun hf => by rw [a5]; simp [setSolvedCM, hf]⟩

/-- C36 (ecm), with the exact Jacobians; the guess is stored in `x` and `y` before the run. -/
theorem C36_ecm (e : Env) (g : UAttr d) (me : Method) (guess : Guess n) (adj : AdjSpec n) (ma : String) (ga : Guess n) (p : Params)
    {x y : Fin n → ℝ} {guess' : Guess n} (h0 : guessECM e d false guess = (.ok (x, y), guess')) :
    ∃ C : Callbacks (Fin 2 × Fin n),
      (me ≠ .fixed_point → MinusGradient AdmECM (LECM d) C.fn) ∧
      (me = .newton → IsJacobian AdmECM C.fn C.jac) ∧
      (me = .quasinewton → IsJacobianDiag AdmECM C.fn C.jacDiag) ∧
      (me = .fixed_point → (∀ i, d.dseq i ≠ 0) → (∀ i, d.strength_sequence i ≠ 0) → FixedAreStationary AdmECM (LECM d) C.fn) ∧
      (∃ F, (∀ v, (∀ u, 0 < v u) → AdmECM v → F v = some (LECM d v)) ∧
        ∀ x dx b a f, C.linsearch x dx b a f = linsearch_fun_ECM (blocks 2 n) x dx b a f F) ∧
      (∀ x dx dx' a b st, C.linsearchFixed x dx dx' a b st = linsearch_fun_ECM_fixed (blocks 2 n) x dx dx' a b st) ∧ C.hessian_regulariser = eigenRegulariser e ∧
      let R := solve_tool e g "ecm" me.name guess adj ma ga p
      match solver C (p.opts me.name) (cat2 x y) with
      | .error err => R.exc = some (.numeric err) ∧ R.g.solution_array = g.solution_array ∧ R.g.x = some x ∧ R.g.y = some y
      | .ok s => R.g.solution_array = some (.pairs s.x) ∧ R.g.x = some (fun i => s.x (0, i)) ∧ R.g.y = some (fun i => s.x (1, i)) ∧
        R.g.last_model = some "ecm" ∧ (p.full_return = true → R.g.trace = some (.of s)) := by
  refine ⟨cbECM e d me, cbECM_gradient e d, fun h => h ▸ cbECM_jac e d, fun h => h ▸ cbECM_jacDiag e d, fun h => h ▸ cbECM_fixed e d,
    ⟨_, fun v hv ha => ?_, fun _ _ _ _ _ => rfl⟩, fun _ _ _ _ _ _ => rfl, rfl, ?_⟩
  · simp only [llF]; rw [if_pos ⟨hv, ha.2.2⟩, ll_ecm_spec]
  · simp only
    rw [solve_tool_ecm e g me guess adj ma ga p h0]
    cases h : solver (cbECM e d me) (p.opts me.name) (cat2 x y) with
    | error x => exact ⟨rfl, rfl, rfl, rfl⟩
    | ok s =>
      simp only
      obtain ⟨a1, a2, a3, a4, a5, a6, a7, a8, a9, a10, a11, a12⟩ := solutionError_keeps e
        (setSolvedECM { g with last_model := some "ecm", full_return := p.full_return, x := some x, y := some y, args := some .ecm, step_fun := some .ecm } false s)
      exact ⟨a4, a1, a2, a7, fun hf => by rw [a5]; simp [setSolvedECM, hf]⟩

/-- C36 (ecm_exp) -/
theorem C36_ecm_exp (e : Env) (g : UAttr d) (me : Method) (guess : Guess n) (adj : AdjSpec n) (ma : String) (ga : Guess n) (p : Params)
    {x y : Fin n → ℝ} {guess' : Guess n} (h0 : guessECM e d true guess = (.ok (x, y), guess')) :
    ∃ C : Callbacks (Fin 2 × Fin n),
      (me ≠ .fixed_point → MinusGradient AdmECMexp (LECMexp d) C.fn) ∧
      (me = .newton → IsJacobian AdmECMexp C.fn C.jac) ∧
      (me = .quasinewton → IsJacobianDiag AdmECMexp C.fn C.jacDiag) ∧
      (me = .fixed_point → 2 ≤ n → (∀ i, d.dseq i ≠ 0) → (∀ i, 0 < d.strength_sequence i) → FixedAreStationary AdmECMexp (LECMexp d) C.fn) ∧
      (∃ F, (∀ v, AdmECMexp v → F v = some (LECMexp d v)) ∧
        ∀ x dx b a f, C.linsearch x dx b a f = linsearch_fun_ECM_exp x dx b a f F) ∧
      (∀ x dx dx' a b st, C.linsearchFixed x dx dx' a b st = linsearch_fun_ECM_exp_fixed x dx dx' a b st) ∧ C.hessian_regulariser = matrix_regulariser_function ∧
      let R := solve_tool e g "ecm_exp" me.name guess adj ma ga p
      match solver C (p.opts me.name) (cat2 x y) with
      | .error err => R.exc = some (.numeric err) ∧ R.g.solution_array = g.solution_array ∧ R.g.x = some x ∧ R.g.y = some y
      | .ok s => R.g.solution_array = some (.pairs s.x) ∧ R.g.x = some (fun i => Real.exp (-s.x (0, i))) ∧
        R.g.y = some (fun i => Real.exp (-s.x (1, i))) ∧ R.g.last_model = some "ecm_exp" ∧ (p.full_return = true → R.g.trace = some (.of s)) := by
  refine ⟨cbECMexp e d me, cbECMexp_gradient e d, fun h => h ▸ cbECMexp_jac e d, fun h => h ▸ cbECMexp_jacDiag e d, fun h => h ▸ cbECMexp_fixed e d,
    ⟨_, fun v ha => ?_, fun _ _ _ _ _ => rfl⟩, fun _ _ _ _ _ _ => rfl, rfl, ?_⟩
  · simp only [llF]; rw [if_pos (show ∀ i j : Fin n, i ≠ j → 0 < v (1, i) + v (1, j) from ha), ll_ecm_exp_spec]
  · simp only
    rw [solve_tool_ecm_exp e g me guess adj ma ga p h0]
    cases h : solver (cbECMexp e d me) (p.opts me.name) (cat2 x y) with
    | error x => exact ⟨rfl, rfl, rfl, rfl⟩
    | ok s =>
      simp only
      obtain ⟨a1, a2, a3, a4, a5, a6, a7, a8, a9, a10, a11, a12⟩ := solutionError_keeps e
        (setSolvedECM { g with last_model := some "ecm_exp", full_return := p.full_return, x := some x, y := some y, args := some .ecm, step_fun := some .ecm_exp } true s)
      exact ⟨a4, a1, a2, a7, fun hf => by rw [a5]; simp [setSolvedECM, hf]⟩

/-- C36 (crema on a given matrix without self-loops, "crema" on the probabilities `a`) -/
theorem C36_crema_matrix (e : Env) (g : UAttr d) (me : Method) (guess : Guess n) (a : Fin n → Fin n → ℝ) (hs : ∀ i j, a i j = a j i) (hd : ∀ i, a i i = 0)
    (ma : String) (ga : Guess n) (p : Params) {b : Fin n → ℝ} {guess' : Guess n} (h0 : guessCrema e d guess = (.ok b, guess')) :
    ∃ C : Callbacks (Fin n),
      (me ≠ .fixed_point → MinusGradient (AdmRate a) (logCReMa a d.strength_sequence) C.fn) ∧
      (me = .newton → IsJacobian (AdmRate a) C.fn C.jac) ∧
      (me = .quasinewton → IsJacobianDiag (AdmRate a) C.fn C.jacDiag) ∧
      (me = .fixed_point → (∀ i, d.strength_sequence i ≠ 0) → FixedAreStationary (fun β => ∀ i, 0 < β i) (logCReMa a d.strength_sequence) C.fn) ∧
      (∃ F, (∀ β, AdmRate a β → F β = some (logCReMa a d.strength_sequence β)) ∧
        ∀ x dx b a f, C.linsearch x dx b a f = some (linsearch_fun_crema_undirected x dx b a f F)) ∧
      (∀ x dx dx' a b st, C.linsearchFixed x dx dx' a b st = some (linsearch_fun_crema_undirected_fixed dx dx' a b st)) ∧ C.hessian_regulariser = matrix_regulariser_function ∧
      let R := solve_tool e g "crema" me.name guess (.matrix a) ma ga p
      match solver C (p.opts me.name) b with
      | .error err => R.exc = some (.numeric err) ∧ R.g.solution_array = g.solution_array ∧ R.g.beta = some b ∧ R.g.x = g.x
      | .ok s => R.g.solution_array = some (.nodes s.x) ∧ R.g.beta = some s.x ∧ R.g.x = g.x ∧ R.g.last_model = some "crema" ∧
        (p.full_return = true → R.g.trace_crema = some (.of s)) := by
  refine ⟨cbCrema e d (triuEdges a) me, cbCrema_gradient e d hs hd, fun h => h ▸ cbCrema_jac e d hs hd, fun h => h ▸ cbCrema_jacDiag e d hs hd,
    fun h => h ▸ cbCrema_fixed e d hs hd, ⟨_, fun v ha => ?_, fun _ _ _ _ _ => rfl⟩, fun _ _ _ _ _ _ => rfl, rfl, ?_⟩
  · simp only [llF]; rw [if_pos (adm_triu ha), ll_crema_spec a hs hd]
  · simp only
    rw [solve_tool_crema_matrix e g me guess a ma ga p h0]
    cases h : solver (cbCrema e d (triuEdges a) me) (p.opts me.name) b with
    | error x => exact ⟨rfl, rfl, rfl, rfl⟩
    | ok s =>
      simp only
      obtain ⟨a1, a2, a3, a4, a5, a6, a7, a8, a9, a10, a11, a12⟩ := solutionError_keeps e
        (setSolvedCrema { g with
          is_sparse := false, adjacency_crema := some (.edges (triuEdges a)), adjacency_given := some true,
          last_model := some "crema", full_return := p.full_return, beta := some b, args := some (.crema (.edges (triuEdges a))), step_fun := some .crema } s)
      exact ⟨a4, a3, a1, a7, fun hf => by rw [a6]; simp [setSolvedCrema, hf]⟩

/-- C36 (crema, default `adjacency="cm_exp"`): the UBCM is solved first (`t`), then the rates on its link probabilities. -/
theorem C36_crema (e : Env) (g : UAttr d) (me ma : Method) (guess ga : Guess n) (p : Params)
    {θ0 : Fin d.r → ℝ} (hθ : guessCM e.inner d true ga = .ok θ0) {b : Fin n → ℝ} {guess' : Guess n} (h0 : guessCrema e d guess = (.ok b, guess')) :
    ∃ C₀ : Callbacks (Fin d.r), (ma ≠ .fixed_point → MinusGradient (fun _ => True) (fun θ => logUBCM d.deg fun i => Real.exp (-θ (d.inv i))) C₀.fn) ∧
      ∀ t, solver C₀ (p.opts ma.name) θ0 = .ok t →
      let x : Fin n → ℝ := fun i => Real.exp (-t.x (d.inv i))
      ∃ C : Callbacks (Fin n),
      (me ≠ .fixed_point → MinusGradient (AdmRate (linkMatrix x)) (logCReMa (linkMatrix x) d.strength_sequence) C.fn) ∧
      (me = .newton → IsJacobian (AdmRate (linkMatrix x)) C.fn C.jac) ∧
      (me = .quasinewton → IsJacobianDiag (AdmRate (linkMatrix x)) C.fn C.jacDiag) ∧
      (me = .fixed_point → (∀ i, d.strength_sequence i ≠ 0) →
        FixedAreStationary (fun β => ∀ i, 0 < β i) (logCReMa (linkMatrix x) d.strength_sequence) C.fn) ∧
      (∃ F, (∀ β, AdmRate (linkMatrix x) β → F β = some (logCReMa (linkMatrix x) d.strength_sequence β)) ∧
        ∀ x dx b a f, C.linsearch x dx b a f = some (linsearch_fun_crema_undirected x dx b a f F)) ∧
      (∀ x dx dx' a b st, C.linsearchFixed x dx dx' a b st = some (linsearch_fun_crema_undirected_fixed dx dx' a b st)) ∧
      C.hessian_regulariser = matrix_regulariser_function ∧
      let R := solve_tool e g "crema" me.name guess (.name "cm_exp") ma.name ga p
      match solver C (p.opts me.name) b with
      | .error err => R.exc = some (.numeric err) ∧ R.g.solution_array = some (.reduced t.x) ∧ R.g.beta = some b ∧ R.g.x = some x
      | .ok s => R.g.solution_array = some (.nodes s.x) ∧ R.g.beta = some s.x ∧ R.g.x = some x ∧ R.g.last_model = some "crema" := by
  refine ⟨cbCMexp e.inner d ma, cbCMexp_gradient e.inner d, fun t ht => ?_⟩
  intro x
  have hs := linkMatrix_symm x
  have hd := linkMatrix_diag x
  refine ⟨cbCrema e d (triuEdges (linkMatrix x)) me, cbCrema_gradient e d hs hd, fun h => h ▸ cbCrema_jac e d hs hd, fun h => h ▸ cbCrema_jacDiag e d hs hd,
    fun h => h ▸ cbCrema_fixed e d hs hd, ⟨_, fun v ha => ?_, fun _ _ _ _ _ => rfl⟩, fun _ _ _ _ _ _ => rfl, rfl, ?_⟩
  · simp only [llF]; rw [if_pos (adm_triu ha), ll_crema_spec _ hs hd]
  simp only
  rw [solve_tool_crema_cm_exp e g me ma guess ga p hθ ht h0, pmatrix_spec]
  change match solver (cbCrema e d (triuEdges (linkMatrix x)) me) (p.opts me.name) b with | .error err => _ | .ok s => _
  cases h : solver (cbCrema e d (triuEdges (linkMatrix x)) me) (p.opts me.name) b with
  | error y => exact ⟨rfl, rfl, rfl, rfl⟩
  | ok s =>
    have k := fun g' : UAttr d => solutionError_keeps e g'
    exact ⟨(k _).2.2.2.1, (k _).2.2.1, (k _).1, (k _).2.2.2.2.2.2.1⟩

/-- C36 (crema-sparse, default `adjacency="cm_exp"`, quasinewton and fixed-point): the same problem as the dense implementation, except that the fixed-point
map aims at strengths larger by exp(-100). -/
theorem C36_crema_sparse (e : Env) (he : e.Valid) (g : UAttr d) (me ma : Method) (hme : me ≠ .newton) (guess ga : Guess n) (p : Params)
    {θ0 : Fin d.r → ℝ} (hθ : guessCM e.inner d true ga = .ok θ0) {b : Fin n → ℝ} {guess' : Guess n} (h0 : guessCrema e d guess = (.ok b, guess')) :
    ∃ C₀ : Callbacks (Fin d.r), (ma ≠ .fixed_point → MinusGradient (fun _ => True) (fun θ => logUBCM d.deg fun i => Real.exp (-θ (d.inv i))) C₀.fn) ∧
      ∀ t, solver C₀ (p.opts ma.name) θ0 = .ok t →
      let x : Fin n → ℝ := fun i => Real.exp (-t.x (d.inv i))
      ∃ C : Callbacks (Fin n),
      (me = .quasinewton → MinusGradient (AdmRate (linkMatrix x)) (logCReMa (linkMatrix x) d.strength_sequence) C.fn ∧
        IsJacobianDiag (AdmRate (linkMatrix x)) C.fn C.jacDiag) ∧
      (me = .fixed_point → (∀ i, 0 < d.strength_sequence i) →
        FixedAreStationary (fun β => ∀ i, 0 < β i) (logCReMa (linkMatrix x) fun i => d.strength_sequence i + Real.exp (-100)) C.fn) ∧
      (∃ F, (∀ β, (∀ i j, i ≠ j → 0 < β i + β j) → F β = some (logCReMa (linkMatrix x) d.strength_sequence β)) ∧
        ∀ x dx b a f, C.linsearch x dx b a f = some (linsearch_fun_crema_undirected x dx b a f F)) ∧
      (∀ x dx dx' a b st, C.linsearchFixed x dx dx' a b st = some (linsearch_fun_crema_undirected_fixed dx dx' a b st)) ∧
      C.hessian_regulariser = matrix_regulariser_function ∧
      let R := solve_tool e g "crema-sparse" me.name guess (.name "cm_exp") ma.name ga p
      match solver C (p.opts me.name) b with
      | .error err => R.exc = some (.numeric err) ∧ R.g.solution_array = some (.reduced t.x) ∧ R.g.beta = some b ∧ R.g.x = some x
      | .ok s => R.g.solution_array = some (.nodes s.x) ∧ R.g.beta = some s.x ∧ R.g.x = some x ∧ R.g.last_model = some "crema-sparse" := by
  refine ⟨cbCMexp e.inner d ma, cbCMexp_gradient e.inner d, fun t ht => ?_⟩
  intro x
  have hx : ∀ i, 0 ≤ x i := fun i => (Real.exp_pos _).le
  refine ⟨cbCremaSparse e d x me, fun h => ⟨cbSparse_gradient e he d x hx (by simp [h]), h ▸ cbSparse_jacDiag e he d x hx⟩,
    fun h => h ▸ cbSparse_fixed e he d x hx, ⟨_, fun v ha => ?_, fun _ _ _ _ _ => rfl⟩, fun _ _ _ _ _ _ => rfl, rfl, ?_⟩
  · simp only [llF]
    rw [if_pos ha, CReMa.C33_crema_likelihood v _ x hx, pmatrix_spec, ll_crema_spec _ (linkMatrix_symm x) (linkMatrix_diag x)]
  simp only
  rw [solve_tool_crema_sparse_cm_exp e g me ma hme guess ga p hθ ht h0]
  change match solver (cbCremaSparse e d x me) (p.opts me.name) b with | .error err => _ | .ok s => _
  cases h : solver (cbCremaSparse e d x me) (p.opts me.name) b with
  | error y => exact ⟨rfl, rfl, rfl, rfl⟩
  | ok s =>
    have k := fun g' : UAttr d => solutionError_keeps e g'
    exact ⟨(k _).2.2.2.1, (k _).2.2.1, (k _).1, (k _).2.2.2.2.2.2.1⟩

/-! ### C36: other names -/

theorem uLookup_unknown (mo : UModel) {method : String} (hm : ∀ me : Method, method ≠ me.name) (hc : mo = .crema → ∀ me : Method, method ≠ "sparse-" ++ me.name) :
    uLookup mo.name method = none := by
  cases h : uLookup mo.name method with
  | none => rfl
  | some v =>
    obtain ⟨mo', me⟩ := v
    rcases uLookup_some h with ⟨-, h1⟩ | ⟨h1, -, h2⟩
    · exact absurd h1 (hm me)
    · exact absurd h2 (hc h1 me)

/-- C36 (cm and cm_exp, unknown method): an exception, and the stored solution is as before. -/
theorem C36_unknown_method_binary (e : Env) (g : UAttr d) (mo : UModel) (hmo : mo = .cm ∨ mo = .cm_exp) (method : String)
    (hm : ∀ me : Method, method ≠ me.name) (guess : Guess n) (adj : AdjSpec n) (ma : String) (ga : Guess n) (p : Params) :
    let R := solve_tool e g mo.name method guess adj ma ga p
    R.exc ≠ none ∧ R.g.solution_array = g.solution_array ∧ R.g.x = g.x ∧ R.g.y = g.y ∧ R.g.beta = g.beta ∧
      ((∃ s, guess = .name s ∧ namedCM e d s ≠ none) → R.exc = some (.py .valueError)) := by
  have hl : uLookup mo.name method = none := uLookup_unknown mo hm (by rcases hmo with rfl | rfl <;> simp)
  have hn : mo.name = "cm" ∨ mo.name = "cm_exp" := by rcases hmo with rfl | rfl <;> simp [UModel.name]
  intro R
  have hR : R = solve_tool e g mo.name method guess adj ma ga p := rfl
  unfold solve_tool at hR
  rw [if_pos (by tauto)] at hR
  unfold solveProblem at hR
  rw [if_pos hn] at hR
  cases h : guessCM e d (decide (mo.name = "cm_exp")) guess with
  | error x =>
    rw [h] at hR
    rw [hR]
    refine ⟨by simp, rfl, rfl, rfl, rfl, ?_⟩
    rintro ⟨s, rfl, hs⟩
    unfold guessCM at h
    cases hv : namedCM e d s with
    | none => exact absurd hv hs
    | some v => simp [hv] at h
  | ok x0 =>
    rw [h] at hR
    simp only [hl] at hR
    rw [hR]
    exact ⟨by simp, rfl, rfl, rfl, rfl, fun _ => rfl⟩

/-- C36 (ecm and ecm_exp, unknown method): an exception, and `solution_array` is as before. -/
theorem C36_unknown_method_ecm_partial (e : Env) (g : UAttr d) (mo : UModel) (hmo : mo = .ecm ∨ mo = .ecm_exp) (method : String)
    (hm : ∀ me : Method, method ≠ me.name) (guess : Guess n) (adj : AdjSpec n) (ma : String) (ga : Guess n) (p : Params) :
    let R := solve_tool e g mo.name method guess adj ma ga p
    R.exc ≠ none ∧ R.g.solution_array = g.solution_array ∧ R.g.beta = g.beta := by
  have hl : uLookup mo.name method = none := uLookup_unknown mo hm (by rcases hmo with rfl | rfl <;> simp)
  have hn : mo.name = "ecm" ∨ mo.name = "ecm_exp" := by rcases hmo with rfl | rfl <;> simp [UModel.name]
  have hn' : ¬ (mo.name = "cm" ∨ mo.name = "cm_exp") := by rcases hmo with rfl | rfl <;> simp [UModel.name]
  intro R
  have hR : R = solve_tool e g mo.name method guess adj ma ga p := rfl
  unfold solve_tool at hR
  rw [if_pos (by tauto)] at hR
  unfold solveProblem at hR
  rw [if_neg hn', if_pos hn] at hR
  rcases h : guessECM e d (decide (mo.name = "ecm_exp")) guess with ⟨x | ⟨x, y⟩, guess'⟩
  · rw [h] at hR
    rw [hR]
    exact ⟨by simp, rfl, rfl⟩
  · rw [h] at hR
    simp only [hl] at hR
    rw [hR]
    exact ⟨by simp, rfl, rfl⟩

/-- C36 (ecm, unknown method), what is missing: the attributes `x` and `y` of an earlier solution are overwritten with the initial guess before the
exception is raised. -/
theorem C36_unknown_method_ecm_overwrites (e : Env) (g : UAttr d) (method : String) (hm : ∀ me : Method, method ≠ me.name) (adj : AdjSpec n) (ma : String)
    (ga : Guess n) (p : Params) (hd : ∀ i, d.dseq i ≠ 0) :
    let R := solve_tool e g "ecm" method (.name "uniform") adj ma ga p
    R.exc = some (.py .valueError) ∧ R.g.x = some fun _ => 0.001 := by
  have hl : uLookup "ecm" method = none := uLookup_unknown .ecm hm (by simp)
  intro R
  have hR : R = solve_tool e g "ecm" method (.name "uniform") adj ma ga p := rfl
  unfold solve_tool at hR
  rw [if_pos (by tauto)] at hR
  unfold solveProblem at hR
  rw [if_neg (by decide), if_pos (by simp)] at hR
  have h0 : guessECM e d (decide ("ecm" = "ecm_exp")) (.name "uniform") =
    (.ok (maskSet (fun _ => 0.001) (fun i => d.deg i = 0) 0, maskSet (fun _ => 0.001) (fun i => d.strength_sequence i = 0) 0), .name "uniform") := rfl
  rw [h0] at hR
  simp only [hl] at hR
  rw [hR]
  refine ⟨rfl, congrArg some ?_⟩
  funext i
  have : d.deg i ≠ 0 := by simp only [UData.deg]; exact_mod_cast hd i
  simp [maskSet, this]

/-- C36 (CReMa on a given matrix, unknown method): an exception, and `solution_array` and `x` are as before. -/
theorem C36_unknown_method_crema_partial (e : Env) (g : UAttr d) (mo : UModel) (hmo : mo = .crema ∨ mo = .crema_sparse) (method : String)
    (hm : ∀ me : Method, method ≠ me.name) (hc : ∀ me : Method, method ≠ "sparse-" ++ me.name) (guess : Guess n) (a : Fin n → Fin n → ℝ) (ma : String)
    (ga : Guess n) (p : Params) :
    let R := solve_tool e g mo.name method guess (.matrix a) ma ga p
    R.exc ≠ none ∧ R.g.solution_array = g.solution_array ∧ R.g.x = g.x := by
  have hl : uLookup mo.name method = none := uLookup_unknown mo hm (fun _ => hc)
  have hn : mo.name = "crema" ∨ mo.name = "crema-sparse" := by rcases hmo with rfl | rfl <;> simp [UModel.name]
  have hn' : ¬ (mo.name = "cm" ∨ mo.name = "cm_exp" ∨ mo.name = "ecm" ∨ mo.name = "ecm_exp") := by rcases hmo with rfl | rfl <;> simp [UModel.name]
  intro R
  have hR : R = solve_tool e g mo.name method guess (.matrix a) ma ga p := rfl
  unfold solve_tool at hR
  rw [if_neg hn', if_pos hn] at hR
  unfold solveProblemCrema solveCremaTail at hR
  simp only [Bool.false_eq_true, if_false] at hR
  rcases h : guessCrema e d guess with ⟨x | b, guess'⟩
  · simp only [h] at hR
    rw [hR]
    exact ⟨by simp, rfl, rfl⟩
  · simp only [h, hl] at hR
    rw [hR]
    exact ⟨by simp, rfl, rfl⟩

/-- C36 is false for model names: an unknown model raises no exception on a fresh graph, nothing is solved. -/
theorem C36_unknown_model_silent (e : Env) (g : UAttr d) (hg : g.last_model = none) (model : String) (hm : ∀ mo : UModel, model ≠ mo.name) (method : String)
    (guess : Guess n) (adj : AdjSpec n) (ma : String) (ga : Guess n) (p : Params) :
    let R := solve_tool e g model method guess adj ma ga p
    R.exc = none ∧ R.g = g := by
  have h1 := hm .cm; have h2 := hm .cm_exp; have h3 := hm .ecm; have h4 := hm .ecm_exp; have h5 := hm .crema; have h6 := hm .crema_sparse
  simp only [UModel.name] at h1 h2 h3 h4 h5 h6
  intro R
  have hR : R = solve_tool e g model method guess adj ma ga p := rfl
  unfold solve_tool at hR
  rw [if_neg (by tauto), if_neg (by tauto)] at hR
  simp only [solutionError, hg, reduceCtorEq, false_or, if_false] at hR
  rw [hR]
  exact ⟨rfl, rfl⟩

example : (∀ mo : UModel, "ubcm" ≠ mo.name) ∧ (∀ me : Method, "bfgs" ≠ me.name) ∧ ∀ me : Method, "bfgs" ≠ "sparse-" ++ me.name := by
  refine ⟨fun mo => by cases mo <;> decide, fun me => by cases me <;> decide, fun me => by cases me <;> decide⟩

/-- C36: the pair ("crema", "sparse-newton") is accepted as if it were ("crema-sparse", "newton"), because the two names are joined with a hyphen before the
lookup: no `ValueError`, the call fails only inside the solver (`UnboundLocalError`, or the shapes do not match), after the rates have been overwritten, and with
`max_steps=0` and as many links in the matrix as nodes it returns normally. -/
theorem C36_key_clash (e : Env) (g : UAttr d) (me : Method) (guess : Guess n) (a : Fin n → Fin n → ℝ) (ma : String) (ga : Guess n) (p : Params)
    {b : Fin n → ℝ} {guess' : Guess n} (h0 : guessCrema e d guess = (.ok b, guess')) :
    let R := solve_tool e g "crema" ("sparse-" ++ me.name) guess (.matrix a) ma ga p
    R.exc ≠ some (.py .valueError) ∧ R.g.beta = some b ∧
      (p.max_steps = 0 → (triuEdges a).length = n → R.exc = none ∧ R.g.solution_array = some (.nodes b)) := by
  have hl : uLookup "crema" ("sparse-" ++ me.name) = some (.crema_sparse, me) := by cases me <;> decide
  have hnn : "sparse-" ++ me.name ≠ "newton" := by cases me <;> decide
  intro R
  have hR : R = solve_tool e g "crema" ("sparse-" ++ me.name) guess (.matrix a) ma ga p := rfl
  unfold solve_tool at hR
  rw [if_neg (by decide), if_pos (by simp)] at hR
  unfold solveProblemCrema solveCremaTail at hR
  simp only [Bool.false_eq_true, if_false, h0, hl] at hR
  by_cases hlen : (triuEdges a).length = n
  swap
  · rw [if_neg hlen] at hR
    rw [hR]
    exact ⟨by simp, rfl, fun _ h => absurd h hlen⟩
  rw [if_pos hlen] at hR
  set C := cbCremaSparseOn e d (triuEdges a) me with hC
  have hm : ∀ x f, direction C (p.opts ("sparse-" ++ me.name)) x f = .error .unboundDx := by
    intro x f
    unfold direction
    have h1 : (p.opts ("sparse-" ++ me.name)).method = "sparse-" ++ me.name := rfl
    rw [h1, if_neg hnn, if_neg (by cases me <;> decide), if_neg (by cases me <;> decide)]
  cases h : solver C (p.opts ("sparse-" ++ me.name)) b with
  | error x =>
    rw [h] at hR
    rw [hR]
    refine ⟨by simp, rfl, fun h0 _ => ?_⟩
    rw [C15_solver_no_step C _ b (.inl h0)] at h
    simp at h
  | ok s =>
    rw [h] at hR
    obtain ⟨xs, hx⟩ := C15_solver_history C _ b s h
    have hn : s.n_steps = 0 := by
      by_contra hn
      obtain ⟨dx, a, h1, -⟩ := hx.moves 0 (Nat.pos_of_ne_zero hn)
      rw [hm] at h1
      simp at h1
    have hsx : s.x = b := by rw [← hx.stop, hn, hx.start]
    simp only at hR
    have k := fun g' : UAttr d => solutionError_keeps e g'
    have hexc : R.exc = none := by
      rw [hR]
      simp only [solutionError]
      rw [if_pos (by simp [setSolvedCrema])]
      unfold strengthError
      simp only [(degreeError_keeps _).2.2.1, (degreeError_keeps _).2.2.2.2.2.2.2.2.2.1, (degreeError_keeps _).2.2.2.2.2.2.2.2.2.2.1,
        (degreeError_keeps _).2.2.2.2.2.2.2.2.2.2.2, setSolvedCrema, Bool.false_eq_true, if_false]
    refine ⟨by rw [hexc]; simp, ?_, fun _ _ => ⟨hexc, ?_⟩⟩
    · rw [hR, ← hsx]; exact (k _).2.2.1
    · rw [hR, ← hsx]; exact (k _).2.2.2.1

end Verif.Solve
