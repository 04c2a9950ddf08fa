import Verif.Props.LineSearch
import Verif.Props.SolveU4
import Verif.Props.SolveU5
import Verif.Props.SolveD3
import Verif.Props.SolveD5
import Verif.Props.Sampler

/-!
What holds along every run of `solver`, whatever its length: the parameters stay in the domain of the model (C16), so that the domain hypotheses of C13 are
met by construction, and nodes with degree zero keep the parameter zero (C41).
-/

set_option linter.unusedSectionVars false

namespace Verif.Solve

open Verif Finset Reduction Solver Spec

noncomputable section

section general

variable {ι : Type} [Fintype ι] [DecidableEq ι] [Nonempty ι]

/-- an invariant of the points visited by a run -/
theorem solver_point_inv (C : Callbacks ι) (o : Opts) (P : (ι → ℝ) → Prop)
    (hstep : ∀ s : State ι, ∀ dx alfa, P s.x → s.f = C.fn s.x → direction C o s.x s.f = .ok dx → stepLength C o s dx = .ok alfa → P (s.x + alfa • dx))
    {x0 : ι → ℝ} {r : State ι} (h0 : P x0) (h : solver C o x0 = .ok r) : P r.x := by
  have := loop_inv C o (fun s => P s.x ∧ s.f = C.fn s.x) (fun s s' _ _ hs h => by
    obtain ⟨dx, alfa, h1, h2, rfl⟩ := step_ok h
    exact ⟨hstep s dx alfa hs.1 hs.2 h1 h2, rfl⟩) _ _ r ⟨h0, rfl⟩ h
  exact this.1

/-- with the line search on, the step length is the one the line search of the method returned -/
theorem stepLength_linsearch' {C : Callbacks ι} {o : Opts} (hl : o.linsearch = true) {s : State ι} {dx : ι → ℝ} {alfa : ℝ}
    (hd : ∃ y f, direction C o y f = .ok dx) (h : stepLength C o s dx = .ok alfa) :
    C.linsearch s.x dx 0.5 1 s.f = some alfa ∨ (o.method = "fixed-point" ∧ C.linsearchFixed s.x dx s.dx_old 1 0.5 s.n_steps = some alfa) := by
  unfold stepLength at h
  split_ifs at h with h1 h2
  · cases hc : C.linsearch s.x dx 0.5 1 s.f with
    | none => simp [hc] at h
    | some a => simp only [hc, Except.ok.injEq] at h; left; rw [h]
  · cases hc : C.linsearchFixed s.x dx s.dx_old 1 0.5 s.n_steps with
    | none => simp [hc] at h
    | some a => simp only [hc, Except.ok.injEq] at h; right; exact ⟨h2.2, by rw [h]⟩
  · exfalso
    obtain ⟨y, f, hd⟩ := hd
    unfold direction at hd
    split_ifs at hd with a b c d <;> simp_all

theorem stepLength_linsearch {C : Callbacks ι} {o : Opts} (hl : o.linsearch = true) {s : State ι} {dx : ι → ℝ} {alfa : ℝ}
    (hd : ∃ y f, direction C o y f = .ok dx) (h : stepLength C o s dx = .ok alfa) :
    C.linsearch s.x dx 0.5 1 s.f = some alfa ∨ C.linsearchFixed s.x dx s.dx_old 1 0.5 s.n_steps = some alfa :=
  (stepLength_linsearch' hl hd h).imp id And.right

/-- `np.linalg.solve` on a system with a zero right-hand side in a row that is zero off the diagonal -/
theorem linalgSolve_zero {B : Matrix ι ι ℝ} {b dx : ι → ℝ} (h : linalgSolve B b = .ok dx) (i : ι) (hB : ∀ j, j ≠ i → B i j = 0) (hb : b i = 0) : dx i = 0 := by
  unfold linalgSolve at h
  split_ifs at h with hdet
  simp only [Except.ok.injEq] at h
  have hm : B.mulVec dx = b := by
    rw [← h, Matrix.mulVec_mulVec, Matrix.mul_nonsing_inv _ (isUnit_iff_ne_zero.2 hdet), Matrix.one_mulVec]
  have hrow : B i i * dx i = 0 := by
    have := congrFun hm i
    simp only [Matrix.mulVec, dotProduct] at this
    rw [sum_eq_single i (fun j _ hj => by rw [hB j hj, zero_mul]) (by simp), hb] at this
    exact this
  rcases mul_eq_zero.1 hrow with h0 | h0
  · exfalso
    apply hdet
    exact Matrix.det_eq_zero_of_row_eq_zero i fun j => by
      by_cases hj : j = i
      · rw [hj, h0]
      · exact hB j hj
  · exact h0

/-- the eigenvalue regulariser keeps a row that is zero off the diagonal -/
theorem eigen_row {b : Matrix ι ι ℝ} {t : ι → ℝ} {e : Matrix ι ι ℝ} (h : IsEigh b t e) (eps : ℝ) (i : ι) (hb : ∀ j, j ≠ i → b i j = 0) (j : ι) (hj : j ≠ i) :
    matrix_regulariser_function_eigen_based t e eps i j = 0 := by
  have hbe : b * e = e * Matrix.diagonal t := by
    conv_lhs => rw [h.decomp]
    rw [Matrix.mul_assoc, h.orth, Matrix.mul_one]
  have hk : ∀ k, e i k * t k = b i i * e i k := by
    intro k
    have := congrFun (congrFun hbe i) k
    rw [Matrix.mul_apply, Matrix.mul_diagonal, sum_eq_single i (fun j _ hj => by rw [hb j hj, zero_mul]) (by simp)] at this
    exact this.symm
  have hee : e * e.transpose = 1 := mul_eq_one_comm.1 h.orth
  set v : ℝ := (if b i i > eps then 0 else eps - b i i) + b i i with hv
  have hrow : ∀ k, e i k * ((if t k > eps then 0 else eps - t k) + t k) = v * e i k := by
    intro k
    by_cases h0 : e i k = 0
    · simp [h0]
    · have : t k = b i i := mul_left_cancel₀ h0 ((hk k).trans (mul_comm _ _))
      rw [this, hv, mul_comm]
  show (e * (Matrix.diagonal (fun i => if t i > eps then 0 else eps - t i) + Matrix.diagonal t) * e.transpose) i j = 0
  rw [Matrix.diagonal_add, Matrix.mul_apply]
  have : ∀ k, (e * Matrix.diagonal fun i => (if t i > eps then 0 else eps - t i) + t i) i k * e.transpose k j = v * (e i k * e.transpose k j) := by
    intro k
    rw [Matrix.mul_diagonal, hrow, mul_assoc]
  simp only [this]
  rw [← mul_sum, ← Matrix.mul_apply, hee, Matrix.one_apply_ne (Ne.symm hj), mul_zero]

theorem eigenRegulariser_row (e : Env) (he : e.Valid) {b : Matrix ι ι ℝ} (eps : ℝ) (i : ι) (hb : ∀ j, j ≠ i → b i j = 0 ∧ b j i = 0) (j : ι) (hj : j ≠ i) :
    eigenRegulariser e b eps i j = 0 := by
  refine eigen_row (he.eigh ι ((0.5 : ℝ) • (b + b.transpose)) ?_) eps i (fun j hj => ?_) j hj
  · rw [Matrix.transpose_smul, Matrix.transpose_add, Matrix.transpose_transpose, add_comm]
  · simp [hb j hj]

theorem matrix_regulariser_row {b : Matrix ι ι ℝ} (eps : ℝ) (i : ι) (hb : ∀ j, j ≠ i → b i j = 0 ∧ b j i = 0) (j : ι) (hj : j ≠ i) :
    matrix_regulariser_function b eps i j = 0 := by
  simp [matrix_regulariser_function, hb j hj, Matrix.one_apply_ne (Ne.symm hj)]

theorem ite_ok {α ε : Type*} {c : Prop} {inst : Decidable c} {e : ε} {v w : α} (h : (if c then Except.error e else Except.ok v : Except ε α) = .ok w) : v = w := by
  by_cases hc : c
  · rw [if_pos hc] at h; simp at h
  · rw [if_neg hc] at h; simpa using h

/-- a coordinate with zero residual whose row of the Hessian is zero off the diagonal does not move -/
theorem direction_zero {C : Callbacks ι} {o : Opts} {x f dx : ι → ℝ} (h : direction C o x f = .ok dx) (i : ι) (hf : f i = 0)
    (hJ : ∀ j, j ≠ i → C.jac x i j = 0)
    (hR : ∀ eps, ∀ j, j ≠ i → C.hessian_regulariser (C.jac x) eps i j = 0) (hx : o.method = "fixed-point" → x i = 0) : dx i = 0 := by
  unfold direction at h
  split_ifs at h with h1 h2 h3 h4 h5 h6 h7 h8
  all_goals first
    | (refine linalgSolve_zero h i ?_ (by simp [hf]); first | exact hR _ | exact hJ)
    | (have h := ite_ok h; rw [← h]; simp [hf]; done)
    | (simp only [Except.ok.injEq] at h; rw [← h]; simp [hf, hx ‹_›]; done)

end general

/-! ### C41: nodes with zero degree -/

section dcm
variable {n : ℕ} [NeZero n] {d : DData n}

open DCM in
theorem dcm_prime_zero (x : Fin 2 × Fin d.r → ℝ) (v : Fin 2 × Fin d.r) (hv : concat d.ko d.ki v = 0) :
    loglikelihood_prime_dcm x d.ko d.ki (nonzero d.ko) (nonzero d.ki) d.c v = 0 ∧
    loglikelihood_prime_dcm_exp x d.ko d.ki (nonzero d.ko) (nonzero d.ki) d.c v = 0 := by
  obtain ⟨b, q⟩ := v
  fin_cases b
  · have hv : d.ko q = 0 := hv
    have hm : q ∉ nonzero d.ko := by simp [mem_nonzero, hv]
    exact ⟨(prime_eq0 _ _ _ _ _ _ (nodup_nonzero _) q).trans (if_neg hm), (prime_exp_eq0 _ _ _ _ _ _ (nodup_nonzero _) q).trans (if_neg hm)⟩
  · have hv : d.ki q = 0 := hv
    have hm : q ∉ nonzero d.ki := by simp [mem_nonzero, hv]
    exact ⟨(prime_eq1 _ _ _ _ _ _ (nodup_nonzero _) q).trans (if_neg hm), (prime_exp_eq1 _ _ _ _ _ _ (nodup_nonzero _) q).trans (if_neg hm)⟩

open DCM in
theorem dcm_row_zero (x : Fin 2 × Fin d.r → ℝ) (v : Fin 2 × Fin d.r) (hv : concat d.ko d.ki v = 0) (u : Fin 2 × Fin d.r) :
    loglikelihood_hessian_dcm x d.ko d.ki (nonzero d.ko) (nonzero d.ki) d.c v u = 0 ∧
    loglikelihood_hessian_dcm x d.ko d.ki (nonzero d.ko) (nonzero d.ki) d.c u v = 0 := by
  obtain ⟨b, q⟩ := v
  obtain ⟨b', q'⟩ := u
  have h00 := fun a b => hess_eq00 x d.ko d.ki (nonzero d.ko) (nonzero d.ki) d.c (nodup_nonzero _) a b
  have h01 := fun a b => hess_eq01 x d.ko d.ki (nonzero d.ko) (nonzero d.ki) d.c a b
  have h10 := fun a b => hess_eq10 x d.ko d.ki (nonzero d.ko) (nonzero d.ki) d.c a b
  have h11 := fun a b => hess_eq11 x d.ko d.ki (nonzero d.ko) (nonzero d.ki) d.c (nodup_nonzero _) a b
  fin_cases b
  · have hv : d.ko q = 0 := hv
    have hm : q ∉ nonzero d.ko := by simp [mem_nonzero, hv]
    fin_cases b'
    · exact ⟨(h00 q q').trans (if_neg fun h => hm h.1), (h00 q' q).trans (if_neg (by rintro ⟨h1, h2⟩; exact hm (h2 ▸ h1)))⟩
    · exact ⟨(h01 q q').trans (if_neg fun h => hm h.1), (h10 q' q).trans (if_neg fun h => hm h.2)⟩
  · have hv : d.ki q = 0 := hv
    have hm : q ∉ nonzero d.ki := by simp [mem_nonzero, hv]
    fin_cases b'
    · exact ⟨(h10 q q').trans (if_neg fun h => hm h.1), (h01 q' q).trans (if_neg fun h => hm h.2)⟩
    · exact ⟨(h11 q q').trans (if_neg fun h => hm h.1), (h11 q' q).trans (if_neg (by rintro ⟨h1, h2⟩; exact hm (h2 ▸ h1)))⟩

open DCM in
theorem dcm_exp_row_zero (x : Fin 2 × Fin d.r → ℝ) (v : Fin 2 × Fin d.r) (hv : concat d.ko d.ki v = 0) (u : Fin 2 × Fin d.r) :
    loglikelihood_hessian_dcm_exp x d.ko d.ki (nonzero d.ko) (nonzero d.ki) d.c v u = 0 ∧
    loglikelihood_hessian_dcm_exp x d.ko d.ki (nonzero d.ko) (nonzero d.ki) d.c u v = 0 := by
  obtain ⟨b, q⟩ := v
  obtain ⟨b', q'⟩ := u
  have hh := fun a b => hess_exp_eq x d.ko d.ki (nonzero d.ko) (nonzero d.ki) d.c (nodup_nonzero _) (nodup_nonzero _) a b
  fin_cases b
  · have hv : d.ko q = 0 := hv
    have hm : q ∉ nonzero d.ko := by simp [mem_nonzero, hv]
    fin_cases b'
    · exact ⟨(hh q q').1.trans (if_neg fun h => hm h.1), (hh q' q).1.trans (if_neg (by rintro ⟨h1, h2⟩; exact hm (h2 ▸ h1)))⟩
    · exact ⟨(hh q q').2.1.trans (if_neg fun h => hm h.1), (hh q' q).2.2.2.trans (if_neg fun h => hm h.2)⟩
  · have hv : d.ki q = 0 := hv
    have hm : q ∉ nonzero d.ki := by simp [mem_nonzero, hv]
    fin_cases b'
    · exact ⟨(hh q q').2.2.2.trans (if_neg fun h => hm h.1), (hh q' q).2.1.trans (if_neg fun h => hm h.2)⟩
    · exact ⟨(hh q q').2.2.1.trans (if_neg fun h => hm h.1), (hh q' q).2.2.1.trans (if_neg (by rintro ⟨h1, h2⟩; exact hm (h2 ▸ h1)))⟩

/-- along a run of `dcm` an entry of degree zero does not move -/
theorem dcm_direction_zero (e : Env) (he : e.Valid) (me : Method) (p : Params) {x dx : Fin 2 × Fin d.r → ℝ}
    (h : direction (cbDCM e d me) (p.opts me.name) x ((cbDCM e d me).fn x) = .ok dx) (v : Fin 2 × Fin d.r) (hv : DCM.concat d.ko d.ki v = 0) (hx : x v = 0) :
    dx v = 0 := by
  refine direction_zero h v ?_ (fun u _ => ?_) (fun eps => ?_) (fun _ => hx)
  · cases me
    · show -_ = _; rw [(dcm_prime_zero x v hv).1, neg_zero]
    · show -_ = _; rw [(dcm_prime_zero x v hv).1, neg_zero]
    · show DCM.concat d.ko d.ki v / _ = _; rw [hv, zero_div]
  · show -_ = _; rw [(dcm_row_zero x v hv u).1, neg_zero]
  · refine eigenRegulariser_row e he eps v fun u _ => ⟨?_, ?_⟩
    · show -_ = _; rw [(dcm_row_zero x v hv u).1, neg_zero]
    · show -_ = _; rw [(dcm_row_zero x v hv u).2, neg_zero]

/-- along a Newton or quasi-Newton run of `dcm_exp` an entry of degree zero does not move -/
theorem dcm_exp_direction_zero (e : Env) (me : Method) (hme : me ≠ .fixed_point) (p : Params) {x dx : Fin 2 × Fin d.r → ℝ}
    (h : direction (cbDCMexp e d me) (p.opts me.name) x ((cbDCMexp e d me).fn x) = .ok dx) (v : Fin 2 × Fin d.r) (hv : DCM.concat d.ko d.ki v = 0) :
    dx v = 0 := by
  refine direction_zero h v ?_ (fun u _ => ?_) (fun eps => ?_) (fun hm => ?_)
  · cases me
    · show -_ = _; rw [(dcm_prime_zero x v hv).2, neg_zero]
    · show -_ = _; rw [(dcm_prime_zero x v hv).2, neg_zero]
    · exact absurd rfl hme
  · show -_ = _; rw [(dcm_exp_row_zero x v hv u).1, neg_zero]
  · refine matrix_regulariser_row eps v fun u _ => ⟨?_, ?_⟩
    · show -_ = _; rw [(dcm_exp_row_zero x v hv u).1, neg_zero]
    · show -_ = _; rw [(dcm_exp_row_zero x v hv u).2, neg_zero]
  · cases me
    · simp [Params.opts, Method.name] at hm
    · simp [Params.opts, Method.name] at hm
    · exact absurd rfl hme

theorem finishDCM_zero (isExp : Bool) (x y : Fin d.r → ℝ) (v : Fin 2 × Fin d.r) (hv : DCM.concat d.ko d.ki v = 0) :
    finishDCM d isExp x y v = if isExp then 1e3 else 0 := by
  obtain ⟨b, q⟩ := v
  unfold finishDCM
  fin_cases b
  · have hv : d.ko q = 0 := hv
    cases isExp <;> simp [cat2, maskSet, hv]
  · have hv : d.ki q = 0 := hv
    cases isExp <;> simp [cat2, maskSet, hv]

theorem guessDCM_zero (e : Env) (isExp : Bool) (guess : DGuess n) {x0 : Fin 2 × Fin d.r → ℝ} (h : guessDCM e d isExp guess = .ok x0) (v : Fin 2 × Fin d.r)
    (hv : DCM.concat d.ko d.ki v = 0) : x0 v = if isExp then 1e3 else 0 := by
  unfold guessDCM at h
  cases guess with
  | other => simp at h
  | name s =>
    cases hs : namedDCM e d s with
    | none => simp [hs] at h
    | some z => obtain ⟨x, y⟩ := z; simp only [hs, Except.ok.injEq] at h; rw [← h]; exact finishDCM_zero _ _ _ v hv
  | nodes v => simp at h
  | pairs w => simp only [Except.ok.injEq] at h; rw [← h]; exact finishDCM_zero _ _ _ v hv
  | quads w => simp only [Except.ok.injEq] at h; rw [← h]; exact finishDCM_zero _ _ _ v hv

theorem concat_out_zero (i : Fin n) (h : d.dseq_out i = 0) : DCM.concat d.ko d.ki (0, d.inv i) = 0 := by
  show d.ko (d.inv i) = 0
  rw [(d.class_of i).1]; simp [DData.degOut, h]

theorem concat_in_zero (i : Fin n) (h : d.dseq_in i = 0) : DCM.concat d.ko d.ki (1, d.inv i) = 0 := by
  show d.ki (d.inv i) = 0
  rw [(d.class_of i).2]; simp [DData.degIn, h]

/-- C41 (dcm): whatever the method, the initial guess and the options, when `solve_tool("dcm")` returns, the nodes without outgoing links have `x = 0` and the
nodes without incoming links have `y = 0`, so that the model gives them no such link and leaves them out of every expectation. -/
theorem C41_dcm (e : Env) (he : e.Valid) (g : DAttr d) (method : String) (guess : DGuess n) (adj : AdjSpec n) (ma : String) (ga : DGuess n) (p : Params) :
    let R := solve_tool_directed e g "dcm" method guess adj ma ga p
    R.exc = none → ∃ x y, R.g.x = some x ∧ R.g.y = some y ∧
      (∀ i, d.dseq_out i = 0 → x i = 0 ∧ outDBCM x y i = 0 ∧ ∀ j, linkDBCM x y i j = 0) ∧
      (∀ i, d.dseq_in i = 0 → y i = 0 ∧ inDBCM x y i = 0 ∧ ∀ j, linkDBCM x y j i = 0) := by
  intro R h
  obtain ⟨me, x0, s, rfl, h0, hs, hG, -⟩ := solve_tool_ok_dcm e g method guess adj ma ga p h
  rw [show R = _ from hG]
  refine ⟨fun i => s.x (0, d.inv i), fun i => s.x (1, d.inv i), keepsD DAttr.x (fun _ => rfl) _, keepsD DAttr.y (fun _ => rfl) _, ?_⟩
  have key : ∀ v, DCM.concat d.ko d.ki v = 0 → s.x v = 0 := by
    refine solver_point_inv _ _ (fun x => ∀ v, DCM.concat d.ko d.ki v = 0 → x v = 0) ?_ (fun v hv => guessDCM_zero e false guess h0 v hv) hs
    intro s dx alfa hP hf hd _ v hv
    rw [hf] at hd
    simp [hP v hv, dcm_direction_zero e he me p hd v hv (hP v hv)]
  refine ⟨fun i hi => ?_, fun i hi => ?_⟩
  · have h1 := key _ (concat_out_zero i hi)
    exact ⟨h1, sum_eq_zero fun j _ => by simp [linkDBCM, h1], fun j => by simp [linkDBCM, h1]⟩
  · have h1 := key _ (concat_in_zero i hi)
    exact ⟨h1, sum_eq_zero fun j _ => by simp [linkDBCM, h1], fun j => by simp [linkDBCM, h1]⟩

/-- C41 (dcm_exp): with newton and quasinewton the multiplier of an out- or in-degree zero keeps its initial value 1000 through the whole run, so that the
fitness is `exp (-1000)`, which double precision rounds to 0. -/
theorem C41_dcm_exp_partial (e : Env) (g : DAttr d) (me : Method) (hme : me ≠ .fixed_point) (guess : DGuess n) (adj : AdjSpec n) (ma : String) (ga : DGuess n) (p : Params) :
    let R := solve_tool_directed e g "dcm_exp" me.name guess adj ma ga p
    R.exc = none → ∃ x y, R.g.x = some x ∧ R.g.y = some y ∧
      (∀ i, d.dseq_out i = 0 → x i = Real.exp (-1000)) ∧ (∀ i, d.dseq_in i = 0 → y i = Real.exp (-1000)) := by
  intro R h
  obtain ⟨me', x0, s, hm, h0, hs, hG, -⟩ := solve_tool_ok_dcm_exp e g me.name guess adj ma ga p h
  have hme' : me' = me := by revert hm; cases me <;> cases me' <;> simp [Method.name]
  subst hme'
  rw [show R = _ from hG]
  refine ⟨fun i => Real.exp (-s.x (0, d.inv i)), fun i => Real.exp (-s.x (1, d.inv i)), keepsD DAttr.x (fun _ => rfl) _, keepsD DAttr.y (fun _ => rfl) _, ?_⟩
  have key : ∀ v, DCM.concat d.ko d.ki v = 0 → s.x v = 1e3 := by
    refine solver_point_inv _ _ (fun x => ∀ v, DCM.concat d.ko d.ki v = 0 → x v = 1e3) ?_ (fun v hv => guessDCM_zero e true guess h0 v hv) hs
    intro s dx alfa hP hf hd _ v hv
    rw [hf] at hd
    simp [hP v hv, dcm_exp_direction_zero e me' hme p hd v hv]
  refine ⟨fun i hi => ?_, fun i hi => ?_⟩
  · show Real.exp (-s.x (0, d.inv i)) = _
    rw [key _ (concat_out_zero i hi)]; norm_num
  · show Real.exp (-s.x (1, d.inv i)) = _
    rw [key _ (concat_in_zero i hi)]; norm_num

/-- the step of `dcm` with the line search on keeps the parameters of the non-zero degrees positive -/
theorem dcm_step_pos (e : Env) (he : e.Valid) (me : Method) (p : Params) (hl : p.linsearch = true) (s : State (Fin 2 × Fin d.r)) (dx : Fin 2 × Fin d.r → ℝ) (alfa : ℝ)
    (hP : AdmDCM0 d s.x) (hf : s.f = (cbDCM e d me).fn s.x) (hd : direction (cbDCM e d me) (p.opts me.name) s.x s.f = .ok dx)
    (hsl : stepLength (cbDCM e d me) (p.opts me.name) s dx = .ok alfa) : AdmDCM0 d (s.x + alfa • dx) := by
  have hstep : ∀ x : Fin 2 × Fin d.r → ℝ, AdmDCM0 d x ↔ ∀ v, (DCM.concat d.ko d.ki v ≠ 0 → 0 < x v) ∧ (DCM.concat d.ko d.ki v = 0 → x v = 0) := by
    intro x
    refine ⟨fun h v => ?_, fun h => ⟨⟨fun q => (h (0, q)).1, fun q => (h (1, q)).1⟩, fun q => (h (0, q)).2, fun q => (h (1, q)).2⟩⟩
    obtain ⟨b, q⟩ := v
    fin_cases b
    · exact ⟨h.1.1 q, h.2.1 q⟩
    · exact ⟨h.1.2 q, h.2.2 q⟩
  rw [hstep] at hP ⊢
  have hz : ∀ v, DCM.concat d.ko d.ki v = 0 → dx v = 0 := fun v hv => dcm_direction_zero e he me p (hf ▸ hd) v hv ((hP v).2 hv)
  have hnn : ∀ v, 0 ≤ s.x v ∧ (s.x v = 0 → 0 ≤ dx v) := fun v => by
    by_cases hv : DCM.concat d.ko d.ki v = 0
    · exact ⟨((hP v).2 hv).ge, fun _ => (hz v hv).ge⟩
    · exact ⟨((hP v).1 hv).le, fun h => absurd h ((hP v).1 hv).ne'⟩
  have hkeep : KeepsPercent s.x dx alfa := by
    have ho : ∀ v, v ∈ blocks 2 d.r := fun v => by simp [blocks]
    rcases stepLength_linsearch (by simpa [Params.opts] using hl) ⟨_, _, hd⟩ hsl with h | h
    · have := (C16_linsearch_dcm (blocks 2 d.r) ho s.x dx s.f (llF e (fun x => (∀ q, d.ko q ≠ 0 → 0 < x (0, q)) ∧ ∀ q, d.ki q ≠ 0 → 0 < x (1, q))
        fun x => DCM.loglikelihood_dcm x d.ko d.ki (DCM.nonzero d.ko) (DCM.nonzero d.ki) d.c) 0.5 1 (by norm_num) (by norm_num) (by norm_num)).2 hnn
      rw [← Option.some.inj h]; exact this
    · have := (C16_linsearch_dcm_fixed (blocks 2 d.r) ho s.x dx s.dx_old 0.5 1 s.n_steps (by norm_num) (by norm_num) (by norm_num)).2.2.1 hnn
      rw [← Option.some.inj h]; exact this
  intro v
  refine ⟨fun hv => ?_, fun hv => by simp [(hP v).2 hv, hz v hv]⟩
  have h1 := hkeep v
  have h2 := (hP v).1 hv
  simp only [Pi.add_apply, Pi.smul_apply, smul_eq_mul]
  linarith [show 0 < s.x v / 100 by positivity]

theorem dcm_run_pos (e : Env) (he : e.Valid) (me : Method) (p : Params) (hl : p.linsearch = true) {x0 : Fin 2 × Fin d.r → ℝ} {s : State (Fin 2 × Fin d.r)}
    (h0 : AdmDCM0 d x0) (hs : solver (cbDCM e d me) (p.opts me.name) x0 = .ok s) : AdmDCM0 d s.x :=
  solver_point_inv _ _ (AdmDCM0 d) (dcm_step_pos e he me p hl) h0 hs

/-- C16 along a whole run (dcm): with the line search on, every method and every named guess, the returned parameters are positive where the degree is not zero
and zero where it is. -/
theorem C16_dcm_run (e : Env) (he : e.Valid) (hr : e.NonzeroDraws) (hsum : ∑ i, d.dseq_in i = ∑ i, d.dseq_out i) (g : DAttr d) (method name : String)
    (adj : AdjSpec n) (ma : String) (ga : DGuess n) (p : Params) (hl : p.linsearch = true) :
    let R := solve_tool_directed e g "dcm" method (.name name) adj ma ga p
    R.exc = none → ∃ x y, R.g.x = some x ∧ R.g.y = some y ∧ (∀ i, if d.dseq_out i = 0 then x i = 0 else 0 < x i) ∧
      ∀ i, if d.dseq_in i = 0 then y i = 0 else 0 < y i := by
  intro R h
  obtain ⟨me, x0, s, rfl, h0, hs, hG, -⟩ := solve_tool_ok_dcm e g method (.name name) adj ma ga p h
  rw [show R = _ from hG]
  refine ⟨fun i => s.x (0, d.inv i), fun i => s.x (1, d.inv i), keepsD DAttr.x (fun _ => rfl) _, keepsD DAttr.y (fun _ => rfl) _, ?_⟩
  obtain ⟨g0, g1⟩ := C38_dcm e he hr d hsum name h0
  have hko : ∀ i, d.ko (d.inv i) = d.dseq_out i := fun i => (d.class_of i).1
  have hki : ∀ i, d.ki (d.inv i) = d.dseq_in i := fun i => (d.class_of i).2
  have hA : AdmDCM0 d x0 := by
    refine ⟨⟨fun q hq => ?_, fun q hq => ?_⟩, fun q hq => ?_, fun q hq => ?_⟩ <;> obtain ⟨i, rfl⟩ := d.inv_surj q
    · exact (g0 i).1 fun hh => hq (by rw [hko, hh]; simp)
    · exact (g1 i).1 fun hh => hq (by rw [hki, hh]; simp)
    · exact (g0 i).2 (by rw [hko] at hq; exact_mod_cast hq)
    · exact (g1 i).2 (by rw [hki] at hq; exact_mod_cast hq)
  have hE := dcm_run_pos e he me p hl hA hs
  refine ⟨fun i => ?_, fun i => ?_⟩
  · split_ifs with hi
    · exact hE.2.1 _ (by rw [hko, hi]; simp)
    · exact hE.1.1 _ (by rw [hko]; exact_mod_cast hi)
  · split_ifs with hi
    · exact hE.2.2 _ (by rw [hki, hi]; simp)
    · exact hE.1.2 _ (by rw [hki]; exact_mod_cast hi)

/-- C13 (dcm, named guesses) without hypotheses on the solution: with the line search on, after a converged newton or quasinewton run the expected degrees
of the returned parameters differ from the observed ones by at most `tol` times the parameter. -/
theorem C13_dcm_named (e : Env) (he : e.Valid) (hr : e.NonzeroDraws) (hsum : ∑ i, d.dseq_in i = ∑ i, d.dseq_out i) (g : DAttr d) (me : Method)
    (hme : me ≠ .fixed_point) (name : String) (adj : AdjSpec n) (ma : String) (ga : DGuess n) (p : Params) (hf : p.full_return = true) (hl : p.linsearch = true) :
    let R := solve_tool_directed e g "dcm" me.name (.name name) adj ma ga p
    R.exc = none → ∃ t x y, R.g.trace = some t ∧ R.g.x = some x ∧ R.g.y = some y ∧ (t.Converged p → ∀ i,
      |outDBCM x y i - d.dseq_out i| ≤ x i * p.tol ∧ |inDBCM x y i - d.dseq_in i| ≤ y i * p.tol) := by
  intro R h
  obtain ⟨x, y, hx, hy, px, py⟩ := C16_dcm_run e he hr hsum g me.name name adj ma ga p hl h
  obtain ⟨t, x', y', ht, hx', hy', hc⟩ := C13_dcm e g me hme (.name name) adj ma ga p hf h
  obtain rfl : x = x' := Option.some.inj (hx.symm.trans hx')
  obtain rfl : y = y' := Option.some.inj (hy.symm.trans hy')
  refine ⟨t, x, y, ht, hx, hy, fun hconv => ?_⟩
  have ax : active d.degOut x = x := by
    funext i
    unfold active
    split_ifs with hi
    · have := px i
      rw [if_pos (by simpa [DData.degOut] using hi)] at this
      exact this.symm
    · rfl
  have ay : active d.degIn y = y := by
    funext i
    unfold active
    split_ifs with hi
    · have := py i
      rw [if_pos (by simpa [DData.degIn] using hi)] at this
      exact this.symm
    · rfl
  have := hc hconv (fun i hi => by have := px i; rwa [if_neg hi] at this) (fun i hi => by have := py i; rwa [if_neg hi] at this)
  rw [ax, ay] at this
  exact this

end dcm

section cm
variable {n : ℕ} [NeZero n] {d : UData n}

theorem UData.k_at_inv (d : UData n) (i : Fin n) : d.k (d.inv i) = d.dseq i := by
  simp only [UData.k, UData.inv, r_dseq_invert]

theorem guessCM_zero (e : Env) (guess : Guess n) {x0 : Fin d.r → ℝ} (h : guessCM e d false guess = .ok x0) (q : Fin d.r) (hq : d.k q = 0) : x0 q = 0 := by
  unfold guessCM at h
  cases guess with
  | other => simp at h
  | name s =>
    cases hs : namedCM e d s with
    | none => simp [hs] at h
    | some v => simp only [hs, Bool.false_eq_true, if_false, Except.ok.injEq] at h; rw [← h]; simp [maskSet, hq]
  | nodes v => simp only [Except.ok.injEq] at h; rw [← h]; simp [maskSet, hq]
  | pairs v => simp only [Except.ok.injEq] at h; rw [← h]; simp [maskSet, hq]

/-- C41 (cm, fixed-point): whatever the initial guess and the options, when `solve_tool("cm", "fixed-point")` returns, the isolated nodes have `x = 0`. -/
theorem C41_cm_fixed_point_partial (e : Env) (g : UAttr d) (guess : Guess n) (adj : AdjSpec n) (ma : String) (ga : Guess n) (p : Params) :
    let R := solve_tool e g "cm" "fixed-point" guess adj ma ga p
    R.exc = none → ∃ x, R.g.x = some x ∧ ∀ i, d.dseq i = 0 → x i = 0 ∧ degUBCM x i = 0 ∧ ∀ j, linkUBCM x i j = 0 ∧ linkUBCM x j i = 0 := by
  intro R h
  obtain ⟨me, x0, s, hm, h0, hs, hG⟩ := solve_tool_ok_cm e g "fixed-point" guess adj ma ga p h
  obtain rfl : me = .fixed_point := by revert hm; cases me <;> simp [Method.name]
  have k := solutionError_keeps e (setSolvedCM (d := d) { g with last_model := some "cm", full_return := p.full_return, args := some .cm, step_fun := some .cm, fun_pmatrix := true } false s)
  rw [show R = _ from hG]
  refine ⟨fun i => s.x (d.inv i), k.1, fun i hi => ?_⟩
  have key : ∀ q, d.k q = 0 → s.x q = 0 := by
    refine solver_point_inv _ _ (fun x => ∀ q, d.k q = 0 → x q = 0) ?_ (fun q hq => guessCM_zero e guess h0 q hq) hs
    intro s dx alfa hP hf hd _ q hq
    have hdx : dx = s.f - s.x := by
      unfold direction at hd
      simp [Params.opts] at hd
      exact hd.symm
    have hfq : s.f q = 0 := by
      rw [hf]
      show CM.iterative_cm s.x d.k d.c q = 0
      rw [CM.iterative_eq]
      simp [hq]
    simp [hdx, hP q hq, hfq]
  have h1 := key (d.inv i) (by rw [UData.k_at_inv, hi]; simp)
  exact ⟨h1, sum_eq_zero fun j _ => by simp [linkUBCM, h1], fun j => by simp [linkUBCM, h1]⟩

/-- C41 is false of `cm_exp` with the methods "newton" and "quasinewton": whatever the guess and the options, every node gets a positive fitness, and so does every
isolated node, whose expected degree is then positive on every network with at least two nodes.  (With "fixed-point" the same holds without isolated nodes;
with isolated nodes their parameter is infinite, see C78.) -/
theorem C41_cm_exp_positive (e : Env) (g : UAttr d) (method : String) (_hm : method ≠ "fixed-point" ∨ ∀ i, d.dseq i ≠ 0) (guess : Guess n) (adj : AdjSpec n) (ma : String) (ga : Guess n) (p : Params) :
    let R := solve_tool e g "cm_exp" method guess adj ma ga p
    R.exc = none → ∃ x, R.g.x = some x ∧ (∀ i, 0 < x i) ∧ (2 ≤ n → ∀ i, 0 < degUBCM x i) := by
  intro R h
  obtain ⟨me, x0, s, hm, -, -, hG⟩ := solve_tool_ok_cm_exp e g method guess adj ma ga p h
  have k := solutionError_keeps e (setSolvedCM (d := d) { g with last_model := some "cm_exp", full_return := p.full_return, args := some .cm, step_fun := some .cm_exp, fun_pmatrix := true } true s)
  rw [show R = _ from hG]
  refine ⟨fun i => Real.exp (-s.x (d.inv i)), k.1, fun i => Real.exp_pos _, fun hn i => ?_⟩
  unfold degUBCM linkUBCM
  refine sum_pos (fun j _ => by positivity) ?_
  obtain ⟨j, hj⟩ : ∃ j : Fin n, j ≠ i := by
    by_cases hi : i.val = 0
    · exact ⟨⟨1, by omega⟩, fun h => by rw [← h] at hi; simp at hi⟩
    · exact ⟨⟨0, by omega⟩, fun h => hi (by rw [← h])⟩
  exact ⟨j, by simp [hj]⟩

/-- the step of `cm` with the line search on keeps positive parameters positive -/
theorem cm_step_pos (e : Env) (me : Method) (p : Params) (hl : p.linsearch = true) (s : State (Fin d.r)) (dx : Fin d.r → ℝ) (alfa : ℝ)
    (hP : ∀ q, 0 < s.x q) (hd : direction (cbCM e d me) (p.opts me.name) s.x s.f = .ok dx)
    (hsl : stepLength (cbCM e d me) (p.opts me.name) s dx = .ok alfa) : ∀ q, 0 < (s.x + alfa • dx) q := by
  have hkeep : KeepsPercent s.x dx alfa := by
    have ho : ∀ q, q ∈ List.finRange d.r := fun q => List.mem_finRange q
    rcases stepLength_linsearch (by simpa [Params.opts] using hl) ⟨_, _, hd⟩ hsl with h | h
    · have := (C16_linsearch_cm_partial (List.finRange d.r) ho s.x dx s.f (llF e (fun x => ∀ q, 0 < x q) fun x => CM.loglikelihood_cm x d.k d.c) 0.5 1
        (by norm_num) (by norm_num) (by norm_num) hP).2
      rw [← Option.some.inj h]; exact this
    · have := (C16_linsearch_cm_fixed_partial (List.finRange d.r) ho s.x dx s.dx_old 0.5 1 s.n_steps (by norm_num) (by norm_num) (by norm_num) hP).2.2.1
      rw [← Option.some.inj h]; exact this
  intro q
  have h1 := hkeep q
  have h2 := hP q
  simp only [Pi.add_apply, Pi.smul_apply, smul_eq_mul]
  linarith [show 0 < s.x q / 100 by positivity]

theorem cm_run_pos (e : Env) (me : Method) (p : Params) (hl : p.linsearch = true) {x0 : Fin d.r → ℝ} {s : State (Fin d.r)}
    (h0 : ∀ q, 0 < x0 q) (hs : solver (cbCM e d me) (p.opts me.name) x0 = .ok s) : ∀ q, 0 < s.x q :=
  solver_point_inv _ _ (fun x => ∀ q, 0 < x q) (fun s dx alfa hP _ hd hsl => cm_step_pos e me p hl s dx alfa hP hd hsl) h0 hs

/-- C16 along a whole run (cm): on a network without isolated nodes, with the line search on, every method and every named guess, the returned fitnesses are
positive. -/
theorem C16_cm_run (e : Env) (he : e.Valid) (hr : e.NonzeroDraws) (hd : ∀ i, d.dseq i ≠ 0) (g : UAttr d) (method name : String)
    (adj : AdjSpec n) (ma : String) (ga : Guess n) (p : Params) (hl : p.linsearch = true) :
    let R := solve_tool e g "cm" method (.name name) adj ma ga p
    R.exc = none → ∃ x, R.g.x = some x ∧ ∀ i, 0 < x i := by
  intro R h
  obtain ⟨me, x0, s, rfl, h0, hs, hG⟩ := solve_tool_ok_cm e g method (.name name) adj ma ga p h
  have k := solutionError_keeps e (setSolvedCM (d := d) { g with last_model := some "cm", full_return := p.full_return, args := some .cm, step_fun := some .cm, fun_pmatrix := true } false s)
  rw [show R = _ from hG]
  refine ⟨fun i => s.x (d.inv i), k.1, fun i => ?_⟩
  refine cm_run_pos e me p hl (fun q => (C38_cm_partial e he hr d name h0 q).1 ?_) hs _
  obtain ⟨i, hi⟩ := d.exists_class q
  simp only [UData.k, ← hi]
  exact_mod_cast hd i

/-- C13 (cm, named guesses) without hypotheses on the solution. -/
theorem C13_cm_named (e : Env) (he : e.Valid) (hr : e.NonzeroDraws) (hd : ∀ i, d.dseq i ≠ 0) (g : UAttr d) (me : Method) (hme : me ≠ .fixed_point)
    (name : String) (adj : AdjSpec n) (ma : String) (ga : Guess n) (p : Params) (hf : p.full_return = true) (hl : p.linsearch = true) :
    let R := solve_tool e g "cm" me.name (.name name) adj ma ga p
    R.exc = none → ∃ t x, R.g.trace = some t ∧ R.g.x = some x ∧ (t.Converged p → ∀ i, |degUBCM x i - d.dseq i| ≤ x i * p.tol) := by
  intro R h
  obtain ⟨x, hx, px⟩ := C16_cm_run e he hr hd g me.name name adj ma ga p hl h
  obtain ⟨t, x', ht, hx', hc⟩ := C13_cm e g me hme (.name name) adj ma ga p hf h
  obtain rfl : x = x' := Option.some.inj (hx.symm.trans hx')
  exact ⟨t, x, ht, hx, fun hconv => hc hconv px⟩

end cm

/-! ### the exponential weighted models -/

section ecm
variable {n : ℕ} [NeZero n] {d : UData n}

theorem two_le_of_ne {i j : Fin n} (h : i ≠ j) : 2 ≤ n := by
  by_contra hn
  exact h (Fin.ext (by omega))

theorem between_pos {a b r r0 : ℝ} (ha : 0 < a) (h0 : 0 ≤ r) (hr : r ≤ r0) (hb : 0 < a + r0 * b) : 0 < a + r * b := by
  rcases le_or_gt 0 b with h | h
  · nlinarith [mul_nonneg h0 h]
  · nlinarith [mul_le_mul_of_nonpos_right hr h.le]

theorem ecm_exp_step_adm {x dx : Fin 2 × Fin n → ℝ} {r r0 : ℝ} (hx : AdmECMexp x)
    (hu : untilLoop (fun a => lowTwoSum (blk 1 (x + a • dx)) > 1e-14) 0.5 1 = some r0) (h0 : 0 ≤ r) (hr : r ≤ r0) : AdmECMexp (x + r • dx) := by
  intro i j hij
  obtain ⟨hc, -⟩ := untilLoop_some hu
  rw [lowTwoSum_gt (two_le_of_ne hij)] at hc
  have e1 := hc i j hij
  have e0 := hx i j hij
  simp only [blk, Pi.add_apply, Pi.smul_apply, smul_eq_mul] at e1 ⊢
  have := between_pos (a := x (1, i) + x (1, j)) (b := dx (1, i) + dx (1, j)) e0 h0 hr (by norm_num at e1; linarith)
  linarith

theorem untilLoop_pos {cond : ℝ → Prop} {r0 : ℝ} (hu : untilLoop cond 0.5 1 = some r0) : 0 < r0 := by
  obtain ⟨-, k, hk, -⟩ := untilLoop_some hu
  rw [hk]; positivity

/-- the step of `ecm_exp` with the line search on stays in the domain -/
theorem ecm_exp_run_adm (e : Env) (me : Method) (p : Params) (hl : p.linsearch = true) {x0 : Fin 2 × Fin n → ℝ} {s : State (Fin 2 × Fin n)}
    (h0 : AdmECMexp x0) (hs : solver (cbECMexp e d me) (p.opts me.name) x0 = .ok s) : AdmECMexp s.x := by
  refine solver_point_inv _ _ AdmECMexp ?_ h0 hs
  intro s dx alfa hP hf hd hsl
  rcases stepLength_linsearch (by simpa [Params.opts] using hl) ⟨_, _, hd⟩ hsl with h | h
  · obtain ⟨r0, hu, rfl⟩ := Option.map_eq_some_iff.1 (show Option.map _ (untilLoop _ _ _) = some alfa from h)
    obtain ⟨d1, -, d3, -⟩ := decreaseStage_spec (llF e (fun x => ∀ i j : Fin n, i ≠ j → 0 < x (1, i) + x (1, j)) fun x =>
      ECM.loglikelihood_ecm_exp x d.deg d.strength_sequence) s.x dx s.f (beta := 0.5) (by norm_num) (by norm_num) (untilLoop_pos hu).le
    exact ecm_exp_step_adm hP hu d3 d1
  · obtain ⟨r0, hu, rfl⟩ := Option.map_eq_some_iff.1 (show Option.map _ (untilLoop _ _ _) = some alfa from h)
    obtain ⟨d1, -, d3, -⟩ := normStage_spec dx s.dx_old (beta := 0.5) s.n_steps (by norm_num) (by norm_num) (untilLoop_pos hu).le
    exact ecm_exp_step_adm hP hu d3 d1

/-- C16 along a whole run (ecm_exp): on a network with positive degrees and strengths, with the line search on, every method and every named guess, the
returned weights parameters satisfy `y i * y j < 1` for every pair. -/
theorem C16_ecm_exp_run (e : Env) (he : e.Valid) (hr : e.NonzeroDraws) (hd : d.Pos) (g : UAttr d) (method name : String)
    (adj : AdjSpec n) (ma : String) (ga : Guess n) (p : Params) (hl : p.linsearch = true) :
    let R := solve_tool e g "ecm_exp" method (.name name) adj ma ga p
    R.exc = none → ∃ x y, R.g.x = some x ∧ R.g.y = some y ∧ (∀ i, 0 < x i) ∧ (∀ i, 0 < y i) ∧ ∀ i j, i ≠ j → y i * y j < 1 := by
  intro R h
  obtain ⟨me, x0, y0, guess', s, rfl, h0, hs, hG⟩ := solve_tool_ok_ecm_exp e g method (.name name) adj ma ga p h
  have k := solutionError_keeps e (setSolvedECM (d := d) { g with last_model := some "ecm_exp", full_return := p.full_return, x := some x0, y := some y0, args := some .ecm, step_fun := some .ecm_exp } true s)
  rw [show R = _ from hG]
  refine ⟨fun i => Real.exp (-s.x (0, i)), fun i => Real.exp (-s.x (1, i)), k.1, k.2.1, fun i => Real.exp_pos _, fun i => Real.exp_pos _, fun i j hij => ?_⟩
  have := ecm_exp_run_adm e me p hl (C38_ecm_exp_partial e he hr d hd name h0) hs i j hij
  simp only [← Real.exp_add, Real.exp_lt_one_iff]
  linarith

/-- C13 (ecm_exp, named guesses) without hypotheses on the solution. -/
theorem C13_ecm_exp_named (e : Env) (he : e.Valid) (hr : e.NonzeroDraws) (hd : d.Pos) (g : UAttr d) (me : Method) (hme : me ≠ .fixed_point) (name : String)
    (adj : AdjSpec n) (ma : String) (ga : Guess n) (p : Params) (hf : p.full_return = true) (hl : p.linsearch = true) :
    let R := solve_tool e g "ecm_exp" me.name (.name name) adj ma ga p
    R.exc = none → ∃ t x y, R.g.trace = some t ∧ R.g.x = some x ∧ R.g.y = some y ∧ (t.Converged p →
      ∀ i, |degUECM x y i - d.dseq i| ≤ p.tol ∧ |strUECM x y i - d.strength_sequence i| ≤ p.tol) := by
  intro R h
  obtain ⟨x, y, hx, hy, -, -, hxy⟩ := C16_ecm_exp_run e he hr hd g me.name name adj ma ga p hl h
  obtain ⟨t, x', y', ht, hx', hy', hc⟩ := C13_ecm_exp e g me hme (.name name) adj ma ga p hf h
  obtain rfl : x = x' := Option.some.inj (hx.symm.trans hx')
  obtain rfl : y = y' := Option.some.inj (hy.symm.trans hy')
  exact ⟨t, x, y, ht, hx, hy, fun hconv => hc hconv hxy⟩

end ecm

/-! ### runs that return, and samples of the solved models -/

/-- C15: with "fixed-point" a run never raises unless its line search loops for ever; with a line search that ends, `solver` returns for every start and every options. -/
theorem C15_fixed_point_total {ι : Type} [Fintype ι] [DecidableEq ι] [Nonempty ι] (C : Callbacks ι) (o : Opts) (hm : o.method = "fixed-point")
    (hC : ∀ x dx dx_old alfa beta k, C.linsearchFixed x dx dx_old alfa beta k ≠ none) (x0 : ι → ℝ) : ∃ s, solver C o x0 = .ok s := by
  unfold solver
  generalize initState C x0 = s0
  induction o.max_steps generalizing s0 with
  | zero => exact ⟨_, rfl⟩
  | succ k ih =>
    rw [loop]
    split
    · have hd : direction C o s0.x s0.f = .ok (s0.f - s0.x) := by simp [direction, hm]
      have hsl : ∃ a, stepLength C o s0 (s0.f - s0.x) = .ok a := by
        unfold stepLength
        rw [if_neg (by simp [hm])]
        split
        · cases h : C.linsearchFixed s0.x (s0.f - s0.x) s0.dx_old 1 0.5 s0.n_steps with
          | none => exact absurd h (hC _ _ _ _ _ _)
          | some a => exact ⟨a, rfl⟩
        · exact ⟨1, rfl⟩
      obtain ⟨a, ha⟩ := hsl
      simp only [step, hd, ha]
      exact ih _
    · exact ⟨_, rfl⟩

/-- C15: `solve_tool("dcm", "fixed-point")` on a fresh object returns for every network, every named or given guess that is accepted, and every options -/
theorem C15_dcm_fixed_point_returns {n : ℕ} [NeZero n] {d : DData n} (e : Env) (guess : DGuess n) (adj : AdjSpec n) (ma : String) (ga : DGuess n) (p : Params)
    {x0 : Fin 2 × Fin d.r → ℝ} (h0 : guessDCM e d false guess = .ok x0) :
    (solve_tool_directed e ({} : DAttr d) "dcm" "fixed-point" guess adj ma ga p).exc = none := by
  have hR := solve_tool_dcm e ({} : DAttr d) .fixed_point guess adj ma ga p h0
  obtain ⟨s, hs⟩ := C15_fixed_point_total (cbDCM e d .fixed_point) (p.opts "fixed-point") rfl (by simp [cbDCM]) x0
  rw [show Method.name .fixed_point = "fixed-point" from rfl, hs] at hR
  rw [hR]
  simp [solutionErrorD, setSolvedDCM, preDCM, DModel.name, strengthErrorD, degreeErrorD]

/-- C15: the same for the undirected `cm` -/
theorem C15_cm_fixed_point_returns {n : ℕ} [NeZero n] {d : UData n} (e : Env) (guess : Guess n) (adj : AdjSpec n) (ma : String) (ga : Guess n) (p : Params)
    {x0 : Fin d.r → ℝ} (h0 : guessCM e d false guess = .ok x0) :
    (solve_tool e ({} : UAttr d) "cm" "fixed-point" guess adj ma ga p).exc = none := by
  have hR := solve_tool_cm e ({} : UAttr d) .fixed_point guess adj ma ga p h0
  obtain ⟨s, hs⟩ := C15_fixed_point_total (cbCM e d .fixed_point) (p.opts "fixed-point") rfl (by simp [cbCM]) x0
  rw [show Method.name .fixed_point = "fixed-point" from rfl, hs] at hR
  rw [hR]
  simp [solutionError, setSolvedCM, strengthError, degreeError]

/-- C41: a node with fitness zero has no link in any graph the undirected binary sampler draws -/
theorem C41_sample_cm (R : Sampler.Rng) {n : ℕ} (x : Fin n → ℝ) (env : Sampler.Env R) (henv : ∀ T, (env T).Complete) (seed : Option ℕ) (g : R.S) (i : Fin n)
    (hi : x i = 0) : ∃ es, Sampler.cm_edges R x env seed g = .ok es ∧ ∀ a ∈ es, a.1 ≠ i.val ∧ a.2 ≠ i.val := by
  refine ⟨_, Sampler.cm_edges_eq R x env henv seed g, fun a ha => ?_⟩
  obtain ⟨as, -, h⟩ := List.mem_filterMap.1 ha
  split at h
  · rename_i hlt
    have h0 : 0 ≤ Sampler.unif R as.2 := R.random_nonneg _
    simp only [Option.some.injEq] at h
    subst h
    refine ⟨fun h => ?_, fun h => ?_⟩
    · rw [show as.1.1 = i from Fin.ext h, hi] at hlt; simp at hlt; linarith
    · rw [show as.1.2 = i from Fin.ext h, hi] at hlt; simp at hlt; linarith
  · exact absurd h (by simp)

/-- C41: a node with out-fitness zero has no outgoing arc, and a node with in-fitness zero no incoming arc, in any graph the directed binary sampler draws -/
theorem C41_sample_dcm (R : Sampler.Rng) {n : ℕ} (x y : Fin n → ℝ) (env : Sampler.Env R) (henv : ∀ T, (env T).Complete) (seed : Option ℕ) (g : R.S) :
    ∃ es, Sampler.dcm_edges R x y env seed g = .ok es ∧ ∀ a ∈ es, (∀ i : Fin n, x i = 0 → a.1 ≠ i.val) ∧ ∀ i : Fin n, y i = 0 → a.2 ≠ i.val := by
  refine ⟨_, Sampler.dcm_edges_eq R x y env henv seed g, fun a ha => ?_⟩
  obtain ⟨as, -, h⟩ := List.mem_filterMap.1 ha
  split at h
  · rename_i hlt
    have h0 : 0 ≤ Sampler.unif R as.2 := R.random_nonneg _
    simp only [Option.some.injEq] at h
    subst h
    refine ⟨fun i hi h => ?_, fun i hi h => ?_⟩
    · rw [show as.1.1 = i from Fin.ext h, hi] at hlt; simp at hlt; linarith
    · rw [show as.1.2 = i from Fin.ext h, hi] at hlt; simp at hlt; linarith
  · exact absurd h (by simp)

/-- C41, end to end: solve `dcm` by whatever method from whatever guess, then sample; a node observed without outgoing (incoming) links has none in the sample. -/
theorem C41_dcm_solve_then_sample {n : ℕ} [NeZero n] {d : DData n} (e : Env) (he : e.Valid) (g : DAttr d) (method : String) (guess : DGuess n) (adj : AdjSpec n)
    (ma : String) (ga : DGuess n) (p : Params) (h : (solve_tool_directed e g "dcm" method guess adj ma ga p).exc = none)
    (R : Sampler.Rng) (env : Sampler.Env R) (henv : ∀ T, (env T).Complete) (seed : Option ℕ) (gen : R.S) :
    ∃ x y es, (solve_tool_directed e g "dcm" method guess adj ma ga p).g.x = some x ∧ (solve_tool_directed e g "dcm" method guess adj ma ga p).g.y = some y ∧
      Sampler.dcm_edges R x y env seed gen = .ok es ∧
      ∀ a ∈ es, (∀ i : Fin n, d.dseq_out i = 0 → a.1 ≠ i.val) ∧ ∀ i : Fin n, d.dseq_in i = 0 → a.2 ≠ i.val := by
  obtain ⟨x, y, hx, hy, h1, h2⟩ := C41_dcm e he g method guess adj ma ga p h
  obtain ⟨es, hes, h3⟩ := C41_sample_dcm R x y env henv seed gen
  exact ⟨x, y, es, hx, hy, hes, fun a ha => ⟨fun i hi => (h3 a ha).1 i (h1 i hi).1, fun i hi => (h3 a ha).2 i (h2 i hi).1⟩⟩

/-! Non-vacuity: the directed path 0 → 1 → 2, and the undirected path 0 - 1 - 2 with an isolated node, solved by "fixed-point" with any number of steps. -/

def pathD : DData 3 := ⟨![1, 1, 0], ![0, 1, 1], ![2, 3, 0], ![0, 2, 3], true⟩

example (e : Env) (p : Params) : (solve_tool_directed e ({} : DAttr pathD) "dcm" "fixed-point" (.name "degrees") .other "" .other p).exc = none ∧
    pathD.dseq_out 2 = 0 ∧ pathD.dseq_in 0 = 0 ∧ ∑ i, pathD.dseq_in i = ∑ i, pathD.dseq_out i := by
  refine ⟨?_, rfl, rfl, by simp [Fin.sum_univ_three, pathD]⟩
  cases h : guessDCM e pathD false (.name "degrees") with
  | ok x0 => exact C15_dcm_fixed_point_returns e _ _ _ _ p h
  | error x => simp [guessDCM, namedDCM] at h

def pathU : UData 4 := ⟨![1, 2, 1, 0], ![2, 5, 3, 0]⟩

example (e : Env) (p : Params) : (solve_tool e ({} : UAttr pathU) "cm" "fixed-point" (.name "degrees") .other "" .other p).exc = none ∧ pathU.dseq 3 = 0 := by
  refine ⟨?_, rfl⟩
  cases h : guessCM e pathU false (.name "degrees") with
  | ok x0 => exact C15_cm_fixed_point_returns e _ _ _ _ p h
  | error x => simp [guessCM, namedCM] at h

end

end Verif.Solve
