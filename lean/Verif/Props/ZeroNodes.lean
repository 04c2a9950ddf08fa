import Verif.Props.Runs2
import Verif.Props.Checked
import Verif.Spec.Likelihood

/-!
C41 for the weighted models: nodes that have neither links nor weight (on one side, for the directed model) keep the parameters 0 along every run of `decm` and along
every fixed-point run of `ecm`, so that the fitted model never links them.
-/

set_option linter.unusedSectionVars false

namespace Verif.Solve

open Verif Finset Reduction Solver Spec

noncomputable section

section general

variable {ι : Type} [Fintype ι] [DecidableEq ι] [Nonempty ι]

/-- a matrix with no entry between the coordinates in `N` and the others -/
def SplitBy (N : ι → Prop) (B : Matrix ι ι ℝ) : Prop := ∀ i j, N i → ¬ N j → B i j = 0 ∧ B j i = 0

open Classical in
/-- `np.linalg.solve` on a system that splits, with a right-hand side that is zero on one part -/
theorem linalgSolve_split {N : ι → Prop} {B : Matrix ι ι ℝ} {b dx : ι → ℝ} (h : linalgSolve B b = .ok dx) (hB : SplitBy N B) (hb : ∀ i, N i → b i = 0) (i : ι) (hi : N i) :
    dx i = 0 := by
  unfold linalgSolve at h
  split_ifs at h with hdet
  simp only [Except.ok.injEq] at h
  have hm : B.mulVec dx = b := by
    rw [← h, Matrix.mulVec_mulVec, Matrix.mul_nonsing_inv _ (isUnit_iff_ne_zero.2 hdet), Matrix.one_mulVec]
  set w : ι → ℝ := fun j => if N j then dx j else 0 with hw
  have hz : B.mulVec w = 0 := by
    funext k
    simp only [Matrix.mulVec, dotProduct, Pi.zero_apply]
    by_cases hk : N k
    · rw [← hb k hk, ← hm]
      simp only [Matrix.mulVec, dotProduct]
      refine sum_congr rfl fun j _ => ?_
      by_cases hj : N j
      · simp [hw, hj]
      · simp [hw, hj, (hB k j hk hj).1]
    · refine sum_eq_zero fun j _ => ?_
      by_cases hj : N j
      · simp [(hB j k hj hk).2]
      · simp [hw, hj]
  have h0 : w = 0 := by
    have : (B⁻¹).mulVec (B.mulVec w) = w := by
      rw [Matrix.mulVec_mulVec, Matrix.nonsing_inv_mul _ (isUnit_iff_ne_zero.2 hdet), Matrix.one_mulVec]
    rw [← this, hz, Matrix.mulVec_zero]
  have := congrFun h0 i
  simpa [hw, hi] using this

open Classical in
/-- the eigenvalue regulariser keeps the splitting -/
theorem eigen_split {N : ι → Prop} {b : Matrix ι ι ℝ} {t : ι → ℝ} {e : Matrix ι ι ℝ} (h : IsEigh b t e) (eps : ℝ) (hb : SplitBy N b) :
    SplitBy N (matrix_regulariser_function_eigen_based t e eps) := by
  have hee : e * e.transpose = 1 := mul_eq_one_comm.1 h.orth
  set P : Matrix ι ι ℝ := Matrix.diagonal fun i => if N i then 1 else 0 with hP
  have hPb : P * b = b * P := by
    ext i j
    rw [hP, Matrix.diagonal_mul, Matrix.mul_diagonal]
    by_cases hi : N i <;> by_cases hj : N j
    · simp [hi, hj]
    · simp [hi, hj, (hb i j hi hj).1]
    · simp [hi, hj, (hb j i hj hi).2]
    · simp [hi, hj]
  have hbe : b * e = e * Matrix.diagonal t := by
    conv_lhs => rw [h.decomp]
    rw [Matrix.mul_assoc, h.orth, Matrix.mul_one]
  have heb : e.transpose * b = Matrix.diagonal t * e.transpose := by
    conv_lhs => rw [h.decomp]
    rw [← Matrix.mul_assoc, ← Matrix.mul_assoc, h.orth, Matrix.one_mul]
  set Q : Matrix ι ι ℝ := e.transpose * P * e with hQ
  have hQt : Q * Matrix.diagonal t = Matrix.diagonal t * Q := by
    rw [hQ, Matrix.mul_assoc, ← hbe, Matrix.mul_assoc, ← Matrix.mul_assoc P, hPb, ← Matrix.mul_assoc, ← Matrix.mul_assoc, heb]
    simp only [Matrix.mul_assoc]
  set g : ι → ℝ := fun i => (if t i > eps then 0 else eps - t i) + t i with hg
  have hQg : Q * Matrix.diagonal g = Matrix.diagonal g * Q := by
    ext i j
    have := congrFun (congrFun hQt i) j
    rw [Matrix.mul_diagonal, Matrix.diagonal_mul] at this ⊢
    by_cases hq : Q i j = 0
    · simp [hq]
    · have ht : t j = t i := by
        rw [mul_comm] at this
        exact mul_right_cancel₀ hq this
      simp only [hg, ht, mul_comm]
  have hM : matrix_regulariser_function_eigen_based t e eps = e * Matrix.diagonal g * e.transpose := by
    show e * (Matrix.diagonal (fun i => if t i > eps then 0 else eps - t i) + Matrix.diagonal t) * e.transpose = _
    rw [Matrix.diagonal_add]
  have hPM : P * (e * Matrix.diagonal g * e.transpose) = e * Matrix.diagonal g * e.transpose * P := by
    have e1 : P * (e * Matrix.diagonal g * e.transpose) = e * (Q * Matrix.diagonal g) * e.transpose := by
      rw [hQ, ← Matrix.mul_assoc, ← Matrix.mul_assoc, ← Matrix.mul_assoc, ← Matrix.mul_assoc, ← Matrix.mul_assoc, hee, Matrix.one_mul]
    have e2 : e * Matrix.diagonal g * e.transpose * P = e * (Matrix.diagonal g * Q) * e.transpose := by
      rw [hQ]
      simp only [Matrix.mul_assoc]
      rw [hee, Matrix.mul_one]
    rw [e1, e2, hQg]
  intro i j hi hj
  rw [hM]
  have h1 := congrFun (congrFun hPM i) j
  have h2 := congrFun (congrFun hPM j) i
  rw [hP, Matrix.diagonal_mul, Matrix.mul_diagonal] at h1 h2
  simp only [hi, hj, if_true, if_false, one_mul, zero_mul, mul_one, mul_zero] at h1 h2
  exact ⟨h1, h2.symm⟩

theorem eigenRegulariser_split (e : Env) (he : e.Valid) {N : ι → Prop} {b : Matrix ι ι ℝ} (eps : ℝ) (hb : SplitBy N b) : SplitBy N (eigenRegulariser e b eps) := by
  refine eigen_split (he.eigh ι ((0.5 : ℝ) • (b + b.transpose)) ?_) eps fun i j hi hj => ?_
  · rw [Matrix.transpose_smul, Matrix.transpose_add, Matrix.transpose_transpose, add_comm]
  · simp [hb i j hi hj]

/-- coordinates with zero residual that the Hessian does not tie to the others do not move -/
theorem direction_split {C : Callbacks ι} {o : Opts} {x f dx : ι → ℝ} (h : direction C o x f = .ok dx) (N : ι → Prop) (hf : ∀ i, N i → f i = 0)
    (hJ : SplitBy N (C.jac x)) (hR : ∀ eps, SplitBy N (C.hessian_regulariser (C.jac x) eps)) (hx : o.method = "fixed-point" → ∀ i, N i → x i = 0) (i : ι) (hi : N i) :
    dx i = 0 := by
  unfold direction at h
  split_ifs at h with h1 h2 h3 h4 h5 h6 h7 h8
  all_goals first
    | (refine linalgSolve_split h ?_ (fun j hj => by simp [hf j hj]) i hi; first | exact hR _ | exact hJ)
    | (have h := ite_ok h; rw [← h]; simp [hf i hi]; done)
    | (simp only [Except.ok.injEq] at h; rw [← h]; simp [hf i hi, hx ‹_› i hi]; done)

end general

section decm
variable {n : ℕ} [NeZero n] {d : DData n}

/-- every side of every node has links exactly if it has weight: what a weighted network gives -/
structure DData.Weighted (d : DData n) : Prop where
  out : ∀ i, d.dseq_out i = 0 ↔ d.out_strength i = 0
  inn : ∀ i, d.dseq_in i = 0 ↔ d.in_strength i = 0

theorem obs_zero (hw : d.Weighted) (i : Fin n) : (d.obs (0, i) = 0 ↔ d.obs (2, i) = 0) ∧ (d.obs (1, i) = 0 ↔ d.obs (3, i) = 0) := by
  have h1 := hw.out i
  have h2 := hw.inn i
  simpa [DData.obs, DData.degOut, DData.degIn] using ⟨h1, h2⟩

open DECM in
theorem decm_prime_zero (hw : d.Weighted) (x : Fin 4 × Fin n → ℝ) (hx : ∀ v, d.obs v = 0 → x v = 0) (v : Fin 4 × Fin n) (hv : d.obs v = 0) :
    loglikelihood_prime_decm x d.degOut d.degIn d.out_strength d.in_strength v = 0 := by
  obtain ⟨b, i⟩ := v
  have hp := prime_eq x d.degOut d.degIn d.out_strength d.in_strength i
  have out : d.obs (0, i) = 0 → x (0, i) = 0 ∧ x (2, i) = 0 := fun h => ⟨hx _ h, hx _ ((obs_zero hw i).1.1 h)⟩
  have inn : d.obs (1, i) = 0 → x (1, i) = 0 ∧ x (3, i) = 0 := fun h => ⟨hx _ h, hx _ ((obs_zero hw i).2.1 h)⟩
  fin_cases b
  · obtain ⟨h0, h2⟩ := out hv
    refine hp.1.trans ?_
    simp [fa_out_eq, h0, h2, P]
  · obtain ⟨h0, h2⟩ := inn hv
    refine hp.2.1.trans ?_
    simp [fa_in_eq, h0, h2, P]
  · obtain ⟨h0, h2⟩ := out ((obs_zero hw i).1.2 hv)
    refine hp.2.2.1.trans ?_
    simp [fb_out_prime_eq, h0, h2, Q]
  · obtain ⟨h0, h2⟩ := inn ((obs_zero hw i).2.2 hv)
    refine hp.2.2.2.trans ?_
    simp [fb_in_prime_eq, h0, h2, Q]

open DECM in
theorem decm_iter_zero (x : Fin 4 × Fin n → ℝ) (v : Fin 4 × Fin n) (hv : d.obs v = 0) :
    iterative_decm x d.degOut d.degIn d.out_strength d.in_strength v = 0 := by
  obtain ⟨b, i⟩ := v
  have hp := iter_eq x d.degOut d.degIn d.out_strength d.in_strength i
  fin_cases b
  · exact hp.1.trans (by rw [show d.degOut i = 0 from hv, zero_div])
  · exact hp.2.1.trans (by rw [show d.degIn i = 0 from hv, zero_div])
  · exact hp.2.2.1.trans (by rw [show d.out_strength i = 0 from hv, zero_div])
  · exact hp.2.2.2.trans (by rw [show d.in_strength i = 0 from hv, zero_div])

open DECM in
theorem decm_hess_split (hw : d.Weighted) (x : Fin 4 × Fin n → ℝ) (hx : ∀ v, d.obs v = 0 → x v = 0) :
    SplitBy (fun v => d.obs v = 0) (loglikelihood_hessian_decm x d.degOut d.degIn d.out_strength d.in_strength) := by
  have out : ∀ i, d.obs (0, i) = 0 → x (0, i) = 0 ∧ x (2, i) = 0 := fun i h => ⟨hx _ h, hx _ ((obs_zero hw i).1.1 h)⟩
  have inn : ∀ i, d.obs (1, i) = 0 → x (1, i) = 0 ∧ x (3, i) = 0 := fun i h => ⟨hx _ h, hx _ ((obs_zero hw i).2.1 h)⟩
  have out' : ∀ i, d.obs (2, i) = 0 → x (0, i) = 0 ∧ x (2, i) = 0 := fun i h => out i ((obs_zero hw i).1.2 h)
  have inn' : ∀ i, d.obs (3, i) = 0 → x (1, i) = 0 ∧ x (3, i) = 0 := fun i h => inn i ((obs_zero hw i).2.2 h)
  rintro ⟨b, i⟩ ⟨b', j⟩ hi hj
  dsimp only at hi hj
  by_cases hij : i = j
  · subst hij
    have hs := hess_eq x d.degOut d.degIn d.out_strength d.in_strength i
    have o1 := obs_zero hw i
    dsimp only at hs
    obtain ⟨⟨-, a1, -, a3⟩, ⟨-, b0, -, b2⟩, ⟨-, c1, -, c3⟩, -, d0, -, d2⟩ := hs
    fin_cases b <;> fin_cases b'
    all_goals first
      | exact ⟨a1, b0⟩ | exact ⟨b0, a1⟩ | exact ⟨a3, d0⟩ | exact ⟨d0, a3⟩ | exact ⟨b2, c1⟩ | exact ⟨c1, b2⟩ | exact ⟨c3, d2⟩ | exact ⟨d2, c3⟩
      | exact absurd hi hj
      | exact absurd (o1.1.1 hi) hj | exact absurd (o1.1.2 hi) hj | exact absurd (o1.2.1 hi) hj | exact absurd (o1.2.2 hi) hj
  · have hs := hess_ne x d.degOut d.degIn d.out_strength d.in_strength i j hij
    have ht := hess_ne x d.degOut d.degIn d.out_strength d.in_strength j i (Ne.symm hij)
    dsimp only at hs ht
    obtain ⟨⟨a0, a1, a2, a3⟩, ⟨b1, b0, b3, b2⟩, ⟨c0, c1, c2, c3⟩, d1, d0, d3, d2⟩ := hs
    obtain ⟨⟨a0', a1', a2', a3'⟩, ⟨b1', b0', b3', b2'⟩, ⟨c0', c1', c2', c3'⟩, d1', d0', d3', d2'⟩ := ht
    fin_cases b <;> fin_cases b'
    all_goals first
      | exact ⟨a0, a0'⟩ | exact ⟨a2, c0'⟩ | exact ⟨b1, b1'⟩ | exact ⟨b3, d1'⟩ | exact ⟨c0, a2'⟩ | exact ⟨c2, c2'⟩ | exact ⟨d1, b3'⟩ | exact ⟨d3, d3'⟩
      | (obtain ⟨z1, z2⟩ := out i hi
         first
          | exact ⟨a1.trans (by simp [PAo, z1, z2]), b0'.trans (by simp [PAo, z1, z2])⟩
          | exact ⟨a3.trans (by simp [PBo, z1, z2]), d0'.trans (by simp [QAo, z1, z2])⟩)
      | (obtain ⟨z1, z2⟩ := inn i hi
         first
          | exact ⟨b0.trans (by simp [PAo, z1, z2]), a1'.trans (by simp [PAo, z1, z2])⟩
          | exact ⟨b2.trans (by simp [PBo, z1, z2]), c1'.trans (by simp [QAo, z1, z2])⟩)
      | (obtain ⟨z1, z2⟩ := out' i hi
         first
          | exact ⟨c1.trans (by simp [QAo, z1, z2]), b2'.trans (by simp [PBo, z1, z2])⟩
          | exact ⟨c3.trans (by simp [QBo, z1, z2]), d2'.trans (by simp [QBo, z1, z2])⟩)
      | (obtain ⟨z1, z2⟩ := inn' i hi
         first
          | exact ⟨d0.trans (by simp [QAo, z1, z2]), a3'.trans (by simp [PBo, z1, z2])⟩
          | exact ⟨d2.trans (by simp [QBo, z1, z2]), c3'.trans (by simp [QBo, z1, z2])⟩)

/-- along a run of `decm` the entries without links and weight do not move -/
theorem decm_direction_zero (e : Env) (he : e.Valid) (hw : d.Weighted) (me : Method) (p : Params) {x dx : Fin 4 × Fin n → ℝ}
    (h : direction (cbDECM e d me) (p.opts me.name) x ((cbDECM e d me).fn x) = .ok dx) (hx : ∀ v, d.obs v = 0 → x v = 0) (v : Fin 4 × Fin n) (hv : d.obs v = 0) :
    dx v = 0 := by
  have hs : SplitBy (fun v => d.obs v = 0) ((cbDECM e d me).jac x) := fun u w hu hw' => by
    have := decm_hess_split hw x hx u w hu hw'
    exact ⟨neg_eq_zero.2 this.1, neg_eq_zero.2 this.2⟩
  refine direction_split h (fun v => d.obs v = 0) (fun u hu => ?_) hs (fun eps => eigenRegulariser_split e he eps hs) (fun _ => hx) v hv
  cases me
  · show -_ = _; rw [decm_prime_zero hw x hx u hu, neg_zero]
  · show -_ = _; rw [decm_prime_zero hw x hx u hu, neg_zero]
  · exact decm_iter_zero x u hu

theorem guessDECM_zero (e : Env) (guess guess' : DGuess n) {x0 : Fin 4 × Fin n → ℝ} (h : guessDECM e d false guess = (.ok x0, guess')) (v : Fin 4 × Fin n)
    (hv : d.obs v = 0) : x0 v = 0 := by
  have key : ∀ w, finishDECM d false w v = 0 := fun w => by simp [finishDECM, maskSet, hv]
  unfold guessDECM at h
  cases guess with
  | other => simp at h
  | name s =>
    cases hs : namedDECM e d (if (false : Bool) then 0.1 else 0.9) s with
    | none => simp only [hs] at h; simp at h
    | some z => simp only [hs, Prod.mk.injEq, Except.ok.injEq] at h; rw [← h.1]; exact key z
  | nodes v => simp at h
  | pairs w => simp at h
  | quads w => simp only [Prod.mk.injEq, Except.ok.injEq] at h; rw [← h.1]; exact key w

/-- C41 (decm): on a network in which a node has outgoing links exactly if it has outgoing weight, and the same for the incoming side, and for every method, guess and
option: when `solve_tool("decm")` returns, a node without outgoing links has `x = 0` and `b_out = 0`, a node without incoming links has `y = 0` and `b_in = 0`, so that
the model gives it no link and no weight on that side. -/
theorem C41_decm (e : Env) (he : e.Valid) (hw : d.Weighted) (g : DAttr d) (method : String) (guess : DGuess n) (adj : AdjSpec n) (ma : String) (ga : DGuess n) (p : Params) :
    let R := solve_tool_directed e g "decm" method guess adj ma ga p
    R.exc = none → ∃ x y bo bi, R.g.x = some x ∧ R.g.y = some y ∧ R.g.b_out = some bo ∧ R.g.b_in = some bi ∧
      (∀ i, d.dseq_out i = 0 → x i = 0 ∧ bo i = 0 ∧ outDegDECM x y bo bi i = 0 ∧ outStrDECM x y bo bi i = 0 ∧ ∀ j, linkDECM x y bo bi i j = 0) ∧
      (∀ i, d.dseq_in i = 0 → y i = 0 ∧ bi i = 0 ∧ inDegDECM x y bo bi i = 0 ∧ inStrDECM x y bo bi i = 0 ∧ ∀ j, linkDECM x y bo bi j i = 0) := by
  intro R h
  obtain ⟨me, v, guess', s, rfl, h0, hs, hG⟩ := solve_tool_ok_decm e g method guess adj ma ga p h
  rw [show R = _ from hG]
  refine ⟨blk4 s.x 0, blk4 s.x 1, blk4 s.x 2, blk4 s.x 3, keepsD DAttr.x (fun _ => rfl) _,
    keepsD DAttr.y (fun _ => rfl) _, keepsD DAttr.b_out (fun _ => rfl) _, keepsD DAttr.b_in (fun _ => rfl) _, ?_⟩
  have key : ∀ v, d.obs v = 0 → s.x v = 0 := by
    refine solver_point_inv _ _ (fun x => ∀ v, d.obs v = 0 → x v = 0) ?_ (fun v hv => guessDECM_zero e guess guess' h0 v hv) hs
    intro s dx alfa hP hf hd _ v hv
    rw [hf] at hd
    simp [hP v hv, decm_direction_zero e he hw me p hd hP v hv]
  refine ⟨fun i hi => ?_, fun i hi => ?_⟩
  · have z : d.obs (0, i) = 0 := by simp [DData.obs, DData.degOut, hi]
    have h1 : blk4 s.x 0 i = 0 := key _ z
    have h2 : blk4 s.x 2 i = 0 := key _ ((obs_zero hw i).1.1 z)
    have hl : ∀ j, linkDECM (blk4 s.x 0) (blk4 s.x 1) (blk4 s.x 2) (blk4 s.x 3) i j = 0 := fun j => by simp [linkDECM, h1, h2]
    exact ⟨h1, h2, sum_eq_zero fun j _ => hl j, sum_eq_zero fun j _ => by simp [weightDECM, hl], hl⟩
  · have z : d.obs (1, i) = 0 := by simp [DData.obs, DData.degIn, hi]
    have h1 : blk4 s.x 1 i = 0 := key _ z
    have h2 : blk4 s.x 3 i = 0 := key _ ((obs_zero hw i).2.1 z)
    have hl : ∀ j, linkDECM (blk4 s.x 0) (blk4 s.x 1) (blk4 s.x 2) (blk4 s.x 3) j i = 0 := fun j => by simp [linkDECM, h1, h2]
    exact ⟨h1, h2, sum_eq_zero fun j _ => hl j, sum_eq_zero fun j _ => by simp [weightDECM, hl], hl⟩

/-! ### C16 and C13 on networks in which some nodes have an empty side -/

/-- the domain of the directed enhanced model on a network with empty sides -/
def AdmDECM0 (d : DData n) (x : Fin 4 × Fin n → ℝ) : Prop := ∀ v, (d.obs v ≠ 0 → 0 < x v) ∧ (d.obs v = 0 → x v = 0)

theorem AdmDECM0.nonneg {x : Fin 4 × Fin n → ℝ} (h : AdmDECM0 d x) (v : Fin 4 × Fin n) : 0 ≤ x v := by
  by_cases hv : d.obs v = 0
  · exact ((h v).2 hv).ge
  · exact ((h v).1 hv).le

/-- a step of `decm` with the line search on -/
theorem decm_step0 (e : Env) (he : e.Valid) (ho : ∀ x : Fin 4 × Fin n → ℝ, e.outside (Fin 4 × Fin n) x = none) (hw : d.Weighted) (me : Method) (p : Params)
    (hl : p.linsearch = true) (s : State (Fin 4 × Fin n)) (dx : Fin 4 × Fin n → ℝ) (alfa : ℝ) (hx : AdmDECM0 d s.x) (hf : s.f = (cbDECM e d me).fn s.x)
    (hd : direction (cbDECM e d me) (p.opts me.name) s.x s.f = .ok dx) (hsl : stepLength (cbDECM e d me) (p.opts me.name) s dx = .ok alfa) :
    AdmDECM0 d (s.x + alfa • dx) ∧
    (me ≠ .fixed_point → (1 / 2 : ℝ) ^ 50 < alfa → ∀ i j, i ≠ j → (s.x + alfa • dx) (2, i) * (s.x + alfa • dx) (3, j) < 1) := by
  have hz : ∀ v, d.obs v = 0 → dx v = 0 := fun v hv => decm_direction_zero e he hw me p (hf ▸ hd) (fun v => (hx v).2) v hv
  have stage : ∀ r, 0 ≤ r → r ≤ positivityStage' (blocks 4 n) s.x dx 1 → AdmDECM0 d (s.x + r • dx) := fun r h0 hr v => by
    refine ⟨fun hv => ?_, fun hv => by simp [(hx v).2 hv, hz v hv]⟩
    have hxv := (hx v).1 hv
    have := keep_percent h0 hxv.le (fun hd => hr.trans (positivityStage'_bound (blocks 4 n) s.x dx 1 v (mem_blocks4 v) hxv hd))
    simp only [Pi.add_apply, Pi.smul_apply, smul_eq_mul]
    norm_num at *
    linarith
  have hp := positivityStage'_pos (blocks 4 n) s.x dx 1 one_pos
  have hp1 := positivityStage'_le (blocks 4 n) s.x dx 1
  rcases stepLength_linsearch' (by simpa [Params.opts] using hl) ⟨_, _, hd⟩ hsl with h | ⟨hm, h⟩
  · obtain ⟨r0, hu, rfl⟩ := Option.map_eq_some_iff.1 (show Option.map _ (untilLoop _ _ _) = some alfa from h)
    obtain ⟨u1, u2⟩ := untilLoop_le hp hu
    obtain ⟨d1, -, d3, d4⟩ := decreaseStage_spec (llF e (fun x => (∀ v, d.obs v ≠ 0 → 0 < x v) ∧ (∀ v, 0 ≤ x v) ∧ ∀ i j : Fin n, i ≠ j → x (2, i) * x (3, j) < 1)
        fun x => DECM.loglikelihood_decm x d.degOut d.degIn d.out_strength d.in_strength) s.x dx s.f (beta := 0.5) (by norm_num) (by norm_num) u1.le
    refine ⟨stage _ d3 (d1.trans u2), fun _ hlong => ?_⟩
    rcases d4 with ⟨a, b, -, hb, -⟩ | h50
    · exact (llF_dom e ho hb).2.2
    · rw [h50] at hlong
      exact (exhausted (u2.trans hp1) hlong).elim
  · obtain ⟨r0, hu, rfl⟩ := Option.map_eq_some_iff.1 (show Option.map _ (untilLoop _ _ _) = some alfa from h)
    obtain ⟨u1, u2⟩ := untilLoop_le hp hu
    obtain ⟨d1, -, d3, -⟩ := normStage_spec dx s.dx_old (beta := 0.5) s.n_steps (by norm_num) (by norm_num) u1.le
    refine ⟨stage _ d3 (d1.trans u2), fun hme _ => ?_⟩
    cases me
    · simp [Params.opts, Method.name] at hm
    · simp [Params.opts, Method.name] at hm
    · exact absurd rfl hme

/-- C16 along a whole run (decm), on networks whose nodes may have an empty side: with the line search on, every method and every named guess, the parameters of the
non-empty sides are positive and the others are zero; after newton or quasinewton, if every recorded step length exceeds `2 ^ -50`, they satisfy
`b_out i * b_in j < 1` for every pair. -/
theorem C16_decm_sides_partial (e : Env) (he : e.Valid) (hr : e.NonzeroDraws) (ho : ∀ x : Fin 4 × Fin n → ℝ, e.outside (Fin 4 × Fin n) x = none) (hd : d.Spread)
    (hw : d.Weighted) (g : DAttr d) (me : Method) (name : String) (adj : AdjSpec n) (ma : String) (ga : DGuess n) (p : Params) (hf : p.full_return = true)
    (hl : p.linsearch = true) :
    let R := solve_tool_directed e g "decm" me.name (.name name) adj ma ga p
    R.exc = none → ∃ t x y bo bi, R.g.trace = some t ∧ R.g.x = some x ∧ R.g.y = some y ∧ R.g.b_out = some bo ∧ R.g.b_in = some bi ∧
      (∀ i, (d.dseq_out i ≠ 0 → 0 < x i ∧ 0 < bo i) ∧ (d.dseq_out i = 0 → x i = 0 ∧ bo i = 0) ∧
        (d.dseq_in i ≠ 0 → 0 < y i ∧ 0 < bi i) ∧ (d.dseq_in i = 0 → y i = 0 ∧ bi i = 0)) ∧
      (me ≠ .fixed_point → (∀ a ∈ t.alfa_seq, (1 / 2 : ℝ) ^ 50 < a) → ∀ i j, i ≠ j → bo i * bi j < 1) := by
  intro R h
  obtain ⟨me', v, guess', s, hm, h0, hs, hG⟩ := solve_tool_ok_decm e g me.name (.name name) adj ma ga p h
  have hme' : me' = me := by revert hm; cases me <;> cases me' <;> simp [Method.name]
  subst hme'
  rw [show R = _ from hG]
  obtain ⟨g1, g2⟩ := C38_decm_partial e he hr d hd name h0
  have hpos : AdmDECM0 d s.x :=
    solver_point_inv _ _ (AdmDECM0 d) (fun s dx alfa hP hf hd hsl => (decm_step0 e he ho hw me' p hl s dx alfa hP hf hd hsl).1) g1 hs
  refine ⟨.of s, blk4 s.x 0, blk4 s.x 1, blk4 s.x 2, blk4 s.x 3, ?_, keepsD DAttr.x (fun _ => rfl) _,
    keepsD DAttr.y (fun _ => rfl) _, keepsD DAttr.b_out (fun _ => rfl) _, keepsD DAttr.b_in (fun _ => rfl) _, fun i => ?_, fun hme ha => ?_⟩
  · exact (keepsD DAttr.trace (fun _ => rfl) _).trans (by simp [setSolvedDECM, preDECM, hf])
  · have z0 : d.obs (0, i) = 0 ↔ d.dseq_out i = 0 := by simp [DData.obs, DData.degOut]
    have z1 : d.obs (1, i) = 0 ↔ d.dseq_in i = 0 := by simp [DData.obs, DData.degIn]
    have z2 := (obs_zero hw i).1.symm.trans z0
    have z3 := (obs_zero hw i).2.symm.trans z1
    exact ⟨fun hi => ⟨(hpos _).1 fun hc => hi (z0.1 hc), (hpos _).1 fun hc => hi (z2.1 hc)⟩, fun hi => ⟨(hpos _).2 (z0.2 hi), (hpos _).2 (z2.2 hi)⟩,
      fun hi => ⟨(hpos _).1 fun hc => hi (z1.1 hc), (hpos _).1 fun hc => hi (z3.1 hc)⟩, fun hi => ⟨(hpos _).2 (z1.2 hi), (hpos _).2 (z3.2 hi)⟩⟩
  · have hA : AdmDECM0 d s.x ∧ ∀ i j, i ≠ j → s.x (2, i) * s.x (3, j) < 1 :=
      solver_alfa_inv _ _ (by simpa [Params.opts] using hl) ((1 / 2) ^ 50) (fun x => AdmDECM0 d x ∧ ∀ i j, i ≠ j → x (2, i) * x (3, j) < 1)
        (fun s dx alfa hP hf hd hsl hc => ⟨(decm_step0 e he ho hw me' p hl s dx alfa hP.1 hf hd hsl).1, (decm_step0 e he ho hw me' p hl s dx alfa hP.1 hf hd hsl).2 hme hc⟩)
        ⟨g1, g2⟩ hs ha
    exact hA.2

/-- C13 (decm, named guesses) on networks whose nodes may have an empty side: at convergence every degree and strength is reproduced within `tol` times its
parameter, in particular exactly on the empty sides. -/
theorem C13_decm_sides_partial (e : Env) (he : e.Valid) (hr : e.NonzeroDraws) (ho : ∀ x : Fin 4 × Fin n → ℝ, e.outside (Fin 4 × Fin n) x = none) (hd : d.Spread)
    (hw : d.Weighted) (g : DAttr d) (me : Method) (hme : me ≠ .fixed_point) (name : String) (adj : AdjSpec n) (ma : String) (ga : DGuess n) (p : Params)
    (hf : p.full_return = true) (hl : p.linsearch = true) :
    let R := solve_tool_directed e g "decm" me.name (.name name) adj ma ga p
    R.exc = none → ∃ t x y bo bi, R.g.trace = some t ∧ R.g.x = some x ∧ R.g.y = some y ∧ R.g.b_out = some bo ∧ R.g.b_in = some bi ∧
      (t.Converged p → (∀ a ∈ t.alfa_seq, (1 / 2 : ℝ) ^ 50 < a) → ∀ i,
      |outDegDECM x y bo bi i - d.dseq_out i| ≤ x i * p.tol ∧ |inDegDECM x y bo bi i - d.dseq_in i| ≤ y i * p.tol ∧
      |outStrDECM x y bo bi i - d.out_strength i| ≤ bo i * p.tol ∧ |inStrDECM x y bo bi i - d.in_strength i| ≤ bi i * p.tol) := by
  intro R h
  obtain ⟨me', v, guess', s, hm, h0, hs, hG⟩ := solve_tool_ok_decm e g me.name (.name name) adj ma ga p h
  have hme' : me' = me := by revert hm; cases me <;> cases me' <;> simp [Method.name]
  subst hme'
  rw [show R = _ from hG]
  obtain ⟨g1, g2⟩ := C38_decm_partial e he hr d hd name h0
  refine ⟨.of s, blk4 s.x 0, blk4 s.x 1, blk4 s.x 2, blk4 s.x 3, ?_, keepsD DAttr.x (fun _ => rfl) _,
    keepsD DAttr.y (fun _ => rfl) _, keepsD DAttr.b_out (fun _ => rfl) _, keepsD DAttr.b_in (fun _ => rfl) _, fun hc ha i => ?_⟩
  · exact (keepsD DAttr.trace (fun _ => rfl) _).trans (by simp [setSolvedDECM, preDECM, hf])
  obtain ⟨hA, hlt⟩ : AdmDECM0 d s.x ∧ ∀ i j, i ≠ j → s.x (2, i) * s.x (3, j) < 1 :=
      solver_alfa_inv _ _ (by simpa [Params.opts] using hl) ((1 / 2) ^ 50) (fun x => AdmDECM0 d x ∧ ∀ i j, i ≠ j → x (2, i) * x (3, j) < 1)
        (fun s dx alfa hP hf hd hsl hc => ⟨(decm_step0 e he ho hw me' p hl s dx alfa hP.1 hf hd hsl).1, (decm_step0 e he ho hw me' p hl s dx alfa hP.1 hf hd hsl).2 hme hc⟩)
        ⟨g1, g2⟩ hs ha
  have hsp : ∀ w, DECM.expected_decm s.x w = specDECM (blk4 s.x 0) (blk4 s.x 1) (blk4 s.x 2) (blk4 s.x 3) w := fun w => by
    obtain ⟨b, i⟩ := w
    obtain ⟨h0, h1, h2, h3⟩ := expected_decm_spec s.x hA.nonneg hlt i
    fin_cases b
    · exact h0
    · exact h1
    · exact h2
    · exact h3
  have key : ∀ w, |specDECM (blk4 s.x 0) (blk4 s.x 1) (blk4 s.x 2) (blk4 s.x 3) w - d.obs w| ≤ s.x w * p.tol := fun w => by
    have hr := C13_solver_component _ _ _ _ hs hc.1 hc.2 w
    have hfn : (cbDECM e d me').fn s.x w = -DECM.loglikelihood_prime_decm s.x d.degOut d.degIn d.out_strength d.in_strength w := by
      cases me' <;> first | rfl | exact absurd rfl hme
    rw [hfn, abs_neg] at hr
    obtain ⟨pr, ex, -⟩ := DECM.forms s.x d.degOut d.degIn d.out_strength d.in_strength w
    have hres : s.x w * DECM.loglikelihood_prime_decm s.x d.degOut d.degIn d.out_strength d.in_strength w = d.obs w - DECM.expected_decm s.x w := by
      by_cases hv : d.obs w = 0
      · rw [ex, (hA w).2 hv, hv]; simp
      · have h0 := ((hA w).1 hv).ne'
        rw [pr, ex, show DECM.obs d.degOut d.degIn d.out_strength d.in_strength w = d.obs w from rfl]
        field_simp
    rw [← hsp, abs_sub_comm, ← hres, abs_mul, abs_of_nonneg (hA.nonneg w)]
    exact mul_le_mul_of_nonneg_left hr (hA.nonneg w)
  exact ⟨key (0, i), key (1, i), key (2, i), key (3, i)⟩

end decm

section ecm
variable {n : ℕ} [NeZero n] {d : UData n}

/-- C41 (ecm, fixed point): for every guess and option, when `solve_tool("ecm", method="fixed-point")` returns, a node of degree zero has `x = 0` and a node of
strength zero has `y = 0`; either way the model gives it no link and no weight. Missing: "newton" and "quasinewton", which raise `ZeroDivisionError` on such networks
(C79_ecm_zero). -/
theorem C41_ecm_fixed_point_partial (e : Env) (g : UAttr d) (guess : Guess n) (adj : AdjSpec n) (ma : String) (ga : Guess n) (p : Params) :
    let R := solve_tool e g "ecm" "fixed-point" guess adj ma ga p
    R.exc = none → ∃ x y, R.g.x = some x ∧ R.g.y = some y ∧ (∀ i, d.dseq i = 0 → x i = 0) ∧ (∀ i, d.strength_sequence i = 0 → y i = 0) ∧
      ∀ i, d.dseq i = 0 ∨ d.strength_sequence i = 0 → degUECM x y i = 0 ∧ strUECM x y i = 0 ∧ ∀ j, linkUECM x y i j = 0 := by
  intro R h
  obtain ⟨me, x0, y0, guess', s, hm, h0, hs, hG⟩ := solve_tool_ok_ecm e g "fixed-point" guess adj ma ga p h
  obtain rfl : me = .fixed_point := by revert hm; cases me <;> simp [Method.name]
  have k := solutionError_keeps e (setSolvedECM (d := d) { g with last_model := some "ecm", full_return := p.full_return, x := some x0, y := some y0, args := some .ecm, step_fun := some .ecm } false s)
  rw [show R = _ from hG]
  refine ⟨fun i => s.x (0, i), fun i => s.x (1, i), k.1, k.2.1, ?_⟩
  have hz := Checked.guessECM_zero e (d := d) (guess := guess) (x := x0) (y := y0) (by rw [h0])
  have key : ∀ i, (d.dseq i = 0 → s.x (0, i) = 0) ∧ (d.strength_sequence i = 0 → s.x (1, i) = 0) := by
    refine solver_point_inv _ _ (fun x => ∀ i, (d.dseq i = 0 → x (0, i) = 0) ∧ (d.strength_sequence i = 0 → x (1, i) = 0)) ?_ (fun i => by simpa [cat2] using hz i) hs
    intro s dx alfa hP hf hd _ i
    have hdx : dx = (cbECM e d .fixed_point).fn s.x - s.x := by
      unfold direction at hd
      simp only [Params.opts, String.reduceEq, if_false, if_true, Except.ok.injEq] at hd
      rw [← hd, hf]
    constructor
    · intro hi
      have h1 : (cbECM e d .fixed_point).fn s.x (0, i) = 0 := by
        show ECM.iterative_ecm s.x d.deg d.strength_sequence (0, i) = 0
        rw [ECM.iter_eq0, show d.deg i = 0 by simp [UData.deg, hi]]; simp
      simp [hdx, h1, (hP i).1 hi]
    · intro hi
      have h1 : (cbECM e d .fixed_point).fn s.x (1, i) = 0 := by
        show ECM.iterative_ecm s.x d.deg d.strength_sequence (1, i) = 0
        rw [ECM.iter_eq1, hi]; simp
      simp [hdx, h1, (hP i).2 hi]
  refine ⟨fun i => (key i).1, fun i => (key i).2, fun i hi => ?_⟩
  have hl : ∀ j, linkUECM (fun i => s.x (0, i)) (fun i => s.x (1, i)) i j = 0 := fun j => by
    rcases hi with hi | hi
    · simp [linkUECM, (key i).1 hi]
    · simp [linkUECM, (key i).2 hi]
  refine ⟨sum_eq_zero fun j _ => ?_, sum_eq_zero fun j _ => ?_, hl⟩
  · rcases hi with hi | hi
    · simp [(key i).1 hi]
    · simp [(key i).2 hi]
  · rcases hi with hi | hi
    · simp [(key i).1 hi]
    · simp [(key i).2 hi]

end ecm
end
end Verif.Solve
