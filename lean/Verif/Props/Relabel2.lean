import Verif.Lemmas.Relabel
import Verif.Lemmas.EMModels
import Verif.Props.Relabel

/-! C56 for the models that are not reduced to degree classes: ecm, ecm_exp and crema on a given matrix. -/

namespace Verif.Solve
open Verif Verif.Solver Verif.Reduction Verif.Spec Finset

noncomputable section
open Classical in
attribute [local instance 0] propDecidable

variable {n : ℕ}

theorem blocks_perm (m : ℕ) (σ : Equiv.Perm (Fin n)) : ((blocks m n).map (onBlocks m σ)).Perm (blocks m n) := by
  have hnd : (blocks m n).Nodup := by
    unfold blocks
    rw [List.nodup_flatMap]
    refine ⟨fun b _ => (List.nodup_finRange n).map fun i j h => (Prod.mk.inj h).2, ?_⟩
    refine (List.nodup_finRange m).imp fun {b c} hbc => ?_
    intro v hv hv'
    obtain ⟨i, -, rfl⟩ := List.mem_map.1 hv
    obtain ⟨j, -, h⟩ := List.mem_map.1 hv'
    exact hbc (Prod.mk.inj h).1.symm
  have hmem : ∀ v, v ∈ blocks m n := fun v => by simp [blocks]
  rw [List.perm_ext_iff_of_nodup (hnd.map (onBlocks m σ).injective) hnd]
  intro v
  simp only [hmem, iff_true, List.mem_map]
  exact ⟨(onBlocks m σ).symm v, trivial, Equiv.apply_symm_apply _ _⟩

theorem llF_rename (e : Env) (hout : ∀ (ι : Type) (τ : Equiv.Perm ι) x, e.outside ι (x ∘ τ) = e.outside ι x) {ι : Type} (τ : Equiv.Perm ι) {dom dom' : (ι → ℝ) → Prop}
    {L L' : (ι → ℝ) → ℝ} (hd : ∀ x, dom' (x ∘ τ) ↔ dom x) (hL : ∀ x, L' (x ∘ τ) = L x) (x : ι → ℝ) : llF e dom' L' (x ∘ τ) = llF e dom L x := by
  unfold llF
  by_cases h : dom x
  · rw [if_pos h, if_pos ((hd x).2 h), hL]
  · rw [if_neg h, if_neg fun hc => h ((hd x).1 hc), hout]

theorem eigenRegulariser_rename (e : Env) (he : e.Valid) {ι : Type} [Fintype ι] [DecidableEq ι] (τ : ι ≃ ι) (M : Matrix ι ι ℝ) (ε : ℝ) :
    eigenRegulariser e (M.submatrix τ τ) ε = (eigenRegulariser e M ε).submatrix τ τ := by
  have hs : ∀ M : Matrix ι ι ℝ, ((0.5 : ℝ) • (M + M.transpose)).transpose = (0.5 : ℝ) • (M + M.transpose) := fun M => by
    rw [Matrix.transpose_smul, Matrix.transpose_add, Matrix.transpose_transpose, add_comm]
  have h1 := he.eigh ι _ (hs M)
  have h2 := he.eigh ι _ (hs (M.submatrix τ τ))
  have hl : ∀ t : ι → ℝ, (Matrix.diagonal (fun i => if t i > ε then 0 else ε - t i) + Matrix.diagonal t : Matrix ι ι ℝ) = Matrix.diagonal fun i => if t i > ε then t i else ε := fun t => by
    rw [Matrix.diagonal_add]
    congr 1
    funext i
    split_ifs <;> ring
  unfold eigenRegulariser matrix_regulariser_function_eigen_based
  simp only [hl]
  refine conj_unique h1.orth h2.orth τ ?_ fun t => if t > ε then t else ε
  rw [← h1.decomp, ← h2.decomp]
  rfl

/-! ### ecm -/

section ecm
open ECM

variable (σ : Equiv.Perm (Fin n)) (x : Fin 2 × Fin n → ℝ) (k s : Fin n → ℝ)

/-- Sums over the other vertices, re-indexed. -/
local macro "resum" s:term : tactic => `(tactic| (refine Fintype.sum_equiv $s _ _ fun j => ?_; simp only [ne_eq, EmbeddingLike.apply_eq_iff_eq, Function.comp, onBlocks_apply]))

theorem ecm_prime_perm : loglikelihood_prime_ecm (x ∘ onBlocks 2 σ) (k ∘ σ) (s ∘ σ) = loglikelihood_prime_ecm x k s ∘ onBlocks 2 σ := by
  funext v
  revert v
  rw [EM.forall_pair]
  constructor <;> intro i
  · simp only [Function.comp, onBlocks_apply, prime_eq0]
    congr 1
    resum σ
  · simp only [Function.comp, onBlocks_apply, prime_eq1]
    congr 1
    resum σ

theorem ecm_prime_exp_perm : loglikelihood_prime_ecm_exp (x ∘ onBlocks 2 σ) (k ∘ σ) (s ∘ σ) = loglikelihood_prime_ecm_exp x k s ∘ onBlocks 2 σ := by
  funext v
  revert v
  rw [EM.forall_pair]
  constructor <;> intro i
  · simp only [Function.comp, onBlocks_apply, prime_exp_eq0]
    congr 1
    resum σ
  · simp only [Function.comp, onBlocks_apply, prime_exp_eq1]
    congr 1
    resum σ

theorem ecm_expected_perm : expected_ecm (x ∘ onBlocks 2 σ) = expected_ecm x ∘ onBlocks 2 σ := by
  funext v
  revert v
  rw [EM.forall_pair]
  constructor <;> intro i
  · simp only [Function.comp, onBlocks_apply, expected_eq0]
    resum σ
  · simp only [Function.comp, onBlocks_apply, expected_eq1]
    resum σ

theorem ecm_iter_perm : iterative_ecm (x ∘ onBlocks 2 σ) (k ∘ σ) (s ∘ σ) = iterative_ecm x k s ∘ onBlocks 2 σ := by
  funext v
  revert v
  rw [EM.forall_pair]
  constructor <;> intro i
  · simp only [Function.comp, onBlocks_apply, iter_eq0]
    refine congrArg (fun t : ℝ => if t ≠ 0 then k (σ i) / t else 0) ?_
    resum σ
  · simp only [Function.comp, onBlocks_apply, iter_eq1]
    refine congrArg (fun t : ℝ => if t ≠ 0 then s (σ i) / t else 0) ?_
    resum σ

theorem ecm_iter_exp_perm : iterative_ecm_exp (x ∘ onBlocks 2 σ) (k ∘ σ) (s ∘ σ) = iterative_ecm_exp x k s ∘ onBlocks 2 σ := by
  funext v
  revert v
  rw [EM.forall_pair]
  constructor <;> intro i
  · simp only [Function.comp, onBlocks_apply, iter_exp_eq0]
    refine congrArg (fun t : ℝ => if t ≠ 0 then -Real.log (k (σ i) / t) else 0) ?_
    resum σ
  · simp only [Function.comp, onBlocks_apply, iter_exp_eq1]
    refine congrArg (fun t : ℝ => if t ≠ 0 then -Real.log (s (σ i) / t) else 0) ?_
    resum σ

theorem ecm_diag_perm : loglikelihood_hessian_diag_ecm (x ∘ onBlocks 2 σ) (k ∘ σ) (s ∘ σ) = loglikelihood_hessian_diag_ecm x k s ∘ onBlocks 2 σ := by
  funext v
  revert v
  rw [EM.forall_pair]
  constructor <;> intro i
  · simp only [Function.comp, onBlocks_apply, diag_eq0]
    congr 1
    resum σ
  · simp only [Function.comp, onBlocks_apply, diag_eq1]
    congr 1
    resum σ

theorem ecm_diag_exp_perm : loglikelihood_hessian_diag_ecm_exp (x ∘ onBlocks 2 σ) (k ∘ σ) = loglikelihood_hessian_diag_ecm_exp x k ∘ onBlocks 2 σ := by
  funext v
  revert v
  rw [EM.forall_pair]
  constructor <;> intro i
  · simp only [Function.comp, onBlocks_apply, diag_exp_eq0]
    resum σ
  · simp only [Function.comp, onBlocks_apply, diag_exp_eq1]
    resum σ

theorem ecm_hess_perm (u v : Fin 2 × Fin n) : loglikelihood_hessian_ecm (x ∘ onBlocks 2 σ) (k ∘ σ) (s ∘ σ) u v = loglikelihood_hessian_ecm x k s (onBlocks 2 σ u) (onBlocks 2 σ v) := by
  revert u v
  simp only [EM.forall_pair, onBlocks_apply]
  refine ⟨fun i => ⟨fun j => ?_, fun j => ?_⟩, fun i => ⟨fun j => ?_, fun j => ?_⟩⟩ <;> by_cases h : i = j
  · subst h
    rw [(hess_eq_eq _ _ _ i).1, (hess_eq_eq _ _ _ (σ i)).1, ecm_diag_perm]; rfl
  · rw [(hess_eq_ne _ _ _ i j h).1, (hess_eq_ne _ _ _ (σ i) (σ j) (by simpa using h)).1]; rfl
  · subst h
    rw [(hess_eq_eq _ _ _ i).2.2.1, (hess_eq_eq _ _ _ (σ i)).2.2.1]
    resum σ
  · rw [(hess_eq_ne _ _ _ i j h).2.1, (hess_eq_ne _ _ _ (σ i) (σ j) (by simpa using h)).2.1]; rfl
  · subst h
    rw [(hess_eq_eq _ _ _ i).2.2.2, (hess_eq_eq _ _ _ (σ i)).2.2.2]
    resum σ
  · rw [(hess_eq_ne _ _ _ i j h).2.2.1, (hess_eq_ne _ _ _ (σ i) (σ j) (by simpa using h)).2.2.1]; rfl
  · subst h
    rw [(hess_eq_eq _ _ _ i).2.1, (hess_eq_eq _ _ _ (σ i)).2.1, ecm_diag_perm]; rfl
  · rw [(hess_eq_ne _ _ _ i j h).2.2.2, (hess_eq_ne _ _ _ (σ i) (σ j) (by simpa using h)).2.2.2]; rfl

theorem ecm_hess_exp_perm (u v : Fin 2 × Fin n) : loglikelihood_hessian_ecm_exp (x ∘ onBlocks 2 σ) (k ∘ σ) u v = loglikelihood_hessian_ecm_exp x k (onBlocks 2 σ u) (onBlocks 2 σ v) := by
  revert u v
  simp only [EM.forall_pair, onBlocks_apply]
  refine ⟨fun i => ⟨fun j => ?_, fun j => ?_⟩, fun i => ⟨fun j => ?_, fun j => ?_⟩⟩ <;> by_cases h : i = j
  · subst h
    rw [(hess_exp_eq_eq _ _ i).1, (hess_exp_eq_eq _ _ (σ i)).1, ecm_diag_exp_perm]; rfl
  · rw [(hess_exp_eq_ne _ _ i j h).1, (hess_exp_eq_ne _ _ (σ i) (σ j) (by simpa using h)).1]; rfl
  · subst h
    rw [(hess_exp_eq_eq _ _ i).2.2.1, (hess_exp_eq_eq _ _ (σ i)).2.2.1]
    resum σ
  · rw [(hess_exp_eq_ne _ _ i j h).2.1, (hess_exp_eq_ne _ _ (σ i) (σ j) (by simpa using h)).2.1]; rfl
  · subst h
    rw [(hess_exp_eq_eq _ _ i).2.2.2, (hess_exp_eq_eq _ _ (σ i)).2.2.2]
    resum σ
  · rw [(hess_exp_eq_ne _ _ i j h).2.2.1, (hess_exp_eq_ne _ _ (σ i) (σ j) (by simpa using h)).2.2.1]; rfl
  · subst h
    rw [(hess_exp_eq_eq _ _ i).2.1, (hess_exp_eq_eq _ _ (σ i)).2.1, ecm_diag_exp_perm]; rfl
  · rw [(hess_exp_eq_ne _ _ i j h).2.2.2, (hess_exp_eq_ne _ _ (σ i) (σ j) (by simpa using h)).2.2.2]; rfl

theorem logUECM_perm (u y : Fin n → ℝ) : logUECM (k ∘ σ) (s ∘ σ) (u ∘ σ) (y ∘ σ) = logUECM k s u y := by
  unfold logUECM
  have hf : ∀ u y : Fin n → ℝ, ∀ i j, Real.log ((1 - y i * y j) / (1 - y i * y j + u i * u j * (y i * y j))) =
      Real.log ((1 - y j * y i) / (1 - y j * y i + u j * u i * (y j * y i))) := fun u y i j => by rw [mul_comm (y i), mul_comm (u i)]
  rw [← half_pairs _ (hf u y), ← half_pairs _ (hf (u ∘ σ) (y ∘ σ))]
  congr 1
  · exact Fintype.sum_equiv σ _ _ fun j => rfl
  · refine Fintype.sum_equiv σ _ _ fun i => Fintype.sum_equiv σ _ _ fun j => ?_
    simp only [EmbeddingLike.apply_eq_iff_eq]
    rfl

theorem ecm_ll_perm : loglikelihood_ecm (x ∘ onBlocks 2 σ) (k ∘ σ) (s ∘ σ) = loglikelihood_ecm x k s := by
  rw [ll_ecm_spec, ll_ecm_spec]
  exact logUECM_perm σ k s (fun i => x (0, i)) (fun i => x (1, i))

theorem ecm_ll_exp_perm : loglikelihood_ecm_exp (x ∘ onBlocks 2 σ) (k ∘ σ) (s ∘ σ) = loglikelihood_ecm_exp x k s := by
  rw [ll_ecm_exp_spec, ll_ecm_exp_spec]
  exact logUECM_perm σ k s (fun i => Real.exp (-x (0, i))) (fun i => Real.exp (-x (1, i)))

end ecm

section callbacks
variable {e : Env} (he : e.Valid) (hout : ∀ (ι : Type) (τ : Equiv.Perm ι) x, e.outside ι (x ∘ τ) = e.outside ι x)
include he hout

theorem renamed_ecm {d d' : UData n} {σ : Equiv.Perm (Fin n)} (hk : d'.deg = d.deg ∘ σ) (hs : d'.strength_sequence = d.strength_sequence ∘ σ) (me : Method) :
    Renamed (onBlocks 2 σ) (cbECM e d me) (cbECM e d' me) where
  fn x := by
    cases me with
    | newton => funext v; show -_ = -_; rw [hk, hs, ecm_prime_perm]; rfl
    | quasinewton => funext v; show -_ = -_; rw [hk, hs, ecm_prime_perm]; rfl
    | fixed_point => show ECM.iterative_ecm _ _ _ = _; rw [hk, hs, ecm_iter_perm]; rfl
  jac x := by
    funext u v
    show -_ = -_
    rw [hk, hs, ecm_hess_perm]
  diag x := by
    funext v
    show -_ = -_
    rw [hk, hs, ecm_diag_perm]; rfl
  reg x ε := eigenRegulariser_rename e he _ _ _
  search x dx b a f := by
    refine linsearch_ECM_comp σ (blocks_perm 2 σ) (llF_rename e hout _ (fun x => ?_) fun x => ?_) x dx b a f
    · simp only [EM.forall_pair, Function.comp, onBlocks_apply]
      refine and_congr (and_congr (σ.forall_congr_right (q := fun i => 0 < x (0, i))) (σ.forall_congr_right (q := fun i => 0 < x (1, i)))) ?_
      exact ⟨fun h i j hij => by simpa using h (σ.symm i) (σ.symm j) (by simpa using hij), fun h i j hij => h _ _ (by simpa using hij)⟩
    · rw [hk, hs, ecm_ll_perm]
  searchFixed x dx dx_old a b k := linsearch_ECM_fixed_comp σ (blocks_perm 2 σ) x dx dx_old a b k

omit he in
theorem renamed_ecm_exp {d d' : UData n} {σ : Equiv.Perm (Fin n)} (hk : d'.deg = d.deg ∘ σ) (hs : d'.strength_sequence = d.strength_sequence ∘ σ) (me : Method) :
    Renamed (onBlocks 2 σ) (cbECMexp e d me) (cbECMexp e d' me) where
  fn x := by
    cases me with
    | newton => funext v; show -_ = -_; rw [hk, hs, ecm_prime_exp_perm]; rfl
    | quasinewton => funext v; show -_ = -_; rw [hk, hs, ecm_prime_exp_perm]; rfl
    | fixed_point => show ECM.iterative_ecm_exp _ _ _ = _; rw [hk, hs, ecm_iter_exp_perm]; rfl
  jac x := by
    funext u v
    show -_ = -_
    rw [hk, ecm_hess_exp_perm]
  diag x := by
    funext v
    show -_ = -_
    rw [hk, ecm_diag_exp_perm]; rfl
  reg x ε := regulariser_rename _ _ _
  search x dx b a f := by
    refine linsearch_ECM_exp_comp σ (llF_rename e hout _ (fun x => ?_) fun x => ?_) x dx b a f
    · simp only [Function.comp, onBlocks_apply]
      exact ⟨fun h i j hij => by simpa using h (σ.symm i) (σ.symm j) (by simpa using hij), fun h i j hij => h _ _ (by simpa using hij)⟩
    · rw [hk, hs, ecm_ll_exp_perm]
  searchFixed x dx dx_old a b k := linsearch_ECM_exp_fixed_comp σ x dx dx_old a b k

end callbacks

/-- the same guess with the nodes renamed -/
def Guess.rename (σ : Equiv.Perm (Fin n)) : Guess n → Guess n
  | .other => .other
  | .name s => .name s
  | .nodes v => .nodes (v ∘ σ)
  | .pairs v => .pairs (v ∘ onBlocks 2 σ)

/-- What "the renamed answer" means: the node `i` of `g'` has what the node `σ i` of `g` has, and the numbers that belong to no node (errors, trace, likelihood) are
the same. -/
structure RenamedAnswer (e : Env) {d d' : UData n} (σ : Equiv.Perm (Fin n)) (g : UAttr d) (g' : UAttr d') : Prop where
  x : g'.x = g.x.map (· ∘ σ)
  y : g'.y = g.y.map (· ∘ σ)
  beta : g'.beta = g.beta.map (· ∘ σ)
  expected_dseq : g'.expected_dseq = g.expected_dseq.map (· ∘ σ)
  expected_strength_seq : g'.expected_strength_seq = g.expected_strength_seq.map (· ∘ σ)
  expected_stregth_seq : g'.expected_stregth_seq = g.expected_stregth_seq.map (· ∘ σ)
  error_degree : g'.error_degree = g.error_degree
  relative_error_degree : g'.relative_error_degree = g.relative_error_degree
  error_strength : g'.error_strength = g.error_strength
  relative_error_strength : g'.relative_error_strength = g.relative_error_strength
  error : g'.error = g.error
  trace : g'.trace = g.trace
  trace_crema : g'.trace_crema = g.trace_crema
  loglikelihood : model_loglikelihood e g' = model_loglikelihood e g

section undirected
variable [NeZero n] {d d' : UData n} {σ : Equiv.Perm (Fin n)}

theorem guessECM_rename (e : Env) (hk : d'.dseq = d.dseq ∘ σ) (hs : d'.strength_sequence = d.strength_sequence ∘ σ) (isExp : Bool) (g : Guess n) (hg : g ≠ .name "random") :
    guessECM e d' isExp (g.rename σ) = ((guessECM e d isExp g).1.map fun v => (v.1 ∘ σ, v.2 ∘ σ), (guessECM e d isExp g).2.rename σ) := by
  have hd : d'.deg = d.deg ∘ σ := by funext i; simp [UData.deg, hk]
  have hE : d'.n_edges = d.n_edges := n_edges_perm fun i => congrFun hk i
  cases g with
  | other => rfl
  | nodes v => simp only [Guess.rename, guessECM, hd, Except.map]; rfl
  | pairs v => simp only [Guess.rename, guessECM, hd, hs, Except.map, Prod.mk.injEq, true_and]; exact ⟨rfl, rfl⟩
  | name s =>
    have hr : s ≠ "random" := fun h => hg (h ▸ rfl)
    have hn : namedECM e d' s = (namedECM e d s).map fun v => (v.1 ∘ σ, v.2 ∘ σ) := by
      unfold namedECM
      simp only [hd, hs, hE, if_neg hr]
      split_ifs
      · simp only [Option.map_some, Option.some.injEq, Prod.mk.injEq]
        refine ⟨rfl, ?_⟩
        funext i
        simp only [Function.comp]
        rw [Equiv.sum_comp σ d.strength_sequence]
      all_goals rfl
    simp only [Guess.rename, guessECM, hn]
    cases namedECM e d s with
    | none => rfl
    | some v => cases isExp <;> simp only [Option.map_some, hd, hs] <;> rfl

theorem solutionError_ecm_rename (e : Env) (hk : d'.dseq = d.dseq ∘ σ) (hs : d'.strength_sequence = d.strength_sequence ∘ σ) {G : UAttr d} {G' : UAttr d'} {x y : Fin n → ℝ}
    (hm : G.last_model = some "ecm" ∨ G.last_model = some "ecm_exp") (hm' : G'.last_model = G.last_model) (hx : G.x = some x) (hy : G.y = some y)
    (hR : RenamedAnswer e σ G G') :
    (solutionError e G').2 = (solutionError e G).2 ∧ RenamedAnswer e σ (solutionError e G).1 (solutionError e G').1 := by
  have hd : d'.deg = d.deg ∘ σ := by funext i; simp [UData.deg, hk]
  have u {d : UData n} (G : UAttr d) (x y : Fin n → ℝ) (h1 : G.x = some x) (h2 : G.y = some y) (hl : G.last_model = some "ecm" ∨ G.last_model = some "ecm_exp") :
      solutionError e G = ({ G with
        expected_dseq := some fun i => ECM.expected_ecm (cat2 x y) (0, i), expected_strength_seq := some fun i => ECM.expected_ecm (cat2 x y) (1, i),
        error_degree := some (maxAbs (fun i => ECM.expected_ecm (cat2 x y) (0, i) - d.deg i)), error_strength := some (maxAbs (fun i => ECM.expected_ecm (cat2 x y) (1, i) - d.strength_sequence i)),
        relative_error_strength := some (maxAbs fun i => (d.strength_sequence i - ECM.expected_ecm (cat2 x y) (1, i)) / d.strength_sequence i),
        relative_error_degree := some (maxAbs fun i => (d.deg i - ECM.expected_ecm (cat2 x y) (0, i)) / d.deg i),
        error := some (max (maxAbs (fun i => ECM.expected_ecm (cat2 x y) (1, i) - d.strength_sequence i)) (maxAbs (fun i => ECM.expected_ecm (cat2 x y) (0, i) - d.deg i))) }, none) := by
    unfold solutionError
    rw [if_neg (by rcases hl with h | h <;> rw [h] <;> decide), if_pos hl]
    simp only [h1, h2]
  have hx' : G'.x = some (x ∘ σ) := by rw [hR.x, hx]; rfl
  have hy' : G'.y = some (y ∘ σ) := by rw [hR.y, hy]; rfl
  have hE : ECM.expected_ecm (cat2 (x ∘ σ) (y ∘ σ)) = ECM.expected_ecm (cat2 x y) ∘ onBlocks 2 σ := by
    rw [← ecm_expected_perm]
    congr 1
  rw [u G x y hx hy hm, u G' _ _ hx' hy' (hm' ▸ hm)]
  refine ⟨rfl, ?_⟩
  constructor
  · exact hR.x
  · exact hR.y
  · exact hR.beta
  · simp only [hE]; rfl
  · simp only [hE]; rfl
  · exact hR.expected_stregth_seq
  · simp only [hE, hd]; exact congrArg some (maxAbs_perm (fun i => ECM.expected_ecm (cat2 x y) (0, i) - d.deg i) σ)
  · simp only [hE, hd]; exact congrArg some (maxAbs_perm (fun i => (d.deg i - ECM.expected_ecm (cat2 x y) (0, i)) / d.deg i) σ)
  · simp only [hE, hs]; exact congrArg some (maxAbs_perm (fun i => ECM.expected_ecm (cat2 x y) (1, i) - d.strength_sequence i) σ)
  · simp only [hE, hs]; exact congrArg some (maxAbs_perm (fun i => (d.strength_sequence i - ECM.expected_ecm (cat2 x y) (1, i)) / d.strength_sequence i) σ)
  · simp only [hE, hs, hd]
    exact congrArg some (congrArg₂ max (maxAbs_perm (fun i => ECM.expected_ecm (cat2 x y) (1, i) - d.strength_sequence i) σ) (maxAbs_perm (fun i => ECM.expected_ecm (cat2 x y) (0, i) - d.deg i) σ))
  · exact hR.trace
  · exact hR.trace_crema
  · exact hR.loglikelihood

/-- C56 (ecm, ecm_exp): renaming the nodes - degrees, strengths and, when the guess is an array, the guess - renames the answer and changes nothing else: same
exception or success, parameters and expected values of the renamed nodes, same errors, trace and likelihood.  Every method, every guess but the random one, with or
without line search. -/
theorem C56_ecm_relabel {e : Env} (he : e.Valid) (hout : ∀ (ι : Type) (τ : Equiv.Perm ι) x, e.outside ι (x ∘ τ) = e.outside ι x)
    (hk : d'.dseq = d.dseq ∘ σ) (hs : d'.strength_sequence = d.strength_sequence ∘ σ) (mo : UModel) (hmo : mo = .ecm ∨ mo = .ecm_exp)
    (method : String) (guess : Guess n) (hg : guess ≠ .name "random") (adj : AdjSpec n) (ma : String) (ga : Guess n) (p : Params) :
    let R := solve_tool e ({} : UAttr d) mo.name method guess adj ma ga p
    let R' := solve_tool e ({} : UAttr d') mo.name method (guess.rename σ) adj ma ga p
    R'.exc = R.exc ∧ RenamedAnswer e σ R.g R'.g := by
  have hd : d'.deg = d.deg ∘ σ := by funext i; simp [UData.deg, hk]
  have hR : ∀ {d : UData n} (g : UAttr d) guess, solve_tool e g mo.name method guess adj ma ga p = match (solveProblem e g mo.name method guess p) with
      | (g', some x, gu) => ⟨g', some x, gu, ga⟩
      | (g', none, gu) => ⟨(solutionError e g').1, (solutionError e g').2, gu, ga⟩ := by
    intro d g guess
    unfold solve_tool
    rw [if_pos (by rcases hmo with rfl | rfl <;> simp [UModel.name])]
    obtain ⟨a, b, c⟩ := solveProblem e g mo.name method guess p
    cases b <;> rfl
  intro R R'
  have h1 : R = _ := hR _ guess
  have h2 : R' = _ := hR _ _
  have hm1 : ¬ (mo.name = "cm" ∨ mo.name = "cm_exp") := by rcases hmo with rfl | rfl <;> decide
  have hm2 : mo.name = "ecm" ∨ mo.name = "ecm_exp" := by rcases hmo with rfl | rfl <;> decide
  unfold solveProblem at h1 h2
  rw [if_neg hm1, if_pos hm2] at h1 h2
  rw [guessECM_rename e hk hs _ guess hg] at h2
  rcases hG : guessECM e d (decide (mo.name = "ecm_exp")) guess with ⟨er | ⟨x, y⟩, gu⟩
  · rw [hG] at h1 h2
    rw [h1, h2]
    exact ⟨rfl, ⟨rfl, rfl, rfl, rfl, rfl, rfl, rfl, rfl, rfl, rfl, rfl, rfl, rfl, rfl⟩⟩
  · rw [hG] at h1 h2
    cases hl : uLookup mo.name method with
    | none =>
      simp only [hl, Except.map] at h1 h2
      rw [h1, h2]
      exact ⟨rfl, ⟨rfl, rfl, rfl, rfl, rfl, rfl, rfl, rfl, rfl, rfl, rfl, rfl, rfl, rfl⟩⟩
    | some v =>
      simp only [hl, Except.map] at h1 h2
      have hc : cat2 (x ∘ σ) (y ∘ σ) = cat2 x y ∘ onBlocks 2 σ := by
        funext v; revert v; rw [EM.forall_pair]; exact ⟨fun i => rfl, fun i => rfl⟩
      have hren : Renamed (onBlocks 2 σ) (if mo.name = "ecm_exp" then cbECMexp e d v.2 else cbECM e d v.2) (if mo.name = "ecm_exp" then cbECMexp e d' v.2 else cbECM e d' v.2) := by
        split_ifs
        · exact renamed_ecm_exp hout hd hs v.2
        · exact renamed_ecm he hout hd hs v.2
      rw [hc, solver_rename hren] at h2
      cases hS : solver (if mo.name = "ecm_exp" then cbECMexp e d v.2 else cbECM e d v.2) (p.opts method) (cat2 x y) with
      | error er =>
        rw [hS] at h1 h2
        simp only [Except.map] at h1 h2
        rw [h1, h2]
        refine ⟨rfl, ⟨rfl, rfl, rfl, rfl, rfl, rfl, rfl, rfl, rfl, rfl, rfl, rfl, rfl, ?_⟩⟩
        unfold model_loglikelihood
        cases v.1 <;> rfl
      | ok st =>
        rw [hS] at h1 h2
        simp only [Except.map] at h1 h2
        rw [h1, h2]
        refine solutionError_ecm_rename e hk hs (x := if decide (mo.name = "ecm_exp") then fun i => Real.exp (-st.x (0, i)) else fun i => st.x (0, i)) 
          (y := if decide (mo.name = "ecm_exp") then fun i => Real.exp (-st.x (1, i)) else fun i => st.x (1, i)) ?_ rfl rfl rfl ?_
        · exact hm2.imp (congrArg some) (congrArg some)
        · refine ⟨?_, ?_, rfl, rfl, rfl, rfl, rfl, rfl, rfl, rfl, rfl, ?_, rfl, ?_⟩
          · simp only [setSolvedECM]; split_ifs <;> rfl
          · simp only [setSolvedECM]; split_ifs <;> rfl
          · simp only [setSolvedECM]; rfl
          · unfold model_loglikelihood
            simp only [setSolvedECM, State.rename]
            cases v.1
            · rfl
            · rfl
            · simp only [hd, hs, ecm_ll_perm]
            · simp only [hd, hs, ecm_ll_exp_perm]
            · rfl
            · rfl

end undirected

end

end Verif.Solve
