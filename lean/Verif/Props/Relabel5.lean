import Verif.Props.Relabel4
import Verif.Props.DCReMa
import Verif.Props.CremaLaw2

/-! C56 for the directed crema: on a given matrix and on the link probabilities of the binary model. -/

namespace Verif.Solve
open Verif Verif.Solver Verif.Reduction Verif.Spec Finset

noncomputable section

variable {n : ℕ}

/-! ### the callbacks -/

section dcrema
open DCReMa

variable (σ : Equiv.Perm (Fin n)) (β : Fin 2 × Fin n → ℝ) (so si : Fin n → ℝ) {a a' : Fin n → Fin n → ℝ}

variable {σ} (h : ∀ i j, a' i j = a (σ i) (σ j))
include h

theorem arc_out_perm (k k' : Fin n → Fin n → ℝ → ℝ) (hk : ∀ i j, k i j 0 = 0) (hk' : ∀ i j w, k' i j w = k (σ i) (σ j) w) (m : Fin n) :
    ((nzEdges a').map fun e => if m = e.1 then k' e.1 e.2.1 e.2.2 else 0).sum = ((nzEdges a).map fun e => if σ m = e.1 then k e.1 e.2.1 e.2.2 else 0).sum := by
  rw [arc_out a k hk, arc_out a' k' fun i j => by rw [hk', hk]]
  exact Fintype.sum_equiv σ _ _ fun j => by rw [hk', h]

theorem arc_in_perm (k k' : Fin n → Fin n → ℝ → ℝ) (hk : ∀ i j, k i j 0 = 0) (hk' : ∀ i j w, k' i j w = k (σ i) (σ j) w) (m : Fin n) :
    ((nzEdges a').map fun e => if m = e.2.1 then k' e.1 e.2.1 e.2.2 else 0).sum = ((nzEdges a).map fun e => if σ m = e.2.1 then k e.1 e.2.1 e.2.2 else 0).sum := by
  rw [arc_in a k hk, arc_in a' k' fun i j => by rw [hk', hk]]
  exact Fintype.sum_equiv σ _ _ fun j => by rw [hk', h]

theorem dcrema_out_perm : expected_out_strength_crema_directed (β ∘ onBlocks 2 σ) (nzEdges a') = expected_out_strength_crema_directed β (nzEdges a) ∘ σ := by
  funext m
  simp only [Function.comp, out_eq, onBlocks_apply]
  exact arc_out_perm h (fun i j w => w / (β (0, i) + β (1, j))) (fun i j w => w / (β (0, σ i) + β (1, σ j))) (by simp) (fun _ _ _ => rfl) m

theorem dcrema_in_perm : expected_in_strength_crema_directed (β ∘ onBlocks 2 σ) (nzEdges a') = expected_in_strength_crema_directed β (nzEdges a) ∘ σ := by
  funext m
  simp only [Function.comp, in_eq, onBlocks_apply]
  exact arc_in_perm h (fun i j w => w / (β (0, i) + β (1, j))) (fun i j w => w / (β (0, σ i) + β (1, σ j))) (by simp) (fun _ _ _ => rfl) m

theorem dcrema_prime_perm : loglikelihood_prime_crema_directed (β ∘ onBlocks 2 σ) (so ∘ σ) (si ∘ σ) (nzEdges a') (DCM.nonzero (so ∘ σ)) (DCM.nonzero (si ∘ σ)) =
    loglikelihood_prime_crema_directed β so si (nzEdges a) (DCM.nonzero so) (DCM.nonzero si) ∘ onBlocks 2 σ := by
  funext v; revert v; rw [EM.forall_pair]
  constructor
  · intro m
    simp only [Function.comp_apply, onBlocks_apply, prime_eq0 _ _ _ _ _ _ (DCM.nodup_nonzero _), DCM.mem_nonzero, dcrema_out_perm β h]
  · intro m
    simp only [Function.comp_apply, onBlocks_apply, prime_eq1 _ _ _ _ _ _ (DCM.nodup_nonzero _), DCM.mem_nonzero, dcrema_in_perm β h]

theorem dcrema_diag_perm : loglikelihood_hessian_diag_crema_directed (β ∘ onBlocks 2 σ) (nzEdges a') = loglikelihood_hessian_diag_crema_directed β (nzEdges a) ∘ onBlocks 2 σ := by
  funext v; revert v; rw [EM.forall_pair]
  constructor
  · intro m
    simp only [Function.comp_apply, onBlocks_apply, diag_eq0]
    exact arc_out_perm h (fun i j w => -(w / (β (0, i) + β (1, j)) ^ 2)) (fun i j w => -(w / (β (0, σ i) + β (1, σ j)) ^ 2)) (by simp) (fun _ _ _ => rfl) m
  · intro m
    simp only [Function.comp_apply, onBlocks_apply, diag_eq1]
    exact arc_in_perm h (fun i j w => -(w / (β (0, i) + β (1, j)) ^ 2)) (fun i j w => -(w / (β (0, σ i) + β (1, σ j)) ^ 2)) (by simp) (fun _ _ _ => rfl) m

theorem dcrema_iter_perm : iterative_crema_directed (β ∘ onBlocks 2 σ) (so ∘ σ) (si ∘ σ) (nzEdges a') (DCM.nonzero (so ∘ σ)) (DCM.nonzero (si ∘ σ)) =
    iterative_crema_directed β so si (nzEdges a) (DCM.nonzero so) (DCM.nonzero si) ∘ onBlocks 2 σ := by
  funext v; revert v; rw [EM.forall_pair]
  constructor
  · intro m
    simp only [Function.comp_apply, onBlocks_apply, iter_eq0 _ _ _ _ _ _ (DCM.nodup_nonzero _), DCM.mem_nonzero]
    rw [arc_out_perm h (fun i j w => -(w / (1 + β (1, j) / β (0, i)))) (fun i j w => -(w / (1 + β (1, σ j) / β (0, σ i)))) (by simp) (fun _ _ _ => rfl) m]
  · intro m
    simp only [Function.comp_apply, onBlocks_apply, iter_eq1 _ _ _ _ _ _ (DCM.nodup_nonzero _), DCM.mem_nonzero]
    rw [arc_in_perm h (fun i j w => -(w / (1 + β (0, i) / β (1, j)))) (fun i j w => -(w / (1 + β (0, σ i) / β (1, σ j)))) (by simp) (fun _ _ _ => rfl) m]

theorem dcrema_hess_perm (u v : Fin 2 × Fin n) : loglikelihood_hessian_crema_directed (β ∘ onBlocks 2 σ) (nzEdges a') u v =
    loglikelihood_hessian_crema_directed β (nzEdges a) (onBlocks 2 σ u) (onBlocks 2 σ v) := by
  revert u v
  simp only [EM.forall_pair, onBlocks_apply]
  refine ⟨fun p => ⟨fun q => ?_, fun q => ?_⟩, fun p => ⟨fun q => ?_, fun q => ?_⟩⟩
  · rw [(hess_val _ _ _ _).1, (hess_val _ _ _ _).1]
    simp only [EmbeddingLike.apply_eq_iff_eq]
    congr 1
    exact Fintype.sum_equiv σ _ _ fun j => by rw [h]; rfl
  · rw [(hess_val _ _ _ _).2.2.1, (hess_val _ _ _ _).2.2.1, h]; rfl
  · rw [(hess_val _ _ _ _).2.2.2, (hess_val _ _ _ _).2.2.2, h]; rfl
  · rw [(hess_val _ _ _ _).2.1, (hess_val _ _ _ _).2.1]
    simp only [EmbeddingLike.apply_eq_iff_eq]
    congr 1
    exact Fintype.sum_equiv σ _ _ fun j => by rw [h]; rfl

theorem dcrema_dom_perm : (∀ t ∈ nzEdges a', 0 < (β ∘ onBlocks 2 σ) (0, t.1) + (β ∘ onBlocks 2 σ) (1, t.2.1)) ↔ ∀ t ∈ nzEdges a, 0 < β (0, t.1) + β (1, t.2.1) := by
  have key : ∀ (a : Fin n → Fin n → ℝ) (β : Fin 2 × Fin n → ℝ), (∀ t ∈ nzEdges a, 0 < β (0, t.1) + β (1, t.2.1)) ↔ ∀ i j, a i j ≠ 0 → 0 < β (0, i) + β (1, j) := by
    intro a β
    constructor
    · intro hp i j hij
      haveI : NeZero n := ⟨fun hn => (hn ▸ i).elim0⟩
      exact hp _ (mem_nz hij)
    · intro hp t ht
      simp only [nzEdges, List.mem_map, List.mem_filter] at ht
      obtain ⟨q, ⟨-, hq⟩, rfl⟩ := ht
      exact hp _ _ (by simpa using hq)
  rw [key, key]
  refine ⟨fun hp i j hij => ?_, fun hp i j hij => hp _ _ (h i j ▸ hij)⟩
  have := hp (σ.symm i) (σ.symm j) (by rw [h]; simpa using hij)
  simpa [onBlocks_apply] using this

end dcrema

section solving
variable [NeZero n] {e : Env} {d d' : DData n} {σ : Equiv.Perm (Fin n)} (hd : RenamedData σ d d') {a a' : Fin n → Fin n → ℝ} (h : ∀ i j, a' i j = a (σ i) (σ j))
include hd h

theorem dcrema_ll_perm (β : Fin 2 × Fin n → ℝ) :
    DCReMa.loglikelihood_crema_directed (β ∘ onBlocks 2 σ) d'.out_strength d'.in_strength (nzEdges a') (DCM.nonzero d'.out_strength) (DCM.nonzero d'.in_strength) =
    DCReMa.loglikelihood_crema_directed β d.out_strength d.in_strength (nzEdges a) (DCM.nonzero d.out_strength) (DCM.nonzero d.in_strength) := by
  rw [ll_dcrema_spec, ll_dcrema_spec]
  unfold LDCrema logDCReMa
  rw [hd.out_strength, hd.in_strength]
  congr 1
  · congr 1
    exact Fintype.sum_equiv σ _ _ fun i => rfl
  · refine Fintype.sum_equiv σ _ _ fun i => Fintype.sum_equiv σ _ _ fun j => ?_
    rw [h]
    rfl

theorem renamed_dcrema (hout : ∀ (ι : Type) (τ : Equiv.Perm ι) x, e.outside ι (x ∘ τ) = e.outside ι x) (me : Method) :
    Renamed (onBlocks 2 σ) (cbDCrema e d (nzEdges a) me) (cbDCrema e d' (nzEdges a') me) where
  fn x := by
    cases me with
    | newton => funext v; show -_ = -_; rw [hd.out_strength, hd.in_strength, dcrema_prime_perm _ _ _ h]; rfl
    | quasinewton => funext v; show -_ = -_; rw [hd.out_strength, hd.in_strength, dcrema_prime_perm _ _ _ h]; rfl
    | fixed_point => funext v; show -_ = -_; rw [hd.out_strength, hd.in_strength, dcrema_iter_perm _ _ _ h]; rfl
  jac x := by
    funext u v
    show -_ = -_
    rw [dcrema_hess_perm _ h]
  diag x := by
    funext v
    show -_ = -_
    rw [dcrema_diag_perm _ h]; rfl
  reg x ε := regulariser_rename _ _ _
  search x dx b a f := congrArg some (decreaseStage_comp (onBlocks 2 σ) (llF_rename e hout _ (fun x => dcrema_dom_perm x h) fun x => dcrema_ll_perm hd h x) x dx b a f)
  searchFixed x dx dx_old a b k := congrArg some (normStage_comp (onBlocks 2 σ) dx dx_old a b k)

omit h in
theorem guessDCrema_rename (e : Env) (g : DGuess n) (hg : g ≠ .name "random") :
    guessDCrema e d' (g.rename σ) = ((guessDCrema e d g).1.map (fun q => (q.1 ∘ σ, q.2 ∘ σ)), (guessDCrema e d g).2.rename σ) := by
  cases g with
  | other => rfl
  | nodes v => simp only [DGuess.rename, guessDCrema, hd.out_strength, Except.map]; rfl
  | pairs v =>
    simp only [DGuess.rename, guessDCrema, hd.out_strength, hd.in_strength, Except.map]
    exact Prod.ext rfl (congrArg DGuess.pairs (cat2_onBlocks (σ := σ) (maskSet (fun i => v (0, i)) (fun i => d.out_strength i = 0) 0)
      (maskSet (fun i => v (1, i)) (fun i => d.in_strength i = 0) 0)))
  | quads v => simp only [DGuess.rename, guessDCrema, hd.out_strength, Except.map]; rfl
  | name s =>
    have hr : s ≠ "random" := fun h => hg (h ▸ rfl)
    have hn : namedDCrema e d' s = (namedDCrema e d s).map (fun q => (q.1 ∘ σ, q.2 ∘ σ)) := by
      unfold namedDCrema
      simp only [hd.out_strength, hd.in_strength, if_neg hr]
      split_ifs
      · simp only [Option.map_some, Option.some.injEq]
        refine Prod.ext ?_ ?_ <;> funext i <;> simp only [Function.comp]
        · rw [Equiv.sum_comp σ d.out_strength]
        · rw [Equiv.sum_comp σ d.in_strength]
      all_goals rfl
    simp only [DGuess.rename, guessDCrema, hn]
    cases namedDCrema e d s with
    | none => rfl
    | some v => simp only [Option.map_some, hd.out_strength, hd.in_strength]; rfl

omit h in
theorem degreeErrorD_rename {G : DAttr d} {G' : DAttr d'} (hR : RenamedAnswerD σ G G') : RenamedAnswerD σ (degreeErrorD G) (degreeErrorD G') := by
  unfold degreeErrorD
  rw [hR.x, hR.y]
  cases hx : G.x with
  | none => exact hR
  | some x =>
    cases hy : G.y with
    | none => exact hR
    | some y =>
      have a1 := maxAbs_perm (fun v => cat2 (DCM.expected_out_degree_dcm (cat2 x y)) (DCM.expected_in_degree_dcm (cat2 x y)) v - cat2 d.degOut d.degIn v) (onBlocks 2 σ)
      have a2 := maxAbs_perm (fun v => (cat2 (DCM.expected_out_degree_dcm (cat2 x y)) (DCM.expected_in_degree_dcm (cat2 x y)) v - cat2 d.degOut d.degIn v) /
        (cat2 d.degOut d.degIn v + Real.exp (-100))) (onBlocks 2 σ)
      simp only [Option.map_some, out_perm, in_perm, hd.degOut, hd.degIn]
      simp only [cat2_onBlocks]
      exact ⟨rfl, rfl, hR.b_out, hR.b_in, rfl, hR.expected_strength_seq, hR.expected_stregth_seq, congrArg some a1, congrArg some a2, hR.error_strength,
        hR.relative_error_strength, congrArg some a1, hR.trace, hR.trace_crema, hR.loglikelihood⟩

theorem strengthErrorD_rename {G : DAttr d} {G' : DAttr d'} (hR : RenamedAnswerD σ G G') (ha : G.adjacency_crema = some (.edges (nzEdges a)))
    (ha' : G'.adjacency_crema = some (.edges (nzEdges a'))) (hsp : G.is_sparse = false) (hsp' : G'.is_sparse = false) (hgi : G'.adjacency_given = G.adjacency_given) :
    (strengthErrorD G').2 = (strengthErrorD G).2 ∧ RenamedAnswerD σ (strengthErrorD G).1 (strengthErrorD G').1 := by
  unfold strengthErrorD
  rw [hR.b_out, hR.b_in]
  cases hb : G.b_out with
  | none => exact ⟨rfl, hR⟩
  | some bo =>
    cases hi : G.b_in with
    | none => exact ⟨rfl, hR⟩
    | some bi =>
      set E := cat2 (DCReMa.expected_out_strength_crema_directed (cat2 bo bi) (nzEdges a)) (DCReMa.expected_in_strength_crema_directed (cat2 bo bi) (nzEdges a)) with hE
      have e1 : cat2 (DCReMa.expected_out_strength_crema_directed (cat2 (bo ∘ σ) (bi ∘ σ)) (nzEdges a')) (DCReMa.expected_in_strength_crema_directed (cat2 (bo ∘ σ) (bi ∘ σ)) (nzEdges a')) =
          E ∘ onBlocks 2 σ := by
        rw [cat2_onBlocks, dcrema_out_perm _ h, dcrema_in_perm _ h, cat2_onBlocks]
      have a1 : (maxAbs fun v => (E ∘ onBlocks 2 σ) v - (cat2 d.out_strength d.in_strength ∘ onBlocks 2 σ) v) = maxAbs fun v => E v - cat2 d.out_strength d.in_strength v :=
        maxAbs_perm (fun v => E v - cat2 d.out_strength d.in_strength v) (onBlocks 2 σ)
      have a2 : (maxAbs fun v => ((E ∘ onBlocks 2 σ) v - (cat2 d.out_strength d.in_strength ∘ onBlocks 2 σ) v) / ((cat2 d.out_strength d.in_strength ∘ onBlocks 2 σ) v + Real.exp (-100))) =
          maxAbs fun v => (E v - cat2 d.out_strength d.in_strength v) / (cat2 d.out_strength d.in_strength v + Real.exp (-100)) :=
        maxAbs_perm (fun v => (E v - cat2 d.out_strength d.in_strength v) / (cat2 d.out_strength d.in_strength v + Real.exp (-100))) (onBlocks 2 σ)
      have e2 : cat2 d'.out_strength d'.in_strength = cat2 d.out_strength d.in_strength ∘ onBlocks 2 σ := by rw [hd.out_strength, hd.in_strength, cat2_onBlocks]
      simp only [Option.map_some, ha, ha', hsp, hsp', hgi, e1, e2, a1, a2, hR.error_degree]
      cases hga : G.adjacency_given with
      | none => exact ⟨rfl, ⟨hR.x, hR.y, rfl, rfl, hR.expected_dseq, hR.expected_strength_seq, rfl, rfl, hR.relative_error_degree, rfl, rfl, hR.error, hR.trace,
          hR.trace_crema, hR.loglikelihood⟩⟩
      | some t =>
        cases t with
        | true => exact ⟨rfl, ⟨hR.x, hR.y, rfl, rfl, hR.expected_dseq, hR.expected_strength_seq, rfl, rfl, hR.relative_error_degree, rfl, rfl, rfl, hR.trace,
            hR.trace_crema, hR.loglikelihood⟩⟩
        | false =>
          cases hed : G.error_degree with
          | none => exact ⟨rfl, ⟨hR.x, hR.y, rfl, rfl, hR.expected_dseq, hR.expected_strength_seq, rfl, rfl, hR.relative_error_degree, rfl, rfl, hR.error, hR.trace,
              hR.trace_crema, hR.loglikelihood⟩⟩
          | some ed => exact ⟨rfl, ⟨hR.x, hR.y, rfl, rfl, hR.expected_dseq, hR.expected_strength_seq, rfl, rfl, hR.relative_error_degree, rfl, rfl, rfl, hR.trace,
              hR.trace_crema, hR.loglikelihood⟩⟩

/-- CReMa after the links are fixed, in two states that are renamings of each other. -/
theorem tailD_rename (hout : ∀ (ι : Type) (τ : Equiv.Perm ι) x, e.outside ι (x ∘ τ) = e.outside ι x) {G : DAttr d} {G' : DAttr d'} (hR : RenamedAnswerD σ G G')
    (hsp : G.is_sparse = false) (hsp' : G'.is_sparse = false)
    (hsol : G.solution_array = none ∧ G'.solution_array = none ∨ ∃ v v', G.solution_array = some (.reduced v) ∧ G'.solution_array = some (.reduced v'))
    (me : Method) (guess : DGuess n) (hg : guess ≠ .name "random") (p : Params) :
    let T := solveDCremaTail e G (.edges (nzEdges a)) "crema" me.name guess p
    let T' := solveDCremaTail e G' (.edges (nzEdges a')) "crema" me.name (guess.rename σ) p
    T'.2.1 = T.2.1 ∧ RenamedAnswerD σ T.1 T'.1 ∧ (T.2.1 = none → T.1.last_model = some "crema" ∧ T'.1.last_model = some "crema" ∧
      T.1.adjacency_crema = G.adjacency_crema ∧ T'.1.adjacency_crema = G'.adjacency_crema ∧ T.1.is_sparse = false ∧ T'.1.is_sparse = false ∧
      T.1.adjacency_given = G.adjacency_given ∧ T'.1.adjacency_given = G'.adjacency_given) := by
  intro T T'
  have h1 : T = solveDCremaTail e G (.edges (nzEdges a)) "crema" me.name guess p := rfl
  have h2 : T' = solveDCremaTail e G' (.edges (nzEdges a')) "crema" me.name (guess.rename σ) p := rfl
  unfold solveDCremaTail at h1 h2
  simp only [hsp, hsp', Bool.false_eq_true, if_false] at h1 h2
  rw [guessDCrema_rename hd e guess hg] at h2
  rcases hG : guessDCrema e d guess with ⟨er | ⟨bo, bi⟩, gu⟩
  · rw [hG] at h1 h2
    simp only [Except.map] at h1 h2
    rw [h1, h2]
    exact ⟨rfl, ⟨hR.x, hR.y, hR.b_out, hR.b_in, hR.expected_dseq, hR.expected_strength_seq, hR.expected_stregth_seq, hR.error_degree, hR.relative_error_degree, hR.error_strength,
      hR.relative_error_strength, hR.error, hR.trace, hR.trace_crema, hR.loglikelihood⟩, by simp⟩
  · rw [hG] at h1 h2
    simp only [Except.map] at h1 h2
    have hl : dLookup "crema" me.name = some (.crema, me) := dLookup_name .crema me
    simp only [hl, hd.nz_known] at h1 h2
    have hll : ∀ (x y x' y' : Option (Fin n → ℝ)), model_loglikelihood_directed
          { G' with last_model := some "crema", full_return := p.full_return, b_out := x', b_in := y', args := some (.crema (.edges (nzEdges a'))), step_fun := some .crema } =
        model_loglikelihood_directed
          { G with last_model := some "crema", full_return := p.full_return, b_out := x, b_in := y, args := some (.crema (.edges (nzEdges a))), step_fun := some .crema } := by
      intro x y x' y'
      unfold model_loglikelihood_directed
      rcases hsol with ⟨h3, h4⟩ | ⟨v, v', h3, h4⟩ <;> simp only [h3, h4]
    by_cases hnz : d.nz_known
    · simp only [hnz, if_true] at h1 h2
      rw [cat2_onBlocks, solver_rename (renamed_dcrema hd h hout me)] at h2
      cases hS : solver (cbDCrema e d (nzEdges a) me) (p.opts me.name) (cat2 bo bi) with
      | error er =>
        simp only [hS, Except.map] at h1 h2
        rw [h1, h2]
        exact ⟨rfl, ⟨hR.x, hR.y, rfl, rfl, hR.expected_dseq, hR.expected_strength_seq, hR.expected_stregth_seq, hR.error_degree, hR.relative_error_degree, hR.error_strength,
          hR.relative_error_strength, hR.error, hR.trace, hR.trace_crema, hll (some bo) (some bi) (some (bo ∘ σ)) (some (bi ∘ σ))⟩, by simp⟩
      | ok st =>
        simp only [hS, Except.map] at h1 h2
        rw [h1, h2]
        refine ⟨rfl, ⟨hR.x, hR.y, rfl, rfl, hR.expected_dseq, hR.expected_strength_seq, hR.expected_stregth_seq, hR.error_degree, hR.relative_error_degree, hR.error_strength,
          hR.relative_error_strength, hR.error, hR.trace, ?_, ?_⟩, fun _ => ⟨rfl, rfl, rfl, rfl, rfl, rfl, rfl, rfl⟩⟩
        · simp only [setSolvedDCrema, hR.trace_crema]; rfl
        · unfold model_loglikelihood_directed
          simp only [setSolvedDCrema]
          by_cases hf : p.full_return
          · simp only [hf, if_true]
          · simp only [hf, Bool.false_eq_true, if_false, State.rename, dcrema_ll_perm hd h, hd.nz_known]
    · simp only [hnz, if_false, Bool.false_eq_true] at h1 h2
      rw [h1, h2]
      exact ⟨rfl, ⟨hR.x, hR.y, rfl, rfl, hR.expected_dseq, hR.expected_strength_seq, hR.expected_stregth_seq, hR.error_degree, hR.relative_error_degree, hR.error_strength,
        hR.relative_error_strength, hR.error, hR.trace, hR.trace_crema, hll (some bo) (some bi) (some (bo ∘ σ)) (some (bi ∘ σ))⟩, by simp⟩

theorem solutionErrorD_crema_rename {G : DAttr d} {G' : DAttr d'} (hR : RenamedAnswerD σ G G') (hl : G.last_model = some "crema") (hl' : G'.last_model = some "crema")
    (ha : G.adjacency_crema = some (.edges (nzEdges a))) (ha' : G'.adjacency_crema = some (.edges (nzEdges a')))
    (hsp : G.is_sparse = false) (hsp' : G'.is_sparse = false) (hgi : G'.adjacency_given = G.adjacency_given) :
    (solutionErrorD G').2 = (solutionErrorD G).2 ∧ RenamedAnswerD σ (solutionErrorD G).1 (solutionErrorD G').1 := by
  unfold solutionErrorD
  rw [if_pos (by rw [hl']; decide), if_pos (by rw [hl]; decide)]
  have k : ∀ {d : DData n} (G : DAttr d), (degreeErrorD G).adjacency_crema = G.adjacency_crema ∧ (degreeErrorD G).is_sparse = G.is_sparse ∧
      (degreeErrorD G).adjacency_given = G.adjacency_given := by
    intro d G; unfold degreeErrorD; split <;> exact ⟨rfl, rfl, rfl⟩
  refine strengthErrorD_rename hd h (degreeErrorD_rename hd hR) ?_ ?_ ?_ ?_ ?_
  · rw [(k G).1, ha]
  · rw [(k G').1, ha']
  · rw [(k G).2.1, hsp]
  · rw [(k G').2.1, hsp']
  · rw [(k G).2.2, (k G').2.2, hgi]

/-- C56 (the directed crema on a given network): renaming the nodes - strengths, matrix and, when the guess is an array, the guess - renames the answer and changes
nothing else. -/
theorem C56_dcrema_relabel (hout : ∀ (ι : Type) (τ : Equiv.Perm ι) x, e.outside ι (x ∘ τ) = e.outside ι x)
    (me : Method) (guess : DGuess n) (hg : guess ≠ .name "random") (ma : String) (ga : DGuess n) (p : Params) :
    let R := solve_tool_directed e ({} : DAttr d) "crema" me.name guess (.matrix a) ma ga p
    let R' := solve_tool_directed e ({} : DAttr d') "crema" me.name (guess.rename σ) (.matrix a') ma ga p
    R'.exc = R.exc ∧ RenamedAnswerD σ R.g R'.g := by
  intro R R'
  have hU : ∀ {d : DData n} (a : Fin n → Fin n → ℝ) guess, solve_tool_directed e ({} : DAttr d) "crema" me.name guess (.matrix a) ma ga p =
      match solveDCremaTail e ({ adjacency_crema := some (.edges (nzEdges a)), adjacency_given := some true } : DAttr d) (.edges (nzEdges a)) "crema" me.name guess p with
      | (g', some x, gu) => ⟨g', some x, gu, ga⟩
      | (g', none, gu) => ⟨(solutionErrorD g').1, (solutionErrorD g').2, gu, ga⟩ := by
    intro d a guess
    unfold solve_tool_directed
    rw [if_neg (by decide), if_pos (by simp)]
    simp only [solveProblemDCrema]
    rcases solveDCremaTail e ({ adjacency_crema := some (.edges (nzEdges a)), adjacency_given := some true } : DAttr d) (.edges (nzEdges a)) "crema" me.name guess p with ⟨a, b, c⟩
    cases b <;> rfl
  have h1 : R = _ := hU a guess
  have h2 : R' = _ := hU a' _
  have ht := tailD_rename (G := ({ adjacency_crema := some (.edges (nzEdges a)), adjacency_given := some true } : DAttr d))
    (G' := ({ adjacency_crema := some (.edges (nzEdges a')), adjacency_given := some true } : DAttr d')) hd h hout
    ⟨rfl, rfl, rfl, rfl, rfl, rfl, rfl, rfl, rfl, rfl, rfl, rfl, rfl, rfl, rfl⟩ rfl rfl (.inl ⟨rfl, rfl⟩) me guess hg p
  rcases hT : solveDCremaTail e ({ adjacency_crema := some (.edges (nzEdges a)), adjacency_given := some true } : DAttr d) (.edges (nzEdges a)) "crema" me.name guess p with ⟨t1, t2, t3⟩
  rcases hT' : solveDCremaTail e ({ adjacency_crema := some (.edges (nzEdges a')), adjacency_given := some true } : DAttr d') (.edges (nzEdges a')) "crema" me.name
    (guess.rename σ) p with ⟨u1, u2, u3⟩
  rw [hT] at h1 ht
  rw [hT'] at h2 ht
  obtain ⟨e1, e2, e3⟩ := ht
  replace e1 : u2 = t2 := e1
  subst e1
  cases hu : u2 with
  | some er =>
    rw [hu] at h1 h2
    rw [h1, h2]
    exact ⟨rfl, e2⟩
  | none =>
    rw [hu] at h1 h2
    rw [h1, h2]
    obtain ⟨f1, f2, f3, f4, f5, f6, f7, f8⟩ := e3 hu
    exact solutionErrorD_crema_rename hd h e2 f1 f2 f3 f4 f5 f6 (f8.trans f7.symm)

/-! ### the links from the binary model -/

omit h in
/-- the binary problem of CReMa on renamed degrees -/
theorem innerD_rename (e : Env) (mo : DModel) (hmo : mo = .dcm ∨ mo = .dcm_exp) (method s : String) (p : Params) :
    let S := solveProblemD e ({} : DAttr d) mo.name method (.name s) p
    let S' := solveProblemD e ({} : DAttr d') mo.name method (.name s) p
    S'.2 = S.2 ∧ RenamedAnswerD σ S.1 S'.1 ∧ (S.2.1 = none →
      (∃ v v', S.1.solution_array = some (.reduced v) ∧ S'.1.solution_array = some (.reduced v')) ∧ S.1.is_sparse = false ∧ S'.1.is_sparse = false ∧
      S.1.fun_pmatrix = true ∧ S'.1.fun_pmatrix = true ∧ ∃ x y, S.1.x = some x ∧ S.1.y = some y) := by
  have ho : ∀ i, d'.dseq_out i = d.dseq_out (σ i) := fun i => congrFun hd.dseq_out i
  have hi' : ∀ i, d'.dseq_in i = d.dseq_in (σ i) := fun i => congrFun hd.dseq_in i
  have hq := seq_perm ho hi'
  obtain ⟨isExp, hm⟩ : ∃ isExp : Bool, mo = if isExp then .dcm_exp else .dcm := by
    rcases hmo with rfl | rfl
    · exact ⟨false, rfl⟩
    · exact ⟨true, rfl⟩
  have hmn : mo.name = "dcm" ∨ mo.name = "dcm_exp" := by rcases hmo with rfl | rfl <;> decide
  have hdec : decide (mo.name = "dcm_exp") = isExp := by cases isExp <;> subst hm <;> decide
  intro S S'
  have h1 : S = solveProblemD e ({} : DAttr d) mo.name method (.name s) p := rfl
  have h2 : S' = solveProblemD e ({} : DAttr d') mo.name method (.name s) p := rfl
  unfold solveProblemD at h1 h2
  rw [if_pos hmn, hdec, guess_startD] at h1 h2
  rw [n_edges_permD ho] at h2
  cases hst : startD e d.n_edges isExp s with
  | none =>
    rw [hst] at h1 h2
    rw [h1, h2]
    exact ⟨rfl, ⟨rfl, rfl, rfl, rfl, rfl, rfl, rfl, rfl, rfl, rfl, rfl, rfl, rfl, rfl, rfl⟩, by simp⟩
  | some X =>
    rw [hst] at h1 h2
    cases hl : dLookup mo.name method with
    | none =>
      simp only [hl] at h1 h2
      rw [h1, h2]
      exact ⟨rfl, ⟨rfl, rfl, rfl, rfl, rfl, rfl, rfl, rfl, rfl, rfl, rfl, rfl, rfl, rfl, rfl⟩, by simp⟩
    | some v =>
      obtain ⟨mo', me⟩ := v
      have hmo' : mo' = mo := by
        rcases dLookup_some hl with ⟨h0, -⟩ | ⟨h0, -⟩
        · exact h0
        · rcases hmo with rfl | rfl <;> cases h0
      subst hmo'
      simp only [hl] at h1 h2
      have ht : ∀ d : DData n, (if mo'.name = "dcm_exp" then cbDCMexp e d me else cbDCM e d me) = tableD e isExp me d.ko d.ki d.c := by
        intro d; cases isExp <;> subst hm <;> rfl
      rw [ht] at h1 h2
      rcases run_sameD e isExp me (p.opts method) X (classesD hq) with ⟨er, e1, e2⟩ | ⟨st, st', e1, e2, e3, e4, e5⟩
      · rw [e1] at h1
        rw [e2] at h2
        rw [h1, h2]
        refine ⟨rfl, ⟨rfl, rfl, rfl, rfl, rfl, rfl, rfl, rfl, rfl, rfl, rfl, rfl, rfl, rfl, ?_⟩, by simp⟩
        unfold model_loglikelihood_directed
        cases mo' <;> rfl
      · rw [e1] at h1
        rw [e2] at h2
        rw [h1, h2]
        have hi : ∀ b i, st'.x (b, d'.inv i) = st.x (b, d.inv (σ i)) := by
          intro b i
          refine e4 _ _ _ ?_
          have := invert_perm d.seq σ i
          rw [← hq] at this
          exact this
        refine ⟨rfl, ⟨?_, ?_, rfl, rfl, rfl, rfl, rfl, rfl, rfl, rfl, rfl, rfl, ?_, rfl, ?_⟩, fun _ => ⟨⟨_, _, rfl, rfl⟩, rfl, rfl, rfl, rfl, ⟨_, _, rfl, rfl⟩⟩⟩
        · refine congrArg some ?_
          funext i
          cases isExp
          · exact hi 0 i
          · exact congrArg (fun t => Real.exp (-t)) (hi 0 i)
        · refine congrArg some ?_
          funext i
          cases isExp
          · exact hi 1 i
          · exact congrArg (fun t => Real.exp (-t)) (hi 1 i)
        · simp only [setSolvedDCM, e3]
        · unfold model_loglikelihood_directed
          simp only [setSolvedDCM]
          cases isExp <;> subst hm <;> exact congrArg (fun t : ℝ => Except.ok (-t)) e5

omit h in
theorem pmat_same (x y : Fin n → ℝ) (i j : Fin n) : d'.pmat (x ∘ σ) (y ∘ σ) i j = d.pmat x y (σ i) (σ j) := by
  simp only [pmat_spec, hd.degOut, hd.degIn]
  simp [linkMatrixD, linkDBCM, active]

omit h in
/-- C56 (the directed crema on the link probabilities of the binary model): renaming the nodes - degrees, strengths and, when the guess is an array, the guess -
renames the answer and changes nothing else.  Any method for either problem, any named guess for the binary one, any guess but "random" for the weighted one. -/
theorem C56_dcrema_binary_relabel (hout : ∀ (ι : Type) (τ : Equiv.Perm ι) x, e.outside ι (x ∘ τ) = e.outside ι x) (mo : DModel) (hmo : mo = .dcm ∨ mo = .dcm_exp)
    (me : Method) (guess : DGuess n) (hg : guess ≠ .name "random") (ma s : String) (p : Params) :
    let R := solve_tool_directed e ({} : DAttr d) "crema" me.name guess (.name mo.name) ma (.name s) p
    let R' := solve_tool_directed e ({} : DAttr d') "crema" me.name (guess.rename σ) (.name mo.name) ma (.name s) p
    R'.exc = R.exc ∧ RenamedAnswerD σ R.g R'.g := by
  intro R R'
  have hI := innerD_rename hd e.inner mo hmo ma s { p with linsearch := true }
  have hU : ∀ {d : DData n} guess, solve_tool_directed e ({} : DAttr d) "crema" me.name guess (.name mo.name) ma (.name s) p =
      match solveProblemD e.inner ({} : DAttr d) mo.name ma (.name s) { p with linsearch := true } with
      | (g, some x, ga) => ⟨g, some x, guess, ga⟩
      | (g, none, ga) =>
        match g.x, g.y with
        | some x, some y =>
          if g.is_sparse then
            let r := solveDCremaTail e { g with adjacency_crema := some (.fitness x y), adjacency_given := some false } (.fitness x y) "crema" me.name guess p
            match r.2.1 with
            | some x => ⟨r.1, some x, r.2.2, ga⟩
            | none => ⟨(solutionErrorD r.1).1, (solutionErrorD r.1).2, r.2.2, ga⟩
          else if g.fun_pmatrix then
            let r := solveDCremaTail e { g with adjacency_crema := some (.edges (nzEdges (d.pmat x y))), is_sparse := false, adjacency_given := some false }
              (.edges (nzEdges (d.pmat x y))) "crema" me.name guess p
            match r.2.1 with
            | some x => ⟨r.1, some x, r.2.2, ga⟩
            | none => ⟨(solutionErrorD r.1).1, (solutionErrorD r.1).2, r.2.2, ga⟩
          else ⟨g, some (.py .attributeError), guess, ga⟩
        | _, _ => ⟨g, some (.py .other), guess, ga⟩ := by
    intro d guess
    unfold solve_tool_directed
    rw [if_neg (by decide), if_pos (by simp)]
    simp only [solveProblemDCrema]
    rcases hS : solveProblemD e.inner ({} : DAttr d) mo.name ma (.name s) { p with linsearch := true } with ⟨g, _ | x, ga⟩
    · have hS' : solveProblemD e.inner ({ is_sparse := false } : DAttr d) mo.name ma (.name s) { p with linsearch := true } = (g, none, ga) := hS
      rw [show (decide ("crema" = "crema-sparse")) = false from by decide, hS']
      simp only
      cases g.x with
      | none => rfl
      | some x =>
        cases g.y with
        | none => rfl
        | some y =>
          simp only
          split_ifs
          · split <;> simp_all
          · split <;> simp_all
          · rfl
    · have hS' : solveProblemD e.inner ({ is_sparse := false } : DAttr d) mo.name ma (.name s) { p with linsearch := true } = (g, some x, ga) := hS
      rw [show (decide ("crema" = "crema-sparse")) = false from by decide, hS']
  have h1 : R = _ := hU guess
  have h2 : R' = _ := hU (guess.rename σ)
  rcases hS : solveProblemD e.inner ({} : DAttr d) mo.name ma (.name s) { p with linsearch := true } with ⟨g, ex, ga⟩
  rcases hS' : solveProblemD e.inner ({} : DAttr d') mo.name ma (.name s) { p with linsearch := true } with ⟨g', ex', ga'⟩
  rw [hS] at h1 hI
  rw [hS'] at h2 hI
  obtain ⟨e1, e2, e3⟩ := hI
  replace e1 : (ex', ga') = (ex, ga) := e1
  obtain ⟨rfl, rfl⟩ := Prod.mk.inj e1
  replace e2 : RenamedAnswerD σ g g' := e2
  cases hex : ex' with
  | some er =>
    rw [hex] at h1 h2
    rw [h1, h2]
    exact ⟨rfl, e2⟩
  | none =>
    rw [hex] at h1 h2
    obtain ⟨f3, f4, f5, f6, f7, x, y, f8, f9⟩ := e3 hex
    replace f8 : g.x = some x := f8
    replace f9 : g.y = some y := f9
    have f8' : g'.x = some (x ∘ σ) := by rw [e2.x, f8]; rfl
    have f9' : g'.y = some (y ∘ σ) := by rw [e2.y, f9]; rfl
    replace f4 : g.is_sparse = false := f4
    replace f5 : g'.is_sparse = false := f5
    replace f6 : g.fun_pmatrix = true := f6
    replace f7 : g'.fun_pmatrix = true := f7
    simp only [f8, f8', f9, f9', f4, f5, f6, f7, Bool.false_eq_true, if_false, if_true] at h1 h2
    have hP := pmat_same hd x y
    have ht := tailD_rename
      (G := { g with x := some x, y := some y, fun_pmatrix := true, adjacency_crema := some (.edges (nzEdges (d.pmat x y))), is_sparse := false, adjacency_given := some false })
      (G' := { g' with x := some (x ∘ σ), y := some (y ∘ σ), fun_pmatrix := true, adjacency_crema := some (.edges (nzEdges (d'.pmat (x ∘ σ) (y ∘ σ)))), is_sparse := false, adjacency_given := some false }) hd hP hout
      ⟨rfl, rfl, e2.b_out, e2.b_in, e2.expected_dseq, e2.expected_strength_seq, e2.expected_stregth_seq, e2.error_degree, e2.relative_error_degree,
        e2.error_strength, e2.relative_error_strength, e2.error, e2.trace, e2.trace_crema, e2.loglikelihood⟩ rfl rfl (.inr f3) me guess hg p
    rcases hT : solveDCremaTail e { g with x := some x, y := some y, fun_pmatrix := true, adjacency_crema := some (.edges (nzEdges (d.pmat x y))), is_sparse := false, adjacency_given := some false }
      (.edges (nzEdges (d.pmat x y))) "crema" me.name guess p with ⟨t1, t2, t3⟩
    rcases hT' : solveDCremaTail e { g' with x := some (x ∘ σ), y := some (y ∘ σ), fun_pmatrix := true, adjacency_crema := some (.edges (nzEdges (d'.pmat (x ∘ σ) (y ∘ σ)))), is_sparse := false, adjacency_given := some false }
      (.edges (nzEdges (d'.pmat (x ∘ σ) (y ∘ σ)))) "crema" me.name (guess.rename σ) p with ⟨u1, u2, u3⟩
    rw [hT] at h1 ht
    rw [hT'] at h2 ht
    obtain ⟨k1, k2, k3⟩ := ht
    replace k1 : u2 = t2 := k1
    subst k1
    cases hu : u2 with
    | some er =>
      rw [hu] at h1 h2
      rw [h1, h2]
      exact ⟨rfl, k2⟩
    | none =>
      rw [hu] at h1 h2
      rw [h1, h2]
      obtain ⟨m1, m2, m3, m4, m5, m6, m7, m8⟩ := k3 hu
      exact solutionErrorD_crema_rename hd hP k2 m1 m2 m3 m4 m5 m6 (m8.trans m7.symm)

end solving

end

end Verif.Solve
