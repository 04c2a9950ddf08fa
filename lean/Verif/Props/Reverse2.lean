import Verif.Props.Reverse1

/-! C73 for the directed crema on a given matrix. -/

namespace Verif.Solve
open Verif Verif.Solver Verif.Reduction Verif.Spec Finset

noncomputable section

variable {n : ℕ}

/-! ### the callbacks -/

section dcrema
open DCReMa

variable (β : Fin 2 × Fin n → ℝ) (so si : Fin n → ℝ) {a a' : Fin n → Fin n → ℝ}

variable (h : ∀ i j, a' i j = a j i)
include h

theorem arc_out_flip (k k' : Fin n → Fin n → ℝ → ℝ) (hk : ∀ i j, k i j 0 = 0) (hk' : ∀ i j w, k' i j w = k j i w) (m : Fin n) :
    ((nzEdges a').map fun e => if m = e.1 then k' e.1 e.2.1 e.2.2 else 0).sum = ((nzEdges a).map fun e => if m = e.2.1 then k e.1 e.2.1 e.2.2 else 0).sum := by
  rw [arc_in a k hk, arc_out a' k' fun i j => by rw [hk', hk]]
  exact sum_congr rfl fun j _ => by rw [hk', h]

theorem arc_in_flip (k k' : Fin n → Fin n → ℝ → ℝ) (hk : ∀ i j, k i j 0 = 0) (hk' : ∀ i j w, k' i j w = k j i w) (m : Fin n) :
    ((nzEdges a').map fun e => if m = e.2.1 then k' e.1 e.2.1 e.2.2 else 0).sum = ((nzEdges a).map fun e => if m = e.1 then k e.1 e.2.1 e.2.2 else 0).sum := by
  rw [arc_out a k hk, arc_in a' k' fun i j => by rw [hk', hk]]
  exact sum_congr rfl fun j _ => by rw [hk', h]

theorem dcrema_out_flip : expected_out_strength_crema_directed (β ∘ flip2 n) (nzEdges a') = expected_in_strength_crema_directed β (nzEdges a) := by
  funext m
  simp only [Function.comp, out_eq, in_eq, flip2_0, flip2_1]
  exact arc_out_flip h (fun i j w => w / (β (0, i) + β (1, j))) (fun i j w => w / (β (1, i) + β (0, j))) (by simp) (fun i j _ => by rw [add_comm]) m

theorem dcrema_in_flip : expected_in_strength_crema_directed (β ∘ flip2 n) (nzEdges a') = expected_out_strength_crema_directed β (nzEdges a) := by
  funext m
  simp only [Function.comp, in_eq, out_eq, flip2_0, flip2_1]
  exact arc_in_flip h (fun i j w => w / (β (0, i) + β (1, j))) (fun i j w => w / (β (1, i) + β (0, j))) (by simp) (fun i j _ => by rw [add_comm]) m

theorem dcrema_prime_flip : loglikelihood_prime_crema_directed (β ∘ flip2 n) si so (nzEdges a') (DCM.nonzero si) (DCM.nonzero so) =
    loglikelihood_prime_crema_directed β so si (nzEdges a) (DCM.nonzero so) (DCM.nonzero si) ∘ flip2 n := by
  funext v; revert v; rw [EM.forall_pair]
  constructor
  · intro m
    simp only [Function.comp_apply, flip2_0, prime_eq0 _ _ _ _ _ _ (DCM.nodup_nonzero _), prime_eq1 _ _ _ _ _ _ (DCM.nodup_nonzero _), DCM.mem_nonzero, dcrema_out_flip β h]
  · intro m
    simp only [Function.comp_apply, flip2_1, prime_eq0 _ _ _ _ _ _ (DCM.nodup_nonzero _), prime_eq1 _ _ _ _ _ _ (DCM.nodup_nonzero _), DCM.mem_nonzero, dcrema_in_flip β h]

theorem dcrema_diag_flip : loglikelihood_hessian_diag_crema_directed (β ∘ flip2 n) (nzEdges a') = loglikelihood_hessian_diag_crema_directed β (nzEdges a) ∘ flip2 n := by
  funext v; revert v; rw [EM.forall_pair]
  constructor
  · intro m
    simp only [Function.comp_apply, flip2_0, flip2_1, diag_eq0, diag_eq1]
    exact arc_out_flip h (fun i j w => -(w / (β (0, i) + β (1, j)) ^ 2)) (fun i j w => -(w / (β (1, i) + β (0, j)) ^ 2)) (by simp) (fun i j _ => by rw [add_comm]) m
  · intro m
    simp only [Function.comp_apply, flip2_0, flip2_1, diag_eq0, diag_eq1]
    exact arc_in_flip h (fun i j w => -(w / (β (0, i) + β (1, j)) ^ 2)) (fun i j w => -(w / (β (1, i) + β (0, j)) ^ 2)) (by simp) (fun i j _ => by rw [add_comm]) m

theorem dcrema_iter_flip : iterative_crema_directed (β ∘ flip2 n) si so (nzEdges a') (DCM.nonzero si) (DCM.nonzero so) =
    iterative_crema_directed β so si (nzEdges a) (DCM.nonzero so) (DCM.nonzero si) ∘ flip2 n := by
  funext v; revert v; rw [EM.forall_pair]
  constructor
  · intro m
    simp only [Function.comp_apply, flip2_0, flip2_1, iter_eq0 _ _ _ _ _ _ (DCM.nodup_nonzero _), iter_eq1 _ _ _ _ _ _ (DCM.nodup_nonzero _), DCM.mem_nonzero]
    rw [arc_out_flip h (fun i j w => -(w / (1 + β (0, i) / β (1, j)))) (fun i j w => -(w / (1 + β (0, j) / β (1, i)))) (by simp) (fun _ _ _ => rfl) m]
  · intro m
    simp only [Function.comp_apply, flip2_0, flip2_1, iter_eq0 _ _ _ _ _ _ (DCM.nodup_nonzero _), iter_eq1 _ _ _ _ _ _ (DCM.nodup_nonzero _), DCM.mem_nonzero]
    rw [arc_in_flip h (fun i j w => -(w / (1 + β (1, j) / β (0, i)))) (fun i j w => -(w / (1 + β (1, i) / β (0, j)))) (by simp) (fun _ _ _ => rfl) m]

theorem dcrema_hess_flip (u v : Fin 2 × Fin n) : loglikelihood_hessian_crema_directed (β ∘ flip2 n) (nzEdges a') u v =
    loglikelihood_hessian_crema_directed β (nzEdges a) (flip2 n u) (flip2 n v) := by
  revert u v
  simp only [EM.forall_pair, flip2_0, flip2_1]
  refine ⟨fun p => ⟨fun q => ?_, fun q => ?_⟩, fun p => ⟨fun q => ?_, fun q => ?_⟩⟩
  · rw [(hess_val _ _ _ _).1, (hess_val _ _ _ _).2.1]
    simp only [h, Function.comp, flip2_0, flip2_1, add_comm (β (1, _)) (β (0, _))]
  · rw [(hess_val _ _ _ _).2.2.1, (hess_val _ _ _ _).2.2.2, h]
    simp only [Function.comp, flip2_0, flip2_1, add_comm (β (1, _)) (β (0, _))]
  · rw [(hess_val _ _ _ _).2.2.2, (hess_val _ _ _ _).2.2.1, h]
    simp only [Function.comp, flip2_0, flip2_1, add_comm (β (1, _)) (β (0, _))]
  · rw [(hess_val _ _ _ _).2.1, (hess_val _ _ _ _).1]
    simp only [h, Function.comp, flip2_0, flip2_1, add_comm (β (1, _)) (β (0, _))]

theorem dcrema_dom_flip : (∀ t ∈ nzEdges a', 0 < (β ∘ flip2 n) (0, t.1) + (β ∘ flip2 n) (1, t.2.1)) ↔ ∀ t ∈ nzEdges a, 0 < β (0, t.1) + β (1, t.2.1) := by
  have key : ∀ (a : Fin n → Fin n → ℝ) (β : Fin 2 × Fin n → ℝ), (∀ t ∈ nzEdges a, 0 < β (0, t.1) + β (1, t.2.1)) ↔ ∀ i j, a i j ≠ 0 → 0 < β (0, i) + β (1, j) := by
    intro a β
    constructor
    · intro hp i j hij
      haveI : NeZero n := ⟨fun hn => (hn ▸ i).elim0⟩
      exact hp _ (mem_nz hij)
    · intro hp t ht
      simp only [nzEdges, List.mem_map, List.mem_filter] at ht
      obtain ⟨q, ⟨-, hq⟩, rfl⟩ := ht
      exact hp _ _ (by simpa using hq)
  rw [key, key]
  refine ⟨fun hp i j hij => ?_, fun hp i j hij => ?_⟩
  · have := hp j i (by rw [h]; exact hij)
    simpa [add_comm] using this
  · have := hp j i (h i j ▸ hij)
    simpa [add_comm] using this

end dcrema

section dcm

theorem dcm_out_flip (x y : Fin n → ℝ) : DCM.expected_out_degree_dcm (cat2 y x) = DCM.expected_in_degree_dcm (cat2 x y) := by
  funext i
  rw [out_spec, in_spec]
  unfold outDBCM inDBCM
  exact sum_congr rfl fun j _ => by simp [linkDBCM, mul_comm]

theorem dcm_in_flip (x y : Fin n → ℝ) : DCM.expected_in_degree_dcm (cat2 y x) = DCM.expected_out_degree_dcm (cat2 x y) := (dcm_out_flip y x).symm

end dcm

section solving
variable [NeZero n] {e : Env} {d d' : DData n} (hd : ReversedData d d') {a a' : Fin n → Fin n → ℝ} (h : ∀ i j, a' i j = a j i)
include hd h

theorem dcrema_ll_flip (β : Fin 2 × Fin n → ℝ) :
    DCReMa.loglikelihood_crema_directed (β ∘ flip2 n) d'.out_strength d'.in_strength (nzEdges a') (DCM.nonzero d'.out_strength) (DCM.nonzero d'.in_strength) =
    DCReMa.loglikelihood_crema_directed β d.out_strength d.in_strength (nzEdges a) (DCM.nonzero d.out_strength) (DCM.nonzero d.in_strength) := by
  rw [ll_dcrema_spec, ll_dcrema_spec]
  unfold LDCrema logDCReMa
  rw [hd.out_strength, hd.in_strength]
  congr 1
  · congr 1
    exact sum_congr rfl fun i _ => add_comm _ _
  · rw [sum_comm]
    refine sum_congr rfl fun i _ => sum_congr rfl fun j _ => ?_
    rw [h]
    simp only [Function.comp, flip2_0, flip2_1, add_comm (β (1, _)) (β (0, _))]

theorem reversed_dcrema (hout : ∀ (ι : Type) (τ : Equiv.Perm ι) x, e.outside ι (x ∘ τ) = e.outside ι x) (me : Method) :
    Renamed (flip2 n) (cbDCrema e d (nzEdges a) me) (cbDCrema e d' (nzEdges a') me) where
  fn x := by
    cases me with
    | newton => funext v; show -_ = -_; rw [hd.out_strength, hd.in_strength, dcrema_prime_flip _ _ _ h]; rfl
    | quasinewton => funext v; show -_ = -_; rw [hd.out_strength, hd.in_strength, dcrema_prime_flip _ _ _ h]; rfl
    | fixed_point => funext v; show -_ = -_; rw [hd.out_strength, hd.in_strength, dcrema_iter_flip _ _ _ h]; rfl
  jac x := by
    funext u v
    show -_ = -_
    rw [dcrema_hess_flip _ h]
  diag x := by
    funext v
    show -_ = -_
    rw [dcrema_diag_flip _ h]; rfl
  reg x ε := regulariser_rename _ _ _
  search x dx b a f := congrArg some (decreaseStage_comp (flip2 n) (llF_rename e hout _ (fun x => dcrema_dom_flip x h) fun x => dcrema_ll_flip hd h x) x dx b a f)
  searchFixed x dx dx_old a b k := congrArg some (normStage_comp (flip2 n) dx dx_old a b k)

omit h in
theorem guessDCrema_reverse (e : Env) (g : DGuess n) (hg : g ≠ .name "random") :
    (guessDCrema e d' (g.reverse)).1 = (guessDCrema e d g).1.map (fun q => (q.2, q.1)) := by
  cases g with
  | other => rfl
  | nodes v => rfl
  | pairs v =>
    simp only [DGuess.reverse, guessDCrema, hd.out_strength, hd.in_strength, Except.map]
    rfl
  | quads v => rfl
  | name s =>
    have hr : s ≠ "random" := fun h => hg (h ▸ rfl)
    have hn : namedDCrema e d' s = (namedDCrema e d s).map (fun q => (q.2, q.1)) := by
      unfold namedDCrema
      simp only [hd.out_strength, hd.in_strength, if_neg hr]
      split_ifs <;> rfl
    simp only [DGuess.reverse, guessDCrema, hn]
    cases namedDCrema e d s with
    | none => rfl
    | some v => simp only [Option.map_some, hd.out_strength, hd.in_strength]; rfl

omit h in
theorem degreeErrorD_reverse {G : DAttr d} {G' : DAttr d'} (hR : ReversedAnswer G G') : ReversedAnswer (degreeErrorD G) (degreeErrorD G') := by
  unfold degreeErrorD
  rw [hR.x, hR.y]
  cases hx : G.x with
  | none => cases hy : G.y <;> exact hR
  | some x =>
    cases hy : G.y with
    | none => exact hR
    | some y =>
      have a1 := maxAbs_perm (fun v => cat2 (DCM.expected_out_degree_dcm (cat2 x y)) (DCM.expected_in_degree_dcm (cat2 x y)) v - cat2 d.degOut d.degIn v) (flip2 n)
      have a2 := maxAbs_perm (fun v => (cat2 (DCM.expected_out_degree_dcm (cat2 x y)) (DCM.expected_in_degree_dcm (cat2 x y)) v - cat2 d.degOut d.degIn v) /
        (cat2 d.degOut d.degIn v + Real.exp (-100))) (flip2 n)
      simp only [dcm_out_flip x y, dcm_in_flip x y, hd.degOut, hd.degIn]
      rw [cat2_flip d.degOut d.degIn, cat2_flip (DCM.expected_out_degree_dcm (cat2 x y)) (DCM.expected_in_degree_dcm (cat2 x y))]
      exact ⟨rfl, rfl, hR.b_out, hR.b_in, congrArg some (flip2_if _).symm, hR.expected_strength_seq, hR.expected_stregth_seq, congrArg some a1, congrArg some a2, hR.error_strength,
        hR.relative_error_strength, congrArg some a1, hR.trace, hR.trace_crema, hR.loglikelihood⟩

theorem strengthErrorD_reverse {G : DAttr d} {G' : DAttr d'} (hR : ReversedAnswer G G') (ha : G.adjacency_crema = some (.edges (nzEdges a)))
    (ha' : G'.adjacency_crema = some (.edges (nzEdges a'))) (hsp : G.is_sparse = false) (hsp' : G'.is_sparse = false) (hgi : G'.adjacency_given = G.adjacency_given) :
    (strengthErrorD G').2 = (strengthErrorD G).2 ∧ ReversedAnswer (strengthErrorD G).1 (strengthErrorD G').1 := by
  unfold strengthErrorD
  rw [hR.b_out, hR.b_in]
  cases hb : G.b_out with
  | none => cases hi : G.b_in <;> exact ⟨rfl, hR⟩
  | some bo =>
    cases hi : G.b_in with
    | none => exact ⟨rfl, hR⟩
    | some bi =>
      set E := cat2 (DCReMa.expected_out_strength_crema_directed (cat2 bo bi) (nzEdges a)) (DCReMa.expected_in_strength_crema_directed (cat2 bo bi) (nzEdges a)) with hE
      have e1 : cat2 (DCReMa.expected_out_strength_crema_directed (cat2 bi bo) (nzEdges a')) (DCReMa.expected_in_strength_crema_directed (cat2 bi bo) (nzEdges a')) =
          E ∘ flip2 n := by
        rw [cat2_flip bo bi, dcrema_out_flip _ h, dcrema_in_flip _ h, cat2_flip (DCReMa.expected_out_strength_crema_directed (cat2 bo bi) (nzEdges a))]
      have a1 : (maxAbs fun v => (E ∘ flip2 n) v - (cat2 d.out_strength d.in_strength ∘ flip2 n) v) = maxAbs fun v => E v - cat2 d.out_strength d.in_strength v :=
        maxAbs_perm (fun v => E v - cat2 d.out_strength d.in_strength v) (flip2 n)
      have a2 : (maxAbs fun v => ((E ∘ flip2 n) v - (cat2 d.out_strength d.in_strength ∘ flip2 n) v) / ((cat2 d.out_strength d.in_strength ∘ flip2 n) v + Real.exp (-100))) =
          maxAbs fun v => (E v - cat2 d.out_strength d.in_strength v) / (cat2 d.out_strength d.in_strength v + Real.exp (-100)) :=
        maxAbs_perm (fun v => (E v - cat2 d.out_strength d.in_strength v) / (cat2 d.out_strength d.in_strength v + Real.exp (-100))) (flip2 n)
      have e2 : cat2 d'.out_strength d'.in_strength = cat2 d.out_strength d.in_strength ∘ flip2 n := by rw [hd.out_strength, hd.in_strength, cat2_flip d.out_strength]
      simp only [Option.map_some, ha, ha', hsp, hsp', hgi, e1, e2, a1, a2, hR.error_degree]
      cases hga : G.adjacency_given with
      | none => exact ⟨rfl, ⟨hR.x, hR.y, rfl, rfl, hR.expected_dseq, hR.expected_strength_seq, congrArg some (flip2_if E).symm, rfl, hR.relative_error_degree, rfl, rfl, hR.error, hR.trace,
          hR.trace_crema, hR.loglikelihood⟩⟩
      | some t =>
        cases t with
        | true => exact ⟨rfl, ⟨hR.x, hR.y, rfl, rfl, hR.expected_dseq, hR.expected_strength_seq, congrArg some (flip2_if E).symm, rfl, hR.relative_error_degree, rfl, rfl, rfl, hR.trace,
            hR.trace_crema, hR.loglikelihood⟩⟩
        | false =>
          cases hed : G.error_degree with
          | none => exact ⟨rfl, ⟨hR.x, hR.y, rfl, rfl, hR.expected_dseq, hR.expected_strength_seq, congrArg some (flip2_if E).symm, rfl, hR.relative_error_degree, rfl, rfl, hR.error, hR.trace,
              hR.trace_crema, hR.loglikelihood⟩⟩
          | some ed => exact ⟨rfl, ⟨hR.x, hR.y, rfl, rfl, hR.expected_dseq, hR.expected_strength_seq, congrArg some (flip2_if E).symm, rfl, hR.relative_error_degree, rfl, rfl, rfl, hR.trace,
              hR.trace_crema, hR.loglikelihood⟩⟩

/-- CReMa after the links are fixed, in two states that are reversals of each other. -/
theorem tailD_reverse (hout : ∀ (ι : Type) (τ : Equiv.Perm ι) x, e.outside ι (x ∘ τ) = e.outside ι x) {G : DAttr d} {G' : DAttr d'} (hR : ReversedAnswer G G')
    (hsp : G.is_sparse = false) (hsp' : G'.is_sparse = false)
    (hsol : G.solution_array = none ∧ G'.solution_array = none ∨ ∃ v v', G.solution_array = some (.reduced v) ∧ G'.solution_array = some (.reduced v'))
    (me : Method) (guess : DGuess n) (hg : guess ≠ .name "random") (p : Params) :
    let T := solveDCremaTail e G (.edges (nzEdges a)) "crema" me.name guess p
    let T' := solveDCremaTail e G' (.edges (nzEdges a')) "crema" me.name (guess.reverse) p
    T'.2.1 = T.2.1 ∧ ReversedAnswer T.1 T'.1 ∧ (T.2.1 = none → T.1.last_model = some "crema" ∧ T'.1.last_model = some "crema" ∧
      T.1.adjacency_crema = G.adjacency_crema ∧ T'.1.adjacency_crema = G'.adjacency_crema ∧ T.1.is_sparse = false ∧ T'.1.is_sparse = false ∧
      T.1.adjacency_given = G.adjacency_given ∧ T'.1.adjacency_given = G'.adjacency_given) := by
  intro T T'
  have h1 : T = solveDCremaTail e G (.edges (nzEdges a)) "crema" me.name guess p := rfl
  have h2 : T' = solveDCremaTail e G' (.edges (nzEdges a')) "crema" me.name (guess.reverse) p := rfl
  unfold solveDCremaTail at h1 h2
  simp only [hsp, hsp', Bool.false_eq_true, if_false] at h1 h2
  have hgr := guessDCrema_reverse hd e guess hg
  rcases hG' : guessDCrema e d' guess.reverse with ⟨w, gu'⟩
  rw [hG'] at h2 hgr
  obtain rfl : w = _ := hgr
  rcases hG : guessDCrema e d guess with ⟨er | ⟨bo, bi⟩, gu⟩
  · rw [hG] at h1 h2
    simp only [Except.map] at h1 h2
    rw [h1, h2]
    exact ⟨rfl, ⟨hR.x, hR.y, hR.b_out, hR.b_in, hR.expected_dseq, hR.expected_strength_seq, hR.expected_stregth_seq, hR.error_degree, hR.relative_error_degree, hR.error_strength,
      hR.relative_error_strength, hR.error, hR.trace, hR.trace_crema, hR.loglikelihood⟩, by simp⟩
  · rw [hG] at h1 h2
    simp only [Except.map] at h1 h2
    have hl : dLookup "crema" me.name = some (.crema, me) := dLookup_name .crema me
    simp only [hl, hd.nz_known] at h1 h2
    have hll : ∀ (x y x' y' : Option (Fin n → ℝ)), model_loglikelihood_directed
          { G' with last_model := some "crema", full_return := p.full_return, b_out := x', b_in := y', args := some (.crema (.edges (nzEdges a'))), step_fun := some .crema } =
        model_loglikelihood_directed
          { G with last_model := some "crema", full_return := p.full_return, b_out := x, b_in := y, args := some (.crema (.edges (nzEdges a))), step_fun := some .crema } := by
      intro x y x' y'
      unfold model_loglikelihood_directed
      rcases hsol with ⟨h3, h4⟩ | ⟨v, v', h3, h4⟩ <;> simp only [h3, h4]
    by_cases hnz : d.nz_known
    · simp only [hnz, if_true] at h1 h2
      rw [cat2_flip bo bi, solver_rename (reversed_dcrema hd h hout me)] at h2
      cases hS : solver (cbDCrema e d (nzEdges a) me) (p.opts me.name) (cat2 bo bi) with
      | error er =>
        simp only [hS, Except.map] at h1 h2
        rw [h1, h2]
        exact ⟨rfl, ⟨hR.x, hR.y, rfl, rfl, hR.expected_dseq, hR.expected_strength_seq, hR.expected_stregth_seq, hR.error_degree, hR.relative_error_degree, hR.error_strength,
          hR.relative_error_strength, hR.error, hR.trace, hR.trace_crema, hll (some bo) (some bi) (some bi) (some bo)⟩, by simp⟩
      | ok st =>
        simp only [hS, Except.map] at h1 h2
        rw [h1, h2]
        refine ⟨rfl, ⟨hR.x, hR.y, rfl, rfl, hR.expected_dseq, hR.expected_strength_seq, hR.expected_stregth_seq, hR.error_degree, hR.relative_error_degree, hR.error_strength,
          hR.relative_error_strength, hR.error, hR.trace, ?_, ?_⟩, fun _ => ⟨rfl, rfl, rfl, rfl, rfl, rfl, rfl, rfl⟩⟩
        · simp only [setSolvedDCrema, hR.trace_crema]; rfl
        · unfold model_loglikelihood_directed
          simp only [setSolvedDCrema]
          by_cases hf : p.full_return
          · simp only [hf, if_true]
          · simp only [hf, Bool.false_eq_true, if_false, State.rename, dcrema_ll_flip hd h, hd.nz_known]
    · simp only [hnz, if_false, Bool.false_eq_true] at h1 h2
      rw [h1, h2]
      exact ⟨rfl, ⟨hR.x, hR.y, rfl, rfl, hR.expected_dseq, hR.expected_strength_seq, hR.expected_stregth_seq, hR.error_degree, hR.relative_error_degree, hR.error_strength,
        hR.relative_error_strength, hR.error, hR.trace, hR.trace_crema, hll (some bo) (some bi) (some bi) (some bo)⟩, by simp⟩

theorem solutionErrorD_crema_reverse {G : DAttr d} {G' : DAttr d'} (hR : ReversedAnswer G G') (hl : G.last_model = some "crema") (hl' : G'.last_model = some "crema")
    (ha : G.adjacency_crema = some (.edges (nzEdges a))) (ha' : G'.adjacency_crema = some (.edges (nzEdges a')))
    (hsp : G.is_sparse = false) (hsp' : G'.is_sparse = false) (hgi : G'.adjacency_given = G.adjacency_given) :
    (solutionErrorD G').2 = (solutionErrorD G).2 ∧ ReversedAnswer (solutionErrorD G).1 (solutionErrorD G').1 := by
  unfold solutionErrorD
  rw [if_pos (by rw [hl']; decide), if_pos (by rw [hl]; decide)]
  have k : ∀ {d : DData n} (G : DAttr d), (degreeErrorD G).adjacency_crema = G.adjacency_crema ∧ (degreeErrorD G).is_sparse = G.is_sparse ∧
      (degreeErrorD G).adjacency_given = G.adjacency_given := by
    intro d G; unfold degreeErrorD; split <;> exact ⟨rfl, rfl, rfl⟩
  refine strengthErrorD_reverse hd h (degreeErrorD_reverse hd hR) ?_ ?_ ?_ ?_ ?_
  · rw [(k G).1, ha]
  · rw [(k G').1, ha']
  · rw [(k G).2.1, hsp]
  · rw [(k G').2.1, hsp']
  · rw [(k G).2.2, (k G').2.2, hgi]

/-- C73 (the directed crema on a given network): transposing the matrix and exchanging the two strength sequences and, when the guess is an array, its two halves,
exchanges the two sides of the answer and changes nothing else.  Every method, every guess but the random one, with or without line search. -/
theorem C73_dcrema_reverse (hout : ∀ (ι : Type) (τ : Equiv.Perm ι) x, e.outside ι (x ∘ τ) = e.outside ι x)
    (me : Method) (guess : DGuess n) (hg : guess ≠ .name "random") (ma : String) (ga : DGuess n) (p : Params) :
    let R := solve_tool_directed e ({} : DAttr d) "crema" me.name guess (.matrix a) ma ga p
    let R' := solve_tool_directed e ({} : DAttr d') "crema" me.name (guess.reverse) (.matrix a') ma ga p
    R'.exc = R.exc ∧ ReversedAnswer R.g R'.g := by
  intro R R'
  have hU : ∀ {d : DData n} (a : Fin n → Fin n → ℝ) guess, solve_tool_directed e ({} : DAttr d) "crema" me.name guess (.matrix a) ma ga p =
      match solveDCremaTail e ({ adjacency_crema := some (.edges (nzEdges a)), adjacency_given := some true } : DAttr d) (.edges (nzEdges a)) "crema" me.name guess p with
      | (g', some x, gu) => ⟨g', some x, gu, ga⟩
      | (g', none, gu) => ⟨(solutionErrorD g').1, (solutionErrorD g').2, gu, ga⟩ := by
    intro d a guess
    unfold solve_tool_directed
    rw [if_neg (by decide), if_pos (by simp)]
    simp only [solveProblemDCrema]
    rcases solveDCremaTail e ({ adjacency_crema := some (.edges (nzEdges a)), adjacency_given := some true } : DAttr d) (.edges (nzEdges a)) "crema" me.name guess p with ⟨a, b, c⟩
    cases b <;> rfl
  have h1 : R = _ := hU a guess
  have h2 : R' = _ := hU a' _
  have ht := tailD_reverse (G := ({ adjacency_crema := some (.edges (nzEdges a)), adjacency_given := some true } : DAttr d))
    (G' := ({ adjacency_crema := some (.edges (nzEdges a')), adjacency_given := some true } : DAttr d')) hd h hout
    ⟨rfl, rfl, rfl, rfl, rfl, rfl, rfl, rfl, rfl, rfl, rfl, rfl, rfl, rfl, rfl⟩ rfl rfl (.inl ⟨rfl, rfl⟩) me guess hg p
  rcases hT : solveDCremaTail e ({ adjacency_crema := some (.edges (nzEdges a)), adjacency_given := some true } : DAttr d) (.edges (nzEdges a)) "crema" me.name guess p with ⟨t1, t2, t3⟩
  rcases hT' : solveDCremaTail e ({ adjacency_crema := some (.edges (nzEdges a')), adjacency_given := some true } : DAttr d') (.edges (nzEdges a')) "crema" me.name
    (guess.reverse) p with ⟨u1, u2, u3⟩
  rw [hT] at h1 ht
  rw [hT'] at h2 ht
  obtain ⟨e1, e2, e3⟩ := ht
  replace e1 : u2 = t2 := e1
  subst e1
  cases hu : u2 with
  | some er =>
    rw [hu] at h1 h2
    rw [h1, h2]
    exact ⟨rfl, e2⟩
  | none =>
    rw [hu] at h1 h2
    rw [h1, h2]
    obtain ⟨f1, f2, f3, f4, f5, f6, f7, f8⟩ := e3 hu
    exact solutionErrorD_crema_reverse hd h e2 f1 f2 f3 f4 f5 f6 (f8.trans f7.symm)


end solving

end

end Verif.Solve
