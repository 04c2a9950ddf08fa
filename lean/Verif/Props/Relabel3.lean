import Verif.Props.Relabel2
import Verif.Props.CReMa
import Verif.Props.CremaLaw2

/-! C56 for crema: on a given matrix and on the link probabilities of the binary model. -/

namespace Verif.Solve
open Verif Verif.Solver Verif.Reduction Verif.Spec Finset

noncomputable section
open Classical in
attribute [local instance 0] propDecidable

variable {n : ℕ}

/-! ### the callbacks of crema -/

section crema
open CReMa

variable (σ : Equiv.Perm (Fin n)) (β s : Fin n → ℝ) {a a' : Fin n → Fin n → ℝ}

/-- a symmetric matrix without self-loops, and the same with the nodes renamed -/
structure SameNet (σ : Equiv.Perm (Fin n)) (a a' : Fin n → Fin n → ℝ) : Prop where
  symm : ∀ i j, a i j = a j i
  diag : ∀ i, a i i = 0
  ren : ∀ i j, a' i j = a (σ i) (σ j)

variable {σ}

theorem SameNet.symm' (h : SameNet σ a a') (i j : Fin n) : a' i j = a' j i := by rw [h.ren, h.ren, h.symm]
theorem SameNet.diag' (h : SameNet σ a a') (i : Fin n) : a' i i = 0 := by rw [h.ren, h.diag]

variable (h : SameNet σ a a')
include h

theorem inc_perm (k k' : Fin n → Fin n → ℝ → ℝ) (hk : ∀ i j, k i j 0 = 0) (hk' : ∀ i j w, k' i j w = k (σ i) (σ j) w) (m : Fin n) :
    ((triuEdges a').map fun e => (if m = e.1 then k' e.1 e.2.1 e.2.2 else 0) + if m = e.2.1 then k' e.2.1 e.1 e.2.2 else 0).sum =
    ((triuEdges a).map fun e => (if σ m = e.1 then k e.1 e.2.1 e.2.2 else 0) + if σ m = e.2.1 then k e.2.1 e.1 e.2.2 else 0).sum := by
  rw [inc_triu a h.symm h.diag k hk, inc_triu a' h.symm' h.diag' k' fun i j => by rw [hk', hk]]
  exact Fintype.sum_equiv σ _ _ fun j => by rw [hk', h.ren]

theorem crema_expected_perm : expected_strength_crema_undirected (β ∘ σ) (triuEdges a') = expected_strength_crema_undirected β (triuEdges a) ∘ σ := by
  funext m
  simp only [Function.comp, expected_eq]
  exact inc_perm h (fun i j w => w / (β i + β j)) (fun i j w => w / (β (σ i) + β (σ j))) (by simp) (fun _ _ _ => rfl) m

theorem crema_prime_perm : loglikelihood_prime_crema_undirected (β ∘ σ) (s ∘ σ) (triuEdges a') = loglikelihood_prime_crema_undirected β s (triuEdges a) ∘ σ := by
  funext m
  simp only [Function.comp_apply, prime_eq, crema_expected_perm β h]

theorem crema_diag_perm : loglikelihood_hessian_diag_crema_undirected (β ∘ σ) (triuEdges a') = loglikelihood_hessian_diag_crema_undirected β (triuEdges a) ∘ σ := by
  funext m
  simp only [Function.comp, diag_eq]
  exact inc_perm h (fun i j w => -(w / (β i + β j) ^ 2)) (fun i j w => -(w / (β (σ i) + β (σ j)) ^ 2)) (by simp) (fun _ _ _ => rfl) m

theorem crema_iter_perm : iterative_crema_undirected (β ∘ σ) (s ∘ σ) (triuEdges a') = iterative_crema_undirected β s (triuEdges a) ∘ σ := by
  funext m
  simp only [Function.comp, iter_eq]
  rw [inc_perm h (fun i j w => -(w / (1 + (β j / β i)))) (fun i j w => -(w / (1 + (β (σ j) / β (σ i))))) (by simp) (fun _ _ _ => rfl) m]

theorem crema_hess_perm (i j : Fin n) : loglikelihood_hessian_crema_undirected (β ∘ σ) (triuEdges a') i j = loglikelihood_hessian_crema_undirected β (triuEdges a) (σ i) (σ j) := by
  by_cases hij : i = j
  · subst hij
    rw [hess_triu_diag _ _ h.symm' h.diag', hess_triu_diag _ _ h.symm h.diag]
    exact Fintype.sum_equiv σ _ _ fun j => by rw [h.ren]; rfl
  · rw [hess_triu_off _ _ h.symm' _ _ hij, hess_triu_off _ _ h.symm _ _ (by simpa using hij), h.ren]; rfl

theorem crema_ll_perm : loglikelihood_crema_undirected (β ∘ σ) (s ∘ σ) (triuEdges a') = loglikelihood_crema_undirected β s (triuEdges a) := by
  rw [ll_crema_spec _ h.symm' h.diag', ll_crema_spec _ h.symm h.diag]
  unfold logCReMa
  rw [← half_pairs (fun i j => a i j * Real.log (β i + β j)) fun i j => by rw [h.symm, add_comm (β i)],
    ← half_pairs (fun i j => a' i j * Real.log ((β ∘ σ) i + (β ∘ σ) j)) fun i j => by rw [h.symm', add_comm ((β ∘ σ) i)]]
  congr 1
  · congr 1
    exact Equiv.sum_comp σ fun i => s i * β i
  · refine Fintype.sum_equiv σ _ _ fun i => Fintype.sum_equiv σ _ _ fun j => ?_
    simp only [EmbeddingLike.apply_eq_iff_eq, h.ren]
    rfl

theorem crema_dom_perm : (∀ t ∈ triuEdges a', 0 < (β ∘ σ) t.1 + (β ∘ σ) t.2.1) ↔ ∀ t ∈ triuEdges a, 0 < β t.1 + β t.2.1 := by
  have key : ∀ (a : Fin n → Fin n → ℝ), (∀ i j, a i j = a j i) → ∀ β : Fin n → ℝ, (∀ t ∈ triuEdges a, 0 < β t.1 + β t.2.1) ↔ ∀ i j, a i j ≠ 0 → 0 < β i + β j := by
    intro a ha β
    constructor
    · intro hp i j hij
      haveI : NeZero n := ⟨fun hn => (hn ▸ i).elim0⟩
      rcases le_total i j with hle | hle
      · exact hp _ (mem_triu hle hij)
      · rw [add_comm]; exact hp _ (mem_triu hle (by rwa [ha]))
    · intro hp t ht
      simp only [triuEdges, List.mem_map, List.mem_filter] at ht
      obtain ⟨q, ⟨-, hq⟩, rfl⟩ := ht
      exact hp _ _ (by simp at hq; exact hq.2)
  rw [key _ h.symm', key _ h.symm]
  refine ⟨fun hp i j hij => ?_, fun hp i j hij => hp _ _ (h.ren i j ▸ hij)⟩
  have := hp (σ.symm i) (σ.symm j) (by rw [h.ren]; simpa using hij)
  simpa using this

end crema

theorem renamed_crema {e : Env} (hout : ∀ (ι : Type) (τ : Equiv.Perm ι) x, e.outside ι (x ∘ τ) = e.outside ι x) {d d' : UData n} {σ : Equiv.Perm (Fin n)}
    (hs : d'.strength_sequence = d.strength_sequence ∘ σ) {a a' : Fin n → Fin n → ℝ} (h : SameNet σ a a') (me : Method) :
    Renamed σ (cbCrema e d (triuEdges a) me) (cbCrema e d' (triuEdges a') me) where
  fn x := by
    cases me with
    | newton => funext v; show -_ = -_; rw [hs, crema_prime_perm _ _ h]; rfl
    | quasinewton => funext v; show -_ = -_; rw [hs, crema_prime_perm _ _ h]; rfl
    | fixed_point => funext v; show -_ = -_; rw [hs, crema_iter_perm _ _ h]; rfl
  jac x := by
    funext u v
    show -_ = -_
    rw [crema_hess_perm _ h]
  diag x := by
    funext v
    show -_ = -_
    rw [crema_diag_perm _ h]; rfl
  reg x ε := regulariser_rename _ _ _
  search x dx b a f := congrArg some (decreaseStage_comp σ (llF_rename e hout _ (fun x => crema_dom_perm x h) fun x => by rw [hs, crema_ll_perm _ _ h]) x dx b a f)
  searchFixed x dx dx_old a b k := congrArg some (normStage_comp σ dx dx_old a b k)

/-! ### the call -/

section undirected
variable [NeZero n] {d d' : UData n} {σ : Equiv.Perm (Fin n)}

theorem guessCrema_rename (e : Env) (hs : d'.strength_sequence = d.strength_sequence ∘ σ) (g : Guess n) (hg : g ≠ .name "random") :
    guessCrema e d' (g.rename σ) = ((guessCrema e d g).1.map (· ∘ σ), (guessCrema e d g).2.rename σ) := by
  cases g with
  | other => rfl
  | nodes v => simp only [Guess.rename, guessCrema, hs, Except.map]; rfl
  | pairs v => rfl
  | name s =>
    have hr : s ≠ "random" := fun h => hg (h ▸ rfl)
    have hn : namedCrema e d' s = (namedCrema e d s).map (· ∘ σ) := by
      unfold namedCrema
      simp only [hs, if_neg hr]
      split_ifs
      · simp only [Option.map_some, Option.some.injEq]
        funext i
        simp only [Function.comp]
        rw [Equiv.sum_comp σ d.strength_sequence]
      all_goals rfl
    simp only [Guess.rename, guessCrema, hn]
    cases namedCrema e d s with
    | none => rfl
    | some v => simp only [Option.map_some, hs]; rfl

theorem degreeError_rename (e : Env) (hk : d'.dseq = d.dseq ∘ σ) {G : UAttr d} {G' : UAttr d'} (hR : RenamedAnswer e σ G G') : RenamedAnswer e σ (degreeError G) (degreeError G') := by
  have hd : d'.deg = d.deg ∘ σ := by funext i; simp [UData.deg, hk]
  unfold degreeError
  rw [hR.x]
  cases hx : G.x with
  | none => exact hR
  | some x =>
    have e1 : CM.expected_degree_cm (x ∘ σ) = CM.expected_degree_cm x ∘ σ := funext (expected_degree_perm x σ)
    have a1 := maxAbs_perm (fun i => CM.expected_degree_cm x i - d.deg i) σ
    have a2 := maxAbs_perm (fun i => (CM.expected_degree_cm x i - d.deg i) / (d.deg i + Real.exp (-100))) σ
    simp only [Option.map_some, e1, hd]
    exact ⟨rfl, hR.y, hR.beta, rfl, hR.expected_strength_seq, hR.expected_stregth_seq, congrArg some a1, congrArg some a2, hR.error_strength, hR.relative_error_strength,
      congrArg some a1, hR.trace, hR.trace_crema, hR.loglikelihood⟩

theorem strengthError_rename (e : Env) (hs : d'.strength_sequence = d.strength_sequence ∘ σ) {a a' : Fin n → Fin n → ℝ} (h : SameNet σ a a') {G : UAttr d} {G' : UAttr d'}
    (hR : RenamedAnswer e σ G G') (ha : G.adjacency_crema = some (.edges (triuEdges a))) (ha' : G'.adjacency_crema = some (.edges (triuEdges a')))
    (hsp : G.is_sparse = false) (hsp' : G'.is_sparse = false) (hgi : G'.adjacency_given = G.adjacency_given) :
    (strengthError e G').2 = (strengthError e G).2 ∧ RenamedAnswer e σ (strengthError e G).1 (strengthError e G').1 := by
  unfold strengthError
  rw [hR.beta]
  cases hb : G.beta with
  | none => exact ⟨rfl, hR⟩
  | some b =>
    have a1 := maxAbs_perm (fun i => CReMa.expected_strength_crema_undirected b (triuEdges a) i - d.strength_sequence i) σ
    have a2 := maxAbs_perm (fun i => (CReMa.expected_strength_crema_undirected b (triuEdges a) i - d.strength_sequence i) / (d.strength_sequence i + Real.exp (-100))) σ
    have a3 : (maxAbs fun i => (CReMa.expected_strength_crema_undirected b (triuEdges a) ∘ σ) i - (d.strength_sequence ∘ σ) i) = 
      maxAbs fun i => CReMa.expected_strength_crema_undirected b (triuEdges a) i - d.strength_sequence i := a1
    have a4 : (maxAbs fun i => ((CReMa.expected_strength_crema_undirected b (triuEdges a) ∘ σ) i - (d.strength_sequence ∘ σ) i) / ((d.strength_sequence ∘ σ) i + Real.exp (-100))) = 
      maxAbs fun i => (CReMa.expected_strength_crema_undirected b (triuEdges a) i - d.strength_sequence i) / (d.strength_sequence i + Real.exp (-100)) := a2
    simp only [Option.map_some, ha, ha', hsp, hsp', hgi, Bool.false_eq_true, if_false, crema_expected_perm b h, hs, a3, a4, hR.error_degree]
    cases hga : G.adjacency_given with
    | none => exact ⟨rfl, ⟨hR.x, hR.y, rfl, hR.expected_dseq, hR.expected_strength_seq, rfl, rfl, hR.relative_error_degree, rfl, rfl, hR.error, hR.trace,
        hR.trace_crema, hR.loglikelihood⟩⟩
    | some t =>
      cases t with
      | true => exact ⟨rfl, ⟨hR.x, hR.y, rfl, hR.expected_dseq, hR.expected_strength_seq, rfl, rfl, hR.relative_error_degree, rfl, rfl, rfl, hR.trace,
        hR.trace_crema, hR.loglikelihood⟩⟩
      | false =>
        cases hed : G.error_degree with
        | none => exact ⟨rfl, ⟨hR.x, hR.y, rfl, hR.expected_dseq, hR.expected_strength_seq, rfl, rfl, hR.relative_error_degree, rfl, rfl, hR.error, hR.trace,
            hR.trace_crema, hR.loglikelihood⟩⟩
        | some ed => exact ⟨rfl, ⟨hR.x, hR.y, rfl, hR.expected_dseq, hR.expected_strength_seq, rfl, rfl, hR.relative_error_degree, rfl, rfl, rfl, hR.trace,
            hR.trace_crema, hR.loglikelihood⟩⟩

/-- CReMa after the links are fixed, in two states that are renamings of each other. -/
theorem tail_rename {e : Env} (hout : ∀ (ι : Type) (τ : Equiv.Perm ι) x, e.outside ι (x ∘ τ) = e.outside ι x)
    (hs : d'.strength_sequence = d.strength_sequence ∘ σ) {a a' : Fin n → Fin n → ℝ} (h : SameNet σ a a') {G : UAttr d} {G' : UAttr d'} (hR : RenamedAnswer e σ G G')
    (hsp : G.is_sparse = false) (hsp' : G'.is_sparse = false) (hf : G'.step_fun = G.step_fun) (hf1 : G.step_fun = none ∨ G.step_fun = some .cm ∨ G.step_fun = some .cm_exp)
    (hsol : G.solution_array = none ∧ G'.solution_array = none ∨ ∃ v v', G.solution_array = some (.reduced v) ∧ G'.solution_array = some (.reduced v'))
    (me : Method) (guess : Guess n) (hg : guess ≠ .name "random") (p : Params) :
    let T := solveCremaTail e G (.edges (triuEdges a)) "crema" me.name guess p
    let T' := solveCremaTail e G' (.edges (triuEdges a')) "crema" me.name (guess.rename σ) p
    T'.2.1 = T.2.1 ∧ RenamedAnswer e σ T.1 T'.1 ∧ (T.2.1 = none → T.1.last_model = some "crema" ∧ T'.1.last_model = some "crema" ∧
      T.1.adjacency_crema = G.adjacency_crema ∧ T'.1.adjacency_crema = G'.adjacency_crema ∧ T.1.is_sparse = false ∧ T'.1.is_sparse = false ∧
      T.1.adjacency_given = G.adjacency_given ∧ T'.1.adjacency_given = G'.adjacency_given) := by
  intro T T'
  have h1 : T = solveCremaTail e G (.edges (triuEdges a)) "crema" me.name guess p := rfl
  have h2 : T' = solveCremaTail e G' (.edges (triuEdges a')) "crema" me.name (guess.rename σ) p := rfl
  unfold solveCremaTail at h1 h2
  simp only [hsp, hsp', Bool.false_eq_true, if_false] at h1 h2
  rw [guessCrema_rename e hs guess hg] at h2
  rcases hG : guessCrema e d guess with ⟨er | b, gu⟩
  · rw [hG] at h1 h2
    simp only [Except.map] at h1 h2
    rw [h1, h2]
    exact ⟨rfl, ⟨hR.x, hR.y, hR.beta, hR.expected_dseq, hR.expected_strength_seq, hR.expected_stregth_seq, hR.error_degree, hR.relative_error_degree, hR.error_strength,
      hR.relative_error_strength, hR.error, hR.trace, hR.trace_crema, hR.loglikelihood⟩, by simp⟩
  · rw [hG] at h1 h2
    simp only [Except.map] at h1 h2
    have hl : uLookup "crema" me.name = some (.crema, me) := uLookup_name .crema me
    simp only [hl] at h1 h2
    rw [solver_rename (renamed_crema hout hs h me)] at h2
    cases hS : solver (cbCrema e d (triuEdges a) me) (p.opts me.name) b with
      | error er =>
        simp only [hS, Except.map] at h1 h2
        rw [h1, h2]
        refine ⟨rfl, ⟨hR.x, hR.y, rfl, hR.expected_dseq, hR.expected_strength_seq, hR.expected_stregth_seq, hR.error_degree, hR.relative_error_degree, hR.error_strength,
          hR.relative_error_strength, hR.error, hR.trace, hR.trace_crema, ?_⟩, by simp⟩
        unfold model_loglikelihood
        rcases hsol with ⟨h3, h4⟩ | ⟨v, v', h3, h4⟩ <;> simp only [h3, h4]
      | ok st =>
        simp only [hS, Except.map] at h1 h2
        rw [h1, h2]
        refine ⟨rfl, ⟨hR.x, hR.y, rfl, hR.expected_dseq, hR.expected_strength_seq, hR.expected_stregth_seq, hR.error_degree, hR.relative_error_degree, hR.error_strength,
          hR.relative_error_strength, hR.error, hR.trace, ?_, ?_⟩, fun _ => ⟨rfl, rfl, rfl, rfl, rfl, rfl, rfl, rfl⟩⟩
        · simp only [setSolvedCrema, hR.trace_crema]; rfl
        · unfold model_loglikelihood
          simp only [setSolvedCrema, State.rename, hs, crema_ll_perm _ _ h]

theorem solutionError_crema_rename (e : Env) (hk : d'.dseq = d.dseq ∘ σ) (hs : d'.strength_sequence = d.strength_sequence ∘ σ) {a a' : Fin n → Fin n → ℝ} (h : SameNet σ a a')
    {G : UAttr d} {G' : UAttr d'} (hR : RenamedAnswer e σ G G') (hl : G.last_model = some "crema") (hl' : G'.last_model = some "crema")
    (ha : G.adjacency_crema = some (.edges (triuEdges a))) (ha' : G'.adjacency_crema = some (.edges (triuEdges a')))
    (hsp : G.is_sparse = false) (hsp' : G'.is_sparse = false) (hgi : G'.adjacency_given = G.adjacency_given) :
    (solutionError e G').2 = (solutionError e G).2 ∧ RenamedAnswer e σ (solutionError e G).1 (solutionError e G').1 := by
  unfold solutionError
  rw [if_pos (by rw [hl']; decide), if_pos (by rw [hl]; decide)]
  have k := degreeError_keeps G
  have k' := degreeError_keeps G'
  refine strengthError_rename e hs h (degreeError_rename e hk hR) ?_ ?_ ?_ ?_ ?_
  · rw [k.2.2.2.2.2.2.2.2.2.1, ha]
  · rw [k'.2.2.2.2.2.2.2.2.2.1, ha']
  · rw [k.2.2.2.2.2.2.2.2.2.2.2, hsp]
  · rw [k'.2.2.2.2.2.2.2.2.2.2.2, hsp']
  · rw [k.2.2.2.2.2.2.2.2.2.2.1, k'.2.2.2.2.2.2.2.2.2.2.1, hgi]

/-- C56 (crema on a given network): renaming the nodes - strengths, matrix and, when the guess is an array, the guess - renames the answer and changes nothing else. -/
theorem C56_crema_relabel {e : Env} (hout : ∀ (ι : Type) (τ : Equiv.Perm ι) x, e.outside ι (x ∘ τ) = e.outside ι x)
    (hk : d'.dseq = d.dseq ∘ σ) (hs : d'.strength_sequence = d.strength_sequence ∘ σ) {a a' : Fin n → Fin n → ℝ}
    (hsym : ∀ i j, a i j = a j i) (hdiag : ∀ i, a i i = 0) (ha : ∀ i j, a' i j = a (σ i) (σ j))
    (me : Method) (guess : Guess n) (hg : guess ≠ .name "random") (ma : String) (ga : Guess n) (p : Params) :
    let R := solve_tool e ({} : UAttr d) "crema" me.name guess (.matrix a) ma ga p
    let R' := solve_tool e ({} : UAttr d') "crema" me.name (guess.rename σ) (.matrix a') ma ga p
    R'.exc = R.exc ∧ RenamedAnswer e σ R.g R'.g := by
  have h : SameNet σ a a' := ⟨hsym, hdiag, ha⟩
  intro R R'
  have hU : ∀ {d : UData n} (a : Fin n → Fin n → ℝ) guess, solve_tool e ({} : UAttr d) "crema" me.name guess (.matrix a) ma ga p =
      match solveCremaTail e ({ adjacency_crema := some (.edges (triuEdges a)), adjacency_given := some true } : UAttr d) (.edges (triuEdges a)) "crema" me.name guess p with
      | (g', some x, gu) => ⟨g', some x, gu, ga⟩
      | (g', none, gu) => ⟨(solutionError e g').1, (solutionError e g').2, gu, ga⟩ := by
    intro d a guess
    unfold solve_tool
    rw [if_neg (by decide), if_pos (by simp)]
    simp only [solveProblemCrema]
    rcases solveCremaTail e ({ adjacency_crema := some (.edges (triuEdges a)), adjacency_given := some true } : UAttr d) (.edges (triuEdges a)) "crema" me.name guess p with ⟨a, b, c⟩
    cases b <;> rfl
  have h1 : R = _ := hU a guess
  have h2 : R' = _ := hU a' _
  have ht := tail_rename (G := ({ adjacency_crema := some (.edges (triuEdges a)), adjacency_given := some true } : UAttr d))
    (G' := ({ adjacency_crema := some (.edges (triuEdges a')), adjacency_given := some true } : UAttr d')) hout hs h
    ⟨rfl, rfl, rfl, rfl, rfl, rfl, rfl, rfl, rfl, rfl, rfl, rfl, rfl, rfl⟩ rfl rfl rfl (.inl rfl) (.inl ⟨rfl, rfl⟩) me guess hg p
  rcases hT : solveCremaTail e ({ adjacency_crema := some (.edges (triuEdges a)), adjacency_given := some true } : UAttr d) (.edges (triuEdges a)) "crema" me.name guess p with ⟨t1, t2, t3⟩
  rcases hT' : solveCremaTail e ({ adjacency_crema := some (.edges (triuEdges a')), adjacency_given := some true } : UAttr d') (.edges (triuEdges a')) "crema" me.name
    (guess.rename σ) p with ⟨u1, u2, u3⟩
  rw [hT] at h1 ht
  rw [hT'] at h2 ht
  obtain ⟨e1, e2, e3⟩ := ht
  replace e1 : u2 = t2 := e1
  subst e1
  cases hu : u2 with
  | some er =>
    rw [hu] at h1 h2
    rw [h1, h2]
    exact ⟨rfl, e2⟩
  | none =>
    rw [hu] at h1 h2
    rw [h1, h2]
    obtain ⟨f1, f2, f3, f4, f5, f6, f7, f8⟩ := e3 hu
    exact solutionError_crema_rename e hk hs h e2 f1 f2 f3 f4 f5 f6 (f8.trans f7.symm)

/-! ### the links from the binary model -/

/-- the binary problem of CReMa on renamed degrees -/
theorem inner_rename (e : Env) (hk : d'.dseq = d.dseq ∘ σ) (mo : UModel) (hmo : mo = .cm ∨ mo = .cm_exp) (method s : String) (p : Params) :
    let S := solveProblem e ({} : UAttr d) mo.name method (.name s) p
    let S' := solveProblem e ({} : UAttr d') mo.name method (.name s) p
    S'.2 = S.2 ∧ RenamedAnswer e σ S.1 S'.1 ∧ (S.2.1 = none → S'.1.step_fun = S.1.step_fun ∧ (S.1.step_fun = some .cm ∨ S.1.step_fun = some .cm_exp) ∧
      (∃ v v', S.1.solution_array = some (.reduced v) ∧ S'.1.solution_array = some (.reduced v')) ∧ S.1.is_sparse = false ∧ S'.1.is_sparse = false ∧
      S.1.fun_pmatrix = true ∧ S'.1.fun_pmatrix = true ∧ ∃ x, S.1.x = some x) := by
  have h : ∀ i, d'.dseq i = d.dseq (σ i) := fun i => congrFun hk i
  obtain ⟨isExp, hm⟩ : ∃ isExp : Bool, mo = if isExp then .cm_exp else .cm := by
    rcases hmo with rfl | rfl
    · exact ⟨false, rfl⟩
    · exact ⟨true, rfl⟩
  have hmn : mo.name = "cm" ∨ mo.name = "cm_exp" := by rcases hmo with rfl | rfl <;> decide
  have hdec : decide (mo.name = "cm_exp") = isExp := by cases isExp <;> subst hm <;> decide
  intro S S'
  have h1 : S = solveProblem e ({} : UAttr d) mo.name method (.name s) p := rfl
  have h2 : S' = solveProblem e ({} : UAttr d') mo.name method (.name s) p := rfl
  unfold solveProblem at h1 h2
  rw [if_pos hmn, hdec, guess_start] at h1 h2
  rw [n_edges_perm h] at h2
  cases hst : startU e d.n_edges isExp s with
  | none =>
    rw [hst] at h1 h2
    rw [h1, h2]
    exact ⟨rfl, ⟨rfl, rfl, rfl, rfl, rfl, rfl, rfl, rfl, rfl, rfl, rfl, rfl, rfl, rfl⟩, by simp⟩
  | some X =>
    rw [hst] at h1 h2
    cases hl : uLookup mo.name method with
    | none =>
      simp only [hl] at h1 h2
      rw [h1, h2]
      exact ⟨rfl, ⟨rfl, rfl, rfl, rfl, rfl, rfl, rfl, rfl, rfl, rfl, rfl, rfl, rfl, rfl⟩, by simp⟩
    | some v =>
      obtain ⟨mo', me⟩ := v
      have hmo' : mo' = mo := by
        rcases uLookup_some hl with ⟨h0, -⟩ | ⟨h0, -⟩
        · exact h0
        · rcases hmo with rfl | rfl <;> cases h0
      subst hmo'
      simp only [hl] at h1 h2
      have ht : ∀ d : UData n, (if mo'.name = "cm_exp" then cbCMexp e d me else cbCM e d me) = tableU e isExp me d.k d.c := by
        intro d; cases isExp <;> subst hm <;> rfl
      rw [ht] at h1 h2
      rcases run_same e isExp me (p.opts method) X (classesU h) with ⟨er, e1, e2⟩ | ⟨st, st', e1, e2, e3, e4, e5⟩
      · rw [e1] at h1
        rw [e2] at h2
        rw [h1, h2]
        refine ⟨rfl, ⟨rfl, rfl, rfl, rfl, rfl, rfl, rfl, rfl, rfl, rfl, rfl, rfl, rfl, ?_⟩, by simp⟩
        unfold model_loglikelihood
        cases mo' <;> rfl
      · rw [e1] at h1
        rw [e2] at h2
        rw [h1, h2]
        have hi : ∀ i, st'.x (d'.inv i) = st.x (d.inv (σ i)) := by
          intro i
          refine e4 _ _ ?_
          have := invert_perm d.dseq σ i
          rw [← hk] at this
          exact this
        refine ⟨rfl, ⟨?_, rfl, rfl, rfl, rfl, rfl, rfl, rfl, rfl, rfl, rfl, ?_, rfl, ?_⟩, fun _ => ⟨rfl, ?_, ⟨_, _, rfl, rfl⟩, rfl, rfl, rfl, rfl, ⟨_, rfl⟩⟩⟩
        · refine congrArg some ?_
          funext i
          cases isExp
          · exact hi i
          · exact congrArg (fun t => Real.exp (-t)) (hi i)
        · simp only [setSolvedCM, e3]
        · unfold model_loglikelihood
          simp only [setSolvedCM]
          cases isExp <;> subst hm <;> exact congrArg (fun t : ℝ => Except.ok (-t)) e5
        · exact hmo.imp (congrArg some) (congrArg some)

theorem pmatrix_same (x : Fin n → ℝ) : SameNet σ (CM.pmatrix_cm x) (CM.pmatrix_cm (x ∘ σ)) := by
  simp only [pmatrix_spec]
  refine ⟨fun i j => ?_, fun i => ?_, fun i j => ?_⟩
  · simp only [linkMatrix, linkUBCM, eq_comm (a := i), mul_comm (x i)]
  · simp [linkMatrix]
  · simp [linkMatrix, linkUBCM]

/-- C56 (crema on the link probabilities of the binary model): renaming the nodes - degrees, strengths and, when the guess is an array, the guess - renames the
answer and changes nothing else.  Any method for either problem, any named guess for the binary one (also "random": its draws belong to the degree classes), any guess but
"random" for the weighted one. -/
theorem C56_crema_binary_relabel {e : Env} (hout : ∀ (ι : Type) (τ : Equiv.Perm ι) x, e.outside ι (x ∘ τ) = e.outside ι x)
    (hk : d'.dseq = d.dseq ∘ σ) (hs : d'.strength_sequence = d.strength_sequence ∘ σ) (mo : UModel) (hmo : mo = .cm ∨ mo = .cm_exp)
    (me : Method) (guess : Guess n) (hg : guess ≠ .name "random") (ma s : String) (p : Params) :
    let R := solve_tool e ({} : UAttr d) "crema" me.name guess (.name mo.name) ma (.name s) p
    let R' := solve_tool e ({} : UAttr d') "crema" me.name (guess.rename σ) (.name mo.name) ma (.name s) p
    R'.exc = R.exc ∧ RenamedAnswer e σ R.g R'.g := by
  intro R R'
  have hI := inner_rename e.inner hk mo hmo ma s p
  have hU : ∀ {d : UData n} guess, solve_tool e ({} : UAttr d) "crema" me.name guess (.name mo.name) ma (.name s) p =
      match solveProblem e.inner ({} : UAttr d) mo.name ma (.name s) p with
      | (g, some x, ga) => ⟨g, some x, guess, ga⟩
      | (g, none, ga) =>
        match g.x with
        | none => ⟨g, some (.py .other), guess, ga⟩
        | some x =>
          if g.is_sparse then
            let r := solveCremaTail e { g with adjacency_crema := some (.fitness x), adjacency_given := some false } (.fitness x) "crema" me.name guess p
            match r.2.1 with
            | some x => ⟨r.1, some x, r.2.2, ga⟩
            | none => ⟨(solutionError e r.1).1, (solutionError e r.1).2, r.2.2, ga⟩
          else if g.fun_pmatrix then
            let r := solveCremaTail e { g with adjacency_crema := some (.edges (triuEdges (CM.pmatrix_cm x))), is_sparse := false, adjacency_given := some false }
              (.edges (triuEdges (CM.pmatrix_cm x))) "crema" me.name guess p
            match r.2.1 with
            | some x => ⟨r.1, some x, r.2.2, ga⟩
            | none => ⟨(solutionError e r.1).1, (solutionError e r.1).2, r.2.2, ga⟩
          else ⟨g, some (.py .attributeError), guess, ga⟩ := by
    intro d guess
    unfold solve_tool
    rw [if_neg (by decide), if_pos (by simp)]
    simp only [solveProblemCrema]
    rcases hS : solveProblem e.inner ({} : UAttr d) mo.name ma (.name s) p with ⟨g, _ | x, ga⟩
    · have hS' : solveProblem e.inner ({ is_sparse := false } : UAttr d) mo.name ma (.name s) p = (g, none, ga) := hS
      rw [show (decide ("crema" = "crema-sparse")) = false from by decide, hS']
      simp only
      cases g.x with
      | none => rfl
      | some x =>
        simp only
        split_ifs
        · split <;> simp_all
        · split <;> simp_all
        · rfl
    · have hS' : solveProblem e.inner ({ is_sparse := false } : UAttr d) mo.name ma (.name s) p = (g, some x, ga) := hS
      rw [show (decide ("crema" = "crema-sparse")) = false from by decide, hS']
  have h1 : R = _ := hU guess
  have h2 : R' = _ := hU (guess.rename σ)
  rcases hS : solveProblem e.inner ({} : UAttr d) mo.name ma (.name s) p with ⟨g, ex, ga⟩
  rcases hS' : solveProblem e.inner ({} : UAttr d') mo.name ma (.name s) p with ⟨g', ex', ga'⟩
  rw [hS] at h1 hI
  rw [hS'] at h2 hI
  obtain ⟨e1, e2, e3⟩ := hI
  replace e1 : (ex', ga') = (ex, ga) := e1
  obtain ⟨rfl, rfl⟩ := Prod.mk.inj e1
  have e2' : RenamedAnswer e σ g g' := ⟨e2.x, e2.y, e2.beta, e2.expected_dseq, e2.expected_strength_seq, e2.expected_stregth_seq, e2.error_degree, e2.relative_error_degree,
    e2.error_strength, e2.relative_error_strength, e2.error, e2.trace, e2.trace_crema, e2.loglikelihood⟩
  cases hex : ex' with
  | some er =>
    rw [hex] at h1 h2
    rw [h1, h2]
    exact ⟨rfl, e2'⟩
  | none =>
    rw [hex] at h1 h2
    obtain ⟨f1, f2, f3, f4, f5, f6, f7, x, f8⟩ := e3 hex
    replace f8 : g.x = some x := f8
    have f8' : g'.x = some (x ∘ σ) := by rw [e2.x, f8]; rfl
    replace f4 : g.is_sparse = false := f4
    replace f5 : g'.is_sparse = false := f5
    replace f6 : g.fun_pmatrix = true := f6
    replace f7 : g'.fun_pmatrix = true := f7
    simp only [f8, f8', f4, f5, f6, f7, Bool.false_eq_true, if_false, if_true] at h1 h2
    have hP := pmatrix_same (σ := σ) x
    have ht := tail_rename (G := { g with x := some x, fun_pmatrix := true, adjacency_crema := some (.edges (triuEdges (CM.pmatrix_cm x))), is_sparse := false, adjacency_given := some false })
      (G' := { g' with x := some (x ∘ σ), fun_pmatrix := true, adjacency_crema := some (.edges (triuEdges (CM.pmatrix_cm (x ∘ σ)))), is_sparse := false, adjacency_given := some false }) hout hs hP
      ⟨rfl, e2.y, e2.beta, e2.expected_dseq, e2.expected_strength_seq, e2.expected_stregth_seq, e2.error_degree, e2.relative_error_degree,
        e2.error_strength, e2.relative_error_strength, e2.error, e2.trace, e2.trace_crema, e2.loglikelihood⟩ rfl rfl f1 (.inr f2) (.inr f3) me guess hg p
    rcases hT : solveCremaTail e { g with x := some x, fun_pmatrix := true, adjacency_crema := some (.edges (triuEdges (CM.pmatrix_cm x))), is_sparse := false, adjacency_given := some false }
      (.edges (triuEdges (CM.pmatrix_cm x))) "crema" me.name guess p with ⟨t1, t2, t3⟩
    rcases hT' : solveCremaTail e { g' with x := some (x ∘ σ), fun_pmatrix := true, adjacency_crema := some (.edges (triuEdges (CM.pmatrix_cm (x ∘ σ)))), is_sparse := false, adjacency_given := some false }
      (.edges (triuEdges (CM.pmatrix_cm (x ∘ σ)))) "crema" me.name (guess.rename σ) p with ⟨u1, u2, u3⟩
    rw [hT] at h1 ht
    rw [hT'] at h2 ht
    obtain ⟨k1, k2, k3⟩ := ht
    replace k1 : u2 = t2 := k1
    subst k1
    cases hu : u2 with
    | some er =>
      rw [hu] at h1 h2
      rw [h1, h2]
      exact ⟨rfl, k2⟩
    | none =>
      rw [hu] at h1 h2
      rw [h1, h2]
      obtain ⟨m1, m2, m3, m4, m5, m6, m7, m8⟩ := k3 hu
      exact solutionError_crema_rename e hk hs hP k2 m1 m2 m3 m4 m5 m6 (m8.trans m7.symm)

end undirected

end

end Verif.Solve
