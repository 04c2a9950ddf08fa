import Verif.Props.TwoCalls
import Verif.Props.SampleAfter
import Verif.Props.SampleAfterD
import Verif.Spec.Likelihood

/-! C82: what is missing.  Other names than those of the binary models, and the options of the call. -/

namespace Verif.Solve

open Verif Finset Reduction Solver Spec

/-- `alfa_seq` has one entry per step with the line search and none without it -/
theorem alfa_count {ι : Type} [Fintype ι] [DecidableEq ι] [Nonempty ι] (C : Callbacks ι) (o : Opts) {x0 : ι → ℝ} {s : State ι} (h : solver C o x0 = .ok s) :
    s.alfa_seq.length = if o.linsearch then s.n_steps else 0 := by
  have key : ∀ (k : ℕ) (s s' : State ι), s.alfa_seq.length = (if o.linsearch then s.n_steps else 0) → loop C o k s = .ok s' →
      s'.alfa_seq.length = if o.linsearch then s'.n_steps else 0 := by
    intro k
    induction k with
    | zero => intro s s' hs h; simp only [loop] at h; cases h; exact hs
    | succ k ih =>
      intro s s' hs h
      simp only [loop] at h
      split_ifs at h with hc
      · cases hst : step C o s with
        | error e => rw [hst] at h; cases h
        | ok s1 =>
          rw [hst] at h
          refine ih s1 s' ?_ h
          unfold step at hst
          cases hd : direction C o s.x s.f with
          | error e => rw [hd] at hst; cases hst
          | ok dx =>
            rw [hd] at hst
            dsimp only at hst
            cases ha : stepLength C o s dx with
            | error e => rw [ha] at hst; cases hst
            | ok alfa =>
              rw [ha] at hst
              cases hst
              cases hl : o.linsearch <;> simp [hl] at hs ⊢ <;> simp [hs]
      · cases h; exact hs
  exact key _ _ _ (by simp [initState]) h

section undirected

variable {n : ℕ} [NeZero n] {d : UData n}

/-- C82, `crema-sparse`: the fitnesses it goes on with are those of the binary model called by its own name. -/
theorem C82_crema_sparse (e : Env) (g g₁ : UAttr d) (a : String) (ha : a = "cm" ∨ a = "cm_exp") (ma : String) (ga : Guess n) (method : String) (guess : Guess n)
    (adj₁ : AdjSpec n) (ma₁ : String) (ga₁ : Guess n) (p : Params) :
    let B := solve_tool e.inner g₁ a ma ga adj₁ ma₁ ga₁ p
    let R := solve_tool e g "crema-sparse" method guess (.name a) ma ga p
    B.exc = none → R.exc = none → ∃ x, B.g.x = some x ∧ R.g.x = some x ∧ R.g.adjacency_crema = some (.fitness x) := by
  intro B R hB hR
  have hn : a = "cm" ∨ a = "cm_exp" ∨ a = "ecm" ∨ a = "ecm_exp" := by tauto
  obtain ⟨x, b, h1, -, -, -, h2⟩ := Sampler.crema_name_attrs e g "crema-sparse" method (.inr rfl) guess a ha ma ga p hR
  rw [if_pos rfl] at h2
  refine ⟨x, ?_, h1, h2⟩
  obtain ⟨k1, k2⟩ := Sampler.plain_same e.inner g₁ a ma hn ga adj₁ ma₁ ga₁ p hB
  rw [show B.g.x = _ from k2.2.1]
  obtain ⟨m1, -, -, -, m5, -, -, -, m9⟩ := solveProblem_memoryless e.inner g₁ { g with is_sparse := true } a ma ga p
  obtain ⟨m2, m3, -⟩ := m9 k1
  rw [m2]
  obtain ⟨y, hy⟩ := Option.ne_none_iff_exists'.1 (m2 ▸ m3)
  rw [hy]
  have hR2 : R = finish e _ := solve_tool_crema_finish e g "crema-sparse" method (.inr rfl) guess (.name a) ma ga p
  have hx : (solveProblemCrema e g "crema-sparse" method guess (.name a) ma ga p).g.x = some y := by
    unfold solveProblemCrema
    dsimp only
    obtain ⟨-, -, -, -, m5, -⟩ := solveProblem_memoryless e.inner { g with is_sparse := true } g₁ a ma ga p
    have hex : (solveProblem e.inner { g with is_sparse := true } a ma ga p).2.1 = none := by rw [← m1]; exact k1
    rw [show ({ g with is_sparse := decide ("crema-sparse" = "crema-sparse") } : UAttr d) = { g with is_sparse := true } by simp]
    generalize solveProblem e.inner { g with is_sparse := true } a ma ga p = r at hy hex m5
    obtain ⟨G, ex, gg⟩ := r
    dsimp only at hy hex m5
    subst hex
    dsimp only
    rw [hy]
    dsimp only
    rw [if_pos m5]
    exact (cremaTail_memoryless e _ _ (.fitness y) "crema-sparse" method guess p rfl).2.2.2.1.trans rfl
  rw [← h1]
  change _ = R.g.x
  rw [hR2]
  have hE : (finish e (solveProblemCrema e g "crema-sparse" method guess (.name a) ma ga p)).exc = none := by rw [← hR2]; exact hR
  obtain ⟨-, -, s1, -⟩ := Sampler.finish_same e _ hE
  rw [s1, hx]

/-- C82: a name that is no model raises `ValueError`; parameters and solution stay as they were, but the object now says that its last model was the unknown name. -/
theorem C82_unknown_adjacency (e : Env) (g : UAttr d) (model method : String) (hm : model = "crema" ∨ model = "crema-sparse") (guess : Guess n) (a : String)
    (ha : ∀ mo : UModel, a ≠ mo.name) (ma : String) (ga : Guess n) (p : Params) :
    let R := solve_tool e g model method guess (.name a) ma ga p
    R.exc = some (.py .valueError) ∧ R.g.x = g.x ∧ R.g.y = g.y ∧ R.g.beta = g.beta ∧ R.g.solution_array = g.solution_array ∧ R.g.adjacency_crema = g.adjacency_crema ∧
      R.g.last_model = some a := by
  have h1 := ha .cm
  have h2 := ha .cm_exp
  have h3 := ha .ecm
  have h4 := ha .ecm_exp
  have h5 := ha .crema
  have h6 := ha .crema_sparse
  simp only [UModel.name] at h1 h2 h3 h4 h5 h6
  intro R
  have hR : R = finish e (solveProblemCrema e g model method guess (.name a) ma ga p) := solve_tool_crema_finish e g model method hm guess (.name a) ma ga p
  rw [hR]
  simp [solveProblemCrema, solveProblem, h1, h2, h3, h4, h5, h6, finish]

/-- C82 fails for weighted models: with `adjacency="ecm"` the sparse CReMa raises nothing and goes on with the link probabilities of the configuration model at the fitnesses `x` that belong to `ecm`,
forgetting `y`.  Here on every network without isolated nodes, on every object, at `x = y = 1/2` (with `max_steps=0`): 1/5 instead of 1/13 for every pair. -/
theorem C82_sparse_ecm_wrong (e : Env) (g : UAttr d) (hd : ∀ i, d.deg i ≠ 0) (hs : ∀ i, d.strength_sequence i ≠ 0) :
    let p : Params := { max_steps := 0 }
    let R := solve_tool e g "crema-sparse" "quasinewton" (.nodes fun _ => 1) (.name "ecm") "newton" (.pairs fun _ => 1 / 2) p
    R.exc = none ∧ ∃ x y, R.g.x = some x ∧ R.g.y = some y ∧ R.g.adjacency_crema = some (.fitness x) ∧
      ∃ E, R.g.expected_stregth_seq = some E ∧ (∀ i, E i = strCReMa (linkMatrix x) (fun _ => 1) i) ∧ ∀ i j, linkUBCM x i j = 1 / 5 ∧ linkUECM x y i j = 1 / 13 := by
  intro p R
  have hs0 : ∀ {ι : Type} [Fintype ι] [DecidableEq ι] [Nonempty ι] (C : Callbacks ι) (s : String) (x0 : ι → ℝ),
      solver C (({ max_steps := 0 } : Params).opts s) x0 = .ok (initState C x0) := fun _ _ _ => rfl
  have l2 : uLookup "ecm" "newton" = some (.ecm, .newton) := uLookup_name .ecm .newton
  have l3 : uLookup "crema-sparse" "quasinewton" = some (.crema_sparse, .quasinewton) := uLookup_name .crema_sparse .quasinewton
  have hm : maskSet (fun _ : Fin n => (1 : ℝ)) (fun _ => False) 0 = fun _ => 1 := by funext i; simp [maskSet]
  refine ⟨?_, fun _ => 1 / 2, fun _ => 1 / 2, ?_, ?_, ?_, CReMa.expected_strength_crema_undirected_sparse (fun _ => 1) (fun _ => 1 / 2), ?_, ?_, ?_⟩
  iterate 5
    simp only [R, p]
    simp [solve_tool, solveProblemCrema, solveProblem, guessECM, l2, l3, hs0, setSolvedECM, solveCremaTail, guessCrema, solutionError, setSolvedCrema, degreeError, strengthError,
      CremaAdj.asFitness, initState, cat2, maskSet, hd, hs, hm]
  · intro i
    rw [CReMa.expected_sparse_eq _ _ (fun _ => by norm_num)]
    unfold strCReMa
    rw [Finset.sum_filter]
    refine Finset.sum_congr rfl fun j _ => ?_
    by_cases h : j = i
    · simp [h]
    · simp [h, linkMatrix, linkUBCM, CReMa.pr, Ne.symm h]
  · intro i j
    constructor
    · unfold linkUBCM; norm_num
    · unfold linkUECM; norm_num

end undirected

section directed

variable {n : ℕ} [NeZero n] {d : DData n}

/-- C82, directed `crema-sparse` -/
theorem C82_dcrema_sparse (e : Env) (g g₁ : DAttr d) (a : String) (ha : a = "dcm" ∨ a = "dcm_exp") (ma : String) (ga : DGuess n) (method : String) (guess : DGuess n)
    (adj₁ : AdjSpec n) (ma₁ : String) (ga₁ : DGuess n) (p : Params) :
    let B := solve_tool_directed e.inner g₁ a ma ga adj₁ ma₁ ga₁ { p with linsearch := true }
    let R := solve_tool_directed e g "crema-sparse" method guess (.name a) ma ga p
    B.exc = none → R.exc = none → ∃ x y, B.g.x = some x ∧ B.g.y = some y ∧ R.g.x = some x ∧ R.g.y = some y ∧ R.g.adjacency_crema = some (.fitness x y) := by
  intro B R hB hR
  have hn : a = "dcm" ∨ a = "dcm_exp" ∨ a = "decm" ∨ a = "decm_exp" := by tauto
  obtain ⟨x, y, bo, bi, h1, h1', -, -, -, -, h2⟩ := Sampler.dcrema_name_attrs e g "crema-sparse" method (.inr rfl) guess a ha ma ga p hR
  rw [if_pos rfl] at h2
  refine ⟨x, y, ?_⟩
  obtain ⟨k1, k2⟩ := Sampler.plainD_same e.inner g₁ a ma hn ga adj₁ ma₁ ga₁ { p with linsearch := true } hB
  obtain ⟨m1, -, -, -, -, -, -, -, m9⟩ := solveProblemD_memoryless e.inner g₁ { g with is_sparse := true } a ma ga { p with linsearch := true }
  obtain ⟨m2, m3, m4, m5, -⟩ := m9 k1
  obtain ⟨x', hx'⟩ := Option.ne_none_iff_exists'.1 (m2 ▸ m3)
  obtain ⟨y', hy'⟩ := Option.ne_none_iff_exists'.1 (m4 ▸ m5)
  have hR2 : R = finishD _ := solve_tool_crema_finishD e g "crema-sparse" method (.inr rfl) guess (.name a) ma ga p
  have hx : (solveProblemDCrema e g "crema-sparse" method guess (.name a) ma ga p).g.x = some x' ∧
      (solveProblemDCrema e g "crema-sparse" method guess (.name a) ma ga p).g.y = some y' := by
    unfold solveProblemDCrema
    dsimp only
    obtain ⟨-, -, -, m5, -⟩ := solveProblemD_memoryless e.inner { g with is_sparse := true } g₁ a ma ga { p with linsearch := true }
    have hex : (solveProblemD e.inner { g with is_sparse := true } a ma ga { p with linsearch := true }).2.1 = none := by rw [← m1]; exact k1
    rw [show ({ g with is_sparse := decide ("crema-sparse" = "crema-sparse") } : DAttr d) = { g with is_sparse := true } by simp]
    generalize solveProblemD e.inner { g with is_sparse := true } a ma ga { p with linsearch := true } = r at hx' hy' hex m5
    obtain ⟨G, ex, gg⟩ := r
    dsimp only at hx' hy' hex m5
    subst hex
    dsimp only
    rw [hx', hy']
    dsimp only
    rw [if_pos m5]
    have hT := dcremaTail_memoryless e { G with x := some x', y := some y', adjacency_crema := some (.fitness x' y'), adjacency_given := some false }
      { G with x := some x', y := some y', adjacency_crema := some (.fitness x' y'), adjacency_given := some false } (.fitness x' y') "crema-sparse" method guess p rfl
    exact ⟨hT.2.2.2.1, hT.2.2.2.2.1⟩
  have hE : (finishD (solveProblemDCrema e g "crema-sparse" method guess (.name a) ma ga p)).exc = none := by rw [← hR2]; exact hR
  obtain ⟨-, -, s1, s2, -⟩ := Sampler.finishD_same _ hE
  have r1 : R.g.x = some x' := by rw [hR2, s1, hx.1]
  have r2 : R.g.y = some y' := by rw [hR2, s2, hx.2]
  obtain rfl : x = x' := Option.some.inj (h1.symm.trans r1)
  obtain rfl : y = y' := Option.some.inj (h1'.symm.trans r2)
  exact ⟨(show B.g.x = _ from k2.2.1).trans (m2.trans hx'), (show B.g.y = _ from k2.2.2.1).trans (m4.trans hy'), r1, r2, h2⟩

theorem C82_unknown_adjacency_directed (e : Env) (g : DAttr d) (model method : String) (hm : model = "crema" ∨ model = "crema-sparse") (guess : DGuess n) (a : String)
    (ha : ∀ mo : DModel, a ≠ mo.name) (ma : String) (ga : DGuess n) (p : Params) :
    let R := solve_tool_directed e g model method guess (.name a) ma ga p
    R.exc = some (.py .valueError) ∧ R.g.x = g.x ∧ R.g.y = g.y ∧ R.g.b_out = g.b_out ∧ R.g.b_in = g.b_in ∧ R.g.solution_array = g.solution_array ∧
      R.g.adjacency_crema = g.adjacency_crema ∧ R.g.last_model = some a := by
  have h1 := ha .dcm
  have h2 := ha .dcm_exp
  have h3 := ha .decm
  have h4 := ha .decm_exp
  have h5 := ha .crema
  have h6 := ha .crema_sparse
  simp only [DModel.name] at h1 h2 h3 h4 h5 h6
  intro R
  have hR : R = finishD (solveProblemDCrema e g model method guess (.name a) ma ga p) := solve_tool_crema_finishD e g model method hm guess (.name a) ma ga p
  rw [hR]
  simp [solveProblemDCrema, solveProblemD, h1, h2, h3, h4, h5, h6, finishD]

theorem dcremaTail_trace (e : Env) (g : DAttr d) (adj : DCremaAdj n) (model method : String) (guess : DGuess n) (p : Params) :
    (solveDCremaTail e g adj model method guess p).1.trace = g.trace := by
  unfold solveDCremaTail
  dsimp only
  generalize hq : guessDCrema e d guess = q
  obtain ⟨q1, q2⟩ := q
  cases q1 with
  | error x => rfl
  | ok b =>
    obtain ⟨bo, bi⟩ := b
    dsimp only
    repeat' split
    all_goals rfl

/-- the trace of a binary problem that was solved -/
theorem dcm_trace (e : Env) (g : DAttr d) (a : String) (ha : a = "dcm" ∨ a = "dcm_exp") (method : String) (guess : DGuess n) (p : Params) (hf : p.full_return = true)
    (h : (solveProblemD e g a method guess p).2.1 = none) :
    ∃ t, (solveProblemD e g a method guess p).1.trace = some t ∧ t.alfa_seq.length = if p.linsearch then t.n_steps else 0 := by
  unfold solveProblemD at h ⊢
  dsimp only at h ⊢
  rw [if_pos ha] at h ⊢
  cases hg : guessDCM e d (a = "dcm_exp") guess with
  | error x => rw [hg] at h; cases h
  | ok x0 =>
    rw [hg] at h
    dsimp only at h ⊢
    cases hl : dLookup a method with
    | none => rw [hl] at h; cases h
    | some mm =>
      rw [hl] at h
      obtain ⟨mo, me⟩ := mm
      dsimp only at h ⊢
      cases hs : solver (if a = "dcm_exp" then cbDCMexp e d me else cbDCM e d me) (p.opts method) x0 with
      | error x => rw [hs] at h; cases h
      | ok s =>
        refine ⟨.of s, by simp [setSolvedDCM, hf], ?_⟩
        exact alfa_count _ _ hs

/-- C82 fails for the options of a directed call: with `linsearch=False` the binary problem is solved without the line search when it is called by its name, and with the line search when CReMa
calls it (the attribute `alfa_seq` has no entry in the first case, and one for each step in the second). -/
theorem C82_dcrema_linsearch_ignored (e : Env) (g g₁ : DAttr d) (a : String) (ha : a = "dcm" ∨ a = "dcm_exp") (ma : String) (ga : DGuess n) (method : String) (guess : DGuess n)
    (adj₁ : AdjSpec n) (ma₁ : String) (ga₁ : DGuess n) (p : Params) (hl : p.linsearch = false) (hf : p.full_return = true) :
    let B := solve_tool_directed e.inner g₁ a ma ga adj₁ ma₁ ga₁ p
    let R := solve_tool_directed e g "crema" method guess (.name a) ma ga p
    (B.exc = none → ∃ t, B.g.trace = some t ∧ t.alfa_seq = []) ∧
    (R.exc = none → ∃ t, R.g.trace = some t ∧ t.alfa_seq.length = t.n_steps) := by
  intro B R
  have hn : a = "dcm" ∨ a = "dcm_exp" ∨ a = "decm" ∨ a = "decm_exp" := by tauto
  constructor
  · intro h
    have hB : B = finishD _ := solve_tool_plain_finishD e.inner g₁ a ma hn ga adj₁ ma₁ ga₁ p
    rw [hB] at h ⊢
    cases hx : (solveProblemD e.inner g₁ a ma ga p).2.1 with
    | some er => rw [hx] at h; cases h
    | none =>
      obtain ⟨t, ht, hc⟩ := dcm_trace e.inner g₁ a ha ma ga p hf hx
      refine ⟨t, ?_, by simpa [hl] using hc⟩
      exact (keepsD DAttr.trace (fun _ => rfl) _).trans ht
  · intro h
    have hR : R = finishD _ := solve_tool_crema_finishD e g "crema" method (.inl rfl) guess (.name a) ma ga p
    rw [hR] at h ⊢
    have key : (solveProblemDCrema e g "crema" method guess (.name a) ma ga p).exc = none →
        ∃ t, (solveProblemDCrema e g "crema" method guess (.name a) ma ga p).g.trace = some t ∧ t.alfa_seq.length = t.n_steps := by
      unfold solveProblemDCrema
      dsimp only
      have hT := dcm_trace e.inner { g with is_sparse := decide ("crema" = "crema-sparse") } a ha ma ga { p with linsearch := true } hf
      generalize solveProblemD e.inner { g with is_sparse := decide ("crema" = "crema-sparse") } a ma ga { p with linsearch := true } = r at hT
      obtain ⟨G, ex, gg⟩ := r
      cases ex with
      | some x => intro h; cases h
      | none =>
        obtain ⟨t, ht, hc⟩ := hT rfl
        have hc : t.alfa_seq.length = t.n_steps := hc
        dsimp only at ht ⊢
        split
        · split_ifs
          · intro _; exact ⟨t, (dcremaTail_trace _ _ _ _ _ _ _).trans ht, hc⟩
          · intro _; exact ⟨t, (dcremaTail_trace _ _ _ _ _ _ _).trans ht, hc⟩
          · intro h; cases h
        · intro h; cases h
    cases hx : (solveProblemDCrema e g "crema" method guess (.name a) ma ga p).exc with
    | some er => simp [finishD, hx] at h
    | none =>
      obtain ⟨t, ht, hc⟩ := key hx
      refine ⟨t, ?_, hc⟩
      unfold finishD
      rw [hx]
      exact (keepsD DAttr.trace (fun _ => rfl) _).trans ht

end directed

end Verif.Solve
