import Verif.Props.SolveU

/-! C37, C40, C46 and the model-level part of C13, for `UndirectedGraph.solve_tool`. -/

namespace Verif.Solve

open Verif Finset Reduction Solver Spec

open Classical in
attribute [local instance 0] propDecidable

variable {n : ℕ} [NeZero n] {d : UData n}

/-! ### what a call that raises no exception has done -/

theorem mkres (e : Env) (G : UAttr d) (guess ga : Guess n) (h : (solutionError e G).2 = none) :
    (⟨(solutionError e G).1, (solutionError e G).2, guess, ga⟩ : UResult d) = ⟨(solutionError e G).1, none, guess, ga⟩ := by rw [h]

theorem name_of_lookup {mo mo' : UModel} {me : Method} {method : String} (h : uLookup mo.name method = some (mo', me)) (hmo : mo ≠ .crema) :
    method = me.name := by
  rcases uLookup_some h with ⟨-, h2⟩ | ⟨h1, -⟩
  · exact h2
  · exact absurd h1 hmo

/-- a call on a binary model that raises no exception had an acceptable guess and a documented method -/
theorem solve_tool_cm_args (e : Env) (g : UAttr d) (mo : UModel) (hmo : mo = .cm ∨ mo = .cm_exp) (method : String) (guess : Guess n) (adj : AdjSpec n)
    (ma : String) (ga : Guess n) (p : Params) (h : (solve_tool e g mo.name method guess adj ma ga p).exc = none) :
    ∃ me x0, method = Method.name me ∧ guessCM e d (decide (mo.name = "cm_exp")) guess = .ok x0 := by
  have hn : mo.name = "cm" ∨ mo.name = "cm_exp" := by rcases hmo with rfl | rfl <;> simp [UModel.name]
  unfold solve_tool at h
  rw [if_pos (by tauto)] at h
  unfold solveProblem at h
  rw [if_pos hn] at h
  cases h0 : guessCM e d (decide (mo.name = "cm_exp")) guess with
  | error x => rw [h0] at h; simp at h
  | ok x0 =>
    rw [h0] at h
    cases hl : uLookup mo.name method with
    | none => simp [hl] at h
    | some v => exact ⟨v.2, x0, name_of_lookup (mo' := v.1) hl (by rcases hmo with rfl | rfl <;> simp), rfl⟩

theorem solve_tool_ecm_args (e : Env) (g : UAttr d) (mo : UModel) (hmo : mo = .ecm ∨ mo = .ecm_exp) (method : String) (guess : Guess n) (adj : AdjSpec n)
    (ma : String) (ga : Guess n) (p : Params) (h : (solve_tool e g mo.name method guess adj ma ga p).exc = none) :
    ∃ me x y guess', method = Method.name me ∧ guessECM e d (decide (mo.name = "ecm_exp")) guess = (.ok (x, y), guess') := by
  have hn : mo.name = "ecm" ∨ mo.name = "ecm_exp" := by rcases hmo with rfl | rfl <;> simp [UModel.name]
  have hn' : ¬ (mo.name = "cm" ∨ mo.name = "cm_exp") := by rcases hmo with rfl | rfl <;> simp [UModel.name]
  unfold solve_tool at h
  rw [if_pos (by tauto)] at h
  unfold solveProblem at h
  rw [if_neg hn', if_pos hn] at h
  rcases h0 : guessECM e d (decide (mo.name = "ecm_exp")) guess with ⟨err | ⟨x, y⟩, guess'⟩
  · rw [h0] at h; simp at h
  · rw [h0] at h
    cases hl : uLookup mo.name method with
    | none => simp [hl] at h
    | some v => exact ⟨v.2, x, y, guess', name_of_lookup (mo' := v.1) hl (by rcases hmo with rfl | rfl <;> simp), rfl⟩

theorem solve_tool_ok_cm (e : Env) (g : UAttr d) (method : String) (guess : Guess n) (adj : AdjSpec n)
    (ma : String) (ga : Guess n) (p : Params) (h : (solve_tool e g "cm" method guess adj ma ga p).exc = none) :
    ∃ me x0 s, method = Method.name me ∧ guessCM e d false guess = .ok x0 ∧ solver (cbCM e d me) (p.opts method) x0 = .ok s ∧
      let G : UAttr d := setSolvedCM { g with last_model := some "cm", full_return := p.full_return, args := some .cm, step_fun := some .cm, fun_pmatrix := true } false s
      solve_tool e g "cm" method guess adj ma ga p = ⟨(solutionError e G).1, none, guess, ga⟩ := by
  obtain ⟨me, x0, rfl, h0⟩ := solve_tool_cm_args e g .cm (.inl rfl) method guess adj ma ga p h
  refine ⟨me, x0, ?_⟩
  have he := solve_tool_cm e g me guess adj ma ga p h0
  simp only at he
  rw [he] at h ⊢
  cases hs : solver (cbCM e d me) (p.opts me.name) x0 with
  | error x => rw [hs] at h; simp at h
  | ok s => rw [hs] at h; exact ⟨s, rfl, h0, rfl, mkres e _ guess ga h⟩

theorem solve_tool_ok_cm_exp (e : Env) (g : UAttr d) (method : String) (guess : Guess n) (adj : AdjSpec n)
    (ma : String) (ga : Guess n) (p : Params) (h : (solve_tool e g "cm_exp" method guess adj ma ga p).exc = none) :
    ∃ me x0 s, method = Method.name me ∧ guessCM e d true guess = .ok x0 ∧ solver (cbCMexp e d me) (p.opts method) x0 = .ok s ∧
      let G : UAttr d := setSolvedCM { g with last_model := some "cm_exp", full_return := p.full_return, args := some .cm, step_fun := some .cm_exp, fun_pmatrix := true } true s
      solve_tool e g "cm_exp" method guess adj ma ga p = ⟨(solutionError e G).1, none, guess, ga⟩ := by
  obtain ⟨me, x0, rfl, h0⟩ := solve_tool_cm_args e g .cm_exp (.inr rfl) method guess adj ma ga p h
  refine ⟨me, x0, ?_⟩
  have he := solve_tool_cm_exp e g me guess adj ma ga p h0
  simp only at he
  rw [he] at h ⊢
  cases hs : solver (cbCMexp e d me) (p.opts me.name) x0 with
  | error x => rw [hs] at h; simp at h
  | ok s => rw [hs] at h; exact ⟨s, rfl, h0, rfl, mkres e _ guess ga h⟩

theorem solve_tool_ok_ecm (e : Env) (g : UAttr d) (method : String) (guess : Guess n) (adj : AdjSpec n)
    (ma : String) (ga : Guess n) (p : Params) (h : (solve_tool e g "ecm" method guess adj ma ga p).exc = none) :
    ∃ me x y guess' s, method = Method.name me ∧ guessECM e d false guess = (.ok (x, y), guess') ∧ solver (cbECM e d me) (p.opts method) (cat2 x y) = .ok s ∧
      let G : UAttr d := setSolvedECM { g with last_model := some "ecm", full_return := p.full_return, x := some x, y := some y, args := some .ecm,
                                               step_fun := some .ecm } false s
      solve_tool e g "ecm" method guess adj ma ga p = ⟨(solutionError e G).1, none, guess', ga⟩ := by
  obtain ⟨me, x, y, guess', rfl, h0⟩ := solve_tool_ecm_args e g .ecm (.inl rfl) method guess adj ma ga p h
  refine ⟨me, x, y, guess', ?_⟩
  have he := solve_tool_ecm e g me guess adj ma ga p h0
  simp only at he
  rw [he] at h ⊢
  cases hs : solver (cbECM e d me) (p.opts me.name) (cat2 x y) with
  | error x => rw [hs] at h; simp at h
  | ok s => rw [hs] at h; exact ⟨s, rfl, h0, rfl, mkres e _ guess' ga h⟩

theorem solve_tool_ok_ecm_exp (e : Env) (g : UAttr d) (method : String) (guess : Guess n) (adj : AdjSpec n)
    (ma : String) (ga : Guess n) (p : Params) (h : (solve_tool e g "ecm_exp" method guess adj ma ga p).exc = none) :
    ∃ me x y guess' s, method = Method.name me ∧ guessECM e d true guess = (.ok (x, y), guess') ∧ solver (cbECMexp e d me) (p.opts method) (cat2 x y) = .ok s ∧
      let G : UAttr d := setSolvedECM { g with last_model := some "ecm_exp", full_return := p.full_return, x := some x, y := some y, args := some .ecm,
                                               step_fun := some .ecm_exp } true s
      solve_tool e g "ecm_exp" method guess adj ma ga p = ⟨(solutionError e G).1, none, guess', ga⟩ := by
  obtain ⟨me, x, y, guess', rfl, h0⟩ := solve_tool_ecm_args e g .ecm_exp (.inr rfl) method guess adj ma ga p h
  refine ⟨me, x, y, guess', ?_⟩
  have he := solve_tool_ecm_exp e g me guess adj ma ga p h0
  simp only at he
  rw [he] at h ⊢
  cases hs : solver (cbECMexp e d me) (p.opts me.name) (cat2 x y) with
  | error x => rw [hs] at h; simp at h
  | ok s => rw [hs] at h; exact ⟨s, rfl, h0, rfl, mkres e _ guess' ga h⟩

/-! ### C37: the reported error -/

theorem maxAbs_isMax {ι : Type} [Fintype ι] [Nonempty ι] (f : ι → ℝ) : IsMaxAbs (maxAbs f) f := by
  constructor
  · intro i; exact le_sup' (fun i => |f i|) (mem_univ i)
  · obtain ⟨i, -, hi⟩ := exists_mem_eq_sup' univ_nonempty fun i => |f i|
    exact ⟨i, hi.symm⟩

theorem isMaxAbs_sum {ι κ : Type} {f : ι → ℝ} {g : κ → ℝ} {a b : ℝ} (hf : IsMaxAbs a f) (hg : IsMaxAbs b g) : IsMaxAbs (max b a) (Sum.elim f g) := by
  constructor
  · rintro (i | i)
    · exact (hf.1 i).trans (le_max_right _ _)
    · exact (hg.1 i).trans (le_max_left _ _)
  · rcases le_total a b with h | h
    · obtain ⟨i, hi⟩ := hg.2
      exact ⟨.inr i, by rw [max_eq_left h]; exact hi⟩
    · obtain ⟨i, hi⟩ := hf.2
      exact ⟨.inl i, by rw [max_eq_right h]; exact hi⟩

/-- the error report of the UECM -/
theorem error_ecm (e : Env) (G : UAttr d) (hn : G.last_model = some "ecm" ∨ G.last_model = some "ecm_exp") {x y : Fin n → ℝ} (hx : G.x = some x)
    (hy : G.y = some y) : ∃ E, (solutionError e G).1.x = some x ∧ (solutionError e G).1.y = some y ∧ (solutionError e G).1.error = some E ∧
      IsMaxAbs E (Sum.elim (fun i => degUECM x y i - d.dseq i) (fun i => strUECM x y i - d.strength_sequence i)) := by
  have hn' : ¬ (G.last_model = some "cm" ∨ G.last_model = some "cm_exp" ∨ G.last_model = some "crema" ∨ G.last_model = some "crema-sparse") := by
    rcases hn with h | h <;> simp [h]
  unfold solutionError
  rw [if_neg hn', if_pos hn]
  simp only [hx, hy]
  refine ⟨_, trivial, trivial, rfl, isMaxAbs_sum ?_ ?_⟩
  · simp only [deg_ecm_spec]
    exact maxAbs_isMax _
  · simp only [str_ecm_spec]
    exact maxAbs_isMax _

/-- C37 (ecm, ecm_exp): whenever the call returns, the reported error is the largest violation among all degrees and strengths, for every earlier history of
the object. -/
theorem C37_ecm (e : Env) (g : UAttr d) (mo : UModel) (hmo : mo = .ecm ∨ mo = .ecm_exp) (method : String) (guess : Guess n) (adj : AdjSpec n)
    (ma : String) (ga : Guess n) (p : Params) :
    let R := solve_tool e g mo.name method guess adj ma ga p
    R.exc = none → ∃ x y E, R.g.x = some x ∧ R.g.y = some y ∧ R.g.error = some E ∧
      IsMaxAbs E (Sum.elim (fun i => degUECM x y i - d.dseq i) (fun i => strUECM x y i - d.strength_sequence i)) := by
  intro R h
  rcases hmo with rfl | rfl
  · obtain ⟨me, x, y, guess', s, -, -, -, hG⟩ := solve_tool_ok_ecm e g method guess adj ma ga p h
    rw [show R = _ from hG]
    exact ⟨_, _, error_ecm e _ (.inl rfl) rfl rfl⟩
  · obtain ⟨me, x, y, guess', s, -, -, -, hG⟩ := solve_tool_ok_ecm_exp e g method guess adj ma ga p h
    rw [show R = _ from hG]
    exact ⟨_, _, error_ecm e _ (.inr rfl) rfl rfl⟩

theorem error_cm (e : Env) (G : UAttr d) (hn : G.last_model = some "cm" ∨ G.last_model = some "cm_exp") {x : Fin n → ℝ} (hx : G.x = some x)
    (hb : G.beta = none) : ∃ E, (solutionError e G).1.x = some x ∧ (solutionError e G).1.error = some E ∧ IsMaxAbs E (fun i => degUBCM x i - d.dseq i) := by
  unfold solutionError
  rw [if_pos (by tauto)]
  simp only [strengthError, degreeError, hx, hb]
  refine ⟨_, trivial, rfl, ?_⟩
  simp only [deg_spec]
  exact maxAbs_isMax _

/-- C37 (cm, cm_exp), on an object that has not solved CReMa -/
theorem C37_cm_partial (e : Env) (g : UAttr d) (hb : g.beta = none) (mo : UModel) (hmo : mo = .cm ∨ mo = .cm_exp) (method : String) (guess : Guess n)
    (adj : AdjSpec n) (ma : String) (ga : Guess n) (p : Params) :
    let R := solve_tool e g mo.name method guess adj ma ga p
    R.exc = none → ∃ x E, R.g.x = some x ∧ R.g.error = some E ∧ IsMaxAbs E (fun i => degUBCM x i - d.dseq i) := by
  intro R h
  rcases hmo with rfl | rfl
  · obtain ⟨me, x0, s, -, -, -, hG⟩ := solve_tool_ok_cm e g method guess adj ma ga p h
    rw [show R = _ from hG]
    exact ⟨_, error_cm e _ (.inl rfl) rfl hb⟩
  · obtain ⟨me, x0, s, -, -, -, hG⟩ := solve_tool_ok_cm_exp e g method guess adj ma ga p h
    rw [show R = _ from hG]
    exact ⟨_, error_cm e _ (.inr rfl) rfl hb⟩

/-- the error report of CReMa -/
theorem error_crema (e : Env) (G : UAttr d) (hn : G.last_model = some "crema") {a : Fin n → Fin n → ℝ} (hs : ∀ i j, a i j = a j i) (hd : ∀ i, a i i = 0)
    (hsp : G.is_sparse = false) (ha : G.adjacency_crema = some (.edges (triuEdges a))) {β : Fin n → ℝ} (hβ : G.beta = some β) :
    (G.adjacency_given = some true → ∃ E, (solutionError e G).1.error = some E ∧ IsMaxAbs E (fun i => strCReMa a β i - d.strength_sequence i)) ∧
    (∀ x, G.adjacency_given = some false → G.x = some x → ∃ E, (solutionError e G).1.error = some E ∧
      IsMaxAbs E (Sum.elim (fun i => degUBCM x i - d.dseq i) (fun i => strCReMa a β i - d.strength_sequence i))) := by
  have k := degreeError_keeps G
  obtain ⟨k1, k2, k3, k4, k5, k6, k7, k8, k9, k10, k11, k12⟩ := k
  have hst : IsMaxAbs (maxAbs fun i => CReMa.expected_strength_crema_undirected β (triuEdges a) i - d.strength_sequence i)
      (fun i => strCReMa a β i - d.strength_sequence i) := by
    simp only [str_crema_spec a hs hd]
    exact maxAbs_isMax _
  constructor
  · intro hg
    unfold solutionError
    rw [if_pos (by tauto)]
    unfold strengthError
    simp only [k3, hβ, k10, ha, k12, hsp, Bool.false_eq_true, if_false, k11, hg]
    exact ⟨_, rfl, hst⟩
  · intro x hg hx
    unfold solutionError
    rw [if_pos (by tauto)]
    unfold strengthError
    simp only [k3, hβ, k10, ha, k12, hsp, Bool.false_eq_true, if_false, k11, hg]
    simp only [degreeError, hx]
    refine ⟨_, rfl, isMaxAbs_sum ?_ hst⟩
    simp only [deg_spec]
    exact maxAbs_isMax _

/-- a call of CReMa on a matrix that raises no exception had an acceptable guess -/
theorem solve_tool_crema_args (e : Env) (g : UAttr d) (method : String) (guess : Guess n) (a : Fin n → Fin n → ℝ)
    (ma : String) (ga : Guess n) (p : Params) (h : (solve_tool e g "crema" method guess (.matrix a) ma ga p).exc = none) :
    ∃ b guess', guessCrema e d guess = (.ok b, guess') := by
  unfold solve_tool at h
  rw [if_neg (by decide), if_pos (by simp)] at h
  unfold solveProblemCrema solveCremaTail at h
  simp only [Bool.false_eq_true, if_false] at h
  rcases h0 : guessCrema e d guess with ⟨err | b, guess'⟩
  · rw [h0] at h; simp at h
  · exact ⟨b, guess', rfl⟩

/-- C37 (crema on a given symmetric matrix without self-loops): the reported error is the largest violation of the strengths. -/
theorem C37_crema_matrix (e : Env) (g : UAttr d) (me : Method) (guess : Guess n) (a : Fin n → Fin n → ℝ) (hs : ∀ i j, a i j = a j i) (hd : ∀ i, a i i = 0)
    (ma : String) (ga : Guess n) (p : Params) :
    let R := solve_tool e g "crema" me.name guess (.matrix a) ma ga p
    R.exc = none → ∃ β E, R.g.beta = some β ∧ R.g.error = some E ∧ IsMaxAbs E (fun i => strCReMa a β i - d.strength_sequence i) := by
  intro R h
  obtain ⟨b, guess', h0⟩ := solve_tool_crema_args e g me.name guess a ma ga p h
  have he := solve_tool_crema_matrix e g me guess a ma ga p h0
  simp only at he
  rw [show R = _ from he]
  rw [show R = _ from he] at h
  cases hsv : solver (cbCrema e d (triuEdges a) me) (p.opts me.name) b with
  | error x => rw [hsv] at h; simp at h
  | ok s =>
    obtain ⟨E, h1, h2⟩ := (error_crema e (setSolvedCrema { g with
      is_sparse := false, adjacency_crema := some (.edges (triuEdges a)), adjacency_given := some true,
      last_model := some "crema", full_return := p.full_return, beta := some b, args := some (.crema (.edges (triuEdges a))), step_fun := some .crema } s)
      rfl hs hd rfl rfl rfl).1 rfl
    exact ⟨s.x, E, (solutionError_keeps e _).2.2.1, h1, h2⟩

/-- a failure of the binary problem is a failure of CReMa -/
theorem solve_tool_crema_inner (e : Env) (g : UAttr d) (model method : String) (hmodel : model = "crema" ∨ model = "crema-sparse") (guess : Guess n)
    (ma : Method) (ga : Guess n) (p : Params)
    (h : (solve_tool e g model method guess (.name "cm_exp") ma.name ga p).exc = none) :
    ∃ x0 s b guess', guessCM e.inner d true ga = .ok x0 ∧ solver (cbCMexp e.inner d ma) (p.opts ma.name) x0 = .ok s ∧ guessCrema e d guess = (.ok b, guess') := by
  have hn' : ¬ (model = "cm" ∨ model = "cm_exp" ∨ model = "ecm" ∨ model = "ecm_exp") := by rcases hmodel with rfl | rfl <;> simp
  unfold solve_tool at h
  rw [if_neg hn', if_pos hmodel] at h
  unfold solveProblemCrema at h
  simp only at h
  cases h0 : guessCM e.inner d true ga with
  | error x =>
    exfalso
    revert h
    unfold solveProblem
    rw [if_pos (by simp), show guessCM e.inner d (decide ("cm_exp" = "cm_exp")) ga = .error x from h0]
    simp
  | ok x0 =>
    rw [solveProblem_cm_exp e.inner _ ma ga p h0] at h
    cases hs : solver (cbCMexp e.inner d ma) (p.opts ma.name) x0 with
    | error x => rw [hs] at h; simp at h
    | ok s =>
      rw [hs] at h
      refine ⟨x0, s, ?_⟩
      rcases h0 : guessCrema e d guess with ⟨err | b, guess'⟩
      · exfalso
        revert h
        simp only [setSolvedCM, solveCremaTail, h0]
        by_cases hm : model = "crema-sparse" <;> simp [hm]
      · exact ⟨b, guess', rfl, hs, rfl⟩

/-- C37 (crema with the default `adjacency="cm_exp"`): the reported error is the largest violation among all degrees (of the binary problem) and strengths. -/
theorem C37_crema (e : Env) (g : UAttr d) (me ma : Method) (guess ga : Guess n) (p : Params) :
    let R := solve_tool e g "crema" me.name guess (.name "cm_exp") ma.name ga p
    R.exc = none → ∃ x β E, R.g.x = some x ∧ R.g.beta = some β ∧ R.g.error = some E ∧
      IsMaxAbs E (Sum.elim (fun i => degUBCM x i - d.dseq i) (fun i => strCReMa (linkMatrix x) β i - d.strength_sequence i)) := by
  intro R h
  obtain ⟨x0, t, b, guess', hθ, ht, h0⟩ := solve_tool_crema_inner e g "crema" me.name (.inl rfl) guess ma ga p h
  have he := solve_tool_crema_cm_exp e g me ma guess ga p hθ ht h0
  simp only [pmatrix_spec] at he
  rw [show R = _ from he]
  rw [show R = _ from he] at h
  set x : Fin n → ℝ := fun i => Real.exp (-t.x (d.inv i)) with hx
  cases hsv : solver (cbCrema e d (triuEdges (linkMatrix x)) me) (p.opts me.name) b with
  | error y => rw [hsv] at h; simp at h
  | ok s =>
    simp only
    have k := fun g' : UAttr d => solutionError_keeps e g'
    refine ⟨x, s.x, ?_⟩
    obtain ⟨E, h1, h2⟩ := (error_crema e (setSolvedCrema { setSolvedCM (d := d) { g with is_sparse := false, last_model := some "cm_exp", full_return := p.full_return, args := some .cm, step_fun := some .cm_exp, fun_pmatrix := true } true t with
      is_sparse := false, adjacency_crema := some (.edges (triuEdges (linkMatrix x))), adjacency_given := some false,
      last_model := some "crema", full_return := p.full_return, beta := some b, args := some (.crema (.edges (triuEdges (linkMatrix x)))), step_fun := some .crema } s)
      rfl (linkMatrix_symm x) (linkMatrix_diag x) rfl rfl rfl).2 x rfl rfl
    exact ⟨E, (k _).1, (k _).2.2.1, h1, h2⟩

end Verif.Solve
