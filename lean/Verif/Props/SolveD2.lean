import Verif.Props.SolveD

/-! C37 for `DirectedGraph.solve_tool`: the reported error. -/

namespace Verif.Solve

open Verif Finset Reduction Solver Spec

open Classical in
attribute [local instance 0] propDecidable

variable {n : ℕ} [NeZero n] {d : DData n}

/-! ### what a call that raises no exception has done -/

theorem mkresD (G : DAttr d) (guess ga : DGuess n) (h : (solutionErrorD G).2 = none) :
    (⟨(solutionErrorD G).1, (solutionErrorD G).2, guess, ga⟩ : DResult d) = ⟨(solutionErrorD G).1, none, guess, ga⟩ := by rw [h]

theorem name_of_dLookup {mo mo' : DModel} {me : Method} {method : String} (h : dLookup mo.name method = some (mo', me)) (hmo : mo ≠ .crema) :
    method = me.name := by
  rcases dLookup_some h with ⟨-, h2⟩ | ⟨h1, -⟩
  · exact h2
  · exact absurd h1 hmo

/-- a binary problem that raises no exception had an acceptable guess and a documented method -/
theorem solveProblemD_dcm_args (e : Env) (g : DAttr d) (mo : DModel) (hmo : mo = .dcm ∨ mo = .dcm_exp) (method : String) (guess : DGuess n) (p : Params)
    (h : (solveProblemD e g mo.name method guess p).2.1 = none) :
    ∃ me x0, method = Method.name me ∧ guessDCM e d (decide (mo.name = "dcm_exp")) guess = .ok x0 := by
  have hn : mo.name = "dcm" ∨ mo.name = "dcm_exp" := by rcases hmo with rfl | rfl <;> simp [DModel.name]
  unfold solveProblemD at h
  rw [if_pos hn] at h
  cases h0 : guessDCM e d (decide (mo.name = "dcm_exp")) guess with
  | error x => rw [h0] at h; simp at h
  | ok x0 =>
    rw [h0] at h
    cases hl : dLookup mo.name method with
    | none => simp [hl] at h
    | some v => exact ⟨v.2, x0, name_of_dLookup (mo' := v.1) hl (by rcases hmo with rfl | rfl <;> simp), rfl⟩

theorem solveProblemD_decm_args (e : Env) (g : DAttr d) (mo : DModel) (hmo : mo = .decm ∨ mo = .decm_exp) (method : String) (guess : DGuess n) (p : Params)
    (h : (solveProblemD e g mo.name method guess p).2.1 = none) :
    ∃ me v guess', method = Method.name me ∧ guessDECM e d (decide (mo.name = "decm_exp")) guess = (.ok v, guess') := by
  have hn : mo.name = "decm" ∨ mo.name = "decm_exp" := by rcases hmo with rfl | rfl <;> simp [DModel.name]
  have hn' : ¬ (mo.name = "dcm" ∨ mo.name = "dcm_exp") := by rcases hmo with rfl | rfl <;> simp [DModel.name]
  unfold solveProblemD at h
  rw [if_neg hn', if_pos hn] at h
  rcases h0 : guessDECM e d (decide (mo.name = "decm_exp")) guess with ⟨err | v, guess'⟩
  · rw [h0] at h; simp at h
  · rw [h0] at h
    cases hl : dLookup mo.name method with
    | none => simp [hl] at h
    | some w => exact ⟨w.2, v, guess', name_of_dLookup (mo' := w.1) hl (by rcases hmo with rfl | rfl <;> simp), rfl⟩

/-- if the call raises no exception neither has the problem -/
theorem solve_tool_plain_none (e : Env) (g : DAttr d) (model method : String) (hm : model = "dcm" ∨ model = "dcm_exp" ∨ model = "decm" ∨ model = "decm_exp")
    (guess : DGuess n) (adj : AdjSpec n) (ma : String) (ga : DGuess n) (p : Params) (h : (solve_tool_directed e g model method guess adj ma ga p).exc = none) :
    (solveProblemD e g model method guess p).2.1 = none := by
  rw [solve_tool_plain e g _ _ hm] at h
  rcases h0 : solveProblemD e g model method guess p with ⟨g1, _ | x, guess'⟩
  · rfl
  · rw [h0] at h; simp at h

theorem solve_tool_ok_dcm (e : Env) (g : DAttr d) (method : String) (guess : DGuess n) (adj : AdjSpec n)
    (ma : String) (ga : DGuess n) (p : Params) (h : (solve_tool_directed e g "dcm" method guess adj ma ga p).exc = none) :
    ∃ me x0 s, method = Method.name me ∧ guessDCM e d false guess = .ok x0 ∧ solver (cbDCM e d me) (p.opts method) x0 = .ok s ∧
      let G := setSolvedDCM (preDCM g .dcm p) false s
      solve_tool_directed e g "dcm" method guess adj ma ga p = ⟨(solutionErrorD G).1, none, guess, ga⟩ ∧ (solutionErrorD G).2 = none := by
  obtain ⟨me, x0, rfl, h0⟩ := solveProblemD_dcm_args e g .dcm (.inl rfl) method guess p (solve_tool_plain_none e g _ _ (by simp [DModel.name]) guess adj ma ga p h)
  refine ⟨me, x0, ?_⟩
  have he := solve_tool_dcm e g me guess adj ma ga p h0
  rw [he] at h ⊢
  cases hs : solver (cbDCM e d me) (p.opts me.name) x0 with
  | error x => rw [hs] at h; simp at h
  | ok s => rw [hs] at h; exact ⟨s, rfl, h0, rfl, mkresD _ guess ga h, h⟩

theorem solve_tool_ok_dcm_exp (e : Env) (g : DAttr d) (method : String) (guess : DGuess n) (adj : AdjSpec n)
    (ma : String) (ga : DGuess n) (p : Params) (h : (solve_tool_directed e g "dcm_exp" method guess adj ma ga p).exc = none) :
    ∃ me x0 s, method = Method.name me ∧ guessDCM e d true guess = .ok x0 ∧ solver (cbDCMexp e d me) (p.opts method) x0 = .ok s ∧
      let G := setSolvedDCM (preDCM g .dcm_exp p) true s
      solve_tool_directed e g "dcm_exp" method guess adj ma ga p = ⟨(solutionErrorD G).1, none, guess, ga⟩ ∧ (solutionErrorD G).2 = none := by
  obtain ⟨me, x0, rfl, h0⟩ := solveProblemD_dcm_args e g .dcm_exp (.inr rfl) method guess p
    (solve_tool_plain_none e g _ _ (by simp [DModel.name]) guess adj ma ga p h)
  refine ⟨me, x0, ?_⟩
  have he := solve_tool_dcm_exp e g me guess adj ma ga p h0
  rw [he] at h ⊢
  cases hs : solver (cbDCMexp e d me) (p.opts me.name) x0 with
  | error x => rw [hs] at h; simp at h
  | ok s => rw [hs] at h; exact ⟨s, rfl, h0, rfl, mkresD _ guess ga h, h⟩

theorem solve_tool_ok_decm (e : Env) (g : DAttr d) (method : String) (guess : DGuess n) (adj : AdjSpec n)
    (ma : String) (ga : DGuess n) (p : Params) (h : (solve_tool_directed e g "decm" method guess adj ma ga p).exc = none) :
    ∃ me v guess' s, method = Method.name me ∧ guessDECM e d false guess = (.ok v, guess') ∧ solver (cbDECM e d me) (p.opts method) v = .ok s ∧
      let G := setSolvedDECM (preDECM g .decm v p) false s
      solve_tool_directed e g "decm" method guess adj ma ga p = ⟨(solutionErrorD G).1, none, guess', ga⟩ := by
  obtain ⟨me, v, guess', rfl, h0⟩ := solveProblemD_decm_args e g .decm (.inl rfl) method guess p
    (solve_tool_plain_none e g _ _ (by simp [DModel.name]) guess adj ma ga p h)
  refine ⟨me, v, guess', ?_⟩
  have he := solve_tool_decm e g me guess adj ma ga p h0
  rw [he] at h ⊢
  cases hs : solver (cbDECM e d me) (p.opts me.name) v with
  | error x => rw [hs] at h; simp at h
  | ok s => rw [hs] at h; exact ⟨s, rfl, h0, rfl, mkresD _ guess' ga h⟩

theorem solve_tool_ok_decm_exp (e : Env) (g : DAttr d) (method : String) (guess : DGuess n) (adj : AdjSpec n)
    (ma : String) (ga : DGuess n) (p : Params) (h : (solve_tool_directed e g "decm_exp" method guess adj ma ga p).exc = none) :
    ∃ me v guess' s, method = Method.name me ∧ guessDECM e d true guess = (.ok v, guess') ∧ solver (cbDECMexp e d me) (p.opts method) v = .ok s ∧
      let G := setSolvedDECM (preDECM g .decm_exp v p) true s
      solve_tool_directed e g "decm_exp" method guess adj ma ga p = ⟨(solutionErrorD G).1, none, guess', ga⟩ := by
  obtain ⟨me, v, guess', rfl, h0⟩ := solveProblemD_decm_args e g .decm_exp (.inr rfl) method guess p
    (solve_tool_plain_none e g _ _ (by simp [DModel.name]) guess adj ma ga p h)
  refine ⟨me, v, guess', ?_⟩
  have he := solve_tool_decm_exp e g me guess adj ma ga p h0
  rw [he] at h ⊢
  cases hs : solver (cbDECMexp e d me) (p.opts me.name) v with
  | error x => rw [hs] at h; simp at h
  | ok s => rw [hs] at h; exact ⟨s, rfl, h0, rfl, mkresD _ guess' ga h⟩

/-! ### the error report -/

/-- the largest violation among the entries of two arrays of one length -/
theorem isMaxAbs_cat2 {m : ℕ} {f g : Fin m → ℝ} {E : ℝ} {h : Fin 2 × Fin m → ℝ} (hf : ∀ i, h (0, i) = f i) (hg : ∀ i, h (1, i) = g i) (hE : IsMaxAbs E h) :
    IsMaxAbs E (Sum.elim f g) := by
  constructor
  · rintro (i | i)
    · rw [Sum.elim_inl, ← hf]; exact hE.1 _
    · rw [Sum.elim_inr, ← hg]; exact hE.1 _
  · obtain ⟨⟨b, i⟩, hi⟩ := hE.2
    fin_cases b
    · exact ⟨.inl i, by rw [Sum.elim_inl, ← hf]; exact hi⟩
    · exact ⟨.inr i, by rw [Sum.elim_inr, ← hg]; exact hi⟩

theorem isMaxAbs_degrees (d : DData n) (x y : Fin n → ℝ) :
    IsMaxAbs (maxAbs fun v => cat2 (DCM.expected_out_degree_dcm (cat2 x y)) (DCM.expected_in_degree_dcm (cat2 x y)) v - cat2 d.degOut d.degIn v)
      (Sum.elim (fun i => outDBCM x y i - d.dseq_out i) fun i => inDBCM x y i - d.dseq_in i) := by
  refine isMaxAbs_cat2 (fun i => ?_) (fun i => ?_) (maxAbs_isMax _)
  · rw [← out_spec]; rfl
  · rw [← in_spec]; rfl

theorem isMaxAbs_strengths (d : DData n) (a : Fin n → Fin n → ℝ) (bo bi : Fin n → ℝ) :
    IsMaxAbs (maxAbs fun v => cat2 (DCReMa.expected_out_strength_crema_directed (cat2 bo bi) (nzEdges a))
      (DCReMa.expected_in_strength_crema_directed (cat2 bo bi) (nzEdges a)) v - cat2 d.out_strength d.in_strength v)
      (Sum.elim (fun i => outStrCReMa a bo bi i - d.out_strength i) fun i => inStrCReMa a bo bi i - d.in_strength i) := by
  refine isMaxAbs_cat2 (fun i => ?_) (fun i => ?_) (maxAbs_isMax _)
  · rw [← (str_dcrema_spec a bo bi i).1]; rfl
  · rw [← (str_dcrema_spec a bo bi i).2]; rfl

theorem error_dcm (G : DAttr d) (hn : G.last_model = some "dcm" ∨ G.last_model = some "dcm_exp") {x y : Fin n → ℝ} (hx : G.x = some x) (hy : G.y = some y)
    (hb : G.b_out = none ∨ G.b_in = none) : (solutionErrorD G).2 = none ∧ ∃ E, (solutionErrorD G).1.error = some E ∧
      IsMaxAbs E (Sum.elim (fun i => outDBCM x y i - d.dseq_out i) fun i => inDBCM x y i - d.dseq_in i) := by
  unfold solutionErrorD
  rw [if_pos (by tauto)]
  have hd : degreeErrorD G = { G with
      expected_dseq := some (cat2 (DCM.expected_out_degree_dcm (cat2 x y)) (DCM.expected_in_degree_dcm (cat2 x y)))
      error_degree := some (maxAbs fun v => cat2 (DCM.expected_out_degree_dcm (cat2 x y)) (DCM.expected_in_degree_dcm (cat2 x y)) v - cat2 d.degOut d.degIn v)
      relative_error_degree := some (maxAbs fun v => (cat2 (DCM.expected_out_degree_dcm (cat2 x y)) (DCM.expected_in_degree_dcm (cat2 x y)) v - cat2 d.degOut d.degIn v) / (cat2 d.degOut d.degIn v + Real.exp (-100)))
      error := some (maxAbs fun v => cat2 (DCM.expected_out_degree_dcm (cat2 x y)) (DCM.expected_in_degree_dcm (cat2 x y)) v - cat2 d.degOut d.degIn v) } := by
    simp only [degreeErrorD, hx, hy]
  rw [hd]
  unfold strengthErrorD
  simp only
  rcases hb with hb | hb
  · rw [hb]
    exact ⟨rfl, _, rfl, isMaxAbs_degrees d x y⟩
  · rw [hb]
    split
    · rename_i h; simp at h
    · exact ⟨rfl, _, rfl, isMaxAbs_degrees d x y⟩

/-- C37 (dcm, dcm_exp), on an object that has not solved CReMa or the DECM: such a call can only fail in the problem itself, and the reported error is the
largest violation of the out- and in-degrees. -/
theorem C37_dcm_partial (e : Env) (g : DAttr d) (hb : g.b_out = none ∨ g.b_in = none) (mo : DModel) (hmo : mo = .dcm ∨ mo = .dcm_exp) (method : String)
    (guess : DGuess n) (adj : AdjSpec n) (ma : String) (ga : DGuess n) (p : Params) :
    let R := solve_tool_directed e g mo.name method guess adj ma ga p
    R.exc = none → ∃ x y E, R.g.x = some x ∧ R.g.y = some y ∧ R.g.error = some E ∧
      IsMaxAbs E (Sum.elim (fun i => outDBCM x y i - d.dseq_out i) fun i => inDBCM x y i - d.dseq_in i) := by
  intro R h
  rcases hmo with rfl | rfl
  · obtain ⟨me, x0, s, -, -, -, hG, -⟩ := solve_tool_ok_dcm e g method guess adj ma ga p h
    rw [show R = _ from hG]
    obtain ⟨-, E, h1, h2⟩ := error_dcm (setSolvedDCM (preDCM g .dcm p) false s) (.inl rfl) rfl rfl hb
    exact ⟨_, _, E, keepsD DAttr.x (fun _ => rfl) _, keepsD DAttr.y (fun _ => rfl) _, h1, h2⟩
  · obtain ⟨me, x0, s, -, -, -, hG, -⟩ := solve_tool_ok_dcm_exp e g method guess adj ma ga p h
    rw [show R = _ from hG]
    obtain ⟨-, E, h1, h2⟩ := error_dcm (setSolvedDCM (preDCM g .dcm_exp p) true s) (.inr rfl) rfl rfl hb
    exact ⟨_, _, E, keepsD DAttr.x (fun _ => rfl) _, keepsD DAttr.y (fun _ => rfl) _, h1, h2⟩

/-- the four blocks of violations of the DECM -/
noncomputable def violDECM (d : DData n) (x y bo bi : Fin n → ℝ) : (Fin n ⊕ Fin n) ⊕ (Fin n ⊕ Fin n) → ℝ :=
  Sum.elim (Sum.elim (fun i => outDegDECM x y bo bi i - d.dseq_out i) fun i => inDegDECM x y bo bi i - d.dseq_in i)
    (Sum.elim (fun i => outStrDECM x y bo bi i - d.out_strength i) fun i => inStrDECM x y bo bi i - d.in_strength i)

theorem error_decm (G : DAttr d) (hn : G.last_model = some "decm" ∨ G.last_model = some "decm_exp") {x y bo bi : Fin n → ℝ} (hx : G.x = some x)
    (hy : G.y = some y) (hbo : G.b_out = some bo) (hbi : G.b_in = some bi)
    (hx0 : ∀ i, 0 ≤ x i) (hy0 : ∀ i, 0 ≤ y i) (hbo0 : ∀ i, 0 ≤ bo i) (hbi0 : ∀ i, 0 ≤ bi i) (hlt : ∀ i j, i ≠ j → bo i * bi j < 1) :
    ∃ E ED ES, (solutionErrorD G).1.error = some E ∧ (solutionErrorD G).1.error_degree = some ED ∧ (solutionErrorD G).1.error_strength = some ES ∧
      IsMaxAbs E (violDECM d x y bo bi) ∧ IsMaxAbs ED (fun i => violDECM d x y bo bi (.inl i)) ∧ IsMaxAbs ES (fun i => violDECM d x y bo bi (.inr i)) := by
  have hn' : ¬ (G.last_model = some "dcm" ∨ G.last_model = some "dcm_exp" ∨ G.last_model = some "crema" ∨ G.last_model = some "crema-sparse") := by
    rcases hn with h | h <;> simp [h]
  unfold solutionErrorD
  rw [if_neg hn', if_pos hn]
  simp only [hx, hy, hbo, hbi]
  refine ⟨_, _, _, rfl, rfl, rfl, ?_⟩
  set sol : Fin 4 × Fin n → ℝ := fun v => if v.1 = 0 then x v.2 else if v.1 = 1 then y v.2 else if v.1 = 2 then bo v.2 else bi v.2 with hsol
  have e0 : blk4 sol 0 = x := by funext i; simp [blk4, hsol]
  have e1 : blk4 sol 1 = y := by funext i; simp [blk4, hsol]
  have e2 : blk4 sol 2 = bo := by funext i; simp [blk4, hsol]
  have e3 : blk4 sol 3 = bi := by funext i; simp [blk4, hsol]
  have hs0 : ∀ w, 0 ≤ sol w := by
    rintro ⟨b, i⟩
    fin_cases b
    · simpa [hsol] using hx0 i
    · simpa [hsol] using hy0 i
    · simpa [hsol] using hbo0 i
    · simpa [hsol] using hbi0 i
  have key := fun i => expected_decm_spec sol hs0 (fun i j hij => by simpa [hsol] using hlt i j hij) i
  rw [e0, e1, e2, e3] at key
  have hm := maxAbs_isMax fun v => DECM.expected_decm sol v - d.obs v
  have q0 : ∀ i, violDECM d x y bo bi (.inl (.inl i)) = DECM.expected_decm sol (0, i) - d.obs (0, i) := fun i => by rw [(key i).1]; rfl
  have q1 : ∀ i, violDECM d x y bo bi (.inl (.inr i)) = DECM.expected_decm sol (1, i) - d.obs (1, i) := fun i => by rw [(key i).2.1]; rfl
  have q2 : ∀ i, violDECM d x y bo bi (.inr (.inl i)) = DECM.expected_decm sol (2, i) - d.obs (2, i) := fun i => by rw [(key i).2.2.1]; rfl
  have q3 : ∀ i, violDECM d x y bo bi (.inr (.inr i)) = DECM.expected_decm sol (3, i) - d.obs (3, i) := fun i => by rw [(key i).2.2.2]; rfl
  have flip : ∀ {f g : Fin n → ℝ}, IsMaxAbs (maxAbs fun i => g i - f i) fun i => f i - g i := fun {f g} => by
    have := maxAbs_isMax fun i => g i - f i
    exact ⟨fun i => by rw [abs_sub_comm]; exact this.1 i, this.2.imp fun i h => by rw [abs_sub_comm]; exact h⟩
  have elim : ∀ (f : Fin n ⊕ Fin n → ℝ) {a b : ℝ}, IsMaxAbs a (fun i => f (.inl i)) → IsMaxAbs b (fun i => f (.inr i)) → IsMaxAbs (max a b) f :=
    fun f a b ha hb => by
      have := isMaxAbs_sum ha hb
      rw [max_comm, show Sum.elim (fun i => f (.inl i)) (fun i => f (.inr i)) = f from funext fun i => by cases i <;> rfl] at this
      exact this
  refine ⟨?_, elim _ (by simp only [q0]; exact flip) (by simp only [q1]; exact flip), elim _ (by simp only [q2]; exact flip) (by simp only [q3]; exact flip)⟩
  constructor
  · rintro ((i | i) | (i | i))
    · rw [q0]; exact hm.1 _
    · rw [q1]; exact hm.1 _
    · rw [q2]; exact hm.1 _
    · rw [q3]; exact hm.1 _
  · obtain ⟨⟨b, i⟩, hi⟩ := hm.2
    fin_cases b
    · exact ⟨.inl (.inl i), by rw [q0]; exact hi⟩
    · exact ⟨.inl (.inr i), by rw [q1]; exact hi⟩
    · exact ⟨.inr (.inl i), by rw [q2]; exact hi⟩
    · exact ⟨.inr (.inr i), by rw [q3]; exact hi⟩

/-- C37 (decm, decm_exp): whenever the call returns with parameters in the domain of the model, the reported error is the largest violation among all degrees and
strengths, `error_degree` the largest among the degrees and `error_strength` the largest among the strengths, for every earlier history of the object. -/
theorem C37_decm (e : Env) (g : DAttr d) (mo : DModel) (hmo : mo = .decm ∨ mo = .decm_exp) (method : String) (guess : DGuess n) (adj : AdjSpec n)
    (ma : String) (ga : DGuess n) (p : Params) :
    let R := solve_tool_directed e g mo.name method guess adj ma ga p
    R.exc = none → ∃ x y bo bi E ED ES, R.g.x = some x ∧ R.g.y = some y ∧ R.g.b_out = some bo ∧ R.g.b_in = some bi ∧ R.g.error = some E ∧
      R.g.error_degree = some ED ∧ R.g.error_strength = some ES ∧
      ((∀ i, 0 ≤ x i) → (∀ i, 0 ≤ y i) → (∀ i, 0 ≤ bo i) → (∀ i, 0 ≤ bi i) → (∀ i j, i ≠ j → bo i * bi j < 1) → IsMaxAbs E (violDECM d x y bo bi) ∧
        IsMaxAbs ED (fun i => violDECM d x y bo bi (.inl i)) ∧ IsMaxAbs ES (fun i => violDECM d x y bo bi (.inr i))) := by
  intro R h
  have key : ∀ (G : DAttr d), (G.last_model = some "decm" ∨ G.last_model = some "decm_exp") → ∀ x y bo bi : Fin n → ℝ, G.x = some x →
      G.y = some y → G.b_out = some bo → G.b_in = some bi → ∃ E ED ES, (solutionErrorD G).1.error = some E ∧ (solutionErrorD G).1.error_degree = some ED ∧
      (solutionErrorD G).1.error_strength = some ES ∧ ((∀ i, 0 ≤ x i) → (∀ i, 0 ≤ y i) →
      (∀ i, 0 ≤ bo i) → (∀ i, 0 ≤ bi i) → (∀ i j, i ≠ j → bo i * bi j < 1) → IsMaxAbs E (violDECM d x y bo bi) ∧
        IsMaxAbs ED (fun i => violDECM d x y bo bi (.inl i)) ∧ IsMaxAbs ES (fun i => violDECM d x y bo bi (.inr i))) := by
    intro G hn x y bo bi hx hy hbo hbi
    have hE : ∃ E ED ES, (solutionErrorD G).1.error = some E ∧ (solutionErrorD G).1.error_degree = some ED ∧ (solutionErrorD G).1.error_strength = some ES := by
      have hn' : ¬ (G.last_model = some "dcm" ∨ G.last_model = some "dcm_exp" ∨ G.last_model = some "crema" ∨ G.last_model = some "crema-sparse") := by
        rcases hn with h | h <;> simp [h]
      unfold solutionErrorD
      rw [if_neg hn', if_pos hn]
      simp only [hx, hy, hbo, hbi]
      exact ⟨_, _, _, rfl, rfl, rfl⟩
    obtain ⟨E, ED, ES, hE, hED, hES⟩ := hE
    refine ⟨E, ED, ES, hE, hED, hES, fun h1 h2 h3 h4 h5 => ?_⟩
    obtain ⟨E', ED', ES', hE', hED', hES', hm⟩ := error_decm G hn hx hy hbo hbi h1 h2 h3 h4 h5
    rw [hE] at hE'
    rw [hED] at hED'
    rw [hES] at hES'
    obtain rfl := Option.some.inj hE'
    obtain rfl := Option.some.inj hED'
    obtain rfl := Option.some.inj hES'
    exact hm
  rcases hmo with rfl | rfl
  · obtain ⟨me, v, guess', s, -, -, -, hG⟩ := solve_tool_ok_decm e g method guess adj ma ga p h
    rw [show R = _ from hG]
    obtain ⟨E, ED, ES, h1, hd1, hs1, h2⟩ := key (setSolvedDECM (preDECM g .decm v p) false s) (.inl rfl) _ _ _ _ rfl rfl rfl rfl
    exact ⟨_, _, _, _, E, ED, ES, keepsD DAttr.x (fun _ => rfl) _, keepsD DAttr.y (fun _ => rfl) _, keepsD DAttr.b_out (fun _ => rfl) _,
      keepsD DAttr.b_in (fun _ => rfl) _, h1, hd1, hs1, h2⟩
  · obtain ⟨me, v, guess', s, -, -, -, hG⟩ := solve_tool_ok_decm_exp e g method guess adj ma ga p h
    rw [show R = _ from hG]
    obtain ⟨E, ED, ES, h1, hd1, hs1, h2⟩ := key (setSolvedDECM (preDECM g .decm_exp v p) true s) (.inr rfl) _ _ _ _ rfl rfl rfl rfl
    exact ⟨_, _, _, _, E, ED, ES, keepsD DAttr.x (fun _ => rfl) _, keepsD DAttr.y (fun _ => rfl) _, keepsD DAttr.b_out (fun _ => rfl) _,
      keepsD DAttr.b_in (fun _ => rfl) _, h1, hd1, hs1, h2⟩

/-- the error report of the dense CReMa -/
theorem error_dcrema (G : DAttr d) (hn : G.last_model = some "crema") (a : Fin n → Fin n → ℝ) (hsp : G.is_sparse = false)
    (ha : G.adjacency_crema = some (.edges (nzEdges a))) {bo bi : Fin n → ℝ} (hbo : G.b_out = some bo) (hbi : G.b_in = some bi) :
    (G.adjacency_given = some true → (solutionErrorD G).2 = none ∧ ∃ E, (solutionErrorD G).1.error = some E ∧
      IsMaxAbs E (Sum.elim (fun i => outStrCReMa a bo bi i - d.out_strength i) fun i => inStrCReMa a bo bi i - d.in_strength i)) ∧
    (∀ x y, G.adjacency_given = some false → G.x = some x → G.y = some y → (solutionErrorD G).2 = none ∧ ∃ E, (solutionErrorD G).1.error = some E ∧
      IsMaxAbs E (Sum.elim (Sum.elim (fun i => outDBCM x y i - d.dseq_out i) fun i => inDBCM x y i - d.dseq_in i)
        (Sum.elim (fun i => outStrCReMa a bo bi i - d.out_strength i) fun i => inStrCReMa a bo bi i - d.in_strength i))) := by
  have hst := isMaxAbs_strengths d a bo bi
  have k : ∀ {α : Type} (f : DAttr d → α), (∀ g, f g.sol = f g) → f (degreeErrorD G) = f G := fun f hf => by rw [← hf, degreeErrorD_sol, hf]
  constructor
  · intro hg
    unfold solutionErrorD
    rw [if_pos (by tauto)]
    unfold strengthErrorD
    simp only [k DAttr.b_out (fun _ => rfl), hbo, k DAttr.b_in (fun _ => rfl), hbi, k DAttr.adjacency_crema (fun _ => rfl), ha,
      k DAttr.is_sparse (fun _ => rfl), hsp, k DAttr.adjacency_given (fun _ => rfl), hg]
    exact ⟨trivial, _, rfl, hst⟩
  · intro x y hg hx hy
    unfold solutionErrorD
    rw [if_pos (by tauto)]
    unfold strengthErrorD
    simp only [k DAttr.b_out (fun _ => rfl), hbo, k DAttr.b_in (fun _ => rfl), hbi, k DAttr.adjacency_crema (fun _ => rfl), ha,
      k DAttr.is_sparse (fun _ => rfl), hsp, k DAttr.adjacency_given (fun _ => rfl), hg]
    simp only [degreeErrorD, hx, hy]
    exact ⟨trivial, _, rfl, isMaxAbs_sum (isMaxAbs_degrees d x y) hst⟩

/-- a call of CReMa on a matrix that raises no exception had an acceptable guess -/
theorem solve_tool_dcrema_args (e : Env) (g : DAttr d) (method : String) (guess : DGuess n) (a : Fin n → Fin n → ℝ)
    (ma : String) (ga : DGuess n) (p : Params) (h : (solve_tool_directed e g "crema" method guess (.matrix a) ma ga p).exc = none) :
    ∃ bo bi guess', guessDCrema e d guess = (.ok (bo, bi), guess') := by
  rw [solve_tool_crema_names e g _ _ (by simp)] at h
  unfold solveProblemDCrema solveDCremaTail at h
  simp only [Bool.false_eq_true, if_false] at h
  rcases h0 : guessDCrema e d guess with ⟨err | b, guess'⟩
  · rw [h0] at h; simp at h
  · exact ⟨b.1, b.2, guess', rfl⟩

/-- C37 (directed crema on a given matrix): the reported error is the largest violation of the out- and in-strengths. -/
theorem C37_dcrema_matrix (e : Env) (g : DAttr d) (hz : d.nz_known = true) (me : Method) (guess : DGuess n) (a : Fin n → Fin n → ℝ)
    (ma : String) (ga : DGuess n) (p : Params) :
    let R := solve_tool_directed e g "crema" me.name guess (.matrix a) ma ga p
    R.exc = none → ∃ bo bi E, R.g.b_out = some bo ∧ R.g.b_in = some bi ∧ R.g.error = some E ∧
      IsMaxAbs E (Sum.elim (fun i => outStrCReMa a bo bi i - d.out_strength i) fun i => inStrCReMa a bo bi i - d.in_strength i) := by
  intro R h
  obtain ⟨bo, bi, guess', h0⟩ := solve_tool_dcrema_args e g me.name guess a ma ga p h
  have he := solve_tool_dcrema_matrix e g hz me guess a ma ga p h0
  simp only at he
  rw [show R = _ from he]
  rw [show R = _ from he] at h
  cases hsv : solver (cbDCrema e d (nzEdges a) me) (p.opts me.name) (cat2 bo bi) with
  | error x => rw [hsv] at h; simp at h
  | ok s =>
    obtain ⟨-, E, h1, h2⟩ := (error_dcrema (setSolvedDCrema (preDCrema (withAdj g (.edges (nzEdges a)) false true) .crema (.edges (nzEdges a)) bo bi p) s)
      rfl a rfl rfl rfl rfl).1 rfl
    exact ⟨_, _, E, keepsD DAttr.b_out (fun _ => rfl) _, keepsD DAttr.b_in (fun _ => rfl) _, h1, h2⟩

/-- a failure of the binary problem is a failure of CReMa -/
theorem solve_tool_dcrema_inner (e : Env) (g : DAttr d) (model method : String) (hmodel : model = "crema" ∨ model = "crema-sparse") (guess : DGuess n)
    (mo : DModel) (hmo : mo = .dcm ∨ mo = .dcm_exp) (ma : String) (ga : DGuess n) (p : Params)
    (h : (solve_tool_directed e g model method guess (.name mo.name) ma ga p).exc = none) :
    ∃ me x0 t bo bi guess', ma = Method.name me ∧ guessDCM e.inner d (mo = .dcm_exp) ga = .ok x0 ∧
      solver (if mo = .dcm_exp then cbDCMexp e.inner d me else cbDCM e.inner d me) ({ p with linsearch := true }.opts me.name) x0 = .ok t ∧
      guessDCrema e d guess = (.ok (bo, bi), guess') := by
  rw [solve_tool_crema_names e g _ _ hmodel] at h
  unfold solveProblemDCrema at h
  simp only at h
  set g0 : DAttr d := { g with is_sparse := decide (model = "crema-sparse") } with hg0
  have hin : (solveProblemD e.inner g0 mo.name ma ga { p with linsearch := true }).2.1 = none := by
    rcases hb : solveProblemD e.inner g0 mo.name ma ga { p with linsearch := true } with ⟨g1, _ | x, ga'⟩
    · rfl
    · rw [hb] at h; simp at h
  obtain ⟨me, x0, rfl, hx0⟩ := solveProblemD_dcm_args e.inner g0 mo hmo ma ga { p with linsearch := true } hin
  have hx0' : guessDCM e.inner d (mo = .dcm_exp) ga = .ok x0 := by
    rw [← hx0]; congr 1; rcases hmo with rfl | rfl <;> simp [DModel.name]
  have hrun : ∃ t, solver (if mo = .dcm_exp then cbDCMexp e.inner d me else cbDCM e.inner d me) ({ p with linsearch := true }.opts me.name) x0 = .ok t := by
    cases ht : solver (if mo = .dcm_exp then cbDCMexp e.inner d me else cbDCM e.inner d me) ({ p with linsearch := true }.opts me.name) x0 with
    | ok t => exact ⟨t, rfl⟩
    | error x =>
      exfalso
      rcases hmo with rfl | rfl
      · simp only [reduceCtorEq, decide_false, if_false] at ht hx0'
        rw [show DModel.dcm.name = "dcm" from rfl, solveProblemD_dcm e.inner g0 me ga _ hx0', ht] at hin
        simp at hin
      · simp only [decide_true, if_true] at ht hx0'
        rw [show DModel.dcm_exp.name = "dcm_exp" from rfl, solveProblemD_dcm_exp e.inner g0 me ga _ hx0', ht] at hin
        simp at hin
  obtain ⟨t, ht⟩ := hrun
  refine ⟨me, x0, t, ?_⟩
  have hrun := binary_run e.inner g0 mo hmo me ga { p with linsearch := true } hx0' ht
  rcases h0 : guessDCrema e d guess with ⟨err | b, guess'⟩
  · exfalso
    rw [hrun] at h
    revert h
    simp only [setSolvedDCM, preDCM, solveDCremaTail, h0, hg0]
    by_cases hm : model = "crema-sparse" <;> simp [hm]
  · exact ⟨b.1, b.2, guess', rfl, hx0', ht, rfl⟩

/-- C37 (directed crema, `adjacency="dcm"` or "dcm_exp"): the reported error is the largest violation among all degrees (of the binary problem) and strengths.
The strengths are those on the link probabilities the call has used, in which nodes of zero degree have no links. -/
theorem C37_dcrema (e : Env) (g : DAttr d) (hz : d.nz_known = true) (me : Method) (mo : DModel) (hmo : mo = .dcm ∨ mo = .dcm_exp) (ma : String)
    (guess ga : DGuess n) (p : Params) :
    let R := solve_tool_directed e g "crema" me.name guess (.name mo.name) ma ga p
    R.exc = none → ∃ x y bo bi E, R.g.x = some x ∧ R.g.y = some y ∧ R.g.b_out = some bo ∧ R.g.b_in = some bi ∧ R.g.error = some E ∧
      IsMaxAbs E (Sum.elim (Sum.elim (fun i => outDBCM x y i - d.dseq_out i) fun i => inDBCM x y i - d.dseq_in i)
        (Sum.elim (fun i => outStrCReMa (linkMatrixD (active d.degOut x) (active d.degIn y)) bo bi i - d.out_strength i)
          fun i => inStrCReMa (linkMatrixD (active d.degOut x) (active d.degIn y)) bo bi i - d.in_strength i)) := by
  intro R h
  obtain ⟨ma, x0, t, bo, bi, guess', rfl, hx0, ht, h0⟩ := solve_tool_dcrema_inner e g "crema" me.name (.inl rfl) guess mo hmo ma ga p h
  have hrun := binary_run e.inner { g with is_sparse := false } mo hmo ma ga { p with linsearch := true } hx0 ht
  have he := solve_tool_dcrema_named e g hz me guess mo.name ma.name ga ga p hrun rfl rfl rfl rfl h0
  simp only [pmat_spec] at he
  rw [show R = _ from he]
  rw [show R = _ from he] at h
  set x : Fin n → ℝ := if decide (mo = .dcm_exp) = true then fun i => Real.exp (-t.x (0, d.inv i)) else fun i => t.x (0, d.inv i) with hx
  set y : Fin n → ℝ := if decide (mo = .dcm_exp) = true then fun i => Real.exp (-t.x (1, d.inv i)) else fun i => t.x (1, d.inv i) with hy
  set a := linkMatrixD (active d.degOut x) (active d.degIn y) with ha
  cases hsv : solver (cbDCrema e d (nzEdges a) me) (p.opts me.name) (cat2 bo bi) with
  | error z => rw [hsv] at h; simp at h
  | ok s =>
    obtain ⟨-, E, h1, h2⟩ := (error_dcrema (setSolvedDCrema (preDCrema (withAdj (setSolvedDCM (preDCM { g with is_sparse := false } mo { p with linsearch := true })
      (mo = .dcm_exp) t) (.edges (nzEdges a)) false false) .crema (.edges (nzEdges a)) bo bi p) s) rfl a rfl rfl rfl rfl).2 x y rfl rfl rfl
    exact ⟨x, y, _, _, E, keepsD DAttr.x (fun _ => rfl) _, keepsD DAttr.y (fun _ => rfl) _, keepsD DAttr.b_out (fun _ => rfl) _,
      keepsD DAttr.b_in (fun _ => rfl) _, h1, h2⟩

end Verif.Solve
