import Verif.Spec.Reports
import Verif.Props.SolveU6
import Verif.Props.SolveD6
import Verif.Props.Guess2

/-! C54: the expected sequences and the errors that `solve_tool` leaves on the object. -/

namespace Verif.Solve

open Verif Finset Reduction Solver Spec CReMa DCReMa

open Classical in
attribute [local instance 0] propDecidable

variable {n : ℕ} [NeZero n]

theorem isMaxAbs_neg {ι : Type} {f g : ι → ℝ} {E : ℝ} (h : IsMaxAbs E f) (e : ∀ i, g i = -f i) : IsMaxAbs E g :=
  ⟨fun i => by rw [e, abs_neg]; exact h.1 i, h.2.imp fun i hi => by rw [e, abs_neg]; exact hi⟩

section undirected

variable {d : UData n} (e : Env)

/-- what `strengthError` leaves alone -/
theorem strengthError_degrees (g : UAttr d) : (strengthError e g).1.expected_dseq = g.expected_dseq ∧ (strengthError e g).1.error_degree = g.error_degree ∧
    (strengthError e g).1.relative_error_degree = g.relative_error_degree ∧ (strengthError e g).1.expected_strength_seq = g.expected_strength_seq := by
  unfold strengthError
  split
  · exact ⟨rfl, rfl, rfl, rfl⟩
  · split
    · exact ⟨rfl, rfl, rfl, rfl⟩
    · dsimp only
      split_ifs
      · split
        · exact ⟨rfl, rfl, rfl, rfl⟩
        · exact ⟨rfl, rfl, rfl, rfl⟩
        · split <;> exact ⟨rfl, rfl, rfl, rfl⟩
      · split
        · split
          · exact ⟨rfl, rfl, rfl, rfl⟩
          · exact ⟨rfl, rfl, rfl, rfl⟩
          · split <;> exact ⟨rfl, rfl, rfl, rfl⟩
        · exact ⟨rfl, rfl, rfl, rfl⟩

/-- the degrees in the report of cm, cm_exp and both CReMa -/
theorem report_degrees (G : UAttr d) (hn : G.last_model = some "cm" ∨ G.last_model = some "cm_exp" ∨ G.last_model = some "crema" ∨ G.last_model = some "crema-sparse") :
    (solutionError e G).1.expected_strength_seq = G.expected_strength_seq ∧
    ∀ x, G.x = some x → (solutionError e G).1.expected_dseq = some (degUBCM x) ∧ ∃ E r, (solutionError e G).1.error_degree = some E ∧
      (solutionError e G).1.relative_error_degree = some r ∧ Report (degUBCM x) (fun i => d.dseq i) E r := by
  unfold solutionError
  rw [if_pos hn]
  obtain ⟨h1, h2, h3, h4⟩ := strengthError_degrees e (degreeError G)
  rw [h1, h2, h3, h4]
  refine ⟨by unfold degreeError; split <;> rfl, fun x hx => ?_⟩
  simp only [degreeError, hx]
  have hs : CM.expected_degree_cm x = degUBCM x := funext fun i => deg_spec x i
  rw [hs]
  exact ⟨rfl, _, _, rfl, rfl, maxAbs_isMax _, maxAbs_isMax _⟩

/-- the strengths in the report of both CReMa -/
theorem report_strengths (G : UAttr d) (hn : G.last_model = some "cm" ∨ G.last_model = some "cm_exp" ∨ G.last_model = some "crema" ∨ G.last_model = some "crema-sparse")
    {β ex : Fin n → ℝ} (hβ : G.beta = some β) {adj : CremaAdj n} (ha : G.adjacency_crema = some adj)
    (hex : (G.is_sparse = true ∧ ex = CReMa.expected_strength_crema_undirected_sparse β (adj.asFitness e)) ∨
      G.is_sparse = false ∧ ∃ l, adj = .edges l ∧ ex = CReMa.expected_strength_crema_undirected β l) :
    (solutionError e G).1.expected_stregth_seq = some ex ∧ ∃ E r, (solutionError e G).1.error_strength = some E ∧
      (solutionError e G).1.relative_error_strength = some r ∧ Report ex d.strength_sequence E r := by
  obtain ⟨k1, k2, k3, k4, k5, k6, k7, k8, k9, k10, k11, k12⟩ := degreeError_keeps G
  unfold solutionError
  rw [if_pos hn]
  unfold strengthError
  rcases hex with ⟨hsp, rfl⟩ | ⟨hsp, l, rfl, rfl⟩
  · simp only [k3, hβ, k10, ha, k12, hsp, if_true, k11]
    split
    · exact ⟨rfl, _, _, rfl, rfl, maxAbs_isMax _, maxAbs_isMax _⟩
    · exact ⟨rfl, _, _, rfl, rfl, maxAbs_isMax _, maxAbs_isMax _⟩
    · split <;> exact ⟨rfl, _, _, rfl, rfl, maxAbs_isMax _, maxAbs_isMax _⟩
  · simp only [k3, hβ, k10, ha, k12, hsp, Bool.false_eq_true, if_false, k11]
    split
    · exact ⟨rfl, _, _, rfl, rfl, maxAbs_isMax _, maxAbs_isMax _⟩
    · exact ⟨rfl, _, _, rfl, rfl, maxAbs_isMax _, maxAbs_isMax _⟩
    · split <;> exact ⟨rfl, _, _, rfl, rfl, maxAbs_isMax _, maxAbs_isMax _⟩

/-- C54 (cm, cm_exp): whenever the call returns – also after CReMa, when `error` itself may be stale (C37) – the expected degrees and the two degree errors
belong to the solution. -/
theorem C54_cm (g : UAttr d) (mo : UModel) (hmo : mo = .cm ∨ mo = .cm_exp) (method : String) (guess : Guess n) (adj : AdjSpec n) (ma : String) (ga : Guess n) (p : Params) :
    let R := solve_tool e g mo.name method guess adj ma ga p
    R.exc = none → ∃ x E r, R.g.x = some x ∧ R.g.expected_dseq = some (degUBCM x) ∧ R.g.error_degree = some E ∧ R.g.relative_error_degree = some r ∧
      Report (degUBCM x) (fun i => d.dseq i) E r := by
  intro R h
  rcases hmo with rfl | rfl
  · obtain ⟨me, x0, s, -, -, -, hG⟩ := solve_tool_ok_cm e g method guess adj ma ga p h
    rw [show R = _ from hG]
    obtain ⟨h1, E, r, h2, h3, h4⟩ := (report_degrees e (setSolvedCM (d := d) { g with last_model := some "cm", full_return := p.full_return, args := some .cm, step_fun := some .cm, fun_pmatrix := true } false s) (.inl rfl)).2 _ rfl
    exact ⟨_, E, r, (solutionError_keeps e _).1, h1, h2, h3, h4⟩
  · obtain ⟨me, x0, s, -, -, -, hG⟩ := solve_tool_ok_cm_exp e g method guess adj ma ga p h
    rw [show R = _ from hG]
    obtain ⟨h1, E, r, h2, h3, h4⟩ := (report_degrees e (setSolvedCM (d := d) { g with last_model := some "cm_exp", full_return := p.full_return, args := some .cm, step_fun := some .cm_exp, fun_pmatrix := true } true s) (.inr (.inl rfl))).2 _ rfl
    exact ⟨_, E, r, (solutionError_keeps e _).1, h1, h2, h3, h4⟩

theorem report_ecm (G : UAttr d) (hn : G.last_model = some "ecm" ∨ G.last_model = some "ecm_exp") {x y : Fin n → ℝ} (hx : G.x = some x) (hy : G.y = some y) :
    (solutionError e G).1.expected_dseq = some (degUECM x y) ∧ (solutionError e G).1.expected_strength_seq = some (strUECM x y) ∧
    ∃ E r E' r', (solutionError e G).1.error_degree = some E ∧ (solutionError e G).1.relative_error_degree = some r ∧
      (solutionError e G).1.error_strength = some E' ∧ (solutionError e G).1.relative_error_strength = some r' ∧
      PlainReport (degUECM x y) (fun i => d.dseq i) E r ∧ PlainReport (strUECM x y) d.strength_sequence E' r' := by
  have hn' : ¬ (G.last_model = some "cm" ∨ G.last_model = some "cm_exp" ∨ G.last_model = some "crema" ∨ G.last_model = some "crema-sparse") := by
    rcases hn with h | h <;> simp [h]
  unfold solutionError
  rw [if_neg hn', if_pos hn]
  simp only [hx, hy, deg_ecm_spec, str_ecm_spec]
  refine ⟨rfl, rfl, _, _, _, _, rfl, rfl, rfl, rfl, ⟨maxAbs_isMax _, isMaxAbs_neg (maxAbs_isMax _) fun i => ?_⟩, maxAbs_isMax _, isMaxAbs_neg (maxAbs_isMax _) fun i => ?_⟩
  · rw [← neg_div, neg_sub]; rfl
  · rw [← neg_div, neg_sub]; rfl

/-- C54 (ecm, ecm_exp).  With a zero degree or strength the relative errors are quotients by zero (nan in the code). -/
theorem C54_ecm (g : UAttr d) (mo : UModel) (hmo : mo = .ecm ∨ mo = .ecm_exp) (method : String) (guess : Guess n) (adj : AdjSpec n) (ma : String) (ga : Guess n) (p : Params) :
    let R := solve_tool e g mo.name method guess adj ma ga p
    R.exc = none → ∃ x y E r E' r', R.g.x = some x ∧ R.g.y = some y ∧ R.g.expected_dseq = some (degUECM x y) ∧ R.g.expected_strength_seq = some (strUECM x y) ∧
      R.g.error_degree = some E ∧ R.g.relative_error_degree = some r ∧ R.g.error_strength = some E' ∧ R.g.relative_error_strength = some r' ∧
      ((∀ i, d.dseq i ≠ 0) → (∀ i, d.strength_sequence i ≠ 0) →
        PlainReport (degUECM x y) (fun i => d.dseq i) E r ∧ PlainReport (strUECM x y) d.strength_sequence E' r') := by
  intro R h
  rcases hmo with rfl | rfl
  · obtain ⟨me, x, y, guess', s, -, -, -, hG⟩ := solve_tool_ok_ecm e g method guess adj ma ga p h
    rw [show R = _ from hG]
    obtain ⟨h1, h2, E, r, E', r', h3, h4, h5, h6, h7⟩ := report_ecm e (setSolvedECM (d := d) { g with last_model := some "ecm", full_return := p.full_return, x := some x, y := some y, args := some .ecm, step_fun := some .ecm } false s) (.inl rfl) rfl rfl
    exact ⟨_, _, E, r, E', r', (solutionError_keeps e _).1, (solutionError_keeps e _).2.1, h1, h2, h3, h4, h5, h6, fun _ _ => h7⟩
  · obtain ⟨me, x, y, guess', s, -, -, -, hG⟩ := solve_tool_ok_ecm_exp e g method guess adj ma ga p h
    rw [show R = _ from hG]
    obtain ⟨h1, h2, E, r, E', r', h3, h4, h5, h6, h7⟩ := report_ecm e (setSolvedECM (d := d) { g with last_model := some "ecm_exp", full_return := p.full_return, x := some x, y := some y, args := some .ecm, step_fun := some .ecm_exp } true s) (.inr rfl) rfl rfl
    exact ⟨_, _, E, r, E', r', (solutionError_keeps e _).1, (solutionError_keeps e _).2.1, h1, h2, h3, h4, h5, h6, fun _ _ => h7⟩

/-- C54 (crema on a given symmetric matrix): the expected strengths go to the attribute `expected_stregth_seq`; `expected_strength_seq` keeps what it held. -/
theorem C54_crema_matrix_partial (g : UAttr d) (me : Method) (guess : Guess n) (a : Fin n → Fin n → ℝ) (hs : ∀ i j, a i j = a j i) (hd : ∀ i, a i i = 0)
    (ma : String) (ga : Guess n) (p : Params) :
    let R := solve_tool e g "crema" me.name guess (.matrix a) ma ga p
    R.exc = none → ∃ β E r, R.g.beta = some β ∧ R.g.expected_stregth_seq = some (strCReMa a β) ∧ R.g.expected_strength_seq = g.expected_strength_seq ∧
      R.g.error_strength = some E ∧ R.g.relative_error_strength = some r ∧ Report (strCReMa a β) d.strength_sequence E r := by
  intro R h
  obtain ⟨b, guess', h0⟩ := solve_tool_crema_args e g me.name guess a ma ga p h
  have he := solve_tool_crema_matrix e g me guess a ma ga p h0
  simp only at he
  rw [show R = _ from he]
  rw [show R = _ from he] at h
  cases hsv : solver (cbCrema e d (triuEdges a) me) (p.opts me.name) b with
  | error x => rw [hsv] at h; simp at h
  | ok s =>
    set G : UAttr d := setSolvedCrema { g with
      is_sparse := false, adjacency_crema := some (.edges (triuEdges a)), adjacency_given := some true,
      last_model := some "crema", full_return := p.full_return, beta := some b, args := some (.crema (.edges (triuEdges a))), step_fun := some .crema } s
    have hex : strCReMa a s.x = CReMa.expected_strength_crema_undirected s.x (triuEdges a) := funext fun i => (str_crema_spec a hs hd s.x i).symm
    obtain ⟨h1, E, r, h2, h3, h4⟩ := report_strengths e G (.inr (.inr (.inl rfl))) rfl rfl (.inr ⟨rfl, _, rfl, hex⟩)
    exact ⟨s.x, E, r, (solutionError_keeps e _).2.2.1, h1, (report_degrees e G (.inr (.inr (.inl rfl)))).1, h2, h3, h4⟩

/-- C54 (crema, crema-sparse with `adjacency="cm_exp"`) -/
theorem C54_crema_partial (g : UAttr d) (model : String) (me ma : Method) (hmodel : model = "crema" ∨ model = "crema-sparse" ∧ me ≠ .newton) (guess ga : Guess n) (p : Params) :
    let R := solve_tool e g model me.name guess (.name "cm_exp") ma.name ga p
    R.exc = none → ∃ x β E r E' r', R.g.x = some x ∧ R.g.beta = some β ∧ R.g.expected_dseq = some (degUBCM x) ∧ R.g.expected_stregth_seq = some (strCReMa (linkMatrix x) β) ∧
      R.g.expected_strength_seq = g.expected_strength_seq ∧ R.g.error_degree = some E ∧ R.g.relative_error_degree = some r ∧
      R.g.error_strength = some E' ∧ R.g.relative_error_strength = some r' ∧
      Report (degUBCM x) (fun i => d.dseq i) E r ∧ Report (strCReMa (linkMatrix x) β) d.strength_sequence E' r' := by
  intro R h
  rcases hmodel with rfl | ⟨rfl, hme⟩
  · obtain ⟨x0, t, b, guess', hθ, ht, h0⟩ := solve_tool_crema_inner e g "crema" me.name (.inl rfl) guess ma ga p h
    have he := solve_tool_crema_cm_exp e g me ma guess ga p hθ ht h0
    simp only [pmatrix_spec] at he
    rw [show R = _ from he]
    rw [show R = _ from he] at h
    set x : Fin n → ℝ := fun i => Real.exp (-t.x (d.inv i)) with hx
    cases hsv : solver (cbCrema e d (triuEdges (linkMatrix x)) me) (p.opts me.name) b with
    | error y => rw [hsv] at h; simp at h
    | ok s =>
      set G : UAttr d := setSolvedCrema { setSolvedCM (d := d) { g with is_sparse := false, last_model := some "cm_exp", full_return := p.full_return, args := some .cm, step_fun := some .cm_exp, fun_pmatrix := true } true t with
        is_sparse := false, adjacency_crema := some (.edges (triuEdges (linkMatrix x))), adjacency_given := some false,
        last_model := some "crema", full_return := p.full_return, beta := some b, args := some (.crema (.edges (triuEdges (linkMatrix x)))), step_fun := some .crema } s
      have hex : strCReMa (linkMatrix x) s.x = CReMa.expected_strength_crema_undirected s.x (triuEdges (linkMatrix x)) :=
        funext fun i => (str_crema_spec _ (linkMatrix_symm x) (linkMatrix_diag x) s.x i).symm
      obtain ⟨h1, E', r', h2, h3, h4⟩ := report_strengths e G (.inr (.inr (.inl rfl))) rfl rfl (.inr ⟨rfl, _, rfl, hex⟩)
      obtain ⟨q0, q⟩ := report_degrees e G (.inr (.inr (.inl rfl)))
      obtain ⟨q1, E, r, q2, q3, q4⟩ := q x rfl
      exact ⟨x, s.x, E, r, E', r', (solutionError_keeps e _).1, (solutionError_keeps e _).2.2.1, q1, h1, q0, q2, q3, h2, h3, q4, h4⟩
  · obtain ⟨x0, t, b, guess', hθ, ht, h0⟩ := solve_tool_crema_inner e g "crema-sparse" me.name (.inr rfl) guess ma ga p h
    have he := solve_tool_crema_sparse_cm_exp e g me ma hme guess ga p hθ ht h0
    simp only at he
    rw [show R = _ from he]
    rw [show R = _ from he] at h
    set x : Fin n → ℝ := fun i => Real.exp (-t.x (d.inv i)) with hx
    cases hsv : solver (cbCremaSparse e d x me) (p.opts me.name) b with
    | error y => rw [hsv] at h; simp at h
    | ok s =>
      have hex : strCReMa (linkMatrix x) s.x = CReMa.expected_strength_crema_undirected_sparse s.x x :=
        funext fun i => (str_sparse_spec x (fun i => (Real.exp_pos _).le) s.x i).symm
      refine ⟨x, s.x, ?_⟩
      dsimp only
      refine (fun G (hG : _ ∧ _ ∧ _ ∧ _ ∧ _ ∧ _) => ?_ : ∀ G : UAttr d, (G.last_model = some "crema-sparse" ∧ G.is_sparse = true ∧ G.adjacency_crema = some (.fitness x) ∧ G.beta = some s.x ∧ G.x = some x ∧
        G.expected_strength_seq = g.expected_strength_seq) → ∃ E r E' r', (solutionError e G).1.x = some x ∧ (solutionError e G).1.beta = some s.x ∧
        (solutionError e G).1.expected_dseq = some (degUBCM x) ∧ (solutionError e G).1.expected_stregth_seq = some (strCReMa (linkMatrix x) s.x) ∧
        (solutionError e G).1.expected_strength_seq = g.expected_strength_seq ∧ (solutionError e G).1.error_degree = some E ∧ (solutionError e G).1.relative_error_degree = some r ∧
        (solutionError e G).1.error_strength = some E' ∧ (solutionError e G).1.relative_error_strength = some r' ∧
        Report (degUBCM x) (fun i => d.dseq i) E r ∧ Report (strCReMa (linkMatrix x) s.x) d.strength_sequence E' r') _ ⟨rfl, rfl, rfl, rfl, rfl, rfl⟩
      obtain ⟨g1, g2, g3, g4, g5, g6⟩ := hG
      obtain ⟨h1, E', r', h2, h3, h4⟩ := report_strengths e G (.inr (.inr (.inr g1))) g4 g3 (.inl ⟨g2, hex⟩)
      obtain ⟨q0, q⟩ := report_degrees e G (.inr (.inr (.inr g1)))
      obtain ⟨q1, E, r, q2, q3, q4⟩ := q x g5
      exact ⟨E, r, E', r', (solutionError_keeps e _).1.trans g5, (solutionError_keeps e _).2.2.1.trans g4, q1, h1, q0.trans g6, q2, q3, h2, h3, q4, h4⟩

/-- the hypotheses are met: calls that return -/
example (d : UData n) (v : Fin n → ℝ) : (solve_tool e ({} : UAttr d) "cm" "newton" (.nodes v) .other "" .other { max_steps := 0 }).exc = none := by
  have hR := solve_tool_cm e ({} : UAttr d) .newton (.nodes v) .other "" .other { max_steps := 0 } (x0 := _) rfl
  simp only [solver_no_step _ (({ max_steps := 0 } : Params).opts Method.newton.name) _ rfl] at hR
  refine (congrArg UResult.exc hR).trans ?_
  simp [solutionError, setSolvedCM, degreeError, strengthError]

example (d : UData n) (v : Fin 2 × Fin n → ℝ) : (solve_tool e ({} : UAttr d) "ecm" "newton" (.pairs v) .other "" .other { max_steps := 0 }).exc = none := by
  have hR := solve_tool_ecm e ({} : UAttr d) .newton (.pairs v) .other "" .other { max_steps := 0 } (x := _) (y := _) (guess' := _) rfl
  simp only [solver_no_step _ (({ max_steps := 0 } : Params).opts Method.newton.name) _ rfl] at hR
  refine (congrArg UResult.exc hR).trans ?_
  simp [solutionError, setSolvedECM]

example (ga : Guess 2) : (solve_tool e ({} : UAttr (regular 2 1 fun _ => 1)) "crema" "newton" (.nodes fun _ => 1 / 2) (.matrix fun i j => if i = j then 0 else 1) "" ga { max_steps := 0 }).exc = none :=
  (C37_stale_rates e "" ga).1

/-- C54: on a fresh object `expected_strength_seq` is still unset after crema or crema-sparse has returned. -/
theorem C54_crema_unset (model : String) (me ma : Method) (hmodel : model = "crema" ∨ model = "crema-sparse" ∧ me ≠ .newton) (guess ga : Guess n) (p : Params) :
    let R := solve_tool e ({} : UAttr d) model me.name guess (.name "cm_exp") ma.name ga p
    R.exc = none → R.g.expected_strength_seq = none := fun h => by
  obtain ⟨x, β, E, r, E', r', -, -, -, -, h5, -⟩ := C54_crema_partial e ({} : UAttr d) model me ma hmodel guess ga p h
  exact h5

end undirected

section directed

variable {d : DData n} (e : Env)

theorem strengthErrorD_degrees (g : DAttr d) : (strengthErrorD g).1.expected_dseq = g.expected_dseq ∧ (strengthErrorD g).1.error_degree = g.error_degree ∧
    (strengthErrorD g).1.relative_error_degree = g.relative_error_degree ∧ (strengthErrorD g).1.expected_strength_seq = g.expected_strength_seq := by
  unfold strengthErrorD
  split
  · split
    · exact ⟨rfl, rfl, rfl, rfl⟩
    · dsimp only
      split
      · split
        · exact ⟨rfl, rfl, rfl, rfl⟩
        · exact ⟨rfl, rfl, rfl, rfl⟩
        · split <;> exact ⟨rfl, rfl, rfl, rfl⟩
      · split
        · exact ⟨rfl, rfl, rfl, rfl⟩
        · exact ⟨rfl, rfl, rfl, rfl⟩
        · split <;> exact ⟨rfl, rfl, rfl, rfl⟩
      · exact ⟨rfl, rfl, rfl, rfl⟩
  · exact ⟨rfl, rfl, rfl, rfl⟩

omit [NeZero n] in
theorem cat2_eq {m : ℕ} (f g : Fin m → ℝ) : cat2 f g = outIn f g := rfl

theorem reportD_degrees (G : DAttr d) (hn : G.last_model = some "dcm" ∨ G.last_model = some "dcm_exp" ∨ G.last_model = some "crema" ∨ G.last_model = some "crema-sparse") :
    (solutionErrorD G).1.expected_strength_seq = G.expected_strength_seq ∧
    ∀ x y, G.x = some x → G.y = some y → (solutionErrorD G).1.expected_dseq = some (outIn (outDBCM x y) (inDBCM x y)) ∧ ∃ E r, (solutionErrorD G).1.error_degree = some E ∧
      (solutionErrorD G).1.relative_error_degree = some r ∧ Report (outIn (outDBCM x y) (inDBCM x y)) (outIn (fun i => d.dseq_out i) fun i => d.dseq_in i) E r := by
  unfold solutionErrorD
  rw [if_pos hn]
  obtain ⟨h1, h2, h3, h4⟩ := strengthErrorD_degrees (degreeErrorD G)
  rw [h1, h2, h3, h4]
  refine ⟨by unfold degreeErrorD; split <;> rfl, fun x y hx hy => ?_⟩
  simp only [degreeErrorD, hx, hy]
  have hs : DCM.expected_out_degree_dcm (cat2 x y) = outDBCM x y := funext fun i => out_spec x y i
  have hs' : DCM.expected_in_degree_dcm (cat2 x y) = inDBCM x y := funext fun i => in_spec x y i
  rw [hs, hs']
  exact ⟨rfl, _, _, rfl, rfl, maxAbs_isMax _, maxAbs_isMax _⟩

theorem reportD_strengths (G : DAttr d) (hn : G.last_model = some "dcm" ∨ G.last_model = some "dcm_exp" ∨ G.last_model = some "crema" ∨ G.last_model = some "crema-sparse")
    {bo bi exo exi : Fin n → ℝ} (hbo : G.b_out = some bo) (hbi : G.b_in = some bi) {adj : DCremaAdj n} (ha : G.adjacency_crema = some adj)
    (hex : (G.is_sparse = true ∧ ∃ x y, adj = .fitness x y ∧ exo = expected_out_strength_crema_directed_sparse (cat2 bo bi) x y ∧ exi = expected_in_stregth_crema_directed_sparse (cat2 bo bi) x y) ∨
      G.is_sparse = false ∧ ∃ l, adj = .edges l ∧ exo = DCReMa.expected_out_strength_crema_directed (cat2 bo bi) l ∧ exi = DCReMa.expected_in_strength_crema_directed (cat2 bo bi) l) :
    (solutionErrorD G).1.expected_stregth_seq = some (outIn exo exi) ∧ ∃ E r, (solutionErrorD G).1.error_strength = some E ∧
      (solutionErrorD G).1.relative_error_strength = some r ∧ Report (outIn exo exi) (outIn d.out_strength d.in_strength) E r := by
  have k : ∀ {α : Type} (f : DAttr d → α), (∀ g, f g.sol = f g) → f (degreeErrorD G) = f G := fun f hf => by rw [← hf, degreeErrorD_sol, hf]
  unfold solutionErrorD
  rw [if_pos hn]
  unfold strengthErrorD
  rcases hex with ⟨hsp, x, y, rfl, rfl, rfl⟩ | ⟨hsp, l, rfl, rfl, rfl⟩
  · simp only [k DAttr.b_out (fun _ => rfl), hbo, k DAttr.b_in (fun _ => rfl), hbi, k DAttr.adjacency_crema (fun _ => rfl), ha,
      k DAttr.is_sparse (fun _ => rfl), hsp, k DAttr.adjacency_given (fun _ => rfl)]
    split
    · exact ⟨rfl, _, _, rfl, rfl, maxAbs_isMax _, maxAbs_isMax _⟩
    · exact ⟨rfl, _, _, rfl, rfl, maxAbs_isMax _, maxAbs_isMax _⟩
    · split <;> exact ⟨rfl, _, _, rfl, rfl, maxAbs_isMax _, maxAbs_isMax _⟩
  · simp only [k DAttr.b_out (fun _ => rfl), hbo, k DAttr.b_in (fun _ => rfl), hbi, k DAttr.adjacency_crema (fun _ => rfl), ha,
      k DAttr.is_sparse (fun _ => rfl), hsp, k DAttr.adjacency_given (fun _ => rfl)]
    split
    · exact ⟨rfl, _, _, rfl, rfl, maxAbs_isMax _, maxAbs_isMax _⟩
    · exact ⟨rfl, _, _, rfl, rfl, maxAbs_isMax _, maxAbs_isMax _⟩
    · split <;> exact ⟨rfl, _, _, rfl, rfl, maxAbs_isMax _, maxAbs_isMax _⟩

/-- C54 (dcm, dcm_exp): whenever the call returns, whatever the object has solved before. -/
theorem C54_dcm (g : DAttr d) (mo : DModel) (hmo : mo = .dcm ∨ mo = .dcm_exp) (method : String) (guess : DGuess n) (adj : AdjSpec n) (ma : String) (ga : DGuess n) (p : Params) :
    let R := solve_tool_directed e g mo.name method guess adj ma ga p
    R.exc = none → ∃ x y E r, R.g.x = some x ∧ R.g.y = some y ∧ R.g.expected_dseq = some (outIn (outDBCM x y) (inDBCM x y)) ∧ R.g.error_degree = some E ∧
      R.g.relative_error_degree = some r ∧ Report (outIn (outDBCM x y) (inDBCM x y)) (outIn (fun i => d.dseq_out i) fun i => d.dseq_in i) E r := by
  intro R h
  rcases hmo with rfl | rfl
  · obtain ⟨me, x0, s, -, -, -, hG, -⟩ := solve_tool_ok_dcm e g method guess adj ma ga p h
    rw [show R = _ from hG]
    obtain ⟨h1, E, r, h2, h3, h4⟩ := (reportD_degrees (setSolvedDCM (preDCM g .dcm p) false s) (.inl rfl)).2 _ _ rfl rfl
    exact ⟨_, _, E, r, keepsD DAttr.x (fun _ => rfl) _, keepsD DAttr.y (fun _ => rfl) _, h1, h2, h3, h4⟩
  · obtain ⟨me, x0, s, -, -, -, hG, -⟩ := solve_tool_ok_dcm_exp e g method guess adj ma ga p h
    rw [show R = _ from hG]
    obtain ⟨h1, E, r, h2, h3, h4⟩ := (reportD_degrees (setSolvedDCM (preDCM g .dcm_exp p) true s) (.inr (.inl rfl))).2 _ _ rfl rfl
    exact ⟨_, _, E, r, keepsD DAttr.x (fun _ => rfl) _, keepsD DAttr.y (fun _ => rfl) _, h1, h2, h3, h4⟩

/-- C54 (directed crema on a given matrix) -/
theorem C54_dcrema_matrix_partial (g : DAttr d) (hz : d.nz_known = true) (me : Method) (guess : DGuess n) (a : Fin n → Fin n → ℝ)
    (ma : String) (ga : DGuess n) (p : Params) :
    let R := solve_tool_directed e g "crema" me.name guess (.matrix a) ma ga p
    R.exc = none → ∃ bo bi E r, R.g.b_out = some bo ∧ R.g.b_in = some bi ∧ R.g.expected_stregth_seq = some (outIn (outStrCReMa a bo bi) (inStrCReMa a bo bi)) ∧
      R.g.expected_strength_seq = g.expected_strength_seq ∧ R.g.error_strength = some E ∧ R.g.relative_error_strength = some r ∧
      Report (outIn (outStrCReMa a bo bi) (inStrCReMa a bo bi)) (outIn d.out_strength d.in_strength) E r := by
  intro R h
  obtain ⟨bo, bi, guess', h0⟩ := solve_tool_dcrema_args e g me.name guess a ma ga p h
  have he := solve_tool_dcrema_matrix e g hz me guess a ma ga p h0
  simp only at he
  rw [show R = _ from he]
  rw [show R = _ from he] at h
  cases hsv : solver (cbDCrema e d (nzEdges a) me) (p.opts me.name) (cat2 bo bi) with
  | error x => rw [hsv] at h; simp at h
  | ok s =>
    set G := setSolvedDCrema (preDCrema (withAdj g (.edges (nzEdges a)) false true) .crema (.edges (nzEdges a)) bo bi p) s
    obtain ⟨h1, E, r, h2, h3, h4⟩ := reportD_strengths G (.inr (.inr (.inl rfl))) rfl rfl rfl (.inr ⟨rfl, _, rfl,
      funext fun i => (str_dcrema_spec a (fun i => s.x (0, i)) (fun i => s.x (1, i)) i).1.symm, funext fun i => (str_dcrema_spec a (fun i => s.x (0, i)) (fun i => s.x (1, i)) i).2.symm⟩)
    exact ⟨_, _, E, r, keepsD DAttr.b_out (fun _ => rfl) _, keepsD DAttr.b_in (fun _ => rfl) _, h1, (reportD_degrees G (.inr (.inr (.inl rfl)))).1, h2, h3, h4⟩

/-- C54 (directed crema, `adjacency="dcm"` or "dcm_exp") -/
theorem C54_dcrema_partial (g : DAttr d) (hz : d.nz_known = true) (me : Method) (mo : DModel) (hmo : mo = .dcm ∨ mo = .dcm_exp) (ma : String)
    (guess ga : DGuess n) (p : Params) :
    let R := solve_tool_directed e g "crema" me.name guess (.name mo.name) ma ga p
    R.exc = none → ∃ x y bo bi E r E' r', let a := linkMatrixD (active d.degOut x) (active d.degIn y)
      R.g.x = some x ∧ R.g.y = some y ∧ R.g.b_out = some bo ∧ R.g.b_in = some bi ∧ R.g.expected_dseq = some (outIn (outDBCM x y) (inDBCM x y)) ∧
      R.g.expected_stregth_seq = some (outIn (outStrCReMa a bo bi) (inStrCReMa a bo bi)) ∧ R.g.expected_strength_seq = g.expected_strength_seq ∧
      R.g.error_degree = some E ∧ R.g.relative_error_degree = some r ∧ R.g.error_strength = some E' ∧ R.g.relative_error_strength = some r' ∧
      Report (outIn (outDBCM x y) (inDBCM x y)) (outIn (fun i => d.dseq_out i) fun i => d.dseq_in i) E r ∧
      Report (outIn (outStrCReMa a bo bi) (inStrCReMa a bo bi)) (outIn d.out_strength d.in_strength) E' r' := by
  intro R h
  obtain ⟨ma, x0, t, bo, bi, guess', rfl, hx0, ht, h0⟩ := solve_tool_dcrema_inner e g "crema" me.name (.inl rfl) guess mo hmo ma ga p h
  have hrun := binary_run e.inner { g with is_sparse := false } mo hmo ma ga { p with linsearch := true } hx0 ht
  have he := solve_tool_dcrema_named e g hz me guess mo.name ma.name ga ga p hrun rfl rfl rfl rfl h0
  simp only [pmat_spec] at he
  rw [show R = _ from he]
  rw [show R = _ from he] at h
  set x : Fin n → ℝ := if decide (mo = .dcm_exp) = true then fun i => Real.exp (-t.x (0, d.inv i)) else fun i => t.x (0, d.inv i) with hx
  set y : Fin n → ℝ := if decide (mo = .dcm_exp) = true then fun i => Real.exp (-t.x (1, d.inv i)) else fun i => t.x (1, d.inv i) with hy
  set a := linkMatrixD (active d.degOut x) (active d.degIn y) with ha
  cases hsv : solver (cbDCrema e d (nzEdges a) me) (p.opts me.name) (cat2 bo bi) with
  | error z => rw [hsv] at h; simp at h
  | ok s =>
    set G := setSolvedDCrema (preDCrema (withAdj (setSolvedDCM (preDCM { g with is_sparse := false } mo { p with linsearch := true })
      (mo = .dcm_exp) t) (.edges (nzEdges a)) false false) .crema (.edges (nzEdges a)) bo bi p) s
    obtain ⟨h1, E', r', h2, h3, h4⟩ := reportD_strengths G (.inr (.inr (.inl rfl))) rfl rfl rfl (.inr ⟨rfl, _, rfl,
      funext fun i => (str_dcrema_spec a (fun i => s.x (0, i)) (fun i => s.x (1, i)) i).1.symm, funext fun i => (str_dcrema_spec a (fun i => s.x (0, i)) (fun i => s.x (1, i)) i).2.symm⟩)
    obtain ⟨q0, q⟩ := reportD_degrees G (.inr (.inr (.inl rfl)))
    obtain ⟨q1, E, r, q2, q3, q4⟩ := q x y rfl rfl
    exact ⟨x, y, _, _, E, r, E', r', keepsD DAttr.x (fun _ => rfl) _, keepsD DAttr.y (fun _ => rfl) _, keepsD DAttr.b_out (fun _ => rfl) _,
      keepsD DAttr.b_in (fun _ => rfl) _, q1, h1, q0, q2, q3, h2, h3, q4, h4⟩

/-- C54 (decm, decm_exp), for parameters in the domain of the model. -/
theorem C54_decm (g : DAttr d) (mo : DModel) (hmo : mo = .decm ∨ mo = .decm_exp) (method : String) (guess : DGuess n) (adj : AdjSpec n) (ma : String) (ga : DGuess n) (p : Params) :
    let R := solve_tool_directed e g mo.name method guess adj ma ga p
    R.exc = none → ∃ x y bo bi, R.g.x = some x ∧ R.g.y = some y ∧ R.g.b_out = some bo ∧ R.g.b_in = some bi ∧
      ((∀ i, 0 ≤ x i) → (∀ i, 0 ≤ y i) → (∀ i, 0 ≤ bo i) → (∀ i, 0 ≤ bi i) → (∀ i j, i ≠ j → bo i * bi j < 1) →
        R.g.expected_dseq = some (outIn (outDegDECM x y bo bi) (inDegDECM x y bo bi)) ∧ R.g.expected_strength_seq = some (outIn (outStrDECM x y bo bi) (inStrDECM x y bo bi)) ∧
        ∃ E r E' r', R.g.error_degree = some E ∧ R.g.relative_error_degree = some r ∧ R.g.error_strength = some E' ∧ R.g.relative_error_strength = some r' ∧
          Report (outIn (outDegDECM x y bo bi) (inDegDECM x y bo bi)) (outIn (fun i => d.dseq_out i) fun i => d.dseq_in i) E r ∧
          Report (outIn (outStrDECM x y bo bi) (inStrDECM x y bo bi)) (outIn d.out_strength d.in_strength) E' r') := by
  intro R h
  have key : ∀ (G : DAttr d), (G.last_model = some "decm" ∨ G.last_model = some "decm_exp") → ∀ x y bo bi : Fin n → ℝ, G.x = some x →
      G.y = some y → G.b_out = some bo → G.b_in = some bi → (∀ i, 0 ≤ x i) → (∀ i, 0 ≤ y i) →
      (∀ i, 0 ≤ bo i) → (∀ i, 0 ≤ bi i) → (∀ i j, i ≠ j → bo i * bi j < 1) →
      (solutionErrorD G).1.expected_dseq = some (outIn (outDegDECM x y bo bi) (inDegDECM x y bo bi)) ∧
      (solutionErrorD G).1.expected_strength_seq = some (outIn (outStrDECM x y bo bi) (inStrDECM x y bo bi)) ∧
        ∃ E r E' r', (solutionErrorD G).1.error_degree = some E ∧ (solutionErrorD G).1.relative_error_degree = some r ∧ (solutionErrorD G).1.error_strength = some E' ∧
          (solutionErrorD G).1.relative_error_strength = some r' ∧
          Report (outIn (outDegDECM x y bo bi) (inDegDECM x y bo bi)) (outIn (fun i => d.dseq_out i) fun i => d.dseq_in i) E r ∧
          Report (outIn (outStrDECM x y bo bi) (inStrDECM x y bo bi)) (outIn d.out_strength d.in_strength) E' r' := by
    intro G hn x y bo bi hx hy hbo hbi hx0 hy0 hbo0 hbi0 hlt
    obtain ⟨E, ED, ES, -, hED, hES, -, mD, mS⟩ := error_decm G hn hx hy hbo hbi hx0 hy0 hbo0 hbi0 hlt
    have mk : ∀ {V : Fin n ⊕ Fin n → ℝ} {W : Fin 2 × Fin n → ℝ} {E : ℝ}, IsMaxAbs E V → (∀ i, W (0, i) = V (.inl i)) → (∀ i, W (1, i) = V (.inr i)) → IsMaxAbs E W := by
      intro V W E hV h0 h1
      constructor
      · rintro ⟨b, i⟩
        fin_cases b
        · exact (congrArg abs (h0 i)).trans_le (hV.1 (.inl i))
        · exact (congrArg abs (h1 i)).trans_le (hV.1 (.inr i))
      · obtain ⟨i | i, hi⟩ := hV.2
        · exact ⟨(0, i), (congrArg abs (h0 i)).trans hi⟩
        · exact ⟨(1, i), (congrArg abs (h1 i)).trans hi⟩
    have hn' : ¬ (G.last_model = some "dcm" ∨ G.last_model = some "dcm_exp" ∨ G.last_model = some "crema" ∨ G.last_model = some "crema-sparse") := by
      rcases hn with h | h <;> simp [h]
    set sol : Fin 4 × Fin n → ℝ := fun v => if v.1 = 0 then x v.2 else if v.1 = 1 then y v.2 else if v.1 = 2 then bo v.2 else bi v.2 with hsol
    have e0 : blk4 sol 0 = x := by funext i; simp [blk4, hsol]
    have e1 : blk4 sol 1 = y := by funext i; simp [blk4, hsol]
    have e2 : blk4 sol 2 = bo := by funext i; simp [blk4, hsol]
    have e3 : blk4 sol 3 = bi := by funext i; simp [blk4, hsol]
    have hs0 : ∀ w, 0 ≤ sol w := by
      rintro ⟨b, i⟩
      fin_cases b
      · simpa [hsol] using hx0 i
      · simpa [hsol] using hy0 i
      · simpa [hsol] using hbo0 i
      · simpa [hsol] using hbi0 i
    have key := fun i => expected_decm_spec sol hs0 (fun i j hij => by simpa [hsol] using hlt i j hij) i
    rw [e0, e1, e2, e3] at key
    have q : (solutionErrorD G).1.expected_dseq = some (outIn (outDegDECM x y bo bi) (inDegDECM x y bo bi)) ∧
        (solutionErrorD G).1.expected_strength_seq = some (outIn (outStrDECM x y bo bi) (inStrDECM x y bo bi)) ∧
        (solutionErrorD G).1.relative_error_strength = some (maxAbs fun v => (outIn d.out_strength d.in_strength v - outIn (outStrDECM x y bo bi) (inStrDECM x y bo bi) v) / (outIn d.out_strength d.in_strength v + Real.exp (-100))) ∧
        (solutionErrorD G).1.relative_error_degree = some (maxAbs fun v => (outIn d.degOut d.degIn v - outIn (outDegDECM x y bo bi) (inDegDECM x y bo bi) v) / (outIn d.degOut d.degIn v + Real.exp (-100))) := by
      have f0 : (fun i => DECM.expected_decm sol (0, i)) = outDegDECM x y bo bi := funext fun i => (key i).1
      have f1 : (fun i => DECM.expected_decm sol (1, i)) = inDegDECM x y bo bi := funext fun i => (key i).2.1
      have f2 : (fun i => DECM.expected_decm sol (2, i)) = outStrDECM x y bo bi := funext fun i => (key i).2.2.1
      have f3 : (fun i => DECM.expected_decm sol (3, i)) = inStrDECM x y bo bi := funext fun i => (key i).2.2.2
      unfold solutionErrorD
      rw [if_neg hn', if_pos hn]
      simp only [hx, hy, hbo, hbi]
      rw [← hsol, f0, f1, f2, f3]
      exact ⟨rfl, rfl, rfl, rfl⟩
    refine ⟨q.1, q.2.1, ED, _, ES, _, hED, q.2.2.2, hES, q.2.2.1, ⟨mk mD (fun i => rfl) (fun i => rfl), isMaxAbs_neg (maxAbs_isMax _) fun v => ?_⟩,
      mk mS (fun i => rfl) (fun i => rfl), isMaxAbs_neg (maxAbs_isMax _) fun v => ?_⟩
    · rw [← neg_div, neg_sub]; rfl
    · rw [← neg_div, neg_sub]
  rcases hmo with rfl | rfl
  · obtain ⟨me, v, guess', s, -, -, -, hG⟩ := solve_tool_ok_decm e g method guess adj ma ga p h
    rw [show R = _ from hG]
    exact ⟨_, _, _, _, keepsD DAttr.x (fun _ => rfl) _, keepsD DAttr.y (fun _ => rfl) _, keepsD DAttr.b_out (fun _ => rfl) _,
      keepsD DAttr.b_in (fun _ => rfl) _, key (setSolvedDECM (preDECM g .decm v p) false s) (.inl rfl) _ _ _ _ rfl rfl rfl rfl⟩
  · obtain ⟨me, v, guess', s, -, -, -, hG⟩ := solve_tool_ok_decm_exp e g method guess adj ma ga p h
    rw [show R = _ from hG]
    exact ⟨_, _, _, _, keepsD DAttr.x (fun _ => rfl) _, keepsD DAttr.y (fun _ => rfl) _, keepsD DAttr.b_out (fun _ => rfl) _,
      keepsD DAttr.b_in (fun _ => rfl) _, key (setSolvedDECM (preDECM g .decm_exp v p) true s) (.inr rfl) _ _ _ _ rfl rfl rfl rfl⟩

/-- the hypotheses are met: calls that return -/
example (d : DData n) (v : Fin 4 × Fin n → ℝ) : (solve_tool_directed e ({} : DAttr d) "decm" "newton" (.quads v) .other "" .other { max_steps := 0 }).exc = none := by
  have hR := solve_tool_decm e ({} : DAttr d) .newton (.quads v) .other "" .other { max_steps := 0 } (v := _) (guess' := _) rfl
  simp only [solver_no_step _ (({ max_steps := 0 } : Params).opts Method.newton.name) _ rfl] at hR
  refine (congrArg DResult.exc hR).trans ?_
  simp [solutionErrorD, setSolvedDECM, preDECM, DModel.name]

example (ga : DGuess 2) :
    (solve_tool_directed e ({} : DAttr (regularD 2 1 1)) "crema" "newton" (.pairs fun _ => 1 / 2) (.matrix fun i j => if i = j then 0 else 1) "" ga { max_steps := 0 }).exc = none :=
  (C37_directed_stale_rates e "" ga).1

end directed

end Verif.Solve
