import Verif.Lemmas.SolveU

/-! What `UndirectedGraph.solve_tool` does on the documented names: one or two runs of `solver` and the error report. -/

namespace Verif.Solve

open Verif Finset Reduction Solver Spec

open Classical in
attribute [local instance 0] propDecidable

variable {n : ℕ} [NeZero n] {d : UData n}

/-! ### unfolding `solve_tool` on the documented names -/

theorem degreeError_keeps (g : UAttr d) : (degreeError g).x = g.x ∧ (degreeError g).y = g.y ∧ (degreeError g).beta = g.beta ∧
    (degreeError g).solution_array = g.solution_array ∧ (degreeError g).trace = g.trace ∧ (degreeError g).trace_crema = g.trace_crema ∧
    (degreeError g).last_model = g.last_model ∧ (degreeError g).args = g.args ∧ (degreeError g).step_fun = g.step_fun ∧
    (degreeError g).adjacency_crema = g.adjacency_crema ∧ (degreeError g).adjacency_given = g.adjacency_given ∧
    (degreeError g).is_sparse = g.is_sparse := by
  unfold degreeError
  split <;> simp

theorem strengthError_keeps (e : Env) (g : UAttr d) : (strengthError e g).1.x = g.x ∧ (strengthError e g).1.y = g.y ∧ (strengthError e g).1.beta = g.beta ∧
    (strengthError e g).1.solution_array = g.solution_array ∧ (strengthError e g).1.trace = g.trace ∧ (strengthError e g).1.trace_crema = g.trace_crema ∧
    (strengthError e g).1.last_model = g.last_model ∧ (strengthError e g).1.args = g.args ∧ (strengthError e g).1.step_fun = g.step_fun ∧
    (strengthError e g).1.adjacency_crema = g.adjacency_crema ∧ (strengthError e g).1.adjacency_given = g.adjacency_given ∧
    (strengthError e g).1.is_sparse = g.is_sparse := by
  unfold strengthError
  split
  · simp
  · split
    · simp
    · dsimp only
      split
      · split
        · simp
        · simp
        · split <;> simp
      · split
        · split
          · simp
          · simp
          · split <;> simp
        · simp

/-- `_solution_error` only writes the error attributes -/
theorem solutionError_keeps (e : Env) (g : UAttr d) : (solutionError e g).1.x = g.x ∧ (solutionError e g).1.y = g.y ∧ (solutionError e g).1.beta = g.beta ∧
    (solutionError e g).1.solution_array = g.solution_array ∧ (solutionError e g).1.trace = g.trace ∧ (solutionError e g).1.trace_crema = g.trace_crema ∧
    (solutionError e g).1.last_model = g.last_model ∧ (solutionError e g).1.args = g.args ∧ (solutionError e g).1.step_fun = g.step_fun ∧
    (solutionError e g).1.adjacency_crema = g.adjacency_crema ∧ (solutionError e g).1.adjacency_given = g.adjacency_given ∧
    (solutionError e g).1.is_sparse = g.is_sparse := by
  unfold solutionError
  split
  · obtain ⟨a1, a2, a3, a4, a5, a6, a7, a8, a9, a10, a11, a12⟩ := degreeError_keeps g
    obtain ⟨b1, b2, b3, b4, b5, b6, b7, b8, b9, b10, b11, b12⟩ := strengthError_keeps e (degreeError g)
    exact ⟨b1.trans a1, b2.trans a2, b3.trans a3, b4.trans a4, b5.trans a5, b6.trans a6, b7.trans a7, b8.trans a8, b9.trans a9, b10.trans a10,
      b11.trans a11, b12.trans a12⟩
  · split
    · split <;> simp
    · simp

/-- the binary models: `solve_tool` is one run of `solver` on the table of the model, followed by the error report -/
theorem solve_tool_cm (e : Env) (g : UAttr d) (me : Method) (guess : Guess n) (adj : AdjSpec n) (ma : String) (ga : Guess n) (p : Params)
    {x0 : Fin d.r → ℝ} (h0 : guessCM e d false guess = .ok x0) :
    let g1 : UAttr d := { g with last_model := some "cm", full_return := p.full_return, args := some .cm, step_fun := some .cm, fun_pmatrix := true }
    solve_tool e g "cm" me.name guess adj ma ga p = match solver (cbCM e d me) (p.opts me.name) x0 with
      | .error x => ⟨g1, some (.numeric x), guess, ga⟩
      | .ok s => ⟨(solutionError e (setSolvedCM g1 false s)).1, (solutionError e (setSolvedCM g1 false s)).2, guess, ga⟩ := by
  have hl : uLookup "cm" me.name = some (.cm, me) := uLookup_name .cm me
  have h0' : guessCM e d (decide ("cm" = "cm_exp")) guess = .ok x0 := h0
  intro g1
  unfold solve_tool
  rw [if_pos (by simp)]
  unfold solveProblem
  rw [if_pos (by simp), h0']
  simp only [hl]
  rw [if_neg (show ¬ "cm" = "cm_exp" by decide)]
  cases h : solver (cbCM e d me) (p.opts me.name) x0 with
  | error x => rfl
  | ok s => rfl

theorem solve_tool_cm_exp (e : Env) (g : UAttr d) (me : Method) (guess : Guess n) (adj : AdjSpec n) (ma : String) (ga : Guess n) (p : Params)
    {x0 : Fin d.r → ℝ} (h0 : guessCM e d true guess = .ok x0) :
    let g1 : UAttr d := { g with last_model := some "cm_exp", full_return := p.full_return, args := some .cm, step_fun := some .cm_exp, fun_pmatrix := true }
    solve_tool e g "cm_exp" me.name guess adj ma ga p = match solver (cbCMexp e d me) (p.opts me.name) x0 with
      | .error x => ⟨g1, some (.numeric x), guess, ga⟩
      | .ok s => ⟨(solutionError e (setSolvedCM g1 true s)).1, (solutionError e (setSolvedCM g1 true s)).2, guess, ga⟩ := by
  have hl : uLookup "cm_exp" me.name = some (.cm_exp, me) := uLookup_name .cm_exp me
  have h0' : guessCM e d (decide ("cm_exp" = "cm_exp")) guess = .ok x0 := h0
  intro g1
  unfold solve_tool
  rw [if_pos (by simp)]
  unfold solveProblem
  rw [if_pos (by simp), h0']
  simp only [hl]
  simp only [if_true]
  cases h : solver (cbCMexp e d me) (p.opts me.name) x0 with
  | error x => rfl
  | ok s => rfl

theorem solve_tool_ecm (e : Env) (g : UAttr d) (me : Method) (guess : Guess n) (adj : AdjSpec n) (ma : String) (ga : Guess n) (p : Params)
    {x y : Fin n → ℝ} {guess' : Guess n} (h0 : guessECM e d false guess = (.ok (x, y), guess')) :
    let g1 : UAttr d := { g with last_model := some "ecm", full_return := p.full_return, x := some x, y := some y, args := some .ecm, step_fun := some .ecm }
    solve_tool e g "ecm" me.name guess adj ma ga p = match solver (cbECM e d me) (p.opts me.name) (cat2 x y) with
      | .error x => ⟨g1, some (.numeric x), guess', ga⟩
      | .ok s => ⟨(solutionError e (setSolvedECM g1 false s)).1, (solutionError e (setSolvedECM g1 false s)).2, guess', ga⟩ := by
  have hl : uLookup "ecm" me.name = some (.ecm, me) := uLookup_name .ecm me
  have h0' : guessECM e d (decide ("ecm" = "ecm_exp")) guess = (.ok (x, y), guess') := h0
  intro g1
  unfold solve_tool
  rw [if_pos (by simp)]
  unfold solveProblem
  rw [if_neg (by decide), if_pos (by simp), h0']
  simp only [hl]
  rw [if_neg (show ¬ "ecm" = "ecm_exp" by decide)]
  cases h : solver (cbECM e d me) (p.opts me.name) (cat2 x y) with
  | error x => rfl
  | ok s => rfl

theorem solve_tool_ecm_exp (e : Env) (g : UAttr d) (me : Method) (guess : Guess n) (adj : AdjSpec n) (ma : String) (ga : Guess n) (p : Params)
    {x y : Fin n → ℝ} {guess' : Guess n} (h0 : guessECM e d true guess = (.ok (x, y), guess')) :
    let g1 : UAttr d :=
      { g with last_model := some "ecm_exp", full_return := p.full_return, x := some x, y := some y, args := some .ecm, step_fun := some .ecm_exp }
    solve_tool e g "ecm_exp" me.name guess adj ma ga p = match solver (cbECMexp e d me) (p.opts me.name) (cat2 x y) with
      | .error x => ⟨g1, some (.numeric x), guess', ga⟩
      | .ok s => ⟨(solutionError e (setSolvedECM g1 true s)).1, (solutionError e (setSolvedECM g1 true s)).2, guess', ga⟩ := by
  have hl : uLookup "ecm_exp" me.name = some (.ecm_exp, me) := uLookup_name .ecm_exp me
  have h0' : guessECM e d (decide ("ecm_exp" = "ecm_exp")) guess = (.ok (x, y), guess') := h0
  intro g1
  unfold solve_tool
  rw [if_pos (by simp)]
  unfold solveProblem
  rw [if_neg (by decide), if_pos (by simp), h0']
  simp only [hl]
  simp only [if_true]
  cases h : solver (cbECMexp e d me) (p.opts me.name) (cat2 x y) with
  | error x => rfl
  | ok s => rfl

/-- dense CReMa on triples -/
theorem cremaTail_edges (e : Env) (g : UAttr d) (l : Edges n) (me : Method) (guess : Guess n) (p : Params) (hsp : g.is_sparse = false)
    {b : Fin n → ℝ} {guess' : Guess n} (h0 : guessCrema e d guess = (.ok b, guess')) :
    let g1 : UAttr d := { g with
      is_sparse := false, last_model := some "crema", full_return := p.full_return, beta := some b, args := some (.crema (.edges l)), step_fun := some .crema }
    solveCremaTail e g (.edges l) "crema" me.name guess p = match solver (cbCrema e d l me) (p.opts me.name) b with
      | .error x => (g1, some (.numeric x), guess')
      | .ok s => (setSolvedCrema g1 s, none, guess') := by
  have hl : uLookup "crema" me.name = some (.crema, me) := uLookup_name .crema me
  intro g1
  unfold solveCremaTail
  simp only [hsp, Bool.false_eq_true, if_false, h0, hl]
  cases h : solver (cbCrema e d l me) (p.opts me.name) b with
  | error x => rfl
  | ok s => rfl

/-- CReMa on a given matrix -/
theorem solve_tool_crema_matrix (e : Env) (g : UAttr d) (me : Method) (guess : Guess n) (a : Fin n → Fin n → ℝ) (ma : String) (ga : Guess n) (p : Params)
    {b : Fin n → ℝ} {guess' : Guess n} (h0 : guessCrema e d guess = (.ok b, guess')) :
    let g1 : UAttr d := { g with
      is_sparse := false, adjacency_crema := some (.edges (triuEdges a)), adjacency_given := some true,
      last_model := some "crema", full_return := p.full_return, beta := some b, args := some (.crema (.edges (triuEdges a))), step_fun := some .crema }
    solve_tool e g "crema" me.name guess (.matrix a) ma ga p = match solver (cbCrema e d (triuEdges a) me) (p.opts me.name) b with
      | .error x => ⟨g1, some (.numeric x), guess', ga⟩
      | .ok s => ⟨(solutionError e (setSolvedCrema g1 s)).1, (solutionError e (setSolvedCrema g1 s)).2, guess', ga⟩ := by
  intro g1
  unfold solve_tool
  rw [if_neg (by decide), if_pos (by simp)]
  unfold solveProblemCrema
  simp only
  rw [cremaTail_edges e _ (triuEdges a) me guess p rfl h0]
  cases h : solver (cbCrema e d (triuEdges a) me) (p.opts me.name) b with
  | error x => rfl
  | ok s => rfl

/-- sparse CReMa on fitnesses -/
theorem cremaTail_fitness (e : Env) (g : UAttr d) (x : Fin n → ℝ) (model : String) (me : Method) (guess : Guess n) (p : Params) (hsp : g.is_sparse = true)
    (hme : me ≠ .newton) {b : Fin n → ℝ} {guess' : Guess n} (h0 : guessCrema e d guess = (.ok b, guess')) :
    let g1 : UAttr d := { g with
      is_sparse := true, last_model := some "crema-sparse", full_return := p.full_return, beta := some b, args := some (.crema (.fitness x)),
      step_fun := some .crema_sparse }
    solveCremaTail e g (.fitness x) model me.name guess p = match solver (cbCremaSparse e d x me) (p.opts me.name) b with
      | .error x => (g1, some (.numeric x), guess')
      | .ok s => (setSolvedCrema g1 s, none, guess') := by
  have hl : uLookup "crema-sparse" me.name = some (.crema_sparse, me) := uLookup_name .crema_sparse me
  have hm : me.name ≠ "newton" := by cases me <;> simp_all [Method.name]
  intro g1
  unfold solveCremaTail
  simp only [hsp, if_true, h0, hl, CremaAdj.asFitness, if_neg hm, hm, false_and, if_false]
  cases h : solver (cbCremaSparse e d x me) (p.opts me.name) b with
  | error x => rfl
  | ok s => rfl

/-- the binary problem inside CReMa -/
theorem solveProblem_cm_exp (e : Env) (g : UAttr d) (me : Method) (guess : Guess n) (p : Params)
    {x0 : Fin d.r → ℝ} (h0 : guessCM e d true guess = .ok x0) :
    let g1 : UAttr d := { g with last_model := some "cm_exp", full_return := p.full_return, args := some .cm, step_fun := some .cm_exp, fun_pmatrix := true }
    solveProblem e g "cm_exp" me.name guess p = match solver (cbCMexp e d me) (p.opts me.name) x0 with
      | .error x => (g1, some (.numeric x), guess)
      | .ok s => (setSolvedCM g1 true s, none, guess) := by
  have hl : uLookup "cm_exp" me.name = some (.cm_exp, me) := uLookup_name .cm_exp me
  have h0' : guessCM e d (decide ("cm_exp" = "cm_exp")) guess = .ok x0 := h0
  intro g1
  unfold solveProblem
  rw [if_pos (by simp), h0']
  simp only [hl, if_true]
  cases h : solver (cbCMexp e d me) (p.opts me.name) x0 with
  | error x => rfl
  | ok s => rfl

/-- CReMa on the link probabilities of the UBCM solved first (`adjacency="cm_exp"`, the default) -/
theorem solve_tool_crema_cm_exp (e : Env) (g : UAttr d) (me ma : Method) (guess ga : Guess n) (p : Params)
    {x0 : Fin d.r → ℝ} (hx : guessCM e.inner d true ga = .ok x0) {s : State (Fin d.r)} (hs : solver (cbCMexp e.inner d ma) (p.opts ma.name) x0 = .ok s)
    {b : Fin n → ℝ} {guess' : Guess n} (h0 : guessCrema e d guess = (.ok b, guess')) :
    let x : Fin n → ℝ := fun i => Real.exp (-s.x (d.inv i))
    let l := triuEdges (CM.pmatrix_cm x)
    let g0 : UAttr d := setSolvedCM { g with is_sparse := false, last_model := some "cm_exp", full_return := p.full_return, args := some .cm, step_fun := some .cm_exp, fun_pmatrix := true } true s
    let g1 : UAttr d := { g0 with
      is_sparse := false, adjacency_crema := some (.edges l), adjacency_given := some false,
      last_model := some "crema", full_return := p.full_return, beta := some b, args := some (.crema (.edges l)), step_fun := some .crema }
    solve_tool e g "crema" me.name guess (.name "cm_exp") ma.name ga p = match solver (cbCrema e d l me) (p.opts me.name) b with
      | .error x => ⟨g1, some (.numeric x), guess', ga⟩
      | .ok s => ⟨(solutionError e (setSolvedCrema g1 s)).1, (solutionError e (setSolvedCrema g1 s)).2, guess', ga⟩ := by
  intro x l g0 g1
  unfold solve_tool
  rw [if_neg (by decide), if_pos (by simp)]
  unfold solveProblemCrema
  simp only [show decide ("crema" = "crema-sparse") = false by decide]
  rw [solveProblem_cm_exp e.inner _ ma ga p hx, hs]
  simp only [setSolvedCM, if_true, Bool.false_eq_true, if_false]
  rw [cremaTail_edges e _ l me guess p rfl h0]
  cases h : solver (cbCrema e d l me) (p.opts me.name) b with
  | error x => rfl
  | ok s => rfl

/-- sparse CReMa on the fitnesses of the UBCM solved first -/
theorem solve_tool_crema_sparse_cm_exp (e : Env) (g : UAttr d) (me ma : Method) (hme : me ≠ .newton) (guess ga : Guess n) (p : Params)
    {x0 : Fin d.r → ℝ} (hx : guessCM e.inner d true ga = .ok x0) {s : State (Fin d.r)} (hs : solver (cbCMexp e.inner d ma) (p.opts ma.name) x0 = .ok s)
    {b : Fin n → ℝ} {guess' : Guess n} (h0 : guessCrema e d guess = (.ok b, guess')) :
    let x : Fin n → ℝ := fun i => Real.exp (-s.x (d.inv i))
    let g0 : UAttr d := setSolvedCM { g with is_sparse := true, last_model := some "cm_exp", full_return := p.full_return, args := some .cm, step_fun := some .cm_exp, fun_pmatrix := true } true s
    let g1 : UAttr d := { g0 with
      is_sparse := true, adjacency_crema := some (.fitness x), adjacency_given := some false,
      last_model := some "crema-sparse", full_return := p.full_return, beta := some b, args := some (.crema (.fitness x)), step_fun := some .crema_sparse }
    solve_tool e g "crema-sparse" me.name guess (.name "cm_exp") ma.name ga p = match solver (cbCremaSparse e d x me) (p.opts me.name) b with
      | .error x => ⟨g1, some (.numeric x), guess', ga⟩
      | .ok s => ⟨(solutionError e (setSolvedCrema g1 s)).1, (solutionError e (setSolvedCrema g1 s)).2, guess', ga⟩ := by
  intro x g0 g1
  unfold solve_tool
  rw [if_neg (by decide), if_pos (by simp)]
  unfold solveProblemCrema
  simp only [show decide ("crema-sparse" = "crema-sparse") = true by decide]
  rw [solveProblem_cm_exp e.inner _ ma ga p hx, hs]
  simp only [setSolvedCM, if_true, Bool.false_eq_true, if_false]
  rw [cremaTail_fitness e _ x "crema-sparse" me guess p rfl hme h0]
  cases h : solver (cbCremaSparse e d x me) (p.opts me.name) b with
  | error x => rfl
  | ok s => rfl

end Verif.Solve
