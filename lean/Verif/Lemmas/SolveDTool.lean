import Verif.Lemmas.SolveD

/-! What `DirectedGraph.solve_tool` does on the documented names: one or two runs of `solver` and the error report. -/

namespace Verif.Solve

open Verif Finset Reduction Solver Spec

open Classical in
attribute [local instance 0] propDecidable

variable {n : ℕ} [NeZero n] {d : DData n}

/-- the attributes without the error report -/
def DAttr.sol (g : DAttr d) : DAttr d := { g with expected_dseq := none, expected_strength_seq := none, expected_stregth_seq := none, relative_error_degree := none, relative_error_strength := none, error := none, error_degree := none, error_strength := none }

theorem degreeErrorD_sol (g : DAttr d) : (degreeErrorD g).sol = g.sol := by
  unfold degreeErrorD
  split <;> rfl

theorem strengthErrorD_sol (g : DAttr d) : (strengthErrorD g).1.sol = g.sol := by
  unfold strengthErrorD
  split
  · split
    · rfl
    · dsimp only
      split
      · split
        · rfl
        · rfl
        · split <;> rfl
      · split
        · rfl
        · rfl
        · split <;> rfl
      · rfl
  · rfl

/-- `_solution_error` only writes the error attributes -/
theorem solutionErrorD_sol (g : DAttr d) : (solutionErrorD g).1.sol = g.sol := by
  unfold solutionErrorD
  split
  · rw [strengthErrorD_sol, degreeErrorD_sol]
  · split
    · split <;> rfl
    · rfl

theorem keepsD {α : Type} (f : DAttr d → α) (hf : ∀ g, f g.sol = f g) (g : DAttr d) : f (solutionErrorD g).1 = f g := by
  rw [← hf, solutionErrorD_sol, hf]

/-! ### the four models without CReMa -/

/-- attributes before the run of `solver` -/
def preDCM (g : DAttr d) (mo : DModel) (p : Params) : DAttr d :=
  { g with last_model := some mo.name, full_return := p.full_return, args := some .dcm, step_fun := some mo, fun_pmatrix := true }

def preDECM (g : DAttr d) (mo : DModel) (v : Fin 4 × Fin n → ℝ) (p : Params) : DAttr d :=
  { g with last_model := some mo.name, full_return := p.full_return, x := some (blk4 v 0), y := some (blk4 v 1), b_out := some (blk4 v 2), b_in := some (blk4 v 3),
           args := some .decm, step_fun := some mo }

theorem solveProblemD_dcm (e : Env) (g : DAttr d) (me : Method) (guess : DGuess n) (p : Params) {x0 : Fin 2 × Fin d.r → ℝ}
    (h0 : guessDCM e d false guess = .ok x0) :
    solveProblemD e g "dcm" me.name guess p = match solver (cbDCM e d me) (p.opts me.name) x0 with
      | .error x => (preDCM g .dcm p, some (.numeric x), guess)
      | .ok s => (setSolvedDCM (preDCM g .dcm p) false s, none, guess) := by
  have hl : dLookup "dcm" me.name = some (.dcm, me) := dLookup_name .dcm me
  have h0' : guessDCM e d (decide ("dcm" = "dcm_exp")) guess = .ok x0 := h0
  unfold solveProblemD
  rw [if_pos (by simp), h0']
  simp only [hl]
  rw [if_neg (show ¬ "dcm" = "dcm_exp" by decide)]
  cases h : solver (cbDCM e d me) (p.opts me.name) x0 with
  | error x => rfl
  | ok s => rfl

theorem solveProblemD_dcm_exp (e : Env) (g : DAttr d) (me : Method) (guess : DGuess n) (p : Params) {x0 : Fin 2 × Fin d.r → ℝ}
    (h0 : guessDCM e d true guess = .ok x0) :
    solveProblemD e g "dcm_exp" me.name guess p = match solver (cbDCMexp e d me) (p.opts me.name) x0 with
      | .error x => (preDCM g .dcm_exp p, some (.numeric x), guess)
      | .ok s => (setSolvedDCM (preDCM g .dcm_exp p) true s, none, guess) := by
  have hl : dLookup "dcm_exp" me.name = some (.dcm_exp, me) := dLookup_name .dcm_exp me
  have h0' : guessDCM e d (decide ("dcm_exp" = "dcm_exp")) guess = .ok x0 := h0
  unfold solveProblemD
  rw [if_pos (by simp), h0']
  simp only [hl]
  simp only [if_true]
  cases h : solver (cbDCMexp e d me) (p.opts me.name) x0 with
  | error x => rfl
  | ok s => rfl

theorem solveProblemD_decm (e : Env) (g : DAttr d) (me : Method) (guess : DGuess n) (p : Params) {v : Fin 4 × Fin n → ℝ} {guess' : DGuess n}
    (h0 : guessDECM e d false guess = (.ok v, guess')) :
    solveProblemD e g "decm" me.name guess p = match solver (cbDECM e d me) (p.opts me.name) v with
      | .error x => (preDECM g .decm v p, some (.numeric x), guess')
      | .ok s => (setSolvedDECM (preDECM g .decm v p) false s, none, guess') := by
  have hl : dLookup "decm" me.name = some (.decm, me) := dLookup_name .decm me
  have h0' : guessDECM e d (decide ("decm" = "decm_exp")) guess = (.ok v, guess') := h0
  unfold solveProblemD
  rw [if_neg (by decide), if_pos (by simp), h0']
  simp only [hl]
  rw [if_neg (show ¬ "decm" = "decm_exp" by decide)]
  cases h : solver (cbDECM e d me) (p.opts me.name) v with
  | error x => rfl
  | ok s => rfl

theorem solveProblemD_decm_exp (e : Env) (g : DAttr d) (me : Method) (guess : DGuess n) (p : Params) {v : Fin 4 × Fin n → ℝ} {guess' : DGuess n}
    (h0 : guessDECM e d true guess = (.ok v, guess')) :
    solveProblemD e g "decm_exp" me.name guess p = match solver (cbDECMexp e d me) (p.opts me.name) v with
      | .error x => (preDECM g .decm_exp v p, some (.numeric x), guess')
      | .ok s => (setSolvedDECM (preDECM g .decm_exp v p) true s, none, guess') := by
  have hl : dLookup "decm_exp" me.name = some (.decm_exp, me) := dLookup_name .decm_exp me
  have h0' : guessDECM e d (decide ("decm_exp" = "decm_exp")) guess = (.ok v, guess') := h0
  unfold solveProblemD
  rw [if_neg (by decide), if_pos (by simp), h0']
  simp only [hl]
  simp only [if_true]
  cases h : solver (cbDECMexp e d me) (p.opts me.name) v with
  | error x => rfl
  | ok s => rfl

/-- the four models without CReMa: the run and then the error report -/
theorem solve_tool_plain (e : Env) (g : DAttr d) (model method : String) (hm : model = "dcm" ∨ model = "dcm_exp" ∨ model = "decm" ∨ model = "decm_exp")
    (guess : DGuess n) (adj : AdjSpec n) (ma : String) (ga : DGuess n) (p : Params) :
    solve_tool_directed e g model method guess adj ma ga p = match solveProblemD e g model method guess p with
      | (g1, some x, guess') => ⟨g1, some x, guess', ga⟩
      | (g1, none, guess') => ⟨(solutionErrorD g1).1, (solutionErrorD g1).2, guess', ga⟩ := by
  unfold solve_tool_directed
  rw [if_pos hm]
  rcases h : solveProblemD e g model method guess p with ⟨g1, _ | x, guess'⟩
  · rfl
  · rfl

theorem solve_tool_dcm (e : Env) (g : DAttr d) (me : Method) (guess : DGuess n) (adj : AdjSpec n) (ma : String) (ga : DGuess n) (p : Params)
    {x0 : Fin 2 × Fin d.r → ℝ} (h0 : guessDCM e d false guess = .ok x0) :
    solve_tool_directed e g "dcm" me.name guess adj ma ga p = match solver (cbDCM e d me) (p.opts me.name) x0 with
      | .error x => ⟨preDCM g .dcm p, some (.numeric x), guess, ga⟩
      | .ok s => ⟨(solutionErrorD (setSolvedDCM (preDCM g .dcm p) false s)).1, (solutionErrorD (setSolvedDCM (preDCM g .dcm p) false s)).2, guess, ga⟩ := by
  rw [solve_tool_plain e g _ _ (by simp), solveProblemD_dcm e g me guess p h0]
  cases h : solver (cbDCM e d me) (p.opts me.name) x0 <;> rfl

theorem solve_tool_dcm_exp (e : Env) (g : DAttr d) (me : Method) (guess : DGuess n) (adj : AdjSpec n) (ma : String) (ga : DGuess n) (p : Params)
    {x0 : Fin 2 × Fin d.r → ℝ} (h0 : guessDCM e d true guess = .ok x0) :
    solve_tool_directed e g "dcm_exp" me.name guess adj ma ga p = match solver (cbDCMexp e d me) (p.opts me.name) x0 with
      | .error x => ⟨preDCM g .dcm_exp p, some (.numeric x), guess, ga⟩
      | .ok s => ⟨(solutionErrorD (setSolvedDCM (preDCM g .dcm_exp p) true s)).1,
          (solutionErrorD (setSolvedDCM (preDCM g .dcm_exp p) true s)).2, guess, ga⟩ := by
  rw [solve_tool_plain e g _ _ (by simp), solveProblemD_dcm_exp e g me guess p h0]
  cases h : solver (cbDCMexp e d me) (p.opts me.name) x0 <;> rfl

theorem solve_tool_decm (e : Env) (g : DAttr d) (me : Method) (guess : DGuess n) (adj : AdjSpec n) (ma : String) (ga : DGuess n) (p : Params)
    {v : Fin 4 × Fin n → ℝ} {guess' : DGuess n} (h0 : guessDECM e d false guess = (.ok v, guess')) :
    solve_tool_directed e g "decm" me.name guess adj ma ga p = match solver (cbDECM e d me) (p.opts me.name) v with
      | .error x => ⟨preDECM g .decm v p, some (.numeric x), guess', ga⟩
      | .ok s => ⟨(solutionErrorD (setSolvedDECM (preDECM g .decm v p) false s)).1,
          (solutionErrorD (setSolvedDECM (preDECM g .decm v p) false s)).2, guess', ga⟩ := by
  rw [solve_tool_plain e g _ _ (by simp), solveProblemD_decm e g me guess p h0]
  cases h : solver (cbDECM e d me) (p.opts me.name) v <;> rfl

theorem solve_tool_decm_exp (e : Env) (g : DAttr d) (me : Method) (guess : DGuess n) (adj : AdjSpec n) (ma : String) (ga : DGuess n) (p : Params)
    {v : Fin 4 × Fin n → ℝ} {guess' : DGuess n} (h0 : guessDECM e d true guess = (.ok v, guess')) :
    solve_tool_directed e g "decm_exp" me.name guess adj ma ga p = match solver (cbDECMexp e d me) (p.opts me.name) v with
      | .error x => ⟨preDECM g .decm_exp v p, some (.numeric x), guess', ga⟩
      | .ok s => ⟨(solutionErrorD (setSolvedDECM (preDECM g .decm_exp v p) true s)).1,
          (solutionErrorD (setSolvedDECM (preDECM g .decm_exp v p) true s)).2, guess', ga⟩ := by
  rw [solve_tool_plain e g _ _ (by simp), solveProblemD_decm_exp e g me guess p h0]
  cases h : solver (cbDECMexp e d me) (p.opts me.name) v <;> rfl

/-! ### CReMa -/

/-- attributes before the run of the solver for the rates -/
def preDCrema (g : DAttr d) (mo : DModel) (adj : DCremaAdj n) (bo bi : Fin n → ℝ) (p : Params) : DAttr d :=
  { g with last_model := some mo.name, full_return := p.full_return, b_out := some bo, b_in := some bi, args := some (.crema adj), step_fun := some mo }

theorem dcremaTail_edges (e : Env) (g : DAttr d) (hz : d.nz_known = true) (l : Edges n) (me : Method) (guess : DGuess n) (p : Params)
    (hsp : g.is_sparse = false) {bo bi : Fin n → ℝ} {guess' : DGuess n} (h0 : guessDCrema e d guess = (.ok (bo, bi), guess')) :
    solveDCremaTail e g (.edges l) "crema" me.name guess p = match solver (cbDCrema e d l me) (p.opts me.name) (cat2 bo bi) with
      | .error x => (preDCrema g .crema (.edges l) bo bi p, some (.numeric x), guess')
      | .ok s => (setSolvedDCrema (preDCrema g .crema (.edges l) bo bi p) s, none, guess') := by
  have hl : dLookup "crema" me.name = some (.crema, me) := dLookup_name .crema me
  cases g
  simp only at hsp
  subst hsp
  unfold solveDCremaTail
  simp only [Bool.false_eq_true, if_false, h0, hl, hz, if_true]
  cases h : solver (cbDCrema e d l me) (p.opts me.name) (cat2 bo bi) <;> rfl

theorem dcremaTail_fitness (e : Env) (g : DAttr d) (x y : Fin n → ℝ) (me : Method) (hme : me ≠ .newton) (hz : d.nz_known = true ∨ me = .fixed_point)
    (guess : DGuess n) (p : Params)
    (hsp : g.is_sparse = true) {bo bi : Fin n → ℝ} {guess' : DGuess n} (h0 : guessDCrema e d guess = (.ok (bo, bi), guess')) (model : String) :
    solveDCremaTail e g (.fitness x y) model me.name guess p = match solver (cbDCremaSparse e d x y me) (p.opts me.name) (cat2 bo bi) with
      | .error err => (preDCrema g .crema_sparse (.fitness x y) bo bi p, some (.numeric err), guess')
      | .ok s => (setSolvedDCrema (preDCrema g .crema_sparse (.fitness x y) bo bi p) s, none, guess') := by
  have hl : dLookup "crema-sparse" me.name = some (.crema_sparse, me) := dLookup_name .crema_sparse me
  have hnn : ¬ me.name = "newton" := by cases me <;> simp_all [Method.name]
  cases g
  simp only at hsp
  subst hsp
  unfold solveDCremaTail
  simp only [if_true, h0, hl, if_pos hz, hnn, if_false, false_and]
  cases h : solver (cbDCremaSparse e d x y me) (p.opts me.name) (cat2 bo bi) <;> rfl

/-- the two CReMa models: `_solve_problem_crema_directed` and then the error report -/
theorem solve_tool_crema_names (e : Env) (g : DAttr d) (model method : String) (hm : model = "crema" ∨ model = "crema-sparse")
    (guess : DGuess n) (adj : AdjSpec n) (ma : String) (ga : DGuess n) (p : Params) :
    solve_tool_directed e g model method guess adj ma ga p =
      let r := solveProblemDCrema e g model method guess adj ma ga p
      match r.exc with
      | some _ => r
      | none => { r with g := (solutionErrorD r.g).1, exc := (solutionErrorD r.g).2 } := by
  unfold solve_tool_directed
  rw [if_neg (by rcases hm with rfl | rfl <;> decide), if_pos hm]
  rfl

/-- a graph object before the rates are computed: the matrix of link probabilities is known -/
def withAdj (g : DAttr d) (adj : DCremaAdj n) (sparse given : Bool) : DAttr d :=
  { g with is_sparse := sparse, adjacency_crema := some adj, adjacency_given := some given }

theorem solve_tool_dcrema_matrix (e : Env) (g : DAttr d) (hz : d.nz_known = true) (me : Method) (guess : DGuess n) (a : Fin n → Fin n → ℝ) (ma : String)
    (ga : DGuess n) (p : Params) {bo bi : Fin n → ℝ} {guess' : DGuess n} (h0 : guessDCrema e d guess = (.ok (bo, bi), guess')) :
    let g1 := preDCrema (withAdj g (.edges (nzEdges a)) false true) .crema (.edges (nzEdges a)) bo bi p
    solve_tool_directed e g "crema" me.name guess (.matrix a) ma ga p = match solver (cbDCrema e d (nzEdges a) me) (p.opts me.name) (cat2 bo bi) with
      | .error x => ⟨g1, some (.numeric x), guess', ga⟩
      | .ok s => ⟨(solutionErrorD (setSolvedDCrema g1 s)).1, (solutionErrorD (setSolvedDCrema g1 s)).2, guess', ga⟩ := by
  intro g1
  rw [solve_tool_crema_names e g _ _ (by simp)]
  unfold solveProblemDCrema
  simp only
  rw [dcremaTail_edges e _ hz (nzEdges a) me guess p rfl h0]
  cases h : solver (cbDCrema e d (nzEdges a) me) (p.opts me.name) (cat2 bo bi) <;> rfl

/-- dense CReMa after a binary problem that succeeded -/
theorem solve_tool_dcrema_named (e : Env) (g : DAttr d) (hz : d.nz_known = true) (me : Method) (guess : DGuess n) (a ma : String)
    (ga ga' : DGuess n) (p : Params) {g' : DAttr d} {x y : Fin n → ℝ}
    (hb : solveProblemD e.inner { g with is_sparse := false } a ma ga { p with linsearch := true } = (g', none, ga'))
    (hx : g'.x = some x) (hy : g'.y = some y) (hs : g'.is_sparse = false) (hp : g'.fun_pmatrix = true)
    {bo bi : Fin n → ℝ} {guess' : DGuess n} (h0 : guessDCrema e d guess = (.ok (bo, bi), guess')) :
    let adj : DCremaAdj n := .edges (nzEdges (d.pmat x y))
    let g1 := preDCrema (withAdj g' adj false false) .crema adj bo bi p
    solve_tool_directed e g "crema" me.name guess (.name a) ma ga p = match solver (cbDCrema e d (nzEdges (d.pmat x y)) me) (p.opts me.name) (cat2 bo bi) with
      | .error x => ⟨g1, some (.numeric x), guess', ga'⟩
      | .ok s => ⟨(solutionErrorD (setSolvedDCrema g1 s)).1, (solutionErrorD (setSolvedDCrema g1 s)).2, guess', ga'⟩ := by
  intro adj g1
  rw [solve_tool_crema_names e g _ _ (by simp)]
  cases g'
  simp only at hx hy hs hp
  subst hs hx hy hp
  unfold solveProblemDCrema
  simp only
  rw [show decide ("crema" = "crema-sparse") = false from rfl, hb]
  simp only [Bool.false_eq_true, if_false, if_true]
  rw [dcremaTail_edges e _ hz _ me guess p (by rfl) h0]
  cases h : solver (cbDCrema e d (nzEdges (d.pmat x y)) me) (p.opts me.name) (cat2 bo bi) <;> rfl

/-- sparse CReMa after a binary problem that succeeded -/
theorem solve_tool_dcrema_sparse_named (e : Env) (g : DAttr d) (me : Method) (hme : me ≠ .newton) (hz : d.nz_known = true ∨ me = .fixed_point)
    (guess : DGuess n) (a ma : String)
    (ga ga' : DGuess n) (p : Params) {g' : DAttr d} {x y : Fin n → ℝ}
    (hb : solveProblemD e.inner { g with is_sparse := true } a ma ga { p with linsearch := true } = (g', none, ga'))
    (hx : g'.x = some x) (hy : g'.y = some y) (hs : g'.is_sparse = true)
    {bo bi : Fin n → ℝ} {guess' : DGuess n} (h0 : guessDCrema e d guess = (.ok (bo, bi), guess')) :
    let adj : DCremaAdj n := .fitness x y
    let g1 := preDCrema (withAdj g' adj true false) .crema_sparse adj bo bi p
    solve_tool_directed e g "crema-sparse" me.name guess (.name a) ma ga p = match solver (cbDCremaSparse e d x y me) (p.opts me.name) (cat2 bo bi) with
      | .error x => ⟨g1, some (.numeric x), guess', ga'⟩
      | .ok s => ⟨(solutionErrorD (setSolvedDCrema g1 s)).1, (solutionErrorD (setSolvedDCrema g1 s)).2, guess', ga'⟩ := by
  intro adj g1
  rw [solve_tool_crema_names e g _ _ (by simp)]
  cases g'
  simp only at hx hy hs
  subst hs hx hy
  unfold solveProblemDCrema
  simp only [decide_true]
  rw [hb]
  simp only [if_true]
  rw [dcremaTail_fitness e _ x y me hme hz guess p (by rfl) h0]
  cases h : solver (cbDCremaSparse e d x y me) (p.opts me.name) (cat2 bo bi) <;> rfl

end Verif.Solve
