import Verif.Props.SolveU6
import Verif.Props.SolveD6

/-!
C58: a successful call of `solve_tool` forgets the past.  `g` and `g'` are two arbitrary earlier states of the object (all attributes that any history of calls can
have left), the arguments of the call are the same.
-/

set_option linter.unusedSectionVars false

namespace Verif.Solve

open Verif Finset Reduction Solver Spec

noncomputable section

open Classical in
attribute [local instance 0] propDecidable

section undirected

variable {n : ℕ} [NeZero n] {d : UData n}

/-- the outcome (exception, contents of the guess) of the binary and enhanced problems does not see the earlier attributes, and the attributes a successful
call sets are the same -/
theorem solveProblem_memoryless (e : Env) (g g' : UAttr d) (model method : String) (guess : Guess n) (p : Params) :
    let r := solveProblem e g model method guess p
    let r' := solveProblem e g' model method guess p
    r.2 = r'.2 ∧ r.1.last_model = r'.1.last_model ∧ r.1.full_return = r'.1.full_return ∧ r.1.beta = g.beta ∧ r.1.is_sparse = g.is_sparse ∧
      r.1.adjacency_crema = g.adjacency_crema ∧ r.1.adjacency_given = g.adjacency_given ∧ r.1.last_model = some model ∧
      (r.2.1 = none → r.1.x = r'.1.x ∧ r.1.x ≠ none ∧ r.1.solution_array = r'.1.solution_array ∧ r.1.args = r'.1.args ∧ r.1.step_fun = r'.1.step_fun ∧
        (p.full_return = true → r.1.trace = r'.1.trace) ∧ ((model = "ecm" ∨ model = "ecm_exp") → r.1.y = r'.1.y ∧ r.1.y ≠ none) ∧
        ((model = "cm" ∨ model = "cm_exp") → r.1.fun_pmatrix = true ∧ r'.1.fun_pmatrix = true)) := by
  intro r r'
  simp only [r, r']
  unfold solveProblem
  dsimp only
  by_cases h1 : model = "cm" ∨ model = "cm_exp"
  · have h2 : ¬(model = "ecm" ∨ model = "ecm_exp") := by rcases h1 with rfl | rfl <;> decide
    simp only [if_pos h1, h1, h2]
    cases guessCM e d (model = "cm_exp") guess with
    | error x => simp
    | ok x0 =>
      cases uLookup model method with
      | none => simp
      | some q =>
        dsimp only
        cases solver (if model = "cm_exp" then cbCMexp e d q.2 else cbCM e d q.2) (p.opts method) x0 with
        | error x => simp
        | ok s => simp [setSolvedCM]; intro h; simp [h]
  · simp only [if_neg h1, h1, if_false]
    by_cases h2 : model = "ecm" ∨ model = "ecm_exp"
    · simp only [if_pos h2, h2]
      rcases guessECM e d (model = "ecm_exp") guess with ⟨x0, gu⟩
      cases x0 with
      | error x => simp
      | ok x0 =>
        cases uLookup model method with
        | none => simp
        | some q =>
          dsimp only
          cases solver (if model = "ecm_exp" then cbECMexp e d q.2 else cbECM e d q.2) (p.opts method) (cat2 x0.1 x0.2) with
          | error x => simp
          | ok s => simp [setSolvedECM]; intro h; simp [h]
    · simp only [if_neg h2, h2, if_false]
      split_ifs <;> simp

theorem cremaTail_memoryless (e : Env) (g g' : UAttr d) (adj : CremaAdj n) (model method : String) (guess : Guess n) (p : Params) (hs : g.is_sparse = g'.is_sparse) :
    let r := solveCremaTail e g adj model method guess p
    let r' := solveCremaTail e g' adj model method guess p
    r.2 = r'.2 ∧ r.1.last_model = r'.1.last_model ∧ r.1.full_return = r'.1.full_return ∧ r.1.x = g.x ∧ r.1.y = g.y ∧ r.1.is_sparse = g.is_sparse ∧
      r.1.adjacency_crema = g.adjacency_crema ∧ r.1.adjacency_given = g.adjacency_given ∧ r.1.trace = g.trace ∧ r.1.error_degree = g.error_degree ∧
      r.1.last_model = some (if g.is_sparse then "crema-sparse" else model) ∧
      (r.2.1 = none → r.1.beta = r'.1.beta ∧ r.1.beta ≠ none ∧ r.1.solution_array = r'.1.solution_array ∧ r.1.args = r'.1.args ∧ r.1.step_fun = r'.1.step_fun ∧
        (p.full_return = true → r.1.trace_crema = r'.1.trace_crema)) := by
  intro r r'
  simp only [r, r']
  unfold solveCremaTail
  dsimp only
  rw [← hs]
  set model' := if g.is_sparse = true then "crema-sparse" else model with hm
  rcases guessCrema e d guess with ⟨b, gu⟩
  cases b with
  | error x => simp
  | ok b =>
    cases uLookup model' method with
    | none => simp
    | some q =>
      rcases q with ⟨mo, me⟩
      dsimp only
      cases mo <;> cases adj <;> dsimp only <;> first
        | (simp; done)
        | (split
           · simp
           · simp [setSolvedCrema]; intro h; simp [h])
        | (split
           · simp
           · split
             · simp
             · simp [setSolvedCrema]; intro h; simp [h])
        | (split
           · split
             · simp
             · simp [setSolvedCrema]; intro h; simp [h]
           · simp)

theorem strengthError_side (e : Env) (g : UAttr d) : (strengthError e g).1.expected_dseq = g.expected_dseq ∧ (strengthError e g).1.error_degree = g.error_degree ∧
    (strengthError e g).1.relative_error_degree = g.relative_error_degree ∧ ∀ er, (strengthError e g).2 ≠ some (.numeric er) := by
  unfold strengthError
  split
  · simp
  · split
    · simp
    · dsimp only
      split
      · split
        · simp
        · simp
        · split <;> simp
      · split
        · split
          · simp
          · simp
          · split <;> simp
        · simp

theorem degreeError_side {g : UAttr d} (h : g.x ≠ none) : ∃ x, g.x = some x ∧ degreeError g =
    { g with expected_dseq := some (CM.expected_degree_cm x), error_degree := some (maxAbs fun i => CM.expected_degree_cm x i - d.deg i), relative_error_degree := some (maxAbs fun i => (CM.expected_degree_cm x i - d.deg i) / (d.deg i + Real.exp (-100))), error := some (maxAbs fun i => CM.expected_degree_cm x i - d.deg i) } := by
  cases hx : g.x with
  | none => exact absurd hx h
  | some x => exact ⟨x, rfl, by unfold degreeError; simp only [hx]⟩

theorem loglik_congr (e : Env) {g g' : UAttr d} (h1 : g.step_fun = g'.step_fun) (h2 : g.args = g'.args) (h3 : g.solution_array = g'.solution_array) :
    model_loglikelihood e g = model_loglikelihood e g' := by
  unfold model_loglikelihood; rw [h1, h2, h3]

/-- C58 (cm, cm_exp): whatever the object went through before, the solver fails in the same way or not at all, and a call that raises nothing leaves the same
parameters, expected degrees, degree errors, log-likelihood and trace.  `exc` and `error` are also the same if no CReMa rates are left over (see `C37_stale_rates`
for what happens otherwise). -/
theorem C58_cm (e : Env) (g g' : UAttr d) (model method : String) (hm : model = "cm" ∨ model = "cm_exp") (guess : Guess n) (adj : AdjSpec n) (ma : String)
    (ga : Guess n) (p : Params) :
    let R := solve_tool e g model method guess adj ma ga p
    let R' := solve_tool e g' model method guess adj ma ga p
    (∀ er, R.exc = some (.numeric er) ↔ R'.exc = some (.numeric er)) ∧ R.guess = R'.guess ∧
    (R.exc = none → R'.exc = none → R.g.x = R'.g.x ∧ R.g.x ≠ none ∧ R.g.last_model = R'.g.last_model ∧ model_loglikelihood e R.g = model_loglikelihood e R'.g ∧
      R.g.expected_dseq = R'.g.expected_dseq ∧ R.g.error_degree = R'.g.error_degree ∧ R.g.relative_error_degree = R'.g.relative_error_degree ∧
      (p.full_return = true → R.g.trace = R'.g.trace)) ∧
    (g.beta = none → g'.beta = none → R.exc = R'.exc ∧ (R.exc = none → R.g.error = R'.g.error)) := by
  intro R R'
  have hm' : model = "cm" ∨ model = "cm_exp" ∨ model = "ecm" ∨ model = "ecm_exp" := hm.imp_right Or.inl
  obtain ⟨h1, h2, h3, h4, h5, h6, h7, h8, h9⟩ := solveProblem_memoryless e g g' model method guess p
  obtain ⟨-, -, -, h4', -, -, -, h8', -⟩ := solveProblem_memoryless e g' g model method guess p
  simp only [R, R', solve_tool, if_pos hm']
  rw [← h1]
  set r := solveProblem e g model method guess p with hr
  set r' := solveProblem e g' model method guess p with hr'
  cases hx : r.2.1 with
  | some er => simp
  | none =>
    obtain ⟨a1, a2, a3, a4, a5, a6, -, -⟩ := h9 hx
    have l : r.1.last_model = some "cm" ∨ r.1.last_model = some "cm_exp" ∨ r.1.last_model = some "crema" ∨ r.1.last_model = some "crema-sparse" := by
      rw [h8]; rcases hm with rfl | rfl <;> simp
    have l' : r'.1.last_model = some "cm" ∨ r'.1.last_model = some "cm_exp" ∨ r'.1.last_model = some "crema" ∨ r'.1.last_model = some "crema-sparse" := by
      rw [← h2]; exact l
    obtain ⟨k1, -, -, k4, k5, -, k7, k8, k9, -⟩ := solutionError_keeps e r.1
    obtain ⟨k1', -, -, k4', k5', -, k7', k8', k9', -⟩ := solutionError_keeps e r'.1
    obtain ⟨x, hx1, hx2⟩ := degreeError_side a2
    obtain ⟨x', hx1', hx2'⟩ := degreeError_side (a1 ▸ a2)
    obtain rfl : x = x' := by rw [hx1, hx1'] at a1; simpa using a1
    have s : solutionError e r.1 = strengthError e (degreeError r.1) := by unfold solutionError; rw [if_pos l]
    have s' : solutionError e r'.1 = strengthError e (degreeError r'.1) := by unfold solutionError; rw [if_pos l']
    obtain ⟨t1, t2, t3, t4⟩ := strengthError_side e (degreeError r.1)
    obtain ⟨t1', t2', t3', t4'⟩ := strengthError_side e (degreeError r'.1)
    rw [← s] at t1 t2 t3 t4
    rw [← s'] at t1' t2' t3' t4'
    rw [hx2] at t1 t2 t3
    rw [hx2'] at t1' t2' t3'
    dsimp only
    refine ⟨fun er => ⟨fun h => absurd h (t4 er), fun h => absurd h (t4' er)⟩, rfl, fun _ _ => ⟨?_, ?_, ?_, ?_, ?_, ?_, ?_, fun hf => ?_⟩, fun b b' => ?_⟩
    · rw [k1, k1', a1]
    · rw [k1]; exact a2
    · rw [k7, k7', h2]
    · exact loglik_congr e (by rw [k9, k9', a5]) (by rw [k8, k8', a4]) (by rw [k4, k4', a3])
    · rw [t1, t1']
    · rw [t2, t2']
    · rw [t3, t3']
    · rw [k5, k5', a6 hf]
    · have c : ∀ q : UAttr d, q.beta = none → strengthError e q = (q, none) := fun q hq => by unfold strengthError; rw [hq]
      have c1 : strengthError e (degreeError r.1) = (degreeError r.1, none) := c _ ((degreeError_keeps _).2.2.1.trans (h4.trans b))
      have c2 : strengthError e (degreeError r'.1) = (degreeError r'.1, none) := c _ ((degreeError_keeps _).2.2.1.trans (h4'.trans b'))
      rw [s, s', c1, c2, hx2, hx2']
      exact ⟨rfl, fun _ => rfl⟩

/-- C58 (ecm, ecm_exp): nothing the object went through before is seen by the call or by its report. -/
theorem C58_ecm (e : Env) (g g' : UAttr d) (model method : String) (hm : model = "ecm" ∨ model = "ecm_exp") (guess : Guess n) (adj : AdjSpec n) (ma : String)
    (ga : Guess n) (p : Params) :
    let R := solve_tool e g model method guess adj ma ga p
    let R' := solve_tool e g' model method guess adj ma ga p
    R.exc = R'.exc ∧ R.guess = R'.guess ∧
    (R.exc = none → R.g.x = R'.g.x ∧ R.g.x ≠ none ∧ R.g.y = R'.g.y ∧ R.g.y ≠ none ∧ R.g.last_model = R'.g.last_model ∧
      model_loglikelihood e R.g = model_loglikelihood e R'.g ∧ R.g.expected_dseq = R'.g.expected_dseq ∧ R.g.expected_strength_seq = R'.g.expected_strength_seq ∧
      R.g.error = R'.g.error ∧ R.g.error_degree = R'.g.error_degree ∧ R.g.error_strength = R'.g.error_strength ∧
      R.g.relative_error_degree = R'.g.relative_error_degree ∧ R.g.relative_error_strength = R'.g.relative_error_strength ∧
      (p.full_return = true → R.g.trace = R'.g.trace)) := by
  intro R R'
  have hm' : model = "cm" ∨ model = "cm_exp" ∨ model = "ecm" ∨ model = "ecm_exp" := Or.inr (Or.inr hm)
  obtain ⟨h1, h2, h3, h4, h5, h6, h7, h8, h9⟩ := solveProblem_memoryless e g g' model method guess p
  simp only [R, R', solve_tool, if_pos hm']
  rw [← h1]
  set r := solveProblem e g model method guess p with hr
  set r' := solveProblem e g' model method guess p with hr'
  cases hx : r.2.1 with
  | some er => simp
  | none =>
    obtain ⟨a1, a2, a3, a4, a5, a6, a7, -⟩ := h9 hx
    obtain ⟨a7, a8⟩ := a7 hm
    have l : r.1.last_model = some "ecm" ∨ r.1.last_model = some "ecm_exp" := by
      rw [h8]; rcases hm with rfl | rfl <;> simp
    have l0 : ¬(r.1.last_model = some "cm" ∨ r.1.last_model = some "cm_exp" ∨ r.1.last_model = some "crema" ∨ r.1.last_model = some "crema-sparse") := by
      rw [h8]; rcases hm with rfl | rfl <;> simp
    have l' := l
    have l0' := l0
    rw [h2] at l' l0'
    obtain ⟨k1, k2, -, k4, k5, -, k7, k8, k9, -⟩ := solutionError_keeps e r.1
    obtain ⟨k1', k2', -, k4', k5', -, k7', k8', k9', -⟩ := solutionError_keeps e r'.1
    obtain ⟨x, hx1⟩ := Option.ne_none_iff_exists'.1 a2
    obtain ⟨y, hy1⟩ := Option.ne_none_iff_exists'.1 a8
    have hx1' : r'.1.x = some x := a1 ▸ hx1
    have hy1' : r'.1.y = some y := a7 ▸ hy1
    have ll : model_loglikelihood e (solutionError e r.1).1 = model_loglikelihood e (solutionError e r'.1).1 :=
      loglik_congr e (by rw [k9, k9', a5]) (by rw [k8, k8', a4]) (by rw [k4, k4', a3])
    dsimp only
    refine ⟨?_, rfl, fun _ => ⟨by rw [k1, k1', a1], by rw [k1]; exact a2, by rw [k2, k2', a7], by rw [k2]; exact a8, by rw [k7, k7', h2], ll, ?_, ?_, ?_, ?_, ?_, ?_, ?_,
      fun hf => by rw [k5, k5', a6 hf]⟩⟩
    all_goals
      unfold solutionError
      rw [if_neg l0, if_neg l0', if_pos l, if_pos l', hx1, hx1', hy1, hy1']

/-- what the CReMa error report reads, after `beta` has been set -/
theorem crema_report (e : Env) {g g' : UAttr d} (hl : g.last_model = some "crema" ∨ g.last_model = some "crema-sparse") (hl' : g.last_model = g'.last_model)
    (hb : g.beta = g'.beta) (hb0 : g.beta ≠ none) (ha : g.adjacency_crema = g'.adjacency_crema) (hs : g.is_sparse = g'.is_sparse)
    (hg : g.adjacency_given = g'.adjacency_given) (hx : g.adjacency_given = some true ∨ (g.adjacency_given = some false ∧ g.x = g'.x ∧ g.x ≠ none)) :
    (solutionError e g).2 = (solutionError e g').2 ∧ (g.x = g'.x → g.x ≠ none → (solutionError e g).1.expected_dseq = (solutionError e g').1.expected_dseq ∧ (solutionError e g).1.error_degree = (solutionError e g').1.error_degree) ∧
      ((solutionError e g).2 = none → (solutionError e g).1.expected_stregth_seq = (solutionError e g').1.expected_stregth_seq ∧
        (solutionError e g).1.error_strength = (solutionError e g').1.error_strength ∧ (solutionError e g).1.error = (solutionError e g').1.error ∧
        (solutionError e g).1.relative_error_strength = (solutionError e g').1.relative_error_strength) := by
  have l : g.last_model = some "cm" ∨ g.last_model = some "cm_exp" ∨ g.last_model = some "crema" ∨ g.last_model = some "crema-sparse" := Or.inr (Or.inr hl)
  have l' := l
  rw [hl'] at l'
  have s : solutionError e g = strengthError e (degreeError g) := by unfold solutionError; rw [if_pos l]
  have s' : solutionError e g' = strengthError e (degreeError g') := by unfold solutionError; rw [if_pos l']
  obtain ⟨b, hb1⟩ := Option.ne_none_iff_exists'.1 hb0
  have hD : g.x = g'.x → g.x ≠ none → (degreeError g).expected_dseq = (degreeError g').expected_dseq ∧ (degreeError g).error_degree = (degreeError g').error_degree := by
    intro h0 h
    obtain ⟨x, hx1, hx2⟩ := degreeError_side h
    obtain ⟨x', hx1', hx2'⟩ := degreeError_side (h0 ▸ h)
    obtain rfl : x = x' := by rw [h0, hx1'] at hx1; exact (Option.some.inj hx1).symm
    rw [hx2, hx2']; exact ⟨rfl, rfl⟩
  obtain ⟨t1, t2, t3, t4⟩ := strengthError_side e (degreeError g)
  obtain ⟨t1', t2', t3', t4'⟩ := strengthError_side e (degreeError g')
  refine ⟨?_, fun h0 h => ?_, ?_⟩
  rotate_left
  · rw [s, s', t1, t1', t2, t2']; exact hD h0 h
  all_goals
    obtain ⟨-, -, c3, -, -, -, -, -, -, c10, c11, c12⟩ := degreeError_keeps g
    obtain ⟨-, -, c3', -, -, -, -, -, -, c10', c11', c12'⟩ := degreeError_keeps g'
    have z3 : (degreeError g').beta = some b := by rw [c3', ← hb, hb1]
    have z3' : (degreeError g).beta = some b := by rw [c3, hb1]
    rw [s, s']
    unfold strengthError
    rw [z3, z3', c10, c10', ha, c12, c12', hs, c11, c11', ← hg]
    dsimp only
    cases g'.adjacency_crema with
    | none => simp
    | some a =>
      rcases hx with hx | ⟨hx, h0, h1⟩
      · rw [hx]; cases a <;> cases g'.is_sparse <;> simp
      · rw [hx, (hD h0 h1).2]
        cases (degreeError g').error_degree <;> cases a <;> cases g'.is_sparse <;> simp

/-- the end of `solve_tool`: the report -/
def finish (e : Env) (r : UResult d) : UResult d :=
  match r.exc with
  | some _ => r
  | none => { r with g := (solutionError e r.g).1, exc := (solutionError e r.g).2 }

theorem solve_tool_crema_finish (e : Env) (g : UAttr d) (model method : String) (hm : model = "crema" ∨ model = "crema-sparse") (guess : Guess n) (adj : AdjSpec n)
    (ma : String) (ga : Guess n) (p : Params) :
    solve_tool e g model method guess adj ma ga p = finish e (solveProblemCrema e g model method guess adj ma ga p) := by
  have hm0 : ¬(model = "cm" ∨ model = "cm_exp" ∨ model = "ecm" ∨ model = "ecm_exp") := by rcases hm with rfl | rfl <;> decide
  unfold solve_tool finish
  rw [if_neg hm0, if_pos hm]
  rfl

/-- C58 (crema, crema-sparse) with a given adjacency matrix or the binary problem "cm" or "cm_exp": nothing the object went through before is seen by the call
or by its report on the strengths.  (With a given matrix the report on the degrees is about whatever `x` is left over, as for any solver call.) -/
theorem C58_crema (e : Env) (g g' : UAttr d) (model method : String) (hm : model = "crema" ∨ model = "crema-sparse") (guess : Guess n) (adj : AdjSpec n)
    (hadj : adj = .other ∨ (∃ a, adj = .matrix a) ∨ adj = .name "cm" ∨ adj = .name "cm_exp") (ma : String) (ga : Guess n) (p : Params) :
    let R := solve_tool e g model method guess adj ma ga p
    let R' := solve_tool e g' model method guess adj ma ga p
    R.exc = R'.exc ∧ R.guess = R'.guess ∧ R.guessAdj = R'.guessAdj ∧
    (R.exc = none → R.g.beta = R'.g.beta ∧ R.g.beta ≠ none ∧ R.g.last_model = R'.g.last_model ∧ R.g.adjacency_crema = R'.g.adjacency_crema ∧
      R.g.adjacency_given = R'.g.adjacency_given ∧ R.g.is_sparse = R'.g.is_sparse ∧ model_loglikelihood e R.g = model_loglikelihood e R'.g ∧
      R.g.expected_stregth_seq = R'.g.expected_stregth_seq ∧ R.g.error = R'.g.error ∧ R.g.error_strength = R'.g.error_strength ∧
      R.g.relative_error_strength = R'.g.relative_error_strength ∧ (p.full_return = true → R.g.trace_crema = R'.g.trace_crema) ∧
      ((∃ s, adj = .name s) → R.g.x = R'.g.x ∧ R.g.expected_dseq = R'.g.expected_dseq ∧ R.g.error_degree = R'.g.error_degree)) := by
  intro R R'
  -- the part after `adjacency_crema` has been computed
  have tail : ∀ (q q' : UAttr d) (ad : CremaAdj n) (b : Bool) (gb : Guess n), q.is_sparse = b → q'.is_sparse = b → q.adjacency_crema = q'.adjacency_crema → q.adjacency_given = q'.adjacency_given →
      (q.adjacency_given = some true ∨ (q.adjacency_given = some false ∧ q.x = q'.x ∧ q.x ≠ none)) →
      let r := solveCremaTail e q ad model method guess p
      let r' := solveCremaTail e q' ad model method guess p
      let T : UResult d := finish e ⟨r.1, r.2.1, r.2.2, gb⟩
      let T' : UResult d := finish e ⟨r'.1, r'.2.1, r'.2.2, gb⟩
      T.exc = T'.exc ∧ T.guess = T'.guess ∧ T.guessAdj = T'.guessAdj ∧ (T.exc = none → T.g.beta = T'.g.beta ∧ T.g.beta ≠ none ∧ T.g.last_model = T'.g.last_model ∧
        T.g.adjacency_crema = T'.g.adjacency_crema ∧ T.g.adjacency_given = T'.g.adjacency_given ∧ T.g.is_sparse = T'.g.is_sparse ∧
        model_loglikelihood e T.g = model_loglikelihood e T'.g ∧ T.g.expected_stregth_seq = T'.g.expected_stregth_seq ∧ T.g.error = T'.g.error ∧
        T.g.error_strength = T'.g.error_strength ∧ T.g.relative_error_strength = T'.g.relative_error_strength ∧
        (p.full_return = true → T.g.trace_crema = T'.g.trace_crema) ∧
        (q.x = q'.x → q.x ≠ none → T.g.x = T'.g.x ∧ T.g.expected_dseq = T'.g.expected_dseq ∧ T.g.error_degree = T'.g.error_degree)) := by
    intro q q' ad b gb hb hb' hc hgv hxx r r' T T'
    obtain ⟨h1, h2, h3, h4, h5, h6, h7, h8, h9, -, h10, h11⟩ := cremaTail_memoryless e q q' ad model method guess p (hb.trans hb'.symm)
    obtain ⟨-, -, -, h4', -, h6', h7', h8', -⟩ := cremaTail_memoryless e q' q ad model method guess p (hb'.trans hb.symm)
    have hr : r'.2 = r.2 := h1.symm
    have hT' : T' = finish e ⟨r'.1, r.2.1, r.2.2, gb⟩ := by simp only [T', hr]
    rw [hT']
    simp only [T, finish]
    cases hx : r.2.1 with
    | some er => simp
    | none =>
      obtain ⟨a1, a2, a3, a4, a5, a6⟩ := h11 hx
      have hl : r.1.last_model = some "crema" ∨ r.1.last_model = some "crema-sparse" := by
        refine (show r.1.last_model = _ from h10) ▸ ?_
        split_ifs
        · simp
        · rcases hm with rfl | rfl <;> simp
      obtain ⟨c1, c2, c3⟩ := crema_report e (g := r.1) (g' := r'.1) hl h2 a1 a2 (h7.trans (hc.trans h7'.symm)) ((h6.trans hb).trans (h6'.trans hb').symm)
        (h8.trans (hgv.trans h8'.symm)) (by
          rw [show r.1.adjacency_given = _ from h8, show r.1.x = _ from h4, show r'.1.x = _ from h4']
          exact hxx)
      obtain ⟨k1, -, k3, k4, -, k6, k7, k8, k9, k10, k11, k12⟩ := solutionError_keeps e r.1
      obtain ⟨k1', -, k3', k4', -, k6', k7', k8', k9', k10', k11', k12'⟩ := solutionError_keeps e r'.1
      dsimp only
      refine ⟨c1, rfl, rfl, fun hn => ⟨?_, ?_, ?_, ?_, ?_, ?_, ?_, (c3 hn).1, (c3 hn).2.2.1, (c3 hn).2.1, (c3 hn).2.2.2, fun hf => ?_, fun hq hq0 => ⟨?_, ?_, ?_⟩⟩⟩
      · rw [k3, k3']; exact a1
      · rw [k3]; exact a2
      · rw [k7, k7']; exact h2
      · rw [k10, k10', show r.1.adjacency_crema = _ from h7, show r'.1.adjacency_crema = _ from h7', hc]
      · rw [k11, k11', show r.1.adjacency_given = _ from h8, show r'.1.adjacency_given = _ from h8', hgv]
      · rw [k12, k12', show r.1.is_sparse = _ from h6, show r'.1.is_sparse = _ from h6', hb, hb']
      · exact loglik_congr e (by rw [k9, k9']; exact a5) (by rw [k8, k8']; exact a4) (by rw [k4, k4']; exact a3)
      · rw [k6, k6']; exact a6 hf
      · rw [k1, k1', show r.1.x = _ from h4, show r'.1.x = _ from h4', hq]
      · exact (c2 (by rw [show r.1.x = _ from h4, show r'.1.x = _ from h4', hq]) (by rw [show r.1.x = _ from h4]; exact hq0)).1
      · exact (c2 (by rw [show r.1.x = _ from h4, show r'.1.x = _ from h4', hq]) (by rw [show r.1.x = _ from h4]; exact hq0)).2
  rcases hadj with rfl | ⟨a, rfl⟩ | hadj
  · simp only [R, R', solve_tool_crema_finish e _ model method hm, solveProblemCrema]
    simp [finish]
  · have := tail { g with is_sparse := false, adjacency_crema := some (.edges (triuEdges a)), adjacency_given := some true }
      { g' with is_sparse := false, adjacency_crema := some (.edges (triuEdges a)), adjacency_given := some true } (.edges (triuEdges a)) false ga rfl rfl rfl rfl (Or.inl rfl)
    simp only [R, R', solve_tool_crema_finish e _ model method hm, solveProblemCrema]
    obtain ⟨t1, t2, t3, t4⟩ := this
    refine ⟨t1, t2, t3, fun h => ?_⟩
    obtain ⟨u1, u2, u3, u4, u5, u6, u7, u8, u9, u10, u11, u12, -⟩ := t4 h
    exact ⟨u1, u2, u3, u4, u5, u6, u7, u8, u9, u10, u11, u12, fun ⟨_, hs⟩ => by simp at hs⟩
  · obtain ⟨s, rfl, hs⟩ : ∃ s, adj = .name s ∧ (s = "cm" ∨ s = "cm_exp") := by rcases hadj with rfl | rfl <;> simp
    set q : UAttr d := { g with is_sparse := decide (model = "crema-sparse") } with hq
    set q' : UAttr d := { g' with is_sparse := decide (model = "crema-sparse") } with hq'
    obtain ⟨h1, h2, h3, h4, h5, h6, h7, h8, h9⟩ := solveProblem_memoryless e.inner q q' s ma ga p
    obtain ⟨-, -, -, h4', h5', h6', h7', h8', -⟩ := solveProblem_memoryless e.inner q' q s ma ga p
    simp only [R, R', solve_tool_crema_finish e _ model method hm, solveProblemCrema]
    rw [← hq, ← hq']
    rcases hr : solveProblem e.inner q s ma ga p with ⟨r1, r2, r3⟩
    rcases hr' : solveProblem e.inner q' s ma ga p with ⟨r1', r2', r3'⟩
    simp only [hr, hr'] at h1 h2 h3 h4 h5 h6 h7 h8 h9 h4' h5' h6' h7' h8'
    obtain ⟨rfl, rfl⟩ := Prod.mk.inj h1
    cases r2 with
    | some er => simp [finish]
    | none =>
      obtain ⟨a1, a2, -, -, -, -, -, a8⟩ := h9 rfl
      obtain ⟨a8, a9⟩ := a8 hs
      obtain ⟨x, hx1⟩ := Option.ne_none_iff_exists'.1 a2
      have hx1' : r1'.x = some x := a1 ▸ hx1
      have e1 : r1'.is_sparse = r1.is_sparse := h5'.trans h5.symm
      dsimp only
      rw [hx1, hx1']
      dsimp only
      by_cases hsp : r1.is_sparse = true
      · have := tail { r1 with x := some x, adjacency_crema := some (.fitness x), adjacency_given := some false }
          { r1' with x := some x, adjacency_crema := some (.fitness x), adjacency_given := some false } (.fitness x) true r3 hsp (e1.trans hsp) rfl rfl (Or.inr ⟨rfl, rfl, by simp⟩)
        rw [if_pos hsp, if_pos (e1.trans hsp)]
        obtain ⟨t1, t2, t3, t4⟩ := this
        refine ⟨t1, t2, t3, fun h => ?_⟩
        obtain ⟨u1, u2, u3, u4, u5, u6, u7, u8, u9, u10, u11, u12, u13⟩ := t4 h
        exact ⟨u1, u2, u3, u4, u5, u6, u7, u8, u9, u10, u11, u12, fun _ => u13 rfl (by simp)⟩
      · have := tail { r1 with x := some x, adjacency_crema := some (.edges (triuEdges (CM.pmatrix_cm x))), is_sparse := false, adjacency_given := some false }
          { r1' with x := some x, adjacency_crema := some (.edges (triuEdges (CM.pmatrix_cm x))), is_sparse := false, adjacency_given := some false }
          (.edges (triuEdges (CM.pmatrix_cm x))) false r3 rfl rfl rfl rfl (Or.inr ⟨rfl, rfl, by simp⟩)
        rw [if_neg hsp, if_neg (fun h => hsp (e1.symm.trans h)), if_pos a8, if_pos a9]
        obtain ⟨t1, t2, t3, t4⟩ := this
        refine ⟨t1, t2, t3, fun h => ?_⟩
        obtain ⟨u1, u2, u3, u4, u5, u6, u7, u8, u9, u10, u11, u12, u13⟩ := t4 h
        exact ⟨u1, u2, u3, u4, u5, u6, u7, u8, u9, u10, u11, u12, fun _ => u13 rfl (by simp)⟩

/-- The hypothesis on `adjacency` in `C58_crema` is needed: with the binary problem "ecm" a new object raises an AttributeError, while an object that has solved "cm" before
(which leaves the attribute `fun_pmatrix` behind) raises nothing and goes on with the link probabilities of the wrong model.  (Here with `max_steps=0`, on every network.) -/
theorem C58_crema_adjacency_wrong (e : Env) (d : UData n) :
    let p : Params := { max_steps := 0 }
    let R0 := solve_tool e ({} : UAttr d) "cm" "newton" (.nodes 1) .other "" .other p
    let R := solve_tool e R0.g "crema" "newton" (.nodes 1) (.name "ecm") "newton" (.pairs 1) p
    let R' := solve_tool e ({} : UAttr d) "crema" "newton" (.nodes 1) (.name "ecm") "newton" (.pairs 1) p
    R0.exc = none ∧ R.exc = none ∧ R'.exc = some (.py .attributeError) := by
  have hs : ∀ {ι : Type} [Fintype ι] [DecidableEq ι] [Nonempty ι] (C : Callbacks ι) (s : String) (x0 : ι → ℝ),
      solver C (({ max_steps := 0 } : Params).opts s) x0 = .ok (initState C x0) := fun _ _ _ => rfl
  have l1 : uLookup "cm" "newton" = some (.cm, .newton) := uLookup_name .cm .newton
  have l2 : uLookup "ecm" "newton" = some (.ecm, .newton) := uLookup_name .ecm .newton
  have l3 : uLookup "crema" "newton" = some (.crema, .newton) := uLookup_name .crema .newton
  intro p R0 R R'
  have h0 : R0.exc = none ∧ R0.g.fun_pmatrix = true := by
    simp [R0, p, solve_tool, solveProblem, guessCM, l1, hs, solutionError, setSolvedCM, degreeError, strengthError]
  refine ⟨h0.1, ?_, ?_⟩
  · simp [R, p, solve_tool, solveProblemCrema, solveProblem, guessECM, l2, hs, setSolvedECM, h0.2, solveCremaTail, guessCrema, l3, solutionError, setSolvedCrema, degreeError, strengthError]
  · simp [R', p, solve_tool, solveProblemCrema, solveProblem, guessECM, l2, hs, setSolvedECM]

end undirected

section directed

variable {n : ℕ} [NeZero n] {d : DData n}

theorem solveProblemD_memoryless (e : Env) (g g' : DAttr d) (model method : String) (guess : DGuess n) (p : Params) :
    let r := solveProblemD e g model method guess p
    let r' := solveProblemD e g' model method guess p
    r.2 = r'.2 ∧ r.1.last_model = r'.1.last_model ∧ r.1.full_return = r'.1.full_return ∧ r.1.is_sparse = g.is_sparse ∧
      r.1.adjacency_crema = g.adjacency_crema ∧ r.1.adjacency_given = g.adjacency_given ∧ r.1.last_model = some model ∧
      ((model = "dcm" ∨ model = "dcm_exp") → r.1.b_out = g.b_out ∧ r.1.b_in = g.b_in) ∧
      (r.2.1 = none → r.1.x = r'.1.x ∧ r.1.x ≠ none ∧ r.1.y = r'.1.y ∧ r.1.y ≠ none ∧ r.1.solution_array = r'.1.solution_array ∧ r.1.args = r'.1.args ∧
        r.1.step_fun = r'.1.step_fun ∧ (p.full_return = true → r.1.trace = r'.1.trace) ∧
        ((model = "decm" ∨ model = "decm_exp") → r.1.b_out = r'.1.b_out ∧ r.1.b_out ≠ none ∧ r.1.b_in = r'.1.b_in ∧ r.1.b_in ≠ none) ∧
        ((model = "dcm" ∨ model = "dcm_exp") → r.1.fun_pmatrix = true ∧ r'.1.fun_pmatrix = true)) := by
  intro r r'
  simp only [r, r']
  unfold solveProblemD
  dsimp only
  by_cases h1 : model = "dcm" ∨ model = "dcm_exp"
  · have h2 : ¬(model = "decm" ∨ model = "decm_exp") := by rcases h1 with rfl | rfl <;> decide
    simp only [if_pos h1, h1, h2]
    cases guessDCM e d (model = "dcm_exp") guess with
    | error x => simp
    | ok x0 =>
      cases dLookup model method with
      | none => simp
      | some q =>
        dsimp only
        cases solver (if model = "dcm_exp" then cbDCMexp e d q.2 else cbDCM e d q.2) (p.opts method) x0 with
        | error x => simp
        | ok s => simp [setSolvedDCM]; intro h; simp [h]
  · simp only [if_neg h1, h1, if_false]
    by_cases h2 : model = "decm" ∨ model = "decm_exp"
    · simp only [if_pos h2, h2]
      rcases guessDECM e d (model = "decm_exp") guess with ⟨x0, gu⟩
      cases x0 with
      | error x => simp
      | ok x0 =>
        cases dLookup model method with
        | none => simp
        | some q =>
          dsimp only
          cases solver (if model = "decm_exp" then cbDECMexp e d q.2 else cbDECM e d q.2) (p.opts method) x0 with
          | error x => simp
          | ok s => simp [setSolvedDECM]; intro h; simp [h]
    · simp only [if_neg h2, h2, if_false]
      split_ifs <;> simp

theorem dcremaTail_memoryless (e : Env) (g g' : DAttr d) (adj : DCremaAdj n) (model method : String) (guess : DGuess n) (p : Params) (hs : g.is_sparse = g'.is_sparse) :
    let r := solveDCremaTail e g adj model method guess p
    let r' := solveDCremaTail e g' adj model method guess p
    r.2 = r'.2 ∧ r.1.last_model = r'.1.last_model ∧ r.1.full_return = r'.1.full_return ∧ r.1.x = g.x ∧ r.1.y = g.y ∧ r.1.is_sparse = g.is_sparse ∧
      r.1.adjacency_crema = g.adjacency_crema ∧ r.1.adjacency_given = g.adjacency_given ∧
      r.1.last_model = some (if g.is_sparse then "crema-sparse" else model) ∧
      (r.2.1 = none → r.1.b_out = r'.1.b_out ∧ r.1.b_out ≠ none ∧ r.1.b_in = r'.1.b_in ∧ r.1.b_in ≠ none ∧ r.1.solution_array = r'.1.solution_array ∧
        r.1.args = r'.1.args ∧ r.1.step_fun = r'.1.step_fun ∧ (p.full_return = true → r.1.trace_crema = r'.1.trace_crema)) := by
  intro r r'
  simp only [r, r']
  unfold solveDCremaTail
  dsimp only
  rw [← hs]
  set model' := if g.is_sparse = true then "crema-sparse" else model with hm
  rcases guessDCrema e d guess with ⟨b, gu⟩
  cases b with
  | error x => simp
  | ok b =>
    cases dLookup model' method with
    | none => simp
    | some q =>
      rcases q with ⟨mo, me⟩
      dsimp only
      cases mo <;> cases adj <;> dsimp only <;> first
        | (simp; done)
        | (split
           · split
             · simp
             · simp [setSolvedDCrema]; intro h; simp [h]
           · simp)
        | (split
           · split
             · simp
             · split
               · simp
               · simp [setSolvedDCrema]; intro h; simp [h]
           · simp)

theorem strengthErrorD_side (g : DAttr d) : (strengthErrorD g).1.expected_dseq = g.expected_dseq ∧ (strengthErrorD g).1.error_degree = g.error_degree ∧
    (strengthErrorD g).1.relative_error_degree = g.relative_error_degree ∧ ∀ er, (strengthErrorD g).2 ≠ some (.numeric er) := by
  unfold strengthErrorD
  split
  · split
    · simp
    · dsimp only
      split
      · split
        · simp
        · simp
        · split <;> simp
      · split
        · simp
        · simp
        · split <;> simp
      · simp
  · simp

/-- the degree report is a function of `x` and `y` -/
theorem degreeErrorD_side {g g' : DAttr d} (h : g.x = g'.x) (h0 : g.x ≠ none) (k : g.y = g'.y) (k0 : g.y ≠ none) :
    (degreeErrorD g).expected_dseq = (degreeErrorD g').expected_dseq ∧ (degreeErrorD g).error_degree = (degreeErrorD g').error_degree ∧
      (degreeErrorD g).relative_error_degree = (degreeErrorD g').relative_error_degree ∧ (degreeErrorD g).error = (degreeErrorD g').error := by
  obtain ⟨x, hx⟩ := Option.ne_none_iff_exists'.1 h0
  obtain ⟨y, hy⟩ := Option.ne_none_iff_exists'.1 k0
  unfold degreeErrorD
  rw [hx, hy, h.symm.trans hx, k.symm.trans hy]
  simp

theorem loglikD_congr {g g' : DAttr d} (h1 : g.step_fun = g'.step_fun) (h2 : g.args = g'.args) (h3 : g.solution_array = g'.solution_array) :
    model_loglikelihood_directed g = model_loglikelihood_directed g' := by
  unfold model_loglikelihood_directed; rw [h1, h2, h3]

def finishD (r : DResult d) : DResult d :=
  match r.exc with
  | some _ => r
  | none => { r with g := (solutionErrorD r.g).1, exc := (solutionErrorD r.g).2 }

theorem solve_tool_crema_finishD (e : Env) (g : DAttr d) (model method : String) (hm : model = "crema" ∨ model = "crema-sparse") (guess : DGuess n) (adj : AdjSpec n)
    (ma : String) (ga : DGuess n) (p : Params) :
    solve_tool_directed e g model method guess adj ma ga p = finishD (solveProblemDCrema e g model method guess adj ma ga p) := by
  rw [solve_tool_crema_names e g model method hm]; rfl

theorem solve_tool_plain_finishD (e : Env) (g : DAttr d) (model method : String) (hm : model = "dcm" ∨ model = "dcm_exp" ∨ model = "decm" ∨ model = "decm_exp") (guess : DGuess n) (adj : AdjSpec n)
    (ma : String) (ga : DGuess n) (p : Params) :
    solve_tool_directed e g model method guess adj ma ga p = finishD ⟨(solveProblemD e g model method guess p).1, (solveProblemD e g model method guess p).2.1, (solveProblemD e g model method guess p).2.2, ga⟩ := by
  unfold solve_tool_directed finishD
  rw [if_pos hm]
  rfl

/-- C58 (dcm, dcm_exp): as `C58_cm`; the rates left over by crema or decm are the only attributes that matter. -/
theorem C58_dcm (e : Env) (g g' : DAttr d) (model method : String) (hm : model = "dcm" ∨ model = "dcm_exp") (guess : DGuess n) (adj : AdjSpec n) (ma : String)
    (ga : DGuess n) (p : Params) :
    let R := solve_tool_directed e g model method guess adj ma ga p
    let R' := solve_tool_directed e g' model method guess adj ma ga p
    (∀ er, R.exc = some (.numeric er) ↔ R'.exc = some (.numeric er)) ∧ R.guess = R'.guess ∧
    (R.exc = none → R'.exc = none → R.g.x = R'.g.x ∧ R.g.x ≠ none ∧ R.g.y = R'.g.y ∧ R.g.y ≠ none ∧ R.g.last_model = R'.g.last_model ∧
      model_loglikelihood_directed R.g = model_loglikelihood_directed R'.g ∧
      R.g.expected_dseq = R'.g.expected_dseq ∧ R.g.error_degree = R'.g.error_degree ∧ R.g.relative_error_degree = R'.g.relative_error_degree ∧
      (p.full_return = true → R.g.trace = R'.g.trace)) ∧
    (g.b_out = none → g'.b_out = none → R.exc = R'.exc ∧ (R.exc = none → R.g.error = R'.g.error)) := by
  intro R R'
  have hm' : model = "dcm" ∨ model = "dcm_exp" ∨ model = "decm" ∨ model = "decm_exp" := hm.imp_right Or.inl
  obtain ⟨h1, h2, h3, h5, h6, h7, h8, h4, h9⟩ := solveProblemD_memoryless e g g' model method guess p
  obtain ⟨-, -, -, -, -, -, h8', h4', -⟩ := solveProblemD_memoryless e g' g model method guess p
  simp only [R, R', solve_tool_plain_finishD e _ model method hm']
  rw [← h1]
  set r := solveProblemD e g model method guess p with hr
  set r' := solveProblemD e g' model method guess p with hr'
  simp only [finishD]
  cases hx : r.2.1 with
  | some er => simp
  | none =>
    obtain ⟨a1, a2, b1, b2, a3, a4, a5, a6, -, -⟩ := h9 hx
    have l : r.1.last_model = some "dcm" ∨ r.1.last_model = some "dcm_exp" ∨ r.1.last_model = some "crema" ∨ r.1.last_model = some "crema-sparse" := by
      rw [h8]; rcases hm with rfl | rfl <;> simp
    have l' := l
    rw [h2] at l'
    have s : solutionErrorD r.1 = strengthErrorD (degreeErrorD r.1) := by unfold solutionErrorD; rw [if_pos l]
    have s' : solutionErrorD r'.1 = strengthErrorD (degreeErrorD r'.1) := by unfold solutionErrorD; rw [if_pos l']
    obtain ⟨t1, t2, t3, t4⟩ := strengthErrorD_side (degreeErrorD r.1)
    obtain ⟨t1', t2', t3', t4'⟩ := strengthErrorD_side (degreeErrorD r'.1)
    obtain ⟨d1, d2, d3, d4⟩ := degreeErrorD_side a1 a2 b1 b2
    rw [← s] at t1 t2 t3 t4
    rw [← s'] at t1' t2' t3' t4'
    dsimp only
    refine ⟨fun er => ⟨fun h => absurd h (t4 er), fun h => absurd h (t4' er)⟩, rfl, fun _ _ => ⟨?_, ?_, ?_, ?_, ?_, ?_, ?_, ?_, ?_, fun hf => ?_⟩, fun b b' => ?_⟩
    · rw [keepsD DAttr.x (fun _ => rfl), keepsD DAttr.x (fun _ => rfl), a1]
    · rw [keepsD DAttr.x (fun _ => rfl)]; exact a2
    · rw [keepsD DAttr.y (fun _ => rfl), keepsD DAttr.y (fun _ => rfl), b1]
    · rw [keepsD DAttr.y (fun _ => rfl)]; exact b2
    · rw [keepsD DAttr.last_model (fun _ => rfl), keepsD DAttr.last_model (fun _ => rfl), h2]
    · exact loglikD_congr (by rw [keepsD DAttr.step_fun (fun _ => rfl), keepsD DAttr.step_fun (fun _ => rfl), a5])
        (by rw [keepsD DAttr.args (fun _ => rfl), keepsD DAttr.args (fun _ => rfl), a4])
        (by rw [keepsD DAttr.solution_array (fun _ => rfl), keepsD DAttr.solution_array (fun _ => rfl), a3])
    · rw [t1, t1', d1]
    · rw [t2, t2', d2]
    · rw [t3, t3', d3]
    · rw [keepsD DAttr.trace (fun _ => rfl), keepsD DAttr.trace (fun _ => rfl), a6 hf]
    · have c : ∀ q : DAttr d, q.b_out = none → strengthErrorD (degreeErrorD q) = (degreeErrorD q, none) := fun q hq => by
        have : (degreeErrorD q).b_out = none := by unfold degreeErrorD; split <;> exact hq
        unfold strengthErrorD; rw [this]
      rw [s, s', c _ ((h4 hm).1.trans b), c _ ((h4' hm).1.trans b')]
      exact ⟨rfl, fun _ => d4⟩

/-- C58 (decm, decm_exp): nothing the object went through before is seen by the call or by its report. -/
theorem C58_decm (e : Env) (g g' : DAttr d) (model method : String) (hm : model = "decm" ∨ model = "decm_exp") (guess : DGuess n) (adj : AdjSpec n) (ma : String)
    (ga : DGuess n) (p : Params) :
    let R := solve_tool_directed e g model method guess adj ma ga p
    let R' := solve_tool_directed e g' model method guess adj ma ga p
    R.exc = R'.exc ∧ R.guess = R'.guess ∧
    (R.exc = none → R.g.x = R'.g.x ∧ R.g.x ≠ none ∧ R.g.y = R'.g.y ∧ R.g.y ≠ none ∧ R.g.b_out = R'.g.b_out ∧ R.g.b_out ≠ none ∧ R.g.b_in = R'.g.b_in ∧
      R.g.b_in ≠ none ∧ R.g.last_model = R'.g.last_model ∧
      model_loglikelihood_directed R.g = model_loglikelihood_directed R'.g ∧ R.g.expected_dseq = R'.g.expected_dseq ∧
      R.g.expected_strength_seq = R'.g.expected_strength_seq ∧
      R.g.error = R'.g.error ∧ R.g.error_degree = R'.g.error_degree ∧ R.g.error_strength = R'.g.error_strength ∧
      R.g.relative_error_degree = R'.g.relative_error_degree ∧ R.g.relative_error_strength = R'.g.relative_error_strength ∧
      (p.full_return = true → R.g.trace = R'.g.trace)) := by
  intro R R'
  have hm' : model = "dcm" ∨ model = "dcm_exp" ∨ model = "decm" ∨ model = "decm_exp" := Or.inr (Or.inr hm)
  obtain ⟨h1, h2, h3, h5, h6, h7, h8, h4, h9⟩ := solveProblemD_memoryless e g g' model method guess p
  simp only [R, R', solve_tool_plain_finishD e _ model method hm']
  rw [← h1]
  set r := solveProblemD e g model method guess p with hr
  set r' := solveProblemD e g' model method guess p with hr'
  simp only [finishD]
  cases hx : r.2.1 with
  | some er => simp
  | none =>
    obtain ⟨a1, a2, b1, b2, a3, a4, a5, a6, a7, -⟩ := h9 hx
    obtain ⟨o1, o2, i1, i2⟩ := a7 hm
    have l : r.1.last_model = some "decm" ∨ r.1.last_model = some "decm_exp" := by
      rw [h8]; rcases hm with rfl | rfl <;> simp
    have l0 : ¬(r.1.last_model = some "dcm" ∨ r.1.last_model = some "dcm_exp" ∨ r.1.last_model = some "crema" ∨ r.1.last_model = some "crema-sparse") := by
      rw [h8]; rcases hm with rfl | rfl <;> simp
    have l' := l
    have l0' := l0
    rw [h2] at l' l0'
    obtain ⟨x, hx1⟩ := Option.ne_none_iff_exists'.1 a2
    obtain ⟨y, hy1⟩ := Option.ne_none_iff_exists'.1 b2
    obtain ⟨bo, ho1⟩ := Option.ne_none_iff_exists'.1 o2
    obtain ⟨bi, hi1⟩ := Option.ne_none_iff_exists'.1 i2
    have hx1' : r'.1.x = some x := a1 ▸ hx1
    have hy1' : r'.1.y = some y := b1 ▸ hy1
    have ho1' : r'.1.b_out = some bo := o1 ▸ ho1
    have hi1' : r'.1.b_in = some bi := i1 ▸ hi1
    have ll : model_loglikelihood_directed (solutionErrorD r.1).1 = model_loglikelihood_directed (solutionErrorD r'.1).1 :=
      loglikD_congr (by rw [keepsD DAttr.step_fun (fun _ => rfl), keepsD DAttr.step_fun (fun _ => rfl), a5])
        (by rw [keepsD DAttr.args (fun _ => rfl), keepsD DAttr.args (fun _ => rfl), a4])
        (by rw [keepsD DAttr.solution_array (fun _ => rfl), keepsD DAttr.solution_array (fun _ => rfl), a3])
    dsimp only
    refine ⟨?_, rfl, fun _ => ⟨?_, ?_, ?_, ?_, ?_, ?_, ?_, ?_, ?_, ll, ?_, ?_, ?_, ?_, ?_, ?_, ?_, fun hf => ?_⟩⟩
    pick_goal 2
    · rw [keepsD DAttr.x (fun _ => rfl), keepsD DAttr.x (fun _ => rfl), a1]
    pick_goal 2
    · rw [keepsD DAttr.x (fun _ => rfl)]; exact a2
    pick_goal 2
    · rw [keepsD DAttr.y (fun _ => rfl), keepsD DAttr.y (fun _ => rfl), b1]
    pick_goal 2
    · rw [keepsD DAttr.y (fun _ => rfl)]; exact b2
    pick_goal 2
    · rw [keepsD DAttr.b_out (fun _ => rfl), keepsD DAttr.b_out (fun _ => rfl), o1]
    pick_goal 2
    · rw [keepsD DAttr.b_out (fun _ => rfl)]; exact o2
    pick_goal 2
    · rw [keepsD DAttr.b_in (fun _ => rfl), keepsD DAttr.b_in (fun _ => rfl), i1]
    pick_goal 2
    · rw [keepsD DAttr.b_in (fun _ => rfl)]; exact i2
    pick_goal 2
    · rw [keepsD DAttr.last_model (fun _ => rfl), keepsD DAttr.last_model (fun _ => rfl), h2]
    pick_goal 9
    · rw [keepsD DAttr.trace (fun _ => rfl), keepsD DAttr.trace (fun _ => rfl), a6 hf]
    all_goals
      unfold solutionErrorD
      rw [if_neg l0, if_neg l0', if_pos l, if_pos l', hx1, hx1', hy1, hy1', ho1, ho1', hi1, hi1']

/-- what the CReMa error report reads, after the rates have been set -/
theorem dcrema_report {g g' : DAttr d} (hl : g.last_model = some "crema" ∨ g.last_model = some "crema-sparse") (hl' : g.last_model = g'.last_model)
    (ho : g.b_out = g'.b_out) (ho0 : g.b_out ≠ none) (hi : g.b_in = g'.b_in) (hi0 : g.b_in ≠ none) (ha : g.adjacency_crema = g'.adjacency_crema)
    (hs : g.is_sparse = g'.is_sparse) (hg : g.adjacency_given = g'.adjacency_given)
    (hx : g.adjacency_given = some true ∨ (g.adjacency_given = some false ∧ g.x = g'.x ∧ g.x ≠ none ∧ g.y = g'.y ∧ g.y ≠ none)) :
    (solutionErrorD g).2 = (solutionErrorD g').2 ∧ (g.x = g'.x → g.x ≠ none → g.y = g'.y → g.y ≠ none →
        (solutionErrorD g).1.expected_dseq = (solutionErrorD g').1.expected_dseq ∧ (solutionErrorD g).1.error_degree = (solutionErrorD g').1.error_degree) ∧
      ((solutionErrorD g).2 = none → (solutionErrorD g).1.expected_stregth_seq = (solutionErrorD g').1.expected_stregth_seq ∧
        (solutionErrorD g).1.error_strength = (solutionErrorD g').1.error_strength ∧ (solutionErrorD g).1.error = (solutionErrorD g').1.error ∧
        (solutionErrorD g).1.relative_error_strength = (solutionErrorD g').1.relative_error_strength) := by
  have l : g.last_model = some "dcm" ∨ g.last_model = some "dcm_exp" ∨ g.last_model = some "crema" ∨ g.last_model = some "crema-sparse" := Or.inr (Or.inr hl)
  have l' := l
  rw [hl'] at l'
  have s : solutionErrorD g = strengthErrorD (degreeErrorD g) := by unfold solutionErrorD; rw [if_pos l]
  have s' : solutionErrorD g' = strengthErrorD (degreeErrorD g') := by unfold solutionErrorD; rw [if_pos l']
  obtain ⟨bo, ho1⟩ := Option.ne_none_iff_exists'.1 ho0
  obtain ⟨bi, hi1⟩ := Option.ne_none_iff_exists'.1 hi0
  obtain ⟨t1, t2, t3, t4⟩ := strengthErrorD_side (degreeErrorD g)
  obtain ⟨t1', t2', t3', t4'⟩ := strengthErrorD_side (degreeErrorD g')
  have keep : ∀ {α : Type} (f : DAttr d → α) (_ : ∀ g, f g.sol = f g) (q : DAttr d), f (degreeErrorD q) = f q := fun f hf q => by
    rw [← hf, degreeErrorD_sol, hf]
  refine ⟨?_, fun h0 h k0 k => ?_, ?_⟩
  rotate_left
  · obtain ⟨d1, d2, d3, d4⟩ := degreeErrorD_side h0 h k0 k
    rw [s, s', t1, t1', t2, t2']; exact ⟨d1, d2⟩
  all_goals
    have z1 : (degreeErrorD g').b_out = some bo := by rw [keep DAttr.b_out (fun _ => rfl), ← ho, ho1]
    have z1' : (degreeErrorD g).b_out = some bo := by rw [keep DAttr.b_out (fun _ => rfl), ho1]
    have z2 : (degreeErrorD g').b_in = some bi := by rw [keep DAttr.b_in (fun _ => rfl), ← hi, hi1]
    have z2' : (degreeErrorD g).b_in = some bi := by rw [keep DAttr.b_in (fun _ => rfl), hi1]
    have z3 := keep DAttr.adjacency_crema (fun _ => rfl) g
    have z3' := keep DAttr.adjacency_crema (fun _ => rfl) g'
    have z4 := keep DAttr.is_sparse (fun _ => rfl) g
    have z4' := keep DAttr.is_sparse (fun _ => rfl) g'
    have z5 := keep DAttr.adjacency_given (fun _ => rfl) g
    have z5' := keep DAttr.adjacency_given (fun _ => rfl) g'
    rw [s, s']
    unfold strengthErrorD
    rw [z1, z1', z2, z2', z3, z3', ha, z4, z4', hs, z5, z5', ← hg]
    dsimp only
    cases g'.adjacency_crema with
    | none => simp
    | some a =>
      rcases hx with hx | ⟨hx, h0, h1, k0, k1⟩
      · rw [hx]; cases a <;> cases g'.is_sparse <;> simp
      · rw [hx, (degreeErrorD_side h0 h1 k0 k1).2.1]
        cases (degreeErrorD g').error_degree <;> cases a <;> cases g'.is_sparse <;> simp

/-- C58 (directed crema, crema-sparse) with a given adjacency matrix or the binary problem "dcm" or "dcm_exp". -/
theorem C58_dcrema (e : Env) (g g' : DAttr d) (model method : String) (hm : model = "crema" ∨ model = "crema-sparse") (guess : DGuess n) (adj : AdjSpec n)
    (hadj : adj = .other ∨ (∃ a, adj = .matrix a) ∨ adj = .name "dcm" ∨ adj = .name "dcm_exp") (ma : String) (ga : DGuess n) (p : Params) :
    let R := solve_tool_directed e g model method guess adj ma ga p
    let R' := solve_tool_directed e g' model method guess adj ma ga p
    R.exc = R'.exc ∧ R.guess = R'.guess ∧ R.guessAdj = R'.guessAdj ∧
    (R.exc = none → R.g.b_out = R'.g.b_out ∧ R.g.b_out ≠ none ∧ R.g.b_in = R'.g.b_in ∧ R.g.b_in ≠ none ∧ R.g.last_model = R'.g.last_model ∧
      R.g.adjacency_crema = R'.g.adjacency_crema ∧
      R.g.adjacency_given = R'.g.adjacency_given ∧ R.g.is_sparse = R'.g.is_sparse ∧ model_loglikelihood_directed R.g = model_loglikelihood_directed R'.g ∧
      R.g.expected_stregth_seq = R'.g.expected_stregth_seq ∧ R.g.error = R'.g.error ∧ R.g.error_strength = R'.g.error_strength ∧
      R.g.relative_error_strength = R'.g.relative_error_strength ∧ (p.full_return = true → R.g.trace_crema = R'.g.trace_crema) ∧
      ((∃ s, adj = .name s) → R.g.x = R'.g.x ∧ R.g.y = R'.g.y ∧ R.g.expected_dseq = R'.g.expected_dseq ∧ R.g.error_degree = R'.g.error_degree)) := by
  intro R R'
  -- the part after `adjacency_crema` has been computed
  have tail : ∀ (q q' : DAttr d) (ad : DCremaAdj n) (b : Bool) (gb : DGuess n), q.is_sparse = b → q'.is_sparse = b → q.adjacency_crema = q'.adjacency_crema →
      q.adjacency_given = q'.adjacency_given →
      (q.adjacency_given = some true ∨ (q.adjacency_given = some false ∧ q.x = q'.x ∧ q.x ≠ none ∧ q.y = q'.y ∧ q.y ≠ none)) →
      let r := solveDCremaTail e q ad model method guess p
      let r' := solveDCremaTail e q' ad model method guess p
      let T : DResult d := finishD ⟨r.1, r.2.1, r.2.2, gb⟩
      let T' : DResult d := finishD ⟨r'.1, r'.2.1, r'.2.2, gb⟩
      T.exc = T'.exc ∧ T.guess = T'.guess ∧ T.guessAdj = T'.guessAdj ∧ (T.exc = none → T.g.b_out = T'.g.b_out ∧ T.g.b_out ≠ none ∧ T.g.b_in = T'.g.b_in ∧
        T.g.b_in ≠ none ∧ T.g.last_model = T'.g.last_model ∧
        T.g.adjacency_crema = T'.g.adjacency_crema ∧ T.g.adjacency_given = T'.g.adjacency_given ∧ T.g.is_sparse = T'.g.is_sparse ∧
        model_loglikelihood_directed T.g = model_loglikelihood_directed T'.g ∧ T.g.expected_stregth_seq = T'.g.expected_stregth_seq ∧ T.g.error = T'.g.error ∧
        T.g.error_strength = T'.g.error_strength ∧ T.g.relative_error_strength = T'.g.relative_error_strength ∧
        (p.full_return = true → T.g.trace_crema = T'.g.trace_crema) ∧
        (q.x = q'.x → q.x ≠ none → q.y = q'.y → q.y ≠ none → T.g.x = T'.g.x ∧ T.g.y = T'.g.y ∧ T.g.expected_dseq = T'.g.expected_dseq ∧
          T.g.error_degree = T'.g.error_degree)) := by
    intro q q' ad b gb hb hb' hc hgv hxx r r' T T'
    obtain ⟨h1, h2, h3, h4, h5, h6, h7, h8, h10, h11⟩ := dcremaTail_memoryless e q q' ad model method guess p (hb.trans hb'.symm)
    obtain ⟨-, -, -, h4', h5', h6', h7', h8', -⟩ := dcremaTail_memoryless e q' q ad model method guess p (hb'.trans hb.symm)
    have hr : r'.2 = r.2 := h1.symm
    have hT' : T' = finishD ⟨r'.1, r.2.1, r.2.2, gb⟩ := by simp only [T', hr]
    rw [hT']
    simp only [T, finishD]
    have x1 : r.1.x = q.x := h4
    have x2 : r'.1.x = q'.x := h4'
    have y1 : r.1.y = q.y := h5
    have y2 : r'.1.y = q'.y := h5'
    cases hx : r.2.1 with
    | some er => simp
    | none =>
      obtain ⟨o1, o2, i1, i2, a3, a4, a5, a6⟩ := h11 hx
      have hl : r.1.last_model = some "crema" ∨ r.1.last_model = some "crema-sparse" := by
        refine (show r.1.last_model = _ from h10) ▸ ?_
        split_ifs
        · simp
        · rcases hm with rfl | rfl <;> simp
      obtain ⟨c1, c2, c3⟩ := dcrema_report (g := r.1) (g' := r'.1) hl h2 o1 o2 i1 i2 (h7.trans (hc.trans h7'.symm)) ((h6.trans hb).trans (h6'.trans hb').symm)
        (h8.trans (hgv.trans h8'.symm)) (by
          rw [show r.1.adjacency_given = _ from h8, x1, x2, y1, y2]
          exact hxx)
      dsimp only
      refine ⟨c1, rfl, rfl, fun hn => ⟨?_, ?_, ?_, ?_, ?_, ?_, ?_, ?_, ?_, (c3 hn).1, (c3 hn).2.2.1, (c3 hn).2.1, (c3 hn).2.2.2, fun hf => ?_, fun hq hq0 hy hy0 => ⟨?_, ?_, ?_⟩⟩⟩
      · rw [keepsD DAttr.b_out (fun _ => rfl), keepsD DAttr.b_out (fun _ => rfl)]; exact o1
      · rw [keepsD DAttr.b_out (fun _ => rfl)]; exact o2
      · rw [keepsD DAttr.b_in (fun _ => rfl), keepsD DAttr.b_in (fun _ => rfl)]; exact i1
      · rw [keepsD DAttr.b_in (fun _ => rfl)]; exact i2
      · rw [keepsD DAttr.last_model (fun _ => rfl), keepsD DAttr.last_model (fun _ => rfl)]; exact h2
      · rw [keepsD DAttr.adjacency_crema (fun _ => rfl), keepsD DAttr.adjacency_crema (fun _ => rfl)]; exact h7.trans (hc.trans h7'.symm)
      · rw [keepsD DAttr.adjacency_given (fun _ => rfl), keepsD DAttr.adjacency_given (fun _ => rfl)]; exact h8.trans (hgv.trans h8'.symm)
      · rw [keepsD DAttr.is_sparse (fun _ => rfl), keepsD DAttr.is_sparse (fun _ => rfl)]; exact (h6.trans hb).trans (h6'.trans hb').symm
      · exact loglikD_congr (by rw [keepsD DAttr.step_fun (fun _ => rfl), keepsD DAttr.step_fun (fun _ => rfl)]; exact a5)
          (by rw [keepsD DAttr.args (fun _ => rfl), keepsD DAttr.args (fun _ => rfl)]; exact a4)
          (by rw [keepsD DAttr.solution_array (fun _ => rfl), keepsD DAttr.solution_array (fun _ => rfl)]; exact a3)
      · rw [keepsD DAttr.trace_crema (fun _ => rfl), keepsD DAttr.trace_crema (fun _ => rfl)]; exact a6 hf
      · rw [keepsD DAttr.x (fun _ => rfl), keepsD DAttr.x (fun _ => rfl), x1, x2, hq]
      · rw [keepsD DAttr.y (fun _ => rfl), keepsD DAttr.y (fun _ => rfl), y1, y2, hy]
      · exact c2 (by rw [x1, x2, hq]) (by rw [x1]; exact hq0) (by rw [y1, y2, hy]) (by rw [y1]; exact hy0)
  rcases hadj with rfl | ⟨a, rfl⟩ | hadj
  · simp only [R, R', solve_tool_crema_finishD e _ model method hm, solveProblemDCrema]
    simp [finishD]
  · have := tail { g with is_sparse := false, adjacency_crema := some (.edges (nzEdges a)), adjacency_given := some true }
      { g' with is_sparse := false, adjacency_crema := some (.edges (nzEdges a)), adjacency_given := some true } (.edges (nzEdges a)) false ga rfl rfl rfl rfl (Or.inl rfl)
    simp only [R, R', solve_tool_crema_finishD e _ model method hm, solveProblemDCrema]
    obtain ⟨t1, t2, t3, t4⟩ := this
    refine ⟨t1, t2, t3, fun h => ?_⟩
    obtain ⟨u1, u2, u3, u4, u5, u6, u7, u8, u9, u10, u11, u12, u13, u14, -⟩ := t4 h
    exact ⟨u1, u2, u3, u4, u5, u6, u7, u8, u9, u10, u11, u12, u13, u14, fun ⟨_, hs⟩ => by simp at hs⟩
  · obtain ⟨s, rfl, hs⟩ : ∃ s, adj = .name s ∧ (s = "dcm" ∨ s = "dcm_exp") := by rcases hadj with rfl | rfl <;> simp
    set q : DAttr d := { g with is_sparse := decide (model = "crema-sparse") } with hq
    set q' : DAttr d := { g' with is_sparse := decide (model = "crema-sparse") } with hq'
    obtain ⟨h1, h2, h3, h5, h6, h7, h8, h4, h9⟩ := solveProblemD_memoryless e.inner q q' s ma ga { p with linsearch := true }
    obtain ⟨-, -, -, h5', h6', h7', h8', h4', -⟩ := solveProblemD_memoryless e.inner q' q s ma ga { p with linsearch := true }
    simp only [R, R', solve_tool_crema_finishD e _ model method hm, solveProblemDCrema]
    rw [← hq, ← hq']
    rcases hr : solveProblemD e.inner q s ma ga { p with linsearch := true } with ⟨r1, r2, r3⟩
    rcases hr' : solveProblemD e.inner q' s ma ga { p with linsearch := true } with ⟨r1', r2', r3'⟩
    simp only [hr, hr'] at h1 h2 h3 h5 h6 h7 h8 h9 h5' h6' h7' h8'
    obtain ⟨rfl, rfl⟩ := Prod.mk.inj h1
    cases r2 with
    | some er => simp [finishD]
    | none =>
      obtain ⟨a1, a2, b1, b2, -, -, -, -, -, a8⟩ := h9 rfl
      obtain ⟨a8, a9⟩ := a8 hs
      obtain ⟨x, hx1⟩ := Option.ne_none_iff_exists'.1 a2
      obtain ⟨y, hy1⟩ := Option.ne_none_iff_exists'.1 b2
      have hx1' : r1'.x = some x := a1 ▸ hx1
      have hy1' : r1'.y = some y := b1 ▸ hy1
      have e1 : r1'.is_sparse = r1.is_sparse := h5'.trans h5.symm
      dsimp only
      rw [hx1, hx1', hy1, hy1']
      dsimp only
      by_cases hsp : r1.is_sparse = true
      · have := tail { r1 with x := some x, y := some y, adjacency_crema := some (.fitness x y), adjacency_given := some false }
          { r1' with x := some x, y := some y, adjacency_crema := some (.fitness x y), adjacency_given := some false } (.fitness x y) true r3 hsp (e1.trans hsp) rfl rfl
          (Or.inr ⟨rfl, rfl, by simp, rfl, by simp⟩)
        rw [if_pos hsp, if_pos (e1.trans hsp)]
        obtain ⟨t1, t2, t3, t4⟩ := this
        refine ⟨t1, t2, t3, fun h => ?_⟩
        obtain ⟨u1, u2, u3, u4, u5, u6, u7, u8, u9, u10, u11, u12, u13, u14, u15⟩ := t4 h
        exact ⟨u1, u2, u3, u4, u5, u6, u7, u8, u9, u10, u11, u12, u13, u14, fun _ => u15 rfl (by simp) rfl (by simp)⟩
      · have := tail { r1 with x := some x, y := some y, adjacency_crema := some (.edges (nzEdges (d.pmat x y))), is_sparse := false, adjacency_given := some false }
          { r1' with x := some x, y := some y, adjacency_crema := some (.edges (nzEdges (d.pmat x y))), is_sparse := false, adjacency_given := some false }
          (.edges (nzEdges (d.pmat x y))) false r3 rfl rfl rfl rfl (Or.inr ⟨rfl, rfl, by simp, rfl, by simp⟩)
        rw [if_neg hsp, if_neg (fun h => hsp (e1.symm.trans h)), if_pos a8, if_pos a9]
        obtain ⟨t1, t2, t3, t4⟩ := this
        refine ⟨t1, t2, t3, fun h => ?_⟩
        obtain ⟨u1, u2, u3, u4, u5, u6, u7, u8, u9, u10, u11, u12, u13, u14, u15⟩ := t4 h
        exact ⟨u1, u2, u3, u4, u5, u6, u7, u8, u9, u10, u11, u12, u13, u14, fun _ => u15 rfl (by simp) rfl (by simp)⟩

/-- The same for the directed class: "crema" on top of "decm" raises an AttributeError on a new object and nothing on an object that has solved "dcm" before. -/
theorem C58_dcrema_adjacency_wrong (e : Env) (d : DData n) (hz : d.nz_known = true) :
    let p : Params := { max_steps := 0 }
    let R0 := solve_tool_directed e ({} : DAttr d) "dcm" "newton" (.pairs 1) .other "" .other p
    let R := solve_tool_directed e R0.g "crema" "newton" (.pairs 1) (.name "decm") "newton" (.quads 1) p
    let R' := solve_tool_directed e ({} : DAttr d) "crema" "newton" (.pairs 1) (.name "decm") "newton" (.quads 1) p
    R0.exc = none ∧ R.exc = none ∧ R'.exc = some (.py .attributeError) := by
  have hs : ∀ {ι : Type} [Fintype ι] [DecidableEq ι] [Nonempty ι] (C : Callbacks ι) (s : String) (x0 : ι → ℝ),
      solver C (({ max_steps := 0 } : Params).opts s) x0 = .ok (initState C x0) := fun _ _ _ => rfl
  have hs' : ∀ {ι : Type} [Fintype ι] [DecidableEq ι] [Nonempty ι] (C : Callbacks ι) (s : String) (x0 : ι → ℝ),
      solver C (({ max_steps := 0, linsearch := true } : Params).opts s) x0 = .ok (initState C x0) := fun _ _ _ => rfl
  have l1 : dLookup "dcm" "newton" = some (.dcm, .newton) := dLookup_name .dcm .newton
  have l2 : dLookup "decm" "newton" = some (.decm, .newton) := dLookup_name .decm .newton
  have l3 : dLookup "crema" "newton" = some (.crema, .newton) := dLookup_name .crema .newton
  intro p R0 R R'
  have h0 : R0.exc = none ∧ R0.g.fun_pmatrix = true := by
    simp [R0, p, solve_tool_directed, solveProblemD, guessDCM, l1, hs, solutionErrorD, setSolvedDCM, degreeErrorD, strengthErrorD]
  refine ⟨h0.1, ?_, ?_⟩
  · simp [R, p, solve_tool_directed, solveProblemDCrema, solveProblemD, guessDECM, l2, hs, hs', setSolvedDECM, h0.2, solveDCremaTail, guessDCrema, l3, hz, solutionErrorD,
      setSolvedDCrema, degreeErrorD, strengthErrorD]
  · simp [R', p, solve_tool_directed, solveProblemDCrema, solveProblemD, guessDECM, l2, hs, hs', setSolvedDECM]

/-- the hypotheses of `C58_cm` … `C58_dcrema` are met by calls on used objects: on every network, after the calls of `C58_crema_adjacency_wrong` (cm, then crema) a further
ecm call and a further crema call raise nothing -/
example (e : Env) (d : UData n) : let p : Params := { max_steps := 0 }
    let R0 := solve_tool e ({} : UAttr d) "cm" "newton" (.nodes 1) .other "" .other p
    let R1 := solve_tool e R0.g "crema" "newton" (.nodes 1) (.name "cm") "newton" (.nodes 1) p
    let R2 := solve_tool e R1.g "ecm" "newton" (.pairs 1) .other "" .other p
    let R3 := solve_tool e R2.g "cm" "newton" (.nodes 1) .other "" .other p
    R0.exc = none ∧ R1.exc = none ∧ R1.g.beta ≠ none ∧ R2.exc = none ∧ R3.exc = none := by
  have hs : ∀ {ι : Type} [Fintype ι] [DecidableEq ι] [Nonempty ι] (C : Callbacks ι) (s : String) (x0 : ι → ℝ),
      solver C (({ max_steps := 0 } : Params).opts s) x0 = .ok (initState C x0) := fun _ _ _ => rfl
  have l1 : uLookup "cm" "newton" = some (.cm, .newton) := uLookup_name .cm .newton
  have l2 : uLookup "ecm" "newton" = some (.ecm, .newton) := uLookup_name .ecm .newton
  have l3 : uLookup "crema" "newton" = some (.crema, .newton) := uLookup_name .crema .newton
  intro p R0 R1 R2 R3
  simp [R3, R2, R1, R0, p, solve_tool, solveProblemCrema, solveProblem, guessCM, guessECM, l1, l2, hs, setSolvedCM, setSolvedECM, solveCremaTail, guessCrema, l3,
    solutionError, setSolvedCrema, degreeError, strengthError]

end directed

end

end Verif.Solve
