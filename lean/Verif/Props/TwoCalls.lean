import Verif.Props.Memory
import Verif.Props.SolveU
import Verif.Props.SolveD

/-! C82: CReMa with the name of a binary model is that binary model followed by CReMa on its matrix of link probabilities. -/

namespace Verif.Solve

open Verif Finset Reduction Solver Spec

section undirected

variable {n : ℕ} [NeZero n] {d : UData n}

/-- the report after a dense CReMa problem -/
theorem crema_dense_report (e : Env) {g : UAttr d} {b : Fin n → ℝ} {l : Edges n} (hl : g.last_model = some "crema") (hb : g.beta = some b)
    (ha : g.adjacency_crema = some (.edges l)) (hs : g.is_sparse = false) :
    let S := solutionError e g
    let ex := CReMa.expected_strength_crema_undirected b l
    let es := maxAbs fun i => ex i - d.strength_sequence i
    (g.adjacency_given = some true → S.2 = none ∧ S.1.expected_stregth_seq = some ex ∧ S.1.error_strength = some es ∧ S.1.error = some es) ∧
    (∀ x, g.adjacency_given = some false → g.x = some x →
      let ed := maxAbs fun i => CM.expected_degree_cm x i - d.deg i
      S.2 = none ∧ S.1.expected_stregth_seq = some ex ∧ S.1.error_strength = some es ∧ S.1.expected_dseq = some (CM.expected_degree_cm x) ∧
        S.1.error_degree = some ed ∧ S.1.error = some (max es ed)) := by
  intro S ex es
  have hS : S = strengthError e (degreeError g) := by
    simp only [S]; unfold solutionError; rw [if_pos (by simp [hl])]
  obtain ⟨-, -, c3, -, -, -, -, -, -, c10, c11, c12⟩ := degreeError_keeps g
  rw [hS]
  unfold strengthError
  rw [c3, c10, c11, c12, hb, ha, hs]
  constructor
  · intro hg
    rw [hg]
    simp [ex, es]
  · intro x hg hx ed
    rw [hg]
    have : degreeError g = { g with expected_dseq := some (CM.expected_degree_cm x), error_degree := some ed, relative_error_degree := some (maxAbs fun i => (CM.expected_degree_cm x i - d.deg i) / (d.deg i + Real.exp (-100))), error := some ed } := by
      unfold degreeError; rw [hx]
    rw [this]
    simp [ex, es]

/-- C82: `solve_tool("crema", adjacency=a, method_adjacency=ma, initial_guess_adjacency=ga)` with `a` equal to "cm" or "cm_exp" is the same as `solve_tool(a, method=ma, initial_guess=ga)` followed
by `solve_tool("crema", adjacency=P)` where `P` is the matrix of the link probabilities at the fitnesses of the first call; the three calls may be made on three objects with different pasts.
The reported degrees are those of the first call, the reported strengths those of the second, and the reported error is the larger of the two. -/
theorem C82_crema (e : Env) (g g₁ g₂ : UAttr d) (a : String) (ha : a = "cm" ∨ a = "cm_exp") (ma : String) (ga : Guess n) (method : String) (guess : Guess n)
    (adj₁ : AdjSpec n) (ma₁ ma₂ : String) (ga₁ ga₂ : Guess n) (p : Params) :
    let B := solve_tool e.inner g₁ a ma ga adj₁ ma₁ ga₁ p
    let R := solve_tool e g "crema" method guess (.name a) ma ga p
    (∀ er, B.exc = some (.numeric er) → R.exc = some (.numeric er) ∧ R.g.beta = g.beta) ∧
    (B.exc = none → ∃ x, B.g.x = some x ∧
      let T := solve_tool e g₂ "crema" method guess (.matrix (linkMatrix x)) ma₂ ga₂ p
      R.g.x = some x ∧ R.exc = T.exc ∧ R.guess = T.guess ∧
      (T.exc = none → R.g.beta = T.g.beta ∧ R.g.beta ≠ none ∧ R.g.adjacency_crema = T.g.adjacency_crema ∧ R.g.solution_array = T.g.solution_array ∧
        R.g.expected_stregth_seq = T.g.expected_stregth_seq ∧ R.g.expected_dseq = B.g.expected_dseq ∧
        ∃ es ed, R.g.error_strength = some es ∧ T.g.error_strength = some es ∧ R.g.error_degree = some ed ∧ B.g.error_degree = some ed ∧
          T.g.error = some es ∧ R.g.error = some (max es ed))) := by
  intro B R
  have hn : a = "cm" ∨ a = "cm_exp" ∨ a = "ecm" ∨ a = "ecm_exp" := by tauto
  set q : UAttr d := { g with is_sparse := false } with hq
  obtain ⟨h1, h2, h3, h4, h5, h6, h7, h8, h9⟩ := solveProblem_memoryless e.inner q g₁ a ma ga p
  obtain ⟨-, -, -, -, -, -, -, h8', h9'⟩ := solveProblem_memoryless e.inner g₁ q a ma ga p
  have hR : R = finish e (solveProblemCrema e g "crema" method guess (.name a) ma ga p) := solve_tool_crema_finish e g "crema" method (.inl rfl) guess (.name a) ma ga p
  have hB : B = finish e.inner ⟨(solveProblem e.inner g₁ a ma ga p).1, (solveProblem e.inner g₁ a ma ga p).2.1, (solveProblem e.inner g₁ a ma ga p).2.2, ga₁⟩ := by
    simp only [B]; unfold solve_tool finish; rw [if_pos hn]; rfl
  have hC : solveProblemCrema e g "crema" method guess (.name a) ma ga p = match solveProblem e.inner q a ma ga p with
    | (g, some x, guess_adjacency) => ⟨g, some x, guess, guess_adjacency⟩
    | (g, none, guess_adjacency) =>
      match g.x with
      | none => ⟨g, some (.py .other), guess, guess_adjacency⟩
      | some x =>
        if g.is_sparse then
          let g := { g with adjacency_crema := some (.fitness x), adjacency_given := some false }
          let r := solveCremaTail e g (.fitness x) "crema" method guess p
          ⟨r.1, r.2.1, r.2.2, guess_adjacency⟩
        else if g.fun_pmatrix then
          let adj : CremaAdj n := .edges (triuEdges (CM.pmatrix_cm x))
          let g := { g with adjacency_crema := some adj, is_sparse := false, adjacency_given := some false }
          let r := solveCremaTail e g adj "crema" method guess p
          ⟨r.1, r.2.1, r.2.2, guess_adjacency⟩
        else ⟨g, some (.py .attributeError), guess, guess_adjacency⟩ := rfl
  rw [hC] at hR
  clear hC
  rcases hr : solveProblem e.inner q a ma ga p with ⟨r1, r2, r3⟩
  rcases hr' : solveProblem e.inner g₁ a ma ga p with ⟨r1', r2', r3'⟩
  simp only [hr, hr'] at h1 h2 h3 h4 h5 h6 h7 h8 h9 h8' h9' hR hB
  obtain ⟨rfl, rfl⟩ := Prod.mk.inj h1
  cases r2 with
  | some er =>
    have hB' : B.exc = some er := by rw [hB]; rfl
    refine ⟨fun er' h => ?_, fun h => by rw [hB'] at h; cases h⟩
    have : er = .numeric er' := Option.some.inj (hB'.symm.trans h)
    subst this
    rw [hR]
    exact ⟨rfl, h4⟩
  | none =>
    obtain ⟨a1, a2, -, -, -, -, -, a8⟩ := h9 rfl
    have a8 := (a8 ha).1
    obtain ⟨x, hx1⟩ := Option.ne_none_iff_exists'.1 a2
    have hx1' : r1'.x = some x := a1 ▸ hx1
    have hBg : B.g = (solutionError e.inner r1').1 := by rw [hB]; rfl
    have hBe : B.exc = (solutionError e.inner r1').2 := by rw [hB]; rfl
    have hse : solutionError e.inner r1' = strengthError e.inner (degreeError r1') := by
      unfold solutionError; rw [if_pos (by rw [h8']; rcases ha with rfl | rfl <;> simp)]
    refine ⟨fun er h => ?_, fun h => ?_⟩
    · exfalso
      rw [hBe, hse] at h
      unfold strengthError at h
      dsimp only at h
      split at h
      · cases h
      · split at h
        · cases h
        · split_ifs at h <;> (repeat' split at h) <;> cases h
    · obtain ⟨k1, -⟩ := solutionError_keeps e.inner r1'
      refine ⟨x, by rw [hBg, k1, hx1'], ?_⟩
      intro T
      obtain ⟨t1, t2, -, -⟩ := strengthError_side e.inner (degreeError r1')
      have hdd : degreeError r1' = { r1' with expected_dseq := some (CM.expected_degree_cm x), error_degree := some (maxAbs fun i => CM.expected_degree_cm x i - d.deg i), relative_error_degree := some (maxAbs fun i => (CM.expected_degree_cm x i - d.deg i) / (d.deg i + Real.exp (-100))), error := some (maxAbs fun i => CM.expected_degree_cm x i - d.deg i) } := by
        unfold degreeError; rw [hx1']
      have hBd : B.g.expected_dseq = some (CM.expected_degree_cm x) := by rw [hBg, hse, t1, hdd]
      have hBed : B.g.error_degree = some (maxAbs fun i => CM.expected_degree_cm x i - d.deg i) := by rw [hBg, hse, t2, hdd]
      have hsp : r1.is_sparse = false := h5
      set l := triuEdges (linkMatrix x) with hl
      set u : UAttr d := { r1 with adjacency_crema := some (.edges l), is_sparse := false, adjacency_given := some false } with hu
      set v : UAttr d := { g₂ with is_sparse := false, adjacency_crema := some (.edges l), adjacency_given := some true } with hv
      have hR2 : R = finish e ⟨(solveCremaTail e u (.edges l) "crema" method guess p).1, (solveCremaTail e u (.edges l) "crema" method guess p).2.1, (solveCremaTail e u (.edges l) "crema" method guess p).2.2, r3⟩ := by
        rw [hR]
        dsimp only
        rw [hx1]
        dsimp only
        rw [if_neg (by simp [hsp]), if_pos a8, pmatrix_spec, hu, hx1]
      have hT2 : T = finish e ⟨(solveCremaTail e v (.edges l) "crema" method guess p).1, (solveCremaTail e v (.edges l) "crema" method guess p).2.1, (solveCremaTail e v (.edges l) "crema" method guess p).2.2, ga₂⟩ :=
        solve_tool_crema_finish e g₂ "crema" method (.inl rfl) guess (.matrix (linkMatrix x)) ma₂ ga₂ p
      obtain ⟨m1, m2, m3, m4, m5, m6, m7, m8, m9, -, m10, m11⟩ := cremaTail_memoryless e u v (.edges l) "crema" method guess p rfl
      obtain ⟨-, -, -, n4, n5, n6, n7, n8, n9, -, n10, n11⟩ := cremaTail_memoryless e v u (.edges l) "crema" method guess p rfl
      generalize solveCremaTail e u (.edges l) "crema" method guess p = ru at *
      generalize solveCremaTail e v (.edges l) "crema" method guess p = rv at *
      obtain ⟨ru1, ru2, ru3⟩ := ru
      obtain ⟨rv1, rv2, rv3⟩ := rv
      dsimp only at *
      obtain ⟨rfl, rfl⟩ := Prod.mk.inj m1
      have hux : ru1.x = some x := m4.trans hx1
      cases ru2 with
      | some er =>
        rw [hR2, hT2]
        exact ⟨hux, rfl, rfl, fun h => by cases h⟩
      | none =>
        obtain ⟨b1, b2, b3, -⟩ := m11 rfl
        obtain ⟨b, hb⟩ := Option.ne_none_iff_exists'.1 b2
        have hb' : rv1.beta = some b := b1 ▸ hb
        obtain ⟨-, q1⟩ := crema_dense_report e (g := ru1) (b := b) (l := l) m10 hb m7 m6
        obtain ⟨q2, -⟩ := crema_dense_report e (g := rv1) (b := b) (l := l) n10 hb' n7 n6
        obtain ⟨s1, s2, s3, s4, s5, s6⟩ := q1 x m8 hux
        obtain ⟨v1, v2, v3, v4⟩ := q2 n8
        obtain ⟨k1, -, k3, k4, -, k6, k7, k8, k9, k10, k11, k12⟩ := solutionError_keeps e ru1
        obtain ⟨k1', -, k3', k4', -, k6', k7', k8', k9', k10', k11', k12'⟩ := solutionError_keeps e rv1
        have eR : R.g = (solutionError e ru1).1 := by rw [hR2]; rfl
        have eR' : R.exc = (solutionError e ru1).2 := by rw [hR2]; rfl
        have eT : T.g = (solutionError e rv1).1 := by rw [hT2]; rfl
        have eT' : T.exc = (solutionError e rv1).2 := by rw [hT2]; rfl
        have eG : R.guess = T.guess := by rw [hR2, hT2]; rfl
        refine ⟨by rw [eR, k1, hux], by rw [eR', eT', s1, v1], eG, fun _ => ⟨by rw [eR, eT, k3, k3', b1], by rw [eR, k3]; exact b2, by rw [eR, eT, k10, k10', m7, n7],
          by rw [eR, eT, k4, k4', b3], by rw [eR, eT, s2, v2], by rw [eR, s4, hBd], _, _, by rw [eR, s3], by rw [eT, v3], by rw [eR, s5], hBed, by rw [eT, v4], by rw [eR, s6]⟩⟩

end undirected

section directed

variable {n : ℕ} [NeZero n] {d : DData n}

/-- the expected degrees the library reports for directed fitnesses, out-degrees first -/
noncomputable def degDCM (x y : Fin n → ℝ) : Fin 2 × Fin n → ℝ := cat2 (DCM.expected_out_degree_dcm (cat2 x y)) (DCM.expected_in_degree_dcm (cat2 x y))

/-- the degree report -/
theorem degreeErrorD_some {g : DAttr d} {x y : Fin n → ℝ} (hx : g.x = some x) (hy : g.y = some y) :
    degreeErrorD g = { g with expected_dseq := some (degDCM x y), error_degree := some (maxAbs fun v => degDCM x y v - cat2 d.degOut d.degIn v), relative_error_degree := some (maxAbs fun v => (degDCM x y v - cat2 d.degOut d.degIn v) / (cat2 d.degOut d.degIn v + Real.exp (-100))), error := some (maxAbs fun v => degDCM x y v - cat2 d.degOut d.degIn v) } := by
  unfold degreeErrorD; rw [hx, hy]; rfl

theorem degreeErrorD_keep {α : Type} (f : DAttr d → α) (hf : ∀ g, f g.sol = f g) (g : DAttr d) : f (degreeErrorD g) = f g := by
  rw [← hf (degreeErrorD g), degreeErrorD_sol, hf]

/-- the report after a dense directed CReMa problem -/
theorem dcrema_dense_report {g : DAttr d} {bo bi : Fin n → ℝ} {l : Edges n} (hl : g.last_model = some "crema") (ho : g.b_out = some bo) (hi : g.b_in = some bi)
    (ha : g.adjacency_crema = some (.edges l)) (hs : g.is_sparse = false) :
    let S := solutionErrorD g
    let ex : Fin 2 × Fin n → ℝ := cat2 (DCReMa.expected_out_strength_crema_directed (cat2 bo bi) l) (DCReMa.expected_in_strength_crema_directed (cat2 bo bi) l)
    let es := maxAbs fun v => ex v - cat2 d.out_strength d.in_strength v
    (g.adjacency_given = some true → S.2 = none ∧ S.1.expected_stregth_seq = some ex ∧ S.1.error_strength = some es ∧ S.1.error = some es) ∧
    (∀ x y, g.adjacency_given = some false → g.x = some x → g.y = some y →
      let ed := maxAbs fun v => degDCM x y v - cat2 d.degOut d.degIn v
      S.2 = none ∧ S.1.expected_stregth_seq = some ex ∧ S.1.error_strength = some es ∧ S.1.expected_dseq = some (degDCM x y) ∧
        S.1.error_degree = some ed ∧ S.1.error = some (max es ed)) := by
  intro S ex es
  have hS : S = strengthErrorD (degreeErrorD g) := by
    simp only [S]; unfold solutionErrorD; rw [if_pos (by simp [hl])]
  rw [hS]
  unfold strengthErrorD
  rw [degreeErrorD_keep DAttr.b_out (fun _ => rfl), degreeErrorD_keep DAttr.b_in (fun _ => rfl), degreeErrorD_keep DAttr.adjacency_crema (fun _ => rfl),
    degreeErrorD_keep DAttr.adjacency_given (fun _ => rfl), degreeErrorD_keep DAttr.is_sparse (fun _ => rfl), ho, hi, ha, hs]
  constructor
  · intro hg
    rw [hg]
    simp [ex, es]
  · intro x y hg hx hy ed
    rw [hg, degreeErrorD_some hx hy]
    simp [ex, es, ed]

/-- C82, directed: as `C82_crema`, with "dcm" or "dcm_exp" and the matrix of the probabilities of the arcs between nodes of non-zero degrees.  The binary problem is solved with the line search,
also when the call was made with `linsearch=False`. -/
theorem C82_dcrema (e : Env) (g g₁ g₂ : DAttr d) (a : String) (ha : a = "dcm" ∨ a = "dcm_exp") (ma : String) (ga : DGuess n) (method : String) (guess : DGuess n)
    (adj₁ : AdjSpec n) (ma₁ ma₂ : String) (ga₁ ga₂ : DGuess n) (p : Params) :
    let B := solve_tool_directed e.inner g₁ a ma ga adj₁ ma₁ ga₁ { p with linsearch := true }
    let R := solve_tool_directed e g "crema" method guess (.name a) ma ga p
    (∀ er, B.exc = some (.numeric er) → R.exc = some (.numeric er) ∧ R.g.b_out = g.b_out ∧ R.g.b_in = g.b_in) ∧
    (B.exc = none → ∃ x y, B.g.x = some x ∧ B.g.y = some y ∧
      let T := solve_tool_directed e g₂ "crema" method guess (.matrix (linkMatrixD (active d.degOut x) (active d.degIn y))) ma₂ ga₂ p
      R.g.x = some x ∧ R.g.y = some y ∧ R.exc = T.exc ∧ R.guess = T.guess ∧
      (T.exc = none → R.g.b_out = T.g.b_out ∧ R.g.b_out ≠ none ∧ R.g.b_in = T.g.b_in ∧ R.g.b_in ≠ none ∧ R.g.adjacency_crema = T.g.adjacency_crema ∧
        R.g.solution_array = T.g.solution_array ∧ R.g.expected_stregth_seq = T.g.expected_stregth_seq ∧ R.g.expected_dseq = B.g.expected_dseq ∧
        ∃ es ed, R.g.error_strength = some es ∧ T.g.error_strength = some es ∧ R.g.error_degree = some ed ∧ B.g.error_degree = some ed ∧
          T.g.error = some es ∧ R.g.error = some (max es ed))) := by
  intro B R
  have hn : a = "dcm" ∨ a = "dcm_exp" ∨ a = "decm" ∨ a = "decm_exp" := by tauto
  set q : DAttr d := { g with is_sparse := false } with hq
  obtain ⟨h1, h2, h3, h5, h6, h7, h8, h4, h9⟩ := solveProblemD_memoryless e.inner q g₁ a ma ga { p with linsearch := true }
  obtain ⟨-, -, -, -, -, -, h8', -, h9'⟩ := solveProblemD_memoryless e.inner g₁ q a ma ga { p with linsearch := true }
  have hR : R = finishD (solveProblemDCrema e g "crema" method guess (.name a) ma ga p) := solve_tool_crema_finishD e g "crema" method (.inl rfl) guess (.name a) ma ga p
  have hB : B = finishD ⟨(solveProblemD e.inner g₁ a ma ga { p with linsearch := true }).1, (solveProblemD e.inner g₁ a ma ga { p with linsearch := true }).2.1, (solveProblemD e.inner g₁ a ma ga { p with linsearch := true }).2.2, ga₁⟩ :=
    solve_tool_plain_finishD e.inner g₁ a ma hn ga adj₁ ma₁ ga₁ { p with linsearch := true }
  have hC : solveProblemDCrema e g "crema" method guess (.name a) ma ga p = match solveProblemD e.inner q a ma ga { p with linsearch := true } with
    | (g, some x, guess_adjacency) => ⟨g, some x, guess, guess_adjacency⟩
    | (g, none, guess_adjacency) =>
      match g.x, g.y with
      | some x, some y =>
        if g.is_sparse then
          let g := { g with adjacency_crema := some (.fitness x y), adjacency_given := some false }
          let r := solveDCremaTail e g (.fitness x y) "crema" method guess p
          ⟨r.1, r.2.1, r.2.2, guess_adjacency⟩
        else if g.fun_pmatrix then
          let adj : DCremaAdj n := .edges (nzEdges (d.pmat x y))
          let g := { g with adjacency_crema := some adj, is_sparse := false, adjacency_given := some false }
          let r := solveDCremaTail e g adj "crema" method guess p
          ⟨r.1, r.2.1, r.2.2, guess_adjacency⟩
        else ⟨g, some (.py .attributeError), guess, guess_adjacency⟩
      | _, _ => ⟨g, some (.py .other), guess, guess_adjacency⟩ := rfl
  rw [hC] at hR
  clear hC
  rcases hr : solveProblemD e.inner q a ma ga { p with linsearch := true } with ⟨r1, r2, r3⟩
  rcases hr' : solveProblemD e.inner g₁ a ma ga { p with linsearch := true } with ⟨r1', r2', r3'⟩
  simp only [hr, hr'] at h1 h2 h3 h4 h5 h6 h7 h8 h9 h8' h9' hR hB
  obtain ⟨rfl, rfl⟩ := Prod.mk.inj h1
  cases r2 with
  | some er =>
    have hB' : B.exc = some er := by rw [hB]; rfl
    refine ⟨fun er' h => ?_, fun h => by rw [hB'] at h; cases h⟩
    have : er = .numeric er' := Option.some.inj (hB'.symm.trans h)
    subst this
    rw [hR]
    exact ⟨rfl, (h4 ha).1, (h4 ha).2⟩
  | none =>
    obtain ⟨a1, a2, a3, a4, -, -, -, -, -, a8⟩ := h9 rfl
    have a8 := (a8 ha).1
    obtain ⟨x, hx1⟩ := Option.ne_none_iff_exists'.1 a2
    obtain ⟨y, hy1⟩ := Option.ne_none_iff_exists'.1 a4
    have hx1' : r1'.x = some x := a1 ▸ hx1
    have hy1' : r1'.y = some y := a3 ▸ hy1
    have hBg : B.g = (solutionErrorD r1').1 := by rw [hB]; rfl
    have hBe : B.exc = (solutionErrorD r1').2 := by rw [hB]; rfl
    have hse : solutionErrorD r1' = strengthErrorD (degreeErrorD r1') := by
      unfold solutionErrorD; rw [if_pos (by rw [h8']; rcases ha with rfl | rfl <;> simp)]
    obtain ⟨t1, t2, -, t4⟩ := strengthErrorD_side (degreeErrorD r1')
    refine ⟨fun er h => absurd h (by rw [hBe, hse]; exact t4 er), fun h => ?_⟩
    refine ⟨x, y, by rw [hBg, keepsD DAttr.x (fun _ => rfl), hx1'], by rw [hBg, keepsD DAttr.y (fun _ => rfl), hy1'], ?_⟩
    intro T
    have hBd : B.g.expected_dseq = some (degDCM x y) := by rw [hBg, hse, t1, degreeErrorD_some hx1' hy1']
    have hBed : B.g.error_degree = some (maxAbs fun v => degDCM x y v - cat2 d.degOut d.degIn v) := by rw [hBg, hse, t2, degreeErrorD_some hx1' hy1']
    have hsp : r1.is_sparse = false := h5
    set l := nzEdges (linkMatrixD (active d.degOut x) (active d.degIn y)) with hl
    set u : DAttr d := { r1 with adjacency_crema := some (.edges l), is_sparse := false, adjacency_given := some false } with hu
    set v : DAttr d := { g₂ with is_sparse := false, adjacency_crema := some (.edges l), adjacency_given := some true } with hv
    have hR2 : R = finishD ⟨(solveDCremaTail e u (.edges l) "crema" method guess p).1, (solveDCremaTail e u (.edges l) "crema" method guess p).2.1, (solveDCremaTail e u (.edges l) "crema" method guess p).2.2, r3⟩ := by
      rw [hR]
      dsimp only
      rw [hx1, hy1]
      dsimp only
      rw [if_neg (by simp [hsp]), if_pos a8, pmat_spec, hu, hx1, hy1]
    have hT2 : T = finishD ⟨(solveDCremaTail e v (.edges l) "crema" method guess p).1, (solveDCremaTail e v (.edges l) "crema" method guess p).2.1, (solveDCremaTail e v (.edges l) "crema" method guess p).2.2, ga₂⟩ :=
      solve_tool_crema_finishD e g₂ "crema" method (.inl rfl) guess (.matrix _) ma₂ ga₂ p
    obtain ⟨m1, m2, m3, m4, m5, m6, m7, m8, m10, m11⟩ := dcremaTail_memoryless e u v (.edges l) "crema" method guess p rfl
    obtain ⟨-, -, -, n4, n5, n6, n7, n8, n10, n11⟩ := dcremaTail_memoryless e v u (.edges l) "crema" method guess p rfl
    generalize solveDCremaTail e u (.edges l) "crema" method guess p = ru at *
    generalize solveDCremaTail e v (.edges l) "crema" method guess p = rv at *
    obtain ⟨ru1, ru2, ru3⟩ := ru
    obtain ⟨rv1, rv2, rv3⟩ := rv
    dsimp only at *
    obtain ⟨rfl, rfl⟩ := Prod.mk.inj m1
    have hux : ru1.x = some x := m4.trans hx1
    have huy : ru1.y = some y := m5.trans hy1
    cases ru2 with
    | some er =>
      rw [hR2, hT2]
      exact ⟨hux, huy, rfl, rfl, fun h => by cases h⟩
    | none =>
      obtain ⟨b1, b2, b3, b4, b5, -⟩ := m11 rfl
      obtain ⟨bo, hbo⟩ := Option.ne_none_iff_exists'.1 b2
      obtain ⟨bi, hbi⟩ := Option.ne_none_iff_exists'.1 b4
      have hbo' : rv1.b_out = some bo := b1 ▸ hbo
      have hbi' : rv1.b_in = some bi := b3 ▸ hbi
      obtain ⟨-, q1⟩ := dcrema_dense_report (g := ru1) (l := l) m10 hbo hbi m7 m6
      obtain ⟨q2, -⟩ := dcrema_dense_report (g := rv1) (l := l) n10 hbo' hbi' n7 n6
      obtain ⟨s1, s2, s3, s4, s5, s6⟩ := q1 x y m8 hux huy
      obtain ⟨v1, v2, v3, v4⟩ := q2 n8
      have eR : R.g = (solutionErrorD ru1).1 := by rw [hR2]; rfl
      have eR' : R.exc = (solutionErrorD ru1).2 := by rw [hR2]; rfl
      have eT : T.g = (solutionErrorD rv1).1 := by rw [hT2]; rfl
      have eT' : T.exc = (solutionErrorD rv1).2 := by rw [hT2]; rfl
      have eG : R.guess = T.guess := by rw [hR2, hT2]; rfl
      refine ⟨by rw [eR, keepsD DAttr.x (fun _ => rfl), hux], by rw [eR, keepsD DAttr.y (fun _ => rfl), huy], by rw [eR', eT', s1, v1], eG,
        fun _ => ⟨by rw [eR, eT, keepsD DAttr.b_out (fun _ => rfl), keepsD DAttr.b_out (fun _ => rfl), b1], by rw [eR, keepsD DAttr.b_out (fun _ => rfl)]; exact b2,
          by rw [eR, eT, keepsD DAttr.b_in (fun _ => rfl), keepsD DAttr.b_in (fun _ => rfl), b3], by rw [eR, keepsD DAttr.b_in (fun _ => rfl)]; exact b4,
          by rw [eR, eT, keepsD DAttr.adjacency_crema (fun _ => rfl), keepsD DAttr.adjacency_crema (fun _ => rfl), m7, n7],
          by rw [eR, eT, keepsD DAttr.solution_array (fun _ => rfl), keepsD DAttr.solution_array (fun _ => rfl), b5], by rw [eR, eT, s2, v2], by rw [eR, s4, hBd],
          _, _, by rw [eR, s3], by rw [eT, v3], by rw [eR, s5], hBed, by rw [eT, v4], by rw [eR, s6]⟩⟩

end directed


end Verif.Solve
