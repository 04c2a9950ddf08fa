import Verif.Props.Reverse3

/-! C73 for the directed crema on the link probabilities of the binary model. -/

namespace Verif.Solve
open Verif Verif.Solver Verif.Reduction Verif.Spec Finset

noncomputable section
open Classical in
attribute [local instance 0] propDecidable

variable {n : ℕ}

section solving
variable [NeZero n] {e : Env} {d d' : DData n} (hd : ReversedData d d')
include hd

/-- the binary problem of CReMa on exchanged degrees -/
theorem innerD_reverse (he : e.Valid) (hout : ∀ (ι : Type) (τ : Equiv.Perm ι) x, e.outside ι (x ∘ τ) = e.outside ι x) (mo : DModel) (hmo : mo = .dcm ∨ mo = .dcm_exp) (method s : String) (hs : s ≠ "random") (p : Params) :
    let S := solveProblemD e ({} : DAttr d) mo.name method (.name s) p
    let S' := solveProblemD e ({} : DAttr d') mo.name method (.name s) p
    S'.2 = S.2 ∧ ReversedAnswer S.1 S'.1 ∧ (S.2.1 = none →
      (∃ v v', S.1.solution_array = some (.reduced v) ∧ S'.1.solution_array = some (.reduced v')) ∧ S.1.is_sparse = false ∧ S'.1.is_sparse = false ∧
      S.1.fun_pmatrix = true ∧ S'.1.fun_pmatrix = true ∧ ∃ x y, S.1.x = some x ∧ S.1.y = some y) := by
  obtain ⟨φ, hφ, hinv⟩ := classes_reverse hd
  obtain ⟨isExp, hm⟩ : ∃ isExp : Bool, mo = if isExp then .dcm_exp else .dcm := by
    rcases hmo with rfl | rfl
    · exact ⟨false, rfl⟩
    · exact ⟨true, rfl⟩
  have hmn : mo.name = "dcm" ∨ mo.name = "dcm_exp" := by rcases hmo with rfl | rfl <;> decide
  have hdec : decide (mo.name = "dcm_exp") = isExp := by cases isExp <;> subst hm <;> decide
  intro S S'
  have h1 : S = solveProblemD e ({} : DAttr d) mo.name method (.name s) p := rfl
  have h2 : S' = solveProblemD e ({} : DAttr d') mo.name method (.name s) p := rfl
  unfold solveProblemD at h1 h2
  rw [if_pos hmn, hdec, guess_startD] at h1 h2
  rw [hd.n_edges] at h2
  have hss := startD_rev e d.n_edges isExp s hs
  cases hst : startD e d.n_edges isExp s with
  | none =>
    rw [hst] at h1 h2
    rw [h1, h2]
    exact ⟨rfl, ⟨rfl, rfl, rfl, rfl, rfl, rfl, rfl, rfl, rfl, rfl, rfl, rfl, rfl, rfl, rfl⟩, by simp⟩
  | some X =>
    rw [hst] at h1 h2 hss
    cases hl : dLookup mo.name method with
    | none =>
      simp only [hl] at h1 h2
      rw [h1, h2]
      exact ⟨rfl, ⟨rfl, rfl, rfl, rfl, rfl, rfl, rfl, rfl, rfl, rfl, rfl, rfl, rfl, rfl, rfl⟩, by simp⟩
    | some v =>
      obtain ⟨mo', me⟩ := v
      have hmo' : mo' = mo := by
        rcases dLookup_some hl with ⟨h0, -⟩ | ⟨h0, -⟩
        · exact h0
        · rcases hmo with rfl | rfl <;> cases h0
      subst hmo'
      simp only [hl] at h1 h2
      have ht : ∀ d : DData n, (if mo'.name = "dcm_exp" then cbDCMexp e d me else cbDCM e d me) = tableD e isExp me d.ko d.ki d.c := by
        intro d; cases isExp <;> subst hm <;> rfl
      rw [ht] at h1 h2
      rcases run_revD he hout isExp me (p.opts method) X X hss φ hφ with ⟨er, e1, e2⟩ | ⟨st, st', e1, e2, e3, e4, e5⟩
      · rw [e1] at h1
        rw [e2] at h2
        rw [h1, h2]
        refine ⟨rfl, ⟨rfl, rfl, rfl, rfl, rfl, rfl, rfl, rfl, rfl, rfl, rfl, rfl, rfl, rfl, ?_⟩, by simp⟩
        unfold model_loglikelihood_directed
        cases mo' <;> rfl
      · rw [e1] at h1
        rw [e2] at h2
        rw [h1, h2]
        refine ⟨rfl, ⟨?_, ?_, rfl, rfl, rfl, rfl, rfl, rfl, rfl, rfl, rfl, rfl, ?_, rfl, ?_⟩, fun _ => ⟨⟨_, _, rfl, rfl⟩, rfl, rfl, rfl, rfl, ⟨_, _, rfl, rfl⟩⟩⟩
        · refine congrArg some ?_
          funext i
          cases isExp
          · exact (e4 _).1.trans (by rw [hinv]; rfl)
          · exact congrArg (fun t => Real.exp (-t)) ((e4 _).1.trans (by rw [hinv]))
        · refine congrArg some ?_
          funext i
          cases isExp
          · exact (e4 _).2.trans (by rw [hinv]; rfl)
          · exact congrArg (fun t => Real.exp (-t)) ((e4 _).2.trans (by rw [hinv]))
        · simp only [setSolvedDCM, e3]
        · unfold model_loglikelihood_directed
          simp only [setSolvedDCM]
          cases isExp <;> subst hm <;> exact congrArg (fun t : ℝ => Except.ok (-t)) e5

theorem pmat_reverse (x y : Fin n → ℝ) (i j : Fin n) : d'.pmat y x i j = d.pmat x y j i := by
  simp only [pmat_spec, hd.degOut, hd.degIn]
  simp only [linkMatrixD, linkDBCM, active]
  by_cases hij : i = j
  · subst hij; simp
  · simp [hij, Ne.symm hij, mul_comm, and_comm]

/-- C73 (the directed crema on the link probabilities of the binary model): reversing every arc - exchanging the two degree sequences, the two strength sequences and,
when the guess is an array, its two halves - exchanges the two sides of the answer and changes nothing else.  Any method for either problem, any named guess but
"random" for the binary one, any guess but "random" for the weighted one. -/
theorem C73_dcrema_binary_reverse (he : e.Valid) (hout : ∀ (ι : Type) (τ : Equiv.Perm ι) x, e.outside ι (x ∘ τ) = e.outside ι x) (mo : DModel) (hmo : mo = .dcm ∨ mo = .dcm_exp)
    (me : Method) (guess : DGuess n) (hg : guess ≠ .name "random") (ma s : String) (hs : s ≠ "random") (p : Params) :
    let R := solve_tool_directed e ({} : DAttr d) "crema" me.name guess (.name mo.name) ma (.name s) p
    let R' := solve_tool_directed e ({} : DAttr d') "crema" me.name (guess.reverse) (.name mo.name) ma (.name s) p
    R'.exc = R.exc ∧ ReversedAnswer R.g R'.g := by
  intro R R'
  have hI := innerD_reverse hd (e := e.inner) ⟨he.randAdj_nonneg, he.randAdj_lt, he.randAdj_nonneg, he.randAdj_lt, he.eigh, he.sched⟩ hout mo hmo ma s hs { p with linsearch := true }
  have hU : ∀ {d : DData n} guess, solve_tool_directed e ({} : DAttr d) "crema" me.name guess (.name mo.name) ma (.name s) p =
      match solveProblemD e.inner ({} : DAttr d) mo.name ma (.name s) { p with linsearch := true } with
      | (g, some x, ga) => ⟨g, some x, guess, ga⟩
      | (g, none, ga) =>
        match g.x, g.y with
        | some x, some y =>
          if g.is_sparse then
            let r := solveDCremaTail e { g with adjacency_crema := some (.fitness x y), adjacency_given := some false } (.fitness x y) "crema" me.name guess p
            match r.2.1 with
            | some x => ⟨r.1, some x, r.2.2, ga⟩
            | none => ⟨(solutionErrorD r.1).1, (solutionErrorD r.1).2, r.2.2, ga⟩
          else if g.fun_pmatrix then
            let r := solveDCremaTail e { g with adjacency_crema := some (.edges (nzEdges (d.pmat x y))), is_sparse := false, adjacency_given := some false }
              (.edges (nzEdges (d.pmat x y))) "crema" me.name guess p
            match r.2.1 with
            | some x => ⟨r.1, some x, r.2.2, ga⟩
            | none => ⟨(solutionErrorD r.1).1, (solutionErrorD r.1).2, r.2.2, ga⟩
          else ⟨g, some (.py .attributeError), guess, ga⟩
        | _, _ => ⟨g, some (.py .other), guess, ga⟩ := by
    intro d guess
    unfold solve_tool_directed
    rw [if_neg (by decide), if_pos (by simp)]
    simp only [solveProblemDCrema]
    rcases hS : solveProblemD e.inner ({} : DAttr d) mo.name ma (.name s) { p with linsearch := true } with ⟨g, _ | x, ga⟩
    · have hS' : solveProblemD e.inner ({ is_sparse := false } : DAttr d) mo.name ma (.name s) { p with linsearch := true } = (g, none, ga) := hS
      rw [show (decide ("crema" = "crema-sparse")) = false from by decide, hS']
      simp only
      cases g.x with
      | none => rfl
      | some x =>
        cases g.y with
        | none => rfl
        | some y =>
          simp only
          split_ifs
          · split <;> simp_all
          · split <;> simp_all
          · rfl
    · have hS' : solveProblemD e.inner ({ is_sparse := false } : DAttr d) mo.name ma (.name s) { p with linsearch := true } = (g, some x, ga) := hS
      rw [show (decide ("crema" = "crema-sparse")) = false from by decide, hS']
  have h1 : R = _ := hU guess
  have h2 : R' = _ := hU (guess.reverse)
  rcases hS : solveProblemD e.inner ({} : DAttr d) mo.name ma (.name s) { p with linsearch := true } with ⟨g, ex, ga⟩
  rcases hS' : solveProblemD e.inner ({} : DAttr d') mo.name ma (.name s) { p with linsearch := true } with ⟨g', ex', ga'⟩
  rw [hS] at h1 hI
  rw [hS'] at h2 hI
  obtain ⟨e1, e2, e3⟩ := hI
  replace e1 : (ex', ga') = (ex, ga) := e1
  obtain ⟨rfl, rfl⟩ := Prod.mk.inj e1
  replace e2 : ReversedAnswer g g' := e2
  cases hex : ex' with
  | some er =>
    rw [hex] at h1 h2
    rw [h1, h2]
    exact ⟨rfl, e2⟩
  | none =>
    rw [hex] at h1 h2
    obtain ⟨f3, f4, f5, f6, f7, x, y, f8, f9⟩ := e3 hex
    replace f8 : g.x = some x := f8
    replace f9 : g.y = some y := f9
    have f8' : g'.x = some y := by rw [e2.x, f9]
    have f9' : g'.y = some x := by rw [e2.y, f8]
    replace f4 : g.is_sparse = false := f4
    replace f5 : g'.is_sparse = false := f5
    replace f6 : g.fun_pmatrix = true := f6
    replace f7 : g'.fun_pmatrix = true := f7
    simp only [f8, f8', f9, f9', f4, f5, f6, f7, Bool.false_eq_true, if_false, if_true] at h1 h2
    have hP := pmat_reverse hd x y
    have ht := tailD_reverse
      (G := { g with x := some x, y := some y, fun_pmatrix := true, adjacency_crema := some (.edges (nzEdges (d.pmat x y))), is_sparse := false, adjacency_given := some false })
      (G' := { g' with x := some y, y := some x, fun_pmatrix := true, adjacency_crema := some (.edges (nzEdges (d'.pmat y x))), is_sparse := false, adjacency_given := some false }) hd hP hout
      ⟨rfl, rfl, e2.b_out, e2.b_in, e2.expected_dseq, e2.expected_strength_seq, e2.expected_stregth_seq, e2.error_degree, e2.relative_error_degree,
        e2.error_strength, e2.relative_error_strength, e2.error, e2.trace, e2.trace_crema, e2.loglikelihood⟩ rfl rfl (.inr f3) me guess hg p
    rcases hT : solveDCremaTail e { g with x := some x, y := some y, fun_pmatrix := true, adjacency_crema := some (.edges (nzEdges (d.pmat x y))), is_sparse := false, adjacency_given := some false }
      (.edges (nzEdges (d.pmat x y))) "crema" me.name guess p with ⟨t1, t2, t3⟩
    rcases hT' : solveDCremaTail e { g' with x := some y, y := some x, fun_pmatrix := true, adjacency_crema := some (.edges (nzEdges (d'.pmat y x))), is_sparse := false, adjacency_given := some false }
      (.edges (nzEdges (d'.pmat y x))) "crema" me.name (guess.reverse) p with ⟨u1, u2, u3⟩
    rw [hT] at h1 ht
    rw [hT'] at h2 ht
    obtain ⟨k1, k2, k3⟩ := ht
    replace k1 : u2 = t2 := k1
    subst k1
    cases hu : u2 with
    | some er =>
      rw [hu] at h1 h2
      rw [h1, h2]
      exact ⟨rfl, k2⟩
    | none =>
      rw [hu] at h1 h2
      rw [h1, h2]
      obtain ⟨m1, m2, m3, m4, m5, m6, m7, m8⟩ := k3 hu
      exact solutionErrorD_crema_reverse hd hP k2 m1 m2 m3 m4 m5 m6 (m8.trans m7.symm)

end solving

end

end Verif.Solve
