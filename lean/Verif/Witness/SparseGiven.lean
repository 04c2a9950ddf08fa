import Verif.Props.SparseGiven
import Verif.Witness.SampleAfter2
import Verif.Props.SolveU2

/-! Cases for `Props/SparseGiven`: the triangle (three links, three nodes) and the directed ring on three nodes. -/

namespace Verif.Wit

open Verif Verif.Solve Verif.Sampler Verif.Solver

noncomputable section

/-- the ring 0 → 1 → 2 → 0 -/
def ringD : Fin 3 → Fin 3 → ℝ := fun i j => if j = i + 1 then 1 else 0

theorem ringD_links : arcCount ringD = 3 := by
  have : (Finset.univ.filter fun q : Fin 3 × Fin 3 => ringD q.1 q.2 ≠ 0) = Finset.univ.filter fun q : Fin 3 × Fin 3 => q.2 = q.1 + 1 := by
    ext q; simp [ringD]
  unfold arcCount
  rw [this]
  decide

/-- the triangle -/
def triA : Fin 3 → Fin 3 → ℝ := fun i j => if i = j then 0 else 1

theorem triA_links : linkCount triA = 3 := by
  have : (Finset.univ.filter fun q : Fin 3 × Fin 3 => q.1 ≤ q.2 ∧ triA q.1 q.2 ≠ 0) = Finset.univ.filter fun q : Fin 3 × Fin 3 => q.1 ≤ q.2 ∧ q.1 ≠ q.2 := by
    ext q; simp [triA]
  unfold linkCount
  rw [this]
  decide

/-- one step of quasinewton without line search, from any guess at which the regularised diagonal has no zero -/
theorem oneQuasi {ι : Type} [Fintype ι] [DecidableEq ι] [Nonempty ι] (C : Callbacks ι) (x0 : ι → ℝ) (h : 0 < maxAbs (C.fn x0)) :
    ∃ s, solver C (Params.opts { max_steps := 1, full_return := true, linsearch := false, tol := -1, eps := -1 } "quasinewton") x0 = .ok s ∧ s.n_steps = 1 := by
  set o := Params.opts { max_steps := 1, full_return := true, linsearch := false, tol := -1, eps := -1 } "quasinewton" with ho
  have hn : (0 : ℝ) ≤ norm2 (C.fn x0) := Real.sqrt_nonneg _
  have h1 : (initState C x0).norm > o.tol ∧ (initState C x0).diff > o.eps := by
    simp only [initState, ho, Params.opts]
    constructor <;> linarith
  have hd : ∃ dx, direction C o (initState C x0).x (initState C x0).f = .ok dx := by
    unfold direction
    rw [if_neg (by simp [ho, Params.opts]), if_pos (by simp [ho, Params.opts])]
    dsimp only
    rw [if_neg]
    · exact ⟨_, rfl⟩
    · rintro ⟨i, hi⟩
      have hr : o.regularise = true := rfl
      have he : o.regularise_eps = 1e-3 := rfl
      rw [if_pos hr] at hi
      have hm : C.jacDiag x0 i * 0 + maxAbs (C.fn x0) * o.regularise_eps ≤ 0 := le_of_le_of_eq (le_max_right _ _) hi
      rw [he] at hm
      norm_num at hm
      linarith
  obtain ⟨dx, hd⟩ := hd
  have hs : stepLength C o (initState C x0) dx = .ok 1 := by
    simp [stepLength, ho, Params.opts]
  unfold solver
  rw [show o.max_steps = 1 from rfl]
  simp only [loop]
  rw [if_pos h1]
  simp only [step, hd, hs]
  exact ⟨_, rfl, rfl⟩

theorem triU_len : (triuEdges triA).length = 3 := (triu_length triA).trans triA_links
theorem ring_len : (nzEdges ringD).length = 3 := (nz_length ringD).trans ringD_links

example := C80_sparse_given_nothing R0 e0 (d := tri) {} "quasinewton" (.nodes fun _ => 1) triA "" .other noSteps (by
  simp [solve_tool, solveProblemCrema, solveCremaTail, Solve.finish, guessCrema, look, noSteps_run, noSteps_run', solutionError, setSolvedCrema, degreeError, strengthError,
    triU_len])
example := C80_sparse_given_nothing_directed R0 e0 (d := triD) {} "quasinewton" (.pairs fun _ => 1) ringD "" .other noSteps (by
  simp [solve_tool_directed, solveProblemDCrema, solveDCremaTail, guessDCrema, setSolvedDCrema, lookD, noSteps_run, noSteps_run', triD_known, solutionErrorD, degreeErrorD,
    strengthErrorD, ring_len])
example := C36_sparse_given_links e0 (d := tri) {} .newton (.nodes fun _ => 1) (fun _ _ => 0) (by simp [linkCount]) "" .other noSteps
example := C36_dsparse_given_links e0 (d := triD) {} .newton (.pairs fun _ => 1) triA (by
  have : (Finset.univ.filter fun q : Fin 3 × Fin 3 => triA q.1 q.2 ≠ 0) = Finset.univ.filter fun q : Fin 3 × Fin 3 => q.1 ≠ q.2 := by
    ext q; simp [triA]
  unfold arcCount
  rw [this]
  decide) "" .other noSteps

/-- the parameters of a call that makes one step -/
def one : Params := { max_steps := 1, full_return := true, linsearch := false, tol := -1, eps := -1 }

/-- a call on the triangle that makes a step: the residual stays above the strength 2 -/
example : ∃ t, (solve_tool e0 ({} : UAttr tri) "crema-sparse" "quasinewton" (.nodes fun _ => 1) (.matrix triA) "" .other one).g.trace_crema = some t ∧ t.n_steps = 1 ∧
    t.norm_seq.length = 2 ∧ ∀ r ∈ t.norm_seq, 2 ≤ r := by
  set v : Fin 3 → ℝ := maskSet (fun _ => 1) (fun i => tri.strength_sequence i = 0) 0
  have hf := sparse_given_fn (d := tri) e0 e0_valid .quasinewton (by decide) triA 0 1 rfl (by simp [triA]) v
  have hp : (0 : ℝ) < maxAbs ((cbCremaSparseOn e0 tri (triuEdges triA) .quasinewton).fn v) := by
    have := (maxAbs_isMax ((cbCremaSparseOn e0 tri (triuEdges triA) .quasinewton).fn v)).1 0
    rw [hf, show tri.strength_sequence 0 = 2 from rfl, abs_two] at this
    linarith
  obtain ⟨s, hs, h1⟩ := oneQuasi _ v hp
  have hs' : solver (cbCremaSparseOn e0 tri (triuEdges triA) .quasinewton) (one.opts "quasinewton") v = .ok s := hs
  have hexc : (solve_tool e0 ({} : UAttr tri) "crema-sparse" "quasinewton" (.nodes fun _ => 1) (.matrix triA) "" .other one).exc = none := by
    simp [solve_tool, solveProblemCrema, solveCremaTail, guessCrema, look, solutionError, setSolvedCrema, degreeError, strengthError, triU_len, v, hs']
  obtain ⟨t, ht, hl, hr⟩ := C36_sparse_given_never e0 e0_valid (d := tri) {} .quasinewton (by decide) (.nodes fun _ => 1) triA "" .other one rfl 0 1 rfl (by simp [triA]) hexc
  have h2 : (solve_tool e0 ({} : UAttr tri) "crema-sparse" "quasinewton" (.nodes fun _ => 1) (.matrix triA) "" .other one).g.trace_crema = some (.of s) := by
    simp [solve_tool, solveProblemCrema, solveCremaTail, guessCrema, look, solutionError, setSolvedCrema, degreeError, strengthError, triU_len, v, hs', show one.full_return = true from rfl]
  have h3 : t.n_steps = 1 := by
    have := ht.symm.trans h2
    rw [Option.some.inj this]
    exact h1
  exact ⟨t, ht, h3, by rw [hl, h3], hr⟩

example := C36_dsparse_given_never e0 e0_valid (d := triD) {} .quasinewton (by decide) (.pairs fun _ => 1) ringD "" .other { noSteps with full_return := true } rfl 0 1 rfl
  (by simp [ringD]) (by
  simp [solve_tool_directed, solveProblemDCrema, solveDCremaTail, guessDCrema, setSolvedDCrema, lookD, triD_known, solutionErrorD, degreeErrorD,
    strengthErrorD, ring_len, noSteps, Params.opts, solver, loop, show Method.quasinewton.name = "quasinewton" from rfl])

end
end Verif.Wit
