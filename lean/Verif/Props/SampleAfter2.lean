import Verif.Props.SampleAfter
import Verif.Props.SampleAfterD

/-! C80: objects with nothing to sample.  A graph that was never solved, one whose first call was refused, and one solved with crema-sparse on a matrix given by the user. -/

namespace Verif.Sampler

open Verif Solve Spec

variable {n : ℕ} (R : Rng)

/-- C80: a graph on which `solve_tool` was never called raises `ValueError`, however many copies are asked for. -/
theorem C80_never_solved {d : UData n} {d' : DData n} (N : ℕ) (dir : String) (seed : Option ℕ) (entropy : R.S) (fmt : ℝ → String) (envs : ℕ → Env R) (states : ℕ → R.S) :
    samplerU R ({} : UAttr d) N dir seed entropy fmt envs states = .error .valueError ∧ samplerD R ({} : DAttr d') N dir seed entropy fmt envs states = .error .valueError := by
  constructor
  · simp [samplerU, viewU, ensemble_sampler_undirected]
  · simp [samplerD, viewD, ensemble_sampler_directed]

variable [NeZero n]

/-- C80: when the first call on an object was refused (`cm`, `ecm` with a guess that is not one) nothing can be sampled: for one copy or more the sampler raises and no file is complete;
asked for none it returns. -/
theorem C80_first_refused (e : Solve.Env) {d : UData n} (model method : String) (hm : model = "cm" ∨ model = "cm_exp" ∨ model = "ecm" ∨ model = "ecm_exp")
    (adj : AdjSpec n) (ma : String) (ga : Guess n) (p : Params) :
    let S := solve_tool e ({} : UAttr d) model method .other adj ma ga p
    S.exc ≠ none ∧ ∀ (N : ℕ) (dir : String) (seed : Option ℕ) (entropy : R.S) (fmt : ℝ → String) (envs : ℕ → Env R) (states : ℕ → R.S),
      samplerU R S.g N dir seed entropy fmt envs states = if 1 ≤ N then .error .missing else .ok [] := by
  intro S
  have hS : S = solve_tool e ({} : UAttr d) model method .other adj ma ga p := rfl
  simp only [solve_tool, if_pos hm, solveProblem] at hS
  have hN : ∀ N : ℕ, (if N = 0 then Except.ok [] else .error .missing : Except Err (List (String × String))) = if 1 ≤ N then .error .missing else .ok [] := fun N => by
    by_cases h : N = 0
    · subst h; rfl
    · rw [if_neg h, if_pos (Nat.one_le_iff_ne_zero.2 h)]
  by_cases hc : model = "cm" ∨ model = "cm_exp"
  · simp only [if_pos hc, guessCM] at hS
    have hv : viewU S.g = none := by rw [hS]; simp [viewU, hc]
    refine ⟨by rw [hS]; simp, fun N dir seed entropy fmt envs states => ?_⟩
    unfold samplerU
    rw [hv]
    exact hN N
  · have he : model = "ecm" ∨ model = "ecm_exp" := by tauto
    simp only [if_neg hc, if_pos he, guessECM] at hS
    have hv : viewU S.g = none := by rw [hS]; simp [viewU, hc, he]
    refine ⟨by rw [hS]; simp, fun N dir seed entropy fmt envs states => ?_⟩
    unfold samplerU
    rw [hv]
    exact hN N

/-- the same for directed graphs -/
theorem C80_first_refused_directed (e : Solve.Env) {d : DData n} (model method : String) (hm : model = "dcm" ∨ model = "dcm_exp" ∨ model = "decm" ∨ model = "decm_exp")
    (adj : AdjSpec n) (ma : String) (ga : DGuess n) (p : Params) :
    let S := solve_tool_directed e ({} : DAttr d) model method .other adj ma ga p
    S.exc ≠ none ∧ ∀ (N : ℕ) (dir : String) (seed : Option ℕ) (entropy : R.S) (fmt : ℝ → String) (envs : ℕ → Env R) (states : ℕ → R.S),
      samplerD R S.g N dir seed entropy fmt envs states = if 1 ≤ N then .error .missing else .ok [] := by
  intro S
  have hS : S = solve_tool_directed e ({} : DAttr d) model method .other adj ma ga p := rfl
  simp only [solve_tool_directed, if_pos hm, solveProblemD] at hS
  have hN : ∀ N : ℕ, (if N = 0 then Except.ok [] else .error .missing : Except Err (List (String × String))) = if 1 ≤ N then .error .missing else .ok [] := fun N => by
    by_cases h : N = 0
    · subst h; rfl
    · rw [if_neg h, if_pos (Nat.one_le_iff_ne_zero.2 h)]
  by_cases hc : model = "dcm" ∨ model = "dcm_exp"
  · simp only [if_pos hc, guessDCM] at hS
    have hv : viewD S.g = none := by rw [hS]; simp [viewD, hc]
    refine ⟨by rw [hS]; simp, fun N dir seed entropy fmt envs states => ?_⟩
    unfold samplerD
    rw [hv]
    exact hN N
  · have he : model = "decm" ∨ model = "decm_exp" := by tauto
    simp only [if_neg hc, if_pos he, guessDECM] at hS
    have hv : viewD S.g = none := by rw [hS]; simp [viewD, hc, he]
    refine ⟨by rw [hS]; simp, fun N dir seed entropy fmt envs states => ?_⟩
    unfold samplerD
    rw [hv]
    exact hN N

/-- C80 fails silently: after `crema-sparse` on a matrix given by the user the sampler returns at once and has written nothing, whatever number of copies was asked for. -/
theorem C80_sparse_given_nothing (e : Solve.Env) {d : UData n} (g : UAttr d) (method : String) (guess : Guess n) (a : Fin n → Fin n → ℝ) (ma : String) (ga : Guess n) (p : Params) :
    let S := solve_tool e g "crema-sparse" method guess (.matrix a) ma ga p
    S.exc = none → ∀ (N : ℕ) (dir : String) (seed : Option ℕ) (entropy : R.S) (fmt : ℝ → String) (envs : ℕ → Env R) (states : ℕ → R.S),
      samplerU R S.g N dir seed entropy fmt envs states = .ok [] := by
  intro S h N dir seed entropy fmt envs states
  obtain ⟨b, hb, hl, hg, ha⟩ := crema_matrix_attrs e g "crema-sparse" method (.inr rfl) guess a ma ga p h
  have hl' : S.g.last_model = some "crema-sparse" := hl
  have hg' : S.g.adjacency_given = some true := hg
  simp [samplerU, viewU, hl', hg', ensemble_sampler_undirected]

end Verif.Sampler
