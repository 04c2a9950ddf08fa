import Verif.Props.Verbose
import Verif.Witness.Relabel3

/-! Non-vacuity of C74: one newton step on the equation `x - 1 = 0`. -/

namespace Verif.Wit
open Verif Verif.Solver Verif.Solve Verif.Verbose

noncomputable section

/-- the equation `x - 1 = 0` in one unknown -/
def lin : Callbacks (Fin 1) where
  fn x := fun i => x i - 1
  jac _ := 1
  jacDiag _ := fun _ => 1
  hessian_regulariser := matrix_regulariser_function
  linsearch _ _ _ a _ := some a
  linsearchFixed _ _ _ a _ _ := some a

/-- one step of newton -/
def linO (reg : Bool) : Opts := ⟨0, 0, 1, "newton", reg, 1, true⟩

theorem lin_norm : norm2 (lin.fn 0) = 1 := by simp [norm2, lin]

theorem lin_run (reg : Bool) : ∃ r, solver lin (linO reg) 0 = .ok r ∧ r.n_steps = 1 := by
  have hd : ∃ dx, direction lin (linO reg) 0 (lin.fn 0) = .ok dx := by
    unfold direction linalgSolve
    rw [if_pos (show (linO reg).method = "newton" from rfl)]
    dsimp only
    have hdet : Matrix.det (if (linO reg).regularise = true then lin.hessian_regulariser (lin.jac 0) (maxAbs (lin.fn 0) * (linO reg).regularise_eps) else lin.jac 0) ≠ 0 := by
      cases reg
      · simp [linO, lin]
      · simp [linO, lin, matrix_regulariser_function, maxAbs, Matrix.det_fin_one]
        norm_num
    rw [if_neg hdet]
    exact ⟨_, rfl⟩
  obtain ⟨dx, hd⟩ := hd
  have hc : (initState lin (0 : Fin 1 → ℝ)).norm > (linO reg).tol ∧ (initState lin (0 : Fin 1 → ℝ)).diff > (linO reg).eps := by
    refine ⟨?_, ?_⟩
    · show norm2 (lin.fn 0) > 0
      rw [lin_norm]; norm_num
    · show (1 : ℝ) > 0
      norm_num
  have hs : ∃ s', step lin (linO reg) (initState lin 0) = .ok s' ∧ s'.n_steps = 1 := by
    unfold step
    rw [show direction lin (linO reg) (initState lin 0).x (initState lin 0).f = _ from hd]
    dsimp only
    rw [show stepLength lin (linO reg) (initState lin 0) dx = .ok 1 from rfl]
    exact ⟨_, rfl, rfl⟩
  obtain ⟨s', h1, h2⟩ := hs
  refine ⟨s', ?_, h2⟩
  rw [solver, show (linO reg).max_steps = 0 + 1 from rfl, loop, if_pos hc, h1]
  rfl

/-- the verbose call agrees with the silent one -/
example (P : Probe (Fin 1)) := C74_verbose_same_partial lin P (linO true) 0 (.inr rfl)

/-- the log of one step -/
example (P : Probe (Fin 1)) : stepNumbers (solverV lin P (linO true) 0).1 = [1] := by
  obtain ⟨r, hr, hn⟩ := lin_run true
  have := (C74_verbose_log_partial lin P (linO true) 0 (.inr rfl) r hr).2.2.2.1
  rw [hn] at this
  exact this

/-- without regularisation the verbose call raises where the silent one returns -/
example (P : Probe (Fin 1)) : (solverV lin P (linO false) 0).2 = .error .unboundEig := by
  obtain ⟨r, hr, hn⟩ := lin_run false
  exact (C74_verbose_newton_fails lin P (linO false) 0 rfl rfl r hr (by omega)).1

/-- the printed eigenvalues of this step -/
example (F : (Fin 1 → ℝ) → Option ℝ) : ∀ v ∈ newMinEigs (solverV lin ⟨F, fun B => (e0.eigh _ B).1⟩ (linO true) 0).1, 0 < v := by
  refine C74_new_min_eig_pos lin _ (linO true) 0 rfl rfl le_rfl (fun B hB => env_eigh e0_valid B hB) fun x hf => ?_
  refine C17_regulariser_identity_posdef_partial _ _ (mul_pos (maxAbs_pos hf) (by norm_num [linO])) fun v => ?_
  rw [show lin.jac x = 1 from rfl, quad_one]
  exact Finset.sum_nonneg fun i _ => sq_nonneg _

/-- one block of eigenvalue lines -/
example (P : Probe (Fin 1)) : (conds (solverV lin P (linO true) 0).1).length = 1 := by
  obtain ⟨r, hr, hn⟩ := lin_run true
  obtain ⟨v, h1, -, -, -, h2, -⟩ := C74_condition_numbers lin P (linO true) 0 rfl rfl r hr
  rw [h2, List.length_map, h1, hn]

/-- the calls of `solve_tool` -/
example (P : Probe (Fin ringData.r)) (x0 : Fin ringData.r → ℝ) := C74_verbose_solve_tool (cbCM e0 ringData .newton) P p0 "newton" x0

example := C74_new_min_eig_models e0_valid pathU turnData ({} : Params) (by norm_num)

end

end Verif.Wit
