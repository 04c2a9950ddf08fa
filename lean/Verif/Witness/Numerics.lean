import Verif.Witness.Data
import Verif.Witness.Solve
import Verif.Props.LineSearch
import Verif.Props.Psd
import Verif.Props.Regulariser
import Verif.Props.Solver
import Verif.Props.SolveU3
import Verif.Props.Runs
import Verif.Props.Motif
import Verif.Props.Parallel

/-! Instances of the theorems about the line searches, the regularisers, the solver loop, the motif counters and the parallel loops
(C13-C17, C28, C29, C44). -/

namespace Verif.Wit

open Spec Finset Solver

noncomputable section

/-! ### line searches -/

def d3 : Fin 3 → ℝ := ![-5, 1, 0]
def F3 : (Fin 3 → ℝ) → Option ℝ := fun v => some (v 0 - v 1)
def d2 : Fin 2 × Fin 3 → ℝ := fun v => v.2.val - 2
def F2 : (Fin 2 × Fin 3 → ℝ) → Option ℝ := fun v => some (v (0, 0) - v (1, 1))
def d4 : Fin 4 × Fin 3 → ℝ := fun v => v.2.val - 2
def F4 : (Fin 4 × Fin 3 → ℝ) → Option ℝ := fun v => some (v (0, 0) - v (1, 1))
def o3 : List (Fin 3) := [2, 0, 1]
theorem o3_all (i : Fin 3) : i ∈ o3 := by fin_cases i <;> decide
def o2 : List (Fin 2 × Fin 3) := [(1, 0), (1, 1), (1, 2), (0, 2), (0, 1), (0, 0)]
theorem o2_all (v : Fin 2 × Fin 3) : v ∈ o2 := by revert v; decide
def o4 : List (Fin 4 × Fin 3) := [(1, 0), (1, 1), (1, 2), (0, 2), (0, 1), (0, 0), (3, 0), (3, 1), (3, 2), (2, 2), (2, 1), (2, 0)]
theorem o4_all (v : Fin 4 × Fin 3) : v ∈ o4 := by revert v; decide
theorem adm2 : AdmECM u2 := ⟨fun i => u2_pos _, fun i => u2_pos _, fun i j _ => mul_lt_one_of_nonneg_of_lt_one_left (u2_pos _).le (u2_lt _) (u2_lt _).le⟩
theorem adm4 (i j : Fin 3) : u4 (2, i) * u4 (3, j) < 1 := mul_lt_one_of_nonneg_of_lt_one_left (u4_pos _).le (u4_lt _) (u4_lt _).le
theorem hh : (0 : ℝ) < 1 / 2 := by norm_num
theorem hh1 : (1 / 2 : ℝ) < 1 := by norm_num

example := C16_linsearch_free v3 d3 v3 F3 (1 / 2) 1 hh hh1 one_pos
example := C16_linsearch_free_fixed d3 v3 1 (1 / 2) 4 hh hh1 one_pos linsearch_fun_CM_exp_fixed (.inl rfl)
example := C16_linsearch_cm_partial o3 o3_all v3 d3 v3 F3 (1 / 2) 1 hh hh1 one_pos v3_pos
example := C16_linsearch_cm_fixed_partial o3 o3_all v3 d3 v3 (1 / 2) 1 4 hh hh1 one_pos v3_pos
example := C16_linsearch_cm_zero_stalls o3 z3 d3 v3 F3 (1 / 2) 1 hh hh1 one_pos 0 (o3_all 0) rfl (by norm_num [d3])
example := C16_linsearch_dcm o3 o3_all v3 d3 v3 F3 (1 / 2) 1 hh hh1 one_pos
example := C16_linsearch_dcm_fixed o3 o3_all v3 d3 v3 (1 / 2) 1 4 hh hh1 one_pos
example := C16_linsearch_ecm (n := 3) (by norm_num) o2 o2_all u2 d2 u2 F2 (1 / 2) 1 hh hh1 one_pos adm2
/-- an objective that refuses points outside the domain, as the log-likelihood of `ecm` does -/
def F2d : (Fin 2 × Fin 3 → ℝ) → Option ℝ := open Classical in fun v => if AdmECM v then some 0 else none
theorem F2d_dom (v : Fin 2 × Fin 3 → ℝ) (_ : ∀ w, 0 < v w) (h : F2d v ≠ none) : AdmECM v := by
  unfold F2d at h; split_ifs at h with h1
  · exact h1
  · exact absurd rfl h
example (r : ℝ) (hr : linsearch_fun_ECM o2 u2 d2 (1 / 2) 1 u2 F2d = some r) :=
  C16_linsearch_ecm_domain (n := 3) (by norm_num) o2 o2_all u2 d2 u2 F2d (1 / 2) 1 hh hh1 one_pos adm2 F2d_dom r hr
example := C16_linsearch_ecm_hangs (n := 3) (by norm_num) o2 x2 (fun _ => 1) x2 F2 (1 / 2) 1 hh one_pos x2_pos 0 1 (by decide) (by norm_num [x2]) fun _ => zero_le_one
example := C16_linsearch_ecm_exp (n := 3) (by norm_num) x2 d2 x2 F2 (1 / 2) 1 hh hh1 one_pos fun i j _ => by
  have h1 : (1 : ℝ) ≤ x2 (1, i) := by unfold x2; have : (0 : ℝ) ≤ i.val := by positivity
                                      norm_num; linarith
  have h2 := x2_pos (1, j)
  linarith
example := C16_linsearch_decm o4 o4_all u4 d4 u4 F4 (1 / 2) 1 hh hh1 one_pos u4_pos adm4
example := C16_linsearch_decm_exp x4 d4 x4 F4 (1 / 2) 1 hh hh1 one_pos fun i j => add_pos (x4_pos _) (x4_pos _)
example := C16_linsearch_decm_exp_fixed x4 d4 x4 1 (1 / 2) 4 hh hh1 one_pos fun i j => add_pos (x4_pos _) (x4_pos _)
example := C16_linsearch_ecm_exp_fixed (n := 3) (by norm_num) x2 d2 x2 1 (1 / 2) 4 hh hh1 one_pos fun i j _ => by
  have h1 : (1 : ℝ) ≤ x2 (1, i) := by unfold x2; have : (0 : ℝ) ≤ i.val := by positivity
                                      norm_num; linarith
  have h2 := x2_pos (1, j)
  linarith
example := C16_linsearch_ecm_fixed (n := 3) (by norm_num) o2 o2_all u2 d2 u2 1 (1 / 2) 4 hh hh1 one_pos adm2
example := C16_linsearch_decm_fixed o4 o4_all u4 d4 u4 1 (1 / 2) 4 hh hh1 one_pos u4_pos adm4

/-! ### C17 -/

theorem one_psd : PosSemi (1 : Matrix (Fin 2) (Fin 2) ℝ) := fun v => by
  simp only [quad, Matrix.one_apply]; exact Finset.sum_nonneg fun i _ => by simp; nlinarith
example := C17_regulariser_identity_posdef_partial (1 : Matrix (Fin 2) (Fin 2) ℝ) 1 one_pos one_psd

example := Psd.C17_cm_exp_hessian_psd v3 v3 c3 c3_one
example := Psd.C17_dcm_exp_hessian_psd x2 v3 v3 [0, 2] [1, 2] c3 (by decide) (by decide) c3_one
example := Psd.C17_dcrema_hessian_psd x2 path3 path3_nonneg
example := Psd.C17_crema_hessian_psd v3 path3 path3_symm path3_diag path3_nonneg
example := Psd.C17_ecm_exp_hessian_psd x2 v3 fun i j _ => add_pos (x2_pos _) (x2_pos _)
example := Psd.C17_decm_exp_hessian_psd x4 v3 v3 v3 v3 fun i j _ => add_pos (x4_pos _) (x4_pos _)

/-! ### the loop of `solver` -/

/-- a linear system `x = 0` with exact derivatives -/
def C0 : Callbacks (Fin 2) where
  fn := fun x => x
  jac := fun _ => 1
  jacDiag := fun _ => 1
  hessian_regulariser := matrix_regulariser_function
  linsearch := fun _ _ _ _ _ => some 1
  linsearchFixed := fun _ _ _ _ _ _ => some 1

/-- a constant map with the fixed point 1 -/
def C1 : Callbacks (Fin 2) := { C0 with fn := fun _ _ => 1 }

def opt (m : String) : Opts := { tol := 0, eps := 9 / 10, max_steps := 10, method := m, regularise := true, regularise_eps := 1 / 100, linsearch := true }

def w2 : Fin 2 → ℝ := fun _ => 1 / 2
theorem w2_ne : w2 ≠ 0 := fun h => by have := congrFun h 0; norm_num [w2] at this
theorem one_pd : PosDef (1 : Matrix (Fin 2) (Fin 2) ℝ) := ⟨fun i j => by simp [Matrix.one_apply, eq_comm], fun v hv => by
  have : v 0 ≠ 0 ∨ v 1 ≠ 0 := by
    by_contra h; push_neg at h; exact hv (funext fun i => by fin_cases i; exacts [h.1, h.2])
  simp only [quad, Matrix.one_apply, Fin.sum_univ_two]
  simp
  rcases this with h | h
  · nlinarith [mul_self_pos.2 h, mul_self_nonneg (v 1)]
  · nlinarith [mul_self_pos.2 h, mul_self_nonneg (v 0)]⟩
theorem one_eigh : IsEigh ((0.5 : ℝ) • ((1 : Matrix (Fin 2) (Fin 2) ℝ) + Matrix.transpose 1)) (fun _ => 1) 1 := ⟨by simp, by ext i j; fin_cases i <;> fin_cases j <;> simp [Matrix.one_apply] <;> norm_num⟩
def eig : Matrix (Fin 2) (Fin 2) ℝ → (Fin 2 → ℝ) × Matrix (Fin 2) (Fin 2) ℝ := e0.eigh (Fin 2)
theorem eig_ok (b : Matrix (Fin 2) (Fin 2) ℝ) (h : Symm b) : IsEigh b (eig b).1 (eig b).2 := e0_valid.eigh (Fin 2) b (Matrix.ext fun i j => h j i)
def C2 : Callbacks (Fin 2) := { C0 with hessian_regulariser := fun b eps =>
  matrix_regulariser_function_eigen_based (eig ((0.5 : ℝ) • (b + b.transpose))).1 (eig ((0.5 : ℝ) • (b + b.transpose))).2 eps }

example := C17_regulariser_eigen_posdef 1 1 one_pos _ _ one_eigh
example := C17_regulariser_eigen_fixed 1 (1 / 2) _ _ one_eigh (fun _ => by norm_num) fun i j => by simp [Matrix.one_apply, eq_comm]
example := C17_newton_descent 1 one_pd w2 w2_ne
example := C17_quasinewton_descent C0 (opt "quasinewton") w2 rfl rfl (by norm_num [opt]) w2_ne
example := C17_newton_identity_descent C0 (opt "newton") w2 rfl rfl rfl (by norm_num [opt]) w2_ne one_psd
example := C17_newton_eigen_descent C2 (opt "newton") w2 rfl rfl eig eig_ok (fun _ _ => rfl) (by norm_num [opt]) w2_ne

theorem fixed_ok : ∃ r, solver C1 (opt "fixed-point") w2 = .ok r := Solve.C15_fixed_point_total C1 (opt "fixed-point") rfl (fun _ _ _ _ _ _ => by simp [C1, C0]) w2
example := C15_solver_history C1 (opt "fixed-point") w2 _ fixed_ok.choose_spec
example := C15_solver_trace C1 (opt "fixed-point") w2 _ fixed_ok.choose_spec
/-- started at the root, the loop stops at once -/
theorem root_ok : solver C0 (opt "newton") 0 = .ok (initState C0 0) := by
  have : ¬ (norm2 (0 : Fin 2 → ℝ) > 0) := by simp [norm2]
  unfold solver; simp only [opt, loop, initState, C0]
  rw [if_neg fun h => this h.1]
example := C13_solver_residual C0 (opt "newton") 0 _ root_ok (by simp [opt, initState])
example := C13_solver_component C0 (opt "newton") 0 _ root_ok (by simp [opt, initState]) (by simp [initState, opt]; norm_num) 0

/-- a run of the fixed-point method that ends because its step is short -/
theorem short_ok : ∃ r, solver C1 (opt "fixed-point") w2 = .ok r ∧ r.n_steps = 0 + 1 ∧ r.diff_seq.getLast? = some (norm2 (w2 + (1 : ℝ) • ((fun _ => 1) - w2) - w2)) := by
  have h1 : norm2 (fun _ : Fin 2 => (1 : ℝ)) > 0 := by unfold norm2; simp
  have h2 : ¬ norm2 (w2 + (1 : ℝ) • ((fun _ => 1) - w2) - w2) > 9 / 10 := by
    unfold norm2
    rw [not_lt, Real.sqrt_le_left (by norm_num)]
    simp [Fin.sum_univ_two, w2]; norm_num
  unfold solver
  simp only [opt, loop, initState, C1, C0, step, direction, stepLength]
  rw [if_pos ⟨h1, by norm_num⟩]
  simp
  rw [if_neg (fun h => h2 (by simpa using h.2))]
  exact ⟨_, rfl, rfl, rfl⟩
example := let h := short_ok.choose_spec; C14_solver_displacement_partial C1 (opt "fixed-point") rfl w2 _ h.1 0 h.2.1 _ h.2.2 (by
    unfold norm2
    rw [Real.sqrt_le_left (by norm_num [opt])]
    simp [Fin.sum_univ_two, w2, opt]; norm_num)
example := Solve.C15_fixed_point_total C1 (opt "fixed-point") rfl (fun _ _ _ _ _ _ => by simp [C1, C0]) w2

/-! ### motif counters -/

def cyc (i j : Fin 3) : Prop := j = i + 1
theorem cyc_noloop (i : Fin 3) : ¬ cyc i i := by unfold cyc; fin_cases i <;> decide
theorem cyc_conn : Connected3 fun u v => cyc (id u) (id v) := fun u => ⟨u + 1, by fin_cases u <;> decide, .inl rfl⟩

example := Motif.C28_mutual cyc cyc_noloop
example := Motif.C28_null cyc cyc_noloop
example := Motif.C28_census cyc cyc_noloop
example := Motif.C29_exactly_one cyc id Function.injective_id cyc_conn
example := Motif.C29_only_connected cyc _ _ (Motif.C29_exactly_one cyc id Function.injective_id cyc_conn).choose_spec.1.choose_spec
example := Motif.C29_sparse_agrees_small (n := 3) (by norm_num) (fun i j => if j = i + 1 then 1 else 0) 4
example := Motif.C29_sparse_agrees_most cyc cyc_noloop 4 (by decide)
example := Motif.C29_sparse_differs (n := 258) (by norm_num)

/-! ### parallel loops: some interleaving completes -/

open Parallel

theorem sch {k : ℕ} {κ V : Type} [DecidableEq κ] [Inhabited V] (m0 : κ → V) (prog : Fin k → List (Op κ V)) : ∃ l, ((Machine.start m0 prog).run l).Done :=
  exists_schedule m0 prog (List.finRange k) List.mem_finRange

/-- two tasks, each incrementing its own cell twice -/
def prog2 : Fin 2 → List (Op (Fin 2) ℝ) := fun i => [.load i, .store i (· + 1), .load i, .store i (· + 1)]
example := C44_parallel_deterministic (fun _ => 0) prog2 (fun i j h c hc => by simp [prog2, cells, Op.cell] at hc ⊢; rw [hc]; exact h) _ (sch _ prog2).choose_spec [1, 0] (by decide) (by decide)
example := C44_crema_sparse_fixed_point v3 v3 v3 _ (sch _ _).choose_spec
example := C44_crema_sparse_gradient v3 v3 v3 _ (sch _ _).choose_spec
example := C44_crema_sparse_hessian_diag v3 v3 _ (sch _ _).choose_spec
example := C44_dcrema_sparse_hessian_diag x2 v3 v3 _ (sch _ _).choose_spec
example := C44_dcrema_sparse_gradient x2 v3 z3 v3 z3 _ (sch _ _).choose_spec _ (sch _ _).choose_spec
example := C44_dcrema_sparse_fixed_point_out x2 v3 z3 v3 z3 _ (sch _ _).choose_spec [0, 1] 2
example := C44_dcrema_sparse_fixed_point_in_partial x2 v3 z3 v3 v3 v3_ne _ (sch _ _).choose_spec [0, 1] 2
example := C44_directed_fixed_point_race x2 x2_pos v3 v3 v3_nonneg v3_pos

end

end Verif.Wit
