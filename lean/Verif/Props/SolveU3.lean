import Verif.Props.SolveU2

/-! C13 and C14 at the level of `UndirectedGraph.solve_tool`; the witness against C37. -/

namespace Verif.Solver

open Finset Spec

variable {ι : Type*} [Fintype ι] [DecidableEq ι] [Nonempty ι]

/-- C14 (what does hold): if a fixed-point run stops after at least one step because the step fell below `eps`, the last iterate but one was moved by the
map `G` by at most `eps` divided by the step length. -/
theorem C14_solver_displacement_partial (C : Callbacks ι) (o : Opts) (hm : o.method = "fixed-point") (x0 : ι → ℝ) (r : State ι) (h : solver C o x0 = .ok r)
    (k : ℕ) (hk : r.n_steps = k + 1) (δ : ℝ) (hδ : r.diff_seq.getLast? = some δ) (hle : δ ≤ o.eps) :
    ∃ x a, r.x = x + a • (C.fn x - x) ∧ |a| * norm2 (C.fn x - x) ≤ o.eps := by
  obtain ⟨xs, hx⟩ := C15_solver_history C o x0 r h
  obtain ⟨dx, a, h1, h2, -⟩ := hx.moves k (by omega)
  have hdx : dx = C.fn (xs k) - xs k := by
    unfold direction at h1
    rw [hm] at h1
    simpa using h1.symm
  refine ⟨xs k, a, ?_, ?_⟩
  · rw [← hdx, ← h2, ← hk, hx.stop]
  · have hlast : δ = norm2 (xs (k + 1) - xs k) := by
      rw [hx.diffs, hk, List.range_succ, List.map_append, ← List.cons_append, List.map_singleton, List.getLast?_concat, Option.some.injEq] at hδ
      exact hδ.symm
    have : norm2 (xs (k + 1) - xs k) = |a| * norm2 (C.fn (xs k) - xs k) := by
      rw [h2, hdx, add_sub_cancel_left]
      unfold norm2
      rw [← Real.sqrt_sq_eq_abs, ← Real.sqrt_mul (sq_nonneg a), mul_sum]
      congr 1
      exact sum_congr rfl fun i _ => by simp [mul_pow]
    rw [← this, ← hlast]; exact hle

end Verif.Solver

namespace Verif.Solve

open Verif Finset Reduction Solver Spec

open Classical in
attribute [local instance 0] propDecidable

/-! ### regular graphs -/

/-- the graph with `n` nodes of degree `k` and strengths `s` -/
def regular (n k : ℕ) (s : Fin n → ℝ) : UData n := ⟨fun _ => k, s⟩

section
variable {n k : ℕ} [NeZero n] {s : Fin n → ℝ}

theorem regular_k (q : Fin (regular n k s).r) : (regular n k s).k q = k := by
  obtain ⟨i, hi⟩ := (regular n k s).exists_class q
  simp only [UData.k, ← hi]
  rfl

theorem regular_c (q : Fin (regular n k s).r) : (regular n k s).c q = n := by
  have h1 : ∀ i, (regular n k s).dseq i = r_dseq (regular n k s).dseq q := fun i => by
    obtain ⟨j, hj⟩ := (regular n k s).exists_class q
    rw [← hj]; rfl
  have : r_multiplicity (regular n k s).dseq q = n := by
    unfold r_multiplicity
    rw [filter_true_of_mem (fun i _ => h1 i)]; simp
  simp only [UData.c, this]

theorem regular_r : (regular n k s).r = 1 := by
  unfold UData.r rnz_n values
  rw [show (regular n k s).dseq = fun _ => k from rfl, image_const univ_nonempty]
  simp

instance : Subsingleton (Fin (regular n k s).r) := by rw [regular_r]; infer_instance

end

/-! ### C14: the tolerance test of the fixed-point method -/

/-- C14 is false: on the hexagon (six nodes of degree 2), `solve_tool("cm_exp", method="fixed-point")` with default tolerances, started from θ = log 2, returns
at once without an exception: the map sends the guess to 0, the solver takes the norm of the image for the residual and stops.  The reported norm is 0,
the fitnesses are 1/2, every expected degree is 1 instead of 2. -/
theorem C14_fixed_point_false (e : Env) (s : Fin 6 → ℝ) (adj : AdjSpec 6) (ma : String) (ga : Guess 6) :
    let d := regular 6 2 s
    let g : UAttr d := {}
    let R := solve_tool e g "cm_exp" "fixed-point" (.nodes fun _ => Real.log 2) adj ma ga { full_return := true }
    R.exc = none ∧ R.g.x = some (fun _ => 1 / 2) ∧ (∃ t, R.g.trace = some t ∧ t.n_steps = 0 ∧ t.norm_seq = [0]) ∧
      (∀ i, degUBCM (fun _ : Fin 6 => (1 : ℝ) / 2) i = 1) ∧ R.g.error = some 1 := by
  intro d g R
  have h0 : guessCM e d true (.nodes fun _ => Real.log 2) = .ok fun _ => Real.log 2 := by
    simp only [guessCM]
    congr 1
    funext q
    have : d.k q ≠ 0 := by rw [regular_k]; norm_num
    simp [maskSet, this]
  have hexp : Real.exp (-Real.log 2) = 1 / 2 := by rw [Real.exp_neg, Real.exp_log (by norm_num)]; norm_num
  have hG : (cbCMexp e d .fixed_point).fn (fun _ => Real.log 2) = 0 := by
    funext q
    simp only [cbCMexp]
    rw [CM.iterative_exp_eq, Fintype.sum_subsingleton _ q]
    simp only [if_true, hexp]
    rw [regular_c, regular_k]
    norm_num
  have hno : norm2 (0 : Fin d.r → ℝ) = 0 := by simp [norm2]
  have hsol : solver (cbCMexp e d .fixed_point) (({ full_return := true } : Params).opts "fixed-point") (fun _ => Real.log 2) =
      .ok (initState (cbCMexp e d .fixed_point) fun _ => Real.log 2) := by
    unfold solver
    rw [show (({ full_return := true } : Params).opts "fixed-point").max_steps = 99 + 1 from rfl, loop, if_neg]
    simp only [initState, hG, hno, Params.opts]
    norm_num
  have hR : R = _ := solve_tool_cm_exp e g .fixed_point _ adj ma ga { full_return := true } h0
  rw [show Method.name .fixed_point = "fixed-point" from rfl, hsol] at hR
  have hdeg : ∀ i, degUBCM (fun _ : Fin 6 => (1 : ℝ) / 2) i = 1 := by
    intro i
    unfold degUBCM linkUBCM
    rw [sum_const, filter_ne', card_erase_of_mem (mem_univ _)]
    simp; norm_num
  have hmax : maxAbs (fun i => CM.expected_degree_cm (fun _ : Fin 6 => (1 : ℝ) / 2) i - d.deg i) = 1 := by
    have : (fun i => CM.expected_degree_cm (fun _ : Fin 6 => (1 : ℝ) / 2) i - d.deg i) = fun _ => -1 := by
      funext i
      rw [deg_spec, hdeg]
      simp only [UData.deg, d, regular]; norm_num
    rw [this]
    simp [maxAbs]
  rw [hR]
  simp only [solutionError, setSolvedCM, true_or, or_true, if_true, strengthError, degreeError, initState, hexp, g, hG, hno, hmax]
  exact ⟨trivial, trivial, ⟨_, rfl, rfl, rfl⟩, hdeg, trivial⟩

/-! ### C37: stale rates -/

/-- C37 is false after CReMa: on the single link (two nodes of degree and strength 1), solve CReMa on the observed matrix and then the UBCM (both calls return
their starting point, `max_steps=0`).  The second call reports error 0, the largest violation of the strengths by the stale rates, although every expected
degree is off by 1/2. -/
theorem C37_stale_rates (e : Env) (ma : String) (ga : Guess 2) :
    let d := regular 2 1 fun _ => 1
    let a : Fin 2 → Fin 2 → ℝ := fun i j => if i = j then 0 else 1
    let R₁ := solve_tool e ({} : UAttr d) "crema" "newton" (.nodes fun _ => 1 / 2) (.matrix a) ma ga { max_steps := 0 }
    let R₂ := solve_tool e R₁.g "cm" "newton" (.nodes fun _ => 1) (.matrix a) ma ga { max_steps := 0 }
    R₁.exc = none ∧ R₂.exc = none ∧ R₂.g.x = some (fun _ => 1) ∧ R₂.g.error = some 0 ∧
      ∀ i, |degUBCM (fun _ : Fin 2 => (1 : ℝ)) i - d.dseq i| = 1 / 2 := by
  intro d a R₁ R₂
  have hsy : ∀ i j, a i j = a j i := fun i j => by simp only [a, eq_comm]
  have hdi : ∀ i, a i i = 0 := fun i => by simp [a]
  have g1 : guessCrema e d (.nodes fun _ => 1 / 2) = (.ok fun _ => 1 / 2, .nodes fun _ => 1 / 2) := by
    simp only [guessCrema]
    have : maskSet (fun _ : Fin 2 => (1 : ℝ) / 2) (fun i => d.strength_sequence i = 0) 0 = fun _ => 1 / 2 := by
      funext i; simp [maskSet, d, regular]
    rw [this]
  have g2 : guessCM e d false (.nodes fun _ => 1) = .ok fun _ => 1 := by
    simp only [guessCM]
    congr 1
    funext q
    have : d.k q ≠ 0 := by rw [regular_k]; norm_num
    simp [maskSet, this]
  have hst : maxAbs (fun i => CReMa.expected_strength_crema_undirected (fun _ => 1 / 2) (triuEdges a) i - d.strength_sequence i) = 0 := by
    have : (fun i => CReMa.expected_strength_crema_undirected (fun _ => 1 / 2) (triuEdges a) i - d.strength_sequence i) = fun _ => 0 := by
      funext i
      rw [str_crema_spec a hsy hdi, strCReMa, sum_ne]
      fin_cases i <;> simp [a, d, regular, Fin.sum_univ_two] <;> norm_num
    rw [this]; simp [maxAbs]
  have hR₁ : R₁ = _ := solve_tool_crema_matrix e ({} : UAttr d) .newton (.nodes fun _ => 1 / 2) a ma ga { max_steps := 0 } g1
  rw [C15_solver_no_step _ _ _ (.inl rfl)] at hR₁
  simp only [solutionError, setSolvedCrema, true_or, or_true, if_true, strengthError, degreeError, initState, Bool.false_eq_true, if_false, hst] at hR₁
  have hR₂ : R₂ = _ := solve_tool_cm e R₁.g .newton (.nodes fun _ => 1) (.matrix a) ma ga { max_steps := 0 } g2
  rw [C15_solver_no_step _ _ _ (.inl rfl)] at hR₂
  rw [hR₁] at hR₂
  simp only [solutionError, setSolvedCM, true_or, or_true, if_true, strengthError, degreeError, initState, Bool.false_eq_true, if_false, hst] at hR₂
  rw [hR₁, hR₂]
  refine ⟨rfl, rfl, rfl, rfl, fun i => ?_⟩
  unfold degUBCM linkUBCM
  rw [sum_const, filter_ne', card_erase_of_mem (mem_univ _)]
  simp [d, regular]; norm_num [abs_of_neg]

end Verif.Solve
