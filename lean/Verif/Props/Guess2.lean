import Verif.Props.Guess
import Verif.Props.Runs2

/-!
Property C53: an array given as initial guess.  A run that makes no step (`max_steps=0`) reports the starting point, which shows how the array is read: as
fitnesses in cm, ecm, dcm, decm, dcm_exp and decm_exp, but as the parameters θ = −log x in cm_exp and ecm_exp.  A given array that already solves the equations
of the model is returned unchanged by every method.
-/

namespace Verif.Solve

open Verif Finset Reduction Solver Spec

open Classical in
attribute [local instance 0] propDecidable

variable {n : ℕ}

/-! ### runs that make no step -/

theorem solver_restart {ι : Type} [Fintype ι] [DecidableEq ι] [Nonempty ι] {C C' : Callbacks ι} (hfn : C'.fn = C.fn) {o o' : Opts} {x0 : ι → ℝ} {s : State ι}
    (hs : solver C o x0 = .ok s) (h1 : s.n_steps < o.max_steps) (h2 : ∀ δ, s.diff_seq.getLast? = some δ → o.eps < δ) (ht : o.tol ≤ o'.tol) :
    solver C' o' s.x = .ok (initState C' s.x) := by
  have hn : norm2 (C'.fn s.x) ≤ o'.tol := by
    rw [hfn]
    rcases C13_solver_residual C o x0 s hs h1 with h | ⟨δ, hd, hle⟩
    · exact h.trans ht
    · exact absurd (h2 δ hd) (not_lt.2 hle)
  unfold solver
  cases o'.max_steps with
  | zero => rfl
  | succ k =>
    rw [loop, if_neg]
    rintro ⟨h, -⟩
    exact absurd h (not_lt.2 hn)

theorem solver_fixed {ι : Type} [Fintype ι] [DecidableEq ι] [Nonempty ι] (C : Callbacks ι) (o : Opts) (x0 : ι → ℝ) (hm : o.method = "fixed-point")
    (hC : C.linsearchFixed x0 0 0 1 0.5 0 ≠ none) (h : C.fn x0 = x0) (he : 0 ≤ o.eps) :
    ∃ s, solver C o x0 = .ok s ∧ s.x = x0 := by
  unfold solver
  cases o.max_steps with
  | zero => exact ⟨_, rfl, rfl⟩
  | succ k =>
    rw [loop]
    split_ifs with hc
    · have hd : direction C o (initState C x0).x (initState C x0).f = .ok 0 := by
        unfold direction
        simp [hm, initState, h]
      have hst : ∃ α, stepLength C o (initState C x0) 0 = .ok α := by
        unfold stepLength
        by_cases hl : o.linsearch = true
        · rw [if_neg (by simp [hm]), if_pos ⟨hl, hm⟩]
          rcases hv : C.linsearchFixed (initState C x0).x 0 (initState C x0).dx_old 1 0.5 (initState C x0).n_steps with _ | a
          · exact absurd hv hC
          · exact ⟨a, rfl⟩
        · rw [if_neg (by simp [hl]), if_neg (by simp [hl])]; exact ⟨1, rfl⟩
      obtain ⟨α, hα⟩ := hst
      have hs : ∃ s', step C o (initState C x0) = .ok s' ∧ s'.x = x0 ∧ s'.diff = 0 := by
        unfold step
        rw [hd]
        simp only [hα]
        refine ⟨_, rfl, ?_, ?_⟩
        · simp [initState]
        · simp [norm2]
      obtain ⟨s', h1, h2, h3⟩ := hs
      rw [h1]
      refine ⟨s', ?_, h2⟩
      cases k with
      | zero => rfl
      | succ k =>
        show loop C o (k + 1) s' = _
        rw [loop, if_neg]
        rintro ⟨-, h'⟩
        rw [h3] at h'
        exact absurd h' (not_lt.2 he)
    · exact ⟨_, rfl, rfl⟩

theorem solver_no_step {ι : Type} [Fintype ι] [DecidableEq ι] [Nonempty ι] (C : Callbacks ι) (o : Opts) (x0 : ι → ℝ) (h : o.max_steps = 0) :
    solver C o x0 = .ok (initState C x0) := by
  unfold solver
  rw [h]; rfl

theorem initState_x {ι : Type} [Fintype ι] [DecidableEq ι] [Nonempty ι] (C : Callbacks ι) (x0 : ι → ℝ) : (initState C x0).x = x0 := rfl

theorem UData.index_first (d : UData n) (i : Fin n) : FirstLike d.dseq i (d.index (d.inv i)) := by
  have hk : r_dseq d.dseq (d.inv i) = d.dseq i := r_dseq_invert d.dseq i
  unfold UData.index
  constructor
  · have := min'_mem (univ.filter fun j => d.dseq j = r_dseq d.dseq (d.inv i)) ⟨i, by simp [hk]⟩
    exact (mem_filter.1 this).2.trans hk
  · intro l hl
    exact min'_le _ l (by rw [mem_filter]; exact ⟨mem_univ _, hl.trans hk.symm⟩)

theorem DData.index_first (d : DData n) (i : Fin n) : FirstLike (fun i => (d.dseq_out i, d.dseq_in i)) i (d.index (d.inv i)) := by
  have hk : r_dseq d.seq (d.inv i) = d.seq i := r_dseq_invert d.seq i
  have hs : ∀ a b, d.seq a = d.seq b ↔ (d.dseq_out a, d.dseq_in a) = (d.dseq_out b, d.dseq_in b) := fun a b => by
    unfold DData.seq
    exact toLex.injective.eq_iff
  unfold DData.index
  constructor
  · have := min'_mem (univ.filter fun j => d.seq j = r_dseq d.seq (d.inv i)) ⟨i, by simp [hk]⟩
    exact (hs _ _).1 ((mem_filter.1 this).2.trans hk)
  · intro l hl
    exact min'_le _ l (by rw [mem_filter]; exact ⟨mem_univ _, ((hs _ _).2 hl).trans hk.symm⟩)

theorem firstLike_unique {β : Type} {k : Fin n → β} {i j l : Fin n} (h : FirstLike k i j) (h' : FirstLike k i l) : j = l :=
  le_antisymm (h.2 _ h'.1) (h'.2 _ h.1)

section undirected

variable [NeZero n] {d : UData n} (e : Env) (g : UAttr d) (me : Method) (adj : AdjSpec n) (ma : String) (ga : Guess n) (p : Params) (h0 : p.max_steps = 0)

include h0

/-- C53 (cm): the starting fitness of a node is the entry of the first node with the same degree, zero for isolated nodes. -/
theorem C53_cm_start (v : Fin n → ℝ) :
    ∃ x, (solve_tool e g "cm" me.name (.nodes v) adj ma ga p).g.x = some x ∧ ∀ i j, FirstLike d.dseq i j → x i = if d.dseq i = 0 then 0 else v j := by
  have hR := solve_tool_cm e g me (.nodes v) adj ma ga p (x0 := _) rfl
  simp only [solver_no_step _ (p.opts me.name) _ h0] at hR
  refine ⟨_, (congrArg (fun r => r.g.x) hR).trans (solutionError_keeps e _).1, fun i j hj => ?_⟩
  obtain rfl := firstLike_unique hj (d.index_first i)
  simp [initState, maskSet, UData.k_inv, UData.deg]

/-- C53 (cm_exp): here the array is read as θ. -/
theorem C53_cm_exp_start (v : Fin n → ℝ) :
    ∃ x, (solve_tool e g "cm_exp" me.name (.nodes v) adj ma ga p).g.x = some x ∧
      ∀ i j, FirstLike d.dseq i j → x i = if d.dseq i = 0 then 1 else Real.exp (-v j) := by
  have hR := solve_tool_cm_exp e g me (.nodes v) adj ma ga p (x0 := _) rfl
  simp only [solver_no_step _ (p.opts me.name) _ h0] at hR
  refine ⟨_, (congrArg (fun r => r.g.x) hR).trans (solutionError_keeps e _).1, fun i j hj => ?_⟩
  obtain rfl := firstLike_unique hj (d.index_first i)
  by_cases hk : d.dseq i = 0 <;> simp [initState, maskSet, UData.k_inv, UData.deg, hk]

/-- C53 (ecm) -/
theorem C53_ecm_start (v : Fin 2 × Fin n → ℝ) :
    ∃ x y, (solve_tool e g "ecm" me.name (.pairs v) adj ma ga p).g.x = some x ∧ (solve_tool e g "ecm" me.name (.pairs v) adj ma ga p).g.y = some y ∧
      ∀ i, (x i = if d.dseq i = 0 then 0 else v (0, i)) ∧ (y i = if d.strength_sequence i = 0 then 0 else v (1, i)) := by
  have hR := solve_tool_ecm e g me (.pairs v) adj ma ga p (x := _) (y := _) (guess' := _) rfl
  simp only [solver_no_step _ (p.opts me.name) _ h0] at hR
  refine ⟨_, _, (congrArg (fun r => r.g.x) hR).trans (solutionError_keeps e _).1, (congrArg (fun r => r.g.y) hR).trans (solutionError_keeps e _).2.1, fun i => ?_⟩
  simp [initState, maskSet, UData.deg, cat2]

/-- C53 (ecm_exp): here the array is read as θ. -/
theorem C53_ecm_exp_start (v : Fin 2 × Fin n → ℝ) :
    ∃ x y, (solve_tool e g "ecm_exp" me.name (.pairs v) adj ma ga p).g.x = some x ∧ (solve_tool e g "ecm_exp" me.name (.pairs v) adj ma ga p).g.y = some y ∧
      ∀ i, (x i = if d.dseq i = 0 then 1 else Real.exp (-v (0, i))) ∧ (y i = if d.strength_sequence i = 0 then 1 else Real.exp (-v (1, i))) := by
  have hR := solve_tool_ecm_exp e g me (.pairs v) adj ma ga p (x := _) (y := _) (guess' := _) rfl
  simp only [solver_no_step _ (p.opts me.name) _ h0] at hR
  refine ⟨_, _, (congrArg (fun r => r.g.x) hR).trans (solutionError_keeps e _).1, (congrArg (fun r => r.g.y) hR).trans (solutionError_keeps e _).2.1, fun i => ?_⟩
  by_cases hk : d.dseq i = 0 <;> by_cases hs : d.strength_sequence i = 0 <;> simp [initState, maskSet, UData.deg, cat2, hk, hs]

/-- C53 (crema on a given matrix) -/
theorem C53_crema_start (a : Fin n → Fin n → ℝ) (v : Fin n → ℝ) :
    ∃ b, (solve_tool e g "crema" me.name (.nodes v) (.matrix a) ma ga p).g.beta = some b ∧ ∀ i, b i = if d.strength_sequence i = 0 then 0 else v i := by
  have hR := solve_tool_crema_matrix e g me (.nodes v) a ma ga p (b := _) (guess' := _) rfl
  simp only [solver_no_step _ (p.opts me.name) _ h0] at hR
  refine ⟨_, (congrArg (fun r => r.g.beta) hR).trans (solutionError_keeps e _).2.2.1, fun i => ?_⟩
  simp [initState, maskSet]

end undirected

section directed

variable [NeZero n] {d : DData n} (e : Env) (g : DAttr d) (me : Method) (adj : AdjSpec n) (ma : String) (ga : DGuess n) (p : Params) (h0 : p.max_steps = 0)

include h0

/-- C53 (dcm): the first block belongs to the out-degrees, the second to the in-degrees. -/
theorem C53_dcm_start (v : Fin 2 × Fin n → ℝ) :
    let S := solve_tool_directed e g "dcm" me.name (.pairs v) adj ma ga p
    ∃ x y, S.g.x = some x ∧ S.g.y = some y ∧ ∀ i j, FirstLike (fun i => (d.dseq_out i, d.dseq_in i)) i j →
      (x i = if d.dseq_out i = 0 then 0 else v (0, j)) ∧ (y i = if d.dseq_in i = 0 then 0 else v (1, j)) := by
  intro S
  have hR := solve_tool_dcm e g me (.pairs v) adj ma ga p (x0 := _) rfl
  simp only [solver_no_step _ (p.opts me.name) _ h0] at hR
  refine ⟨_, _, (congrArg (fun r => r.g.x) hR).trans (keepsD DAttr.x (fun _ => rfl) _), (congrArg (fun r => r.g.y) hR).trans (keepsD DAttr.y (fun _ => rfl) _),
    fun i j hj => ?_⟩
  obtain rfl := firstLike_unique hj (d.index_first i)
  simp [initState, finishDCM, maskSet, cat2, (d.class_of i).1, (d.class_of i).2, DData.degOut, DData.degIn]

/-- C53 (dcm_exp): here positive entries of the array are read as fitnesses, unlike in cm_exp. -/
theorem C53_dcm_exp_start (v : Fin 2 × Fin n → ℝ) (hv : ∀ w, 0 < v w) :
    let S := solve_tool_directed e g "dcm_exp" me.name (.pairs v) adj ma ga p
    ∃ x y, S.g.x = some x ∧ S.g.y = some y ∧ ∀ i j, FirstLike (fun i => (d.dseq_out i, d.dseq_in i)) i j →
      (x i = if d.dseq_out i = 0 then Real.exp (-1000) else v (0, j)) ∧ (y i = if d.dseq_in i = 0 then Real.exp (-1000) else v (1, j)) := by
  intro S
  have hR := solve_tool_dcm_exp e g me (.pairs v) adj ma ga p (x0 := _) rfl
  simp only [solver_no_step _ (p.opts me.name) _ h0] at hR
  refine ⟨_, _, (congrArg (fun r => r.g.x) hR).trans (keepsD DAttr.x (fun _ => rfl) _), (congrArg (fun r => r.g.y) hR).trans (keepsD DAttr.y (fun _ => rfl) _),
    fun i j hj => ?_⟩
  obtain rfl := firstLike_unique hj (d.index_first i)
  have c : (1e3 : ℝ) = 1000 := by norm_num
  have hv' := fun w => (hv w).ne'
  constructor
  · by_cases hk : d.dseq_out i = 0 <;>
      simp [initState, finishDCM, maskSet, cat2, (d.class_of i).1, DData.degOut, hk, negLogNonzero, hv', Real.exp_log (hv _), c]
  · by_cases hk : d.dseq_in i = 0 <;>
      simp [initState, finishDCM, maskSet, cat2, (d.class_of i).2, DData.degIn, hk, negLogNonzero, hv', Real.exp_log (hv _), c]

/-- C53 (decm): four blocks, for the out-degrees, the in-degrees, the out-strengths and the in-strengths. -/
theorem C53_decm_start (v : Fin 4 × Fin n → ℝ) :
    let S := solve_tool_directed e g "decm" me.name (.quads v) adj ma ga p
    ∃ x y bo bi, S.g.x = some x ∧ S.g.y = some y ∧ S.g.b_out = some bo ∧ S.g.b_in = some bi ∧ ∀ i,
      (x i = if d.dseq_out i = 0 then 0 else v (0, i)) ∧ (y i = if d.dseq_in i = 0 then 0 else v (1, i)) ∧
      (bo i = if d.out_strength i = 0 then 0 else v (2, i)) ∧ (bi i = if d.in_strength i = 0 then 0 else v (3, i)) := by
  intro S
  have hR := solve_tool_decm e g me (.quads v) adj ma ga p (v := _) (guess' := _) rfl
  simp only [solver_no_step _ (p.opts me.name) _ h0] at hR
  refine ⟨_, _, _, _, (congrArg (fun r => r.g.x) hR).trans (keepsD DAttr.x (fun _ => rfl) _), (congrArg (fun r => r.g.y) hR).trans (keepsD DAttr.y (fun _ => rfl) _),
    (congrArg (fun r => r.g.b_out) hR).trans (keepsD DAttr.b_out (fun _ => rfl) _), (congrArg (fun r => r.g.b_in) hR).trans (keepsD DAttr.b_in (fun _ => rfl) _),
    fun i => ?_⟩
  simp [initState, finishDECM, maskSet, DData.obs, DData.degOut, DData.degIn]

/-- C53 (decm_exp): positive entries of the array are read as fitnesses. -/
theorem C53_decm_exp_start (v : Fin 4 × Fin n → ℝ) (hv : ∀ w, 0 < v w) :
    let S := solve_tool_directed e g "decm_exp" me.name (.quads v) adj ma ga p
    ∃ x y bo bi, S.g.x = some x ∧ S.g.y = some y ∧ S.g.b_out = some bo ∧ S.g.b_in = some bi ∧ ∀ i,
      (x i = if d.dseq_out i = 0 then Real.exp (-1000) else v (0, i)) ∧ (y i = if d.dseq_in i = 0 then Real.exp (-1000) else v (1, i)) ∧
      (bo i = if d.out_strength i = 0 then Real.exp (-1000) else v (2, i)) ∧ (bi i = if d.in_strength i = 0 then Real.exp (-1000) else v (3, i)) := by
  intro S
  have hR := solve_tool_decm_exp e g me (.quads v) adj ma ga p (v := _) (guess' := _) rfl
  simp only [solver_no_step _ (p.opts me.name) _ h0] at hR
  refine ⟨_, _, _, _, (congrArg (fun r => r.g.x) hR).trans (keepsD DAttr.x (fun _ => rfl) _), (congrArg (fun r => r.g.y) hR).trans (keepsD DAttr.y (fun _ => rfl) _),
    (congrArg (fun r => r.g.b_out) hR).trans (keepsD DAttr.b_out (fun _ => rfl) _), (congrArg (fun r => r.g.b_in) hR).trans (keepsD DAttr.b_in (fun _ => rfl) _),
    fun i => ?_⟩
  have c : (1e3 : ℝ) = 1000 := by norm_num
  have hv' := fun w => (hv w).ne'
  refine ⟨?_, ?_, ?_, ?_⟩
  · by_cases hk : d.dseq_out i = 0 <;> simp [initState, finishDECM, maskSet, DData.obs, DData.degOut, hk, negLogNonzero, hv', Real.exp_log (hv _), c]
  · by_cases hk : d.dseq_in i = 0 <;> simp [initState, finishDECM, maskSet, DData.obs, DData.degIn, hk, negLogNonzero, hv', Real.exp_log (hv _), c]
  · by_cases hk : d.out_strength i = 0 <;> simp [initState, finishDECM, maskSet, DData.obs, hk, negLogNonzero, hv', Real.exp_log (hv _), c]
  · by_cases hk : d.in_strength i = 0 <;> simp [initState, finishDECM, maskSet, DData.obs, hk, negLogNonzero, hv', Real.exp_log (hv _), c]

/-- C53 (directed crema on a given matrix) -/
theorem C53_dcrema_start (hz : d.nz_known = true) (a : Fin n → Fin n → ℝ) (v : Fin 2 × Fin n → ℝ) :
    let S := solve_tool_directed e g "crema" me.name (.pairs v) (.matrix a) ma ga p
    ∃ bo bi, S.g.b_out = some bo ∧ S.g.b_in = some bi ∧ ∀ i,
      (bo i = if d.out_strength i = 0 then 0 else v (0, i)) ∧ (bi i = if d.in_strength i = 0 then 0 else v (1, i)) := by
  intro S
  have hR := solve_tool_dcrema_matrix e g hz me (.pairs v) a ma ga p (bo := _) (bi := _) (guess' := _) rfl
  simp only [solver_no_step _ (p.opts me.name) _ h0] at hR
  refine ⟨_, _, (congrArg (fun r => r.g.b_out) hR).trans (keepsD DAttr.b_out (fun _ => rfl) _), (congrArg (fun r => r.g.b_in) hR).trans (keepsD DAttr.b_in (fun _ => rfl) _),
    fun i => ?_⟩
  simp [initState, maskSet, cat2]

end directed

/-! ### restarting from a converged solution -/

section restartU

variable [NeZero n] {d : UData n}

theorem method_name_inj {a b : Method} (h : a.name = b.name) : a = b := by
  revert h; cases a <;> cases b <;> simp [Method.name]

theorem UData.inv_index (d : UData n) (q : Fin d.r) : d.inv (d.index q) = q := by
  obtain ⟨i, hi⟩ := d.exists_class q
  have hq : d.inv i = q := by
    apply (r_dseq_strictMono d.dseq).injective
    rw [← hi]; exact r_dseq_invert d.dseq i
  apply (r_dseq_strictMono d.dseq).injective
  have := (d.index_first i).1
  rw [hq] at this
  rw [show r_dseq d.dseq (d.inv (d.index q)) = _ from r_dseq_invert d.dseq _, this, hi]

theorem UData.k_ne (d : UData n) (h0 : ∀ i, d.dseq i ≠ 0) (q : Fin d.r) : d.k q ≠ 0 := by
  obtain ⟨i, hi⟩ := d.exists_class q
  simp only [UData.k, ← hi, ne_eq, Nat.cast_eq_zero]
  exact h0 i

variable (e e' : Env) (g g' : UAttr d) (me me' : Method) (hme : me ≠ .fixed_point) (hme' : me' ≠ .fixed_point) (guess : Guess n) (adj adj' : AdjSpec n)
  (ma ma' : String) (ga ga' : Guess n) (p p' : Params) (hf : p.full_return = true) (ht : p.tol ≤ p'.tol)

include hme hme' hf ht

/-- C53 (cm): a run started at the fitnesses that a converged run returned makes no step and returns them again. -/
theorem C53_cm_restart (h0 : ∀ i, d.dseq i ≠ 0) :
    let R := solve_tool e g "cm" me.name guess adj ma ga p
    R.exc = none → ∃ t x, R.g.trace = some t ∧ R.g.x = some x ∧ (t.Converged p →
      let R' := solve_tool e' g' "cm" me'.name (.nodes x) adj' ma' ga' p'
      R'.g.x = some x ∧ (p'.full_return = true → ∃ t', R'.g.trace = some t' ∧ t'.n_steps = 0)) := by
  intro R h
  obtain ⟨m, x0, s, hm, -, hs, hG⟩ := solve_tool_ok_cm e g me.name guess adj ma ga p h
  obtain rfl := method_name_inj hm
  have k := solutionError_keeps e (setSolvedCM (d := d) { g with last_model := some "cm", full_return := p.full_return, args := some .cm, step_fun := some .cm, fun_pmatrix := true } false s)
  rw [show R = _ from hG]
  refine ⟨.of s, fun i => s.x (d.inv i), k.2.2.2.2.1.trans (by simp [setSolvedCM, hf]), k.1, fun hc => ?_⟩
  have hg : guessCM e' d false (.nodes fun i => s.x (d.inv i)) = .ok s.x := by
    simp only [guessCM]
    congr 1
    funext q
    simp [maskSet, d.k_ne h0 q, d.inv_index]
  have hR := solve_tool_cm e' g' me' (.nodes fun i => s.x (d.inv i)) adj' ma' ga' p' hg
  have hfn : (cbCM e' d me').fn = (cbCM e d me).fn := by
    cases me <;> cases me' <;> first | rfl | exact absurd rfl hme | exact absurd rfl hme'
  simp only [solver_restart hfn (o' := p'.opts me'.name) hs hc.1 hc.2 ht] at hR
  have k' := solutionError_keeps e' (setSolvedCM (d := d) { g' with last_model := some "cm", full_return := p'.full_return, args := some .cm, step_fun := some .cm, fun_pmatrix := true } false (initState (cbCM e' d me') s.x))
  intro R'
  rw [show R' = _ from hR]
  exact ⟨k'.1, fun hf' => ⟨_, k'.2.2.2.2.1.trans (by simp [setSolvedCM, hf']; rfl), rfl⟩⟩

/-- C53 (cm_exp): the same; the array has to be θ = −log x. -/
theorem C53_cm_exp_restart (h0 : ∀ i, d.dseq i ≠ 0) :
    let R := solve_tool e g "cm_exp" me.name guess adj ma ga p
    R.exc = none → ∃ t x, R.g.trace = some t ∧ R.g.x = some x ∧ (t.Converged p →
      let R' := solve_tool e' g' "cm_exp" me'.name (.nodes fun i => -Real.log (x i)) adj' ma' ga' p'
      R'.g.x = some x ∧ (p'.full_return = true → ∃ t', R'.g.trace = some t' ∧ t'.n_steps = 0)) := by
  intro R h
  obtain ⟨m, x0, s, hm, -, hs, hG⟩ := solve_tool_ok_cm_exp e g me.name guess adj ma ga p h
  obtain rfl := method_name_inj hm
  have k := solutionError_keeps e (setSolvedCM (d := d) { g with last_model := some "cm_exp", full_return := p.full_return, args := some .cm, step_fun := some .cm_exp, fun_pmatrix := true } true s)
  rw [show R = _ from hG]
  refine ⟨.of s, fun i => Real.exp (-s.x (d.inv i)), k.2.2.2.2.1.trans (by simp [setSolvedCM, hf]), k.1, fun hc => ?_⟩
  have hg : guessCM e' d true (.nodes fun i => -Real.log (Real.exp (-s.x (d.inv i)))) = .ok s.x := by
    simp only [guessCM]
    congr 1
    funext q
    simp [maskSet, d.k_ne h0 q, d.inv_index]
  have hR := solve_tool_cm_exp e' g' me' (.nodes fun i => -Real.log (Real.exp (-s.x (d.inv i)))) adj' ma' ga' p' hg
  have hfn : (cbCMexp e' d me').fn = (cbCMexp e d me).fn := by
    cases me <;> cases me' <;> first | rfl | exact absurd rfl hme | exact absurd rfl hme'
  simp only [solver_restart hfn (o' := p'.opts me'.name) hs hc.1 hc.2 ht] at hR
  have k' := solutionError_keeps e' (setSolvedCM (d := d) { g' with last_model := some "cm_exp", full_return := p'.full_return, args := some .cm, step_fun := some .cm_exp, fun_pmatrix := true } true (initState (cbCMexp e' d me') s.x))
  intro R'
  rw [show R' = _ from hR]
  exact ⟨k'.1, fun hf' => ⟨_, k'.2.2.2.2.1.trans (by simp [setSolvedCM, hf']; rfl), rfl⟩⟩

/-- C53 (ecm) -/
theorem C53_ecm_restart (h0 : ∀ i, d.dseq i ≠ 0) (hs0 : ∀ i, d.strength_sequence i ≠ 0) :
    let R := solve_tool e g "ecm" me.name guess adj ma ga p
    R.exc = none → ∃ t x y, R.g.trace = some t ∧ R.g.x = some x ∧ R.g.y = some y ∧ (t.Converged p →
      let R' := solve_tool e' g' "ecm" me'.name (.pairs fun v => if v.1 = 0 then x v.2 else y v.2) adj' ma' ga' p'
      R'.g.x = some x ∧ R'.g.y = some y ∧ (p'.full_return = true → ∃ t', R'.g.trace = some t' ∧ t'.n_steps = 0)) := by
  intro R h
  obtain ⟨m, x0, y0, guess', s, hm, -, hs, hG⟩ := solve_tool_ok_ecm e g me.name guess adj ma ga p h
  obtain rfl := method_name_inj hm
  have k := solutionError_keeps e (setSolvedECM (d := d) { g with last_model := some "ecm", full_return := p.full_return, x := some x0, y := some y0, args := some .ecm, step_fun := some .ecm } false s)
  rw [show R = _ from hG]
  refine ⟨.of s, fun i => s.x (0, i), fun i => s.x (1, i), k.2.2.2.2.1.trans (by simp [setSolvedECM, hf]), k.1, k.2.1, fun hc => ?_⟩
  have hsx : cat2 (fun i => s.x (0, i)) (fun i => s.x (1, i)) = s.x := by
    funext ⟨b, i⟩
    fin_cases b <;> rfl
  have hg : (guessECM e' d false (.pairs fun v => if v.1 = 0 then s.x (0, v.2) else s.x (1, v.2))).1 = .ok (fun i => s.x (0, i), fun i => s.x (1, i)) := by
    simp only [guessECM]
    congr 2
    · funext i; simp [maskSet, UData.deg, h0 i]
    · funext i; simp [maskSet, hs0 i]
  obtain ⟨gu, hgu⟩ : ∃ gu, guessECM e' d false (.pairs fun v => if v.1 = 0 then s.x (0, v.2) else s.x (1, v.2)) = (.ok (fun i => s.x (0, i), fun i => s.x (1, i)), gu) :=
    ⟨_, Prod.ext hg rfl⟩
  have hR := solve_tool_ecm e' g' me' _ adj' ma' ga' p' hgu
  have hfn : (cbECM e' d me').fn = (cbECM e d me).fn := by
    cases me <;> cases me' <;> first | rfl | exact absurd rfl hme | exact absurd rfl hme'
  simp only [hsx, solver_restart hfn (o' := p'.opts me'.name) hs hc.1 hc.2 ht] at hR
  have k' := solutionError_keeps e' (setSolvedECM (d := d) { g' with last_model := some "ecm", full_return := p'.full_return, x := some fun i => s.x (0, i), y := some fun i => s.x (1, i), args := some .ecm, step_fun := some .ecm } false (initState (cbECM e' d me') s.x))
  intro R'
  rw [show R' = _ from hR]
  exact ⟨k'.1, k'.2.1, fun hf' => ⟨_, k'.2.2.2.2.1.trans (by simp [setSolvedECM, hf']; rfl), rfl⟩⟩

/-- C53 (ecm_exp): the array has to be θ. -/
theorem C53_ecm_exp_restart (h0 : ∀ i, d.dseq i ≠ 0) (hs0 : ∀ i, d.strength_sequence i ≠ 0) :
    let R := solve_tool e g "ecm_exp" me.name guess adj ma ga p
    R.exc = none → ∃ t x y, R.g.trace = some t ∧ R.g.x = some x ∧ R.g.y = some y ∧ (t.Converged p →
      let R' := solve_tool e' g' "ecm_exp" me'.name (.pairs fun v => if v.1 = 0 then -Real.log (x v.2) else -Real.log (y v.2)) adj' ma' ga' p'
      R'.g.x = some x ∧ R'.g.y = some y ∧ (p'.full_return = true → ∃ t', R'.g.trace = some t' ∧ t'.n_steps = 0)) := by
  intro R h
  obtain ⟨m, x0, y0, guess', s, hm, -, hs, hG⟩ := solve_tool_ok_ecm_exp e g me.name guess adj ma ga p h
  obtain rfl := method_name_inj hm
  have k := solutionError_keeps e (setSolvedECM (d := d) { g with last_model := some "ecm_exp", full_return := p.full_return, x := some x0, y := some y0, args := some .ecm, step_fun := some .ecm_exp } true s)
  rw [show R = _ from hG]
  refine ⟨.of s, fun i => Real.exp (-s.x (0, i)), fun i => Real.exp (-s.x (1, i)), k.2.2.2.2.1.trans (by simp [setSolvedECM, hf]), k.1, k.2.1, fun hc => ?_⟩
  have hsx : cat2 (fun i => s.x (0, i)) (fun i => s.x (1, i)) = s.x := by
    funext ⟨b, i⟩
    fin_cases b <;> rfl
  have hg : (guessECM e' d true (.pairs fun v => if v.1 = 0 then -Real.log (Real.exp (-s.x (0, v.2))) else -Real.log (Real.exp (-s.x (1, v.2))))).1 =
      .ok (fun i => s.x (0, i), fun i => s.x (1, i)) := by
    simp only [guessECM]
    congr 2
    · funext i; simp [maskSet, UData.deg, h0 i]
    · funext i; simp [maskSet, hs0 i]
  obtain ⟨gu, hgu⟩ : ∃ gu, guessECM e' d true (.pairs fun v => if v.1 = 0 then -Real.log (Real.exp (-s.x (0, v.2))) else -Real.log (Real.exp (-s.x (1, v.2)))) =
      (.ok (fun i => s.x (0, i), fun i => s.x (1, i)), gu) := ⟨_, Prod.ext hg rfl⟩
  have hR := solve_tool_ecm_exp e' g' me' _ adj' ma' ga' p' hgu
  have hfn : (cbECMexp e' d me').fn = (cbECMexp e d me).fn := by
    cases me <;> cases me' <;> first | rfl | exact absurd rfl hme | exact absurd rfl hme'
  simp only [hsx, solver_restart hfn (o' := p'.opts me'.name) hs hc.1 hc.2 ht] at hR
  have k' := solutionError_keeps e' (setSolvedECM (d := d) { g' with last_model := some "ecm_exp", full_return := p'.full_return, x := some fun i => s.x (0, i), y := some fun i => s.x (1, i), args := some .ecm, step_fun := some .ecm_exp } true (initState (cbECMexp e' d me') s.x))
  intro R'
  rw [show R' = _ from hR]
  exact ⟨k'.1, k'.2.1, fun hf' => ⟨_, k'.2.2.2.2.1.trans (by simp [setSolvedECM, hf']; rfl), rfl⟩⟩

end restartU

section restartD

variable [NeZero n] {d : DData n}

theorem DData.inv_index (d : DData n) (q : Fin d.r) : d.inv (d.index q) = q := by
  obtain ⟨i, hi⟩ := d.exists_class q
  have hq : d.inv i = q := by
    apply (r_dseq_strictMono d.seq).injective
    rw [← hi]; exact r_dseq_invert d.seq i
  apply (r_dseq_strictMono d.seq).injective
  have := (d.index_first i).1
  rw [hq] at this
  rw [show r_dseq d.seq (d.inv (d.index q)) = _ from r_dseq_invert d.seq _, ← hi]
  unfold DData.seq
  exact congrArg toLex this

theorem DData.ko_ne (d : DData n) (h0 : ∀ i, d.dseq_out i ≠ 0) (q : Fin d.r) : d.ko q ≠ 0 := by
  rw [← d.inv_index q, (d.class_of _).1]
  simpa [DData.degOut] using h0 _

theorem DData.ki_ne (d : DData n) (h0 : ∀ i, d.dseq_in i ≠ 0) (q : Fin d.r) : d.ki q ≠ 0 := by
  rw [← d.inv_index q, (d.class_of _).2]
  simpa [DData.degIn] using h0 _

variable (e e' : Env) (g g' : DAttr d) (me me' : Method) (hme : me ≠ .fixed_point) (hme' : me' ≠ .fixed_point) (guess : DGuess n) (adj adj' : AdjSpec n)
  (ma ma' : String) (ga ga' : DGuess n) (p p' : Params) (hf : p.full_return = true) (ht : p.tol ≤ p'.tol)

include hme hme' hf ht

/-- C53 (dcm) -/
theorem C53_dcm_restart (ho : ∀ i, d.dseq_out i ≠ 0) (hi : ∀ i, d.dseq_in i ≠ 0) :
    let R := solve_tool_directed e g "dcm" me.name guess adj ma ga p
    R.exc = none → ∃ t x y, R.g.trace = some t ∧ R.g.x = some x ∧ R.g.y = some y ∧ (t.Converged p →
      let R' := solve_tool_directed e' g' "dcm" me'.name (.pairs fun v => if v.1 = 0 then x v.2 else y v.2) adj' ma' ga' p'
      R'.g.x = some x ∧ R'.g.y = some y ∧ (p'.full_return = true → ∃ t', R'.g.trace = some t' ∧ t'.n_steps = 0)) := by
  intro R h
  obtain ⟨m, x0, s, hm, -, hs, hG, -⟩ := solve_tool_ok_dcm e g me.name guess adj ma ga p h
  obtain rfl := method_name_inj hm
  rw [show R = _ from hG]
  refine ⟨.of s, fun i => s.x (0, d.inv i), fun i => s.x (1, d.inv i), (keepsD DAttr.trace (fun _ => rfl) _).trans (by simp [setSolvedDCM, preDCM, hf]),
    keepsD DAttr.x (fun _ => rfl) _, keepsD DAttr.y (fun _ => rfl) _, fun hc => ?_⟩
  have hg : guessDCM e' d false (.pairs fun v => if v.1 = 0 then s.x (0, d.inv v.2) else s.x (1, d.inv v.2)) = .ok s.x := by
    simp only [guessDCM]
    congr 1
    funext ⟨b, q⟩
    fin_cases b
    · simp [finishDCM, cat2, maskSet, d.ko_ne ho, d.inv_index]
    · simp [finishDCM, cat2, maskSet, d.ki_ne hi, d.inv_index]
  have hR := solve_tool_dcm e' g' me' _ adj' ma' ga' p' hg
  have hfn : (cbDCM e' d me').fn = (cbDCM e d me).fn := by
    cases me <;> cases me' <;> first | rfl | exact absurd rfl hme | exact absurd rfl hme'
  simp only [solver_restart hfn (o' := p'.opts me'.name) hs hc.1 hc.2 ht] at hR
  intro R'
  rw [show R' = _ from hR]
  exact ⟨keepsD DAttr.x (fun _ => rfl) _, keepsD DAttr.y (fun _ => rfl) _,
    fun hf' => ⟨_, (keepsD DAttr.trace (fun _ => rfl) _).trans (by simp [setSolvedDCM, preDCM, hf']; rfl), rfl⟩⟩

/-- C53 (dcm_exp): the array is the one of the fitnesses. -/
theorem C53_dcm_exp_restart (ho : ∀ i, d.dseq_out i ≠ 0) (hi : ∀ i, d.dseq_in i ≠ 0) :
    let R := solve_tool_directed e g "dcm_exp" me.name guess adj ma ga p
    R.exc = none → ∃ t x y, R.g.trace = some t ∧ R.g.x = some x ∧ R.g.y = some y ∧ (t.Converged p →
      let R' := solve_tool_directed e' g' "dcm_exp" me'.name (.pairs fun v => if v.1 = 0 then x v.2 else y v.2) adj' ma' ga' p'
      R'.g.x = some x ∧ R'.g.y = some y ∧ (p'.full_return = true → ∃ t', R'.g.trace = some t' ∧ t'.n_steps = 0)) := by
  intro R h
  obtain ⟨m, x0, s, hm, -, hs, hG, -⟩ := solve_tool_ok_dcm_exp e g me.name guess adj ma ga p h
  obtain rfl := method_name_inj hm
  rw [show R = _ from hG]
  refine ⟨.of s, fun i => Real.exp (-s.x (0, d.inv i)), fun i => Real.exp (-s.x (1, d.inv i)),
    (keepsD DAttr.trace (fun _ => rfl) _).trans (by simp [setSolvedDCM, preDCM, hf]), keepsD DAttr.x (fun _ => rfl) _, keepsD DAttr.y (fun _ => rfl) _,
    fun hc => ?_⟩
  have hg : guessDCM e' d true (.pairs fun v => if v.1 = 0 then Real.exp (-s.x (0, d.inv v.2)) else Real.exp (-s.x (1, d.inv v.2))) = .ok s.x := by
    simp only [guessDCM]
    congr 1
    funext ⟨b, q⟩
    fin_cases b
    · simp [finishDCM, cat2, maskSet, negLogNonzero, d.ko_ne ho, d.inv_index]
    · simp [finishDCM, cat2, maskSet, negLogNonzero, d.ki_ne hi, d.inv_index]
  have hR := solve_tool_dcm_exp e' g' me' _ adj' ma' ga' p' hg
  have hfn : (cbDCMexp e' d me').fn = (cbDCMexp e d me).fn := by
    cases me <;> cases me' <;> first | rfl | exact absurd rfl hme | exact absurd rfl hme'
  simp only [solver_restart hfn (o' := p'.opts me'.name) hs hc.1 hc.2 ht] at hR
  intro R'
  rw [show R' = _ from hR]
  exact ⟨keepsD DAttr.x (fun _ => rfl) _, keepsD DAttr.y (fun _ => rfl) _,
    fun hf' => ⟨_, (keepsD DAttr.trace (fun _ => rfl) _).trans (by simp [setSolvedDCM, preDCM, hf']; rfl), rfl⟩⟩

/-- C53 (decm) -/
theorem C53_decm_restart (h0 : ∀ i, d.dseq_out i ≠ 0 ∧ d.dseq_in i ≠ 0 ∧ d.out_strength i ≠ 0 ∧ d.in_strength i ≠ 0) :
    let R := solve_tool_directed e g "decm" me.name guess adj ma ga p
    R.exc = none → ∃ t x y bo bi, R.g.trace = some t ∧ R.g.x = some x ∧ R.g.y = some y ∧ R.g.b_out = some bo ∧ R.g.b_in = some bi ∧ (t.Converged p →
      let R' := solve_tool_directed e' g' "decm" me'.name
        (.quads fun v => if v.1 = 0 then x v.2 else if v.1 = 1 then y v.2 else if v.1 = 2 then bo v.2 else bi v.2) adj' ma' ga' p'
      R'.g.x = some x ∧ R'.g.y = some y ∧ R'.g.b_out = some bo ∧ R'.g.b_in = some bi ∧
        (p'.full_return = true → ∃ t', R'.g.trace = some t' ∧ t'.n_steps = 0)) := by
  intro R h
  obtain ⟨m, v0, guess', s, hm, -, hs, hG⟩ := solve_tool_ok_decm e g me.name guess adj ma ga p h
  obtain rfl := method_name_inj hm
  rw [show R = _ from hG]
  refine ⟨.of s, fun i => s.x (0, i), fun i => s.x (1, i), fun i => s.x (2, i), fun i => s.x (3, i),
    (keepsD DAttr.trace (fun _ => rfl) _).trans (by simp [setSolvedDECM, preDECM, hf]), keepsD DAttr.x (fun _ => rfl) _, keepsD DAttr.y (fun _ => rfl) _,
    keepsD DAttr.b_out (fun _ => rfl) _, keepsD DAttr.b_in (fun _ => rfl) _, fun hc => ?_⟩
  have hg : (guessDECM e' d false (.quads fun v => if v.1 = 0 then s.x (0, v.2) else if v.1 = 1 then s.x (1, v.2) else if v.1 = 2 then s.x (2, v.2) else s.x (3, v.2))).1 =
      .ok s.x := by
    simp only [guessDECM]
    congr 1
    funext ⟨b, i⟩
    obtain ⟨a1, a2, a3, a4⟩ := h0 i
    fin_cases b <;> simp [finishDECM, maskSet, DData.obs, DData.degOut, DData.degIn, a1, a2, a3, a4]
  have hR := solve_tool_decm e' g' me' (.quads fun v => if v.1 = 0 then s.x (0, v.2) else if v.1 = 1 then s.x (1, v.2) else if v.1 = 2 then s.x (2, v.2) else s.x (3, v.2))
    adj' ma' ga' p' (Prod.ext hg rfl)
  have hfn : (cbDECM e' d me').fn = (cbDECM e d me).fn := by
    cases me <;> cases me' <;> first | rfl | exact absurd rfl hme | exact absurd rfl hme'
  simp only [solver_restart hfn (o' := p'.opts me'.name) hs hc.1 hc.2 ht] at hR
  intro R'
  rw [show R' = _ from hR]
  exact ⟨keepsD DAttr.x (fun _ => rfl) _, keepsD DAttr.y (fun _ => rfl) _, keepsD DAttr.b_out (fun _ => rfl) _, keepsD DAttr.b_in (fun _ => rfl) _,
    fun hf' => ⟨_, (keepsD DAttr.trace (fun _ => rfl) _).trans (by simp [setSolvedDECM, preDECM, hf']; rfl), rfl⟩⟩

/-- C53 (decm_exp): the array is the one of the fitnesses. -/
theorem C53_decm_exp_restart (h0 : ∀ i, d.dseq_out i ≠ 0 ∧ d.dseq_in i ≠ 0 ∧ d.out_strength i ≠ 0 ∧ d.in_strength i ≠ 0) :
    let R := solve_tool_directed e g "decm_exp" me.name guess adj ma ga p
    R.exc = none → ∃ t x y bo bi, R.g.trace = some t ∧ R.g.x = some x ∧ R.g.y = some y ∧ R.g.b_out = some bo ∧ R.g.b_in = some bi ∧ (t.Converged p →
      let R' := solve_tool_directed e' g' "decm_exp" me'.name
        (.quads fun v => if v.1 = 0 then x v.2 else if v.1 = 1 then y v.2 else if v.1 = 2 then bo v.2 else bi v.2) adj' ma' ga' p'
      R'.g.x = some x ∧ R'.g.y = some y ∧ R'.g.b_out = some bo ∧ R'.g.b_in = some bi ∧
        (p'.full_return = true → ∃ t', R'.g.trace = some t' ∧ t'.n_steps = 0)) := by
  intro R h
  obtain ⟨m, v0, guess', s, hm, -, hs, hG⟩ := solve_tool_ok_decm_exp e g me.name guess adj ma ga p h
  obtain rfl := method_name_inj hm
  rw [show R = _ from hG]
  refine ⟨.of s, fun i => Real.exp (-s.x (0, i)), fun i => Real.exp (-s.x (1, i)), fun i => Real.exp (-s.x (2, i)), fun i => Real.exp (-s.x (3, i)),
    (keepsD DAttr.trace (fun _ => rfl) _).trans (by simp [setSolvedDECM, preDECM, hf]), keepsD DAttr.x (fun _ => rfl) _, keepsD DAttr.y (fun _ => rfl) _,
    keepsD DAttr.b_out (fun _ => rfl) _, keepsD DAttr.b_in (fun _ => rfl) _, fun hc => ?_⟩
  have hg : (guessDECM e' d true (.quads fun v => if v.1 = 0 then Real.exp (-s.x (0, v.2)) else if v.1 = 1 then Real.exp (-s.x (1, v.2)) else
      if v.1 = 2 then Real.exp (-s.x (2, v.2)) else Real.exp (-s.x (3, v.2)))).1 = .ok s.x := by
    simp only [guessDECM]
    congr 1
    funext ⟨b, i⟩
    obtain ⟨a1, a2, a3, a4⟩ := h0 i
    fin_cases b <;> simp [finishDECM, maskSet, negLogNonzero, DData.obs, DData.degOut, DData.degIn, a1, a2, a3, a4]
  have hR := solve_tool_decm_exp e' g' me' (.quads fun v => if v.1 = 0 then Real.exp (-s.x (0, v.2)) else if v.1 = 1 then Real.exp (-s.x (1, v.2)) else
      if v.1 = 2 then Real.exp (-s.x (2, v.2)) else Real.exp (-s.x (3, v.2))) adj' ma' ga' p' (Prod.ext hg rfl)
  have hfn : (cbDECMexp e' d me').fn = (cbDECMexp e d me).fn := by
    cases me <;> cases me' <;> first | rfl | exact absurd rfl hme | exact absurd rfl hme'
  simp only [solver_restart hfn (o' := p'.opts me'.name) hs hc.1 hc.2 ht] at hR
  intro R'
  rw [show R' = _ from hR]
  exact ⟨keepsD DAttr.x (fun _ => rfl) _, keepsD DAttr.y (fun _ => rfl) _, keepsD DAttr.b_out (fun _ => rfl) _, keepsD DAttr.b_in (fun _ => rfl) _,
    fun hf' => ⟨_, (keepsD DAttr.trace (fun _ => rfl) _).trans (by simp [setSolvedDECM, preDECM, hf']; rfl), rfl⟩⟩

end restartD

/-! ### exact solutions given as guess -/

section keptU

variable [NeZero n] {d : UData n} (e : Env) (g : UAttr d) (me : Method) (adj : AdjSpec n) (ma : String) (ga : Guess n) (p : Params) (ht : 0 ≤ p.tol) (hp : 0 ≤ p.eps)

theorem untilLoop_ne_none {cond : ℝ → Prop} {beta alfa : ℝ} (h : cond alfa) : untilLoop cond beta alfa ≠ none := by
  unfold untilLoop
  rw [dif_pos ⟨0, by simpa using h⟩]
  simp

theorem solver_kept {ι : Type} [Fintype ι] [DecidableEq ι] [Nonempty ι] (C : Callbacks ι) (o : Opts) (x0 : ι → ℝ) (ht : 0 ≤ o.tol) (hp : 0 ≤ o.eps)
    (hC : C.linsearchFixed x0 0 0 1 0.5 0 ≠ none) (h : (o.method = "fixed-point" ∧ C.fn x0 = x0) ∨ C.fn x0 = 0) :
    ∃ s, solver C o x0 = .ok s ∧ s.x = x0 := by
  rcases h with ⟨hm, h⟩ | h
  · exact solver_fixed C o x0 hm hC h hp
  · exact ⟨_, solver_at_zero C o x0 h ht, rfl⟩

include ht hp

/-- C53 (cm): whatever the method, a solution of the equations of the model is returned unchanged. -/
theorem C53_cm_kept (h0 : ∀ i, d.dseq i ≠ 0) (v : Fin n → ℝ) (hv : ∀ i, 0 < v i) (hc : ∀ i j, d.dseq i = d.dseq j → v i = v j)
    (hsol : ∀ i, degUBCM v i = d.dseq i) : (solve_tool e g "cm" me.name (.nodes v) adj ma ga p).g.x = some v := by
  set r : Fin d.r → ℝ := fun q => v (d.index q) with hr
  have hri : (fun i => r (d.inv i)) = v := funext fun i => hc _ _ (d.index_first i).1
  have hg : guessCM e d false (.nodes v) = .ok r := by
    simp only [guessCM]
    congr 1
    funext q
    simp [maskSet, d.k_ne h0 q, hr]
  have hr0 : ∀ q, 0 < r q := fun q => hv _
  have hgrad : ∀ q, CM.loglikelihood_prime_cm r d.k d.c q = 0 := fun q => by
    obtain ⟨i, rfl⟩ : ∃ i, d.inv i = q := ⟨_, d.inv_index q⟩
    have h1 : CM.loglikelihood_prime_cm r d.k d.c (d.inv i) = d.c (d.inv i) *
      CM.loglikelihood_prime_cm (fun i => r (d.inv i)) (fun i => (d.dseq i : ℝ)) (fun _ => 1) i := CM.C10_cm_reduction_gradient d.dseq r i
    have h2 := CM.prime_full_eq (fun i => r (d.inv i)) (fun i => (d.dseq i : ℝ)) (fun i => (hr0 _).ne') i
    rw [deg_spec, hri, hsol, sub_self] at h2
    rw [h1, hri, (mul_eq_zero.1 h2).resolve_left (hr0 _).ne', mul_zero]
  have hst : ∀ q, HasDerivAt (fun t => logUBCM d.deg fun i => Function.update r q t (d.inv i)) 0 (r q) := fun q => by
    have := CM.C06_cm_gradient r d.k d.c hr0 q
    simp only [ll_red_spec] at this
    rwa [hgrad q] at this
  obtain ⟨s, hs, hx⟩ := solver_kept (cbCM e d me) (p.opts me.name) r ht hp (by simp [cbCM]) (by
    cases me with
    | fixed_point => exact .inl ⟨rfl, funext ((cbCM_fixed e d h0 r hr0).2 hst)⟩
    | newton => exact .inr (funext fun q => by simp [cbCM, hgrad])
    | quasinewton => exact .inr (funext fun q => by simp [cbCM, hgrad]))
  have hR := solve_tool_cm e g me (.nodes v) adj ma ga p hg
  simp only [hs] at hR
  refine (congrArg (fun r => r.g.x) hR).trans ((solutionError_keeps e _).1.trans ?_)
  simp [setSolvedCM, hx, hri]

/-- C53 (cm_exp): the same for θ. -/
theorem C53_cm_exp_kept (h2 : 2 ≤ n) (h0 : ∀ i, d.dseq i ≠ 0) (θ : Fin n → ℝ) (hc : ∀ i j, d.dseq i = d.dseq j → θ i = θ j)
    (hsol : ∀ i, degUBCM (fun i => Real.exp (-θ i)) i = d.dseq i) :
    (solve_tool e g "cm_exp" me.name (.nodes θ) adj ma ga p).g.x = some fun i => Real.exp (-θ i) := by
  set r : Fin d.r → ℝ := fun q => θ (d.index q) with hr
  have hri : ∀ i, r (d.inv i) = θ i := fun i => hc _ _ (d.index_first i).1
  have hg : guessCM e d true (.nodes θ) = .ok r := by
    simp only [guessCM]
    congr 1
    funext q
    simp [maskSet, d.k_ne h0 q, hr]
  have hgrad : ∀ q, CM.loglikelihood_prime_cm_exp r d.k d.c q = 0 := fun q => by
    obtain ⟨i, rfl⟩ : ∃ i, d.inv i = q := ⟨_, d.inv_index q⟩
    rw [residual_cm_exp]
    simp only [hri]
    rw [hsol, sub_self, mul_zero]
  have hst : ∀ q, HasDerivAt (fun t => logUBCM d.deg fun i => Real.exp (-Function.update r q t (d.inv i))) 0 (r q) := fun q => by
    have := CM.C06_cm_exp_gradient r d.k d.c q
    simp only [ll_exp_red_spec] at this
    rwa [hgrad q] at this
  obtain ⟨s, hs, hx⟩ := solver_kept (cbCMexp e d me) (p.opts me.name) r ht hp (by simp [cbCMexp]) (by
    cases me with
    | fixed_point => exact .inl ⟨rfl, funext ((cbCMexp_fixed e d h2 h0 r trivial).2 hst)⟩
    | newton => exact .inr (funext fun q => by simp [cbCMexp, hgrad])
    | quasinewton => exact .inr (funext fun q => by simp [cbCMexp, hgrad]))
  have hR := solve_tool_cm_exp e g me (.nodes θ) adj ma ga p hg
  simp only [hs] at hR
  refine (congrArg (fun r => r.g.x) hR).trans ((solutionError_keeps e _).1.trans ?_)
  simp [setSolvedCM, hx, hri]

/-- C53 (ecm) -/
theorem C53_ecm_kept (h2 : 2 ≤ n) (h0 : ∀ i, d.dseq i ≠ 0) (hs0 : ∀ i, d.strength_sequence i ≠ 0) (v : Fin 2 × Fin n → ℝ) (hv : AdmECM v)
    (hk : ∀ i, degUECM (fun i => v (0, i)) (fun i => v (1, i)) i = d.dseq i)
    (hs : ∀ i, strUECM (fun i => v (0, i)) (fun i => v (1, i)) i = d.strength_sequence i) :
    let R := solve_tool e g "ecm" me.name (.pairs v) adj ma ga p
    R.g.x = some (fun i => v (0, i)) ∧ R.g.y = some (fun i => v (1, i)) ∧ R.exc = none := by
  have hsx : cat2 (fun i => v (0, i)) (fun i => v (1, i)) = v := by
    funext ⟨b, i⟩
    fin_cases b <;> rfl
  have hg : (guessECM e d false (.pairs v)).1 = .ok (fun i => v (0, i), fun i => v (1, i)) := by
    simp only [guessECM]
    congr 2
    · funext i; simp [maskSet, UData.deg, h0 i]
    · funext i; simp [maskSet, hs0 i]
  have hgrad : ∀ w, ECM.loglikelihood_prime_ecm v d.deg d.strength_sequence w = 0 := by
    rintro ⟨b, i⟩
    obtain ⟨e1, e2⟩ := ECM.C03_ecm_residual v d.deg d.strength_sequence hv i
    rw [deg_ecm_spec, hk] at e1
    rw [str_ecm_spec, hs] at e2
    fin_cases b
    · refine (mul_eq_zero.1 (e1.trans ?_)).resolve_left (hv.1 i).ne'
      simp [UData.deg]
    · refine (mul_eq_zero.1 (e2.trans ?_)).resolve_left (hv.2.1 i).ne'
      simp
  have hst : ∀ q, HasDerivAt (fun t => LECM d (Function.update v q t)) 0 (v q) := fun q => by
    have := ECM.C06_ecm_gradient v d.deg d.strength_sequence hv q
    simp only [ll_ecm_spec] at this
    rwa [hgrad q] at this
  obtain ⟨s, hs, hx⟩ := solver_kept (cbECM e d me) (p.opts me.name) v ht hp (by
    have hu : untilLoop (fun a => topTwoProd (blk 1 (v + a • (0 : Fin 2 × Fin n → ℝ))) < 1) 0.5 (positivityStage (blocks 2 n) v 0 1) ≠ none := by
      refine untilLoop_ne_none ?_
      simp only [smul_zero, add_zero]
      exact (topTwoProd_lt_one h2 _ (fun i => (hv.2.1 i).le)).2 hv.2.2
    simpa [cbECM, linsearch_fun_ECM_fixed, Option.map_eq_none_iff] using hu) (by
    cases me with
    | fixed_point => exact .inl ⟨rfl, funext ((cbECM_fixed e d h0 hs0 v hv).2 hst)⟩
    | newton => exact .inr (funext fun q => by simp [cbECM, hgrad])
    | quasinewton => exact .inr (funext fun q => by simp [cbECM, hgrad]))
  have hR := solve_tool_ecm e g me (.pairs v) adj ma ga p (Prod.ext hg rfl)
  simp only [hsx, hs] at hR
  refine ⟨(congrArg (fun r => r.g.x) hR).trans ((solutionError_keeps e _).1.trans ?_), (congrArg (fun r => r.g.y) hR).trans ((solutionError_keeps e _).2.1.trans ?_),
    (congrArg UResult.exc hR).trans ?_⟩
  · simp [setSolvedECM, hx]
  · simp [setSolvedECM, hx]
  · simp [solutionError, setSolvedECM]

end keptU

/-- the ring of three nodes satisfies the hypotheses: fitnesses one (θ zero) give degree one -/
example (e : Env) (me : Method) : (solve_tool e ({} : UAttr (regular 3 1 fun _ => 1)) "cm" me.name (.nodes fun _ => 1) (.name "cm_exp") "newton" (.name "random") {}).g.x = some fun _ => 1 :=
  C53_cm_kept e _ me _ _ _ _ (by norm_num) (by norm_num) (fun i => by simp [regular]) _ (fun _ => one_pos) (fun _ _ _ => rfl) fun i => by
    fin_cases i <;> rw [degUBCM, Finset.sum_filter, Fin.sum_univ_three] <;> simp [linkUBCM, regular, Finset.sum_filter, Fin.sum_univ_three] <;> norm_num

example (e : Env) (me : Method) : (solve_tool e ({} : UAttr (regular 3 1 fun _ => 1)) "cm_exp" me.name (.nodes fun _ => 0) (.name "cm_exp") "newton" (.name "random") {}).g.x =
    some fun _ => Real.exp (-0) :=
  C53_cm_exp_kept e _ me _ _ _ _ (by norm_num) (by norm_num) (by norm_num) (fun i => by simp [regular]) _ (fun _ _ _ => rfl) fun i => by
    fin_cases i <;> rw [degUBCM, Finset.sum_filter, Fin.sum_univ_three] <;> simp [linkUBCM, regular, Finset.sum_filter, Fin.sum_univ_three] <;> norm_num

example (e : Env) (me : Method) :
    (solve_tool e ({} : UAttr (regular 3 1 fun _ => 25 / 16)) "ecm" me.name (.pairs fun w => if w.1 = 0 then 4 / 3 else 3 / 5) (.name "cm_exp") "newton" (.name "random") {}).g.x = some fun _ => 4 / 3 :=
  (C53_ecm_kept e _ me _ _ _ _ (by norm_num) (by norm_num) (by norm_num) (fun i => by simp [regular]) (fun i => by simp [regular]) _
    ⟨fun i => by simp, fun i => by norm_num, fun i j _ => by norm_num⟩
    (fun i => by fin_cases i <;> rw [degUECM, Finset.sum_filter, Fin.sum_univ_three] <;> simp [regular, Finset.sum_filter, Fin.sum_univ_three] <;> norm_num)
    (fun i => by fin_cases i <;> rw [strUECM, Finset.sum_filter, Fin.sum_univ_three] <;> simp [regular, Finset.sum_filter, Fin.sum_univ_three] <;> norm_num)).1

section keptD

variable [NeZero n] {d : DData n} (e : Env) (g : DAttr d) (me : Method) (adj : AdjSpec n) (ma : String) (ga : DGuess n) (p : Params) (ht : 0 ≤ p.tol) (hp : 0 ≤ p.eps)

include ht hp

/-- C53 (dcm): also with nodes of zero degree, if some other node has a link. -/
theorem C53_dcm_kept (hl : ∀ i, (∃ j, j ≠ i ∧ d.dseq_in j ≠ 0) ∧ ∃ j, j ≠ i ∧ d.dseq_out j ≠ 0) (x y : Fin n → ℝ)
    (hx : ∀ i, if d.dseq_out i = 0 then x i = 0 else 0 < x i) (hy : ∀ i, if d.dseq_in i = 0 then y i = 0 else 0 < y i)
    (hc : ∀ i j, d.dseq_out i = d.dseq_out j → d.dseq_in i = d.dseq_in j → x i = x j ∧ y i = y j)
    (ho : ∀ i, outDBCM x y i = d.dseq_out i) (hi : ∀ i, inDBCM x y i = d.dseq_in i) :
    let R := solve_tool_directed e g "dcm" me.name (.pairs fun v => if v.1 = 0 then x v.2 else y v.2) adj ma ga p
    R.g.x = some x ∧ R.g.y = some y := by
  set r : Fin 2 × Fin d.r → ℝ := fun v => if v.1 = 0 then x (d.index v.2) else y (d.index v.2) with hr
  have hrx : ∀ i, r (0, d.inv i) = x i := fun i => by
    have h := (d.index_first i).1
    simp only [Prod.mk.injEq] at h
    simp [hr, (hc _ _ h.1 h.2).1]
  have hry : ∀ i, r (1, d.inv i) = y i := fun i => by
    have h := (d.index_first i).1
    simp only [Prod.mk.injEq] at h
    simp [hr, (hc _ _ h.1 h.2).2]
  have hinv : ∀ q, ∃ i, d.inv i = q := fun q => ⟨_, d.inv_index q⟩
  have hadm : AdmDCM0 d r := by
    refine ⟨⟨fun q hq => ?_, fun q hq => ?_⟩, fun q hq => ?_, fun q hq => ?_⟩ <;> obtain ⟨i, rfl⟩ := hinv q
    · rw [(d.class_of i).1] at hq
      have := hx i
      rw [if_neg (by simpa [DData.degOut] using hq)] at this
      rwa [hrx]
    · rw [(d.class_of i).2] at hq
      have := hy i
      rw [if_neg (by simpa [DData.degIn] using hq)] at this
      rwa [hry]
    · rw [(d.class_of i).1] at hq
      have := hx i
      rw [if_pos (by simpa [DData.degOut] using hq)] at this
      rwa [hrx]
    · rw [(d.class_of i).2] at hq
      have := hy i
      rw [if_pos (by simpa [DData.degIn] using hq)] at this
      rwa [hry]
  have hg : guessDCM e d false (.pairs fun v => if v.1 = 0 then x v.2 else y v.2) = .ok r := by
    simp only [guessDCM]
    congr 1
    funext ⟨b, q⟩
    obtain ⟨i, rfl⟩ := hinv q
    fin_cases b
    · by_cases hq : d.ko (d.inv i) = 0
      · simp [finishDCM, cat2, maskSet, hq, hadm.2.1 _ hq]
      · simp [finishDCM, cat2, maskSet, hq, hr]
    · by_cases hq : d.ki (d.inv i) = 0
      · simp [finishDCM, cat2, maskSet, hq, hadm.2.2 _ hq]
      · simp [finishDCM, cat2, maskSet, hq, hr]
  have hax : (active d.degOut fun i => r (0, d.inv i)) = x := funext fun i => by
    have := hx i
    by_cases h : d.dseq_out i = 0 <;> simp [active, DData.degOut, h, hrx] at this ⊢
    exact this.symm
  have hay : (active d.degIn fun i => r (1, d.inv i)) = y := funext fun i => by
    have := hy i
    by_cases h : d.dseq_in i = 0 <;> simp [active, DData.degIn, h, hry] at this ⊢
    exact this.symm
  have hgrad : ∀ v, DCM.loglikelihood_prime_dcm r d.ko d.ki (DCM.nonzero d.ko) (DCM.nonzero d.ki) d.c v = 0 := by
    rintro ⟨b, q⟩
    obtain ⟨i, rfl⟩ := hinv q
    obtain ⟨e1, e2⟩ := residual_dcm d r hadm.1 i
    simp only [hax, hay, ho, hi, sub_self, mul_zero] at e1 e2
    fin_cases b
    · by_cases h : d.degOut i = 0
      · exact (dcm_prime_zero r (0, d.inv i) ((d.class_of i).1.trans h)).1
      · exact (mul_eq_zero.1 (e1 h)).resolve_left (hadm.1.1 _ (by rwa [(d.class_of i).1])).ne'
    · by_cases h : d.degIn i = 0
      · exact (dcm_prime_zero r (1, d.inv i) ((d.class_of i).2.trans h)).1
      · exact (mul_eq_zero.1 (e2 h)).resolve_left (hadm.1.2 _ (by rwa [(d.class_of i).2])).ne'
  have hst : ∀ q, HasDerivAt (fun t => LDCM d (Function.update r q t)) 0 (r q) := fun q => by
    have := dcm_deriv d r hadm.1 q
    rwa [hgrad q] at this
  obtain ⟨s, hs, hsx⟩ := solver_kept (cbDCM e d me) (p.opts me.name) r ht hp (by simp [cbDCM]) (by
    cases me with
    | fixed_point => exact .inl ⟨rfl, funext ((cbDCM_fixed e d hl r hadm).2 hst)⟩
    | newton => exact .inr (funext fun q => by simp [cbDCM, hgrad])
    | quasinewton => exact .inr (funext fun q => by simp [cbDCM, hgrad]))
  have hR := solve_tool_dcm e g me _ adj ma ga p hg
  simp only [hs] at hR
  refine ⟨(congrArg (fun r => r.g.x) hR).trans ((keepsD DAttr.x (fun _ => rfl) _).trans ?_), (congrArg (fun r => r.g.y) hR).trans ((keepsD DAttr.y (fun _ => rfl) _).trans ?_)⟩
  · simp [setSolvedDCM, hsx, hrx]
  · simp [setSolvedDCM, hsx, hry]

omit ht hp in
theorem decm_solution (h0 : ∀ i, d.dseq_out i ≠ 0 ∧ d.dseq_in i ≠ 0 ∧ d.out_strength i ≠ 0 ∧ d.in_strength i ≠ 0) (v : Fin 4 × Fin n → ℝ) (hv : AdmDECM v)
    (hsol : ∀ i, outDegDECM (fun i => v (0, i)) (fun i => v (1, i)) (fun i => v (2, i)) (fun i => v (3, i)) i = d.dseq_out i ∧
      inDegDECM (fun i => v (0, i)) (fun i => v (1, i)) (fun i => v (2, i)) (fun i => v (3, i)) i = d.dseq_in i ∧
      outStrDECM (fun i => v (0, i)) (fun i => v (1, i)) (fun i => v (2, i)) (fun i => v (3, i)) i = d.out_strength i ∧
      inStrDECM (fun i => v (0, i)) (fun i => v (1, i)) (fun i => v (2, i)) (fun i => v (3, i)) i = d.in_strength i) :
    (guessDECM e d false (.quads v)).1 = .ok v ∧ (∀ w, DECM.loglikelihood_prime_decm v d.degOut d.degIn d.out_strength d.in_strength w = 0) ∧
      (cbDECM e d .fixed_point).fn v = v := by
  have hobs : ∀ w, d.obs w ≠ 0 := by
    rintro ⟨b, i⟩
    obtain ⟨a1, a2, a3, a4⟩ := h0 i
    fin_cases b <;> simp [DData.obs, DData.degOut, DData.degIn, a1, a2, a3, a4]
  have hg : (guessDECM e d false (.quads v)).1 = .ok v := by
    simp only [guessDECM]
    congr 1
    funext w
    simp [finishDECM, maskSet, hobs w]
  have hgrad : ∀ w, DECM.loglikelihood_prime_decm v d.degOut d.degIn d.out_strength d.in_strength w = 0 := by
    rintro ⟨b, i⟩
    have h := residual_decm d v hv (b, i)
    obtain ⟨e0, e1, e2, e3⟩ := expected_decm_spec v (fun w => (hv.1 w).le) hv.2 i
    obtain ⟨a0, a1, a2, a3⟩ := hsol i
    refine (mul_eq_zero.1 (h.trans ?_)).resolve_left (hv.1 _).ne'
    fin_cases b
    · exact sub_eq_zero.2 ((e0.trans a0).symm ▸ by simp [DData.obs, DData.degOut])
    · exact sub_eq_zero.2 ((e1.trans a1).symm ▸ by simp [DData.obs, DData.degIn])
    · exact sub_eq_zero.2 ((e2.trans a2).symm ▸ by simp [DData.obs])
    · exact sub_eq_zero.2 ((e3.trans a3).symm ▸ by simp [DData.obs])
  have hst : ∀ q, HasDerivAt (fun t => LDECM d (Function.update v q t)) 0 (v q) := fun q => by
    have := decm_deriv d v hv q
    rwa [hgrad q] at this
  exact ⟨hg, hgrad, funext ((cbDECM_fixed e d hobs v hv).2 hst)⟩

/-- C53 (decm), partial: the fixed-point method needs `b_out b_in < 1` at each node, see `C53_decm_hangs`. -/
theorem C53_decm_kept_partial (h0 : ∀ i, d.dseq_out i ≠ 0 ∧ d.dseq_in i ≠ 0 ∧ d.out_strength i ≠ 0 ∧ d.in_strength i ≠ 0) (v : Fin 4 × Fin n → ℝ) (hv : AdmDECM v)
    (hii : me = .fixed_point → ∀ i, v (2, i) * v (3, i) < 1)
    (hsol : ∀ i, outDegDECM (fun i => v (0, i)) (fun i => v (1, i)) (fun i => v (2, i)) (fun i => v (3, i)) i = d.dseq_out i ∧
      inDegDECM (fun i => v (0, i)) (fun i => v (1, i)) (fun i => v (2, i)) (fun i => v (3, i)) i = d.dseq_in i ∧
      outStrDECM (fun i => v (0, i)) (fun i => v (1, i)) (fun i => v (2, i)) (fun i => v (3, i)) i = d.out_strength i ∧
      inStrDECM (fun i => v (0, i)) (fun i => v (1, i)) (fun i => v (2, i)) (fun i => v (3, i)) i = d.in_strength i) :
    let R := solve_tool_directed e g "decm" me.name (.quads v) adj ma ga p
    R.g.x = some (fun i => v (0, i)) ∧ R.g.y = some (fun i => v (1, i)) ∧ R.g.b_out = some (fun i => v (2, i)) ∧ R.g.b_in = some (fun i => v (3, i)) ∧ R.exc = none := by
  obtain ⟨hg, hgrad, hfix⟩ := decm_solution e h0 v hv hsol
  obtain ⟨s, hs, hsx⟩ : ∃ s, solver (cbDECM e d me) (p.opts me.name) v = .ok s ∧ s.x = v := by
    cases me with
    | fixed_point =>
      refine solver_fixed _ _ _ rfl ?_ hfix hp
      have hu : untilLoop (fun a => maxv (blk 2 (v + a • (0 : Fin 4 × Fin n → ℝ))) * maxv (blk 3 (v + a • (0 : Fin 4 × Fin n → ℝ))) < 1) 0.5
          (positivityStage' (blocks 4 n) v 0 1) ≠ none := by
        refine untilLoop_ne_none ?_
        simp only [smul_zero, add_zero]
        exact (maxv_mul_lt_one _ _ (fun i => (hv.1 _).le) (fun i => (hv.1 _).le)).2 fun i j => if h : i = j then h ▸ hii rfl i else hv.2 i j h
      simpa [cbDECM, linsearch_fun_DECM_fixed, Option.map_eq_none_iff] using hu
    | newton => exact ⟨_, solver_at_zero _ _ v (funext fun q => by simp [cbDECM, hgrad]) ht, rfl⟩
    | quasinewton => exact ⟨_, solver_at_zero _ _ v (funext fun q => by simp [cbDECM, hgrad]) ht, rfl⟩
  have hR := solve_tool_decm e g me (.quads v) adj ma ga p (Prod.ext hg rfl)
  simp only [hs] at hR
  refine ⟨(congrArg (fun r => r.g.x) hR).trans ((keepsD DAttr.x (fun _ => rfl) _).trans ?_), (congrArg (fun r => r.g.y) hR).trans ((keepsD DAttr.y (fun _ => rfl) _).trans ?_),
    (congrArg (fun r => r.g.b_out) hR).trans ((keepsD DAttr.b_out (fun _ => rfl) _).trans ?_), (congrArg (fun r => r.g.b_in) hR).trans ((keepsD DAttr.b_in (fun _ => rfl) _).trans ?_),
    (congrArg DResult.exc hR).trans ?_⟩
  iterate 4 simp [setSolvedDECM, hsx]
  simp [solutionErrorD, setSolvedDECM, preDECM, DModel.name]

end keptD

example (e : Env) (me : Method) : (solve_tool_directed e ({} : DAttr (regularD 3 1 1)) "dcm" me.name (.pairs fun _ => 1) (.name "cm_exp") "newton" (.name "random") {}).g.x = some fun _ => 1 := by
  have := (C53_dcm_kept e ({} : DAttr (regularD 3 1 1)) me (.name "cm_exp") "newton" (.name "random") {} (by norm_num) (by norm_num)
    (fun i => ⟨⟨i + 1, by fin_cases i <;> simp, by simp [regularD]⟩, ⟨i + 1, by fin_cases i <;> simp, by simp [regularD]⟩⟩) (fun _ => 1) (fun _ => 1)
    (fun i => by simp [regularD]) (fun i => by simp [regularD]) (fun _ _ _ _ => ⟨rfl, rfl⟩)
    (fun i => by fin_cases i <;> rw [outDBCM, Finset.sum_filter, Fin.sum_univ_three] <;> simp [linkDBCM, regularD, Finset.sum_filter, Fin.sum_univ_three] <;> norm_num)
    (fun i => by fin_cases i <;> rw [inDBCM, Finset.sum_filter, Fin.sum_univ_three] <;> simp [linkDBCM, regularD, Finset.sum_filter, Fin.sum_univ_three] <;> norm_num)).1
  simpa using this

example (e : Env) (me : Method) :
    (solve_tool_directed e ({} : DAttr (regularD 3 1 (25 / 16))) "decm" me.name (.quads fun w => if w.1 = 0 ∨ w.1 = 1 then 4 / 3 else 3 / 5) (.name "cm_exp") "newton" (.name "random") {}).g.x =
      some fun _ => 4 / 3 :=
  (C53_decm_kept_partial e _ me _ _ _ _ (by norm_num) (by norm_num) (fun i => by simp [regularD]) (fun w => if w.1 = 0 ∨ w.1 = 1 then 4 / 3 else 3 / 5)
    ⟨fun w => by dsimp only; split_ifs <;> norm_num, fun i j _ => by dsimp only; rw [if_neg (by decide), if_neg (by decide)]; norm_num⟩ (fun _ i => by dsimp only; rw [if_neg (by decide), if_neg (by decide)]; norm_num)
    (fun i => by rw [outDegDECM, inDegDECM, outStrDECM, inStrDECM]; simp only [Finset.sum_filter, Fin.sum_univ_three]; fin_cases i <;> simp [ linkDECM, weightDECM, regularD, Finset.sum_filter, Fin.sum_univ_three] <;> norm_num)).1

/-! ### a solution at which the fixed-point method of decm never returns -/

theorem solver_hangs {ι : Type} [Fintype ι] [DecidableEq ι] [Nonempty ι] (C : Callbacks ι) (o : Opts) (x0 : ι → ℝ) (hm : o.method = "fixed-point") (hl : o.linsearch = true)
    (hC : C.linsearchFixed x0 0 0 1 0.5 0 = none) (h : C.fn x0 = x0) (ht : o.tol < norm2 x0) (he : o.eps < 1) (h0 : 0 < o.max_steps) :
    solver C o x0 = .error .diverge := by
  unfold solver
  obtain ⟨k, hk⟩ := Nat.exists_eq_succ_of_ne_zero h0.ne'
  rw [hk, Nat.succ_eq_add_one, loop]
  have hd : direction C o (initState C x0).x (initState C x0).f = .ok 0 := by
    unfold direction
    simp [hm, initState, h]
  have hst : stepLength C o (initState C x0) 0 = .error .diverge := by
    unfold stepLength
    rw [if_neg (by simp [hm]), if_pos ⟨hl, hm⟩]
    have : C.linsearchFixed (initState C x0).x 0 (initState C x0).dx_old 1 0.5 (initState C x0).n_steps = none := hC
    rw [this]
  have hs : step C o (initState C x0) = .error .diverge := by
    unfold step
    rw [hd]
    simp only [hst]
  split_ifs with hc
  · rw [hs]
  · exact absurd (by simpa [initState, h] using ⟨ht, he⟩) hc

/-- C53: three nodes, each with one link out and in on average; the parameters below solve the equations of decm exactly, and newton returns them, but the
fixed-point method never returns because `b_out b_in > 1` at the same node. -/
theorem C53_decm_hangs (e : Env) :
    let d : DData 3 := ⟨fun _ => 1, fun _ => 1, fun i => if i = 0 then 4 else 8 / 3, fun i => if i = 0 then 4 else 8 / 3, true⟩
    let x : Fin 3 → ℝ := fun i => if i = 0 then 1 / 9 else 1
    let y : Fin 3 → ℝ := fun i => if i = 0 then 1 / 3 else 3
    let b : Fin 3 → ℝ := fun i => if i = 0 then 3 / 2 else 1 / 2
    let v : Fin 4 × Fin 3 → ℝ := fun w => if w.1 = 0 then x w.2 else if w.1 = 1 then y w.2 else b w.2
    (∀ i, outDegDECM x y b b i = d.dseq_out i ∧ inDegDECM x y b b i = d.dseq_in i ∧ outStrDECM x y b b i = d.out_strength i ∧ inStrDECM x y b b i = d.in_strength i) ∧
    (solve_tool_directed e ({} : DAttr d) "decm" "newton" (.quads v) (.name "dcm") "newton" (.name "random") {}).g.b_out = some b ∧
    (solve_tool_directed e ({} : DAttr d) "decm" "fixed-point" (.quads v) (.name "dcm") "newton" (.name "random") {}).exc = some (.numeric .diverge) := by
  intro d x y b v
  have hsol : ∀ i, outDegDECM x y b b i = d.dseq_out i ∧ inDegDECM x y b b i = d.dseq_in i ∧ outStrDECM x y b b i = d.out_strength i ∧ inStrDECM x y b b i = d.in_strength i := fun i => by
    rw [outDegDECM, inDegDECM, outStrDECM, inStrDECM]; simp only [Finset.sum_filter, Fin.sum_univ_three]
    fin_cases i <;> simp [linkDECM, weightDECM, d, x, y, b] <;> norm_num
  have h0 : ∀ i, d.dseq_out i ≠ 0 ∧ d.dseq_in i ≠ 0 ∧ d.out_strength i ≠ 0 ∧ d.in_strength i ≠ 0 := fun i => by
    refine ⟨by simp [d], by simp [d], ?_, ?_⟩ <;> dsimp only [d] <;> split_ifs <;> norm_num
  have hv : AdmDECM v := by
    refine ⟨fun w => ?_, fun i j hij => ?_⟩
    · dsimp only [v, x, y, b]; split_ifs <;> norm_num
    · change b i * b j < 1
      dsimp only [b]
      by_cases hi : i = 0
      · rw [if_pos hi, if_neg (fun hj => hij (hi.trans hj.symm))]; norm_num
      · rw [if_neg hi]; split_ifs <;> norm_num
  obtain ⟨hg, hgrad, hfix⟩ := decm_solution e h0 v hv hsol
  refine ⟨hsol, (C53_decm_kept_partial e _ .newton _ _ _ _ (by norm_num) (by norm_num) h0 v hv (by simp) hsol).2.2.1, ?_⟩
  have hR := solve_tool_decm e ({} : DAttr d) .fixed_point (.quads v) (.name "dcm") "newton" (.name "random") {} (Prod.ext hg rfl)
  have hs : solver (cbDECM e d .fixed_point) (({} : Params).opts Method.fixed_point.name) v = .error .diverge := by
    refine solver_hangs _ _ _ rfl rfl ?_ hfix ?_ (show (1e-8 : ℝ) < 1 by norm_num) (show 0 < 100 by norm_num)
    · have hu : untilLoop (fun a => maxv (blk 2 (v + a • (0 : Fin 4 × Fin 3 → ℝ))) * maxv (blk 3 (v + a • (0 : Fin 4 × Fin 3 → ℝ))) < 1) 0.5
          (positivityStage' (blocks 4 3) v 0 1) = none := by
        refine untilLoop_none.2 fun k hk => ?_
        simp only [smul_zero, add_zero] at hk
        have := (maxv_mul_lt_one (blk 2 v) (blk 3 v) (fun i => (hv.1 (2, i)).le) (fun i => (hv.1 (3, i)).le)).1 hk 0 0
        have e2 : blk 2 v 0 = b 0 := rfl
        have e3 : blk 3 v 0 = b 0 := rfl
        rw [e2, e3] at this
        norm_num [b] at this
      simpa [cbDECM, linsearch_fun_DECM_fixed, Option.map_eq_none_iff] using hu
    · have h1 : |v (0, 1)| ≤ norm2 v := abs_le_norm2 v (0, 1)
      have h2 : v (0, 1) = 1 := by simp [v, x]
      rw [h2, abs_one] at h1
      exact lt_of_lt_of_le (show (1e-8 : ℝ) < 1 by norm_num) h1
  simp only [hs] at hR
  exact congrArg (fun r => r.exc) hR

end Verif.Solve
