import Verif.Lemmas.Units
import Verif.Props.Symmetric
import Verif.Lemmas.EMModels

/-!
C76: the unit in which the weights are measured does not matter to CReMa on a given network.
-/

set_option linter.unusedSectionVars false

namespace Verif.Solve

open Verif Finset Reduction Solver Spec

noncomputable section

open Classical in
attribute [local instance 0] propDecidable

variable {n : ℕ} [NeZero n]

/-- the same options, with the tolerances of the rates in the other unit (a rate is one over a weight) -/
structure OptionsInUnit (u : ℝ) (p p' : Params) : Prop where
  max_steps : p'.max_steps = p.max_steps
  full_return : p'.full_return = p.full_return
  linsearch : p'.linsearch = p.linsearch
  tol : p'.tol = p.tol / u
  eps : p'.eps = p.eps / u
  start : (1 : ℝ) > p.eps ↔ (1 : ℝ) > p'.eps

theorem OptionsInUnit.run {u : ℝ} (hu : 0 < u) {p p' : Params} (hp : OptionsInUnit u p p') {ι : Type} [Fintype ι] [DecidableEq ι] [Nonempty ι] {C C' : Callbacks ι}
    (h : ScaledFixed u⁻¹ C C') (x0 : ι → ℝ) :
    solver C' (p'.opts Method.fixed_point.name) (u⁻¹ • x0) = (solver C (p.opts Method.fixed_point.name) x0).map (State.scale u⁻¹) := by
  have e1 : p'.eps = u⁻¹ * p.eps := by rw [hp.eps, div_eq_inv_mul]
  exact solver_scale (inv_pos.2 hu) h rfl rfl hp.linsearch hp.max_steps (by show p'.tol = u⁻¹ * p.tol; rw [hp.tol, div_eq_inv_mul]) e1
    (by show (1 : ℝ) > p.eps ↔ (1 : ℝ) > u⁻¹ * p.eps; rw [← e1]; exact hp.start) x0

theorem isMaxAbs_smul {ι : Type} {f g : ι → ℝ} {E E' u : ℝ} (hu : 0 < u) (h : IsMaxAbs E f) (h' : IsMaxAbs E' g) (e : ∀ i, g i = u * f i) : E' = u * E := by
  have k : ∀ i, |g i| = u * |f i| := fun i => by rw [e, abs_mul, abs_of_pos hu]
  obtain ⟨i, hi⟩ := h.2
  obtain ⟨j, hj⟩ := h'.2
  refine le_antisymm ?_ ?_
  · rw [← hj, k]; exact mul_le_mul_of_nonneg_left (h.1 j) hu.le
  · rw [← hi, ← k]; exact h'.1 i

/-! ### guesses -/

theorem named_scale {u : ℝ} (hu : 0 < u) (s : Fin n → ℝ) (i : Fin n) :
    maskSet (fun i => (if u * s i > 0 then 1 else 0) / ∑ j, u * s j) (fun i => u * s i = 0) 0 i = u⁻¹ * maskSet (fun i => (if s i > 0 then 1 else 0) / ∑ j, s j) (fun i => s i = 0) 0 i := by
  simp only [maskSet, ← mul_sum, mul_eq_zero, hu.ne', false_or]
  by_cases h0 : s i = 0
  · simp [h0]
  · have : u * s i > 0 ↔ s i > 0 := mul_pos_iff_of_pos_left hu
    simp only [if_neg h0, this]
    rw [div_mul_eq_div_div_swap, div_eq_inv_mul _ u]

theorem mask_scale {u : ℝ} (hu : 0 < u) (s v : Fin n → ℝ) (i : Fin n) : maskSet (fun i => v i / u) (fun i => u * s i = 0) 0 i = u⁻¹ * maskSet v (fun i => s i = 0) 0 i := by
  simp only [maskSet, mul_eq_zero, hu.ne', false_or]
  by_cases h0 : s i = 0
  · simp [h0]
  · simp [h0, div_eq_inv_mul]

/-! ### undirected -/

section undirected
variable {d d' : UData n} {u : ℝ} {a : Fin n → Fin n → ℝ}

theorem crema_iter_scale (hu : 0 < u) {s : Fin n → ℝ} (hs : ∀ i j, a i j ≠ 0 → s i ≠ 0 ∧ s j ≠ 0) (β : Fin n → ℝ) (m : Fin n) :
    CReMa.iterative_crema_undirected (u⁻¹ • β) (fun i => u * s i) (triuEdges a) m = u⁻¹ * CReMa.iterative_crema_undirected β s (triuEdges a) m := by
  rw [CReMa.iter_eq, CReMa.iter_eq]
  have r : ∀ i j : Fin n, (u⁻¹ • β) i / (u⁻¹ • β) j = β i / β j := fun i j => mul_div_mul_left _ _ (inv_pos.2 hu).ne'
  simp only [r]
  by_cases h0 : s m = 0
  · have z : ((triuEdges a).map fun e => (if m = e.1 then -(e.2.2 / (1 + (β e.2.1 / β e.1))) else 0) + if m = e.2.1 then -(e.2.2 / (1 + (β e.1 / β e.2.1))) else 0).sum = 0 := by
      refine List.sum_eq_zero fun q hq => ?_
      simp only [triuEdges, List.mem_map, List.mem_filter] at hq
      obtain ⟨t, ⟨w, ⟨-, hw⟩, rfl⟩, rfl⟩ := hq
      have hw' : a w.1 w.2 ≠ 0 := by simp at hw; exact hw.2
      obtain ⟨k1, k2⟩ := hs _ _ hw'
      simp only
      rw [if_neg (fun h : m = w.1 => k1 (h ▸ h0)), if_neg (fun h : m = w.2 => k2 (h ▸ h0)), add_zero]
    rw [z]
    simp [h0]
  · rw [if_pos h0, if_pos (mul_ne_zero hu.ne' h0)]
    field_simp

theorem scaled_crema (e : Env) (hu : 0 < u) (hd : d'.strength_sequence = fun i => u * d.strength_sequence i)
    (hs : ∀ i j, a i j ≠ 0 → d.strength_sequence i ≠ 0 ∧ d.strength_sequence j ≠ 0) (e' : Env) :
    ScaledFixed u⁻¹ (cbCrema e d (triuEdges a) .fixed_point) (cbCrema e' d' (triuEdges a) .fixed_point) where
  fn x := by
    funext m
    show -CReMa.iterative_crema_undirected _ _ _ m = u⁻¹ * -CReMa.iterative_crema_undirected _ _ _ m
    rw [hd, crema_iter_scale hu hs]
    ring
  search x dx dx_old α β k := congrArg some (normStage_scale (inv_pos.2 hu) dx dx_old α β k)

/-- initial rates in the other unit -/
inductive GuessInUnit (u : ℝ) : Guess n → Guess n → Prop
  | strengths : GuessInUnit u (.name "strengths") (.name "strengths")
  | nodes (v : Fin n → ℝ) : GuessInUnit u (.nodes v) (.nodes fun i => v i / u)

theorem guessCrema_scale (e e' : Env) (hu : 0 < u) (hd : d'.strength_sequence = fun i => u * d.strength_sequence i) {guess guess' : Guess n} (hg : GuessInUnit u guess guess') :
    ∃ b w w', guessCrema e d guess = (.ok b, w) ∧ guessCrema e' d' guess' = (.ok (u⁻¹ • b), w') := by
  cases hg with
  | strengths =>
    refine ⟨_, _, .name "strengths", rfl, ?_⟩
    unfold guessCrema namedCrema
    simp only [if_true, Prod.mk.injEq, Except.ok.injEq]
    refine ⟨?_, trivial⟩
    funext i
    rw [hd]
    exact named_scale hu d.strength_sequence i
  | nodes v =>
    refine ⟨_, _, .nodes (maskSet (fun i => v i / u) (fun i => d'.strength_sequence i = 0) 0), rfl, ?_⟩
    unfold guessCrema
    simp only [Prod.mk.injEq, Except.ok.injEq]
    refine ⟨?_, trivial⟩
    funext i
    rw [hd]
    exact mask_scale hu d.strength_sequence v i

/-- C76 (crema, fixed point, on a given symmetric matrix without self-loops whose links join nodes of non-zero strength): with the weights measured in another unit - all
strengths multiplied by `u`, rates (guess and tolerances) divided by `u` - the run is the same step for step: both succeed, same number of steps and step lengths, rates
divided by `u`, expected strengths and errors multiplied by `u`. -/
theorem C76_crema_fixed_point (hu : 0 < u) (hd : d'.strength_sequence = fun i => u * d.strength_sequence i) (hsym : ∀ i j, a i j = a j i) (hdiag : ∀ i, a i i = 0)
    (hs : ∀ i j, a i j ≠ 0 → d.strength_sequence i ≠ 0) (e e' : Env) (g : UAttr d) (g' : UAttr d') {guess guess' : Guess n} (hg : GuessInUnit u guess guess')
    (ma ma' : String) (ga ga' : Guess n) {p p' : Params} (hp : OptionsInUnit u p p') :
    let R := solve_tool e g "crema" "fixed-point" guess (.matrix a) ma ga p
    let R' := solve_tool e' g' "crema" "fixed-point" guess' (.matrix a) ma' ga' p'
    R.exc = none ∧ R'.exc = none ∧ ∃ β ex E, R.g.beta = some β ∧ R'.g.beta = some (fun i => β i / u) ∧
      R.g.expected_stregth_seq = some ex ∧ R'.g.expected_stregth_seq = some (fun i => u * ex i) ∧
      R.g.error_strength = some E ∧ R'.g.error_strength = some (u * E) ∧
      (p.full_return = true → ∃ t t', R.g.trace_crema = some t ∧ R'.g.trace_crema = some t' ∧ t'.n_steps = t.n_steps ∧ t'.alfa_seq = t.alfa_seq ∧
        t'.norm_seq = t.norm_seq.map (· / u)) := by
  intro R R'
  obtain ⟨b, w, w', h0, h0'⟩ := guessCrema_scale e e' hu hd hg
  have he := solve_tool_crema_matrix e g .fixed_point guess a ma ga p h0
  have he' := solve_tool_crema_matrix e' g' .fixed_point guess' a ma' ga' p' h0'
  simp only at he he'
  rw [hp.run hu (scaled_crema e hu hd (fun i j hij => ⟨hs i j hij, hs j i (by rwa [hsym])⟩) e') b] at he'
  have hex : ∀ {d : UData n} (e : Env) (G : UAttr d) (l : Edges n), G.last_model = some "crema" → G.adjacency_crema = some (.edges l) → G.adjacency_given = some true →
      G.is_sparse = false → (solutionError e G).2 = none := by
    intro d e G l k1 k2 k3 k4
    unfold solutionError
    rw [if_pos (by rw [k1]; decide)]
    have k := degreeError_keeps G
    unfold strengthError
    cases (degreeError G).beta with
    | none => rfl
    | some β => simp only [k.2.2.2.2.2.2.2.2.2.1, k.2.2.2.2.2.2.2.2.2.2.2, k.2.2.2.2.2.2.2.2.2.2.1, k2, k3, k4, Bool.false_eq_true, if_false]
  cases hsv : solver (cbCrema e d (triuEdges a) .fixed_point) (p.opts Method.fixed_point.name) b with
  | error x =>
    obtain ⟨s, hs'⟩ := fixed_total (C := cbCrema e d (triuEdges a) .fixed_point) (o := p.opts Method.fixed_point.name) (fun _ _ _ _ _ _ => ⟨_, rfl⟩) rfl b
    rw [hsv] at hs'
    cases hs'
  | ok s =>
    rw [hsv] at he he'
    simp only [Except.map] at he'
    have n1 : R.exc = none := by rw [show R = _ from he]; exact hex e _ _ rfl rfl rfl rfl
    have n2 : R'.exc = none := by rw [show R' = _ from he']; exact hex e' _ _ rfl rfl rfl rfl
    refine ⟨n1, n2, ?_⟩
    obtain ⟨β, E, r, q1, q2, -, q4, -, q6, -⟩ := C54_crema_matrix_partial e g .fixed_point guess a hsym hdiag ma ga p n1
    obtain ⟨β', E', r', q1', q2', -, q4', -, q6', -⟩ := C54_crema_matrix_partial e' g' .fixed_point guess' a hsym hdiag ma' ga' p' n2
    have b1 : R.g.beta = some s.x := by rw [show R = _ from he]; exact (solutionError_keeps e _).2.2.1
    have b2 : R'.g.beta = some (u⁻¹ • s.x) := by rw [show R' = _ from he']; exact (solutionError_keeps e' _).2.2.1
    have c1 : β = s.x := Option.some.inj (q1.symm.trans b1)
    have c2 : β' = u⁻¹ • s.x := Option.some.inj (q1'.symm.trans b2)
    have c3 : ∀ i, strCReMa a β' i = u * strCReMa a β i := fun i => by
      unfold strCReMa
      rw [mul_sum]
      refine sum_congr rfl fun j _ => ?_
      rw [c1, c2, Pi.smul_apply, Pi.smul_apply, smul_eq_mul, smul_eq_mul, ← mul_add, div_mul_eq_div_div, div_inv_eq_mul, mul_comm (a i j), mul_div_assoc]
    refine ⟨β, strCReMa a β, E, q1, ?_, q2, ?_, q4, ?_, fun hf => ?_⟩
    · refine q1'.trans (congrArg some ?_)
      rw [c2, c1]
      funext i
      exact (div_eq_inv_mul _ _).symm
    · exact q2'.trans (congrArg some (funext c3))
    · refine q4'.trans (congrArg some (isMaxAbs_smul hu q6 q6' fun i => ?_))
      rw [c3, hd]
      ring
    · refine ⟨.of s, .of (s.scale u⁻¹), ?_, ?_, rfl, rfl, ?_⟩
      · rw [show R = _ from he]
        refine ((solutionError_keeps e _).2.2.2.2.2.1).trans ?_
        simp [setSolvedCrema, hf]
      · rw [show R' = _ from he']
        refine ((solutionError_keeps e' _).2.2.2.2.2.1).trans ?_
        simp [setSolvedCrema, hp.full_return, hf]
      · simp [Trace.of, State.scale, div_eq_inv_mul]

end undirected

/-! ### directed -/

section directed
variable {d d' : DData n} {u : ℝ} {a : Fin n → Fin n → ℝ}

/-- the same network with its weights in the other unit -/
structure DataInUnit (u : ℝ) (d d' : DData n) : Prop where
  out_strength : d'.out_strength = fun i => u * d.out_strength i
  in_strength : d'.in_strength = fun i => u * d.in_strength i

/-- initial rates in the other unit -/
inductive DGuessInUnit (u : ℝ) : DGuess n → DGuess n → Prop
  | strengths : DGuessInUnit u (.name "strengths") (.name "strengths")
  | pairs (v : Fin 2 × Fin n → ℝ) : DGuessInUnit u (.pairs v) (.pairs fun w => v w / u)

theorem scaled_dcrema (e e' : Env) (hu : 0 < u) (hd : DataInUnit u d d') (hs : ∀ i j, a i j ≠ 0 → d.out_strength i ≠ 0 ∧ d.in_strength j ≠ 0) :
    ScaledFixed u⁻¹ (cbDCrema e d (nzEdges a) .fixed_point) (cbDCrema e' d' (nzEdges a) .fixed_point) where
  fn x := by
    have r : ∀ i j : Fin 2 × Fin n, (u⁻¹ • x) i / (u⁻¹ • x) j = x i / x j := fun i j => mul_div_mul_left _ _ (inv_pos.2 hu).ne'
    have edge : ∀ t ∈ nzEdges a, d.out_strength t.1 ≠ 0 ∧ d.in_strength t.2.1 ≠ 0 := fun t ht => by
      simp only [nzEdges, List.mem_map, List.mem_filter] at ht
      obtain ⟨w, ⟨-, hw⟩, rfl⟩ := ht
      exact hs _ _ (by simpa using hw)
    refine funext (EM.forall_pair.2 ⟨fun m => ?_, fun m => ?_⟩)
    · show -DCReMa.iterative_crema_directed _ _ _ _ _ _ (0, m) = u⁻¹ * -DCReMa.iterative_crema_directed _ _ _ _ _ _ (0, m)
      rw [DCReMa.iter_eq0 _ _ _ _ _ _ (DCM.nodup_nonzero _), DCReMa.iter_eq0 _ _ _ _ _ _ (DCM.nodup_nonzero _)]
      simp only [r, DCM.mem_nonzero, hd.out_strength, mul_ne_zero_iff, ne_eq, hu.ne', not_false_eq_true, true_and]
      by_cases h0 : d.out_strength m = 0
      · rw [List.sum_eq_zero]
        · simp [h0]
        · intro q hq
          obtain ⟨t, ht, rfl⟩ := List.mem_map.1 hq
          exact if_neg fun h : m = t.1 => (edge t ht).1 (h ▸ h0)
      · rw [if_pos h0, if_pos h0]
        field_simp
    · show -DCReMa.iterative_crema_directed _ _ _ _ _ _ (1, m) = u⁻¹ * -DCReMa.iterative_crema_directed _ _ _ _ _ _ (1, m)
      rw [DCReMa.iter_eq1 _ _ _ _ _ _ (DCM.nodup_nonzero _), DCReMa.iter_eq1 _ _ _ _ _ _ (DCM.nodup_nonzero _)]
      simp only [r, DCM.mem_nonzero, hd.in_strength, mul_ne_zero_iff, ne_eq, hu.ne', not_false_eq_true, true_and]
      by_cases h0 : d.in_strength m = 0
      · rw [List.sum_eq_zero]
        · simp [h0]
        · intro q hq
          obtain ⟨t, ht, rfl⟩ := List.mem_map.1 hq
          exact if_neg fun h : m = t.2.1 => (edge t ht).2 (h ▸ h0)
      · rw [if_pos h0, if_pos h0]
        field_simp
  search x dx dx_old α β k := congrArg some (normStage_scale (inv_pos.2 hu) dx dx_old α β k)

theorem guessDCrema_scale (e e' : Env) (hu : 0 < u) (hd : DataInUnit u d d') {guess guess' : DGuess n} (hg : DGuessInUnit u guess guess') :
    ∃ bo bi w w', guessDCrema e d guess = (.ok (bo, bi), w) ∧ guessDCrema e' d' guess' = (.ok (u⁻¹ • bo, u⁻¹ • bi), w') := by
  cases hg with
  | strengths =>
    refine ⟨_, _, _, .name "strengths", rfl, ?_⟩
    unfold guessDCrema namedDCrema
    simp only [if_true, Prod.mk.injEq, Except.ok.injEq, hd.out_strength, hd.in_strength]
    exact ⟨⟨funext (named_scale hu d.out_strength), funext (named_scale hu d.in_strength)⟩, trivial⟩
  | pairs v =>
    refine ⟨_, _, _, (guessDCrema e' d' (.pairs fun w => v w / u)).2, rfl, Prod.ext ?_ rfl⟩
    unfold guessDCrema
    simp only [Prod.mk.injEq, Except.ok.injEq, hd.out_strength, hd.in_strength]
    exact ⟨funext (mask_scale hu d.out_strength fun i => v (0, i)), funext (mask_scale hu d.in_strength fun i => v (1, i))⟩

theorem outStr_scale (u : ℝ) (a : Fin n → Fin n → ℝ) (bo bi : Fin n → ℝ) (i : Fin n) : outStrCReMa a (fun i => bo i / u) (fun i => bi i / u) i = u * outStrCReMa a bo bi i := by
  unfold outStrCReMa
  rw [mul_sum]
  exact sum_congr rfl fun j _ => by rw [← add_div, div_div_eq_mul_div, mul_comm (a i j), mul_div_assoc]

theorem inStr_scale (u : ℝ) (a : Fin n → Fin n → ℝ) (bo bi : Fin n → ℝ) (i : Fin n) : inStrCReMa a (fun i => bo i / u) (fun i => bi i / u) i = u * inStrCReMa a bo bi i := by
  unfold inStrCReMa
  rw [mul_sum]
  exact sum_congr rfl fun j _ => by rw [← add_div, div_div_eq_mul_div, mul_comm (a _ _), mul_div_assoc]

/-- C76 (directed crema, fixed point, on a given matrix whose arcs leave nodes of non-zero out-strength and enter nodes of non-zero in-strength). -/
theorem C76_dcrema_fixed_point (hu : 0 < u) (hd : DataInUnit u d d') (hz : d.nz_known = true) (hz' : d'.nz_known = true)
    (hs : ∀ i j, a i j ≠ 0 → d.out_strength i ≠ 0 ∧ d.in_strength j ≠ 0) (e e' : Env) (g : DAttr d) (g' : DAttr d') {guess guess' : DGuess n}
    (hg : DGuessInUnit u guess guess') (ma ma' : String) (ga ga' : DGuess n) {p p' : Params} (hp : OptionsInUnit u p p') :
    let R := solve_tool_directed e g "crema" "fixed-point" guess (.matrix a) ma ga p
    let R' := solve_tool_directed e' g' "crema" "fixed-point" guess' (.matrix a) ma' ga' p'
    R.exc = none ∧ R'.exc = none ∧ ∃ bo bi ex E, R.g.b_out = some bo ∧ R'.g.b_out = some (fun i => bo i / u) ∧
      R.g.b_in = some bi ∧ R'.g.b_in = some (fun i => bi i / u) ∧
      R.g.expected_stregth_seq = some ex ∧ R'.g.expected_stregth_seq = some (fun v => u * ex v) ∧
      R.g.error_strength = some E ∧ R'.g.error_strength = some (u * E) ∧
      (p.full_return = true → ∃ t t', R.g.trace_crema = some t ∧ R'.g.trace_crema = some t' ∧ t'.n_steps = t.n_steps ∧ t'.alfa_seq = t.alfa_seq ∧
        t'.norm_seq = t.norm_seq.map (· / u)) := by
  intro R R'
  obtain ⟨bo, bi, w, w', h0, h0'⟩ := guessDCrema_scale e e' hu hd hg
  have he := solve_tool_dcrema_matrix e g hz .fixed_point guess a ma ga p h0
  have he' := solve_tool_dcrema_matrix e' g' hz' .fixed_point guess' a ma' ga' p' h0'
  simp only at he he'
  rw [show cat2 (u⁻¹ • bo) (u⁻¹ • bi) = u⁻¹ • cat2 bo bi from funext fun v => by simp only [cat2, Pi.smul_apply]; split_ifs <;> rfl,
    hp.run hu (scaled_dcrema e e' hu hd hs) (cat2 bo bi)] at he'
  cases hsv : solver (cbDCrema e d (nzEdges a) .fixed_point) (p.opts Method.fixed_point.name) (cat2 bo bi) with
  | error x =>
    obtain ⟨s, hs'⟩ := fixed_total (C := cbDCrema e d (nzEdges a) .fixed_point) (o := p.opts Method.fixed_point.name) (fun _ _ _ _ _ _ => ⟨_, rfl⟩) rfl (cat2 bo bi)
    rw [hsv] at hs'
    cases hs'
  | ok s =>
    rw [hsv] at he he'
    simp only [Except.map] at he'
    have n1 : R.exc = none := by rw [show R = _ from he]; exact ((error_dcrema _ rfl a rfl rfl rfl rfl).1 rfl).1
    have n2 : R'.exc = none := by rw [show R' = _ from he']; exact ((error_dcrema _ rfl a rfl rfl rfl rfl).1 rfl).1
    refine ⟨n1, n2, ?_⟩
    obtain ⟨co, ci, E, r, q1, q1i, q2, -, q4, -, q6, -⟩ := C54_dcrema_matrix_partial e g hz .fixed_point guess a ma ga p n1
    obtain ⟨co', ci', E', r', q1', q1i', q2', -, q4', -, q6', -⟩ := C54_dcrema_matrix_partial e' g' hz' .fixed_point guess' a ma' ga' p' n2
    have b1 : R.g.b_out = some fun i => s.x (0, i) := by rw [show R = _ from he]; exact keepsD DAttr.b_out (fun _ => rfl) _
    have b2 : R'.g.b_out = some fun i => u⁻¹ * s.x (0, i) := by rw [show R' = _ from he']; exact keepsD DAttr.b_out (fun _ => rfl) _
    have b3 : R.g.b_in = some fun i => s.x (1, i) := by rw [show R = _ from he]; exact keepsD DAttr.b_in (fun _ => rfl) _
    have b4 : R'.g.b_in = some fun i => u⁻¹ * s.x (1, i) := by rw [show R' = _ from he']; exact keepsD DAttr.b_in (fun _ => rfl) _
    have c1 : co' = fun i => co i / u := by
      rw [Option.some.inj (q1.symm.trans b1), Option.some.inj (q1'.symm.trans b2)]
      exact funext fun i => (div_eq_inv_mul _ _).symm
    have c2 : ci' = fun i => ci i / u := by
      rw [Option.some.inj (q1i.symm.trans b3), Option.some.inj (q1i'.symm.trans b4)]
      exact funext fun i => (div_eq_inv_mul _ _).symm
    subst c1 c2
    have c3 : ∀ v, outIn (outStrCReMa a (fun i => co i / u) fun i => ci i / u) (inStrCReMa a (fun i => co i / u) fun i => ci i / u) v =
        u * outIn (outStrCReMa a co ci) (inStrCReMa a co ci) v := fun v => by
      unfold outIn
      split_ifs
      · exact outStr_scale _ _ _ _ _
      · exact inStr_scale _ _ _ _ _
    refine ⟨co, ci, _, E, q1, q1', q1i, q1i', q2, q2'.trans (congrArg some (funext c3)), q4, ?_, fun hf => ?_⟩
    · refine q4'.trans (congrArg some (isMaxAbs_smul hu q6 q6' fun v => ?_))
      rw [c3, hd.out_strength, hd.in_strength]
      unfold outIn
      split_ifs <;> ring
    · refine ⟨.of s, .of (s.scale u⁻¹), ?_, ?_, rfl, rfl, ?_⟩
      · rw [show R = _ from he]
        refine (keepsD DAttr.trace_crema (fun _ => rfl) _).trans ?_
        simp [setSolvedDCrema, preDCrema, hf]
      · rw [show R' = _ from he']
        refine (keepsD DAttr.trace_crema (fun _ => rfl) _).trans ?_
        simp [setSolvedDCrema, preDCrema, hp.full_return, hf]
      · simp [Trace.of, State.scale, div_eq_inv_mul]

/-- C76 (directed crema, every method, guess and option): solved in two units, the rates of the arcs - in the same unit - nearly agree, by the errors of the two answers, and
agree if both errors vanish. -/
theorem C76_dcrema (hu : 0 < u) (hd : DataInUnit u d d') (hz : d.nz_known = true) (hz' : d'.nz_known = true) (h0 : ∀ i j, 0 ≤ a i j) (e e' : Env) (g : DAttr d) (g' : DAttr d')
    (me me' : Method) (guess guess' : DGuess n) (ma ma' : String) (ga ga' : DGuess n) (p p' : Params) :
    let R := solve_tool_directed e g "crema" me.name guess (.matrix a) ma ga p
    let R' := solve_tool_directed e' g' "crema" me'.name guess' (.matrix a) ma' ga' p'
    R.exc = none → R'.exc = none → ∃ bo bi bo' bi' E E', R.g.b_out = some bo ∧ R.g.b_in = some bi ∧ R'.g.b_out = some bo' ∧ R'.g.b_in = some bi' ∧
      R.g.error_strength = some E ∧ R'.g.error_strength = some E' ∧
      ((∀ i j, a i j ≠ 0 → 0 < bo i + bi j ∧ 0 < bo' i + bi' j) →
        ∑ i, ∑ j, a i j * (bo i + bi j - u * (bo' i + bi' j)) ^ 2 / ((bo i + bi j) * (u * (bo' i + bi' j))) ≤
          (E + E' / u) * (∑ i, |bo i - u * bo' i| + ∑ i, |bi i - u * bi' i|) ∧
        (E = 0 → E' = 0 → ∀ i j, a i j ≠ 0 → bo i + bi j = u * (bo' i + bi' j))) := by
  intro R R' h h'
  obtain ⟨bo, bi, E, r, h1, h2, -, -, h4, -, h6, -⟩ := C54_dcrema_matrix_partial e g hz me guess a ma ga p h
  obtain ⟨bo', bi', E', r', h1', h2', -, -, h4', -, h6', -⟩ := C54_dcrema_matrix_partial e' g' hz' me' guess' a ma' ga' p' h'
  refine ⟨bo, bi, bo', bi', E, E', h1, h2, h1', h2', h4, h4', fun hp => ?_⟩
  have oo : ∀ i, outStrCReMa a bo' bi' i = u * outStrCReMa a (fun i => u * bo' i) (fun i => u * bi' i) i := fun i => by
    rw [← outStr_scale]; simp only [mul_div_cancel_left₀ _ hu.ne']
  have ii : ∀ i, inStrCReMa a bo' bi' i = u * inStrCReMa a (fun i => u * bo' i) (fun i => u * bi' i) i := fun i => by
    rw [← inStr_scale]; simp only [mul_div_cancel_left₀ _ hu.ne']
  have down : ∀ {x y : ℝ}, |u * x - u * y| ≤ E' → |x - y| ≤ E' / u := fun {x y} hxy => by
    rw [← mul_sub, abs_mul, abs_of_pos hu] at hxy
    rwa [le_div_iff₀ hu, mul_comm]
  have hg := dcrema_gap h0 (bo := bo) (bi := bi) (bo' := fun i => u * bo' i) (bi' := fun i => u * bi' i) (E := E + E' / u)
    (fun i => two_near (k := d.out_strength i) (by simpa [outIn] using h6.1 (0, i)) (down (by have := h6'.1 (0, i); simp only [outIn, if_true, hd.out_strength, oo] at this; exact this)))
    (fun i => two_near (k := d.in_strength i) (by simpa [outIn] using h6.1 (1, i)) (down (by
      have := h6'.1 (1, i)
      simp only [outIn, one_ne_zero, if_false, hd.in_strength, ii] at this
      exact this)))
    (fun i j hij => ⟨(hp i j hij).1, by rw [← mul_add]; exact mul_pos hu (hp i j hij).2⟩)
  simp only [← mul_add] at hg
  exact ⟨hg.1, fun x y => hg.2 (by rw [x, y]; simp)⟩

end directed

section undirected
variable {d d' : UData n} {u : ℝ} {a : Fin n → Fin n → ℝ}

/-- C76 (crema, every method, guess and option). -/
theorem C76_crema (hu : 0 < u) (hd : d'.strength_sequence = fun i => u * d.strength_sequence i) (hsym : ∀ i j, a i j = a j i) (hdiag : ∀ i, a i i = 0) (h0 : ∀ i j, 0 ≤ a i j)
    (e e' : Env) (g : UAttr d) (g' : UAttr d') (me me' : Method) (guess guess' : Guess n) (ma ma' : String) (ga ga' : Guess n) (p p' : Params) :
    let R := solve_tool e g "crema" me.name guess (.matrix a) ma ga p
    let R' := solve_tool e' g' "crema" me'.name guess' (.matrix a) ma' ga' p'
    R.exc = none → R'.exc = none → ∃ β β' E E', R.g.beta = some β ∧ R'.g.beta = some β' ∧ R.g.error_strength = some E ∧ R'.g.error_strength = some E' ∧
      ((∀ i j, a i j ≠ 0 → 0 < β i + β j ∧ 0 < β' i + β' j) →
        ∑ i, ∑ j, a i j * (β i + β j - u * (β' i + β' j)) ^ 2 / ((β i + β j) * (u * (β' i + β' j))) ≤ 2 * (E + E' / u) * ∑ i, |β i - u * β' i| ∧
        (E = 0 → E' = 0 → ∀ i j, a i j ≠ 0 → β i + β j = u * (β' i + β' j))) := by
  intro R R' h h'
  obtain ⟨β, E, r, h1, -, -, h4, -, h6, -⟩ := C54_crema_matrix_partial e g me guess a hsym hdiag ma ga p h
  obtain ⟨β', E', r', h1', -, -, h4', -, h6', -⟩ := C54_crema_matrix_partial e' g' me' guess' a hsym hdiag ma' ga' p' h'
  refine ⟨β, β', E, E', h1, h1', h4, h4', fun hp => ?_⟩
  have out : ∀ (β : Fin n → ℝ) i, outStrCReMa a β β i = strCReMa a β i := fun β i => by
    unfold outStrCReMa strCReMa
    rw [sum_filter]
    refine sum_congr rfl fun j _ => ?_
    by_cases hij : j = i
    · subst hij; simp [hdiag]
    · rw [if_pos hij]
  have inn : ∀ (β : Fin n → ℝ) i, inStrCReMa a β β i = strCReMa a β i := fun β i => by
    rw [← out]
    exact sum_congr rfl fun j _ => by rw [hsym, add_comm]
  have oo : ∀ i, strCReMa a β' i = u * strCReMa a (fun i => u * β' i) i := fun i => by
    rw [← out, ← out, ← outStr_scale]; simp only [mul_div_cancel_left₀ _ hu.ne']
  have down : ∀ {x y : ℝ}, |u * x - u * y| ≤ E' → |x - y| ≤ E' / u := fun {x y} hxy => by
    rw [← mul_sub, abs_mul, abs_of_pos hu] at hxy
    rwa [le_div_iff₀ hu, mul_comm]
  have nr : ∀ i, |strCReMa a β i - strCReMa a (fun i => u * β' i) i| ≤ E + E' / u := fun i =>
    two_near (k := d.strength_sequence i) (h6.1 i) (down (by have := h6'.1 i; simp only [oo, hd] at this; exact this))
  have hg := dcrema_gap h0 (bo := β) (bi := β) (bo' := fun i => u * β' i) (bi' := fun i => u * β' i) (E := E + E' / u)
    (fun i => by rw [out, out]; exact nr i) (fun i => by rw [inn, inn]; exact nr i)
    (fun i j hij => ⟨(hp i j hij).1, by rw [← mul_add]; exact mul_pos hu (hp i j hij).2⟩)
  simp only [← mul_add, ← two_mul] at hg
  exact ⟨hg.1.trans (le_of_eq (by ring)), fun x y => hg.2 (by rw [x, y]; simp)⟩

end undirected

end

end Verif.Solve
