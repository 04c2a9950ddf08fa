import Verif.Lemmas.Checked2
import Verif.Props.Checked
import Verif.Props.CremaFixed
import Verif.Props.CremaLaw2

/-! C79 for CReMa: when the weighted half of `solve_tool` ends with `ZeroDivisionError`. -/

set_option linter.unusedSectionVars false

namespace Verif.Checked

open Verif Finset Reduction Solver Spec Solve CReMa DCReMa

noncomputable section

open Classical in
attribute [local instance 0] propDecidable

variable {n : ℕ} [NeZero n]

/-- a step of the fixed-point method of CReMa keeps the rates good -/
theorem recipe_step {ι : Type} [Fintype ι] [DecidableEq ι] [Nonempty ι] {C : Callbacks ι} {q : ι → ι → ℝ} {w : ι → ℝ} (hR : EM.Recipe C q w) {o : Opts}
    (hm : o.method = "fixed-point") (s : State ι) (dx : ι → ℝ) (alfa : ℝ) (hP : EM.Good q s.x) (hf : s.f = C.fn s.x) (hd : direction C o s.x s.f = .ok dx)
    (hsl : stepLength C o s dx = .ok alfa) : EM.Good q (s.x + alfa • dx) := by
  have hdx : dx = s.f - s.x := by
    unfold direction at hd
    simp only [hm, String.reduceEq, if_false, if_true, Except.ok.injEq] at hd
    exact hd.symm
  have ha : 0 ≤ alfa ∧ alfa ≤ 1 := by
    unfold stepLength at hsl
    by_cases hl : o.linsearch = true
    · obtain ⟨a, h1, h2, h3⟩ := hR.len s.x dx s.dx_old s.n_steps
      simp only [hm, hl, true_and, String.reduceEq, or_self, if_false, and_false, if_true, and_self, h1, Except.ok.injEq] at hsl
      rw [← hsl]
      exact ⟨h2, h3⟩
    · simp [hl] at hsl
      rw [← hsl]
      norm_num
  rw [hdx, hf, hR.fn _ hP]
  exact EM.damp_good hP (EM.F_good hR.net hP) ha.1 ha.2

section undirected
variable {d : UData n}

theorem guessCrema_zero (e : Env) {guess : Guess n} {b : Fin n → ℝ} (h : (guessCrema e d guess).1 = .ok b) {i : Fin n} (hi : d.strength_sequence i = 0) : b i = 0 := by
  unfold guessCrema at h
  split at h
  · cases h
  · split at h
    · cases h
    · cases h; simp [maskSet, hi]
  · cases h; simp [maskSet, hi]
  · cases h

/-- C79 is false of `crema`: if the list of links has one between two nodes of strength zero, every method ends with `ZeroDivisionError`; the fixed-point method does so
as soon as a link touches one node of strength zero. -/
theorem C79_crema_links (e : Env) (m : Method) (adj : Edges n) {t : Fin n × Fin n × ℝ} (ht : t ∈ adj)
    (hz : (d.strength_sequence t.1 = 0 ∧ d.strength_sequence t.2.1 = 0) ∨ (m = .fixed_point ∧ (d.strength_sequence t.1 = 0 ∨ d.strength_sequence t.2.1 = 0)))
    (guess : Guess n) (p : Params) (hg : ∃ b, (guessCrema e d guess).1 = .ok b) : runCrema e d adj m guess p = .solver .zeroDivision := by
  obtain ⟨b, h0⟩ := hg
  have hzero : ∀ i, d.strength_sequence i = 0 → b i = 0 := fun i => guessCrema_zero e h0
  have h1 : m ≠ .fixed_point → loglikelihood_prime_crema_undirected b d.strength_sequence adj = none := fun hm => by
    rcases hz with hz | ⟨h, -⟩
    · rw [prime_crema_guard]
      exact guard_none fun h => h t ht (by rw [hzero _ hz.1, hzero _ hz.2, add_zero])
    · exact absurd h hm
  have h2 : iterative_crema_undirected b d.strength_sequence adj = none := by
    rw [iterative_crema_guard]
    refine guard_none fun h => ?_
    rcases hz with hz | ⟨-, hz | hz⟩
    · exact (h t ht).1 (hzero _ hz.1)
    · exact (h t ht).1 (hzero _ hz)
    · exact (h t ht).2.1 (hzero _ hz)
  have hp : (chkCrema d adj m).fn b = none := by
    cases m with
    | newton => show Option.map _ _ = _; rw [h1 (by simp)]; rfl
    | quasinewton => show Option.map _ _ = _; rw [h1 (by simp)]; rfl
    | fixed_point => show Option.map _ _ = _; rw [h2]; rfl
  unfold runCrema
  rw [h0]
  simp only [solverE_raises hp]

/-- C79 is false of the default `adjacency="cm_exp"`: after the binary problem has been solved with "newton" or "quasinewton", `crema` ends with `ZeroDivisionError` on every
network with two nodes of strength zero, whatever the method; and with the fixed-point method already on every network with one such node (and another node). -/
theorem C79_crema_cm_exp (e e' : Env) (g : UAttr d) (ma : String) (hma : ma ≠ "fixed-point") (ga : Guess n) (adj : AdjSpec n) (mb : String) (gb : Guess n) (p p' : Params)
    {x : Fin n → ℝ} (hexc : (solve_tool e' g "cm_exp" ma ga adj mb gb p').exc = none) (hx : (solve_tool e' g "cm_exp" ma ga adj mb gb p').g.x = some x)
    (m : Method) {i j : Fin n} (hij : i ≠ j) (hi : d.strength_sequence i = 0) (hj : d.strength_sequence j = 0 ∨ m = .fixed_point)
    (guess : Guess n) (hg : ∃ b, (guessCrema e d guess).1 = .ok b) :
    runCrema e d (triuEdges (CM.pmatrix_cm x)) m guess p = .solver .zeroDivision := by
  have hpos : ∀ k, 0 < x k := by
    obtain ⟨x', hx', h, -⟩ := C41_cm_exp_positive e' g ma (.inl hma) ga adj mb gb p' hexc
    rw [hx] at hx'
    cases hx'
    exact h
  have hlink : ∀ a b : Fin n, a ≠ b → CM.pmatrix_cm x a b ≠ 0 := fun a b hab => by
    rw [CM.pmatrix_eq, if_neg hab]
    have h1 := hpos a
    have h2 := hpos b
    positivity
  rcases lt_or_gt_of_ne hij with h | h
  · refine C79_crema_links e m _ (mem_triu h.le (hlink i j hij)) ?_ guess p hg
    rcases hj with hj | hj
    · exact .inl ⟨hi, hj⟩
    · exact .inr ⟨hj, .inl hi⟩
  · refine C79_crema_links e m _ (mem_triu h.le (hlink j i hij.symm)) ?_ guess p hg
    rcases hj with hj | hj
    · exact .inl ⟨hj, hi⟩
    · exact .inr ⟨hj, .inr hi⟩

/-- C79, the part that holds (crema, "fixed-point"): when the links join only nodes with strength, no step divides by zero, with the line search on or off, from every
documented guess and every positive array; the call returns, and it is the one of the other theorems. -/
theorem C79_crema_fixed_partial (e : Env) (he : e.Valid) (hr : e.NonzeroDraws) (a : Fin n → Fin n → ℝ) (hL : LinksFor a d.strength_sequence) (guess : Guess n)
    (hg : guess.PositiveRates d) (g : UAttr d) (ma : String) (ga : Guess n) (p : Params) :
    let R := solve_tool e g "crema" "fixed-point" guess (.matrix a) ma ga p
    ∃ s, runCrema e d (triuEdges a) .fixed_point guess p = .done s (strCReMa a s.x) ∧ R.exc = none ∧ R.g.beta = some s.x := by
  intro R
  obtain ⟨b, gs, h0, h1, h2⟩ := guessCrema_positive e he hr d hL.s_nonneg guess hg
  have hrec := EM.recipe_crema e d hL.symm hL.noself hL.nonneg hL.strong hL.s_nonneg
  have hgood := good_rates hL h1 h2
  obtain ⟨r, r', k1, k2, k3, -⟩ := hrec.solver_mono (o := p.opts "fixed-point") rfl hgood (le_refl p.max_steps)
  have k1 : solver (cbCrema e d (triuEdges a) .fixed_point) (p.opts "fixed-point") b = .ok r := k1
  have hmem : ∀ t ∈ triuEdges a, a t.1 t.2.1 ≠ 0 := fun t ht => by
    unfold triuEdges at ht
    obtain ⟨u, hu, rfl⟩ := List.mem_map.1 ht
    have := (List.mem_filter.1 hu).2
    simp only [decide_eq_true_eq] at this
    exact this.2
  have hrates : ∀ x, EM.Good a x → RatesU x (triuEdges a) := fun x hx t ht => by
    have h1 := hx.pos t.1 t.2.1 (hmem t ht)
    have h2 := hx.pos t.2.1 t.1 (by rw [hL.symm]; exact hmem t ht)
    exact ⟨h1.ne', h2.ne', by positivity⟩
  have hE : solverE (cbCrema e d (triuEdges a) .fixed_point) (chkCrema d (triuEdges a) .fixed_point) (p.opts "fixed-point") b =
      lift (solver (cbCrema e d (triuEdges a) .fixed_point) (p.opts "fixed-point") b) := by
    refine solverE_eq (EM.Good a) (fun x hx => ⟨?_, fun h => absurd h (by simp [Params.opts]), fun h => absurd h (by simp [Params.opts])⟩) (recipe_step hrec rfl) hgood
    show Option.map _ _ = _
    rw [iterative_crema_guard, guard_some (hrates x hx)]
    rfl
  refine ⟨r, ?_, crema_call e g .fixed_point guess a ma ga p h0 k1⟩
  unfold runCrema
  rw [h0]
  dsimp only
  rw [show Method.name .fixed_point = "fixed-point" from rfl, hE, k1]
  simp only [lift, expected_crema_guard, guard_some (show SumsU r.x (triuEdges a) from fun t ht => (hrates r.x k3 t ht).2.2)]
  rw [show strCReMa a r.x = CReMa.expected_strength_crema_undirected r.x (triuEdges a) from funext fun i => (str_crema_spec a hL.symm hL.noself r.x i).symm]

end undirected

section directed
variable {d : DData n}

theorem guessDCrema_zero (e : Env) {guess : DGuess n} {bo bi : Fin n → ℝ} (h : (guessDCrema e d guess).1 = .ok (bo, bi)) (i : Fin n) :
    (d.out_strength i = 0 → bo i = 0) ∧ (d.in_strength i = 0 → bi i = 0) := by
  unfold guessDCrema at h
  split at h
  · cases h
  · split at h
    · cases h
    · cases h; exact ⟨fun hi => by simp [maskSet, hi], fun hi => by simp [maskSet, hi]⟩
  · cases h
  · cases h; exact ⟨fun hi => by simp [maskSet, hi], fun hi => by simp [maskSet, hi]⟩
  · cases h

theorem str_dcrema_spec' (a : Fin n → Fin n → ℝ) (x : Fin 2 × Fin n → ℝ) (i : Fin n) :
    DCReMa.expected_out_strength_crema_directed x (nzEdges a) i = outStrCReMa a (fun i => x (0, i)) (fun i => x (1, i)) i ∧
      DCReMa.expected_in_strength_crema_directed x (nzEdges a) i = inStrCReMa a (fun i => x (0, i)) (fun i => x (1, i)) i := by
  have hx : x = cat2 (fun i => x (0, i)) fun i => x (1, i) := by
    funext v
    obtain ⟨b, i⟩ := v
    fin_cases b
    · exact (EM.cat2_zero (fun i => x (0, i)) (fun i => x (1, i)) i).symm
    · exact (EM.cat2_one (fun i => x (0, i)) (fun i => x (1, i)) i).symm
  have := str_dcrema_spec a (fun i => x (0, i)) (fun i => x (1, i)) i
  rwa [← hx] at this

/-- C79 is false of the directed `crema`: a link from a node without out-strength to a node without in-strength makes every method end with `ZeroDivisionError`; for the
fixed-point method one of the two is enough. -/
theorem C79_dcrema_links (e : Env) (m : Method) (adj : Edges n) {t : Fin n × Fin n × ℝ} (ht : t ∈ adj)
    (hz : (d.out_strength t.1 = 0 ∧ d.in_strength t.2.1 = 0) ∨ (m = .fixed_point ∧ (d.out_strength t.1 = 0 ∨ d.in_strength t.2.1 = 0)))
    (guess : DGuess n) (p : Params) (hg : ∃ b, (guessDCrema e d guess).1 = .ok b) : runDCrema e d adj m guess p = .solver .zeroDivision := by
  obtain ⟨⟨bo, bi⟩, h0⟩ := hg
  have hzero := guessDCrema_zero e h0
  have h1 : m ≠ .fixed_point → loglikelihood_prime_crema_directed (cat2 bo bi) d.out_strength d.in_strength adj (DCM.nonzero d.out_strength) (DCM.nonzero d.in_strength) = none :=
    fun hm => by
    rcases hz with hz | ⟨h, -⟩
    · rw [prime_dcrema_guard]
      exact guard_none fun h => h t ht (by rw [EM.cat2_zero, EM.cat2_one, (hzero _).1 hz.1, (hzero _).2 hz.2, add_zero])
    · exact absurd h hm
  have h2 : iterative_crema_directed (cat2 bo bi) d.out_strength d.in_strength adj (DCM.nonzero d.out_strength) (DCM.nonzero d.in_strength) = none := by
    rw [iterative_dcrema_guard _ _ _ _ _ _ (fun i hi => (DCM.mem_nonzero _ _).1 hi) (fun i hi => (DCM.mem_nonzero _ _).1 hi)]
    refine guard_none fun h => ?_
    have h := h t ht
    rw [EM.cat2_zero, EM.cat2_one] at h
    rcases hz with hz | ⟨-, hz | hz⟩
    · exact h.1 ((hzero _).1 hz.1)
    · exact h.1 ((hzero _).1 hz)
    · exact h.2.1 ((hzero _).2 hz)
  have hp : (chkDCrema d adj m).fn (cat2 bo bi) = none := by
    cases m with
    | newton => show Option.map _ _ = _; rw [h1 (by simp)]; rfl
    | quasinewton => show Option.map _ _ = _; rw [h1 (by simp)]; rfl
    | fixed_point => show Option.map _ _ = _; rw [h2]; rfl
  unfold runDCrema
  rw [h0]
  simp only [solverE_raises hp]

/-- C79, the part that holds (directed crema, "fixed-point") -/
theorem C79_dcrema_fixed_partial (e : Env) (he : e.Valid) (hr : e.NonzeroDraws) (hz : d.nz_known = true) (a : Fin n → Fin n → ℝ)
    (hL : LinksForD a d.out_strength d.in_strength) (guess : DGuess n) (hg : guess.PositiveRates d) (g : DAttr d) (ma : String) (ga : DGuess n) (p : Params) :
    let R := solve_tool_directed e g "crema" "fixed-point" guess (.matrix a) ma ga p
    ∃ s bo bi, R.exc = none ∧ R.g.b_out = some bo ∧ R.g.b_in = some bi ∧
      runDCrema e d (nzEdges a) .fixed_point guess p = .done s (outStrCReMa a bo bi, inStrCReMa a bo bi) := by
  intro R
  obtain ⟨bo, bi, gs, h0, h1, h2⟩ := guessDCrema_positive e he hr d hL.so_nonneg hL.si_nonneg guess hg
  have hrec := EM.recipe_dcrema e d hL.nonneg hL.strong hL.so_nonneg hL.si_nonneg
  have hgood := good_ratesD hL h1 h2
  obtain ⟨r, r', k1, k2, k3, -⟩ := hrec.solver_mono (o := p.opts "fixed-point") rfl hgood (le_refl p.max_steps)
  have k1 : solver (cbDCrema e d (nzEdges a) .fixed_point) (p.opts "fixed-point") (cat2 bo bi) = .ok r := k1
  have hmem : ∀ t ∈ nzEdges a, a t.1 t.2.1 ≠ 0 := fun t ht => by
    unfold nzEdges at ht
    obtain ⟨u, hu, rfl⟩ := List.mem_map.1 ht
    have := (List.mem_filter.1 hu).2
    simpa only [decide_eq_true_eq] using this
  have hrates : ∀ x, EM.Good (EM.bip a) x → RatesD x (nzEdges a) := fun x hx t ht => by
    have h1 := hx.pos (0, t.1) (1, t.2.1) (by rw [EM.bip01]; exact hmem t ht)
    have h2 := hx.pos (1, t.2.1) (0, t.1) (by rw [EM.bip10]; exact hmem t ht)
    exact ⟨h1.ne', h2.ne', by positivity⟩
  have hE : solverE (cbDCrema e d (nzEdges a) .fixed_point) (chkDCrema d (nzEdges a) .fixed_point) (p.opts "fixed-point") (cat2 bo bi) =
      lift (solver (cbDCrema e d (nzEdges a) .fixed_point) (p.opts "fixed-point") (cat2 bo bi)) := by
    refine solverE_eq (EM.Good (EM.bip a)) (fun x hx => ⟨?_, fun h => absurd h (by simp [Params.opts]), fun h => absurd h (by simp [Params.opts])⟩) (recipe_step hrec rfl) hgood
    show Option.map _ _ = _
    rw [iterative_dcrema_guard _ _ _ _ _ _ (fun i hi => (DCM.mem_nonzero _ _).1 hi) (fun i hi => (DCM.mem_nonzero _ _).1 hi), guard_some (hrates x hx)]
    rfl
  obtain ⟨c1, c2, c3⟩ := dcrema_call e g hz .fixed_point guess a ma ga p h0 k1
  refine ⟨r, _, _, c1, c2, c3, ?_⟩
  unfold runDCrema
  rw [h0]
  dsimp only
  have hsum : SumsD r.x (nzEdges a) := fun t ht => (hrates r.x k3 t ht).2.2
  rw [show Method.name .fixed_point = "fixed-point" from rfl, hE, k1]
  simp only [lift, expected_out_dcrema_guard, expected_in_dcrema_guard, guard_some hsum]
  rw [show outStrCReMa a (fun i => r.x (0, i)) (fun i => r.x (1, i)) = DCReMa.expected_out_strength_crema_directed r.x (nzEdges a) from
      funext fun i => (str_dcrema_spec' a r.x i).1.symm,
    show inStrCReMa a (fun i => r.x (0, i)) (fun i => r.x (1, i)) = DCReMa.expected_in_strength_crema_directed r.x (nzEdges a) from
      funext fun i => (str_dcrema_spec' a r.x i).2.symm]

end directed

end

end Verif.Checked
