import Verif.Props.Checked2
import Verif.Props.CremaNewton
import Verif.Props.Runs2

/-! C79, more of what holds: the newton methods of CReMa on a network's own links, and those of ecm on networks without zeros. -/

set_option linter.unusedSectionVars false

namespace Verif.Checked

open Verif Finset Reduction Solver Spec Solve CReMa DCReMa EM

noncomputable section

open Classical in
attribute [local instance 0] propDecidable

variable {n : ℕ} [NeZero n]

/-- newton and quasinewton runs with line search stay in the domain -/
theorem barrier_checked {ι : Type} [Fintype ι] [DecidableEq ι] [Nonempty ι] {C : Callbacks ι} {p : ι → ι → ℝ} {s : ι → ℝ} (h : Barrier C p s) {a0 : ℝ} (ha0 : 0 < a0)
    (hmin : ∀ i j, p i j ≠ 0 → a0 ≤ p i j) {xs : ι → ℝ} (hxs : Dom p xs) (hfit : ∀ i, str p xs i = s i) {x0 : ι → ℝ} (hx0 : Dom p x0) (hcap : L p s xs ≤ L p s x0 + 1e13 * a0)
    {o : Opts} (ht : 0 < o.tol) (he : 0 < o.regularise_eps) (hm : o.method = "newton" ∨ o.method = "quasinewton") (hr : o.regularise = true) (hl : o.linsearch = true)
    {K : Check ι} (hK : ∀ x, Dom p x → SafeAt C K o.method x) : solverE C K o x0 = lift (solver C o x0) := by
  have hU := h.upper hxs hfit
  have hΔ0 : 0 ≤ L p s xs - L p s x0 := by linarith [hU x0 hx0]
  obtain ⟨δ, hδ, hsub⟩ := h.floor ha0 hmin hxs hfit hΔ0
  refine solverE_eq' (fun x => Dom p x ∧ L p s xs - (L p s xs - L p s x0) ≤ L p s x) (fun x hx => hK x hx.1) (fun t dx alfa hP hf hn hgt hd hsl => ?_)
    ⟨hx0, by linarith⟩
  obtain ⟨t', e1, -, -, -, e5, e6⟩ := h.step o hm hr he hl ht ha0 hmin hδ (Δ := L p s xs - L p s x0) (by linarith) t hf hn hgt (hsub _ hP.1 hP.2)
    (fun y hy => by linarith [hU y hy, hP.2])
  have hx : t'.x = t.x + alfa • dx := by
    unfold Solver.step at e1
    rw [hd] at e1
    simp only [hsl] at e1
    cases e1
    rfl
  rw [hx] at e5 e6
  have h0 : 0 ≤ 0.0001 * lamMin ι o * t'.diff ^ 2 := by
    have := lamMin_pos (ι := ι) (o := o) ht he
    positivity
  exact ⟨e5, by linarith [hP.2]⟩

section undirected
variable {d : UData n}

theorem sums_triu {a : Fin n → Fin n → ℝ} (hs : ∀ i j, a i j = a j i) {x : Fin n → ℝ} (hx : Dom a x) : SumsU x (triuEdges a) := fun t ht => ((dom_triu hs x).2 hx t ht).ne'

theorem safe_crema (e : Env) {m : Method} (hm : m ≠ .fixed_point) {a : Fin n → Fin n → ℝ} (hs : ∀ i j, a i j = a j i) {x : Fin n → ℝ} (hx : Dom a x) :
    SafeAt (cbCrema e d (triuEdges a) m) (chkCrema d (triuEdges a) m) m.name x := by
  have h := sums_triu hs hx
  refine ⟨?_, fun _ => ?_, fun _ => ?_⟩
  · cases m with
    | newton => show Option.map _ _ = _; rw [prime_crema_guard, guard_some h]; rfl
    | quasinewton => show Option.map _ _ = _; rw [prime_crema_guard, guard_some h]; rfl
    | fixed_point => exact absurd rfl hm
  · show Option.map _ _ = _
    rw [hessian_crema_guard, guard_some h]; rfl
  · show Option.map _ _ = _
    rw [hessian_diag_crema_guard, guard_some h]; rfl

/-- C79, the part that holds (crema, "newton" and "quasinewton"): under the hypotheses of C72 (links between nodes with strength; rates that reproduce the strengths exist; the
likelihood of the guess is not absurdly low) no run with the line search on divides by zero; the call returns and is the one of the other theorems. -/
theorem C79_crema_newton_partial (e : Env) (he : e.Valid) (hr : e.NonzeroDraws) (ho : ∀ ι x, e.outside ι x = none) (a : Fin n → Fin n → ℝ) (hL : LinksFor a d.strength_sequence)
    {βs : Fin n → ℝ} (hF : FiniteRates a βs) (hfit : ∀ i, strCReMa a βs i = d.strength_sequence i) {a0 : ℝ} (ha0 : 0 < a0) (hmin : ∀ i j, a i j ≠ 0 → a0 ≤ a i j)
    (guess : Guess n) (hg : guess.PositiveRates d) {g0 : UAttr d} {ma0 : String} {ga0 : Guess n} {p0 : Params} {β0 : Fin n → ℝ}
    (hstart : (solve_tool e g0 "crema" "newton" guess (.matrix a) ma0 ga0 { p0 with max_steps := 0 }).g.beta = some β0)
    (hgap : logCReMa a d.strength_sequence βs ≤ logCReMa a d.strength_sequence β0 + 1e13 * a0)
    (m : Method) (hm : m ≠ .fixed_point) (g : UAttr d) (ma : String) (ga : Guess n) (p : Params) (ht : 0 < p.tol) (hl : p.linsearch = true) :
    let R := solve_tool e g "crema" m.name guess (.matrix a) ma ga p
    ∃ s, runCrema e d (triuEdges a) m guess p = .done s (strCReMa a s.x) ∧ R.exc = none ∧ R.g.beta = some s.x := by
  intro R
  obtain ⟨b, gs, h0, h1, h2⟩ := guessCrema_positive e he hr d hL.s_nonneg guess hg
  have hb : β0 = b := by
    have k : solver (cbCrema e d (triuEdges a) .newton) ({ p0 with max_steps := 0 }.opts "newton") b = .ok (initState _ b) := rfl
    obtain ⟨-, c2⟩ := crema_call e g0 .newton guess a ma0 ga0 { p0 with max_steps := 0 } h0 k
    exact Option.some.inj (hstart.symm.trans c2)
  subst hb
  have hB := barrier_crema e ho d hL.symm hL.noself hL.nonneg hm
  have hfit' : ∀ i, str a βs i = d.strength_sequence i := fun i => by rw [str_strCReMa hL.noself]; exact hfit i
  have hdom : Dom a β0 := finite_of_good hL (good_rates hL h1 h2)
  have hgap' : L a d.strength_sequence βs ≤ L a d.strength_sequence β0 + 1e13 * a0 := by
    rw [L_logCReMa hL.symm hL.noself, L_logCReMa hL.symm hL.noself]; exact hgap
  have hmm : (p.opts m.name).method = "newton" ∨ (p.opts m.name).method = "quasinewton" := by cases m <;> simp [Params.opts, Method.name] at hm ⊢
  obtain ⟨T, τ, hτ, hT⟩ := hB.solver ha0 hmin (xs := βs) hF hfit' hdom hgap' ht (reps := 1e-3) (by norm_num)
  obtain ⟨r, k1, -, k2, -⟩ := hT _ (p.opts m.name) hB rfl rfl hmm rfl hl
  have hE := barrier_checked hB ha0 hmin (xs := βs) hF hfit' hdom hgap' (o := p.opts m.name) ht (by norm_num [Params.opts]) hmm rfl hl
    (K := chkCrema d (triuEdges a) m) (fun x hx => safe_crema e hm hL.symm hx)
  refine ⟨r, ?_, crema_call e g m guess a ma ga p h0 k1⟩
  unfold runCrema
  rw [h0]
  dsimp only
  rw [hE, k1]
  simp only [lift, expected_crema_guard, guard_some (sums_triu hL.symm k2)]
  rw [show strCReMa a r.x = CReMa.expected_strength_crema_undirected r.x (triuEdges a) from funext fun i => (str_crema_spec a hL.symm hL.noself r.x i).symm]

/-- the same on the links of a weighted network itself, from the named guesses -/
theorem C79_crema_network_partial (e : Env) (he : e.Valid) (hr : e.NonzeroDraws) (ho : ∀ ι x, e.outside ι x = none) (w : Fin n → Fin n → ℝ)
    (hw : ∀ i j, w i j = w j i) (hwn : ∀ i j, 0 ≤ w i j) (hd : ∀ i, w i i = 0) (hsum : ∀ i, d.strength_sequence i = ∑ j, w i j) (hn : n ≤ 100000)
    (hrange : ∀ i j, w i j ≠ 0 → ∑ k, d.strength_sequence k + 1 ≤ 10 ^ 400 * w i j) {name : String} (hname : name = "strengths" ∨ name = "strengths_minor")
    (m : Method) (g : UAttr d) (ma : String) (ga : Guess n) (p : Params) (ht : 0 < p.tol) (hl : p.linsearch = true) :
    let a : Fin n → Fin n → ℝ := fun i j => if w i j = 0 then 0 else 1
    let R := solve_tool e g "crema" m.name (.name name) (.matrix a) ma ga p
    ∃ s, runCrema e d (triuEdges a) m (.name name) p = .done s (strCReMa a s.x) ∧ R.exc = none ∧ R.g.beta = some s.x := by
  intro a
  obtain ⟨hL, ha1, hg, βs, h1, h2, b, hstart, hgap⟩ := network_start e he hr d w hw hwn hd hsum hn hrange hname
  by_cases hm : m = .fixed_point
  · subst hm
    exact C79_crema_fixed_partial e he hr a hL (.name name) hg g ma ga p
  · exact C79_crema_newton_partial e he hr ho a hL h1 h2 one_pos ha1 (.name name) hg (p0 := {}) hstart hgap m hm g ma ga p ht hl

end undirected

section directed
variable {d : DData n}

theorem sums_nz {a : Fin n → Fin n → ℝ} {x : Fin 2 × Fin n → ℝ} (hx : Dom (bip a) x) : SumsD x (nzEdges a) := fun t ht => ((dom_nz x).2 hx t ht).ne'

theorem safe_dcrema (e : Env) {m : Method} (hm : m ≠ .fixed_point) {a : Fin n → Fin n → ℝ} {x : Fin 2 × Fin n → ℝ} (hx : Dom (bip a) x) :
    SafeAt (cbDCrema e d (nzEdges a) m) (chkDCrema d (nzEdges a) m) m.name x := by
  have h := sums_nz hx
  refine ⟨?_, fun _ => ?_, fun _ => ?_⟩
  · cases m with
    | newton => show Option.map _ _ = _; rw [prime_dcrema_guard, guard_some h]; rfl
    | quasinewton => show Option.map _ _ = _; rw [prime_dcrema_guard, guard_some h]; rfl
    | fixed_point => exact absurd rfl hm
  · show Option.map _ _ = _
    rw [hessian_dcrema_guard, guard_some h]; rfl
  · show Option.map _ _ = _
    rw [hessian_diag_dcrema_guard, guard_some h]; rfl

/-- C79, the part that holds (directed crema on the links of a directed weighted network itself): no method divides by zero with the line search on -/
theorem C79_dcrema_network_partial (e : Env) (he : e.Valid) (hr : e.NonzeroDraws) (ho : ∀ ι x, e.outside ι x = none) (hz : d.nz_known = true) (w : Fin n → Fin n → ℝ)
    (hwn : ∀ i j, 0 ≤ w i j) (hout : ∀ i, d.out_strength i = ∑ j, w i j) (hin : ∀ j, d.in_strength j = ∑ i, w i j) (hn : n ≤ 100000)
    (hrange : ∀ i j, w i j ≠ 0 → ∑ k, d.out_strength k + 1 ≤ 10 ^ 400 * w i j) {name : String} (hname : name = "strengths" ∨ name = "strengths_minor")
    (m : Method) (g : DAttr d) (ma : String) (ga : DGuess n) (p : Params) (ht : 0 < p.tol) (hl : p.linsearch = true) :
    let a : Fin n → Fin n → ℝ := fun i j => if w i j = 0 then 0 else 1
    let R := solve_tool_directed e g "crema" m.name (.name name) (.matrix a) ma ga p
    ∃ s bo bi, R.exc = none ∧ R.g.b_out = some bo ∧ R.g.b_in = some bi ∧
      runDCrema e d (nzEdges a) m (.name name) p = .done s (outStrCReMa a bo bi, inStrCReMa a bo bi) := by
  intro a R
  obtain ⟨hL, hmin, hg, bos, bis, hF, hfit, bo0, bi0, ⟨hstart, hstart'⟩, hgap⟩ := network_startD e he hr d hz w hwn hout hin hn hrange hname
  by_cases hm : m = .fixed_point
  · subst hm
    exact C79_dcrema_fixed_partial e he hr hz a hL (.name name) hg g ma ga p
  obtain ⟨bo, bi, gs, h0, h1, h2⟩ := guessDCrema_positive e he hr d hL.so_nonneg hL.si_nonneg (.name name) hg
  have hb : bo0 = bo ∧ bi0 = bi := by
    have k : solver (cbDCrema e d (nzEdges a) .newton) (({ max_steps := 0 } : Params).opts "newton") (cat2 bo bi) = .ok (initState _ (cat2 bo bi)) := rfl
    obtain ⟨-, c2, c3⟩ := dcrema_call e ({} : DAttr d) hz .newton (.name name) a "" .other { max_steps := 0 } h0 k
    have e1 := Option.some.inj (hstart.symm.trans c2)
    have e2 := Option.some.inj (hstart'.symm.trans c3)
    exact ⟨e1.trans (by funext i; exact cat2_zero bo bi i), e2.trans (by funext i; exact cat2_one bo bi i)⟩
  obtain ⟨rfl, rfl⟩ := hb
  have hB := barrier_dcrema e ho d hL.nonneg hm
  have hdom : ∀ b : Fin 2 × Fin n → ℝ, Dom (bip a) b ↔ FiniteRatesD a (fun i => b (0, i)) fun i => b (1, i) := fun b => by
    rw [← dom_nz]
    exact ⟨fun h i j hij => h _ (mem_nz hij), fun h => (dom_nz b).2 (by
      unfold Dom
      simp only [forall_pair, bip00, bip01, bip10, bip11]
      exact ⟨fun i => ⟨fun j hj => absurd rfl hj, fun j hj => h i j hj⟩, fun i => ⟨fun j hj => by rw [add_comm]; exact h j i hj, fun j hj => absurd rfl hj⟩⟩)⟩
  have hcz : ∀ x y : Fin n → ℝ, (fun i => cat2 x y (0, i)) = x := fun x y => by funext i; exact cat2_zero x y i
  have hco : ∀ x y : Fin n → ℝ, (fun i => cat2 x y (1, i)) = y := fun x y => by funext i; exact cat2_one x y i
  have hmin' : ∀ u v, bip a u v ≠ 0 → 1 ≤ bip a u v := by
    simp only [forall_pair, bip00, bip01, bip10, bip11]
    exact ⟨fun i => ⟨fun j hj => absurd rfl hj, fun j hj => hmin i j hj⟩, fun i => ⟨fun j hj => hmin j i hj, fun j hj => absurd rfl hj⟩⟩
  have hxs : Dom (bip a) (cat2 bos bis) := (hdom _).2 (by rw [hcz, hco]; exact hF)
  have hfit' : ∀ v, str (bip a) (cat2 bos bis) v = cat2 d.out_strength d.in_strength v := by
    rw [forall_pair]
    refine ⟨fun i => ?_, fun i => ?_⟩
    · rw [str_out, hcz, hco, cat2_zero]; exact (hfit i).1
    · rw [str_in, hcz, hco, cat2_one]; exact (hfit i).2
  have hx0 : Dom (bip a) (cat2 bo0 bi0) := (hdom _).2 (finite_of_goodD (good_ratesD hL h1 h2))
  have hgap' : L (bip a) (cat2 d.out_strength d.in_strength) (cat2 bos bis) ≤ L (bip a) (cat2 d.out_strength d.in_strength) (cat2 bo0 bi0) + 1e13 * 1 := by
    rw [L_logDCReMa, L_logDCReMa, hcz, hco, hcz, hco]; exact hgap
  have hmm : (p.opts m.name).method = "newton" ∨ (p.opts m.name).method = "quasinewton" := by cases m <;> simp [Params.opts, Method.name] at hm ⊢
  obtain ⟨T, τ, hτ, hT⟩ := hB.solver one_pos hmin' hxs hfit' hx0 hgap' ht (reps := 1e-3) (by norm_num)
  obtain ⟨r, k1, -, k2, -⟩ := hT _ (p.opts m.name) hB rfl rfl hmm rfl hl
  have hE := barrier_checked hB one_pos hmin' hxs hfit' hx0 hgap' (o := p.opts m.name) ht (by norm_num [Params.opts]) hmm rfl hl
    (K := chkDCrema d (nzEdges a) m) (fun x hx => safe_dcrema e hm hx)
  obtain ⟨c1, c2, c3⟩ := dcrema_call e g hz m (.name name) a ma ga p h0 k1
  refine ⟨r, _, _, c1, c2, c3, ?_⟩
  unfold runDCrema
  rw [h0]
  dsimp only
  rw [hE, k1]
  have hS : SumsD r.x (nzEdges a) := sums_nz k2
  simp only [lift, expected_out_dcrema_guard, expected_in_dcrema_guard, guard_some hS]
  rw [show DCReMa.expected_out_strength_crema_directed r.x (nzEdges a) = _ from funext fun i => (str_dcrema_spec' a r.x i).1,
    show DCReMa.expected_in_strength_crema_directed r.x (nzEdges a) = _ from funext fun i => (str_dcrema_spec' a r.x i).2]

end directed

section ecm
variable {d : UData n}

theorem pair_ecm {z : ECM.Vec n} (hz : AdmECM z) {i j : Fin n} (hij : i ≠ j) : PairECM z i j := by
  have h1 := hz.2.2 i j hij
  have h2 := mul_pos (hz.1 i) (hz.1 j)
  have h3 := mul_pos (hz.2.1 i) (hz.2.1 j)
  have h4 := mul_pos h2 h3
  exact ⟨by nlinarith, by linarith⟩

theorem safe_ecm (e : Env) {m : Method} (hm : m ≠ .fixed_point) {z : ECM.Vec n} (hz : AdmECM z) : SafeAt (cbECM e d m) (chkECM d m) m.name z := by
  have h : ∀ i, z (0, i) ≠ 0 ∧ z (1, i) ≠ 0 ∧ ∀ j, i ≠ j → PairECM z i j := fun i => ⟨(hz.1 i).ne', (hz.2.1 i).ne', fun j hij => pair_ecm hz hij⟩
  refine ⟨?_, fun _ => ?_, fun _ => ?_⟩
  · cases m with
    | newton => show Option.map _ _ = _; rw [prime_ecm_guard, guard_some h]; rfl
    | quasinewton => show Option.map _ _ = _; rw [prime_ecm_guard, guard_some h]; rfl
    | fixed_point => exact absurd rfl hm
  · show Option.map _ _ = _
    rw [hessian_ecm_guard, guard_some h]; rfl
  · show Option.map _ _ = _
    rw [hessian_diag_ecm_guard, guard_some h]; rfl

/-- C79, the part that holds (ecm): on a network with positive degrees and strengths a newton or quasinewton run from a named guess with the line search on, all of whose recorded
step lengths exceed `2 ^ -50`, has divided by zero nowhere, and its expected degrees and strengths are those the call stores. -/
theorem C79_ecm_partial (e : Env) (he : e.Valid) (hr : e.NonzeroDraws) (ho : ∀ x : Fin 2 × Fin n → ℝ, e.outside (Fin 2 × Fin n) x = none) (hd : d.Pos) (m : Method) (hm : m ≠ .fixed_point)
    (name : String) (g : UAttr d) (adj : AdjSpec n) (ma : String) (ga : Guess n) (p : Params) (hf : p.full_return = true) (hl : p.linsearch = true) :
    let R := solve_tool e g "ecm" m.name (.name name) adj ma ga p
    ∀ t, R.exc = none → R.g.trace = some t → (∀ a ∈ t.alfa_seq, (1 / 2 : ℝ) ^ 50 < a) → ∃ x y s, R.g.x = some x ∧ R.g.y = some y ∧
      R.g.expected_dseq = some (degUECM x y) ∧ R.g.expected_strength_seq = some (strUECM x y) ∧
      runECM e d m (.name name) p = .done s (cat2 (degUECM x y) (strUECM x y)) := by
  intro R t h htr hlong
  obtain ⟨me', x0, y0, guess', s, hm', h0, hs, hG⟩ := solve_tool_ok_ecm e g m.name (.name name) adj ma ga p h
  have hme' : me' = m := by revert hm'; cases m <;> cases me' <;> simp [Method.name]
  subst hme'
  have k := solutionError_keeps e (setSolvedECM (d := d) { g with last_model := some "ecm", full_return := p.full_return, x := some x0, y := some y0, args := some .ecm, step_fun := some .ecm } false s)
  have hadm := C38_ecm e he hr d hd name h0
  have htrace : R.g.trace = some (.of s) := by
    rw [show R = _ from hG]
    refine k.2.2.2.2.1.trans ?_
    simp [setSolvedECM, hf]
  have ht : t = .of s := Option.some.inj (htr.symm.trans htrace)
  subst ht
  have hstep : ∀ s : State (Fin 2 × Fin n), ∀ dx alfa, AdmECM s.x → s.f = (cbECM e d me').fn s.x → direction (cbECM e d me') (p.opts me'.name) s.x s.f = .ok dx →
      stepLength (cbECM e d me') (p.opts me'.name) s dx = .ok alfa → (1 / 2 : ℝ) ^ 50 < alfa → AdmECM (s.x + alfa • dx) := fun s dx alfa hP _ hdr hsl hc => by
    refine (ecm_step e ho me' p hl s dx alfa ?_ hdr hsl).2 hm hc
    rintro ⟨b, i⟩
    match b with
    | 0 => exact hP.1 i
    | 1 => exact hP.2.1 i
  have hE := solverE_eq_alfa (K := chkECM d me') (by simpa [Params.opts] using hl) _ AdmECM (fun x hx => safe_ecm e hm hx) hstep hadm hs hlong
  have hA := solver_alfa_inv _ _ (by simpa [Params.opts] using hl) _ AdmECM hstep hadm hs hlong
  obtain ⟨x, y, E, r, E', r', ex, ey, ek, es, -⟩ := C54_ecm e g .ecm (.inl rfl) me'.name (.name name) adj ma ga p h
  have hx1 : R.g.x = some fun i => s.x (0, i) := by rw [show R = _ from hG]; exact k.1
  have hy1 : R.g.y = some fun i => s.x (1, i) := by rw [show R = _ from hG]; exact k.2.1
  obtain rfl : x = fun i => s.x (0, i) := Option.some.inj (ex.symm.trans hx1)
  obtain rfl : y = fun i => s.x (1, i) := Option.some.inj (ey.symm.trans hy1)
  refine ⟨_, _, s, ex, ey, ek, es, ?_⟩
  unfold runECM
  rw [h0]
  dsimp only
  rw [hE]
  simp only [expected_ecm_guard, guard_some fun i j hij => pair_ecm hA hij]
  congr 1
  funext v
  obtain ⟨b, i⟩ := v
  match b with
  | 0 => rw [deg_ecm_spec, EM.cat2_zero]
  | 1 => rw [str_ecm_spec, EM.cat2_one]

end ecm

end

end Verif.Checked
