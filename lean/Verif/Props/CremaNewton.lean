import Verif.Lemmas.Barrier
import Verif.Props.CremaFixed
import Verif.Props.CremaLaw2
import Verif.Props.DCReMa

/-! C72: the newton and quasinewton methods of the conditional reconstruction models converge. -/

namespace Verif.Solve

open Verif Finset Reduction Solver Spec EM

noncomputable section

open Classical in
attribute [local instance 0] propDecidable

variable {n : ℕ} [NeZero n]

theorem dom_triu {a : Fin n → Fin n → ℝ} (hs : ∀ i j, a i j = a j i) (x : Fin n → ℝ) : (∀ t ∈ triuEdges a, 0 < x t.1 + x t.2.1) ↔ Dom a x := by
  constructor
  · intro h i j hij
    rcases le_total i j with hl | hl
    · exact h _ (mem_triu hl hij)
    · rw [add_comm]; exact h _ (mem_triu hl (by rwa [hs]))
  · intro h t ht
    simp only [triuEdges, List.mem_map, List.mem_filter] at ht
    obtain ⟨q, ⟨-, hq⟩, rfl⟩ := ht
    exact h _ _ (of_decide_eq_true hq).2

theorem dom_nz {a : Fin n → Fin n → ℝ} (x : Fin 2 × Fin n → ℝ) : (∀ t ∈ nzEdges a, 0 < x (0, t.1) + x (1, t.2.1)) ↔ Dom (bip a) x := by
  have e : Dom (bip a) x ↔ ∀ i j, a i j ≠ 0 → 0 < x (0, i) + x (1, j) := by
    unfold Dom
    simp only [forall_pair, bip00, bip01, bip10, bip11]
    constructor
    · intro h i j hij; exact (h.1 i).2 j hij
    · intro h
      exact ⟨fun i => ⟨fun j hj => absurd rfl hj, fun j hj => h i j hj⟩, fun i => ⟨fun j hj => by rw [add_comm]; exact h j i hj, fun j hj => absurd rfl hj⟩⟩
  rw [e]
  constructor
  · exact fun h i j hij => h _ (mem_nz hij)
  · intro h t ht
    simp only [nzEdges, List.mem_map, List.mem_filter] at ht
    obtain ⟨q, ⟨-, hq⟩, rfl⟩ := ht
    exact h _ _ (of_decide_eq_true hq)

theorem llF_in (e : Env) {ι : Type} {dom : (ι → ℝ) → Prop} (L : (ι → ℝ) → ℝ) {x : ι → ℝ} (h : dom x) : llF e dom L x = some (L x) := if_pos h
theorem llF_out (e : Env) {ι : Type} {dom : (ι → ℝ) → Prop} (L : (ι → ℝ) → ℝ) {x : ι → ℝ} (h : ¬ dom x) : llF e dom L x = e.outside ι x := if_neg h

theorem quad_S {ι : Type} [Fintype ι] [DecidableEq ι] {a : ι → ι → ℝ} (hs : ∀ i j, a i j = a j i) {M : Matrix ι ι ℝ} {x : ι → ℝ}
    (hM : ∀ i j, M i j = (if i = j then ∑ k, a i k / (x i + x k) ^ 2 else 0) + a i j / (x i + x j) ^ 2) (v : ι → ℝ) : quad M v = EM.S a x v := by
  have h1 := sum_symm (w := fun i j => a i j / (x i + x j) ^ 2) (fun i j => by rw [hs i j, add_comm]) fun i => v i ^ 2
  have h2 : ∀ i, ∑ j, v i * M i j * v j = v i ^ 2 * ∑ j, a i j / (x i + x j) ^ 2 + ∑ j, a i j / (x i + x j) ^ 2 * (v i * v j) := fun i => by
    simp only [hM, mul_add, add_mul, sum_add_distrib]
    congr 1
    · simp only [mul_ite, ite_mul, mul_zero, zero_mul, sum_ite_eq, mem_univ, if_true]
      ring
    · exact sum_congr rfl fun j _ => by ring
  have h3 : ∀ i j, a i j * ((v i + v j) / (x i + x j)) ^ 2 = a i j / (x i + x j) ^ 2 * (v i ^ 2 + v j ^ 2) + 2 * (a i j / (x i + x j) ^ 2 * (v i * v j)) := fun i j => by
    rw [div_pow]; ring
  unfold quad EM.S
  simp only [h2, h3, sum_add_distrib, ← mul_sum]
  rw [h1]
  ring

theorem barrier_crema (e : Env) (ho : ∀ ι x, e.outside ι x = none) (d : UData n) {a : Fin n → Fin n → ℝ} (hs : ∀ i j, a i j = a j i) (hd : ∀ i, a i i = 0)
    (hn : ∀ i j, 0 ≤ a i j) {me : Method} (hme : me ≠ .fixed_point) : Barrier (cbCrema e d (triuEdges a) me) a d.strength_sequence where
  symm := hs
  nonneg := hn
  fn x i := by
    have : (cbCrema e d (triuEdges a) me).fn x i = -CReMa.loglikelihood_prime_crema_undirected x d.strength_sequence (triuEdges a) i := by
      cases me with
      | newton => rfl
      | quasinewton => rfl
      | fixed_point => exact absurd rfl hme
    rw [this, CReMa.prime_eq, str_crema_spec a hs hd, str_strCReMa hd]; ring
  search := ⟨llF e (fun x => ∀ t ∈ triuEdges a, 0 < x t.1 + x t.2.1) fun x => CReMa.loglikelihood_crema_undirected x d.strength_sequence (triuEdges a),
    fun x hx => (llF_in e _ ((dom_triu hs x).2 hx)).trans (by rw [ll_crema_spec a hs hd, L_logCReMa hs hd]),
    fun x hx => (llF_out e _ fun h => hx ((dom_triu hs x).1 h)).trans (ho _ _), fun _ _ _ => rfl⟩
  reg := rfl
  hess x v := quad_S hs (fun i j => by
    show -CReMa.loglikelihood_hessian_crema_undirected x (triuEdges a) i j = _
    by_cases h : i = j
    · subst h
      rw [CReMa.hess_triu_diag x a hs hd, if_pos rfl, hd, sum_neg_distrib]; simp
    · rw [CReMa.hess_triu_off x a hs i j h, if_neg h]; ring) v
  diag x i := by
    show -CReMa.loglikelihood_hessian_diag_crema_undirected x (triuEdges a) i = _
    rw [CReMa.diag_eq, inc_triu a hs hd (fun i j w => -(w / (x i + x j) ^ 2)) (by simp), sum_neg_distrib, neg_neg]

theorem barrier_dcrema (e : Env) (ho : ∀ ι x, e.outside ι x = none) (d : DData n) {a : Fin n → Fin n → ℝ} (hn : ∀ i j, 0 ≤ a i j)
    {me : Method} (hme : me ≠ .fixed_point) : Barrier (cbDCrema e d (nzEdges a) me) (bip a) (cat2 d.out_strength d.in_strength) where
  symm := bip_symm a
  nonneg := by simp only [forall_pair]; simp [hn]
  fn x v := by
    have h0 : (cbDCrema e d (nzEdges a) me).fn x v =
        -DCReMa.loglikelihood_prime_crema_directed x d.out_strength d.in_strength (nzEdges a) (DCM.nonzero d.out_strength) (DCM.nonzero d.in_strength) v := by
      cases me with
      | newton => rfl
      | quasinewton => rfl
      | fixed_point => exact absurd rfl hme
    rw [h0]
    revert v
    rw [forall_pair]
    constructor <;> intro i _
    · rw [DCReMa.prime_eq0 _ _ _ _ _ _ (DCM.nodup_nonzero _), DCReMa.out_eq, DCReMa.arc_out a (fun i j w => w / (x (0, i) + x (1, j))) (by simp), str_out, outStrCReMa, cat2_zero]
      by_cases h : d.out_strength i = 0 <;> simp [DCM.mem_nonzero, h]
      ring
    · rw [DCReMa.prime_eq1 _ _ _ _ _ _ (DCM.nodup_nonzero _), DCReMa.in_eq, DCReMa.arc_in a (fun i j w => w / (x (0, i) + x (1, j))) (by simp), str_in, inStrCReMa, cat2_one]
      by_cases h : d.in_strength i = 0 <;> simp [DCM.mem_nonzero, h]
      ring
  search := ⟨llF e (fun x => ∀ t ∈ nzEdges a, 0 < x (0, t.1) + x (1, t.2.1)) fun x =>
      DCReMa.loglikelihood_crema_directed x d.out_strength d.in_strength (nzEdges a) (DCM.nonzero d.out_strength) (DCM.nonzero d.in_strength),
    fun x hx => (llF_in e _ ((dom_nz x).2 hx)).trans (by rw [ll_dcrema_spec, LDCrema, L_logDCReMa]),
    fun x hx => (llF_out e _ fun h => hx ((dom_nz x).1 h)).trans (ho _ _), fun _ _ _ => rfl⟩
  reg := rfl
  hess x v := quad_S (bip_symm a) (fun u w => by
    show -DCReMa.loglikelihood_hessian_crema_directed x (nzEdges a) u w = _
    revert u w
    simp only [forall_pair, sum_pair]
    simp only [bip00, bip01, bip10, bip11]
    refine ⟨fun i => ⟨fun j => ?_, fun j => ?_⟩, fun i => ⟨fun j => ?_, fun j => ?_⟩⟩
    · rw [(DCReMa.hess_val x a i j).1]
      by_cases h : i = j <;> simp [h]
    · rw [(DCReMa.hess_val x a i j).2.2.1]; simp
    · rw [(DCReMa.hess_val x a j i).2.2.2]; simp [add_comm]
    · rw [(DCReMa.hess_val x a i j).2.1]
      by_cases h : i = j <;> simp [h, add_comm]) v
  diag x v := by
    show -DCReMa.loglikelihood_hessian_diag_crema_directed x (nzEdges a) v = _
    revert v
    simp only [forall_pair, sum_pair]
    simp only [bip00, bip01, bip10, bip11]
    constructor <;> intro i
    · rw [DCReMa.diag_eq0, DCReMa.arc_out a (fun i j w => -(w / (x (0, i) + x (1, j)) ^ 2)) (by simp), sum_neg_distrib]; simp
    · rw [DCReMa.diag_eq1, DCReMa.arc_in a (fun i j w => -(w / (x (0, i) + x (1, j)) ^ 2)) (by simp), sum_neg_distrib]; simp [add_comm]

/-- C72 (undirected).  Let `βs` be rates that reproduce the strengths exactly on the given links (every weighted network has them on its own links, C68), and let the log-likelihood
of the starting rates `β0` (what a call that may take no step returns) lie at most `1e13` times the smallest link probability below that of `βs`.  Then with line search both the newton
and the quasinewton method succeed, never lower the likelihood of the starting rates, and return finite rates; and there are a number of steps `T` and a threshold `τ > 0`, the same
for both methods and for every graph state, such that a call allowed more than `T` steps and with `eps < τ` returns rates whose mean strengths are all within `tol` of the strengths. -/
theorem C72_crema (e : Env) (he : e.Valid) (hr : e.NonzeroDraws) (ho : ∀ ι x, e.outside ι x = none) (d : UData n) (a : Fin n → Fin n → ℝ) (hL : LinksFor a d.strength_sequence)
    {βs : Fin n → ℝ} (hF : FiniteRates a βs) (hfit : ∀ i, strCReMa a βs i = d.strength_sequence i) {a0 : ℝ} (ha0 : 0 < a0) (hmin : ∀ i j, a i j ≠ 0 → a0 ≤ a i j)
    (guess : Guess n) (hg : guess.PositiveRates d) {g0 : UAttr d} {ma0 : String} {ga0 : Guess n} {p0 : Params} {β0 : Fin n → ℝ}
    (hstart : (solve_tool e g0 "crema" "newton" guess (.matrix a) ma0 ga0 { p0 with max_steps := 0 }).g.beta = some β0)
    (hgap : logCReMa a d.strength_sequence βs ≤ logCReMa a d.strength_sequence β0 + 1e13 * a0) {tol : ℝ} (ht : 0 < tol) :
    ∃ T : ℕ, ∃ τ > (0 : ℝ), ∀ (me : Method) (g : UAttr d) (ma : String) (ga : Guess n) (p : Params), me ≠ .fixed_point → p.tol = tol → p.linsearch = true →
      let R := solve_tool e g "crema" me.name guess (.matrix a) ma ga p
      R.exc = none ∧ ∃ β, R.g.beta = some β ∧ FiniteRates a β ∧ logCReMa a d.strength_sequence β0 ≤ logCReMa a d.strength_sequence β ∧
        (T < p.max_steps → p.eps < τ → ∀ i, |strCReMa a β i - d.strength_sequence i| ≤ tol) := by
  obtain ⟨b, gs, h0, h1, h2⟩ := guessCrema_positive e he hr d hL.s_nonneg guess hg
  have hb : β0 = b := by
    have k : solver (cbCrema e d (triuEdges a) .newton) ({ p0 with max_steps := 0 }.opts "newton") b = .ok (initState _ b) := rfl
    obtain ⟨-, c2⟩ := crema_call e g0 .newton guess a ma0 ga0 { p0 with max_steps := 0 } h0 k
    exact Option.some.inj (hstart.symm.trans c2)
  subst hb
  have hB := fun (me : Method) (hme : me ≠ .fixed_point) => barrier_crema e ho d hL.symm hL.noself hL.nonneg hme
  obtain ⟨T, τ, hτ, hT⟩ := (hB .newton (by simp)).solver ha0 hmin (xs := βs) hF (fun i => by rw [str_strCReMa hL.noself]; exact hfit i)
    (x0 := β0) (finite_of_good hL (good_rates hL h1 h2)) (by rw [L_logCReMa hL.symm hL.noself, L_logCReMa hL.symm hL.noself]; exact hgap) ht (reps := 1e-3) (by norm_num)
  refine ⟨T, τ, hτ, fun me g ma ga p hme hpt hl => ?_⟩
  intro R
  obtain ⟨r, k1, -, k2, k3, k4⟩ := hT _ (p.opts me.name) (hB me hme) hpt rfl (by cases me <;> simp [Params.opts, Method.name] at hme ⊢) rfl hl
  obtain ⟨c1, c2⟩ := crema_call e g me guess a ma ga p h0 k1
  refine ⟨c1, r.x, c2, k2, ?_, fun hm hep i => ?_⟩
  · rw [← L_logCReMa hL.symm hL.noself, ← L_logCReMa hL.symm hL.noself]; exact k3
  · refine le_trans ?_ (k4 hm hep)
    rw [← str_strCReMa hL.noself, abs_sub_comm, ← (hB me hme).fn]
    exact abs_le_norm2 _ i

/-- C72 (directed) -/
theorem C72_dcrema (e : Env) (he : e.Valid) (hr : e.NonzeroDraws) (ho : ∀ ι x, e.outside ι x = none) (d : DData n) (hz : d.nz_known = true) (a : Fin n → Fin n → ℝ)
    (hL : LinksForD a d.out_strength d.in_strength) {bos bis : Fin n → ℝ} (hF : FiniteRatesD a bos bis)
    (hfit : ∀ i, outStrCReMa a bos bis i = d.out_strength i ∧ inStrCReMa a bos bis i = d.in_strength i) {a0 : ℝ} (ha0 : 0 < a0) (hmin : ∀ i j, a i j ≠ 0 → a0 ≤ a i j)
    (guess : DGuess n) (hg : guess.PositiveRates d) {g0 : DAttr d} {ma0 : String} {ga0 : DGuess n} {p0 : Params} {bo0 bi0 : Fin n → ℝ}
    (hstart : (solve_tool_directed e g0 "crema" "newton" guess (.matrix a) ma0 ga0 { p0 with max_steps := 0 }).g.b_out = some bo0)
    (hstart' : (solve_tool_directed e g0 "crema" "newton" guess (.matrix a) ma0 ga0 { p0 with max_steps := 0 }).g.b_in = some bi0)
    (hgap : logDCReMa a d.out_strength d.in_strength bos bis ≤ logDCReMa a d.out_strength d.in_strength bo0 bi0 + 1e13 * a0) {tol : ℝ} (ht : 0 < tol) :
    ∃ T : ℕ, ∃ τ > (0 : ℝ), ∀ (me : Method) (g : DAttr d) (ma : String) (ga : DGuess n) (p : Params), me ≠ .fixed_point → p.tol = tol → p.linsearch = true →
      let R := solve_tool_directed e g "crema" me.name guess (.matrix a) ma ga p
      R.exc = none ∧ ∃ bo bi, R.g.b_out = some bo ∧ R.g.b_in = some bi ∧ FiniteRatesD a bo bi ∧
        logDCReMa a d.out_strength d.in_strength bo0 bi0 ≤ logDCReMa a d.out_strength d.in_strength bo bi ∧
        (T < p.max_steps → p.eps < τ → ∀ i, |outStrCReMa a bo bi i - d.out_strength i| ≤ tol ∧ |inStrCReMa a bo bi i - d.in_strength i| ≤ tol) := by
  obtain ⟨bo, bi, gs, h0, h1, h2⟩ := guessDCrema_positive e he hr d hL.so_nonneg hL.si_nonneg guess hg
  have hb : bo0 = bo ∧ bi0 = bi := by
    have k : solver (cbDCrema e d (nzEdges a) .newton) ({ p0 with max_steps := 0 }.opts "newton") (cat2 bo bi) = .ok (initState _ (cat2 bo bi)) := rfl
    obtain ⟨-, c2, c3⟩ := dcrema_call e g0 hz .newton guess a ma0 ga0 { p0 with max_steps := 0 } h0 k
    have e1 := Option.some.inj (hstart.symm.trans c2)
    have e2 := Option.some.inj (hstart'.symm.trans c3)
    exact ⟨e1.trans (by funext i; exact cat2_zero bo bi i), e2.trans (by funext i; exact cat2_one bo bi i)⟩
  obtain ⟨rfl, rfl⟩ := hb
  have hB := fun (me : Method) (hme : me ≠ .fixed_point) => barrier_dcrema e ho d hL.nonneg hme
  have hdom : ∀ b : Fin 2 × Fin n → ℝ, Dom (bip a) b ↔ FiniteRatesD a (fun i => b (0, i)) fun i => b (1, i) := fun b => by
    rw [← dom_nz]
    exact ⟨fun h i j hij => h _ (mem_nz hij), fun h => (dom_nz b).2 (by
      unfold Dom
      simp only [forall_pair, bip00, bip01, bip10, bip11]
      exact ⟨fun i => ⟨fun j hj => absurd rfl hj, fun j hj => h i j hj⟩, fun i => ⟨fun j hj => by rw [add_comm]; exact h j i hj, fun j hj => absurd rfl hj⟩⟩)⟩
  have hcz : ∀ x y : Fin n → ℝ, (fun i => cat2 x y (0, i)) = x := fun x y => by funext i; exact cat2_zero x y i
  have hco : ∀ x y : Fin n → ℝ, (fun i => cat2 x y (1, i)) = y := fun x y => by funext i; exact cat2_one x y i
  obtain ⟨T, τ, hτ, hT⟩ := (hB .newton (by simp)).solver ha0 (by
      simp only [forall_pair, bip00, bip01, bip10, bip11]
      exact ⟨fun i => ⟨fun j hj => absurd rfl hj, fun j hj => hmin i j hj⟩, fun i => ⟨fun j hj => hmin j i hj, fun j hj => absurd rfl hj⟩⟩)
    (xs := cat2 bos bis) ((hdom _).2 (by rw [hcz, hco]; exact hF))
    (by
      rw [forall_pair]
      refine ⟨fun i => ?_, fun i => ?_⟩
      · rw [str_out, hcz, hco, cat2_zero]; exact (hfit i).1
      · rw [str_in, hcz, hco, cat2_one]; exact (hfit i).2)
    (x0 := cat2 bo0 bi0) ((hdom _).2 (finite_of_goodD (good_ratesD hL h1 h2))) (by rw [L_logDCReMa, L_logDCReMa, hcz, hco, hcz, hco]; exact hgap) ht (reps := 1e-3) (by norm_num)
  refine ⟨T, τ, hτ, fun me g ma ga p hme hpt hl => ?_⟩
  intro R
  obtain ⟨r, k1, -, k2, k3, k4⟩ := hT _ (p.opts me.name) (hB me hme) hpt rfl (by cases me <;> simp [Params.opts, Method.name] at hme ⊢) rfl hl
  obtain ⟨c1, c2, c3⟩ := dcrema_call e g hz me guess a ma ga p h0 k1
  refine ⟨c1, _, _, c2, c3, (hdom _).1 k2, ?_, fun hm hep i => ⟨?_, ?_⟩⟩
  · rw [L_logDCReMa, L_logDCReMa, hcz, hco] at k3; exact k3
  · refine le_trans ?_ (k4 hm hep)
    have := abs_le_norm2 ((cbDCrema e d (nzEdges a) me).fn r.x) (0, i)
    rwa [(hB me hme).fn, cat2_zero, str_out, abs_sub_comm] at this
  · refine le_trans ?_ (k4 hm hep)
    have := abs_le_norm2 ((cbDCrema e d (nzEdges a) me).fn r.x) (1, i)
    rwa [(hB me hme).fn, cat2_one, str_in, abs_sub_comm] at this

/-! ### the gap of a network's own weights -/

theorem gap_weights {ι : Type} [Fintype ι] {p w : ι → ι → ℝ} (hpn : ∀ i j, 0 ≤ p i j) (hw : ∀ i j, w i j = w j i) (hwn : ∀ i j, 0 ≤ w i j)
    (hpw : ∀ i j, p i j ≠ 0 ↔ w i j ≠ 0) {s : ι → ℝ} (hs : ∀ i, s i = ∑ j, w i j) {x x0 : ι → ℝ} (hx : Dom p x) (hx0 : Dom p x0) :
    L p s x ≤ L p s x0 + (∑ i, ∑ j, p i j * (w i j * (x0 i + x0 j) / p i j - 1 - Real.log (w i j * (x0 i + x0 j) / p i j))) / 2 := by
  have hL : ∀ y, L p s y = (∑ i, ∑ j, (p i j * Real.log (y i + y j) - w i j * (y i + y j))) / 2 := fun y => by
    have h1 := sum_symm hw y
    have h2 : ∑ i, s i * y i = ∑ i, y i * ∑ j, w i j := sum_congr rfl fun i _ => by rw [hs, mul_comm]
    unfold EM.L
    simp only [sum_sub_distrib, h1, h2]
    ring
  rw [hL, hL, ← add_div, ← sum_add_distrib]
  refine div_le_div_of_nonneg_right (sum_le_sum fun i _ => ?_) (by norm_num)
  rw [← sum_add_distrib]
  refine sum_le_sum fun j _ => ?_
  by_cases h : p i j = 0
  · have : w i j = 0 := by_contra fun hc => (hpw i j).2 hc h
    simp [h, this]
  · have hp : 0 < p i j := lt_of_le_of_ne (hpn i j) (Ne.symm h)
    have hw0 : 0 < w i j := lt_of_le_of_ne (hwn i j) (Ne.symm ((hpw i j).1 h))
    have u := hx i j h
    have u0 := hx0 i j h
    have k := Real.log_le_sub_one_of_pos (x := w i j * (x i + x j) / p i j) (by positivity)
    rw [Real.log_div (by positivity) hp.ne', Real.log_mul hw0.ne' u.ne'] at k
    rw [Real.log_div (by positivity) hp.ne', Real.log_mul hw0.ne' u0.ne']
    have k2 := mul_le_mul_of_nonneg_left k hp.le
    have e1 : p i j * (w i j * (x i + x j) / p i j - 1) = w i j * (x i + x j) - p i j := by field_simp
    have e2 : p i j * (w i j * (x0 i + x0 j) / p i j - 1 - (Real.log (w i j) + Real.log (x0 i + x0 j) - Real.log (p i j))) =
      w i j * (x0 i + x0 j) - p i j - p i j * (Real.log (w i j) + Real.log (x0 i + x0 j) - Real.log (p i j)) := by field_simp
    rw [e1] at k2
    rw [e2]
    nlinarith

theorem gap_network {ι : Type} [Fintype ι] {p w : ι → ι → ℝ} (hpn : ∀ i j, 0 ≤ p i j) (hw : ∀ i j, w i j = w j i) (hwn : ∀ i j, 0 ≤ w i j)
    (hpw : ∀ i j, p i j ≠ 0 ↔ w i j ≠ 0) {s : ι → ℝ} (hs : ∀ i, s i = ∑ j, w i j) {x x0 : ι → ℝ} (hx : Dom p x) (hx0 : Dom p x0)
    (hy : ∀ i j, p i j ≠ 0 → p i j = 1 ∧ w i j * (x0 i + x0 j) ≤ 2 ∧ Real.exp (-999) ≤ w i j * (x0 i + x0 j)) :
    L p s x ≤ L p s x0 + 1000 * ((∑ i, ∑ j, p i j) / 2) := by
  refine (gap_weights hpn hw hwn hpw hs hx hx0).trans ?_
  rw [mul_div_assoc', mul_sum]
  refine add_le_add_right (div_le_div_of_nonneg_right (sum_le_sum fun i _ => ?_) (by norm_num)) _
  rw [mul_sum]
  refine sum_le_sum fun j _ => ?_
  by_cases h : p i j = 0
  · simp [h]
  · obtain ⟨h1, h2, h3⟩ := hy i j h
    rw [h1, div_one]
    have := Real.log_le_log (Real.exp_pos _) h3
    rw [Real.log_exp] at this
    linarith

theorem exp_huge : Real.exp (-999) ≤ 2 / 10 ^ 400 := by
  rw [Real.exp_neg, inv_eq_one_div, div_le_div_iff₀ (Real.exp_pos _) (by positivity)]
  have h1 : (0.124875 : ℝ) + 1 ≤ Real.exp 0.124875 := Real.add_one_le_exp _
  have h2 : Real.exp 999 = (Real.exp 0.124875 ^ 20) ^ 400 := by rw [← Real.exp_nat_mul, ← Real.exp_nat_mul]; norm_num
  have h3 : (10 : ℝ) ≤ Real.exp 0.124875 ^ 20 := le_trans (by norm_num) (pow_le_pow_left₀ (by norm_num) h1 20)
  have h4 : (10 : ℝ) ^ 400 ≤ Real.exp 999 := by
    rw [h2]; exact pow_le_pow_left₀ (by norm_num) h3 400
  have h5 := Real.exp_pos 999
  generalize (10 : ℝ) ^ 400 = K at h4 ⊢
  linarith

/-- the links of a weighted network and its named guesses meet the hypotheses of C72 -/
theorem network_start (e : Env) (he : e.Valid) (hr : e.NonzeroDraws) (d : UData n) (w : Fin n → Fin n → ℝ)
    (hw : ∀ i j, w i j = w j i) (hwn : ∀ i j, 0 ≤ w i j) (hd : ∀ i, w i i = 0) (hsum : ∀ i, d.strength_sequence i = ∑ j, w i j) (hn : n ≤ 100000)
    (hrange : ∀ i j, w i j ≠ 0 → ∑ k, d.strength_sequence k + 1 ≤ 10 ^ 400 * w i j) {name : String} (hname : name = "strengths" ∨ name = "strengths_minor") :
    let a : Fin n → Fin n → ℝ := fun i j => if w i j = 0 then 0 else 1
    LinksFor a d.strength_sequence ∧ (∀ i j, a i j ≠ 0 → 1 ≤ a i j) ∧ (Guess.name name : Guess n).PositiveRates d ∧
      ∃ βs, FiniteRates a βs ∧ (∀ i, strCReMa a βs i = d.strength_sequence i) ∧
      ∃ b, (solve_tool e ({} : UAttr d) "crema" "newton" (.name name) (.matrix a) "" .other { max_steps := 0 }).g.beta = some b ∧
        logCReMa a d.strength_sequence βs ≤ logCReMa a d.strength_sequence b + 1e13 * 1 := by
  intro a
  have haw : ∀ i j, a i j ≠ 0 ↔ w i j ≠ 0 := fun i j => by by_cases h : w i j = 0 <;> simp [a, h]
  have ha1 : ∀ i j, a i j ≠ 0 → a i j = 1 := fun i j h => by simp [a, (haw i j).1 h]
  have has : ∀ i j, a i j = a j i := fun i j => by simp only [a, hw i j]
  have had : ∀ i, a i i = 0 := fun i => by simp [a, hd]
  have han : ∀ i j, 0 ≤ a i j := fun i j => by simp only [a]; split_ifs <;> norm_num
  have hsw : ∀ i j, w i j ≤ d.strength_sequence i := fun i j => by rw [hsum]; exact single_le_sum (f := fun j => w i j) (fun j _ => hwn i j) (mem_univ j)
  have hs0 : ∀ i, 0 ≤ d.strength_sequence i := fun i => (hwn i i).trans (hsw i i)
  have hpos : ∀ i j, a i j ≠ 0 → 0 < w i j := fun i j h => lt_of_le_of_ne (hwn i j) (Ne.symm ((haw i j).1 h))
  have hsp : ∀ i j, a i j ≠ 0 → 0 < d.strength_sequence i := fun i j h => (hpos i j h).trans_le (hsw i j)
  have hL : LinksFor a d.strength_sequence := ⟨has, had, han, hs0, fun i j h => (hsp i j h).ne'⟩
  obtain ⟨βs, h1, h2⟩ := exists_exact has han hw hwn haw
  have hg : (Guess.name name : Guess n).PositiveRates d := by
    show name = _ ∨ _
    tauto
  set W := ∑ k, d.strength_sequence k with hW
  have hsW : ∀ i, d.strength_sequence i ≤ W := fun i => single_le_sum (f := d.strength_sequence) (fun j _ => hs0 j) (mem_univ i)
  have hs2 : ∀ i j, a i j ≠ 0 → d.strength_sequence i + d.strength_sequence j ≤ W := fun i j h => by
    have hij : i ≠ j := fun hc => h (by rw [hc, had])
    rw [← Finset.sum_pair hij]
    exact sum_le_sum_of_subset_of_nonneg (subset_univ _) fun k _ _ => hs0 k
  obtain ⟨b, gs, hb, -⟩ := guessCrema_positive e he hr d hL.s_nonneg (.name name) hg
  have hbv : ∀ i j, a i j ≠ 0 → w i j * (b i + b j) ≤ 2 ∧ 2 / (W + 1) * w i j ≤ w i j * (b i + b j) := by
    intro i j h
    have w0 := hpos i j h
    have s1 := hsp i j h
    have s2 := hsp j i (by rwa [has])
    have l1 := hsw i j
    have l2 := hsw j i
    rw [← hw] at l2
    have l3 := hs2 i j h
    have l4 := hsW i
    have l5 := hsW j
    have W0 : 0 < W := by linarith
    rcases hname with rfl | rfl
    · have hv : b = fun i => if d.strength_sequence i = 0 then 0 else (if d.strength_sequence i > 0 then 1 else 0) / W := by
        have : guessCrema e d (.name "strengths") = (.ok (maskSet (fun i => (if d.strength_sequence i > 0 then 1 else 0) / W) (fun i => d.strength_sequence i = 0) 0), .name "strengths") := rfl
        rw [this] at hb
        have := (Prod.mk.inj hb).1
        rw [← Except.ok.inj this]
        rfl
      have e1 : b i = 1 / W := by rw [hv]; simp [s1, s1.ne']
      have e2 : b j = 1 / W := by rw [hv]; simp [s2, s2.ne']
      rw [e1, e2]
      constructor
      · rw [← add_div, mul_div_assoc', div_le_iff₀ W0]; linarith
      · rw [mul_comm (2 / _)]
        refine mul_le_mul_of_nonneg_left ?_ w0.le
        rw [← add_div]
        rw [div_le_div_iff₀ (by linarith) W0]; linarith
    · have hv : b = fun i => if d.strength_sequence i = 0 then 0 else (if d.strength_sequence i > 0 then 1 else 0) / (d.strength_sequence i + 1) := by
        have : guessCrema e d (.name "strengths_minor") =
          (.ok (maskSet (fun i => (if d.strength_sequence i > 0 then 1 else 0) / (d.strength_sequence i + 1)) (fun i => d.strength_sequence i = 0) 0), .name "strengths_minor") := rfl
        rw [this] at hb
        have := (Prod.mk.inj hb).1
        rw [← Except.ok.inj this]
        rfl
      have e1 : b i = 1 / (d.strength_sequence i + 1) := by rw [hv]; simp [s1, s1.ne']
      have e2 : b j = 1 / (d.strength_sequence j + 1) := by rw [hv]; simp [s2, s2.ne']
      rw [e1, e2]
      constructor
      · have k1 : w i j * (1 / (d.strength_sequence i + 1)) ≤ 1 := by rw [mul_one_div, div_le_one (by linarith)]; linarith
        have k2 : w i j * (1 / (d.strength_sequence j + 1)) ≤ 1 := by rw [mul_one_div, div_le_one (by linarith)]; linarith
        rw [mul_add]; linarith
      · rw [mul_comm (2 / _)]
        refine mul_le_mul_of_nonneg_left ?_ w0.le
        have k1 : 1 / (W + 1) ≤ 1 / (d.strength_sequence i + 1) := one_div_le_one_div_of_le (by linarith) (by linarith)
        have k2 : 1 / (W + 1) ≤ 1 / (d.strength_sequence j + 1) := one_div_le_one_div_of_le (by linarith) (by linarith)
        calc 2 / (W + 1) = 1 / (W + 1) + 1 / (W + 1) := by ring
          _ ≤ _ := add_le_add k1 k2
  have hstart : (solve_tool e ({} : UAttr d) "crema" "newton" (.name name) (.matrix a) "" .other { max_steps := 0 }).g.beta = some b :=
    (crema_call e {} .newton (.name name) a "" .other { max_steps := 0 } hb (r := initState _ b) rfl).2
  have hx0 : Dom a b := fun i j h => by
    have := (hbv i j h).2
    have w0 := hpos i j h
    have W0 : 0 ≤ W := sum_nonneg fun k _ => hs0 k
    have : 0 < w i j * (b i + b j) := lt_of_lt_of_le (by positivity) this
    exact (mul_pos_iff_of_pos_left w0).1 this
  have hgap := gap_network han hw hwn haw hsum h1 hx0 fun i j h => ⟨ha1 i j h, (hbv i j h).1, by
    refine le_trans ?_ (hbv i j h).2
    refine exp_huge.trans ?_
    have k := hrange i j ((haw i j).1 h)
    have W0 : 0 ≤ W := sum_nonneg fun k _ => hs0 k
    generalize (10 : ℝ) ^ 400 = K at k ⊢
    have w0 := hpos i j h
    have K0 : 0 < K := by
      by_contra hc
      have := mul_nonpos_of_nonpos_of_nonneg (not_lt.1 hc) w0.le
      linarith
    rw [div_mul_eq_mul_div, div_le_div_iff₀ K0 (by linarith)]
    linarith⟩
  rw [L_logCReMa has had, L_logCReMa has had] at hgap
  have hcount : (∑ i, ∑ j, a i j) / 2 ≤ 1e10 := by
    have h3 : ∑ i, ∑ j, a i j ≤ ∑ _i : Fin n, ∑ _j : Fin n, (1 : ℝ) := sum_le_sum fun i _ => sum_le_sum fun j _ => by simp only [a]; split_ifs <;> norm_num
    simp only [sum_const, card_univ, Fintype.card_fin, nsmul_eq_mul, mul_one] at h3
    have h4 : (n : ℝ) ≤ 100000 := by exact_mod_cast hn
    have h5 : (0 : ℝ) ≤ n := Nat.cast_nonneg n
    nlinarith
  exact ⟨hL, fun i j h => (ha1 i j h).ge, hg, βs, h1, fun i => by rw [← str_strCReMa had, h2, hsum], b, hstart, by linarith⟩

/-- C72 for the links of a weighted network itself: if it has at most 100 000 nodes and its total strength plus one is at most `10 ^ 400` times its smallest weight (a ratio of
weights no data set reaches), then started from "strengths" or "strengths_minor" both methods reproduce all strengths to any tolerance. -/
theorem C72_crema_network (e : Env) (he : e.Valid) (hr : e.NonzeroDraws) (ho : ∀ ι x, e.outside ι x = none) (d : UData n) (w : Fin n → Fin n → ℝ)
    (hw : ∀ i j, w i j = w j i) (hwn : ∀ i j, 0 ≤ w i j) (hd : ∀ i, w i i = 0) (hsum : ∀ i, d.strength_sequence i = ∑ j, w i j) (hn : n ≤ 100000)
    (hrange : ∀ i j, w i j ≠ 0 → ∑ k, d.strength_sequence k + 1 ≤ 10 ^ 400 * w i j) {name : String} (hname : name = "strengths" ∨ name = "strengths_minor") {tol : ℝ} (ht : 0 < tol) :
    let a : Fin n → Fin n → ℝ := fun i j => if w i j = 0 then 0 else 1
    ∃ T : ℕ, ∃ τ > (0 : ℝ), ∀ (me : Method) (g : UAttr d) (ma : String) (ga : Guess n) (p : Params), me ≠ .fixed_point → p.tol = tol → p.linsearch = true →
      T < p.max_steps → p.eps < τ →
      let R := solve_tool e g "crema" me.name (.name name) (.matrix a) ma ga p
      R.exc = none ∧ ∃ β, R.g.beta = some β ∧ FiniteRates a β ∧ ∀ i, |strCReMa a β i - d.strength_sequence i| ≤ tol := by
  intro a
  obtain ⟨hL, ha1, hg, βs, h1, h2, b, hstart, hgap⟩ := network_start e he hr d w hw hwn hd hsum hn hrange hname
  obtain ⟨T, τ, hτ, hT⟩ := C72_crema e he hr ho d a hL h1 h2 one_pos ha1 (.name name) hg (p0 := {}) hstart hgap ht
  refine ⟨T, τ, hτ, fun me g ma ga p c1 c2 c3 c4 c5 => ?_⟩
  obtain ⟨k1, β, k2, k3, -, k4⟩ := hT me g ma ga p c1 c2 c3
  exact ⟨k1, β, k2, k3, k4 c4 c5⟩

/-- the links of a directed weighted network and its named guesses meet the hypotheses of C72 -/
theorem network_startD (e : Env) (he : e.Valid) (hr : e.NonzeroDraws) (d : DData n) (hz : d.nz_known = true) (w : Fin n → Fin n → ℝ)
    (hwn : ∀ i j, 0 ≤ w i j) (hout : ∀ i, d.out_strength i = ∑ j, w i j) (hin : ∀ j, d.in_strength j = ∑ i, w i j) (hn : n ≤ 100000)
    (hrange : ∀ i j, w i j ≠ 0 → ∑ k, d.out_strength k + 1 ≤ 10 ^ 400 * w i j) {name : String} (hname : name = "strengths" ∨ name = "strengths_minor") :
    let a : Fin n → Fin n → ℝ := fun i j => if w i j = 0 then 0 else 1
    LinksForD a d.out_strength d.in_strength ∧ (∀ i j, a i j ≠ 0 → 1 ≤ a i j) ∧ (DGuess.name name : DGuess n).PositiveRates d ∧
      ∃ bos bis, FiniteRatesD a bos bis ∧ (∀ i, outStrCReMa a bos bis i = d.out_strength i ∧ inStrCReMa a bos bis i = d.in_strength i) ∧
      ∃ bo bi, (let R := solve_tool_directed e ({} : DAttr d) "crema" "newton" (.name name) (.matrix a) "" .other { max_steps := 0 }
        R.g.b_out = some bo ∧ R.g.b_in = some bi) ∧
        logDCReMa a d.out_strength d.in_strength bos bis ≤ logDCReMa a d.out_strength d.in_strength bo bi + 1e13 * 1 := by
  intro a
  have haw : ∀ i j, a i j ≠ 0 ↔ w i j ≠ 0 := fun i j => by by_cases h : w i j = 0 <;> simp [a, h]
  have ha1 : ∀ i j, a i j ≠ 0 → a i j = 1 := fun i j h => by simp [a, (haw i j).1 h]
  have han : ∀ i j, 0 ≤ a i j := fun i j => by simp only [a]; split_ifs <;> norm_num
  have hso : ∀ i j, w i j ≤ d.out_strength i := fun i j => by rw [hout]; exact single_le_sum (f := fun j => w i j) (fun j _ => hwn i j) (mem_univ j)
  have hsi : ∀ i j, w i j ≤ d.in_strength j := fun i j => by rw [hin]; exact single_le_sum (f := fun i => w i j) (fun i _ => hwn i j) (mem_univ i)
  have so0 : ∀ i, 0 ≤ d.out_strength i := fun i => (hwn i i).trans (hso i i)
  have si0 : ∀ i, 0 ≤ d.in_strength i := fun i => (hwn i i).trans (hsi i i)
  have hpos : ∀ i j, a i j ≠ 0 → 0 < w i j := fun i j h => lt_of_le_of_ne (hwn i j) (Ne.symm ((haw i j).1 h))
  have sop : ∀ i j, a i j ≠ 0 → 0 < d.out_strength i := fun i j h => (hpos i j h).trans_le (hso i j)
  have sip : ∀ i j, a i j ≠ 0 → 0 < d.in_strength j := fun i j h => (hpos i j h).trans_le (hsi i j)
  have hL : LinksForD a d.out_strength d.in_strength := ⟨han, so0, si0, fun i j h => ⟨(sop i j h).ne', (sip i j h).ne'⟩⟩
  have bn : ∀ u v, 0 ≤ bip a u v := by simp only [forall_pair]; simp [han]
  have bw : ∀ u v, 0 ≤ bip w u v := by simp only [forall_pair]; simp [hwn]
  have baw : ∀ u v, bip a u v ≠ 0 ↔ bip w u v ≠ 0 := by simp only [forall_pair]; simpa using ⟨haw, fun i j => haw j i⟩
  obtain ⟨βs, h1, h2⟩ := exists_exact (p := bip a) (w := bip w) (bip_symm a) bn (bip_symm w) bw baw
  have hsum : ∀ v, cat2 d.out_strength d.in_strength v = ∑ u, bip w v u := by
    rw [forall_pair]
    constructor <;> intro i <;> rw [EM.sum_pair] <;> simp [hout, hin]
  have hg : (DGuess.name name : DGuess n).PositiveRates d := by
    show name = _ ∨ _
    tauto
  set W := ∑ k, d.out_strength k with hW
  have hWi : ∑ k, d.in_strength k = W := by rw [hW]; simp only [hout, hin]; rw [sum_comm]
  have hsW : ∀ i, d.out_strength i ≤ W := fun i => single_le_sum (f := d.out_strength) (fun j _ => so0 j) (mem_univ i)
  have hsWi : ∀ i, d.in_strength i ≤ W := fun i => by rw [← hWi]; exact single_le_sum (f := d.in_strength) (fun j _ => si0 j) (mem_univ i)
  obtain ⟨bo, bi, gs, hb, -⟩ := guessDCrema_positive e he hr d hL.so_nonneg hL.si_nonneg (.name name) hg
  have hbv : ∀ i j, a i j ≠ 0 → w i j * (bo i + bi j) ≤ 2 ∧ 2 / (W + 1) * w i j ≤ w i j * (bo i + bi j) := by
    intro i j h
    have w0 := hpos i j h
    have s1 := sop i j h
    have s2 := sip i j h
    have l1 := hso i j
    have l2 := hsi i j
    have l4 := hsW i
    have l5 := hsWi j
    have W0 : 0 < W := by linarith
    rcases hname with rfl | rfl
    · have : guessDCrema e d (.name "strengths") = (.ok (maskSet (fun i => (if d.out_strength i > 0 then 1 else 0) / W) (fun i => d.out_strength i = 0) 0,
        maskSet (fun i => (if d.in_strength i > 0 then 1 else 0) / ∑ k, d.in_strength k) (fun i => d.in_strength i = 0) 0), .name "strengths") := rfl
      rw [this, hWi] at hb
      obtain ⟨hv, hv'⟩ := Prod.mk.inj (Except.ok.inj (Prod.mk.inj hb).1)
      have e1 : bo i = 1 / W := by rw [← hv]; simp [maskSet, s1, s1.ne']
      have e2 : bi j = 1 / W := by rw [← hv']; simp [maskSet, s2, s2.ne']
      rw [e1, e2]
      constructor
      · rw [← add_div, mul_div_assoc', div_le_iff₀ W0]; linarith
      · rw [mul_comm (2 / _)]
        refine mul_le_mul_of_nonneg_left ?_ w0.le
        rw [← add_div]
        rw [div_le_div_iff₀ (by linarith) W0]; linarith
    · have : guessDCrema e d (.name "strengths_minor") =
        (.ok (maskSet (fun i => (if d.out_strength i > 0 then 1 else 0) / (d.out_strength i + 1)) (fun i => d.out_strength i = 0) 0,
          maskSet (fun i => (if d.in_strength i > 0 then 1 else 0) / (d.in_strength i + 1)) (fun i => d.in_strength i = 0) 0), .name "strengths_minor") := rfl
      rw [this] at hb
      obtain ⟨hv, hv'⟩ := Prod.mk.inj (Except.ok.inj (Prod.mk.inj hb).1)
      have e1 : bo i = 1 / (d.out_strength i + 1) := by rw [← hv]; simp [maskSet, s1, s1.ne']
      have e2 : bi j = 1 / (d.in_strength j + 1) := by rw [← hv']; simp [maskSet, s2, s2.ne']
      rw [e1, e2]
      constructor
      · have k1 : w i j * (1 / (d.out_strength i + 1)) ≤ 1 := by rw [mul_one_div, div_le_one (by linarith)]; linarith
        have k2 : w i j * (1 / (d.in_strength j + 1)) ≤ 1 := by rw [mul_one_div, div_le_one (by linarith)]; linarith
        rw [mul_add]; linarith
      · rw [mul_comm (2 / _)]
        refine mul_le_mul_of_nonneg_left ?_ w0.le
        have k1 : 1 / (W + 1) ≤ 1 / (d.out_strength i + 1) := one_div_le_one_div_of_le (by linarith) (by linarith)
        have k2 : 1 / (W + 1) ≤ 1 / (d.in_strength j + 1) := one_div_le_one_div_of_le (by linarith) (by linarith)
        calc 2 / (W + 1) = 1 / (W + 1) + 1 / (W + 1) := by ring
          _ ≤ _ := add_le_add k1 k2
  have hcz : ∀ x y : Fin n → ℝ, (fun i => cat2 x y (0, i)) = x := fun x y => by funext i; exact cat2_zero x y i
  have hco : ∀ x y : Fin n → ℝ, (fun i => cat2 x y (1, i)) = y := fun x y => by funext i; exact cat2_one x y i
  have hcall := dcrema_call e ({} : DAttr d) hz .newton (.name name) a "" .other { max_steps := 0 } hb (r := initState _ (cat2 bo bi)) rfl
  have hstart : (solve_tool_directed e ({} : DAttr d) "crema" "newton" (.name name) (.matrix a) "" .other { max_steps := 0 }).g.b_out = some bo :=
    hcall.2.1.trans (congrArg some (hcz bo bi))
  have hstart' : (solve_tool_directed e ({} : DAttr d) "crema" "newton" (.name name) (.matrix a) "" .other { max_steps := 0 }).g.b_in = some bi :=
    hcall.2.2.trans (congrArg some (hco bo bi))
  have W0 : 0 ≤ W := sum_nonneg fun k _ => so0 k
  have hx0' : ∀ i j, a i j ≠ 0 → 0 < bo i + bi j := fun i j h => by
    have w0 := hpos i j h
    have : 0 < w i j * (bo i + bi j) := lt_of_lt_of_le (by positivity) (hbv i j h).2
    exact (mul_pos_iff_of_pos_left w0).1 this
  have hx0 : Dom (bip a) (cat2 bo bi) := by
    unfold Dom
    simp only [forall_pair, bip00, bip01, bip10, bip11, cat2_zero, cat2_one]
    exact ⟨fun i => ⟨fun j hj => absurd rfl hj, fun j hj => hx0' i j hj⟩, fun i => ⟨fun j hj => by rw [add_comm]; exact hx0' j i hj, fun j hj => absurd rfl hj⟩⟩
  have hexp : ∀ i j, a i j ≠ 0 → Real.exp (-999) ≤ w i j * (bo i + bi j) := fun i j h => by
    refine le_trans ?_ (hbv i j h).2
    refine exp_huge.trans ?_
    have k := hrange i j ((haw i j).1 h)
    generalize (10 : ℝ) ^ 400 = K at k ⊢
    have w0 := hpos i j h
    have K0 : 0 < K := by
      by_contra hc
      have := mul_nonpos_of_nonpos_of_nonneg (not_lt.1 hc) w0.le
      linarith
    rw [div_mul_eq_mul_div, div_le_div_iff₀ K0 (by linarith)]
    linarith
  have hgap := gap_network bn (bip_symm w) bw baw hsum h1 hx0 (by
    simp only [forall_pair, bip00, bip01, bip10, bip11, cat2_zero, cat2_one]
    exact ⟨fun i => ⟨fun j hj => absurd rfl hj, fun j hj => ⟨ha1 i j hj, (hbv i j hj).1, hexp i j hj⟩⟩,
      fun i => ⟨fun j hj => by rw [add_comm (bi i)]; exact ⟨ha1 j i hj, (hbv j i hj).1, hexp j i hj⟩, fun j hj => absurd rfl hj⟩⟩)
  rw [L_logDCReMa, L_logDCReMa, hcz, hco] at hgap
  have hcount : (∑ u, ∑ v, bip a u v) / 2 ≤ 1e10 := by
    have h3 : ∑ i, ∑ j, a i j ≤ ∑ _i : Fin n, ∑ _j : Fin n, (1 : ℝ) := sum_le_sum fun i _ => sum_le_sum fun j _ => by simp only [a]; split_ifs <;> norm_num
    simp only [sum_const, card_univ, Fintype.card_fin, nsmul_eq_mul, mul_one] at h3
    have h4 : (n : ℝ) ≤ 100000 := by exact_mod_cast hn
    have h5 : (0 : ℝ) ≤ n := Nat.cast_nonneg n
    have h6 : ∑ u, ∑ v, bip a u v = ∑ i, ∑ j, a i j + ∑ i, ∑ j, a i j := by
      rw [EM.sum_pair]
      simp only [EM.sum_pair (fun v => bip a _ v), bip00, bip01, bip10, bip11, sum_const_zero, zero_add, add_zero]
      congr 1
      exact sum_comm
    rw [h6]
    nlinarith
  exact ⟨hL, fun i j h => (ha1 i j h).ge, hg, fun i => βs (0, i), fun i => βs (1, i), fun i j h => h1 (0, i) (1, j) (by simpa using h),
    fun i => ⟨by rw [← str_out, h2, ← hsum, cat2_zero], by rw [← str_in, h2, ← hsum, cat2_one]⟩, bo, bi, ⟨hstart, hstart'⟩, by linarith⟩

/-- C72 for the links of a directed weighted network itself -/
theorem C72_dcrema_network (e : Env) (he : e.Valid) (hr : e.NonzeroDraws) (ho : ∀ ι x, e.outside ι x = none) (d : DData n) (hz : d.nz_known = true) (w : Fin n → Fin n → ℝ)
    (hwn : ∀ i j, 0 ≤ w i j) (hout : ∀ i, d.out_strength i = ∑ j, w i j) (hin : ∀ j, d.in_strength j = ∑ i, w i j) (hn : n ≤ 100000)
    (hrange : ∀ i j, w i j ≠ 0 → ∑ k, d.out_strength k + 1 ≤ 10 ^ 400 * w i j) {name : String} (hname : name = "strengths" ∨ name = "strengths_minor") {tol : ℝ} (ht : 0 < tol) :
    let a : Fin n → Fin n → ℝ := fun i j => if w i j = 0 then 0 else 1
    ∃ T : ℕ, ∃ τ > (0 : ℝ), ∀ (me : Method) (g : DAttr d) (ma : String) (ga : DGuess n) (p : Params), me ≠ .fixed_point → p.tol = tol → p.linsearch = true →
      T < p.max_steps → p.eps < τ →
      let R := solve_tool_directed e g "crema" me.name (.name name) (.matrix a) ma ga p
      R.exc = none ∧ ∃ bo bi, R.g.b_out = some bo ∧ R.g.b_in = some bi ∧ FiniteRatesD a bo bi ∧
        ∀ i, |outStrCReMa a bo bi i - d.out_strength i| ≤ tol ∧ |inStrCReMa a bo bi i - d.in_strength i| ≤ tol := by
  intro a
  obtain ⟨hL, ha1, hg, bos, bis, h1, h2, bo, bi, ⟨hstart, hstart'⟩, hgap⟩ := network_startD e he hr d hz w hwn hout hin hn hrange hname
  obtain ⟨T, τ, hτ, hT⟩ := C72_dcrema e he hr ho d hz a hL (bos := bos) (bis := bis) h1 h2 one_pos ha1 (.name name) hg (p0 := {}) hstart hstart' hgap ht
  refine ⟨T, τ, hτ, fun me g ma ga p c1 c2 c3 c4 c5 => ?_⟩
  obtain ⟨k1, bo', bi', k2, k2', k3, -, k4⟩ := hT me g ma ga p c1 c2 c3
  exact ⟨k1, bo', bi', k2, k2', k3, k4 c4 c5⟩

/-- the triangle of weights 10, 10 and 1, whose strengths the fixed-point method cannot reach (C68), is solved by newton and quasinewton from the same named guesses -/
theorem C72_triangle (e : Env) (he : e.Valid) (hr : e.NonzeroDraws) (ho : ∀ ι x, e.outside ι x = none) {tol : ℝ} (ht : 0 < tol) :
    ∃ T : ℕ, ∃ τ > (0 : ℝ), ∀ (me : Method) (g : UAttr triangleData) (ma : String) (ga : Guess 3) (p : Params), me ≠ .fixed_point → p.tol = tol → p.linsearch = true →
      T < p.max_steps → p.eps < τ →
      let R := solve_tool e g "crema" me.name (.name "strengths_minor") (.matrix triangle) ma ga p
      R.exc = none ∧ ∃ β, R.g.beta = some β ∧ FiniteRates triangle β ∧ ∀ i, |strCReMa triangle β i - triangleData.strength_sequence i| ≤ tol := by
  have h := C72_crema_network e he hr ho triangleData (fun i j => if i = j then 0 else if i = 0 ∨ j = 0 then 10 else 1)
    (fun i j => by fin_cases i <;> fin_cases j <;> simp) (fun i j => by split_ifs <;> norm_num) (fun i => by simp)
    (fun i => by fin_cases i <;> simp [triangleData, Fin.sum_univ_three] <;> norm_num) (by norm_num) (fun i j _ => by
      have hK : (10 : ℝ) ^ 2 ≤ 10 ^ 400 := pow_le_pow_right₀ (by norm_num) (by norm_num)
      generalize (10 : ℝ) ^ 400 = K at hK ⊢
      have : ∑ k, triangleData.strength_sequence k = 42 := by simp [triangleData, Fin.sum_univ_three]; norm_num
      rw [this]
      split_ifs at * <;> first | (exfalso; simp_all; done) | nlinarith) (name := "strengths_minor") (.inr rfl) ht
  have e1 : (fun i j : Fin 3 => if (if i = j then (0 : ℝ) else if i = 0 ∨ j = 0 then 10 else 1) = 0 then (0 : ℝ) else 1) = triangle := by
    funext i j
    unfold triangle
    by_cases hij : i = j
    · simp [hij]
    · by_cases h0 : i = 0 ∨ j = 0 <;> simp [hij, h0]
  rw [e1] at h
  exact h

end

end Verif.Solve
