import Verif.Props.SolveD2

/-! C37 against the history of a `DirectedGraph`; C13 for `DirectedGraph.solve_tool`. -/

namespace Verif.Solve

open Verif Finset Reduction Solver Spec

open Classical in
attribute [local instance 0] propDecidable

/-! ### C37: stale attributes -/

section
variable {n : ℕ} [NeZero n] {d : DData n}

/-- an object that holds rates but no CReMa probabilities cannot report the error of the DBCM -/
theorem error_dcm_stale (G : DAttr d) (hn : G.last_model = some "dcm" ∨ G.last_model = some "dcm_exp") {bo bi : Fin n → ℝ} (hbo : G.b_out = some bo)
    (hbi : G.b_in = some bi) (ha : G.adjacency_crema = none) : (solutionErrorD G).2 = some (.py .attributeError) := by
  have k : ∀ {α : Type} (f : DAttr d → α), (∀ g, f g.sol = f g) → f (degreeErrorD G) = f G := fun f hf => by rw [← hf, degreeErrorD_sol, hf]
  unfold solutionErrorD
  rw [if_pos (by tauto)]
  unfold strengthErrorD
  simp only [k DAttr.b_out (fun _ => rfl), hbo, k DAttr.b_in (fun _ => rfl), hbi, k DAttr.adjacency_crema (fun _ => rfl), ha]

/-- C37 is false after the DECM: once `solve_tool("decm")` (or "decm_exp") has returned on a fresh object, every later `solve_tool("dcm")` or "dcm_exp" on that
object raises an exception, whatever its arguments. -/
theorem C37_dcm_after_decm (e e' : Env) (m₁ m₂ : DModel) (h₁ : m₁ = .decm ∨ m₁ = .decm_exp) (h₂ : m₂ = .dcm ∨ m₂ = .dcm_exp)
    (method method' : String) (guess guess' : DGuess n) (adj adj' : AdjSpec n) (ma ma' : String) (ga ga' : DGuess n) (p p' : Params) :
    let R₁ := solve_tool_directed e ({} : DAttr d) m₁.name method guess adj ma ga p
    let R₂ := solve_tool_directed e' R₁.g m₂.name method' guess' adj' ma' ga' p'
    R₁.exc = none → R₂.exc ≠ none := by
  intro R₁ R₂ hR hex
  have hst : ∃ bo bi, R₁.g.b_out = some bo ∧ R₁.g.b_in = some bi ∧ R₁.g.adjacency_crema = none := by
    rcases h₁ with rfl | rfl
    · obtain ⟨me, v, guess', s, -, -, -, hG⟩ := solve_tool_ok_decm e {} method guess adj ma ga p hR
      rw [show R₁ = _ from hG]
      exact ⟨_, _, keepsD DAttr.b_out (fun _ => rfl) _, keepsD DAttr.b_in (fun _ => rfl) _, keepsD DAttr.adjacency_crema (fun _ => rfl) _⟩
    · obtain ⟨me, v, guess', s, -, -, -, hG⟩ := solve_tool_ok_decm_exp e {} method guess adj ma ga p hR
      rw [show R₁ = _ from hG]
      exact ⟨_, _, keepsD DAttr.b_out (fun _ => rfl) _, keepsD DAttr.b_in (fun _ => rfl) _, keepsD DAttr.adjacency_crema (fun _ => rfl) _⟩
  obtain ⟨bo, bi, hbo, hbi, ha⟩ := hst
  rcases h₂ with rfl | rfl
  · obtain ⟨me, x0, s, -, -, -, -, hG⟩ := solve_tool_ok_dcm e' R₁.g method' guess' adj' ma' ga' p' hex
    rw [error_dcm_stale (setSolvedDCM (preDCM R₁.g .dcm p') false s) (.inl rfl) hbo hbi ha] at hG
    simp at hG
  · obtain ⟨me, x0, s, -, -, -, -, hG⟩ := solve_tool_ok_dcm_exp e' R₁.g method' guess' adj' ma' ga' p' hex
    rw [error_dcm_stale (setSolvedDCM (preDCM R₁.g .dcm_exp p') true s) (.inr rfl) hbo hbi ha] at hG
    simp at hG

end

/-! ### regular directed graphs -/

/-- the graph with `n` nodes of out- and in-degree `k` and strengths `s` -/
def regularD (n k : ℕ) (s : ℝ) : DData n := ⟨fun _ => k, fun _ => k, fun _ => s, fun _ => s, true⟩

section
variable {n k : ℕ} [NeZero n] {s : ℝ}

theorem regularD_ko (q : Fin (regularD n k s).r) : (regularD n k s).ko q = k ∧ (regularD n k s).ki q = k := by
  obtain ⟨i, rfl⟩ := (regularD n k s).inv_surj q
  exact (regularD n k s).class_of i

end

/-- the hypothesis of `C37_dcm_after_decm` is met: two nodes, `solve_tool("decm", max_steps=0)` from the guess "uniform" -/
example (e : Env) : (solve_tool_directed e ({} : DAttr (regularD 2 1 1)) "decm" "newton" (.name "uniform") .other "" .other { max_steps := 0 }).exc = none := by
  have h0 : guessDECM e (regularD 2 1 1) false (.name "uniform") = (.ok fun _ => 0.9, .name "uniform") := by
    simp only [guessDECM, namedDECM, Bool.false_eq_true, if_false, reduceIte, String.reduceEq]
    congr 2
    funext v
    simp only [finishDECM, Bool.false_eq_true, if_false, maskSet]
    rw [if_neg]
    simp [DData.obs, DData.degOut, DData.degIn, regularD]
  have hR := solve_tool_decm e ({} : DAttr (regularD 2 1 1)) .newton (.name "uniform") .other "" .other { max_steps := 0 } h0
  rw [C15_solver_no_step _ _ _ (.inl rfl)] at hR
  rw [show Method.name .newton = "newton" from rfl] at hR
  rw [hR]
  simp [solutionErrorD, setSolvedDECM, preDECM, DModel.name]

/-- C37 is false after CReMa: on the two opposite links between two nodes (all degrees and strengths 1), solve CReMa on the observed matrix and then the DBCM
(both calls return their starting point, `max_steps=0`).  The second call reports error 0, the largest violation of the strengths by the stale rates,
although every expected degree is off by 1/2. -/
theorem C37_directed_stale_rates (e : Env) (ma : String) (ga : DGuess 2) :
    let d := regularD 2 1 1
    let a : Fin 2 → Fin 2 → ℝ := fun i j => if i = j then 0 else 1
    let R₁ := solve_tool_directed e ({} : DAttr d) "crema" "newton" (.pairs fun _ => 1 / 2) (.matrix a) ma ga { max_steps := 0 }
    let R₂ := solve_tool_directed e R₁.g "dcm" "newton" (.pairs fun _ => 1) (.matrix a) ma ga { max_steps := 0 }
    R₁.exc = none ∧ R₂.exc = none ∧ R₂.g.x = some (fun _ => 1) ∧ R₂.g.y = some (fun _ => 1) ∧ R₂.g.error = some 0 ∧
      ∀ i, |outDBCM (fun _ : Fin 2 => (1 : ℝ)) (fun _ => 1) i - d.dseq_out i| = 1 / 2 := by
  intro d a R₁ R₂
  have g1 : guessDCrema e d (.pairs fun _ => 1 / 2) = (.ok (fun _ => 1 / 2, fun _ => 1 / 2), .pairs (cat2 (fun _ => 1 / 2) fun _ => 1 / 2)) := by
    have h1 : maskSet (fun _ : Fin 2 => (1 : ℝ) / 2) (fun i => d.out_strength i = 0) 0 = fun _ => 1 / 2 := by funext i; simp [maskSet, d, regularD]
    have h2 : maskSet (fun _ : Fin 2 => (1 : ℝ) / 2) (fun i => d.in_strength i = 0) 0 = fun _ => 1 / 2 := by funext i; simp [maskSet, d, regularD]
    simp only [guessDCrema, h1, h2]
  have g2 : guessDCM e d false (.pairs fun _ => 1) = .ok (cat2 (fun _ => 1) fun _ => 1) := by
    have h1 : maskSet (fun _ : Fin d.r => (1 : ℝ)) (fun q => d.ko q = 0) 0 = fun _ => 1 := by funext q; simp [maskSet, d, (regularD_ko q).1]
    have h2 : maskSet (fun _ : Fin d.r => (1 : ℝ)) (fun q => d.ki q = 0) 0 = fun _ => 1 := by funext q; simp [maskSet, d, (regularD_ko q).2]
    simp only [guessDCM, finishDCM, Bool.false_eq_true, if_false, h1, h2]
  have hst : maxAbs (fun v => cat2 (DCReMa.expected_out_strength_crema_directed (cat2 (fun _ => 1 / 2) fun _ => 1 / 2) (nzEdges a))
      (DCReMa.expected_in_strength_crema_directed (cat2 (fun _ => 1 / 2) fun _ => 1 / 2) (nzEdges a)) v - cat2 d.out_strength d.in_strength v) = 0 := by
    have : (fun v => cat2 (DCReMa.expected_out_strength_crema_directed (cat2 (fun _ => 1 / 2) fun _ => 1 / 2) (nzEdges a))
        (DCReMa.expected_in_strength_crema_directed (cat2 (fun _ => 1 / 2) fun _ => 1 / 2) (nzEdges a)) v - cat2 d.out_strength d.in_strength v) = fun _ => 0 := by
      funext v
      obtain ⟨b, i⟩ := v
      have k := str_dcrema_spec a (fun _ => 1 / 2) (fun _ => 1 / 2) i
      have ho : outStrCReMa a (fun _ => 1 / 2) (fun _ => 1 / 2) i = 1 := by fin_cases i <;> simp [outStrCReMa, a, Fin.sum_univ_two] <;> norm_num
      have hi : inStrCReMa a (fun _ => 1 / 2) (fun _ => 1 / 2) i = 1 := by fin_cases i <;> simp [inStrCReMa, a, Fin.sum_univ_two] <;> norm_num
      fin_cases b
      · change DCReMa.expected_out_strength_crema_directed (cat2 (fun _ => 1 / 2) fun _ => 1 / 2) (nzEdges a) i - 1 = 0
        rw [k.1, ho, sub_self]
      · change DCReMa.expected_in_strength_crema_directed (cat2 (fun _ => 1 / 2) fun _ => 1 / 2) (nzEdges a) i - 1 = 0
        rw [k.2, hi, sub_self]
    rw [this]; simp [maxAbs]
  have hc : (fun i => cat2 (fun _ : Fin 2 => (1 : ℝ) / 2) (fun _ => 1 / 2) (0, i)) = fun _ => 1 / 2 := rfl
  have hR₁ : R₁ = _ := solve_tool_dcrema_matrix e ({} : DAttr d) rfl .newton (.pairs fun _ => 1 / 2) a ma ga { max_steps := 0 } g1
  rw [C15_solver_no_step _ _ _ (.inl rfl)] at hR₁
  have hc0 : ∀ i, cat2 (fun _ : Fin 2 => (1 : ℝ) / 2) (fun _ => 1 / 2) (0, i) = 1 / 2 := fun _ => rfl
  have hc1 : ∀ i, cat2 (fun _ : Fin 2 => (1 : ℝ) / 2) (fun _ => 1 / 2) (1, i) = 1 / 2 := fun _ => rfl
  simp only [solutionErrorD, setSolvedDCrema, preDCrema, withAdj, DModel.name, true_or, or_true, if_true, strengthErrorD, degreeErrorD, initState,
    hc0, hc1, hst] at hR₁
  have hR₂ : R₂ = _ := solve_tool_dcm e R₁.g .newton (.pairs fun _ => 1) (.matrix a) ma ga { max_steps := 0 } g2
  rw [C15_solver_no_step _ _ _ (.inl rfl)] at hR₂
  rw [hR₁] at hR₂
  have hq0 : ∀ q, cat2 (fun _ : Fin d.r => (1 : ℝ)) (fun _ => 1) (0, q) = 1 := fun _ => rfl
  have hq1 : ∀ q, cat2 (fun _ : Fin d.r => (1 : ℝ)) (fun _ => 1) (1, q) = 1 := fun _ => rfl
  simp only [solutionErrorD, setSolvedDCM, preDCM, DModel.name, true_or, or_true, if_true, strengthErrorD, degreeErrorD, initState, Bool.false_eq_true, if_false,
    hq0, hq1, hst] at hR₂
  rw [hR₁, hR₂]
  refine ⟨rfl, rfl, rfl, rfl, rfl, fun i => ?_⟩
  unfold outDBCM linkDBCM
  rw [sum_const, filter_ne', card_erase_of_mem (mem_univ _)]
  simp [d, regularD]; norm_num [abs_of_neg]

/-! ### C13: a run that stops on its tolerance satisfies the constraints within the tolerance -/

section
variable {n : ℕ} [NeZero n] {d : DData n}

/-- the residual of the reduced gradient is the violation of the degree times the multiplicity (parameters of the nodes of zero degree play no part) -/
theorem residual_dcm (d : DData n) (r : Fin 2 × Fin d.r → ℝ) (hr : AdmDCM d r) (i : Fin n) :
    let x := active d.degOut fun i => r (0, d.inv i)
    let y := active d.degIn fun i => r (1, d.inv i)
    (d.degOut i ≠ 0 → r (0, d.inv i) * DCM.loglikelihood_prime_dcm r d.ko d.ki (DCM.nonzero d.ko) (DCM.nonzero d.ki) d.c (0, d.inv i) =
      d.c (d.inv i) * (d.dseq_out i - outDBCM x y i)) ∧
    (d.degIn i ≠ 0 → r (1, d.inv i) * DCM.loglikelihood_prime_dcm r d.ko d.ki (DCM.nonzero d.ko) (DCM.nonzero d.ki) d.c (1, d.inv i) =
      d.c (d.inv i) * (d.dseq_in i - inDBCM x y i)) := by
  intro x y
  -- the parameters with zeros
  let r' : Fin 2 × Fin d.r → ℝ := cat2 (fun q => if d.ko q = 0 then 0 else r (0, q)) fun q => if d.ki q = 0 then 0 else r (1, q)
  have hx : ∀ i, x i = r' (0, d.inv i) := fun i => by
    have h1 := (d.class_of i).1
    simp only [x, active, r', cat2, if_true, h1]
  have hy : ∀ i, y i = r' (1, d.inv i) := fun i => by
    have h1 := (d.class_of i).2
    simp only [y, active, r', cat2, one_ne_zero, if_false, h1]
  have hexp : DCM.expand d.seq r' = cat2 x y := by
    funext v
    obtain ⟨b, i⟩ := v
    fin_cases b
    · exact (hx i).symm
    · exact (hy i).symm
  have hs0 : ∀ i, cat2 x y (0, i) = 0 ↔ d.degOut i = 0 := fun i => by
    simp only [cat2, if_true, x, active]
    constructor
    · intro h
      by_contra hc
      rw [if_neg hc] at h
      exact (hr.1 (d.inv i) (by rw [(d.class_of i).1]; exact hc)).ne' h
    · intro h; rw [if_pos h]
  have hs1 : ∀ i, cat2 x y (1, i) = 0 ↔ d.degIn i = 0 := fun i => by
    simp only [cat2, one_ne_zero, if_false, y, active]
    constructor
    · intro h
      by_contra hc
      rw [if_neg hc] at h
      exact (hr.2 (d.inv i) (by rw [(d.class_of i).2]; exact hc)).ne' h
    · intro h; rw [if_pos h]
  obtain ⟨f0, f1⟩ := DCM.prime_full_eq (cat2 x y) d.degOut d.degIn hs0 hs1 i
  rw [out_spec] at f0
  rw [in_spec] at f1
  have red := fun b => DCM.C10_dcm_reduction_gradient d.seq r' b i
  rw [hexp] at red
  have same : ∀ b q, (b = 0 → d.ko q ≠ 0) → (b = 1 → d.ki q ≠ 0) → DCM.loglikelihood_prime_dcm r d.ko d.ki (DCM.nonzero d.ko) (DCM.nonzero d.ki) d.c (b, q) =
      DCM.reducedGradient d.seq r' (b, q) := by
    intro b q hb0 hb1
    have n0 : ∀ j, d.ko j ≠ 0 → r' (0, j) = r (0, j) := fun j hj => by simp [r', cat2, hj]
    have n1 : ∀ j, d.ki j ≠ 0 → r' (1, j) = r (1, j) := fun j hj => by simp [r', cat2, hj]
    unfold DCM.reducedGradient
    fin_cases b
    · change DCM.loglikelihood_prime_dcm r d.ko d.ki (DCM.nonzero d.ko) (DCM.nonzero d.ki) d.c (0, q) =
        DCM.loglikelihood_prime_dcm r' d.ko d.ki (DCM.nonzero d.ko) (DCM.nonzero d.ki) d.c (0, q)
      rw [DCM.prime_eq0 _ _ _ _ _ _ (DCM.nodup_nonzero _), DCM.prime_eq0 _ _ _ _ _ _ (DCM.nodup_nonzero _), n0 q (hb0 rfl)]
      congr 3
      refine sum_congr rfl fun j hj => ?_
      rw [n1 j ((DCM.mem_nonzero _ _).1 (List.mem_toFinset.1 hj))]
    · change DCM.loglikelihood_prime_dcm r d.ko d.ki (DCM.nonzero d.ko) (DCM.nonzero d.ki) d.c (1, q) =
        DCM.loglikelihood_prime_dcm r' d.ko d.ki (DCM.nonzero d.ko) (DCM.nonzero d.ki) d.c (1, q)
      rw [DCM.prime_eq1 _ _ _ _ _ _ (DCM.nodup_nonzero _), DCM.prime_eq1 _ _ _ _ _ _ (DCM.nodup_nonzero _), n1 q (hb1 rfl)]
      congr 3
      refine sum_congr rfl fun j hj => ?_
      rw [n0 j ((DCM.mem_nonzero _ _).1 (List.mem_toFinset.1 hj))]
  constructor
  · intro h
    rw [same 0 (d.inv i) (fun _ => by rw [(d.class_of i).1]; exact h) (fun h => absurd h (by decide)), show DCM.reducedGradient d.seq r' (0, d.inv i) = _ from red 0]
    have : r (0, d.inv i) = cat2 x y (0, i) := by simp [cat2, x, active, h]
    rw [this]
    rw [show (d.dseq_out i : ℝ) = d.degOut i from rfl, ← f0]
    simp only [DData.c, DData.inv]
    exact mul_left_comm _ _ _
  · intro h
    rw [same 1 (d.inv i) (fun h => absurd h (by decide)) (fun _ => by rw [(d.class_of i).2]; exact h), show DCM.reducedGradient d.seq r' (1, d.inv i) = _ from red 1]
    have : r (1, d.inv i) = cat2 x y (1, i) := by simp [cat2, y, active, h]
    rw [this]
    rw [show (d.dseq_in i : ℝ) = d.degIn i from rfl, ← f1]
    simp only [DData.c, DData.inv]
    exact mul_left_comm _ _ _

theorem out_inactive (d : DData n) (x y : Fin n → ℝ) (i : Fin n) (h : d.degOut i = 0) : outDBCM (active d.degOut x) y i = 0 := by
  unfold outDBCM linkDBCM
  exact sum_eq_zero fun j _ => by simp [active, h]

theorem in_inactive (d : DData n) (x y : Fin n → ℝ) (i : Fin n) (h : d.degIn i = 0) : inDBCM x (active d.degIn y) i = 0 := by
  unfold inDBCM linkDBCM
  exact sum_eq_zero fun j _ => by simp [active, h]

theorem abs_le_of_mul {c a t : ℝ} (hc : 1 ≤ c) (h : |c * a| ≤ t) : |a| ≤ t := by
  rw [abs_mul, abs_of_pos (by linarith)] at h
  exact (le_mul_of_one_le_left (abs_nonneg _) hc).trans h

/-- C13 (dcm_exp): if `solve_tool("dcm_exp")` with method newton or quasinewton returns, and its trace shows that it stopped neither on `max_steps` nor on `eps`,
then every expected degree is within `tol` of the observed one.  Expected degrees are those of the nodes taking part: a node of zero out-degree sends no links, a
node of zero in-degree receives none. -/
theorem C13_dcm_exp (e : Env) (g : DAttr d) (me : Method) (hme : me ≠ .fixed_point) (guess : DGuess n) (adj : AdjSpec n) (ma : String) (ga : DGuess n)
    (p : Params) (hf : p.full_return = true) (ht : 0 ≤ p.tol) :
    let R := solve_tool_directed e g "dcm_exp" me.name guess adj ma ga p
    R.exc = none → ∃ t x y, R.g.trace = some t ∧ R.g.x = some x ∧ R.g.y = some y ∧ (t.Converged p → ∀ i,
      |outDBCM (active d.degOut x) (active d.degIn y) i - d.dseq_out i| ≤ p.tol ∧ |inDBCM (active d.degOut x) (active d.degIn y) i - d.dseq_in i| ≤ p.tol) := by
  intro R h
  obtain ⟨me', x0, s, hm, -, hs, hG, -⟩ := solve_tool_ok_dcm_exp e g me.name guess adj ma ga p h
  have hme' : me' = me := by revert hm; cases me <;> cases me' <;> simp [Method.name]
  subst hme'
  rw [show R = _ from hG]
  refine ⟨.of s, fun i => Real.exp (-s.x (0, d.inv i)), fun i => Real.exp (-s.x (1, d.inv i)), ?_, keepsD DAttr.x (fun _ => rfl) _,
    keepsD DAttr.y (fun _ => rfl) _, fun hc i => ?_⟩
  · exact (keepsD DAttr.trace (fun _ => rfl) _).trans (by simp [setSolvedDCM, preDCM, hf])
  · have hr : AdmDCM d fun v => Real.exp (-s.x v) := ⟨fun q _ => Real.exp_pos _, fun q _ => Real.exp_pos _⟩
    obtain ⟨k0, k1⟩ := residual_dcm d (fun v => Real.exp (-s.x v)) hr i
    have hfn : ∀ v, (cbDCMexp e d me').fn s.x v = Real.exp (-s.x v) *
        DCM.loglikelihood_prime_dcm (fun v => Real.exp (-s.x v)) d.ko d.ki (DCM.nonzero d.ko) (DCM.nonzero d.ki) d.c v := fun v => by
      have := DCM.C09_dcm_gradients s.x d.ko d.ki (DCM.nonzero d.ko) (DCM.nonzero d.ki) d.c (DCM.nodup_nonzero _) (DCM.nodup_nonzero _) v
      have h2 : (cbDCMexp e d me').fn s.x v = -DCM.loglikelihood_prime_dcm_exp s.x d.ko d.ki (DCM.nonzero d.ko) (DCM.nonzero d.ki) d.c v := by
        cases me' <;> first | rfl | exact absurd rfl hme
      rw [h2, this]; ring
    have hr0 := C13_solver_component _ _ _ _ hs hc.1 hc.2 (0, d.inv i)
    have hr1 := C13_solver_component _ _ _ _ hs hc.1 hc.2 (1, d.inv i)
    rw [hfn] at hr0 hr1
    constructor
    · by_cases hz : d.degOut i = 0
      · rw [out_inactive _ _ _ _ hz, show (d.dseq_out i : ℝ) = d.degOut i from rfl, hz]; simpa using ht
      · rw [k0 hz] at hr0
        rw [abs_sub_comm]
        exact abs_le_of_mul (d.one_le_c _) hr0
    · by_cases hz : d.degIn i = 0
      · rw [in_inactive _ _ _ _ hz, show (d.dseq_in i : ℝ) = d.degIn i from rfl, hz]; simpa using ht
      · rw [k1 hz] at hr1
        rw [abs_sub_comm]
        exact abs_le_of_mul (d.one_le_c _) hr1

/-- C13 (dcm): the same with the factors `x i` and `y i`, at a solution that is positive on the nodes taking part -/
theorem C13_dcm (e : Env) (g : DAttr d) (me : Method) (hme : me ≠ .fixed_point) (guess : DGuess n) (adj : AdjSpec n) (ma : String) (ga : DGuess n)
    (p : Params) (hf : p.full_return = true) :
    let R := solve_tool_directed e g "dcm" me.name guess adj ma ga p
    R.exc = none → ∃ t x y, R.g.trace = some t ∧ R.g.x = some x ∧ R.g.y = some y ∧ (t.Converged p →
      (∀ i, d.dseq_out i ≠ 0 → 0 < x i) → (∀ i, d.dseq_in i ≠ 0 → 0 < y i) → ∀ i,
      |outDBCM (active d.degOut x) (active d.degIn y) i - d.dseq_out i| ≤ active d.degOut x i * p.tol ∧
      |inDBCM (active d.degOut x) (active d.degIn y) i - d.dseq_in i| ≤ active d.degIn y i * p.tol) := by
  intro R h
  obtain ⟨me', x0, s, hm, -, hs, hG, -⟩ := solve_tool_ok_dcm e g me.name guess adj ma ga p h
  have hme' : me' = me := by revert hm; cases me <;> cases me' <;> simp [Method.name]
  subst hme'
  rw [show R = _ from hG]
  refine ⟨.of s, fun i => s.x (0, d.inv i), fun i => s.x (1, d.inv i), ?_, keepsD DAttr.x (fun _ => rfl) _,
    keepsD DAttr.y (fun _ => rfl) _, fun hc hx hy i => ?_⟩
  · exact (keepsD DAttr.trace (fun _ => rfl) _).trans (by simp [setSolvedDCM, preDCM, hf])
  · have hr : AdmDCM d s.x := by
      constructor
      · intro q hq
        obtain ⟨i, rfl⟩ := d.inv_surj q
        rw [(d.class_of i).1] at hq
        exact hx i (by simpa [DData.degOut] using hq)
      · intro q hq
        obtain ⟨i, rfl⟩ := d.inv_surj q
        rw [(d.class_of i).2] at hq
        exact hy i (by simpa [DData.degIn] using hq)
    obtain ⟨k0, k1⟩ := residual_dcm d s.x hr i
    have hfn : ∀ v, (cbDCM e d me').fn s.x v = -DCM.loglikelihood_prime_dcm s.x d.ko d.ki (DCM.nonzero d.ko) (DCM.nonzero d.ki) d.c v := fun v => by
      cases me' <;> first | rfl | exact absurd rfl hme
    have hr0 := C13_solver_component _ _ _ _ hs hc.1 hc.2 (0, d.inv i)
    have hr1 := C13_solver_component _ _ _ _ hs hc.1 hc.2 (1, d.inv i)
    rw [hfn, abs_neg] at hr0 hr1
    constructor
    · by_cases hz : d.degOut i = 0
      · rw [out_inactive _ _ _ _ hz, show (d.dseq_out i : ℝ) = d.degOut i from rfl, hz]; simp [active, hz]
      · have hp := hx i (by simpa [DData.degOut] using hz)
        have := mul_le_mul_of_nonneg_left hr0 hp.le
        rw [← abs_of_pos hp, ← abs_mul, abs_of_pos hp, k0 hz] at this
        rw [abs_sub_comm]
        simpa [active, hz, Params.opts] using abs_le_of_mul (d.one_le_c _) this
    · by_cases hz : d.degIn i = 0
      · rw [in_inactive _ _ _ _ hz, show (d.dseq_in i : ℝ) = d.degIn i from rfl, hz]; simp [active, hz]
      · have hp := hy i (by simpa [DData.degIn] using hz)
        have := mul_le_mul_of_nonneg_left hr1 hp.le
        rw [← abs_of_pos hp, ← abs_mul, abs_of_pos hp, k1 hz] at this
        rw [abs_sub_comm]
        simpa [active, hz, Params.opts] using abs_le_of_mul (d.one_le_c _) this

/-- the residual of the DECM -/
theorem residual_decm (d : DData n) (v : Fin 4 × Fin n → ℝ) (hv : AdmDECM v) (w : Fin 4 × Fin n) :
    v w * DECM.loglikelihood_prime_decm v d.degOut d.degIn d.out_strength d.in_strength w = d.obs w - DECM.expected_decm v w := by
  obtain ⟨pr, ex, -⟩ := DECM.forms v d.degOut d.degIn d.out_strength d.in_strength w
  have h0 := (hv.1 w).ne'
  rw [pr, ex, show DECM.obs d.degOut d.degIn d.out_strength d.in_strength w = d.obs w from rfl]
  field_simp

/-- the expected values of the DECM, in the order of the parameters -/
noncomputable def specDECM (x y bo bi : Fin n → ℝ) (w : Fin 4 × Fin n) : ℝ :=
  if w.1 = 0 then outDegDECM x y bo bi w.2 else if w.1 = 1 then inDegDECM x y bo bi w.2 else if w.1 = 2 then outStrDECM x y bo bi w.2 else inStrDECM x y bo bi w.2

theorem expected_decm_spec' (v : Fin 4 × Fin n → ℝ) (hv : AdmDECM v) (w : Fin 4 × Fin n) :
    DECM.expected_decm v w = specDECM (blk4 v 0) (blk4 v 1) (blk4 v 2) (blk4 v 3) w := by
  obtain ⟨b, i⟩ := w
  obtain ⟨h0, h1, h2, h3⟩ := expected_decm_spec v (fun w => (hv.1 w).le) hv.2 i
  fin_cases b
  · exact h0
  · exact h1
  · exact h2
  · exact h3

/-- C13 (decm): at an admissible solution every degree and strength is reproduced within `tol` times its parameter -/
theorem C13_decm (e : Env) (g : DAttr d) (me : Method) (hme : me ≠ .fixed_point) (guess : DGuess n) (adj : AdjSpec n) (ma : String) (ga : DGuess n)
    (p : Params) (hf : p.full_return = true) :
    let R := solve_tool_directed e g "decm" me.name guess adj ma ga p
    R.exc = none → ∃ t x y bo bi, R.g.trace = some t ∧ R.g.x = some x ∧ R.g.y = some y ∧ R.g.b_out = some bo ∧ R.g.b_in = some bi ∧ (t.Converged p →
      (∀ i, 0 < x i ∧ 0 < y i ∧ 0 < bo i ∧ 0 < bi i) → (∀ i j, i ≠ j → bo i * bi j < 1) → ∀ i,
      |outDegDECM x y bo bi i - d.dseq_out i| ≤ x i * p.tol ∧ |inDegDECM x y bo bi i - d.dseq_in i| ≤ y i * p.tol ∧
      |outStrDECM x y bo bi i - d.out_strength i| ≤ bo i * p.tol ∧ |inStrDECM x y bo bi i - d.in_strength i| ≤ bi i * p.tol) := by
  intro R h
  obtain ⟨me', v, guess', s, hm, -, hs, hG⟩ := solve_tool_ok_decm e g me.name guess adj ma ga p h
  have hme' : me' = me := by revert hm; cases me <;> cases me' <;> simp [Method.name]
  subst hme'
  rw [show R = _ from hG]
  refine ⟨.of s, blk4 s.x 0, blk4 s.x 1, blk4 s.x 2, blk4 s.x 3, ?_, keepsD DAttr.x (fun _ => rfl) _,
    keepsD DAttr.y (fun _ => rfl) _, keepsD DAttr.b_out (fun _ => rfl) _, keepsD DAttr.b_in (fun _ => rfl) _, fun hc hp hlt i => ?_⟩
  · exact (keepsD DAttr.trace (fun _ => rfl) _).trans (by simp [setSolvedDECM, preDECM, hf])
  · have hA : AdmDECM s.x := by
      refine ⟨?_, hlt⟩
      rintro ⟨b, i⟩
      fin_cases b
      · exact (hp i).1
      · exact (hp i).2.1
      · exact (hp i).2.2.1
      · exact (hp i).2.2.2
    have key : ∀ w, |specDECM (blk4 s.x 0) (blk4 s.x 1) (blk4 s.x 2) (blk4 s.x 3) w - d.obs w| ≤ s.x w * p.tol := fun w => by
      have hr := C13_solver_component _ _ _ _ hs hc.1 hc.2 w
      have hfn : (cbDECM e d me').fn s.x w = -DECM.loglikelihood_prime_decm s.x d.degOut d.degIn d.out_strength d.in_strength w := by
        cases me' <;> first | rfl | exact absurd rfl hme
      rw [hfn, abs_neg] at hr
      rw [← expected_decm_spec' s.x hA, abs_sub_comm, ← residual_decm d s.x hA w, abs_mul, abs_of_pos (hA.1 w)]
      exact mul_le_mul_of_nonneg_left hr (hA.1 w).le
    exact ⟨key (0, i), key (1, i), key (2, i), key (3, i)⟩

/-- C13 (decm_exp), at an admissible solution -/
theorem C13_decm_exp (e : Env) (g : DAttr d) (me : Method) (hme : me ≠ .fixed_point) (guess : DGuess n) (adj : AdjSpec n) (ma : String) (ga : DGuess n)
    (p : Params) (hf : p.full_return = true) :
    let R := solve_tool_directed e g "decm_exp" me.name guess adj ma ga p
    R.exc = none → ∃ t x y bo bi, R.g.trace = some t ∧ R.g.x = some x ∧ R.g.y = some y ∧ R.g.b_out = some bo ∧ R.g.b_in = some bi ∧ (t.Converged p →
      (∀ i j, i ≠ j → bo i * bi j < 1) → ∀ i,
      |outDegDECM x y bo bi i - d.dseq_out i| ≤ p.tol ∧ |inDegDECM x y bo bi i - d.dseq_in i| ≤ p.tol ∧
      |outStrDECM x y bo bi i - d.out_strength i| ≤ p.tol ∧ |inStrDECM x y bo bi i - d.in_strength i| ≤ p.tol) := by
  intro R h
  obtain ⟨me', v, guess', s, hm, -, hs, hG⟩ := solve_tool_ok_decm_exp e g me.name guess adj ma ga p h
  have hme' : me' = me := by revert hm; cases me <;> cases me' <;> simp [Method.name]
  subst hme'
  rw [show R = _ from hG]
  set w : Fin 4 × Fin n → ℝ := fun u => Real.exp (-s.x u) with hw
  refine ⟨.of s, blk4 w 0, blk4 w 1, blk4 w 2, blk4 w 3, ?_, keepsD DAttr.x (fun _ => rfl) _,
    keepsD DAttr.y (fun _ => rfl) _, keepsD DAttr.b_out (fun _ => rfl) _, keepsD DAttr.b_in (fun _ => rfl) _, fun hc hlt i => ?_⟩
  · exact (keepsD DAttr.trace (fun _ => rfl) _).trans (by simp [setSolvedDECM, preDECM, hf])
  · have hA : AdmDECM w := ⟨fun _ => Real.exp_pos _, hlt⟩
    have hE : AdmDECMexp s.x := by
      intro i j hij
      have := hlt i j hij
      simp only [blk4, hw] at this
      rw [← Real.exp_add, Real.exp_lt_one_iff] at this
      linarith
    have key : ∀ u, |specDECM (blk4 w 0) (blk4 w 1) (blk4 w 2) (blk4 w 3) u - d.obs u| ≤ p.tol := fun u => by
      have hr := C13_solver_component _ _ _ _ hs hc.1 hc.2 u
      have hfn : (cbDECMexp e d me').fn s.x u = -DECM.loglikelihood_prime_decm_exp s.x d.degOut d.degIn d.out_strength d.in_strength u := by
        cases me' <;> first | rfl | exact absurd rfl hme
      rw [hfn, abs_neg, DECM.C09_decm_gradients _ _ _ _ _ hE, abs_neg, mul_comm] at hr
      rw [← expected_decm_spec' w hA, abs_sub_comm, ← residual_decm d w hA u]
      exact hr
    exact ⟨key (0, i), key (1, i), key (2, i), key (3, i)⟩

/-- the residual of CReMa -/
theorem dcrema_residual (e : Env) (d : DData n) (a : Fin n → Fin n → ℝ) (me : Method) (hme : me ≠ .fixed_point) (s : State (Fin 2 × Fin n)) (p : Params)
    {x0 : Fin 2 × Fin n → ℝ} (hsv : solver (cbDCrema e d (nzEdges a) me) (p.opts me.name) x0 = .ok s) (hc : (Trace.of s).Converged p) (i : Fin n) :
    |outStrCReMa a (fun i => s.x (0, i)) (fun i => s.x (1, i)) i - d.out_strength i| ≤ p.tol ∧
    |inStrCReMa a (fun i => s.x (0, i)) (fun i => s.x (1, i)) i - d.in_strength i| ≤ p.tol := by
  have hx : s.x = cat2 (fun i => s.x (0, i)) fun i => s.x (1, i) := by
    funext v; obtain ⟨b, i⟩ := v; fin_cases b <;> rfl
  have hfn : ∀ v, (cbDCrema e d (nzEdges a) me).fn s.x v = -DCReMa.loglikelihood_prime_crema_directed s.x d.out_strength d.in_strength (nzEdges a)
      (DCM.nonzero d.out_strength) (DCM.nonzero d.in_strength) v := fun v => by
    cases me <;> first | rfl | exact absurd rfl hme
  have hr0 := C13_solver_component _ _ _ _ hsv hc.1 hc.2 (0, i)
  have hr1 := C13_solver_component _ _ _ _ hsv hc.1 hc.2 (1, i)
  obtain ⟨k0, k1⟩ := str_dcrema_spec a (fun i => s.x (0, i)) (fun i => s.x (1, i)) i
  rw [← hx] at k0 k1
  rw [hfn, abs_neg, DCReMa.prime_val] at hr0 hr1
  rw [← k0, ← k1]
  constructor
  · have : DCReMa.expected_out_strength_crema_directed s.x (nzEdges a) i - d.out_strength i = -d.out_strength i + DCReMa.expected_out_strength_crema_directed s.x (nzEdges a) i := by ring
    rw [this]; exact hr0
  · have : DCReMa.expected_in_strength_crema_directed s.x (nzEdges a) i - d.in_strength i = -d.in_strength i + DCReMa.expected_in_strength_crema_directed s.x (nzEdges a) i := by ring
    rw [this]; exact hr1

/-- C13 (directed crema on a given matrix) -/
theorem C13_dcrema_matrix (e : Env) (g : DAttr d) (hz : d.nz_known = true) (me : Method) (hme : me ≠ .fixed_point) (guess : DGuess n) (a : Fin n → Fin n → ℝ)
    (ma : String) (ga : DGuess n) (p : Params) (hf : p.full_return = true) :
    let R := solve_tool_directed e g "crema" me.name guess (.matrix a) ma ga p
    R.exc = none → ∃ t bo bi, R.g.trace_crema = some t ∧ R.g.b_out = some bo ∧ R.g.b_in = some bi ∧ (t.Converged p →
      ∀ i, |outStrCReMa a bo bi i - d.out_strength i| ≤ p.tol ∧ |inStrCReMa a bo bi i - d.in_strength i| ≤ p.tol) := by
  intro R h
  obtain ⟨bo, bi, guess', h0⟩ := solve_tool_dcrema_args e g me.name guess a ma ga p h
  have he := solve_tool_dcrema_matrix e g hz me guess a ma ga p h0
  simp only at he
  rw [show R = _ from he]
  rw [show R = _ from he] at h
  cases hsv : solver (cbDCrema e d (nzEdges a) me) (p.opts me.name) (cat2 bo bi) with
  | error x => rw [hsv] at h; simp at h
  | ok s =>
    refine ⟨.of s, _, _, ?_, keepsD DAttr.b_out (fun _ => rfl) _, keepsD DAttr.b_in (fun _ => rfl) _, fun hc i => ?_⟩
    · exact (keepsD DAttr.trace_crema (fun _ => rfl) _).trans (by simp [setSolvedDCrema, preDCrema, hf])
    · exact dcrema_residual e d a me hme s p hsv hc i

end

end Verif.Solve
