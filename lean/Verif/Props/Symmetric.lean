import Verif.Props.Agree
import Verif.Spec.Likelihood

/-!
C75: the directed models on a symmetric network agree with the undirected models.
-/

set_option linter.unusedSectionVars false

namespace Verif.Solve

open Verif Finset Reduction Solver Spec

noncomputable section

open Classical in
attribute [local instance 0] propDecidable

variable {n : ℕ}

/-- the directed data of an undirected network: every link counts in both directions -/
structure BothWays (d : UData n) (d' : DData n) : Prop where
  dseq_out : d'.dseq_out = d.dseq
  dseq_in : d'.dseq_in = d.dseq
  out_strength : d'.out_strength = d.strength_sequence
  in_strength : d'.in_strength = d.strength_sequence

variable [NeZero n] {d : UData n} {d' : DData n}

/-- C75 (cm, cm_exp against dcm, dcm_exp): solved as an undirected network and as a directed network with every link in both directions, the link probabilities differ in
the mean square by at most the sum of the two reported errors times the distance of the log-parameters; if both errors vanish, they are equal.  Whatever the methods, guesses,
options, earlier states of the objects and the variants of the models. -/
theorem C75_cm_dcm (hb : BothWays d d') (e e' : Env) (g : UAttr d) (g' : DAttr d') (mo : UModel) (mo' : DModel) (hmo : mo = .cm ∨ mo = .cm_exp)
    (hmo' : mo' = .dcm ∨ mo' = .dcm_exp) (method method' : String) (guess : Guess n) (guess' : DGuess n) (adj adj' : AdjSpec n) (ma ma' : String) (ga : Guess n) (ga' : DGuess n)
    (p p' : Params) :
    let R := solve_tool e g mo.name method guess adj ma ga p
    let R' := solve_tool_directed e' g' mo'.name method' guess' adj' ma' ga' p'
    R.exc = none → R'.exc = none → ∃ x x' y' E E', R.g.x = some x ∧ R'.g.x = some x' ∧ R'.g.y = some y' ∧ R.g.error_degree = some E ∧ R'.g.error_degree = some E' ∧
      ((∀ i, 0 ≤ x i ∧ 0 ≤ x' i ∧ (x i = 0 ↔ x' i = 0)) → (∀ i, 0 ≤ x i ∧ 0 ≤ y' i ∧ (x i = 0 ↔ y' i = 0)) →
        ∑ i, ∑ j ∈ univ.filter (· ≠ i), (linkUBCM x i j - linkDBCM x' y' i j) ^ 2 ≤
          (E + E') / 4 * (∑ i, |Real.log (x i) - Real.log (x' i)| + ∑ i, |Real.log (x i) - Real.log (y' i)|) ∧
        (E = 0 → E' = 0 → ∀ i j, i ≠ j → linkUBCM x i j = linkDBCM x' y' i j)) := by
  intro R R' h h'
  obtain ⟨x, E, r, h1, -, h3, -, h5, -⟩ := C54_cm e g mo hmo method guess adj ma ga p h
  obtain ⟨x', y', E', r', h1', h2', -, h3', -, h5', -⟩ := C54_dcm e' g' mo' hmo' method' guess' adj' ma' ga' p' h'
  refine ⟨x, x', y', E, E', h1, h1', h2', h3, h3', fun hx hy => ?_⟩
  have out : ∀ x : Fin n → ℝ, outDBCM x x = degUBCM x := fun x => rfl
  have inn : ∀ x : Fin n → ℝ, inDBCM x x = degUBCM x := fun x => funext fun i => sum_congr rfl fun j _ => by unfold linkDBCM linkUBCM; rw [mul_comm]
  have gap := dbcm_gap hx hy (E := E + E')
    (fun i => two_near (by rw [out]; exact h5.1 i) (by simpa [outIn, hb.dseq_out] using h5'.1 (0, i)))
    (fun i => two_near (by rw [inn]; exact h5.1 i) (by simpa [outIn, hb.dseq_in] using h5'.1 (1, i)))
  refine ⟨gap, fun hE hE' i j hij => ?_⟩
  have := sq_zero gap (by rw [hE, hE']; simp) (fun _ _ _ => sq_nonneg _) hij
  exact sub_eq_zero.1 (pow_eq_zero_iff (two_ne_zero) |>.1 this)

/-- C75 (ecm, ecm_exp against decm, decm_exp), on networks without zero degrees or strengths, for parameters in the domain of the models. -/
theorem C75_ecm_decm (hb : BothWays d d') (hd : ∀ i, d.dseq i ≠ 0) (hst : ∀ i, d.strength_sequence i ≠ 0) (e e' : Env) (g : UAttr d) (g' : DAttr d') (mo : UModel)
    (mo' : DModel) (hmo : mo = .ecm ∨ mo = .ecm_exp) (hmo' : mo' = .decm ∨ mo' = .decm_exp) (method method' : String) (guess : Guess n) (guess' : DGuess n)
    (adj adj' : AdjSpec n) (ma ma' : String) (ga : Guess n) (ga' : DGuess n) (p p' : Params) :
    let R := solve_tool e g mo.name method guess adj ma ga p
    let R' := solve_tool_directed e' g' mo'.name method' guess' adj' ma' ga' p'
    R.exc = none → R'.exc = none → ∃ x y x' y' bo' bi' E F, R.g.x = some x ∧ R.g.y = some y ∧ R'.g.x = some x' ∧ R'.g.y = some y' ∧ R'.g.b_out = some bo' ∧
      R'.g.b_in = some bi' ∧ R.g.error_degree = some E ∧ R.g.error_strength = some F ∧
      ((∀ i, 0 ≤ x i ∧ 0 ≤ x' i ∧ (x i = 0 ↔ x' i = 0)) → (∀ i, 0 ≤ x i ∧ 0 ≤ y' i ∧ (x i = 0 ↔ y' i = 0)) →
       (∀ i, 0 ≤ y i ∧ 0 ≤ bo' i ∧ (y i = 0 ↔ bo' i = 0)) → (∀ i, 0 ≤ y i ∧ 0 ≤ bi' i ∧ (y i = 0 ↔ bi' i = 0)) →
       (∀ i j, i ≠ j → y i * y j < 1 ∧ bo' i * bi' j < 1) →
        ∃ E' F', R'.g.error_degree = some E' ∧ R'.g.error_strength = some F' ∧
        ∑ i, ∑ j ∈ univ.filter (· ≠ i), (linkUECM x y i j - linkDECM x' y' bo' bi' i j) ^ 2 ≤
          (E + E') / 4 * (∑ i, |Real.log (x i) - Real.log (x' i)| + ∑ i, |Real.log (x i) - Real.log (y' i)|) +
          (F + F') / 4 * (∑ i, |Real.log (y i) - Real.log (bo' i)| + ∑ i, |Real.log (y i) - Real.log (bi' i)|) ∧
        (E = 0 → E' = 0 → F = 0 → F' = 0 → ∀ i j, i ≠ j →
          linkUECM x y i j = linkDECM x' y' bo' bi' i j ∧ linkUECM x y i j / (1 - y i * y j) = weightDECM x' y' bo' bi' i j)) := by
  intro R R' h h'
  obtain ⟨x, y, E, r, F, q, h1, h2, -, -, h5, -, h7, -, h9⟩ := C54_ecm e g mo hmo method guess adj ma ga p h
  obtain ⟨x', y', bo', bi', h1', h2', h3', h4', h5'⟩ := C54_decm e' g' mo' hmo' method' guess' adj' ma' ga' p' h'
  obtain ⟨⟨k1, -⟩, ⟨k2, -⟩⟩ := h9 hd hst
  refine ⟨x, y, x', y', bo', bi', E, F, h1, h2, h1', h2', h3', h4', h5, h7, fun hx hy hbo hbi hp => ?_⟩
  obtain ⟨-, -, E', r', F', q', k1', -, k3', -, ⟨k5', -⟩, ⟨k6', -⟩⟩ :=
    h5' (fun i => (hx i).2.1) (fun i => (hy i).2.1) (fun i => (hbo i).2.1) (fun i => (hbi i).2.1) fun i j hij => (hp i j hij).2
  obtain ⟨gap, ex⟩ := decm_gap hx hy hbo hbi (fun i j hij => (hp i j hij).1) (fun i j hij => (hp i j hij).2) (E := E + E') (E' := F + F')
    (fun i => two_near (by rw [← (degUECM_eq x y i).1]; exact k1.1 i) (by simpa [outIn, hb.dseq_out] using k5'.1 (0, i)))
    (fun i => two_near (by rw [← (degUECM_eq x y i).2]; exact k1.1 i) (by simpa [outIn, hb.dseq_in] using k5'.1 (1, i)))
    (fun i => two_near (by rw [← (strUECM_eq x y i).1]; exact k2.1 i) (by simpa [outIn, hb.out_strength] using k6'.1 (0, i)))
    (fun i => two_near (by rw [← (strUECM_eq x y i).2]; exact k2.1 i) (by simpa [outIn, hb.in_strength] using k6'.1 (1, i)))
  exact ⟨E', F', k1', k3', gap, fun a b c f => ex (by rw [a, b]; simp) (by rw [c, f]; simp)⟩

/-- two sets of rates that nearly reproduce the same strengths -/
theorem dcrema_gap {a : Fin n → Fin n → ℝ} (h0 : ∀ i j, 0 ≤ a i j) {bo bi bo' bi' : Fin n → ℝ} {E : ℝ} (near : ∀ i, |outStrCReMa a bo bi i - outStrCReMa a bo' bi' i| ≤ E)
    (near' : ∀ i, |inStrCReMa a bo bi i - inStrCReMa a bo' bi' i| ≤ E) (hp : ∀ i j, a i j ≠ 0 → 0 < bo i + bi j ∧ 0 < bo' i + bi' j) :
    ∑ i, ∑ j, a i j * (bo i + bi j - (bo' i + bi' j)) ^ 2 / ((bo i + bi j) * (bo' i + bi' j)) ≤ E * (∑ i, |bo i - bo' i| + ∑ i, |bi i - bi' i|) ∧
    (E = 0 → ∀ i j, a i j ≠ 0 → bo i + bi j = bo' i + bi' j) := by
  have q := dot_le (u := fun i => -(bo i - bo' i)) near
  have q' := dot_le (u := fun i => -(bi i - bi' i)) near'
  simp only [abs_neg] at q q'
  have term : ∀ i j, a i j * (bo i + bi j - (bo' i + bi' j)) ^ 2 / ((bo i + bi j) * (bo' i + bi' j)) =
      -(bo i - bo' i) * (a i j / (bo i + bi j) - a i j / (bo' i + bi' j)) + -(bi j - bi' j) * (a i j / (bo i + bi j) - a i j / (bo' i + bi' j)) := fun i j => by
    by_cases ha : a i j = 0
    · simp [ha]
    · have t1 := (hp i j ha).1.ne'
      have t2 := (hp i j ha).2.ne'
      field_simp
      ring
  have gap : ∑ i, ∑ j, a i j * (bo i + bi j - (bo' i + bi' j)) ^ 2 / ((bo i + bi j) * (bo' i + bi' j)) ≤ E * (∑ i, |bo i - bo' i| + ∑ i, |bi i - bi' i|) := by
    rw [sum_congr rfl fun i _ => sum_congr rfl fun j _ => term i j]
    simp only [sum_add_distrib]
    rw [sum_comm (f := fun i j => -(bi j - bi' j) * (a i j / (bo i + bi j) - a i j / (bo' i + bi' j)))]
    simp only [← mul_sum, sum_sub_distrib]
    unfold outStrCReMa at q
    unfold inStrCReMa at q'
    linarith
  refine ⟨gap, fun hE i j ha => ?_⟩
  have nn : ∀ i j, 0 ≤ a i j * (bo i + bi j - (bo' i + bi' j)) ^ 2 / ((bo i + bi j) * (bo' i + bi' j)) := fun i j => by
    by_cases ha : a i j = 0
    · simp [ha]
    · have t1 := (hp i j ha).1
      have t2 := (hp i j ha).2
      have t3 := h0 i j
      positivity
  have tot : ∑ i, ∑ j, a i j * (bo i + bi j - (bo' i + bi' j)) ^ 2 / ((bo i + bi j) * (bo' i + bi' j)) = 0 :=
    le_antisymm (le_of_le_of_eq gap (by rw [hE]; simp)) (sum_nonneg fun i _ => sum_nonneg fun j _ => nn i j)
  have z := (sum_eq_zero_iff_of_nonneg fun j _ => nn i j).1 ((sum_eq_zero_iff_of_nonneg fun i _ => sum_nonneg fun j _ => nn i j).1 tot i (mem_univ _)) j (mem_univ _)
  obtain ⟨t1, t2⟩ := hp i j ha
  have z2 := (div_eq_zero_iff.1 z).resolve_right (mul_pos t1 t2).ne'
  have z3 := pow_eq_zero_iff two_ne_zero |>.1 ((mul_eq_zero.1 z2).resolve_left ha)
  linarith

/-- C75 (crema, undirected against directed, on the same symmetric matrix without self-loops): the rates of the links nearly agree, and agree if both errors vanish. -/
theorem C75_crema_dcrema (hb : BothWays d d') (hz : d'.nz_known = true) (e e' : Env) (g : UAttr d) (g' : DAttr d') (me me' : Method) (guess : Guess n) (guess' : DGuess n)
    (a : Fin n → Fin n → ℝ) (hs : ∀ i j, a i j = a j i) (hd : ∀ i, a i i = 0) (h0 : ∀ i j, 0 ≤ a i j) (ma ma' : String) (ga : Guess n) (ga' : DGuess n) (p p' : Params) :
    let R := solve_tool e g "crema" me.name guess (.matrix a) ma ga p
    let R' := solve_tool_directed e' g' "crema" me'.name guess' (.matrix a) ma' ga' p'
    R.exc = none → R'.exc = none → ∃ β bo' bi' E E', R.g.beta = some β ∧ R'.g.b_out = some bo' ∧ R'.g.b_in = some bi' ∧ R.g.error_strength = some E ∧
      R'.g.error_strength = some E' ∧
      ((∀ i j, a i j ≠ 0 → 0 < β i + β j ∧ 0 < bo' i + bi' j) →
        ∑ i, ∑ j, a i j * (β i + β j - (bo' i + bi' j)) ^ 2 / ((β i + β j) * (bo' i + bi' j)) ≤ (E + E') * (∑ i, |β i - bo' i| + ∑ i, |β i - bi' i|) ∧
        (E = 0 → E' = 0 → ∀ i j, a i j ≠ 0 → β i + β j = bo' i + bi' j)) := by
  intro R R' h h'
  obtain ⟨β, E, r, h1, -, -, h4, -, h6, -⟩ := C54_crema_matrix_partial e g me guess a hs hd ma ga p h
  obtain ⟨bo', bi', E', r', h1', h2', -, -, h4', -, h6', -⟩ := C54_dcrema_matrix_partial e' g' hz me' guess' a ma' ga' p' h'
  refine ⟨β, bo', bi', E, E', h1, h1', h2', h4, h4', fun hp => ?_⟩
  have out : ∀ i, outStrCReMa a β β i = strCReMa a β i := fun i => by
    unfold outStrCReMa strCReMa
    rw [sum_filter]
    refine sum_congr rfl fun j _ => ?_
    by_cases hij : j = i
    · subst hij; simp [hd]
    · rw [if_pos hij]
  have inn : ∀ i, inStrCReMa a β β i = strCReMa a β i := fun i => by
    rw [← out]
    exact sum_congr rfl fun j _ => by rw [hs, add_comm]
  have hg := dcrema_gap h0 (bo := β) (bi := β) (bo' := bo') (bi' := bi') (E := E + E')
    (fun i => two_near (by rw [out]; exact h6.1 i) (by simpa [outIn, hb.out_strength] using h6'.1 (0, i)))
    (fun i => two_near (by rw [inn]; exact h6.1 i) (by simpa [outIn, hb.in_strength] using h6'.1 (1, i))) hp
  exact ⟨hg.1, fun a b => hg.2 (by rw [a, b]; simp)⟩

end

end Verif.Solve
