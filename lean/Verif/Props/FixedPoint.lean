import Verif.Lemmas.FixedModels
import Verif.Props.Converge

/-! C63 to C65: what the fixed-point method of the four binary models does along its run.

* C63: the iterates never move away from any exact solution, whatever the line search does.
* C64: without a line search the runs of `cm` and `dcm` converge: with enough steps and small tolerances the expected degrees are as close as one likes.
* C65: the same for `cm_exp` and `dcm_exp` is false, because their stopping rule compares the norm of the next iterate with `tol`; it holds for `tol < 0`. -/

set_option linter.unusedSectionVars false

namespace Verif.Solve

open Verif Finset Reduction Solver Spec FixedPoint

noncomputable section

variable {n : ℕ} [NeZero n]

/-! ### the guesses -/

theorem exists_within {a b : Fin n → ℝ} (h : ∀ i, (0 < a i ∧ 0 < b i) ∨ (a i = 0 ∧ b i = 0)) : ∃ R > 0, Within R a b := by
  have h0 : ∀ i ∈ univ, 0 ≤ a i / b i + b i / a i := fun i _ => by
    rcases h i with ⟨h1, h2⟩ | ⟨h1, h2⟩
    · positivity
    · rw [h1, h2]; simp
  refine ⟨∑ i, (a i / b i + b i / a i) + 1, by have := sum_nonneg h0; linarith, fun i => ?_⟩
  have h1 := single_le_sum h0 (mem_univ i)
  rcases h i with ⟨ha, hb⟩ | ⟨ha, hb⟩
  · have p1 : 0 < a i / b i := div_pos ha hb
    have p2 : 0 < b i / a i := div_pos hb ha
    constructor
    · rw [← div_le_iff₀ hb]; linarith
    · rw [← div_le_iff₀ ha]; linarith
  · rw [ha, hb]; simp

theorem Within.mono {R R' : ℝ} {a b : Fin n → ℝ} (h : Within R a b) (ha : ∀ i, 0 ≤ a i) (hb : ∀ i, 0 ≤ b i) (hR : R ≤ R') : Within R' a b :=
  fun i => ⟨(h i).1.trans (mul_le_mul_of_nonneg_right hR (hb i)), (h i).2.trans (mul_le_mul_of_nonneg_right hR (ha i))⟩

/-- a documented name, or an array with positive entries for the nodes that have links -/
def Guess.Positive (d : UData n) : Guess n → Prop
  | .other => False
  | .name s => s ∈ guessNames
  | .nodes v => ∀ i, d.dseq i ≠ 0 → 0 < v i
  | .pairs v => ∀ i, d.dseq i ≠ 0 → 0 < v (0, i)

def DGuess.Positive (d : DData n) : DGuess n → Prop
  | .name s => s ∈ guessNames
  | .pairs v => ∀ i, (d.dseq_out i ≠ 0 → 0 < v (0, i)) ∧ (d.dseq_in i ≠ 0 → 0 < v (1, i))
  | .quads v => ∀ i, (d.dseq_out i ≠ 0 → 0 < v (0, i)) ∧ (d.dseq_in i ≠ 0 → 0 < v (1, i))
  | _ => False

theorem UData.index_class (d : UData n) (q : Fin d.r) : (d.dseq (d.index q) : ℝ) = d.k q := by
  have : d.index q ∈ univ.filter fun i => d.dseq i = r_dseq d.dseq q := min'_mem _ _
  rw [mem_filter] at this
  simp only [UData.k, this.2]

theorem DData.index_class (d : DData n) (q : Fin d.r) : (d.dseq_out (d.index q) : ℝ) = d.ko q ∧ (d.dseq_in (d.index q) : ℝ) = d.ki q := by
  have : d.index q ∈ univ.filter fun i => d.seq i = r_dseq d.seq q := min'_mem _ _
  rw [mem_filter] at this
  have h : d.inv (d.index q) = q := by
    have h1 : r_dseq d.seq (d.inv (d.index q)) = r_dseq d.seq q := by rw [← this.2]; exact r_dseq_invert d.seq _
    exact (r_dseq_strictMono d.seq).injective h1
  have h2 := d.class_of (d.index q)
  rw [h] at h2
  exact ⟨h2.1.symm, h2.2.symm⟩

theorem guessCM_positive (e : Env) (he : e.Valid) (hr : e.NonzeroDraws) (d : UData n) (guess : Guess n) (hg : guess.Positive d) :
    ∃ x0, guessCM e d false guess = .ok x0 ∧ ∀ q, (d.k q ≠ 0 → 0 < x0 q) ∧ (d.k q = 0 → x0 q = 0) := by
  cases guess with
  | other => exact hg.elim
  | name s =>
    have : ∃ x0, guessCM e d false (.name s) = .ok x0 := by
      simp only [Guess.Positive, guessNames, List.mem_cons, List.not_mem_nil, or_false] at hg
      rcases hg with rfl | rfl | rfl | rfl | rfl <;> simp [guessCM, namedCM]
    obtain ⟨x0, h⟩ := this
    exact ⟨x0, h, fun q => C38_cm_partial e he hr d s h q⟩
  | nodes v =>
    refine ⟨_, rfl, fun q => ⟨fun hq => ?_, fun hq => by simp [maskSet, hq]⟩⟩
    simp only [maskSet, if_neg hq]
    refine hg _ fun h => hq ?_
    rw [← d.index_class, h]; simp
  | pairs v =>
    refine ⟨_, rfl, fun q => ⟨fun hq => ?_, fun hq => by simp [maskSet, hq]⟩⟩
    simp only [maskSet, if_neg hq]
    refine hg _ fun h => hq ?_
    rw [← d.index_class, h]; simp

theorem finishDCM_positive (d : DData n) (x y : Fin d.r → ℝ) (h : ∀ q, (d.ko q ≠ 0 → 0 < x q) ∧ (d.ki q ≠ 0 → 0 < y q)) (i : Fin n) :
    ((d.dseq_out i ≠ 0 → 0 < finishDCM d false x y (0, d.inv i)) ∧ (d.dseq_out i = 0 → finishDCM d false x y (0, d.inv i) = 0)) ∧
    (d.dseq_in i ≠ 0 → 0 < finishDCM d false x y (1, d.inv i)) ∧ (d.dseq_in i = 0 → finishDCM d false x y (1, d.inv i) = 0) := by
  obtain ⟨h1, h2⟩ := d.class_of i
  have e0 : finishDCM d false x y (0, d.inv i) = maskSet x (fun q => d.ko q = 0) 0 (d.inv i) := rfl
  have e1 : finishDCM d false x y (1, d.inv i) = maskSet y (fun q => d.ki q = 0) 0 (d.inv i) := rfl
  rw [e0, e1]
  simp only [maskSet, h1, h2]
  have c0 : d.degOut i = 0 ↔ d.dseq_out i = 0 := by simp [DData.degOut]
  have c1 : d.degIn i = 0 ↔ d.dseq_in i = 0 := by simp [DData.degIn]
  refine ⟨⟨fun hz => ?_, fun hz => by rw [if_pos (c0.2 hz)]⟩, fun hz => ?_, fun hz => by rw [if_pos (c1.2 hz)]⟩
  · have hz' : ¬d.degOut i = 0 := fun h => hz (c0.1 h)
    rw [if_neg hz']; exact (h _).1 (by rw [h1]; exact hz')
  · have hz' : ¬d.degIn i = 0 := fun h => hz (c1.1 h)
    rw [if_neg hz']; exact (h _).2 (by rw [h2]; exact hz')

theorem guessDCM_positive (e : Env) (he : e.Valid) (hr : e.NonzeroDraws) (d : DData n) (hsum : ∑ i, d.dseq_in i = ∑ i, d.dseq_out i) (guess : DGuess n)
    (hg : guess.Positive d) : ∃ x0, guessDCM e d false guess = .ok x0 ∧ ∀ i, ((d.dseq_out i ≠ 0 → 0 < x0 (0, d.inv i)) ∧ (d.dseq_out i = 0 → x0 (0, d.inv i) = 0)) ∧
      (d.dseq_in i ≠ 0 → 0 < x0 (1, d.inv i)) ∧ (d.dseq_in i = 0 → x0 (1, d.inv i) = 0) := by
  have hz : ∀ q, (d.ko q ≠ 0 → d.dseq_out (d.index q) ≠ 0) ∧ (d.ki q ≠ 0 → d.dseq_in (d.index q) ≠ 0) := fun q =>
    ⟨fun h h' => h (by rw [← (d.index_class q).1, h']; simp), fun h h' => h (by rw [← (d.index_class q).2, h']; simp)⟩
  cases guess with
  | other => exact hg.elim
  | nodes v => exact hg.elim
  | name s =>
    have : ∃ x0, guessDCM e d false (.name s) = .ok x0 := by
      simp only [DGuess.Positive, guessNames, List.mem_cons, List.not_mem_nil, or_false] at hg
      rcases hg with rfl | rfl | rfl | rfl | rfl <;> simp [guessDCM, namedDCM]
    obtain ⟨x0, h⟩ := this
    obtain ⟨h1, h2⟩ := C38_dcm e he hr d hsum s h
    exact ⟨x0, h, fun i => ⟨h1 i, h2 i⟩⟩
  | pairs v => exact ⟨_, rfl, fun i => finishDCM_positive d _ _ (fun q => ⟨fun h => (hg _).1 ((hz q).1 h), fun h => (hg _).2 ((hz q).2 h)⟩) i⟩
  | quads v => exact ⟨_, rfl, fun i => finishDCM_positive d _ _ (fun q => ⟨fun h => (hg _).1 ((hz q).1 h), fun h => (hg _).2 ((hz q).2 h)⟩) i⟩

/-! ### the results of the calls -/

theorem no_exc_cm (e : Env) {d : UData n} (g : UAttr d) (h : g.last_model = some "cm" ∨ g.last_model = some "cm_exp") (hb : g.beta = none) : (solutionError e g).2 = none := by
  have hb' : (degreeError g).beta = none := by
    rw [show (degreeError g).beta = g.beta from (degreeError_keeps g).2.2.1]; exact hb
  rw [solutionError, if_pos (by tauto), strengthError, hb']

theorem no_exc_dcm {d : DData n} (g : DAttr d) (h : g.last_model = some "dcm" ∨ g.last_model = some "dcm_exp") (hb : g.b_out = none) : (solutionErrorD g).2 = none := by
  have hb' : (degreeErrorD g).b_out = none := by rw [degreeErrorD]; split <;> exact hb
  rw [solutionErrorD, if_pos (by tauto), strengthErrorD, hb']

/-! ### C63 -/

section C63

/-- C63 (cm): if after `m` steps every fitness is within a factor `R` of an exact solution, then after more steps it still is, with or without line search.
With `m = 0` this is a statement about the initial guess. -/
theorem C63_cm (e : Env) {d : UData n} {xs : Fin n → ℝ} (hS : SolvesUBCM d.deg xs) {R : ℝ} (hR : 0 < R) (g : UAttr d) (guess : Guess n) (adj : AdjSpec n) (ma : String)
    (ga : Guess n) (p : Params) {m m' : ℕ} (hm : m ≤ m') :
    let run := fun k => solve_tool e g "cm" "fixed-point" guess adj ma ga { p with max_steps := k }
    ∀ x, (run m).exc = none → (run m).g.x = some x → Within R xs x → ∃ x', (run m').g.x = some x' ∧ Within R xs x' := by
  intro run x hexc hx hW
  obtain ⟨me, x0, s, hme, h0, hs, hG⟩ := solve_tool_ok_cm e g "fixed-point" guess adj ma ga { p with max_steps := m } hexc
  obtain rfl : me = .fixed_point := by revert hme; cases me <;> simp [Method.name]
  have hx' : x = fun i => s.x (d.inv i) := by
    rw [show run m = _ from hG] at hx
    exact (Option.some.inj ((solutionError_keeps e _).1.symm.trans hx)).symm
  subst hx'
  obtain ⟨r, hr, hb⟩ := (recipe_cm e d hS hR).solver_later (o := p.opts "fixed-point") rfl hm hs ((between_dup hR _ _).2 hW)
  have hR' := solve_tool_cm e g .fixed_point guess adj ma ga { p with max_steps := m' } h0
  have hr' : solver (cbCM e d .fixed_point) (Params.opts { p with max_steps := m' } (Method.name .fixed_point)) x0 = .ok r := hr
  simp only [hr'] at hR'
  refine ⟨fun i => r.x (d.inv i), ?_, (between_dup hR _ _).1 hb⟩
  rw [show run m' = _ from hR']
  exact (solutionError_keeps e _).1

/-- C63 (cm_exp), for networks without isolated nodes -/
theorem C63_cm_exp (e : Env) {d : UData n} (hd : ∀ i, d.dseq i ≠ 0) {xs : Fin n → ℝ} (hS : SolvesUBCM d.deg xs) {R : ℝ} (hR : 0 < R) (g : UAttr d) (guess : Guess n)
    (adj : AdjSpec n) (ma : String) (ga : Guess n) (p : Params) {m m' : ℕ} (hm : m ≤ m') :
    let run := fun k => solve_tool e g "cm_exp" "fixed-point" guess adj ma ga { p with max_steps := k }
    ∀ x, (run m).exc = none → (run m).g.x = some x → Within R xs x → ∃ x', (run m').g.x = some x' ∧ Within R xs x' := by
  intro run x hexc hx hW
  obtain ⟨me, x0, s, hme, h0, hs, hG⟩ := solve_tool_ok_cm_exp e g "fixed-point" guess adj ma ga { p with max_steps := m } hexc
  obtain rfl : me = .fixed_point := by revert hme; cases me <;> simp [Method.name]
  have hx' : x = fun i => Real.exp (-s.x (d.inv i)) := by
    rw [show run m = _ from hG] at hx
    exact (Option.some.inj ((solutionError_keeps e _).1.symm.trans hx)).symm
  subst hx'
  obtain ⟨r, hr, hb⟩ := (recipe_cm_exp e d hd hS hR).solver_later (o := p.opts "fixed-point") rfl hm hs ((between_dup hR _ _).2 hW)
  have hR' := solve_tool_cm_exp e g .fixed_point guess adj ma ga { p with max_steps := m' } h0
  have hr' : solver (cbCMexp e d .fixed_point) (Params.opts { p with max_steps := m' } (Method.name .fixed_point)) x0 = .ok r := hr
  simp only [hr'] at hR'
  refine ⟨fun i => Real.exp (-r.x (d.inv i)), ?_, (between_dup hR _ _).1 hb⟩
  rw [show run m' = _ from hR']
  exact (solutionError_keeps e _).1

/-- an exact solution of the directed model links every node to another one, so that the recipe never divides by zero near it -/
theorem C63_dcm_no_division_by_zero {d : DData n} (hne : ∃ i, d.dseq_out i ≠ 0) {xs ys : Fin n → ℝ} (hS : SolvesDBCM d.degOut d.degIn xs ys) {R : ℝ} (hR : 0 < R)
    {x y : Fin n → ℝ} (hx : Within R xs x) (hy : Within R ys y) (i : Fin n) :
    0 < ∑ j ∈ univ.filter (· ≠ i), y j / (1 + x i * y j) ∧ 0 < ∑ j ∈ univ.filter (· ≠ i), x j / (1 + x j * y i) := by
  have hsol := sol_two hS
  have hκ : ∀ v, two d.degOut d.degIn v ≠ 0 → 1 ≤ two d.degOut d.degIn v := fun v hv => by
    obtain ⟨b, i⟩ := v
    fin_cases b
    · replace hv : d.degOut i ≠ 0 := hv
      show 1 ≤ d.degOut i
      simp only [DData.degOut] at hv ⊢; exact_mod_cast Nat.one_le_iff_ne_zero.2 (by exact_mod_cast hv)
    · replace hv : d.degIn i ≠ 0 := hv
      show 1 ≤ d.degIn i
      simp only [DData.degIn] at hv ⊢; exact_mod_cast Nat.one_le_iff_ne_zero.2 (by exact_mod_cast hv)
  obtain ⟨a, ha⟩ := hne
  have hxa : two xs ys (0, a) ≠ 0 := fun h => by
    have := hsol.kappa_zero h
    simp [DData.degOut, ha] at this
  obtain ⟨j₁, j₂, h12, -, -, s1, s2⟩ := two_partners hsol hκ (0, a) hxa
  obtain ⟨l₁, l₂, l12, -, -, t1, t2⟩ := two_partners hsol hκ (1, j₁) s1
  simp only [FixedPoint.flip_zero, FixedPoint.flip_one, two_zero, two_one] at s1 s2 t1 t2
  have nx : ∀ j, 0 ≤ x j := fun j => by
    have h1 := hS.nonneg_out j
    by_contra h
    push Not at h
    have := (hx j).1
    nlinarith
  have ny : ∀ j, 0 ≤ y j := fun j => by
    have h1 := hS.nonneg_in j
    by_contra h
    push Not at h
    have := (hy j).1
    nlinarith
  have px : ∀ j, xs j ≠ 0 → 0 < x j := fun j hj => by
    have h1 := lt_of_le_of_ne (hS.nonneg_out j) hj.symm
    have := (hx j).1
    by_contra h
    push Not at h
    nlinarith
  have py : ∀ j, ys j ≠ 0 → 0 < y j := fun j hj => by
    have h1 := lt_of_le_of_ne (hS.nonneg_in j) hj.symm
    have := (hy j).1
    by_contra h
    push Not at h
    nlinarith
  constructor
  · have : ∃ j, j ≠ i ∧ ys j ≠ 0 := by
      by_cases h : j₁ = i
      · exact ⟨j₂, fun h' => h12 (h.trans h'.symm), s2⟩
      · exact ⟨j₁, h, s1⟩
    obtain ⟨j, hj, hyj⟩ := this
    refine sum_pos' (fun k _ => div_nonneg (ny k) (by have := mul_nonneg (nx i) (ny k); linarith)) ⟨j, by simp [hj], ?_⟩
    exact div_pos (py j hyj) (by have := mul_nonneg (nx i) (ny j); linarith)
  · have : ∃ j, j ≠ i ∧ xs j ≠ 0 := by
      by_cases h : l₁ = i
      · exact ⟨l₂, fun h' => l12 (h.trans h'.symm), t2⟩
      · exact ⟨l₁, h, t1⟩
    obtain ⟨j, hj, hxj⟩ := this
    refine sum_pos' (fun k _ => div_nonneg (nx k) (by have := mul_nonneg (nx k) (ny i); linarith)) ⟨j, by simp [hj], ?_⟩
    exact div_pos (px j hxj) (by have := mul_nonneg (nx j) (ny i); linarith)

/-- C63 (dcm).  The network has at least one link: without links the recipe divides zero by zero. -/
theorem C63_dcm (e : Env) {d : DData n} (_hne : ∃ i, d.dseq_out i ≠ 0) {xs ys : Fin n → ℝ} (hS : SolvesDBCM d.degOut d.degIn xs ys) {R : ℝ} (hR : 0 < R) (g : DAttr d)
    (guess : DGuess n) (adj : AdjSpec n) (ma : String) (ga : DGuess n) (p : Params) {m m' : ℕ} (hm : m ≤ m') :
    let run := fun k => solve_tool_directed e g "dcm" "fixed-point" guess adj ma ga { p with max_steps := k }
    ∀ x y, (run m).exc = none → (run m).g.x = some x → (run m).g.y = some y → Within R xs x → Within R ys y →
      ∃ x' y', (run m').g.x = some x' ∧ (run m').g.y = some y' ∧ Within R xs x' ∧ Within R ys y' := by
  intro run x y hexc hx hy hW hW'
  obtain ⟨me, x0, s, hme, h0, hs, hG, -⟩ := solve_tool_ok_dcm e g "fixed-point" guess adj ma ga { p with max_steps := m } hexc
  obtain rfl : me = .fixed_point := by revert hme; cases me <;> simp [Method.name]
  have hx' : x = fun i => s.x (0, d.inv i) := by
    rw [show run m = _ from hG] at hx
    exact (Option.some.inj ((keepsD DAttr.x (fun _ => rfl) _).symm.trans hx)).symm
  have hy' : y = fun i => s.x (1, d.inv i) := by
    rw [show run m = _ from hG] at hy
    exact (Option.some.inj ((keepsD DAttr.y (fun _ => rfl) _).symm.trans hy)).symm
  have split : ∀ z : Fin 2 × Fin d.r → ℝ, (fun v : Fin 2 × Fin n => z (v.1, d.inv v.2)) = two (fun i => z (0, d.inv i)) fun i => z (1, d.inv i) := fun z => by
    funext v
    obtain ⟨b, i⟩ := v
    fin_cases b <;> rfl
  subst hx' hy'
  obtain ⟨r, hr, hb⟩ := (recipe_dcm e d hS hR).solver_later (o := p.opts "fixed-point") rfl hm hs (by simp only [split]; exact (between_two hR _ _ _ _).2 ⟨hW, hW'⟩)
  have hR' := solve_tool_dcm e g .fixed_point guess adj ma ga { p with max_steps := m' } h0
  have hr' : solver (cbDCM e d .fixed_point) (Params.opts { p with max_steps := m' } (Method.name .fixed_point)) x0 = .ok r := hr
  simp only [hr'] at hR'
  simp only [split] at hb
  refine ⟨fun i => r.x (0, d.inv i), fun i => r.x (1, d.inv i), ?_, ?_, (between_two hR _ _ _ _).1 hb⟩
  · rw [show run m' = _ from hR']
    exact keepsD DAttr.x (fun _ => rfl) _
  · rw [show run m' = _ from hR']
    exact keepsD DAttr.y (fun _ => rfl) _

/-- C63 (dcm_exp), for networks in which every node has links of both directions -/
theorem C63_dcm_exp (e : Env) {d : DData n} (ho : ∀ i, d.dseq_out i ≠ 0) (hi : ∀ i, d.dseq_in i ≠ 0) {xs ys : Fin n → ℝ} (hS : SolvesDBCM d.degOut d.degIn xs ys) {R : ℝ}
    (hR : 0 < R) (g : DAttr d) (guess : DGuess n) (adj : AdjSpec n) (ma : String) (ga : DGuess n) (p : Params) {m m' : ℕ} (hm : m ≤ m') :
    let run := fun k => solve_tool_directed e g "dcm_exp" "fixed-point" guess adj ma ga { p with max_steps := k }
    ∀ x y, (run m).exc = none → (run m).g.x = some x → (run m).g.y = some y → Within R xs x → Within R ys y →
      ∃ x' y', (run m').g.x = some x' ∧ (run m').g.y = some y' ∧ Within R xs x' ∧ Within R ys y' := by
  intro run x y hexc hx hy hW hW'
  obtain ⟨me, x0, s, hme, h0, hs, hG, -⟩ := solve_tool_ok_dcm_exp e g "fixed-point" guess adj ma ga { p with max_steps := m } hexc
  obtain rfl : me = .fixed_point := by revert hme; cases me <;> simp [Method.name]
  have hx' : x = fun i => Real.exp (-s.x (0, d.inv i)) := by
    rw [show run m = _ from hG] at hx
    exact (Option.some.inj ((keepsD DAttr.x (fun _ => rfl) _).symm.trans hx)).symm
  have hy' : y = fun i => Real.exp (-s.x (1, d.inv i)) := by
    rw [show run m = _ from hG] at hy
    exact (Option.some.inj ((keepsD DAttr.y (fun _ => rfl) _).symm.trans hy)).symm
  have split : ∀ z : Fin 2 × Fin d.r → ℝ, (fun v : Fin 2 × Fin n => Real.exp (-z (v.1, d.inv v.2))) =
      two (fun i => Real.exp (-z (0, d.inv i))) fun i => Real.exp (-z (1, d.inv i)) := fun z => by
    funext v
    obtain ⟨b, i⟩ := v
    fin_cases b <;> rfl
  subst hx' hy'
  obtain ⟨r, hr, hb⟩ := (recipe_dcm_exp e d ho hi hS hR).solver_later (o := p.opts "fixed-point") rfl hm hs (by simp only [split]; exact (between_two hR _ _ _ _).2 ⟨hW, hW'⟩)
  have hR' := solve_tool_dcm_exp e g .fixed_point guess adj ma ga { p with max_steps := m' } h0
  have hr' : solver (cbDCMexp e d .fixed_point) (Params.opts { p with max_steps := m' } (Method.name .fixed_point)) x0 = .ok r := hr
  simp only [hr'] at hR'
  simp only [split] at hb
  refine ⟨fun i => Real.exp (-r.x (0, d.inv i)), fun i => Real.exp (-r.x (1, d.inv i)), ?_, ?_, (between_two hR _ _ _ _).1 hb⟩
  · rw [show run m' = _ from hR']
    exact keepsD DAttr.x (fun _ => rfl) _
  · rw [show run m' = _ from hR']
    exact keepsD DAttr.y (fun _ => rfl) _

end C63

/-! ### C64 and C65 -/

section C64

theorem UData.one_le_deg (d : UData n) (v : Fin 2 × Fin n) (hv : dup d.deg v ≠ 0) : 1 ≤ dup d.deg v := by
  simp only [dup_apply, UData.deg] at hv ⊢
  exact_mod_cast Nat.one_le_iff_ne_zero.2 (by exact_mod_cast hv)

theorem DData.one_le_deg (d : DData n) (v : Fin 2 × Fin n) (hv : two d.degOut d.degIn v ≠ 0) : 1 ≤ two d.degOut d.degIn v := by
  obtain ⟨b, i⟩ := v
  fin_cases b
  · replace hv : d.degOut i ≠ 0 := hv
    show 1 ≤ d.degOut i
    simp only [DData.degOut] at hv ⊢; exact_mod_cast Nat.one_le_iff_ne_zero.2 (by exact_mod_cast hv)
  · replace hv : d.degIn i ≠ 0 := hv
    show 1 ≤ d.degIn i
    simp only [DData.degIn] at hv ⊢; exact_mod_cast Nat.one_le_iff_ne_zero.2 (by exact_mod_cast hv)

theorem sol_ne {κ s : Fin 2 × Fin n → ℝ} (hS : Sol κ s) {v : Fin 2 × Fin n} (h : κ v ≠ 0) : s v ≠ 0 := fun h' => h (hS.kappa_zero h')

/-- C64 (cm): whenever the model has an exact solution, the fixed-point method without line search converges from every documented guess and from every array
that is positive on the linked nodes: however small `ε`, with enough steps and small enough `tol` and `eps` every expected degree is met up to `ε` (relatively). -/
theorem C64_cm (e : Env) (he : e.Valid) (hr : e.NonzeroDraws) (d : UData n) {xs : Fin n → ℝ} (hS : SolvesUBCM d.deg xs) (hne : ∃ i, d.dseq i ≠ 0) (guess : Guess n)
    (hg : guess.Positive d) {ε : ℝ} (hε : 0 < ε) : ∃ T : ℕ, ∃ τ > (0 : ℝ), ∀ (g : UAttr d) (adj : AdjSpec n) (ma : String) (ga : Guess n) (p : Params), g.beta = none →
      p.linsearch = false → T ≤ p.max_steps → p.tol < τ → p.eps < τ →
      let R := solve_tool e g "cm" "fixed-point" guess adj ma ga p
      R.exc = none ∧ ∃ x, R.g.x = some x ∧ ∀ i, |degUBCM x i - d.dseq i| ≤ ε * d.dseq i := by
  obtain ⟨x0, h0, hx0⟩ := guessCM_positive e he hr d guess hg
  have hsol := sol_dup hS
  obtain ⟨ρ, hρ, hW⟩ := exists_within (a := xs) (b := fun i => x0 (d.inv i)) fun i => by
    have hk := hx0 (d.inv i)
    rw [d.k_at_inv] at hk
    by_cases hi : (d.dseq i : ℝ) = 0
    · exact .inr ⟨hS.zero i hi, hk.2 hi⟩
    · exact .inl ⟨lt_of_le_of_ne (hS.nonneg i) (Ne.symm (sol_ne hsol (v := (0, i)) hi)), hk.1 hi⟩
  obtain ⟨i0, hi0⟩ := hne
  have hs0 : dup xs (0, i0) ≠ 0 := sol_ne hsol (by simp [UData.deg, hi0])
  have hrec := recipe_cm e d hS hρ
  obtain ⟨T, τ, hτ, hT⟩ := hrec.converges (linked_of hsol d.one_le_deg) ⟨_, mem_act.2 hs0⟩ hε
  have hpos : 0 < 1 / ρ * xs i0 := mul_pos (by positivity) (hsol.pos hs0)
  refine ⟨T, min τ (1 / ρ * xs i0), lt_min hτ hpos, fun g adj ma ga p hb hl hmax htol heps => ?_⟩
  intro R
  obtain ⟨r, hr, -, hv⟩ := hT (p.opts "fixed-point") x0 rfl hl (fun x hx => by
    have h1 : 1 / ρ * xs i0 ≤ (cbCM e d .fixed_point).fn x (d.inv i0) := by
      have h2 := F_between hsol (by positivity) hρ hx
      have h3 := congrFun (hrec.fn x hx) (0, i0)
      simp only at h3
      rw [h3]
      exact (h2.1 i0).1
    calc (p.opts "fixed-point").tol < 1 / ρ * xs i0 := htol.trans_le (min_le_right _ _)
      _ ≤ _ := h1
      _ ≤ |_| := le_abs_self _
      _ ≤ _ := abs_le_norm2 _ (d.inv i0)) (heps.trans_le (min_le_left _ _)) hmax ((between_dup hρ _ _).2 hW)
  have hR := solve_tool_cm e g .fixed_point guess adj ma ga p h0
  have hr' : solver (cbCM e d .fixed_point) (p.opts (Method.name .fixed_point)) x0 = .ok r := hr
  simp only [hr'] at hR
  rw [show R = _ from hR]
  refine ⟨no_exc_cm e _ (by simp [setSolvedCM]) hb, fun i => r.x (d.inv i), (solutionError_keeps e _).1, fun i => ?_⟩
  have := hv (0, i)
  show |degUBCM (fun i => r.x (d.inv i)) ((0 : Fin 2), i).2 - d.dseq i| ≤ ε * d.dseq i
  rw [← den_dup (fun i => r.x (d.inv i)) (0, i)]
  exact this

/-- C64 (dcm) -/
theorem C64_dcm (e : Env) (he : e.Valid) (hr : e.NonzeroDraws) (d : DData n) {xs ys : Fin n → ℝ} (hS : SolvesDBCM d.degOut d.degIn xs ys) (hne : ∃ i, d.dseq_out i ≠ 0)
    (guess : DGuess n) (hg : guess.Positive d) {ε : ℝ} (hε : 0 < ε) : ∃ T : ℕ, ∃ τ > (0 : ℝ), ∀ (g : DAttr d) (adj : AdjSpec n) (ma : String) (ga : DGuess n) (p : Params),
      g.b_out = none → p.linsearch = false → T ≤ p.max_steps → p.tol < τ → p.eps < τ →
      let R := solve_tool_directed e g "dcm" "fixed-point" guess adj ma ga p
      R.exc = none ∧ ∃ x y, R.g.x = some x ∧ R.g.y = some y ∧
        ∀ i, |outDBCM x y i - d.dseq_out i| ≤ ε * d.dseq_out i ∧ |inDBCM x y i - d.dseq_in i| ≤ ε * d.dseq_in i := by
  have hsum : ∑ i, d.dseq_in i = ∑ i, d.dseq_out i := by
    have h1 : ∑ i, inDBCM xs ys i = ∑ i, outDBCM xs ys i := by
      unfold inDBCM outDBCM
      exact sum_comm' (by intro x y; simp [ne_comm])
    simp only [hS.mean_in, hS.mean_out, DData.degIn, DData.degOut] at h1
    exact_mod_cast h1
  obtain ⟨x0, h0, hx0⟩ := guessDCM_positive e he hr d hsum guess hg
  have hsol := sol_two hS
  have hboth : ∃ ρ > 0, Within ρ xs (fun i => x0 (0, d.inv i)) ∧ Within ρ ys (fun i => x0 (1, d.inv i)) := by
    obtain ⟨ρ₁, h₁, hW₁⟩ := exists_within (a := xs) (b := fun i => x0 (0, d.inv i)) fun i => by
      have hk := (hx0 i).1
      by_cases hi : d.dseq_out i = 0
      · exact .inr ⟨hS.zero_out i (by simp [DData.degOut, hi]), hk.2 hi⟩
      · exact .inl ⟨lt_of_le_of_ne (hS.nonneg_out i) (Ne.symm (sol_ne hsol (v := (0, i)) (by simp [DData.degOut, hi]))), hk.1 hi⟩
    obtain ⟨ρ₂, h₂, hW₂⟩ := exists_within (a := ys) (b := fun i => x0 (1, d.inv i)) fun i => by
      have hk := (hx0 i).2
      by_cases hi : d.dseq_in i = 0
      · exact .inr ⟨hS.zero_in i (by simp [DData.degIn, hi]), hk.2 hi⟩
      · exact .inl ⟨lt_of_le_of_ne (hS.nonneg_in i) (Ne.symm (sol_ne hsol (v := (1, i)) (by simp [DData.degIn, hi]))), hk.1 hi⟩
    have n1 : ∀ i, 0 ≤ x0 (0, d.inv i) := fun i => by
      by_cases hi : d.dseq_out i = 0
      · rw [(hx0 i).1.2 hi]
      · exact ((hx0 i).1.1 hi).le
    have n2 : ∀ i, 0 ≤ x0 (1, d.inv i) := fun i => by
      by_cases hi : d.dseq_in i = 0
      · rw [(hx0 i).2.2 hi]
      · exact ((hx0 i).2.1 hi).le
    exact ⟨max ρ₁ ρ₂, lt_max_of_lt_left h₁, Within.mono hW₁ hS.nonneg_out n1 (le_max_left _ _), Within.mono hW₂ hS.nonneg_in n2 (le_max_right _ _)⟩
  obtain ⟨ρ, hρ, hW⟩ := hboth
  obtain ⟨i0, hi0⟩ := hne
  have hs0 : two xs ys (0, i0) ≠ 0 := sol_ne hsol (by simp [DData.degOut, hi0])
  have hrec := recipe_dcm e d hS hρ
  have split : ∀ z : Fin 2 × Fin d.r → ℝ, (fun v : Fin 2 × Fin n => z (v.1, d.inv v.2)) = two (fun i => z (0, d.inv i)) fun i => z (1, d.inv i) := fun z => by
    funext v
    obtain ⟨b, i⟩ := v
    fin_cases b <;> rfl
  obtain ⟨T, τ, hτ, hT⟩ := hrec.converges (linked_of hsol d.one_le_deg) ⟨_, mem_act.2 hs0⟩ hε
  have hpos : 0 < 1 / ρ * xs i0 := mul_pos (by positivity) (hsol.pos hs0)
  refine ⟨T, min τ (1 / ρ * xs i0), lt_min hτ hpos, fun g adj ma ga p hb hl hmax htol heps => ?_⟩
  intro R
  obtain ⟨r, hr, -, hv⟩ := hT (p.opts "fixed-point") x0 rfl hl (fun x hx => by
    have h1 : 1 / ρ * xs i0 ≤ (cbDCM e d .fixed_point).fn x (0, d.inv i0) := by
      have h2 := F_between hsol (by positivity) hρ hx
      have h3 := congrFun (hrec.fn x hx) (0, i0)
      simp only at h3
      rw [h3]
      exact (h2.1 i0).1
    calc (p.opts "fixed-point").tol < 1 / ρ * xs i0 := htol.trans_le (min_le_right _ _)
      _ ≤ _ := h1
      _ ≤ |_| := le_abs_self _
      _ ≤ _ := abs_le_norm2 _ (0, d.inv i0)) (heps.trans_le (min_le_left _ _)) hmax (by simp only [split]; exact (between_two hρ _ _ _ _).2 hW)
  have hR := solve_tool_dcm e g .fixed_point guess adj ma ga p h0
  have hr' : solver (cbDCM e d .fixed_point) (p.opts (Method.name .fixed_point)) x0 = .ok r := hr
  simp only [hr'] at hR
  rw [show R = _ from hR]
  refine ⟨no_exc_dcm _ (by simp [setSolvedDCM, preDCM, DModel.name]) hb, fun i => r.x (0, d.inv i), fun i => r.x (1, d.inv i),
    keepsD DAttr.x (fun _ => rfl) _, keepsD DAttr.y (fun _ => rfl) _, fun i => ?_⟩
  simp only [split] at hv
  have a0 := hv (0, i)
  have a1 := hv (1, i)
  simp only [two_zero, two_one] at a0 a1
  have b0 := den_two0 (fun i => r.x (0, d.inv i)) (fun i => r.x (1, d.inv i)) i
  have b1 := den_two1 (fun i => r.x (0, d.inv i)) (fun i => r.x (1, d.inv i)) i
  rw [b0] at a0
  rw [b1] at a1
  exact ⟨a0, a1⟩

/-- C65 (cm_exp), the part that holds: with a negative `tol`, which disables the stopping rule that is wrong, the fixed-point method without line search converges
from every accepted guess on every network without isolated nodes.  Missing: `tol > 0`, see `C65_cm_exp_stops_early`. -/
theorem C65_cm_exp_partial (e : Env) (d : UData n) (hd : ∀ i, d.dseq i ≠ 0) {xs : Fin n → ℝ} (hS : SolvesUBCM d.deg xs) (guess : Guess n) (hg : guess.Accepted)
    {ε : ℝ} (hε : 0 < ε) : ∃ T : ℕ, ∃ τ > (0 : ℝ), ∀ (g : UAttr d) (adj : AdjSpec n) (ma : String) (ga : Guess n) (p : Params), g.beta = none →
      p.linsearch = false → T ≤ p.max_steps → p.tol < 0 → p.eps < τ →
      let R := solve_tool e g "cm_exp" "fixed-point" guess adj ma ga p
      R.exc = none ∧ ∃ x, R.g.x = some x ∧ ∀ i, |degUBCM x i - d.dseq i| ≤ ε * d.dseq i := by
  obtain ⟨x0, h0⟩ := guessCM_ok e d guess hg
  have hsol := sol_dup hS
  obtain ⟨ρ, hρ, hW⟩ := exists_within (a := xs) (b := fun i => Real.exp (-x0 (d.inv i))) fun i =>
    .inl ⟨lt_of_le_of_ne (hS.nonneg i) (Ne.symm (sol_ne hsol (v := (0, i)) (by simp [UData.deg, hd i]))), Real.exp_pos _⟩
  have hs0 : dup xs (0, 0) ≠ 0 := sol_ne hsol (by simp [UData.deg, hd 0])
  have hrec := recipe_cm_exp e d hd hS hρ
  obtain ⟨T, τ, hτ, hT⟩ := hrec.converges (linked_of hsol d.one_le_deg) ⟨_, mem_act.2 hs0⟩ hε
  refine ⟨T, τ, hτ, fun g adj ma ga p hb hl hmax htol heps => ?_⟩
  intro R
  obtain ⟨r, hr, -, hv⟩ := hT (p.opts "fixed-point") x0 rfl hl (fun x hx => htol.trans_le (Real.sqrt_nonneg _)) heps hmax ((between_dup hρ _ _).2 hW)
  have hR := solve_tool_cm_exp e g .fixed_point guess adj ma ga p h0
  have hr' : solver (cbCMexp e d .fixed_point) (p.opts (Method.name .fixed_point)) x0 = .ok r := hr
  simp only [hr'] at hR
  rw [show R = _ from hR]
  refine ⟨no_exc_cm e _ (by simp [setSolvedCM]) hb, fun i => Real.exp (-r.x (d.inv i)), (solutionError_keeps e _).1, fun i => ?_⟩
  have := hv (0, i)
  show |degUBCM (fun i => Real.exp (-r.x (d.inv i))) ((0 : Fin 2), i).2 - d.dseq i| ≤ ε * d.dseq i
  rw [← den_dup (fun i => Real.exp (-r.x (d.inv i))) (0, i)]
  exact this

/-- C65 (dcm_exp), the part that holds -/
theorem C65_dcm_exp_partial (e : Env) (d : DData n) (ho : ∀ i, d.dseq_out i ≠ 0) (hi : ∀ i, d.dseq_in i ≠ 0) {xs ys : Fin n → ℝ} (hS : SolvesDBCM d.degOut d.degIn xs ys)
    (guess : DGuess n) (hg : guess.Accepted) {ε : ℝ} (hε : 0 < ε) : ∃ T : ℕ, ∃ τ > (0 : ℝ), ∀ (g : DAttr d) (adj : AdjSpec n) (ma : String) (ga : DGuess n) (p : Params),
      g.b_out = none → p.linsearch = false → T ≤ p.max_steps → p.tol < 0 → p.eps < τ →
      let R := solve_tool_directed e g "dcm_exp" "fixed-point" guess adj ma ga p
      R.exc = none ∧ ∃ x y, R.g.x = some x ∧ R.g.y = some y ∧
        ∀ i, |outDBCM x y i - d.dseq_out i| ≤ ε * d.dseq_out i ∧ |inDBCM x y i - d.dseq_in i| ≤ ε * d.dseq_in i := by
  obtain ⟨x0, h0⟩ := guessDCM_ok e d guess hg
  have hsol := sol_two hS
  obtain ⟨ρ₁, h₁, hW₁⟩ := exists_within (a := xs) (b := fun i => Real.exp (-x0 (0, d.inv i))) fun i =>
    .inl ⟨lt_of_le_of_ne (hS.nonneg_out i) (Ne.symm (sol_ne hsol (v := (0, i)) (by simp [DData.degOut, ho i]))), Real.exp_pos _⟩
  obtain ⟨ρ₂, h₂, hW₂⟩ := exists_within (a := ys) (b := fun i => Real.exp (-x0 (1, d.inv i))) fun i =>
    .inl ⟨lt_of_le_of_ne (hS.nonneg_in i) (Ne.symm (sol_ne hsol (v := (1, i)) (by simp [DData.degIn, hi i]))), Real.exp_pos _⟩
  set ρ := max ρ₁ ρ₂ with hρe
  have hρ : 0 < ρ := lt_max_of_lt_left h₁
  have hW : Within ρ xs (fun i => Real.exp (-x0 (0, d.inv i))) ∧ Within ρ ys (fun i => Real.exp (-x0 (1, d.inv i))) :=
    ⟨Within.mono hW₁ hS.nonneg_out (fun i => (Real.exp_pos _).le) (le_max_left _ _), Within.mono hW₂ hS.nonneg_in (fun i => (Real.exp_pos _).le) (le_max_right _ _)⟩
  have hs0 : two xs ys (0, 0) ≠ 0 := sol_ne hsol (by simp [DData.degOut, ho 0])
  have hrec := recipe_dcm_exp e d ho hi hS hρ
  have split : ∀ z : Fin 2 × Fin d.r → ℝ, (fun v : Fin 2 × Fin n => Real.exp (-z (v.1, d.inv v.2))) =
      two (fun i => Real.exp (-z (0, d.inv i))) fun i => Real.exp (-z (1, d.inv i)) := fun z => by
    funext v
    obtain ⟨b, i⟩ := v
    fin_cases b <;> rfl
  obtain ⟨T, τ, hτ, hT⟩ := hrec.converges (linked_of hsol d.one_le_deg) ⟨_, mem_act.2 hs0⟩ hε
  refine ⟨T, τ, hτ, fun g adj ma ga p hb hl hmax htol heps => ?_⟩
  intro R
  obtain ⟨r, hr, -, hv⟩ := hT (p.opts "fixed-point") x0 rfl hl (fun x hx => htol.trans_le (Real.sqrt_nonneg _)) heps hmax (by
    simp only [split]; exact (between_two hρ _ _ _ _).2 hW)
  have hR := solve_tool_dcm_exp e g .fixed_point guess adj ma ga p h0
  have hr' : solver (cbDCMexp e d .fixed_point) (p.opts (Method.name .fixed_point)) x0 = .ok r := hr
  simp only [hr'] at hR
  rw [show R = _ from hR]
  refine ⟨no_exc_dcm _ (by simp [setSolvedDCM, preDCM, DModel.name]) hb, fun i => Real.exp (-r.x (0, d.inv i)), fun i => Real.exp (-r.x (1, d.inv i)),
    keepsD DAttr.x (fun _ => rfl) _, keepsD DAttr.y (fun _ => rfl) _, fun i => ?_⟩
  have a0 := hv (0, i)
  have a1 := hv (1, i)
  simp only [split] at a0 a1
  simp only [two_zero, two_one] at a0 a1
  have b0 := den_two0 (fun i => Real.exp (-r.x (0, d.inv i))) (fun i => Real.exp (-r.x (1, d.inv i))) i
  have b1 := den_two1 (fun i => Real.exp (-r.x (0, d.inv i))) (fun i => Real.exp (-r.x (1, d.inv i))) i
  rw [b0] at a0
  rw [b1] at a1
  exact ⟨a0, a1⟩

/-- `n` nodes of degree `k < n - 1`: equal fitnesses solve the model -/
theorem solves_regular {k : ℕ} {s : Fin n → ℝ} (hk : k + 1 < n) : SolvesUBCM (regular n k s).deg fun _ => Real.sqrt (k / (n - 1 - k)) := by
  have h1 : (0 : ℝ) < n - 1 - k := by
    have : (k : ℝ) + 1 < n := by exact_mod_cast hk
    linarith
  refine ⟨fun i => Real.sqrt_nonneg _, fun i h => ?_, fun i => ?_⟩
  · have : (k : ℝ) = 0 := h
    rw [this, zero_div, Real.sqrt_zero]
  · show degUBCM _ i = (k : ℝ)
    unfold degUBCM linkUBCM
    rw [sum_const, filter_ne', card_erase_of_mem (mem_univ _), card_univ, Fintype.card_fin, nsmul_eq_mul, Real.mul_self_sqrt (by positivity),
      Nat.cast_sub (Nat.one_le_iff_ne_zero.2 (NeZero.ne n))]
    have h2 : (n : ℝ) - 1 ≠ 0 := by
      have : (0 : ℝ) ≤ k := Nat.cast_nonneg k
      intro h
      linarith
    have h3 : 1 + (k : ℝ) / (n - 1 - k) = (n - 1) / (n - 1 - k) := by field_simp; ring
    rw [h3]
    push_cast
    field_simp

/-- C65 is false: the hexagon has an exact solution, but for every `tol ≥ 0`, every `eps`, every number of steps, with or without line search, the fixed-point
method of `cm_exp` started from θ = log 2 returns at once, with expected degrees 1 instead of 2: the norm it compares with `tol` is that of the next iterate. -/
theorem C65_cm_exp_stops_early (e : Env) (s : Fin 6 → ℝ) (adj : AdjSpec 6) (ma : String) (ga : Guess 6) (p : Params) (ht : 0 ≤ p.tol) :
    let d := regular 6 2 s
    let R := solve_tool e ({} : UAttr d) "cm_exp" "fixed-point" (.nodes fun _ => Real.log 2) adj ma ga p
    (∃ xs, SolvesUBCM d.deg xs) ∧ R.exc = none ∧ R.g.x = some (fun _ => 1 / 2) ∧ ∀ i, degUBCM (fun _ : Fin 6 => (1 : ℝ) / 2) i = 1 ∧ d.dseq i = 2 := by
  intro d R
  have h0 : guessCM e d true (.nodes fun _ => Real.log 2) = .ok fun _ => Real.log 2 := by
    simp only [guessCM]
    congr 1
    funext q
    have : d.k q ≠ 0 := by rw [regular_k]; norm_num
    simp [maskSet, this]
  have hexp : Real.exp (-Real.log 2) = 1 / 2 := by rw [Real.exp_neg, Real.exp_log (by norm_num)]; norm_num
  have hG : (cbCMexp e d .fixed_point).fn (fun _ => Real.log 2) = 0 := by
    funext q
    simp only [cbCMexp]
    rw [CM.iterative_exp_eq, Fintype.sum_subsingleton _ q]
    simp only [if_true, hexp]
    rw [regular_c, regular_k]
    norm_num
  have hno : norm2 (0 : Fin d.r → ℝ) = 0 := by simp [norm2]
  have hsol : solver (cbCMexp e d .fixed_point) (p.opts (Method.name .fixed_point)) (fun _ => Real.log 2) =
      .ok (initState (cbCMexp e d .fixed_point) fun _ => Real.log 2) := by
    unfold solver
    cases hk : (p.opts (Method.name .fixed_point)).max_steps with
    | zero => rfl
    | succ k =>
      rw [loop, if_neg]
      simp only [initState, hG, hno]
      intro h
      exact absurd h.1 (not_lt.2 ht)
  have hR := solve_tool_cm_exp e ({} : UAttr d) .fixed_point _ adj ma ga p h0
  simp only [hsol] at hR
  rw [show R = _ from hR]
  refine ⟨⟨_, solves_regular (by norm_num)⟩, no_exc_cm e _ (by simp [setSolvedCM]) rfl, (solutionError_keeps e _).1.trans ?_, fun i => ⟨?_, rfl⟩⟩
  · simp only [setSolvedCM, initState, if_true, hexp]
  · unfold degUBCM linkUBCM
    rw [sum_const, filter_ne', card_erase_of_mem (mem_univ _)]
    simp; norm_num

/-- the hypotheses of C63 and C64 are met by the pentagon, with exact solution 1, from the guess "degrees" -/
example (e : Env) (he : e.Valid) (hr : e.NonzeroDraws) : ∃ T : ℕ, ∃ τ > (0 : ℝ), ∀ p : Params, p.linsearch = false → T ≤ p.max_steps → p.tol < τ → p.eps < τ →
    let R := solve_tool e ({} : UAttr (regular 5 2 fun _ => 1)) "cm" "fixed-point" (.name "degrees") .other "newton" (.name "random") p
    R.exc = none ∧ ∃ x, R.g.x = some x ∧ ∀ i, |degUBCM x i - 2| ≤ 1e-6 * 2 := by
  obtain ⟨T, τ, hτ, h⟩ := C64_cm e he hr (regular 5 2 fun _ => 1) (solves_regular (by norm_num)) ⟨0, by simp [regular]⟩ (.name "degrees")
    (by simp [Guess.Positive, guessNames]) (ε := 1e-6) (by norm_num)
  refine ⟨T, τ, hτ, fun p h1 h2 h3 h4 => ?_⟩
  obtain ⟨k1, x, k2, k3⟩ := h {} .other "newton" (.name "random") p rfl h1 h2 h3 h4
  exact ⟨k1, x, k2, fun i => by simpa [regular] using k3 i⟩

/-- a directed network of five nodes with two links out of and into every node: the hypotheses of the directed statements are met -/
theorem solves_regularD : SolvesDBCM (n := 5) (fun _ => 2) (fun _ => 2) (fun _ => 1) (fun _ => 1) := by
  refine ⟨fun _ => by norm_num, fun _ => by norm_num, fun _ h => by norm_num at h, fun _ h => by norm_num at h, fun i => ?_, fun i => ?_⟩
  · unfold outDBCM linkDBCM
    rw [sum_const, filter_ne', card_erase_of_mem (mem_univ _)]
    simp; norm_num
  · unfold inDBCM linkDBCM
    rw [sum_const, filter_ne', card_erase_of_mem (mem_univ _)]
    simp; norm_num

example (e : Env) (he : e.Valid) (hr : e.NonzeroDraws) : ∃ T : ℕ, ∃ τ > (0 : ℝ), ∀ p : Params, p.linsearch = false → T ≤ p.max_steps → p.tol < τ → p.eps < τ →
    let d : DData 5 := { dseq_out := fun _ => 2, dseq_in := fun _ => 2, out_strength := fun _ => 2, in_strength := fun _ => 2, nz_known := true }
    let R := solve_tool_directed e ({} : DAttr d) "dcm" "fixed-point" (.name "uniform") .other "newton" (.name "random") p
    R.exc = none ∧ ∃ x y, R.g.x = some x ∧ R.g.y = some y ∧ ∀ i, |outDBCM x y i - 2| ≤ 1e-6 * 2 ∧ |inDBCM x y i - 2| ≤ 1e-6 * 2 := by
  have hS : SolvesDBCM (DData.degOut (n := 5) { dseq_out := fun _ => 2, dseq_in := fun _ => 2, out_strength := fun _ => 2, in_strength := fun _ => 2, nz_known := true })
      (DData.degIn { dseq_out := fun _ => 2, dseq_in := fun _ => 2, out_strength := fun _ => 2, in_strength := fun _ => 2, nz_known := true }) (fun _ => 1) fun _ => 1 := by
    have := solves_regularD
    convert this using 2 <;> simp [DData.degOut, DData.degIn]
  obtain ⟨T, τ, hτ, h⟩ := C64_dcm e he hr _ hS ⟨0, by simp⟩ (.name "uniform") (by simp [DGuess.Positive, guessNames]) (ε := 1e-6) (by norm_num)
  refine ⟨T, τ, hτ, fun p h1 h2 h3 h4 => ?_⟩
  obtain ⟨k1, x, y, k2, k3, k4⟩ := h {} .other "newton" (.name "random") p rfl h1 h2 h3 h4
  exact ⟨k1, x, y, k2, k3, fun i => by simpa using k4 i⟩

/-- C63 on the pentagon: the guess "degrees", which is 2 for every node, is within a factor 2 of the exact solution 1, and so is the result of every run -/
example (e : Env) (p : Params) (m : ℕ) : ∃ x, (solve_tool e ({} : UAttr (regular 5 2 fun _ => 1)) "cm" "fixed-point" (.name "degrees") .other "newton" (.name "random")
    { p with max_steps := m }).g.x = some x ∧ ∀ i, 1 / 2 ≤ x i ∧ x i ≤ 2 := by
  have hS : SolvesUBCM (regular 5 2 fun _ => (1 : ℝ)).deg fun _ => 1 := by
    have := solves_regular (n := 5) (k := 2) (s := fun _ => 1) (by norm_num)
    have e1 : Real.sqrt (((2 : ℕ) : ℝ) / (((5 : ℕ) : ℝ) - 1 - ((2 : ℕ) : ℝ))) = 1 := by norm_num
    rwa [e1] at this
  have h0 : guessCM e (regular 5 2 fun _ => 1) false (.name "degrees") = .ok fun _ => 2 := by
    have hk : (regular 5 2 fun _ => (1 : ℝ)).k = fun _ => 2 := funext fun q => by rw [regular_k]; norm_num
    simp [guessCM, namedCM, hk]
    funext q
    simp [maskSet]
  have hR := solve_tool_cm e ({} : UAttr (regular 5 2 fun _ => 1)) .fixed_point (.name "degrees") .other "newton" (.name "random") { p with max_steps := 0 } h0
  simp only [solver, Params.opts, loop] at hR
  obtain ⟨x', h1, h2⟩ := C63_cm e hS (R := 2) (by norm_num) ({} : UAttr (regular 5 2 fun _ => 1)) (.name "degrees") .other "newton" (.name "random") p (Nat.zero_le m)
    (fun _ => 2) (by
      show (solve_tool e _ "cm" (Method.name .fixed_point) _ _ _ _ _).exc = none
      rw [hR]; exact no_exc_cm e _ (by simp [setSolvedCM]) rfl) (by
      show (solve_tool e _ "cm" (Method.name .fixed_point) _ _ _ _ _).g.x = _
      rw [hR]; exact (solutionError_keeps e _).1) (fun i => by norm_num)
  exact ⟨x', h1, fun i => ⟨by have := (h2 i).1; linarith, by have := (h2 i).2; linarith⟩⟩

end C64

end

end Verif.Solve
