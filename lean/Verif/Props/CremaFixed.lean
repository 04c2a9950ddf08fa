import Verif.Lemmas.EMModels
import Verif.Lemmas.EMFit
import Verif.Spec.CremaFixed
import Verif.Props.FixedPoint
import Verif.Props.SolveU5
import Verif.Props.SolveD5

/-! C67, C68, C69: the fixed-point method of the conditional reconstruction models on a given matrix. -/

namespace Verif.Solve

open Verif Finset Reduction Solver Spec EM

noncomputable section

open Classical in
attribute [local instance 0] propDecidable

variable {n : ℕ} [NeZero n]

/-! ### guesses -/

/-- a named guess, or an array that is positive at the nodes with strength -/
def Guess.PositiveRates (d : UData n) : Guess n → Prop
  | .name s => s = "strengths" ∨ s = "strengths_minor" ∨ s = "random"
  | .nodes v => ∀ i, d.strength_sequence i ≠ 0 → 0 < v i
  | _ => False

def DGuess.PositiveRates (d : DData n) : DGuess n → Prop
  | .name s => s = "strengths" ∨ s = "strengths_minor" ∨ s = "random"
  | .pairs v => ∀ i, (d.out_strength i ≠ 0 → 0 < v (0, i)) ∧ (d.in_strength i ≠ 0 → 0 < v (1, i))
  | _ => False

theorem guessCrema_positive (e : Env) (he : e.Valid) (hr : e.NonzeroDraws) (d : UData n) (hs : ∀ i, 0 ≤ d.strength_sequence i) (guess : Guess n)
    (hg : guess.PositiveRates d) : ∃ b guess', guessCrema e d guess = (.ok b, guess') ∧
      (∀ i, d.strength_sequence i ≠ 0 → 0 < b i) ∧ ∀ i, d.strength_sequence i = 0 → b i = 0 := by
  cases guess with
  | other => exact hg.elim
  | pairs v => exact hg.elim
  | name s =>
    have : ∃ b guess', guessCrema e d (.name s) = (.ok b, guess') := by
      rcases hg with rfl | rfl | rfl <;> simp [guessCrema, namedCrema]
    obtain ⟨b, g', h⟩ := this
    have := C38_crema_partial e he hr d hs (fun _ _ => 0) (by simp) s h
    exact ⟨b, g', h, this.1, this.2.1⟩
  | nodes v =>
    refine ⟨_, _, rfl, fun i hi => ?_, fun i hi => ?_⟩
    · simp only [maskSet, if_neg hi]; exact hg i hi
    · simp [maskSet, hi]

theorem guessDCrema_positive (e : Env) (he : e.Valid) (hr : e.NonzeroDraws) (d : DData n) (ho : ∀ i, 0 ≤ d.out_strength i) (hi : ∀ i, 0 ≤ d.in_strength i)
    (guess : DGuess n) (hg : guess.PositiveRates d) : ∃ bo bi guess', guessDCrema e d guess = (.ok (bo, bi), guess') ∧
      (∀ i, (d.out_strength i ≠ 0 → 0 < bo i) ∧ (d.out_strength i = 0 → bo i = 0)) ∧ ∀ i, (d.in_strength i ≠ 0 → 0 < bi i) ∧ (d.in_strength i = 0 → bi i = 0) := by
  cases guess with
  | other => exact hg.elim
  | nodes v => exact hg.elim
  | quads v => exact hg.elim
  | name s =>
    have : ∃ bo bi guess', guessDCrema e d (.name s) = (.ok (bo, bi), guess') := by
      rcases hg with rfl | rfl | rfl <;> simp [guessDCrema, namedDCrema]
    obtain ⟨bo, bi, g', h⟩ := this
    have := C38_dcrema e he hr d ho hi (fun _ _ => 0) (by simp) s h
    exact ⟨bo, bi, g', h, this.1, this.2.1⟩
  | pairs v =>
    refine ⟨_, _, _, rfl, fun i => ⟨fun h => ?_, fun h => ?_⟩, fun i => ⟨fun h => ?_, fun h => ?_⟩⟩
    · simp only [maskSet, if_neg h]; exact (hg i).1 h
    · simp [maskSet, h]
    · simp only [maskSet, if_neg h]; exact (hg i).2 h
    · simp [maskSet, h]

theorem good_rates {a : Fin n → Fin n → ℝ} {s : Fin n → ℝ} (hL : LinksFor a s) {b : Fin n → ℝ} (h1 : ∀ i, s i ≠ 0 → 0 < b i) (h0 : ∀ i, s i = 0 → b i = 0) : Good a b where
  nonneg i := by
    by_cases h : s i = 0
    · rw [h0 i h]
    · exact (h1 i h).le
  pos i j h := h1 i (hL.strong i j h)

theorem good_ratesD {a : Fin n → Fin n → ℝ} {so si : Fin n → ℝ} (hL : LinksForD a so si) {bo bi : Fin n → ℝ} (h1 : ∀ i, (so i ≠ 0 → 0 < bo i) ∧ (so i = 0 → bo i = 0))
    (h2 : ∀ i, (si i ≠ 0 → 0 < bi i) ∧ (si i = 0 → bi i = 0)) : Good (bip a) (cat2 bo bi) where
  nonneg := by
    rw [forall_pair]
    constructor <;> intro i
    · by_cases h : so i = 0
      · simp [(h1 i).2 h]
      · simpa using ((h1 i).1 h).le
    · by_cases h : si i = 0
      · simp [(h2 i).2 h]
      · simpa using ((h2 i).1 h).le
  pos := by
    simp only [forall_pair]
    refine ⟨fun i => ⟨by simp, fun j => by simpa using fun h => (h1 i).1 (hL.strong i j h).1⟩, fun i => ⟨fun j => by simpa using fun h => (h2 i).1 (hL.strong j i h).2, by simp⟩⟩

theorem finite_of_good {a : Fin n → Fin n → ℝ} {s : Fin n → ℝ} (hL : LinksFor a s) {β : Fin n → ℝ} (h : Good a β) : FiniteRates a β := fun i j hij =>
  add_pos_of_pos_of_nonneg (h.pos i j hij) (h.nonneg j)

theorem finite_of_goodD {a : Fin n → Fin n → ℝ} {b : Fin 2 × Fin n → ℝ} (h : Good (bip a) b) :
    FiniteRatesD a (fun i => b (0, i)) fun i => b (1, i) := fun i j hij => add_pos_of_pos_of_nonneg (h.pos (0, i) (1, j) (by simpa)) (h.nonneg _)

/-! ### results of the calls -/

theorem no_exc_crema (e : Env) {d : UData n} (g : UAttr d) {β : Fin n → ℝ} {l : Edges n} (hm : g.last_model = some "crema") (hb : g.beta = some β)
    (ha : g.adjacency_crema = some (.edges l)) (hg : g.adjacency_given = some true) (hs : g.is_sparse = false) : (solutionError e g).2 = none := by
  have k := degreeError_keeps g
  have e1 : (degreeError g).beta = some β := by rw [← hb]; unfold degreeError; split <;> rfl
  have e2 : (degreeError g).adjacency_crema = some (.edges l) := by rw [← ha]; unfold degreeError; split <;> rfl
  have e3 : (degreeError g).adjacency_given = some true := by rw [← hg]; unfold degreeError; split <;> rfl
  have e4 : (degreeError g).is_sparse = false := by rw [← hs]; unfold degreeError; split <;> rfl
  rw [solutionError, if_pos (by tauto)]
  unfold strengthError
  simp [e1, e2, e3, e4]

theorem no_exc_dcrema {d : DData n} (g : DAttr d) {bo bi : Fin n → ℝ} {l : Edges n} (hm : g.last_model = some "crema") (hb : g.b_out = some bo) (hb' : g.b_in = some bi)
    (ha : g.adjacency_crema = some (.edges l)) (hg : g.adjacency_given = some true) (hs : g.is_sparse = false) : (solutionErrorD g).2 = none := by
  have e1 : (degreeErrorD g).b_out = some bo := by rw [← hb]; unfold degreeErrorD; split <;> rfl
  have e1' : (degreeErrorD g).b_in = some bi := by rw [← hb']; unfold degreeErrorD; split <;> rfl
  have e2 : (degreeErrorD g).adjacency_crema = some (.edges l) := by rw [← ha]; unfold degreeErrorD; split <;> rfl
  have e3 : (degreeErrorD g).adjacency_given = some true := by rw [← hg]; unfold degreeErrorD; split <;> rfl
  have e4 : (degreeErrorD g).is_sparse = false := by rw [← hs]; unfold degreeErrorD; split <;> rfl
  rw [solutionErrorD, if_pos (by tauto)]
  unfold strengthErrorD
  simp [e1, e1', e2, e3, e4]

/-- a call whose solver run succeeds -/
theorem crema_call (e : Env) {d : UData n} (g : UAttr d) (me : Method) (guess : Guess n) (a : Fin n → Fin n → ℝ) (ma : String) (ga : Guess n) (p : Params)
    {b : Fin n → ℝ} {guess' : Guess n} (h0 : guessCrema e d guess = (.ok b, guess')) {r : State (Fin n)}
    (hr : solver (cbCrema e d (triuEdges a) me) (p.opts me.name) b = .ok r) :
    let R := solve_tool e g "crema" me.name guess (.matrix a) ma ga p
    R.exc = none ∧ R.g.beta = some r.x := by
  intro R
  have hG := solve_tool_crema_matrix e g me guess a ma ga p h0
  simp only [hr] at hG
  rw [show R = _ from hG]
  exact ⟨no_exc_crema e _ rfl rfl rfl rfl rfl, (solutionError_keeps e _).2.2.1⟩

theorem dcrema_call (e : Env) {d : DData n} (g : DAttr d) (hz : d.nz_known = true) (me : Method) (guess : DGuess n) (a : Fin n → Fin n → ℝ) (ma : String) (ga : DGuess n)
    (p : Params) {bo bi : Fin n → ℝ} {guess' : DGuess n} (h0 : guessDCrema e d guess = (.ok (bo, bi), guess')) {r : State (Fin 2 × Fin n)}
    (hr : solver (cbDCrema e d (nzEdges a) me) (p.opts me.name) (cat2 bo bi) = .ok r) :
    let R := solve_tool_directed e g "crema" me.name guess (.matrix a) ma ga p
    R.exc = none ∧ R.g.b_out = some (fun i => r.x (0, i)) ∧ R.g.b_in = some fun i => r.x (1, i) := by
  intro R
  have hG := solve_tool_dcrema_matrix e g hz me guess a ma ga p h0
  simp only [hr] at hG
  rw [show R = _ from hG]
  exact ⟨no_exc_dcrema _ rfl rfl rfl rfl rfl rfl, keepsD DAttr.b_out (fun _ => rfl) _, keepsD DAttr.b_in (fun _ => rfl) _⟩

/-! ### C67: never fails, never gets worse -/

/-- C67 (undirected): on every matrix of links, from every guess that is positive where there is strength, with or without line search and with every choice of tolerances, the
fixed-point method succeeds, the rates it returns are non-negative and give every link a finite mean weight, and more steps never give a lower likelihood. -/
theorem C67_crema (e : Env) (he : e.Valid) (hr : e.NonzeroDraws) (d : UData n) (a : Fin n → Fin n → ℝ) (hL : LinksFor a d.strength_sequence) (guess : Guess n)
    (hg : guess.PositiveRates d) (g g' : UAttr d) (ma : String) (ga : Guess n) (p : Params) (m m' : ℕ) (hm : m ≤ m') :
    let R := solve_tool e g "crema" "fixed-point" guess (.matrix a) ma ga { p with max_steps := m }
    let R' := solve_tool e g' "crema" "fixed-point" guess (.matrix a) ma ga { p with max_steps := m' }
    R.exc = none ∧ R'.exc = none ∧ ∃ β β', R.g.beta = some β ∧ R'.g.beta = some β' ∧ (∀ i, 0 ≤ β i) ∧ FiniteRates a β ∧
      logCReMa a d.strength_sequence β ≤ logCReMa a d.strength_sequence β' := by
  intro R R'
  obtain ⟨b, gs, h0, h1, h2⟩ := guessCrema_positive e he hr d hL.s_nonneg guess hg
  obtain ⟨r, r', k1, k2, k3, -, -, k6⟩ := (recipe_crema e d hL.symm hL.noself hL.nonneg hL.strong hL.s_nonneg).solver_mono (o := p.opts "fixed-point") rfl
    (good_rates hL h1 h2) hm
  obtain ⟨c1, c2⟩ := crema_call e g .fixed_point guess a ma ga { p with max_steps := m } h0 k1
  obtain ⟨c3, c4⟩ := crema_call e g' .fixed_point guess a ma ga { p with max_steps := m' } h0 k2
  refine ⟨c1, c3, r.x, r'.x, c2, c4, k3.nonneg, finite_of_good hL k3, ?_⟩
  rw [← L_logCReMa hL.symm hL.noself, ← L_logCReMa hL.symm hL.noself]
  exact k6

/-- C67 (directed) -/
theorem C67_dcrema (e : Env) (he : e.Valid) (hr : e.NonzeroDraws) (d : DData n) (hz : d.nz_known = true) (a : Fin n → Fin n → ℝ)
    (hL : LinksForD a d.out_strength d.in_strength) (guess : DGuess n)
    (hg : guess.PositiveRates d) (g g' : DAttr d) (ma : String) (ga : DGuess n) (p : Params) (m m' : ℕ) (hm : m ≤ m') :
    let R := solve_tool_directed e g "crema" "fixed-point" guess (.matrix a) ma ga { p with max_steps := m }
    let R' := solve_tool_directed e g' "crema" "fixed-point" guess (.matrix a) ma ga { p with max_steps := m' }
    R.exc = none ∧ R'.exc = none ∧ ∃ bo bi bo' bi', R.g.b_out = some bo ∧ R.g.b_in = some bi ∧ R'.g.b_out = some bo' ∧ R'.g.b_in = some bi' ∧
      (∀ i, 0 ≤ bo i ∧ 0 ≤ bi i) ∧ FiniteRatesD a bo bi ∧
      logDCReMa a d.out_strength d.in_strength bo bi ≤ logDCReMa a d.out_strength d.in_strength bo' bi' := by
  intro R R'
  obtain ⟨bo, bi, gs, h0, h1, h2⟩ := guessDCrema_positive e he hr d hL.so_nonneg hL.si_nonneg guess hg
  obtain ⟨r, r', k1, k2, k3, -, -, k6⟩ := (recipe_dcrema e d hL.nonneg hL.strong hL.so_nonneg hL.si_nonneg).solver_mono (o := p.opts "fixed-point") rfl
    (good_ratesD hL h1 h2) hm
  obtain ⟨c1, c2, c2'⟩ := dcrema_call e g hz .fixed_point guess a ma ga { p with max_steps := m } h0 k1
  obtain ⟨c3, c4, c4'⟩ := dcrema_call e g' hz .fixed_point guess a ma ga { p with max_steps := m' } h0 k2
  refine ⟨c1, c3, _, _, _, _, c2, c2', c4, c4', fun i => ⟨k3.nonneg _, k3.nonneg _⟩, finite_of_goodD k3, ?_⟩
  rw [← L_logDCReMa, ← L_logDCReMa]
  exact k6

/-! ### C68: every weighted network has an exact solution, but not always one with non-negative rates -/

theorem solver_at_root {ι : Type} [Fintype ι] [DecidableEq ι] [Nonempty ι] (C : Callbacks ι) (o : Opts) (x : ι → ℝ) (h0 : 0 ≤ o.tol) (h : C.fn x = 0) :
    solver C o x = .ok (initState C x) := by
  have hn : (initState C x).norm = 0 := by
    show norm2 (C.fn x) = 0
    rw [h]; simp [norm2]
  unfold solver
  cases o.max_steps with
  | zero => rfl
  | succ k => rw [loop, if_neg (fun hc => absurd (hn ▸ hc.1) (not_lt.2 h0))]

/-- C68 (undirected): every weighted network, given its own adjacency matrix (or any matrix with the same links), has rates that reproduce all its strengths exactly; a
call that is handed them as the initial guess returns them and reports a zero error. -/
theorem C68_crema (e : Env) (d : UData n) (w a : Fin n → Fin n → ℝ) (hw : ∀ i j, w i j = w j i) (hwn : ∀ i j, 0 ≤ w i j) (hd : ∀ i, w i i = 0)
    (ha : ∀ i j, a i j = a j i) (han : ∀ i j, 0 ≤ a i j) (haw : ∀ i j, a i j ≠ 0 ↔ w i j ≠ 0) (hsum : ∀ i, d.strength_sequence i = ∑ j, w i j) :
    ∃ β : Fin n → ℝ, FiniteRates a β ∧ (∀ i, strCReMa a β i = d.strength_sequence i) ∧
      ∀ me : Method, me ≠ .fixed_point → ∀ (g : UAttr d) (ma : String) (ga : Guess n) (p : Params), 0 ≤ p.tol →
        let R := solve_tool e g "crema" me.name (.nodes β) (.matrix a) ma ga p
        R.exc = none ∧ R.g.beta = some β ∧ R.g.error = some 0 := by
  have had : ∀ i, a i i = 0 := fun i => by_contra fun h => (haw i i).1 h (hd i)
  have hst : ∀ i j, a i j ≠ 0 → d.strength_sequence i ≠ 0 := fun i j h => by
    rw [hsum]
    exact (sum_pos' (fun j _ => hwn i j) ⟨j, mem_univ j, lt_of_le_of_ne (hwn i j) (Ne.symm ((haw i j).1 h))⟩).ne'
  obtain ⟨b, h1, h2⟩ := exists_exact ha han hw hwn haw
  set β : Fin n → ℝ := fun i => if d.strength_sequence i = 0 then 0 else b i with hβ
  have hb : ∀ i, d.strength_sequence i ≠ 0 → β i = b i := fun i h => if_neg h
  have hF : FiniteRates a β := fun i j h => by
    rw [hb i (hst i j h), hb j (hst j i (by rwa [ha]))]
    exact h1 i j h
  have hS : ∀ i, strCReMa a β i = d.strength_sequence i := fun i => by
    rw [← str_strCReMa had, hsum, ← h2 i]
    refine sum_congr rfl fun j _ => ?_
    by_cases h : a i j = 0
    · simp [h]
    · rw [hb i (hst i j h), hb j (hst j i (by rwa [ha]))]
  refine ⟨β, hF, hS, fun me hme g ma ga p htol => ?_⟩
  intro R
  have hg : guessCrema e d (.nodes β) = (.ok β, .nodes β) := by
    have : maskSet β (fun i => d.strength_sequence i = 0) 0 = β := by
      funext i
      by_cases h : d.strength_sequence i = 0 <;> simp [maskSet, h, hβ]
    simp [guessCrema, this]
  have hroot : (cbCrema e d (triuEdges a) me).fn β = 0 := by
    funext i
    have : CReMa.loglikelihood_prime_crema_undirected β d.strength_sequence (triuEdges a) i = 0 := by
      rw [CReMa.prime_eq, str_crema_spec a ha had, hS]; ring
    cases me with
    | newton => simp [cbCrema, this]
    | quasinewton => simp [cbCrema, this]
    | fixed_point => exact absurd rfl hme
  obtain ⟨c1, c2⟩ := crema_call e g me (.nodes β) a ma ga p hg (solver_at_root _ _ β htol hroot)
  refine ⟨c1, c2, ?_⟩
  obtain ⟨β', E, k1, k2, -, i, k4⟩ := C37_crema_matrix e g me (.nodes β) a ha had ma ga p c1
  have : β' = β := Option.some.inj (k1.symm.trans c2)
  simp only [this, hS i, sub_self, abs_zero] at k4
  exact k2.trans (by rw [k4])

/-- C68 (directed) -/
theorem C68_dcrema (e : Env) (d : DData n) (hz : d.nz_known = true) (w a : Fin n → Fin n → ℝ) (hwn : ∀ i j, 0 ≤ w i j) (han : ∀ i j, 0 ≤ a i j)
    (haw : ∀ i j, a i j ≠ 0 ↔ w i j ≠ 0) (hout : ∀ i, d.out_strength i = ∑ j, w i j) (hin : ∀ j, d.in_strength j = ∑ i, w i j) :
    ∃ bo bi : Fin n → ℝ, FiniteRatesD a bo bi ∧ (∀ i, outStrCReMa a bo bi i = d.out_strength i ∧ inStrCReMa a bo bi i = d.in_strength i) ∧
      ∀ me : Method, me ≠ .fixed_point → ∀ (g : DAttr d) (ma : String) (ga : DGuess n) (p : Params), 0 ≤ p.tol →
        let R := solve_tool_directed e g "crema" me.name (.pairs (cat2 bo bi)) (.matrix a) ma ga p
        R.exc = none ∧ R.g.b_out = some bo ∧ R.g.b_in = some bi ∧ R.g.error = some 0 := by
  have hst : ∀ i j, a i j ≠ 0 → d.out_strength i ≠ 0 ∧ d.in_strength j ≠ 0 := fun i j h => by
    have hp : 0 < w i j := lt_of_le_of_ne (hwn i j) (Ne.symm ((haw i j).1 h))
    rw [hout, hin]
    exact ⟨(sum_pos' (fun j _ => hwn i j) ⟨j, mem_univ j, hp⟩).ne', (sum_pos' (fun i _ => hwn i j) ⟨i, mem_univ i, hp⟩).ne'⟩
  obtain ⟨b, h1, h2⟩ := exists_exact (p := bip a) (w := bip w) (bip_symm a) (by simp only [forall_pair]; simp [han]) (bip_symm w) (by simp only [forall_pair]; simp [hwn])
    (by simp only [forall_pair]; simpa using ⟨haw, fun i j => haw j i⟩)
  set bo : Fin n → ℝ := fun i => if d.out_strength i = 0 then 0 else b (0, i) with hbo
  set bi : Fin n → ℝ := fun i => if d.in_strength i = 0 then 0 else b (1, i) with hbi
  have ho : ∀ i, d.out_strength i ≠ 0 → bo i = b (0, i) := fun i h => if_neg h
  have hi : ∀ i, d.in_strength i ≠ 0 → bi i = b (1, i) := fun i h => if_neg h
  have hF : FiniteRatesD a bo bi := fun i j h => by
    rw [ho i (hst i j h).1, hi j (hst i j h).2]
    exact h1 (0, i) (1, j) (by simpa)
  have hS : ∀ i, outStrCReMa a bo bi i = d.out_strength i ∧ inStrCReMa a bo bi i = d.in_strength i := fun i => by
    have k0 := h2 (0, i)
    have k1 := h2 (1, i)
    rw [str_out, sum_pair] at k0
    rw [str_in, sum_pair] at k1
    simp only [bip00, bip01, bip10, bip11, sum_const_zero, zero_add, add_zero] at k0 k1
    rw [hout, hin, ← k0, ← k1]
    constructor <;> refine sum_congr rfl fun j _ => ?_
    · by_cases h : a i j = 0
      · simp [h]
      · rw [ho i (hst i j h).1, hi j (hst i j h).2]
    · by_cases h : a j i = 0
      · simp [h]
      · rw [ho j (hst j i h).1, hi i (hst j i h).2]
  refine ⟨bo, bi, hF, hS, fun me hme g ma ga p htol => ?_⟩
  intro R
  have hg : ∃ gs, guessDCrema e d (.pairs (cat2 bo bi)) = (.ok (bo, bi), gs) := by
    have e1 : maskSet bo (fun i => d.out_strength i = 0) 0 = bo := by
      funext i
      by_cases h : d.out_strength i = 0 <;> simp [maskSet, h, hbo]
    have e2 : maskSet bi (fun i => d.in_strength i = 0) 0 = bi := by
      funext i
      by_cases h : d.in_strength i = 0 <;> simp [maskSet, h, hbi]
    refine ⟨.pairs (cat2 bo bi), ?_⟩
    simp only [guessDCrema, cat2_zero, cat2_one]
    rw [show maskSet (fun i => bo i) (fun i => d.out_strength i = 0) 0 = bo from e1, show maskSet (fun i => bi i) (fun i => d.in_strength i = 0) 0 = bi from e2]
  obtain ⟨gs, hg⟩ := hg
  have hroot : (cbDCrema e d (nzEdges a) me).fn (cat2 bo bi) = 0 := by
    funext v
    have : DCReMa.loglikelihood_prime_crema_directed (cat2 bo bi) d.out_strength d.in_strength (nzEdges a) (DCM.nonzero d.out_strength) (DCM.nonzero d.in_strength) v = 0 := by
      revert v
      rw [forall_pair]
      constructor <;> intro i
      · rw [DCReMa.prime_eq0 _ _ _ _ _ _ (DCM.nodup_nonzero _), (str_dcrema_spec a bo bi i).1, (hS i).1]
        by_cases h : d.out_strength i = 0 <;> simp [DCM.mem_nonzero, h]
      · rw [DCReMa.prime_eq1 _ _ _ _ _ _ (DCM.nodup_nonzero _), (str_dcrema_spec a bo bi i).2, (hS i).2]
        by_cases h : d.in_strength i = 0 <;> simp [DCM.mem_nonzero, h]
    cases me with
    | newton => simp [cbDCrema, this]
    | quasinewton => simp [cbDCrema, this]
    | fixed_point => exact absurd rfl hme
  obtain ⟨c1, c2, c3⟩ := dcrema_call e g hz me (.pairs (cat2 bo bi)) a ma ga p hg (solver_at_root _ _ _ htol hroot)
  have c2' : R.g.b_out = some bo := c2.trans (by congr 1)
  have c3' : R.g.b_in = some bi := c3.trans (by congr 1)
  refine ⟨c1, c2', c3', ?_⟩
  obtain ⟨bo', bi', E, k1, k2, k3, -, i, k4⟩ := C37_dcrema_matrix e g hz me (.pairs (cat2 bo bi)) a ma ga p c1
  have e1 : bo' = bo := Option.some.inj (k1.symm.trans c2')
  have e2 : bi' = bi := Option.some.inj (k2.symm.trans c3')
  rw [k3, ← k4, e1, e2]
  rcases i with i | i
  · simp [(hS i).1]
  · simp [(hS i).2]

/-- three nodes with weights 10, 10 and 1: strengths 20, 11, 11 -/
def triangle : Fin 3 → Fin 3 → ℝ := fun i j => if i = j then 0 else 1

def triangleData : UData 3 := { dseq := fun _ => 2, strength_sequence := fun i => if i = 0 then 20 else 11 }

theorem links_triangle : LinksFor triangle triangleData.strength_sequence where
  symm i j := by simp [triangle, eq_comm]
  noself i := by simp [triangle]
  nonneg i j := by unfold triangle; split_ifs <;> norm_num
  s_nonneg i := by simp only [triangleData]; split_ifs <;> norm_num
  strong i j _ := by simp only [triangleData]; split_ifs <;> norm_num

theorem triangle_strengths {β : Fin 3 → ℝ} (h : ∀ i, 0 ≤ β i) (hF : FiniteRates triangle β) : ∃ i, 1 < |strCReMa triangle β i - triangleData.strength_sequence i| := by
  have p01 := hF 0 1 (by simp [triangle])
  have p02 := hF 0 2 (by simp [triangle])
  have p12 := hF 1 2 (by simp [triangle])
  have hs : ∀ i, strCReMa triangle β i = ∑ j, triangle i j / (β i + β j) := fun i => by rw [← str_strCReMa links_triangle.noself, str]
  by_contra hno
  push Not at hno
  have h0 := hno 0; have h1 := hno 1; have h2 := hno 2
  rw [hs, Fin.sum_univ_three] at h0 h1 h2
  simp [triangle, triangleData] at h0 h1 h2
  rw [abs_le] at h0 h1 h2
  rw [add_comm (β 1) (β 0)] at h1
  rw [add_comm (β 2) (β 0), add_comm (β 2) (β 1)] at h2
  set u := (β 0 + β 1)⁻¹ with hu
  set v := (β 0 + β 2)⁻¹ with hv
  set w := (β 1 + β 2)⁻¹ with hw
  have u0 : 0 < u := inv_pos.2 p01
  have v0 : 0 < v := inv_pos.2 p02
  have w0 : 0 < w := inv_pos.2 p12
  have hB : w⁻¹ ≤ u⁻¹ + v⁻¹ := by
    rw [hu, hv, hw, inv_inv, inv_inv, inv_inv]
    linarith [h 0]
  have hC : u * v ≤ w * (u + v) := by
    have e1 : u * v * w * w⁻¹ = u * v := by field_simp
    have e2 : u * v * w * (u⁻¹ + v⁻¹) = w * (u + v) := by field_simp; ring
    rw [← e1, ← e2]
    exact mul_le_mul_of_nonneg_left hB (by positivity)
  nlinarith [mul_nonneg (by linarith : (0 : ℝ) ≤ u - 7) (by linarith : (0 : ℝ) ≤ v - 7)]

/-- C68 (negation for the fixed-point method): on this weighted network no run of the fixed-point method, from any guess that is positive where there is strength, with any
tolerances and any number of steps, reproduces the strengths within 1, although an exact solution exists. -/
theorem C68_fixed_point_misses_partial (e : Env) (he : e.Valid) (hr : e.NonzeroDraws) (guess : Guess 3) (hg : guess.PositiveRates triangleData) (g : UAttr triangleData)
    (ma : String) (ga : Guess 3) (p : Params) :
    (let R := solve_tool e g "crema" "fixed-point" guess (.matrix triangle) ma ga p
     R.exc = none ∧ ∃ β, R.g.beta = some β ∧ ∃ i, 1 < |strCReMa triangle β i - triangleData.strength_sequence i|) ∧
    ∃ β, FiniteRates triangle β ∧ ∀ i, strCReMa triangle β i = triangleData.strength_sequence i := by
  refine ⟨?_, ?_⟩
  · obtain ⟨h1, -, β, -, h2, -, h3, h4, -⟩ := C67_crema e he hr triangleData triangle links_triangle guess hg g g ma ga p p.max_steps p.max_steps le_rfl
    exact ⟨h1, β, h2, triangle_strengths h3 h4⟩
  · obtain ⟨β, h1, h2, -⟩ := C68_crema e triangleData (fun i j => if i = j then 0 else if i = 0 ∨ j = 0 then 10 else 1) triangle
      (fun i j => by fin_cases i <;> fin_cases j <;> simp) (fun i j => by split_ifs <;> norm_num) (fun i => by simp) links_triangle.symm links_triangle.nonneg
      (fun i j => by fin_cases i <;> fin_cases j <;> simp [triangle]) (fun i => by fin_cases i <;> simp [triangleData, Fin.sum_univ_three] <;> norm_num)
    exact ⟨β, h1, h2⟩

/-- four nodes with links 0 → 2, 1 → 2 and 1 → 3 of weights 5, 1 and 5 -/
def zigzag : Fin 4 → Fin 4 → ℝ := fun i j => if (i = 0 ∧ j = 2) ∨ (i = 1 ∧ j = 2) ∨ (i = 1 ∧ j = 3) then 1 else 0

def zigzagData : DData 4 :=
  { dseq_out := ![1, 2, 0, 0], dseq_in := ![0, 0, 2, 1], out_strength := ![5, 6, 0, 0], in_strength := ![0, 0, 6, 5], nz_known := true }

theorem links_zigzag : LinksForD zigzag zigzagData.out_strength zigzagData.in_strength where
  nonneg i j := by unfold zigzag; split_ifs <;> norm_num
  so_nonneg i := by fin_cases i <;> simp [zigzagData]
  si_nonneg i := by fin_cases i <;> simp [zigzagData]
  strong i j h := by
    simp only [zigzag, ne_eq, ite_eq_right_iff, one_ne_zero, imp_false, not_not] at h
    rcases h with ⟨rfl, rfl⟩ | ⟨rfl, rfl⟩ | ⟨rfl, rfl⟩ <;> simp [zigzagData]

theorem zigzag_strengths {bo bi : Fin 4 → ℝ} (h : ∀ i, 0 ≤ bo i ∧ 0 ≤ bi i) (hF : FiniteRatesD zigzag bo bi) :
    ∃ i, 1 / 2 < |outStrCReMa zigzag bo bi i - zigzagData.out_strength i| ∨ 1 / 2 < |inStrCReMa zigzag bo bi i - zigzagData.in_strength i| := by
  have p1 := hF 0 2 (by simp [zigzag])
  have p2 := hF 1 2 (by simp [zigzag])
  have p3 := hF 1 3 (by simp [zigzag])
  by_contra hno
  push Not at hno
  have h0 := (hno 0).1; have h1 := (hno 1).1; have h3 := (hno 3).2
  rw [outStrCReMa, Fin.sum_univ_four] at h0 h1
  rw [inStrCReMa, Fin.sum_univ_four] at h3
  simp [zigzag, zigzagData] at h0 h1 h3
  rw [abs_le] at h0 h1 h3
  set u := (bo 0 + bi 2)⁻¹ with hu
  set v := (bo 1 + bi 2)⁻¹ with hv
  set w := (bo 1 + bi 3)⁻¹ with hw
  have u0 : 0 < u := inv_pos.2 p1
  have v0 : 0 < v := inv_pos.2 p2
  have w0 : 0 < w := inv_pos.2 p3
  have hB : v⁻¹ ≤ u⁻¹ + w⁻¹ := by
    rw [hu, hv, hw, inv_inv, inv_inv, inv_inv]
    linarith [(h 0).1, (h 3).2]
  have hC : u * w ≤ v * (u + w) := by
    have e1 : u * w * v * v⁻¹ = u * w := by field_simp
    have e2 : u * w * v * (u⁻¹ + w⁻¹) = v * (u + w) := by field_simp; ring
    rw [← e1, ← e2]
    exact mul_le_mul_of_nonneg_left hB (by positivity)
  nlinarith [mul_nonneg (by linarith : (0 : ℝ) ≤ u - 4.5) (by linarith : (0 : ℝ) ≤ w - 4.5)]

/-- C68 (negation for the fixed-point method, directed) -/
theorem C68_fixed_point_misses_directed_partial (e : Env) (he : e.Valid) (hr : e.NonzeroDraws) (guess : DGuess 4) (hg : guess.PositiveRates zigzagData) (g : DAttr zigzagData)
    (ma : String) (ga : DGuess 4) (p : Params) :
    (let R := solve_tool_directed e g "crema" "fixed-point" guess (.matrix zigzag) ma ga p
     R.exc = none ∧ ∃ bo bi, R.g.b_out = some bo ∧ R.g.b_in = some bi ∧
       ∃ i, 1 / 2 < |outStrCReMa zigzag bo bi i - zigzagData.out_strength i| ∨ 1 / 2 < |inStrCReMa zigzag bo bi i - zigzagData.in_strength i|) ∧
    ∃ bo bi, FiniteRatesD zigzag bo bi ∧ ∀ i, outStrCReMa zigzag bo bi i = zigzagData.out_strength i ∧ inStrCReMa zigzag bo bi i = zigzagData.in_strength i := by
  refine ⟨?_, ?_⟩
  · obtain ⟨h1, -, bo, bi, -, -, h2, h2', -, -, h3, h4, -⟩ := C67_dcrema e he hr zigzagData rfl zigzag links_zigzag guess hg g g ma ga p p.max_steps p.max_steps le_rfl
    exact ⟨h1, bo, bi, h2, h2', zigzag_strengths h3 h4⟩
  · obtain ⟨bo, bi, h1, h2, -⟩ := C68_dcrema e zigzagData rfl (fun i j => if i = 1 ∧ j = 2 then 1 else if (i = 0 ∧ j = 2) ∨ (i = 1 ∧ j = 3) then 5 else 0) zigzag
      (fun i j => by split_ifs <;> norm_num) links_zigzag.nonneg (fun i j => by fin_cases i <;> fin_cases j <;> simp [zigzag])
      (fun i => by fin_cases i <;> simp [zigzagData, Fin.sum_univ_four] <;> norm_num) (fun i => by fin_cases i <;> simp [zigzagData, Fin.sum_univ_four] <;> norm_num)
    exact ⟨bo, bi, h1, h2⟩

/-! ### C69: convergence -/

theorem linked_of_covers {a : Fin n → Fin n → ℝ} {s : Fin n → ℝ} (hC : Covers a s) : Linked a s ∧ ∃ i j, a i j ≠ 0 := by
  obtain ⟨h1, i, hi⟩ := hC
  obtain ⟨j, hj⟩ := h1 i hi
  exact ⟨h1, i, j, hj⟩

theorem linked_of_coversD {a : Fin n → Fin n → ℝ} {so si : Fin n → ℝ} (hC : CoversD a so si) : Linked (bip a) (cat2 so si) ∧ ∃ v w, bip a v w ≠ 0 := by
  obtain ⟨h1, h2, i, hi⟩ := hC
  obtain ⟨j, hj⟩ := h1 i hi
  refine ⟨?_, (0, i), (1, j), by simpa⟩
  unfold Linked
  rw [forall_pair]
  constructor <;> intro i hi
  · obtain ⟨j, hj⟩ := h1 i (by simpa using hi)
    exact ⟨(1, j), by simpa⟩
  · obtain ⟨j, hj⟩ := h2 i (by simpa using hi)
    exact ⟨(0, j), by simpa⟩

/-- C69 (undirected, likelihood): without line search the likelihood of the result comes as close as wanted to the largest likelihood that non-negative rates can have,
once the number of steps is large and the tolerances are small. -/
theorem C69_crema_likelihood (e : Env) (he : e.Valid) (hr : e.NonzeroDraws) (d : UData n) (a : Fin n → Fin n → ℝ) (hL : LinksFor a d.strength_sequence)
    (hC : Covers a d.strength_sequence) (guess : Guess n) (hg : guess.PositiveRates d) {ε : ℝ} (hε : 0 < ε) :
    ∃ T : ℕ, ∃ τ > (0 : ℝ), ∀ (g : UAttr d) (ma : String) (ga : Guess n) (p : Params), p.linsearch = false → T ≤ p.max_steps → p.tol < τ → p.eps < τ →
      let R := solve_tool e g "crema" "fixed-point" guess (.matrix a) ma ga p
      R.exc = none ∧ ∃ β, R.g.beta = some β ∧ ∀ β' : Fin n → ℝ, (∀ i, 0 ≤ β' i) → FiniteRates a β' →
        logCReMa a d.strength_sequence β' - ε ≤ logCReMa a d.strength_sequence β := by
  obtain ⟨b, gs, h0, h1, h2⟩ := guessCrema_positive e he hr d hL.s_nonneg guess hg
  have hR := recipe_crema e d hL.symm hL.noself hL.nonneg hL.strong hL.s_nonneg
  obtain ⟨hk, hne⟩ := linked_of_covers hC
  obtain ⟨bs, hb⟩ := exists_best hR.net hk hne
  obtain ⟨T, τ, hτ, hT⟩ := hR.converges hk hne hb (D d.strength_sequence bs b) hε
  refine ⟨T, τ, hτ, fun g ma ga p hl hm ht hep => ?_⟩
  obtain ⟨r, k1, k2, -, k3⟩ := hT (p.opts "fixed-point") b rfl hl ht hep hm (good_rates hL h1 h2) le_rfl
  obtain ⟨c1, c2⟩ := crema_call e g .fixed_point guess a ma ga p h0 k1
  refine ⟨c1, r.x, c2, fun β' hβ hF => ?_⟩
  rw [← L_logCReMa hL.symm hL.noself, ← L_logCReMa hL.symm hL.noself]
  linarith [hb.best β' hβ hF]

/-- C69 (undirected, strengths): if some positive rates reproduce the strengths, so does the result of the fixed-point method, as closely as wanted. -/
theorem C69_crema_strengths (e : Env) (he : e.Valid) (hr : e.NonzeroDraws) (d : UData n) (a : Fin n → Fin n → ℝ) (hL : LinksFor a d.strength_sequence)
    (hC : Covers a d.strength_sequence) {βs : Fin n → ℝ} (hS : FitsCReMa a d.strength_sequence βs) (guess : Guess n) (hg : guess.PositiveRates d) {ε : ℝ} (hε : 0 < ε) :
    ∃ T : ℕ, ∃ τ > (0 : ℝ), ∀ (g : UAttr d) (ma : String) (ga : Guess n) (p : Params), p.linsearch = false → T ≤ p.max_steps → p.tol < τ → p.eps < τ →
      let R := solve_tool e g "crema" "fixed-point" guess (.matrix a) ma ga p
      R.exc = none ∧ ∃ β, R.g.beta = some β ∧ ∀ i, |strCReMa a β i - d.strength_sequence i| ≤ ε * d.strength_sequence i := by
  obtain ⟨b, gs, h0, h1, h2⟩ := guessCrema_positive e he hr d hL.s_nonneg guess hg
  have hR := recipe_crema e d hL.symm hL.noself hL.nonneg hL.strong hL.s_nonneg
  obtain ⟨hk, hne⟩ := linked_of_covers hC
  set bs : Fin n → ℝ := fun i => if d.strength_sequence i = 0 then 0 else βs i with hbs
  have hb1 : ∀ i, d.strength_sequence i ≠ 0 → bs i = βs i := fun i h => if_neg h
  have hb : Best a d.strength_sequence bs := best_of_exact hR.net (fun i h => if_pos h) (fun i h => by rw [hb1 i h]; exact hS.pos i h) fun i => by
    rw [← hS.str i, ← str_strCReMa hL.noself]
    refine sum_congr rfl fun j _ => ?_
    by_cases h : a i j = 0
    · simp [h]
    · rw [hb1 i (hL.strong i j h), hb1 j (hL.strong j i (by rwa [hL.symm]))]
  obtain ⟨T, τ, hτ, hT⟩ := hR.fits hk hne hb (fun i h => by rw [hb1 i h]; exact (hS.pos i h).ne') (D d.strength_sequence bs b) hε
  refine ⟨T, τ, hτ, fun g ma ga p hl hm ht hep => ?_⟩
  obtain ⟨r, k1, k2, k3⟩ := hT (p.opts "fixed-point") b rfl hl ht hep hm (good_rates hL h1 h2) le_rfl
  obtain ⟨c1, c2⟩ := crema_call e g .fixed_point guess a ma ga p h0 k1
  refine ⟨c1, r.x, c2, fun i => ?_⟩
  rw [← str_strCReMa hL.noself]
  exact k3 i

/-- C69 (directed, likelihood) -/
theorem C69_dcrema_likelihood (e : Env) (he : e.Valid) (hr : e.NonzeroDraws) (d : DData n) (hz : d.nz_known = true) (a : Fin n → Fin n → ℝ)
    (hL : LinksForD a d.out_strength d.in_strength) (hC : CoversD a d.out_strength d.in_strength) (guess : DGuess n) (hg : guess.PositiveRates d) {ε : ℝ} (hε : 0 < ε) :
    ∃ T : ℕ, ∃ τ > (0 : ℝ), ∀ (g : DAttr d) (ma : String) (ga : DGuess n) (p : Params), p.linsearch = false → T ≤ p.max_steps → p.tol < τ → p.eps < τ →
      let R := solve_tool_directed e g "crema" "fixed-point" guess (.matrix a) ma ga p
      R.exc = none ∧ ∃ bo bi, R.g.b_out = some bo ∧ R.g.b_in = some bi ∧ ∀ bo' bi' : Fin n → ℝ, (∀ i, 0 ≤ bo' i ∧ 0 ≤ bi' i) → FiniteRatesD a bo' bi' →
        logDCReMa a d.out_strength d.in_strength bo' bi' - ε ≤ logDCReMa a d.out_strength d.in_strength bo bi := by
  obtain ⟨bo, bi, gs, h0, h1, h2⟩ := guessDCrema_positive e he hr d hL.so_nonneg hL.si_nonneg guess hg
  have hR := recipe_dcrema e d hL.nonneg hL.strong hL.so_nonneg hL.si_nonneg
  obtain ⟨hk, hne⟩ := linked_of_coversD hC
  obtain ⟨bs, hb⟩ := exists_best hR.net hk hne
  obtain ⟨T, τ, hτ, hT⟩ := hR.converges hk hne hb (D (cat2 d.out_strength d.in_strength) bs (cat2 bo bi)) hε
  refine ⟨T, τ, hτ, fun g ma ga p hl hm ht hep => ?_⟩
  obtain ⟨r, k1, k2, -, k3⟩ := hT (p.opts "fixed-point") _ rfl hl ht hep hm (good_ratesD hL h1 h2) le_rfl
  obtain ⟨c1, c2, c3⟩ := dcrema_call e g hz .fixed_point guess a ma ga p h0 k1
  refine ⟨c1, _, _, c2, c3, fun bo' bi' hβ hF => ?_⟩
  have hbest := hb.best (cat2 bo' bi') (by rw [forall_pair]; simpa using ⟨fun i => (hβ i).1, fun i => (hβ i).2⟩) (by
    simp only [forall_pair]
    refine ⟨fun i => ⟨by simp, fun j => by simpa using hF i j⟩, fun i => ⟨fun j => by simpa [add_comm] using hF j i, by simp⟩⟩)
  rw [L_logDCReMa] at hbest k3
  rw [L_logDCReMa] at hbest k3
  simp only [cat2_zero, cat2_one] at hbest
  linarith

/-- C69 (directed, strengths) -/
theorem C69_dcrema_strengths (e : Env) (he : e.Valid) (hr : e.NonzeroDraws) (d : DData n) (hz : d.nz_known = true) (a : Fin n → Fin n → ℝ)
    (hL : LinksForD a d.out_strength d.in_strength) (hC : CoversD a d.out_strength d.in_strength) {bos bis : Fin n → ℝ}
    (hS : FitsDCReMa a d.out_strength d.in_strength bos bis) (guess : DGuess n) (hg : guess.PositiveRates d) {ε : ℝ} (hε : 0 < ε) :
    ∃ T : ℕ, ∃ τ > (0 : ℝ), ∀ (g : DAttr d) (ma : String) (ga : DGuess n) (p : Params), p.linsearch = false → T ≤ p.max_steps → p.tol < τ → p.eps < τ →
      let R := solve_tool_directed e g "crema" "fixed-point" guess (.matrix a) ma ga p
      R.exc = none ∧ ∃ bo bi, R.g.b_out = some bo ∧ R.g.b_in = some bi ∧ ∀ i,
        |outStrCReMa a bo bi i - d.out_strength i| ≤ ε * d.out_strength i ∧ |inStrCReMa a bo bi i - d.in_strength i| ≤ ε * d.in_strength i := by
  obtain ⟨bo, bi, gs, h0, h1, h2⟩ := guessDCrema_positive e he hr d hL.so_nonneg hL.si_nonneg guess hg
  have hR := recipe_dcrema e d hL.nonneg hL.strong hL.so_nonneg hL.si_nonneg
  obtain ⟨hk, hne⟩ := linked_of_coversD hC
  set s := cat2 d.out_strength d.in_strength with hs
  set βs := cat2 bos bis with hβs
  have hpos : ∀ v, s v ≠ 0 → 0 < βs v := by
    rw [forall_pair]
    exact ⟨fun i => by simpa [hs, hβs] using hS.pos_out i, fun i => by simpa [hs, hβs] using hS.pos_in i⟩
  have hstr : ∀ v, str (bip a) βs v = s v := by
    rw [forall_pair]
    refine ⟨fun i => ?_, fun i => ?_⟩
    · rw [str_out]; simpa [hs, hβs] using hS.out i
    · rw [str_in]; simpa [hs, hβs] using hS.inn i
  set bs : Fin 2 × Fin n → ℝ := fun v => if s v = 0 then 0 else βs v with hbs
  have hb1 : ∀ v, s v ≠ 0 → bs v = βs v := fun i h => if_neg h
  have hb : Best (bip a) s bs := best_of_exact hR.net (fun i h => if_pos h) (fun i h => by rw [hb1 i h]; exact hpos i h) fun v => by
    rw [← hstr v]
    refine sum_congr rfl fun w _ => ?_
    by_cases h : bip a v w = 0
    · simp [h]
    · rw [hb1 v (hR.net.act v w h), hb1 w (hR.net.act w v (by rwa [hR.net.symm]))]
  obtain ⟨T, τ, hτ, hT⟩ := hR.fits hk hne hb (fun i h => by rw [hb1 i h]; exact (hpos i h).ne') (D s bs (cat2 bo bi)) hε
  refine ⟨T, τ, hτ, fun g ma ga p hl hm ht hep => ?_⟩
  obtain ⟨r, k1, k2, k3⟩ := hT (p.opts "fixed-point") _ rfl hl ht hep hm (good_ratesD hL h1 h2) le_rfl
  obtain ⟨c1, c2, c3⟩ := dcrema_call e g hz .fixed_point guess a ma ga p h0 k1
  refine ⟨c1, _, _, c2, c3, fun i => ⟨?_, ?_⟩⟩
  · have := k3 (0, i)
    rw [str_out] at this
    simpa [hs] using this
  · have := k3 (1, i)
    rw [str_in] at this
    simpa [hs] using this

/-! ### the hypotheses are met -/

/-- a path of three nodes with weights 1 and 2, fitted exactly by the rates 3/4, 1/4 and 1/4 -/
def pathA : Fin 3 → Fin 3 → ℝ := fun i j => if (i = 1 ∧ j ≠ 1) ∨ (i ≠ 1 ∧ j = 1) then 1 else 0

def pathData : UData 3 := { dseq := ![1, 2, 1], strength_sequence := ![1, 3, 2] }

theorem links_path : LinksFor pathA pathData.strength_sequence where
  symm i j := by fin_cases i <;> fin_cases j <;> simp [pathA]
  noself i := by fin_cases i <;> simp [pathA]
  nonneg i j := by unfold pathA; split_ifs <;> norm_num
  s_nonneg i := by fin_cases i <;> simp [pathData]
  strong i j _ := by fin_cases i <;> simp [pathData]

theorem covers_path : Covers pathA pathData.strength_sequence := by
  refine ⟨fun i _ => ?_, 0, by simp [pathData]⟩
  fin_cases i
  · exact ⟨1, by simp [pathA]⟩
  · exact ⟨0, by simp [pathA]⟩
  · exact ⟨1, by simp [pathA]⟩

theorem fits_path : FitsCReMa pathA pathData.strength_sequence ![3 / 4, 1 / 4, 1 / 4] where
  pos i _ := by fin_cases i <;> norm_num
  str i := by
    rw [← str_strCReMa links_path.noself, str, Fin.sum_univ_three]
    fin_cases i <;> simp [pathA, pathData] <;> norm_num

example (e : Env) (he : e.Valid) (hr : e.NonzeroDraws) : ∃ T : ℕ, ∃ τ > (0 : ℝ), ∀ p : Params, p.linsearch = false → T ≤ p.max_steps → p.tol < τ → p.eps < τ →
    let R := solve_tool e ({} : UAttr pathData) "crema" "fixed-point" (.name "strengths_minor") (.matrix pathA) "newton" (.name "random") p
    R.exc = none ∧ ∃ β, R.g.beta = some β ∧ |strCReMa pathA β 1 - 3| ≤ 1e-6 * 3 := by
  obtain ⟨T, τ, hτ, h⟩ := C69_crema_strengths e he hr pathData pathA links_path covers_path fits_path (.name "strengths_minor") (.inr (.inl rfl)) (ε := 1e-6) (by norm_num)
  refine ⟨T, τ, hτ, fun p h1 h2 h3 h4 => ?_⟩
  obtain ⟨k1, β, k2, k3⟩ := h {} "newton" (.name "random") p h1 h2 h3 h4
  exact ⟨k1, β, k2, k3 1⟩

/-- the fixed-point method succeeds on the triangle too, where it cannot fit the strengths -/
example (e : Env) (he : e.Valid) (hr : e.NonzeroDraws) (p : Params) : (solve_tool e ({} : UAttr triangleData) "crema" "fixed-point" (.name "strengths") (.matrix triangle)
    "newton" (.name "random") { p with max_steps := 7 }).exc = none :=
  (C67_crema e he hr triangleData triangle links_triangle (.name "strengths") (.inl rfl) {} {} "newton" (.name "random") p 7 1000 (by norm_num)).1

theorem covers_zigzag : CoversD zigzag zigzagData.out_strength zigzagData.in_strength := by
  refine ⟨fun i hi => ?_, fun i hi => ?_, 0, by simp [zigzagData]⟩
  · fin_cases i
    · exact ⟨2, by simp [zigzag]⟩
    · exact ⟨2, by simp [zigzag]⟩
    · simp [zigzagData] at hi
    · simp [zigzagData] at hi
  · fin_cases i
    · simp [zigzagData] at hi
    · simp [zigzagData] at hi
    · exact ⟨0, by simp [zigzag]⟩
    · exact ⟨1, by simp [zigzag]⟩

example (e : Env) (he : e.Valid) (hr : e.NonzeroDraws) : ∃ T : ℕ, ∃ τ > (0 : ℝ), ∀ p : Params, p.linsearch = false → T ≤ p.max_steps → p.tol < τ → p.eps < τ →
    (solve_tool_directed e ({} : DAttr zigzagData) "crema" "fixed-point" (.name "strengths") (.matrix zigzag) "newton" (.name "random") p).exc = none := by
  obtain ⟨T, τ, hτ, h⟩ := C69_dcrema_likelihood e he hr zigzagData rfl zigzag links_zigzag covers_zigzag (.name "strengths") (.inl rfl) (ε := 1e-6) (by norm_num)
  exact ⟨T, τ, hτ, fun p h1 h2 h3 h4 => (h {} "newton" (.name "random") p h1 h2 h3 h4).1⟩

/-- a directed network of two links 0 → 1 and 1 → 0, of weights 1 and 2 -/
theorem fits_two : ∃ (d : DData 2) (a : Fin 2 → Fin 2 → ℝ) (bo bi : Fin 2 → ℝ), d.nz_known = true ∧ LinksForD a d.out_strength d.in_strength ∧
    CoversD a d.out_strength d.in_strength ∧ FitsDCReMa a d.out_strength d.in_strength bo bi := by
  refine ⟨{ dseq_out := ![1, 1], dseq_in := ![1, 1], out_strength := ![1, 2], in_strength := ![2, 1], nz_known := true }, fun i j => if i = j then 0 else 1, ![1 / 2, 1 / 4], ![1 / 4, 1 / 2],
    rfl, ⟨fun i j => by split_ifs <;> norm_num, fun i => by fin_cases i <;> simp, fun i => by fin_cases i <;> simp, fun i j _ => ⟨by fin_cases i <;> simp, by fin_cases j <;> simp⟩⟩,
    ⟨fun i _ => ?_, fun i _ => ?_, 0, by simp⟩, ⟨fun i _ => by fin_cases i <;> norm_num, fun i _ => by fin_cases i <;> norm_num, fun i => ?_, fun i => ?_⟩⟩
  · fin_cases i
    · exact ⟨1, by simp⟩
    · exact ⟨0, by simp⟩
  · fin_cases i
    · exact ⟨1, by simp⟩
    · exact ⟨0, by simp⟩
  · rw [outStrCReMa, Fin.sum_univ_two]
    fin_cases i <;> simp <;> norm_num
  · rw [inStrCReMa, Fin.sum_univ_two]
    fin_cases i <;> simp <;> norm_num

end

end Verif.Solve
