import Verif.Props.SolveU4

/-! C38 for `UndirectedGraph.solve_tool`: the built-in initial guesses; concrete cases for C13, C36, C37, C40. -/

namespace Verif.Solve

open Verif Finset Reduction Solver Spec

open Classical in
attribute [local instance 0] propDecidable

/-! ### concrete cases -/

/-- a run that starts on a zero of its function returns its starting point -/
theorem solver_at_zero {ι : Type} [Fintype ι] [DecidableEq ι] [Nonempty ι] (C : Callbacks ι) (o : Opts) (x0 : ι → ℝ) (h : C.fn x0 = 0) (ht : 0 ≤ o.tol) :
    solver C o x0 = .ok (initState C x0) := by
  unfold solver
  cases o.max_steps with
  | zero => rfl
  | succ k =>
    rw [loop, if_neg]
    simp only [initState, h, norm2]
    simp
    intro h1; linarith

theorem regular3U_guess (e : Env) (s : Fin 3 → ℝ) : guessCM e (regular 3 1 s) true (.nodes 0) = .ok 0 := by
  simp only [guessCM]
  congr 1
  funext q
  simp [maskSet]

theorem regular3U_zero (e : Env) (s : Fin 3 → ℝ) : (cbCMexp e (regular 3 1 s) .newton).fn 0 = 0 := by
  set d := regular 3 1 s with hd
  funext q
  obtain ⟨i, hi⟩ := d.exists_class q
  have hq : q = d.inv i := Subsingleton.elim _ _
  simp only [cbCMexp, hq, residual_cm_exp, Pi.zero_apply, neg_zero, Real.exp_zero]
  have : degUBCM (fun _ : Fin 3 => (1 : ℝ)) i = 1 := by
    unfold degUBCM linkUBCM
    rw [sum_const, filter_ne', card_erase_of_mem (mem_univ _)]
    simp; norm_num
  rw [this]
  simp [d, regular]

/-- the hypotheses of `C13_cm_exp`, `C37_cm_partial` and `C40_cm_negated` are met: three nodes of degree 1, started at the solution θ = 0 -/
example (e : Env) (s : Fin 3 → ℝ) : ∃ t x, let R := solve_tool e ({} : UAttr (regular 3 1 s)) "cm_exp" "newton" (.nodes 0) .other "" .other { full_return := true }
    R.exc = none ∧ R.g.trace = some t ∧ t.Converged { full_return := true } ∧ R.g.x = some x ∧ ∀ i, x i = 1 := by
  let d := regular 3 1 s
  have h0 : guessCM e d true (.nodes 0) = .ok 0 := regular3U_guess e s
  have hz : (cbCMexp e d .newton).fn 0 = 0 := regular3U_zero e s
  have hR := solve_tool_cm_exp e ({} : UAttr d) .newton (.nodes 0) .other "" .other { full_return := true } h0
  simp only at hR
  rw [solver_at_zero _ _ _ hz (by simp [Params.opts]; norm_num)] at hR
  refine ⟨⟨0, [norm2 ((cbCMexp e d .newton).fn 0)], [1], []⟩, fun _ => 1, ?_⟩
  intro R
  rw [show R = _ from hR]
  simp only [solutionError, setSolvedCM, true_or, or_true, if_true, strengthError, degreeError, initState, Trace.of, Pi.zero_apply, neg_zero, Real.exp_zero]
  exact ⟨trivial, trivial, ⟨by norm_num, fun δ h => by simp at h; subst h; norm_num⟩, trivial, fun _ => trivial⟩

variable {n : ℕ} [NeZero n] {d : UData n}

/-! ### C38: initial guesses -/

/-- the random numbers of the environment are not exactly zero (`np.random.rand` draws from [0, 1)) -/
def Env.NonzeroDraws (e : Env) : Prop := ∀ b i, e.rand b i ≠ 0

theorem dseq_le_sum (d : UData n) (i : Fin n) : d.deg i ≤ ∑ j, d.deg j :=
  single_le_sum (f := d.deg) (fun j _ => by simp [UData.deg]) (mem_univ i)

theorem n_edges_nonneg (d : UData n) : 0 ≤ d.n_edges := div_nonneg (sum_nonneg fun j _ => by simp [UData.deg]) (by norm_num)

theorem k_pos_edges (d : UData n) (q : Fin d.r) (h : d.k q ≠ 0) : 0 < d.k q ∧ 0 < d.n_edges := by
  obtain ⟨i, hi⟩ := d.exists_class q
  have hk : d.k q = d.deg i := by simp [UData.k, UData.deg, hi]
  have h0 : 0 < d.k q := lt_of_le_of_ne (by simp [UData.k]) (Ne.symm h)
  refine ⟨h0, ?_⟩
  have := dseq_le_sum d i
  unfold UData.n_edges
  rw [hk] at h0
  linarith [show 0 < (∑ j, d.deg j) / 2 by linarith]

/-- C38 (cm): every named guess gives a positive fitness to every degree class but the class of the isolated nodes, which gets 0. -/
theorem C38_cm_partial (e : Env) (he : e.Valid) (hr : e.NonzeroDraws) (d : UData n) (s : String) {x0 : Fin d.r → ℝ} (h : guessCM e d false (.name s) = .ok x0)
    (q : Fin d.r) : (d.k q ≠ 0 → 0 < x0 q) ∧ (d.k q = 0 → x0 q = 0) := by
  unfold guessCM at h
  cases hv : namedCM e d s with
  | none => simp [hv] at h
  | some v =>
    simp only [hv, Bool.false_eq_true, if_false, Except.ok.injEq] at h
    subst h
    refine ⟨fun hk => ?_, fun hk => by simp [maskSet, hk]⟩
    obtain ⟨h1, h2⟩ := k_pos_edges d q hk
    simp only [maskSet, if_neg hk]
    unfold namedCM at hv
    split_ifs at hv <;> simp only [Option.some.injEq] at hv <;> subst hv <;> try dsimp only
    · positivity
    · exact lt_of_le_of_ne (he.rand_nonneg _ _) (Ne.symm (hr _ _))
    · norm_num
    · exact h1
    · positivity

/-- C38 (cm), what is missing: with an isolated node every named guess lies on the boundary of the domain of the log-likelihood (`log 0`). -/
theorem C38_cm_isolated (e : Env) (d : UData n) (s : String) {x0 : Fin d.r → ℝ} (h : guessCM e d false (.name s) = .ok x0) (i : Fin n) (hi : d.dseq i = 0) :
    x0 (d.inv i) = 0 := by
  unfold guessCM at h
  cases hv : namedCM e d s with
  | none => simp [hv] at h
  | some v =>
    simp only [hv, Bool.false_eq_true, if_false, Except.ok.injEq] at h
    subst h
    have : d.k (d.inv i) = 0 := by
      simp only [UData.k, UData.inv, r_dseq_invert, hi]; simp
    simp [maskSet, this]

/-- C38 (cm_exp): the domain is everything; the guess gives the fitness 1, not 0, to isolated nodes, and the fitness of the guess of `cm` to the others. -/
theorem C38_cm_exp (e : Env) (d : UData n) (s : String) {θ0 x0 : Fin d.r → ℝ} (h : guessCM e d true (.name s) = .ok θ0)
    (hx : guessCM e d false (.name s) = .ok x0) (hpos : ∀ q, 0 ≤ x0 q) (q : Fin d.r) :
    (x0 q ≠ 0 → Real.exp (-θ0 q) = x0 q) ∧ (d.k q = 0 → Real.exp (-θ0 q) = 1) := by
  unfold guessCM at h hx
  cases hv : namedCM e d s with
  | none => simp [hv] at h
  | some v =>
    simp only [hv, Bool.false_eq_true, if_false, if_true, Except.ok.injEq] at h hx
    subst h; subst hx
    constructor
    · intro h0
      simp only [negLogNonzero, if_pos h0, neg_neg]
      exact Real.exp_log (lt_of_le_of_ne (hpos q) (Ne.symm h0))
    · intro hk
      simp [negLogNonzero, maskSet, hk]

/-- positive degrees and strengths -/
def UData.Pos (d : UData n) : Prop := (∀ i, d.dseq i ≠ 0) ∧ ∀ i, 0 < d.strength_sequence i

theorem namedECM_adm (e : Env) (he : e.Valid) (hr : e.NonzeroDraws) (d : UData n) (hd : d.Pos) (s : String) {v : (Fin n → ℝ) × (Fin n → ℝ)}
    (hv : namedECM e d s = some v) : (∀ i, 0 < v.1 i) ∧ (∀ i, 0 < v.2 i) ∧ ∀ i j, i ≠ j → v.2 i * v.2 j < 1 := by
  have hk : ∀ i, 0 < d.deg i := fun i => by simp only [UData.deg]; exact_mod_cast Nat.pos_of_ne_zero (hd.1 i)
  have hm := n_edges_nonneg d
  have hS : 0 < ∑ j, d.strength_sequence j := sum_pos (fun j _ => hd.2 j) univ_nonempty
  unfold namedECM at hv
  simp only at hv
  split_ifs at hv <;> simp only [Option.some.injEq] at hv <;> subst hv <;> dsimp only
  · refine ⟨fun i => div_pos (hk i) (by linarith), fun i => div_pos (hd.2 i) hS, fun i j hij => ?_⟩
    have h2 : d.strength_sequence i + d.strength_sequence j ≤ ∑ j, d.strength_sequence j := by
      rw [← sum_pair hij]
      exact sum_le_univ_sum_of_nonneg (fun j => (hd.2 j).le)
    have hi := hd.2 i
    have hj := hd.2 j
    rw [div_mul_div_comm, div_lt_one (by positivity)]
    exact mul_lt_mul'' (by linarith) (by linarith) hi.le hj.le
  · refine ⟨fun i => by have := hk i; positivity, fun i => by have := hd.2 i; positivity, fun i j _ => ?_⟩
    have hi := hd.2 i
    have hj := hd.2 j
    rw [div_mul_div_comm, div_lt_one (by positivity)]
    nlinarith
  · refine ⟨fun i => lt_of_le_of_ne (he.rand_nonneg _ _) (Ne.symm (hr _ _)), fun i => lt_of_le_of_ne (he.rand_nonneg _ _) (Ne.symm (hr _ _)), fun i j _ => ?_⟩
    have h1 := he.rand_lt 1 i
    have h2 := he.rand_lt 1 j
    have h3 := he.rand_nonneg 1 i
    have h4 := he.rand_nonneg 1 j
    nlinarith
  · exact ⟨fun _ => by norm_num, fun _ => by norm_num, fun _ _ _ => by norm_num⟩

/-- C38 (ecm): without zero degrees and strengths every named guess is admissible. -/
theorem C38_ecm (e : Env) (he : e.Valid) (hr : e.NonzeroDraws) (d : UData n) (hd : d.Pos) (s : String) {x y : Fin n → ℝ} {guess' : Guess n}
    (h : guessECM e d false (.name s) = (.ok (x, y), guess')) : AdmECM (cat2 x y) := by
  unfold guessECM at h
  cases hv : namedECM e d s with
  | none => simp [hv] at h
  | some v =>
    obtain ⟨a, b⟩ := v
    obtain ⟨h1, h2, h3⟩ := namedECM_adm e he hr d hd s hv
    have hma : maskSet a (fun i => d.deg i = 0) 0 = a := by
      funext i
      have : d.deg i ≠ 0 := by simp only [UData.deg]; exact_mod_cast hd.1 i
      simp [maskSet, this]
    have hmb : maskSet b (fun i => d.strength_sequence i = 0) 0 = b := by
      funext i; simp [maskSet, (hd.2 i).ne']
    simp only [hv, Bool.false_eq_true, if_false, hma, hmb, Prod.mk.injEq, Except.ok.injEq] at h
    obtain ⟨⟨rfl, rfl⟩, -⟩ := h
    exact ⟨h1, h2, h3⟩

/-- C38 (ecm_exp): without zero degrees and strengths every named guess is admissible. -/
theorem C38_ecm_exp_partial (e : Env) (he : e.Valid) (hr : e.NonzeroDraws) (d : UData n) (hd : d.Pos) (s : String) {x y : Fin n → ℝ} {guess' : Guess n}
    (h : guessECM e d true (.name s) = (.ok (x, y), guess')) : AdmECMexp (cat2 x y) := by
  unfold guessECM at h
  cases hv : namedECM e d s with
  | none => simp [hv] at h
  | some v =>
    obtain ⟨a, b⟩ := v
    obtain ⟨h1, h2, h3⟩ := namedECM_adm e he hr d hd s hv
    have hmb : maskSet b (fun i => d.strength_sequence i = 0) 0 = b := by
      funext i; simp [maskSet, (hd.2 i).ne']
    simp only [hv, if_true, hmb, Prod.mk.injEq, Except.ok.injEq] at h
    obtain ⟨⟨-, rfl⟩, -⟩ := h
    intro i j hij
    simp only [cat2, negLogNonzero, one_ne_zero, if_false, ne_eq, (h2 i).ne', (h2 j).ne', not_false_eq_true, if_true]
    have := Real.log_neg (mul_pos (h2 i) (h2 j)) (h3 i j hij)
    rw [Real.log_mul (h2 i).ne' (h2 j).ne'] at this
    linarith

/-- C38 is false for ecm_exp with two nodes of zero strength: every named guess has exponents 0 for both, that is `y i * y j = 1`, outside the domain. -/
theorem C38_ecm_exp_false (e : Env) (d : UData n) (i j : Fin n) (hij : i ≠ j) (hi : d.strength_sequence i = 0) (hj : d.strength_sequence j = 0) (s : String)
    {x y : Fin n → ℝ} {guess' : Guess n} (h : guessECM e d true (.name s) = (.ok (x, y), guess')) :
    Real.exp (-y i) * Real.exp (-y j) = 1 ∧ ¬ AdmECMexp (cat2 x y) := by
  unfold guessECM at h
  cases hv : namedECM e d s with
  | none => simp [hv] at h
  | some v =>
    obtain ⟨a, b⟩ := v
    simp only [hv, if_true, Prod.mk.injEq, Except.ok.injEq] at h
    obtain ⟨⟨-, rfl⟩, -⟩ := h
    constructor
    · simp [negLogNonzero, maskSet, hi, hj]
    · intro hA
      have := hA i j hij
      simp [cat2, negLogNonzero, maskSet, hi, hj] at this

/-- C38 (crema): every named guess is admissible on link probabilities that vanish wherever a strength does. -/
theorem C38_crema_partial (e : Env) (he : e.Valid) (hr : e.NonzeroDraws) (d : UData n) (hs : ∀ i, 0 ≤ d.strength_sequence i) (a : Fin n → Fin n → ℝ)
    (ha : ∀ i j, a i j ≠ 0 → d.strength_sequence i ≠ 0) (s : String) {b : Fin n → ℝ} {guess' : Guess n}
    (h : guessCrema e d (.name s) = (.ok b, guess')) :
    (∀ i, d.strength_sequence i ≠ 0 → 0 < b i) ∧ (∀ i, d.strength_sequence i = 0 → b i = 0) ∧ AdmRate a b := by
  have key : (∀ i, d.strength_sequence i ≠ 0 → 0 < b i) ∧ (∀ i, d.strength_sequence i = 0 → b i = 0) := by
    unfold guessCrema at h
    cases hv : namedCrema e d s with
    | none => simp [hv] at h
    | some v =>
      simp only [hv, Prod.mk.injEq, Except.ok.injEq] at h
      obtain ⟨rfl, -⟩ := h
      refine ⟨fun i hi => ?_, fun i hi => by simp [maskSet, hi]⟩
      have hpos : 0 < d.strength_sequence i := lt_of_le_of_ne (hs i) (Ne.symm hi)
      have hS : 0 < ∑ j, d.strength_sequence j := lt_of_lt_of_le hpos (single_le_sum (fun j _ => hs j) (mem_univ i))
      simp only [maskSet, if_neg hi]
      unfold namedCrema at hv
      simp only at hv
      split_ifs at hv <;> simp only [Option.some.injEq] at hv <;> subst hv <;> dsimp only
      · rw [if_pos hpos]; positivity
      · rw [if_pos hpos]; positivity
      · exact lt_of_le_of_ne (he.rand_nonneg _ _) (Ne.symm (hr _ _))
  refine ⟨key.1, key.2, fun i j hij => ?_⟩
  have h1 := key.1 i (ha i j hij)
  by_cases hj : d.strength_sequence j = 0
  · rw [key.2 j hj]; linarith
  · linarith [key.1 j hj]

/-- C38 is false for crema with the default `adjacency="cm_exp"` and two nodes of zero strength: the link probability between them is positive (exponentials
never vanish), the two rates of every named guess are 0, and the first evaluation of the gradient divides by their sum. -/
theorem C38_crema_false (e : Env) (d : UData n) (i j : Fin n) (hij : i ≠ j) (hi : d.strength_sequence i = 0) (hj : d.strength_sequence j = 0) (s : String)
    {b : Fin n → ℝ} {guess' : Guess n} (h : guessCrema e d (.name s) = (.ok b, guess')) (θ : Fin n → ℝ) :
    0 < linkMatrix (fun i => Real.exp (-θ i)) i j ∧ b i + b j = 0 ∧ ¬ AdmRate (linkMatrix fun i => Real.exp (-θ i)) b := by
  have hp : 0 < linkMatrix (fun i => Real.exp (-θ i)) i j := by
    unfold linkMatrix linkUBCM
    rw [if_neg hij]
    positivity
  have hb : b i + b j = 0 := by
    unfold guessCrema at h
    cases hv : namedCrema e d s with
    | none => simp [hv] at h
    | some v =>
      simp only [hv, Prod.mk.injEq, Except.ok.injEq] at h
      obtain ⟨rfl, -⟩ := h
      simp [maskSet, hi, hj]
  exact ⟨hp, hb, fun hA => by have := hA i j hp.ne'; linarith⟩

/-- the hypotheses of the theorems of this section are met by an environment drawing 1/2 everywhere and a graph with positive degrees and strengths -/
example : ∃ (e : Env), e.NonzeroDraws ∧ (∀ b i, 0 ≤ e.rand b i ∧ e.rand b i < 1) ∧ ∃ d : UData 3, d.Pos ∧ d.dseq 0 ≠ d.dseq 1 ∧
    guessECM e d false (.name "strengths") = (.ok (fun i => d.deg i / (d.n_edges + 1), fun i => d.strength_sequence i / ∑ j, d.strength_sequence j),
      .name "strengths") := by
  refine ⟨⟨fun _ _ => 1 / 2, fun _ _ => 1 / 2, fun _ _ _ _ => (0, 0), fun n => List.finRange n, fun _ _ => none, fun _ => 0⟩, fun _ _ => by norm_num,
    fun _ _ => by norm_num, ⟨![2, 1, 1], ![3, 2, 1]⟩, ⟨?_, ?_⟩, by simp, ?_⟩
  · intro i; fin_cases i <;> simp
  · intro i; fin_cases i <;> simp
  · have h1 : ∀ i, UData.deg (⟨![2, 1, 1], ![3, 2, 1]⟩ : UData 3) i ≠ 0 := by intro i; fin_cases i <;> simp [UData.deg]
    have h2 : ∀ i, (⟨![2, 1, 1], ![3, 2, 1]⟩ : UData 3).strength_sequence i ≠ 0 := by intro i; fin_cases i <;> simp
    simp only [guessECM, namedECM, if_true, Bool.false_eq_true, if_false]
    congr 3
    · funext i; simp only [maskSet, if_neg (h1 i)]
    · funext i; simp only [maskSet, if_neg (h2 i)]

end Verif.Solve
