import Verif.Props.SolveD4

/-! C38 for `DirectedGraph.solve_tool`: the built-in initial guesses. -/

namespace Verif.Solve

open Verif Finset Reduction Solver Spec

open Classical in
attribute [local instance 0] propDecidable

variable {n : ℕ} [NeZero n] {d : DData n}

theorem DData.n_edges_nonneg (d : DData n) : 0 ≤ d.n_edges := sum_nonneg fun j _ => by simp [DData.degOut]

theorem DData.ko_pos (d : DData n) (q : Fin d.r) (h : d.ko q ≠ 0) : 0 < d.ko q ∧ 0 < d.n_edges := by
  obtain ⟨i, rfl⟩ := d.inv_surj q
  rw [(d.class_of i).1] at h ⊢
  have h0 : 0 < d.degOut i := lt_of_le_of_ne (by simp [DData.degOut]) (Ne.symm h)
  exact ⟨h0, lt_of_lt_of_le h0 (single_le_sum (f := d.degOut) (fun j _ => by simp [DData.degOut]) (mem_univ i))⟩

theorem DData.ki_pos (d : DData n) (hsum : ∑ i, d.dseq_in i = ∑ i, d.dseq_out i) (q : Fin d.r) (h : d.ki q ≠ 0) : 0 < d.ki q ∧ 0 < d.n_edges := by
  obtain ⟨i, rfl⟩ := d.inv_surj q
  rw [(d.class_of i).2] at h ⊢
  have h0 : 0 < d.degIn i := lt_of_le_of_ne (by simp [DData.degIn]) (Ne.symm h)
  refine ⟨h0, lt_of_lt_of_le h0 ?_⟩
  have h1 : d.n_edges = ∑ i, d.degIn i := by simp only [DData.n_edges, DData.degOut, DData.degIn]; exact_mod_cast hsum.symm
  rw [h1]
  exact single_le_sum (f := d.degIn) (fun j _ => by simp [DData.degIn]) (mem_univ i)

/-- C38 (dcm): every named guess gives a positive parameter to every node with a non-zero degree and 0 to the others, which is the domain of the
log-likelihood.  (In- and out-degrees have the same sum, as in every graph.) -/
theorem C38_dcm (e : Env) (he : e.Valid) (hr : e.NonzeroDraws) (d : DData n) (hsum : ∑ i, d.dseq_in i = ∑ i, d.dseq_out i) (s : String)
    {x0 : Fin 2 × Fin d.r → ℝ} (h : guessDCM e d false (.name s) = .ok x0) :
    (∀ i, (d.dseq_out i ≠ 0 → 0 < x0 (0, d.inv i)) ∧ (d.dseq_out i = 0 → x0 (0, d.inv i) = 0)) ∧
    ∀ i, (d.dseq_in i ≠ 0 → 0 < x0 (1, d.inv i)) ∧ (d.dseq_in i = 0 → x0 (1, d.inv i) = 0) := by
  unfold guessDCM at h
  cases hv : namedDCM e d s with
  | none => simp [hv] at h
  | some v =>
    obtain ⟨x, y⟩ := v
    simp only [hv, finishDCM, Bool.false_eq_true, if_false, Except.ok.injEq] at h
    subst h
    have draw : ∀ b i, 0 < e.rand b i := fun b i => lt_of_le_of_ne (he.rand_nonneg _ _) (Ne.symm (hr _ _))
    have key : (∀ q, d.ko q ≠ 0 → 0 < x q) ∧ ∀ q, d.ki q ≠ 0 → 0 < y q := by
      unfold namedDCM at hv
      split_ifs at hv <;> simp only [Option.some.injEq, Prod.mk.injEq] at hv <;> obtain ⟨rfl, rfl⟩ := hv
      · exact ⟨fun q hq => div_pos (d.ko_pos q hq).1 (by positivity), fun q hq => div_pos (d.ki_pos hsum q hq).1 (by positivity)⟩
      · exact ⟨fun q _ => draw _ _, fun q _ => draw _ _⟩
      · exact ⟨fun _ _ => by norm_num, fun _ _ => by norm_num⟩
      · exact ⟨fun q hq => (d.ko_pos q hq).1, fun q hq => (d.ki_pos hsum q hq).1⟩
      · exact ⟨fun q hq => div_pos (d.ko_pos q hq).1 (by linarith [(d.ko_pos q hq).2]), fun q hq => div_pos (d.ki_pos hsum q hq).1 (by linarith [(d.ki_pos hsum q hq).2])⟩
    constructor
    · intro i
      have hk : d.ko (d.inv i) = d.dseq_out i := (d.class_of i).1
      simp only [cat2, if_true, maskSet, hk, Nat.cast_eq_zero]
      refine ⟨fun h0 => ?_, fun h0 => by rw [if_pos h0]⟩
      rw [if_neg h0]
      exact key.1 _ (by rw [hk]; exact_mod_cast h0)
    · intro i
      have hk : d.ki (d.inv i) = d.dseq_in i := (d.class_of i).2
      simp only [cat2, one_ne_zero, if_false, maskSet, hk, Nat.cast_eq_zero]
      refine ⟨fun h0 => ?_, fun h0 => by rw [if_pos h0]⟩
      rw [if_neg h0]
      exact key.2 _ (by rw [hk]; exact_mod_cast h0)

/-- C38 (dcm_exp): every vector of exponents is in the domain; the guess is the one of dcm, with exponent 1000 at the nodes of zero degree. -/
theorem C38_dcm_exp (e : Env) (he : e.Valid) (hr : e.NonzeroDraws) (d : DData n) (hsum : ∑ i, d.dseq_in i = ∑ i, d.dseq_out i) (s : String)
    {x0 θ0 : Fin 2 × Fin d.r → ℝ} (hx : guessDCM e d false (.name s) = .ok x0) (h : guessDCM e d true (.name s) = .ok θ0) :
    (∀ i, (d.dseq_out i ≠ 0 → Real.exp (-θ0 (0, d.inv i)) = x0 (0, d.inv i)) ∧ (d.dseq_out i = 0 → θ0 (0, d.inv i) = 1000)) ∧
    ∀ i, (d.dseq_in i ≠ 0 → Real.exp (-θ0 (1, d.inv i)) = x0 (1, d.inv i)) ∧ (d.dseq_in i = 0 → θ0 (1, d.inv i) = 1000) := by
  obtain ⟨p0, p1⟩ := C38_dcm e he hr d hsum s hx
  unfold guessDCM at h hx
  cases hv : namedDCM e d s with
  | none => simp [hv] at h
  | some v =>
    obtain ⟨x, y⟩ := v
    simp only [hv, finishDCM, Bool.false_eq_true, if_false, if_true, Except.ok.injEq] at h hx
    subst h; subst hx
    constructor
    · intro i
      have hk : d.ko (d.inv i) = d.dseq_out i := (d.class_of i).1
      have q := (p0 i).1
      simp only [cat2, if_true, maskSet, hk, Nat.cast_eq_zero] at q ⊢
      refine ⟨fun h0 => ?_, fun h0 => by rw [if_pos h0]; norm_num⟩
      have := q h0
      rw [if_neg h0] at this
      rw [if_neg h0, if_neg h0, negLogNonzero, if_pos this.ne', neg_neg, Real.exp_log this]
    · intro i
      have hk : d.ki (d.inv i) = d.dseq_in i := (d.class_of i).2
      have q := (p1 i).1
      simp only [cat2, one_ne_zero, if_false, maskSet, hk, Nat.cast_eq_zero] at q ⊢
      refine ⟨fun h0 => ?_, fun h0 => by rw [if_pos h0]; norm_num⟩
      have := q h0
      rw [if_neg h0] at this
      rw [if_neg h0, if_neg h0, negLogNonzero, if_pos this.ne', neg_neg, Real.exp_log this]

/-- strengths of a graph: not negative, and not all carried by a single link -/
structure DData.Spread (d : DData n) : Prop where
  out_nonneg : ∀ i, 0 ≤ d.out_strength i
  in_nonneg : ∀ i, 0 ≤ d.in_strength i
  spread : ∀ i j, i ≠ j → d.out_strength i < ∑ k, d.out_strength k ∨ d.in_strength j < ∑ k, d.in_strength k

theorem obs_nonneg (d : DData n) (hs : (∀ i, 0 ≤ d.out_strength i) ∧ ∀ i, 0 ≤ d.in_strength i) (w : Fin 4 × Fin n) : 0 ≤ d.obs w := by
  unfold DData.obs
  split_ifs
  · simp [DData.degOut]
  · simp [DData.degIn]
  · exact hs.1 _
  · exact hs.2 _

/-- the named guesses of the DECM before the treatment of the zeros: between 0 and 1 on the multipliers of the strengths -/
theorem namedDECM_adm (e : Env) (he : e.Valid) (hr : e.NonzeroDraws) (d : DData n) (hd : d.Spread) (u : ℝ) (hu : 0 < u ∧ u < 1) (s : String)
    {v : Fin 4 × Fin n → ℝ} (hv : namedDECM e d u s = some v) :
    (∀ w, d.obs w ≠ 0 → 0 < v w) ∧ ∀ i j, (d.out_strength i < ∑ k, d.out_strength k ∨ d.in_strength j < ∑ k, d.in_strength k) → d.out_strength i ≠ 0 → d.in_strength j ≠ 0 → v (2, i) ≤ 1 ∧ v (3, j) ≤ 1 ∧ (v (2, i) < 1 ∨ v (3, j) < 1) := by
  have draw : ∀ b i, 0 < e.rand b i := fun b i => lt_of_le_of_ne (he.rand_nonneg _ _) (Ne.symm (hr _ _))
  have hm := d.n_edges_nonneg
  have ob := obs_nonneg d ⟨hd.out_nonneg, hd.in_nonneg⟩
  have kO : ∀ i, 0 ≤ d.degOut i := fun i => by simp [DData.degOut]
  have kI : ∀ i, 0 ≤ d.degIn i := fun i => by simp [DData.degIn]
  unfold namedDECM at hv
  split_ifs at hv <;> simp only [Option.some.injEq] at hv <;> subst hv
  · constructor
    · rintro ⟨b, i⟩ hw
      have h0 : 0 < d.obs (b, i) := lt_of_le_of_ne (ob _) (Ne.symm hw)
      fin_cases b
      · exact div_pos h0 (by linarith)
      · exact div_pos h0 (by linarith)
      · exact div_pos h0 (lt_of_lt_of_le h0 (single_le_sum (f := d.out_strength) (fun j _ => hd.out_nonneg j) (mem_univ i)))
      · exact div_pos h0 (lt_of_lt_of_le h0 (single_le_sum (f := d.in_strength) (fun j _ => hd.in_nonneg j) (mem_univ i)))
    · intro i j hij hi hj
      have hi' : 0 < d.out_strength i := lt_of_le_of_ne (hd.out_nonneg i) (Ne.symm hi)
      have hj' : 0 < d.in_strength j := lt_of_le_of_ne (hd.in_nonneg j) (Ne.symm hj)
      have hle := single_le_sum (f := d.out_strength) (fun j _ => hd.out_nonneg j) (mem_univ i)
      have hle' := single_le_sum (f := d.in_strength) (fun j _ => hd.in_nonneg j) (mem_univ j)
      change d.out_strength i / ∑ k, d.out_strength k ≤ 1 ∧ d.in_strength j / ∑ k, d.in_strength k ≤ 1 ∧
        (d.out_strength i / ∑ k, d.out_strength k < 1 ∨ d.in_strength j / ∑ k, d.in_strength k < 1)
      rw [div_le_one (by linarith), div_le_one (by linarith), div_lt_one (by linarith), div_lt_one (by linarith)]
      exact ⟨hle, hle', hij⟩
  · constructor
    · rintro ⟨b, i⟩ -
      fin_cases b
      · have := kO i; change 0 < 1 / (d.degOut i + 1); positivity
      · have := kI i; change 0 < 1 / (d.degIn i + 1); positivity
      · have := hd.out_nonneg i; change 0 < 1 / (d.out_strength i + 1); positivity
      · have := hd.in_nonneg i; change 0 < 1 / (d.in_strength i + 1); positivity
    · intro i j hij hi hj
      have hi' : 0 < d.out_strength i := lt_of_le_of_ne (hd.out_nonneg i) (Ne.symm hi)
      have hj' : 0 < d.in_strength j := lt_of_le_of_ne (hd.in_nonneg j) (Ne.symm hj)
      change 1 / (d.out_strength i + 1) ≤ 1 ∧ 1 / (d.in_strength j + 1) ≤ 1 ∧ (1 / (d.out_strength i + 1) < 1 ∨ 1 / (d.in_strength j + 1) < 1)
      rw [div_le_one (by linarith), div_le_one (by linarith), div_lt_one (by linarith), div_lt_one (by linarith)]
      exact ⟨by linarith, by linarith, .inl (by linarith)⟩
  · exact ⟨fun w _ => draw _ _, fun i j _ _ _ => ⟨(he.rand_lt _ _).le, (he.rand_lt _ _).le, .inl (he.rand_lt _ _)⟩⟩
  · exact ⟨fun w _ => hu.1, fun i j _ _ _ => ⟨hu.2.le, hu.2.le, .inl hu.2⟩⟩

/-- C38 (decm): on a graph whose weight is not all on one link every named guess lies in the domain: positive where the observed value is not zero, 0 where it
is, and `b_out i * b_in j < 1`. -/
theorem C38_decm_partial (e : Env) (he : e.Valid) (hr : e.NonzeroDraws) (d : DData n) (hd : d.Spread) (s : String) {v : Fin 4 × Fin n → ℝ} {guess' : DGuess n}
    (h : guessDECM e d false (.name s) = (.ok v, guess')) :
    (∀ w, (d.obs w ≠ 0 → 0 < v w) ∧ (d.obs w = 0 → v w = 0)) ∧ ∀ i j, i ≠ j → v (2, i) * v (3, j) < 1 := by
  unfold guessDECM at h
  simp only [Bool.false_eq_true, if_false] at h
  cases hv : namedDECM e d 0.9 s with
  | none => simp [hv] at h
  | some v' =>
    simp only [hv, finishDECM, Bool.false_eq_true, if_false, Prod.mk.injEq, Except.ok.injEq] at h
    obtain ⟨rfl, -⟩ := h
    obtain ⟨h1, h2⟩ := namedDECM_adm e he hr d hd _ (by norm_num) s hv
    refine ⟨fun w => ⟨fun hw => ?_, fun hw => by simp [maskSet, hw]⟩, fun i j hij => ?_⟩
    · simp only [maskSet, if_neg hw]; exact h1 w hw
    · have hi : d.obs (2, i) = d.out_strength i := rfl
      have hj : d.obs (3, j) = d.in_strength j := rfl
      simp only [maskSet, hi, hj]
      split_ifs with ha hb
      · norm_num
      · norm_num
      · norm_num
      · obtain ⟨a, b, c⟩ := h2 i j (hd.spread i j hij) ha (by assumption)
        have p1 := h1 (2, i) (by rw [hi]; exact ha)
        have p2 := h1 (3, j) (by rw [hj]; assumption)
        rcases c with c | c <;> nlinarith

/-- the named guesses of decm_exp at one pair of nodes (possibly `i = j`) -/
theorem guessDECMexp_pair (e : Env) (he : e.Valid) (hr : e.NonzeroDraws) (d : DData n) (hd : d.Spread) (s : String) {v : Fin 4 × Fin n → ℝ} {guess' : DGuess n}
    (h : guessDECM e d true (.name s) = (.ok v, guess')) (i j : Fin n)
    (hij : d.out_strength i < ∑ k, d.out_strength k ∨ d.in_strength j < ∑ k, d.in_strength k) : 0 < v (2, i) + v (3, j) := by
  unfold guessDECM at h
  simp only [if_true] at h
  cases hv : namedDECM e d 0.1 s with
  | none => simp [hv] at h
  | some v' =>
    simp only [hv, finishDECM, if_true, Prod.mk.injEq, Except.ok.injEq] at h
    obtain ⟨rfl, -⟩ := h
    obtain ⟨h1, h2⟩ := namedDECM_adm e he hr d hd _ (by norm_num) s hv
    have hi : d.obs (2, i) = d.out_strength i := rfl
    have hj : d.obs (3, j) = d.in_strength j := rfl
    -- one of the two exponents alone
    have one : ∀ w, d.obs w ≠ 0 → v' w ≤ 1 → 0 ≤ negLogNonzero v' w ∧ (v' w < 1 → 0 < negLogNonzero v' w) := fun w hw hle => by
      have hp := h1 w hw
      simp only [negLogNonzero, if_pos hp.ne', neg_nonneg, neg_pos]
      exact ⟨Real.log_nonpos hp.le hle, fun hlt => Real.log_neg hp hlt⟩
    simp only [maskSet, hi, hj]
    -- each exponent of a node of non-zero strength is not negative, also when the other one is masked
    have o2 : d.out_strength i ≠ 0 → v' (2, i) ≤ 1 := fun ha => by
      clear h1 h2 one
      have hi' : 0 < d.out_strength i := lt_of_le_of_ne (hd.out_nonneg i) (Ne.symm ha)
      have hle := single_le_sum (f := d.out_strength) (fun j _ => hd.out_nonneg j) (mem_univ i)
      unfold namedDECM at hv
      split_ifs at hv <;> simp only [Option.some.injEq] at hv <;> subst hv
      · change d.out_strength i / ∑ k, d.out_strength k ≤ 1
        rw [div_le_one (by linarith)]; exact hle
      · change 1 / (d.out_strength i + 1) ≤ 1
        rw [div_le_one (by linarith)]; linarith
      · exact (he.rand_lt _ _).le
      · norm_num
    have o3 : d.in_strength j ≠ 0 → v' (3, j) ≤ 1 := fun ha => by
      clear h1 h2 one
      have hi' : 0 < d.in_strength j := lt_of_le_of_ne (hd.in_nonneg j) (Ne.symm ha)
      have hle := single_le_sum (f := d.in_strength) (fun j _ => hd.in_nonneg j) (mem_univ j)
      unfold namedDECM at hv
      split_ifs at hv <;> simp only [Option.some.injEq] at hv <;> subst hv
      · change d.in_strength j / ∑ k, d.in_strength k ≤ 1
        rw [div_le_one (by linarith)]; exact hle
      · change 1 / (d.in_strength j + 1) ≤ 1
        rw [div_le_one (by linarith)]; linarith
      · exact (he.rand_lt _ _).le
      · norm_num
    by_cases ha : d.out_strength i = 0
    · rw [if_pos ha]
      by_cases hb : d.in_strength j = 0
      · rw [if_pos hb]; norm_num
      · rw [if_neg hb]
        have := (one (3, j) (by rw [hj]; exact hb) (o3 hb)).1
        linarith
    · rw [if_neg ha]
      have p2 := one (2, i) (by rw [hi]; exact ha) (o2 ha)
      by_cases hb : d.in_strength j = 0
      · rw [if_pos hb]; linarith [p2.1]
      · rw [if_neg hb]
        have p3 := one (3, j) (by rw [hj]; exact hb) (o3 hb)
        obtain ⟨-, -, c⟩ := h2 i j hij ha hb
        rcases c with c | c
        · linarith [p2.2 c, p3.1]
        · linarith [p2.1, p3.2 c]

/-- C38 (decm_exp): on a graph whose weight is not all on one link every named guess lies in the domain. -/
theorem C38_decm_exp_partial (e : Env) (he : e.Valid) (hr : e.NonzeroDraws) (d : DData n) (hd : d.Spread) (s : String) {v : Fin 4 × Fin n → ℝ} {guess' : DGuess n}
    (h : guessDECM e d true (.name s) = (.ok v, guess')) : AdmDECMexp v :=
  fun i j hij => guessDECMexp_pair e he hr d hd s h i j (hd.spread i j hij)

/-- C38 is false for decm with the guess "strengths" when all the weight is on one link `i → j`: `b_out i * b_in j = 1`, on the boundary of the domain (the
log-likelihood takes `log 0`, its gradient divides by 0). -/
theorem C38_decm_single_link (e : Env) (d : DData n) (i j : Fin n) (hi : d.out_strength i = ∑ k, d.out_strength k) (hj : d.in_strength j = ∑ k, d.in_strength k)
    (hi0 : d.out_strength i ≠ 0) (hj0 : d.in_strength j ≠ 0) {v : Fin 4 × Fin n → ℝ} {guess' : DGuess n}
    (h : guessDECM e d false (.name "strengths") = (.ok v, guess')) : v (2, i) * v (3, j) = 1 := by
  simp only [guessDECM, namedDECM, if_true, finishDECM, Bool.false_eq_true, if_false, Prod.mk.injEq, Except.ok.injEq] at h
  obtain ⟨rfl, -⟩ := h
  have h1 : d.obs (2, i) ≠ 0 := hi0
  have h2 : d.obs (3, j) ≠ 0 := hj0
  simp only [maskSet, if_neg h1, if_neg h2]
  simp only [Fin.reduceEq, if_false, if_true]
  rw [← hi, ← hj, div_self hi0, div_self hj0, one_mul]

/-- C38 (directed crema): every named guess has positive rates at the nodes of non-zero strength and 0 at the others, and is admissible on link probabilities
that vanish from nodes of zero out-strength to nodes of zero in-strength. -/
theorem C38_dcrema (e : Env) (he : e.Valid) (hr : e.NonzeroDraws) (d : DData n) (ho : ∀ i, 0 ≤ d.out_strength i) (hi : ∀ i, 0 ≤ d.in_strength i)
    (a : Fin n → Fin n → ℝ) (ha : ∀ i j, a i j ≠ 0 → d.out_strength i ≠ 0 ∨ d.in_strength j ≠ 0) (s : String) {bo bi : Fin n → ℝ} {guess' : DGuess n}
    (h : guessDCrema e d (.name s) = (.ok (bo, bi), guess')) :
    (∀ i, (d.out_strength i ≠ 0 → 0 < bo i) ∧ (d.out_strength i = 0 → bo i = 0)) ∧ (∀ i, (d.in_strength i ≠ 0 → 0 < bi i) ∧ (d.in_strength i = 0 → bi i = 0)) ∧
    AdmRateD a (cat2 bo bi) := by
  have draw : ∀ b i, 0 < e.rand b i := fun b i => lt_of_le_of_ne (he.rand_nonneg _ _) (Ne.symm (hr _ _))
  have key : (∀ i, (d.out_strength i ≠ 0 → 0 < bo i) ∧ (d.out_strength i = 0 → bo i = 0)) ∧
      ∀ i, (d.in_strength i ≠ 0 → 0 < bi i) ∧ (d.in_strength i = 0 → bi i = 0) := by
    unfold guessDCrema at h
    cases hv : namedDCrema e d s with
    | none => simp [hv] at h
    | some v =>
      obtain ⟨x, y⟩ := v
      simp only [hv, Prod.mk.injEq, Except.ok.injEq] at h
      obtain ⟨⟨rfl, rfl⟩, -⟩ := h
      have named : (∀ i, d.out_strength i ≠ 0 → 0 < x i) ∧ ∀ i, d.in_strength i ≠ 0 → 0 < y i := by
        have po : ∀ i, d.out_strength i ≠ 0 → 0 < d.out_strength i := fun i h => lt_of_le_of_ne (ho i) (Ne.symm h)
        have pi : ∀ i, d.in_strength i ≠ 0 → 0 < d.in_strength i := fun i h => lt_of_le_of_ne (hi i) (Ne.symm h)
        unfold namedDCrema at hv
        simp only at hv
        split_ifs at hv <;> simp only [Option.some.injEq, Prod.mk.injEq] at hv <;> obtain ⟨rfl, rfl⟩ := hv
        · refine ⟨fun i h => ?_, fun i h => ?_⟩
          · have := po i h
            have hS := lt_of_lt_of_le this (single_le_sum (f := d.out_strength) (fun j _ => ho j) (mem_univ i))
            simp only [gt_iff_lt, if_pos this]; positivity
          · have := pi i h
            have hS := lt_of_lt_of_le this (single_le_sum (f := d.in_strength) (fun j _ => hi j) (mem_univ i))
            simp only [gt_iff_lt, if_pos this]; positivity
        · refine ⟨fun i h => ?_, fun i h => ?_⟩
          · have := po i h
            simp only [gt_iff_lt, if_pos this]; positivity
          · have := pi i h
            simp only [gt_iff_lt, if_pos this]; positivity
        · exact ⟨fun i _ => draw _ _, fun i _ => draw _ _⟩
      refine ⟨fun i => ⟨fun hs => ?_, fun hs => by simp [maskSet, hs]⟩, fun i => ⟨fun hs => ?_, fun hs => by simp [maskSet, hs]⟩⟩
      · simp only [maskSet, if_neg hs]; exact named.1 i hs
      · simp only [maskSet, if_neg hs]; exact named.2 i hs
  refine ⟨key.1, key.2, fun i j hij => ?_⟩
  change 0 < bo i + bi j
  have n1 : 0 ≤ bo i := by
    by_cases hz : d.out_strength i = 0
    · exact ((key.1 i).2 hz).ge
    · exact ((key.1 i).1 hz).le
  have n2 : 0 ≤ bi j := by
    by_cases hz : d.in_strength j = 0
    · exact ((key.2 j).2 hz).ge
    · exact ((key.2 j).1 hz).le
  rcases ha i j hij with h1 | h1
  · linarith [(key.1 i).1 h1]
  · linarith [(key.2 j).1 h1]

/-- the hypotheses of this section are met by a graph with three nodes, one of which sends no links, and an environment drawing 1/2 -/
example : ∃ (e : Env), e.NonzeroDraws ∧ (∀ b i, 0 ≤ e.rand b i ∧ e.rand b i < 1) ∧ ∃ d : DData 3, d.Spread ∧ ∑ i, d.dseq_in i = ∑ i, d.dseq_out i ∧
    d.dseq_out 2 = 0 ∧ (∃ x0, guessDCM e d false (.name "degrees") = .ok x0) ∧ ∃ v g, guessDECM e d false (.name "strengths") = (.ok v, g) := by
  refine ⟨⟨fun _ _ => 1 / 2, fun _ _ => 1 / 2, fun _ _ _ _ => (0, 0), fun n => List.finRange n, fun _ _ => none, fun _ => 0⟩, fun _ _ => by norm_num,
    fun _ _ => by norm_num, ⟨![2, 1, 0], ![0, 1, 2], ![3, 2, 0], ![0, 1, 4], true⟩, ⟨?_, ?_, ?_⟩, ?_, rfl, ⟨_, rfl⟩, ⟨_, _, rfl⟩⟩
  · intro i; fin_cases i <;> simp
  · intro i; fin_cases i <;> simp
  · intro i j _
    left
    fin_cases i <;> simp [Fin.sum_univ_three] <;> norm_num
  · simp [Fin.sum_univ_three]

end Verif.Solve
