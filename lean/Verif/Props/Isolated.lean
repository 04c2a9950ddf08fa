import Verif.Lemmas.Isolated
import Verif.Lemmas.FixedModels
import Verif.Props.Reports
import Verif.Props.Guess2

/-!
C77: isolated nodes do not matter to the fixed-point method of the binary configuration models.
-/

set_option linter.unusedSectionVars false

namespace Verif.Solve

open Verif Finset Reduction Solver Spec FixedPoint

noncomputable section

open Classical in
attribute [local instance 0] propDecidable

variable {n m : ℕ} [NeZero n] [NeZero m]

/-- `d'` is `d` with further nodes of degree 0; node `i` of `d` is node `J i` of `d'` -/
structure Padded (J : Fin n → Fin m) (d : UData n) (d' : UData m) : Prop where
  inj : J.Injective
  same : ∀ i, d'.dseq (J i) = d.dseq i
  isolated : ∀ j, (∀ i, J i ≠ j) → d'.dseq j = 0

/-- the same initial guess for the network without and with the isolated nodes: a name other than "random", or arrays that agree on the common nodes (which stand in the same
order) -/
inductive PaddedGuess (J : Fin n → Fin m) : Guess n → Guess m → Prop
  | name (s : String) (h : s ≠ "random") : PaddedGuess J (.name s) (.name s)
  | nodes (v : Fin n → ℝ) (v' : Fin m → ℝ) (hJ : StrictMono J) (h : ∀ i, v' (J i) = v i) : PaddedGuess J (.nodes v) (.nodes v')

theorem isMaxAbs_ext {ι κ : Type} {J : ι → κ} {f : ι → ℝ} {g : κ → ℝ} {E E' : ℝ} (h : IsMaxAbs E f) (h' : IsMaxAbs E' g) (h1 : ∀ i, g (J i) = f i)
    (h2 : ∀ v, (∀ i, J i ≠ v) → g v = 0) : E' = E := by
  obtain ⟨i, hi⟩ := h.2
  obtain ⟨v, hv⟩ := h'.2
  refine le_antisymm ?_ ?_
  · by_cases k : ∃ i, J i = v
    · obtain ⟨l, rfl⟩ := k
      rw [← hv, h1]
      exact h.1 l
    · push Not at k
      rw [← hv, h2 v k, abs_zero, ← hi]
      exact abs_nonneg _
  · rw [← hi, ← h1]
    exact h'.1 _

section cm
variable {d : UData n} {d' : UData m} {J : Fin n → Fin m}

/-- the class of `d'` with the degree of class `q` of `d` -/
def classMap (d : UData n) (d' : UData m) (J : Fin n → Fin m) (q : Fin d.r) : Fin d'.r := d'.inv (J (d.index q))

theorem index_deg (d : UData n) (q : Fin d.r) : d.dseq (d.index q) = r_dseq d.dseq q := by
  have := min'_mem (univ.filter fun j => d.dseq j = r_dseq d.dseq q) (by obtain ⟨i, hi⟩ := d.exists_class q; exact ⟨i, by simp [hi]⟩)
  exact (mem_filter.1 this).2

theorem classMap_inv (h : Padded J d d') (i : Fin n) : classMap d d' J (d.inv i) = d'.inv (J i) := by
  refine ((r_invert_eq_iff d'.dseq (J (d.index (d.inv i))) (d'.inv (J i))).2 ?_)
  rw [show r_dseq d'.dseq (d'.inv (J i)) = d'.dseq (J i) from r_dseq_invert _ _, h.same, h.same, index_deg]
  exact r_dseq_invert _ _

theorem classMap_deg (h : Padded J d d') (q : Fin d.r) : d'.k (classMap d d' J q) = d.k q := by
  unfold UData.k classMap
  rw [show r_dseq d'.dseq (d'.inv (J (d.index q))) = d'.dseq (J (d.index q)) from r_dseq_invert _ _, h.same, index_deg]

theorem k_inj (d : UData n) {q q' : Fin d.r} (h : d.k q = d.k q') : q = q' := by
  unfold UData.k at h
  exact (r_dseq_strictMono d.dseq).injective (Nat.cast_injective h)

theorem classMap_inj (h : Padded J d d') : (classMap d d' J).Injective := fun q q' hq => k_inj d (by rw [← classMap_deg h, ← classMap_deg h, hq])

/-- values of the classes, seen at the nodes -/
theorem at_nodes (h : Padded J d d') {x : Fin d.r → ℝ} (hx : ∀ q, d.k q = 0 → x q = 0) :
    (∀ i, ext (classMap d d' J) x (d'.inv (J i)) = x (d.inv i)) ∧ ∀ j, (∀ i, J i ≠ j) → ext (classMap d d' J) x (d'.inv j) = 0 := by
  refine ⟨fun i => by rw [← classMap_inv h, ext_at (classMap_inj h)], fun j hj => ?_⟩
  by_cases k : ∃ q, classMap d d' J q = d'.inv j
  · obtain ⟨q, hq⟩ := k
    rw [← hq, ext_at (classMap_inj h)]
    refine hx q ?_
    rw [← classMap_deg h, hq, d'.k_at_inv, h.isolated j hj, Nat.cast_zero]
  · push Not at k
    exact ext_off x k

theorem embedded_cm (e e' : Env) (h : Padded J d d') : Embedded (classMap d d' J) (fun q => d.k q = 0) (cbCM e d .fixed_point) (cbCM e' d' .fixed_point) where
  zero x q hq := by
    show CM.iterative_cm x d.k d.c q = 0
    rw [CM.iterative_eq, hq]
    simp
  fn x hx := by
    obtain ⟨h1, h2⟩ := at_nodes h hx
    refine ext_eq (classMap_inj h) (fun q => ?_) (fun v hv => ?_)
    · obtain ⟨i, rfl⟩ := r_invert_surjective d.dseq q
      show CM.iterative_cm _ d'.k d'.c (classMap d d' J (d.inv i)) = CM.iterative_cm x d.k d.c (d.inv i)
      rw [classMap_inv h]
      have e1 := d'.F_inv (ext (classMap d d' J) x) (0, J i)
      have e2 := d.F_inv x (0, i)
      rw [show (((0 : Fin 2), J i) : Fin 2 × Fin m).2 = J i from rfl] at e1
      rw [show (((0 : Fin 2), i) : Fin 2 × Fin n).2 = i from rfl] at e2
      rw [e1, e2]
      unfold FixedPoint.F den
      simp only [dup_apply, UData.deg, h.same]
      congr 1
      rw [sum_filter, sum_filter]
      refine sum_ext h.inj (fun j => ?_) fun j hj => ?_
      · simp only [h1, ne_eq, h.inj.eq_iff]
      · rw [h2 j hj]; simp
    · obtain ⟨j, rfl⟩ := r_invert_surjective d'.dseq v
      have hj : ∀ i, J i ≠ j := fun i hi => hv (d.inv i) (by rw [classMap_inv h, hi]; rfl)
      show CM.iterative_cm _ d'.k d'.c (d'.inv j) = 0
      rw [CM.iterative_eq, d'.k_at_inv, h.isolated j hj]
      simp
  search x dx dxo a b k := by
    show some (linsearch_fun_CM_fixed _ _ _ _ _ _ _) = some (linsearch_fun_CM_fixed _ _ _ _ _ _ _)
    unfold linsearch_fun_CM_fixed
    rw [positivityStage_ext (classMap_inj h) (order := List.finRange d.r) (order' := List.finRange d'.r) (fun q => List.mem_finRange q) (fun v => List.mem_finRange v),
      normStage_ext (classMap_inj h)]

theorem padded_edges (h : Padded J d d') : d'.n_edges = d.n_edges := by
  unfold UData.n_edges
  rw [sum_ext h.inj (f := d.deg) (fun i => by simp [UData.deg, h.same]) fun j hj => by simp [UData.deg, h.isolated j hj]]

theorem index_padded (h : Padded J d d') (hJ : StrictMono J) {q : Fin d.r} (hq : d.k q ≠ 0) : d'.index (classMap d d' J q) = J (d.index q) := by
  have hv : r_dseq d'.dseq (classMap d d' J q) = r_dseq d.dseq q := by
    have := classMap_deg h q
    unfold UData.k at this
    exact Nat.cast_injective this
  refine le_antisymm ?_ ?_
  · refine min'_le _ _ ?_
    rw [mem_filter]
    exact ⟨mem_univ _, by rw [h.same, index_deg, hv]⟩
  · have k : ∃ i, J i = d'.index (classMap d d' J q) := by
      by_contra hc
      push Not at hc
      have := h.isolated _ hc
      rw [index_deg, hv] at this
      exact hq (by unfold UData.k; rw [this]; simp)
    obtain ⟨i, hi⟩ := k
    rw [← hi]
    refine hJ.monotone (min'_le _ _ ?_)
    rw [mem_filter]
    exact ⟨mem_univ _, by rw [← h.same, hi, index_deg, hv]⟩

theorem guess_padded (e e' : Env) (h : Padded J d d') {guess : Guess n} {guess' : Guess m} (hg : PaddedGuess J guess guess') :
    guessCM e' d' false guess' = (guessCM e d false guess).map (ext (classMap d d' J)) ∧ ∀ x0, guessCM e d false guess = .ok x0 → ∀ q, d.k q = 0 → x0 q = 0 := by
  have lift : ∀ (x : Fin d.r → ℝ) (x' : Fin d'.r → ℝ), (∀ q, d.k q ≠ 0 → x' (classMap d d' J q) = x q) →
      maskSet x' (fun q => d'.k q = 0) 0 = ext (classMap d d' J) (maskSet x (fun q => d.k q = 0) 0) := fun x x' hx => by
    refine ext_eq (classMap_inj h) (fun q => ?_) fun v hv => ?_
    · simp only [maskSet, classMap_deg h]
      by_cases h0 : d.k q = 0
      · simp [h0]
      · simp [h0, hx q h0]
    · obtain ⟨j, rfl⟩ := r_invert_surjective d'.dseq v
      have hj : ∀ i, J i ≠ j := fun i hi => hv (d.inv i) (by rw [classMap_inv h, hi]; rfl)
      have : d'.k (r_invert_dseq d'.dseq j) = 0 := by
        rw [show d'.k (r_invert_dseq d'.dseq j) = d'.deg j from d'.k_at_inv j, UData.deg, h.isolated j hj, Nat.cast_zero]
      simp [maskSet, this]
  cases hg with
  | name s hs =>
    have hn : ∀ v, namedCM e d s = some v → ∃ v', namedCM e' d' s = some v' ∧ ∀ q, v' (classMap d d' J q) = v q := by
      intro v
      unfold namedCM
      rw [if_neg hs, if_neg hs, padded_edges h]
      split_ifs <;> intro hv <;> cases hv <;> refine ⟨_, rfl, fun q => ?_⟩ <;> simp [classMap_deg h]
    have hn' : namedCM e d s = none → namedCM e' d' s = none := by
      unfold namedCM
      split_ifs <;> simp
    unfold guessCM
    dsimp only
    cases hv : namedCM e d s with
    | none => rw [hn' hv]; exact ⟨rfl, by simp⟩
    | some v =>
      obtain ⟨v', h1, h2⟩ := hn v hv
      rw [h1]
      refine ⟨congrArg Except.ok (lift _ _ fun q _ => h2 q), fun x0 hx0 q hq => ?_⟩
      cases hx0
      simp [maskSet, hq]
  | nodes v v' hJ hv =>
    unfold guessCM
    refine ⟨congrArg Except.ok (lift _ _ fun q hq => by rw [index_padded h hJ hq, hv]), fun x0 hx0 q hq => ?_⟩
    cases hx0
    simp [maskSet, hq]

/-- C77 (cm, fixed point): adding nodes of degree 0 changes nothing - same outcome, same steps, same fitnesses and expected degrees of the other nodes, fitness and expected
degree 0 of the new ones, same errors. -/
theorem C77_cm (e e' : Env) (h : Padded J d d') {guess : Guess n} {guess' : Guess m} (hg : PaddedGuess J guess guess') (adj : AdjSpec n) (adj' : AdjSpec m) (ma ma' : String)
    (ga : Guess n) (ga' : Guess m) (p : Params) :
    let R := solve_tool e ({} : UAttr d) "cm" "fixed-point" guess adj ma ga p
    let R' := solve_tool e' ({} : UAttr d') "cm" "fixed-point" guess' adj' ma' ga' p
    R'.exc = R.exc ∧ (R.exc = none → R'.g.trace = R.g.trace ∧ ∃ x x' k k', R.g.x = some x ∧ R'.g.x = some x' ∧ R.g.expected_dseq = some k ∧ R'.g.expected_dseq = some k' ∧
      (∀ i, x' (J i) = x i ∧ k' (J i) = k i) ∧ (∀ j, (∀ i, J i ≠ j) → x' j = 0 ∧ k' j = 0) ∧
      R'.g.error_degree = R.g.error_degree ∧ R'.g.relative_error_degree = R.g.relative_error_degree) := by
  intro R R'
  have fresh : ∀ {n : ℕ} [NeZero n] (d : UData n) (e : Env) (G : UAttr d), G.beta = none → G.last_model = some "cm" → (solutionError e G).2 = none := by
    intro n _ d e G h1 h2
    unfold solutionError
    rw [if_pos (.inl h2)]
    have h3 : (degreeError G).beta = none := by rw [(degreeError_keeps G).2.2.1, h1]
    unfold strengthError
    rw [h3]
  obtain ⟨hg1, hg2⟩ := guess_padded e e' h hg
  have hbad : ∀ {n : ℕ} [NeZero n] (d : UData n) (e : Env) (guess : Guess n) (adj : AdjSpec n) (ma : String) (ga : Guess n) er, guessCM e d false guess = .error er →
      (solve_tool e ({} : UAttr d) "cm" "fixed-point" guess adj ma ga p).exc = some (.py er) := by
    intro n _ d e guess adj ma ga er her
    have h0 : guessCM e d (decide ("cm" = "cm_exp")) guess = .error er := her
    unfold solve_tool
    rw [if_pos (by simp)]
    unfold solveProblem
    rw [if_pos (by simp), h0]
  cases hx0 : guessCM e d false guess with
  | error er =>
    rw [hx0] at hg1
    have e1 : R.exc = some (.py er) := hbad d e guess adj ma ga er hx0
    have e2 : R'.exc = some (.py er) := hbad d' e' guess' adj' ma' ga' er hg1
    rw [e1, e2]
    exact ⟨rfl, by simp⟩
  | ok x0 =>
    rw [hx0] at hg1
    have he := solve_tool_cm e ({} : UAttr d) .fixed_point guess adj ma ga p hx0
    have he' := solve_tool_cm e' ({} : UAttr d') .fixed_point guess' adj' ma' ga' p hg1
    simp only at he he'
    rw [solver_embed (classMap_inj h) (embedded_cm e e' h) rfl x0 (hg2 x0 hx0)] at he'
    cases hsv : solver (cbCM e d .fixed_point) (p.opts Method.fixed_point.name) x0 with
    | error x =>
      rw [hsv] at he he'
      simp only [Except.map] at he'
      rw [show R = _ from he, show R' = _ from he']
      simp
    | ok s =>
      rw [hsv] at he he'
      simp only [Except.map] at he'
      have n1 : R.exc = none := by rw [show R = _ from he]; exact fresh d e _ rfl rfl
      have n2 : R'.exc = none := by rw [show R' = _ from he']; exact fresh d' e' _ rfl rfl
      refine ⟨by rw [n1, n2], fun _ => ?_⟩
      obtain ⟨x, E, r, q1, q2, q3, q4, q5, q6⟩ := C54_cm e ({} : UAttr d) .cm (.inl rfl) "fixed-point" guess adj ma ga p n1
      obtain ⟨x', E', r', q1', q2', q3', q4', q5', q6'⟩ := C54_cm e' ({} : UAttr d') .cm (.inl rfl) "fixed-point" guess' adj' ma' ga' p n2
      have b1 : R.g.x = some fun i => s.x (d.inv i) := by rw [show R = _ from he]; exact (solutionError_keeps e _).1
      have b2 : R'.g.x = some fun i => ext (classMap d d' J) s.x (d'.inv i) := by rw [show R' = _ from he']; exact (solutionError_keeps e' _).1
      have c1 : x = fun i => s.x (d.inv i) := Option.some.inj (q1.symm.trans b1)
      have c2 : x' = fun i => ext (classMap d d' J) s.x (d'.inv i) := Option.some.inj (q1'.symm.trans b2)
      have hz : ∀ q, d.k q = 0 → s.x q = 0 := solver_zero (embedded_cm e e' h) rfl (hg2 x0 hx0) hsv
      obtain ⟨z1, z2⟩ := at_nodes h hz
      have x1 : ∀ i, x' (J i) = x i := fun i => by rw [c1, c2]; exact z1 i
      have x2 : ∀ j, (∀ i, J i ≠ j) → x' j = 0 := fun j hj => by rw [c2]; exact z2 j hj
      have k1 : ∀ i, degUBCM x' (J i) = degUBCM x i := fun i => by
        unfold degUBCM
        rw [sum_filter, sum_filter]
        refine sum_ext h.inj (fun j => ?_) fun j hj => ?_
        · simp only [linkUBCM, x1, ne_eq, h.inj.eq_iff]
        · simp [linkUBCM, x2 j hj]
      have k2 : ∀ j, (∀ i, J i ≠ j) → degUBCM x' j = 0 := fun j hj => by
        unfold degUBCM
        exact sum_eq_zero fun l _ => by simp [linkUBCM, x2 j hj]
      refine ⟨?_, x, x', _, _, q1, q1', q2, q2', fun i => ⟨x1 i, k1 i⟩, fun j hj => ⟨x2 j hj, k2 j hj⟩, ?_, ?_⟩
      · rw [show R = _ from he, show R' = _ from he']
        refine ((solutionError_keeps e' _).2.2.2.2.1).trans (Eq.trans ?_ ((solutionError_keeps e _).2.2.2.2.1).symm)
        rfl
      · refine q3'.trans ((congrArg some ?_).trans q3.symm)
        exact isMaxAbs_ext (J := J) q5 q5' (fun i => by simp only [k1, h.same]) fun j hj => by simp [k2 j hj, h.isolated j hj]
      · refine q4'.trans ((congrArg some ?_).trans q4.symm)
        exact isMaxAbs_ext (J := J) q6 q6' (fun i => by simp only [k1, h.same]) fun j hj => by simp [k2 j hj, h.isolated j hj]

end cm

end

end Verif.Solve
