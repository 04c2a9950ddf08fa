import Verif.Props.Isolated
import Verif.Lemmas.EMModels

/-!
C77, directed: nodes without arcs do not matter to the fixed-point method of dcm.
-/

set_option linter.unusedSectionVars false

namespace Verif.Solve

open Verif Finset Reduction Solver Spec FixedPoint

noncomputable section

open Classical in
attribute [local instance 0] propDecidable

variable {n m : ℕ} [NeZero n] [NeZero m]

/-- `d'` is `d` with further nodes without arcs -/
structure PaddedD (J : Fin n → Fin m) (d : DData n) (d' : DData m) : Prop where
  inj : J.Injective
  out : ∀ i, d'.dseq_out (J i) = d.dseq_out i
  inn : ∀ i, d'.dseq_in (J i) = d.dseq_in i
  isolated : ∀ j, (∀ i, J i ≠ j) → d'.dseq_out j = 0 ∧ d'.dseq_in j = 0

/-- the same initial guess for the network without and with the isolated nodes -/
inductive PaddedGuessD (J : Fin n → Fin m) : DGuess n → DGuess m → Prop
  | name (s : String) (h : s ≠ "random") : PaddedGuessD J (.name s) (.name s)
  | pairs (v : Fin 2 × Fin n → ℝ) (v' : Fin 2 × Fin m → ℝ) (hJ : StrictMono J) (h : ∀ b i, v' (b, J i) = v (b, i)) : PaddedGuessD J (.pairs v) (.pairs v')

/-- the nodes on both sides -/
def sides {κ κ' : Type} (J : κ → κ') (v : Fin 2 × κ) : Fin 2 × κ' := (v.1, J v.2)

theorem sides_inj {κ κ' : Type} {J : κ → κ'} (h : J.Injective) : (sides J).Injective := fun v w hvw => by
  simp only [sides, Prod.mk.injEq] at hvw
  exact Prod.ext hvw.1 (h hvw.2)

theorem sides_off {κ κ' : Type} {J : κ → κ'} {w : Fin 2 × κ'} (h : ∀ v, sides J v ≠ w) (q : κ) : J q ≠ w.2 := fun hq => h (w.1, q) (Prod.ext rfl hq)

section dcm
variable {d : DData n} {d' : DData m} {J : Fin n → Fin m}

/-- the class of `d'` with the degrees of class `q` of `d` -/
def classMapD (d : DData n) (d' : DData m) (J : Fin n → Fin m) (q : Fin d.r) : Fin d'.r := d'.inv (J (d.index q))

theorem PaddedD.seq (h : PaddedD J d d') (i : Fin n) : d'.seq (J i) = d.seq i := by unfold DData.seq; rw [h.out, h.inn]

theorem index_degD (d : DData n) (q : Fin d.r) : d.seq (d.index q) = r_dseq d.seq q := by
  have := min'_mem (univ.filter fun j => d.seq j = r_dseq d.seq q) (by obtain ⟨i, hi⟩ := d.exists_class q; exact ⟨i, by simp [hi]⟩)
  exact (mem_filter.1 this).2

theorem classMapD_inv (h : PaddedD J d d') (i : Fin n) : classMapD d d' J (d.inv i) = d'.inv (J i) := by
  refine ((r_invert_eq_iff d'.seq (J (d.index (d.inv i))) (d'.inv (J i))).2 ?_)
  rw [show r_dseq d'.seq (d'.inv (J i)) = d'.seq (J i) from r_dseq_invert _ _, h.seq, h.seq, index_degD]
  exact r_dseq_invert _ _

theorem classMapD_val (h : PaddedD J d d') (q : Fin d.r) : r_dseq d'.seq (classMapD d d' J q) = r_dseq d.seq q := by
  unfold classMapD
  rw [show r_dseq d'.seq (d'.inv (J (d.index q))) = d'.seq (J (d.index q)) from r_dseq_invert _ _, h.seq, index_degD]

theorem classMapD_deg (h : PaddedD J d d') (q : Fin d.r) : d'.ko (classMapD d d' J q) = d.ko q ∧ d'.ki (classMapD d d' J q) = d.ki q := by
  unfold DData.ko DData.ki
  rw [classMapD_val h]
  exact ⟨rfl, rfl⟩

theorem classMapD_inj (h : PaddedD J d d') : (classMapD d d' J).Injective := fun q q' hq =>
  (r_dseq_strictMono d.seq).injective (by rw [← classMapD_val h, ← classMapD_val h, hq])

theorem off_class (h : PaddedD J d d') {w : Fin 2 × Fin d'.r} (hw : ∀ v, sides (classMapD d d' J) v ≠ w) : ∃ j, d'.inv j = w.2 ∧ ∀ i, J i ≠ j := by
  obtain ⟨j, hj⟩ := d'.inv_surj w.2
  exact ⟨j, hj, fun i hi => sides_off hw (d.inv i) (by rw [classMapD_inv h, hi, hj])⟩

theorem concat_off (h : PaddedD J d d') {b : Fin 2} {j : Fin m} (hj : ∀ i, J i ≠ j) : DCM.concat d'.ko d'.ki (b, d'.inv j) = 0 := by
  rw [d'.concat_inv (b, j)]
  obtain ⟨h1, h2⟩ := h.isolated j hj
  fin_cases b
  · show (d'.dseq_out j : ℝ) = 0
    rw [h1, Nat.cast_zero]
  · show (d'.dseq_in j : ℝ) = 0
    rw [h2, Nat.cast_zero]

/-- no degree of this kind -/
def NoDegree (d : DData n) (v : Fin 2 × Fin d.r) : Prop := DCM.concat d.ko d.ki v = 0

theorem concat_same (h : PaddedD J d d') (v : Fin 2 × Fin d.r) : DCM.concat d'.ko d'.ki (sides (classMapD d d' J) v) = DCM.concat d.ko d.ki v := by
  obtain ⟨b, q⟩ := v
  fin_cases b
  · exact (classMapD_deg h q).1
  · exact (classMapD_deg h q).2

/-- values of the classes, seen at the nodes -/
theorem at_nodesD (h : PaddedD J d d') {x : Fin 2 × Fin d.r → ℝ} (hx : ∀ v, NoDegree d v → x v = 0) :
    (∀ b i, ext (sides (classMapD d d' J)) x (b, d'.inv (J i)) = x (b, d.inv i)) ∧ ∀ b j, (∀ i, J i ≠ j) → ext (sides (classMapD d d' J)) x (b, d'.inv j) = 0 := by
  refine ⟨fun b i => ?_, fun b j hj => ?_⟩
  · rw [← classMapD_inv h]
    exact ext_at (sides_inj (classMapD_inj h)) x (b, d.inv i)
  · by_cases k : ∃ v, sides (classMapD d d' J) v = (b, d'.inv j)
    · obtain ⟨v, hv⟩ := k
      rw [← hv, ext_at (sides_inj (classMapD_inj h))]
      refine hx v ?_
      unfold NoDegree
      rw [← concat_same h, hv, concat_off h hj]
    · push Not at k
      exact ext_off x k

theorem embedded_dcm (e e' : Env) (h : PaddedD J d d') : Embedded (sides (classMapD d d' J)) (NoDegree d) (cbDCM e d .fixed_point) (cbDCM e' d' .fixed_point) where
  zero x v hv := by
    show DCM.concat d.ko d.ki v / _ = 0
    rw [show DCM.concat d.ko d.ki v = 0 from hv, zero_div]
  fn x hx := by
    obtain ⟨h1, h2⟩ := at_nodesD h hx
    refine ext_eq (sides_inj (classMapD_inj h)) (fun v => ?_) (fun w hw => ?_)
    · show DCM.concat d'.ko d'.ki _ / DCM.iterative_den _ _ _ = DCM.concat d.ko d.ki v / DCM.iterative_den _ _ v
      rw [concat_same h]
      congr 1
      obtain ⟨b, q⟩ := v
      obtain ⟨i, rfl⟩ := d.inv_surj q
      rw [show sides (classMapD d d' J) (b, d.inv i) = (b, d'.inv (J i)) from Prod.ext rfl (classMapD_inv h i)]
      rw [← d'.den_inv _ (b, J i), ← d.den_inv x (b, i)]
      unfold den
      rw [sum_filter, sum_filter]
      refine sum_ext h.inj (fun j => ?_) fun j hj => ?_
      · simp only [h1, ne_eq, h.inj.eq_iff]
      · simp only [h2 _ j hj, zero_div, ite_self]
    · obtain ⟨j, hj, hi⟩ := off_class h hw
      show DCM.concat d'.ko d'.ki w / _ = 0
      rw [show w = (w.1, d'.inv j) from Prod.ext rfl hj.symm, concat_off h hi, zero_div]
  search x dx dxo a b k := by
    show some (linsearch_fun_DCM_fixed _ _ _ _ _ _ _) = some (linsearch_fun_DCM_fixed _ _ _ _ _ _ _)
    unfold linsearch_fun_DCM_fixed
    rw [positivityStage'_ext (sides_inj (classMapD_inj h)) (order := blocks 2 d.r) (order' := blocks 2 d'.r) (fun q => by simp [blocks]) (fun v => by simp [blocks]),
      normStage_ext (sides_inj (classMapD_inj h))]

theorem padded_edgesD (h : PaddedD J d d') : d'.n_edges = d.n_edges := by
  unfold DData.n_edges
  rw [sum_ext h.inj (f := d.degOut) (fun i => by simp [DData.degOut, h.out]) fun j hj => by simp [DData.degOut, (h.isolated j hj).1]]

theorem index_paddedD (h : PaddedD J d d') (hJ : StrictMono J) {q : Fin d.r} (hq : d.ko q ≠ 0 ∨ d.ki q ≠ 0) : d'.index (classMapD d d' J q) = J (d.index q) := by
  have hv := classMapD_val h q
  refine le_antisymm ?_ ?_
  · refine min'_le _ _ ?_
    rw [mem_filter]
    exact ⟨mem_univ _, by rw [h.seq, index_degD, hv]⟩
  · have k : ∃ i, J i = d'.index (classMapD d d' J q) := by
      by_contra hc
      push Not at hc
      obtain ⟨i1, i2⟩ := h.isolated _ hc
      have hs := index_degD d' (classMapD d d' J q)
      rw [hv] at hs
      unfold DData.seq at hs
      rw [i1, i2] at hs
      unfold DData.ko DData.ki at hq
      rw [show r_dseq d.seq q = toLex (0, 0) from hs.symm] at hq
      simp at hq
    obtain ⟨i, hi⟩ := k
    rw [← hi]
    refine hJ.monotone (min'_le _ _ ?_)
    rw [mem_filter]
    exact ⟨mem_univ _, by rw [← h.seq, hi, index_degD, hv]⟩

theorem guess_paddedD (e e' : Env) (h : PaddedD J d d') {guess : DGuess n} {guess' : DGuess m} (hg : PaddedGuessD J guess guess') :
    guessDCM e' d' false guess' = (guessDCM e d false guess).map (ext (sides (classMapD d d' J))) ∧
      ∀ x0, guessDCM e d false guess = .ok x0 → ∀ v, NoDegree d v → x0 v = 0 := by
  have lift : ∀ (x y : Fin d.r → ℝ) (x' y' : Fin d'.r → ℝ), (∀ q, d.ko q ≠ 0 → x' (classMapD d d' J q) = x q) → (∀ q, d.ki q ≠ 0 → y' (classMapD d d' J q) = y q) →
      finishDCM d' false x' y' = ext (sides (classMapD d d' J)) (finishDCM d false x y) := fun x y x' y' hx hy => by
    refine ext_eq (sides_inj (classMapD_inj h)) (EM.forall_pair.2 ⟨fun q => ?_, fun q => ?_⟩) fun w hw => ?_
    · show maskSet x' (fun q => d'.ko q = 0) 0 (classMapD d d' J q) = maskSet x (fun q => d.ko q = 0) 0 q
      simp only [maskSet, (classMapD_deg h q).1]
      by_cases h0 : d.ko q = 0
      · simp [h0]
      · simp [h0, hx q h0]
    · show maskSet y' (fun q => d'.ki q = 0) 0 (classMapD d d' J q) = maskSet y (fun q => d.ki q = 0) 0 q
      simp only [maskSet, (classMapD_deg h q).2]
      by_cases h0 : d.ki q = 0
      · simp [h0]
      · simp [h0, hy q h0]
    · obtain ⟨j, hj, hi⟩ := off_class h hw
      obtain ⟨b, v⟩ := w
      replace hj : d'.inv j = v := hj
      subst hj
      have z := concat_off h (b := b) hi
      fin_cases b
      · show maskSet x' (fun q => d'.ko q = 0) 0 (d'.inv j) = 0
        simp [maskSet, show d'.ko (d'.inv j) = 0 from z]
      · show maskSet y' (fun q => d'.ki q = 0) 0 (d'.inv j) = 0
        simp [maskSet, show d'.ki (d'.inv j) = 0 from z]
  have low : ∀ (x y : Fin d.r → ℝ) v, NoDegree d v → finishDCM d false x y v = 0 := fun x y => EM.forall_pair.2 ⟨fun q hq => by
    show maskSet x (fun q => d.ko q = 0) 0 q = 0
    simp [maskSet, show d.ko q = 0 from hq], fun q hq => by
    show maskSet y (fun q => d.ki q = 0) 0 q = 0
    simp [maskSet, show d.ki q = 0 from hq]⟩
  cases hg with
  | name s hs =>
    have hn : ∀ v, namedDCM e d s = some v → ∃ v', namedDCM e' d' s = some v' ∧ ∀ q, v'.1 (classMapD d d' J q) = v.1 q ∧ v'.2 (classMapD d d' J q) = v.2 q := by
      intro v
      unfold namedDCM
      rw [if_neg hs, if_neg hs, padded_edgesD h]
      split_ifs <;> intro hv <;> cases hv <;> refine ⟨_, rfl, fun q => ?_⟩ <;> simp [classMapD_deg h]
    have hn' : namedDCM e d s = none → namedDCM e' d' s = none := by
      unfold namedDCM
      split_ifs <;> simp
    unfold guessDCM
    dsimp only
    cases hv : namedDCM e d s with
    | none => rw [hn' hv]; exact ⟨rfl, by simp⟩
    | some v =>
      obtain ⟨v', h1, h2⟩ := hn v hv
      rw [h1]
      refine ⟨congrArg Except.ok (lift _ _ _ _ (fun q _ => (h2 q).1) fun q _ => (h2 q).2), fun x0 hx0 => ?_⟩
      cases hx0
      exact low _ _
  | pairs v v' hJ hv =>
    unfold guessDCM
    refine ⟨congrArg Except.ok (lift _ _ _ _ (fun q hq => by rw [index_paddedD h hJ (.inl hq), hv]) fun q hq => by rw [index_paddedD h hJ (.inr hq), hv]), fun x0 hx0 => ?_⟩
    cases hx0
    exact low _ _

/-- C77 (dcm, fixed point). -/
theorem C77_dcm (e e' : Env) (h : PaddedD J d d') {guess : DGuess n} {guess' : DGuess m} (hg : PaddedGuessD J guess guess') (adj : AdjSpec n) (adj' : AdjSpec m)
    (ma ma' : String) (ga : DGuess n) (ga' : DGuess m) (p : Params) :
    let R := solve_tool_directed e ({} : DAttr d) "dcm" "fixed-point" guess adj ma ga p
    let R' := solve_tool_directed e' ({} : DAttr d') "dcm" "fixed-point" guess' adj' ma' ga' p
    R'.exc = R.exc ∧ (R.exc = none → R'.g.trace = R.g.trace ∧ ∃ x x' y y' k k', R.g.x = some x ∧ R'.g.x = some x' ∧ R.g.y = some y ∧ R'.g.y = some y' ∧
      R.g.expected_dseq = some k ∧ R'.g.expected_dseq = some k' ∧ (∀ i, x' (J i) = x i ∧ y' (J i) = y i ∧ ∀ b, k' (b, J i) = k (b, i)) ∧
      (∀ j, (∀ i, J i ≠ j) → x' j = 0 ∧ y' j = 0 ∧ ∀ b, k' (b, j) = 0) ∧
      R'.g.error_degree = R.g.error_degree ∧ R'.g.relative_error_degree = R.g.relative_error_degree) := by
  intro R R'
  have fresh : ∀ {n : ℕ} [NeZero n] (d : DData n) (G : DAttr d), G.b_out = none → G.last_model = some "dcm" → (solutionErrorD G).2 = none := by
    intro n _ d G h1 h2
    unfold solutionErrorD
    rw [if_pos (.inl h2)]
    have h3 : (degreeErrorD G).b_out = none := by
      have := congrArg DAttr.b_out (degreeErrorD_sol G)
      exact this.trans h1
    unfold strengthErrorD
    rw [h3]
  obtain ⟨hg1, hg2⟩ := guess_paddedD e e' h hg
  have hbad : ∀ {n : ℕ} [NeZero n] (d : DData n) (e : Env) (guess : DGuess n) (adj : AdjSpec n) (ma : String) (ga : DGuess n) er, guessDCM e d false guess = .error er →
      (solve_tool_directed e ({} : DAttr d) "dcm" "fixed-point" guess adj ma ga p).exc = some (.py er) := by
    intro n _ d e guess adj ma ga er her
    have h0 : guessDCM e d (decide ("dcm" = "dcm_exp")) guess = .error er := her
    unfold solve_tool_directed
    rw [if_pos (by simp)]
    unfold solveProblemD
    rw [if_pos (by simp), h0]
  cases hx0 : guessDCM e d false guess with
  | error er =>
    rw [hx0] at hg1
    have e1 : R.exc = some (.py er) := hbad d e guess adj ma ga er hx0
    have e2 : R'.exc = some (.py er) := hbad d' e' guess' adj' ma' ga' er hg1
    rw [e1, e2]
    exact ⟨rfl, by simp⟩
  | ok x0 =>
    rw [hx0] at hg1
    have he := solve_tool_dcm e ({} : DAttr d) .fixed_point guess adj ma ga p hx0
    have he' := solve_tool_dcm e' ({} : DAttr d') .fixed_point guess' adj' ma' ga' p hg1
    rw [solver_embed (sides_inj (classMapD_inj h)) (embedded_dcm e e' h) rfl x0 (hg2 x0 hx0)] at he'
    cases hsv : solver (cbDCM e d .fixed_point) (p.opts Method.fixed_point.name) x0 with
    | error x =>
      rw [hsv] at he he'
      simp only [Except.map] at he'
      rw [show R = _ from he, show R' = _ from he']
      simp
    | ok s =>
      rw [hsv] at he he'
      simp only [Except.map] at he'
      have n1 : R.exc = none := by rw [show R = _ from he]; exact fresh d _ rfl rfl
      have n2 : R'.exc = none := by rw [show R' = _ from he']; exact fresh d' _ rfl rfl
      refine ⟨by rw [n1, n2], fun _ => ?_⟩
      obtain ⟨x, y, E, r, q1, q1y, q2, q3, q4, q5, q6⟩ := C54_dcm e ({} : DAttr d) .dcm (.inl rfl) "fixed-point" guess adj ma ga p n1
      obtain ⟨x', y', E', r', q1', q1y', q2', q3', q4', q5', q6'⟩ := C54_dcm e' ({} : DAttr d') .dcm (.inl rfl) "fixed-point" guess' adj' ma' ga' p n2
      have b1 : R.g.x = some fun i => s.x (0, d.inv i) := by rw [show R = _ from he]; exact keepsD DAttr.x (fun _ => rfl) _
      have b2 : R'.g.x = some fun i => ext (sides (classMapD d d' J)) s.x (0, d'.inv i) := by rw [show R' = _ from he']; exact keepsD DAttr.x (fun _ => rfl) _
      have b3 : R.g.y = some fun i => s.x (1, d.inv i) := by rw [show R = _ from he]; exact keepsD DAttr.y (fun _ => rfl) _
      have b4 : R'.g.y = some fun i => ext (sides (classMapD d d' J)) s.x (1, d'.inv i) := by rw [show R' = _ from he']; exact keepsD DAttr.y (fun _ => rfl) _
      have c1 := Option.some.inj (q1.symm.trans b1)
      have c2 := Option.some.inj (q1'.symm.trans b2)
      have c3 := Option.some.inj (q1y.symm.trans b3)
      have c4 := Option.some.inj (q1y'.symm.trans b4)
      have hz : ∀ v, NoDegree d v → s.x v = 0 := solver_zero (embedded_dcm e e' h) rfl (hg2 x0 hx0) hsv
      obtain ⟨z1, z2⟩ := at_nodesD h hz
      have x1 : ∀ i, x' (J i) = x i := fun i => by rw [c1, c2]; exact z1 0 i
      have x2 : ∀ j, (∀ i, J i ≠ j) → x' j = 0 := fun j hj => by rw [c2]; exact z2 0 j hj
      have y1 : ∀ i, y' (J i) = y i := fun i => by rw [c3, c4]; exact z1 1 i
      have y2 : ∀ j, (∀ i, J i ≠ j) → y' j = 0 := fun j hj => by rw [c4]; exact z2 1 j hj
      have k1 : ∀ b i, outIn (outDBCM x' y') (inDBCM x' y') (b, J i) = outIn (outDBCM x y) (inDBCM x y) (b, i) := fun b i => by
        unfold outIn outDBCM inDBCM
        dsimp only
        simp only [sum_filter]
        split_ifs
        · refine sum_ext h.inj (fun j => ?_) fun j hj => ?_
          · simp only [linkDBCM, x1, y1, ne_eq, h.inj.eq_iff]
          · simp [linkDBCM, y2 j hj]
        · refine sum_ext h.inj (fun j => ?_) fun j hj => ?_
          · simp only [linkDBCM, x1, y1, ne_eq, h.inj.eq_iff]
          · simp [linkDBCM, x2 j hj]
      have k2 : ∀ b j, (∀ i, J i ≠ j) → outIn (outDBCM x' y') (inDBCM x' y') (b, j) = 0 := fun b j hj => by
        unfold outIn outDBCM inDBCM
        split_ifs
        · exact sum_eq_zero fun l _ => by simp [linkDBCM, x2 j hj]
        · exact sum_eq_zero fun l _ => by simp [linkDBCM, y2 j hj]
      have o1 : ∀ b i, outIn (fun i => (d'.dseq_out i : ℝ)) (fun i => (d'.dseq_in i : ℝ)) (b, J i) = outIn (fun i => (d.dseq_out i : ℝ)) (fun i => (d.dseq_in i : ℝ)) (b, i) := fun b i => by
        simp only [outIn, h.out, h.inn]
      have o2 : ∀ b j, (∀ i, J i ≠ j) → outIn (fun i => (d'.dseq_out i : ℝ)) (fun i => (d'.dseq_in i : ℝ)) (b, j) = 0 := fun b j hj => by
        simp [outIn, h.isolated j hj]
      refine ⟨?_, x, x', y, y', _, _, q1, q1', q1y, q1y', q2, q2', fun i => ⟨x1 i, y1 i, fun b => k1 b i⟩, fun j hj => ⟨x2 j hj, y2 j hj, fun b => k2 b j hj⟩, ?_, ?_⟩
      · rw [show R = _ from he, show R' = _ from he']
        refine (keepsD DAttr.trace (fun _ => rfl) _).trans (Eq.trans ?_ (keepsD DAttr.trace (fun _ => rfl) _).symm)
        rfl
      · refine q3'.trans ((congrArg some ?_).trans q3.symm)
        refine isMaxAbs_ext (J := sides J) q5 q5' (fun v => ?_) fun w hw => ?_
        · show outIn _ _ (v.1, J v.2) - outIn _ _ (v.1, J v.2) = _
          rw [k1, o1]
        · show outIn _ _ (w.1, w.2) - outIn _ _ (w.1, w.2) = _
          rw [k2 _ _ (sides_off hw), o2 _ _ (sides_off hw), sub_zero]
      · refine q4'.trans ((congrArg some ?_).trans q4.symm)
        refine isMaxAbs_ext (J := sides J) q6 q6' (fun v => ?_) fun w hw => ?_
        · show (outIn _ _ (v.1, J v.2) - outIn _ _ (v.1, J v.2)) / (outIn _ _ (v.1, J v.2) + _) = _
          rw [k1, o1]
        · show (outIn _ _ (w.1, w.2) - outIn _ _ (w.1, w.2)) / (outIn _ _ (w.1, w.2) + _) = _
          rw [k2 _ _ (sides_off hw), o2 _ _ (sides_off hw), sub_zero, zero_div]

end dcm

end

end Verif.Solve
