import Verif.Props.MaxEntropy2

/-!
Property C50 after a run of `solve_tool`: a converged run returns a law whose entropy is within `tol` times a factor read off the solution of the largest
entropy among the laws with the observed degrees (strengths) as means.
-/

namespace Verif.Solve

open Finset Spec

variable {n : ℕ} [NeZero n]

/-- C50 (cm), converged run. -/
theorem C50_cm_run {d : UData n} (e : Env) (he : e.Valid) (hr : e.NonzeroDraws) (hd : ∀ i, d.dseq i ≠ 0) (g : UAttr d) (me : Method) (hme : me ≠ .fixed_point)
    (name : String) (adj : AdjSpec n) (ma : String) (ga : Guess n) (p : Params) (hf : p.full_return = true) (hl : p.linsearch = true) :
    let R := solve_tool e g "cm" me.name (.name name) adj ma ga p
    R.exc = none → ∃ t x, R.g.trace = some t ∧ R.g.x = some x ∧ (t.Converged p → ∀ Q : Graphs n Bool → ℝ, IsLaw Q →
      (∀ i, HasMean Q (fun A => (degree A.1 i : ℝ)) (d.dseq i)) →
      ∃ H HP, HasEntropy Q H ∧ HasEntropy (fun A : Graphs n Bool => probUBCM x A.1) HP ∧ H ≤ HP + p.tol * ∑ i, x i * |Real.log (x i)|) := by
  intro R h
  obtain ⟨x, hx, px⟩ := C16_cm_run e he hr hd g me.name name adj ma ga p hl h
  obtain ⟨t, x', ht, hx', hc⟩ := C13_cm_named e he hr hd g me hme name adj ma ga p hf hl h
  obtain rfl : x = x' := Option.some.inj (hx.symm.trans hx')
  refine ⟨t, x, ht, hx, fun hconv Q hQ hm => ?_⟩
  obtain ⟨H, HP, h1, h2, h3⟩ := C50_ubcm_gap x (fun i => (px i).le) d.deg (fun i h => absurd h (px i).ne') Q hQ hm
  refine ⟨H, HP, h1, h2, h3.trans (add_le_add le_rfl ?_)⟩
  rw [mul_sum]
  refine sum_le_sum fun i _ => ?_
  rw [← mul_assoc, mul_comm p.tol]
  exact mul_le_mul_of_nonneg_right (hc hconv i) (abs_nonneg _)

/-- C50 (cm_exp), converged run, any initial guess. -/
theorem C50_cm_exp_run {d : UData n} (e : Env) (g : UAttr d) (me : Method) (hme : me ≠ .fixed_point) (guess : Guess n) (adj : AdjSpec n) (ma : String)
    (ga : Guess n) (p : Params) (hf : p.full_return = true) :
    let R := solve_tool e g "cm_exp" me.name guess adj ma ga p
    R.exc = none → ∃ t x, R.g.trace = some t ∧ R.g.x = some x ∧ (t.Converged p → ∀ Q : Graphs n Bool → ℝ, IsLaw Q →
      (∀ i, HasMean Q (fun A => (degree A.1 i : ℝ)) (d.dseq i)) →
      ∃ H HP, HasEntropy Q H ∧ HasEntropy (fun A : Graphs n Bool => probUBCM x A.1) HP ∧ H ≤ HP + p.tol * ∑ i, |Real.log (x i)|) := by
  intro R h
  obtain ⟨t, x, ht, hx, hc⟩ := C13_cm_exp e g me hme guess adj ma ga p hf h
  have px : ∀ i, 0 < x i := by
    obtain ⟨me', x0, s, hm, -, hs, hG⟩ := solve_tool_ok_cm_exp e g me.name guess adj ma ga p h
    have k := solutionError_keeps e (setSolvedCM (d := d) { g with last_model := some "cm_exp", full_return := p.full_return, args := some .cm, step_fun := some .cm_exp, fun_pmatrix := true } true s)
    have := k.1.symm.trans ((congrArg (fun r => r.g.x) hG).symm.trans hx)
    intro i
    rw [← Option.some.inj this]
    exact Real.exp_pos _
  refine ⟨t, x, ht, hx, fun hconv Q hQ hm => ?_⟩
  obtain ⟨H, HP, h1, h2, h3⟩ := C50_ubcm_gap x (fun i => (px i).le) d.deg (fun i h => absurd h (px i).ne') Q hQ hm
  refine ⟨H, HP, h1, h2, h3.trans (add_le_add le_rfl ?_)⟩
  rw [mul_sum]
  exact sum_le_sum fun i _ => mul_le_mul_of_nonneg_right (hc hconv i) (abs_nonneg _)

/-- C50 (dcm), converged run. -/
theorem C50_dcm_run {d : DData n} (e : Env) (he : e.Valid) (hr : e.NonzeroDraws) (hsum : ∑ i, d.dseq_in i = ∑ i, d.dseq_out i) (g : DAttr d) (me : Method)
    (hme : me ≠ .fixed_point) (name : String) (adj : AdjSpec n) (ma : String) (ga : DGuess n) (p : Params) (hf : p.full_return = true) (hl : p.linsearch = true) :
    let R := solve_tool_directed e g "dcm" me.name (.name name) adj ma ga p
    R.exc = none → ∃ t x y, R.g.trace = some t ∧ R.g.x = some x ∧ R.g.y = some y ∧ (t.Converged p → ∀ Q : Digraphs n Bool → ℝ, IsLaw Q →
      (∀ i, HasMean Q (fun A => (degree A.1 i : ℝ)) (d.dseq_out i)) → (∀ i, HasMean Q (fun A => (inDegree A.1 i : ℝ)) (d.dseq_in i)) →
      ∃ H HP, HasEntropy Q H ∧ HasEntropy (fun A : Digraphs n Bool => probDBCM x y A.1) HP ∧
        H ≤ HP + p.tol * ∑ i, (x i * |Real.log (x i)| + y i * |Real.log (y i)|)) := by
  intro R h
  obtain ⟨x, y, hx, hy, px, py⟩ := C16_dcm_run e he hr hsum g me.name name adj ma ga p hl h
  obtain ⟨t, x', y', ht, hx', hy', hc⟩ := C13_dcm_named e he hr hsum g me hme name adj ma ga p hf hl h
  obtain rfl : x = x' := Option.some.inj (hx.symm.trans hx')
  obtain rfl : y = y' := Option.some.inj (hy.symm.trans hy')
  refine ⟨t, x, y, ht, hx, hy, fun hconv Q hQ hm hm' => ?_⟩
  have gx : ∀ i, 0 ≤ x i ∧ (x i = 0 → d.degOut i = 0) := fun i => by
    have := px i
    split_ifs at this with h0
    · exact ⟨this.ge, fun _ => by rw [DData.degOut, h0, Nat.cast_zero]⟩
    · exact ⟨this.le, fun h => absurd h this.ne'⟩
  have gy : ∀ i, 0 ≤ y i ∧ (y i = 0 → d.degIn i = 0) := fun i => by
    have := py i
    split_ifs at this with h0
    · exact ⟨this.ge, fun _ => by rw [DData.degIn, h0, Nat.cast_zero]⟩
    · exact ⟨this.le, fun h => absurd h this.ne'⟩
  obtain ⟨H, HP, h1, h2, h3⟩ := C50_dbcm_gap x y (fun i => (gx i).1) (fun i => (gy i).1) d.degOut d.degIn (fun i => (gx i).2) (fun i => (gy i).2) Q hQ hm hm'
  refine ⟨H, HP, h1, h2, h3.trans (add_le_add le_rfl ?_)⟩
  rw [mul_sum]
  refine sum_le_sum fun i _ => ?_
  rw [mul_add, ← mul_assoc, ← mul_assoc, mul_comm p.tol, mul_comm p.tol]
  exact add_le_add (mul_le_mul_of_nonneg_right (hc hconv i).1 (abs_nonneg _)) (mul_le_mul_of_nonneg_right (hc hconv i).2 (abs_nonneg _))

/-- C50 (dcm_exp), converged run, any initial guess. -/
theorem C50_dcm_exp_run {d : DData n} (e : Env) (g : DAttr d) (me : Method) (hme : me ≠ .fixed_point) (guess : DGuess n) (adj : AdjSpec n) (ma : String)
    (ga : DGuess n) (p : Params) (hf : p.full_return = true) (ht0 : 0 ≤ p.tol) :
    let R := solve_tool_directed e g "dcm_exp" me.name guess adj ma ga p
    R.exc = none → ∃ t x y, R.g.trace = some t ∧ R.g.x = some x ∧ R.g.y = some y ∧ (t.Converged p → ∀ Q : Digraphs n Bool → ℝ, IsLaw Q →
      (∀ i, HasMean Q (fun A => (degree A.1 i : ℝ)) (d.dseq_out i)) → (∀ i, HasMean Q (fun A => (inDegree A.1 i : ℝ)) (d.dseq_in i)) →
      ∃ H HP, HasEntropy Q H ∧ HasEntropy (fun A : Digraphs n Bool => probDBCM (active d.degOut x) (active d.degIn y) A.1) HP ∧
        H ≤ HP + p.tol * ∑ i, (|Real.log (x i)| + |Real.log (y i)|)) := by
  intro R h
  obtain ⟨t, x, y, ht, hx, hy, hc⟩ := C13_dcm_exp e g me hme guess adj ma ga p hf ht0 h
  have pxy : ∀ i, 0 < x i ∧ 0 < y i := by
    obtain ⟨me', x0, s, hm, -, hs, hG, -⟩ := solve_tool_ok_dcm_exp e g me.name guess adj ma ga p h
    have k1 : R.g.x = some fun i => Real.exp (-s.x (0, d.inv i)) := by rw [show R = _ from hG]; exact keepsD DAttr.x (fun _ => rfl) _
    have k2 : R.g.y = some fun i => Real.exp (-s.x (1, d.inv i)) := by rw [show R = _ from hG]; exact keepsD DAttr.y (fun _ => rfl) _
    intro i
    rw [← Option.some.inj (k1.symm.trans hx), ← Option.some.inj (k2.symm.trans hy)]
    exact ⟨Real.exp_pos _, Real.exp_pos _⟩
  refine ⟨t, x, y, ht, hx, hy, fun hconv Q hQ hm hm' => ?_⟩
  have ax : ∀ (k z : Fin n → ℝ), (∀ i, 0 < z i) → ∀ i, 0 ≤ active k z i ∧ (active k z i = 0 → k i = 0) ∧ |Real.log (active k z i)| ≤ |Real.log (z i)| := by
    intro k z hz i
    unfold active
    split_ifs with h
    · simp [h]
    · exact ⟨(hz i).le, fun h' => absurd h' (hz i).ne', le_rfl⟩
  have gx := ax d.degOut x fun i => (pxy i).1
  have gy := ax d.degIn y fun i => (pxy i).2
  obtain ⟨H, HP, h1, h2, h3⟩ := C50_dbcm_gap _ _ (fun i => (gx i).1) (fun i => (gy i).1) d.degOut d.degIn (fun i => (gx i).2.1) (fun i => (gy i).2.1) Q hQ hm hm'
  refine ⟨H, HP, h1, h2, h3.trans (add_le_add le_rfl ?_)⟩
  rw [mul_sum]
  refine sum_le_sum fun i _ => ?_
  rw [mul_add]
  exact add_le_add (mul_le_mul (hc hconv i).1 (gx i).2.2 (abs_nonneg _) ht0) (mul_le_mul (hc hconv i).2 (gy i).2.2 (abs_nonneg _) ht0)

/-- C50 (ecm_exp), converged run. -/
theorem C50_ecm_exp_run {d : UData n} (e : Env) (he : e.Valid) (hr : e.NonzeroDraws) (hd : d.Pos) (g : UAttr d) (me : Method) (hme : me ≠ .fixed_point)
    (name : String) (adj : AdjSpec n) (ma : String) (ga : Guess n) (p : Params) (hf : p.full_return = true) (hl : p.linsearch = true) :
    let R := solve_tool e g "ecm_exp" me.name (.name name) adj ma ga p
    R.exc = none → ∃ t x y, R.g.trace = some t ∧ R.g.x = some x ∧ R.g.y = some y ∧ (t.Converged p → ∀ Q : Graphs n ℕ → ℝ, IsLaw Q →
      (∀ i, HasMean Q (fun W => (degree W.1 i : ℝ)) (d.dseq i)) → (∀ i, HasMean Q (fun W => (strength W.1 i : ℝ)) (d.strength_sequence i)) →
      ∃ H HP, HasEntropy Q H ∧ HasEntropy (fun W : Graphs n ℕ => probUECM x y W.1) HP ∧
        H ≤ HP + p.tol * ∑ i, (|Real.log (x i)| + |Real.log (y i)|)) := by
  intro R h
  obtain ⟨x, y, hx, hy, px, py, hxy⟩ := C16_ecm_exp_run e he hr hd g me.name name adj ma ga p hl h
  obtain ⟨t, x', y', ht, hx', hy', hc⟩ := C13_ecm_exp_named e he hr hd g me hme name adj ma ga p hf hl h
  obtain rfl : x = x' := Option.some.inj (hx.symm.trans hx')
  obtain rfl : y = y' := Option.some.inj (hy.symm.trans hy')
  refine ⟨t, x, y, ht, hx, hy, fun hconv Q hQ hm hm' => ?_⟩
  obtain ⟨H, HP, h1, h2, h3⟩ := C50_uecm_gap x y (fun i => (px i).le) (fun i => (py i).le) hxy d.deg d.strength_sequence
    (fun i h => by rcases h with h | h <;> [exact absurd h (px i).ne'; exact absurd h (py i).ne']) Q hQ hm hm'
  refine ⟨H, HP, h1, h2, h3.trans (add_le_add le_rfl ?_)⟩
  rw [mul_sum]
  refine sum_le_sum fun i _ => ?_
  rw [mul_add]
  exact add_le_add (mul_le_mul_of_nonneg_right (hc hconv i).1 (abs_nonneg _)) (mul_le_mul_of_nonneg_right (hc hconv i).2 (abs_nonneg _))

/-- C50 (decm_exp), converged run. -/
theorem C50_decm_exp_run {d : DData n} (e : Env) (he : e.Valid) (hr : e.NonzeroDraws) (hd : d.Spread)
    (hii : ∀ i, d.out_strength i < ∑ k, d.out_strength k ∨ d.in_strength i < ∑ k, d.in_strength k) (g : DAttr d) (me : Method) (hme : me ≠ .fixed_point)
    (name : String) (adj : AdjSpec n) (ma : String) (ga : DGuess n) (p : Params) (hf : p.full_return = true) (hl : p.linsearch = true) :
    let R := solve_tool_directed e g "decm_exp" me.name (.name name) adj ma ga p
    R.exc = none → ∃ t x y bo bi, R.g.trace = some t ∧ R.g.x = some x ∧ R.g.y = some y ∧ R.g.b_out = some bo ∧ R.g.b_in = some bi ∧
      (t.Converged p → ∀ Q : Digraphs n ℕ → ℝ, IsLaw Q → (∀ i, HasMean Q (fun W => (degree W.1 i : ℝ)) (d.dseq_out i)) →
      (∀ i, HasMean Q (fun W => (inDegree W.1 i : ℝ)) (d.dseq_in i)) → (∀ i, HasMean Q (fun W => (strength W.1 i : ℝ)) (d.out_strength i)) →
      (∀ i, HasMean Q (fun W => (inStrength W.1 i : ℝ)) (d.in_strength i)) →
      ∃ H HP, HasEntropy Q H ∧ HasEntropy (fun W : Digraphs n ℕ => probDECM x y bo bi W.1) HP ∧
        H ≤ HP + p.tol * ∑ i, (|Real.log (x i)| + |Real.log (y i)| + |Real.log (bo i)| + |Real.log (bi i)|)) := by
  intro R h
  obtain ⟨x, y, bo, bi, hx, hy, hbo, hbi, pos, hxy⟩ := C16_decm_exp_run e he hr hd hii g me.name name adj ma ga p hl h
  obtain ⟨t, x', y', bo', bi', ht, hx', hy', hbo', hbi', hc⟩ := C13_decm_exp_named e he hr hd hii g me hme name adj ma ga p hf hl h
  obtain rfl : x = x' := Option.some.inj (hx.symm.trans hx')
  obtain rfl : y = y' := Option.some.inj (hy.symm.trans hy')
  obtain rfl : bo = bo' := Option.some.inj (hbo.symm.trans hbo')
  obtain rfl : bi = bi' := Option.some.inj (hbi.symm.trans hbi')
  refine ⟨t, x, y, bo, bi, ht, hx, hy, hbo, hbi, fun hconv Q hQ m1 m2 m3 m4 => ?_⟩
  obtain ⟨H, HP, h1, h2, h3⟩ := C50_decm_gap x y bo bi (fun i => (pos i).1.le) (fun i => (pos i).2.1.le) (fun i => (pos i).2.2.1.le) (fun i => (pos i).2.2.2.le)
    (fun i j _ => hxy i j) d.degOut d.degIn d.out_strength d.in_strength
    (fun i h => by rcases h with h | h <;> [exact absurd h (pos i).1.ne'; exact absurd h (pos i).2.2.1.ne'])
    (fun i h => by rcases h with h | h <;> [exact absurd h (pos i).2.1.ne'; exact absurd h (pos i).2.2.2.ne']) Q hQ m1 m2 m3 m4
  refine ⟨H, HP, h1, h2, h3.trans (add_le_add le_rfl ?_)⟩
  rw [mul_sum]
  refine sum_le_sum fun i _ => ?_
  rw [mul_add, mul_add, mul_add]
  obtain ⟨c1, c2, c3, c4⟩ := hc hconv i
  exact add_le_add (add_le_add (add_le_add (mul_le_mul_of_nonneg_right c1 (abs_nonneg _)) (mul_le_mul_of_nonneg_right c2 (abs_nonneg _)))
    (mul_le_mul_of_nonneg_right c3 (abs_nonneg _))) (mul_le_mul_of_nonneg_right c4 (abs_nonneg _))

end Verif.Solve
