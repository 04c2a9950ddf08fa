import Verif.Lemmas.Checked3
import Verif.Props.Checked3
import Verif.Props.ZeroNodes

/-! C79 for `decm`: where its functions divide by zero, a network on which every method does, and the runs on which none does. -/

set_option linter.unusedSectionVars false

namespace Verif.Checked

open Verif Finset Reduction Solver Spec Solve EM

noncomputable section

open Classical in
attribute [local instance 0] propDecidable

variable {n : ℕ} [NeZero n]

theorem four_not {A B C D : Prop} {a b c d : ℝ} : ((A ∧ a = 0) ∨ (B ∧ b = 0) ∨ (C ∧ c = 0) ∨ (D ∧ d = 0)) ↔ ¬((A → a ≠ 0) ∧ (B → b ≠ 0) ∧ (C → c ≠ 0) ∧ (D → d ≠ 0)) := by
  tauto

/-- the functions of `decm` -/
theorem C79_where_decm (z : DECM.Vec n) (ko ki so si : Fin n → ℝ) :
    let x := fun i => z (0, i)
    let y := fun i => z (1, i)
    let a := fun i => z (2, i)
    let b := fun i => z (3, i)
    let D := fun i j => 1 - a i * b j + x i * y j * (a i * b j)
    let pair := ∃ i j, i ≠ j ∧ (a i * b j = 1 ∨ D i j = 0)
    let zero := ∃ i, (ko i ≠ 0 ∧ x i = 0) ∨ (ki i ≠ 0 ∧ y i = 0) ∨ (so i ≠ 0 ∧ a i = 0) ∨ (si i ≠ 0 ∧ b i = 0)
    let sums := ∃ i, (ko i ≠ 0 ∧ ∑ j, (if i = j then 0 else a i * b j * y j / D i j) = 0) ∨ (ki i ≠ 0 ∧ ∑ j, (if i = j then 0 else a j * b i * x j / D j i) = 0) ∨
      (so i ≠ 0 ∧ ∑ j, (if i = j then 0 else b j / (1 - a i * b j) + b j * (x i * y j - 1) / D i j) = 0) ∨
      (si i ≠ 0 ∧ ∑ j, (if i = j then 0 else a j / (1 - a j * b i) + a j * (x j * y i - 1) / D j i) = 0)
    ((loglikelihood_prime_decm z ko ki so si = none ↔ zero ∨ pair) ∧
      (¬(zero ∨ pair) → loglikelihood_prime_decm z ko ki so si = some (DECM.loglikelihood_prime_decm z ko ki so si))) ∧
    ((loglikelihood_hessian_decm z ko ki so si = none ↔ zero ∨ pair) ∧
      (¬(zero ∨ pair) → loglikelihood_hessian_decm z ko ki so si = some (DECM.loglikelihood_hessian_decm z ko ki so si))) ∧
    ((loglikelihood_hessian_diag_decm z ko ki so si = none ↔ zero ∨ pair) ∧
      (¬(zero ∨ pair) → loglikelihood_hessian_diag_decm z ko ki so si = some (DECM.loglikelihood_hessian_diag_decm z ko ki so si))) ∧
    ((iterative_decm z ko ki so si = none ↔ sums ∨ pair) ∧ (¬(sums ∨ pair) → iterative_decm z ko ki so si = some (DECM.iterative_decm z ko ki so si))) ∧
    ((expected_decm z = none ↔ pair) ∧ (¬pair → expected_decm z = some (DECM.expected_decm z))) := by
  intro x y a b D pair zero sums
  have hp : ∀ i j, ¬PairDECM z i j ↔ (a i * b j = 1 ∨ D i j = 0) := fun i j => by
    have : 1 - z (2, i) * z (3, j) = 0 ↔ z (2, i) * z (3, j) = 1 := ⟨fun h => by linarith, fun h => by linarith⟩
    unfold PairDECM
    simp only [x, y, a, b, D]
    rw [← this]
    tauto
  have h2 : pair ↔ ¬∀ i j, i ≠ j → PairDECM z i j := by
    push Not
    simp only [pair, ← hp]
  have h3 : zero ↔ ¬∀ i, NonzeroDECM z ko ki so si i := by
    rw [not_forall]
    exact exists_congr fun i => four_not
  have h1 : zero ∨ pair ↔ ¬((∀ i j, i ≠ j → PairDECM z i j) ∧ ∀ i, NonzeroDECM z ko ki so si i) := by rw [h2, h3, ← not_and_or, and_comm]
  have e1 : ∀ i, DECM.fa_out z i = ∑ j, (if i = j then 0 else a i * b j * y j / D i j) := fun i => by
    rw [DECM.fa_out_eq]
    refine sum_congr rfl fun j _ => ?_
    by_cases h : i = j
    · simp [h]
    · simp only [if_neg h, DECM.P, a, b, x, y, D]; ring_nf
  have e2 : ∀ i, DECM.fa_in z i = ∑ j, (if i = j then 0 else a j * b i * x j / D j i) := fun i => by
    rw [DECM.fa_in_eq]
    refine sum_congr rfl fun j _ => ?_
    by_cases h : i = j
    · simp [h]
    · simp only [if_neg h, DECM.P, a, b, x, y, D]; ring_nf
  have e3 : ∀ i, DECM.fb_out z i = ∑ j, (if i = j then 0 else b j / (1 - a i * b j) + b j * (x i * y j - 1) / D i j) := fun i => by
    rw [DECM.fb_out_eq]
    refine sum_congr rfl fun j _ => ?_
    by_cases h : i = j
    · simp [h]
    · simp only [if_neg h, DECM.Q, a, b, x, y, D]; ring_nf
  have e4 : ∀ i, DECM.fb_in z i = ∑ j, (if i = j then 0 else a j / (1 - a j * b i) + a j * (x j * y i - 1) / D j i) := fun i => by
    rw [DECM.fb_in_eq]
    refine sum_congr rfl fun j _ => ?_
    by_cases h : i = j
    · simp [h]
    · simp only [if_neg h, DECM.Q, a, b, x, y, D]; ring_nf
  have h4 : sums ∨ pair ↔ ¬((∀ i j, i ≠ j → PairDECM z i j) ∧
      ∀ i, (ko i ≠ 0 → DECM.fa_out z i ≠ 0) ∧ (ki i ≠ 0 → DECM.fa_in z i ≠ 0) ∧ (so i ≠ 0 → DECM.fb_out z i ≠ 0) ∧ (si i ≠ 0 → DECM.fb_in z i ≠ 0)) := by
    have : sums ↔ ¬∀ i, (ko i ≠ 0 → DECM.fa_out z i ≠ 0) ∧ (ki i ≠ 0 → DECM.fa_in z i ≠ 0) ∧ (so i ≠ 0 → DECM.fb_out z i ≠ 0) ∧ (si i ≠ 0 → DECM.fb_in z i ≠ 0) := by
      rw [not_forall]
      refine exists_congr fun i => ?_
      rw [e1 i, e2 i, e3 i, e4 i]
      exact four_not
    rw [this, h2, ← not_and_or, and_comm]
  exact ⟨guard_iff (prime_decm_guard z ko ki so si) h1, guard_iff (hessian_decm_guard z ko ki so si) h1, guard_iff (hessian_diag_decm_guard z ko ki so si) h1,
    guard_iff (iterative_decm_guard z ko ki so si) h4, guard_iff (expected_decm_guard z) h2⟩

section runs
variable {d : DData n}

/-- C79 is false of `decm`: when all the weight is on one link `i → j`, every method started from the guess "strengths" ends with `ZeroDivisionError`. -/
theorem C79_decm_single_link (e : Env) (m : Method) {i j : Fin n} (hij : i ≠ j) (hi : d.out_strength i = ∑ k, d.out_strength k) (hj : d.in_strength j = ∑ k, d.in_strength k)
    (hi0 : d.out_strength i ≠ 0) (hj0 : d.in_strength j ≠ 0) (p : Params) : runDECM e d m (.name "strengths") p = .solver .zeroDivision := by
  obtain ⟨v, guess', h0⟩ : ∃ v guess', guessDECM e d false (.name "strengths") = (.ok v, guess') := by
    simp only [guessDECM, namedDECM, if_true, finishDECM, Bool.false_eq_true, if_false]
    exact ⟨_, _, rfl⟩
  have h1 := C38_decm_single_link e d i j hi hj hi0 hj0 h0
  have hP : ¬∀ i j, i ≠ j → PairDECM v i j := fun h => (h i j hij).2 (by rw [h1, sub_self])
  have hp : (chkDECM d m).fn v = none := by
    cases m with
    | newton => show Option.map _ _ = _; rw [prime_decm_guard, guard_none fun h => hP h.1]; rfl
    | quasinewton => show Option.map _ _ = _; rw [prime_decm_guard, guard_none fun h => hP h.1]; rfl
    | fixed_point => show Checked.iterative_decm _ _ _ _ _ = _; rw [iterative_decm_guard, guard_none fun h => hP h.1]
  unfold runDECM
  rw [h0]
  simp only [solverE_raises hp]

/-- the points `decm` visits -/
def InDECM (d : DData n) (z : DECM.Vec n) : Prop := AdmDECM0 d z ∧ ∀ i j, i ≠ j → z (2, i) * z (3, j) < 1

theorem pair_decm {z : DECM.Vec n} (hz : InDECM d z) {i j : Fin n} (hij : i ≠ j) : PairDECM z i j := by
  have h1 := hz.2 i j hij
  have h2 := mul_nonneg (hz.1.nonneg (0, i)) (hz.1.nonneg (1, j))
  have h3 := mul_nonneg (hz.1.nonneg (2, i)) (hz.1.nonneg (3, j))
  have h4 := mul_nonneg h2 h3
  exact ⟨by nlinarith, by linarith⟩

theorem safe_decm (e : Env) {m : Method} (hm : m ≠ .fixed_point) {z : DECM.Vec n} (hz : InDECM d z) : SafeAt (cbDECM e d m) (chkDECM d m) m.name z := by
  have h : (∀ i j, i ≠ j → PairDECM z i j) ∧ ∀ i, NonzeroDECM z d.degOut d.degIn d.out_strength d.in_strength i :=
    ⟨fun i j hij => pair_decm hz hij, fun i => ⟨fun h => ((hz.1 (0, i)).1 h).ne', fun h => ((hz.1 (1, i)).1 h).ne', fun h => ((hz.1 (2, i)).1 h).ne',
      fun h => ((hz.1 (3, i)).1 h).ne'⟩⟩
  refine ⟨?_, fun _ => ?_, fun _ => ?_⟩
  · cases m with
    | newton => show Option.map _ _ = _; rw [prime_decm_guard, guard_some h]; rfl
    | quasinewton => show Option.map _ _ = _; rw [prime_decm_guard, guard_some h]; rfl
    | fixed_point => exact absurd rfl hm
  · show Option.map _ _ = _
    rw [hessian_decm_guard, guard_some h]; rfl
  · show Option.map _ _ = _
    rw [hessian_diag_decm_guard, guard_some h]; rfl

/-- C79, the part that holds (decm): on a weighted network, empty sides allowed, whose weight is not all on one link, a newton or quasinewton run from a named guess with the line
search on, all of whose recorded step lengths exceed `2 ^ -50`, has divided by zero nowhere, and its expected degrees and strengths are those the call stores. -/
theorem C79_decm_partial (e : Env) (he : e.Valid) (hr : e.NonzeroDraws) (ho : ∀ x : Fin 4 × Fin n → ℝ, e.outside (Fin 4 × Fin n) x = none) (hd : d.Spread) (hw : d.Weighted)
    (m : Method) (hm : m ≠ .fixed_point) (name : String) (g : DAttr d) (adj : AdjSpec n) (ma : String) (ga : DGuess n) (p : Params) (hf : p.full_return = true)
    (hl : p.linsearch = true) :
    let R := solve_tool_directed e g "decm" m.name (.name name) adj ma ga p
    ∀ t, R.exc = none → R.g.trace = some t → (∀ a ∈ t.alfa_seq, (1 / 2 : ℝ) ^ 50 < a) → ∃ x y bo bi s k, R.g.x = some x ∧ R.g.y = some y ∧
      R.g.b_out = some bo ∧ R.g.b_in = some bi ∧
      R.g.expected_dseq = some (outIn (outDegDECM x y bo bi) (inDegDECM x y bo bi)) ∧ R.g.expected_strength_seq = some (outIn (outStrDECM x y bo bi) (inStrDECM x y bo bi)) ∧
      runDECM e d m (.name name) p = .done s k ∧ ∀ i, k (0, i) = outDegDECM x y bo bi i ∧ k (1, i) = inDegDECM x y bo bi i ∧ k (2, i) = outStrDECM x y bo bi i ∧
        k (3, i) = inStrDECM x y bo bi i := by
  intro R t h htr hlong
  obtain ⟨me', v, guess', s, hm', h0, hs, hG⟩ := solve_tool_ok_decm e g m.name (.name name) adj ma ga p h
  have hme' : me' = m := by revert hm'; cases m <;> cases me' <;> simp [Method.name]
  subst hme'
  have hadm : InDECM d v := C38_decm_partial e he hr d hd name h0
  have htrace : R.g.trace = some (.of s) := by
    rw [show R = _ from hG]
    exact (keepsD DAttr.trace (fun _ => rfl) _).trans (by simp [setSolvedDECM, preDECM, hf])
  have ht : t = .of s := Option.some.inj (htr.symm.trans htrace)
  subst ht
  have hstep : ∀ s : State (Fin 4 × Fin n), ∀ dx alfa, InDECM d s.x → s.f = (cbDECM e d me').fn s.x → direction (cbDECM e d me') (p.opts me'.name) s.x s.f = .ok dx →
      stepLength (cbDECM e d me') (p.opts me'.name) s dx = .ok alfa → (1 / 2 : ℝ) ^ 50 < alfa → InDECM d (s.x + alfa • dx) := fun s dx alfa hP hff hdr hsl hc => by
    obtain ⟨q1, q2⟩ := decm_step0 e he ho hw me' p hl s dx alfa hP.1 hff hdr hsl
    exact ⟨q1, q2 hm hc⟩
  have hE := solverE_eq_alfa (K := chkDECM d me') (by simpa [Params.opts] using hl) _ (InDECM d) (fun x hx => safe_decm e hm hx) hstep hadm hs hlong
  have hA := solver_alfa_inv _ _ (by simpa [Params.opts] using hl) _ (InDECM d) hstep hadm hs hlong
  obtain ⟨x, y, bo, bi, ex, ey, eo, ei, hrep⟩ := C54_decm e g .decm (.inl rfl) me'.name (.name name) adj ma ga p h
  have hx1 : R.g.x = some (blk4 s.x 0) := by rw [show R = _ from hG]; exact keepsD DAttr.x (fun _ => rfl) _
  have hy1 : R.g.y = some (blk4 s.x 1) := by rw [show R = _ from hG]; exact keepsD DAttr.y (fun _ => rfl) _
  have ho1 : R.g.b_out = some (blk4 s.x 2) := by rw [show R = _ from hG]; exact keepsD DAttr.b_out (fun _ => rfl) _
  have hi1 : R.g.b_in = some (blk4 s.x 3) := by rw [show R = _ from hG]; exact keepsD DAttr.b_in (fun _ => rfl) _
  obtain rfl : x = blk4 s.x 0 := Option.some.inj (ex.symm.trans hx1)
  obtain rfl : y = blk4 s.x 1 := Option.some.inj (ey.symm.trans hy1)
  obtain rfl : bo = blk4 s.x 2 := Option.some.inj (eo.symm.trans ho1)
  obtain rfl : bi = blk4 s.x 3 := Option.some.inj (ei.symm.trans hi1)
  obtain ⟨r1, r2, -⟩ := hrep (fun i => hA.1.nonneg _) (fun i => hA.1.nonneg _) (fun i => hA.1.nonneg _) (fun i => hA.1.nonneg _) hA.2
  refine ⟨_, _, _, _, s, DECM.expected_decm s.x, hx1, hy1, ho1, hi1, r1, r2, ?_, fun i => expected_decm_spec s.x hA.1.nonneg hA.2 i⟩
  unfold runDECM
  rw [h0]
  dsimp only
  rw [hE]
  simp only [expected_decm_guard, guard_some fun i j hij => pair_decm hA hij]

end runs

end

end Verif.Checked
