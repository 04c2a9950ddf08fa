import Verif.Props.Likelihood
import Verif.Props.SamplerLaw
import Verif.Props.SolveU4

/-!
Property C49: densities of the conditional reconstruction models; probability that the sampler returns a given graph; the value of `model_loglikelihood`.
-/

namespace Verif.Spec

open Finset

variable {n : ℕ}

theorem log_expLaw {b : ℝ} (hb : 0 < b) (w : ℝ) : 0 < expLaw b w ∧ Real.log (expLaw b w) = Real.log b - b * w := by
  refine ⟨mul_pos hb (Real.exp_pos _), ?_⟩
  rw [expLaw, Real.log_mul hb.ne' (Real.exp_pos _).ne', Real.log_exp]; ring

end Verif.Spec

namespace Verif.Solve

open Finset Spec

variable {n : ℕ}

/-- C49 (crema): on a graph `A` the log-likelihood of the code is the log-density of any weights on its links that have the observed strengths. -/
theorem C49_crema_log_density (A : Fin n → Fin n → Bool) (hA : IsGraph A) (w : Fin n → Fin n → ℝ) (hw : ∀ i j, w i j = w j i) (h0 : ∀ i j, A i j = false → w i j = 0)
    (s β : Fin n → ℝ) (hs : ∀ i, s i = ∑ j, w i j) (hβ : ∀ i j, A i j = true → 0 < β i + β j) :
    0 < densCReMa A β w ∧ CReMa.loglikelihood_crema_undirected β s (triuEdges (indicator A)) = Real.log (densCReMa A β w) := by
  have hpos : ∀ i j, 0 < (if A i j = true then expLaw (β i + β j) (w i j) else 1 : ℝ) := fun i j => by
    split_ifs with h
    · exact (log_expLaw (hβ i j h) _).1
    · exact one_pos
  refine ⟨prod_pos fun i _ => prod_pos fun j _ => hpos i j, ?_⟩
  rw [ll_crema_spec _ (fun i j => by rw [indicator, indicator, hA.symm]) (fun i => by rw [indicator, hA.loopless]; rfl), logCReMa, densCReMa,
    Real.log_prod (fun i _ => (prod_pos fun j _ => hpos i j).ne')]
  have h1 : ∑ i, s i * β i = ∑ i, ∑ j ∈ univ.filter (· < i), w i j * (β i + β j) := by
    have e : ∀ i, s i * β i = ∑ j, if i = j then 0 else w i j * β i := by
      intro i
      rw [hs, sum_mul]
      refine sum_congr rfl fun j _ => ?_
      by_cases h : i = j
      · subst h; rw [if_pos rfl, h0 i i (hA.loopless i), zero_mul]
      · rw [if_neg h]
    simp only [e]
    rw [ECM.sum_lt_pairs (fun i j => w i j * β i)]
    refine sum_congr rfl fun i _ => ?_
    rw [sum_filter]
    refine sum_congr rfl fun j _ => ?_
    by_cases h : j < i
    · rw [if_pos h, if_pos h, hw j i]; ring
    · rw [if_neg h, if_neg h]
  rw [h1, ← sum_neg_distrib, ← sum_add_distrib]
  refine sum_congr rfl fun i _ => ?_
  rw [Real.log_prod (fun j _ => (hpos i j).ne'), ← sum_neg_distrib, ← sum_add_distrib]
  refine sum_congr rfl fun j _ => ?_
  by_cases h : A i j = true
  · rw [if_pos h, (log_expLaw (hβ i j h) _).2, indicator, if_pos h]; ring
  · rw [if_neg h, indicator, if_neg h, h0 i j (by simpa using h)]; simp

/-- C49 (crema, directed) -/
theorem C49_dcrema_log_density (d : DData n) (A : Fin n → Fin n → Bool) (w : Fin n → Fin n → ℝ) (h0 : ∀ i j, A i j = false → w i j = 0)
    (b : Fin 2 × Fin n → ℝ) (hso : ∀ i, d.out_strength i = ∑ j, w i j) (hsi : ∀ i, d.in_strength i = ∑ j, w j i)
    (hb : ∀ i j, A i j = true → 0 < b (0, i) + b (1, j)) :
    0 < densDCReMa A (fun i => b (0, i)) (fun i => b (1, i)) w ∧
      DCReMa.loglikelihood_crema_directed b d.out_strength d.in_strength (nzEdges (indicator A)) (DCM.nonzero d.out_strength) (DCM.nonzero d.in_strength) =
        Real.log (densDCReMa A (fun i => b (0, i)) (fun i => b (1, i)) w) := by
  have hpos : ∀ i j, 0 < (if A i j = true then expLaw (b (0, i) + b (1, j)) (w i j) else 1 : ℝ) := fun i j => by
    split_ifs with h
    · exact (log_expLaw (hb i j h) _).1
    · exact one_pos
  refine ⟨prod_pos fun i _ => prod_pos fun j _ => hpos i j, ?_⟩
  rw [ll_dcrema_spec, LDCrema, logDCReMa, densDCReMa, Real.log_prod (fun i _ => (prod_pos fun j _ => hpos i j).ne')]
  have h1 : ∑ i, (d.out_strength i * b (0, i) + d.in_strength i * b (1, i)) = ∑ i, ∑ j, w i j * (b (0, i) + b (1, j)) := by
    rw [sum_add_distrib]
    simp only [hso, hsi, sum_mul]
    rw [sum_comm (f := fun i j => w j i * b (1, i)), ← sum_add_distrib]
    refine sum_congr rfl fun i _ => ?_
    rw [← sum_add_distrib]
    exact sum_congr rfl fun j _ => by ring
  rw [h1, ← sum_neg_distrib, ← sum_add_distrib]
  refine sum_congr rfl fun i _ => ?_
  rw [Real.log_prod (fun j _ => (hpos i j).ne'), ← sum_neg_distrib, ← sum_add_distrib]
  refine sum_congr rfl fun j _ => ?_
  by_cases h : A i j = true
  · rw [if_pos h, (log_expLaw (hb i j h) _).2, indicator, if_pos h]; ring
  · rw [if_neg h, indicator, if_neg h, h0 i j (by simpa using h)]; simp

/-- C49, C40: after `solve_tool` on the degrees of a graph `A`, with positive parameters, `model_loglikelihood` returns minus the log-probability of `A`,
a number that is never negative. -/
theorem C49_cm_reported [NeZero n] {d : UData n} (e : Env) (g : UAttr d) (mo : UModel) (hmo : mo = .cm ∨ mo = .cm_exp) (method : String) (guess : Guess n)
    (adj : AdjSpec n) (ma : String) (ga : Guess n) (p : Params) (A : Fin n → Fin n → Bool) (hA : IsGraph A) (hd : ∀ i, d.dseq i = degree A i) :
    let R := solve_tool e g mo.name method guess adj ma ga p
    R.exc = none → ∃ x, R.g.x = some x ∧ ((∀ i, 0 < x i) →
      model_loglikelihood e R.g = .ok (-Real.log (probUBCM x A)) ∧ 0 ≤ -Real.log (probUBCM x A)) := by
  intro R h
  obtain ⟨x, hx, hl⟩ := C40_cm_negated e g mo hmo method guess adj ma ga p h
  refine ⟨x, hx, fun px => ?_⟩
  obtain ⟨h1, h2⟩ := probUBCM_spec A hA x (fun i => (px i).le) (fun i _ => px i)
  refine ⟨?_, ?_⟩
  · rw [show model_loglikelihood e R.g = _ from hl, h2]
    congr 3
    funext i; rw [UData.deg, hd]
  · rw [neg_nonneg]
    refine Real.log_nonpos h1.le (prod_le_one (fun i _ => prod_nonneg fun j _ => ?_) fun i _ => prod_le_one (fun j _ => ?_) fun j _ => ?_)
    all_goals
      have hX : 0 < x i * x j := mul_pos (px i) (px j)
      have hq : 0 ≤ linkUBCM x i j ∧ linkUBCM x i j ≤ 1 := ⟨div_nonneg hX.le (by linarith), (div_le_one (by linarith)).2 (by linarith)⟩
      cases A i j <;> simp only [bern, if_true, Bool.false_eq_true, if_false] <;> linarith [hq.1, hq.2]

end Verif.Solve
