import Mathlib.Analysis.SpecialFunctions.Log.Basic
import Mathlib.Analysis.Convex.SpecificFunctions.Basic
import Mathlib.Tactic.FieldSimp
import Mathlib.Tactic.Linarith
import Mathlib.Tactic.Ring

/-! Tangent inequalities for the one-pair log-partition functions of the models. -/

namespace Verif.Concave

/-- distance between `log(1+exp v')` and its tangent at `v` -/
noncomputable def spGap (v v' : ℝ) : ℝ :=
  Real.log (1 + Real.exp v') - Real.log (1 + Real.exp v) - Real.exp v / (1 + Real.exp v) * (v' - v)

theorem spGap_self (v : ℝ) : spGap v v = 0 := by simp [spGap]

theorem spGap_pos {v v' : ℝ} (h : v ≠ v') : 0 < spGap v v' := by
  have hp : 0 < 1 + Real.exp v := by positivity
  have hp' : 0 < 1 + Real.exp v' := by positivity
  set p := Real.exp v / (1 + Real.exp v) with hpd
  have hp0 : 0 < p := by positivity
  have hp1 : p < 1 := by rw [hpd, div_lt_one hp]; linarith
  have hd : (0 : ℝ) ≠ v' - v := fun h' => h (by linarith)
  have hj := strictConvexOn_exp.2 (Set.mem_univ (0 : ℝ)) (Set.mem_univ (v' - v)) hd (show 0 < 1 - p by linarith) hp0 (by ring)
  simp only [smul_eq_mul, mul_zero, zero_add, Real.exp_zero, mul_one] at hj
  have hq : 1 - p + p * Real.exp (v' - v) = (1 + Real.exp v') / (1 + Real.exp v) := by
    rw [Real.exp_sub, hpd]
    have := Real.exp_pos v
    field_simp
    ring
  rw [hq] at hj
  have := Real.log_lt_log (Real.exp_pos _) hj
  rw [Real.log_exp, Real.log_div hp'.ne' hp.ne'] at this
  unfold spGap
  linarith

theorem spGap_nonneg (v v' : ℝ) : 0 ≤ spGap v v' := by
  by_cases h : v = v'
  · subst h; rw [spGap_self]
  · exact (spGap_pos h).le

theorem spGap_eq_zero {v v' : ℝ} (h : spGap v v' = 0) : v = v' := by
  by_contra hne
  exact (spGap_pos hne).ne' h

/-- `log(b/(1-b))` with `b = exp(-β)`: the log-weight of "link present" relative to "absent" for a unit link parameter -/
noncomputable def hfun (b : ℝ) : ℝ := -b - Real.log (1 - Real.exp (-b))

/-- distance between `hfun` and its tangent -/
noncomputable def hGap (b b' : ℝ) : ℝ := hfun b' - hfun b + 1 / (1 - Real.exp (-b)) * (b' - b)

theorem one_sub_exp_pos {b : ℝ} (hb : 0 < b) : 0 < 1 - Real.exp (-b) := by
  have : Real.exp (-b) < 1 := by rw [Real.exp_lt_one_iff]; linarith
  linarith

theorem hGap_self (b : ℝ) : hGap b b = 0 := by simp [hGap]

theorem hGap_pos {b b' : ℝ} (hb : 0 < b) (hb' : 0 < b') (h : b ≠ b') : 0 < hGap b b' := by
  have h1 := one_sub_exp_pos hb
  have h1' := one_sub_exp_pos hb'
  -- log((1-e')/(1-e)) ≤ (1-e')/(1-e) - 1 < e/(1-e) (b'-b)
  have hlog := Real.log_le_sub_one_of_pos (div_pos h1' h1)
  rw [Real.log_div h1'.ne' h1.ne'] at hlog
  have hE : Real.exp (-b') = Real.exp (-b) * Real.exp (-(b' - b)) := by rw [← Real.exp_add]; congr 1; ring
  have hlt : -(b' - b) + 1 < Real.exp (-(b' - b)) := Real.add_one_lt_exp (by intro h'; exact h (by linarith))
  have hq : (1 - Real.exp (-b')) / (1 - Real.exp (-b)) - 1 < Real.exp (-b) / (1 - Real.exp (-b)) * (b' - b) := by
    have e1 : (1 - Real.exp (-b')) / (1 - Real.exp (-b)) - 1 = Real.exp (-b) / (1 - Real.exp (-b)) * (1 - Real.exp (-(b' - b))) := by
      rw [hE]; field_simp; ring
    rw [e1]
    exact mul_lt_mul_of_pos_left (by linarith) (div_pos (Real.exp_pos _) h1)
  have e2 : 1 / (1 - Real.exp (-b)) * (b' - b) = (b' - b) + Real.exp (-b) / (1 - Real.exp (-b)) * (b' - b) := by
    field_simp; ring
  unfold hGap hfun
  rw [e2]
  linarith

theorem hGap_nonneg {b b' : ℝ} (hb : 0 < b) (hb' : 0 < b') : 0 ≤ hGap b b' := by
  by_cases h : b = b'
  · subst h; rw [hGap_self]
  · exact (hGap_pos hb hb' h).le

/-- log-partition function of one weighted pair: link multiplier sum `a`, weight multiplier sum `b > 0` -/
noncomputable def pairZ (a b : ℝ) : ℝ := Real.log (1 + Real.exp (-a) * (Real.exp (-b) / (1 - Real.exp (-b))))

/-- link probability of one weighted pair -/
noncomputable def pairP (a b : ℝ) : ℝ := Real.exp (-a) * Real.exp (-b) / (1 - Real.exp (-b) + Real.exp (-a) * Real.exp (-b))

theorem pairZ_eq {b : ℝ} (a : ℝ) (hb : 0 < b) : pairZ a b = Real.log (1 + Real.exp (-a + hfun b)) := by
  have h1 := one_sub_exp_pos hb
  unfold pairZ hfun
  rw [Real.exp_add, Real.exp_sub, Real.exp_log h1]

theorem pairP_eq {b : ℝ} (a : ℝ) (hb : 0 < b) : pairP a b = Real.exp (-a + hfun b) / (1 + Real.exp (-a + hfun b)) := by
  have h1 := one_sub_exp_pos hb
  unfold pairP hfun
  rw [Real.exp_add, Real.exp_sub, Real.exp_log h1]
  field_simp

theorem pairP_pos {b : ℝ} (a : ℝ) (hb : 0 < b) : 0 < pairP a b := by
  rw [pairP_eq a hb]; positivity

/-- distance between the pair log-partition function and its tangent -/
noncomputable def pairGap (a b a' b' : ℝ) : ℝ :=
  pairZ a' b' - pairZ a b + pairP a b * ((a' - a) + 1 / (1 - Real.exp (-b)) * (b' - b))

theorem pairGap_eq {a b a' b' : ℝ} (hb : 0 < b) (hb' : 0 < b') :
    pairGap a b a' b' = spGap (-a + hfun b) (-a' + hfun b') + pairP a b * hGap b b' := by
  unfold pairGap spGap hGap
  rw [pairZ_eq a hb, pairZ_eq a' hb', pairP_eq a hb]
  ring

theorem pairGap_nonneg {a b a' b' : ℝ} (hb : 0 < b) (hb' : 0 < b') : 0 ≤ pairGap a b a' b' := by
  rw [pairGap_eq hb hb']
  exact add_nonneg (spGap_nonneg _ _) (mul_nonneg (pairP_pos a hb).le (hGap_nonneg hb hb'))

theorem pairGap_eq_zero {a b a' b' : ℝ} (hb : 0 < b) (hb' : 0 < b') (h : pairGap a b a' b' = 0) : a = a' ∧ b = b' := by
  rw [pairGap_eq hb hb'] at h
  have h1 := spGap_nonneg (-a + hfun b) (-a' + hfun b')
  have h2 := mul_nonneg (pairP_pos a hb).le (hGap_nonneg hb hb')
  have e2 : pairP a b * hGap b b' = 0 := by linarith
  have e1 : spGap (-a + hfun b) (-a' + hfun b') = 0 := by linarith
  have hbb : b = b' := by
    by_contra hne
    exact (mul_pos (pairP_pos a hb) (hGap_pos hb hb' hne)).ne' e2
  have := spGap_eq_zero e1
  subst hbb
  exact ⟨by linarith, rfl⟩

end Verif.Concave
