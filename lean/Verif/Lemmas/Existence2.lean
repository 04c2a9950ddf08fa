import Verif.Lemmas.Existence

/-! Existence of solutions of the enhanced models: the sum over pairs of `log (1 + exp (-u) / (1 - exp (-b))) + p u + (w - p) b` with `0 < p < 1` and `p < w` has a minimum
over the variables with positive `b` when bounds on the pair sums bound the variables. -/

namespace Verif.Existence

open Finset

noncomputable section

/-- probability of a link -/
def lnk (u b : ℝ) : ℝ := Real.exp (-u) / (1 - Real.exp (-b) + Real.exp (-u))

/-- mean weight of a link beyond the first unit -/
def exc (u b : ℝ) : ℝ := lnk u b * Real.exp (-b) / (1 - Real.exp (-b))

def g (p r u b : ℝ) : ℝ := Real.log (1 + Real.exp (-u) / (1 - Real.exp (-b))) + p * u + r * b

theorem one_sub_pos {b : ℝ} (hb : 0 < b) : 0 < 1 - Real.exp (-b) := by
  have : Real.exp (-b) < 1 := by rw [← Real.exp_zero]; exact Real.exp_lt_exp.2 (by linarith)
  linarith

theorem g_ge {p r : ℝ} (u : ℝ) {b : ℝ} (hb : 0 < b) : f p u + r * b ≤ g p r u b := by
  have h1 := one_sub_pos hb
  have h2 : 1 - Real.exp (-b) ≤ 1 := by linarith [Real.exp_pos (-b)]
  have hu := Real.exp_pos (-u)
  have h3 : Real.exp (-u) ≤ Real.exp (-u) / (1 - Real.exp (-b)) := by rw [le_div_iff₀ h1]; nlinarith
  have := Real.log_le_log (by positivity) (add_le_add_right h3 1)
  unfold f g
  linarith

theorem g_nonneg {p r : ℝ} (h0 : 0 < p) (h1 : p < 1) (hr : 0 < r) (u : ℝ) {b : ℝ} (hb : 0 < b) : 0 ≤ g p r u b :=
  le_trans (add_nonneg (f_nonneg h0 h1 u) (mul_nonneg hr.le hb.le)) (g_ge u hb)

/-- a bound on the value bounds `u` and `b`, and keeps `b` away from zero -/
theorem g_level {p r : ℝ} (h0 : 0 < p) (h1 : p < 1) (hr : 0 < r) {u b L : ℝ} (hb : 0 < b) (h : g p r u b ≤ L) :
    |u| ≤ L / min p (1 - p) ∧ b ≤ L / r ∧ Real.exp (-(L + L / min p (1 - p))) ≤ b := by
  have hm : 0 < min p (1 - p) := lt_min h0 (by linarith)
  have h2 := f_ge h0 h1 u
  have h3 := f_nonneg h0 h1 u
  have h4 := g_ge (p := p) (r := r) u hb
  have h5 := mul_pos hr hb
  have hU : |u| ≤ L / min p (1 - p) := by rw [le_div_iff₀ hm]; linarith
  refine ⟨hU, by rw [le_div_iff₀ hr]; linarith, ?_⟩
  have hs := one_sub_pos hb
  have h6 : Real.log (Real.exp (-u) / (1 - Real.exp (-b))) ≤ Real.log (1 + Real.exp (-u) / (1 - Real.exp (-b))) :=
    Real.log_le_log (by positivity) (by linarith)
  rw [Real.log_div (Real.exp_pos _).ne' hs.ne', Real.log_exp] at h6
  have h7 : -(L + L / min p (1 - p)) ≤ Real.log (1 - Real.exp (-b)) := by
    have h8 : u - p * u ≤ |u| := by
      have : (1 - p) * u ≤ |u| := by
        rcases le_total 0 u with hu | hu
        · rw [abs_of_nonneg hu]; nlinarith
        · rw [abs_of_nonpos hu]; nlinarith
      linarith
    unfold g at h
    linarith
  have h9 := (Real.le_log_iff_exp_le hs).1 h7
  have h10 := Real.add_one_le_exp (-b)
  linarith

theorem g_deriv_u (p r u m : ℝ) {b : ℝ} (hb : 0 < b) : HasDerivAt (fun t => g p r (u + t * m) b) ((p - lnk u b) * m) 0 := by
  have hs := one_sub_pos hb
  have h1 : HasDerivAt (fun t : ℝ => u + t * m) m 0 := by simpa using ((hasDerivAt_id (0 : ℝ)).mul_const m).const_add u
  have h2 : HasDerivAt (fun t : ℝ => 1 + Real.exp (-(u + t * m)) / (1 - Real.exp (-b))) (Real.exp (-(u + 0 * m)) * -m / (1 - Real.exp (-b))) 0 :=
    ((h1.neg.exp).div_const _).const_add 1
  have h3 := h2.log (by have := Real.exp_pos (-(u + 0 * m)); positivity)
  have h4 := (h3.add (h1.const_mul p)).add_const (r * b)
  have e : Real.exp (-(u + 0 * m)) * -m / (1 - Real.exp (-b)) / (1 + Real.exp (-(u + 0 * m)) / (1 - Real.exp (-b))) + p * m = (p - lnk u b) * m := by
    have hu := Real.exp_pos (-u)
    simp only [zero_mul, add_zero, lnk]
    field_simp
    ring
  rw [e] at h4
  exact h4

theorem g_deriv_b (p r u m : ℝ) {b : ℝ} (hb : 0 < b) : HasDerivAt (fun t => g p r u (b + t * m)) ((r - exc u b) * m) 0 := by
  have hs := one_sub_pos hb
  have h1 : HasDerivAt (fun t : ℝ => b + t * m) m 0 := by simpa using ((hasDerivAt_id (0 : ℝ)).mul_const m).const_add b
  have h2 : HasDerivAt (fun t : ℝ => 1 - Real.exp (-(b + t * m))) (-(Real.exp (-(b + 0 * m)) * -m)) 0 := (h1.neg.exp).const_sub 1
  have hs' : 1 - Real.exp (-(b + 0 * m)) ≠ 0 := by simpa using hs.ne'
  have h3 : HasDerivAt (fun t : ℝ => 1 + Real.exp (-u) / (1 - Real.exp (-(b + t * m))))
      ((0 * (1 - Real.exp (-(b + 0 * m))) - Real.exp (-u) * -(Real.exp (-(b + 0 * m)) * -m)) / (1 - Real.exp (-(b + 0 * m))) ^ 2) 0 :=
    ((hasDerivAt_const (0 : ℝ) (Real.exp (-u))).div h2 hs').const_add 1
  have hu := Real.exp_pos (-u)
  have h4 := h3.log (by simp only [zero_mul, add_zero]; positivity)
  have h5 := (h4.add_const (p * u)).add (h1.const_mul r)
  have e : (0 * (1 - Real.exp (-(b + 0 * m))) - Real.exp (-u) * -(Real.exp (-(b + 0 * m)) * -m)) / (1 - Real.exp (-(b + 0 * m))) ^ 2 /
      (1 + Real.exp (-u) / (1 - Real.exp (-(b + 0 * m)))) + r * m = (r - exc u b) * m := by
    simp only [zero_mul, add_zero, exc, lnk]
    have h6 : 1 - Real.exp (-b) + Real.exp (-u) ≠ 0 := by positivity
    field_simp
    ring
  rw [e] at h5
  exact h5

variable {ι : Type} [Fintype ι] [DecidableEq ι]

theorem exists_min2 (E : Finset (ι × ι)) (P R : ι × ι → ℝ) (hP : ∀ e ∈ E, 0 < P e ∧ P e < 1) (hR : ∀ e ∈ E, 0 < R e) (S : Finset ι)
    (hbound : ∀ C : ℝ, ∃ B : ℝ, ∀ θ : ι → ℝ, (∀ v ∉ S, θ v = 0) → (∀ e ∈ E, |θ e.1 + θ e.2| ≤ C) → ∀ v ∈ S, |θ v| ≤ B)
    (β₀ : ι → ℝ) (hβ₀ : ∀ v ∉ S, β₀ v = 0) (hβ₀E : ∀ e ∈ E, 0 < β₀ e.1 + β₀ e.2) :
    ∃ τ β : ι → ℝ, (∀ v ∉ S, τ v = 0) ∧ (∀ v ∉ S, β v = 0) ∧ (∀ e ∈ E, 0 < β e.1 + β e.2) ∧
      (∀ v ∈ S, ∑ e ∈ E, (P e - lnk (τ e.1 + τ e.2) (β e.1 + β e.2)) * ((if e.1 = v then 1 else 0) + (if e.2 = v then 1 else 0)) = 0) ∧
      ∀ v ∈ S, ∑ e ∈ E, (R e - exc (τ e.1 + τ e.2) (β e.1 + β e.2)) * ((if e.1 = v then 1 else 0) + (if e.2 = v then 1 else 0)) = 0 := by
  set G : (ι → ℝ) × (ι → ℝ) → ℝ := fun z => ∑ e ∈ E, g (P e) (R e) (z.1 e.1 + z.1 e.2) (z.2 e.1 + z.2 e.2) with hG
  set L := G (0, β₀) with hL
  have hmin : ∀ e ∈ E, 0 < min (P e) (1 - P e) := fun e he => lt_min (hP e he).1 (by linarith [(hP e he).2])
  have hG0 : ∀ z : (ι → ℝ) × (ι → ℝ), (∀ e ∈ E, 0 < z.2 e.1 + z.2 e.2) → 0 ≤ G z := fun z hz =>
    sum_nonneg fun e he => g_nonneg (hP e he).1 (hP e he).2 (hR e he) _ (hz e he)
  have hL0 : 0 ≤ L := hG0 (0, β₀) hβ₀E
  set C := ∑ e ∈ E, (L / min (P e) (1 - P e) + L / R e) with hC
  have hterm : ∀ e ∈ E, L / min (P e) (1 - P e) + L / R e ≤ C := fun e he =>
    single_le_sum (f := fun e => L / min (P e) (1 - P e) + L / R e) (fun e he => add_nonneg (div_nonneg hL0 (hmin e he).le) (div_nonneg hL0 (hR e he).le)) he
  set δ := Real.exp (-(L + C)) with hδ
  have hδ0 : 0 < δ := Real.exp_pos _
  have hlev : ∀ z : (ι → ℝ) × (ι → ℝ), (∀ e ∈ E, 0 < z.2 e.1 + z.2 e.2) → G z ≤ L → ∀ e ∈ E, |z.1 e.1 + z.1 e.2| ≤ C ∧ z.2 e.1 + z.2 e.2 ≤ C ∧ δ ≤ z.2 e.1 + z.2 e.2 := fun z hz hle e he => by
    have h1 : g (P e) (R e) (z.1 e.1 + z.1 e.2) (z.2 e.1 + z.2 e.2) ≤ L :=
      (single_le_sum (f := fun e => g (P e) (R e) (z.1 e.1 + z.1 e.2) (z.2 e.1 + z.2 e.2)) (fun e he => g_nonneg (hP e he).1 (hP e he).2 (hR e he) _ (hz e he)) he).trans hle
    obtain ⟨a1, a2, a3⟩ := g_level (hP e he).1 (hP e he).2 (hR e he) (hz e he) h1
    have h2 := hterm e he
    have h3 := div_nonneg hL0 (hmin e he).le
    have h4 := div_nonneg hL0 (hR e he).le
    refine ⟨by linarith, by linarith, le_trans (Real.exp_le_exp.2 (by linarith)) a3⟩
  obtain ⟨B, hB⟩ := hbound C
  set J : ι → Set ℝ := fun v => Set.Icc (-(if v ∈ S then max B 0 else 0)) (if v ∈ S then max B 0 else 0) with hJ
  set K : Set ((ι → ℝ) × (ι → ℝ)) := (Set.pi Set.univ J ×ˢ Set.pi Set.univ J) ∩ {z | ∀ e ∈ E, δ ≤ z.2 e.1 + z.2 e.2} with hK
  have hcl : IsClosed {z : (ι → ℝ) × (ι → ℝ) | ∀ e ∈ E, δ ≤ z.2 e.1 + z.2 e.2} := by
    have : {z : (ι → ℝ) × (ι → ℝ) | ∀ e ∈ E, δ ≤ z.2 e.1 + z.2 e.2} = ⋂ e ∈ E, {z | δ ≤ z.2 e.1 + z.2 e.2} := by ext z; simp
    rw [this]
    exact isClosed_biInter fun e _ => isClosed_le continuous_const (by fun_prop)
  have hKc : IsCompact K := ((isCompact_univ_pi fun v => isCompact_Icc).prod (isCompact_univ_pi fun v => isCompact_Icc)).inter_right hcl
  have hpi : ∀ θ : ι → ℝ, (∀ v ∉ S, θ v = 0) → (∀ v ∈ S, |θ v| ≤ B) → θ ∈ Set.pi Set.univ J := fun θ h0 h1 v _ => by
    simp only [hJ]
    by_cases hv : v ∈ S
    · simp only [if_pos hv]; exact abs_le.1 ((h1 v hv).trans (le_max_left _ _))
    · simp only [if_neg hv, h0 v hv]; simp
  have hmem : ∀ z : (ι → ℝ) × (ι → ℝ), (∀ v ∉ S, z.1 v = 0) → (∀ v ∉ S, z.2 v = 0) → (∀ e ∈ E, 0 < z.2 e.1 + z.2 e.2) → G z ≤ L → z ∈ K := fun z h1 h2 h3 h4 => by
    have h5 := hlev z h3 h4
    exact ⟨⟨hpi _ h1 (hB _ h1 fun e he => (h5 e he).1), hpi _ h2 (hB _ h2 fun e he => by
      rw [abs_of_pos (h3 e he)]; exact (h5 e he).2.1)⟩, fun e he => (h5 e he).2.2⟩
  have hcont : ContinuousOn G K := by
    refine continuousOn_finset_sum _ fun e he => ?_
    have hne : ∀ z ∈ K, 0 < 1 - Real.exp (-(z.2 e.1 + z.2 e.2)) := fun z hz => one_sub_pos (lt_of_lt_of_le hδ0 (hz.2 e he))
    unfold g
    refine ContinuousOn.add (ContinuousOn.add (ContinuousOn.log ?_ fun z hz => ?_) (by fun_prop)) (by fun_prop)
    · refine ContinuousOn.add continuousOn_const (ContinuousOn.div (by fun_prop) (by fun_prop) fun z hz => (hne z hz).ne')
    · have h1 := hne z hz
      have h2 := Real.exp_pos (-(z.1 e.1 + z.1 e.2))
      positivity
  have hbase : ((0 : ι → ℝ), β₀) ∈ K := hmem _ (fun _ _ => rfl) hβ₀ hβ₀E le_rfl
  obtain ⟨⟨τ, β⟩, hzK, hz⟩ := hKc.exists_isMinOn ⟨_, hbase⟩ hcont
  have hoff : ∀ θ ∈ Set.pi Set.univ J, ∀ v ∉ S, θ v = 0 := fun θ hθ v hv => by
    have := hθ v trivial
    simp only [hJ, if_neg hv] at this
    exact le_antisymm this.2 (by simpa using this.1)
  have hτ := hoff τ hzK.1.1
  have hβ := hoff β hzK.1.2
  have hpos : ∀ e ∈ E, 0 < β e.1 + β e.2 := fun e he => lt_of_lt_of_le hδ0 (hzK.2 e he)
  have hglob : ∀ z : (ι → ℝ) × (ι → ℝ), (∀ v ∉ S, z.1 v = 0) → (∀ v ∉ S, z.2 v = 0) → (∀ e ∈ E, 0 < z.2 e.1 + z.2 e.2) → G (τ, β) ≤ G z := fun z h1 h2 h3 => by
    rcases le_or_gt (G z) L with h | h
    · exact hz (hmem z h1 h2 h3 h)
    · exact le_trans (hz hbase) h.le
  refine ⟨τ, β, hτ, hβ, hpos, fun v hv => ?_, fun v hv => ?_⟩
  · have hd : HasDerivAt (fun t : ℝ => ∑ e ∈ E, g (P e) (R e) ((τ e.1 + τ e.2) + t * ((if e.1 = v then 1 else 0) + (if e.2 = v then 1 else 0))) (β e.1 + β e.2))
        (∑ e ∈ E, (P e - lnk (τ e.1 + τ e.2) (β e.1 + β e.2)) * ((if e.1 = v then 1 else 0) + (if e.2 = v then 1 else 0))) 0 :=
      HasDerivAt.fun_sum fun e he => g_deriv_u (P e) (R e) _ _ (hpos e he)
    refine IsLocalMin.hasDerivAt_eq_zero (Filter.Eventually.of_forall fun t => ?_) hd
    have e1 : ∀ t : ℝ, (∑ e ∈ E, g (P e) (R e) ((τ e.1 + τ e.2) + t * ((if e.1 = v then 1 else 0) + (if e.2 = v then 1 else 0))) (β e.1 + β e.2)) =
        G (fun w => τ w + if w = v then t else 0, β) := fun t => sum_congr rfl fun e _ => by
      congr 1
      by_cases h1 : e.1 = v <;> by_cases h2 : e.2 = v <;> simp only [h1, h2, if_true, if_false] <;> ring
    rw [e1 t, e1 0]
    have e2 : (fun w => τ w + if w = v then (0 : ℝ) else 0) = τ := by funext w; simp
    rw [e2]
    refine hglob (fun w => τ w + if w = v then t else 0, β) (fun w hw => ?_) hβ hpos
    show τ w + (if w = v then t else 0) = 0
    rw [hτ w hw, if_neg (show ¬ w = v from fun h => hw (h ▸ hv)), add_zero]
  · have hd : HasDerivAt (fun t : ℝ => ∑ e ∈ E, g (P e) (R e) (τ e.1 + τ e.2) ((β e.1 + β e.2) + t * ((if e.1 = v then 1 else 0) + (if e.2 = v then 1 else 0))))
        (∑ e ∈ E, (R e - exc (τ e.1 + τ e.2) (β e.1 + β e.2)) * ((if e.1 = v then 1 else 0) + (if e.2 = v then 1 else 0))) 0 :=
      HasDerivAt.fun_sum fun e he => g_deriv_b (P e) (R e) _ _ (hpos e he)
    have hev : ∀ᶠ t : ℝ in nhds 0, ∀ e ∈ E, 0 < (β e.1 + β e.2) + t * ((if e.1 = v then 1 else 0) + (if e.2 = v then 1 else 0)) := by
      rw [Filter.eventually_all_finset]
      intro e he
      have hc : Continuous fun t : ℝ => (β e.1 + β e.2) + t * ((if e.1 = v then 1 else 0) + (if e.2 = v then 1 else 0)) := by fun_prop
      exact (hc.tendsto 0).eventually (lt_mem_nhds (by simpa using hpos e he))
    refine IsLocalMin.hasDerivAt_eq_zero (hev.mono fun t ht => ?_) hd
    have e0 : ∀ (t : ℝ) (e : ι × ι), (β e.1 + β e.2) + t * ((if e.1 = v then 1 else 0) + (if e.2 = v then 1 else 0)) =
        (β e.1 + if e.1 = v then t else 0) + (β e.2 + if e.2 = v then t else 0) := fun t e => by
      by_cases h1 : e.1 = v <;> by_cases h2 : e.2 = v <;> simp only [h1, h2, if_true, if_false] <;> ring
    have e1 : ∀ t : ℝ, (∑ e ∈ E, g (P e) (R e) (τ e.1 + τ e.2) ((β e.1 + β e.2) + t * ((if e.1 = v then 1 else 0) + (if e.2 = v then 1 else 0)))) =
        G (τ, fun w => β w + if w = v then t else 0) := fun t => sum_congr rfl fun e _ => by rw [e0]
    rw [e1 t, e1 0]
    have e2 : (fun w => β w + if w = v then (0 : ℝ) else 0) = β := by funext w; simp
    rw [e2]
    refine hglob (τ, fun w => β w + if w = v then t else 0) hτ (fun w hw => ?_) fun e he => ?_
    · show β w + (if w = v then t else 0) = 0
      rw [hβ w hw, if_neg (show ¬ w = v from fun h => hw (h ▸ hv)), add_zero]
    · have := ht e he
      rw [e0] at this
      exact this

end

end Verif.Existence
