import Verif.Lemmas.EM
import Mathlib.Topology.Algebra.Module.FiniteDimension
import Mathlib.Analysis.Normed.Module.FiniteDimension

/-! Exact solutions of the conditional reconstruction models, without a condition on the sign of the single rates. -/

namespace Verif.EM

open Finset

noncomputable section

variable {ι : Type} [Fintype ι]

theorem exists_exact {p w : ι → ι → ℝ} (hp : ∀ i j, p i j = p j i) (hpn : ∀ i j, 0 ≤ p i j) (hw : ∀ i j, w i j = w j i) (hwn : ∀ i j, 0 ≤ w i j)
    (hpw : ∀ i j, p i j ≠ 0 ↔ w i j ≠ 0) : ∃ β : ι → ℝ, (∀ i j, p i j ≠ 0 → 0 < β i + β j) ∧ ∀ i, str p β i = ∑ j, w i j := by
  classical
  set s : ι → ℝ := fun i => ∑ j, w i j with hs
  have h : Net p s := ⟨hp, hpn, fun i => sum_nonneg fun j _ => hwn i j, fun i j hij => by
    have h1 : 0 < w i j := lt_of_le_of_ne (hwn i j) (Ne.symm ((hpw i j).1 hij))
    exact (sum_pos' (fun j _ => hwn i j) ⟨j, mem_univ j, h1⟩).ne'⟩
  by_cases hne : ∃ i j, p i j ≠ 0
  swap
  · push Not at hne
    refine ⟨fun _ => 0, fun i j hij => absurd (hne i j) hij, fun i => ?_⟩
    have h1 : ∀ j, w i j = 0 := fun j => by_contra fun hj => (hpw i j).2 hj (hne i j)
    simp [str, hne, h1]
  obtain ⟨i0, j0, h0⟩ := hne
  let E := {e : ι × ι // p e.1 e.2 ≠ 0}
  let e0 : E := ⟨(i0, j0), h0⟩
  have hpe : ∀ e : E, 0 < p e.1.1 e.1.2 := fun e => lt_of_le_of_ne (hpn _ _) (Ne.symm e.2)
  have hwe : ∀ e : E, 0 < w e.1.1 e.1.2 := fun e => lt_of_le_of_ne (hwn _ _) (Ne.symm ((hpw _ _).1 e.2))
  let T : (ι → ℝ) →ₗ[ℝ] (E → ℝ) :=
    { toFun := fun β e => β e.1.1 + β e.1.2
      map_add' := fun β γ => by funext e; simp only [Pi.add_apply]; ring
      map_smul' := fun c β => by funext e; simp only [Pi.smul_apply, smul_eq_mul, RingHom.id_apply]; ring }
  have hT : ∀ β e, T β e = β e.1.1 + β e.1.2 := fun _ _ => rfl
  have hVc : IsClosed (LinearMap.range T : Set (E → ℝ)) := Submodule.closed_of_finiteDimensional _
  set m : ℝ := ∑ e : E, p e.1.1 e.1.2 with hm
  have hmpos : 0 < m := sum_pos (fun e _ => hpe e) ⟨e0, mem_univ _⟩
  set K : Set (E → ℝ) := {u | u ∈ (LinearMap.range T : Set (E → ℝ)) ∧ (∀ e, 0 ≤ u e) ∧ ∑ e : E, w e.1.1 e.1.2 * u e = m} with hK
  have hKc : IsCompact K := by
    refine IsCompact.of_isClosed_subset (isCompact_univ_pi fun e : E => isCompact_Icc (a := (0 : ℝ)) (b := m / w e.1.1 e.1.2)) ?_ ?_
    · have e : K = (LinearMap.range T : Set (E → ℝ)) ∩ ((⋂ e, {u : E → ℝ | 0 ≤ u e}) ∩ {u : E → ℝ | ∑ e : E, w e.1.1 e.1.2 * u e = m}) := by
        ext u; simp [hK]
      rw [e]
      exact hVc.inter ((isClosed_iInter fun i => isClosed_le continuous_const (continuous_apply i)).inter (isClosed_eq (by fun_prop) continuous_const))
    · intro u hu e _
      obtain ⟨-, h2, h3⟩ := hu
      refine ⟨h2 e, ?_⟩
      rw [le_div_iff₀ (hwe e), ← h3, mul_comm]
      exact single_le_sum (f := fun e : E => w e.1.1 e.1.2 * u e) (fun e _ => mul_nonneg (hwe e).le (h2 e)) (mem_univ e)
  set G : (E → ℝ) → ℝ := fun u => ∏ e, u e ^ p e.1.1 e.1.2 with hG
  have hGc : Continuous G := continuous_finset_prod _ fun e _ => (Real.continuous_rpow_const (hpe e).le).comp (continuous_apply e)
  have hGpos : ∀ u : E → ℝ, (∀ e, 0 < u e) → 0 < G u := fun u hu => prod_pos fun e _ => Real.rpow_pos_of_pos (hu e) _
  have hlog : ∀ u : E → ℝ, (∀ e, 0 < u e) → Real.log (G u) = ∑ e : E, p e.1.1 e.1.2 * Real.log (u e) := fun u hu => by
    rw [hG, Real.log_prod (fun e _ => (Real.rpow_pos_of_pos (hu e) _).ne')]
    exact sum_congr rfl fun e _ => Real.log_rpow (hu e) _
  have hscale : ∀ β : ι → ℝ, (∀ e, 0 < T β e) → 0 < ∑ e : E, w e.1.1 e.1.2 * T β e ∧
      T ((m / ∑ e : E, w e.1.1 e.1.2 * T β e) • β) ∈ K ∧ ∀ e, 0 < T ((m / ∑ e : E, w e.1.1 e.1.2 * T β e) • β) e := fun β hβ => by
    have hS : 0 < ∑ e : E, w e.1.1 e.1.2 * T β e := sum_pos (fun e _ => mul_pos (hwe e) (hβ e)) ⟨e0, mem_univ _⟩
    have hpos : ∀ e, 0 < T ((m / ∑ e : E, w e.1.1 e.1.2 * T β e) • β) e := fun e => by
      rw [map_smul]; exact mul_pos (div_pos hmpos hS) (hβ e)
    refine ⟨hS, ⟨⟨_, rfl⟩, fun e => (hpos e).le, ?_⟩, hpos⟩
    have : ∀ e : E, w e.1.1 e.1.2 * T ((m / ∑ e : E, w e.1.1 e.1.2 * T β e) • β) e = (m / ∑ e : E, w e.1.1 e.1.2 * T β e) * (w e.1.1 e.1.2 * T β e) := fun e => by
      rw [map_smul, Pi.smul_apply, smul_eq_mul]; ring
    simp only [this, ← mul_sum]
    exact div_mul_cancel₀ _ hS.ne'
  have hone := hscale (fun _ => 1) fun e => by rw [hT]; norm_num
  obtain ⟨u, huK, humax⟩ := hKc.exists_isMaxOn ⟨_, hone.2.1⟩ hGc.continuousOn
  have hupos : ∀ e, 0 < u e := fun e => by
    refine lt_of_le_of_ne (huK.2.1 e) fun he => ?_
    have h1 : 0 < G u := (hGpos _ hone.2.2).trans_le (humax hone.2.1)
    refine h1.ne' (prod_eq_zero (mem_univ e) ?_)
    rw [← he, Real.zero_rpow e.2]
  obtain ⟨b, hb⟩ := huK.1
  have hbpos : ∀ i j, p i j ≠ 0 → 0 < b i + b j := fun i j hij => by
    have := hupos ⟨(i, j), hij⟩
    rw [← hb, hT] at this
    exact this
  -- sums over links and over pairs
  have hsumE : ∀ q : ι → ι → ℝ, (∀ i j, p i j = 0 → q i j = 0) → ∑ e : E, q e.1.1 e.1.2 = ∑ i, ∑ j, q i j := fun q hq => by
    rw [← Fintype.sum_prod_type' (f := fun i j => q i j),
      ← sum_subtype (univ.filter fun e : ι × ι => p e.1 e.2 ≠ 0) (by simp) fun e : ι × ι => q e.1 e.2]
    exact sum_filter_of_ne fun e _ hne h0 => hne (hq _ _ h0)
  have hLE : ∀ β : ι → ℝ, 2 * L p s β = ∑ e : E, p e.1.1 e.1.2 * Real.log (T β e) - ∑ e : E, w e.1.1 e.1.2 * T β e := fun β => by
    rw [show (∑ e : E, p e.1.1 e.1.2 * Real.log (T β e)) = ∑ i, ∑ j, p i j * Real.log (β i + β j) from hsumE (fun i j => p i j * Real.log (β i + β j)) (fun i j h0 => by rw [h0, zero_mul]),
      show (∑ e : E, w e.1.1 e.1.2 * T β e) = ∑ i, ∑ j, w i j * (β i + β j) from hsumE (fun i j => w i j * (β i + β j)) (fun i j h0 => by
        rw [show w i j = 0 from by_contra fun hj => (hpw i j).2 hj h0, zero_mul]), sum_symm hw]
    unfold L
    have : ∑ i, s i * β i = ∑ i, β i * ∑ j, w i j := sum_congr rfl fun i _ => mul_comm _ _
    rw [this]
    ring
  have hbest : ∀ β : ι → ℝ, (∀ i j, p i j ≠ 0 → 0 < β i + β j) → L p s β ≤ L p s b := fun β hβ => by
    have hβ' : ∀ e, 0 < T β e := fun e => hβ _ _ e.2
    obtain ⟨hS, hin, hpos⟩ := hscale β hβ'
    set S : ℝ := ∑ e : E, w e.1.1 e.1.2 * T β e with hSd
    have ht : 0 < m / S := div_pos hmpos hS
    have h1 := Real.log_le_log (hGpos _ hpos) (humax hin)
    rw [hlog _ hpos, hlog u hupos] at h1
    have h2 : ∑ e : E, p e.1.1 e.1.2 * Real.log (T ((m / S) • β) e) = m * Real.log (m / S) + ∑ e : E, p e.1.1 e.1.2 * Real.log (T β e) := by
      rw [hm, sum_mul, ← sum_add_distrib]
      refine sum_congr rfl fun e _ => ?_
      rw [← hm, map_smul, Pi.smul_apply, smul_eq_mul, Real.log_mul ht.ne' (hβ' e).ne']
      ring
    have h3 : -S ≤ -m + m * Real.log (m / S) := by
      have h6 := Real.one_sub_inv_le_log_of_pos ht
      have h7 := mul_le_mul_of_nonneg_left h6 hmpos.le
      have h8 : m * (1 - (m / S)⁻¹) = m - S := by field_simp
      linarith
    have h4 := hLE β
    have h5 := hLE b
    rw [hb, huK.2.2] at h5
    rw [← hSd] at h4
    linarith
  refine ⟨b, hbpos, fun i => ?_⟩
  have hd := L_deriv h hbpos i
  have h1 := IsLocalMax.hasDerivAt_eq_zero ?_ hd
  · linarith
  · have hev : ∀ᶠ t in nhds (0 : ℝ), ∀ k j, p k j ≠ 0 → 0 < (b k + t * (if k = i then 1 else 0)) + (b j + t * (if j = i then 1 else 0)) := by
      refine Filter.eventually_all.2 fun k => Filter.eventually_all.2 fun j => ?_
      by_cases hkj : p k j = 0
      · exact Filter.Eventually.of_forall fun t hne => absurd hkj hne
      · have hc : ContinuousAt (fun t : ℝ => (b k + t * (if k = i then 1 else 0)) + (b j + t * (if j = i then 1 else 0))) 0 := by fun_prop
        have := hc.eventually (lt_mem_nhds (show (0 : ℝ) < (b k + 0 * (if k = i then 1 else 0)) + (b j + 0 * (if j = i then 1 else 0)) by simpa using hbpos k j hkj))
        exact this.mono fun t ht _ => ht
    filter_upwards [hev] with t ht
    have e0 : (fun k => b k + (0 : ℝ) * (if k = i then 1 else 0)) = b := by funext k; simp
    rw [e0]
    exact hbest _ ht

end

end Verif.EM
