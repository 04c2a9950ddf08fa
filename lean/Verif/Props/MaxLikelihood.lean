import Verif.Props.MaxEntropy

/-!
Property C51: parameters whose expected degrees (strengths) equal those of the observed network give the observed network the largest probability,
and all such parameters define the same law.
-/

namespace Verif.Spec

open Finset

variable {n : ℕ}

/-- the dual bound read at the observed network: two positive probabilities with comparable logarithms -/
theorem le_of_log {a b La Lb : ℝ} (ha : 0 < a ∧ Real.log a = La) (hb : 0 < b ∧ Real.log b = Lb) (h : La ≤ Lb) : a ≤ b := by
  rw [← ha.2, ← hb.2] at h
  exact (Real.log_le_log_iff ha.1 hb.1).1 h

theorem mul_le_abs_mul_abs (a b : ℝ) : a * b ≤ |a| * |b| := by rw [← abs_mul]; exact le_abs_self _

theorem pos_or_zero {x : ℝ} (h : 0 ≤ x) (hx : x ≠ 0) : 0 < x := lt_of_le_of_ne h hx.symm

/-- C51 (undirected binary): no parameters give the observed graph a larger probability; equality only for the same law. -/
theorem C51_ubcm_max_likelihood (A : Graphs n Bool) (x x' : Fin n → ℝ) (hx : ∀ i, 0 ≤ x i) (hx' : ∀ i, 0 ≤ x' i) (hA : ∀ i, degUBCM x i = degree A.1 i) :
    probUBCM x' A.1 ≤ probUBCM x A.1 ∧ (probUBCM x' A.1 = probUBCM x A.1 → ∀ B : Graphs n Bool, probUBCM x' B.1 = probUBCM x B.1) := by
  have hp : ∀ i, degree A.1 i ≠ 0 → 0 < x i := fun i hi =>
    pos_or_zero (hx i) fun h0 => hi (by have := hA i; rw [ubcm_deg_zero x i h0] at this; exact_mod_cast this.symm)
  have hP := probUBCM_spec A.1 A.2 x hx hp
  by_cases hz : probUBCM x' A.1 = 0
  · exact ⟨hz ▸ hP.1.le, fun h => absurd (h.symm.trans hz) hP.1.ne'⟩
  have hp' := ubcm_support x' hx' A hz
  have hP' := probUBCM_spec A.1 A.2 x' hx' hp'
  obtain ⟨H, h1, h2, h3⟩ := C50_ubcm_dual x' hx' (fun i => degree A.1 i) (fun i h0 => by
      by_contra h; exact (hp' i (by exact_mod_cast h)).ne' h0) (fun B => probUBCM x B.1) (C49_ubcm_total x hx) (fun i => hA i ▸ mean_ubcm x hx i)
  have e := h1.unique (ubcm_entropy x hx)
  rw [show degUBCM x = fun i => (degree A.1 i : ℝ) from funext hA] at e
  refine ⟨le_of_log hP' hP (by linarith), fun h B => ?_⟩
  refine (congrFun (h3 ?_) B).symm
  rw [e, ← hP.2, ← hP'.2, h]

/-- C51 (directed binary). -/
theorem C51_dbcm_max_likelihood (A : Digraphs n Bool) (x y x' y' : Fin n → ℝ) (hx : ∀ i, 0 ≤ x i) (hy : ∀ i, 0 ≤ y i) (hx' : ∀ i, 0 ≤ x' i) (hy' : ∀ i, 0 ≤ y' i)
    (ho : ∀ i, outDBCM x y i = degree A.1 i) (hi : ∀ i, inDBCM x y i = inDegree A.1 i) :
    probDBCM x' y' A.1 ≤ probDBCM x y A.1 ∧
      (probDBCM x' y' A.1 = probDBCM x y A.1 → ∀ B : Digraphs n Bool, probDBCM x' y' B.1 = probDBCM x y B.1) := by
  have hp : ∀ i, degree A.1 i ≠ 0 → 0 < x i := fun i hi =>
    pos_or_zero (hx i) fun h0 => hi (by have := ho i; rw [dbcm_out_zero x y i h0] at this; exact_mod_cast this.symm)
  have hq : ∀ i, inDegree A.1 i ≠ 0 → 0 < y i := fun i hd =>
    pos_or_zero (hy i) fun h0 => hd (by have := hi i; rw [dbcm_in_zero x y i h0] at this; exact_mod_cast this.symm)
  have hP := probDBCM_spec A.1 A.2 x y hx hy hp hq
  by_cases hz : probDBCM x' y' A.1 = 0
  · exact ⟨hz ▸ hP.1.le, fun h => absurd (h.symm.trans hz) hP.1.ne'⟩
  have hp' := dbcm_support x' y' hx' hy' A hz
  have hP' := probDBCM_spec A.1 A.2 x' y' hx' hy' hp'.1 hp'.2
  obtain ⟨H, h1, h2, h3⟩ := C50_dbcm_dual x' y' hx' hy' (fun i => degree A.1 i) (fun i => inDegree A.1 i)
    (fun i h0 => by by_contra h; exact (hp'.1 i (by exact_mod_cast h)).ne' h0) (fun i h0 => by by_contra h; exact (hp'.2 i (by exact_mod_cast h)).ne' h0)
    (fun B => probDBCM x y B.1) (C49_dbcm_total x y hx hy) (fun i => ho i ▸ (mean_dbcm x y hx hy i).1) (fun i => hi i ▸ (mean_dbcm x y hx hy i).2)
  have e := h1.unique (dbcm_entropy x y hx hy)
  rw [show outDBCM x y = fun i => (degree A.1 i : ℝ) from funext ho, show inDBCM x y = fun i => (inDegree A.1 i : ℝ) from funext hi] at e
  refine ⟨le_of_log hP' hP (by linarith), fun h B => ?_⟩
  refine (congrFun (h3 ?_) B).symm
  rw [e, ← hP.2, ← hP'.2, h]

/-- C51 (undirected weighted). -/
theorem C51_uecm_max_likelihood (W : Graphs n ℕ) (x y x' y' : Fin n → ℝ) (hx : ∀ i, 0 ≤ x i) (hy : ∀ i, 0 ≤ y i) (h1 : ∀ i j, i ≠ j → y i * y j < 1)
    (hx' : ∀ i, 0 ≤ x' i) (hy' : ∀ i, 0 ≤ y' i) (h1' : ∀ i j, i ≠ j → y' i * y' j < 1)
    (hk : ∀ i, degUECM x y i = degree W.1 i) (hs : ∀ i, strUECM x y i = strength W.1 i) :
    probUECM x' y' W.1 ≤ probUECM x y W.1 ∧ (probUECM x' y' W.1 = probUECM x y W.1 → ∀ B : Graphs n ℕ, probUECM x' y' B.1 = probUECM x y B.1) := by
  have hp : ∀ i, degree W.1 i ≠ 0 → 0 < x i ∧ 0 < y i := fun i hi =>
    have hn : ¬(x i = 0 ∨ y i = 0) := fun h0 => hi (by have := hk i; rw [uecm_deg_zero x y i h0] at this; exact_mod_cast this.symm)
    ⟨pos_or_zero (hx i) fun h => hn (.inl h), pos_or_zero (hy i) fun h => hn (.inr h)⟩
  have hP := probUECM_spec W.1 W.2 x y hx hy hp h1
  by_cases hz : probUECM x' y' W.1 = 0
  · exact ⟨hz ▸ hP.1.le, fun h => absurd (h.symm.trans hz) hP.1.ne'⟩
  have hp' := uecm_support x' y' hx' hy' W hz
  have hP' := probUECM_spec W.1 W.2 x' y' hx' hy' hp' h1'
  obtain ⟨H, g1, g2, g3⟩ := C50_uecm_dual x' y' hx' hy' h1' (fun i => degree W.1 i) (fun i => strength W.1 i)
    (fun i h0 => by by_contra h; have := hp' i (by exact_mod_cast h); rcases h0 with h0 | h0 <;> [exact this.1.ne' h0; exact this.2.ne' h0])
    (fun B => probUECM x y B.1) (C49_uecm_total x y hx hy h1) (fun i => hk i ▸ (mean_uecm x y hx hy h1 i).1) (fun i => hs i ▸ (mean_uecm x y hx hy h1 i).2)
  have e := g1.unique (uecm_entropy x y hx hy h1)
  rw [show degUECM x y = fun i => (degree W.1 i : ℝ) from funext hk, show strUECM x y = fun i => (strength W.1 i : ℝ) from funext hs] at e
  refine ⟨le_of_log hP' hP (by linarith), fun h B => ?_⟩
  refine (congrFun (g3 ?_) B).symm
  rw [e, ← hP.2, ← hP'.2, h]

/-- C51 (directed weighted). -/
theorem C51_decm_max_likelihood (W : Digraphs n ℕ) (x y bo bi x' y' bo' bi' : Fin n → ℝ) (hx : ∀ i, 0 ≤ x i) (hy : ∀ i, 0 ≤ y i) (hbo : ∀ i, 0 ≤ bo i)
    (hbi : ∀ i, 0 ≤ bi i) (h1 : ∀ i j, i ≠ j → bo i * bi j < 1) (hx' : ∀ i, 0 ≤ x' i) (hy' : ∀ i, 0 ≤ y' i) (hbo' : ∀ i, 0 ≤ bo' i) (hbi' : ∀ i, 0 ≤ bi' i)
    (h1' : ∀ i j, i ≠ j → bo' i * bi' j < 1) (hko : ∀ i, outDegDECM x y bo bi i = degree W.1 i) (hki : ∀ i, inDegDECM x y bo bi i = inDegree W.1 i)
    (hso : ∀ i, outStrDECM x y bo bi i = strength W.1 i) (hsi : ∀ i, inStrDECM x y bo bi i = inStrength W.1 i) :
    probDECM x' y' bo' bi' W.1 ≤ probDECM x y bo bi W.1 ∧
      (probDECM x' y' bo' bi' W.1 = probDECM x y bo bi W.1 → ∀ B : Digraphs n ℕ, probDECM x' y' bo' bi' B.1 = probDECM x y bo bi B.1) := by
  have hp : ∀ i, degree W.1 i ≠ 0 → 0 < x i ∧ 0 < bo i := fun i hi =>
    have hn : ¬(x i = 0 ∨ bo i = 0) := fun h0 => hi (by have := hko i; rw [decm_out_zero x y bo bi i h0] at this; exact_mod_cast this.symm)
    ⟨pos_or_zero (hx i) fun h => hn (.inl h), pos_or_zero (hbo i) fun h => hn (.inr h)⟩
  have hq : ∀ i, inDegree W.1 i ≠ 0 → 0 < y i ∧ 0 < bi i := fun i hi =>
    have hn : ¬(y i = 0 ∨ bi i = 0) := fun h0 => hi (by have := hki i; rw [decm_in_zero x y bo bi i h0] at this; exact_mod_cast this.symm)
    ⟨pos_or_zero (hy i) fun h => hn (.inl h), pos_or_zero (hbi i) fun h => hn (.inr h)⟩
  have hP := probDECM_spec W.1 W.2 x y bo bi hx hy hbo hbi hp hq h1
  by_cases hz : probDECM x' y' bo' bi' W.1 = 0
  · exact ⟨hz ▸ hP.1.le, fun h => absurd (h.symm.trans hz) hP.1.ne'⟩
  have hp' := decm_support x' y' bo' bi' hx' hy' hbo' hbi' W hz
  have hP' := probDECM_spec W.1 W.2 x' y' bo' bi' hx' hy' hbo' hbi' hp'.1 hp'.2 h1'
  have hm := mean_decm x y bo bi hx hy hbo hbi h1
  obtain ⟨H, g1, g2, g3⟩ := C50_decm_dual x' y' bo' bi' hx' hy' hbo' hbi' h1' (fun i => degree W.1 i) (fun i => inDegree W.1 i) (fun i => strength W.1 i)
    (fun i => inStrength W.1 i)
    (fun i h0 => by by_contra h; have := hp'.1 i (by exact_mod_cast h); rcases h0 with h0 | h0 <;> [exact this.1.ne' h0; exact this.2.ne' h0])
    (fun i h0 => by by_contra h; have := hp'.2 i (by exact_mod_cast h); rcases h0 with h0 | h0 <;> [exact this.1.ne' h0; exact this.2.ne' h0])
    (fun B => probDECM x y bo bi B.1) (C49_decm_total x y bo bi hx hy hbo hbi h1) (fun i => hko i ▸ (hm i).1) (fun i => hki i ▸ (hm i).2.1)
    (fun i => hso i ▸ (hm i).2.2.1) (fun i => hsi i ▸ (hm i).2.2.2)
  have e := g1.unique (decm_entropy x y bo bi hx hy hbo hbi h1)
  rw [show outDegDECM x y bo bi = fun i => (degree W.1 i : ℝ) from funext hko, show inDegDECM x y bo bi = fun i => (inDegree W.1 i : ℝ) from funext hki,
    show outStrDECM x y bo bi = fun i => (strength W.1 i : ℝ) from funext hso, show inStrDECM x y bo bi = fun i => (inStrength W.1 i : ℝ) from funext hsi] at e
  refine ⟨le_of_log hP' hP (by linarith), fun h B => ?_⟩
  refine (congrFun (g3 ?_) B).symm
  rw [e, ← hP.2, ← hP'.2, h]

/-! ### the same with expected values that only approximate the observed ones -/

/-- C50 (undirected binary), approximate fit: no law with the expected degrees `k` has an entropy above the entropy of the model by more than
`∑ |k i - ⟨k i⟩| |log (x i)|`. -/
theorem C50_ubcm_gap (x : Fin n → ℝ) (hx : ∀ i, 0 ≤ x i) (k : Fin n → ℝ) (hk0 : ∀ i, x i = 0 → k i = 0) (Q : Graphs n Bool → ℝ) (hQ : IsLaw Q)
    (hk : ∀ i, HasMean Q (fun A => (degree A.1 i : ℝ)) (k i)) :
    ∃ H HP, HasEntropy Q H ∧ HasEntropy (fun A : Graphs n Bool => probUBCM x A.1) HP ∧ H ≤ HP + ∑ i, |degUBCM x i - k i| * |Real.log (x i)| := by
  obtain ⟨H, h1, h2, -⟩ := C50_ubcm_dual x hx k hk0 Q hQ hk
  refine ⟨H, _, h1, ubcm_entropy x hx, h2.trans ?_⟩
  have e : -logUBCM k x = -logUBCM (degUBCM x) x + ∑ i, (degUBCM x i - k i) * Real.log (x i) := by
    simp only [logUBCM, sub_mul, sum_sub_distrib]; ring
  rw [e]
  exact add_le_add le_rfl (sum_le_sum fun i _ => mul_le_abs_mul_abs _ _)

/-- C50 (directed binary), approximate fit. -/
theorem C50_dbcm_gap (x y : Fin n → ℝ) (hx : ∀ i, 0 ≤ x i) (hy : ∀ i, 0 ≤ y i) (ko ki : Fin n → ℝ) (hko : ∀ i, x i = 0 → ko i = 0)
    (hki : ∀ i, y i = 0 → ki i = 0) (Q : Digraphs n Bool → ℝ) (hQ : IsLaw Q) (ho : ∀ i, HasMean Q (fun A => (degree A.1 i : ℝ)) (ko i))
    (hi : ∀ i, HasMean Q (fun A => (inDegree A.1 i : ℝ)) (ki i)) :
    ∃ H HP, HasEntropy Q H ∧ HasEntropy (fun A : Digraphs n Bool => probDBCM x y A.1) HP ∧
      H ≤ HP + ∑ i, (|outDBCM x y i - ko i| * |Real.log (x i)| + |inDBCM x y i - ki i| * |Real.log (y i)|) := by
  obtain ⟨H, h1, h2, -⟩ := C50_dbcm_dual x y hx hy ko ki hko hki Q hQ ho hi
  refine ⟨H, _, h1, dbcm_entropy x y hx hy, h2.trans ?_⟩
  have e : -logDBCM ko ki x y = -logDBCM (outDBCM x y) (inDBCM x y) x y +
      ∑ i, ((outDBCM x y i - ko i) * Real.log (x i) + (inDBCM x y i - ki i) * Real.log (y i)) := by
    simp only [logDBCM, sub_mul, sum_sub_distrib, sum_add_distrib]; ring
  rw [e]
  exact add_le_add le_rfl (sum_le_sum fun i _ => add_le_add (mul_le_abs_mul_abs _ _) (mul_le_abs_mul_abs _ _))

/-- C50 (undirected weighted), approximate fit. -/
theorem C50_uecm_gap (x y : Fin n → ℝ) (hx : ∀ i, 0 ≤ x i) (hy : ∀ i, 0 ≤ y i) (hy1 : ∀ i j, i ≠ j → y i * y j < 1) (k s : Fin n → ℝ)
    (hk0 : ∀ i, x i = 0 ∨ y i = 0 → k i = 0) (Q : Graphs n ℕ → ℝ) (hQ : IsLaw Q)
    (hk : ∀ i, HasMean Q (fun W => (degree W.1 i : ℝ)) (k i)) (hs : ∀ i, HasMean Q (fun W => (strength W.1 i : ℝ)) (s i)) :
    ∃ H HP, HasEntropy Q H ∧ HasEntropy (fun W : Graphs n ℕ => probUECM x y W.1) HP ∧
      H ≤ HP + ∑ i, (|degUECM x y i - k i| * |Real.log (x i)| + |strUECM x y i - s i| * |Real.log (y i)|) := by
  obtain ⟨H, h1, h2, -⟩ := C50_uecm_dual x y hx hy hy1 k s hk0 Q hQ hk hs
  refine ⟨H, _, h1, uecm_entropy x y hx hy hy1, h2.trans ?_⟩
  have e : -logUECM k s x y = -logUECM (degUECM x y) (strUECM x y) x y +
      ∑ i, ((degUECM x y i - k i) * Real.log (x i) + (strUECM x y i - s i) * Real.log (y i)) := by
    simp only [logUECM, sub_mul, sum_sub_distrib, sum_add_distrib]; ring
  rw [e]
  exact add_le_add le_rfl (sum_le_sum fun i _ => add_le_add (mul_le_abs_mul_abs _ _) (mul_le_abs_mul_abs _ _))

/-- C50 (directed weighted), approximate fit. -/
theorem C50_decm_gap (x y bo bi : Fin n → ℝ) (hx : ∀ i, 0 ≤ x i) (hy : ∀ i, 0 ≤ y i) (hbo : ∀ i, 0 ≤ bo i) (hbi : ∀ i, 0 ≤ bi i)
    (hb1 : ∀ i j, i ≠ j → bo i * bi j < 1) (ko ki so si : Fin n → ℝ) (hko0 : ∀ i, x i = 0 ∨ bo i = 0 → ko i = 0) (hki0 : ∀ i, y i = 0 ∨ bi i = 0 → ki i = 0)
    (Q : Digraphs n ℕ → ℝ) (hQ : IsLaw Q)
    (hko : ∀ i, HasMean Q (fun W => (degree W.1 i : ℝ)) (ko i)) (hki : ∀ i, HasMean Q (fun W => (inDegree W.1 i : ℝ)) (ki i))
    (hso : ∀ i, HasMean Q (fun W => (strength W.1 i : ℝ)) (so i)) (hsi : ∀ i, HasMean Q (fun W => (inStrength W.1 i : ℝ)) (si i)) :
    ∃ H HP, HasEntropy Q H ∧ HasEntropy (fun W : Digraphs n ℕ => probDECM x y bo bi W.1) HP ∧
      H ≤ HP + ∑ i, (|outDegDECM x y bo bi i - ko i| * |Real.log (x i)| + |inDegDECM x y bo bi i - ki i| * |Real.log (y i)| +
        |outStrDECM x y bo bi i - so i| * |Real.log (bo i)| + |inStrDECM x y bo bi i - si i| * |Real.log (bi i)|) := by
  obtain ⟨H, h1, h2, -⟩ := C50_decm_dual x y bo bi hx hy hbo hbi hb1 ko ki so si hko0 hki0 Q hQ hko hki hso hsi
  refine ⟨H, _, h1, decm_entropy x y bo bi hx hy hbo hbi hb1, h2.trans ?_⟩
  have e : -logDECM ko ki so si x y bo bi =
      -logDECM (outDegDECM x y bo bi) (inDegDECM x y bo bi) (outStrDECM x y bo bi) (inStrDECM x y bo bi) x y bo bi +
      ∑ i, ((outDegDECM x y bo bi i - ko i) * Real.log (x i) + (inDegDECM x y bo bi i - ki i) * Real.log (y i) +
        (outStrDECM x y bo bi i - so i) * Real.log (bo i) + (inStrDECM x y bo bi i - si i) * Real.log (bi i)) := by
    simp only [logDECM, sub_mul, sum_sub_distrib, sum_add_distrib]; ring
  rw [e]
  exact add_le_add le_rfl (sum_le_sum fun i _ => add_le_add (add_le_add (add_le_add (mul_le_abs_mul_abs _ _) (mul_le_abs_mul_abs _ _))
    (mul_le_abs_mul_abs _ _)) (mul_le_abs_mul_abs _ _))

end Verif.Spec
