import Verif.Props.SolveD5
import Verif.Spec.Guess

/-! C47: the named initial guesses against their documentation.  `UndirectedGraph.solve_tool` first, `DirectedGraph.solve_tool` below. -/

namespace Verif.Solve

open Verif Finset Reduction Solver Spec

open Classical in
attribute [local instance 0] propDecidable

variable {n : ℕ}

section undirected

variable (e : Env) (d : UData n)

theorem UData.k_inv (i : Fin n) : d.k (d.inv i) = d.deg i := by
  simp only [UData.k, UData.inv, r_dseq_invert, UData.deg]

theorem guessCM_name {s : String} {v : Fin d.r → ℝ} (hv : namedCM e d s = some v) :
    ∃ x0, guessCM e d false (.name s) = .ok x0 ∧ ∀ i, x0 (d.inv i) = if d.deg i = 0 then 0 else v (d.inv i) := by
  refine ⟨_, by simp only [guessCM, hv]; rfl, fun i => ?_⟩
  simp [maskSet, UData.k_inv]

/-- C47 (cm): "degrees" is proportional to the degrees, "uniform" is uniform, "random" lies in the unit interval. -/
theorem C47_cm (he : e.Valid) :
    (∃ x0, guessCM e d false (.name "degrees") = .ok x0 ∧ ProportionalTo (fun i => x0 (d.inv i)) d.deg) ∧
    (∃ x0, guessCM e d false (.name "uniform") = .ok x0 ∧ UniformOn (fun i => x0 (d.inv i)) d.deg) ∧
    (∃ x0, guessCM e d false (.name "random") = .ok x0 ∧ UnitInterval fun i => x0 (d.inv i)) := by
  refine ⟨?_, ?_, ?_⟩
  · obtain ⟨x0, h, hx⟩ := guessCM_name e d (s := "degrees") (by simp [namedCM]; rfl)
    refine ⟨x0, h, 1, one_pos, fun i => ?_⟩
    simp only [hx, UData.k_inv, one_mul]; split_ifs with h0
    · exact h0.symm
    · rfl
  · obtain ⟨x0, h, hx⟩ := guessCM_name e d (s := "uniform") (by simp [namedCM]; rfl)
    exact ⟨x0, h, 0.5, by norm_num, by norm_num, fun i hi => by simp only [hx, if_neg hi]⟩
  · obtain ⟨x0, h, hx⟩ := guessCM_name e d (s := "random") (by simp [namedCM]; rfl)
    refine ⟨x0, h, fun i => ?_⟩
    simp only [hx]
    split_ifs with h0
    · norm_num
    · exact ⟨he.rand_nonneg _ _, he.rand_lt _ _⟩

/-- C47 is false for "degrees_minor": documented as inversely proportional to the degrees, it is proportional to them. -/
theorem C47_cm_degrees_minor_false :
    ∃ x0, guessCM e d false (.name "degrees_minor") = .ok x0 ∧ ProportionalTo (fun i => x0 (d.inv i)) d.deg ∧
      ∀ i j, 0 < d.deg i → d.deg i < d.deg j → ¬ InverselyProportionalTo (fun i => x0 (d.inv i)) d.deg := by
  obtain ⟨x0, h, hx⟩ := guessCM_name e d (s := "degrees_minor") (by simp [namedCM]; rfl)
  have hp : 0 < Real.sqrt d.n_edges + 1 := by positivity
  have hx' : ∀ i, x0 (d.inv i) = d.deg i / (Real.sqrt d.n_edges + 1) := fun i => by
    rw [hx]; split_ifs with h0
    · simp [h0]
    · simp only [UData.k_inv]
  refine ⟨x0, h, ⟨1 / (Real.sqrt d.n_edges + 1), by positivity, fun i => by simp only [hx']; ring⟩, ?_⟩
  rintro i j hi hij ⟨c, hc, hv⟩
  have h1 := hv i hi.ne'
  have h2 := hv j (hi.trans hij).ne'
  simp only [hx'] at h1 h2
  rw [div_eq_div_iff hp.ne' hi.ne'] at h1
  rw [div_eq_div_iff hp.ne' (hi.trans hij).ne'] at h2
  nlinarith

/-- C47 is false for "chung_lu": the starting values are `k_i / Σ k` and not `k_i / √(Σ k)`; the products are those of the Chung-Lu formula divided once more by
`Σ k`, so the formula fails as soon as two nodes have a link and `Σ k ≥ 2`. -/
theorem C47_cm_chung_lu_false :
    ∃ x0, guessCM e d false (.name "chung_lu") = .ok x0 ∧ (∀ i, x0 (d.inv i) = d.deg i / ∑ l, d.deg l) ∧
      ∀ i j, i ≠ j → 0 < d.deg i → 0 < d.deg j → ¬ ChungLu (fun i => x0 (d.inv i)) (fun i => x0 (d.inv i)) d.deg d.deg := by
  obtain ⟨x0, h, hx⟩ := guessCM_name e d (s := "chung_lu") (by simp [namedCM]; rfl)
  have hx' : ∀ i, x0 (d.inv i) = d.deg i / ∑ l, d.deg l := fun i => by
    rw [hx]; split_ifs with h0
    · simp [h0]
    · simp only [UData.k_inv, UData.n_edges]; congr 1; ring
  refine ⟨x0, h, hx', fun i j hij hi hj hc => ?_⟩
  have h1 := hc i j hij
  simp only [hx'] at h1
  have one : ∀ l, 0 < d.deg l → 1 ≤ d.deg l := fun l hl => by
    simp only [UData.deg, Nat.cast_pos] at hl ⊢; exact_mod_cast hl
  have hS : d.deg i + d.deg j ≤ ∑ l, d.deg l := by
    rw [← sum_pair hij]
    exact sum_le_sum_of_subset_of_nonneg (subset_univ _) fun l _ _ => by simp [UData.deg]
  have := one i hi; have := one j hj
  set S := ∑ l, d.deg l with hSd
  have hS0 : S ≠ 0 := by linarith
  have hne : d.deg i * d.deg j ≠ 0 := (mul_pos hi hj).ne'
  rw [div_mul_div_comm, div_eq_div_iff (mul_ne_zero hS0 hS0) hS0] at h1
  have h2 : S = S * S := mul_left_cancel₀ hne h1
  nlinarith

theorem guessECM_name {s : String} {v : (Fin n → ℝ) × (Fin n → ℝ)} (hv : namedECM e d s = some v) :
    ∃ x y, guessECM e d false (.name s) = (.ok (x, y), .name s) ∧ (∀ i, x i = if d.deg i = 0 then 0 else v.1 i) ∧
      ∀ i, y i = if d.strength_sequence i = 0 then 0 else v.2 i := by
  obtain ⟨a, b⟩ := v
  exact ⟨_, _, by simp only [guessECM, hv]; rfl, fun i => rfl, fun i => rfl⟩

/-- C47 (ecm): "strengths" is proportional to degrees and strengths, "strengths_minor" is inverse up to one, "uniform" and "random" as documented. -/
theorem C47_ecm (he : e.Valid) (hs : 0 < ∑ j, d.strength_sequence j) :
    (∃ x y, guessECM e d false (.name "strengths") = (.ok (x, y), .name "strengths") ∧ ProportionalTo x d.deg ∧ ProportionalTo y d.strength_sequence) ∧
    (∃ x y, guessECM e d false (.name "strengths_minor") = (.ok (x, y), .name "strengths_minor") ∧
      InverseRegularised x d.deg ∧ InverseRegularised y d.strength_sequence) ∧
    (∃ x y, guessECM e d false (.name "uniform") = (.ok (x, y), .name "uniform") ∧ UniformOn x d.deg ∧ UniformOn y d.strength_sequence) ∧
    (∃ x y, guessECM e d false (.name "random") = (.ok (x, y), .name "random") ∧ UnitInterval x ∧ UnitInterval y) := by
  refine ⟨?_, ?_, ?_, ?_⟩
  · obtain ⟨x, y, h, hx, hy⟩ := guessECM_name e d (s := "strengths") (by simp [namedECM]; rfl)
    have hm : 0 ≤ d.n_edges := div_nonneg (sum_nonneg fun j _ => by simp [UData.deg]) (by norm_num)
    refine ⟨x, y, h, ⟨1 / (d.n_edges + 1), by positivity, fun i => ?_⟩, 1 / ∑ j, d.strength_sequence j, by positivity, fun i => ?_⟩
    · rw [hx]; split_ifs with h0
      · simp [h0]
      · dsimp only; ring
    · rw [hy]; split_ifs with h0
      · simp [h0]
      · dsimp only; ring
  · obtain ⟨x, y, h, hx, hy⟩ := guessECM_name e d (s := "strengths_minor") (by simp [namedECM]; rfl)
    exact ⟨x, y, h, fun i hi => by rw [hx, if_neg hi]; simp, fun i hi => by rw [hy, if_neg hi]; simp⟩
  · obtain ⟨x, y, h, hx, hy⟩ := guessECM_name e d (s := "uniform") (by simp [namedECM]; rfl)
    exact ⟨x, y, h, ⟨0.001, by norm_num, by norm_num, fun i hi => by rw [hx, if_neg hi]⟩,
      0.001, by norm_num, by norm_num, fun i hi => by rw [hy, if_neg hi]⟩
  · obtain ⟨x, y, h, hx, hy⟩ := guessECM_name e d (s := "random") (by simp [namedECM]; rfl)
    refine ⟨x, y, h, fun i => ?_, fun i => ?_⟩
    · rw [hx]; split_ifs
      · norm_num
      · exact ⟨he.rand_nonneg _ _, he.rand_lt _ _⟩
    · rw [hy]; split_ifs
      · norm_num
      · exact ⟨he.rand_nonneg _ _, he.rand_lt _ _⟩

theorem guessCrema_name {s : String} {v : Fin n → ℝ} (hv : namedCrema e d s = some v) :
    ∃ b, guessCrema e d (.name s) = (.ok b, .name s) ∧ ∀ i, b i = if d.strength_sequence i = 0 then 0 else v i :=
  ⟨_, by simp only [guessCrema, hv]; rfl, fun i => rfl⟩

/-- C47 (crema): "strengths_minor" is inverse up to one, "random" as documented, "uniform" is not available (`ValueError`). -/
theorem C47_crema (he : e.Valid) (hs : ∀ i, 0 ≤ d.strength_sequence i) :
    (∃ b, guessCrema e d (.name "strengths_minor") = (.ok b, .name "strengths_minor") ∧ InverseRegularised b d.strength_sequence) ∧
    (∃ b, guessCrema e d (.name "random") = (.ok b, .name "random") ∧ UnitInterval b) ∧
    guessCrema e d (.name "uniform") = (.error .valueError, .name "uniform") := by
  refine ⟨?_, ?_, by simp [guessCrema, namedCrema]⟩
  · obtain ⟨b, h, hb⟩ := guessCrema_name e d (s := "strengths_minor") (by simp [namedCrema]; rfl)
    exact ⟨b, h, fun i hi => by rw [hb, if_neg hi]; simp only [gt_iff_lt, if_pos (lt_of_le_of_ne (hs i) (Ne.symm hi))]⟩
  · obtain ⟨b, h, hb⟩ := guessCrema_name e d (s := "random") (by simp [namedCrema]; rfl)
    refine ⟨b, h, fun i => ?_⟩
    rw [hb]; split_ifs
    · norm_num
    · exact ⟨he.rand_nonneg _ _, he.rand_lt _ _⟩

/-- C47 is false for "strengths" of crema: the guess is the same for all nodes of positive strength, so it is not proportional to the strengths when two of them
are different. -/
theorem C47_crema_strengths_false (hs : ∀ i, 0 ≤ d.strength_sequence i) :
    ∃ b, guessCrema e d (.name "strengths") = (.ok b, .name "strengths") ∧ (∀ i, 0 < d.strength_sequence i → b i = 1 / ∑ j, d.strength_sequence j) ∧
      ∀ i j, 0 < d.strength_sequence i → d.strength_sequence i < d.strength_sequence j → ¬ ProportionalTo b d.strength_sequence := by
  obtain ⟨b, h, hb⟩ := guessCrema_name e d (s := "strengths") (by simp [namedCrema]; rfl)
  have hb' : ∀ i, 0 < d.strength_sequence i → b i = 1 / ∑ j, d.strength_sequence j := fun i hi => by
    rw [hb, if_neg hi.ne']; simp only [gt_iff_lt, if_pos hi]
  refine ⟨b, h, hb', ?_⟩
  rintro i j hi hij ⟨c, hc, hv⟩
  have h1 := hv i; have h2 := hv j
  rw [hb' i hi] at h1; rw [hb' j (hi.trans hij), h1] at h2
  nlinarith

/-- the hypotheses are met: the star on three nodes with weights -/
example : ∃ d : UData 3, (∃ i j, i ≠ j ∧ 0 < d.deg i ∧ d.deg i < d.deg j) ∧ ∃ i j, 0 < d.strength_sequence i ∧ d.strength_sequence i < d.strength_sequence j := by
  refine ⟨⟨fun i => if i = 0 then 2 else 1, fun i => if i = 0 then 5 else if i = 1 then 2 else 3⟩, ⟨1, 0, by decide, ?_, ?_⟩, 1, 0, ?_, ?_⟩ <;>
    norm_num [UData.deg]

end undirected

section directed

variable [NeZero n] (e : Env) (d : DData n)

theorem guessDCM_name {s : String} {v : (Fin d.r → ℝ) × (Fin d.r → ℝ)} (hv : namedDCM e d s = some v) :
    ∃ x0, guessDCM e d false (.name s) = .ok x0 ∧ (∀ i, x0 (0, d.inv i) = if d.degOut i = 0 then 0 else v.1 (d.inv i)) ∧
      ∀ i, x0 (1, d.inv i) = if d.degIn i = 0 then 0 else v.2 (d.inv i) := by
  obtain ⟨a, b⟩ := v
  refine ⟨_, by simp only [guessDCM, hv]; rfl, fun i => ?_, fun i => ?_⟩
  · simp [finishDCM, cat2, maskSet, (d.class_of i).1]
  · simp [finishDCM, cat2, maskSet, (d.class_of i).2]

/-- C47 (dcm): "degrees" is proportional to the out- and in-degrees, "uniform" and "random" as documented. -/
theorem C47_dcm (he : e.Valid) :
    (∃ x0, guessDCM e d false (.name "degrees") = .ok x0 ∧
      ProportionalTo (fun i => x0 (0, d.inv i)) d.degOut ∧ ProportionalTo (fun i => x0 (1, d.inv i)) d.degIn) ∧
    (∃ x0, guessDCM e d false (.name "uniform") = .ok x0 ∧
      UniformOn (fun i => x0 (0, d.inv i)) d.degOut ∧ UniformOn (fun i => x0 (1, d.inv i)) d.degIn) ∧
    (∃ x0, guessDCM e d false (.name "random") = .ok x0 ∧ UnitInterval (fun i => x0 (0, d.inv i)) ∧ UnitInterval fun i => x0 (1, d.inv i)) := by
  refine ⟨?_, ?_, ?_⟩
  · obtain ⟨x0, h, hx, hy⟩ := guessDCM_name e d (s := "degrees") (by simp [namedDCM]; rfl)
    refine ⟨x0, h, ⟨1, one_pos, fun i => ?_⟩, 1, one_pos, fun i => ?_⟩
    · simp only [hx, (d.class_of i).1, one_mul]; split_ifs with h0
      · exact h0.symm
      · rfl
    · simp only [hy, (d.class_of i).2, one_mul]; split_ifs with h0
      · exact h0.symm
      · rfl
  · obtain ⟨x0, h, hx, hy⟩ := guessDCM_name e d (s := "uniform") (by simp [namedDCM]; rfl)
    exact ⟨x0, h, ⟨0.5, by norm_num, by norm_num, fun i hi => by simp only [hx, if_neg hi]⟩,
      0.5, by norm_num, by norm_num, fun i hi => by simp only [hy, if_neg hi]⟩
  · obtain ⟨x0, h, hx, hy⟩ := guessDCM_name e d (s := "random") (by simp [namedDCM]; rfl)
    refine ⟨x0, h, fun i => ?_, fun i => ?_⟩
    · simp only [hx]; split_ifs
      · norm_num
      · exact ⟨he.rand_nonneg _ _, he.rand_lt _ _⟩
    · simp only [hy]; split_ifs
      · norm_num
      · exact ⟨he.rand_nonneg _ _, he.rand_lt _ _⟩

/-- C47 is false for "degrees_minor" (dcm): proportional, not inversely proportional. -/
theorem C47_dcm_degrees_minor_false :
    ∃ x0, guessDCM e d false (.name "degrees_minor") = .ok x0 ∧
      ProportionalTo (fun i => x0 (0, d.inv i)) d.degOut ∧ ProportionalTo (fun i => x0 (1, d.inv i)) d.degIn ∧
      ∀ i j, 0 < d.degOut i → d.degOut i < d.degOut j → ¬ InverselyProportionalTo (fun i => x0 (0, d.inv i)) d.degOut := by
  obtain ⟨x0, h, hx, hy⟩ := guessDCM_name e d (s := "degrees_minor") (by simp [namedDCM]; rfl)
  have hp : 0 < Real.sqrt d.n_edges + 1 := by positivity
  have hx' : ∀ i, x0 (0, d.inv i) = d.degOut i / (Real.sqrt d.n_edges + 1) := fun i => by
    rw [hx]; split_ifs with h0
    · simp [h0]
    · simp only [(d.class_of i).1]
  have hy' : ∀ i, x0 (1, d.inv i) = d.degIn i / (Real.sqrt d.n_edges + 1) := fun i => by
    rw [hy]; split_ifs with h0
    · simp [h0]
    · simp only [(d.class_of i).2]
  refine ⟨x0, h, ⟨1 / (Real.sqrt d.n_edges + 1), by positivity, fun i => by simp only [hx']; ring⟩,
    ⟨1 / (Real.sqrt d.n_edges + 1), by positivity, fun i => by simp only [hy']; ring⟩, ?_⟩
  rintro i j hi hij ⟨c, hc, hv⟩
  have h1 := hv i hi.ne'
  have h2 := hv j (hi.trans hij).ne'
  simp only [hx'] at h1 h2
  rw [div_eq_div_iff hp.ne' hi.ne'] at h1
  rw [div_eq_div_iff hp.ne' (hi.trans hij).ne'] at h2
  nlinarith

/-- C47 is false for "chung_lu" (dcm): the starting values are `k_i / (2 Σ k)`, with a factor 2 that belongs to undirected graphs and without the square root. -/
theorem C47_dcm_chung_lu_false :
    ∃ x0, guessDCM e d false (.name "chung_lu") = .ok x0 ∧ (∀ i, x0 (0, d.inv i) = d.degOut i / (2 * ∑ l, d.degOut l)) ∧
      (∀ i, x0 (1, d.inv i) = d.degIn i / (2 * ∑ l, d.degOut l)) ∧
      ∀ i j, i ≠ j → 0 < d.degOut i → 0 < d.degIn j → ¬ ChungLu (fun i => x0 (0, d.inv i)) (fun i => x0 (1, d.inv i)) d.degOut d.degIn := by
  obtain ⟨x0, h, hx, hy⟩ := guessDCM_name e d (s := "chung_lu") (by simp [namedDCM]; rfl)
  have hx' : ∀ i, x0 (0, d.inv i) = d.degOut i / (2 * ∑ l, d.degOut l) := fun i => by
    rw [hx]; split_ifs with h0
    · simp [h0]
    · simp only [(d.class_of i).1, DData.n_edges]
  have hy' : ∀ i, x0 (1, d.inv i) = d.degIn i / (2 * ∑ l, d.degOut l) := fun i => by
    rw [hy]; split_ifs with h0
    · simp [h0]
    · simp only [(d.class_of i).2, DData.n_edges]
  refine ⟨x0, h, hx', hy', fun i j hij hi hj hc => ?_⟩
  have h1 := hc i j hij
  simp only [hx', hy'] at h1
  have hS : d.degOut i ≤ ∑ l, d.degOut l := single_le_sum (f := d.degOut) (fun l _ => by simp [DData.degOut]) (mem_univ i)
  have h1i : 1 ≤ d.degOut i := by
    simp only [DData.degOut, Nat.cast_pos] at hi ⊢; exact_mod_cast hi
  set S := ∑ l, d.degOut l with hSd
  have hS0 : 0 < S := by linarith
  have hne : 0 < d.degOut i * d.degIn j := mul_pos hi hj
  rw [div_mul_div_comm, div_eq_div_iff (by positivity) hS0.ne'] at h1
  have h2 : S = 2 * S * (2 * S) := mul_left_cancel₀ hne.ne' h1
  nlinarith

theorem guessDCrema_name {s : String} {v : (Fin n → ℝ) × (Fin n → ℝ)} (hv : namedDCrema e d s = some v) :
    ∃ x y, guessDCrema e d (.name s) = (.ok (x, y), .name s) ∧ (∀ i, x i = if d.out_strength i = 0 then 0 else v.1 i) ∧
      ∀ i, y i = if d.in_strength i = 0 then 0 else v.2 i := by
  obtain ⟨a, b⟩ := v
  exact ⟨_, _, by simp only [guessDCrema, hv]; rfl, fun i => rfl, fun i => rfl⟩

/-- C47 (directed crema): as in the undirected class, including the constant "strengths" guess. -/
theorem C47_dcrema (he : e.Valid) (ho : ∀ i, 0 ≤ d.out_strength i) (hi : ∀ i, 0 ≤ d.in_strength i) :
    (∃ x y, guessDCrema e d (.name "strengths_minor") = (.ok (x, y), .name "strengths_minor") ∧
      InverseRegularised x d.out_strength ∧ InverseRegularised y d.in_strength) ∧
    (∃ x y, guessDCrema e d (.name "random") = (.ok (x, y), .name "random") ∧ UnitInterval x ∧ UnitInterval y) ∧
    (∃ x y, guessDCrema e d (.name "strengths") = (.ok (x, y), .name "strengths") ∧
      (∀ i, 0 < d.out_strength i → x i = 1 / ∑ j, d.out_strength j) ∧ (∀ i, 0 < d.in_strength i → y i = 1 / ∑ j, d.in_strength j) ∧
      ∀ i j, 0 < d.out_strength i → d.out_strength i < d.out_strength j → ¬ ProportionalTo x d.out_strength) := by
  refine ⟨?_, ?_, ?_⟩
  · obtain ⟨x, y, h, hx, hy⟩ := guessDCrema_name e d (s := "strengths_minor") (by simp [namedDCrema]; rfl)
    exact ⟨x, y, h, fun i h0 => by rw [hx, if_neg h0]; simp only [gt_iff_lt, if_pos (lt_of_le_of_ne (ho i) (Ne.symm h0))],
      fun i h0 => by rw [hy, if_neg h0]; simp only [gt_iff_lt, if_pos (lt_of_le_of_ne (hi i) (Ne.symm h0))]⟩
  · obtain ⟨x, y, h, hx, hy⟩ := guessDCrema_name e d (s := "random") (by simp [namedDCrema]; rfl)
    refine ⟨x, y, h, fun i => ?_, fun i => ?_⟩
    · rw [hx]; split_ifs
      · norm_num
      · exact ⟨he.rand_nonneg _ _, he.rand_lt _ _⟩
    · rw [hy]; split_ifs
      · norm_num
      · exact ⟨he.rand_nonneg _ _, he.rand_lt _ _⟩
  · obtain ⟨x, y, h, hx, hy⟩ := guessDCrema_name e d (s := "strengths") (by simp [namedDCrema]; rfl)
    have hx' : ∀ i, 0 < d.out_strength i → x i = 1 / ∑ j, d.out_strength j := fun i h0 => by
      rw [hx, if_neg h0.ne']; simp only [gt_iff_lt, if_pos h0]
    refine ⟨x, y, h, hx', fun i h0 => by rw [hy, if_neg h0.ne']; simp only [gt_iff_lt, if_pos h0], ?_⟩
    rintro i j h0 hij ⟨c, hc, hv⟩
    have h1 := hv i; have h2 := hv j
    rw [hx' i h0] at h1; rw [hx' j (h0.trans hij), h1] at h2
    nlinarith

theorem guessDECM_name {s : String} {v : Fin 4 × Fin n → ℝ} (hv : namedDECM e d 0.9 s = some v) :
    ∃ w, guessDECM e d false (.name s) = (.ok w, .name s) ∧ ∀ b, w b = if d.obs b = 0 then 0 else v b := by
  refine ⟨_, by simp only [guessDECM, Bool.false_eq_true, if_false, hv]; rfl, fun b => ?_⟩
  simp [finishDECM, maskSet]

/-- C47 (decm): every block of the guess against the sequence it belongs to. -/
theorem C47_decm (he : e.Valid) (ho : 0 < ∑ j, d.out_strength j) (hi : 0 < ∑ j, d.in_strength j) :
    (∃ w, guessDECM e d false (.name "strengths") = (.ok w, .name "strengths") ∧
      ProportionalTo (fun i => w (0, i)) d.degOut ∧ ProportionalTo (fun i => w (1, i)) d.degIn ∧
      ProportionalTo (fun i => w (2, i)) d.out_strength ∧ ProportionalTo (fun i => w (3, i)) d.in_strength) ∧
    (∃ w, guessDECM e d false (.name "strengths_minor") = (.ok w, .name "strengths_minor") ∧
      InverseRegularised (fun i => w (0, i)) d.degOut ∧ InverseRegularised (fun i => w (1, i)) d.degIn ∧
      InverseRegularised (fun i => w (2, i)) d.out_strength ∧ InverseRegularised (fun i => w (3, i)) d.in_strength) ∧
    (∃ w, guessDECM e d false (.name "uniform") = (.ok w, .name "uniform") ∧
      UniformOn (fun i => w (0, i)) d.degOut ∧ UniformOn (fun i => w (1, i)) d.degIn ∧
      UniformOn (fun i => w (2, i)) d.out_strength ∧ UniformOn (fun i => w (3, i)) d.in_strength) ∧
    (∃ w, guessDECM e d false (.name "random") = (.ok w, .name "random") ∧ ∀ b, UnitInterval fun i => w (b, i)) := by
  have o0 : ∀ i, d.obs (0, i) = d.degOut i := fun i => by simp [DData.obs]
  have o1 : ∀ i, d.obs (1, i) = d.degIn i := fun i => by simp [DData.obs]
  have o2 : ∀ i, d.obs (2, i) = d.out_strength i := fun i => by simp [DData.obs]
  have o3 : ∀ i, d.obs (3, i) = d.in_strength i := fun i => by simp [DData.obs]
  have hm : 0 ≤ d.n_edges := sum_nonneg fun j _ => by simp [DData.degOut]
  refine ⟨?_, ?_, ?_, ?_⟩
  · obtain ⟨w, h, hw⟩ := guessDECM_name e d (s := "strengths") (by simp [namedDECM]; rfl)
    refine ⟨w, h, ⟨1 / (d.n_edges + 1), by positivity, fun i => ?_⟩, ⟨1 / (d.n_edges + 1), by positivity, fun i => ?_⟩,
      ⟨1 / ∑ j, d.out_strength j, by positivity, fun i => ?_⟩, ⟨1 / ∑ j, d.in_strength j, by positivity, fun i => ?_⟩⟩
    · by_cases h0 : d.degOut i = 0
      · simp [hw, o0, h0]
      · simp [hw, o0, h0]; ring
    · by_cases h0 : d.degIn i = 0
      · simp [hw, o1, h0]
      · simp [hw, o1, h0]; ring
    · by_cases h0 : d.out_strength i = 0
      · simp [hw, o2, h0]
      · simp [hw, o2, h0]; ring
    · by_cases h0 : d.in_strength i = 0
      · simp [hw, o3, h0]
      · simp [hw, o3, h0]; ring
  · obtain ⟨w, h, hw⟩ := guessDECM_name e d (s := "strengths_minor") (by simp [namedDECM]; rfl)
    refine ⟨w, h, fun i h0 => ?_, fun i h0 => ?_, fun i h0 => ?_, fun i h0 => ?_⟩
    · simp only [hw, o0, if_neg h0]; simp
    · simp only [hw, o1, if_neg h0]; simp
    · simp only [hw, o2, if_neg h0]; simp
    · simp only [hw, o3, if_neg h0]; simp
  · obtain ⟨w, h, hw⟩ := guessDECM_name e d (s := "uniform") (by simp [namedDECM]; rfl)
    refine ⟨w, h, ⟨0.9, by norm_num, by norm_num, fun i h0 => ?_⟩, ⟨0.9, by norm_num, by norm_num, fun i h0 => ?_⟩,
      ⟨0.9, by norm_num, by norm_num, fun i h0 => ?_⟩, ⟨0.9, by norm_num, by norm_num, fun i h0 => ?_⟩⟩
    · simp only [hw, o0, if_neg h0]
    · simp only [hw, o1, if_neg h0]
    · simp only [hw, o2, if_neg h0]
    · simp only [hw, o3, if_neg h0]
  · obtain ⟨w, h, hw⟩ := guessDECM_name e d (s := "random") (by simp [namedDECM]; rfl)
    refine ⟨w, h, fun b i => ?_⟩
    simp only [hw]; split_ifs
    · norm_num
    · exact ⟨he.rand_nonneg _ _, he.rand_lt _ _⟩

end directed

end Verif.Solve
