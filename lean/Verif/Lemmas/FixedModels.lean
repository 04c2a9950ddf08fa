import Verif.Lemmas.FixedRun
import Verif.Spec.FixedPoint

/-! The fixed-point methods of the four binary models are recipes in the sense of `Lemmas/FixedRun`. -/

set_option linter.unusedSectionVars false

namespace Verif.Solve

open Verif Finset Reduction Solver Spec FixedPoint

noncomputable section

variable {n : ℕ}

/-! ### solutions -/

/-- the parameters of an undirected network, twice -/
def dup (x : Fin n → ℝ) : Fin 2 × Fin n → ℝ := fun v => x v.2

/-- two blocks -/
def two (x y : Fin n → ℝ) : Fin 2 × Fin n → ℝ := fun v => if v.1 = 0 then x v.2 else y v.2

@[simp] theorem dup_apply (x : Fin n → ℝ) (v : Fin 2 × Fin n) : dup x v = x v.2 := rfl
@[simp] theorem two_zero (x y : Fin n → ℝ) (i : Fin n) : two x y (0, i) = x i := rfl
@[simp] theorem two_one (x y : Fin n → ℝ) (i : Fin n) : two x y (1, i) = y i := rfl

theorem den_dup (x : Fin n → ℝ) (v : Fin 2 × Fin n) : x v.2 * den (dup x) v = degUBCM x v.2 := by
  unfold den degUBCM
  rw [mul_sum]
  exact sum_congr rfl fun j _ => by simp only [dup_apply, linkUBCM]; rw [mul_comm (x j) (x v.2), mul_div_assoc]

theorem den_two0 (x y : Fin n → ℝ) (i : Fin n) : x i * den (two x y) (0, i) = outDBCM x y i := by
  unfold den outDBCM
  rw [mul_sum]
  exact sum_congr rfl fun j _ => by
    simp only [FixedPoint.flip_zero, two_zero, two_one, linkDBCM]; rw [mul_comm (y j) (x i), mul_div_assoc]

theorem den_two1 (x y : Fin n → ℝ) (i : Fin n) : y i * den (two x y) (1, i) = inDBCM x y i := by
  unfold den inDBCM
  rw [mul_sum]
  exact sum_congr rfl fun j _ => by
    simp only [FixedPoint.flip_one, two_zero, two_one, linkDBCM]; rw [mul_div_assoc', mul_comm (y i) (x j)]

theorem sol_dup {k x : Fin n → ℝ} (h : SolvesUBCM k x) : Sol (dup k) (dup x) where
  nonneg v := h.nonneg v.2
  zero v hv := h.zero v.2 hv
  eq v := by rw [dup_apply, den_dup, h.mean]; rfl

theorem sol_two {ko ki x y : Fin n → ℝ} (h : SolvesDBCM ko ki x y) : Sol (two ko ki) (two x y) where
  nonneg v := by
    obtain ⟨b, i⟩ := v
    fin_cases b
    · exact h.nonneg_out i
    · exact h.nonneg_in i
  zero v := by
    obtain ⟨b, i⟩ := v
    fin_cases b
    · exact h.zero_out i
    · exact h.zero_in i
  eq v := by
    obtain ⟨b, i⟩ := v
    fin_cases b
    · exact (den_two0 x y i).trans (h.mean_out i)
    · exact (den_two1 x y i).trans (h.mean_in i)

theorem between_dup {R : ℝ} (hR : 0 < R) (s x : Fin n → ℝ) : Between (1 / R) R (dup s) (dup x) ↔ Within R s x := by
  unfold Between Within
  simp only [dup_apply]
  have e : ∀ a b : ℝ, 1 / R * a ≤ b ↔ a ≤ R * b := fun a b => by rw [one_div, inv_mul_le_iff₀ hR]
  simp only [e]
  exact ⟨fun h => h.1, fun h => ⟨h, h⟩⟩

theorem between_two {R : ℝ} (hR : 0 < R) (s t x y : Fin n → ℝ) : Between (1 / R) R (two s t) (two x y) ↔ Within R s x ∧ Within R t y := by
  unfold Between Within
  simp only [two_zero, two_one]
  have e : ∀ a b : ℝ, 1 / R * a ≤ b ↔ a ≤ R * b := fun a b => by rw [one_div, inv_mul_le_iff₀ hR]
  simp only [e]

/-! ### integers: an exact solution links every node to two others, and so all of them -/

theorem two_partners {κ s : Fin 2 × Fin n → ℝ} (hS : Sol κ s) (hκ : ∀ v, κ v ≠ 0 → 1 ≤ κ v) (v : Fin 2 × Fin n) (hv : s v ≠ 0) :
    ∃ j₁ j₂, j₁ ≠ j₂ ∧ j₁ ≠ v.2 ∧ j₂ ≠ v.2 ∧ s (v.1 + 1, j₁) ≠ 0 ∧ s (v.1 + 1, j₂) ≠ 0 := by
  have h1 := hκ v (hS.kappa_pos hv).ne'
  rw [← hS.eq v, den, mul_sum] at h1
  have hs := hS.pos hv
  have term : ∀ j, s v * (s (v.1 + 1, j) / (1 + s (v.1 + 1, j) * s v)) < 1 := fun j => by
    have h0 := hS.nonneg (v.1 + 1, j)
    rw [mul_div_assoc', div_lt_one (by positivity)]
    linarith
  have zero : ∀ j, s (v.1 + 1, j) = 0 → s v * (s (v.1 + 1, j) / (1 + s (v.1 + 1, j) * s v)) = 0 := fun j hj => by rw [hj]; simp
  by_contra hno
  push Not at hno
  by_cases hex : ∃ j₁, j₁ ≠ v.2 ∧ s (v.1 + 1, j₁) ≠ 0
  · obtain ⟨j₁, hj, hs1⟩ := hex
    rw [sum_eq_single_of_mem j₁ (by simp [hj])] at h1
    · exact absurd h1 (not_le.2 (term j₁))
    · intro j hj2 hne
      simp only [mem_filter, mem_univ, true_and] at hj2
      exact zero j (hno j₁ j hne.symm hj hj2 hs1)
  · push Not at hex
    rw [sum_eq_zero] at h1
    · linarith
    · intro j hj
      simp only [mem_filter, mem_univ, true_and] at hj
      exact zero j (hex j hj)

theorem flip_flip (b : Fin 2) : b + 1 + 1 = b := by fin_cases b <;> rfl

theorem linked_of {κ s : Fin 2 × Fin n → ℝ} (hS : Sol κ s) (hκ : ∀ v, κ v ≠ 0 → 1 ≤ κ v) : Linked s := by
  intro B hB hne hclosed
  refine Subset.antisymm hB ?_
  have same : ∀ b i, (b, i) ∈ B → ∀ k, s (b, k) ≠ 0 → (b, k) ∈ B := by
    intro b i hi k hk
    obtain ⟨j₁, j₂, h12, h1, h2, s1, s2⟩ := two_partners hS hκ (b, i) (mem_act.1 (hB hi))
    have m1 := hclosed (b, i) hi j₁ h1 s1
    have m2 := hclosed (b, i) hi j₂ h2 s2
    simp only at m1 m2
    by_cases hk1 : k = j₁
    · have := hclosed _ m2 k (by simp only; rw [hk1]; exact h12) (by simp only [flip_flip]; exact hk)
      simpa only [flip_flip] using this
    · have := hclosed _ m1 k hk1 (by simp only [flip_flip]; exact hk)
      simpa only [flip_flip] using this
  obtain ⟨⟨b, i⟩, hv⟩ := hne
  have other : ∃ j, (b + 1, j) ∈ B := by
    obtain ⟨j₁, j₂, h12, h1, h2, s1, s2⟩ := two_partners hS hκ (b, i) (mem_act.1 (hB hv))
    exact ⟨j₁, hclosed _ hv j₁ h1 s1⟩
  rintro ⟨b', k⟩ hk
  rw [mem_act] at hk
  by_cases hb : b' = b
  · subst hb; exact same _ i hv k hk
  · obtain rfl : b' = b + 1 := by
      have : ∀ b b' : Fin 2, ¬b' = b → b' = b + 1 := by decide
      exact this b b' hb
    obtain ⟨j, hj⟩ := other
    exact same _ j hj k hk

/-! ### coordinates -/

section coordinates

variable {ι : Type} [Fintype ι] (φ : Fin 2 × Fin n → ι) {s : Fin 2 × Fin n → ℝ} {m M : ℝ}

theorem sq_le_norm2 (y : ι → ℝ) (q : ι) : y q ^ 2 ≤ norm2 y ^ 2 := by
  unfold norm2
  have h0 : 0 ≤ ∑ i, y i ^ 2 := sum_nonneg fun i _ => sq_nonneg _
  rw [Real.sq_sqrt h0]
  exact single_le_sum (f := fun i => y i ^ 2) (fun i _ => sq_nonneg _) (mem_univ q)

theorem lip_plain : ∃ K > 0, ∀ x y : ι → ℝ, ∑ v, (y (φ v) - x (φ v)) ^ 2 ≤ K * norm2 (y - x) ^ 2 := by
  refine ⟨(Fintype.card (Fin 2 × Fin n) : ℝ) + 1, by positivity, fun x y => ?_⟩
  calc ∑ v, (y (φ v) - x (φ v)) ^ 2 ≤ ∑ _v : Fin 2 × Fin n, norm2 (y - x) ^ 2 := sum_le_sum fun v _ => sq_le_norm2 (y - x) (φ v)
    _ = (Fintype.card (Fin 2 × Fin n) : ℝ) * norm2 (y - x) ^ 2 := by rw [sum_const, nsmul_eq_mul]; rfl
    _ ≤ _ := mul_le_mul_of_nonneg_right (by linarith) (sq_nonneg _)

theorem exp_lip {a b B : ℝ} (ha : Real.exp a ≤ B) (hb : Real.exp b ≤ B) : (Real.exp a - Real.exp b) ^ 2 ≤ B ^ 2 * (a - b) ^ 2 := by
  have hB : 0 < B := (Real.exp_pos a).trans_le ha
  have key : ∀ u w : ℝ, Real.exp u ≤ B → w ≤ u → Real.exp u - Real.exp w ≤ B * (u - w) ∧ 0 ≤ Real.exp u - Real.exp w := fun u w hu hwu => by
    refine ⟨?_, sub_nonneg.2 (Real.exp_le_exp.2 hwu)⟩
    have h1 : Real.exp w = Real.exp u * Real.exp (w - u) := by rw [← Real.exp_add]; ring_nf
    have h2 := Real.add_one_le_exp (w - u)
    rw [h1]
    have h3 := Real.exp_pos u
    nlinarith [mul_le_mul_of_nonneg_right hu (sub_nonneg.2 hwu)]
  rw [← mul_pow]
  rcases le_total b a with h | h
  · obtain ⟨h1, h2⟩ := key a b ha h
    exact pow_le_pow_left₀ h2 h1 2
  · obtain ⟨h1, h2⟩ := key b a hb h
    have := pow_le_pow_left₀ h2 h1 2
    calc (Real.exp a - Real.exp b) ^ 2 = (Real.exp b - Real.exp a) ^ 2 := by ring
      _ ≤ _ := this
      _ = _ := by ring

theorem Between.upper (hs : ∀ v, 0 ≤ s v) (hm : 0 < m) (hM : 0 < M) : ∃ B, 0 < B ∧ ∀ z, Between m M s z → ∀ v, z v ≤ B := by
  refine ⟨∑ v, (M + 1 / m) * s v + 1, ?_, fun z h v => ?_⟩
  · have : 0 ≤ ∑ v, (M + 1 / m) * s v := sum_nonneg fun v _ => mul_nonneg (by positivity) (hs v)
    linarith
  · have h1 : (M + 1 / m) * s v ≤ ∑ v, (M + 1 / m) * s v := single_le_sum (f := fun v => (M + 1 / m) * s v) (fun v _ => mul_nonneg (by positivity) (hs v)) (mem_univ v)
    have h2 : z v ≤ (M + 1 / m) * s v := by
      have h3 : 0 ≤ M * s v := mul_nonneg hM.le (hs v)
      have h4 : 0 ≤ 1 / m * s v := mul_nonneg (by positivity) (hs v)
      obtain ⟨b, i⟩ := v
      fin_cases b
      · replace h3 : 0 ≤ M * s (0, i) := h3
        replace h4 : 0 ≤ 1 / m * s (0, i) := h4
        show z (0, i) ≤ (M + 1 / m) * s (0, i)
        have := (h.1 i).2
        linarith
      · replace h3 : 0 ≤ M * s (1, i) := h3
        replace h4 : 0 ≤ 1 / m * s (1, i) := h4
        show z (1, i) ≤ (M + 1 / m) * s (1, i)
        have h5 := (h.2 i).2
        have : z (1, i) ≤ 1 / m * s (1, i) := by rw [one_div, le_inv_mul_iff₀ hm]; exact h5
        linarith
    linarith

theorem lip_exp (hs : ∀ v, 0 ≤ s v) (hm : 0 < m) (hM : 0 < M) : ∃ K > 0, ∀ x y : ι → ℝ, Between m M s (fun v => Real.exp (-x (φ v))) →
    Between m M s (fun v => Real.exp (-y (φ v))) → ∑ v, (Real.exp (-y (φ v)) - Real.exp (-x (φ v))) ^ 2 ≤ K * norm2 (y - x) ^ 2 := by
  obtain ⟨B, hB, hz⟩ := Between.upper hs hm hM
  obtain ⟨K, hK, h⟩ := lip_plain φ
  refine ⟨B ^ 2 * K, by positivity, fun x y hx hy => ?_⟩
  rw [mul_assoc]
  refine le_trans ?_ (mul_le_mul_of_nonneg_left (h x y) (sq_nonneg B))
  rw [mul_sum]
  refine sum_le_sum fun v _ => ?_
  have := exp_lip (hz _ hy v) (hz _ hx v)
  calc _ ≤ _ := this
    _ = _ := by ring

theorem exp_damp_ge {c p q a : ℝ} (h0 : 0 ≤ a) (h1 : a ≤ 1) (hp : c ≤ Real.exp (-p)) (hq : c ≤ Real.exp (-q)) : c ≤ Real.exp (-(p + a * (q - p))) := by
  rcases le_total p q with h | h
  · exact hq.trans (Real.exp_le_exp.2 (by nlinarith))
  · exact hp.trans (Real.exp_le_exp.2 (by nlinarith))

theorem exp_damp_le {c p q a : ℝ} (h0 : 0 ≤ a) (h1 : a ≤ 1) (hp : Real.exp (-p) ≤ c) (hq : Real.exp (-q) ≤ c) : Real.exp (-(p + a * (q - p))) ≤ c := by
  rcases le_total p q with h | h
  · exact (Real.exp_le_exp.2 (by nlinarith)).trans hp
  · exact (Real.exp_le_exp.2 (by nlinarith)).trans hq

theorem damp_exp (hm : 0 < m) (hM : 0 < M) (x y : ι → ℝ) {a : ℝ} (h0 : 0 ≤ a) (h1 : a ≤ 1) (hx : Between m M s (fun v => Real.exp (-x (φ v))))
    (hy : Between m M s (fun v => Real.exp (-y (φ v)))) : Between m M s (fun v => Real.exp (-(x + a • (y - x)) (φ v))) := by
  have e : ∀ v, (x + a • (y - x)) (φ v) = x (φ v) + a * (y (φ v) - x (φ v)) := fun v => by simp
  refine ⟨fun i => ?_, fun i => ?_⟩
  · simp only [e]
    exact ⟨exp_damp_ge h0 h1 (hx.1 i).1 (hy.1 i).1, exp_damp_le h0 h1 (hx.1 i).2 (hy.1 i).2⟩
  · simp only [e]
    have a1 := (hx.2 i).1; have a2 := (hx.2 i).2; have b1 := (hy.2 i).1; have b2 := (hy.2 i).2
    rw [mul_comm, ← div_le_iff₀ hM] at a1 b1
    rw [mul_comm, ← le_div_iff₀ hm] at a2 b2
    constructor
    · rw [mul_comm, ← div_le_iff₀ hM]; exact exp_damp_ge h0 h1 a1 b1
    · rw [mul_comm, ← le_div_iff₀ hm]; exact exp_damp_le h0 h1 a2 b2

theorem damp_plain (x y : ι → ℝ) {a : ℝ} (h0 : 0 ≤ a) (h1 : a ≤ 1) (hx : Between m M s (fun v => x (φ v))) (hy : Between m M s (fun v => y (φ v))) :
    Between m M s (fun v => (x + a • (y - x)) (φ v)) := by
  have := hx.damp hy h0 h1
  exact this

end coordinates

/-! ### the recipes -/

section cm

variable (e : Env) (d : UData n)

theorem UData.den_inv (x : Fin d.r → ℝ) (v : Fin 2 × Fin n) : den (fun v : Fin 2 × Fin n => x (d.inv v.2)) v =
    ∑ q, if d.inv v.2 = q then (d.c q - 1) * (x q / (1 + x q * x (d.inv v.2))) else d.c q * (x q / (1 + x q * x (d.inv v.2))) := by
  unfold den
  rw [sum_ne]
  exact sum_classes_ne d.dseq (fun q => x q / (1 + x q * x (d.inv v.2))) v.2

theorem UData.F_inv [NeZero n] (x : Fin d.r → ℝ) (v : Fin 2 × Fin n) :
    CM.iterative_cm x d.k d.c (d.inv v.2) = F (dup d.deg) (fun v : Fin 2 × Fin n => x (d.inv v.2)) v := by
  rw [CM.iterative_eq, F, d.den_inv, d.k_at_inv]
  split_ifs with h
  · rfl
  · push Not at h
    rw [h, div_zero]

theorem recipe_cm [NeZero n] {xs : Fin n → ℝ} (hS : SolvesUBCM d.deg xs) {R : ℝ} (hR : 0 < R) :
    Recipe (cbCM e d .fixed_point) (fun x v => x (d.inv v.2)) (dup d.deg) (dup xs) (1 / R) R where
  sol := sol_dup hS
  m_pos := by positivity
  M_pos := hR
  fn x _ := funext fun v => d.F_inv x v
  damp x y a h0 h1 hx hy := damp_plain (fun v : Fin 2 × Fin n => d.inv v.2) x y h0 h1 hx hy
  lip := by
    obtain ⟨K, hK, h⟩ := lip_plain (fun v : Fin 2 × Fin n => d.inv v.2)
    exact ⟨K, hK, fun x y _ _ => h x y⟩
  len x dx dxo t := by
    refine ⟨_, rfl, ?_⟩
    unfold linsearch_fun_CM_fixed
    have h := normStage_spec dx dxo (beta := 0.5) t (by norm_num) (by norm_num) (positivityStage_nonneg (List.finRange d.r) x dx 1 (by norm_num))
    exact ⟨h.2.2.1, h.1.trans (positivityStage_le _ _ _ _)⟩

theorem recipe_cm_exp [NeZero n] (hd : ∀ i, d.dseq i ≠ 0) {xs : Fin n → ℝ} (hS : SolvesUBCM d.deg xs) {R : ℝ} (hR : 0 < R) :
    Recipe (cbCMexp e d .fixed_point) (fun θ v => Real.exp (-θ (d.inv v.2))) (dup d.deg) (dup xs) (1 / R) R where
  sol := sol_dup hS
  m_pos := by positivity
  M_pos := hR
  fn θ hb := funext fun v => by
    have hk : 0 < d.deg v.2 := by simp only [UData.deg]; exact_mod_cast Nat.pos_of_ne_zero (hd v.2)
    have hsv : dup xs v ≠ 0 := fun h => by
      have := (sol_dup hS).kappa_zero h
      exact hk.ne' this
    have hden := den_pos_of (sol_dup hS) (by positivity) hR hb hsv
    have h := d.den_inv (fun q => Real.exp (-θ q)) v
    show Real.exp (-CM.iterative_cm_exp θ d.k d.c (d.inv v.2)) = _
    rw [CM.iterative_exp_eq, ← h, if_pos hden.ne', neg_neg, d.k_at_inv]
    exact Real.exp_log (div_pos hk hden)
  damp x y a h0 h1 hx hy := damp_exp (fun v : Fin 2 × Fin n => d.inv v.2) (by positivity) hR x y h0 h1 hx hy
  lip := lip_exp (fun v : Fin 2 × Fin n => d.inv v.2) (sol_dup hS).nonneg (by positivity) hR
  len x dx dxo t := by
    refine ⟨_, rfl, ?_⟩
    unfold linsearch_fun_CM_exp_fixed
    have h := normStage_spec dx dxo (alfa := 1) (beta := 0.5) t (by norm_num) (by norm_num) (by norm_num)
    exact ⟨h.2.2.1, h.1⟩

end cm

section dcm

variable [NeZero n] (e : Env) (d : DData n)

theorem DData.den_inv (x : Fin 2 × Fin d.r → ℝ) (v : Fin 2 × Fin n) :
    den (fun v : Fin 2 × Fin n => x (v.1, d.inv v.2)) v = DCM.iterative_den x d.c (v.1, d.inv v.2) := by
  obtain ⟨b, i⟩ := v
  unfold den
  rw [sum_ne]
  fin_cases b
  · show (∑ j, if i = j then 0 else x (1, d.inv j) / (1 + x (1, d.inv j) * x (0, d.inv i))) = DCM.iterative_den x d.c (0, d.inv i)
    rw [DCM.den_eq0]
    refine (sum_classes_ne d.seq (fun q => x (1, q) / (1 + x (1, q) * x (0, d.inv i))) i).trans (sum_congr rfl fun q _ => ?_)
    rw [mul_comm (x (1, q))]
    by_cases h : d.inv i = q
    · rw [if_pos h, if_pos (show r_invert_dseq d.seq i = q from h), mul_div_assoc]; rfl
    · rw [if_neg h, if_neg (show ¬r_invert_dseq d.seq i = q from h), mul_div_assoc]; rfl
  · show (∑ j, if i = j then 0 else x (0, d.inv j) / (1 + x (0, d.inv j) * x (1, d.inv i))) = DCM.iterative_den x d.c (1, d.inv i)
    rw [DCM.den_eq1]
    refine (sum_classes_ne d.seq (fun q => x (0, q) / (1 + x (0, q) * x (1, d.inv i))) i).trans (sum_congr rfl fun q _ => ?_)
    by_cases h : d.inv i = q
    · rw [if_pos h, if_pos (show r_invert_dseq d.seq i = q from h), mul_div_assoc]; rfl
    · rw [if_neg h, if_neg (show ¬r_invert_dseq d.seq i = q from h), mul_div_assoc]; rfl

theorem DData.concat_inv (v : Fin 2 × Fin n) : DCM.concat d.ko d.ki (v.1, d.inv v.2) = two d.degOut d.degIn v := by
  obtain ⟨b, i⟩ := v
  fin_cases b
  · exact (d.class_of i).1
  · exact (d.class_of i).2

theorem recipe_dcm {xs ys : Fin n → ℝ} (hS : SolvesDBCM d.degOut d.degIn xs ys) {R : ℝ} (hR : 0 < R) :
    Recipe (cbDCM e d .fixed_point) (fun x v => x (v.1, d.inv v.2)) (two d.degOut d.degIn) (two xs ys) (1 / R) R where
  sol := sol_two hS
  m_pos := by positivity
  M_pos := hR
  fn x _ := funext fun v => by
    show DCM.concat d.ko d.ki (v.1, d.inv v.2) / DCM.iterative_den x d.c (v.1, d.inv v.2) = _
    rw [d.concat_inv, ← d.den_inv]
    rfl
  damp x y a h0 h1 hx hy := damp_plain (fun v : Fin 2 × Fin n => (v.1, d.inv v.2)) x y h0 h1 hx hy
  lip := by
    obtain ⟨K, hK, h⟩ := lip_plain (fun v : Fin 2 × Fin n => (v.1, d.inv v.2))
    exact ⟨K, hK, fun x y _ _ => h x y⟩
  len x dx dxo t := by
    refine ⟨_, rfl, ?_⟩
    unfold linsearch_fun_DCM_fixed
    have h := normStage_spec dx dxo (beta := 0.5) t (by norm_num) (by norm_num) (positivityStage'_pos (blocks 2 d.r) x dx 1 (by norm_num)).le
    exact ⟨h.2.2.1, h.1.trans (positivityStage'_le _ _ _ _)⟩

theorem recipe_dcm_exp (ho : ∀ i, d.dseq_out i ≠ 0) (hi : ∀ i, d.dseq_in i ≠ 0) {xs ys : Fin n → ℝ} (hS : SolvesDBCM d.degOut d.degIn xs ys) {R : ℝ} (hR : 0 < R) :
    Recipe (cbDCMexp e d .fixed_point) (fun θ v => Real.exp (-θ (v.1, d.inv v.2))) (two d.degOut d.degIn) (two xs ys) (1 / R) R where
  sol := sol_two hS
  m_pos := by positivity
  M_pos := hR
  fn θ hb := funext fun v => by
    have hk : 0 < two d.degOut d.degIn v := by
      obtain ⟨b, i⟩ := v
      fin_cases b
      · show 0 < d.degOut i
        simp only [DData.degOut]; exact_mod_cast Nat.pos_of_ne_zero (ho i)
      · show 0 < d.degIn i
        simp only [DData.degIn]; exact_mod_cast Nat.pos_of_ne_zero (hi i)
    have hsv : two xs ys v ≠ 0 := fun h => hk.ne' ((sol_two hS).kappa_zero h)
    have hden := den_pos_of (sol_two hS) (by positivity) hR hb hsv
    have h := d.den_inv (fun q => Real.exp (-θ q)) v
    show Real.exp (-(-Real.log (DCM.concat d.ko d.ki (v.1, d.inv v.2) / DCM.iterative_den (fun q => Real.exp (-θ q)) d.c (v.1, d.inv v.2)))) = _
    rw [d.concat_inv, ← h, neg_neg, Real.exp_log (div_pos hk hden)]
    rfl
  damp x y a h0 h1 hx hy := damp_exp (fun v : Fin 2 × Fin n => (v.1, d.inv v.2)) (by positivity) hR x y h0 h1 hx hy
  lip := lip_exp (fun v : Fin 2 × Fin n => (v.1, d.inv v.2)) (sol_two hS).nonneg (by positivity) hR
  len x dx dxo t := by
    refine ⟨_, rfl, ?_⟩
    unfold linsearch_fun_DCM_exp_fixed
    have h := normStage_spec dx dxo (alfa := 1) (beta := 0.5) t (by norm_num) (by norm_num) (by norm_num)
    exact ⟨h.2.2.1, h.1⟩

end dcm

end

end Verif.Solve
