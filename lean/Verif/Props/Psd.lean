import Verif.Props.Regulariser
import Verif.Props.CReMa
import Verif.Props.DCReMa
import Verif.Lemmas.DCM
import Verif.Lemmas.ECM
import Verif.Lemmas.DECM
import Verif.Model.SolveD

/-! C17, second part: for the models regularised by the identity shift (cm_exp, dcm_exp, ecm_exp, decm_exp, both dense cremas) minus the Hessian the code
computes is positive semidefinite wherever the model is defined, so the hypothesis of `C17_newton_identity_descent` is met at every point of the domain. -/

namespace Verif.Psd

open Finset Verif.Spec Verif.Solver Verif.Solve

variable {n : ℕ}

/-! ### Quadratic forms of pair interactions -/

theorem und_form (K : Fin n → Fin n → ℝ) (hK : ∀ i j, K i j = K j i) (p q : Fin n → ℝ) :
    ∑ i, ∑ j, p i * (if i = j then ∑ k, (if i = k then 0 else K i k) else K i j) * q j =
      (1 / 2) * ∑ i, ∑ j, (if i = j then 0 else K i j) * ((p i + p j) * (q i + q j)) := by
  set W : Fin n → Fin n → ℝ := fun i j => if i = j then 0 else K i j with hW
  have hs : ∀ i j, W i j = W j i := fun i j => by simp only [hW, hK i j, eq_comm]
  have h1 : ∀ i, ∑ j, p i * (if i = j then ∑ k, W i k else K i j) * q j = p i * (∑ k, W i k) * q i + ∑ j, p i * W i j * q j := by
    intro i
    have : ∀ j, p i * (if i = j then ∑ k, W i k else K i j) * q j =
        (if i = j then p i * (∑ k, W i k) * q j else 0) + p i * W i j * q j := by
      intro j; simp only [hW]; split_ifs <;> ring
    simp only [this, sum_add_distrib, sum_ite_eq, mem_univ, if_true]
  have h2 : ∑ i, ∑ j, W i j * (p j * q j) = ∑ i, ∑ j, W i j * (p i * q i) := by
    rw [sum_comm]; exact sum_congr rfl fun i _ => sum_congr rfl fun j _ => by rw [hs]
  have h3 : ∑ i, ∑ j, W i j * (p j * q i) = ∑ i, ∑ j, W i j * (p i * q j) := by
    rw [sum_comm]; exact sum_congr rfl fun i _ => sum_congr rfl fun j _ => by rw [hs]
  have h4 : ∑ i, ∑ j, W i j * ((p i + p j) * (q i + q j)) = 2 * ((∑ i, ∑ j, W i j * (p i * q i)) + ∑ i, ∑ j, W i j * (p i * q j)) := by
    have : ∀ i j, W i j * ((p i + p j) * (q i + q j)) = W i j * (p i * q i) + W i j * (p j * q j) + W i j * (p i * q j) + W i j * (p j * q i) :=
      fun i j => by ring
    simp only [this, sum_add_distrib]
    rw [h2, h3]; ring
  rw [h4, sum_congr rfl fun i _ => h1 i, sum_add_distrib]
  have h5 : ∀ i, p i * (∑ k, W i k) * q i = ∑ j, W i j * (p i * q i) := fun i => by rw [← sum_mul]; ring
  have h6 : ∀ i j, p i * W i j * q j = W i j * (p i * q j) := fun i j => by ring
  simp only [h5, h6]
  ring

theorem bip_form (K : Fin n → Fin n → ℝ) (p q p' q' : Fin n → ℝ) :
    (∑ i, ∑ j, p i * (if i = j then ∑ k, K i k else 0) * p' j) + (∑ i, ∑ j, p i * K i j * q' j) +
      (∑ i, ∑ j, q i * K j i * p' j) + (∑ i, ∑ j, q i * (if i = j then ∑ k, K k i else 0) * q' j) =
      ∑ i, ∑ j, K i j * ((p i + q j) * (p' i + q' j)) := by
  have h1 : ∀ i, ∑ j, p i * (if i = j then ∑ k, K i k else 0) * p' j = ∑ j, K i j * (p i * p' i) := by
    intro i
    have : ∀ j, p i * (if i = j then ∑ k, K i k else 0) * p' j = if i = j then p i * (∑ k, K i k) * p' j else 0 := by
      intro j; split_ifs <;> ring
    simp only [this, sum_ite_eq, mem_univ, if_true]
    rw [← sum_mul]; ring
  have h2 : ∀ i, ∑ j, q i * (if i = j then ∑ k, K k i else 0) * q' j = ∑ j, K j i * (q i * q' i) := by
    intro i
    have : ∀ j, q i * (if i = j then ∑ k, K k i else 0) * q' j = if i = j then q i * (∑ k, K k i) * q' j else 0 := by
      intro j; split_ifs <;> ring
    simp only [this, sum_ite_eq, mem_univ, if_true]
    rw [← sum_mul]; ring
  have h3 : ∑ i, ∑ j, q i * K j i * p' j = ∑ i, ∑ j, q j * K i j * p' i := sum_comm
  have h4 : ∑ i, ∑ j, K j i * (q i * q' i) = ∑ i, ∑ j, K i j * (q j * q' j) := sum_comm
  rw [sum_congr rfl fun i _ => h1 i, sum_congr rfl fun i _ => h2 i, h3, h4]
  simp only [← sum_add_distrib]
  exact sum_congr rfl fun i _ => sum_congr rfl fun j _ => by ring

theorem form_nonneg {A B D u v : ℝ} (hA : 0 ≤ A) (hD : 0 ≤ D) (h : B ^ 2 ≤ A * D) : 0 ≤ A * (u * u) + B * (u * v) + B * (v * u) + D * (v * v) := by
  rcases hA.eq_or_lt with h0 | h0
  · subst h0
    have : B = 0 := by nlinarith [sq_nonneg B]
    subst this; nlinarith [mul_nonneg hD (mul_self_nonneg v)]
  · have h1 : 0 ≤ (A * u + B * v) ^ 2 + (A * D - B ^ 2) * v ^ 2 := add_nonneg (sq_nonneg _) (mul_nonneg (by linarith) (sq_nonneg _))
    have h2 : (A * u + B * v) ^ 2 + (A * D - B ^ 2) * v ^ 2 = A * (A * (u * u) + B * (u * v) + B * (v * u) + D * (v * v)) := by ring
    rw [h2] at h1
    exact nonneg_of_mul_nonneg_right h1 h0

theorem quad_eq {ι : Type*} [Fintype ι] (M : Matrix ι ι ℝ) (v : ι → ℝ) : quad M v = ∑ i, ∑ j, v i * M i j * v j := rfl

/-! ### cm_exp -/

/-- C17 (cm_exp): minus the Hessian `loglikelihood_hessian_cm_exp` is positive semidefinite for all parameters and all multiplicities at least one. -/
theorem C17_cm_exp_hessian_psd (x k c : Fin n → ℝ) (hc : ∀ i, 1 ≤ c i) : PosSemi (negM (CM.loglikelihood_hessian_cm_exp x k c)) := by
  intro v
  set g : Fin n → Fin n → ℝ := fun a b => (Real.exp (-x a) * Real.exp (-x b) / (1 + Real.exp (-x a) * Real.exp (-x b)) ^ 2) * c a * c b with hg
  set d : Fin n → ℝ := fun a => (Real.exp (-x a) ^ 2 / (1 + Real.exp (-x a) ^ 2) ^ 2) * c a * (c a - 1) with hd
  have hg0 : ∀ a b, 0 ≤ g a b := fun a b => by
    have := hc a; have := hc b
    have h1 : 0 ≤ c a := by linarith
    have h2 : 0 ≤ c b := by linarith
    simp only [hg]; positivity
  have hd0 : ∀ a, 0 ≤ d a := fun a => by
    have h1 : 0 ≤ c a := by linarith [hc a]
    have h2 : 0 ≤ c a - 1 := by linarith [hc a]
    simp only [hd]; positivity
  have e : ∀ a b, v a * negM (CM.loglikelihood_hessian_cm_exp x k c) a b * v b =
      (if a = b then d a * v a ^ 2 else 0) + v a * (if a = b then ∑ h, (if a = h then 0 else g a h) else g a b) * v b := by
    intro a b
    simp only [negM]
    rw [CM.hess_exp_eq]
    by_cases hab : a = b
    · subst hab
      simp only [if_true]
      have : ∀ h, (if a = h then -((Real.exp (-x h) ^ 2 / (1 + Real.exp (-x h) ^ 2) ^ 2) * c a * (c h - 1))
          else -((Real.exp (-x a) * Real.exp (-x h) / (1 + Real.exp (-x a) * Real.exp (-x h)) ^ 2) * c a * c h)) =
          -((if a = h then d a else 0) + (if a = h then 0 else g a h)) := by
        intro h; split_ifs with hh
        · subst hh; simp [hd]
        · simp [hg]
      simp only [this, sum_neg_distrib, sum_add_distrib, sum_ite_eq, mem_univ, if_true]
      ring
    · simp only [hab, if_false, hg]; ring
  rw [quad_eq]
  simp only [e, sum_add_distrib, sum_ite_eq, mem_univ, if_true]
  rw [und_form g (fun a b => by simp only [hg, mul_comm (Real.exp (-x a))]; ring)]
  refine add_nonneg (sum_nonneg fun a _ => mul_nonneg (hd0 a) (sq_nonneg _)) (mul_nonneg (by norm_num) (sum_nonneg fun a _ => sum_nonneg fun b _ => ?_))
  refine mul_nonneg ?_ (mul_self_nonneg _)
  split_ifs
  · exact le_rfl
  · exact hg0 a b

/-! ### Directed binary model and directed crema: two blocks -/

theorem quad_two (M : Matrix (Fin 2 × Fin n) (Fin 2 × Fin n) ℝ) (v : Fin 2 × Fin n → ℝ) : quad M v =
    (∑ i, ∑ j, v (0, i) * M (0, i) (0, j) * v (0, j)) + (∑ i, ∑ j, v (0, i) * M (0, i) (1, j) * v (1, j)) +
    (∑ i, ∑ j, v (1, i) * M (1, i) (0, j) * v (0, j)) + (∑ i, ∑ j, v (1, i) * M (1, i) (1, j) * v (1, j)) := by
  rw [quad_eq]
  simp only [Fintype.sum_prod_type, Fin.sum_univ_two, sum_add_distrib]
  ring

theorem bip_psd (M : Matrix (Fin 2 × Fin n) (Fin 2 × Fin n) ℝ) (K : Fin n → Fin n → ℝ) (hK : ∀ i j, 0 ≤ K i j)
    (h00 : ∀ i j, M (0, i) (0, j) = if i = j then ∑ k, K i k else 0) (h01 : ∀ i j, M (0, i) (1, j) = K i j)
    (h10 : ∀ i j, M (1, i) (0, j) = K j i) (h11 : ∀ i j, M (1, i) (1, j) = if i = j then ∑ k, K k i else 0) : PosSemi M := by
  intro v
  rw [quad_two]
  simp only [h00, h01, h10, h11]
  rw [bip_form K (fun i => v (0, i)) (fun i => v (1, i)) (fun i => v (0, i)) (fun i => v (1, i))]
  exact sum_nonneg fun i _ => sum_nonneg fun j _ => mul_nonneg (hK i j) (mul_self_nonneg _)

/-- C17 (dcm_exp): minus the Hessian `loglikelihood_hessian_dcm_exp` is positive semidefinite for all parameters, all degrees and all multiplicities at least
one. -/
theorem C17_dcm_exp_hessian_psd (x : Fin 2 × Fin n → ℝ) (ko ki : Fin n → ℝ) (no ni : List (Fin n)) (c : Fin n → ℝ) (hno : no.Nodup) (hni : ni.Nodup)
    (hc : ∀ i, 1 ≤ c i) : PosSemi (negM (DCM.loglikelihood_hessian_dcm_exp x ko ki no ni c)) := by
  set K : Fin n → Fin n → ℝ := fun i j => if i ∈ no ∧ j ∈ ni then DCM.w c i j * (Real.exp (-x (0, i)) * Real.exp (-x (1, j))) /
    (1 + Real.exp (-x (0, i)) * Real.exp (-x (1, j))) ^ 2 else 0 with hK
  have hw : ∀ i j, 0 ≤ DCM.w c i j := fun i j => by
    have h1 : 0 ≤ c i := by linarith [hc i]
    have h2 : 0 ≤ c j := by linarith [hc j]
    have h3 : 0 ≤ c i - 1 := by linarith [hc i]
    unfold DCM.w; split_ifs <;> positivity
  refine bip_psd _ K (fun i j => ?_) (fun a b => ?_) (fun a b => ?_) (fun a b => ?_) (fun a b => ?_)
  · simp only [hK]; split_ifs
    · have := hw i j; positivity
    · exact le_rfl
  all_goals
    simp only [negM]
    obtain ⟨e1, e2, e3, e4⟩ := DCM.hess_exp_eq x ko ki no ni c hno hni a b
  · rw [e1]
    by_cases hab : a = b
    · subst hab
      by_cases ha : a ∈ no
      · simp only [ha, true_and, if_true, neg_neg, hK]
        rw [← sum_filter]
        refine sum_congr (by ext; simp) fun j _ => by rw [mul_comm (Real.exp (-x (1, j)))]
      · simp [hK, ha]
    · simp [hab]
  · rw [e2]
    by_cases hab : a ∈ no ∧ b ∈ ni
    · simp only [hK, hab, and_self, if_true, mul_comm (Real.exp (-x (1, b)))]; ring
    · simp [hK, hab]
  · rw [e4]
    by_cases hab : a ∈ ni ∧ b ∈ no
    · simp only [hK, hab, and_self, if_true]; ring
    · have : ¬ (b ∈ no ∧ a ∈ ni) := fun h => hab h.symm
      simp [hK, hab, this]
  · rw [e3]
    by_cases hab : a = b
    · subst hab
      by_cases ha : a ∈ ni
      · simp only [ha, and_true, true_and, if_true, neg_neg, hK]
        rw [← sum_filter]
        exact sum_congr (by ext; simp) fun j _ => rfl
      · simp [hK, ha]
    · simp [hab]

/-- C17 (directed crema): minus the Hessian is positive semidefinite for every non-negative link matrix. -/
theorem C17_dcrema_hessian_psd (β : Fin 2 × Fin n → ℝ) (a : Fin n → Fin n → ℝ) (ha : ∀ i j, 0 ≤ a i j) :
    PosSemi (negM (DCReMa.loglikelihood_hessian_crema_directed β (nzEdges a))) := by
  refine bip_psd _ (fun i j => a i j / (β (0, i) + β (1, j)) ^ 2) (fun i j => div_nonneg (ha i j) (sq_nonneg _)) (fun p q => ?_) (fun p q => ?_)
    (fun p q => ?_) (fun p q => ?_)
  all_goals simp only [negM]
  · rw [(DCReMa.hess_val β a p q).1]; split_ifs <;> simp
  · rw [(DCReMa.hess_val β a p q).2.2.1]; simp
  · rw [(DCReMa.hess_val β a q p).2.2.2]; simp
  · rw [(DCReMa.hess_val β a p q).2.1]; split_ifs <;> simp

/-- C17 (undirected crema): minus the Hessian is positive semidefinite for every symmetric loop-free non-negative link matrix. -/
theorem C17_crema_hessian_psd (β : Fin n → ℝ) (a : Fin n → Fin n → ℝ) (hs : ∀ i j, a i j = a j i) (hd : ∀ i, a i i = 0) (ha : ∀ i j, 0 ≤ a i j) :
    PosSemi (negM (CReMa.loglikelihood_hessian_crema_undirected β (triuEdges a))) := by
  intro v
  set g : Fin n → Fin n → ℝ := fun i j => a i j / (β i + β j) ^ 2 with hg
  have e : ∀ p q, negM (CReMa.loglikelihood_hessian_crema_undirected β (triuEdges a)) p q =
      if p = q then ∑ k, (if p = k then 0 else g p k) else g p q := by
    intro p q
    simp only [negM]
    split_ifs with h
    · subst h
      rw [CReMa.hess_triu_diag β a hs hd, ← sum_neg_distrib]
      refine sum_congr rfl fun k _ => ?_
      split_ifs with hk
      · subst hk; simp [hd]
      · simp [hg]
    · rw [CReMa.hess_triu_off β a hs p q h]; simp [hg]
  rw [quad_eq]
  simp only [e]
  rw [und_form g (fun i j => by simp only [hg, hs i j, add_comm (β i)])]
  refine mul_nonneg (by norm_num) (sum_nonneg fun i _ => sum_nonneg fun j _ => mul_nonneg ?_ (mul_self_nonneg _))
  split_ifs
  · exact le_rfl
  · exact div_nonneg (ha i j) (sq_nonneg _)

/-! ### ecm_exp, decm_exp -/

/-- the 2x2 matrix of one pair: variance and covariance of the link and the weight -/
theorem pair_cov {X Y : ℝ} (hX : 0 ≤ X) (hY : 0 ≤ Y) (hY1 : Y < 1) :
    0 ≤ DECM.RA X Y ∧ 0 ≤ DECM.SB X Y ∧ DECM.RB X Y ^ 2 ≤ DECM.RA X Y * DECM.SB X Y := by
  have h1 : 0 < 1 - Y := by linarith
  have h2 : 0 < 1 - Y + X * Y := by positivity
  have h3 : 0 ≤ 1 - Y ^ 2 + X * Y ^ 2 := by nlinarith [mul_nonneg hX (sq_nonneg Y)]
  refine ⟨by unfold DECM.RA; positivity, by unfold DECM.SB; positivity, ?_⟩
  have e : DECM.RA X Y * DECM.SB X Y - DECM.RB X Y ^ 2 = X ^ 2 * Y ^ 2 * (Y * (1 - Y + X * Y)) / ((1 - Y) * (1 - Y + X * Y) ^ 4) := by
    unfold DECM.RA DECM.SB DECM.RB
    field_simp
    ring
  have : 0 ≤ DECM.RA X Y * DECM.SB X Y - DECM.RB X Y ^ 2 := by rw [e]; positivity
  linarith

/-- C17 (ecm_exp): minus the Hessian is positive semidefinite wherever every pair has a convergent weight distribution. -/
theorem C17_ecm_exp_hessian_psd (θ : Fin 2 × Fin n → ℝ) (k : Fin n → ℝ) (hθ : ∀ i j, i ≠ j → 0 < θ (1, i) + θ (1, j)) :
    PosSemi (negM (ECM.loglikelihood_hessian_ecm_exp θ k)) := by
  intro v
  set X : Fin n → Fin n → ℝ := fun i j => Real.exp (-θ (0, i)) * Real.exp (-θ (0, j)) with hX
  set Y : Fin n → Fin n → ℝ := fun i j => Real.exp (-θ (1, i)) * Real.exp (-θ (1, j)) with hY
  have hXs : ∀ i j, X i j = X j i := fun i j => mul_comm _ _
  have hYs : ∀ i j, Y i j = Y j i := fun i j => mul_comm _ _
  have hY1 : ∀ i j, i ≠ j → Y i j < 1 := fun i j hij => by
    simp only [hY]; rw [← Real.exp_add, Real.exp_lt_one_iff]; linarith [hθ i j hij]
  have cell : ∀ (F : ℝ → ℝ → ℝ) (b b' : Fin 2), (∀ i j, i ≠ j → ECM.loglikelihood_hessian_ecm_exp θ k (b, i) (b', j) = -F (X i j) (Y i j)) →
      (∀ i, ECM.loglikelihood_hessian_ecm_exp θ k (b, i) (b', i) = ∑ j, if j = i then 0 else -F (X i j) (Y i j)) →
      ∑ i, ∑ j, v (b, i) * negM (ECM.loglikelihood_hessian_ecm_exp θ k) (b, i) (b', j) * v (b', j) =
      (1 / 2) * ∑ i, ∑ j, (if i = j then 0 else F (X i j) (Y i j)) * ((v (b, i) + v (b, j)) * (v (b', i) + v (b', j))) := by
    intro F b b' h1 h2
    rw [← und_form (fun i j => F (X i j) (Y i j)) (fun i j => by rw [hXs, hYs]) (fun i => v (b, i)) (fun i => v (b', i))]
    refine sum_congr rfl fun i _ => sum_congr rfl fun j _ => ?_
    congr 2
    simp only [negM]
    split_ifs with hij
    · subst hij; rw [h2, ← sum_neg_distrib]
      exact sum_congr rfl fun m _ => by simp only [eq_comm (a := m)]; split_ifs <;> simp
    · rw [h1 i j hij, neg_neg]
  have c00 := cell DECM.RA 0 0 (fun i j hij => by
      rw [(ECM.hess_exp_eq_ne θ k i j hij).1]; simp only [DECM.RA, hX, hY]; ring) (fun i => by
      rw [(ECM.hess_exp_eq_eq θ k i).1, ECM.diag_exp_eq0]
      exact sum_congr rfl fun j _ => by split_ifs <;> simp only [DECM.RA, hX, hY]; ring)
  have c01 := cell DECM.RB 0 1 (fun i j hij => by
      rw [(ECM.hess_exp_eq_ne θ k i j hij).2.1]; simp only [DECM.RB, hX, hY]; ring) (fun i => by
      rw [(ECM.hess_exp_eq_eq θ k i).2.2.1]
      exact sum_congr rfl fun j _ => by simp only [DECM.RB, hX, hY, ne_eq, ite_not])
  have c10 := cell DECM.RB 1 0 (fun i j hij => by
      rw [(ECM.hess_exp_eq_ne θ k i j hij).2.2.1]; simp only [DECM.RB, hX, hY]; ring) (fun i => by
      rw [(ECM.hess_exp_eq_eq θ k i).2.2.2]
      exact sum_congr rfl fun j _ => by simp only [DECM.RB, hX, hY, ne_eq, ite_not])
  have c11 := cell DECM.SB 1 1 (fun i j hij => by
      rw [(ECM.hess_exp_eq_ne θ k i j hij).2.2.2]; simp only [DECM.SB, hX, hY]; ring) (fun i => by
      rw [(ECM.hess_exp_eq_eq θ k i).2.1, ECM.diag_exp_eq1]
      exact sum_congr rfl fun j _ => by split_ifs <;> simp only [DECM.SB, hX, hY])
  rw [quad_two, c00, c01, c10, c11, ← mul_add, ← mul_add, ← mul_add]
  refine mul_nonneg (by norm_num) ?_
  simp only [← sum_add_distrib]
  refine sum_nonneg fun i _ => sum_nonneg fun j _ => ?_
  by_cases hij : i = j
  · simp [hij]
  · simp only [hij, if_false]
    obtain ⟨h1, h2, h3⟩ := pair_cov (X := X i j) (Y := Y i j) (by simp only [hX]; positivity) (by simp only [hY]; positivity) (hY1 i j hij)
    exact form_nonneg h1 h2 h3

theorem quad_four (M : Matrix (Fin 4 × Fin n) (Fin 4 × Fin n) ℝ) (v : Fin 4 × Fin n → ℝ) : quad M v =
    ∑ b, ∑ b', ∑ i, ∑ j, v (b, i) * M (b, i) (b', j) * v (b', j) := by
  rw [quad_eq]
  simp only [Fintype.sum_prod_type]
  exact sum_congr rfl fun b _ => sum_comm

/-- C17 (decm_exp): minus the Hessian is positive semidefinite wherever every ordered pair has a convergent weight distribution. -/
theorem C17_decm_exp_hessian_psd (θ : Fin 4 × Fin n → ℝ) (ko ki so si : Fin n → ℝ) (hθ : ∀ i j, i ≠ j → 0 < θ (2, i) + θ (3, j)) :
    PosSemi (negM (DECM.loglikelihood_hessian_decm_exp θ ko ki so si)) := by
  intro v
  set M := negM (DECM.loglikelihood_hessian_decm_exp θ ko ki so si) with hM
  set K : (ℝ → ℝ → ℝ) → Fin n → Fin n → ℝ := fun F i j => if i = j then 0 else F (DECM.X (DECM.ex θ) i j) (DECM.Y (DECM.ex θ) i j) with hK
  have cell : ∀ (F : ℝ → ℝ → ℝ) (o o' p p' : Fin 4),
      (∀ i j, M (o, i) (o', j) = if i = j then ∑ k, K F i k else 0) → (∀ i j, M (o, i) (p', j) = K F i j) →
      (∀ i j, M (p, i) (o', j) = K F j i) → (∀ i j, M (p, i) (p', j) = if i = j then ∑ k, K F k i else 0) →
      (∑ i, ∑ j, v (o, i) * M (o, i) (o', j) * v (o', j)) + (∑ i, ∑ j, v (o, i) * M (o, i) (p', j) * v (p', j)) +
      (∑ i, ∑ j, v (p, i) * M (p, i) (o', j) * v (o', j)) + (∑ i, ∑ j, v (p, i) * M (p, i) (p', j) * v (p', j)) =
      ∑ i, ∑ j, K F i j * ((v (o, i) + v (p, j)) * (v (o', i) + v (p', j))) := by
    intro F o o' p p' h1 h2 h3 h4
    rw [← bip_form (K F) (fun i => v (o, i)) (fun i => v (p, i)) (fun i => v (o', i)) (fun i => v (p', i))]
    simp only [h1, h2, h3, h4]
  have hne := fun i j hij => DECM.hess_exp_ne θ ko ki so si i j hij
  have heq := fun i => DECM.hess_exp_eq θ ko ki so si i
  have sgn : ∀ (F : ℝ → ℝ → ℝ) i, -(∑ j, (if i = j then 0 else -F (DECM.X (DECM.ex θ) i j) (DECM.Y (DECM.ex θ) i j))) = ∑ k, K F i k := by
    intro F i; rw [← sum_neg_distrib]; exact sum_congr rfl fun j _ => by simp only [hK]; split_ifs <;> simp
  have sgn' : ∀ (F : ℝ → ℝ → ℝ) i, -(∑ j, (if i = j then 0 else -F (DECM.X (DECM.ex θ) j i) (DECM.Y (DECM.ex θ) j i))) = ∑ k, K F k i := by
    intro F i; rw [← sum_neg_distrib]; exact sum_congr rfl fun j _ => by simp only [hK, eq_comm (a := j)]; split_ifs <;> simp
  have cA := cell DECM.RA 0 0 1 1
    (fun i j => by
      split_ifs with h
      · subst h; simp only [hM, negM]; rw [(heq i).1.1, sgn]
      · simp only [hM, negM]; rw [(hne i j h).1.1, neg_zero])
    (fun i j => by
      by_cases h : i = j
      · subst h; simp only [hM, negM, hK]; rw [(heq i).1.2.1]; simp
      · simp only [hM, negM, hK, h, if_false]; rw [(hne i j h).1.2.1, neg_neg])
    (fun i j => by
      by_cases h : i = j
      · subst h; simp only [hM, negM, hK]; rw [(heq i).2.1.2.1]; simp
      · simp only [hM, negM, hK, Ne.symm h, if_false]; rw [(hne i j h).2.1.2.1, neg_neg])
    (fun i j => by
      split_ifs with h
      · subst h; simp only [hM, negM]; rw [(heq i).2.1.1, sgn']
      · simp only [hM, negM]; rw [(hne i j h).2.1.1, neg_zero])
  have cB := cell DECM.RB 0 2 1 3
    (fun i j => by
      split_ifs with h
      · subst h; simp only [hM, negM]; rw [(heq i).1.2.2.1, sgn]
      · simp only [hM, negM]; rw [(hne i j h).1.2.2.1, neg_zero])
    (fun i j => by
      by_cases h : i = j
      · subst h; simp only [hM, negM, hK]; rw [(heq i).1.2.2.2]; simp
      · simp only [hM, negM, hK, h, if_false]; rw [(hne i j h).1.2.2.2, neg_neg])
    (fun i j => by
      by_cases h : i = j
      · subst h; simp only [hM, negM, hK]; rw [(heq i).2.1.2.2.2]; simp
      · simp only [hM, negM, hK, Ne.symm h, if_false]; rw [(hne i j h).2.1.2.2.2, neg_neg])
    (fun i j => by
      split_ifs with h
      · subst h; simp only [hM, negM]; rw [(heq i).2.1.2.2.1, sgn']
      · simp only [hM, negM]; rw [(hne i j h).2.1.2.2.1, neg_zero])
  have cB' := cell DECM.RB 2 0 3 1
    (fun i j => by
      split_ifs with h
      · subst h; simp only [hM, negM]; rw [(heq i).2.2.1.1, sgn]
      · simp only [hM, negM]; rw [(hne i j h).2.2.1.1, neg_zero])
    (fun i j => by
      by_cases h : i = j
      · subst h; simp only [hM, negM, hK]; rw [(heq i).2.2.1.2.1]; simp
      · simp only [hM, negM, hK, h, if_false]; rw [(hne i j h).2.2.1.2.1, neg_neg])
    (fun i j => by
      by_cases h : i = j
      · subst h; simp only [hM, negM, hK]; rw [(heq i).2.2.2.2.1]; simp
      · simp only [hM, negM, hK, Ne.symm h, if_false]; rw [(hne i j h).2.2.2.2.1, neg_neg])
    (fun i j => by
      split_ifs with h
      · subst h; simp only [hM, negM]; rw [(heq i).2.2.2.1, sgn']
      · simp only [hM, negM]; rw [(hne i j h).2.2.2.1, neg_zero])
  have cS := cell DECM.SB 2 2 3 3
    (fun i j => by
      split_ifs with h
      · subst h; simp only [hM, negM]; rw [(heq i).2.2.1.2.2.1, sgn]
      · simp only [hM, negM]; rw [(hne i j h).2.2.1.2.2.1, neg_zero])
    (fun i j => by
      by_cases h : i = j
      · subst h; simp only [hM, negM, hK]; rw [(heq i).2.2.1.2.2.2]; simp
      · simp only [hM, negM, hK, h, if_false]; rw [(hne i j h).2.2.1.2.2.2, neg_neg])
    (fun i j => by
      by_cases h : i = j
      · subst h; simp only [hM, negM, hK]; rw [(heq i).2.2.2.2.2.2]; simp
      · simp only [hM, negM, hK, Ne.symm h, if_false]; rw [(hne i j h).2.2.2.2.2.2, neg_neg])
    (fun i j => by
      split_ifs with h
      · subst h; simp only [hM, negM]; rw [(heq i).2.2.2.2.2.1, sgn']
      · simp only [hM, negM]; rw [(hne i j h).2.2.2.2.2.1, neg_zero])
  have tot : quad M v = (∑ i, ∑ j, K DECM.RA i j * ((v (0, i) + v (1, j)) * (v (0, i) + v (1, j)))) +
      (∑ i, ∑ j, K DECM.RB i j * ((v (0, i) + v (1, j)) * (v (2, i) + v (3, j)))) +
      (∑ i, ∑ j, K DECM.RB i j * ((v (2, i) + v (3, j)) * (v (0, i) + v (1, j)))) +
      (∑ i, ∑ j, K DECM.SB i j * ((v (2, i) + v (3, j)) * (v (2, i) + v (3, j)))) := by
    rw [quad_four, ← cA, ← cB, ← cB', ← cS]
    simp only [Fin.sum_univ_four]
    ring
  rw [tot]
  simp only [← sum_add_distrib]
  refine sum_nonneg fun i _ => sum_nonneg fun j _ => ?_
  by_cases hij : i = j
  · simp [hK, hij]
  · simp only [hK, hij, if_false]
    have hX : 0 ≤ DECM.X (DECM.ex θ) i j := by simp only [DECM.X, DECM.ex]; positivity
    have hY : 0 ≤ DECM.Y (DECM.ex θ) i j := by simp only [DECM.Y, DECM.ex]; positivity
    have hY1 : DECM.Y (DECM.ex θ) i j < 1 := by
      simp only [DECM.Y, DECM.ex]; rw [← Real.exp_add, Real.exp_lt_one_iff]; linarith [hθ i j hij]
    obtain ⟨h1, h2, h3⟩ := pair_cov hX hY hY1
    exact form_nonneg h1 h2 h3

/-- the hypotheses of the theorems above are met: four nodes in two classes; weight parameters of both signs; a weighted triangle with one missing link -/
example : (∀ i, 1 ≤ (![1, 3] : Fin 2 → ℝ) i) ∧
    (∃ θ : Fin 2 × Fin 3 → ℝ, θ (1, 0) < 0 ∧ ∀ i j, i ≠ j → 0 < θ (1, i) + θ (1, j)) ∧
    (∃ θ : Fin 4 × Fin 3 → ℝ, θ (2, 0) < 0 ∧ ∀ i j, i ≠ j → 0 < θ (2, i) + θ (3, j)) ∧
    ∃ a : Fin 3 → Fin 3 → ℝ, (∀ i j, a i j = a j i) ∧ (∀ i, a i i = 0) ∧ (∀ i j, 0 ≤ a i j) ∧ a 0 1 ≠ 0 ∧ a 0 2 = 0 := by
  refine ⟨fun i => by fin_cases i <;> norm_num, ⟨fun q => ![-1, 2, 2] q.2, by norm_num, ?_⟩, ⟨fun q => ![0, 0, -1, 2] q.1, by simp, ?_⟩,
    ![![0, 1 / 2, 0], ![1 / 2, 0, 1], ![0, 1, 0]], ?_, ?_, ?_, by norm_num, by simp⟩
  · intro i j; fin_cases i <;> fin_cases j <;> norm_num
  · intro i j _
    beta_reduce
    rw [show (![0, 0, -1, 2] : Fin 4 → ℝ) 2 = -1 by simp, show (![0, 0, -1, 2] : Fin 4 → ℝ) 3 = 2 by simp]
    norm_num
  · intro i j; fin_cases i <;> fin_cases j <;> norm_num
  · intro i; fin_cases i <;> norm_num
  · intro i j; fin_cases i <;> fin_cases j <;> norm_num

end Verif.Psd
