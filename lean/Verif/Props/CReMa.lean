import Verif.Lemmas.CReMa
import Mathlib.MeasureTheory.Integral.Gamma

/-!
Properties of the undirected CReMa functions.
-/

namespace Verif.CReMa
open Verif Finset Function
variable {n : ℕ}

/-- an edge list of a 3-node path with real weights, used as witness -/
private noncomputable def path : Edges 3 := [(0, 1, 1), (1, 2, 1 / 2)]

/-! ### C05 -/

/-- C05 (crema, undirected): the gradient vanishes **iff** the expected strengths computed by the library are the observed ones. -/
theorem C05_crema_solution_iff (β s : Fin n → ℝ) (adj : Edges n) :
    (∀ i, loglikelihood_prime_crema_undirected β s adj i = 0) ↔ ∀ i, expected_strength_crema_undirected β adj i = s i := by
  simp only [prime_eq]
  exact forall_congr' fun i => by rw [neg_add_eq_zero, eq_comm]

/-- C05: what the library computes as expected strength is, for the symmetric loop-free matrix `p` of link probabilities (or a given
0/1 adjacency matrix), the sum over the other nodes of `p_ij` times the mean of an exponentially distributed weight with rate
`β_i + β_j` (the distribution the sampler draws from). -/
theorem C05_crema_expected_meaning (β : Fin n → ℝ) (p : Fin n → Fin n → ℝ) (hs : ∀ i j, p i j = p j i) (hd : ∀ i, p i i = 0)
    (hβ : ∀ i j, i ≠ j → 0 < β i + β j) (i : Fin n) :
    expected_strength_crema_undirected β (triuEdges p) i =
      ∑ j, if j = i then 0 else p i j * ∫ w in Set.Ioi (0 : ℝ), w * ((β i + β j) * Real.exp (-((β i + β j) * w))) := by
  rw [expected_eq, inc_triu p hs hd (fun i j w => w / (β i + β j)) (by simp)]
  refine sum_congr rfl fun j _ => ?_
  by_cases h : j = i
  · subst h; simp [hd]
  · rw [if_neg h]
    have hr := hβ i j (Ne.symm h)
    have := Real.integral_rpow_mul_exp_neg_mul_Ioi (a := 2) (by norm_num) hr
    have e : (∫ w in Set.Ioi (0 : ℝ), w * ((β i + β j) * Real.exp (-((β i + β j) * w)))) =
        (β i + β j) * ∫ w in Set.Ioi (0 : ℝ), w ^ ((2 : ℝ) - 1) * Real.exp (-((β i + β j) * w)) := by
      rw [← MeasureTheory.integral_const_mul]
      refine MeasureTheory.setIntegral_congr_fun measurableSet_Ioi fun w _ => ?_
      have : w ^ ((2 : ℝ) - 1) = w := by norm_num
      simp only [this]; ring
    have g2 : Real.Gamma 2 = 1 := by
      simpa [one_add_one_eq_two] using Real.Gamma_nat_eq_factorial 1
    rw [e, this, g2]
    rw [show (2 : ℝ) = ((2 : ℕ) : ℝ) by norm_num, Real.rpow_natCast]
    field_simp

example : ∃ p : Fin 3 → Fin 3 → ℝ, (∀ i j, p i j = p j i) ∧ (∀ i, p i i = 0) ∧ p 0 1 = 1 / 2 ∧
    ∀ i j : Fin 3, i ≠ j → (0 : ℝ) < (fun _ => 1) i + (fun _ => 1) j :=
  ⟨fun i j => if i = j then 0 else 1 / 2, fun i j => by simp [eq_comm], fun i => by simp, by simp, by norm_num⟩

/-! ### C06 -/

/-- C06 (crema, undirected): the gradient is the derivative of the likelihood, for any edge list (self loops included). -/
theorem C06_crema_gradient (β s : Fin n → ℝ) (adj : Edges n) (h : ∀ e ∈ adj, 0 < β e.1 + β e.2.1) (i : Fin n) :
    HasDerivAt (fun t => loglikelihood_crema_undirected (update β i t) s adj) (loglikelihood_prime_crema_undirected β s adj i) (β i) := by
  simp only [ll_eq]
  rw [prime_eq, expected_eq]
  refine HasDerivAt.fun_add ?_ ?_
  · have := hasDerivAt_sum_single univ i (fun a t => -(s a * update β i t a)) (-s i) (β i) ?_ ?_
    · simpa using this
    · intro a _ ha r r'; simp [update_of_ne ha]
    · intro _; exact hd_aff 0 (-s i) (fun t => by simp) _
  · refine hasDerivAt_list_sum adj (fun e t => e.2.2 * Real.log (update β i t e.1 + update β i t e.2.1)) _ _ fun e he => ?_
    have hp := h e he
    have hlin : HasDerivAt (fun t => update β i t e.1 + update β i t e.2.1)
        ((if i = e.1 then 1 else 0) + if i = e.2.1 then 1 else 0) (β i) := by
      refine HasDerivAt.fun_add ?_ ?_
      · by_cases h1 : i = e.1
        · simp only [← h1, update_self, if_true]; exact hasDerivAt_id _
        · simp only [update_of_ne (Ne.symm h1), h1, if_false]; exact hasDerivAt_const _ _
      · by_cases h1 : i = e.2.1
        · simp only [← h1, update_self, if_true]; exact hasDerivAt_id _
        · simp only [update_of_ne (Ne.symm h1), h1, if_false]; exact hasDerivAt_const _ _
    have e0 : update β i (β i) e.1 + update β i (β i) e.2.1 = β e.1 + β e.2.1 := by simp
    refine ((hlin.log (by rw [e0]; exact hp.ne')).const_mul e.2.2).congr_deriv ?_
    rw [e0, add_comm (β e.2.1)]
    split_ifs <;> ring

example : ∀ e ∈ path, (0 : ℝ) < (fun i : Fin 3 => (i.val : ℝ) + 1) e.1 + (fun i : Fin 3 => (i.val : ℝ) + 1) e.2.1 := by
  intro e _; positivity

/-! ### C07, C08 -/

/-- closed form of the gradient for a symmetric loop-free matrix -/
theorem prime_triu (β s : Fin n → ℝ) (a : Fin n → Fin n → ℝ) (hs : ∀ i j, a i j = a j i) (hd : ∀ i, a i i = 0) (m : Fin n) :
    loglikelihood_prime_crema_undirected β s (triuEdges a) m = -s m + ∑ j, a m j / (β m + β j) := by
  rw [prime_eq, expected_eq, inc_triu a hs hd (fun i j w => w / (β i + β j)) (by simp)]

theorem forL_triu {σ : Type*} (a : Fin n → Fin n → ℝ) (body : Fin n × Fin n × ℝ → σ → σ) (s : σ) :
    forL (triuEdges a) body s =
      forL (pairs n) (fun e s => if e.1 ≤ e.2 ∧ a e.1 e.2 ≠ 0 then body (e.1, e.2, a e.1 e.2) s else s) s := by
  unfold triuEdges
  generalize pairs n = l
  induction l generalizing s with
  | nil => rfl
  | cons e l ih =>
    by_cases h : e.1 ≤ e.2 ∧ a e.1 e.2 ≠ 0
    · rw [List.filter_cons_of_pos (by simpa using h), List.map_cons, forL_cons, forL_cons, ih, if_pos h]
    · rw [List.filter_cons_of_neg (by simpa using h), forL_cons, ih, if_neg h]

theorem hess_triu_diag (β : Fin n → ℝ) (a : Fin n → Fin n → ℝ) (hs : ∀ i j, a i j = a j i) (hd : ∀ i, a i i = 0) (m : Fin n) :
    loglikelihood_hessian_crema_undirected β (triuEdges a) m m = ∑ j, -(a m j / (β m + β j) ^ 2) := by
  rw [← inc_triu a hs hd (fun i j w => -(w / (β i + β j) ^ 2)) (by simp) m, sum_triu, ← sum_pairs
    (fun e => if e.1 ≤ e.2 ∧ a e.1 e.2 ≠ 0 then (if m = e.1 then -(a e.1 e.2 / (β e.1 + β e.2) ^ 2) else 0) +
      (if m = e.2 then -(a e.1 e.2 / (β e.2 + β e.1) ^ 2) else 0) else 0)]
  unfold loglikelihood_hessian_crema_undirected
  rw [forL_triu, forL_obs_add (fun f : Fin n → Fin n → ℝ => f m m) (pairs n) _ (fun e => if e.1 ≤ e.2 ∧ a e.1 e.2 ≠ 0 then
      (if m = e.1 then -(a e.1 e.2 / (β e.1 + β e.2) ^ 2) else 0) +
      (if m = e.2 then -(a e.1 e.2 / (β e.2 + β e.1) ^ 2) else 0) else 0)]
  · simp
  · intro e f
    by_cases h : e.1 ≤ e.2 ∧ a e.1 e.2 ≠ 0
    · have hne : e.1 ≠ e.2 := fun h' => h.2 (by rw [h', hd])
      rw [if_pos h, if_pos h]
      simp only [addAt2_eq, Pi.add_apply, single2_apply, setAt2_apply, neg_div]
      by_cases h1 : m = e.1
      · have h2 : m ≠ e.2 := fun h' => hne (h1.symm.trans h')
        simp [h1, h2, hne, add_comm (β e.2)]
      · simp [h1, add_comm (β e.2)]
    · rw [if_neg h, if_neg h, add_zero]

theorem hess_triu_off (β : Fin n → ℝ) (a : Fin n → Fin n → ℝ) (hs : ∀ i j, a i j = a j i) (p q : Fin n) (hpq : p ≠ q) :
    loglikelihood_hessian_crema_undirected β (triuEdges a) p q = -(a p q / (β p + β q) ^ 2) := by
  unfold loglikelihood_hessian_crema_undirected
  rw [forL_triu]
  have hmin : min p q ≤ max p q := min_le_max
  have hval : a (min p q) (max p q) = a p q ∧ β (min p q) + β (max p q) = β p + β q := by
    rcases le_total p q with h | h
    · simp [h]
    · simp [h, hs q p, add_comm]
  have main := forL_obs_once (fun f : Fin n → Fin n → ℝ => f p q) (pairs n)
    (fun e f => if e.1 ≤ e.2 ∧ a e.1 e.2 ≠ 0 then
      addAt2 (addAt2 (setAt2 (setAt2 f e.1 e.2 (-(a e.1 e.2) / (β e.1 + β e.2) ^ 2)) e.2 e.1 (-(a e.1 e.2) / (β e.1 + β e.2) ^ 2)) e.1 e.1
        (-(a e.1 e.2) / (β e.1 + β e.2) ^ 2)) e.2 e.2 (-(a e.1 e.2) / (β e.1 + β e.2) ^ 2) else f)
    (min p q, max p q) (fun v => if a p q ≠ 0 then -(a p q / (β p + β q) ^ 2) else v) ?_ ?_ nodup_pairs (mem_pairs _) (fun _ _ => 0)
  · refine main.trans ?_
    by_cases h : a p q = 0 <;> simp [h]
  · intro f
    simp only [hval.1, hval.2, hmin, true_and]
    by_cases h0 : a p q = 0
    · simp [h0]
    · simp only [h0, ne_eq, not_false_eq_true, if_true, addAt2_eq, Pi.add_apply, single2_apply, setAt2_apply, neg_div]
      rcases lt_or_gt_of_ne hpq with h | h
      · simp [h.le, hpq, hpq.symm]
      · simp [h.le, hpq, hpq.symm]
  · intro e he f
    by_cases h : e.1 ≤ e.2 ∧ a e.1 e.2 ≠ 0
    · rw [if_pos h]
      simp only [addAt2_eq, Pi.add_apply, single2_apply, setAt2_apply]
      have h1 : ¬ (p = e.1 ∧ q = e.2) := by
        rintro ⟨rfl, rfl⟩; exact he (by rw [min_eq_left h.1, max_eq_right h.1])
      have h2 : ¬ (p = e.2 ∧ q = e.1) := by
        rintro ⟨rfl, rfl⟩; exact he (by rw [min_eq_right h.1, max_eq_left h.1])
      have h3 : ¬ (p = e.1 ∧ q = e.1) := fun h' => hpq (h'.1.trans h'.2.symm)
      have h4 : ¬ (p = e.2 ∧ q = e.2) := fun h' => hpq (h'.1.trans h'.2.symm)
      simp [h1, h2, h3, h4]
    · rw [if_neg h]

/-- C07 (crema, undirected): for the edges of a symmetric loop-free matrix the Hessian is the Jacobian of the gradient. -/
theorem C07_crema_hessian (β s : Fin n → ℝ) (a : Fin n → Fin n → ℝ) (hs : ∀ i j, a i j = a j i) (hd : ∀ i, a i i = 0)
    (hβ : ∀ i j, a i j ≠ 0 → 0 < β i + β j) (i j : Fin n) :
    HasDerivAt (fun t => loglikelihood_prime_crema_undirected (update β j t) s (triuEdges a) i)
      (loglikelihood_hessian_crema_undirected β (triuEdges a) i j) (β j) := by
  simp only [prime_triu _ s a hs hd]
  have term : ∀ c u v : ℝ, (c ≠ 0 → 0 < u + v) → HasDerivAt (fun t => c / (t + v)) (-(c / (u + v) ^ 2)) u := by
    intro c u v hc
    by_cases h0 : c = 0
    · subst h0; simpa using hasDerivAt_const u (0 : ℝ)
    · refine hd_div (hasDerivAt_const u c) ((hasDerivAt_id u).add_const v) (hc h0).ne' ?_
      simp [neg_div]
  by_cases hij : i = j
  · subst hij
    rw [hess_triu_diag β a hs hd]
    have := hasDerivAt_row_eq β i (fun _ => -s i) (fun b u v => a i b / (u + v)) 0 (fun b => -(a i b / (β i + β b) ^ 2))
      (hasDerivAt_const _ _) (fun b _ => term _ _ _ (hβ i b)) (by
        simp only [hd, zero_div, neg_zero]; exact hasDerivAt_const _ _)
    simpa using this
  · rw [hess_triu_off β a hs i j hij]
    have hterm : HasDerivAt (fun t => a i j / (β i + t)) (-(a i j / (β i + β j) ^ 2)) (β j) := by
      have := term (a i j) (β j) (β i) (fun h => by rw [add_comm]; exact hβ i j h)
      simpa only [add_comm (β i)] using this
    exact hasDerivAt_row_ne β i j hij (fun _ => -s i) (fun b u v => a i b / (u + v)) _ hterm

/-- C08 (crema, undirected): the diagonal Hessian is the derivative of gradient component `i` in `β_i`. -/
theorem C08_crema_hessian_diag (β s : Fin n → ℝ) (a : Fin n → Fin n → ℝ) (hs : ∀ i j, a i j = a j i) (hd : ∀ i, a i i = 0)
    (hβ : ∀ i j, a i j ≠ 0 → 0 < β i + β j) (i : Fin n) :
    HasDerivAt (fun t => loglikelihood_prime_crema_undirected (update β i t) s (triuEdges a) i)
      (loglikelihood_hessian_diag_crema_undirected β (triuEdges a) i) (β i) := by
  have := C07_crema_hessian β s a hs hd hβ i i
  rwa [hess_triu_diag β a hs hd, ← inc_triu a hs hd (fun i j w => -(w / (β i + β j) ^ 2)) (by simp) i, ← diag_eq] at this

example : ∃ a : Fin 3 → Fin 3 → ℝ, (∀ i j, a i j = a j i) ∧ (∀ i, a i i = 0) ∧ a 0 1 ≠ 0 ∧ a 1 2 ≠ a 0 1 ∧
    ∀ i j : Fin 3, a i j ≠ 0 → (0 : ℝ) < (fun i : Fin 3 => (i.val : ℝ) + 1) i + (fun i : Fin 3 => (i.val : ℝ) + 1) j :=
  ⟨fun i j => if i = j then 0 else (i.val : ℝ) + j.val, fun i j => by simp [eq_comm, add_comm], fun i => by simp, by simp, by simp,
    fun i j _ => by positivity⟩

/-- C07/C08 are **false** when the given adjacency matrix has a self loop (nothing forbids one): both the Hessian and the diagonal
Hessian differ from the derivative of the gradient.  One node, one loop of weight 1, `β = 1`. -/
theorem C07_crema_hessian_loop_wrong : ∃ (β s : Fin 1 → ℝ) (a : Fin 1 → Fin 1 → ℝ), (∀ i j, a i j ≠ 0 → 0 < β i + β j) ∧
    ∃ D, HasDerivAt (fun t => loglikelihood_prime_crema_undirected (update β 0 t) s (triuEdges a) 0) D (β 0) ∧
      loglikelihood_hessian_crema_undirected β (triuEdges a) 0 0 ≠ D ∧
      loglikelihood_hessian_diag_crema_undirected β (triuEdges a) 0 ≠ D := by
  have hE : triuEdges (fun _ _ : Fin 1 => (1 : ℝ)) = [(0, 0, 1)] := by
    simp [triuEdges, pairs, List.finRange_succ]
  refine ⟨fun _ => 1, fun _ => 1, fun _ _ => 1, fun _ _ _ => by norm_num, -1, ?_, ?_, ?_⟩
  · simp only [hE, prime_eq, expected_eq]
    simp only [List.map_cons, List.map_nil, List.sum_cons, List.sum_nil, if_true, update_self]
    have : HasDerivAt (fun t : ℝ => 1 / t) (-1) 1 := by
      refine hd_div (hasDerivAt_const 1 1) (hasDerivAt_id 1) (by norm_num) (by norm_num)
    refine (this.const_add (-1)).congr_of_eventuallyEq (Filter.Eventually.of_forall fun t => ?_)
    simp only
    by_cases ht : t = 0
    · subst ht; simp
    · field_simp; ring
  · rw [hE]
    simp [loglikelihood_hessian_crema_undirected, forL, addAt2_eq, single2_apply, setAt2_apply]
    norm_num
  · rw [hE, diag_eq]; norm_num

/-! ### C11 -/

/-- C11 (crema, undirected): tangent inequality.  The likelihood is below each of its tangent planes (it is concave), on the domain
where the edge rates are positive. -/
theorem C11_crema_tangent (β β' s : Fin n → ℝ) (adj : Edges n) (hw : ∀ e ∈ adj, 0 ≤ e.2.2)
    (h : ∀ e ∈ adj, 0 < β e.1 + β e.2.1) (h' : ∀ e ∈ adj, 0 < β' e.1 + β' e.2.1) :
    loglikelihood_crema_undirected β' s adj ≤ loglikelihood_crema_undirected β s adj +
      ∑ i, loglikelihood_prime_crema_undirected β s adj i * (β' i - β i) := by
  have lin : ∀ l : Edges n, (∑ i, (l.map fun e => (if i = e.1 then e.2.2 / (β e.1 + β e.2.1) else 0) +
      if i = e.2.1 then e.2.2 / (β e.2.1 + β e.1) else 0).sum * (β' i - β i)) =
      (l.map fun e => e.2.2 / (β e.1 + β e.2.1) * ((β' e.1 + β' e.2.1) - (β e.1 + β e.2.1))).sum := by
    intro l
    induction l with
    | nil => simp
    | cons e l ih =>
      simp only [List.map_cons, List.sum_cons, add_mul, sum_add_distrib, ih, ite_mul, zero_mul]
      simp [add_comm (β e.2.1)]; ring
  have logs : ∀ l : Edges n, (∀ e ∈ l, 0 ≤ e.2.2 ∧ 0 < β e.1 + β e.2.1 ∧ 0 < β' e.1 + β' e.2.1) →
      (l.map fun e => e.2.2 * Real.log (β' e.1 + β' e.2.1)).sum ≤ (l.map fun e => e.2.2 * Real.log (β e.1 + β e.2.1)).sum +
      (l.map fun e => e.2.2 / (β e.1 + β e.2.1) * ((β' e.1 + β' e.2.1) - (β e.1 + β e.2.1))).sum := by
    intro l
    induction l with
    | nil => simp
    | cons e l ih =>
      intro hl
      obtain ⟨w0, b0, b1⟩ := hl e List.mem_cons_self
      have := ih fun e he => hl e (List.mem_cons_of_mem _ he)
      simp only [List.map_cons, List.sum_cons]
      have key : Real.log (β' e.1 + β' e.2.1) ≤ Real.log (β e.1 + β e.2.1) +
          ((β' e.1 + β' e.2.1) - (β e.1 + β e.2.1)) / (β e.1 + β e.2.1) := by
        have := Real.log_le_sub_one_of_pos (div_pos b1 b0)
        rw [Real.log_div b1.ne' b0.ne'] at this
        rw [sub_div, div_self b0.ne']; linarith
      have := mul_le_mul_of_nonneg_left key w0
      rw [mul_add, mul_div_assoc', ← div_mul_eq_mul_div] at this
      linarith
  simp only [ll_eq, prime_eq, expected_eq, add_mul, sum_add_distrib, lin]
  have e1 : (∑ i, -s i * (β' i - β i)) = (∑ i, -(s i * β' i)) - ∑ i, -(s i * β i) := by
    rw [← sum_sub_distrib]; exact sum_congr rfl fun i _ => by ring
  rw [e1]
  have := logs adj fun e he => ⟨hw e he, h e he, h' e he⟩
  linarith

/-- C11 (crema, undirected): a zero of the gradient is a global maximiser of the likelihood. -/
theorem C11_crema_global_max (β s : Fin n → ℝ) (adj : Edges n) (hw : ∀ e ∈ adj, 0 ≤ e.2.2)
    (h : ∀ e ∈ adj, 0 < β e.1 + β e.2.1) (h0 : ∀ i, loglikelihood_prime_crema_undirected β s adj i = 0)
    (β' : Fin n → ℝ) (h' : ∀ e ∈ adj, 0 < β' e.1 + β' e.2.1) :
    loglikelihood_crema_undirected β' s adj ≤ loglikelihood_crema_undirected β s adj := by
  have := C11_crema_tangent β β' s adj hw h h'
  simpa [h0] using this

/-- C11 (crema, undirected): two zeros of the gradient give every edge of positive weight the same rate, hence the same weight
distribution. -/
theorem C11_crema_unique_rates (β β' s : Fin n → ℝ) (adj : Edges n) (hw : ∀ e ∈ adj, 0 < e.2.2)
    (h : ∀ e ∈ adj, 0 < β e.1 + β e.2.1) (h' : ∀ e ∈ adj, 0 < β' e.1 + β' e.2.1)
    (h0 : ∀ i, loglikelihood_prime_crema_undirected β s adj i = 0) (h1 : ∀ i, loglikelihood_prime_crema_undirected β' s adj i = 0)
    (e : Fin n × Fin n × ℝ) (he : e ∈ adj) : β e.1 + β e.2.1 = β' e.1 + β' e.2.1 := by
  have lin : ∀ γ : Fin n → ℝ, ∀ l : Edges n, (∑ i, (l.map fun e => (if i = e.1 then e.2.2 / (γ e.1 + γ e.2.1) else 0) +
      if i = e.2.1 then e.2.2 / (γ e.2.1 + γ e.1) else 0).sum * (β' i - β i)) =
      (l.map fun e => e.2.2 / (γ e.1 + γ e.2.1) * ((β' e.1 + β' e.2.1) - (β e.1 + β e.2.1))).sum := by
    intro γ l
    induction l with
    | nil => simp
    | cons e l ih =>
      simp only [List.map_cons, List.sum_cons, add_mul, sum_add_distrib, ih, ite_mul, zero_mul]
      simp [add_comm (γ e.2.1)]; ring
  have tot : (adj.map fun e => e.2.2 / (β e.1 + β e.2.1) * ((β' e.1 + β' e.2.1) - (β e.1 + β e.2.1)) -
      e.2.2 / (β' e.1 + β' e.2.1) * ((β' e.1 + β' e.2.1) - (β e.1 + β e.2.1))).sum = 0 := by
    rw [list_sum_sub, ← lin, ← lin, ← sum_sub_distrib]
    refine sum_eq_zero fun i _ => ?_
    have a0 := h0 i
    have a1 := h1 i
    rw [prime_eq, expected_eq] at a0 a1
    rw [← sub_mul]
    have := a0.trans a1.symm
    rw [sub_eq_zero.2 (add_left_cancel this), zero_mul]
  have nonneg : ∀ e ∈ adj, 0 ≤ e.2.2 / (β e.1 + β e.2.1) * ((β' e.1 + β' e.2.1) - (β e.1 + β e.2.1)) -
      e.2.2 / (β' e.1 + β' e.2.1) * ((β' e.1 + β' e.2.1) - (β e.1 + β e.2.1)) ∧
      (e.2.2 / (β e.1 + β e.2.1) * ((β' e.1 + β' e.2.1) - (β e.1 + β e.2.1)) -
      e.2.2 / (β' e.1 + β' e.2.1) * ((β' e.1 + β' e.2.1) - (β e.1 + β e.2.1)) = 0 → β e.1 + β e.2.1 = β' e.1 + β' e.2.1) := by
    intro e he
    have w0 := hw e he; have b0 := h e he; have b1 := h' e he
    generalize β e.1 + β e.2.1 = u at *
    generalize β' e.1 + β' e.2.1 = v at *
    have : e.2.2 / u * (v - u) - e.2.2 / v * (v - u) = e.2.2 * ((v - u) ^ 2 / (u * v)) := by field_simp
    rw [this]
    refine ⟨by positivity, fun hz => ?_⟩
    have hz' := (mul_eq_zero.1 hz).resolve_left w0.ne'
    have := (div_eq_zero_iff.1 hz').resolve_right (mul_pos b0 b1).ne'
    have := pow_eq_zero_iff (two_ne_zero) |>.1 this
    linarith
  refine (nonneg e he).2 ?_
  exact list_sum_zero adj _ (fun e he => (nonneg e he).1) tot e he

example : (∀ e ∈ path, (0 : ℝ) < e.2.2) ∧ (∀ e ∈ path, (0 : ℝ) < (fun _ : Fin 3 => (1 / 2 : ℝ)) e.1 + (fun _ : Fin 3 => 1 / 2) e.2.1) ∧
    ∃ s : Fin 3 → ℝ, s 1 = 3 / 2 ∧ ∀ i, loglikelihood_prime_crema_undirected (fun _ => 1 / 2) s path i = 0 := by
  refine ⟨?_, ?_, ⟨fun i => expected_strength_crema_undirected (fun _ => 1 / 2) path i, ?_, ?_⟩⟩
  · intro e he; simp only [path, List.mem_cons, List.not_mem_nil, or_false] at he
    rcases he with rfl | rfl <;> norm_num
  · intro e _; norm_num
  · simp only [expected_eq]; simp [path]; norm_num
  · exact (C05_crema_solution_iff _ _ _).2 fun _ => rfl

/-! ### C12, C42: the fixed-point map is `-iterative_crema_undirected` (graph_classes.py 609) -/

/-- the fixed-point map multiplies each parameter by expected over observed strength -/
theorem iter_ratio (β s : Fin n → ℝ) (adj : Edges n) (hβ : ∀ i, 0 < β i) (i : Fin n) (hs : s i ≠ 0) :
    -iterative_crema_undirected β s adj i = β i * expected_strength_crema_undirected β adj i / s i := by
  rw [iter_eq, if_pos hs, expected_eq, ← neg_div]
  congr 1
  induction adj with
  | nil => simp
  | cons e l ih =>
    simp only [List.map_cons, List.sum_cons, mul_add, neg_add] at ih ⊢
    rw [ih]
    have h1 := hβ e.1; have h2 := hβ e.2.1
    congr 1
    congr 1
    · by_cases h : i = e.1
      · simp only [h, if_true]; field_simp
      · simp [h]
    · by_cases h : i = e.2.1
      · simp only [h, if_true]; field_simp
      · simp [h]

/-- C12 (crema, undirected): at positive parameters, component `i` (with non-zero strength) is fixed by the fixed-point map **iff** its
gradient component vanishes. -/
theorem C12_crema_fixed_point_iff (β s : Fin n → ℝ) (adj : Edges n) (hβ : ∀ i, 0 < β i) (i : Fin n) (hs : s i ≠ 0) :
    -iterative_crema_undirected β s adj i = β i ↔ loglikelihood_prime_crema_undirected β s adj i = 0 := by
  rw [iter_ratio β s adj hβ i hs, prime_eq, div_eq_iff hs, mul_right_inj' (hβ i).ne', neg_add_eq_zero, eq_comm]

example : (∀ i : Fin 3, (0 : ℝ) < (fun _ => 1 / 2) i) ∧ (fun _ : Fin 3 => (1 : ℝ)) 1 ≠ 0 := by norm_num

/-- C42 (crema, undirected): at positive parameters the fixed-point map returns a positive value for every node of positive strength
with at least one incident edge of positive weight, and 0 for a node of zero strength without edges. -/
theorem C42_crema_iterative (β s : Fin n → ℝ) (adj : Edges n) (hβ : ∀ i, 0 < β i) (hw : ∀ e ∈ adj, 0 ≤ e.2.2) (i : Fin n) :
    (0 < s i → (∃ e ∈ adj, (e.1 = i ∨ e.2.1 = i) ∧ 0 < e.2.2) → 0 < -iterative_crema_undirected β s adj i) ∧
    ((∀ e ∈ adj, e.1 ≠ i ∧ e.2.1 ≠ i) → -iterative_crema_undirected β s adj i = 0) := by
  constructor
  · rintro hs ⟨e, he, hei, hpos⟩
    rw [iter_ratio β s adj hβ i hs.ne', expected_eq]
    have nn : ∀ e ∈ adj, 0 ≤ (if i = e.1 then e.2.2 / (β e.1 + β e.2.1) else 0) + if i = e.2.1 then e.2.2 / (β e.2.1 + β e.1) else 0 := by
      intro e he
      have := hw e he; have h1 := hβ e.1; have h2 := hβ e.2.1
      refine add_nonneg ?_ ?_ <;> split_ifs <;> positivity
    have h0 := list_sum_nonneg adj _ nn
    have hne : (adj.map fun e => (if i = e.1 then e.2.2 / (β e.1 + β e.2.1) else 0) +
        if i = e.2.1 then e.2.2 / (β e.2.1 + β e.1) else 0).sum ≠ 0 := by
      intro hz
      have := list_sum_zero adj _ nn hz e he
      have h1 := hβ e.1; have h2 := hβ e.2.1
      have p1 : 0 < e.2.2 / (β e.1 + β e.2.1) := by positivity
      have p2 : 0 < e.2.2 / (β e.2.1 + β e.1) := by positivity
      rcases hei with h | h
      · rw [if_pos h.symm] at this
        split_ifs at this <;> linarith
      · rw [if_pos h.symm] at this
        split_ifs at this <;> linarith
    have := lt_of_le_of_ne h0 (Ne.symm hne)
    exact div_pos (mul_pos (hβ i) this) hs
  · intro h
    have : (adj.map fun e => (if i = e.1 then -(e.2.2 / (1 + (β e.2.1 / β e.1))) else 0) +
      if i = e.2.1 then -(e.2.2 / (1 + (β e.1 / β e.2.1))) else 0).sum = 0 := by
      rw [List.sum_eq_zero]
      intro x hx
      obtain ⟨e, he, rfl⟩ := List.mem_map.1 hx
      simp [(h e he).1.symm, (h e he).2.symm]
    rw [iter_eq, this]; simp

example : (∀ e ∈ path, (0 : ℝ) ≤ e.2.2) ∧ ∃ e ∈ path, (e.1 = 1 ∨ e.2.1 = 1) ∧ 0 < e.2.2 := by
  refine ⟨?_, (0, 1, 1), by simp [path], by simp⟩
  intro e he; simp only [path, List.mem_cons, List.not_mem_nil, or_false] at he
  rcases he with rfl | rfl <;> norm_num

/-! ### C33: dense and sparse functions agree -/

open Verif.CM in
theorem pm (x : Fin n → ℝ) (i j : Fin n) : pmatrix_cm x i j = if i = j then 0 else pr x i j := by
  rw [pmatrix_eq]
  by_cases h : i = j
  · simp [h]
  · simp [h, pr]

open Verif.CM in
private theorem pm_symm (x : Fin n → ℝ) (i j : Fin n) : pmatrix_cm x i j = pmatrix_cm x j i := by
  rw [pm, pm, pr_symm]; simp [eq_comm]

open Verif.CM in
private theorem pm_diag (x : Fin n → ℝ) (i : Fin n) : pmatrix_cm x i i = 0 := by rw [pm]; simp

open Verif.CM in
private theorem pm_row (x : Fin n → ℝ) (m : Fin n) (k : Fin n → ℝ → ℝ) (hk : ∀ j, k j 0 = 0) :
    (∑ j, k j (pmatrix_cm x m j)) = ∑ j, if j = m then 0 else k j (pr x m j) := by
  refine sum_congr rfl fun j _ => ?_
  rw [pm]
  by_cases h : j = m
  · subst h; simp [hk]
  · simp [h, Ne.symm h]

open Verif.CM in
/-- C33 (undirected): for non-negative binary parameters `x`, the sparse likelihood equals the dense one on the edge list of the link
probability matrix. -/
theorem C33_crema_likelihood (β s x : Fin n → ℝ) (hx : ∀ i, 0 ≤ x i) :
    loglikelihood_crema_undirected_sparse β s x = loglikelihood_crema_undirected β s (triuEdges (pmatrix_cm x)) := by
  rw [ll_sparse_eq β s x hx, ll_eq, sum_triu]
  congr 1
  rw [sum_comm]
  refine sum_congr rfl fun i _ => sum_congr rfl fun j _ => ?_
  rw [pm]
  rcases lt_trichotomy i j with h | h | h
  · simp only [h, h.ne, h.le, if_true, if_false, true_and]
    rw [pr_symm x j i, add_comm (β j)]
    by_cases h0 : pr x i j = 0 <;> simp [h0]
  · subst h; simp
  · simp [h.not_gt, h.not_ge]

open Verif.CM in
/-- C33 (undirected), gradient: whatever the order in which the parallel loop runs, the sparse gradient (both variants) is the dense
one. -/
theorem C33_crema_gradient (sched : List (Fin n)) (hp : sched.Perm (List.finRange n)) (β s x : Fin n → ℝ) (hx : ∀ i, 0 ≤ x i) (i : Fin n) :
    loglikelihood_prime_crema_undirected_sparse sched β s x i = loglikelihood_prime_crema_undirected β s (triuEdges (pmatrix_cm x)) i ∧
    loglikelihood_prime_crema_sparse_2 β s x i = loglikelihood_prime_crema_undirected β s (triuEdges (pmatrix_cm x)) i := by
  rw [prime_triu β s _ (pm_symm x) (pm_diag x), pm_row x i (fun j w => w / (β i + β j)) (by simp),
    prime_sparse_eq sched (hp.nodup_iff.2 (List.nodup_finRange n)) β s x i (hp.mem_iff.2 (List.mem_finRange i)), prime_sparse2_eq β s x hx i]
  exact ⟨rfl, rfl⟩

open Verif.CM in
/-- C33 (undirected), diagonal Hessian. -/
theorem C33_crema_hessian_diag (sched : List (Fin n)) (hp : sched.Perm (List.finRange n)) (β x : Fin n → ℝ) (hx : ∀ i, 0 ≤ x i) (i : Fin n) :
    loglikelihood_hessian_diag_crema_undirected_sparse sched β x i =
      loglikelihood_hessian_diag_crema_undirected β (triuEdges (pmatrix_cm x)) i ∧
    loglikelihood_hessian_diag_crema_sparse_2 β x i = loglikelihood_hessian_diag_crema_undirected β (triuEdges (pmatrix_cm x)) i := by
  rw [diag_eq, inc_triu _ (pm_symm x) (pm_diag x) (fun i j w => -(w / (β i + β j) ^ 2)) (by simp), sum_neg_distrib,
    pm_row x i (fun j w => w / (β i + β j) ^ 2) (by simp),
    diag_sparse_eq sched (hp.nodup_iff.2 (List.nodup_finRange n)) β x i (hp.mem_iff.2 (List.mem_finRange i)), diag_sparse2_eq β x hx i]
  exact ⟨rfl, rfl⟩

open Verif.CM in
/-- C33 (undirected), expected strengths. -/
theorem C33_crema_expected (β x : Fin n → ℝ) (hx : ∀ i, 0 ≤ x i) (i : Fin n) :
    expected_strength_crema_undirected_sparse β x i = expected_strength_crema_undirected β (triuEdges (pmatrix_cm x)) i := by
  rw [expected_sparse_eq β x hx, expected_eq, inc_triu _ (pm_symm x) (pm_diag x) (fun i j w => w / (β i + β j)) (by simp),
    pm_row x i (fun j w => w / (β i + β j)) (by simp)]

open Verif.CM in
/-- C33 (undirected), fixed-point maps: the serial sparse map equals the dense one; the parallel sparse map divides by
`s_i + exp(-100)` instead of `s_i` and is otherwise the same. -/
theorem C33_crema_iterative (sched : List (Fin n)) (hp : sched.Perm (List.finRange n)) (β s x : Fin n → ℝ) (hx : ∀ i, 0 ≤ x i) (i : Fin n) :
    iterative_crema_sparse_2 β s x i = iterative_crema_undirected β s (triuEdges (pmatrix_cm x)) i ∧
    (s i ≠ 0 → iterative_crema_undirected_sparse sched β s x i =
      iterative_crema_undirected β s (triuEdges (pmatrix_cm x)) i * (s i / (s i + Real.exp (-100)))) := by
  rw [iter_eq, inc_triu _ (pm_symm x) (pm_diag x) (fun i j w => -(w / (1 + (β j / β i)))) (by simp), sum_neg_distrib,
    pm_row x i (fun j w => w / (1 + (β j / β i))) (by simp), iter_sparse2_eq β s x hx i,
    iter_sparse_eq sched (hp.nodup_iff.2 (List.nodup_finRange n)) β s x i (hp.mem_iff.2 (List.mem_finRange i))]
  refine ⟨rfl, fun hs => ?_⟩
  rw [if_pos hs, div_mul_div_cancel₀ hs]

example : (∀ i : Fin 3, (0 : ℝ) ≤ (fun i : Fin 3 => (i.val : ℝ)) i) ∧ [2, 0, 1].Perm (List.finRange 3) :=
  ⟨fun i => Nat.cast_nonneg _, by decide⟩

/-- C05 (crema-sparse, undirected): the gradient of the sparse variant vanishes iff the sparse expected strengths are the observed
ones. -/
theorem C05_crema_sparse_solution_iff (sched : List (Fin n)) (hp : sched.Perm (List.finRange n)) (β s x : Fin n → ℝ) (hx : ∀ i, 0 ≤ x i) :
    (∀ i, loglikelihood_prime_crema_undirected_sparse sched β s x i = 0) ↔
      ∀ i, expected_strength_crema_undirected_sparse β x i = s i := by
  simp only [(C33_crema_gradient sched hp β s x hx _).1, C33_crema_expected β x hx]
  exact C05_crema_solution_iff _ _ _

end Verif.CReMa
