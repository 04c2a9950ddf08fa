import Verif.Props.CReMa

/-!
Properties of the directed CReMa functions.  `nonzero s` is the `nz_index` array the graph object computes from the strength sequence
(graph_classes.py 1271-1272, 1366-1369, 1396-1397).
-/

namespace Verif.DCReMa
open Verif Verif.DCM Finset Function
variable {n : ℕ}

/-- a directed path with real weights, used as witness -/
private noncomputable def path : Edges 3 := [(0, 1, 1), (1, 2, 1 / 2)]

private theorem nz_if (s : Fin n → ℝ) (m : Fin n) : (if m ∈ nonzero s then -s m else 0) = -s m := by
  by_cases h : s m = 0 <;> simp [mem_nonzero, h]

/-- observed out- and in-strengths as one vector of length `2n` -/
def strengths (so si : Fin n → ℝ) : Vec n := fun v => if v.1 = 0 then so v.2 else si v.2

/-- expected out- and in-strengths computed by the library as one vector (graph_classes.py 1912-1927) -/
noncomputable def expected (β : Vec n) (adj : Edges n) : Vec n := fun v =>
  if v.1 = 0 then expected_out_strength_crema_directed β adj v.2 else expected_in_strength_crema_directed β adj v.2

theorem prime_val (β : Vec n) (so si : Fin n → ℝ) (adj : Edges n) (v : Fin 2 × Fin n) :
    loglikelihood_prime_crema_directed β so si adj (nonzero so) (nonzero si) v = -strengths so si v + expected β adj v := by
  obtain ⟨b, m⟩ := v
  match b with
  | 0 => rw [prime_eq0 _ _ _ _ _ _ (nodup_nonzero so), nz_if]; rfl
  | 1 => rw [prime_eq1 _ _ _ _ _ _ (nodup_nonzero si), nz_if]; rfl

/-! ### C05 -/

/-- C05 (crema, directed): the gradient vanishes **iff** the expected out- and in-strengths are the observed ones. -/
theorem C05_dcrema_solution_iff (β : Vec n) (so si : Fin n → ℝ) (adj : Edges n) :
    (∀ v, loglikelihood_prime_crema_directed β so si adj (nonzero so) (nonzero si) v = 0) ↔
      (∀ i, expected_out_strength_crema_directed β adj i = so i) ∧ ∀ i, expected_in_strength_crema_directed β adj i = si i := by
  simp only [prime_val, neg_add_eq_zero]
  constructor
  · intro h; exact ⟨fun i => (h (0, i)).symm, fun i => (h (1, i)).symm⟩
  · rintro ⟨h0, h1⟩ ⟨b, i⟩
    match b with
    | 0 => exact (h0 i).symm
    | 1 => exact (h1 i).symm

private theorem exp_mean (r : ℝ) (hr : 0 < r) : (∫ w in Set.Ioi (0 : ℝ), w * (r * Real.exp (-(r * w)))) = 1 / r := by
  have := Real.integral_rpow_mul_exp_neg_mul_Ioi (a := 2) (by norm_num) hr
  have e : (∫ w in Set.Ioi (0 : ℝ), w * (r * Real.exp (-(r * w)))) = r * ∫ w in Set.Ioi (0 : ℝ), w ^ ((2 : ℝ) - 1) * Real.exp (-(r * w)) := by
    rw [← MeasureTheory.integral_const_mul]
    refine MeasureTheory.setIntegral_congr_fun measurableSet_Ioi fun w _ => ?_
    have : w ^ ((2 : ℝ) - 1) = w := by norm_num
    simp only [this]; ring
  have g2 : Real.Gamma 2 = 1 := by
    simpa [one_add_one_eq_two] using Real.Gamma_nat_eq_factorial 1
  rw [e, this, g2]
  rw [show (2 : ℝ) = ((2 : ℕ) : ℝ) by norm_num, Real.rpow_natCast]
  field_simp

/-- C05 (directed): meaning of the expected strengths: sums over the arcs `(i,j)` of the arc probability times the mean of an exponential
weight of rate `β_out[i] + β_in[j]`. -/
theorem C05_dcrema_expected_meaning (β : Vec n) (p : Fin n → Fin n → ℝ) (hβ : ∀ i j, p i j ≠ 0 → 0 < β (0, i) + β (1, j)) (i : Fin n) :
    expected_out_strength_crema_directed β (nzEdges p) i =
      (∑ j, p i j * ∫ w in Set.Ioi (0 : ℝ), w * ((β (0, i) + β (1, j)) * Real.exp (-((β (0, i) + β (1, j)) * w)))) ∧
    expected_in_strength_crema_directed β (nzEdges p) i =
      (∑ j, p j i * ∫ w in Set.Ioi (0 : ℝ), w * ((β (0, j) + β (1, i)) * Real.exp (-((β (0, j) + β (1, i)) * w)))) := by
  rw [out_eq, in_eq, arc_out p (fun i j w => w / (β (0, i) + β (1, j))) (by simp), arc_in p (fun i j w => w / (β (0, i) + β (1, j))) (by simp)]
  have key : ∀ i j, p i j / (β (0, i) + β (1, j)) =
      p i j * ∫ w in Set.Ioi (0 : ℝ), w * ((β (0, i) + β (1, j)) * Real.exp (-((β (0, i) + β (1, j)) * w))) := by
    intro i j
    by_cases h : p i j = 0
    · simp [h]
    · rw [exp_mean _ (hβ i j h)]; ring
  exact ⟨sum_congr rfl fun j _ => key i j, sum_congr rfl fun j _ => key j i⟩

example : ∃ p : Fin 3 → Fin 3 → ℝ, p 0 1 = 1 ∧ p 1 0 = 0 ∧ ∀ i j, p i j ≠ 0 → (0 : ℝ) < (fun _ : Fin 2 × Fin 3 => 1) (0, i) + (fun _ : Fin 2 × Fin 3 => 1) (1, j) :=
  ⟨fun i j => if i < j then 1 else 0, by simp, by simp, by norm_num⟩

/-! ### C06 -/

/-- C06 (crema, directed): the gradient is the derivative of the likelihood, for any list of arcs. -/
theorem C06_dcrema_gradient (β : Vec n) (so si : Fin n → ℝ) (adj : Edges n) (h : ∀ e ∈ adj, 0 < β (0, e.1) + β (1, e.2.1))
    (v : Fin 2 × Fin n) :
    HasDerivAt (fun t => loglikelihood_crema_directed (update β v t) so si adj (nonzero so) (nonzero si))
      (loglikelihood_prime_crema_directed β so si adj (nonzero so) (nonzero si) v) (β v) := by
  simp only [ll_eq _ _ _ _ _ _ (nodup_nonzero so) (nodup_nonzero si)]
  rw [prime_val]
  have hnz : ∀ (s : Fin n → ℝ) (g : Fin n → ℝ), (∑ i ∈ (nonzero s).toFinset, -(s i * g i)) = ∑ i, -(s i * g i) := by
    intro s g
    refine sum_subset (subset_univ _) fun i _ hi => ?_
    have : s i = 0 := by by_contra h; exact hi (List.mem_toFinset.2 ((mem_nonzero s i).2 h))
    simp [this]
  simp only [hnz]
  obtain ⟨b, m⟩ := v
  match b with
  | 0 =>
    refine HasDerivAt.fun_add ?_ ?_
    · have h1 := hasDerivAt_sum_single univ m (fun a t => -(so a * update β (0, m) t (0, a))) (-so m) (β (0, m)) ?_ ?_
      · have := h1.add_const (∑ i, -(si i * β (1, i)))
        simpa [strengths] using this
      · intro a _ ha r r'; simp [update_of_ne ha]
      · intro _; exact hd_aff 0 (-so m) (fun t => by simp) _
    · have : expected β adj (0, m) = (adj.map fun e => if m = e.1 then e.2.2 / (β (0, e.1) + β (1, e.2.1)) else 0).sum := out_eq β adj m
      rw [this]
      refine hasDerivAt_list_sum adj (fun e t => e.2.2 * Real.log (update β (0, m) t (0, e.1) + update β (0, m) t (1, e.2.1))) _ _ fun e he => ?_
      have hp := h e he
      simp only [update_block, Fin.reduceEq, if_true, if_false]
      by_cases h1 : e.1 = m
      · subst h1
        simp only [if_true]
        have hlin : HasDerivAt (fun t => t + β (1, e.2.1)) 1 (β (0, e.1)) := (hasDerivAt_id _).add_const _
        exact ((hlin.log hp.ne').const_mul e.2.2).congr_deriv (by ring)
      · simp only [h1, Ne.symm h1, if_false]; exact hasDerivAt_const _ _
  | 1 =>
    refine HasDerivAt.fun_add ?_ ?_
    · have h1 := hasDerivAt_sum_single univ m (fun a t => -(si a * update β (1, m) t (1, a))) (-si m) (β (1, m)) ?_ ?_
      · have := h1.const_add (∑ i, -(so i * β (0, i)))
        simpa [strengths] using this
      · intro a _ ha r r'; simp [update_of_ne ha]
      · intro _; exact hd_aff 0 (-si m) (fun t => by simp) _
    · have : expected β adj (1, m) = (adj.map fun e => if m = e.2.1 then e.2.2 / (β (0, e.1) + β (1, e.2.1)) else 0).sum := in_eq β adj m
      rw [this]
      refine hasDerivAt_list_sum adj (fun e t => e.2.2 * Real.log (update β (1, m) t (0, e.1) + update β (1, m) t (1, e.2.1))) _ _ fun e he => ?_
      have hp := h e he
      simp only [update_block, Fin.reduceEq, if_true, if_false]
      by_cases h1 : e.2.1 = m
      · subst h1
        simp only [if_true]
        have hlin : HasDerivAt (fun t => β (0, e.1) + t) 1 (β (1, e.2.1)) := (hasDerivAt_id _).const_add _
        exact ((hlin.log hp.ne').const_mul e.2.2).congr_deriv (by ring)
      · simp only [h1, Ne.symm h1, if_false]; exact hasDerivAt_const _ _

example : ∀ e ∈ path, (0 : ℝ) < (fun v : Fin 2 × Fin 3 => (v.2.val : ℝ) + 1) (0, e.1) + (fun v : Fin 2 × Fin 3 => (v.2.val : ℝ) + 1) (1, e.2.1) := by
  intro e _; positivity

/-! ### C07, C08 -/

theorem forL_nz {σ : Type*} (a : Fin n → Fin n → ℝ) (body : Fin n × Fin n × ℝ → σ → σ) (s : σ) :
    forL (nzEdges a) body s = forL (pairs n) (fun e s => if a e.1 e.2 ≠ 0 then body (e.1, e.2, a e.1 e.2) s else s) s := by
  unfold nzEdges
  generalize pairs n = l
  induction l generalizing s with
  | nil => rfl
  | cons e l ih =>
    by_cases h : a e.1 e.2 ≠ 0
    · rw [List.filter_cons_of_pos (by simpa using h), List.map_cons, forL_cons, forL_cons, ih, if_pos h]
    · rw [List.filter_cons_of_neg (by simpa using h), forL_cons, ih, if_neg h]

theorem hess_val (β : Vec n) (a : Fin n → Fin n → ℝ) (p q : Fin n) :
    loglikelihood_hessian_crema_directed β (nzEdges a) (0, p) (0, q) = (if p = q then ∑ j, -(a p j / (β (0, p) + β (1, j)) ^ 2) else 0) ∧
    loglikelihood_hessian_crema_directed β (nzEdges a) (1, p) (1, q) = (if p = q then ∑ j, -(a j p / (β (0, j) + β (1, p)) ^ 2) else 0) ∧
    loglikelihood_hessian_crema_directed β (nzEdges a) (0, p) (1, q) = -(a p q / (β (0, p) + β (1, q)) ^ 2) ∧
    loglikelihood_hessian_crema_directed β (nzEdges a) (1, q) (0, p) = -(a p q / (β (0, p) + β (1, q)) ^ 2) := by
  unfold loglikelihood_hessian_crema_directed
  refine ⟨?_, ?_, ?_, ?_⟩
  · rw [forL_obs_add (fun f : Fin 2 × Fin n → Fin 2 × Fin n → ℝ => f (0, p) (0, q)) _ _
      (fun e => if p = e.1 then (fun i j w => if q = i then -(w / (β (0, i) + β (1, j)) ^ 2) else 0) e.1 e.2.1 e.2.2 else 0),
      arc_out a (fun i j w => if q = i then -(w / (β (0, i) + β (1, j)) ^ 2) else 0) (by simp)]
    · by_cases h : p = q
      · subst h; simp
      · simp [h, Ne.symm h]
    · intro e f
      simp only [addAt2_eq, Pi.add_apply, single2_apply, setAt2_apply]
      by_cases h1 : p = e.1 <;> by_cases h2 : q = e.1 <;> simp [h1, h2]
  · rw [forL_obs_add (fun f : Fin 2 × Fin n → Fin 2 × Fin n → ℝ => f (1, p) (1, q)) _ _
      (fun e => if p = e.2.1 then (fun i j w => if q = j then -(w / (β (0, i) + β (1, j)) ^ 2) else 0) e.1 e.2.1 e.2.2 else 0),
      arc_in a (fun i j w => if q = j then -(w / (β (0, i) + β (1, j)) ^ 2) else 0) (by simp)]
    · by_cases h : p = q
      · subst h; simp
      · simp [h, Ne.symm h]
    · intro e f
      simp only [addAt2_eq, Pi.add_apply, single2_apply, setAt2_apply]
      by_cases h1 : p = e.2.1 <;> by_cases h2 : q = e.2.1 <;> simp [h1, h2]
  · rw [forL_nz]
    refine (forL_obs_once (fun f : Fin 2 × Fin n → Fin 2 × Fin n → ℝ => f (0, p) (1, q)) (pairs n) _ (p, q)
      (fun v => if a p q ≠ 0 then -(a p q / (β (0, p) + β (1, q)) ^ 2) else v) ?_ ?_ nodup_pairs (mem_pairs _) _).trans ?_
    · intro f
      by_cases h : a p q = 0
      · simp [h]
      · simp [h, addAt2_eq, single2_apply, setAt2_apply]
    · intro e he f
      by_cases h : a e.1 e.2 = 0
      · simp [h]
      · have : ¬ (p = e.1 ∧ q = e.2) := fun h' => he (Prod.ext h'.1.symm h'.2.symm)
        simp [h, addAt2_eq, single2_apply, setAt2_apply, this]
    · by_cases h : a p q = 0 <;> simp [h]
  · rw [forL_nz]
    refine (forL_obs_once (fun f : Fin 2 × Fin n → Fin 2 × Fin n → ℝ => f (1, q) (0, p)) (pairs n) _ (p, q)
      (fun v => if a p q ≠ 0 then -(a p q / (β (0, p) + β (1, q)) ^ 2) else v) ?_ ?_ nodup_pairs (mem_pairs _) _).trans ?_
    · intro f
      by_cases h : a p q = 0
      · simp [h]
      · simp [h, addAt2_eq, single2_apply, setAt2_apply]
    · intro e he f
      by_cases h : a e.1 e.2 = 0
      · simp [h]
      · have : ¬ (q = e.2 ∧ p = e.1) := fun h' => he (Prod.ext h'.2.symm h'.1.symm)
        simp [h, addAt2_eq, single2_apply, setAt2_apply, this]
    · by_cases h : a p q = 0 <;> simp [h]

private theorem prime0 (β : Vec n) (so si : Fin n → ℝ) (a : Fin n → Fin n → ℝ) (m : Fin n) :
    loglikelihood_prime_crema_directed β so si (nzEdges a) (nonzero so) (nonzero si) (0, m) =
      -so m + ∑ j, a m j / (β (0, m) + β (1, j)) := by
  rw [prime_eq0 _ _ _ _ _ _ (nodup_nonzero so), nz_if, out_eq, arc_out a (fun i j w => w / (β (0, i) + β (1, j))) (by simp)]

private theorem prime1 (β : Vec n) (so si : Fin n → ℝ) (a : Fin n → Fin n → ℝ) (m : Fin n) :
    loglikelihood_prime_crema_directed β so si (nzEdges a) (nonzero so) (nonzero si) (1, m) =
      -si m + ∑ j, a j m / (β (0, j) + β (1, m)) := by
  rw [prime_eq1 _ _ _ _ _ _ (nodup_nonzero si), nz_if, in_eq, arc_in a (fun i j w => w / (β (0, i) + β (1, j))) (by simp)]

/-- C07 (crema, directed): the Hessian is the Jacobian of the gradient, for the arcs of any weight matrix. -/
theorem C07_dcrema_hessian (β : Vec n) (so si : Fin n → ℝ) (a : Fin n → Fin n → ℝ) (hβ : ∀ i j, a i j ≠ 0 → 0 < β (0, i) + β (1, j))
    (u v : Fin 2 × Fin n) :
    HasDerivAt (fun t => loglikelihood_prime_crema_directed (update β v t) so si (nzEdges a) (nonzero so) (nonzero si) u)
      (loglikelihood_hessian_crema_directed β (nzEdges a) u v) (β v) := by
  have term : ∀ c x y : ℝ, (c ≠ 0 → 0 < x + y) → HasDerivAt (fun t => c / (t + y)) (-(c / (x + y) ^ 2)) x := by
    intro c x y hc
    by_cases h0 : c = 0
    · subst h0; simpa using hasDerivAt_const x (0 : ℝ)
    · refine hd_div (hasDerivAt_const x c) ((hasDerivAt_id x).add_const y) (hc h0).ne' ?_
      simp [neg_div]
  have term' : ∀ c x y : ℝ, (c ≠ 0 → 0 < x + y) → HasDerivAt (fun t => c / (x + t)) (-(c / (x + y) ^ 2)) y := by
    intro c x y hc
    have := term c y x (fun h => by rw [add_comm]; exact hc h)
    simpa only [add_comm x] using this
  obtain ⟨b, p⟩ := u
  obtain ⟨b', q⟩ := v
  match b, b' with
  | 0, 0 =>
    rw [(hess_val β a p q).1]
    simp only [prime0, update_block, Fin.reduceEq, if_true, if_false]
    by_cases h : p = q
    · subst h
      simp only [if_true]
      exact (HasDerivAt.fun_sum fun j _ => term _ _ _ (hβ p j)).const_add _
    · simp only [h, if_false]; exact hasDerivAt_const _ _
  | 1, 1 =>
    rw [(hess_val β a p q).2.1]
    simp only [prime1, update_block, Fin.reduceEq, if_true, if_false]
    by_cases h : p = q
    · subst h
      simp only [if_true]
      exact (HasDerivAt.fun_sum fun j _ => term' _ _ _ (hβ j p)).const_add _
    · simp only [h, if_false]; exact hasDerivAt_const _ _
  | 0, 1 =>
    rw [(hess_val β a p q).2.2.1]
    simp only [prime0, update_block, Fin.reduceEq, if_true, if_false]
    have := hasDerivAt_sum_single univ q (fun j t => a p j / (β (0, p) + if j = q then t else β (1, j))) (-(a p q / (β (0, p) + β (1, q)) ^ 2)) (β (1, q))
      (fun j _ hj r r' => by simp [hj]) (fun _ => by simpa using term' _ _ _ (hβ p q))
    simpa using this.const_add (-so p)
  | 1, 0 =>
    rw [(hess_val β a q p).2.2.2]
    simp only [prime1, update_block, Fin.reduceEq, if_true, if_false]
    have := hasDerivAt_sum_single univ q (fun j t => a j p / ((if j = q then t else β (0, j)) + β (1, p))) (-(a q p / (β (0, q) + β (1, p)) ^ 2)) (β (0, q))
      (fun j _ hj r r' => by simp [hj]) (fun _ => by simpa using term _ _ _ (hβ q p))
    simpa using this.const_add (-si p)

/-- C08 (crema, directed): the diagonal Hessian is the derivative of gradient component `v` in `β_v`. -/
theorem C08_dcrema_hessian_diag (β : Vec n) (so si : Fin n → ℝ) (a : Fin n → Fin n → ℝ) (hβ : ∀ i j, a i j ≠ 0 → 0 < β (0, i) + β (1, j))
    (v : Fin 2 × Fin n) :
    HasDerivAt (fun t => loglikelihood_prime_crema_directed (update β v t) so si (nzEdges a) (nonzero so) (nonzero si) v)
      (loglikelihood_hessian_diag_crema_directed β (nzEdges a) v) (β v) := by
  have := C07_dcrema_hessian β so si a hβ v v
  obtain ⟨b, m⟩ := v
  match b with
  | 0 =>
    rwa [(hess_val β a m m).1, if_pos rfl, ← arc_out a (fun i j w => -(w / (β (0, i) + β (1, j)) ^ 2)) (by simp) m, ← diag_eq0] at this
  | 1 =>
    rwa [(hess_val β a m m).2.1, if_pos rfl, ← arc_in a (fun i j w => -(w / (β (0, i) + β (1, j)) ^ 2)) (by simp) m, ← diag_eq1] at this

example : ∃ a : Fin 3 → Fin 3 → ℝ, a 0 1 ≠ a 1 0 ∧ a 1 2 ≠ 0 ∧
    ∀ i j : Fin 3, a i j ≠ 0 → (0 : ℝ) < (fun v : Fin 2 × Fin 3 => (v.2.val : ℝ) + 1) (0, i) + (fun v : Fin 2 × Fin 3 => (v.2.val : ℝ) + 1) (1, j) :=
  ⟨fun i j => if i < j then 1 else 0, by simp, by simp, fun i j _ => by positivity⟩

/-! ### C11 -/

private theorem lin_sum (β d : Vec n) (l : Edges n) :
    (∑ v : Fin 2 × Fin n, expected β l v * d v) = (l.map fun e => e.2.2 / (β (0, e.1) + β (1, e.2.1)) * (d (0, e.1) + d (1, e.2.1))).sum := by
  rw [Fintype.sum_prod_type, Fin.sum_univ_two]
  have e0 : ∀ m, expected β l (0, m) = (l.map fun e => if m = e.1 then e.2.2 / (β (0, e.1) + β (1, e.2.1)) else 0).sum := fun m => out_eq β l m
  have e1 : ∀ m, expected β l (1, m) = (l.map fun e => if m = e.2.1 then e.2.2 / (β (0, e.1) + β (1, e.2.1)) else 0).sum := fun m => in_eq β l m
  simp only [e0, e1]
  induction l with
  | nil => simp
  | cons e l ih =>
    simp only [List.map_cons, List.sum_cons, add_mul, sum_add_distrib, ite_mul, zero_mul]
    rw [← ih (fun m => out_eq β l m) (fun m => in_eq β l m)]
    simp; ring

/-- C11 (crema, directed): the likelihood is below each of its tangent planes. -/
theorem C11_dcrema_tangent (β β' : Vec n) (so si : Fin n → ℝ) (adj : Edges n) (hw : ∀ e ∈ adj, 0 ≤ e.2.2)
    (h : ∀ e ∈ adj, 0 < β (0, e.1) + β (1, e.2.1)) (h' : ∀ e ∈ adj, 0 < β' (0, e.1) + β' (1, e.2.1)) :
    loglikelihood_crema_directed β' so si adj (nonzero so) (nonzero si) ≤ loglikelihood_crema_directed β so si adj (nonzero so) (nonzero si) +
      ∑ v, loglikelihood_prime_crema_directed β so si adj (nonzero so) (nonzero si) v * (β' v - β v) := by
  have hnz : ∀ (s : Fin n → ℝ) (g : Fin n → ℝ), (∑ i ∈ (nonzero s).toFinset, -(s i * g i)) = ∑ i, -(s i * g i) := by
    intro s g
    refine sum_subset (subset_univ _) fun i _ hi => ?_
    have : s i = 0 := by by_contra h; exact hi (List.mem_toFinset.2 ((mem_nonzero s i).2 h))
    simp [this]
  have logs : ∀ l : Edges n, (∀ e ∈ l, 0 ≤ e.2.2 ∧ 0 < β (0, e.1) + β (1, e.2.1) ∧ 0 < β' (0, e.1) + β' (1, e.2.1)) →
      (l.map fun e => e.2.2 * Real.log (β' (0, e.1) + β' (1, e.2.1))).sum ≤ (l.map fun e => e.2.2 * Real.log (β (0, e.1) + β (1, e.2.1))).sum +
      (l.map fun e => e.2.2 / (β (0, e.1) + β (1, e.2.1)) * ((β' (0, e.1) - β (0, e.1)) + (β' (1, e.2.1) - β (1, e.2.1)))).sum := by
    intro l
    induction l with
    | nil => simp
    | cons e l ih =>
      intro hl
      obtain ⟨w0, b0, b1⟩ := hl e List.mem_cons_self
      have := ih fun e he => hl e (List.mem_cons_of_mem _ he)
      simp only [List.map_cons, List.sum_cons]
      have key : Real.log (β' (0, e.1) + β' (1, e.2.1)) ≤ Real.log (β (0, e.1) + β (1, e.2.1)) +
          ((β' (0, e.1) - β (0, e.1)) + (β' (1, e.2.1) - β (1, e.2.1))) / (β (0, e.1) + β (1, e.2.1)) := by
        have := Real.log_le_sub_one_of_pos (div_pos b1 b0)
        rw [Real.log_div b1.ne' b0.ne'] at this
        have e2 : ((β' (0, e.1) - β (0, e.1)) + (β' (1, e.2.1) - β (1, e.2.1))) / (β (0, e.1) + β (1, e.2.1)) =
            (β' (0, e.1) + β' (1, e.2.1)) / (β (0, e.1) + β (1, e.2.1)) - 1 := by
          field_simp; ring
        rw [e2]; linarith
      have := mul_le_mul_of_nonneg_left key w0
      rw [mul_add, mul_div_assoc', ← div_mul_eq_mul_div] at this
      linarith
  have lin := lin_sum β (fun v => β' v - β v) adj
  simp only [ll_eq _ _ _ _ _ _ (nodup_nonzero so) (nodup_nonzero si), hnz, prime_val, add_mul, sum_add_distrib, lin]
  have e1 : (∑ v : Fin 2 × Fin n, -strengths so si v * (β' v - β v)) = ((∑ i, -(so i * β' (0, i))) - ∑ i, -(so i * β (0, i))) +
      ((∑ i, -(si i * β' (1, i))) - ∑ i, -(si i * β (1, i))) := by
    rw [Fintype.sum_prod_type, Fin.sum_univ_two, ← sum_sub_distrib, ← sum_sub_distrib]
    congr 1
    · exact sum_congr rfl fun i _ => by simp only [strengths, if_true]; ring
    · exact sum_congr rfl fun i _ => by simp only [strengths, Fin.reduceEq, one_ne_zero, if_false]; ring
  rw [e1]
  have := logs adj fun e he => ⟨hw e he, h e he, h' e he⟩
  linarith

/-- C11 (crema, directed): a zero of the gradient is a global maximiser. -/
theorem C11_dcrema_global_max (β : Vec n) (so si : Fin n → ℝ) (adj : Edges n) (hw : ∀ e ∈ adj, 0 ≤ e.2.2)
    (h : ∀ e ∈ adj, 0 < β (0, e.1) + β (1, e.2.1))
    (h0 : ∀ v, loglikelihood_prime_crema_directed β so si adj (nonzero so) (nonzero si) v = 0)
    (β' : Vec n) (h' : ∀ e ∈ adj, 0 < β' (0, e.1) + β' (1, e.2.1)) :
    loglikelihood_crema_directed β' so si adj (nonzero so) (nonzero si) ≤ loglikelihood_crema_directed β so si adj (nonzero so) (nonzero si) := by
  have := C11_dcrema_tangent β β' so si adj hw h h'
  simpa [h0] using this

/-- C11 (crema, directed): two zeros of the gradient give every arc of positive weight the same rate. -/
theorem C11_dcrema_unique_rates (β β' : Vec n) (so si : Fin n → ℝ) (adj : Edges n) (hw : ∀ e ∈ adj, 0 < e.2.2)
    (h : ∀ e ∈ adj, 0 < β (0, e.1) + β (1, e.2.1)) (h' : ∀ e ∈ adj, 0 < β' (0, e.1) + β' (1, e.2.1))
    (h0 : ∀ v, loglikelihood_prime_crema_directed β so si adj (nonzero so) (nonzero si) v = 0)
    (h1 : ∀ v, loglikelihood_prime_crema_directed β' so si adj (nonzero so) (nonzero si) v = 0)
    (e : Fin n × Fin n × ℝ) (he : e ∈ adj) : β (0, e.1) + β (1, e.2.1) = β' (0, e.1) + β' (1, e.2.1) := by
  have tot : (adj.map fun e => e.2.2 / (β (0, e.1) + β (1, e.2.1)) * ((β' (0, e.1) - β (0, e.1)) + (β' (1, e.2.1) - β (1, e.2.1))) -
      e.2.2 / (β' (0, e.1) + β' (1, e.2.1)) * ((β' (0, e.1) - β (0, e.1)) + (β' (1, e.2.1) - β (1, e.2.1)))).sum = 0 := by
    have l0 := lin_sum β (fun v => β' v - β v) adj
    have l1 := lin_sum β' (fun v => β' v - β v) adj
    rw [list_sum_sub, ← l0, ← l1, ← sum_sub_distrib]
    refine sum_eq_zero fun v _ => ?_
    have a0 := h0 v
    have a1 := h1 v
    rw [prime_val] at a0 a1
    rw [← sub_mul, sub_eq_zero.2 (add_left_cancel (a0.trans a1.symm)), zero_mul]
  have nonneg : ∀ e ∈ adj, 0 ≤ e.2.2 / (β (0, e.1) + β (1, e.2.1)) * ((β' (0, e.1) - β (0, e.1)) + (β' (1, e.2.1) - β (1, e.2.1))) -
      e.2.2 / (β' (0, e.1) + β' (1, e.2.1)) * ((β' (0, e.1) - β (0, e.1)) + (β' (1, e.2.1) - β (1, e.2.1))) ∧
      (e.2.2 / (β (0, e.1) + β (1, e.2.1)) * ((β' (0, e.1) - β (0, e.1)) + (β' (1, e.2.1) - β (1, e.2.1))) -
      e.2.2 / (β' (0, e.1) + β' (1, e.2.1)) * ((β' (0, e.1) - β (0, e.1)) + (β' (1, e.2.1) - β (1, e.2.1))) = 0 →
        β (0, e.1) + β (1, e.2.1) = β' (0, e.1) + β' (1, e.2.1)) := by
    intro e he
    have w0 := hw e he; have b0 := h e he; have b1 := h' e he
    have ed : (β' (0, e.1) - β (0, e.1)) + (β' (1, e.2.1) - β (1, e.2.1)) = (β' (0, e.1) + β' (1, e.2.1)) - (β (0, e.1) + β (1, e.2.1)) := by ring
    rw [ed]
    generalize β (0, e.1) + β (1, e.2.1) = u at *
    generalize β' (0, e.1) + β' (1, e.2.1) = v at *
    have : e.2.2 / u * (v - u) - e.2.2 / v * (v - u) = e.2.2 * ((v - u) ^ 2 / (u * v)) := by field_simp
    rw [this]
    refine ⟨by positivity, fun hz => ?_⟩
    have hz' := (mul_eq_zero.1 hz).resolve_left w0.ne'
    have := (div_eq_zero_iff.1 hz').resolve_right (mul_pos b0 b1).ne'
    have := pow_eq_zero_iff (two_ne_zero) |>.1 this
    linarith
  exact (nonneg e he).2 (list_sum_zero adj _ (fun e he => (nonneg e he).1) tot e he)

example : (∀ e ∈ path, (0 : ℝ) < e.2.2) ∧ (∀ e ∈ path, (0 : ℝ) < (fun _ : Fin 2 × Fin 3 => (1 / 2 : ℝ)) (0, e.1) + (fun _ : Fin 2 × Fin 3 => 1 / 2) (1, e.2.1)) ∧
    ∃ so si : Fin 3 → ℝ, so 1 = 1 / 2 ∧ ∀ v, loglikelihood_prime_crema_directed (fun _ => 1 / 2) so si path (nonzero so) (nonzero si) v = 0 := by
  refine ⟨?_, ?_, ⟨fun i => expected_out_strength_crema_directed (fun _ => 1 / 2) path i,
    fun i => expected_in_strength_crema_directed (fun _ => 1 / 2) path i, ?_, ?_⟩⟩
  · intro e he; simp only [path, List.mem_cons, List.not_mem_nil, or_false] at he
    rcases he with rfl | rfl <;> norm_num
  · intro e _; norm_num
  · simp only [out_eq]; simp [path]; norm_num
  · exact (C05_dcrema_solution_iff _ _ _ _).2 ⟨fun _ => rfl, fun _ => rfl⟩

/-! ### C12, C42 -/

/-- the fixed-point map multiplies each parameter by expected over observed strength -/
theorem iter_ratio (β : Vec n) (so si : Fin n → ℝ) (adj : Edges n) (hβ : ∀ v, 0 < β v) (v : Fin 2 × Fin n) (hs : strengths so si v ≠ 0) :
    -iterative_crema_directed β so si adj (nonzero so) (nonzero si) v = β v * expected β adj v / strengths so si v := by
  obtain ⟨b, m⟩ := v
  match b with
  | 0 =>
    have hs' : so m ≠ 0 := hs
    rw [iter_eq0 _ _ _ _ _ _ (nodup_nonzero so), if_pos ((mem_nonzero so m).2 hs'), ← neg_div]
    change _ = β (0, m) * expected_out_strength_crema_directed β adj m / so m
    rw [out_eq]
    congr 1
    induction adj with
    | nil => simp
    | cons e l ih =>
      simp only [List.map_cons, List.sum_cons, mul_add, neg_add] at ih ⊢
      rw [ih]
      have h1 := hβ (0, e.1); have h2 := hβ (1, e.2.1)
      congr 1
      by_cases h : m = e.1
      · simp only [h, if_true]; field_simp
      · simp [h]
  | 1 =>
    have hs' : si m ≠ 0 := hs
    rw [iter_eq1 _ _ _ _ _ _ (nodup_nonzero si), if_pos ((mem_nonzero si m).2 hs'), ← neg_div]
    change _ = β (1, m) * expected_in_strength_crema_directed β adj m / si m
    rw [in_eq]
    congr 1
    induction adj with
    | nil => simp
    | cons e l ih =>
      simp only [List.map_cons, List.sum_cons, mul_add, neg_add] at ih ⊢
      rw [ih]
      have h1 := hβ (0, e.1); have h2 := hβ (1, e.2.1)
      congr 1
      by_cases h : m = e.2.1
      · simp only [h, if_true]; field_simp; ring
      · simp [h]

/-- C12 (crema, directed): the fixed-point map of the graph object (graph_classes.py 2048) fixes a component of non-zero strength **iff** its gradient component vanishes. -/
theorem C12_dcrema_fixed_point_iff (β : Vec n) (so si : Fin n → ℝ) (adj : Edges n) (hβ : ∀ v, 0 < β v) (v : Fin 2 × Fin n)
    (hs : strengths so si v ≠ 0) :
    -iterative_crema_directed β so si adj (nonzero so) (nonzero si) v = β v ↔
      loglikelihood_prime_crema_directed β so si adj (nonzero so) (nonzero si) v = 0 := by
  rw [iter_ratio β so si adj hβ v hs, prime_val, div_eq_iff hs, mul_right_inj' (hβ v).ne', neg_add_eq_zero, eq_comm]

example : (∀ v : Fin 2 × Fin 3, (0 : ℝ) < (fun _ => 1 / 2) v) ∧ strengths (fun _ : Fin 3 => (1 : ℝ)) (fun _ => 2) (1, 2) ≠ 0 := by
  simp [strengths]

/-- C42 (crema, directed): at positive parameters and non-negative weights, the fixed-point map is positive in every component of
positive strength that has at least one arc of positive weight. -/
theorem C42_dcrema_iterative (β : Vec n) (so si : Fin n → ℝ) (adj : Edges n) (hβ : ∀ v, 0 < β v) (hw : ∀ e ∈ adj, 0 ≤ e.2.2) (i : Fin n) :
    (0 < so i → (∃ e ∈ adj, e.1 = i ∧ 0 < e.2.2) → 0 < -iterative_crema_directed β so si adj (nonzero so) (nonzero si) (0, i)) ∧
    (0 < si i → (∃ e ∈ adj, e.2.1 = i ∧ 0 < e.2.2) → 0 < -iterative_crema_directed β so si adj (nonzero so) (nonzero si) (1, i)) := by
  have hd : ∀ e : Fin n × Fin n × ℝ, 0 < β (0, e.1) + β (1, e.2.1) := fun e => add_pos (hβ _) (hβ _)
  constructor
  · rintro hs ⟨e, he, rfl, hpos⟩
    rw [iter_ratio β so si adj hβ (0, e.1) hs.ne']
    have nn : ∀ e' ∈ adj, 0 ≤ if e.1 = e'.1 then e'.2.2 / (β (0, e'.1) + β (1, e'.2.1)) else 0 := by
      intro e' he'
      split
      · exact div_nonneg (hw e' he') (hd e').le
      · exact le_rfl
    have h0 := list_sum_nonneg adj _ nn
    have hne : (adj.map fun e' => if e.1 = e'.1 then e'.2.2 / (β (0, e'.1) + β (1, e'.2.1)) else 0).sum ≠ 0 := by
      intro hz
      have := list_sum_zero adj _ nn hz e he
      rw [if_pos rfl] at this
      exact (div_pos hpos (hd e)).ne' this
    have ex : 0 < expected β adj (0, e.1) := by
      change 0 < expected_out_strength_crema_directed β adj e.1
      rw [out_eq]; exact lt_of_le_of_ne h0 (Ne.symm hne)
    exact div_pos (mul_pos (hβ _) ex) hs
  · rintro hs ⟨e, he, rfl, hpos⟩
    rw [iter_ratio β so si adj hβ (1, e.2.1) hs.ne']
    have nn : ∀ e' ∈ adj, 0 ≤ if e.2.1 = e'.2.1 then e'.2.2 / (β (0, e'.1) + β (1, e'.2.1)) else 0 := by
      intro e' he'
      split
      · exact div_nonneg (hw e' he') (hd e').le
      · exact le_rfl
    have h0 := list_sum_nonneg adj _ nn
    have hne : (adj.map fun e' => if e.2.1 = e'.2.1 then e'.2.2 / (β (0, e'.1) + β (1, e'.2.1)) else 0).sum ≠ 0 := by
      intro hz
      have := list_sum_zero adj _ nn hz e he
      rw [if_pos rfl] at this
      exact (div_pos hpos (hd e)).ne' this
    have ex : 0 < expected β adj (1, e.2.1) := by
      change 0 < expected_in_strength_crema_directed β adj e.2.1
      rw [in_eq]; exact lt_of_le_of_ne h0 (Ne.symm hne)
    exact div_pos (mul_pos (hβ _) ex) hs

example : (∀ e ∈ path, (0 : ℝ) ≤ e.2.2) ∧ (∃ e ∈ path, e.1 = 1 ∧ 0 < e.2.2) ∧ ∃ e ∈ path, e.2.1 = 1 ∧ 0 < e.2.2 := by
  refine ⟨?_, ⟨(1, 2, 1 / 2), by simp [path], by norm_num⟩, ⟨(0, 1, 1), by simp [path], by norm_num⟩⟩
  intro e he; simp only [path, List.mem_cons, List.not_mem_nil, or_false] at he
  rcases he with rfl | rfl <;> norm_num

/-! ### C33 -/

/-- The situation in which the graph object uses the two representations: `x`, `y` non-negative solution of the binary model, zero for
nodes of zero degree (`ko`, `ki`); a node has zero strength exactly when it has zero parameter. -/
structure Consistent (ko ki so si x y : Fin n → ℝ) : Prop where
  x_nonneg : ∀ i, 0 ≤ x i
  y_nonneg : ∀ i, 0 ≤ y i
  x_zero : ∀ i, ko i = 0 → x i = 0
  y_zero : ∀ i, ki i = 0 → y i = 0
  so_zero : ∀ i, so i = 0 ↔ x i = 0
  si_zero : ∀ i, si i = 0 ↔ y i = 0

example : Consistent (n := 3) (fun i => i.val) (fun i => 2 - i.val) (fun i => i.val / 2) (fun i => (2 - i.val) * 3) (fun i => i.val) (fun i => 2 - i.val) := by
  have h : ∀ i : Fin 3, (i.val : ℝ) ≤ 2 := fun i => by
    have : i.val ≤ 2 := by omega
    exact_mod_cast this
  refine ⟨fun i => by positivity, fun i => by linarith [h i], fun i => by simp, fun i => by simp, fun i => by simp, fun i => by simp⟩

/-- the dense link probability matrix the graph object builds (graph_classes.py 2314) -/
noncomputable def P (ko ki x y : Fin n → ℝ) : Fin n → Fin n → ℝ := pmatrix_dcm (cat x y) (nonzero ko) (nonzero ki)

private theorem P_eq {ko ki so si x y : Fin n → ℝ} (h : Consistent ko ki so si x y) (i j : Fin n) :
    P ko ki x y i j = if i = j then 0 else pr x y i j := by
  unfold P
  rw [DCM.pmatrix_eq]
  by_cases hij : i = j
  · simp [hij]
  · simp only [mem_nonzero, cat0, cat1, hij, ne_eq, not_false_eq_true, and_true, if_false]
    by_cases h1 : ko i = 0
    · simp [h1, pr_zero x y i j (Or.inl (h.x_zero i h1))]
    · by_cases h2 : ki j = 0
      · simp [h2, pr_zero x y i j (Or.inr (h.y_zero j h2))]
      · simp [h1, h2, pr]

private theorem P_row {ko ki so si x y : Fin n → ℝ} (h : Consistent ko ki so si x y) (m : Fin n) (k : Fin n → ℝ → ℝ) (hk : ∀ j, k j 0 = 0) :
    (∑ j, k j (P ko ki x y m j)) = ∑ j, if j = m then 0 else k j (pr x y m j) := by
  refine sum_congr rfl fun j _ => ?_
  rw [P_eq h]
  by_cases hj : j = m
  · subst hj; simp [hk]
  · simp [hj, Ne.symm hj]

private theorem P_col {ko ki so si x y : Fin n → ℝ} (h : Consistent ko ki so si x y) (m : Fin n) (k : Fin n → ℝ → ℝ) (hk : ∀ j, k j 0 = 0) :
    (∑ j, k j (P ko ki x y j m)) = ∑ j, if j = m then 0 else k j (pr x y j m) := by
  refine sum_congr rfl fun j _ => ?_
  rw [P_eq h]
  by_cases hj : j = m
  · subst hj; simp [hk]
  · simp [hj]

private theorem row_zero {x y : Fin n → ℝ} (m : Fin n) (hm : x m = 0) (d : Fin n → ℝ) : (∑ j, if j = m then 0 else pr x y m j / d j) = 0 := by
  refine sum_eq_zero fun j _ => ?_
  simp [pr_zero x y m j (Or.inl hm)]

private theorem col_zero {x y : Fin n → ℝ} (m : Fin n) (hm : y m = 0) (d : Fin n → ℝ) : (∑ j, if j = m then 0 else pr x y j m / d j) = 0 := by
  refine sum_eq_zero fun j _ => ?_
  simp [pr_zero x y j m (Or.inr hm)]

/-- C33 (directed), likelihood. -/
theorem C33_dcrema_likelihood (β : Vec n) (ko ki so si x y : Fin n → ℝ) (h : Consistent ko ki so si x y) :
    loglikelihood_crema_directed_sparse β so si x y (nonzero so) (nonzero si) =
      loglikelihood_crema_directed β so si (nzEdges (P ko ki x y)) (nonzero so) (nonzero si) := by
  rw [ll_sparse_eq β so si x y _ _ (nodup_nonzero so) (nodup_nonzero si) h.x_nonneg h.y_nonneg,
    ll_eq _ _ _ _ _ _ (nodup_nonzero so) (nodup_nonzero si), sum_arcs _ (fun i j w => w * Real.log (β (0, i) + β (1, j))) (by simp)]
  congr 1
  have z : ∀ i j, i ∉ (nonzero so).toFinset ∨ j ∉ (nonzero si).toFinset → P ko ki x y i j = 0 := by
    intro i j hij
    rw [P_eq h]
    have : x i = 0 ∨ y j = 0 := by
      rcases hij with h' | h'
      · left; rw [List.mem_toFinset, mem_nonzero, not_not] at h'; exact (h.so_zero i).1 h'
      · right; rw [List.mem_toFinset, mem_nonzero, not_not] at h'; exact (h.si_zero j).1 h'
    simp [pr_zero x y i j this]
  rw [← sum_subset (subset_univ (nonzero so).toFinset)]
  · refine sum_congr rfl fun i _ => ?_
    rw [← sum_subset (subset_univ (nonzero si).toFinset)]
    · refine sum_congr rfl fun j _ => ?_
      rw [P_eq h]; split <;> simp
    · intro j _ hj; rw [z i j (Or.inr hj), zero_mul]
  · intro i _ hi
    exact sum_eq_zero fun j _ => by rw [z i j (Or.inl hi), zero_mul]

/-- C33 (directed), gradient: both sparse variants equal the dense gradient; the parallel one for every order of its two loops. -/
theorem C33_dcrema_gradient (β : Vec n) (ko ki so si x y : Fin n → ℝ) (h : Consistent ko ki so si x y) (sx sy : List (Fin n))
    (hx : sx.Perm (nonzero so)) (hy : sy.Perm (nonzero si)) (v : Fin 2 × Fin n) :
    loglikelihood_prime_crema_directed_sparse sx sy β so si x y v =
      loglikelihood_prime_crema_directed β so si (nzEdges (P ko ki x y)) (nonzero so) (nonzero si) v ∧
    loglikelihood_prime_crema_directed_sparse_2 β so si x y v =
      loglikelihood_prime_crema_directed β so si (nzEdges (P ko ki x y)) (nonzero so) (nonzero si) v := by
  obtain ⟨b, m⟩ := v
  match b with
  | 0 =>
    rw [prime0, P_row h m (fun j w => w / (β (0, m) + β (1, j))) (by simp), prime_sparse_eq0 sx sy (hx.nodup_iff.2 (nodup_nonzero so)),
      (prime_sparse2_eq β so si x y h.x_nonneg h.y_nonneg m).1]
    by_cases hm : x m = 0
    · have := (h.so_zero m).2 hm
      simp only [eq_comm (a := m)]
      simp [hx.mem_iff, mem_nonzero, this, hm, row_zero m hm]
    · have hso : so m ≠ 0 := fun h' => hm ((h.so_zero m).1 h')
      simp [hx.mem_iff, mem_nonzero, hso, hm, eq_comm]
  | 1 =>
    rw [prime1, P_col h m (fun j w => w / (β (0, j) + β (1, m))) (by simp), prime_sparse_eq1 sx sy (hy.nodup_iff.2 (nodup_nonzero si)),
      (prime_sparse2_eq β so si x y h.x_nonneg h.y_nonneg m).2]
    by_cases hm : y m = 0
    · have := (h.si_zero m).2 hm
      simp [hy.mem_iff, mem_nonzero, this, hm, col_zero m hm]
    · have hsi : si m ≠ 0 := fun h' => hm ((h.si_zero m).1 h')
      simp [hy.mem_iff, mem_nonzero, hsi, hm]

/-- C33 (directed), expected strengths. -/
theorem C33_dcrema_expected (β : Vec n) (ko ki so si x y : Fin n → ℝ) (h : Consistent ko ki so si x y) (i : Fin n) :
    expected_out_strength_crema_directed_sparse β x y i = expected_out_strength_crema_directed β (nzEdges (P ko ki x y)) i ∧
    expected_in_stregth_crema_directed_sparse β x y i = expected_in_strength_crema_directed β (nzEdges (P ko ki x y)) i := by
  rw [out_sparse_eq β x y h.x_nonneg h.y_nonneg, in_sparse_eq β x y h.x_nonneg h.y_nonneg, out_eq, in_eq,
    arc_out _ (fun i j w => w / (β (0, i) + β (1, j))) (by simp), arc_in _ (fun i j w => w / (β (0, i) + β (1, j))) (by simp),
    P_row h i (fun j w => w / (β (0, i) + β (1, j))) (by simp), P_col h i (fun j w => w / (β (0, j) + β (1, i))) (by simp)]
  exact ⟨rfl, rfl⟩

/-- C05 (crema-sparse, directed): the gradient of the sparse variant vanishes iff the sparse expected strengths are the observed ones. -/
theorem C05_dcrema_sparse_solution_iff (β : Vec n) (ko ki so si x y : Fin n → ℝ) (h : Consistent ko ki so si x y) (sx sy : List (Fin n))
    (hx : sx.Perm (nonzero so)) (hy : sy.Perm (nonzero si)) :
    (∀ v, loglikelihood_prime_crema_directed_sparse sx sy β so si x y v = 0) ↔
      (∀ i, expected_out_strength_crema_directed_sparse β x y i = so i) ∧ ∀ i, expected_in_stregth_crema_directed_sparse β x y i = si i := by
  simp only [(C33_dcrema_gradient β ko ki so si x y h sx sy hx hy _).1, (C33_dcrema_expected β ko ki so si x y h _).1,
    (C33_dcrema_expected β ko ki so si x y h _).2]
  exact C05_dcrema_solution_iff _ _ _ _

/-- C33 (directed), diagonal Hessian: the serial sparse variant is exact; the parallel one adds `exp(-100)` to the squared rates, which
changes the value by at most `exp(-100) * Σ p/rate⁴`. -/
theorem C33_dcrema_hessian_diag (β : Vec n) (ko ki so si x y : Fin n → ℝ) (h : Consistent ko ki so si x y) (sched : List (Fin n))
    (hs : sched.Perm (List.finRange n)) (hβ : ∀ i j, i ≠ j → 0 < β (0, i) + β (1, j)) (i : Fin n) :
    loglikelihood_hessian_diag_crema_directed_sparse_2 β x y (0, i) = loglikelihood_hessian_diag_crema_directed β (nzEdges (P ko ki x y)) (0, i) ∧
    loglikelihood_hessian_diag_crema_directed_sparse_2 β x y (1, i) = loglikelihood_hessian_diag_crema_directed β (nzEdges (P ko ki x y)) (1, i) ∧
    |loglikelihood_hessian_diag_crema_directed_sparse sched β x y (0, i) - loglikelihood_hessian_diag_crema_directed β (nzEdges (P ko ki x y)) (0, i)|
      ≤ Real.exp (-100) * ∑ j, (if j = i then 0 else pr x y i j / (β (0, i) + β (1, j)) ^ 4) ∧
    |loglikelihood_hessian_diag_crema_directed_sparse sched β x y (1, i) - loglikelihood_hessian_diag_crema_directed β (nzEdges (P ko ki x y)) (1, i)|
      ≤ Real.exp (-100) * ∑ j, (if j = i then 0 else pr x y j i / (β (0, j) + β (1, i)) ^ 4) := by
  have e0 : loglikelihood_hessian_diag_crema_directed β (nzEdges (P ko ki x y)) (0, i) =
      -∑ j, if j = i then 0 else pr x y i j / (β (0, i) + β (1, j)) ^ 2 := by
    rw [diag_eq0, arc_out _ (fun i j w => -(w / (β (0, i) + β (1, j)) ^ 2)) (by simp), sum_neg_distrib,
      P_row h i (fun j w => w / (β (0, i) + β (1, j)) ^ 2) (by simp)]
  have e1 : loglikelihood_hessian_diag_crema_directed β (nzEdges (P ko ki x y)) (1, i) =
      -∑ j, if j = i then 0 else pr x y j i / (β (0, j) + β (1, i)) ^ 2 := by
    rw [diag_eq1, arc_in _ (fun i j w => -(w / (β (0, i) + β (1, j)) ^ 2)) (by simp), sum_neg_distrib,
      P_col h i (fun j w => w / (β (0, j) + β (1, i)) ^ 2) (by simp)]
  have bd : ∀ p d : ℝ, 0 ≤ p → 0 < d → |p / d ^ 2 - p / (d ^ 2 + Real.exp (-100))| ≤ Real.exp (-100) * (p / d ^ 4) := by
    intro p d hp hd
    have he := Real.exp_pos (-100)
    generalize Real.exp (-100) = ε at he
    have : p / d ^ 2 - p / (d ^ 2 + ε) = ε * (p / (d ^ 2 * (d ^ 2 + ε))) := by
      field_simp; ring
    rw [this, abs_of_nonneg (by positivity)]
    refine mul_le_mul_of_nonneg_left ?_ he.le
    refine div_le_div_of_nonneg_left hp (by positivity) ?_
    nlinarith [sq_nonneg d, mul_pos (pow_pos hd 2) he]
  have sumbd : ∀ (p d : Fin n → ℝ), (∀ j, j ≠ i → 0 ≤ p j ∧ 0 < d j) →
      |(-∑ j, if j = i then 0 else p j / ((d j) ^ 2 + Real.exp (-100))) - -∑ j, if j = i then 0 else p j / (d j) ^ 2| ≤
      Real.exp (-100) * ∑ j, if j = i then 0 else p j / (d j) ^ 4 := by
    intro p d hpd
    rw [neg_sub_neg, ← sum_sub_distrib, mul_sum]
    refine (abs_sum_le_sum_abs _ _).trans (sum_le_sum fun j _ => ?_)
    by_cases hj : j = i
    · simp [hj]
    · simp only [hj, if_false]; exact bd _ _ (hpd j hj).1 (hpd j hj).2
  have hn := hs.nodup_iff.2 (List.nodup_finRange n)
  have hm := hs.mem_iff.2 (List.mem_finRange i)
  rw [e0, e1, (diag_sparse2_eq β x y h.x_nonneg h.y_nonneg i).1, (diag_sparse2_eq β x y h.x_nonneg h.y_nonneg i).2,
    (diag_sparse_eq sched hn β x y i hm).1, (diag_sparse_eq sched hn β x y i hm).2]
  refine ⟨rfl, rfl, ?_, ?_⟩
  · exact sumbd (fun j => pr x y i j) (fun j => β (0, i) + β (1, j)) fun j hj => ⟨pr_nonneg h.x_nonneg h.y_nonneg i j, hβ i j (Ne.symm hj)⟩
  · exact sumbd (fun j => pr x y j i) (fun j => β (0, j) + β (1, i)) fun j hj => ⟨pr_nonneg h.x_nonneg h.y_nonneg j i, hβ j i hj⟩

/-- C33 (directed), fixed-point map: the serial sparse variant equals the dense one. -/
theorem C33_dcrema_iterative_serial_partial (β : Vec n) (ko ki so si x y : Fin n → ℝ) (h : Consistent ko ki so si x y) (v : Fin 2 × Fin n) :
    iterative_crema_directed_sparse_2 β so si x y (nonzero so) (nonzero si) v =
      iterative_crema_directed β so si (nzEdges (P ko ki x y)) (nonzero so) (nonzero si) v := by
  obtain ⟨b, m⟩ := v
  match b with
  | 0 =>
    rw [(iter_sparse2_eq β so si x y _ _ (nodup_nonzero so) (nodup_nonzero si) h.x_nonneg h.y_nonneg m).1,
      iter_eq0 _ _ _ _ _ _ (nodup_nonzero so), arc_out _ (fun i j w => -(w / (1 + β (1, j) / β (0, i)))) (by simp),
      P_row h m (fun j w => -(w / (1 + β (1, j) / β (0, m)))) (by simp)]
    have : ∀ j, -(if m = j then (0:ℝ) else pr x y m j / (1 + β (1, j) / β (0, m))) = if j = m then 0 else -(pr x y m j / (1 + β (1, j) / β (0, m))) := by
      intro j; by_cases hj : m = j
      · simp [hj]
      · simp [hj, Ne.symm hj]
    simp only [this]
  | 1 =>
    rw [(iter_sparse2_eq β so si x y _ _ (nodup_nonzero so) (nodup_nonzero si) h.x_nonneg h.y_nonneg m).2,
      iter_eq1 _ _ _ _ _ _ (nodup_nonzero si), arc_in _ (fun i j w => -(w / (1 + β (0, i) / β (1, j)))) (by simp),
      P_col h m (fun j w => -(w / (1 + β (0, j) / β (1, m)))) (by simp)]
    have : ∀ j, -(if j = m then (0:ℝ) else pr x y j m / (1 + β (0, j) / β (1, m))) = if j = m then 0 else -(pr x y j m / (1 + β (0, j) / β (1, m))) := by
      intro j; by_cases hj : j = m
      · simp [hj]
      · simp [hj]
    simp only [this]

/-- C33/C12 are **false** for the map the graph object uses for `crema-sparse` with method `fixed-point`
(`iterative_crema_directed_sparse`, models_functions.py 3908-3914, writes `yd[j]` where `yd[index]` is meant): there is a consistent
two-node problem with an exact solution (zero sparse gradient) that the map sends far away, in whatever order the parallel loops run. -/
theorem C33_dcrema_iterative_parallel_wrong : ∃ (β : Vec 2) (ko ki so si x y : Fin 2 → ℝ), Consistent ko ki so si x y ∧
    (∀ v, loglikelihood_prime_crema_directed_sparse (nonzero so) (nonzero si) β so si x y v = 0) ∧
    ∀ sx sy : List ℕ, sx.Perm (List.range (nonzero x).length) → sy.Perm (List.range (nonzero y).length) →
      -iterative_crema_directed_sparse sx sy β so si x y (1, 1) = 0 ∧ β (1, 1) = 1 / 2 := by
  let x : Fin 2 → ℝ := fun i => if i = 0 then 1 else 0
  let y : Fin 2 → ℝ := fun i => if i = 1 then 1 else 0
  let so : Fin 2 → ℝ := fun i => if i = 0 then 1 / 2 else 0
  let si : Fin 2 → ℝ := fun i => if i = 1 then 1 / 2 else 0
  let β : Vec 2 := fun v => if v.1 = 0 then (if v.2 = 0 then 1 / 2 else 0) else if v.2 = 1 then 1 / 2 else 0
  have hC : Consistent x y so si x y := by
    refine ⟨?_, ?_, fun _ h => h, fun _ h => h, ?_, ?_⟩ <;> intro i <;> fin_cases i <;> simp [x, y, so, si]
  have hnx : nonzero x = [0] := by simp [nonzero, List.finRange_succ, x]
  have hny : nonzero y = [1] := by simp [nonzero, List.finRange_succ, y]
  refine ⟨β, x, y, so, si, x, y, hC, ?_, ?_⟩
  · rw [C05_dcrema_sparse_solution_iff β x y so si x y hC _ _ (List.Perm.refl _) (List.Perm.refl _)]
    simp only [out_sparse_eq β x y hC.x_nonneg hC.y_nonneg, in_sparse_eq β x y hC.x_nonneg hC.y_nonneg]
    constructor <;> intro i <;> fin_cases i <;> simp [Fin.sum_univ_two, pr, x, y, β, so, si] <;> norm_num
  · intro sx sy _ hy
    rw [hny] at hy
    have hy' : sy = [0] := by simpa using hy
    subst hy'
    refine ⟨?_, by simp [β]⟩
    simp only [iterative_crema_directed_sparse, cat1, hny]
    simp [forL, setAt_apply, subAt_apply]

end Verif.DCReMa
