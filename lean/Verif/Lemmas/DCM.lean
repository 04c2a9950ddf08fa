import Verif.Model.DCM
import Verif.Calc

/-! Closed forms of the loops of `Verif.Model.DCM`. -/

namespace Verif.DCM
open Verif Finset Function
variable {n : ℕ}

/-- number of ordered pairs (node of class `i`, other node of class `j`) -/
def w (c : Fin n → ℝ) (i j : Fin n) : ℝ := if i = j then c i * (c i - 1) else c i * c j

theorem w_symm (c : Fin n → ℝ) (i j : Fin n) : w c i j = w c j i := by
  unfold w
  by_cases h : i = j
  · subst h; rfl
  · rw [if_neg h, if_neg (Ne.symm h), mul_comm]

theorem const1 (c : Fin n → ℝ) (i j : Fin n) : (if i ≠ j then c i * c j else c i * (c j - 1)) = w c i j := by
  unfold w; by_cases h : i = j
  · subst h; simp
  · simp [h]

theorem const2 (c : Fin n → ℝ) (i j : Fin n) : (if i = j then c j * (c j - 1) else c j * c i) = w c j i := by
  unfold w; by_cases h : i = j
  · subst h; simp
  · simp [h, Ne.symm h]

theorem ll_eq (x : Vec n) (ko ki : Fin n → ℝ) (no ni : List (Fin n)) (c : Fin n → ℝ) (hno : no.Nodup) (hni : ni.Nodup) :
    loglikelihood_dcm x ko ki no ni c =
    ∑ i ∈ no.toFinset, (c i * ko i * Real.log (x (0, i)) + ∑ j ∈ ni.toFinset, -(w c i j * Real.log (1 + x (0, i) * x (1, j))))
    + ∑ j ∈ ni.toFinset, c j * ki j * Real.log (x (1, j)) := by
  have h : ∀ i j (f : ℝ), (if i ≠ j then f - c i * c j * Real.log (1 + x (0, i) * x (1, j))
      else f - c i * (c i - 1) * Real.log (1 + x (0, i) * x (1, j))) = f + -(w c i j * Real.log (1 + x (0, i) * x (1, j))) := by
    intro i j f
    unfold w; by_cases h : i = j
    · subst h; simp [sub_eq_add_neg]
    · simp [h, sub_eq_add_neg]
  simp only [loglikelihood_dcm, h, forL_add, add_assoc, zero_add, sum_map_nodup _ hno, sum_map_nodup _ hni]

theorem ll_exp_eq (x : Vec n) (ko ki : Fin n → ℝ) (no ni : List (Fin n)) (c : Fin n → ℝ) (hno : no.Nodup) (hni : ni.Nodup) :
    loglikelihood_dcm_exp x ko ki no ni c =
    ∑ i ∈ no.toFinset, (-(c i * ko i * x (0, i)) + ∑ j ∈ ni.toFinset,
      -(w c i j * Real.log (1 + Real.exp (-x (0, i) - x (1, j)))))
    + ∑ j ∈ ni.toFinset, -(c j * ki j * x (1, j)) := by
  have h : ∀ i j (f : ℝ), (if i ≠ j then f - c i * c j * Real.log (1 + Real.exp (-x (0, i) - x (1, j)))
      else f - c i * (c i - 1) * Real.log (1 + Real.exp (-x (0, i) - x (1, j)))) =
        f + -(w c i j * Real.log (1 + Real.exp (-x (0, i) - x (1, j)))) := by
    intro i j f
    unfold w; by_cases h : i = j
    · subst h; simp [sub_eq_add_neg]
    · simp [h, sub_eq_add_neg]
  simp only [loglikelihood_dcm_exp, h]
  simp only [sub_eq_add_neg _ (_ * _), forL_add, add_assoc, zero_add, sum_map_nodup _ hno, sum_map_nodup _ hni]

/-- loop that writes cell `(b, e)` at iteration `e` -/
theorem forL_set_block {β : Type*} [DecidableEq β] (b b' : β) (l : List (Fin n)) (g : Fin n → ℝ) (f : β × Fin n → ℝ) (m : Fin n) :
    forL l (fun e f => setAt f (b, e) (g e)) f (b', m) = if b' = b ∧ m ∈ l then g m else f (b', m) := by
  by_cases hb : b' = b
  · subst hb
    have := forL_obs_set_ite (fun f : β × Fin n → ℝ => f (b', m)) l (fun e f => setAt f (b', e) (g e)) m (g m)
      (fun s => by simp [setAt_apply]) (fun e he s => by simp [setAt_apply, Ne.symm he]) f
    rw [this]; simp
  · have := forL_obs_keep (fun f : β × Fin n → ℝ => f (b', m)) l (fun e f => setAt f (b, e) (g e))
      (fun e _ s => by simp [setAt_apply, hb]) f
    rw [this]; simp [hb]

theorem prime_eq0 (x : Vec n) (ko ki : Fin n → ℝ) (no ni : List (Fin n)) (c : Fin n → ℝ) (hni : ni.Nodup) (m : Fin n) :
    loglikelihood_prime_dcm x ko ki no ni c (0, m) = if m ∈ no then
      -(∑ j ∈ ni.toFinset, w c m j * x (1, j) / (1 + x (0, m) * x (1, j))) + c m * ko m / x (0, m) else 0 := by
  simp only [loglikelihood_prime_dcm, const1, forL_add, zero_add, sum_map_nodup _ hni, forL_set_block]
  simp

theorem prime_eq1 (x : Vec n) (ko ki : Fin n → ℝ) (no ni : List (Fin n)) (c : Fin n → ℝ) (hno : no.Nodup) (m : Fin n) :
    loglikelihood_prime_dcm x ko ki no ni c (1, m) = if m ∈ ni then
      -(∑ i ∈ no.toFinset, w c i m * x (0, i) / (1 + x (1, m) * x (0, i))) + c m * ki m / x (1, m) else 0 := by
  simp only [loglikelihood_prime_dcm, const1, forL_add, zero_add, sum_map_nodup _ hno, forL_set_block]
  simp

theorem prime_exp_eq0 (x : Vec n) (ko ki : Fin n → ℝ) (no ni : List (Fin n)) (c : Fin n → ℝ) (hni : ni.Nodup) (m : Fin n) :
    loglikelihood_prime_dcm_exp x ko ki no ni c (0, m) = if m ∈ no then
      Real.exp (-x (0, m)) * (∑ j ∈ ni.toFinset, w c m j * Real.exp (-x (1, j)) / (1 + Real.exp (-x (0, m)) * Real.exp (-x (1, j))))
        - c m * ko m else 0 := by
  simp only [loglikelihood_prime_dcm_exp, const1, forL_add, zero_add, sum_map_nodup _ hni, forL_set_block]
  simp

theorem prime_exp_eq1 (x : Vec n) (ko ki : Fin n → ℝ) (no ni : List (Fin n)) (c : Fin n → ℝ) (hno : no.Nodup) (m : Fin n) :
    loglikelihood_prime_dcm_exp x ko ki no ni c (1, m) = if m ∈ ni then
      (∑ i ∈ no.toFinset, w c i m * Real.exp (-x (0, i)) / (1 + Real.exp (-x (1, m)) * Real.exp (-x (0, i)))) * Real.exp (-x (1, m))
        - c m * ki m else 0 := by
  simp only [loglikelihood_prime_dcm_exp, const1, forL_add, zero_add, sum_map_nodup _ hno, forL_set_block]
  simp

theorem hess_diag_eq0 (x : Vec n) (ko ki : Fin n → ℝ) (no ni : List (Fin n)) (c : Fin n → ℝ) (hni : ni.Nodup) (m : Fin n) :
    loglikelihood_hessian_diag_dcm x ko ki no ni c (0, m) = if m ∈ no then
      (∑ j ∈ ni.toFinset, (if m ≠ j then c j else c m - 1) * x (1, j) * x (1, j) /
        ((1 + x (0, m) * x (1, j)) * (1 + x (0, m) * x (1, j)))) - ko m / (x (0, m) * x (0, m)) else 0 := by
  simp only [loglikelihood_hessian_diag_dcm, forL_add, zero_add, sum_map_nodup _ hni, forL_set_block]
  simp

theorem hess_diag_eq1 (x : Vec n) (ko ki : Fin n → ℝ) (no ni : List (Fin n)) (c : Fin n → ℝ) (hno : no.Nodup) (m : Fin n) :
    loglikelihood_hessian_diag_dcm x ko ki no ni c (1, m) = if m ∈ ni then
      (∑ i ∈ no.toFinset, (if i ≠ m then c i else c m - 1) * x (0, i) * x (0, i) /
        ((1 + x (1, m) * x (0, i)) * (1 + x (1, m) * x (0, i)))) - ki m / (x (1, m) * x (1, m)) else 0 := by
  simp only [loglikelihood_hessian_diag_dcm, forL_add, zero_add, sum_map_nodup _ hno, forL_set_block]
  simp

theorem hess_diag_exp_eq0 (x : Vec n) (ko ki : Fin n → ℝ) (no ni : List (Fin n)) (c : Fin n → ℝ) (hni : ni.Nodup) (m : Fin n) :
    loglikelihood_hessian_diag_dcm_exp x ko ki no ni c (0, m) = if m ∈ no then
      -(∑ j ∈ ni.toFinset, w c m j * (Real.exp (-x (1, j)) * Real.exp (-x (0, m))) /
        (1 + Real.exp (-x (1, j)) * Real.exp (-x (0, m))) ^ 2) else 0 := by
  simp only [loglikelihood_hessian_diag_dcm_exp, const1, forL_add, zero_add, sum_map_nodup _ hni, forL_set_block]
  simp

theorem hess_diag_exp_eq1 (x : Vec n) (ko ki : Fin n → ℝ) (no ni : List (Fin n)) (c : Fin n → ℝ) (hno : no.Nodup) (m : Fin n) :
    loglikelihood_hessian_diag_dcm_exp x ko ki no ni c (1, m) = if m ∈ ni then
      -(∑ i ∈ no.toFinset, w c i m * (Real.exp (-x (0, i)) * Real.exp (-x (1, m))) /
        (1 + Real.exp (-x (0, i)) * Real.exp (-x (1, m))) ^ 2) else 0 := by
  simp only [loglikelihood_hessian_diag_dcm_exp, const1, forL_add, zero_add, sum_map_nodup _ hno, forL_set_block]
  simp

/-! Hessian: rows of the out-block -/

abbrev Mat (n : ℕ) := Fin 2 × Fin n → Fin 2 × Fin n → ℝ

theorem addAt2_apply {ι κ α : Type*} [DecidableEq ι] [DecidableEq κ] [Add α] (f : ι → κ → α) (i : ι) (j : κ) (v : α) (a : ι) (b : κ) :
    addAt2 f i j v a b = if a = i ∧ b = j then f i j + v else f a b := setAt2_apply f i j _ a b

/-- one row of the plain Hessian: the diagonal cell accumulates, the cells of the other block are written -/
theorem row_loop (r : Fin 2 × Fin n) (b' : Fin 2) (hb : r.1 ≠ b') (l : List (Fin n)) (D : ℝ) (A B : Fin n → ℝ) (s : Mat n) :
    let out := forL l (fun i out => setAt2 (addAt2 out r r (A i)) r (b', i) (B i)) (setAt2 s r r D)
    out r r = D + (l.map A).sum ∧ (∀ j, out r (b', j) = if j ∈ l then B j else s r (b', j)) ∧
      ∀ a b, a ≠ r → out a b = s a b := by
  have hr : ∀ i, ¬ r = (b', i) := fun i h => hb (by rw [h])
  have hr' : ∀ i, ¬ (b', i) = r := fun i h => hb (by rw [← h])
  refine ⟨?_, ?_, ?_⟩
  · have := forL_obs_add (fun f : Mat n => f r r) l (fun i out => setAt2 (addAt2 out r r (A i)) r (b', i) (B i)) A
      (fun e s => by simp [setAt2_apply, addAt2_apply, hr]) (setAt2 s r r D)
    rw [this]; simp [setAt2_apply]
  · intro j
    have := forL_obs_set_ite (fun f : Mat n => f r (b', j)) l (fun i out => setAt2 (addAt2 out r r (A i)) r (b', i) (B i)) j (B j)
      (fun s => by simp [setAt2_apply]) (fun e he s => by simp [setAt2_apply, addAt2_apply, hr', Ne.symm he]) (setAt2 s r r D)
    rw [this]; simp [setAt2_apply, hr']
  · intro a b ha
    have := forL_obs_keep (fun f : Mat n => f a b) l (fun i out => setAt2 (addAt2 out r r (A i)) r (b', i) (B i))
      (fun e _ s => by simp [setAt2_apply, addAt2_apply, ha]) (setAt2 s r r D)
    rw [this]; simp [setAt2_apply, ha]

/-- the cells not touched by the row loop -/
theorem row_loop_same (r : Fin 2 × Fin n) (b' : Fin 2) (l : List (Fin n)) (D : ℝ) (A B : Fin n → ℝ) (s : Mat n)
    (q : Fin 2 × Fin n) (hq : q.1 ≠ b') (hqr : q ≠ r) :
    forL l (fun i out => setAt2 (addAt2 out r r (A i)) r (b', i) (B i)) (setAt2 s r r D) r q = s r q := by
  have hq' : ∀ i, ¬ q = (b', i) := fun i h => hq (by rw [h])
  have := forL_obs_keep (fun f : Mat n => f r q) l (fun i out => setAt2 (addAt2 out r r (A i)) r (b', i) (B i))
      (fun e _ s => by simp [setAt2_apply, addAt2_apply, hq', hqr]) (setAt2 s r r D)
  rw [this]; simp [setAt2_apply, hqr]

theorem hess_eq00 (x : Vec n) (ko ki : Fin n → ℝ) (no ni : List (Fin n)) (c : Fin n → ℝ) (hni : ni.Nodup) (a b : Fin n) :
    loglikelihood_hessian_dcm x ko ki no ni c (0, a) (0, b) = if a ∈ no ∧ a = b then
      -c a * ko a / (x (0, a)) ^ 2 + ∑ j ∈ ni.toFinset, w c a j * (x (1, j) / (1 + x (0, a) * x (1, j))) ^ 2 else 0 := by
  simp only [loglikelihood_hessian_dcm, const2]
  rw [forL_obs_keep (fun f : Mat n => f (0, a) (0, b))]
  · by_cases hab : a = b
    · subst hab
      rw [forL_obs_set_ite (fun f : Mat n => f (0, a) (0, a)) no _ a]
      · simp only [and_true]; rfl
      · intro s
        rw [(row_loop (0, a) 1 (by simp) _ _ _ _ _).1, sum_map_nodup _ hni]
      · intro e he s
        exact (row_loop (0, e) 1 (by simp) _ _ _ _ _).2.2 _ _ (by simp [Ne.symm he])
    · rw [forL_obs_keep (fun f : Mat n => f (0, a) (0, b))]
      · simp [hab]
      · intro e _ s
        by_cases he : a = e
        · subst he
          exact row_loop_same (0, a) 1 _ _ _ _ _ (0, b) (by simp) (by simp [Ne.symm hab])
        · exact (row_loop (0, e) 1 (by simp) _ _ _ _ _).2.2 _ _ (by simp [he])
  · intro e _ s
    exact (row_loop (1, e) 0 (by simp) _ _ _ _ _).2.2 _ _ (by simp)

theorem hess_eq01 (x : Vec n) (ko ki : Fin n → ℝ) (no ni : List (Fin n)) (c : Fin n → ℝ) (a b : Fin n) :
    loglikelihood_hessian_dcm x ko ki no ni c (0, a) (1, b) = if a ∈ no ∧ b ∈ ni then
      -w c a b / (1 + x (1, b) * x (0, a)) ^ 2 else 0 := by
  simp only [loglikelihood_hessian_dcm, const2]
  rw [forL_obs_keep (fun f : Mat n => f (0, a) (1, b))]
  · by_cases hb : b ∈ ni
    · rw [forL_obs_set_ite (fun f : Mat n => f (0, a) (1, b)) no _ a]
      · simp only [hb, and_true]; rfl
      · intro s
        rw [(row_loop (0, a) 1 (by simp) _ _ _ _ _).2.1 b, if_pos hb]
      · intro e he s
        exact (row_loop (0, e) 1 (by simp) _ _ _ _ _).2.2 _ _ (by simp [Ne.symm he])
    · rw [forL_obs_keep (fun f : Mat n => f (0, a) (1, b))]
      · simp [hb]
      · intro e _ s
        by_cases he : a = e
        · subst he
          rw [(row_loop (0, a) 1 (by simp) _ _ _ _ _).2.1 b, if_neg hb]
        · exact (row_loop (0, e) 1 (by simp) _ _ _ _ _).2.2 _ _ (by simp [he])
  · intro e _ s
    exact (row_loop (1, e) 0 (by simp) _ _ _ _ _).2.2 _ _ (by simp)

theorem hess_out_row1 (x : Vec n) (ko : Fin n → ℝ) (no ni : List (Fin n)) (c : Fin n → ℝ) (a : Fin n) (q : Fin 2 × Fin n) :
    forL no (fun h out =>
      forL ni (fun i out => setAt2 (addAt2 out (0, h) (0, h) (w c h i * (x (1, i) / (1 + x (0, h) * x (1, i))) ^ 2))
        (0, h) (1, i) (-w c h i / (1 + x (1, i) * x (0, h)) ^ 2))
      (setAt2 out (0, h) (0, h) (-c h * ko h / (x (0, h)) ^ 2))) (fun _ _ => 0 : Mat n) (1, a) q = 0 := by
  rw [forL_obs_keep (fun f : Mat n => f (1, a) q)]
  intro e _ s
  exact (row_loop (0, e) 1 (by simp) _ _ _ _ _).2.2 _ _ (by simp)

theorem hess_eq11 (x : Vec n) (ko ki : Fin n → ℝ) (no ni : List (Fin n)) (c : Fin n → ℝ) (hno : no.Nodup) (a b : Fin n) :
    loglikelihood_hessian_dcm x ko ki no ni c (1, a) (1, b) = if a ∈ ni ∧ a = b then
      -c a * ki a / (x (1, a) * x (1, a)) + ∑ j ∈ no.toFinset, w c j a * (x (0, j) ^ 2) / (1 + x (1, a) * x (0, j)) ^ 2 else 0 := by
  simp only [loglikelihood_hessian_dcm, const2]
  by_cases hab : a = b
  · subst hab
    rw [forL_obs_set_ite (fun f : Mat n => f (1, a) (1, a)) ni _ a]
    · rw [hess_out_row1]
      simp only [and_true]; rfl
    · intro s
      rw [(row_loop (1, a) 0 (by simp) _ _ _ _ _).1, sum_map_nodup _ hno]
    · intro e he s
      exact (row_loop (1, e) 0 (by simp) _ _ _ _ _).2.2 _ _ (by simp [Ne.symm he])
  · rw [forL_obs_keep (fun f : Mat n => f (1, a) (1, b))]
    · rw [hess_out_row1]; simp [hab]
    · intro e _ s
      by_cases he : a = e
      · subst he
        exact row_loop_same (1, a) 0 _ _ _ _ _ (1, b) (by simp) (by simp [Ne.symm hab])
      · exact (row_loop (1, e) 0 (by simp) _ _ _ _ _).2.2 _ _ (by simp [he])

theorem hess_eq10 (x : Vec n) (ko ki : Fin n → ℝ) (no ni : List (Fin n)) (c : Fin n → ℝ) (a b : Fin n) :
    loglikelihood_hessian_dcm x ko ki no ni c (1, a) (0, b) = if a ∈ ni ∧ b ∈ no then
      -w c b a / (1 + x (1, a) * x (0, b)) ^ 2 else 0 := by
  simp only [loglikelihood_hessian_dcm, const2]
  by_cases hb : b ∈ no
  · rw [forL_obs_set_ite (fun f : Mat n => f (1, a) (0, b)) ni _ a]
    · rw [hess_out_row1]; simp only [hb, and_true]; rfl
    · intro s
      rw [(row_loop (1, a) 0 (by simp) _ _ _ _ _).2.1 b, if_pos hb]
    · intro e he s
      exact (row_loop (1, e) 0 (by simp) _ _ _ _ _).2.2 _ _ (by simp [Ne.symm he])
  · rw [forL_obs_keep (fun f : Mat n => f (1, a) (0, b))]
    · rw [hess_out_row1]; simp [hb]
    · intro e _ s
      by_cases he : a = e
      · subst he
        rw [(row_loop (1, a) 0 (by simp) _ _ _ _ _).2.1 b, if_neg hb]
      · exact (row_loop (1, e) 0 (by simp) _ _ _ _ _).2.2 _ _ (by simp [he])

/-! Hessian in the exponential parametrisation -/

/-- one row of the exp Hessian -/
theorem row_loop_exp (r : Fin 2 × Fin n) (b' : Fin 2) (hb : r.1 ≠ b') (l : List (Fin n)) (D : ℝ) (B : Fin n → ℝ) (s : Mat n) :
    let out := setAt2 (forL l (fun i out => setAt2 out r (b', i) (B i)) s) r r D
    out r r = D ∧ (∀ j, out r (b', j) = if j ∈ l then B j else s r (b', j)) ∧
      (∀ a b, a ≠ r → out a b = s a b) ∧ ∀ q : Fin 2 × Fin n, q.1 ≠ b' → q ≠ r → out r q = s r q := by
  have hr : ∀ i, ¬ r = (b', i) := fun i h => hb (by rw [h])
  have hr' : ∀ i, ¬ (b', i) = r := fun i h => hb (by rw [← h])
  refine ⟨by simp [setAt2_apply], ?_, ?_, ?_⟩
  · intro j
    have := forL_obs_set_ite (fun f : Mat n => f r (b', j)) l (fun i out => setAt2 out r (b', i) (B i)) j (B j)
      (fun s => by simp [setAt2_apply]) (fun e he s => by simp [setAt2_apply, hr', Ne.symm he]) s
    rw [setAt2_apply, if_neg (by simp [hr']), this]
  · intro a b ha
    have := forL_obs_keep (fun f : Mat n => f a b) l (fun i out => setAt2 out r (b', i) (B i))
      (fun e _ s => by simp [setAt2_apply, ha]) s
    rw [setAt2_apply, if_neg (by simp [ha]), this]
  · intro q hq hqr
    have hq' : ∀ i, ¬ q = (b', i) := fun i h => hq (by rw [h])
    have := forL_obs_keep (fun f : Mat n => f r q) l (fun i out => setAt2 out r (b', i) (B i))
      (fun e _ s => by simp [setAt2_apply, hq']) s
    rw [setAt2_apply, if_neg (by simp [hqr]), this]

theorem hess_exp_out_row1 (no ni : List (Fin n)) (S : Fin n → ℝ) (B : Fin n → Fin n → ℝ) (a : Fin n) (q : Fin 2 × Fin n) :
    forL no (fun h out => setAt2 (forL ni (fun i out => setAt2 out (0, h) (1, i) (B h i)) out) (0, h) (0, h) (S h))
      (fun _ _ => 0 : Mat n) (1, a) q = 0 := by
  rw [forL_obs_keep (fun f : Mat n => f (1, a) q)]
  intro e _ s
  exact (row_loop_exp (0, e) 1 (by simp) _ _ _ _).2.2.1 _ _ (by simp)

/-- the two-phase exp Hessian loop, cell by cell -/
theorem hess_exp_shape (no ni : List (Fin n)) (S S' : Fin n → ℝ) (B B' : Fin n → Fin n → ℝ) (a b : Fin n) :
    let out := forL ni (fun i out => setAt2 (forL no (fun h out => setAt2 out (1, i) (0, h) (B' i h)) out) (1, i) (1, i) (S' i))
      (forL no (fun h out => setAt2 (forL ni (fun i out => setAt2 out (0, h) (1, i) (B h i)) out) (0, h) (0, h) (S h))
      (fun _ _ => 0 : Mat n))
    out (0, a) (0, b) = (if a ∈ no ∧ a = b then S a else 0) ∧
    out (0, a) (1, b) = (if a ∈ no ∧ b ∈ ni then B a b else 0) ∧
    out (1, a) (1, b) = (if a ∈ ni ∧ a = b then S' a else 0) ∧
    out (1, a) (0, b) = (if a ∈ ni ∧ b ∈ no then B' a b else 0) := by
  refine ⟨?_, ?_, ?_, ?_⟩
  · rw [forL_obs_keep (fun f : Mat n => f (0, a) (0, b))]
    · by_cases hab : a = b
      · subst hab
        rw [forL_obs_set_ite (fun f : Mat n => f (0, a) (0, a)) no _ a]
        · simp only [and_true]; rfl
        · intro s
          exact (row_loop_exp (0, a) 1 (by simp) _ _ _ _).1
        · intro e he s
          exact (row_loop_exp (0, e) 1 (by simp) _ _ _ _).2.2.1 _ _ (by simp [Ne.symm he])
      · rw [forL_obs_keep (fun f : Mat n => f (0, a) (0, b))]
        · simp [hab]
        · intro e _ s
          by_cases he : a = e
          · subst he
            exact (row_loop_exp (0, a) 1 (by simp) _ _ _ _).2.2.2 (0, b) (by simp) (by simp [Ne.symm hab])
          · exact (row_loop_exp (0, e) 1 (by simp) _ _ _ _).2.2.1 _ _ (by simp [he])
    · intro e _ s
      exact (row_loop_exp (1, e) 0 (by simp) _ _ _ _).2.2.1 _ _ (by simp)
  · rw [forL_obs_keep (fun f : Mat n => f (0, a) (1, b))]
    · by_cases hb : b ∈ ni
      · rw [forL_obs_set_ite (fun f : Mat n => f (0, a) (1, b)) no _ a]
        · simp only [hb, and_true]; rfl
        · intro s
          rw [(row_loop_exp (0, a) 1 (by simp) _ _ _ _).2.1 b, if_pos hb]
        · intro e he s
          exact (row_loop_exp (0, e) 1 (by simp) _ _ _ _).2.2.1 _ _ (by simp [Ne.symm he])
      · rw [forL_obs_keep (fun f : Mat n => f (0, a) (1, b))]
        · simp [hb]
        · intro e _ s
          by_cases he : a = e
          · subst he
            rw [(row_loop_exp (0, a) 1 (by simp) _ _ _ _).2.1 b, if_neg hb]
          · exact (row_loop_exp (0, e) 1 (by simp) _ _ _ _).2.2.1 _ _ (by simp [he])
    · intro e _ s
      exact (row_loop_exp (1, e) 0 (by simp) _ _ _ _).2.2.1 _ _ (by simp)
  · by_cases hab : a = b
    · subst hab
      rw [forL_obs_set_ite (fun f : Mat n => f (1, a) (1, a)) ni _ a]
      · rw [hess_exp_out_row1]; simp only [and_true]; rfl
      · intro s
        exact (row_loop_exp (1, a) 0 (by simp) _ _ _ _).1
      · intro e he s
        exact (row_loop_exp (1, e) 0 (by simp) _ _ _ _).2.2.1 _ _ (by simp [Ne.symm he])
    · rw [forL_obs_keep (fun f : Mat n => f (1, a) (1, b))]
      · rw [hess_exp_out_row1]; simp [hab]
      · intro e _ s
        by_cases he : a = e
        · subst he
          exact (row_loop_exp (1, a) 0 (by simp) _ _ _ _).2.2.2 (1, b) (by simp) (by simp [Ne.symm hab])
        · exact (row_loop_exp (1, e) 0 (by simp) _ _ _ _).2.2.1 _ _ (by simp [he])
  · by_cases hb : b ∈ no
    · rw [forL_obs_set_ite (fun f : Mat n => f (1, a) (0, b)) ni _ a]
      · rw [hess_exp_out_row1]; simp only [hb, and_true]; rfl
      · intro s
        rw [(row_loop_exp (1, a) 0 (by simp) _ _ _ _).2.1 b, if_pos hb]
      · intro e he s
        exact (row_loop_exp (1, e) 0 (by simp) _ _ _ _).2.2.1 _ _ (by simp [Ne.symm he])
    · rw [forL_obs_keep (fun f : Mat n => f (1, a) (0, b))]
      · rw [hess_exp_out_row1]; simp [hb]
      · intro e _ s
        by_cases he : a = e
        · subst he
          rw [(row_loop_exp (1, a) 0 (by simp) _ _ _ _).2.1 b, if_neg hb]
        · exact (row_loop_exp (1, e) 0 (by simp) _ _ _ _).2.2.1 _ _ (by simp [he])

theorem hess_exp_eq (x : Vec n) (ko ki : Fin n → ℝ) (no ni : List (Fin n)) (c : Fin n → ℝ) (hno : no.Nodup) (hni : ni.Nodup)
    (a b : Fin n) :
    loglikelihood_hessian_dcm_exp x ko ki no ni c (0, a) (0, b) = (if a ∈ no ∧ a = b then
      -(∑ j ∈ ni.toFinset, w c a j * (Real.exp (-x (1, j)) * Real.exp (-x (0, a))) /
        (1 + Real.exp (-x (1, j)) * Real.exp (-x (0, a))) ^ 2) else 0) ∧
    loglikelihood_hessian_dcm_exp x ko ki no ni c (0, a) (1, b) = (if a ∈ no ∧ b ∈ ni then
      -w c a b * (Real.exp (-x (1, b)) * Real.exp (-x (0, a))) / (1 + Real.exp (-x (1, b)) * Real.exp (-x (0, a))) ^ 2 else 0) ∧
    loglikelihood_hessian_dcm_exp x ko ki no ni c (1, a) (1, b) = (if a ∈ ni ∧ a = b then
      -(∑ i ∈ no.toFinset, w c i a * (Real.exp (-x (0, i)) * Real.exp (-x (1, a))) /
        (1 + Real.exp (-x (0, i)) * Real.exp (-x (1, a))) ^ 2) else 0) ∧
    loglikelihood_hessian_dcm_exp x ko ki no ni c (1, a) (0, b) = (if a ∈ ni ∧ b ∈ no then
      -w c b a * (Real.exp (-x (0, b)) * Real.exp (-x (1, a))) / (1 + Real.exp (-x (0, b)) * Real.exp (-x (1, a))) ^ 2 else 0) := by
  simp only [loglikelihood_hessian_dcm_exp, const2, forL_add, zero_add, sum_map_nodup _ hno, sum_map_nodup _ hni]
  exact hess_exp_shape no ni _ _ _ _ a b

theorem nodup_nonzero (a : Fin n → ℝ) : (nonzero a).Nodup := (List.nodup_finRange n).filter _

theorem mem_nonzero (a : Fin n → ℝ) (i : Fin n) : i ∈ nonzero a ↔ a i ≠ 0 := by
  simp [nonzero]

theorem expected_out_eq (sol : Vec n) (m : Fin n) : expected_out_degree_dcm sol m =
    ∑ j, if m = j then 0 else sol (0, m) * sol (1, j) / (1 + sol (0, m) * sol (1, j)) := by
  simp only [expected_out_degree_dcm]
  have hin : ∀ (i : Fin n) (k : Fin n → ℝ), forL (nonzero fun i => sol (1, i)) (fun j k =>
      if i ≠ j then addAt k i (sol (1, j) * sol (0, i) / (1 + sol (1, j) * sol (0, i))) else k) k
      = addAt k i (∑ j, if i = j then 0 else sol (0, i) * sol (1, j) / (1 + sol (0, i) * sol (1, j))) := by
    intro i k
    simp only [addAt_eq, ite_acc_left, forL_add, sum_map_nodup _ (nodup_nonzero _), ite_single_zero, sum_single_same]
    congr 2
    rw [← sum_filter_add_sum_filter_not univ (fun j => sol (1, j) ≠ 0)]
    have h0 : ∑ j with ¬ sol (1, j) ≠ 0, (if i = j then 0 else sol (0, i) * sol (1, j) / (1 + sol (0, i) * sol (1, j))) = 0 := by
      refine sum_eq_zero fun j hj => ?_
      have : sol (1, j) = 0 := by simpa using hj
      simp [this]
    rw [h0, add_zero]
    refine sum_congr (by ext j; simp [mem_nonzero]) fun j _ => ?_
    by_cases h : i = j
    · simp [h]
    · simp [h, mul_comm]
  simp only [hin]
  simp only [addAt_eq, forL_add, sum_map_nodup _ (nodup_nonzero _), zeroFn, zero_add, Finset.sum_apply]
  by_cases hm : sol (0, m) = 0
  · rw [sum_eq_zero]
    · simp [hm]
    · intro i hi
      have : sol (0, i) ≠ 0 := by simpa [mem_nonzero] using hi
      have hne : m ≠ i := fun h => this (h ▸ hm)
      simp [Pi.single_apply, hne]
  · rw [sum_eq_single_of_mem m (by simpa [mem_nonzero] using hm)]
    · simp
    · intro b _ hb; simp [Pi.single_apply, hb.symm]

theorem expected_in_eq (sol : Vec n) (m : Fin n) : expected_in_degree_dcm sol m =
    ∑ j, if m = j then 0 else sol (0, j) * sol (1, m) / (1 + sol (0, j) * sol (1, m)) := by
  simp only [expected_in_degree_dcm]
  have hin : ∀ (i : Fin n) (k : Fin n → ℝ), forL (nonzero fun i => sol (0, i)) (fun j k =>
      if i ≠ j then addAt k i (sol (1, i) * sol (0, j) / (1 + sol (1, i) * sol (0, j))) else k) k
      = addAt k i (∑ j, if i = j then 0 else sol (0, j) * sol (1, i) / (1 + sol (0, j) * sol (1, i))) := by
    intro i k
    simp only [addAt_eq, ite_acc_left, forL_add, sum_map_nodup _ (nodup_nonzero _), ite_single_zero, sum_single_same]
    congr 2
    rw [← sum_filter_add_sum_filter_not univ (fun j => sol (0, j) ≠ 0)]
    have h0 : ∑ j with ¬ sol (0, j) ≠ 0, (if i = j then 0 else sol (0, j) * sol (1, i) / (1 + sol (0, j) * sol (1, i))) = 0 := by
      refine sum_eq_zero fun j hj => ?_
      have : sol (0, j) = 0 := by simpa using hj
      simp [this]
    rw [h0, add_zero]
    refine sum_congr (by ext j; simp [mem_nonzero]) fun j _ => ?_
    by_cases h : i = j
    · simp [h]
    · simp [h, mul_comm]
  simp only [hin]
  simp only [addAt_eq, forL_add, sum_map_nodup _ (nodup_nonzero _), zeroFn, zero_add, Finset.sum_apply]
  by_cases hm : sol (1, m) = 0
  · rw [sum_eq_zero]
    · simp [hm]
    · intro i hi
      have : sol (1, i) ≠ 0 := by simpa [mem_nonzero] using hi
      have hne : m ≠ i := fun h => this (h ▸ hm)
      simp [Pi.single_apply, hne]
  · rw [sum_eq_single_of_mem m (by simpa [mem_nonzero] using hm)]
    · simp
    · intro b _ hb; simp [Pi.single_apply, hb.symm]

theorem pmatrix_eq (x : Vec n) (io ii : List (Fin n)) (a b : Fin n) : pmatrix_dcm x io ii a b =
    if a ∈ io ∧ b ∈ ii ∧ a ≠ b then x (0, a) * x (1, b) / (1 + x (0, a) * x (1, b)) else 0 := by
  simp only [pmatrix_dcm]
  by_cases hab : a ≠ b ∧ b ∈ ii
  · rw [forL_obs_set_ite (fun p : Fin n → Fin n → ℝ => p a b) io _ a
      (x (0, a) * x (1, b) / (1 + x (0, a) * x (1, b)))]
    · simp [hab]
    · intro s
      refine forL_obs_set (fun p : Fin n → Fin n → ℝ => p a b) ii _ b _ ?_ ?_ hab.2 s
      · intro s; simp [hab.1, setAt2_apply]
      · intro e he s; by_cases h : a = e <;> simp [h, setAt2_apply, Ne.symm he]
    · intro e he s
      refine forL_obs_keep (fun p : Fin n → Fin n → ℝ => p a b) ii _ ?_ s
      intro e' _ s; by_cases h : e = e' <;> simp [h, setAt2_apply, Ne.symm he]
  · rw [forL_obs_keep (fun p : Fin n → Fin n → ℝ => p a b) io]
    · have : ¬ (a ∈ io ∧ b ∈ ii ∧ a ≠ b) := fun h => hab ⟨h.2.2, h.2.1⟩
      rw [if_neg this]
    · intro e _ s
      refine forL_obs_keep (fun p : Fin n → Fin n → ℝ => p a b) ii _ ?_ s
      intro e' he' s
      by_cases h : e = e'
      · simp [h]
      · have : ¬ (a = e ∧ b = e') := by
          rintro ⟨rfl, rfl⟩; exact hab ⟨h, he'⟩
        simp [h, setAt2_apply, this]

theorem den_eq0 (x : Vec n) (c : Fin n → ℝ) (m : Fin n) : iterative_den x c (0, m) =
    ∑ j, (if m = j then c j - 1 else c j) * x (1, j) / (1 + x (0, m) * x (1, j)) := by
  have hite : ∀ i j : Fin n, ∀ a b : ℝ, (if j ≠ i then a else b) = if i = j then b else a := by
    intro i j a b; by_cases h : i = j <;> simp [h, Ne.symm]
  simp only [iterative_den, addAt_eq, ite_acc, forR_add, add_assoc, zeroFn, zero_add, ite_single, sum_single_same, hite]
  rw [Pi.add_apply, sum_eval_single _ _ m]
  · have : (∑ j : Fin n, (Pi.single (1, j) (∑ i, if i = j then (c i - 1) * x (0, i) / (1 + x (0, i) * x (1, j)) else
      c i * x (0, i) / (1 + x (0, i) * x (1, j))) : Vec n)) (0, m) = 0 := by
      simp [Finset.sum_apply, Pi.single_apply]
    rw [this, add_zero, Pi.single_eq_same]
    refine sum_congr rfl fun j _ => ?_
    split <;> rfl
  · intro i hi; simp [Pi.single_apply, hi.symm]

theorem den_eq1 (x : Vec n) (c : Fin n → ℝ) (m : Fin n) : iterative_den x c (1, m) =
    ∑ i, (if m = i then c i - 1 else c i) * x (0, i) / (1 + x (0, i) * x (1, m)) := by
  have hite : ∀ i j : Fin n, ∀ a b : ℝ, (if j ≠ i then a else b) = if i = j then b else a := by
    intro i j a b; by_cases h : i = j <;> simp [h, Ne.symm]
  simp only [iterative_den, addAt_eq, ite_acc, forR_add, add_assoc, zeroFn, zero_add, ite_single, sum_single_same, hite]
  rw [Pi.add_apply, add_comm, sum_eval_single _ _ m]
  · have : (∑ i : Fin n, (Pi.single (0, i) (∑ j, if i = j then (c j - 1) * x (1, j) / (1 + x (0, i) * x (1, j)) else
      c j * x (1, j) / (1 + x (0, i) * x (1, j))) : Vec n)) (1, m) = 0 := by
      simp [Finset.sum_apply, Pi.single_apply]
    rw [this, add_zero, Pi.single_eq_same]
    refine sum_congr rfl fun j _ => ?_
    by_cases h : m = j
    · subst h; simp
    · simp [h, Ne.symm h]
  · intro i hi; simp [Pi.single_apply, hi.symm]

end Verif.DCM
