import Verif.Lemmas.DECM
import Verif.Spec.Domain
import Mathlib.Tactic.FieldSimp
import Mathlib.Tactic.Positivity
import Mathlib.Tactic.NormNum
import Mathlib.Tactic.FinCases

/-!
Property theorems about the DECM (`decm`, `decm_exp`).  Blocks of a parameter vector: 0 = `a_out`, 1 = `a_in`, 2 = `b_out`,
3 = `b_in`.
-/

set_option linter.unusedSimpArgs false

namespace Verif.DECM
open Verif Finset Function Spec
variable {n : ℕ}

/-- a non-trivial admissible point: three nodes with distinct parameters -/
theorem adm_witness : AdmDECM (fun v : Fin 4 × Fin 3 => if v.1 = 0 ∨ v.1 = 1 then (v.2.val : ℝ) + 1 else 1 / 2) := by
  refine ⟨fun v => ?_, fun i j _ => by norm_num [Fin.ext_iff]⟩
  dsimp only; split
  · positivity
  · norm_num

theorem adm_pos {x : Vec n} (h : AdmDECM x) (i j : Fin n) (hij : i ≠ j) :
    0 < 1 - x (2, i) * x (3, j) ∧ 0 < 1 - x (2, i) * x (3, j) + x (0, i) * x (1, j) * (x (2, i) * x (3, j)) := by
  have h1 := h.1 (0, i); have h2 := h.1 (1, j); have h3 := h.1 (2, i); have h4 := h.1 (3, j); have h5 := h.2 i j hij
  have : 0 < x (0, i) * x (1, j) * (x (2, i) * x (3, j)) := by positivity
  constructor <;> linarith

theorem adm_pos' {x : Vec n} (h : AdmDECM x) (i j : Fin n) (hij : i ≠ j) :
    0 < 1 - x (3, i) * x (2, j) ∧ 0 < 1 - x (3, i) * x (2, j) + x (1, i) * x (0, j) * (x (3, i) * x (2, j)) := by
  have := adm_pos h j i hij.symm
  rwa [mul_comm (x (2, j)), mul_comm (x (0, j))] at this

/-! ### derivatives of the pair terms -/

section terms
variable {a a' b b' : ℝ}

/-- log-likelihood of a pair -/
private noncomputable def L (a a' b b' : ℝ) : ℝ := Real.log (1 - b * b') - Real.log (1 - b * b' + a * a' * (b * b'))

private theorem L_swap : L a a' b b' = L a' a b' b := by
  unfold L; rw [mul_comm b, mul_comm a]

variable (hD : 1 - b * b' + a * a' * (b * b') ≠ 0)
include hD

private theorem dL_a : HasDerivAt (fun t => L t a' b b') (-P a a' b b') a := by
  refine ((hd_log (hd_aff (1 - b * b') (a' * (b * b')) (fun t => by ring) a) hD rfl).const_sub _)

private theorem dP_a : HasDerivAt (fun t => P t a' b b') (-PA a a' b b') a := by
  refine hd_div (hasDerivAt_const _ _) (hd_aff (1 - b * b') (a' * (b * b')) (fun t => by ring) _) hD ?_
  simp only [PA, div_pow, ← neg_div]; congr 1; ring

private theorem dP_a' : HasDerivAt (fun t => P a t b b') (PAo a a' b b') a' := by
  refine hd_div (hd_aff 0 (b * b') (fun t => by ring) _)
    (hd_aff (1 - b * b') (a * (b * b')) (fun t => by ring) _) hD ?_
  simp only [PAo]; congr 1; ring

private theorem dP_b : HasDerivAt (fun t => P a a' t b') (PB a a' b b') b := by
  refine hd_div (hd_aff 0 (a' * b') (fun t => by ring) _)
    (hd_aff 1 (-b' + a * a' * b') (fun t => by ring) _) hD ?_
  simp only [PB]; congr 1; ring

private theorem dP_b' : HasDerivAt (fun t => P a a' b t) (PBo a a' b b') b' := by
  refine hd_div (hd_aff 0 (a' * b) (fun t => by ring) _)
    (hd_aff 1 (-b + a * a' * b) (fun t => by ring) _) hD ?_
  simp only [PBo]; congr 1; ring

private theorem dQ_a : HasDerivAt (fun t => Q t a' b b') (PB a a' b b') a := by
  refine HasDerivAt.const_add _ (hd_div (hd_aff (-b') (a' * b') (fun t => by ring) _)
    (hd_aff (1 - b * b') (a' * (b * b')) (fun t => by ring) _) hD ?_)
  simp only [PB]; congr 1; ring

private theorem dQ_a' : HasDerivAt (fun t => Q a t b b') (QAo a a' b b') a' := by
  refine HasDerivAt.const_add _ (hd_div (hd_aff (-b') (a * b') (fun t => by ring) _)
    (hd_aff (1 - b * b') (a * (b * b')) (fun t => by ring) _) hD ?_)
  simp only [QAo]; congr 1; ring

variable (hY : 1 - b * b' ≠ 0)
include hY

private theorem dL_b : HasDerivAt (fun t => L a a' t b') (-Q a a' b b') b := by
  refine ((hd_log (hd_aff 1 (-b') (fun t => by ring) b) hY rfl).fun_sub
    (hd_log (hd_aff 1 (-b' + a * a' * b') (fun t => by ring) b) hD rfl)).congr_deriv ?_
  simp only [Q]; ring

private theorem dQ_b : HasDerivAt (fun t => Q a a' t b') (QB a a' b b') b := by
  have h1 : HasDerivAt (fun t => b' / (1 - t * b')) ((0 * (1 - b * b') - b' * (-b')) / (1 - b * b') ^ 2) b :=
    hd_div (hasDerivAt_const _ _) (hd_aff 1 (-b') (fun t => by ring) _) hY rfl
  have h2 : HasDerivAt (fun t => (a * a' - 1) * b' / (1 - t * b' + a * a' * (t * b')))
      ((0 * (1 - b * b' + a * a' * (b * b')) - (a * a' - 1) * b' * (-b' + a * a' * b')) / (1 - b * b' + a * a' * (b * b')) ^ 2) b :=
    hd_div (hasDerivAt_const _ _) (hd_aff 1 (-b' + a * a' * b') (fun t => by ring) _) hD rfl
  refine (h1.fun_add h2).congr_deriv ?_
  simp only [QB, div_pow]; ring

private theorem dQ_b' : HasDerivAt (fun t => Q a a' b t) (QBo a a' b b') b' := by
  have h1 : HasDerivAt (fun t => t / (1 - b * t)) ((1 * (1 - b * b') - b' * (-b)) / (1 - b * b') ^ 2) b' :=
    hd_div (hasDerivAt_id _) (hd_aff 1 (-b) (fun t => by ring) _) hY rfl
  have h2 : HasDerivAt (fun t => (a * a' - 1) * t / (1 - b * t + a * a' * (b * t)))
      (((a * a' - 1) * (1 - b * b' + a * a' * (b * b')) - (a * a' - 1) * b' * (-b + a * a' * b)) / (1 - b * b' + a * a' * (b * b')) ^ 2) b' :=
    hd_div (hd_aff 0 (a * a' - 1) (fun t => by ring) _) (hd_aff 1 (-b + a * a' * b) (fun t => by ring) _) hD rfl
  refine (h1.fun_add h2).congr_deriv ?_
  simp only [QBo]
  congr 2 <;> ring

end terms

/-- derivative in a parameter of row `m` of `∑_i (s_i + ∑_{j≠i} T_ij)` -/
private theorem rows (m : Fin n) (s : Fin n → ℝ → ℝ) (T : Fin n → Fin n → ℝ → ℝ) (s' : ℝ) (T' : Fin n → ℝ) (t : ℝ)
    (hs : ∀ i, i ≠ m → ∀ r r', s i r = s i r') (hT : ∀ i j, i ≠ m → ∀ r r', T i j r = T i j r')
    (ds : HasDerivAt (s m) s' t) (dT : ∀ j, j ≠ m → HasDerivAt (T m j) (T' j) t) :
    HasDerivAt (fun r => ∑ i, (s i r + ∑ j, if i = j then 0 else T i j r)) (s' + ∑ j, if m = j then 0 else T' j) t := by
  have := hasDerivAt_sum_single univ m (fun i r => s i r + ∑ j, if i = j then 0 else T i j r) (s' + ∑ j, if m = j then 0 else T' j) t
    ?_ ?_
  · simpa using this
  · intro i _ hi r r'
    simp only [hs i hi r r', fun j => hT i j hi r r']
  · intro _
    refine ds.add (HasDerivAt.fun_sum fun j _ => ?_)
    by_cases h : m = j
    · simpa [h] using hasDerivAt_const _ _
    · simpa [h] using dT j (Ne.symm h)

private theorem ll_out (x : Vec n) (ko ki so si : Fin n → ℝ) : loglikelihood_decm x ko ki so si =
    ∑ i, (ki i * Real.log (x (1, i)) + si i * Real.log (x (3, i))) +
    ∑ i, ((ko i * Real.log (x (0, i)) + so i * Real.log (x (2, i))) +
      ∑ j, if i = j then 0 else L (x (0, i)) (x (1, j)) (x (2, i)) (x (3, j))) := by
  rw [ll_eq, ← sum_add_distrib]
  refine sum_congr rfl fun i _ => ?_
  simp only [L]; ring

private theorem ll_in (x : Vec n) (ko ki so si : Fin n → ℝ) : loglikelihood_decm x ko ki so si =
    ∑ i, (ko i * Real.log (x (0, i)) + so i * Real.log (x (2, i))) +
    ∑ i, ((ki i * Real.log (x (1, i)) + si i * Real.log (x (3, i))) +
      ∑ j, if i = j then 0 else L (x (1, i)) (x (0, j)) (x (3, i)) (x (2, j))) := by
  rw [ll_out]
  simp only [sum_add_distrib]
  rw [sum_comm (f := fun i j => if i = j then 0 else L (x (0, i)) (x (1, j)) (x (2, i)) (x (3, j)))]
  have : ∀ i j : Fin n, (if j = i then 0 else L (x (0, j)) (x (1, i)) (x (2, j)) (x (3, i))) =
      if i = j then 0 else L (x (1, i)) (x (0, j)) (x (3, i)) (x (2, j)) := by
    intro i j
    rw [L_swap]; by_cases h : i = j
    · simp [h]
    · simp [h, Ne.symm h]
  simp only [this]; ring

private theorem dlog (k x : ℝ) (hx : 0 < x) : HasDerivAt (fun t => k * Real.log t) (k / x) x := by
  refine ((Real.hasDerivAt_log hx.ne').const_mul k).congr_deriv ?_
  rw [div_eq_mul_inv]

/-! ### C06 -/

/-- C06 (decm): every component of `loglikelihood_prime_decm` is the partial derivative of `loglikelihood_decm` at every
admissible point. -/
theorem C06_decm_gradient (x : Vec n) (ko ki so si : Fin n → ℝ) (h : AdmDECM x) (v : Fin 4 × Fin n) :
    HasDerivAt (fun t => loglikelihood_decm (update x v t) ko ki so si) (loglikelihood_prime_decm x ko ki so si v) (x v) := by
  obtain ⟨b, m⟩ := v
  have hneg : ∀ F : Fin n → ℝ, -(∑ j, if m = j then 0 else F j) = ∑ j, if m = j then 0 else -F j := fun F => sub_ite_sum F m
  match b with
  | 0 =>
    rw [(prime_eq x ko ki so si m).1, fa_out_eq, sub_eq_add_neg, hneg]
    simp only [ll_out, update_block, if_true, Fin.reduceEq, if_false]
    refine HasDerivAt.const_add _ (rows m (fun i t => ko i * Real.log (if i = m then t else x (0, i)) + so i * Real.log (x (2, i)))
      (fun i j t => L (if i = m then t else x (0, i)) (x (1, j)) (x (2, i)) (x (3, j))) _ _ _ ?_ ?_ ?_ ?_)
    · intro i hi r r'; simp [hi]
    · intro i j hi r r'; simp [hi]
    · simpa using (dlog (ko m) _ (h.1 (0, m))).add_const (so m * Real.log (x (2, m)))
    · intro j hj; simpa using dL_a (adm_pos h m j hj.symm).2.ne'
  | 1 =>
    rw [(prime_eq x ko ki so si m).2.1, fa_in_eq, sub_eq_add_neg, hneg]
    simp only [ll_in, update_block, if_true, Fin.reduceEq, if_false]
    refine HasDerivAt.const_add _ (rows m (fun i t => ki i * Real.log (if i = m then t else x (1, i)) + si i * Real.log (x (3, i)))
      (fun i j t => L (if i = m then t else x (1, i)) (x (0, j)) (x (3, i)) (x (2, j))) _ _ _ ?_ ?_ ?_ ?_)
    · intro i hi r r'; simp [hi]
    · intro i j hi r r'; simp [hi]
    · simpa using (dlog (ki m) _ (h.1 (1, m))).add_const (si m * Real.log (x (3, m)))
    · intro j hj; simpa using dL_a (adm_pos' h m j hj.symm).2.ne'
  | 2 =>
    rw [(prime_eq x ko ki so si m).2.2.1, fb_out_prime_eq, sub_eq_add_neg, hneg]
    simp only [ll_out, update_block, if_true, Fin.reduceEq, if_false]
    refine HasDerivAt.const_add _ (rows m (fun i t => ko i * Real.log (x (0, i)) + so i * Real.log (if i = m then t else x (2, i)))
      (fun i j t => L (x (0, i)) (x (1, j)) (if i = m then t else x (2, i)) (x (3, j))) _ _ _ ?_ ?_ ?_ ?_)
    · intro i hi r r'; simp [hi]
    · intro i j hi r r'; simp [hi]
    · simpa using (dlog (so m) _ (h.1 (2, m))).const_add (ko m * Real.log (x (0, m)))
    · intro j hj; simpa using dL_b (adm_pos h m j hj.symm).2.ne' (adm_pos h m j hj.symm).1.ne'
  | 3 =>
    rw [(prime_eq x ko ki so si m).2.2.2, fb_in_prime_eq, sub_eq_add_neg, hneg]
    simp only [ll_in, update_block, if_true, Fin.reduceEq, if_false]
    refine HasDerivAt.const_add _ (rows m (fun i t => ki i * Real.log (x (1, i)) + si i * Real.log (if i = m then t else x (3, i)))
      (fun i j t => L (x (1, i)) (x (0, j)) (if i = m then t else x (3, i)) (x (2, j))) _ _ _ ?_ ?_ ?_ ?_)
    · intro i hi r r'; simp [hi]
    · intro i j hi r r'; simp [hi]
    · simpa using (dlog (si m) _ (h.1 (3, m))).const_add (ki m * Real.log (x (1, m)))
    · intro j hj; simpa using dL_b (adm_pos' h m j hj.symm).2.ne' (adm_pos' h m j hj.symm).1.ne'

example := adm_witness

/-! ### C07, C08 -/

private theorem own (i : Fin n) (s : ℝ → ℝ) (T : Fin n → ℝ → ℝ) (s' : ℝ) (T' : Fin n → ℝ) (t : ℝ)
    (ds : HasDerivAt s s' t) (dT : ∀ j, j ≠ i → HasDerivAt (T j) (T' j) t) :
    HasDerivAt (fun r => s r - ∑ j, if i = j then 0 else T j r) (s' + ∑ j, if i = j then 0 else -T' j) t := by
  rw [← sub_ite_sum, ← sub_eq_add_neg]
  refine ds.sub (HasDerivAt.fun_sum fun j _ => ?_)
  by_cases h : i = j
  · simpa [h] using hasDerivAt_const _ _
  · simpa [h] using dT j (Ne.symm h)

private theorem oth (i m : Fin n) (him : i ≠ m) (c : ℝ) (T : Fin n → ℝ → ℝ) (T' : ℝ) (t : ℝ)
    (hT : ∀ j, j ≠ m → ∀ r r', T j r = T j r') (dT : HasDerivAt (T m) T' t) :
    HasDerivAt (fun r => c - ∑ j, if i = j then 0 else T j r) (-T') t := by
  refine HasDerivAt.const_sub _ ?_
  have := hasDerivAt_sum_single univ m (fun j r => if i = j then 0 else T j r) T' t ?_ ?_
  · simpa using this
  · intro j _ hj r r'; simp only [hT j hj r r']
  · intro _; simpa [him] using dT

private theorem othz (i : Fin n) (c : ℝ) (T : Fin n → ℝ → ℝ) (t : ℝ)
    (hT : ∀ j, j ≠ i → ∀ r r', T j r = T j r') :
    HasDerivAt (fun r => c - ∑ j, if i = j then 0 else T j r) 0 t := by
  have : (fun r => c - ∑ j, if i = j then 0 else T j r) = fun _ => c - ∑ j, if i = j then 0 else T j t := by
    funext r
    congr 1
    refine sum_congr rfl fun j _ => ?_
    by_cases h : i = j
    · simp [h]
    · simp only [h, if_false]; exact hT j (Ne.symm h) r t
  rw [this]; exact hasDerivAt_const _ _

private theorem dinv (k x : ℝ) (hx : 0 < x) : HasDerivAt (fun t => k / t) (-k / x ^ 2) x := by
  refine hd_div (hasDerivAt_const _ _) (hasDerivAt_id x) hx.ne' ?_
  simp

/-- C07 (decm): `loglikelihood_hessian_decm[u,v]` is the derivative of gradient component `u` in parameter `v`, for every pair
of components at every admissible point. -/
theorem C07_decm_hessian (x : Vec n) (ko ki so si : Fin n → ℝ) (h : AdmDECM x) (u v : Fin 4 × Fin n) :
    HasDerivAt (fun t => loglikelihood_prime_decm (update x v t) ko ki so si u)
      (loglikelihood_hessian_decm x ko ki so si u v) (x v) := by
  obtain ⟨b, i⟩ := u
  obtain ⟨b', m⟩ := v
  have p0 := fun y : Vec n => (prime_eq y ko ki so si i).1
  have p1 := fun y : Vec n => (prime_eq y ko ki so si i).2.1
  have p2 := fun y : Vec n => (prime_eq y ko ki so si i).2.2.1
  have p3 := fun y : Vec n => (prime_eq y ko ki so si i).2.2.2
  by_cases him : i = m
  · subst him
    obtain ⟨⟨q00, q01, q02, q03⟩, ⟨q11, q10, q13, q12⟩, ⟨q20, q21, q22, q23⟩, q31, q30, q33, q32⟩ := hess_eq x ko ki so si i
    have z : ∀ F : Fin n → ℝ, (∑ j, if i = j then 0 else F j) = 0 + ∑ j, if i = j then 0 else F j := fun F => (zero_add _).symm
    have n1 : ∀ F : Fin n → ℝ, (∑ j, if i = j then 0 else F j) = ∑ j, if i = j then 0 else - -F j := fun F => by simp
    match b, b' with
    | 0, 0 =>
      rw [q00, n1]
      simp only [p0, fa_out_eq, update_block, Fin.reduceEq, if_true, if_false]
      exact own i _ (fun j t => P t (x (1, j)) (x (2, i)) (x (3, j))) _ _ _ (dinv _ _ (h.1 (0, i))) (fun j hj => dP_a (adm_pos h i j hj.symm).2.ne')
    | 0, 1 =>
      rw [q01]
      simp only [p0, fa_out_eq, update_block, Fin.reduceEq, if_true, if_false]
      exact othz i _ (fun j t => P (x (0, i)) (if j = i then t else x (1, j)) (x (2, i)) (x (3, j))) _ (fun j hj r r' => by simp [hj])
    | 0, 2 =>
      rw [q02, z]
      simp only [p0, fa_out_eq, update_block, Fin.reduceEq, if_true, if_false]
      exact own i _ (fun j t => P (x (0, i)) (x (1, j)) t (x (3, j))) _ _ _ (hasDerivAt_const _ _) (fun j hj => dP_b (adm_pos h i j hj.symm).2.ne')
    | 0, 3 =>
      rw [q03]
      simp only [p0, fa_out_eq, update_block, Fin.reduceEq, if_true, if_false]
      exact othz i _ (fun j t => P (x (0, i)) (x (1, j)) (x (2, i)) (if j = i then t else x (3, j))) _ (fun j hj r r' => by simp [hj])
    | 1, 0 =>
      rw [q10]
      simp only [p1, fa_in_eq, update_block, Fin.reduceEq, if_true, if_false]
      exact othz i _ (fun j t => P (x (1, i)) (if j = i then t else x (0, j)) (x (3, i)) (x (2, j))) _ (fun j hj r r' => by simp [hj])
    | 1, 1 =>
      rw [q11, n1]
      simp only [p1, fa_in_eq, update_block, Fin.reduceEq, if_true, if_false]
      exact own i _ (fun j t => P t (x (0, j)) (x (3, i)) (x (2, j))) _ _ _ (dinv _ _ (h.1 (1, i))) (fun j hj => dP_a (adm_pos' h i j hj.symm).2.ne')
    | 1, 2 =>
      rw [q12]
      simp only [p1, fa_in_eq, update_block, Fin.reduceEq, if_true, if_false]
      exact othz i _ (fun j t => P (x (1, i)) (x (0, j)) (x (3, i)) (if j = i then t else x (2, j))) _ (fun j hj r r' => by simp [hj])
    | 1, 3 =>
      rw [q13, z]
      simp only [p1, fa_in_eq, update_block, Fin.reduceEq, if_true, if_false]
      exact own i _ (fun j t => P (x (1, i)) (x (0, j)) t (x (2, j))) _ _ _ (hasDerivAt_const _ _) (fun j hj => dP_b (adm_pos' h i j hj.symm).2.ne')
    | 2, 0 =>
      rw [q20, z]
      simp only [p2, fb_out_prime_eq, update_block, Fin.reduceEq, if_true, if_false]
      exact own i _ (fun j t => Q t (x (1, j)) (x (2, i)) (x (3, j))) _ _ _ (hasDerivAt_const _ _) (fun j hj => dQ_a (adm_pos h i j hj.symm).2.ne')
    | 2, 1 =>
      rw [q21]
      simp only [p2, fb_out_prime_eq, update_block, Fin.reduceEq, if_true, if_false]
      exact othz i _ (fun j t => Q (x (0, i)) (if j = i then t else x (1, j)) (x (2, i)) (x (3, j))) _ (fun j hj r r' => by simp [hj])
    | 2, 2 =>
      rw [q22]
      simp only [p2, fb_out_prime_eq, update_block, Fin.reduceEq, if_true, if_false]
      exact own i _ (fun j t => Q (x (0, i)) (x (1, j)) t (x (3, j))) _ _ _ (dinv _ _ (h.1 (2, i))) (fun j hj => dQ_b (adm_pos h i j hj.symm).2.ne' (adm_pos h i j hj.symm).1.ne')
    | 2, 3 =>
      rw [q23]
      simp only [p2, fb_out_prime_eq, update_block, Fin.reduceEq, if_true, if_false]
      exact othz i _ (fun j t => Q (x (0, i)) (x (1, j)) (x (2, i)) (if j = i then t else x (3, j))) _ (fun j hj r r' => by simp [hj])
    | 3, 0 =>
      rw [q30]
      simp only [p3, fb_in_prime_eq, update_block, Fin.reduceEq, if_true, if_false]
      exact othz i _ (fun j t => Q (x (1, i)) (if j = i then t else x (0, j)) (x (3, i)) (x (2, j))) _ (fun j hj r r' => by simp [hj])
    | 3, 1 =>
      rw [q31, z]
      simp only [p3, fb_in_prime_eq, update_block, Fin.reduceEq, if_true, if_false]
      exact own i _ (fun j t => Q t (x (0, j)) (x (3, i)) (x (2, j))) _ _ _ (hasDerivAt_const _ _) (fun j hj => dQ_a (adm_pos' h i j hj.symm).2.ne')
    | 3, 2 =>
      rw [q32]
      simp only [p3, fb_in_prime_eq, update_block, Fin.reduceEq, if_true, if_false]
      exact othz i _ (fun j t => Q (x (1, i)) (x (0, j)) (x (3, i)) (if j = i then t else x (2, j))) _ (fun j hj r r' => by simp [hj])
    | 3, 3 =>
      rw [q33]
      simp only [p3, fb_in_prime_eq, update_block, Fin.reduceEq, if_true, if_false]
      exact own i _ (fun j t => Q (x (1, i)) (x (0, j)) t (x (2, j))) _ _ _ (dinv _ _ (h.1 (3, i))) (fun j hj => dQ_b (adm_pos' h i j hj.symm).2.ne' (adm_pos' h i j hj.symm).1.ne')
  · obtain ⟨⟨q00, q01, q02, q03⟩, ⟨q11, q10, q13, q12⟩, ⟨q20, q21, q22, q23⟩, q31, q30, q33, q32⟩ := hess_ne x ko ki so si i m him
    match b, b' with
    | 0, 0 =>
      rw [q00]
      simp only [p0, fa_out_eq, update_block, Fin.reduceEq, if_true, if_false, him]
      exact hasDerivAt_const _ _
    | 0, 1 =>
      rw [q01]
      simp only [p0, fa_out_eq, update_block, Fin.reduceEq, if_true, if_false, him]
      refine oth i m him _ (fun j t => P (x (0, i)) (if j = m then t else x (1, j)) (x (2, i)) (x (3, j))) _ _ (fun j hj r r' => by simp [hj]) ?_
      simp only [if_true]
      exact dP_a' (adm_pos h i m him).2.ne'
    | 0, 2 =>
      rw [q02]
      simp only [p0, fa_out_eq, update_block, Fin.reduceEq, if_true, if_false, him]
      exact hasDerivAt_const _ _
    | 0, 3 =>
      rw [q03]
      simp only [p0, fa_out_eq, update_block, Fin.reduceEq, if_true, if_false, him]
      refine oth i m him _ (fun j t => P (x (0, i)) (x (1, j)) (x (2, i)) (if j = m then t else x (3, j))) _ _ (fun j hj r r' => by simp [hj]) ?_
      simp only [if_true]
      exact dP_b' (adm_pos h i m him).2.ne'
    | 1, 0 =>
      rw [q10]
      simp only [p1, fa_in_eq, update_block, Fin.reduceEq, if_true, if_false, him]
      refine oth i m him _ (fun j t => P (x (1, i)) (if j = m then t else x (0, j)) (x (3, i)) (x (2, j))) _ _ (fun j hj r r' => by simp [hj]) ?_
      simp only [if_true]
      exact dP_a' (adm_pos' h i m him).2.ne'
    | 1, 1 =>
      rw [q11]
      simp only [p1, fa_in_eq, update_block, Fin.reduceEq, if_true, if_false, him]
      exact hasDerivAt_const _ _
    | 1, 2 =>
      rw [q12]
      simp only [p1, fa_in_eq, update_block, Fin.reduceEq, if_true, if_false, him]
      refine oth i m him _ (fun j t => P (x (1, i)) (x (0, j)) (x (3, i)) (if j = m then t else x (2, j))) _ _ (fun j hj r r' => by simp [hj]) ?_
      simp only [if_true]
      exact dP_b' (adm_pos' h i m him).2.ne'
    | 1, 3 =>
      rw [q13]
      simp only [p1, fa_in_eq, update_block, Fin.reduceEq, if_true, if_false, him]
      exact hasDerivAt_const _ _
    | 2, 0 =>
      rw [q20]
      simp only [p2, fb_out_prime_eq, update_block, Fin.reduceEq, if_true, if_false, him]
      exact hasDerivAt_const _ _
    | 2, 1 =>
      rw [q21]
      simp only [p2, fb_out_prime_eq, update_block, Fin.reduceEq, if_true, if_false, him]
      refine oth i m him _ (fun j t => Q (x (0, i)) (if j = m then t else x (1, j)) (x (2, i)) (x (3, j))) _ _ (fun j hj r r' => by simp [hj]) ?_
      simp only [if_true]
      exact dQ_a' (adm_pos h i m him).2.ne'
    | 2, 2 =>
      rw [q22]
      simp only [p2, fb_out_prime_eq, update_block, Fin.reduceEq, if_true, if_false, him]
      exact hasDerivAt_const _ _
    | 2, 3 =>
      rw [q23]
      simp only [p2, fb_out_prime_eq, update_block, Fin.reduceEq, if_true, if_false, him]
      refine oth i m him _ (fun j t => Q (x (0, i)) (x (1, j)) (x (2, i)) (if j = m then t else x (3, j))) _ _ (fun j hj r r' => by simp [hj]) ?_
      simp only [if_true]
      exact dQ_b' (adm_pos h i m him).2.ne' (adm_pos h i m him).1.ne'
    | 3, 0 =>
      rw [q30]
      simp only [p3, fb_in_prime_eq, update_block, Fin.reduceEq, if_true, if_false, him]
      refine oth i m him _ (fun j t => Q (x (1, i)) (if j = m then t else x (0, j)) (x (3, i)) (x (2, j))) _ _ (fun j hj r r' => by simp [hj]) ?_
      simp only [if_true]
      exact dQ_a' (adm_pos' h i m him).2.ne'
    | 3, 1 =>
      rw [q31]
      simp only [p3, fb_in_prime_eq, update_block, Fin.reduceEq, if_true, if_false, him]
      exact hasDerivAt_const _ _
    | 3, 2 =>
      rw [q32]
      simp only [p3, fb_in_prime_eq, update_block, Fin.reduceEq, if_true, if_false, him]
      refine oth i m him _ (fun j t => Q (x (1, i)) (x (0, j)) (x (3, i)) (if j = m then t else x (2, j))) _ _ (fun j hj r r' => by simp [hj]) ?_
      simp only [if_true]
      exact dQ_b' (adm_pos' h i m him).2.ne' (adm_pos' h i m him).1.ne'
    | 3, 3 =>
      rw [q33]
      simp only [p3, fb_in_prime_eq, update_block, Fin.reduceEq, if_true, if_false, him]
      exact hasDerivAt_const _ _

/-- C08 (decm): the diagonal function agrees with the second derivatives in every component except, when `s_in[i] = 0`, in component
`i` of the `b_in` block, where it has the opposite sign (models_functions.py 2306). -/
theorem C08_decm_hessian_diag_partial (x : Vec n) (ko ki so si : Fin n → ℝ) (v : Fin 4 × Fin n) (hv : v.1 = 3 → si v.2 ≠ 0) :
    loglikelihood_hessian_diag_decm x ko ki so si v = loglikelihood_hessian_decm x ko ki so si v v ∧
    (AdmDECM x → HasDerivAt (fun t => loglikelihood_prime_decm (update x v t) ko ki so si v)
      (loglikelihood_hessian_diag_decm x ko ki so si v) (x v)) := by
  have : loglikelihood_hessian_diag_decm x ko ki so si v = loglikelihood_hessian_decm x ko ki so si v v := by
    obtain ⟨b, i⟩ := v
    obtain ⟨⟨q00, -⟩, ⟨q11, -⟩, ⟨-, -, q22, -⟩, -, -, q33, -⟩ := hess_eq x ko ki so si i
    obtain ⟨d0, d1, d2, d3⟩ := diag_eq x ko ki so si i
    match b with
    | 0 => rw [d0, q00]
    | 1 => rw [d1, q11]
    | 2 => rw [d2, q22, ← sub_ite_sum]; ring
    | 3 => rw [d3, q33, ← sub_ite_sum, if_neg (hv rfl)]; ring
  refine ⟨this, fun h => ?_⟩
  rw [this]; exact C07_decm_hessian x ko ki so si h v v

example : ∃ v : Fin 4 × Fin 3, v.1 = 3 ∧ (v.1 = 3 → (fun i : Fin 3 => (i.val : ℝ) + 1) v.2 ≠ 0) :=
  ⟨(3, 1), rfl, fun _ => by norm_num⟩

/-- C08 is **false** for decm: for a node with zero in-strength the diagonal function returns minus the second derivative. -/
theorem C08_decm_hessian_diag_sign (x : Vec n) (ko ki so si : Fin n → ℝ) (i : Fin n) (hi : si i = 0) :
    loglikelihood_hessian_diag_decm x ko ki so si (3, i) = -loglikelihood_hessian_decm x ko ki so si (3, i) (3, i) := by
  obtain ⟨-, -, -, -, -, q33, -⟩ := hess_eq x ko ki so si i
  obtain ⟨-, -, -, d3⟩ := diag_eq x ko ki so si i
  rw [d3, q33, ← sub_ite_sum, if_pos hi, hi]
  simp

/-- ... and that second derivative is not zero in general: two nodes, all link parameters 1, all weight parameters 1/2. -/
theorem C08_decm_hessian_diag_wrong : ∃ (x : Vec 2) (ko ki so si : Fin 2 → ℝ), AdmDECM x ∧
    loglikelihood_hessian_diag_decm x ko ki so si (3, 0) ≠ loglikelihood_hessian_decm x ko ki so si (3, 0) (3, 0) := by
  refine ⟨fun v => if v.1 = 0 ∨ v.1 = 1 then 1 else 1 / 2, fun _ => 1, fun _ => 1, fun _ => 1, fun _ => 0, ?_, ?_⟩
  · refine ⟨fun v => ?_, fun i j _ => by norm_num [Fin.ext_iff]⟩
    dsimp only; split <;> norm_num
  · rw [C08_decm_hessian_diag_sign _ _ _ _ _ _ rfl]
    obtain ⟨-, -, -, -, -, q33, -⟩ := hess_eq (fun v : Fin 4 × Fin 2 => if v.1 = 0 ∨ v.1 = 1 then (1 : ℝ) else 1 / 2)
      (fun _ => 1) (fun _ => 1) (fun _ => 1) (fun _ => 0) 0
    rw [q33]
    norm_num [Fin.sum_univ_two, QB, Fin.ext_iff]

/-! ### C09: the exponential parametrisation -/

theorem adm_exp {θ : Vec n} (h : AdmDECMexp θ) : AdmDECM (ex θ) := by
  refine ⟨fun v => Real.exp_pos _, fun i j hij => ?_⟩
  have := h i j hij
  simp only [ex]
  rw [← Real.exp_add, Real.exp_lt_one_iff]
  linarith

/-- C09 (decm): at every admissible point the `decm_exp` likelihood at `θ` is the `decm` likelihood at `exp(-θ)`. -/
theorem C09_decm_reparametrisation (θ : Vec n) (ko ki so si : Fin n → ℝ) (h : AdmDECMexp θ) :
    loglikelihood_decm_exp θ ko ki so si = loglikelihood_decm (fun v => Real.exp (-θ v)) ko ki so si := by
  rw [ll_exp_eq, ll_eq]
  refine sum_congr rfl fun i _ => ?_
  rw [Real.log_exp, Real.log_exp, Real.log_exp, Real.log_exp]
  have : ∀ j, (if i = j then 0 else -Real.log (1 + X (ex θ) i j * Y (ex θ) i j / (1 - Y (ex θ) i j))) =
      if i = j then 0 else Real.log (1 - Real.exp (-θ (2, i)) * Real.exp (-θ (3, j))) -
        Real.log (1 - Real.exp (-θ (2, i)) * Real.exp (-θ (3, j)) +
          Real.exp (-θ (0, i)) * Real.exp (-θ (1, j)) * (Real.exp (-θ (2, i)) * Real.exp (-θ (3, j)))) := by
    intro j
    by_cases hij : i = j
    · simp [hij]
    · simp only [hij, if_false]
      obtain ⟨h1, h2⟩ := adm_pos (adm_exp h) i j hij
      simp only [X, Y, ex] at h1 h2 ⊢
      rw [← Real.log_div h1.ne' h2.ne', ← Real.log_inv]
      congr 1
      rw [← inv_div]
      congr 1
      field_simp
  simp only [this]
  ring

private theorem R_eq (x : Vec n) (i j : Fin n) :
    R (X x i j) (Y x i j) = P (x (0, i)) (x (1, j)) (x (2, i)) (x (3, j)) * x (0, i) := by
  simp only [R, P, X, Y, mul_comm (x (2, i) * x (3, j)) (x (0, i) * x (1, j))]
  ring

private theorem R_eq' (x : Vec n) (i j : Fin n) :
    R (X x j i) (Y x j i) = P (x (1, i)) (x (0, j)) (x (3, i)) (x (2, j)) * x (1, i) := by
  simp only [R, P, X, Y, mul_comm (x (2, j)) (x (3, i)), mul_comm (x (0, j)) (x (1, i)), mul_comm (x (3, i) * x (2, j)) (x (1, i) * x (0, j))]
  ring

private theorem S_eq {a a' b b' : ℝ} (hY : 1 - b * b' ≠ 0) (hD : 1 - b * b' + a * a' * (b * b') ≠ 0) :
    a * a' * (b * b') / ((1 - b * b' + a * a' * (b * b')) * (1 - b * b')) = Q a a' b b' * b := by
  unfold Q
  rw [div_add_div _ _ hY hD, div_mul_eq_mul_div, div_eq_div_iff (mul_ne_zero hD hY) (mul_ne_zero hY hD)]
  ring

/-- C09 (decm): gradients correspond through the chain rule factor `-x`, at every admissible point. -/
theorem C09_decm_gradients (θ : Vec n) (ko ki so si : Fin n → ℝ) (h : AdmDECMexp θ) (v : Fin 4 × Fin n) :
    loglikelihood_prime_decm_exp θ ko ki so si v =
      -(loglikelihood_prime_decm (fun w => Real.exp (-θ w)) ko ki so si v * Real.exp (-θ v)) := by
  obtain ⟨b, i⟩ := v
  obtain ⟨e0, e1, e2, e3⟩ := prime_exp_eq θ ko ki so si i
  obtain ⟨p0, p1, p2, p3⟩ := prime_eq (ex θ) ko ki so si i
  have hp : ∀ b, ex θ (b, i) ≠ 0 := fun b => (Real.exp_pos _).ne'
  have gen : ∀ (k y : ℝ) (F G : Fin n → ℝ), y ≠ 0 → (∀ j, i ≠ j → F j = G j * y) →
      -k + (∑ j, if i = j then 0 else F j) = -((k / y - ∑ j, if i = j then 0 else G j) * y) := by
    intro k y F G hy hFG
    rw [sub_mul, div_mul_cancel₀ _ hy, sum_mul, neg_sub, sub_eq_add_neg, add_comm]
    congr 1
    refine sum_congr rfl fun j _ => ?_
    by_cases hij : i = j
    · simp [hij]
    · simp [hij, hFG j hij]
  change _ = -(loglikelihood_prime_decm (ex θ) ko ki so si (b, i) * ex θ (b, i))
  match b with
  | 0 => rw [e0, p0, fa_out_eq]; exact gen _ _ _ _ (hp 0) (fun j _ => R_eq _ i j)
  | 1 => rw [e1, p1, fa_in_eq]; exact gen _ _ _ _ (hp 1) (fun j _ => R_eq' _ i j)
  | 2 =>
    rw [e2, p2, fb_out_prime_eq]
    refine gen _ _ _ _ (hp 2) (fun j hij => ?_)
    obtain ⟨h1, h2⟩ := adm_pos (adm_exp h) i j hij
    rw [← S_eq h1.ne' h2.ne']
    simp only [S, X, Y, mul_comm (ex θ (2, i) * ex θ (3, j)) (ex θ (0, i) * ex θ (1, j))]
  | 3 =>
    rw [e3, p3, fb_in_prime_eq]
    refine gen _ _ _ _ (hp 3) (fun j hij => ?_)
    obtain ⟨h1, h2⟩ := adm_pos' (adm_exp h) i j hij
    rw [← S_eq h1.ne' h2.ne']
    simp only [S, X, Y, mul_comm (ex θ (2, j)) (ex θ (3, i)), mul_comm (ex θ (0, j)) (ex θ (1, i)),
      mul_comm (ex θ (3, i) * ex θ (2, j)) (ex θ (1, i) * ex θ (0, j))]

theorem adm_exp_witness : AdmDECMexp (fun v : Fin 4 × Fin 3 => (v.2.val : ℝ) - 1 + 2 * (v.1.val : ℝ)) := by
  intro i j _
  have : (0 : ℝ) ≤ i.val := Nat.cast_nonneg _
  have : (0 : ℝ) ≤ j.val := Nat.cast_nonneg _
  norm_num
  linarith

example := adm_exp_witness

/-- admissibility is an open condition in each coordinate -/
theorem adm_open (θ : Vec n) (h : AdmDECMexp θ) (v : Fin 4 × Fin n) : ∀ᶠ t in nhds (θ v), AdmDECMexp (update θ v t) := by
  unfold AdmDECMexp
  rw [Filter.eventually_all]; intro i
  rw [Filter.eventually_all]; intro j
  by_cases hij : i = j
  · simp [hij]
  have hu : Continuous fun t => update θ v t := continuous_const.update v continuous_id
  have hc : Continuous fun t => update θ v t (2, i) + update θ v t (3, j) :=
    ((continuous_apply (2, i)).comp hu).add ((continuous_apply (3, j)).comp hu)
  have h0 : 0 < update θ v (θ v) (2, i) + update θ v (θ v) (3, j) := by rw [update_eq_self]; exact h i j hij
  exact (hc.tendsto _).eventually (lt_mem_nhds h0) |>.mono fun t ht _ => ht

/-- C06 (decm_exp): every component of `loglikelihood_prime_decm_exp` is the partial derivative of `loglikelihood_decm_exp` at every
admissible point. -/
theorem C06_decm_exp_gradient (θ : Vec n) (ko ki so si : Fin n → ℝ) (h : AdmDECMexp θ) (v : Fin 4 × Fin n) :
    HasDerivAt (fun t => loglikelihood_decm_exp (update θ v t) ko ki so si) (loglikelihood_prime_decm_exp θ ko ki so si v) (θ v) := by
  have e : ∀ᶠ t in nhds (θ v), loglikelihood_decm_exp (update θ v t) ko ki so si =
      (fun r => loglikelihood_decm (update (ex θ) v r) ko ki so si) (Real.exp (-t)) := by
    filter_upwards [adm_open θ h v] with t ht
    rw [C09_decm_reparametrisation _ _ _ _ _ ht]
    congr 1
    funext w
    by_cases hw : w = v
    · subst hw; simp
    · simp [hw, ex]
  refine HasDerivAt.congr_of_eventuallyEq ?_ e
  exact hd_comp_exp (C06_decm_gradient _ ko ki so si (adm_exp h) v) (C09_decm_gradients θ ko ki so si h v).symm

/-! ### C07, C08 in the exponential parametrisation -/

section terms
variable {X Y c t : ℝ}

private theorem dR_X (hD : 1 - Y + Y * (Real.exp (-t) * c) ≠ 0) :
    HasDerivAt (fun t => R (Real.exp (-t) * c) Y) (-RA (Real.exp (-t) * c) Y) t := by
  have h0 : HasDerivAt (fun e : ℝ => R (e * c) Y) _ (Real.exp (-t)) :=
    hd_div (hd_aff 0 (Y * c) (fun t => by ring) _) (hd_aff (1 - Y) (Y * c) (fun t => by ring) _) hD rfl
  refine hd_comp_exp h0 ?_
  simp only [RA, mul_comm _ Y]; ring

private theorem dR_Y (hD : 1 - (Real.exp (-t) * c) + (Real.exp (-t) * c) * X ≠ 0) :
    HasDerivAt (fun t => R X (Real.exp (-t) * c)) (-RB X (Real.exp (-t) * c)) t := by
  have h0 : HasDerivAt (fun e : ℝ => R X (e * c)) _ (Real.exp (-t)) :=
    hd_div (hd_aff 0 (c * X) (fun t => by ring) _) (hd_aff 1 (-c + c * X) (fun t => by ring) _) hD rfl
  refine hd_comp_exp h0 ?_
  simp only [RB, mul_comm X]; ring

private theorem dS_X (hD : 1 - Y + Y * (Real.exp (-t) * c) ≠ 0) (hY : 1 - Y ≠ 0) :
    HasDerivAt (fun t => S (Real.exp (-t) * c) Y) (-RB (Real.exp (-t) * c) Y) t := by
  have h0 : HasDerivAt (fun e : ℝ => S (e * c) Y) _ (Real.exp (-t)) :=
    hd_div (hd_aff 0 (Y * c) (fun t => by ring) _) (hd_aff ((1 - Y) ^ 2) (Y * c * (1 - Y)) (fun t => by ring) _) (mul_ne_zero hD hY) rfl
  refine hd_comp_exp h0 ?_
  simp only [RB, mul_comm _ Y]
  rw [neg_inj, div_mul_eq_mul_div, div_eq_div_iff (pow_ne_zero 2 (mul_ne_zero hD hY)) (pow_ne_zero 2 hD)]
  ring

private theorem dS_Y (hD : 1 - (Real.exp (-t) * c) + (Real.exp (-t) * c) * X ≠ 0) (hY : 1 - Real.exp (-t) * c ≠ 0) :
    HasDerivAt (fun t => S X (Real.exp (-t) * c)) (-SB X (Real.exp (-t) * c)) t := by
  have h0 : HasDerivAt (fun e : ℝ => S X (e * c)) _ (Real.exp (-t)) :=
    hd_div (hd_aff 0 (c * X) (fun t => by ring) _) (hd_quad 1 (-2 * c + c * X) (c ^ 2 - c ^ 2 * X) (fun t => by ring) _)
      (mul_ne_zero hD hY) rfl
  refine hd_comp_exp h0 ?_
  simp only [SB, mul_comm X]
  rw [neg_inj, div_mul_eq_mul_div, div_eq_div_iff (pow_ne_zero 2 (mul_ne_zero hD hY)) (mul_ne_zero (pow_ne_zero 2 hY) (pow_ne_zero 2 hD))]
  ring

end terms

private theorem own' (i : Fin n) (c : ℝ) (T : Fin n → ℝ → ℝ) (T' : Fin n → ℝ) (t : ℝ)
    (dT : ∀ j, j ≠ i → HasDerivAt (T j) (-T' j) t) :
    HasDerivAt (fun r => c + ∑ j, if i = j then 0 else T j r) (∑ j, if i = j then 0 else -T' j) t := by
  refine HasDerivAt.const_add _ (HasDerivAt.fun_sum fun j _ => ?_)
  by_cases h : i = j
  · simpa [h] using hasDerivAt_const _ _
  · simpa [h] using dT j (Ne.symm h)

private theorem oth' (i m : Fin n) (him : i ≠ m) (c : ℝ) (T : Fin n → ℝ → ℝ) (T' : ℝ) (t : ℝ)
    (hT : ∀ j, j ≠ m → ∀ r r', T j r = T j r') (dT : HasDerivAt (T m) T' t) :
    HasDerivAt (fun r => c + ∑ j, if i = j then 0 else T j r) T' t := by
  refine HasDerivAt.const_add _ ?_
  have := hasDerivAt_sum_single univ m (fun j r => if i = j then 0 else T j r) T' t ?_ ?_
  · simpa using this
  · intro j _ hj r r'; simp only [hT j hj r r']
  · intro _; simpa [him] using dT

private theorem othz' (i : Fin n) (c : ℝ) (T : Fin n → ℝ → ℝ) (t : ℝ)
    (hT : ∀ j, j ≠ i → ∀ r r', T j r = T j r') :
    HasDerivAt (fun r => c + ∑ j, if i = j then 0 else T j r) 0 t := by
  have : (fun r => c + ∑ j, if i = j then 0 else T j r) = fun _ => c + ∑ j, if i = j then 0 else T j t := by
    funext r
    congr 1
    refine sum_congr rfl fun j _ => ?_
    by_cases h : i = j
    · simp [h]
    · simp only [h, if_false]; exact hT j (Ne.symm h) r t
  rw [this]; exact hasDerivAt_const _ _

/-- C07 (decm_exp): `loglikelihood_hessian_decm_exp` is the Jacobian of the gradient at every admissible point. -/
theorem C07_decm_exp_hessian (θ : Vec n) (ko ki so si : Fin n → ℝ) (h : AdmDECMexp θ) (u v : Fin 4 × Fin n) :
    HasDerivAt (fun t => loglikelihood_prime_decm_exp (update θ v t) ko ki so si u)
      (loglikelihood_hessian_decm_exp θ ko ki so si u v) (θ v) := by
  obtain ⟨b, i⟩ := u
  obtain ⟨b', m⟩ := v
  have p0 := fun y : Vec n => (prime_exp_eq y ko ki so si i).1
  have p1 := fun y : Vec n => (prime_exp_eq y ko ki so si i).2.1
  have p2 := fun y : Vec n => (prime_exp_eq y ko ki so si i).2.2.1
  have p3 := fun y : Vec n => (prime_exp_eq y ko ki so si i).2.2.2
  have hY : ∀ i j, i ≠ j → 1 - Real.exp (-θ (2, i)) * Real.exp (-θ (3, j)) ≠ 0 :=
    fun i j hij => (adm_pos (adm_exp h) i j hij).1.ne'
  have hD : ∀ i j, i ≠ j → 1 - Real.exp (-θ (2, i)) * Real.exp (-θ (3, j)) + Real.exp (-θ (2, i)) * Real.exp (-θ (3, j)) *
      (Real.exp (-θ (0, i)) * Real.exp (-θ (1, j))) ≠ 0 := by
    intro i j hij
    rw [mul_comm (Real.exp (-θ (2, i)) * Real.exp (-θ (3, j))) (_ * _)]
    exact (adm_pos (adm_exp h) i j hij).2.ne'
  by_cases him : i = m
  · subst him
    obtain ⟨⟨q00, q01, q02, q03⟩, ⟨q11, q10, q13, q12⟩, ⟨q20, q21, q22, q23⟩, q31, q30, q33, q32⟩ := hess_exp_eq θ ko ki so si i
    match b, b' with
    | 0, 0 =>
      rw [q00]
      simp only [p0, X, Y, ex, update_block, Fin.reduceEq, if_true, if_false]
      refine own' i _ (fun j t => R (Real.exp (-t) * Real.exp (-θ (1, j))) (Real.exp (-θ (2, i)) * Real.exp (-θ (3, j)))) _ _ (fun j hj => ?_)
      · exact dR_X (hD i j hj.symm)
    | 0, 1 =>
      rw [q01]
      simp only [p0, X, Y, ex, update_block, Fin.reduceEq, if_true, if_false]
      exact othz' i _ (fun j t => R (Real.exp (-θ (0, i)) * Real.exp (-(if j = i then t else θ (1, j)))) (Real.exp (-θ (2, i)) * Real.exp (-θ (3, j)))) _ (fun j hj r r' => by simp [hj])
    | 0, 2 =>
      rw [q02]
      simp only [p0, X, Y, ex, update_block, Fin.reduceEq, if_true, if_false]
      refine own' i _ (fun j t => R (Real.exp (-θ (0, i)) * Real.exp (-θ (1, j))) (Real.exp (-t) * Real.exp (-θ (3, j)))) _ _ (fun j hj => ?_)
      · exact dR_Y (hD i j hj.symm)
    | 0, 3 =>
      rw [q03]
      simp only [p0, X, Y, ex, update_block, Fin.reduceEq, if_true, if_false]
      exact othz' i _ (fun j t => R (Real.exp (-θ (0, i)) * Real.exp (-θ (1, j))) (Real.exp (-θ (2, i)) * Real.exp (-(if j = i then t else θ (3, j))))) _ (fun j hj r r' => by simp [hj])
    | 1, 0 =>
      rw [q10]
      simp only [p1, X, Y, ex, update_block, Fin.reduceEq, if_true, if_false]
      exact othz' i _ (fun j t => R (Real.exp (-(if j = i then t else θ (0, j))) * Real.exp (-θ (1, i))) (Real.exp (-θ (2, j)) * Real.exp (-θ (3, i)))) _ (fun j hj r r' => by simp [hj])
    | 1, 1 =>
      rw [q11]
      simp only [p1, X, Y, ex, update_block, Fin.reduceEq, if_true, if_false]
      refine own' i _ (fun j t => R (Real.exp (-θ (0, j)) * Real.exp (-t)) (Real.exp (-θ (2, j)) * Real.exp (-θ (3, i)))) _ _ (fun j hj => ?_)
      · simp only [mul_comm (Real.exp (-θ (0, j)))]
        exact dR_X (by have := hD j i hj; rwa [mul_comm (Real.exp (-θ (0, j)))] at this)
    | 1, 2 =>
      rw [q12]
      simp only [p1, X, Y, ex, update_block, Fin.reduceEq, if_true, if_false]
      exact othz' i _ (fun j t => R (Real.exp (-θ (0, j)) * Real.exp (-θ (1, i))) (Real.exp (-(if j = i then t else θ (2, j))) * Real.exp (-θ (3, i)))) _ (fun j hj r r' => by simp [hj])
    | 1, 3 =>
      rw [q13]
      simp only [p1, X, Y, ex, update_block, Fin.reduceEq, if_true, if_false]
      refine own' i _ (fun j t => R (Real.exp (-θ (0, j)) * Real.exp (-θ (1, i))) (Real.exp (-θ (2, j)) * Real.exp (-t))) _ _ (fun j hj => ?_)
      · simp only [mul_comm (Real.exp (-θ (2, j)))]
        exact dR_Y (by have := hD j i hj; rwa [mul_comm (Real.exp (-θ (2, j)))] at this)
    | 2, 0 =>
      rw [q20]
      simp only [p2, X, Y, ex, update_block, Fin.reduceEq, if_true, if_false]
      refine own' i _ (fun j t => S (Real.exp (-t) * Real.exp (-θ (1, j))) (Real.exp (-θ (2, i)) * Real.exp (-θ (3, j)))) _ _ (fun j hj => ?_)
      · exact dS_X (hD i j hj.symm) (hY i j hj.symm)
    | 2, 1 =>
      rw [q21]
      simp only [p2, X, Y, ex, update_block, Fin.reduceEq, if_true, if_false]
      exact othz' i _ (fun j t => S (Real.exp (-θ (0, i)) * Real.exp (-(if j = i then t else θ (1, j)))) (Real.exp (-θ (2, i)) * Real.exp (-θ (3, j)))) _ (fun j hj r r' => by simp [hj])
    | 2, 2 =>
      rw [q22]
      simp only [p2, X, Y, ex, update_block, Fin.reduceEq, if_true, if_false]
      refine own' i _ (fun j t => S (Real.exp (-θ (0, i)) * Real.exp (-θ (1, j))) (Real.exp (-t) * Real.exp (-θ (3, j)))) _ _ (fun j hj => ?_)
      · exact dS_Y (hD i j hj.symm) (hY i j hj.symm)
    | 2, 3 =>
      rw [q23]
      simp only [p2, X, Y, ex, update_block, Fin.reduceEq, if_true, if_false]
      exact othz' i _ (fun j t => S (Real.exp (-θ (0, i)) * Real.exp (-θ (1, j))) (Real.exp (-θ (2, i)) * Real.exp (-(if j = i then t else θ (3, j))))) _ (fun j hj r r' => by simp [hj])
    | 3, 0 =>
      rw [q30]
      simp only [p3, X, Y, ex, update_block, Fin.reduceEq, if_true, if_false]
      exact othz' i _ (fun j t => S (Real.exp (-(if j = i then t else θ (0, j))) * Real.exp (-θ (1, i))) (Real.exp (-θ (2, j)) * Real.exp (-θ (3, i)))) _ (fun j hj r r' => by simp [hj])
    | 3, 1 =>
      rw [q31]
      simp only [p3, X, Y, ex, update_block, Fin.reduceEq, if_true, if_false]
      refine own' i _ (fun j t => S (Real.exp (-θ (0, j)) * Real.exp (-t)) (Real.exp (-θ (2, j)) * Real.exp (-θ (3, i)))) _ _ (fun j hj => ?_)
      · simp only [mul_comm (Real.exp (-θ (0, j)))]
        exact dS_X (by have := hD j i hj; rwa [mul_comm (Real.exp (-θ (0, j)))] at this) (hY j i hj)
    | 3, 2 =>
      rw [q32]
      simp only [p3, X, Y, ex, update_block, Fin.reduceEq, if_true, if_false]
      exact othz' i _ (fun j t => S (Real.exp (-θ (0, j)) * Real.exp (-θ (1, i))) (Real.exp (-(if j = i then t else θ (2, j))) * Real.exp (-θ (3, i)))) _ (fun j hj r r' => by simp [hj])
    | 3, 3 =>
      rw [q33]
      simp only [p3, X, Y, ex, update_block, Fin.reduceEq, if_true, if_false]
      refine own' i _ (fun j t => S (Real.exp (-θ (0, j)) * Real.exp (-θ (1, i))) (Real.exp (-θ (2, j)) * Real.exp (-t))) _ _ (fun j hj => ?_)
      · simp only [mul_comm (Real.exp (-θ (2, j)))]
        exact dS_Y (by have := hD j i hj; rwa [mul_comm (Real.exp (-θ (2, j)))] at this) (by have := hY j i hj; rwa [mul_comm (Real.exp (-θ (2, j)))] at this)
  · obtain ⟨⟨q00, q01, q02, q03⟩, ⟨q11, q10, q13, q12⟩, ⟨q20, q21, q22, q23⟩, q31, q30, q33, q32⟩ := hess_exp_ne θ ko ki so si i m him
    match b, b' with
    | 0, 0 =>
      rw [q00]
      simp only [p0, X, Y, ex, update_block, Fin.reduceEq, if_true, if_false, him]
      exact hasDerivAt_const _ _
    | 0, 1 =>
      rw [q01]
      simp only [p0, X, Y, ex, update_block, Fin.reduceEq, if_true, if_false, him]
      refine oth' i m him _ (fun j t => R (Real.exp (-θ (0, i)) * Real.exp (-(if j = m then t else θ (1, j)))) (Real.exp (-θ (2, i)) * Real.exp (-θ (3, j)))) _ _ (fun j hj r r' => by simp [hj]) ?_
      · simp only [if_true]
        simp only [mul_comm (Real.exp (-θ (0, i)))]
        exact dR_X (by have := hD i m him; rwa [mul_comm (Real.exp (-θ (0, i)))] at this)
    | 0, 2 =>
      rw [q02]
      simp only [p0, X, Y, ex, update_block, Fin.reduceEq, if_true, if_false, him]
      exact hasDerivAt_const _ _
    | 0, 3 =>
      rw [q03]
      simp only [p0, X, Y, ex, update_block, Fin.reduceEq, if_true, if_false, him]
      refine oth' i m him _ (fun j t => R (Real.exp (-θ (0, i)) * Real.exp (-θ (1, j))) (Real.exp (-θ (2, i)) * Real.exp (-(if j = m then t else θ (3, j))))) _ _ (fun j hj r r' => by simp [hj]) ?_
      · simp only [if_true]
        simp only [mul_comm (Real.exp (-θ (2, i)))]
        exact dR_Y (by have := hD i m him; rwa [mul_comm (Real.exp (-θ (2, i)))] at this)
    | 1, 0 =>
      rw [q10]
      simp only [p1, X, Y, ex, update_block, Fin.reduceEq, if_true, if_false, him]
      refine oth' i m him _ (fun j t => R (Real.exp (-(if j = m then t else θ (0, j))) * Real.exp (-θ (1, i))) (Real.exp (-θ (2, j)) * Real.exp (-θ (3, i)))) _ _ (fun j hj r r' => by simp [hj]) ?_
      · simp only [if_true]
        exact dR_X (hD m i (Ne.symm him))
    | 1, 1 =>
      rw [q11]
      simp only [p1, X, Y, ex, update_block, Fin.reduceEq, if_true, if_false, him]
      exact hasDerivAt_const _ _
    | 1, 2 =>
      rw [q12]
      simp only [p1, X, Y, ex, update_block, Fin.reduceEq, if_true, if_false, him]
      refine oth' i m him _ (fun j t => R (Real.exp (-θ (0, j)) * Real.exp (-θ (1, i))) (Real.exp (-(if j = m then t else θ (2, j))) * Real.exp (-θ (3, i)))) _ _ (fun j hj r r' => by simp [hj]) ?_
      · simp only [if_true]
        exact dR_Y (hD m i (Ne.symm him))
    | 1, 3 =>
      rw [q13]
      simp only [p1, X, Y, ex, update_block, Fin.reduceEq, if_true, if_false, him]
      exact hasDerivAt_const _ _
    | 2, 0 =>
      rw [q20]
      simp only [p2, X, Y, ex, update_block, Fin.reduceEq, if_true, if_false, him]
      exact hasDerivAt_const _ _
    | 2, 1 =>
      rw [q21]
      simp only [p2, X, Y, ex, update_block, Fin.reduceEq, if_true, if_false, him]
      refine oth' i m him _ (fun j t => S (Real.exp (-θ (0, i)) * Real.exp (-(if j = m then t else θ (1, j)))) (Real.exp (-θ (2, i)) * Real.exp (-θ (3, j)))) _ _ (fun j hj r r' => by simp [hj]) ?_
      · simp only [if_true]
        simp only [mul_comm (Real.exp (-θ (0, i)))]
        exact dS_X (by have := hD i m him; rwa [mul_comm (Real.exp (-θ (0, i)))] at this) (hY i m him)
    | 2, 2 =>
      rw [q22]
      simp only [p2, X, Y, ex, update_block, Fin.reduceEq, if_true, if_false, him]
      exact hasDerivAt_const _ _
    | 2, 3 =>
      rw [q23]
      simp only [p2, X, Y, ex, update_block, Fin.reduceEq, if_true, if_false, him]
      refine oth' i m him _ (fun j t => S (Real.exp (-θ (0, i)) * Real.exp (-θ (1, j))) (Real.exp (-θ (2, i)) * Real.exp (-(if j = m then t else θ (3, j))))) _ _ (fun j hj r r' => by simp [hj]) ?_
      · simp only [if_true]
        simp only [mul_comm (Real.exp (-θ (2, i)))]
        exact dS_Y (by have := hD i m him; rwa [mul_comm (Real.exp (-θ (2, i)))] at this) (by have := hY i m him; rwa [mul_comm (Real.exp (-θ (2, i)))] at this)
    | 3, 0 =>
      rw [q30]
      simp only [p3, X, Y, ex, update_block, Fin.reduceEq, if_true, if_false, him]
      refine oth' i m him _ (fun j t => S (Real.exp (-(if j = m then t else θ (0, j))) * Real.exp (-θ (1, i))) (Real.exp (-θ (2, j)) * Real.exp (-θ (3, i)))) _ _ (fun j hj r r' => by simp [hj]) ?_
      · simp only [if_true]
        exact dS_X (hD m i (Ne.symm him)) (hY m i (Ne.symm him))
    | 3, 1 =>
      rw [q31]
      simp only [p3, X, Y, ex, update_block, Fin.reduceEq, if_true, if_false, him]
      exact hasDerivAt_const _ _
    | 3, 2 =>
      rw [q32]
      simp only [p3, X, Y, ex, update_block, Fin.reduceEq, if_true, if_false, him]
      refine oth' i m him _ (fun j t => S (Real.exp (-θ (0, j)) * Real.exp (-θ (1, i))) (Real.exp (-(if j = m then t else θ (2, j))) * Real.exp (-θ (3, i)))) _ _ (fun j hj r r' => by simp [hj]) ?_
      · simp only [if_true]
        exact dS_Y (hD m i (Ne.symm him)) (hY m i (Ne.symm him))
    | 3, 3 =>
      rw [q33]
      simp only [p3, X, Y, ex, update_block, Fin.reduceEq, if_true, if_false, him]
      exact hasDerivAt_const _ _

/-- C08 (decm_exp): `loglikelihood_hessian_diag_decm_exp` is the diagonal of the Hessian, i.e. the vector of second derivatives. -/
theorem C08_decm_exp_hessian_diag (θ : Vec n) (ko ki so si : Fin n → ℝ) (v : Fin 4 × Fin n) :
    loglikelihood_hessian_diag_decm_exp θ ko ki so si v = loglikelihood_hessian_decm_exp θ ko ki so si v v ∧
    (AdmDECMexp θ → HasDerivAt (fun t => loglikelihood_prime_decm_exp (update θ v t) ko ki so si v)
      (loglikelihood_hessian_diag_decm_exp θ ko ki so si v) (θ v)) := by
  have : loglikelihood_hessian_diag_decm_exp θ ko ki so si v = loglikelihood_hessian_decm_exp θ ko ki so si v v := by
    obtain ⟨b, i⟩ := v
    obtain ⟨⟨q00, -⟩, ⟨q11, -⟩, ⟨-, -, q22, -⟩, -, -, q33, -⟩ := hess_exp_eq θ ko ki so si i
    obtain ⟨d0, d1, d2, d3⟩ := diag_exp_eq θ ko ki so si i
    match b with
    | 0 => rw [d0, q00]
    | 1 => rw [d1, q11]
    | 2 => rw [d2, q22]
    | 3 => rw [d3, q33]
  refine ⟨this, fun h => ?_⟩
  rw [this]; exact C07_decm_exp_hessian θ ko ki so si h v v

/-! ### C04: solutions reproduce degrees and strengths -/

/-- the four observed sequences as one vector -/
def obs (ko ki so si : Fin n → ℝ) : Vec n := fun v =>
  if v.1 = 0 then ko v.2 else if v.1 = 1 then ki v.2 else if v.1 = 2 then so v.2 else si v.2

/-- the accumulators of the four blocks as one vector (denominators of the fixed-point map) -/
noncomputable def den (x : Vec n) : Vec n := fun v =>
  if v.1 = 0 then fa_out x v.2 else if v.1 = 1 then fa_in x v.2 else if v.1 = 2 then fb_out x v.2 else fb_in x v.2

theorem forms (x : Vec n) (ko ki so si : Fin n → ℝ) (v : Fin 4 × Fin n) :
    loglikelihood_prime_decm x ko ki so si v = obs ko ki so si v / x v - den x v ∧
    expected_decm x v = x v * den x v ∧ iterative_decm x ko ki so si v = obs ko ki so si v / den x v := by
  obtain ⟨b, i⟩ := v
  obtain ⟨p0, p1, p2, p3⟩ := prime_eq x ko ki so si i
  obtain ⟨e0, e1, e2, e3⟩ := expected_eq x i
  obtain ⟨t0, t1, t2, t3⟩ := iter_eq x ko ki so si i
  match b with
  | 0 => exact ⟨p0, e0, t0⟩
  | 1 => exact ⟨p1, e1, t1⟩
  | 2 => exact ⟨by rw [p2, fb_out_prime_eq, ← fb_out_eq]; rfl, e2, t2⟩
  | 3 => exact ⟨by rw [p3, fb_in_prime_eq, ← fb_in_eq]; rfl, e3, t3⟩

/-- C04 (decm): expected and observed out/in-degrees and strengths agree **iff** the gradient vanishes in every component with non-zero
parameter and every component with zero parameter has zero constraint. -/
theorem C04_decm_solution_iff (x : Vec n) (ko ki so si : Fin n → ℝ) :
    (∀ v, expected_decm x v = obs ko ki so si v) ↔
      ∀ v, (x v ≠ 0 → loglikelihood_prime_decm x ko ki so si v = 0) ∧ (x v = 0 → obs ko ki so si v = 0) := by
  refine forall_congr' fun v => ?_
  obtain ⟨p, e, -⟩ := forms x ko ki so si v
  rw [p, e]
  by_cases h : x v = 0
  · simp [h, eq_comm]
  · simp only [h, ne_eq, not_false_eq_true, forall_true_left, false_imp_iff, and_true]
    rw [sub_eq_zero, div_eq_iff h]
    constructor <;> intro h' <;> linarith

/-- C04 (decm): at an admissible point a vanishing gradient means that all four sequences are reproduced. -/
theorem C04_decm_solution (x : Vec n) (ko ki so si : Fin n → ℝ) (h : AdmDECM x)
    (hg : ∀ v, loglikelihood_prime_decm x ko ki so si v = 0) (i : Fin n) :
    expected_decm x (0, i) = ko i ∧ expected_decm x (1, i) = ki i ∧ expected_decm x (2, i) = so i ∧ expected_decm x (3, i) = si i := by
  have := (C04_decm_solution_iff x ko ki so si).2 fun v => ⟨fun _ => hg v, fun h0 => absurd h0 (h.1 v).ne'⟩
  exact ⟨this (0, i), this (1, i), this (2, i), this (3, i)⟩

/-- C04 (decm_exp): the same in the exponential parametrisation; the library stores `exp(-θ)`. -/
theorem C04_decm_exp_solution_iff (θ : Vec n) (ko ki so si : Fin n → ℝ) (h : AdmDECMexp θ) :
    (∀ v, loglikelihood_prime_decm_exp θ ko ki so si v = 0) ↔ ∀ v, expected_decm_exp θ v = obs ko ki so si v := by
  unfold expected_decm_exp
  rw [C04_decm_solution_iff]
  refine forall_congr' fun v => ?_
  rw [C09_decm_gradients _ _ _ _ _ h, neg_eq_zero, mul_eq_zero, or_iff_left (Real.exp_pos _).ne']
  simp

/-- two nodes with link parameters 1 and weight parameters 1/2 reproduce degrees 1/4 and strengths 1/3 -/
example : ∀ v, loglikelihood_prime_decm (fun v : Fin 4 × Fin 2 => if v.1 = 0 ∨ v.1 = 1 then 1 else 1 / 2)
    (fun _ => 1 / 4) (fun _ => 1 / 4) (fun _ => 1 / 3) (fun _ => 1 / 3) v = 0 := by
  intro v
  have hx : (if v.1 = 0 ∨ v.1 = 1 then (1 : ℝ) else 1 / 2) ≠ 0 := by split <;> norm_num
  refine ((C04_decm_solution_iff _ _ _ _ _).1 ?_ v).1 hx
  rintro ⟨b, i⟩
  rw [(forms _ (fun _ => 0) (fun _ => 0) (fun _ => 0) (fun _ => 0) _).2.1]
  fin_cases b <;> fin_cases i <;>
    simp [den, obs, fa_out_eq, fa_in_eq, fb_out_eq, fb_in_eq, P, Q, Fin.sum_univ_two] <;> norm_num

/-! ### C12, C42: fixed-point maps -/

/-- C12 (decm): if `x = iterative_decm x` and no node with non-zero constraint has parameter zero, then `x` reproduces the four observed
sequences (nodes with zero constraints allowed). -/
theorem C12_decm_fixed_point_solution (x : Vec n) (ko ki so si : Fin n → ℝ) (hx : ∀ v, obs ko ki so si v ≠ 0 → x v ≠ 0)
    (hfix : ∀ v, iterative_decm x ko ki so si v = x v) : ∀ v, expected_decm x v = obs ko ki so si v := by
  intro v
  obtain ⟨-, e, t⟩ := forms x ko ki so si v
  have hf := hfix v
  rw [t] at hf
  rw [e]
  by_cases h0 : obs ko ki so si v = 0
  · rw [h0, zero_div] at hf; rw [← hf, h0, zero_mul]
  · have hd : den x v ≠ 0 := by
      intro hd; rw [hd, div_zero] at hf; exact hx v h0 hf.symm
    rw [← hf, div_mul_cancel₀ _ hd]

/-- C12 (decm): when all constraints and parameters are non-zero, `x` is a fixed point **iff** the gradient vanishes. -/
theorem C12_decm_fixed_point_iff (x : Vec n) (ko ki so si : Fin n → ℝ) (hx : ∀ v, x v ≠ 0) (hk : ∀ v, obs ko ki so si v ≠ 0) :
    (∀ v, iterative_decm x ko ki so si v = x v) ↔ ∀ v, loglikelihood_prime_decm x ko ki so si v = 0 := by
  constructor
  · intro h v
    exact ((C04_decm_solution_iff x ko ki so si).1 (C12_decm_fixed_point_solution x ko ki so si (fun v _ => hx v) h) v).1 (hx v)
  · intro h v
    obtain ⟨p, -, t⟩ := forms x ko ki so si v
    have := h v
    rw [p, sub_eq_zero] at this
    rw [t, ← this, div_div_cancel₀ (hk v)]

example : (∀ v : Fin 4 × Fin 3, (fun v : Fin 4 × Fin 3 => if v.1 = 0 ∨ v.1 = 1 then (v.2.val : ℝ) + 1 else 1 / 2) v ≠ 0) ∧
    ∀ v : Fin 4 × Fin 3, obs (fun _ => 1) (fun _ => 2) (fun _ => 3) (fun _ => 4) v ≠ 0 :=
  ⟨fun v => (adm_witness.1 v).ne', fun v => by unfold obs; split_ifs <;> norm_num⟩

theorem den_pos (x : Vec n) (h : AdmDECM x) (hn : ∀ i : Fin n, ∃ j, i ≠ j) (v : Fin 4 × Fin n) : 0 < den x v := by
  obtain ⟨b, i⟩ := v
  obtain ⟨j, hj⟩ := hn i
  have gen : ∀ F : Fin n → ℝ, (∀ j, i ≠ j → 0 < F j) → 0 < ∑ j, if i = j then 0 else F j := by
    intro F hF
    refine sum_pos' (fun a _ => ?_) ⟨j, mem_univ j, ?_⟩
    · by_cases ha : i = a
      · simp [ha]
      · rw [if_neg ha]; exact (hF a ha).le
    · rw [if_neg hj]; exact hF j hj
  have hP : ∀ a a' b b' : ℝ, 0 < a' → 0 < b → 0 < b' → 0 < 1 - b * b' + a * a' * (b * b') → 0 < P a a' b b' := by
    intro a a' b b' h1 h2 h3 h4; unfold P; positivity
  have hQ : ∀ a a' b b' : ℝ, 0 < a → 0 < a' → 0 < b → 0 < b' → 0 < 1 - b * b' → 0 < 1 - b * b' + a * a' * (b * b') → 0 < Q a a' b b' := by
    intro a a' b b' h1 h2 h3 h4 h5 h6
    have : 0 < Q a a' b b' * b := by
      rw [← S_eq h5.ne' h6.ne']; positivity
    exact pos_of_mul_pos_left this h3.le
  match b with
  | 0 => change 0 < fa_out x i; rw [fa_out_eq]; exact gen _ fun j hij => hP _ _ _ _ (h.1 _) (h.1 _) (h.1 _) (adm_pos h i j hij).2
  | 1 => change 0 < fa_in x i; rw [fa_in_eq]; exact gen _ fun j hij => hP _ _ _ _ (h.1 _) (h.1 _) (h.1 _) (adm_pos' h i j hij).2
  | 2 => change 0 < fb_out x i; rw [fb_out_eq]; exact gen _ fun j hij => hQ _ _ _ _ (h.1 _) (h.1 _) (h.1 _) (h.1 _) (adm_pos h i j hij).1 (adm_pos h i j hij).2
  | 3 => change 0 < fb_in x i; rw [fb_in_eq]; exact gen _ fun j hij => hQ _ _ _ _ (h.1 _) (h.1 _) (h.1 _) (h.1 _) (adm_pos' h i j hij).1 (adm_pos' h i j hij).2

/-- C42 (decm): at an admissible point of a network with at least two nodes, the fixed-point map returns non-negative values, and zero
exactly for zero constraints. -/
theorem C42_decm_iterative (x : Vec n) (ko ki so si : Fin n → ℝ) (h : AdmDECM x) (hn : ∀ i : Fin n, ∃ j, i ≠ j)
    (hk : ∀ v, 0 ≤ obs ko ki so si v) (v : Fin 4 × Fin n) :
    0 ≤ iterative_decm x ko ki so si v ∧ (iterative_decm x ko ki so si v = 0 ↔ obs ko ki so si v = 0) := by
  obtain ⟨-, -, t⟩ := forms x ko ki so si v
  have hd := den_pos x h hn v
  rw [t]
  exact ⟨div_nonneg (hk v) hd.le, by rw [div_eq_zero_iff, or_iff_left hd.ne']⟩

example : AdmDECM (fun v : Fin 4 × Fin 3 => if v.1 = 0 ∨ v.1 = 1 then (v.2.val : ℝ) + 1 else 1 / 2) ∧ ∀ i : Fin 3, ∃ j, i ≠ j :=
  ⟨adm_witness, fun i => by fin_cases i; exacts [⟨1, by decide⟩, ⟨0, by decide⟩, ⟨0, by decide⟩]⟩

/-- closed form of `iterative_decm_exp`; note the indices of the in-blocks -/
private theorem iter_exp_eq (θ : Vec n) (ko ki so si : Fin n → ℝ) (m : Fin n) :
    iterative_decm_exp θ ko ki so si (0, m) = (if ko m ≠ 0 then -Real.log (ko m / fa_out (ex θ) m) else 1000) ∧
    iterative_decm_exp θ ko ki so si (1, m) = (if ki m ≠ 0 then -Real.log (ki m / ∑ j, (if m = j then 0 else
      ex θ (1, j) * Y (ex θ) j m / (1 - Y (ex θ) j m + X (ex θ) j m * Y (ex θ) j m))) else 1000) ∧
    iterative_decm_exp θ ko ki so si (2, m) = (if so m ≠ 0 then -Real.log (so m / ∑ j, (if m = j then 0 else
      X (ex θ) m j * ex θ (3, j) / ((1 - Y (ex θ) m j) * (1 - Y (ex θ) m j + X (ex θ) m j * Y (ex θ) m j)))) else 1000) := by
  have hite : ∀ i j : Fin n, ∀ a : ℝ, (if i ≠ j then a else 0) = if i = j then 0 else a := by
    intro i j a; by_cases h : i = j <;> simp [h]
  have key : ∀ (p : Prop) [Decidable p] (f : Vec n) (v : Fin 4 × Fin n) (a b : ℝ),
    (if p then setAt f v a else setAt f v b) = setAt f v (if p then a else b) := by
    intro p _ f v a b; split <;> rfl
  simp only [iterative_decm_exp, ite_acc_left, forR_add, zero_add, hite, key]
  refine ⟨?_, ?_, ?_⟩
  · apply forR_cell (m := m)
    · intro f; simp [setAt_apply, fa_out_eq, P, ex]
    · intro i hi f; simp [setAt_apply, hi.symm]
  · apply forR_cell (m := m)
    · intro f; simp [setAt_apply, X, Y, ex]
    · intro i hi f; simp [setAt_apply, hi.symm]
  · apply forR_cell (m := m)
    · intro f; simp [setAt_apply, X, Y, ex]
    · intro i hi f; simp [setAt_apply, hi.symm]

/-- C12 (decm_exp), the part that holds: in the out blocks (`a_out`, `b_out`) a component of `iterative_decm_exp` is fixed **iff** the
corresponding gradient component vanishes.  Missing: the in blocks, for which the claim is false, see
`C12_decm_exp_fixed_point_wrong`. -/
theorem C12_decm_exp_fixed_point_partial (θ : Vec n) (ko ki so si : Fin n → ℝ) (h : AdmDECMexp θ) (hn : ∀ i : Fin n, ∃ j, i ≠ j)
    (hko : ∀ i, 0 < ko i) (hso : ∀ i, 0 < so i) (i : Fin n) :
    (iterative_decm_exp θ ko ki so si (0, i) = θ (0, i) ↔ loglikelihood_prime_decm_exp θ ko ki so si (0, i) = 0) ∧
    (iterative_decm_exp θ ko ki so si (2, i) = θ (2, i) ↔ loglikelihood_prime_decm_exp θ ko ki so si (2, i) = 0) := by
  have ha := adm_exp h
  have d0 : 0 < fa_out (ex θ) i := den_pos _ ha hn (0, i)
  have d2 : 0 < fb_out (ex θ) i := den_pos _ ha hn (2, i)
  have e2 : (∑ j, (if i = j then 0 else
      X (ex θ) i j * ex θ (3, j) / ((1 - Y (ex θ) i j) * (1 - Y (ex θ) i j + X (ex θ) i j * Y (ex θ) i j)))) = fb_out (ex θ) i := by
    rw [fb_out_eq]
    refine sum_congr rfl fun j _ => ?_
    by_cases hij : i = j
    · simp [hij]
    · simp only [hij, if_false]
      obtain ⟨h1, h2⟩ := adm_pos ha i j hij
      have hb : ex θ (2, i) ≠ 0 := (Real.exp_pos _).ne'
      have := S_eq h1.ne' h2.ne'
      rw [← mul_left_inj' hb, ← this]
      simp only [X, Y]
      rw [mul_comm (1 - ex θ (2, i) * ex θ (3, j)), div_mul_eq_mul_div]
      congr 1; ring
  have gen : ∀ k d t : ℝ, 0 < k → 0 < d → ((if k ≠ 0 then -Real.log (k / d) else 1000) = t ↔ k / Real.exp (-t) - d = 0) := by
    intro k d t hk hd
    rw [if_pos hk.ne', sub_eq_zero, div_eq_iff (Real.exp_pos _).ne']
    have hkd : 0 < k / d := div_pos hk hd
    constructor
    · intro h
      rw [← h, neg_neg, Real.exp_log hkd, mul_div_cancel₀ _ hd.ne']
    · intro h
      rw [h, mul_div_cancel_left₀ _ hd.ne', Real.log_exp, neg_neg]
  obtain ⟨t0, -, t2⟩ := iter_exp_eq θ ko ki so si i
  obtain ⟨p0, -, p2, -⟩ := prime_eq (ex θ) ko ki so si i
  constructor
  · rw [t0, gen _ _ _ (hko i) d0, C09_decm_gradients _ _ _ _ _ h, neg_eq_zero, mul_eq_zero, or_iff_left (Real.exp_pos _).ne']
    change _ ↔ loglikelihood_prime_decm (ex θ) ko ki so si (0, i) = 0
    rw [p0]; rfl
  · rw [t2, e2, gen _ _ _ (hso i) d2, C09_decm_gradients _ _ _ _ _ h, neg_eq_zero, mul_eq_zero, or_iff_left (Real.exp_pos _).ne']
    change _ ↔ loglikelihood_prime_decm (ex θ) ko ki so si (2, i) = 0
    rw [p2, fb_out_prime_eq, ← fb_out_eq]; rfl

example : AdmDECMexp (fun v : Fin 4 × Fin 3 => (v.2.val : ℝ) - 1 + 2 * (v.1.val : ℝ)) ∧ ∀ i : Fin 3, ∃ j, i ≠ j :=
  ⟨adm_exp_witness, fun i => by fin_cases i; exacts [⟨1, by decide⟩, ⟨0, by decide⟩, ⟨0, by decide⟩]⟩

/-- C12 is **false** for decm_exp: there are positive constraints and an admissible exact solution (zero gradient) that the fixed-point
map moves, because `iterative_decm_exp` uses `x[j+n]` where `x[j]` is needed (models_functions.py 3283-3291). -/
theorem C12_decm_exp_fixed_point_wrong : ∃ (θ : Vec 2) (ko ki so si : Fin 2 → ℝ), AdmDECMexp θ ∧
    (∀ v, 0 < obs ko ki so si v) ∧ (∀ v, loglikelihood_prime_decm_exp θ ko ki so si v = 0) ∧
    ∃ v, iterative_decm_exp θ ko ki so si v ≠ θ v := by
  let θ : Vec 2 := fun v => if v.1 = 0 then 0 else if v.1 = 1 then -Real.log 2 else Real.log 2
  let E := expected_decm_exp θ
  have hl : 0 < Real.log 2 := Real.log_pos (by norm_num)
  have hA : AdmDECMexp θ := by
    intro i j _
    have h2 : θ (2, i) = Real.log 2 := by simp [θ]
    have h3 : θ (3, j) = Real.log 2 := by simp [θ]
    rw [h2, h3]; linarith
  have hn : ∀ i : Fin 2, ∃ j, i ≠ j := fun i => by fin_cases i; exacts [⟨1, by decide⟩, ⟨0, by decide⟩]
  have hobs : ∀ v, obs (fun i => E (0, i)) (fun i => E (1, i)) (fun i => E (2, i)) (fun i => E (3, i)) v = E v := by
    rintro ⟨b, i⟩; match b with
    | 0 => rfl
    | 1 => rfl
    | 2 => rfl
    | 3 => rfl
  have hE : ∀ v, E v = ex θ v * den (ex θ) v := fun v =>
    (forms (ex θ) (fun _ => 0) (fun _ => 0) (fun _ => 0) (fun _ => 0) v).2.1
  have hEp : ∀ v, 0 < E v := fun v => by
    rw [hE]; exact mul_pos (Real.exp_pos _) (den_pos _ (adm_exp hA) hn v)
  refine ⟨θ, fun i => E (0, i), fun i => E (1, i), fun i => E (2, i), fun i => E (3, i), hA, ?_, ?_, (1, 0), ?_⟩
  · intro v; rw [hobs]; exact hEp v
  · rw [C04_decm_exp_solution_iff _ _ _ _ _ hA]; intro v; rw [hobs]
  · rw [(iter_exp_eq θ _ _ _ _ 0).2.1, if_pos (hEp _).ne', hE]
    have e0 : ∀ i, ex θ (0, i) = 1 := by intro i; simp [ex, θ]
    have e1 : ∀ i, ex θ (1, i) = 2 := by intro i; simp [ex, θ, Real.exp_log]
    have e2 : ∀ i, ex θ (2, i) = 1 / 2 := by intro i; simp [ex, θ, Real.exp_neg, Real.exp_log]
    have e3 : ∀ i, ex θ (3, i) = 1 / 2 := by intro i; simp [ex, θ, Real.exp_neg, Real.exp_log]
    have hd : den (ex θ) (1, 0) = 1 / 5 := by
      change fa_in (ex θ) 0 = _
      rw [fa_in_eq]; simp [P, e0, e1, e2, e3, Fin.sum_univ_two]; norm_num
    rw [hd, e1]
    have hθ : θ (1, 0) = -Real.log 2 := by simp [θ]
    rw [hθ]
    simp only [X, Y, e0, e1, e2, e3, Fin.sum_univ_two]
    norm_num

end Verif.DECM
