import Verif.Lemmas.Checked
import Verif.Model.Checked3

/-! Where the checked functions of `decm` raise (C79). -/

set_option linter.unusedSectionVars false

namespace Verif.Checked

open Verif Finset Verif.Solver Verif.Solve

noncomputable section

open Classical in
attribute [local instance 0] propDecidable

variable {n : ℕ} {α : Type}

theorem ifE_guard {c P : Prop} {_ : Decidable c} {t : Option α} {v e : α} (h : t = guard P v) : ifE c t e = guard (c → P) (if c then v else e) := by
  subst h
  unfold ifE
  by_cases hc : c
  · simp only [if_pos hc]; exact guard_congr ⟨fun p _ => p, fun p => p hc⟩ rfl
  · simp only [if_neg hc]; exact (some_guard _).trans (guard_congr ⟨fun _ h => absurd h hc, fun _ => trivial⟩ rfl)

section decm
variable (x : DECM.Vec n) (k_out k_in s_out s_in : Fin n → ℝ)

/-- the two divisors of the ordered pair `i → j` -/
def PairDECM (i j : Fin n) : Prop := 1 - x (2, i) * x (3, j) + x (0, i) * x (1, j) * (x (2, i) * x (3, j)) ≠ 0 ∧ 1 - x (2, i) * x (3, j) ≠ 0

/-- every parameter that belongs to a non-zero constraint is not zero -/
def NonzeroDECM (i : Fin n) : Prop := (k_out i ≠ 0 → x (0, i) ≠ 0) ∧ (k_in i ≠ 0 → x (1, i) ≠ 0) ∧ (s_out i ≠ 0 → x (2, i) ≠ 0) ∧ (s_in i ≠ 0 → x (3, i) ≠ 0)

theorem fa_outE_guard (i : Fin n) : fa_outE x i = guard (∀ j, i ≠ j → 1 - x (2, i) * x (3, j) + x (0, i) * x (1, j) * (x (2, i) * x (3, j)) ≠ 0) (DECM.fa_out x i) := by
  unfold fa_outE DECM.fa_out
  refine forE_guard (P := fun j => i ≠ j → 1 - x (2, i) * x (3, j) + x (0, i) * x (1, j) * (x (2, i) * x (3, j)) ≠ 0) (fun j s => ?_) _
  refine ifE_guard ?_
  dsimp only
  rw [divE_guard, ret_guard]

theorem fa_inE_guard (i : Fin n) : fa_inE x i = guard (∀ j, i ≠ j → 1 - x (2, j) * x (3, i) + x (0, j) * x (1, i) * (x (2, j) * x (3, i)) ≠ 0) (DECM.fa_in x i) := by
  unfold fa_inE DECM.fa_in
  refine forE_guard (P := fun j => i ≠ j → 1 - x (2, j) * x (3, i) + x (0, j) * x (1, i) * (x (2, j) * x (3, i)) ≠ 0) (fun j s => ?_) _
  refine ifE_guard ?_
  dsimp only
  rw [divE_guard, ret_guard]

theorem fb_outE_guard (i : Fin n) : fb_outE x i = guard (∀ j, i ≠ j → PairDECM x i j) (DECM.fb_out x i) := by
  unfold fb_outE DECM.fb_out
  refine forE_guard (P := fun j => i ≠ j → PairDECM x i j) (fun j s => ?_) _
  refine ifE_guard ?_
  dsimp only
  rw [divE_guard, divE_guard, bind_two]
  refine guard_congr ?_ rfl
  unfold PairDECM
  rw [mul_comm (x (3, j)), mul_comm (x (1, j)), and_comm]

theorem fb_inE_guard (i : Fin n) : fb_inE x i = guard (∀ j, i ≠ j → PairDECM x j i) (DECM.fb_in x i) := by
  unfold fb_inE DECM.fb_in
  refine forE_guard (P := fun j => i ≠ j → PairDECM x j i) (fun j s => ?_) _
  refine ifE_guard ?_
  dsimp only
  rw [divE_guard, divE_guard, bind_two]
  refine guard_congr ?_ rfl
  unfold PairDECM
  rw [mul_comm (x (3, i)), mul_comm (x (1, i)), and_comm]

theorem fb_out_primeE_guard (i : Fin n) : fb_out_primeE x i = guard (∀ j, i ≠ j → x (0, i) ≠ 0 → PairDECM x i j) (DECM.fb_out_prime x i) := by
  unfold fb_out_primeE DECM.fb_out_prime
  refine forE_guard (P := fun j => i ≠ j → x (0, i) ≠ 0 → PairDECM x i j) (fun j s => ?_) _
  refine ifE_guard (ifE_guard ?_)
  rw [divE_guard, divE_guard, bind_two]
  refine guard_congr ?_ rfl
  unfold PairDECM
  rw [mul_comm (x (3, j)), and_comm]

theorem fb_in_primeE_guard (i : Fin n) : fb_in_primeE x i = guard (∀ j, i ≠ j → PairDECM x j i) (DECM.fb_in_prime x i) := by
  unfold fb_in_primeE DECM.fb_in_prime
  refine forE_guard (P := fun j => i ≠ j → PairDECM x j i) (fun j s => ?_) _
  refine ifE_guard ?_
  dsimp only
  rw [divE_guard, divE_guard, bind_two]
  refine guard_congr ?_ rfl
  unfold PairDECM
  rw [mul_comm (x (3, i)), and_comm]

/-- a sequence that ends at once when the condition fails -/
def gate (P : Prop) (t : Option α) : Option α := if P then t else none

theorem bind_gate {β : Type} {P : Prop} {v : β} {f : β → Option α} : (guard P v >>= f) = gate P (f v) := by
  unfold guard gate
  split_ifs <;> rfl

theorem gate_guard {P Q : Prop} {v : α} : gate P (guard Q v) = guard (P ∧ Q) v := by
  unfold guard gate
  by_cases p : P <;> by_cases q : Q <;> simp [p, q]

theorem pure_guard (v : α) : (pure v : Option α) = guard True v := some_guard v

theorem iterative_decm_guard : iterative_decm x k_out k_in s_out s_in = guard ((∀ i j, i ≠ j → PairDECM x i j) ∧
    ∀ i, (k_out i ≠ 0 → DECM.fa_out x i ≠ 0) ∧ (k_in i ≠ 0 → DECM.fa_in x i ≠ 0) ∧ (s_out i ≠ 0 → DECM.fb_out x i ≠ 0) ∧ (s_in i ≠ 0 → DECM.fb_in x i ≠ 0))
    (DECM.iterative_decm x k_out k_in s_out s_in) := by
  unfold iterative_decm DECM.iterative_decm
  refine (forE_guard (P := fun i => (∀ j, i ≠ j → PairDECM x i j) ∧ (∀ j, i ≠ j → PairDECM x j i) ∧
    (k_out i ≠ 0 → DECM.fa_out x i ≠ 0) ∧ (k_in i ≠ 0 → DECM.fa_in x i ≠ 0) ∧ (s_out i ≠ 0 → DECM.fb_out x i ≠ 0) ∧ (s_in i ≠ 0 → DECM.fb_in x i ≠ 0)) (fun i f => ?_) _).trans
    (guard_congr ⟨fun h => ⟨fun i => (h i).1, fun i => (h i).2.2⟩, fun h i => ⟨h.1 i, fun j hj => h.1 j i hj.symm, h.2 i⟩⟩ rfl)
  rw [fa_outE_guard, fa_inE_guard, fb_outE_guard, fb_inE_guard]
  have q : ∀ (k : ℝ) (v : Fin 4 × Fin n) (a : ℝ) (f : DECM.Vec n), ifE (k ≠ 0) (do return setAt f v (← divE k a)) (setAt f v 0) =
      guard (k ≠ 0 → a ≠ 0) (if k ≠ 0 then setAt f v (k / a) else setAt f v 0) := fun k v a f => ifE_guard (by rw [divE_guard, ret_guard])
  simp only [bind_gate, q, gate_guard]
  refine guard_congr ?_ rfl
  unfold PairDECM
  exact ⟨fun ⟨_, _, c, d, r⟩ => ⟨c, d, r⟩, fun ⟨c, d, r⟩ => ⟨fun j hj => (c j hj).1, fun j hj => (d j hj).1, c, d, r⟩⟩

theorem prime_decm_guard : loglikelihood_prime_decm x k_out k_in s_out s_in = guard ((∀ i j, i ≠ j → PairDECM x i j) ∧ ∀ i, NonzeroDECM x k_out k_in s_out s_in i)
    (DECM.loglikelihood_prime_decm x k_out k_in s_out s_in) := by
  unfold loglikelihood_prime_decm DECM.loglikelihood_prime_decm
  refine (forE_guard (P := fun i => (∀ j, i ≠ j → 1 - x (2, i) * x (3, j) + x (0, i) * x (1, j) * (x (2, i) * x (3, j)) ≠ 0) ∧
      (∀ j, i ≠ j → 1 - x (2, j) * x (3, i) + x (0, j) * x (1, i) * (x (2, j) * x (3, i)) ≠ 0) ∧ (∀ j, i ≠ j → x (0, i) ≠ 0 → PairDECM x i j) ∧
      (∀ j, i ≠ j → PairDECM x j i) ∧ NonzeroDECM x k_out k_in s_out s_in i) (fun i f => ?_) _).trans
    (guard_congr ⟨fun h => ⟨fun i j hij => (h j).2.2.2.1 i hij.symm, fun i => (h i).2.2.2.2⟩,
      fun h i => ⟨fun j hj => (h.1 i j hj).1, fun j hj => (h.1 j i hj.symm).1, fun j hj _ => h.1 i j hj, fun j hj => h.1 j i hj.symm, h.2 i⟩⟩ rfl)
  rw [fa_outE_guard, fa_inE_guard, fb_out_primeE_guard, fb_in_primeE_guard]
  have q : ∀ (k : ℝ) (v : Fin 4 × Fin n) (a : ℝ) (f : DECM.Vec n), ifE (k ≠ 0) (do return setAt f v ((← divE k (x v)) - a)) (setAt f v (-a)) =
      guard (k ≠ 0 → x v ≠ 0) (if k ≠ 0 then setAt f v (k / x v - a) else setAt f v (-a)) := fun k v a f => ifE_guard (by rw [divE_guard, ret_guard])
  simp only [bind_gate, q, gate_guard]
  rfl

theorem hessian_diag_decm_guard : loglikelihood_hessian_diag_decm x k_out k_in s_out s_in =
    guard ((∀ i j, i ≠ j → PairDECM x i j) ∧ ∀ i, NonzeroDECM x k_out k_in s_out s_in i) (DECM.loglikelihood_hessian_diag_decm x k_out k_in s_out s_in) := by
  unfold loglikelihood_hessian_diag_decm DECM.loglikelihood_hessian_diag_decm
  refine (forE_guard (P := fun i => (∀ j, i ≠ j → 1 - x (2, i) * x (3, j) + x (0, i) * x (1, j) * (x (2, i) * x (3, j)) ≠ 0) ∧
      (∀ j, i ≠ j → 1 - x (2, j) * x (3, i) + x (0, j) * x (1, i) * (x (2, j) * x (3, i)) ≠ 0) ∧ (∀ j, i ≠ j → PairDECM x i j) ∧
      (∀ j, i ≠ j → PairDECM x j i) ∧ NonzeroDECM x k_out k_in s_out s_in i) (fun i f => ?_) _).trans
    (guard_congr ⟨fun h => ⟨fun i j hij => (h j).2.2.2.1 i hij.symm, fun i => (h i).2.2.2.2⟩,
      fun h i => ⟨fun j hj => (h.1 i j hj).1, fun j hj => (h.1 j i hj.symm).1, fun j hj => h.1 i j hj, fun j hj => h.1 j i hj.symm, h.2 i⟩⟩ rfl)
  have q : ∀ (k : ℝ) (v : Fin 4 × Fin n) (g : ℝ → ℝ) (a : ℝ) (f : DECM.Vec n), ifE (k ≠ 0) (do return setAt f v (g (← divE (-k) (x v ^ 2)))) (setAt f v a) =
      guard (k ≠ 0 → x v ≠ 0) (if k ≠ 0 then setAt f v (g (-k / x v ^ 2)) else setAt f v a) := fun k v g a f => by
    refine (ifE_guard (by rw [divE_guard, ret_guard])).trans (guard_congr ?_ rfl)
    rw [psq]
  dsimp only
  rw [forE_guard (P := fun j => i ≠ j → 1 - x (2, i) * x (3, j) + x (0, i) * x (1, j) * (x (2, i) * x (3, j)) ≠ 0) (fun j s => ifE_guard (by rw [divE_guard, ret_guard])),
    forE_guard (P := fun j => i ≠ j → 1 - x (2, j) * x (3, i) + x (0, j) * x (1, i) * (x (2, j) * x (3, i)) ≠ 0) (fun j s => ifE_guard (by rw [divE_guard, ret_guard])),
    forE_guard (P := fun j => i ≠ j → PairDECM x i j) (fun j s => (ifE_guard (by rw [divE_guard, divE_guard, bind_two])).trans
      (guard_congr (by unfold PairDECM; rw [mul_comm (x (3, j)), and_comm]) rfl)),
    forE_guard (P := fun j => i ≠ j → PairDECM x j i) (fun j s => (ifE_guard (by rw [divE_guard, divE_guard, bind_two])).trans
      (guard_congr (by unfold PairDECM; rw [mul_comm (x (3, i)), and_comm]) rfl))]
  have q1 := fun k v b => q k v (fun t => t + b)
  have q2 := fun k v b => q k v (fun t => t - b)
  simp only [bind_gate, q1, q2, gate_guard]
  rfl

theorem div1 (a a' b b' : ℝ) : 1 - b * b' + a' * a * b' * b = 1 - b * b' + a * a' * (b * b') := by ring

theorem hess_decm_offE_guard (h t : Fin n) (f : DECM.Mat n) : hess_decm_offE x h t f = guard (PairDECM x h t ∧ PairDECM x t h) (DECM.hess_decm_off x h t f) := by
  unfold hess_decm_offE DECM.hess_decm_off
  simp only [divE_guard, bind_gate, pure_guard, gate_guard]
  refine guard_congr ?_ rfl
  unfold PairDECM
  simp only [psq, mul_comm (x (3, h)) (x (2, t)), mul_comm (x (3, t)) (x (2, h))]
  rw [div1 (x (0, t)), div1 (x (0, h))]
  tauto

theorem hess_decm_diagE_guard (h : Fin n) (f : DECM.Mat n) : hess_decm_diagE x k_out k_in s_out s_in h h f =
    guard ((∀ j, j ≠ h → PairDECM x h j ∧ PairDECM x j h) ∧ NonzeroDECM x k_out k_in s_out s_in h) (DECM.hess_decm_diag x k_out k_in s_out s_in h h f) := by
  unfold hess_decm_diagE DECM.hess_decm_diag
  have q : ∀ (k : ℝ) (v : Fin 4 × Fin n) (f : DECM.Mat n), ifE (k ≠ 0) (do return setAt2 f v v (← divE (-k) (x v ^ 2))) f =
      guard (k ≠ 0 → x v ≠ 0) (if k ≠ 0 then setAt2 f v v (-k / x v ^ 2) else f) := fun k v f => by
    refine (ifE_guard (by rw [divE_guard, ret_guard])).trans (guard_congr ?_ rfl)
    rw [psq]
  dsimp only
  simp only [q, bind_gate]
  rw [forE_guard (P := fun j => j ≠ h → PairDECM x h j ∧ PairDECM x j h) (fun j f => ?_) _]
  · simp only [gate_guard]
    refine guard_congr ?_ rfl
    unfold NonzeroDECM
    tauto
  · simp only [divE_guard, bind_gate, pure_guard, gate_guard]
    refine (ifE_guard rfl).trans (guard_congr ?_ rfl)
    unfold PairDECM
    simp only [psq, mul_comm (x (3, h)) (x (2, j)), mul_comm (x (3, j)) (x (2, h))]
    rw [div1 (x (0, j)), div1 (x (0, h))]
    tauto

theorem hessian_decm_guard : loglikelihood_hessian_decm x k_out k_in s_out s_in =
    guard ((∀ i j, i ≠ j → PairDECM x i j) ∧ ∀ i, NonzeroDECM x k_out k_in s_out s_in i) (DECM.loglikelihood_hessian_decm x k_out k_in s_out s_in) := by
  unfold loglikelihood_hessian_decm DECM.loglikelihood_hessian_decm
  refine (forE_guard (P := fun h => ∀ t, if h = t then (∀ j, j ≠ h → PairDECM x h j ∧ PairDECM x j h) ∧ NonzeroDECM x k_out k_in s_out s_in h
    else PairDECM x h t ∧ PairDECM x t h) (fun h f => ?_) _).trans (guard_congr ?_ rfl)
  · refine forE_guard (fun t f => ?_) _
    by_cases hh : h = t
    · subst hh
      simp only [if_true]
      exact hess_decm_diagE_guard x k_out k_in s_out s_in h f
    · simp only [if_neg hh]
      exact hess_decm_offE_guard x h t f
  · refine ⟨fun hh => ⟨fun i j hij => ?_, fun i => ?_⟩, fun hh h t => ?_⟩
    · have := hh i j
      rw [if_neg hij] at this
      exact this.1
    · have := hh i i
      rw [if_pos rfl] at this
      exact this.2
    · split_ifs with hc
      · exact ⟨fun j hj => ⟨hh.1 h j hj.symm, hh.1 j h hj⟩, hh.2 h⟩
      · exact ⟨hh.1 h t hc, hh.1 t h (Ne.symm hc)⟩

theorem expected_decm_guard : expected_decm x = guard (∀ i j, i ≠ j → PairDECM x i j) (DECM.expected_decm x) := by
  unfold expected_decm DECM.expected_decm
  refine (forE_guard (P := fun i => (∀ j, i ≠ j → 1 - x (2, i) * x (3, j) + x (0, i) * x (1, j) * (x (2, i) * x (3, j)) ≠ 0) ∧
      (∀ j, i ≠ j → 1 - x (2, j) * x (3, i) + x (0, j) * x (1, i) * (x (2, j) * x (3, i)) ≠ 0) ∧ (∀ j, i ≠ j → PairDECM x i j) ∧
      (∀ j, i ≠ j → PairDECM x j i)) (fun i f => ?_) _).trans
    (guard_congr ⟨fun h i => (h i).2.2.1, fun h i => ⟨fun j hj => (h i j hj).1, fun j hj => (h j i hj.symm).1, h i, fun j hj => h j i hj.symm⟩⟩ rfl)
  have q : ∀ i j : Fin n, 1 - x (2, i) * x (3, j) + x (0, i) * x (1, j) * x (2, i) * x (3, j) = 1 - x (2, i) * x (3, j) + x (0, i) * x (1, j) * (x (2, i) * x (3, j)) :=
    fun i j => by ring
  dsimp only
  rw [forE_guard (P := fun j => i ≠ j → 1 - x (2, i) * x (3, j) + x (0, i) * x (1, j) * (x (2, i) * x (3, j)) ≠ 0) (fun j s => (ifE_guard (by rw [divE_guard, ret_guard])).trans
      (guard_congr (by rw [q]) rfl)),
    forE_guard (P := fun j => i ≠ j → 1 - x (2, j) * x (3, i) + x (0, j) * x (1, i) * (x (2, j) * x (3, i)) ≠ 0) (fun j s => (ifE_guard (by rw [divE_guard, ret_guard])).trans
      (guard_congr (by rw [q]) rfl)),
    forE_guard (P := fun j => i ≠ j → PairDECM x i j) (fun j s => (ifE_guard (by rw [divE_guard, divE_guard, bind_two])).trans
      (guard_congr (by unfold PairDECM; rw [q, mul_comm (x (3, j)), and_comm]) rfl)),
    forE_guard (P := fun j => i ≠ j → PairDECM x j i) (fun j s => (ifE_guard (by rw [divE_guard, divE_guard, bind_two])).trans
      (guard_congr (by unfold PairDECM; rw [q, mul_comm (x (3, i)), and_comm]) rfl))]
  exact bind_guard (bind_guard (bind_guard ret_guard))

end decm

end

end Verif.Checked
