import Verif.Lemmas.Solver
import Verif.Model.Checked

/-! Where the checked functions raise (C79). -/

set_option linter.unusedSectionVars false

namespace Verif.Checked

open Verif Finset Verif.Solver Verif.Solve

noncomputable section

open Classical in
attribute [local instance 0] propDecidable

variable {n : ℕ} {σ α β : Type}

/-- the value if `P` holds, otherwise the exception -/
def guard (P : Prop) (v : α) : Option α := if P then some v else none

theorem divE_guard (a b : ℝ) : divE a b = guard (b ≠ 0) (a / b) := by
  unfold divE guard
  by_cases h : b = 0
  · rw [if_pos h, if_neg (not_not.2 h)]
  · rw [if_neg h, if_pos h]

theorem some_guard (v : α) : some v = guard True v := (if_pos trivial).symm

theorem bind_guard {P Q : Prop} {v : α} {w : β} {f : α → Option β} (h : f v = guard Q w) : (guard P v >>= f) = guard (P ∧ Q) w := by
  unfold guard at *
  by_cases hp : P
  · rw [if_pos hp]
    show f v = _
    rw [h]
    by_cases hq : Q
    · rw [if_pos hq, if_pos ⟨hp, hq⟩]
    · rw [if_neg hq, if_neg fun k => hq k.2]
  · rw [if_neg hp, if_neg fun k => hp k.1]
    rfl

theorem guard_congr {P Q : Prop} {v w : α} (h : P ↔ Q) (hv : v = w) : guard P v = guard Q w := by
  rw [hv, propext h]

theorem ite_guard {c P Q : Prop} {_ : Decidable c} {v w : α} {a b : Option α} (ha : a = guard P v) (hb : b = guard Q w) :
    (if c then a else b) = guard (if c then P else Q) (if c then v else w) := by
  subst ha hb
  split_ifs <;> rfl

theorem forLE_guard (l : List α) {bodyE : α → σ → Option σ} {P : α → Prop} {body : α → σ → σ} (h : ∀ i s, bodyE i s = guard (P i) (body i s)) (s : σ) :
    forLE l bodyE s = guard (∀ i ∈ l, P i) (forL l body s) := by
  induction l generalizing s with
  | nil => exact (if_pos (by simp)).symm
  | cons a l ih =>
    show (bodyE a s >>= fun s => forLE l bodyE s) = _
    rw [h, bind_guard (ih _)]
    exact guard_congr (by simp) rfl

theorem forE_guard {bodyE : Fin n → σ → Option σ} {P : Fin n → Prop} {body : Fin n → σ → σ} (h : ∀ i s, bodyE i s = guard (P i) (body i s)) (s : σ) :
    forE n bodyE s = guard (∀ i, P i) (forR n body s) := by
  unfold forE
  rw [forLE_guard _ h]
  exact guard_congr (by simp) rfl

theorem map_guard {P : Prop} {v : α} (f : α → β) : (guard P v).map f = guard P (f v) := by
  unfold guard
  split_ifs <;> rfl

theorem guard_some {P : Prop} {v : α} (h : P) : guard P v = some v := if_pos h
theorem guard_none {P : Prop} {v : α} (h : ¬P) : guard P v = none := if_neg h

theorem ret_guard {P : Prop} {v : α} {f : α → β} : (guard P v >>= fun t => pure (f t)) = guard P (f v) := by
  unfold guard
  split_ifs <;> rfl

theorem bind_two {P Q : Prop} {γ : Type} {v : α} {w : β} {g : α → β → γ} : (guard P v >>= fun a => guard Q w >>= fun b => pure (g a b)) = guard (P ∧ Q) (g v w) := by
  exact bind_guard ret_guard

theorem bind_four {P₁ P₂ P₃ P₄ : Prop} {γ : Type} {v₁ v₂ v₃ v₄ : α} {g : α → α → α → α → γ} :
    (guard P₁ v₁ >>= fun a => guard P₂ v₂ >>= fun b => guard P₃ v₃ >>= fun c => guard P₄ v₄ >>= fun d => pure (g a b c d)) = guard (P₁ ∧ P₂ ∧ P₃ ∧ P₄) (g v₁ v₂ v₃ v₄) := by
  exact bind_guard (bind_guard (bind_guard ret_guard))

theorem bind_five {P₁ P₂ P₃ P₄ P₅ : Prop} {γ : Type} {v₁ v₃ : α} {h₁ h₂ : α → α} {v₅ : α} {g : α → α → α → γ} :
    (guard P₁ v₁ >>= fun a => guard P₂ (h₁ a) >>= fun b => guard P₃ v₃ >>= fun c => guard P₄ (h₂ c) >>= fun d => guard P₅ v₅ >>= fun e => pure (g b d e)) =
      guard (P₁ ∧ P₂ ∧ P₃ ∧ P₄ ∧ P₅) (g (h₁ v₁) (h₂ v₃) v₅) := by
  exact bind_guard (bind_guard (bind_guard (bind_guard ret_guard)))

theorem bind_dep {P Q : Prop} {v : α} {g : α → β} : (guard P v >>= fun a => guard Q (g a)) = guard (P ∧ Q) (g v) := bind_guard rfl

theorem bind_const {P Q : Prop} {v : α} {γ : Type} {w : β} {g : α → β → γ} : (guard P v >>= fun a => guard Q w >>= fun b => pure (g a b)) = guard (P ∧ Q) (g v w) := bind_guard ret_guard

theorem forLE_of_guard (l : List α) (P : α → Prop) (body : α → σ → σ) (s : σ) : forLE l (fun i s => guard (P i) (body i s)) s = guard (∀ i ∈ l, P i) (forL l body s) :=
  forLE_guard l (fun _ _ => rfl) s

theorem self_ne (a : ℝ) : 1 + a * a ≠ 0 := by have := mul_self_nonneg a; positivity
theorem msq (a : ℝ) : a * a ≠ 0 ↔ a ≠ 0 := not_congr mul_self_eq_zero
theorem psq (a : ℝ) : a ^ 2 ≠ 0 ↔ a ≠ 0 := by simp
theorem sq_ne (a : ℝ) : 1 + a ^ 2 ≠ 0 := by positivity

section cm
variable (x k c : Fin n → ℝ)

theorem iterative_cm_guard : iterative_cm x k c = guard (∀ i j, 1 + x j * x i ≠ 0) (CM.iterative_cm x k c) := by
  unfold iterative_cm CM.iterative_cm
  refine (forE_guard (P := fun i => ∀ j, 1 + x j * x i ≠ 0) (fun i f => ?_) _).trans (guard_congr Iff.rfl rfl)
  rw [forE_guard (P := fun j => 1 + x j * x i ≠ 0) (body := fun j fx => if i = j then fx + (c j - 1) * (x j / (1 + x j * x i)) else fx + c j * (x j / (1 + x j * x i))) fun j fx => ?_]
  · refine (bind_guard (Q := True) ?_).trans (guard_congr (iff_of_eq (and_true _)) rfl)
    dsimp only
    split_ifs with h
    · rw [divE_guard, ret_guard]; exact guard_congr (by simp only [iff_true]; exact h) rfl
    · exact some_guard _
  · rw [divE_guard]; split_ifs <;> exact ret_guard

theorem prime_cm_guard : loglikelihood_prime_cm x k c = guard (∀ i, x i ≠ 0 ∧ ∀ j, 1 + x i * x j ≠ 0) (CM.loglikelihood_prime_cm x k c) := by
  unfold loglikelihood_prime_cm CM.loglikelihood_prime_cm
  refine (forE_guard (P := fun i => x i ≠ 0 ∧ ∀ j, 1 + x i * x j ≠ 0) (fun i f => ?_) _)
  rw [divE_guard]
  refine bind_guard (forE_guard (P := fun j => 1 + x i * x j ≠ 0) (fun j f => ?_) _)
  split_ifs with h
  · rw [divE_guard, ret_guard, h]; exact guard_congr (by simp only [ne_eq, sq_ne, self_ne]) rfl
  · rw [divE_guard, ret_guard]

theorem hessian_diag_cm_guard : loglikelihood_hessian_diag_cm x k c = guard (∀ i, x i ≠ 0 ∧ ∀ j, 1 + x i * x j ≠ 0) (CM.loglikelihood_hessian_diag_cm x k c) := by
  unfold loglikelihood_hessian_diag_cm CM.loglikelihood_hessian_diag_cm
  refine (forE_guard (P := fun i => x i * x i ≠ 0 ∧ ∀ j, 1 + x i * x j ≠ 0) (fun i f => ?_) _).trans (guard_congr (forall_congr' fun i => and_congr_left fun _ => msq _) rfl)
  rw [divE_guard]
  refine bind_guard (forE_guard (P := fun j => 1 + x i * x j ≠ 0) (fun j f => ?_) _)
  dsimp only
  split_ifs with h
  · rw [divE_guard, ret_guard, h]; exact guard_congr (msq _) rfl
  · rw [divE_guard, ret_guard]; exact guard_congr (msq _) rfl

theorem hessian_cm_guard : loglikelihood_hessian_cm x k c = guard (∀ i, x i ≠ 0 ∧ ∀ j, 1 + x i * x j ≠ 0) (CM.loglikelihood_hessian_cm x k c) := by
  unfold loglikelihood_hessian_cm CM.loglikelihood_hessian_cm
  refine (forE_guard (P := fun i => x i ≠ 0 ∧ ∀ j, 1 + x i * x j ≠ 0) (fun i f => ?_) _)
  refine (forE_guard (P := fun j => if i ≤ j then if i = j then x i ≠ 0 ∧ ∀ j, 1 + x i * x j ≠ 0 else 1 + x i * x j ≠ 0 else True) (fun j f => ?_) _).trans (guard_congr ?_ rfl)
  · split_ifs with h1 h2
    · dsimp only
      rw [divE_guard]
      have hA : (guard (x i * x i ≠ 0) (-k i / (x i * x i)) >>= fun t => forE n (fun h aux_f =>
              if i = h then do
                return aux_f + (← divE (x h * x h) ((1 + x h * x h) * (1 + x h * x h))) * c i * (c h - 1)
              else do
                return aux_f + (← divE (x h * x h) ((1 + x i * x h) * (1 + x i * x h))) * c i * c h) (t * c i)) =
          guard (x i * x i ≠ 0 ∧ ∀ j, 1 + x i * x j ≠ 0) (forR n (fun h aux_f =>
              if i = h then aux_f + ((x h * x h) / ((1 + x h * x h) * (1 + x h * x h))) * c i * (c h - 1)
              else aux_f + ((x h * x h) / ((1 + x i * x h) * (1 + x i * x h))) * c i * c h) (-k i / (x i * x i) * c i)) := by
        refine bind_guard (forE_guard (fun h aux_f => ?_) _)
        split_ifs with h
        · rw [divE_guard, ret_guard, h]; exact guard_congr (msq _) rfl
        · rw [divE_guard, ret_guard]; exact guard_congr (msq _) rfl
      rw [hA, ret_guard]
      exact guard_congr (and_congr_left fun _ => msq _) rfl
    · dsimp only
      rw [divE_guard, ret_guard, ret_guard]; exact guard_congr (msq _) rfl
    · exact some_guard _
  · refine ⟨fun h => ?_, fun h j => ?_⟩
    · have := h i
      rwa [if_pos le_rfl, if_pos rfl] at this
    · split_ifs with h1 h2
      · exact h
      · exact h.2 j

theorem expected_degree_cm_guard : expected_degree_cm x = guard (∀ i j, i ≠ j → 1 + x i * x j ≠ 0) (CM.expected_degree_cm x) := by
  unfold expected_degree_cm CM.expected_degree_cm
  refine (forE_guard (P := fun i => ∀ j, i ≠ j → 1 + x i * x j ≠ 0) (fun i f => ?_) _)
  refine (forE_guard (P := fun j => i ≠ j → 1 + x i * x j ≠ 0) (fun j f => ?_) _)
  dsimp only
  split_ifs with h
  · rw [divE_guard, ret_guard]; exact guard_congr ⟨fun k _ => k, fun k => k h⟩ rfl
  · exact (some_guard _).trans (guard_congr ⟨fun _ k => absurd k h, fun _ => trivial⟩ rfl)

end cm

section ecm
variable (z : ECM.Vec n) (k s : Fin n → ℝ)

/-- the divisors of a pair of nodes -/
def PairECM (i j : Fin n) : Prop := 1 - z (1, i) * z (1, j) + z (0, i) * z (0, j) * (z (1, i) * z (1, j)) ≠ 0 ∧ 1 - z (1, i) * z (1, j) ≠ 0

theorem mul_ne {a b : ℝ} : a * b ≠ 0 ↔ b ≠ 0 ∧ a ≠ 0 := by simp [and_comm]

theorem prime_ecm_guard : loglikelihood_prime_ecm z k s = guard (∀ i, z (0, i) ≠ 0 ∧ z (1, i) ≠ 0 ∧ ∀ j, i ≠ j → PairECM z i j) (ECM.loglikelihood_prime_ecm z k s) := by
  unfold loglikelihood_prime_ecm ECM.loglikelihood_prime_ecm
  refine forE_guard (P := fun i => z (0, i) ≠ 0 ∧ z (1, i) ≠ 0 ∧ ∀ j, i ≠ j → PairECM z i j) (fun i f => ?_) _
  dsimp only
  rw [divE_guard, divE_guard]
  refine bind_guard (bind_guard (forE_guard (P := fun j => i ≠ j → PairECM z i j) (fun j f => ?_) _))
  split_ifs with h
  · rw [divE_guard, divE_guard]
    rw [bind_two]
    refine guard_congr ?_ rfl
    unfold PairECM
    rw [mul_ne]
    tauto
  · exact (some_guard _).trans (guard_congr ⟨fun _ k => absurd k h, fun _ => trivial⟩ rfl)

theorem hessian_diag_ecm_guard : loglikelihood_hessian_diag_ecm z k s = guard (∀ i, z (0, i) ≠ 0 ∧ z (1, i) ≠ 0 ∧ ∀ j, i ≠ j → PairECM z i j)
    (ECM.loglikelihood_hessian_diag_ecm z k s) := by
  unfold loglikelihood_hessian_diag_ecm ECM.loglikelihood_hessian_diag_ecm
  refine (forE_guard (P := fun i => z (0, i) * z (0, i) ≠ 0 ∧ z (1, i) * z (1, i) ≠ 0 ∧ ∀ j, i ≠ j → PairECM z i j) (fun i f => ?_) _).trans
    (guard_congr (forall_congr' fun i => and_congr (msq _) (and_congr_left fun _ => msq _)) rfl)
  dsimp only
  rw [divE_guard, divE_guard]
  refine bind_guard (bind_guard (forE_guard (P := fun j => i ≠ j → PairECM z i j) (fun j f => ?_) _))
  split_ifs with h
  · rw [divE_guard, divE_guard]
    rw [bind_two]
    refine guard_congr ?_ rfl
    unfold PairECM
    rw [mul_ne, psq, psq]
    exact ⟨fun k _ => k.2, fun k => ⟨(k (Ne.symm h)).1, k (Ne.symm h)⟩⟩
  · exact (some_guard _).trans (guard_congr ⟨fun _ k => absurd (Ne.symm k) h, fun _ => trivial⟩ rfl)

theorem iterative_ecm_guard : iterative_ecm z k s = guard (∀ i j, i ≠ j → PairECM z i j) (ECM.iterative_ecm z k s) := by
  unfold iterative_ecm ECM.iterative_ecm
  refine forE_guard (P := fun i => ∀ j, i ≠ j → PairECM z i j) (fun i f => ?_) _
  dsimp only
  rw [forE_guard (P := fun j => i ≠ j → 1 - z (1, i) * z (1, j) + z (0, i) * z (0, j) * (z (1, i) * z (1, j)) ≠ 0) (body := fun j fx =>
      if i ≠ j then fx + (z (0, j) * (z (1, i) * z (1, j))) / (1 - z (1, i) * z (1, j) + z (0, i) * z (0, j) * (z (1, i) * z (1, j))) else fx) fun j fx => ?_,
    forE_guard (P := fun j => i ≠ j → PairECM z i j) (body := fun j fy =>
      if i ≠ j then fy + (z (0, i) * z (0, j) * z (1, j)) / ((1 - z (1, i) * z (1, j)) * (1 - z (1, i) * z (1, j) + z (0, i) * z (0, j) * (z (1, i) * z (1, j)))) else fy) fun j fx => ?_]
  · have hv : ∀ (fx fy : ℝ), (if fx ≠ 0 then do
          let t ← divE (k i) fx
          let f ← pure (setAt f (0, i) t)
          if fy ≠ 0 then do return setAt f (1, i) (← divE (s i) fy) else return setAt f (1, i) 0
        else do
          let f ← pure (setAt f (0, i) 0)
          if fy ≠ 0 then do return setAt f (1, i) (← divE (s i) fy) else return setAt f (1, i) 0 : Option (ECM.Vec n)) =
          pure (if fy ≠ 0 then setAt (if fx ≠ 0 then setAt f (0, i) (k i / fx) else setAt f (0, i) 0) (1, i) (s i / fy) else
            setAt (if fx ≠ 0 then setAt f (0, i) (k i / fx) else setAt f (0, i) 0) (1, i) 0) := by
      intro fx fy
      by_cases h1 : fx = 0 <;> by_cases h2 : fy = 0 <;> simp [h1, h2, divE]
    simp only [hv]
    rw [bind_two]
    exact guard_congr ⟨fun h => h.2, fun h => ⟨fun j hj => (h j hj).1, h⟩⟩ rfl
  · split_ifs with h
    · rw [divE_guard, ret_guard]
      refine guard_congr ?_ rfl
      unfold PairECM
      rw [mul_ne]
      tauto
    · exact (some_guard _).trans (guard_congr ⟨fun _ k => absurd k h, fun _ => trivial⟩ rfl)
  · split_ifs with h
    · rw [divE_guard, ret_guard]
      exact guard_congr ⟨fun k _ => k, fun k => k h⟩ rfl
    · exact (some_guard _).trans (guard_congr ⟨fun _ k => absurd k h, fun _ => trivial⟩ rfl)

theorem hessian_ecm_guard : loglikelihood_hessian_ecm z k s = guard (∀ i, z (0, i) ≠ 0 ∧ z (1, i) ≠ 0 ∧ ∀ j, i ≠ j → PairECM z i j)
    (ECM.loglikelihood_hessian_ecm z k s) := by
  unfold loglikelihood_hessian_ecm ECM.loglikelihood_hessian_ecm
  refine (forE_guard (P := fun i => z (0, i) ≠ 0 ∧ z (1, i) ≠ 0 ∧ ∀ j, i ≠ j → PairECM z i j) (fun i f => ?_) _)
  refine (forE_guard (P := fun j => if i ≤ j then if i = j then z (0, i) ≠ 0 ∧ z (1, i) ≠ 0 ∧ ∀ j, i ≠ j → PairECM z i j else PairECM z i j else True) (fun j f => ?_) _).trans
    (guard_congr ?_ rfl)
  · dsimp only
    split_ifs with h1 h2
    · have e1 : ∀ h (f1 : ℝ), (if h ≠ i then do return f1 + (← divE ((z (0, h) * (z (1, i) * z (1, h))) ^ 2) ((1 - z (1, i) * z (1, h) + z (0, i) * z (0, h) * (z (1, i) * z (1, h))) ^ 2)) else return f1) =
          guard (i ≠ h → 1 - z (1, i) * z (1, h) + z (0, i) * z (0, h) * (z (1, i) * z (1, h)) ≠ 0)
            (if h ≠ i then f1 + ((z (0, h) * (z (1, i) * z (1, h))) ^ 2) / ((1 - z (1, i) * z (1, h) + z (0, i) * z (0, h) * (z (1, i) * z (1, h))) ^ 2) else f1) := fun h f1 => by
        split_ifs with hh
        · rw [divE_guard, ret_guard]
          exact guard_congr (by rw [psq]; exact ⟨fun k _ => k, fun k => k (Ne.symm hh)⟩) rfl
        · exact (some_guard _).trans (guard_congr ⟨fun _ k => absurd (Ne.symm k) hh, fun _ => trivial⟩ rfl)
      have e2 : ∀ h (f2 : ℝ), (if h ≠ i then do return f2 + (← divE (z (0, i) * z (0, h) * z (1, h) * (z (0, i) * z (0, h) * z (1, h) * (1 - 2 * (z (1, i) * z (1, h))) - 2 * z (1, h) * (1 - z (1, i) * z (1, h))))
            ((1 - z (1, i) * z (1, h)) ^ 2 * (1 - z (1, i) * z (1, h) + z (0, i) * z (0, h) * (z (1, i) * z (1, h))) ^ 2)) else return f2) =
          guard (i ≠ h → PairECM z i h)
            (if h ≠ i then f2 + (z (0, i) * z (0, h) * z (1, h) * (z (0, i) * z (0, h) * z (1, h) * (1 - 2 * (z (1, i) * z (1, h))) - 2 * z (1, h) * (1 - z (1, i) * z (1, h)))) /
              ((1 - z (1, i) * z (1, h)) ^ 2 * (1 - z (1, i) * z (1, h) + z (0, i) * z (0, h) * (z (1, i) * z (1, h))) ^ 2) else f2) := fun h f2 => by
        split_ifs with hh
        · rw [divE_guard, ret_guard]
          exact guard_congr (by unfold PairECM; rw [mul_ne, psq, psq]; exact ⟨fun k _ => k, fun k => k (Ne.symm hh)⟩) rfl
        · exact (some_guard _).trans (guard_congr ⟨fun _ k => absurd (Ne.symm k) hh, fun _ => trivial⟩ rfl)
      have e3 : ∀ h (f3 : ℝ), (if h ≠ i then do return f3 - (← divE (z (0, h) * z (1, h)) ((1 - z (1, i) * z (1, h) + z (0, i) * z (0, h) * (z (1, i) * z (1, h))) ^ 2)) else return f3) =
          guard (i ≠ h → 1 - z (1, i) * z (1, h) + z (0, i) * z (0, h) * (z (1, i) * z (1, h)) ≠ 0)
            (if h ≠ i then f3 - (z (0, h) * z (1, h)) / ((1 - z (1, i) * z (1, h) + z (0, i) * z (0, h) * (z (1, i) * z (1, h))) ^ 2) else f3) := fun h f1 => by
        split_ifs with hh
        · rw [divE_guard, ret_guard]
          exact guard_congr (by rw [psq]; exact ⟨fun k _ => k, fun k => k (Ne.symm hh)⟩) rfl
        · exact (some_guard _).trans (guard_congr ⟨fun _ k => absurd (Ne.symm k) hh, fun _ => trivial⟩ rfl)
      simp only [forE_guard e1, forE_guard e2, forE_guard e3]
      simp only [divE_guard]
      rw [bind_five]
      refine guard_congr ?_ rfl
      rw [psq, psq]
      exact ⟨fun ⟨a, _, b, c, _⟩ => ⟨a, b, c⟩, fun ⟨a, b, c⟩ => ⟨a, fun j hj => (c j hj).1, b, c, fun j hj => (c j hj).1⟩⟩
    · simp only [divE_guard]
      rw [bind_four]
      refine guard_congr ?_ rfl
      unfold PairECM
      rw [mul_ne, psq, psq]
      tauto
    · exact some_guard _
  · refine ⟨fun h => ?_, fun h j => ?_⟩
    · have := h i
      rwa [if_pos le_rfl, if_pos rfl] at this
    · split_ifs with h1 h2
      · exact h
      · exact h.2.2 j h2

theorem expected_ecm_guard : expected_ecm z = guard (∀ i j, i ≠ j → PairECM z i j) (ECM.expected_ecm z) := by
  unfold expected_ecm ECM.expected_ecm
  refine forE_guard (P := fun i => ∀ j, i ≠ j → PairECM z i j) (fun i f => ?_) _
  refine forE_guard (P := fun j => i ≠ j → PairECM z i j) (fun j f => ?_) _
  dsimp only
  split_ifs with h
  · rw [divE_guard, divE_guard, bind_two]
    refine guard_congr ?_ rfl
    unfold PairECM
    rw [mul_ne]
    tauto
  · exact (some_guard _).trans (guard_congr ⟨fun _ k => absurd k h, fun _ => trivial⟩ rfl)

end ecm

section dcm
variable (x : DCM.Vec n) (k_out k_in : Fin n → ℝ) (no ni : List (Fin n)) (c : Fin n → ℝ)

/-- the divisors of gradient and Hessians of dcm -/
def SafeDCM : Prop := (∀ i ∈ no, x (0, i) ≠ 0) ∧ (∀ j ∈ ni, x (1, j) ≠ 0) ∧ ∀ i ∈ no, ∀ j ∈ ni, 1 + x (0, i) * x (1, j) ≠ 0

theorem safe_two {A B : Fin n → Prop} {C D : Fin n → Fin n → Prop} (hA : ∀ i, A i ↔ x (0, i) ≠ 0) (hB : ∀ j, B j ↔ x (1, j) ≠ 0)
    (hC : ∀ i j, C i j ↔ 1 + x (0, i) * x (1, j) ≠ 0) (hD : ∀ j i, D j i ↔ 1 + x (0, i) * x (1, j) ≠ 0) :
    ((∀ i ∈ no, A i ∧ ∀ j ∈ ni, C i j) ∧ ∀ j ∈ ni, B j ∧ ∀ i ∈ no, D j i) ↔ SafeDCM x no ni := by
  simp only [hA, hB, hC, hD]
  exact ⟨fun h => ⟨fun i hi => (h.1 i hi).1, fun j hj => (h.2 j hj).1, fun i hi => (h.1 i hi).2⟩,
    fun h => ⟨fun i hi => ⟨h.1 i hi, h.2.2 i hi⟩, fun j hj => ⟨h.2.1 j hj, fun i hi => h.2.2 i hi j hj⟩⟩⟩

theorem safe_swap {A B : Fin n → Prop} {C D : Fin n → Fin n → Prop} (hA : ∀ i, A i ↔ x (0, i) ≠ 0) (hB : ∀ j, B j ↔ x (1, j) ≠ 0)
    (hC : ∀ i j, C i j ↔ 1 + x (0, i) * x (1, j) ≠ 0) (hD : ∀ j i, D j i ↔ 1 + x (0, i) * x (1, j) ≠ 0) :
    ((∀ i ∈ no, (∀ j ∈ ni, C i j) ∧ A i) ∧ ∀ j ∈ ni, (∀ i ∈ no, D j i) ∧ B j) ↔ SafeDCM x no ni := by
  rw [← safe_two x no ni hA hB hC hD]
  simp only [and_comm]

theorem comm_ne (a b : ℝ) : 1 + a * b ≠ 0 ↔ 1 + b * a ≠ 0 := by rw [mul_comm]

theorem iterative_dcm_guard : iterative_dcm x k_out k_in c = guard (∀ i j, 1 + x (0, i) * x (1, j) ≠ 0) (DCM.iterative_dcm x k_out k_in no ni c) := by
  unfold iterative_dcm DCM.iterative_dcm DCM.iterative_den
  have e1 : ∀ i j (f : DCM.Vec n), (if j ≠ i then do return addAt f (0, i) (← divE (c j * x (1, j)) (1 + x (0, i) * x (1, j)))
      else do return addAt f (0, i) (← divE ((c j - 1) * x (1, j)) (1 + x (0, i) * x (1, j)))) = guard (1 + x (0, i) * x (1, j) ≠ 0)
        (if j ≠ i then addAt f (0, i) (c j * x (1, j) / (1 + x (0, i) * x (1, j))) else addAt f (0, i) ((c j - 1) * x (1, j) / (1 + x (0, i) * x (1, j)))) := fun i j f => by
    rw [divE_guard, divE_guard]
    split_ifs <;> exact ret_guard
  have e2 : ∀ j i (f : DCM.Vec n), (if j ≠ i then do return addAt f (1, j) (← divE (c i * x (0, i)) (1 + x (0, i) * x (1, j)))
      else do return addAt f (1, j) (← divE ((c i - 1) * x (0, i)) (1 + x (0, i) * x (1, j)))) = guard (1 + x (0, i) * x (1, j) ≠ 0)
        (if j ≠ i then addAt f (1, j) (c i * x (0, i) / (1 + x (0, i) * x (1, j))) else addAt f (1, j) ((c i - 1) * x (0, i) / (1 + x (0, i) * x (1, j)))) := fun j i f => by
    rw [divE_guard, divE_guard]
    split_ifs <;> exact ret_guard
  have f1 := fun i f => forE_guard (e1 i) f
  have f2 := fun j f => forE_guard (e2 j) f
  dsimp only
  rw [forE_guard f1]
  simp only [forE_guard f2]
  simp only [ret_guard]
  rw [bind_dep (g := fun f v => DCM.concat k_out k_in v / forR n (fun j f => forR n (fun i f =>
    if j ≠ i then addAt f (1, j) (c i * x (0, i) / (1 + x (0, i) * x (1, j)))
    else addAt f (1, j) ((c i - 1) * x (0, i) / (1 + x (0, i) * x (1, j)))) f) f v)]
  exact guard_congr ⟨fun h => h.1, fun h => ⟨h, fun j i => h i j⟩⟩ rfl

theorem prime_dcm_guard : loglikelihood_prime_dcm x k_out k_in no ni c = guard (SafeDCM x no ni) (DCM.loglikelihood_prime_dcm x k_out k_in no ni c) := by
  unfold loglikelihood_prime_dcm DCM.loglikelihood_prime_dcm
  have e1 : ∀ i j (fx : ℝ), (do return fx + (← divE ((if i ≠ j then c i * c j else c i * (c j - 1)) * x (1, j)) (1 + x (0, i) * x (1, j))) : Option ℝ) =
      guard (1 + x (0, i) * x (1, j) ≠ 0) (fx + (if i ≠ j then c i * c j else c i * (c j - 1)) * x (1, j) / (1 + x (0, i) * x (1, j))) := fun i j fx => by
    rw [divE_guard, ret_guard]
  have e2 : ∀ j i (fy : ℝ), (do return fy + (← divE ((if i ≠ j then c i * c j else c i * (c j - 1)) * x (0, i)) (1 + x (1, j) * x (0, i))) : Option ℝ) =
      guard (1 + x (1, j) * x (0, i) ≠ 0) (fy + (if i ≠ j then c i * c j else c i * (c j - 1)) * x (0, i) / (1 + x (1, j) * x (0, i))) := fun j i fx => by
    rw [divE_guard, ret_guard]
  dsimp only
  simp only [forLE_guard ni (e1 _), forLE_guard no (e2 _)]
  simp only [divE_guard, bind_two, forLE_of_guard, bind_dep]
  exact (guard_congr (safe_swap x no ni (fun _ => Iff.rfl) (fun _ => Iff.rfl) (fun _ _ => Iff.rfl) fun j i => comm_ne _ _) rfl)

theorem hessian_diag_dcm_guard : loglikelihood_hessian_diag_dcm x k_out k_in no ni c = guard (SafeDCM x no ni) (DCM.loglikelihood_hessian_diag_dcm x k_out k_in no ni c) := by
  unfold loglikelihood_hessian_diag_dcm DCM.loglikelihood_hessian_diag_dcm
  dsimp only
  simp only [divE_guard, ret_guard, forLE_of_guard, bind_two, bind_dep]
  exact (guard_congr (safe_swap x no ni (fun _ => msq _) (fun _ => msq _) (fun _ _ => msq _) fun j i => (msq _).trans (comm_ne _ _)) rfl)

theorem hessian_dcm_guard : loglikelihood_hessian_dcm x k_out k_in no ni c = guard (SafeDCM x no ni) (DCM.loglikelihood_hessian_dcm x k_out k_in no ni c) := by
  unfold loglikelihood_hessian_dcm DCM.loglikelihood_hessian_dcm
  dsimp only
  simp only [divE_guard, bind_two, forLE_of_guard, bind_dep]
  refine (guard_congr (safe_two x no ni (fun _ => psq _) (fun _ => msq _) (fun _ _ => ?_) fun j i => ?_) rfl)
  · rw [psq, comm_ne (x (1, _))]; exact and_self_iff
  · rw [psq, comm_ne (x (1, _))]; exact and_self_iff

theorem expected_out_guard : expected_out_degree_dcm x =
    guard (∀ i ∈ DCM.nonzero (fun i => x (0, i)), ∀ j ∈ DCM.nonzero (fun i => x (1, i)), i ≠ j → 1 + x (1, j) * x (0, i) ≠ 0) (DCM.expected_out_degree_dcm x) := by
  unfold expected_out_degree_dcm DCM.expected_out_degree_dcm
  refine forLE_guard _ (P := fun i => ∀ j ∈ DCM.nonzero (fun i => x (1, i)), i ≠ j → 1 + x (1, j) * x (0, i) ≠ 0) (fun i f => ?_) _
  refine forLE_guard _ (P := fun j => i ≠ j → 1 + x (1, j) * x (0, i) ≠ 0) (fun j f => ?_) _
  dsimp only
  split_ifs with h
  · rw [divE_guard, ret_guard]; exact guard_congr ⟨fun k _ => k, fun k => k h⟩ rfl
  · exact (some_guard _).trans (guard_congr ⟨fun _ k => absurd k h, fun _ => trivial⟩ rfl)

theorem expected_in_guard : expected_in_degree_dcm x =
    guard (∀ i ∈ DCM.nonzero (fun i => x (1, i)), ∀ j ∈ DCM.nonzero (fun i => x (0, i)), i ≠ j → 1 + x (1, i) * x (0, j) ≠ 0) (DCM.expected_in_degree_dcm x) := by
  unfold expected_in_degree_dcm DCM.expected_in_degree_dcm
  refine forLE_guard _ (P := fun i => ∀ j ∈ DCM.nonzero (fun i => x (0, i)), i ≠ j → 1 + x (1, i) * x (0, j) ≠ 0) (fun i f => ?_) _
  refine forLE_guard _ (P := fun j => i ≠ j → 1 + x (1, i) * x (0, j) ≠ 0) (fun j f => ?_) _
  dsimp only
  split_ifs with h
  · rw [divE_guard, ret_guard]; exact guard_congr ⟨fun k _ => k, fun k => k h⟩ rfl
  · exact (some_guard _).trans (guard_congr ⟨fun _ k => absurd k h, fun _ => trivial⟩ rfl)

end dcm

/-! ### the solver -/

variable {ι : Type} [Fintype ι] [DecidableEq ι] [Nonempty ι]

/-- at the point `x` none of the callbacks used by the method raises -/
def SafeAt (C : Callbacks ι) (K : Check ι) (m : String) (x : ι → ℝ) : Prop :=
  K.fn x = some (C.fn x) ∧ (m = "newton" → K.jac x = some (C.jac x)) ∧ (m = "quasinewton" → K.jacDiag x = some (C.jacDiag x))

theorem directionE_eq {C : Callbacks ι} {K : Check ι} {o : Opts} {x : ι → ℝ} (h : SafeAt C K o.method x) (f : ι → ℝ) :
    directionE C K o x f = lift (direction C o x f) := by
  obtain ⟨h1, h2, h3⟩ := h
  unfold directionE direction
  by_cases a : o.method = "newton"
  · rw [if_pos a, if_pos a, h2 a]
    split_ifs
    · rw [h1]; rfl
    · rfl
  · rw [if_neg a, if_neg a]
    by_cases b : o.method = "quasinewton"
    · rw [if_pos b, if_pos b, h3 b]
      by_cases c : o.regularise = true
      · simp only [if_pos c]
        rw [h1]
        show (if _ then _ else _) = lift (if _ then _ else _)
        split_ifs <;> rfl
      · simp only [if_neg c]
        show (if _ then _ else _) = lift (if _ then _ else _)
        split_ifs <;> rfl
    · rw [if_neg b, if_neg b]
      split_ifs <;> rfl

/-- a run through points where nothing raises is the run of `Model/Solver` -/
theorem solverE_eq' {C : Callbacks ι} {K : Check ι} {o : Opts} (P : (ι → ℝ) → Prop) (hP : ∀ x, P x → SafeAt C K o.method x)
    (hstep : ∀ s : State ι, ∀ dx alfa, P s.x → s.f = C.fn s.x → s.norm = norm2 s.f → o.tol < s.norm → direction C o s.x s.f = .ok dx → stepLength C o s dx = .ok alfa →
      P (s.x + alfa • dx)) {x0 : ι → ℝ} (h0 : P x0) : solverE C K o x0 = lift (solver C o x0) := by
  have key : ∀ k (s : State ι), P s.x → s.f = C.fn s.x → s.norm = norm2 s.f → loopE C K o k s = lift (loop C o k s) := by
    intro k
    induction k with
    | zero => exact fun s _ _ _ => rfl
    | succ k ih =>
      intro s hs hf hn
      unfold loopE loop
      split_ifs with hc
      · unfold stepE step
        rw [directionE_eq (hP _ hs)]
        cases hd : direction C o s.x s.f with
        | error e => rfl
        | ok dx =>
          show ((lift (stepLength C o s dx) >>= _) >>= _) = _
          dsimp only
          cases ha : stepLength C o s dx with
          | error e => rfl
          | ok alfa =>
            have hx := hstep s dx alfa hs hf hn hc.1 hd ha
            show ((get (K.fn (s.x + alfa • dx)) >>= _) >>= _) = _
            rw [(hP _ hx).1]
            exact ih _ hx rfl rfl
      · rfl
  unfold solverE solver
  rw [(hP _ h0).1]
  exact key _ _ h0 rfl rfl

theorem solverE_eq {C : Callbacks ι} {K : Check ι} {o : Opts} (P : (ι → ℝ) → Prop) (hP : ∀ x, P x → SafeAt C K o.method x)
    (hstep : ∀ s : State ι, ∀ dx alfa, P s.x → s.f = C.fn s.x → direction C o s.x s.f = .ok dx → stepLength C o s dx = .ok alfa → P (s.x + alfa • dx))
    {x0 : ι → ℝ} (h0 : P x0) : solverE C K o x0 = lift (solver C o x0) :=
  solverE_eq' P hP (fun s dx alfa hs hf _ _ => hstep s dx alfa hs hf) h0

/-- the same for a run that has ended with all its step lengths above `c`, if such steps stay where nothing raises -/
theorem solverE_eq_alfa {C : Callbacks ι} {K : Check ι} {o : Opts} (hl : o.linsearch = true) (c : ℝ) (P : (ι → ℝ) → Prop) (hP : ∀ x, P x → SafeAt C K o.method x)
    (hstep : ∀ s : State ι, ∀ dx alfa, P s.x → s.f = C.fn s.x → direction C o s.x s.f = .ok dx → stepLength C o s dx = .ok alfa → c < alfa → P (s.x + alfa • dx))
    {x0 : ι → ℝ} (h0 : P x0) {r : State ι} (hr : solver C o x0 = .ok r) (ha : ∀ a ∈ r.alfa_seq, c < a) : solverE C K o x0 = .ok r := by
  have mono : ∀ k (s r : State ι), loop C o k s = .ok r → ∀ a ∈ s.alfa_seq, a ∈ r.alfa_seq := by
    intro k
    induction k with
    | zero => intro s r h a; simp only [loop, Except.ok.injEq] at h; subst h; exact id
    | succ k ih =>
      intro s r h a hs
      rw [loop] at h
      split_ifs at h with hc
      · cases h' : step C o s with
        | error e => rw [h'] at h; cases h
        | ok s' =>
          rw [h'] at h
          refine ih s' r h a ?_
          obtain ⟨dx, alfa, -, -, rfl⟩ := step_ok h'
          simp only [hl, if_true]
          exact List.mem_append_left _ hs
      · cases h; exact hs
  have key : ∀ k (s : State ι), P s.x → s.f = C.fn s.x → loop C o k s = .ok r → loopE C K o k s = .ok r := by
    intro k
    induction k with
    | zero => intro s _ _ h; simp only [loop, Except.ok.injEq] at h; subst h; rfl
    | succ k ih =>
      intro s hs hf h
      rw [loop] at h
      unfold loopE
      split_ifs at h ⊢ with hc
      · cases hd : direction C o s.x s.f with
        | error e => simp only [step, hd] at h; cases h
        | ok dx =>
          cases ha' : stepLength C o s dx with
          | error e => simp only [step, hd, ha'] at h; cases h
          | ok alfa =>
            have hlong : c < alfa := by
              refine ha alfa (mono k _ r (by simpa only [step, hd, ha'] using h) alfa ?_)
              simp [hl]
            have hx := hstep s dx alfa hs hf hd ha' hlong
            unfold stepE
            rw [directionE_eq (hP _ hs), hd]
            show ((lift (stepLength C o s dx) >>= _) >>= _) = _
            rw [ha']
            show ((get (K.fn (s.x + alfa • dx)) >>= _) >>= _) = _
            rw [(hP _ hx).1]
            refine ih _ hx rfl ?_
            simpa only [step, hd, ha'] using h
      · cases h; rfl
  unfold solverE
  rw [(hP _ h0).1]
  exact key _ _ h0 rfl hr

/-- a raising first evaluation -/
theorem solverE_raises {C : Callbacks ι} {K : Check ι} {o : Opts} {x0 : ι → ℝ} (h : K.fn x0 = none) : solverE C K o x0 = .error .zeroDivision := by
  unfold solverE
  rw [h]
  rfl

end

end Verif.Checked
