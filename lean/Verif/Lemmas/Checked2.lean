import Verif.Lemmas.Checked
import Verif.Model.Checked2

/-! Where the checked functions of `Model/Checked2` raise, and that otherwise they are the functions of `Model/CReMa`. -/

set_option linter.unusedSectionVars false
set_option linter.unusedSimpArgs false

namespace Verif.Checked

open Verif Finset Verif.Solver Verif.Solve Verif.CReMa Verif.DCReMa

noncomputable section

open Classical in
attribute [local instance 0] propDecidable

variable {n : ℕ}

section undirected
variable (β s : Fin n → ℝ) (adj : Edges n)

/-- no link has both rates opposite -/
def SumsU : Prop := ∀ t ∈ adj, β t.1 + β t.2.1 ≠ 0

theorem prime_crema_guard : loglikelihood_prime_crema_undirected β s adj = guard (SumsU β adj) (CReMa.loglikelihood_prime_crema_undirected β s adj) := by
  unfold loglikelihood_prime_crema_undirected CReMa.loglikelihood_prime_crema_undirected
  dsimp only
  refine forLE_guard adj (fun e f => ?_) _
  rw [divE_guard, bind_two]
  exact guard_congr and_self_iff rfl

theorem hessian_crema_guard : loglikelihood_hessian_crema_undirected β adj = guard (SumsU β adj) (CReMa.loglikelihood_hessian_crema_undirected β adj) := by
  unfold loglikelihood_hessian_crema_undirected CReMa.loglikelihood_hessian_crema_undirected
  dsimp only
  refine forLE_guard adj (fun e f => ?_) _
  rw [divE_guard, ret_guard]
  exact guard_congr (psq _) rfl

theorem hessian_diag_crema_guard : loglikelihood_hessian_diag_crema_undirected β adj = guard (SumsU β adj) (CReMa.loglikelihood_hessian_diag_crema_undirected β adj) := by
  unfold loglikelihood_hessian_diag_crema_undirected CReMa.loglikelihood_hessian_diag_crema_undirected
  dsimp only
  refine forLE_guard adj (fun e f => ?_) _
  rw [divE_guard, ret_guard]
  exact guard_congr (psq _) rfl

theorem expected_crema_guard : expected_strength_crema_undirected β adj = guard (SumsU β adj) (CReMa.expected_strength_crema_undirected β adj) := by
  unfold expected_strength_crema_undirected CReMa.expected_strength_crema_undirected
  dsimp only
  refine forLE_guard adj (fun e f => ?_) _
  rw [divE_guard, ret_guard]

theorem ratio {a b : ℝ} (ha : a ≠ 0) : 1 + b / a ≠ 0 ↔ a + b ≠ 0 := by
  rw [show 1 + b / a = (a + b) / a by field_simp]
  simp [ha]

/-- no link has a rate 0 or opposite rates -/
def RatesU : Prop := ∀ t ∈ adj, β t.1 ≠ 0 ∧ β t.2.1 ≠ 0 ∧ β t.1 + β t.2.1 ≠ 0

theorem iterative_crema_guard : iterative_crema_undirected β s adj = guard (RatesU β adj) (CReMa.iterative_crema_undirected β s adj) := by
  unfold iterative_crema_undirected CReMa.iterative_crema_undirected
  dsimp only
  have e1 : ∀ f : Fin n → ℝ, forE n (fun i f => if s i ≠ 0 then do return setAt f i (← divE (f i) (s i)) else return f) f =
      guard True (forR n (fun i f => if s i ≠ 0 then setAt f i (f i / s i) else f) f) := fun f => by
    refine (forE_guard (P := fun _ => True) (fun i f => ?_) f).trans (guard_congr (by simp) rfl)
    split_ifs with h
    · rw [divE_guard, ret_guard]; exact guard_congr ⟨fun _ => trivial, fun _ => h⟩ rfl
    · exact some_guard _
  rw [forLE_guard adj (P := fun t => β t.1 ≠ 0 ∧ β t.2.1 ≠ 0 ∧ β t.1 + β t.2.1 ≠ 0)
    (body := fun e f => subAt (subAt f e.1 (e.2.2 / (1 + (β e.2.1 / β e.1)))) e.2.1 (e.2.2 / (1 + (β e.1 / β e.2.1)))) (fun e f => ?_)]
  · exact (bind_guard (e1 _)).trans (guard_congr (and_iff_left trivial) rfl)
  · simp only [divE_guard]
    refine Eq.trans (bind_guard (bind_guard (bind_guard ret_guard))) (guard_congr ?_ rfl)
    constructor
    · rintro ⟨h1, h2, h3, h4⟩
      exact ⟨h1, h3, (ratio h1).1 h2⟩
    · rintro ⟨h1, h2, h3⟩
      exact ⟨h1, (ratio h1).2 h3, h2, (ratio h2).2 (by rwa [add_comm])⟩

end undirected

section directed
variable (β : Fin 2 × Fin n → ℝ) (s_out s_in : Fin n → ℝ) (adj : Edges n) (no ni : List (Fin n))

def SumsD : Prop := ∀ t ∈ adj, β (0, t.1) + β (1, t.2.1) ≠ 0

theorem prime_dcrema_guard : loglikelihood_prime_crema_directed β s_out s_in adj no ni = guard (SumsD β adj) (DCReMa.loglikelihood_prime_crema_directed β s_out s_in adj no ni) := by
  unfold loglikelihood_prime_crema_directed DCReMa.loglikelihood_prime_crema_directed
  dsimp only
  rw [forLE_guard adj (P := fun t => β (0, t.1) + β (1, t.2.1) ≠ 0) (body := fun e st => (addAt st.1 e.1 (e.2.2 / (β (0, e.1) + β (1, e.2.1))),
    addAt st.2 e.2.1 (e.2.2 / (β (0, e.1) + β (1, e.2.1))))) (fun e f => ?_), ret_guard]
  · rfl
  · rw [divE_guard, bind_two]
    exact guard_congr and_self_iff rfl

theorem hessian_dcrema_guard : loglikelihood_hessian_crema_directed β adj = guard (SumsD β adj) (DCReMa.loglikelihood_hessian_crema_directed β adj) := by
  unfold loglikelihood_hessian_crema_directed DCReMa.loglikelihood_hessian_crema_directed
  dsimp only
  refine forLE_guard adj (fun e f => ?_) _
  rw [divE_guard, ret_guard]
  exact guard_congr (psq _) rfl

theorem hessian_diag_dcrema_guard : loglikelihood_hessian_diag_crema_directed β adj = guard (SumsD β adj) (DCReMa.loglikelihood_hessian_diag_crema_directed β adj) := by
  unfold loglikelihood_hessian_diag_crema_directed DCReMa.loglikelihood_hessian_diag_crema_directed
  dsimp only
  refine forLE_guard adj (fun e f => ?_) _
  rw [divE_guard, bind_two]
  exact guard_congr (and_self_iff.trans (psq _)) rfl

theorem expected_out_dcrema_guard : expected_out_strength_crema_directed β adj = guard (SumsD β adj) (DCReMa.expected_out_strength_crema_directed β adj) := by
  unfold expected_out_strength_crema_directed DCReMa.expected_out_strength_crema_directed
  dsimp only
  refine forLE_guard adj (fun e f => ?_) _
  rw [divE_guard, ret_guard]

theorem expected_in_dcrema_guard : expected_in_strength_crema_directed β adj = guard (SumsD β adj) (DCReMa.expected_in_strength_crema_directed β adj) := by
  unfold expected_in_strength_crema_directed DCReMa.expected_in_strength_crema_directed
  dsimp only
  refine forLE_guard adj (fun e f => ?_) _
  rw [divE_guard, ret_guard]

def RatesD : Prop := ∀ t ∈ adj, β (0, t.1) ≠ 0 ∧ β (1, t.2.1) ≠ 0 ∧ β (0, t.1) + β (1, t.2.1) ≠ 0

theorem iterative_dcrema_guard (ho : ∀ i ∈ no, s_out i ≠ 0) (hi : ∀ i ∈ ni, s_in i ≠ 0) :
    iterative_crema_directed β s_out s_in adj no ni = guard (RatesD β adj) (DCReMa.iterative_crema_directed β s_out s_in adj no ni) := by
  unfold iterative_crema_directed DCReMa.iterative_crema_directed
  dsimp only
  rw [forLE_guard adj (P := fun t => β (0, t.1) ≠ 0 ∧ β (1, t.2.1) ≠ 0 ∧ β (0, t.1) + β (1, t.2.1) ≠ 0)
    (body := fun e st => (subAt st.1 e.1 (e.2.2 / (1 + (β (1, e.2.1) / β (0, e.1)))), subAt st.2 e.2.1 (e.2.2 / (1 + (β (0, e.1) / β (1, e.2.1)))))) (fun e f => ?_)]
  · simp only [divE_guard, ret_guard, forLE_of_guard]
    exact Eq.trans (bind_guard (bind_dep)) (guard_congr ⟨fun h => h.1, fun h => ⟨h, ho, hi⟩⟩ rfl)
  · simp only [divE_guard]
    refine Eq.trans (bind_guard (bind_guard (bind_guard ret_guard))) (guard_congr ?_ rfl)
    constructor
    · rintro ⟨h1, h2, h3, h4⟩
      exact ⟨h1, h3, (ratio h1).1 h2⟩
    · rintro ⟨h1, h2, h3⟩
      exact ⟨h1, (ratio h1).2 h3, h2, (ratio h2).2 (by rwa [add_comm])⟩

end directed

end

end Verif.Checked
