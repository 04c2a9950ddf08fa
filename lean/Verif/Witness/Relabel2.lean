import Verif.Props.Relabel3
import Verif.Witness.Solve

/-! Non-vacuity of C56 for ecm, ecm_exp and crema. -/

namespace Verif.Wit
open Verif Verif.Solver Verif.Solve

noncomputable section

/-- a path with centre 1, weights 1 and 2 -/
def pathU : UData 3 := ⟨![1, 2, 1], ![1, 3, 2]⟩
/-- the same with the names 1 and 2 exchanged -/
def pathU' : UData 3 := ⟨![1, 1, 2], ![1, 2, 3]⟩

def pathA : Fin 3 → Fin 3 → ℝ := ![![0, 1, 0], ![1, 0, 1], ![0, 1, 0]]
def pathA' : Fin 3 → Fin 3 → ℝ := ![![0, 0, 1], ![0, 0, 1], ![1, 1, 0]]

theorem pathU_deg : pathU'.dseq = pathU.dseq ∘ (Equiv.swap 1 2 : Equiv.Perm (Fin 3)) := by
  funext i; fin_cases i <;> decide
theorem pathU_str : pathU'.strength_sequence = pathU.strength_sequence ∘ (Equiv.swap 1 2 : Equiv.Perm (Fin 3)) := by
  funext i
  fin_cases i
  · show (![1, 2, 3] : Fin 3 → ℝ) 0 = (![1, 3, 2] : Fin 3 → ℝ) (Equiv.swap (1 : Fin 3) 2 0)
    rw [show Equiv.swap (1 : Fin 3) 2 0 = 0 from by decide]; rfl
  · show (![1, 2, 3] : Fin 3 → ℝ) 1 = (![1, 3, 2] : Fin 3 → ℝ) (Equiv.swap (1 : Fin 3) 2 1)
    rw [show Equiv.swap (1 : Fin 3) 2 1 = 2 from by decide]; rfl
  · show (![1, 2, 3] : Fin 3 → ℝ) 2 = (![1, 3, 2] : Fin 3 → ℝ) (Equiv.swap (1 : Fin 3) 2 2)
    rw [show Equiv.swap (1 : Fin 3) 2 2 = 1 from by decide]; rfl

theorem pathU_links (i j : Fin 3) : pathA' i j = pathA (Equiv.swap (1 : Fin 3) 2 i) (Equiv.swap (1 : Fin 3) 2 j) := by
  have h0 : Equiv.swap (1 : Fin 3) 2 0 = 0 := by decide
  have h1 : Equiv.swap (1 : Fin 3) 2 1 = 2 := by decide
  have h2 : Equiv.swap (1 : Fin 3) 2 2 = 1 := by decide
  fin_cases i <;> fin_cases j <;> simp [h0, h1, h2, pathA, pathA']

theorem e0_outside_perm : ∀ (ι : Type) (τ : Equiv.Perm ι) x, e0.outside ι (x ∘ τ) = e0.outside ι x := fun _ _ _ => by rw [e0_outside, e0_outside]

/-- C56 for ecm with the default line search, the guess an array of two blocks -/
example := C56_ecm_relabel e0_valid e0_outside_perm pathU_deg pathU_str .ecm (.inl rfl) "newton" (.pairs fun v => v.2.val + 1) (by simp) .other "" .other {}

/-- C56 for ecm_exp, a named guess -/
example := C56_ecm_relabel e0_valid e0_outside_perm pathU_deg pathU_str .ecm_exp (.inr rfl) "fixed-point" (.name "strengths") (by simp) .other "" .other { linsearch := false }

/-- C56 for crema on the path -/
example := C56_crema_relabel e0_outside_perm pathU_deg pathU_str (a := pathA) (a' := pathA')
  (fun i j => by fin_cases i <;> fin_cases j <;> rfl) (fun i => by fin_cases i <;> rfl) pathU_links .newton (.name "strengths") (by simp) "" .other {}

/-- C56 for crema on the link probabilities of cm, whose guess is random -/
example := C56_crema_binary_relabel e0_outside_perm pathU_deg pathU_str .cm (.inl rfl) .newton (.name "strengths") (by simp) "newton" "random" {}

end

end Verif.Wit
