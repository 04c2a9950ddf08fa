import Verif.Props.Relabel5
import Verif.Witness.Relabel2

/-! Non-vacuity of C56 for decm, decm_exp and the directed crema. -/

namespace Verif.Wit
open Verif Verif.Solver Verif.Solve

noncomputable section

/-- the path 0 → 1 → 2 with weights 2 and 3 -/
def pathD : DData 3 := ⟨![1, 1, 0], ![0, 1, 1], ![2, 3, 0], ![0, 2, 3], true⟩
/-- the same with the names 1 and 2 exchanged: 0 → 2 → 1 -/
def pathD' : DData 3 := ⟨![1, 0, 1], ![0, 1, 1], ![2, 0, 3], ![0, 3, 2], true⟩

def arcsD : Fin 3 → Fin 3 → ℝ := ![![0, 1, 0], ![0, 0, 1], ![0, 0, 0]]
def arcsD' : Fin 3 → Fin 3 → ℝ := ![![0, 0, 1], ![0, 0, 0], ![0, 1, 0]]

theorem swap12_comp {α : Type} (a b c : α) : (![a, b, c] : Fin 3 → α) ∘ (Equiv.swap 1 2 : Equiv.Perm (Fin 3)) = ![a, c, b] := by
  have h0 : Equiv.swap (1 : Fin 3) 2 0 = 0 := by decide
  have h1 : Equiv.swap (1 : Fin 3) 2 1 = 2 := by decide
  have h2 : Equiv.swap (1 : Fin 3) 2 2 = 1 := by decide
  funext i
  fin_cases i <;> simp [h0, h1, h2]

theorem pathD_renamed : RenamedData (Equiv.swap 1 2 : Equiv.Perm (Fin 3)) pathD pathD' :=
  ⟨(swap12_comp _ _ _).symm, (swap12_comp _ _ _).symm, (swap12_comp _ _ _).symm, (swap12_comp _ _ _).symm, rfl⟩

theorem arcsD_renamed (i j : Fin 3) : arcsD' i j = arcsD (Equiv.swap (1 : Fin 3) 2 i) (Equiv.swap (1 : Fin 3) 2 j) := by
  have h0 : Equiv.swap (1 : Fin 3) 2 0 = 0 := by decide
  have h1 : Equiv.swap (1 : Fin 3) 2 1 = 2 := by decide
  have h2 : Equiv.swap (1 : Fin 3) 2 2 = 1 := by decide
  fin_cases i <;> fin_cases j <;> simp [h0, h1, h2, arcsD, arcsD']

/-- C56 for decm, the guess an array of four blocks -/
example := C56_decm_relabel pathD_renamed e0_valid e0_outside_perm .decm (.inl rfl) "newton" (.quads fun v => (v.2.val + 1) / 10) (by simp) .other "" .other {}

/-- C56 for decm_exp, a named guess -/
example := C56_decm_relabel pathD_renamed e0_valid e0_outside_perm .decm_exp (.inr rfl) "fixed-point" (.name "strengths") (by simp) .other "" .other { linsearch := false }

/-- C56 for the directed crema on the path -/
example := C56_dcrema_relabel pathD_renamed arcsD_renamed e0_outside_perm .quasinewton (.name "strengths") (by simp) "" .other {}

/-- C56 for the directed crema on the link probabilities of dcm, whose guess is random -/
example := C56_dcrema_binary_relabel pathD_renamed e0_outside_perm .dcm (.inl rfl) .newton (.name "strengths_minor") (by simp) "newton" "random" { full_return := true }

end

end Verif.Wit
