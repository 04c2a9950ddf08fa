import Verif.Props.Reverse4
import Verif.Witness.Relabel3

/-! Non-vacuity of C73: the path 0 → 1 → 2 and its reverse 2 → 1 → 0, and two nodes joined by two arcs. -/

namespace Verif.Wit
open Verif Verif.Solver Verif.Solve

noncomputable section

/-- the path of `pathD` with every arc reversed: 2 → 1 → 0 with weights 3 and 2 -/
def pathR : DData 3 := ⟨![0, 1, 1], ![1, 1, 0], ![0, 2, 3], ![2, 3, 0], true⟩

theorem pathR_reversed : ReversedData pathD pathR := ⟨rfl, rfl, rfl, rfl, rfl, by simp [pathD, Fin.sum_univ_three]⟩

def arcsR : Fin 3 → Fin 3 → ℝ := ![![0, 0, 0], ![1, 0, 0], ![0, 1, 0]]

theorem arcsR_transposed (i j : Fin 3) : arcsR i j = arcsD j i := by fin_cases i <;> fin_cases j <;> rfl

/-- the reverse really is another network -/
example : pathR.dseq_out ≠ pathD.dseq_out := by
  intro h
  have := congrFun h 0
  simp [pathR, pathD] at this

/-- C73 for decm, the guess an array of four blocks -/
example := C73_decm_reverse_partial pathR_reversed e0_valid e0_outside_perm .decm (.inl rfl) "newton" (by simp) (by simp) (.quads fun v => (v.1.val + v.2.val + 1) / 10) (by simp) .other "" .other {}

/-- C73 for decm by quasinewton: a node without strength has no links -/
example := C73_decm_reverse_partial pathR_reversed e0_valid e0_outside_perm .decm (.inl rfl) "quasinewton" (by simp)
  (by intro _ _ i; fin_cases i <;> simp [pathD]) (.name "strengths") (by simp) .other "" .other {}

/-- C73 for decm_exp -/
example := C73_decm_reverse_partial pathR_reversed e0_valid e0_outside_perm .decm_exp (.inr rfl) "quasinewton" (by simp) (by simp) (.name "strengths_minor") (by simp) .other "" .other {}

/-- a network with equal sides keeps them equal -/
example := C73_decm_symmetric_partial (d := twoWay) e0_valid e0_outside_perm rfl rfl .decm (.inl rfl) "fixed-point" (by simp) (by simp) (.name "strengths") (by simp) (by simp) (by simp)
  .other "" .other {}

/-- the witness that the fixed-point method of decm_exp does not treat the sides alike -/
example := C73_decm_exp_fixed_point_fails e0

/-- C73 for the directed crema on the path -/
example := C73_dcrema_reverse pathR_reversed arcsR_transposed e0_outside_perm .quasinewton (.name "strengths") (by simp) "" .other {}

/-- C73 for dcm by name -/
example := C73_dcm_reverse e0_valid e0_outside_perm pathR_reversed .dcm (.inl rfl) "newton" "degrees" (by simp) .other "" .other {}

/-- C73 for dcm_exp by array -/
example := C73_dcm_reverse_array e0_valid e0_outside_perm pathR_reversed .dcm_exp (.inr rfl) "quasinewton" (fun v => (v.1.val + v.2.val + 1) / 10)
  (by intro b i j h1 h2; fin_cases i <;> fin_cases j <;> simp_all [pathD]) .other "" .other {}

/-- C73 for the directed crema on the link probabilities of dcm -/
example := C73_dcrema_binary_reverse pathR_reversed e0_valid e0_outside_perm .dcm (.inl rfl) .newton (.name "strengths_minor") (by simp) "newton" "degrees" (by simp) { full_return := true }

end

end Verif.Wit
