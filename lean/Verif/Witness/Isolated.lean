import Verif.Props.Isolated2
import Verif.Witness.Symmetric

/-! Non-vacuity of C77: a path and a directed path, each with an isolated node before the others and one after. -/

namespace Verif.Wit
open Verif Verif.Solver Verif.Solve Verif.Spec

noncomputable section

/-- the path on three nodes -/
def line3 : UData 3 := ⟨![1, 2, 1], ![0, 0, 0]⟩
/-- the same path between two isolated nodes -/
def line5 : UData 5 := ⟨![0, 1, 2, 1, 0], ![0, 0, 0, 0, 0]⟩
/-- the arcs 0 → 1 → 2 and 0 → 2 -/
def arcs3 : DData 3 := ⟨![2, 1, 0], ![0, 1, 2], fun _ => 0, fun _ => 0, false⟩
def arcs5 : DData 5 := ⟨![0, 2, 1, 0, 0], ![0, 0, 1, 2, 0], fun _ => 0, fun _ => 0, false⟩
def shift : Fin 3 → Fin 5 := ![1, 2, 3]

theorem shift_mono : StrictMono shift := by intro i j; fin_cases i <;> fin_cases j <;> simp [shift]

theorem line_padded : Padded shift line3 line5 where
  inj := shift_mono.injective
  same i := by fin_cases i <;> rfl
  isolated j hj := by
    fin_cases j
    · rfl
    · exact absurd rfl (hj 0)
    · exact absurd rfl (hj 1)
    · exact absurd rfl (hj 2)
    · rfl

theorem arcs_padded : PaddedD shift arcs3 arcs5 where
  inj := shift_mono.injective
  out i := by fin_cases i <;> rfl
  inn i := by fin_cases i <;> rfl
  isolated j hj := by
    fin_cases j
    · exact ⟨rfl, rfl⟩
    · exact absurd rfl (hj 0)
    · exact absurd rfl (hj 1)
    · exact absurd rfl (hj 2)
    · exact ⟨rfl, rfl⟩

example := C77_cm e0 e0 line_padded (.name "degrees_minor" (by decide)) .other .other "" "" .other .other p0
example := C77_cm e0 e0 line_padded (.nodes ![1, 2, 3] ![7, 1, 2, 3, 8] shift_mono (by intro i; fin_cases i <;> rfl)) .other .other "" "" .other .other p0
example := C77_dcm e0 e0 arcs_padded (.name "degrees" (by decide)) .other .other "" "" .other .other p0
example := C77_dcm e0 e0 arcs_padded (.pairs (fun v => v.1 + v.2) (fun v => v.1 + v.2 - 1) shift_mono (by
  intro b i
  fin_cases i <;> simp [shift] <;> ring)) .other .other "" "" .other .other p0

end

end Verif.Wit
