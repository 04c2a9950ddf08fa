import Verif.Props.SparseGiven2
import Verif.Witness.SparseGiven

/-! Cases for `Props/SparseGiven2`: the links of the triangle are (0, 1), (0, 2), (1, 2), the arcs of the ring (0, 1), (1, 2), (2, 0). -/

namespace Verif.Wit

open Verif Verif.Solve Verif.Solver

noncomputable section

theorem triA_enum : Enumerates ![(0, 1), (0, 2), (1, 2)] {z : Fin 3 × Fin 3 | z.1 ≤ z.2 ∧ triA z.1 z.2 ≠ 0} := by
  constructor
  · intro i j
    revert i j
    decide
  · have : {z : Fin 3 × Fin 3 | z.1 ≤ z.2 ∧ triA z.1 z.2 ≠ 0} = {z | z.1 ≤ z.2 ∧ z.1 ≠ z.2} := by
      ext z; simp [triA]
    rw [this]
    ext z
    simp only [Set.mem_range, Set.mem_setOf_eq]
    revert z
    decide

theorem ringD_enum : Enumerates ![(0, 1), (1, 2), (2, 0)] {z : Fin 3 × Fin 3 | ringD z.1 z.2 ≠ 0} := by
  constructor
  · intro i j
    revert i j
    decide
  · have : {z : Fin 3 × Fin 3 | ringD z.1 z.2 ≠ 0} = {z | z.2 = z.1 + 1} := by
      ext z; simp [ringD]
    rw [this]
    ext z
    simp only [Set.mem_range, Set.mem_setOf_eq]
    revert z
    decide

example := C36_sparse_given_problem e0 e0_valid (d := tri) {} .newton (.nodes fun _ => 1) triA (fun i j => by simp [triA, eq_comm]) (fun i => by simp [triA]) triA_enum "" .other noSteps rfl
example := C36_dsparse_given_problem e0 e0_valid (d := triD) {} rfl .newton (by decide) (.pairs fun _ => 1) ringD ringD_enum "" .other noSteps rfl

end
end Verif.Wit
