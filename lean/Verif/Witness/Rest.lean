import Verif.Witness.Solve
import Verif.Props.Order
import Verif.Props.Memory
import Verif.Props.Relabel
import Verif.Props.Existence
import Verif.Props.Sampler
import Verif.Props.LineSearch

/-! Instances of the theorems about the order of the unknowns, the memory of a graph object, the labels and existence
(C24, C56, C58-C60, C66). -/

namespace Verif.Wit

open Spec Finset Solve

noncomputable section

/-! ### order of the unknowns -/

def path : UData 3 := ⟨![1, 2, 1], ![7 / 5, 32 / 15, 7 / 5]⟩
theorem path_ne (i : Fin 3) : path.dseq i ≠ 0 := by revert i; decide
theorem path_str (i : Fin 3) : path.strength_sequence i ≠ 0 := by fin_cases i <;> simp [path]
def path4 : UData 4 := ⟨![2, 2, 1, 1], fun _ => 1⟩
def A4 : Fin 4 → Fin 4 → Bool := fun i j => decide ((i, j) ∈ [((0 : Fin 4), (1 : Fin 4)), (1, 0), (0, 2), (2, 0), (1, 3), (3, 1)])
def dpath : DData 3 := ⟨![1, 2, 1], ![1, 2, 1], fun _ => 1, fun _ => 1, true⟩
def arcs4 : DData 4 := ⟨![2, 0, 1, 0], ![1, 1, 0, 1], fun _ => 1, fun _ => 1, true⟩
def B4 : Fin 4 → Fin 4 → Bool := fun i j => decide ((i, j) ∈ [((0 : Fin 4), (1 : Fin 4)), (0, 3), (2, 0)])

example := C59_cm e0 (d := path) {} .cm (.inl rfl) "newton" (.nodes ![1 / 2, 10, 1 / 2]) .other "" .other { max_steps := 0 }
example := C59_cm_named e0 (d := path) e0_valid e0_draws path_ne {} "newton" "degrees" .other "" .other {} rfl
example := C59_ecm e0 (d := path) {} .ecm (.inl rfl) path_ne path_str "newton" (.pairs fun v => if v.1 = 0 then ![1, 12, 1] v.2 else 1 / 2) .other "" .other { max_steps := 0 }
example := C60_cm e0 (d := path) (by norm_num) {} .cm (.inl rfl) "newton" (.nodes ![1 / 2, 10, 1 / 2]) .other "" .other { max_steps := 0 } 1 (by decide)
example := C60_cm_core e0 (d := path4) A4 (by decide) (by decide) (by decide) {0, 1} {2, 3} (by decide) (by decide) (by decide) {} .cm (.inl rfl) "newton" .other .other "" .other {}
example := C59_dcm e0 (d := dpath) {} .dcm (.inl rfl) "newton" (.pairs fun v => ![1 / 2, 10, 1 / 2] v.2) .other "" .other { max_steps := 0 }
example := C60_dcm e0 (d := dpath) (by norm_num) {} .dcm (.inl rfl) "newton" (.pairs fun v => ![1 / 2, 10, 1 / 2] v.2) .other "" .other { max_steps := 0 } 1 (.inl (by decide))
example := C60_dcm_core e0 (d := arcs4) B4 (by decide) (by decide) (by decide) {0} {2, 3} (by decide) (by decide) (by decide) {} .dcm (.inl rfl) "newton" .other .other "" .other {}

/-! ### a sample read back from its file, and a line search that does not stop -/

example := Sampler.C24_parse_real_weights (fun _ => "1.5") (fun _ => some (3 / 2)) [(0, 1, 3 / 2), (1, 4, 3 / 2)] (by simp)
example := Solver.C16_linsearch_decm_hangs (n := 2) [] (fun v => if v.1 = 2 ∧ v.2 = 0 ∨ v.1 = 3 ∧ v.2 = 0 then 1 else 1 / 4) 0 0 (fun _ => some 0) (1 / 2) 1 (by norm_num) one_pos
  ⟨fun v => by dsimp only; split_ifs <;> norm_num, fun i j h => by
    fin_cases i <;> fin_cases j <;> first | exact absurd rfl h | norm_num⟩ 0 (by norm_num) fun _ => by simp

/-! ### memory -/

example := C58_cm e0 (d := path) {} { error := some 3 } "cm" "newton" (.inl rfl) .other .other "" .other {}
example := C58_ecm e0 (d := path) {} { error := some 3 } "ecm" "newton" (.inl rfl) .other .other "" .other {}
example := C58_crema e0 (d := path) {} { error := some 3 } "crema" "newton" (.inl rfl) .other (.name "cm") (.inr (.inr (.inl rfl))) "newton" .other {}
example := C58_crema_adjacency_wrong e0 path
example := C58_dcm e0 (d := dpath) {} { error := some 3 } "dcm" "newton" (.inl rfl) .other .other "" .other {}
example := C58_decm e0 (d := dpath) {} { error := some 3 } "decm" "newton" (.inl rfl) .other .other "" .other {}
example := C58_dcrema e0 (d := dpath) {} { error := some 3 } "crema" "newton" (.inl rfl) .other (.name "dcm") (.inr (.inr (.inl rfl))) "newton" .other {}
example := C58_dcrema_adjacency_wrong e0 dpath rfl

/-! ### labels -/

def path' : UData 3 := ⟨![1, 1, 2], fun _ => 0⟩
def star : DData 3 := ⟨![2, 0, 0], ![0, 1, 1], fun _ => 0, fun _ => 0, true⟩
def star' : DData 3 := ⟨![0, 2, 0], ![1, 0, 1], fun _ => 0, fun _ => 0, true⟩

example := C56_cm_relabel e0 (d := path) (d' := path') (σ := Equiv.swap 1 2) (by decide) .cm (.inl rfl) "newton" "degrees" .other "" .other {}
example := C56_cm_relabel_array e0 (d := path) (d' := path') (σ := Equiv.swap 1 2) (by decide) .cm (.inl rfl) "newton" ![1, 2, 1] (fun i j h => by
  fin_cases i <;> fin_cases j <;> first | rfl | exact absurd h (by decide)) .other "" .other {}
example := C56_dcm_relabel e0 (d := star) (d' := star') (σ := Equiv.swap 0 1) (by decide) (by decide) .dcm (.inl rfl) "newton" "degrees" .other "" .other {}
example := C56_dcm_relabel_array e0 (d := star) (d' := star') (σ := Equiv.swap 0 1) (by decide) (by decide) .dcm (.inl rfl) "newton" (fun v => ![3, 4, 4] v.2) (fun b i j h _ => by
  fin_cases i <;> fin_cases j <;> first | rfl | exact absurd h (by decide)) .other "" .other {}

/-! ### existence -/

example := C66_ubcm_iff (n := 4) (fun _ => 2) fun _ _ => by norm_num
example := C66_dbcm_iff (n := 4) (fun _ => 2) (fun _ => 2) (fun _ _ => by norm_num) fun _ _ => by norm_num

end

end Verif.Wit
