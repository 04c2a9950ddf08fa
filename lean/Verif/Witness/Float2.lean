import Verif.Props.Float2
import Verif.Witness.Float

/-! Non-vacuity of C81: an isolated node, an in-star, a turning graph and a weighted network without zeros. -/

namespace Verif.Wit
open Verif Verif.Solver Verif.Solve Verif.Spec Verif.Flt

noncomputable section

/-- nodes 1 and 2 linked with weight 2, node 0 isolated -/
def lonely : UData 3 where
  dseq := ![0, 1, 1]
  strength_sequence := ![0, 2, 2]

/-- a triangle of weights 2, 3, 4 -/
def weights3 : UData 3 where
  dseq := ![2, 2, 2]
  strength_sequence := ![5, 6, 7]

/-- the links 1 → 0 and 2 → 0 -/
def inStar (i j : Fin 3) : ℕ := if j = 0 ∧ i ≠ 0 then 1 else 0

def starData : DData 3 where
  dseq_out := fun i => ∑ j, inStar i j
  dseq_in := fun j => ∑ i, inStar i j
  out_strength := 0
  in_strength := 0
  nz_known := false

theorem star_place : Placeable starData := (placeable_network inStar (by decide) (fun _ => rfl) fun _ => rfl).1
theorem star_star : DStar starData := (placeable_network inStar (by decide) (fun _ => rfl) fun _ => rfl).2.2 ⟨0, .inl (by decide)⟩

theorem turn_place : Placeable turnData := fun i => ⟨fun _ => (turn_linked i).1, fun _ => (turn_linked i).2⟩

theorem turn_no_star : ¬DStar turnData := by
  rintro ⟨i, ⟨h, -⟩ | ⟨h, -⟩⟩
  · rw [turn_o] at h; exact absurd h (by decide)
  · rw [turn_i] at h; exact absurd h (by decide)

example (m : Method) (body) := C81_crema_sparse_zero e0 (d := lonely) (i := 0) rfl (x := fun _ => 1) (fun _ => zero_le_one) m body (.nodes fun _ => 1) p0 rfl
example := C81_where_crema_sparse (n := 3) ![0, 2, 2] (fun _ => 1) ![0, 1, 1] (fun _ => zero_le_one) (List.Perm.refl _) 0
example := C81_crema_sparse_fixed_partial e0 e0_valid e0_draws (by norm_num) (d := weights3) (by intro i; fin_cases i <;> norm_num [weights3]) (x := fun _ => 1) (fun _ => one_pos)
  (.nodes fun _ => 1) (fun _ _ => one_pos) p0
example := (C81_dcm_partial e0 e0_valid e0_draws (d := starData) (by decide) star_place (.pairs fun _ => 1) (fun _ => ⟨fun _ => one_pos, fun _ => one_pos⟩) p0).1 star_star
example := (C81_dcm_partial e0 e0_valid e0_draws (d := turnData) (by simp only [turn_i, turn_o]) turn_place (.pairs fun _ => 1) (fun _ => ⟨fun _ => one_pos, fun _ => one_pos⟩) p0).2
  turn_no_star rfl

end

end Verif.Wit
