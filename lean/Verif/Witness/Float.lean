import Verif.Props.Float
import Verif.Witness.Isolated

/-! Non-vacuity of C78: a path and a directed path with isolated nodes, a ring and a turning graph without. -/

namespace Verif.Wit
open Verif Verif.Solver Verif.Solve Verif.Spec Verif.Flt

noncomputable section

theorem arcs5_linked : arcs5.Linked := by
  have h1 : arcs5.dseq_in 2 ≠ 0 := by show (1 : ℕ) ≠ 0; decide
  have h2 : arcs5.dseq_in 3 ≠ 0 := by show (2 : ℕ) ≠ 0; decide
  have h3 : arcs5.dseq_out 1 ≠ 0 := by show (2 : ℕ) ≠ 0; decide
  have h4 : arcs5.dseq_out 2 ≠ 0 := by show (1 : ℕ) ≠ 0; decide
  intro i
  constructor
  · by_cases h : (2 : Fin 5) = i
    · exact ⟨3, by rw [← h]; decide, h2⟩
    · exact ⟨2, h, h1⟩
  · by_cases h : (1 : Fin 5) = i
    · exact ⟨2, by rw [← h]; decide, h4⟩
    · exact ⟨1, h, h3⟩

theorem turn_linked : turnData.Linked := fun i =>
  ⟨⟨i + 1, by revert i; decide, by rw [turn_i]; decide⟩, i + 1, by revert i; decide, by rw [turn_o]; decide⟩

theorem run_ok (p : Params) : ∃ s, runCMexp e0 line5 (.nodes fun _ => 1) p = .ok s := ⟨_, rfl⟩
theorem runD_ok (p : Params) : ∃ s, runDCMexp e0 arcs5 (.pairs fun _ => 1) p = .ok s := ⟨_, rfl⟩

example := C78_cm_exp_isolated e0 line5 (.nodes fun _ => 1) p0 (z := 0) (a := 2) rfl (by decide) (by norm_num [p0]) (by norm_num [p0]) (run_ok p0).choose_spec
example := C78_cm_exp_stuck e0 line5 (.nodes fun _ => 1) p0 rfl (z := 0) (a := 1) (b := 2) rfl (by decide) (by decide) (by decide) (by norm_num [p0]) (by norm_num [p0])
  (run_ok p0).choose_spec (run_ok _).choose_spec
example := C78_cm_exp_finite e0 ringData ring_deg (.nodes fun _ => 1) p0 rfl

example := C78_dcm_exp_zero_degree e0 arcs5 (.pairs fun _ => 1) p0 arcs5_linked (z := 0) (.inl rfl) (by norm_num [p0]) (by norm_num [p0]) (runD_ok p0).choose_spec
example := C78_dcm_exp_half_steps e0 arcs5 (.pairs fun _ => 1) p0 rfl arcs5_linked (z := 0) (.inl rfl) (by norm_num [p0]) (by norm_num [p0])
  (runD_ok p0).choose_spec (runD_ok _).choose_spec
example := C78_dcm_exp_finite e0 turnData turn_linked (fun i => ⟨by rw [turn_o]; decide, by rw [turn_i]; decide⟩) (.pairs fun _ => 1) p0 rfl

end

end Verif.Wit
