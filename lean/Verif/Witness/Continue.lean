import Verif.Props.Continue2
import Verif.Witness.Solve2
import Verif.Witness.TwoCalls

/-! Cases for `Props/Continue`: runs that return and were not ended by `eps`. -/

namespace Verif.Wit

open Spec Solve Solver

noncomputable section

/-- exactly `k` steps -/
def free (k : ℕ) : Params := { max_steps := k, full_return := true, linsearch := false, tol := -1, eps := -1 }

theorem free_run {ι : Type} [Fintype ι] [DecidableEq ι] [Nonempty ι] (C : Callbacks ι) (k : ℕ) (x0 : ι → ℝ) : ∃ s, solver C ((free k).opts "fixed-point") x0 = .ok s := by
  have key : ∀ (m : ℕ) (s : State ι), ∃ t, loop C ((free k).opts "fixed-point") m s = .ok t := by
    intro m
    induction m with
    | zero => exact fun s => ⟨s, rfl⟩
    | succ m ih =>
      intro s
      simp only [loop]
      split_ifs
      · have hd : direction C ((free k).opts "fixed-point") s.x s.f = .ok (s.f - s.x) := by simp [direction, Params.opts]
        have hs : stepLength C ((free k).opts "fixed-point") s (s.f - s.x) = .ok 1 := by simp [stepLength, Params.opts, free]
        simp only [step, hd, hs]
        exact ih _
      · exact ⟨s, rfl⟩
  exact key _ _

theorem free_kept {ι : Type} [Fintype ι] [DecidableEq ι] [Nonempty ι] (C : Callbacks ι) (k : ℕ) (x0 : ι → ℝ) {s : State ι} (h : solver C ((free k).opts "fixed-point") x0 = .ok s) :
    (Trace.of s).NotStuck (free k) := by
  obtain ⟨xs, hx, -, -, -⟩ := history_of_loop C _ x0 s h
  intro δ hδ
  have hm : δ ∈ s.diff_seq := List.mem_of_getLast? hδ
  rw [hx.diffs] at hm
  rcases List.mem_cons.1 hm with rfl | hm
  · norm_num [free]
  · obtain ⟨j, -, rfl⟩ := List.mem_map.1 hm
    exact lt_of_lt_of_le (by norm_num [free]) (Real.sqrt_nonneg _)

/-- a call of `k` steps returns -/
theorem free_cm (g : UAttr tri) (hg : g.beta = none) (k : ℕ) (v : Fin 3 → ℝ) : (solve_tool e0 g "cm" "fixed-point" (.nodes v) .other "" .other (free k)).exc = none := by
  obtain ⟨s, hs⟩ := free_run (cbCM e0 tri .fixed_point) k (maskSet (fun q => v (tri.index q)) (fun q => tri.k q = 0) 0)
  have h := solve_tool_cm e0 g .fixed_point (.nodes v) .other "" .other (free k) rfl
  rw [show (Method.fixed_point).name = "fixed-point" from rfl, hs] at h
  rw [h]
  simp [solutionError, setSolvedCM, degreeError, strengthError, hg]

/-- three steps and then four more are seven steps -/
example : ∃ t t' tl x x', (solve_tool e0 ({} : UAttr tri) "cm" "fixed-point" (.nodes fun _ => 1) .other "" .other (free 3)).g.x = some x ∧ Follows t t' tl ∧
    (solve_tool e0 ({} : UAttr tri) "cm" "fixed-point" (.nodes x) .other "" .other (free 4)).g.x = some x' ∧
    (solve_tool e0 ({} : UAttr tri) "cm" "fixed-point" (.nodes fun _ => 1) .other "" .other (free 7)).g.x = some x' := by
  obtain ⟨t, x, ht, hx, H⟩ := C83_cm (d := tri) e0 {} {} .fixed_point (.nodes fun _ => 1) .other .other "" "" .other .other (free 3) (.inr rfl) (by norm_num [free]) rfl
    (fun i => by simp [tri]) (free_cm {} rfl 3 _)
  obtain ⟨m, x0, s, hm', hg0, hs, hG⟩ := solve_tool_ok_cm e0 ({} : UAttr tri) "fixed-point" (.nodes fun _ => 1) .other "" .other (free 3) (free_cm {} rfl 3 _)
  obtain rfl := method_name_inj (a := .fixed_point) hm'
  have hts : t = .of s := by
    rw [show (Method.fixed_point).name = "fixed-point" from rfl, hG] at ht
    have k := (solutionError_keeps e0 (setSolvedCM (d := tri) { ({} : UAttr tri) with last_model := some "cm", full_return := (free 3).full_return, args := some .cm, step_fun := some .cm, fun_pmatrix := true } false s)).2.2.2.2.1
    rw [k] at ht
    simpa [setSolvedCM, free] using ht.symm
  obtain ⟨t', tl, x', -, -, h1, h2, h3⟩ := (H (by rw [hts]; exact free_kept _ _ _ hs) 4).2 (free_cm {} rfl 4 _) (free_cm {} rfl 7 _)
  exact ⟨t, t', tl, x, x', hx, h1, h2, h3⟩

example := C83_cm_exp (d := ringData) e0 {} {} .newton (.name "degrees") .other .other "" "" .other .other p0 (.inl (by decide)) (by norm_num [p0]) rfl ring_deg
example := C83_ecm (d := ringData) e0 {} {} .newton (.name "strengths") .other .other "" "" .other .other p0 (.inl (by decide)) (by norm_num [p0]) rfl ring_deg fun i => by rw [ring_str]; norm_num
example := C83_ecm_exp (d := ringData) e0 {} {} .newton (.name "strengths") .other .other "" "" .other .other p0 (.inl (by decide)) (by norm_num [p0]) rfl ring_deg fun i => by rw [ring_str]; norm_num
example := C83_crema (d := ringData) e0 {} {} .newton (.nodes fun _ => 1) "" "" .other .other p0 (.inl (by decide)) (by norm_num [p0]) rfl ringM fun i => by rw [ring_str]; norm_num
example := C83_dcm (d := turnData) e0 {} {} .newton (.name "degrees") .other .other "" "" .other .other p0 (.inl (by decide)) (by norm_num [p0]) rfl (fun i => (turn_ne i).1) fun i => (turn_ne i).2.1
example := C83_dcm_exp (d := turnData) e0 {} {} .newton (.name "degrees") .other .other "" "" .other .other p0 (.inl (by decide)) (by norm_num [p0]) rfl (fun i => (turn_ne i).1) fun i => (turn_ne i).2.1
example := C83_decm (d := turnData) e0 {} {} .newton (.name "strengths") .other .other "" "" .other .other p0 (.inl (by decide)) (by norm_num [p0]) rfl turn_ne
example := C83_decm_exp (d := turnData) e0 {} {} .newton (.name "strengths") .other .other "" "" .other .other p0 (.inl (by decide)) (by norm_num [p0]) rfl turn_ne
example := C83_dcrema (d := turnData) e0 {} {} .newton (.name "strengths") "" "" .other .other p0 (.inl (by decide)) (by norm_num [p0]) rfl rfl (fun _ _ => 1) fun i => ⟨(turn_ne i).2.2.1, (turn_ne i).2.2.2⟩

end

end Verif.Wit
