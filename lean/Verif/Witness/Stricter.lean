import Verif.Props.Stricter
import Verif.Witness.Continue

/-! Cases for `Props/Stricter`. -/

namespace Verif.Wit

open Spec Solve Solver

noncomputable section

/-- seven steps begin with the first three of them; both calls return -/
example := (C84_cm (d := tri) e0 {} {} .fixed_point (.nodes fun _ => 1) .other .other "" "" .other .other (free 3) (tol := -1) (eps := -1) (m := 7) le_rfl le_rfl (by norm_num [free]) rfl).2
  (free_cm {} rfl 3 _) (free_cm {} rfl 7 _)

theorem p0_tol : (1e-12 : ℝ) ≤ p0.tol := by norm_num [p0]
theorem p0_eps : (1e-12 : ℝ) ≤ p0.eps := by norm_num [p0]

example := C84_cm (d := ringData) e0 {} {} .newton (.name "degrees") .other .other "" "" .other .other p0 p0_tol p0_eps le_self_add rfl (m := p0.max_steps + 50)
example := C84_cm_exp (d := ringData) e0 {} {} .newton (.name "degrees") .other .other "" "" .other .other p0 p0_tol p0_eps le_self_add rfl (m := p0.max_steps + 50)
example := C84_ecm (d := ringData) e0 {} {} .newton (.name "strengths") .other .other "" "" .other .other p0 p0_tol p0_eps le_self_add rfl (m := p0.max_steps + 50)
example := C84_ecm_exp (d := ringData) e0 {} {} .newton (.name "strengths") .other .other "" "" .other .other p0 p0_tol p0_eps le_self_add rfl (m := p0.max_steps + 50)
example := C84_crema (d := ringData) e0 {} {} .newton (.nodes fun _ => 1) "" "" .other .other p0 p0_tol p0_eps le_self_add rfl ringM (m := p0.max_steps + 50)
example := C84_dcm (d := turnData) e0 {} {} .newton (.name "degrees") .other .other "" "" .other .other p0 p0_tol p0_eps le_self_add rfl (m := p0.max_steps + 50)
example := C84_dcm_exp (d := turnData) e0 {} {} .newton (.name "degrees") .other .other "" "" .other .other p0 p0_tol p0_eps le_self_add rfl (m := p0.max_steps + 50)
example := C84_decm (d := turnData) e0 {} {} .newton (.name "strengths") .other .other "" "" .other .other p0 p0_tol p0_eps le_self_add rfl (m := p0.max_steps + 50)
example := C84_decm_exp (d := turnData) e0 {} {} .newton (.name "strengths") .other .other "" "" .other .other p0 p0_tol p0_eps le_self_add rfl (m := p0.max_steps + 50)
example := C84_dcrema (d := turnData) e0 {} {} .newton (.name "strengths") "" "" .other .other p0 p0_tol p0_eps le_self_add rfl rfl (fun _ _ => 1) (m := p0.max_steps + 50)

end

end Verif.Wit
