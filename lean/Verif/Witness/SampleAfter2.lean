import Verif.Props.SampleAfter2
import Verif.Witness.SampleAfter

/-! Cases for `Props/SampleAfter2`. -/

namespace Verif.Wit

open Verif Verif.Solve Verif.Sampler

noncomputable section

example := C80_never_solved R0 (d := tri) (d' := triD)
example := C80_first_refused R0 e0 (d := tri) "cm" "newton" (.inl rfl) .other "" .other noSteps
example := C80_first_refused_directed R0 e0 (d := triD) "decm" "newton" (by simp) .other "" .other noSteps
end
end Verif.Wit
