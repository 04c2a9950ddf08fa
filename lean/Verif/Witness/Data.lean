import Verif.Calc
import Verif.Base

/-!
Concrete data on which the theorems of `Verif/Props` are applied in `Verif/Witness`.  Each `example` of that directory instantiates one named
theorem at the data below and discharges every one of its hypotheses, so none of the theorems is vacuous.
-/

namespace Verif.Wit

/-- three unequal positive values -/
def v3 : Fin 3 → ℝ := ![1, 2, 3]

/-- three values with a zero -/
def z3 : Fin 3 → ℝ := ![0, 2, 3]

/-- multiplicities -/
def c3 : Fin 3 → ℝ := ![1, 2, 1]

/-- two blocks of three nodes, positive, unequal -/
def x2 : Fin 2 × Fin 3 → ℝ := fun v => 1 + v.1.val + v.2.val

/-- four blocks of three nodes, positive, unequal -/
def x4 : Fin 4 × Fin 3 → ℝ := fun v => 1 + v.1.val + v.2.val

/-- four blocks of three nodes in (0, 1), unequal -/
noncomputable def u4 : Fin 4 × Fin 3 → ℝ := fun v => 1 / (2 + v.1.val + v.2.val)

/-- two blocks of three nodes in (0, 1), unequal -/
noncomputable def u2 : Fin 2 × Fin 3 → ℝ := fun v => 1 / (2 + v.1.val + v.2.val)

/-- the path 0 - 1 - 2 as a symmetric matrix with unequal entries -/
noncomputable def path3 : Fin 3 → Fin 3 → ℝ := ![![0, 1 / 2, 0], ![1 / 2, 0, 1], ![0, 1, 0]]

/-- the same path as an edge list -/
noncomputable def edges3 : List (Fin 3 × Fin 3 × ℝ) := [(0, 1, 1 / 2), (1, 2, 1)]

theorem v3_pos (i : Fin 3) : 0 < v3 i := by fin_cases i <;> norm_num [v3]
theorem v3_nonneg (i : Fin 3) : 0 ≤ v3 i := (v3_pos i).le
theorem v3_ne (i : Fin 3) : v3 i ≠ 0 := (v3_pos i).ne'
theorem v3_one (i : Fin 3) : 1 ≤ v3 i := by fin_cases i <;> norm_num [v3]
theorem z3_nonneg (i : Fin 3) : 0 ≤ z3 i := by fin_cases i <;> norm_num [z3]
theorem z3_zero : z3 0 = 0 := rfl
theorem c3_one (i : Fin 3) : 1 ≤ c3 i := by fin_cases i <;> norm_num [c3]
theorem c3_ne (i : Fin 3) : c3 i ≠ 0 := by fin_cases i <;> norm_num [c3]
theorem x2_pos (v : Fin 2 × Fin 3) : 0 < x2 v := by unfold x2; positivity
theorem x4_pos (v : Fin 4 × Fin 3) : 0 < x4 v := by unfold x4; positivity
theorem u2_pos (v : Fin 2 × Fin 3) : 0 < u2 v := by unfold u2; positivity
theorem u4_pos (v : Fin 4 × Fin 3) : 0 < u4 v := by unfold u4; positivity
theorem u2_lt (v : Fin 2 × Fin 3) : u2 v < 1 := by
  unfold u2; rw [div_lt_one (by positivity)]; have : (0 : ℝ) ≤ v.1.val + v.2.val := by positivity
  linarith
theorem u4_lt (v : Fin 4 × Fin 3) : u4 v < 1 := by
  unfold u4; rw [div_lt_one (by positivity)]; have : (0 : ℝ) ≤ v.1.val + v.2.val := by positivity
  linarith
theorem path3_symm (i j : Fin 3) : path3 i j = path3 j i := by fin_cases i <;> fin_cases j <;> rfl
theorem path3_diag (i : Fin 3) : path3 i i = 0 := by fin_cases i <;> rfl
theorem path3_nonneg (i j : Fin 3) : 0 ≤ path3 i j := by fin_cases i <;> fin_cases j <;> norm_num [path3]
theorem edges3_pos : ∀ e ∈ edges3, 0 < e.2.2 := by intro e he; simp [edges3] at he; rcases he with rfl | rfl <;> norm_num
theorem edges3_nonneg : ∀ e ∈ edges3, 0 ≤ e.2.2 := fun e he => (edges3_pos e he).le
theorem other3 (i : Fin 3) : ∃ j, j ≠ i := ⟨i + 1, by fin_cases i <;> decide⟩
theorem other3' (i : Fin 3) : ∃ j, i ≠ j := ⟨i + 1, by fin_cases i <;> decide⟩
theorem one_eq {n : ℕ} (i : Fin n) : (fun _ : Fin n => (1 : ℝ)) i = 1 := rfl

/-- a parallel schedule other than the order of the indices -/
def sched3 : List (Fin 3) := [2, 0, 1]

theorem sched3_perm : sched3.Perm (List.finRange 3) := by decide

end Verif.Wit
