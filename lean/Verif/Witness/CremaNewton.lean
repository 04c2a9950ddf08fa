import Verif.Witness.Solve
import Verif.Props.CremaNewton

/-! Instances of C72. -/

namespace Verif.Wit

open Spec Finset Solve Solver

noncomputable section

example := C72_triangle e0 e0_valid e0_draws e0_outside (tol := 1e-8) (by norm_num)

theorem triangle_start : ∃ β0, (solve_tool e0 ({} : UAttr triangleData) "crema" "newton" (.nodes fun _ => 1 / 10) (.matrix triangle) "" .other { ({} : Params) with max_steps := 0 }).g.beta = some β0 ∧
    β0 = fun _ => 1 / 10 := by
  refine ⟨_, (crema_call e0 {} .newton (.nodes fun _ => 1 / 10) triangle "" .other { max_steps := 0 } (b := fun _ => 1 / 10) (guess' := .nodes fun _ => 1 / 10) ?_ (r := initState _ _) rfl).2, rfl⟩
  have : maskSet (fun _ : Fin 3 => (1 / 10 : ℝ)) (fun i => triangleData.strength_sequence i = 0) 0 = fun _ => 1 / 10 := by
    funext i
    simp only [maskSet]
    rw [if_neg]
    simp only [triangleData]; split_ifs <;> norm_num
  simp only [guessCrema, this]

/-- from an array as well: the hypotheses of the general theorem are met, with negative rates in the exact solution -/
example : ∃ T : ℕ, ∃ τ > (0 : ℝ), ∀ (me : Method) (g : UAttr triangleData) (ma : String) (ga : Guess 3) (p : Params), me ≠ .fixed_point → p.tol = 1e-8 → p.linsearch = true →
    let R := solve_tool e0 g "crema" me.name (.nodes fun _ => 1 / 10) (.matrix triangle) ma ga p
    R.exc = none ∧ ∃ β, R.g.beta = some β ∧ (T < p.max_steps → p.eps < τ → ∀ i, |strCReMa triangle β i - triangleData.strength_sequence i| ≤ 1e-8) := by
  obtain ⟨β0, h0, h1⟩ := triangle_start
  have hstr : ∀ β, strCReMa triangle β = fun i => ∑ j, triangle i j / (β i + β j) := fun β => by rw [← EM.str_strCReMa links_triangle.noself]; rfl
  have hgap := gap_weights (p := triangle) (w := fun i j => if i = j then 0 else if i = 0 ∨ j = 0 then 10 else 1) links_triangle.nonneg
    (fun i j => by fin_cases i <;> fin_cases j <;> simp) (fun i j => by split_ifs <;> norm_num) (fun i j => by fin_cases i <;> fin_cases j <;> simp [triangle])
    (s := triangleData.strength_sequence) (fun i => by fin_cases i <;> simp [triangleData, Fin.sum_univ_three] <;> norm_num)
    (x := ![-(4 / 10), 1 / 2, 1 / 2]) (x0 := fun _ => 1 / 10) (fun i j hij => by fin_cases i <;> fin_cases j <;> simp [triangle] at hij ⊢ <;> norm_num) (fun i j _ => by norm_num)
  rw [EM.L_logCReMa links_triangle.symm links_triangle.noself, EM.L_logCReMa links_triangle.symm links_triangle.noself] at hgap
  have hl : -Real.log (10⁻¹ + 10⁻¹ : ℝ) ≤ 4 := by
    have := Real.one_sub_inv_le_log_of_pos (x := (10⁻¹ + 10⁻¹ : ℝ)) (by norm_num)
    norm_num at this ⊢
    linarith
  obtain ⟨T, τ, hτ, h⟩ := C72_crema e0 e0_valid e0_draws e0_outside triangleData triangle links_triangle (βs := ![-(4 / 10), 1 / 2, 1 / 2])
    (fun i j hij => by fin_cases i <;> fin_cases j <;> simp [triangle] at hij ⊢ <;> norm_num)
    (fun i => by rw [hstr]; fin_cases i <;> simp [triangle, triangleData, Fin.sum_univ_three] <;> norm_num)
    one_pos (fun i j hij => by unfold triangle at hij ⊢; split_ifs at hij ⊢ <;> simp_all) (.nodes fun _ => 1 / 10) (fun i _ => by norm_num) (p0 := {}) h0
    (by
      rw [h1]
      refine hgap.trans (add_le_add_right ?_ _)
      have q02 : ¬(0 : Fin 3) = 2 := by decide
      have q12 : ¬(1 : Fin 3) = 2 := by decide
      have q20 : ¬(2 : Fin 3) = 0 := by decide
      have q21 : ¬(2 : Fin 3) = 1 := by decide
      simp only [Fin.sum_univ_three, triangle]
      norm_num [q02, q12, q20, q21]
      norm_num at hl
      have hl2 := Real.log_nonneg (x := 2) (by norm_num)
      linarith) (tol := 1e-8) (by norm_num)
  refine ⟨T, τ, hτ, fun me g ma ga p a1 a2 a3 => ?_⟩
  obtain ⟨k1, β, k2, -, -, k3⟩ := h me g ma ga p a1 a2 a3
  exact ⟨k1, β, k2, k3⟩

/-- a directed network whose strengths the fixed-point method cannot reach (C68) -/
example : ∃ T : ℕ, ∃ τ > (0 : ℝ), ∀ (me : Method) (g : DAttr zigzagData) (ma : String) (ga : DGuess 4) (p : Params), me ≠ .fixed_point → p.tol = 1e-8 → p.linsearch = true →
    T < p.max_steps → p.eps < τ →
    let R := solve_tool_directed e0 g "crema" me.name (.name "strengths") (.matrix zigzag) ma ga p
    R.exc = none ∧ ∃ bo bi, R.g.b_out = some bo ∧ R.g.b_in = some bi ∧ FiniteRatesD zigzag bo bi ∧
      ∀ i, |outStrCReMa zigzag bo bi i - zigzagData.out_strength i| ≤ 1e-8 ∧ |inStrCReMa zigzag bo bi i - zigzagData.in_strength i| ≤ 1e-8 := by
  have h := C72_dcrema_network e0 e0_valid e0_draws e0_outside zigzagData rfl (fun i j => if i = 1 ∧ j = 2 then 1 else if (i = 0 ∧ j = 2) ∨ (i = 1 ∧ j = 3) then 5 else 0)
    (fun i j => by split_ifs <;> norm_num)
    (fun i => by fin_cases i <;> simp [zigzagData, Fin.sum_univ_four] <;> norm_num) (fun i => by fin_cases i <;> simp [zigzagData, Fin.sum_univ_four] <;> norm_num)
    (by norm_num) (fun i j hij => by
      have hK : (10 : ℝ) ^ 2 ≤ 10 ^ 400 := pow_le_pow_right₀ (by norm_num) (by norm_num)
      generalize (10 : ℝ) ^ 400 = K at hK ⊢
      have : ∑ k, zigzagData.out_strength k = 11 := by simp [zigzagData, Fin.sum_univ_four]; norm_num
      rw [this]
      split_ifs at hij ⊢ with h1 h2
      · linarith
      · linarith
      · exact absurd rfl hij) (name := "strengths") (.inl rfl) (tol := 1e-8) (by norm_num)
  have e1 : (fun i j : Fin 4 => if (if i = 1 ∧ j = 2 then (1 : ℝ) else if (i = 0 ∧ j = 2) ∨ (i = 1 ∧ j = 3) then 5 else 0) = 0 then (0 : ℝ) else 1) = zigzag := by
    funext i j
    fin_cases i <;> fin_cases j <;> simp [zigzag]
  rw [e1] at h
  exact h

end

end Verif.Wit
