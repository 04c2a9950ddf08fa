import Verif.Props.MaxEntropy3
import Verif.Props.Likelihood2

/-!
Concrete networks that meet the hypotheses of the theorems of C49, C50 and C51: a ring of five nodes, a directed triangle, and both with weight 2 on every link.
-/

namespace Verif.Solve

open Finset Spec

noncomputable section

/-- ring of five nodes with the value `a` on every link -/
def ring {α : Type} [Zero α] (a : α) : Graphs 5 α :=
  ⟨fun i j => if j = i + 1 ∨ i = j + 1 then a else 0, ⟨fun i j => by simp only [or_comm], fun i => by fin_cases i <;> rfl⟩⟩

/-- directed triangle with the value `a` on every arc -/
def turn {α : Type} [Zero α] (a : α) : Digraphs 3 α := ⟨fun i j => if j = i + 1 then a else 0, ⟨fun i => by fin_cases i <;> rfl⟩⟩

theorem ring_degree (i : Fin 5) : degree (ring true).1 i = 2 := by fin_cases i <;> decide

theorem ring_degree' (i : Fin 5) : degree (ring 2).1 i = 2 := by fin_cases i <;> decide

theorem ring_strength (i : Fin 5) : strength (ring 2).1 i = 4 := by fin_cases i <;> decide

theorem turn_degree (i : Fin 3) : degree (turn true).1 i = 1 ∧ inDegree (turn true).1 i = 1 := by fin_cases i <;> decide

theorem turn_degree' (i : Fin 3) : degree (turn 2).1 i = 1 ∧ inDegree (turn 2).1 i = 1 := by fin_cases i <;> decide

theorem turn_strength (i : Fin 3) : strength (turn 2).1 i = 2 ∧ inStrength (turn 2).1 i = 2 := by fin_cases i <;> decide

theorem card_others (i : Fin 5) : (univ.filter (· ≠ i)).card = 4 := by fin_cases i <;> decide

theorem card_others3 (i : Fin 3) : (univ.filter (· ≠ i)).card = 2 := by fin_cases i <;> decide

/-- data of the ring -/
def ringData : UData 5 := ⟨fun i => degree (ring 2).1 i, fun i => strength (ring 2).1 i⟩

/-- data of the directed triangle -/
def turnData : DData 3 := ⟨fun i => degree (turn 2).1 i, fun i => inDegree (turn 2).1 i, fun i => strength (turn 2).1 i, fun i => inStrength (turn 2).1 i, true⟩

/-- the hypotheses of `C51_cm_stationary` (and of C49, C50 for cm): all parameters 1, the gradient vanishes -/
theorem ring_cm : (∀ i, ringData.dseq i = degree (ring true).1 i) ∧ ∀ q, CM.loglikelihood_prime_cm (fun _ : Fin ringData.r => 1) ringData.k ringData.c q = 0 := by
  refine ⟨fun i => by rw [ring_degree]; exact ring_degree' i, ?_⟩
  refine (CM.C01_cm_solution_iff ringData.dseq (fun _ => 1) (fun _ => one_pos)).2 fun i => ?_
  rw [deg_spec, degUBCM]
  simp only [linkUBCM, sum_const, card_others, ringData, ring_degree']
  norm_num

/-- every graph on five nodes has probability `2⁻¹⁰` there, the ring among them -/
example : (probUBCM (fun _ => 1) (ring true).1 : ℝ) = (1 / 2) ^ 10 := by
  have h : ∀ i j : Fin 5, bern (linkUBCM (fun _ => 1) i j) ((ring true).1 i j) = 1 / 2 := fun i j => by
    unfold bern linkUBCM; split_ifs <;> norm_num
  rw [probUBCM]
  simp only [h, prod_const, prod_pow_eq_pow_sum]
  congr 1

/-- the hypotheses of `C51_dcm_stationary` -/
theorem turn_dcm : (∀ i, turnData.dseq_out i = degree (turn true).1 i) ∧ (∀ i, turnData.dseq_in i = inDegree (turn true).1 i) ∧
    (∀ q, (1 : ℝ) = 0 ↔ turnData.ko q = 0) ∧ (∀ q, (1 : ℝ) = 0 ↔ turnData.ki q = 0) ∧ ∀ v, DCM.reducedGradient turnData.seq (fun _ => 1) v = 0 := by
  have z0 : ∀ q, (1 : ℝ) = 0 ↔ turnData.ko q = 0 := fun q => by
    obtain ⟨i, rfl⟩ := turnData.inv_surj q
    rw [show turnData.ko (turnData.inv i) = turnData.degOut i from DCM.rnz_out_invert turnData.seq i, DData.degOut]
    simp only [turnData, (turn_degree' i).1]; norm_num
  have z1 : ∀ q, (1 : ℝ) = 0 ↔ turnData.ki q = 0 := fun q => by
    obtain ⟨i, rfl⟩ := turnData.inv_surj q
    rw [show turnData.ki (turnData.inv i) = turnData.degIn i from DCM.rnz_in_invert turnData.seq i, DData.degIn]
    simp only [turnData, (turn_degree' i).2]; norm_num
  refine ⟨fun i => by rw [(turn_degree i).1]; exact (turn_degree' i).1, fun i => by rw [(turn_degree i).2]; exact (turn_degree' i).2, z0, z1, ?_⟩
  refine (DCM.C02_dcm_solution_iff turnData.seq (fun _ => 1) z0 z1).2 fun i => ?_
  constructor
  · refine (out_spec (fun _ => 1) (fun _ => 1) i).trans ?_
    rw [outDBCM]
    simp only [linkDBCM, sum_const, card_others3, DCM.dOut, DData.seq, turnData, (turn_degree' i).1]
    norm_num
  · refine (in_spec (fun _ => 1) (fun _ => 1) i).trans ?_
    rw [inDBCM]
    simp only [linkDBCM, sum_const, card_others3, DCM.dIn, DData.seq, turnData, (turn_degree' i).2]
    norm_num

/-- the hypotheses of `C51_ecm_stationary` (and of C49, C50 for ecm) -/
theorem ring_ecm : ∃ v : Fin 2 × Fin 5 → ℝ, AdmECM v ∧ (∀ i, ringData.dseq i = degree (ring 2).1 i) ∧ (∀ i, ringData.strength_sequence i = strength (ring 2).1 i) ∧
    ∀ w, ECM.loglikelihood_prime_ecm v ringData.deg ringData.strength_sequence w = 0 := by
  have hs : √(1 / 2 : ℝ) * √(1 / 2) = 1 / 2 := Real.mul_self_sqrt (by norm_num)
  have hp : (0 : ℝ) < √(1 / 2) := Real.sqrt_pos.2 (by norm_num)
  have hv : AdmECM (cat2 (fun _ : Fin 5 => 1) fun _ => √(1 / 2)) := by
    refine ⟨fun i => ?_, fun i => ?_, fun i j _ => ?_⟩ <;> simp only [cat2, if_true, one_ne_zero, if_false, hs] <;> first | exact hp | norm_num
  refine ⟨_, hv, fun i => rfl, fun i => rfl, ?_⟩
  refine (ECM.C03_ecm_solution_iff _ _ _ hv).2 ⟨fun i => ?_, fun i => ?_⟩
  · rw [deg_ecm_spec, degUECM_eq]
    simp only [linkUECM, cat2, sum_const, card_others, UData.deg, ringData, ring_degree']
    simp only [if_true, one_ne_zero, if_false, hs]; norm_num
  · rw [str_ecm_spec, strUECM_eq _ _ hv.2.2]
    simp only [linkUECM, cat2, sum_const, card_others, ringData, ring_strength]
    simp only [if_true, one_ne_zero, if_false, hs]; norm_num

/-- the hypotheses of `C51_decm_stationary` (and of C49, C50 for decm) -/
theorem turn_decm : ∃ v : Fin 4 × Fin 3 → ℝ, AdmDECM v ∧ (∀ i, turnData.dseq_out i = degree (turn 2).1 i) ∧ (∀ i, turnData.dseq_in i = inDegree (turn 2).1 i) ∧
    (∀ i, turnData.out_strength i = strength (turn 2).1 i) ∧ (∀ i, turnData.in_strength i = inStrength (turn 2).1 i) ∧
    ∀ w, DECM.loglikelihood_prime_decm v turnData.degOut turnData.degIn turnData.out_strength turnData.in_strength w = 0 := by
  let v : Fin 4 × Fin 3 → ℝ := fun w => if w.1 = 2 then 1 / 2 else 1
  have hpos : ∀ w, 0 < v w := fun w => by simp only [v]; split_ifs <;> norm_num
  have hv : AdmDECM v := ⟨hpos, fun i j _ => by simp [v]; norm_num⟩
  refine ⟨v, hv, fun i => rfl, fun i => rfl, fun i => rfl, fun i => rfl, fun w => ?_⟩
  refine ((DECM.C04_decm_solution_iff v _ _ _ _).1 ?_ w).1 (hpos w).ne'
  rintro ⟨b, i⟩
  obtain ⟨e0, e1, e2, e3⟩ := expected_decm_spec v (fun w => (hpos w).le) hv.2 i
  have b0 : blk4 v 0 = fun _ => 1 := rfl
  have b1 : blk4 v 1 = fun _ => 1 := rfl
  have b2 : blk4 v 2 = fun _ => 1 / 2 := rfl
  have b3 : blk4 v 3 = fun _ => 1 := rfl
  rw [b0, b1, b2, b3] at e0 e1 e2 e3
  have hq : univ.filter (· ≠ i) = univ.erase i := by ext; simp
  have hc : ((univ.erase i).card : ℝ) = 2 := by rw [card_erase_of_mem (mem_univ i)]; simp
  fin_cases b
  · refine e0.trans ?_
    simp only [outDegDECM, linkDECM, hq, sum_const, nsmul_eq_mul, hc, DECM.obs, DData.degOut, turnData, (turn_degree' i).1]
    norm_num
  · refine e1.trans ?_
    simp only [inDegDECM, linkDECM, hq, sum_const, nsmul_eq_mul, hc, DECM.obs, DData.degIn, turnData, (turn_degree' i).2]
    norm_num
  · refine e2.trans ?_
    simp only [outStrDECM, weightDECM, linkDECM, hq, sum_const, nsmul_eq_mul, hc, DECM.obs, turnData, (turn_strength i).1]
    norm_num
    exact fun h => absurd rfl h
  · refine e3.trans ?_
    simp only [inStrDECM, weightDECM, linkDECM, hq, sum_const, nsmul_eq_mul, hc, DECM.obs, turnData, (turn_strength i).2]
    norm_num
    exact fun h => absurd h (by decide)

/-- the hypotheses of `C49_crema_log_density`: unit rates on the ring with unequal weights -/
example : ∃ w : Fin 5 → Fin 5 → ℝ, (∀ i j, w i j = w j i) ∧ (∀ i j, (ring true).1 i j = false → w i j = 0) ∧ w 0 1 = 3 ∧ w 1 2 = 5 := by
  refine ⟨fun i j => if (ring true).1 i j = true then (if i + j = 1 then 3 else 5) else 0, fun i j => ?_, fun i j h => by simp [h], ?_, ?_⟩
  · simp only [(ring true).2.symm i j, add_comm i j]
  · exact (if_pos (show (ring true).1 0 1 = true by decide)).trans (if_pos (show (0 : Fin 5) + 1 = 1 by decide))
  · exact (if_pos (show (ring true).1 1 2 = true by decide)).trans (if_neg (show ¬(1 : Fin 5) + 2 = 1 by decide))

end

end Verif.Solve
