import Verif.Model.SolveD
import Verif.Spec.SolveD
import Verif.Props.SolveU5
import Verif.Props.DECM
import Verif.Props.DCReMa

/-! Lemmas for `Props/SolveD.lean`: the specification in terms of the model's closed forms. -/

namespace Verif.Solve

open Verif Finset Reduction Solver Spec

open Classical in
attribute [local instance 0] propDecidable

variable {n : ℕ}

theorem dLookup_name (mo : DModel) (me : Method) : dLookup mo.name me.name = some (mo, me) := by
  cases mo <;> cases me <;> decide

/-- the only way of naming a pair: its own names, or the two names of the sparse CReMa glued together -/
theorem dLookup_some {mo mo' : DModel} {me : Method} {s : String} (h : dLookup mo.name s = some (mo', me)) :
    (mo' = mo ∧ s = me.name) ∨ (mo = .crema ∧ mo' = .crema_sparse ∧ s = "sparse-" ++ me.name) := by
  have hm := lookup_mem h
  simp only [dKeys, List.mem_cons, Prod.mk.injEq, List.not_mem_nil, or_false] at hm
  cases mo <;>
  · rcases hm with ⟨hk, rfl, rfl⟩ | ⟨hk, rfl, rfl⟩ | ⟨hk, rfl, rfl⟩ | ⟨hk, rfl, rfl⟩ | ⟨hk, rfl, rfl⟩ | ⟨hk, rfl, rfl⟩ | ⟨hk, rfl, rfl⟩ | ⟨hk, rfl, rfl⟩ | ⟨hk, rfl, rfl⟩ | ⟨hk, rfl, rfl⟩ | ⟨hk, rfl, rfl⟩ | ⟨hk, rfl, rfl⟩ | ⟨hk, rfl, rfl⟩ | ⟨hk, rfl, rfl⟩ | ⟨hk, rfl, rfl⟩ | ⟨hk, rfl, rfl⟩ | ⟨hk, rfl, rfl⟩ | ⟨hk, rfl, rfl⟩ <;>
    · replace hk := congrArg String.toList hk
      simp [DModel.name, String.toList_append] at hk <;>
      first
        | exact .inl ⟨rfl, String.toList_inj.1 (by simpa [Method.name] using hk)⟩
        | exact .inr ⟨rfl, rfl, String.toList_inj.1 (by simpa [Method.name, String.toList_append] using hk)⟩

theorem dLookup_unknown (mo : DModel) {method : String} (hm : ∀ me : Method, method ≠ me.name) (hc : mo = .crema → ∀ me : Method, method ≠ "sparse-" ++ me.name) :
    dLookup mo.name method = none := by
  cases h : dLookup mo.name method with
  | none => rfl
  | some v =>
    obtain ⟨mo', me⟩ := v
    rcases dLookup_some h with ⟨-, h1⟩ | ⟨h1, -, h2⟩
    · exact absurd h1 (hm me)
    · exact absurd h2 (hc h1 me)

/-! ### closed forms -/

theorem out_spec (x y : Fin n → ℝ) (i : Fin n) : DCM.expected_out_degree_dcm (cat2 x y) i = outDBCM x y i := by
  rw [DCM.expected_out_eq, outDBCM, sum_ne]; rfl

theorem in_spec (x y : Fin n → ℝ) (i : Fin n) : DCM.expected_in_degree_dcm (cat2 x y) i = inDBCM x y i := by
  rw [DCM.expected_in_eq, inDBCM, sum_ne]; rfl

/-- the log-probability of the DBCM as a function of the parameters of the nodes of non-zero degree -/
noncomputable abbrev LDCM (d : DData n) (r : Fin 2 × Fin d.r → ℝ) : ℝ :=
  logDBCM d.degOut d.degIn (active d.degOut fun i => r (0, d.inv i)) (active d.degIn fun i => r (1, d.inv i))

theorem ll_dcm_spec (ko ki : Fin n → ℝ) (x : DCM.Vec n) :
    DCM.loglikelihood_dcm x ko ki (DCM.nonzero ko) (DCM.nonzero ki) (fun _ => 1) =
      logDBCM ko ki (active ko fun i => x (0, i)) (active ki fun i => x (1, i)) := by
  rw [DCM.ll_eq _ _ _ _ _ _ (DCM.nodup_nonzero _) (DCM.nodup_nonzero _), DCM.sum_nonzero, DCM.sum_nonzero, logDBCM, sum_add_distrib]
  have h1 : ∀ i, ko i * Real.log (active ko (fun i => x (0, i)) i) = if ko i ≠ 0 then 1 * ko i * Real.log (x (0, i)) else 0 := fun i => by
    unfold active; by_cases h : ko i = 0 <;> simp [h]
  have h2 : ∀ i, ki i * Real.log (active ki (fun i => x (1, i)) i) = if ki i ≠ 0 then 1 * ki i * Real.log (x (1, i)) else 0 := fun i => by
    unfold active; by_cases h : ki i = 0 <;> simp [h]
  simp only [h1, h2, sum_ne]
  rw [add_sub_right_comm, ← sum_sub_distrib]
  congr 1
  refine sum_congr rfl fun i _ => ?_
  by_cases h : ko i = 0
  · simp [h, active]
  · rw [if_pos h, if_pos h, sub_eq_add_neg, DCM.sum_nonzero, ← sum_neg_distrib]
    congr 1
    refine sum_congr rfl fun j _ => ?_
    by_cases hj : ki j = 0
    · simp [hj, active]
    · by_cases hij : i = j
      · subst hij; simp [DCM.w]
      · simp [hj, h, hij, active, DCM.w]

theorem ll_dcm_red_spec (d : DData n) (r : Fin 2 × Fin d.r → ℝ) :
    DCM.loglikelihood_dcm r d.ko d.ki (DCM.nonzero d.ko) (DCM.nonzero d.ki) d.c = LDCM d r := by
  rw [LDCM, ← ll_dcm_spec d.degOut d.degIn (fun v => r (v.1, d.inv v.2))]
  exact DCM.C10_dcm_reduction_likelihood d.seq r

theorem ll_dcm_exp_red_spec (d : DData n) (θ : Fin 2 × Fin d.r → ℝ) :
    DCM.loglikelihood_dcm_exp θ d.ko d.ki (DCM.nonzero d.ko) (DCM.nonzero d.ki) d.c = LDCM d fun v => Real.exp (-θ v) := by
  rw [DCM.C09_dcm_reparametrisation _ _ _ _ _ _ (DCM.nodup_nonzero _) (DCM.nodup_nonzero _), ll_dcm_red_spec]

/-- the log-probability of the DECM as a function of the `4n` parameters -/
noncomputable abbrev LDECM (d : DData n) (v : Fin 4 × Fin n → ℝ) : ℝ :=
  logDECM d.degOut d.degIn d.out_strength d.in_strength (blk4 v 0) (blk4 v 1) (blk4 v 2) (blk4 v 3)

theorem ll_decm_spec (d : DData n) (v : Fin 4 × Fin n → ℝ) :
    DECM.loglikelihood_decm v d.degOut d.degIn d.out_strength d.in_strength = LDECM d v := by
  rw [DECM.ll_eq, LDECM, logDECM, ← sum_add_distrib]
  refine sum_congr rfl fun i _ => ?_
  rw [sum_ne]
  simp only [blk4]
  ring

theorem ll_decm_exp_spec (d : DData n) (θ : Fin 4 × Fin n → ℝ) (h : AdmDECMexp θ) :
    DECM.loglikelihood_decm_exp θ d.degOut d.degIn d.out_strength d.in_strength = LDECM d fun v => Real.exp (-θ v) := by
  rw [DECM.C09_decm_reparametrisation _ _ _ _ _ h, ll_decm_spec]

theorem adm_pos_of {x : Fin 4 × Fin n → ℝ} (h0 : ∀ v, 0 ≤ x v) (h : ∀ i j, i ≠ j → x (2, i) * x (3, j) < 1) (i j : Fin n) (hij : i ≠ j) :
    0 < 1 - x (2, i) * x (3, j) ∧ 0 < 1 - x (2, i) * x (3, j) + x (0, i) * x (1, j) * (x (2, i) * x (3, j)) := by
  have h1 := h i j hij
  have h2 : 0 ≤ x (0, i) * x (1, j) * (x (2, i) * x (3, j)) :=
    mul_nonneg (mul_nonneg (h0 _) (h0 _)) (mul_nonneg (h0 _) (h0 _))
  exact ⟨by linarith, by linarith⟩

theorem weight_alg (X b b' : ℝ) (h1 : 1 - b * b' ≠ 0) (h2 : 1 - b * b' + X * (b * b') ≠ 0) :
    b * (b' / (1 - b * b') + (X - 1) * b' / (1 - b * b' + X * (b * b'))) = X * (b * b') / (1 - b * b' + X * (b * b')) / (1 - b * b') := by
  rw [div_add_div _ _ h1 h2, mul_div_assoc', div_div, div_eq_div_iff (mul_ne_zero h1 h2) (mul_ne_zero h2 h1)]
  ring

theorem weight_alg' (X b b' : ℝ) (h1 : 1 - b * b' ≠ 0) (h2 : 1 - b * b' + X * (b * b') ≠ 0) :
    b' * (b / (1 - b * b') + (X - 1) * b / (1 - b * b' + X * (b * b'))) = X * (b * b') / (1 - b * b' + X * (b * b')) / (1 - b * b') := by
  rw [div_add_div _ _ h1 h2, mul_div_assoc', div_div, div_eq_div_iff (mul_ne_zero h1 h2) (mul_ne_zero h2 h1)]
  ring

/-- the expected values of the DECM computed by the library are those of the specification -/
theorem expected_decm_spec (v : Fin 4 × Fin n → ℝ) (h0 : ∀ w, 0 ≤ v w) (h : ∀ i j, i ≠ j → v (2, i) * v (3, j) < 1) (i : Fin n) :
    DECM.expected_decm v (0, i) = outDegDECM (blk4 v 0) (blk4 v 1) (blk4 v 2) (blk4 v 3) i ∧
    DECM.expected_decm v (1, i) = inDegDECM (blk4 v 0) (blk4 v 1) (blk4 v 2) (blk4 v 3) i ∧
    DECM.expected_decm v (2, i) = outStrDECM (blk4 v 0) (blk4 v 1) (blk4 v 2) (blk4 v 3) i ∧
    DECM.expected_decm v (3, i) = inStrDECM (blk4 v 0) (blk4 v 1) (blk4 v 2) (blk4 v 3) i := by
  obtain ⟨e0, e1, e2, e3⟩ := DECM.expected_eq v i
  rw [e0, e1, e2, e3, DECM.fa_out_eq, DECM.fa_in_eq, DECM.fb_out_eq, DECM.fb_in_eq, outDegDECM, inDegDECM, outStrDECM, inStrDECM, sum_ne, sum_ne, sum_ne,
    sum_ne, mul_sum, mul_sum, mul_sum, mul_sum]
  refine ⟨sum_congr rfl fun j _ => ?_, sum_congr rfl fun j _ => ?_, sum_congr rfl fun j _ => ?_, sum_congr rfl fun j _ => ?_⟩
  · by_cases hij : i = j
    · simp [hij]
    · rw [if_neg hij, if_neg hij, DECM.P, linkDECM]
      simp only [blk4]; ring
  · by_cases hij : i = j
    · simp [hij]
    · rw [if_neg hij, if_neg hij, DECM.P, linkDECM]
      simp only [blk4, mul_comm (v (3, i)), mul_comm (v (1, i)) (v (0, j))]; ring
  · by_cases hij : i = j
    · simp [hij]
    · obtain ⟨p1, p2⟩ := adm_pos_of h0 h i j hij
      rw [if_neg hij, if_neg hij, DECM.Q, weightDECM, linkDECM]
      simp only [blk4]
      exact weight_alg _ _ _ p1.ne' p2.ne'
  · by_cases hij : i = j
    · simp [hij]
    · obtain ⟨p1, p2⟩ := adm_pos_of h0 h j i (Ne.symm hij)
      rw [if_neg hij, if_neg hij, DECM.Q, weightDECM, linkDECM]
      simp only [blk4, mul_comm (v (3, i)) (v (2, j)), mul_comm (v (1, i)) (v (0, j))]
      exact weight_alg' _ _ _ p1.ne' p2.ne'

/-- the log-likelihood of the directed CReMa as a function of the `2n` rates -/
noncomputable abbrev LDCrema (d : DData n) (a : Fin n → Fin n → ℝ) (b : Fin 2 × Fin n → ℝ) : ℝ :=
  logDCReMa a d.out_strength d.in_strength (fun i => b (0, i)) fun i => b (1, i)

theorem ll_dcrema_spec (d : DData n) (a : Fin n → Fin n → ℝ) (b : Fin 2 × Fin n → ℝ) :
    DCReMa.loglikelihood_crema_directed b d.out_strength d.in_strength (nzEdges a) (DCM.nonzero d.out_strength) (DCM.nonzero d.in_strength) =
      LDCrema d a b := by
  rw [DCReMa.ll_eq _ _ _ _ _ _ (DCM.nodup_nonzero _) (DCM.nodup_nonzero _), DCM.sum_nonzero, DCM.sum_nonzero, sum_nz, LDCrema, logDCReMa,
    ← sum_add_distrib, ← sum_neg_distrib]
  congr 1
  · refine sum_congr rfl fun i _ => ?_
    by_cases h1 : d.out_strength i = 0 <;> by_cases h2 : d.in_strength i = 0 <;> simp [h1, h2] <;> ring
  · refine sum_congr rfl fun i _ => sum_congr rfl fun j _ => ?_
    by_cases h : a i j = 0 <;> simp [h]

theorem str_dcrema_spec (a : Fin n → Fin n → ℝ) (bo bi : Fin n → ℝ) (i : Fin n) :
    DCReMa.expected_out_strength_crema_directed (cat2 bo bi) (nzEdges a) i = outStrCReMa a bo bi i ∧
    DCReMa.expected_in_strength_crema_directed (cat2 bo bi) (nzEdges a) i = inStrCReMa a bo bi i := by
  constructor
  · rw [DCReMa.out_eq, DCReMa.arc_out a (fun i j w => w / (cat2 bo bi (0, i) + cat2 bo bi (1, j))) (by simp)]; rfl
  · rw [DCReMa.in_eq, DCReMa.arc_in a (fun i j w => w / (cat2 bo bi (0, i) + cat2 bo bi (1, j))) (by simp)]; rfl

end Verif.Solve
