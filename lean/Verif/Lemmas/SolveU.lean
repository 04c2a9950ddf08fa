import Verif.Model.SolveU
import Verif.Spec.Solve
import Verif.Props.Solver
import Verif.Props.ECM
import Verif.Props.Concave

/-! Lemmas for `Props/SolveU.lean`. -/

namespace Verif.Solve

open Verif Finset Reduction Solver Spec

open Classical in
attribute [local instance 0] propDecidable

variable {n : ℕ}

theorem lookup_mem {α β : Type} [BEq α] [LawfulBEq α] {l : List (α × β)} {k : α} {v : β} (h : l.lookup k = some v) : (k, v) ∈ l := by
  induction l with
  | nil => simp at h
  | cons p l ih =>
    obtain ⟨a, b⟩ := p
    rw [List.lookup_cons] at h
    split at h
    · rename_i hk
      rw [beq_iff_eq] at hk
      simp only [Option.some.injEq] at h
      subst hk; subst h; simp
    · exact List.mem_cons_of_mem _ (ih h)

theorem uLookup_name (mo : UModel) (me : Method) : uLookup mo.name me.name = some (mo, me) := by
  cases mo <;> cases me <;> decide

/-- the only way of naming a pair: its own names, or the two names of the sparse CReMa glued together -/
theorem uLookup_some {mo mo' : UModel} {me : Method} {s : String} (h : uLookup mo.name s = some (mo', me)) :
    (mo' = mo ∧ s = me.name) ∨ (mo = .crema ∧ mo' = .crema_sparse ∧ s = "sparse-" ++ me.name) := by
  have hm := lookup_mem h
  simp only [uKeys, List.mem_cons, Prod.mk.injEq, List.not_mem_nil, or_false] at hm
  cases mo <;>
  · rcases hm with ⟨hk, rfl, rfl⟩ | ⟨hk, rfl, rfl⟩ | ⟨hk, rfl, rfl⟩ | ⟨hk, rfl, rfl⟩ | ⟨hk, rfl, rfl⟩ | ⟨hk, rfl, rfl⟩ | ⟨hk, rfl, rfl⟩ | ⟨hk, rfl, rfl⟩ | ⟨hk, rfl, rfl⟩ | ⟨hk, rfl, rfl⟩ | ⟨hk, rfl, rfl⟩ | ⟨hk, rfl, rfl⟩ | ⟨hk, rfl, rfl⟩ | ⟨hk, rfl, rfl⟩ | ⟨hk, rfl, rfl⟩ | ⟨hk, rfl, rfl⟩ | ⟨hk, rfl, rfl⟩ | ⟨hk, rfl, rfl⟩ <;>
    · replace hk := congrArg String.toList hk
      simp [UModel.name, String.toList_append] at hk <;>
      first
        | exact .inl ⟨rfl, String.toList_inj.1 (by simpa [Method.name] using hk)⟩
        | exact .inr ⟨rfl, rfl, String.toList_inj.1 (by simpa [Method.name, String.toList_append] using hk)⟩

/-! ### the specification in terms of the model's closed forms -/

theorem sum_ne (f : Fin n → ℝ) (i : Fin n) : ∑ j ∈ univ.filter (· ≠ i), f j = ∑ j, if i = j then 0 else f j := by
  rw [sum_filter]
  refine sum_congr rfl fun j _ => ?_
  by_cases h : i = j
  · simp [h]
  · simp [h, Ne.symm h]

theorem deg_spec (x : Fin n → ℝ) (i : Fin n) : CM.expected_degree_cm x i = degUBCM x i := by
  rw [CM.expected_degree_eq, degUBCM, sum_ne]; rfl

/-- a symmetric sum over distinct pairs counts every pair twice -/
theorem half_pairs (f : Fin n → Fin n → ℝ) (hf : ∀ i j, f i j = f j i) :
    (∑ i, ∑ j, if i = j then 0 else f i j / 2) = ∑ i, ∑ j ∈ univ.filter (· < i), f i j := by
  rw [ECM.sum_lt_pairs (fun i j => f i j / 2)]
  refine sum_congr rfl fun i _ => ?_
  rw [sum_filter]
  refine sum_congr rfl fun j _ => ?_
  split
  · rw [hf j i]; ring
  · rfl

theorem ll_spec (k x : Fin n → ℝ) : CM.loglikelihood_cm x k (fun _ => 1) = logUBCM k x := by
  rw [CM.ll_eq, logUBCM, ← half_pairs (fun i j => Real.log (1 + x i * x j)) (fun i j => by rw [mul_comm]), ← sum_sub_distrib]
  refine sum_congr rfl fun i _ => ?_
  rw [sub_eq_add_neg (k i * _), ← sum_neg_distrib]
  congr 1
  · ring
  · refine sum_congr rfl fun j _ => ?_
    split <;> simp

theorem ll_red_spec (d : UData n) (r : Fin d.r → ℝ) : CM.loglikelihood_cm r d.k d.c = logUBCM d.deg (fun i => r (d.inv i)) := by
  rw [← ll_spec]
  exact CM.C10_cm_reduction_likelihood d.dseq r

theorem ll_exp_red_spec (d : UData n) (θ : Fin d.r → ℝ) : CM.loglikelihood_cm_exp θ d.k d.c = logUBCM d.deg (fun i => Real.exp (-θ (d.inv i))) := by
  rw [CM.C09_cm_reparametrisation, ll_red_spec]

theorem ll_ecm_spec (k s : Fin n → ℝ) (sol : ECM.Vec n) : ECM.loglikelihood_ecm sol k s = logUECM k s (fun i => sol (0, i)) (fun i => sol (1, i)) := by
  rw [ECM.ll_eq, logUECM, sum_add_distrib]
  congr 1
  refine sum_congr rfl fun i _ => ?_
  rw [sum_filter]

theorem ll_ecm_exp_spec (k s : Fin n → ℝ) (θ : ECM.Vec n) :
    ECM.loglikelihood_ecm_exp θ k s = logUECM k s (fun i => Real.exp (-θ (0, i))) (fun i => Real.exp (-θ (1, i))) := by
  rw [ECM.C09_ecm_reparametrisation, ll_ecm_spec]

theorem deg_ecm_spec (sol : ECM.Vec n) (i : Fin n) : ECM.expected_ecm sol (0, i) = degUECM (fun i => sol (0, i)) (fun i => sol (1, i)) i := by
  rw [ECM.expected_eq0, degUECM, sum_ne]
  refine sum_congr rfl fun j _ => ?_
  split
  · rfl
  · congr 1
    · ring
    · ring

theorem str_ecm_spec (sol : ECM.Vec n) (i : Fin n) : ECM.expected_ecm sol (1, i) = strUECM (fun i => sol (0, i)) (fun i => sol (1, i)) i := by
  rw [ECM.expected_eq1, strUECM, sum_ne]
  refine sum_congr rfl fun j _ => ?_
  split
  · rfl
  · congr 1
    · ring
    · ring

theorem ll_crema_spec (p : Fin n → Fin n → ℝ) (hs : ∀ i j, p i j = p j i) (hd : ∀ i, p i i = 0) (s β : Fin n → ℝ) :
    CReMa.loglikelihood_crema_undirected β s (triuEdges p) = logCReMa p s β := by
  rw [CReMa.ll_eq, sum_triu, logCReMa, sum_neg_distrib]
  congr 1
  rw [sum_comm]
  refine sum_congr rfl fun i _ => ?_
  rw [sum_filter]
  refine sum_congr rfl fun j _ => ?_
  by_cases h : j < i
  · rw [if_pos h]
    by_cases hp : p j i = 0
    · simp [hp, hs i j]
    · rw [if_pos ⟨h.le, hp⟩, hs i j, add_comm (β i)]
  · rw [if_neg h]
    by_cases h2 : j = i
    · subst h2; simp [hd]
    · rw [if_neg (fun hc => h (lt_of_le_of_ne hc.1 h2))]

theorem str_crema_spec (p : Fin n → Fin n → ℝ) (hs : ∀ i j, p i j = p j i) (hd : ∀ i, p i i = 0) (β : Fin n → ℝ) (i : Fin n) :
    CReMa.expected_strength_crema_undirected β (triuEdges p) i = strCReMa p β i := by
  rw [CReMa.expected_eq, inc_triu p hs hd (fun i j w => w / (β i + β j)) (by simp), strCReMa, sum_ne]
  refine sum_congr rfl fun j _ => ?_
  by_cases h : i = j
  · subst h; simp [hd]
  · simp [h]

end Verif.Solve
