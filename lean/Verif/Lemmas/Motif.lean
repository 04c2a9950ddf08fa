import Verif.Model.Motif
import Verif.Spec.Motif
import Mathlib.Tactic.FinCases
import Mathlib.Tactic.NormNum
import Mathlib.Logic.Equiv.Fin.Basic

namespace Verif.Motif

open Finset Spec

variable {n : ℕ}

/-- sum over ordered triples of distinct nodes -/
noncomputable def T (term : Fin n → Fin n → Fin n → ℝ) : ℝ := ∑ i, ∑ j, ∑ k, if j ≠ i ∧ k ≠ j ∧ k ≠ i then term i j k else 0

theorem ite_acc' (c : Prop) [Decidable c] (s x : ℝ) : (if c then s + x else s) = s + if c then x else 0 := by
  split <;> simp

theorem tripleLoop_eq' (r : Fin n → Fin n → Prop) [DecidableRel r] (term : Fin n → Fin n → Fin n → ℝ) :
    tripleLoop r term = ∑ i, ∑ j, ∑ k, if r j i ∧ r k j ∧ r k i ∧ r i j then term i j k else 0 := by
  simp only [tripleLoop, ite_acc', forR_add, zero_add]
  refine sum_congr rfl fun i _ => sum_congr rfl fun j _ => ?_
  by_cases h : r j i
  · simp [h]
  · simp [h]

theorem tripleLoop_eq (term : Fin n → Fin n → Fin n → ℝ) : tripleLoop (fun i j => i ≠ j) term = T term := by
  rw [tripleLoop_eq']
  refine sum_congr rfl fun i _ => sum_congr rfl fun j _ => sum_congr rfl fun k _ => ?_
  by_cases h1 : j = i <;> by_cases h2 : k = j <;> by_cases h3 : k = i <;> simp [h1, h2, h3]
  all_goals (intro h; exact absurd h.symm (by simp_all))

/-- the term of each motif as a function of the six entries `ij ji ik ki jk kj` -/
def term6 : Fin 13 → ℝ → ℝ → ℝ → ℝ → ℝ → ℝ → ℝ := ![
  fun ij ji ik ki jk kj => (1 - ij) * ji * (1 - ik) * (1 - ki) * jk * (1 - kj),
  fun ij ji ik ki jk kj => ij * (1 - ji) * (1 - ik) * (1 - ki) * jk * (1 - kj),
  fun ij ji ik ki jk kj => ij * ji * (1 - ik) * (1 - ki) * jk * (1 - kj),
  fun ij ji ik ki jk kj => (1 - ij) * (1 - ji) * ik * (1 - ki) * jk * (1 - kj),
  fun ij ji ik ki jk kj => (1 - ij) * ji * ik * (1 - ki) * jk * (1 - kj),
  fun ij ji ik ki jk kj => ij * ji * ik * (1 - ki) * jk * (1 - kj),
  fun ij ji ik ki jk kj => ij * ji * (1 - ik) * (1 - ki) * (1 - jk) * kj,
  fun ij ji ik ki jk kj => ij * ji * (1 - ik) * (1 - ki) * jk * kj,
  fun ij ji ik ki jk kj => (1 - ij) * ji * ik * (1 - ki) * (1 - jk) * kj,
  fun ij ji ik ki jk kj => (1 - ij) * ji * ik * (1 - ki) * jk * kj,
  fun ij ji ik ki jk kj => ij * (1 - ji) * ik * (1 - ki) * jk * kj,
  fun ij ji ik ki jk kj => ij * ji * ik * (1 - ki) * jk * kj,
  fun ij ji ik ki jk kj => ij * ji * ik * ki * jk * kj]

/-- the sum over triples of a six-argument term of a matrix -/
noncomputable def T6 (f : ℝ → ℝ → ℝ → ℝ → ℝ → ℝ → ℝ) (a : Fin n → Fin n → ℝ) : ℝ :=
  T fun i j k => f (a i j) (a j i) (a i k) (a k i) (a j k) (a k j)

theorem count3_eq (m : Fin 13) (a : Fin n → Fin n → ℝ) : count3 m a = T6 (term6 m) a := by
  unfold T6
  fin_cases m <;> exact tripleLoop_eq _

/-- the function `![i, j, k]` as an equivalence -/
def tripleEquiv : (Fin 3 → Fin n) ≃ Fin n × Fin n × Fin n where
  toFun t := (t 0, t 1, t 2)
  invFun e := ![e.1, e.2.1, e.2.2]
  left_inv t := by funext u; fin_cases u <;> rfl
  right_inv e := rfl

theorem sum_triple (f : (Fin 3 → Fin n) → ℝ) : ∑ t, f t = ∑ i, ∑ j, ∑ k, f ![i, j, k] := by
  rw [← Equiv.sum_comp tripleEquiv.symm f, Fintype.sum_prod_type]
  refine sum_congr rfl fun i _ => ?_
  rw [Fintype.sum_prod_type]
  rfl

theorem injective_triple (i j k : Fin n) : Function.Injective ![i, j, k] ↔ j ≠ i ∧ k ≠ j ∧ k ≠ i := by
  constructor
  · intro h
    refine ⟨fun e => ?_, fun e => ?_, fun e => ?_⟩
    · exact absurd (h (show ![i, j, k] 1 = ![i, j, k] 0 from e)) (by decide)
    · exact absurd (h (show ![i, j, k] 2 = ![i, j, k] 1 from e)) (by decide)
    · exact absurd (h (show ![i, j, k] 2 = ![i, j, k] 0 from e)) (by decide)
  · rintro ⟨h1, h2, h3⟩ u v
    fin_cases u <;> fin_cases v <;> simp [h1, h2, h3, Ne.symm h1, Ne.symm h2, Ne.symm h3]

open Classical in
theorem forall_pairs (P : Fin 3 → Fin 3 → Prop) : (∀ u v, u ≠ v → P u v) ↔ P 0 1 ∧ P 1 0 ∧ P 0 2 ∧ P 2 0 ∧ P 1 2 ∧ P 2 1 := by
  constructor
  · intro h; exact ⟨h _ _ (by decide), h _ _ (by decide), h _ _ (by decide), h _ _ (by decide), h _ _ (by decide), h _ _ (by decide)⟩
  · rintro ⟨h1, h2, h3, h4, h5, h6⟩ u v
    fin_cases u <;> fin_cases v <;> simp_all

/-- the factor of a present (`true`) or absent (`false`) arc -/
def lit (b : Bool) (x : ℝ) : ℝ := if b then x else 1 - x

theorem term6_lit (m : Fin 13) (p1 p2 p3 p4 p5 p6 : ℝ) :
    term6 m p1 p2 p3 p4 p5 p6 = lit (decide ((0, 1) ∈ triadArcs m)) p1 * lit (decide ((1, 0) ∈ triadArcs m)) p2 * lit (decide ((0, 2) ∈ triadArcs m)) p3 *
      lit (decide ((2, 0) ∈ triadArcs m)) p4 * lit (decide ((1, 2) ∈ triadArcs m)) p5 * lit (decide ((2, 1) ∈ triadArcs m)) p6 := by
  fin_cases m <;> rfl

theorem lit_ite (B : Bool) (p : Prop) [Decidable p] : lit B (if p then 1 else 0) = if (p ↔ B = true) then 1 else 0 := by
  cases B <;> by_cases h : p <;> simp [lit, h]

theorem mul_ite_ite (p q : Prop) [Decidable p] [Decidable q] : ((if p then 1 else 0 : ℝ) * if q then 1 else 0) = if p ∧ q then 1 else 0 := by
  by_cases p <;> by_cases q <;> simp_all

open Classical in
theorem term6_indicator (m : Fin 13) (p1 p2 p3 p4 p5 p6 : Prop) :
    term6 m (if p1 then 1 else 0) (if p2 then 1 else 0) (if p3 then 1 else 0) (if p4 then 1 else 0) (if p5 then 1 else 0) (if p6 then 1 else 0) =
    if (p1 ↔ (0, 1) ∈ triadArcs m) ∧ (p2 ↔ (1, 0) ∈ triadArcs m) ∧ (p3 ↔ (0, 2) ∈ triadArcs m) ∧ (p4 ↔ (2, 0) ∈ triadArcs m) ∧
      (p5 ↔ (1, 2) ∈ triadArcs m) ∧ (p6 ↔ (2, 1) ∈ triadArcs m) then 1 else 0 := by
  rw [term6_lit]
  simp only [lit_ite, mul_ite_ite, decide_eq_true_iff, and_assoc]

open Classical in
theorem count3_embeddings (G : Fin n → Fin n → Prop) (m : Fin 13) :
    count3 m (adj G) = ∑ t : Fin 3 → Fin n, if Induces G m t then 1 else 0 := by
  rw [count3_eq, sum_triple]
  unfold T6 T
  refine sum_congr rfl fun i _ => sum_congr rfl fun j _ => sum_congr rfl fun k _ => ?_
  simp only [Induces, injective_triple, IsPattern, forall_pairs]
  by_cases h : j ≠ i ∧ k ≠ j ∧ k ≠ i
  · rw [if_pos h]
    simp only [adj, term6_indicator]
    refine if_congr ?_ rfl rfl
    constructor
    · intro hh; exact ⟨h, hh⟩
    · intro hh; exact hh.2
  · simp [h]

end Verif.Motif
