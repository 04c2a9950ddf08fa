import Verif.Lemmas.EMRun
import Verif.Lemmas.FixedModels
import Verif.Lemmas.SolveUTool
import Verif.Lemmas.SolveDTool

/-! The fixed-point recipes of the conditional reconstruction models are instances of `EM.F`. -/

namespace Verif.EM

open Verif Finset Solver Solve Spec

noncomputable section

variable {n : ℕ}

/-- one term of the recipe -/
theorem recipe_term {w a b : ℝ} (h : w ≠ 0 → 0 < a ∧ 0 < b) : -(w / (1 + b / a)) = -(a * (w / (a + b))) := by
  by_cases hw : w = 0
  · simp [hw]
  · obtain ⟨h1, h2⟩ := h hw
    field_simp

theorem neg_ite {P : Prop} [Decidable P] {t s : ℝ} (h : ¬P → t = 0) : -(if P then -t / s else -t) = t / s := by
  split_ifs with hp
  · rw [neg_div, neg_neg]
  · rw [h hp]; simp

/-! ### undirected -/

theorem str_strCReMa {a : Fin n → Fin n → ℝ} (hd : ∀ i, a i i = 0) (β : Fin n → ℝ) : str a β = strCReMa a β := by
  funext i
  rw [str, strCReMa, sum_filter]
  refine sum_congr rfl fun j _ => ?_
  by_cases h : j = i
  · subst h; simp [hd]
  · simp [h]

theorem L_logCReMa {a : Fin n → Fin n → ℝ} (hs : ∀ i j, a i j = a j i) (hd : ∀ i, a i i = 0) (s β : Fin n → ℝ) : EM.L a s β = logCReMa a s β := by
  rw [EM.L, logCReMa]
  congr 1
  have h : ∑ i, ∑ j, a i j * Real.log (β i + β j) = ∑ i, ∑ j, (if j < i then a i j * Real.log (β i + β j) else 0) +
      ∑ i, ∑ j, (if i < j then a i j * Real.log (β i + β j) else 0) := by
    rw [← sum_add_distrib]
    refine sum_congr rfl fun i _ => ?_
    rw [← sum_add_distrib]
    refine sum_congr rfl fun j _ => ?_
    rcases lt_trichotomy i j with h | h | h
    · simp [h, h.le, not_lt.2 h.le]
    · subst h; simp [hd]
    · simp [h, not_lt.2 h.le]
  have h2 : ∑ i, ∑ j, (if i < j then a i j * Real.log (β i + β j) else 0) = ∑ i, ∑ j, (if j < i then a i j * Real.log (β i + β j) else 0) := by
    rw [sum_comm]
    exact sum_congr rfl fun i _ => sum_congr rfl fun j _ => by rw [hs, add_comm (β i)]
  rw [h, h2]
  simp only [sum_filter]
  ring

theorem fn_crema (e : Env) (d : UData n) {a : Fin n → Fin n → ℝ} (hs : ∀ i j, a i j = a j i) (hd : ∀ i, a i i = 0) (haz : ∀ i j, a i j ≠ 0 → d.strength_sequence i ≠ 0)
    (x : Fin n → ℝ) (hx : Good a x) : (cbCrema e d (triuEdges a) .fixed_point).fn x = F a d.strength_sequence x := by
  funext i
  show -CReMa.iterative_crema_undirected x d.strength_sequence (triuEdges a) i = x i * str a x i / d.strength_sequence i
  rw [CReMa.iter_eq, inc_triu a hs hd (fun i j w => -(w / (1 + x j / x i))) (by simp), sum_congr rfl fun j _ =>
    recipe_term (w := a i j) (a := x i) (b := x j) fun h => ⟨hx.pos i j h, hx.pos j i (by rwa [hs])⟩, sum_neg_distrib, ← mul_sum]
  refine neg_ite fun h => ?_
  rw [not_not] at h
  rw [sum_eq_zero fun j _ => by rw [show a i j = 0 from by_contra fun h1 => haz i j h1 h, zero_div], mul_zero]

theorem recipe_crema (e : Env) (d : UData n) {a : Fin n → Fin n → ℝ} (hs : ∀ i j, a i j = a j i) (hd : ∀ i, a i i = 0) (ha : ∀ i j, 0 ≤ a i j)
    (haz : ∀ i j, a i j ≠ 0 → d.strength_sequence i ≠ 0) (hst : ∀ i, 0 ≤ d.strength_sequence i) :
    Recipe (cbCrema e d (triuEdges a) .fixed_point) a d.strength_sequence where
  net := ⟨hs, ha, hst, haz⟩
  fn := fn_crema e d hs hd haz
  len x dx dxo t := by
    refine ⟨_, rfl, ?_⟩
    unfold linsearch_fun_crema_undirected_fixed
    have h := normStage_spec dx dxo (alfa := 1) (beta := 0.5) t (by norm_num) (by norm_num) (by norm_num)
    exact ⟨h.2.2.1, h.1⟩

/-! ### directed -/

@[simp] theorem cat2_zero (x y : Fin n → ℝ) (i : Fin n) : cat2 x y (0, i) = x i := by simp [cat2]
@[simp] theorem cat2_one (x y : Fin n → ℝ) (i : Fin n) : cat2 x y (1, i) = y i := by simp [cat2]

/-- the links of a directed network, from out-nodes `(0, i)` to in-nodes `(1, j)` -/
def bip (a : Fin n → Fin n → ℝ) (v w : Fin 2 × Fin n) : ℝ :=
  if v.1 = 0 ∧ w.1 = 1 then a v.2 w.2 else if v.1 = 1 ∧ w.1 = 0 then a w.2 v.2 else 0

@[simp] theorem bip01 (a : Fin n → Fin n → ℝ) (i j : Fin n) : bip a (0, i) (1, j) = a i j := by simp [bip]
@[simp] theorem bip10 (a : Fin n → Fin n → ℝ) (i j : Fin n) : bip a (1, j) (0, i) = a i j := by simp [bip]
@[simp] theorem bip00 (a : Fin n → Fin n → ℝ) (i j : Fin n) : bip a (0, i) (0, j) = 0 := by simp [bip]
@[simp] theorem bip11 (a : Fin n → Fin n → ℝ) (i j : Fin n) : bip a (1, i) (1, j) = 0 := by simp [bip]

theorem forall_pair {P : Fin 2 × Fin n → Prop} : (∀ v, P v) ↔ (∀ i, P (0, i)) ∧ ∀ i, P (1, i) :=
  ⟨fun h => ⟨fun i => h _, fun i => h _⟩, fun h v => by
    obtain ⟨b, i⟩ := v
    fin_cases b
    · exact h.1 i
    · exact h.2 i⟩

theorem bip_symm (a : Fin n → Fin n → ℝ) : ∀ v w, bip a v w = bip a w v := by
  simp only [forall_pair]; simp

theorem sum_pair (f : Fin 2 × Fin n → ℝ) : ∑ v, f v = ∑ i, f (0, i) + ∑ i, f (1, i) := by
  rw [Fintype.sum_prod_type, Fin.sum_univ_two]

theorem str_out (a : Fin n → Fin n → ℝ) (b : Fin 2 × Fin n → ℝ) (i : Fin n) :
    str (bip a) b (0, i) = outStrCReMa a (fun i => b (0, i)) (fun i => b (1, i)) i := by
  rw [str, sum_pair, outStrCReMa]; simp

theorem str_in (a : Fin n → Fin n → ℝ) (b : Fin 2 × Fin n → ℝ) (i : Fin n) :
    str (bip a) b (1, i) = inStrCReMa a (fun i => b (0, i)) (fun i => b (1, i)) i := by
  rw [str, sum_pair, inStrCReMa]; simp [add_comm (b (1, i))]

theorem L_logDCReMa (a : Fin n → Fin n → ℝ) (so si : Fin n → ℝ) (b : Fin 2 × Fin n → ℝ) :
    EM.L (bip a) (cat2 so si) b = logDCReMa a so si (fun i => b (0, i)) (fun i => b (1, i)) := by
  rw [EM.L, logDCReMa, sum_pair, sum_pair]
  simp only [sum_pair (fun w => bip a _ w * _), bip00, bip01, bip10, bip11, zero_mul, sum_const_zero, zero_add, add_zero, sum_add_distrib]
  have h : ∑ i, ∑ j, a j i * Real.log (b (1, i) + b (0, j)) = ∑ i, ∑ j, a i j * Real.log (b (0, i) + b (1, j)) := by
    rw [sum_comm]
    exact sum_congr rfl fun i _ => sum_congr rfl fun j _ => by rw [add_comm]
  rw [h]
  simp only [cat2_zero, cat2_one]
  ring

theorem fn_dcrema (e : Env) (d : DData n) {a : Fin n → Fin n → ℝ} (haz : ∀ i j, a i j ≠ 0 → d.out_strength i ≠ 0 ∧ d.in_strength j ≠ 0)
    (x : Fin 2 × Fin n → ℝ) (hx : Good (bip a) x) : (cbDCrema e d (nzEdges a) .fixed_point).fn x = F (bip a) (cat2 d.out_strength d.in_strength) x := by
  have hp : ∀ i j, a i j ≠ 0 → 0 < x (0, i) ∧ 0 < x (1, j) := fun i j h => ⟨hx.pos (0, i) (1, j) (by simpa), hx.pos (1, j) (0, i) (by simpa)⟩
  funext v
  revert v
  rw [forall_pair]
  constructor <;> intro i
  · show -DCReMa.iterative_crema_directed _ _ _ _ _ _ (0, i) = x (0, i) * str (bip a) x (0, i) / d.out_strength i
    rw [DCReMa.iter_eq0 _ _ _ _ _ _ (DCM.nodup_nonzero _), DCReMa.arc_out a (fun i j w => -(w / (1 + x (1, j) / x (0, i)))) (by simp), sum_congr rfl fun j _ =>
      recipe_term (w := a i j) (a := x (0, i)) (b := x (1, j)) fun h => hp i j h, sum_neg_distrib, ← mul_sum, str_out]
    refine neg_ite fun h => ?_
    rw [DCM.mem_nonzero, not_not] at h
    rw [sum_eq_zero fun j _ => by rw [show a i j = 0 from by_contra fun h1 => (haz i j h1).1 h, zero_div], mul_zero]
  · show -DCReMa.iterative_crema_directed _ _ _ _ _ _ (1, i) = x (1, i) * str (bip a) x (1, i) / d.in_strength i
    rw [DCReMa.iter_eq1 _ _ _ _ _ _ (DCM.nodup_nonzero _), DCReMa.arc_in a (fun j i w => -(w / (1 + x (0, j) / x (1, i)))) (by simp), sum_congr rfl fun j _ =>
      recipe_term (w := a j i) (a := x (1, i)) (b := x (0, j)) fun h => (hp j i h).symm, sum_neg_distrib, ← mul_sum, str_in,
      sum_congr rfl fun j _ => by rw [add_comm (x (1, i))]]
    refine neg_ite fun h => ?_
    rw [DCM.mem_nonzero, not_not] at h
    rw [sum_eq_zero fun j _ => by rw [show a j i = 0 from by_contra fun h1 => (haz j i h1).2 h, zero_div], mul_zero]

theorem net_dcrema (d : DData n) {a : Fin n → Fin n → ℝ} (ha : ∀ i j, 0 ≤ a i j)
    (haz : ∀ i j, a i j ≠ 0 → d.out_strength i ≠ 0 ∧ d.in_strength j ≠ 0) (hso : ∀ i, 0 ≤ d.out_strength i) (hsi : ∀ i, 0 ≤ d.in_strength i) :
    Net (bip a) (cat2 d.out_strength d.in_strength) where
  symm := bip_symm a
  nonneg := by simp only [forall_pair]; simp [ha]
  s_nonneg := by simp only [forall_pair]; simp [hso, hsi]
  act := by
    simp only [forall_pair]
    refine ⟨fun i => ⟨by simp, fun j => by simpa using fun h => (haz i j h).1⟩, fun i => ⟨fun j => by simpa using fun h => (haz j i h).2, by simp⟩⟩

theorem recipe_dcrema (e : Env) (d : DData n) {a : Fin n → Fin n → ℝ} (ha : ∀ i j, 0 ≤ a i j)
    (haz : ∀ i j, a i j ≠ 0 → d.out_strength i ≠ 0 ∧ d.in_strength j ≠ 0) (hso : ∀ i, 0 ≤ d.out_strength i) (hsi : ∀ i, 0 ≤ d.in_strength i) :
    Recipe (cbDCrema e d (nzEdges a) .fixed_point) (bip a) (cat2 d.out_strength d.in_strength) where
  net := net_dcrema d ha haz hso hsi
  fn := fn_dcrema e d haz
  len x dx dxo t := by
    refine ⟨_, rfl, ?_⟩
    unfold linsearch_fun_crema_directed_fixed
    have h := normStage_spec dx dxo (alfa := 1) (beta := 0.5) t (by norm_num) (by norm_num) (by norm_num)
    exact ⟨h.2.2.1, h.1⟩

end

end Verif.EM
