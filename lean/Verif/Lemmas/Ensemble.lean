import Verif.Model.Ensemble
import Verif.Lemmas.Motif
import Verif.Lemmas.Expect
import Mathlib.Analysis.Calculus.Deriv.Add
import Mathlib.Analysis.Calculus.Deriv.Mul

namespace Verif.Ens

open Finset Spec Verif.Motif

variable {n : ℕ}

theorem lit_affine (b : Bool) (t : ℝ) : lit b t = lit b 0 + t * (lit b 1 - lit b 0) := by
  cases b <;> simp [lit] <;> ring

/-- affine in each of the six arguments -/
structure Affine6 (f : ℝ → ℝ → ℝ → ℝ → ℝ → ℝ → ℝ) : Prop where
  a1 : ∀ t p2 p3 p4 p5 p6, f t p2 p3 p4 p5 p6 = f 0 p2 p3 p4 p5 p6 + t * (f 1 p2 p3 p4 p5 p6 - f 0 p2 p3 p4 p5 p6)
  a2 : ∀ t p1 p3 p4 p5 p6, f p1 t p3 p4 p5 p6 = f p1 0 p3 p4 p5 p6 + t * (f p1 1 p3 p4 p5 p6 - f p1 0 p3 p4 p5 p6)
  a3 : ∀ t p1 p2 p4 p5 p6, f p1 p2 t p4 p5 p6 = f p1 p2 0 p4 p5 p6 + t * (f p1 p2 1 p4 p5 p6 - f p1 p2 0 p4 p5 p6)
  a4 : ∀ t p1 p2 p3 p5 p6, f p1 p2 p3 t p5 p6 = f p1 p2 p3 0 p5 p6 + t * (f p1 p2 p3 1 p5 p6 - f p1 p2 p3 0 p5 p6)
  a5 : ∀ t p1 p2 p3 p4 p6, f p1 p2 p3 p4 t p6 = f p1 p2 p3 p4 0 p6 + t * (f p1 p2 p3 p4 1 p6 - f p1 p2 p3 p4 0 p6)
  a6 : ∀ t p1 p2 p3 p4 p5, f p1 p2 p3 p4 p5 t = f p1 p2 p3 p4 p5 0 + t * (f p1 p2 p3 p4 p5 1 - f p1 p2 p3 p4 p5 0)

theorem term6_affine (m : Fin 13) : Affine6 (term6 m) := by
  constructor <;> intro t _ _ _ _ _ <;> simp only [term6_lit] <;> rw [lit_affine _ t] <;> ring

/-- six entries at six distinct positions -/
theorem multiAffine_triple (f : ℝ → ℝ → ℝ → ℝ → ℝ → ℝ → ℝ) (hf : Affine6 f) {i j k : Fin n} (h1 : j ≠ i) (h2 : k ≠ j) (h3 : k ≠ i) :
    MultiAffine (fun x : Fin n × Fin n → ℝ => f (x (i, j)) (x (j, i)) (x (i, k)) (x (k, i)) (x (j, k)) (x (k, j))) := by
  intro x e t
  have h1' := Ne.symm h1
  have h2' := Ne.symm h2
  have h3' := Ne.symm h3
  by_cases e1 : e = (i, j)
  · subst e1
    simp only [Function.update_apply, Prod.mk.injEq, h1, h2, h3, h1', h2', h3', and_self, and_true, and_false, false_and, if_true, if_false]
    exact hf.a1 _ _ _ _ _ _
  by_cases e2 : e = (j, i)
  · subst e2
    simp only [Function.update_apply, Prod.mk.injEq, h1, h2, h3, h1', h2', h3', and_self, and_true, and_false, false_and, if_true, if_false]
    exact hf.a2 _ _ _ _ _ _
  by_cases e3 : e = (i, k)
  · subst e3
    simp only [Function.update_apply, Prod.mk.injEq, h1, h2, h3, h1', h2', h3', and_self, and_true, and_false, false_and, if_true, if_false]
    exact hf.a3 _ _ _ _ _ _
  by_cases e4 : e = (k, i)
  · subst e4
    simp only [Function.update_apply, Prod.mk.injEq, h1, h2, h3, h1', h2', h3', and_self, and_true, and_false, false_and, if_true, if_false]
    exact hf.a4 _ _ _ _ _ _
  by_cases e5 : e = (j, k)
  · subst e5
    simp only [Function.update_apply, Prod.mk.injEq, h1, h2, h3, h1', h2', h3', and_self, and_true, and_false, false_and, if_true, if_false]
    exact hf.a5 _ _ _ _ _ _
  by_cases e6 : e = (k, j)
  · subst e6
    simp only [Function.update_apply, Prod.mk.injEq, h1, h2, h3, h1', h2', h3', and_self, and_true, and_false, false_and, if_true, if_false]
    exact hf.a6 _ _ _ _ _ _
  simp only [Function.update_apply, Ne.symm e1, Ne.symm e2, Ne.symm e3, Ne.symm e4, Ne.symm e5, Ne.symm e6, if_false]
  ring

theorem multiAffine_T6 (f : ℝ → ℝ → ℝ → ℝ → ℝ → ℝ → ℝ) (hf : Affine6 f) :
    MultiAffine (fun x : Fin n × Fin n → ℝ => T6 f (fun i j => x (i, j))) := by
  unfold T6 T
  refine MultiAffine.sum _ _ fun i _ => MultiAffine.sum _ _ fun j _ => MultiAffine.sum _ _ fun k _ => ?_
  by_cases h : j ≠ i ∧ k ≠ j ∧ k ≠ i
  · simp only [if_pos h]
    exact multiAffine_triple f hf h.1 h.2.1 h.2.2
  · simp only [if_neg h]
    exact MultiAffine.const 0

/-- the counters only look at the off-diagonal entries -/
theorem T6_congr (f : ℝ → ℝ → ℝ → ℝ → ℝ → ℝ → ℝ) (a b : Fin n → Fin n → ℝ) (h : ∀ i j, i ≠ j → a i j = b i j) : T6 f a = T6 f b := by
  unfold T6 T
  refine sum_congr rfl fun i _ => sum_congr rfl fun j _ => sum_congr rfl fun k _ => ?_
  by_cases hd : j ≠ i ∧ k ≠ j ∧ k ≠ i
  · rw [if_pos hd, if_pos hd]
    beta_reduce
    rw [h _ _ hd.1, h _ _ (Ne.symm hd.1), h _ _ hd.2.1, h _ _ (Ne.symm hd.2.1), h _ _ hd.2.2, h _ _ (Ne.symm hd.2.2)]
  · rw [if_neg hd, if_neg hd]

theorem diAdj_off (ω : Fin n × Fin n → Bool) (i j : Fin n) (h : i ≠ j) : diAdj ω i j = Spec.val (ω (i, j)) := by
  simp [diAdj, Spec.val, h]

/-- expectation of a triad count over independent arcs: the same sum at the probabilities -/
theorem expect_count3 (p : Fin n × Fin n → ℝ) (m : Fin 13) :
    expect p (fun ω => count3 m (diAdj ω)) = T6 (term6 m) (fun i j => p (i, j)) := by
  rw [← expect_multiAffine p _ (multiAffine_T6 (term6 m) (term6_affine m))]
  congr 1
  funext ω
  rw [count3_eq]
  exact T6_congr _ _ _ fun i j h => diAdj_off ω i j h

theorem expLoop_eq (sol : Vec n) (f : ℝ → ℝ → ℝ → ℝ → ℝ → ℝ → ℝ) : expLoop sol f = T6 f (pr sol) := by
  simp only [expLoop, ite_acc', forR_add, zero_add]
  unfold T6 T
  refine sum_congr rfl fun i _ => sum_congr rfl fun j _ => ?_
  by_cases h : j = i
  · simp [h]
  · simp [h]

theorem T6_ext (f g : ℝ → ℝ → ℝ → ℝ → ℝ → ℝ → ℝ) (h : ∀ a b c d e k, f a b c d e k = g a b c d e k) (a : Fin n → Fin n → ℝ) : T6 f a = T6 g a := by
  have : f = g := by funext a b c d e k; exact h a b c d e k
  rw [this]

theorem expected3_eq (m : Fin 13) (sol : Vec n) : expected3 m sol = T6 (term6 m) (pr sol) := by
  match m with
  | 0 => exact (expLoop_eq sol _).trans (T6_ext _ _ (fun a b c d e k => by
      show (1 - a) * b * e * (1 - k) * (1 - c) * (1 - d) = (1 - a) * b * (1 - c) * (1 - d) * e * (1 - k); ring) _)
  | 1 => exact expLoop_eq sol (term6 1)
  | 2 => exact expLoop_eq sol (term6 2)
  | 3 => exact (expLoop_eq sol _).trans (T6_ext _ _ (fun a b c d e k => by
      show (1 - a) * (1 - b) * (1 - d) * c * e * (1 - k) = (1 - a) * (1 - b) * c * (1 - d) * e * (1 - k); ring) _)
  | 4 => exact expLoop_eq sol (term6 4)
  | 5 => exact expLoop_eq sol (term6 5)
  | 6 => exact expLoop_eq sol (term6 6)
  | 7 => exact expLoop_eq sol (term6 7)
  | 8 => exact expLoop_eq sol (term6 8)
  | 9 => exact expLoop_eq sol (term6 9)
  | 10 => exact expLoop_eq sol (term6 10)
  | 11 => exact expLoop_eq sol (term6 11)
  | 12 => exact expLoop_eq sol (term6 12)

/-- the sum of the six partial differences of `f` at the entries of the triple whose missing node is the third one; `u v w` as below -/
def delta6 (f : ℝ → ℝ → ℝ → ℝ → ℝ → ℝ → ℝ) (uv vu uw wu vw wv : ℝ) : ℝ :=
  (f 1 vu uw wu vw wv - f 0 vu uw wu vw wv) + (f vu 1 vw wv uw wu - f vu 0 vw wv uw wu) + (f uw wu 1 vu wv vw - f uw wu 0 vu wv vw) +
  (f vw wv vu 1 wu uw - f vw wv vu 0 wu uw) + (f wu uw wv vw 1 vu - f wu uw wv vw 0 vu) + (f wv vw wu uw vu 1 - f wv vw wu uw vu 0)

theorem T_pick (g : Fin n → Fin n → Fin n → ℝ) (u v : Fin n) (huv : u ≠ v) :
    (T fun i j k => if i = u ∧ j = v then g i j k else 0) = ∑ w, if v ≠ w ∧ u ≠ w then g u v w else 0 := by
  unfold T
  rw [sum_eq_single u, sum_eq_single v]
  · refine sum_congr rfl fun w _ => ?_
    simp only [and_self, if_true]
    refine if_congr ?_ rfl rfl
    constructor
    · rintro ⟨_, h2, h3⟩; exact ⟨Ne.symm h2, Ne.symm h3⟩
    · rintro ⟨h2, h3⟩; exact ⟨Ne.symm huv, Ne.symm h2, Ne.symm h3⟩
  · intro j _ hj; exact sum_eq_zero fun k _ => by simp [hj]
  · simp
  · intro i _ hi; exact sum_eq_zero fun j _ => sum_eq_zero fun k _ => by simp [hi]
  · simp

theorem T_add (f g : Fin n → Fin n → Fin n → ℝ) : (T fun i j k => f i j k + g i j k) = T f + T g := by
  unfold T
  simp only [← sum_add_distrib]
  refine sum_congr rfl fun i _ => sum_congr rfl fun j _ => sum_congr rfl fun k _ => ?_
  split <;> simp

/-- permuting the roles of the three nodes -/
theorem T_swap12 (f : Fin n → Fin n → Fin n → ℝ) : T f = T fun i j k => f j i k := by
  unfold T
  rw [sum_comm]
  refine sum_congr rfl fun i _ => sum_congr rfl fun j _ => sum_congr rfl fun k _ => if_congr ?_ rfl rfl
  constructor
  · rintro ⟨h1, h2, h3⟩; exact ⟨Ne.symm h1, h3, h2⟩
  · rintro ⟨h1, h2, h3⟩; exact ⟨Ne.symm h1, h3, h2⟩

theorem T_swap23 (f : Fin n → Fin n → Fin n → ℝ) : T f = T fun i j k => f i k j := by
  unfold T
  refine sum_congr rfl fun i _ => ?_
  rw [sum_comm]
  refine sum_congr rfl fun j _ => sum_congr rfl fun k _ => if_congr ?_ rfl rfl
  constructor
  · rintro ⟨h1, h2, h3⟩; exact ⟨h3, Ne.symm h2, h1⟩
  · rintro ⟨h1, h2, h3⟩; exact ⟨h3, Ne.symm h2, h1⟩

/-- the difference of the triple sum when entry `(u, v)` goes from 0 to 1 -/
theorem delta_T6 (f : ℝ → ℝ → ℝ → ℝ → ℝ → ℝ → ℝ) (p : Fin n × Fin n → ℝ) (u v : Fin n) (huv : u ≠ v) :
    T6 f (fun i j => Function.update p (u, v) 1 (i, j)) - T6 f (fun i j => Function.update p (u, v) 0 (i, j)) =
      ∑ w, if v ≠ w ∧ u ≠ w then delta6 f (p (u, v)) (p (v, u)) (p (u, w)) (p (w, u)) (p (v, w)) (p (w, v)) else 0 := by
  have hvu := Ne.symm huv
  let a : Fin n → Fin n → ℝ := fun i j => p (i, j)
  have hpt : T6 f (fun i j => Function.update p (u, v) 1 (i, j)) - T6 f (fun i j => Function.update p (u, v) 0 (i, j)) =
      T fun i j k =>
        (if i = u ∧ j = v then f 1 (a j i) (a i k) (a k i) (a j k) (a k j) - f 0 (a j i) (a i k) (a k i) (a j k) (a k j) else 0) +
        ((if j = u ∧ i = v then f (a i j) 1 (a i k) (a k i) (a j k) (a k j) - f (a i j) 0 (a i k) (a k i) (a j k) (a k j) else 0) +
        ((if i = u ∧ k = v then f (a i j) (a j i) 1 (a k i) (a j k) (a k j) - f (a i j) (a j i) 0 (a k i) (a j k) (a k j) else 0) +
        ((if k = u ∧ i = v then f (a i j) (a j i) (a i k) 1 (a j k) (a k j) - f (a i j) (a j i) (a i k) 0 (a j k) (a k j) else 0) +
        ((if j = u ∧ k = v then f (a i j) (a j i) (a i k) (a k i) 1 (a k j) - f (a i j) (a j i) (a i k) (a k i) 0 (a k j) else 0) +
        (if k = u ∧ j = v then f (a i j) (a j i) (a i k) (a k i) (a j k) 1 - f (a i j) (a j i) (a i k) (a k i) (a j k) 0 else 0))))) := by
    unfold T6 T
    simp only [← sum_sub_distrib]
    refine sum_congr rfl fun i _ => sum_congr rfl fun j _ => sum_congr rfl fun k _ => ?_
    by_cases hd : j ≠ i ∧ k ≠ j ∧ k ≠ i
    swap
    · rw [if_neg hd, if_neg hd, if_neg hd, sub_zero]
    rw [if_pos hd, if_pos hd, if_pos hd]
    obtain ⟨h1, h2, h3⟩ := hd
    have h1' := Ne.symm h1
    have h2' := Ne.symm h2
    have h3' := Ne.symm h3
    simp only [Function.update_apply, Prod.mk.injEq, a]
    by_cases iu : i = u
    · subst iu
      by_cases jv : j = v
      · subst jv; simp [*]
      · by_cases kv : k = v
        · subst kv; simp [*]
        · simp [*]
    · by_cases ju : j = u
      · subst ju
        by_cases iv : i = v
        · subst iv; simp [*]
        · by_cases kv : k = v
          · subst kv; simp [*]
          · simp [*]
      · by_cases ku : k = u
        · subst ku
          by_cases iv : i = v
          · subst iv; simp [*]
          · by_cases jv : j = v
            · subst jv; simp [*]
            · simp [*]
        · simp [*]
  rw [hpt]
  simp only [T_add]
  rw [T_pick _ u v huv,
    T_swap12 (fun i j k => if j = u ∧ i = v then _ else _), T_pick _ u v huv,
    T_swap23 (fun i j k => if i = u ∧ k = v then _ else _), T_pick _ u v huv,
    T_swap23 (fun i j k => if k = u ∧ i = v then _ else _), T_swap12 (fun i j k => if j = u ∧ i = v then _ else _), T_pick _ u v huv,
    T_swap12 (fun i j k => if j = u ∧ k = v then _ else _), T_swap23 (fun i j k => if i = u ∧ k = v then _ else _), T_pick _ u v huv,
    T_swap23 (fun i j k => if k = u ∧ j = v then _ else _), T_swap12 (fun i j k => if j = u ∧ k = v then _ else _),
    T_swap23 (fun i j k => if i = u ∧ k = v then _ else _), T_pick _ u v huv]
  simp only [← sum_add_distrib]
  refine sum_congr rfl fun w _ => ?_
  split
  · simp only [delta6, a]; ring
  · simp

theorem stdLoop_eq (sol : Vec n) (upd : ℝ → ℝ → ℝ → ℝ → ℝ → ℝ → ℝ → ℝ) (fin : ℝ → ℝ) (g : ℝ → ℝ → ℝ → ℝ → ℝ → ℝ → ℝ)
    (c : ℝ) (hfin : ∀ s, fin s = c * s) (h : ∀ a b d e f k s, upd a b d e f k s = s + g a b d e f k) :
    stdLoop sol upd fin = Real.sqrt (∑ i, ∑ j, if i ≠ j then (1 - pr sol j i) * pr sol j i *
      (∑ k, if i ≠ k ∧ j ≠ k then c * g (pr sol i j) (pr sol j i) (pr sol i k) (pr sol k i) (pr sol j k) (pr sol k j) else 0) ^ 2 else 0) := by
  unfold stdLoop
  simp only [h, ite_acc', forR_add, zero_add, hfin, mul_sum, mul_ite, mul_zero]

/-- the six partial differences in the naming of the code: the arc is `(j, i)` -/
def deltaCode (f : ℝ → ℝ → ℝ → ℝ → ℝ → ℝ → ℝ) (ij ji ik ki jk kj : ℝ) : ℝ := delta6 f ji ij jk kj ik ki

/-- the right-hand side of `std3_eq` -/
noncomputable def stdSpec (f : ℝ → ℝ → ℝ → ℝ → ℝ → ℝ → ℝ) (sol : Vec n) : ℝ := Real.sqrt (∑ i, ∑ j, if i ≠ j then (1 - pr sol j i) * pr sol j i *
      (∑ k, if i ≠ k ∧ j ≠ k then deltaCode f (pr sol i j) (pr sol j i) (pr sol i k) (pr sol k i) (pr sol j k) (pr sol k j) else 0) ^ 2 else 0)

theorem std_fin (sol : Vec n) (f g : ℝ → ℝ → ℝ → ℝ → ℝ → ℝ → ℝ) (c : ℝ) (h : ∀ a b d e h k, c * g a b d e h k = deltaCode f a b d e h k) :
    Real.sqrt (∑ i, ∑ j, if i ≠ j then (1 - pr sol j i) * pr sol j i *
      (∑ k, if i ≠ k ∧ j ≠ k then c * g (pr sol i j) (pr sol j i) (pr sol i k) (pr sol k i) (pr sol j k) (pr sol k j) else 0) ^ 2 else 0) = stdSpec f sol := by
  unfold stdSpec
  simp only [h]

theorem one_fin : ∀ s : ℝ, (fun s : ℝ => s) s = 1 * s := fun s => (one_mul s).symm

theorem delta_1 (a b d e f k : ℝ) : 1 * (0 - (2*(1-f)*k*(1-d)*e*(1-a)) + (-(1-k)*(1-f)*(1-e)*d*a + (1-k)*f*(1-e)*(1-d)*(1-a)) + (-d*(1-e)*(1-k)*(1-f)*a + f*(1-k)*(1-e)*(1-d)*(1-a))) = deltaCode (term6 0) a b d e f k := by
  show _ = (((1 - (1))*(a)*(1 - (f))*(1 - (k))*(d)*(1 - (e))) - ((1 - (0))*(a)*(1 - (f))*(1 - (k))*(d)*(1 - (e)))) + (((1 - (a))*(1)*(1 - (d))*(1 - (e))*(f)*(1 - (k))) - ((1 - (a))*(0)*(1 - (d))*(1 - (e))*(f)*(1 - (k)))) + (((1 - (f))*(k)*(1 - (1))*(1 - (a))*(e)*(1 - (d))) - ((1 - (f))*(k)*(1 - (0))*(1 - (a))*(e)*(1 - (d)))) + (((1 - (d))*(e)*(1 - (a))*(1 - (1))*(k)*(1 - (f))) - ((1 - (d))*(e)*(1 - (a))*(1 - (0))*(k)*(1 - (f)))) + (((1 - (k))*(f)*(1 - (e))*(1 - (d))*(1)*(1 - (a))) - ((1 - (k))*(f)*(1 - (e))*(1 - (d))*(0)*(1 - (a)))) + (((1 - (e))*(d)*(1 - (k))*(1 - (f))*(a)*(1 - (1))) - ((1 - (e))*(d)*(1 - (k))*(1 - (f))*(a)*(1 - (0))))
  ring

theorem std_eq_1 (sol : Vec n) : std_dcm_3motif_1 sol = stdSpec (term6 0) sol :=
  (stdLoop_eq sol _ _ (fun a b d e f k => 0 - (2*(1-f)*k*(1-d)*e*(1-a)) + (-(1-k)*(1-f)*(1-e)*d*a + (1-k)*f*(1-e)*(1-d)*(1-a)) + (-d*(1-e)*(1-k)*(1-f)*a + f*(1-k)*(1-e)*(1-d)*(1-a))) 1 one_fin (fun a b d e f k s => by ring)).trans
    (std_fin sol (term6 0) (fun a b d e f k => 0 - (2*(1-f)*k*(1-d)*e*(1-a)) + (-(1-k)*(1-f)*(1-e)*d*a + (1-k)*f*(1-e)*(1-d)*(1-a)) + (-d*(1-e)*(1-k)*(1-f)*a + f*(1-k)*(1-e)*(1-d)*(1-a))) 1 delta_1)

theorem delta_2 (a b d e f k : ℝ) : 1 * (0 - (((1-f)*k*(1-e)*d + (1-k)*f*(1-d)*e)*(1-a)) + ((-(1-k)*(1-f)*(1-d)*e*a + (1-e)*(1-d)*(1-f)*k*(1-a))) + ((-(1-d)*(1-e)*(1-k)*f*a + (1 - f)*(1-k)*(1-e)*d*(1-a)))) = deltaCode (term6 1) a b d e f k := by
  show _ = (((1)*(1 - (a))*(1 - (f))*(1 - (k))*(d)*(1 - (e))) - ((0)*(1 - (a))*(1 - (f))*(1 - (k))*(d)*(1 - (e)))) + (((a)*(1 - (1))*(1 - (d))*(1 - (e))*(f)*(1 - (k))) - ((a)*(1 - (0))*(1 - (d))*(1 - (e))*(f)*(1 - (k)))) + (((f)*(1 - (k))*(1 - (1))*(1 - (a))*(e)*(1 - (d))) - ((f)*(1 - (k))*(1 - (0))*(1 - (a))*(e)*(1 - (d)))) + (((d)*(1 - (e))*(1 - (a))*(1 - (1))*(k)*(1 - (f))) - ((d)*(1 - (e))*(1 - (a))*(1 - (0))*(k)*(1 - (f)))) + (((k)*(1 - (f))*(1 - (e))*(1 - (d))*(1)*(1 - (a))) - ((k)*(1 - (f))*(1 - (e))*(1 - (d))*(0)*(1 - (a)))) + (((e)*(1 - (d))*(1 - (k))*(1 - (f))*(a)*(1 - (1))) - ((e)*(1 - (d))*(1 - (k))*(1 - (f))*(a)*(1 - (0))))
  ring

theorem std_eq_2 (sol : Vec n) : std_dcm_3motif_2 sol = stdSpec (term6 1) sol :=
  (stdLoop_eq sol _ _ (fun a b d e f k => 0 - (((1-f)*k*(1-e)*d + (1-k)*f*(1-d)*e)*(1-a)) + ((-(1-k)*(1-f)*(1-d)*e*a + (1-e)*(1-d)*(1-f)*k*(1-a))) + ((-(1-d)*(1-e)*(1-k)*f*a + (1 - f)*(1-k)*(1-e)*d*(1-a)))) 1 one_fin (fun a b d e f k s => by ring)).trans
    (std_fin sol (term6 1) (fun a b d e f k => 0 - (((1-f)*k*(1-e)*d + (1-k)*f*(1-d)*e)*(1-a)) + ((-(1-k)*(1-f)*(1-d)*e*a + (1-e)*(1-d)*(1-f)*k*(1-a))) + ((-(1-d)*(1-e)*(1-k)*f*a + (1 - f)*(1-k)*(1-e)*d*(1-a)))) 1 delta_2)

theorem delta_3 (a b d e f k : ℝ) : 1 * (0 - ((f*k*e*(1 - d) + (1-f)*k*d*e)*(1 - a)) + ((-(1-k)*(1-f)*d*e*a + (1-e)*(1-d)*f*k*(1-a))) + (((1-d)*(1-e)*(1-k)*f*a + (1 - f)*(1-k)*(1-e)*d*a))) = deltaCode (term6 2) a b d e f k := by
  show _ = (((1)*(a)*(1 - (f))*(1 - (k))*(d)*(1 - (e))) - ((0)*(a)*(1 - (f))*(1 - (k))*(d)*(1 - (e)))) + (((a)*(1)*(1 - (d))*(1 - (e))*(f)*(1 - (k))) - ((a)*(0)*(1 - (d))*(1 - (e))*(f)*(1 - (k)))) + (((f)*(k)*(1 - (1))*(1 - (a))*(e)*(1 - (d))) - ((f)*(k)*(1 - (0))*(1 - (a))*(e)*(1 - (d)))) + (((d)*(e)*(1 - (a))*(1 - (1))*(k)*(1 - (f))) - ((d)*(e)*(1 - (a))*(1 - (0))*(k)*(1 - (f)))) + (((k)*(f)*(1 - (e))*(1 - (d))*(1)*(1 - (a))) - ((k)*(f)*(1 - (e))*(1 - (d))*(0)*(1 - (a)))) + (((e)*(d)*(1 - (k))*(1 - (f))*(a)*(1 - (1))) - ((e)*(d)*(1 - (k))*(1 - (f))*(a)*(1 - (0))))
  ring

theorem std_eq_3 (sol : Vec n) : std_dcm_3motif_3 sol = stdSpec (term6 2) sol :=
  (stdLoop_eq sol _ _ (fun a b d e f k => 0 - ((f*k*e*(1 - d) + (1-f)*k*d*e)*(1 - a)) + ((-(1-k)*(1-f)*d*e*a + (1-e)*(1-d)*f*k*(1-a))) + (((1-d)*(1-e)*(1-k)*f*a + (1 - f)*(1-k)*(1-e)*d*a))) 1 one_fin (fun a b d e f k s => by ring)).trans
    (std_fin sol (term6 2) (fun a b d e f k => 0 - ((f*k*e*(1 - d) + (1-f)*k*d*e)*(1 - a)) + ((-(1-k)*(1-f)*d*e*a + (1-e)*(1-d)*f*k*(1-a))) + (((1-d)*(1-e)*(1-k)*f*a + (1 - f)*(1-k)*(1-e)*d*a))) 1 delta_3)

theorem delta_4 (a b d e f k : ℝ) : 1 * (0 + (((1 - f)*(1 - k)*(1 - d)*e*(1 - a) - (1 - f)*k*(1 - d)*(1 - e)*a)) + (-k*(1-f)*(1 - d)*(1 - e)*a + e*(1-d)*(1 - f)*(1 - k)*(1-a)) - (2*(1 - a)*d*(1 - e)*(1 - k)*f)) = deltaCode (term6 3) a b d e f k := by
  show _ = (((1 - (1))*(1 - (a))*(f)*(1 - (k))*(d)*(1 - (e))) - ((1 - (0))*(1 - (a))*(f)*(1 - (k))*(d)*(1 - (e)))) + (((1 - (a))*(1 - (1))*(d)*(1 - (e))*(f)*(1 - (k))) - ((1 - (a))*(1 - (0))*(d)*(1 - (e))*(f)*(1 - (k)))) + (((1 - (f))*(1 - (k))*(1)*(1 - (a))*(e)*(1 - (d))) - ((1 - (f))*(1 - (k))*(0)*(1 - (a))*(e)*(1 - (d)))) + (((1 - (d))*(1 - (e))*(a)*(1 - (1))*(k)*(1 - (f))) - ((1 - (d))*(1 - (e))*(a)*(1 - (0))*(k)*(1 - (f)))) + (((1 - (k))*(1 - (f))*(e)*(1 - (d))*(1)*(1 - (a))) - ((1 - (k))*(1 - (f))*(e)*(1 - (d))*(0)*(1 - (a)))) + (((1 - (e))*(1 - (d))*(k)*(1 - (f))*(a)*(1 - (1))) - ((1 - (e))*(1 - (d))*(k)*(1 - (f))*(a)*(1 - (0))))
  ring

theorem std_eq_4 (sol : Vec n) : std_dcm_3motif_4 sol = stdSpec (term6 3) sol :=
  (stdLoop_eq sol _ _ (fun a b d e f k => 0 + (((1 - f)*(1 - k)*(1 - d)*e*(1 - a) - (1 - f)*k*(1 - d)*(1 - e)*a)) + (-k*(1-f)*(1 - d)*(1 - e)*a + e*(1-d)*(1 - f)*(1 - k)*(1-a)) - (2*(1 - a)*d*(1 - e)*(1 - k)*f)) 1 one_fin (fun a b d e f k s => by ring)).trans
    (std_fin sol (term6 3) (fun a b d e f k => 0 + (((1 - f)*(1 - k)*(1 - d)*e*(1 - a) - (1 - f)*k*(1 - d)*(1 - e)*a)) + (-k*(1-f)*(1 - d)*(1 - e)*a + e*(1-d)*(1 - f)*(1 - k)*(1-a)) - (2*(1 - a)*d*(1 - e)*(1 - k)*f)) 1 delta_4)

theorem delta_5 (a b d e f k : ℝ) : 1 * (0 + ((1 - f)*k*(1-d)*e*(1 - 2*a)) + ((-k*(1 - f)*d*(1 - e)*a + e*(1-d)*f*(1 - k)*(1-a))) + ((1 - 2*a)*d*(1 - e)*(1 - k)*f)) = deltaCode (term6 4) a b d e f k := by
  show _ = (((1 - (1))*(a)*(f)*(1 - (k))*(d)*(1 - (e))) - ((1 - (0))*(a)*(f)*(1 - (k))*(d)*(1 - (e)))) + (((1 - (a))*(1)*(d)*(1 - (e))*(f)*(1 - (k))) - ((1 - (a))*(0)*(d)*(1 - (e))*(f)*(1 - (k)))) + (((1 - (f))*(k)*(1)*(1 - (a))*(e)*(1 - (d))) - ((1 - (f))*(k)*(0)*(1 - (a))*(e)*(1 - (d)))) + (((1 - (d))*(e)*(a)*(1 - (1))*(k)*(1 - (f))) - ((1 - (d))*(e)*(a)*(1 - (0))*(k)*(1 - (f)))) + (((1 - (k))*(f)*(e)*(1 - (d))*(1)*(1 - (a))) - ((1 - (k))*(f)*(e)*(1 - (d))*(0)*(1 - (a)))) + (((1 - (e))*(d)*(k)*(1 - (f))*(a)*(1 - (1))) - ((1 - (e))*(d)*(k)*(1 - (f))*(a)*(1 - (0))))
  ring

theorem std_eq_5 (sol : Vec n) : std_dcm_3motif_5 sol = stdSpec (term6 4) sol :=
  (stdLoop_eq sol _ _ (fun a b d e f k => 0 + ((1 - f)*k*(1-d)*e*(1 - 2*a)) + ((-k*(1 - f)*d*(1 - e)*a + e*(1-d)*f*(1 - k)*(1-a))) + ((1 - 2*a)*d*(1 - e)*(1 - k)*f)) 1 one_fin (fun a b d e f k s => by ring)).trans
    (std_fin sol (term6 4) (fun a b d e f k => 0 + ((1 - f)*k*(1-d)*e*(1 - 2*a)) + ((-k*(1 - f)*d*(1 - e)*a + e*(1-d)*f*(1 - k)*(1-a))) + ((1 - 2*a)*d*(1 - e)*(1 - k)*f)) 1 delta_5)

theorem delta_6 (a b d e f k : ℝ) : 1 * (0 + (f*k*(1-d)*e*(1 - a) - (1 - f)*k*e*d*a) + ((-k*(1 - f)*d*e*a + e*(1-d)*f*k*(1 - a))) + (2*a*d*(1 - e)*(1 - k)*f)) = deltaCode (term6 5) a b d e f k := by
  show _ = (((1)*(a)*(f)*(1 - (k))*(d)*(1 - (e))) - ((0)*(a)*(f)*(1 - (k))*(d)*(1 - (e)))) + (((a)*(1)*(d)*(1 - (e))*(f)*(1 - (k))) - ((a)*(0)*(d)*(1 - (e))*(f)*(1 - (k)))) + (((f)*(k)*(1)*(1 - (a))*(e)*(1 - (d))) - ((f)*(k)*(0)*(1 - (a))*(e)*(1 - (d)))) + (((d)*(e)*(a)*(1 - (1))*(k)*(1 - (f))) - ((d)*(e)*(a)*(1 - (0))*(k)*(1 - (f)))) + (((k)*(f)*(e)*(1 - (d))*(1)*(1 - (a))) - ((k)*(f)*(e)*(1 - (d))*(0)*(1 - (a)))) + (((e)*(d)*(k)*(1 - (f))*(a)*(1 - (1))) - ((e)*(d)*(k)*(1 - (f))*(a)*(1 - (0))))
  ring

theorem std_eq_6 (sol : Vec n) : std_dcm_3motif_6 sol = stdSpec (term6 5) sol :=
  (stdLoop_eq sol _ _ (fun a b d e f k => 0 + (f*k*(1-d)*e*(1 - a) - (1 - f)*k*e*d*a) + ((-k*(1 - f)*d*e*a + e*(1-d)*f*k*(1 - a))) + (2*a*d*(1 - e)*(1 - k)*f)) 1 one_fin (fun a b d e f k s => by ring)).trans
    (std_fin sol (term6 5) (fun a b d e f k => 0 + (f*k*(1-d)*e*(1 - a) - (1 - f)*k*e*d*a) + ((-k*(1 - f)*d*e*a + e*(1-d)*f*k*(1 - a))) + (2*a*d*(1 - e)*(1 - k)*f)) 1 delta_6)

theorem delta_7 (a b d e f k : ℝ) : 1 * (0 - (f*k*d*(1 - e)*(1 - a) + f*(1 - k)*e*d*(1 - a)) + (((1 - k)*(1 - f)*d*e*(1 - a) - (1 - e)*(1-d)*f*k*a)) + (((1 - d)*e*(1 - k)*(1 - f) + (1 - d)*(1 - e)*k*(1 - f))*a)) = deltaCode (term6 6) a b d e f k := by
  show _ = (((1)*(a)*(1 - (f))*(1 - (k))*(1 - (d))*(e)) - ((0)*(a)*(1 - (f))*(1 - (k))*(1 - (d))*(e))) + (((a)*(1)*(1 - (d))*(1 - (e))*(1 - (f))*(k)) - ((a)*(0)*(1 - (d))*(1 - (e))*(1 - (f))*(k))) + (((f)*(k)*(1 - (1))*(1 - (a))*(1 - (e))*(d)) - ((f)*(k)*(1 - (0))*(1 - (a))*(1 - (e))*(d))) + (((d)*(e)*(1 - (a))*(1 - (1))*(1 - (k))*(f)) - ((d)*(e)*(1 - (a))*(1 - (0))*(1 - (k))*(f))) + (((k)*(f)*(1 - (e))*(1 - (d))*(1 - (1))*(a)) - ((k)*(f)*(1 - (e))*(1 - (d))*(1 - (0))*(a))) + (((e)*(d)*(1 - (k))*(1 - (f))*(1 - (a))*(1)) - ((e)*(d)*(1 - (k))*(1 - (f))*(1 - (a))*(0)))
  ring

theorem std_eq_7 (sol : Vec n) : std_dcm_3motif_7 sol = stdSpec (term6 6) sol :=
  (stdLoop_eq sol _ _ (fun a b d e f k => 0 - (f*k*d*(1 - e)*(1 - a) + f*(1 - k)*e*d*(1 - a)) + (((1 - k)*(1 - f)*d*e*(1 - a) - (1 - e)*(1-d)*f*k*a)) + (((1 - d)*e*(1 - k)*(1 - f) + (1 - d)*(1 - e)*k*(1 - f))*a)) 1 one_fin (fun a b d e f k s => by ring)).trans
    (std_fin sol (term6 6) (fun a b d e f k => 0 - (f*k*d*(1 - e)*(1 - a) + f*(1 - k)*e*d*(1 - a)) + (((1 - k)*(1 - f)*d*e*(1 - a) - (1 - e)*(1-d)*f*k*a)) + (((1 - d)*e*(1 - k)*(1 - f) + (1 - d)*(1 - e)*k*(1 - f))*a)) 1 delta_7)

theorem delta_8 (a b d e f k : ℝ) : 1 * (0 - (2*k*f*d*e*(1 - a)) + (a*((1 - f)*(1 - k)*d*e + f*k*(1 - e)*(1 - d))) + ((1 - d)*(1 - e)*k*f*a + d*e*(1 - k)*(1 - f)*a)) = deltaCode (term6 7) a b d e f k := by
  show _ = (((1)*(a)*(1 - (f))*(1 - (k))*(d)*(e)) - ((0)*(a)*(1 - (f))*(1 - (k))*(d)*(e))) + (((a)*(1)*(1 - (d))*(1 - (e))*(f)*(k)) - ((a)*(0)*(1 - (d))*(1 - (e))*(f)*(k))) + (((f)*(k)*(1 - (1))*(1 - (a))*(e)*(d)) - ((f)*(k)*(1 - (0))*(1 - (a))*(e)*(d))) + (((d)*(e)*(1 - (a))*(1 - (1))*(k)*(f)) - ((d)*(e)*(1 - (a))*(1 - (0))*(k)*(f))) + (((k)*(f)*(1 - (e))*(1 - (d))*(1)*(a)) - ((k)*(f)*(1 - (e))*(1 - (d))*(0)*(a))) + (((e)*(d)*(1 - (k))*(1 - (f))*(a)*(1)) - ((e)*(d)*(1 - (k))*(1 - (f))*(a)*(0)))
  ring

theorem std_eq_8 (sol : Vec n) : std_dcm_3motif_8 sol = stdSpec (term6 7) sol :=
  (stdLoop_eq sol _ _ (fun a b d e f k => 0 - (2*k*f*d*e*(1 - a)) + (a*((1 - f)*(1 - k)*d*e + f*k*(1 - e)*(1 - d))) + ((1 - d)*(1 - e)*k*f*a + d*e*(1 - k)*(1 - f)*a)) 1 one_fin (fun a b d e f k s => by ring)).trans
    (std_fin sol (term6 7) (fun a b d e f k => 0 - (2*k*f*d*e*(1 - a)) + (a*((1 - f)*(1 - k)*d*e + f*k*(1 - e)*(1 - d))) + ((1 - d)*(1 - e)*k*f*a + d*e*(1 - k)*(1 - f)*a)) 1 delta_8)

theorem delta_9 (a b d e f k : ℝ) : 1 * (0 + (d*(1 - e)*k*(1 - f)*(1 - a) - e*(1 - d)*f*(1 - k)*a) + ((1 - a)*(1 - f)*k*d*(1 - e) - f*(1 - k)*e*(1 - d)*a) + (d*(1 - e)*k*(1 - f)*(1 - a) - (1 - d)*e*(1 - k)*f*a)) = deltaCode (term6 8) a b d e f k := by
  show _ = (((1 - (1))*(a)*(f)*(1 - (k))*(1 - (d))*(e)) - ((1 - (0))*(a)*(f)*(1 - (k))*(1 - (d))*(e))) + (((1 - (a))*(1)*(d)*(1 - (e))*(1 - (f))*(k)) - ((1 - (a))*(0)*(d)*(1 - (e))*(1 - (f))*(k))) + (((1 - (f))*(k)*(1)*(1 - (a))*(1 - (e))*(d)) - ((1 - (f))*(k)*(0)*(1 - (a))*(1 - (e))*(d))) + (((1 - (d))*(e)*(a)*(1 - (1))*(1 - (k))*(f)) - ((1 - (d))*(e)*(a)*(1 - (0))*(1 - (k))*(f))) + (((1 - (k))*(f)*(e)*(1 - (d))*(1 - (1))*(a)) - ((1 - (k))*(f)*(e)*(1 - (d))*(1 - (0))*(a))) + (((1 - (e))*(d)*(k)*(1 - (f))*(1 - (a))*(1)) - ((1 - (e))*(d)*(k)*(1 - (f))*(1 - (a))*(0)))
  ring

theorem std_eq_9 (sol : Vec n) : std_dcm_3motif_9 sol = stdSpec (term6 8) sol :=
  (stdLoop_eq sol _ _ (fun a b d e f k => 0 + (d*(1 - e)*k*(1 - f)*(1 - a) - e*(1 - d)*f*(1 - k)*a) + ((1 - a)*(1 - f)*k*d*(1 - e) - f*(1 - k)*e*(1 - d)*a) + (d*(1 - e)*k*(1 - f)*(1 - a) - (1 - d)*e*(1 - k)*f*a)) 1 one_fin (fun a b d e f k s => by ring)).trans
    (std_fin sol (term6 8) (fun a b d e f k => 0 + (d*(1 - e)*k*(1 - f)*(1 - a) - e*(1 - d)*f*(1 - k)*a) + ((1 - a)*(1 - f)*k*d*(1 - e) - f*(1 - k)*e*(1 - d)*a) + (d*(1 - e)*k*(1 - f)*(1 - a) - (1 - d)*e*(1 - k)*f*a)) 1 delta_9)

theorem delta_10 (a b d e f k : ℝ) : 1 * (0 + (k*(1 - f)*d*e*(1 - a) - f*k*e*(1 - d)*a) + (a*((1 - f)*k*d*(1 - e) + f*(1 - k)*e*(1 - d))) + (d*(1 - e)*k*f*(1 - a) - d*e*(1 - k)*f*a)) = deltaCode (term6 9) a b d e f k := by
  show _ = (((1 - (1))*(a)*(f)*(1 - (k))*(d)*(e)) - ((1 - (0))*(a)*(f)*(1 - (k))*(d)*(e))) + (((1 - (a))*(1)*(d)*(1 - (e))*(f)*(k)) - ((1 - (a))*(0)*(d)*(1 - (e))*(f)*(k))) + (((1 - (f))*(k)*(1)*(1 - (a))*(e)*(d)) - ((1 - (f))*(k)*(0)*(1 - (a))*(e)*(d))) + (((1 - (d))*(e)*(a)*(1 - (1))*(k)*(f)) - ((1 - (d))*(e)*(a)*(1 - (0))*(k)*(f))) + (((1 - (k))*(f)*(e)*(1 - (d))*(1)*(a)) - ((1 - (k))*(f)*(e)*(1 - (d))*(0)*(a))) + (((1 - (e))*(d)*(k)*(1 - (f))*(a)*(1)) - ((1 - (e))*(d)*(k)*(1 - (f))*(a)*(0)))
  ring

theorem std_eq_10 (sol : Vec n) : std_dcm_3motif_10 sol = stdSpec (term6 9) sol :=
  (stdLoop_eq sol _ _ (fun a b d e f k => 0 + (k*(1 - f)*d*e*(1 - a) - f*k*e*(1 - d)*a) + (a*((1 - f)*k*d*(1 - e) + f*(1 - k)*e*(1 - d))) + (d*(1 - e)*k*f*(1 - a) - d*e*(1 - k)*f*a)) 1 one_fin (fun a b d e f k s => by ring)).trans
    (std_fin sol (term6 9) (fun a b d e f k => 0 + (k*(1 - f)*d*e*(1 - a) - f*k*e*(1 - d)*a) + (a*((1 - f)*k*d*(1 - e) + f*(1 - k)*e*(1 - d))) + (d*(1 - e)*k*f*(1 - a) - d*e*(1 - k)*f*a)) 1 delta_10)

theorem delta_11 (a b d e f k : ℝ) : 1 * (0 + ((1 - k)*f*d*e*(1 - a) - f*k*(1 - e)*d*a) + ((1 - a)*f*(1 - k)*d*e - f*k*(1 - e)*d*a) + (2*(1 - d)*e*k*(1 - f)*a)) = deltaCode (term6 10) a b d e f k := by
  show _ = (((1)*(1 - (a))*(f)*(1 - (k))*(d)*(e)) - ((0)*(1 - (a))*(f)*(1 - (k))*(d)*(e))) + (((a)*(1 - (1))*(d)*(1 - (e))*(f)*(k)) - ((a)*(1 - (0))*(d)*(1 - (e))*(f)*(k))) + (((f)*(1 - (k))*(1)*(1 - (a))*(e)*(d)) - ((f)*(1 - (k))*(0)*(1 - (a))*(e)*(d))) + (((d)*(1 - (e))*(a)*(1 - (1))*(k)*(f)) - ((d)*(1 - (e))*(a)*(1 - (0))*(k)*(f))) + (((k)*(1 - (f))*(e)*(1 - (d))*(1)*(a)) - ((k)*(1 - (f))*(e)*(1 - (d))*(0)*(a))) + (((e)*(1 - (d))*(k)*(1 - (f))*(a)*(1)) - ((e)*(1 - (d))*(k)*(1 - (f))*(a)*(0)))
  ring

theorem std_eq_11 (sol : Vec n) : std_dcm_3motif_11 sol = stdSpec (term6 10) sol :=
  (stdLoop_eq sol _ _ (fun a b d e f k => 0 + ((1 - k)*f*d*e*(1 - a) - f*k*(1 - e)*d*a) + ((1 - a)*f*(1 - k)*d*e - f*k*(1 - e)*d*a) + (2*(1 - d)*e*k*(1 - f)*a)) 1 one_fin (fun a b d e f k s => by ring)).trans
    (std_fin sol (term6 10) (fun a b d e f k => 0 + ((1 - k)*f*d*e*(1 - a) - f*k*(1 - e)*d*a) + ((1 - a)*f*(1 - k)*d*e - f*k*(1 - e)*d*a) + (2*(1 - d)*e*k*(1 - f)*a)) 1 delta_11)

theorem delta_12 (a b d e f k : ℝ) : 1 * (0 + (k*f*d*e*(1 - 2*a)) + (a*(f*(1 - k)*d*e + f*k*(1 - e)*d)) + (a*(d*e*k*(1 - f) + e*(1 - d)*k*f))) = deltaCode (term6 11) a b d e f k := by
  show _ = (((1)*(a)*(f)*(1 - (k))*(d)*(e)) - ((0)*(a)*(f)*(1 - (k))*(d)*(e))) + (((a)*(1)*(d)*(1 - (e))*(f)*(k)) - ((a)*(0)*(d)*(1 - (e))*(f)*(k))) + (((f)*(k)*(1)*(1 - (a))*(e)*(d)) - ((f)*(k)*(0)*(1 - (a))*(e)*(d))) + (((d)*(e)*(a)*(1 - (1))*(k)*(f)) - ((d)*(e)*(a)*(1 - (0))*(k)*(f))) + (((k)*(f)*(e)*(1 - (d))*(1)*(a)) - ((k)*(f)*(e)*(1 - (d))*(0)*(a))) + (((e)*(d)*(k)*(1 - (f))*(a)*(1)) - ((e)*(d)*(k)*(1 - (f))*(a)*(0)))
  ring

theorem std_eq_12 (sol : Vec n) : std_dcm_3motif_12 sol = stdSpec (term6 11) sol :=
  (stdLoop_eq sol _ _ (fun a b d e f k => 0 + (k*f*d*e*(1 - 2*a)) + (a*(f*(1 - k)*d*e + f*k*(1 - e)*d)) + (a*(d*e*k*(1 - f) + e*(1 - d)*k*f))) 1 one_fin (fun a b d e f k s => by ring)).trans
    (std_fin sol (term6 11) (fun a b d e f k => 0 + (k*f*d*e*(1 - 2*a)) + (a*(f*(1 - k)*d*e + f*k*(1 - e)*d)) + (a*(d*e*k*(1 - f) + e*(1 - d)*k*f))) 1 delta_12)

theorem delta_13 (a b d e f k : ℝ) : 6 * (0 + (a*f*k*e*d)) = deltaCode (term6 12) a b d e f k := by
  show _ = (((1)*(a)*(f)*(k)*(d)*(e)) - ((0)*(a)*(f)*(k)*(d)*(e))) + (((a)*(1)*(d)*(e)*(f)*(k)) - ((a)*(0)*(d)*(e)*(f)*(k))) + (((f)*(k)*(1)*(a)*(e)*(d)) - ((f)*(k)*(0)*(a)*(e)*(d))) + (((d)*(e)*(a)*(1)*(k)*(f)) - ((d)*(e)*(a)*(0)*(k)*(f))) + (((k)*(f)*(e)*(d)*(1)*(a)) - ((k)*(f)*(e)*(d)*(0)*(a))) + (((e)*(d)*(k)*(f)*(a)*(1)) - ((e)*(d)*(k)*(f)*(a)*(0)))
  ring

theorem std_eq_13 (sol : Vec n) : std_dcm_3motif_13 sol = stdSpec (term6 12) sol :=
  (stdLoop_eq sol _ _ (fun a b d e f k => 0 + (a*f*k*e*d)) 6 (fun s => rfl) (fun a b d e f k s => by ring)).trans
    (std_fin sol (term6 12) (fun a b d e f k => 0 + (a*f*k*e*d)) 6 delta_13)

theorem std3_eq (m : Fin 13) (sol : Vec n) : std3 m sol = stdSpec (term6 m) sol := by
  match m with
  | 0 => exact std_eq_1 sol
  | 1 => exact std_eq_2 sol
  | 2 => exact std_eq_3 sol
  | 3 => exact std_eq_4 sol
  | 4 => exact std_eq_5 sol
  | 5 => exact std_eq_6 sol
  | 6 => exact std_eq_7 sol
  | 7 => exact std_eq_8 sol
  | 8 => exact std_eq_9 sol
  | 9 => exact std_eq_10 sol
  | 10 => exact std_eq_11 sol
  | 11 => exact std_eq_12 sol
  | 12 => exact std_eq_13 sol

end Verif.Ens
