import Verif.Base
import Mathlib.Analysis.Calculus.Deriv.Add
import Mathlib.Analysis.Calculus.Deriv.Mul
import Mathlib.Analysis.Calculus.Deriv.Inv
import Mathlib.Analysis.SpecialFunctions.Log.Deriv
import Mathlib.Analysis.SpecialFunctions.ExpDeriv

/-!
Calculus helpers: derivative along one coordinate (`Function.update x i`) of sums of one-body and
two-body terms.
-/

namespace Verif

open Finset Function

variable {n : ℕ}

theorem sum_update_pairs (x : Fin n → ℝ) (i : Fin n) (u : Fin n → ℝ → ℝ)
    (v : Fin n → Fin n → ℝ → ℝ → ℝ) (t : ℝ) :
    ∑ a, (u a (update x i t a) + ∑ b, v a b (update x i t a) (update x i t b))
      = u i t + (∑ j, if j = i then v i i t t else v i j t (x j) + v j i (x j) t)
        + (∑ a ∈ univ.erase i, (u a (x a) + ∑ b ∈ univ.erase i, v a b (x a) (x b))) := by
  have h1 : ∀ a ∈ univ.erase i, (u a (update x i t a) + ∑ b, v a b (update x i t a) (update x i t b))
      = v a i (x a) t + (u a (x a) + ∑ b ∈ univ.erase i, v a b (x a) (x b)) := by
    intro a ha
    have ha' : a ≠ i := (mem_erase.1 ha).1
    rw [update_of_ne ha', ← add_sum_erase univ _ (mem_univ i), update_self]
    have : ∀ b ∈ univ.erase i, v a b (x a) (update x i t b) = v a b (x a) (x b) := by
      intro b hb; rw [update_of_ne (mem_erase.1 hb).1]
    rw [sum_congr rfl this]; ring
  have h2 : ∀ b ∈ univ.erase i, v i b t (update x i t b) = v i b t (x b) := by
    intro b hb; rw [update_of_ne (mem_erase.1 hb).1]
  have h3 : ∀ j ∈ univ.erase i, (if j = i then v i i t t else v i j t (x j) + v j i (x j) t)
      = v i j t (x j) + v j i (x j) t := by
    intro j hj; rw [if_neg (mem_erase.1 hj).1]
  rw [← add_sum_erase univ _ (mem_univ i), sum_congr rfl h1, update_self,
    ← add_sum_erase univ _ (mem_univ i), update_self, sum_congr rfl h2, sum_add_distrib,
    ← add_sum_erase univ (fun j => if j = i then v i i t t else v i j t (x j) + v j i (x j) t)
      (mem_univ i), sum_congr rfl h3, if_pos rfl]
  simp only [sum_add_distrib]
  ring

/-- Partial derivative of `∑ₐ (uₐ(xₐ) + ∑_b v_{ab}(xₐ,x_b))`. -/
theorem hasDerivAt_pairs (x : Fin n → ℝ) (i : Fin n) (u : Fin n → ℝ → ℝ)
    (v : Fin n → Fin n → ℝ → ℝ → ℝ) (u' : ℝ) (d : Fin n → ℝ)
    (hu : HasDerivAt (u i) u' (x i))
    (hd : ∀ j, j ≠ i → HasDerivAt (fun t => v i j t (x j) + v j i (x j) t) (d j) (x i))
    (hii : HasDerivAt (fun t => v i i t t) (d i) (x i)) :
    HasDerivAt (fun t => ∑ a, (u a (update x i t a) +
      ∑ b, v a b (update x i t a) (update x i t b))) (u' + ∑ j, d j) (x i) := by
  simp only [sum_update_pairs]
  refine HasDerivAt.add_const _ (hu.add (HasDerivAt.fun_sum ?_))
  intro j _
  by_cases h : j = i
  · subst h; simpa using hii
  · simpa [h] using hd j h

/-- Derivative of `u(x_i) + ∑_b w_b(x_i, x_b)` in `x_j`, `j ≠ i`. -/
theorem hasDerivAt_row_ne (x : Fin n → ℝ) (i j : Fin n) (hij : i ≠ j) (u : ℝ → ℝ)
    (w : Fin n → ℝ → ℝ → ℝ) (d : ℝ)
    (hd : HasDerivAt (fun t => w j (x i) t) d (x j)) :
    HasDerivAt (fun t => u (update x j t i) + ∑ b, w b (update x j t i) (update x j t b)) d (x j) := by
  have : ∀ t, u (update x j t i) + ∑ b, w b (update x j t i) (update x j t b)
      = w j (x i) t + (u (x i) + ∑ b ∈ univ.erase j, w b (x i) (x b)) := by
    intro t
    rw [update_of_ne hij, ← add_sum_erase univ _ (mem_univ j), update_self]
    have : ∀ b ∈ univ.erase j, w b (x i) (update x j t b) = w b (x i) (x b) := by
      intro b hb; rw [update_of_ne (mem_erase.1 hb).1]
    rw [sum_congr rfl this]; ring
  simp only [this]
  exact hd.add_const _

/-- Derivative of `u(x_i) + ∑_b w_b(x_i, x_b)` in `x_i`. -/
theorem hasDerivAt_row_eq (x : Fin n → ℝ) (i : Fin n) (u : ℝ → ℝ)
    (w : Fin n → ℝ → ℝ → ℝ) (u' : ℝ) (d : Fin n → ℝ)
    (hu : HasDerivAt u u' (x i))
    (hd : ∀ b, b ≠ i → HasDerivAt (fun t => w b t (x b)) (d b) (x i))
    (hii : HasDerivAt (fun t => w i t t) (d i) (x i)) :
    HasDerivAt (fun t => u (update x i t i) + ∑ b, w b (update x i t i) (update x i t b))
      (u' + ∑ b, d b) (x i) := by
  have : ∀ t, u (update x i t i) + ∑ b, w b (update x i t i) (update x i t b)
      = u t + ∑ b, if b = i then w i t t else w b t (x b) := by
    intro t
    rw [update_self]
    congr 1
    refine sum_congr rfl ?_
    intro b _
    by_cases h : b = i
    · subst h; simp
    · simp [h]
  simp only [this]
  refine hu.add (HasDerivAt.fun_sum ?_)
  intro b _
  by_cases h : b = i
  · subst h; simpa using hii
  · simpa [h] using hd b h

/-- an affine function, however it is written -/
theorem hd_aff {f : ℝ → ℝ} (a b : ℝ) (h : ∀ t, f t = a + b * t) (t : ℝ) : HasDerivAt f b t := by
  have : f = fun t => a + b * t := funext h
  rw [this]
  simpa using ((hasDerivAt_id t).const_mul b).const_add a

/-- a quadratic function, however it is written -/
theorem hd_quad {f : ℝ → ℝ} (a b c : ℝ) (h : ∀ t, f t = a + b * t + c * t ^ 2) (t : ℝ) :
    HasDerivAt f (b + 2 * c * t) t := by
  have : f = fun t => a + b * t + c * t ^ 2 := funext h
  rw [this]
  have h1 : HasDerivAt (fun t : ℝ => a + b * t) b t := hd_aff a b (fun _ => rfl) t
  have h2 : HasDerivAt (fun t : ℝ => c * t ^ 2) (c * (2 * t)) t := by
    simpa using ((hasDerivAt_id t).fun_pow 2).const_mul c
  refine (h1.fun_add h2).congr_deriv ?_
  ring

theorem hd_div {f g : ℝ → ℝ} {f' g' D t : ℝ} (hf : HasDerivAt f f' t) (hg : HasDerivAt g g' t)
    (h : g t ≠ 0) (hD : (f' * g t - f t * g') / (g t) ^ 2 = D) :
    HasDerivAt (fun t => f t / g t) D t := (hf.fun_div hg h).congr_deriv hD

theorem hd_log {f : ℝ → ℝ} {f' D t : ℝ} (hf : HasDerivAt f f' t) (h : f t ≠ 0) (hD : f' / f t = D) :
    HasDerivAt (fun t => Real.log (f t)) D t := (hf.log h).congr_deriv hD

theorem hd_exp_neg (t : ℝ) : HasDerivAt (fun t : ℝ => Real.exp (-t)) (-Real.exp (-t)) t := by
  simpa using (hasDerivAt_id t).neg.exp

/-- chain rule with `t ↦ exp(-t)` -/
theorem hd_comp_exp {f : ℝ → ℝ} {f' D t : ℝ} (hf : HasDerivAt f f' (Real.exp (-t)))
    (hD : -(f' * Real.exp (-t)) = D) : HasDerivAt (fun t => f (Real.exp (-t))) D t := by
  refine (hf.comp t (hd_exp_neg t)).congr_deriv ?_
  rw [← hD]; ring

/-! block vectors: `update` in one block -/

theorem update_block_same {β : Type*} [DecidableEq β] (sol : β × Fin n → ℝ) (b : β) (i : Fin n) (t : ℝ) (a : Fin n) :
    update sol (b, i) t (b, a) = update (fun a => sol (b, a)) i t a := by
  by_cases h : a = i
  · subst h; simp
  · rw [update_of_ne h, update_of_ne]; simpa using h

theorem update_block_ne {β : Type*} [DecidableEq β] (sol : β × Fin n → ℝ) (b b' : β) (hb : b' ≠ b) (i : Fin n) (t : ℝ)
    (a : Fin n) : update sol (b, i) t (b', a) = sol (b', a) := by
  rw [update_of_ne]; simp [hb]

@[simp] theorem update_block2_00 (sol : Fin 2 × Fin n → ℝ) (i : Fin n) (t : ℝ) (a : Fin n) :
    update sol (0, i) t (0, a) = update (fun a => sol (0, a)) i t a := update_block_same ..
@[simp] theorem update_block2_11 (sol : Fin 2 × Fin n → ℝ) (i : Fin n) (t : ℝ) (a : Fin n) :
    update sol (1, i) t (1, a) = update (fun a => sol (1, a)) i t a := update_block_same ..
@[simp] theorem update_block2_01 (sol : Fin 2 × Fin n → ℝ) (i : Fin n) (t : ℝ) (a : Fin n) :
    update sol (0, i) t (1, a) = sol (1, a) := update_block_ne _ _ _ (by decide) ..
@[simp] theorem update_block2_10 (sol : Fin 2 × Fin n → ℝ) (i : Fin n) (t : ℝ) (a : Fin n) :
    update sol (1, i) t (0, a) = sol (0, a) := update_block_ne _ _ _ (by decide) ..

/-- generic block update -/
theorem update_block {β : Type*} [DecidableEq β] (sol : β × Fin n → ℝ) (b b' : β) (i : Fin n) (t : ℝ) (a : Fin n) :
    update sol (b, i) t (b', a) = if b' = b then (if a = i then t else sol (b', a)) else sol (b', a) := by
  by_cases hb : b' = b
  · subst hb
    by_cases h : a = i
    · subst h; simp
    · rw [if_pos rfl, if_neg h, update_of_ne]; simpa using h
  · rw [if_neg hb, update_of_ne]; simp [hb]

/-- derivative of a finite sum of which only summand `i` depends on `t` -/
theorem hasDerivAt_sum_single {ι : Type*} [DecidableEq ι] (s : Finset ι) (i : ι) (g : ι → ℝ → ℝ) (g' t : ℝ)
    (hne : ∀ a ∈ s, a ≠ i → ∀ r r', g a r = g a r') (hi : i ∈ s → HasDerivAt (g i) g' t) :
    HasDerivAt (fun r => ∑ a ∈ s, g a r) (if i ∈ s then g' else 0) t := by
  have h : ∀ a ∈ s, HasDerivAt (fun r => g a r) (if a = i then g' else 0) t := by
    intro a ha
    by_cases h : a = i
    · subst h; simpa using hi ha
    · simp only [h, if_false]
      have : (fun r => g a r) = fun _ => g a t := funext fun r => hne a ha h r t
      rw [this]; exact hasDerivAt_const _ _
  refine (HasDerivAt.fun_sum h).congr_deriv ?_
  simp

end Verif
