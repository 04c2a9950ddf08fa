import Verif.Spec.Ensemble
import Mathlib.Algebra.BigOperators.Ring.Finset
import Mathlib.Algebra.BigOperators.Fin
import Mathlib.Data.Fintype.Prod
import Mathlib.Tactic.Ring
import Mathlib.Tactic.Linarith

/-! Expectations of functions of independent coins; multi-affine functions commute with expectation. -/

namespace Verif.Spec

open Finset

variable {E : Type*} [Fintype E] [DecidableEq E]

/-- the real value of a coin -/
def val (b : Bool) : ℝ := if b then 1 else 0

omit [DecidableEq E] in
theorem expect_add [DecidableEq E] (p : E → ℝ) (f g : (E → Bool) → ℝ) : expect p (fun ω => f ω + g ω) = expect p f + expect p g := by
  simp only [expect, mul_add, sum_add_distrib]

theorem expect_smul (p : E → ℝ) (c : ℝ) (f : (E → Bool) → ℝ) : expect p (fun ω => c * f ω) = c * expect p f := by
  simp only [expect, mul_sum]; exact sum_congr rfl fun ω _ => by ring

theorem expect_sum {ι : Type*} (s : Finset ι) (p : E → ℝ) (f : ι → (E → Bool) → ℝ) :
    expect p (fun ω => ∑ i ∈ s, f i ω) = ∑ i ∈ s, expect p (f i) := by
  simp only [expect, mul_sum]; exact sum_comm

theorem expect_one (p : E → ℝ) : expect p (fun _ => 1) = 1 := by
  simp only [expect, prob, mul_one]
  have := Finset.prod_univ_sum (fun _ : E => (univ : Finset Bool)) (fun e b => bern (p e) b)
  rw [Fintype.piFinset_univ] at this
  rw [← this]
  refine prod_eq_one fun e _ => ?_
  simp [bern]

theorem expect_const (p : E → ℝ) (c : ℝ) : expect p (fun _ => c) = c := by
  have := expect_smul p c (fun _ => 1)
  simpa [expect_one] using this

/-- conditioning on one coin -/
theorem expect_split (p : E → ℝ) (e : E) (g : (E → Bool) → ℝ) :
    expect p g = expect p (fun ω => p e * g (Function.update ω e true) + (1 - p e) * g (Function.update ω e false)) := by
  have flip : ∀ h : (E → Bool) → ℝ, 2 * ∑ ω, h ω = ∑ ω, (h (Function.update ω e true) + h (Function.update ω e false)) := by
    intro h
    let φ : (E → Bool) ≃ (E → Bool) :=
      { toFun := fun ω => Function.update ω e (!ω e)
        invFun := fun ω => Function.update ω e (!ω e)
        left_inv := fun ω => by simp
        right_inv := fun ω => by simp }
    have h1 : ∑ ω, h (φ ω) = ∑ ω, h ω := Equiv.sum_comp φ h
    rw [two_mul]
    nth_rewrite 2 [← h1]
    rw [← sum_add_distrib]
    refine sum_congr rfl fun ω _ => ?_
    cases hω : ω e with
    | true =>
      have : Function.update ω e true = ω := by rw [← hω, Function.update_eq_self]
      simp [φ, hω, this]
    | false =>
      have : Function.update ω e false = ω := by rw [← hω, Function.update_eq_self]
      simp [φ, hω, this, add_comm]
  have hw : ∀ ω b, prob p (Function.update ω e b) = bern (p e) b * ∏ e' ∈ univ.erase e, bern (p e') (ω e') := by
    intro ω b
    rw [prob, ← mul_prod_erase univ _ (mem_univ e)]
    simp only [Function.update_self]
    congr 1
    refine prod_congr rfl fun e' he' => ?_
    rw [Function.update_of_ne (ne_of_mem_erase he')]
  have h2 : ∀ a b : ℝ, 2 * a = 2 * b → a = b := fun a b h => by linarith
  apply h2
  rw [expect, expect, flip, flip]
  refine sum_congr rfl fun ω _ => ?_
  simp only [hw, Function.update_idem, bern]
  simp
  ring

/-- affine in every coordinate separately -/
def MultiAffine (F : (E → ℝ) → ℝ) : Prop :=
  ∀ x e t, F (Function.update x e t) = F (Function.update x e 0) + t * (F (Function.update x e 1) - F (Function.update x e 0))

/-- the expectation of a multi-affine function of the coins is its value at the success probabilities -/
theorem expect_multiAffine (p : E → ℝ) (F : (E → ℝ) → ℝ) (hF : MultiAffine F) :
    expect p (fun ω => F (fun e => val (ω e))) = F p := by
  have key : ∀ S : Finset E, expect p (fun ω => F (fun e => if e ∈ S then p e else val (ω e))) = expect p (fun ω => F (fun e => val (ω e))) := by
    intro S
    induction S using Finset.induction_on with
    | empty => simp
    | insert e S he ih =>
      rw [← ih, expect_split p e (fun ω => F (fun e' => if e' ∈ S then p e' else val (ω e')))]
      congr 1
      funext ω
      have hu : ∀ b, (fun e' => if e' ∈ S then p e' else val (Function.update ω e b e')) =
          Function.update (fun e' => if e' ∈ insert e S then p e' else val (ω e')) e (val b) := by
        intro b
        funext e'
        by_cases h : e' = e
        · subst h; simp [he]
        · simp [h]
      have h0 := hF (fun e' => if e' ∈ insert e S then p e' else val (ω e')) e (p e)
      rw [hu, hu]
      have hself : Function.update (fun e' => if e' ∈ insert e S then p e' else val (ω e')) e (p e) =
          fun e' => if e' ∈ insert e S then p e' else val (ω e') := by
        funext e'
        by_cases h : e' = e
        · subst h; simp
        · simp [h]
      rw [hself] at h0
      rw [h0]
      simp only [val]
      simp
      ring
  rw [← key univ]
  simp [expect_const]

omit [Fintype E] in
theorem MultiAffine.sum {ι : Type*} (s : Finset ι) (F : ι → (E → ℝ) → ℝ) (h : ∀ i ∈ s, MultiAffine (F i)) :
    MultiAffine (fun x => ∑ i ∈ s, F i x) := by
  intro x e t
  rw [← sum_sub_distrib, mul_sum, ← sum_add_distrib]
  exact sum_congr rfl fun i hi => h i hi x e t

omit [Fintype E] in
theorem MultiAffine.const (c : ℝ) : MultiAffine (fun _ : E → ℝ => c) := by
  intro x e t; simp

omit [Fintype E] in
theorem MultiAffine.smul (c : ℝ) (F : (E → ℝ) → ℝ) (h : MultiAffine F) : MultiAffine (fun x => c * F x) := by
  intro x e t
  show c * F (Function.update x e t) = c * F (Function.update x e 0) + t * (c * F (Function.update x e 1) - c * F (Function.update x e 0))
  rw [h x e t]; ring

omit [Fintype E] in
/-- product of two multi-affine functions that share no coordinate -/
theorem MultiAffine.mul (F G : (E → ℝ) → ℝ) (hF : MultiAffine F) (hG : MultiAffine G)
    (hd : ∀ e, (∀ x t, F (Function.update x e t) = F x) ∨ ∀ x t, G (Function.update x e t) = G x) :
    MultiAffine (fun x => F x * G x) := by
  intro x e t
  show F (Function.update x e t) * G (Function.update x e t) = _ + _ * (F _ * G _ - F _ * G _)
  rcases hd e with h | h
  · simp only [hG x e t, h]; ring
  · simp only [hF x e t, h]; ring

/-- Variance of a sum of `0/1`-valued multi-affine functions that pairwise share no coin. -/
theorem variance_indicators {ι : Type*} [DecidableEq ι] (s : Finset ι) (p : E → ℝ) (F : ι → (E → ℝ) → ℝ) (h : ∀ i ∈ s, MultiAffine (F i))
    (hd : ∀ i ∈ s, ∀ j ∈ s, i ≠ j → ∀ e, (∀ x t, F i (Function.update x e t) = F i x) ∨ ∀ x t, F j (Function.update x e t) = F j x)
    (h01 : ∀ i ∈ s, ∀ ω : E → Bool, F i (fun e => val (ω e)) ^ 2 = F i (fun e => val (ω e))) :
    variance p (fun ω => ∑ i ∈ s, F i (fun e => val (ω e))) = ∑ i ∈ s, F i p * (1 - F i p) := by
  have hm : expect p (fun ω => ∑ i ∈ s, F i (fun e => val (ω e))) = ∑ i ∈ s, F i p := by
    rw [expect_sum]
    exact sum_congr rfl fun i hi => expect_multiAffine p (F i) (h i hi)
  have h2 : expect p (fun ω => (∑ i ∈ s, F i (fun e => val (ω e))) ^ 2) = ∑ i ∈ s, ∑ j ∈ s, if i = j then F i p else F i p * F j p := by
    simp only [sq, sum_mul_sum]
    rw [expect_sum]
    refine sum_congr rfl fun i hi => ?_
    rw [expect_sum]
    refine sum_congr rfl fun j hj => ?_
    split
    · rename_i hij
      subst hij
      rw [← expect_multiAffine p (F i) (h i hi)]
      congr 1; funext ω; rw [← sq, h01 i hi]
    · rename_i hij
      exact expect_multiAffine p (fun x => F i x * F j x) (MultiAffine.mul _ _ (h i hi) (h j hj) (hd i hi j hj hij))
  have hv : variance p (fun ω => ∑ i ∈ s, F i (fun e => val (ω e))) =
      expect p (fun ω => (∑ i ∈ s, F i (fun e => val (ω e))) ^ 2) - (∑ i ∈ s, F i p) ^ 2 := by
    rw [variance, hm]
    have : (fun ω : E → Bool => (∑ i ∈ s, F i (fun e => val (ω e)) - ∑ i ∈ s, F i p) ^ 2) =
        fun ω => (∑ i ∈ s, F i (fun e => val (ω e))) ^ 2 + ((-2 * ∑ i ∈ s, F i p) * (∑ i ∈ s, F i (fun e => val (ω e))) + (∑ i ∈ s, F i p) ^ 2) := by
      funext ω; ring
    rw [this, expect_add, expect_add, expect_smul, hm, expect_const]
    ring
  rw [hv, h2, sq, sum_mul_sum, ← sum_sub_distrib]
  refine sum_congr rfl fun i hi => ?_
  rw [← sum_sub_distrib, sum_eq_single i]
  · simp; ring
  · intro j _ hji; simp [Ne.symm hji]
  · intro hi'; exact absurd hi hi'

theorem variance_smul (p : E → ℝ) (c : ℝ) (f : (E → Bool) → ℝ) : variance p (fun ω => c * f ω) = c ^ 2 * variance p f := by
  unfold variance
  rw [← expect_smul p (c ^ 2), expect_smul p c]
  congr 1; funext ω; ring

theorem variance_add_const (p : E → ℝ) (c : ℝ) (f : (E → Bool) → ℝ) : variance p (fun ω => f ω + c) = variance p f := by
  rw [variance, variance, expect_add, expect_const]
  congr 1; funext ω; ring

end Verif.Spec
