import Verif.Model.Exp2
import Verif.Props.DCM
import Verif.Props.DECM

/-! C12 for the alternative fixed-point maps `iterative_dcm_exp_2` and `iterative_decm_exp_2`. -/

open Finset Verif.Spec

namespace Verif.DCM

variable {n : ℕ}

theorem den2_eq0 (x : Vec n) (no ni : List (Fin n)) (c : Fin n → ℝ) (hno : no.Nodup) (hni : ni.Nodup) (m : Fin n) (hm : m ∈ no) :
    c m * iterative_den_2 x no ni c (0, m) = ∑ j ∈ ni.toFinset, w c m j * x (1, j) / (1 + x (0, m) * x (1, j)) := by
  have h2 : ∀ f : Vec n, (forL ni (fun j f => forL no (fun i f =>
      if j ≠ i then addAt f (1, j) (c i * x (0, i) / (1 + x (0, i) * x (1, j)))
      else addAt f (1, j) ((c i - 1) * x (0, i) / (1 + x (0, i) * x (1, j)))) f) f) (0, m) = f (0, m) := by
    intro f
    refine forL_obs_keep (fun f : Vec n => f (0, m)) _ _ (fun j _ s => ?_) f
    refine forL_obs_keep (fun f : Vec n => f (0, m)) _ _ (fun i _ s => ?_) s
    split <;> simp [addAt]
  have inner : ∀ (i : Fin n) (f : Vec n), (forL ni (fun j f =>
      if j ≠ i then addAt f (0, i) (c j * x (1, j) / (1 + x (0, i) * x (1, j)))
      else addAt f (0, i) ((c j - 1) * x (1, j) / (1 + x (0, i) * x (1, j)))) f) (0, m) =
      f (0, m) + (ni.map fun j => if i = m then (if j ≠ i then c j else c j - 1) * x (1, j) / (1 + x (0, i) * x (1, j)) else 0).sum := by
    intro i f
    refine forL_obs_add (fun f : Vec n => f (0, m)) _ _ _ (fun j s => ?_) f
    by_cases him : i = m
    · subst him; rw [if_pos rfl]; split_ifs <;> simp [addAt]
    · have : ((0 : Fin 2), m) ≠ (0, i) := by simpa using Ne.symm him
      split_ifs <;> simp [addAt, this]
  unfold iterative_den_2
  simp only [h2]
  rw [forL_obs_add (fun f : Vec n => f (0, m)) no _ _ (fun i s => inner i s)]
  rw [sum_map_nodup _ hno]
  simp only [zero_add, sum_map_nodup _ hni]
  rw [Finset.sum_eq_single m]
  · simp only [if_true]
    rw [mul_sum]
    refine sum_congr rfl fun j _ => ?_
    unfold w
    by_cases h : m = j
    · subst h; simp; ring
    · simp [h, Ne.symm h]; ring
  · intro i _ hi; simp [hi]
  · intro h; exact absurd (by simpa using hm) h

theorem den2_eq1 (x : Vec n) (no ni : List (Fin n)) (c : Fin n → ℝ) (hno : no.Nodup) (hni : ni.Nodup) (m : Fin n) (hm : m ∈ ni) :
    c m * iterative_den_2 x no ni c (1, m) = ∑ i ∈ no.toFinset, w c i m * x (0, i) / (1 + x (1, m) * x (0, i)) := by
  have h1 : ∀ f : Vec n, (forL no (fun i f => forL ni (fun j f =>
    if j ≠ i then addAt f (0, i) (c j * x (1, j) / (1 + x (0, i) * x (1, j)))
    else addAt f (0, i) ((c j - 1) * x (1, j) / (1 + x (0, i) * x (1, j)))) f) f) (1, m) = f (1, m) := by
    intro f
    refine forL_obs_keep (fun f : Vec n => f (1, m)) _ _ (fun j _ s => ?_) f
    refine forL_obs_keep (fun f : Vec n => f (1, m)) _ _ (fun i _ s => ?_) s
    split <;> simp [addAt]
  have inner : ∀ (j : Fin n) (f : Vec n), (forL no (fun i f =>
      if j ≠ i then addAt f (1, j) (c i * x (0, i) / (1 + x (0, i) * x (1, j)))
      else addAt f (1, j) ((c i - 1) * x (0, i) / (1 + x (0, i) * x (1, j)))) f) (1, m) =
      f (1, m) + (no.map fun i => if j = m then (if j ≠ i then c i else c i - 1) * x (0, i) / (1 + x (0, i) * x (1, j)) else 0).sum := by
    intro j f
    refine forL_obs_add (fun f : Vec n => f (1, m)) _ _ _ (fun i s => ?_) f
    by_cases him : j = m
    · subst him; rw [if_pos rfl]; split_ifs <;> simp [addAt]
    · have : ((1 : Fin 2), m) ≠ (1, j) := by simpa using Ne.symm him
      split_ifs <;> simp [addAt, this]
  unfold iterative_den_2
  rw [forL_obs_add (fun f : Vec n => f (1, m)) ni _ _ (fun i s => inner i s), h1]
  rw [sum_map_nodup _ hni]
  simp only [zero_add, sum_map_nodup _ hno]
  rw [Finset.sum_eq_single m]
  · simp only [if_true]
    rw [mul_sum]
    refine sum_congr rfl fun j _ => ?_
    unfold w
    by_cases h : m = j
    · subst h; simp; ring
    · simp [h, Ne.symm h]; ring
  · intro i _ hi; simp [hi]
  · intro h; exact absurd (by simpa using hm) h

theorem fixed_log_iff (k d t : ℝ) (hk : 0 < k) (hd : 0 < d) : -Real.log (k / d) = t ↔ Real.exp (-t) * d - k = 0 := by
  have hkd : 0 < k / d := div_pos hk hd
  rw [sub_eq_zero]
  constructor
  · intro h
    rw [← h, neg_neg, Real.exp_log hkd, div_mul_cancel₀ _ hd.ne']
  · intro h
    rw [← h, mul_div_cancel_right₀ _ hd.ne', Real.log_exp, neg_neg]

private theorem wsum_pos (c : Fin n → ℝ) (hc : ∀ i, 1 ≤ c i) (l : List (Fin n)) (m : Fin n) (F : Fin n → ℝ) (hF : ∀ j, 0 < F j)
    (hp : ∃ j ∈ l, j ≠ m ∨ 1 < c m) : 0 < ∑ j ∈ l.toFinset, w c m j * F j := by
  obtain ⟨j, hj, hjm⟩ := hp
  have hw0 : ∀ a b, 0 ≤ w c a b := fun a b => by
    unfold w; have := hc a; have := hc b
    split <;> apply mul_nonneg <;> linarith
  refine sum_pos' (fun a _ => mul_nonneg (hw0 _ _) (hF a).le) ⟨j, by simpa using hj, mul_pos ?_ (hF j)⟩
  unfold w
  have := hc m; have := hc j
  split
  · next h => rcases hjm with h' | h'
              · exact absurd h.symm h'
              · apply mul_pos <;> linarith
  · apply mul_pos <;> linarith

/-- C12 (dcm_exp, `iterative_dcm_exp_2`): also in presence of vanishing degrees, a component with positive degree that has a possible partner is
fixed by the map **iff** the gradient vanishes there. -/
theorem C12_dcm_exp_2_fixed_point_iff_partial (θ : Vec n) (ko ki c : Fin n → ℝ) (hc : ∀ i, 1 ≤ c i) (m : Fin n) :
    (0 < ko m → (∃ j, ki j ≠ 0 ∧ (j ≠ m ∨ 1 < c m)) →
      (iterative_dcm_exp_2 θ ko ki (nonzero ko) (nonzero ki) c (0, m) = some (θ (0, m)) ↔
        loglikelihood_prime_dcm_exp θ ko ki (nonzero ko) (nonzero ki) c (0, m) = 0)) ∧
    (0 < ki m → (∃ j, ko j ≠ 0 ∧ (j ≠ m ∨ 1 < c m)) →
      (iterative_dcm_exp_2 θ ko ki (nonzero ko) (nonzero ki) c (1, m) = some (θ (1, m)) ↔
        loglikelihood_prime_dcm_exp θ ko ki (nonzero ko) (nonzero ki) c (1, m) = 0)) := by
  set x : Vec n := fun v => Real.exp (-θ v) with hx
  have hxp : ∀ v, 0 < x v := fun v => Real.exp_pos _
  have hcm : 0 < c m := lt_of_lt_of_le one_pos (hc m)
  constructor
  · intro hk ⟨j, hj, hjm⟩
    have hm : m ∈ nonzero ko := by rw [mem_nonzero]; exact hk.ne'
    have e := den2_eq0 x _ _ c (nodup_nonzero ko) (nodup_nonzero ki) m hm
    have hpos : 0 < c m * iterative_den_2 x (nonzero ko) (nonzero ki) c (0, m) := by
      rw [e]; simp only [mul_div_assoc]
      refine wsum_pos c hc _ m _ (fun j => ?_) ⟨j, by rw [mem_nonzero]; exact hj, hjm⟩
      have := hxp (1, j); have := hxp (0, m); positivity
    have hd := pos_of_mul_pos_right hpos hcm.le
    rw [prime_exp_eq0 _ _ _ _ _ _ (nodup_nonzero _), if_pos hm, ← e]
    unfold iterative_dcm_exp_2
    have hkk : concat ko ki (0, m) = ko m := by simp [concat]
    simp only [hkk, ne_eq, hk.ne', not_false_eq_true, if_true, Option.some.injEq]
    rw [fixed_log_iff _ _ _ hk hd]
    rw [show Real.exp (-θ (0, m)) * (c m * iterative_den_2 x (nonzero ko) (nonzero ki) c (0, m)) - c m * ko m =
      c m * (Real.exp (-θ (0, m)) * iterative_den_2 x (nonzero ko) (nonzero ki) c (0, m) - ko m) by ring, mul_eq_zero,
      or_iff_right hcm.ne']
  · intro hk ⟨j, hj, hjm⟩
    have hm : m ∈ nonzero ki := by rw [mem_nonzero]; exact hk.ne'
    have e := den2_eq1 x _ _ c (nodup_nonzero ko) (nodup_nonzero ki) m hm
    have hpos : 0 < c m * iterative_den_2 x (nonzero ko) (nonzero ki) c (1, m) := by
      rw [e]; simp only [mul_div_assoc, w_symm c _ m]
      refine wsum_pos c hc _ m _ (fun j => ?_) ⟨j, by rw [mem_nonzero]; exact hj, hjm⟩
      have := hxp (0, j); have := hxp (1, m); positivity
    have hd := pos_of_mul_pos_right hpos hcm.le
    rw [prime_exp_eq1 _ _ _ _ _ _ (nodup_nonzero _), if_pos hm, ← e]
    unfold iterative_dcm_exp_2
    have hkk : concat ko ki (1, m) = ki m := by simp [concat]
    simp only [hkk, ne_eq, hk.ne', not_false_eq_true, if_true, Option.some.injEq]
    rw [fixed_log_iff _ _ _ hk hd]
    rw [show (c m * iterative_den_2 x (nonzero ko) (nonzero ki) c (1, m)) * Real.exp (-θ (1, m)) - c m * ki m =
      c m * (Real.exp (-θ (1, m)) * iterative_den_2 x (nonzero ko) (nonzero ki) c (1, m) - ki m) by ring, mul_eq_zero,
      or_iff_right hcm.ne']

example : 0 < (![1, 0, 2] : Fin 3 → ℝ) 0 ∧ ∃ j, (![0, 2, 1] : Fin 3 → ℝ) j ≠ 0 ∧ (j ≠ 0 ∨ (1 : ℝ) < 1) :=
  ⟨by simp, 1, by simp, Or.inl (by decide)⟩

/-- C12 is **false** for `iterative_dcm_exp_2` at a vanishing degree: the component is `nan` whatever the point (the gradient component is zero). -/
theorem C12_dcm_exp_2_nan (θ : Vec n) (ko ki c : Fin n → ℝ) (v : Fin 2 × Fin n) (hv : concat ko ki v = 0) :
    iterative_dcm_exp_2 θ ko ki (nonzero ko) (nonzero ki) c v = none ∧
      loglikelihood_prime_dcm_exp θ ko ki (nonzero ko) (nonzero ki) c v = 0 := by
  refine ⟨by simp [iterative_dcm_exp_2, hv], ?_⟩
  obtain ⟨b, m⟩ := v
  match b with
  | 0 =>
    have : ko m = 0 := by simpa [concat] using hv
    rw [prime_exp_eq0 _ _ _ _ _ _ (nodup_nonzero _), if_neg (by simp [mem_nonzero, this])]
  | 1 =>
    have : ki m = 0 := by simpa [concat] using hv
    rw [prime_exp_eq1 _ _ _ _ _ _ (nodup_nonzero _), if_neg (by simp [mem_nonzero, this])]

example : concat (![1, 0, 2] : Fin 3 → ℝ) ![0, 2, 1] (0, 1) = 0 := by simp [concat]

/-- the expectations of the exponential variant, in closed form -/
theorem expected_exp_eq (θ : Vec n) (m : Fin n) :
    expected_out_degree_dcm_exp θ m = (∑ j, if m = j then 0 else
      Real.exp (-θ (0, m)) * Real.exp (-θ (0, j)) / (1 + Real.exp (-θ (0, m)) * Real.exp (-θ (0, j)))) ∧
    expected_in_degree_dcm_exp θ m = ∑ j, if m = j then 0 else
      Real.exp (-θ (1, m)) * Real.exp (-θ (0, j)) / (1 + Real.exp (-θ (1, m)) * Real.exp (-θ (0, j))) := by
  have gen : ∀ F : Fin n → Fin n → ℝ, forR n (fun i k => forR n (fun j k => if i ≠ j then addAt k i (F i j) else k) k) (fun _ => 0) m =
      ∑ j, if m = j then 0 else F m j := by
    intro F
    have inner : ∀ (i : Fin n) (k : Fin n → ℝ), (forR n (fun j k => if i ≠ j then addAt k i (F i j) else k) k) m =
        k m + ((List.finRange n).map fun j => if i = m then (if i = j then 0 else F i j) else 0).sum := by
      intro i k
      refine forL_obs_add (fun k : Fin n → ℝ => k m) _ _ _ (fun j s => ?_) k
      by_cases him : i = m
      · subst him; rw [if_pos rfl]; split_ifs <;> simp_all [addAt]
      · rw [if_neg him]; split_ifs <;> simp [addAt, Ne.symm him]
    have := forL_obs_add (fun k : Fin n → ℝ => k m) (List.finRange n)
      (fun i k => forR n (fun j k => if i ≠ j then addAt k i (F i j) else k) k) _ (fun i s => inner i s) (fun _ => 0)
    refine this.trans ?_
    rw [zero_add, sum_map_nodup _ (List.nodup_finRange n), Finset.sum_eq_single m]
    · rw [sum_map_nodup _ (List.nodup_finRange n)]
      simp only [if_true]
      exact Finset.sum_congr (by ext; simp) fun _ _ => rfl
    · intro i _ hi; simp [hi]
    · intro h; exact absurd (by simp) h
  exact ⟨gen fun i j => Real.exp (-θ (0, i)) * Real.exp (-θ (0, j)) / (1 + Real.exp (-θ (0, i)) * Real.exp (-θ (0, j))),
    gen fun i j => Real.exp (-θ (1, i)) * Real.exp (-θ (0, j)) / (1 + Real.exp (-θ (1, i)) * Real.exp (-θ (0, j)))⟩

/-- C09 (dcm_exp): the expected in-degrees of the exponential variant are those of the plain one at `x = exp(-θ)`. -/
theorem C09_dcm_exp_expected_in (θ : Vec n) : expected_in_degree_dcm_exp θ = expected_in_degree_dcm (fun v => Real.exp (-θ v)) := by
  funext m
  rw [(expected_exp_eq θ m).2, expected_in_eq]
  refine sum_congr rfl fun j _ => ?_
  rw [mul_comm]

/-- C09 (dcm_exp), expected out-degrees: the two variants agree if the in-parameters equal the out-parameters.  Missing: the general case, for which the
claim is false, see `C09_dcm_exp_expected_out_wrong`. -/
theorem C09_dcm_exp_expected_out_partial (θ : Vec n) (h : ∀ j, θ (1, j) = θ (0, j)) :
    expected_out_degree_dcm_exp θ = expected_out_degree_dcm (fun v => Real.exp (-θ v)) := by
  funext m
  rw [(expected_exp_eq θ m).1, expected_out_eq]
  simp only [h]

example : ∀ j : Fin 3, (fun v : Fin 2 × Fin 3 => (v.2.val : ℝ)) (1, j) = (fun v : Fin 2 × Fin 3 => (v.2.val : ℝ)) (0, j) := fun _ => rfl

/-- C09 is **false** for `expected_out_degree_dcm_exp`: it never reads the in-parameters (`sol[j]` for `sol[j+n]`, models_functions.py 3132), so for every
network of at least two nodes there is a point where **every** expected out-degree is wrong. -/
theorem C09_dcm_exp_expected_out_wrong (θ : Vec n) (m j0 : Fin n) (hj : m ≠ j0) (hlt : ∀ j, θ (0, j) < θ (1, j)) :
    expected_out_degree_dcm (fun v => Real.exp (-θ v)) m < expected_out_degree_dcm_exp θ m := by
  rw [(expected_exp_eq θ m).1, expected_out_eq]
  have key : ∀ j, Real.exp (-θ (0, m)) * Real.exp (-θ (1, j)) / (1 + Real.exp (-θ (0, m)) * Real.exp (-θ (1, j))) <
      Real.exp (-θ (0, m)) * Real.exp (-θ (0, j)) / (1 + Real.exp (-θ (0, m)) * Real.exp (-θ (0, j))) := by
    intro j
    have h0 := Real.exp_pos (-θ (0, m)); have h1 := Real.exp_pos (-θ (1, j)); have h2 := Real.exp_pos (-θ (0, j))
    have h3 : Real.exp (-θ (1, j)) < Real.exp (-θ (0, j)) := Real.exp_lt_exp.2 (by linarith [hlt j])
    rw [div_lt_div_iff₀ (by positivity) (by positivity)]
    nlinarith [mul_lt_mul_of_pos_left h3 h0]
  refine sum_lt_sum (fun a _ => ?_) ⟨j0, mem_univ _, ?_⟩
  · split
    · rfl
    · exact (key a).le
  · rw [if_neg hj, if_neg hj]; exact key j0

example : ∀ j : Fin 3, (fun v : Fin 2 × Fin 3 => (v.1.val : ℝ)) (0, j) < (fun v : Fin 2 × Fin 3 => (v.1.val : ℝ)) (1, j) := fun _ => by simp

end Verif.DCM

namespace Verif.DECM

variable {n : ℕ}

private theorem iter_exp2_eq (θ : Vec n) (ko ki so si : Fin n → ℝ) (m : Fin n) :
    iterative_decm_exp_2 θ ko ki so si (0, m) = -Real.log (ko m / ∑ j, (if m = j then 0 else
      ex θ (1, j) * (Y (ex θ) m j / (1 - Y (ex θ) m j)) / (1 + X (ex θ) m j * (Y (ex θ) m j / (1 - Y (ex θ) m j))))) ∧
    iterative_decm_exp_2 θ ko ki so si (1, m) = -Real.log (ki m / ∑ j, (if m = j then 0 else
      ex θ (0, j) * (Y (ex θ) j m / (1 - Y (ex θ) j m)) / (1 + X (ex θ) j m * (Y (ex θ) j m / (1 - Y (ex θ) j m))))) ∧
    iterative_decm_exp_2 θ ko ki so si (2, m) = -Real.log (so m / ∑ j, (if m = j then 0 else
      X (ex θ) m j * ex θ (3, j) / ((1 + Y (ex θ) m j * X (ex θ) m j) * (1 - Y (ex θ) m j)))) ∧
    iterative_decm_exp_2 θ ko ki so si (3, m) = -Real.log (si m / ∑ j, (if m = j then 0 else
      X (ex θ) j m * ex θ (2, j) / ((1 + Y (ex θ) j m * X (ex θ) j m) * (1 - Y (ex θ) j m)))) := by
  have hite : ∀ i j : Fin n, ∀ a : ℝ, (if i ≠ j then a else 0) = if i = j then 0 else a := by
    intro i j a; by_cases h : i = j <;> simp [h]
  simp only [iterative_decm_exp_2, ite_acc_left, forR_add, zero_add, hite]
  refine ⟨?_, ?_, ?_, ?_⟩ <;>
  · apply forR_cell (m := m)
    · intro f; simp [setAt_apply, X, Y, ex]
    · intro i hi f; simp [setAt_apply, hi.symm]

private theorem tmp1_eq (a' X Y : ℝ) (h1 : 1 - Y ≠ 0) : a' * (Y / (1 - Y)) / (1 + X * (Y / (1 - Y))) = a' * Y / (1 - Y + X * Y) := by
  rw [show 1 + X * (Y / (1 - Y)) = (1 - Y + X * Y) / (1 - Y) by field_simp, mul_div_assoc', div_div_div_cancel_right₀ h1]

/-- C12 (decm_exp, `iterative_decm_exp_2`), the part that holds: in the degree blocks a component is fixed **iff** the gradient vanishes there.
Missing: the strength blocks, for which the claim is false, see `C12_decm_exp_2_fixed_point_wrong`. -/
theorem C12_decm_exp_2_fixed_point_partial (θ : Vec n) (ko ki so si : Fin n → ℝ) (h : AdmDECMexp θ) (hn : ∀ i : Fin n, ∃ j, i ≠ j)
    (hko : ∀ i, 0 < ko i) (hki : ∀ i, 0 < ki i) (i : Fin n) :
    (iterative_decm_exp_2 θ ko ki so si (0, i) = θ (0, i) ↔ loglikelihood_prime_decm_exp θ ko ki so si (0, i) = 0) ∧
    (iterative_decm_exp_2 θ ko ki so si (1, i) = θ (1, i) ↔ loglikelihood_prime_decm_exp θ ko ki so si (1, i) = 0) := by
  have ha := adm_exp h
  have d0 : 0 < fa_out (ex θ) i := den_pos _ ha hn (0, i)
  have d1 : 0 < fa_in (ex θ) i := den_pos _ ha hn (1, i)
  obtain ⟨t0, t1, -, -⟩ := iter_exp2_eq θ ko ki so si i
  obtain ⟨p0, p1, -, -⟩ := prime_eq (ex θ) ko ki so si i
  have gen : ∀ k d t : ℝ, 0 < k → 0 < d → (-Real.log (k / d) = t ↔ k / Real.exp (-t) - d = 0) := by
    intro k d t hk hd
    rw [DCM.fixed_log_iff k d t hk hd, sub_eq_zero, sub_eq_zero, div_eq_iff (Real.exp_pos _).ne', eq_comm, mul_comm]
  have e0 : (∑ j, (if i = j then 0 else ex θ (1, j) * (Y (ex θ) i j / (1 - Y (ex θ) i j)) /
      (1 + X (ex θ) i j * (Y (ex θ) i j / (1 - Y (ex θ) i j))))) = fa_out (ex θ) i := by
    rw [fa_out_eq]
    refine sum_congr rfl fun j _ => ?_
    by_cases hij : i = j
    · simp [hij]
    · simp only [hij, if_false]
      have h1 : 1 - Y (ex θ) i j ≠ 0 := (adm_pos ha i j hij).1.ne'
      rw [tmp1_eq _ _ _ h1]; rfl
  have e1 : (∑ j, (if i = j then 0 else ex θ (0, j) * (Y (ex θ) j i / (1 - Y (ex θ) j i)) /
      (1 + X (ex θ) j i * (Y (ex θ) j i / (1 - Y (ex θ) j i))))) = fa_in (ex θ) i := by
    rw [fa_in_eq]
    refine sum_congr rfl fun j _ => ?_
    by_cases hij : i = j
    · simp [hij]
    · simp only [hij, if_false]
      have h1 : 1 - Y (ex θ) j i ≠ 0 := (adm_pos ha j i (Ne.symm hij)).1.ne'
      rw [tmp1_eq _ _ _ h1]
      simp only [X, Y, P, mul_comm (ex θ (2, j)), mul_comm (ex θ (0, j)) (ex θ (1, i))]
  constructor
  · rw [t0, e0, gen _ _ _ (hko i) d0, C09_decm_gradients _ _ _ _ _ h, neg_eq_zero, mul_eq_zero, or_iff_left (Real.exp_pos _).ne']
    change _ ↔ loglikelihood_prime_decm (ex θ) ko ki so si (0, i) = 0
    rw [p0]; rfl
  · rw [t1, e1, gen _ _ _ (hki i) d1, C09_decm_gradients _ _ _ _ _ h, neg_eq_zero, mul_eq_zero, or_iff_left (Real.exp_pos _).ne']
    change _ ↔ loglikelihood_prime_decm (ex θ) ko ki so si (1, i) = 0
    rw [p1]; rfl

example : AdmDECMexp (fun v : Fin 4 × Fin 3 => (v.2.val : ℝ) - 1 + 2 * (v.1.val : ℝ)) ∧ ∀ i : Fin 3, ∃ j, i ≠ j :=
  ⟨adm_exp_witness, fun i => by fin_cases i; exacts [⟨1, by decide⟩, ⟨0, by decide⟩, ⟨0, by decide⟩]⟩

/-- C12 is **false** for `iterative_decm_exp_2`: it moves **every** admissible exact solution in **every** component of the strength blocks, because the
denominator `1 + tmp0 * tmp2` lacks `- tmp0` (models_functions.py 3346-3357). -/
theorem C12_decm_exp_2_fixed_point_wrong (θ : Vec n) (ko ki so si : Fin n → ℝ) (h : AdmDECMexp θ) (hn : ∀ i : Fin n, ∃ j, i ≠ j)
    (hso : ∀ i, 0 < so i) (hsi : ∀ i, 0 < si i) (hsol : ∀ v, loglikelihood_prime_decm_exp θ ko ki so si v = 0) (i : Fin n) :
    iterative_decm_exp_2 θ ko ki so si (2, i) ≠ θ (2, i) ∧ iterative_decm_exp_2 θ ko ki so si (3, i) ≠ θ (3, i) := by
  have ha := adm_exp h
  obtain ⟨-, -, t2, t3⟩ := iter_exp2_eq θ ko ki so si i
  obtain ⟨-, -, p2, p3⟩ := prime_exp_eq θ ko ki so si i
  have hpos : ∀ v, 0 < ex θ v := fun v => Real.exp_pos _
  obtain ⟨j0, hj0⟩ := hn i
  -- each wrong summand is strictly smaller than the right one
  have lt : ∀ A B b : ℝ, 0 < A → 0 < B → 0 < 1 - B → 0 < b → ∀ Bb : ℝ, B = b * Bb → 0 < Bb →
      b * (A * Bb / ((1 + B * A) * (1 - B))) < S A B := by
    intro A B b hA hB h1 hb Bb e hBb
    have hAB : 0 < B * A := by positivity
    have h2 : 0 < 1 - B + B * A := by linarith
    have h3 : 1 - B + B * A < 1 + B * A := by linarith
    unfold S
    rw [show b * (A * Bb / ((1 + B * A) * (1 - B))) = B * A / ((1 + B * A) * (1 - B)) by rw [e]; ring]
    exact div_lt_div_of_pos_left hAB (mul_pos h2 h1) (mul_lt_mul_of_pos_right h3 h1)
  have key : ∀ (s t : ℝ) (F G : Fin n → ℝ), 0 < s → (∀ j, i ≠ j → 0 < F j) → (∀ j, i ≠ j → Real.exp (-t) * F j < G j) →
      -s + ∑ j, (if i = j then 0 else G j) = 0 → -Real.log (s / ∑ j, (if i = j then 0 else F j)) ≠ t := by
    intro s t F G hs hF hFG hz
    have hd : 0 < ∑ j, (if i = j then 0 else F j) := by
      refine sum_pos' (fun a _ => ?_) ⟨j0, mem_univ j0, ?_⟩
      · by_cases ha : i = a
        · simp [ha]
        · rw [if_neg ha]; exact (hF a ha).le
      · rw [if_neg hj0]; exact hF j0 hj0
    rw [ne_eq, DCM.fixed_log_iff _ _ _ hs hd]
    have : Real.exp (-t) * ∑ j, (if i = j then 0 else F j) < ∑ j, (if i = j then 0 else G j) := by
      rw [mul_sum]
      refine sum_lt_sum (fun a _ => ?_) ⟨j0, mem_univ j0, ?_⟩
      · by_cases ha : i = a
        · simp [ha]
        · simp only [ha, if_false]; exact (hFG a ha).le
      · simp only [hj0, if_false]; exact hFG j0 hj0
    intro h'; linarith
  constructor
  · rw [t2]
    refine key _ _ _ _ (hso i) (fun j hij => ?_) (fun j hij => ?_) (p2 ▸ hsol (2, i))
    · have h1 := (adm_pos ha i j hij).1
      have := hpos (0, i); have := hpos (1, j); have := hpos (2, i); have := hpos (3, j)
      have h1' : 0 < 1 - Y (ex θ) i j := h1
      have : 0 < X (ex θ) i j := by unfold X; positivity
      have : 0 < Y (ex θ) i j := by unfold Y; positivity
      positivity
    · exact lt _ _ _ (mul_pos (hpos _) (hpos _)) (mul_pos (hpos _) (hpos _)) (adm_pos ha i j hij).1 (hpos (2, i)) _ rfl (hpos _)
  · rw [t3]
    refine key _ _ _ _ (hsi i) (fun j hij => ?_) (fun j hij => ?_) (p3 ▸ hsol (3, i))
    · have h1 := (adm_pos ha j i (Ne.symm hij)).1
      have := hpos (0, j); have := hpos (1, i); have := hpos (2, j); have := hpos (3, i)
      have h1' : 0 < 1 - Y (ex θ) j i := h1
      have : 0 < X (ex θ) j i := by unfold X; positivity
      have : 0 < Y (ex θ) j i := by unfold Y; positivity
      positivity
    · exact lt _ _ _ (mul_pos (hpos _) (hpos _)) (mul_pos (hpos _) (hpos _)) (adm_pos ha j i (Ne.symm hij)).1 (hpos (3, i)) _
        (mul_comm _ _) (hpos _)

example : ∃ (θ : Vec 3) (ko ki so si : Fin 3 → ℝ), AdmDECMexp θ ∧ (∀ i, 0 < so i) ∧ (∀ i, 0 < si i) ∧
    ∀ v, loglikelihood_prime_decm_exp θ ko ki so si v = 0 := by
  set θ : Vec 3 := fun v => (v.2.val : ℝ) - 1 + 2 * (v.1.val : ℝ) with hθ
  have hA : AdmDECMexp θ := adm_exp_witness
  have hn : ∀ i : Fin 3, ∃ j, i ≠ j := fun i => by fin_cases i; exacts [⟨1, by decide⟩, ⟨0, by decide⟩, ⟨0, by decide⟩]
  have hE : ∀ v, expected_decm_exp θ v = ex θ v * den (ex θ) v := fun v =>
    (forms (ex θ) (fun _ => 0) (fun _ => 0) (fun _ => 0) (fun _ => 0) v).2.1
  have hEp : ∀ v, 0 < expected_decm_exp θ v := fun v => by
    rw [hE]; exact mul_pos (Real.exp_pos _) (den_pos _ (adm_exp hA) hn v)
  refine ⟨θ, fun i => expected_decm_exp θ (0, i), fun i => expected_decm_exp θ (1, i), fun i => expected_decm_exp θ (2, i),
    fun i => expected_decm_exp θ (3, i), hA, fun i => hEp _, fun i => hEp _, ?_⟩
  rw [C04_decm_exp_solution_iff _ _ _ _ _ hA]
  rintro ⟨b, i⟩; match b with
    | 0 => rfl
    | 1 => rfl
    | 2 => rfl
    | 3 => rfl

end Verif.DECM
