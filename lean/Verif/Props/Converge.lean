import Verif.Lemmas.Converge
import Verif.Props.Psd
import Verif.Spec.Converge
import Verif.Props.SolveU4
import Verif.Props.SolveD3

/-! C62: given enough steps, the exponential binary models always converge.  For every network (every degree sequence that some ensemble of networks has on
average), from every starting point and with either Newton method, the run of `solve_tool` needs a bounded number of steps, never fails, and with a small
enough `eps` ends with all expected degrees within `tol` of the observed ones. -/

namespace Verif.Solve

open Verif Finset Reduction Solver Spec Concave Psd

noncomputable section

open Classical in
attribute [local instance 0] propDecidable

variable {n : ℕ}

/-! ### sums over pairs of classes -/

theorem pairs_bound {m : ℕ} (W : Fin m → Fin m → ℝ) {B : ℝ} (hrow : ∀ i, ∑ j, W i j ≤ B) (hcol : ∀ j, ∑ i, W i j ≤ B) (a b : Fin m → ℝ)
    (ha : ∀ i, 0 ≤ a i) (hb : ∀ i, 0 ≤ b i) : ∑ i, ∑ j, W i j * (a i + b j) ≤ B * (∑ i, a i + ∑ j, b j) := by
  have h1 : ∑ i, ∑ j, W i j * (a i + b j) = ∑ i, (∑ j, W i j) * a i + ∑ j, (∑ i, W i j) * b j := by
    have : ∀ i j, W i j * (a i + b j) = W i j * a i + W i j * b j := fun i j => by ring
    simp only [this, sum_add_distrib, sum_mul]
    congr 1
    exact sum_comm
  rw [h1, mul_add, mul_sum, mul_sum]
  exact add_le_add (sum_le_sum fun i _ => mul_le_mul_of_nonneg_right (hrow i) (ha i)) (sum_le_sum fun j _ => mul_le_mul_of_nonneg_right (hcol j) (hb j))

theorem cc_row {m : ℕ} (c : Fin m → ℝ) (hc : ∀ i, 1 ≤ c i) {N : ℝ} (hN : ∑ i, c i = N) (i : Fin m) : ∑ j, c i * c j ≤ N ^ 2 := by
  rw [← mul_sum, hN]
  have h0 : ∀ j ∈ univ, 0 ≤ c j := fun j _ => by linarith [hc j]
  have : c i ≤ N := by rw [← hN]; exact single_le_sum h0 (mem_univ i)
  have : 0 ≤ c i := h0 i (mem_univ i)
  nlinarith

theorem w_le {m : ℕ} (c : Fin m → ℝ) (hc : ∀ i, 1 ≤ c i) (i j : Fin m) : DCM.w c i j ≤ c i * c j := by
  unfold DCM.w
  split_ifs with h
  · subst h; nlinarith [hc i]
  · exact le_rfl

theorem quarter (t : ℝ) (ht : 0 ≤ t) : t / (1 + t) ^ 2 ≤ 1 / 4 := by
  rw [div_le_div_iff₀ (by positivity) (by norm_num)]
  nlinarith [sq_nonneg (1 - t)]

/-! ### cm_exp -/

section cm

variable {d : UData n}

theorem UData.one_le_c (d : UData n) (q : Fin d.r) : (1 : ℝ) ≤ d.c q := by
  have := r_multiplicity_pos d.dseq q
  simp only [UData.c]; exact_mod_cast this

theorem UData.sum_c (d : UData n) : ∑ q, d.c q = (n : ℝ) := by
  have := sum_multiplicity d.dseq
  have h : ((∑ q, r_multiplicity d.dseq q : ℕ) : ℝ) = n := by rw [this]
  push_cast at h
  exact h

theorem cm_hess_bound {m : ℕ} (x k c : Fin m → ℝ) (hc : ∀ i, 1 ≤ c i) {N : ℝ} (hN : ∑ i, c i = N) (v : Fin m → ℝ) :
    quad (negM (CM.loglikelihood_hessian_cm_exp x k c)) v ≤ N ^ 2 * ∑ i, v i ^ 2 := by
  have hc0 : ∀ i, 0 ≤ c i := fun i => by linarith [hc i]
  set g : Fin m → Fin m → ℝ := fun a b => (Real.exp (-x a) * Real.exp (-x b) / (1 + Real.exp (-x a) * Real.exp (-x b)) ^ 2) * c a * c b with hg
  set dd : Fin m → ℝ := fun a => (Real.exp (-x a) ^ 2 / (1 + Real.exp (-x a) ^ 2) ^ 2) * c a * (c a - 1) with hd
  have hg1 : ∀ a b, g a b ≤ c a * c b / 4 := fun a b => by
    have h1 := quarter (Real.exp (-x a) * Real.exp (-x b)) (by positivity)
    have h2 := mul_nonneg (hc0 a) (hc0 b)
    have h3 := mul_le_mul_of_nonneg_right h1 h2
    simp only [hg]; linarith
  have hd1 : ∀ a, dd a ≤ N ^ 2 / 4 := fun a => by
    have h1 := quarter (Real.exp (-x a) ^ 2) (by positivity)
    have h2 : 0 ≤ c a * (c a - 1) := mul_nonneg (hc0 a) (by linarith [hc a])
    have h3 := mul_le_mul_of_nonneg_right h1 h2
    have h4 : c a ≤ N := by rw [← hN]; exact single_le_sum (fun j _ => hc0 j) (mem_univ a)
    simp only [hd]; nlinarith [hc a]
  have e : ∀ a b, v a * negM (CM.loglikelihood_hessian_cm_exp x k c) a b * v b =
      (if a = b then dd a * v a ^ 2 else 0) + v a * (if a = b then ∑ h, (if a = h then 0 else g a h) else g a b) * v b := by
    intro a b
    simp only [negM]
    rw [CM.hess_exp_eq]
    by_cases hab : a = b
    · subst hab
      simp only [if_true]
      have : ∀ h, (if a = h then -((Real.exp (-x h) ^ 2 / (1 + Real.exp (-x h) ^ 2) ^ 2) * c a * (c h - 1))
          else -((Real.exp (-x a) * Real.exp (-x h) / (1 + Real.exp (-x a) * Real.exp (-x h)) ^ 2) * c a * c h)) =
          -((if a = h then dd a else 0) + (if a = h then 0 else g a h)) := by
        intro h; split_ifs with hh
        · subst hh; simp [hd]
        · simp [hg]
      simp only [this, sum_neg_distrib, sum_add_distrib, sum_ite_eq, mem_univ, if_true]
      ring
    · simp only [hab, if_false, hg]; ring
  rw [quad_eq]
  simp only [e, sum_add_distrib, sum_ite_eq, mem_univ, if_true]
  rw [und_form g (fun a b => by simp only [hg, mul_comm (Real.exp (-x a))]; ring)]
  have h1 : ∑ a, dd a * v a ^ 2 ≤ N ^ 2 / 4 * ∑ i, v i ^ 2 := by
    rw [mul_sum]; exact sum_le_sum fun a _ => mul_le_mul_of_nonneg_right (hd1 a) (sq_nonneg _)
  have h2 : ∑ a, ∑ b, (if a = b then 0 else g a b) * ((v a + v b) * (v a + v b)) ≤ ∑ a, ∑ b, (c a * c b) * (v a ^ 2 / 2 + v b ^ 2 / 2) := by
    refine sum_le_sum fun a _ => sum_le_sum fun b _ => ?_
    have hcc := mul_nonneg (hc0 a) (hc0 b)
    split_ifs
    · rw [zero_mul]; positivity
    · have h3 := mul_le_mul_of_nonneg_right (hg1 a b) (mul_self_nonneg (v a + v b))
      have h4 : (v a + v b) * (v a + v b) ≤ 2 * (v a ^ 2 + v b ^ 2) := by nlinarith [sq_nonneg (v a - v b)]
      have h5 := mul_le_mul_of_nonneg_left h4 hcc
      nlinarith
  have h3 := pairs_bound (fun a b => c a * c b) (cc_row c hc hN) (fun j => by
    have := cc_row c hc hN j
    rwa [sum_congr rfl fun i _ => mul_comm (c i) (c j)]) (fun a => v a ^ 2 / 2) (fun a => v a ^ 2 / 2) (fun _ => by positivity) (fun _ => by positivity)
  have h4 : ∑ i, v i ^ 2 / 2 = (∑ i, v i ^ 2) / 2 := by rw [sum_div]
  rw [h4] at h3
  have h5 : 0 ≤ N ^ 2 * ∑ i, v i ^ 2 := mul_nonneg (sq_nonneg _) (sum_nonneg fun i _ => sq_nonneg _)
  linarith

theorem cm_diag_bound {m : ℕ} (x k c : Fin m → ℝ) (hc : ∀ i, 1 ≤ c i) {N : ℝ} (hN : ∑ i, c i = N) (i : Fin m) :
    -CM.loglikelihood_hessian_diag_cm_exp x k c i ≤ N ^ 2 := by
  have hc0 : ∀ i, 0 ≤ c i := fun i => by linarith [hc i]
  rw [CM.hess_diag_exp_eq, ← sum_neg_distrib]
  refine le_trans (sum_le_sum fun j _ => ?_) (cc_row c hc hN i)
  have hcc := mul_nonneg (hc0 i) (hc0 j)
  have hone : ∀ t : ℝ, 0 ≤ t → t / (1 + t) ≤ 1 := fun t ht => by rw [div_le_one (by positivity)]; linarith
  split_ifs with h
  · subst h
    rw [neg_neg]
    have h1 := hone (Real.exp (-x i) ^ 2) (by positivity)
    have h2 : 0 ≤ c i * (c i - 1) := mul_nonneg (hc0 i) (by linarith [hc i])
    have := mul_le_mul_of_nonneg_right h1 h2
    nlinarith [hc0 i]
  · rw [neg_neg]
    have h1 := hone (Real.exp (-x i) * Real.exp (-x j)) (by positivity)
    have := mul_le_mul_of_nonneg_right h1 hcc
    linarith

theorem cm_smooth [NeZero n] (e : Env) (d : UData n) (me : Method) (hme : me ≠ .fixed_point) :
    Smooth (cbCMexp e d me) (fun θ => CM.loglikelihood_cm_exp θ d.k d.c) ((n : ℝ) ^ 2 / 4) ((n : ℝ) ^ 2) where
  Kpos := by have := Nat.pos_of_neZero n; positivity
  Mnonneg := by positivity
  smooth := by
    intro x v
    have h := CM.expansion_exp x (x + v) d.k d.c
    have hfn : ∀ q, (cbCMexp e d me).fn x q = -CM.loglikelihood_prime_cm_exp x d.k d.c q := by
      intro q; cases me <;> first | rfl | exact absurd rfl hme
    have hdot : dot ((cbCMexp e d me).fn x) v = -∑ i, CM.loglikelihood_prime_cm_exp x d.k d.c i * ((x + v) i - x i) := by
      unfold dot
      rw [← sum_neg_distrib]
      exact sum_congr rfl fun i _ => by rw [hfn]; simp
    have hg : ∑ i, ∑ j, DCM.w d.c i j / 2 * spGap (-(x i + x j)) (-((x + v) i + (x + v) j)) ≤ ∑ i, ∑ j, (d.c i * d.c j) * (v i ^ 2 / 8 + v j ^ 2 / 8) := by
      refine sum_le_sum fun i _ => sum_le_sum fun j _ => ?_
      have h1 := spGap_le (-(x i + x j)) (-((x + v) i + (x + v) j))
      have h2 : (-((x + v) i + (x + v) j) - -(x i + x j)) ^ 2 = (v i + v j) ^ 2 := by simp only [Pi.add_apply]; ring
      rw [h2] at h1
      have h3 : spGap (-(x i + x j)) (-((x + v) i + (x + v) j)) / 2 ≤ v i ^ 2 / 8 + v j ^ 2 / 8 := by nlinarith [sq_nonneg (v i - v j)]
      have h4 := mul_le_mul (w_le d.c d.one_le_c i j) h3 (by have := spGap_nonneg (-(x i + x j)) (-((x + v) i + (x + v) j)); positivity)
        (mul_nonneg (by linarith [d.one_le_c i]) (by linarith [d.one_le_c j]))
      linarith
    have h3 := pairs_bound (fun a b => d.c a * d.c b) (cc_row d.c d.one_le_c d.sum_c) (fun j => by
      have := cc_row d.c d.one_le_c d.sum_c j
      rwa [sum_congr rfl fun i _ => mul_comm (d.c i) (d.c j)]) (fun a => v a ^ 2 / 8) (fun a => v a ^ 2 / 8) (fun _ => by positivity) (fun _ => by positivity)
    have h4 : ∑ i, v i ^ 2 / 8 = (∑ i, v i ^ 2) / 8 := by rw [sum_div]
    rw [h4] at h3
    rw [hdot]
    linarith
  search := by
    intro x dx f
    have : llF e (fun _ => True) (fun x => CM.loglikelihood_cm_exp x d.k d.c) = fun x => some (CM.loglikelihood_cm_exp x d.k d.c) := by
      funext x; simp [llF]
    simp only [cbCMexp, linsearch_fun_CM_exp, this]
  reg := rfl
  psd := fun x => C17_cm_exp_hessian_psd x d.k d.c d.one_le_c
  bound := fun x v => cm_hess_bound x d.k d.c d.one_le_c d.sum_c v
  diag := fun x i => cm_diag_bound x d.k d.c d.one_le_c d.sum_c i

end cm

/-! ### the constants -/

section constants

variable {ι : Type} [Fintype ι] [DecidableEq ι] [Nonempty ι] [NeZero n]

theorem card_bound {c : ℝ} (hc : c ≤ 2 * n) : Real.sqrt c ≤ 1.4143 * Real.sqrt n := by
  have h2 : Real.sqrt 2 ≤ 1.4143 := Real.sqrt_le_iff.2 ⟨by norm_num, by norm_num⟩
  calc Real.sqrt c ≤ Real.sqrt (2 * n) := Real.sqrt_le_sqrt hc
    _ = Real.sqrt 2 * Real.sqrt n := Real.sqrt_mul (by norm_num) _
    _ ≤ _ := mul_le_mul_of_nonneg_right h2 (Real.sqrt_nonneg _)

theorem cap_ok (p : Params) (m : String) (hcard : (Fintype.card ι : ℝ) ≤ 2 * n) (ht : TolOK n p.tol) :
    (n : ℝ) ^ 2 / 4 < 0.9999 * lamMin ι (p.opts m) * 2 ^ 50 := by
  have hs := card_bound hcard
  have hs0 : 0 < Real.sqrt (Fintype.card ι) := Real.sqrt_pos.2 (by exact_mod_cast Fintype.card_pos)
  have hl : lamMin ι (p.opts m) = p.tol * 1e-3 / Real.sqrt (Fintype.card ι) := rfl
  obtain ⟨t0, t1⟩ := ht
  rw [hl, show 0.9999 * (p.tol * 1e-3 / Real.sqrt (Fintype.card ι)) * 2 ^ 50 = (0.9999 * 1e-3 * 2 ^ 50) * p.tol / Real.sqrt (Fintype.card ι) by ring,
    lt_div_iff₀ hs0]
  calc (n : ℝ) ^ 2 / 4 * Real.sqrt (Fintype.card ι) ≤ (n : ℝ) ^ 2 / 4 * (1.4143 * Real.sqrt n) := mul_le_mul_of_nonneg_left hs (by positivity)
    _ = 1.4143 / 4 * ((n : ℝ) ^ 2 * Real.sqrt n) := by ring
    _ ≤ 1.4143 / 4 * (3e12 * p.tol) := mul_le_mul_of_nonneg_left t1 (by norm_num)
    _ < _ := by nlinarith

theorem eps_ok (p : Params) (m : String) (hcard : (Fintype.card ι : ℝ) ≤ 2 * n) (ht : TolOK n p.tol) (he : EpsOK n p.tol p.eps) :
    p.eps < min 1 (stepMin ι (p.opts m) ((n : ℝ) ^ 2 / 4) ((n : ℝ) ^ 2)) := by
  have hn : (1 : ℝ) ≤ n := by exact_mod_cast Nat.pos_of_neZero n
  have hs0 : 1 ≤ Real.sqrt (Fintype.card ι) := Real.one_le_sqrt.2 (by exact_mod_cast Fintype.card_pos)
  have hs1 : Real.sqrt (Fintype.card ι) ≤ 1.4143 * n := (card_bound hcard).trans (mul_le_mul_of_nonneg_left (Real.sqrt_le_iff.2 ⟨by linarith, by nlinarith⟩) (by norm_num))
  set q := Real.sqrt (Fintype.card ι) with hq
  obtain ⟨t0, -⟩ := ht
  obtain ⟨t1, t2⟩ := he
  have hn5 : (1 : ℝ) ≤ (n : ℝ) ^ 5 := one_le_pow₀ hn
  have hn2 : (1 : ℝ) ≤ (n : ℝ) ^ 2 := one_le_pow₀ hn
  have e1 : p.eps ≤ p.tol ^ 2 / (3000 * (n : ℝ) ^ 5) := by rw [le_div_iff₀ (by positivity)]; exact t2
  refine lt_of_le_of_lt e1 (lt_min ?_ ?_)
  · rw [div_lt_one (by positivity)]
    nlinarith
  · have hstep : stepMin ι (p.opts m) ((n : ℝ) ^ 2 / 4) ((n : ℝ) ^ 2) = min 1 (p.tol * 1e-3 / q / (4 * ((n : ℝ) ^ 2 / 4))) * (p.tol / ((n : ℝ) ^ 2 + p.tol * 1e-3)) := rfl
    have hmin : min 1 (p.tol * 1e-3 / q / (4 * ((n : ℝ) ^ 2 / 4))) = p.tol * 1e-3 / q / (4 * ((n : ℝ) ^ 2 / 4)) := by
      refine min_eq_right ?_
      rw [div_div, div_le_one (by positivity)]
      have : 1 ≤ q * (4 * ((n : ℝ) ^ 2 / 4)) := by nlinarith
      nlinarith
    rw [hstep, hmin, div_div, div_mul_div_comm, div_lt_div_iff₀ (by positivity) (by positivity)]
    have k1 : q * (4 * ((n : ℝ) ^ 2 / 4)) * ((n : ℝ) ^ 2 + p.tol * 1e-3) ≤ 1.4143 * n * n ^ 2 * (1.001 * n ^ 2) := by
      refine mul_le_mul ?_ (by nlinarith) (by positivity) (by positivity)
      nlinarith
    have k2 : p.tol ^ 2 * (q * (4 * ((n : ℝ) ^ 2 / 4)) * ((n : ℝ) ^ 2 + p.tol * 1e-3)) ≤ p.tol ^ 2 * (1.4143 * n * n ^ 2 * (1.001 * n ^ 2)) :=
      mul_le_mul_of_nonneg_left k1 (by positivity)
    refine lt_of_le_of_lt k2 ?_
    have : 0 < p.tol ^ 2 * (n : ℝ) ^ 5 := by positivity
    nlinarith

end constants

section cm

variable {d : UData n}

/-- the log-likelihood of a degree sequence that some ensemble of networks has on average is never positive -/
theorem logUBCM_nonpos (k x : Fin n → ℝ) (hx : ∀ i, 0 < x i) (P : Fin n → Fin n → ℝ) (h0 : ∀ i j, 0 ≤ P i j ∧ P i j ≤ 1) (hs : ∀ i j, P i j = P j i)
    (hk : ∀ i, ∑ j ∈ univ.filter (· ≠ i), P i j = k i) : logUBCM k x ≤ 0 := by
  have h1 : ∑ i, k i * Real.log (x i) = ∑ i, ∑ j, if j < i then P i j * (Real.log (x i) + Real.log (x j)) else 0 := by
    have := ECM.sum_lt_pairs (fun i j => P i j * Real.log (x i))
    rw [show (∑ i, k i * Real.log (x i)) = ∑ i, ∑ j, if i = j then 0 else P i j * Real.log (x i) from
      sum_congr rfl fun i _ => by rw [← hk, sum_ne, sum_mul]; exact sum_congr rfl fun j _ => by split <;> simp, this]
    refine sum_congr rfl fun i _ => sum_congr rfl fun j _ => ?_
    split
    · rw [hs j i]; ring
    · rfl
  rw [logUBCM, h1, sub_nonpos]
  refine sum_le_sum fun i _ => ?_
  rw [sum_filter]
  refine sum_le_sum fun j _ => ?_
  split
  · rw [← Real.log_mul (hx i).ne' (hx j).ne']
    have hpos : 0 < x i * x j := mul_pos (hx i) (hx j)
    have hle : Real.log (x i * x j) ≤ Real.log (1 + x i * x j) := Real.log_le_log hpos (by linarith)
    have hnn : 0 ≤ Real.log (1 + x i * x j) := Real.log_nonneg (by linarith)
    obtain ⟨p0, p1⟩ := h0 i j
    nlinarith
  · exact le_rfl

/-- a starting point `solve_tool` accepts: one of the five names, or an array -/
def Guess.Accepted : Guess n → Prop
  | .other => False
  | .name s => s ∈ guessNames
  | .nodes _ => True
  | .pairs _ => True

theorem guessCM_ok (e : Env) (d : UData n) (guess : Guess n) (hg : guess.Accepted) : ∃ x0, guessCM e d true guess = .ok x0 := by
  cases guess with
  | other => exact hg.elim
  | name s =>
    simp only [Guess.Accepted, guessNames, List.mem_cons, List.not_mem_nil, or_false] at hg
    rcases hg with rfl | rfl | rfl | rfl | rfl <;> simp [guessCM, namedCM]
  | nodes v => exact ⟨_, rfl⟩
  | pairs v => exact ⟨_, rfl⟩

variable [NeZero n]

/-- C62 (cm_exp): for every network (or attainable degree sequence), every accepted starting point and every tolerance in range there is a number of steps `T` such
that, whatever was solved before (except a weighted model), with method newton or quasinewton and whatever `max_steps` and `eps`: `solve_tool("cm_exp")` raises nothing, takes at most
`T` steps, and if it is allowed more than `T` steps and `eps` is small enough, every expected degree is within `tol` of the observed one. -/
theorem C62_cm_exp (e : Env) (d : UData n) (hd : Attainable d.deg) (guess : Guess n) (hg : guess.Accepted) (tol : ℝ) (ht : TolOK n tol) :
    ∃ T : ℕ, ∀ (g : UAttr d) (me : Method) (adj : AdjSpec n) (ma : String) (ga : Guess n) (p : Params), g.beta = none → me ≠ .fixed_point →
      p.tol = tol → p.linsearch = true →
      let R := solve_tool e g "cm_exp" me.name guess adj ma ga p
      R.exc = none ∧ (p.full_return = true → ∃ t, R.g.trace = some t ∧ t.n_steps ≤ T) ∧
      (T < p.max_steps → EpsOK n tol p.eps → ∃ x, R.g.x = some x ∧ ∀ i, |degUBCM x i - d.dseq i| ≤ tol) := by
  obtain ⟨x0, h0⟩ := guessCM_ok e d guess hg
  obtain ⟨P, hP0, hPs, hPk⟩ := hd
  have hcard : (Fintype.card (Fin d.r) : ℝ) ≤ 2 * n := by
    have h1 : ∑ _q : Fin d.r, (1 : ℝ) ≤ ∑ q, d.c q := sum_le_sum fun q _ => d.one_le_c q
    rw [d.sum_c] at h1
    simp only [sum_const, card_univ, nsmul_eq_mul, mul_one] at h1
    have : (0 : ℝ) ≤ n := Nat.cast_nonneg n
    linarith
  set γ : ℝ := 0.0001 * lamMin (Fin d.r) (Params.opts { tol := tol } "") * stepMin (Fin d.r) (Params.opts { tol := tol } "") ((n : ℝ) ^ 2 / 4) ((n : ℝ) ^ 2) ^ 2 with hγ
  have hn : 0 < n := Nat.pos_of_neZero n
  have hγ0 : 0 < γ := by
    have h1 := lamMin_pos (ι := Fin d.r) (o := Params.opts { tol := tol } "") ht.1 (by norm_num [Params.opts])
    have h2 := stepMin_pos (ι := Fin d.r) (o := Params.opts { tol := tol } "") ht.1 (by norm_num [Params.opts])
      (K := (n : ℝ) ^ 2 / 4) (M := (n : ℝ) ^ 2) (by positivity) (by positivity)
    positivity
  obtain ⟨T, hT⟩ := exists_nat_gt ((0 - CM.loglikelihood_cm_exp x0 d.k d.c) / γ)
  refine ⟨T, fun g me adj ma ga p hb hme hpt hl => ?_⟩
  intro R
  have hm : (p.opts me.name).method = "newton" ∨ (p.opts me.name).method = "quasinewton" := by
    cases me
    · exact .inl rfl
    · exact .inr rfl
    · exact absurd rfl hme
  have hpt' : TolOK n p.tol := by rw [hpt]; exact ht
  have hlam : lamMin (Fin d.r) (p.opts me.name) = lamMin (Fin d.r) (Params.opts { tol := tol } "") := by simp only [lamMin, Params.opts, hpt]
  have hstep : stepMin (Fin d.r) (p.opts me.name) ((n : ℝ) ^ 2 / 4) ((n : ℝ) ^ 2) =
      stepMin (Fin d.r) (Params.opts { tol := tol } "") ((n : ℝ) ^ 2 / 4) ((n : ℝ) ^ 2) := by
    simp only [stepMin, hlam]; simp only [Params.opts, hpt]
  obtain ⟨s, hs, hsT, hconv⟩ := (cm_smooth e d me hme).solver (p.opts me.name) hm rfl (by norm_num [Params.opts]) hl hpt'.1
    (cap_ok p me.name hcard hpt') (U := 0) (fun θ => by
      rw [ll_exp_red_spec]; exact logUBCM_nonpos _ _ (fun i => Real.exp_pos _) P hP0 hPs hPk) x0 T (by
      rw [hlam, hstep, ← hγ]
      rw [div_lt_iff₀ hγ0] at hT
      nlinarith)
  have hR := solve_tool_cm_exp e g me guess adj ma ga p h0
  simp only [hs] at hR
  rw [show R = _ from hR]
  set G : UAttr d := setSolvedCM { g with last_model := some "cm_exp", full_return := p.full_return, args := some .cm, step_fun := some .cm_exp, fun_pmatrix := true } true s with hG
  have k := solutionError_keeps e G
  refine ⟨?_, fun hf => ⟨.of s, ?_, hsT⟩, fun hmax heps => ⟨fun i => Real.exp (-s.x (d.inv i)), k.1, fun i => ?_⟩⟩
  · have hb' : (degreeError G).beta = none := by
      rw [show (degreeError G).beta = G.beta from (degreeError_keeps G).2.2.1]; exact hb
    show (solutionError e G).2 = none
    rw [solutionError, if_pos (by simp [hG, setSolvedCM]), strengthError, hb']
  · refine k.2.2.2.2.1.trans ?_
    simp [hG, setSolvedCM, hf]
  · have hr := (abs_le_norm2 _ (d.inv i)).trans (hconv hmax (by
      have := eps_ok (n := n) (ι := Fin d.r) p me.name hcard hpt' (by rw [hpt]; exact heps)
      exact this))
    have hfn : (cbCMexp e d me).fn s.x (d.inv i) = -(d.c (d.inv i) * (degUBCM (fun i => Real.exp (-s.x (d.inv i))) i - d.dseq i)) := by
      rw [← residual_cm_exp]
      cases me <;> first | rfl | exact absurd rfl hme
    rw [hfn, abs_neg] at hr
    rw [← hpt]
    exact abs_le_of_mul (d.one_le_c _) hr

end cm

/-! ### dcm_exp -/

section dcm

variable {d : DData n}

theorem DData.sum_c (d : DData n) : ∑ q, d.c q = (n : ℝ) := by
  have := sum_multiplicity d.seq
  have h : ((∑ q, r_multiplicity d.seq q : ℕ) : ℝ) = n := by rw [this]
  push_cast at h
  exact h

theorem dcm_hess_bound {m : ℕ} (x : Fin 2 × Fin m → ℝ) (ko ki : Fin m → ℝ) (no ni : List (Fin m)) (c : Fin m → ℝ) (hno : no.Nodup) (hni : ni.Nodup)
    (hc : ∀ i, 1 ≤ c i) {N : ℝ} (hN : ∑ i, c i = N) (v : Fin 2 × Fin m → ℝ) :
    quad (negM (DCM.loglikelihood_hessian_dcm_exp x ko ki no ni c)) v ≤ N ^ 2 * ∑ u, v u ^ 2 := by
  have hc0 : ∀ i, 0 ≤ c i := fun i => by linarith [hc i]
  set K : Fin m → Fin m → ℝ := fun i j => if i ∈ no ∧ j ∈ ni then DCM.w c i j * (Real.exp (-x (0, i)) * Real.exp (-x (1, j))) /
    (1 + Real.exp (-x (0, i)) * Real.exp (-x (1, j))) ^ 2 else 0 with hK
  have hK1 : ∀ i j, K i j ≤ c i * c j / 4 := fun i j => by
    have h2 := mul_nonneg (hc0 i) (hc0 j)
    simp only [hK]
    split_ifs
    · have h1 := quarter (Real.exp (-x (0, i)) * Real.exp (-x (1, j))) (by positivity)
      have h3 := mul_le_mul (w_le c hc i j) h1 (by positivity) h2
      rw [mul_div_assoc]; linarith
    · positivity
  have hw : ∀ i j, 0 ≤ K i j := fun i j => by
    have := DCM.w_nonneg c hc i j
    simp only [hK]; split_ifs
    · positivity
    · exact le_rfl
  obtain ⟨h00, h01, h10, h11⟩ : (∀ i j, negM (DCM.loglikelihood_hessian_dcm_exp x ko ki no ni c) (0, i) (0, j) = if i = j then ∑ k, K i k else 0) ∧
      (∀ i j, negM (DCM.loglikelihood_hessian_dcm_exp x ko ki no ni c) (0, i) (1, j) = K i j) ∧
      (∀ i j, negM (DCM.loglikelihood_hessian_dcm_exp x ko ki no ni c) (1, i) (0, j) = K j i) ∧
      (∀ i j, negM (DCM.loglikelihood_hessian_dcm_exp x ko ki no ni c) (1, i) (1, j) = if i = j then ∑ k, K k i else 0) := by
    refine ⟨fun a b => ?_, fun a b => ?_, fun a b => ?_, fun a b => ?_⟩
    all_goals
      simp only [negM]
      obtain ⟨e1, e2, e3, e4⟩ := DCM.hess_exp_eq x ko ki no ni c hno hni a b
    · rw [e1]
      by_cases hab : a = b
      · subst hab
        by_cases ha : a ∈ no
        · simp only [ha, true_and, if_true, neg_neg, hK]
          rw [← sum_filter]
          refine sum_congr (by ext; simp) fun j _ => by rw [mul_comm (Real.exp (-x (1, j)))]
        · simp [hK, ha]
      · simp [hab]
    · rw [e2]
      by_cases hab : a ∈ no ∧ b ∈ ni
      · simp only [hK, hab, and_self, if_true, mul_comm (Real.exp (-x (1, b)))]; ring
      · simp [hK, hab]
    · rw [e4]
      by_cases hab : a ∈ ni ∧ b ∈ no
      · simp only [hK, hab, and_self, if_true]; ring
      · have : ¬ (b ∈ no ∧ a ∈ ni) := fun h => hab h.symm
        simp [hK, hab, this]
    · rw [e3]
      by_cases hab : a = b
      · subst hab
        by_cases ha : a ∈ ni
        · simp only [ha, and_true, true_and, if_true, neg_neg, hK]
          rw [← sum_filter]
          exact sum_congr (by ext; simp) fun j _ => rfl
        · simp [hK, ha]
      · simp [hab]
  rw [quad_two]
  simp only [h00, h01, h10, h11]
  rw [bip_form K (fun i => v (0, i)) (fun i => v (1, i)) (fun i => v (0, i)) (fun i => v (1, i))]
  have h2 : ∑ a, ∑ b, K a b * ((v (0, a) + v (1, b)) * (v (0, a) + v (1, b))) ≤ ∑ a, ∑ b, (c a * c b) * (v (0, a) ^ 2 / 2 + v (1, b) ^ 2 / 2) := by
    refine sum_le_sum fun a _ => sum_le_sum fun b _ => ?_
    have hcc := mul_nonneg (hc0 a) (hc0 b)
    have h3 := mul_le_mul_of_nonneg_right (hK1 a b) (mul_self_nonneg (v (0, a) + v (1, b)))
    have h4 : (v (0, a) + v (1, b)) * (v (0, a) + v (1, b)) ≤ 2 * (v (0, a) ^ 2 + v (1, b) ^ 2) := by nlinarith [sq_nonneg (v (0, a) - v (1, b))]
    have h5 := mul_le_mul_of_nonneg_left h4 hcc
    nlinarith
  have h3 := pairs_bound (fun a b => c a * c b) (cc_row c hc hN) (fun j => by
    have := cc_row c hc hN j
    rwa [sum_congr rfl fun i _ => mul_comm (c i) (c j)]) (fun a => v (0, a) ^ 2 / 2) (fun a => v (1, a) ^ 2 / 2) (fun _ => by positivity) (fun _ => by positivity)
  have h4 : ∑ u, v u ^ 2 = ∑ i, v (0, i) ^ 2 + ∑ i, v (1, i) ^ 2 := by rw [Fintype.sum_prod_type, Fin.sum_univ_two]
  have h6 : ∑ i, v (0, i) ^ 2 / 2 + ∑ i, v (1, i) ^ 2 / 2 = (∑ u, v u ^ 2) / 2 := by rw [h4, ← sum_div, ← sum_div]; ring
  rw [h6] at h3
  have h5 : 0 ≤ N ^ 2 * ∑ u, v u ^ 2 := mul_nonneg (sq_nonneg _) (sum_nonneg fun i _ => sq_nonneg _)
  linarith

theorem dcm_diag_bound {m : ℕ} (x : Fin 2 × Fin m → ℝ) (ko ki : Fin m → ℝ) (no ni : List (Fin m)) (c : Fin m → ℝ) (hno : no.Nodup) (hni : ni.Nodup)
    (hc : ∀ i, 1 ≤ c i) {N : ℝ} (hN : ∑ i, c i = N) (u : Fin 2 × Fin m) :
    -DCM.loglikelihood_hessian_diag_dcm_exp x ko ki no ni c u ≤ N ^ 2 := by
  have hc0 : ∀ i, 0 ≤ c i := fun i => by linarith [hc i]
  have term : ∀ i j (t : ℝ), 0 ≤ t → DCM.w c i j * t / (1 + t) ^ 2 ≤ c i * c j := fun i j t ht => by
    have h1 := quarter t ht
    have h2 := mul_nonneg (hc0 i) (hc0 j)
    have h3 := mul_le_mul (w_le c hc i j) (h1.trans (by norm_num : (1 / 4 : ℝ) ≤ 1)) (by positivity) h2
    rw [mul_div_assoc]; linarith
  have sub : ∀ (s : Finset (Fin m)) (i : Fin m), ∑ j ∈ s, c i * c j ≤ N ^ 2 := fun s i =>
    (sum_le_sum_of_subset_of_nonneg (subset_univ s) fun j _ _ => mul_nonneg (hc0 i) (hc0 j)).trans (cc_row c hc hN i)
  obtain ⟨b, i⟩ := u
  fin_cases b
  · change -DCM.loglikelihood_hessian_diag_dcm_exp x ko ki no ni c (0, i) ≤ N ^ 2
    rw [DCM.hess_diag_exp_eq0 _ _ _ _ _ _ hni]
    split_ifs
    · rw [neg_neg]
      exact (sum_le_sum fun j _ => term i j _ (by positivity)).trans (sub _ i)
    · rw [neg_zero]; positivity
  · change -DCM.loglikelihood_hessian_diag_dcm_exp x ko ki no ni c (1, i) ≤ N ^ 2
    rw [DCM.hess_diag_exp_eq1 _ _ _ _ _ _ hno]
    split_ifs
    · rw [neg_neg]
      refine (sum_le_sum fun j _ => term j i _ (by positivity)).trans ?_
      rw [sum_congr rfl fun j _ => mul_comm (c j) (c i)]
      exact sub _ i
    · rw [neg_zero]; positivity

theorem dcm_smooth [NeZero n] (e : Env) (d : DData n) (me : Method) (hme : me ≠ .fixed_point) :
    Smooth (cbDCMexp e d me) (fun θ => DCM.loglikelihood_dcm_exp θ d.ko d.ki (DCM.nonzero d.ko) (DCM.nonzero d.ki) d.c) ((n : ℝ) ^ 2 / 4) ((n : ℝ) ^ 2) where
  Kpos := by have := Nat.pos_of_neZero n; positivity
  Mnonneg := by positivity
  smooth := by
    intro x v
    have hc0 : ∀ i, 0 ≤ d.c i := fun i => by linarith [d.one_le_c i]
    have h := DCM.expansion_exp x (x + v) d.ko d.ki (DCM.nonzero d.ko) (DCM.nonzero d.ki) d.c (DCM.nodup_nonzero _) (DCM.nodup_nonzero _)
    have hfn : ∀ q, (cbDCMexp e d me).fn x q = -DCM.loglikelihood_prime_dcm_exp x d.ko d.ki (DCM.nonzero d.ko) (DCM.nonzero d.ki) d.c q := by
      intro q; cases me <;> first | rfl | exact absurd rfl hme
    have hdot : dot ((cbDCMexp e d me).fn x) v =
        -∑ i, DCM.loglikelihood_prime_dcm_exp x d.ko d.ki (DCM.nonzero d.ko) (DCM.nonzero d.ki) d.c i * ((x + v) i - x i) := by
      unfold dot
      rw [← sum_neg_distrib]
      exact sum_congr rfl fun i _ => by rw [hfn]; simp
    have hnn : ∀ i j, 0 ≤ (d.c i * d.c j) * (v (0, i) ^ 2 / 4 + v (1, j) ^ 2 / 4) := fun i j => by have := hc0 i; have := hc0 j; positivity
    have hg : ∑ i ∈ (DCM.nonzero d.ko).toFinset, ∑ j ∈ (DCM.nonzero d.ki).toFinset,
        DCM.w d.c i j * spGap (-(x (0, i) + x (1, j))) (-((x + v) (0, i) + (x + v) (1, j))) ≤ ∑ i, ∑ j, (d.c i * d.c j) * (v (0, i) ^ 2 / 4 + v (1, j) ^ 2 / 4) := by
      refine le_trans (sum_le_sum fun i _ => sum_le_sum fun j _ => ?_)
        ((sum_le_sum fun i _ => sum_le_sum_of_subset_of_nonneg (subset_univ _) fun j _ _ => hnn i j).trans
          (sum_le_sum_of_subset_of_nonneg (subset_univ _) fun i _ _ => sum_nonneg fun j _ => hnn i j))
      have h1 := spGap_le (-(x (0, i) + x (1, j))) (-((x + v) (0, i) + (x + v) (1, j)))
      have h2 : (-((x + v) (0, i) + (x + v) (1, j)) - -(x (0, i) + x (1, j))) ^ 2 = (v (0, i) + v (1, j)) ^ 2 := by simp only [Pi.add_apply]; ring
      rw [h2] at h1
      have h3 : spGap (-(x (0, i) + x (1, j))) (-((x + v) (0, i) + (x + v) (1, j))) ≤ v (0, i) ^ 2 / 4 + v (1, j) ^ 2 / 4 := by
        nlinarith [sq_nonneg (v (0, i) - v (1, j))]
      exact mul_le_mul (w_le d.c d.one_le_c i j) h3 (spGap_nonneg _ _) (mul_nonneg (hc0 i) (hc0 j))
    have h3 := pairs_bound (fun a b => d.c a * d.c b) (cc_row d.c d.one_le_c d.sum_c) (fun j => by
      have := cc_row d.c d.one_le_c d.sum_c j
      rwa [sum_congr rfl fun i _ => mul_comm (d.c i) (d.c j)]) (fun a => v (0, a) ^ 2 / 4) (fun a => v (1, a) ^ 2 / 4) (fun _ => by positivity) (fun _ => by positivity)
    have h4 : ∑ u, v u ^ 2 = ∑ i, v (0, i) ^ 2 + ∑ i, v (1, i) ^ 2 := by rw [Fintype.sum_prod_type, Fin.sum_univ_two]
    have h6 : ∑ i, v (0, i) ^ 2 / 4 + ∑ i, v (1, i) ^ 2 / 4 = (∑ u, v u ^ 2) / 4 := by rw [h4, ← sum_div, ← sum_div]; ring
    rw [h6] at h3
    rw [hdot]
    linarith
  search := by
    intro x dx f
    have : llF e (fun _ => True) (fun x => DCM.loglikelihood_dcm_exp x d.ko d.ki (DCM.nonzero d.ko) (DCM.nonzero d.ki) d.c) =
        fun x => some (DCM.loglikelihood_dcm_exp x d.ko d.ki (DCM.nonzero d.ko) (DCM.nonzero d.ki) d.c) := by
      funext x; simp [llF]
    simp only [cbDCMexp, linsearch_fun_DCM_exp, this]
  reg := rfl
  psd := fun x => C17_dcm_exp_hessian_psd x d.ko d.ki _ _ d.c (DCM.nodup_nonzero _) (DCM.nodup_nonzero _) d.one_le_c
  bound := fun x v => dcm_hess_bound x d.ko d.ki _ _ d.c (DCM.nodup_nonzero _) (DCM.nodup_nonzero _) d.one_le_c d.sum_c v
  diag := fun x i => dcm_diag_bound x d.ko d.ki _ _ d.c (DCM.nodup_nonzero _) (DCM.nodup_nonzero _) d.one_le_c d.sum_c i

/-- the log-likelihood of attainable degree sequences is never positive -/
theorem logDBCM_nonpos (ko ki x y : Fin n → ℝ) (hx : ∀ i, 0 < x i) (hy : ∀ i, 0 < y i) (P : Fin n → Fin n → ℝ) (h0 : ∀ i j, 0 ≤ P i j ∧ P i j ≤ 1)
    (hko : ∀ i, ∑ j ∈ univ.filter (· ≠ i), P i j = ko i) (hki : ∀ j, ∑ i ∈ univ.filter (· ≠ j), P i j = ki j) :
    logDBCM ko ki (active ko x) (active ki y) ≤ 0 := by
  have h1 : ∑ i, (ko i * Real.log (active ko x i) + ki i * Real.log (active ki y i)) =
      ∑ i, ∑ j ∈ univ.filter (· ≠ i), P i j * (Real.log (active ko x i) + Real.log (active ki y j)) := by
    have e1 : ∀ i, ko i * Real.log (active ko x i) = ∑ j, if i = j then 0 else P i j * Real.log (active ko x i) := fun i => by
      rw [← hko, sum_ne, sum_mul]; exact sum_congr rfl fun j _ => by split <;> simp
    have e2 : ∀ j, ki j * Real.log (active ki y j) = ∑ i, if i = j then 0 else P i j * Real.log (active ki y j) := fun j => by
      rw [← hki, sum_ne, sum_mul]; exact sum_congr rfl fun i _ => by
        by_cases h : i = j
        · simp [h]
        · simp [h, Ne.symm h]
    rw [sum_add_distrib, sum_congr rfl fun i _ => e1 i, sum_congr rfl fun i _ => e2 i, sum_comm (f := fun j i => if i = j then 0 else P i j * Real.log (active ki y j)),
      ← sum_add_distrib]
    refine sum_congr rfl fun i _ => ?_
    rw [sum_ne, ← sum_add_distrib]
    exact sum_congr rfl fun j _ => by split <;> ring
  rw [logDBCM, h1, sub_nonpos]
  refine sum_le_sum fun i _ => sum_le_sum fun j hj => ?_
  obtain ⟨p0, p1⟩ := h0 i j
  have hji : j ≠ i := by simpa using hj
  by_cases hi : ko i = 0
  · have hP : P i j = 0 := (sum_eq_zero_iff_of_nonneg fun j _ => (h0 i j).1).1 ((hko i).trans hi) j (by simp [hji])
    simp [hP, active, hi]
  by_cases hj : ki j = 0
  · have hP : P i j = 0 := (sum_eq_zero_iff_of_nonneg fun i _ => (h0 i j).1).1 ((hki j).trans hj) i (by simp [Ne.symm hji])
    simp [hP, active, hj]
  simp only [active, hi, hj, if_false]
  rw [← Real.log_mul (hx i).ne' (hy j).ne']
  have hpos : 0 < x i * y j := mul_pos (hx i) (hy j)
  have hle : Real.log (x i * y j) ≤ Real.log (1 + x i * y j) := Real.log_le_log hpos (by linarith)
  have hnn : 0 ≤ Real.log (1 + x i * y j) := Real.log_nonneg (by linarith)
  nlinarith

/-- a starting point the directed `solve_tool` accepts for the binary models: one of the five names, or an array with at least two values per node -/
def DGuess.Accepted : DGuess n → Prop
  | .name s => s ∈ guessNames
  | .pairs _ => True
  | .quads _ => True
  | _ => False

theorem guessDCM_ok [NeZero n] (e : Env) (d : DData n) (guess : DGuess n) (hg : guess.Accepted) : ∃ x0, guessDCM e d true guess = .ok x0 := by
  cases guess with
  | other => exact hg.elim
  | name s =>
    simp only [DGuess.Accepted, guessNames, List.mem_cons, List.not_mem_nil, or_false] at hg
    rcases hg with rfl | rfl | rfl | rfl | rfl <;> simp [guessDCM, namedDCM]
  | nodes v => exact hg.elim
  | pairs v => exact ⟨_, rfl⟩
  | quads v => exact ⟨_, rfl⟩

variable [NeZero n]

/-- C62 (dcm_exp): the same for directed networks. -/
theorem C62_dcm_exp (e : Env) (d : DData n) (hd : AttainableD d.degOut d.degIn) (guess : DGuess n) (hg : guess.Accepted) (tol : ℝ) (ht : TolOK n tol) :
    ∃ T : ℕ, ∀ (g : DAttr d) (me : Method) (adj : AdjSpec n) (ma : String) (ga : DGuess n) (p : Params), g.b_out = none → me ≠ .fixed_point →
      p.tol = tol → p.linsearch = true →
      let R := solve_tool_directed e g "dcm_exp" me.name guess adj ma ga p
      R.exc = none ∧ (p.full_return = true → ∃ t, R.g.trace = some t ∧ t.n_steps ≤ T) ∧
      (T < p.max_steps → EpsOK n tol p.eps → ∃ x y, R.g.x = some x ∧ R.g.y = some y ∧ ∀ i,
        |outDBCM (active d.degOut x) (active d.degIn y) i - d.dseq_out i| ≤ tol ∧ |inDBCM (active d.degOut x) (active d.degIn y) i - d.dseq_in i| ≤ tol) := by
  obtain ⟨x0, h0⟩ := guessDCM_ok e d guess hg
  obtain ⟨P, hP0, hPo, hPi⟩ := hd
  have hcard : (Fintype.card (Fin 2 × Fin d.r) : ℝ) ≤ 2 * n := by
    have h1 : ∑ _q : Fin d.r, (1 : ℝ) ≤ ∑ q, d.c q := sum_le_sum fun q _ => d.one_le_c q
    rw [d.sum_c] at h1
    simp only [sum_const, card_univ, nsmul_eq_mul, mul_one] at h1
    rw [Fintype.card_prod]
    push_cast
    simp only [Fintype.card_fin] at h1 ⊢
    push_cast
    linarith
  set γ : ℝ := 0.0001 * lamMin (Fin 2 × Fin d.r) (Params.opts { tol := tol } "") *
    stepMin (Fin 2 × Fin d.r) (Params.opts { tol := tol } "") ((n : ℝ) ^ 2 / 4) ((n : ℝ) ^ 2) ^ 2 with hγ
  have hn : 0 < n := Nat.pos_of_neZero n
  have hγ0 : 0 < γ := by
    have h1 := lamMin_pos (ι := Fin 2 × Fin d.r) (o := Params.opts { tol := tol } "") ht.1 (by norm_num [Params.opts])
    have h2 := stepMin_pos (ι := Fin 2 × Fin d.r) (o := Params.opts { tol := tol } "") ht.1 (by norm_num [Params.opts])
      (K := (n : ℝ) ^ 2 / 4) (M := (n : ℝ) ^ 2) (by positivity) (by positivity)
    positivity
  obtain ⟨T, hT⟩ := exists_nat_gt ((0 - DCM.loglikelihood_dcm_exp x0 d.ko d.ki (DCM.nonzero d.ko) (DCM.nonzero d.ki) d.c) / γ)
  refine ⟨T, fun g me adj ma ga p hb hme hpt hl => ?_⟩
  intro R
  have hm : (p.opts me.name).method = "newton" ∨ (p.opts me.name).method = "quasinewton" := by
    cases me
    · exact .inl rfl
    · exact .inr rfl
    · exact absurd rfl hme
  have hpt' : TolOK n p.tol := by rw [hpt]; exact ht
  have hlam : lamMin (Fin 2 × Fin d.r) (p.opts me.name) = lamMin (Fin 2 × Fin d.r) (Params.opts { tol := tol } "") := by simp only [lamMin, Params.opts, hpt]
  have hstep : stepMin (Fin 2 × Fin d.r) (p.opts me.name) ((n : ℝ) ^ 2 / 4) ((n : ℝ) ^ 2) =
      stepMin (Fin 2 × Fin d.r) (Params.opts { tol := tol } "") ((n : ℝ) ^ 2 / 4) ((n : ℝ) ^ 2) := by
    simp only [stepMin, hlam]; simp only [Params.opts, hpt]
  obtain ⟨s, hs, hsT, hconv⟩ := (dcm_smooth e d me hme).solver (p.opts me.name) hm rfl (by norm_num [Params.opts]) hl hpt'.1
    (cap_ok p me.name hcard hpt') (U := 0) (fun θ => by
      rw [ll_dcm_exp_red_spec]
      exact logDBCM_nonpos _ _ _ _ (fun i => Real.exp_pos _) (fun i => Real.exp_pos _) P hP0 hPo hPi) x0 T (by
      rw [hlam, hstep, ← hγ]
      rw [div_lt_iff₀ hγ0] at hT
      nlinarith)
  have hR := solve_tool_dcm_exp e g me guess adj ma ga p h0
  simp only [hs] at hR
  rw [show R = _ from hR]
  set G : DAttr d := setSolvedDCM (preDCM g .dcm_exp p) true s with hG
  refine ⟨?_, fun hf => ⟨.of s, ?_, hsT⟩, fun hmax heps => ⟨fun i => Real.exp (-s.x (0, d.inv i)), fun i => Real.exp (-s.x (1, d.inv i)),
    keepsD DAttr.x (fun _ => rfl) _, keepsD DAttr.y (fun _ => rfl) _, fun i => ?_⟩⟩
  · show (solutionErrorD G).2 = none
    have hb' : (degreeErrorD G).b_out = none := by
      rw [degreeErrorD]; split <;> exact hb
    rw [solutionErrorD, if_pos (by simp [hG, setSolvedDCM, preDCM, DModel.name]), strengthErrorD, hb']
  · exact (keepsD DAttr.trace (fun _ => rfl) _).trans (by simp [hG, setSolvedDCM, preDCM, hf])
  · have hall : ∀ v, |(cbDCMexp e d me).fn s.x v| ≤ tol := fun v => by
      rw [← hpt]
      exact (abs_le_norm2 _ v).trans (hconv hmax (eps_ok (n := n) (ι := Fin 2 × Fin d.r) p me.name hcard hpt' (by rw [hpt]; exact heps)))
    have hr : AdmDCM d fun v => Real.exp (-s.x v) := ⟨fun q _ => Real.exp_pos _, fun q _ => Real.exp_pos _⟩
    obtain ⟨k0, k1⟩ := residual_dcm d (fun v => Real.exp (-s.x v)) hr i
    have hfn : ∀ v, (cbDCMexp e d me).fn s.x v = Real.exp (-s.x v) *
        DCM.loglikelihood_prime_dcm (fun v => Real.exp (-s.x v)) d.ko d.ki (DCM.nonzero d.ko) (DCM.nonzero d.ki) d.c v := fun v => by
      have := DCM.C09_dcm_gradients s.x d.ko d.ki (DCM.nonzero d.ko) (DCM.nonzero d.ki) d.c (DCM.nodup_nonzero _) (DCM.nodup_nonzero _) v
      have h2 : (cbDCMexp e d me).fn s.x v = -DCM.loglikelihood_prime_dcm_exp s.x d.ko d.ki (DCM.nonzero d.ko) (DCM.nonzero d.ki) d.c v := by
        cases me <;> first | rfl | exact absurd rfl hme
      rw [h2, this]; ring
    have hr0 := hall (0, d.inv i)
    have hr1 := hall (1, d.inv i)
    rw [hfn] at hr0 hr1
    constructor
    · by_cases hz : d.degOut i = 0
      · rw [out_inactive _ _ _ _ hz, show (d.dseq_out i : ℝ) = d.degOut i from rfl, hz]; simpa using ht.1.le
      · rw [k0 hz] at hr0
        rw [abs_sub_comm]
        exact abs_le_of_mul (d.one_le_c _) hr0
    · by_cases hz : d.degIn i = 0
      · rw [in_inactive _ _ _ _ hz, show (d.dseq_in i : ℝ) = d.degIn i from rfl, hz]; simpa using ht.1.le
      · rw [k1 hz] at hr1
        rw [abs_sub_comm]
        exact abs_le_of_mul (d.one_le_c _) hr1

end dcm

/-! ### the hypotheses are met -/

/-- the path on four nodes (with an isolated fifth one), from the default random start, with the default `tol` and `eps = 0`: some number of steps suffices -/
example (e : Env) : ∃ T : ℕ, ∀ m, T < m →
    let d : UData 5 := ⟨![1, 2, 2, 1, 0], fun _ => 1⟩
    let R := solve_tool e ({} : UAttr d) "cm_exp" "newton" (.name "random") .other "newton" (.name "random") { max_steps := m, eps := 0 }
    R.exc = none ∧ ∃ x, R.g.x = some x ∧ ∀ i, |degUBCM x i - (![1, 2, 2, 1, 0] : Fin 5 → ℕ) i| ≤ 1e-8 := by
  have ht : TolOK 5 1e-8 := ⟨by norm_num, by
    have : Real.sqrt ((5 : ℕ) : ℝ) ≤ 3 := Real.sqrt_le_iff.2 ⟨by norm_num, by norm_num⟩
    push_cast at this ⊢
    nlinarith⟩
  have hA : Attainable (fun i : Fin 5 => ((![1, 2, 2, 1, 0] : Fin 5 → ℕ) i : ℝ)) := ⟨fun i j => (![![0, 1, 0, 0, 0], ![1, 0, 1, 0, 0], ![0, 1, 0, 1, 0], ![0, 0, 1, 0, 0], ![0, 0, 0, 0, 0]] : Fin 5 → Fin 5 → ℝ) i j,
    fun i j => by fin_cases i <;> fin_cases j <;> norm_num, fun i j => by fin_cases i <;> fin_cases j <;> rfl, fun i => by
      rw [sum_ne, Fin.sum_univ_five]; fin_cases i <;> simp <;> norm_num⟩
  obtain ⟨T, hT⟩ := C62_cm_exp (n := 5) e ⟨![1, 2, 2, 1, 0], fun _ => 1⟩ hA (.name "random") (by simp [Guess.Accepted, guessNames]) 1e-8 ht
  refine ⟨T, fun m hm => ?_⟩
  obtain ⟨h1, -, h2⟩ := hT {} .newton .other "newton" (.name "random") { max_steps := m, eps := 0 } rfl (by simp) rfl rfl
  exact ⟨h1, h2 hm ⟨by norm_num, by norm_num⟩⟩

/-- the same for the directed path on three nodes: out-degrees 1, 1, 0 and in-degrees 0, 1, 1 -/
example (e : Env) : ∃ T : ℕ, ∀ m, T < m →
    let d : DData 3 := ⟨![1, 1, 0], ![0, 1, 1], fun _ => 1, fun _ => 1, true⟩
    let R := solve_tool_directed e ({} : DAttr d) "dcm_exp" "quasinewton" (.name "uniform") .other "newton" (.name "random") { max_steps := m, eps := 0 }
    R.exc = none ∧ ∃ x y, R.g.x = some x ∧ R.g.y = some y := by
  have ht : TolOK 3 1e-8 := ⟨by norm_num, by
    have : Real.sqrt ((3 : ℕ) : ℝ) ≤ 2 := Real.sqrt_le_iff.2 ⟨by norm_num, by norm_num⟩
    push_cast at this ⊢
    nlinarith⟩
  have hA : AttainableD (fun i : Fin 3 => ((![1, 1, 0] : Fin 3 → ℕ) i : ℝ)) (fun i : Fin 3 => ((![0, 1, 1] : Fin 3 → ℕ) i : ℝ)) :=
    ⟨fun i j => (![![0, 1, 0], ![0, 0, 1], ![0, 0, 0]] : Fin 3 → Fin 3 → ℝ) i j,
    fun i j => by fin_cases i <;> fin_cases j <;> norm_num, fun i => by
      rw [sum_ne, Fin.sum_univ_three]; fin_cases i <;> simp, fun i => by
      rw [sum_ne, Fin.sum_univ_three]; fin_cases i <;> simp⟩
  obtain ⟨T, hT⟩ := C62_dcm_exp (n := 3) e ⟨![1, 1, 0], ![0, 1, 1], fun _ => 1, fun _ => 1, true⟩ hA (.name "uniform") (by simp [DGuess.Accepted, guessNames]) 1e-8 ht
  refine ⟨T, fun m hm => ?_⟩
  obtain ⟨h1, -, h2⟩ := hT {} .quasinewton .other "newton" (.name "random") { max_steps := m, eps := 0 } rfl (by simp) rfl rfl
  obtain ⟨x, y, hx, hy, -⟩ := h2 hm ⟨by norm_num, by norm_num⟩
  exact ⟨h1, x, y, hx, hy⟩

end

end Verif.Solve
