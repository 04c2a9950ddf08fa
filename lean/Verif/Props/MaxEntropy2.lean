import Verif.Props.Likelihood
import Verif.Props.MaxLikelihood
import Verif.Props.Runs2

/-!
Properties C49, C50, C51 on the code: the expected degrees and strengths computed by the library are the means of the law whose log-probability is the
log-likelihood of the library; at a zero of the gradient the fitted law has the largest entropy and the observed network the largest probability; after a
converged run the fitted law is within `tol` (times a computable factor) of the largest entropy.
-/

namespace Verif.Solve

open Finset Spec

variable {n : ℕ}

/-! ### C49: expected degrees and strengths are means of the law -/

/-- C49 (cm): `expected_degree_cm` is the mean of the degree. -/
theorem C49_cm_mean (x : Fin n → ℝ) (hx : ∀ i, 0 ≤ x i) (i : Fin n) :
    HasMean (fun A : Graphs n Bool => probUBCM x A.1) (fun A => (degree A.1 i : ℝ)) (CM.expected_degree_cm x i) := by
  rw [deg_spec]; exact mean_ubcm x hx i

/-- C49 (dcm): `expected_out_degree_dcm` and `expected_in_degree_dcm` are the means of the out- and in-degree. -/
theorem C49_dcm_mean (x y : Fin n → ℝ) (hx : ∀ i, 0 ≤ x i) (hy : ∀ i, 0 ≤ y i) (i : Fin n) :
    HasMean (fun A : Digraphs n Bool => probDBCM x y A.1) (fun A => (degree A.1 i : ℝ)) (DCM.expected_out_degree_dcm (cat2 x y) i) ∧
    HasMean (fun A : Digraphs n Bool => probDBCM x y A.1) (fun A => (inDegree A.1 i : ℝ)) (DCM.expected_in_degree_dcm (cat2 x y) i) := by
  rw [out_spec, in_spec]; exact mean_dbcm x y hx hy i

/-- C49 (ecm): the two halves of `expected_ecm` are the means of degree and strength. -/
theorem C49_ecm_mean (v : Fin 2 × Fin n → ℝ) (hv : ∀ w, 0 ≤ v w) (h1 : ∀ i j, i ≠ j → v (1, i) * v (1, j) < 1) (i : Fin n) :
    HasMean (fun W : Graphs n ℕ => probUECM (fun i => v (0, i)) (fun i => v (1, i)) W.1) (fun W => (degree W.1 i : ℝ)) (ECM.expected_ecm v (0, i)) ∧
    HasMean (fun W : Graphs n ℕ => probUECM (fun i => v (0, i)) (fun i => v (1, i)) W.1) (fun W => (strength W.1 i : ℝ)) (ECM.expected_ecm v (1, i)) := by
  rw [deg_ecm_spec, str_ecm_spec]
  exact mean_uecm (fun i => v (0, i)) (fun i => v (1, i)) (fun i => hv _) (fun i => hv _) h1 i

/-- C49 (decm): the four blocks of `expected_decm` are the means of out-degree, in-degree, out-strength and in-strength. -/
theorem C49_decm_mean (v : Fin 4 × Fin n → ℝ) (hv : ∀ w, 0 ≤ v w) (h1 : ∀ i j, i ≠ j → v (2, i) * v (3, j) < 1) (i : Fin n) :
    let P : Digraphs n ℕ → ℝ := fun W => probDECM (fun i => v (0, i)) (fun i => v (1, i)) (fun i => v (2, i)) (fun i => v (3, i)) W.1
    HasMean P (fun W => (degree W.1 i : ℝ)) (DECM.expected_decm v (0, i)) ∧ HasMean P (fun W => (inDegree W.1 i : ℝ)) (DECM.expected_decm v (1, i)) ∧
    HasMean P (fun W => (strength W.1 i : ℝ)) (DECM.expected_decm v (2, i)) ∧ HasMean P (fun W => (inStrength W.1 i : ℝ)) (DECM.expected_decm v (3, i)) := by
  intro P
  obtain ⟨e0, e1, e2, e3⟩ := expected_decm_spec v hv h1 i
  rw [e0, e1, e2, e3]
  exact mean_decm (fun i => v (0, i)) (fun i => v (1, i)) (fun i => v (2, i)) (fun i => v (3, i)) (fun i => hv _) (fun i => hv _) (fun i => hv _)
    (fun i => hv _) h1 i

/-! ### C50, C51: zeros of the gradient -/

/-- C50 (cm): where the gradient vanishes, the fitted law has entropy minus the log-likelihood, no law with the observed degrees as means has a larger one,
and only the fitted law reaches it. -/
theorem C50_cm_stationary (d : UData n) (r : Fin d.r → ℝ) (hr : ∀ q, 0 < r q) (h0 : ∀ q, CM.loglikelihood_prime_cm r d.k d.c q = 0) :
    HasEntropy (fun A : Graphs n Bool => probUBCM (fun i => r (d.inv i)) A.1) (-CM.loglikelihood_cm r d.k d.c) ∧
      ∀ Q : Graphs n Bool → ℝ, IsLaw Q → (∀ i, HasMean Q (fun A => (degree A.1 i : ℝ)) (d.dseq i)) →
        ∃ H, HasEntropy Q H ∧ H ≤ -CM.loglikelihood_cm r d.k d.c ∧
          (H = -CM.loglikelihood_cm r d.k d.c → Q = fun A => probUBCM (fun i => r (d.inv i)) A.1) := by
  have hd := (CM.C01_cm_solution_iff d.dseq r hr).1 h0
  have hd' : degUBCM (fun i => r (d.inv i)) = d.deg := funext fun i => by rw [← deg_spec]; exact hd i
  rw [ll_red_spec]
  refine ⟨by rw [← hd']; exact ubcm_entropy _ fun i => (hr _).le, fun Q hQ hm => ?_⟩
  exact C50_ubcm_dual _ (fun i => (hr _).le) d.deg (fun i h => absurd h (hr _).ne') Q hQ hm

/-- C50 (cm): at every point (stationary or not) minus the log-likelihood bounds the entropy of every law with the observed degrees as means. -/
theorem C50_cm_dual (d : UData n) (r : Fin d.r → ℝ) (hr : ∀ q, 0 < r q) (Q : Graphs n Bool → ℝ) (hQ : IsLaw Q)
    (hm : ∀ i, HasMean Q (fun A => (degree A.1 i : ℝ)) (d.dseq i)) : ∃ H, HasEntropy Q H ∧ H ≤ -CM.loglikelihood_cm r d.k d.c := by
  rw [ll_red_spec]
  obtain ⟨H, h1, h2, -⟩ := C50_ubcm_dual _ (fun i => (hr (d.inv i)).le) d.deg (fun i h => absurd h (hr _).ne') Q hQ hm
  exact ⟨H, h1, h2⟩

/-- C51 (cm): where the gradient vanishes, no parameters of the undirected binary model (equal or not on nodes of the same degree) give any graph with the
observed degrees a larger probability than `exp` of the log-likelihood. -/
theorem C51_cm_stationary (d : UData n) (A : Graphs n Bool) (hA : ∀ i, d.dseq i = degree A.1 i) (r : Fin d.r → ℝ) (hr : ∀ q, 0 < r q)
    (h0 : ∀ q, CM.loglikelihood_prime_cm r d.k d.c q = 0) (x' : Fin n → ℝ) (hx' : ∀ i, 0 ≤ x' i) :
    probUBCM x' A.1 ≤ Real.exp (CM.loglikelihood_cm r d.k d.c) ∧
      (probUBCM x' A.1 = Real.exp (CM.loglikelihood_cm r d.k d.c) → ∀ B : Graphs n Bool, probUBCM x' B.1 = probUBCM (fun i => r (d.inv i)) B.1) := by
  obtain ⟨hp, hl⟩ := C49_cm_log_probability d A.1 A.2 hA r (fun q => (hr q).le) (fun i _ => hr _)
  rw [hl, Real.exp_log hp]
  refine C51_ubcm_max_likelihood A _ x' (fun i => (hr _).le) hx' fun i => ?_
  rw [← deg_spec, ← hA]
  exact (CM.C01_cm_solution_iff d.dseq r hr).1 h0 i

/-- C50 (dcm) -/
theorem C50_dcm_stationary (d : DData n) (r : Fin 2 × Fin d.r → ℝ) (hr : ∀ v, 0 ≤ r v) (z0 : ∀ q, r (0, q) = 0 ↔ d.ko q = 0) (z1 : ∀ q, r (1, q) = 0 ↔ d.ki q = 0)
    (h0 : ∀ v, DCM.reducedGradient d.seq r v = 0) :
    HasEntropy (fun A : Digraphs n Bool => probDBCM (fun i => r (0, d.inv i)) (fun i => r (1, d.inv i)) A.1)
        (-DCM.loglikelihood_dcm r d.ko d.ki (DCM.nonzero d.ko) (DCM.nonzero d.ki) d.c) ∧
      ∀ Q : Digraphs n Bool → ℝ, IsLaw Q → (∀ i, HasMean Q (fun A => (degree A.1 i : ℝ)) (d.dseq_out i)) →
        (∀ i, HasMean Q (fun A => (inDegree A.1 i : ℝ)) (d.dseq_in i)) →
        ∃ H, HasEntropy Q H ∧ H ≤ -DCM.loglikelihood_dcm r d.ko d.ki (DCM.nonzero d.ko) (DCM.nonzero d.ki) d.c ∧
          (H = -DCM.loglikelihood_dcm r d.ko d.ki (DCM.nonzero d.ko) (DCM.nonzero d.ki) d.c →
            Q = fun A => probDBCM (fun i => r (0, d.inv i)) (fun i => r (1, d.inv i)) A.1) := by
  have hd := (DCM.C02_dcm_solution_iff d.seq r z0 z1).1 h0
  have hk : ∀ i, r (0, d.inv i) = 0 ↔ d.degOut i = 0 := fun i => (z0 _).trans (by rw [show d.ko (d.inv i) = d.degOut i from DCM.rnz_out_invert d.seq i])
  have hk' : ∀ i, r (1, d.inv i) = 0 ↔ d.degIn i = 0 := fun i => (z1 _).trans (by rw [show d.ki (d.inv i) = d.degIn i from DCM.rnz_in_invert d.seq i])
  have a0 : active d.degOut (fun i => r (0, d.inv i)) = fun i => r (0, d.inv i) := by
    funext i; unfold active; split_ifs with h; exacts [((hk i).2 h).symm, rfl]
  have a1 : active d.degIn (fun i => r (1, d.inv i)) = fun i => r (1, d.inv i) := by
    funext i; unfold active; split_ifs with h; exacts [((hk' i).2 h).symm, rfl]
  rw [ll_dcm_red_spec, LDCM, a0, a1]
  have ho : outDBCM (fun i => r (0, d.inv i)) (fun i => r (1, d.inv i)) = d.degOut := funext fun i => by rw [← out_spec]; exact (hd i).1
  have hi : inDBCM (fun i => r (0, d.inv i)) (fun i => r (1, d.inv i)) = d.degIn := funext fun i => by rw [← in_spec]; exact (hd i).2
  refine ⟨?_, fun Q hQ h1 h2 => ?_⟩
  · have := dbcm_entropy (fun i => r (0, d.inv i)) (fun i => r (1, d.inv i)) (fun i => hr _) (fun i => hr _)
    rwa [ho, hi] at this
  · exact C50_dbcm_dual _ _ (fun i => hr _) (fun i => hr _) d.degOut d.degIn (fun i h => (hk i).1 h) (fun i h => (hk' i).1 h) Q hQ h1 h2

/-- C51 (dcm) -/
theorem C51_dcm_stationary (d : DData n) (A : Digraphs n Bool) (hAo : ∀ i, d.dseq_out i = degree A.1 i) (hAi : ∀ i, d.dseq_in i = inDegree A.1 i)
    (r : Fin 2 × Fin d.r → ℝ) (hr : ∀ v, 0 ≤ r v) (z0 : ∀ q, r (0, q) = 0 ↔ d.ko q = 0) (z1 : ∀ q, r (1, q) = 0 ↔ d.ki q = 0)
    (h0 : ∀ v, DCM.reducedGradient d.seq r v = 0) (x' y' : Fin n → ℝ) (hx' : ∀ i, 0 ≤ x' i) (hy' : ∀ i, 0 ≤ y' i) :
    let L := DCM.loglikelihood_dcm r d.ko d.ki (DCM.nonzero d.ko) (DCM.nonzero d.ki) d.c
    probDBCM x' y' A.1 ≤ Real.exp L ∧
      (probDBCM x' y' A.1 = Real.exp L → ∀ B : Digraphs n Bool, probDBCM x' y' B.1 = probDBCM (fun i => r (0, d.inv i)) (fun i => r (1, d.inv i)) B.1) := by
  intro L
  have hk : ∀ i, r (0, d.inv i) = 0 ↔ d.degOut i = 0 := fun i => (z0 _).trans (by rw [show d.ko (d.inv i) = d.degOut i from DCM.rnz_out_invert d.seq i])
  have hk' : ∀ i, r (1, d.inv i) = 0 ↔ d.degIn i = 0 := fun i => (z1 _).trans (by rw [show d.ki (d.inv i) = d.degIn i from DCM.rnz_in_invert d.seq i])
  have a0 : active d.degOut (fun i => r (0, d.inv i)) = fun i => r (0, d.inv i) := by
    funext i; unfold active; split_ifs with h; exacts [((hk i).2 h).symm, rfl]
  have a1 : active d.degIn (fun i => r (1, d.inv i)) = fun i => r (1, d.inv i) := by
    funext i; unfold active; split_ifs with h; exacts [((hk' i).2 h).symm, rfl]
  obtain ⟨hp, hl⟩ := C49_dcm_log_probability d A.1 A.2 hAo hAi r
    (fun i h => lt_of_le_of_ne (hr _) fun e => h (Nat.cast_eq_zero.1 ((hk i).1 e.symm)))
    (fun i h => lt_of_le_of_ne (hr _) fun e => h (Nat.cast_eq_zero.1 ((hk' i).1 e.symm)))
  rw [a0, a1] at hp hl
  have hd := (DCM.C02_dcm_solution_iff d.seq r z0 z1).1 h0
  rw [show L = _ from hl, Real.exp_log hp]
  refine C51_dbcm_max_likelihood A _ _ x' y' (fun i => hr _) (fun i => hr _) hx' hy' (fun i => ?_) (fun i => ?_)
  · rw [← out_spec, ← hAo]; exact (hd i).1
  · rw [← in_spec, ← hAi]; exact (hd i).2

/-- C50 (ecm) -/
theorem C50_ecm_stationary (d : UData n) (v : Fin 2 × Fin n → ℝ) (hv : AdmECM v) (h0 : ∀ w, ECM.loglikelihood_prime_ecm v d.deg d.strength_sequence w = 0) :
    HasEntropy (fun W : Graphs n ℕ => probUECM (fun i => v (0, i)) (fun i => v (1, i)) W.1) (-ECM.loglikelihood_ecm v d.deg d.strength_sequence) ∧
      ∀ Q : Graphs n ℕ → ℝ, IsLaw Q → (∀ i, HasMean Q (fun W => (degree W.1 i : ℝ)) (d.dseq i)) →
        (∀ i, HasMean Q (fun W => (strength W.1 i : ℝ)) (d.strength_sequence i)) →
        ∃ H, HasEntropy Q H ∧ H ≤ -ECM.loglikelihood_ecm v d.deg d.strength_sequence ∧
          (H = -ECM.loglikelihood_ecm v d.deg d.strength_sequence → Q = fun W => probUECM (fun i => v (0, i)) (fun i => v (1, i)) W.1) := by
  obtain ⟨hk, hs⟩ := (ECM.C03_ecm_solution_iff v _ _ hv).1 h0
  obtain ⟨hx, hy, hxy⟩ := hv
  rw [ll_ecm_spec]
  have e0 : degUECM (fun i => v (0, i)) (fun i => v (1, i)) = d.deg := funext fun i => by rw [← deg_ecm_spec]; exact hk i
  have e1 : strUECM (fun i => v (0, i)) (fun i => v (1, i)) = d.strength_sequence := funext fun i => by rw [← str_ecm_spec]; exact hs i
  refine ⟨?_, fun Q hQ h1 h2 => ?_⟩
  · have := uecm_entropy (fun i => v (0, i)) (fun i => v (1, i)) (fun i => (hx i).le) (fun i => (hy i).le) hxy
    rwa [e0, e1] at this
  · exact C50_uecm_dual _ _ (fun i => (hx i).le) (fun i => (hy i).le) hxy d.deg d.strength_sequence
      (fun i h => by rcases h with h | h <;> [exact absurd h (hx i).ne'; exact absurd h (hy i).ne']) Q hQ h1 h2

/-- C51 (ecm) -/
theorem C51_ecm_stationary (d : UData n) (W : Graphs n ℕ) (hk : ∀ i, d.dseq i = degree W.1 i) (hs : ∀ i, d.strength_sequence i = strength W.1 i)
    (v : Fin 2 × Fin n → ℝ) (hv : AdmECM v) (h0 : ∀ w, ECM.loglikelihood_prime_ecm v d.deg d.strength_sequence w = 0)
    (x' y' : Fin n → ℝ) (hx' : ∀ i, 0 ≤ x' i) (hy' : ∀ i, 0 ≤ y' i) (h1' : ∀ i j, i ≠ j → y' i * y' j < 1) :
    probUECM x' y' W.1 ≤ Real.exp (ECM.loglikelihood_ecm v d.deg d.strength_sequence) ∧
      (probUECM x' y' W.1 = Real.exp (ECM.loglikelihood_ecm v d.deg d.strength_sequence) →
        ∀ B : Graphs n ℕ, probUECM x' y' B.1 = probUECM (fun i => v (0, i)) (fun i => v (1, i)) B.1) := by
  obtain ⟨gk, gs⟩ := (ECM.C03_ecm_solution_iff v _ _ hv).1 h0
  obtain ⟨hx, hy, hxy⟩ := hv
  have pos : ∀ b i, 0 < v (b, i) := fun b i => by
    rcases Fin.exists_fin_two.1 ⟨b, rfl⟩ with h | h
    · rw [h]; exact hx i
    · rw [h]; exact hy i
  obtain ⟨hp, hl⟩ := C49_ecm_log_probability d W.1 W.2 hk hs v (fun w => (pos w.1 w.2).le) (fun b i _ => pos b i) hxy
  rw [hl, Real.exp_log hp]
  refine C51_uecm_max_likelihood W _ _ x' y' (fun i => (hx i).le) (fun i => (hy i).le) hxy hx' hy' h1' (fun i => ?_) (fun i => ?_)
  · rw [← deg_ecm_spec, ← hk]; exact gk i
  · rw [← str_ecm_spec, ← hs]; exact gs i

/-- C50 (decm) -/
theorem C50_decm_stationary (d : DData n) (v : Fin 4 × Fin n → ℝ) (hv : AdmDECM v)
    (h0 : ∀ w, DECM.loglikelihood_prime_decm v d.degOut d.degIn d.out_strength d.in_strength w = 0) :
    let P : Digraphs n ℕ → ℝ := fun W => probDECM (fun i => v (0, i)) (fun i => v (1, i)) (fun i => v (2, i)) (fun i => v (3, i)) W.1
    let L := DECM.loglikelihood_decm v d.degOut d.degIn d.out_strength d.in_strength
    HasEntropy P (-L) ∧ ∀ Q : Digraphs n ℕ → ℝ, IsLaw Q → (∀ i, HasMean Q (fun W => (degree W.1 i : ℝ)) (d.dseq_out i)) →
        (∀ i, HasMean Q (fun W => (inDegree W.1 i : ℝ)) (d.dseq_in i)) → (∀ i, HasMean Q (fun W => (strength W.1 i : ℝ)) (d.out_strength i)) →
        (∀ i, HasMean Q (fun W => (inStrength W.1 i : ℝ)) (d.in_strength i)) → ∃ H, HasEntropy Q H ∧ H ≤ -L ∧ (H = -L → Q = P) := by
  intro P L
  have hd := DECM.C04_decm_solution v _ _ _ _ hv h0
  have pos := hv.1
  have hb := hv.2
  have e := expected_decm_spec v (fun w => (pos w).le) hb
  have e0 := funext fun i => (e i).1.symm.trans (hd i).1
  have e1 := funext fun i => (e i).2.1.symm.trans (hd i).2.1
  have e2 := funext fun i => (e i).2.2.1.symm.trans (hd i).2.2.1
  have e3 := funext fun i => (e i).2.2.2.symm.trans (hd i).2.2.2
  rw [show L = LDECM d v from ll_decm_spec d v]
  refine ⟨?_, fun Q hQ h1 h2 h3 h4 => ?_⟩
  · have := decm_entropy (blk4 v 0) (blk4 v 1) (blk4 v 2) (blk4 v 3) (fun i => (pos _).le) (fun i => (pos _).le) (fun i => (pos _).le) (fun i => (pos _).le) hb
    rwa [e0, e1, e2, e3] at this
  · exact C50_decm_dual (blk4 v 0) (blk4 v 1) (blk4 v 2) (blk4 v 3) (fun i => (pos _).le) (fun i => (pos _).le) (fun i => (pos _).le) (fun i => (pos _).le) hb
      d.degOut d.degIn d.out_strength d.in_strength
      (fun i h => by rcases h with h | h <;> exact absurd h (pos _).ne') (fun i h => by rcases h with h | h <;> exact absurd h (pos _).ne') Q hQ h1 h2 h3 h4

/-- C51 (decm) -/
theorem C51_decm_stationary (d : DData n) (W : Digraphs n ℕ) (hko : ∀ i, d.dseq_out i = degree W.1 i) (hki : ∀ i, d.dseq_in i = inDegree W.1 i)
    (hso : ∀ i, d.out_strength i = strength W.1 i) (hsi : ∀ i, d.in_strength i = inStrength W.1 i) (v : Fin 4 × Fin n → ℝ) (hv : AdmDECM v)
    (h0 : ∀ w, DECM.loglikelihood_prime_decm v d.degOut d.degIn d.out_strength d.in_strength w = 0)
    (x' y' bo' bi' : Fin n → ℝ) (hx' : ∀ i, 0 ≤ x' i) (hy' : ∀ i, 0 ≤ y' i) (hbo' : ∀ i, 0 ≤ bo' i) (hbi' : ∀ i, 0 ≤ bi' i)
    (h1' : ∀ i j, i ≠ j → bo' i * bi' j < 1) :
    let L := DECM.loglikelihood_decm v d.degOut d.degIn d.out_strength d.in_strength
    probDECM x' y' bo' bi' W.1 ≤ Real.exp L ∧ (probDECM x' y' bo' bi' W.1 = Real.exp L → ∀ B : Digraphs n ℕ,
      probDECM x' y' bo' bi' B.1 = probDECM (fun i => v (0, i)) (fun i => v (1, i)) (fun i => v (2, i)) (fun i => v (3, i)) B.1) := by
  intro L
  have hd := DECM.C04_decm_solution v _ _ _ _ hv h0
  have pos := hv.1
  have hb := hv.2
  have e := expected_decm_spec v (fun w => (pos w).le) hb
  obtain ⟨hp, hl⟩ := C49_decm_log_probability d W.1 W.2 hko hki hso hsi v (fun w => (pos w).le) (fun i _ => ⟨pos _, pos _⟩) (fun i _ => ⟨pos _, pos _⟩) hb
  rw [show L = _ from hl, Real.exp_log hp]
  refine C51_decm_max_likelihood W _ _ _ _ x' y' bo' bi' (fun i => (pos _).le) (fun i => (pos _).le) (fun i => (pos _).le) (fun i => (pos _).le) hb
    hx' hy' hbo' hbi' h1' (fun i => ?_) (fun i => ?_) (fun i => ?_) (fun i => ?_)
  · rw [← hko]; exact (e i).1.symm.trans (hd i).1
  · rw [← hki]; exact (e i).2.1.symm.trans (hd i).2.1
  · rw [← hso]; exact (e i).2.2.1.symm.trans (hd i).2.2.1
  · rw [← hsi]; exact (e i).2.2.2.symm.trans (hd i).2.2.2

end Verif.Solve
