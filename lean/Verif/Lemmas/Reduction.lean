import Verif.Model.Reduction

namespace Verif.Reduction
open Finset
variable {α : Type*} [LinearOrder α] {N : ℕ}

/-- `r_dseq[r_invert_dseq] = dseq` -/
theorem r_dseq_invert (d : Fin N → α) (i : Fin N) : r_dseq d (r_invert_dseq d i) = d i := by
  unfold r_dseq r_invert_dseq
  rw [← Finset.coe_orderIsoOfFin_apply, OrderIso.apply_symm_apply]

theorem r_dseq_strictMono (d : Fin N → α) : StrictMono (r_dseq d) :=
  ((values d).orderEmbOfFin rfl).strictMono

theorem r_invert_eq_iff (d : Fin N → α) (i : Fin N) (q : Fin (rnz_n d)) :
    r_invert_dseq d i = q ↔ d i = r_dseq d q := by
  rw [← r_dseq_invert d i]
  exact (r_dseq_strictMono d).injective.eq_iff.symm

theorem r_dseq_mem (d : Fin N → α) (q : Fin (rnz_n d)) : ∃ i, d i = r_dseq d q := by
  have h : r_dseq d q ∈ values d := Finset.orderEmbOfFin_mem _ rfl q
  simpa [values] using h

theorem r_invert_surjective (d : Fin N → α) : Function.Surjective (r_invert_dseq d) := by
  intro q
  obtain ⟨i, hi⟩ := r_dseq_mem d q
  exact ⟨i, (r_invert_eq_iff d i q).2 hi⟩

theorem r_multiplicity_eq (d : Fin N → α) (q : Fin (rnz_n d)) :
    r_multiplicity d q = (univ.filter (fun i => r_invert_dseq d i = q)).card := by
  simp only [r_multiplicity, r_invert_eq_iff]

theorem r_multiplicity_pos (d : Fin N → α) (q : Fin (rnz_n d)) : 0 < r_multiplicity d q := by
  obtain ⟨i, hi⟩ := r_dseq_mem d q
  exact Finset.card_pos.2 ⟨i, by simp [hi]⟩

/-- regrouping a sum over nodes into a sum over classes -/
theorem sum_classes {M : Type*} [CommSemiring M] (d : Fin N → α) (F : Fin (rnz_n d) → M) :
    ∑ i, F (r_invert_dseq d i) = ∑ q, (r_multiplicity d q : M) * F q := by
  rw [← Finset.sum_fiberwise (s := univ) (g := r_invert_dseq d)]
  refine sum_congr rfl fun q _ => ?_
  rw [r_multiplicity_eq]
  have : ∀ i ∈ univ.filter (fun i => r_invert_dseq d i = q), F (r_invert_dseq d i) = F q := by
    intro i hi; rw [(mem_filter.1 hi).2]
  rw [sum_congr rfl this, sum_const, nsmul_eq_mul]

/-- regrouping a sum over the other nodes into a sum over classes -/
theorem sum_classes_ne {M : Type*} [CommRing M] (d : Fin N → α) (F : Fin (rnz_n d) → M) (i : Fin N) :
    (∑ j, if i = j then 0 else F (r_invert_dseq d j)) =
      ∑ q, if r_invert_dseq d i = q then ((r_multiplicity d q : M) - 1) * F q
        else (r_multiplicity d q : M) * F q := by
  have h1 : (∑ j, if i = j then 0 else F (r_invert_dseq d j))
      = (∑ j, F (r_invert_dseq d j)) - F (r_invert_dseq d i) := by
    rw [← add_sum_erase univ (fun j => if i = j then 0 else F (r_invert_dseq d j)) (mem_univ i),
      ← add_sum_erase univ (fun j => F (r_invert_dseq d j)) (mem_univ i)]
    have : ∀ j ∈ univ.erase i, (if i = j then 0 else F (r_invert_dseq d j)) = F (r_invert_dseq d j) := by
      intro j hj; rw [if_neg (Ne.symm (mem_erase.1 hj).1)]
    rw [sum_congr rfl this]; simp
  have h2 : (∑ q, if r_invert_dseq d i = q then ((r_multiplicity d q : M) - 1) * F q
        else (r_multiplicity d q : M) * F q)
      = (∑ q, (r_multiplicity d q : M) * F q) - F (r_invert_dseq d i) := by
    have : ∀ q, (if r_invert_dseq d i = q then ((r_multiplicity d q : M) - 1) * F q
        else (r_multiplicity d q : M) * F q)
        = (r_multiplicity d q : M) * F q - if r_invert_dseq d i = q then F q else 0 := by
      intro q; split <;> ring
    simp only [this, sum_sub_distrib]
    simp
  rw [h1, h2, sum_classes]

theorem sum_multiplicity (d : Fin N → α) : ∑ q, r_multiplicity d q = N := by
  have := sum_classes (M := ℕ) d (fun _ => 1)
  simpa using this.symm

end Verif.Reduction
