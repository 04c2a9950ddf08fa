import Verif.Base
import Mathlib.Data.Finset.Sort

/-!
Model of `np.unique(seq, return_inverse=True, return_counts=True, axis=0)` as used by
`degree_reduction` (graph_classes.py 366-381 for degrees, 1576-1604 for (out,in) pairs).

`np.unique` is modelled by its documented contract, concretely: sorted distinct values, for every
entry the position of its value, and the number of occurrences of every value.  Rows
`(out, in)` (axis=0) are compared lexicographically, which is the order `α ×ₗ α`.
-/

namespace Verif.Reduction

variable {α : Type*} [LinearOrder α] {N : ℕ}

/-- set of values of the sequence -/
def values (d : Fin N → α) : Finset α := Finset.univ.image d

/-- number of distinct values; graph_classes.py 379, `self.rnz_n = self.r_dseq.size` -/
def rnz_n (d : Fin N → α) : ℕ := (values d).card

/-- graph_classes.py 371, `r_dseq`: sorted distinct values -/
def r_dseq (d : Fin N → α) : Fin (rnz_n d) → α := fun q => (values d).orderEmbOfFin rfl q

/-- graph_classes.py 371, `r_invert_dseq`: position of the value of node `i` in `r_dseq` -/
noncomputable def r_invert_dseq (d : Fin N → α) (i : Fin N) : Fin (rnz_n d) :=
  ((values d).orderIsoOfFin rfl).symm ⟨d i, Finset.mem_image_of_mem d (Finset.mem_univ i)⟩

/-- graph_classes.py 371, `r_multiplicity`: number of occurrences of each distinct value -/
def r_multiplicity (d : Fin N → α) (q : Fin (rnz_n d)) : ℕ :=
  (Finset.univ.filter (fun i => d i = r_dseq d q)).card

end Verif.Reduction
