import Verif.Model.DCM
import Verif.Model.DECM
import Verif.Model.CReMa
import Verif.Model.SolveU

/-!
`graph_classes.py` 1451-2494 and 2599-2602: `DirectedGraph.solve_tool` and everything it calls, on an initialised graph with `n` nodes, and
`DirectedGraph.model_loglikelihood`.  Conventions and simplifications are those of `Verif/Model/SolveU.lean`; in addition

* an array passed as initial guess has length `n`, `2n` or `4n`;
* when an array has the wrong length for the model the code raises in the middle of assigning the attributes; here the attributes are left as they were and only
  the overwritten entries of the caller's array are recorded;
* `crema-sparse` on a given matrix (the sparse functions applied to index arrays, whose length is the number of links) is left out: `.py .other`;
* CReMa with `adjacency="crema"` (the CReMa problem as its own binary problem) is left out: `.py .other`.
-/

namespace Verif.Solve

open Verif Finset Reduction Solver

noncomputable section

open Classical in
attribute [local instance 0] propDecidable

/-- the argument `initial_guess`: another type, a string, an array of length `n`, `2n`, `4n` -/
inductive DGuess (n : ℕ)
  | other
  | name (s : String)
  | nodes (v : Fin n → ℝ)
  | pairs (v : Fin 2 × Fin n → ℝ)
  | quads (v : Fin 4 × Fin n → ℝ)

/-- the attribute `adjacency_crema`: the triples of the dense implementation or the two fitness vectors of the sparse one -/
inductive DCremaAdj (n : ℕ)
  | edges (l : Edges n)
  | fitness (x y : Fin n → ℝ)

/-- the graph: degrees and strengths; `nz_known` is whether `nz_index_sout` and `nz_index_sin` have been computed (they are `None` for graphs built from a
weighted edge list, graph_classes.py:1278-1331) -/
structure DData (n : ℕ) where
  dseq_out : Fin n → ℕ
  dseq_in : Fin n → ℕ
  out_strength : Fin n → ℝ
  in_strength : Fin n → ℝ
  nz_known : Bool := true

/-- the models of `DirectedGraph.solve_tool` (graph_classes.py:2417-2425) -/
inductive DModel
  | dcm | dcm_exp | decm | decm_exp | crema | crema_sparse
deriving DecidableEq

/-- the six names of the models -/
def DModel.name : DModel → String
  | .dcm => "dcm"
  | .dcm_exp => "dcm_exp"
  | .decm => "decm"
  | .decm_exp => "decm_exp"
  | .crema => "crema"
  | .crema_sparse => "crema-sparse"

/-- graph_classes.py:2024-2172: the keys of the dictionaries `d_fun`, `d_fun_jac`, `d_fun_step` (and of `lins_fun`) -/
def dKeys : List (String × DModel × Method) :=
  [("dcm-newton", .dcm, .newton), ("dcm-quasinewton", .dcm, .quasinewton), ("dcm-fixed-point", .dcm, .fixed_point),
   ("dcm_exp-newton", .dcm_exp, .newton), ("dcm_exp-quasinewton", .dcm_exp, .quasinewton), ("dcm_exp-fixed-point", .dcm_exp, .fixed_point),
   ("crema-newton", .crema, .newton), ("crema-quasinewton", .crema, .quasinewton), ("crema-fixed-point", .crema, .fixed_point),
   ("decm-newton", .decm, .newton), ("decm-quasinewton", .decm, .quasinewton), ("decm-fixed-point", .decm, .fixed_point),
   ("decm_exp-newton", .decm_exp, .newton), ("decm_exp-quasinewton", .decm_exp, .quasinewton), ("decm_exp-fixed-point", .decm_exp, .fixed_point),
   ("crema-sparse-newton", .crema_sparse, .newton), ("crema-sparse-quasinewton", .crema_sparse, .quasinewton),
   ("crema-sparse-fixed-point", .crema_sparse, .fixed_point)]

/-- graph_classes.py:2021-2022 and 2174-2181: `mod_met = "-".join([model, method])` and the three dictionary lookups; `none` is the `KeyError` -/
def dLookup (model method : String) : Option (DModel × Method) := dKeys.lookup (model ++ "-" ++ method)

variable {n : ℕ}

namespace DData

/-- graph_classes.py:1585 `self.dseq`: the pairs (out-degree, in-degree), which `np.unique(axis=0)` sorts lexicographically -/
def seq (d : DData n) : Fin n → ℕ ×ₗ ℕ := fun i => toLex (d.dseq_out i, d.dseq_in i)

/-- number of degree classes, `self.rnz_n_out = self.rnz_n_in` -/
def r (d : DData n) : ℕ := rnz_n d.seq

/-- `self.rnz_dseq_out` -/
def ko (d : DData n) : Fin d.r → ℝ := fun q => ((ofLex (r_dseq d.seq q)).1 : ℝ)

/-- `self.rnz_dseq_in` -/
def ki (d : DData n) : Fin d.r → ℝ := fun q => ((ofLex (r_dseq d.seq q)).2 : ℝ)

/-- `self.r_multiplicity` -/
def c (d : DData n) : Fin d.r → ℝ := fun q => ((r_multiplicity d.seq q : ℕ) : ℝ)

/-- `self.r_invert_dseq` -/
def inv (d : DData n) : Fin n → Fin d.r := r_invert_dseq d.seq

/-- the class of `q` is not empty -/
theorem exists_class (d : DData n) (q : Fin d.r) : ∃ i, d.seq i = r_dseq d.seq q := by
  have := (values d.seq).orderEmbOfFin_mem rfl q
  obtain ⟨i, -, hi⟩ := Finset.mem_image.1 this
  exact ⟨i, hi⟩

/-- `self.r_index_dseq` (`return_index=True`): the first node of each class -/
def index (d : DData n) (q : Fin d.r) : Fin n :=
  (univ.filter fun i => d.seq i = r_dseq d.seq q).min' (by
    obtain ⟨i, hi⟩ := d.exists_class q
    exact ⟨i, by simp [hi]⟩)

/-- out-degrees as floats -/
def degOut (d : DData n) : Fin n → ℝ := fun i => (d.dseq_out i : ℝ)

/-- in-degrees as floats -/
def degIn (d : DData n) : Fin n → ℝ := fun i => (d.dseq_in i : ℝ)

/-- `self.n_edges` -/
def n_edges (d : DData n) : ℝ := ∑ i, d.degOut i

end DData

/-- graph_classes.py:1640-1660 and 1682-1703: the named initial guesses of the binary models, the blocks `r_x` and `r_y` -/
def namedDCM (e : Env) (d : DData n) (s : String) : Option ((Fin d.r → ℝ) × (Fin d.r → ℝ)) :=
  if s = "degrees_minor" then some (fun q => d.ko q / (Real.sqrt d.n_edges + 1), fun q => d.ki q / (Real.sqrt d.n_edges + 1))
  else if s = "random" then some (fun q => e.rand 0 q, fun q => e.rand 1 q)
  else if s = "uniform" then some (fun _ => 0.5, fun _ => 0.5)
  else if s = "degrees" then some (d.ko, d.ki)
  else if s = "chung_lu" then some (fun q => d.ko q / (2 * d.n_edges), fun q => d.ki q / (2 * d.n_edges))
  else none

/-- graph_classes.py:1664-1665, respectively 1710-1715: the treatment of zero degrees and, for dcm_exp, the logarithms (also of the arrays) -/
def finishDCM (d : DData n) (isExp : Bool) (x y : Fin d.r → ℝ) : Fin 2 × Fin d.r → ℝ :=
  if isExp then cat2 (maskSet (negLogNonzero x) (fun q => d.ko q = 0) 1e3) (maskSet (negLogNonzero y) (fun q => d.ki q = 0) 1e3)
  else cat2 (maskSet x (fun q => d.ko q = 0) 0) (maskSet y (fun q => d.ki q = 0) 0)

/-- graph_classes.py:1618-1669 `_set_initial_guess_dcm` and 1671-1717 `_set_initial_guess_dcm_exp` (`isExp`): the starting point `x0`.  Arrays are copied by
the indexing.  An array of length `n` has no second half: `IndexError`. -/
def guessDCM (e : Env) (d : DData n) (isExp : Bool) : DGuess n → Except Graph.Exc (Fin 2 × Fin d.r → ℝ)
  | .other => .error .typeError
  | .name s =>
    match namedDCM e d s with
    | none => .error .valueError
    | some (x, y) => .ok (finishDCM d isExp x y)
  | .nodes _ => .error .indexError
  | .pairs v => .ok (finishDCM d isExp (fun q => v (0, d.index q)) (fun q => v (1, d.index q)))
  | .quads v => .ok (finishDCM d isExp (fun q => v (0, d.index q)) (fun q => v (1, d.index q)))

/-- graph_classes.py:1730-1755: the named initial guesses of CReMa -/
def namedDCrema (e : Env) (d : DData n) (s : String) : Option ((Fin n → ℝ) × (Fin n → ℝ)) :=
  let so := d.out_strength
  let si := d.in_strength
  if s = "strengths" then some (fun i => (if so i > 0 then 1 else 0) / ∑ j, so j, fun i => (if si i > 0 then 1 else 0) / ∑ j, si j)
  else if s = "strengths_minor" then some (fun i => (if so i > 0 then 1 else 0) / (so i + 1), fun i => (if si i > 0 then 1 else 0) / (si i + 1))
  else if s = "random" then some (fun i => e.rand 0 i, fun i => e.rand 1 i)
  else none

/-- graph_classes.py:1723-1766 `_set_initial_guess_crema_directed`: the new `b_out`, `b_in` (`x0` is their concatenation) and the caller's array afterwards
(the slices are views of it).  The second slice of an array of length `n` or `4n` has the wrong length for the boolean index: `IndexError`, after the first
block has been masked. -/
def guessDCrema (e : Env) (d : DData n) : DGuess n → Except Graph.Exc ((Fin n → ℝ) × (Fin n → ℝ)) × DGuess n
  | .other => (.error .typeError, .other)
  | .name s =>
    match namedDCrema e d s with
    | none => (.error .valueError, .name s)
    | some (x, y) => (.ok (maskSet x (fun i => d.out_strength i = 0) 0, maskSet y (fun i => d.in_strength i = 0) 0), .name s)
  | .nodes v => (.error .indexError, .nodes (maskSet v (fun i => d.out_strength i = 0) 0))
  | .pairs v =>
    let x := maskSet (fun i => v (0, i)) (fun i => d.out_strength i = 0) 0
    let y := maskSet (fun i => v (1, i)) (fun i => d.in_strength i = 0) 0
    (.ok (x, y), .pairs (cat2 x y))
  | .quads v => (.error .indexError, .quads (maskSet v (fun w => w.1 = 0 ∧ d.out_strength w.2 = 0) 0))

/-- graph_classes.py:1779-1812 and 1839-1868: the named initial guesses of the DECM; `u` is the constant of "uniform" (0.9 for decm, 0.1 for decm_exp) -/
def namedDECM (e : Env) (d : DData n) (u : ℝ) (s : String) : Option (Fin 4 × Fin n → ℝ) :=
  if s = "strengths" then some fun v =>
    if v.1 = 0 then d.degOut v.2 / (d.n_edges + 1) else if v.1 = 1 then d.degIn v.2 / (d.n_edges + 1)
    else if v.1 = 2 then d.out_strength v.2 / ∑ j, d.out_strength j else d.in_strength v.2 / ∑ j, d.in_strength j
  else if s = "strengths_minor" then some fun v =>
    if v.1 = 0 then 1 / (d.degOut v.2 + 1) else if v.1 = 1 then 1 / (d.degIn v.2 + 1)
    else if v.1 = 2 then 1 / (d.out_strength v.2 + 1) else 1 / (d.in_strength v.2 + 1)
  else if s = "random" then some fun v => e.rand v.1 v.2
  else if s = "uniform" then some fun _ => u
  else none

/-- the observed value that belongs to each entry of `(x, y, b_out, b_in)` -/
def DData.obs (d : DData n) (v : Fin 4 × Fin n) : ℝ :=
  if v.1 = 0 then d.degOut v.2 else if v.1 = 1 then d.degIn v.2 else if v.1 = 2 then d.out_strength v.2 else d.in_strength v.2

/-- graph_classes.py:1816-1819 (decm), 1872-1887 (decm_exp) -/
def finishDECM (d : DData n) (isExp : Bool) (v : Fin 4 × Fin n → ℝ) : Fin 4 × Fin n → ℝ :=
  if isExp then maskSet (negLogNonzero v) (fun w => d.obs w = 0) 1e3 else maskSet v (fun w => d.obs w = 0) 0

/-- the block `b` of an array of `4n` entries -/
def blk4 (v : Fin 4 × Fin n → ℝ) (b : Fin 4) : Fin n → ℝ := fun i => v (b, i)

/-- graph_classes.py:1768-1822 `_set_initial_guess_decm` and 1828-1889 `_set_initial_guess_decm_exp`: the new attributes `x, y, b_out, b_in` (`x0` is their
concatenation) and the caller's array afterwards (the slices are views of it).  Shorter arrays: the first empty slice raises `IndexError` after the slices before
it have been overwritten. -/
def guessDECM (e : Env) (d : DData n) (isExp : Bool) : DGuess n → Except Graph.Exc (Fin 4 × Fin n → ℝ) × DGuess n
  | .other => (.error .typeError, .other)
  | .name s =>
    match namedDECM e d (if isExp then 0.1 else 0.9) s with
    | none => (.error .valueError, .name s)
    | some v => (.ok (finishDECM d isExp v), .name s)
  | .nodes v =>
    (.error .indexError, .nodes (if isExp then maskSet (negLogNonzero v) (fun i => d.degOut i = 0) 1e3 else maskSet v (fun i => d.degOut i = 0) 0))
  | .pairs v =>
    let z : Fin 2 × Fin n → Prop := fun w => (if w.1 = 0 then d.degOut w.2 else d.degIn w.2) = 0
    (.error .indexError, .pairs (if isExp then maskSet (negLogNonzero v) z 1e3 else maskSet v z 0))
  | .quads v => (.ok (finishDECM d isExp v), .quads (finishDECM d isExp v))

section tables

/-- graph_classes.py:2024-2265, the entries of `dcm`: functions handed to `solver` -/
def cbDCM (e : Env) (d : DData n) (m : Method) : Callbacks (Fin 2 × Fin d.r) where
  fn := match m with
    | .newton | .quasinewton => fun x v => -DCM.loglikelihood_prime_dcm x d.ko d.ki (DCM.nonzero d.ko) (DCM.nonzero d.ki) d.c v
    | .fixed_point => fun x => DCM.iterative_dcm x d.ko d.ki (DCM.nonzero d.ko) (DCM.nonzero d.ki) d.c
  jac := fun x => negM (DCM.loglikelihood_hessian_dcm x d.ko d.ki (DCM.nonzero d.ko) (DCM.nonzero d.ki) d.c)
  jacDiag := fun x v => -DCM.loglikelihood_hessian_diag_dcm x d.ko d.ki (DCM.nonzero d.ko) (DCM.nonzero d.ki) d.c v
  hessian_regulariser := eigenRegulariser e
  linsearch := fun x dx beta alfa f =>
    some (linsearch_fun_DCM (blocks 2 d.r) x dx beta alfa f
      (llF e (fun x => (∀ q, d.ko q ≠ 0 → 0 < x (0, q)) ∧ ∀ q, d.ki q ≠ 0 → 0 < x (1, q))
        fun x => DCM.loglikelihood_dcm x d.ko d.ki (DCM.nonzero d.ko) (DCM.nonzero d.ki) d.c))
  linsearchFixed := fun x dx dx_old alfa beta step => some (linsearch_fun_DCM_fixed (blocks 2 d.r) x dx dx_old alfa beta step)

/-- graph_classes.py:2024-2265, the entries of `dcm_exp` -/
def cbDCMexp (e : Env) (d : DData n) (m : Method) : Callbacks (Fin 2 × Fin d.r) where
  fn := match m with
    | .newton | .quasinewton => fun x v => -DCM.loglikelihood_prime_dcm_exp x d.ko d.ki (DCM.nonzero d.ko) (DCM.nonzero d.ki) d.c v
    | .fixed_point => fun x => DCM.iterative_dcm_exp x d.ko d.ki (DCM.nonzero d.ko) (DCM.nonzero d.ki) d.c
  jac := fun x => negM (DCM.loglikelihood_hessian_dcm_exp x d.ko d.ki (DCM.nonzero d.ko) (DCM.nonzero d.ki) d.c)
  jacDiag := fun x v => -DCM.loglikelihood_hessian_diag_dcm_exp x d.ko d.ki (DCM.nonzero d.ko) (DCM.nonzero d.ki) d.c v
  hessian_regulariser := matrix_regulariser_function
  linsearch := fun x dx beta alfa f =>
    some (linsearch_fun_DCM_exp x dx beta alfa f
      (llF e (fun _ => True) fun x => DCM.loglikelihood_dcm_exp x d.ko d.ki (DCM.nonzero d.ko) (DCM.nonzero d.ki) d.c))
  linsearchFixed := fun _ dx dx_old alfa beta step => some (linsearch_fun_DCM_exp_fixed dx dx_old alfa beta step)

variable [NeZero n]

/-- graph_classes.py:2024-2265, the entries of `decm` -/
def cbDECM (e : Env) (d : DData n) (m : Method) : Callbacks (Fin 4 × Fin n) where
  fn := match m with
    | .newton | .quasinewton => fun x v => -DECM.loglikelihood_prime_decm x d.degOut d.degIn d.out_strength d.in_strength v
    | .fixed_point => fun x => DECM.iterative_decm x d.degOut d.degIn d.out_strength d.in_strength
  jac := fun x => negM (DECM.loglikelihood_hessian_decm x d.degOut d.degIn d.out_strength d.in_strength)
  jacDiag := fun x v => -DECM.loglikelihood_hessian_diag_decm x d.degOut d.degIn d.out_strength d.in_strength v
  hessian_regulariser := eigenRegulariser e
  linsearch := fun x dx beta alfa f =>
    linsearch_fun_DECM (blocks 4 n) x dx beta alfa f
      (llF e (fun x => (∀ v, d.obs v ≠ 0 → 0 < x v) ∧ (∀ v, 0 ≤ x v) ∧ ∀ i j : Fin n, i ≠ j → x (2, i) * x (3, j) < 1)
        fun x => DECM.loglikelihood_decm x d.degOut d.degIn d.out_strength d.in_strength)
  linsearchFixed := fun x dx dx_old alfa beta step => linsearch_fun_DECM_fixed (blocks 4 n) x dx dx_old alfa beta step

/-- graph_classes.py:2024-2265, the entries of `decm_exp` -/
def cbDECMexp (e : Env) (d : DData n) (m : Method) : Callbacks (Fin 4 × Fin n) where
  fn := match m with
    | .newton | .quasinewton => fun x v => -DECM.loglikelihood_prime_decm_exp x d.degOut d.degIn d.out_strength d.in_strength v
    | .fixed_point => fun x => DECM.iterative_decm_exp x d.degOut d.degIn d.out_strength d.in_strength
  jac := fun x => negM (DECM.loglikelihood_hessian_decm_exp x d.degOut d.degIn d.out_strength d.in_strength)
  jacDiag := fun x v => -DECM.loglikelihood_hessian_diag_decm_exp x d.degOut d.degIn d.out_strength d.in_strength v
  hessian_regulariser := matrix_regulariser_function
  linsearch := fun x dx beta alfa f =>
    linsearch_fun_DECM_exp x dx beta alfa f
      (llF e (fun x => ∀ i j : Fin n, i ≠ j → 0 < x (2, i) + x (3, j))
        fun x => DECM.loglikelihood_decm_exp x d.degOut d.degIn d.out_strength d.in_strength)
  linsearchFixed := fun x dx dx_old alfa beta step => linsearch_fun_DECM_exp_fixed x dx dx_old alfa beta step

/-- graph_classes.py:2024-2265, the entries of `crema`; `nz_index_sout`, `nz_index_sin` are the positions of the non-zero strengths -/
def cbDCrema (e : Env) (d : DData n) (adj : Edges n) (m : Method) : Callbacks (Fin 2 × Fin n) where
  fn := match m with
    | .newton | .quasinewton => fun x v =>
      -DCReMa.loglikelihood_prime_crema_directed x d.out_strength d.in_strength adj (DCM.nonzero d.out_strength) (DCM.nonzero d.in_strength) v
    | .fixed_point => fun x v =>
      -DCReMa.iterative_crema_directed x d.out_strength d.in_strength adj (DCM.nonzero d.out_strength) (DCM.nonzero d.in_strength) v
  jac := fun x => negM (DCReMa.loglikelihood_hessian_crema_directed x adj)
  jacDiag := fun x v => -DCReMa.loglikelihood_hessian_diag_crema_directed x adj v
  hessian_regulariser := matrix_regulariser_function
  linsearch := fun x dx beta alfa f =>
    some (linsearch_fun_crema_directed x dx beta alfa f (llF e (fun x => ∀ t ∈ adj, 0 < x (0, t.1) + x (1, t.2.1)) fun x =>
      DCReMa.loglikelihood_crema_directed x d.out_strength d.in_strength adj (DCM.nonzero d.out_strength) (DCM.nonzero d.in_strength)))
  linsearchFixed := fun _ dx dx_old alfa beta step => some (linsearch_fun_crema_directed_fixed dx dx_old alfa beta step)

/-- the order in which a `prange` over the positions of the non-zero entries of `a` visits the nodes -/
def Env.visit (e : Env) (a : Fin n → ℝ) : List (Fin n) := (e.sched n).filter fun i => a i ≠ 0

/-- the order in which a `prange` over `len(x.nonzero()[0])` visits its positions -/
def Env.positions (e : Env) (a : Fin n → ℝ) : List ℕ := (e.sched (DCM.nonzero a).length).map Fin.val

/-- graph_classes.py:2024-2265, the entries of `crema-sparse` (`x`, `y` are `adjacency_crema`).  The dense Hessian asked for by "newton" cannot be evaluated on
the pair `adjacency_crema`; see `solveDCremaTail`. -/
def cbDCremaSparse (e : Env) (d : DData n) (x y : Fin n → ℝ) (m : Method) : Callbacks (Fin 2 × Fin n) where
  fn := match m with
    | .newton | .quasinewton => fun b v =>
      -DCReMa.loglikelihood_prime_crema_directed_sparse (e.visit d.out_strength) (e.visit d.in_strength) b d.out_strength d.in_strength x y v
    | .fixed_point => fun b v => -DCReMa.iterative_crema_directed_sparse (e.positions x) (e.positions y) b d.out_strength d.in_strength x y v
  jac := fun _ => 0
  jacDiag := fun b v => -DCReMa.loglikelihood_hessian_diag_crema_directed_sparse (e.sched n) b x y v
  hessian_regulariser := matrix_regulariser_function
  linsearch := fun b dx beta alfa f =>
    some (linsearch_fun_crema_directed b dx beta alfa f (llF e (fun b => ∀ i j : Fin n, i ≠ j → 0 < b (0, i) + b (1, j)) fun b =>
      DCReMa.loglikelihood_crema_directed_sparse b d.out_strength d.in_strength x y (DCM.nonzero d.out_strength) (DCM.nonzero d.in_strength)))
  linsearchFixed := fun _ dx dx_old alfa beta step => some (linsearch_fun_crema_directed_fixed dx dx_old alfa beta step)

/-- what the sparse functions read as `adj[0]` when `adjacency_crema` holds triples: the row indices (defined for `n` triples or more) -/
def rowsOf (l : Edges n) : Fin n → ℝ := fun i => match l[i.val]? with
  | some t => (t.1.val : ℝ)
  | none => 0

/-- what the sparse functions read as `adj[1]` when `adjacency_crema` holds triples: the column indices (defined for `n` triples or more) -/
def colsOf (l : Edges n) : Fin n → ℝ := fun i => match l[i.val]? with
  | some t => (t.2.1.val : ℝ)
  | none => 0

/-- graph_classes.py:2024-2265, the entries of `crema-sparse` when `adjacency_crema` holds triples (a matrix given by the user): the sparse functions read the
row and column indices as fitnesses, while the dense Hessian asked for by "newton" (graph_classes.py:2121-2124) finds the triples it expects -/
def cbDCremaSparseOn (e : Env) (d : DData n) (l : Edges n) (m : Method) : Callbacks (Fin 2 × Fin n) :=
  { cbDCremaSparse e d (rowsOf l) (colsOf l) m with jac := fun x => negM (DCReMa.loglikelihood_hessian_crema_directed x l) }

end tables

/-- the attribute `solution_array`; `tuple` is the whole result of the solver, stored by `_set_solved_problem_crema_directed` with `full_return=True` -/
inductive DSol (d : DData n)
  | reduced (v : Fin 2 × Fin d.r → ℝ)
  | pairs (v : Fin 2 × Fin n → ℝ)
  | quads (v : Fin 4 × Fin n → ℝ)
  | tuple (v : Fin 2 × Fin n → ℝ) (t : Trace)

/-- the attribute `args` -/
inductive DArgs (n : ℕ)
  | dcm
  | decm
  | crema (adj : DCremaAdj n)

/-- the attributes of a `DirectedGraph` that solving assigns (graph_classes.py:1151-1225).  `adjacency_crema`, `adjacency_given`, `step_fun` and `fun_pmatrix`
do not exist before they are first assigned (`none`, `false`). -/
structure DAttr (d : DData n) where
  last_model : Option String := none
  full_return : Bool := false
  x : Option (Fin n → ℝ) := none
  y : Option (Fin n → ℝ) := none
  b_out : Option (Fin n → ℝ) := none
  b_in : Option (Fin n → ℝ) := none
  solution_array : Option (DSol d) := none
  trace : Option Trace := none
  trace_crema : Option Trace := none
  is_sparse : Bool := false
  adjacency_crema : Option (DCremaAdj n) := none
  adjacency_given : Option Bool := none
  fun_pmatrix : Bool := false
  args : Option (DArgs n) := none
  step_fun : Option DModel := none
  expected_dseq : Option (Fin 2 × Fin n → ℝ) := none
  expected_strength_seq : Option (Fin 2 × Fin n → ℝ) := none
  expected_stregth_seq : Option (Fin 2 × Fin n → ℝ) := none
  relative_error_degree : Option ℝ := none
  relative_error_strength : Option ℝ := none
  error : Option ℝ := none
  error_degree : Option ℝ := none
  error_strength : Option ℝ := none

/-- result of a call: attributes, exception, the caller's arrays `initial_guess` and `initial_guess_adjacency` afterwards -/
structure DResult (d : DData n) where
  g : DAttr d
  exc : Option SExc
  guess : DGuess n
  guessAdj : DGuess n

section solving

variable {d : DData n} [NeZero n]

theorem DData.r_pos (d : DData n) [NeZero n] : 0 < d.r := by
  unfold DData.r rnz_n values
  exact Finset.card_pos.2 ⟨d.seq 0, by simp⟩

instance (d : DData n) : Nonempty (Fin d.r) := ⟨⟨0, d.r_pos⟩⟩

/-- graph_classes.py:1493-1510 `_set_solved_problem_dcm` and 1512-1530 `_set_solved_problem_dcm_exp` (`isExp`, the solution is converted first) -/
def setSolvedDCM (g : DAttr d) (isExp : Bool) (s : State (Fin 2 × Fin d.r)) : DAttr d :=
  { g with
    trace := if g.full_return then some (.of s) else g.trace
    solution_array := some (.reduced (if isExp then fun v => Real.exp (-s.x v) else s.x))
    x := some (if isExp then fun i => Real.exp (-s.x (0, d.inv i)) else fun i => s.x (0, d.inv i))
    y := some (if isExp then fun i => Real.exp (-s.x (1, d.inv i)) else fun i => s.x (1, d.inv i)) }

/-- graph_classes.py:1532-1547 `_set_solved_problem_decm` and 1549-1566 `_set_solved_problem_decm_exp` (`isExp`) -/
def setSolvedDECM (g : DAttr d) (isExp : Bool) (s : State (Fin 4 × Fin n)) : DAttr d :=
  { g with
    trace := if g.full_return then some (.of s) else g.trace
    solution_array := some (.quads (if isExp then fun v => Real.exp (-s.x v) else s.x))
    x := some (if isExp then fun i => Real.exp (-s.x (0, i)) else fun i => s.x (0, i))
    y := some (if isExp then fun i => Real.exp (-s.x (1, i)) else fun i => s.x (1, i))
    b_out := some (if isExp then fun i => Real.exp (-s.x (2, i)) else fun i => s.x (2, i))
    b_in := some (if isExp then fun i => Real.exp (-s.x (3, i)) else fun i => s.x (3, i)) }

/-- graph_classes.py:2380-2393 `_set_solved_problem_crema_directed`: `solution_array` is the whole tuple with `full_return=True` -/
def setSolvedDCrema (g : DAttr d) (s : State (Fin 2 × Fin n)) : DAttr d :=
  { g with
    trace_crema := if g.full_return then some (.of s) else g.trace_crema
    b_out := some fun i => s.x (0, i)
    b_in := some fun i => s.x (1, i)
    solution_array := some (if g.full_return then .tuple s.x (.of s) else .pairs s.x) }

/-- graph_classes.py:1451-1491 `_solve_problem` with `_initialize_problem` (2015-2271) for the models without CReMa (`model` is `self.last_model` afterwards; any
other string falls through the guesses and the arguments and fails in the dictionaries). -/
def solveProblemD (e : Env) (g : DAttr d) (model method : String) (guess : DGuess n) (p : Params) : DAttr d × Option SExc × DGuess n :=
  let g := { g with last_model := some model, full_return := p.full_return }
  if model = "dcm" ∨ model = "dcm_exp" then
    match guessDCM e d (model = "dcm_exp") guess with
    | .error x => (g, some (.py x), guess)
    | .ok x0 =>
      let g := { g with args := some .dcm }
      match dLookup model method with
      | none => (g, some (.py .valueError), guess)
      | some (mo, me) =>
        let g := { g with step_fun := some mo, fun_pmatrix := true }
        match solver (if model = "dcm_exp" then cbDCMexp e d me else cbDCM e d me) (p.opts method) x0 with
        | .error x => (g, some (.numeric x), guess)
        | .ok s => (setSolvedDCM g (model = "dcm_exp") s, none, guess)
  else if model = "decm" ∨ model = "decm_exp" then
    match guessDECM e d (model = "decm_exp") guess with
    | (.error x, guess) => (g, some (.py x), guess)
    | (.ok v, guess) =>
      let g := { g with x := some (blk4 v 0), y := some (blk4 v 1), b_out := some (blk4 v 2), b_in := some (blk4 v 3), args := some .decm }
      match dLookup model method with
      | none => (g, some (.py .valueError), guess)
      | some (mo, me) =>
        let g := { g with step_fun := some mo }
        match solver (if model = "decm_exp" then cbDECMexp e d me else cbDECM e d me) (p.opts method) v with
        | .error x => (g, some (.numeric x), guess)
        | .ok s => (setSolvedDECM g (model = "decm_exp") s, none, guess)
  else if model = "crema" ∨ model = "crema-sparse" then (g, some (.py .other), guess)
  else (g, some (.py .valueError), guess)

/-- graph_classes.py:2340-2378, the second half of `_solve_problem_crema_directed`, with `adjacency_crema = adj`.  Dense functions on the pair of fitnesses
raise an exception (typing error of numba) and so does every function that loops over `nz_index_sout` when it is `None` (all but the sparse fixed-point map);
the Hessian asked for by "crema-sparse-newton" is the dense one, so that on the pair of fitnesses the first step raises.  On triples the sparse functions
combine the row and column indices with the vectors of rates, which raises an exception (shapes do not match) unless there are `n` triples.  Simplified: with
a single triple and `n ≠ 1` the shapes do match, and the code reads out of bounds; with no triple the fixed-point map enters no loop; and the maps over the
nodes with strengths do not raise when all strengths are 0: in these three cases the model raises. -/
def solveDCremaTail (e : Env) (g : DAttr d) (adj : DCremaAdj n) (model method : String) (guess : DGuess n) (p : Params) : DAttr d × Option SExc × DGuess n :=
  let model := if g.is_sparse then "crema-sparse" else model
  let g := { g with last_model := some model, full_return := p.full_return }
  match guessDCrema e d guess with
  | (.error x, guess) => (g, some (.py x), guess)
  | (.ok (bo, bi), guess) =>
    let g := { g with b_out := some bo, b_in := some bi, args := some (.crema adj) }
    match dLookup model method with
    | none => (g, some (.py .valueError), guess)
    | some (mo, me) =>
      let g := { g with step_fun := some mo }
      match mo, adj with
      | .crema, .edges l =>
        if d.nz_known then
          match solver (cbDCrema e d l me) (p.opts method) (cat2 bo bi) with
          | .error x => (g, some (.numeric x), guess)
          | .ok s => (setSolvedDCrema g s, none, guess)
        else (g, some (.py .other), guess)
      | .crema_sparse, .edges l =>
        if l.length = n ∧ (d.nz_known ∨ me = .fixed_point) then
          match solver (cbDCremaSparseOn e d l me) (p.opts method) (cat2 bo bi) with
          | .error x => (g, some (.numeric x), guess)
          | .ok s => (setSolvedDCrema g s, none, guess)
        else (g, some (.py .other), guess)
      | .crema_sparse, .fitness x y =>
        if d.nz_known ∨ me = .fixed_point then
          match solver (cbDCremaSparse e d x y me) (p.opts method) (cat2 bo bi) with
          | .error x => (g, some (if method = "newton" then .py .other else .numeric x), guess)
          | .ok s => if method = "newton" ∧ s.n_steps ≠ 0 then (g, some (.py .other), guess) else (setSolvedDCrema g s, none, guess)
        else (g, some (.py .other), guess)
      | _, _ => (g, some (.py .other), guess)

/-- the nodes with non-zero degree, `args_p[1]`, `args_p[2]` (graph_classes.py:2188-2192) -/
def DData.pmat (d : DData n) (x y : Fin n → ℝ) : Fin n → Fin n → ℝ := DCM.pmatrix_dcm (cat2 x y) (DCM.nonzero d.degOut) (DCM.nonzero d.degIn)

/-- graph_classes.py:2273-2378 `_solve_problem_crema_directed`.  The binary problem is solved with the default `linsearch=True`. -/
def solveProblemDCrema (e : Env) (g : DAttr d) (model method : String) (guess : DGuess n) (adjacency : AdjSpec n) (method_adjacency : String)
    (guess_adjacency : DGuess n) (p : Params) : DResult d :=
  let g := { g with is_sparse := decide (model = "crema-sparse") }
  match adjacency with
  | .other => ⟨g, some (.py .valueError), guess, guess_adjacency⟩
  | .name a =>
    match solveProblemD e.inner g a method_adjacency guess_adjacency { p with linsearch := true } with
    | (g, some x, guess_adjacency) => ⟨g, some x, guess, guess_adjacency⟩
    | (g, none, guess_adjacency) =>
      match g.x, g.y with
      | some x, some y =>
        if g.is_sparse then
          let g := { g with adjacency_crema := some (.fitness x y), adjacency_given := some false }
          let r := solveDCremaTail e g (.fitness x y) model method guess p
          ⟨r.1, r.2.1, r.2.2, guess_adjacency⟩
        else if g.fun_pmatrix then
          let adj : DCremaAdj n := .edges (nzEdges (d.pmat x y))
          let g := { g with adjacency_crema := some adj, is_sparse := false, adjacency_given := some false }
          let r := solveDCremaTail e g adj model method guess p
          ⟨r.1, r.2.1, r.2.2, guess_adjacency⟩
        else ⟨g, some (.py .attributeError), guess, guess_adjacency⟩
      | _, _ => ⟨g, some (.py .other), guess, guess_adjacency⟩      -- not reachable: the binary problem has set `x` and `y`
  | .matrix a =>
    let adj : DCremaAdj n := .edges (nzEdges a)
    let g := { g with adjacency_crema := some adj, is_sparse := false, adjacency_given := some true }
    let r := solveDCremaTail e g adj model method guess p
    ⟨r.1, r.2.1, r.2.2, guess_adjacency⟩

/-- graph_classes.py:1894-1909: the degrees -/
def degreeErrorD (g : DAttr d) : DAttr d :=
  match g.x, g.y with
  | some x, some y =>
    let sol : Fin 2 × Fin n → ℝ := cat2 x y
    let ex_k : Fin 2 × Fin n → ℝ := cat2 (DCM.expected_out_degree_dcm sol) (DCM.expected_in_degree_dcm sol)
    let err := maxAbs fun v => ex_k v - cat2 d.degOut d.degIn v
    { g with expected_dseq := some ex_k, error_degree := some err,
             relative_error_degree := some (maxAbs fun v => (ex_k v - cat2 d.degOut d.degIn v) / (cat2 d.degOut d.degIn v + Real.exp (-100))), error := some err }
  | _, _ => g

/-- graph_classes.py:1911-1942: the strengths -/
def strengthErrorD (g : DAttr d) : DAttr d × Option SExc :=
  match g.b_out, g.b_in with
  | some bo, some bi =>
    match g.adjacency_crema with
    | none => (g, some (.py .attributeError))
    | some adj =>
      let sol : Fin 2 × Fin n → ℝ := cat2 bo bi
      let go (ex_s : Fin 2 × Fin n → ℝ) : DAttr d × Option SExc :=
        let err := maxAbs fun v => ex_s v - cat2 d.out_strength d.in_strength v
        let g := { g with expected_stregth_seq := some ex_s, error_strength := some err,
                          relative_error_strength := some (maxAbs fun v => (ex_s v - cat2 d.out_strength d.in_strength v) / (cat2 d.out_strength d.in_strength v + Real.exp (-100))) }
        match g.adjacency_given with
        | none => (g, some (.py .attributeError))
        | some true => ({ g with error := some err }, none)
        | some false =>
          match g.error_degree with
          | none => (g, some (.py .typeError))
          | some ed => ({ g with error := some (max err ed) }, none)
      match g.is_sparse, adj with
      | true, .fitness x y =>
        go (cat2 (DCReMa.expected_out_strength_crema_directed_sparse sol x y) (DCReMa.expected_in_stregth_crema_directed_sparse sol x y))
      | false, .edges l => go (cat2 (DCReMa.expected_out_strength_crema_directed sol l) (DCReMa.expected_in_strength_crema_directed sol l))
      | _, _ => (g, some (.py .other))
  | _, _ => (g, none)

/-- graph_classes.py:1891-1988 `_solution_error` -/
def solutionErrorD (g : DAttr d) : DAttr d × Option SExc :=
  if g.last_model = some "dcm" ∨ g.last_model = some "dcm_exp" ∨ g.last_model = some "crema" ∨ g.last_model = some "crema-sparse" then
    strengthErrorD (degreeErrorD g)
  else if g.last_model = some "decm" ∨ g.last_model = some "decm_exp" then
    match g.x, g.y, g.b_out, g.b_in with
    | some x, some y, some bo, some bi =>
      let sol : Fin 4 × Fin n → ℝ := fun v => if v.1 = 0 then x v.2 else if v.1 = 1 then y v.2 else if v.1 = 2 then bo v.2 else bi v.2
      let ex := DECM.expected_decm sol
      let ed := max (maxAbs fun i => d.degOut i - ex (0, i)) (maxAbs fun i => d.degIn i - ex (1, i))
      let es := max (maxAbs fun i => d.out_strength i - ex (2, i)) (maxAbs fun i => d.in_strength i - ex (3, i))
      let exk : Fin 2 × Fin n → ℝ := cat2 (fun i => ex (0, i)) fun i => ex (1, i)
      let exs : Fin 2 × Fin n → ℝ := cat2 (fun i => ex (2, i)) fun i => ex (3, i)
      ({ g with expected_dseq := some exk, expected_strength_seq := some exs, error_degree := some ed, error_strength := some es,
                relative_error_strength := some (maxAbs fun v => (cat2 d.out_strength d.in_strength v - exs v) / (cat2 d.out_strength d.in_strength v + Real.exp (-100))),
                relative_error_degree := some (maxAbs fun v => (cat2 d.degOut d.degIn v - exk v) / (cat2 d.degOut d.degIn v + Real.exp (-100))),
                error := some (maxAbs fun v => ex v - d.obs v) }, none)
    | _, _, _, _ => (g, some (.py .other))
  else (g, none)

/-- graph_classes.py:2395-2494 `solve_tool` -/
def solve_tool_directed (e : Env) (g : DAttr d) (model : String) (method : String := "newton") (initial_guess : DGuess n := .name "random")
    (adjacency : AdjSpec n := .other) (method_adjacency : String := "newton") (initial_guess_adjacency : DGuess n := .name "random")
    (p : Params := {}) : DResult d :=
  let r : DResult d :=
    if model = "dcm" ∨ model = "dcm_exp" ∨ model = "decm" ∨ model = "decm_exp" then
      let r := solveProblemD e g model method initial_guess p
      ⟨r.1, r.2.1, r.2.2, initial_guess_adjacency⟩
    else if model = "crema" ∨ model = "crema-sparse" then
      solveProblemDCrema e g model method initial_guess adjacency method_adjacency initial_guess_adjacency p
    else ⟨g, none, initial_guess, initial_guess_adjacency⟩
  match r.exc with
  | some _ => r
  | none =>
    let t := solutionErrorD r.g
    { r with g := t.1, exc := t.2 }

/-- graph_classes.py:2599-2602 `model_loglikelihood`: `self.step_fun(self.solution_array)`, where `step_fun` is minus the log-likelihood of the model it was
built for, evaluated with the current `self.args` -/
def model_loglikelihood_directed (g : DAttr d) : Except Graph.Exc ℝ :=
  match g.step_fun, g.args, g.solution_array with
  | none, _, _ => .error .attributeError
  | some .dcm, some .dcm, some (.reduced v) => .ok (-DCM.loglikelihood_dcm v d.ko d.ki (DCM.nonzero d.ko) (DCM.nonzero d.ki) d.c)
  | some .dcm_exp, some .dcm, some (.reduced v) => .ok (-DCM.loglikelihood_dcm_exp v d.ko d.ki (DCM.nonzero d.ko) (DCM.nonzero d.ki) d.c)
  | some .decm, some .decm, some (.quads v) => .ok (-DECM.loglikelihood_decm v d.degOut d.degIn d.out_strength d.in_strength)
  | some .decm_exp, some .decm, some (.quads v) => .ok (-DECM.loglikelihood_decm_exp v d.degOut d.degIn d.out_strength d.in_strength)
  | some .crema, some (.crema (.edges l)), some (.pairs v) =>
    if d.nz_known then
      .ok (-DCReMa.loglikelihood_crema_directed v d.out_strength d.in_strength l (DCM.nonzero d.out_strength) (DCM.nonzero d.in_strength))
    else .error .other
  | some .crema_sparse, some (.crema (.fitness x y)), some (.pairs v) =>
    if d.nz_known then
      .ok (-DCReMa.loglikelihood_crema_directed_sparse v d.out_strength d.in_strength x y (DCM.nonzero d.out_strength) (DCM.nonzero d.in_strength))
    else .error .other
  | some .crema_sparse, some (.crema (.edges l)), some (.pairs v) =>
    if d.nz_known ∧ n ≤ l.length then
      .ok (-DCReMa.loglikelihood_crema_directed_sparse v d.out_strength d.in_strength (rowsOf l) (colsOf l) (DCM.nonzero d.out_strength)
        (DCM.nonzero d.in_strength))
    else .error .other
  | _, _, _ => .error .other

end solving

end

end Verif.Solve
