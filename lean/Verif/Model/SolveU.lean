import Verif.Model.CM
import Verif.Model.ECM
import Verif.Model.CReMa
import Verif.Model.Reduction
import Verif.Model.Solver
import Verif.Model.Graph

/-!
`graph_classes.py` 301-1031 and 1131-1134: `UndirectedGraph.solve_tool` and everything it calls, on an initialised graph with `n` nodes, and
`UndirectedGraph.model_loglikelihood`.

The object is a record of attributes.  A call returns the attributes after the call, the exception it raised (if any) and the contents of the arrays the
caller passed as initial guesses, which the code may overwrite.  Attributes assigned before an exception stay assigned.

Simplifications.
* Arithmetic is over the reals.  Where the code would produce nan, infinity or `ZeroDivisionError` (division by zero, logarithm of a non-positive number) the
  real-number model has Lean's conventional value, except for the log-likelihoods used by the line searches, whose value outside the domain is an arbitrary
  parameter (`Env.outside`); theorems therefore carry domain hypotheses.
* `comput_time`, printing, `verbose` and the relative errors are left out.
* An array passed as initial guess has length `n` or `2n`; adjacency matrices passed to `solve_tool` are `n × n`.
* Both sequences of the graph are there (`dseq`, integers, and `strength_sequence`, reals); a binary graph is one on which no weighted model is solved.
-/

namespace Verif.Solve

open Verif Finset Reduction Solver

noncomputable section

open Classical in
attribute [local instance 0] propDecidable

/-- What a call depends on besides its arguments: the random numbers drawn (one array per block, for the problem itself and for the binary problem solved
first by CReMa), `scipy.linalg.eigh`, the order in which the `prange` iterations are executed, the values of a log-likelihood outside its domain and of memory
read out of bounds. -/
structure Env where
  rand : Fin 4 → ℕ → ℝ
  randAdj : Fin 4 → ℕ → ℝ
  eigh : ∀ (ι : Type) [Fintype ι] [DecidableEq ι], Matrix ι ι ℝ → (ι → ℝ) × Matrix ι ι ℝ
  sched : ∀ n : ℕ, List (Fin n)
  outside : ∀ ι : Type, (ι → ℝ) → Option ℝ
  junk : ℕ → ℝ

/-- The documented facts about the environment: `np.random.rand` draws from [0, 1), `eigh` diagonalises symmetric matrices, the schedule runs every
iteration once. -/
structure Env.Valid (e : Env) : Prop where
  rand_nonneg : ∀ b i, 0 ≤ e.rand b i
  rand_lt : ∀ b i, e.rand b i < 1
  randAdj_nonneg : ∀ b i, 0 ≤ e.randAdj b i
  randAdj_lt : ∀ b i, e.randAdj b i < 1
  eigh : ∀ (ι : Type) [Fintype ι] [DecidableEq ι] (b : Matrix ι ι ℝ), b.transpose = b → IsEigh b (e.eigh ι b).1 (e.eigh ι b).2
  sched : ∀ n, (e.sched n).Perm (List.finRange n)

/-- the environment as the binary problem inside CReMa sees it -/
def Env.inner (e : Env) : Env := { e with rand := e.randAdj }

/-- the exceptions of a call: a Python exception raised by the class (`Graph.Exc`), or a failure inside `solver` -/
inductive SExc
  | py (e : Graph.Exc)
  | numeric (e : Solver.Err)
deriving DecidableEq

/-- the argument `initial_guess`: another type, a string, an array of length `n`, an array of length `2n` -/
inductive Guess (n : ℕ)
  | other
  | name (s : String)
  | nodes (v : Fin n → ℝ)
  | pairs (v : Fin 2 × Fin n → ℝ)

/-- the argument `adjacency` of `solve_tool`: another type, a string, a matrix (list, numpy array or scipy matrix: the three branches 834-857 compute the
same triples) -/
inductive AdjSpec (n : ℕ)
  | other
  | name (s : String)
  | matrix (a : Fin n → Fin n → ℝ)

/-- the attribute `adjacency_crema`: the triples of the dense implementation or the fitness vector of the sparse one -/
inductive CremaAdj (n : ℕ)
  | edges (l : Edges n)
  | fitness (x : Fin n → ℝ)

/-- the graph: degree and strength sequence -/
structure UData (n : ℕ) where
  dseq : Fin n → ℕ
  strength_sequence : Fin n → ℝ

/-- the models of `UndirectedGraph.solve_tool` (graph_classes.py:951-959) -/
inductive UModel
  | cm | cm_exp | ecm | ecm_exp | crema | crema_sparse
deriving DecidableEq

/-- the methods (graph_classes.py:961-965) -/
inductive Method
  | newton | quasinewton | fixed_point
deriving DecidableEq

/-- the three names of the methods -/
def Method.name : Method → String
  | .newton => "newton"
  | .quasinewton => "quasinewton"
  | .fixed_point => "fixed-point"

/-- the six names of the models -/
def UModel.name : UModel → String
  | .cm => "cm"
  | .cm_exp => "cm_exp"
  | .ecm => "ecm"
  | .ecm_exp => "ecm_exp"
  | .crema => "crema"
  | .crema_sparse => "crema-sparse"

/-- graph_classes.py:599-725: the keys of the dictionaries `d_fun`, `d_fun_jac` and `d_fun_stop` (the same eighteen keys; `lins_fun` has them too) -/
def uKeys : List (String × UModel × Method) :=
  [("cm-newton", .cm, .newton), ("cm-quasinewton", .cm, .quasinewton), ("cm-fixed-point", .cm, .fixed_point),
   ("crema-newton", .crema, .newton), ("crema-quasinewton", .crema, .quasinewton), ("crema-fixed-point", .crema, .fixed_point),
   ("ecm-newton", .ecm, .newton), ("ecm-quasinewton", .ecm, .quasinewton), ("ecm-fixed-point", .ecm, .fixed_point),
   ("crema-sparse-newton", .crema_sparse, .newton), ("crema-sparse-quasinewton", .crema_sparse, .quasinewton),
   ("crema-sparse-fixed-point", .crema_sparse, .fixed_point),
   ("cm_exp-newton", .cm_exp, .newton), ("cm_exp-quasinewton", .cm_exp, .quasinewton), ("cm_exp-fixed-point", .cm_exp, .fixed_point),
   ("ecm_exp-newton", .ecm_exp, .newton), ("ecm_exp-quasinewton", .ecm_exp, .quasinewton), ("ecm_exp-fixed-point", .ecm_exp, .fixed_point)]

/-- graph_classes.py:596-597 and 726-733: `mod_met = "-".join([model, method])` and the three dictionary lookups; `none` is the `KeyError` -/
def uLookup (model method : String) : Option (UModel × Method) := uKeys.lookup (model ++ "-" ++ method)

variable {n : ℕ}

namespace UData

/-- number of degree classes, `self.rnz_n` -/
def r (d : UData n) : ℕ := rnz_n d.dseq

/-- `self.r_dseq` as floats -/
def k (d : UData n) : Fin d.r → ℝ := fun q => ((r_dseq d.dseq q : ℕ) : ℝ)

/-- `self.r_multiplicity` -/
def c (d : UData n) : Fin d.r → ℝ := fun q => ((r_multiplicity d.dseq q : ℕ) : ℝ)

/-- `self.r_invert_dseq` -/
def inv (d : UData n) : Fin n → Fin d.r := r_invert_dseq d.dseq

/-- the class of `q` is not empty -/
theorem exists_class (d : UData n) (q : Fin d.r) : ∃ i, d.dseq i = r_dseq d.dseq q := by
  have := (values d.dseq).orderEmbOfFin_mem rfl q
  obtain ⟨i, -, hi⟩ := Finset.mem_image.1 this
  exact ⟨i, hi⟩

/-- `self.r_index_dseq` (`return_index=True`): the first node of each class -/
def index (d : UData n) (q : Fin d.r) : Fin n :=
  (univ.filter fun i => d.dseq i = r_dseq d.dseq q).min' (by
    obtain ⟨i, hi⟩ := d.exists_class q
    exact ⟨i, by simp [hi]⟩)

/-- the degree sequence as floats -/
def deg (d : UData n) : Fin n → ℝ := fun i => (d.dseq i : ℝ)

/-- `self.n_edges` -/
def n_edges (d : UData n) : ℝ := (∑ i, d.deg i) / 2

end UData

/-- `v[mask] = value` -/
def maskSet {ι : Type} (v : ι → ℝ) (mask : ι → Prop) (value : ℝ) : ι → ℝ := fun i => if mask i then value else v i

/-- `v[v != 0] = -np.log(v[v != 0])` -/
def negLogNonzero {ι : Type} (v : ι → ℝ) : ι → ℝ := fun i => if v i ≠ 0 then -Real.log (v i) else v i

/-- graph_classes.py:400-416: the named initial guesses of the binary models -/
def namedCM (e : Env) (d : UData n) (s : String) : Option (Fin d.r → ℝ) :=
  if s = "degrees_minor" then some fun q => d.k q / (Real.sqrt d.n_edges + 1)
  else if s = "random" then some fun q => e.rand 0 q
  else if s = "uniform" then some fun _ => 0.5
  else if s = "degrees" then some d.k
  else if s = "chung_lu" then some fun q => d.k q / (2 * d.n_edges)
  else none

/-- graph_classes.py:392-432 `_set_initial_guess_cm`: the starting point `x0`.  `isExp` is `self.last_model == "cm_exp"`. -/
def guessCM (e : Env) (d : UData n) (isExp : Bool) : Guess n → Except Graph.Exc (Fin d.r → ℝ)
  | .other => .error .typeError
  | .name s =>
    match namedCM e d s with
    | none => .error .valueError
    | some v =>
      let v := maskSet v (fun q => d.k q = 0) 0
      .ok (if isExp then negLogNonzero v else v)
  | .nodes v => .ok (maskSet (fun q => v (d.index q)) (fun q => d.k q = 0) 0)
  | .pairs v => .ok (maskSet (fun q => v (0, d.index q)) (fun q => d.k q = 0) 0)

/-- graph_classes.py:439-449: the named initial guesses of CReMa -/
def namedCrema (e : Env) (d : UData n) (s : String) : Option (Fin n → ℝ) :=
  let st := d.strength_sequence
  if s = "strengths" then some fun i => (if st i > 0 then 1 else 0) / ∑ j, st j
  else if s = "strengths_minor" then some fun i => (if st i > 0 then 1 else 0) / (st i + 1)
  else if s = "random" then some fun i => e.rand 0 i
  else none

/-- graph_classes.py:434-460 `_set_initial_guess_crema_undirected`: the new `beta`, which is also `x0`.  An array is not copied, the caller sees the masking:
second component, the caller's array afterwards. -/
def guessCrema (e : Env) (d : UData n) : Guess n → Except Graph.Exc (Fin n → ℝ) × Guess n
  | .other => (.error .typeError, .other)
  | .name s =>
    match namedCrema e d s with
    | none => (.error .valueError, .name s)
    | some v => (.ok (maskSet v (fun i => d.strength_sequence i = 0) 0), .name s)
  | .nodes v =>
    let v := maskSet v (fun i => d.strength_sequence i = 0) 0
    (.ok v, .nodes v)
  | .pairs v => (.error .indexError, .pairs v)      -- boolean index of the wrong length

/-- graph_classes.py:468-490: the named initial guesses of the UECM -/
def namedECM (e : Env) (d : UData n) (s : String) : Option ((Fin n → ℝ) × (Fin n → ℝ)) :=
  let st := d.strength_sequence
  if s = "strengths" then some (fun i => d.deg i / (d.n_edges + 1), fun i => st i / ∑ j, st j)
  else if s = "strengths_minor" then some (fun i => 1 / (d.deg i + 1), fun i => 1 / (st i + 1))
  else if s = "random" then some (fun i => e.rand 0 i, fun i => e.rand 1 i)
  else if s = "uniform" then some (fun _ => 0.001, fun _ => 0.001)
  else none

/-- `np.concatenate((x, y))` -/
def cat2 (x y : Fin n → ℝ) : Fin 2 × Fin n → ℝ := fun v => if v.1 = 0 then x v.2 else y v.2

/-- graph_classes.py:462-509 `_set_initial_guess_ecm`: the new attributes `x` and `y` (`x0` is their concatenation) and the caller's array afterwards (the
slices are views of it).  The logarithms are taken for named guesses only. -/
def guessECM (e : Env) (d : UData n) (isExp : Bool) : Guess n → Except Graph.Exc ((Fin n → ℝ) × (Fin n → ℝ)) × Guess n
  | .other => (.error .typeError, .other)
  | .name s =>
    match namedECM e d s with
    | none => (.error .valueError, .name s)
    | some (x, y) =>
      let x := maskSet x (fun i => d.deg i = 0) 0
      let y := maskSet y (fun i => d.strength_sequence i = 0) 0
      (.ok (if isExp then (negLogNonzero x, negLogNonzero y) else (x, y)), .name s)
  | .nodes v => (.error .indexError, .nodes (maskSet v (fun i => d.deg i = 0) 0))      -- `self.y` is empty
  | .pairs v =>
    let x := maskSet (fun i => v (0, i)) (fun i => d.deg i = 0) 0
    let y := maskSet (fun i => v (1, i)) (fun i => d.strength_sequence i = 0) 0
    (.ok (x, y), .pairs (cat2 x y))

/-- a log-likelihood as the line searches see it -/
def llF (e : Env) {ι : Type} (dom : (ι → ℝ) → Prop) (L : (ι → ℝ) → ℝ) : (ι → ℝ) → Option ℝ :=
  fun x => if dom x then some (L x) else e.outside ι x

/-- all positions of an array of length `m * n`, in order -/
def blocks (m n : ℕ) : List (Fin m × Fin n) := (List.finRange m).flatMap fun b => (List.finRange n).map fun i => (b, i)

/-- graph_classes.py:776-785: `matrix_regulariser_function_eigen_based` on a matrix -/
def eigenRegulariser (e : Env) {ι : Type} [Fintype ι] [DecidableEq ι] (b : Matrix ι ι ℝ) (eps : ℝ) : Matrix ι ι ℝ :=
  let t := e.eigh ι ((0.5 : ℝ) • (b + b.transpose))
  matrix_regulariser_function_eigen_based t.1 t.2 eps

/-- `lambda x: -f(x)` on matrices -/
def negM {ι : Type} (f : ι → ι → ℝ) : Matrix ι ι ℝ := fun i j => -f i j

section tables

/-- graph_classes.py:599-786, the entries of `cm`: functions handed to `solver`.  `fun_jac` is one function per method (a matrix for "newton", a vector for
"quasinewton", `None` for "fixed-point"), and so is the line search. -/
def cbCM (e : Env) (d : UData n) (m : Method) : Callbacks (Fin d.r) where
  fn := match m with
    | .newton | .quasinewton => fun x q => -CM.loglikelihood_prime_cm x d.k d.c q
    | .fixed_point => fun x => CM.iterative_cm x d.k d.c
  jac := fun x => negM (CM.loglikelihood_hessian_cm x d.k d.c)
  jacDiag := fun x q => -CM.loglikelihood_hessian_diag_cm x d.k d.c q
  hessian_regulariser := eigenRegulariser e
  linsearch := fun x dx beta alfa f =>
    some (linsearch_fun_CM (List.finRange d.r) x dx beta alfa f (llF e (fun x => ∀ q, 0 < x q) fun x => CM.loglikelihood_cm x d.k d.c))
  linsearchFixed := fun x dx dx_old alfa beta step => some (linsearch_fun_CM_fixed (List.finRange d.r) x dx dx_old alfa beta step)

/-- graph_classes.py:599-786, the entries of `cm_exp` -/
def cbCMexp (e : Env) (d : UData n) (m : Method) : Callbacks (Fin d.r) where
  fn := match m with
    | .newton | .quasinewton => fun x q => -CM.loglikelihood_prime_cm_exp x d.k d.c q
    | .fixed_point => fun x => CM.iterative_cm_exp x d.k d.c
  jac := fun x => negM (CM.loglikelihood_hessian_cm_exp x d.k d.c)
  jacDiag := fun x q => -CM.loglikelihood_hessian_diag_cm_exp x d.k d.c q
  hessian_regulariser := matrix_regulariser_function
  linsearch := fun x dx beta alfa f =>
    some (linsearch_fun_CM_exp x dx beta alfa f (llF e (fun _ => True) fun x => CM.loglikelihood_cm_exp x d.k d.c))
  linsearchFixed := fun _ dx dx_old alfa beta step => some (linsearch_fun_CM_exp_fixed dx dx_old alfa beta step)

/-- graph_classes.py:599-786, the entries of `ecm` -/
def cbECM (e : Env) (d : UData n) (m : Method) : Callbacks (Fin 2 × Fin n) where
  fn := match m with
    | .newton | .quasinewton => fun x v => -ECM.loglikelihood_prime_ecm x d.deg d.strength_sequence v
    | .fixed_point => fun x => ECM.iterative_ecm x d.deg d.strength_sequence
  jac := fun x => negM (ECM.loglikelihood_hessian_ecm x d.deg d.strength_sequence)
  jacDiag := fun x v => -ECM.loglikelihood_hessian_diag_ecm x d.deg d.strength_sequence v
  hessian_regulariser := eigenRegulariser e
  linsearch := fun x dx beta alfa f =>
    linsearch_fun_ECM (blocks 2 n) x dx beta alfa f
      (llF e (fun x => (∀ v, 0 < x v) ∧ ∀ i j : Fin n, i ≠ j → x (1, i) * x (1, j) < 1)
        fun x => ECM.loglikelihood_ecm x d.deg d.strength_sequence)
  linsearchFixed := fun x dx dx_old alfa beta step => linsearch_fun_ECM_fixed (blocks 2 n) x dx dx_old alfa beta step

/-- graph_classes.py:599-786, the entries of `ecm_exp` -/
def cbECMexp (e : Env) (d : UData n) (m : Method) : Callbacks (Fin 2 × Fin n) where
  fn := match m with
    | .newton | .quasinewton => fun x v => -ECM.loglikelihood_prime_ecm_exp x d.deg d.strength_sequence v
    | .fixed_point => fun x => ECM.iterative_ecm_exp x d.deg d.strength_sequence
  jac := fun x => negM (ECM.loglikelihood_hessian_ecm_exp x d.deg)
  jacDiag := fun x v => -ECM.loglikelihood_hessian_diag_ecm_exp x d.deg v
  hessian_regulariser := matrix_regulariser_function
  linsearch := fun x dx beta alfa f =>
    linsearch_fun_ECM_exp x dx beta alfa f
      (llF e (fun x => ∀ i j : Fin n, i ≠ j → 0 < x (1, i) + x (1, j)) fun x => ECM.loglikelihood_ecm_exp x d.deg d.strength_sequence)
  linsearchFixed := fun x dx dx_old alfa beta step => linsearch_fun_ECM_exp_fixed x dx dx_old alfa beta step

/-- graph_classes.py:599-786, the entries of `crema` (`adj` is the tuple of triples) -/
def cbCrema (e : Env) (d : UData n) (adj : Edges n) (m : Method) : Callbacks (Fin n) where
  fn := match m with
    | .newton | .quasinewton => fun x i => -CReMa.loglikelihood_prime_crema_undirected x d.strength_sequence adj i
    | .fixed_point => fun x i => -CReMa.iterative_crema_undirected x d.strength_sequence adj i
  jac := fun x => negM (CReMa.loglikelihood_hessian_crema_undirected x adj)
  jacDiag := fun x i => -CReMa.loglikelihood_hessian_diag_crema_undirected x adj i
  hessian_regulariser := matrix_regulariser_function
  linsearch := fun x dx beta alfa f =>
    some (linsearch_fun_crema_undirected x dx beta alfa f
      (llF e (fun x => ∀ t ∈ adj, 0 < x t.1 + x t.2.1) fun x => CReMa.loglikelihood_crema_undirected x d.strength_sequence adj))
  linsearchFixed := fun _ dx dx_old alfa beta step => some (linsearch_fun_crema_undirected_fixed dx dx_old alfa beta step)

/-- graph_classes.py:599-786, the entries of `crema-sparse` (`x` is `adjacency_crema[0]`).  The dense Hessian asked for by "newton" cannot be evaluated on the
1-tuple `adjacency_crema`; see `solveCremaTail`. -/
def cbCremaSparse (e : Env) (d : UData n) (x : Fin n → ℝ) (m : Method) : Callbacks (Fin n) where
  fn := match m with
    | .newton | .quasinewton => fun b i => -CReMa.loglikelihood_prime_crema_undirected_sparse (e.sched n) b d.strength_sequence x i
    | .fixed_point => fun b i => -CReMa.iterative_crema_undirected_sparse (e.sched n) b d.strength_sequence x i
  jac := fun _ => 0
  jacDiag := fun b i => -CReMa.loglikelihood_hessian_diag_crema_undirected_sparse (e.sched n) b x i
  hessian_regulariser := matrix_regulariser_function
  linsearch := fun b dx beta alfa f =>
    some (linsearch_fun_crema_undirected b dx beta alfa f
      (llF e (fun b => ∀ i j : Fin n, i ≠ j → 0 < b i + b j) fun b => CReMa.loglikelihood_crema_undirected_sparse b d.strength_sequence x))
  linsearchFixed := fun _ dx dx_old alfa beta step => some (linsearch_fun_crema_undirected_fixed dx dx_old alfa beta step)

end tables

/-- what the sparse functions read as `adj[0]`: the fitness vector, or (for triples) the row indices, out of bounds beyond the last triple (only the
log-likelihood is evaluated on triples whose number is not `n`: see `solveCremaTail`) -/
def CremaAdj.asFitness (e : Env) : CremaAdj n → Fin n → ℝ
  | .fitness x => x
  | .edges l => fun i => match l[i.val]? with
    | some t => (t.1.val : ℝ)
    | none => e.junk i

/-- graph_classes.py:599-786, the entries of `crema-sparse` when `adjacency_crema` holds triples (a matrix given by the user): the sparse functions read the
row indices as fitnesses, while the dense Hessian asked for by "newton" (graph_classes.py:658-660) finds the triples it expects -/
def cbCremaSparseOn (e : Env) (d : UData n) (l : Edges n) (m : Method) : Callbacks (Fin n) :=
  { cbCremaSparse e d ((CremaAdj.edges l).asFitness e) m with jac := fun x => negM (CReMa.loglikelihood_hessian_crema_undirected x l) }

/-- the attribute `solution_array` -/
inductive USol (d : UData n)
  | reduced (v : Fin d.r → ℝ)
  | nodes (v : Fin n → ℝ)
  | pairs (v : Fin 2 × Fin n → ℝ)

/-- the attributes `n_steps`, `norm_seq`, `diff_seq`, `alfa_seq` set with `full_return=True` -/
structure Trace where
  n_steps : ℕ
  norm_seq : List ℝ
  diff_seq : List ℝ
  alfa_seq : List ℝ

/-- the trace of a run -/
def Trace.of {ι : Type} (s : State ι) : Trace := ⟨s.n_steps, s.norm_seq, s.diff_seq, s.alfa_seq⟩

/-- the attribute `args` -/
inductive UArgs (n : ℕ)
  | cm
  | ecm
  | crema (adj : CremaAdj n)

/-- the attributes of an `UndirectedGraph` that solving assigns (graph_classes.py:59-95).  `adjacency_crema`, `adjacency_given`, `y`, `step_fun`,
`fun_pmatrix`, `expected_dseq`, `expected_strength_seq` and `expected_stregth_seq` (so spelled, line 533) do not exist before they are first assigned (`none`, `false`). -/
structure UAttr (d : UData n) where
  last_model : Option String := none
  full_return : Bool := false
  x : Option (Fin n → ℝ) := none
  y : Option (Fin n → ℝ) := none
  beta : Option (Fin n → ℝ) := none
  solution_array : Option (USol d) := none
  trace : Option Trace := none
  trace_crema : Option Trace := none
  is_sparse : Bool := false
  adjacency_crema : Option (CremaAdj n) := none
  adjacency_given : Option Bool := none
  fun_pmatrix : Bool := false
  args : Option (UArgs n) := none
  step_fun : Option UModel := none
  expected_dseq : Option (Fin n → ℝ) := none
  expected_strength_seq : Option (Fin n → ℝ) := none
  expected_stregth_seq : Option (Fin n → ℝ) := none
  relative_error_degree : Option ℝ := none
  relative_error_strength : Option ℝ := none
  error : Option ℝ := none
  error_degree : Option ℝ := none
  error_strength : Option ℝ := none

/-- the keyword arguments of `solve_tool` shared by the two problems of CReMa (graph_classes.py:940-944) -/
structure Params where
  max_steps : ℕ := 100
  full_return : Bool := false
  linsearch : Bool := true
  tol : ℝ := 1e-8
  eps : ℝ := 1e-8

/-- the options of `solver` built by `_solve_problem`: `regularise=True`, `regularise_eps=1e-3` (graph_classes.py:311-336, solver_functions.py:84) -/
def Params.opts (p : Params) (method : String) : Opts where
  tol := p.tol
  eps := p.eps
  max_steps := p.max_steps
  method := method
  regularise := true
  regularise_eps := 1e-3
  linsearch := p.linsearch

/-- result of a call: attributes, exception, the caller's arrays `initial_guess` and `initial_guess_adjacency` afterwards -/
structure UResult (d : UData n) where
  g : UAttr d
  exc : Option SExc
  guess : Guess n
  guessAdj : Guess n

section solving

variable {d : UData n} [NeZero n]

theorem UData.r_pos (d : UData n) [NeZero n] : 0 < d.r := by
  unfold UData.r rnz_n values
  exact Finset.card_pos.2 ⟨d.dseq 0, by simp⟩

instance (d : UData n) : Nonempty (Fin d.r) := ⟨⟨0, d.r_pos⟩⟩

/-- graph_classes.py:340-355 `_set_solved_problem_cm` -/
def setSolvedCM (g : UAttr d) (isExp : Bool) (s : State (Fin d.r)) : UAttr d :=
  { g with
    trace := if g.full_return then some (.of s) else g.trace
    solution_array := some (.reduced s.x)
    x := some (if isExp then fun i => Real.exp (-s.x (d.inv i)) else fun i => s.x (d.inv i)) }

/-- graph_classes.py:914-930 `_set_solved_problem_ecm` -/
def setSolvedECM (g : UAttr d) (isExp : Bool) (s : State (Fin 2 × Fin n)) : UAttr d :=
  { g with
    trace := if g.full_return then some (.of s) else g.trace
    solution_array := some (.pairs s.x)
    x := some (if isExp then fun i => Real.exp (-s.x (0, i)) else fun i => s.x (0, i))
    y := some (if isExp then fun i => Real.exp (-s.x (1, i)) else fun i => s.x (1, i)) }

/-- graph_classes.py:901-912 `_set_solved_problem_crema_undirected` -/
def setSolvedCrema (g : UAttr d) (s : State (Fin n)) : UAttr d :=
  { g with
    trace_crema := if g.full_return then some (.of s) else g.trace_crema
    beta := some s.x
    solution_array := some (.nodes s.x) }

/-- graph_classes.py:301-338 `_solve_problem` with `_initialize_problem` (590-786) for the models without CReMa (`model` is `self.last_model` afterwards; any
other string falls through the guesses and the arguments and fails in the dictionaries; the two CReMa names can come here as the binary model of a CReMa problem,
`solve_tool(..., adjacency="crema")`, which is left out: `.py .other`).  The order of the effects is that of the code. -/
def solveProblem (e : Env) (g : UAttr d) (model method : String) (guess : Guess n) (p : Params) : UAttr d × Option SExc × Guess n :=
  let g := { g with last_model := some model, full_return := p.full_return }
  if model = "cm" ∨ model = "cm_exp" then
    match guessCM e d (model = "cm_exp") guess with
    | .error x => (g, some (.py x), guess)
    | .ok x0 =>
      let g := { g with args := some .cm }
      match uLookup model method with
      | none => (g, some (.py .valueError), guess)
      | some (mo, me) =>
        let g := { g with step_fun := some mo, fun_pmatrix := true }
        match solver (if model = "cm_exp" then cbCMexp e d me else cbCM e d me) (p.opts method) x0 with
        | .error x => (g, some (.numeric x), guess)
        | .ok s => (setSolvedCM g (model = "cm_exp") s, none, guess)
  else if model = "ecm" ∨ model = "ecm_exp" then
    match guessECM e d (model = "ecm_exp") guess with
    | (.error x, guess) => (g, some (.py x), guess)
    | (.ok (x, y), guess) =>
      let g := { g with x := some x, y := some y, args := some .ecm }
      match uLookup model method with
      | none => (g, some (.py .valueError), guess)
      | some (mo, me) =>
        let g := { g with step_fun := some mo }
        match solver (if model = "ecm_exp" then cbECMexp e d me else cbECM e d me) (p.opts method) (cat2 x y) with
        | .error x => (g, some (.numeric x), guess)
        | .ok s => (setSolvedECM g (model = "ecm_exp") s, none, guess)
  else if model = "crema" ∨ model = "crema-sparse" then (g, some (.py .other), guess)
  else (g, some (.py .valueError), guess)

/-- graph_classes.py:866-899, the second half of `_solve_problem_crema_undirected`, with `adjacency_crema = adj`: `last_model`, initial guess, dictionaries,
solver.  Dense functions on the 1-tuple raise an exception (typing error of numba); the Hessian asked for by "crema-sparse-newton" is the dense one, so that
on the 1-tuple the first step raises.  On triples the sparse functions combine the row indices with the vector of rates, which raises an exception (shapes
do not match) unless there are `n` triples.  Simplified: with a single triple and `n ≠ 1` the shapes do match, and the code reads out of bounds; the model raises. -/
def solveCremaTail (e : Env) (g : UAttr d) (adj : CremaAdj n) (model method : String) (guess : Guess n) (p : Params) : UAttr d × Option SExc × Guess n :=
  let model := if g.is_sparse then "crema-sparse" else model
  let g := { g with last_model := some model, full_return := p.full_return }
  match guessCrema e d guess with
  | (.error x, guess) => (g, some (.py x), guess)
  | (.ok b, guess) =>
    let g := { g with beta := some b, args := some (.crema adj) }
    match uLookup model method with
    | none => (g, some (.py .valueError), guess)
    | some (mo, me) =>
      let g := { g with step_fun := some mo }
      match mo, adj with
      | .crema, .edges l =>
        match solver (cbCrema e d l me) (p.opts method) b with
        | .error x => (g, some (.numeric x), guess)
        | .ok s => (setSolvedCrema g s, none, guess)
      | .crema_sparse, .edges l =>
        if l.length = n then
          match solver (cbCremaSparseOn e d l me) (p.opts method) b with
          | .error x => (g, some (.numeric x), guess)
          | .ok s => (setSolvedCrema g s, none, guess)
        else (g, some (.py .other), guess)
      | .crema_sparse, .fitness x =>
        match solver (cbCremaSparse e d x me) (p.opts method) b with
        | .error x => (g, some (if method = "newton" then .py .other else .numeric x), guess)
        | .ok s => if method = "newton" ∧ s.n_steps ≠ 0 then (g, some (.py .other), guess) else (setSolvedCrema g s, none, guess)
      | _, _ => (g, some (.py .other), guess)

/-- graph_classes.py:789-899 `_solve_problem_crema_undirected` -/
def solveProblemCrema (e : Env) (g : UAttr d) (model method : String) (guess : Guess n) (adjacency : AdjSpec n) (method_adjacency : String)
    (guess_adjacency : Guess n) (p : Params) : UResult d :=
  let g := { g with is_sparse := decide (model = "crema-sparse") }
  match adjacency with
  | .other => ⟨g, some (.py .valueError), guess, guess_adjacency⟩
  | .name a =>
    match solveProblem e.inner g a method_adjacency guess_adjacency p with
    | (g, some x, guess_adjacency) => ⟨g, some x, guess, guess_adjacency⟩
    | (g, none, guess_adjacency) =>
      match g.x with
      | none => ⟨g, some (.py .other), guess, guess_adjacency⟩      -- not reachable: the binary problem has set `x`
      | some x =>
        if g.is_sparse then
          let g := { g with adjacency_crema := some (.fitness x), adjacency_given := some false }
          let r := solveCremaTail e g (.fitness x) model method guess p
          ⟨r.1, r.2.1, r.2.2, guess_adjacency⟩
        else if g.fun_pmatrix then
          let adj : CremaAdj n := .edges (triuEdges (CM.pmatrix_cm x))
          let g := { g with adjacency_crema := some adj, is_sparse := false, adjacency_given := some false }
          let r := solveCremaTail e g adj model method guess p
          ⟨r.1, r.2.1, r.2.2, guess_adjacency⟩
        else ⟨g, some (.py .attributeError), guess, guess_adjacency⟩
  | .matrix a =>
    let adj : CremaAdj n := .edges (triuEdges a)
    let g := { g with adjacency_crema := some adj, is_sparse := false, adjacency_given := some true }
    let r := solveCremaTail e g adj model method guess p
    ⟨r.1, r.2.1, r.2.2, guess_adjacency⟩

/-- graph_classes.py:515-523: the degrees -/
def degreeError (g : UAttr d) : UAttr d :=
  match g.x with
  | none => g
  | some x =>
    let ex_k := CM.expected_degree_cm x
    let err := maxAbs (fun i => ex_k i - d.deg i)
    { g with expected_dseq := some ex_k, error_degree := some err, relative_error_degree := some (maxAbs fun i => (ex_k i - d.deg i) / (d.deg i + Real.exp (-100))), error := some err }

/-- graph_classes.py:525-547: the strengths -/
def strengthError (e : Env) (g : UAttr d) : UAttr d × Option SExc :=
  match g.beta with
  | none => (g, none)
  | some b =>
    match g.adjacency_crema with
    | none => (g, some (.py .attributeError))
    | some adj =>
      let go (ex_s : Fin n → ℝ) : UAttr d × Option SExc :=
        let err := maxAbs (fun i => ex_s i - d.strength_sequence i)
        let g := { g with expected_stregth_seq := some ex_s, error_strength := some err,
                          relative_error_strength := some (maxAbs fun i => (ex_s i - d.strength_sequence i) / (d.strength_sequence i + Real.exp (-100))) }
        match g.adjacency_given with
        | none => (g, some (.py .attributeError))
        | some true => ({ g with error := some err }, none)
        | some false =>
          match g.error_degree with
          | none => (g, some (.py .typeError))
          | some ed => ({ g with error := some (max err ed) }, none)
      if g.is_sparse then go (CReMa.expected_strength_crema_undirected_sparse b (adj.asFitness e))
      else match adj with
        | .edges l => go (CReMa.expected_strength_crema_undirected b l)
        | .fitness _ => (g, some (.py .other))

/-- graph_classes.py:512-575 `_solution_error`.  The relative errors of ecm divide by the degrees (strengths): quotients of real numbers here, inf or nan in numpy at zero. -/
def solutionError (e : Env) (g : UAttr d) : UAttr d × Option SExc :=
  if g.last_model = some "cm" ∨ g.last_model = some "cm_exp" ∨ g.last_model = some "crema" ∨ g.last_model = some "crema-sparse" then
    strengthError e (degreeError g)
  else if g.last_model = some "ecm" ∨ g.last_model = some "ecm_exp" then
    match g.x, g.y with
    | some x, some y =>
      let ex := ECM.expected_ecm (cat2 x y)
      let ed := maxAbs (fun i => ex (0, i) - d.deg i)
      let es := maxAbs (fun i => ex (1, i) - d.strength_sequence i)
      ({ g with expected_dseq := some fun i => ex (0, i), expected_strength_seq := some fun i => ex (1, i), error_degree := some ed, error_strength := some es,
                relative_error_strength := some (maxAbs fun i => (d.strength_sequence i - ex (1, i)) / d.strength_sequence i),
                relative_error_degree := some (maxAbs fun i => (d.deg i - ex (0, i)) / d.deg i), error := some (max es ed) }, none)
    | _, _ => (g, some (.py .other))
  else (g, none)

/-- graph_classes.py:932-1031 `solve_tool` -/
def solve_tool (e : Env) (g : UAttr d) (model : String) (method : String := "newton") (initial_guess : Guess n := .name "random")
    (adjacency : AdjSpec n := .name "cm_exp") (method_adjacency : String := "newton") (initial_guess_adjacency : Guess n := .name "random")
    (p : Params := {}) : UResult d :=
  let r : UResult d :=
    if model = "cm" ∨ model = "cm_exp" ∨ model = "ecm" ∨ model = "ecm_exp" then
      let r := solveProblem e g model method initial_guess p
      ⟨r.1, r.2.1, r.2.2, initial_guess_adjacency⟩
    else if model = "crema" ∨ model = "crema-sparse" then
      solveProblemCrema e g model method initial_guess adjacency method_adjacency initial_guess_adjacency p
    else ⟨g, none, initial_guess, initial_guess_adjacency⟩
  match r.exc with
  | some _ => r
  | none =>
    let t := solutionError e r.g
    { r with g := t.1, exc := t.2 }

/-- graph_classes.py:1131-1134 `model_loglikelihood`: `self.step_fun(self.solution_array)`, where `step_fun` is minus the log-likelihood of the model it was
built for, evaluated with the current `self.args` -/
def model_loglikelihood (e : Env) (g : UAttr d) : Except Graph.Exc ℝ :=
  match g.step_fun, g.args, g.solution_array with
  | none, _, _ => .error .attributeError
  | some .cm, some .cm, some (.reduced v) => .ok (-CM.loglikelihood_cm v d.k d.c)
  | some .cm_exp, some .cm, some (.reduced v) => .ok (-CM.loglikelihood_cm_exp v d.k d.c)
  | some .ecm, some .ecm, some (.pairs v) => .ok (-ECM.loglikelihood_ecm v d.deg d.strength_sequence)
  | some .ecm_exp, some .ecm, some (.pairs v) => .ok (-ECM.loglikelihood_ecm_exp v d.deg d.strength_sequence)
  | some .crema, some (.crema (.edges l)), some (.nodes v) => .ok (-CReMa.loglikelihood_crema_undirected v d.strength_sequence l)
  | some .crema_sparse, some (.crema adj), some (.nodes v) =>
    .ok (-CReMa.loglikelihood_crema_undirected_sparse v d.strength_sequence (adj.asFitness e))
  | _, _, _ => .error .other

end solving

end

end Verif.Solve
