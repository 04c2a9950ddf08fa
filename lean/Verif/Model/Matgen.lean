import Verif.Base
import Mathlib.Algebra.Order.Floor.Ring
import Mathlib.Data.Real.Archimedean
import Mathlib.Data.List.MinMax
import Mathlib.Logic.Relation

/-!
`matrix_generator.py`: the random matrix generators.

The generators draw from numpy's global generator, so they are functions of its state.  The repair loops (`while ...`) may run any number of times and may not
end: every generator has a bound `fuel` on the number of iterations of each repair loop; `none` means that the bound was not enough.  "The call returns `A`" is
"for some `fuel` the result is `some A`", "the call hangs" is "the result is `none` for every `fuel`".

Simplifications: entries are real numbers (also those of integer arrays); matrices are `n × n` for `n` the number of nodes; the generators of networkx and
powerlaw are parameters (`Nx`, `plw`).
-/

namespace Verif.Matgen

open Verif Finset

noncomputable section

open Classical in
attribute [local instance 0] propDecidable

/-- numpy's global random generator.  Only the ranges documented by numpy are assumed. -/
structure NpRandom where
  S : Type
  /-- `np.random.seed(seed)`: a number determines the state, `None` takes fresh entropy (a state that may depend on anything) -/
  seed : Option ℕ → S → S
  /-- `np.random.random()` -/
  random : S → ℝ × S
  /-- `np.random.randint(k)`, `np.random.randint(0, k)` for `k > 0` -/
  randint : ℕ → S → ℕ × S
  /-- `np.random.normal(loc=mean, scale=sigma)` -/
  normal : ℝ → ℝ → S → ℝ × S
  seed_some : ∀ k s t, seed (some k) s = seed (some k) t
  random_nonneg : ∀ s, 0 ≤ (random s).1
  random_lt : ∀ s, (random s).1 < 1
  randint_lt : ∀ k s, 0 < k → (randint k s).1 < k

variable (R : NpRandom) {n : ℕ}

/-- a matrix under construction and the state of the random generator -/
abbrev St (n : ℕ) := (Fin n → Fin n → ℝ) × R.S

/-- `while cond: body`, at most `fuel` iterations; `none` if that is not enough -/
def whileF {σ : Type} (cond : σ → Prop) (body : σ → σ) : ℕ → σ → Option σ
  | 0, s => if cond s then none else some s
  | f + 1, s => if cond s then whileF cond body f (body s) else some s

/-- `for e in l: body` when the body contains a loop that may not end -/
def forO {σ α : Type} (body : α → σ → Option σ) : List α → σ → Option σ
  | [], s => some s
  | a :: l, s => (body a s).bind (forO body l)

/-- `np.sum(A[:, j])` -/
def colSum (A : Fin n → Fin n → ℝ) (j : Fin n) : ℝ := ∑ i, A i j

/-- `np.sum(A[i, :])` -/
def rowSum (A : Fin n → Fin n → ℝ) (i : Fin n) : ℝ := ∑ j, A i j

/-- `np.fill_diagonal(A, 0)` -/
def fill_diagonal (A : Fin n → Fin n → ℝ) : Fin n → Fin n → ℝ := fun i j => if i = j then 0 else A i j

/-- `x.astype(int)`: truncation towards zero -/
def truncInt (x : ℝ) : ℝ := if 0 ≤ x then (⌊x⌋ : ℝ) else (⌈x⌉ : ℝ)

/-- `np.ceil(A)` -/
def ceilM (A : Fin n → Fin n → ℝ) : Fin n → Fin n → ℝ := fun i j => (⌈A i j⌉ : ℝ)

/-- `np.random.randint(A.shape[0])` inside the loop over the node `ind`: an index of the matrix -/
def drawNode (ind : Fin n) (g : R.S) : Fin n × R.S :=
  let t := R.randint n g
  (⟨t.1, R.randint_lt n g (Nat.lt_of_le_of_lt (Nat.zero_le _) ind.isLt)⟩, t.2)

/-- a random array of shape `(n, n)`, drawn row by row -/
def fillRandom (draw : R.S → ℝ × R.S) (g : R.S) : St R n :=
  forR n (fun i s => forR n (fun j s => let t := draw s.2; (setAt2 s.1 i j t.1, t.2)) s) (fun _ _ => 0, g)

/-- `np.random.randint(0, 2)` as a float -/
def bit (g : R.S) : ℝ × R.S :=
  let t := R.randint 2 g
  ((t.1 : ℝ), t.2)

/-- `np.random.random() * sup_ext` -/
def uniform (sup_ext : ℝ) (g : R.S) : ℝ × R.S :=
  let t := R.random g
  (t.1 * sup_ext, t.2)

/-- the constant 1, no draw -/
def one (g : R.S) : ℝ × R.S := (1, g)

/-- the two nested loops `for i in range(n): for j in range(n): if np.random.random() <= p: A[i, j] = weight` (lines 74-77, 199-202, 272-275) -/
def fillDensity (p : ℝ) (weight : R.S → ℝ × R.S) (g : R.S) : St R n :=
  forR n (fun i s => forR n (fun j s =>
    let u := R.random s.2
    if u.1 ≤ p then
      let t := weight u.2
      (setAt2 s.1 i j t.1, t.2)
    else (s.1, u.2)) s) (fun _ _ => 0, g)

/-- `for i in range(n): for j in range(i + 1, n): if np.random.random() <= p: A[i, j] = weight; A[j, i] = A[i, j]` (lines 94-98, 226-230, 299-303) -/
def fillDensitySym (p : ℝ) (weight : R.S → ℝ × R.S) (g : R.S) : St R n :=
  forR n (fun i s => forL ((List.finRange n).filter fun j => i < j) (fun j s =>
    let u := R.random s.2
    if u.1 ≤ p then
      let t := weight u.2
      let A := setAt2 s.1 i j t.1
      (copyAt2 A j i i j, t.2)
    else (s.1, u.2)) s) (fun _ _ => 0, g)

/-- one iteration of the repair loop of the directed generators (lines 29-35, 83-89, 139-149, 208-218, 281-291): with probability one half a link to `ind` else a
link from `ind`; the weight is drawn before the index; the diagonal is reset. -/
def repairStep (weight : R.S → ℝ × R.S) (ind : Fin n) (s : St R n) : St R n :=
  let u := R.random s.2
  let t := weight u.2
  let r := drawNode R ind t.2
  let A := if u.1 > 0.5 then setAt2 s.1 r.1 ind t.1 else setAt2 s.1 ind r.1 t.1
  (setAt2 A ind ind 0, r.2)

/-- the repair of the directed generators (lines 25-35, 79-89, 135-149, 204-218, 277-291): every node that had neither in- nor out-links at the start gets random
links until it has some -/
def repair (fuel : ℕ) (weight : R.S → ℝ × R.S) (s : St R n) : Option (St R n) :=
  let k_in := colSum s.1
  let k_out := rowSum s.1
  forO (fun ind s =>
    if k_in ind = 0 ∧ k_out ind = 0 then
      whileF (fun s : St R n => colSum s.1 ind = 0 ∧ rowSum s.1 ind = 0) (repairStep R weight ind) fuel s
    else some s) (List.finRange n) s

/-- one iteration of the repair loop of the dense symmetric binary generator (lines 46-50): the diagonal may be set, and is reset -/
def repairStepDenseSym (ind : Fin n) (s : St R n) : St R n :=
  let r := drawNode R ind s.2
  let A := setAt2 s.1 r.1 ind 1
  let A := setAt2 A ind r.1 1
  (setAt2 A ind ind 0, r.2)

/-- one iteration of the repair loop of the symmetric binary generator with custom density (lines 103-108) -/
def repairStepBinSym (ind : Fin n) (s : St R n) : St R n :=
  let r := drawNode R ind s.2
  let A := if r.1 ≠ ind then
      let A := setAt2 s.1 ind r.1 1
      copyAt2 A r.1 ind ind r.1
    else s.1
  (setAt2 A ind ind 0, r.2)

/-- one iteration of the repair loop of the symmetric weighted generators (lines 163-167, 234-238; 308-314 with the two entries assigned in the other order) -/
def repairStepSym (weight : R.S → ℝ × R.S) (ind : Fin n) (s : St R n) : St R n :=
  let r := drawNode R ind s.2
  if r.1 ≠ ind then
    let t := weight r.2
    let A := setAt2 s.1 ind r.1 t.1
    (copyAt2 A r.1 ind ind r.1, t.2)
  else (s.1, r.2)

/-- the repair of the symmetric generators (lines 43-50, 100-108, 160-167, 231-238, 305-314) -/
def repairSym (fuel : ℕ) (step : Fin n → St R n → St R n) (s : St R n) : Option (St R n) :=
  let k := colSum s.1
  forO (fun ind s => if k ind = 0 then whileF (fun s : St R n => colSum s.1 ind = 0) (step ind) fuel s else some s) (List.finRange n) s

/-- matrix_generator.py:8-51 `random_binary_matrix_generator_dense` -/
def random_binary_matrix_generator_dense (fuel n : ℕ) (sym : Bool := false) (seed : Option ℕ := none) (g : R.S) : Option (St R n) :=
  let g := R.seed seed g
  let s : St R n := fillRandom R (bit R) g
  if !sym then repair R fuel (one R) (fill_diagonal s.1, s.2)
  else
    let A : Fin n → Fin n → ℝ := fun i j => truncInt ((s.1 i j + s.1 j i) / 2)
    repairSym R fuel (repairStepDenseSym R) (fill_diagonal A, s.2)

/-- matrix_generator.py:54-109 `random_binary_matrix_generator_custom_density` -/
def random_binary_matrix_generator_custom_density (fuel n : ℕ) (p : ℝ := 0.1) (sym : Bool := false) (seed : Option ℕ := none) (g : R.S) : Option (St R n) :=
  let g := R.seed seed g
  if !sym then
    let s : St R n := fillDensity R p (one R) g
    repair R fuel (one R) (fill_diagonal s.1, s.2)
  else
    let s : St R n := fillDensitySym R p (one R) g
    repairSym R fuel (repairStepBinSym R) (fill_diagonal s.1, s.2)

/-- `if intweights: return np.ceil(A) else: return A` -/
def finish (intweights : Bool) (s : St R n) : St R n := if intweights then (ceilM s.1, s.2) else s

/-- matrix_generator.py:112-171 `random_weighted_matrix_generator_dense` -/
def random_weighted_matrix_generator_dense (fuel n : ℕ) (sup_ext : ℝ := 10) (sym : Bool := false) (seed : Option ℕ := none) (intweights : Bool := false)
    (g : R.S) : Option (St R n) :=
  let g := R.seed seed g
  let s : St R n := fillRandom R (uniform R sup_ext) g
  if !sym then (repair R fuel (uniform R sup_ext) (fill_diagonal s.1, s.2)).map (finish R intweights)
  else
    let A : Fin n → Fin n → ℝ := fun i j => (s.1 i j + s.1 j i) / 2
    (repairSym R fuel (repairStepSym R (uniform R sup_ext)) (fill_diagonal A, s.2)).map (finish R intweights)

/-- matrix_generator.py:174-242 `random_weighted_matrix_generator_uniform_custom_density`; without `np.fill_diagonal` in the symmetric branch -/
def random_weighted_matrix_generator_uniform_custom_density (fuel n : ℕ) (p : ℝ := 0.1) (sup_ext : ℝ := 10) (sym : Bool := false) (seed : Option ℕ := none)
    (intweights : Bool := false) (g : R.S) : Option (St R n) :=
  let g := R.seed seed g
  if !sym then
    let s : St R n := fillDensity R p (uniform R sup_ext) g
    (repair R fuel (uniform R sup_ext) (fill_diagonal s.1, s.2)).map (finish R intweights)
  else
    let s : St R n := fillDensitySym R p (uniform R sup_ext) g
    (repairSym R fuel (repairStepSym R (uniform R sup_ext)) s).map (finish R intweights)

/-- matrix_generator.py:245-318 `random_weighted_matrix_generator_gaussian_custom_density` -/
def random_weighted_matrix_generator_gaussian_custom_density (fuel n : ℕ) (mean sigma : ℝ) (p : ℝ := 0.1) (sym : Bool := false) (seed : Option ℕ := none)
    (intweights : Bool := false) (g : R.S) : Option (St R n) :=
  let g := R.seed seed g
  if !sym then
    let s : St R n := fillDensity R p (R.normal mean sigma) g
    (repair R fuel (R.normal mean sigma) (fill_diagonal s.1, s.2)).map (finish R intweights)
  else
    let s : St R n := fillDensitySym R p (R.normal mean sigma) g
    (repairSym R fuel (repairStepSym R (R.normal mean sigma)) (fill_diagonal s.1, s.2)).map (finish R intweights)

/-! ### the generators that start from a networkx graph -/

/-- The networkx generators used.  `X` is the state of Python's global `random` module, from which networkx draws when `seed=None`; a graph is its 0/1 matrix in node
order.  Assumed: what networkx documents - the graphs are simple, undirected unless `directed=True`, and a seed determines them. -/
structure Nx where
  X : Type
  /-- `nx.fast_gnp_random_graph(n, p=p, seed=seed, directed=directed)` -/
  gnp : (n : ℕ) → ℝ → Option ℕ → Bool → X → (Fin n → Fin n → ℝ) × X
  /-- `nx.barabasi_albert_graph(n, m, seed=seed)`, `1 ≤ m < n` -/
  ba : (n m : ℕ) → ℕ → Fin n → Fin n → ℝ
  gnp_seed : ∀ n p k d x y, (gnp n p (some k) d x).1 = (gnp n p (some k) d y).1
  gnp_loopless : ∀ n p s d x i, (gnp n p s d x).1 i i = 0
  gnp_binary : ∀ n p s d x i j, (gnp n p s d x).1 i j = 0 ∨ (gnp n p s d x).1 i j = 1
  gnp_symm : ∀ n p s x i j, (gnp n p s false x).1 i j = (gnp n p s false x).1 j i
  ba_loopless : ∀ n m k i, ba n m k i i = 0
  ba_binary : ∀ n m k i j, ba n m k i j = 0 ∨ ba n m k i j = 1
  ba_symm : ∀ n m k i j, ba n m k i j = ba n m k j i

variable (N : Nx)

/-- `j` is in the (weakly) connected component of `i` -/
def Reach (A : Fin n → Fin n → ℝ) (i j : Fin n) : Prop := Relation.ReflTransGen (fun a b => A a b ≠ 0 ∨ A b a ≠ 0) i j

/-- the (weakly) connected component of a node, in node order -/
def component (A : Fin n → Fin n → ℝ) (i : Fin n) : List (Fin n) := (List.finRange n).filter fun j => Reach A i j

/-- `max(nx.connected_components(G), key=len)`: the first of the largest components; `None` stands for the `ValueError` of a graph without nodes -/
def largest_cc (A : Fin n → Fin n → ℝ) : Option (List (Fin n)) := ((List.finRange n).argmax fun i => (component A i).length).map (component A)

/-- a square matrix with its size -/
abbrev SqM := Σ m : ℕ, Fin m → Fin m → ℝ

/-- `nx.to_scipy_sparse_matrix(G.subgraph(l).copy())`: the matrix induced on the nodes of `l`.  networkx may list the nodes in another order; node order is taken. -/
def induced (A : Fin n → Fin n → ℝ) (l : List (Fin n)) : Fin l.length → Fin l.length → ℝ := fun a b => A (l.get a) (l.get b)

/-- the pairs `A.nonzero()`, row by row -/
def nonzero (A : Fin n → Fin n → ℝ) : List (Fin n × Fin n) := ((List.finRange n).product (List.finRange n)).filter fun q => A q.1 q.2 ≠ 0

/-- the pairs `scipy.sparse.triu(A).nonzero()`: on or above the diagonal -/
def nonzeroTriu (A : Fin n → Fin n → ℝ) : List (Fin n × Fin n) := (nonzero A).filter fun q => q.1 ≤ q.2

/-- `for i, j in zip(raw_ind, col_ind): adj[i, j] = weight` (lines 398-411, 466-479) -/
def weightsDir (weight : R.S → ℝ × R.S) (s : St R n) : St R n :=
  forL (nonzero s.1) (fun q s => let t := weight s.2; (setAt2 s.1 q.1 q.2 t.1, t.2)) s

/-- `for i, j in zip(raw_ind, col_ind): adj[i, j] = weight; adj[j, i] = adj[i, j]` (lines 379-392, 443-456) -/
def weightsSym (weight : R.S → ℝ × R.S) (s : St R n) : St R n :=
  forL (nonzeroTriu s.1) (fun q s => let t := weight s.2; let A := setAt2 s.1 q.1 q.2 t.1; (copyAt2 A q.2 q.1 q.1 q.2, t.2)) s

/-- matrix_generator.py:321-351 `random_binary_matrix_generator_custom_density_sparse` -/
def random_binary_matrix_generator_custom_density_sparse (n : ℕ) (p : ℝ := 0.1) (sym : Bool := false) (seed : Option ℕ := none) (x : N.X) : Option SqM :=
  let G := (N.gnp n p seed (!sym) x).1
  (largest_cc G).map fun l => ⟨l.length, induced G l⟩

/-- a weight, rounded up with `intweights` -/
def ceilDraw (intweights : Bool) (weight : R.S → ℝ × R.S) (g : R.S) : ℝ × R.S :=
  let t := weight g
  (if intweights then (⌈t.1⌉ : ℝ) else t.1, t.2)

/-- the common body of the two weighted sparse generators -/
def weightedSparse (n : ℕ) (weight : R.S → ℝ × R.S) (p : ℝ) (sym : Bool) (seed : Option ℕ) (intweights : Bool) (x : N.X) (g : R.S) : Option (SqM × R.S) :=
  let G := (N.gnp n p seed (!sym) x).1
  (largest_cc G).map fun l =>
    let s := (if sym then weightsSym R (ceilDraw R intweights weight) else weightsDir R (ceilDraw R intweights weight)) (induced G l, g)
    (⟨l.length, s.1⟩, s.2)

/-- matrix_generator.py:354-413 `random_uniform_weighted_matrix_generator_custom_density_sparse`: the seed goes to networkx only, the weights come from the global
numpy generator as it is -/
def random_uniform_weighted_matrix_generator_custom_density_sparse (n : ℕ) (sup_ext : ℝ) (p : ℝ := 0.1) (sym : Bool := false) (seed : Option ℕ := none)
    (intweights : Bool := false) (x : N.X) (g : R.S) : Option (SqM × R.S) := weightedSparse R N n (uniform R sup_ext) p sym seed intweights x g

/-- matrix_generator.py:416-481 `random_gaussian_weighted_matrix_generator_custom_density_sparse` -/
def random_gaussian_weighted_matrix_generator_custom_density_sparse (n : ℕ) (mean sigma : ℝ) (p : ℝ := 0.1) (sym : Bool := false) (seed : Option ℕ := none)
    (intweights : Bool := false) (x : N.X) (g : R.S) : Option (SqM × R.S) := weightedSparse R N n (R.normal mean sigma) p sym seed intweights x g

/-- the argument `is_weighted` of the last two generators: the three strings, or anything else -/
inductive Weighting
  | uniform
  | gaussian
  | powerlaw
  | other

/-- the weight of an edge (lines 519-530, 573-584): `np.random.randint(0, sup_ext)`, `np.random.normal(loc=sup_ext, scale=sup_ext / 5.5)`, a number drawn with the package
powerlaw (parameter `plw`) -/
def edgeWeight (plw : ℕ → ℝ → R.S → ℝ × R.S) (sup_ext : ℕ) (alpha : ℝ) : Weighting → R.S → ℝ × R.S
  | .uniform, g => let t := R.randint sup_ext g; ((t.1 : ℝ), t.2)
  | .gaussian, g => R.normal sup_ext (sup_ext / 5.5) g
  | .powerlaw, g => plw sup_ext alpha g
  | .other, g => (1, g)

/-- the common end of the last two generators (lines 515-537, 569-592): the largest component, weights on its edges after seeding numpy; the representation
(`is_sparse`) does not change the matrix.  Edges are visited in node order. -/
def weighLcc (plw : ℕ → ℝ → R.S → ℝ × R.S) (G : Fin n → Fin n → ℝ) (sup_ext : ℕ) (alpha : ℝ) (k : ℕ) (w : Weighting) (g : R.S) : Option (SqM × R.S) :=
  (largest_cc G).map fun l =>
    let s := weightsSym R (edgeWeight R plw sup_ext alpha w) (induced G l, R.seed (some k) g)
    (⟨l.length, s.1⟩, s.2)

/-- `if seed is None: seed = np.random.randint(0, n ** 2)` -/
def drawSeed (n : ℕ) : Option ℕ → R.S → ℕ × R.S
  | some k, g => (k, g)
  | none, g => R.randint (n ^ 2) g

/-- matrix_generator.py:484-537 `random_graph_nx` -/
def random_graph_nx (plw : ℕ → ℝ → R.S → ℝ × R.S) (n : ℕ) (p : ℝ) (sup_ext : ℕ) (alpha : ℝ) (seed : Option ℕ := none) (is_weighted : Weighting := .other)
    (x : N.X) (g : R.S) : Option (SqM × R.S) :=
  let k := drawSeed R n seed g
  weighLcc R plw (N.gnp n p (some k.1) false x).1 sup_ext alpha k.1 is_weighted k.2

/-- matrix_generator.py:540-592 `barabasi_albert_graph_nx`; `none` also for the `NetworkXError` of `m < 1` or `m ≥ n` -/
def barabasi_albert_graph_nx (plw : ℕ → ℝ → R.S → ℝ × R.S) (n m : ℕ) (sup_ext : ℕ) (alpha : ℝ) (seed : Option ℕ := none) (is_weighted : Weighting := .other)
    (g : R.S) : Option (SqM × R.S) :=
  let k := drawSeed R n seed g
  if m < 1 ∨ m ≥ n then none else weighLcc R plw (N.ba n m k.1) sup_ext alpha k.1 is_weighted k.2

end

end Verif.Matgen
