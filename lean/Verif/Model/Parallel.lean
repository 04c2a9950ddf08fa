import Verif.Model.CReMa

/-!
The parallel loops (`@jit(nopython=True, parallel=True)`, `prange`) of `/repo/src/NEMtropy/models_functions.py` as concurrent programs.

Each iteration of a `prange` loop is a thread with one register; its program is the list of its accesses to the shared array, one element at a time:
`f[c] -= v` is a load of `f[c]` followed by a store of the difference, so that another iteration may run in between.  The arguments (`s`, `beta`, `x`, `y`) are
only read and the arrays `aux`, `aux_value` are private to the iteration, so the values they give are constants of its program.  A schedule is any list of
iteration numbers, each occurrence being one access of that iteration (sequential consistency; numba runs fewer interleavings, because it gives each worker a
contiguous chunk of iterations).  The array elements have any type `V`, so that the general results also hold for floating-point numbers.
-/

namespace Verif.Parallel

open Verif

/-- one access to the shared array: `reg = f[c]`, or `f[c] = g(reg)` -/
inductive Op (κ V : Type)
  | load (c : κ)
  | store (c : κ) (g : V → V)

/-- the element accessed -/
def Op.cell {κ V : Type} : Op κ V → κ
  | .load c => c
  | .store c _ => c

/-- effect of one access on the array and the register -/
def Op.exec {κ V : Type} [DecidableEq κ] : Op κ V → (κ → V) × V → (κ → V) × V
  | .load c, (m, _) => (m, m c)
  | .store c g, (m, r) => (Function.update m c (g r), r)

/-- an iteration that has still to run `code` -/
structure Thread (κ V : Type) where
  code : List (Op κ V)
  reg : V

/-- shared array and iterations -/
structure Machine (ι κ V : Type) where
  mem : κ → V
  thr : ι → Thread κ V

variable {ι κ V : Type} [DecidableEq ι] [DecidableEq κ]

/-- iteration `i` makes its next access -/
def Machine.tick (M : Machine ι κ V) (i : ι) : Machine ι κ V :=
  match (M.thr i).code with
  | [] => M
  | o :: t =>
    let r := o.exec (M.mem, (M.thr i).reg)
    { mem := r.1, thr := Function.update M.thr i ⟨t, r.2⟩ }

/-- the schedule `l` -/
def Machine.run (M : Machine ι κ V) (l : List ι) : Machine ι κ V := l.foldl Machine.tick M

/-- every iteration has finished: the parallel loop is over -/
def Machine.Done (M : Machine ι κ V) : Prop := ∀ i, (M.thr i).code = []

/-- a parallel loop about to start, on the array `m` -/
def Machine.start [Inhabited V] (m : κ → V) (prog : ι → List (Op κ V)) : Machine ι κ V := ⟨m, fun i => ⟨prog i, default⟩⟩

/-- the array after the iteration `code` has run alone -/
def solo [Inhabited V] (code : List (Op κ V)) (m : κ → V) : κ → V := (code.foldl (fun s o => o.exec s) (m, default)).1

/-- the array after the iterations `l` have run one after the other -/
def sequential [Inhabited V] (prog : ι → List (Op κ V)) (l : List ι) (m : κ → V) : κ → V := l.foldl (fun m i => solo (prog i) m) m

/-- `f[c] -= v` -/
def decr [Sub V] (c : κ) (v : V) : List (Op κ V) := [.load c, .store c fun r => r - v]

/-- `f[c] += v` -/
def incr [Add V] (c : κ) (v : V) : List (Op κ V) := [.load c, .store c fun r => r + v]

/-- `f[c] = v` -/
def put (c : κ) (v : V) : List (Op κ V) := [.store c fun _ => v]

/-- `f[a] = f[b] / v` -/
def divFrom [Div V] (a b : κ) (v : V) : List (Op κ V) := [.load b, .store a fun r => r / v]

section functions

variable {n : ℕ}

noncomputable section

/-- models_functions.py 1229-1233: an iteration of `iterative_crema_undirected_sparse` -/
def iterU (β s x : Fin n → ℝ) (i : Fin n) : List (Op (Fin n) ℝ) :=
  let aux : Fin n → ℝ := fun j => x i * x j
  let aux_value : Fin n → ℝ := fun j => aux j / (1 + aux j)
  let aux : Fin n → ℝ := fun j => aux_value j / (1 + (β j / β i))
  put i ((-(∑ j, aux j) + aux i) / (s i + Real.exp (-100)))

/-- models_functions.py 1377-1382: an iteration of `loglikelihood_prime_crema_undirected_sparse` -/
def primeU (β s x : Fin n → ℝ) (i : Fin n) : List (Op (Fin n) ℝ) :=
  let aux : Fin n → ℝ := fun j => x i * x j
  let aux_value : Fin n → ℝ := fun j => aux j / (1 + aux j)
  let aux : Fin n → ℝ := fun j => aux_value j / (β i + β j)
  decr i (s i) ++ incr i ((∑ j, aux j) - aux i)

/-- models_functions.py 1493-1497: an iteration of `loglikelihood_hessian_diag_crema_undirected_sparse` -/
def diagU (β x : Fin n → ℝ) (i : Fin n) : List (Op (Fin n) ℝ) :=
  let aux : Fin n → ℝ := fun j => x i * x j
  let aux_value : Fin n → ℝ := fun j => aux j / (1 + aux j)
  let aux : Fin n → ℝ := fun j => aux_value j / ((β i + β j) ^ 2)
  decr i ((∑ j, aux j) - aux i)

/-- models_functions.py 4135-4141: an iteration of the first loop of `loglikelihood_prime_crema_directed_sparse`; `i` is a position in `nz_index_out` -/
def primeOut (β : Fin 2 × Fin n → ℝ) (s_out x y : Fin n → ℝ) (i : Fin (DCM.nonzero s_out).length) : List (Op (Fin n) ℝ) :=
  let index := (DCM.nonzero s_out).get i
  let aux : Fin n → ℝ := fun j => x index * y j
  let aux_value : Fin n → ℝ := fun j => aux j / (1 + aux j)
  let aux : Fin n → ℝ := fun j => aux_value j / (β (0, index) + β (1, j))
  decr index (s_out index) ++ incr index ((∑ j, aux j) - aux index)

/-- models_functions.py 4143-4149: an iteration of the second loop; `j` is a position in `nz_index_in` -/
def primeIn (β : Fin 2 × Fin n → ℝ) (s_in x y : Fin n → ℝ) (j : Fin (DCM.nonzero s_in).length) : List (Op (Fin n) ℝ) :=
  let index := (DCM.nonzero s_in).get j
  let aux : Fin n → ℝ := fun i => x i * y index
  let aux_value : Fin n → ℝ := fun i => aux i / (1 + aux i)
  let aux : Fin n → ℝ := fun i => aux_value i / (β (0, i) + β (1, index))
  decr index (s_in index) ++ incr index ((∑ i, aux i) - aux index)

/-- models_functions.py 4318-4327: an iteration of `loglikelihood_hessian_diag_crema_directed_sparse` -/
def diagD (β : Fin 2 × Fin n → ℝ) (x y : Fin n → ℝ) (i : Fin n) : List (Op (Fin 2 × Fin n) ℝ) :=
  let aux : Fin n → ℝ := fun j => x i * y j
  let aux_entry : Fin n → ℝ := fun j => aux j / (1 + aux j)
  let aux1 : Fin n → ℝ := fun j => aux_entry j / (((β (0, i) + β (1, j)) ^ 2) + Real.exp (-100))
  let aux : Fin n → ℝ := fun j => x j * y i
  let aux_entry : Fin n → ℝ := fun j => aux j / (1 + aux j)
  let aux2 : Fin n → ℝ := fun j => aux_entry j / (((β (0, j) + β (1, i)) ^ 2) + Real.exp (-100))
  decr (0, i) ((∑ j, aux1 j) - aux1 i) ++ decr (1, i) ((∑ j, aux2 j) - aux2 i)

/-- models_functions.py 3900-3906: an iteration of the first loop of `iterative_crema_directed_sparse`; `i` is a position in `x_indices` -/
def iterOut (β : Fin 2 × Fin n → ℝ) (s_out x y : Fin n → ℝ) (i : Fin (DCM.nonzero x).length) : List (Op (Fin n) ℝ) :=
  let index := (DCM.nonzero x).get i
  let aux : Fin n → ℝ := fun j => x index * y j
  let aux_entry : Fin n → ℝ := fun j => aux j / (1 + aux j)
  let aux : Fin n → ℝ := fun j => aux_entry j / (1 + (β (1, j) / (β (0, index) + Real.exp (-100))))
  decr index ((∑ j, aux j) - aux index) ++ divFrom index index (s_out index + Real.exp (-100))

/-- there are at most `n` positions, so that a position is an index of `yd` -/
theorem length_nonzero (y : Fin n → ℝ) : (DCM.nonzero y).length ≤ n := by
  unfold DCM.nonzero
  exact (List.length_filter_le _ _).trans (by simp)

/-- models_functions.py 3908-3914: an iteration of the second loop; `j` is a position in `y_indices`; it updates `yd[j]` and divides `yd[index]` -/
def iterIn (β : Fin 2 × Fin n → ℝ) (s_in x y : Fin n → ℝ) (j : Fin (DCM.nonzero y).length) : List (Op (Fin n) ℝ) :=
  let index := (DCM.nonzero y).get j
  let jj : Fin n := j.castLE (length_nonzero y)
  let aux : Fin n → ℝ := fun i => x i * y index
  let aux_entry : Fin n → ℝ := fun i => aux i / (1 + aux i)
  let aux : Fin n → ℝ := fun i => aux_entry i / (1 + (β (0, i) / (β (1, index) + Real.exp (-100))))
  decr jj ((∑ i, aux i) - aux index) ++ divFrom jj index (s_in index + Real.exp (-100))

end

end functions

end Verif.Parallel
