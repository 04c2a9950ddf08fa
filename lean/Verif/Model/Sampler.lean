import Verif.Base

/-!
`ensemble_generator.py` and the `ensemble_sampler` methods of `graph_classes.py`.

* The numpy generator is an abstract state machine `Rng`; only the range of its outputs is assumed.
* `multiprocessing.Pool.starmap` is a concurrent machine: worker processes with their own generator state execute the tasks in an arbitrary
  interleaving `sched`; the result of task `t` is stored in slot `t`.
* Python exceptions are values of `Except Err`; `pending` means that some task has not been executed yet.
-/

namespace Verif.Sampler

/-- exceptions; `pending`: `starmap` has not returned (incomplete schedule); `missing`: an attribute the sampler reads has not been set -/
inductive Err
  | valueError | pending | missing
deriving DecidableEq, Repr

/-- numpy's global random generator. Only the ranges documented by numpy are assumed. -/
structure Rng where
  /-- generator state -/
  S : Type
  /-- `np.random.seed(k)` -/
  seed : ℕ → S
  /-- `np.random.randint(0, 1000000)` -/
  randint : S → ℕ × S
  /-- `np.random.random_sample()` -/
  random_sample : S → ℝ × S
  /-- `np.random.geometric(p)` for `0 < p ≤ 1` -/
  geometric : ℝ → S → ℕ × S
  /-- `np.random.standard_exponential()` -/
  standard_exponential : S → ℝ × S
  randint_lt : ∀ s, (randint s).1 < 1000000
  random_nonneg : ∀ s, 0 ≤ (random_sample s).1
  random_lt_one : ∀ s, (random_sample s).1 < 1
  geometric_pos : ∀ p s, 0 < p → p ≤ 1 → 1 ≤ (geometric p s).1
  exponential_nonneg : ∀ s, 0 ≤ (standard_exponential s).1

variable (R : Rng)

/-- `if seed is not None: np.random.seed(seed)` -/
def reseed (seed : Option ℕ) (g : R.S) : R.S := match seed with
  | some k => R.seed k
  | none => g

/-- `np.random.geometric(p)`: `ValueError` unless `0 < p ≤ 1` -/
noncomputable def geometricE (p : ℝ) (g : R.S) : Except Err ℕ × R.S :=
  open Classical in
  if 0 < p ∧ p ≤ 1 then (.ok (R.geometric p g).1, (R.geometric p g).2) else (.error .valueError, g)

/-- `np.random.exponential(scale)`: `scale` times a standard exponential; `ValueError` if `scale < 0` -/
noncomputable def exponentialE (scale : ℝ) (g : R.S) : Except Err ℝ × R.S :=
  open Classical in
  if 0 ≤ scale then (.ok (scale * (R.standard_exponential g).1), (R.standard_exponential g).2) else (.error .valueError, g)

section links
open Classical

/-- ensemble_generator.py:548-570 `is_a_link_cm` -/
noncomputable def is_a_link_cm (args_1 args_2 : ℕ × ℝ) (seed : Option ℕ) (g : R.S) : Except Err (Option (ℕ × ℕ)) × R.S :=
  let g := reseed R seed g
  let (i, xi) := args_1
  let (j, xj) := args_2
  let (p, g) := R.random_sample g
  let xij := xi * xj
  let p_ensemble := xij / (1 + xij)
  if p < p_ensemble then (.ok (some (i, j)), g) else (.ok none, g)

/-- ensemble_generator.py:604-626 `is_a_link_dcm` -/
noncomputable def is_a_link_dcm (args_1 args_2 : ℕ × ℝ) (seed : Option ℕ) (g : R.S) : Except Err (Option (ℕ × ℕ)) × R.S :=
  let g := reseed R seed g
  let (i, xi) := args_1
  let (j, yj) := args_2
  let (p, g) := R.random_sample g
  let tmp := xi * yj
  let p_ensemble := tmp / (1 + tmp)
  if p < p_ensemble then (.ok (some (i, j)), g) else (.ok none, g)

/-- ensemble_generator.py:573-601 `is_a_link_ecm` -/
noncomputable def is_a_link_ecm (args_1 args_2 : ℕ × ℝ × ℝ) (seed : Option ℕ) (g : R.S) : Except Err (Option (ℕ × ℕ × ℕ)) × R.S :=
  let g := reseed R seed g
  let (i, xi, yi) := args_1
  let (j, xj, yj) := args_2
  let (p, g) := R.random_sample g
  let xij := xi * xj
  let yij := yi * yj
  let p_ensemble := xij * yij / (1 - yij + xij * yij)
  if p < p_ensemble then
    let q_ensemble := yij
    let (w, g) := geometricE R (1 - q_ensemble) g
    (w.map fun w => some (i, j, w), g)
  else (.ok none, g)

/-- ensemble_generator.py:629-659 `is_a_link_decm` -/
noncomputable def is_a_link_decm (args_1 args_2 : ℕ × ℝ × ℝ) (seed : Option ℕ) (g : R.S) : Except Err (Option (ℕ × ℕ × ℕ)) × R.S :=
  let g := reseed R seed g
  let (i, a_out_i, b_out_i) := args_1
  let (j, a_in_j, b_in_j) := args_2
  let (p, g) := R.random_sample g
  let aij := a_out_i * a_in_j
  let bij := b_out_i * b_in_j
  let p_ensemble := aij * bij / (1 - bij + aij * bij)
  if p < p_ensemble then
    let q_ensemble := bij
    let (w, g) := geometricE R (1 - q_ensemble) g
    (w.map fun w => some (i, j, w), g)
  else (.ok none, g)

/-- ensemble_generator.py:662-685 `is_a_link_crema_ecm_det` and 750-774 `is_a_link_crema_decm_det` (identical bodies). `1/0` is `inf` in numpy and is not
modelled: the theorems assume a positive sum. -/
noncomputable def is_a_link_crema_det (args_1 args_2 : ℕ × ℝ) (seed : Option ℕ) (g : R.S) : Except Err (Option (ℕ × ℕ × ℝ)) × R.S :=
  let g := reseed R seed g
  let (i, beta_i) := args_1
  let (j, beta_j) := args_2
  let q_ensemble := 1 / (beta_i + beta_j)
  let (w_link, g) := exponentialE R q_ensemble g
  (w_link.map fun w => some (i, j, w), g)

/-- ensemble_generator.py:688-715 `is_a_link_crema_ecm_prob` and 777-803 `is_a_link_crema_decm_prob` (identical bodies) -/
noncomputable def is_a_link_crema_prob (args_1 args_2 : ℕ × ℝ) (p_ensemble : ℝ) (seed : Option ℕ) (g : R.S) : Except Err (Option (ℕ × ℕ × ℝ)) × R.S :=
  let g := reseed R seed g
  let (i, beta_i) := args_1
  let (j, beta_j) := args_2
  let (p, g) := R.random_sample g
  if p < p_ensemble then
    let q_ensemble := 1 / (beta_i + beta_j)
    let (w_link, g) := exponentialE R q_ensemble g
    (w_link.map fun w => some (i, j, w), g)
  else (.ok none, g)

/-- ensemble_generator.py:718-747 `is_a_link_crema_sparse_ecm_prob` and 806-835 `is_a_link_crema_sparse_decm_prob` (identical bodies) -/
noncomputable def is_a_link_crema_sparse_prob (args_1 args_2 : ℕ × ℝ × ℝ) (seed : Option ℕ) (g : R.S) : Except Err (Option (ℕ × ℕ × ℝ)) × R.S :=
  let g := reseed R seed g
  let (i, beta_i, x_i) := args_1
  let (j, beta_j, x_j) := args_2
  let (p, g) := R.random_sample g
  let p_ensemble := x_i * x_j / (1 + x_j * x_i)
  if p < p_ensemble then
    let q_ensemble := 1 / (beta_i + beta_j)
    let (w_link, g) := exponentialE R q_ensemble g
    (w_link.map fun w => some (i, j, w), g)
  else (.ok none, g)

end links

/-! ### the process pool -/

/-- a task: what a worker process does with its generator state -/
abbrev Task (β : Type) := R.S → β × R.S

/-- state of the pool: generator state of every worker, result slot of every task -/
structure Pool (β : Type) (W T : ℕ) where
  rng : Fin W → R.S
  slot : Fin T → Option β

/-- worker `w` executes task `t` -/
def Pool.exec {β : Type} {W : ℕ} (tasks : List (Task R β)) (w : Fin W) (t : Fin tasks.length) (st : Pool R β W tasks.length) : Pool R β W tasks.length :=
  let (b, g) := tasks.get t (st.rng w)
  ⟨setAt st.rng w g, setAt st.slot t (some b)⟩

/-- how a pool of `cpu_n` processes happens to run `T` tasks: initial generator states of the workers (inherited from the parent process or not) and the
interleaving in which `(worker, task)` executions take place -/
structure Run (T : ℕ) where
  cpu_n : ℕ
  init : Fin cpu_n → R.S
  sched : List (Fin cpu_n × Fin T)

/-- every task has been executed: `starmap` returns -/
def Run.Complete {T : ℕ} (r : Run R T) : Prop := ∀ t, ∃ w, (w, t) ∈ r.sched

/-- `with mp.Pool(processes=cpu_n) as pool: pool.starmap(f, iter_)`: results in task order once all slots are filled -/
def starmap {β : Type} (tasks : List (Task R β)) (run : Run R tasks.length) : Except Err (List β) :=
  let final := forL run.sched (fun wt st => Pool.exec R tasks wt.1 wt.2 st) ⟨run.init, fun _ => none⟩
  match (List.finRange tasks.length).mapM final.slot with
  | some l => .ok l
  | none => .error .pending

/-- the successive values of `np.random.randint(0, 1000000)` -/
def drawSeeds : ℕ → R.S → List ℕ × R.S
  | 0, g => ([], g)
  | k + 1, g =>
    let (s, g) := R.randint g
    let (l, g) := drawSeeds k g
    (s :: l, g)

/-- how every pool of a program run happens to be scheduled, for any number of tasks -/
abbrev Env := ∀ T, Run R T

/-- the common body of the `ensemble_sampler_*_graph` functions (e.g. ensemble_generator.py:22-40): seed the generator, draw one seed per candidate pair (the
generator expression `iter_` is turned into a list by `starmap` before any task starts), run the tasks, re-raise an exception of a task, remove `None`. -/
def sampleEdges {A β : Type} (cands : List A) (link : A → Option ℕ → R.S → Except Err (Option β) × R.S) (env : Env R) (seed : Option ℕ) (g : R.S) :
    Except Err (List β) := do
  let g := reseed R seed g
  let seeds := (drawSeeds R cands.length g).1
  let tasks : List (Task R (Except Err (Option β))) := List.zipWith (fun a s => link a (some s)) cands seeds
  let results ← starmap R tasks (env tasks.length)
  let edges ← results.mapM id
  return edges.filterMap id

/-- `for i in inds for j in inds if i < j` -/
def pairsLt (n : ℕ) : List (Fin n × Fin n) :=
  (List.finRange n).flatMap fun i => (List.finRange n).filterMap fun j => if i < j then some (i, j) else none

/-- `for i in inds for j in inds if i != j` -/
def pairsNe (n : ℕ) : List (Fin n × Fin n) :=
  (List.finRange n).flatMap fun i => (List.finRange n).filterMap fun j => if i ≠ j then some (i, j) else none

/-- `"".join("{} {}\n".format(str(i), str(j)) for (i, j) in edges_list)` -/
def render (edges : List (ℕ × ℕ)) : String := String.join (edges.map fun e => toString e.1 ++ " " ++ toString e.2 ++ "\n")

/-- `"".join("{} {} {}\n".format(str(i), str(j), str(w)) …)`; `str` of a weight is `fmt` -/
def renderW {β : Type} (fmt : β → String) (edges : List (ℕ × ℕ × β)) : String :=
  String.join (edges.map fun e => toString e.1 ++ " " ++ toString e.2.1 ++ " " ++ fmt e.2.2 ++ "\n")

variable {n : ℕ}

/-- ensemble_generator.py:7-49 `ensemble_sampler_cm_graph`: the edge list that is written -/
noncomputable def cm_edges (x : Fin n → ℝ) : Env R → Option ℕ → R.S → Except Err (List (ℕ × ℕ)) :=
  sampleEdges R (pairsLt n) fun e => is_a_link_cm R (e.1, x e.1) (e.2, x e.2)

/-- ensemble_generator.py:100-144 `ensemble_sampler_dcm_graph` -/
noncomputable def dcm_edges (x y : Fin n → ℝ) : Env R → Option ℕ → R.S → Except Err (List (ℕ × ℕ)) :=
  sampleEdges R (pairsNe n) fun e => is_a_link_dcm R (e.1, x e.1) (e.2, y e.2)

/-- ensemble_generator.py:52-97 `ensemble_sampler_ecm_graph` -/
noncomputable def ecm_edges (x y : Fin n → ℝ) : Env R → Option ℕ → R.S → Except Err (List (ℕ × ℕ × ℕ)) :=
  sampleEdges R (pairsLt n) fun e => is_a_link_ecm R (e.1, x e.1, y e.1) (e.2, x e.2, y e.2)

/-- ensemble_generator.py:147-203 `ensemble_sampler_decm_graph` -/
noncomputable def decm_edges (a_out a_in b_out b_in : Fin n → ℝ) : Env R → Option ℕ → R.S → Except Err (List (ℕ × ℕ × ℕ)) :=
  sampleEdges R (pairsNe n) fun e => is_a_link_decm R (e.1, a_out e.1, b_out e.1) (e.2, a_in e.2, b_in e.2)

/-- ensemble_generator.py:206-254 `ensemble_sampler_crema_ecm_det_graph` (`b_out = b_in = beta`) and 430-484 `ensemble_sampler_crema_decm_det_graph`; `adj` lists the
`(row, col)` indices (assumed in range). Removing `None`, which these two functions do not do, has no effect because the link function never returns it. -/
noncomputable def crema_det_edges (b_out b_in : Fin n → ℝ) (adj : List (Fin n × Fin n)) : Env R → Option ℕ → R.S → Except Err (List (ℕ × ℕ × ℝ)) :=
  sampleEdges R adj fun e => is_a_link_crema_det R (e.1, b_out e.1) (e.2, b_in e.2)

/-- ensemble_generator.py:257-308 `ensemble_sampler_crema_ecm_prob_graph` (`b_out = b_in = beta`) and 371-427 `ensemble_sampler_crema_decm_prob_graph` -/
noncomputable def crema_prob_edges (b_out b_in : Fin n → ℝ) (adj : List (Fin n × Fin n × ℝ)) : Env R → Option ℕ → R.S → Except Err (List (ℕ × ℕ × ℝ)) :=
  sampleEdges R adj fun e => is_a_link_crema_prob R (e.1, b_out e.1) (e.2.1, b_in e.2.1) e.2.2

/-- ensemble_generator.py:311-368 `ensemble_sampler_crema_sparse_ecm_prob_graph` (`b_out = b_in = beta`, `y = x`; note `i != j`, although the graph is undirected)
and 487-545 `ensemble_sampler_crema_sparse_decm_prob_graph` -/
noncomputable def crema_sparse_prob_edges (b_out b_in x y : Fin n → ℝ) : Env R → Option ℕ → R.S → Except Err (List (ℕ × ℕ × ℝ)) :=
  sampleEdges R (pairsNe n) fun e => is_a_link_crema_sparse_prob R (e.1, b_out e.1, x e.1) (e.2, b_in e.2, y e.2)

/-! ### `ensemble_sampler` -/

/-- what the graph object remembers about the last solved model, as far as `ensemble_sampler` reads it -/
structure Fitted (n : ℕ) where
  last_model : String
  adjacency_given : Bool
  x : Fin n → ℝ
  y : Fin n → ℝ
  b_out : Fin n → ℝ
  b_in : Fin n → ℝ
  /-- `self.adjacency_crema` when it is an index/probability triple -/
  adjTriples : List (Fin n × Fin n × ℝ)
  /-- `self.adjacency_crema` when it is a pair of fitness vectors (crema-sparse) -/
  adjX : Fin n → ℝ
  adjY : Fin n → ℝ

/-- how the two graph classes print weights: integers with `toString`, floats with `fmt` -/
def files (output_dir : String) (contents : List String) : List (String × String) :=
  contents.zipIdx.map fun p => (output_dir ++ (toString p.2 ++ ".txt"), p.1)

/-- the loop over `iter_files` (e.g. graph_classes.py:1060-1070): one sampler call per file, each with its own pool run `envs i` and with the generator state left by
the previous call (irrelevant, since `seed=s[i]`); an exception stops the loop -/
def fileLoop {β : Type} (sampler : Env R → Option ℕ → R.S → Except Err (List β)) (txt : List β → String) (envs : ℕ → Env R) (states : ℕ → R.S)
    (s : List ℕ) : Except Err (List String) :=
  s.zipIdx.mapM fun si => (sampler (envs si.2) (some si.1) (states si.2)).map txt

/-- graph_classes.py:1033-1129 `UndirectedGraph.ensemble_sampler`; returns the files written. `seed=None` reseeds from the operating system (`entropy`). -/
noncomputable def ensemble_sampler_undirected (f : Fitted n) (N : ℕ) (output_dir : String) (seed : Option ℕ) (entropy : R.S) (fmt : ℝ → String)
    (envs : ℕ → Env R) (states : ℕ → R.S) : Except Err (List (String × String)) :=
  let g := reseed R seed entropy
  let s := (drawSeeds R N g).1
  if f.last_model = "cm" ∨ f.last_model = "cm_exp" then
    (fileLoop R (cm_edges R f.x) render envs states s).map (files output_dir)
  else if f.last_model = "ecm" ∨ f.last_model = "ecm_exp" then
    (fileLoop R (ecm_edges R f.x f.y) (renderW toString) envs states s).map (files output_dir)
  else if f.last_model = "crema" then
    if f.adjacency_given then
      (fileLoop R (crema_det_edges R f.b_out f.b_out (f.adjTriples.map fun t => (t.1, t.2.1))) (renderW fmt) envs states s).map (files output_dir)
    else
      (fileLoop R (crema_prob_edges R f.b_out f.b_out f.adjTriples) (renderW fmt) envs states s).map (files output_dir)
  else if f.last_model = "crema-sparse" then
    if ¬ f.adjacency_given then
      (fileLoop R (crema_sparse_prob_edges R f.b_out f.b_out f.adjX f.adjX) (renderW fmt) envs states s).map (files output_dir)
    else .ok []
  else .error .valueError

/-- graph_classes.py:2497-2597 `DirectedGraph.ensemble_sampler` -/
noncomputable def ensemble_sampler_directed (f : Fitted n) (N : ℕ) (output_dir : String) (seed : Option ℕ) (entropy : R.S) (fmt : ℝ → String)
    (envs : ℕ → Env R) (states : ℕ → R.S) : Except Err (List (String × String)) :=
  let g := reseed R seed entropy
  let s := (drawSeeds R N g).1
  if f.last_model = "dcm" ∨ f.last_model = "dcm_exp" then
    (fileLoop R (dcm_edges R f.x f.y) render envs states s).map (files output_dir)
  else if f.last_model = "decm" ∨ f.last_model = "decm_exp" then
    (fileLoop R (decm_edges R f.x f.y f.b_out f.b_in) (renderW toString) envs states s).map (files output_dir)
  else if f.last_model = "crema" then
    if f.adjacency_given then
      (fileLoop R (crema_det_edges R f.b_out f.b_in (f.adjTriples.map fun t => (t.1, t.2.1))) (renderW fmt) envs states s).map (files output_dir)
    else
      (fileLoop R (crema_prob_edges R f.b_out f.b_in f.adjTriples) (renderW fmt) envs states s).map (files output_dir)
  else if f.last_model = "crema-sparse" then
    if ¬ f.adjacency_given then
      (fileLoop R (crema_sparse_prob_edges R f.b_out f.b_in f.adjX f.adjY) (renderW fmt) envs states s).map (files output_dir)
    else .ok []
  else .error .valueError

end Verif.Sampler
