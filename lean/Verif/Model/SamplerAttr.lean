import Verif.Model.Sampler
import Verif.Model.SolveU
import Verif.Model.SolveD

/-! `ensemble_sampler` called on the object that `solve_tool` has left behind: which attributes the method reads. -/

namespace Verif.Sampler

open Verif.Solve

noncomputable section

variable {n : ℕ}

/-- graph_classes.py:1062-1126: the attributes of an `UndirectedGraph` that the branch of `self.last_model` reads (`beta` serves for both end points of a link).
`none`: an attribute of the branch does not exist, is `None`, or has the shape of the other implementation of CReMa, so that the first call of the loop raises.
Simplification: a missing `adjacency_given` (not reachable once `last_model` is a CReMa model) is treated like the others. -/
def viewU {d : UData n} (g : UAttr d) : Option (Fitted n) :=
  let m := g.last_model.getD ""
  let f : Fitted n := ⟨m, g.adjacency_given.getD false, fun _ => 0, fun _ => 0, fun _ => 0, fun _ => 0, [], fun _ => 0, fun _ => 0⟩
  if m = "cm" ∨ m = "cm_exp" then
    match g.x with
    | some x => some { f with x := x }
    | none => none
  else if m = "ecm" ∨ m = "ecm_exp" then
    match g.x, g.y with
    | some x, some y => some { f with x := x, y := y }
    | _, _ => none
  else if m = "crema" then
    match g.beta, g.adjacency_given, g.adjacency_crema with
    | some b, some _, some (.edges l) => some { f with b_out := b, b_in := b, adjTriples := l }
    | _, _, _ => none
  else if m = "crema-sparse" then
    match g.adjacency_given, g.beta, g.adjacency_crema with
    | some true, _, _ => some f
    | some false, some b, some (.fitness x) => some { f with b_out := b, b_in := b, adjX := x, adjY := x }
    | _, _, _ => none
  else some f

/-- graph_classes.py:1033-1129 `UndirectedGraph.ensemble_sampler` on the attributes of the object; the files written. -/
def samplerU (R : Rng) {d : UData n} (g : UAttr d) (N : ℕ) (output_dir : String) (seed : Option ℕ) (entropy : R.S) (fmt : ℝ → String)
    (envs : ℕ → Env R) (states : ℕ → R.S) : Except Err (List (String × String)) :=
  match viewU g with
  | some f => ensemble_sampler_undirected R f N output_dir seed entropy fmt envs states
  | none => if N = 0 then .ok [] else .error .missing

/-- graph_classes.py:2526-2597: the attributes of a `DirectedGraph` that the branch of `self.last_model` reads; see `viewU`. -/
def viewD {d : DData n} (g : DAttr d) : Option (Fitted n) :=
  let m := g.last_model.getD ""
  let f : Fitted n := ⟨m, g.adjacency_given.getD false, fun _ => 0, fun _ => 0, fun _ => 0, fun _ => 0, [], fun _ => 0, fun _ => 0⟩
  if m = "dcm" ∨ m = "dcm_exp" then
    match g.x, g.y with
    | some x, some y => some { f with x := x, y := y }
    | _, _ => none
  else if m = "decm" ∨ m = "decm_exp" then
    match g.x, g.y, g.b_out, g.b_in with
    | some x, some y, some bo, some bi => some { f with x := x, y := y, b_out := bo, b_in := bi }
    | _, _, _, _ => none
  else if m = "crema" then
    match g.b_out, g.b_in, g.adjacency_given, g.adjacency_crema with
    | some bo, some bi, some _, some (.edges l) => some { f with b_out := bo, b_in := bi, adjTriples := l }
    | _, _, _, _ => none
  else if m = "crema-sparse" then
    match g.adjacency_given, g.b_out, g.b_in, g.adjacency_crema with
    | some true, _, _, _ => some f
    | some false, some bo, some bi, some (.fitness x y) => some { f with b_out := bo, b_in := bi, adjX := x, adjY := y }
    | _, _, _, _ => none
  else some f

/-- graph_classes.py:2497-2597 `DirectedGraph.ensemble_sampler` on the attributes of the object. -/
def samplerD (R : Rng) {d : DData n} (g : DAttr d) (N : ℕ) (output_dir : String) (seed : Option ℕ) (entropy : R.S) (fmt : ℝ → String)
    (envs : ℕ → Env R) (states : ℕ → R.S) : Except Err (List (String × String)) :=
  match viewD g with
  | some f => ensemble_sampler_directed R f N output_dir seed entropy fmt envs states
  | none => if N = 0 then .ok [] else .error .missing

end

end Verif.Sampler
