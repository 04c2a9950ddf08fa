import Verif.Props.TwoCalls2
import Verif.Props.SolveD6

/-! C82: the sparse CReMa with the name of a weighted model, directed. -/

namespace Verif.Solve

open Verif Finset Reduction Solver Spec

variable {n : ℕ} [NeZero n] {d : DData n}

/-- C82 fails for weighted models, directed: with `adjacency="decm"` the sparse CReMa raises nothing and goes on with the link probabilities of the directed configuration model at the fitnesses
`x`, `y` that belong to `decm`, forgetting `b_out` and `b_in` (which the call overwrites with its own rates).  Here on every network all of whose nodes have links in both directions, on every object, at fitnesses
`1/2` (with `max_steps=0`): 1/5 instead of 1/13 for every pair. -/
theorem C82_sparse_decm_wrong (e : Env) (g : DAttr d) (ho : ∀ i, d.degOut i ≠ 0) (hi : ∀ i, d.degIn i ≠ 0) (hso : ∀ i, d.out_strength i ≠ 0)
    (hsi : ∀ i, d.in_strength i ≠ 0) (hk : d.nz_known = true) :
    let p : Params := { max_steps := 0 }
    let R := solve_tool_directed e g "crema-sparse" "quasinewton" (.pairs fun _ => 1) (.name "decm") "newton" (.quads fun _ => 1 / 2) p
    R.exc = none ∧ ∃ x y, R.g.x = some x ∧ R.g.y = some y ∧ R.g.adjacency_crema = some (.fitness x y) ∧
      R.g.b_out = some (fun _ => 1) ∧ R.g.b_in = some (fun _ => 1) ∧
      ∃ E, R.g.expected_stregth_seq = some E ∧ (∀ i, E (0, i) = outStrCReMa (linkMatrixD x y) (fun _ => 1) (fun _ => 1) i) ∧
        (∀ i, E (1, i) = inStrCReMa (linkMatrixD x y) (fun _ => 1) (fun _ => 1) i) ∧
        ∀ i j, linkDBCM x y i j = 1 / 5 ∧ linkDECM x y (fun _ => 1 / 2) (fun _ => 1 / 2) i j = 1 / 13 := by
  intro p R
  have hs0 : ∀ {ι : Type} [Fintype ι] [DecidableEq ι] [Nonempty ι] (C : Callbacks ι) (s : String) (x0 : ι → ℝ) (ls : Bool),
      solver C (({ max_steps := 0, linsearch := ls } : Params).opts s) x0 = .ok (initState C x0) := fun _ _ _ _ => rfl
  have l2 : dLookup "decm" "newton" = some (.decm, .newton) := dLookup_name .decm .newton
  have l3 : dLookup "crema-sparse" "quasinewton" = some (.crema_sparse, .quasinewton) := dLookup_name .crema_sparse .quasinewton
  have hm : maskSet (fun _ : Fin n => (1 : ℝ)) (fun _ => False) 0 = fun _ => 1 := by funext i; simp [maskSet]
  have hob : ∀ w, d.obs w ≠ 0 := by
    rintro ⟨a, i⟩
    fin_cases a
    · exact ho i
    · exact hi i
    · exact hso i
    · exact hsi i
  have hm4 : maskSet (fun _ : Fin 4 × Fin n => (1 / 2 : ℝ)) (fun w => d.obs w = 0) 0 = fun _ => 1 / 2 := by funext w; simp [maskSet, hob]
  refine ⟨?_, fun _ => 1 / 2, fun _ => 1 / 2, ?_, ?_, ?_, ?_, ?_, cat2 (DCReMa.expected_out_strength_crema_directed_sparse (cat2 (fun _ => 1) fun _ => 1) (fun _ => 1 / 2) fun _ => 1 / 2)
    (DCReMa.expected_in_stregth_crema_directed_sparse (cat2 (fun _ => 1) fun _ => 1) (fun _ => 1 / 2) fun _ => 1 / 2), ?_, ?_, ?_, ?_⟩
  iterate 7
    simp only [R, p]
    simp [solve_tool_directed, solveProblemDCrema, solveProblemD, guessDECM, finishDECM, l2, l3, hs0, setSolvedDECM, solveDCremaTail, guessDCrema, solutionErrorD, setSolvedDCrema, degreeErrorD,
      strengthErrorD, initState, cat2, maskSet, hob, hso, hsi, hm, hk, blk4]
  · intro i
    simp only [cat2, if_true]
    exact (str_dsparse_spec (fun _ => 1 / 2) (fun _ => 1 / 2) (fun _ => by norm_num) (fun _ => by norm_num) (fun _ => 1) (fun _ => 1) i).1
  · intro i
    exact (str_dsparse_spec (fun _ => 1 / 2) (fun _ => 1 / 2) (fun _ => by norm_num) (fun _ => by norm_num) (fun _ => 1) (fun _ => 1) i).2
  · intro i j
    constructor
    · unfold linkDBCM; norm_num
    · unfold linkDECM; norm_num

end Verif.Solve
