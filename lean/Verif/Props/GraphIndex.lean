import Verif.Props.Graph

/-!
C34: the index sets over which the dense CReMa functions iterate.
-/

namespace Verif.Graph

open Net Spec

theorem nonzero_support (v : List ℝ) : IsSupport v (nonzero v) := by
  classical
  constructor
  · unfold nonzero
    rw [List.pairwise_map]
    refine List.Pairwise.filter _ ?_
    have : (v.zipIdx.map Prod.snd).Pairwise (· < ·) := by
      rw [List.zipIdx_map_snd]; exact List.pairwise_lt_range' ..
    exact List.pairwise_map.1 this
  · intro m
    simp only [nonzero, List.mem_map, List.mem_filter, decide_eq_true_eq, Prod.exists, exists_and_right, exists_eq_right, List.mem_zipIdx_iff_getElem?]

section directed
variable {α : Type} [LinearOrder α]

/-- the two states of the index sets -/
def IndexD (g : DState α) : Prop :=
  (g.is_weighted = false ∧ g.nz_index_sout = none ∧ g.nz_index_sin = none) ∨
    (g.is_weighted = true ∧ ∃ so si lo li, g.out_strength = some so ∧ g.in_strength = some si ∧ g.nz_index_sout = some lo ∧ g.nz_index_sin = some li ∧
      IsSupport so lo ∧ IsSupport si li)

theorem dInitStrengths_index (g : DState α) (h : IndexD g) (s : SeqArg) : IndexD (dInitStrengths g s).1 := by
  have go : ∀ l, IndexD (dInitStrengths.go g l).1 := by
    intro l
    unfold dInitStrengths.go
    split_ifs
    · exact h
    · cases checkSeq l with
      | error x => exact h
      | ok v =>
        dsimp only
        split_ifs
        · exact h
        · exact Or.inr ⟨rfl, _, _, _, _, rfl, rfl, rfl, rfl, nonzero_support _, nonzero_support _⟩
  cases s with
  | other => exact h
  | list l => exact go l
  | array l => exact go l

theorem dInit_index (a : Args α) : IndexD (dInit ({} : DState α) a).1 := by
  have h0 : IndexD ({} : DState α) := Or.inl ⟨rfl, rfl, rfl⟩
  have adj : ∀ m, IndexD (dInitAdj ({} : DState α) m).1 := by
    have go : ∀ sp m, IndexD (dInitAdj.go ({} : DState α) sp m).1 := by
      intro sp m
      unfold dInitAdj.go
      cases sp <;> split_ifs <;> first
        | exact h0
        | exact Or.inl ⟨rfl, rfl, rfl⟩
        | exact Or.inr ⟨rfl, _, _, _, _, rfl, rfl, rfl, rfl, nonzero_support _, nonzero_support _⟩
    intro m
    cases m with
    | dense m => exact go _ m
    | sparse m => exact go _ m
    | _ => exact h0
  have edges : ∀ e, IndexD (dInitEdges ({} : DState α) e).1 := by
    intro e
    cases e with
    | edges e =>
      unfold dInitEdges
      dsimp only
      split_ifs
      · cases edgelist_from_edgelist_directed e with
        | error x => exact h0
        | ok o => cases e <;> exact Or.inl ⟨rfl, rfl, rfl⟩
      · exact h0
    | _ => exact h0
  have degs : ∀ s l, IndexD (dInitDegrees.go ({} : DState α) s l).1 := by
    intro s l
    unfold dInitDegrees.go
    split_ifs
    · cases checkSeq l with
      | error x => exact h0
      | ok v =>
        dsimp only
        split_ifs
        · exact h0
        · cases s with
          | none => exact Or.inl ⟨rfl, rfl, rfl⟩
          | some s => exact dInitStrengths_index _ (Or.inl ⟨rfl, rfl, rfl⟩) s
    · exact h0
  unfold dInit
  split
  · exact adj _
  · exact edges _
  · have degs' : ∀ d s, IndexD (dInitDegrees ({} : DState α) s d).1 := by
      intro d s
      cases d with
      | other => exact h0
      | list l => exact degs _ l
      | array l => exact degs _ l
    exact degs' _ _
  · exact dInitStrengths_index _ h0 _
  · exact h0

/-- C34 (directed): an object flagged as weighted by the constructor has both strengths, and the index sets are the positions of the non-zero out- and
in-strengths, in increasing order; an object not flagged has none. -/
theorem C34_directed_index_sets (a : Args α) (g : DState α) (h : DirectedGraph a = .ok g) :
    (g.is_weighted = false ∧ g.nz_index_sout = none ∧ g.nz_index_sin = none) ∨
    (g.is_weighted = true ∧ ∃ so si lo li, g.out_strength = some so ∧ g.in_strength = some si ∧ g.nz_index_sout = some lo ∧ g.nz_index_sin = some li ∧
      IsSupport so lo ∧ IsSupport si li) := by
  have := dInit_index a
  unfold DirectedGraph at h
  cases hu : dInit ({} : DState α) a with
  | mk g' x =>
    rw [hu] at h this
    cases x with
    | some x => cases h
    | none => injection h with h; subst h; exact this

end directed

section undirected
variable {α : Type} [LinearOrder α]

/-- C34 (undirected): after a setter on an empty object, the index set is unset or lists the positions of the non-zero strengths, in increasing order. -/
theorem C34_undirected_index_set (o : Op α) (g : UState α) (h : ({} : UState α).call o = (g, none)) :
    g.nz_index = none ∨ ∃ s l, g.strength_sequence = some s ∧ g.nz_index = some l ∧ IsSupport s l := by
  have h0 : ({} : UState α).nz_index = none := rfl
  cases o with
  | clean_edges => injection h with h _; subst h; exact Or.inl rfl
  | set_adjacency_matrix m =>
    have go : ∀ sp m, (uInitAdj.go ({} : UState α) sp m).1.nz_index = none ∨ ∃ s l, (uInitAdj.go ({} : UState α) sp m).1.strength_sequence = some s ∧
        (uInitAdj.go ({} : UState α) sp m).1.nz_index = some l ∧ IsSupport s l := by
      intro sp m
      unfold uInitAdj.go
      cases sp <;> split_ifs <;> first | exact Or.inl rfl | exact Or.inr ⟨_, _, rfl, rfl, nonzero_support _⟩
    have hh : uInitAdj ({} : UState α) m = (g, none) := h
    cases m with
    | dense m => have := go false m; rw [show uInitAdj.go ({} : UState α) false m = _ from hh] at this; exact this
    | sparse m => have := go true m; rw [show uInitAdj.go ({} : UState α) true m = _ from hh] at this; exact this
    | _ => cases hh
  | set_edgelist e =>
    have hh : uInitEdges ({} : UState α) e = (g, none) := h
    cases e with
    | edges e =>
      unfold uInitEdges at hh
      dsimp only at hh
      split_ifs at hh
      · cases ho : edgelist_from_edgelist_undirected e with
        | error x => rw [ho] at hh; cases hh
        | ok o => rw [ho] at hh; cases e <;> (injection hh with hh _; subst hh; exact Or.inl rfl)
      · injection hh with hh _; subst hh; exact Or.inl rfl
    | _ => cases hh
  | set_degree_sequences d =>
    have go : ∀ l b, (uInitDegrees.go ({} : UState α) none l b).1.nz_index = none := by
      intro l b
      unfold uInitDegrees.go
      split_ifs <;> cases checkSeq l <;> rfl
    have hh : uInitDegrees ({} : UState α) none d = (g, none) := h
    cases d with
    | other => cases hh
    | list l => have := go l true; rw [show uInitDegrees.go ({} : UState α) none l true = _ from hh] at this; exact Or.inl this
    | array l => have := go l false; rw [show uInitDegrees.go ({} : UState α) none l false = _ from hh] at this; exact Or.inl this

/-- a weighted triangle is accepted and gets an index set -/
example : ∃ g : DState ℕ, DirectedGraph { adjacency := some (.dense heavyTriangle) } = .ok g ∧ g.is_weighted = true := by
  have ha : Asks true ({ adjacency := some (.dense heavyTriangle) } : Args ℕ) (.matrix heavyTriangle) := .dense nonNeg_heavyTriangle (by decide)
  obtain ⟨g, hg⟩ := (C35_directed_succeeds_iff _).2 (Or.inl ⟨_, ha⟩)
  obtain ⟨_, _, _, _, _, _, hw⟩ := (C35_directed_builds _ g hg).1 _ ha |>.2
  exact ⟨g, hg, (hw heavy_heavyTriangle).1⟩

end undirected

end Verif.Graph
