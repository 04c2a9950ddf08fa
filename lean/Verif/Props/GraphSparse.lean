import Verif.Props.Graph

/-!
C34: the attribute `is_sparse`.
-/

namespace Verif.Graph

open Net Spec

/-- the caller handed over a scipy matrix with at least one non-zero entry -/
def GivesSparse {α : Type} (a : Args α) : Prop := ∃ m : SqMat, a.adjacency = some (.sparse m) ∧ ∃ i j, m.val i j ≠ 0

theorem matSize_sparse_pos (m : SqMat) : matSize true m > 0 ↔ ∃ i j, m.val i j ≠ 0 := by
  classical
  unfold matSize
  simp only [if_true, gt_iff_lt]
  rw [Finset.sum_pos_iff_of_nonneg (fun _ _ => Nat.zero_le _)]
  constructor
  · rintro ⟨i, _, h⟩
    rw [Finset.sum_pos_iff_of_nonneg (fun _ _ => Nat.zero_le _)] at h
    obtain ⟨j, _, h⟩ := h
    refine ⟨i, j, fun h0 => ?_⟩
    simp [h0] at h
  · rintro ⟨i, j, h⟩
    refine ⟨i, Finset.mem_univ _, ?_⟩
    rw [Finset.sum_pos_iff_of_nonneg (fun _ _ => Nat.zero_le _)]
    exact ⟨j, Finset.mem_univ _, by simp [h]⟩

section undirected
variable {α : Type} [LinearOrder α]

theorem uInit_sparse (g : UState α) (a : Args α) (g' : UState α) (h : uInit g a = (g', none)) :
    g'.is_sparse = true ↔ g.is_sparse = true ∨ GivesSparse a := by
  obtain ⟨adj, el, ds, ss⟩ := a
  have no : ∀ {el ds ss} (x : Option AdjArg), (∀ m, x ≠ some (.sparse m)) → ¬ GivesSparse ({ adjacency := x, edgelist := el, degree_sequence := ds, strength_sequence := ss } : Args α) :=
    fun x hx ⟨m, hm, _⟩ => hx m hm
  cases adj with
  | some m =>
    have hh : uInitAdj g m = (g', none) := h
    cases m with
    | other => cases hh
    | list => cases hh
    | dense m =>
      have hn := no (el := el) (ds := ds) (ss := ss) (some (.dense m)) (by simp)
      simp only [hn, or_false]
      replace hh : uInitAdj.go g false m = (g', none) := hh
      unfold uInitAdj.go at hh
      simp only [Bool.false_eq_true, if_false] at hh
      split_ifs at hh <;> first | (injection hh with _ hh; cases hh; done) | (injection hh with hh _; subst hh; rfl)
    | sparse m =>
      have hs : GivesSparse ({ adjacency := some (.sparse m), edgelist := el, degree_sequence := ds, strength_sequence := ss } : Args α) ↔ ∃ i j, m.val i j ≠ 0 :=
        ⟨fun ⟨m', h1, h2⟩ => by injection h1 with h1; injection h1 with h1; subst h1; exact h2, fun h => ⟨m, rfl, h⟩⟩
      rw [hs, ← matSize_sparse_pos]
      replace hh : uInitAdj.go g true m = (g', none) := hh
      unfold uInitAdj.go at hh
      simp only [if_true] at hh
      split_ifs at hh with h1 h2 h3 <;> first | (injection hh with _ hh; cases hh; done) | (injection hh with hh _; subst hh; simp [h1])
  | none =>
    have hn := no (el := el) (ds := ds) (ss := ss) none (by simp)
    simp only [hn, or_false]
    cases el with
    | some e =>
      have hh : uInitEdges g e = (g', none) := h
      cases e with
      | edges e =>
        unfold uInitEdges at hh
        dsimp only at hh
        split_ifs at hh
        · cases ho : edgelist_from_edgelist_undirected e with
          | error x => rw [ho] at hh; cases hh
          | ok o => rw [ho] at hh; cases e <;> (injection hh with hh _; subst hh; rfl)
        · injection hh with hh _; subst hh; rfl
      | _ => cases hh
    | none =>
      have str : ∀ (g0 g' : UState α) (s : SeqArg), uInitStrengths g0 s = (g', none) → g'.is_sparse = g0.is_sparse := by
        have go : ∀ (g0 g' : UState α) l, uInitStrengths.go g0 l = (g', none) → g'.is_sparse = g0.is_sparse := by
          intro g0 g' l hh
          unfold uInitStrengths.go at hh
          by_cases hl : l.length = 0
          · rw [if_pos hl] at hh
            injection hh with hh _; subst hh; rfl
          · rw [if_neg hl] at hh
            cases hc : checkSeq l with
            | error x => rw [hc] at hh; cases hh
            | ok v => rw [hc] at hh; injection hh with hh _; subst hh; rfl
        intro g0 g' s hh
        cases s with
        | other => cases hh
        | list l => exact go _ _ l hh
        | array l => exact go _ _ l hh
      have strw : ∀ (g0 g' : UState α) (nd : ℕ) (s : Option SeqArg), uInitStrengthWith g0 nd s = (g', none) → g'.is_sparse = g0.is_sparse := by
        have go : ∀ (g0 g' : UState α) (nd : ℕ) l b, uInitStrengthWith.go g0 nd l b = (g', none) → g'.is_sparse = g0.is_sparse := by
          intro g0 g' nd l b hh
          unfold uInitStrengthWith.go at hh
          by_cases hl : l.length = 0
          · rw [if_pos hl] at hh
            injection hh with hh _; subst hh; rfl
          · rw [if_neg hl] at hh
            cases hc : checkSeq l with
            | error x => rw [hc] at hh; cases hh
            | ok v =>
              rw [hc] at hh
              dsimp only at hh
              split_ifs at hh
              all_goals first | (injection hh with _ hh; cases hh; done) | (injection hh with hh _; subst hh; rfl)
        intro g0 g' nd s hh
        cases s with
        | none => injection hh with hh _; subst hh; rfl
        | some s =>
          cases s with
          | other => cases hh
          | list l => exact go _ _ _ l _ hh
          | array l => exact go _ _ _ l _ hh
      have deg : ∀ (g0 g' : UState α) (s : Option SeqArg) (d : SeqArg), uInitDegrees g0 s d = (g', none) → g'.is_sparse = g0.is_sparse := by
        have go : ∀ (g0 g' : UState α) s l b, uInitDegrees.go g0 s l b = (g', none) → g'.is_sparse = g0.is_sparse := by
          intro g0 g' s l b hh
          unfold uInitDegrees.go at hh
          by_cases hl : l.length > 0
          · rw [if_pos hl] at hh
            cases hc : checkSeq l with
            | error x => rw [hc] at hh; cases hh
            | ok v =>
              rw [hc] at hh
              cases b with
              | true => cases hh
              | false =>
                simp only [Bool.false_eq_true, if_false] at hh
                exact (strw _ _ _ _ hh).trans rfl
          · rw [if_neg hl] at hh
            injection hh with hh _; subst hh; rfl
        intro g0 g' s d hh
        cases d with
        | other => cases hh
        | list l => exact go _ _ _ l _ hh
        | array l => exact go _ _ _ l _ hh
      cases ds with
      | some d => rw [deg g g' ss d h]
      | none =>
        cases ss with
        | some s => rw [str g g' s h]
        | none => injection h with h _; subst h; rfl

/-- C34: the constructor marks the object as sparse exactly when it was given a scipy matrix with at least one non-zero entry. -/
theorem C34_undirected_sparse_flag (a : Args α) (g : UState α) (h : UndirectedGraph a = .ok g) : g.is_sparse = true ↔ GivesSparse a := by
  unfold UndirectedGraph at h
  cases hu : uInit ({} : UState α) a with
  | mk g' x =>
    rw [hu] at h
    cases x with
    | some x => cases h
    | none =>
      injection h with h; subst h
      have := uInit_sparse _ a g' hu
      simpa using this

/-- C34: `clean_edges` does not take the mark away: an object that was sparse once says so about any later topology. -/
theorem C34_undirected_sparse_flag_stale (g : UState α) (o : Op α) (g' : UState α) (hs : g.is_sparse = true) (h : (g.call .clean_edges).1.call o = (g', none)) :
    g'.is_sparse = true := by
  cases o with
  | clean_edges => injection h with h _; subst h; exact hs
  | set_adjacency_matrix m => exact (uInit_sparse { g with adjacency := none, edgelist := none, is_initialized := false } (Op.args (.set_adjacency_matrix m)) g' h).2 (Or.inl hs)
  | set_edgelist m => exact (uInit_sparse { g with adjacency := none, edgelist := none, is_initialized := false } (Op.args (.set_edgelist m)) g' h).2 (Or.inl hs)
  | set_degree_sequences m => exact (uInit_sparse { g with adjacency := none, edgelist := none, is_initialized := false } (Op.args (.set_degree_sequences m)) g' h).2 (Or.inl hs)

end undirected

section directed
variable {α : Type} [LinearOrder α]

theorem dInit_sparse (g : DState α) (a : Args α) (g' : DState α) (h : dInit g a = (g', none)) :
    g'.is_sparse = true ↔ g.is_sparse = true ∨ GivesSparse a := by
  obtain ⟨adj, el, ds, ss⟩ := a
  have no : ∀ {el ds ss} (x : Option AdjArg), (∀ m, x ≠ some (.sparse m)) → ¬ GivesSparse ({ adjacency := x, edgelist := el, degree_sequence := ds, strength_sequence := ss } : Args α) :=
    fun x hx ⟨m, hm, _⟩ => hx m hm
  cases adj with
  | some m =>
    have hh : dInitAdj g m = (g', none) := h
    cases m with
    | other => cases hh
    | list => cases hh
    | dense m =>
      have hn := no (el := el) (ds := ds) (ss := ss) (some (.dense m)) (by simp)
      simp only [hn, or_false]
      replace hh : dInitAdj.go g false m = (g', none) := hh
      unfold dInitAdj.go at hh
      simp only [Bool.false_eq_true, if_false] at hh
      split_ifs at hh <;> first | (injection hh with _ hh; cases hh; done) | (injection hh with hh _; subst hh; rfl)
    | sparse m =>
      have hs : GivesSparse ({ adjacency := some (.sparse m), edgelist := el, degree_sequence := ds, strength_sequence := ss } : Args α) ↔ ∃ i j, m.val i j ≠ 0 :=
        ⟨fun ⟨m', h1, h2⟩ => by injection h1 with h1; injection h1 with h1; subst h1; exact h2, fun h => ⟨m, rfl, h⟩⟩
      rw [hs, ← matSize_sparse_pos]
      replace hh : dInitAdj.go g true m = (g', none) := hh
      unfold dInitAdj.go at hh
      simp only [if_true] at hh
      split_ifs at hh with h1 h2 h3 <;> first | (injection hh with _ hh; cases hh; done) | (injection hh with hh _; subst hh; simp [h1])
  | none =>
    have hn := no (el := el) (ds := ds) (ss := ss) none (by simp)
    simp only [hn, or_false]
    cases el with
    | some e =>
      have hh : dInitEdges g e = (g', none) := h
      cases e with
      | edges e =>
        unfold dInitEdges at hh
        dsimp only at hh
        split_ifs at hh
        · cases ho : edgelist_from_edgelist_directed e with
          | error x => rw [ho] at hh; cases hh
          | ok o => rw [ho] at hh; cases e <;> (injection hh with hh _; subst hh; rfl)
        · injection hh with hh _; subst hh; rfl
      | _ => cases hh
    | none =>
      have str : ∀ (g0 g' : DState α) (s : SeqArg), dInitStrengths g0 s = (g', none) → g'.is_sparse = g0.is_sparse := by
        have go : ∀ (g0 g' : DState α) l, dInitStrengths.go g0 l = (g', none) → g'.is_sparse = g0.is_sparse := by
          intro g0 g' l hh
          unfold dInitStrengths.go at hh
          by_cases hl : l.length = 0
          · rw [if_pos hl] at hh
            injection hh with hh _; subst hh; rfl
          · rw [if_neg hl] at hh
            cases hc : checkSeq l with
            | error x => rw [hc] at hh; cases hh
            | ok v =>
              rw [hc] at hh
              dsimp only at hh
              split_ifs at hh
              all_goals first | (injection hh with _ hh; cases hh; done) | (injection hh with hh _; subst hh; rfl)
        intro g0 g' s hh
        cases s with
        | other => cases hh
        | list l => exact go _ _ l hh
        | array l => exact go _ _ l hh
      have deg : ∀ (g0 g' : DState α) (s : Option SeqArg) (d : SeqArg), dInitDegrees g0 s d = (g', none) → g'.is_sparse = g0.is_sparse := by
        have go : ∀ (g0 g' : DState α) s l, dInitDegrees.go g0 s l = (g', none) → g'.is_sparse = g0.is_sparse := by
          intro g0 g' s l hh
          unfold dInitDegrees.go at hh
          by_cases hl : l.length > 0
          · rw [if_pos hl] at hh
            cases hc : checkSeq l with
            | error x => rw [hc] at hh; cases hh
            | ok v =>
              rw [hc] at hh
              dsimp only at hh
              split_ifs at hh
              · injection hh with _ hh; cases hh
              · cases s with
                | none => injection hh with hh _; subst hh; rfl
                | some s =>
                  dsimp only at hh
                  exact (str _ _ _ hh).trans rfl
          · rw [if_neg hl] at hh
            injection hh with hh _; subst hh; rfl
        intro g0 g' s d hh
        cases d with
        | other => cases hh
        | list l => exact go _ _ _ l hh
        | array l => exact go _ _ _ l hh
      cases ds with
      | some d => rw [deg g g' ss d h]
      | none =>
        cases ss with
        | some s => rw [str g g' s h]
        | none => injection h with h _; subst h; rfl

/-- C34 (directed): the constructor marks the object as sparse exactly when it was given a scipy matrix with at least one non-zero entry. -/
theorem C34_directed_sparse_flag (a : Args α) (g : DState α) (h : DirectedGraph a = .ok g) : g.is_sparse = true ↔ GivesSparse a := by
  unfold DirectedGraph at h
  cases hu : dInit ({} : DState α) a with
  | mk g' x =>
    rw [hu] at h
    cases x with
    | some x => cases h
    | none =>
      injection h with h; subst h
      have := dInit_sparse _ a g' hu
      simpa using this

/-- C34 (directed): `clean_edges` does not take the mark away. -/
theorem C34_directed_sparse_flag_stale (g : DState α) (o : Op α) (g' : DState α) (hs : g.is_sparse = true) (h : (g.call .clean_edges).1.call o = (g', none)) :
    g'.is_sparse = true := by
  cases o with
  | clean_edges => injection h with h _; subst h; exact hs
  | set_adjacency_matrix m => exact (dInit_sparse { g with adjacency := none, edgelist := none, is_initialized := false } (Op.args (.set_adjacency_matrix m)) g' h).2 (Or.inl hs)
  | set_edgelist m => exact (dInit_sparse { g with adjacency := none, edgelist := none, is_initialized := false } (Op.args (.set_edgelist m)) g' h).2 (Or.inl hs)
  | set_degree_sequences m => exact (dInit_sparse { g with adjacency := none, edgelist := none, is_initialized := false } (Op.args (.set_degree_sequences m)) g' h).2 (Or.inl hs)

end directed

/-- the hypotheses are met: a single link given as a scipy matrix is marked, the same link given as an array is not -/
example : (∃ g : UState ℕ, UndirectedGraph { adjacency := some (.sparse ⟨2, fun i j => if i = j then 0 else 1⟩) } = .ok g ∧ g.is_sparse = true) ∧
    (∃ g : UState ℕ, UndirectedGraph { adjacency := some (.dense ⟨2, fun i j => if i = j then 0 else 1⟩) } = .ok g ∧ g.is_sparse = false) := by
  have hneg : ∀ (i j : Fin 2), ¬ ((if i = j then (0 : ℝ) else 1) < 0) := by intro i j; split_ifs <;> norm_num
  constructor
  · have hok : ∃ g : UState ℕ, UndirectedGraph { adjacency := some (.sparse ⟨2, fun i j => if i = j then 0 else 1⟩) } = .ok g := by
      have hp : matSize true ⟨2, fun i j => if i = j then 0 else 1⟩ > 0 := (matSize_sparse_pos _).2 ⟨0, 1, by norm_num⟩
      have hn : ¬ hasNegative ⟨2, fun i j => if i = j then 0 else 1⟩ := fun ⟨i, j, h⟩ => hneg i j h
      unfold UndirectedGraph uInit
      simp only [uInitAdj, uInitAdj.go, if_pos hp, if_neg hn]
      exact ⟨_, rfl⟩
    obtain ⟨g, hg⟩ := hok
    exact ⟨g, hg, (C34_undirected_sparse_flag _ g hg).2 ⟨_, rfl, 0, 1, by norm_num⟩⟩
  · have hok : ∃ g : UState ℕ, UndirectedGraph { adjacency := some (.dense ⟨2, fun i j => if i = j then 0 else 1⟩) } = .ok g := by
      have hp : matSize false ⟨2, fun i j => if i = j then 0 else 1⟩ > 0 := by unfold matSize; norm_num
      have hn : ¬ hasNegative ⟨2, fun i j => if i = j then 0 else 1⟩ := fun ⟨i, j, h⟩ => hneg i j h
      unfold UndirectedGraph uInit
      simp only [uInitAdj, uInitAdj.go, if_pos hp, if_neg hn]
      exact ⟨_, rfl⟩
    obtain ⟨g, hg⟩ := hok
    refine ⟨g, hg, ?_⟩
    have := C34_undirected_sparse_flag _ g hg
    have hno : ¬ GivesSparse ({ adjacency := some (.dense ⟨2, fun i j => if i = j then 0 else 1⟩) } : Args ℕ) := fun ⟨m, h, _⟩ => by simp at h
    simpa [hno] using this

end Verif.Graph
