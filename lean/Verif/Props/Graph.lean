import Verif.Lemmas.Graph

/-!
C34 (life cycle of a graph object) and C35 (validation of constructor arguments), for `UndirectedGraph` and `DirectedGraph`.
-/

namespace Verif.Graph

open Net Spec

section undirected
variable {α : Type} [LinearOrder α]

/-! ### C35: what the constructors accept -/

/-- C35: the constructor of an undirected graph raises `x` exactly for the listed reasons ... -/
theorem C35_undirected_raises_iff (a : Args α) (x : Exc) : UndirectedGraph a = .error x ↔ Complaint false a x := by
  have key : ∀ y, Complaint false a y → UndirectedGraph a = .error y := by
    intro y h
    have := uInit_complaint {} a y h
    unfold UndirectedGraph
    cases hu : uInit ({} : UState α) a with
    | mk g o => rw [hu] at this; simp only at this; subst this; rfl
  refine ⟨fun h => ?_, key x⟩
  rcases args_cases false a with ⟨t, ht⟩ | he | ⟨y, hy⟩
  · obtain ⟨g', hg, _⟩ := uInit_asks {} a t ht rfl rfl (Or.inl rfl)
    unfold UndirectedGraph at h
    rw [hg] at h; cases h
  · unfold UndirectedGraph at h
    rw [uInit_empty _ a he] at h; cases h
  · rw [key y hy] at h; cases h; exact hy

/-- C35: ... and it succeeds exactly on acceptable arguments (which ask for a topology) and on empty ones. -/
theorem C35_undirected_succeeds_iff (a : Args α) : (∃ g, UndirectedGraph a = .ok g) ↔ (∃ t, Asks false a t) ∨ EmptyArgs a := by
  constructor
  · rintro ⟨g, hg⟩
    rcases args_cases false a with h | h | ⟨y, hy⟩
    · exact Or.inl h
    · exact Or.inr h
    · rw [(C35_undirected_raises_iff a y).2 hy] at hg; cases hg
  · rintro (⟨t, ht⟩ | he)
    · obtain ⟨g', hg, _⟩ := uInit_asks {} a t ht rfl rfl (Or.inl rfl)
      refine ⟨{ g' with nz_index := none }, ?_⟩
      unfold UndirectedGraph
      rw [hg]
    · refine ⟨{}, ?_⟩
      unfold UndirectedGraph
      rw [uInit_empty _ a he]

/-- C35: the object built describes the topology asked for; empty arguments leave it uninitialised. -/
theorem C35_undirected_builds (a : Args α) (g : UState α) (h : UndirectedGraph a = .ok g) :
    (∀ t, Asks false a t → g.is_initialized = true ∧ DescribesU g t) ∧ (EmptyArgs a → g = {}) := by
  unfold UndirectedGraph at h
  constructor
  · intro t ht
    obtain ⟨g', hg, hi, hd⟩ := uInit_asks {} a t ht rfl rfl (Or.inl rfl)
    rw [hg] at h
    injection h with h
    subst h
    refine ⟨hi, ?_⟩
    cases t <;> exact hd
  · intro he
    rw [uInit_empty _ a he] at h
    injection h with h
    exact h.symm

/-- C35: the documented exceptions are the only ones, unless a Python list is passed. -/
theorem C35_undirected_documented (a : Args α) (x : Exc) (h : UndirectedGraph a = .error x) (ha : a.adjacency ≠ some .list)
    (hd : ∀ l, a.degree_sequence ≠ some (.list l)) (hs : ∀ l, a.strength_sequence ≠ some (.list l)) : x = .typeError ∨ x = .valueError := by
  have hb : ∀ l x, BadSeq l x → x = .typeError ∨ x = .valueError := by
    intro l x hx
    cases x <;> simp only [BadSeq] at hx <;> simp
  cases (C35_undirected_raises_iff a x).1 h with
  | adjacency_list => exact absurd rfl ha
  | degrees_list => exact absurd rfl (hd _)
  | strengths_list => exact absurd rfl (hs _)
  | degrees_items _ h => exact hb _ _ h
  | strengths_items_after _ _ _ _ _ h => exact hb _ _ h
  | strengths_items _ h => exact hb _ _ h
  | _ => simp

/-- C35 (defect): a list, documented as acceptable, always makes the undirected constructor raise `AttributeError`: as adjacency matrix, whatever else is passed, and
as (valid, non-empty) degree sequence. -/
theorem C35_undirected_lists_raise (e : Option (EdgeArg α)) (d s s' : Option SeqArg) (l : List (Option ℝ)) (hl : l ≠ []) (hg : GoodSeq l) :
    UndirectedGraph (⟨some .list, e, d, s⟩ : Args α) = .error .attributeError ∧
    UndirectedGraph (⟨none, none, some (.list l), s'⟩ : Args α) = .error .attributeError :=
  ⟨(C35_undirected_raises_iff _ _).2 .adjacency_list, (C35_undirected_raises_iff _ _).2 (.degrees_list hl hg rfl)⟩

/-- C35: a setter that raises leaves everything as it was, except possibly `n_nodes` -/
theorem C35_undirected_failed_setter (g : UState α) (o : Op α) (x : Exc) (h : (g.call o).2 = some x) :
    ∃ n, (g.call o).1 = { g with n_nodes := n } := by
  have triv : ∃ n, g = { g with n_nodes := n } := ⟨g.n_nodes, rfl⟩
  by_cases hi : g.is_initialized
  · cases o with
    | clean_edges => cases h
    | set_adjacency_matrix a => simp only [UState.call, hi, if_true] at h; cases h
    | set_edgelist a => simp only [UState.call, hi, if_true] at h; cases h
    | set_degree_sequences a => simp only [UState.call, hi, if_true] at h; cases h
  have hcall : ∀ o : Op α, o ≠ .clean_edges → g.call o = uInit g o.args := by
    intro o hc
    cases o with
    | clean_edges => exact absurd rfl hc
    | _ => simp only [UState.call, hi, Bool.false_eq_true, if_false]
  cases o with
  | clean_edges => cases h
  | set_adjacency_matrix a =>
    rw [hcall _ (by simp)] at h ⊢
    have go : ∀ sp m, (uInitAdj.go g sp m).2 = some x → ∃ n, (uInitAdj.go g sp m).1 = { g with n_nodes := n } := by
      intro sp m hh
      unfold uInitAdj.go at hh ⊢
      split_ifs at hh ⊢
      · exact triv
    cases a with
    | other => exact triv
    | list => exact triv
    | dense m => exact go false m h
    | sparse m => exact go true m h
  | set_edgelist e =>
    rw [hcall _ (by simp)] at h ⊢
    cases e with
    | other => exact triv
    | wide => exact triv
    | edges e =>
      simp only [uInit, Op.args, uInitEdges] at h ⊢
      split_ifs at h ⊢ with h1
      cases he : edgelist_from_edgelist_undirected e with
      | error y => simp only; exact triv
      | ok o => rw [he] at h; cases h
  | set_degree_sequences d =>
    rw [hcall _ (by simp)] at h ⊢
    have go : ∀ b l, (uInitDegrees.go g none l b).2 = some x → ∃ n, (uInitDegrees.go g none l b).1 = { g with n_nodes := n } := by
      intro b l hh
      unfold uInitDegrees.go at hh ⊢
      by_cases h1 : l.length > 0
      swap
      · rw [if_neg h1] at hh; cases hh
      rw [if_pos h1] at hh ⊢
      cases hc : checkSeq l with
      | error y => simp only; exact triv
      | ok v =>
        rw [hc] at hh
        cases b with
        | true => exact ⟨some v.length, rfl⟩
        | false => cases hh
    cases d with
    | other => exact triv
    | list l => exact go true l h
    | array l => exact go false l h

/-! ### C34: life cycle -/

/-- C34: on an initialised graph every setter does nothing (it prints a message). -/
theorem C34_undirected_setter_noop (g : UState α) (o : Op α) (h : g.is_initialized = true) (hc : o ≠ .clean_edges) : g.call o = (g, none) := by
  cases o with
  | clean_edges => exact absurd rfl hc
  | _ => simp only [UState.call, h, if_true]

/-- what the object satisfies when the topology `t` is in force -/
def InvU (g : UState α) : Option (Topology α) → Prop
  | none => g.is_initialized = false ∧ g.adjacency = none ∧ g.edgelist = none
  | some t => g.is_initialized = true ∧ DescribesU g t

theorem opAsks_iff (D : Bool) (o : Op α) (t : Topology α) : OpAsks D o t → Asks D o.args t ∧ ∀ s, t ≠ .strengths s := by
  intro h
  cases o with
  | clean_edges => cases h
  | set_adjacency_matrix a => exact ⟨h, fun s hs => by subst hs; cases h⟩
  | set_edgelist a => exact ⟨h, fun s hs => by subst hs; cases h⟩
  | set_degree_sequences a => exact ⟨h, fun s hs => by subst hs; cases h⟩

theorem asks_op (D : Bool) (o : Op α) (hc : o ≠ .clean_edges) (t : Topology α) (h : Asks D o.args t) : OpAsks D o t := by
  cases o with
  | clean_edges => exact absurd rfl hc
  | _ => exact h

theorem inv_calls (ops : List (Op α)) (g : UState α) (t t' : Option (Topology α)) (hI : InvU g t) (hF : InForce false t ops t') : InvU (g.calls ops) t' := by
  induction hF generalizing g with
  | nil => exact hI
  | clean t ops t' _ ih => exact ih _ ⟨rfl, rfl, rfl⟩
  | kept t o ops t' hc _ ih =>
    refine ih _ ?_
    rw [C34_undirected_setter_noop g o hI.1 hc]
    exact hI
  | set o t ops t' ha _ ih =>
    refine ih _ ?_
    obtain ⟨h1, h2⟩ := opAsks_iff false o t ha
    obtain ⟨g', hg, hi, hd⟩ := uInit_asks g o.args t h1 hI.2.1 hI.2.2 (Or.inr h2)
    have : g.call o = (g', none) := by
      cases o with
      | clean_edges => cases ha
      | _ => simp only [UState.call, hI.1, Bool.false_eq_true, if_false]; exact hg
    rw [this]
    exact ⟨hi, hd⟩
  | refused o ops t' hc hn _ ih =>
    refine ih _ ?_
    have hcall : g.call o = uInit g o.args := by
      cases o with
      | clean_edges => exact absurd rfl hc
      | _ => simp only [UState.call, hI.1, Bool.false_eq_true, if_false]
    rcases args_cases false o.args with ⟨t, ht⟩ | he | ⟨x, hx⟩
    · exact absurd ⟨t, asks_op false o hc t ht⟩ hn
    · rw [hcall, uInit_empty g _ he]; exact hI
    · have h2 : (g.call o).2 = some x := by rw [hcall]; exact uInit_complaint g _ x hx
      obtain ⟨n, hn⟩ := C35_undirected_failed_setter g o x h2
      rw [hn]; exact hI

theorem inForce_total (D : Bool) (ops : List (Op α)) (t : Option (Topology α)) : ∃ t', InForce D t ops t' := by
  induction ops generalizing t with
  | nil => exact ⟨t, .nil t⟩
  | cons o ops ih =>
    by_cases hc : o = .clean_edges
    · subst hc
      obtain ⟨t', h⟩ := ih none
      exact ⟨t', .clean t ops t' h⟩
    cases t with
    | some t =>
      obtain ⟨t', h⟩ := ih (some t)
      exact ⟨t', .kept t o ops t' hc h⟩
    | none =>
      by_cases ha : ∃ t, OpAsks D o t
      · obtain ⟨t, ha⟩ := ha
        obtain ⟨t', h⟩ := ih (some t)
        exact ⟨t', .set o t ops t' ha h⟩
      · obtain ⟨t', h⟩ := ih none
        exact ⟨t', .refused o ops t' hc ha h⟩

/-- C34: after any history of calls (construction, then setters and `clean_edges` in any order, exceptions included) the object is initialised exactly when a
topology is in force, and then its nodes, links, degrees and (for weighted topologies) strengths are those of that topology. -/
theorem C34_undirected_history (a : Args α) (g : UState α) (hg : UndirectedGraph a = .ok g) (t0 : Option (Topology α))
    (ht0 : ∀ t, t0 = some t → Asks false a t) (hn0 : t0 = none → EmptyArgs a) (ops : List (Op α)) :
    (∃ t, InForce false t0 ops t) ∧ ∀ t, InForce false t0 ops t →
      ((g.calls ops).is_initialized = true ↔ t.isSome) ∧ ∀ T, t = some T → DescribesU (g.calls ops) T := by
  refine ⟨inForce_total false ops t0, fun t hF => ?_⟩
  have hI : InvU g t0 := by
    cases t0 with
    | none =>
      have := (C35_undirected_builds a g hg).2 (hn0 rfl)
      subst this; exact ⟨rfl, rfl, rfl⟩
    | some t => exact (C35_undirected_builds a g hg).1 t (ht0 t rfl)
  have := inv_calls ops g t0 t hI hF
  cases t with
  | none =>
    refine ⟨?_, fun T h => by cases h⟩
    rw [this.1]; simp
  | some T =>
    refine ⟨by rw [this.1]; simp, fun T' h => ?_⟩
    cases h; exact this.2

/-- C34: an object built empty and then given a topology by a setter is the object the constructor builds, but for `nz_index`, which the constructor discards. -/
theorem C34_undirected_setter_equals_constructor (o : Op α) (hc : o ≠ .clean_edges) (g : UState α) (h : UndirectedGraph o.args = .ok g) :
    UndirectedGraph ({} : Args α) = .ok {} ∧ ∃ z, ((({} : UState α).call o) = ({ g with nz_index := z }, none)) ∧ g.nz_index = none := by
  refine ⟨rfl, ?_⟩
  have hcall : ({} : UState α).call o = uInit {} o.args := by
    cases o with
    | clean_edges => exact absurd rfl hc
    | _ => rfl
  rw [hcall]
  unfold UndirectedGraph at h
  cases hu : uInit ({} : UState α) o.args with
  | mk g' x =>
    rw [hu] at h
    cases x with
    | some x => cases h
    | none =>
      injection h with h
      subst h
      exact ⟨g'.nz_index, rfl, rfl⟩

/-- the complete graph on three nodes with weights 2 -/
def heavyTriangle : SqMat := ⟨3, fun i j => if i = j then 0 else 2⟩
/-- a single link -/
def oneLink : SqMat := ⟨2, fun i j => if i = j then 0 else 1⟩

theorem heavyTriangle_not_binary : ¬ looksBinary heavyTriangle := by
  unfold looksBinary heavyTriangle
  simp only [gt_iff_lt, Fin.sum_univ_three, Fin.isValue, Fin.reduceEq, if_true, if_false]
  norm_num

theorem oneLink_binary : looksBinary oneLink := by
  unfold looksBinary oneLink
  simp only [gt_iff_lt, Fin.sum_univ_two, Fin.isValue, Fin.reduceEq, if_true, if_false]
  norm_num

theorem nonNeg_heavyTriangle : NonNeg heavyTriangle := by
  intro i j
  show (0 : ℝ) ≤ if i = j then 0 else 2
  split_ifs <;> norm_num

theorem nonNeg_oneLink : NonNeg oneLink := by
  intro i j
  show (0 : ℝ) ≤ if i = j then 0 else 1
  split_ifs <;> norm_num

theorem heavy_heavyTriangle : Heavy heavyTriangle := (looksBinary_iff _).1 heavyTriangle_not_binary

/-- C34 (defect): `clean_edges` leaves the strengths and the weighted flag behind: whatever the graph was, after `clean_edges` and `set_adjacency_matrix` with a
matrix whose total weight is its number of links it has the nodes and the matrix of the new graph and the strengths and flag of the old one. -/
theorem C34_undirected_clean_keeps_strengths (g : UState α) (m : SqMat) (hn : 0 < m.n) (hm : NonNeg m) (hb : ¬ Heavy m) :
    let g' := g.calls [.clean_edges, .set_adjacency_matrix (.dense m)]
    g'.n_nodes = some m.n ∧ g'.adjacency = some m ∧ g'.is_weighted = g.is_weighted ∧ g'.strength_sequence = g.strength_sequence := by
  classical
  have hb' : looksBinary m := by rw [← looksBinary_iff, not_not] at hb; exact hb
  simp only [UState.calls, UState.call, Bool.false_eq_true, if_false, Op.args, uInit, uInitAdj, uInitAdj.go, if_pos ((size_dense m).2 hn),
    if_neg (not_hasNegative.2 hm), if_pos hb', List.length_ofFn, and_self]

/-- C34 (defect): so a three-node weighted graph that is cleaned and given a two-node binary adjacency matrix has two nodes, is still flagged as weighted, and has
three strengths. -/
theorem C34_undirected_stale_strengths : ∃ g : UState ℕ, UndirectedGraph { adjacency := some (.dense heavyTriangle) } = .ok g ∧
    let g' := g.calls [.clean_edges, .set_adjacency_matrix (.dense oneLink)]
    g'.n_nodes = some 2 ∧ g'.adjacency = some oneLink ∧ g'.is_weighted = true ∧ g'.strength_sequence = some [4, 4, 4] := by
  have ha : Asks false ({ adjacency := some (.dense heavyTriangle) } : Args ℕ) (.matrix heavyTriangle) := .dense nonNeg_heavyTriangle (by decide)
  obtain ⟨g, hg⟩ := (C35_undirected_succeeds_iff _).2 (Or.inl ⟨_, ha⟩)
  obtain ⟨_, _, _, _, _, hw⟩ := (C35_undirected_builds _ g hg).1 _ ha |>.2
  obtain ⟨hw, hs⟩ := hw heavy_heavyTriangle
  obtain ⟨h1, h2, h3, h4⟩ := C34_undirected_clean_keeps_strengths g oneLink (by decide) nonNeg_oneLink (by rw [← looksBinary_iff, not_not]; exact oneLink_binary)
  refine ⟨g, hg, h1, h2, h3.trans hw, h4.trans (hs.trans ?_)⟩
  congr 1
  show List.ofFn (fun i : Fin 3 => ∑ j : Fin 3, if i = j then (0 : ℝ) else 2) = _
  simp [Fin.sum_univ_three]
  norm_num

/-- C34 / C35: the hypotheses are met by a weighted edge list with node names. -/
example : ∃ g : UState ℕ, UndirectedGraph { edgelist := some (.edges (.weighted [(7, 3, 2.5), (3, 9, 1)])) } = .ok g ∧
    Asks false { edgelist := some (.edges (.weighted [(7, 3, 2.5), (3, 9, 1)])) } (.weightedLinks [(7, 3, 2.5), (3, 9, 1)]) := by
  have h : Asks false ({ edgelist := some (.edges (.weighted [(7, 3, 2.5), (3, 9, 1)])) } : Args ℕ) (.weightedLinks [(7, 3, 2.5), (3, 9, 1)]) :=
    .weightedLinks (by simp)
  obtain ⟨g, hg⟩ := (C35_undirected_succeeds_iff _).2 (Or.inl ⟨_, h⟩)
  exact ⟨g, hg, h⟩

/-- a history in which a setter is refused, one is ignored, and the graph is cleaned -/
example : InForce (α := ℕ) false none [.set_edgelist .wide, .set_degree_sequences (.array [some 1, some 1]), .set_edgelist (.edges (.binary [(1, 2)])), .clean_edges,
    .set_edgelist (.edges (.binary [(1, 2)]))] (some (.links [(1, 2)])) := by
  refine .refused _ _ _ (by simp) (by rintro ⟨t, h⟩; cases h) ?_
  refine .set _ (.degrees (numbers [some 1, some 1])) _ _ ?_ ?_
  · refine Asks.degrees (l := [some 1, some 1]) (Or.inl rfl) ?_ (by simp) (by simp) (Or.inl rfl)
    intro o ho
    simp at ho
    exact ⟨1, ho, by norm_num⟩
  · refine .kept _ _ _ _ (by simp) (.clean _ _ _ (.set _ _ _ _ (Asks.links (by simp)) (.nil _)))

end undirected

section directed
variable {α : Type} [LinearOrder α]

/-- C35 (directed): the constructor raises `x` exactly for the listed reasons ... -/
theorem C35_directed_raises_iff (a : Args α) (x : Exc) : DirectedGraph a = .error x ↔ Complaint true a x := by
  have key : ∀ y, Complaint true a y → DirectedGraph a = .error y := by
    intro y h
    have := dInit_complaint {} a y h
    unfold DirectedGraph
    cases hu : dInit ({} : DState α) a with
    | mk g o => rw [hu] at this; simp only at this; subst this; rfl
  refine ⟨fun h => ?_, key x⟩
  rcases args_cases true a with ⟨t, ht⟩ | he | ⟨y, hy⟩
  · obtain ⟨g', hg, _⟩ := dInit_asks {} a t ht rfl rfl (Or.inl ⟨rfl, rfl⟩)
    unfold DirectedGraph at h
    rw [hg] at h; cases h
  · unfold DirectedGraph at h
    rw [dInit_empty _ a he] at h; cases h
  · rw [key y hy] at h; cases h; exact hy

/-- C35 (directed): ... and succeeds exactly on acceptable arguments and on empty ones. -/
theorem C35_directed_succeeds_iff (a : Args α) : (∃ g, DirectedGraph a = .ok g) ↔ (∃ t, Asks true a t) ∨ EmptyArgs a := by
  constructor
  · rintro ⟨g, hg⟩
    rcases args_cases true a with h | h | ⟨y, hy⟩
    · exact Or.inl h
    · exact Or.inr h
    · rw [(C35_directed_raises_iff a y).2 hy] at hg; cases hg
  · rintro (⟨t, ht⟩ | he)
    · obtain ⟨g', hg, _⟩ := dInit_asks {} a t ht rfl rfl (Or.inl ⟨rfl, rfl⟩)
      refine ⟨g', ?_⟩
      unfold DirectedGraph
      rw [hg]
    · refine ⟨{}, ?_⟩
      unfold DirectedGraph
      rw [dInit_empty _ a he]

/-- C35 (directed): the object built describes the topology asked for; empty arguments leave it uninitialised. -/
theorem C35_directed_builds (a : Args α) (g : DState α) (h : DirectedGraph a = .ok g) :
    (∀ t, Asks true a t → g.is_initialized = true ∧ DescribesD g t) ∧ (EmptyArgs a → g = {}) := by
  unfold DirectedGraph at h
  constructor
  · intro t ht
    obtain ⟨g', hg, hi, hd⟩ := dInit_asks {} a t ht rfl rfl (Or.inl ⟨rfl, rfl⟩)
    rw [hg] at h
    injection h with h
    subst h
    exact ⟨hi, hd⟩
  · intro he
    rw [dInit_empty _ a he] at h
    injection h with h
    exact h.symm

/-- C35 (directed): the documented exceptions are the only ones, unless the adjacency matrix is a Python list, which always raises `AttributeError`. -/
theorem C35_directed_documented (a : Args α) (x : Exc) (h : DirectedGraph a = .error x) :
    (x = .typeError ∨ x = .valueError) ∨ (x = .attributeError ∧ a.adjacency = some .list) := by
  have hb : ∀ l x, BadSeq l x → x = .typeError ∨ x = .valueError := by
    intro l x hx
    cases x <;> simp only [BadSeq] at hx <;> simp
  cases (C35_directed_raises_iff a x).1 h with
  | adjacency_list => exact Or.inr ⟨rfl, rfl⟩
  | degrees_list _ _ hd => cases hd
  | strengths_list _ _ hd => cases hd
  | degrees_items _ h => exact Or.inl (hb _ _ h)
  | strengths_items_after _ _ _ _ _ h => exact Or.inl (hb _ _ h)
  | strengths_items _ h => exact Or.inl (hb _ _ h)
  | _ => simp

/-- C35 (defect): a directed graph accepts degree and strength sequences for different numbers of nodes: two nodes with degrees and three with strengths make a graph
with three nodes and two out-degrees. -/
theorem C35_directed_length_mismatch_accepted : ∃ g : DState ℕ,
    DirectedGraph { degree_sequence := some (.array [some 1, some 1, some 1, some 1]),
                    strength_sequence := some (.array [some 1, some 1, some 1, some 1, some 1, some 1]) } = .ok g ∧
    g.n_nodes = some 3 ∧ g.dseq_out = some [1, 1] ∧ g.out_strength = some [1, 1, 1] := by
  have hg : ∀ k : ℕ, GoodSeq (List.replicate k (some (1 : ℝ))) := by
    intro k o ho
    exact ⟨1, (List.mem_replicate.1 ho).2, by norm_num⟩
  have e4 : checkSeq [some (1 : ℝ), some 1, some 1, some 1] = .ok [1, 1, 1, 1] := checkSeq_good (hg 4)
  have e6 : checkSeq [some (1 : ℝ), some 1, some 1, some 1, some 1, some 1] = .ok [1, 1, 1, 1, 1, 1] := checkSeq_good (hg 6)
  simp [DirectedGraph, dInit, dInitDegrees, dInitDegrees.go, dInitStrengths, dInitStrengths.go, e4, e6]

/-- C35 (directed): a setter that raises leaves the object as it was. -/
theorem C35_directed_failed_setter (g : DState α) (o : Op α) (x : Exc) (h : (g.call o).2 = some x) : (g.call o).1 = g := by
  by_cases hi : g.is_initialized
  · cases o with
    | clean_edges => cases h
    | set_adjacency_matrix a => simp only [DState.call, hi, if_true] at h; cases h
    | set_edgelist a => simp only [DState.call, hi, if_true] at h; cases h
    | set_degree_sequences a => simp only [DState.call, hi, if_true] at h; cases h
  have hcall : ∀ o : Op α, o ≠ .clean_edges → g.call o = dInit g o.args := by
    intro o hc
    cases o with
    | clean_edges => exact absurd rfl hc
    | _ => simp only [DState.call, hi, Bool.false_eq_true, if_false]
  cases o with
  | clean_edges => cases h
  | set_adjacency_matrix a =>
    rw [hcall _ (by simp)] at h ⊢
    have go : ∀ sp m, (dInitAdj.go g sp m).2 = some x → (dInitAdj.go g sp m).1 = g := by
      intro sp m hh
      unfold dInitAdj.go at hh ⊢
      split_ifs at hh ⊢
      · rfl
    cases a with
    | other => rfl
    | list => rfl
    | dense m => exact go false m h
    | sparse m => exact go true m h
  | set_edgelist e =>
    rw [hcall _ (by simp)] at h ⊢
    cases e with
    | other => rfl
    | wide => rfl
    | edges e =>
      simp only [dInit, Op.args, dInitEdges] at h ⊢
      split_ifs at h ⊢ with h1
      cases he : edgelist_from_edgelist_directed e with
      | error y => simp only
      | ok o => rw [he] at h; cases h
  | set_degree_sequences d =>
    rw [hcall _ (by simp)] at h ⊢
    have go : ∀ l, (dInitDegrees.go g none l).2 = some x → (dInitDegrees.go g none l).1 = g := by
      intro l hh
      unfold dInitDegrees.go at hh ⊢
      split_ifs at hh ⊢ with h1
      cases hc : checkSeq l with
      | error y => simp only
      | ok v =>
        rw [hc] at hh
        simp only at hh ⊢
        split_ifs at hh ⊢
        rfl
    cases d with
    | other => rfl
    | list l => exact go l h
    | array l => exact go l h

/-- C34 (directed): on an initialised graph every setter does nothing. -/
theorem C34_directed_setter_noop (g : DState α) (o : Op α) (h : g.is_initialized = true) (hc : o ≠ .clean_edges) : g.call o = (g, none) := by
  cases o with
  | clean_edges => exact absurd rfl hc
  | _ => simp only [DState.call, h, if_true]

/-- what the object satisfies when the topology `t` is in force -/
def InvD (g : DState α) : Option (Topology α) → Prop
  | none => g.is_initialized = false ∧ g.adjacency = none ∧ g.edgelist = none
  | some t => g.is_initialized = true ∧ DescribesD g t

theorem invD_calls (ops : List (Op α)) (g : DState α) (t t' : Option (Topology α)) (hI : InvD g t) (hF : InForce true t ops t') : InvD (g.calls ops) t' := by
  induction hF generalizing g with
  | nil => exact hI
  | clean t ops t' _ ih => exact ih _ ⟨rfl, rfl, rfl⟩
  | kept t o ops t' hc _ ih =>
    refine ih _ ?_
    rw [C34_directed_setter_noop g o hI.1 hc]
    exact hI
  | set o t ops t' ha _ ih =>
    refine ih _ ?_
    obtain ⟨h1, h2⟩ := opAsks_iff true o t ha
    obtain ⟨g', hg, hi, hd⟩ := dInit_asks g o.args t h1 hI.2.1 hI.2.2 (Or.inr h2)
    have : g.call o = (g', none) := by
      cases o with
      | clean_edges => cases ha
      | _ => simp only [DState.call, hI.1, Bool.false_eq_true, if_false]; exact hg
    rw [this]
    exact ⟨hi, hd⟩
  | refused o ops t' hc hn _ ih =>
    refine ih _ ?_
    have hcall : g.call o = dInit g o.args := by
      cases o with
      | clean_edges => exact absurd rfl hc
      | _ => simp only [DState.call, hI.1, Bool.false_eq_true, if_false]
    rcases args_cases true o.args with ⟨t, ht⟩ | he | ⟨x, hx⟩
    · exact absurd ⟨t, asks_op true o hc t ht⟩ hn
    · rw [hcall, dInit_empty g _ he]; exact hI
    · have h2 : (g.call o).2 = some x := by rw [hcall]; exact dInit_complaint g _ x hx
      rw [C35_directed_failed_setter g o x h2]; exact hI

/-- C34 (directed): after any history of calls the object is initialised exactly when a topology is in force, and then its nodes, links, degrees and (for weighted
topologies) strengths are those of that topology. -/
theorem C34_directed_history (a : Args α) (g : DState α) (hg : DirectedGraph a = .ok g) (t0 : Option (Topology α))
    (ht0 : ∀ t, t0 = some t → Asks true a t) (hn0 : t0 = none → EmptyArgs a) (ops : List (Op α)) :
    (∃ t, InForce true t0 ops t) ∧ ∀ t, InForce true t0 ops t →
      ((g.calls ops).is_initialized = true ↔ t.isSome) ∧ ∀ T, t = some T → DescribesD (g.calls ops) T := by
  refine ⟨inForce_total true ops t0, fun t hF => ?_⟩
  have hI : InvD g t0 := by
    cases t0 with
    | none =>
      have := (C35_directed_builds a g hg).2 (hn0 rfl)
      subst this; exact ⟨rfl, rfl, rfl⟩
    | some t => exact (C35_directed_builds a g hg).1 t (ht0 t rfl)
  have := invD_calls ops g t0 t hI hF
  cases t with
  | none =>
    refine ⟨?_, fun T h => by cases h⟩
    rw [this.1]; simp
  | some T =>
    refine ⟨by rw [this.1]; simp, fun T' h => ?_⟩
    cases h; exact this.2

/-- C34 (directed): an object built empty and then given a topology by a setter is the object the constructor builds. -/
theorem C34_directed_setter_equals_constructor (o : Op α) (hc : o ≠ .clean_edges) (g : DState α) (h : DirectedGraph o.args = .ok g) :
    DirectedGraph ({} : Args α) = .ok {} ∧ ({} : DState α).call o = (g, none) := by
  refine ⟨rfl, ?_⟩
  have hcall : ({} : DState α).call o = dInit {} o.args := by
    cases o with
    | clean_edges => exact absurd rfl hc
    | _ => rfl
  rw [hcall]
  unfold DirectedGraph at h
  cases hu : dInit ({} : DState α) o.args with
  | mk g' x =>
    rw [hu] at h
    cases x with
    | some x => cases h
    | none => injection h with h; subst h; rfl

/-- C34 (defect): a directed graph built from a weighted edge list has strengths but is not flagged as weighted, and the index sets that the dense CReMa functions
iterate over stay `None`; the undirected class does set the flag. -/
theorem C34_directed_weighted_edgelist_not_flagged (l : List (α × α × ℝ)) (hl : l ≠ []) :
    (∃ g : DState α, DirectedGraph { edgelist := some (.edges (.weighted l)) } = .ok g ∧ (∃ s, g.out_strength = some s) ∧ g.is_weighted = false ∧
      g.nz_index_sout = none ∧ g.nz_index_sin = none) ∧
    ∃ g : UState α, UndirectedGraph { edgelist := some (.edges (.weighted l)) } = .ok g ∧ g.is_weighted = true := by
  constructor
  · obtain ⟨g', hg, hi, hd, h1, h2, h3⟩ := dInit_weightedLinks ({} : DState α) l hl rfl
    refine ⟨g', ?_, ?_, h1, h2, h3⟩
    · unfold DirectedGraph dInit
      simp only [hg]
    · obtain ⟨_, _, _, _, _, s, _, _, _, _, _, hs, _⟩ := hd
      exact ⟨s, hs⟩
  · have ha : Asks false ({ edgelist := some (.edges (.weighted l)) } : Args α) (.weightedLinks l) := .weightedLinks hl
    obtain ⟨g, hg⟩ := (C35_undirected_succeeds_iff _).2 (Or.inl ⟨_, ha⟩)
    obtain ⟨_, _, _, _, _, _, _, _, _, _, hw, _⟩ := (C35_undirected_builds _ g hg).1 _ ha
    exact ⟨g, hg, hw⟩

/-- C34 (defect, directed): strengths and weighted flag survive `clean_edges` and a new binary matrix. -/
theorem C34_directed_clean_keeps_strengths (g : DState α) (m : SqMat) (hn : 0 < m.n) (hm : NonNeg m) (hb : ¬ Heavy m) :
    let g' := g.calls [.clean_edges, .set_adjacency_matrix (.dense m)]
    g'.n_nodes = some m.n ∧ g'.adjacency = some m ∧ g'.is_weighted = g.is_weighted ∧ g'.out_strength = g.out_strength ∧ g'.in_strength = g.in_strength := by
  classical
  have hb' : looksBinary m := by rw [← looksBinary_iff, not_not] at hb; exact hb
  simp only [DState.calls, DState.call, Bool.false_eq_true, if_false, Op.args, dInit, dInitAdj, dInitAdj.go, if_pos ((size_dense m).2 hn),
    if_neg (not_hasNegative.2 hm), if_pos hb', List.length_ofFn, and_self]

/-- C34 (defect, directed): a two-node binary graph with three stale strengths. -/
theorem C34_directed_stale_strengths : ∃ (g : DState ℕ), DirectedGraph { adjacency := some (.dense heavyTriangle) } = .ok g ∧
    let g' := g.calls [.clean_edges, .set_adjacency_matrix (.dense oneLink)]
    g'.n_nodes = some 2 ∧ g'.is_weighted = true ∧ g'.out_strength = some [4, 4, 4] := by
  have ha : Asks true ({ adjacency := some (.dense heavyTriangle) } : Args ℕ) (.matrix heavyTriangle) := .dense nonNeg_heavyTriangle (by decide)
  obtain ⟨g, hg⟩ := (C35_directed_succeeds_iff _).2 (Or.inl ⟨_, ha⟩)
  obtain ⟨_, _, _, _, _, _, hw⟩ := (C35_directed_builds _ g hg).1 _ ha |>.2
  obtain ⟨hw, hs, _⟩ := hw heavy_heavyTriangle
  obtain ⟨h1, h2, h3, h4, _⟩ := C34_directed_clean_keeps_strengths g oneLink (by decide) nonNeg_oneLink (by rw [← looksBinary_iff, not_not]; exact oneLink_binary)
  refine ⟨g, hg, h1, h3.trans hw, h4.trans (hs.trans ?_)⟩
  congr 1
  show List.ofFn (fun i : Fin 3 => ∑ j : Fin 3, if i = j then (0 : ℝ) else 2) = _
  simp [Fin.sum_univ_three]
  norm_num

/-- the hypotheses of the directed theorems are met by degree and strength sequences -/
example : Asks (α := ℕ) true { degree_sequence := some (.list [some 1, some 0, some 0, some 1]), strength_sequence := some (.array [some 3, some 0, some 0, some 3]) }
    (.degreesStrengths [1, 0, 0, 1] [3, 0, 0, 3]) := by
  have g1 : GoodSeq [some (1 : ℝ), some 0, some 0, some 1] := by
    intro o ho
    simp only [List.mem_cons, List.not_mem_nil, or_false] at ho
    rcases ho with rfl | rfl | rfl | rfl <;> exact ⟨_, rfl, by norm_num⟩
  have g2 : GoodSeq [some (3 : ℝ), some 0, some 0, some 3] := by
    intro o ho
    simp only [List.mem_cons, List.not_mem_nil, or_false] at ho
    rcases ho with rfl | rfl | rfl | rfl <;> exact ⟨_, rfl, by norm_num⟩
  exact .degreesStrengths (Or.inr ⟨rfl, rfl⟩) g1 (by simp) (by simp) (Or.inl rfl) g2 (by simp) (by simp) (by simp)

end directed

end Verif.Graph
