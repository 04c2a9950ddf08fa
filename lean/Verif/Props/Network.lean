import Verif.Lemmas.Network
import Verif.Spec.Network
import Mathlib.Data.Set.Card
import Mathlib.Algebra.Order.BigOperators.Group.Finset

/-! C25 (adjacency from edge list), C26 (degrees and strengths), C27 (relabelling of edge lists). -/

namespace Verif.Net

open Finset Spec

/-! ### C25 -/

/-- C25: for an edge list whose labels are exactly `0, …, n-1` the dense builder returns the `n × n` 0/1 matrix of the listed edges (in both directions if undirected). -/
theorem C25_binary {n : ℕ} (el : List (ℕ × ℕ)) (d : Bool) (h : ∀ k, k < n ↔ ∃ e ∈ el, e.1 = k ∨ e.2 = k) :
    build_adjacency_from_edgelist (.binary el) d false false =
      .ok ⟨n, fun i j => if (i.val, j.val) ∈ el ∨ (d = false ∧ (j.val, i.val) ∈ el) then 1 else 0⟩ := by
  show build_adjacency_fast el d = _
  rw [fast_eq, weighted_ok (n := n)]
  · congr 2
    funext i j
    classical
    rw [lastWrite_one _ _ _ (fun e he => by obtain ⟨e', _, rfl⟩ := List.mem_map.1 he; rfl)]
    refine if_congr ?_ rfl rfl
    constructor
    · rintro ⟨e, he, hh⟩
      obtain ⟨e', he', rfl⟩ := List.mem_map.1 he
      obtain ⟨a, b⟩ := e'
      rcases hh with ⟨h1, h2⟩ | ⟨hd, h1, h2⟩
      · simp only at h1 h2; subst h1 h2; exact Or.inl he'
      · simp only at h1 h2; subst h1 h2; exact Or.inr ⟨hd, he'⟩
    · rintro (hm | ⟨hd, hm⟩)
      · exact ⟨_, List.mem_map_of_mem hm, Or.inl ⟨rfl, rfl⟩⟩
      · exact ⟨_, List.mem_map_of_mem hm, Or.inr ⟨hd, rfl, rfl⟩⟩
  · intro k
    rw [h k]
    constructor
    · rintro ⟨e, he, hk⟩; exact ⟨_, List.mem_map_of_mem he, hk⟩
    · rintro ⟨e, he, hk⟩
      obtain ⟨e', he', rfl⟩ := List.mem_map.1 he
      exact ⟨e', he', hk⟩

/-- C25: with a third column, the weighted dense builder stores in every cell the weight of the last listed edge that names it (either direction if undirected), and
zero if there is none. -/
theorem C25_weighted {n : ℕ} (el : List (ℕ × ℕ × ℝ)) (d : Bool) (h : ∀ k, k < n ↔ ∃ e ∈ el, e.1 = k ∨ e.2.1 = k) :
    ∃ a : Fin n → Fin n → ℝ, build_adjacency_from_edgelist (.weighted el) d false true = .ok ⟨n, a⟩ ∧
      ∀ i j : Fin n, match (el.filter fun e => decide ((e.1 = i.val ∧ e.2.1 = j.val) ∨ (d = false ∧ e.1 = j.val ∧ e.2.1 = i.val))).getLast? with
        | some e => a i j = e.2.2
        | none => a i j = 0 := by
  refine ⟨_, weighted_ok el d h, fun i j => ?_⟩
  unfold lastWrite
  cases hc : (el.filter fun e => decide ((e.1 = i.val ∧ e.2.1 = j.val) ∨ (d = false ∧ e.1 = j.val ∧ e.2.1 = i.val))).getLast? <;> rfl

/-- C25: if no pair of nodes is listed twice (in any direction, when undirected), every listed weight is stored. -/
theorem C25_weighted_stored {n : ℕ} (el : List (ℕ × ℕ × ℝ)) (d : Bool) (h : ∀ k, k < n ↔ ∃ e ∈ el, e.1 = k ∨ e.2.1 = k)
    (huniq : ∀ e ∈ el, ∀ e' ∈ el, (e'.1 = e.1 ∧ e'.2.1 = e.2.1) ∨ (d = false ∧ e'.1 = e.2.1 ∧ e'.2.1 = e.1) → e'.2.2 = e.2.2) :
    ∃ a : Fin n → Fin n → ℝ, build_adjacency_from_edgelist (.weighted el) d false true = .ok ⟨n, a⟩ ∧
      ∀ i j : Fin n, ∀ w : ℝ, (i.val, j.val, w) ∈ el → a i j = w ∧ (d = false → a j i = w) := by
  obtain ⟨a, ha, hspec⟩ := C25_weighted el d h
  have key : ∀ i j : Fin n, ∀ w : ℝ, ((i.val, j.val, w) ∈ el ∨ (d = false ∧ (j.val, i.val, w) ∈ el)) → a i j = w := by
    intro i j w hw
    have hs := hspec i j
    cases hc : (el.filter fun e => decide ((e.1 = i.val ∧ e.2.1 = j.val) ∨ (d = false ∧ e.1 = j.val ∧ e.2.1 = i.val))).getLast? with
    | none =>
      rw [List.getLast?_eq_none_iff, List.filter_eq_nil_iff] at hc
      rcases hw with hw | ⟨hd, hw⟩
      · exact absurd (hc _ hw) (by simp)
      · exact absurd (hc _ hw) (by simp [hd])
    | some e =>
      rw [hc] at hs
      have hm := List.mem_of_getLast? hc
      rw [List.mem_filter, decide_eq_true_eq] at hm
      rw [hs]
      rcases hw with hw | ⟨hd, hw⟩
      · exact huniq _ hw e hm.1 hm.2
      · refine huniq _ hw e hm.1 ?_
        rcases hm.2 with ⟨h1, h2⟩ | ⟨_, h1, h2⟩
        · exact Or.inr ⟨hd, h1, h2⟩
        · exact Or.inl ⟨h1, h2⟩
  exact ⟨a, ha, fun i j w hw => ⟨key i j w (Or.inl hw), fun hd => key j i w (Or.inr ⟨hd, hw⟩)⟩⟩

/-- C25: an undirected adjacency matrix, binary or weighted, is symmetric. -/
theorem C25_symmetric (el : List (ℕ × ℕ × ℝ)) (wt : Bool) (m : SqMat) (h : build_adjacency_from_edgelist (.weighted el) false false wt = .ok m) :
    ∀ i j, m.val i j = m.val j i := by
  have main : ∀ l : List (ℕ × ℕ × ℝ), build_adjacency_fast_weighted l false = .ok m → ∀ i j, m.val i j = m.val j i := by
    intro l hl i j
    by_cases hn : ∃ n, ∀ k, k < n ↔ ∃ e ∈ l, e.1 = k ∨ e.2.1 = k
    · obtain ⟨n, hn⟩ := hn
      rw [weighted_ok l false hn] at hl
      injection hl with hl
      subst hl
      unfold lastWrite
      simp only
      have : (fun e : ℕ × ℕ × ℝ => decide (hits false i j e)) = fun e => decide (hits false j i e) := by
        funext e; simp only [hits, true_and]; congr 1; rw [or_comm]
      rw [this]
    · rw [weighted_bad l false hn] at hl; cases hl
  cases wt
  · have : build_adjacency_fast (el.map fun e => (e.1, e.2.1)) false = .ok m := h
    rw [fast_eq] at this
    exact main _ this
  · exact main _ h

/-- C25: the outcome for a binary edge list depends only on the *set* of listed edges: order and repetitions are irrelevant (also for the failing case). -/
theorem C25_order_irrelevant (el el' : List (ℕ × ℕ)) (d : Bool) (h : ∀ e, e ∈ el ↔ e ∈ el') :
    build_adjacency_from_edgelist (.binary el) d false false = build_adjacency_from_edgelist (.binary el') d false false := by
  by_cases hn : ∃ n, ∀ k, k < n ↔ ∃ e ∈ el, e.1 = k ∨ e.2 = k
  · obtain ⟨n, hn⟩ := hn
    have hn' : ∀ k, k < n ↔ ∃ e ∈ el', e.1 = k ∨ e.2 = k := by intro k; rw [hn k]; simp only [h]
    rw [C25_binary el d hn, C25_binary el' d hn']
    simp only [h]
  · have hbad : ∀ l : List (ℕ × ℕ), (¬ ∃ n, ∀ k, k < n ↔ ∃ e ∈ l, e.1 = k ∨ e.2 = k) → build_adjacency_fast l d = .error .outOfBounds := by
      intro l hl
      rw [fast_eq]
      refine weighted_bad _ _ ?_
      rintro ⟨n, hn⟩
      refine hl ⟨n, fun k => ?_⟩
      rw [hn k]
      simp only [List.mem_map, exists_exists_and_eq_and]
    have h1 := hbad el hn
    have h2 := hbad el' (by simpa only [h] using hn)
    show build_adjacency_fast el d = build_adjacency_fast el' d
    rw [h1, h2]

/-- C25: the dense builder succeeds exactly on the edge lists whose labels are `0, …, n-1` for some `n`; otherwise it writes out of bounds. -/
theorem C25_succeeds_iff (el : List (ℕ × ℕ)) (d : Bool) :
    ((∃ m, build_adjacency_from_edgelist (.binary el) d false false = .ok m) ↔ ∃ n, ∀ k, k < n ↔ ∃ e ∈ el, e.1 = k ∨ e.2 = k) ∧
    ((¬ ∃ n, ∀ k, k < n ↔ ∃ e ∈ el, e.1 = k ∨ e.2 = k) → build_adjacency_from_edgelist (.binary el) d false false = .error .outOfBounds) := by
  have hbad : (¬ ∃ n, ∀ k, k < n ↔ ∃ e ∈ el, e.1 = k ∨ e.2 = k) → build_adjacency_from_edgelist (.binary el) d false false = .error .outOfBounds := by
    intro hl
    show build_adjacency_fast el d = _
    rw [fast_eq]
    refine weighted_bad _ _ ?_
    rintro ⟨n, hn⟩
    refine hl ⟨n, fun k => ?_⟩
    rw [hn k]
    simp only [List.mem_map, exists_exists_and_eq_and]
  refine ⟨⟨fun ⟨m, hm⟩ => ?_, fun ⟨n, hn⟩ => ⟨_, C25_binary el d hn⟩⟩, hbad⟩
  by_contra hc
  rw [hbad hc] at hm; cases hm

/-- C25: with `is_sparse=True` every numeric edge list, weighted or not, directed or not, raises `TypeError`. -/
theorem C25_sparse_always_raises (l : List (ℕ × ℕ)) (lw : List (ℕ × ℕ × ℝ)) (d wt : Bool) :
    build_adjacency_from_edgelist (.binary l) d true false = .error .typeError ∧
    build_adjacency_from_edgelist (.weighted lw) d true wt = .error .typeError := by
  constructor
  · cases d <;> rfl
  · cases d <;> cases wt <;> rfl

/-- C25: anything that is not an array raises `TypeError`. -/
theorem C25_not_array (d sp wt : Bool) : build_adjacency_from_edgelist .notArray d sp wt = .error .typeError := rfl

/-- an edge list with labels exactly `0, 1, 2` -/
example : ∀ k, k < 3 ↔ ∃ e ∈ ([(0, 1), (2, 1), (0, 1)] : List (ℕ × ℕ)), e.1 = k ∨ e.2 = k := by
  intro k
  simp only [List.mem_cons, List.not_mem_nil, or_false, exists_eq_or_imp, exists_eq_left]
  omega

/-- and one without: node 1 has no edge -/
example : ¬ ∃ n, ∀ k, k < n ↔ ∃ e ∈ ([(0, 2)] : List (ℕ × ℕ)), e.1 = k ∨ e.2 = k := by
  rintro ⟨n, hn⟩
  have h2 := (hn 2).2 ⟨(0, 2), by simp, Or.inr rfl⟩
  obtain ⟨e, he, hk⟩ := (hn 1).1 (by omega)
  simp at he
  subst he
  simp at hk

/-! ### C26 -/

section C26
variable {n : ℕ}

/-- C26: the out-degree of `i` is the number of nodes `j` with `a i j > 0`, the in-degree of `j` the number of nodes `i` with `a i j > 0`. -/
theorem C26_degrees_count (a : Fin n → Fin n → ℝ) (i : Fin n) :
    out_degree a i = Set.ncard {j | a i j > 0} ∧ degree a i = Set.ncard {j | a i j > 0} ∧ in_degree a i = Set.ncard {j | a j i > 0} := by
  classical
  have h : ∀ P : Fin n → Prop, (∑ j, if P j then (1 : ℕ) else 0) = Set.ncard {j | P j} := by
    intro P
    rw [← Finset.card_filter, ← Set.ncard_coe_finset]
    congr 1; ext j; simp
  refine ⟨?_, ?_, ?_⟩
  · rw [← h]; unfold out_degree; exact sum_congr rfl fun j _ => if_congr Iff.rfl rfl rfl
  · rw [← h]; unfold degree; exact sum_congr rfl fun j _ => if_congr Iff.rfl rfl rfl
  · rw [← h]; unfold in_degree; exact sum_congr rfl fun j _ => if_congr Iff.rfl rfl rfl

/-- C26: the out-degrees and the in-degrees of a network have the same sum, and so have the strengths. -/
theorem C26_totals (a : Fin n → Fin n → ℝ) :
    ∑ i, out_degree a i = ∑ i, in_degree a i ∧ ∑ i, out_strength a i = ∑ i, in_strength a i :=
  ⟨sum_comm, sum_comm⟩

/-- C26: in a symmetric matrix in-, out- and undirected quantities coincide. -/
theorem C26_symmetric (a : Fin n → Fin n → ℝ) (hs : ∀ i j, a i j = a j i) (i : Fin n) :
    in_degree a i = out_degree a i ∧ degree a i = out_degree a i ∧ in_strength a i = out_strength a i ∧ strength a i = out_strength a i := by
  refine ⟨?_, rfl, ?_, rfl⟩
  · unfold in_degree out_degree; exact sum_congr rfl fun j _ => by rw [hs]
  · unfold in_strength out_strength; exact sum_congr rfl fun j _ => hs j i

/-- C26: a degree is at most `n`, and at most `n - 1` for a node without self loop. -/
theorem C26_bounds (a : Fin n → Fin n → ℝ) (i : Fin n) :
    (degree a i ≤ n ∧ out_degree a i ≤ n ∧ in_degree a i ≤ n) ∧
    (a i i ≤ 0 → degree a i ≤ n - 1 ∧ out_degree a i ≤ n - 1 ∧ in_degree a i ≤ n - 1) := by
  classical
  obtain ⟨h1, h2, h3⟩ := C26_degrees_count a i
  have hle : ∀ s : Set (Fin n), s.ncard ≤ n := fun s => by
    have := Set.ncard_le_ncard (Set.subset_univ s)
    rwa [Set.ncard_univ, Nat.card_eq_fintype_card, Fintype.card_fin] at this
  have hlt : ∀ s : Set (Fin n), i ∉ s → s.ncard ≤ n - 1 := fun s hi => by
    have : s ⊂ Set.univ := ⟨Set.subset_univ s, fun h => hi (h (Set.mem_univ i))⟩
    have := Set.ncard_lt_ncard this
    rw [Set.ncard_univ, Nat.card_eq_fintype_card, Fintype.card_fin] at this
    omega
  rw [h1, h2, h3]
  refine ⟨⟨hle _, hle _, hle _⟩, fun h => ⟨hlt _ ?_, hlt _ ?_, hlt _ ?_⟩⟩ <;> simpa using h

/-- C26: for a 0/1 matrix strengths are degrees; for a non-negative matrix a node has strength zero exactly when it has degree zero. -/
theorem C26_strengths (a : Fin n → Fin n → ℝ) (i : Fin n) :
    ((∀ j, a i j = 0 ∨ a i j = 1) → strength a i = degree a i) ∧ ((∀ j, 0 ≤ a i j) → (strength a i = 0 ↔ degree a i = 0)) := by
  constructor
  · intro h
    unfold strength degree
    push_cast
    refine sum_congr rfl fun j _ => ?_
    rcases h j with h | h <;> simp [h]
  · intro h
    unfold strength degree
    rw [sum_eq_zero_iff_of_nonneg (fun j _ => h j), sum_eq_zero_iff]
    refine forall_congr' fun j => ?_
    simp only [mem_univ, true_implies, ite_eq_right_iff, one_ne_zero, imp_false, not_lt, gt_iff_lt]
    exact ⟨fun h => h.le, fun h' => le_antisymm h' (h j)⟩

/-- C26: relabelling the nodes relabels the sequences. -/
theorem C26_relabel (a : Fin n → Fin n → ℝ) (σ : Equiv.Perm (Fin n)) (i : Fin n) :
    out_degree (fun i j => a (σ i) (σ j)) i = out_degree a (σ i) ∧ in_degree (fun i j => a (σ i) (σ j)) i = in_degree a (σ i) ∧
    out_strength (fun i j => a (σ i) (σ j)) i = out_strength a (σ i) ∧ in_strength (fun i j => a (σ i) (σ j)) i = in_strength a (σ i) :=
  ⟨Equiv.sum_comp σ (fun j => if a (σ i) j > 0 then 1 else 0), Equiv.sum_comp σ (fun j => if a j (σ i) > 0 then 1 else 0),
    Equiv.sum_comp σ (fun j => a (σ i) j), Equiv.sum_comp σ (fun j => a j (σ i))⟩

/-- a symmetric weighted matrix without self loops that is not binary -/
example : ∃ a : Fin 3 → Fin 3 → ℝ, (∀ i j, a i j = a j i) ∧ (∀ i, a i i ≤ 0) ∧ (∀ i j, 0 ≤ a i j) ∧ a 0 1 = 2 :=
  ⟨fun i j => if i = j then 0 else 2, fun i j => by simp [eq_comm], fun i => by simp, fun i j => by dsimp only; split <;> norm_num, by simp⟩

end C26

/-! ### C27 -/

section C27

variable {α : Type} [LinearOrder α]

theorem keys_nodup (ends : List α) : ((npUnique ends).map Prod.fst).Nodup :=
  (npUnique_spec ends).1.imp fun h => h.ne

theorem keys_getElem_idxOf (u : List α) (a : α) (ha : a ∈ u) : u[u.idxOf a]? = some a := by
  rw [List.getElem?_eq_getElem (List.idxOf_lt_length_of_mem ha), List.getElem_idxOf]

theorem relabelled (l : List (α × α)) :
    let u := (npUnique (l.map (fun e => e.1) ++ l.map (fun e => e.2))).map Prod.fst
    Relabelled l (l.map fun e => (u.idxOf e.1, u.idxOf e.2)) (enumDict u) := by
  intro u
  have hsp := npUnique_spec (l.map (fun e => e.1) ++ l.map (fun e => e.2))
  have hmem : ∀ a, a ∈ u ↔ ∃ e ∈ l, a = e.1 ∨ a = e.2 := by
    intro a
    rw [hsp.2.1, List.mem_append, List.mem_map, List.mem_map]
    constructor
    · rintro (⟨e, he, rfl⟩ | ⟨e, he, rfl⟩)
      · exact ⟨e, he, Or.inl rfl⟩
      · exact ⟨e, he, Or.inr rfl⟩
    · rintro ⟨e, he, h | h⟩
      · exact Or.inl ⟨e, he, h.symm⟩
      · exact Or.inr ⟨e, he, h.symm⟩
  refine ⟨?_, ?_, ?_, ?_⟩
  · rw [enumDict_fst, enumDict_length]
  · rw [enumDict_snd]; exact hsp.1
  · intro a; rw [enumDict_snd, hmem]
  · rw [List.map_map]
    refine List.map_congr_left fun e he => ?_
    show ((enumDict u).lookup (u.idxOf e.1), (enumDict u).lookup (u.idxOf e.2)) = _
    rw [enumDict_lookup, enumDict_lookup, keys_getElem_idxOf _ _ ((hmem _).2 ⟨e, he, Or.inl rfl⟩), keys_getElem_idxOf _ _ ((hmem _).2 ⟨e, he, Or.inr rfl⟩)]

theorem edges_ok {ε : Type} (l : List ε) (s t : ε → α) :
    let u := (npUnique (l.map s ++ l.map t)).map Prod.fst
    l.mapM (fun e => do
      let a ← lookup (invDict (enumDict u)) (s e)
      let b ← lookup (invDict (enumDict u)) (t e)
      return (a, b)) = .ok (l.map fun e => (u.idxOf (s e), u.idxOf (t e))) := by
  intro u
  have hsp := npUnique_spec (l.map s ++ l.map t)
  apply mapM_ok
  intro e he
  rw [invDict_eq u (keys_nodup _) (s e) ((hsp.2.1 _).2 (List.mem_append_left _ (List.mem_map_of_mem he))),
    invDict_eq u (keys_nodup _) (t e) ((hsp.2.1 _).2 (List.mem_append_right _ (List.mem_map_of_mem he)))]
  rfl

theorem perNode_counts (ends : List α) :
    PerNode (enumDict ((npUnique ends).map Prod.fst)) ((npUnique ends).map Prod.snd) (fun a => ends.count a) := by
  refine ⟨by rw [enumDict_length, List.length_map, List.length_map], fun k a h => ?_⟩
  rw [mem_enumDict, List.getElem?_map] at h
  rw [List.getElem?_map]
  obtain ⟨p, hp, rfl⟩ := Option.map_eq_some_iff.1 h
  rw [hp, Option.map_some, (npUnique_spec ends).2.2 p (List.mem_of_getElem? hp)]

theorem sum_indicator (u : List α) (hu : u.Nodup) (b : α) (hb : b ∈ u) : (u.map fun a => if b = a then 1 else 0).sum = 1 := by
  induction u with
  | nil => simp at hb
  | cons c u ih =>
    rw [List.nodup_cons] at hu
    rw [List.map_cons, List.sum_cons]
    by_cases hc : b = c
    · subst hc
      rw [if_pos rfl]
      have : (u.map fun a => if b = a then 1 else 0) = u.map fun _ => 0 := List.map_congr_left fun a ha => if_neg fun h => hu.1 (by rw [h]; exact ha)
      rw [this]; simp
    · rw [if_neg hc, Nat.zero_add]
      exact ih hu.2 ((List.mem_cons.1 hb).resolve_left hc)

theorem sum_counts (ends u : List α) (hu : u.Nodup) (hm : ∀ a ∈ ends, a ∈ u) : (u.map fun a => ends.count a).sum = ends.length := by
  induction ends with
  | nil => simp
  | cons b l ih =>
    have : (u.map fun a => (b :: l).count a) = u.map fun a => l.count a + if b = a then 1 else 0 := by
      refine List.map_congr_left fun a _ => ?_
      rw [List.count_cons]; simp
    rw [this, List.sum_map_add, ih fun a ha => hm a (by simp [ha]), List.length_cons, sum_indicator u hu b (hm b (by simp))]

/-- summing a per-node quantity over the nodes -/
theorem perNode_sum {β : Type} [AddCommMonoid β] (u : List α) (d : List β) (f : α → β) (h : PerNode (enumDict u) d f) : d = u.map f := by
  apply List.ext_getElem?
  intro k
  rw [List.getElem?_map]
  cases hk : u[k]? with
  | none =>
    rw [Option.map_none, List.getElem?_eq_none_iff]
    rw [List.getElem?_eq_none_iff] at hk
    rw [h.1, enumDict_length]; exact hk
  | some a => rw [Option.map_some, h.2 k a ((mem_enumDict u k a).2 hk)]

/-- the degree sequence of an undirected edge list adds up to twice the number of edges -/
theorem degrees_sum (l : List (α × α)) :
    ((npUnique (l.map (fun e => e.1) ++ l.map (fun e => e.2))).map Prod.snd).sum = 2 * l.length := by
  rw [perNode_sum _ _ _ (perNode_counts (l.map (fun e => e.1) ++ l.map (fun e => e.2))),
    sum_counts _ _ (keys_nodup _) (fun a ha => ((npUnique_spec _).2.1 a).2 ha), List.length_append, List.length_map, List.length_map]
  omega

/-- the distinct labels, sorted -/
abbrev keys {ε : Type} (s t : ε → α) (L : List ε) : List α := (npUnique (L.map s ++ L.map t)).map Prod.fst

theorem und_binary_eq (L : List (α × α)) (hL : L ≠ []) : edgelist_from_edgelist_undirected (.binary L) =
    .ok ⟨L.map fun e => ((keys (fun e => e.1) (fun e => e.2) L).idxOf e.1, (keys (fun e => e.1) (fun e => e.2) L).idxOf e.2), none,
      (npUnique (L.map (fun e => e.1) ++ L.map (fun e => e.2))).map Prod.snd, none, enumDict (keys (fun e => e.1) (fun e => e.2) L)⟩ := by
  obtain ⟨e, l', rfl⟩ := List.exists_cons_of_ne_nil hL
  unfold edgelist_from_edgelist_undirected
  simp only
  rw [edges_ok (e :: l') (fun e => e.1) (fun e => e.2)]
  rfl

theorem und_weighted_eq (L : List (α × α × ℝ)) (hL : L ≠ []) : edgelist_from_edgelist_undirected (.weighted L) =
    .ok ⟨L.map fun e => ((keys (fun e => e.1) (fun e => e.2.1) L).idxOf e.1, (keys (fun e => e.1) (fun e => e.2.1) L).idxOf e.2.1), some (L.map fun e => e.2.2),
      (npUnique (L.map (fun e => e.1) ++ L.map (fun e => e.2.1))).map Prod.snd,
      some ((enumDict (keys (fun e => e.1) (fun e => e.2.1) L)).map fun kv =>
        ((((L.map fun e => (keys (fun e => e.1) (fun e => e.2.1) L).idxOf e.1) ++ L.map fun e => (keys (fun e => e.1) (fun e => e.2.1) L).idxOf e.2.1).zip
          ((L.map fun e => e.2.2) ++ L.map fun e => e.2.2)).filter fun p => p.1 = kv.1).map Prod.snd |>.sum),
      enumDict (keys (fun e => e.1) (fun e => e.2.1) L)⟩ := by
  obtain ⟨e, l', rfl⟩ := List.exists_cons_of_ne_nil hL
  unfold edgelist_from_edgelist_undirected
  simp only
  rw [edges_ok (e :: l') (fun e => e.1) (fun e => e.2.1)]
  simp only [bind, Except.bind, pure, Except.pure, List.map_map]
  rfl

/-- C27: on every non-empty binary edge list the undirected initialiser succeeds; it relabels faithfully; the degree of a label is the number of edge ends it
occurs in (a self loop counts twice); and the degrees add up to twice the number of edges. -/
theorem C27_undirected (l : List (α × α)) (hl : l ≠ []) :
    ∃ r, edgelist_from_edgelist_undirected (.binary l) = .ok r ∧ Relabelled l r.edges r.nodes ∧
      PerNode r.nodes r.degrees (fun a => (l.map Prod.fst).count a + (l.map Prod.snd).count a) ∧ r.degrees.sum = 2 * l.length ∧
      r.weights = none ∧ r.strengths = none := by
  refine ⟨_, und_binary_eq l hl, relabelled _, ?_, degrees_sum _, rfl, rfl⟩
  have := perNode_counts (l.map (fun e => e.1) ++ l.map (fun e => e.2))
  simp only [List.count_append] at this
  exact this

/-- C27: the empty edge list raises `IndexError` in all four initialisers. -/
theorem C27_empty_raises : edgelist_from_edgelist_undirected (.binary ([] : List (α × α))) = .error .indexError ∧
    edgelist_from_edgelist_undirected (.weighted ([] : List (α × α × ℝ))) = .error .indexError ∧
    edgelist_from_edgelist_directed (.binary ([] : List (α × α))) = .error .indexError ∧
    edgelist_from_edgelist_directed (.weighted ([] : List (α × α × ℝ))) = .error .indexError := ⟨rfl, rfl, rfl, rfl⟩

theorem idxOf_eq_iff (u : List α) (hu : u.Nodup) (k : ℕ) (a b : α) (hk : u[k]? = some a) (hb : b ∈ u) : u.idxOf b = k ↔ b = a := by
  constructor
  · intro h
    have := keys_getElem_idxOf u b hb
    rw [h, hk] at this
    exact (Option.some.inj this).symm
  · rintro rfl
    obtain ⟨hlt, hget⟩ := List.getElem?_eq_some_iff.1 hk
    subst hget
    exact hu.idxOf_getElem k hlt

theorem sum_filter_zip {β : Type} (l : List β) (s : β → ℕ) (w : β → ℝ) (k : ℕ) :
    ((((l.map s).zip (l.map w)).filter fun p => p.1 = k).map Prod.snd).sum = ((l.filter fun e => s e = k).map w).sum := by
  induction l with
  | nil => simp
  | cons a l ih =>
    simp only [List.map_cons, List.zip_cons_cons, List.filter_cons]
    by_cases h : s a = k
    · simp only [h, decide_true, if_true, List.map_cons, List.sum_cons, ih]
    · simp only [h, decide_false, Bool.false_eq_true, if_false, ih]

/-- total weight of the listed edges whose source (target) is `a` -/
noncomputable def wOut (l : List (α × α × ℝ)) (a : α) : ℝ := ((l.filter fun e => e.1 = a).map fun e => e.2.2).sum
/-- total weight of the listed edges whose target is `a` -/
noncomputable def wIn (l : List (α × α × ℝ)) (a : α) : ℝ := ((l.filter fun e => e.2.1 = a).map fun e => e.2.2).sum

/-- C27 (weighted): as `C27_undirected`, and the strength of a label is the total weight of its incident edge ends. -/
theorem C27_undirected_weighted (l : List (α × α × ℝ)) (hl : l ≠ []) :
    ∃ r ss, edgelist_from_edgelist_undirected (.weighted l) = .ok r ∧ Relabelled (l.map fun e => (e.1, e.2.1)) r.edges r.nodes ∧
      PerNode r.nodes r.degrees (fun a => (l.map fun e => e.1).count a + (l.map fun e => e.2.1).count a) ∧ r.degrees.sum = 2 * l.length ∧
      r.weights = some (l.map fun e => e.2.2) ∧ r.strengths = some ss ∧ PerNode r.nodes ss (fun a => wOut l a + wIn l a) := by
  rename' l => L
  have hends : (L.map fun e => (e.1, e.2.1)).map (fun e => e.1) ++ (L.map fun e => (e.1, e.2.1)).map (fun e => e.2) =
      L.map (fun e => e.1) ++ L.map (fun e => e.2.1) := by rw [List.map_map, List.map_map]; rfl
  refine ⟨_, _, und_weighted_eq L hl, ?_, ?_, ?_, rfl, rfl, ?_⟩
  · have := relabelled (L.map fun e => (e.1, e.2.1))
    rw [hends] at this
    dsimp only at this
    rw [List.map_map] at this
    exact this
  · have := perNode_counts (L.map (fun e => e.1) ++ L.map (fun e => e.2.1))
    simp only [List.count_append] at this
    exact this
  · have := degrees_sum (L.map fun e => (e.1, e.2.1))
    rw [hends, List.length_map] at this
    exact this
  · refine ⟨List.length_map .., fun k a hka => ?_⟩
    rw [List.getElem?_map]
    have hka' := (mem_enumDict _ k a).1 hka
    have hek : (enumDict ((npUnique (L.map (fun e => e.1) ++ L.map (fun e => e.2.1))).map Prod.fst))[k]? = some (k, a) := by
      unfold enumDict
      rw [List.getElem?_map, List.getElem?_zipIdx, hka']
      simp
    rw [hek, Option.map_some]
    congr 1
    rw [List.zip_append (by simp), List.filter_append, List.map_append, List.sum_append]
    have hmem := (npUnique_spec (L.map (fun e => e.1) ++ L.map (fun e => e.2.1))).2.1
    congr 1
    · rw [sum_filter_zip L _ _ k]
      unfold wOut
      congr 2
      refine List.filter_congr fun e he => ?_
      have := idxOf_eq_iff _ (keys_nodup _) k a e.1 hka' ((hmem _).2 (List.mem_append_left _ (List.mem_map_of_mem he)))
      simp only [Function.comp, this]
    · rw [sum_filter_zip L _ _ k]
      unfold wIn
      congr 2
      refine List.filter_congr fun e he => ?_
      have := idxOf_eq_iff _ (keys_nodup _) k a e.2.1 hka' ((hmem _).2 (List.mem_append_right _ (List.mem_map_of_mem (f := fun e => e.2.1) he)))
      simp only [Function.comp, this]

/-- filling a zero array with the entries of `np.unique` -/
theorem fancy_perNode {ε β : Type} [Zero β] (L : List ε) (s t sel : ε → α) (hsel : ∀ e ∈ L, sel e = s e ∨ sel e = t e) (g : ℕ → β) (f : α → β)
    (hg : ∀ k a, ((npUnique (L.map s ++ L.map t)).map Prod.fst)[k]? = some a → k ∈ L.map (fun e => ((npUnique (L.map s ++ L.map t)).map Prod.fst).idxOf (sel e)) → g k = f a)
    (h0 : ∀ a, a ∉ L.map sel → f a = 0) :
    ∃ d, fancySet (((npUnique (L.map s ++ L.map t)).map Prod.fst).map fun _ => 0)
      ((npUnique (L.map fun e => ((npUnique (L.map s ++ L.map t)).map Prod.fst).idxOf (sel e))).map fun p => (p.1, g p.1)) = .ok d ∧
      PerNode (enumDict ((npUnique (L.map s ++ L.map t)).map Prod.fst)) d f := by
  set u := (npUnique (L.map s ++ L.map t)).map Prod.fst with hu
  have hspec := npUnique_spec (L.map fun e => u.idxOf (sel e))
  have hmem : ∀ e ∈ L, sel e ∈ u := by
    intro e he
    rw [hu, (npUnique_spec (L.map s ++ L.map t)).2.1]
    rcases hsel e he with h | h <;> rw [h]
    · exact List.mem_append_left _ (List.mem_map_of_mem he)
    · exact List.mem_append_right _ (List.mem_map_of_mem he)
  have hfst : ((npUnique (L.map fun e => u.idxOf (sel e))).map fun p => (p.1, g p.1)).map Prod.fst = (npUnique (L.map fun e => u.idxOf (sel e))).map Prod.fst := by
    rw [List.map_map]; rfl
  obtain ⟨d, hd, hlen, hin, hout⟩ := fancySet_ok ((npUnique (L.map fun e => u.idxOf (sel e))).map fun p => (p.1, g p.1)) (u.map fun _ => (0 : β)) (by
    intro p hp
    have : p.1 ∈ (npUnique (L.map fun e => u.idxOf (sel e))).map Prod.fst := by rw [← hfst]; exact List.mem_map_of_mem hp
    rw [hspec.2.1] at this
    obtain ⟨e, he, h⟩ := List.mem_map.1 this
    rw [← h, List.length_map]
    exact List.idxOf_lt_length_of_mem (hmem e he)) (by rw [hfst]; exact hspec.1.imp fun h => h.ne)
  refine ⟨d, hd, by rw [hlen, List.length_map, enumDict_length], fun k a hka => ?_⟩
  rw [mem_enumDict] at hka
  by_cases hk : k ∈ L.map fun e => u.idxOf (sel e)
  · have hk' := (hspec.2.1 k).2 hk
    obtain ⟨p, hp, rfl⟩ := List.mem_map.1 hk'
    have := hin _ (List.mem_map_of_mem hp)
    rw [this, hg _ a hka hk]
  · rw [hout k (by rw [hfst, hspec.2.1]; exact hk), List.getElem?_map, hka, Option.map_some, h0]
    intro ha
    obtain ⟨e, he, rfl⟩ := List.mem_map.1 ha
    exact hk (List.mem_map.2 ⟨e, he, (idxOf_eq_iff u (keys_nodup _) k _ _ hka (hmem e he)).2 rfl⟩)

theorem count_idx {ε : Type} (L : List ε) (u : List α) (hu : u.Nodup) (sel : ε → α) (hmem : ∀ e ∈ L, sel e ∈ u) (k : ℕ) (a : α) (hk : u[k]? = some a) :
    (L.map fun e => u.idxOf (sel e)).count k = (L.map sel).count a := by
  induction L with
  | nil => simp
  | cons e L ih =>
    rw [List.map_cons, List.map_cons, List.count_cons, List.count_cons, ih fun e he => hmem e (by simp [he])]
    congr 1
    have := idxOf_eq_iff u hu k a (sel e) hk (hmem e (by simp))
    simp only [beq_iff_eq, this]

theorem npUnique_self {β : Type} [LinearOrder β] (l : List β) : npUnique l = (npUnique l).map fun p => (p.1, l.count p.1) := by
  conv_lhs => rw [← List.map_id (npUnique l)]
  refine List.map_congr_left fun p hp => ?_
  rw [← (npUnique_spec l).2.2 p hp]; rfl

theorem degree_fancy {ε : Type} (L : List ε) (s t sel : ε → α) (hsel : ∀ e ∈ L, sel e = s e ∨ sel e = t e) :
    ∃ d, fancySet (((npUnique (L.map s ++ L.map t)).map Prod.fst).map fun _ => 0)
      (npUnique (L.map fun e => ((npUnique (L.map s ++ L.map t)).map Prod.fst).idxOf (sel e))) = .ok d ∧
      PerNode (enumDict ((npUnique (L.map s ++ L.map t)).map Prod.fst)) d (fun a => (L.map sel).count a) ∧ d.sum = L.length := by
  have hmem : ∀ e ∈ L, sel e ∈ (npUnique (L.map s ++ L.map t)).map Prod.fst := by
    intro e he
    rw [(npUnique_spec (L.map s ++ L.map t)).2.1]
    rcases hsel e he with h | h <;> rw [h]
    · exact List.mem_append_left _ (List.mem_map_of_mem he)
    · exact List.mem_append_right _ (List.mem_map_of_mem he)
  obtain ⟨d, h1, h2⟩ := fancy_perNode L s t sel hsel (fun k => (L.map fun e => ((npUnique (L.map s ++ L.map t)).map Prod.fst).idxOf (sel e)).count k)
    (fun a => (L.map sel).count a) (fun k a hk _ => count_idx L _ (keys_nodup _) sel hmem k a hk) (fun a ha => List.count_eq_zero.2 ha)
  refine ⟨d, ?_, h2, ?_⟩
  · rw [npUnique_self (L.map fun e => _)]; exact h1
  · rw [perNode_sum _ _ _ h2, sum_counts _ _ (keys_nodup _), List.length_map]
    intro a ha
    obtain ⟨e, he, rfl⟩ := List.mem_map.1 ha
    exact hmem e he

/-- the directed result, given the degree and strength arrays -/
theorem dir_binary_eq (L : List (α × α)) (hL : L ≠ []) (d1 d2 : List ℕ)
    (h1 : fancySet ((keys (fun e => e.1) (fun e => e.2) L).map fun _ => 0) (npUnique (L.map fun e => (keys (fun e => e.1) (fun e => e.2) L).idxOf e.1)) = .ok d1)
    (h2 : fancySet ((keys (fun e => e.1) (fun e => e.2) L).map fun _ => 0) (npUnique (L.map fun e => (keys (fun e => e.1) (fun e => e.2) L).idxOf e.2)) = .ok d2) :
    edgelist_from_edgelist_directed (.binary L) =
    .ok ⟨L.map fun e => ((keys (fun e => e.1) (fun e => e.2) L).idxOf e.1, (keys (fun e => e.1) (fun e => e.2) L).idxOf e.2), none,
      d1, d2, none, none, enumDict (keys (fun e => e.1) (fun e => e.2) L)⟩ := by
  obtain ⟨e, l', rfl⟩ := List.exists_cons_of_ne_nil hL
  unfold edgelist_from_edgelist_directed
  simp only
  rw [edges_ok (e :: l') (fun e => e.1) (fun e => e.2)]
  simp only [bind, Except.bind, pure, Except.pure, List.map_map]
  simp only [List.map_map] at h1 h2
  simp only [Function.comp_def] at h1 h2 ⊢
  simp only [h1, h2]

theorem dir_weighted_eq (L : List (α × α × ℝ)) (hL : L ≠ []) (d1 d2 : List ℕ) (s1 s2 : List ℝ)
    (h1 : fancySet ((keys (fun e => e.1) (fun e => e.2.1) L).map fun _ => 0) (npUnique (L.map fun e => (keys (fun e => e.1) (fun e => e.2.1) L).idxOf e.1)) = .ok d1)
    (h2 : fancySet ((keys (fun e => e.1) (fun e => e.2.1) L).map fun _ => 0) (npUnique (L.map fun e => (keys (fun e => e.1) (fun e => e.2.1) L).idxOf e.2.1)) = .ok d2)
    (h3 : fancySet ((keys (fun e => e.1) (fun e => e.2.1) L).map fun _ => 0) ((npUnique (L.map fun e => (keys (fun e => e.1) (fun e => e.2.1) L).idxOf e.1)).map
      fun p => (p.1, ((L.filter fun e => (keys (fun e => e.1) (fun e => e.2.1) L).idxOf e.1 = p.1).map fun e => e.2.2).sum)) = .ok s1)
    (h4 : fancySet ((keys (fun e => e.1) (fun e => e.2.1) L).map fun _ => 0) ((npUnique (L.map fun e => (keys (fun e => e.1) (fun e => e.2.1) L).idxOf e.2.1)).map
      fun p => (p.1, ((L.filter fun e => (keys (fun e => e.1) (fun e => e.2.1) L).idxOf e.2.1 = p.1).map fun e => e.2.2).sum)) = .ok s2) :
    edgelist_from_edgelist_directed (.weighted L) =
    .ok ⟨L.map fun e => ((keys (fun e => e.1) (fun e => e.2.1) L).idxOf e.1, (keys (fun e => e.1) (fun e => e.2.1) L).idxOf e.2.1), some (L.map fun e => e.2.2),
      d1, d2, some s1, some s2, enumDict (keys (fun e => e.1) (fun e => e.2.1) L)⟩ := by
  have hz : ∀ (f : α × α × ℝ → ℕ × ℕ) (P : ℕ × ℕ → Prop) [DecidablePred P] (l : List (α × α × ℝ)),
      ((((l.map f).zip (l.map fun e => e.2.2)).filter fun ew => P ew.1).map Prod.snd).sum = ((l.filter fun e => P (f e)).map fun e => e.2.2).sum := by
    intro f P _ l
    induction l with
    | nil => simp
    | cons a l ih =>
      simp only [List.map_cons, List.zip_cons_cons, List.filter_cons]
      by_cases h : P (f a)
      · simp only [h, decide_true, if_true, List.map_cons, List.sum_cons, ih]
      · simp only [h, decide_false, Bool.false_eq_true, if_false, ih]
  obtain ⟨e, l', rfl⟩ := List.exists_cons_of_ne_nil hL
  unfold edgelist_from_edgelist_directed
  simp only
  rw [edges_ok (e :: l') (fun e => e.1) (fun e => e.2.1)]
  simp only [bind, Except.bind, pure, Except.pure]
  have hz1 : ∀ (f : α × α × ℝ → ℕ × ℕ) (k : ℕ) (l : List (α × α × ℝ)), ((((l.map f).zip (l.map fun e => e.2.2)).filter fun ew => decide (ew.1.1 = k)).map Prod.snd).sum = ((l.filter fun e => decide ((f e).1 = k)).map fun e => e.2.2).sum :=
    fun f k l => hz f (fun q => q.1 = k) l
  have hz2 : ∀ (f : α × α × ℝ → ℕ × ℕ) (k : ℕ) (l : List (α × α × ℝ)), ((((l.map f).zip (l.map fun e => e.2.2)).filter fun ew => decide (ew.1.2 = k)).map Prod.snd).sum = ((l.filter fun e => decide ((f e).2 = k)).map fun e => e.2.2).sum :=
    fun f k l => hz f (fun q => q.2 = k) l
  simp only [hz1, hz2]
  simp only [List.map_map] at h1 h2 h3 h4 ⊢
  simp only [Function.comp_def] at h1 h2 h3 h4 ⊢
  simp only [h1, h2, h3, h4]

/-- C27 (directed): on every non-empty binary edge list the initialiser succeeds and relabels faithfully; out-(in-)degree = number of edges with that source
(target); both degree sequences add up to the number of edges. -/
theorem C27_directed (l : List (α × α)) (hl : l ≠ []) :
    ∃ r, edgelist_from_edgelist_directed (.binary l) = .ok r ∧ Relabelled l r.edges r.nodes ∧
      PerNode r.nodes r.outDegrees (fun a => (l.map Prod.fst).count a) ∧ PerNode r.nodes r.inDegrees (fun a => (l.map Prod.snd).count a) ∧
      r.outDegrees.sum = l.length ∧ r.inDegrees.sum = l.length ∧ r.weights = none ∧ r.outStrengths = none ∧ r.inStrengths = none := by
  obtain ⟨d1, h1, p1, s1⟩ := degree_fancy l (fun e => e.1) (fun e => e.2) (fun e => e.1) (fun _ _ => Or.inl rfl)
  obtain ⟨d2, h2, p2, s2⟩ := degree_fancy l (fun e => e.1) (fun e => e.2) (fun e => e.2) (fun _ _ => Or.inr rfl)
  exact ⟨_, dir_binary_eq l hl d1 d2 h1 h2, relabelled _, p1, p2, s1, s2, rfl, rfl, rfl⟩

theorem strength_fancy (L : List (α × α × ℝ)) (sel : α × α × ℝ → α) (hsel : ∀ e ∈ L, sel e = e.1 ∨ sel e = e.2.1) :
    ∃ d, fancySet ((keys (fun e => e.1) (fun e => e.2.1) L).map fun _ => (0 : ℝ)) ((npUnique (L.map fun e => (keys (fun e => e.1) (fun e => e.2.1) L).idxOf (sel e))).map
      fun p => (p.1, ((L.filter fun e => (keys (fun e => e.1) (fun e => e.2.1) L).idxOf (sel e) = p.1).map fun e => e.2.2).sum)) = .ok d ∧
      PerNode (enumDict (keys (fun e => e.1) (fun e => e.2.1) L)) d (fun a => ((L.filter fun e => sel e = a).map fun e => e.2.2).sum) := by
  have hmem : ∀ e ∈ L, sel e ∈ keys (fun e => e.1) (fun e => e.2.1) L := by
    intro e he
    rw [(npUnique_spec _).2.1]
    rcases hsel e he with h | h <;> rw [h]
    · exact List.mem_append_left _ (List.mem_map_of_mem he)
    · exact List.mem_append_right _ (List.mem_map_of_mem (f := fun e => e.2.1) he)
  refine fancy_perNode L (fun e => e.1) (fun e => e.2.1) sel hsel
    (fun k => ((L.filter fun e => (keys (fun e => e.1) (fun e => e.2.1) L).idxOf (sel e) = k).map fun e => e.2.2).sum)
    (fun a => ((L.filter fun e => sel e = a).map fun e => e.2.2).sum) (fun k a hk _ => ?_) (fun a ha => ?_)
  · congr 2
    refine List.filter_congr fun e he => ?_
    have := idxOf_eq_iff _ (keys_nodup _) k a (sel e) hk (hmem e he)
    simp only [this]
  · have : L.filter (fun e => sel e = a) = [] := by
      rw [List.filter_eq_nil_iff]
      intro e he h
      exact ha (List.mem_map.2 ⟨e, he, by simpa using h⟩)
    simp [this]

/-- C27 (directed, weighted): as `C27_directed`, and out-(in-)strength = total weight of the edges with that source (target). -/
theorem C27_directed_weighted (l : List (α × α × ℝ)) (hl : l ≠ []) :
    ∃ r so si, edgelist_from_edgelist_directed (.weighted l) = .ok r ∧ Relabelled (l.map fun e => (e.1, e.2.1)) r.edges r.nodes ∧
      PerNode r.nodes r.outDegrees (fun a => (l.map fun e => e.1).count a) ∧ PerNode r.nodes r.inDegrees (fun a => (l.map fun e => e.2.1).count a) ∧
      r.outDegrees.sum = l.length ∧ r.inDegrees.sum = l.length ∧
      r.weights = some (l.map fun e => e.2.2) ∧ r.outStrengths = some so ∧ r.inStrengths = some si ∧
      PerNode r.nodes so (wOut l) ∧ PerNode r.nodes si (wIn l) := by
  obtain ⟨d1, h1, p1, s1⟩ := degree_fancy l (fun e => e.1) (fun e => e.2.1) (fun e => e.1) (fun _ _ => Or.inl rfl)
  obtain ⟨d2, h2, p2, s2⟩ := degree_fancy l (fun e => e.1) (fun e => e.2.1) (fun e => e.2.1) (fun _ _ => Or.inr rfl)
  obtain ⟨so, h3, p3⟩ := strength_fancy l (fun e => e.1) (fun _ _ => Or.inl rfl)
  obtain ⟨si, h4, p4⟩ := strength_fancy l (fun e => e.2.1) (fun _ _ => Or.inr rfl)
  refine ⟨_, so, si, dir_weighted_eq l hl d1 d2 so si h1 h2 h3 h4, ?_, p1, p2, s1, s2, rfl, rfl, rfl, p3, p4⟩
  have hends : (l.map fun e => (e.1, e.2.1)).map (fun e => e.1) ++ (l.map fun e => (e.1, e.2.1)).map (fun e => e.2) =
      l.map (fun e => e.1) ++ l.map (fun e => e.2.1) := by rw [List.map_map, List.map_map]; rfl
  have := relabelled (l.map fun e => (e.1, e.2.1))
  rw [hends] at this
  dsimp only at this
  rw [List.map_map] at this
  exact this

/-- C27 with C25: the relabelled edge list can always be turned into an adjacency matrix: the builder succeeds on it, with one row per label, and the entry of two
labels is one exactly when the original edge list contains that edge (in either direction if undirected). -/
theorem C27_relabelled_builds (l : List (α × α)) (edges : List (ℕ × ℕ)) (nodes : List (ℕ × α)) (h : Relabelled l edges nodes) (d : Bool) :
    ∃ a : Fin nodes.length → Fin nodes.length → ℝ, build_adjacency_from_edgelist (.binary edges) d false false = .ok ⟨nodes.length, a⟩ ∧
      ∀ (i j : Fin nodes.length), a i j = if ((nodes.get i).2, (nodes.get j).2) ∈ l ∨ (d = false ∧ ((nodes.get j).2, (nodes.get i).2) ∈ l) then 1 else 0 := by
  -- the dictionary, position by position
  have hkey : ∀ (k : ℕ) (hk : k < nodes.length), nodes[k].1 = k := by
    intro k hk
    have := congrArg (fun l => l[k]?) h.keys
    simp only [List.getElem?_map, List.getElem?_eq_getElem hk, Option.map_some, List.getElem?_range hk] at this
    exact Option.some.inj this
  have hnd : (nodes.map Prod.fst).Nodup := by rw [h.keys]; exact List.nodup_range
  have hlook : ∀ k a, nodes.lookup k = some a ↔ (k, a) ∈ nodes := by
    intro k a
    clear hkey h
    induction nodes with
    | nil => simp
    | cons p ns ih =>
      obtain ⟨q, b⟩ := p
      rw [List.map_cons, List.nodup_cons] at hnd
      rw [List.lookup_cons]
      by_cases hkq : k = q
      · subst hkq
        simp only [BEq.rfl, Option.some.injEq, List.mem_cons, Prod.mk.injEq, true_and]
        constructor
        · intro h; exact Or.inl h.symm
        · rintro (h | h)
          · exact h.symm
          · exact absurd (List.mem_map_of_mem (f := Prod.fst) h) hnd.1
      · have : (k == q) = false := by simpa using hkq
        rw [this]
        simp only [List.mem_cons, Prod.mk.injEq, hkq, false_and, false_or]
        exact ih hnd.2
  have hinj : ∀ k k' a, (k, a) ∈ nodes → (k', a) ∈ nodes → k = k' := by
    intro k k' a h1 h2
    obtain ⟨i, hi, e1⟩ := List.getElem_of_mem h1
    obtain ⟨j, hj, e2⟩ := List.getElem_of_mem h2
    have hnd2 : (nodes.map Prod.snd).Nodup := h.sorted.imp fun h => h.ne
    have : i = j := by
      refine (List.Nodup.getElem_inj_iff hnd2 (hi := by simpa using hi) (hj := by simpa using hj)).1 ?_
      rw [List.getElem_map, List.getElem_map, e1, e2]
    subst this
    rw [e1] at e2
    exact congrArg Prod.fst e2
  have hpair : ∀ k k' a b, (k, a) ∈ nodes → (k', b) ∈ nodes → ((k, k') ∈ edges ↔ (a, b) ∈ l) := by
    intro k k' a b h1 h2
    constructor
    · intro hm
      have := List.mem_map_of_mem (f := fun e : ℕ × ℕ => (nodes.lookup e.1, nodes.lookup e.2)) hm
      rw [h.back, List.mem_map] at this
      obtain ⟨⟨a', b'⟩, he, heq⟩ := this
      simp only [Prod.mk.injEq] at heq
      rw [(hlook _ _).2 h1, (hlook _ _).2 h2] at heq
      obtain ⟨rfl, rfl⟩ : a' = a ∧ b' = b := ⟨Option.some.inj heq.1, Option.some.inj heq.2⟩
      exact he
    · intro hm
      have := List.mem_map_of_mem (f := fun e : α × α => (some e.1, some e.2)) hm
      rw [← h.back, List.mem_map] at this
      obtain ⟨⟨q, q'⟩, he, heq⟩ := this
      simp only [Prod.mk.injEq] at heq
      have e1 := hinj _ _ _ ((hlook _ _).1 heq.1) h1
      have e2 := hinj _ _ _ ((hlook _ _).1 heq.2) h2
      subst e1 e2
      exact he
  have hmemk : ∀ k (hk : k < nodes.length), (k, nodes[k].2) ∈ nodes := by
    intro k hk
    have := List.getElem_mem hk
    have h2 : nodes[k] = (k, nodes[k].2) := Prod.ext (hkey k hk) rfl
    rw [h2] at this
    exact this
  have hlab : ∀ k, k < nodes.length ↔ ∃ e ∈ edges, e.1 = k ∨ e.2 = k := by
    intro k
    constructor
    · intro hk
      obtain ⟨e, he, hor⟩ := (h.labels (nodes[k].2)).1 (List.mem_map_of_mem (List.getElem_mem hk))
      have := List.mem_map_of_mem (f := fun e : α × α => (some e.1, some e.2)) he
      rw [← h.back, List.mem_map] at this
      obtain ⟨q, hq, heq⟩ := this
      simp only [Prod.mk.injEq] at heq
      refine ⟨q, hq, ?_⟩
      rcases hor with ho | ho
      · exact Or.inl (hinj _ _ _ ((hlook _ _).1 heq.1) (ho ▸ hmemk k hk))
      · exact Or.inr (hinj _ _ _ ((hlook _ _).1 heq.2) (ho ▸ hmemk k hk))
    · rintro ⟨e, he, hor⟩
      have := List.mem_map_of_mem (f := fun e : ℕ × ℕ => (nodes.lookup e.1, nodes.lookup e.2)) he
      rw [h.back, List.mem_map] at this
      obtain ⟨ab, _, heq⟩ := this
      simp only [Prod.mk.injEq] at heq
      have hlt : ∀ q a, (q, a) ∈ nodes → q < nodes.length := by
        intro q a hq
        have := List.mem_map_of_mem (f := Prod.fst) hq
        rw [h.keys, List.mem_range] at this
        exact this
      rcases hor with rfl | rfl
      · exact hlt _ _ ((hlook _ _).1 heq.1.symm)
      · exact hlt _ _ ((hlook _ _).1 heq.2.symm)
  refine ⟨_, C25_binary edges d hlab, fun i j => ?_⟩
  have hi := hmemk i i.2
  have hj := hmemk j j.2
  refine if_congr ?_ rfl rfl
  rw [hpair _ _ _ _ hi hj, hpair _ _ _ _ hj hi]
  rfl

/-- a non-empty edge list over string labels, with a repeated edge and a self loop -/
example : ([("b", "a"), ("a", "c"), ("b", "a"), ("c", "c")] : List (String × String)) ≠ [] := by simp

end C27

end Verif.Net
