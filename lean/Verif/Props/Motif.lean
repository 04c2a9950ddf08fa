import Verif.Lemmas.Motif
import Mathlib.Algebra.BigOperators.Field
import Mathlib.Algebra.Order.BigOperators.Group.Finset

/-! C28 (dyad census) and C29 (triad counts). -/

namespace Verif.Motif

open Finset Spec

variable {n : ℕ}

theorem adj_pos {G : Fin n → Fin n → Prop} {i j : Fin n} (h : G i j) : adj G i j = 1 := by unfold adj; rw [if_pos h]
theorem adj_neg {G : Fin n → Fin n → Prop} {i j : Fin n} (h : ¬ G i j) : adj G i j = 0 := by unfold adj; rw [if_neg h]

/-! ### C28: dyads -/

open Classical in
/-- C28: on the adjacency matrix of a loop-free digraph `count_2motif_2` is the number of ordered pairs joined both ways. -/
theorem C28_mutual (G : Fin n → Fin n → Prop) (_hloop : ∀ i, ¬ G i i) :
    count_2motif_2 (adj G) = (univ.filter fun e : Fin n × Fin n => G e.1 e.2 ∧ G e.2 e.1).card := by
  unfold count_2motif_2
  refine congrArg card (filter_congr fun e _ => ?_)
  by_cases h1 : G e.1 e.2 <;> by_cases h2 : G e.2 e.1 <;> simp [h1, h2, adj_pos, adj_neg] <;> norm_num

open Classical in
/-- the positions holding 1 come in mirrored pairs -/
theorem ones_card (G : Fin n → Fin n → Prop) :
    (univ.filter fun e : Fin n × Fin n => adj G e.1 e.2 + adj G e.2 e.1 = 1).card =
      2 * (univ.filter fun e : Fin n × Fin n => G e.1 e.2 ∧ ¬ G e.2 e.1).card := by
  have h : (univ.filter fun e : Fin n × Fin n => adj G e.1 e.2 + adj G e.2 e.1 = 1) =
      (univ.filter fun e : Fin n × Fin n => G e.1 e.2 ∧ ¬ G e.2 e.1) ∪ (univ.filter fun e : Fin n × Fin n => G e.1 e.2 ∧ ¬ G e.2 e.1).map
        (Equiv.prodComm _ _).toEmbedding := by
    ext e
    simp only [mem_filter, mem_univ, true_and, mem_union, mem_map_equiv]
    by_cases h1 : G e.1 e.2 <;> by_cases h2 : G e.2 e.1 <;> simp [h1, h2, adj_pos, adj_neg, Prod.swap] <;> norm_num
  rw [h, card_union_of_disjoint, card_map, two_mul]
  rw [disjoint_left]
  intro e h1 h2
  simp only [mem_filter, mem_univ, true_and, mem_map_equiv] at h1 h2
  exact h1.2 h2.1

open Classical in
/-- C28: `count_2motif_1` is the number of (unordered) pairs joined in exactly one direction, i.e. of unreciprocated arcs; the `int(·/2)` never truncates. -/
theorem C28_single (G : Fin n → Fin n → Prop) :
    count_2motif_1 (adj G) = (univ.filter fun e : Fin n × Fin n => G e.1 e.2 ∧ ¬ G e.2 e.1).card := by
  have h := ones_card G
  unfold count_2motif_1
  dsimp only
  omega

open Classical in
/-- C28: on a loop-free digraph `count_2motif_0` is the number of ordered pairs of distinct nodes that are not joined. -/
theorem C28_null (G : Fin n → Fin n → Prop) (hloop : ∀ i, ¬ G i i) :
    count_2motif_0 (adj G) = (univ.filter fun e : Fin n × Fin n => e.1 ≠ e.2 ∧ ¬ G e.1 e.2 ∧ ¬ G e.2 e.1).card := by
  unfold count_2motif_0
  dsimp only
  have hsub : (univ.filter fun e : Fin n × Fin n => adj G e.1 e.2 + adj G e.2 e.1 ≠ 0) ⊆ univ.filter fun e : Fin n × Fin n => e.1 ≠ e.2 := by
    intro e he
    simp only [mem_filter, mem_univ, true_and] at he ⊢
    intro h
    apply he
    rw [h]; simp [adj, hloop]
  have hcard : (univ.filter fun e : Fin n × Fin n => e.1 ≠ e.2).card = n * n - n := by
    have := Finset.card_filter_add_card_filter_not (s := (univ : Finset (Fin n × Fin n))) (fun e => e.1 = e.2)
    have hd : (univ.filter fun e : Fin n × Fin n => e.1 = e.2).card = n := by
      have : (univ.filter fun e : Fin n × Fin n => e.1 = e.2) = (univ : Finset (Fin n)).map ⟨fun i => (i, i), fun i j h => (Prod.mk.inj h).1⟩ := by
        ext e
        simp only [mem_filter, mem_univ, true_and, mem_map, Function.Embedding.coeFn_mk]
        constructor
        · intro h; exact ⟨e.1, Prod.ext rfl h⟩
        · rintro ⟨i, rfl⟩; rfl
      rw [this, card_map]; simp
    simp only [card_univ, Fintype.card_prod, Fintype.card_fin] at this
    simp only [ne_eq]
    omega
  have hdiff : (univ.filter fun e : Fin n × Fin n => e.1 ≠ e.2 ∧ ¬ G e.1 e.2 ∧ ¬ G e.2 e.1) =
      (univ.filter fun e : Fin n × Fin n => e.1 ≠ e.2) \ (univ.filter fun e : Fin n × Fin n => adj G e.1 e.2 + adj G e.2 e.1 ≠ 0) := by
    ext e
    simp only [mem_filter, mem_univ, true_and, mem_sdiff]
    by_cases h1 : G e.1 e.2 <;> by_cases h2 : G e.2 e.1 <;> simp [h1, h2, adj_pos, adj_neg] <;> norm_num
  rw [hdiff, card_sdiff_of_subset hsub, hcard]
  have hle := card_le_card hsub
  rw [hcard] at hle
  have : n ≤ n * n := by nlinarith [Nat.zero_le n, Nat.le_mul_self n]
  have e1 : ((n : ℤ) * ((n : ℤ) - 1)) = ((n * n - n : ℕ) : ℤ) := by rw [Nat.cast_sub this]; push_cast; ring
  rw [e1, Nat.cast_sub hle]

open Classical in
/-- C28: the census.  Mutual ordered pairs, twice the single pairs and the empty ordered pairs make up all `n(n-1)` ordered pairs; mutual ordered
pairs plus single pairs are the arcs. -/
theorem C28_census (G : Fin n → Fin n → Prop) (hloop : ∀ i, ¬ G i i) :
    (count_2motif_2 (adj G) : ℤ) + 2 * count_2motif_1 (adj G) + count_2motif_0 (adj G) = n * (n - 1) ∧
    count_2motif_2 (adj G) + count_2motif_1 (adj G) = (univ.filter fun e : Fin n × Fin n => G e.1 e.2).card := by
  constructor
  · have h1 := ones_card G
    rw [← C28_single] at h1
    have h2 := C28_mutual G hloop
    have hs : (univ.filter fun e : Fin n × Fin n => adj G e.1 e.2 + adj G e.2 e.1 ≠ 0).card =
        (univ.filter fun e : Fin n × Fin n => adj G e.1 e.2 + adj G e.2 e.1 = 1).card + (univ.filter fun e : Fin n × Fin n => adj G e.1 e.2 + adj G e.2 e.1 = 2).card := by
      rw [← card_union_of_disjoint]
      · congr 1
        ext e
        simp only [mem_filter, mem_univ, true_and, mem_union]
        by_cases h1 : G e.1 e.2 <;> by_cases h2 : G e.2 e.1 <;> simp [h1, h2, adj_pos, adj_neg] <;> norm_num
      · rw [disjoint_left]
        intro e h1 h2
        simp only [mem_filter, mem_univ, true_and] at h1 h2
        rw [h1] at h2; norm_num at h2
    rw [h1] at hs
    unfold count_2motif_0
    dsimp only
    rw [hs]
    have : count_2motif_2 (adj G) = (univ.filter fun e : Fin n × Fin n => adj G e.1 e.2 + adj G e.2 e.1 = 2).card := rfl
    rw [this]
    push_cast
    ring
  · rw [C28_mutual G hloop, C28_single, ← card_union_of_disjoint]
    · congr 1
      ext e
      simp only [mem_filter, mem_univ, true_and, mem_union]
      tauto
    · rw [disjoint_left]
      intro e h1 h2
      simp only [mem_filter, mem_univ, true_and] at h1 h2
      exact h2.2 h1.2

/-- a concrete digraph: 0 ⇄ 1 → 2 -/
example : ∀ i : Fin 3, ¬ (fun i j : Fin 3 => (i = 0 ∧ j = 1) ∨ (i = 1 ∧ j = 0) ∨ (i = 1 ∧ j = 2)) i i := by decide

/-- C28: the loop-free hypothesis cannot be dropped: one node with a self loop is counted as a mutual dyad and the number of empty pairs is -1. -/
theorem C28_self_loop_breaks_census :
    count_2motif_2 (adj (n := 1) fun _ _ => True) = 1 ∧ count_2motif_0 (adj (n := 1) fun _ _ => True) = -1 := by
  constructor
  · unfold count_2motif_2 adj; simp; norm_num
  · unfold count_2motif_0 adj; simp; norm_num

/-! ### C29: triads -/

/-- the thirteen API functions on a dense matrix, in order, are the family `count3` (so the theorems below are about the API) -/
theorem C29_api (a : Fin n → Fin n → ℝ) :
    count_3motif_1 (.dense a) = some (count3 0 a) ∧ count_3motif_2 (.dense a) = some (count3 1 a) ∧ count_3motif_3 (.dense a) = some (count3 2 a) ∧
    count_3motif_4 (.dense a) = some (count3 3 a) ∧ count_3motif_5 (.dense a) = some (count3 4 a) ∧ count_3motif_6 (.dense a) = some (count3 5 a) ∧
    count_3motif_7 (.dense a) = some (count3 6 a) ∧ count_3motif_8 (.dense a) = some (count3 7 a) ∧ count_3motif_9 (.dense a) = some (count3 8 a) ∧
    count_3motif_10 (.dense a) = some (count3 9 a) ∧ count_3motif_11 (.dense a) = some (count3 10 a) ∧
    count_3motif_12 (.dense a) = some (count3 11 a) ∧ count_3motif_13 (.dense a) = some (count3 12 a) :=
  ⟨rfl, rfl, rfl, rfl, rfl, rfl, rfl, rfl, rfl, rfl, rfl, rfl, rfl⟩

/-- the same for sparse matrices -/
theorem C29_api_sparse (a : Fin n → Fin n → ℝ) :
    count_3motif_1 (.sparse a) = some (count3s 0 a) ∧ count_3motif_2 (.sparse a) = some (count3s 1 a) ∧ count_3motif_3 (.sparse a) = some (count3s 2 a) ∧
    count_3motif_4 (.sparse a) = some (count3s 3 a) ∧ count_3motif_5 (.sparse a) = some (count3s 4 a) ∧ count_3motif_6 (.sparse a) = some (count3s 5 a) ∧
    count_3motif_7 (.sparse a) = some (count3s 6 a) ∧ count_3motif_8 (.sparse a) = some (count3s 7 a) ∧ count_3motif_9 (.sparse a) = some (count3s 8 a) ∧
    count_3motif_10 (.sparse a) = some (count3s 9 a) ∧ count_3motif_11 (.sparse a) = some (count3s 10 a) ∧
    count_3motif_12 (.sparse a) = some (count3s 11 a) ∧ count_3motif_13 (.sparse a) = some (count3s 12 a) :=
  ⟨rfl, rfl, rfl, rfl, rfl, rfl, rfl, rfl, rfl, rfl, rfl, rfl, rfl⟩

open Classical in
/-- C29: on the adjacency matrix of a digraph `count_3motif_m` is the number of ordered triples of distinct nodes whose induced subgraph is pattern `m`. -/
theorem C29_triads_are_induced (G : Fin n → Fin n → Prop) (m : Fin 13) :
    count3 m (adj G) = (univ.filter fun t : Fin 3 → Fin n => Induces G m t).card := by
  rw [count3_embeddings]
  simp

/-- C29: counts do not change when the nodes are relabelled (for any real matrix). -/
theorem C29_relabel (a : Fin n → Fin n → ℝ) (σ : Equiv.Perm (Fin n)) (m : Fin 13) :
    count3 m (fun i j => a (σ i) (σ j)) = count3 m a := by
  rw [count3_eq, count3_eq]
  unfold T6 T
  rw [← Equiv.sum_comp σ (fun i => ∑ j, ∑ k, if j ≠ i ∧ k ≠ j ∧ k ≠ i then term6 m (a i j) (a j i) (a i k) (a k i) (a j k) (a k j) else 0)]
  refine sum_congr rfl fun i _ => ?_
  rw [← Equiv.sum_comp σ (fun j => ∑ k, if j ≠ σ i ∧ k ≠ j ∧ k ≠ σ i then term6 m (a (σ i) j) (a j (σ i)) (a (σ i) k) (a k (σ i)) (a j k) (a k j) else 0)]
  refine sum_congr rfl fun j _ => ?_
  rw [← Equiv.sum_comp σ (fun k => if σ j ≠ σ i ∧ k ≠ σ j ∧ k ≠ σ i then
    term6 m (a (σ i) (σ j)) (a (σ j) (σ i)) (a (σ i) k) (a k (σ i)) (a (σ j) k) (a k (σ j)) else 0)]
  refine sum_congr rfl fun k _ => ?_
  simp

/-! The finite part: the 64 digraphs on three labelled positions, checked completely. -/

private def patB (m : Fin 13) (g : Fin 3 → Fin 3 → Bool) : Bool :=
  decide (g 0 1 = true ↔ (0, 1) ∈ triadArcs m) && decide (g 1 0 = true ↔ (1, 0) ∈ triadArcs m) && decide (g 0 2 = true ↔ (0, 2) ∈ triadArcs m) &&
  decide (g 2 0 = true ↔ (2, 0) ∈ triadArcs m) && decide (g 1 2 = true ↔ (1, 2) ∈ triadArcs m) && decide (g 2 1 = true ↔ (2, 1) ∈ triadArcs m)
private def perms3 : List (Fin 3 → Fin 3) := [![0, 1, 2], ![0, 2, 1], ![1, 0, 2], ![1, 2, 0], ![2, 0, 1], ![2, 1, 0]]
private def mk (a b c d e f : Bool) : Fin 3 → Fin 3 → Bool := ![![false, a, c], ![b, false, e], ![d, f, false]]
private def connB (a b c d e f : Bool) : Bool := ((a || b) && (c || d)) || ((a || b) && (e || f)) || ((c || d) && (e || f))
private def cntB (g : Fin 3 → Fin 3 → Bool) (m : Fin 13) : ℕ := perms3.countP fun s => patB m fun u v => g (s u) (s v)
private def patG (m : Fin 13) : Fin 3 → Fin 3 → Bool := fun u v => decide ((u, v) ∈ triadArcs m)

set_option maxRecDepth 100000 in
private theorem fin1 : ∀ a b c d e f : Bool, connB a b c d e f = true →
    ((List.finRange 13).countP fun m => decide (cntB (mk a b c d e f) m ≠ 0)) = 1 := by decide

set_option maxRecDepth 100000 in
private theorem fin2 : ∀ a b c d e f : Bool, ∀ m,
    cntB (mk a b c d e f) m = 0 ∨ (cntB (mk a b c d e f) m = cntB (patG m) m ∧ connB a b c d e f = true) := by decide

private theorem fin3 : (univ : Finset (Equiv.Perm (Fin 3))).val.map (fun σ : Equiv.Perm (Fin 3) => (σ : Fin 3 → Fin 3)) = ↑perms3 := by decide

open Classical in
private theorem patB_iff (m : Fin 13) (g : Fin 3 → Fin 3 → Prop) : patB m (fun u v => decide (g u v)) = true ↔ IsPattern m g := by
  unfold patB IsPattern
  rw [forall_pairs]
  simp [and_assoc]

open Classical in
/-- the number of orderings of a labelled triad that are pattern `m` -/
private noncomputable def cnt (g : Fin 3 → Fin 3 → Prop) (m : Fin 13) : ℕ :=
  (univ.filter fun σ : Equiv.Perm (Fin 3) => IsPattern m fun u v => g (σ u) (σ v)).card

open Classical in
private theorem cnt_eq (g : Fin 3 → Fin 3 → Prop) (m : Fin 13) : cnt g m = cntB (fun u v => decide (g u v)) m := by
  unfold cnt cntB
  have h : ∀ (P : (Fin 3 → Fin 3) → Bool), (univ.filter fun σ : Equiv.Perm (Fin 3) => P σ = true).card = perms3.countP P := by
    intro P
    have h1 : (univ.filter fun σ : Equiv.Perm (Fin 3) => P σ = true).card =
        Multiset.countP (fun s => P s = true) ((univ : Finset (Equiv.Perm (Fin 3))).val.map (fun σ : Equiv.Perm (Fin 3) => (σ : Fin 3 → Fin 3))) := by
      rw [Multiset.countP_map]; rfl
    rw [h1, fin3, Multiset.coe_countP]
    simp
  rw [← h]
  congr 1
  ext σ
  simp only [mem_filter, mem_univ, true_and]
  rw [patB_iff m (fun u v => g (σ u) (σ v))]

open Classical in
private theorem cntB_mk (g : Fin 3 → Fin 3 → Bool) (m : Fin 13) :
    cntB g m = cntB (mk (g 0 1) (g 1 0) (g 0 2) (g 2 0) (g 1 2) (g 2 1)) m := by
  unfold cntB
  refine List.countP_congr fun s hs => ?_
  have : ∀ u v, s u ≠ s v → g (s u) (s v) = mk (g 0 1) (g 1 0) (g 0 2) (g 2 0) (g 1 2) (g 2 1) (s u) (s v) := by
    intro u v
    generalize s u = x
    generalize s v = y
    fin_cases x <;> fin_cases y <;> intro h <;> first | rfl | exact absurd rfl h
  have inj : ∀ s ∈ perms3, s 0 ≠ s 1 ∧ s 1 ≠ s 0 ∧ s 0 ≠ s 2 ∧ s 2 ≠ s 0 ∧ s 1 ≠ s 2 ∧ s 2 ≠ s 1 := by decide
  obtain ⟨h1, h2, h3, h4, h5, h6⟩ := inj s hs
  unfold patB
  beta_reduce
  rw [this 0 1 h1, this 1 0 h2, this 0 2 h3, this 2 0 h4, this 1 2 h5, this 2 1 h6]

open Classical in
private theorem conn_iff (g : Fin 3 → Fin 3 → Prop) :
    connB (decide (g 0 1)) (decide (g 1 0)) (decide (g 0 2)) (decide (g 2 0)) (decide (g 1 2)) (decide (g 2 1)) = true ↔ Connected3 g := by
  unfold connB Connected3
  rw [Fin.forall_fin_succ, Fin.forall_fin_two]
  simp only [Fin.exists_fin_succ, Fin.exists_fin_two]
  simp
  tauto

private theorem aut_eq (m : Fin 13) : triadAut m = cntB (patG m) m := by
  have := cnt_eq (fun u v => (u, v) ∈ triadArcs m) m
  unfold cnt at this
  unfold triadAut
  rw [this]
  congr 1
  funext u v
  unfold patG
  congr

/-- for a fixed labelled triad: connected ones have orderings matching exactly one pattern, and then as many as the pattern has automorphisms -/
private theorem finite_class (g : Fin 3 → Fin 3 → Prop) :
    (Connected3 g → ∃ m, cnt g m = triadAut m ∧ cnt g m ≠ 0 ∧ ∀ m', m' ≠ m → cnt g m' = 0) ∧ (¬ Connected3 g → ∀ m, cnt g m = 0) := by
  classical
  constructor
  · intro hc
    have h1 := fin1 _ _ _ _ _ _ ((conn_iff g).2 hc)
    have e : ∀ m, cntB (mk (decide (g 0 1)) (decide (g 1 0)) (decide (g 0 2)) (decide (g 2 0)) (decide (g 1 2)) (decide (g 2 1))) m = cnt g m := by
      intro m; rw [cnt_eq, cntB_mk (fun u v => decide (g u v))]
    simp only [e] at h1
    have h2 : (univ.filter fun m : Fin 13 => cnt g m ≠ 0).card = 1 := by
      rw [← h1, Finset.card_def]
      show (Multiset.filter _ (Finset.univ : Finset (Fin 13)).val).card = _
      rw [← Multiset.countP_eq_card_filter]
      show Multiset.countP _ (↑(List.finRange 13) : Multiset (Fin 13)) = _
      rw [Multiset.coe_countP]
    obtain ⟨m, hm⟩ := card_eq_one.1 h2
    have hmem : ∀ m', cnt g m' ≠ 0 ↔ m' = m := by
      intro m'
      have : m' ∈ (univ.filter fun m : Fin 13 => cnt g m ≠ 0) ↔ m' ∈ ({m} : Finset (Fin 13)) := by rw [hm]
      simpa using this
    refine ⟨m, ?_, (hmem m).2 rfl, fun m' hne => ?_⟩
    · have := fin2 (decide (g 0 1)) (decide (g 1 0)) (decide (g 0 2)) (decide (g 2 0)) (decide (g 1 2)) (decide (g 2 1)) m
      rw [e] at this
      rcases this with h | h
      · exact absurd h ((hmem m).2 rfl)
      · rw [h.1, aut_eq]
    · by_contra h; exact hne ((hmem m').1 h)
  · intro hc m
    have := fin2 (decide (g 0 1)) (decide (g 1 0)) (decide (g 0 2)) (decide (g 2 0)) (decide (g 1 2)) (decide (g 2 1)) m
    rcases this with h | h
    · rw [cnt_eq, cntB_mk (fun u v => decide (g u v))]; exact h
    · exact absurd ((conn_iff g).1 h.2) hc

/-- C29: every three distinct nodes inducing a connected subgraph are counted by exactly one of the thirteen counters (in some order). -/
theorem C29_exactly_one (G : Fin n → Fin n → Prop) (t : Fin 3 → Fin n) (ht : Function.Injective t) (hc : Connected3 fun u v => G (t u) (t v)) :
    ∃! m, ∃ σ : Equiv.Perm (Fin 3), Induces G m (t ∘ σ) := by
  classical
  obtain ⟨m, _, hm, hm'⟩ := (finite_class fun u v => G (t u) (t v)).1 hc
  have key : ∀ m', (∃ σ : Equiv.Perm (Fin 3), Induces G m' (t ∘ σ)) ↔ cnt (fun u v => G (t u) (t v)) m' ≠ 0 := by
    intro m'
    unfold cnt
    rw [card_ne_zero]
    constructor
    · rintro ⟨σ, hσ⟩; exact ⟨σ, by simpa using hσ.2⟩
    · rintro ⟨σ, hσ⟩
      refine ⟨σ, ht.comp σ.injective, ?_⟩
      simpa using hσ
  refine ⟨m, (key m).2 hm, fun m' h => ?_⟩
  by_contra hne
  exact (key m').1 h (hm' m' hne)

/-- C29: only connected triads are counted. -/
theorem C29_only_connected (G : Fin n → Fin n → Prop) (m : Fin 13) (t : Fin 3 → Fin n) (h : Induces G m t) : Connected3 fun u v => G (t u) (t v) := by
  classical
  by_contra hc
  have h0 := (finite_class fun u v => G (t u) (t v)).2 hc m
  unfold cnt at h0
  rw [card_eq_zero] at h0
  have : (1 : Equiv.Perm (Fin 3)) ∈ (univ.filter fun σ : Equiv.Perm (Fin 3) => IsPattern m fun u v => G (t (σ u)) (t (σ v))) := by
    simpa using h.2
  rw [h0] at this
  simp at this

open Classical in
/-- C29: the triad census.  Weighting each counter with `6 / |Aut|` of its pattern, the thirteen counts add up to the number of ordered triples of distinct
nodes that induce a connected subgraph. -/
theorem C29_census (G : Fin n → Fin n → Prop) :
    ∑ m, 6 / (triadAut m : ℝ) * count3 m (adj G) =
      (univ.filter fun t : Fin 3 → Fin n => Function.Injective t ∧ Connected3 fun u v => G (t u) (t v)).card := by
  have hσ : ∀ (m : Fin 13) (σ : Equiv.Perm (Fin 3)), count3 m (adj G) = ∑ t : Fin 3 → Fin n, if Induces G m (t ∘ σ) then 1 else 0 := by
    intro m σ
    rw [count3_embeddings]
    exact (Equiv.sum_comp (Equiv.arrowCongr σ.symm (Equiv.refl (Fin n))) (fun t => if Induces G m t then (1 : ℝ) else 0)).symm
  have h6 : ∀ m, 6 / (triadAut m : ℝ) * count3 m (adj G) = ∑ t : Fin 3 → Fin n, ∑ σ : Equiv.Perm (Fin 3), 1 / (triadAut m : ℝ) * if Induces G m (t ∘ σ) then 1 else 0 := by
    intro m
    rw [sum_comm]
    simp only [← mul_sum, ← hσ]
    rw [sum_const, card_univ, Fintype.card_perm, Fintype.card_fin]
    simp [Nat.factorial]
    ring
  simp only [h6]
  rw [sum_comm, card_filter]
  push_cast
  refine sum_congr rfl fun t _ => ?_
  by_cases ht : Function.Injective t
  · have hcnt : ∀ m, (∑ σ : Equiv.Perm (Fin 3), 1 / (triadAut m : ℝ) * if Induces G m (t ∘ σ) then 1 else 0) =
        1 / (triadAut m : ℝ) * cnt (fun u v => G (t u) (t v)) m := by
      intro m
      rw [← mul_sum]
      congr 1
      unfold cnt
      rw [card_filter]
      push_cast
      refine sum_congr rfl fun σ _ => if_congr ?_ rfl rfl
      exact ⟨fun h => h.2, fun h => ⟨ht.comp σ.injective, h⟩⟩
    simp only [hcnt]
    by_cases hc : Connected3 fun u v => G (t u) (t v)
    · rw [if_pos ⟨ht, hc⟩]
      obtain ⟨m, h1, h2, h3⟩ := (finite_class fun u v => G (t u) (t v)).1 hc
      rw [sum_eq_single m]
      · rw [h1] at h2 ⊢
        have : (triadAut m : ℝ) ≠ 0 := by exact_mod_cast h2
        exact one_div_mul_cancel this
      · intro m' _ hne; rw [h3 m' hne]; simp
      · intro h; exact absurd (mem_univ m) h
    · rw [if_neg (fun h => hc h.2)]
      exact sum_eq_zero fun m _ => by rw [(finite_class fun u v => G (t u) (t v)).2 hc m]; simp
  · rw [if_neg (fun h => ht h.1)]
    refine sum_eq_zero fun m _ => sum_eq_zero fun σ _ => ?_
    rw [if_neg, mul_zero]
    rintro ⟨hi, _⟩
    apply ht
    have := hi.comp σ.symm.injective
    rwa [Function.comp_assoc, Equiv.self_comp_symm, Function.comp_id] at this

/-- a concrete connected triple: in the digraph 0 ⇄ 1 → 2 the triple (0,1,2) is an instance of motif 3 -/
example : Induces (n := 3) (fun i j : Fin 3 => (i, j) ∈ [((0 : Fin 3), (1 : Fin 3)), (1, 0), (1, 2)]) 2 id ∧
    Connected3 (fun i j : Fin 3 => (i, j) ∈ [((0 : Fin 3), (1 : Fin 3)), (1, 0), (1, 2)]) := by
  refine ⟨⟨fun _ _ h => h, ?_⟩, ?_⟩
  · unfold IsPattern; decide
  · unfold Connected3; decide

theorem count3s_eq (m : Fin 13) (a : Fin n → Fin n → ℝ) : count3s m a =
    ∑ i, ∑ j, ∑ k, if pyIsNot j i ∧ pyIsNot k j ∧ pyIsNot k i ∧ pyIsNot i j then term6 m (a i j) (a j i) (a i k) (a k i) (a j k) (a k j) else 0 := by
  fin_cases m <;> exact tripleLoop_eq' _ _

/-- C29: the sparse counters agree with the dense ones on networks of at most 257 nodes (any matrix). -/
theorem C29_sparse_agrees_small (hn : n ≤ 257) (a : Fin n → Fin n → ℝ) (m : Fin 13) : count3s m a = count3 m a := by
  rw [count3s_eq, count3_eq]
  unfold T6 T
  refine sum_congr rfl fun i _ => sum_congr rfl fun j _ => sum_congr rfl fun k _ => if_congr ?_ rfl rfl
  have hi : ¬ 256 < i.val := by omega
  have hj : ¬ 256 < j.val := by omega
  have hk : ¬ 256 < k.val := by omega
  simp only [pyIsNot, hi, hj, hk, or_false]
  constructor
  · rintro ⟨h1, h2, h3, _⟩; exact ⟨h1, h2, h3⟩
  · rintro ⟨h1, h2, h3⟩; exact ⟨h1, h2, h3, Ne.symm h1⟩

open Classical in
/-- C29: on a loop-free digraph of any size the sparse counters agree with the dense ones for the motifs 2, 3, 5, 6, 7, 9, 10, 11, 12, 13. -/
theorem C29_sparse_agrees_most (G : Fin n → Fin n → Prop) (hloop : ∀ i, ¬ G i i) (m : Fin 13) (hm : m ≠ 0 ∧ m ≠ 3 ∧ m ≠ 7) :
    count3s m (adj G) = count3 m (adj G) := by
  rw [count3s_eq, count3_eq]
  unfold T6 T
  refine sum_congr rfl fun i _ => sum_congr rfl fun j _ => sum_congr rfl fun k _ => ?_
  by_cases hd : j ≠ i ∧ k ≠ j ∧ k ≠ i
  · rw [if_pos hd, if_pos ⟨Or.inl hd.1, Or.inl hd.2.1, Or.inl hd.2.2, Or.inl (Ne.symm hd.1)⟩]
  · rw [if_neg hd]
    have hz : term6 m (adj G i j) (adj G j i) (adj G i k) (adj G k i) (adj G j k) (adj G k j) = 0 := by
      have hdiag : ∀ i, adj G i i = 0 := fun i => by simp [adj, hloop]
      have h01 : ∀ i j, adj G i j = 0 ∨ adj G i j = 1 := fun i j => by unfold adj; split <;> simp
      have f1 : ∀ m : Fin 13, m ≠ 3 → (0, 1) ∈ triadArcs m ∨ (1, 0) ∈ triadArcs m := by decide
      have f2 : ∀ m : Fin 13, (1, 2) ∈ triadArcs m ∨ (2, 1) ∈ triadArcs m := by decide
      have f3 : ∀ m : Fin 13, m ≠ 0 → m ≠ 7 → ((0, 2) ∈ triadArcs m ∨ (2, 0) ∈ triadArcs m) ∨ m = 1 ∨ m = 2 ∨ m = 6 ∨ m = 3 := by decide
      have lt : lit true 0 = 0 := rfl
      rw [term6_lit]
      by_cases h1 : j = i
      · rw [h1, hdiag]
        rcases f1 m hm.2.1 with h | h <;> rw [decide_eq_true h, lt] <;> ring
      by_cases h2 : k = j
      · rw [h2, hdiag]
        rcases f2 m with h | h <;> rw [decide_eq_true h, lt] <;> ring
      · have h3 : k = i := by
          by_contra h3; exact hd ⟨h1, h2, h3⟩
        rw [h3, hdiag]
        rcases f3 m hm.1 hm.2.2 with (h | h) | h | h | h | h
        · rw [decide_eq_true h, lt]; ring
        · rw [decide_eq_true h, lt]; ring
        · rw [h, ← term6_lit]
          show adj G i j * (1 - adj G j i) * (1 - 0) * (1 - 0) * adj G j i * (1 - adj G i j) = 0
          rcases h01 i j with e | e <;> rw [e] <;> ring
        · rw [h, ← term6_lit]
          show adj G i j * adj G j i * (1 - 0) * (1 - 0) * adj G j i * (1 - adj G i j) = 0
          rcases h01 i j with e | e <;> rw [e] <;> ring
        · rw [h, ← term6_lit]
          show adj G i j * adj G j i * (1 - 0) * (1 - 0) * (1 - adj G j i) * adj G i j = 0
          rcases h01 j i with e | e <;> rw [e] <;> ring
        · exact absurd h hm.2.1
    simp [hz]

open Classical in
/-- C29: for every size above 257 the sparse counter of motif 1 differs from the dense one: on the digraph with the single arc 0 → 257 the dense counter
reports 0 (there is no triad at all) and the sparse one 1. -/
theorem C29_sparse_differs (hn : 257 < n) :
    count_3motif_1 (.dense (adj (n := n) fun i j => i.val = 0 ∧ j.val = 257)) = some 0 ∧
    count_3motif_1 (.sparse (adj (n := n) fun i j => i.val = 0 ∧ j.val = 257)) = some 1 := by
  have hterm : ∀ i j k : Fin n, term6 0 (adj (fun i j : Fin n => i.val = 0 ∧ j.val = 257) i j) (adj (fun i j : Fin n => i.val = 0 ∧ j.val = 257) j i)
      (adj (fun i j : Fin n => i.val = 0 ∧ j.val = 257) i k) (adj (fun i j : Fin n => i.val = 0 ∧ j.val = 257) k i)
      (adj (fun i j : Fin n => i.val = 0 ∧ j.val = 257) j k) (adj (fun i j : Fin n => i.val = 0 ∧ j.val = 257) k j) =
      if i = ⟨257, hn⟩ then if j = ⟨0, by omega⟩ then if k = ⟨257, hn⟩ then 1 else 0 else 0 else 0 := by
    intro i j k
    show (1 - adj _ i j) * adj _ j i * (1 - adj _ i k) * (1 - adj _ k i) * adj _ j k * (1 - adj _ k j) = _
    by_cases hi : i = ⟨257, hn⟩
    · by_cases hj : j = ⟨0, by omega⟩
      · by_cases hk : k = ⟨257, hn⟩
        · subst hi; subst hj; subst hk; simp [adj]
        · have : k.val ≠ 257 := fun h => hk (Fin.ext h)
          simp [adj, hi, hj, hk, this]
      · have : j.val ≠ 0 := fun h => hj (Fin.ext h)
        simp [adj, hi, hj, this]
    · have : i.val ≠ 257 := fun h => hi (Fin.ext h)
      simp [adj, hi, this]
  constructor
  · rw [(C29_api _).1]
    refine congrArg some ?_
    rw [count3_eq]
    unfold T6 T
    refine sum_eq_zero fun i _ => sum_eq_zero fun j _ => sum_eq_zero fun k _ => ?_
    beta_reduce
    rw [hterm]
    split
    · rename_i h
      split
      · split
        · split
          · rename_i h1 h2 h3; exact absurd (h3.trans h1.symm) h.2.2
          · rfl
        · rfl
      · rfl
    · rfl
  · rw [(C29_api_sparse _).1]
    refine congrArg some ?_
    rw [count3s_eq]
    simp only [hterm]
    rw [sum_eq_single ⟨257, hn⟩, sum_eq_single ⟨0, by omega⟩, sum_eq_single ⟨257, hn⟩]
    · simp [pyIsNot]
    · intro k _ hk; simp [hk]
    · simp
    · intro j _ hj; simp [hj]
    · simp
    · intro i _ hi; simp [hi]
    · simp

end Verif.Motif
