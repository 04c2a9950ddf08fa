import Verif.Model.Network
import Mathlib.Data.List.Sort
import Mathlib.Data.Finset.Card

/-! Lemmas on the model of `network_functions.py`. -/

namespace Verif.Net

open Finset

/-- the weight of the last element satisfying `P`, or zero -/
noncomputable def lastWrite {ε : Type} (P : ε → Prop) [DecidablePred P] (w : ε → ℝ) (l : List ε) : ℝ :=
  match (l.filter (fun e => decide (P e))).getLast? with
  | some e => w e
  | none => 0

theorem write_ok {n : ℕ} (adj : Fin n → Fin n → ℝ) (i j : ℕ) (v : ℝ) (hi : i < n) (hj : j < n) :
    write n adj i j v = .ok (fun a b => if a.val = i ∧ b.val = j then v else adj a b) := by
  unfold write
  rw [dif_pos ⟨hi, hj⟩]
  congr 1
  funext a b
  unfold setAt2
  by_cases ha : a.val = i
  · have : a = ⟨i, hi⟩ := Fin.ext ha
    subst this
    rw [Function.update_self]
    by_cases hb : b.val = j
    · have : b = ⟨j, hj⟩ := Fin.ext hb
      subst this
      simp
    · have : b ≠ ⟨j, hj⟩ := fun h => hb (by rw [h])
      rw [Function.update_of_ne this]; simp [hb]
  · have : a ≠ ⟨i, hi⟩ := fun h => ha (by rw [h])
    rw [Function.update_of_ne this]; simp [ha]

theorem write_bad {n : ℕ} (adj : Fin n → Fin n → ℝ) (i j : ℕ) (v : ℝ) (h : ¬ (i < n ∧ j < n)) : write n adj i j v = .error .outOfBounds := by
  unfold write; rw [dif_neg h]

/-- one iteration of the directed / undirected weighted loop -/
def wstep (n : ℕ) (d : Bool) (adj : Fin n → Fin n → ℝ) (e : ℕ × ℕ × ℝ) : Except Err (Fin n → Fin n → ℝ) :=
  if d then write n adj e.1 e.2.1 e.2.2 else do
    let adj ← write n adj e.1 e.2.1 e.2.2
    write n adj e.2.1 e.1 e.2.2

/-- does the edge write the entry `(a, b)`? -/
abbrev hits (d : Bool) (a b : ℕ) (e : ℕ × ℕ × ℝ) : Prop := (e.1 = a ∧ e.2.1 = b) ∨ (d = false ∧ e.1 = b ∧ e.2.1 = a)

theorem wstep_ok {n : ℕ} (d : Bool) (adj : Fin n → Fin n → ℝ) (e : ℕ × ℕ × ℝ) (h1 : e.1 < n) (h2 : e.2.1 < n) :
    wstep n d adj e = .ok (fun a b => if hits d a b e then e.2.2 else adj a b) := by
  unfold wstep
  cases d
  · rw [if_neg (by simp), write_ok _ _ _ _ h1 h2]
    show write n _ _ _ _ = _
    rw [write_ok _ _ _ _ h2 h1]
    congr 1
    funext a b
    by_cases ha : a.val = e.2.1 ∧ b.val = e.1
    · rw [if_pos ha, if_pos (Or.inr ⟨rfl, ha.2.symm, ha.1.symm⟩)]
    · rw [if_neg ha]
      by_cases hb : a.val = e.1 ∧ b.val = e.2.1
      · rw [if_pos hb, if_pos (Or.inl ⟨hb.1.symm, hb.2.symm⟩)]
      · rw [if_neg hb, if_neg]
        rintro (h | h)
        · exact hb ⟨h.1.symm, h.2.symm⟩
        · exact ha ⟨h.2.2.symm, h.2.1.symm⟩
  · rw [if_pos rfl, write_ok _ _ _ _ h1 h2]
    congr 1
    funext a b
    simp [hits, eq_comm]

theorem wstep_bad {n : ℕ} (d : Bool) (adj : Fin n → Fin n → ℝ) (e : ℕ × ℕ × ℝ) (h : ¬ (e.1 < n ∧ e.2.1 < n)) : wstep n d adj e = .error .outOfBounds := by
  unfold wstep
  cases d
  · rw [if_neg (by simp), write_bad _ _ _ _ h]; rfl
  · rw [if_pos rfl, write_bad _ _ _ _ h]

theorem fold_ok {n : ℕ} (d : Bool) (l : List (ℕ × ℕ × ℝ)) (h : ∀ e ∈ l, e.1 < n ∧ e.2.1 < n) :
    l.foldlM (wstep n d) (fun _ _ => 0) = .ok (fun a b => lastWrite (hits d a b) (fun e => e.2.2) l) := by
  induction l using List.reverseRecOn with
  | nil => rfl
  | append_singleton l e ih =>
    rw [List.foldlM_append, ih (fun e he => h e (List.mem_append_left _ he))]
    show List.foldlM (wstep n d) _ [e] = _
    rw [List.foldlM_cons]
    have he := h e (by simp)
    rw [wstep_ok _ _ _ he.1 he.2]
    show Except.ok _ = _
    congr 1
    funext a b
    unfold lastWrite
    rw [List.filter_append]
    by_cases hh : hits d a b e
    · rw [if_pos hh, List.filter_cons_of_pos (by simpa using hh)]
      simp
    · rw [if_neg hh, List.filter_cons_of_neg (by simpa using hh)]
      simp

theorem fold_bad {n : ℕ} (d : Bool) (l : List (ℕ × ℕ × ℝ)) (h : ∃ e ∈ l, ¬ (e.1 < n ∧ e.2.1 < n)) (a0 : Fin n → Fin n → ℝ) :
    l.foldlM (wstep n d) a0 = .error .outOfBounds := by
  induction l generalizing a0 with
  | nil => simp at h
  | cons e l ih =>
    rw [List.foldlM_cons]
    by_cases he : e.1 < n ∧ e.2.1 < n
    · rw [wstep_ok _ _ _ he.1 he.2]
      apply ih
      obtain ⟨e', he', hb⟩ := h
      rcases List.mem_cons.1 he' with rfl | h'
      · exact absurd he hb
      · exact ⟨e', h', hb⟩
    · rw [wstep_bad _ _ _ he]; rfl

theorem weighted_eq (l : List (ℕ × ℕ × ℝ)) (d : Bool) : build_adjacency_fast_weighted l d =
    (l.foldlM (wstep (nNodes (l.map fun e => e.1) (l.map fun e => e.2.1)) d) (fun _ _ => 0)).map
      (fun adj => (⟨nNodes (l.map fun e => e.1) (l.map fun e => e.2.1), adj⟩ : SqMat)) := by
  cases d <;> rfl

theorem fast_eq (l : List (ℕ × ℕ)) (d : Bool) : build_adjacency_fast l d = build_adjacency_fast_weighted (l.map fun e => (e.1, e.2, (1 : ℝ))) d := by
  have h1 : ((l.map fun e => (e.1, e.2, (1 : ℝ))).map fun e => e.1) = l.map Prod.fst := by rw [List.map_map]; rfl
  have h2 : ((l.map fun e => (e.1, e.2, (1 : ℝ))).map fun e => e.2.1) = l.map Prod.snd := by rw [List.map_map]; rfl
  unfold build_adjacency_fast build_adjacency_fast_weighted
  rw [h1, h2]
  simp only [List.foldlM_map]

theorem nNodes_eq {n : ℕ} (l : List (ℕ × ℕ × ℝ)) (h : ∀ k, k < n ↔ ∃ e ∈ l, e.1 = k ∨ e.2.1 = k) :
    nNodes (l.map fun e => e.1) (l.map fun e => e.2.1) = n := by
  unfold nNodes
  have : (l.map fun e => e.1).toFinset ∪ (l.map fun e => e.2.1).toFinset = range n := by
    ext k
    simp only [mem_union, List.mem_toFinset, List.mem_map, mem_range, h]
    constructor
    · rintro (⟨e, he, rfl⟩ | ⟨e, he, rfl⟩)
      · exact ⟨e, he, Or.inl rfl⟩
      · exact ⟨e, he, Or.inr rfl⟩
    · rintro ⟨e, he, h | h⟩
      · exact Or.inl ⟨e, he, h⟩
      · exact Or.inr ⟨e, he, h⟩
  rw [this, card_range]

theorem weighted_ok {n : ℕ} (l : List (ℕ × ℕ × ℝ)) (d : Bool) (h : ∀ k, k < n ↔ ∃ e ∈ l, e.1 = k ∨ e.2.1 = k) :
    build_adjacency_fast_weighted l d = .ok ⟨n, fun a b => lastWrite (hits d a b) (fun e => e.2.2) l⟩ := by
  rw [weighted_eq, nNodes_eq l h, fold_ok]
  · rfl
  · intro e he
    exact ⟨(h _).2 ⟨e, he, Or.inl rfl⟩, (h _).2 ⟨e, he, Or.inr rfl⟩⟩

theorem weighted_bad (l : List (ℕ × ℕ × ℝ)) (d : Bool)
    (h : ¬ ∃ n, ∀ k, k < n ↔ ∃ e ∈ l, e.1 = k ∨ e.2.1 = k) : build_adjacency_fast_weighted l d = .error .outOfBounds := by
  rw [weighted_eq, fold_bad]
  · rfl
  · by_contra hc
    push Not at hc
    refine h ⟨nNodes (l.map fun e => e.1) (l.map fun e => e.2.1), ?_⟩
    have hsub : (l.map fun e => e.1).toFinset ∪ (l.map fun e => e.2.1).toFinset ⊆ range (nNodes (l.map fun e => e.1) (l.map fun e => e.2.1)) := by
      intro k hk
      simp only [mem_union, List.mem_toFinset, List.mem_map] at hk
      rw [mem_range]
      rcases hk with ⟨e, he, rfl⟩ | ⟨e, he, rfl⟩
      · exact (hc e he).1
      · exact (hc e he).2
    have heq := eq_of_subset_of_card_le hsub (by rw [card_range]; exact le_rfl)
    intro k
    rw [← mem_range, ← heq]
    simp only [mem_union, List.mem_toFinset, List.mem_map]
    constructor
    · rintro (⟨e, he, rfl⟩ | ⟨e, he, rfl⟩)
      · exact ⟨e, he, Or.inl rfl⟩
      · exact ⟨e, he, Or.inr rfl⟩
    · rintro ⟨e, he, h | h⟩
      · exact Or.inl ⟨e, he, h⟩
      · exact Or.inr ⟨e, he, h⟩

theorem lastWrite_one {ε : Type} (P : ε → Prop) [DecidablePred P] (w : ε → ℝ) (l : List ε) (hw : ∀ e ∈ l, w e = 1) [Decidable (∃ e ∈ l, P e)] :
    lastWrite P w l = if ∃ e ∈ l, P e then 1 else 0 := by
  unfold lastWrite
  cases h : (l.filter (fun e => decide (P e))).getLast? with
  | none =>
    rw [List.getLast?_eq_none_iff, List.filter_eq_nil_iff] at h
    rw [if_neg]
    rintro ⟨e, he, hp⟩
    exact h e he (by simpa using hp)
  | some e =>
    have hm := List.mem_of_getLast? h
    rw [List.mem_filter] at hm
    rw [if_pos ⟨e, hm.1, by simpa using hm.2⟩]
    exact hw e hm.1

/-! ### `np.unique` -/

theorem runs_head {β : Type} [DecidableEq β] (a : β) (l : List β) : ∃ c r, runs (a :: l) = (a, c + 1) :: r := by
  cases h : runs l with
  | nil => exact ⟨0, [], by simp [runs, h]⟩
  | cons p r =>
    obtain ⟨b, c⟩ := p
    by_cases hab : a = b
    · subst hab; exact ⟨c, r, by simp [runs, h]⟩
    · exact ⟨0, (b, c) :: r, by simp [runs, h, hab]⟩

/-- `np.unique` on a sorted list: strictly sorted keys, and the counts are the multiplicities -/
theorem runs_spec {β : Type} [LinearOrder β] (l : List β) (hs : l.Pairwise (· ≤ ·)) :
    (runs l).Pairwise (fun p q => p.1 < q.1) ∧ (∀ a, a ∈ (runs l).map Prod.fst ↔ a ∈ l) ∧ ∀ p ∈ runs l, p.2 = l.count p.1 := by
  induction l with
  | nil => simp [runs]
  | cons a l ih =>
    rw [List.pairwise_cons] at hs
    obtain ⟨ih1, ih2, ih3⟩ := ih hs.2
    cases h : runs l with
    | nil =>
      have hl : l = [] := by
        cases l with
        | nil => rfl
        | cons b l => obtain ⟨c, r, h'⟩ := runs_head b l; rw [h'] at h; simp at h
      subst hl
      simp [runs]
    | cons p r =>
      obtain ⟨b, c⟩ := p
      have hb : b ∈ l := by rw [← ih2, h]; simp
      have hab := hs.1 b hb
      rw [h] at ih1 ih2 ih3
      by_cases heq : a = b
      · subst heq
        have hr : runs (a :: l) = (a, c + 1) :: r := by simp [runs, h]
        rw [hr]
        refine ⟨?_, ?_, ?_⟩
        · rw [List.pairwise_cons] at ih1 ⊢; exact ih1
        · intro x
          have := ih2 x
          simp only [List.map_cons, List.mem_cons] at this ⊢
          tauto
        · intro p hp
          rcases List.mem_cons.1 hp with rfl | hp'
          · have := ih3 (a, c) (by simp)
            simp only at this ⊢
            rw [this, List.count_cons_self]
          · have h1 := ih3 p (by simp [hp'])
            rw [List.pairwise_cons] at ih1
            have h2 := ih1.1 p hp'
            rw [h1, List.count_cons_of_ne h2.ne]
      · have hr : runs (a :: l) = (a, 1) :: (b, c) :: r := by simp [runs, h, heq]
        have hlt : ∀ x ∈ l, a < x := by
          intro x hx
          rw [← ih2] at hx
          simp only [List.map_cons, List.mem_cons, List.mem_map] at hx
          have hab' : a < b := lt_of_le_of_ne hab heq
          rcases hx with rfl | ⟨q, hq, rfl⟩
          · exact hab'
          · rw [List.pairwise_cons] at ih1
            exact hab'.trans (ih1.1 q hq)
        have hna : a ∉ l := fun h => lt_irrefl a (hlt a h)
        rw [hr]
        refine ⟨?_, ?_, ?_⟩
        · rw [List.pairwise_cons]
          refine ⟨fun q hq => hlt _ ?_, ih1⟩
          rw [← ih2]; exact List.mem_map_of_mem hq
        · intro x
          rw [List.map_cons, List.mem_cons, ih2 x, List.mem_cons]
        · intro p hp
          rcases List.mem_cons.1 hp with rfl | hp'
          · simp [List.count_eq_zero.2 hna]
          · have h1 := ih3 p hp'
            have h2 : p.1 ∈ l := by rw [← ih2]; exact List.mem_map_of_mem hp'
            have h3 : a ≠ p.1 := fun h => hna (h ▸ h2)
            rw [h1, List.count_cons_of_ne h3]

theorem npUnique_spec {β : Type} [LinearOrder β] (l : List β) :
    ((npUnique l).map Prod.fst).Pairwise (· < ·) ∧ (∀ a, a ∈ (npUnique l).map Prod.fst ↔ a ∈ l) ∧ ∀ p ∈ npUnique l, p.2 = l.count p.1 := by
  have hs : (l.mergeSort fun a b => decide (a ≤ b)).Pairwise (· ≤ ·) := by
    have := List.pairwise_mergeSort (le := fun a b : β => decide (a ≤ b)) (fun a b c h1 h2 => by simp at *; exact h1.trans h2)
      (fun a b => by simp; exact le_total a b) l
    exact this.imp (fun h => by simpa using h)
  have := runs_spec _ hs
  refine ⟨?_, fun a => ?_, fun p hp => ?_⟩
  · rw [List.pairwise_map]; exact this.1
  · rw [npUnique, this.2.1]; exact List.mem_mergeSort
  · rw [this.2.2 p hp]; exact (List.mergeSort_perm l _).count_eq _

/-! ### dictionaries -/

theorem mapM_ok {α β : Type} (l : List α) (f : α → Except Err β) (g : α → β) (h : ∀ x ∈ l, f x = .ok (g x)) : l.mapM f = .ok (l.map g) := by
  induction l with
  | nil => rfl
  | cons a l ih =>
    rw [List.mapM_cons, h a (by simp), ih fun x hx => h x (by simp [hx])]
    rfl

variable {α : Type} [LinearOrder α]

theorem invDict_aux (u : List α) (hu : u.Nodup) (o : ℕ) (f : α → Option ℕ) (a : α) :
    forL ((u.zipIdx o).map fun p => (p.2, p.1)) (fun (kv : ℕ × α) (f : α → Option ℕ) => Function.update f kv.2 (some kv.1)) f a = if a ∈ u then some (o + u.idxOf a) else f a := by
  induction u generalizing o f with
  | nil => simp [forL]
  | cons b u ih =>
    rw [List.nodup_cons] at hu
    rw [List.zipIdx_cons, List.map_cons, forL_cons, ih hu.2]
    by_cases hau : a ∈ u
    · have hne : b ≠ a := fun h => hu.1 (h ▸ hau)
      rw [if_pos hau, if_pos (by simp [hau]), List.idxOf_cons_ne _ hne]
      congr 1; omega
    · rw [if_neg hau]
      by_cases hab : a = b
      · subst hab; simp
      · rw [Function.update_of_ne hab, if_neg (by simp [hau, hab])]

theorem invDict_eq (u : List α) (hu : u.Nodup) (a : α) (ha : a ∈ u) : lookup (invDict (enumDict u)) a = .ok (u.idxOf a) := by
  unfold lookup invDict enumDict
  rw [invDict_aux u hu 0 _ a, if_pos ha, Nat.zero_add]

theorem enum_lookup (u : List α) (o k : ℕ) (hk : o ≤ k) : ((u.zipIdx o).map fun p => (p.2, p.1)).lookup k = u[k - o]? := by
  induction u generalizing o with
  | nil => simp
  | cons b u ih =>
    rw [List.zipIdx_cons, List.map_cons, List.lookup_cons]
    by_cases h : k = o
    · subst h; simp
    · have : (k == o) = false := by simpa using h
      rw [this]
      simp only
      rw [ih (o + 1) (by omega)]
      have : k - o = (k - (o + 1)) + 1 := by omega
      rw [this, List.getElem?_cons_succ]

theorem enumDict_lookup (u : List α) (k : ℕ) : (enumDict u).lookup k = u[k]? := by
  have := enum_lookup u 0 k (Nat.zero_le _)
  rwa [Nat.sub_zero] at this

theorem enumDict_fst (u : List α) : (enumDict u).map Prod.fst = List.range u.length := by
  unfold enumDict
  rw [List.map_map]
  have : (Prod.fst ∘ fun p : α × ℕ => (p.2, p.1)) = Prod.snd := rfl
  rw [this, List.zipIdx_map_snd, List.range_eq_range']

theorem enumDict_snd (u : List α) : (enumDict u).map Prod.snd = u := by
  unfold enumDict
  rw [List.map_map]
  have : (Prod.snd ∘ fun p : α × ℕ => (p.2, p.1)) = Prod.fst := rfl
  rw [this, List.zipIdx_map_fst]

theorem enumDict_length (u : List α) : (enumDict u).length = u.length := by unfold enumDict; simp

theorem mem_enumDict (u : List α) (k : ℕ) (a : α) : (k, a) ∈ enumDict u ↔ u[k]? = some a := by
  unfold enumDict
  rw [List.mem_map]
  constructor
  · rintro ⟨⟨b, j⟩, h, h2⟩
    simp only [Prod.mk.injEq] at h2
    obtain ⟨rfl, rfl⟩ := h2
    exact List.mem_zipIdx_iff_getElem?.1 h
  · intro h
    exact ⟨(a, k), List.mem_zipIdx_iff_getElem?.2 h, rfl⟩

theorem fancySet_ok {β : Type} (iv : List (ℕ × β)) (a : List β) (hlt : ∀ p ∈ iv, p.1 < a.length) (hnd : (iv.map Prod.fst).Nodup) :
    ∃ a', fancySet a iv = .ok a' ∧ a'.length = a.length ∧ (∀ p ∈ iv, a'[p.1]? = some p.2) ∧ ∀ k, k ∉ iv.map Prod.fst → a'[k]? = a[k]? := by
  induction iv generalizing a with
  | nil => exact ⟨a, rfl, rfl, by simp, fun _ _ => rfl⟩
  | cons p iv ih =>
    rw [List.map_cons, List.nodup_cons] at hnd
    have hp := hlt p (by simp)
    obtain ⟨a', h1, h2, h3, h4⟩ := ih (a.set p.1 p.2) (fun q hq => by rw [List.length_set]; exact hlt q (by simp [hq])) hnd.2
    refine ⟨a', ?_, by rw [h2, List.length_set], ?_, ?_⟩
    · unfold fancySet
      rw [List.foldlM_cons, if_pos hp]
      exact h1
    · intro q hq
      rcases List.mem_cons.1 hq with rfl | hq'
      · rw [h4 _ hnd.1, List.getElem?_set_self hp]
      · exact h3 q hq'
    · intro k hk
      simp only [List.map_cons, List.mem_cons, not_or] at hk
      rw [h4 k hk.2, List.getElem?_set_ne (Ne.symm hk.1)]

end Verif.Net
