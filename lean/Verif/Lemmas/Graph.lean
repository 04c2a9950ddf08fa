import Verif.Spec.Graph
import Verif.Props.Network

namespace Verif.Graph

open Net Spec

/-! ### Sequences -/

theorem good_of_not {l : List (Option ℝ)} (h1 : ¬ NonNumeric l) (h2 : ¬ HasNegativeItem l) : GoodSeq l := by
  intro o ho
  cases o with
  | none => exact absurd ho h1
  | some r => exact ⟨r, rfl, not_lt.1 fun hr => h2 ⟨r, ho, hr⟩⟩

theorem not_nonNumeric {l : List (Option ℝ)} (h : GoodSeq l) : ¬ NonNumeric l := fun hn => by
  obtain ⟨r, hr, _⟩ := h none hn; cases hr

theorem not_negative {l : List (Option ℝ)} (h : GoodSeq l) : ¬ HasNegativeItem l := fun ⟨r, hr, hlt⟩ => by
  obtain ⟨r', hr', h0⟩ := h _ hr
  cases hr'; linarith

theorem map_getD {l : List (Option ℝ)} (h : ¬ NonNumeric l) : l.map (fun o => o.getD 0) = numbers l := by
  induction l with
  | nil => rfl
  | cons a l ih =>
    cases a with
    | none => exact absurd (List.mem_cons_self ..) h
    | some r =>
      have := ih fun hn => h (List.mem_cons_of_mem _ hn)
      unfold numbers at this ⊢
      simp [this]

theorem numbers_length {l : List (Option ℝ)} (h : GoodSeq l) : (numbers l).length = l.length := by
  rw [← map_getD (not_nonNumeric h), List.length_map]

theorem checkSeq_good {l : List (Option ℝ)} (h : GoodSeq l) : checkSeq l = .ok (numbers l) := by
  have hn := not_nonNumeric h
  have h1 : l.head? ≠ some none := fun hh => hn (List.mem_of_mem_head? hh)
  unfold checkSeq
  rw [if_neg h1, if_neg (show ¬ none ∈ l from hn)]
  simp only
  rw [map_getD hn, if_neg]
  rintro ⟨r, hr, hlt⟩
  unfold numbers at hr
  rw [List.mem_filterMap] at hr
  obtain ⟨o, ho, rfl⟩ := hr
  exact not_negative h ⟨r, ho, hlt⟩

theorem checkSeq_type {l : List (Option ℝ)} (h : NonNumeric l) : checkSeq l = .error .typeError := by
  unfold checkSeq
  split_ifs with h1 h2
  · rfl
  · rfl
  · exact absurd h h2

theorem checkSeq_value {l : List (Option ℝ)} (hn : ¬ NonNumeric l) (h : HasNegativeItem l) : checkSeq l = .error .valueError := by
  have h1 : l.head? ≠ some none := fun hh => hn (List.mem_of_mem_head? hh)
  unfold checkSeq
  rw [if_neg h1, if_neg (show ¬ none ∈ l from hn)]
  simp only
  rw [map_getD hn, if_pos]
  obtain ⟨r, hr, hlt⟩ := h
  exact ⟨r, by unfold numbers; rw [List.mem_filterMap]; exact ⟨_, hr, rfl⟩, hlt⟩

theorem checkSeq_bad {l : List (Option ℝ)} {x : Exc} (h : BadSeq l x) : checkSeq l = .error x := by
  cases x <;> simp only [BadSeq] at h
  · exact checkSeq_type h
  · exact checkSeq_value h.1 h.2

/-- every sequence is good or bad -/
theorem seq_cases (l : List (Option ℝ)) : GoodSeq l ∨ ∃ x, BadSeq l x := by
  by_cases h1 : NonNumeric l
  · exact Or.inr ⟨.typeError, h1⟩
  · by_cases h2 : HasNegativeItem l
    · exact Or.inr ⟨.valueError, h1, h2⟩
    · exact Or.inl (good_of_not h1 h2)

theorem bad_ne_nil {l : List (Option ℝ)} {x : Exc} (h : BadSeq l x) : l ≠ [] := by
  rintro rfl
  cases x <;> simp only [BadSeq] at h
  · exact absurd h (List.not_mem_nil)
  · obtain ⟨_, r, hr, _⟩ := h
    exact absurd hr (List.not_mem_nil)

/-! ### Matrices -/

theorem size_dense (m : SqMat) : matSize false m > 0 ↔ 0 < m.n := by
  unfold matSize
  simp only [Bool.false_eq_true, if_false]
  exact ⟨fun h => Nat.pos_of_ne_zero fun h0 => by simp [h0] at h, fun h => Nat.mul_pos h h⟩

theorem size_sparse (m : SqMat) : matSize true m > 0 ↔ ∃ i j, m.val i j ≠ 0 := by
  classical
  unfold matSize
  rw [if_pos rfl]
  rw [gt_iff_lt, Nat.pos_iff_ne_zero, ne_eq, Finset.sum_eq_zero_iff]
  simp only [Finset.sum_eq_zero_iff, Finset.mem_univ, true_imp_iff, not_forall]
  constructor
  · rintro ⟨i, j, h⟩
    refine ⟨i, j, fun h0 => h ?_⟩
    rw [if_neg (by simpa using h0)]
  · rintro ⟨i, j, h⟩
    refine ⟨i, j, fun h0 => ?_⟩
    rw [if_pos h] at h0
    exact one_ne_zero h0

theorem not_hasNegative {m : SqMat} : ¬ hasNegative m ↔ NonNeg m := by
  unfold hasNegative NonNeg
  simp only [not_exists, not_lt]

theorem degree_rowLinks (m : SqMat) (i : Fin m.n) : (degree m.val i : ℝ) = rowLinks m i := by
  rw [(C26_degrees_count m.val i).2.1]; rfl

theorem out_degree_rowLinks (m : SqMat) (i : Fin m.n) : (out_degree m.val i : ℝ) = rowLinks m i := by
  rw [(C26_degrees_count m.val i).1]; rfl

theorem in_degree_colLinks (m : SqMat) (i : Fin m.n) : (in_degree m.val i : ℝ) = colLinks m i := by
  rw [(C26_degrees_count m.val i).2.2]; rfl

theorem looksBinary_iff (m : SqMat) : ¬ looksBinary m ↔ Heavy m := by
  classical
  unfold looksBinary Heavy
  rw [ne_eq, not_iff_not]
  have : (∑ i, ∑ j, if m.val i j > 0 then (1 : ℝ) else 0) = (Set.ncard {p : Fin m.n × Fin m.n | 0 < m.val p.1 p.2} : ℝ) := by
    rw [← Finset.sum_product', Finset.sum_boole, Set.ncard_eq_toFinset_card']
    congr 2
    ext p
    simp
  rw [← this]

/-! ### Undirected: what `_initialize_graph` does, case by case -/

theorem sum_ofFn' {n : ℕ} (f : Fin n → ℝ) : (List.ofFn f).sum = ∑ i, f i := List.sum_ofFn

section undirected
variable {α : Type} [LinearOrder α]

theorem uInit_matrix (g : UState α) (sp : Bool) (m : SqMat) (hs : matSize sp m > 0) (hm : NonNeg m) (he : g.edgelist = none) :
    ∃ g', uInitAdj.go g sp m = (g', none) ∧ g'.is_initialized = true ∧ DescribesU g' (.matrix m) := by
  classical
  unfold uInitAdj.go
  rw [if_pos hs, if_neg (not_hasNegative.2 hm)]
  refine ⟨_, rfl, rfl, ?_⟩
  have hd : (List.ofFn fun i => (degree m.val i : ℝ)) = List.ofFn (rowLinks m) := by
    congr 1; funext i; exact degree_rowLinks m i
  unfold DescribesU
  dsimp only
  rw [hd, List.length_ofFn, sum_ofFn']
  by_cases hb : looksBinary m
  · rw [if_pos hb]
    cases sp <;>
    exact ⟨rfl, rfl, he, rfl, rfl, fun hh => absurd hb ((looksBinary_iff m).2 hh)⟩
  · rw [if_neg hb]
    cases sp <;> exact ⟨rfl, rfl, he, rfl, rfl, fun _ => ⟨rfl, rfl⟩⟩

theorem perNode_cast {β : Type} (nodes : List (ℕ × β)) (d : List ℕ) (f : β → ℕ) (h : PerNode nodes d f) :
    PerNode nodes (d.map fun k : ℕ => (k : ℝ)) (fun a => (f a : ℝ)) := by
  refine ⟨by rw [List.length_map]; exact h.1, fun k a hk => ?_⟩
  rw [List.getElem?_map, h.2 k a hk]; rfl

theorem sum_cast (d : List ℕ) : (d.map fun k : ℕ => (k : ℝ)).sum = (d.sum : ℝ) := by
  induction d with
  | nil => simp
  | cons a l ih => rw [List.map_cons, List.sum_cons, List.sum_cons, ih]; push_cast; rfl

theorem uInit_links (g : UState α) (l : List (α × α)) (hl : l ≠ []) (ha : g.adjacency = none) :
    ∃ g', uInitEdges g (.edges (.binary l)) = (g', none) ∧ g'.is_initialized = true ∧ DescribesU g' (.links l) := by
  obtain ⟨r, hr, hrel, hper, hsum, hw, hst⟩ := C27_undirected l hl
  have hlen : edgesLength (Edges.binary l) > 0 := List.length_pos_iff.2 hl
  unfold uInitEdges
  simp only [hlen, if_true, hr]
  refine ⟨_, rfl, rfl, ha, _, _, _, by rw [hw], rfl, rfl, hrel, ?_, ?_, ?_⟩
  · have := perNode_cast _ _ _ hper
    push_cast at this
    exact this
  · simp [hper.1]
  · simp only [sum_cast, hsum]
    push_cast
    congr 1
    ring

theorem uInit_weightedLinks (g : UState α) (l : List (α × α × ℝ)) (hl : l ≠ []) (ha : g.adjacency = none) :
    ∃ g', uInitEdges g (.edges (.weighted l)) = (g', none) ∧ g'.is_initialized = true ∧ DescribesU g' (.weightedLinks l) := by
  obtain ⟨r, ss, hr, hrel, hper, hsum, hw, hst, hps⟩ := C27_undirected_weighted l hl
  have hlen : edgesLength (Edges.weighted l) > 0 := List.length_pos_iff.2 hl
  unfold uInitEdges
  simp only [hlen, if_true, hr]
  refine ⟨_, rfl, rfl, ha, _, _, _, ss, by rw [hw], rfl, rfl, hst, rfl, hrel, ?_, hps, ?_, ?_⟩
  · have := perNode_cast _ _ _ hper
    push_cast at this
    exact this
  · simp [hper.1]
  · simp only [sum_cast, hsum]
    push_cast
    congr 1
    ring

theorem any_of_array {d : SeqArg} {l : List (Option ℝ)} (h : arrayItems d = some l ∨ (false = true ∧ anyItems d = some l)) : d = .array l := by
  rcases h with h | ⟨h, _⟩
  · cases d <;> simp [arrayItems] at h
    rw [h]
  · cases h

/-- a request is fulfilled -/
theorem uInit_asks (g : UState α) (a : Args α) (t : Topology α) (h : Asks false a t) (ha : g.adjacency = none) (he : g.edgelist = none)
    (hd : g.dseq = none ∨ ∀ s, t ≠ .strengths s) : ∃ g', uInit g a = (g', none) ∧ g'.is_initialized = true ∧ DescribesU g' t := by
  cases h with
  | dense h hn => exact uInit_matrix g false _ ((size_dense _).2 hn) h he
  | sparse h hn => exact uInit_matrix g true _ ((size_sparse _).2 hn) h he
  | links h => exact uInit_links g _ h ha
  | weightedLinks h => exact uInit_weightedLinks g _ h ha
  | @degrees d l s hd' h hl hp hs =>
    obtain rfl := any_of_array hd'
    have hpos : l.length > 0 := List.length_pos_iff.2 hl
    rcases hs with rfl | ⟨t, rfl, ht⟩
    · unfold uInit uInitDegrees uInitDegrees.go
      simp only [hpos, if_true, checkSeq_good h, Bool.false_eq_true, if_false, uInitStrengthWith]
      exact ⟨_, rfl, rfl, ha, he, rfl, rfl, rfl⟩
    · cases t <;> simp [anyItems] at ht <;> subst ht <;>
      · unfold uInit uInitDegrees uInitDegrees.go
        simp only [hpos, if_true, checkSeq_good h, Bool.false_eq_true, if_false, uInitStrengthWith, uInitStrengthWith.go, List.length_nil]
        exact ⟨_, rfl, rfl, ha, he, rfl, rfl, rfl⟩
  | @degreesStrengths d l s k hd' h hl hp hs h' hk hp' hlen =>
    obtain rfl := any_of_array hd'
    obtain rfl := any_of_array hs
    have hpos : l.length > 0 := List.length_pos_iff.2 hl
    have hk0 : ¬ k.length = 0 := fun h0 => hk (List.length_eq_zero_iff.1 h0)
    have hlen' : (numbers k).length = (numbers l).length := by rw [numbers_length h, numbers_length h', hlen rfl]
    unfold uInit uInitDegrees uInitDegrees.go
    simp only [hpos, if_true, checkSeq_good h, Bool.false_eq_true, if_false, uInitStrengthWith, uInitStrengthWith.go, hk0, checkSeq_good h', ne_eq, hlen',
      not_true_eq_false]
    exact ⟨_, rfl, rfl, ha, he, rfl, rfl, rfl, rfl, hlen', rfl⟩
  | @strengths s k hs h hk hp =>
    have hk0 : ¬ k.length = 0 := fun h0 => hk (List.length_eq_zero_iff.1 h0)
    have hd0 : g.dseq = none := hd.resolve_right fun hh => hh _ rfl
    cases s <;> simp [anyItems] at hs <;> subst hs <;>
    · unfold uInit uInitStrengths uInitStrengths.go
      simp only [hk0, if_false, checkSeq_good h]
      exact ⟨_, rfl, rfl, ha, he, rfl, hd0, rfl, rfl⟩

/-- an empty argument is ignored -/
theorem uInit_empty (g : UState α) (a : Args α) (h : EmptyArgs a) : uInit g a = (g, none) := by
  cases h with
  | nothing => rfl
  | @dense m _ _ _ h =>
    have : ¬ matSize false m > 0 := by rw [size_dense]; omega
    show uInitAdj.go g false m = _
    unfold uInitAdj.go
    rw [if_neg this]
  | @sparse m _ _ _ h =>
    have : ¬ matSize true m > 0 := by rw [size_sparse]; push_neg; exact h
    show uInitAdj.go g true m = _
    unfold uInitAdj.go
    rw [if_neg this]
  | links => rfl
  | weightedLinks => rfl
  | @degrees d s h => cases d <;> simp [anyItems] at h <;> subst h <;> rfl
  | @strengths s h => cases s <;> simp [anyItems] at h <;> subst h <;> rfl

/-- the reasons for exceptions -/
theorem uInit_complaint (g : UState α) (a : Args α) (x : Exc) (h : Complaint false a x) : (uInit g a).2 = some x := by
  cases h with
  | adjacency_type => rfl
  | adjacency_list => rfl
  | @adjacency_dense_negative m _ _ _ h =>
    have hs : matSize false m > 0 := by
      obtain ⟨i, _, _⟩ := h
      rw [size_dense]; exact Fin.pos i
    show (uInitAdj.go g false m).2 = _
    unfold uInitAdj.go
    rw [if_pos hs, if_pos (show hasNegative m from h)]
  | @adjacency_sparse_negative m _ _ _ h =>
    have hs : matSize true m > 0 := by
      obtain ⟨i, j, hij⟩ := h
      rw [size_sparse]; exact ⟨i, j, hij.ne⟩
    show (uInitAdj.go g true m).2 = _
    unfold uInitAdj.go
    rw [if_pos hs, if_pos (show hasNegative m from h)]
  | edgelist_type => rfl
  | edgelist_wide => rfl
  | degrees_type => rfl
  | @degrees_items d l s x hl h =>
    have hpos : l.length > 0 := List.length_pos_iff.2 (bad_ne_nil h)
    cases d <;> simp [anyItems] at hl <;> subst hl <;>
    · unfold uInit uInitDegrees uInitDegrees.go
      simp only [hpos, if_true, checkSeq_bad h]
  | degrees_odd _ _ hd _ => cases hd
  | @degrees_list l s hl h hd =>
    have hpos : l.length > 0 := List.length_pos_iff.2 hl
    unfold uInit uInitDegrees uInitDegrees.go
    simp only [hpos, if_true, checkSeq_good h]
  | @strengths_type_after d l hd hl h hp =>
    obtain rfl := any_of_array hd
    have hpos : l.length > 0 := List.length_pos_iff.2 hl
    unfold uInit uInitDegrees uInitDegrees.go
    simp only [hpos, if_true, checkSeq_good h, Bool.false_eq_true, if_false, uInitStrengthWith]
  | @strengths_items_after d l s k x hd hl h hp hk hx =>
    obtain rfl := any_of_array hd
    have hpos : l.length > 0 := List.length_pos_iff.2 hl
    have hk0 : ¬ k.length = 0 := fun h0 => bad_ne_nil hx (List.length_eq_zero_iff.1 h0)
    cases s <;> simp [anyItems] at hk <;> subst hk <;>
    · unfold uInit uInitDegrees uInitDegrees.go
      simp only [hpos, if_true, checkSeq_good h, Bool.false_eq_true, if_false, uInitStrengthWith, uInitStrengthWith.go, hk0, checkSeq_bad hx]
  | strengths_odd_after _ _ _ hD _ _ _ _ => cases hD
  | @strengths_length l s k hl h hD hk hk0 hg hne =>
    have hpos : l.length > 0 := List.length_pos_iff.2 hl
    have hk0' : ¬ k.length = 0 := fun h0 => hk0 (List.length_eq_zero_iff.1 h0)
    have hne' : ¬ (numbers k).length = (numbers l).length := by rwa [numbers_length h, numbers_length hg]
    cases s <;> simp [anyItems] at hk <;> subst hk <;>
    · unfold uInit uInitDegrees uInitDegrees.go
      simp only [hpos, if_true, checkSeq_good h, Bool.false_eq_true, if_false, uInitStrengthWith, uInitStrengthWith.go, hk0', checkSeq_good hg, ne_eq, hne',
        not_false_eq_true]
  | @strengths_list l k hl h hD hg he =>
    have hpos : l.length > 0 := List.length_pos_iff.2 hl
    have hk0' : ¬ k.length = 0 := by omega
    have hne' : (numbers k).length = (numbers l).length := by rw [numbers_length h, numbers_length hg, he]
    unfold uInit uInitDegrees uInitDegrees.go
    simp only [hpos, if_true, checkSeq_good h, Bool.false_eq_true, if_false, uInitStrengthWith, uInitStrengthWith.go, hk0', checkSeq_good hg, ne_eq, hne',
      not_true_eq_false]
  | strengths_type => rfl
  | @strengths_items s k x hk hx =>
    have hk0 : ¬ k.length = 0 := fun h0 => bad_ne_nil hx (List.length_eq_zero_iff.1 h0)
    cases s <;> simp [anyItems] at hk <;> subst hk <;>
    · unfold uInit uInitStrengths uInitStrengths.go
      simp only [hk0, if_false, checkSeq_bad hx]
  | strengths_odd _ _ hD _ => cases hD

/-- every argument list asks for a topology, is empty, or is a reason for an exception -/
theorem args_cases_adj (D : Bool) (m : AdjArg) (e d s) : (∃ t, Asks D (⟨some m, e, d, s⟩ : Args α) t) ∨ EmptyArgs (⟨some m, e, d, s⟩ : Args α) ∨
    ∃ x, Complaint D (⟨some m, e, d, s⟩ : Args α) x := by
  cases m with
  | other => exact Or.inr (Or.inr ⟨_, .adjacency_type⟩)
  | list => exact Or.inr (Or.inr ⟨_, .adjacency_list⟩)
  | dense m =>
    by_cases hn : m.n = 0
    · exact Or.inr (Or.inl (.dense hn))
    · by_cases h : NonNeg m
      · exact Or.inl ⟨_, .dense h (Nat.pos_of_ne_zero hn)⟩
      · rw [← not_hasNegative, not_not] at h
        exact Or.inr (Or.inr ⟨_, .adjacency_dense_negative h⟩)
  | sparse m =>
    by_cases hn : ∀ i j, m.val i j = 0
    · exact Or.inr (Or.inl (.sparse hn))
    · by_cases h : NonNeg m
      · push_neg at hn
        exact Or.inl ⟨_, .sparse h hn⟩
      · rw [← not_hasNegative, not_not] at h
        exact Or.inr (Or.inr ⟨_, .adjacency_sparse_negative h⟩)

theorem args_cases_edges (D : Bool) (e : EdgeArg α) (d s) : (∃ t, Asks D (⟨none, some e, d, s⟩ : Args α) t) ∨ EmptyArgs (⟨none, some e, d, s⟩ : Args α) ∨
    ∃ x, Complaint D (⟨none, some e, d, s⟩ : Args α) x := by
  cases e with
  | other => exact Or.inr (Or.inr ⟨_, .edgelist_type⟩)
  | wide => exact Or.inr (Or.inr ⟨_, .edgelist_wide⟩)
  | edges e =>
    cases e with
    | binary l =>
      by_cases h : l = []
      · subst h; exact Or.inr (Or.inl .links)
      · exact Or.inl ⟨_, .links h⟩
    | weighted l =>
      by_cases h : l = []
      · subst h; exact Or.inr (Or.inl .weightedLinks)
      · exact Or.inl ⟨_, .weightedLinks h⟩

theorem args_cases_strengths (D : Bool) (s : SeqArg) : (∃ t, Asks D (⟨none, none, none, some s⟩ : Args α) t) ∨
    EmptyArgs (⟨none, none, none, some s⟩ : Args α) ∨ ∃ x, Complaint D (⟨none, none, none, some s⟩ : Args α) x := by
  have main : ∀ k, anyItems s = some k → (∃ t, Asks D (⟨none, none, none, some s⟩ : Args α) t) ∨
    EmptyArgs (⟨none, none, none, some s⟩ : Args α) ∨ ∃ x, Complaint D (⟨none, none, none, some s⟩ : Args α) x := by
    intro k hk
    by_cases h0 : k = []
    · subst h0; exact Or.inr (Or.inl (.strengths hk))
    rcases seq_cases k with hg | ⟨x, hx⟩
    · by_cases hp : D = true → 2 ∣ k.length
      · exact Or.inl ⟨_, .strengths hk hg h0 hp⟩
      · push_neg at hp
        exact Or.inr (Or.inr ⟨_, .strengths_odd hk hg hp.1 hp.2⟩)
    · exact Or.inr (Or.inr ⟨_, .strengths_items hk hx⟩)
  cases s with
  | other => exact Or.inr (Or.inr ⟨_, .strengths_type⟩)
  | list l => exact main l rfl
  | array l => exact main l rfl

theorem args_cases_degrees (D : Bool) (d : SeqArg) (s : Option SeqArg) : (∃ t, Asks D (⟨none, none, some d, s⟩ : Args α) t) ∨
    EmptyArgs (⟨none, none, some d, s⟩ : Args α) ∨ ∃ x, Complaint D (⟨none, none, some d, s⟩ : Args α) x := by
  have main : ∀ l, anyItems d = some l → (∃ t, Asks D (⟨none, none, some d, s⟩ : Args α) t) ∨
    EmptyArgs (⟨none, none, some d, s⟩ : Args α) ∨ ∃ x, Complaint D (⟨none, none, some d, s⟩ : Args α) x := by
    intro l hl
    by_cases h0 : l = []
    · subst h0; exact Or.inr (Or.inl (.degrees hl))
    rcases seq_cases l with hg | ⟨x, hx⟩
    swap
    · exact Or.inr (Or.inr ⟨_, .degrees_items hl hx⟩)
    by_cases hp : D = true → 2 ∣ l.length
    swap
    · push_neg at hp
      exact Or.inr (Or.inr ⟨_, .degrees_odd hl hg hp.1 hp.2⟩)
    by_cases hd : arrayItems d = some l ∨ (D = true ∧ anyItems d = some l)
    swap
    · push_neg at hd
      cases d with
      | other => cases hl
      | array l' => exact absurd hl hd.1
      | list l' =>
        cases hl
        refine Or.inr (Or.inr ⟨_, .degrees_list h0 hg ?_⟩)
        cases D
        · rfl
        · exact absurd rfl (hd.2 rfl)
    cases s with
    | none => exact Or.inl ⟨_, .degrees hd hg h0 hp (Or.inl rfl)⟩
    | some s =>
      have main2 : ∀ k, anyItems s = some k → (∃ t, Asks D (⟨none, none, some d, some s⟩ : Args α) t) ∨
          EmptyArgs (⟨none, none, some d, some s⟩ : Args α) ∨ ∃ x, Complaint D (⟨none, none, some d, some s⟩ : Args α) x := by
        intro k hk
        by_cases hk0 : k = []
        · subst hk0
          exact Or.inl ⟨_, .degrees hd hg h0 hp (Or.inr ⟨s, rfl, hk⟩)⟩
        rcases seq_cases k with hkg | ⟨x, hx⟩
        swap
        · exact Or.inr (Or.inr ⟨_, .strengths_items_after hd h0 hg hp hk hx⟩)
        cases D with
        | true =>
          by_cases hp' : 2 ∣ k.length
          · exact Or.inl ⟨_, .degreesStrengths hd hg h0 hp (Or.inr ⟨rfl, hk⟩) hkg hk0 (fun _ => hp') (fun h => by cases h)⟩
          · exact Or.inr (Or.inr ⟨_, .strengths_odd_after hl h0 hg rfl (hp rfl) hk hkg hp'⟩)
        | false =>
          obtain rfl := any_of_array hd
          by_cases hlen : k.length = l.length
          · cases s with
            | other => cases hk
            | array k' => cases hk; exact Or.inl ⟨_, .degreesStrengths hd hg h0 hp (Or.inl rfl) hkg hk0 (fun h => by cases h) (fun _ => hlen)⟩
            | list k' => cases hk; exact Or.inr (Or.inr ⟨_, .strengths_list h0 hg rfl hkg hlen⟩)
          · exact Or.inr (Or.inr ⟨_, .strengths_length h0 hg rfl hk hk0 hkg hlen⟩)
      cases s with
      | other => exact Or.inr (Or.inr ⟨_, .strengths_type_after hd h0 hg hp⟩)
      | list k => exact main2 k rfl
      | array k => exact main2 k rfl
  cases d with
  | other => exact Or.inr (Or.inr ⟨_, .degrees_type⟩)
  | list l => exact main l rfl
  | array l => exact main l rfl

theorem args_cases (D : Bool) (a : Args α) : (∃ t, Asks D a t) ∨ EmptyArgs a ∨ ∃ x, Complaint D a x := by
  obtain ⟨m, e, d, s⟩ := a
  cases m with
  | some m => exact args_cases_adj D m e d s
  | none =>
    cases e with
    | some e => exact args_cases_edges D e d s
    | none =>
      cases d with
      | some d => exact args_cases_degrees D d s
      | none =>
        cases s with
        | some s => exact args_cases_strengths D s
        | none => exact Or.inr (Or.inl .nothing)

end undirected

section directed
variable {α : Type} [LinearOrder α]

theorem dInit_matrix (g : DState α) (sp : Bool) (m : SqMat) (hs : matSize sp m > 0) (hm : NonNeg m) (he : g.edgelist = none) :
    ∃ g', dInitAdj.go g sp m = (g', none) ∧ g'.is_initialized = true ∧ DescribesD g' (.matrix m) := by
  classical
  unfold dInitAdj.go
  rw [if_pos hs, if_neg (not_hasNegative.2 hm)]
  refine ⟨_, rfl, rfl, ?_⟩
  have hd : (List.ofFn fun i => (out_degree m.val i : ℝ)) = List.ofFn (rowLinks m) := by
    congr 1; funext i; exact out_degree_rowLinks m i
  have hd' : (List.ofFn fun i => (in_degree m.val i : ℝ)) = List.ofFn (colLinks m) := by
    congr 1; funext i; exact in_degree_colLinks m i
  unfold DescribesD
  dsimp only
  rw [hd, hd', List.length_ofFn, sum_ofFn']
  by_cases hb : looksBinary m
  · rw [if_pos hb]
    cases sp <;>
    exact ⟨rfl, rfl, he, rfl, rfl, rfl, fun hh => absurd hb ((looksBinary_iff m).2 hh)⟩
  · rw [if_neg hb]
    cases sp <;> exact ⟨rfl, rfl, he, rfl, rfl, rfl, fun _ => ⟨rfl, rfl, rfl⟩⟩

theorem dInit_links (g : DState α) (l : List (α × α)) (hl : l ≠ []) (ha : g.adjacency = none) :
    ∃ g', dInitEdges g (.edges (.binary l)) = (g', none) ∧ g'.is_initialized = true ∧ DescribesD g' (.links l) := by
  obtain ⟨r, hr, hrel, hp1, hp2, hs1, hs2, hw, hst, hst'⟩ := C27_directed l hl
  have hlen : edgesLength (Edges.binary l) > 0 := List.length_pos_iff.2 hl
  unfold dInitEdges
  simp only [hlen, if_true, hr]
  refine ⟨_, rfl, rfl, ha, _, _, _, _, by rw [hw], rfl, rfl, rfl, hrel, perNode_cast _ _ _ hp1, perNode_cast _ _ _ hp2, ?_, ?_⟩
  · simp [hp1.1]
  · simp only [sum_cast, hs1]

theorem dInit_weightedLinks (g : DState α) (l : List (α × α × ℝ)) (hl : l ≠ []) (ha : g.adjacency = none) :
    ∃ g', dInitEdges g (.edges (.weighted l)) = (g', none) ∧ g'.is_initialized = true ∧ DescribesD g' (.weightedLinks l) ∧
      g'.is_weighted = g.is_weighted ∧ g'.nz_index_sout = g.nz_index_sout ∧ g'.nz_index_sin = g.nz_index_sin := by
  obtain ⟨r, so, si, hr, hrel, hp1, hp2, hs1, hs2, hw, hso, hsi, hpo, hpi⟩ := C27_directed_weighted l hl
  have hlen : edgesLength (Edges.weighted l) > 0 := List.length_pos_iff.2 hl
  unfold dInitEdges
  simp only [hlen, if_true, hr]
  refine ⟨_, rfl, rfl, ⟨ha, _, _, _, _, so, si, by rw [hw], rfl, rfl, rfl, hso, hsi, hrel, perNode_cast _ _ _ hp1, perNode_cast _ _ _ hp2, hpo, hpi, ?_, ?_⟩,
    rfl, rfl, rfl⟩
  · simp [hp1.1]
  · simp only [sum_cast, hs1]

theorem any_of_or {d : SeqArg} {l : List (Option ℝ)} (h : arrayItems d = some l ∨ (true = true ∧ anyItems d = some l)) : anyItems d = some l := by
  rcases h with h | ⟨_, h⟩
  · cases d <;> simp [arrayItems] at h
    rw [h]; rfl
  · exact h

theorem halves {v : List ℝ} (h : 2 ∣ v.length) : v = v.take (v.length / 2) ++ v.drop (v.length / 2) ∧ (v.take (v.length / 2)).length = v.length / 2 ∧
    (v.drop (v.length / 2)).length = v.length / 2 := by
  refine ⟨(List.take_append_drop ..).symm, ?_, ?_⟩
  · rw [List.length_take]; omega
  · rw [List.length_drop]; omega

theorem dInit_go_degrees (g : DState α) (d : SeqArg) (l : List (Option ℝ)) (s : Option SeqArg) (hd : anyItems d = some l) :
    dInitDegrees g s d = dInitDegrees.go g s l := by
  cases d <;> simp [anyItems] at hd <;> subst hd <;> rfl

theorem dInit_go_strengths (g : DState α) (s : SeqArg) (k : List (Option ℝ)) (hk : anyItems s = some k) :
    dInitStrengths g s = dInitStrengths.go g k := by
  cases s <;> simp [anyItems] at hk <;> subst hk <;> rfl

theorem dInit_asks (g : DState α) (a : Args α) (t : Topology α) (h : Asks true a t) (ha : g.adjacency = none) (he : g.edgelist = none)
    (hd : (g.dseq_out = none ∧ g.dseq_in = none) ∨ ∀ s, t ≠ .strengths s) :
    ∃ g', dInit g a = (g', none) ∧ g'.is_initialized = true ∧ DescribesD g' t := by
  cases h with
  | dense h hn => exact dInit_matrix g false _ ((size_dense _).2 hn) h he
  | sparse h hn => exact dInit_matrix g true _ ((size_sparse _).2 hn) h he
  | links h => exact dInit_links g _ h ha
  | weightedLinks h =>
    obtain ⟨g', h1, h2, h3, _⟩ := dInit_weightedLinks g _ h ha
    exact ⟨g', h1, h2, h3⟩
  | @degrees d l s hd' h hl hp hs =>
    have hpos : l.length > 0 := List.length_pos_iff.2 hl
    have h2 : 2 ∣ (numbers l).length := by rw [numbers_length h]; exact hp rfl
    obtain ⟨e1, e2, e3⟩ := halves h2
    have hodd : ¬ (numbers l).length % 2 ≠ 0 := by omega
    have hgo : dInit g ⟨none, none, some d, s⟩ = dInitDegrees.go g s l := dInit_go_degrees g d l s (any_of_or hd')
    rw [hgo]
    unfold dInitDegrees.go
    rcases hs with rfl | ⟨t, rfl, ht⟩
    · simp only [hpos, if_true, checkSeq_good h, hodd, if_false]
      exact ⟨_, rfl, rfl, ha, he, _, _, e1, by rw [e2, e3], by rw [e2], rfl, rfl, rfl⟩
    · simp only [hpos, if_true, checkSeq_good h, hodd, if_false, dInit_go_strengths _ t [] ht, dInitStrengths.go, List.length_nil]
      exact ⟨_, rfl, rfl, ha, he, _, _, e1, by rw [e2, e3], by rw [e2], rfl, rfl, rfl⟩
  | @degreesStrengths d l s k hd' h hl hp hs h' hk hp' hlen =>
    have hpos : l.length > 0 := List.length_pos_iff.2 hl
    have hk0 : ¬ k.length = 0 := fun h0 => hk (List.length_eq_zero_iff.1 h0)
    have h2 : 2 ∣ (numbers l).length := by rw [numbers_length h]; exact hp rfl
    have h2' : 2 ∣ (numbers k).length := by rw [numbers_length h']; exact hp' rfl
    obtain ⟨e1, e2, e3⟩ := halves h2
    obtain ⟨f1, f2, f3⟩ := halves h2'
    have hodd : ¬ (numbers l).length % 2 ≠ 0 := by omega
    have hodd' : ¬ (numbers k).length % 2 ≠ 0 := by omega
    have hgo : dInit g ⟨none, none, some d, some s⟩ = dInitDegrees.go g (some s) l := dInit_go_degrees g d l _ (any_of_or hd')
    rw [hgo]
    unfold dInitDegrees.go
    simp only [hpos, if_true, checkSeq_good h, hodd, if_false, dInit_go_strengths _ s k (any_of_or hs), dInitStrengths.go, hk0, checkSeq_good h', hodd']
    exact ⟨_, rfl, rfl, ha, he, ⟨_, _, e1, by rw [e2, e3], rfl, rfl, rfl⟩, _, _, f1, by rw [f2, f3], by rw [f2], rfl, rfl, rfl⟩
  | @strengths s k hs h hk hp =>
    have hk0 : ¬ k.length = 0 := fun h0 => hk (List.length_eq_zero_iff.1 h0)
    obtain ⟨hd0, hd1⟩ := hd.resolve_right fun hh => hh _ rfl
    have h2 : 2 ∣ (numbers k).length := by rw [numbers_length h]; exact hp rfl
    obtain ⟨f1, f2, f3⟩ := halves h2
    have hodd' : ¬ (numbers k).length % 2 ≠ 0 := by omega
    have hgo : dInit g ⟨none, none, none, some s⟩ = dInitStrengths.go g k := dInit_go_strengths g s k hs
    rw [hgo]
    unfold dInitStrengths.go
    simp only [hk0, if_false, checkSeq_good h, hodd']
    exact ⟨_, rfl, rfl, ha, he, hd0, hd1, _, _, f1, by rw [f2, f3], by rw [f2], rfl, rfl, rfl⟩

theorem dInit_empty (g : DState α) (a : Args α) (h : EmptyArgs a) : dInit g a = (g, none) := by
  cases h with
  | nothing => rfl
  | @dense m _ _ _ h =>
    have : ¬ matSize false m > 0 := by rw [size_dense]; omega
    show dInitAdj.go g false m = _
    unfold dInitAdj.go
    rw [if_neg this]
  | @sparse m _ _ _ h =>
    have : ¬ matSize true m > 0 := by rw [size_sparse]; push_neg; exact h
    show dInitAdj.go g true m = _
    unfold dInitAdj.go
    rw [if_neg this]
  | links => rfl
  | weightedLinks => rfl
  | @degrees d s h => cases d <;> simp [anyItems] at h <;> subst h <;> rfl
  | @strengths s h => cases s <;> simp [anyItems] at h <;> subst h <;> rfl

theorem dInit_complaint (g : DState α) (a : Args α) (x : Exc) (h : Complaint true a x) : (dInit g a).2 = some x := by
  cases h with
  | adjacency_type => rfl
  | adjacency_list => rfl
  | @adjacency_dense_negative m _ _ _ h =>
    have hs : matSize false m > 0 := by
      obtain ⟨i, _, _⟩ := h
      rw [size_dense]; exact Fin.pos i
    show (dInitAdj.go g false m).2 = _
    unfold dInitAdj.go
    rw [if_pos hs, if_pos (show hasNegative m from h)]
  | @adjacency_sparse_negative m _ _ _ h =>
    have hs : matSize true m > 0 := by
      obtain ⟨i, j, hij⟩ := h
      rw [size_sparse]; exact ⟨i, j, hij.ne⟩
    show (dInitAdj.go g true m).2 = _
    unfold dInitAdj.go
    rw [if_pos hs, if_pos (show hasNegative m from h)]
  | edgelist_type => rfl
  | edgelist_wide => rfl
  | degrees_type => rfl
  | @degrees_items d l s x hl h =>
    have hpos : l.length > 0 := List.length_pos_iff.2 (bad_ne_nil h)
    show (dInitDegrees g s d).2 = _
    rw [dInit_go_degrees g d l s hl]
    unfold dInitDegrees.go
    simp only [hpos, if_true, checkSeq_bad h]
  | @degrees_odd d l s hl h hd ho =>
    have hpos : l.length > 0 := List.length_pos_iff.2 fun h0 => by subst h0; simp at ho
    have hodd : (numbers l).length % 2 ≠ 0 := by rw [numbers_length h]; omega
    show (dInitDegrees g s d).2 = _
    rw [dInit_go_degrees g d l s hl]
    unfold dInitDegrees.go
    simp only [hpos, if_true, checkSeq_good h, hodd, ne_eq, not_false_eq_true]
  | degrees_list _ _ hd => cases hd
  | @strengths_type_after d l hd hl h hp =>
    have hpos : l.length > 0 := List.length_pos_iff.2 hl
    have h2 := hp rfl
    have hodd : ¬ (numbers l).length % 2 ≠ 0 := by rw [numbers_length h]; omega
    show (dInitDegrees g _ d).2 = _
    rw [dInit_go_degrees g d l _ (any_of_or hd)]
    unfold dInitDegrees.go
    simp only [hpos, if_true, checkSeq_good h, hodd, if_false, dInitStrengths]
  | @strengths_items_after d l s k x hd hl h hp hk hx =>
    have hpos : l.length > 0 := List.length_pos_iff.2 hl
    have h2 := hp rfl
    have hodd : ¬ (numbers l).length % 2 ≠ 0 := by rw [numbers_length h]; omega
    have hk0 : ¬ k.length = 0 := fun h0 => bad_ne_nil hx (List.length_eq_zero_iff.1 h0)
    show (dInitDegrees g _ d).2 = _
    rw [dInit_go_degrees g d l _ (any_of_or hd)]
    unfold dInitDegrees.go
    simp only [hpos, if_true, checkSeq_good h, hodd, if_false, dInit_go_strengths _ s k hk, dInitStrengths.go, hk0, checkSeq_bad hx]
  | @strengths_odd_after d l s k hd hl h hD hp hk hg ho =>
    have hpos : l.length > 0 := List.length_pos_iff.2 hl
    have hodd : ¬ (numbers l).length % 2 ≠ 0 := by rw [numbers_length h]; omega
    have hodd' : (numbers k).length % 2 ≠ 0 := by rw [numbers_length hg]; omega
    have hk0 : ¬ k.length = 0 := fun h0 => ho (by rw [h0]; exact dvd_zero 2)
    show (dInitDegrees g _ d).2 = _
    rw [dInit_go_degrees g d l _ hd]
    unfold dInitDegrees.go
    simp only [hpos, if_true, checkSeq_good h, hodd, if_false, dInit_go_strengths _ s k hk, dInitStrengths.go, hk0, checkSeq_good hg, hodd', ne_eq,
      not_false_eq_true]
  | strengths_length _ _ hD _ _ _ _ => cases hD
  | strengths_list _ _ hD _ _ => cases hD
  | strengths_type => rfl
  | @strengths_items s k x hk hx =>
    have hk0 : ¬ k.length = 0 := fun h0 => bad_ne_nil hx (List.length_eq_zero_iff.1 h0)
    show (dInitStrengths g s).2 = _
    rw [dInit_go_strengths g s k hk]
    unfold dInitStrengths.go
    simp only [hk0, if_false, checkSeq_bad hx]
  | @strengths_odd s k hk hg hD ho =>
    have hodd' : (numbers k).length % 2 ≠ 0 := by rw [numbers_length hg]; omega
    have hk0 : ¬ k.length = 0 := fun h0 => ho (by rw [h0]; exact dvd_zero 2)
    show (dInitStrengths g s).2 = _
    rw [dInit_go_strengths g s k hk]
    unfold dInitStrengths.go
    simp only [hk0, if_false, checkSeq_good hg, hodd', ne_eq, not_false_eq_true, if_true]

end directed

end Verif.Graph
