import Verif.Props.GraphWeighted
import Verif.Props.GraphSparse
import Verif.Props.GraphIndex
import Verif.Props.Network

/-! Instances of the theorems about graph construction and the edge-list tools (C25-C27, C34, C35, C45). -/

namespace Verif.Wit

open Graph Net Spec

noncomputable section

/-! ### concrete arguments -/

/-- a weighted edge list with labels 3, 7, 9 -/
def wl : List (ℕ × ℕ × ℝ) := [(7, 3, 2.5), (3, 9, 1)]
def wlArgs : Args ℕ := { edgelist := some (.edges (.weighted wl)) }
theorem wl_asks (d : Bool) : Asks d wlArgs (.weightedLinks wl) := .weightedLinks (by simp [wl])
theorem wl_ne : wl ≠ [] := by simp [wl]

def gU : UState ℕ := ((C35_undirected_succeeds_iff wlArgs).2 (Or.inl ⟨_, wl_asks false⟩)).choose
theorem gU_ok : UndirectedGraph wlArgs = .ok gU := ((C35_undirected_succeeds_iff wlArgs).2 (Or.inl ⟨_, wl_asks false⟩)).choose_spec
def gD : DState ℕ := ((C35_directed_succeeds_iff wlArgs).2 (Or.inl ⟨_, wl_asks true⟩)).choose
theorem gD_ok : DirectedGraph wlArgs = .ok gD := ((C35_directed_succeeds_iff wlArgs).2 (Or.inl ⟨_, wl_asks true⟩)).choose_spec
theorem gU_init : gU.is_initialized = true := ((C35_undirected_builds _ _ gU_ok).1 _ (wl_asks false)).1
theorem gD_init : gD.is_initialized = true := ((C35_directed_builds _ _ gD_ok).1 _ (wl_asks true)).1

/-- an argument both constructors refuse: an edge list whose items have four entries -/
def wideArgs : Args ℕ := { edgelist := some .wide }
theorem wideU : UndirectedGraph wideArgs = .error .valueError := (C35_undirected_raises_iff _ _).2 .edgelist_wide
theorem wideD : DirectedGraph wideArgs = .error .valueError := (C35_directed_raises_iff _ _).2 .edgelist_wide

/-- two nodes, one link -/
def m2 : SqMat := ⟨2, fun i j => if i = j then 0 else 1⟩
theorem m2_nonneg : NonNeg m2 := by intro i j; show (0 : ℝ) ≤ if i = j then 0 else 1; split_ifs <;> norm_num
theorem m2_light : ¬ Heavy m2 := by
  unfold Heavy
  rw [not_not]
  have h : {p : Fin 2 × Fin 2 | (0 : ℝ) < if p.1 = p.2 then 0 else 1} = ↑(Finset.univ.filter fun p : Fin 2 × Fin 2 => p.1 ≠ p.2) := by
    ext p
    by_cases hp : p.1 = p.2 <;> simp [hp]
  show ∑ i : Fin 2, ∑ j : Fin 2, (if i = j then (0 : ℝ) else 1) = (Set.ncard {p : Fin 2 × Fin 2 | (0 : ℝ) < if p.1 = p.2 then 0 else 1} : ℝ)
  rw [h, Set.ncard_coe_finset]
  have hc : (Finset.univ.filter fun p : Fin 2 × Fin 2 => p.1 ≠ p.2).card = 2 := by decide
  rw [hc]
  simp [Fin.sum_univ_two]; norm_num
/-- the same with a link of weight three -/
def m6 : SqMat := ⟨2, fun i j => if i = j then 0 else 3⟩
theorem m6_nonneg : NonNeg m6 := by intro i j; show (0 : ℝ) ≤ if i = j then 0 else 3; split_ifs <;> norm_num

def spArgs : Args ℕ := { adjacency := some (.sparse m2) }
theorem sp_asks (d : Bool) : Asks d spArgs (.matrix m2) := .sparse m2_nonneg ⟨(0 : Fin 2), (1 : Fin 2), by show (if (0 : Fin 2) = 1 then (0 : ℝ) else 1) ≠ 0; norm_num⟩
def sU : UState ℕ := ((C35_undirected_succeeds_iff spArgs).2 (Or.inl ⟨_, sp_asks false⟩)).choose
theorem sU_ok : UndirectedGraph spArgs = .ok sU := ((C35_undirected_succeeds_iff spArgs).2 (Or.inl ⟨_, sp_asks false⟩)).choose_spec
def sD : DState ℕ := ((C35_directed_succeeds_iff spArgs).2 (Or.inl ⟨_, sp_asks true⟩)).choose
theorem sD_ok : DirectedGraph spArgs = .ok sD := ((C35_directed_succeeds_iff spArgs).2 (Or.inl ⟨_, sp_asks true⟩)).choose_spec
theorem sU_sparse : sU.is_sparse = true := (C34_undirected_sparse_flag _ _ sU_ok).2 ⟨_, rfl, (0 : Fin 2), (1 : Fin 2), by show (if (0 : Fin 2) = 1 then (0 : ℝ) else 1) ≠ 0; norm_num⟩
theorem sD_sparse : sD.is_sparse = true := (C34_directed_sparse_flag _ _ sD_ok).2 ⟨_, rfl, (0 : Fin 2), (1 : Fin 2), by show (if (0 : Fin 2) = 1 then (0 : ℝ) else 1) ≠ 0; norm_num⟩

def opW : Op ℕ := .set_edgelist (.edges (.weighted wl))
theorem reU : ∃ g', (sU.call .clean_edges).1.call opW = (g', none) :=
  let ⟨g', h, _⟩ := uInit_asks (sU.call .clean_edges).1 opW.args _ (wl_asks false) rfl rfl (Or.inr fun s h => by cases h)
  ⟨g', h⟩
theorem reD : ∃ g', (sD.call .clean_edges).1.call opW = (g', none) :=
  let ⟨g', h, _⟩ := dInit_asks (sD.call .clean_edges).1 opW.args _ (wl_asks true) rfl rfl (Or.inr fun s h => by cases h)
  ⟨g', h⟩

/-- a history: an ignored setter, then a clean and a new edge list -/
def hist : List (Op ℕ) := [.set_edgelist .wide, .clean_edges, opW]

/-! ### instances -/

example := C35_undirected_builds wlArgs gU gU_ok
example := C35_undirected_documented wideArgs _ wideU (by simp [wideArgs]) (by simp [wideArgs]) (by simp [wideArgs])
example := C35_undirected_lists_raise (α := ℕ) none none none none [some 1, some 1] (by simp) (fun o ho => by simp at ho; exact ⟨1, ho, zero_le_one⟩)
example := C35_undirected_failed_setter ({} : UState ℕ) (.set_edgelist .wide) .valueError rfl
example := C34_undirected_setter_noop gU (.set_edgelist .wide) gU_init (by simp)
example := C34_undirected_setter_equals_constructor opW (by simp [opW]) gU gU_ok
example := C34_undirected_clean_keeps_strengths gU m2 (by decide) m2_nonneg m2_light
example := C35_directed_documented wideArgs _ wideD
example := C35_directed_failed_setter ({} : DState ℕ) (.set_edgelist .wide) .valueError rfl
example := C34_directed_setter_noop gD (.set_edgelist .wide) gD_init (by simp)
example := C34_directed_history wlArgs gD gD_ok (some (.weightedLinks wl)) (fun t h => by cases h; exact wl_asks true) (by simp) hist
example := C34_directed_setter_equals_constructor opW (by simp [opW]) gD gD_ok
example := C34_directed_weighted_edgelist_not_flagged wl wl_ne
example := C34_directed_clean_keeps_strengths gD m2 (by decide) m2_nonneg m2_light
example := C45_undirected_flag (α := ℕ) m6 (by decide) m6_nonneg
example := C45_directed_flag (α := ℕ) m6 (by decide) m6_nonneg
example := C45_integer_weights_detected_partial (α := ℕ) m6 (by decide) (fun i j => by show ∃ k : ℕ, (if i = j then (0 : ℝ) else 3) = k; split_ifs; exacts [⟨0, by simp⟩, ⟨3, by simp⟩])
example := C34_undirected_sparse_flag_stale sU opW _ sU_sparse reU.choose_spec
example := C34_directed_sparse_flag spArgs sD sD_ok
example := C34_directed_sparse_flag_stale sD opW _ sD_sparse reD.choose_spec
example := C34_directed_index_sets wlArgs gD gD_ok
example := C34_undirected_index_set opW _ (C34_undirected_setter_equals_constructor opW (by simp [opW]) gU gU_ok).2.choose_spec.1

/-! ### edge lists -/

theorem seen3 (k : ℕ) : k < 3 ↔ ∃ e ∈ [(0, 1), (1, 2)], e.1 = k ∨ e.2 = k := by simp; omega
theorem seen3w (k : ℕ) : k < 3 ↔ ∃ e ∈ [((0 : ℕ), (1 : ℕ), (2.5 : ℝ)), (1, 2, 4)], e.1 = k ∨ e.2.1 = k := by simp; omega

example := C25_binary [(0, 1), (1, 2)] false seen3
example := C25_weighted [(0, 1, 2.5), (1, 2, 4)] false seen3w
example := C25_weighted_stored [(0, 1, 2.5), (1, 2, 4)] false seen3w (by simp)
example := C25_symmetric [(0, 1, 2.5), (1, 2, 4)] true _ (C25_weighted [(0, 1, 2.5), (1, 2, 4)] false seen3w).choose_spec.1
example := C25_order_irrelevant [(0, 1), (1, 2)] [(1, 2), (0, 1), (1, 2)] false (by simp)
example := C26_symmetric m6.val (fun i j => by show (if i = j then (0 : ℝ) else 3) = if j = i then 0 else 3; simp [eq_comm]) (0 : Fin 2)
example := C27_undirected [(7, 3), (3, 9)] (by simp)
example := C27_undirected_weighted wl wl_ne
example := C27_directed [(7, 3), (3, 9)] (by simp)
example := C27_directed_weighted wl wl_ne
example := C27_relabelled_builds _ _ _ (C27_undirected [(7, 3), (3, 9)] (by simp)).choose_spec.2.1 true

end

end Verif.Wit
