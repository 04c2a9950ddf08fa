import Verif.Props.Graph
import Mathlib.Tactic.FinCases

/-! C45: when a graph built from an adjacency matrix is treated as weighted. -/

namespace Verif.Graph

open Net Spec

variable {α : Type} [LinearOrder α]

theorem heavy_iff_sum (m : SqMat) : Heavy m ↔ ∑ i, ∑ j, m.val i j ≠ ∑ i, ∑ j, if 0 < m.val i j then (1 : ℝ) else 0 := by
  classical
  rw [← looksBinary_iff]
  unfold looksBinary
  rw [ne_eq, not_iff_not]

/-- a matrix of non-negative integers is heavy exactly when some entry is at least two -/
theorem heavy_integer (m : SqMat) (hi : ∀ i j, ∃ k : ℕ, m.val i j = k) : Heavy m ↔ ∃ i j, 2 ≤ m.val i j := by
  classical
  have hle : ∀ i j, (if 0 < m.val i j then (1 : ℝ) else 0) ≤ m.val i j := by
    intro i j
    obtain ⟨k, hk⟩ := hi i j
    rw [hk]
    split_ifs with h
    · exact_mod_cast h
    · positivity
  rw [heavy_iff_sum]
  constructor
  · intro h
    by_contra hc
    push_neg at hc
    refine h (Finset.sum_congr rfl fun i _ => Finset.sum_congr rfl fun j _ => ?_)
    obtain ⟨k, hk⟩ := hi i j
    have h2 := hc i j
    rw [hk] at h2 ⊢
    have : k < 2 := by exact_mod_cast h2
    have : k = 0 ∨ k = 1 := by omega
    rcases this with rfl | rfl <;> simp
  · rintro ⟨i, j, hij⟩ he
    have hlt : ∑ i, ∑ j, (if 0 < m.val i j then (1 : ℝ) else 0) < ∑ i, ∑ j, m.val i j := by
      refine Finset.sum_lt_sum (fun i _ => Finset.sum_le_sum fun j _ => hle i j) ⟨i, Finset.mem_univ i, ?_⟩
      refine Finset.sum_lt_sum (fun j _ => hle i j) ⟨j, Finset.mem_univ j, ?_⟩
      rw [if_pos (by linarith)]
      linarith
    exact absurd he hlt.ne'

/-- C45: the undirected constructor flags a matrix as weighted, and stores strengths, exactly when its total weight is not its number of links. -/
theorem C45_undirected_flag (m : SqMat) (hn : 0 < m.n) (hm : NonNeg m) : ∃ g : UState α, UndirectedGraph { adjacency := some (.dense m) } = .ok g ∧
    (g.is_weighted = true ↔ Heavy m) ∧ (g.strength_sequence.isSome ↔ Heavy m) := by
  classical
  have hs := (size_dense m).2 hn
  have hg := not_hasNegative.2 hm
  by_cases hb : looksBinary m
  · have hh : ¬ Heavy m := fun h => (looksBinary_iff m).2 h hb
    simp [UndirectedGraph, uInit, uInitAdj, uInitAdj.go, hs, hg, hb, hh]
  · have hh := (looksBinary_iff m).1 hb
    simp [UndirectedGraph, uInit, uInitAdj, uInitAdj.go, hs, hg, hb, hh]

/-- C45 (directed) -/
theorem C45_directed_flag (m : SqMat) (hn : 0 < m.n) (hm : NonNeg m) : ∃ g : DState α, DirectedGraph { adjacency := some (.dense m) } = .ok g ∧
    (g.is_weighted = true ↔ Heavy m) ∧ (g.out_strength.isSome ↔ Heavy m) ∧ (g.in_strength.isSome ↔ Heavy m) := by
  classical
  have hs := (size_dense m).2 hn
  have hg := not_hasNegative.2 hm
  by_cases hb : looksBinary m
  · have hh : ¬ Heavy m := fun h => (looksBinary_iff m).2 h hb
    simp [DirectedGraph, dInit, dInitAdj, dInitAdj.go, hs, hg, hb, hh]
  · have hh := (looksBinary_iff m).1 hb
    simp [DirectedGraph, dInit, dInitAdj, dInitAdj.go, hs, hg, hb, hh]

/-- C45: for integer weights the detection is right, in both classes: the graph is treated as weighted exactly when some weight is neither 0 nor 1. -/
theorem C45_integer_weights_detected_partial (m : SqMat) (hn : 0 < m.n) (hi : ∀ i j, ∃ k : ℕ, m.val i j = k) :
    (∃ g : UState α, UndirectedGraph { adjacency := some (.dense m) } = .ok g ∧ (g.is_weighted = true ↔ ∃ i j, m.val i j ≠ 0 ∧ m.val i j ≠ 1)) ∧
    ∃ g : DState α, DirectedGraph { adjacency := some (.dense m) } = .ok g ∧ (g.is_weighted = true ↔ ∃ i j, m.val i j ≠ 0 ∧ m.val i j ≠ 1) := by
  have hm : NonNeg m := fun i j => by obtain ⟨k, hk⟩ := hi i j; rw [hk]; positivity
  have h2 : (∃ i j, 2 ≤ m.val i j) ↔ ∃ i j, m.val i j ≠ 0 ∧ m.val i j ≠ 1 := by
    refine exists_congr fun i => exists_congr fun j => ?_
    obtain ⟨k, hk⟩ := hi i j
    rw [hk]
    constructor
    · intro h
      have : 2 ≤ k := by exact_mod_cast h
      exact ⟨by exact_mod_cast (by omega : k ≠ 0), by exact_mod_cast (by omega : k ≠ 1)⟩
    · rintro ⟨h0, h1⟩
      have h0 : k ≠ 0 := by exact_mod_cast h0
      have h1 : k ≠ 1 := by exact_mod_cast h1
      exact_mod_cast (by omega : 2 ≤ k)
  obtain ⟨g, hg, h, _⟩ := C45_undirected_flag (α := α) m hn hm
  obtain ⟨g', hg', h', _⟩ := C45_directed_flag (α := α) m hn hm
  exact ⟨⟨g, hg, by rw [h, heavy_integer m hi, h2]⟩, ⟨g', hg', by rw [h', heavy_integer m hi, h2]⟩⟩

/-- three nodes in a line, with weights 1/2 and 3/2 -/
noncomputable def halfLine : SqMat := ⟨3, ![![0, 1/2, 0], ![1/2, 0, 3/2], ![0, 3/2, 0]]⟩

/-- C45 (defect): a weighted matrix whose weights average one is taken for a binary one: no strengths are stored, in either class. -/
theorem C45_real_weights_missed : NonNeg halfLine ∧ (∃ i j, halfLine.val i j ≠ 0 ∧ halfLine.val i j ≠ 1) ∧
    (∃ g : UState ℕ, UndirectedGraph { adjacency := some (.dense halfLine) } = .ok g ∧ g.is_weighted = false ∧ g.strength_sequence = none) ∧
    ∃ g : DState ℕ, DirectedGraph { adjacency := some (.dense halfLine) } = .ok g ∧ g.is_weighted = false ∧ g.out_strength = none := by
  have hm : NonNeg halfLine := by
    intro i j
    change Fin 3 at i j
    show (0 : ℝ) ≤ (![![0, 1/2, 0], ![1/2, 0, 3/2], ![0, 3/2, 0]] : Fin 3 → Fin 3 → ℝ) i j
    fin_cases i <;> fin_cases j <;> norm_num
  have hh : ¬ Heavy halfLine := by
    rw [heavy_iff_sum, not_not]
    show ∑ i : Fin 3, ∑ j : Fin 3, (![![0, 1/2, 0], ![1/2, 0, 3/2], ![0, 3/2, 0]] : Fin 3 → Fin 3 → ℝ) i j =
      ∑ i : Fin 3, ∑ j : Fin 3, if 0 < (![![0, 1/2, 0], ![1/2, 0, 3/2], ![0, 3/2, 0]] : Fin 3 → Fin 3 → ℝ) i j then (1 : ℝ) else 0
    simp only [Fin.sum_univ_three]
    show (0:ℝ) + 1/2 + 0 + (1/2 + 0 + 3/2) + (0 + 3/2 + 0) = (if (0:ℝ) < 0 then (1:ℝ) else 0) + (if (0:ℝ) < 1/2 then 1 else 0) + (if (0:ℝ) < 0 then 1 else 0) +
      ((if (0:ℝ) < 1/2 then 1 else 0) + (if (0:ℝ) < 0 then 1 else 0) + (if (0:ℝ) < 3/2 then 1 else 0)) +
      ((if (0:ℝ) < 0 then 1 else 0) + (if (0:ℝ) < 3/2 then 1 else 0) + (if (0:ℝ) < 0 then 1 else 0))
    norm_num
  refine ⟨hm, ⟨(0 : Fin 3), (1 : Fin 3), ?_⟩, ?_, ?_⟩
  · show (1/2 : ℝ) ≠ 0 ∧ (1/2 : ℝ) ≠ 1
    norm_num
  · obtain ⟨g, hg, h1, h2⟩ := C45_undirected_flag (α := ℕ) halfLine (by decide) hm
    refine ⟨g, hg, by simpa [hh] using h1, by simpa [hh] using h2⟩
  · obtain ⟨g, hg, h1, h2, _⟩ := C45_directed_flag (α := ℕ) halfLine (by decide) hm
    refine ⟨g, hg, by simpa [hh] using h1, by simpa [hh] using h2⟩

/-- the integer hypothesis is met by a genuinely weighted matrix -/
example : ∀ i j, ∃ k : ℕ, heavyTriangle.val i j = k := by
  intro i j
  show ∃ k : ℕ, (if i = j then (0 : ℝ) else 2) = k
  split_ifs
  · exact ⟨0, by simp⟩
  · exact ⟨2, by simp⟩

end Verif.Graph
