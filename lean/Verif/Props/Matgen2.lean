import Verif.Props.Matgen

/-!
C39, second part: density one, gaussian weights, and the generators built on networkx.  C48: what the seed determines.
-/

namespace Verif.Matgen

open Verif Finset Spec

open Classical in
attribute [local instance 0] propDecidable

variable {R : NpRandom} {N : Nx} {n : ℕ}

/-! ### density one -/

theorem forO_id {σ α : Type} {body : α → σ → Option σ} (s : σ) (h : ∀ a, body a s = some s) : ∀ l : List α, forO body l s = some s
  | [] => rfl
  | a :: l => by rw [forO, h a]; exact forO_id s h l

theorem repair_id {weight : R.S → ℝ × R.S} (fuel : ℕ) (s : St R n) (h : ∀ i, colSum s.1 i ≠ 0) : repair R fuel weight s = some s :=
  forO_id s (fun i => if_neg fun hc => h i hc.1) _

theorem repairSym_id {step : Fin n → St R n → St R n} (fuel : ℕ) (s : St R n) (h : ∀ i, colSum s.1 i ≠ 0) : repairSym R fuel step s = some s :=
  forO_id s (fun i => if_neg (h i)) _

theorem exists_other (hn : 2 ≤ n) (i : Fin n) : ∃ j : Fin n, j ≠ i := by
  by_cases h : i.val = 0
  · exact ⟨⟨1, by omega⟩, fun e => by have := congrArg Fin.val e; simp at this; omega⟩
  · exact ⟨⟨0, by omega⟩, fun e => h (congrArg Fin.val e).symm⟩

theorem complete_colSum (hn : 2 ≤ n) {A : Fin n → Fin n → ℝ} (h : CompleteM A) (i : Fin n) : colSum A i ≠ 0 := by
  obtain ⟨j, hj⟩ := exists_other hn i
  refine colSum_ne (fun a b => ?_) (j := j) ?_
  · rw [h a b]; split_ifs <;> norm_num
  · rw [h j i, if_neg hj]; norm_num

/-- with `p ≥ 1` the upper triangle is drawn -/
theorem fillDensitySym_full {weight : R.S → ℝ × R.S} {p : ℝ} (hp : 1 ≤ p) (g : R.S) (i j : Fin n) (hij : i < j) :
    ∃ g', (fillDensitySym (n := n) R p weight g).1 i j = (weight g').1 := by
  have key : ∀ s : St R n, (R.random s.2).1 ≤ p := fun s => (R.random_lt s.2).le.trans hp
  let body : Fin n → Fin n → St R n → St R n := fun i j s =>
      let u := R.random s.2
      if u.1 ≤ p then
        let t := weight u.2
        let A := setAt2 s.1 i j t.1
        (copyAt2 A j i i j, t.2)
      else (s.1, u.2)
  have hbody : ∀ i j s, body i j s = (copyAt2 (setAt2 s.1 i j (weight (R.random s.2).2).1) j i i j, (weight (R.random s.2).2).2) := fun i j s => if_pos (key s)
  -- an entry that holds a drawn value keeps holding one
  have keep : ∀ (a b i j : Fin n) (s : St R n), (∃ g', s.1 a b = (weight g').1) → ∃ g', (body i j s).1 a b = (weight g').1 := by
    rintro a b i j s ⟨g', hg⟩
    rw [hbody]
    simp only [copyAt2_apply, setAt2_apply]
    split_ifs
    all_goals first | exact ⟨g', hg⟩ | exact ⟨_, rfl⟩ | (simp_all)
  have := forL_cover (σ := St R n) (α := Fin n) (body := fun i s => forL ((List.finRange n).filter fun j => i < j) (body i) s) (fun _ => True)
    (fun i s => ∀ j, i < j → ∃ g', s.1 i j = (weight g').1) (List.finRange n) (fun i _ s _ => ?_) (fun _ _ => 0, g) trivial
  · exact this.2.1 i (List.mem_finRange i) j hij
  · have h := forL_cover (σ := St R n) (α := Fin n) (body := body i) (fun _ => True) (fun j s => ∃ g', s.1 i j = (weight g').1)
      ((List.finRange n).filter fun j => i < j) (fun j _ s _ => ⟨trivial, ⟨(R.random s.2).2, ?_⟩, fun b hb => keep i b i j s hb⟩) s trivial
    · refine ⟨trivial, fun j hj => h.2.1 j (by simpa using hj), fun b hb j hj => ?_⟩
      exact forL_inv (fun t : St R n => ∃ g', t.1 b j = (weight g').1) (fun a t ht => keep b j i a t ht) _ s (hb j hj)
    · rw [hbody]
      simp only [copyAt2_apply, setAt2_apply, and_self, if_true]
      split_ifs <;> rfl

/-- **C39** With `p ≥ 1` (and two nodes or more) `random_binary_matrix_generator_custom_density` returns the complete graph, at once and whatever the stream. -/
theorem C39_density_one (hn : 2 ≤ n) {p : ℝ} (hp : 1 ≤ p) (fuel : ℕ) (sym : Bool) (seed : Option ℕ) (g : R.S) :
    ∃ A g', random_binary_matrix_generator_custom_density R fuel n p sym seed g = some (A, g') ∧ CompleteM A := by
  unfold random_binary_matrix_generator_custom_density
  cases sym
  · have hc : CompleteM (fill_diagonal (fillDensity (n := n) R p (one R) (R.seed seed g)).1) := fun i j => by
      unfold fill_diagonal
      obtain ⟨g', hg⟩ := fillDensity_full (weight := one R) hp (R.seed seed g) i j
      rw [hg]; rfl
    exact ⟨_, _, repair_id fuel _ (complete_colSum hn hc), hc⟩
  · have hc : CompleteM (fill_diagonal (fillDensitySym (n := n) R p (one R) (R.seed seed g)).1) := fun i j => by
      unfold fill_diagonal
      split_ifs with hij
      · rfl
      · rcases lt_or_gt_of_ne hij with h | h
        · obtain ⟨g', hg⟩ := fillDensitySym_full (weight := one R) hp (R.seed seed g) i j h
          rw [hg]; rfl
        · obtain ⟨g', hg⟩ := fillDensitySym_full (weight := one R) hp (R.seed seed g) j i h
          rw [(fillDensitySym_inv (E := fun _ => True) trivial (fun _ => trivial) p (R.seed seed g)).2.1 i j, hg]; rfl
    exact ⟨_, _, repairSym_id fuel _ (complete_colSum hn hc), hc⟩

/-! ### gaussian weights -/

/-- `intweights` only rounds the result -/
theorem gaussian_round (fuel : ℕ) (mean sigma p : ℝ) (sym : Bool) (seed : Option ℕ) (g : R.S) :
    random_weighted_matrix_generator_gaussian_custom_density R fuel n mean sigma p sym seed true g =
      (random_weighted_matrix_generator_gaussian_custom_density R fuel n mean sigma p sym seed false g).map fun s => (ceilM s.1, s.2) := by
  unfold random_weighted_matrix_generator_gaussian_custom_density
  cases sym <;> simp only [Bool.not_false, Bool.not_true, Bool.false_eq_true, if_true, if_false, Option.map_map] <;> rfl

/-- the counter stream with normal draws -1/2 and `p = 1` -/
theorem gaussian_counter (hn : 2 ≤ n) (fuel : ℕ) (mean sigma : ℝ) (sym : Bool) (seed : Option ℕ) (g : (counter (-1 / 2)).S) :
    ∃ A g', random_weighted_matrix_generator_gaussian_custom_density (counter (-1 / 2)) fuel n mean sigma 1 sym seed false g = some (A, g') ∧
      ∀ i j, A i j = if i = j then 0 else -1 / 2 := by
  have hcol : ∀ A : Fin n → Fin n → ℝ, (∀ i j, A i j = if i = j then 0 else -1 / 2) → ∀ i, colSum A i ≠ 0 := fun A hA i h => by
    obtain ⟨j, hj⟩ := exists_other hn i
    have : colSum (fun a b => - A a b) i = 0 := by unfold colSum at h ⊢; rw [sum_neg_distrib, h, neg_zero]
    refine colSum_ne (A := fun a b => - A a b) (fun a b => ?_) (j := j) ?_ this
    · rw [hA]; split_ifs <;> norm_num
    · rw [hA, if_neg hj]; norm_num
  unfold random_weighted_matrix_generator_gaussian_custom_density
  cases sym
  · have hc : ∀ i j, fill_diagonal (fillDensity (n := n) (counter (-1 / 2)) 1 ((counter (-1 / 2)).normal mean sigma) ((counter (-1 / 2)).seed seed g)).1 i j =
        if i = j then 0 else -1 / 2 := fun i j => by
      unfold fill_diagonal
      obtain ⟨g', hg⟩ := fillDensity_full (R := counter (-1 / 2)) (weight := (counter (-1 / 2)).normal mean sigma) le_rfl ((counter (-1 / 2)).seed seed g) i j
      rw [hg]; rfl
    refine ⟨_, (fillDensity (n := n) (counter (-1 / 2)) 1 ((counter (-1 / 2)).normal mean sigma) ((counter (-1 / 2)).seed seed g)).2, ?_, hc⟩
    simp only [Bool.not_false, if_true]
    rw [repair_id fuel _ (hcol _ hc)]
    rfl
  · have hc : ∀ i j, fill_diagonal (fillDensitySym (n := n) (counter (-1 / 2)) 1 ((counter (-1 / 2)).normal mean sigma) ((counter (-1 / 2)).seed seed g)).1 i j =
        if i = j then 0 else -1 / 2 := fun i j => by
      unfold fill_diagonal
      split_ifs with hij
      · rfl
      · rcases lt_or_gt_of_ne hij with h | h
        · obtain ⟨g', hg⟩ := fillDensitySym_full (R := counter (-1 / 2)) (weight := (counter (-1 / 2)).normal mean sigma) le_rfl
            ((counter (-1 / 2)).seed seed g) i j h
          rw [hg]; rfl
        · obtain ⟨g', hg⟩ := fillDensitySym_full (R := counter (-1 / 2)) (weight := (counter (-1 / 2)).normal mean sigma) le_rfl
            ((counter (-1 / 2)).seed seed g) j i h
          rw [(fillDensitySym_inv (R := counter (-1 / 2)) (E := fun _ => True) trivial (fun _ => trivial) 1 ((counter (-1 / 2)).seed seed g)).2.1 i j, hg]; rfl
    refine ⟨_, (fillDensitySym (n := n) (counter (-1 / 2)) 1 ((counter (-1 / 2)).normal mean sigma) ((counter (-1 / 2)).seed seed g)).2, ?_, hc⟩
    simp only [Bool.not_true, Bool.false_eq_true, if_false]
    rw [repairSym_id fuel _ (hcol _ hc)]
    rfl

/-- **C39** (violated) The gaussian generator returns negative weights when negative weights are drawn. -/
theorem C39_gaussian_negative_weights (hn : 2 ≤ n) (fuel : ℕ) (mean sigma : ℝ) (sym : Bool) (seed : Option ℕ) (g : (counter (-1 / 2)).S) :
    ∃ A g', random_weighted_matrix_generator_gaussian_custom_density (counter (-1 / 2)) fuel n mean sigma 1 sym seed false g = some (A, g') ∧
      ∀ i j, i ≠ j → A i j < 0 := by
  obtain ⟨A, g', h, hA⟩ := gaussian_counter hn fuel mean sigma sym seed g
  exact ⟨A, g', h, fun i j hij => by rw [hA, if_neg hij]; norm_num⟩

/-- **C39** (violated) Gaussian weights with `intweights=True`: weights drawn between -1 and 0 are rounded up to 0 after the repair loop has accepted them.  On a stream
whose normal draws are -1/2, with `p = 1`, the generator returns a matrix in which every node is isolated. -/
theorem C39_gaussian_integer_weights_isolate (hn : 2 ≤ n) (fuel : ℕ) (mean sigma : ℝ) (sym : Bool) (seed : Option ℕ) (g : (counter (-1 / 2)).S) :
    ∃ A g', random_weighted_matrix_generator_gaussian_custom_density (counter (-1 / 2)) fuel n mean sigma 1 sym seed true g = some (A, g') ∧
      (∀ i j, A i j = 0) ∧ ¬ NoIsolatedNode A := by
  obtain ⟨A, g', h, hA⟩ := gaussian_counter hn fuel mean sigma sym seed g
  have h0 : ∀ i j, ceilM A i j = 0 := fun i j => by
    have : ⌈(-1 / 2 : ℝ)⌉ = 0 := by norm_num
    unfold ceilM
    rw [hA]
    split_ifs
    · simp
    · rw [this]; simp
  refine ⟨ceilM A, g', ?_, h0, fun hi => ?_⟩
  · rw [gaussian_round, h]; rfl
  · obtain ⟨j, -, hj⟩ := hi ⟨0, by omega⟩
    rcases hj with hj | hj <;> exact hj (h0 _ _)

/-! ### seeds -/

/-- **C48** With a seed the five dense generators are functions of their arguments: the state of the global generator before the call does not matter. -/
theorem C48_dense_seeded (fuel : ℕ) (k : ℕ) (sym iw : Bool) (p sup_ext mean sigma : ℝ) (g g' : R.S) :
    random_binary_matrix_generator_dense R fuel n sym (some k) g = random_binary_matrix_generator_dense R fuel n sym (some k) g' ∧
      random_binary_matrix_generator_custom_density R fuel n p sym (some k) g = random_binary_matrix_generator_custom_density R fuel n p sym (some k) g' ∧
      random_weighted_matrix_generator_dense R fuel n sup_ext sym (some k) iw g = random_weighted_matrix_generator_dense R fuel n sup_ext sym (some k) iw g' ∧
      random_weighted_matrix_generator_uniform_custom_density R fuel n p sup_ext sym (some k) iw g =
        random_weighted_matrix_generator_uniform_custom_density R fuel n p sup_ext sym (some k) iw g' ∧
      random_weighted_matrix_generator_gaussian_custom_density R fuel n mean sigma p sym (some k) iw g =
        random_weighted_matrix_generator_gaussian_custom_density R fuel n mean sigma p sym (some k) iw g' := by
  unfold random_binary_matrix_generator_dense random_binary_matrix_generator_custom_density random_weighted_matrix_generator_dense
    random_weighted_matrix_generator_uniform_custom_density random_weighted_matrix_generator_gaussian_custom_density
  simp only [R.seed_some k g g', and_self]

/-- **C48** With a seed the sparse binary generator, `random_graph_nx` and `barabasi_albert_graph_nx` return the same matrix whatever the state of Python's and numpy's
global generators. -/
theorem C48_networkx_seeded (plw : ℕ → ℝ → R.S → ℝ × R.S) (n m sup_ext k : ℕ) (p alpha : ℝ) (sym : Bool) (w : Weighting) (x x' : N.X) (g g' : R.S) :
    random_binary_matrix_generator_custom_density_sparse N n p sym (some k) x = random_binary_matrix_generator_custom_density_sparse N n p sym (some k) x' ∧
      random_graph_nx R N plw n p sup_ext alpha (some k) w x g = random_graph_nx R N plw n p sup_ext alpha (some k) w x' g' ∧
      barabasi_albert_graph_nx R N plw n m sup_ext alpha (some k) w g = barabasi_albert_graph_nx R N plw n m sup_ext alpha (some k) w g' := by
  unfold random_binary_matrix_generator_custom_density_sparse random_graph_nx barabasi_albert_graph_nx weighLcc drawSeed
  refine ⟨?_, ?_, ?_⟩
  · rw [N.gnp_seed n p k _ x x']
  · simp only [R.seed_some k g g', N.gnp_seed n p k false x x']
  · simp only [R.seed_some k g g']

/-- **C48** Without a seed, `random_graph_nx` and `barabasi_albert_graph_nx` are the seeded calls with a seed below `n²` drawn from numpy's global generator (whose state
no longer matters once the seed is drawn). -/
theorem C48_networkx_unseeded (plw : ℕ → ℝ → R.S → ℝ × R.S) (n m sup_ext : ℕ) (hn : 0 < n) (p alpha : ℝ) (w : Weighting) (x : N.X) (g : R.S) :
    ∃ k, k < n ^ 2 ∧ k = (R.randint (n ^ 2) g).1 ∧ ∀ g', random_graph_nx R N plw n p sup_ext alpha none w x g = random_graph_nx R N plw n p sup_ext alpha (some k) w x g' ∧
      barabasi_albert_graph_nx R N plw n m sup_ext alpha none w g = barabasi_albert_graph_nx R N plw n m sup_ext alpha (some k) w g' := by
  refine ⟨(R.randint (n ^ 2) g).1, R.randint_lt _ _ (by positivity), rfl, fun g' => ?_⟩
  unfold random_graph_nx barabasi_albert_graph_nx weighLcc drawSeed
  exact ⟨by simp only [R.seed_some _ (R.randint (n ^ 2) g).2 g'], by simp only [R.seed_some _ (R.randint (n ^ 2) g).2 g']⟩

/-! ### the networkx generators -/

/-- **C39** `random_binary_matrix_generator_custom_density_sparse`: for one node or more it returns a binary loopless connected matrix, symmetric with `sym=True`, which is
the random graph restricted to a largest component; if it has two nodes or more, none is isolated. -/
theorem C39_sparse_binary (n : ℕ) (hn : 0 < n) (p : ℝ) (sym : Bool) (seed : Option ℕ) (x : N.X) :
    ∃ (m : ℕ) (A : Fin m → Fin m → ℝ), random_binary_matrix_generator_custom_density_sparse N n p sym seed x = some ⟨m, A⟩ ∧
      1 ≤ m ∧ Loopless A ∧ BinaryM A ∧ ConnectedM A ∧ (sym = true → SymmetricM A) ∧ (2 ≤ m → NoIsolatedNode A) ∧
      IsInduced A (N.gnp n p seed (!sym) x).1 ∧
      ∀ (m' : ℕ) (B : Fin m' → Fin m' → ℝ), IsInduced B (N.gnp n p seed (!sym) x).1 → ConnectedM B → m' ≤ m := by
  set G := (N.gnp n p seed (!sym) x).1 with hG
  obtain ⟨l, hl⟩ := largest_cc_isSome hn G
  obtain ⟨⟨r, rfl⟩, hpos, hmax⟩ := largest_cc_spec hl
  have hloop : Loopless (induced G (component G r)) := fun i => N.gnp_loopless ..
  have hconn := induced_connected G r
  refine ⟨_, induced G (component G r), ?_, hpos, hloop, fun i j => N.gnp_binary .., hconn, fun hs i j => ?_,
    fun h2 => noIsolated_of_connected h2 hloop hconn, ⟨(component G r).get, List.nodup_iff_injective_get.1 (component_nodup G r), fun _ _ => rfl⟩, ?_⟩
  · unfold random_binary_matrix_generator_custom_density_sparse
    rw [← hG]; dsimp only; rw [hl]; rfl
  · subst hs; exact N.gnp_symm ..
  · rintro m' B ⟨f, hf, hB⟩ hc
    rcases Nat.eq_zero_or_pos m' with h0 | h0
    · omega
    · refine le_trans ?_ (hmax (f ⟨0, h0⟩))
      have hsub : ((List.finRange m').map f).Subperm (component G (f ⟨0, h0⟩)) := by
        refine List.subperm_of_subset ((List.nodup_finRange m').map hf) fun y hy => ?_
        obtain ⟨i, -, rfl⟩ := List.mem_map.1 hy
        refine mem_component.2 ?_
        refine Relation.ReflTransGen.lift f (fun a b hab => ?_) _ _ (hc ⟨0, h0⟩ i)
        rw [hB a b, hB b a] at hab
        exact hab
      simpa using hsub.length_le

/-- **C39** (violated) The sparse generators can return a single isolated node: for an empty random graph (always so with `p = 0`) the result is the 1 × 1 zero matrix. -/
theorem C39_sparse_empty (n : ℕ) (hn : 0 < n) (p : ℝ) (sym : Bool) (seed : Option ℕ) (x : N.X) (h : ∀ i j, (N.gnp n p seed (!sym) x).1 i j = 0) :
    ∃ A : Fin 1 → Fin 1 → ℝ, random_binary_matrix_generator_custom_density_sparse N n p sym seed x = some ⟨1, A⟩ ∧ (∀ i j, A i j = 0) ∧ ¬ NoIsolatedNode A := by
  obtain ⟨m, A, h1, h2, h3, h4, h5, -, -, ⟨f, hf, hA⟩, -⟩ := C39_sparse_binary n hn p sym seed x
  have hz : ∀ i j, A i j = 0 := fun i j => by rw [hA, h]
  have hm : m = 1 := by
    by_contra hne
    have h2m : 2 ≤ m := by omega
    obtain ⟨j, -, hj⟩ := noIsolated_of_connected h2m h3 h5 ⟨0, by omega⟩
    rcases hj with hj | hj <;> exact hj (hz _ _)
  subst hm
  exact ⟨A, h1, hz, fun hi => by obtain ⟨j, -, hj⟩ := hi 0; rcases hj with hj | hj <;> exact hj (hz _ _)⟩

theorem weighted_from_spec {m : ℕ} {weight : R.S → ℝ × R.S} {B A : Fin m → Fin m → ℝ} (h : WeightedFrom weight B A) (hl : Loopless B) (hc : ConnectedM B) :
    Loopless A ∧ (∀ i j, A i j = 0 ∨ ∃ g, A i j = (weight g).1) ∧ ((∀ g, (weight g).1 ≠ 0) → SameLinks A B ∧ ConnectedM A ∧ (2 ≤ m → NoIsolatedNode A)) := by
  have hloop : Loopless A := fun i => (h i i).1 (hl i)
  refine ⟨hloop, fun i j => ?_, fun hw => ?_⟩
  · by_cases h0 : B i j = 0
    · exact .inl ((h i j).1 h0)
    · exact .inr ((h i j).2 h0)
  · have hs : SameLinks A B := fun i j => ⟨fun ha hb => ha ((h i j).1 hb), fun hb => by
      obtain ⟨g, hg⟩ := (h i j).2 hb
      rw [hg]; exact hw g⟩
    exact ⟨hs, connected_of_sameLinks hs hc, fun h2 => noIsolated_of_connected h2 hloop (connected_of_sameLinks hs hc)⟩

/-- the two weighted sparse generators: weights on the links of the sparse binary generator -/
theorem weightedSparse_spec (n : ℕ) (hn : 0 < n) (weight : R.S → ℝ × R.S) (p : ℝ) (sym : Bool) (seed : Option ℕ) (iw : Bool) (x : N.X) (g : R.S) :
    ∃ (m : ℕ) (A B : Fin m → Fin m → ℝ) (g' : R.S), weightedSparse R N n weight p sym seed iw x g = some (⟨m, A⟩, g') ∧
      random_binary_matrix_generator_custom_density_sparse N n p sym seed x = some ⟨m, B⟩ ∧
      WeightedFrom (ceilDraw R iw weight) B A ∧ (sym = true → SymmetricM A) := by
  set G := (N.gnp n p seed (!sym) x).1 with hG
  obtain ⟨l, hl⟩ := largest_cc_isSome hn G
  have hloop : Loopless (induced G l) := fun i => N.gnp_loopless ..
  unfold weightedSparse random_binary_matrix_generator_custom_density_sparse
  rw [← hG]
  dsimp only
  rw [hl]
  refine ⟨l.length, _, induced G l, _, rfl, rfl, ?_, fun hs => ?_⟩
  · cases sym
    · exact weightsDir_spec _ _ _
    · exact (weightsSym_spec _ _ (fun i j => N.gnp_symm ..) hloop _).1
  · subst hs
    exact (weightsSym_spec _ _ (fun i j => N.gnp_symm ..) hloop _).2

/-- **C39** `random_uniform_weighted_matrix_generator_custom_density_sparse`: weights between 0 and `sup_ext` (rounded up with `intweights`) on the links of the sparse
binary generator; when no draw of `random()` is exactly 0 and `sup_ext > 0` no link is lost and the matrix is connected. -/
theorem C39_sparse_uniform (n : ℕ) (hn : 0 < n) (sup_ext p : ℝ) (hsup : 0 < sup_ext) (sym : Bool) (seed : Option ℕ) (iw : Bool) (x : N.X) (g : R.S) :
    ∃ (m : ℕ) (A B : Fin m → Fin m → ℝ) (g' : R.S),
      random_uniform_weighted_matrix_generator_custom_density_sparse R N n sup_ext p sym seed iw x g = some (⟨m, A⟩, g') ∧
      random_binary_matrix_generator_custom_density_sparse N n p sym seed x = some ⟨m, B⟩ ∧
      Loopless A ∧ (sym = true → SymmetricM A) ∧ (iw = false → WeightsUpTo sup_ext A) ∧ (iw = true → IntegerM A ∧ WeightsUpTo ⌈sup_ext⌉ A) ∧
      ((∀ s, (R.random s).1 ≠ 0) → SameLinks A B ∧ ConnectedM A ∧ (2 ≤ m → NoIsolatedNode A)) := by
  obtain ⟨m, A, B, g', h1, h2, h3, h4⟩ := weightedSparse_spec n hn (uniform R sup_ext) p sym seed iw x g
  obtain ⟨m', B', e, -, hl, -, hc, -⟩ := C39_sparse_binary n hn p sym seed x
  rw [h2] at e
  simp only [Option.some.injEq, Sigma.mk.injEq] at e
  obtain ⟨rfl, e⟩ := e
  obtain rfl := eq_of_heq e
  obtain ⟨k1, k2, k3⟩ := weighted_from_spec h3 hl hc
  have hu := uniform_range (R := R) hsup.le
  refine ⟨m, A, B, g', h1, h2, k1, h4, fun hi i j => ?_, fun hi => ⟨fun i j => ?_, fun i j => ?_⟩, fun hr => k3 fun s => ?_⟩
  · subst hi
    rcases k2 i j with h | ⟨s, h⟩
    · rw [h]; exact ⟨le_rfl, hsup.le⟩
    · rw [h]; exact hu s
  · subst hi
    rcases k2 i j with h | ⟨s, h⟩
    · exact ⟨0, by simp [h]⟩
    · exact ⟨_, h⟩
  · subst hi
    have hc0 : (0 : ℝ) ≤ (⌈sup_ext⌉ : ℝ) := by exact_mod_cast Int.ceil_nonneg hsup.le
    rcases k2 i j with h | ⟨s, h⟩
    · rw [h]; exact ⟨le_rfl, hc0⟩
    · rw [h]; exact ceil_range (hu s)
  · have hne : (uniform R sup_ext s).1 ≠ 0 := mul_ne_zero (hr s) hsup.ne'
    cases iw
    · exact hne
    · exact ceil_ne_zero (hu s).1 hne

/-- **C39** `random_gaussian_weighted_matrix_generator_custom_density_sparse` -/
theorem C39_sparse_gaussian (n : ℕ) (hn : 0 < n) (mean sigma p : ℝ) (sym : Bool) (seed : Option ℕ) (iw : Bool) (x : N.X) (g : R.S) :
    ∃ (m : ℕ) (A B : Fin m → Fin m → ℝ) (g' : R.S),
      random_gaussian_weighted_matrix_generator_custom_density_sparse R N n mean sigma p sym seed iw x g = some (⟨m, A⟩, g') ∧
      random_binary_matrix_generator_custom_density_sparse N n p sym seed x = some ⟨m, B⟩ ∧
      Loopless A ∧ (sym = true → SymmetricM A) ∧ (iw = true → IntegerM A) ∧
      ((∀ s, 0 < (R.normal mean sigma s).1) → (∀ i j, 0 ≤ A i j) ∧ SameLinks A B ∧ ConnectedM A ∧ (2 ≤ m → NoIsolatedNode A)) := by
  obtain ⟨m, A, B, g', h1, h2, h3, h4⟩ := weightedSparse_spec n hn (R.normal mean sigma) p sym seed iw x g
  obtain ⟨m', B', e, -, hl, -, hc, -⟩ := C39_sparse_binary n hn p sym seed x
  rw [h2] at e
  simp only [Option.some.injEq, Sigma.mk.injEq] at e
  obtain ⟨rfl, e⟩ := e
  obtain rfl := eq_of_heq e
  obtain ⟨k1, k2, k3⟩ := weighted_from_spec h3 hl hc
  refine ⟨m, A, B, g', h1, h2, k1, h4, fun hi i j => ?_, fun hr => ?_⟩
  · subst hi
    rcases k2 i j with h | ⟨s, h⟩
    · exact ⟨0, by simp [h]⟩
    · exact ⟨_, h⟩
  · have hp : ∀ s, 0 < (ceilDraw R iw (R.normal mean sigma) s).1 := fun s => by
      cases iw
      · exact hr s
      · have : 0 < ⌈(R.normal mean sigma s).1⌉ := Int.ceil_pos.2 (hr s)
        show (0 : ℝ) < (⌈(R.normal mean sigma s).1⌉ : ℝ)
        exact_mod_cast this
    refine ⟨fun i j => ?_, k3 fun s => (hp s).ne'⟩
    rcases k2 i j with h | ⟨s, h⟩
    · exact h.ge
    · exact h ▸ (hp s).le

/-- what `weighLcc` returns for a simple undirected graph `G` -/
theorem weighLcc_spec (plw : ℕ → ℝ → R.S → ℝ × R.S) (hn : 0 < n) {G : Fin n → Fin n → ℝ} (hl : Loopless G) (hs : SymmetricM G) (hb : BinaryM G) (sup_ext : ℕ)
    (alpha : ℝ) (k : ℕ) (w : Weighting) (g : R.S) :
    ∃ (m : ℕ) (A B : Fin m → Fin m → ℝ) (g' : R.S), weighLcc R plw G sup_ext alpha k w g = some (⟨m, A⟩, g') ∧ 1 ≤ m ∧
      IsInduced B G ∧ ConnectedM B ∧ Loopless B ∧ BinaryM B ∧ SymmetricM A ∧ WeightedFrom (edgeWeight R plw sup_ext alpha w) B A := by
  obtain ⟨l, hl'⟩ := largest_cc_isSome hn G
  obtain ⟨⟨r, rfl⟩, hpos, -⟩ := largest_cc_spec hl'
  have h := weightsSym_spec (edgeWeight R plw sup_ext alpha w) (induced G (component G r)) (fun i j => hs _ _) (fun i => hl _) (R.seed (some k) g)
  refine ⟨_, _, induced G (component G r), (weightsSym R (edgeWeight R plw sup_ext alpha w) (induced G (component G r), R.seed (some k) g)).2, ?_, hpos, ⟨(component G r).get, List.nodup_iff_injective_get.1 (component_nodup G r), fun _ _ => rfl⟩,
    induced_connected G r, fun i => hl _, fun i j => hb _ _, h.2, h.1⟩
  unfold weighLcc
  rw [hl']; rfl

/-- the entries `A` may have in the three weighted modes, `B` being the 0/1 matrix of the links -/
def AllowedWeights {m : ℕ} (w : Weighting) (sup_ext : ℕ) (A B : Fin m → Fin m → ℝ) : Prop :=
  match w with
  | .other => A = B
  | .uniform => ∀ i j, ∃ v : ℕ, A i j = v ∧ v < sup_ext
  | _ => True

/-- **C39** `random_graph_nx` (one node or more, `sup_ext ≥ 1`): symmetric, loopless; its links are among those of `B`, the restriction of the random graph to a
connected set of nodes; unweighted it is `B`; in mode "uniform" the weights are whole numbers below `sup_ext`; and if no weight drawn is 0 all links of `B` are there, so
that the result is connected. -/
theorem C39_random_graph_nx (plw : ℕ → ℝ → R.S → ℝ × R.S) (n : ℕ) (hn : 0 < n) (p : ℝ) (sup_ext : ℕ) (hsup : 0 < sup_ext) (alpha : ℝ) (seed : Option ℕ)
    (w : Weighting) (x : N.X) (g : R.S) :
    ∃ (m : ℕ) (A B : Fin m → Fin m → ℝ) (g' : R.S) (k : ℕ), random_graph_nx R N plw n p sup_ext alpha seed w x g = some (⟨m, A⟩, g') ∧ 1 ≤ m ∧
      (∀ k', seed = some k' → k = k') ∧ IsInduced B (N.gnp n p (some k) false x).1 ∧ ConnectedM B ∧ BinaryM B ∧
      Loopless A ∧ SymmetricM A ∧ (∀ i j, B i j = 0 → A i j = 0) ∧ AllowedWeights w sup_ext A B ∧
      ((∀ s, (edgeWeight R plw sup_ext alpha w s).1 ≠ 0) → SameLinks A B ∧ ConnectedM A ∧ (2 ≤ m → NoIsolatedNode A)) := by
  obtain ⟨m, A, B, g', h1, h2, h3, h4, h5, h6, h7, h8⟩ := weighLcc_spec plw hn (G := (N.gnp n p (some (drawSeed R n seed g).1) false x).1)
    (fun i => N.gnp_loopless ..) (fun i j => N.gnp_symm ..) (fun i j => N.gnp_binary ..) sup_ext alpha (drawSeed R n seed g).1 w (drawSeed R n seed g).2
  obtain ⟨k1, k2, k3⟩ := weighted_from_spec h8 h5 h4
  refine ⟨m, A, B, g', (drawSeed R n seed g).1, h1, h2, ?_, h3, h4, h6, k1, h7, fun i j => (h8 i j).1, ?_, k3⟩
  · rintro k' rfl; rfl
  · cases w
    · intro i j
      rcases k2 i j with h | ⟨s, h⟩
      · exact ⟨0, by simpa using h, hsup⟩
      · exact ⟨_, h, R.randint_lt sup_ext s hsup⟩
    · trivial
    · trivial
    · funext i j
      by_cases h0 : B i j = 0
      · rw [h0, (h8 i j).1 h0]
      · obtain ⟨s, hs⟩ := (h8 i j).2 h0
        rw [hs, (h6 i j).resolve_left h0]; rfl

/-- **C39** `barabasi_albert_graph_nx` refuses exactly the numbers of links per node outside `1 ≤ m < n`. -/
theorem C39_barabasi_albert_graph_nx_refuses (plw : ℕ → ℝ → R.S → ℝ × R.S) (n e : ℕ) (he : e < 1 ∨ n ≤ e) (sup_ext : ℕ) (alpha : ℝ) (seed : Option ℕ) (w : Weighting)
    (g : R.S) : barabasi_albert_graph_nx R N plw n e sup_ext alpha seed w g = none := by
  unfold barabasi_albert_graph_nx
  exact if_pos he

/-- **C39** `barabasi_albert_graph_nx` for `1 ≤ m < n` -/
theorem C39_barabasi_albert_graph_nx (plw : ℕ → ℝ → R.S → ℝ × R.S) (n e : ℕ) (he : 1 ≤ e) (hen : e < n) (sup_ext : ℕ) (hsup : 0 < sup_ext) (alpha : ℝ)
    (seed : Option ℕ) (w : Weighting) (g : R.S) :
    ∃ (m : ℕ) (A B : Fin m → Fin m → ℝ) (g' : R.S) (k : ℕ), barabasi_albert_graph_nx R N plw n e sup_ext alpha seed w g = some (⟨m, A⟩, g') ∧ 1 ≤ m ∧
      (∀ k', seed = some k' → k = k') ∧ IsInduced B (N.ba n e k) ∧ ConnectedM B ∧ BinaryM B ∧
      Loopless A ∧ SymmetricM A ∧ (∀ i j, B i j = 0 → A i j = 0) ∧ AllowedWeights w sup_ext A B ∧
      ((∀ s, (edgeWeight R plw sup_ext alpha w s).1 ≠ 0) → SameLinks A B ∧ ConnectedM A ∧ (2 ≤ m → NoIsolatedNode A)) := by
  obtain ⟨m, A, B, g', h1, h2, h3, h4, h5, h6, h7, h8⟩ := weighLcc_spec plw (by omega : 0 < n) (G := N.ba n e (drawSeed R n seed g).1)
    (fun i => N.ba_loopless ..) (fun i j => N.ba_symm ..) (fun i j => N.ba_binary ..) sup_ext alpha (drawSeed R n seed g).1 w (drawSeed R n seed g).2
  obtain ⟨k1, k2, k3⟩ := weighted_from_spec h8 h5 h4
  refine ⟨m, A, B, g', (drawSeed R n seed g).1, ?_, h2, ?_, h3, h4, h6, k1, h7, fun i j => (h8 i j).1, ?_, k3⟩
  · unfold barabasi_albert_graph_nx
    rw [if_neg (by omega)]; exact h1
  · rintro k' rfl; rfl
  · cases w
    · intro i j
      rcases k2 i j with h | ⟨s, h⟩
      · exact ⟨0, by simpa using h, hsup⟩
      · exact ⟨_, h, R.randint_lt sup_ext s hsup⟩
    · trivial
    · trivial
    · funext i j
      by_cases h0 : B i j = 0
      · rw [h0, (h8 i j).1 h0]
      · obtain ⟨s, hs⟩ := (h8 i j).2 h0
        rw [hs, (h6 i j).resolve_left h0]; rfl

/-- **C39** (violated) In mode "uniform" the weights are drawn with `np.random.randint(0, sup_ext)`, which can give 0 and never gives `sup_ext`: with `sup_ext = 1` every
stream gives the zero matrix, whatever the random graph. -/
theorem C39_random_graph_nx_uniform_loses_links (plw : ℕ → ℝ → R.S → ℝ × R.S) (n : ℕ) (hn : 0 < n) (p alpha : ℝ) (seed : Option ℕ) (x : N.X) (g : R.S) :
    ∃ (m : ℕ) (A : Fin m → Fin m → ℝ) (g' : R.S), random_graph_nx R N plw n p 1 alpha seed .uniform x g = some (⟨m, A⟩, g') ∧
      (∀ i j, A i j = 0) ∧ ¬ NoIsolatedNode A := by
  obtain ⟨m, A, B, g', k, h1, hm, -, -, -, -, -, -, -, h2, -⟩ := C39_random_graph_nx plw n hn p 1 one_pos alpha seed .uniform x g
  have h0 : ∀ i j, A i j = 0 := fun i j => by
    obtain ⟨v, hv, hlt⟩ := h2 i j
    obtain rfl : v = 0 := by omega
    simpa using hv
  exact ⟨m, A, g', h1, h0, fun hi => by obtain ⟨j, -, hj⟩ := hi ⟨0, hm⟩; rcases hj with hj | hj <;> exact hj (h0 _ _)⟩

/-! ### a concrete networkx, and the sparse weighted generators ignore the seed for the weights -/

/-- a networkx that always returns the complete graph -/
noncomputable def completeNx : Nx where
  X := Unit
  gnp _ _ _ _ x := (fun i j => if i = j then 0 else 1, x)
  ba _ _ _ := fun i j => if i = j then 0 else 1
  gnp_seed _ _ _ _ _ _ := rfl
  gnp_loopless _ _ _ _ _ i := if_pos rfl
  gnp_binary _ _ _ _ _ i j := by dsimp only; split_ifs <;> simp
  gnp_symm _ _ _ _ i j := by simp only [eq_comm]
  ba_loopless _ _ _ i := if_pos rfl
  ba_binary _ _ _ i j := by split_ifs <;> simp
  ba_symm _ _ _ i j := by simp only [eq_comm]

/-- a generator whose state is the number it draws -/
noncomputable def frozen : NpRandom where
  S := Bool
  seed k s := match k with | some _ => true | none => s
  random s := (if s then 1 / 2 else 1 / 4, s)
  randint _ s := (0, s)
  normal _ _ s := (if s then 1 else 2, s)
  seed_some _ _ _ := rfl
  random_nonneg s := by split_ifs <;> norm_num
  random_lt s := by dsimp only; split_ifs <;> norm_num
  randint_lt k s hk := hk

theorem forL_const {weight : R.S → ℝ × R.S} {g : R.S} (hg : (weight g).2 = g) (upd : Fin n × Fin n → (Fin n → Fin n → ℝ) → ℝ → Fin n → Fin n → ℝ) :
    ∀ (l : List (Fin n × Fin n)) (A : Fin n → Fin n → ℝ), forL l (fun q (s : St R n) => (upd q s.1 (weight s.2).1, (weight s.2).2)) (A, g) =
      forL l (fun q (s : St R n) => (upd q s.1 (weight g).1, s.2)) (A, g)
  | [], _ => rfl
  | q :: l, A => by
    rw [forL_cons, forL_cons]
    have : (upd q A (weight g).1, (weight g).2) = (upd q A (weight g).1, g) := by rw [hg]
    show forL l _ (upd q A (weight g).1, (weight g).2) = _
    rw [this]
    exact forL_const hg upd l _

/-- from a state in which the generator stays, all weights are the same -/
theorem weights_const (weight : R.S → ℝ × R.S) (g : R.S) (hg : (weight g).2 = g) (A : Fin n → Fin n → ℝ) :
    weightsSym R weight (A, g) = weightsSym R (fun s => ((weight g).1, s)) (A, g) ∧ weightsDir R weight (A, g) = weightsDir R (fun s => ((weight g).1, s)) (A, g) :=
  ⟨forL_const hg (fun q A v => copyAt2 (setAt2 A q.1 q.2 v) q.2 q.1 q.1 q.2) _ A, forL_const hg (fun q A v => setAt2 A q.1 q.2 v) _ A⟩

theorem completeNx_two (p : ℝ) (sym : Bool) (seed : Option ℕ) :
    ∃ (m : ℕ) (B : Fin m → Fin m → ℝ), random_binary_matrix_generator_custom_density_sparse completeNx 2 p sym seed () = some ⟨m, B⟩ ∧ ∃ i j, B i j ≠ 0 := by
  obtain ⟨m, B, h1, -, hl, -, hc, -, hi, -, hmax⟩ := C39_sparse_binary (N := completeNx) 2 (by norm_num) p sym seed ()
  have h2 : 2 ≤ m := hmax 2 _ ⟨id, Function.injective_id, fun _ _ => rfl⟩ fun i j => by
    by_cases h : i = j
    · subst h; exact Relation.ReflTransGen.refl
    · exact Relation.ReflTransGen.single (.inl (by show (if i = j then (0:ℝ) else 1) ≠ 0; rw [if_neg h]; norm_num))
  obtain ⟨j, -, hj⟩ := hi h2 ⟨0, by omega⟩
  rcases hj with hj | hj
  · exact ⟨m, B, h1, _, _, hj⟩
  · exact ⟨m, B, h1, _, _, hj⟩

/-- if the weight drawn depends on the state the seeded sparse weighted generators are not reproducible -/
theorem frozen_sparse (weight : frozen.S → ℝ × frozen.S) (hw : ∀ s, (weight s).2 = s) (hne : (weight true).1 ≠ (weight false).1) (p : ℝ) (sym : Bool) (k : ℕ) :
    weightedSparse frozen completeNx 2 weight p sym (some k) false () true ≠ weightedSparse frozen completeNx 2 weight p sym (some k) false () false := by
  obtain ⟨m, B, hB, i, j, hij⟩ := completeNx_two p sym (some k)
  -- from state `g` every weight drawn is `(weight g).1`
  have key : ∀ g : frozen.S, ∃ (A : Fin m → Fin m → ℝ) (g' : frozen.S), weightedSparse frozen completeNx 2 weight p sym (some k) false () g = some (⟨m, A⟩, g') ∧
      A i j = (weight g).1 := fun g => by
    obtain ⟨m', A, B', g', h1, h2, h3, -⟩ := weightedSparse_spec (R := frozen) (N := completeNx) 2 (by norm_num) (fun s => ((weight g).1, s)) p sym (some k) false () g
    rw [hB] at h2
    simp only [Option.some.injEq, Sigma.mk.injEq] at h2
    obtain ⟨rfl, e⟩ := h2
    obtain rfl := eq_of_heq e
    refine ⟨A, g', ?_, ?_⟩
    · rw [← h1]
      unfold weightedSparse
      have e1 : ceilDraw frozen false weight = weight := rfl
      have e2 : ceilDraw frozen false (fun s => ((weight g).1, s)) = fun s => ((weight g).1, s) := rfl
      rw [e1, e2]
      cases sym
      · simp only [Bool.false_eq_true, if_false, (weights_const weight g (hw g) _).2]
      · simp only [if_true, (weights_const weight g (hw g) _).1]
    · obtain ⟨s, hs⟩ := (h3 i j).2 hij
      exact hs
  intro he
  obtain ⟨A, g1, h1, hA⟩ := key true
  obtain ⟨A', g2, h2, hA'⟩ := key false
  rw [h1, h2] at he
  simp only [Option.some.injEq, Prod.mk.injEq, Sigma.mk.injEq, true_and] at he
  exact hne (by rw [← hA, ← hA', eq_of_heq he.1])

/-- **C48** (violated) The weighted sparse generators pass the seed to networkx only; the weights come from the global numpy generator as it stands, so two calls with the
same seed can return different matrices. -/
theorem C48_sparse_weights_unseeded (p : ℝ) (sym : Bool) (k : ℕ) :
    random_uniform_weighted_matrix_generator_custom_density_sparse frozen completeNx 2 10 p sym (some k) false () true ≠
        random_uniform_weighted_matrix_generator_custom_density_sparse frozen completeNx 2 10 p sym (some k) false () false ∧
      random_gaussian_weighted_matrix_generator_custom_density_sparse frozen completeNx 2 5 1 p sym (some k) false () true ≠
        random_gaussian_weighted_matrix_generator_custom_density_sparse frozen completeNx 2 5 1 p sym (some k) false () false :=
  ⟨frozen_sparse _ (fun _ => rfl) (by show (1 / 2 * 10 : ℝ) ≠ 1 / 4 * 10; norm_num) p sym k,
    frozen_sparse _ (fun _ => rfl) (by show (1 : ℝ) ≠ 2; norm_num) p sym k⟩

/-- **C48** What the seed does determine there: the links (when no weight drawn is 0). -/
theorem C48_sparse_links_seeded_partial (n : ℕ) (hn : 0 < n) (sup_ext p : ℝ) (hsup : 0 < sup_ext) (sym iw : Bool) (k : ℕ) (x x' : N.X) (g g' : R.S)
    (hr : ∀ s, (R.random s).1 ≠ 0) :
    ∃ (m : ℕ) (A A' : Fin m → Fin m → ℝ) (s s' : R.S),
      random_uniform_weighted_matrix_generator_custom_density_sparse R N n sup_ext p sym (some k) iw x g = some (⟨m, A⟩, s) ∧
      random_uniform_weighted_matrix_generator_custom_density_sparse R N n sup_ext p sym (some k) iw x' g' = some (⟨m, A'⟩, s') ∧ SameLinks A A' := by
  obtain ⟨m, A, B, s, h1, h2, -, -, -, -, h3⟩ := C39_sparse_uniform (R := R) n hn sup_ext p hsup sym (some k) iw x g
  obtain ⟨m', A', B', s', h1', h2', -, -, -, -, h3'⟩ := C39_sparse_uniform (R := R) n hn sup_ext p hsup sym (some k) iw x' g'
  rw [(C48_networkx_seeded (R := R) (fun _ _ s => (1, s)) n 0 0 k p 0 sym .other x x' g g').1, h2'] at h2
  simp only [Option.some.injEq, Sigma.mk.injEq] at h2
  obtain ⟨rfl, e⟩ := h2
  obtain rfl := eq_of_heq e
  exact ⟨_, A, A', s, s', h1, h1', fun i j => ((h3 hr).1 i j).trans ((h3' hr).1 i j).symm⟩

/-- the hypotheses are met: the frozen generator never draws 0 -/
example : ∀ s, (frozen.random s).1 ≠ 0 := fun s => by
  unfold frozen
  dsimp only
  split_ifs <;> norm_num

/-- and the empty graph of `C39_sparse_empty` exists -/
example : ∃ N : Nx, ∀ (n : ℕ) p s d x i j, (N.gnp n p s d x).1 i j = 0 :=
  ⟨{ X := Unit, gnp := fun _ _ _ _ x => (fun _ _ => 0, x), ba := fun _ _ _ _ _ => 0, gnp_seed := fun _ _ _ _ _ _ => rfl, gnp_loopless := fun _ _ _ _ _ _ => rfl,
     gnp_binary := fun _ _ _ _ _ _ _ => .inl rfl, gnp_symm := fun _ _ _ _ _ _ => rfl, ba_loopless := fun _ _ _ _ => rfl, ba_binary := fun _ _ _ _ _ => .inl rfl,
     ba_symm := fun _ _ _ _ _ => rfl }, fun _ _ _ _ _ _ _ => rfl⟩

end Verif.Matgen
