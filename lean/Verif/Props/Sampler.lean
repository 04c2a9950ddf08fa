import Verif.Lemmas.Sampler
import Verif.Props.Network

/-!
Properties C19-C22 and C24: what `ensemble_sampler` writes. Every theorem holds for every random generator `R` (only the documented output ranges are assumed),
every seed, and every complete interleaving of the worker processes.
-/

namespace Verif.Sampler

open Spec

variable (R : Rng) {n : ℕ}

/-! ### lists of sampled pairs -/

theorem simpleEdges_of_sublist (es : List (ℕ × ℕ)) (h : es.Sublist ((pairsLt n).map fun e => (e.1.val, e.2.val))) : SimpleEdges n es := by
  have hs : es.Pairwise LexLt := List.Pairwise.sublist h (by rw [List.pairwise_map]; exact pairsLt_sorted n)
  refine ⟨?_, hs, ?_⟩
  · intro e he
    obtain ⟨e', he', rfl⟩ := List.mem_map.1 (h.subset he)
    exact ⟨(mem_pairsLt e').1 he', e'.2.isLt⟩
  · refine hs.imp ?_
    rintro a b (h | ⟨_, h⟩) rfl
    · exact lt_irrefl _ h
    · exact lt_irrefl _ h

theorem simpleArcs_of_sublist (es : List (ℕ × ℕ)) (h : es.Sublist ((pairsNe n).map fun e => (e.1.val, e.2.val))) : SimpleArcs n es := by
  have hs : es.Pairwise LexLt := List.Pairwise.sublist h (by rw [List.pairwise_map]; exact pairsNe_sorted n)
  refine ⟨?_, hs, ?_⟩
  · intro e he
    obtain ⟨e', he', rfl⟩ := List.mem_map.1 (h.subset he)
    exact ⟨e'.1.isLt, e'.2.isLt, fun hh => (mem_pairsNe e').1 he' (Fin.ext hh)⟩
  · refine hs.imp ?_
    rintro a b (h | ⟨_, h⟩) rfl
    · exact lt_irrefl _ h
    · exact lt_irrefl _ h

open Classical in
/-- the edges sampled by the code for `cm`: the candidate pairs, each with its own seed, whose uniform number is below the link probability -/
theorem cm_edges_eq (x : Fin n → ℝ) (env : Env R) (henv : ∀ T, (env T).Complete) (seed : Option ℕ) (g : R.S) :
    cm_edges R x env seed g = .ok (((pairsLt n).zip (drawSeeds R (pairsLt n).length (reseed R seed g)).1).filterMap fun as =>
      if unif R as.2 < x as.1.1 * x as.1.2 / (1 + x as.1.1 * x as.1.2) then some (as.1.1.val, as.1.2.val) else none) := by
  unfold cm_edges
  exact sampleEdges_ok R _ _ (fun (e : Fin n × Fin n) s => if unif R s < x e.1 * x e.2 / (1 + x e.1 * x e.2) then some (e.1.val, e.2.val) else none)
    (fun _ _ _ _ => rfl) (fun e _ s => link_cm_eq R _ _ _ _) env henv seed g

open Classical in
/-- the same for `dcm` -/
theorem dcm_edges_eq (x y : Fin n → ℝ) (env : Env R) (henv : ∀ T, (env T).Complete) (seed : Option ℕ) (g : R.S) :
    dcm_edges R x y env seed g = .ok (((pairsNe n).zip (drawSeeds R (pairsNe n).length (reseed R seed g)).1).filterMap fun as =>
      if unif R as.2 < x as.1.1 * y as.1.2 / (1 + x as.1.1 * y as.1.2) then some (as.1.1.val, as.1.2.val) else none) := by
  unfold dcm_edges
  exact sampleEdges_ok R _ _ (fun (e : Fin n × Fin n) s => if unif R s < x e.1 * y e.2 / (1 + x e.1 * y e.2) then some (e.1.val, e.2.val) else none)
    (fun _ _ _ _ => rfl) (fun e _ s => link_dcm_eq R _ _ _ _) env henv seed g

/-- C19: the undirected binary sampler never raises, and lists the edges of a simple graph on `0, …, n-1`, each once, lexicographically. -/
theorem C19_edges (x : Fin n → ℝ) (env : Env R) (henv : ∀ T, (env T).Complete) (seed : Option ℕ) (g : R.S) :
    ∃ es, cm_edges R x env seed g = .ok es ∧ SimpleEdges n es := by
  classical
  refine ⟨_, cm_edges_eq R x env henv seed g, simpleEdges_of_sublist _ ?_⟩
  have := filterMap_zip_sublist (pairsLt n) (drawSeeds R (pairsLt n).length (reseed R seed g)).1
    (fun (e : Fin n × Fin n) s => if unif R s < x e.1 * x e.2 / (1 + x e.1 * x e.2) then some (e.1.val, e.2.val) else none) (fun e => e)
    (fun e => (e.1.val, e.2.val)) (by intro a s b hb; beta_reduce at hb; split at hb <;> simp_all)
  rw [List.map_id'] at this
  exact this

/-- C20: the directed binary sampler never raises, and lists the arcs of a loop-free digraph on `0, …, n-1`, each once, lexicographically. -/
theorem C20_arcs (x y : Fin n → ℝ) (env : Env R) (henv : ∀ T, (env T).Complete) (seed : Option ℕ) (g : R.S) :
    ∃ es, dcm_edges R x y env seed g = .ok es ∧ SimpleArcs n es := by
  classical
  refine ⟨_, dcm_edges_eq R x y env henv seed g, simpleArcs_of_sublist _ ?_⟩
  have := filterMap_zip_sublist (pairsNe n) (drawSeeds R (pairsNe n).length (reseed R seed g)).1
    (fun (e : Fin n × Fin n) s => if unif R s < x e.1 * y e.2 / (1 + x e.1 * y e.2) then some (e.1.val, e.2.val) else none) (fun e => e)
    (fun e => (e.1.val, e.2.val)) (by intro a s b hb; beta_reduce at hb; split at hb <;> simp_all)
  rw [List.map_id'] at this
  exact this

/-! ### weighted ensembles -/

/-- C21: in the domain `0 ≤ y_i y_j < 1` the undirected weighted sampler never raises; it lists a simple graph with integer weights at least 1. -/
theorem C21_ecm (x y : Fin n → ℝ) (hy : ∀ i j, i < j → 0 ≤ y i * y j ∧ y i * y j < 1) (env : Env R) (henv : ∀ T, (env T).Complete) (seed : Option ℕ)
    (g : R.S) : ∃ es, ecm_edges R x y env seed g = .ok es ∧ SimpleEdges n (es.map fun e => (e.1, e.2.1)) ∧ ∀ e ∈ es, 1 ≤ e.2.2 := by
  classical
  refine ⟨_, sampleEdges_ok R _ _ (fun (e : Fin n × Fin n) s => if unif R s < (x e.1 * x e.2) * (y e.1 * y e.2) / (1 - y e.1 * y e.2 + (x e.1 * x e.2) * (y e.1 * y e.2))
    then some (e.1.val, e.2.val, (R.geometric (1 - y e.1 * y e.2) (R.random_sample (R.seed s)).2).1) else none)
    (fun _ _ _ _ => rfl) (fun e he s => ?_) env henv seed g, simpleEdges_of_sublist _ ?_, ?_⟩
  · have h := hy e.1 e.2 ((mem_pairsLt e).1 he)
    exact link_ecm_eq R _ _ _ _ h.1 h.2
  · exact filterMap_zip_sublist (pairsLt n) _ (fun (e : Fin n × Fin n) s => if unif R s < (x e.1 * x e.2) * (y e.1 * y e.2) / (1 - y e.1 * y e.2 + (x e.1 * x e.2) * (y e.1 * y e.2))
      then some (e.1.val, e.2.val, (R.geometric (1 - y e.1 * y e.2) (R.random_sample (R.seed s)).2).1) else none) (fun e => (e.1, e.2.1))
      (fun e => (e.1.val, e.2.val)) (by intro a s b hb; beta_reduce at hb; split at hb <;> cases hb; rfl)
  · intro e he
    obtain ⟨as, has, hb⟩ := List.mem_filterMap.1 he
    have h := hy as.1.1 as.1.2 ((mem_pairsLt _).1 (List.of_mem_zip has).1)
    split at hb
    · obtain rfl := Option.some.inj hb
      exact R.geometric_pos _ _ (by linarith [h.2]) (by linarith [h.1])
    · cases hb

/-- C21: the same for the directed weighted sampler. -/
theorem C21_decm (a_out a_in b_out b_in : Fin n → ℝ) (hy : ∀ i j, i ≠ j → 0 ≤ b_out i * b_in j ∧ b_out i * b_in j < 1) (env : Env R)
    (henv : ∀ T, (env T).Complete) (seed : Option ℕ) (g : R.S) :
    ∃ es, decm_edges R a_out a_in b_out b_in env seed g = .ok es ∧ SimpleArcs n (es.map fun e => (e.1, e.2.1)) ∧ ∀ e ∈ es, 1 ≤ e.2.2 := by
  classical
  refine ⟨_, sampleEdges_ok R _ _ (fun (e : Fin n × Fin n) s => if unif R s < (a_out e.1 * a_in e.2) * (b_out e.1 * b_in e.2) / (1 - b_out e.1 * b_in e.2 + (a_out e.1 * a_in e.2) * (b_out e.1 * b_in e.2))
    then some (e.1.val, e.2.val, (R.geometric (1 - b_out e.1 * b_in e.2) (R.random_sample (R.seed s)).2).1) else none)
    (fun _ _ _ _ => rfl) (fun e he s => ?_) env henv seed g, simpleArcs_of_sublist _ ?_, ?_⟩
  · have h := hy e.1 e.2 ((mem_pairsNe e).1 he)
    exact link_decm_eq R _ _ _ _ h.1 h.2
  · exact filterMap_zip_sublist (pairsNe n) _ (fun (e : Fin n × Fin n) s => if unif R s < (a_out e.1 * a_in e.2) * (b_out e.1 * b_in e.2) / (1 - b_out e.1 * b_in e.2 + (a_out e.1 * a_in e.2) * (b_out e.1 * b_in e.2))
      then some (e.1.val, e.2.val, (R.geometric (1 - b_out e.1 * b_in e.2) (R.random_sample (R.seed s)).2).1) else none) (fun e => (e.1, e.2.1))
      (fun e => (e.1.val, e.2.val)) (by intro a s b hb; beta_reduce at hb; split at hb <;> cases hb; rfl)
  · intro e he
    obtain ⟨as, has, hb⟩ := List.mem_filterMap.1 he
    have h := hy as.1.1 as.1.2 ((mem_pairsNe _).1 (List.of_mem_zip has).1)
    split at hb
    · obtain rfl := Option.some.inj hb
      exact R.geometric_pos _ _ (by linarith [h.2]) (by linarith [h.1])
    · cases hb

/-- C21: parameters with `y_i y_j ≥ 1` (here `x = 1`, `y = 2`, two nodes) make the sampler raise, for every random stream. -/
theorem C21_ecm_outside_domain_raises (env : Env R) (henv : ∀ T, (env T).Complete) (seed : Option ℕ) (g : R.S) :
    ecm_edges R (n := 2) (fun _ => 1) (fun _ => 2) env seed g = .error .valueError := by
  unfold ecm_edges
  rw [sampleEdges_eq R _ _ (fun _ _ _ _ => rfl) env henv]
  have hp : pairsLt 2 = [(0, 1)] := by decide
  rw [hp]
  show (Except.map _ (((([(0, 1)] : List (Fin 2 × Fin 2)).zip [(R.randint (reseed R seed g)).1]).map _).mapM id)) = _
  simp only [List.zip_cons_cons, List.zip_nil_left, List.map_cons, List.map_nil, List.mapM_cons]
  have h : ∀ s, (is_a_link_ecm R (((0 : Fin 2) : ℕ), (1 : ℝ), (2 : ℝ)) (((1 : Fin 2) : ℕ), 1, 2) (some s) (R.seed 0)).1 = .error .valueError := by
    intro s
    have h1 := R.random_lt_one (R.seed s)
    have h2 : (R.random_sample (R.seed s)).1 < 1 * 1 * (2 * 2) / (1 - 2 * 2 + 1 * 1 * (2 * 2)) := by norm_num; linarith
    have h3 : ¬ (0 < (1 : ℝ) - 2 * 2 ∧ (1 : ℝ) - 2 * 2 ≤ 1) := by norm_num
    simp only [is_a_link_ecm, geometricE, reseed, h2, h3, if_true, if_false]
    rfl
  rw [h]
  rfl

/-- C21: with a deterministic topology the sampled links are exactly the given ones, in order, with non-negative weights, positive unless the exponential variate
itself is 0. -/
theorem C21_crema_det (b_out b_in : Fin n → ℝ) (adj : List (Fin n × Fin n)) (hb : ∀ e ∈ adj, 0 < b_out e.1 + b_in e.2) (env : Env R)
    (henv : ∀ T, (env T).Complete) (seed : Option ℕ) (g : R.S) :
    ∃ es, crema_det_edges R b_out b_in adj env seed g = .ok es ∧ es.map (fun e => (e.1, e.2.1)) = adj.map (fun e => (e.1.val, e.2.val)) ∧
      (∀ e ∈ es, 0 ≤ e.2.2) ∧ ((∀ s, 0 < (R.standard_exponential s).1) → ∀ e ∈ es, 0 < e.2.2) := by
  refine ⟨_, sampleEdges_ok R _ _ (fun (e : Fin n × Fin n) s => some (e.1.val, e.2.val, 1 / (b_out e.1 + b_in e.2) * (R.standard_exponential (R.seed s)).1))
    (fun _ _ _ _ => rfl) (fun e he s => link_crema_det_eq R _ _ _ _ (hb e he)) env henv seed g, ?_, ?_, ?_⟩
  · have hl := drawSeeds_length R adj.length (reseed R seed g)
    generalize (drawSeeds R adj.length (reseed R seed g)).1 = seeds at hl ⊢
    clear hb
    induction adj generalizing seeds with
    | nil => rfl
    | cons e adj ih =>
      cases seeds with
      | nil => cases hl
      | cons s seeds =>
        rw [List.zip_cons_cons, List.filterMap_cons, List.map_cons]
        simp only [List.map_cons]
        rw [ih seeds (by simpa using hl)]
  · intro e he
    obtain ⟨as, has, h⟩ := List.mem_filterMap.1 he
    obtain rfl := Option.some.inj h
    have := hb as.1 (List.of_mem_zip has).1
    have := R.exponential_nonneg (R.seed as.2)
    positivity
  · intro hpos e he
    obtain ⟨as, has, h⟩ := List.mem_filterMap.1 he
    obtain rfl := Option.some.inj h
    have := hb as.1 (List.of_mem_zip has).1
    have := hpos (R.seed as.2)
    positivity

/-- C21: with a probabilistic topology given as `(i, j, p)` triples, the sampled links are among the given ones, in order, so that no pair is repeated unless the
topology repeats it; weights are non-negative, positive unless the exponential variate itself is 0. -/
theorem C21_crema_prob (b_out b_in : Fin n → ℝ) (adj : List (Fin n × Fin n × ℝ)) (hb : ∀ e ∈ adj, 0 < b_out e.1 + b_in e.2.1) (env : Env R)
    (henv : ∀ T, (env T).Complete) (seed : Option ℕ) (g : R.S) :
    ∃ es, crema_prob_edges R b_out b_in adj env seed g = .ok es ∧ (es.map fun e => (e.1, e.2.1)).Sublist (adj.map fun e => (e.1.val, e.2.1.val)) ∧
      (∀ e ∈ es, 0 ≤ e.2.2) ∧ ((∀ s, 0 < (R.standard_exponential s).1) → ∀ e ∈ es, 0 < e.2.2) := by
  classical
  refine ⟨_, sampleEdges_ok R _ _ (fun (e : Fin n × Fin n × ℝ) s => if unif R s < e.2.2 then some (e.1.val, e.2.1.val, 1 / (b_out e.1 + b_in e.2.1) *
    (R.standard_exponential (R.random_sample (R.seed s)).2).1) else none)
    (fun _ _ _ _ => rfl) (fun e he s => link_crema_prob_eq R _ _ _ _ _ (hb e he)) env henv seed g, ?_, ?_, ?_⟩
  · exact filterMap_zip_sublist adj _ (fun (e : Fin n × Fin n × ℝ) s => if unif R s < e.2.2 then some (e.1.val, e.2.1.val, 1 / (b_out e.1 + b_in e.2.1) *
      (R.standard_exponential (R.random_sample (R.seed s)).2).1) else none) (fun e => (e.1, e.2.1)) (fun e => (e.1.val, e.2.1.val))
      (by intro a s b hb; beta_reduce at hb; split at hb <;> cases hb; rfl)
  · intro e he
    obtain ⟨as, has, h⟩ := List.mem_filterMap.1 he
    split at h
    · obtain rfl := Option.some.inj h
      have := hb as.1 (List.of_mem_zip has).1
      have := R.exponential_nonneg (R.random_sample (R.seed as.2)).2
      positivity
    · cases h
  · intro hpos e he
    obtain ⟨as, has, h⟩ := List.mem_filterMap.1 he
    split at h
    · obtain rfl := Option.some.inj h
      have := hb as.1 (List.of_mem_zip has).1
      have := hpos (R.random_sample (R.seed as.2)).2
      positivity
    · cases h

open Classical in
theorem crema_sparse_edges_eq (b_out b_in x y : Fin n → ℝ) (hb : ∀ i j, i ≠ j → 0 < b_out i + b_in j) (env : Env R) (henv : ∀ T, (env T).Complete)
    (seed : Option ℕ) (g : R.S) :
    crema_sparse_prob_edges R b_out b_in x y env seed g = .ok (((pairsNe n).zip (drawSeeds R (pairsNe n).length (reseed R seed g)).1).filterMap fun as =>
      if unif R as.2 < x as.1.1 * y as.1.2 / (1 + y as.1.2 * x as.1.1) then some (as.1.1.val, as.1.2.val, 1 / (b_out as.1.1 + b_in as.1.2) *
        (R.standard_exponential (R.random_sample (R.seed as.2)).2).1) else none) :=
  sampleEdges_ok R _ _ (fun (e : Fin n × Fin n) s => if unif R s < x e.1 * y e.2 / (1 + y e.2 * x e.1) then some (e.1.val, e.2.val, 1 / (b_out e.1 + b_in e.2) *
        (R.standard_exponential (R.random_sample (R.seed s)).2).1) else none) (fun _ _ _ _ => rfl)
    (fun e he s => link_crema_sparse_prob_eq R _ _ _ _ (hb e.1 e.2 ((mem_pairsNe e).1 he))) env henv seed g

/-- C21: the sparse directed sampler lists the arcs of a loop-free digraph, each once, with non-negative weights, positive unless the exponential variate itself is 0. -/
theorem C21_crema_sparse_directed (b_out b_in x y : Fin n → ℝ) (hb : ∀ i j, i ≠ j → 0 < b_out i + b_in j) (env : Env R) (henv : ∀ T, (env T).Complete)
    (seed : Option ℕ) (g : R.S) :
    ∃ es, crema_sparse_prob_edges R b_out b_in x y env seed g = .ok es ∧ SimpleArcs n (es.map fun e => (e.1, e.2.1)) ∧
      (∀ e ∈ es, 0 ≤ e.2.2) ∧ ((∀ s, 0 < (R.standard_exponential s).1) → ∀ e ∈ es, 0 < e.2.2) := by
  classical
  refine ⟨_, crema_sparse_edges_eq R b_out b_in x y hb env henv seed g, simpleArcs_of_sublist _ ?_, ?_, ?_⟩
  · exact filterMap_zip_sublist (pairsNe n) _ (fun (e : Fin n × Fin n) s => if unif R s < x e.1 * y e.2 / (1 + y e.2 * x e.1) then
      some (e.1.val, e.2.val, 1 / (b_out e.1 + b_in e.2) * (R.standard_exponential (R.random_sample (R.seed s)).2).1) else none) (fun e => (e.1, e.2.1))
      (fun e => (e.1.val, e.2.val)) (by intro a s b hb; beta_reduce at hb; split at hb <;> cases hb; rfl)
  · intro e he
    obtain ⟨as, has, h⟩ := List.mem_filterMap.1 he
    split at h
    · obtain rfl := Option.some.inj h
      have := hb as.1.1 as.1.2 ((mem_pairsNe _).1 (List.of_mem_zip has).1)
      have := R.exponential_nonneg (R.random_sample (R.seed as.2)).2
      positivity
    · cases h
  · intro hpos e he
    obtain ⟨as, has, h⟩ := List.mem_filterMap.1 he
    split at h
    · obtain rfl := Option.some.inj h
      have := hb as.1.1 as.1.2 ((mem_pairsNe _).1 (List.of_mem_zip has).1)
      have := hpos (R.random_sample (R.seed as.2)).2
      positivity
    · cases h

/-! concrete generators and pools, used as witnesses -/

/-- a generator: `randint` counts, uniform numbers are all `u`, geometric variates 1, exponential variates 1 -/
noncomputable def constRng (u : ℝ) (h0 : 0 ≤ u) (h1 : u < 1) : Rng where
  S := ℕ
  seed k := k
  randint g := (g % 1000000, g + 1)
  random_sample g := (u, g)
  geometric _ g := (1, g)
  standard_exponential g := (1, g)
  randint_lt _ := Nat.mod_lt _ (by norm_num)
  random_nonneg _ := h0
  random_lt_one _ := h1
  geometric_pos _ _ _ _ := le_refl 1
  exponential_nonneg _ := zero_le_one

/-- one worker executing the tasks in order -/
def seqEnv : Env R := fun T => ⟨1, fun _ => R.seed 0, (List.finRange T).map fun t => (0, t)⟩

theorem seqEnv_complete (T : ℕ) : (seqEnv R T).Complete := fun t => ⟨(0 : Fin 1), List.mem_map.2 ⟨t, List.mem_finRange t, rfl⟩⟩

/-- two workers, the tasks in reverse order, odd tasks done by the second worker -/
def revEnv : Env R := fun T => ⟨2, fun w => R.seed w.val, ((List.finRange T).map fun t => (if t.val % 2 = 0 then 0 else 1, t)).reverse⟩

theorem revEnv_complete (T : ℕ) : (revEnv R T).Complete := fun t =>
  ⟨(if t.val % 2 = 0 then 0 else 1 : Fin 2), List.mem_reverse.2 (List.mem_map.2 ⟨t, List.mem_finRange t, rfl⟩)⟩

/-- C21: the sparse *undirected* sampler draws every pair twice: whenever the uniform numbers of both draws are small enough, `{0, 1}` appears as `(0, 1)` and as
`(1, 0)`, with independent weights. Here: two nodes, fitness 1 (link probability 1/2), uniform numbers 0. -/
theorem C21_crema_sparse_undirected_repeats :
    ∃ (R : Rng) (beta x : Fin 2 → ℝ), (∀ i, 0 < beta i) ∧ (∀ i, 0 < x i) ∧ ∀ env, (∀ T, (env T).Complete) → ∀ seed g,
      ∃ es, crema_sparse_prob_edges R beta beta x x env seed g = .ok es ∧ es.map (fun e => (e.1, e.2.1)) = [(0, 1), (1, 0)] := by
  refine ⟨constRng 0 le_rfl one_pos, fun _ => 1, fun _ => 1, fun _ => one_pos, fun _ => one_pos, fun env henv seed g => ?_⟩
  refine ⟨_, crema_sparse_edges_eq _ _ _ _ _ (fun _ _ _ => by norm_num) env henv seed g, ?_⟩
  have hp : pairsNe 2 = [(0, 1), (1, 0)] := by decide
  have hu : ∀ s, unif (constRng 0 le_rfl one_pos) s = 0 := fun _ => rfl
  rw [hp]
  simp only [hu]
  rw [List.length_cons, List.length_singleton]
  show List.map _ (List.filterMap _ (List.zip [(0, 1), (1, 0)] [_, _])) = _
  simp

/-- `C21_ecm`: an admissible parameter vector -/
example : ∀ i j : Fin 3, i < j → 0 ≤ (i.val / 2 : ℝ) * (j.val / 2 : ℝ) ∧ (i.val / 2 : ℝ) * (j.val / 2 : ℝ) < 1 := by
  intro i j h
  have hi : (i.val : ℝ) ≤ 1 := by have := j.isLt; have : i.val ≤ 1 := by omega
                                  exact_mod_cast this
  have hj : (j.val : ℝ) ≤ 2 := by have := j.isLt; have : j.val ≤ 2 := by omega
                                  exact_mod_cast this
  have h0 : (0 : ℝ) ≤ i.val := by positivity
  have h1 : (0 : ℝ) ≤ j.val := by positivity
  exact ⟨by positivity, by nlinarith⟩

/-! ### reproducibility -/

/-- the results of a sampler do not depend on the pool, nor, when it is given a seed, on the previous generator state -/
def Reproducible {β : Type} (sampler : Env R → Option ℕ → R.S → Except Err (List β)) : Prop :=
  ∀ env env', (∀ T, (env T).Complete) → (∀ T, (env' T).Complete) → ∀ s g g', sampler env (some s) g = sampler env' (some s) g'

theorem sampleEdges_reproducible {A β : Type} (cands : List A) (link : A → Option ℕ → R.S → Except Err (Option β) × R.S)
    (hseed : ∀ a s g g', link a (some s) g = link a (some s) g') : Reproducible R (sampleEdges R cands link) := by
  intro env env' h h' s g g'
  rw [sampleEdges_eq R cands link hseed env h, sampleEdges_eq R cands link hseed env' h']
  rfl

theorem fileLoop_reproducible {β : Type} (sampler : Env R → Option ℕ → R.S → Except Err (List β)) (hs : Reproducible R sampler) (txt : List β → String)
    (envs envs' : ℕ → Env R) (h : ∀ k T, (envs k T).Complete) (h' : ∀ k T, (envs' k T).Complete) (states states' : ℕ → R.S) (s : List ℕ) :
    fileLoop R sampler txt envs states s = fileLoop R sampler txt envs' states' s := by
  unfold fileLoop
  congr 1
  funext si
  rw [hs (envs si.2) (envs' si.2) (h si.2) (h' si.2) si.1 (states si.2) (states' si.2)]

/-- C22: with a fixed seed, `UndirectedGraph.ensemble_sampler` writes the same files (or raises the same exception) whatever the number of worker processes, their
interleaving, the generator states they inherit, the generator state of the parent and the operating system's entropy. -/
theorem C22_undirected (f : Fitted n) (N : ℕ) (dir : String) (seed : ℕ) (fmt : ℝ → String) (entropy entropy' : R.S) (envs envs' : ℕ → Env R)
    (h : ∀ k T, (envs k T).Complete) (h' : ∀ k T, (envs' k T).Complete) (states states' : ℕ → R.S) :
    ensemble_sampler_undirected R f N dir (some seed) entropy fmt envs states = ensemble_sampler_undirected R f N dir (some seed) entropy' fmt envs' states' := by
  unfold ensemble_sampler_undirected
  simp only [reseed]
  rw [fileLoop_reproducible R (cm_edges R f.x) (sampleEdges_reproducible R _ _ fun _ _ _ _ => rfl) _ envs envs' h h' states states',
    fileLoop_reproducible R (ecm_edges R f.x f.y) (sampleEdges_reproducible R _ _ fun _ _ _ _ => rfl) _ envs envs' h h' states states',
    fileLoop_reproducible R (crema_det_edges R _ _ _) (sampleEdges_reproducible R _ _ fun _ _ _ _ => rfl) _ envs envs' h h' states states',
    fileLoop_reproducible R (crema_prob_edges R _ _ _) (sampleEdges_reproducible R _ _ fun _ _ _ _ => rfl) _ envs envs' h h' states states',
    fileLoop_reproducible R (crema_sparse_prob_edges R _ _ _ _) (sampleEdges_reproducible R _ _ fun _ _ _ _ => rfl) _ envs envs' h h' states states']

/-- C22: the same for `DirectedGraph.ensemble_sampler`. -/
theorem C22_directed (f : Fitted n) (N : ℕ) (dir : String) (seed : ℕ) (fmt : ℝ → String) (entropy entropy' : R.S) (envs envs' : ℕ → Env R)
    (h : ∀ k T, (envs k T).Complete) (h' : ∀ k T, (envs' k T).Complete) (states states' : ℕ → R.S) :
    ensemble_sampler_directed R f N dir (some seed) entropy fmt envs states = ensemble_sampler_directed R f N dir (some seed) entropy' fmt envs' states' := by
  unfold ensemble_sampler_directed
  simp only [reseed]
  rw [fileLoop_reproducible R (dcm_edges R f.x f.y) (sampleEdges_reproducible R _ _ fun _ _ _ _ => rfl) _ envs envs' h h' states states',
    fileLoop_reproducible R (decm_edges R f.x f.y f.b_out f.b_in) (sampleEdges_reproducible R _ _ fun _ _ _ _ => rfl) _ envs envs' h h' states states',
    fileLoop_reproducible R (crema_det_edges R _ _ _) (sampleEdges_reproducible R _ _ fun _ _ _ _ => rfl) _ envs envs' h h' states states',
    fileLoop_reproducible R (crema_prob_edges R _ _ _) (sampleEdges_reproducible R _ _ fun _ _ _ _ => rfl) _ envs envs' h h' states states',
    fileLoop_reproducible R (crema_sparse_prob_edges R _ _ _ _) (sampleEdges_reproducible R _ _ fun _ _ _ _ => rfl) _ envs envs' h h' states states']

theorem fileLoop_cons_ok {β : Type} (sampler : Env R → Option ℕ → R.S → Except Err (List β)) (txt : List β → String) (envs : ℕ → Env R) (states : ℕ → R.S)
    (l : List (ℕ × ℕ)) (cs : List String) (h : l.mapM (fun si => (sampler (envs si.2) (some si.1) (states si.2)).map txt) = .ok cs) :
    cs.length = l.length ∧ ∀ k, k ≤ l.length → (l.take k).mapM (fun si => (sampler (envs si.2) (some si.1) (states si.2)).map txt) = .ok (cs.take k) := by
  induction l generalizing cs with
  | nil =>
    cases h
    exact ⟨rfl, fun k _ => by simp; rfl⟩
  | cons a l ih =>
    rw [List.mapM_cons] at h
    cases ha : (sampler (envs a.2) (some a.1) (states a.2)).map txt with
    | error e => rw [ha] at h; cases h
    | ok c =>
      rw [ha] at h
      cases hl : l.mapM (fun si => (sampler (envs si.2) (some si.1) (states si.2)).map txt) with
      | error e => rw [hl] at h; cases h
      | ok cs' =>
        rw [hl] at h
        obtain rfl : c :: cs' = cs := by injection h
        obtain ⟨h1, h2⟩ := ih cs' hl
        refine ⟨by simp [h1], fun k hk => ?_⟩
        cases k with
        | zero => rfl
        | succ k =>
          rw [List.take_succ_cons, List.take_succ_cons, List.mapM_cons, ha, h2 k (by simpa using hk)]
          rfl

theorem zipIdx_take {α : Type} (l : List α) (k : ℕ) : (l.take k).zipIdx = l.zipIdx.take k := by
  apply List.ext_getElem?
  intro i
  simp only [List.getElem?_zipIdx, List.getElem?_take]
  split <;> simp

theorem files_take (dir : String) (cs : List String) (k : ℕ) : files dir (cs.take k) = (files dir cs).take k := by
  unfold files
  rw [zipIdx_take, List.map_take]

theorem files_names (dir : String) (cs : List String) : (files dir cs).map Prod.fst = (List.range cs.length).map fun k => dir ++ (toString k ++ ".txt") := by
  unfold files
  rw [List.map_map]
  apply List.ext_getElem?
  intro i
  simp only [List.getElem?_map, List.getElem?_zipIdx]
  by_cases h : i < cs.length
  · rw [List.getElem?_range h, List.getElem?_eq_getElem h]
    simp
  · rw [List.getElem?_eq_none (by omega), List.getElem?_eq_none (by simpa using h)]
    rfl

/-- what a loop over files produces -/
theorem fileLoop_files {β : Type} (sampler : Env R → Option ℕ → R.S → Except Err (List β)) (txt : List β → String) (envs : ℕ → Env R) (states : ℕ → R.S)
    (N m : ℕ) (g : R.S) (dir : String) (fs : List (String × String))
    (h : (fileLoop R sampler txt envs states (drawSeeds R (N + m) g).1).map (files dir) = .ok fs) :
    fs.map Prod.fst = (List.range (N + m)).map (fun k => dir ++ (toString k ++ ".txt")) ∧
      (fileLoop R sampler txt envs states (drawSeeds R N g).1).map (files dir) = .ok (fs.take N) := by
  cases hc : fileLoop R sampler txt envs states (drawSeeds R (N + m) g).1 with
  | error e => rw [hc] at h; cases h
  | ok cs =>
    rw [hc] at h
    obtain rfl : files dir cs = fs := by injection h
    obtain ⟨h1, h2⟩ := fileLoop_cons_ok R sampler txt envs states _ cs hc
    rw [List.length_zipIdx, drawSeeds_length] at h1
    constructor
    · rw [files_names, h1]
    · have hp : (drawSeeds R N g).1 = (drawSeeds R (N + m) g).1.take N := by
        have := List.prefix_iff_eq_take.1 (drawSeeds_prefix R N m g)
        rwa [drawSeeds_length] at this
      have := h2 N (by rw [List.length_zipIdx, drawSeeds_length]; omega)
      rw [← zipIdx_take, ← hp] at this
      unfold fileLoop
      rw [this, ← files_take]
      rfl

theorem names_nodup (dir : String) (N : ℕ) : ((List.range N).map fun k => dir ++ (toString k ++ ".txt")).Nodup := by
  refine List.Nodup.map ?_ List.nodup_range
  intro j k h
  have h := congrArg String.toList h
  simp only [String.toList_append] at h
  have h := List.append_cancel_right (List.append_cancel_left h)
  exact toString_inj (String.toList_inj.1 h)

/-- C22: the files written are exactly `dir0.txt`, …, `dir(N-1).txt`, all different, and file `k` does not depend on how many files are requested: asking for
fewer files with the same seed writes a prefix of the same files. (Models for which files are written: see `C22_undirected_writes_nothing`.) -/
theorem C22_undirected_files (f : Fitted n) (hf : ¬ (f.last_model = "crema-sparse" ∧ f.adjacency_given = true)) (N m : ℕ) (dir : String) (seed : Option ℕ)
    (fmt : ℝ → String) (entropy : R.S) (envs : ℕ → Env R) (states : ℕ → R.S) (fs : List (String × String))
    (h : ensemble_sampler_undirected R f (N + m) dir seed entropy fmt envs states = .ok fs) :
    fs.map Prod.fst = (List.range (N + m)).map (fun k => dir ++ (toString k ++ ".txt")) ∧ (fs.map Prod.fst).Nodup ∧
      ensemble_sampler_undirected R f N dir seed entropy fmt envs states = .ok (fs.take N) := by
  have key : fs.map Prod.fst = (List.range (N + m)).map (fun k => dir ++ (toString k ++ ".txt")) ∧
      ensemble_sampler_undirected R f N dir seed entropy fmt envs states = .ok (fs.take N) := by
    unfold ensemble_sampler_undirected at h ⊢
    simp only at h ⊢
    by_cases h1 : f.last_model = "cm" ∨ f.last_model = "cm_exp"
    · rw [if_pos h1] at h ⊢; exact fileLoop_files R _ _ _ _ _ _ _ _ _ h
    rw [if_neg h1] at h ⊢
    by_cases h2 : f.last_model = "ecm" ∨ f.last_model = "ecm_exp"
    · rw [if_pos h2] at h ⊢; exact fileLoop_files R _ _ _ _ _ _ _ _ _ h
    rw [if_neg h2] at h ⊢
    by_cases h3 : f.last_model = "crema"
    · rw [if_pos h3] at h ⊢
      by_cases h4 : f.adjacency_given = true
      · rw [if_pos h4] at h ⊢; exact fileLoop_files R _ _ _ _ _ _ _ _ _ h
      · rw [if_neg h4] at h ⊢; exact fileLoop_files R _ _ _ _ _ _ _ _ _ h
    rw [if_neg h3] at h ⊢
    by_cases h5 : f.last_model = "crema-sparse"
    · have h4 : ¬ f.adjacency_given = true := fun h4 => hf ⟨h5, h4⟩
      rw [if_pos h5, if_pos h4] at h ⊢; exact fileLoop_files R _ _ _ _ _ _ _ _ _ h
    · rw [if_neg h5] at h; cases h
  exact ⟨key.1, by rw [key.1]; exact names_nodup dir _, key.2⟩

/-- C22: the same for directed graphs. -/
theorem C22_directed_files (f : Fitted n) (hf : ¬ (f.last_model = "crema-sparse" ∧ f.adjacency_given = true)) (N m : ℕ) (dir : String) (seed : Option ℕ)
    (fmt : ℝ → String) (entropy : R.S) (envs : ℕ → Env R) (states : ℕ → R.S) (fs : List (String × String))
    (h : ensemble_sampler_directed R f (N + m) dir seed entropy fmt envs states = .ok fs) :
    fs.map Prod.fst = (List.range (N + m)).map (fun k => dir ++ (toString k ++ ".txt")) ∧ (fs.map Prod.fst).Nodup ∧
      ensemble_sampler_directed R f N dir seed entropy fmt envs states = .ok (fs.take N) := by
  have key : fs.map Prod.fst = (List.range (N + m)).map (fun k => dir ++ (toString k ++ ".txt")) ∧
      ensemble_sampler_directed R f N dir seed entropy fmt envs states = .ok (fs.take N) := by
    unfold ensemble_sampler_directed at h ⊢
    simp only at h ⊢
    by_cases h1 : f.last_model = "dcm" ∨ f.last_model = "dcm_exp"
    · rw [if_pos h1] at h ⊢; exact fileLoop_files R _ _ _ _ _ _ _ _ _ h
    rw [if_neg h1] at h ⊢
    by_cases h2 : f.last_model = "decm" ∨ f.last_model = "decm_exp"
    · rw [if_pos h2] at h ⊢; exact fileLoop_files R _ _ _ _ _ _ _ _ _ h
    rw [if_neg h2] at h ⊢
    by_cases h3 : f.last_model = "crema"
    · rw [if_pos h3] at h ⊢
      by_cases h4 : f.adjacency_given = true
      · rw [if_pos h4] at h ⊢; exact fileLoop_files R _ _ _ _ _ _ _ _ _ h
      · rw [if_neg h4] at h ⊢; exact fileLoop_files R _ _ _ _ _ _ _ _ _ h
    rw [if_neg h3] at h ⊢
    by_cases h5 : f.last_model = "crema-sparse"
    · have h4 : ¬ f.adjacency_given = true := fun h4 => hf ⟨h5, h4⟩
      rw [if_pos h5, if_pos h4] at h ⊢; exact fileLoop_files R _ _ _ _ _ _ _ _ _ h
    · rw [if_neg h5] at h; cases h
  exact ⟨key.1, by rw [key.1]; exact names_nodup dir _, key.2⟩

/-- C22: after `crema-sparse` with an adjacency matrix given by the user, `ensemble_sampler` writes no file at all and does not complain, whatever `N`. -/
theorem C22_writes_nothing (f : Fitted n) (hm : f.last_model = "crema-sparse") (ha : f.adjacency_given = true) (N : ℕ) (dir : String) (seed : Option ℕ)
    (fmt : ℝ → String) (entropy : R.S) (envs : ℕ → Env R) (states : ℕ → R.S) :
    ensemble_sampler_undirected R f N dir seed entropy fmt envs states = .ok [] ∧ ensemble_sampler_directed R f N dir seed entropy fmt envs states = .ok [] := by
  unfold ensemble_sampler_undirected ensemble_sampler_directed
  simp [hm, ha]

/-- C22: a graph object on which no model has been solved (or an unknown one) makes the sampler raise `ValueError`. -/
theorem C22_unsolved_raises (f : Fitted n) (hm : f.last_model = "") (N : ℕ) (dir : String) (seed : Option ℕ)
    (fmt : ℝ → String) (entropy : R.S) (envs : ℕ → Env R) (states : ℕ → R.S) :
    ensemble_sampler_undirected R f N dir seed entropy fmt envs states = .error .valueError ∧
      ensemble_sampler_directed R f N dir seed entropy fmt envs states = .error .valueError := by
  unfold ensemble_sampler_undirected ensemble_sampler_directed
  simp [hm]

/-- the pool theorems are not vacuous: two different complete ways of running any number of tasks -/
example : (∀ T, (seqEnv R T).Complete) ∧ (∀ T, (revEnv R T).Complete) := ⟨seqEnv_complete R, revEnv_complete R⟩

/-! ### reading the files back -/

theorem fileLoop_ok {β : Type} (sampler : Env R → Option ℕ → R.S → Except Err (List β)) (txt : List β → String) (envs : ℕ → Env R)
    (states : ℕ → R.S) (P : List β → Prop) (hs : ∀ k s, ∃ es, sampler (envs k) (some s) (states k) = .ok es ∧ P es) (l : List (ℕ × ℕ)) :
    ∃ gs : List (List β), gs.length = l.length ∧ (∀ es ∈ gs, P es) ∧
      l.mapM (fun si => (sampler (envs si.2) (some si.1) (states si.2)).map txt) = .ok (gs.map txt) := by
  induction l with
  | nil => exact ⟨[], rfl, by simp, rfl⟩
  | cons a l ih =>
    obtain ⟨gs, h1, h2, h3⟩ := ih
    obtain ⟨es, he, hp⟩ := hs a.2 a.1
    refine ⟨es :: gs, by simp [h1], ?_, ?_⟩
    · intro es' hes'
      rcases List.mem_cons.1 hes' with rfl | h
      · exact hp
      · exact h2 _ h
    · rw [List.mapM_cons, he, h3]; rfl

theorem files_get (dir : String) (cs : List String) (k : ℕ) : (files dir cs)[k]? = cs[k]?.map fun c => (dir ++ (toString k ++ ".txt"), c) := by
  unfold files
  rw [List.getElem?_map, List.getElem?_zipIdx, Option.map_map]
  simp only [Nat.zero_add]
  rfl

/-- what the sampler writes for a model whose edge lists satisfy `P` and whose text form can be read back by `rd` -/
theorem sampler_files {β : Type} (sampler : Env R → Option ℕ → R.S → Except Err (List β)) (txt : List β → String) (rd : String → Option (List β))
    (P : List β → Prop) (hrd : ∀ es, P es → rd (txt es) = some es) (envs : ℕ → Env R) (states : ℕ → R.S)
    (hs : ∀ k s, ∃ es, sampler (envs k) (some s) (states k) = .ok es ∧ P es) (N : ℕ) (g : R.S) (dir : String) :
    ∃ fs, (fileLoop R sampler txt envs states (drawSeeds R N g).1).map (files dir) = .ok fs ∧ fs.length = N ∧
      ∀ k, k < N → ∃ text es, fs[k]? = some (dir ++ (toString k ++ ".txt"), text) ∧ rd text = some es ∧ P es := by
  obtain ⟨gs, h1, h2, h3⟩ := fileLoop_ok R sampler txt envs states P hs (drawSeeds R N g).1.zipIdx
  rw [List.length_zipIdx, drawSeeds_length] at h1
  refine ⟨files dir (gs.map txt), ?_, ?_, ?_⟩
  · unfold fileLoop; rw [h3]; rfl
  · unfold files; simp [h1]
  · intro k hk
    have hk' : k < gs.length := by omega
    refine ⟨txt gs[k], gs[k], ?_, hrd _ (h2 _ (List.getElem_mem hk')), h2 _ (List.getElem_mem hk')⟩
    rw [files_get, List.getElem?_map, List.getElem?_eq_getElem hk']
    rfl

/-- C19: after solving `cm` or `cm_exp`, `ensemble_sampler` writes `N` files; parsing file `k` gives the edge list of a simple undirected graph on the nodes of the
network, for every random stream, seed, number of workers and interleaving. -/
theorem C19_files (f : Fitted n) (hf : f.last_model = "cm" ∨ f.last_model = "cm_exp") (N : ℕ) (dir : String) (seed : Option ℕ) (fmt : ℝ → String)
    (entropy : R.S) (envs : ℕ → Env R) (henv : ∀ k T, (envs k T).Complete) (states : ℕ → R.S) :
    ∃ fs, ensemble_sampler_undirected R f N dir seed entropy fmt envs states = .ok fs ∧ fs.length = N ∧
      ∀ k, k < N → ∃ text es, fs[k]? = some (dir ++ (toString k ++ ".txt"), text) ∧ parse text = some es ∧ SimpleEdges n es := by
  unfold ensemble_sampler_undirected
  simp only
  rw [if_pos hf]
  exact sampler_files R _ render parse (SimpleEdges n) (fun es _ => parse_render es) envs states
    (fun k s => C19_edges R f.x (envs k) (henv k) (some s) (states k)) N _ dir

/-- C20: the same for `dcm` and `dcm_exp`: parsing file `k` gives the arc list of a loop-free digraph. -/
theorem C20_files (f : Fitted n) (hf : f.last_model = "dcm" ∨ f.last_model = "dcm_exp") (N : ℕ) (dir : String) (seed : Option ℕ) (fmt : ℝ → String)
    (entropy : R.S) (envs : ℕ → Env R) (henv : ∀ k T, (envs k T).Complete) (states : ℕ → R.S) :
    ∃ fs, ensemble_sampler_directed R f N dir seed entropy fmt envs states = .ok fs ∧ fs.length = N ∧
      ∀ k, k < N → ∃ text es, fs[k]? = some (dir ++ (toString k ++ ".txt"), text) ∧ parse text = some es ∧ SimpleArcs n es := by
  unfold ensemble_sampler_directed
  simp only
  rw [if_pos hf]
  exact sampler_files R _ render parse (SimpleArcs n) (fun es _ => parse_render es) envs states
    (fun k s => C20_arcs R f.x f.y (envs k) (henv k) (some s) (states k)) N _ dir

/-- C21: the same for `ecm` and `ecm_exp`, in the domain of the model. -/
theorem C21_ecm_files (f : Fitted n) (hf : f.last_model = "ecm" ∨ f.last_model = "ecm_exp") (hy : ∀ i j, i < j → 0 ≤ f.y i * f.y j ∧ f.y i * f.y j < 1)
    (N : ℕ) (dir : String) (seed : Option ℕ) (fmt : ℝ → String) (entropy : R.S) (envs : ℕ → Env R) (henv : ∀ k T, (envs k T).Complete) (states : ℕ → R.S) :
    ∃ fs, ensemble_sampler_undirected R f N dir seed entropy fmt envs states = .ok fs ∧ fs.length = N ∧
      ∀ k, k < N → ∃ text es, fs[k]? = some (dir ++ (toString k ++ ".txt"), text) ∧ parseW readNat text = some es ∧
        SimpleEdges n (es.map fun e => (e.1, e.2.1)) ∧ ∀ e ∈ es, 1 ≤ e.2.2 := by
  have hne : ¬ (f.last_model = "cm" ∨ f.last_model = "cm_exp") := by
    rcases hf with h | h <;> rw [h] <;> decide
  unfold ensemble_sampler_undirected
  simp only
  rw [if_neg hne, if_pos hf]
  exact sampler_files R _ (renderW toString) (parseW readNat) (fun es => SimpleEdges n (es.map fun e => (e.1, e.2.1)) ∧ ∀ e ∈ es, 1 ≤ e.2.2)
    (fun es _ => parseW_renderW _ _ _ fun e _ => by
      rw [toString_toList]; exact ⟨readNat_toDigits _, toDigits_ne _ _ rfl, toDigits_ne _ _ rfl⟩) envs states
    (fun k s => C21_ecm R f.x f.y hy (envs k) (henv k) (some s) (states k)) N _ dir

/-- C21: the same for `decm` and `decm_exp`. -/
theorem C21_decm_files (f : Fitted n) (hf : f.last_model = "decm" ∨ f.last_model = "decm_exp")
    (hy : ∀ i j, i ≠ j → 0 ≤ f.b_out i * f.b_in j ∧ f.b_out i * f.b_in j < 1)
    (N : ℕ) (dir : String) (seed : Option ℕ) (fmt : ℝ → String) (entropy : R.S) (envs : ℕ → Env R) (henv : ∀ k T, (envs k T).Complete) (states : ℕ → R.S) :
    ∃ fs, ensemble_sampler_directed R f N dir seed entropy fmt envs states = .ok fs ∧ fs.length = N ∧
      ∀ k, k < N → ∃ text es, fs[k]? = some (dir ++ (toString k ++ ".txt"), text) ∧ parseW readNat text = some es ∧
        SimpleArcs n (es.map fun e => (e.1, e.2.1)) ∧ ∀ e ∈ es, 1 ≤ e.2.2 := by
  have hne : ¬ (f.last_model = "dcm" ∨ f.last_model = "dcm_exp") := by
    rcases hf with h | h <;> rw [h] <;> decide
  unfold ensemble_sampler_directed
  simp only
  rw [if_neg hne, if_pos hf]
  exact sampler_files R _ (renderW toString) (parseW readNat) (fun es => SimpleArcs n (es.map fun e => (e.1, e.2.1)) ∧ ∀ e ∈ es, 1 ≤ e.2.2)
    (fun es _ => parseW_renderW _ _ _ fun e _ => by
      rw [toString_toList]; exact ⟨readNat_toDigits _, toDigits_ne _ _ rfl, toDigits_ne _ _ rfl⟩) envs states
    (fun k s => C21_decm R f.x f.y f.b_out f.b_in hy (envs k) (henv k) (some s) (states k)) N _ dir

/-- C24: the text written for an edge list determines it: parsing gives the list back. -/
theorem C24_parse (es : List (ℕ × ℕ)) : parse (render es) = some es := parse_render es

/-- C24: the same for integer weights. -/
theorem C24_parse_integer_weights (es : List (ℕ × ℕ × ℕ)) : parseW readNat (renderW toString es) = some es :=
  parseW_renderW _ _ _ fun e _ => by rw [toString_toList]; exact ⟨readNat_toDigits _, toDigits_ne _ _ rfl, toDigits_ne _ _ rfl⟩

/-- C24: the same for real weights, for any number format that contains no separator and can be read back exactly. -/
theorem C24_parse_real_weights (fmt : ℝ → String) (rd : List Char → Option ℝ) (es : List (ℕ × ℕ × ℝ))
    (hfmt : ∀ e ∈ es, rd (fmt e.2.2).toList = some e.2.2 ∧ ' ' ∉ (fmt e.2.2).toList ∧ '\n' ∉ (fmt e.2.2).toList) :
    parseW rd (renderW fmt es) = some es := parseW_renderW _ _ _ fun _ h => hfmt _ h

/-- C24: the file of a sampled undirected graph in which every node has a link, parsed and handed to `build_adjacency_from_edgelist`, gives the adjacency matrix
of the sampled graph. -/
theorem C24_undirected_roundtrip (es : List (ℕ × ℕ)) (hes : SimpleEdges n es) (hcov : ∀ k, k < n → ∃ e ∈ es, e.1 = k ∨ e.2 = k) :
    ∃ el, parse (render es) = some el ∧ Net.build_adjacency_from_edgelist (.binary el) false false false =
      .ok ⟨n, fun i j => if (i.val, j.val) ∈ es ∨ (j.val, i.val) ∈ es then 1 else 0⟩ := by
  refine ⟨es, parse_render es, ?_⟩
  rw [Net.C25_binary (n := n)]
  · simp
  · intro k
    refine ⟨hcov k, ?_⟩
    rintro ⟨e, he, rfl | rfl⟩
    · have := hes.range e he; omega
    · have := hes.range e he; omega

/-- C24: the same for digraphs. -/
theorem C24_directed_roundtrip (es : List (ℕ × ℕ)) (hes : SimpleArcs n es) (hcov : ∀ k, k < n → ∃ e ∈ es, e.1 = k ∨ e.2 = k) :
    ∃ el, parse (render es) = some el ∧ Net.build_adjacency_from_edgelist (.binary el) true false false =
      .ok ⟨n, fun i j => if (i.val, j.val) ∈ es then 1 else 0⟩ := by
  refine ⟨es, parse_render es, ?_⟩
  rw [Net.C25_binary (n := n)]
  · simp
  · intro k
    refine ⟨hcov k, ?_⟩
    rintro ⟨e, he, rfl | rfl⟩
    · exact (hes.range e he).1
    · exact (hes.range e he).2.1

/-- C24: if some node has no link, the matrix read back does not have the size of the network: either the builder writes out of range or it returns a smaller
matrix. -/
theorem C24_isolated_node_lost (es : List (ℕ × ℕ)) (hes : SimpleEdges n es) (k : ℕ) (hk : k < n) (hiso : ∀ e ∈ es, e.1 ≠ k ∧ e.2 ≠ k) :
    ∃ el, parse (render es) = some el ∧
      ((∃ m, m.n < n ∧ Net.build_adjacency_from_edgelist (.binary el) false false false = .ok m) ∨
        Net.build_adjacency_from_edgelist (.binary el) false false false = .error .outOfBounds) := by
  refine ⟨es, parse_render es, ?_⟩
  by_cases h : ∃ m, ∀ k, k < m ↔ ∃ e ∈ es, e.1 = k ∨ e.2 = k
  · left
    obtain ⟨m, hm⟩ := h
    refine ⟨_, ?_, Net.C25_binary es false hm⟩
    show m < n
    by_contra hlt
    obtain ⟨e, he, hh⟩ := (hm k).1 (by omega)
    rcases hh with hh | hh
    · exact (hiso e he).1 hh
    · exact (hiso e he).2 hh
  · right
    exact (Net.C25_succeeds_iff es false).2 h

/-- a sampled path on three nodes, and a sampled graph with an isolated node -/
example : SimpleEdges 3 [(0, 1), (1, 2)] ∧ (∀ k, k < 3 → ∃ e ∈ ([(0, 1), (1, 2)] : List (ℕ × ℕ)), e.1 = k ∨ e.2 = k) ∧
    SimpleEdges 3 [(1, 2)] ∧ (∀ e ∈ ([(1, 2)] : List (ℕ × ℕ)), e.1 ≠ 0 ∧ e.2 ≠ 0) := by
  refine ⟨⟨by decide, by simp [LexLt], by decide⟩, ?_, ⟨by decide, by simp, by decide⟩, by decide⟩
  intro k hk
  have : k = 0 ∨ k = 1 ∨ k = 2 := by omega
  rcases this with rfl | rfl | rfl <;> simp

end Verif.Sampler
