import Verif.Props.SampleAfter

/-! C80 for directed graphs. -/

namespace Verif.Sampler

open Verif Verif.Solve Verif.Spec

variable {R : Rng} {n : ℕ}

/-- the attributes the sampler reads -/
def SameD {d : DData n} (g g' : DAttr d) : Prop :=
  g.last_model = g'.last_model ∧ g.x = g'.x ∧ g.y = g'.y ∧ g.b_out = g'.b_out ∧ g.b_in = g'.b_in ∧ g.adjacency_crema = g'.adjacency_crema ∧
    g.adjacency_given = g'.adjacency_given

theorem SameD.trans {d : DData n} {a b c : DAttr d} (h : SameD a b) (h' : SameD b c) : SameD a c := by
  obtain ⟨h1, h2, h3, h4, h5, h6, h7⟩ := h
  obtain ⟨k1, k2, k3, k4, k5, k6, k7⟩ := h'
  exact ⟨h1.trans k1, h2.trans k2, h3.trans k3, h4.trans k4, h5.trans k5, h6.trans k6, h7.trans k7⟩

variable [NeZero n]

theorem degreeErrorD_same {d : DData n} (g : DAttr d) : SameD (degreeErrorD g) g := by
  unfold degreeErrorD
  split <;> exact ⟨rfl, rfl, rfl, rfl, rfl, rfl, rfl⟩

theorem strengthErrorD_same {d : DData n} (g : DAttr d) : SameD (strengthErrorD g).1 g := by
  unfold strengthErrorD
  split
  · split
    · exact ⟨rfl, rfl, rfl, rfl, rfl, rfl, rfl⟩
    · dsimp only
      split
      · split
        · exact ⟨rfl, rfl, rfl, rfl, rfl, rfl, rfl⟩
        · exact ⟨rfl, rfl, rfl, rfl, rfl, rfl, rfl⟩
        · split <;> exact ⟨rfl, rfl, rfl, rfl, rfl, rfl, rfl⟩
      · split
        · exact ⟨rfl, rfl, rfl, rfl, rfl, rfl, rfl⟩
        · exact ⟨rfl, rfl, rfl, rfl, rfl, rfl, rfl⟩
        · split <;> exact ⟨rfl, rfl, rfl, rfl, rfl, rfl, rfl⟩
      · exact ⟨rfl, rfl, rfl, rfl, rfl, rfl, rfl⟩
  · exact ⟨rfl, rfl, rfl, rfl, rfl, rfl, rfl⟩

theorem solutionErrorD_same {d : DData n} (g : DAttr d) : SameD (solutionErrorD g).1 g := by
  unfold solutionErrorD
  split_ifs
  · exact (strengthErrorD_same _).trans (degreeErrorD_same g)
  · dsimp only
    split <;> exact ⟨rfl, rfl, rfl, rfl, rfl, rfl, rfl⟩
  · exact ⟨rfl, rfl, rfl, rfl, rfl, rfl, rfl⟩

theorem finishD_same {d : DData n} (r : DResult d) (h : (Solve.finishD r).exc = none) : r.exc = none ∧ SameD (Solve.finishD r).g r.g := by
  revert h
  unfold Solve.finishD
  cases hr : r.exc with
  | some x => intro h; simp [hr] at h
  | none => exact fun _ => ⟨rfl, solutionErrorD_same _⟩

theorem plainD_same (e : Solve.Env) {d : DData n} (g : DAttr d) (model method : String) (hm : model = "dcm" ∨ model = "dcm_exp" ∨ model = "decm" ∨ model = "decm_exp")
    (guess : DGuess n) (adj : AdjSpec n) (ma : String) (ga : DGuess n) (p : Params) (h : (solve_tool_directed e g model method guess adj ma ga p).exc = none) :
    (solveProblemD e g model method guess p).2.1 = none ∧ SameD (solve_tool_directed e g model method guess adj ma ga p).g (solveProblemD e g model method guess p).1 := by
  rw [solve_tool_plain_finishD e g model method hm] at h ⊢
  exact finishD_same _ h

theorem crema_namesD (b : Bool) : ¬ ("crema" = "dcm" ∨ "crema" = "dcm_exp") ∧ ¬ ("crema" = "decm" ∨ "crema" = "decm_exp") ∧ ¬ ("crema-sparse" = "dcm" ∨ "crema-sparse" = "dcm_exp") ∧
    ¬ ("crema-sparse" = "decm" ∨ "crema-sparse" = "decm_exp") ∧ ¬ "crema-sparse" = "crema" := by decide

theorem samplerD_dcm {d : DData n} {g : DAttr d} {m : String} (hm : m = "dcm" ∨ m = "dcm_exp") (hl : g.last_model = some m) {x y : Fin n → ℝ} (hx : g.x = some x)
    (hy : g.y = some y)
    (N : ℕ) (dir : String) (seed : Option ℕ) (entropy : R.S) (fmt : ℝ → String) (envs : ℕ → Env R) (states : ℕ → R.S) (fs : List (String × String)) :
    samplerD R g N dir seed entropy fmt envs states = .ok fs ↔
      Directory fs dir (drawSeeds R N (reseed R seed entropy)).1 (fun k s => dcm_edges R x y (envs k) (some s) (states k)) render := by
  unfold samplerD viewD
  simp only [hl, hx, hy, Option.getD_some]
  rw [if_pos hm]
  dsimp only [ensemble_sampler_directed]
  rw [if_pos hm]
  exact fileLoop_iff _ _ _ _ _ _ _

theorem samplerD_decm {d : DData n} {g : DAttr d} {m : String} (hm : m = "decm" ∨ m = "decm_exp") (hl : g.last_model = some m) {x y bo bi : Fin n → ℝ} (hx : g.x = some x)
    (hy : g.y = some y) (ho : g.b_out = some bo) (hi : g.b_in = some bi)
    (N : ℕ) (dir : String) (seed : Option ℕ) (entropy : R.S) (fmt : ℝ → String) (envs : ℕ → Env R) (states : ℕ → R.S) (fs : List (String × String)) :
    samplerD R g N dir seed entropy fmt envs states = .ok fs ↔
      Directory fs dir (drawSeeds R N (reseed R seed entropy)).1 (fun k s => decm_edges R x y bo bi (envs k) (some s) (states k)) (renderW toString) := by
  have h0 : ¬ (m = "dcm" ∨ m = "dcm_exp") := by rcases hm with rfl | rfl <;> decide
  unfold samplerD viewD
  simp only [hl, hx, hy, ho, hi, Option.getD_some]
  rw [if_neg h0, if_pos hm]
  dsimp only [ensemble_sampler_directed]
  rw [if_neg h0, if_pos hm]
  exact fileLoop_iff _ _ _ _ _ _ _

theorem samplerD_crema {d : DData n} {g : DAttr d} (hl : g.last_model = some "crema") {bo bi : Fin n → ℝ} (ho : g.b_out = some bo) (hi : g.b_in = some bi)
    {l : List (Fin n × Fin n × ℝ)} (ha : g.adjacency_crema = some (.edges l)) {given : Bool} (hg : g.adjacency_given = some given)
    (N : ℕ) (dir : String) (seed : Option ℕ) (entropy : R.S) (fmt : ℝ → String) (envs : ℕ → Env R) (states : ℕ → R.S) (fs : List (String × String)) :
    samplerD R g N dir seed entropy fmt envs states = .ok fs ↔
      Directory fs dir (drawSeeds R N (reseed R seed entropy)).1
        (fun k s => if given then crema_det_edges R bo bi (l.map fun t => (t.1, t.2.1)) (envs k) (some s) (states k)
          else crema_prob_edges R bo bi l (envs k) (some s) (states k)) (renderW fmt) := by
  obtain ⟨c1, c2, -⟩ := crema_namesD true
  unfold samplerD viewD
  simp only [hl, ho, hi, ha, hg, Option.getD_some]
  rw [if_neg c1, if_neg c2]; first | rw [if_pos rfl] | rw [if_pos trivial]
  dsimp only [ensemble_sampler_directed]
  rw [if_neg c1, if_neg c2]; first | rw [if_pos rfl] | rw [if_pos trivial]
  cases given
  · exact fileLoop_iff _ _ _ _ _ _ _
  · exact fileLoop_iff _ _ _ _ _ _ _

theorem samplerD_sparse {d : DData n} {g : DAttr d} (hl : g.last_model = some "crema-sparse") {bo bi : Fin n → ℝ} (ho : g.b_out = some bo) (hi : g.b_in = some bi)
    {x y : Fin n → ℝ} (ha : g.adjacency_crema = some (.fitness x y)) (hg : g.adjacency_given = some false)
    (N : ℕ) (dir : String) (seed : Option ℕ) (entropy : R.S) (fmt : ℝ → String) (envs : ℕ → Env R) (states : ℕ → R.S) (fs : List (String × String)) :
    samplerD R g N dir seed entropy fmt envs states = .ok fs ↔
      Directory fs dir (drawSeeds R N (reseed R seed entropy)).1
        (fun k s => crema_sparse_prob_edges R bo bi x y (envs k) (some s) (states k)) (renderW fmt) := by
  obtain ⟨-, -, c1, c2, c3⟩ := crema_namesD true
  unfold samplerD viewD
  simp only [hl, ho, hi, ha, hg, Option.getD_some]
  rw [if_neg c1, if_neg c2, if_neg c3]; first | rw [if_pos rfl] | rw [if_pos trivial]
  dsimp only [ensemble_sampler_directed]
  rw [if_neg c1, if_neg c2, if_neg c3]; (first | rw [if_pos rfl] | rw [if_pos trivial]); rw [if_pos (by decide)]
  exact fileLoop_iff _ _ _ _ _ _ _

theorem dcrema_matrix_attrs (e : Solve.Env) {d : DData n} (g : DAttr d) (model method : String) (hm : model = "crema" ∨ model = "crema-sparse") (guess : DGuess n)
    (a : Fin n → Fin n → ℝ) (ma : String) (ga : DGuess n) (p : Params) (h : (solve_tool_directed e g model method guess (.matrix a) ma ga p).exc = none) :
    let S := solve_tool_directed e g model method guess (.matrix a) ma ga p
    ∃ bo bi, S.g.b_out = some bo ∧ S.g.b_in = some bi ∧ S.g.last_model = some model ∧ S.g.adjacency_given = some true ∧ S.g.adjacency_crema = some (.edges (nzEdges a)) := by
  intro S
  have hS : S = _ := solve_tool_crema_finishD e g model method hm guess (.matrix a) ma ga p
  rw [solve_tool_crema_finishD e g model method hm] at h
  obtain ⟨h1, s1, s2, s3, s4, s5, s6, s7⟩ := finishD_same _ h
  rw [hS, s1, s4, s5, s6, s7]
  unfold solveProblemDCrema at h1 ⊢
  dsimp only at h1 ⊢
  obtain ⟨-, -, -, -, -, -, t1, t2, t3, t4⟩ := dcremaTail_memoryless e
    { g with is_sparse := false, adjacency_crema := some (.edges (nzEdges a)), adjacency_given := some true }
    { g with is_sparse := false, adjacency_crema := some (.edges (nzEdges a)), adjacency_given := some true } (.edges (nzEdges a)) model method guess p rfl
  obtain ⟨-, t5, -, t6, -⟩ := t4 h1
  obtain ⟨bo, ho⟩ := Option.ne_none_iff_exists'.1 t5
  obtain ⟨bi, hi⟩ := Option.ne_none_iff_exists'.1 t6
  exact ⟨bo, bi, ho, hi, t3, t2, t1⟩

theorem dcrema_name_attrs (e : Solve.Env) {d : DData n} (g : DAttr d) (model method : String) (hm : model = "crema" ∨ model = "crema-sparse") (guess : DGuess n)
    (a : String) (ha : a = "dcm" ∨ a = "dcm_exp") (ma : String) (ga : DGuess n) (p : Params)
    (h : (solve_tool_directed e g model method guess (.name a) ma ga p).exc = none) :
    let S := solve_tool_directed e g model method guess (.name a) ma ga p
    ∃ x y bo bi, S.g.x = some x ∧ S.g.y = some y ∧ S.g.b_out = some bo ∧ S.g.b_in = some bi ∧ S.g.last_model = some model ∧ S.g.adjacency_given = some false ∧
      S.g.adjacency_crema = some (if model = "crema-sparse" then .fitness x y else .edges (nzEdges (d.pmat x y))) := by
  intro S
  have hS : S = _ := solve_tool_crema_finishD e g model method hm guess (.name a) ma ga p
  rw [solve_tool_crema_finishD e g model method hm] at h
  obtain ⟨h1, s1, s2, s3, s4, s5, s6, s7⟩ := finishD_same _ h
  rw [hS, s1, s2, s3, s4, s5, s6, s7]
  unfold solveProblemDCrema at h1 ⊢
  dsimp only at h1 ⊢
  obtain ⟨-, -, -, m1, m2, m3, -, -, m4⟩ := solveProblemD_memoryless e.inner { g with is_sparse := decide (model = "crema-sparse") }
    { g with is_sparse := decide (model = "crema-sparse") } a ma ga { p with linsearch := true }
  generalize hr : solveProblemD e.inner { g with is_sparse := decide (model = "crema-sparse") } a ma ga { p with linsearch := true } = r at h1 m1 m2 m3 m4 ⊢
  obtain ⟨G, ex, ga'⟩ := r
  cases ex with
  | some x => cases h1
  | none =>
    obtain ⟨-, n1, -, n3, -, -, -, -, -, n2⟩ := m4 rfl
    obtain ⟨x, hx⟩ := Option.ne_none_iff_exists'.1 n1
    obtain ⟨y, hy⟩ := Option.ne_none_iff_exists'.1 n3
    have hf := (n2 ha).1
    dsimp only at h1 hx hy hf m1 ⊢
    rw [hx, hy] at h1 ⊢
    dsimp only at h1 ⊢
    rw [m1] at h1 ⊢
    rcases hm with rfl | rfl
    · rw [if_neg (by decide), if_pos hf] at h1 ⊢
      simp only [if_neg (show ¬ "crema" = "crema-sparse" by decide)]
      obtain ⟨-, -, -, t0, t0', -, t1, t2, t3, t4⟩ := dcremaTail_memoryless e
        { G with x := some x, y := some y, adjacency_crema := some (.edges (nzEdges (d.pmat x y))), is_sparse := false, adjacency_given := some false }
        { G with x := some x, y := some y, adjacency_crema := some (.edges (nzEdges (d.pmat x y))), is_sparse := false, adjacency_given := some false }
        (.edges (nzEdges (d.pmat x y))) "crema" method guess p rfl
      obtain ⟨-, t5, -, t6, -⟩ := t4 h1
      obtain ⟨bo, ho⟩ := Option.ne_none_iff_exists'.1 t5
      obtain ⟨bi, hi⟩ := Option.ne_none_iff_exists'.1 t6
      exact ⟨x, y, bo, bi, t0, t0', ho, hi, t3, t2, t1⟩
    · rw [if_pos (by decide)] at h1 ⊢
      simp only [if_true]
      obtain ⟨-, -, -, t0, t0', -, t1, t2, t3, t4⟩ := dcremaTail_memoryless e
        { G with x := some x, y := some y, adjacency_crema := some (.fitness x y), adjacency_given := some false, is_sparse := decide ("crema-sparse" = "crema-sparse") }
        { G with x := some x, y := some y, adjacency_crema := some (.fitness x y), adjacency_given := some false, is_sparse := decide ("crema-sparse" = "crema-sparse") }
        (.fitness x y) "crema-sparse" method guess p rfl
      obtain ⟨-, t5, -, t6, -⟩ := t4 h1
      obtain ⟨bo, ho⟩ := Option.ne_none_iff_exists'.1 t5
      obtain ⟨bi, hi⟩ := Option.ne_none_iff_exists'.1 t6
      refine ⟨x, y, bo, bi, t0, t0', ho, hi, t3.trans ?_, t2, t1⟩
      split_ifs <;> rfl

/-! ### C80, directed -/

/-- C80: after a call of `solve_tool` for `dcm` or `dcm_exp` that returned, every sampled network is drawn by the directed configuration model at the fitnesses this
call has found; nothing the object went through before matters for them. -/
theorem C80_dcm (e : Solve.Env) {d : DData n} (g : DAttr d) (model method : String) (hm : model = "dcm" ∨ model = "dcm_exp") (guess : DGuess n) (adj : AdjSpec n)
    (ma : String) (ga : DGuess n) (p : Params) :
    let S := solve_tool_directed e g model method guess adj ma ga p
    S.exc = none → ∃ x y, S.g.x = some x ∧ S.g.y = some y ∧
      (∀ g' : DAttr d, (solve_tool_directed e g' model method guess adj ma ga p).exc = none →
        (solve_tool_directed e g' model method guess adj ma ga p).g.x = some x ∧ (solve_tool_directed e g' model method guess adj ma ga p).g.y = some y) ∧
      ∀ (N : ℕ) (dir : String) (seed : Option ℕ) (entropy : R.S) (fmt : ℝ → String) (envs : ℕ → Env R) (states : ℕ → R.S) (fs : List (String × String)),
        samplerD R S.g N dir seed entropy fmt envs states = .ok fs ↔
          Directory fs dir (drawSeeds R N (reseed R seed entropy)).1 (fun k s => dcm_edges R x y (envs k) (some s) (states k)) render := by
  intro S h
  have hm' : model = "dcm" ∨ model = "dcm_exp" ∨ model = "decm" ∨ model = "decm_exp" := hm.imp_right Or.inl
  obtain ⟨-, s1, -⟩ := plainD_same e g model method hm' guess adj ma ga p h
  obtain ⟨-, -, -, -, -, -, l, -⟩ := solveProblemD_memoryless e g g model method guess p
  obtain ⟨-, -, c, -⟩ := C58_dcm e g g model method hm guess adj ma ga p
  obtain ⟨-, c1, -, c2, -⟩ := c h h
  obtain ⟨x, hx⟩ := Option.ne_none_iff_exists'.1 c1
  obtain ⟨y, hy⟩ := Option.ne_none_iff_exists'.1 c2
  refine ⟨x, y, hx, hy, fun g' h' => ?_, fun N dir seed entropy fmt envs states fs => samplerD_dcm hm (s1.trans l) hx hy N dir seed entropy fmt envs states fs⟩
  obtain ⟨-, -, c', -⟩ := C58_dcm e g' g model method hm guess adj ma ga p
  obtain ⟨d1, -, d2, -⟩ := c' h' h
  exact ⟨d1.trans hx, d2.trans hy⟩

/-- C80: the same after `decm` or `decm_exp`. -/
theorem C80_decm (e : Solve.Env) {d : DData n} (g : DAttr d) (model method : String) (hm : model = "decm" ∨ model = "decm_exp") (guess : DGuess n) (adj : AdjSpec n)
    (ma : String) (ga : DGuess n) (p : Params) :
    let S := solve_tool_directed e g model method guess adj ma ga p
    S.exc = none → ∃ x y bo bi, S.g.x = some x ∧ S.g.y = some y ∧ S.g.b_out = some bo ∧ S.g.b_in = some bi ∧
      (∀ g' : DAttr d, let S' := solve_tool_directed e g' model method guess adj ma ga p
        S'.g.x = some x ∧ S'.g.y = some y ∧ S'.g.b_out = some bo ∧ S'.g.b_in = some bi) ∧
      ∀ (N : ℕ) (dir : String) (seed : Option ℕ) (entropy : R.S) (fmt : ℝ → String) (envs : ℕ → Env R) (states : ℕ → R.S) (fs : List (String × String)),
        samplerD R S.g N dir seed entropy fmt envs states = .ok fs ↔
          Directory fs dir (drawSeeds R N (reseed R seed entropy)).1 (fun k s => decm_edges R x y bo bi (envs k) (some s) (states k)) (renderW toString) := by
  intro S h
  have hm' : model = "dcm" ∨ model = "dcm_exp" ∨ model = "decm" ∨ model = "decm_exp" := Or.inr (Or.inr hm)
  obtain ⟨-, s1, -⟩ := plainD_same e g model method hm' guess adj ma ga p h
  obtain ⟨-, -, -, -, -, -, l, -⟩ := solveProblemD_memoryless e g g model method guess p
  obtain ⟨-, -, c⟩ := C58_decm e g g model method hm guess adj ma ga p
  obtain ⟨-, c1, -, c2, -, c3, -, c4, -⟩ := c h
  obtain ⟨x, hx⟩ := Option.ne_none_iff_exists'.1 c1
  obtain ⟨y, hy⟩ := Option.ne_none_iff_exists'.1 c2
  obtain ⟨bo, ho⟩ := Option.ne_none_iff_exists'.1 c3
  obtain ⟨bi, hi⟩ := Option.ne_none_iff_exists'.1 c4
  refine ⟨x, y, bo, bi, hx, hy, ho, hi, fun g' => ?_, fun N dir seed entropy fmt envs states fs =>
    samplerD_decm hm (s1.trans l) hx hy ho hi N dir seed entropy fmt envs states fs⟩
  obtain ⟨-, -, c'⟩ := C58_decm e g g' model method hm guess adj ma ga p
  obtain ⟨d1, -, d2, -, d3, -, d4, -⟩ := c' h
  exact ⟨d1.symm.trans hx, d2.symm.trans hy, d3.symm.trans ho, d4.symm.trans hi⟩

/-- C80: after directed `crema` on the link probabilities of a binary model solved in the same call. -/
theorem C80_dcrema (e : Solve.Env) {d : DData n} (g : DAttr d) (method : String) (guess : DGuess n) (a : String) (ha : a = "dcm" ∨ a = "dcm_exp")
    (ma : String) (ga : DGuess n) (p : Params) :
    let S := solve_tool_directed e g "crema" method guess (.name a) ma ga p
    S.exc = none → ∃ x y bo bi, S.g.x = some x ∧ S.g.y = some y ∧ S.g.b_out = some bo ∧ S.g.b_in = some bi ∧
      (∀ g' : DAttr d, let S' := solve_tool_directed e g' "crema" method guess (.name a) ma ga p
        S'.g.x = some x ∧ S'.g.y = some y ∧ S'.g.b_out = some bo ∧ S'.g.b_in = some bi) ∧
      ∀ (N : ℕ) (dir : String) (seed : Option ℕ) (entropy : R.S) (fmt : ℝ → String) (envs : ℕ → Env R) (states : ℕ → R.S) (fs : List (String × String)),
        samplerD R S.g N dir seed entropy fmt envs states = .ok fs ↔
          Directory fs dir (drawSeeds R N (reseed R seed entropy)).1
            (fun k s => crema_prob_edges R bo bi (nzEdges (d.pmat x y)) (envs k) (some s) (states k)) (renderW fmt) := by
  intro S h
  obtain ⟨x, y, bo, bi, hx, hy, ho, hi, hl, hg, hc⟩ := dcrema_name_attrs e g "crema" method (.inl rfl) guess a ha ma ga p h
  rw [if_neg (by decide)] at hc
  refine ⟨x, y, bo, bi, hx, hy, ho, hi, fun g' => ?_, fun N dir seed entropy fmt envs states fs => samplerD_crema hl ho hi hc hg N dir seed entropy fmt envs states fs⟩
  obtain ⟨-, -, -, c⟩ := C58_dcrema e g g' "crema" method (.inl rfl) guess (.name a) (by rcases ha with rfl | rfl <;> simp) ma ga p
  obtain ⟨c1, -, c2, -, -, -, -, -, -, -, -, -, -, -, c3⟩ := c h
  obtain ⟨c4, c5, -⟩ := c3 ⟨a, rfl⟩
  exact ⟨c4.symm.trans hx, c5.symm.trans hy, c1.symm.trans ho, c2.symm.trans hi⟩

/-- C80: after directed `crema` on a given adjacency matrix, every sampled network has exactly the arcs of that matrix, with weights at the rates of the call. -/
theorem C80_dcrema_given (e : Solve.Env) {d : DData n} (g : DAttr d) (method : String) (guess : DGuess n) (a : Fin n → Fin n → ℝ)
    (ma : String) (ga : DGuess n) (p : Params) :
    let S := solve_tool_directed e g "crema" method guess (.matrix a) ma ga p
    S.exc = none → ∃ bo bi, S.g.b_out = some bo ∧ S.g.b_in = some bi ∧
      (∀ g' : DAttr d, let S' := solve_tool_directed e g' "crema" method guess (.matrix a) ma ga p
        S'.g.b_out = some bo ∧ S'.g.b_in = some bi) ∧
      ∀ (N : ℕ) (dir : String) (seed : Option ℕ) (entropy : R.S) (fmt : ℝ → String) (envs : ℕ → Env R) (states : ℕ → R.S) (fs : List (String × String)),
        samplerD R S.g N dir seed entropy fmt envs states = .ok fs ↔
          Directory fs dir (drawSeeds R N (reseed R seed entropy)).1
            (fun k s => crema_det_edges R bo bi ((nzEdges a).map fun t => (t.1, t.2.1)) (envs k) (some s) (states k)) (renderW fmt) := by
  intro S h
  obtain ⟨bo, bi, ho, hi, hl, hg, hc⟩ := dcrema_matrix_attrs e g "crema" method (.inl rfl) guess a ma ga p h
  refine ⟨bo, bi, ho, hi, fun g' => ?_, fun N dir seed entropy fmt envs states fs => samplerD_crema hl ho hi hc hg N dir seed entropy fmt envs states fs⟩
  obtain ⟨-, -, -, c⟩ := C58_dcrema e g g' "crema" method (.inl rfl) guess (.matrix a) (.inr (.inl ⟨a, rfl⟩)) ma ga p
  obtain ⟨c1, -, c2, -⟩ := c h
  exact ⟨c1.symm.trans ho, c2.symm.trans hi⟩

/-- C80: after directed `crema-sparse` on a binary model solved in the same call. -/
theorem C80_dcrema_sparse (e : Solve.Env) {d : DData n} (g : DAttr d) (method : String) (guess : DGuess n) (a : String) (ha : a = "dcm" ∨ a = "dcm_exp")
    (ma : String) (ga : DGuess n) (p : Params) :
    let S := solve_tool_directed e g "crema-sparse" method guess (.name a) ma ga p
    S.exc = none → ∃ x y bo bi, S.g.x = some x ∧ S.g.y = some y ∧ S.g.b_out = some bo ∧ S.g.b_in = some bi ∧
      (∀ g' : DAttr d, let S' := solve_tool_directed e g' "crema-sparse" method guess (.name a) ma ga p
        S'.g.x = some x ∧ S'.g.y = some y ∧ S'.g.b_out = some bo ∧ S'.g.b_in = some bi) ∧
      ∀ (N : ℕ) (dir : String) (seed : Option ℕ) (entropy : R.S) (fmt : ℝ → String) (envs : ℕ → Env R) (states : ℕ → R.S) (fs : List (String × String)),
        samplerD R S.g N dir seed entropy fmt envs states = .ok fs ↔
          Directory fs dir (drawSeeds R N (reseed R seed entropy)).1
            (fun k s => crema_sparse_prob_edges R bo bi x y (envs k) (some s) (states k)) (renderW fmt) := by
  intro S h
  obtain ⟨x, y, bo, bi, hx, hy, ho, hi, hl, hg, hc⟩ := dcrema_name_attrs e g "crema-sparse" method (.inr rfl) guess a ha ma ga p h
  rw [if_pos rfl] at hc
  refine ⟨x, y, bo, bi, hx, hy, ho, hi, fun g' => ?_, fun N dir seed entropy fmt envs states fs => samplerD_sparse hl ho hi hc hg N dir seed entropy fmt envs states fs⟩
  obtain ⟨-, -, -, c⟩ := C58_dcrema e g g' "crema-sparse" method (.inr rfl) guess (.name a) (by rcases ha with rfl | rfl <;> simp) ma ga p
  obtain ⟨c1, -, c2, -, -, -, -, -, -, -, -, -, -, -, c3⟩ := c h
  obtain ⟨c4, c5, -⟩ := c3 ⟨a, rfl⟩
  exact ⟨c4.symm.trans hx, c5.symm.trans hy, c1.symm.trans ho, c2.symm.trans hi⟩

/-- C80 fails after a call that raised, directed: a `dcm` call refused because of its guess leaves `x` and `y` of whatever model was solved before (`decm`, say)
and only renames the model; the sampler then draws `dcm` networks at them. -/
theorem C80_failed_dcm_mixes (e : Solve.Env) {d : DData n} (g : DAttr d) {x y : Fin n → ℝ} (hx : g.x = some x) (hy : g.y = some y) (model method : String)
    (hm : model = "dcm" ∨ model = "dcm_exp") (adj : AdjSpec n) (ma : String) (ga : DGuess n) (p : Params) :
    let S := solve_tool_directed e g model method .other adj ma ga p
    S.exc = some (.py .typeError) ∧
      ∀ (N : ℕ) (dir : String) (seed : Option ℕ) (entropy : R.S) (fmt : ℝ → String) (envs : ℕ → Env R) (states : ℕ → R.S) (fs : List (String × String)),
        samplerD R S.g N dir seed entropy fmt envs states = .ok fs ↔
          Directory fs dir (drawSeeds R N (reseed R seed entropy)).1 (fun k s => dcm_edges R x y (envs k) (some s) (states k)) render := by
  intro S
  have hm' : model = "dcm" ∨ model = "dcm_exp" ∨ model = "decm" ∨ model = "decm_exp" := hm.imp_right Or.inl
  have hS : S = solve_tool_directed e g model method .other adj ma ga p := rfl
  simp only [solve_tool_directed, if_pos hm', solveProblemD, if_pos hm, guessDCM] at hS
  have l : S.g.last_model = some model := by rw [hS]
  have hx' : S.g.x = some x := by rw [hS]; exact hx
  have hy' : S.g.y = some y := by rw [hS]; exact hy
  exact ⟨by rw [hS], fun N dir seed entropy fmt envs states fs => samplerD_dcm hm l hx' hy' N dir seed entropy fmt envs states fs⟩

end Verif.Sampler
