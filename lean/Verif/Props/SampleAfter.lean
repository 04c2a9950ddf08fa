import Verif.Model.SamplerAttr
import Verif.Props.Sampler
import Verif.Props.Memory
import Verif.Spec.SampleAfter

/-! C80: `ensemble_sampler` draws from the model solved last, at the parameters found by the last call. -/

namespace Verif.Sampler

open Verif Verif.Solve Verif.Spec

variable {R : Rng} {n : ℕ}

theorem mapM_ok_iff {α β ε : Type} (f : α → Except ε β) (l : List α) (ys : List β) :
    l.mapM f = .ok ys ↔ ys.length = l.length ∧ ∀ (k : ℕ) a, l[k]? = some a → ∃ y, f a = .ok y ∧ ys[k]? = some y := by
  induction l generalizing ys with
  | nil =>
    constructor
    · intro h
      cases h
      simp
    · rintro ⟨h, -⟩
      rw [List.length_nil, List.length_eq_zero_iff] at h
      rw [h]; rfl
  | cons a l ih =>
    rw [List.mapM_cons]
    constructor
    · intro h
      cases ha : f a with
      | error x => rw [ha] at h; cases h
      | ok y =>
        rw [ha] at h
        cases hl : l.mapM f with
        | error x => rw [hl] at h; cases h
        | ok zs =>
          rw [hl] at h
          cases h
          obtain ⟨h1, h2⟩ := (ih zs).1 hl
          refine ⟨by simp [h1], ?_⟩
          rintro (_ | k) b hb
          · simp only [List.getElem?_cons_zero, Option.some.injEq] at hb
            exact ⟨y, hb ▸ ha, rfl⟩
          · exact h2 k b hb
    · rintro ⟨h1, h2⟩
      obtain ⟨y, hy, hy'⟩ := h2 0 a rfl
      cases ys with
      | nil => cases hy'
      | cons z zs =>
        simp only [List.getElem?_cons_zero, Option.some.injEq] at hy'
        subst hy'
        have := (ih zs).2 ⟨by simpa using h1, fun k b hb => h2 (k + 1) b hb⟩
        rw [hy, this]; rfl

/-- the loop over the files, as a whole -/
theorem fileLoop_iff {β : Type} (sampler : Env R → Option ℕ → R.S → Except Err (List β)) (txt : List β → String) (envs : ℕ → Env R) (states : ℕ → R.S)
    (s : List ℕ) (dir : String) (fs : List (String × String)) :
    (fileLoop R sampler txt envs states s).map (files dir) = .ok fs ↔
      Directory fs dir s (fun k sk => sampler (envs k) (some sk) (states k)) txt := by
  unfold fileLoop
  constructor
  · intro h
    cases hm : s.zipIdx.mapM (fun si => (sampler (envs si.2) (some si.1) (states si.2)).map txt) with
    | error x => rw [hm] at h; cases h
    | ok cs =>
      rw [hm] at h
      cases h
      obtain ⟨h1, h2⟩ := (mapM_ok_iff _ _ _).1 hm
      refine ⟨by unfold files; simpa using h1, fun k sk hk => ?_⟩
      obtain ⟨y, hy, hy'⟩ := h2 k (sk, k) (by rw [List.getElem?_zipIdx, hk]; simp)
      dsimp only at hy
      cases he : sampler (envs k) (some sk) (states k) with
      | error x => rw [he] at hy; cases hy
      | ok es =>
        rw [he] at hy
        cases hy
        exact ⟨es, he, by rw [files_get, hy']; rfl⟩
  · rintro ⟨h1, h2⟩
    have hm : s.zipIdx.mapM (fun si => (sampler (envs si.2) (some si.1) (states si.2)).map txt) = .ok (fs.map Prod.snd) := by
      refine (mapM_ok_iff _ _ _).2 ⟨by simp [h1], ?_⟩
      rintro k ⟨sk, k'⟩ hk
      rw [List.getElem?_zipIdx] at hk
      cases hs : s[k]? with
      | none => rw [hs] at hk; cases hk
      | some s' =>
        rw [hs] at hk
        simp only [Option.map_some, Nat.zero_add, Option.some.injEq, Prod.mk.injEq] at hk
        obtain ⟨rfl, rfl⟩ := hk
        obtain ⟨es, he, hf⟩ := h2 _ _ hs
        exact ⟨txt es, by dsimp only; rw [show sampler (envs k) (some s') (states k) = .ok es from he]; rfl, by rw [List.getElem?_map, hf]; rfl⟩
    rw [hm]
    show Except.ok (files dir (fs.map Prod.snd)) = .ok fs
    congr 1
    refine List.ext_getElem? fun k => ?_
    rw [files_get, List.getElem?_map]
    rcases Nat.lt_or_ge k s.length with hk | hk
    · obtain ⟨es, he, hf⟩ := h2 k _ (List.getElem?_eq_getElem hk)
      rw [hf]; rfl
    · rw [List.getElem?_eq_none (by omega : fs.length ≤ k)]; rfl

/-! ### the attributes a returned call leaves -/

/-- the attributes the sampler reads -/
def SameU {d : UData n} (g g' : UAttr d) : Prop :=
  g.last_model = g'.last_model ∧ g.x = g'.x ∧ g.y = g'.y ∧ g.beta = g'.beta ∧ g.adjacency_crema = g'.adjacency_crema ∧ g.adjacency_given = g'.adjacency_given

theorem SameU.trans {d : UData n} {a b c : UAttr d} (h : SameU a b) (h' : SameU b c) : SameU a c :=
  ⟨h.1.trans h'.1, h.2.1.trans h'.2.1, h.2.2.1.trans h'.2.2.1, h.2.2.2.1.trans h'.2.2.2.1, h.2.2.2.2.1.trans h'.2.2.2.2.1, h.2.2.2.2.2.trans h'.2.2.2.2.2⟩

variable [NeZero n]

theorem degreeError_same {d : UData n} (g : UAttr d) : SameU (degreeError g) g := by
  unfold degreeError
  split <;> exact ⟨rfl, rfl, rfl, rfl, rfl, rfl⟩

theorem strengthError_same (e : Solve.Env) {d : UData n} (g : UAttr d) : SameU (strengthError e g).1 g := by
  have r : SameU g g := ⟨rfl, rfl, rfl, rfl, rfl, rfl⟩
  unfold strengthError
  split
  · exact r
  · split
    · exact r
    · dsimp only
      split
      · split
        · exact ⟨rfl, rfl, rfl, rfl, rfl, rfl⟩
        · exact ⟨rfl, rfl, rfl, rfl, rfl, rfl⟩
        · split <;> exact ⟨rfl, rfl, rfl, rfl, rfl, rfl⟩
      · split
        · split
          · exact ⟨rfl, rfl, rfl, rfl, rfl, rfl⟩
          · exact ⟨rfl, rfl, rfl, rfl, rfl, rfl⟩
          · split <;> exact ⟨rfl, rfl, rfl, rfl, rfl, rfl⟩
        · exact r

theorem solutionError_same (e : Solve.Env) {d : UData n} (g : UAttr d) : SameU (solutionError e g).1 g := by
  unfold solutionError
  split_ifs
  · exact (strengthError_same e _).trans (degreeError_same g)
  · dsimp only
    split <;> exact ⟨rfl, rfl, rfl, rfl, rfl, rfl⟩
  · exact ⟨rfl, rfl, rfl, rfl, rfl, rfl⟩


theorem plain_same (e : Solve.Env) {d : UData n} (g : UAttr d) (model method : String) (hm : model = "cm" ∨ model = "cm_exp" ∨ model = "ecm" ∨ model = "ecm_exp")
    (guess : Guess n) (adj : AdjSpec n) (ma : String) (ga : Guess n) (p : Params) (h : (solve_tool e g model method guess adj ma ga p).exc = none) :
    (solveProblem e g model method guess p).2.1 = none ∧ SameU (solve_tool e g model method guess adj ma ga p).g (solveProblem e g model method guess p).1 := by
  revert h
  simp only [solve_tool, if_pos hm]
  cases hr : (solveProblem e g model method guess p).2.1 with
  | some x => intro h; cases h
  | none => exact fun _ => ⟨rfl, solutionError_same e _⟩

theorem viewU_cm {d : UData n} {g : UAttr d} {m : String} (hm : m = "cm" ∨ m = "cm_exp") (hl : g.last_model = some m) {x : Fin n → ℝ} (hx : g.x = some x) :
    ∃ f, viewU g = some f ∧ f.last_model = m ∧ f.x = x := by
  refine ⟨_, by unfold viewU; simp only [hl, hx, Option.getD_some]; rw [if_pos hm], rfl, rfl⟩

theorem viewU_ecm {d : UData n} {g : UAttr d} {m : String} (hm : m = "ecm" ∨ m = "ecm_exp") (hl : g.last_model = some m) {x y : Fin n → ℝ} (hx : g.x = some x)
    (hy : g.y = some y) : ∃ f, viewU g = some f ∧ f.last_model = m ∧ f.x = x ∧ f.y = y := by
  have h0 : ¬ (m = "cm" ∨ m = "cm_exp") := by rcases hm with rfl | rfl <;> decide
  refine ⟨_, by unfold viewU; simp only [hl, hx, hy, Option.getD_some]; rw [if_neg h0, if_pos hm], rfl, rfl, rfl⟩

theorem samplerU_cm {d : UData n} {g : UAttr d} {m : String} (hm : m = "cm" ∨ m = "cm_exp") (hl : g.last_model = some m) {x : Fin n → ℝ} (hx : g.x = some x)
    (N : ℕ) (dir : String) (seed : Option ℕ) (entropy : R.S) (fmt : ℝ → String) (envs : ℕ → Env R) (states : ℕ → R.S) (fs : List (String × String)) :
    samplerU R g N dir seed entropy fmt envs states = .ok fs ↔
      Directory fs dir (drawSeeds R N (reseed R seed entropy)).1 (fun k s => cm_edges R x (envs k) (some s) (states k)) render := by
  obtain ⟨f, hf, h1, h2⟩ := viewU_cm hm hl hx
  unfold samplerU
  rw [hf]
  dsimp only [ensemble_sampler_undirected]
  rw [if_pos (h1 ▸ hm), h2]
  exact fileLoop_iff _ _ _ _ _ _ _

theorem samplerU_ecm {d : UData n} {g : UAttr d} {m : String} (hm : m = "ecm" ∨ m = "ecm_exp") (hl : g.last_model = some m) {x y : Fin n → ℝ} (hx : g.x = some x)
    (hy : g.y = some y)
    (N : ℕ) (dir : String) (seed : Option ℕ) (entropy : R.S) (fmt : ℝ → String) (envs : ℕ → Env R) (states : ℕ → R.S) (fs : List (String × String)) :
    samplerU R g N dir seed entropy fmt envs states = .ok fs ↔
      Directory fs dir (drawSeeds R N (reseed R seed entropy)).1 (fun k s => ecm_edges R x y (envs k) (some s) (states k)) (renderW toString) := by
  have h0 : ¬ (m = "cm" ∨ m = "cm_exp") := by rcases hm with rfl | rfl <;> decide
  obtain ⟨f, hf, h1, h2, h3⟩ := viewU_ecm hm hl hx hy
  unfold samplerU
  rw [hf]
  dsimp only [ensemble_sampler_undirected]
  rw [if_neg (h1 ▸ h0), if_pos (h1 ▸ hm), h2, h3]
  exact fileLoop_iff _ _ _ _ _ _ _

theorem crema_names (b : Bool) : ¬ ("crema" = "cm" ∨ "crema" = "cm_exp") ∧ ¬ ("crema" = "ecm" ∨ "crema" = "ecm_exp") ∧ ¬ ("crema-sparse" = "cm" ∨ "crema-sparse" = "cm_exp") ∧
    ¬ ("crema-sparse" = "ecm" ∨ "crema-sparse" = "ecm_exp") ∧ ¬ "crema-sparse" = "crema" := by decide

/-- an object whose last model is `crema`, on a given topology or on link probabilities -/
theorem samplerU_crema {d : UData n} {g : UAttr d} (hl : g.last_model = some "crema") {b : Fin n → ℝ} (hb : g.beta = some b) {l : List (Fin n × Fin n × ℝ)}
    (ha : g.adjacency_crema = some (.edges l)) {given : Bool} (hg : g.adjacency_given = some given)
    (N : ℕ) (dir : String) (seed : Option ℕ) (entropy : R.S) (fmt : ℝ → String) (envs : ℕ → Env R) (states : ℕ → R.S) (fs : List (String × String)) :
    samplerU R g N dir seed entropy fmt envs states = .ok fs ↔
      Directory fs dir (drawSeeds R N (reseed R seed entropy)).1
        (fun k s => if given then crema_det_edges R b b (l.map fun t => (t.1, t.2.1)) (envs k) (some s) (states k)
          else crema_prob_edges R b b l (envs k) (some s) (states k)) (renderW fmt) := by
  obtain ⟨c1, c2, -⟩ := crema_names true
  unfold samplerU viewU
  simp only [hl, hb, ha, hg, Option.getD_some]
  rw [if_neg c1, if_neg c2]; first | rw [if_pos rfl] | rw [if_pos trivial]
  dsimp only [ensemble_sampler_undirected]
  rw [if_neg c1, if_neg c2]; first | rw [if_pos rfl] | rw [if_pos trivial]
  cases given
  · exact fileLoop_iff _ _ _ _ _ _ _
  · exact fileLoop_iff _ _ _ _ _ _ _

theorem samplerU_sparse {d : UData n} {g : UAttr d} (hl : g.last_model = some "crema-sparse") {b : Fin n → ℝ} (hb : g.beta = some b) {x : Fin n → ℝ}
    (ha : g.adjacency_crema = some (.fitness x)) (hg : g.adjacency_given = some false)
    (N : ℕ) (dir : String) (seed : Option ℕ) (entropy : R.S) (fmt : ℝ → String) (envs : ℕ → Env R) (states : ℕ → R.S) (fs : List (String × String)) :
    samplerU R g N dir seed entropy fmt envs states = .ok fs ↔
      Directory fs dir (drawSeeds R N (reseed R seed entropy)).1
        (fun k s => crema_sparse_prob_edges R b b x x (envs k) (some s) (states k)) (renderW fmt) := by
  obtain ⟨-, -, c1, c2, c3⟩ := crema_names true
  unfold samplerU viewU
  simp only [hl, hb, ha, hg, Option.getD_some]
  rw [if_neg c1, if_neg c2, if_neg c3]; first | rw [if_pos rfl] | rw [if_pos trivial]
  dsimp only [ensemble_sampler_undirected]
  rw [if_neg c1, if_neg c2, if_neg c3]; (first | rw [if_pos rfl] | rw [if_pos trivial]); rw [if_pos (by decide)]
  exact fileLoop_iff _ _ _ _ _ _ _

theorem finish_same (e : Solve.Env) {d : UData n} (r : UResult d) (h : (Solve.finish e r).exc = none) : r.exc = none ∧ SameU (Solve.finish e r).g r.g := by
  revert h
  unfold Solve.finish
  cases hr : r.exc with
  | some x => intro h; simp [hr] at h
  | none => exact fun _ => ⟨rfl, solutionError_same e _⟩

theorem crema_matrix_attrs (e : Solve.Env) {d : UData n} (g : UAttr d) (model method : String) (hm : model = "crema" ∨ model = "crema-sparse") (guess : Guess n)
    (a : Fin n → Fin n → ℝ) (ma : String) (ga : Guess n) (p : Params) (h : (solve_tool e g model method guess (.matrix a) ma ga p).exc = none) :
    let S := solve_tool e g model method guess (.matrix a) ma ga p
    ∃ b, S.g.beta = some b ∧ S.g.last_model = some model ∧ S.g.adjacency_given = some true ∧ S.g.adjacency_crema = some (.edges (triuEdges a)) := by
  intro S
  have hS : S = _ := solve_tool_crema_finish e g model method hm guess (.matrix a) ma ga p
  rw [solve_tool_crema_finish e g model method hm] at h
  obtain ⟨h1, s1, s2, s3, s4, s5, s6⟩ := finish_same e _ h
  rw [hS, s1, s4, s5, s6]
  unfold solveProblemCrema at h1 ⊢
  dsimp only at h1 ⊢
  obtain ⟨-, -, -, -, -, -, t1, t2, -, -, t3, t4⟩ := cremaTail_memoryless e
    { g with is_sparse := false, adjacency_crema := some (.edges (triuEdges a)), adjacency_given := some true }
    { g with is_sparse := false, adjacency_crema := some (.edges (triuEdges a)), adjacency_given := some true } (.edges (triuEdges a)) model method guess p rfl
  obtain ⟨-, t5, -⟩ := t4 h1
  obtain ⟨b, hb⟩ := Option.ne_none_iff_exists'.1 t5
  exact ⟨b, hb, t3, t2, t1⟩

theorem crema_name_attrs (e : Solve.Env) {d : UData n} (g : UAttr d) (model method : String) (hm : model = "crema" ∨ model = "crema-sparse") (guess : Guess n)
    (a : String) (ha : a = "cm" ∨ a = "cm_exp") (ma : String) (ga : Guess n) (p : Params) (h : (solve_tool e g model method guess (.name a) ma ga p).exc = none) :
    let S := solve_tool e g model method guess (.name a) ma ga p
    ∃ x b, S.g.x = some x ∧ S.g.beta = some b ∧ S.g.last_model = some model ∧ S.g.adjacency_given = some false ∧
      S.g.adjacency_crema = some (if model = "crema-sparse" then .fitness x else .edges (triuEdges (CM.pmatrix_cm x))) := by
  intro S
  have hS : S = _ := solve_tool_crema_finish e g model method hm guess (.name a) ma ga p
  rw [solve_tool_crema_finish e g model method hm] at h
  obtain ⟨h1, s1, s2, s3, s4, s5, s6⟩ := finish_same e _ h
  rw [hS, s1, s2, s4, s5, s6]
  unfold solveProblemCrema at h1 ⊢
  dsimp only at h1 ⊢
  obtain ⟨-, -, -, -, m1, m2, m3, -, m4⟩ := solveProblem_memoryless e.inner { g with is_sparse := decide (model = "crema-sparse") }
    { g with is_sparse := decide (model = "crema-sparse") } a ma ga p
  generalize hr : solveProblem e.inner { g with is_sparse := decide (model = "crema-sparse") } a ma ga p = r at h1 m1 m2 m3 m4 ⊢
  obtain ⟨G, ex, ga'⟩ := r
  cases ex with
  | some x => cases h1
  | none =>
    obtain ⟨-, n1, -, -, -, -, -, n2⟩ := m4 rfl
    obtain ⟨x, hx⟩ := Option.ne_none_iff_exists'.1 n1
    have hf := (n2 ha).1
    dsimp only at h1 hx hf m1 ⊢
    rw [hx] at h1 ⊢
    dsimp only at h1 ⊢
    rw [m1] at h1 ⊢
    rcases hm with rfl | rfl
    · rw [if_neg (by decide), if_pos hf] at h1 ⊢
      simp only [if_neg (show ¬ "crema" = "crema-sparse" by decide)]
      obtain ⟨-, -, -, t0, -, -, t1, t2, -, -, t3, t4⟩ := cremaTail_memoryless e
        { G with x := some x, adjacency_crema := some (.edges (triuEdges (CM.pmatrix_cm x))), is_sparse := false, adjacency_given := some false }
        { G with x := some x, adjacency_crema := some (.edges (triuEdges (CM.pmatrix_cm x))), is_sparse := false, adjacency_given := some false }
        (.edges (triuEdges (CM.pmatrix_cm x))) "crema" method guess p rfl
      obtain ⟨-, t5, -⟩ := t4 h1
      obtain ⟨b, hb⟩ := Option.ne_none_iff_exists'.1 t5
      exact ⟨x, b, t0, hb, t3, t2, t1⟩
    · rw [if_pos (by decide)] at h1 ⊢
      simp only [if_true]
      obtain ⟨-, -, -, t0, -, -, t1, t2, -, -, t3, t4⟩ := cremaTail_memoryless e
        { G with x := some x, adjacency_crema := some (.fitness x), adjacency_given := some false, is_sparse := decide ("crema-sparse" = "crema-sparse") }
        { G with x := some x, adjacency_crema := some (.fitness x), adjacency_given := some false, is_sparse := decide ("crema-sparse" = "crema-sparse") } (.fitness x) "crema-sparse" method guess p rfl
      obtain ⟨-, t5, -⟩ := t4 h1
      obtain ⟨b, hb⟩ := Option.ne_none_iff_exists'.1 t5
      refine ⟨x, b, t0, hb, t3.trans ?_, t2, t1⟩
      split_ifs <;> rfl

/-! ### C80, undirected -/

/-- C80: after a call of `solve_tool` for `cm` or `cm_exp` that returned, `ensemble_sampler` writes one network per drawn seed, each drawn by the one-network sampler
of the configuration model at the fitnesses this call has found; nothing the object went through before matters for them. -/
theorem C80_cm (e : Solve.Env) {d : UData n} (g : UAttr d) (model method : String) (hm : model = "cm" ∨ model = "cm_exp") (guess : Guess n) (adj : AdjSpec n)
    (ma : String) (ga : Guess n) (p : Params) :
    let S := solve_tool e g model method guess adj ma ga p
    S.exc = none → ∃ x, S.g.x = some x ∧
      (∀ g' : UAttr d, (solve_tool e g' model method guess adj ma ga p).exc = none → (solve_tool e g' model method guess adj ma ga p).g.x = some x) ∧
      ∀ (N : ℕ) (dir : String) (seed : Option ℕ) (entropy : R.S) (fmt : ℝ → String) (envs : ℕ → Env R) (states : ℕ → R.S) (fs : List (String × String)),
        samplerU R S.g N dir seed entropy fmt envs states = .ok fs ↔
          Directory fs dir (drawSeeds R N (reseed R seed entropy)).1 (fun k s => cm_edges R x (envs k) (some s) (states k)) render := by
  intro S h
  obtain ⟨h1, s1, s2, -⟩ := plain_same e g model method (hm.imp_right Or.inl) guess adj ma ga p h
  obtain ⟨-, -, -, -, -, -, -, l, -⟩ := solveProblem_memoryless e g g model method guess p
  obtain ⟨-, -, c, -⟩ := C58_cm e g g model method hm guess adj ma ga p
  obtain ⟨x, hx⟩ := Option.ne_none_iff_exists'.1 (c h h).2.1
  refine ⟨x, hx, fun g' h' => ?_, fun N dir seed entropy fmt envs states fs => samplerU_cm hm (s1.trans l) hx N dir seed entropy fmt envs states fs⟩
  obtain ⟨-, -, c', -⟩ := C58_cm e g' g model method hm guess adj ma ga p
  exact (c' h' h).1.trans hx

/-- C80: the same after `ecm` or `ecm_exp`. -/
theorem C80_ecm (e : Solve.Env) {d : UData n} (g : UAttr d) (model method : String) (hm : model = "ecm" ∨ model = "ecm_exp") (guess : Guess n) (adj : AdjSpec n)
    (ma : String) (ga : Guess n) (p : Params) :
    let S := solve_tool e g model method guess adj ma ga p
    S.exc = none → ∃ x y, S.g.x = some x ∧ S.g.y = some y ∧
      (∀ g' : UAttr d, (solve_tool e g' model method guess adj ma ga p).exc = none →
        (solve_tool e g' model method guess adj ma ga p).g.x = some x ∧ (solve_tool e g' model method guess adj ma ga p).g.y = some y) ∧
      ∀ (N : ℕ) (dir : String) (seed : Option ℕ) (entropy : R.S) (fmt : ℝ → String) (envs : ℕ → Env R) (states : ℕ → R.S) (fs : List (String × String)),
        samplerU R S.g N dir seed entropy fmt envs states = .ok fs ↔
          Directory fs dir (drawSeeds R N (reseed R seed entropy)).1 (fun k s => ecm_edges R x y (envs k) (some s) (states k)) (renderW toString) := by
  intro S h
  have hm' : model = "cm" ∨ model = "cm_exp" ∨ model = "ecm" ∨ model = "ecm_exp" := Or.inr (Or.inr hm)
  obtain ⟨h1, s1, s2, s3, -⟩ := plain_same e g model method hm' guess adj ma ga p h
  obtain ⟨-, -, -, -, -, -, -, l, c⟩ := solveProblem_memoryless e g g model method guess p
  obtain ⟨-, c2, -, -, -, -, c3, -⟩ := c h1
  obtain ⟨x, hx⟩ := Option.ne_none_iff_exists'.1 c2
  obtain ⟨y, hy⟩ := Option.ne_none_iff_exists'.1 (c3 hm).2
  refine ⟨x, y, s2.trans hx, s3.trans hy, fun g' h' => ?_, fun N dir seed entropy fmt envs states fs =>
    samplerU_ecm hm (s1.trans l) (s2.trans hx) (s3.trans hy) N dir seed entropy fmt envs states fs⟩
  obtain ⟨h1', s1', s2', s3', -⟩ := plain_same e g' model method hm' guess adj ma ga p h'
  obtain ⟨-, -, -, -, -, -, -, -, c'⟩ := solveProblem_memoryless e g' g model method guess p
  obtain ⟨d1, -, -, -, -, -, d2, -⟩ := c' h1'
  exact ⟨(s2'.trans d1).trans hx, (s3'.trans (d2 hm).1).trans hy⟩

/-- C80: after `crema` on the link probabilities of a binary model solved in the same call, every sampled network draws each pair with that probability and, if it
is linked, a weight at the rates found by the call. -/
theorem C80_crema (e : Solve.Env) {d : UData n} (g : UAttr d) (method : String) (guess : Guess n) (a : String) (ha : a = "cm" ∨ a = "cm_exp")
    (ma : String) (ga : Guess n) (p : Params) :
    let S := solve_tool e g "crema" method guess (.name a) ma ga p
    S.exc = none → ∃ x b, S.g.x = some x ∧ S.g.beta = some b ∧
      (∀ g' : UAttr d, (solve_tool e g' "crema" method guess (.name a) ma ga p).g.beta = some b ∧ (solve_tool e g' "crema" method guess (.name a) ma ga p).g.x = some x) ∧
      ∀ (N : ℕ) (dir : String) (seed : Option ℕ) (entropy : R.S) (fmt : ℝ → String) (envs : ℕ → Env R) (states : ℕ → R.S) (fs : List (String × String)),
        samplerU R S.g N dir seed entropy fmt envs states = .ok fs ↔
          Directory fs dir (drawSeeds R N (reseed R seed entropy)).1
            (fun k s => crema_prob_edges R b b (triuEdges (CM.pmatrix_cm x)) (envs k) (some s) (states k)) (renderW fmt) := by
  intro S h
  obtain ⟨x, b, hx, hb, hl, hg, hc⟩ := crema_name_attrs e g "crema" method (.inl rfl) guess a ha ma ga p h
  rw [if_neg (by decide)] at hc
  refine ⟨x, b, hx, hb, fun g' => ?_, fun N dir seed entropy fmt envs states fs => samplerU_crema hl hb hc hg N dir seed entropy fmt envs states fs⟩
  obtain ⟨c1, -, -, c2⟩ := C58_crema e g g' "crema" method (.inl rfl) guess (.name a) (by rcases ha with rfl | rfl <;> simp) ma ga p
  obtain ⟨c3, -, -, -, -, -, -, -, -, -, -, -, c4⟩ := c2 h
  exact ⟨c3.symm.trans hb, (c4 ⟨a, rfl⟩).1.symm.trans hx⟩

/-- C80: after `crema` on a given adjacency matrix, every sampled network has exactly the links of that matrix, with weights at the rates found by the call. -/
theorem C80_crema_given (e : Solve.Env) {d : UData n} (g : UAttr d) (method : String) (guess : Guess n) (a : Fin n → Fin n → ℝ)
    (ma : String) (ga : Guess n) (p : Params) :
    let S := solve_tool e g "crema" method guess (.matrix a) ma ga p
    S.exc = none → ∃ b, S.g.beta = some b ∧ (∀ g' : UAttr d, (solve_tool e g' "crema" method guess (.matrix a) ma ga p).g.beta = some b) ∧
      ∀ (N : ℕ) (dir : String) (seed : Option ℕ) (entropy : R.S) (fmt : ℝ → String) (envs : ℕ → Env R) (states : ℕ → R.S) (fs : List (String × String)),
        samplerU R S.g N dir seed entropy fmt envs states = .ok fs ↔
          Directory fs dir (drawSeeds R N (reseed R seed entropy)).1
            (fun k s => crema_det_edges R b b ((triuEdges a).map fun t => (t.1, t.2.1)) (envs k) (some s) (states k)) (renderW fmt) := by
  intro S h
  obtain ⟨b, hb, hl, hg, hc⟩ := crema_matrix_attrs e g "crema" method (.inl rfl) guess a ma ga p h
  refine ⟨b, hb, fun g' => ?_, fun N dir seed entropy fmt envs states fs => samplerU_crema hl hb hc hg N dir seed entropy fmt envs states fs⟩
  obtain ⟨c1, -, -, c2⟩ := C58_crema e g g' "crema" method (.inl rfl) guess (.matrix a) (.inr (.inl ⟨a, rfl⟩)) ma ga p
  exact (c2 h).1.symm.trans hb

/-- C80: after `crema-sparse` on a binary model solved in the same call. -/
theorem C80_crema_sparse (e : Solve.Env) {d : UData n} (g : UAttr d) (method : String) (guess : Guess n) (a : String) (ha : a = "cm" ∨ a = "cm_exp")
    (ma : String) (ga : Guess n) (p : Params) :
    let S := solve_tool e g "crema-sparse" method guess (.name a) ma ga p
    S.exc = none → ∃ x b, S.g.x = some x ∧ S.g.beta = some b ∧
      (∀ g' : UAttr d, (solve_tool e g' "crema-sparse" method guess (.name a) ma ga p).g.beta = some b ∧
        (solve_tool e g' "crema-sparse" method guess (.name a) ma ga p).g.x = some x) ∧
      ∀ (N : ℕ) (dir : String) (seed : Option ℕ) (entropy : R.S) (fmt : ℝ → String) (envs : ℕ → Env R) (states : ℕ → R.S) (fs : List (String × String)),
        samplerU R S.g N dir seed entropy fmt envs states = .ok fs ↔
          Directory fs dir (drawSeeds R N (reseed R seed entropy)).1
            (fun k s => crema_sparse_prob_edges R b b x x (envs k) (some s) (states k)) (renderW fmt) := by
  intro S h
  obtain ⟨x, b, hx, hb, hl, hg, hc⟩ := crema_name_attrs e g "crema-sparse" method (.inr rfl) guess a ha ma ga p h
  rw [if_pos rfl] at hc
  refine ⟨x, b, hx, hb, fun g' => ?_, fun N dir seed entropy fmt envs states fs => samplerU_sparse hl hb hc hg N dir seed entropy fmt envs states fs⟩
  obtain ⟨c1, -, -, c2⟩ := C58_crema e g g' "crema-sparse" method (.inr rfl) guess (.name a) (by rcases ha with rfl | rfl <;> simp) ma ga p
  obtain ⟨c3, -, -, -, -, -, -, -, -, -, -, -, c4⟩ := c2 h
  exact ⟨c3.symm.trans hb, (c4 ⟨a, rfl⟩).1.symm.trans hx⟩

/-! ### a call that raised -/

/-- C80 fails after a call that raised: whatever model the fitnesses `x` on the object belong to (`ecm`, say), a call for `cm` refused because of its guess
changes only `last_model`; the sampler then draws configuration-model networks at `x`, the parameters of another model, and says nothing. -/
theorem C80_failed_cm_mixes (e : Solve.Env) {d : UData n} (g : UAttr d) {x : Fin n → ℝ} (hx : g.x = some x) (model method : String) (hm : model = "cm" ∨ model = "cm_exp")
    (adj : AdjSpec n) (ma : String) (ga : Guess n) (p : Params) :
    let S := solve_tool e g model method .other adj ma ga p
    S.exc = some (.py .typeError) ∧
      ∀ (N : ℕ) (dir : String) (seed : Option ℕ) (entropy : R.S) (fmt : ℝ → String) (envs : ℕ → Env R) (states : ℕ → R.S) (fs : List (String × String)),
        samplerU R S.g N dir seed entropy fmt envs states = .ok fs ↔
          Directory fs dir (drawSeeds R N (reseed R seed entropy)).1 (fun k s => cm_edges R x (envs k) (some s) (states k)) render := by
  intro S
  have hm' : model = "cm" ∨ model = "cm_exp" ∨ model = "ecm" ∨ model = "ecm_exp" := hm.imp_right Or.inl
  have hS : S = solve_tool e g model method .other adj ma ga p := rfl
  simp only [solve_tool, if_pos hm', solveProblem, if_pos hm, guessCM] at hS
  have l : S.g.last_model = some model := by rw [hS]
  have hx' : S.g.x = some x := by rw [hS]; exact hx
  exact ⟨by rw [hS], fun N dir seed entropy fmt envs states fs => samplerU_cm hm l hx' N dir seed entropy fmt envs states fs⟩

/-- C80 fails after a call that raised: a call for `crema` with a method that does not exist is refused after the initial guess has been stored as `beta`; the
sampler then draws networks whose weights have the rates of the guess. -/
theorem C80_failed_crema_guess (e : Solve.Env) {d : UData n} (hd : ∀ i, d.strength_sequence i ≠ 0) (g : UAttr d) (b : Fin n → ℝ) (a : Fin n → Fin n → ℝ)
    (ma : String) (ga : Guess n) (p : Params) :
    let S := solve_tool e g "crema" "brent" (.nodes b) (.matrix a) ma ga p
    S.exc = some (.py .valueError) ∧
      ∀ (N : ℕ) (dir : String) (seed : Option ℕ) (entropy : R.S) (fmt : ℝ → String) (envs : ℕ → Env R) (states : ℕ → R.S) (fs : List (String × String)),
        samplerU R S.g N dir seed entropy fmt envs states = .ok fs ↔
          Directory fs dir (drawSeeds R N (reseed R seed entropy)).1
            (fun k s => crema_det_edges R b b ((triuEdges a).map fun t => (t.1, t.2.1)) (envs k) (some s) (states k)) (renderW fmt) := by
  intro S
  have hb : maskSet b (fun i => d.strength_sequence i = 0) 0 = b := by
    funext i
    unfold maskSet
    rw [if_neg (hd i)]
  have hu : uLookup "crema" "brent" = none := by decide
  have hS : S = solve_tool e g "crema" "brent" (.nodes b) (.matrix a) ma ga p := rfl
  have c1 : ¬ ("crema" = "cm" ∨ "crema" = "cm_exp" ∨ "crema" = "ecm" ∨ "crema" = "ecm_exp") := by decide
  simp only [solve_tool, if_neg c1, true_or, if_true, solveProblemCrema, solveCremaTail, guessCrema, hb, Bool.false_eq_true, if_false, hu] at hS
  have l : S.g.last_model = some "crema" := by rw [hS]
  have l1 : S.g.beta = some b := by rw [hS]
  have l2 : S.g.adjacency_crema = some (.edges (triuEdges a)) := by rw [hS]
  have l3 : S.g.adjacency_given = some true := by rw [hS]
  exact ⟨by rw [hS], fun N dir seed entropy fmt envs states fs => samplerU_crema l l1 l2 l3 N dir seed entropy fmt envs states fs⟩

end Verif.Sampler
