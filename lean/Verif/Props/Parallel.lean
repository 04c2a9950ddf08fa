import Verif.Model.Parallel
import Verif.Props.DCReMa

/-!
C44: the parallel loops.  For every schedule of the accesses to the shared array that lets all iterations finish, the result is the one of the sequential loop
(`C44_parallel_deterministic` in general, then function by function) — except for the second loop of `iterative_crema_directed_sparse`, which has a data race.
-/

namespace Verif.Parallel

open Verif Verif.CReMa Verif.DCReMa

variable {ι κ V : Type} [DecidableEq ι] [DecidableEq κ]

/-- the elements an iteration may access -/
def cells (code : List (Op κ V)) : List κ := code.map Op.cell

/-- no two iterations access the same element -/
def Disjoint (prog : ι → List (Op κ V)) : Prop := ∀ i j, i ≠ j → ∀ c, c ∈ cells (prog i) → c ∉ cells (prog j)

section

variable [Inhabited V]

/-- array and register after the iteration `code` has made its first `k` accesses alone -/
def soloAfter (code : List (Op κ V)) (m : κ → V) (k : ℕ) : (κ → V) × V := (code.take k).foldl (fun s o => o.exec s) (m, default)

theorem soloAfter_succ (code : List (Op κ V)) (m : κ → V) (k : ℕ) {o : Op κ V} (h : code[k]? = some o) :
    soloAfter code m (k + 1) = o.exec (soloAfter code m k) := by
  unfold soloAfter
  rw [List.take_add_one, h]
  simp

omit [Inhabited V] in
theorem exec_other (o : Op κ V) (s : (κ → V) × V) {c : κ} (h : c ≠ o.cell) : (o.exec s).1 c = s.1 c := by
  obtain ⟨m, r⟩ := s
  cases o with
  | load => rfl
  | store d g => simp only [Op.exec]; exact Function.update_of_ne h _ _

omit [Inhabited V] in
/-- the effect of an access on its own element and on the register depends on nothing else -/
theorem exec_congr (o : Op κ V) {m m' : κ → V} {r : V} (h : m o.cell = m' o.cell) :
    (o.exec (m, r)).1 o.cell = (o.exec (m', r)).1 o.cell ∧ (o.exec (m, r)).2 = (o.exec (m', r)).2 := by
  cases o with
  | load c => exact ⟨h, h⟩
  | store c g => simp [Op.exec, Op.cell]

/-- invariant: iteration `i` is where it would be alone, after some number `k i` of accesses -/
structure Inv (m0 : κ → V) (prog : ι → List (Op κ V)) (M : Machine ι κ V) (k : ι → ℕ) : Prop where
  code : ∀ i, (M.thr i).code = (prog i).drop (k i)
  reg : ∀ i, (M.thr i).reg = (soloAfter (prog i) m0 (k i)).2
  own : ∀ i, ∀ c ∈ cells (prog i), M.mem c = (soloAfter (prog i) m0 (k i)).1 c
  rest : ∀ c, (∀ i, c ∉ cells (prog i)) → M.mem c = m0 c

theorem inv_start (m0 : κ → V) (prog : ι → List (Op κ V)) : Inv m0 prog (Machine.start m0 prog) fun _ => 0 :=
  ⟨fun _ => rfl, fun _ => rfl, fun _ _ _ => rfl, fun _ _ => rfl⟩

theorem inv_tick {m0 : κ → V} {prog : ι → List (Op κ V)} (hd : Disjoint prog) {M : Machine ι κ V} {k : ι → ℕ} (h : Inv m0 prog M k) (i : ι) :
    ∃ k', Inv m0 prog (M.tick i) k' := by
  unfold Machine.tick
  split
  · exact ⟨k, h⟩
  · rename_i o t ht
    have hc := h.code i
    rw [ht] at hc
    have ho : (prog i)[k i]? = some o := by
      have := congrArg (fun l => l[0]?) hc
      simpa using this.symm
    have hmem : o.cell ∈ cells (prog i) := List.mem_map_of_mem (List.mem_of_getElem? ho)
    have hreg := h.reg i
    have hown := h.own i o.cell hmem
    have hs := soloAfter_succ (prog i) m0 (k i) ho
    have key : (o.exec (M.mem, (M.thr i).reg)).1 o.cell = (soloAfter (prog i) m0 (k i + 1)).1 o.cell ∧
        (o.exec (M.mem, (M.thr i).reg)).2 = (soloAfter (prog i) m0 (k i + 1)).2 := by
      rw [hs, hreg]
      exact exec_congr o (m' := (soloAfter (prog i) m0 (k i)).1) hown
    refine ⟨Function.update k i (k i + 1), ⟨fun j => ?_, fun j => ?_, fun j c hcj => ?_, fun c hcn => ?_⟩⟩
    · by_cases hj : j = i
      · subst hj
        simp only [Function.update_self]
        rw [← List.drop_drop, ← hc]
        rfl
      · simp only [Function.update_of_ne hj]
        exact h.code j
    · by_cases hj : j = i
      · subst hj
        simp only [Function.update_self]
        exact key.2
      · simp only [Function.update_of_ne hj]
        exact h.reg j
    · by_cases hj : j = i
      · subst hj
        simp only [Function.update_self]
        by_cases hco : c = o.cell
        · rw [hco]; exact key.1
        · rw [exec_other o _ hco, hs, exec_other o _ hco]
          exact h.own j c hcj
      · simp only [Function.update_of_ne hj]
        have hco : c ≠ o.cell := fun hco => hd i j (Ne.symm hj) c (hco ▸ hmem) hcj
        rw [exec_other o _ hco]
        exact h.own j c hcj
    · have hco : c ≠ o.cell := fun hco => hcn i (hco ▸ hmem)
      simp only
      rw [exec_other o _ hco]
      exact h.rest c hcn

theorem inv_run {m0 : κ → V} {prog : ι → List (Op κ V)} (hd : Disjoint prog) (l : List ι) {M : Machine ι κ V} {k : ι → ℕ} (h : Inv m0 prog M k) :
    ∃ k', Inv m0 prog (M.run l) k' := by
  induction l generalizing M k with
  | nil => exact ⟨k, h⟩
  | cons i l ih =>
    obtain ⟨k', h'⟩ := inv_tick hd h i
    exact ih h'

theorem run_done {m0 : κ → V} {prog : ι → List (Op κ V)} (hd : Disjoint prog) (l : List ι) (hl : ((Machine.start m0 prog).run l).Done) :
    (∀ i, ∀ c ∈ cells (prog i), ((Machine.start m0 prog).run l).mem c = solo (prog i) m0 c) ∧
    ∀ c, (∀ i, c ∉ cells (prog i)) → ((Machine.start m0 prog).run l).mem c = m0 c := by
  obtain ⟨k, h⟩ := inv_run hd l (inv_start m0 prog)
  refine ⟨fun i c hc => ?_, h.rest⟩
  rw [h.own i c hc]
  have hk : (prog i).length ≤ k i := by
    have := h.code i
    rw [hl i] at this
    exact List.drop_eq_nil_iff.1 this.symm
  unfold soloAfter solo
  rw [List.take_of_length_le hk]

theorem soloFold_other (code : List (Op κ V)) (s : (κ → V) × V) {c : κ} (h : c ∉ cells code) : (code.foldl (fun s o => o.exec s) s).1 c = s.1 c := by
  induction code generalizing s with
  | nil => rfl
  | cons o t ih =>
    simp only [cells, List.map_cons, List.mem_cons, not_or] at h
    rw [List.foldl_cons, ih _ h.2, exec_other o s h.1]

theorem soloFold_congr (code : List (Op κ V)) {m m' : κ → V} {r : V} (h : ∀ c ∈ cells code, m c = m' c) :
    (∀ c ∈ cells code, (code.foldl (fun s o => o.exec s) (m, r)).1 c = (code.foldl (fun s o => o.exec s) (m', r)).1 c) := by
  suffices H : ∀ (code : List (Op κ V)) (m m' : κ → V) (r : V) (A : List κ), (∀ c ∈ cells code, c ∈ A) → (∀ c ∈ A, m c = m' c) →
      ∀ c ∈ A, (code.foldl (fun s o => o.exec s) (m, r)).1 c = (code.foldl (fun s o => o.exec s) (m', r)).1 c from
    H code m m' r (cells code) (fun _ h => h) h
  intro code
  induction code with
  | nil => intro m m' r A _ h c hc; exact h c hc
  | cons o t ih =>
    intro m m' r A hA h c hc
    have ho : o.cell ∈ A := hA _ (by simp [cells])
    obtain ⟨h1, h2⟩ := exec_congr o (r := r) (h o.cell ho)
    rw [List.foldl_cons, List.foldl_cons]
    have e1 : o.exec (m, r) = ((o.exec (m, r)).1, (o.exec (m, r)).2) := rfl
    have e2 : o.exec (m', r) = ((o.exec (m', r)).1, (o.exec (m, r)).2) := by rw [h2]
    rw [e1, e2]
    refine ih _ _ _ A (fun c hc => hA c (by simp only [cells, List.map_cons, List.mem_cons]; right; exact hc)) (fun c hc => ?_) c hc
    by_cases hco : c = o.cell
    · rw [hco]; exact h1
    · rw [exec_other o _ hco, exec_other o _ hco]; exact h c hc

/-- the sequential loop, element by element -/
theorem sequential_spec {m0 : κ → V} {prog : ι → List (Op κ V)} (hd : Disjoint prog) (l : List ι) (hl : l.Nodup) :
    (∀ i ∈ l, ∀ c ∈ cells (prog i), sequential prog l m0 c = solo (prog i) m0 c) ∧ ∀ c, (∀ i ∈ l, c ∉ cells (prog i)) → sequential prog l m0 c = m0 c := by
  induction l generalizing m0 with
  | nil => exact ⟨by simp, fun _ _ => rfl⟩
  | cons i l ih =>
    rw [List.nodup_cons] at hl
    obtain ⟨ih1, ih2⟩ := ih (m0 := solo (prog i) m0) hl.2
    have e : ∀ c, sequential prog (i :: l) m0 c = sequential prog l (solo (prog i) m0) c := fun c => rfl
    constructor
    · intro j hj c hc
      rw [e]
      rcases List.mem_cons.1 hj with rfl | hj
      · rw [ih2 c fun i' hi' => hd _ _ (fun h => hl.1 (by rw [h]; exact hi')) c hc]
      · rw [ih1 j hj c hc]
        refine soloFold_congr (prog j) (fun c hc => ?_) c hc
        exact soloFold_other (prog i) _ fun hci => hd i j (fun h => hl.1 (h ▸ hj)) c hci hc
    · intro c hc
      rw [e, ih2 c fun j hj => hc j (List.mem_cons_of_mem _ hj)]
      exact soloFold_other (prog i) _ (hc i List.mem_cons_self)

/-- C44, in general: if no two iterations access the same element of the shared array, every schedule that lets all iterations finish gives the result of
running the iterations one after the other, in any order.  (Elements of any type: also floating-point numbers.) -/
theorem C44_parallel_deterministic (m0 : κ → V) (prog : ι → List (Op κ V)) (hd : ∀ i j, i ≠ j → ∀ c, c ∈ cells (prog i) → c ∉ cells (prog j))
    (schedule : List ι) (hl : ((Machine.start m0 prog).run schedule).Done) (order : List ι) (hn : order.Nodup) (ha : ∀ i, i ∈ order) :
    ((Machine.start m0 prog).run schedule).mem = sequential prog order m0 := by
  funext c
  obtain ⟨h1, h2⟩ := run_done hd schedule hl
  obtain ⟨h3, h4⟩ := sequential_spec (m0 := m0) hd order hn
  by_cases hc : ∃ i, c ∈ cells (prog i)
  · obtain ⟨i, hi⟩ := hc
    rw [h1 i c hi, h3 i (ha i) c hi]
  · push_neg at hc
    rw [h2 c hc, h4 c fun i _ => hc i]

/-- the sequential schedule lets all iterations finish: such schedules exist for every program -/
theorem run_replicate (M : Machine ι κ V) (i : ι) (k : ℕ) : (((M.run (List.replicate k i)).thr i).code = (M.thr i).code.drop k) ∧
    ∀ j, j ≠ i → (M.run (List.replicate k i)).thr j = M.thr j := by
  induction k generalizing M with
  | zero => exact ⟨rfl, fun _ _ => rfl⟩
  | succ k ih =>
    obtain ⟨h1, h2⟩ := ih (M.tick i)
    have e : M.run (List.replicate (k + 1) i) = (M.tick i).run (List.replicate k i) := rfl
    rw [e]
    constructor
    · rw [h1]
      unfold Machine.tick
      split
      · rename_i h; simp [h]
      · rename_i o t h; simp [h]
    · intro j hj
      rw [h2 j hj]
      unfold Machine.tick
      split
      · rfl
      · simp [hj]

theorem exists_schedule (m0 : κ → V) (prog : ι → List (Op κ V)) (order : List ι) (ha : ∀ i, i ∈ order) :
    ∃ schedule, ((Machine.start m0 prog).run schedule).Done := by
  suffices H : ∀ (l : List ι) (M : Machine ι κ V), ∃ s, (∀ i ∈ l, ((M.run s).thr i).code = []) ∧ ∀ i, (M.thr i).code = [] → ((M.run s).thr i).code = [] by
    obtain ⟨s, hs, -⟩ := H order (Machine.start m0 prog)
    exact ⟨s, fun i => hs i (ha i)⟩
  intro l
  induction l with
  | nil => intro M; exact ⟨[], by simp, fun _ h => h⟩
  | cons i l ih =>
    intro M
    obtain ⟨s, h1, h2⟩ := ih (M.run (List.replicate (M.thr i).code.length i))
    have hr := run_replicate M i (M.thr i).code.length
    have e : ∀ s, M.run (List.replicate (M.thr i).code.length i ++ s) = (M.run (List.replicate (M.thr i).code.length i)).run s := fun s => by
      unfold Machine.run; rw [List.foldl_append]
    refine ⟨List.replicate (M.thr i).code.length i ++ s, ?_, ?_⟩
    · intro j hj
      rw [e]
      rcases List.mem_cons.1 hj with rfl | hj
      · exact h2 _ (by rw [hr.1]; simp)
      · exact h1 j hj
    · intro j hj
      rw [e]
      refine h2 j ?_
      by_cases hji : j = i
      · subst hji; rw [hr.1]; simp
      · rw [hr.2 j hji]; exact hj

end

/-! ### the programs, function by function -/

section functions

variable {n : ℕ}

theorem sequential_eq_forL [Inhabited V] {prog : ι → List (Op κ V)} {body : ι → (κ → V) → κ → V} (h : ∀ i m, solo (prog i) m = body i m) (l : List ι)
    (m : κ → V) : sequential prog l m = forL l body m := by
  induction l generalizing m with
  | nil => rfl
  | cons i l ih => rw [forL_cons, ← h, ← ih]; rfl

theorem forL_map {α β σ : Type} (f : α → β) (body : β → σ → σ) (l : List α) (s : σ) : forL (l.map f) body s = forL l (fun a => body (f a)) s := by
  induction l generalizing s with
  | nil => rfl
  | cons a l ih => rw [List.map_cons, forL_cons, forL_cons, ih]

/-- accesses to elements `cell i` of one's own only -/
theorem disjoint_of_inj {ι κ V : Type} {prog : ι → List (Op κ V)} (own : κ → ι) (h : ∀ i, ∀ c ∈ cells (prog i), own c = i) : Disjoint prog :=
  fun i j hij c hi hj => hij ((h i c hi).symm.trans (h j c hj))

theorem get_nonzero_inj (s : Fin n → ℝ) : Function.Injective (DCM.nonzero s).get :=
  List.nodup_iff_injective_get.1 ((List.nodup_finRange n).filter _)

theorem disjoint_get {κ : Type} {s : Fin n → ℝ} {prog : Fin (DCM.nonzero s).length → List (Op κ ℝ)} (own : κ → Fin n)
    (h : ∀ i, ∀ c ∈ cells (prog i), own c = (DCM.nonzero s).get i) : Disjoint prog :=
  fun i j hij c hi hj => hij (get_nonzero_inj s ((h i c hi).symm.trans (h j c hj)))

/-- the result of a parallel loop over all nodes -/
theorem run_fin {κ : Type} [DecidableEq κ] {k : ℕ} (m0 : κ → ℝ) {prog : Fin k → List (Op κ ℝ)} {body : Fin k → (κ → ℝ) → κ → ℝ} (hd : Disjoint prog)
    (h : ∀ i m, solo (prog i) m = body i m) (schedule : List (Fin k)) (hl : ((Machine.start m0 prog).run schedule).Done) (order : List (Fin k))
    (hn : order.Nodup) (ha : ∀ i, i ∈ order) : ((Machine.start m0 prog).run schedule).mem = forL order body m0 := by
  rw [C44_parallel_deterministic m0 prog hd schedule hl order hn ha, sequential_eq_forL h]

/-- C44 for `iterative_crema_undirected_sparse` -/
theorem C44_crema_sparse_fixed_point (β s x : Fin n → ℝ) (schedule : List (Fin n))
    (hl : ((Machine.start (fun _ => 0) (iterU β s x)).run schedule).Done) :
    ((Machine.start (fun _ => 0) (iterU β s x)).run schedule).mem = iterative_crema_undirected_sparse (List.finRange n) β s x :=
  run_fin _ (disjoint_of_inj id fun i c hc => by simpa [iterU, put, cells, Op.cell] using hc) (fun _ _ => rfl) _ hl _ (List.nodup_finRange n) List.mem_finRange

/-- C44 for `loglikelihood_prime_crema_undirected_sparse` -/
theorem C44_crema_sparse_gradient (β s x : Fin n → ℝ) (schedule : List (Fin n))
    (hl : ((Machine.start (fun _ => 0) (primeU β s x)).run schedule).Done) :
    ((Machine.start (fun _ => 0) (primeU β s x)).run schedule).mem = loglikelihood_prime_crema_undirected_sparse (List.finRange n) β s x :=
  run_fin _ (disjoint_of_inj id fun i c hc => by simpa [primeU, decr, incr, cells, Op.cell] using hc) (fun _ _ => rfl) _ hl _ (List.nodup_finRange n)
    List.mem_finRange

/-- C44 for `loglikelihood_hessian_diag_crema_undirected_sparse` -/
theorem C44_crema_sparse_hessian_diag (β x : Fin n → ℝ) (schedule : List (Fin n))
    (hl : ((Machine.start (fun _ => 0) (diagU β x)).run schedule).Done) :
    ((Machine.start (fun _ => 0) (diagU β x)).run schedule).mem = loglikelihood_hessian_diag_crema_undirected_sparse (List.finRange n) β x :=
  run_fin _ (disjoint_of_inj id fun i c hc => by simpa [diagU, decr, cells, Op.cell] using hc) (fun _ _ => rfl) _ hl _ (List.nodup_finRange n)
    List.mem_finRange

/-- C44 for `loglikelihood_hessian_diag_crema_directed_sparse` -/
theorem C44_dcrema_sparse_hessian_diag (β : Fin 2 × Fin n → ℝ) (x y : Fin n → ℝ) (schedule : List (Fin n))
    (hl : ((Machine.start (fun _ => 0) (diagD β x y)).run schedule).Done) :
    ((Machine.start (fun _ => 0) (diagD β x y)).run schedule).mem = loglikelihood_hessian_diag_crema_directed_sparse (List.finRange n) β x y :=
  run_fin _ (disjoint_of_inj Prod.snd fun i c hc => by
    simp only [diagD, decr, cells, List.map_append, List.map_cons, List.map_nil, Op.cell, List.mem_append, List.mem_cons, List.not_mem_nil, or_false] at hc
    rcases hc with (h | h) | (h | h) <;> rw [h]) (fun _ _ => rfl) _ hl _ (List.nodup_finRange n) List.mem_finRange

theorem forL_get {σ : Type} (l : List (Fin n)) (body : Fin n → σ → σ) (s : σ) :
    forL (List.finRange l.length) (fun i => body (l.get i)) s = forL l body s := by
  have h : l = (List.finRange l.length).map l.get := by
    conv_lhs => rw [← List.ofFn_get l]
    rw [List.ofFn_eq_map]
  conv_rhs => rw [h, forL_map]

/-- C44 for `loglikelihood_prime_crema_directed_sparse`: both loops -/
theorem C44_dcrema_sparse_gradient (β : Fin 2 × Fin n → ℝ) (s_out s_in x y : Fin n → ℝ)
    (schedule : List (Fin (DCM.nonzero s_out).length)) (hl : ((Machine.start (fun _ => 0) (primeOut β s_out x y)).run schedule).Done)
    (schedule' : List (Fin (DCM.nonzero s_in).length)) (hl' : ((Machine.start (fun _ => 0) (primeIn β s_in x y)).run schedule').Done) :
    cat ((Machine.start (fun _ => 0) (primeOut β s_out x y)).run schedule).mem ((Machine.start (fun _ => 0) (primeIn β s_in x y)).run schedule').mem =
      loglikelihood_prime_crema_directed_sparse (DCM.nonzero s_out) (DCM.nonzero s_in) β s_out s_in x y := by
  unfold loglikelihood_prime_crema_directed_sparse
  refine congrArg₂ cat ?_ ?_
  · rw [← forL_get]
    exact run_fin _ (disjoint_get id fun i c hc => by simpa [primeOut, decr, incr, cells, Op.cell] using hc) (fun _ _ => rfl) _ hl _ (List.nodup_finRange _)
      List.mem_finRange
  · rw [← forL_get]
    exact run_fin _ (disjoint_get id fun i c hc => by simpa [primeIn, decr, incr, cells, Op.cell] using hc) (fun _ _ => rfl) _ hl' _ (List.nodup_finRange _)
      List.mem_finRange

theorem forL_range {σ : Type} (k : ℕ) (body : ℕ → σ → σ) (s : σ) : forL (List.range k) body s = forL (List.finRange k) (fun i => body i.val) s := by
  rw [← List.map_coe_finRange_eq_range, forL_map]

/-- C44 for the first loop of `iterative_crema_directed_sparse`: the first half of its result -/
theorem C44_dcrema_sparse_fixed_point_out (β : Fin 2 × Fin n → ℝ) (s_out s_in x y : Fin n → ℝ) (schedule : List (Fin (DCM.nonzero x).length))
    (hl : ((Machine.start (fun _ => 0) (iterOut β s_out x y)).run schedule).Done) (sy : List ℕ) (v : Fin n) :
    ((Machine.start (fun _ => 0) (iterOut β s_out x y)).run schedule).mem v =
      iterative_crema_directed_sparse (List.range (DCM.nonzero x).length) sy β s_out s_in x y (0, v) := by
  unfold iterative_crema_directed_sparse
  simp only [cat, if_true]
  rw [forL_range]
  refine congrFun (run_fin _ (disjoint_get id fun i c hc => by simpa [iterOut, decr, divFrom, cells, Op.cell] using hc) (fun i m => ?_) _ hl _
    (List.nodup_finRange _) List.mem_finRange) v
  simp only [List.getElem?_eq_getElem i.isLt]
  rfl

/-- C44 for the second loop, when every node has an in-going link probability (`y` has no zero): the second half of the result -/
theorem C44_dcrema_sparse_fixed_point_in_partial (β : Fin 2 × Fin n → ℝ) (s_out s_in x y : Fin n → ℝ) (hy : ∀ i, y i ≠ 0)
    (schedule : List (Fin (DCM.nonzero y).length)) (hl : ((Machine.start (fun _ => 0) (iterIn β s_in x y)).run schedule).Done) (sx : List ℕ) (v : Fin n) :
    ((Machine.start (fun _ => 0) (iterIn β s_in x y)).run schedule).mem v =
      iterative_crema_directed_sparse sx (List.range (DCM.nonzero y).length) β s_out s_in x y (1, v) := by
  have hnz : DCM.nonzero y = List.finRange n := by
    unfold DCM.nonzero
    exact List.filter_eq_self.2 fun i _ => by simpa using hy i
  have hpos : ∀ i : Fin (DCM.nonzero y).length, i.castLE (length_nonzero y) = (DCM.nonzero y).get i := fun i => by
    ext
    simp [hnz]
  unfold iterative_crema_directed_sparse
  simp only [cat, one_ne_zero, if_false]
  rw [forL_range]
  refine congrFun (run_fin _ (disjoint_get id fun i c hc => ?_) (fun i m => ?_) _ hl _ (List.nodup_finRange _) List.mem_finRange) v
  · simp only [iterIn, hpos] at hc
    simpa [decr, divFrom, cells, Op.cell] using hc
  · have hin : i.val < n := i.isLt.trans_le (length_nonzero y)
    simp only [List.getElem?_eq_getElem i.isLt, hin, dif_pos]
    rfl

/-- the race: in-fitnesses `(0, 1, 1)`, so that `y_indices = (1, 2)` -/
def raceY : Fin 3 → ℝ := ![0, 1, 1]

theorem nonzero_raceY : DCM.nonzero raceY = [1, 2] := by
  unfold DCM.nonzero
  have : List.finRange 3 = [0, 1, 2] := rfl
  rw [this]
  simp [raceY, List.filter_cons]

theorem length_raceY : (DCM.nonzero raceY).length = 2 := by rw [nonzero_raceY]; rfl

theorem tick_of {M : Machine ι κ V} {i : ι} {o : Op κ V} {t : List (Op κ V)} {r : V} (h : M.thr i = ⟨o :: t, r⟩) :
    M.tick i = ⟨(o.exec (M.mem, r)).1, Function.update M.thr i ⟨t, (o.exec (M.mem, r)).2⟩⟩ := by
  unfold Machine.tick
  rw [h]

/-- two iterations, the first of which reads the element the second writes -/
theorem race {ι : Type} [DecidableEq ι] (p q : ι) (hpq : p ≠ q) (prog : ι → List (Op (Fin 3) ℝ)) (a b u w : ℝ)
    (hp : prog p = decr 0 a ++ divFrom 0 1 u) (hq : prog q = decr 1 b ++ divFrom 1 2 w) (h2 : ∀ i, i = p ∨ i = q) :
    (((Machine.start (fun _ => 0) prog).run [p, p, p, p, q, q, q, q]).Done ∧
      ((Machine.start (fun _ => 0) prog).run [p, p, p, p, q, q, q, q]).mem 0 = 0) ∧
    ((Machine.start (fun _ => 0) prog).run [q, q, p, p, p, p, q, q]).Done ∧
      ((Machine.start (fun _ => 0) prog).run [q, q, p, p, p, p, q, q]).mem 0 = -b / u := by
  have hs : (Machine.start (fun _ => 0) prog : Machine ι (Fin 3) ℝ) = ⟨fun _ => 0, Function.update (Function.update (fun _ => ⟨[], 0⟩) p
      ⟨decr 0 a ++ divFrom 0 1 u, default⟩) q ⟨decr 1 b ++ divFrom 1 2 w, default⟩⟩ := by
    unfold Machine.start
    congr 1
    funext i
    rcases h2 i with rfl | rfl
    · rw [Function.update_of_ne hpq, Function.update_self, hp]
    · rw [Function.update_self, hq]
  have hqp := hpq.symm
  rw [hs]
  simp only [decr, divFrom, List.cons_append, List.nil_append]
  refine ⟨⟨fun i => ?_, ?_⟩, fun i => ?_, ?_⟩
  · rcases h2 i with rfl | rfl <;> simp [Machine.run, Machine.tick, Op.exec, hpq, hqp]
  · simp [Machine.run, Machine.tick, Op.exec, hpq, hqp]
  · rcases h2 i with rfl | rfl <;> simp [Machine.run, Machine.tick, Op.exec, hpq, hqp]
  · simp [Machine.run, Machine.tick, Op.exec, hpq, hqp]

/-- C44 fails for `iterative_crema_directed_sparse`: with in-fitnesses `(0, 1, 1)` the second loop has two complete schedules with different results: the
sequential one, and one in which the second iteration stops between its two statements and the first one reads the intermediate value. -/
theorem C44_directed_fixed_point_race (β : Fin 2 × Fin 3 → ℝ) (hβ : ∀ v, 0 < β v) (s_in x : Fin 3 → ℝ) (hs : ∀ i, 0 ≤ s_in i) (hx : ∀ i, 0 < x i) :
    ∃ sequential concurrent : List (Fin (DCM.nonzero raceY).length),
      ((Machine.start (fun _ => 0) (iterIn β s_in x raceY)).run sequential).Done ∧
      ((Machine.start (fun _ => 0) (iterIn β s_in x raceY)).run concurrent).Done ∧
      ((Machine.start (fun _ => 0) (iterIn β s_in x raceY)).run sequential).mem 0 = 0 ∧
      ((Machine.start (fun _ => 0) (iterIn β s_in x raceY)).run concurrent).mem 0 < 0 := by
  let p : Fin (DCM.nonzero raceY).length := ⟨0, by rw [length_raceY]; norm_num⟩
  let q : Fin (DCM.nonzero raceY).length := ⟨1, by rw [length_raceY]; norm_num⟩
  have hpq : p ≠ q := by intro h; have := congrArg Fin.val h; simp [p, q] at this
  have h2 : ∀ i, i = p ∨ i = q := fun i => by
    have hi := i.isLt.trans_eq length_raceY
    have : i.val = 0 ∨ i.val = 1 := by omega
    rcases this with h | h
    · left; exact Fin.ext h
    · right; exact Fin.ext h
  have hgp : (DCM.nonzero raceY).get p = 1 := by simp [p, nonzero_raceY]
  have hgq : (DCM.nonzero raceY).get q = 2 := by simp [q, nonzero_raceY]
  have hcp : p.castLE (length_nonzero raceY) = 0 := rfl
  have hcq : q.castLE (length_nonzero raceY) = 1 := rfl
  let agg : Fin 3 → ℝ := fun k => (∑ i, x i * raceY k / (1 + x i * raceY k) / (1 + (β (0, i) / (β (1, k) + Real.exp (-100))))) -
    x k * raceY k / (1 + x k * raceY k) / (1 + (β (0, k) / (β (1, k) + Real.exp (-100))))
  have ep : iterIn β s_in x raceY p = decr 0 (agg 1) ++ divFrom 0 1 (s_in 1 + Real.exp (-100)) := by
    simp only [iterIn, hgp, hcp]; rfl
  have eq : iterIn β s_in x raceY q = decr 1 (agg 2) ++ divFrom 1 2 (s_in 2 + Real.exp (-100)) := by
    simp only [iterIn, hgq, hcq]; rfl
  obtain ⟨⟨h1, h2'⟩, h3, h4⟩ := race p q hpq _ _ _ _ _ ep eq h2
  refine ⟨_, _, h1, h3, h2', ?_⟩
  rw [h4]
  have hagg : 0 < agg 2 := by
    have ht : ∀ i, 0 < x i * raceY 2 / (1 + x i * raceY 2) / (1 + (β (0, i) / (β (1, 2) + Real.exp (-100)))) := fun i => by
      have hy : raceY 2 = 1 := rfl
      have h1 := hx i
      have h2 := hβ (0, i)
      have h3 := hβ (1, 2)
      have h4 := Real.exp_pos (-100)
      rw [hy]
      positivity
    simp only [agg, Fin.sum_univ_three]
    have h0 := ht 0
    have h1 := ht 1
    linarith
  have hden : 0 < s_in 1 + Real.exp (-100) := by
    have := hs 1
    have := Real.exp_pos (-100)
    linarith
  exact div_neg_of_neg_of_pos (by linarith) hden

/-- the hypotheses of the theorems above are met: complete schedules exist for every input, and not only sequential ones; here two iterations of the gradient
interleaved access by access -/
example (β s x : Fin 2 → ℝ) : ((Machine.start (fun _ => 0) (primeU β s x)).run [0, 1, 0, 1, 1, 0, 0, 1]).Done := by
  intro i
  fin_cases i <;> simp [Machine.run, Machine.tick, Machine.start, primeU, decr, incr]

example (β : Fin 2 × Fin n → ℝ) (s_out x y : Fin n → ℝ) : ∃ l, ((Machine.start (fun _ => 0) (primeOut β s_out x y)).run l).Done :=
  exists_schedule _ _ (List.finRange _) List.mem_finRange

example (β : Fin 2 × Fin n → ℝ) (s_in x y : Fin n → ℝ) : ∃ l, ((Machine.start (fun _ => 0) (iterIn β s_in x y)).run l).Done :=
  exists_schedule _ _ (List.finRange _) List.mem_finRange

end functions

end Verif.Parallel
