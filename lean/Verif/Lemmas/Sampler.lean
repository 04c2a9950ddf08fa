import Verif.Model.Sampler
import Verif.Spec.Sampler
import Mathlib.Data.List.Sort

/-! Lemmas on the model of `ensemble_generator.py`. -/

namespace Verif.Sampler

variable (R : Rng)

theorem pool_slots {β : Type} {W : ℕ} (tasks : List (Task R β)) (v : Fin tasks.length → β) (hv : ∀ t g, (tasks.get t g).1 = v t)
    (sched : List (Fin W × Fin tasks.length)) (st : Pool R β W tasks.length) (t : Fin tasks.length) :
    (forL sched (fun wt st => Pool.exec R tasks wt.1 wt.2 st) st).slot t = if t ∈ sched.map Prod.snd then some (v t) else st.slot t := by
  induction sched generalizing st with
  | nil => simp [forL]
  | cons wt sched ih =>
    rw [forL_cons, ih]
    by_cases h1 : t ∈ sched.map Prod.snd
    · rw [if_pos h1, if_pos (by rw [List.map_cons]; exact List.mem_cons_of_mem _ h1)]
    · rw [if_neg h1]
      have hs : (Pool.exec R tasks wt.1 wt.2 st).slot = setAt st.slot wt.2 (some (v wt.2)) := by
        rw [← hv wt.2 (st.rng wt.1)]; rfl
      rw [hs, setAt]
      by_cases h2 : t = wt.2
      · subst h2; rw [Function.update_self, if_pos (by simp)]
      · rw [Function.update_of_ne h2, if_neg]
        rw [List.map_cons, List.mem_cons]
        rintro (h | h)
        · exact h2 h
        · exact h1 h

theorem mapM_some {α β : Type} (l : List α) (f : α → Option β) (g : α → β) (h : ∀ x ∈ l, f x = some (g x)) : l.mapM f = some (l.map g) := by
  induction l with
  | nil => rfl
  | cons a l ih =>
    rw [List.mapM_cons, h a (by simp), ih fun x hx => h x (by simp [hx])]
    rfl

theorem mapM_ok {α β : Type} (l : List α) (f : α → Except Err β) (g : α → β) (h : ∀ x ∈ l, f x = .ok (g x)) : l.mapM f = .ok (l.map g) := by
  induction l with
  | nil => rfl
  | cons a l ih =>
    rw [List.mapM_cons, h a (by simp), ih fun x hx => h x (by simp [hx])]
    rfl

/-- whatever the interleaving, a complete run of tasks whose result does not depend on the generator state of the worker returns the results in task order -/
theorem starmap_eq {β : Type} (tasks : List (Task R β)) (g0 : R.S) (hdet : ∀ t ∈ tasks, ∀ g, (t g).1 = (t g0).1) (run : Run R tasks.length)
    (hc : run.Complete) : starmap R tasks run = .ok (tasks.map fun t => (t g0).1) := by
  have hv : ∀ (t : Fin tasks.length) (g : R.S), (tasks.get t g).1 = (tasks.get t g0).1 := fun t g => hdet _ (List.get_mem _ _) g
  unfold starmap
  have h2 := mapM_some (List.finRange tasks.length)
    (forL run.sched (fun wt st => Pool.exec R tasks wt.1 wt.2 st) ⟨run.init, fun _ => none⟩).slot (fun t => (tasks.get t g0).1) (fun t _ => by
      rw [pool_slots R tasks (fun t => (tasks.get t g0).1) hv, if_pos]
      obtain ⟨w, hw⟩ := hc t
      exact List.mem_map_of_mem (f := Prod.snd) hw)
  simp only [h2]
  congr 1
  have : tasks.map (fun t => (t g0).1) = ((List.finRange tasks.length).map tasks.get).map fun t => (t g0).1 := by rw [List.map_get_finRange]
  rw [this, List.map_map]
  rfl

theorem drawSeeds_length (k : ℕ) (g : R.S) : (drawSeeds R k g).1.length = k := by
  induction k generalizing g with
  | zero => rfl
  | succ k ih => show (_ :: (drawSeeds R k _).1).length = _; rw [List.length_cons, ih]

theorem drawSeeds_lt (k : ℕ) (g : R.S) : ∀ s ∈ (drawSeeds R k g).1, s < 1000000 := by
  induction k generalizing g with
  | zero => intro s hs; cases hs
  | succ k ih =>
    intro s hs
    rcases List.mem_cons.1 (show s ∈ (R.randint g).1 :: (drawSeeds R k (R.randint g).2).1 from hs) with rfl | h
    · exact R.randint_lt g
    · exact ih _ s h

/-- the seeds drawn first do not depend on how many are drawn -/
theorem drawSeeds_prefix (k m : ℕ) (g : R.S) : (drawSeeds R k g).1 <+: (drawSeeds R (k + m) g).1 := by
  induction k generalizing g with
  | zero => rw [Nat.zero_add]; exact List.nil_prefix
  | succ k ih =>
    rw [Nat.succ_add]
    show (R.randint g).1 :: (drawSeeds R k (R.randint g).2).1 <+: (R.randint g).1 :: (drawSeeds R (k + m) (R.randint g).2).1
    rw [List.cons_prefix_cons]
    exact ⟨rfl, ih _⟩

/-- the tasks of a sampler: seeded link functions -/
theorem sampleEdges_eq {A β : Type} (cands : List A) (link : A → Option ℕ → R.S → Except Err (Option β) × R.S)
    (hseed : ∀ a s g g', link a (some s) g = link a (some s) g') (env : Env R) (henv : ∀ T, (env T).Complete) (seed : Option ℕ) (g : R.S) :
    sampleEdges R cands link env seed g =
      ((((cands.zip (drawSeeds R cands.length (reseed R seed g)).1).map fun as => (link as.1 (some as.2) (R.seed 0)).1).mapM id).map fun edges => edges.filterMap id) := by
  unfold sampleEdges
  simp only
  rw [starmap_eq R _ (R.seed 0) ?_ _ (henv _)]
  · simp only [bind, Except.bind, List.map_zipWith]
    rw [List.zip, List.map_zipWith]
    cases (List.zipWith (fun a s => (link a (some s) (R.seed 0)).1) cands (drawSeeds R cands.length (reseed R seed g)).1).mapM id <;> rfl
  · intro t ht g
    rw [← List.map_uncurry_zip_eq_zipWith, List.mem_map] at ht
    obtain ⟨as, _, rfl⟩ := ht
    show (link as.1 (some as.2) g).1 = (link as.1 (some as.2) (R.seed 0)).1
    rw [hseed]

theorem sampleEdges_ok {A β : Type} (cands : List A) (link : A → Option ℕ → R.S → Except Err (Option β) × R.S) (o : A → ℕ → Option β)
    (hseed : ∀ a s g g', link a (some s) g = link a (some s) g') (ho : ∀ a ∈ cands, ∀ s, (link a (some s) (R.seed 0)).1 = .ok (o a s))
    (env : Env R) (henv : ∀ T, (env T).Complete) (seed : Option ℕ) (g : R.S) :
    sampleEdges R cands link env seed g = .ok ((cands.zip (drawSeeds R cands.length (reseed R seed g)).1).filterMap fun as => o as.1 as.2) := by
  rw [sampleEdges_eq R cands link hseed env henv]
  rw [List.mapM_map, mapM_ok _ _ (fun as : A × ℕ => o as.1 as.2)]
  · show Except.ok _ = _
    congr 1
    beta_reduce
    rw [List.filterMap_map]; rfl
  · intro as has
    exact ho as.1 (List.of_mem_zip has).1 as.2

/-- the uniform number used for a task with seed `s` -/
def unif (s : ℕ) : ℝ := (R.random_sample (R.seed s)).1

open Classical in
theorem link_cm_eq (a b : ℕ × ℝ) (s : ℕ) (g : R.S) :
    (is_a_link_cm R a b (some s) g).1 = .ok (if unif R s < a.2 * b.2 / (1 + a.2 * b.2) then some (a.1, b.1) else none) := by
  by_cases h : (R.random_sample (R.seed s)).1 < a.2 * b.2 / (1 + a.2 * b.2)
  · simp only [is_a_link_cm, unif, reseed, h, if_true]
  · simp only [is_a_link_cm, unif, reseed, h, if_false]

open Classical in
theorem link_dcm_eq (a b : ℕ × ℝ) (s : ℕ) (g : R.S) :
    (is_a_link_dcm R a b (some s) g).1 = .ok (if unif R s < a.2 * b.2 / (1 + a.2 * b.2) then some (a.1, b.1) else none) := by
  by_cases h : (R.random_sample (R.seed s)).1 < a.2 * b.2 / (1 + a.2 * b.2)
  · simp only [is_a_link_dcm, unif, reseed, h, if_true]
  · simp only [is_a_link_dcm, unif, reseed, h, if_false]

open Classical in
theorem link_ecm_eq (a b : ℕ × ℝ × ℝ) (s : ℕ) (g : R.S) (h0 : 0 ≤ a.2.2 * b.2.2) (h1 : a.2.2 * b.2.2 < 1) :
    (is_a_link_ecm R a b (some s) g).1 = .ok (if unif R s < (a.2.1 * b.2.1) * (a.2.2 * b.2.2) / (1 - a.2.2 * b.2.2 + (a.2.1 * b.2.1) * (a.2.2 * b.2.2)) then
      some (a.1, b.1, (R.geometric (1 - a.2.2 * b.2.2) (R.random_sample (R.seed s)).2).1) else none) := by
  have hg : 0 < 1 - a.2.2 * b.2.2 ∧ 1 - a.2.2 * b.2.2 ≤ 1 := ⟨by linarith, by linarith⟩
  by_cases h : (R.random_sample (R.seed s)).1 < (a.2.1 * b.2.1) * (a.2.2 * b.2.2) / (1 - a.2.2 * b.2.2 + (a.2.1 * b.2.1) * (a.2.2 * b.2.2))
  · simp only [is_a_link_ecm, geometricE, unif, reseed, h, hg, and_self, if_true]; rfl
  · simp only [is_a_link_ecm, unif, reseed, h, if_false]

open Classical in
theorem link_decm_eq (a b : ℕ × ℝ × ℝ) (s : ℕ) (g : R.S) (h0 : 0 ≤ a.2.2 * b.2.2) (h1 : a.2.2 * b.2.2 < 1) :
    (is_a_link_decm R a b (some s) g).1 = .ok (if unif R s < (a.2.1 * b.2.1) * (a.2.2 * b.2.2) / (1 - a.2.2 * b.2.2 + (a.2.1 * b.2.1) * (a.2.2 * b.2.2)) then
      some (a.1, b.1, (R.geometric (1 - a.2.2 * b.2.2) (R.random_sample (R.seed s)).2).1) else none) := link_ecm_eq R a b s g h0 h1

theorem link_crema_det_eq (a b : ℕ × ℝ) (s : ℕ) (g : R.S) (h : 0 < a.2 + b.2) :
    (is_a_link_crema_det R a b (some s) g).1 = .ok (some (a.1, b.1, 1 / (a.2 + b.2) * (R.standard_exponential (R.seed s)).1)) := by
  unfold is_a_link_crema_det exponentialE
  simp only [reseed]
  rw [if_pos (by positivity)]
  rfl

open Classical in
theorem link_crema_prob_eq (a b : ℕ × ℝ) (p : ℝ) (s : ℕ) (g : R.S) (h : 0 < a.2 + b.2) :
    (is_a_link_crema_prob R a b p (some s) g).1 = .ok (if unif R s < p then
      some (a.1, b.1, 1 / (a.2 + b.2) * (R.standard_exponential (R.random_sample (R.seed s)).2).1) else none) := by
  have hg : (0 : ℝ) ≤ 1 / (a.2 + b.2) := by positivity
  by_cases h : (R.random_sample (R.seed s)).1 < p
  · simp only [is_a_link_crema_prob, exponentialE, unif, reseed, h, hg, if_true]; rfl
  · simp only [is_a_link_crema_prob, unif, reseed, h, if_false]

open Classical in
theorem link_crema_sparse_prob_eq (a b : ℕ × ℝ × ℝ) (s : ℕ) (g : R.S) (h : 0 < a.2.1 + b.2.1) :
    (is_a_link_crema_sparse_prob R a b (some s) g).1 = .ok (if unif R s < a.2.2 * b.2.2 / (1 + b.2.2 * a.2.2) then
      some (a.1, b.1, 1 / (a.2.1 + b.2.1) * (R.standard_exponential (R.random_sample (R.seed s)).2).1) else none) := by
  have hg : (0 : ℝ) ≤ 1 / (a.2.1 + b.2.1) := by positivity
  by_cases h : (R.random_sample (R.seed s)).1 < a.2.2 * b.2.2 / (1 + b.2.2 * a.2.2)
  · simp only [is_a_link_crema_sparse_prob, exponentialE, unif, reseed, h, hg, if_true]; rfl
  · simp only [is_a_link_crema_sparse_prob, unif, reseed, h, if_false]

/-! ### candidate pairs -/

open Spec

theorem mem_pairsLt {n : ℕ} (e : Fin n × Fin n) : e ∈ pairsLt n ↔ e.1 < e.2 := by
  unfold pairsLt
  simp only [List.mem_flatMap, List.mem_filterMap, List.mem_finRange, true_and]
  constructor
  · rintro ⟨i, j, h⟩
    split at h
    · obtain rfl := Option.some.inj h; assumption
    · cases h
  · intro h; exact ⟨e.1, e.2, if_pos h⟩

theorem mem_pairsNe {n : ℕ} (e : Fin n × Fin n) : e ∈ pairsNe n ↔ e.1 ≠ e.2 := by
  unfold pairsNe
  simp only [List.mem_flatMap, List.mem_filterMap, List.mem_finRange, true_and]
  constructor
  · rintro ⟨i, j, h⟩
    split at h
    · obtain rfl := Option.some.inj h; assumption
    · cases h
  · intro h; exact ⟨e.1, e.2, if_pos h⟩

theorem pairs_sorted {n : ℕ} (P : Fin n → Fin n → Prop) [∀ i j, Decidable (P i j)] :
    ((List.finRange n).flatMap fun i => (List.finRange n).filterMap fun j => if P i j then some (i, j) else none).Pairwise
      fun a b => LexLt (a.1.val, a.2.val) (b.1.val, b.2.val) := by
  rw [List.pairwise_flatMap]
  have hs : (List.finRange n).Pairwise (· < ·) := List.pairwise_lt_finRange n
  constructor
  · intro i _
    rw [List.pairwise_filterMap]
    refine hs.imp ?_
    intro j j' hjj a ha b hb
    split at ha <;> cases ha
    split at hb <;> cases hb
    exact Or.inr ⟨rfl, hjj⟩
  · refine hs.imp ?_
    intro i i' hii a ha b hb
    simp only [List.mem_filterMap] at ha hb
    obtain ⟨j, _, ha⟩ := ha
    obtain ⟨j', _, hb⟩ := hb
    split at ha <;> cases ha
    split at hb <;> cases hb
    exact Or.inl hii

theorem pairsLt_sorted (n : ℕ) : (pairsLt n).Pairwise fun a b => LexLt (a.1.val, a.2.val) (b.1.val, b.2.val) := pairs_sorted _
theorem pairsNe_sorted (n : ℕ) : (pairsNe n).Pairwise fun a b => LexLt (a.1.val, a.2.val) (b.1.val, b.2.val) := pairs_sorted _

/-- the links of a sampled list, in order, are a sublist of the candidates -/
theorem filterMap_zip_sublist {A β γ : Type} (cands : List A) (seeds : List ℕ) (o : A → ℕ → Option β) (key : β → γ) (keyA : A → γ)
    (h : ∀ a s b, o a s = some b → key b = keyA a) :
    (((cands.zip seeds).filterMap fun as => o as.1 as.2).map key).Sublist (cands.map keyA) := by
  induction cands generalizing seeds with
  | nil => simp
  | cons a cands ih =>
    cases seeds with
    | nil => simp
    | cons s seeds =>
      rw [List.zip_cons_cons, List.filterMap_cons, List.map_cons]
      cases ho : o a s with
      | none => exact (ih seeds).cons _
      | some b =>
        simp only [List.map_cons]
        rw [h a s b ho]
        exact (ih seeds).cons_cons _

/-! ### text files -/

theorem readNat_toDigits (k : ℕ) : readNat (Nat.toDigits 10 k) = some k := by
  unfold readNat
  rw [if_pos, Nat.ofDigitChars_ten_toDigits]
  exact ⟨Nat.toDigits_ne_nil, List.all_eq_true.2 fun c hc => Nat.isDigit_of_mem_toDigits (by decide) (by decide) hc⟩

theorem toDigits_ne (k : ℕ) (c : Char) (hc : c.isDigit = false) : c ∉ Nat.toDigits 10 k := by
  intro h
  rw [Nat.isDigit_of_mem_toDigits (by decide) (by decide) h] at hc
  cases hc

theorem toString_toList (k : ℕ) : (toString k).toList = Nat.toDigits 10 k := by
  rw [Nat.toString_eq_repr, Nat.toList_repr]

theorem toString_inj {j k : ℕ} (h : toString j = toString k) : j = k := by
  have := congrArg (fun s : String => readNat s.toList) h
  simp only [toString_toList, readNat_toDigits] at this
  exact Option.some.inj this

theorem lines_cons (l : List Char) (h : '\n' ∉ l) (rest : String) : lines (String.ofList l ++ "\n" ++ rest) = l :: lines rest := by
  unfold lines
  rw [String.toList_append, String.toList_append, String.toList_ofList]
  show ((l ++ ['\n'] ++ rest.toList).splitOn '\n').dropLast = _
  rw [List.append_assoc, List.singleton_append, List.splitOn_append_cons_self, List.splitOn_eq_singleton h, List.singleton_append, List.dropLast_cons_of_ne_nil]
  exact List.splitOn_ne_nil _ _

theorem readPair_line (i j : ℕ) : readPair (Nat.toDigits 10 i ++ ' ' :: Nat.toDigits 10 j) = some (i, j) := by
  unfold readPair
  rw [List.splitOn_append_cons_self, List.splitOn_eq_singleton (toDigits_ne _ _ rfl), List.splitOn_eq_singleton (toDigits_ne _ _ rfl)]
  simp only [List.singleton_append, readNat_toDigits]
  rfl

theorem readTriple_line {β : Type} (rd : List Char → Option β) (i j : ℕ) (c : List Char) (w : β) (hc : ' ' ∉ c) (hw : rd c = some w) :
    readTriple rd (Nat.toDigits 10 i ++ ' ' :: (Nat.toDigits 10 j ++ ' ' :: c)) = some (i, j, w) := by
  unfold readTriple
  rw [List.splitOn_append_cons_self, List.splitOn_append_cons_self, List.splitOn_eq_singleton (toDigits_ne _ _ rfl),
    List.splitOn_eq_singleton (toDigits_ne _ _ rfl), List.splitOn_eq_singleton hc]
  simp only [List.singleton_append, readNat_toDigits, hw]
  rfl

theorem parse_render (es : List (ℕ × ℕ)) : parse (render es) = some es := by
  induction es with
  | nil => rfl
  | cons e es ih =>
    have h : render (e :: es) = String.ofList (Nat.toDigits 10 e.1 ++ ' ' :: Nat.toDigits 10 e.2) ++ "\n" ++ render es := by
      unfold render
      rw [← String.toList_inj, List.map_cons]
      simp only [String.toList_join, List.flatMap_cons, String.toList_append, String.toList_ofList, toString_toList]
      simp
    unfold parse at ih ⊢
    rw [h, lines_cons, List.mapM_cons, readPair_line, ih]
    · rfl
    · rw [List.mem_append, List.mem_cons]
      rintro (h | h | h)
      · exact toDigits_ne _ _ rfl h
      · exact absurd h (by decide)
      · exact toDigits_ne _ _ rfl h

theorem parseW_renderW {β : Type} (fmt : β → String) (rd : List Char → Option β) (es : List (ℕ × ℕ × β))
    (h : ∀ e ∈ es, rd (fmt e.2.2).toList = some e.2.2 ∧ ' ' ∉ (fmt e.2.2).toList ∧ '\n' ∉ (fmt e.2.2).toList) : parseW rd (renderW fmt es) = some es := by
  induction es with
  | nil => rfl
  | cons e es ih =>
    have hl : renderW fmt (e :: es) = String.ofList (Nat.toDigits 10 e.1 ++ ' ' :: (Nat.toDigits 10 e.2.1 ++ ' ' :: (fmt e.2.2).toList)) ++ "\n" ++ renderW fmt es := by
      unfold renderW
      rw [← String.toList_inj, List.map_cons]
      simp only [String.toList_join, List.flatMap_cons, String.toList_append, String.toList_ofList, toString_toList]
      simp
    have ih := ih fun e' he' => h e' (by simp [he'])
    obtain ⟨h1, h2, h3⟩ := h e (by simp)
    unfold parseW at ih ⊢
    rw [hl, lines_cons, List.mapM_cons, readTriple_line rd _ _ _ _ h2 h1, ih]
    · rfl
    · rw [List.mem_append, List.mem_cons, List.mem_append, List.mem_cons]
      rintro (h | h | h | h | h)
      · exact toDigits_ne _ _ rfl h
      · exact absurd h (by decide)
      · exact toDigits_ne _ _ rfl h
      · exact absurd h (by decide)
      · exact h3 h

end Verif.Sampler
