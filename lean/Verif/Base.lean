import Verif.Attr
import Mathlib.Data.Real.Basic
import Mathlib.Algebra.BigOperators.Fin
import Mathlib.Algebra.BigOperators.Pi
import Mathlib.Data.Fintype.BigOperators
import Mathlib.Tactic.Ring
import Mathlib.Tactic.Linarith

/-!
Vocabulary used to transcribe the numba loops of `/repo/src/NEMtropy/*.py`.

* `forR n body s`     :  `for i in np.arange(n): s = body(i, s)`
* `forL l body s`     :  `for e in l: s = body(e, s)`
* `addAt f i v`       :  `f[i] += v`          (and `subAt` : `f[i] -= v`, `setAt` : `f[i] = v`)
* `addAt2 f i j v`    :  `f[i, j] += v`       (and `setAt2`)

Arrays are functions from an index type: `Fin n` for a vector of length `n`; a vector of length `2n` or `4n`
that the code addresses as `f[i]`, `f[i + n]`, `f[i + 2*n]`, ... is a function on
`Fin 2 × Fin n` / `Fin 4 × Fin n`, the pair `(b, i)` standing for position `b*n + i`.
-/

set_option linter.unusedSimpArgs false

namespace Verif

open Finset

variable {σ α ι κ : Type*} [DecidableEq ι] [DecidableEq κ]

/-- `for e in l: s = body(e, s)` (any Python `for` loop over a list). -/
def forL (l : List α) (body : α → σ → σ) (s : σ) : σ := l.foldl (fun s e => body e s) s

/-- `for i in np.arange(n): s = body(i, s)`. -/
def forR (n : ℕ) (body : Fin n → σ → σ) (s : σ) : σ := forL (List.finRange n) body s

/-- `f[i] = v`. -/
def setAt (f : ι → α) (i : ι) (v : α) : ι → α := Function.update f i v

/-- `f[i] += v`. -/
def addAt [Add α] (f : ι → α) (i : ι) (v : α) : ι → α :=
  Function.update f i (f i + v)

/-- `f[i] -= v`. -/
def subAt [Sub α] (f : ι → α) (i : ι) (v : α) : ι → α :=
  Function.update f i (f i - v)

/-- `f[i, j] = v`. -/
def setAt2 (f : ι → κ → α) (i : ι) (j : κ) (v : α) : ι → κ → α :=
  Function.update f i (Function.update (f i) j v)

/-- `f[i, j] += v`. -/
def addAt2 [Add α] (f : ι → κ → α) (i : ι) (j : κ) (v : α) : ι → κ → α :=
  Function.update f i (Function.update (f i) j (f i j + v))

/-- `f[i, j] = g(f[i, j])`, e.g. `f[i, j] = f[i, j] + v`. -/
def updAt2 (f : ι → κ → α) (i : ι) (j : κ) (g : α → α) : ι → κ → α :=
  Function.update f i (Function.update (f i) j (g (f i j)))

/-- `f[i, j] = f[k, l]`. -/
def copyAt2 (f : ι → κ → α) (i : ι) (j : κ) (k : ι) (l : κ) : ι → κ → α :=
  Function.update f i (Function.update (f i) j (f k l))

/-- the array with the single non-zero entry `v` at `(i, j)` -/
def single2 [Zero α] (i : ι) (j : κ) (v : α) : ι → κ → α :=
  Pi.single i (Pi.single j v)

section lemmas

theorem forL_nil (body : α → σ → σ) (s : σ) : forL [] body s = s := rfl

theorem forL_cons (a : α) (l : List α) (body : α → σ → σ) (s : σ) :
    forL (a :: l) body s = forL l body (body a s) := rfl

/-- an accumulating loop is a sum -/
theorem forL_add [AddCommMonoid σ] (l : List α) (g : α → σ) (s : σ) :
    forL l (fun e s => s + g e) s = s + (l.map g).sum := by
  induction l generalizing s with
  | nil => simp [forL]
  | cons a l ih => rw [forL_cons, ih]; simp [add_assoc]

theorem forR_add {n : ℕ} [AddCommMonoid σ] (g : Fin n → σ) (s : σ) :
    forR n (fun i s => s + g i) s = s + ∑ i, g i := by
  rw [forR, forL_add, ← List.ofFn_eq_map, List.sum_ofFn]

theorem forL_congr (l : List α) {b b' : α → σ → σ} (h : ∀ e s, b e s = b' e s) (s : σ) :
    forL l b s = forL l b' s := by
  have : b = b' := by funext e s; exact h e s
  rw [this]

theorem forR_congr {n : ℕ} {b b' : Fin n → σ → σ} (h : ∀ e s, b e s = b' e s) (s : σ) :
    forR n b s = forR n b' s := forL_congr _ h s

theorem addAt_eq [AddCommMonoid α] (f : ι → α) (i : ι) (v : α) :
    addAt f i v = f + Pi.single i v := by
  funext j; by_cases h : j = i
  · subst h; simp [addAt]
  · simp [addAt, h]

theorem subAt_eq [AddCommGroup α] (f : ι → α) (i : ι) (v : α) :
    subAt f i v = f + Pi.single i (-v) := by
  funext j; by_cases h : j = i
  · subst h; simp [subAt, sub_eq_add_neg]
  · simp [subAt, h]

theorem addAt2_eq [AddCommMonoid α] (f : ι → κ → α) (i : ι) (j : κ) (v : α) :
    addAt2 f i j v = f + single2 i j v := by
  funext a b; by_cases h : a = i
  · subst h
    by_cases h' : b = j
    · subst h'; simp [addAt2, single2]
    · simp [addAt2, single2, h']
  · simp [addAt2, single2, h]

theorem single2_apply [Zero α] (i : ι) (j : κ) (v : α) (a : ι) (b : κ) :
    single2 i j v a b = if a = i ∧ b = j then v else 0 := by
  by_cases h : a = i
  · subst h; by_cases h' : b = j
    · subst h'; simp [single2]
    · simp [single2, h']
  · simp [single2, h]

/-- pull the accumulator out of a conditional -/
theorem ite_acc [Add σ] (p : Prop) [Decidable p] (s a b : σ) :
    (if p then s + a else s + b) = s + if p then a else b := by
  split <;> rfl

theorem ite_acc_left [AddZeroClass σ] (p : Prop) [Decidable p] (s a : σ) :
    (if p then s + a else s) = s + if p then a else 0 := by
  split <;> simp

theorem ite_acc_right [AddZeroClass σ] (p : Prop) [Decidable p] (s b : σ) :
    (if p then s else s + b) = s + if p then 0 else b := by
  split <;> simp

theorem ite_single [Zero α] (p : Prop) [Decidable p] (i : ι) (a b : α) :
    (if p then (Pi.single i a : ι → α) else Pi.single i b) = Pi.single i (if p then a else b) := by
  split <;> rfl

theorem ite_single_zero [Zero α] (p : Prop) [Decidable p] (i : ι) (a : α) :
    (if p then (Pi.single i a : ι → α) else 0) = Pi.single i (if p then a else 0) := by
  split <;> simp

theorem sum_single_same {κ' : Type*} [AddCommMonoid α] (s : Finset κ') (i : ι) (g : κ' → α) :
    (∑ j ∈ s, (Pi.single i (g j) : ι → α)) = Pi.single i (∑ j ∈ s, g j) := by
  funext m
  by_cases h : m = i
  · subst h; simp
  · simp [Finset.sum_apply, h]

theorem single_add_single [AddCommMonoid α] (i : ι) (a b : α) :
    (Pi.single i a + Pi.single i b : ι → α) = Pi.single i (a + b) := by
  funext m
  by_cases h : m = i
  · subst h; simp
  · simp [h]

theorem sum_single_univ {n : ℕ} [AddCommMonoid α] (g : Fin n → α) :
    (∑ i, (Pi.single i (g i) : Fin n → α)) = g := Finset.univ_sum_single g

omit [DecidableEq ι] in
theorem zeroFn [Zero α] : (fun _ : ι => (0 : α)) = 0 := rfl

attribute [loop_simp] forR_add forL_add addAt_eq subAt_eq ite_acc ite_acc_left ite_acc_right ite_single
  ite_single_zero sum_single_same single_add_single sum_single_univ zero_add add_assoc
  sub_eq_add_neg

/-- A property that every iteration preserves and some iteration establishes holds after the loop. -/
theorem forL_reach (P : σ → Prop) (l : List α) (body : α → σ → σ) (s : σ)
    (hpres : ∀ e ∈ l, ∀ s, P s → P (body e s)) (e₀ : α) (he : e₀ ∈ l)
    (hest : ∀ s, P (body e₀ s)) : P (forL l body s) := by
  have keep : ∀ (l' : List α) (s : σ), (∀ e ∈ l', ∀ s, P s → P (body e s)) → P s →
      P (forL l' body s) := by
    intro l'
    induction l' with
    | nil => intro s _ h; exact h
    | cons a l' ih =>
      intro s hp h
      rw [forL_cons]
      exact ih _ (fun e he => hp e (List.mem_cons_of_mem _ he)) (hp a List.mem_cons_self s h)
  induction l generalizing s with
  | nil => simp at he
  | cons a l ih =>
    rw [forL_cons]
    by_cases h : e₀ ∈ l
    · exact ih _ (fun e he => hpres e (List.mem_cons_of_mem _ he)) h
    · have : e₀ = a := by
        rcases List.mem_cons.1 he with h' | h'
        · exact h'
        · exact absurd h' h
      subst this
      exact keep l _ (fun e he => hpres e (List.mem_cons_of_mem _ he)) (hest s)

/-- loop invariant -/
theorem forL_inv (P : σ → Prop) (l : List α) (body : α → σ → σ) (s : σ)
    (hpres : ∀ e ∈ l, ∀ s, P s → P (body e s)) (h : P s) : P (forL l body s) := by
  induction l generalizing s with
  | nil => exact h
  | cons a l ih =>
    rw [forL_cons]
    exact ih _ (fun e he => hpres e (List.mem_cons_of_mem _ he)) (hpres a List.mem_cons_self s h)

theorem forR_reach {n : ℕ} (P : σ → Prop) (body : Fin n → σ → σ) (s : σ)
    (hpres : ∀ e, ∀ s, P s → P (body e s)) (e₀ : Fin n)
    (hest : ∀ s, P (body e₀ s)) : P (forR n body s) :=
  forL_reach P _ body s (fun e _ => hpres e) e₀ (List.mem_finRange _) hest

theorem forR_inv {n : ℕ} (P : σ → Prop) (body : Fin n → σ → σ) (s : σ)
    (hpres : ∀ e, ∀ s, P s → P (body e s)) (h : P s) : P (forR n body s) :=
  forL_inv P _ body s (fun e _ => hpres e) h

theorem setAt2_apply (f : ι → κ → α) (i : ι) (j : κ) (v : α) (a : ι)
    (b : κ) : setAt2 f i j v a b = if a = i ∧ b = j then v else f a b := by
  by_cases h : a = i
  · subst h; by_cases h' : b = j
    · subst h'; simp [setAt2]
    · simp [setAt2, h']
  · simp [setAt2, h]

theorem updAt2_apply (f : ι → κ → α) (i : ι) (j : κ) (g : α → α) (a : ι) (b : κ) :
    updAt2 f i j g a b = if a = i ∧ b = j then g (f a b) else f a b := by
  have : updAt2 f i j g = setAt2 f i j (g (f i j)) := rfl
  rw [this, setAt2_apply]
  split
  · next h => rw [h.1, h.2]
  · rfl

theorem copyAt2_apply (f : ι → κ → α) (i : ι) (j : κ) (k : ι) (l : κ) (a : ι) (b : κ) :
    copyAt2 f i j k l a b = if a = i ∧ b = j then f k l else f a b :=
  setAt2_apply f i j (f k l) a b

theorem setAt_apply (f : ι → α) (i : ι) (v : α) (a : ι) :
    setAt f i v a = if a = i then v else f a := by
  by_cases h : a = i
  · subst h; simp [setAt]
  · simp [setAt, h]

/-- `for i: for j in arange(i, n): f[i,j] = f[j,i] = g(i,j)` -/
theorem symWrite_le {n : ℕ} (g : Fin n → Fin n → α) (f : Fin n → Fin n → α) (a b : Fin n) :
    forR n (fun i f => forR n (fun j f =>
      if i ≤ j then setAt2 (setAt2 f i j (g i j)) j i (g i j) else f) f) f a b
      = if a ≤ b then g a b else g b a := by
  have key : ∀ i j : Fin n, ∀ s : Fin n → Fin n → α,
      s a b = (if a ≤ b then g a b else g b a) →
      (if i ≤ j then setAt2 (setAt2 s i j (g i j)) j i (g i j) else s) a b
        = (if a ≤ b then g a b else g b a) := by
    intro i j s hs
    by_cases hij : i ≤ j
    · simp only [hij, if_true, setAt2_apply]
      by_cases h1 : a = j ∧ b = i
      · obtain ⟨rfl, rfl⟩ := h1
        by_cases h : a ≤ b
        · have : a = b := le_antisymm h hij
          subst this; simp
        · simp [h]
      · by_cases h2 : a = i ∧ b = j
        · obtain ⟨rfl, rfl⟩ := h2
          simp [hij]
        · simp [h1, h2, hs]
    · simpa [hij] using hs
  refine forR_reach (fun s => s a b = _) _ f ?_ (min a b) ?_
  · intro i s hs
    exact forR_inv (fun s => s a b = _) _ s (fun j s hs => key i j s hs) hs
  · intro s
    refine forR_reach (fun s => s a b = _) _ s (fun j s hs => key _ j s hs) (max a b) ?_
    intro s
    rcases le_total a b with h | h
    · simp [h, min_eq_left h, max_eq_right h, setAt2_apply]
    · rcases eq_or_lt_of_le h with h' | h'
      · subst h'; simp [setAt2_apply]
      · have h'' : ¬ a ≤ b := not_le.2 h'
        simp [h'', min_eq_right h, max_eq_left h, setAt2_apply, h]

/-- `for i: for j in arange(i+1, n): f[i,j] = f[j,i] = g(i,j)` -/
theorem symWrite_lt {n : ℕ} (g : Fin n → Fin n → α) (f : Fin n → Fin n → α) (a b : Fin n) :
    forR n (fun i f => forR n (fun j f =>
      if i < j then setAt2 (setAt2 f i j (g i j)) j i (g i j) else f) f) f a b
      = if a < b then g a b else if b < a then g b a else f a b := by
  have key : ∀ i j : Fin n, ∀ s : Fin n → Fin n → α,
      s a b = (if a < b then g a b else if b < a then g b a else f a b) →
      (if i < j then setAt2 (setAt2 s i j (g i j)) j i (g i j) else s) a b
        = (if a < b then g a b else if b < a then g b a else f a b) := by
    intro i j s hs
    by_cases hij : i < j
    · simp only [hij, if_true, setAt2_apply]
      by_cases h1 : a = j ∧ b = i
      · obtain ⟨rfl, rfl⟩ := h1
        simp [hij, not_lt_of_gt hij]
      · by_cases h2 : a = i ∧ b = j
        · obtain ⟨rfl, rfl⟩ := h2
          simp [hij, hij.ne]
        · simp [h1, h2, hs]
    · simpa [hij] using hs
  rcases lt_trichotomy a b with h | h | h
  · refine forR_reach (fun s => s a b = _) _ f ?_ a ?_
    · intro i s hs
      exact forR_inv (fun s => s a b = _) _ s (fun j s hs => key i j s hs) hs
    · intro s
      refine forR_reach (fun s => s a b = _) _ s (fun j s hs => key _ j s hs) b ?_
      intro s
      simp [h, setAt2_apply, h.ne]
  · subst h
    refine forR_inv (fun s => s a a = _) _ f ?_ ?_
    · intro i s hs
      exact forR_inv (fun s => s a a = _) _ s (fun j s hs => key i j s hs) hs
    · simp
  · refine forR_reach (fun s => s a b = _) _ f ?_ b ?_
    · intro i s hs
      exact forR_inv (fun s => s a b = _) _ s (fun j s hs => key i j s hs) hs
    · intro s
      refine forR_reach (fun s => s a b = _) _ s (fun j s hs => key _ j s hs) a ?_
      intro s
      simp [h, not_lt_of_gt h, setAt2_apply]

/-- a loop whose iteration `i` writes only cell `i`, conditionally -/
theorem forR_set_ite {n : ℕ} (p : Fin n → Prop) [DecidablePred p] (g : Fin n → α) (f : Fin n → α)
    (m : Fin n) :
    forR n (fun i f => if p i then setAt f i (g i) else f) f m = if p m then g m else f m := by
  by_cases hm : p m
  · refine forR_reach (fun s => s m = _) _ f ?_ m ?_
    · intro e s hs
      by_cases he : p e
      · by_cases h : m = e
        · subst h; simp [hm, setAt]
        · simp [he, setAt, h, hs]
      · simpa [he] using hs
    · intro s; simp [hm, setAt]
  · refine forR_inv (fun s => s m = _) _ f ?_ ?_
    · intro e s hs
      by_cases he : p e
      · have h : m ≠ e := fun h => hm (h ▸ he)
        simp [he, setAt, h, hs]
      · simpa [he] using hs
    · simp [hm]

omit [DecidableEq ι] in
/-- reading one cell of a sum of arrays of which only summand `m` touches the cell -/
theorem sum_eval_single {n : ℕ} [AddCommMonoid α] (G : Fin n → ι → α) (v : ι) (m : Fin n)
    (h : ∀ i, i ≠ m → G i v = 0) : (∑ i, G i) v = G m v := by
  rw [Finset.sum_apply, Finset.sum_eq_single m]
  · intro b _ hb; exact h b hb
  · simp

/-- `for i: for j in arange(i, n): body(i,j)` : a fact established by iteration `(a,b)` and kept by all others -/
theorem tri_write {n : ℕ} (P : σ → Prop) (body : Fin n → Fin n → σ → σ) (a b : Fin n) (hab : a ≤ b)
    (hest : ∀ s, P (body a b s))
    (hpres : ∀ i j, i ≤ j → ¬ (i = a ∧ j = b) → ∀ s, P s → P (body i j s)) (s : σ) :
    P (forR n (fun i s => forR n (fun j s => if i ≤ j then body i j s else s) s) s) := by
  have key : ∀ i j : Fin n, ∀ s, P s → P (if i ≤ j then body i j s else s) := by
    intro i j s hs
    by_cases hij : i ≤ j
    · rw [if_pos hij]
      by_cases h : i = a ∧ j = b
      · obtain ⟨rfl, rfl⟩ := h; exact hest s
      · exact hpres i j hij h s hs
    · rwa [if_neg hij]
  refine forR_reach P _ s ?_ a ?_
  · intro i s hs
    exact forR_inv P _ s (fun j s hs => key i j s hs) hs
  · intro s
    refine forR_reach P _ s (fun j s hs => key a j s hs) b ?_
    intro s
    rw [if_pos hab]; exact hest s

omit [DecidableEq ι] in
/-- a cell written by iteration `m` only -/
theorem forR_cell {n : ℕ} (body : Fin n → (ι → α) → (ι → α)) (v : ι) (m : Fin n) (T : α)
    (hm : ∀ f, body m f v = T) (hne : ∀ i, i ≠ m → ∀ f, body i f v = f v) (f : ι → α) :
    forR n body f v = T := by
  refine forR_reach (fun f => f v = T) _ f ?_ m hm
  intro i f hf
  by_cases h : i = m
  · subst h; exact hm f
  · rw [hne i h f]; exact hf

omit [DecidableEq ι] [DecidableEq κ] in
/-- `for i: for j in arange(i, n): body(i,j)`: a cell `(v,w)` written by iteration `(a,b)` only -/
theorem tri_cell {n : ℕ} (body : Fin n → Fin n → (ι → κ → α) → (ι → κ → α)) (v : ι) (w : κ) (a b : Fin n)
    (hab : a ≤ b) (T : α) (hest : ∀ f, body a b f v w = T)
    (hpres : ∀ i j, i ≤ j → ¬ (i = a ∧ j = b) → ∀ f, body i j f v w = f v w) (f : ι → κ → α) :
    forR n (fun i s => forR n (fun j s => if i ≤ j then body i j s else s) s) f v w = T := by
  refine tri_write (fun f => f v w = T) body a b hab hest ?_ f
  intro i j hij hne f hf
  rw [hpres i j hij hne f]; exact hf

/-! observing one cell of the state of a loop over a list -/

/-- every iteration adds `g e` to the observed quantity -/
theorem forL_obs_add {M : Type*} [AddCommMonoid M] (obs : σ → M) (l : List α) (body : α → σ → σ) (g : α → M)
    (h : ∀ e s, obs (body e s) = obs s + g e) (s : σ) : obs (forL l body s) = obs s + (l.map g).sum := by
  induction l generalizing s with
  | nil => simp [forL]
  | cons a l ih => rw [forL_cons, ih, h]; simp [add_assoc]

/-- no iteration changes the observed quantity -/
theorem forL_obs_keep {M : Type*} (obs : σ → M) (l : List α) (body : α → σ → σ)
    (h : ∀ e ∈ l, ∀ s, obs (body e s) = obs s) (s : σ) : obs (forL l body s) = obs s :=
  forL_inv (fun s' => obs s' = obs s) l body s (fun e he s' hs => (h e he s').trans hs) rfl

/-- exactly the iteration `e₀` writes the observed quantity -/
theorem forL_obs_set {M : Type*} (obs : σ → M) (l : List α) (body : α → σ → σ) (e₀ : α) (T : M)
    (hset : ∀ s, obs (body e₀ s) = T) (hkeep : ∀ e, e ≠ e₀ → ∀ s, obs (body e s) = obs s) (he : e₀ ∈ l) (s : σ) :
    obs (forL l body s) = T := by
  classical
  refine forL_reach (fun s => obs s = T) l body s ?_ e₀ he hset
  intro e _ s hs
  by_cases h : e = e₀
  · subst h; exact hset s
  · rw [hkeep e h s]; exact hs

/-- the same, with the case that `e₀` is not visited -/
theorem forL_obs_set_ite {M : Type*} [DecidableEq α] (obs : σ → M) (l : List α) (body : α → σ → σ) (e₀ : α) (T : M)
    (hset : ∀ s, obs (body e₀ s) = T) (hkeep : ∀ e, e ≠ e₀ → ∀ s, obs (body e s) = obs s) (s : σ) :
    obs (forL l body s) = if e₀ ∈ l then T else obs s := by
  split
  · next h => exact forL_obs_set obs l body e₀ T hset hkeep h s
  · next h => exact forL_obs_keep obs l body (fun e he s => hkeep e (fun h' => h (h' ▸ he)) s) s

omit [DecidableEq ι] in
theorem sum_map_nodup {M : Type*} [AddCommMonoid M] [DecidableEq α] (l : List α) (hl : l.Nodup) (g : α → M) :
    (l.map g).sum = ∑ i ∈ l.toFinset, g i := (List.sum_toFinset g hl).symm

/-- a loop over a list without repetitions of which only iteration `e₀` touches the observed quantity -/
theorem forL_obs_once {M : Type*} (obs : σ → M) (l : List α) (body : α → σ → σ) (e₀ : α) (G : M → M)
    (hset : ∀ s, obs (body e₀ s) = G (obs s)) (hkeep : ∀ e, e ≠ e₀ → ∀ s, obs (body e s) = obs s) (hl : l.Nodup) (he : e₀ ∈ l)
    (s : σ) : obs (forL l body s) = G (obs s) := by
  induction l generalizing s with
  | nil => simp at he
  | cons a l ih =>
    rw [forL_cons]
    rw [List.nodup_cons] at hl
    by_cases h : e₀ = a
    · subst h
      rw [forL_obs_keep obs l body (fun e he s => hkeep e (fun h => hl.1 (h ▸ he)) s), hset]
    · rw [ih hl.2 ((List.mem_cons.1 he).resolve_left h), hkeep a (Ne.symm h)]

/-- the same for `for i in arange(n)` -/
theorem forR_obs_once {n : ℕ} {M : Type*} (obs : σ → M) (body : Fin n → σ → σ) (e₀ : Fin n) (G : M → M)
    (hset : ∀ s, obs (body e₀ s) = G (obs s)) (hkeep : ∀ e, e ≠ e₀ → ∀ s, obs (body e s) = obs s) (s : σ) :
    obs (forR n body s) = G (obs s) :=
  forL_obs_once obs _ body e₀ G hset hkeep (List.nodup_finRange n) (List.mem_finRange _) s

theorem forR_obs_keep {n : ℕ} {M : Type*} (obs : σ → M) (body : Fin n → σ → σ)
    (h : ∀ e s, obs (body e s) = obs s) (s : σ) : obs (forR n body s) = obs s :=
  forL_obs_keep obs _ body (fun e _ => h e) s

theorem forR_obs_add {n : ℕ} {M : Type*} [AddCommMonoid M] (obs : σ → M) (body : Fin n → σ → σ) (g : Fin n → M)
    (h : ∀ e s, obs (body e s) = obs s + g e) (s : σ) : obs (forR n body s) = obs s + ∑ e, g e := by
  rw [forR, forL_obs_add obs _ body g h, ← List.ofFn_eq_map, List.sum_ofFn]

theorem forR_obs_set {n : ℕ} {M : Type*} (obs : σ → M) (body : Fin n → σ → σ) (e₀ : Fin n) (T : M)
    (hset : ∀ s, obs (body e₀ s) = T) (hkeep : ∀ e, e ≠ e₀ → ∀ s, obs (body e s) = obs s) (s : σ) :
    obs (forR n body s) = T :=
  forL_obs_set obs _ body e₀ T hset hkeep (List.mem_finRange _) s

/-- double loop, the observed quantity being touched by iteration `(a,b)` only -/
theorem grid_obs_once {n : ℕ} {M : Type*} (obs : σ → M) (body : Fin n → Fin n → σ → σ) (a b : Fin n) (G : M → M)
    (hset : ∀ s, obs (body a b s) = G (obs s)) (hkeep : ∀ i j, ¬ (i = a ∧ j = b) → ∀ s, obs (body i j s) = obs s) (s : σ) :
    obs (forR n (fun i s => forR n (fun j s => body i j s) s) s) = G (obs s) := by
  refine forR_obs_once obs _ a G ?_ ?_ s
  · intro s
    exact forR_obs_once obs _ b G hset (fun j hj => hkeep a j (fun h => hj h.2)) s
  · intro i hi s
    exact forR_obs_keep obs _ (fun j => hkeep i j (fun h => hi h.1)) s

end lemmas

end Verif
