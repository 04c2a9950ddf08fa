import Verif.Lemmas.Matgen
import Mathlib.Tactic.Linarith
import Mathlib.Tactic.NormNum
import Mathlib.Tactic.IntervalCases
import Mathlib.Tactic.Positivity

/-!
C39: what the dense random matrix generators return, when they return, and when they never return.

`gen fuel … g = some (A, g')`: the call returned the matrix `A` (and left the global generator in state `g'`) after at most `fuel` rounds of each repair loop.
-/

namespace Verif.Matgen

open Verif Finset Spec

open Classical in
attribute [local instance 0] propDecidable

variable {R : NpRandom} {n : ℕ}

/-! ### the values drawn -/

theorem bit_binary (g : R.S) : (bit R g).1 = 0 ∨ (bit R g).1 = 1 := by
  have h := R.randint_lt 2 g (by norm_num)
  unfold bit
  dsimp only
  generalize (R.randint 2 g).1 = k at h ⊢
  interval_cases k <;> simp

theorem uniform_range {w : ℝ} (hw : 0 ≤ w) (g : R.S) : 0 ≤ (uniform R w g).1 ∧ (uniform R w g).1 ≤ w := by
  unfold uniform
  exact ⟨mul_nonneg (R.random_nonneg g) hw, by nlinarith [R.random_nonneg g, R.random_lt g]⟩

theorem truncInt_half {a b : ℝ} (ha : a = 0 ∨ a = 1) (hb : b = 0 ∨ b = 1) : truncInt ((a + b) / 2) = a * b := by
  have h2 : ⌊(1 / 2 : ℝ)⌋ = 0 := by norm_num
  rcases ha with rfl | rfl <;> rcases hb with rfl | rfl <;> unfold truncInt <;> norm_num

theorem ceil_range {w x : ℝ} (h : 0 ≤ x ∧ x ≤ w) : (0 : ℝ) ≤ (⌈x⌉ : ℝ) ∧ (⌈x⌉ : ℝ) ≤ (⌈w⌉ : ℝ) :=
  ⟨by exact_mod_cast Int.ceil_nonneg h.1, by exact_mod_cast Int.ceil_le_ceil h.2⟩

theorem ceil_ne_zero {x : ℝ} (h0 : 0 ≤ x) (h : x ≠ 0) : (⌈x⌉ : ℝ) ≠ 0 := by
  have : 0 < ⌈x⌉ := Int.ceil_pos.2 (lt_of_le_of_ne h0 (Ne.symm h))
  exact_mod_cast this.ne'

theorem finish_spec {w : ℝ} {iw : Bool} {s : St R n} (hl : Loopless s.1) (he : WeightsUpTo w s.1) (hn : NoIsolatedNode s.1) :
    Loopless (finish R iw s).1 ∧ NoIsolatedNode (finish R iw s).1 ∧
      (iw = false → WeightsUpTo w (finish R iw s).1) ∧ (iw = true → IntegerM (finish R iw s).1 ∧ WeightsUpTo ⌈w⌉ (finish R iw s).1) := by
  cases iw
  · simpa [finish] using ⟨hl, hn, he⟩
  · simp only [finish, if_true]
    refine ⟨fun i => ?_, fun i => ?_, by simp, fun _ => ⟨fun i j => ⟨_, rfl⟩, fun i j => ceil_range (he i j)⟩⟩
    · simp [ceilM, hl i]
    · obtain ⟨j, hj, h⟩ := hn i
      exact ⟨j, hj, h.imp (ceil_ne_zero (he i j).1) (ceil_ne_zero (he j i).1)⟩

theorem finish_symm {iw : Bool} {s : St R n} (h : SymmetricM s.1) : SymmetricM (finish R iw s).1 := by
  cases iw
  · simpa [finish] using h
  · intro i j; simp [finish, ceilM, h i j]

/-! ### what is returned -/

/-- **C39** `random_binary_matrix_generator_dense`: whenever it returns, for every random stream, the matrix is binary, has a zero diagonal, no isolated node, and is
symmetric with `sym=True`. -/
theorem C39_binary_dense (fuel : ℕ) (sym : Bool) (seed : Option ℕ) (g g' : R.S) (A : Fin n → Fin n → ℝ)
    (h : random_binary_matrix_generator_dense R fuel n sym seed g = some (A, g')) :
    Loopless A ∧ BinaryM A ∧ NoIsolatedNode A ∧ (sym = true → SymmetricM A) := by
  unfold random_binary_matrix_generator_dense at h
  have hE := fillRandom_entries (n := n) (E := fun x => x = 0 ∨ x = 1) (.inl rfl) (bit_binary (R := R)) (R.seed seed g)
  cases sym
  · simp only [Bool.not_false, if_true] at h
    obtain ⟨h1, h2, -, h4⟩ := repair_inv (E := fun x => x = 0 ∨ x = 1) (.inl rfl) (weight := one R) (fun _ => .inr rfl) (.inr fun _ => one_ne_zero) fuel _ _
      (fill_diagonal_loopless _) (fill_diagonal_entries (.inl rfl) hE) h
    exact ⟨h1, h2, h4, by simp⟩
  · simp only [Bool.not_true, Bool.false_eq_true, if_false] at h
    obtain ⟨h1, h2, h3, -, h4⟩ := repairSym_inv (E := fun x => x = 0 ∨ x = 1) (symStep_dense (.inr rfl)) fuel _ _
      (fill_diagonal_loopless _) (fill_diagonal_symm fun i j => by simp only [add_comm]) (fill_diagonal_entries (.inl rfl) fun i j => by
        rw [truncInt_half (hE i j) (hE j i)]
        rcases hE i j with h | h <;> rcases hE j i with h' | h' <;> simp [h, h']) h
    exact ⟨h1, h3, h4, fun _ => h2⟩

/-- **C39** `random_binary_matrix_generator_custom_density` -/
theorem C39_binary_custom_density (fuel : ℕ) (p : ℝ) (sym : Bool) (seed : Option ℕ) (g g' : R.S) (A : Fin n → Fin n → ℝ)
    (h : random_binary_matrix_generator_custom_density R fuel n p sym seed g = some (A, g')) :
    Loopless A ∧ BinaryM A ∧ NoIsolatedNode A ∧ (sym = true → SymmetricM A) := by
  unfold random_binary_matrix_generator_custom_density at h
  cases sym
  · simp only [Bool.not_false, if_true] at h
    obtain ⟨h1, h2, -, h4⟩ := repair_inv (E := fun x => x = 0 ∨ x = 1) (.inl rfl) (weight := one R) (fun _ => .inr rfl) (.inr fun _ => one_ne_zero) fuel _ _
      (fill_diagonal_loopless _) (fill_diagonal_entries (.inl rfl) (fillDensity_entries (.inl rfl) (fun _ => .inr rfl) p _)) h
    exact ⟨h1, h2, h4, by simp⟩
  · simp only [Bool.not_true, Bool.false_eq_true, if_false] at h
    obtain ⟨a, b, c⟩ := fillDensitySym_inv (n := n) (E := fun x => x = 0 ∨ x = 1) (.inl rfl) (weight := one R) (fun _ => .inr rfl) p (R.seed seed g)
    obtain ⟨h1, h2, h3, -, h4⟩ := repairSym_inv (E := fun x => x = 0 ∨ x = 1) (symStep_bin (.inr rfl)) fuel _ _
      (fill_diagonal_loopless _) (fill_diagonal_symm b) (fill_diagonal_entries (.inl rfl) c) h
    exact ⟨h1, h3, h4, fun _ => h2⟩

/-- **C39** `random_weighted_matrix_generator_dense` -/
theorem C39_weighted_dense (fuel : ℕ) (sup_ext : ℝ) (hsup : 0 ≤ sup_ext) (sym : Bool) (seed : Option ℕ) (intweights : Bool) (g g' : R.S)
    (A : Fin n → Fin n → ℝ) (h : random_weighted_matrix_generator_dense R fuel n sup_ext sym seed intweights g = some (A, g')) :
    Loopless A ∧ NoIsolatedNode A ∧ (sym = true → SymmetricM A) ∧
      (intweights = false → WeightsUpTo sup_ext A) ∧ (intweights = true → IntegerM A ∧ WeightsUpTo ⌈sup_ext⌉ A) := by
  unfold random_weighted_matrix_generator_dense at h
  have h0 : (0:ℝ) ≤ 0 ∧ (0:ℝ) ≤ sup_ext := ⟨le_rfl, hsup⟩
  have hE := fillRandom_entries (n := n) (E := fun x => 0 ≤ x ∧ x ≤ sup_ext) h0 (uniform_range (R := R) hsup) (R.seed seed g)
  cases sym
  · simp only [Bool.not_false, if_true, Option.map_eq_some_iff] at h
    obtain ⟨s, h, hs⟩ := h
    obtain ⟨h1, h2, -, h4⟩ := repair_inv (E := fun x => 0 ≤ x ∧ x ≤ sup_ext) h0 (uniform_range (R := R) hsup) (.inl fun _ h => h.1) fuel _ _
      (fill_diagonal_loopless _) (fill_diagonal_entries h0 hE) h
    have := finish_spec (iw := intweights) h1 h2 h4
    rw [hs] at this
    exact ⟨this.1, this.2.1, by simp, this.2.2⟩
  · simp only [Bool.not_true, Bool.false_eq_true, if_false, Option.map_eq_some_iff] at h
    obtain ⟨s, h, hs⟩ := h
    obtain ⟨h1, h2, h3, -, h4⟩ := repairSym_inv (E := fun x => 0 ≤ x ∧ x ≤ sup_ext) (symStep_weight (uniform_range (R := R) hsup) (.inl fun _ h => h.1)) fuel _ _
      (fill_diagonal_loopless _) (fill_diagonal_symm fun i j => by simp only [add_comm]) (fill_diagonal_entries h0 fun i j => by
        obtain ⟨a, b⟩ := hE i j; obtain ⟨c, d⟩ := hE j i; constructor <;> linarith) h
    have := finish_spec (iw := intweights) h1 h3 h4
    have h5 := finish_symm (iw := intweights) h2
    rw [hs] at this h5
    exact ⟨this.1, this.2.1, fun _ => h5, this.2.2⟩

/-- **C39** `random_weighted_matrix_generator_uniform_custom_density` -/
theorem C39_weighted_uniform (fuel : ℕ) (p sup_ext : ℝ) (hsup : 0 ≤ sup_ext) (sym : Bool) (seed : Option ℕ) (intweights : Bool) (g g' : R.S)
    (A : Fin n → Fin n → ℝ) (h : random_weighted_matrix_generator_uniform_custom_density R fuel n p sup_ext sym seed intweights g = some (A, g')) :
    Loopless A ∧ NoIsolatedNode A ∧ (sym = true → SymmetricM A) ∧
      (intweights = false → WeightsUpTo sup_ext A) ∧ (intweights = true → IntegerM A ∧ WeightsUpTo ⌈sup_ext⌉ A) := by
  unfold random_weighted_matrix_generator_uniform_custom_density at h
  have h0 : (0:ℝ) ≤ 0 ∧ (0:ℝ) ≤ sup_ext := ⟨le_rfl, hsup⟩
  cases sym
  · simp only [Bool.not_false, if_true, Option.map_eq_some_iff] at h
    obtain ⟨s, h, hs⟩ := h
    obtain ⟨h1, h2, -, h4⟩ := repair_inv (E := fun x => 0 ≤ x ∧ x ≤ sup_ext) h0 (uniform_range (R := R) hsup) (.inl fun _ h => h.1) fuel _ _
      (fill_diagonal_loopless _) (fill_diagonal_entries h0 (fillDensity_entries h0 (uniform_range (R := R) hsup) p _)) h
    have := finish_spec (iw := intweights) h1 h2 h4
    rw [hs] at this
    exact ⟨this.1, this.2.1, by simp, this.2.2⟩
  · simp only [Bool.not_true, Bool.false_eq_true, if_false, Option.map_eq_some_iff] at h
    obtain ⟨s, h, hs⟩ := h
    obtain ⟨a, b, c⟩ := fillDensitySym_inv (n := n) (E := fun x => 0 ≤ x ∧ x ≤ sup_ext) h0 (uniform_range (R := R) hsup) p (R.seed seed g)
    obtain ⟨h1, h2, h3, -, h4⟩ := repairSym_inv (E := fun x => 0 ≤ x ∧ x ≤ sup_ext) (symStep_weight (uniform_range (R := R) hsup) (.inl fun _ h => h.1)) fuel _ _
      a b c h
    have := finish_spec (iw := intweights) h1 h3 h4
    have h5 := finish_symm (iw := intweights) h2
    rw [hs] at this h5
    exact ⟨this.1, this.2.1, fun _ => h5, this.2.2⟩

/-- **C39** `random_weighted_matrix_generator_gaussian_custom_density` without `intweights`: zero diagonal, no isolated node and symmetry when no weight drawn is
zero (almost surely true for `sigma > 0`); and if no weight drawn is negative the entries are non-negative.  Integer weights: see
`C39_gaussian_integer_weights_isolate` and `C39_gaussian_intweights`; negative weights do occur: `C39_gaussian_negative_weights`. -/
theorem C39_weighted_gaussian (fuel : ℕ) (mean sigma p : ℝ) (hdraw : ∀ g, (R.normal mean sigma g).1 ≠ 0) (sym : Bool) (seed : Option ℕ) (g g' : R.S)
    (A : Fin n → Fin n → ℝ) (h : random_weighted_matrix_generator_gaussian_custom_density R fuel n mean sigma p sym seed false g = some (A, g')) :
    Loopless A ∧ NoIsolatedNode A ∧ (sym = true → SymmetricM A) ∧
      ((∀ g, 0 ≤ (R.normal mean sigma g).1) → ∀ i j, 0 ≤ A i j) := by
  unfold random_weighted_matrix_generator_gaussian_custom_density at h
  -- the entries are 0 or values drawn
  set E : ℝ → Prop := fun x => x = 0 ∨ ∃ g, x = (R.normal mean sigma g).1 with hEdef
  have hE : ∀ g, E (R.normal mean sigma g).1 := fun g => .inr ⟨g, rfl⟩
  have hpos : ∀ B : Fin n → Fin n → ℝ, Entries E B → (∀ g, 0 ≤ (R.normal mean sigma g).1) → ∀ i j, 0 ≤ B i j := fun B hB hg i j => by
    rcases hB i j with h | ⟨g, h⟩
    · exact h.ge
    · exact h ▸ hg g
  cases sym
  · simp only [Bool.not_false, if_true, Option.map_eq_some_iff] at h
    obtain ⟨s, h, hs⟩ := h
    simp only [finish, Bool.false_eq_true, if_false] at hs
    subst hs
    obtain ⟨h1, h2, -, h4⟩ := repair_inv (E := E) (.inl rfl) hE (.inr hdraw) fuel _ _
      (fill_diagonal_loopless _) (fill_diagonal_entries (.inl rfl) (fillDensity_entries (.inl rfl) hE p _)) h
    exact ⟨h1, h4, by simp, hpos _ h2⟩
  · simp only [Bool.not_true, Bool.false_eq_true, if_false, Option.map_eq_some_iff] at h
    obtain ⟨s, h, hs⟩ := h
    simp only [finish, Bool.false_eq_true, if_false] at hs
    subst hs
    obtain ⟨a, b, c⟩ := fillDensitySym_inv (n := n) (E := E) (.inl rfl) hE p (R.seed seed g)
    obtain ⟨h1, h2, h3, -, h4⟩ := repairSym_inv (E := E) (symStep_weight hE (.inr hdraw)) fuel _ _
      (fill_diagonal_loopless _) (fill_diagonal_symm b) (fill_diagonal_entries (.inl rfl) c) h
    exact ⟨h1, h4, fun _ => h2, hpos _ h3⟩

/-- **C39** the gaussian generator with `intweights=True`, when all weights drawn are positive -/
theorem C39_gaussian_intweights (fuel : ℕ) (mean sigma p : ℝ) (hdraw : ∀ g, 0 < (R.normal mean sigma g).1) (sym : Bool) (seed : Option ℕ) (g g' : R.S)
    (A : Fin n → Fin n → ℝ) (h : random_weighted_matrix_generator_gaussian_custom_density R fuel n mean sigma p sym seed true g = some (A, g')) :
    Loopless A ∧ NoIsolatedNode A ∧ (sym = true → SymmetricM A) ∧ IntegerM A ∧ ∀ i j, 0 ≤ A i j := by
  have key : ∃ B : Fin n → Fin n → ℝ, random_weighted_matrix_generator_gaussian_custom_density R fuel n mean sigma p sym seed false g = some (B, g') ∧
      A = ceilM B := by
    unfold random_weighted_matrix_generator_gaussian_custom_density at h ⊢
    cases sym <;> simp only [Bool.not_false, Bool.not_true, Bool.false_eq_true, if_true, if_false, Option.map_eq_some_iff] at h ⊢ <;>
    · obtain ⟨s, h, hs⟩ := h
      simp only [finish, if_true, Prod.mk.injEq] at hs
      exact ⟨s.1, ⟨s, h, by simp [finish, ← hs.2]⟩, hs.1.symm⟩
  obtain ⟨B, hB, rfl⟩ := key
  obtain ⟨h1, h2, h3, h4⟩ := C39_weighted_gaussian fuel mean sigma p (fun g => (hdraw g).ne') sym seed g g' B hB
  have hp := h4 fun g => (hdraw g).le
  refine ⟨fun i => by simp [ceilM, h1 i], fun i => ?_, fun hs i j => by simp [ceilM, h3 hs i j], fun i j => ⟨_, rfl⟩, fun i j => ?_⟩
  · obtain ⟨j, hj, h⟩ := h2 i
    exact ⟨j, hj, h.imp (ceil_ne_zero (hp i j)) (ceil_ne_zero (hp j i))⟩
  · simp only [ceilM]; exact_mod_cast Int.ceil_nonneg (hp i j)

/-! ### one node: the call never returns -/

theorem loopless_one {A : Fin 1 → Fin 1 → ℝ} (h : Loopless A) (i : Fin 1) : colSum A i = 0 ∧ rowSum A i = 0 := by
  have hi : i = 0 := Subsingleton.elim _ _
  subst hi
  simp [colSum, rowSum, h 0]

theorem repair_hangs (weight : R.S → ℝ × R.S) (fuel : ℕ) (s : St R 1) (h : Loopless s.1) : repair R fuel weight s = none := by
  unfold repair
  simp only [List.finRange_succ, List.finRange_zero, List.map_nil, forO]
  rw [if_pos (loopless_one h _), whileF_hangs (fun t : St R 1 => Loopless t.1) (fun t ht i => ?_) (fun t ht => loopless_one ht _) fuel s h]
  · rfl
  · rw [repairStep_apply, if_pos ⟨Subsingleton.elim _ _, Subsingleton.elim _ _⟩]

theorem repairSym_hangs (step : Fin 1 → St R 1 → St R 1) (hstep : ∀ i s, Loopless s.1 → Loopless (step i s).1) (fuel : ℕ) (s : St R 1) (h : Loopless s.1) :
    repairSym R fuel step s = none := by
  unfold repairSym
  simp only [List.finRange_succ, List.finRange_zero, List.map_nil, forO]
  rw [if_pos (loopless_one h _).1, whileF_hangs (fun t : St R 1 => Loopless t.1) (fun t ht => hstep _ t ht) (fun t ht => (loopless_one ht _).1) fuel s h]
  rfl

theorem repairStepSym_one (weight : R.S → ℝ × R.S) (i : Fin 1) (s : St R 1) (h : Loopless s.1) : Loopless (repairStepSym R weight i s).1 := by
  rw [repairStepSym_eq, if_pos (Subsingleton.elim _ _)]; exact h

/-- **C39** (violated) With one node none of the five generators ever returns, whatever the random stream: the repair loop waits for a link that cannot exist. -/
theorem C39_one_node_hangs (fuel : ℕ) (sym : Bool) (seed : Option ℕ) (g : R.S) (p sup_ext mean sigma : ℝ) (iw : Bool) :
    random_binary_matrix_generator_dense R fuel 1 sym seed g = none ∧
      random_binary_matrix_generator_custom_density R fuel 1 p sym seed g = none ∧
      random_weighted_matrix_generator_dense R fuel 1 sup_ext sym seed iw g = none ∧
      random_weighted_matrix_generator_uniform_custom_density R fuel 1 p sup_ext sym seed iw g = none ∧
      random_weighted_matrix_generator_gaussian_custom_density R fuel 1 mean sigma p sym seed iw g = none := by
  have hf := @fill_diagonal_loopless 1
  refine ⟨?_, ?_, ?_, ?_, ?_⟩
  · unfold random_binary_matrix_generator_dense
    cases sym
    · exact repair_hangs _ fuel _ (hf _)
    · refine repairSym_hangs _ (fun i s h => ?_) fuel _ (hf _)
      rw [repairStepDenseSym_eq i s h, if_pos (Subsingleton.elim _ _)]; exact h
  · unfold random_binary_matrix_generator_custom_density
    cases sym
    · exact repair_hangs _ fuel _ (hf _)
    · refine repairSym_hangs _ (fun i s h => ?_) fuel _ (hf _)
      rw [repairStepBinSym_eq i s h, if_pos (Subsingleton.elim _ _)]; exact h
  · unfold random_weighted_matrix_generator_dense
    cases sym
    · simp only [Bool.not_false, if_true]
      rw [repair_hangs _ fuel _ (hf _)]; rfl
    · simp only [Bool.not_true, Bool.false_eq_true, if_false]
      rw [repairSym_hangs _ (repairStepSym_one _) fuel _ (hf _)]; rfl
  · unfold random_weighted_matrix_generator_uniform_custom_density
    cases sym
    · simp only [Bool.not_false, if_true]
      rw [repair_hangs _ fuel _ (hf _)]; rfl
    · simp only [Bool.not_true, Bool.false_eq_true, if_false]
      rw [repairSym_hangs _ (repairStepSym_one _) fuel _
        (fillDensitySym_inv (E := fun _ => True) trivial (fun _ => trivial) p (R.seed seed g)).1]; rfl
  · unfold random_weighted_matrix_generator_gaussian_custom_density
    cases sym
    · simp only [Bool.not_false, if_true]
      rw [repair_hangs _ fuel _ (hf _)]; rfl
    · simp only [Bool.not_true, Bool.false_eq_true, if_false]
      rw [repairSym_hangs _ (repairStepSym_one _) fuel _ (hf _)]; rfl

/-! ### when the call returns -/

/-- from every state of the random generator a directed repair round eventually draws another node and a non-zero weight -/
def Fair (R : NpRandom) (n : ℕ) (weight : R.S → ℝ × R.S) : Prop :=
  ∀ (ind : Fin n) (g : R.S), ∃ m, (fun g => (drawNode R ind (weight (R.random g).2).2).1 ≠ ind ∧ (weight (R.random g).2).1 ≠ 0)
    ((fun g => (drawNode R ind (weight (R.random g).2).2).2)^[m] g)

/-- from every state a symmetric repair round eventually draws another node and a non-zero weight -/
def FairSym (R : NpRandom) (n : ℕ) (weight : R.S → ℝ × R.S) : Prop :=
  ∀ (ind : Fin n) (g : R.S), ∃ m, (fun g => (drawNode R ind g).1 ≠ ind ∧ (weight (drawNode R ind g).2).1 ≠ 0)
    ((fun g => if (drawNode R ind g).1 ≠ ind then (weight (drawNode R ind g).2).2 else (drawNode R ind g).2)^[m] g)

theorem repair_ends {E : ℝ → Prop} (h0 : E 0) {weight : R.S → ℝ × R.S} (hw : ∀ g, E (weight g).1) (hE : ∀ x, E x → 0 ≤ x) (hfair : Fair R n weight)
    (s : St R n) (hl : Loopless s.1) (he : Entries E s.1) : ∃ fuel s', repair R fuel weight s = some s' := by
  have := forO_ends (α := Fin n) (σ := St R n) (body := fun fuel ind t => if colSum s.1 ind = 0 ∧ rowSum s.1 ind = 0 then
      whileF (fun s : St R n => colSum s.1 ind = 0 ∧ rowSum s.1 ind = 0) (repairStep R weight ind) fuel t else some t)
    (fun t => Loopless t.1 ∧ Entries E t.1) (fun f f' a t t' hf h => ?_) (fun ind t ht => ?_) (List.finRange n) s ⟨hl, he⟩
  · obtain ⟨f, s', h, -⟩ := this
    exact ⟨f, s', h⟩
  · split_ifs at h ⊢
    · exact whileF_mono hf h
    · exact h
  · split_ifs with hk
    · obtain ⟨m, hm⟩ := hfair ind t.2
      have := whileF_ends (S := R.S) (τ := Fin n → Fin n → ℝ)
        (cond := fun s : St R n => colSum s.1 ind = 0 ∧ rowSum s.1 ind = 0) (body := repairStep R weight ind)
        (fun g => (drawNode R ind (weight (R.random g).2).2).2)
        (fun g => (drawNode R ind (weight (R.random g).2).2).1 ≠ ind ∧ (weight (R.random g).2).1 ≠ 0)
        (fun A => Loopless A ∧ Entries E A) (fun _ => rfl) (fun u hu hc => ?_) (fun u hu hc hg hc' => ?_) m t ht hm
      · exact this
      · obtain ⟨a, b, -⟩ := repairStep_inv h0 hw (.inl hE) ind u hu.1 hu.2 hc
        exact ⟨a, b⟩
      · obtain ⟨a, b, -⟩ := repairStep_inv h0 hw (.inl hE) ind u hu.1 hu.2 hc
        have hn : ∀ i j, 0 ≤ (repairStep R weight ind u).1 i j := fun i j => hE _ (b i j)
        by_cases hr : (R.random u.2).1 > 0.5
        · refine colSum_ne hn (j := (drawNode R ind (weight (R.random u.2).2).2).1) ?_ hc'.1
          rw [repairStep_apply, if_neg (fun h => hg.1 h.1), if_pos hr, if_pos ⟨rfl, rfl⟩]; exact hg.2
        · refine rowSum_ne hn (j := (drawNode R ind (weight (R.random u.2).2).2).1) ?_ hc'.2
          rw [repairStep_apply, if_neg (fun h => hg.1 h.2), if_neg hr, if_pos ⟨rfl, rfl⟩]; exact hg.2
    · exact ⟨0, t, rfl, ht⟩

theorem repairSym_ends {E : ℝ → Prop} (hE : ∀ x, E x → 0 ≤ x) {weight : R.S → ℝ × R.S} (step : Fin n → St R n → St R n) (hstep : SymStep E step)
    (hsnd : ∀ ind t, (step ind t).2 = if (drawNode R ind t.2).1 ≠ ind then (weight (drawNode R ind t.2).2).2 else (drawNode R ind t.2).2)
    (hfst : ∀ ind t, Loopless t.1 → (drawNode R ind t.2).1 ≠ ind → (step ind t).1 = link t.1 ind (drawNode R ind t.2).1 (weight (drawNode R ind t.2).2).1)
    (hfair : FairSym R n weight) (s : St R n) (hl : Loopless s.1) (hs : SymmetricM s.1) (he : Entries E s.1) : ∃ fuel s', repairSym R fuel step s = some s' := by
  have := forO_ends (α := Fin n) (σ := St R n) (body := fun fuel ind t => if colSum s.1 ind = 0 then
      whileF (fun s : St R n => colSum s.1 ind = 0) (step ind) fuel t else some t)
    (fun t => Loopless t.1 ∧ SymmetricM t.1 ∧ Entries E t.1) (fun f f' a t t' hf h => ?_) (fun ind t ht => ?_) (List.finRange n) s ⟨hl, hs, he⟩
  · obtain ⟨f, s', h, -⟩ := this
    exact ⟨f, s', h⟩
  · split_ifs at h ⊢
    · exact whileF_mono hf h
    · exact h
  · split_ifs with hk
    · obtain ⟨m, hm⟩ := hfair ind t.2
      have := whileF_ends (S := R.S) (τ := Fin n → Fin n → ℝ)
        (cond := fun s : St R n => colSum s.1 ind = 0) (body := step ind)
        (fun g => if (drawNode R ind g).1 ≠ ind then (weight (drawNode R ind g).2).2 else (drawNode R ind g).2)
        (fun g => (drawNode R ind g).1 ≠ ind ∧ (weight (drawNode R ind g).2).1 ≠ 0)
        (fun A => Loopless A ∧ SymmetricM A ∧ Entries E A) (hsnd ind) (fun u hu hc => ?_) (fun u hu hc hg hc' => ?_) m t ht hm
      · exact this
      · obtain ⟨a, b, c, -⟩ := hstep ind u hu.1 hu.2.1 hu.2.2 hc
        exact ⟨a, b, c⟩
      · obtain ⟨a, b, c, -⟩ := hstep ind u hu.1 hu.2.1 hu.2.2 hc
        refine colSum_ne (fun i j => hE _ (c i j)) (j := (drawNode R ind u.2).1) ?_ hc'
        rw [hfst ind u hu.1 hg.1]
        simp only [link, and_self, or_true, if_true]
        exact hg.2
    · exact ⟨0, t, rfl, ht⟩

theorem ends_aux {F : ℕ → Option (St R n)} (h : ∃ fuel s', F fuel = some s') : ∃ fuel A g', F fuel = some (A, g') :=
  let ⟨f, s, h⟩ := h; ⟨f, s.1, s.2, h⟩

theorem ends_map {F : ℕ → Option (St R n)} {fin : St R n → St R n} (h : ∃ fuel s', F fuel = some s') : ∃ fuel A g', (F fuel).map fin = some (A, g') :=
  let ⟨f, s, h⟩ := h; ⟨f, (fin s).1, (fin s).2, by rw [h]; rfl⟩

theorem binary_nonneg : ∀ x : ℝ, (x = 0 ∨ x = 1) → 0 ≤ x := by rintro x (rfl | rfl) <;> norm_num

/-- **C39** `random_binary_matrix_generator_dense` returns on every fair random stream. -/
theorem C39_binary_dense_returns (hf : Fair R n (one R)) (hs : FairSym R n (one R)) (sym : Bool) (seed : Option ℕ) (g : R.S) :
    ∃ fuel A g', random_binary_matrix_generator_dense R fuel n sym seed g = some (A, g') := by
  have hE := fillRandom_entries (n := n) (E := fun x => x = 0 ∨ x = 1) (.inl rfl) (bit_binary (R := R)) (R.seed seed g)
  unfold random_binary_matrix_generator_dense
  cases sym
  · exact ends_aux (repair_ends (E := fun x => x = 0 ∨ x = 1) (.inl rfl) (weight := one R) (fun _ => .inr rfl) binary_nonneg hf _
      (fill_diagonal_loopless _) (fill_diagonal_entries (E := fun x => x = 0 ∨ x = 1) (.inl rfl) hE))
  · refine ends_aux (repairSym_ends (E := fun x => x = 0 ∨ x = 1) binary_nonneg (weight := one R) (repairStepDenseSym R) (symStep_dense (.inr rfl))
      (fun ind t => by simp [repairStepDenseSym, one]) (fun ind t ht hd => by rw [repairStepDenseSym_eq ind t ht, if_neg hd]; rfl) hs _
      (fill_diagonal_loopless _) (fill_diagonal_symm fun i j => ?_) (fill_diagonal_entries (E := fun x => x = 0 ∨ x = 1) (.inl rfl) fun i j => ?_))
    · simp only [add_comm]
    · rw [truncInt_half (hE i j) (hE j i)]
      rcases hE i j with h | h <;> rcases hE j i with h' | h' <;> simp [h, h']

/-- **C39** `random_binary_matrix_generator_custom_density` returns on every fair random stream. -/
theorem C39_binary_custom_density_returns (hf : Fair R n (one R)) (hs : FairSym R n (one R)) (p : ℝ) (sym : Bool) (seed : Option ℕ) (g : R.S) :
    ∃ fuel A g', random_binary_matrix_generator_custom_density R fuel n p sym seed g = some (A, g') := by
  unfold random_binary_matrix_generator_custom_density
  cases sym
  · exact ends_aux (repair_ends (E := fun x => x = 0 ∨ x = 1) (.inl rfl) (weight := one R) (fun _ => .inr rfl) binary_nonneg hf _
      (fill_diagonal_loopless _) (fill_diagonal_entries (E := fun x => x = 0 ∨ x = 1) (.inl rfl)
        (fillDensity_entries (E := fun x => x = 0 ∨ x = 1) (.inl rfl) (fun _ => .inr rfl) p (R.seed seed g))))
  · obtain ⟨a, b, c⟩ := fillDensitySym_inv (n := n) (E := fun x => x = 0 ∨ x = 1) (.inl rfl) (weight := one R) (fun _ => .inr rfl) p (R.seed seed g)
    exact ends_aux (repairSym_ends (E := fun x => x = 0 ∨ x = 1) binary_nonneg (weight := one R) (repairStepBinSym R) (symStep_bin (.inr rfl))
      (fun ind t => by simp [repairStepBinSym, one]) (fun ind t ht hd => by rw [repairStepBinSym_eq ind t ht, if_neg hd]; rfl) hs _
      (fill_diagonal_loopless _) (fill_diagonal_symm b) (fill_diagonal_entries (E := fun x => x = 0 ∨ x = 1) (.inl rfl) c))

theorem weighted_sym_ends {weight : R.S → ℝ × R.S} (hw : ∀ g, 0 ≤ (weight g).1) (hs : FairSym R n weight) (s : St R n) (hl : Loopless s.1)
    (hsym : SymmetricM s.1) (he : Entries (fun x => 0 ≤ x) s.1) : ∃ fuel s', repairSym R fuel (repairStepSym R weight) s = some s' :=
  repairSym_ends (E := fun x => 0 ≤ x) (fun _ h => h) (repairStepSym R weight) (symStep_weight hw (.inl fun _ h => h))
    (fun ind t => by unfold repairStepSym; dsimp only; split_ifs <;> rfl) (fun ind t _ hd => by rw [repairStepSym_eq, if_neg hd]) hs s hl hsym he

/-- **C39** `random_weighted_matrix_generator_dense` returns on every fair random stream. -/
theorem C39_weighted_dense_returns (sup_ext : ℝ) (hsup : 0 ≤ sup_ext) (hf : Fair R n (uniform R sup_ext)) (hs : FairSym R n (uniform R sup_ext)) (sym : Bool)
    (seed : Option ℕ) (iw : Bool) (g : R.S) : ∃ fuel A g', random_weighted_matrix_generator_dense R fuel n sup_ext sym seed iw g = some (A, g') := by
  have hu : ∀ g, 0 ≤ (uniform R sup_ext g).1 := fun g => (uniform_range hsup g).1
  have hE := fillRandom_entries (n := n) (E := fun x => 0 ≤ x) le_rfl hu (R.seed seed g)
  unfold random_weighted_matrix_generator_dense
  cases sym
  · exact ends_map (repair_ends (E := fun x => 0 ≤ x) le_rfl hu (fun _ h => h) hf _ (fill_diagonal_loopless _) (fill_diagonal_entries le_rfl hE))
  · refine ends_map (weighted_sym_ends hu hs _ (fill_diagonal_loopless _) (fill_diagonal_symm fun i j => ?_)
      (fill_diagonal_entries (E := fun x => 0 ≤ x) le_rfl fun i j => ?_))
    · simp only [add_comm]
    · have := hE i j; have := hE j i; dsimp only at *; linarith

/-- **C39** `random_weighted_matrix_generator_uniform_custom_density` returns on every fair random stream. -/
theorem C39_weighted_uniform_returns (p sup_ext : ℝ) (hsup : 0 ≤ sup_ext) (hf : Fair R n (uniform R sup_ext)) (hs : FairSym R n (uniform R sup_ext)) (sym : Bool)
    (seed : Option ℕ) (iw : Bool) (g : R.S) :
    ∃ fuel A g', random_weighted_matrix_generator_uniform_custom_density R fuel n p sup_ext sym seed iw g = some (A, g') := by
  have hu : ∀ g, 0 ≤ (uniform R sup_ext g).1 := fun g => (uniform_range hsup g).1
  unfold random_weighted_matrix_generator_uniform_custom_density
  cases sym
  · exact ends_map (repair_ends (E := fun x => 0 ≤ x) le_rfl hu (fun _ h => h) hf _ (fill_diagonal_loopless _)
      (fill_diagonal_entries le_rfl (fillDensity_entries le_rfl hu p (R.seed seed g))))
  · obtain ⟨a, b, c⟩ := fillDensitySym_inv (n := n) (E := fun x => 0 ≤ x) le_rfl hu p (R.seed seed g)
    exact ends_map (weighted_sym_ends hu hs _ a b c)

/-- **C39** the gaussian generator returns on every fair random stream without negative weights. -/
theorem C39_weighted_gaussian_returns (mean sigma p : ℝ) (hpos : ∀ g, 0 ≤ (R.normal mean sigma g).1) (hf : Fair R n (R.normal mean sigma))
    (hs : FairSym R n (R.normal mean sigma)) (sym : Bool) (seed : Option ℕ) (iw : Bool) (g : R.S) :
    ∃ fuel A g', random_weighted_matrix_generator_gaussian_custom_density R fuel n mean sigma p sym seed iw g = some (A, g') := by
  unfold random_weighted_matrix_generator_gaussian_custom_density
  cases sym
  · exact ends_map (repair_ends (E := fun x => 0 ≤ x) le_rfl hpos (fun _ h => h) hf _ (fill_diagonal_loopless _)
      (fill_diagonal_entries le_rfl (fillDensity_entries le_rfl hpos p (R.seed seed g))))
  · obtain ⟨a, b, c⟩ := fillDensitySym_inv (n := n) (E := fun x => 0 ≤ x) le_rfl hpos p (R.seed seed g)
    exact ends_map (weighted_sym_ends hpos hs _ (fill_diagonal_loopless _) (fill_diagonal_symm b) (fill_diagonal_entries (E := fun x => 0 ≤ x) le_rfl c))

/-! ### a concrete stream -/

/-- a counter: `random()` is always 1/4, `randint(k)` counts modulo `k`, `normal` always gives `v` -/
noncomputable def counter (v : ℝ) : NpRandom where
  S := ℕ
  seed k s := k.getD s
  random s := (1 / 4, s)
  randint k s := (s % k, s + 1)
  normal _ _ s := (v, s)
  seed_some k s t := rfl
  random_nonneg s := by norm_num
  random_lt s := by norm_num
  randint_lt k s hk := Nat.mod_lt s hk

theorem counter_iter (m s : ℕ) : (fun g : ℕ => g + 1)^[m] s = s + m := by
  induction m generalizing s with
  | zero => rfl
  | succ m ih => rw [Function.iterate_succ_apply, ih]; omega

theorem counter_fair (v : ℝ) {n : ℕ} (hn : 2 ≤ n) {weight : (counter v).S → ℝ × (counter v).S} (hw : ∀ g, (weight g).1 ≠ 0 ∧ (weight g).2 = g) :
    Fair (counter v) n weight ∧ FairSym (counter v) n weight := by
  have key : ∀ (ind : Fin n) (g : ℕ), ∃ m, ((g + m) % n) ≠ ind := fun ind g => by
    by_cases h : g % n = ind
    · refine ⟨1, fun h' => ?_⟩
      rw [Nat.add_mod, h, Nat.mod_eq_of_lt (show 1 < n by omega)] at h'
      have := ind.isLt
      rcases Nat.lt_or_ge (ind + 1) n with h1 | h1
      · rw [Nat.mod_eq_of_lt h1] at h'; omega
      · have : (ind : ℕ) + 1 = n := by omega
        rw [this, Nat.mod_self] at h'; omega
    · exact ⟨0, h⟩
  have draw : ∀ (ind : Fin n) (g : ℕ), (drawNode (counter v) ind g).1.val = g % n ∧ (drawNode (counter v) ind g).2 = (g + 1 : ℕ) := fun _ _ => ⟨rfl, rfl⟩
  -- iterating a map that counts
  have iter : ∀ (f : (counter v).S → (counter v).S) (m : ℕ) (g : ℕ), (∀ s : ℕ, f s = (s + 1 : ℕ)) → f^[m] g = (g + m : ℕ) := fun f m g hf => by
    have : f = fun g : ℕ => (g + 1 : ℕ) := funext hf
    rw [this]; exact counter_iter m g
  constructor
  · intro ind g
    obtain ⟨m, hm⟩ := key ind g
    refine ⟨m, ?_⟩
    rw [iter _ m g fun s => by
      show (drawNode (counter v) ind (weight s).2).2 = _
      rw [(hw s).2]; rfl]
    refine ⟨fun h => hm ?_, (hw _).1⟩
    have h' := congrArg Fin.val h
    rw [← h']
    have e : ∀ t : (counter v).S, (drawNode (counter v) ind (weight ((counter v).random t).2).2).1.val = (fun a : ℕ => a % n) t := fun t => by
      rw [(hw _).2]; rfl
    exact (e _).symm
  · intro ind g
    obtain ⟨m, hm⟩ := key ind g
    refine ⟨m, ?_⟩
    rw [iter _ m g fun s => by
      by_cases h : (drawNode (counter v) ind s).1 ≠ ind
      · exact (if_pos h).trans (hw _).2
      · exact if_neg h]
    exact ⟨fun h => hm (congrArg Fin.val h), (hw _).1⟩

/-- the hypotheses of the theorems above are met: the counter stream is fair, so the generators return on it -/
example (n : ℕ) (hn : 2 ≤ n) (sym : Bool) (seed : Option ℕ) :
    ∃ fuel A g', random_binary_matrix_generator_dense (counter 1) fuel n sym seed (0 : ℕ) = some (A, g') :=
  C39_binary_dense_returns (counter_fair 1 hn fun _ => ⟨one_ne_zero, rfl⟩).1 (counter_fair 1 hn fun _ => ⟨one_ne_zero, rfl⟩).2 sym seed _

example (n : ℕ) (hn : 2 ≤ n) (sym iw : Bool) (seed : Option ℕ) :
    ∃ fuel A g', random_weighted_matrix_generator_dense (counter 1) fuel n 10 sym seed iw (0 : ℕ) = some (A, g') := by
  have h : ∀ g, (uniform (counter 1) 10 g).1 ≠ 0 ∧ (uniform (counter 1) 10 g).2 = g := fun g => ⟨show (1 / 4 * 10 : ℝ) ≠ 0 by norm_num, rfl⟩
  exact C39_weighted_dense_returns 10 (by norm_num) (counter_fair 1 hn h).1 (counter_fair 1 hn h).2 sym seed iw _

example (n : ℕ) (hn : 2 ≤ n) (sym iw : Bool) (seed : Option ℕ) :
    ∃ fuel A g', random_weighted_matrix_generator_gaussian_custom_density (counter 3) fuel n 3 1 (1 / 2) sym seed iw (0 : ℕ) = some (A, g') := by
  have h : ∀ g, ((counter 3).normal 3 1 g).1 ≠ 0 ∧ ((counter 3).normal 3 1 g).2 = g := fun g => ⟨show (3 : ℝ) ≠ 0 by norm_num, rfl⟩
  exact C39_weighted_gaussian_returns 3 1 (1 / 2) (fun g => show (0 : ℝ) ≤ 3 by norm_num) (counter_fair 3 hn h).1 (counter_fair 3 hn h).2 sym seed iw _

end Verif.Matgen
