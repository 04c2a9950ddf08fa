import Verif.Props.Matgen2

/-! Instances of the theorems about the random generators of `matrix_generator` (C39, C48). -/

namespace Verif.Wit

open Matgen Spec

noncomputable section

theorem fairOne : Fair (counter 1) 3 (one (counter 1)) ∧ FairSym (counter 1) 3 (one (counter 1)) :=
  let h := counter_fair 1 (n := 3) (weight := one (counter 1)) (by norm_num) fun _ => ⟨one_ne_zero, rfl⟩
  ⟨h.1, h.2⟩
theorem fairUni : Fair (counter 1) 3 (uniform (counter 1) 10) ∧ FairSym (counter 1) 3 (uniform (counter 1) 10) :=
  let h := counter_fair 1 (n := 3) (weight := uniform (counter 1) 10) (by norm_num) fun _ => ⟨show (1 / 4 * 10 : ℝ) ≠ 0 by norm_num, rfl⟩
  ⟨h.1, h.2⟩
theorem fairNor : Fair (counter 3) 3 ((counter 3).normal 3 1) ∧ FairSym (counter 3) 3 ((counter 3).normal 3 1) :=
  let h := counter_fair 3 (n := 3) (weight := (counter 3).normal 3 1) (by norm_num) fun _ => ⟨show (3 : ℝ) ≠ 0 by norm_num, rfl⟩
  ⟨h.1, h.2⟩

theorem bin_ok : ∃ fuel A g', random_binary_matrix_generator_dense (counter 1) fuel 3 true (some 5) (0 : ℕ) = some (A, g') :=
  C39_binary_dense_returns fairOne.1 fairOne.2 _ _ _
theorem cust_ok : ∃ fuel A g', random_binary_matrix_generator_custom_density (counter 1) fuel 3 (1 / 2) true (some 5) (0 : ℕ) = some (A, g') :=
  C39_binary_custom_density_returns fairOne.1 fairOne.2 _ _ _ _
theorem wei_ok : ∃ fuel A g', random_weighted_matrix_generator_dense (counter 1) fuel 3 10 true (some 5) true (0 : ℕ) = some (A, g') :=
  C39_weighted_dense_returns 10 (by norm_num) fairUni.1 fairUni.2 _ _ _ _
theorem uni_ok : ∃ fuel A g', random_weighted_matrix_generator_uniform_custom_density (counter 1) fuel 3 (1 / 2) 10 true (some 5) true (0 : ℕ) = some (A, g') :=
  C39_weighted_uniform_returns (1 / 2) 10 (by norm_num) fairUni.1 fairUni.2 _ _ _ _
theorem gau_ok (iw : Bool) : ∃ fuel A g', random_weighted_matrix_generator_gaussian_custom_density (counter 3) fuel 3 3 1 (1 / 2) true (some 5) iw (0 : ℕ) = some (A, g') :=
  C39_weighted_gaussian_returns 3 1 (1 / 2) (fun g => show (0 : ℝ) ≤ 3 by norm_num) fairNor.1 fairNor.2 _ _ _ _

example := let h := bin_ok.choose_spec.choose_spec.choose_spec; C39_binary_dense _ _ _ _ _ _ h
example := let h := cust_ok.choose_spec.choose_spec.choose_spec; C39_binary_custom_density _ _ _ _ _ _ _ h
example := let h := wei_ok.choose_spec.choose_spec.choose_spec; C39_weighted_dense _ _ (by norm_num) _ _ _ _ _ _ h
example := let h := uni_ok.choose_spec.choose_spec.choose_spec; C39_weighted_uniform _ _ _ (by norm_num) _ _ _ _ _ _ h
example := let h := (gau_ok false).choose_spec.choose_spec.choose_spec; C39_weighted_gaussian _ _ _ _ (fun g => show (3 : ℝ) ≠ 0 by norm_num) _ _ _ _ _ h
example := let h := (gau_ok true).choose_spec.choose_spec.choose_spec; C39_gaussian_intweights _ _ _ _ (fun g => show (0 : ℝ) < 3 by norm_num) _ _ _ _ _ h
example := C39_binary_custom_density_returns fairOne.1 fairOne.2 (1 / 2) true (some 5) (0 : ℕ)
example := C39_weighted_uniform_returns (1 / 2) 10 (by norm_num) fairUni.1 fairUni.2 true (some 5) true (0 : ℕ)

example := C39_density_one (R := counter 1) (n := 3) (by norm_num) (p := 1) le_rfl 10 true none (0 : ℕ)
example := C39_gaussian_negative_weights (n := 3) (by norm_num) 10 3 1 true none (0 : ℕ)
example := C39_gaussian_integer_weights_isolate (n := 3) (by norm_num) 10 3 1 true none (0 : ℕ)

/-- a power-law draw that always gives 2 -/
def plw2 : ℕ → ℝ → frozen.S → ℝ × frozen.S := fun _ _ s => (2, s)

/-- a networkx that draws no link -/
def emptyNx : Nx where
  X := Unit
  gnp := fun _ _ _ _ x => (fun _ _ => 0, x)
  ba := fun _ _ _ _ _ => 0
  gnp_seed := fun _ _ _ _ _ _ => rfl
  gnp_loopless := fun _ _ _ _ _ _ => rfl
  gnp_binary := fun _ _ _ _ _ _ _ => .inl rfl
  gnp_symm := fun _ _ _ _ _ _ => rfl
  ba_loopless := fun _ _ _ _ => rfl
  ba_binary := fun _ _ _ _ _ => .inl rfl
  ba_symm := fun _ _ _ _ _ => rfl

theorem frozen_ne (s) : (frozen.random s).1 ≠ 0 := by
  unfold frozen
  dsimp only
  split_ifs <;> norm_num

example := C48_networkx_unseeded (R := frozen) (N := completeNx) plw2 5 2 10 (by norm_num) (1 / 2) 2 .uniform () true
example := C39_sparse_binary (N := completeNx) 5 (by norm_num) (1 / 2) true (some 3) ()
example := C39_sparse_empty (N := emptyNx) 5 (by norm_num) (1 / 2) true (some 3) () (fun _ _ => rfl)
example := C39_sparse_uniform (R := frozen) (N := completeNx) 5 (by norm_num) 10 (1 / 2) (by norm_num) true (some 3) false () true
example := C39_sparse_gaussian (R := frozen) (N := completeNx) 5 (by norm_num) 3 1 (1 / 2) true (some 3) false () true
example := C39_random_graph_nx (R := frozen) (N := completeNx) plw2 5 (by norm_num) (1 / 2) 10 (by norm_num) 2 (some 3) .uniform () true
example := C39_barabasi_albert_graph_nx_refuses (R := frozen) (N := completeNx) plw2 5 5 (Or.inr le_rfl) 10 2 (some 3) .uniform true
example := C39_barabasi_albert_graph_nx (R := frozen) (N := completeNx) plw2 5 2 (by norm_num) (by norm_num) 10 (by norm_num) 2 (some 3) .uniform true
example := C39_random_graph_nx_uniform_loses_links (R := frozen) (N := completeNx) plw2 5 (by norm_num) (1 / 2) 2 (some 3) () true
example := C48_sparse_links_seeded_partial (R := frozen) (N := completeNx) 5 (by norm_num) 10 (1 / 2) (by norm_num) true false 3 () () true false frozen_ne

end

end Verif.Wit
