import Verif.Props.SolveU2
import Verif.Props.SolveD2
import Verif.Props.SolveU3

/-! C56: renaming the nodes renames the solution.  cm, cm_exp, dcm and dcm_exp solve the problem of the degree classes, which does not depend on the names of the
nodes, and spread its solution over the nodes. -/

namespace Verif.Solve
open Verif Verif.Solver Verif.Reduction Verif.Spec Finset

noncomputable section
open Classical in
attribute [local instance 0] propDecidable

/-! ### the degree classes of a renamed sequence -/

section classes
variable {α : Type*} [LinearOrder α] {N : ℕ}

theorem values_perm (a : Fin N → α) (σ : Equiv.Perm (Fin N)) : values (a ∘ σ) = values a := by
  ext v
  simp only [values, mem_image, mem_univ, true_and, Function.comp]
  exact ⟨fun ⟨i, h⟩ => ⟨σ i, h⟩, fun ⟨i, h⟩ => ⟨σ.symm i, by simpa using h⟩⟩

/-- the reduced problem, with its size -/
def classes (V : Finset α) (m : α → ℕ) : Σ r : ℕ, (Fin r → α) × (Fin r → ℕ) := ⟨V.card, fun q => V.orderEmbOfFin rfl q, fun q => m (V.orderEmbOfFin rfl q)⟩

theorem classes_perm (a : Fin N → α) (σ : Equiv.Perm (Fin N)) :
    (⟨rnz_n (a ∘ σ), r_dseq (a ∘ σ), r_multiplicity (a ∘ σ)⟩ : Σ r : ℕ, (Fin r → α) × (Fin r → ℕ)) = ⟨rnz_n a, r_dseq a, r_multiplicity a⟩ := by
  have h (a : Fin N → α) : (⟨rnz_n a, r_dseq a, r_multiplicity a⟩ : Σ r : ℕ, (Fin r → α) × (Fin r → ℕ)) =
      classes (values a) fun v => (univ.filter fun i => a i = v).card := rfl
  rw [h, h, values_perm]
  congr 1
  funext v
  refine card_bij (fun i _ => σ i) (by simp) (by simp) ?_
  intro j hj
  exact ⟨σ.symm j, by simpa using hj, by simp⟩

theorem invert_perm (a : Fin N → α) (σ : Equiv.Perm (Fin N)) (i : Fin N) : (r_invert_dseq (a ∘ σ) i).val = (r_invert_dseq a (σ i)).val := by
  have h (V V' : Finset α) (hV : V = V') (v : α) (h : v ∈ V) (h' : v ∈ V') :
      ((V.orderIsoOfFin rfl).symm ⟨v, h⟩).val = ((V'.orderIsoOfFin rfl).symm ⟨v, h'⟩).val := by cases hV; rfl
  exact h _ _ (values_perm a σ) _ _ _

end classes

theorem maxAbs_perm {ι κ : Type} [Fintype ι] [Fintype κ] [Nonempty ι] [Nonempty κ] (f : ι → ℝ) (σ : κ ≃ ι) : maxAbs (fun i => f (σ i)) = maxAbs f := by
  obtain ⟨h1, i, hi⟩ := maxAbs_isMax f
  obtain ⟨h2, j, hj⟩ := maxAbs_isMax fun i => f (σ i)
  refine le_antisymm (hj ▸ h1 _) (hi ▸ ?_)
  have := h2 (σ.symm i)
  simpa using this

/-! ### undirected -/

section undirected
variable {n : ℕ} [NeZero n]

/-- the table of cm and cm_exp in terms of the reduced problem -/
def tableU (e : Env) (isExp : Bool) (m : Method) {r : ℕ} (k c : Fin r → ℝ) : Callbacks (Fin r) :=
  if isExp then
    { fn := match m with
        | .newton | .quasinewton => fun x q => -CM.loglikelihood_prime_cm_exp x k c q
        | .fixed_point => fun x => CM.iterative_cm_exp x k c
      jac := fun x => negM (CM.loglikelihood_hessian_cm_exp x k c)
      jacDiag := fun x q => -CM.loglikelihood_hessian_diag_cm_exp x k c q
      hessian_regulariser := matrix_regulariser_function
      linsearch := fun x dx beta alfa f =>
        some (linsearch_fun_CM_exp x dx beta alfa f (llF e (fun _ => True) fun x => CM.loglikelihood_cm_exp x k c))
      linsearchFixed := fun _ dx dx_old alfa beta step => some (linsearch_fun_CM_exp_fixed dx dx_old alfa beta step) }
  else
    { fn := match m with
        | .newton | .quasinewton => fun x q => -CM.loglikelihood_prime_cm x k c q
        | .fixed_point => fun x => CM.iterative_cm x k c
      jac := fun x => negM (CM.loglikelihood_hessian_cm x k c)
      jacDiag := fun x q => -CM.loglikelihood_hessian_diag_cm x k c q
      hessian_regulariser := eigenRegulariser e
      linsearch := fun x dx beta alfa f =>
        some (linsearch_fun_CM (List.finRange r) x dx beta alfa f (llF e (fun x => ∀ q, 0 < x q) fun x => CM.loglikelihood_cm x k c))
      linsearchFixed := fun x dx dx_old alfa beta step => some (linsearch_fun_CM_fixed (List.finRange r) x dx dx_old alfa beta step) }

theorem table_cm (e : Env) (d : UData n) (m : Method) : cbCM e d m = tableU e false m d.k d.c := rfl
theorem table_cm_exp (e : Env) (d : UData n) (m : Method) : cbCMexp e d m = tableU e true m d.k d.c := rfl

/-- minus the reported number -/
def llU (isExp : Bool) {r : ℕ} (x k c : Fin r → ℝ) : ℝ := if isExp then CM.loglikelihood_cm_exp x k c else CM.loglikelihood_cm x k c

/-- the named guesses as functions of the position and the degree of a class -/
def startU (e : Env) (E : ℝ) (isExp : Bool) (s : String) : Option (ℕ → ℝ → ℝ) :=
  let fin : (ℕ → ℝ → ℝ) → ℕ → ℝ → ℝ := fun f q k =>
    let v := if k = 0 then 0 else f q k
    if isExp then (if v ≠ 0 then -Real.log v else v) else v
  if s = "degrees_minor" then some (fin fun _ k => k / (Real.sqrt E + 1))
  else if s = "random" then some (fin fun q _ => e.rand 0 q)
  else if s = "uniform" then some (fin fun _ _ => 0.5)
  else if s = "degrees" then some (fin fun _ k => k)
  else if s = "chung_lu" then some (fin fun _ k => k / (2 * E))
  else none

theorem guess_start (e : Env) (d : UData n) (isExp : Bool) (s : String) :
    guessCM e d isExp (.name s) = match startU e d.n_edges isExp s with
      | none => .error .valueError
      | some X => .ok fun q => X q (d.k q) := by
  unfold guessCM startU namedCM
  simp only
  split_ifs <;> first | rfl | (cases isExp <;> rfl)

/-- equal problems have equal runs -/
theorem run_same (e : Env) (isExp : Bool) (m : Method) (o : Opts) (X : ℕ → ℝ → ℝ) {r r' : ℕ} [i1 : Nonempty (Fin r)] [i2 : Nonempty (Fin r')] {k c : Fin r → ℝ}
    {k' c' : Fin r' → ℝ} (h : (⟨r', k', c'⟩ : Σ r : ℕ, (Fin r → ℝ) × (Fin r → ℝ)) = ⟨r, k, c⟩) :
    (∃ er, solver (tableU e isExp m k c) o (fun q => X q (k q)) = .error er ∧ solver (tableU e isExp m k' c') o (fun q => X q (k' q)) = .error er) ∨
    ∃ s s', solver (tableU e isExp m k c) o (fun q => X q (k q)) = .ok s ∧ solver (tableU e isExp m k' c') o (fun q => X q (k' q)) = .ok s' ∧
      Trace.of s' = Trace.of s ∧ (∀ q q', q'.val = q.val → s'.x q' = s.x q) ∧ llU isExp s'.x k' c' = llU isExp s.x k c := by
  cases h
  cases hs : solver (tableU e isExp m k c) o (fun q => X q (k q)) with
  | error er => exact .inl ⟨er, rfl, rfl⟩
  | ok s => exact .inr ⟨s, s, rfl, rfl, rfl, fun q q' h => by rw [Fin.ext h], rfl⟩

theorem classesU {d d' : UData n} {σ : Equiv.Perm (Fin n)} (h : ∀ i, d'.dseq i = d.dseq (σ i)) :
    (⟨d'.r, d'.k, d'.c⟩ : Σ r : ℕ, (Fin r → ℝ) × (Fin r → ℝ)) = ⟨d.r, d.k, d.c⟩ := by
  have hd : d'.dseq = d.dseq ∘ σ := funext h
  have := congrArg (fun S : Σ r : ℕ, (Fin r → ℕ) × (Fin r → ℕ) => (⟨S.1, fun q => (S.2.1 q : ℝ), fun q => (S.2.2 q : ℝ)⟩ : Σ r : ℕ, (Fin r → ℝ) × (Fin r → ℝ)))
    (classes_perm d.dseq σ)
  rw [← hd] at this
  exact this

theorem n_edges_perm {d d' : UData n} {σ : Equiv.Perm (Fin n)} (h : ∀ i, d'.dseq i = d.dseq (σ i)) : d'.n_edges = d.n_edges := by
  unfold UData.n_edges UData.deg
  simp only [h]
  rw [Equiv.sum_comp σ fun i => (d.dseq i : ℝ)]

theorem expected_degree_perm (x : Fin n → ℝ) (σ : Equiv.Perm (Fin n)) (i : Fin n) : CM.expected_degree_cm (fun i => x (σ i)) i = CM.expected_degree_cm x (σ i) := by
  rw [deg_spec, deg_spec]
  unfold degUBCM
  rw [sum_filter, sum_filter, ← Equiv.sum_comp σ fun j => if j ≠ σ i then linkUBCM x (σ i) j else 0]
  simp [linkUBCM]

/-- the three ways a call with a named guess can end -/
theorem ends_cm (e : Env) (d : UData n) (isExp : Bool) (mo : UModel) (hm : mo = if isExp then .cm_exp else .cm) (method : String) (guess : Guess n) (adj : AdjSpec n)
    (ma : String) (ga : Guess n) (p : Params) (start : Option (ℕ → ℝ → ℝ))
    (hg : guessCM e d isExp guess = match start with
      | none => .error .valueError
      | some X => .ok fun q => X q (d.k q)) :
    let R := solve_tool e ({} : UAttr d) mo.name method guess adj ma ga p
    let g1 : UAttr d := { last_model := some mo.name, full_return := p.full_return }
    let g2 : UAttr d := { g1 with args := some .cm }
    let g3 : UAttr d := { g2 with step_fun := some mo, fun_pmatrix := true }
    (start = none → R = ⟨g1, some (.py .valueError), guess, ga⟩) ∧
    ∀ X, start = some X → ((∀ me : Method, method ≠ me.name) → R = ⟨g2, some (.py .valueError), guess, ga⟩) ∧
      ∀ me : Method, method = me.name →
        (∀ er, solver (tableU e isExp me d.k d.c) (p.opts method) (fun q => X q (d.k q)) = .error er → R = ⟨g3, some (.numeric er), guess, ga⟩) ∧
        ∀ st, solver (tableU e isExp me d.k d.c) (p.opts method) (fun q => X q (d.k q)) = .ok st →
          R = ⟨(solutionError e (setSolvedCM g3 isExp st)).1, (solutionError e (setSolvedCM g3 isExp st)).2, guess, ga⟩ := by
  have hmn : mo.name = "cm" ∨ mo.name = "cm_exp" := by cases isExp <;> subst hm <;> decide
  have hdec : decide (mo.name = "cm_exp") = isExp := by cases isExp <;> subst hm <;> decide
  have hR : ∀ (g : UAttr d), solve_tool e g mo.name method guess adj ma ga p = match (solveProblem e g mo.name method guess p) with
      | (g', some x, gu) => ⟨g', some x, gu, ga⟩
      | (g', none, gu) => ⟨(solutionError e g').1, (solutionError e g').2, gu, ga⟩ := by
    intro g
    unfold solve_tool
    rw [if_pos (by tauto)]
    obtain ⟨a, b, c⟩ := solveProblem e g mo.name method guess p
    cases b <;> rfl
  intro R g1 g2 g3
  have hR0 : R = _ := hR {}
  unfold solveProblem at hR0
  rw [if_pos hmn, hdec, hg] at hR0
  refine ⟨?_, ?_⟩
  · intro h0; rw [h0] at hR0; exact hR0
  · intro X h0
    rw [h0] at hR0
    refine ⟨?_, ?_⟩
    · intro hme
      have hl : uLookup mo.name method = none := by
        cases hl : uLookup mo.name method with
        | none => rfl
        | some v =>
          rcases uLookup_some (mo' := v.1) (me := v.2) hl with ⟨-, h2⟩ | ⟨h1, -⟩
          · exact absurd h2 (hme _)
          · cases isExp <;> subst hm <;> cases h1
      simp only [hl] at hR0
      exact hR0
    · rintro me rfl
      have hl := uLookup_name mo me
      simp only [hl] at hR0
      have ht : (if mo.name = "cm_exp" then cbCMexp e d me else cbCM e d me) = tableU e isExp me d.k d.c := by
        cases isExp <;> subst hm <;> rfl
      rw [ht] at hR0
      refine ⟨?_, ?_⟩
      · intro er h1; rw [h1] at hR0; exact hR0
      · intro st h1; rw [h1] at hR0; exact hR0

theorem relabel_cm (e : Env) {d d' : UData n} {σ : Equiv.Perm (Fin n)} (h : ∀ i, d'.dseq i = d.dseq (σ i)) (mo : UModel) (hmo : mo = .cm ∨ mo = .cm_exp)
    (method : String) (guess guess' : Guess n) (adj : AdjSpec n) (ma : String) (ga : Guess n) (p : Params)
    (start : Bool → Option (ℕ → ℝ → ℝ))
    (hg : ∀ isExp, guessCM e d isExp guess = match start isExp with
      | none => .error .valueError
      | some X => .ok fun q => X q (d.k q))
    (hg' : ∀ isExp, guessCM e d' isExp guess' = match start isExp with
      | none => .error .valueError
      | some X => .ok fun q => X q (d'.k q)) :
    let R := solve_tool e ({} : UAttr d) mo.name method guess adj ma ga p
    let R' := solve_tool e ({} : UAttr d') mo.name method guess' adj ma ga p
    R'.exc = R.exc ∧ R'.g.x = R.g.x.map (· ∘ σ) ∧ R'.g.expected_dseq = R.g.expected_dseq.map (· ∘ σ) ∧ R'.g.error_degree = R.g.error_degree ∧
      R'.g.relative_error_degree = R.g.relative_error_degree ∧ R'.g.error = R.g.error ∧ R'.g.trace = R.g.trace ∧ model_loglikelihood e R'.g = model_loglikelihood e R.g := by
  have hx0 (isExp : Bool) (s0 : State (Fin d.r)) (s1 : State (Fin d'.r)) (hq : ∀ q q', q'.val = q.val → s1.x q' = s0.x q) :
      (if isExp then fun i => Real.exp (-s1.x (d'.inv i)) else fun i => s1.x (d'.inv i)) =
        (if isExp then fun i => Real.exp (-s0.x (d.inv i)) else fun i => s0.x (d.inv i)) ∘ σ := by
    have hi : ∀ i, s1.x (d'.inv i) = s0.x (d.inv (σ i)) := by
      intro i
      refine hq _ _ ?_
      have := invert_perm d.dseq σ i
      rw [← show d'.dseq = d.dseq ∘ σ from funext h] at this
      exact this
    cases isExp
    · funext i; exact hi i
    · funext i; simp only [if_true, Function.comp]; rw [hi]
  have fin (G : UAttr d) (G' : UAttr d') (x : Fin n → ℝ) (h1 : G.x = some x) (h2 : G'.x = some (x ∘ σ)) (hb : G.beta = none) (hb' : G'.beta = none)
      (hl : G.last_model = some "cm" ∨ G.last_model = some "cm_exp") (hl' : G'.last_model = G.last_model) :
      (solutionError e G').2 = (solutionError e G).2 ∧ (solutionError e G').1.expected_dseq = (solutionError e G).1.expected_dseq.map (· ∘ σ) ∧
      (solutionError e G').1.error_degree = (solutionError e G).1.error_degree ∧
      (solutionError e G').1.relative_error_degree = (solutionError e G).1.relative_error_degree ∧ (solutionError e G').1.error = (solutionError e G).1.error := by
    have u {d : UData n} (G : UAttr d) (x : Fin n → ℝ) (h1 : G.x = some x) (hb : G.beta = none) (hl : G.last_model = some "cm" ∨ G.last_model = some "cm_exp") :
        solutionError e G = (degreeError G, none) := by
      unfold solutionError
      rw [if_pos (by tauto)]
      unfold strengthError
      have : (degreeError G).beta = none := by rw [(degreeError_keeps G).2.2.1, hb]
      rw [this]
    rw [u G x h1 hb hl, u G' _ h2 hb' (hl' ▸ hl)]
    have dg : d'.deg = d.deg ∘ σ := by funext i; simp [UData.deg, h]
    unfold degreeError
    rw [h1, h2]
    have e1 : CM.expected_degree_cm (x ∘ σ) = CM.expected_degree_cm x ∘ σ := funext (expected_degree_perm x σ)
    simp only [e1, dg, Option.map_some, true_and]
    have a1 := maxAbs_perm (fun i => CM.expected_degree_cm x i - d.deg i) σ
    have a2 := maxAbs_perm (fun i => (CM.expected_degree_cm x i - d.deg i) / (d.deg i + Real.exp (-100))) σ
    exact ⟨congrArg _ a1, congrArg _ a2, congrArg _ a1⟩
  obtain ⟨isExp, hm⟩ : ∃ isExp : Bool, mo = if isExp then .cm_exp else .cm := by
    rcases hmo with rfl | rfl
    · exact ⟨false, rfl⟩
    · exact ⟨true, rfl⟩
  have hl2 : (some mo.name = some "cm" ∨ some mo.name = some "cm_exp") := by rcases hmo with rfl | rfl <;> simp [UModel.name]
  intro R R'
  have hR := ends_cm e d isExp mo hm method guess adj ma ga p (start isExp) (hg isExp)
  have hR' := ends_cm e d' isExp mo hm method guess' adj ma ga p (start isExp) (hg' isExp)
  cases hst : start isExp with
  | none =>
    rw [show R = _ from hR.1 hst, show R' = _ from hR'.1 hst]
    exact ⟨rfl, rfl, rfl, rfl, rfl, rfl, rfl, rfl⟩
  | some X =>
    by_cases hme : ∃ me : Method, method = me.name
    · obtain ⟨me, hme⟩ := hme
      rcases run_same e isExp me (p.opts method) X (classesU h) with ⟨er, h1, h2⟩ | ⟨st, st', h1, h2, h3, h4, h5⟩
      · rw [show R = _ from ((hR.2 X hst).2 me hme).1 er h1, show R' = _ from ((hR'.2 X hst).2 me hme).1 er h2]
        refine ⟨rfl, rfl, rfl, rfl, rfl, rfl, rfl, ?_⟩
        cases isExp <;> subst hm <;> rfl
      · rw [show R = _ from ((hR.2 X hst).2 me hme).2 st h1, show R' = _ from ((hR'.2 X hst).2 me hme).2 st' h2]
        have hx := hx0 isExp st st' h4
        set G := setSolvedCM (d := d) { last_model := some mo.name, full_return := p.full_return, args := some .cm, step_fun := some mo, fun_pmatrix := true } isExp st with hG
        set G' := setSolvedCM (d := d') { last_model := some mo.name, full_return := p.full_return, args := some .cm, step_fun := some mo, fun_pmatrix := true } isExp st' with hG'
        have hf := fin G G' _ rfl (congrArg some hx) rfl rfl hl2 rfl
        have k1 := solutionError_keeps e G
        have k2 := solutionError_keeps e G'
        refine ⟨hf.1, ?_, hf.2.1, hf.2.2.1, hf.2.2.2.1, hf.2.2.2.2, ?_, ?_⟩
        · rw [k1.1, k2.1]; exact congrArg some hx
        · rw [k1.2.2.2.2.1, k2.2.2.2.2.1, hG, hG']
          simp only [setSolvedCM, h3]
        · unfold model_loglikelihood
          rw [k1.2.2.2.1, k2.2.2.2.1, k1.2.2.2.2.2.2.2.1, k2.2.2.2.2.2.2.2.1, k1.2.2.2.2.2.2.2.2.1, k2.2.2.2.2.2.2.2.2.1, hG, hG']
          simp only [setSolvedCM]
          cases isExp <;> subst hm <;> simp only [Bool.false_eq_true, if_false, if_true] <;> exact congrArg (fun t : ℝ => Except.ok (-t)) h5
    · have hme' : ∀ me : Method, method ≠ me.name := fun me h => hme ⟨me, h⟩
      rw [show R = _ from (hR.2 X hst).1 hme', show R' = _ from (hR'.2 X hst).1 hme']
      exact ⟨rfl, rfl, rfl, rfl, rfl, rfl, rfl, rfl⟩

/-- C56 (cm, cm_exp): renaming the nodes renames the solution: the same outcome, the parameters and expected degrees of the renamed nodes, the same errors, the same
trace and the same log-likelihood. -/
theorem C56_cm_relabel (e : Env) {d d' : UData n} {σ : Equiv.Perm (Fin n)} (h : ∀ i, d'.dseq i = d.dseq (σ i)) (mo : UModel) (hmo : mo = .cm ∨ mo = .cm_exp)
    (method s : String) (adj : AdjSpec n) (ma : String) (ga : Guess n) (p : Params) :
    let R := solve_tool e ({} : UAttr d) mo.name method (.name s) adj ma ga p
    let R' := solve_tool e ({} : UAttr d') mo.name method (.name s) adj ma ga p
    R'.exc = R.exc ∧ R'.g.x = R.g.x.map (· ∘ σ) ∧ R'.g.expected_dseq = R.g.expected_dseq.map (· ∘ σ) ∧ R'.g.error_degree = R.g.error_degree ∧
      R'.g.relative_error_degree = R.g.relative_error_degree ∧ R'.g.error = R.g.error ∧ R'.g.trace = R.g.trace ∧ model_loglikelihood e R'.g = model_loglikelihood e R.g :=
  relabel_cm e h mo hmo method (.name s) (.name s) adj ma ga p (fun isExp => startU e d.n_edges isExp s) (fun isExp => guess_start e d isExp s)
    (fun isExp => n_edges_perm h ▸ guess_start e d' isExp s)

/-- C56 (cm, cm_exp, an array as guess): the same when nodes of equal degree are given equal values. -/
theorem C56_cm_relabel_array (e : Env) {d d' : UData n} {σ : Equiv.Perm (Fin n)} (h : ∀ i, d'.dseq i = d.dseq (σ i)) (mo : UModel) (hmo : mo = .cm ∨ mo = .cm_exp)
    (method : String) (v : Fin n → ℝ) (hv : ∀ i j, d.dseq i = d.dseq j → v i = v j) (adj : AdjSpec n) (ma : String) (ga : Guess n) (p : Params) :
    let R := solve_tool e ({} : UAttr d) mo.name method (.nodes v) adj ma ga p
    let R' := solve_tool e ({} : UAttr d') mo.name method (.nodes (v ∘ σ)) adj ma ga p
    R'.exc = R.exc ∧ R'.g.x = R.g.x.map (· ∘ σ) ∧ R'.g.expected_dseq = R.g.expected_dseq.map (· ∘ σ) ∧ R'.g.error_degree = R.g.error_degree ∧
      R'.g.relative_error_degree = R.g.relative_error_degree ∧ R'.g.error = R.g.error ∧ R'.g.trace = R.g.trace ∧ model_loglikelihood e R'.g = model_loglikelihood e R.g := by
  let f : ℝ → ℝ := fun k => if h : ∃ i, d.deg i = k then v h.choose else 0
  have hf : ∀ i, f (d.deg i) = v i := by
    intro i
    have hex : ∃ j, d.deg j = d.deg i := ⟨i, rfl⟩
    simp only [f, dif_pos hex]
    exact hv _ _ (Nat.cast_injective (R := ℝ) hex.choose_spec)
  have hk : ∀ (d : UData n) q, d.k q = d.deg (d.index q) := by
    intro d q
    have := Finset.min'_mem (univ.filter fun i => d.dseq i = r_dseq d.dseq q) (by
      obtain ⟨i, hi⟩ := d.exists_class q
      exact ⟨i, by simp [hi]⟩)
    rw [mem_filter] at this
    exact congrArg (Nat.cast (R := ℝ)) this.2.symm
  refine relabel_cm e h mo hmo method (.nodes v) (.nodes (v ∘ σ)) adj ma ga p (fun _ => some fun _ k => if k = 0 then 0 else f k) ?_ ?_
  · intro isExp
    show Except.ok _ = Except.ok _
    congr 1; funext q
    simp only [maskSet]
    rw [hk, hf]
  · intro isExp
    show Except.ok _ = Except.ok _
    congr 1; funext q
    simp only [maskSet]
    rw [hk, show d'.deg (d'.index q) = d.deg (σ (d'.index q)) by simp [UData.deg, h], hf]
    rfl

/-- without steps the answer for a graph whose nodes have the same degree is the value given for the first node -/
theorem array_first {n k : ℕ} [NeZero n] (hk : k ≠ 0) (e : Env) (st : Fin n → ℝ) (v : Fin n → ℝ) (adj : AdjSpec n) (ma : String) (ga : Guess n) :
    (solve_tool e ({} : UAttr (regular n k st)) "cm" "newton" (.nodes v) adj ma ga { max_steps := 0 }).g.x = some fun _ => v 0 := by
  have hi : ∀ q, (regular n k st).index q = 0 := by
    intro q
    have h0 : (0 : Fin n) ∈ univ.filter fun i => (regular n k st).dseq i = r_dseq (regular n k st).dseq q := by
      rw [mem_filter]
      obtain ⟨i, hi⟩ := (regular n k st).exists_class q
      exact ⟨mem_univ _, hi⟩
    have := Finset.min'_le _ _ h0
    exact le_antisymm this (Fin.zero_le _)
  have hg : guessCM e (regular n k st) false (.nodes v) = .ok fun _ => v 0 := by
    show Except.ok _ = Except.ok _
    congr 1; funext q
    rw [maskSet, if_neg (by rw [regular_k]; exact_mod_cast hk), hi]
  have h := solve_tool_cm e ({} : UAttr (regular n k st)) .newton (.nodes v) adj ma ga { max_steps := 0 } hg
  have hs : solver (cbCM e (regular n k st) .newton) (({ max_steps := 0 } : Params).opts Method.newton.name) (fun _ => v 0) =
      .ok (initState (cbCM e (regular n k st) .newton) fun _ => v 0) := rfl
  simp only [hs] at h
  rw [show "newton" = Method.newton.name from rfl, h]
  exact (solutionError_keeps e _).1

/-- C56 (cm, an array as guess): without that condition it is false: only the value given for the first node of every degree is used. Two connected nodes, and the same
graph with the two names exchanged. -/
theorem C56_cm_relabel_array_wrong (e : Env) (adj : AdjSpec 2) (ma : String) (ga : Guess 2) :
    let d : UData 2 := ⟨fun _ => 1, fun _ => 1⟩
    let σ : Equiv.Perm (Fin 2) := Equiv.swap 0 1
    let v : Fin 2 → ℝ := ![1, 2]
    let R := solve_tool e ({} : UAttr d) "cm" "newton" (.nodes v) adj ma ga { max_steps := 0 }
    let R' := solve_tool e ({} : UAttr d) "cm" "newton" (.nodes (v ∘ σ)) adj ma ga { max_steps := 0 }
    (∀ i, d.dseq i = d.dseq (σ i)) ∧ R'.g.x ≠ R.g.x.map (· ∘ σ) := by
  intro d σ v R R'
  have h1 := array_first (n := 2) (k := 1) one_ne_zero e (fun _ => 1) v adj ma ga
  have h2 := array_first (n := 2) (k := 1) one_ne_zero e (fun _ => 1) (v ∘ σ) adj ma ga
  refine ⟨fun _ => rfl, ?_⟩
  rw [show R.g.x = _ from h1, show R'.g.x = _ from h2]
  intro h
  have := congrFun (Option.some.inj h) 0
  simp [v, σ] at this

/-- a renaming that moves degrees: the path 0 - 1 - 2 becomes the path 0 - 2 - 1 -/
example : ∀ i : Fin 3, (⟨![1, 1, 2], fun _ => 0⟩ : UData 3).dseq i = (⟨![1, 2, 1], fun _ => 0⟩ : UData 3).dseq (Equiv.swap 1 2 i) := by decide

end undirected

/-! ### directed -/

section directed
variable {n : ℕ} [NeZero n]

/-- the table of dcm and dcm_exp in terms of the reduced problem -/
def tableD (e : Env) (isExp : Bool) (m : Method) {r : ℕ} (ko ki c : Fin r → ℝ) : Callbacks (Fin 2 × Fin r) :=
  if isExp then
    { fn := match m with
        | .newton | .quasinewton => fun x v => -DCM.loglikelihood_prime_dcm_exp x ko ki (DCM.nonzero ko) (DCM.nonzero ki) c v
        | .fixed_point => fun x => DCM.iterative_dcm_exp x ko ki (DCM.nonzero ko) (DCM.nonzero ki) c
      jac := fun x => negM (DCM.loglikelihood_hessian_dcm_exp x ko ki (DCM.nonzero ko) (DCM.nonzero ki) c)
      jacDiag := fun x v => -DCM.loglikelihood_hessian_diag_dcm_exp x ko ki (DCM.nonzero ko) (DCM.nonzero ki) c v
      hessian_regulariser := matrix_regulariser_function
      linsearch := fun x dx beta alfa f =>
        some (linsearch_fun_DCM_exp x dx beta alfa f
          (llF e (fun _ => True) fun x => DCM.loglikelihood_dcm_exp x ko ki (DCM.nonzero ko) (DCM.nonzero ki) c))
      linsearchFixed := fun _ dx dx_old alfa beta step => some (linsearch_fun_DCM_exp_fixed dx dx_old alfa beta step) }
  else
    { fn := match m with
        | .newton | .quasinewton => fun x v => -DCM.loglikelihood_prime_dcm x ko ki (DCM.nonzero ko) (DCM.nonzero ki) c v
        | .fixed_point => fun x => DCM.iterative_dcm x ko ki (DCM.nonzero ko) (DCM.nonzero ki) c
      jac := fun x => negM (DCM.loglikelihood_hessian_dcm x ko ki (DCM.nonzero ko) (DCM.nonzero ki) c)
      jacDiag := fun x v => -DCM.loglikelihood_hessian_diag_dcm x ko ki (DCM.nonzero ko) (DCM.nonzero ki) c v
      hessian_regulariser := eigenRegulariser e
      linsearch := fun x dx beta alfa f =>
        some (linsearch_fun_DCM (blocks 2 r) x dx beta alfa f
          (llF e (fun x => (∀ q, ko q ≠ 0 → 0 < x (0, q)) ∧ ∀ q, ki q ≠ 0 → 0 < x (1, q))
            fun x => DCM.loglikelihood_dcm x ko ki (DCM.nonzero ko) (DCM.nonzero ki) c))
      linsearchFixed := fun x dx dx_old alfa beta step => some (linsearch_fun_DCM_fixed (blocks 2 r) x dx dx_old alfa beta step) }

/-- minus the reported number -/
def llD (isExp : Bool) {r : ℕ} (x : Fin 2 × Fin r → ℝ) (ko ki c : Fin r → ℝ) : ℝ :=
  if isExp then DCM.loglikelihood_dcm_exp (fun v => Real.exp (-x v)) ko ki (DCM.nonzero ko) (DCM.nonzero ki) c
  else DCM.loglikelihood_dcm x ko ki (DCM.nonzero ko) (DCM.nonzero ki) c

/-- zero degrees and logarithms -/
def finD (isExp : Bool) (f : Fin 2 → ℕ → ℝ → ℝ → ℝ) (b : Fin 2) (q : ℕ) (ko ki : ℝ) : ℝ :=
  let k := if b = 0 then ko else ki
  let v := f b q ko ki
  if isExp then (if k = 0 then 1e3 else if v ≠ 0 then -Real.log v else v) else (if k = 0 then 0 else v)

/-- the named guesses as functions of the block, the position of a class and its degrees -/
def startD (e : Env) (E : ℝ) (isExp : Bool) (s : String) : Option (Fin 2 → ℕ → ℝ → ℝ → ℝ) :=
  let fin : (Fin 2 → ℕ → ℝ → ℝ) → Fin 2 → ℕ → ℝ → ℝ → ℝ := fun f => finD isExp fun b q ko ki => f b q (if b = 0 then ko else ki)
  if s = "degrees_minor" then some (fin fun _ _ k => k / (Real.sqrt E + 1))
  else if s = "random" then some (fin fun b q _ => e.rand (if b = 0 then 0 else 1) q)
  else if s = "uniform" then some (fin fun _ _ _ => 0.5)
  else if s = "degrees" then some (fin fun _ _ k => k)
  else if s = "chung_lu" then some (fin fun _ _ k => k / (2 * E))
  else none

theorem finish_start (d : DData n) (isExp : Bool) (x y : Fin d.r → ℝ) (f : Fin 2 → ℕ → ℝ → ℝ → ℝ) (h0 : ∀ q, x q = f 0 q (d.ko q) (d.ki q))
    (h1 : ∀ q, y q = f 1 q (d.ko q) (d.ki q)) : finishDCM d isExp x y = fun w => finD isExp f w.1 w.2 (d.ko w.2) (d.ki w.2) := by
  funext ⟨b, q⟩
  unfold finishDCM finD
  fin_cases b <;> cases isExp <;> simp [cat2, maskSet, negLogNonzero, h0, h1]

theorem guess_startD (e : Env) (d : DData n) (isExp : Bool) (s : String) :
    guessDCM e d isExp (.name s) = match startD e d.n_edges isExp s with
      | none => .error .valueError
      | some X => .ok fun w => X w.1 w.2 (d.ko w.2) (d.ki w.2) := by
  unfold guessDCM startD namedDCM
  simp only
  split_ifs
  · exact congrArg Except.ok (finish_start d isExp _ _ (fun b _ ko ki => (if b = 0 then ko else ki) / (Real.sqrt d.n_edges + 1)) (fun _ => rfl) (fun _ => rfl))
  · exact congrArg Except.ok (finish_start d isExp _ _ (fun b q _ _ => e.rand (if b = 0 then 0 else 1) q) (fun _ => rfl) (fun _ => rfl))
  · exact congrArg Except.ok (finish_start d isExp _ _ (fun _ _ _ _ => 0.5) (fun _ => rfl) (fun _ => rfl))
  · exact congrArg Except.ok (finish_start d isExp _ _ (fun b _ ko ki => if b = 0 then ko else ki) (fun _ => rfl) (fun _ => rfl))
  · exact congrArg Except.ok (finish_start d isExp _ _ (fun b _ ko ki => (if b = 0 then ko else ki) / (2 * d.n_edges)) (fun _ => rfl) (fun _ => rfl))
  · rfl

/-- equal problems have equal runs -/
theorem run_sameD (e : Env) (isExp : Bool) (m : Method) (o : Opts) (X : Fin 2 → ℕ → ℝ → ℝ → ℝ) {r r' : ℕ} [i1 : Nonempty (Fin r)] [i2 : Nonempty (Fin r')]
    {ko ki c : Fin r → ℝ} {ko' ki' c' : Fin r' → ℝ}
    (h : (⟨r', ko', ki', c'⟩ : Σ r : ℕ, (Fin r → ℝ) × (Fin r → ℝ) × (Fin r → ℝ)) = ⟨r, ko, ki, c⟩) :
    (∃ er, solver (tableD e isExp m ko ki c) o (fun w => X w.1 w.2 (ko w.2) (ki w.2)) = .error er ∧
      solver (tableD e isExp m ko' ki' c') o (fun w => X w.1 w.2 (ko' w.2) (ki' w.2)) = .error er) ∨
    ∃ s s', solver (tableD e isExp m ko ki c) o (fun w => X w.1 w.2 (ko w.2) (ki w.2)) = .ok s ∧
      solver (tableD e isExp m ko' ki' c') o (fun w => X w.1 w.2 (ko' w.2) (ki' w.2)) = .ok s' ∧
      Trace.of s' = Trace.of s ∧ (∀ b q q', q'.val = q.val → s'.x (b, q') = s.x (b, q)) ∧ llD isExp s'.x ko' ki' c' = llD isExp s.x ko ki c := by
  cases h
  cases hs : solver (tableD e isExp m ko ki c) o (fun w => X w.1 w.2 (ko w.2) (ki w.2)) with
  | error er => exact .inl ⟨er, rfl, rfl⟩
  | ok s => exact .inr ⟨s, s, rfl, rfl, rfl, fun b q q' h => by rw [Fin.ext h], rfl⟩

theorem seq_perm {d d' : DData n} {σ : Equiv.Perm (Fin n)} (ho : ∀ i, d'.dseq_out i = d.dseq_out (σ i)) (hi : ∀ i, d'.dseq_in i = d.dseq_in (σ i)) :
    d'.seq = d.seq ∘ σ := by
  funext i; simp only [DData.seq, ho, hi, Function.comp]

theorem classesD {d d' : DData n} {σ : Equiv.Perm (Fin n)} (hd : d'.seq = d.seq ∘ σ) :
    (⟨d'.r, d'.ko, d'.ki, d'.c⟩ : Σ r : ℕ, (Fin r → ℝ) × (Fin r → ℝ) × (Fin r → ℝ)) = ⟨d.r, d.ko, d.ki, d.c⟩ := by
  have := congrArg (fun S : Σ r : ℕ, (Fin r → ℕ ×ₗ ℕ) × (Fin r → ℕ) =>
    (⟨S.1, fun q => ((ofLex (S.2.1 q)).1 : ℝ), fun q => ((ofLex (S.2.1 q)).2 : ℝ), fun q => (S.2.2 q : ℝ)⟩ : Σ r : ℕ, (Fin r → ℝ) × (Fin r → ℝ) × (Fin r → ℝ)))
    (classes_perm d.seq σ)
  rw [← hd] at this
  exact this

theorem n_edges_permD {d d' : DData n} {σ : Equiv.Perm (Fin n)} (h : ∀ i, d'.dseq_out i = d.dseq_out (σ i)) : d'.n_edges = d.n_edges := by
  unfold DData.n_edges DData.degOut
  simp only [h]
  rw [Equiv.sum_comp σ fun i => (d.dseq_out i : ℝ)]

/-- renaming of the entries of an array of two blocks -/
def blocks2 (σ : Equiv.Perm (Fin n)) : Equiv.Perm (Fin 2 × Fin n) := Equiv.prodCongr (Equiv.refl _) σ

theorem cat2_perm (x y : Fin n → ℝ) (σ : Equiv.Perm (Fin n)) : cat2 (x ∘ σ) (y ∘ σ) = cat2 x y ∘ blocks2 σ := by
  funext v; simp [cat2, blocks2]

theorem out_perm (x y : Fin n → ℝ) (σ : Equiv.Perm (Fin n)) : DCM.expected_out_degree_dcm (cat2 (x ∘ σ) (y ∘ σ)) = DCM.expected_out_degree_dcm (cat2 x y) ∘ σ := by
  funext i
  rw [Function.comp, out_spec, out_spec]
  unfold outDBCM
  rw [sum_filter, sum_filter, ← Equiv.sum_comp σ fun j => if j ≠ σ i then linkDBCM x y (σ i) j else 0]
  simp [linkDBCM]

theorem in_perm (x y : Fin n → ℝ) (σ : Equiv.Perm (Fin n)) : DCM.expected_in_degree_dcm (cat2 (x ∘ σ) (y ∘ σ)) = DCM.expected_in_degree_dcm (cat2 x y) ∘ σ := by
  funext i
  rw [Function.comp, in_spec, in_spec]
  unfold inDBCM
  rw [sum_filter, sum_filter, ← Equiv.sum_comp σ fun j => if j ≠ σ i then linkDBCM x y j (σ i) else 0]
  simp [linkDBCM]

/-- the three ways a call can end -/
theorem ends_dcm (e : Env) (d : DData n) (isExp : Bool) (mo : DModel) (hm : mo = if isExp then .dcm_exp else .dcm) (method : String) (guess : DGuess n) (adj : AdjSpec n)
    (ma : String) (ga : DGuess n) (p : Params) (start : Option (Fin 2 → ℕ → ℝ → ℝ → ℝ))
    (hg : guessDCM e d isExp guess = match start with
      | none => .error .valueError
      | some X => .ok fun w => X w.1 w.2 (d.ko w.2) (d.ki w.2)) :
    let R := solve_tool_directed e ({} : DAttr d) mo.name method guess adj ma ga p
    let g1 : DAttr d := { last_model := some mo.name, full_return := p.full_return }
    let g2 : DAttr d := { g1 with args := some .dcm }
    let g3 : DAttr d := { g2 with step_fun := some mo, fun_pmatrix := true }
    (start = none → R = ⟨g1, some (.py .valueError), guess, ga⟩) ∧
    ∀ X, start = some X → ((∀ me : Method, method ≠ me.name) → R = ⟨g2, some (.py .valueError), guess, ga⟩) ∧
      ∀ me : Method, method = me.name →
        (∀ er, solver (tableD e isExp me d.ko d.ki d.c) (p.opts method) (fun w => X w.1 w.2 (d.ko w.2) (d.ki w.2)) = .error er → R = ⟨g3, some (.numeric er), guess, ga⟩) ∧
        ∀ st, solver (tableD e isExp me d.ko d.ki d.c) (p.opts method) (fun w => X w.1 w.2 (d.ko w.2) (d.ki w.2)) = .ok st →
          R = ⟨(solutionErrorD (setSolvedDCM g3 isExp st)).1, (solutionErrorD (setSolvedDCM g3 isExp st)).2, guess, ga⟩ := by
  have hmn : mo.name = "dcm" ∨ mo.name = "dcm_exp" := by cases isExp <;> subst hm <;> decide
  have hdec : decide (mo.name = "dcm_exp") = isExp := by cases isExp <;> subst hm <;> decide
  intro R g1 g2 g3
  have hR0 : R = _ := solve_tool_plain e {} mo.name method (by tauto) guess adj ma ga p
  unfold solveProblemD at hR0
  rw [if_pos hmn, hdec, hg] at hR0
  refine ⟨?_, ?_⟩
  · intro h0; rw [h0] at hR0; exact hR0
  · intro X h0
    rw [h0] at hR0
    refine ⟨?_, ?_⟩
    · intro hme
      have hl : dLookup mo.name method = none := by
        cases hl : dLookup mo.name method with
        | none => rfl
        | some v =>
          rcases dLookup_some (mo' := v.1) (me := v.2) hl with ⟨-, h2⟩ | ⟨h1, -⟩
          · exact absurd h2 (hme _)
          · cases isExp <;> subst hm <;> cases h1
      simp only [hl] at hR0
      exact hR0
    · rintro me rfl
      have hl := dLookup_name mo me
      simp only [hl] at hR0
      have ht : (if mo.name = "dcm_exp" then cbDCMexp e d me else cbDCM e d me) = tableD e isExp me d.ko d.ki d.c := by
        cases isExp <;> subst hm <;> rfl
      rw [ht] at hR0
      refine ⟨?_, ?_⟩
      · intro er h1; rw [h1] at hR0; exact hR0
      · intro st h1; rw [h1] at hR0; exact hR0

theorem relabel_dcm (e : Env) {d d' : DData n} {σ : Equiv.Perm (Fin n)} (ho : ∀ i, d'.dseq_out i = d.dseq_out (σ i)) (hi : ∀ i, d'.dseq_in i = d.dseq_in (σ i))
    (mo : DModel) (hmo : mo = .dcm ∨ mo = .dcm_exp) (method : String) (guess guess' : DGuess n) (adj : AdjSpec n) (ma : String) (ga : DGuess n) (p : Params)
    (start : Bool → Option (Fin 2 → ℕ → ℝ → ℝ → ℝ))
    (hg : ∀ isExp, guessDCM e d isExp guess = match start isExp with
      | none => .error .valueError
      | some X => .ok fun w => X w.1 w.2 (d.ko w.2) (d.ki w.2))
    (hg' : ∀ isExp, guessDCM e d' isExp guess' = match start isExp with
      | none => .error .valueError
      | some X => .ok fun w => X w.1 w.2 (d'.ko w.2) (d'.ki w.2)) :
    let R := solve_tool_directed e ({} : DAttr d) mo.name method guess adj ma ga p
    let R' := solve_tool_directed e ({} : DAttr d') mo.name method guess' adj ma ga p
    R'.exc = R.exc ∧ R'.g.x = R.g.x.map (· ∘ σ) ∧ R'.g.y = R.g.y.map (· ∘ σ) ∧ R'.g.expected_dseq = R.g.expected_dseq.map (fun f v => f (v.1, σ v.2)) ∧
      R'.g.error_degree = R.g.error_degree ∧ R'.g.relative_error_degree = R.g.relative_error_degree ∧ R'.g.error = R.g.error ∧ R'.g.trace = R.g.trace ∧
      model_loglikelihood_directed R'.g = model_loglikelihood_directed R.g := by
  have hd := seq_perm ho hi
  have hx0 (isExp : Bool) (b : Fin 2) (s0 : State (Fin 2 × Fin d.r)) (s1 : State (Fin 2 × Fin d'.r)) (hq : ∀ b q q', q'.val = q.val → s1.x (b, q') = s0.x (b, q)) :
      (if isExp then fun i => Real.exp (-s1.x (b, d'.inv i)) else fun i => s1.x (b, d'.inv i)) =
        (if isExp then fun i => Real.exp (-s0.x (b, d.inv i)) else fun i => s0.x (b, d.inv i)) ∘ σ := by
    have hi : ∀ i, s1.x (b, d'.inv i) = s0.x (b, d.inv (σ i)) := by
      intro i
      refine hq _ _ _ ?_
      have := invert_perm d.seq σ i
      rw [← hd] at this
      exact this
    cases isExp
    · funext i; exact hi i
    · funext i; simp only [if_true, Function.comp]; rw [hi]
  have fin (G : DAttr d) (G' : DAttr d') (x y : Fin n → ℝ) (h1 : G.x = some x) (h2 : G'.x = some (x ∘ σ)) (h3 : G.y = some y) (h4 : G'.y = some (y ∘ σ))
      (hb : G.b_out = none) (hb' : G'.b_out = none)
      (hl : G.last_model = some "dcm" ∨ G.last_model = some "dcm_exp") (hl' : G'.last_model = G.last_model) :
      (solutionErrorD G').2 = (solutionErrorD G).2 ∧ (solutionErrorD G').1.expected_dseq = (solutionErrorD G).1.expected_dseq.map (fun f v => f (v.1, σ v.2)) ∧
      (solutionErrorD G').1.error_degree = (solutionErrorD G).1.error_degree ∧
      (solutionErrorD G').1.relative_error_degree = (solutionErrorD G).1.relative_error_degree ∧ (solutionErrorD G').1.error = (solutionErrorD G).1.error := by
    have u {d : DData n} (G : DAttr d) (x y : Fin n → ℝ) (h1 : G.x = some x) (h2 : G.y = some y) (hb : G.b_out = none)
        (hl : G.last_model = some "dcm" ∨ G.last_model = some "dcm_exp") : solutionErrorD G = (degreeErrorD G, none) := by
      unfold solutionErrorD
      rw [if_pos (by tauto)]
      unfold strengthErrorD
      have : (degreeErrorD G).b_out = none := by unfold degreeErrorD; rw [h1, h2]; exact hb
      rw [this]
    rw [u G x y h1 h3 hb hl, u G' _ _ h2 h4 hb' (hl' ▸ hl)]
    have dg1 : d'.degOut = d.degOut ∘ σ := by funext i; simp [DData.degOut, ho]
    have dg2 : d'.degIn = d.degIn ∘ σ := by funext i; simp [DData.degIn, hi]
    unfold degreeErrorD
    rw [h1, h2, h3, h4]
    simp only [out_perm, in_perm, dg1, dg2]
    simp only [cat2_perm, Option.map_some, true_and]
    have a1 := maxAbs_perm (fun v => cat2 (DCM.expected_out_degree_dcm (cat2 x y)) (DCM.expected_in_degree_dcm (cat2 x y)) v - cat2 d.degOut d.degIn v) (blocks2 σ)
    have a2 := maxAbs_perm (fun v => (cat2 (DCM.expected_out_degree_dcm (cat2 x y)) (DCM.expected_in_degree_dcm (cat2 x y)) v - cat2 d.degOut d.degIn v) /
      (cat2 d.degOut d.degIn v + Real.exp (-100))) (blocks2 σ)
    exact ⟨rfl, congrArg _ a1, congrArg _ a2, congrArg _ a1⟩
  obtain ⟨isExp, hm⟩ : ∃ isExp : Bool, mo = if isExp then .dcm_exp else .dcm := by
    rcases hmo with rfl | rfl
    · exact ⟨false, rfl⟩
    · exact ⟨true, rfl⟩
  have hl2 : (some mo.name = some "dcm" ∨ some mo.name = some "dcm_exp") := by rcases hmo with rfl | rfl <;> simp [DModel.name]
  intro R R'
  have hR := ends_dcm e d isExp mo hm method guess adj ma ga p (start isExp) (hg isExp)
  have hR' := ends_dcm e d' isExp mo hm method guess' adj ma ga p (start isExp) (hg' isExp)
  cases hst : start isExp with
  | none =>
    rw [show R = _ from hR.1 hst, show R' = _ from hR'.1 hst]
    exact ⟨rfl, rfl, rfl, rfl, rfl, rfl, rfl, rfl, rfl⟩
  | some X =>
    by_cases hme : ∃ me : Method, method = me.name
    · obtain ⟨me, hme⟩ := hme
      rcases run_sameD e isExp me (p.opts method) X (classesD hd) with ⟨er, h1, h2⟩ | ⟨st, st', h1, h2, h3, h4, h5⟩
      · rw [show R = _ from ((hR.2 X hst).2 me hme).1 er h1, show R' = _ from ((hR'.2 X hst).2 me hme).1 er h2]
        refine ⟨rfl, rfl, rfl, rfl, rfl, rfl, rfl, rfl, ?_⟩
        cases isExp <;> subst hm <;> rfl
      · rw [show R = _ from ((hR.2 X hst).2 me hme).2 st h1, show R' = _ from ((hR'.2 X hst).2 me hme).2 st' h2]
        have hx := hx0 isExp 0 st st' h4
        have hy := hx0 isExp 1 st st' h4
        set G := setSolvedDCM (d := d) { last_model := some mo.name, full_return := p.full_return, args := some .dcm, step_fun := some mo, fun_pmatrix := true } isExp st with hG
        set G' := setSolvedDCM (d := d') { last_model := some mo.name, full_return := p.full_return, args := some .dcm, step_fun := some mo, fun_pmatrix := true } isExp st' with hG'
        have hf := fin G G' _ _ rfl (congrArg some hx) rfl (congrArg some hy) rfl rfl hl2 rfl
        refine ⟨hf.1, ?_, ?_, hf.2.1, hf.2.2.1, hf.2.2.2.1, hf.2.2.2.2, ?_, ?_⟩
        · rw [keepsD DAttr.x (fun _ => rfl) G, keepsD DAttr.x (fun _ => rfl) G']; exact congrArg some hx
        · rw [keepsD DAttr.y (fun _ => rfl) G, keepsD DAttr.y (fun _ => rfl) G']; exact congrArg some hy
        · rw [keepsD DAttr.trace (fun _ => rfl) G, keepsD DAttr.trace (fun _ => rfl) G', hG, hG']
          simp only [setSolvedDCM, h3]
        · unfold model_loglikelihood_directed
          rw [keepsD DAttr.step_fun (fun _ => rfl) G, keepsD DAttr.step_fun (fun _ => rfl) G', keepsD DAttr.args (fun _ => rfl) G, keepsD DAttr.args (fun _ => rfl) G',
            keepsD DAttr.solution_array (fun _ => rfl) G, keepsD DAttr.solution_array (fun _ => rfl) G', hG, hG']
          simp only [setSolvedDCM]
          cases isExp <;> subst hm <;> simp only [Bool.false_eq_true, if_false, if_true] <;> exact congrArg (fun t : ℝ => Except.ok (-t)) h5
    · have hme' : ∀ me : Method, method ≠ me.name := fun me h => hme ⟨me, h⟩
      rw [show R = _ from (hR.2 X hst).1 hme', show R' = _ from (hR'.2 X hst).1 hme']
      exact ⟨rfl, rfl, rfl, rfl, rfl, rfl, rfl, rfl, rfl⟩

/-- C56 (dcm, dcm_exp): renaming the nodes of a digraph renames the solution. -/
theorem C56_dcm_relabel (e : Env) {d d' : DData n} {σ : Equiv.Perm (Fin n)} (ho : ∀ i, d'.dseq_out i = d.dseq_out (σ i)) (hi : ∀ i, d'.dseq_in i = d.dseq_in (σ i))
    (mo : DModel) (hmo : mo = .dcm ∨ mo = .dcm_exp) (method s : String) (adj : AdjSpec n) (ma : String) (ga : DGuess n) (p : Params) :
    let R := solve_tool_directed e ({} : DAttr d) mo.name method (.name s) adj ma ga p
    let R' := solve_tool_directed e ({} : DAttr d') mo.name method (.name s) adj ma ga p
    R'.exc = R.exc ∧ R'.g.x = R.g.x.map (· ∘ σ) ∧ R'.g.y = R.g.y.map (· ∘ σ) ∧ R'.g.expected_dseq = R.g.expected_dseq.map (fun f v => f (v.1, σ v.2)) ∧
      R'.g.error_degree = R.g.error_degree ∧ R'.g.relative_error_degree = R.g.relative_error_degree ∧ R'.g.error = R.g.error ∧ R'.g.trace = R.g.trace ∧
      model_loglikelihood_directed R'.g = model_loglikelihood_directed R.g :=
  relabel_dcm e ho hi mo hmo method (.name s) (.name s) adj ma ga p (fun isExp => startD e d.n_edges isExp s) (fun isExp => guess_startD e d isExp s)
    (fun isExp => n_edges_permD ho ▸ guess_startD e d' isExp s)

/-- C56 (dcm, dcm_exp, an array as guess): the same when nodes of equal degrees are given equal values. -/
theorem C56_dcm_relabel_array (e : Env) {d d' : DData n} {σ : Equiv.Perm (Fin n)} (ho : ∀ i, d'.dseq_out i = d.dseq_out (σ i))
    (hi : ∀ i, d'.dseq_in i = d.dseq_in (σ i)) (mo : DModel) (hmo : mo = .dcm ∨ mo = .dcm_exp) (method : String) (v : Fin 2 × Fin n → ℝ)
    (hv : ∀ b i j, d.dseq_out i = d.dseq_out j → d.dseq_in i = d.dseq_in j → v (b, i) = v (b, j)) (adj : AdjSpec n) (ma : String) (ga : DGuess n) (p : Params) :
    let R := solve_tool_directed e ({} : DAttr d) mo.name method (.pairs v) adj ma ga p
    let R' := solve_tool_directed e ({} : DAttr d') mo.name method (.pairs fun w => v (w.1, σ w.2)) adj ma ga p
    R'.exc = R.exc ∧ R'.g.x = R.g.x.map (· ∘ σ) ∧ R'.g.y = R.g.y.map (· ∘ σ) ∧ R'.g.expected_dseq = R.g.expected_dseq.map (fun f v => f (v.1, σ v.2)) ∧
      R'.g.error_degree = R.g.error_degree ∧ R'.g.relative_error_degree = R.g.relative_error_degree ∧ R'.g.error = R.g.error ∧ R'.g.trace = R.g.trace ∧
      model_loglikelihood_directed R'.g = model_loglikelihood_directed R.g := by
  let f : Fin 2 → ℕ → ℝ → ℝ → ℝ := fun b _ k l => if h : ∃ i, d.degOut i = k ∧ d.degIn i = l then v (b, h.choose) else 0
  have hf : ∀ b q i, f b q (d.degOut i) (d.degIn i) = v (b, i) := by
    intro b q i
    have hex : ∃ j, d.degOut j = d.degOut i ∧ d.degIn j = d.degIn i := ⟨i, rfl, rfl⟩
    simp only [f, dif_pos hex]
    exact hv _ _ _ (Nat.cast_injective (R := ℝ) hex.choose_spec.1) (Nat.cast_injective (R := ℝ) hex.choose_spec.2)
  have hk : ∀ (d : DData n) q, d.ko q = d.degOut (d.index q) ∧ d.ki q = d.degIn (d.index q) := by
    intro d q
    have := Finset.min'_mem (univ.filter fun i => d.seq i = r_dseq d.seq q) (by
      obtain ⟨i, hi⟩ := d.exists_class q
      exact ⟨i, by simp [hi]⟩)
    rw [mem_filter] at this
    have h2 : r_dseq d.seq q = d.seq (d.index q) := this.2.symm
    constructor
    · show ((ofLex (r_dseq d.seq q)).1 : ℝ) = _
      rw [h2]; rfl
    · show ((ofLex (r_dseq d.seq q)).2 : ℝ) = _
      rw [h2]; rfl
  refine relabel_dcm e ho hi mo hmo method _ _ adj ma ga p (fun isExp => some (finD isExp f)) ?_ ?_
  · intro isExp
    refine congrArg Except.ok (finish_start d isExp (fun q => v (0, d.index q)) (fun q => v (1, d.index q)) f ?_ ?_) <;> intro q <;> rw [(hk d q).1, (hk d q).2, hf _ q]
  · intro isExp
    have h1 : ∀ i, d'.degOut i = d.degOut (σ i) := fun i => by simp [DData.degOut, ho]
    have h2 : ∀ i, d'.degIn i = d.degIn (σ i) := fun i => by simp [DData.degIn, hi]
    refine congrArg Except.ok (finish_start d' isExp (fun q => v (0, σ (d'.index q))) (fun q => v (1, σ (d'.index q))) f ?_ ?_) <;> intro q <;> rw [(hk d' q).1, (hk d' q).2, h1, h2, hf _ q]

/-- a renaming that moves degrees: the arcs 0 → 1 and 0 → 2 become 1 → 0 and 1 → 2 -/
example : let d : DData 3 := ⟨![2, 0, 0], ![0, 1, 1], fun _ => 0, fun _ => 0, true⟩
    let d' : DData 3 := ⟨![0, 2, 0], ![1, 0, 1], fun _ => 0, fun _ => 0, true⟩
    (∀ i, d'.dseq_out i = d.dseq_out (Equiv.swap 0 1 i)) ∧ ∀ i, d'.dseq_in i = d.dseq_in (Equiv.swap 0 1 i) := by decide

end directed

end

end Verif.Solve
