import Verif.Props.SampleAfterD
import Verif.Props.SamplerLaw2

/-! C80: the probability law of the files `ensemble_sampler` writes after `solve_tool` has returned. -/

namespace Verif.Sampler

open Verif Verif.Solve Verif.Spec MeasureTheory ProbabilityTheory

variable {Ω : Type*} [MeasurableSpace Ω] {P : Measure Ω} {R : Rng} {n : ℕ} {U : ℕ → Ω → I01} {G : ℕ → ℝ → Ω → ℕ} {hG : ∀ s q ω, 1 ≤ G s q ω}

theorem directory_exists {ε β : Type} (dir : String) (seeds : List ℕ) (single : ℕ → ℕ → Except ε (List β)) (txt : List β → String)
    (h : ∀ k s, ∃ es, single k s = .ok es) : ∃ fs, Directory fs dir seeds single txt := by
  choose es hes using h
  refine ⟨seeds.zipIdx.map fun p => (dir ++ (toString p.2 ++ ".txt"), txt (es p.2 p.1)), by simp, fun k s hk => ⟨es k s, hes k s, ?_⟩⟩
  rw [List.getElem?_map, List.getElem?_zipIdx, hk]
  simp

/-- what file `k` holds, as an event -/
theorem directory_event {ε β : Type} {single : Ω → ℕ → ℕ → Except ε (List β)} {seeds : List ℕ} {txt : List β → String} {rd : String → Option (List β)}
    {good : List β → Prop} (hrd : ∀ es, good es → rd (txt es) = some es) (htot : ∀ ω k s, ∃ es, single ω k s = .ok es ∧ good es) (dir : String) {k sk : ℕ}
    (hk : seeds[k]? = some sk) (Q : List β → Prop) :
    ∃ sample : Ω → List β, (∀ ω, single ω k sk = .ok (sample ω)) ∧
      {ω | ∃ fs text es, Directory fs dir seeds (single ω) txt ∧ fs[k]? = some (dir ++ (toString k ++ ".txt"), text) ∧ rd text = some es ∧ Q es} = {ω | Q (sample ω)} := by
  choose sample hs hg using fun ω => htot ω k sk
  refine ⟨sample, hs, Set.ext fun ω => ⟨?_, fun h => ?_⟩⟩
  · rintro ⟨fs, text, es, hd, hf, hr, hq⟩
    obtain ⟨es', h1, h2⟩ := hd.2 k sk hk
    rw [hf, Option.some.injEq, Prod.mk.injEq] at h2
    have : es' = sample ω := Except.ok.inj (h1.symm.trans (hs ω))
    subst this
    rw [h2.2, hrd _ (hg ω), Option.some.injEq] at hr
    show Q (sample ω)
    rw [hr]; exact hq
  · obtain ⟨fs, hd⟩ := directory_exists dir seeds (single ω) txt fun k s => (htot ω k s).imp fun _ h => h.1
    obtain ⟨es', h1, h2⟩ := hd.2 k sk hk
    have : es' = sample ω := Except.ok.inj (h1.symm.trans (hs ω))
    subst this
    exact ⟨fs, _, _, hd, h2, hrd _ (hg ω), h⟩

theorem read_nat (es : List (ℕ × ℕ × ℕ)) : parseW readNat (renderW toString es) = some es :=
  parseW_renderW _ _ _ fun e _ => by
    rw [toString_toList]; exact ⟨readNat_toDigits _, toDigits_ne _ _ rfl, toDigits_ne _ _ rfl⟩

variable [NeZero n]

/-- C80 (with C55): after `solve_tool` has returned for `cm` or `cm_exp`, parsing file `k` of `ensemble_sampler` gives the graph `A` with exactly the probability that
the configuration model at the fitnesses on the object gives to `A`. -/
theorem C80_cm_law [IsProbabilityMeasure P] (hU : UniformSource P U) (hind : iIndepFun U P) (e : Solve.Env) {d : UData n} (g : UAttr d) (model method : String)
    (hm : model = "cm" ∨ model = "cm_exp") (guess : Guess n) (adj : AdjSpec n) (ma : String) (ga : Guess n) (p : Params) :
    let S := solve_tool e g model method guess adj ma ga p
    S.exc = none → ∃ x, S.g.x = some x ∧ ((∀ i, 0 ≤ x i) →
      ∀ (N : ℕ) (dir : String) (seed : Option ℕ) (st : R.S × Option ℕ) (fmt : ℝ → String)
        (envs : ∀ ω, ℕ → Env (R.ideal (U · ω) (fun s q => G s q ω) (hG · · ω))), (∀ ω k T, (envs ω k T).Complete) → ∀ (states : ℕ → R.S × Option ℕ) (k sk : ℕ),
        (drawSeeds R N (reseed R seed st.1)).1[k]? = some sk → (drawSeeds R (pairsLt n).length (R.seed sk)).1.Nodup → ∀ A : Fin n → Fin n → Bool, IsGraph A →
        P {ω | ∃ fs text es, samplerU (R.ideal (U · ω) (fun s q => G s q ω) (hG · · ω)) S.g N dir seed st fmt (envs ω) states = .ok fs ∧
          fs[k]? = some (dir ++ (toString k ++ ".txt"), text) ∧ parse text = some es ∧ ListsLinks A es} = ENNReal.ofReal (probUBCM x A)) := by
  intro S h
  obtain ⟨x, hx, -⟩ := C80_cm (R := R) e g model method hm guess adj ma ga p h
  refine ⟨x, hx, fun h0 N dir seed st fmt envs henv states k sk hk hn A hA => ?_⟩
  obtain ⟨sample, hs, hE⟩ := directory_event (Ω := Ω) (single := fun ω k s => cm_edges (R.ideal (U · ω) (fun s q => G s q ω) (hG · · ω)) x (envs ω k) (some s) (states k))
    (seeds := (drawSeeds R N (reseed R seed st.1)).1) (txt := render) (rd := parse) (good := fun _ => True) (fun es _ => parse_render es)
    (fun ω k s => ⟨_, cm_edges_eq _ x (envs ω k) (henv ω k) (some s) (states k), trivial⟩) dir hk (ListsLinks A)
  have := C55_cm_network_probability hU hind h0 (R := R) (U := U) (G := G) (hG := hG) (seed := some sk) (g := states k) (sample := sample)
    (fun ω => ⟨envs ω k, henv ω k, hs ω⟩) hn A hA
  rw [← this, ← hE]
  congr 1
  ext ω
  obtain ⟨x', hx', -, hsam⟩ := C80_cm (R := R.ideal (U · ω) (fun s q => G s q ω) (hG · · ω)) e g model method hm guess adj ma ga p h
  obtain rfl : x' = x := Option.some.inj (hx'.symm.trans hx)
  have hD : ∀ fs, _ := fun fs => hsam N dir seed st fmt (envs ω) states fs
  rw [ideal_drawSeeds, ideal_reseed] at hD
  simp only [Set.mem_setOf_eq]
  exact exists_congr fun fs => exists_congr fun text => exists_congr fun es => and_congr_left fun _ => hD fs

/-- C80 (with C55), for `dcm` and `dcm_exp`. -/
theorem C80_dcm_law [IsProbabilityMeasure P] (hU : UniformSource P U) (hind : iIndepFun U P) (e : Solve.Env) {d : DData n} (g : DAttr d) (model method : String)
    (hm : model = "dcm" ∨ model = "dcm_exp") (guess : DGuess n) (adj : AdjSpec n) (ma : String) (ga : DGuess n) (p : Params) :
    let S := solve_tool_directed e g model method guess adj ma ga p
    S.exc = none → ∃ x y, S.g.x = some x ∧ S.g.y = some y ∧ ((∀ i, 0 ≤ x i) → (∀ i, 0 ≤ y i) →
      ∀ (N : ℕ) (dir : String) (seed : Option ℕ) (st : R.S × Option ℕ) (fmt : ℝ → String)
        (envs : ∀ ω, ℕ → Env (R.ideal (U · ω) (fun s q => G s q ω) (hG · · ω))), (∀ ω k T, (envs ω k T).Complete) → ∀ (states : ℕ → R.S × Option ℕ) (k sk : ℕ),
        (drawSeeds R N (reseed R seed st.1)).1[k]? = some sk → (drawSeeds R (pairsNe n).length (R.seed sk)).1.Nodup → ∀ A : Fin n → Fin n → Bool, IsDigraph A →
        P {ω | ∃ fs text es, samplerD (R.ideal (U · ω) (fun s q => G s q ω) (hG · · ω)) S.g N dir seed st fmt (envs ω) states = .ok fs ∧
          fs[k]? = some (dir ++ (toString k ++ ".txt"), text) ∧ parse text = some es ∧ ListsArcs A es} = ENNReal.ofReal (probDBCM x y A)) := by
  intro S h
  obtain ⟨x, y, hx, hy, -⟩ := C80_dcm (R := R) e g model method hm guess adj ma ga p h
  refine ⟨x, y, hx, hy, fun h0 h0' N dir seed st fmt envs henv states k sk hk hn A hA => ?_⟩
  obtain ⟨sample, hs, hE⟩ := directory_event (Ω := Ω) (single := fun ω k s => dcm_edges (R.ideal (U · ω) (fun s q => G s q ω) (hG · · ω)) x y (envs ω k) (some s) (states k))
    (seeds := (drawSeeds R N (reseed R seed st.1)).1) (txt := render) (rd := parse) (good := fun _ => True) (fun es _ => parse_render es)
    (fun ω k s => ⟨_, dcm_edges_eq _ x y (envs ω k) (henv ω k) (some s) (states k), trivial⟩) dir hk (ListsArcs A)
  have := C55_dcm_network_probability hU hind h0 h0' (R := R) (U := U) (G := G) (hG := hG) (seed := some sk) (g := states k) (sample := sample)
    (fun ω => ⟨envs ω k, henv ω k, hs ω⟩) hn A hA
  rw [← this, ← hE]
  congr 1
  ext ω
  obtain ⟨x', y', hx', hy', -, hsam⟩ := C80_dcm (R := R.ideal (U · ω) (fun s q => G s q ω) (hG · · ω)) e g model method hm guess adj ma ga p h
  obtain rfl : x' = x := Option.some.inj (hx'.symm.trans hx)
  obtain rfl : y' = y := Option.some.inj (hy'.symm.trans hy)
  have hD : ∀ fs, _ := fun fs => hsam N dir seed st fmt (envs ω) states fs
  rw [ideal_drawSeeds, ideal_reseed] at hD
  simp only [Set.mem_setOf_eq]
  exact exists_congr fun fs => exists_congr fun text => exists_congr fun es => and_congr_left fun _ => hD fs

/-- C80 (with C55), for `ecm` and `ecm_exp`. -/
theorem C80_ecm_law [IsProbabilityMeasure P] (hU : UniformSource P U) (hGs : GeometricSource P U G) (hind : IndependentSeeds P U G) (e : Solve.Env) {d : UData n}
    (g : UAttr d) (model method : String) (hm : model = "ecm" ∨ model = "ecm_exp") (guess : Guess n) (adj : AdjSpec n) (ma : String) (ga : Guess n) (p : Params) :
    let S := solve_tool e g model method guess adj ma ga p
    S.exc = none → ∃ x y, S.g.x = some x ∧ S.g.y = some y ∧ ((∀ i, 0 ≤ x i) → (∀ i j, i < j → 0 ≤ y i * y j ∧ y i * y j < 1) →
      ∀ (N : ℕ) (dir : String) (seed : Option ℕ) (st : R.S × Option ℕ) (fmt : ℝ → String)
        (envs : ∀ ω, ℕ → Env (R.ideal (U · ω) (fun s q => G s q ω) (hG · · ω))), (∀ ω k T, (envs ω k T).Complete) → ∀ (states : ℕ → R.S × Option ℕ) (k sk : ℕ),
        (drawSeeds R N (reseed R seed st.1)).1[k]? = some sk → (drawSeeds R (pairsLt n).length (R.seed sk)).1.Nodup → ∀ W : Fin n → Fin n → ℕ, IsGraph W →
        P {ω | ∃ fs text es, samplerU (R.ideal (U · ω) (fun s q => G s q ω) (hG · · ω)) S.g N dir seed st fmt (envs ω) states = .ok fs ∧
          fs[k]? = some (dir ++ (toString k ++ ".txt"), text) ∧ parseW readNat text = some es ∧ ListsWeightedLinks W es} = ENNReal.ofReal (probUECM x y W)) := by
  intro S h
  obtain ⟨x, y, hx, hy, -⟩ := C80_ecm (R := R) e g model method hm guess adj ma ga p h
  refine ⟨x, y, hx, hy, fun h0 h0' N dir seed st fmt envs henv states k sk hk hn A hA => ?_⟩
  obtain ⟨sample, hs, hE⟩ := directory_event (Ω := Ω) (single := fun ω k s => ecm_edges (R.ideal (U · ω) (fun s q => G s q ω) (hG · · ω)) x y (envs ω k) (some s) (states k))
    (seeds := (drawSeeds R N (reseed R seed st.1)).1) (txt := renderW toString) (rd := parseW readNat) (good := fun _ => True) (fun es _ => read_nat es)
    (fun ω k s => (C21_ecm _ x y h0' (envs ω k) (henv ω k) (some s) (states k)).imp fun _ h => ⟨h.1, trivial⟩) dir hk (ListsWeightedLinks A)
  have := C55_ecm_network_probability hU hGs hind h0 h0' (R := R) (hG := hG) (seed := some sk) (g := states k) (sample := sample)
    (fun ω => ⟨envs ω k, henv ω k, hs ω⟩) hn A hA
  rw [← this, ← hE]
  congr 1
  ext ω
  obtain ⟨x', y', hx', hy', -, hsam⟩ := C80_ecm (R := R.ideal (U · ω) (fun s q => G s q ω) (hG · · ω)) e g model method hm guess adj ma ga p h
  obtain rfl : x' = x := Option.some.inj (hx'.symm.trans hx)
  obtain rfl : y' = y := Option.some.inj (hy'.symm.trans hy)
  have hD : ∀ fs, _ := fun fs => hsam N dir seed st fmt (envs ω) states fs
  rw [ideal_drawSeeds, ideal_reseed] at hD
  simp only [Set.mem_setOf_eq]
  exact exists_congr fun fs => exists_congr fun text => exists_congr fun es => and_congr_left fun _ => hD fs

/-- C80 (with C55), for `decm` and `decm_exp`. -/
theorem C80_decm_law [IsProbabilityMeasure P] (hU : UniformSource P U) (hGs : GeometricSource P U G) (hind : IndependentSeeds P U G) (e : Solve.Env) {d : DData n}
    (g : DAttr d) (model method : String) (hm : model = "decm" ∨ model = "decm_exp") (guess : DGuess n) (adj : AdjSpec n) (ma : String) (ga : DGuess n) (p : Params) :
    let S := solve_tool_directed e g model method guess adj ma ga p
    S.exc = none → ∃ x y bo bi, S.g.x = some x ∧ S.g.y = some y ∧ S.g.b_out = some bo ∧ S.g.b_in = some bi ∧ ((∀ i, 0 ≤ x i) → (∀ i, 0 ≤ y i) →
      (∀ i j, i ≠ j → 0 ≤ bo i * bi j ∧ bo i * bi j < 1) →
      ∀ (N : ℕ) (dir : String) (seed : Option ℕ) (st : R.S × Option ℕ) (fmt : ℝ → String)
        (envs : ∀ ω, ℕ → Env (R.ideal (U · ω) (fun s q => G s q ω) (hG · · ω))), (∀ ω k T, (envs ω k T).Complete) → ∀ (states : ℕ → R.S × Option ℕ) (k sk : ℕ),
        (drawSeeds R N (reseed R seed st.1)).1[k]? = some sk → (drawSeeds R (pairsNe n).length (R.seed sk)).1.Nodup → ∀ W : Fin n → Fin n → ℕ, IsDigraph W →
        P {ω | ∃ fs text es, samplerD (R.ideal (U · ω) (fun s q => G s q ω) (hG · · ω)) S.g N dir seed st fmt (envs ω) states = .ok fs ∧
          fs[k]? = some (dir ++ (toString k ++ ".txt"), text) ∧ parseW readNat text = some es ∧ ListsWeightedArcs W es} = ENNReal.ofReal (probDECM x y bo bi W)) := by
  intro S h
  obtain ⟨x, y, bo, bi, hx, hy, ho, hi, -⟩ := C80_decm (R := R) e g model method hm guess adj ma ga p h
  refine ⟨x, y, bo, bi, hx, hy, ho, hi, fun h0 h0' h1 N dir seed st fmt envs henv states k sk hk hn A hA => ?_⟩
  obtain ⟨sample, hs, hE⟩ := directory_event (Ω := Ω) (single := fun ω k s => decm_edges (R.ideal (U · ω) (fun s q => G s q ω) (hG · · ω)) x y bo bi (envs ω k) (some s) (states k))
    (seeds := (drawSeeds R N (reseed R seed st.1)).1) (txt := renderW toString) (rd := parseW readNat) (good := fun _ => True) (fun es _ => read_nat es)
    (fun ω k s => (C21_decm _ x y bo bi h1 (envs ω k) (henv ω k) (some s) (states k)).imp fun _ h => ⟨h.1, trivial⟩) dir hk (ListsWeightedArcs A)
  have := C55_decm_network_probability hU hGs hind h0 h0' h1 (R := R) (hG := hG) (seed := some sk) (g := states k) (sample := sample)
    (fun ω => ⟨envs ω k, henv ω k, hs ω⟩) hn A hA
  rw [← this, ← hE]
  congr 1
  ext ω
  obtain ⟨x', y', bo', bi', hx', hy', ho', hi', -, hsam⟩ := C80_decm (R := R.ideal (U · ω) (fun s q => G s q ω) (hG · · ω)) e g model method hm guess adj ma ga p h
  obtain rfl : x' = x := Option.some.inj (hx'.symm.trans hx)
  obtain rfl : y' = y := Option.some.inj (hy'.symm.trans hy)
  obtain rfl : bo' = bo := Option.some.inj (ho'.symm.trans ho)
  obtain rfl : bi' = bi := Option.some.inj (hi'.symm.trans hi)
  have hD : ∀ fs, _ := fun fs => hsam N dir seed st fmt (envs ω) states fs
  rw [ideal_drawSeeds, ideal_reseed] at hD
  simp only [Set.mem_setOf_eq]
  exact exists_congr fun fs => exists_congr fun text => exists_congr fun es => and_congr_left fun _ => hD fs

end Verif.Sampler
