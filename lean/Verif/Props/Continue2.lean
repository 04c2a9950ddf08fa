import Verif.Props.Continue

/-!
C83 cannot be had for the fixed-point method with the line search: the search compares a step with the one before it, and the second call does not know the last
step of the first.  The case is crema on one link, with the strengths 1 and 2.
-/

namespace Verif.Solve

open Verif Finset Solver Spec

open Classical in
attribute [local instance 0] propDecidable

noncomputable section

/-- two nodes with the strengths 1 and 2 -/
def edgeU : UData 2 := ⟨fun _ => 1, ![1, 2]⟩

/-- one link -/
def edgeM : Fin 2 → Fin 2 → ℝ := fun i j => if i = j then 0 else 1

theorem edge_list : triuEdges edgeM = [(0, 1, 1)] := by
  have h : pairs 2 = [(0, 0), (0, 1), (1, 0), (1, 1)] := by decide
  simp [triuEdges, h, edgeM]

/-- the map of the fixed-point method on this network -/
theorem edge_map (e : Env) (u v : ℝ) (hu : 0 < u) (hv : 0 < v) :
    (cbCrema e edgeU (triuEdges edgeM) .fixed_point).fn ![u, v] = ![u / (u + v), v / (u + v) / 2] := by
  have h1 : u + v ≠ 0 := by positivity
  rw [edge_list]
  funext i
  fin_cases i <;> simp [cbCrema, CReMa.iter_eq, edgeU] <;> field_simp <;> ring

/-- one pass of the loop of the fixed-point method with the line search -/
theorem fixed_step {ι : Type} [Fintype ι] [DecidableEq ι] [Nonempty ι] (C : Callbacks ι) (p : Params) (hp : p.linsearch = true) (k : ℕ) (s : State ι) {a : ℝ}
    (ha : C.linsearchFixed s.x (s.f - s.x) s.dx_old 1 0.5 s.n_steps = some a) (hn : p.tol < s.norm) (hd : p.eps < s.diff) :
    loop C (p.opts "fixed-point") (k + 1) s = loop C (p.opts "fixed-point") k
      { x := s.x + a • (s.f - s.x), f := C.fn (s.x + a • (s.f - s.x)), norm := norm2 (C.fn (s.x + a • (s.f - s.x))), diff := norm2 (s.x + a • (s.f - s.x) - s.x),
        dx_old := a • (s.f - s.x), n_steps := s.n_steps + 1, norm_seq := s.norm_seq ++ [norm2 (C.fn (s.x + a • (s.f - s.x)))],
        diff_seq := s.diff_seq ++ [norm2 (s.x + a • (s.f - s.x) - s.x)], alfa_seq := s.alfa_seq ++ [a] } := by
  rw [loop, if_pos ⟨hn, hd⟩]
  have h1 : direction C (p.opts "fixed-point") s.x s.f = .ok (s.f - s.x) := by simp [direction, Params.opts]
  have h2 : stepLength C (p.opts "fixed-point") s (s.f - s.x) = .ok a := by simp [stepLength, Params.opts, hp, ha]
  have h3 : (p.opts "fixed-point").linsearch = true := hp
  unfold step
  rw [h1]
  dsimp only
  rw [h2]
  simp only [h3, if_true]

theorem norm2_pair (u v : ℝ) : norm2 ![u, v] = Real.sqrt (u ^ 2 + v ^ 2) := by simp [norm2]

theorem norm2_big {u v t : ℝ} (ht : 0 ≤ t) (h : t < |u|) : t < norm2 ![u, v] := h.trans_le (abs_le_norm2 ![u, v] 0)

/-- the default parameters with `full_return=True` -/
def pk (k : ℕ) : Params := { max_steps := k, full_return := true }

/-- a run of one step from a point: the whole step is made -/
theorem edge_one (e : Env) (u v u' v' : ℝ) (hu : 0 < u) (hv : 0 < v) (h1 : u' = u / (u + v)) (h2 : v' = v / (u + v) / 2) (hb : 1e-8 < u') (k : ℕ) :
    ∃ s, s.x = ![u', v'] ∧ s.f = (cbCrema e edgeU (triuEdges edgeM) .fixed_point).fn ![u', v'] ∧
      s.norm = norm2 ((cbCrema e edgeU (triuEdges edgeM) .fixed_point).fn ![u', v']) ∧ s.diff = norm2 ![u' - u, v' - v] ∧ s.dx_old = ![u' - u, v' - v] ∧ s.n_steps = 1 ∧
      s.diff_seq = [1, norm2 ![u' - u, v' - v]] ∧
      loop (cbCrema e edgeU (triuEdges edgeM) .fixed_point) ((pk 1).opts "fixed-point") (k + 1) (initState (cbCrema e edgeU (triuEdges edgeM) .fixed_point) ![u, v]) =
        loop (cbCrema e edgeU (triuEdges edgeM) .fixed_point) ((pk 1).opts "fixed-point") k s := by
  have hf := edge_map e u v hu hv
  rw [← h1, ← h2] at hf
  have hs := fixed_step (cbCrema e edgeU (triuEdges edgeM) .fixed_point) (pk 1) rfl k (initState (cbCrema e edgeU (triuEdges edgeM) .fixed_point) ![u, v]) (a := 1)
    (by simp [cbCrema, linsearch_fun_crema_undirected_fixed, normStage, initState])
    (by
      simp only [initState, hf, pk]
      exact norm2_big (by norm_num) (hb.trans_le (le_abs_self _)))
    (by norm_num [initState, pk])
  have hdx : ![u', v'] - ![u, v] = ![u' - u, v' - v] := by funext i; fin_cases i <;> rfl
  have hadd : ![u, v] + ![u' - u, v' - v] = ![u', v'] := by funext i; fin_cases i <;> simp
  simp only [initState, hf, one_smul, hdx, hadd] at hs
  simp only [initState, hf]
  exact ⟨_, rfl, rfl, rfl, rfl, rfl, rfl, rfl, hs⟩

/-- C83 fails for the fixed-point method with the line search: one step and then one more end at (1/5, 2/5), two steps at once at (7/45, 19/45).  All numbers are those of the default
parameters; the first call returns and was not ended by `eps`. -/
theorem C83_fixed_point_search (e : Env) :
    let R := solve_tool e ({} : UAttr edgeU) "crema" "fixed-point" (.nodes ![1 / 17, 8 / 17]) (.matrix edgeM) "" .other (pk 1)
    let L := solve_tool e ({} : UAttr edgeU) "crema" "fixed-point" (.nodes ![1 / 17, 8 / 17]) (.matrix edgeM) "" .other (pk 2)
    R.exc = none ∧ (∃ t, R.g.trace_crema = some t ∧ t.NotStuck (pk 1)) ∧ ∃ b, R.g.beta = some b ∧
      (let R' := solve_tool e R.g "crema" "fixed-point" (.nodes b) (.matrix edgeM) "" .other (pk 1)
       R'.exc = none ∧ R'.g.beta = some ![1 / 5, 2 / 5]) ∧ L.exc = none ∧ L.g.beta = some ![7 / 45, 19 / 45] := by
  have hg : ∀ u v : ℝ, guessCrema e edgeU (.nodes ![u, v]) = (.ok ![u, v], .nodes ![u, v]) := by
    intro u v
    have : maskSet ![u, v] (fun i => edgeU.strength_sequence i = 0) 0 = ![u, v] := by funext i; fin_cases i <;> simp [maskSet, edgeU]
    simp only [guessCrema, this]
  obtain ⟨s, x1, x2, x3, x4, x5, x6, x7, h1⟩ := edge_one e (1 / 17) (8 / 17) (1 / 9) (4 / 9) (by norm_num) (by norm_num) (by norm_num) (by norm_num) (by norm_num) 0
  obtain ⟨s₁, y1, y2, y3, y4, y5, y6, y7, h2⟩ := edge_one e (1 / 17) (8 / 17) (1 / 9) (4 / 9) (by norm_num) (by norm_num) (by norm_num) (by norm_num) (by norm_num) 1
  obtain ⟨s', z1, z2, z3, z4, z5, z6, z7, h3⟩ := edge_one e (1 / 9) (4 / 9) (1 / 5) (2 / 5) (by norm_num) (by norm_num) (by norm_num) (by norm_num) (by norm_num) 0
  have hm := edge_map e (1 / 9) (4 / 9) (by norm_num) (by norm_num)
  have hm' : (cbCrema e edgeU (triuEdges edgeM) .fixed_point).fn ![1 / 9, 4 / 9] = ![1 / 5, 2 / 5] := by
    rw [hm]; norm_num
  have hdx : s₁.f - s₁.x = ![4 / 45, -2 / 45] := by
    rw [y2, y1, hm']; funext i; fin_cases i <;> norm_num
  have ha : (cbCrema e edgeU (triuEdges edgeM) .fixed_point).linsearchFixed s₁.x (s₁.f - s₁.x) s₁.dx_old 1 0.5 s₁.n_steps = some (1 / 2) := by
    rw [hdx, y5, y6]
    simp only [cbCrema, linsearch_fun_crema_undirected_fixed, normStage]
    rw [if_pos (by norm_num), backtrack, if_neg, backtrack, if_pos]
    · norm_num
    · rw [show ((1 : ℝ) * 0.5) • ![(4 : ℝ) / 45, -2 / 45] = ![2 / 45, -1 / 45] by funext i; fin_cases i <;> norm_num, norm2_pair, norm2_pair]
      exact Real.sqrt_lt_sqrt (by norm_num) (by norm_num)
    · rw [one_smul, norm2_pair, norm2_pair, not_lt]
      exact Real.sqrt_le_sqrt (by norm_num)
  have h4 := fixed_step (cbCrema e edgeU (triuEdges edgeM) .fixed_point) (pk 1) rfl 0 s₁ ha
    (by rw [y3, hm']; exact norm2_big (by norm_num [pk]) (by norm_num [pk]))
    (by rw [y4]; exact norm2_big (by norm_num [pk]) (by norm_num [pk]))
  have r1 : solver (cbCrema e edgeU (triuEdges edgeM) .fixed_point) ((pk 1).opts "fixed-point") ![1 / 17, 8 / 17] = .ok s := h1
  have r3 : solver (cbCrema e edgeU (triuEdges edgeM) .fixed_point) ((pk 1).opts "fixed-point") ![1 / 9, 4 / 9] = .ok s' := h3
  have r2 := (loop_opts (cbCrema e edgeU (triuEdges edgeM) .fixed_point) ((pk 1).opts "fixed-point") 2 2
    (initState (cbCrema e edgeU (triuEdges edgeM) .fixed_point) ![1 / 17, 8 / 17])).trans (h2.trans h4)
  have noexc : ∀ (G : UAttr edgeU) (s : State (Fin 2)), G.last_model = some "crema" → G.is_sparse = false → G.adjacency_crema = some (.edges (triuEdges edgeM)) →
      G.adjacency_given = some true → (solutionError e (setSolvedCrema G s)).2 = none := by
    intro G s q1 q2 q3 q4
    cases hx : G.x <;> simp [solutionError, setSolvedCrema, strengthError, degreeError, q1, q2, q3, q4, hx]
  have hR := solve_tool_crema_matrix e ({} : UAttr edgeU) .fixed_point (.nodes ![1 / 17, 8 / 17]) edgeM "" .other (pk 1) (hg _ _)
  have hL := solve_tool_crema_matrix e ({} : UAttr edgeU) .fixed_point (.nodes ![1 / 17, 8 / 17]) edgeM "" .other (pk 2) (hg _ _)
  rw [show (Method.fixed_point).name = "fixed-point" from rfl] at hR hL
  rw [r1] at hR
  rw [show solver (cbCrema e edgeU (triuEdges edgeM) .fixed_point) ((pk 2).opts "fixed-point") ![1 / 17, 8 / 17] = _ from r2] at hL
  intro R L
  have hR' := solve_tool_crema_matrix e R.g .fixed_point (.nodes ![1 / 9, 4 / 9]) edgeM "" .other (pk 1) (hg _ _)
  rw [show (Method.fixed_point).name = "fixed-point" from rfl, r3] at hR'
  have kR : R.exc = none ∧ R.g.trace_crema = some (.of s) ∧ R.g.beta = some s.x := by
    rw [show R = _ from hR]
    exact ⟨noexc _ _ rfl rfl rfl rfl, (solutionError_keeps e _).2.2.2.2.2.1.trans (by simp [setSolvedCrema, pk]), (solutionError_keeps e _).2.2.1⟩
  refine ⟨kR.1, ⟨_, kR.2.1, ?_⟩, _, kR.2.2, ?_, ?_, ?_⟩
  · intro δ hδ
    simp only [Trace.of, x7, List.getLast?_cons_cons, List.getLast?_singleton, Option.some.injEq] at hδ
    rw [← hδ]
    exact norm2_big (by norm_num [pk]) (by norm_num [pk])
  · rw [x1]
    intro R'
    rw [show R' = _ from hR']
    exact ⟨noexc _ _ rfl rfl rfl rfl, (solutionError_keeps e _).2.2.1.trans (by simp [setSolvedCrema, z1])⟩
  · rw [show L = _ from hL]
    exact noexc _ _ rfl rfl rfl rfl
  · rw [show L = _ from hL]
    refine (solutionError_keeps e _).2.2.1.trans ?_
    simp only [setSolvedCrema]
    rw [hdx, y1]
    congr 1
    have hh : ![(1 : ℝ) / 9, 4 / 9] + (1 / 2 : ℝ) • ![4 / 45, -2 / 45] = ![7 / 45, 19 / 45] := by
      funext i
      fin_cases i
      · show (1 : ℝ) / 9 + 1 / 2 * (4 / 45) = 7 / 45
        norm_num
      · show (4 : ℝ) / 9 + 1 / 2 * (-2 / 45) = 19 / 45
        norm_num
    exact hh

end

end Verif.Solve
