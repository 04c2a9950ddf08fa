import Verif.Model.Verbose

/-! What can be read off the lines a verbose call prints (C74). -/

namespace Verif.Verbose

variable {ι : Type*}

/-- the residual norms, in the order printed -/
def norms (l : List (Line ι)) : List ℝ := l.filterMap fun | .normX0 v => some v | .norm v => some v | _ => none
/-- the step sizes `diff` -/
def diffs (l : List (Line ι)) : List ℝ := l.filterMap fun | .diff v => some v | _ => none
/-- the step lengths `alpha` -/
def alphas (l : List (Line ι)) : List ℝ := l.filterMap fun | .alpha v => some v | _ => none
/-- the step numbers -/
def stepNumbers (l : List (Line ι)) : List ℕ := l.filterMap fun | .step k => some k | _ => none
/-- the values of the objective -/
def objectives (l : List (Line ι)) : List (Option ℝ) := l.filterMap fun | .objective v => some v | _ => none
/-- the final counts -/
def counts (l : List (Line ι)) : List ℕ := l.filterMap fun | .steps k => some k | _ => none
/-- the smallest eigenvalues of the matrices actually used -/
def newMinEigs (l : List (Line ι)) : List ℝ := l.filterMap fun | .newMinEig v => some v | _ => none

/-- the "min eig", "max eig", "new max eig", "condition number" and "new condition number" lines of a log -/
def minEigs : List (Line ι) → List ℝ := List.filterMap fun | .minEig v => some v | _ => none
def maxEigs : List (Line ι) → List ℝ := List.filterMap fun | .maxEig v => some v | _ => none
def newMaxEigs : List (Line ι) → List ℝ := List.filterMap fun | .newMaxEig v => some v | _ => none
def conds : List (Line ι) → List (Option ℝ) := List.filterMap fun | .cond v => some v | _ => none
def newConds : List (Line ι) → List (Option ℝ) := List.filterMap fun | .newCond v => some v | _ => none

/-- the quotient of two numpy floats, where it is a number -/
noncomputable def quotient (a b : ℝ) : Option ℝ := if b = 0 then none else some (a / b)

/-- what a log says about the eigenvalues is the truth: `k` steps, one line of each kind for each of them; the values are the smallest and the largest eigenvalue of the matrix and
of the regularised matrix at one point, and the condition number is the quotient of the two -/
def EigenLog (eigvals : Matrix ι ι ℝ → ι → ℝ) (jac reg : (ι → ℝ) → Matrix ι ι ℝ) (l : List (Line ι)) (k : ℕ) : Prop :=
  ∃ v : List (ℝ × ℝ × ℝ × ℝ), v.length = k ∧
    (∀ q ∈ v, ∃ x, IsLeast (Set.range (eigvals (jac x))) q.1 ∧ IsGreatest (Set.range (eigvals (jac x))) q.2.1 ∧
      IsLeast (Set.range (eigvals (reg x))) q.2.2.1 ∧ IsGreatest (Set.range (eigvals (reg x))) q.2.2.2) ∧
    minEigs l = v.map (fun q => q.1) ∧ maxEigs l = v.map (fun q => q.2.1) ∧ conds l = v.map (fun q => quotient q.2.1 q.1) ∧
    newMinEigs l = v.map (fun q => q.2.2.1) ∧ newMaxEigs l = v.map (fun q => q.2.2.2) ∧ newConds l = v.map (fun q => quotient q.2.2.2 q.2.2.1)

end Verif.Verbose
