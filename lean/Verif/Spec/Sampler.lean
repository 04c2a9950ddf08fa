import Mathlib.Data.Real.Basic
import Mathlib.Data.List.Basic
import Mathlib.Data.List.Nodup

/-! Independent specification of sampled edge lists and of the text files they are written to. -/

namespace Verif.Spec

/-- lexicographic order of pairs -/
def LexLt (a b : ℕ × ℕ) : Prop := a.1 < b.1 ∨ (a.1 = b.1 ∧ a.2 < b.2)

/-- `es` lists the edges of a simple undirected graph on `{0, …, n-1}`, each once, as `(i, j)` with `i < j`, in lexicographic order -/
structure SimpleEdges (n : ℕ) (es : List (ℕ × ℕ)) : Prop where
  range : ∀ e ∈ es, e.1 < e.2 ∧ e.2 < n
  sorted : es.Pairwise LexLt
  nodup : es.Nodup

/-- `es` lists the arcs of a loop-free digraph on `{0, …, n-1}`, each once, in lexicographic order -/
structure SimpleArcs (n : ℕ) (es : List (ℕ × ℕ)) : Prop where
  range : ∀ e ∈ es, e.1 < n ∧ e.2 < n ∧ e.1 ≠ e.2
  sorted : es.Pairwise LexLt
  nodup : es.Nodup

/-- the number denoted by a non-empty sequence of decimal digits -/
def readNat (l : List Char) : Option ℕ := if l ≠ [] ∧ l.all Char.isDigit = true then some (Nat.ofDigitChars 10 l 0) else none

/-- the lines of a text in which every line ends with a newline character -/
def lines (text : String) : List (List Char) := (text.toList.splitOn '\n').dropLast

/-- read a line `i j` -/
def readPair (line : List Char) : Option (ℕ × ℕ) := match line.splitOn ' ' with
  | [a, b] => do return (← readNat a, ← readNat b)
  | _ => none

/-- read a line `i j w`, the weight with the reader `rd` -/
def readTriple {β : Type} (rd : List Char → Option β) (line : List Char) : Option (ℕ × ℕ × β) := match line.splitOn ' ' with
  | [a, b, c] => do return (← readNat a, ← readNat b, ← rd c)
  | _ => none

/-- read a file of lines `i j` -/
def parse (text : String) : Option (List (ℕ × ℕ)) := (lines text).mapM readPair

/-- read a file of lines `i j w` -/
def parseW {β : Type} (rd : List Char → Option β) (text : String) : Option (List (ℕ × ℕ × β)) := (lines text).mapM (readTriple rd)

end Verif.Spec
