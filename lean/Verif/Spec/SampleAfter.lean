import Mathlib.Data.List.Basic

/-! Independent specification: what a directory of sampled networks looks like. -/

namespace Verif.Spec

/-- `fs` consists of the files `dir ++ "0.txt"`, `dir ++ "1.txt"`, …, one per seed in `seeds`; file `k` is the text of the network that the one-network sampler
`single` returns when it is called for the `k`-th time, with the `k`-th seed -/
def Directory {ε β : Type} (fs : List (String × String)) (dir : String) (seeds : List ℕ) (single : ℕ → ℕ → Except ε (List β)) (txt : List β → String) : Prop :=
  fs.length = seeds.length ∧ ∀ k s, seeds[k]? = some s → ∃ es, single k s = .ok es ∧ fs[k]? = some (dir ++ (toString k ++ ".txt"), txt es)

end Verif.Spec
