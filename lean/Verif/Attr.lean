import Mathlib.Tactic.Attr.Register

/-- simp set turning transcribed loops into sums -/
register_simp_attr loop_simp
