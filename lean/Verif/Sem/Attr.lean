import Mathlib.Tactic.Attr.Register

/-- simp lemmas that translate model operations over `R S` into operations on `ℝ` and `ℂ` -/
register_simp_attr rsem
