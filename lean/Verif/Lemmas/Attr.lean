import Mathlib.Tactic.Attr.Register

/-- Unfolding lemmas of the vector and matrix model. -/
register_simp_attr geo
