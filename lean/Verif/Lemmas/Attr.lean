import Lean.Meta.Tactic.Simp.RegisterCommand
/-- Reading back an encoded field. -/
register_simp_attr rd
/-- Writing the value of a field. -/
register_simp_attr wr
