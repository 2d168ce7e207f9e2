import Verif.Spec.Argv
/-
What a run of the converter has to do, from the items of its command line (C69).
-/

namespace Pal.Spec

/-- The file is to be converted to JSON: the line says so, or the name does. -/
def WantsJson (items : List Item) (x : PyStr) : Prop := .toJson ∈ items ∨ P ".sav" <:+ x

/-- The file is to be converted from JSON: the line says so, or the name does. -/
def WantsSav (items : List Item) (x : PyStr) : Prop := .fromJson ∈ items ∨ P ".json" <:+ x

/-- The file to be written: the last one given with `--output`, if its name is not empty, or else the usual one. -/
def Target (items : List Item) (usual out : PyStr) : Prop :=
  (∃ o, (outputs items).getLast? = some o ∧ o ≠ [] ∧ out = o) ∨
  (((outputs items).getLast? = none ∨ (outputs items).getLast? = some []) ∧ out = usual)

/-- The names of the custom properties to be read: those of the last list, or without one all that the tool knows. -/
def Selected (items : List Item) (keys : List PyStr) : Prop :=
  (∀ t, (keyTexts items).getLast? = some t → KeyList t keys) ∧ (keyTexts items = [] → keys = palCustoms.map fun kv => P kv.1)

/-- `y` is `x` with every ".json" taken out. -/
inductive WithoutJson : PyStr → PyStr → Prop
  | none {x : PyStr} : ¬ P ".json" <:+: x → WithoutJson x x
  | one {p t u : PyStr} : ¬ P ".json" <:+: p → WithoutJson t u → WithoutJson (p ++ P ".json" ++ t) (p ++ u)

end Pal.Spec
