import Verif.Spec.JsonText
import Verif.Spec.Uuid
import Verif.Spec.Shown
import Verif.Spec.Base64
/-
What a Python value is in JSON: the value that a JSON text of it denotes.  Independent of the model's
`json.dump` and `json.load`.
-/

namespace Pal.Spec
open Pal

/-- The same text, with surrogate pairs joined. -/
def SameText (s s' : PyStr) : Prop := Normal s' ∧ units s' = units s

mutual
/-- UUIDs are in JSON as their text, tuples as arrays; there is one NaN; without `an` there are no NaN and
no infinities. -/
inductive Jsonized (an : Bool) : Val → Val → Prop
  | none : Jsonized an .none .none
  | bool (b) : Jsonized an (.bool b) (.bool b)
  | int (i) : Jsonized an (.int i) (.int i)
  | finite {b} : ¬ NaN64 b → ¬ Inf64 b → Jsonized an (.float b) (.float b)
  | infinity {b} : an = true → Inf64 b → Jsonized an (.float b) (.float b)
  | nan {b} : an = true → NaN64 b → Jsonized an (.float b) (.float qnan64)
  | str {s s'} : SameText s s' → Jsonized an (.str s) (.str s')
  | uuid {raw} : raw.length = 16 → Jsonized an (.uuid raw) (.str (uuidText raw))
  | list {l l'} : JsonizedL an l l' → Jsonized an (.list l) (.list l')
  | tuple {l l'} : JsonizedL an l l' → Jsonized an (.tuple l) (.list l')
  | dict {d l} : JsonizedD an d l → Jsonized an (.dict d) (.dict (dictOf l))
inductive JsonizedL (an : Bool) : List Val → List Val → Prop
  | nil : JsonizedL an [] []
  | cons {v v' t t'} : Jsonized an v v' → JsonizedL an t t' → JsonizedL an (v :: t) (v' :: t')
inductive JsonizedD (an : Bool) : List (PyStr × Val) → List (PyStr × Val) → Prop
  | nil : JsonizedD an [] []
  | cons {k k' v v' t t'} : SameText k k' → Jsonized an v v' → JsonizedD an t t' → JsonizedD an ((k, v) :: t) ((k', v') :: t')
end

/-- The document of a file. -/
def documentOf (header : Val) (l : List (PyStr × Val)) (trailer : Bytes) : Val :=
  vDict [("header", header), ("properties", .dict (dictOf l)), ("trailer", .str (B64.text trailer))]

end Pal.Spec
