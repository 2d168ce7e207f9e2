import Verif.Model.Gvas
/-
How large a document is.
-/

namespace Pal
namespace Spec

mutual
/-- The number of values in a document: every number, text, id, list and dict in it, at any depth. -/
def values : Val → Nat
  | .list l => 1 + valuesL l
  | .tuple l => 1 + valuesL l
  | .dict d => 1 + valuesD d
  | _ => 1
def valuesL : List Val → Nat
  | [] => 0
  | v :: t => values v + valuesL t
def valuesD : List (PyStr × Val) → Nat
  | [] => 0
  | (_, v) :: t => values v + valuesD t
end

end Spec
end Pal
