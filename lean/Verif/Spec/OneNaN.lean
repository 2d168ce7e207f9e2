import Verif.Spec.Types
/-
Values that JSON transports.
-/

namespace Pal.Spec
open Pal

mutual
/-- Every NaN in the value is the standard one (the only NaN that the text `NaN` of a JSON
file is read as). -/
def OneNaN : Val → Prop
  | .float b => NaN64 b → b = qnan64
  | .list l => OneNaNL l
  | .tuple l => OneNaNL l
  | .dict d => OneNaND d
  | _ => True
def OneNaNL : List Val → Prop
  | [] => True
  | v :: t => OneNaN v ∧ OneNaNL t
def OneNaND : List (PyStr × Val) → Prop
  | [] => True
  | (_, v) :: t => OneNaN v ∧ OneNaND t
end

mutual
/-- Every GUID in the value has all its sixteen bytes.  (A GUID read at the end of a blob that
is too short has fewer.) -/
def FullGuids : Val → Prop
  | .uuid raw => raw.length = 16
  | .list l => FullGuidsL l
  | .tuple l => FullGuidsL l
  | .dict d => FullGuidsD d
  | _ => True
def FullGuidsL : List Val → Prop
  | [] => True
  | v :: t => FullGuids v ∧ FullGuidsL t
def FullGuidsD : List (PyStr × Val) → Prop
  | [] => True
  | (_, v) :: t => FullGuids v ∧ FullGuidsD t
end

end Pal.Spec
