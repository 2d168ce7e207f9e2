import Verif.Model.Gvas
/-
`json.dump(v, f, cls=CustomEncoder, allow_nan=an)` followed by `json.load(f)`
(json_tools.py:7-13, convert.py:118-122, 133-134), as a function on values.

* UUID objects become their string (`CustomEncoder.default`), tuples become lists, bytes
  are not serialisable (TypeError).
* Strings are written in ASCII with `\uXXXX` escapes, surrogate pairs for astral
  characters; reading joins adjacent surrogate pairs.
* Finite floats are written with `repr` and read back exactly; NaN, Infinity
  and -Infinity are written as such, or rejected (ValueError) when `allow_nan` is false.
* Ints are exact.  Duplicate keys (possible only after joining surrogates) keep the
  first position and the last value, as in `dict(pairs)`.

Model/JsonText models the text in between; C56 proves that it has this effect.
-/

namespace Pal

/-- A string after the round trip. -/
def jsonStr (s : PyStr) : PyStr := joinUnits (utf16Units s)

/-- A float after the round trip. -/
def jsonFloat (an : Bool) (b : BitVec 64) : Except Err Val :=
  if isNaN64 b then (if an then .ok (.float nan64) else .error .value)
  else if isInf64 b then (if an then .ok (.float b) else .error .value)
  else .ok (.float b)

mutual
/-- dump then load. -/
def jsonRT (an : Bool) : Val → Except Err Val
  | .none => .ok .none
  | .bool b => .ok (.bool b)
  | .int i => .ok (.int i)
  | .float b => jsonFloat an b
  | .str s => .ok (.str (jsonStr s))
  | .bytes _ => .error .type
  | .uuid raw => match uuidStr raw with
    | .ok s => .ok (.str (jsonStr s))
    | .error e => .error e
  | .list l => match jsonRTL an l with
    | .ok l' => .ok (.list l')
    | .error e => .error e
  | .tuple l => match jsonRTL an l with
    | .ok l' => .ok (.list l')
    | .error e => .error e
  | .dict d => match jsonRTD an d with
    | .ok d' => .ok (.dict (dupdate [] d'))
    | .error e => .error e
/-- Elements of a list or tuple. -/
def jsonRTL (an : Bool) : List Val → Except Err (List Val)
  | [] => .ok []
  | v :: t => match jsonRT an v with
    | .error e => .error e
    | .ok v' => match jsonRTL an t with
      | .error e => .error e
      | .ok t' => .ok (v' :: t')
/-- Items of a dict, in order. -/
def jsonRTD (an : Bool) : List (PyStr × Val) → Except Err (List (PyStr × Val))
  | [] => .ok []
  | (k, v) :: t => match jsonRT an v with
    | .error e => .error e
    | .ok v' => match jsonRTD an t with
      | .error e => .error e
      | .ok t' => .ok ((jsonStr k, v') :: t')
end

end Pal
