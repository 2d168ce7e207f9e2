import Verif.Spec.Tree
/-
A program that goes through a stored property list without understanding the contents of
the properties: it skips them by their declared sizes.  Written without the model's reader
and writer functions.
-/

namespace Pal.Spec
open Pal

/-- The number stored in little-endian bytes. -/
def num : Bytes → Nat
  | [] => 0
  | b :: t => b.toNat + 256 * num t

/-- The first `k` bytes and the rest; nothing if there are fewer. -/
def cut (k : Nat) (s : Bytes) : Option (Bytes × Bytes) :=
  if k ≤ s.length then some (s.take k, s.drop k) else none

/-- The number of bytes of a stored string, from its length field: negative means two
bytes per unit. -/
def strLen (h : Bytes) : Nat := 4 + if num h < 2 ^ 31 then num h else 2 * (2 ^ 32 - num h)

/-- A stored string (with its length field) and the rest. -/
def skipStr (s : Bytes) : Option (Bytes × Bytes) :=
  match cut 4 s with
  | none => none
  | some (h, _) => cut (strLen h) s

/-- The number of bytes of an optional GUID. -/
def idLen : Bytes → Nat
  | [] => 1
  | b :: _ => if b = 0 then 1 else 17

/-- What precedes the sized part: the fields given by `f`, in order. -/
inductive Field where
  | str
  | bytes (k : Nat)
  | id
  deriving DecidableEq

/-- The number of bytes of a field that begins at `s`. -/
def Field.skip : Field → Bytes → Option (Bytes × Bytes)
  | .str, s => skipStr s
  | .bytes k, s => cut k s
  | .id, s => cut (idLen s) s

def skipFields : List Field → Bytes → Option (Bytes × Bytes)
  | [], s => some ([], s)
  | f :: t, s => match f.skip s with
    | none => none
    | some (a, s1) => match skipFields t s1 with
      | none => none
      | some (b, s2) => some (a ++ b, s2)

/-- The fields between the declared size and the sized part, by property type. -/
def headFields (ty : Bytes) : List Field :=
  if ty = eLit "StructProperty" then [.str, .bytes 16, .id]
  else if ty = eLit "EnumProperty" then [.str, .id]
  else if ty = eLit "ArrayProperty" then [.str, .id]
  else if ty = eLit "MapProperty" then [.str, .str, .id]
  else if ty = eLit "BoolProperty" then [.bytes 1, .id]
  else [.id]

/-- A property as found by skipping: all parts are stored bytes. -/
structure Tag where
  name : Bytes
  type : Bytes
  size : Bytes
  head : Bytes
  body : Bytes

/-- The bytes of the property. -/
def Tag.bytes (t : Tag) : Bytes := t.name ++ t.type ++ t.size ++ t.head ++ t.body

/-- One property: the number of bytes of its body is its declared size. -/
def skipProp (name s1 : Bytes) : Option (Tag × Bytes) :=
  match skipStr s1 with
  | none => none
  | some (ty, s2) => match cut 8 s2 with
    | none => none
    | some (size, s3) => match skipFields (headFields ty) s3 with
      | none => none
      | some (head, s4) => match cut (num size) s4 with
        | none => none
        | some (body, s5) => some (⟨name, ty, size, head, body⟩, s5)

/-- The properties up to the name "None" and what follows it.  The first argument bounds
the number of properties. -/
def walk : Nat → Bytes → Option (List Tag × Bytes)
  | 0, _ => none
  | n + 1, s => match skipStr s with
    | none => none
    | some (name, s1) =>
      if name = eLit "None" then some ([], s1)
      else match skipProp name s1 with
        | none => none
        | some (t, s5) => match walk n s5 with
          | none => none
          | some (l, r) => some (t :: l, r)

/-- Going through a property list by sizes.  A property takes more than one byte, so the
number of bytes bounds the number of properties. -/
def skipList (s : Bytes) : Option (List Tag × Bytes) := walk (s.length + 1) s

/-- The inner tag of an array of structs, after the number of elements: the name, the
type, the declared size, the struct type, a GUID and a zero byte. -/
def skipStructs (s : Bytes) : Option (Bytes × Bytes) :=
  match skipFields [.bytes 4, .str, .str] s with
  | none => none
  | some (_, s1) => match cut 8 s1 with
    | none => none
    | some (size, s2) => match skipFields [.str, .bytes 16, .bytes 1] s2 with
      | none => none
      | some (_, s3) => cut (num size) s3

end Pal.Spec
