import Verif.Spec.Types
import Verif.Spec.Single
/-
What stored bytes mean: a layout is a relation between the bytes at some point of a file, the Python
value shown for them and the bytes that follow.  Layouts also cover bytes no writer produces (a flag
stored as 7, a string cut off by the end of the file), because the tool accepts them.  Nothing here
uses the model's reader.
-/

namespace Pal.Spec
open Pal

/-- `L s v rest`: the bytes `s` begin with something shown as `v`, and `rest` follows. -/
abbrev Layout := Bytes → Val → Bytes → Prop

/-- `s` begins with the `n` bytes `b`; at the end of the data `b` may be shorter. -/
def Takes (n : Nat) (s b rest : Bytes) : Prop :=
  s = b ++ rest ∧ (b.length = n ∨ b.length < n ∧ rest = [])

/-- An unsigned and a signed integer of `k` bytes. -/
def Unsigned (k : Nat) (s : Bytes) (n : Nat) (rest : Bytes) : Prop := n < 2 ^ (8 * k) ∧ s = lit k n ++ rest
def Signed (k : Nat) (s : Bytes) (i : Int) (rest : Bytes) : Prop := InSigned k i ∧ s = twos k i ++ rest

/-- A string: a length, the characters and a terminator that is not looked at.  A positive length counts
bytes, a negative one UTF-16 units, both with the terminator. -/
inductive Text : Bytes → PyStr → Bytes → Prop
  | empty {rest} : Text (lit 4 0 ++ rest) [] rest
  | ascii {n s d t rest} : 0 < n → n < 2 ^ 31 → Takes n s d rest → t = d.dropLast.map UInt8.toNat → Ascii t →
      Text (lit 4 n ++ s) t rest
  | wide {n : Nat} {s d t rest} : 0 < n → n ≤ 2 ^ 31 → Takes (2 * n) s d rest →
      d.dropLast.dropLast = (units t).flatMap (lit 2) → Normal t → Text (twos 4 (-n) ++ s) t rest

/-- `b` is the single-precision number `x` as a double: the same sign and number, the same infinity, or
the same NaN made quiet. -/
structure Widens (x : BitVec 32) (b : BitVec 64) : Prop where
  sign : b.toNat / 2 ^ 63 = x.toNat / 2 ^ 31
  number : ¬ Special32 x → Finite64 b ∧ value64 b = value32 x
  infinity : Inf32 x → Inf64 b
  nan : NaN32 x → NaN64 b ∧ b.toNat % 2 ^ 52 = (2 ^ 22 ||| x.toNat % 2 ^ 23) * 2 ^ 29

/-- How a double is shown: infinities as None if `allow_nan` is off. -/
def shownFloat (an : Bool) (b : BitVec 64) : Val := if an = false ∧ Inf64 b then .none else .float b

/-! ### Layouts of single fields -/

namespace Layout

def u (k : Nat) : Layout := fun s v rest => ∃ n : Nat, Unsigned k s n rest ∧ v = .int n
def i (k : Nat) : Layout := fun s v rest => ∃ n, Signed k s n rest ∧ v = .int n
/-- A flag of `k` bytes: anything but zero is True. -/
def flag (k : Nat) : Layout := fun s v rest => ∃ n, Unsigned k s n rest ∧ v = .bool (decide (n ≠ 0))
def f32 (an : Bool) : Layout := fun s v rest =>
  ∃ (x : BitVec 32) (b : BitVec 64), s = lit 4 x.toNat ++ rest ∧ Widens x b ∧ v = shownFloat an b
def f64 (an : Bool) : Layout := fun s v rest => ∃ b : BitVec 64, s = lit 8 b.toNat ++ rest ∧ v = shownFloat an b
def text : Layout := fun s v rest => ∃ t, Text s t rest ∧ v = .str t
/-- A GUID, shorter at the end of the data. -/
def guid : Layout := fun s v rest => ∃ b, Takes 16 s b rest ∧ v = .uuid b
/-- A GUID that must be complete. -/
def uuid : Layout := fun s v rest => ∃ b, s = b ++ rest ∧ b.length = 16 ∧ v = .uuid b
/-- A presence byte and, unless it is zero, a GUID. -/
def optGuid : Layout := fun s v rest =>
  ∃ x s', s = x :: s' ∧ (x = 0 ∧ v = .none ∧ rest = s' ∨ x ≠ 0 ∧ guid s' v rest)
/-- `n` bytes shown as a tuple of integers. -/
def bytes (n : Nat) : Layout := fun s v rest => ∃ b, s = b ++ rest ∧ b.length = n ∧ v = vBytesT b
/-- No bytes at all, always shown as `c`. -/
def always (c : Val) : Layout := fun s v rest => v = c ∧ rest = s

/-! ### Composite layouts -/

/-- Fields one after the other. -/
def fields : List (String × Layout) → Bytes → List (String × Val) → Bytes → Prop
  | [], s, l, rest => l = [] ∧ rest = s
  | (k, L) :: t, s, l, rest => ∃ v s' l', L s v s' ∧ fields t s' l' rest ∧ l = (k, v) :: l'

/-- Fields one after the other, shown as a dict. -/
def record (t : List (String × Layout)) : Layout := fun s v rest => ∃ l, fields t s l rest ∧ v = vDict l

/-- `n` elements one after the other. -/
def many (L : Layout) : Nat → Bytes → List Val → Bytes → Prop
  | 0, s, l, rest => l = [] ∧ rest = s
  | n + 1, s, l, rest => ∃ v s' l', L s v s' ∧ many L n s' l' rest ∧ l = v :: l'

/-- A 32-bit count and as many elements. -/
def array (L : Layout) : Layout := fun s v rest => ∃ n s' l, Unsigned 4 s n s' ∧ many L n s' l rest ∧ v = .list l

/-- Two fields shown as a tuple. -/
def pair (A B : Layout) : Layout := fun s v rest => ∃ a s' b, A s a s' ∧ B s' b rest ∧ v = .tuple [a, b]

def vector (an : Bool) : Layout := record [("x", f64 an), ("y", f64 an), ("z", f64 an)]
def quat (an : Bool) : Layout := record [("x", f64 an), ("y", f64 an), ("z", f64 an), ("w", f64 an)]
def color (an : Bool) : Layout := record [("r", f32 an), ("g", f32 an), ("b", f32 an), ("a", f32 an)]
def transform (an : Bool) : Layout :=
  record [("rotation", quat an), ("translation", vector an), ("scale3d", vector an)]

end Layout

end Pal.Spec
