import Verif.Model.Py
import Verif.Spec.Prim
import Verif.Spec.Value
/-
JSON texts and what they denote, after RFC 8259 (with the three extra number words of
Python), and UTF-8.  Independent of the reader and the writer in the model.
-/

namespace Pal.Spec
open Pal

/-! ### UTF-8 -/

/-- A code point that is not a surrogate. -/
def IsScalar (c : Nat) : Prop := c ≤ 0x10FFFF ∧ ¬ (0xD800 ≤ c ∧ c ≤ 0xDFFF)

/-- RFC 3629: the bytes of a code point. -/
def utf8Of (c : Nat) : List Nat :=
  if c < 0x80 then [c]
  else if c < 0x800 then [0xC0 + c / 0x40, 0x80 + c % 0x40]
  else if c < 0x10000 then [0xE0 + c / 0x1000, 0x80 + c / 0x40 % 0x40, 0x80 + c % 0x40]
  else [0xF0 + c / 0x40000, 0x80 + c / 0x1000 % 0x40, 0x80 + c / 0x40 % 0x40, 0x80 + c % 0x40]

/-- `b` is the UTF-8 form of `t`. -/
def Utf8 (b : Bytes) (t : PyStr) : Prop := (∀ c ∈ t, IsScalar c) ∧ b.map UInt8.toNat = t.flatMap utf8Of

/-! ### tokens -/

/-- White space between tokens: blank, tab, line feed, carriage return. -/
def Blank (t : PyStr) : Prop := ∀ c ∈ t, c = 32 ∨ c = 9 ∨ c = 10 ∨ c = 13

/-- A hexadecimal digit and its value. -/
inductive HexChar : Nat → Nat → Prop
  | digit (n : Nat) : n < 10 → HexChar (48 + n) n
  | lower (n : Nat) : n < 6 → HexChar (97 + n) (10 + n)
  | upper (n : Nat) : n < 6 → HexChar (65 + n) (10 + n)

/-- One character of a string literal and what it stands for. -/
inductive CharText : PyStr → Nat → Prop
  | plain (c : Nat) : 32 ≤ c → c ≠ 34 → c ≠ 92 → CharText [c] c
  | quote : CharText (P "\\\"") 34
  | backslash : CharText (P "\\\\") 92
  | slash : CharText (P "\\/") 47
  | backspace : CharText (P "\\b") 8
  | feed : CharText (P "\\f") 12
  | line : CharText (P "\\n") 10
  | ret : CharText (P "\\r") 13
  | tab : CharText (P "\\t") 9
  | unicode (a b c d w x y z : Nat) : HexChar a w → HexChar b x → HexChar c y → HexChar d z →
      CharText (P "\\u" ++ [a, b, c, d]) (w * 4096 + x * 256 + y * 16 + z)

/-- The characters between the quotes. -/
inductive Chars : PyStr → List Nat → Prop
  | nil : Chars [] []
  | cons {t r : PyStr} {u : Nat} {us : List Nat} : CharText t u → Chars r us → Chars (t ++ r) (u :: us)

/-- A string literal: the string has the UTF-16 code units of the characters, and surrogate pairs
are joined. -/
def StrText (t s : PyStr) : Prop :=
  ∃ body us, t = [34] ++ body ++ [34] ∧ Chars body us ∧ Normal s ∧ units s = units us

/-- One or more decimal digits and their value. -/
inductive Digits : PyStr → Nat → Prop
  | one (d : Nat) : d < 10 → Digits [48 + d] d
  | more {t : PyStr} {n : Nat} (d : Nat) : Digits t n → d < 10 → Digits (t ++ [48 + d]) (10 * n + d)

/-- The integer part of a number: no leading zeros. -/
def IntPart (t : PyStr) (n : Nat) : Prop := Digits t n ∧ (t = [48] ∨ t.head? ≠ some 48)

/-- The sign of a number. -/
inductive Sign : PyStr → Bool → Prop
  | plus : Sign [] false
  | minus : Sign [45] true

/-- The fraction of a number: `k` digits with value `m`, or nothing. -/
inductive Frac : PyStr → Nat → Nat → Prop
  | none : Frac [] 0 0
  | some {t : PyStr} {m : Nat} : Digits t m → Frac ([46] ++ t) t.length m

/-- The exponent of a number, or nothing. -/
inductive Expo : PyStr → Int → Prop
  | none : Expo [] 0
  | plain {t : PyStr} {x : Nat} (c : Nat) : c = 101 ∨ c = 69 → Digits t x → Expo ([c] ++ t) x
  | plus {t : PyStr} {x : Nat} (c : Nat) : c = 101 ∨ c = 69 → Digits t x → Expo ([c, 43] ++ t) x
  | minus {t : PyStr} {x : Nat} (c : Nat) : c = 101 ∨ c = 69 → Digits t x → Expo ([c, 45] ++ t) (-x)

/-- `r` is the magnitude nearest to `q`, among magnitudes with unbounded exponent; of two nearest
ones the even one. -/
def NearestMag (q : ℚ) (r : Nat) : Prop :=
  ∀ r', r' ≠ r → |magValue r - q| < |magValue r' - q| ∨ (|magValue r - q| = |magValue r' - q| ∧ r % 2 = 0)

/-- `b` is the double nearest to `±q`; an infinity if the exponent does not fit. -/
def NearestFloat (neg : Bool) (q : ℚ) (b : BitVec 64) : Prop :=
  ∃ r, NearestMag q r ∧ b.toNat = (if neg then 2 ^ 63 else 0) + min r (2047 * 2 ^ 52)

/-- A number: an int if there is no fraction and no exponent, a float otherwise. -/
inductive NumText : PyStr → Val → Prop
  | int {s i : PyStr} {neg : Bool} {n : Nat} : Sign s neg → IntPart i n →
      NumText (s ++ i) (.int (if neg then -n else n))
  | float {s i f e : PyStr} {neg : Bool} {n k m : Nat} {x : Int} {b : BitVec 64} :
      Sign s neg → IntPart i n → Frac f k m → Expo e x → f ++ e ≠ [] →
      NearestFloat neg (((n : ℚ) + m / 10 ^ k) * 10 ^ x) b → NumText (s ++ i ++ f ++ e) (.float b)

/-! ### values -/

mutual
/-- A value without white space around it.  RFC 8259 has no numbers that are not finite; `ext` says whether
the tokens NaN, Infinity and -Infinity are allowed. -/
inductive JText (ext : Bool) : PyStr → Val → Prop
  | null : JText ext (P "null") .none
  | true : JText ext (P "true") (.bool true)
  | false : JText ext (P "false") (.bool false)
  | num {t : PyStr} {v : Val} : NumText t v → JText ext t v
  | nan : ext = true → JText ext (P "NaN") (.float 0x7ff8000000000000#64)
  | inf : ext = true → JText ext (P "Infinity") (.float 0x7ff0000000000000#64)
  | negInf : ext = true → JText ext (P "-Infinity") (.float 0xfff0000000000000#64)
  | str {t s : PyStr} : StrText t s → JText ext t (.str s)
  | arr0 {w : PyStr} : Blank w → JText ext ([91] ++ w ++ [93]) (.list [])
  | arr {t : PyStr} {l : List Val} : JElems ext t l → JText ext ([91] ++ t ++ [93]) (.list l)
  | obj0 {w : PyStr} : Blank w → JText ext ([123] ++ w ++ [125]) (.dict [])
  | obj {t : PyStr} {l : List (PyStr × Val)} : JMembers ext t l → JText ext ([123] ++ t ++ [125]) (.dict (dupdate [] l))
/-- The elements of an array. -/
inductive JElems (ext : Bool) : PyStr → List Val → Prop
  | one {w t w' : PyStr} {v : Val} : Blank w → JText ext t v → Blank w' → JElems ext (w ++ t ++ w') [v]
  | more {w t w' r : PyStr} {v : Val} {l : List Val} : Blank w → JText ext t v → Blank w' → JElems ext r l →
      JElems ext (w ++ t ++ w' ++ [44] ++ r) (v :: l)
/-- The members of an object. -/
inductive JMembers (ext : Bool) : PyStr → List (PyStr × Val) → Prop
  | one {w k' w' w'' t w''' k : PyStr} {v : Val} : Blank w → StrText k' k → Blank w' → Blank w'' → JText ext t v → Blank w''' →
      JMembers ext (w ++ k' ++ w' ++ [58] ++ w'' ++ t ++ w''') [(k, v)]
  | more {w k' w' w'' t w''' r k : PyStr} {v : Val} {l : List (PyStr × Val)} :
      Blank w → StrText k' k → Blank w' → Blank w'' → JText ext t v → Blank w''' → JMembers ext r l →
      JMembers ext (w ++ k' ++ w' ++ [58] ++ w'' ++ t ++ w''' ++ [44] ++ r) ((k, v) :: l)
end

/-- A JSON document: one value with white space around it. -/
def JDoc (ext : Bool) (t : PyStr) (v : Val) : Prop := ∃ w x w', Blank w ∧ JText ext x v ∧ Blank w' ∧ t = w ++ x ++ w'

/-- The bytes of a JSON file. -/
def JFile (ext : Bool) (b : Bytes) (v : Val) : Prop := ∃ t, Utf8 b t ∧ JDoc ext t v

/-- `x` is `v` or sits somewhere inside it. -/
inductive Within (x : Val) : Val → Prop
  | self : Within x x
  | list {l : List Val} {v : Val} : v ∈ l → Within x v → Within x (.list l)
  | tuple {l : List Val} {v : Val} : v ∈ l → Within x v → Within x (.tuple l)
  | dict {d : Dict} {k : PyStr} {v : Val} : (k, v) ∈ d → Within x v → Within x (.dict d)

/-! ### what is assumed of `repr` -/

/-- The text of every finite float is a number with fraction or exponent, made of ASCII
characters, that is read as this float. -/
def ReprLaw (repr : BitVec 64 → PyStr) : Prop :=
  ∀ b, Finite64 b → NumText (repr b) (.float b)

mutual
/-- All strings and keys are made of code points. -/
def CodePoints : Val → Prop
  | .str s => ∀ c ∈ s, IsCodePoint c
  | .list l => CodePointsL l
  | .tuple l => CodePointsL l
  | .dict d => CodePointsD d
  | _ => True
def CodePointsL : List Val → Prop
  | [] => True
  | v :: t => CodePoints v ∧ CodePointsL t
def CodePointsD : List (PyStr × Val) → Prop
  | [] => True
  | (k, v) :: t => (∀ c ∈ k, IsCodePoint c) ∧ CodePoints v ∧ CodePointsD t
end

end Pal.Spec
