import Verif.Model.Py
/-
Declarative descriptions of the primitive encodings, written without the model's
reader and writer functions.
-/

namespace Pal.Spec
open Pal

/-- `n` as `k` little-endian bytes: byte number `i` is `n / 256^i` modulo 256. -/
def lit (k n : Nat) : Bytes := (List.range k).map fun i => UInt8.ofNat (n / 256 ^ i % 256)

/-- The range of a signed `k`-byte integer. -/
def InSigned (k : Nat) (i : Int) : Prop := -(2 ^ (8 * k - 1)) ≤ i ∧ i < 2 ^ (8 * k - 1)

/-- The range of an unsigned `k`-byte integer. -/
def InUnsigned (k : Nat) (i : Int) : Prop := 0 ≤ i ∧ i < 2 ^ (8 * k)

/-- Two's complement: the residue modulo `2^(8k)` as little-endian bytes. -/
def twos (k : Nat) (i : Int) : Bytes := lit k (i % 2 ^ (8 * k)).toNat

/-- A Unicode code point, surrogates included. -/
def IsCodePoint (c : Nat) : Prop := c ≤ 0x10FFFF

def IsHigh (c : Nat) : Prop := 0xD800 ≤ c ∧ c ≤ 0xDBFF
def IsLow (c : Nat) : Prop := 0xDC00 ≤ c ∧ c ≤ 0xDFFF

instance (c : Nat) : Decidable (IsHigh c) := inferInstanceAs (Decidable (_ ∧ _))
instance (c : Nat) : Decidable (IsLow c) := inferInstanceAs (Decidable (_ ∧ _))
instance (c : Nat) : Decidable (IsCodePoint c) := inferInstanceAs (Decidable (_ ≤ _))

/-- No low surrogate directly after a high surrogate. -/
def NoSplit : PyStr → Prop
  | [] => True
  | [_] => True
  | a :: b :: t => ¬ (IsHigh a ∧ IsLow b) ∧ NoSplit (b :: t)

instance : (s : PyStr) → Decidable (NoSplit s)
  | [] => .isTrue trivial
  | [_] => .isTrue trivial
  | _ :: b :: t =>
    have := instDecidableNoSplit (b :: t)
    inferInstanceAs (Decidable (_ ∧ _))

/-- A string of code points without split surrogate pair. -/
def Normal (s : PyStr) : Prop := (∀ c ∈ s, IsCodePoint c) ∧ NoSplit s

instance (s : PyStr) : Decidable (Normal s) := inferInstanceAs (Decidable (_ ∧ _))

def Ascii (s : PyStr) : Prop := ∀ c ∈ s, c < 128

instance (s : PyStr) : Decidable (Ascii s) := inferInstanceAs (Decidable (∀ c ∈ s, c < 128))

/-- UTF-16 code units of one code point. -/
def unitsOf (c : Nat) : List Nat :=
  if c < 0x10000 then [c]
  else [0xD800 + (c - 0x10000) / 0x400, 0xDC00 + (c - 0x10000) % 0x400]

/-- UTF-16 code units of a string. -/
def units (s : PyStr) : List Nat := s.flatMap unitsOf

/-- The canonical stored form of a string: empty is length 0; ASCII is the length plus
one, the characters and a NUL; anything else is minus (number of UTF-16 units plus
one), the units in little-endian order and a two-byte NUL. -/
def encStr (s : PyStr) : Bytes :=
  if s = [] then lit 4 0
  else if Ascii s then lit 4 (s.length + 1) ++ s.map UInt8.ofNat ++ [0]
  else twos 4 (-((units s).length + 1)) ++ (units s).flatMap (lit 2) ++ [0, 0]

/-- The length field of the canonical form fits. -/
def StrFits (s : PyStr) : Prop :=
  if Ascii s then s.length + 1 < 2 ^ 31 else (units s).length + 1 ≤ 2 ^ 31

instance (s : PyStr) : Decidable (StrFits s) := by unfold StrFits; infer_instance

/-- A string that can be stored and read back. -/
def StrOk (s : PyStr) : Prop := Normal s ∧ StrFits s

instance (s : PyStr) : Decidable (StrOk s) := inferInstanceAs (Decidable (_ ∧ _))

/-- Sixteen raw bytes. -/
def Guid := { b : Bytes // b.length = 16 }

end Pal.Spec
