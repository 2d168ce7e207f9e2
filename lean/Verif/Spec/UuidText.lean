import Mathlib.Data.List.Forall2
import Verif.Spec.Uuid
import Verif.Model.Uuid
/-
The texts that Python's `uuid.UUID` takes for a GUID, and which GUID.  Independent of the model's parser; only the
tables of Unicode (white space, decimal digits of other scripts) are shared with it.
-/

namespace Pal.Spec.GuidText
open Pal

/-- `y` is `x` with every `w` taken out. -/
inductive Without (w : PyStr) : PyStr → PyStr → Prop
  | none {x : PyStr} : ¬ w <:+: x → Without w x x
  | one {p t u : PyStr} : ¬ w <:+: p → Without w t u → Without w (p ++ w ++ t) (p ++ u)

/-- `r` is `s` without the characters `p` around it. -/
def Bare (p : Nat → Prop) (s r : PyStr) : Prop :=
  ∃ a b, s = a ++ r ++ b ∧ (∀ c ∈ a, p c) ∧ (∀ c ∈ b, p c) ∧
    (∀ c, r.head? = some c → ¬ p c) ∧ (∀ c, r.getLast? = some c → ¬ p c)

/-- The character `c` is the hexadecimal digit `d`, in lower or upper case. -/
def HexDigit (c d : Nat) : Prop := (P "0123456789abcdef")[d]? = some c ∨ (P "0123456789ABCDEF")[d]? = some c

/-- Hexadecimal digits; there may be single underscores between them. -/
inductive HexDigits : PyStr → List Nat → Prop
  | one {c d : Nat} : HexDigit c d → HexDigits [c] [d]
  | cons {c d : Nat} {t : PyStr} {l : List Nat} : HexDigit c d → HexDigits t l → HexDigits (c :: t) (d :: l)
  | under {c d : Nat} {t : PyStr} {l : List Nat} : HexDigit c d → HexDigits t l → HexDigits (c :: 95 :: t) (d :: l)

/-- The number with the given hexadecimal digits. -/
def number (l : List Nat) : Nat := l.foldl (fun a d => a * 16 + d) 0

/-- Blanks of ASCII. -/
def Blank (c : Nat) : Prop := c = 32 ∨ 9 ≤ c ∧ c ≤ 13

/-- `int(h, 16)` for a text without "-": blanks around, an optional plus, an optional "0x" with or without an
underscore after it, digits. -/
def Number (h : PyStr) (n : Nat) : Prop :=
  ∃ a sign pre ds b l, h = a ++ sign ++ pre ++ ds ++ b ∧ (∀ c ∈ a, Blank c) ∧ (∀ c ∈ b, Blank c) ∧
    (sign = [] ∨ sign = P "+") ∧ (pre = [] ∨ pre = P "0x" ∨ pre = P "0X" ∨ pre = P "0x_" ∨ pre = P "0X_") ∧
    HexDigits ds l ∧ n = number l

/-- What `int` sees: ASCII text as it is; in other text white space is a blank, a decimal digit of any script is that
digit, and other characters (and DEL) are no part of a number.  `space` and `zeros` are the tables of Unicode. -/
inductive Seen (space : Nat → Prop) (zeros : List Nat) : Nat → Nat → Prop
  | ascii {c : Nat} : c < 127 → Seen space zeros c c
  | space {c : Nat} : 127 ≤ c → space c → Seen space zeros c 32
  | digit {c z : Nat} : 127 ≤ c → ¬ space c → z ∈ zeros → z ≤ c → c < z + 10 → Seen space zeros c (48 + (c - z))
  | other {c : Nat} : 127 ≤ c → ¬ space c → (∀ z ∈ zeros, ¬ (z ≤ c ∧ c < z + 10)) → Seen space zeros c 63

/-- The text `s` is the GUID with the number `n`: without every "urn:" and then every "uuid:", without the braces around
it and the dashes in it, it has 32 characters that are a hexadecimal number. -/
def Is (space : Nat → Prop) (zeros : List Nat) (s : PyStr) (n : Nat) : Prop :=
  ∃ s1 s2 s3 h h', Without (P "urn:") s s1 ∧ Without (P "uuid:") s1 s2 ∧ Bare (fun c => c = 123 ∨ c = 125) s2 s3 ∧
    h = s3.filter (· ≠ 45) ∧ h.length = 32 ∧ ((∀ c ∈ h, c < 128) ∧ h' = h ∨ (∃ c ∈ h, 128 ≤ c) ∧ List.Forall₂ (Seen space zeros) h h') ∧
    Number h' n

/-- The white space of Unicode outside ASCII. -/
def WideSpace (c : Nat) : Prop := isWideWs c = true

/-- The text `s` is the GUID with the number `n`, as Python 3.11 reads it. -/
def Says (s : PyStr) (n : Nat) : Prop := Is WideSpace zeroDigits s n

end Pal.Spec.GuidText
