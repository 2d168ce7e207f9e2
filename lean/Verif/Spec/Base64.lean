import Verif.Model.Py
/-
Base64 (RFC 4648, section 4), and how Python reads it.  Independent of the model's encoder and decoder: a
text says a row of bits, and the bytes are the bits in groups of eight.
-/

namespace Pal.Spec.B64
open Pal

/-- Table 1 of RFC 4648: the digit 0 is A, …, the digit 63 is /. -/
def alphabet : PyStr := P "ABCDEFGHIJKLMNOPQRSTUVWXYZabcdefghijklmnopqrstuvwxyz0123456789+/"

/-- The `k` lowest bits of `n`, the most significant first. -/
def bits : Nat → Nat → List Bool
  | 0, _ => []
  | k + 1, n => n.testBit k :: bits k n

def byteBits (b : Bytes) : List Bool := b.flatMap fun x => bits 8 x.toNat

def digitBits (l : List Nat) : List Bool := l.flatMap (bits 6)

/-- `s` is the base64 text of `b`: the bits of `b`, filled up with fewer than six zeros, in groups of six, each
as its digit; then the fewest pad characters `=` that make the length a multiple of four. -/
def Text (b : Bytes) (s : PyStr) : Prop :=
  ∃ l zeros pads, (∀ d ∈ l, d < 64) ∧ zeros < 6 ∧ pads < 4 ∧
    digitBits l = byteBits b ++ List.replicate zeros false ∧
    s = l.map (fun d => alphabet.getD d 0) ++ List.replicate pads 61 ∧ s.length % 4 = 0

/-- The number with the given bits. -/
def val (l : List Bool) : Nat := l.foldl (fun n b => 2 * n + b.toNat) 0

/-- The digits of a row of bits; the last is filled up with zeros. -/
def sixes : List Bool → List Nat
  | a :: b :: c :: d :: e :: f :: t => val [a, b, c, d, e, f] :: sixes t
  | [] => []
  | l => [val ((l ++ List.replicate 5 false).take 6)]

/-- The base64 text of `b` as a function; `text_iff` (Lemmas/Base64.lean) says that it is the only `s` with `Text b s`. -/
def text (b : Bytes) : PyStr :=
  let l := (sixes (byteBits b)).map fun d => alphabet.getD d 0
  l ++ List.replicate ((4 - l.length % 4) % 4) 61

/-- The digit of a character. -/
def digit (c : Nat) : Option Nat := alphabet.findIdx? (· = c)

/-- The digits of a text; other characters are not looked at. -/
def digits (s : PyStr) : List Nat := s.filterMap digit

/-- The number of pad characters after the last digit of a text. -/
def padsAtEnd (s : PyStr) : Nat := (s.reverse.takeWhile fun c => (digit c).isNone).count 61

/-- The text ends in the padding that its last group of digits needs: two pad characters after two digits, one
after three. -/
def Padded (s : PyStr) : Prop :=
  (digits s).length % 4 = 2 ∧ 2 ≤ padsAtEnd s ∨ (digits s).length % 4 = 3 ∧ 1 ≤ padsAtEnd s

/-- Python (without `validate`) reads the text `s` as the bytes `b`.  It reads up to the first place where a
group is padded (`u`, what follows is ignored), or else to the end, where no group may be open; characters that
are not digits are skipped.  The bytes are the bits of the digits in groups of eight, a rest is dropped. -/
def Reads (s : PyStr) (b : Bytes) : Prop :=
  ∃ u r, s = u ++ r ∧ (∀ v, v <+: u → Padded v → v = u) ∧ (Padded u ∨ r = [] ∧ (digits s).length % 4 = 0) ∧
    ∃ rest, digitBits (digits u) = byteBits b ++ rest ∧ rest.length < 8

/-- A value is read as the bytes `b`: a text of ASCII characters, or bytes. -/
inductive Says : Val → Bytes → Prop
  | str {s b} : (∀ c ∈ s, c < 128) → Reads s b → Says (.str s) b
  | bytes {x b} : Reads (x.map UInt8.toNat) b → Says (.bytes x) b

end Pal.Spec.B64
