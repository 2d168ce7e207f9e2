import Verif.Model.Py
/-
`archive.UUID` (archive.py:22-107; the recordclass variant 113-188 has the same
bodies) and the parts of the standard `uuid` module it uses.
-/

namespace Pal

/-- One lower-case hexadecimal digit, as printed by `%x`. -/
def hexDigit (n : Nat) : Nat := if n < 10 then 48 + n else 87 + n

/-- `"%0kx" % n` for `n < 16^k`: exactly `k` digits, most significant first. -/
def hexN : Nat → Nat → PyStr
  | 0, _ => []
  | k + 1, n => hexN k (n / 16) ++ [hexDigit (n % 16)]

/-- `UUID.__str__` (archive.py:61-72).  Fewer than 16 raw bytes raise IndexError. -/
def uuidStr (raw : Bytes) : Except Err PyStr :=
  match raw with
  | b0 :: b1 :: b2 :: b3 :: b4 :: b5 :: b6 :: b7 :: b8 :: b9 :: bA :: bB :: bC :: bD :: bE :: bF :: _ =>
    .ok (hexN 8 (b3.toNat <<< 24 ||| b2.toNat <<< 16 ||| b1.toNat <<< 8 ||| b0.toNat) ++ [45] ++
         hexN 4 (b7.toNat <<< 8 ||| b6.toNat) ++ [45] ++
         hexN 4 (b5.toNat <<< 8 ||| b4.toNat) ++ [45] ++
         hexN 4 (bB.toNat <<< 8 ||| bA.toNat) ++ [45] ++
         hexN 4 (b9.toNat <<< 8 ||| b8.toNat) ++
         hexN 8 (bF.toNat <<< 24 ||| bE.toNat <<< 16 ||| bD.toNat <<< 8 ||| bC.toNat))
  | _ => .error .index

/-- The byte permutation of `UUID.from_str` and `uuid_writer`
(archive.py:36-59, 664-683), from the big-endian `uuid.UUID.bytes`. -/
def uuidPerm (b : Bytes) : Bytes :=
  match b with
  | [b0, b1, b2, b3, b4, b5, b6, b7, b8, b9, bA, bB, bC, bD, bE, bF] =>
    [b3, b2, b1, b0, b7, b6, b5, b4, bB, bA, b9, b8, bF, bE, bD, bC]
  | _ => []

/-- Big-endian bytes of `n`, `k` of them (`int.to_bytes(k, "big")`). -/
def beBytes : Nat → Nat → Bytes
  | 0, _ => []
  | k + 1, n => beBytes k (n / 256) ++ [UInt8.ofNat (n % 256)]

/-- Value of a hexadecimal digit character. -/
def hexVal (c : Nat) : Option Nat :=
  if 48 ≤ c ∧ c ≤ 57 then some (c - 48)
  else if 97 ≤ c ∧ c ≤ 102 then some (c - 87)
  else if 65 ≤ c ∧ c ≤ 70 then some (c - 55)
  else none

/-- Digits with single underscores between them, as accepted by `int(s, 16)`.
`prev` says whether the previous character was a digit. -/
def hexDigits (acc : Nat) (prev : Bool) : PyStr → Option Nat
  | [] => if prev then some acc else none
  | c :: t =>
    if c = 95 then (if prev then hexDigits acc false t else none)
    else match hexVal c with
      | some d => hexDigits (acc * 16 + d) true t
      | none => none

/-- White space stripped by `int()` from ASCII text. -/
def isWs (c : Nat) : Bool := c = 32 || (9 ≤ c && c ≤ 13)

/-- Non-ASCII white space (`str.isspace`). -/
def isWideWs (c : Nat) : Bool :=
  c = 0x85 || c = 0xA0 || c = 0x1680 || (0x2000 ≤ c && c ≤ 0x200A) || c = 0x2028 || c = 0x2029 ||
  c = 0x202F || c = 0x205F || c = 0x3000

/-- The characters with decimal value zero in Unicode 14 (the version of Python 3.11); each is followed by
the other nine digits of its script. -/
def zeroDigits : List Nat := [48, 1632, 1776, 1984, 2406, 2534, 2662, 2790, 2918, 3046, 3174, 3302, 3430,
  3558, 3664, 3792, 3872, 4160, 4240, 6112, 6160, 6470, 6608, 6784, 6800, 6992, 7088, 7232, 7248, 42528,
  43216, 43264, 43472, 43504, 43600, 44016, 65296, 66720, 68912, 69734, 69872, 69942, 70096, 70384, 70736,
  70864, 71248, 71360, 71472, 71904, 72016, 72784, 73040, 73120, 92768, 92864, 93008, 120782, 120792,
  120802, 120812, 120822, 123200, 123632, 125264, 130032]

/-- One character of a text that is not ASCII, as seen by `int()`: blanks become spaces, decimal digits of
any script become ASCII digits, anything else (and DEL) becomes `?`. -/
def toAsciiDigit (c : Nat) : Nat :=
  if c < 127 then c
  else if isWideWs c then 32
  else match zeroDigits.find? fun z => z ≤ c && c < z + 10 with
    | some z => 48 + (c - z)
    | none => 63

/-- The text `int()` parses: ASCII text is taken as it is. -/
def asciiDigits (s : PyStr) : PyStr := if s.all (· < 128) then s else s.map toAsciiDigit

def stripWith (p : Nat → Bool) (s : PyStr) : PyStr :=
  ((s.dropWhile p).reverse.dropWhile p).reverse

/-- Optional sign of an `int()` literal. -/
def dropSign (s : PyStr) : Bool × PyStr :=
  match s with
  | 43 :: t => (false, t)
  | 45 :: t => (true, t)
  | _ => (false, s)

/-- Optional `0x`, `0X`, `0x_` or `0X_` prefix of an `int(s, 16)` literal. -/
def dropHexPrefix (s : PyStr) : PyStr :=
  match s with
  | 48 :: 120 :: 95 :: t => t
  | 48 :: 88 :: 95 :: t => t
  | 48 :: 120 :: t => t
  | 48 :: 88 :: t => t
  | _ => s

/-- `int(s, 16)`.  Negative results are rejected by `uuid.UUID`. -/
def pyInt16 (s : PyStr) : Option Nat :=
  let ns := dropSign (stripWith isWs (asciiDigits s))
  match hexDigits 0 false (dropHexPrefix ns.2) with
  | some n => if ns.1 ∧ n ≠ 0 then none else some n
  | none => none

/-- `s.replace(old, "")` for a non-empty `old`: remove non-overlapping occurrences
from left to right.  `k` is the number of characters still to skip. -/
def removeAllAux (old : PyStr) : Nat → PyStr → PyStr
  | _, [] => []
  | 0, c :: t =>
    if old.isPrefixOf (c :: t) then removeAllAux old (old.length - 1) t
    else c :: removeAllAux old 0 t
  | k + 1, _ :: t => removeAllAux old k t

def removeAll (old s : PyStr) : PyStr := removeAllAux old 0 s

/-- `uuid.UUID(s).int` (standard library): drop `urn:`, `uuid:`, braces and dashes,
require 32 characters, parse as base 16. -/
def stdUuidParse (s : PyStr) : Except Err Nat :=
  let h := removeAll (P "uuid:") (removeAll (P "urn:") s)
  let h := stripWith (fun c => c = 123 || c = 125) h
  let h := h.filter (· ≠ 45)
  if h.length ≠ 32 then .error .value
  else match pyInt16 h with
    | some n => .ok n
    | none => .error .value

/-- `UUID.from_str` (archive.py:36-59): raw bytes of the result. -/
def uuidFromStr (s : PyStr) : Except Err Bytes :=
  match stdUuidParse s with
  | .ok n => .ok (uuidPerm (beBytes 16 n))
  | .error e => .error e

/-- `UUID.UUID()` (archive.py:74-96): the integer of the standard object. -/
def uuidInt (raw : Bytes) : Except Err Nat :=
  match raw with
  | b0 :: b1 :: b2 :: b3 :: b4 :: b5 :: b6 :: b7 :: b8 :: b9 :: bA :: bB :: bC :: bD :: bE :: bF :: _ =>
    .ok (bC.toNat + (bD.toNat <<< 8) + (bE.toNat <<< 16) + (bF.toNat <<< 24) +
      (b8.toNat <<< 32) + (b9.toNat <<< 40) + (bA.toNat <<< 48) + (bB.toNat <<< 56) +
      (b4.toNat <<< 64) + (b5.toNat <<< 72) + (b6.toNat <<< 80) + (b7.toNat <<< 88) +
      (b0.toNat <<< 96) + (b1.toNat <<< 104) + (b2.toNat <<< 112) + (b3.toNat <<< 120))
  | _ => .error .index

/-- `uuid_writer` on a standard `uuid.UUID` with integer value `n`
(archive.py:662-683). -/
def wStdUuid (n : Nat) : Bytes := uuidPerm (beBytes 16 n)

/-- `UUID.__eq__` between two `archive.UUID` objects (archive.py:98-100). -/
def uuidEq (a b : Bytes) : Bool := a = b

/-- `UUID.__eq__` against any other object, given its `str()` (archive.py:101). -/
def uuidEqStr (a : Bytes) (s : PyStr) : Except Err Bool :=
  match uuidStr a with
  | .ok t => .ok (t = s)
  | .error e => .error e

/-- `UUID.__hash__` (archive.py:106-107), for any string hash function. -/
def uuidHash {H : Type} (hash : PyStr → H) (a : Bytes) : Except Err H :=
  match uuidStr a with
  | .ok t => .ok (hash t)
  | .error e => .error e

end Pal
