import Verif.Model.Py
/-
`base64.b64encode` / `base64.b64decode` as used for the trailer (gvas.py:144, 151).
The decoder is CPython's `binascii.a2b_base64` in its default non-strict mode.
-/

namespace Pal

/-- Character of a 6-bit value. -/
def b64Char (n : Nat) : Nat :=
  if n < 26 then 65 + n
  else if n < 52 then 71 + n
  else if n < 62 then n - 4
  else if n = 62 then 43
  else 47

/-- `base64.b64encode(b).decode("utf-8")` (gvas.py:151). -/
def b64Encode : Bytes → PyStr
  | [] => []
  | [a] => [b64Char (a.toNat / 4), b64Char (a.toNat % 4 * 16), 61, 61]
  | [a, b] => [b64Char (a.toNat / 4), b64Char (a.toNat % 4 * 16 + b.toNat / 16),
      b64Char (b.toNat % 16 * 4), 61]
  | a :: b :: c :: t => b64Char (a.toNat / 4) :: b64Char (a.toNat % 4 * 16 + b.toNat / 16) ::
      b64Char (b.toNat % 16 * 4 + c.toNat / 64) :: b64Char (c.toNat % 64) :: b64Encode t

/-- 6-bit value of a character of the alphabet. -/
def b64Val (c : Nat) : Option Nat :=
  if 65 ≤ c ∧ c ≤ 90 then some (c - 65)
  else if 97 ≤ c ∧ c ≤ 122 then some (c - 71)
  else if 48 ≤ c ∧ c ≤ 57 then some (c + 4)
  else if c = 43 then some 62
  else if c = 47 then some 63
  else none

/-- `binascii.a2b_base64`: `q` is the position in the current quad, `left` the bits not
yet emitted, `pads` the number of pad characters seen in a row.  Characters outside
the alphabet are skipped; a complete pad sequence ends the input. -/
def b64Loop (q left pads : Nat) : PyStr → Except Err Bytes
  | [] => if q = 0 then .ok [] else .error .value
  | c :: t =>
    if c = 61 then
      if 2 ≤ q then
        if 4 ≤ q + (pads + 1) then .ok []
        else b64Loop q left (pads + 1) t
      else b64Loop q left pads t
    else match b64Val c with
      | none => b64Loop q left pads t
      | some v =>
        match q with
        | 0 => b64Loop 1 v 0 t
        | 1 => (b64Loop 2 (v % 16) 0 t).map fun r => UInt8.ofNat (left * 4 + v / 16) :: r
        | 2 => (b64Loop 3 (v % 4) 0 t).map fun r => UInt8.ofNat (left * 16 + v / 4) :: r
        | _ => (b64Loop 0 0 0 t).map fun r => UInt8.ofNat (left * 64 + v) :: r

/-- `base64.b64decode(s)`: str arguments must be ASCII. -/
def b64Decode (v : Val) : Except Err Bytes :=
  match v with
  | .str s => if s.all (· < 128) then b64Loop 0 0 0 s else .error .value
  | .bytes b => b64Loop 0 0 0 (b.map UInt8.toNat)
  | _ => .error .type

end Pal
