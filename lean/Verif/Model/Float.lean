/-
Bit-level model of the float conversions done by `struct.pack`/`struct.unpack`
with the native formats "f" and "d" (archive.py:330-348, 767-775).

"d" copies the 64 bits.  "f" converts between C `float` and C `double` with C
casts: exact widening on read, round-to-nearest-even on write (overflow gives
an infinity), NaNs keep sign and upper payload bits and become quiet.
-/

namespace Pal

/-- IEEE-754 binary64 pattern from sign, biased exponent, mantissa. -/
def mk64 (s e m : Nat) : BitVec 64 := BitVec.ofNat 64 (s * 2 ^ 63 + e * 2 ^ 52 + m)

/-- IEEE-754 binary32 pattern from sign, biased exponent, mantissa. -/
def mk32 (s e m : Nat) : BitVec 32 := BitVec.ofNat 32 (s * 2 ^ 31 + e * 2 ^ 23 + m)

def sgn64 (b : BitVec 64) : Nat := b.toNat / 2 ^ 63
def exp64 (b : BitVec 64) : Nat := b.toNat / 2 ^ 52 % 2 ^ 11
def man64 (b : BitVec 64) : Nat := b.toNat % 2 ^ 52
def sgn32 (b : BitVec 32) : Nat := b.toNat / 2 ^ 31
def exp32 (b : BitVec 32) : Nat := b.toNat / 2 ^ 23 % 2 ^ 8
def man32 (b : BitVec 32) : Nat := b.toNat % 2 ^ 23

/-- Quiet a NaN significand of width 23 (set its top bit). -/
def quiet23 (m : Nat) : Nat := if m < 2 ^ 22 then m + 2 ^ 22 else m

/-- Quiet a NaN significand of width 52. -/
def quiet52 (m : Nat) : Nat := if m < 2 ^ 51 then m + 2 ^ 51 else m

/-- `(double)x` for a C float: `struct.unpack("f", ...)` (archive.py:330-333). -/
def f32to64 (b : BitVec 32) : BitVec 64 :=
  let s := sgn32 b
  let e := exp32 b
  let m := man32 b
  if e = 255 then
    if m = 0 then mk64 s 2047 0 else mk64 s 2047 (quiet23 m * 2 ^ 29)
  else if e = 0 then
    if m = 0 then mk64 s 0 0
    else mk64 s (Nat.log2 m + 874) ((m - 2 ^ Nat.log2 m) * 2 ^ (52 - Nat.log2 m))
  else mk64 s (e + 896) (m * 2 ^ 29)

/-- `m / 2^k` rounded to nearest, ties to even (`k > 0`). -/
def rne (m k : Nat) : Nat :=
  let q := m / 2 ^ k
  let r := m % 2 ^ k
  if 2 * r > 2 ^ k ∨ (2 * r = 2 ^ k ∧ q % 2 = 1) then q + 1 else q

/-- `(float)x` for a C double: `struct.pack("f", x)` (archive.py:767-770). -/
def f64to32 (b : BitVec 64) : BitVec 32 :=
  let s := sgn64 b
  let e := exp64 b
  let m := man64 b
  if e = 2047 then
    if m = 0 then mk32 s 255 0 else mk32 s 255 (quiet52 m / 2 ^ 29)
  else if e = 0 then mk32 s 0 (rne m 925)
  else if e < 897 then mk32 s 0 (rne (2 ^ 52 + m) (29 + (897 - e)))
  else
    let r := (e - 897) * 2 ^ 23 + rne (2 ^ 52 + m) 29
    if r ≥ 255 * 2 ^ 23 then mk32 s 255 0 else mk32 s 0 r

def isNaN64 (b : BitVec 64) : Bool := exp64 b = 2047 ∧ man64 b ≠ 0
def isInf64 (b : BitVec 64) : Bool := exp64 b = 2047 ∧ man64 b = 0
def isNaN32 (b : BitVec 32) : Bool := exp32 b = 255 ∧ man32 b ≠ 0

/-- `float("nan")`. -/
def nan64 : BitVec 64 := 0x7ff8000000000000#64

/-- Exact value of a finite double as numerator (signed) and a power of two
exponent: `n * 2^x`. -/
def num64 (b : BitVec 64) : Int :=
  let m : Int := if exp64 b = 0 then man64 b else 2 ^ 52 + man64 b
  if sgn64 b = 0 then m else -m

def scale64 (b : BitVec 64) : Int := if exp64 b = 0 then -1074 else (exp64 b : Int) - 1075

/-- Round a non-negative rational `n/d` (`d > 0`) to the nearest binary64, ties to
even; returns the magnitude bits, possibly beyond the largest finite number (then
the exponent field is at least 2047). -/
def roundMag (n d : Nat) : Nat :=
  if n = 0 then 0 else
  let l : Int := (Nat.log2 n : Int) - (Nat.log2 d : Int)
  -- n/d lies in (2^(l-1), 2^(l+1)); choose the exponent of its leading bit
  let lead : Int :=
    if 0 ≤ l then (if d * 2 ^ l.toNat ≤ n then l else l - 1)
    else (if d ≤ n * 2 ^ (-l).toNat then l else l - 1)
  let e : Int := max (lead - 52) (-1074)
  let num := if e < 0 then n * 2 ^ (-e).toNat else n
  let den := if e < 0 then d else d * 2 ^ e.toNat
  let q := num / den
  let r := num % den
  let q' := if 2 * r > den ∨ (2 * r = den ∧ q % 2 = 1) then q + 1 else q
  (e + 1074).toNat * 2 ^ 52 + q'

/-- `float(i)` for an int (used by `struct.pack("f"/"d", int)`): `OverflowError`
(`none`) if the result is not finite. -/
def intToF64 (i : Int) : Option (BitVec 64) :=
  let r := roundMag i.natAbs 1
  if r < 2047 * 2 ^ 52 then
    some (BitVec.ofNat 64 ((if i < 0 then 2 ^ 63 else 0) + r))
  else none

/-- Product of two finite doubles as a double (overflow gives infinity). -/
def mulFin (a b : BitVec 64) : BitVec 64 :=
  let n := num64 a * num64 b
  let x := scale64 a + scale64 b
  let s := (sgn64 a + sgn64 b) % 2
  let r := roundMag (if 0 ≤ x then n.natAbs * 2 ^ x.toNat else n.natAbs)
                    (if 0 ≤ x then 1 else 2 ^ (-x).toNat)
  mk64 s 0 (min r (2047 * 2 ^ 52))

/-- Float multiplication `a * b`. -/
def fmul (a b : BitVec 64) : BitVec 64 :=
  if isNaN64 a then mk64 (sgn64 a) 2047 (quiet52 (man64 a))
  else if isNaN64 b then mk64 (sgn64 b) 2047 (quiet52 (man64 b))
  else if isInf64 a ∨ isInf64 b then
    if num64 a = 0 ∧ ¬ isInf64 a ∨ num64 b = 0 ∧ ¬ isInf64 b then mk64 1 2047 (2 ^ 51)
    else mk64 ((sgn64 a + sgn64 b) % 2) 2047 0
  else mulFin a b

/-- True division of two ints, `a / b` with `b > 0`: correctly rounded. -/
def intDiv (a : Int) (b : Nat) : BitVec 64 :=
  BitVec.ofNat 64 ((if a < 0 then 2 ^ 63 else 0) + min (roundMag a.natAbs b) (2047 * 2 ^ 52))

/-- `int(x)` for a float: truncation toward zero; `ValueError`/`OverflowError`
(`none`) for NaN and infinities. -/
def truncF (b : BitVec 64) : Option Int :=
  if exp64 b = 2047 then none
  else
    let x := scale64 b
    some (if 0 ≤ x then num64 b * 2 ^ x.toNat else (num64 b).tdiv (2 ^ (-x).toNat))

/-- `round(x)` for a float: nearest integer, ties to even. -/
def roundF (b : BitVec 64) : Option Int :=
  if exp64 b = 2047 then none
  else
    let x := scale64 b
    some (if 0 ≤ x then num64 b * 2 ^ x.toNat
      else
        let k := (-x).toNat
        let q := rne (num64 b).natAbs k
        if num64 b < 0 then -(q : Int) else q)

end Pal
