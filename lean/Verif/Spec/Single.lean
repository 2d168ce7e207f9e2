import Verif.Spec.Float
import Verif.Spec.Value
import Mathlib.Algebra.Order.Ring.Rat
import Mathlib.Algebra.Order.Group.Unbundled.Abs
/-
The number denoted by an IEEE-754 binary32 pattern, and rounding a double to single precision.
-/

namespace Pal.Spec

/-- Value of the 31 low bits, with unbounded exponent: exponent field `e`, fraction `m`;
`m * 2^-149` if `e = 0`, `(2^23 + m) * 2^(e - 150)` otherwise. -/
def singleMag (r : Nat) : ℚ :=
  if r / 2 ^ 23 = 0 then (r % 2 ^ 23 : Nat) * (2 : ℚ) ^ (-149 : Int)
  else (2 ^ 23 + r % 2 ^ 23 : Nat) * (2 : ℚ) ^ ((r / 2 ^ 23 : Nat) - 150 : Int)

/-- The value of a finite single-precision number. -/
def value32 (b : BitVec 32) : ℚ :=
  if b.toNat < 2 ^ 31 then singleMag b.toNat else -singleMag (b.toNat - 2 ^ 31)

/-- `r` is the magnitude nearest to `q`, among magnitudes with unbounded exponent; of two nearest
ones the even one. -/
def NearestSingleMag (q : ℚ) (r : Nat) : Prop :=
  ∀ r', r' ≠ r → |singleMag r - q| < |singleMag r' - q| ∨ (|singleMag r - q| = |singleMag r' - q| ∧ r % 2 = 0)

/-- `x` is the double `b` in single precision.  The sign is kept.  A finite double becomes the nearest
single, or an infinity if the exponent does not fit; an infinity stays one; a NaN becomes the quiet NaN with
the upper 23 bits of its fraction. -/
def Narrows (b : BitVec 64) (x : BitVec 32) : Prop :=
  (NaN64 b → x.toNat = b.toNat / 2 ^ 63 * 2 ^ 31 + 255 * 2 ^ 23 + (2 ^ 22 ||| b.toNat % 2 ^ 52 / 2 ^ 29)) ∧
  (Inf64 b → x.toNat = b.toNat / 2 ^ 63 * 2 ^ 31 + 255 * 2 ^ 23) ∧
  (Finite64 b → ∃ r, NearestSingleMag |value64 b| r ∧
    x.toNat = b.toNat / 2 ^ 63 * 2 ^ 31 + min r (255 * 2 ^ 23))

end Pal.Spec
