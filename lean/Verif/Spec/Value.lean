import Mathlib.Data.Rat.Defs
import Mathlib.Algebra.Field.Rat
/-
The number denoted by a finite IEEE-754 binary64 pattern.
-/

namespace Pal.Spec

/-- Not an infinity, not a NaN. -/
def Finite64 (b : BitVec 64) : Prop := b.toNat / 2 ^ 52 % 2 ^ 11 ≠ 2047

/-- Value of the 63 low bits: exponent field `e`, fraction `m`; `m * 2^-1074` if `e = 0`,
`(2^52 + m) * 2^(e - 1075)` otherwise. -/
def magValue (r : Nat) : ℚ :=
  if r / 2 ^ 52 = 0 then (r % 2 ^ 52 : Nat) * (2 : ℚ) ^ (-1074 : Int)
  else (2 ^ 52 + r % 2 ^ 52 : Nat) * (2 : ℚ) ^ ((r / 2 ^ 52 : Nat) - 1075 : Int)

/-- The value of a finite double: the sign bit is the top bit. -/
def value64 (b : BitVec 64) : ℚ :=
  if b.toNat < 2 ^ 63 then magValue b.toNat else -magValue (b.toNat - 2 ^ 63)

/-- `t` is `v` rounded toward zero. -/
def IsTrunc (v : ℚ) (t : Int) : Prop := (0 ≤ v → (t : ℚ) ≤ v ∧ v < t + 1) ∧ (v ≤ 0 → v ≤ t ∧ (t : ℚ) - 1 < v)

end Pal.Spec
