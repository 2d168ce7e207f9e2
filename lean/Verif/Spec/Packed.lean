import Verif.Spec.Prim
import Verif.Spec.Value
/-
Packed vectors and compressed rotators.
-/

namespace Pal.Spec
open Pal

/-- `v` fits a two's complement integer of `k` bits. -/
def FitsBits (k : Nat) (v : Int) : Prop := -(2 ^ (k - 1)) ≤ v ∧ v < 2 ^ (k - 1)

instance (k : Nat) (v : Int) : Decidable (FitsBits k v) := inferInstanceAs (Decidable (_ ∧ _))

/-- `k` is the smallest positive width that fits the three components. -/
def MinWidth (k : Nat) (x y z : Int) : Prop :=
  0 < k ∧ (FitsBits k x ∧ FitsBits k y ∧ FitsBits k z) ∧
  ∀ j, 0 < j → j < k → ¬ (FitsBits j x ∧ FitsBits j y ∧ FitsBits j z)

/-- Canonical bytes of a scaled packed vector of width `k`: `64 + k`, then the components
sign-extended to whole bytes. -/
def encPacked (k : Nat) (x y z : Int) : Bytes :=
  lit 4 (64 + k) ++ twos ((k + 7) / 8) x ++ twos ((k + 7) / 8) y ++ twos ((k + 7) / 8) z

/-- A value given for a component whose integer part is `t`: an int, or a finite float that
truncates to `t`; magnitude below `2^52`. -/
def Component (v : Val) (t : Int) : Prop :=
  (v = .int t ∧ |(t : ℚ)| < 2 ^ 52) ∨
  ∃ b, v = .float b ∧ Finite64 b ∧ |value64 b| < 2 ^ 52 ∧ IsTrunc (value64 b) t

/-- Canonical bytes of one angle: a zero flag, or flag one and the 16-bit angle. -/
def encAngle (n : Nat) : Bytes := if n = 0 then [0] else [1] ++ lit 2 n

def encRotator (p y r : Nat) : Bytes := encAngle p ++ encAngle y ++ encAngle r

end Pal.Spec
