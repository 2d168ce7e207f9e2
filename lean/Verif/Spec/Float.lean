import Verif.Model.Py
/-
IEEE 754 interchange formats, as far as the specification needs them.
-/

namespace Pal.Spec

/-- binary32: all exponent bits set. -/
def Special32 (b : BitVec 32) : Prop := b.toNat / 2 ^ 23 % 2 ^ 8 = 255
def NaN32 (b : BitVec 32) : Prop := Special32 b ∧ b.toNat % 2 ^ 23 ≠ 0
/-- The top fraction bit of a signalling NaN is clear. -/
def SNaN32 (b : BitVec 32) : Prop := NaN32 b ∧ b.toNat % 2 ^ 23 < 2 ^ 22
def Inf32 (b : BitVec 32) : Prop := Special32 b ∧ b.toNat % 2 ^ 23 = 0
/-- The quiet NaN with positive sign and empty payload. -/
def qnan32 : BitVec 32 := 0x7fc00000#32

/-- binary64: all exponent bits set. -/
def Special64 (b : BitVec 64) : Prop := b.toNat / 2 ^ 52 % 2 ^ 11 = 2047
def NaN64 (b : BitVec 64) : Prop := Special64 b ∧ b.toNat % 2 ^ 52 ≠ 0
def Inf64 (b : BitVec 64) : Prop := Special64 b ∧ b.toNat % 2 ^ 52 = 0
def qnan64 : BitVec 64 := 0x7ff8000000000000#64

instance (b : BitVec 32) : Decidable (NaN32 b) := inferInstanceAs (Decidable (_ = _ ∧ _ ≠ _))
instance (b : BitVec 32) : Decidable (Inf32 b) := inferInstanceAs (Decidable (_ = _ ∧ _ = _))
instance (b : BitVec 64) : Decidable (NaN64 b) := inferInstanceAs (Decidable (_ = _ ∧ _ ≠ _))
instance (b : BitVec 64) : Decidable (Inf64 b) := inferInstanceAs (Decidable (_ = _ ∧ _ = _))
instance (b : BitVec 32) : Decidable (SNaN32 b) := inferInstanceAs (Decidable (_ ∧ _ < _))

end Pal.Spec
