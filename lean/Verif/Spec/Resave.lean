import Verif.Model.Reader
/-
What it means that a decoder's results can be encoded again, and that doing so is stable.
`dec` reads one blob, `enc` writes what `dec` returned.
-/

namespace Pal.Spec
open Pal

/-- Every value decoded from a blob below 4 GiB can be encoded. -/
def Encodes (dec : R Val) (enc : Val → Except Err Bytes) : Prop :=
  ∀ s v rest, s.length < 2 ^ 32 → dec s = .ok (v, rest) → ∃ b, enc v = .ok b

/-- Whenever a decoded value is encoded, the bytes decode to the same value with nothing left
over, and are not longer than the blob they come from. -/
def Stable (dec : R Val) (enc : Val → Except Err Bytes) : Prop :=
  ∀ s v rest b, s.length < 2 ^ 32 → dec s = .ok (v, rest) → enc v = .ok b →
    dec b = .ok (v, []) ∧ b.length ≤ s.length

end Pal.Spec
