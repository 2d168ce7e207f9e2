import Verif.Spec.Prim
/-
The SAV container layout.
-/

namespace Pal.Spec
open Pal

/-- `PlZ` -/
def plz : Bytes := [0x50, 0x6C, 0x5A]
/-- `CNK` -/
def cnk : Bytes := [0x43, 0x4E, 0x4B]

/-- The payload inflates (once for type 0x31, twice for 0x32) to `d`; `n` is the length
that the header must give as compressed length: that of the payload for type 0x31, that
of the once-inflated data for 0x32. -/
def Inflates (inflate : Bytes → Option Bytes) (ty : UInt8) (payload d : Bytes) (n : Nat) : Prop :=
  (ty = 0x31 ∧ inflate payload = some d ∧ n = payload.length) ∨
  (ty = 0x32 ∧ ∃ u, inflate payload = some u ∧ inflate u = some d ∧ n = u.length)

/-- `file` is a SAV container of type `ty` holding `d`: an optional 12-byte prefix whose
bytes 8-10 are `CNK`, then the uncompressed length, the compressed length, `PlZ`, the type
and the payload. -/
def IsSav (inflate : Bytes → Option Bytes) (file d : Bytes) (ty : UInt8) : Prop :=
  ∃ pre payload n,
    (pre = [] ∨ ∃ a x, pre = a ++ cnk ++ [x] ∧ a.length = 8) ∧
    file = pre ++ lit 4 d.length ++ lit 4 n ++ plz ++ [ty] ++ payload ∧
    d.length < 2 ^ 32 ∧ n < 2 ^ 32 ∧ Inflates inflate ty payload d n

end Pal.Spec
