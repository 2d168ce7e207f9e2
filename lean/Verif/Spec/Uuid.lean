import Verif.Spec.Prim
/-
The text form of a UUID and its standard-library integer value, described byte by
byte.
-/

namespace Pal.Spec
open Pal

/-- Lower-case hexadecimal digits. -/
def digits : List Nat := P "0123456789abcdef"

/-- A byte as two hexadecimal digits. -/
def hex2 (b : UInt8) : PyStr := [digits.getD (b.toNat / 16) 0, digits.getD (b.toNat % 16) 0]

/-- Order in which the sixteen raw bytes are printed: four little-endian 32-bit words. -/
def printOrder (raw : Bytes) : Bytes :=
  [3, 2, 1, 0, 7, 6, 5, 4, 11, 10, 9, 8, 15, 14, 13, 12].map fun i => raw.getD i 0

/-- The 32 hexadecimal digits of a UUID. -/
def hexText (raw : Bytes) : PyStr := (printOrder raw).flatMap hex2

/-- `8-4-4-4-12` text. -/
def uuidText (raw : Bytes) : PyStr :=
  let h := hexText raw
  h.take 8 ++ [45] ++ (h.drop 8).take 4 ++ [45] ++ (h.drop 12).take 4 ++ [45] ++
    (h.drop 16).take 4 ++ [45] ++ h.drop 20

/-- Big-endian value of a byte string. -/
def beVal (b : Bytes) : Nat := b.foldl (fun a x => a * 256 + x.toNat) 0

end Pal.Spec
