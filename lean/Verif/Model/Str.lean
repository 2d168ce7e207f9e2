import Verif.Model.Py
/-
String encodings used by `FArchiveReader.fstring` / `FArchiveWriter.fstring`
(archive.py:268-298, 732-747): Python's "ascii" and "utf-16-le" codecs with the
"surrogatepass" error handler.
-/

namespace Pal

/-- UTF-16 code units of a string; `surrogatepass` lets surrogates through as
themselves. -/
def utf16Units : PyStr → List Nat
  | [] => []
  | c :: t =>
    if c < 0x10000 then c :: utf16Units t
    else (0xD800 + (c - 0x10000) / 0x400) :: (0xDC00 + (c - 0x10000) % 0x400) :: utf16Units t

/-- Little-endian bytes of the units. -/
def unitsToBytes : List Nat → Bytes
  | [] => []
  | u :: t => UInt8.ofNat (u % 256) :: UInt8.ofNat (u / 256 % 256) :: unitsToBytes t

/-- `s.encode("utf-16-le", errors="surrogatepass")`. -/
def utf16Encode (s : PyStr) : Bytes := unitsToBytes (utf16Units s)

def isHi (u : Nat) : Bool := 0xD800 ≤ u ∧ u < 0xDC00
def isLo (u : Nat) : Bool := 0xDC00 ≤ u ∧ u < 0xE000

/-- Units back to code points: surrogate pairs combine, lone ones are kept
(strict decoding gives the same result whenever it succeeds). -/
def joinUnits : List Nat → PyStr
  | [] => []
  | [u] => [u]
  | u :: v :: t =>
    if isHi u && isLo v then (0x10000 + (u - 0xD800) * 0x400 + (v - 0xDC00)) :: joinUnits t
    else u :: joinUnits (v :: t)

/-- Bytes to units; an odd length is "truncated data". -/
def bytesToUnits : Bytes → Option (List Nat)
  | [] => some []
  | [_] => none
  | a :: b :: t => (bytesToUnits t).map fun us => (a.toNat + 256 * b.toNat) :: us

/-- `data.decode("utf-16-le")`, falling back to `errors="surrogatepass"`
(archive.py:286-298). -/
def utf16Decode (b : Bytes) : Option PyStr := (bytesToUnits b).map joinUnits

/-- `data.decode("ascii")`; `surrogatepass` does not help for ascii. -/
def asciiDecode (b : Bytes) : Option PyStr :=
  if b.all (fun x => x.toNat < 128) then some (b.map UInt8.toNat) else none

/-- `s.isascii()`. -/
def isAscii (s : PyStr) : Bool := s.all (fun c => c < 128)

/-- `s.encode("ascii")` for an ascii string. -/
def asciiEncode (s : PyStr) : Bytes := s.map UInt8.ofNat

end Pal
