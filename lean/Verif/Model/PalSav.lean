import Verif.Model.Reader
/-
palsav.py, over an abstract zlib.
-/

namespace Pal

/-- `zlib.compress` and `zlib.decompress` (`none` is `zlib.error`). -/
structure Zlib where
  compress : Bytes → Bytes
  decompress : Bytes → Option Bytes

def zDecompress (z : Zlib) (b : Bytes) : Except Err Bytes :=
  match z.decompress b with
  | some r => .ok r
  | none => .error .zlib

/-- `MAGIC_BYTES` (palsav.py:3) -/
def magicPlZ : Bytes := [0x50, 0x6C, 0x5A]
/-- `b"CNK"` (palsav.py:13) -/
def magicCNK : Bytes := [0x43, 0x4E, 0x4B]

/-- `data[a:b]` -/
def slice (d : Bytes) (a b : Nat) : Bytes := (d.take b).drop a

/-- What follows the parsing of the prefix (palsav.py:19-53): lengths, magic, save type
and offset of the payload are given. -/
def savBody (z : Zlib) (data : Bytes) (ulen clen : Nat) (magic : Bytes) (ty off : Nat) :
    Except Err (Bytes × Nat) :=
  if magic ≠ magicPlZ then
    if magic = [0, 0, 0] ∧ ulen = 0 ∧ clen = 0 then
      .error (.exc "not a compressed Palworld save, found too many null bytes")
    else .error (.exc "not a compressed Palworld save")
  else if ty ≠ 0x30 ∧ ty ≠ 0x31 ∧ ty ≠ 0x32 then .error (.exc "unknown save type")
  else if ty ≠ 0x31 ∧ ty ≠ 0x32 then .error (.exc "unhandled compression type")
  else if ty = 0x31 ∧ (clen : Int) ≠ data.length - off then
    .error (.exc "incorrect compressed length")
  else match zDecompress z (data.drop off) with
    | .error e => .error e
    | .ok u =>
      if ty = 0x32 then
        if clen ≠ u.length then .error (.exc "incorrect compressed length")
        else match zDecompress z u with
          | .error e => .error e
          | .ok w => if ulen ≠ w.length then .error (.exc "incorrect uncompressed length")
            else .ok (w, ty)
      else if ulen ≠ u.length then .error (.exc "incorrect uncompressed length")
      else .ok (u, ty)

/-- `decompress_sav_to_gvas` (palsav.py:6-53). -/
def decompressSav (z : Zlib) (data : Bytes) : Except Err (Bytes × Nat) :=
  match data[11]? with
  | none => .error .index
  | some t =>
    if slice data 8 11 = magicCNK then
      match data[23]? with
      | none => .error .index
      | some t' =>
        savBody z data (leNat (slice data 12 16)) (leNat (slice data 16 20)) (slice data 20 23)
          t'.toNat 24
    else
      savBody z data (leNat (slice data 0 4)) (leNat (slice data 4 8)) (slice data 8 11) t.toNat 12

/-- `n.to_bytes(4, "little")`: OverflowError beyond 32 bits. -/
def len4 (n : Nat) : Except Err Bytes :=
  if n < 2 ^ 32 then .ok (leBytes 4 n) else .error .overflow

/-- `compress_gvas_to_sav` (palsav.py:56-71).  `bytes([save_type])` is a ValueError beyond
one byte. -/
def compressSav (z : Zlib) (data : Bytes) (ty : Nat) : Except Err Bytes :=
  let c := z.compress data
  let body := if ty = 0x32 then z.compress c else c
  match len4 data.length with
  | .error e => .error e
  | .ok u => match len4 c.length with
    | .error e => .error e
    | .ok k =>
      if ty < 256 then .ok (u ++ k ++ magicPlZ ++ [UInt8.ofNat ty] ++ body) else .error .value

end Pal
