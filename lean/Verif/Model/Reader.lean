import Verif.Model.Py
import Verif.Model.Float
import Verif.Model.Str
import Verif.Model.Uuid
/-
`FArchiveReader` primitives (archive.py:211-376, 587-656).

A reader is a function of the bytes that remain after the current position of
`self.data`; `BytesIO.read(n)` returns at most `n` bytes and never fails.
`seek` back to a saved position is modelled by restoring the saved remaining
bytes.
-/

namespace Pal

abbrev R (α : Type) := Bytes → Except Err (α × Bytes)

namespace R
def pure {α : Type} (a : α) : R α := fun s => .ok (a, s)
def bind {α β : Type} (x : R α) (f : α → R β) : R β := fun s =>
  match x s with
  | .ok (a, s') => f a s'
  | .error e => .error e
end R

instance : Monad R where
  pure := R.pure
  bind := R.bind

/-- `raise`. -/
def rFail {α : Type} (e : Err) : R α := fun _ => .error e

/-- Lift a computation that does not touch the stream. -/
def rLift {α : Type} (x : Except Err α) : R α := fun s =>
  match x with
  | .ok a => .ok (a, s)
  | .error e => .error e

/-- `try: x except Exception as e: seek(start); h(e)`.  The model's `fuel` marker is
not an exception. -/
def rTry {α : Type} (x : R α) (h : Err → R α) : R α := fun s =>
  match x s with
  | .ok r => .ok r
  | .error .fuel => .error .fuel
  | .error e => h e s

/-- Value of little-endian bytes (`int.from_bytes(b, "little")`). -/
def leNat : Bytes → Nat
  | [] => 0
  | b :: t => b.toNat + 256 * leNat t

/-- `k` little-endian bytes of `n`. -/
def leBytes : Nat → Nat → Bytes
  | 0, _ => []
  | k + 1, n => UInt8.ofNat (n % 256) :: leBytes k (n / 256)

/-- `read` (archive.py:259-260). -/
def rRead (n : Nat) : R Bytes := fun s => .ok (s.take n, s.drop n)

/-- `read_to_end` (archive.py:262-263). -/
def rReadToEnd : R Bytes := fun s => .ok (s, [])

/-- `eof` (archive.py:256-257). -/
def rEof : R Bool := fun s => .ok (s.isEmpty, s)

/-- `reader.size - reader.data.tell()` (dynamic_item.py:34). -/
def rRemaining : R Nat := fun s => .ok (s.length, s)

/-- `if not reader.eof(): raise Exception("Warning: EOF not reached")`, the idiom at
the end of the rawdata decoders. -/
def rCheckEof : R Unit := fun s =>
  match s with
  | [] => .ok ((), [])
  | _ :: _ => .error (.exc "Warning: EOF not reached")

/-- The same test with the message "Warning: EOF not reached for ..." (work.py:124-127,
map_concrete_model_module.py:68-69, map_concrete_model.py:440-443). -/
def rCheckEofFor : R Unit := fun s =>
  match s with
  | [] => .ok ((), [])
  | _ :: _ => .error (.exc "Warning: EOF not reached for")

/-- `struct.Struct(fmt).unpack(self.data.read(k))` for an unsigned `k`-byte format:
`struct.error` unless exactly `k` bytes were read. -/
def rUnsigned (k : Nat) : R Nat := fun s =>
  if k ≤ s.length then .ok (leNat (s.take k), s.drop k) else .error .struct

/-- The same for the signed formats "h", "i", "q". -/
def rSigned (k : Nat) : R Int := fun s =>
  if k ≤ s.length then
    let n := leNat (s.take k)
    .ok (if 2 * n < 256 ^ k then (n : Int) else (n : Int) - 256 ^ k, s.drop k)
  else .error .struct

/-- archive.py:300-328, 350-353 -/
def rI16 : R Int := rSigned 2
def rU16 : R Nat := rUnsigned 2
def rI32 : R Int := rSigned 4
def rU32 : R Nat := rUnsigned 4
def rI64 : R Int := rSigned 8
def rU64 : R Nat := rUnsigned 8
def rByte : R Nat := rUnsigned 1

/-- `bool` (archive.py:265-266). -/
def rBool : R Bool := do
  let b ← rByte
  return decide (b > 0)

/-- Result of `float()`/`double()` when `allow_nan` is false (archive.py:334-338,
344-348): `val == math.nan` is always false, infinities give None. -/
def floatVal (an : Bool) (b : BitVec 64) : Val :=
  if an then .float b
  else if isInf64 b then .none
  else .float b

/-- `float` (archive.py:330-338). -/
def rFloat (an : Bool) : R Val := do
  let n ← rUnsigned 4
  return floatVal an (f32to64 (BitVec.ofNat 32 n))

/-- `double` (archive.py:340-348). -/
def rDouble (an : Bool) : R Val := do
  let n ← rUnsigned 8
  return floatVal an (BitVec.ofNat 64 n)

/-- `byte_list` (archive.py:355-356): a tuple; `struct.error` on a short read. -/
def rByteList (n : Nat) : R Val := fun s =>
  if n ≤ s.length then .ok (.tuple ((s.take n).map fun b => .int b.toNat), s.drop n)
  else .error .struct

/-- `guid` (archive.py:361-363): no length check. -/
def rGuid : R Val := do
  let b ← rRead 16
  return .uuid b

/-- `optional_guid` (archive.py:365-369): `read(1)[0]` raises IndexError at EOF. -/
def rOptGuid : R Val := do
  let b ← rRead 1
  match b with
  | [] => rFail .index
  | x :: _ => if x = 0 then return .none else rGuid

/-- `uuid_reader` (archive.py:204-208). -/
def rUuid : R Val := do
  let b ← rRead 16
  if b.length ≠ 16 then rFail (.exc "could not read 16 bytes for uuid")
  else return .uuid b

/-- `fstring` (archive.py:268-298). -/
def rFString : R PyStr := do
  let size ← rI32
  if size = 0 then return []
  else if size < 0 then
    let data ← rRead (2 * size.natAbs)
    match utf16Decode (data.take (data.length - 2)) with
    | some s => return s
    | none => rFail (.exc "Error decoding utf-16-le string")
  else
    let data ← rRead size.natAbs
    match asciiDecode (data.take (data.length - 1)) with
    | some s => return s
    | none => rFail (.exc "Error decoding ascii string")

/-- `fstring` as a value. -/
def rStr : R Val := do
  let s ← rFString
  return .str s

/-- `n` successive reads, the body of `tarray` and of the other counted loops. -/
def rRepeat {α : Type} (x : R α) : Nat → R (List α)
  | 0 => pure []
  | n + 1 => do
    let a ← x
    let l ← rRepeat x n
    return a :: l

/-- `tarray` (archive.py:371-376). -/
def rTArray (x : R Val) : R Val := do
  let n ← rU32
  let l ← rRepeat x n
  return .list l

/-- Dict literal with constant keys. -/
def dct (l : List (String × Val)) : Val := .dict (l.map fun kv => (P kv.1, kv.2))

/-- `instance_id_reader` (archive.py:197-201). -/
def rInstanceId : R Val := do
  let g ← rGuid
  let i ← rGuid
  return dct [("guid", g), ("instance_id", i)]

/-- `vector_dict` (archive.py:631-636). -/
def rVectorDict (an : Bool) : R Val := do
  let x ← rDouble an
  let y ← rDouble an
  let z ← rDouble an
  return dct [("x", x), ("y", y), ("z", z)]

/-- `quat_dict` (archive.py:643-649). -/
def rQuatDict (an : Bool) : R Val := do
  let x ← rDouble an
  let y ← rDouble an
  let z ← rDouble an
  let w ← rDouble an
  return dct [("x", x), ("y", y), ("z", z), ("w", w)]

/-- `ftransform` (archive.py:651-656). -/
def rFTransform (an : Bool) : R Val := do
  let r ← rQuatDict an
  let t ← rVectorDict an
  let s ← rVectorDict an
  return dct [("rotation", r), ("translation", t), ("scale3d", s)]

/-- The double `360.0 / 65536.0`. -/
def rotStep : BitVec 64 := intDiv 360 65536

/-- One component of `compressed_short_rotator` (archive.py:587-594):
`(u16() if bool() else 0) * (360.0 / 65536.0)`. -/
def rShortAngle : R Nat := do
  let b ← rBool
  if b then rU16 else return 0

/-- `n * (360.0/65536.0)` for a short. -/
def angleOf (n : Nat) : BitVec 64 := fmul ((intToF64 n).getD 0) rotStep

/-- `compressed_short_rotator` (archive.py:587-594). -/
def rRotator : R (Val × Val × Val) := do
  let p ← rShortAngle
  let y ← rShortAngle
  let r ← rShortAngle
  return (.float (angleOf p), .float (angleOf y), .float (angleOf r))

/-- Mask the last byte: `b[-1] &= m` (IndexError on an empty bytearray). -/
def maskLast (m : Nat) : Bytes → Except Err Bytes
  | [] => .error .index
  | [b] => .ok [UInt8.ofNat (b.toNat &&& m)]
  | b :: c :: t => match maskLast m (c :: t) with
    | .ok r => .ok (b :: r)
    | .error e => .error e

/-- `serializeint` (archive.py:596-601). -/
def rSerializeInt (bits : Nat) : R Nat := do
  let b ← rRead ((bits + 7) / 8)
  if bits % 8 ≠ 0 then
    let b' ← rLift (maskLast (2 ^ (bits % 8) - 1) b)
    return leNat b'
  else return leNat b

/-- Sign extension `(x & (sign_bit - 1)) - (x & sign_bit)` (archive.py:613-616). -/
def signExtend (bits x : Nat) : Int :=
  ((x &&& (2 ^ (bits - 1) - 1) : Nat) : Int) - ((x &&& 2 ^ (bits - 1) : Nat) : Int)

/-- `packed_vector` (archive.py:603-629). -/
def rPackedVector (an : Bool) (scale : Nat) : R (Val × Val × Val) := do
  let info ← rU32
  let bits := info &&& 63
  let extra := info >>> 6
  if bits > 0 then
    let x ← rSerializeInt bits
    let y ← rSerializeInt bits
    let z ← rSerializeInt bits
    let x := signExtend bits x
    let y := signExtend bits y
    let z := signExtend bits z
    if extra ≠ 0 then
      return (.float (intDiv x scale), .float (intDiv y scale), .float (intDiv z scale))
    else return (.int x, .int y, .int z)
  else if extra ≠ 0 then
    let x ← rDouble an
    let y ← rDouble an
    let z ← rDouble an
    return (x, y, z)
  else
    let x ← rFloat an
    let y ← rFloat an
    let z ← rFloat an
    return (x, y, z)

end Pal
