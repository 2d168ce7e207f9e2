import Verif.Model.Reader
/-
`FArchiveWriter` primitives (archive.py:659-798, 971-1079).

A writer call either raises or appends bytes to `self.data`; it is modelled by the
bytes it appends.  `wcat` runs calls one after the other.
-/

namespace Pal

/-- A sequence of writer calls. -/
def wcat : List (Except Err Bytes) → Except Err Bytes
  | [] => .ok []
  | x :: t => match x with
    | .error e => .error e
    | .ok b => match wcat t with
      | .error e => .error e
      | .ok c => .ok (b ++ c)

/-- A writer call on `p["a"]["b"]...`. -/
def wAt (p : Val) (ks : List String) (w : Val → Except Err Bytes) : Except Err Bytes :=
  match p.path (ks.map P) with
  | .ok x => w x
  | .error e => .error e

/-- `struct.pack` with an unsigned `k`-byte format. -/
def wUnsigned (k : Nat) (v : Val) : Except Err Bytes :=
  match v.asInt? with
  | some i => if 0 ≤ i ∧ i < 256 ^ k then .ok (leBytes k i.toNat) else .error .struct
  | none => .error .struct

/-- `struct.pack` with a signed `k`-byte format. -/
def wSigned (k : Nat) (v : Val) : Except Err Bytes :=
  match v.asInt? with
  | some i =>
    if -(256 ^ k) ≤ 2 * i ∧ 2 * i < 256 ^ k then .ok (leBytes k (i % 256 ^ k).toNat)
    else .error .struct
  | none => .error .struct

/-- archive.py:749-765, 780-781 -/
def wI16 : Val → Except Err Bytes := wSigned 2
def wU16 : Val → Except Err Bytes := wUnsigned 2
def wI32 : Val → Except Err Bytes := wSigned 4
def wU32 : Val → Except Err Bytes := wUnsigned 4
def wI64 : Val → Except Err Bytes := wSigned 8
def wU64 : Val → Except Err Bytes := wUnsigned 8
def wU : Val → Except Err Bytes := wUnsigned 1

/-- `byte`: `bytes([b])` (archive.py:777-778). -/
def wByte (v : Val) : Except Err Bytes :=
  match byteOf v with
  | .ok b => .ok [b]
  | .error e => .error e

/-- `bool` (archive.py:729-730). -/
def wBool (v : Val) : Except Err Bytes := .ok [if v.truthy then 1 else 0]

/-- `u32(1 if v else 0)`, the idiom of the rawdata encoders. -/
def wFlag32 (v : Val) : Except Err Bytes := wU32 (.int (if v.truthy then 1 else 0))

/-- `float(v)` conversion done by `struct.pack("f"/"d", v)`, after the `None` test. -/
def asF64 (v : Val) : Except Err (BitVec 64) :=
  match v with
  | .none => .ok nan64
  | .float b => .ok b
  | .int i => match intToF64 i with
    | some b => .ok b
    | none => .error .struct
  | .bool b => match intToF64 (if b then 1 else 0) with
    | some b => .ok b
    | none => .error .struct
  | _ => .error .struct

/-- `float` (archive.py:767-770). -/
def wFloat (v : Val) : Except Err Bytes :=
  match asF64 v with
  | .ok b => .ok (leBytes 4 (f64to32 b).toNat)
  | .error e => .error e

/-- `double` (archive.py:772-775). -/
def wDouble (v : Val) : Except Err Bytes :=
  match asF64 v with
  | .ok b => .ok (leBytes 8 b.toNat)
  | .error e => .error e

/-- Bytes emitted by `fstring` for a `str` argument (archive.py:732-747). -/
def fstringBytes (s : PyStr) : Except Err Bytes :=
  if s = [] then wI32 (.int 0)
  else if isAscii s then
    wcat [wI32 (.int ((asciiEncode s).length + 1)), .ok (asciiEncode s), .ok [0]]
  else
    wcat [wI32 (.int (-((((utf16Encode s).length / 2 : Nat) : Int) + 1))),
      .ok (utf16Encode s), .ok [0, 0]]

/-- `fstring` (archive.py:732-747): anything but a `str` has no usable `isascii` /
`encode`.  The Python return value is the number of bytes emitted. -/
def wFString (v : Val) : Except Err Bytes :=
  match v with
  | .str s => fstringBytes s
  | _ => .error .attr

/-- `guid` / `uuid_writer` (archive.py:659-686, 783-784).  Other types leave `ub`
unbound. -/
def wGuid (v : Val) : Except Err Bytes :=
  match v with
  | .str s => uuidFromStr s
  | .uuid raw => .ok raw
  | _ => .error .unbound

/-- `optional_guid` (archive.py:786-791). -/
def wOptGuid (v : Val) : Except Err Bytes :=
  match v with
  | .none => wBool (.bool false)
  | _ => wcat [wBool (.bool true), wGuid v]

/-- `write` (archive.py:726-727): `BytesIO.write` needs a bytes-like object. -/
def wRaw (v : Val) : Except Err Bytes :=
  match v with
  | .bytes b => .ok b
  | _ => .error .type

/-- `write(bytes(v))`, the idiom of the rawdata encoders. -/
def wBytesOf (v : Val) : Except Err Bytes := toBytes v

/-- `len(v)` then `v[i]` for each index: the calls made by a counted loop. -/
def wItems (w : Val → Except Err Bytes) (l : List Val) : Except Err Bytes :=
  wcat (l.map w)

/-- `tarray` (archive.py:793-798). -/
def wTArray (w : Val → Except Err Bytes) (v : Val) : Except Err Bytes :=
  match v.seqItems with
  | .ok l => wcat [wU32 (.int l.length), wItems w l]
  | .error e => .error e

/-- `instance_id_writer` (archive.py:689-691). -/
def wInstanceId (p : Val) : Except Err Bytes :=
  wcat [wAt p ["guid"] wGuid, wAt p ["instance_id"] wGuid]

/-- `vector_dict` (archive.py:1053-1056). -/
def wVectorDict (p : Val) : Except Err Bytes :=
  wcat [wAt p ["x"] wDouble, wAt p ["y"] wDouble, wAt p ["z"] wDouble]

/-- `quat_dict` (archive.py:1070-1074). -/
def wQuatDict (p : Val) : Except Err Bytes :=
  wcat [wAt p ["x"] wDouble, wAt p ["y"] wDouble, wAt p ["z"] wDouble, wAt p ["w"] wDouble]

/-- `ftransform` (archive.py:1076-1079). -/
def wFTransform (p : Val) : Except Err Bytes :=
  wcat [wAt p ["rotation"] wQuatDict, wAt p ["translation"] wVectorDict,
    wAt p ["scale3d"] wVectorDict]

/-- Python numbers, as far as `packed_vector` uses them. -/
inductive Num where
  | i (n : Int)
  | f (b : BitVec 64)
  deriving DecidableEq, Repr

/-- Operand of `x * scale_factor` followed by `abs`: anything that is not a number
raises TypeError in one of the two. -/
def numOf (v : Val) : Except Err Num :=
  match v with
  | .int i => .ok (.i i)
  | .bool b => .ok (.i (if b then 1 else 0))
  | .float b => .ok (.f b)
  | _ => .error .type

namespace Num

def abs : Num → Num
  | .i n => .i n.natAbs
  | .f b => .f (b &&& 0x7fffffffffffffff#64)

/-- `x * k` for a small positive int `k`. -/
def mulInt (k : Nat) : Num → Num
  | .i n => .i (n * k)
  | .f b => .f (fmul b ((intToF64 k).getD 0))

/-- `n1 * 2^x1 < n2 * 2^x2`. -/
def dyLt (n1 x1 n2 x2 : Int) : Bool :=
  if x2 ≤ x1 then n1 * 2 ^ (x1 - x2).toNat < n2 else n1 < n2 * 2 ^ (x2 - x1).toNat

/-- `a < b` (exact comparison; false if either is NaN). -/
def lt (a b : Num) : Bool :=
  match a, b with
  | .i m, .i n => m < n
  | .f x, .i n =>
    if isNaN64 x then false
    else if isInf64 x then sgn64 x = 1
    else dyLt (num64 x) (scale64 x) n 0
  | .i m, .f y =>
    if isNaN64 y then false
    else if isInf64 y then sgn64 y = 0
    else dyLt m 0 (num64 y) (scale64 y)
  | .f x, .f y =>
    if isNaN64 x || isNaN64 y then false
    else if isInf64 x then sgn64 x = 1 && !(isInf64 y && sgn64 y = 1)
    else if isInf64 y then sgn64 y = 0
    else dyLt (num64 x) (scale64 x) (num64 y) (scale64 y)

/-- `max(a, b, c)`. -/
def max3 (a b c : Num) : Num :=
  let m := if a.lt b then b else a
  if m.lt c then c else m

/-- `min(a, b, c)`. -/
def min3 (a b c : Num) : Num :=
  let m := if b.lt a then b else a
  if c.lt m then c else m

/-- `int(x)`: `unreal_round_float_to_int` (archive.py:991-993). -/
def trunc : Num → Except Err Int
  | .i n => .ok n
  | .f b => match truncF b with
    | some n => .ok n
    | none => .error .value

def toVal : Num → Val
  | .i n => .int n
  | .f b => .float b

end Num

/-- `int.bit_length`. -/
def bitLen (n : Nat) : Nat := if n = 0 then 0 else Nat.log2 n + 1

/-- `unreal_get_bits_needed` with `count_leading_zeroes` (archive.py:995-1002), for
values of magnitude below 2^63: `v ^ (v >> 63)` is `v` or `-v-1`, and the leading
zero count of a non-negative `m` is `64 - bit_length(m)`. -/
def bitsNeeded (v : Int) : Nat :=
  let m : Nat := if v < 0 then (-v - 1).toNat else v.toNat
  65 - (64 - bitLen m)

/-- `serializeint` (archive.py:1004-1007): signed `int.to_bytes`. -/
def wSerializeInt (bits : Nat) (v : Int) : Except Err Bytes :=
  let k := (bits + 7) / 8
  if -(256 ^ k) ≤ 2 * v ∧ 2 * v < 256 ^ k then .ok (leBytes k (v % 256 ^ k).toNat)
  else .error .overflow

/-- `packed_vector` (archive.py:1009-1046). -/
def wPackedVector (scale : Nat) (xv yv zv : Val) : Except Err Bytes := do
  let x ← numOf xv
  let y ← numOf yv
  let z ← numOf zv
  let sx := x.mulInt scale
  let sy := y.mulInt scale
  let sz := z.mulInt scale
  if (Num.max3 sx.abs sy.abs sz.abs).lt (.i (2 ^ 62)) then
    let useScaled := (Num.min3 x.abs y.abs z.abs).lt (.i (2 ^ 52))
    let xi ← (if useScaled then sx else x).trunc
    let yi ← (if useScaled then sy else y).trunc
    let zi ← (if useScaled then sz else z).trunc
    let bits := max (max (bitsNeeded xi) (bitsNeeded yi)) (bitsNeeded zi)
    wcat [wU32 (.int ((if useScaled then 64 else 0) ||| bits : Nat)),
      wSerializeInt bits xi, wSerializeInt bits yi, wSerializeInt bits zi]
  else
    wcat [wU32 (.int 64), wDouble x.toVal, wDouble y.toVal, wDouble z.toVal]

/-- The double `65536.0 / 360.0`. -/
def rotInv : BitVec 64 := intDiv 65536 360

/-- `round(x * (65536.0 / 360.0)) & 0xFFFF` (archive.py:972-974). -/
def shortOf (v : Val) : Except Err Nat :=
  match v with
  | .float b => match roundF (fmul b rotInv) with
    | some i => .ok (i % 65536).toNat
    | none => .error .value
  | .int n => match intToF64 n with
    | some b => match roundF (fmul b rotInv) with
      | some i => .ok (i % 65536).toNat
      | none => .error .value
    | none => .error .overflow
  | .bool t => match intToF64 (if t then 1 else 0) with
    | some b => match roundF (fmul b rotInv) with
      | some i => .ok (i % 65536).toNat
      | none => .error .value
    | none => .error .overflow
  | _ => .error .type

/-- Presence flag and short (archive.py:975-989). -/
def wShortAngle (n : Nat) : Except Err Bytes :=
  if n ≠ 0 then wcat [wBool (.bool true), wU16 (.int n)] else wBool (.bool false)

/-- `compressed_short_rotator` (archive.py:971-989). -/
def wRotator (p y r : Val) : Except Err Bytes := do
  let sp ← shortOf p
  let sy ← shortOf y
  let sr ← shortOf r
  wcat [wShortAngle sp, wShortAngle sy, wShortAngle sr]

end Pal
