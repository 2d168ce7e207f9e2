import Verif.Spec.Prim
import Verif.Spec.Float
import Verif.Model.Float
/-
Field types used to describe save files and raw-data blobs, with their stored bytes
and the Python value the tool shows for them.  The bytes are described without the
model's reader and writer; the only model function used is `f32to64`, the widening of
a single-precision number to a double (`Props/Float.lean` is about it).
-/

namespace Pal.Spec
open Pal

/-- How a file is transported: through JSON or only in memory, and the reader's
`allow_nan` (false for `--convert-nan-to-null`). -/
structure Mode where
  json : Bool
  an : Bool

/-- A string that can be stored. -/
abbrev Str := { s : PyStr // StrOk s }

/-- A list whose length fits the 32-bit count. -/
abbrev Lst (α : Type) := { l : List α // l.length < 2 ^ 32 }

/-- Single-precision numbers that the transport preserves: no signalling NaN; only the
canonical NaN through JSON; neither infinity nor (through JSON) NaN when infinities are
turned into null. -/
def F32Ok (m : Mode) (b : BitVec 32) : Prop :=
  ¬ SNaN32 b ∧ (m.an = false → ¬ Inf32 b) ∧ (m.json = true → NaN32 b → m.an = true ∧ b = qnan32)

/-- The same for double precision. -/
def F64Ok (m : Mode) (b : BitVec 64) : Prop :=
  (m.an = false → ¬ Inf64 b) ∧ (m.json = true → NaN64 b → m.an = true ∧ b = qnan64)

abbrev F32 (m : Mode) := { b : BitVec 32 // F32Ok m b }
abbrev F64 (m : Mode) := { b : BitVec 64 // F64Ok m b }

/-! ### Stored bytes -/

def eStr (s : Str) : Bytes := encStr s.val
def eGuid (g : Guid) : Bytes := g.val
def e8 (n : BitVec 8) : Bytes := lit 1 n.toNat
def e16 (n : BitVec 16) : Bytes := lit 2 n.toNat
def e32 (n : BitVec 32) : Bytes := lit 4 n.toNat
def e64 (n : BitVec 64) : Bytes := lit 8 n.toNat
def eF32 {m : Mode} (f : F32 m) : Bytes := lit 4 f.val.toNat
def eF64 {m : Mode} (f : F64 m) : Bytes := lit 8 f.val.toNat
/-- A boolean stored in one byte. -/
def eBool (b : Bool) : Bytes := lit 1 (if b then 1 else 0)
/-- A boolean stored in four bytes. -/
def eFlag (b : Bool) : Bytes := lit 4 (if b then 1 else 0)
/-- A counted list. -/
def eList {α : Type} (e : α → Bytes) (l : Lst α) : Bytes := lit 4 l.val.length ++ l.val.flatMap e
/-- A presence byte and, if it is one, a GUID. -/
def eOptGuid : Option Guid → Bytes
  | none => [0]
  | some g => [1] ++ g.val

/-! ### Python values -/

def vStr (s : Str) : Val := .str s.val
def vGuid (g : Guid) : Val := .uuid g.val
/-- Unsigned and signed readings of the same bits. -/
def vU {w : Nat} (n : BitVec w) : Val := .int n.toNat
def vI {w : Nat} (n : BitVec w) : Val := .int n.toInt
def vF32 {m : Mode} (f : F32 m) : Val := .float (f32to64 f.val)
def vF64 {m : Mode} (f : F64 m) : Val := .float f.val
def vBool (b : Bool) : Val := .bool b
def vList {α : Type} (v : α → Val) (l : Lst α) : Val := .list (l.val.map v)
def vOptGuid : Option Guid → Val
  | none => .none
  | some g => .uuid g.val
/-- Raw bytes shown as a list / tuple of integers. -/
def vBytesL (b : Bytes) : Val := .list (b.map fun x => .int x.toNat)
def vBytesT (b : Bytes) : Val := .tuple (b.map fun x => .int x.toNat)
/-- A dict with constant keys. -/
def vDict (l : List (String × Val)) : Val := .dict (l.map fun kv => (P kv.1, kv.2))

/-! ### Composite fields used in several places -/

structure Vec (m : Mode) where
  x : F64 m
  y : F64 m
  z : F64 m

structure Quat (m : Mode) where
  x : F64 m
  y : F64 m
  z : F64 m
  w : F64 m

structure Transform (m : Mode) where
  rotation : Quat m
  translation : Vec m
  scale : Vec m

variable {m : Mode}

def eVec (v : Vec m) : Bytes := eF64 v.x ++ eF64 v.y ++ eF64 v.z
def vVec (v : Vec m) : Val := vDict [("x", vF64 v.x), ("y", vF64 v.y), ("z", vF64 v.z)]
def eQuat (q : Quat m) : Bytes := eF64 q.x ++ eF64 q.y ++ eF64 q.z ++ eF64 q.w
def vQuat (q : Quat m) : Val :=
  vDict [("x", vF64 q.x), ("y", vF64 q.y), ("z", vF64 q.z), ("w", vF64 q.w)]
def eTransform (t : Transform m) : Bytes := eQuat t.rotation ++ eVec t.translation ++ eVec t.scale
def vTransform (t : Transform m) : Val :=
  vDict [("rotation", vQuat t.rotation), ("translation", vVec t.translation), ("scale3d", vVec t.scale)]

/-! ### Values that JSON transports without loss -/

/-- A double that JSON transports: with `allow_nan` everything but non-canonical NaNs,
without it only finite numbers. -/
def JFloat (an : Bool) (b : BitVec 64) : Prop :=
  (NaN64 b → an = true ∧ b = qnan64) ∧ (Inf64 b → an = true)

def NoTuple : Val → Prop
  | .tuple _ => False
  | _ => True

mutual
/-- No bytes objects, UUIDs of sixteen bytes, strings without split surrogate pairs,
transportable floats, dicts with distinct keys, no tuple directly under the key "value"
(JSON makes tuples lists, and lists are not hashable). -/
def JOk (an : Bool) : Val → Prop
  | .none => True
  | .bool _ => True
  | .int _ => True
  | .float b => JFloat an b
  | .str s => Normal s
  | .bytes _ => False
  | .uuid raw => raw.length = 16
  | .list l => JOkL an l
  | .tuple l => JOkL an l
  | .dict d => (d.map Prod.fst).Nodup ∧ JOkD an d
def JOkL (an : Bool) : List Val → Prop
  | [] => True
  | v :: t => JOk an v ∧ JOkL an t
def JOkD (an : Bool) : List (PyStr × Val) → Prop
  | [] => True
  | (k, v) :: t => Normal k ∧ (k = P "value" → NoTuple v) ∧ JOk an v ∧ JOkD an t
end

end Pal.Spec
