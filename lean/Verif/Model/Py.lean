/-
Python values, exceptions and the small part of the Python data model that
palworld_save_tools relies on.  No file of /repo is modelled here; the
definitions describe CPython behaviour used by the code in /repo and each
comment says where that behaviour is used.
-/

namespace Pal

/-- A Python `bytes` value. -/
abbrev Bytes := List UInt8

/-- A Python `str`: the list of its code points.  Lone surrogates (0xD800-0xDFFF)
are allowed, as in Python.  Code points are at most 0x10FFFF in real strings; the
model does not enforce this in the type (`ValidStr` in the specification does). -/
abbrev PyStr := List Nat

/-- String literals of the Python source. -/
def P (s : String) : PyStr := s.toList.map Char.toNat

/-- Python exceptions.  `exc m` is `raise Exception(m)` from the project's own code
(f-string arguments are dropped from `m`), the others are the exception classes
raised by the interpreter and the standard library.  `fuel` is not a Python
exception: it marks the exhaustion of the recursion budget of the model and is
never caught; `Verif/Props/Termination.lean` shows it never occurs at top level. -/
inductive Err where
  | exc (m : String)
  | struct | index | key | type | value | overflow | attr | unicode | unbound | zlib | os | eof
  | exit (code : Nat)
  | fuel
  deriving DecidableEq, Repr

/-- Python values that occur in property trees.  `float` holds the IEEE-754
binary64 bit pattern; `uuid` holds the `raw_bytes` of `archive.UUID`
(archive.py:22-107); dicts have `str` keys and keep insertion order. -/
inductive Val where
  | none
  | bool (b : Bool)
  | int (i : Int)
  | float (bits : BitVec 64)
  | str (s : PyStr)
  | bytes (b : Bytes)
  | uuid (raw : Bytes)
  | list (l : List Val)
  | tuple (l : List Val)
  | dict (d : List (PyStr × Val))
  deriving Repr

abbrev Dict := List (PyStr × Val)

/-- `d[k]` on the underlying association list. -/
def dget? (d : Dict) (k : PyStr) : Option Val :=
  match d with
  | [] => Option.none
  | (k', v) :: t => if k' = k then some v else dget? t k

/-- `d[k] = v`: replaces the value in place or appends a new key at the end. -/
def dset (d : Dict) (k : PyStr) (v : Val) : Dict :=
  match d with
  | [] => [(k, v)]
  | (k', v') :: t => if k' = k then (k', v) :: t else (k', v') :: dset t k v

/-- `del d[k]` (the caller checks presence).  Keys are unique, so at most one entry goes. -/
def derase (d : Dict) (k : PyStr) : Dict :=
  match d with
  | [] => []
  | (k', v') :: t => if k' = k then derase t k else (k', v') :: derase t k

/-- `d |= e` / `d.update(e)`. -/
def dupdate (d e : Dict) : Dict :=
  match e with
  | [] => d
  | (k, v) :: t => dupdate (dset d k v) t

namespace Val

/-- `v["k"]` with a string key: dict lookup, `TypeError` on anything else. -/
def get (v : Val) (k : PyStr) : Except Err Val :=
  match v with
  | .dict d => match dget? d k with
    | some x => .ok x
    | Option.none => .error .key
  | _ => .error .type

/-- `v.get("k", None)`: only dicts have this method. -/
def getD (v : Val) (k : PyStr) : Except Err Val :=
  match v with
  | .dict d => match dget? d k with
    | some x => .ok x
    | Option.none => .ok .none
  | _ => .error .attr

/-- `v["a"]["b"]...` -/
def path (v : Val) : List PyStr → Except Err Val
  | [] => .ok v
  | k :: ks => match v.get k with
    | .ok x => x.path ks
    | .error e => .error e

/-- `v["k"] = x`. -/
def set (v : Val) (k : PyStr) (x : Val) : Except Err Val :=
  match v with
  | .dict d => .ok (.dict (dset d k x))
  | _ => .error .type

/-- `del v["k"]`. -/
def del (v : Val) (k : PyStr) : Except Err Val :=
  match v with
  | .dict d => match dget? d k with
    | some _ => .ok (.dict (derase d k))
    | Option.none => .error .key
  | _ => .error .type

/-- In-place update of the object reached by `v["a"]["b"]...`: the pattern
`v["a"]["b"]["c"] = f(v["a"]["b"]["c"])` of the rawdata modules.  Every key on
the way must exist (the right-hand side reads it first). -/
def upd (f : Val → Except Err Val) : List PyStr → Val → Except Err Val
  | [], v => f v
  | k :: ks, v => match v.get k with
    | .ok x => match upd f ks x with
      | .ok x' => v.set k x'
      | .error e => .error e
    | .error e => .error e

/-- `s in t` for strings. -/
def isSubstr (s : PyStr) : PyStr → Bool
  | [] => s.isEmpty
  | c :: t => s.isPrefixOf (c :: t) || isSubstr s t

/-- `"k" in v`: key of a dict, substring of a str, element of a list or tuple
(an element that is a UUID never equals one of the literals used in /repo). -/
def contains (v : Val) (k : PyStr) : Except Err Bool :=
  match v with
  | .dict d => .ok (dget? d k).isSome
  | .str s => .ok (isSubstr k s)
  | .list l | .tuple l => .ok (l.any fun
      | .str s => s = k
      | _ => false)
  | _ => .error .type

/-- Elements `v[0], ..., v[len(v)-1]` of an indexable value, as used by
`for i in range(len(v)): ... v[i]`.  A non-empty dict has no key `0`. -/
def seqItems (v : Val) : Except Err (List Val) :=
  match v with
  | .list l | .tuple l => .ok l
  | .bytes b => .ok (b.map fun x => .int x.toNat)
  | .str s => .ok (s.map fun c => .str [c])
  | .dict [] => .ok []
  | .dict (_ :: _) => .error .key
  | _ => .error .type

/-- Elements produced by `for x in v`. -/
def iterItems (v : Val) : Except Err (List Val) :=
  match v with
  | .list l | .tuple l => .ok l
  | .bytes b => .ok (b.map fun x => .int x.toNat)
  | .str s => .ok (s.map fun c => .str [c])
  | .dict d => .ok (d.map fun kv => .str kv.1)
  | _ => .error .type

/-- `len(v)`. -/
def len (v : Val) : Except Err Nat :=
  match v with
  | .list l | .tuple l => .ok l.length
  | .bytes b => .ok b.length
  | .str s => .ok s.length
  | .dict d => .ok d.length
  | _ => .error .type

/-- Truth value, as used by `struct.pack("?", v)` and `1 if v else 0`. -/
def truthy (v : Val) : Bool :=
  match v with
  | .none => false
  | .bool b => b
  | .int i => i ≠ 0
  | .float b => b &&& 0x7fffffffffffffff#64 ≠ 0
  | .str s => !s.isEmpty
  | .bytes b => !b.isEmpty
  | .uuid _ => true
  | .list l | .tuple l => !l.isEmpty
  | .dict d => !d.isEmpty

/-- `operator.index(v)`: int or bool. -/
def asInt? (v : Val) : Option Int :=
  match v with
  | .int i => some i
  | .bool b => some (if b then 1 else 0)
  | _ => Option.none

end Val

/-- `[f(x) for x in l]` with exceptions. -/
def mapE {α β : Type} (f : α → Except Err β) : List α → Except Err (List β)
  | [] => .ok []
  | a :: t => match f a with
    | .ok b => match mapE f t with
      | .ok bs => .ok (b :: bs)
      | .error e => .error e
    | .error e => .error e

/-- One element of an iterable passed to `bytes(...)`. -/
def byteOf (v : Val) : Except Err UInt8 :=
  match v.asInt? with
  | some i => if 0 ≤ i ∧ i < 256 then .ok (UInt8.ofNat i.toNat) else .error .value
  | Option.none => .error .type

/-- The `bytes(v)` constructor: a count for ints, a copy for bytes, the elements of
an iterable of ints otherwise. -/
def toBytes (v : Val) : Except Err Bytes :=
  match v with
  | .bytes b => .ok b
  | .int i => if 0 ≤ i then .ok (List.replicate i.toNat 0) else .error .value
  | .bool b => .ok (List.replicate (if b then 1 else 0) 0)
  | .list l | .tuple l => mapE byteOf l
  | .dict [] => .ok []
  | .dict (_ :: _) => .error .type
  | _ => .error .type

/-- In-place loop `for x in v: <mutate x>`, where the elements are dicts.  For an
iterable whose elements are not mutable (str, bytes, dict keys) the first
subscript inside the body raises, so only the empty ones succeed. -/
def forEach (f : Val → Except Err Val) (v : Val) : Except Err Val :=
  match v with
  | .list l => match mapE f l with
    | .ok l' => .ok (.list l')
    | .error e => .error e
  | .tuple l => match mapE f l with
    | .ok l' => .ok (.tuple l')
    | .error e => .error e
  | .bytes [] | .str [] | .dict [] => .ok v
  | _ => .error .type

end Pal
