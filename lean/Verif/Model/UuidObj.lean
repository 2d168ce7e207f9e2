import Verif.Model.Uuid
/-
`archive.UUID` as an object with state: the text and the standard UUID are computed when
first needed and kept (archive.py:25-33, 61-107).
-/

namespace Pal

/-- A UUID object with its three slots (archive.py:25-28). -/
structure UuidObj where
  raw : Bytes
  parsedUuid : Option Nat
  parsedStr : Option PyStr

/-- `UUID.__init__` (archive.py:30-33). -/
def UuidObj.new (raw : Bytes) : UuidObj := ⟨raw, none, none⟩

/-- `UUID.__str__` (archive.py:61-72): `not self.parsed_str` holds for None and for "". -/
def UuidObj.str (o : UuidObj) : Except Err PyStr × UuidObj :=
  match o.parsedStr with
  | some (c :: t) => (.ok (c :: t), o)
  | _ => match uuidStr o.raw with
    | .ok t => (.ok t, { o with parsedStr := some t })
    | .error e => (.error e, o)

/-- `UUID.UUID` (archive.py:74-96): a `uuid.UUID` is always true, so `not` tests for None. -/
def UuidObj.std (o : UuidObj) : Except Err Nat × UuidObj :=
  match o.parsedUuid with
  | some n => (.ok n, o)
  | none => match uuidInt o.raw with
    | .ok n => (.ok n, { o with parsedUuid := some n })
    | .error e => (.error e, o)

/-- `UUID.__eq__` with another UUID (archive.py:98-100). -/
def UuidObj.eq (a b : UuidObj) : Bool := a.raw = b.raw

/-- `UUID.__eq__` with something else, given its text (archive.py:101). -/
def UuidObj.eqText (o : UuidObj) (s : PyStr) : Except Err Bool × UuidObj :=
  match o.str with
  | (.ok t, o') => (.ok (t = s), o')
  | (.error e, o') => (.error e, o')

/-- `UUID.__hash__` (archive.py:106-107). -/
def UuidObj.hash (h : PyStr → Int) (o : UuidObj) : Except Err Int × UuidObj :=
  match o.str with
  | (.ok t, o') => (.ok (h t), o')
  | (.error e, o') => (.error e, o')

/-- One use of the class by a program that holds any number of objects, numbered in the
order of their creation. -/
inductive UuidOp where
  | new (raw : Bytes)
  | str (i : Nat)
  | std (i : Nat)
  | eq (i j : Nat)
  | eqText (i : Nat) (s : PyStr)
  | hash (i : Nat)

/-- What the program sees. -/
inductive UuidObs where
  | done
  | text (x : Except Err PyStr)
  | num (x : Except Err Nat)
  | bool (x : Except Err Bool)
  | code (x : Except Err Int)

/-- One use, on the objects created so far. -/
def UuidOp.run (h : PyStr → Int) (pool : List UuidObj) : UuidOp → UuidObs × List UuidObj
  | .new raw => (.done, pool ++ [UuidObj.new raw])
  | .str i => match pool[i]? with
    | none => (.done, pool)
    | some o => (.text o.str.1, pool.set i o.str.2)
  | .std i => match pool[i]? with
    | none => (.done, pool)
    | some o => (.num o.std.1, pool.set i o.std.2)
  | .eq i j => match pool[i]?, pool[j]? with
    | some a, some b => (.bool (.ok (a.eq b)), pool)
    | _, _ => (.done, pool)
  | .eqText i s => match pool[i]? with
    | none => (.done, pool)
    | some o => (.bool (o.eqText s).1, pool.set i (o.eqText s).2)
  | .hash i => match pool[i]? with
    | none => (.done, pool)
    | some o => (.code (o.hash h).1, pool.set i (o.hash h).2)

/-- All observations of a program. -/
def uuidRun (h : PyStr → Int) : List UuidObj → List UuidOp → List UuidObs
  | _, [] => []
  | pool, op :: t => (op.run h pool).1 :: uuidRun h (op.run h pool).2 t

end Pal
