import Verif.Model.Codec
/-
The property parser and writer (archive.py:249-254, 378-585, 800-969).

The Python methods are mutually recursive.  Here the non-recursive parts take the
recursive call as an argument: `rec path` is `self.properties_until_end(path)`, `recW v`
is `self.properties(v)`.  `rPropsLoop` and `wProps` tie the knot with a budget that
decreases at each recursive call; Verif/Props/Termination.lean shows that the budget
used by `Gvas.lean` never runs out and that a larger one gives the same result.
-/

namespace Pal

/-- The parameters of a reader: `type_hints`, `custom_properties`, `allow_nan`
(archive.py:218-231).  A writer only has `custom_properties` (archive.py:700-707). -/
structure Cfg where
  hint : PyStr → Option PyStr
  custom : PyStr → Option CodecId
  allowNan : Bool

/-- `FArchiveWriter()` (archive.py:700-707): no custom properties. -/
def Cfg.empty : Cfg := ⟨fun _ => none, fun _ => none, true⟩

def dot : PyStr := P "."

/-! ### Reader -/

/-- `get_type_or` (archive.py:249-254); the print is dropped. -/
def getTypeOr (cfg : Cfg) (path dflt : PyStr) : PyStr := (cfg.hint path).getD dflt

/-- `struct_value` (archive.py:518-537). -/
def rStructValue (an : Bool) (rec : PyStr → R Val) (st path : PyStr) : R Val :=
  if st = P "Vector" then rVectorDict an
  else if st = P "DateTime" then do
    let n ← rU64
    return .int n
  else if st = P "Guid" then rGuid
  else if st = P "Quat" then rQuatDict an
  else if st = P "LinearColor" then do
    let r ← rFloat an
    let g ← rFloat an
    let b ← rFloat an
    let a ← rFloat an
    return dct [("r", r), ("g", g), ("b", b), ("a", a)]
  else rec path

/-- `struct` (archive.py:506-516). -/
def rStruct (an : Bool) (rec : PyStr → R Val) (path : PyStr) : R Val := do
  let st ← rFString
  let sid ← rGuid
  let id ← rOptGuid
  let v ← rStructValue an rec st path
  return dct [("struct_type", .str st), ("struct_id", sid), ("id", id), ("value", v)]

/-- `prop_value` (archive.py:492-504).  `struct_type_name` is only used, and only not
None, when the type is StructProperty. -/
def rPropValue (an : Bool) (rec : PyStr → R Val) (ty st path : PyStr) : R Val :=
  if ty = P "StructProperty" then rStructValue an rec st path
  else if ty = P "EnumProperty" then rStr
  else if ty = P "NameProperty" then rStr
  else if ty = P "IntProperty" then rI32Val
  else if ty = P "BoolProperty" then do
    let b ← rBool
    return .bool b
  else rFail (.exc "Unknown property value type")

/-- `array_value` (archive.py:565-585).  `size` is the declared size of the property;
the Python argument is `size - 4`. -/
def rArrayValue (at_ : PyStr) (count size : Nat) : R Val :=
  if at_ = P "EnumProperty" then do
    let l ← rRepeat rStr count
    return .list l
  else if at_ = P "NameProperty" then do
    let l ← rRepeat rStr count
    return .list l
  else if at_ = P "Guid" then do
    let l ← rRepeat rGuid count
    return .list l
  else if at_ = P "ByteProperty" then
    if (size : Int) - 4 = count then rByteList count
    else rFail (.exc "Labelled ByteProperty not implemented")
  else rFail (.exc "Unknown array type")

/-- `array_property` (archive.py:539-563); `skip` (archive.py:358-359) reads and drops. -/
def rArrayProperty (an : Bool) (rec : PyStr → R Val) (at_ : PyStr) (size : Nat) (path : PyStr) :
    R Val := do
  let count ← rU32
  if at_ = P "StructProperty" then
    let pn ← rFString
    let pt ← rFString
    let _ ← rU64
    let tn ← rFString
    let id ← rGuid
    let _ ← rRead 1
    let vs ← rRepeat (rStructValue an rec tn (path ++ dot ++ pn)) count
    return dct [("prop_name", .str pn), ("prop_type", .str pt), ("values", .list vs),
      ("type_name", .str tn), ("id", id)]
  else
    let v ← rArrayValue at_ count size
    return dct [("values", v)]

/-- One map entry (archive.py:470-478). -/
def rMapEntry (an : Bool) (rec : PyStr → R Val) (kt ks vt vs kp vp : PyStr) : R Val := do
  let k ← rPropValue an rec kt ks kp
  let v ← rPropValue an rec vt vs vp
  return dct [("key", k), ("value", v)]

/-- The struct type stored for keys/values: None unless the type is StructProperty
(archive.py:459-468). -/
def structTypeVal (ty st : PyStr) : Val := if ty = P "StructProperty" then .str st else .none

/-- The MapProperty branch (archive.py:453-486). -/
def rMap (cfg : Cfg) (rec : PyStr → R Val) (path : PyStr) : R Val := do
  let kt ← rFString
  let vt ← rFString
  let id ← rOptGuid
  let _ ← rU32
  let count ← rU32
  let kp := path ++ P ".Key"
  let vp := path ++ P ".Value"
  let kst := getTypeOr cfg kp (P "Guid")
  let vst := getTypeOr cfg vp (P "StructProperty")
  let l ← rRepeat (rMapEntry cfg.allowNan rec kt kst vt vst kp vp) count
  return dct [("key_type", .str kt), ("value_type", .str vt),
    ("key_struct_type", structTypeVal kt kst), ("value_struct_type", structTypeVal vt vst),
    ("id", id), ("value", .list l)]

/-- `{"id": optional_guid(), "value": x}` -/
def rIdValue (x : R Val) : R Val := do
  let id ← rOptGuid
  let v ← x
  return dct [("id", id), ("value", v)]

/-- The EnumProperty branch (archive.py:430-440). -/
def rEnum : R Val := do
  let et ← rStr
  let id ← rOptGuid
  let ev ← rStr
  return dct [("id", id), ("value", dct [("type", et), ("value", ev)])]

/-- The BoolProperty branch (archive.py:441-445). -/
def rBoolProp : R Val := do
  let b ← rBool
  let id ← rOptGuid
  return dct [("value", .bool b), ("id", id)]

/-- The ArrayProperty branch (archive.py:446-452). -/
def rArrayProp (an : Bool) (rec : PyStr → R Val) (size : Nat) (path : PyStr) : R Val := do
  let at_ ← rFString
  let id ← rOptGuid
  let v ← rArrayProperty an rec at_ size path
  return dct [("array_type", .str at_), ("id", id), ("value", v)]

/-- The if/elif chain of `property` without the custom branch (archive.py:398-488). -/
def rPlainBody (cfg : Cfg) (rec : PyStr → R Val) (ty : PyStr) (size : Nat) (path : PyStr) : R Val :=
  if ty = P "StructProperty" then rStruct cfg.allowNan rec path
  else if ty = P "IntProperty" then rIdValue rI32Val
  else if ty = P "Int64Property" then rIdValue rI64Val
  else if ty = P "FixedPoint64Property" then rIdValue rI32Val
  else if ty = P "FloatProperty" then rIdValue (rFloat cfg.allowNan)
  else if ty = P "StrProperty" then rIdValue rStr
  else if ty = P "NameProperty" then rIdValue rStr
  else if ty = P "EnumProperty" then rEnum
  else if ty = P "BoolProperty" then rBoolProp
  else if ty = P "ArrayProperty" then rArrayProp cfg.allowNan rec size path
  else if ty = P "MapProperty" then rMap cfg rec path
  else rFail (.exc "Unknown type")

/-- `property` when the custom branch is not taken (archive.py:398-490). -/
def rPlain (cfg : Cfg) (rec : PyStr → R Val) (ty : PyStr) (size : Nat) (path : PyStr) : R Val := do
  let v ← rPlainBody cfg rec ty size path
  rLift (v.set (P "type") (.str ty))

/-- `property` (archive.py:389-490).  With a custom property registered for the path,
the codec's `decode` runs; it calls `property` again with `nested_caller_path=path`,
which takes the plain branch. -/
def rProperty (cfg : Cfg) (rec : PyStr → R Val) (ty : PyStr) (size : Nat) (path : PyStr) : R Val :=
  match cfg.custom path with
  | none => rPlain cfg rec ty size path
  | some c =>
    if ty = P c.propType then do
      let v ← rPlain cfg rec ty size path
      let v ← rLift (c.post cfg.allowNan (rec []) v)
      let v ← rLift (v.set (P "custom_type") (.str path))
      rLift (v.set (P "type") (.str ty))
    else rFail (.exc "Expected property type")

/-- The loop of `properties_until_end` (archive.py:378-387) with the dict built so far. -/
def rPropsLoop (cfg : Cfg) : Nat → PyStr → Dict → R Val
  | 0, _, _ => rFail .fuel
  | n + 1, path, acc => do
    let name ← rFString
    if name = P "None" then return .dict acc
    else
      let ty ← rFString
      let size ← rU64
      let v ← rProperty cfg (fun p => rPropsLoop cfg n p []) ty size (path ++ dot ++ name)
      rPropsLoop cfg n path (dset acc name v)

/-- `properties_until_end` (archive.py:378-387). -/
def rProps (cfg : Cfg) (fuel : Nat) (path : PyStr) : R Val := rPropsLoop cfg fuel path []

/-! ### Writer

A writer function returns the bytes written and the value after the call: `encode`
functions replace decoded blobs inside the tree that is being written. -/

abbrev W := Except Err (Bytes × Val)

/-- A call that does not change the value. -/
def keep (v : Val) (x : Except Err Bytes) : W :=
  match x with
  | .ok b => .ok (b, v)
  | .error e => .error e

/-- A call on the element `v[k]`, which may be changed by it. -/
def wOn (v : Val) (k : String) (f : Val → W) : W :=
  match v.get (P k) with
  | .error e => .error e
  | .ok x => match f x with
    | .error e => .error e
    | .ok (b, x') => match v.set (P k) x' with
      | .error e => .error e
      | .ok v' => .ok (b, v')

/-- Some calls that do not change the value, then a changing one. -/
def wThen (pre : Except Err Bytes) (x : W) : W :=
  match pre with
  | .error e => .error e
  | .ok b => match x with
    | .error e => .error e
    | .ok (c, v) => .ok (b ++ c, v)

/-- Calls on a list of elements. -/
def wMapL (f : Val → W) : List Val → Except Err (Bytes × List Val)
  | [] => .ok ([], [])
  | a :: t => match f a with
    | .error e => .error e
    | .ok (b, a') => match wMapL f t with
      | .error e => .error e
      | .ok (c, t') => .ok (b ++ c, a' :: t')

/-- `for i in range(len(v)): f(v[i])`; see `Val.seqItems`. -/
def wSeq (f : Val → W) (v : Val) : W :=
  match v with
  | .list l => match wMapL f l with
    | .ok (b, l') => .ok (b, .list l')
    | .error e => .error e
  | .tuple l => match wMapL f l with
    | .ok (b, l') => .ok (b, .tuple l')
    | .error e => .error e
  | _ => match v.seqItems with
    | .error e => .error e
    | .ok l => match wMapL f l with
      | .ok (b, _) => .ok (b, v)
      | .error e => .error e

/-- `for x in v: f(x)`; see `Val.iterItems`. -/
def wIter (f : Val → W) (v : Val) : W :=
  match v with
  | .list l => match wMapL f l with
    | .ok (b, l') => .ok (b, .list l')
    | .error e => .error e
  | .tuple l => match wMapL f l with
    | .ok (b, l') => .ok (b, .tuple l')
    | .error e => .error e
  | _ => match v.iterItems with
    | .error e => .error e
    | .ok l => match wMapL f l with
      | .ok (b, _) => .ok (b, v)
      | .error e => .error e

/-- `struct_value` (archive.py:899-916). -/
def wStructValue (recW : Val → W) (st v : Val) : W :=
  if st.isS "Vector" then keep v (wVectorDict v)
  else if st.isS "DateTime" then keep v (wU64 v)
  else if st.isS "Guid" then keep v (wGuid v)
  else if st.isS "Quat" then keep v (wQuatDict v)
  else if st.isS "LinearColor" then
    keep v (wcat [wAt v ["r"] wFloat, wAt v ["g"] wFloat, wAt v ["b"] wFloat, wAt v ["a"] wFloat])
  else recW v

/-- `prop_value` (archive.py:918-930). -/
def wPropValue (recW : Val → W) (ty st v : Val) : W :=
  if ty.isS "StructProperty" then wStructValue recW st v
  else if ty.isS "EnumProperty" then keep v (wFString v)
  else if ty.isS "NameProperty" then keep v (wFString v)
  else if ty.isS "IntProperty" then keep v (wI32 v)
  else if ty.isS "BoolProperty" then keep v (wBool v)
  else .error (.exc "Unknown property value type")

/-- One element of `array_value` (archive.py:951-969). -/
def wArrayElem (at_ v : Val) : Except Err Bytes :=
  if at_.isS "IntProperty" then wI32 v
  else if at_.isS "Int64Property" then wI64 v
  else if at_.isS "FloatProperty" then wFloat v
  else if at_.isS "StrProperty" then wFString v
  else if at_.isS "NameProperty" then wFString v
  else if at_.isS "EnumProperty" then wFString v
  else if at_.isS "BoolProperty" then wBool v
  else if at_.isS "ByteProperty" then wByte v
  else .error (.exc "Unknown array type")

/-- `array_value` (archive.py:950-969). -/
def wArrayValue (at_ vs : Val) : Except Err Bytes :=
  match vs.seqItems with
  | .ok l => wItems (wArrayElem at_) l
  | .error e => .error e

/-- `u32(len(v))` -/
def wLen (v : Val) : Except Err Bytes :=
  match v.len with
  | .ok n => wU32 (.int n)
  | .error e => .error e

/-- `value["type_name"]` in `nested_writer.struct_value(value["type_name"], ...)`, looked
up for each element. -/
def wStructElem (recW : Val → W) (value x : Val) : W :=
  match value.get (P "type_name") with
  | .error e => .error e
  | .ok tn => wStructValue recW tn x

/-- `array_property` (archive.py:932-948). -/
def wArrayProperty (recW : Val → W) (at_ value : Val) : W :=
  wThen (wAt value ["values"] wLen) <|
  if at_.isS "StructProperty" then
    wThen (wcat [wAt value ["prop_name"] wFString, wAt value ["prop_type"] wFString]) <|
    match wOn value "values" (wSeq (wStructElem recW value)) with
    | .error e => .error e
    | .ok (buf, value') =>
      wThen (wcat [wU64 (.int buf.length), wAt value ["type_name"] wFString, wAt value ["id"] wGuid,
        wU (.int 0)]) (.ok (buf, value'))
  else keep value (wAt value ["values"] (wArrayValue at_))

/-- One entry of a map (archive.py:875-883). -/
def wMapEntry (recW : Val → W) (prop entry : Val) : W :=
  match prop.get (P "key_type") with
  | .error e => .error e
  | .ok kt => match prop.get (P "key_struct_type") with
    | .error e => .error e
    | .ok kst => match wOn entry "key" (wPropValue recW kt kst) with
      | .error e => .error e
      | .ok (kb, entry) => match prop.get (P "value_type") with
        | .error e => .error e
        | .ok vt => match prop.get (P "value_struct_type") with
          | .error e => .error e
          | .ok vst => wThen (.ok kb) (wOn entry "value" (wPropValue recW vt vst))

/-- `self.optional_guid(property.get("id", None))` -/
def wId (prop : Val) : Except Err Bytes :=
  match prop.getD (P "id") with
  | .ok v => wOptGuid v
  | .error e => .error e

/-- What `property_inner` returns and appends, with the property after the call. -/
abbrev WP := Except Err (Nat × Bytes × Val)

/-- A property whose size is the number of bytes of its last part. -/
def sized (pre : Except Err Bytes) (x : W) : WP :=
  match pre with
  | .error e => .error e
  | .ok b => match x with
    | .error e => .error e
    | .ok (c, v) => .ok (c.length, b ++ c, v)

/-- A property with a constant size. -/
def sizeConst (n : Nat) (v : Val) (x : Except Err Bytes) : WP :=
  match x with
  | .ok b => .ok (n, b, v)
  | .error e => .error e

/-- The MapProperty part after the id (archive.py:872-886). -/
def wMapBody (recW : Val → W) (prop : Val) : W :=
  wThen (wcat [wU32 (.int 0), wAt prop ["value"] wLen])
    (wOn prop "value" (wIter (wMapEntry recW prop)))

/-- `property_inner` for a property without custom type (archive.py:828-889). -/
def wPlainInner (recW : Val → W) (ty prop : Val) : WP :=
  if ty.isS "StructProperty" then
    sized (wcat [wAt prop ["struct_type"] wFString, wAt prop ["struct_id"] wGuid, wId prop])
      (match prop.get (P "struct_type") with
        | .error e => .error e
        | .ok st => wOn prop "value" (wStructValue recW st))
  else if ty.isS "IntProperty" then sizeConst 4 prop (wcat [wId prop, wAt prop ["value"] wI32])
  else if ty.isS "Int64Property" then sizeConst 8 prop (wcat [wId prop, wAt prop ["value"] wI64])
  else if ty.isS "FixedPoint64Property" then
    sizeConst 4 prop (wcat [wId prop, wAt prop ["value"] wI32])
  else if ty.isS "FloatProperty" then sizeConst 4 prop (wcat [wId prop, wAt prop ["value"] wFloat])
  else if ty.isS "StrProperty" then
    sized (wId prop) (keep prop (wAt prop ["value"] wFString))
  else if ty.isS "NameProperty" then
    sized (wId prop) (keep prop (wAt prop ["value"] wFString))
  else if ty.isS "EnumProperty" then
    sized (wcat [wAt prop ["value", "type"] wFString, wId prop])
      (keep prop (wAt prop ["value", "value"] wFString))
  else if ty.isS "BoolProperty" then sizeConst 0 prop (wcat [wAt prop ["value"] wBool, wId prop])
  else if ty.isS "ArrayProperty" then
    sized (wcat [wAt prop ["array_type"] wFString, wId prop])
      (match prop.get (P "array_type") with
        | .error e => .error e
        | .ok at_ => wOn prop "value" (wArrayProperty recW at_))
  else if ty.isS "MapProperty" then
    sized (wcat [wAt prop ["key_type"] wFString, wAt prop ["value_type"] wFString, wId prop])
      (wMapBody recW prop)
  else .error (.exc "Unknown property type")

/-- `property_inner` (archive.py:818-889) with the codec's `encode` inlined: after the
type test and `pre`, `encode` calls `property_inner` on the same dict, from which
"custom_type" has been deleted.  `property["custom_type"] in self.custom_properties` is
a TypeError for unhashable values. -/
def wInner (cfg : Cfg) (recW : Val → W) (wp : Val → Except Err Bytes) (ty prop : Val) : WP :=
  match prop.contains (P "custom_type") with
  | .error e => .error e
  | .ok false => wPlainInner recW ty prop
  | .ok true => match prop.get (P "custom_type") with
    | .error e => .error e
    | .ok (.str p) => match cfg.custom p with
      | none => .error (.exc "Unknown custom property type")
      | some c =>
        if ty.isS c.propType then
          match c.pre wp prop with
          | .error e => .error e
          | .ok prop' => wPlainInner recW ty prop'
        else .error (.exc "Expected property type")
    | .ok (.list _) | .ok (.dict _) => .error .type
    | .ok _ => .error (.exc "Unknown custom property type")

/-- `property` (archive.py:806-816). -/
def wProperty (cfg : Cfg) (recW : Val → W) (wp : Val → Except Err Bytes) (prop : Val) : W :=
  match prop.get (P "type") with
  | .error e => .error e
  | .ok ty => match wFString ty with
    | .error e => .error e
    | .ok tb => match wInner cfg recW wp ty prop with
      | .error e => .error e
      | .ok (size, buf, prop') => match wU64 (.int size) with
        | .error e => .error e
        | .ok sb => .ok (tb ++ sb ++ buf, prop')

/-- The loop of `properties` over a dict (archive.py:801-803). -/
def wEntries (f : Val → W) : Dict → Except Err (Bytes × Dict)
  | [] => .ok ([], [])
  | (k, v) :: t => match fstringBytes k with
    | .error e => .error e
    | .ok kb => match f v with
      | .error e => .error e
      | .ok (b, v') => match wEntries f t with
        | .error e => .error e
        | .ok (c, t') => .ok (kb ++ b ++ c, (k, v') :: t')

/-- `properties` (archive.py:800-804), given how to write one property.  Iterating over
something else than a dict fails at the first element (`fstring(key)` or
`properties[key]`). -/
def wPropsBody (f : Val → W) (v : Val) : W :=
  match v with
  | .dict d => match wEntries f d with
    | .error e => .error e
    | .ok (b, d') => match fstringBytes (P "None") with
      | .error e => .error e
      | .ok nb => .ok (b ++ nb, .dict d')
  | _ => match v.iterItems with
    | .error e => .error e
    | .ok [] => keep v (fstringBytes (P "None"))
    | .ok (_ :: _) => .error .type

/-- `properties` (archive.py:800-804).  The writers created by `copy()` keep the custom
properties; the `encode_bytes` functions create writers without them. -/
def wProps : Nat → Cfg → Val → W
  | 0, _, _ => .error .fuel
  | n + 1, cfg, v =>
    wPropsBody (wProperty cfg (wProps n cfg) (fun p =>
      match wProps n Cfg.empty p with
      | .ok (b, _) => .ok b
      | .error e => .error e)) v

end Pal
