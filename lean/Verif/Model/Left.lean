import Verif.Model.Gvas
/-
What a call of the writer leaves behind in the tree that is being written, whether it returns or raises.

The `encode` functions change the tree in place (Codec.lean).  The writer of Props.lean gives the tree after a call that
returns; here is the tree after any call.  `f` stands for the call (does it raise?), `l` for what it leaves behind.
-/

namespace Pal

/-- After a call on `v[k]`. -/
def lOn (v : Val) (k : String) (l : Val → Val) : Val :=
  match v.get (P k) with
  | .error _ => v
  | .ok x => match v.set (P k) (l x) with
    | .error _ => v
    | .ok v' => v'

/-- After calls on the elements of a list, which end with the first one that raises. -/
def lMapL (f : Val → W) (l : Val → Val) : List Val → List Val
  | [] => []
  | a :: t => match f a with
    | .error _ => l a :: t
    | .ok _ => l a :: lMapL f l t

/-- After `for i in range(len(v)): f(v[i])` or `for x in v: f(x)`; only lists and tuples have elements that can be
changed. -/
def lSeq (f : Val → W) (l : Val → Val) (v : Val) : Val :=
  match v with
  | .list xs => .list (lMapL f l xs)
  | .tuple xs => .tuple (lMapL f l xs)
  | _ => v

/-- After `struct_value` (archive.py:899-916). -/
def lStructValue (recL : Val → Val) (st v : Val) : Val :=
  if st.isS "Vector" then v
  else if st.isS "DateTime" then v
  else if st.isS "Guid" then v
  else if st.isS "Quat" then v
  else if st.isS "LinearColor" then v
  else recL v

/-- After `prop_value` (archive.py:918-930). -/
def lPropValue (recL : Val → Val) (ty st v : Val) : Val :=
  if ty.isS "StructProperty" then lStructValue recL st v else v

/-- After one element of an array of structs. -/
def lStructElem (recL : Val → Val) (value x : Val) : Val :=
  match value.get (P "type_name") with
  | .error _ => x
  | .ok tn => lStructValue recL tn x

/-- After `array_property` (archive.py:932-948). -/
def lArrayProperty (recW : Val → W) (recL : Val → Val) (at_ value : Val) : Val :=
  match wAt value ["values"] wLen with
  | .error _ => value
  | .ok _ =>
    if at_.isS "StructProperty" then
      match wcat [wAt value ["prop_name"] wFString, wAt value ["prop_type"] wFString] with
      | .error _ => value
      | .ok _ => lOn value "values" (lSeq (wStructElem recW value) (lStructElem recL value))
    else value

/-- After one entry of a map (archive.py:875-883). -/
def lMapEntry (recW : Val → W) (recL : Val → Val) (prop entry : Val) : Val :=
  match prop.get (P "key_type") with
  | .error _ => entry
  | .ok kt => match prop.get (P "key_struct_type") with
    | .error _ => entry
    | .ok kst => match wOn entry "key" (wPropValue recW kt kst) with
      | .error _ => lOn entry "key" (lPropValue recL kt kst)
      | .ok (_, entry) => match prop.get (P "value_type") with
        | .error _ => entry
        | .ok vt => match prop.get (P "value_struct_type") with
          | .error _ => entry
          | .ok vst => lOn entry "value" (lPropValue recL vt vst)

/-- After the MapProperty part after the id (archive.py:872-886). -/
def lMapBody (recW : Val → W) (recL : Val → Val) (prop : Val) : Val :=
  match wcat [wU32 (.int 0), wAt prop ["value"] wLen] with
  | .error _ => prop
  | .ok _ => lOn prop "value" (lSeq (wMapEntry recW prop) (lMapEntry recW recL prop))

/-- After `property_inner` for a property without custom type (archive.py:828-889). -/
def lPlainInner (recW : Val → W) (recL : Val → Val) (ty prop : Val) : Val :=
  if ty.isS "StructProperty" then
    match wcat [wAt prop ["struct_type"] wFString, wAt prop ["struct_id"] wGuid, wId prop] with
    | .error _ => prop
    | .ok _ => match prop.get (P "struct_type") with
      | .error _ => prop
      | .ok st => lOn prop "value" (lStructValue recL st)
  else if ty.isS "ArrayProperty" then
    match wcat [wAt prop ["array_type"] wFString, wId prop] with
    | .error _ => prop
    | .ok _ => match prop.get (P "array_type") with
      | .error _ => prop
      | .ok at_ => lOn prop "value" (lArrayProperty recW recL at_)
  else if ty.isS "MapProperty" then
    match wcat [wAt prop ["key_type"] wFString, wAt prop ["value_type"] wFString, wId prop] with
    | .error _ => prop
    | .ok _ => lMapBody recW recL prop
  else prop

/-! ### after the part of `encode` that precedes `writer.property_inner`, if it raises -/

/-- `del properties["custom_type"]`, then something. -/
def delLeft (l : Val → Val) (v : Val) : Val :=
  match v.del (P "custom_type") with
  | .error _ => v
  | .ok v' => l v'

/-- An update of `v["a"]["b"]...` -/
def updLeft (l : Val → Val) : List PyStr → Val → Val
  | [], v => l v
  | k :: ks, v => match v.get k with
    | .error _ => v
    | .ok x => match v.set k (updLeft l ks x) with
      | .error _ => v
      | .ok v' => v'

/-- A loop over a list. -/
def eachLeft (f : Val → Except Err Val) (l : Val → Val) : List Val → List Val
  | [] => []
  | a :: t => match f a with
    | .error _ => l a :: t
    | .ok a' => a' :: eachLeft f l t

/-- A loop. -/
def forEachLeft (f : Val → Except Err Val) (l : Val → Val) (v : Val) : Val :=
  match v with
  | .list xs => .list (eachLeft f l xs)
  | .tuple xs => .tuple (eachLeft f l xs)
  | _ => v

/-- work.py:160-175: the work has been replaced when an assignment raises. -/
def workLeft1 (w : Val) : Val :=
  match w.path (ks ["WorkableType", "value", "value"]) with
  | .error _ => w
  | .ok wt => match w.upd (asValuesList (workEncode wt)) (ks ["RawData", "value"]) with
    | .error _ => w
    | .ok w => updLeft (forEachLeft workAssignPre1 id) (ks ["WorkAssignMap", "value"]) w

/-- Updates, one after the other. -/
def updAllLeft : List ((Val → Except Err Val) × (Val → Val)) → Val → Val
  | [], v => v
  | (f, l) :: t, v => match f v with
    | .error _ => l v
    | .ok v' => updAllLeft t v'

/-- map_object.py:72-126 -/
def mapObjectLeft1 (wp : Val → Except Err Bytes) : Val → Val :=
  updAllLeft [
    (Val.upd (unlessValues (asValuesBytes mapModelEncode)) (ks ["Model", "value", "RawData", "value"]), id),
    (Val.upd (unlessValues (asValuesBytes (noneOr connectorEncode)))
      (ks ["Model", "value", "Connector", "value", "RawData", "value"]), id),
    (Val.upd (unlessValues (asValuesBytes buildProcessEncode))
      (ks ["Model", "value", "BuildProcess", "value", "RawData", "value"]), id),
    (Val.upd (unlessValues (asValuesBytes (noneOr (concreteEncode wp))))
      (ks ["ConcreteModel", "value", "RawData", "value"]), id),
    (Val.upd (forEach moduleMapPre1) (ks ["ConcreteModel", "value", "ModuleMap", "value"]),
      updLeft (forEachLeft moduleMapPre1 id) (ks ["ConcreteModel", "value", "ModuleMap", "value"]))]

/-- Each module's `encode`.  The `encode_bytes` functions change nothing, and the modules with one blob assign only after
they have returned. -/
def CodecId.left (c : CodecId) (wp : Val → Except Err Bytes) (v : Val) : Val :=
  match c with
  | .group => delLeft (updLeft (forEachLeft groupPre1 id) [P "value"]) v
  | .baseCampModule => delLeft (updLeft (forEachLeft campModulePre1 id) [P "value"]) v
  | .work => delLeft (updLeft (forEachLeft workPre1 workLeft1) (ks ["value", "values"])) v
  | .mapObject => delLeft (updLeft (forEachLeft (mapObjectPre1 wp) (mapObjectLeft1 wp)) (ks ["value", "values"])) v
  | _ => delLeft id v

/-- After `property_inner` (archive.py:818-889). -/
def lInner (cfg : Cfg) (recW : Val → W) (recL : Val → Val) (wp : Val → Except Err Bytes) (ty prop : Val) : Val :=
  match prop.contains (P "custom_type") with
  | .error _ => prop
  | .ok false => lPlainInner recW recL ty prop
  | .ok true => match prop.get (P "custom_type") with
    | .ok (.str p) => match cfg.custom p with
      | none => prop
      | some c =>
        if ty.isS c.propType then
          match c.pre wp prop with
          | .error _ => c.left wp prop
          | .ok prop' => lPlainInner recW recL ty prop'
        else prop
    | _ => prop

/-- After `property` (archive.py:806-816). -/
def lProperty (cfg : Cfg) (recW : Val → W) (recL : Val → Val) (wp : Val → Except Err Bytes) (prop : Val) : Val :=
  match prop.get (P "type") with
  | .error _ => prop
  | .ok ty => match wFString ty with
    | .error _ => prop
    | .ok _ => lInner cfg recW recL wp ty prop

/-- After the loop of `properties` (archive.py:801-803). -/
def lEntries (f : Val → W) (l : Val → Val) : Dict → Dict
  | [] => []
  | (k, v) :: t => match fstringBytes k with
    | .error _ => (k, v) :: t
    | .ok _ => match f v with
      | .error _ => (k, l v) :: t
      | .ok _ => (k, l v) :: lEntries f l t

/-- After `properties` (archive.py:800-804). -/
def lPropsBody (f : Val → W) (l : Val → Val) (v : Val) : Val :=
  match v with
  | .dict d => .dict (lEntries f l d)
  | _ => v

/-- After `properties` (archive.py:800-804). -/
def lProps : Nat → Cfg → Val → Val
  | 0, _, v => v
  | n + 1, cfg, v =>
    let wp := fun p => match wProps n Cfg.empty p with
      | .ok (b, _) => .ok b
      | .error e => .error e
    lPropsBody (wProperty cfg (wProps n cfg) wp) (lProperty cfg (wProps n cfg) (lProps n cfg) wp) v

/-- The file after `GvasFile.write` (gvas.py:154-161), whether it has returned or raised: the header is written first. -/
def Gvas.left (g : Gvas) (cfg : Cfg) : Gvas :=
  match g.header.write with
  | .error _ => g
  | .ok _ => { g with properties := lProps (g.properties.rank + 1) cfg g.properties }

end Pal
