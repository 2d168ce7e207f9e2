import Verif.Model.Gvas
/-
What a read prints.

The reader announces on the standard output what it could not interpret and how it went on:
a struct type that was guessed, a blob that was kept as raw bytes, bytes that were left over.
Here the functions of Model/Props.lean, Model/Codec.lean and Model/Gvas.lean are written again
with their prints.  `L.run` is what the call does, `L.log` what it prints when it starts with
these bytes to read; Lemmas/Warn.lean shows that `run` is the function of the other files.

Simplifications: of each message only the kind and the names in it are kept, not its wording,
the text of the exception or the dump of the blob.  The message about a bad string
(archive.py:291), which precedes an exception, the prints of the module `debug`, and a failing
`print` are left out.
-/

namespace Pal
namespace Warn

/-- The messages. -/
inductive Warning where
  /-- archive.py:253: struct type of the path not found, assuming the default -/
  | guessed (path dflt : PyStr)
  /-- dynamic_item.py:50: weapon data not parsed, kept as raw data -/
  | rawItem
  /-- map_concrete_model.py:352: object not in the database -/
  | noClass (objectId : PyStr)
  /-- map_concrete_model.py:435: unknown concrete model -/
  | noModel (cls : String)
  /-- base_camp_module.py:73: transport item director not decoded -/
  | rawTransport
  /-- base_camp_module.py:82: passive effect not decoded -/
  | rawPassive
  /-- base_camp_module.py:87: unknown module type -/
  | noModule (type : Val)
  /-- base_camp_module.py:91: bytes left over -/
  | moduleLeft (type : Val)
  /-- work.py:105: unknown type of work, kept as raw bytes -/
  | rawWork (type : Val)
  /-- work.py:119: unknown transform type -/
  | rawTransform (t : Nat) (type : Val)
  /-- connector.py:55: unusual number of connectors -/
  | connectors (n : Nat)
  /-- gvas.py:133: unusual trailer, with its length -/
  | trailer (n : Nat)

/-- A reader with its prints. -/
structure L (α : Type) where
  run : R α
  log : Bytes → List Warning

namespace L

/-- A reader that prints nothing. -/
def lift {α : Type} (x : R α) : L α := ⟨x, fun _ => []⟩

/-- `print(...)` -/
def tell (w : Warning) : L Unit := ⟨pure (), fun _ => [w]⟩

/-- Sequence: what the second call prints follows what the first one printed; an exception ends it. -/
def bind {α β : Type} (x : L α) (f : α → L β) : L β :=
  ⟨x.run >>= fun a => (f a).run, fun s => x.log s ++ match x.run s with
    | .ok (a, s') => (f a).log s'
    | .error _ => []⟩

instance : Monad L where
  pure a := lift (pure a)
  bind := bind

/-- `try: x except Exception as e: h` -/
def try_ {α : Type} (x : L α) (h : Err → L α) : L α :=
  ⟨rTry x.run fun e => (h e).run, fun s => x.log s ++ match x.run s with
    | .ok _ => []
    | .error .fuel => []
    | .error e => (h e).log s⟩

end L

/-- The message if the condition holds. -/
def tellIf (c : Prop) [Decidable c] (w : Warning) : L Unit := if c then L.tell w else L.lift (pure ())

/-- `n` successive reads. -/
def lRepeat {α : Type} (x : L α) : Nat → L (List α)
  | 0 => pure []
  | n + 1 => do
    let a ← x
    let l ← lRepeat x n
    return a :: l

/-! ### the property reader -/

/-- `struct_value` (archive.py:518-537); only the last branch can print. -/
def lStructValue (an : Bool) (rec : PyStr → L Val) (st path : PyStr) : L Val :=
  if st = P "Vector" ∨ st = P "DateTime" ∨ st = P "Guid" ∨ st = P "Quat" ∨ st = P "LinearColor" then
    L.lift (rStructValue an (fun _ => rFail .type) st path)
  else rec path

/-- `struct` (archive.py:506-516). -/
def lStruct (an : Bool) (rec : PyStr → L Val) (path : PyStr) : L Val := do
  let st ← L.lift rFString
  let sid ← L.lift rGuid
  let id ← L.lift rOptGuid
  let v ← lStructValue an rec st path
  return dct [("struct_type", .str st), ("struct_id", sid), ("id", id), ("value", v)]

/-- `prop_value` (archive.py:492-504). -/
def lPropValue (an : Bool) (rec : PyStr → L Val) (ty st path : PyStr) : L Val :=
  if ty = P "StructProperty" then lStructValue an rec st path
  else L.lift (rPropValue an (fun _ => rFail .type) ty st path)

/-- `array_property` (archive.py:539-563). -/
def lArrayProperty (an : Bool) (rec : PyStr → L Val) (at_ : PyStr) (size : Nat) (path : PyStr) : L Val := do
  let count ← L.lift rU32
  if at_ = P "StructProperty" then
    let pn ← L.lift rFString
    let pt ← L.lift rFString
    let _ ← L.lift rU64
    let tn ← L.lift rFString
    let id ← L.lift rGuid
    let _ ← L.lift (rRead 1)
    let vs ← lRepeat (lStructValue an rec tn (path ++ dot ++ pn)) count
    return dct [("prop_name", .str pn), ("prop_type", .str pt), ("values", .list vs),
      ("type_name", .str tn), ("id", id)]
  else
    let v ← L.lift (rArrayValue at_ count size)
    return dct [("values", v)]

/-- One map entry (archive.py:470-478). -/
def lMapEntry (an : Bool) (rec : PyStr → L Val) (kt ks vt vs kp vp : PyStr) : L Val := do
  let k ← lPropValue an rec kt ks kp
  let v ← lPropValue an rec vt vs vp
  return dct [("key", k), ("value", v)]

/-- `get_type_or` (archive.py:249-254), called for a StructProperty only (archive.py:460-468). -/
def lTypeOr (cfg : Cfg) (ty path dflt : PyStr) : L PyStr := do
  tellIf (ty = P "StructProperty" ∧ cfg.hint path = none) (.guessed path dflt)
  return getTypeOr cfg path dflt

/-- The MapProperty branch (archive.py:453-486). -/
def lMap (cfg : Cfg) (rec : PyStr → L Val) (path : PyStr) : L Val := do
  let kt ← L.lift rFString
  let vt ← L.lift rFString
  let id ← L.lift rOptGuid
  let _ ← L.lift rU32
  let count ← L.lift rU32
  let kp := path ++ P ".Key"
  let vp := path ++ P ".Value"
  let kst ← lTypeOr cfg kt kp (P "Guid")
  let vst ← lTypeOr cfg vt vp (P "StructProperty")
  let l ← lRepeat (lMapEntry cfg.allowNan rec kt kst vt vst kp vp) count
  return dct [("key_type", .str kt), ("value_type", .str vt),
    ("key_struct_type", structTypeVal kt kst), ("value_struct_type", structTypeVal vt vst),
    ("id", id), ("value", .list l)]

/-- The ArrayProperty branch (archive.py:446-452). -/
def lArrayProp (an : Bool) (rec : PyStr → L Val) (size : Nat) (path : PyStr) : L Val := do
  let at_ ← L.lift rFString
  let id ← L.lift rOptGuid
  let v ← lArrayProperty an rec at_ size path
  return dct [("array_type", .str at_), ("id", id), ("value", v)]

/-- The if/elif chain of `property` (archive.py:398-488); the other branches print nothing. -/
def lPlainBody (cfg : Cfg) (rec : PyStr → L Val) (ty : PyStr) (size : Nat) (path : PyStr) : L Val :=
  if ty = P "StructProperty" then lStruct cfg.allowNan rec path
  else if ty = P "ArrayProperty" then lArrayProp cfg.allowNan rec size path
  else if ty = P "MapProperty" then lMap cfg rec path
  else L.lift (rPlainBody cfg (fun _ => rFail .type) ty size path)

/-- `property` when the custom branch is not taken (archive.py:398-490). -/
def lPlain (cfg : Cfg) (rec : PyStr → L Val) (ty : PyStr) (size : Nat) (path : PyStr) : L Val := do
  let v ← lPlainBody cfg rec ty size path
  L.lift (rLift (v.set (P "type") (.str ty)))

/-! ### decoders of raw data -/

/-- character.py:17-28 -/
def lCharacter (rec : L Val) : L Val := do
  let o ← rec
  let u ← L.lift (rByteList 4)
  let g ← L.lift rGuid
  L.lift rCheckEof
  return dct [("object", o), ("unknown_bytes", u), ("group_id", g)]

/-- The body of `try_read_egg` (dynamic_item.py:61-68) -/
def lEgg (rec : L Val) : L Dict := do
  let c ← L.lift rStr
  let o ← rec
  let u ← L.lift (rByteList 4)
  let g ← L.lift rGuid
  L.lift rCheckEof
  return [(P "type", .str (P "egg")), (P "character_id", c), (P "object", o),
    (P "unknown_bytes", u), (P "unknown_id", g)]

/-- `try_read_egg` (dynamic_item.py:58-73): what the attempt printed stays printed. -/
def lTryEgg (rec : L Val) : L (Option Dict) :=
  L.try_ (do
    let d ← lEgg rec
    return some d)
    (fun e => if e = .exc "Warning: EOF not reached" then L.lift (rFail e) else return none)

/-- dynamic_item.py:32-54 -/
def lDynamicRest (an : Bool) (rec : L Val) : L Dict := do
  let egg ← lTryEgg rec
  let n ← L.lift rRemaining
  match egg with
  | some d => return d
  | none =>
    if n = 4 then L.lift (armorDecode an)
    else L.try_ (L.lift (weaponDecode an)) (fun _ => do
      L.tell .rawItem
      L.lift trailerDecode)

/-- dynamic_item.py:22-55 -/
def lDynamicItem (an : Bool) (rec : L Val) : L Val := do
  let i ← L.lift dynamicIdDecode
  let d ← lDynamicRest an rec
  return .dict ((P "id", i) :: d)

/-- map_concrete_model.py:418-421: the hatching egg, the only branch that reads a property list -/
def lHatch (rec : L Val) : L Dict := do
  let o ← rec
  let u ← L.lift rU32
  let g ← L.lift rGuid
  return [(P "hatched_character_save_parameter", o), (P "unknown_bytes", .int u),
    (P "hatched_character_guid", g)]

/-- The if/elif chain (map_concrete_model.py:367-438). -/
def lConcreteBody (an : Bool) (rec : L Val) (c : String) : Option (L Dict) :=
  if c = "PalMapObjectHatchingEggModel" then some (lHatch rec)
  else (concreteBody an rec.run c).map L.lift

/-- map_concrete_model.py:348-444 -/
def lConcrete (an : Bool) (rec : L Val) (objectId raw : Val) : L Val :=
  match objectId with
  | .str o => match concreteClass? o with
    | none => do
      L.tell (.noClass o)
      return dct [("values", raw)]
    | some c => do
      let i ← L.lift rGuid
      let m ← L.lift rGuid
      match lConcreteBody an rec c with
      | none => do
        L.tell (.noModel c)
        return dct [("values", raw)]
      | some body => do
        let d ← body
        L.lift rCheckEofFor
        return .dict ([(P "instance_id", i), (P "model_instance_id", m),
          (P "concrete_model_type", .str (P c))] ++ d)
  | _ => L.lift (rFail .attr)

/-- base_camp_module.py:90-94: the test for leftover bytes. -/
def lCampEnd (mt v : Val) : L Val := do
  let e ← L.lift rEof
  tellIf (e = false) (.moduleLeft mt)
  return v

/-- base_camp_module.py:61-94 -/
def lCampModule (an : Bool) (mt raw : Val) : L Val :=
  if mt.isAny campNoOp then lCampEnd mt (.dict [])
  else if mt.isS "EPalBaseCampModuleType::TransportItemDirector" then
    L.try_ (do
      let l ← L.lift (rTArray (transportInfoDecode an))
      lCampEnd mt (dct [("transport_item_character_infos", l)]))
      (fun _ => do
        L.tell .rawTransport
        return dct [("values", raw)])
  else if mt.isS "EPalBaseCampModuleType::PassiveEffect" then
    L.try_ (do
      let l ← L.lift (rTArray passiveEffectDecode)
      lCampEnd mt (dct [("passive_effects", l)]))
      (fun _ => do
        L.tell .rawPassive
        return dct [("values", raw)])
  else do
    L.tell (.noModule mt)
    return dct [("values", raw)]

/-- work.py:107-122 -/
def lTransform (an : Bool) (wt : Val) : L Val := do
  let t ← L.lift rByte
  if t = 1 then do
    let r ← L.lift (rQuatDict an)
    let l ← L.lift (rVectorDict an)
    let s ← L.lift (rVectorDict an)
    return dct [("type", .int t), ("v2", .int 0), ("rotation", r), ("translation", l),
      ("scale3d", s)]
  else if t = 2 then do
    let g ← L.lift rGuid
    return dct [("type", .int t), ("v2", .int 0), ("map_object_instance_id", g)]
  else if t = 3 then do
    let g ← L.lift rGuid
    let i ← L.lift rGuid
    return dct [("type", .int t), ("v2", .int 0), ("guid", g), ("instance_id", i)]
  else do
    let b ← L.lift rReadToEnd
    L.tell (.rawTransform t wt)
    return dct [("type", .int t), ("v2", .int 0),
      ("raw_data", .list (b.map fun x => .int x.toNat))]

/-- work.py:44-129 -/
def lWork (an : Bool) (wt raw : Val) : L Val :=
  match wt with
  | .list _ | .dict _ => L.lift (rFail .type)
  | _ =>
    if wt.isAny workBaseTypes || wt.isAny workAssignTypes then do
      let d ← L.lift (workBodyDecode an wt)
      let t ← lTransform an wt
      L.lift rCheckEofFor
      return .dict (d ++ [(P "transform", t)])
    else do
      L.tell (.rawWork wt)
      return dct [("values", raw)]

/-- connector.py:34-58 -/
def lConnector : L Val := do
  let lv ← L.lift rI32
  let ix ← L.lift rByte
  let ap ← L.lift (rTArray connectInfoDecode)
  let e ← L.lift rEof
  let n ← L.lift rRemaining
  let others ← L.lift (otherConnectors n)
  tellIf (e = false ∧ others.length ≠ 2 ∧ others.length ≠ 4) (.connectors others.length)
  let base : Dict := [(P "supported_level", .int lv),
    (P "connect", dct [("index", .int ix), ("any_place", ap)])]
  return .dict (if e then base else base ++ [(P "other_connectors", .list others)])

/-! ### replacing blobs in a property -/

/-- An outcome with the messages printed on the way. -/
abbrev E (α : Type) := Except Err α × List Warning

/-- What a function of values does, without its messages. -/
def mute {α β : Type} (f : α → E β) (a : α) : Except Err β := (f a).1

/-- A function that prints nothing. -/
def quiet {α β : Type} (f : α → Except Err β) (a : α) : E β := (f a, [])

/-- Read a blob (`runBlob`). -/
def eBlob (v : Val) (x : L Val) : E Val :=
  match toBytes v with
  | .error e => (.error e, [])
  | .ok b => (match x.run b with
    | .ok (r, _) => .ok r
    | .error e => .error e, x.log b)

/-- `emptyOr` -/
def eEmptyOr (dflt : Val) (v : Val) (x : L Val) : E Val :=
  match v.len with
  | .error e => (.error e, [])
  | .ok 0 => (.ok dflt, [])
  | .ok (_ + 1) => eBlob v x

/-- `onValues` -/
def eOnValues (f : Val → E Val) (w : Val) : E Val :=
  match w.get (P "values") with
  | .ok b => f b
  | .error e => (.error e, [])

/-- In-place update (`Val.upd`). -/
def eUpd (f : Val → E Val) : List PyStr → Val → E Val
  | [], v => f v
  | k :: ks, v => match v.get k with
    | .ok x => ((match (eUpd f ks x).1 with
      | .ok x' => v.set k x'
      | .error e => .error e), (eUpd f ks x).2)
    | .error e => (.error e, [])

/-- The elements in order, up to the first exception (`mapE`). -/
def eMap {α β : Type} (f : α → E β) : List α → E (List β)
  | [] => (.ok [], [])
  | a :: t => match (f a).1 with
    | .ok b => ((match (eMap f t).1 with
      | .ok bs => .ok (b :: bs)
      | .error e => .error e), (f a).2 ++ (eMap f t).2)
    | .error e => (.error e, (f a).2)

/-- `for x in v: <mutate x>` (`forEach`). -/
def eForEach (f : Val → E Val) (v : Val) : E Val :=
  (forEach (mute f) v, match v with
    | .list l | .tuple l => (eMap f l).2
    | _ => [])

/-- One update after the other (`updAll`). -/
def eAll : List (Val → E Val) → Val → E Val
  | [], v => (.ok v, [])
  | f :: t, v => match (f v).1 with
    | .ok v' => ((eAll t v').1, (f v).2 ++ (eAll t v').2)
    | .error e => (.error e, (f v).2)

/-- base_camp_module.py:27-32 -/
def eCampModule1 (an : Bool) (m : Val) : E Val :=
  match m.get (P "key") with
  | .error e => (.error e, [])
  | .ok mt => eUpd (eOnValues fun b => eBlob b (lCampModule an mt b)) (ks ["value", "RawData", "value"]) m

/-- work.py:32-40 -/
def eWork1 (an : Bool) (w : Val) : E Val :=
  match w.path (ks ["RawData", "value", "values"]) with
  | .error e => (.error e, [])
  | .ok b => match w.path (ks ["WorkableType", "value", "value"]) with
    | .error e => (.error e, [])
    | .ok wt => eAll [
        eUpd (fun _ => eBlob b (lWork an wt b)) (ks ["RawData", "value"]),
        quiet (Val.upd (forEach workAssignPost1) (ks ["WorkAssignMap", "value"]))] w

/-- connector.py:29-58 -/
def eConnectorBlob (b : Val) : E Val := eEmptyOr (dct [("values", .list [])]) b lConnector

/-- map_concrete_model.py:343-444 -/
def eConcreteBlob (an : Bool) (rec : L Val) (oid b : Val) : E Val :=
  eEmptyOr (dct [("values", .list [])]) b (lConcrete an rec oid b)

/-- map_object.py:45-51 -/
def eConcrete1 (an : Bool) (rec : L Val) (m : Val) : E Val :=
  match m.path (ks ["MapObjectId", "value"]) with
  | .error e => (.error e, [])
  | .ok oid => eUpd (eOnValues (eConcreteBlob an rec oid)) (ks ["ConcreteModel", "value", "RawData", "value"]) m

/-- map_object.py:19-61 -/
def eMapObject1 (an : Bool) (rec : L Val) : Val → E Val :=
  eAll [
    quiet (Val.upd (onValues fun b => runBlob b (mapModelDecode an)) (ks ["Model", "value", "RawData", "value"])),
    eUpd (eOnValues eConnectorBlob) (ks ["Model", "value", "Connector", "value", "RawData", "value"]),
    quiet (Val.upd (onValues fun b => runBlob b buildProcessDecode)
      (ks ["Model", "value", "BuildProcess", "value", "RawData", "value"])),
    eConcrete1 an rec,
    quiet (Val.upd (forEach moduleMapPost1) (ks ["ConcreteModel", "value", "ModuleMap", "value"]))]

/-- What the `decode` functions do with the plain property, with their prints; the modules not
listed print nothing. -/
def ePost (c : CodecId) (an : Bool) (rec : L Val) (v : Val) : E Val :=
  match c with
  | .character => eUpd (eOnValues fun b => eBlob b (lCharacter rec)) [P "value"] v
  | .dynamicItem => eUpd (eOnValues fun b => eEmptyOr .none b (lDynamicItem an rec)) [P "value"] v
  | .baseCampModule => eUpd (eForEach (eCampModule1 an)) [P "value"] v
  | .work => eUpd (eForEach (eWork1 an)) (ks ["value", "values"]) v
  | .mapObject => eUpd (eForEach (eMapObject1 an rec)) (ks ["value", "values"]) v
  | .connector => eUpd (eOnValues eConnectorBlob) [P "value"] v
  | c => quiet (c.post an rec.run) v

/-- A computation on values inside a reader. -/
def lE {α : Type} (x : E α) : L α := ⟨rLift x.1, fun _ => x.2⟩

/-- `property` (archive.py:389-490). -/
def lProperty (cfg : Cfg) (rec : PyStr → L Val) (ty : PyStr) (size : Nat) (path : PyStr) : L Val :=
  match cfg.custom path with
  | none => lPlain cfg rec ty size path
  | some c =>
    if ty = P c.propType then do
      let v ← lPlain cfg rec ty size path
      let v ← lE (ePost c cfg.allowNan (rec []) v)
      let v ← L.lift (rLift (v.set (P "custom_type") (.str path)))
      L.lift (rLift (v.set (P "type") (.str ty)))
    else L.lift (rFail (.exc "Expected property type"))

/-- The loop of `properties_until_end` (archive.py:378-387). -/
def lPropsLoop (cfg : Cfg) : Nat → PyStr → Dict → L Val
  | 0, _, _ => L.lift (rFail .fuel)
  | n + 1, path, acc => do
    let name ← L.lift rFString
    if name = P "None" then return .dict acc
    else
      let ty ← L.lift rFString
      let size ← L.lift rU64
      let v ← lProperty cfg (fun p => lPropsLoop cfg n p []) ty size (path ++ dot ++ name)
      lPropsLoop cfg n path (dset acc name v)

/-- `GvasFile.read` (gvas.py:116-137) as a reader. -/
def lGvas (cfg : Cfg) (fuel : Nat) : L Gvas := do
  let h ← L.lift hdrRead
  let p ← lPropsLoop cfg fuel [] []
  let t ← L.lift rReadToEnd
  tellIf (t ≠ [0, 0, 0, 0]) (.trailer t.length)
  return ⟨h, p, t⟩

/-- `GvasFile.read` (gvas.py:116-137): the outcome and what was printed. -/
def readPrints (cfg : Cfg) (data : Bytes) : Except Err Gvas × List Warning :=
  (match (lGvas cfg (data.length + 1)).run data with
    | .ok (g, _) => .ok g
    | .error e => .error e, (lGvas cfg (data.length + 1)).log data)

end Warn
end Pal
