import Verif.Model.Raw.Nested
/-
The `decode` / `encode` pairs of the rawdata modules that can be registered as custom
properties (paltypes.py:51-111 uses fourteen of them).

Every `decode` has the shape: check the property type, call
`reader.property(type_name, size, path, nested_caller_path=path)`, replace some blobs
inside the result.  `Codec.propType` is the expected type, `Codec.post` the
replacement.  Every `encode` has the shape: check the property type,
`del properties["custom_type"]`, replace the decoded values by blobs in place, call
`writer.property_inner`.  `Codec.pre` is the deletion and replacement.

Dicts are values here, while Python mutates them in place: the trees built by the
reader and by json.load share no sub-object, so an in-place update changes nothing
else.
-/

namespace Pal

/-- The modules with a `decode`/`encode` pair. -/
inductive CodecId where
  | group | character | itemContainer | itemContainerSlots | characterContainer
  | dynamicItem | foliageModel | foliageModelInstance | baseCamp | workerDirector
  | workCollection | baseCampModule | work | mapObject
  | debug | connector | buildProcess | mapModel
  deriving DecidableEq, Repr

/-- `b_bytes` empty gives `dflt`, otherwise the blob is read
(`if len(b_bytes) == 0: return dflt`). -/
def emptyOr (dflt : Val) (v : Val) (x : R Val) : Except Err Val :=
  match v.len with
  | .error e => .error e
  | .ok 0 => .ok dflt
  | .ok (_ + 1) => runBlob v x

/-- `if p is None: return b""`. -/
def noneOr (w : Val → Except Err Bytes) (p : Val) : Except Err Bytes :=
  match p with
  | .none => .ok []
  | _ => w p

/-- `[b for b in encoded_bytes]` -/
def intList (b : Bytes) : Val := .list (b.map fun x => .int x.toNat)

/-- Replace `x["values"]`-holding dict by its decoding: the right-hand side of
`d["value"] = decode_bytes(reader, d["value"]["values"])`. -/
def onValues (f : Val → Except Err Val) (w : Val) : Except Err Val :=
  match w.get (P "values") with
  | .ok b => f b
  | .error e => .error e

/-- `if "values" not in x: x = {"values": encode_bytes(x)}` (a `bytes` object). -/
def unlessValues (f : Val → Except Err Val) (w : Val) : Except Err Val :=
  match w.contains (P "values") with
  | .error e => .error e
  | .ok true => .ok w
  | .ok false => f w

/-- `{"values": <bytes>}` -/
def asValuesBytes (w : Val → Except Err Bytes) (p : Val) : Except Err Val :=
  match w p with
  | .ok b => .ok (dct [("values", .bytes b)])
  | .error e => .error e

/-- `{"values": [b for b in <bytes>]}` -/
def asValuesList (w : Val → Except Err Bytes) (p : Val) : Except Err Val :=
  match w p with
  | .ok b => .ok (dct [("values", intList b)])
  | .error e => .error e

/-- `value["value"] = decode_bytes(reader, value["value"]["values"])` -/
def decodeValue (f : Val → Except Err Val) (v : Val) : Except Err Val :=
  v.upd (onValues f) [P "value"]

/-- `del properties["custom_type"]` followed by in-place updates. -/
def delThen (f : Val → Except Err Val) (v : Val) : Except Err Val :=
  match v.del (P "custom_type") with
  | .ok v => f v
  | .error e => .error e

/-- `del properties["custom_type"]` then
`properties["value"] = {"values": [b for b in encode_bytes(properties["value"])]}` -/
def encodeValue (w : Val → Except Err Bytes) : Val → Except Err Val :=
  delThen (Val.upd (asValuesList w) [P "value"])

def ks (l : List String) : List PyStr := l.map P

/-! ### group (group.py:6-20, 81-94) -/

/-- Loop body of `decode` (group.py:14-19) -/
def groupPost1 (g : Val) : Except Err Val :=
  match g.path (ks ["value", "GroupType", "value", "value"]) with
  | .error e => .error e
  | .ok gt => g.upd (onValues fun b => runBlob b (groupDecode gt)) (ks ["value", "RawData", "value"])

/-- Loop body of `encode` (group.py:88-93) -/
def groupPre1 (g : Val) : Except Err Val :=
  g.upd (unlessValues (asValuesList groupEncode)) (ks ["value", "RawData", "value"])

/-! ### base_camp_module (base_camp_module.py:19-33, 97-112) -/

/-- base_camp_module.py:27-32 -/
def campModulePost1 (an : Bool) (m : Val) : Except Err Val :=
  match m.get (P "key") with
  | .error e => .error e
  | .ok mt => m.upd (onValues fun b => runBlob b (campModuleDecode an mt b))
      (ks ["value", "RawData", "value"])

/-- base_camp_module.py:105-110: "values" is added to the decoded dict. -/
def campModulePre1 (m : Val) : Except Err Val :=
  match m.get (P "key") with
  | .error e => .error e
  | .ok mt => m.upd (unlessValues fun p => match campModuleEncode mt p with
      | .ok b => p.set (P "values") (.bytes b)
      | .error e => .error e) (ks ["value", "RawData", "value"])

/-! ### work (work.py:26-41, 154-176) -/

/-- work.py:36-40 -/
def workAssignPost1 (a : Val) : Except Err Val :=
  a.upd (onValues fun b => runBlob b workAssignBytesDecode) (ks ["value", "RawData", "value"])

/-- work.py:32-40 -/
def workPost1 (an : Bool) (w : Val) : Except Err Val :=
  match w.path (ks ["RawData", "value", "values"]) with
  | .error e => .error e
  | .ok b => match w.path (ks ["WorkableType", "value", "value"]) with
    | .error e => .error e
    | .ok wt => match w.upd (fun _ => runBlob b (workDecode an wt b)) (ks ["RawData", "value"]) with
      | .error e => .error e
      | .ok w => w.upd (forEach workAssignPost1) (ks ["WorkAssignMap", "value"])

/-- work.py:167-175 -/
def workAssignPre1 (a : Val) : Except Err Val :=
  a.upd (asValuesList workAssignBytesEncode) (ks ["value", "RawData", "value"])

/-- work.py:160-175 -/
def workPre1 (w : Val) : Except Err Val :=
  match w.path (ks ["WorkableType", "value", "value"]) with
  | .error e => .error e
  | .ok wt => match w.upd (asValuesList (workEncode wt)) (ks ["RawData", "value"]) with
    | .error e => .error e
    | .ok w => w.upd (forEach workAssignPre1) (ks ["WorkAssignMap", "value"])

/-! ### map_object (map_object.py:13-62, 65-128) -/

/-- connector.py:29-58 -/
def connectorBlob (b : Val) : Except Err Val := emptyOr (dct [("values", .list [])]) b connectorDecode

/-- map_concrete_model_module.py:33-70 -/
def moduleBlob (mt b : Val) : Except Err Val :=
  emptyOr (dct [("values", .list [])]) b (concreteModuleDecode mt)

/-- map_concrete_model.py:343-444 -/
def concreteBlob (an : Bool) (rec : R Val) (oid b : Val) : Except Err Val :=
  emptyOr (dct [("values", .list [])]) b (concreteDecode an rec oid b)

/-- map_object.py:52-61 -/
def moduleMapPost1 (m : Val) : Except Err Val :=
  match m.get (P "key") with
  | .error e => .error e
  | .ok mt => m.upd (onValues (moduleBlob mt)) (ks ["value", "RawData", "value"])

/-- Sequence of in-place updates. -/
def updAll : List (Val → Except Err Val) → Val → Except Err Val
  | [], v => .ok v
  | f :: t, v => match f v with
    | .ok v' => updAll t v'
    | .error e => .error e

/-- map_object.py:19-61 -/
def mapObjectPost1 (an : Bool) (rec : R Val) : Val → Except Err Val :=
  updAll [
    Val.upd (onValues fun b => runBlob b (mapModelDecode an))
      (ks ["Model", "value", "RawData", "value"]),
    Val.upd (onValues connectorBlob)
      (ks ["Model", "value", "Connector", "value", "RawData", "value"]),
    Val.upd (onValues fun b => runBlob b buildProcessDecode)
      (ks ["Model", "value", "BuildProcess", "value", "RawData", "value"]),
    (fun m => match m.path (ks ["MapObjectId", "value"]) with
      | .error e => .error e
      | .ok oid => m.upd (onValues (concreteBlob an rec oid))
          (ks ["ConcreteModel", "value", "RawData", "value"])),
    Val.upd (forEach moduleMapPost1) (ks ["ConcreteModel", "value", "ModuleMap", "value"])]

/-- map_object.py:118-126 -/
def moduleMapPre1 (m : Val) : Except Err Val :=
  m.upd (unlessValues fun p => match m.get (P "key") with
    | .error e => .error e
    | .ok mt => asValuesBytes (noneOr (concreteModuleEncode mt)) p)
    (ks ["value", "RawData", "value"])

/-- map_object.py:72-126 -/
def mapObjectPre1 (wp : Val → Except Err Bytes) : Val → Except Err Val :=
  updAll [
    Val.upd (unlessValues (asValuesBytes mapModelEncode))
      (ks ["Model", "value", "RawData", "value"]),
    Val.upd (unlessValues (asValuesBytes (noneOr connectorEncode)))
      (ks ["Model", "value", "Connector", "value", "RawData", "value"]),
    Val.upd (unlessValues (asValuesBytes buildProcessEncode))
      (ks ["Model", "value", "BuildProcess", "value", "RawData", "value"]),
    Val.upd (unlessValues (asValuesBytes (noneOr (concreteEncode wp))))
      (ks ["ConcreteModel", "value", "RawData", "value"]),
    Val.upd (forEach moduleMapPre1) (ks ["ConcreteModel", "value", "ModuleMap", "value"])]

/-- One element of the hex dump printed by debug.decode (debug.py:13-16): `f"{b:02x}"`
raises ValueError for str and float, TypeError for None, dict, list, tuple, bytes, UUID. -/
def debugPrint1 (v : Val) : Except Err Unit :=
  match v with
  | .int _ | .bool _ => .ok ()
  | .str _ | .float _ => .error .value
  | _ => .error .type

/-- debug.py:12-18 -/
def debugPost (v : Val) : Except Err Val :=
  match v.path (ks ["value", "values"]) with
  | .error e => .error e
  | .ok b => match b.len, b.iterItems with
    | .error e, _ => .error e
    | _, .error e => .error e
    | .ok _, .ok l => match mapE debugPrint1 l with
      | .ok _ => .ok v
      | .error e => .error e

namespace CodecId

/-- The `if type_name != "...": raise` at the head of each `decode` and `encode`. -/
def propType : CodecId → String
  | .group | .baseCampModule => "MapProperty"
  | _ => "ArrayProperty"

/-- What `decode` does with the plain property (each module's `decode`). -/
def post (c : CodecId) (an : Bool) (rec : R Val) (v : Val) : Except Err Val :=
  match c with
  | .group => v.upd (forEach groupPost1) [P "value"]
  | .character => decodeValue (fun b => runBlob b (characterDecode rec)) v
  | .itemContainer => decodeValue (fun b => emptyOr .none b itemContainerDecode) v
  | .itemContainerSlots => decodeValue (fun b => emptyOr .none b (itemContainerSlotsDecode an)) v
  | .characterContainer => decodeValue (fun b => emptyOr .none b charContainerDecode) v
  | .dynamicItem => decodeValue (fun b => emptyOr .none b (dynamicItemDecode an rec)) v
  | .foliageModel => decodeValue (fun b => runBlob b foliageModelDecode) v
  | .foliageModelInstance => decodeValue (fun b => runBlob b (foliageInstanceDecode an)) v
  | .baseCamp => decodeValue (fun b => runBlob b (baseCampDecode an)) v
  | .workerDirector => decodeValue (fun b => runBlob b (workerDirectorDecode an)) v
  | .workCollection => decodeValue (fun b => runBlob b workCollectionDecode) v
  | .baseCampModule => v.upd (forEach (campModulePost1 an)) [P "value"]
  | .work => v.upd (forEach (workPost1 an)) (ks ["value", "values"])
  | .mapObject => v.upd (forEach (mapObjectPost1 an rec)) (ks ["value", "values"])
  | .debug => debugPost v
  | .connector => decodeValue connectorBlob v
  | .buildProcess => decodeValue (fun b => runBlob b buildProcessDecode) v
  | .mapModel => decodeValue (fun b => runBlob b (mapModelDecode an)) v

/-- What `encode` does before `writer.property_inner` (each module's `encode`). -/
def pre (c : CodecId) (wp : Val → Except Err Bytes) (v : Val) : Except Err Val :=
  match c with
  | .group => delThen (Val.upd (forEach groupPre1) [P "value"]) v
  | .character => encodeValue (characterEncode wp) v
  | .itemContainer => encodeValue (noneOr itemContainerEncode) v
  | .itemContainerSlots => encodeValue (noneOr itemContainerSlotsEncode) v
  | .characterContainer => encodeValue (noneOr charContainerEncode) v
  | .dynamicItem => encodeValue (noneOr (dynamicItemEncode wp)) v
  | .foliageModel => encodeValue foliageModelEncode v
  | .foliageModelInstance => encodeValue foliageInstanceEncode v
  | .baseCamp => encodeValue baseCampEncode v
  | .workerDirector => encodeValue workerDirectorEncode v
  | .workCollection => encodeValue workCollectionEncode v
  | .baseCampModule => delThen (Val.upd (forEach campModulePre1) [P "value"]) v
  | .work => delThen (Val.upd (forEach workPre1) (ks ["value", "values"])) v
  | .mapObject => delThen (Val.upd (forEach (mapObjectPre1 wp)) (ks ["value", "values"])) v
  | .debug => v.del (P "custom_type")
  | .connector => encodeValue (noneOr connectorEncode) v
  | .buildProcess => encodeValue buildProcessEncode v
  | .mapModel => encodeValue mapModelEncode v

end CodecId
end Pal
