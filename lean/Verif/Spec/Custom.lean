import Verif.Spec.Tree
/-
Which properties the custom properties (decoders for raw-data blobs) understand: the
blobs hold the records of `Spec/Blobs.lean`, and the fields stored beside the blobs agree
with them.  Of the model, only the question whether bytes could be taken for an egg is
used (`NotEgg`): a dynamic item is an egg if and only if the tool manages to read it as one.
-/

namespace Pal.Spec
open Pal

variable {m : Mode}

/-- Nothing is changed. -/
def plainK : CodecId → Val → Val := fun _ x => x

/-- A property list embedded in a blob. -/
def objOf (cfg : Cfg) (ps : Props m) : Obj := ⟨encProps ps, .dict (valProps cfg plainK [] ps)⟩
def ObjWf (cfg : Cfg) (ps : Props m) : Prop := (ps.map Prod.fst).Nodup ∧ wfProps cfg noCustom [] ps

/-- The list has a property with this name. -/
def Has (ps : Props m) (name : String) (q : PropT m) : Prop := ∃ n : Str, n.val = P name ∧ (n, q) ∈ ps

/-- A byte array. -/
def IsBlob (p : PropT m) (b : Bytes) : Prop := ∃ id, p = .bytes id b
/-- The list has a byte array called "RawData". -/
def RawIs (ps : Props m) (b : Bytes) : Prop := ∃ id, Has ps "RawData" (.bytes id b)
/-- The list has a struct of this name with these properties. -/
def HasStruct (ps : Props m) (name : String) (qs : Props m) : Prop :=
  ∃ st sid id, Has ps name (.struct st sid id (.props qs))
/-- The list has an enum of this name with this value. -/
def HasEnum (ps : Props m) (name : String) (s : PyStr) : Prop :=
  ∃ et id v, Has ps name (.enum et id v) ∧ v.val = s
/-- The list has a map of this name with these entries. -/
def HasMap (ps : Props m) (name : String) (l : List (MVal m × MVal m)) : Prop :=
  ∃ kt vt id, Has ps name (.map kt vt id l)

/-- A map value that is a property list with raw data. -/
def RawValue (v : MVal m) (b : Bytes) : Prop := ∃ ps, v = .struct (.props ps) ∧ RawIs ps b

/-- A map key that is a string. -/
def KeyIs (k : MVal m) (s : PyStr) : Prop := ∃ t : Str, t.val = s ∧ (k = .enum t ∨ k = .name t)

/-- The attempt to read an egg fails, with an exception other than the one it lets through. -/
def NotEgg (rec : R Val) (b : Bytes) : Prop :=
  ∃ e, eggDecode rec b = .error e ∧ e ≠ .exc "Warning: EOF not reached" ∧ e ≠ .fuel

/-- The bytes cannot be read as an egg, whatever custom properties are enabled. -/
def NotEggBytes (cfg : Cfg) (b : Bytes) : Prop :=
  ∀ custom n, b.length < n → NotEgg (rPropsLoop { cfg with custom := custom } n [] []) b

/-- Contents of dynamic items that are recognized as what they are. -/
def DynCanon (cfg : Cfg) : DynBody m → Prop
  | .egg _ o _ _ => ∃ ps : Props m, ObjWf cfg ps ∧ o = objOf cfg ps
  | .armor _ => True
  | .weapon d b s => NotEggBytes cfg (eF32 d ++ e32 b ++ eList eStr s)
  | .unknown b => NotEggBytes cfg b ∧ b.length ≠ 4 ∧ ∃ e, weaponDecode m.an b = .error e ∧ e ≠ .fuel

/-- Concrete models that embed a property list embed a well-formed one. -/
def ConcreteCanon (cfg : Cfg) : ConcreteBody m → Prop
  | .hatching o _ _ => ∃ ps : Props m, ObjWf cfg ps ∧ o = objOf cfg ps
  | _ => True

/-- The class of objects without known contents. -/
def unknownClass : String := "DEFAULT_UNKNOWN_PalMapObjectConcreteModelBase"

/-- Raw data of a concrete model: nothing, unknown contents, or a record. -/
def ConcreteRaw (m : Mode) (cfg : Cfg) (oid : PyStr) (b : Bytes) : Prop :=
  b = [] ∨ concreteClass? oid = none ∨ concreteClass? oid = some unknownClass ∨
  ∃ c : Concrete m, ConcreteCanon cfg c.body ∧ concreteClass? oid = some c.body.cls ∧ b = c.enc

/-- An entry of the module map of a concrete model. -/
def ModuleEntry (e : MVal m × MVal m) : Prop :=
  ∃ t b, KeyIs e.1 t ∧ RawValue e.2 b ∧ (b = [] ∨ ∃ d : Module, t = P d.type ∧ b = d.enc)

/-- A map object. -/
def MapObject (cfg : Cfg) (v : SVal m) : Prop :=
  ∃ ps ms cs bs qs es oid cb b, v = .props ps ∧
    HasStruct ps "Model" ms ∧ (∃ o : MapModel m, RawIs ms o.enc) ∧
    HasStruct ms "Connector" cs ∧ RawIs cs cb ∧ (cb = [] ∨ ∃ c : Connector, cb = c.enc) ∧
    HasStruct ms "BuildProcess" bs ∧ (∃ r : BuildProcess, RawIs bs r.enc) ∧
    (∃ id, Has ps "MapObjectId" (.name id oid) ∨ Has ps "MapObjectId" (.str id oid)) ∧
    HasStruct ps "ConcreteModel" qs ∧ RawIs qs b ∧ ConcreteRaw m cfg oid.val b ∧
    HasMap qs "ModuleMap" es ∧ ∀ e ∈ es, ModuleEntry e

/-- A unit of work with its assignments. -/
def WorkItem (v : SVal m) : Prop :=
  ∃ ps es, ∃ w : Work m, v = .props ps ∧ HasEnum ps "WorkableType" (P w.body.type) ∧ RawIs ps w.enc ∧
    HasMap ps "WorkAssignMap" es ∧ ∀ e ∈ es, ∃ a : WorkAssign, RawValue e.2 a.enc

/-- A guild or other group. -/
def GroupEntry (e : MVal m × MVal m) : Prop :=
  ∃ ps, ∃ g : Group, e.2 = .struct (.props ps) ∧ HasEnum ps "GroupType" g.body.type ∧ RawIs ps g.enc

/-- The base camp module types with known contents. -/
def campTypes : List String := ["EPalBaseCampModuleType::Energy", "EPalBaseCampModuleType::Medical",
  "EPalBaseCampModuleType::ResourceCollector", "EPalBaseCampModuleType::ItemStorages",
  "EPalBaseCampModuleType::FacilityReservation", "EPalBaseCampModuleType::ObjectMaintenance",
  "EPalBaseCampModuleType::TransportItemDirector", "EPalBaseCampModuleType::PassiveEffect"]

/-- A base camp module. -/
def CampEntry (e : MVal m × MVal m) : Prop :=
  ∃ t b, KeyIs e.1 t ∧ RawValue e.2 b ∧
    ((∃ c : CampModule m, t = P c.type ∧ b = c.enc) ∨ ∀ s ∈ campTypes, t ≠ P s)

/-- The properties each custom property understands. -/
def Canon (cfg : Cfg) (c : CodecId) (p : PropT m) : Prop :=
  match c with
  | .group => ∃ kt vt id l, p = .map kt vt id l ∧ ∀ e ∈ l, GroupEntry e
  | .character => ∃ c : Character, (∃ ps : Props m, ObjWf cfg ps ∧ c.obj = objOf cfg ps) ∧ IsBlob p c.enc
  | .itemContainer => IsBlob p [] ∨ ∃ r : Permission, IsBlob p r.enc
  | .itemContainerSlots => IsBlob p [] ∨ ∃ r : Slots m, IsBlob p r.enc
  | .characterContainer => IsBlob p [] ∨ ∃ r : CharSlot, IsBlob p r.enc
  | .dynamicItem => IsBlob p [] ∨ ∃ r : DynItem m, DynCanon cfg r.body ∧ IsBlob p r.enc
  | .foliageModel => ∃ r : FoliageModel, IsBlob p r.enc
  | .foliageModelInstance => ∃ r : FoliageInst m, IsBlob p r.enc
  | .baseCamp => ∃ r : BaseCamp m, IsBlob p r.enc
  | .workerDirector => ∃ r : WorkerDirector m, IsBlob p r.enc
  | .workCollection => ∃ r : WorkCollection, IsBlob p r.enc
  | .baseCampModule => ∃ kt vt id l, p = .map kt vt id l ∧ ∀ e ∈ l, CampEntry e
  | .work => ∃ id pn pt tn gid l, p = .structs id pn pt tn gid l ∧ ∀ v ∈ l, WorkItem v
  | .mapObject => ∃ id pn pt tn gid l, p = .structs id pn pt tn gid l ∧ ∀ v ∈ l, MapObject cfg v
  | .debug => ∃ b, IsBlob p b
  | .connector => ∃ r : Connector, IsBlob p r.enc
  | .buildProcess => ∃ r : BuildProcess, IsBlob p r.enc
  | .mapModel => ∃ r : MapModel m, IsBlob p r.enc

end Pal.Spec
