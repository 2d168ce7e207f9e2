import Verif.Spec.Types
import Verif.Spec.Value
import Verif.Spec.Packed
import Verif.Model.Raw.ConcreteTable
import Verif.Model.Json
/-
The raw-data blobs: for each kind of blob the record it stores, the bytes of the record
(`enc`) and the Python value the tool shows for it (`val`).  Nothing here refers to the
model's decoders and encoders; `concreteTable`/`concreteClass?` is the data table of
map_concrete_model.py.
-/

namespace Pal.Spec
open Pal

/-- `decode` and `encode` are inverse on the blob `b`, whose decoded value is `v`:
decoding gives `v`, encoding `v` gives `b`, and so does encoding what is left of `v` after
writing it to a JSON file and reading it back. -/
def RoundTrips (m : Mode) (decode : Val → Except Err Val) (encode : Val → Except Err Bytes)
    (b : Bytes) (v : Val) : Prop :=
  decode (vBytesT b) = .ok v ∧ encode v = .ok b ∧
  (m.json = true → ∃ v', jsonRT m.an v = .ok v' ∧ encode v' = .ok b)

/-- `decode` fails if something follows the blob `b`. -/
def RejectsMore (decode : Val → Except Err Val) (b : Bytes) : Prop :=
  ∀ extra, extra ≠ [] → ∃ e, decode (vBytesT (b ++ extra)) = .error e

/-- A list whose length fits a signed 32-bit count. -/
abbrev Lst31 (α : Type) := { l : List α // l.length < 2 ^ 31 }

/-- An embedded property list: its bytes and its value. -/
structure Obj where
  bytes : Bytes
  value : Val

/-! ### common.py -/

structure ItemAndNum where
  staticId : Str
  world : Guid
  localId : Guid
  num : BitVec 32

def ItemAndNum.enc (r : ItemAndNum) : Bytes := eStr r.staticId ++ eGuid r.world ++ eGuid r.localId ++ e32 r.num
def ItemAndNum.val (r : ItemAndNum) : Val :=
  vDict [("item_id", vDict [("static_id", vStr r.staticId),
    ("dynamic_id", vDict [("created_world_id", vGuid r.world), ("local_id_in_created_world", vGuid r.localId)])]),
    ("num", vU r.num)]

/-! ### Groups (guilds) -/

/-- A handle: player GUID and instance GUID. -/
def eHandle (h : Guid × Guid) : Bytes := eGuid h.1 ++ eGuid h.2
def vHandle (h : Guid × Guid) : Val := vDict [("guid", vGuid h.1), ("instance_id", vGuid h.2)]

structure Player where
  uid : Guid
  lastOnline : BitVec 64
  name : Str

def Player.enc (p : Player) : Bytes := eGuid p.uid ++ e64 p.lastOnline ++ eStr p.name
def Player.info (p : Player) : Val :=
  vDict [("last_online_real_time", vI p.lastOnline), ("player_name", vStr p.name)]
def Player.val (p : Player) : Val := vDict [("player_uid", vGuid p.uid), ("player_info", p.info)]

/-- The fields every organisation has. -/
structure Org where
  type : BitVec 8
  baseIds : Lst Guid

/-- The fields both kinds of guild have. -/
structure GuildBase where
  level : BitVec 32
  points : Lst Guid
  name : Str

inductive GroupBody where
  | guild (o : Org) (g : GuildBase) (admin : Guid) (players : Lst31 Player)
  | independent (o : Org) (g : GuildBase) (uid : Guid) (name2 : Str) (lastOnline : BitVec 64) (player : Str)
  | organization (o : Org)
  | other (type : Str) (h : type.val ∉ [P "EPalGroupType::Guild", P "EPalGroupType::IndependentGuild",
      P "EPalGroupType::Organization"])

structure Group where
  id : Guid
  name : Str
  handles : Lst (Guid × Guid)
  body : GroupBody

/-- The group type that the property list stores beside the blob. -/
def GroupBody.type : GroupBody → PyStr
  | .guild .. => P "EPalGroupType::Guild"
  | .independent .. => P "EPalGroupType::IndependentGuild"
  | .organization _ => P "EPalGroupType::Organization"
  | .other t _ => t.val

def Org.enc (o : Org) : Bytes := e8 o.type ++ eList eGuid o.baseIds
def Org.entries (o : Org) : List (String × Val) :=
  [("org_type", vU o.type), ("base_ids", vList vGuid o.baseIds)]
def GuildBase.enc (g : GuildBase) : Bytes := e32 g.level ++ eList eGuid g.points ++ eStr g.name
def GuildBase.entries (g : GuildBase) : List (String × Val) :=
  [("base_camp_level", vI g.level), ("map_object_instance_ids_base_camp_points", vList vGuid g.points),
    ("guild_name", vStr g.name)]

def GroupBody.enc : GroupBody → Bytes
  | .guild o g a pl => o.enc ++ g.enc ++ eGuid a ++ lit 4 pl.val.length ++ pl.val.flatMap Player.enc
  | .independent o g u n t p => o.enc ++ g.enc ++ eGuid u ++ eStr n ++ e64 t ++ eStr p
  | .organization o => o.enc
  | .other _ _ => []
def GroupBody.entries : GroupBody → List (String × Val)
  | .guild o g a pl => o.entries ++ g.entries ++
      [("admin_player_uid", vGuid a), ("players", .list (pl.val.map Player.val))]
  | .independent o g u n t p => o.entries ++ g.entries ++
      [("player_uid", vGuid u), ("guild_name_2", vStr n),
        ("player_info", vDict [("last_online_real_time", vI t), ("player_name", vStr p)])]
  | .organization o => o.entries
  | .other _ _ => []

def Group.enc (g : Group) : Bytes := eGuid g.id ++ eStr g.name ++ eList eHandle g.handles ++ g.body.enc
def Group.val (g : Group) : Val :=
  vDict ([("group_type", .str g.body.type), ("group_id", vGuid g.id), ("group_name", vStr g.name),
    ("individual_character_handle_ids", vList vHandle g.handles)] ++ g.body.entries)

/-! ### Characters -/

structure Character where
  obj : Obj
  unknown : { b : Bytes // b.length = 4 }
  groupId : Guid

def Character.enc (c : Character) : Bytes := c.obj.bytes ++ c.unknown.val ++ eGuid c.groupId
def Character.val (c : Character) : Val :=
  vDict [("object", c.obj.value), ("unknown_bytes", vBytesT c.unknown.val), ("group_id", vGuid c.groupId)]

/-! ### Containers -/

structure CharSlot where
  player : Guid
  inst : Guid
  tribe : BitVec 8

def CharSlot.enc (c : CharSlot) : Bytes := eGuid c.player ++ eGuid c.inst ++ e8 c.tribe
def CharSlot.val (c : CharSlot) : Val :=
  vDict [("player_uid", vGuid c.player), ("instance_id", vGuid c.inst), ("permission_tribe_id", vU c.tribe)]

structure Permission where
  typeA : Lst (BitVec 8)
  typeB : Lst (BitVec 8)
  items : Lst Str

def Permission.enc (p : Permission) : Bytes := eList e8 p.typeA ++ eList e8 p.typeB ++ eList eStr p.items
def Permission.val (p : Permission) : Val :=
  vDict [("permission", vDict [("type_a", vList vU p.typeA), ("type_b", vList vU p.typeB),
    ("item_static_ids", vList vStr p.items)])]

structure Slots (m : Mode) where
  permission : Permission
  corruption : F32 m

def Slots.enc {m : Mode} (s : Slots m) : Bytes := s.permission.enc ++ eF32 s.corruption
def Slots.val {m : Mode} (s : Slots m) : Val :=
  vDict [("permission", vDict [("type_a", vList vU s.permission.typeA), ("type_b", vList vU s.permission.typeB),
    ("item_static_ids", vList vStr s.permission.items)]), ("corruption_progress_value", vF32 s.corruption)]

/-! ### Dynamic items -/

inductive DynBody (m : Mode) where
  | egg (character : Str) (obj : Obj) (unknown : { b : Bytes // b.length = 4 }) (id : Guid)
  | armor (durability : F32 m)
  | weapon (durability : F32 m) (bullets : BitVec 32) (skills : Lst Str)
  | unknown (b : Bytes)

structure DynItem (m : Mode) where
  world : Guid
  localId : Guid
  staticId : Str
  body : DynBody m

variable {m : Mode}

def DynBody.enc : DynBody m → Bytes
  | .egg c o u g => eStr c ++ o.bytes ++ u.val ++ eGuid g
  | .armor d => eF32 d
  | .weapon d b s => eF32 d ++ e32 b ++ eList eStr s
  | .unknown b => b
def DynBody.entries : DynBody m → List (String × Val)
  | .egg c o u g => [("type", .str (P "egg")), ("character_id", vStr c), ("object", o.value),
      ("unknown_bytes", vBytesT u.val), ("unknown_id", vGuid g)]
  | .armor d => [("type", .str (P "armor")), ("durability", vF32 d)]
  | .weapon d b s => [("type", .str (P "weapon")), ("durability", vF32 d), ("remaining_bullets", vI b),
      ("passive_skill_list", vList vStr s)]
  | .unknown b => [("type", .str (P "unknown")), ("trailer", vBytesL b)]

def DynItem.enc (d : DynItem m) : Bytes := eGuid d.world ++ eGuid d.localId ++ eStr d.staticId ++ d.body.enc
def DynItem.val (d : DynItem m) : Val :=
  vDict (("id", vDict [("created_world_id", vGuid d.world), ("local_id_in_created_world", vGuid d.localId),
    ("static_id", vStr d.staticId)]) :: d.body.entries)

/-! ### Foliage -/

structure FoliageModel where
  model : Str
  preset : BitVec 8
  x : BitVec 64
  y : BitVec 64
  z : BitVec 64

def FoliageModel.enc (f : FoliageModel) : Bytes := eStr f.model ++ e8 f.preset ++ e64 f.x ++ e64 f.y ++ e64 f.z
def FoliageModel.val (f : FoliageModel) : Val :=
  vDict [("model_id", vStr f.model), ("foliage_preset_type", vU f.preset),
    ("cell_coord", vDict [("x", vI f.x), ("y", vI f.y), ("z", vI f.z)])]

/-- The rotation is stored as three 16-bit angles, the location as three integers of
minimal common width. -/
structure FoliageInst (m : Mode) where
  id : Guid
  pitch : BitVec 16
  yaw : BitVec 16
  roll : BitVec 16
  x : Int
  y : Int
  z : Int
  width : Nat
  hwidth : MinWidth width x y z
  hsmall : |(x : ℚ)| < 2 ^ 52 ∧ |(y : ℚ)| < 2 ^ 52 ∧ |(z : ℚ)| < 2 ^ 52
  scale : F32 m
  hp : BitVec 32

def FoliageInst.enc (f : FoliageInst m) : Bytes :=
  eGuid f.id ++ encRotator f.pitch.toNat f.yaw.toNat f.roll.toNat ++ encPacked f.width f.x f.y f.z ++
    eF32 f.scale ++ e32 f.hp
/-- The value shown, given the doubles shown for the angles and coordinates. -/
def FoliageInst.valWith (f : FoliageInst m) (fp fy fr fx fyy fz : BitVec 64) : Val :=
  vDict [("model_instance_id", vGuid f.id),
    ("world_transform", vDict [
      ("rotator", vDict [("pitch", .float fp), ("yaw", .float fy), ("roll", .float fr)]),
      ("location", vDict [("x", .float fx), ("y", .float fyy), ("z", .float fz)]),
      ("scale_x", vF32 f.scale)]),
    ("hp", vI f.hp)]
/-- Angles are shown in degrees, coordinates as numbers. -/
def FoliageInst.Shows (f : FoliageInst m) (v : Val) : Prop :=
  ∃ fp fy fr fx fyy fz, v = f.valWith fp fy fr fx fyy fz ∧
    value64 fp = f.pitch.toNat * 360 / 65536 ∧ value64 fy = f.yaw.toNat * 360 / 65536 ∧
    value64 fr = f.roll.toNat * 360 / 65536 ∧
    value64 fx = f.x ∧ value64 fyy = f.y ∧ value64 fz = f.z

/-! ### Base camps -/

structure BaseCamp (m : Mode) where
  id : Guid
  name : Str
  state : BitVec 8
  transform : Transform m
  area : F32 m
  group : Guid
  travel : Transform m
  owner : Guid

def BaseCamp.enc (b : BaseCamp m) : Bytes :=
  eGuid b.id ++ eStr b.name ++ e8 b.state ++ eTransform b.transform ++ eF32 b.area ++ eGuid b.group ++
    eTransform b.travel ++ eGuid b.owner
def BaseCamp.val (b : BaseCamp m) : Val :=
  vDict [("id", vGuid b.id), ("name", vStr b.name), ("state", vU b.state), ("transform", vTransform b.transform),
    ("area_range", vF32 b.area), ("group_id_belong_to", vGuid b.group),
    ("fast_travel_local_transform", vTransform b.travel), ("owner_map_object_instance_id", vGuid b.owner)]

structure WorkerDirector (m : Mode) where
  id : Guid
  spawn : Transform m
  order : BitVec 8
  battle : BitVec 8
  container : Guid

def WorkerDirector.enc (w : WorkerDirector m) : Bytes :=
  eGuid w.id ++ eTransform w.spawn ++ e8 w.order ++ e8 w.battle ++ eGuid w.container
def WorkerDirector.val (w : WorkerDirector m) : Val :=
  vDict [("id", vGuid w.id), ("spawn_transform", vTransform w.spawn), ("current_order_type", vU w.order),
    ("current_battle_type", vU w.battle), ("container_id", vGuid w.container)]

structure WorkCollection where
  id : Guid
  works : Lst Guid

def WorkCollection.enc (w : WorkCollection) : Bytes := eGuid w.id ++ eList eGuid w.works
def WorkCollection.val (w : WorkCollection) : Val :=
  vDict [("id", vGuid w.id), ("work_ids", vList vGuid w.works)]

structure TransportInfo (m : Mode) where
  items : Lst ItemAndNum
  location : Vec m

def TransportInfo.enc (t : TransportInfo m) : Bytes := eList ItemAndNum.enc t.items ++ eVec t.location
def TransportInfo.val (t : TransportInfo m) : Val :=
  vDict [("item_infos", vList ItemAndNum.val t.items), ("character_location", vVec t.location)]

/-- Effect types 0 and 1 have no data, type 2 has a work type and four unknown bytes. -/
inductive PassiveEffect where
  | plain (second : Bool)
  | workHard (type : BitVec 8) (unknown : { b : Bytes // b.length = 4 })

def PassiveEffect.enc : PassiveEffect → Bytes
  | .plain false => [0]
  | .plain true => [1]
  | .workHard t u => [2] ++ e8 t ++ u.val
def PassiveEffect.val : PassiveEffect → Val
  | .plain false => vDict [("type", .int 0)]
  | .plain true => vDict [("type", .int 1)]
  | .workHard t u => vDict [("type", .int 2), ("work_hard_type", vU t), ("unknown_trailer", vBytesL u.val)]

inductive CampModule (m : Mode) where
  | noData (type : String) (h : type ∈ ["EPalBaseCampModuleType::Energy", "EPalBaseCampModuleType::Medical",
      "EPalBaseCampModuleType::ResourceCollector", "EPalBaseCampModuleType::ItemStorages",
      "EPalBaseCampModuleType::FacilityReservation", "EPalBaseCampModuleType::ObjectMaintenance"])
  | transport (infos : Lst (TransportInfo m))
  | passive (effects : Lst PassiveEffect)

/-- The module type is the key of the map entry that holds the blob. -/
def CampModule.type : CampModule m → String
  | .noData t _ => t
  | .transport _ => "EPalBaseCampModuleType::TransportItemDirector"
  | .passive _ => "EPalBaseCampModuleType::PassiveEffect"
def CampModule.enc : CampModule m → Bytes
  | .noData _ _ => []
  | .transport l => eList TransportInfo.enc l
  | .passive l => eList PassiveEffect.enc l
def CampModule.val : CampModule m → Val
  | .noData _ _ => vDict []
  | .transport l => vDict [("transport_item_character_infos", vList TransportInfo.val l)]
  | .passive l => vDict [("passive_effects", vList PassiveEffect.val l)]

/-! ### Work -/

/-- Work types that store only the common fields. -/
def plainWork : List String := ["EPalWorkableType::TransportItemInBaseCamp", "EPalWorkableType::LevelObject",
  "EPalWorkableType::Repair", "EPalWorkableType::BootUp", "EPalWorkableType::OnlyJoin",
  "EPalWorkableType::OnlyJoinAndWalkAround", "EPalWorkableType::RemoveMapObjectEffect",
  "EPalWorkableType::MonsterFarm"]

structure WorkBase (m : Mode) where
  id : Guid
  location : Vec m
  rotation : Quat m
  origin : Vec m
  extent : Vec m
  radius : F64 m
  camp : Guid
  model : Guid
  concrete : Guid
  state : BitVec 8
  assign : Lst (Vec m × Vec m)
  behaviour : BitVec 8
  define : Str
  override : BitVec 8
  fixed : BitVec 8
  otomo : Bool
  trigger : Bool
  steal : Bool

def eAssignLoc (a : Vec m × Vec m) : Bytes := eVec a.1 ++ eVec a.2
def vAssignLoc (a : Vec m × Vec m) : Val := vDict [("location", vVec a.1), ("facing_direction", vVec a.2)]

def WorkBase.enc (w : WorkBase m) : Bytes :=
  eGuid w.id ++ eVec w.location ++ eQuat w.rotation ++ eVec w.origin ++ eVec w.extent ++ eF64 w.radius ++
    eGuid w.camp ++ eGuid w.model ++ eGuid w.concrete ++ e8 w.state ++ eList eAssignLoc w.assign ++
    e8 w.behaviour ++ eStr w.define ++ e8 w.override ++ e8 w.fixed ++ eFlag w.otomo ++ eFlag w.trigger ++
    eFlag w.steal
def WorkBase.entries (w : WorkBase m) : List (String × Val) :=
  [("id", vGuid w.id),
    ("workable_bounds", vDict [("location", vVec w.location), ("rotation", vQuat w.rotation),
      ("box_sphere_bounds", vDict [("origin", vVec w.origin), ("box_extent", vVec w.extent),
        ("sphere_radius", vF64 w.radius)])]),
    ("base_camp_id_belong_to", vGuid w.camp), ("owner_map_object_model_id", vGuid w.model),
    ("owner_map_object_concrete_model_id", vGuid w.concrete), ("current_state", vU w.state),
    ("assign_locations", vList vAssignLoc w.assign), ("behaviour_type", vU w.behaviour),
    ("assign_define_data_id", vStr w.define), ("override_work_type", vU w.override),
    ("assignable_fixed_type", vU w.fixed), ("assignable_otomo", vBool w.otomo),
    ("can_trigger_worker_event", vBool w.trigger), ("can_steal_assign", vBool w.steal)]

/-- A player and instance GUID pair, as shown in work data. -/
def vIndividual (i : Guid × Guid) : Val := vDict [("player_uid", vGuid i.1), ("instance_id", vGuid i.2)]

inductive WorkBody (m : Mode) where
  | plain (type : String) (h : type ∈ plainWork) (b : WorkBase m)
  | defense (b : WorkBase m) (combat : BitVec 8)
  | progress (b : WorkBase m) (required : F32 m) (exp : BitVec 32) (current : F32 m) (auto : F32 m)
  | revive (b : WorkBase m) (target : Guid × Guid)
  | assign (handle : Guid) (index : BitVec 32) (type : BitVec 8) (who : Guid × Guid) (state : BitVec 8)
      (fixed : BitVec 32)

def WorkBody.type : WorkBody m → String
  | .plain t _ _ => t
  | .defense .. => "EPalWorkableType::Defense"
  | .progress .. => "EPalWorkableType::Progress"
  | .revive .. => "EPalWorkableType::ReviveCharacter"
  | .assign .. => "EPalWorkableType::Assign"
def WorkBody.enc : WorkBody m → Bytes
  | .plain _ _ b => b.enc
  | .defense b c => b.enc ++ e8 c
  | .progress b r e c a => b.enc ++ eF32 r ++ e32 e ++ eF32 c ++ eF32 a
  | .revive b t => b.enc ++ eHandle t
  | .assign h i t w s f => eGuid h ++ e32 i ++ e8 t ++ eHandle w ++ e8 s ++ e32 f
def WorkBody.entries : WorkBody m → List (String × Val)
  | .plain _ _ b => b.entries
  | .defense b c => b.entries ++ [("defense_combat_type", vU c)]
  | .progress b r e c a => b.entries ++ [("required_work_amount", vF32 r), ("work_exp", vI e),
      ("current_work_amount", vF32 c), ("auto_work_self_amount_by_sec", vF32 a)]
  | .revive b t => b.entries ++ [("target_individual_id", vIndividual t)]
  | .assign h i t w s f => [("handle_id", vGuid h), ("location_index", vI i), ("assign_type", vU t),
      ("assigned_individual_id", vIndividual w), ("state", vU s), ("fixed", vU f)]

/-- Transform types 1 to 3. -/
inductive WorkTransform (m : Mode) where
  | direct (t : Transform m)
  | object (id : Guid)
  | handle (id : Guid) (inst : Guid)

def WorkTransform.enc : WorkTransform m → Bytes
  | .direct t => [1] ++ eTransform t
  | .object g => [2] ++ eGuid g
  | .handle g i => [3] ++ eGuid g ++ eGuid i
def WorkTransform.val : WorkTransform m → Val
  | .direct t => vDict [("type", .int 1), ("v2", .int 0), ("rotation", vQuat t.rotation),
      ("translation", vVec t.translation), ("scale3d", vVec t.scale)]
  | .object g => vDict [("type", .int 2), ("v2", .int 0), ("map_object_instance_id", vGuid g)]
  | .handle g i => vDict [("type", .int 3), ("v2", .int 0), ("guid", vGuid g), ("instance_id", vGuid i)]

structure Work (m : Mode) where
  body : WorkBody m
  transform : WorkTransform m

def Work.enc (w : Work m) : Bytes := w.body.enc ++ w.transform.enc
def Work.val (w : Work m) : Val := vDict (w.body.entries ++ [("transform", w.transform.val)])

structure WorkAssign where
  id : Guid
  index : BitVec 32
  type : BitVec 8
  who : Guid × Guid
  state : BitVec 8
  fixed : Bool

def WorkAssign.enc (w : WorkAssign) : Bytes :=
  eGuid w.id ++ e32 w.index ++ e8 w.type ++ eHandle w.who ++ e8 w.state ++ eFlag w.fixed
def WorkAssign.val (w : WorkAssign) : Val :=
  vDict [("id", vGuid w.id), ("location_index", vI w.index), ("assign_type", vU w.type),
    ("assigned_individual_id", vIndividual w.who), ("state", vU w.state), ("fixed", vBool w.fixed)]

/-! ### Map objects -/

structure MapModel (m : Mode) where
  inst : Guid
  concrete : Guid
  camp : Guid
  group : Guid
  hp : BitVec 32
  hpMax : BitVec 32
  transform : Transform m
  repair : Guid
  spawner : Guid
  owner : Guid
  builder : Guid
  restrict : BitVec 8
  stage : Guid
  stageValid : Bool
  created : BitVec 64

def MapModel.enc (o : MapModel m) : Bytes :=
  eGuid o.inst ++ eGuid o.concrete ++ eGuid o.camp ++ eGuid o.group ++ e32 o.hp ++ e32 o.hpMax ++
    eTransform o.transform ++ eGuid o.repair ++ eGuid o.spawner ++ eGuid o.owner ++ eGuid o.builder ++
    e8 o.restrict ++ eGuid o.stage ++ eFlag o.stageValid ++ e64 o.created
def MapModel.val (o : MapModel m) : Val :=
  vDict [("instance_id", vGuid o.inst), ("concrete_model_instance_id", vGuid o.concrete),
    ("base_camp_id_belong_to", vGuid o.camp), ("group_id_belong_to", vGuid o.group),
    ("hp", vDict [("current", vI o.hp), ("max", vI o.hpMax)]),
    ("initital_transform_cache", vTransform o.transform), ("repair_work_id", vGuid o.repair),
    ("owner_spawner_level_object_instance_id", vGuid o.spawner), ("owner_instance_id", vGuid o.owner),
    ("build_player_uid", vGuid o.builder), ("interact_restrict_type", vU o.restrict),
    ("stage_instance_id_belong_to", vDict [("id", vGuid o.stage), ("valid", vBool o.stageValid)]),
    ("created_at", vI o.created)]

def eConnect (c : Guid × BitVec 8) : Bytes := eGuid c.1 ++ e8 c.2
def vConnect (c : Guid × BitVec 8) : Val :=
  vDict [("connect_to_model_instance_id", vGuid c.1), ("index", vU c.2)]
def eOther (c : BitVec 8 × Lst (Guid × BitVec 8)) : Bytes := e8 c.1 ++ eList eConnect c.2
def vOther (c : BitVec 8 × Lst (Guid × BitVec 8)) : Val :=
  vDict [("index", vU c.1), ("connect", vList vConnect c.2)]

/-- The other connectors extend to the end of the blob; there may be none. -/
structure Connector where
  level : BitVec 32
  index : BitVec 8
  anyPlace : Lst (Guid × BitVec 8)
  others : List (BitVec 8 × Lst (Guid × BitVec 8))

def Connector.enc (c : Connector) : Bytes :=
  e32 c.level ++ e8 c.index ++ eList eConnect c.anyPlace ++ c.others.flatMap eOther
def Connector.val (c : Connector) : Val :=
  vDict ([("supported_level", vI c.level),
    ("connect", vDict [("index", vU c.index), ("any_place", vList vConnect c.anyPlace)])] ++
    if c.others = [] then [] else [("other_connectors", .list (c.others.map vOther))])

structure BuildProcess where
  state : BitVec 8
  id : Guid

def BuildProcess.enc (b : BuildProcess) : Bytes := e8 b.state ++ eGuid b.id
def BuildProcess.val (b : BuildProcess) : Val := vDict [("state", vU b.state), ("id", vGuid b.id)]

/-! ### Concrete models -/

def eSlotIx (s : BitVec 8 × Lst (BitVec 32)) : Bytes := e8 s.1 ++ eList e32 s.2
def vSlotIx (s : BitVec 8 × Lst (BitVec 32)) : Val := vDict [("attribute", vU s.1), ("indexes", vList vI s.2)]

structure LockInfo where
  player : Guid
  failed : BitVec 32
  success : Bool

def LockInfo.enc (l : LockInfo) : Bytes := eGuid l.player ++ e32 l.failed ++ eFlag l.success
def LockInfo.val (l : LockInfo) : Val :=
  vDict [("player_uid", vGuid l.player), ("try_failed_count", vI l.failed), ("try_success_cache", vBool l.success)]

/-- Modules of concrete models, by module type. -/
inductive Module where
  | items (container : Guid) (slots : Lst (BitVec 8 × Lst (BitVec 32))) (all : Lst (BitVec 8)) (drop : Bool)
      (usage : BitVec 8)
  | characters (container : Guid)
  | workee (work : Guid)
  | switch (state : BitVec 8)
  | lock (state : BitVec 8) (password : Str) (infos : Lst LockInfo)

def Module.type : Module → String
  | .items .. => "EPalMapObjectConcreteModelModuleType::ItemContainer"
  | .characters _ => "EPalMapObjectConcreteModelModuleType::CharacterContainer"
  | .workee _ => "EPalMapObjectConcreteModelModuleType::Workee"
  | .switch _ => "EPalMapObjectConcreteModelModuleType::Switch"
  | .lock .. => "EPalMapObjectConcreteModelModuleType::PasswordLock"
def Module.enc : Module → Bytes
  | .items c s a d u => eGuid c ++ eList eSlotIx s ++ eList e8 a ++ eFlag d ++ e8 u
  | .characters c => eGuid c
  | .workee w => eGuid w
  | .switch s => e8 s
  | .lock s p i => e8 s ++ eStr p ++ eList LockInfo.enc i
def Module.val : Module → Val
  | .items c s a d u => vDict [("target_container_id", vGuid c), ("slot_attribute_indexes", vList vSlotIx s),
      ("all_slot_attribute", vList vU a), ("drop_item_at_disposed", vBool d), ("usage_type", vU u)]
  | .characters c => vDict [("target_container_id", vGuid c)]
  | .workee w => vDict [("target_work_id", vGuid w)]
  | .switch s => vDict [("switch_state", vU s)]
  | .lock s p i => vDict [("lock_state", vU s), ("password", vStr p), ("player_infos", vList LockInfo.val i)]

/-- Bodies of concrete models, by concrete model class. -/
inductive ConcreteBody (m : Mode) where
  | noData (cls : String) (h : cls ∈ concreteNoOp)
  | droppedCharacter (stored owner : Guid)
  | convertItem (recipe : Str) (remain requested : BitVec 32) (rate : F32 m)
  | pickup (auto : Bool)
  | dropItem (auto : Bool) (staticId : Str) (world localId : Guid)
  | dropOnDamage (items : Lst ItemAndNum)
  | deathPenalty (owner : Guid)
  | bulletLauncher (remaining magazine : BitVec 32) (bullet : Str)
  | energy (stored : F32 m)
  | farm (crop : Str) (state : BitVec 8) (progress water : F32 m) (growth : Option (F32 m × F32 m))
  | fastTravel (location : Guid)
  | shipping (hours : Lst (BitVec 32))
  | product (rate : F32 m) (item : Str)
  | recover (amount : F32 m)
  | hatching (obj : Obj) (unknown : BitVec 32) (character : Guid)
  | treasure (grade : BitVec 8)
  | breedFarm (eggs : Lst Guid)
  | signboard (text : Str)
  | torch (date : BitVec 64)
  | palEgg (unknown : BitVec 32)
  | campPoint (camp : Guid)

def ConcreteBody.cls : ConcreteBody m → String
  | .noData c _ => c
  | .droppedCharacter .. => "PalMapObjectDeathDroppedCharacterModel"
  | .convertItem .. => "PalMapObjectConvertItemModel"
  | .pickup .. => "PalMapObjectPickupItemOnLevelModel"
  | .dropItem .. => "PalMapObjectDropItemModel"
  | .dropOnDamage .. => "PalMapObjectItemDropOnDamagModel"
  | .deathPenalty .. => "PalMapObjectDeathPenaltyStorageModel"
  | .bulletLauncher .. => "PalMapObjectDefenseBulletLauncherModel"
  | .energy .. => "PalMapObjectGenerateEnergyModel"
  | .farm .. => "PalMapObjectFarmBlockV2Model"
  | .fastTravel .. => "PalMapObjectFastTravelPointModel"
  | .shipping .. => "PalMapObjectShippingItemModel"
  | .product .. => "PalMapObjectProductItemModel"
  | .recover .. => "PalMapObjectRecoverOtomoModel"
  | .hatching .. => "PalMapObjectHatchingEggModel"
  | .treasure .. => "PalMapObjectTreasureBoxModel"
  | .breedFarm .. => "PalMapObjectBreedFarmModel"
  | .signboard .. => "PalMapObjectSignboardModel"
  | .torch .. => "PalMapObjectTorchModel"
  | .palEgg .. => "PalMapObjectPalEggModel"
  | .campPoint .. => "PalMapObjectBaseCampPoint"

def ConcreteBody.enc : ConcreteBody m → Bytes
  | .noData _ _ => []
  | .droppedCharacter s o => eGuid s ++ eGuid o
  | .convertItem r a b w => eStr r ++ e32 a ++ e32 b ++ eF32 w
  | .pickup a => eFlag a
  | .dropItem a s w l => eFlag a ++ eStr s ++ eGuid w ++ eGuid l
  | .dropOnDamage i => eList ItemAndNum.enc i
  | .deathPenalty o => eGuid o
  | .bulletLauncher r g b => e32 r ++ e32 g ++ eStr b
  | .energy s => eF32 s
  | .farm c s p w none => eStr c ++ e8 s ++ eF32 p ++ eF32 w
  | .farm c s p w (some g) => eStr c ++ e8 s ++ eF32 p ++ eF32 w ++ eF32 g.1 ++ eF32 g.2
  | .fastTravel l => eGuid l
  | .shipping h => eList e32 h
  | .product r i => eF32 r ++ eStr i
  | .recover a => eF32 a
  | .hatching o u c => o.bytes ++ e32 u ++ eGuid c
  | .treasure g => e8 g
  | .breedFarm e => eList eGuid e
  | .signboard t => eStr t
  | .torch d => e64 d
  | .palEgg u => e32 u
  | .campPoint c => eGuid c

def ConcreteBody.entries : ConcreteBody m → List (String × Val)
  | .noData _ _ => []
  | .droppedCharacter s o => [("stored_parameter_id", vGuid s), ("owner_player_uid", vGuid o)]
  | .convertItem r a b w => [("current_recipe_id", vStr r), ("remain_product_num", vI a),
      ("requested_product_num", vI b), ("work_speed_additional_rate", vF32 w)]
  | .pickup a => [("auto_picked_up", vBool a)]
  | .dropItem a s w l => [("auto_picked_up", vBool a), ("item_id", vDict [("static_id", vStr s),
      ("dynamic_id", vDict [("created_world_id", vGuid w), ("local_id_in_created_world", vGuid l)])])]
  | .dropOnDamage i => [("drop_item_infos", vList ItemAndNum.val i)]
  | .deathPenalty o => [("owner_player_uid", vGuid o)]
  | .bulletLauncher r g b => [("remaining_bullets", vI r), ("magazine_size", vI g), ("bullet_item_name", vStr b)]
  | .energy s => [("stored_energy_amount", vF32 s)]
  | .farm c s p w g => [("crop_data_id", vStr c), ("current_state", vU s), ("crop_progress_rate_value", vF32 p),
      ("water_stack_rate_value", vF32 w)] ++ match g with
        | none => []
        | some g => [("state_machine", vDict [("growup_required_time", vF32 g.1),
            ("growup_progress_time", vF32 g.2)])]
  | .fastTravel l => [("location_instance_id", vGuid l)]
  | .shipping h => [("shipping_hours", vList vI h)]
  | .product r i => [("work_speed_additional_rate", vF32 r), ("product_item_id", vStr i)]
  | .recover a => [("recover_amount_by_sec", vF32 a)]
  | .hatching o u c => [("hatched_character_save_parameter", o.value), ("unknown_bytes", vU u),
      ("hatched_character_guid", vGuid c)]
  | .treasure g => [("treasure_grade_type", vU g)]
  | .breedFarm e => [("spawned_egg_instance_ids", vList vGuid e)]
  | .signboard t => [("signboard_text", vStr t)]
  | .torch d => [("extinction_date_time", vI d)]
  | .palEgg u => [("unknown_bytes", vU u)]
  | .campPoint c => [("base_camp_id", vGuid c)]

structure Concrete (m : Mode) where
  inst : Guid
  model : Guid
  body : ConcreteBody m

def Concrete.enc (c : Concrete m) : Bytes := eGuid c.inst ++ eGuid c.model ++ c.body.enc
def Concrete.val (c : Concrete m) : Val :=
  vDict ([("instance_id", vGuid c.inst), ("model_instance_id", vGuid c.model),
    ("concrete_model_type", .str (P c.body.cls))] ++ c.body.entries)

end Pal.Spec
