import Verif.Spec.Says
import Verif.Spec.Blobs
/-
What the decoded raw data of a document says: the relation between a Python value, as a user may have edited
it, and the bytes of the blob it describes.  The records and their bytes are those of `Verif/Spec/Blobs.lean`;
the fields are read as in `Verif/Spec/Says.lean`.  Nothing of the encoders is used.
-/

namespace Pal.Spec
open Pal

/-- `v[k1][k2]...` is there and says what `p` asks for. -/
def Reach (v : Val) : List String → (Val → Prop) → Prop
  | [], p => p v
  | k :: ks, p => ∃ x, At v k x ∧ Reach x ks p

def SaysStr (v : Val) (s : Str) : Prop := v = .str s.val
/-- Flags are stored by their truth value. -/
def SaysFlag (v : Val) (b : Bool) : Prop := b = v.truthy
/-- The items of a sequence, one by one. -/
def SaysList {α : Type} (S : Val → α → Prop) (v : Val) (l : Lst α) : Prop := ∃ xs, Items v xs ∧ List.Forall₂ S xs l.val
/-- Raw bytes: what Python's `bytes(v)` gives. -/
def SaysBytes (v : Val) (b : Bytes) : Prop := toBytes v = .ok b

structure SaysTransform (v : Val) (t : Transform free) : Prop where
  rotation : Reach v ["rotation"] (SaysQuat · t.rotation)
  translation : Reach v ["translation"] (SaysVec · t.translation)
  scale : Reach v ["scale3d"] (SaysVec · t.scale)

/-- Whether the group, work, module or model type `t` is the text `s`. -/
abbrev IsType (t : Val) (s : String) : Prop := t = .str (P s)

/-! ### common.py -/

structure SaysItemAndNum (v : Val) (x : ItemAndNum) : Prop where
  staticId : Reach v ["item_id", "static_id"] (SaysStr · x.staticId)
  world : Reach v ["item_id", "dynamic_id", "created_world_id"] (SaysGuid · x.world)
  localId : Reach v ["item_id", "dynamic_id", "local_id_in_created_world"] (SaysGuid · x.localId)
  num : Reach v ["num"] (SaysU · x.num)

/-! ### groups -/

def SaysHandle (v : Val) (h : Guid × Guid) : Prop :=
  Reach v ["guid"] (SaysGuid · h.1) ∧ Reach v ["instance_id"] (SaysGuid · h.2)

structure SaysPlayer (v : Val) (x : Player) : Prop where
  uid : Reach v ["player_uid"] (SaysGuid · x.uid)
  lastOnline : Reach v ["player_info", "last_online_real_time"] (SaysI · x.lastOnline)
  name : Reach v ["player_info", "player_name"] (SaysStr · x.name)

structure SaysOrg (v : Val) (x : Org) : Prop where
  type : Reach v ["org_type"] (SaysU · x.type)
  baseIds : Reach v ["base_ids"] (SaysList SaysGuid · x.baseIds)

structure SaysGuildBase (v : Val) (x : GuildBase) : Prop where
  level : Reach v ["base_camp_level"] (SaysI · x.level)
  points : Reach v ["map_object_instance_ids_base_camp_points"] (SaysList SaysGuid · x.points)
  name : Reach v ["guild_name"] (SaysStr · x.name)

/-- The part of a group that depends on its type `t`. -/
inductive SaysGroupBody (t v : Val) : GroupBody → Prop
  | guild {o : Org} {g : GuildBase} {a : Guid} {pl : Lst31 Player} : IsType t "EPalGroupType::Guild" → SaysOrg v o →
      SaysGuildBase v g → Reach v ["admin_player_uid"] (SaysGuid · a) →
      Reach v ["players"] (fun y => ∃ l, Items y l ∧ List.Forall₂ SaysPlayer l pl.val) → SaysGroupBody t v (.guild o g a pl)
  | independent {o : Org} {g : GuildBase} {u : Guid} {n p : Str} {time : BitVec 64} :
      IsType t "EPalGroupType::IndependentGuild" → SaysOrg v o → SaysGuildBase v g → Reach v ["player_uid"] (SaysGuid · u) →
      Reach v ["guild_name_2"] (SaysStr · n) → Reach v ["player_info", "last_online_real_time"] (SaysI · time) →
      Reach v ["player_info", "player_name"] (SaysStr · p) → SaysGroupBody t v (.independent o g u n time p)
  | organization {o : Org} : IsType t "EPalGroupType::Organization" → SaysOrg v o → SaysGroupBody t v (.organization o)
  | other {s : Str} {h} : (∀ s ∈ ["EPalGroupType::Guild", "EPalGroupType::IndependentGuild", "EPalGroupType::Organization"],
      ¬ IsType t s) → SaysGroupBody t v (.other s h)

structure SaysGroup (v : Val) (x : Group) : Prop where
  id : Reach v ["group_id"] (SaysGuid · x.id)
  name : Reach v ["group_name"] (SaysStr · x.name)
  handles : Reach v ["individual_character_handle_ids"] (SaysList SaysHandle · x.handles)
  body : Reach v ["group_type"] (SaysGroupBody · v x.body)

/-! ### containers -/

structure SaysCharSlot (v : Val) (x : CharSlot) : Prop where
  player : Reach v ["player_uid"] (SaysGuid · x.player)
  inst : Reach v ["instance_id"] (SaysGuid · x.inst)
  tribe : Reach v ["permission_tribe_id"] (SaysU · x.tribe)

structure SaysPermission (v : Val) (x : Permission) : Prop where
  typeA : Reach v ["permission", "type_a"] (SaysList SaysU · x.typeA)
  typeB : Reach v ["permission", "type_b"] (SaysList SaysU · x.typeB)
  items : Reach v ["permission", "item_static_ids"] (SaysList SaysStr · x.items)

structure SaysSlots (v : Val) (x : Slots free) : Prop where
  permission : SaysPermission v x.permission
  corruption : Reach v ["corruption_progress_value"] (SaysF32 · x.corruption.val)

/-! ### foliage -/

structure SaysFoliageModel (v : Val) (f : FoliageModel) : Prop where
  model : Reach v ["model_id"] (SaysStr · f.model)
  preset : Reach v ["foliage_preset_type"] (SaysU · f.preset)
  x : Reach v ["cell_coord", "x"] (SaysI · f.x)
  y : Reach v ["cell_coord", "y"] (SaysI · f.y)
  z : Reach v ["cell_coord", "z"] (SaysI · f.z)

/-- Python's `round`: the nearest integer, the even one of two. -/
def RoundsTo (q : ℚ) (i : Int) : Prop := |q - i| < 1 / 2 ∨ (|q - i| = 1 / 2 ∧ i % 2 = 0)

/-- An angle in degrees, as a 16-bit angle: the number as a double, times the double nearest to 65536/360, as a
double, rounded, modulo 65536. -/
inductive SaysAngle (v : Val) : BitVec 16 → Prop
  | mk {x c p : BitVec 64} {i : Int} : v ≠ .none → SaysF64 v x → Finite64 x → NearestFloat false (65536 / 360) c →
      NearestFloat (decide (2 ^ 63 ≤ x.toNat)) |value64 x * value64 c| p → Finite64 p → RoundsTo (value64 p) i →
      SaysAngle v (BitVec.ofInt 16 i)

/-- A finite number. -/
inductive SaysNumber : Val → ℚ → Prop
  | int {v : Val} {i : Int} : SaysInt v i → SaysNumber v i
  | float {b : BitVec 64} : Finite64 b → SaysNumber (.float b) (value64 b)

/-- An infinite number, or one of magnitude 2^62 or more. -/
def Far (v : Val) : Prop := (∃ b, v = .float b ∧ Inf64 b) ∨ ∃ q, SaysNumber v q ∧ 2 ^ 62 ≤ |q|

/-- A location: three integers of minimal common width and a flag that says whether one of the numbers is of
magnitude below 2^52, or three doubles if one of the numbers is too large (or the first is not a number). -/
inductive SaysLocation (a b c : Val) : Bytes → Prop
  | packed {x y z : ℚ} {i j l : Int} {k : Nat} : SaysNumber a x → SaysNumber b y → SaysNumber c z →
      |x| < 2 ^ 62 → |y| < 2 ^ 62 → |z| < 2 ^ 62 → IsTrunc x i → IsTrunc y j → IsTrunc z l → MinWidth k i j l →
      SaysLocation a b c (lit 4 ((if |x| < 2 ^ 52 ∨ |y| < 2 ^ 52 ∨ |z| < 2 ^ 52 then 64 else 0) + k) ++
        twos ((k + 7) / 8) i ++ twos ((k + 7) / 8) j ++ twos ((k + 7) / 8) l)
  | doubles {x y z : BitVec 64} : a ≠ .none → b ≠ .none → c ≠ .none → SaysF64 a x → SaysF64 b y → SaysF64 c z →
      (∃ n, a = .float n ∧ NaN64 n) ∨ Far a ∨ Far b ∨ Far c →
      SaysLocation a b c (lit 4 64 ++ lit 8 x.toNat ++ lit 8 y.toNat ++ lit 8 z.toNat)

inductive SaysFoliageInst (v : Val) : Bytes → Prop
  | mk {g : Guid} {p y r : BitVec 16} {l : Bytes} {s : F32 free} {h : BitVec 32} :
      Reach v ["model_instance_id"] (SaysGuid · g) →
      Reach v ["world_transform", "rotator", "pitch"] (SaysAngle · p) →
      Reach v ["world_transform", "rotator", "yaw"] (SaysAngle · y) →
      Reach v ["world_transform", "rotator", "roll"] (SaysAngle · r) →
      Reach v ["world_transform", "location"] (fun w => ∃ a b c, At w "x" a ∧ At w "y" b ∧ At w "z" c ∧ SaysLocation a b c l) →
      Reach v ["world_transform", "scale_x"] (SaysF32 · s.val) → Reach v ["hp"] (SaysI · h) →
      SaysFoliageInst v (eGuid g ++ encRotator p.toNat y.toNat r.toNat ++ l ++ eF32 s ++ e32 h)

/-! ### base camps -/

structure SaysBaseCamp (v : Val) (x : BaseCamp free) : Prop where
  id : Reach v ["id"] (SaysGuid · x.id)
  name : Reach v ["name"] (SaysStr · x.name)
  state : Reach v ["state"] (SaysU · x.state)
  transform : Reach v ["transform"] (SaysTransform · x.transform)
  area : Reach v ["area_range"] (SaysF32 · x.area.val)
  group : Reach v ["group_id_belong_to"] (SaysGuid · x.group)
  travel : Reach v ["fast_travel_local_transform"] (SaysTransform · x.travel)
  owner : Reach v ["owner_map_object_instance_id"] (SaysGuid · x.owner)

structure SaysWorkerDirector (v : Val) (x : WorkerDirector free) : Prop where
  id : Reach v ["id"] (SaysGuid · x.id)
  spawn : Reach v ["spawn_transform"] (SaysTransform · x.spawn)
  order : Reach v ["current_order_type"] (SaysU · x.order)
  battle : Reach v ["current_battle_type"] (SaysU · x.battle)
  container : Reach v ["container_id"] (SaysGuid · x.container)

structure SaysWorkCollection (v : Val) (x : WorkCollection) : Prop where
  id : Reach v ["id"] (SaysGuid · x.id)
  works : Reach v ["work_ids"] (SaysList SaysGuid · x.works)

structure SaysTransport (v : Val) (x : TransportInfo free) : Prop where
  items : Reach v ["item_infos"] (SaysList SaysItemAndNum · x.items)
  location : Reach v ["character_location"] (SaysVec · x.location)

/-- A passive effect and its bytes: a type, and for type 2 a work type and raw bytes. -/
inductive SaysEffect (v : Val) : Bytes → Prop
  | workHard {t : Val} {k : BitVec 8} {u : Bytes} : At v "type" t → SaysInt t 2 → Reach v ["work_hard_type"] (SaysU · k) →
      Reach v ["unknown_trailer"] (SaysBytes · u) → SaysEffect v ([2] ++ e8 k ++ u)
  | other {t : Val} {n : BitVec 8} : At v "type" t → SaysU t n → n ≠ 2 → SaysEffect v (e8 n)

/-- The module of a base camp, of type `t`: other types have no data. -/
inductive SaysCampModule (t v : Val) : Bytes → Prop
  | transport {l : Lst (TransportInfo free)} : IsType t "EPalBaseCampModuleType::TransportItemDirector" →
      Reach v ["transport_item_character_infos"] (SaysList SaysTransport · l) → SaysCampModule t v (eList TransportInfo.enc l)
  | passive {l : Lst Bytes} : IsType t "EPalBaseCampModuleType::PassiveEffect" →
      Reach v ["passive_effects"] (SaysList SaysEffect · l) → SaysCampModule t v (eList id l)
  | other : ¬ IsType t "EPalBaseCampModuleType::TransportItemDirector" → ¬ IsType t "EPalBaseCampModuleType::PassiveEffect" →
      SaysCampModule t v []

/-! ### work -/

def SaysAssignLoc (v : Val) (x : Vec free × Vec free) : Prop :=
  Reach v ["location"] (SaysVec · x.1) ∧ Reach v ["facing_direction"] (SaysVec · x.2)

structure SaysWorkBase (v : Val) (x : WorkBase free) : Prop where
  id : Reach v ["id"] (SaysGuid · x.id)
  location : Reach v ["workable_bounds", "location"] (SaysVec · x.location)
  rotation : Reach v ["workable_bounds", "rotation"] (SaysQuat · x.rotation)
  origin : Reach v ["workable_bounds", "box_sphere_bounds", "origin"] (SaysVec · x.origin)
  extent : Reach v ["workable_bounds", "box_sphere_bounds", "box_extent"] (SaysVec · x.extent)
  radius : Reach v ["workable_bounds", "box_sphere_bounds", "sphere_radius"] (SaysF64 · x.radius.val)
  camp : Reach v ["base_camp_id_belong_to"] (SaysGuid · x.camp)
  model : Reach v ["owner_map_object_model_id"] (SaysGuid · x.model)
  concrete : Reach v ["owner_map_object_concrete_model_id"] (SaysGuid · x.concrete)
  state : Reach v ["current_state"] (SaysU · x.state)
  assign : Reach v ["assign_locations"] (SaysList SaysAssignLoc · x.assign)
  behaviour : Reach v ["behaviour_type"] (SaysU · x.behaviour)
  define : Reach v ["assign_define_data_id"] (SaysStr · x.define)
  override : Reach v ["override_work_type"] (SaysU · x.override)
  fixed : Reach v ["assignable_fixed_type"] (SaysU · x.fixed)
  otomo : Reach v ["assignable_otomo"] (SaysFlag · x.otomo)
  trigger : Reach v ["can_trigger_worker_event"] (SaysFlag · x.trigger)
  steal : Reach v ["can_steal_assign"] (SaysFlag · x.steal)

/-- The individual under the key `k`. -/
def SaysIndividual (v : Val) (k : String) (x : Guid × Guid) : Prop :=
  Reach v [k, "player_uid"] (SaysGuid · x.1) ∧ Reach v [k, "instance_id"] (SaysGuid · x.2)

/-- The part of work data before the transform, for the work type `t`.  The type must be hashable; other types
than the known ones have no data. -/
inductive SaysWorkBody (t v : Val) : Bytes → Prop
  | plain {s : String} (h : s ∈ plainWork) {b : WorkBase free} : IsType t s → SaysWorkBase v b →
      SaysWorkBody t v (WorkBody.plain s h b).enc
  | defense {b : WorkBase free} {c : BitVec 8} : IsType t "EPalWorkableType::Defense" → SaysWorkBase v b →
      Reach v ["defense_combat_type"] (SaysU · c) → SaysWorkBody t v (WorkBody.defense b c).enc
  | progress {b : WorkBase free} {r c a : F32 free} {e : BitVec 32} : IsType t "EPalWorkableType::Progress" →
      SaysWorkBase v b → Reach v ["required_work_amount"] (SaysF32 · r.val) → Reach v ["work_exp"] (SaysI · e) →
      Reach v ["current_work_amount"] (SaysF32 · c.val) → Reach v ["auto_work_self_amount_by_sec"] (SaysF32 · a.val) →
      SaysWorkBody t v (WorkBody.progress b r e c a).enc
  | revive {b : WorkBase free} {x : Guid × Guid} : IsType t "EPalWorkableType::ReviveCharacter" → SaysWorkBase v b →
      SaysIndividual v "target_individual_id" x → SaysWorkBody t v (WorkBody.revive b x).enc
  | assign {h : Guid} {i f : BitVec 32} {k s : BitVec 8} {w : Guid × Guid} : IsType t "EPalWorkableType::Assign" →
      Reach v ["handle_id"] (SaysGuid · h) → Reach v ["location_index"] (SaysI · i) → Reach v ["assign_type"] (SaysU · k) →
      SaysIndividual v "assigned_individual_id" w → Reach v ["state"] (SaysU · s) → Reach v ["fixed"] (SaysU · f) →
      SaysWorkBody t v (WorkBody.assign (m := free) h i k w s f).enc
  | other : (∀ s ∈ plainWork ++ ["EPalWorkableType::Defense", "EPalWorkableType::Progress", "EPalWorkableType::ReviveCharacter",
      "EPalWorkableType::Assign"], ¬ IsType t s) → (∀ l, t ≠ .list l) → (∀ d, t ≠ .dict d) → SaysWorkBody t v []

/-- The transform of work data.  Values written by older versions of the tool have no key "v2" and hold location,
rotation and scale. -/
inductive SaysWorkTransform (v : Val) : Bytes → Prop
  | direct {t : Val} {x : Transform free} : At v "type" t → SaysInt t 1 → v.contains (P "v2") = .ok true →
      SaysTransform v x → SaysWorkTransform v ([1] ++ eTransform x)
  | old {t : Val} {loc sc : Vec free} {q : Quat free} : At v "type" t → SaysInt t 1 → v.contains (P "v2") = .ok false →
      Reach v ["location"] (SaysVec · loc) → Reach v ["rotation"] (SaysQuat · q) → Reach v ["scale"] (SaysVec · sc) →
      SaysWorkTransform v ([1] ++ eVec loc ++ eQuat q ++ eVec sc)
  | object {t : Val} {g : Guid} : At v "type" t → SaysInt t 2 → Reach v ["map_object_instance_id"] (SaysGuid · g) →
      SaysWorkTransform v ([2] ++ eGuid g)
  | handle {t : Val} {g i : Guid} : At v "type" t → SaysInt t 3 → Reach v ["guid"] (SaysGuid · g) →
      Reach v ["instance_id"] (SaysGuid · i) → SaysWorkTransform v ([3] ++ eGuid g ++ eGuid i)
  | other {t : Val} {n : BitVec 8} {b : Bytes} : At v "type" t → SaysU t n → n ∉ [1, 2, 3] → At v "raw_data" (.bytes b) →
      SaysWorkTransform v (e8 n ++ b)

/-- Work data of the work type `t`. -/
def SaysWork (t v : Val) (b : Bytes) : Prop :=
  ∃ c d, SaysWorkBody t v c ∧ Reach v ["transform"] (SaysWorkTransform · d) ∧ b = c ++ d

structure SaysWorkAssign (v : Val) (x : WorkAssign) : Prop where
  id : Reach v ["id"] (SaysGuid · x.id)
  index : Reach v ["location_index"] (SaysI · x.index)
  type : Reach v ["assign_type"] (SaysU · x.type)
  who : SaysIndividual v "assigned_individual_id" x.who
  state : Reach v ["state"] (SaysU · x.state)
  fixed : Reach v ["fixed"] (SaysFlag · x.fixed)

/-! ### map objects -/

structure SaysMapModel (v : Val) (x : MapModel free) : Prop where
  inst : Reach v ["instance_id"] (SaysGuid · x.inst)
  concrete : Reach v ["concrete_model_instance_id"] (SaysGuid · x.concrete)
  camp : Reach v ["base_camp_id_belong_to"] (SaysGuid · x.camp)
  group : Reach v ["group_id_belong_to"] (SaysGuid · x.group)
  hp : Reach v ["hp", "current"] (SaysI · x.hp)
  hpMax : Reach v ["hp", "max"] (SaysI · x.hpMax)
  transform : Reach v ["initital_transform_cache"] (SaysTransform · x.transform)
  repair : Reach v ["repair_work_id"] (SaysGuid · x.repair)
  spawner : Reach v ["owner_spawner_level_object_instance_id"] (SaysGuid · x.spawner)
  owner : Reach v ["owner_instance_id"] (SaysGuid · x.owner)
  builder : Reach v ["build_player_uid"] (SaysGuid · x.builder)
  restrict : Reach v ["interact_restrict_type"] (SaysU · x.restrict)
  stage : Reach v ["stage_instance_id_belong_to", "id"] (SaysGuid · x.stage)
  stageValid : Reach v ["stage_instance_id_belong_to", "valid"] (SaysFlag · x.stageValid)
  created : Reach v ["created_at"] (SaysI · x.created)

def SaysConnect (v : Val) (x : Guid × BitVec 8) : Prop :=
  Reach v ["connect_to_model_instance_id"] (SaysGuid · x.1) ∧ Reach v ["index"] (SaysU · x.2)

def SaysOther (v : Val) (x : BitVec 8 × Lst (Guid × BitVec 8)) : Prop :=
  Reach v ["index"] (SaysU · x.1) ∧ Reach v ["connect"] (SaysList SaysConnect · x.2)

structure SaysConnector (v : Val) (x : Connector) : Prop where
  level : Reach v ["supported_level"] (SaysI · x.level)
  index : Reach v ["connect", "index"] (SaysU · x.index)
  anyPlace : Reach v ["connect", "any_place"] (SaysList SaysConnect · x.anyPlace)
  others : (v.contains (P "other_connectors") = .ok false ∧ x.others = []) ∨
    Reach v ["other_connectors"] fun y => ∃ l, Items y l ∧ List.Forall₂ SaysOther l x.others

structure SaysBuildProcess (v : Val) (x : BuildProcess) : Prop where
  state : Reach v ["state"] (SaysU · x.state)
  id : Reach v ["id"] (SaysGuid · x.id)

/-! ### concrete models -/

def SaysSlotIx (v : Val) (x : BitVec 8 × Lst (BitVec 32)) : Prop :=
  Reach v ["attribute"] (SaysU · x.1) ∧ Reach v ["indexes"] (SaysList SaysI · x.2)

structure SaysLockInfo (v : Val) (x : LockInfo) : Prop where
  player : Reach v ["player_uid"] (SaysGuid · x.player)
  failed : Reach v ["try_failed_count"] (SaysI · x.failed)
  success : Reach v ["try_success_cache"] (SaysFlag · x.success)

/-- The module of a concrete model, of type `t`: other types have no data. -/
inductive SaysModule (t v : Val) : Bytes → Prop
  | items {c : Guid} {s : Lst (BitVec 8 × Lst (BitVec 32))} {a : Lst (BitVec 8)} {d : Bool} {u : BitVec 8} :
      IsType t "EPalMapObjectConcreteModelModuleType::ItemContainer" → Reach v ["target_container_id"] (SaysGuid · c) →
      Reach v ["slot_attribute_indexes"] (SaysList SaysSlotIx · s) → Reach v ["all_slot_attribute"] (SaysList SaysU · a) →
      Reach v ["drop_item_at_disposed"] (SaysFlag · d) → Reach v ["usage_type"] (SaysU · u) →
      SaysModule t v (Module.items c s a d u).enc
  | characters {c : Guid} : IsType t "EPalMapObjectConcreteModelModuleType::CharacterContainer" →
      Reach v ["target_container_id"] (SaysGuid · c) → SaysModule t v (Module.characters c).enc
  | workee {w : Guid} : IsType t "EPalMapObjectConcreteModelModuleType::Workee" →
      Reach v ["target_work_id"] (SaysGuid · w) → SaysModule t v (Module.workee w).enc
  | switch {s : BitVec 8} : IsType t "EPalMapObjectConcreteModelModuleType::Switch" →
      Reach v ["switch_state"] (SaysU · s) → SaysModule t v (Module.switch s).enc
  | lock {s : BitVec 8} {p : Str} {i : Lst LockInfo} : IsType t "EPalMapObjectConcreteModelModuleType::PasswordLock" →
      Reach v ["lock_state"] (SaysU · s) → Reach v ["password"] (SaysStr · p) →
      Reach v ["player_infos"] (SaysList SaysLockInfo · i) → SaysModule t v (Module.lock s p i).enc
  | other : (∀ s ∈ ["EPalMapObjectConcreteModelModuleType::ItemContainer",
      "EPalMapObjectConcreteModelModuleType::CharacterContainer", "EPalMapObjectConcreteModelModuleType::Workee",
      "EPalMapObjectConcreteModelModuleType::Switch", "EPalMapObjectConcreteModelModuleType::PasswordLock"], ¬ IsType t s) →
      SaysModule t v []

section
/- `E` relates an embedded property list to what it says. -/
variable (E : Val → Props free → Prop)

/-- The body of a concrete model of class `t`. -/
inductive SaysConcreteBody (t v : Val) : ConcreteBody free → Prop
  | noData {c : String} (h : c ∈ concreteNoOp) : IsType t c → SaysConcreteBody t v (.noData c h)
  | droppedCharacter {s o : Guid} : IsType t "PalMapObjectDeathDroppedCharacterModel" →
      Reach v ["stored_parameter_id"] (SaysGuid · s) → Reach v ["owner_player_uid"] (SaysGuid · o) →
      SaysConcreteBody t v (.droppedCharacter s o)
  | convertItem {r : Str} {a b : BitVec 32} {w : F32 free} : IsType t "PalMapObjectConvertItemModel" →
      Reach v ["current_recipe_id"] (SaysStr · r) → Reach v ["remain_product_num"] (SaysI · a) →
      Reach v ["requested_product_num"] (SaysI · b) → Reach v ["work_speed_additional_rate"] (SaysF32 · w.val) →
      SaysConcreteBody t v (.convertItem r a b w)
  | pickup {a : Bool} : IsType t "PalMapObjectPickupItemOnLevelModel" → Reach v ["auto_picked_up"] (SaysFlag · a) →
      SaysConcreteBody t v (.pickup a)
  | dropItem {a : Bool} {s : Str} {w l : Guid} : IsType t "PalMapObjectDropItemModel" →
      Reach v ["auto_picked_up"] (SaysFlag · a) → Reach v ["item_id", "static_id"] (SaysStr · s) →
      Reach v ["item_id", "dynamic_id", "created_world_id"] (SaysGuid · w) →
      Reach v ["item_id", "dynamic_id", "local_id_in_created_world"] (SaysGuid · l) →
      SaysConcreteBody t v (.dropItem a s w l)
  | dropOnDamage {i : Lst ItemAndNum} : IsType t "PalMapObjectItemDropOnDamagModel" →
      Reach v ["drop_item_infos"] (SaysList SaysItemAndNum · i) → SaysConcreteBody t v (.dropOnDamage i)
  | deathPenalty {o : Guid} : IsType t "PalMapObjectDeathPenaltyStorageModel" →
      Reach v ["owner_player_uid"] (SaysGuid · o) → SaysConcreteBody t v (.deathPenalty o)
  | bulletLauncher {r g : BitVec 32} {b : Str} : IsType t "PalMapObjectDefenseBulletLauncherModel" →
      Reach v ["remaining_bullets"] (SaysI · r) → Reach v ["magazine_size"] (SaysI · g) →
      Reach v ["bullet_item_name"] (SaysStr · b) → SaysConcreteBody t v (.bulletLauncher r g b)
  | energy {s : F32 free} : IsType t "PalMapObjectGenerateEnergyModel" →
      Reach v ["stored_energy_amount"] (SaysF32 · s.val) → SaysConcreteBody t v (.energy s)
  | farm {c : Str} {s : BitVec 8} {p w : F32 free} : IsType t "PalMapObjectFarmBlockV2Model" →
      Reach v ["crop_data_id"] (SaysStr · c) → Reach v ["current_state"] (SaysU · s) →
      Reach v ["crop_progress_rate_value"] (SaysF32 · p.val) → Reach v ["water_stack_rate_value"] (SaysF32 · w.val) →
      v.contains (P "state_machine") = .ok false → SaysConcreteBody t v (.farm c s p w none)
  | growing {c : Str} {s : BitVec 8} {p w a b : F32 free} : IsType t "PalMapObjectFarmBlockV2Model" →
      Reach v ["crop_data_id"] (SaysStr · c) → Reach v ["current_state"] (SaysU · s) →
      Reach v ["crop_progress_rate_value"] (SaysF32 · p.val) → Reach v ["water_stack_rate_value"] (SaysF32 · w.val) →
      Reach v ["state_machine", "growup_required_time"] (SaysF32 · a.val) →
      Reach v ["state_machine", "growup_progress_time"] (SaysF32 · b.val) →
      SaysConcreteBody t v (.farm c s p w (some (a, b)))
  | fastTravel {l : Guid} : IsType t "PalMapObjectFastTravelPointModel" →
      Reach v ["location_instance_id"] (SaysGuid · l) → SaysConcreteBody t v (.fastTravel l)
  | shipping {h : Lst (BitVec 32)} : IsType t "PalMapObjectShippingItemModel" →
      Reach v ["shipping_hours"] (SaysList SaysI · h) → SaysConcreteBody t v (.shipping h)
  | product {r : F32 free} {i : Str} : IsType t "PalMapObjectProductItemModel" →
      Reach v ["work_speed_additional_rate"] (SaysF32 · r.val) → Reach v ["product_item_id"] (SaysStr · i) →
      SaysConcreteBody t v (.product r i)
  | recover {a : F32 free} : IsType t "PalMapObjectRecoverOtomoModel" →
      Reach v ["recover_amount_by_sec"] (SaysF32 · a.val) → SaysConcreteBody t v (.recover a)
  | hatching {ps : Props free} {o : Val} {u : BitVec 32} {c : Guid} : IsType t "PalMapObjectHatchingEggModel" →
      Reach v ["hatched_character_save_parameter"] (E · ps) → Reach v ["unknown_bytes"] (SaysU · u) →
      Reach v ["hatched_character_guid"] (SaysGuid · c) → SaysConcreteBody t v (.hatching ⟨encProps ps, o⟩ u c)
  | treasure {g : BitVec 8} : IsType t "PalMapObjectTreasureBoxModel" → Reach v ["treasure_grade_type"] (SaysU · g) →
      SaysConcreteBody t v (.treasure g)
  | breedFarm {e : Lst Guid} : IsType t "PalMapObjectBreedFarmModel" →
      Reach v ["spawned_egg_instance_ids"] (SaysList SaysGuid · e) → SaysConcreteBody t v (.breedFarm e)
  | signboard {s : Str} : IsType t "PalMapObjectSignboardModel" → Reach v ["signboard_text"] (SaysStr · s) →
      SaysConcreteBody t v (.signboard s)
  | torch {d : BitVec 64} : IsType t "PalMapObjectTorchModel" → Reach v ["extinction_date_time"] (SaysI · d) →
      SaysConcreteBody t v (.torch d)
  | palEgg {u : BitVec 32} : IsType t "PalMapObjectPalEggModel" → Reach v ["unknown_bytes"] (SaysU · u) →
      SaysConcreteBody t v (.palEgg u)
  | campPoint {c : Guid} : IsType t "PalMapObjectBaseCampPoint" → Reach v ["base_camp_id"] (SaysGuid · c) →
      SaysConcreteBody t v (.campPoint c)

structure SaysConcrete (v : Val) (x : Concrete free) : Prop where
  inst : Reach v ["instance_id"] (SaysGuid · x.inst)
  model : Reach v ["model_instance_id"] (SaysGuid · x.model)
  body : Reach v ["concrete_model_type"] (SaysConcreteBody E · v x.body)

/-! ### characters and dynamic items -/

/-- A character: a property list, raw bytes (four, if the blob is to be read again) and a GUID. -/
inductive SaysCharacter (v : Val) : Bytes → Prop
  | mk {ps : Props free} {u : Bytes} {g : Guid} : Reach v ["object"] (E · ps) → Reach v ["unknown_bytes"] (SaysBytes · u) →
      Reach v ["group_id"] (SaysGuid · g) → SaysCharacter v (encProps ps ++ u ++ eGuid g)

/-- The part of a dynamic item that depends on its type `t`; other types have no data. -/
inductive SaysItemBody (t v : Val) : Bytes → Prop
  | unknown {b : Bytes} : IsType t "unknown" → Reach v ["trailer"] (SaysBytes · b) → SaysItemBody t v b
  | egg {c : Str} {ps : Props free} {u : Bytes} {g : Guid} : IsType t "egg" → Reach v ["character_id"] (SaysStr · c) →
      Reach v ["object"] (E · ps) → Reach v ["unknown_bytes"] (SaysBytes · u) → Reach v ["unknown_id"] (SaysGuid · g) →
      SaysItemBody t v (eStr c ++ encProps ps ++ u ++ eGuid g)
  | armor {d : F32 free} : IsType t "armor" → Reach v ["durability"] (SaysF32 · d.val) → SaysItemBody t v (eF32 d)
  | weapon {d : F32 free} {b : BitVec 32} {s : Lst Str} : IsType t "weapon" → Reach v ["durability"] (SaysF32 · d.val) →
      Reach v ["remaining_bullets"] (SaysI · b) → Reach v ["passive_skill_list"] (SaysList SaysStr · s) →
      SaysItemBody t v (eF32 d ++ e32 b ++ eList eStr s)
  | other : (∀ s ∈ ["unknown", "egg", "armor", "weapon"], ¬ IsType t s) → SaysItemBody t v []

inductive SaysDynItem (v : Val) : Bytes → Prop
  | mk {w l : Guid} {s : Str} {b : Bytes} : Reach v ["id", "created_world_id"] (SaysGuid · w) →
      Reach v ["id", "local_id_in_created_world"] (SaysGuid · l) → Reach v ["id", "static_id"] (SaysStr · s) →
      Reach v ["type"] (SaysItemBody E · v b) → SaysDynItem v (eGuid w ++ eGuid l ++ eStr s ++ b)

end

/-! ### blobs in documents -/

/-- An embedded property list: nothing in it is custom. -/
def Embedded : Val → Props free → Prop := SaysPs fun _ _ => False

/-- `v` says a record, and `b` is its bytes. -/
def InBytes {α : Type} (S : Val → α → Prop) (e : α → Bytes) (v : Val) (b : Bytes) : Prop := ∃ x, S v x ∧ b = e x

/-- None says the empty blob. -/
def NoneOr (S : Val → Bytes → Prop) (v : Val) (b : Bytes) : Prop := (v = .none ∧ b = []) ∨ (v ≠ .none ∧ S v b)

/-- The blob that the decoded "value" of a custom array of bytes says. -/
def SaysRaw : CodecId → Val → Bytes → Prop
  | .character => SaysCharacter Embedded
  | .itemContainer => NoneOr (InBytes SaysPermission Permission.enc)
  | .itemContainerSlots => NoneOr (InBytes SaysSlots Slots.enc)
  | .characterContainer => NoneOr (InBytes SaysCharSlot CharSlot.enc)
  | .dynamicItem => NoneOr (SaysDynItem Embedded)
  | .foliageModel => InBytes SaysFoliageModel FoliageModel.enc
  | .foliageModelInstance => SaysFoliageInst
  | .baseCamp => InBytes SaysBaseCamp BaseCamp.enc
  | .workerDirector => InBytes SaysWorkerDirector WorkerDirector.enc
  | .workCollection => InBytes SaysWorkCollection WorkCollection.enc
  | .connector => NoneOr (InBytes SaysConnector Connector.enc)
  | .buildProcess => InBytes SaysBuildProcess BuildProcess.enc
  | .mapModel => InBytes SaysMapModel MapModel.enc
  | _ => fun _ _ => False

/-- `v'` is `v` with the value under the keys changed as `R` says. -/
def Change (R : Val → Val → Prop) : List String → Val → Val → Prop
  | [], v, v' => R v v'
  | k :: ks, v, v' => ∃ x x', At v k x ∧ Change R ks x x' ∧ v.set (P k) x' = .ok v'

/-- Every element is changed as `R` says; there may be none. -/
inductive Each (R : Val → Val → Prop) : Val → Val → Prop
  | list {l l' : List Val} : List.Forall₂ R l l' → Each R (.list l) (.list l')
  | tuple {l l' : List Val} : List.Forall₂ R l l' → Each R (.tuple l) (.tuple l')
  | empty {v : Val} : Items v [] → Each R v v

/-- A decoded blob becomes its bytes again: as a list of numbers ... -/
def Numbers (S : Val → Bytes → Prop) (v v' : Val) : Prop :=
  ∃ b, S v b ∧ v' = .dict [(P "values", .list (b.map fun x => .int x.toNat))]
/-- ... or as a bytes object. -/
def Raw (S : Val → Bytes → Prop) (v v' : Val) : Prop := ∃ b, S v b ∧ v' = .dict [(P "values", .bytes b)]

/-- A value with "values" in it is a blob that was not decoded, and stays. -/
def Unless (R : Val → Val → Prop) (v v' : Val) : Prop :=
  (v.contains (P "values") = .ok true ∧ v' = v) ∨ (v.contains (P "values") = .ok false ∧ R v v')

/-- One change after the other. -/
def Then (R R' : Val → Val → Prop) (v v' : Val) : Prop := ∃ v1, R v v1 ∧ R' v1 v'

/-- Where the blob of a map entry is. -/
def entryBlob : List String := ["value", "RawData", "value"]

def OpenedGroup : Val → Val → Prop := Change (Unless (Numbers (InBytes SaysGroup Group.enc))) entryBlob

/-- The type of a base camp module is its key; the bytes are added to the decoded dict. -/
def OpenedCampModule (m m' : Val) : Prop := ∃ t, At m "key" t ∧
  Change (Unless fun p p' => ∃ b, SaysCampModule t p b ∧ p.set (P "values") (.bytes b) = .ok p') entryBlob m m'

def OpenedWorkAssign : Val → Val → Prop := Change (Numbers (InBytes SaysWorkAssign WorkAssign.enc)) entryBlob

def OpenedWork (w w' : Val) : Prop := ∃ t, Reach w ["WorkableType", "value", "value"] (· = t) ∧
  Then (Change (Numbers (SaysWork t)) ["RawData", "value"])
    (Change (Each OpenedWorkAssign) ["WorkAssignMap", "value"]) w w'

/-- The type of the module of a concrete model is its key. -/
def OpenedModule (m m' : Val) : Prop :=
  Change (Unless fun p p' => ∃ t, At m "key" t ∧ Raw (NoneOr (SaysModule t)) p p') entryBlob m m'

def OpenedMapObject : Val → Val → Prop :=
  Then (Change (Unless (Raw (InBytes SaysMapModel MapModel.enc))) ["Model", "value", "RawData", "value"]) <|
  Then (Change (Unless (Raw (NoneOr (InBytes SaysConnector Connector.enc))))
    ["Model", "value", "Connector", "value", "RawData", "value"]) <|
  Then (Change (Unless (Raw (InBytes SaysBuildProcess BuildProcess.enc)))
    ["Model", "value", "BuildProcess", "value", "RawData", "value"]) <|
  Then (Change (Unless (Raw (NoneOr (InBytes (SaysConcrete Embedded) Concrete.enc))))
    ["ConcreteModel", "value", "RawData", "value"]) <|
  Change (Each OpenedModule) ["ConcreteModel", "value", "ModuleMap", "value"]

/-- The plain property that a custom property, without its "custom_type", stands for. -/
def Opened : CodecId → Val → Val → Prop
  | .group => Change (Each OpenedGroup) ["value"]
  | .baseCampModule => Change (Each OpenedCampModule) ["value"]
  | .work => Change (Each OpenedWork) ["value", "values"]
  | .mapObject => Change (Each OpenedMapObject) ["value", "values"]
  | .debug => Eq
  | c => Change (Numbers (SaysRaw c)) ["value"]

/-- The type of property that a kind of custom data is stored in. -/
def customType : CodecId → String
  | .group | .baseCampModule => "MapProperty"
  | _ => "ArrayProperty"

/-- With the custom properties of `cfg`, the property `v` stands for the plain property `v'`. -/
def Opens (cfg : Cfg) (v v' : Val) : Prop :=
  ∃ path c v1, At v "custom_type" (.str path) ∧ cfg.custom path = some c ∧ At v "type" (.str (P (customType c))) ∧
    v.del (P "custom_type") = .ok v1 ∧ Opened c v1 v'

end Pal.Spec
