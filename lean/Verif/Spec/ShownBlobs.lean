import Verif.Spec.Shown
import Verif.Spec.SaysBlobs
/-
What raw data is shown as: for every kind of custom property, the layouts of its blobs and the places of
the document where they are shown.  Like `Spec/Shown.lean` this covers all bytes, whether or not the tool
could have written them; the model's decoders are not used.
-/

namespace Pal.Spec
open Pal

/-- Bytes shown as a list of integers. -/
def intsOf (b : Bytes) : Val := .list (b.map fun x => .int x.toNat)

namespace Layout

/-- A signed count and as many elements; none if it is negative. -/
def counted (L : Layout) : Layout := fun s v rest => ∃ n s' l, Signed 4 s n s' ∧ many L n.toNat s' l rest ∧ v = .list l
/-- `n` bytes, fewer at the end of the data. -/
def upTo (n : Nat) : Layout := fun s v rest => ∃ b, Takes n s b rest ∧ v = intsOf b
/-- All bytes that are left. -/
def toEnd : Layout := fun s v rest => v = intsOf s ∧ rest = []

/-- Elements up to the end of the data. -/
inductive Until (L : Layout) : Bytes → List Val → Prop
  | nil : Until L [] []
  | cons {s v s' l} : s ≠ [] → L s v s' → Until L s' l → Until L s (v :: l)

/-- At least one element, and no more bytes after the last. -/
def others (L : Layout) : Layout := fun s v rest => ∃ l, s ≠ [] ∧ Until L s l ∧ v = .list l ∧ rest = []

/-- A type byte and the fields that `t` allows for this type. -/
def tagged (t : Nat → List (String × Layout) → Prop) : Layout := fun s v rest =>
  ∃ n s' f l, Unsigned 1 s n s' ∧ t n f ∧ fields f s' l rest ∧ v = vDict (("type", .int n) :: l)

/-! ### compressed rotations and positions -/

/-- A flag byte and, unless it is zero, an angle of 16 bits; 65536 would be 360 degrees. -/
def angle : Layout := fun s v rest => ∃ x s' n b, s = x :: s' ∧
  (x = 0 ∧ n = 0 ∧ rest = s' ∨ x ≠ 0 ∧ Unsigned 2 s' n rest) ∧
  v = .float b ∧ b.toNat < 2 ^ 63 ∧ Finite64 b ∧ value64 b = n * 360 / 65536

/-- A signed number of `k` bits in as few bytes as hold them (fewer at the end of the data, but not none if
the last byte is not full).  The bits above the `k`-th are ignored. -/
def Bits (k : Nat) (s : Bytes) (x : Int) (rest : Bytes) : Prop :=
  ∃ b m n, Takes ((k + 7) / 8) s b rest ∧ (k % 8 ≠ 0 → b ≠ []) ∧ Unsigned b.length b m [] ∧
    n = (if k % 8 = 0 then m else m % 2 ^ (8 * (b.length - 1) + k % 8)) ∧
    x = if n < 2 ^ (k - 1) then (n : Int) else n - 2 ^ k

/-- The number of `Bits` as an int, ... -/
def bits (k : Nat) : Layout := fun s v rest => ∃ x, Bits k s x rest ∧ v = .int x
/-- ... or as the nearest float. -/
def bitsFloat (k : Nat) : Layout := fun s v rest =>
  ∃ x b, Bits k s x rest ∧ NearestFloat (decide (x < 0)) |(x : ℚ)| b ∧ v = .float b

/-- A position: the number of bits of a component (none: components are floats), and whether they are
scaled (floats: double precision). -/
def packed (an : Bool) : Layout := fun s v rest => ∃ info s' L, Unsigned 4 s info s' ∧
  L = (if info % 64 = 0 then (if info / 64 = 0 then f32 an else f64 an)
    else if info / 64 = 0 then bits (info % 64) else bitsFloat (info % 64)) ∧
  record [("x", L), ("y", L), ("z", L)] s' v rest

/-! ### parts of blobs -/

def dynamicId : Layout := record [("created_world_id", guid), ("local_id_in_created_world", guid)]
def itemId : Layout := record [("static_id", text), ("dynamic_id", dynamicId)]
def itemAndNum : Layout := record [("item_id", itemId), ("num", u 4)]
def handle : Layout := record [("guid", guid), ("instance_id", guid)]
def individual : Layout := record [("player_uid", guid), ("instance_id", guid)]
def playerInfo : Layout := record [("last_online_real_time", i 8), ("player_name", text)]
def player : Layout := record [("player_uid", guid), ("player_info", playerInfo)]
def permission : Layout := record [("type_a", array (u 1)), ("type_b", array (u 1)), ("item_static_ids", array text)]
def connectInfo : Layout := record [("connect_to_model_instance_id", guid), ("index", u 1)]
def slotIndexes : Layout := record [("attribute", u 1), ("indexes", array (i 4))]
def lockInfo : Layout := record [("player_uid", guid), ("try_failed_count", i 4), ("try_success_cache", flag 4)]
def transportInfo (an : Bool) : Layout :=
  record [("item_infos", array itemAndNum), ("character_location", vector an)]
def passiveEffect : Layout := tagged fun n f =>
  (n < 2 ∧ f = []) ∨ (n = 2 ∧ f = [("work_hard_type", u 1), ("unknown_trailer", upTo 4)])
def assignLocation (an : Bool) : Layout := record [("location", vector an), ("facing_direction", vector an)]
def bounds (an : Bool) : Layout :=
  record [("location", vector an), ("rotation", quat an),
    ("box_sphere_bounds", record [("origin", vector an), ("box_extent", vector an), ("sphere_radius", f64 an)])]
def workTransform (an : Bool) : Layout := tagged fun n f => f = ("v2", always (.int 0)) ::
  (if n = 1 then [("rotation", quat an), ("translation", vector an), ("scale3d", vector an)]
  else if n = 2 then [("map_object_instance_id", guid)]
  else if n = 3 then [("guid", guid), ("instance_id", guid)]
  else [("raw_data", toEnd)])

end Layout

open Layout

/-! ### fields that depend on a type -/

def groupHead (t : Val) : List (String × Layout) :=
  [("group_type", always t), ("group_id", guid), ("group_name", text), ("individual_character_handle_ids", array handle)]
def orgFields : List (String × Layout) := [("org_type", u 1), ("base_ids", array uuid)]
def guildFields : List (String × Layout) :=
  [("base_camp_level", i 4), ("map_object_instance_ids_base_camp_points", array uuid), ("guild_name", text)]
/-- What follows the head of a group. -/
def groupFields : List (String × List (String × Layout)) :=
  [("EPalGroupType::Organization", orgFields),
    ("EPalGroupType::Guild", orgFields ++ guildFields ++ [("admin_player_uid", guid), ("players", counted player)]),
    ("EPalGroupType::IndependentGuild", orgFields ++ guildFields ++
      [("player_uid", guid), ("guild_name_2", text), ("player_info", playerInfo)])]

def moduleFields : List (String × List (String × Layout)) :=
  [("EPalMapObjectConcreteModelModuleType::ItemContainer",
      [("target_container_id", guid), ("slot_attribute_indexes", array slotIndexes),
        ("all_slot_attribute", array (u 1)), ("drop_item_at_disposed", flag 4), ("usage_type", u 1)]),
    ("EPalMapObjectConcreteModelModuleType::CharacterContainer", [("target_container_id", guid)]),
    ("EPalMapObjectConcreteModelModuleType::Workee", [("target_work_id", guid)]),
    ("EPalMapObjectConcreteModelModuleType::Switch", [("switch_state", u 1)]),
    ("EPalMapObjectConcreteModelModuleType::PasswordLock",
      [("lock_state", u 1), ("password", text), ("player_infos", array lockInfo)])]

/-- Base camp modules that hold nothing. -/
def campEmpty : List String :=
  ["EPalBaseCampModuleType::Energy", "EPalBaseCampModuleType::Medical", "EPalBaseCampModuleType::ResourceCollector",
    "EPalBaseCampModuleType::ItemStorages", "EPalBaseCampModuleType::FacilityReservation",
    "EPalBaseCampModuleType::ObjectMaintenance"]
def campFields (an : Bool) : List (String × List (String × Layout)) :=
  [("EPalBaseCampModuleType::TransportItemDirector", [("transport_item_character_infos", array (transportInfo an))]),
    ("EPalBaseCampModuleType::PassiveEffect", [("passive_effects", array passiveEffect)])]

def workHead (an : Bool) : List (String × Layout) :=
  [("id", guid), ("workable_bounds", bounds an), ("base_camp_id_belong_to", guid), ("owner_map_object_model_id", guid),
    ("owner_map_object_concrete_model_id", guid), ("current_state", u 1), ("assign_locations", array (assignLocation an)),
    ("behaviour_type", u 1), ("assign_define_data_id", text), ("override_work_type", u 1),
    ("assignable_fixed_type", u 1), ("assignable_otomo", flag 4), ("can_trigger_worker_event", flag 4),
    ("can_steal_assign", flag 4)]
def workFields (an : Bool) : List (String × List (String × Layout)) :=
  [("EPalWorkableType::Progress", workHead an ++ [("required_work_amount", f32 an), ("work_exp", i 4),
      ("current_work_amount", f32 an), ("auto_work_self_amount_by_sec", f32 an)]),
    ("EPalWorkableType::TransportItemInBaseCamp", workHead an),
    ("EPalWorkableType::ReviveCharacter", workHead an ++ [("target_individual_id", individual)]),
    ("EPalWorkableType::LevelObject", workHead an),
    ("EPalWorkableType::Repair", workHead an),
    ("EPalWorkableType::Defense", workHead an ++ [("defense_combat_type", u 1)]),
    ("EPalWorkableType::BootUp", workHead an),
    ("EPalWorkableType::OnlyJoin", workHead an),
    ("EPalWorkableType::OnlyJoinAndWalkAround", workHead an),
    ("EPalWorkableType::RemoveMapObjectEffect", workHead an),
    ("EPalWorkableType::MonsterFarm", workHead an),
    ("EPalWorkableType::Assign", [("handle_id", guid), ("location_index", i 4), ("assign_type", u 1),
      ("assigned_individual_id", individual), ("state", u 1), ("fixed", u 4)])]

def farmFields (an : Bool) : List (String × Layout) :=
  [("crop_data_id", text), ("current_state", u 1), ("crop_progress_rate_value", f32 an), ("water_stack_rate_value", f32 an)]

/-- What follows the ids of a concrete model of a class; `E` is the layout of embedded property lists. -/
def concretePlain (an : Bool) (E : Layout) : List (String × List (String × Layout)) :=
  concreteNoOp.map (fun c => (c, [])) ++
  [("PalMapObjectDeathDroppedCharacterModel", [("stored_parameter_id", guid), ("owner_player_uid", guid)]),
    ("PalMapObjectConvertItemModel", [("current_recipe_id", text), ("remain_product_num", i 4),
      ("requested_product_num", i 4), ("work_speed_additional_rate", f32 an)]),
    ("PalMapObjectPickupItemOnLevelModel", [("auto_picked_up", flag 4)]),
    ("PalMapObjectDropItemModel", [("auto_picked_up", flag 4), ("item_id", itemId)]),
    ("PalMapObjectItemDropOnDamagModel", [("drop_item_infos", array itemAndNum)]),
    ("PalMapObjectDeathPenaltyStorageModel", [("owner_player_uid", guid)]),
    ("PalMapObjectDefenseBulletLauncherModel", [("remaining_bullets", i 4), ("magazine_size", i 4),
      ("bullet_item_name", text)]),
    ("PalMapObjectGenerateEnergyModel", [("stored_energy_amount", f32 an)]),
    ("PalMapObjectFarmBlockV2Model", farmFields an),
    ("PalMapObjectFastTravelPointModel", [("location_instance_id", guid)]),
    ("PalMapObjectShippingItemModel", [("shipping_hours", array (i 4))]),
    ("PalMapObjectProductItemModel", [("work_speed_additional_rate", f32 an), ("product_item_id", text)]),
    ("PalMapObjectRecoverOtomoModel", [("recover_amount_by_sec", f32 an)]),
    ("PalMapObjectHatchingEggModel", [("hatched_character_save_parameter", E), ("unknown_bytes", u 4),
      ("hatched_character_guid", guid)]),
    ("PalMapObjectTreasureBoxModel", [("treasure_grade_type", u 1)]),
    ("PalMapObjectBreedFarmModel", [("spawned_egg_instance_ids", array guid)]),
    ("PalMapObjectSignboardModel", [("signboard_text", text)]),
    ("PalMapObjectTorchModel", [("extinction_date_time", i 8)]),
    ("PalMapObjectPalEggModel", [("unknown_bytes", u 4)]),
    ("PalMapObjectBaseCampPoint", [("base_camp_id", guid)])]
/-- A farm block may also have a state. -/
def concreteFields (an : Bool) (E : Layout) : List (String × List (String × Layout)) := concretePlain an E ++
  [("PalMapObjectFarmBlockV2Model", farmFields an ++
    [("state_machine", record [("growup_required_time", f32 an), ("growup_progress_time", f32 an)])])]

/-- The row of a table for the type `t`; no fields for other types. -/
inductive FieldsOf (table : List (String × List (String × Layout))) (t : Val) : List (String × Layout) → Prop
  | known {s f} : (s, f) ∈ table → IsType t s → FieldsOf table t f
  | other : (∀ e ∈ table, ¬ IsType t e.1) → FieldsOf table t []

/-! ### blobs

`B b v`: the blob `b` is shown as `v`. -/

/-- Fields that fill the blob. -/
def whole (f : List (String × Layout)) (b : Bytes) (v : Val) : Prop := record f b v []

def ShowsGroup (t : Val) (b : Bytes) (v : Val) : Prop := ∃ f, FieldsOf groupFields t f ∧ whole (groupHead t ++ f) b v

def ShowsModule (t : Val) (b : Bytes) (v : Val) : Prop := ∃ f, FieldsOf moduleFields t f ∧ whole f b v

/-- A blob that is not understood keeps its value `raw`. -/
def keptAs (raw : Val) : Val := vDict [("values", raw)]

/-- Base camp modules; bytes after the fields are dropped. -/
inductive ShowsCamp (an : Bool) (t raw : Val) (b : Bytes) : Val → Prop
  | empty {s} : s ∈ campEmpty → IsType t s → ShowsCamp an t raw b (.dict [])
  | known {s f v rest} : (s, f) ∈ campFields an → IsType t s → record f b v rest → ShowsCamp an t raw b v
  | unreadable {s f} : (s, f) ∈ campFields an → IsType t s → (∀ v rest, ¬ record f b v rest) →
      ShowsCamp an t raw b (keptAs raw)
  | other : (∀ s ∈ campEmpty, ¬ IsType t s) → (∀ e ∈ campFields an, ¬ IsType t e.1) → ShowsCamp an t raw b (keptAs raw)

inductive ShowsWork (an : Bool) (t raw : Val) (b : Bytes) : Val → Prop
  | known {s f v} : (s, f) ∈ workFields an → IsType t s → whole (f ++ [("transform", workTransform an)]) b v →
      ShowsWork an t raw b v
  | other : (∀ e ∈ workFields an, ¬ IsType t e.1) → (∀ l, t ≠ .list l) → (∀ d, t ≠ .dict d) →
      ShowsWork an t raw b (keptAs raw)

def workAssign : List (String × Layout) :=
  [("id", guid), ("location_index", i 4), ("assign_type", u 1), ("assigned_individual_id", individual),
    ("state", u 1), ("fixed", flag 4)]

def mapModel (an : Bool) : List (String × Layout) :=
  [("instance_id", guid), ("concrete_model_instance_id", guid), ("base_camp_id_belong_to", guid),
    ("group_id_belong_to", guid), ("hp", record [("current", i 4), ("max", i 4)]),
    ("initital_transform_cache", transform an), ("repair_work_id", guid),
    ("owner_spawner_level_object_instance_id", guid), ("owner_instance_id", guid), ("build_player_uid", guid),
    ("interact_restrict_type", u 1), ("stage_instance_id_belong_to", record [("id", guid), ("valid", flag 4)]),
    ("created_at", i 8)]

def connectorHead : List (String × Layout) :=
  [("supported_level", i 4), ("connect", record [("index", u 1), ("any_place", array connectInfo)])]
/-- A connector, with or without other connectors. -/
def ShowsConnector (b : Bytes) (v : Val) : Prop :=
  whole connectorHead b v ∨
  whole (connectorHead ++ [("other_connectors", others (record [("index", u 1), ("connect", array connectInfo)]))]) b v

def buildProcess : List (String × Layout) := [("state", u 1), ("id", guid)]

/-- Concrete models of the map object id `o`. -/
inductive ShowsConcrete (an : Bool) (E : Layout) (raw : Val) (b : Bytes) : Val → Val → Prop
  | known {o c f v} : concreteClass? o = some c → (c, f) ∈ concreteFields an E →
      whole ([("instance_id", guid), ("model_instance_id", guid), ("concrete_model_type", always (.str (P c)))] ++ f) b v →
      ShowsConcrete an E raw b (.str o) v
  | unknown {o} : (∀ c, concreteClass? o = some c → ∀ e ∈ concreteFields an E, e.1 ≠ c) →
      ShowsConcrete an E raw b (.str o) (keptAs raw)

/-- What follows the id of an egg, ... -/
def eggFields (E : Layout) : List (String × Layout) :=
  [("type", always (.str (P "egg"))), ("character_id", text), ("object", E), ("unknown_bytes", bytes 4),
    ("unknown_id", guid)]
/-- ... of armor and of a weapon. -/
def armorFields (an : Bool) : List (String × Layout) := [("type", always (.str (P "armor"))), ("durability", f32 an)]
def weaponFields (an : Bool) : List (String × Layout) :=
  [("type", always (.str (P "weapon"))), ("durability", f32 an), ("remaining_bullets", i 4),
    ("passive_skill_list", array text)]
def otherFields : List (String × Layout) := [("type", always (.str (P "unknown"))), ("trailer", toEnd)]

/-- The fields of a dynamic item after its id.  Whatever begins like an egg is an egg (and is refused if it
goes on after that, or if `F` holds of the bytes after its name); then four bytes are armor; then what
reads as a weapon is one; the rest is unknown. -/
inductive ItemFields (an : Bool) (E : Layout) (F : Bytes → Prop) (s : Bytes) : List (String × Layout) → Prop
  | egg : (∃ l, fields (eggFields E) s l []) → ItemFields an E F s (eggFields E)
  | armor : (∀ l rest, ¬ fields (eggFields E) s l rest) → (∀ t s', Text s t s' → ¬ F s') → s.length = 4 →
      ItemFields an E F s (armorFields an)
  | weapon : (∀ l rest, ¬ fields (eggFields E) s l rest) → (∀ t s', Text s t s' → ¬ F s') → s.length ≠ 4 →
      (∃ l, fields (weaponFields an) s l []) → ItemFields an E F s (weaponFields an)
  | other : (∀ l rest, ¬ fields (eggFields E) s l rest) → (∀ t s', Text s t s' → ¬ F s') → s.length ≠ 4 →
      (¬ ∃ l, fields (weaponFields an) s l []) → ItemFields an E F s otherFields

def ShowsItem (an : Bool) (E : Layout) (F : Bytes → Prop) (b : Bytes) (v : Val) : Prop :=
  ∃ id s f l, record [("created_world_id", guid), ("local_id_in_created_world", guid), ("static_id", text)] b id s ∧
    ItemFields an E F s f ∧ fields f s l [] ∧ v = vDict (("id", id) :: l)

def foliageInstance (an : Bool) : List (String × Layout) :=
  [("model_instance_id", guid),
    ("world_transform", record [("rotator", record [("pitch", angle), ("yaw", angle), ("roll", angle)]),
      ("location", packed an), ("scale_x", f32 an)]),
    ("hp", i 4)]

/-! ### values -/

/-- The blob in a value, as Python's `bytes(raw)` gives it, is shown as `v`. -/
def FromBlob (B : Bytes → Val → Prop) (raw v : Val) : Prop := ∃ b, SaysBytes raw b ∧ B b v
/-- An empty sequence is shown as `d`. -/
def OrEmpty (d : Val) (B : Bytes → Val → Prop) (raw v : Val) : Prop :=
  (Items raw [] ∧ v = d) ∨ ∃ l, Items raw l ∧ l ≠ [] ∧ FromBlob B raw v
/-- What `x["values"]` is shown as. -/
def FromValues (R : Val → Val → Prop) (x v : Val) : Prop := ∃ raw, At x "values" raw ∧ R raw v

/-- An empty blob of a map object. -/
def noValues : Val := vDict [("values", .list [])]

def ShownGroup (g g' : Val) : Prop := ∃ t, Reach g ["value", "GroupType", "value", "value"] (· = t) ∧
  Change (FromValues (FromBlob (ShowsGroup t))) entryBlob g g'

def ShownCampModule (an : Bool) (m m' : Val) : Prop := ∃ t, At m "key" t ∧
  Change (FromValues fun raw => FromBlob (ShowsCamp an t raw) raw) entryBlob m m'

def ShownWork (an : Bool) (w w' : Val) : Prop := ∃ t, Reach w ["WorkableType", "value", "value"] (· = t) ∧
  Then (Change (FromValues fun raw => FromBlob (ShowsWork an t raw) raw) ["RawData", "value"])
    (Change (Each (Change (FromValues (FromBlob (whole workAssign))) entryBlob)) ["WorkAssignMap", "value"]) w w'

def ShownModule (m m' : Val) : Prop := ∃ t, At m "key" t ∧
  Change (FromValues (OrEmpty noValues (ShowsModule t))) entryBlob m m'

def ShownConcrete (an : Bool) (E : Layout) (m m' : Val) : Prop := ∃ o, Reach m ["MapObjectId", "value"] (· = o) ∧
  Change (FromValues fun raw => OrEmpty noValues (fun b => ShowsConcrete an E raw b o) raw)
    ["ConcreteModel", "value", "RawData", "value"] m m'

def ShownMapObject (an : Bool) (E : Layout) : Val → Val → Prop :=
  Then (Change (FromValues (FromBlob (whole (mapModel an)))) ["Model", "value", "RawData", "value"]) <|
  Then (Change (FromValues (OrEmpty noValues ShowsConnector)) ["Model", "value", "Connector", "value", "RawData", "value"]) <|
  Then (Change (FromValues (FromBlob (whole buildProcess))) ["Model", "value", "BuildProcess", "value", "RawData", "value"]) <|
  Then (ShownConcrete an E) <|
  Change (Each ShownModule) ["ConcreteModel", "value", "ModuleMap", "value"]

/-- A number that can be printed as two hexadecimal digits. -/
inductive Printable : Val → Prop
  | int (i : Int) : Printable (.int i)
  | bool (b : Bool) : Printable (.bool b)

/-- The custom property `c` shows the plain property `v` as `v'`.  `E` is the layout of the property lists
embedded in blobs; `F s` says that such a list in the bytes `s` is refused because of bytes left over in
a blob of its own. -/
def Decoded (an : Bool) (E : Layout) (F : Bytes → Prop) : CodecId → Val → Val → Prop
  | .group => Change (Each ShownGroup) ["value"]
  | .baseCampModule => Change (Each (ShownCampModule an)) ["value"]
  | .work => Change (Each (ShownWork an)) ["value", "values"]
  | .mapObject => Change (Each (ShownMapObject an E)) ["value", "values"]
  | .debug => fun v v' => ∃ l, Reach v ["value", "values"] (Items · l) ∧ (∀ x ∈ l, Printable x) ∧ v' = v
  | .character => blob (FromBlob (whole [("object", E), ("unknown_bytes", bytes 4), ("group_id", guid)]))
  | .itemContainer => blob (OrEmpty .none (whole [("permission", permission)]))
  | .itemContainerSlots =>
      blob (OrEmpty .none (whole [("permission", permission), ("corruption_progress_value", f32 an)]))
  | .characterContainer =>
      blob (OrEmpty .none (whole [("player_uid", guid), ("instance_id", guid), ("permission_tribe_id", u 1)]))
  | .dynamicItem => blob (OrEmpty .none (ShowsItem an E F))
  | .foliageModel => blob (FromBlob (whole [("model_id", text), ("foliage_preset_type", u 1),
      ("cell_coord", record [("x", i 8), ("y", i 8), ("z", i 8)])]))
  | .foliageModelInstance => blob (FromBlob (whole (foliageInstance an)))
  | .baseCamp => blob (FromBlob (whole [("id", guid), ("name", text), ("state", u 1), ("transform", transform an),
      ("area_range", f32 an), ("group_id_belong_to", guid), ("fast_travel_local_transform", transform an),
      ("owner_map_object_instance_id", guid)]))
  | .workerDirector => blob (FromBlob (whole [("id", guid), ("spawn_transform", transform an),
      ("current_order_type", u 1), ("current_battle_type", u 1), ("container_id", guid)]))
  | .workCollection => blob (FromBlob (whole [("id", guid), ("work_ids", array uuid)]))
  | .connector => blob (OrEmpty noValues ShowsConnector)
  | .buildProcess => blob (FromBlob (whole buildProcess))
  | .mapModel => blob (FromBlob (whole (mapModel an)))
where
  /-- The "value" of an array of bytes. -/
  blob (R : Val → Val → Prop) : Val → Val → Prop := Change (FromValues R) ["value"]

/-- The layout of property lists embedded in blobs. -/
def EmbeddedList (cfg : Cfg) (D : CodecId → Val → Val → Prop) : Layout :=
  fun s v rest => ∃ l, ListAt cfg D [] s l rest ∧ v = .dict (dictOf l)

/-- `D` shows custom properties as their layouts say; lists embedded in blobs are shown by `D` again. -/
def ShowsCustom (cfg : Cfg) (F : Bytes → Prop) (D : CodecId → Val → Val → Prop) : Prop :=
  ∀ path c, cfg.custom path = some c → ∀ v w, D c v w ↔ Decoded cfg.allowNan (EmbeddedList cfg D) F c v w

end Pal.Spec
