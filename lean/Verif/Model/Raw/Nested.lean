import Verif.Model.Raw.Simple
import Verif.Model.Raw.ConcreteTable
/-
rawdata modules whose blobs may embed a property list: character, dynamic_item,
map_concrete_model.

`rec` is `reader.properties_until_end()` on the copy of the reader (same type hints
and custom properties, path ""); `wp` is `FArchiveWriter().properties(...)`, a
writer without custom properties.
-/

namespace Pal

/-! ### rawdata/character.py -/

/-- `decode_bytes` (character.py:17-28) -/
def characterDecode (rec : R Val) : R Val := do
  let o ← rec
  let u ← rByteList 4
  let g ← rGuid
  rCheckEof
  return dct [("object", o), ("unknown_bytes", u), ("group_id", g)]

/-- `encode_bytes` (character.py:42-48) -/
def characterEncode (wp : Val → Except Err Bytes) (p : Val) : Except Err Bytes :=
  wcat [wAt p ["object"] wp, wAt p ["unknown_bytes"] wBytesOf, wAt p ["group_id"] wGuid]

/-! ### rawdata/dynamic_item.py -/

/-- The body of `try_read_egg` (dynamic_item.py:61-68) -/
def eggDecode (rec : R Val) : R Dict := do
  let c ← rStr
  let o ← rec
  let u ← rByteList 4
  let g ← rGuid
  rCheckEof
  return [(P "type", .str (P "egg")), (P "character_id", c), (P "object", o),
    (P "unknown_bytes", u), (P "unknown_id", g)]

/-- `try_read_egg` (dynamic_item.py:58-73): an exception whose message is exactly
"Warning: EOF not reached" is re-raised, any other one restores the position and
gives None. -/
def tryEgg (rec : R Val) : R (Option Dict) :=
  rTry (do
    let d ← eggDecode rec
    return some d)
    (fun e => if e = .exc "Warning: EOF not reached" then rFail e else return none)

/-- dynamic_item.py:35-38 -/
def armorDecode (an : Bool) : R Dict := do
  let d ← rFloat an
  rCheckEof
  return [(P "type", .str (P "armor")), (P "durability", d)]

/-- dynamic_item.py:41-48 -/
def weaponDecode (an : Bool) : R Dict := do
  let d ← rFloat an
  let b ← rI32
  let p ← rTArray rStr
  rCheckEof
  return [(P "type", .str (P "weapon")), (P "durability", d), (P "remaining_bullets", .int b),
    (P "passive_skill_list", p)]

/-- dynamic_item.py:53-54 -/
def trailerDecode : R Dict := do
  let b ← rReadToEnd
  return [(P "type", .str (P "unknown")), (P "trailer", .list (b.map fun x => .int x.toNat))]

/-- dynamic_item.py:32-54: what follows the id, as the entries added to the dict
(`data["type"]` is set first and overwritten in place by `|=`). -/
def dynamicRest (an : Bool) (rec : R Val) : R Dict := do
  let egg ← tryEgg rec
  let n ← rRemaining
  match egg with
  | some d => return d
  | none =>
    if n = 4 then armorDecode an
    else rTry (weaponDecode an) (fun _ => trailerDecode)

/-- dynamic_item.py:25-29 -/
def dynamicIdDecode : R Val := do
  let w ← rGuid
  let l ← rGuid
  let s ← rStr
  return dct [("created_world_id", w), ("local_id_in_created_world", l), ("static_id", s)]

/-- `decode_bytes` after the empty test (dynamic_item.py:22-55) -/
def dynamicItemDecode (an : Bool) (rec : R Val) : R Val := do
  let i ← dynamicIdDecode
  let d ← dynamicRest an rec
  return .dict ((P "id", i) :: d)

/-- `encode_bytes` after the None test (dynamic_item.py:90-108) -/
def dynamicItemEncode (wp : Val → Except Err Bytes) (p : Val) : Except Err Bytes :=
  wcat [wAt p ["id", "created_world_id"] wGuid,
    wAt p ["id", "local_id_in_created_world"] wGuid,
    wAt p ["id", "static_id"] wFString,
    wAt p ["type"] fun t =>
      if t.isS "unknown" then wAt p ["trailer"] wBytesOf
      else if t.isS "egg" then
        wcat [wAt p ["character_id"] wFString, wAt p ["object"] wp,
          wAt p ["unknown_bytes"] wBytesOf, wAt p ["unknown_id"] wGuid]
      else if t.isS "armor" then wAt p ["durability"] wFloat
      else if t.isS "weapon" then
        wcat [wAt p ["durability"] wFloat, wAt p ["remaining_bullets"] wI32,
          wAt p ["passive_skill_list"] (wTArray wFString)]
      else .ok []]

/-! ### rawdata/map_concrete_model.py -/

/-- map_concrete_model.py:359-360 -/
def pickupBase : R Dict := do
  let a ← rU32
  return [(P "auto_picked_up", .bool (decide (a > 0)))]

def cmDropped : R Dict := do
  let s ← rGuid
  let o ← rGuid
  return [(P "stored_parameter_id", s), (P "owner_player_uid", o)]

def cmConvert (an : Bool) : R Dict := do
  let c ← rStr
  let r ← rI32
  let q ← rI32
  let w ← rFloat an
  return [(P "current_recipe_id", c), (P "remain_product_num", .int r),
    (P "requested_product_num", .int q), (P "work_speed_additional_rate", w)]

def cmDropItem : R Dict := do
  let a ← pickupBase
  let s ← rStr
  let w ← rGuid
  let l ← rGuid
  return a ++ [(P "item_id", dct [("static_id", s),
    ("dynamic_id", dct [("created_world_id", w), ("local_id_in_created_world", l)])])]

def cmBullet : R Dict := do
  let r ← rI32
  let m ← rI32
  let b ← rStr
  return [(P "remaining_bullets", .int r), (P "magazine_size", .int m), (P "bullet_item_name", b)]

/-- map_concrete_model.py:404-408 -/
def cmFarmState (an : Bool) : R Dict := do
  let e ← rEof
  if e then return []
  else do
    let r ← rFloat an
    let p ← rFloat an
    return [(P "state_machine", dct [("growup_required_time", r), ("growup_progress_time", p)])]

def cmFarm (an : Bool) : R Dict := do
  let c ← rStr
  let s ← rByte
  let r ← rFloat an
  let w ← rFloat an
  let st ← cmFarmState an
  return [(P "crop_data_id", c), (P "current_state", .int s), (P "crop_progress_rate_value", r),
    (P "water_stack_rate_value", w)] ++ st

def cmProduct (an : Bool) : R Dict := do
  let w ← rFloat an
  let p ← rStr
  return [(P "work_speed_additional_rate", w), (P "product_item_id", p)]

def cmHatch (rec : R Val) : R Dict := do
  let o ← rec
  let u ← rU32
  let g ← rGuid
  return [(P "hatched_character_save_parameter", o), (P "unknown_bytes", .int u),
    (P "hatched_character_guid", g)]

/-- A single field. -/
def one (k : String) (x : R Val) : R Dict := do
  let v ← x
  return [(P k, v)]

def rU32Val : R Val := do
  let n ← rU32
  return .int n

def rI64Val : R Val := do
  let n ← rI64
  return .int n

/-- The if/elif chain (map_concrete_model.py:367-438): `none` is the final `else`. -/
def concreteBody (an : Bool) (rec : R Val) (c : String) : Option (R Dict) :=
  if c ∈ concreteNoOp then some (R.pure [])
  else if c = "PalMapObjectDeathDroppedCharacterModel" then some cmDropped
  else if c = "PalMapObjectConvertItemModel" then some (cmConvert an)
  else if c = "PalMapObjectPickupItemOnLevelModel" then some pickupBase
  else if c = "PalMapObjectDropItemModel" then some cmDropItem
  else if c = "PalMapObjectItemDropOnDamagModel" then
    some (one "drop_item_infos" (rTArray itemAndNumDecode))
  else if c = "PalMapObjectDeathPenaltyStorageModel" then some (one "owner_player_uid" rGuid)
  else if c = "PalMapObjectDefenseBulletLauncherModel" then some cmBullet
  else if c = "PalMapObjectGenerateEnergyModel" then some (one "stored_energy_amount" (rFloat an))
  else if c = "PalMapObjectFarmBlockV2Model" then some (cmFarm an)
  else if c = "PalMapObjectFastTravelPointModel" then some (one "location_instance_id" rGuid)
  else if c = "PalMapObjectShippingItemModel" then some (one "shipping_hours" (rTArray rI32Val))
  else if c = "PalMapObjectProductItemModel" then some (cmProduct an)
  else if c = "PalMapObjectRecoverOtomoModel" then some (one "recover_amount_by_sec" (rFloat an))
  else if c = "PalMapObjectHatchingEggModel" then some (cmHatch rec)
  else if c = "PalMapObjectTreasureBoxModel" then some (one "treasure_grade_type" rByteVal)
  else if c = "PalMapObjectBreedFarmModel" then
    some (one "spawned_egg_instance_ids" (rTArray rGuid))
  else if c = "PalMapObjectSignboardModel" then some (one "signboard_text" rStr)
  else if c = "PalMapObjectTorchModel" then some (one "extinction_date_time" rI64Val)
  else if c = "PalMapObjectPalEggModel" then some (one "unknown_bytes" rU32Val)
  else if c = "PalMapObjectBaseCampPoint" then some (one "base_camp_id" rGuid)
  else none

/-- `decode_bytes` after the empty test (map_concrete_model.py:348-444).  `raw` is
the original `m_bytes`; `object_id.lower()` raises AttributeError unless it is a
str. -/
def concreteDecode (an : Bool) (rec : R Val) (objectId raw : Val) : R Val :=
  match objectId with
  | .str o => match concreteClass? o with
    | none => return dct [("values", raw)]
    | some c => do
      let i ← rGuid
      let m ← rGuid
      match concreteBody an rec c with
      | none => return dct [("values", raw)]
      | some body => do
        let d ← body
        rCheckEofFor
        return .dict ([(P "instance_id", i), (P "model_instance_id", m),
          (P "concrete_model_type", .str (P c))] ++ d)
  | _ => rFail .attr

/-- The if/elif chain of `encode_bytes` (map_concrete_model.py:459-522) -/
def concreteBodyEncode (wp : Val → Except Err Bytes) (c p : Val) : Except Err Bytes :=
  if c.isAny concreteNoOp then .ok []
  else if c.isS "PalMapObjectDeathDroppedCharacterModel" then
    wcat [wAt p ["stored_parameter_id"] wGuid, wAt p ["owner_player_uid"] wGuid]
  else if c.isS "PalMapObjectConvertItemModel" then
    wcat [wAt p ["current_recipe_id"] wFString, wAt p ["remain_product_num"] wI32,
      wAt p ["requested_product_num"] wI32, wAt p ["work_speed_additional_rate"] wFloat]
  else if c.isS "PalMapObjectPickupItemOnLevelModel" then wAt p ["auto_picked_up"] wFlag32
  else if c.isS "PalMapObjectDropItemModel" then
    wcat [wAt p ["auto_picked_up"] wFlag32, wAt p ["item_id", "static_id"] wFString,
      wAt p ["item_id", "dynamic_id", "created_world_id"] wGuid,
      wAt p ["item_id", "dynamic_id", "local_id_in_created_world"] wGuid]
  else if c.isS "PalMapObjectItemDropOnDamagModel" then
    wAt p ["drop_item_infos"] (wTArray itemAndNumEncode)
  else if c.isS "PalMapObjectDeathPenaltyStorageModel" then wAt p ["owner_player_uid"] wGuid
  else if c.isS "PalMapObjectDefenseBulletLauncherModel" then
    wcat [wAt p ["remaining_bullets"] wI32, wAt p ["magazine_size"] wI32,
      wAt p ["bullet_item_name"] wFString]
  else if c.isS "PalMapObjectGenerateEnergyModel" then wAt p ["stored_energy_amount"] wFloat
  else if c.isS "PalMapObjectFarmBlockV2Model" then
    wcat [wAt p ["crop_data_id"] wFString, wAt p ["current_state"] wByte,
      wAt p ["crop_progress_rate_value"] wFloat, wAt p ["water_stack_rate_value"] wFloat,
      match p.contains (P "state_machine") with
      | .error e => .error e
      | .ok false => .ok []
      | .ok true => wcat [wAt p ["state_machine", "growup_required_time"] wFloat,
          wAt p ["state_machine", "growup_progress_time"] wFloat]]
  else if c.isS "PalMapObjectFastTravelPointModel" then wAt p ["location_instance_id"] wGuid
  else if c.isS "PalMapObjectShippingItemModel" then wAt p ["shipping_hours"] (wTArray wI32)
  else if c.isS "PalMapObjectProductItemModel" then
    wcat [wAt p ["work_speed_additional_rate"] wFloat, wAt p ["product_item_id"] wFString]
  else if c.isS "PalMapObjectRecoverOtomoModel" then wAt p ["recover_amount_by_sec"] wFloat
  else if c.isS "PalMapObjectHatchingEggModel" then
    wcat [wAt p ["hatched_character_save_parameter"] wp, wAt p ["unknown_bytes"] wU32,
      wAt p ["hatched_character_guid"] wGuid]
  else if c.isS "PalMapObjectTreasureBoxModel" then wAt p ["treasure_grade_type"] wByte
  else if c.isS "PalMapObjectBreedFarmModel" then
    wAt p ["spawned_egg_instance_ids"] (wTArray wGuid)
  else if c.isS "PalMapObjectSignboardModel" then wAt p ["signboard_text"] wFString
  else if c.isS "PalMapObjectTorchModel" then wAt p ["extinction_date_time"] wI64
  else if c.isS "PalMapObjectPalEggModel" then wAt p ["unknown_bytes"] wU32
  else if c.isS "PalMapObjectBaseCampPoint" then wAt p ["base_camp_id"] wGuid
  else .error (.exc "Unknown map object concrete model")

/-- `encode_bytes` after the None test (map_concrete_model.py:451-525) -/
def concreteEncode (wp : Val → Except Err Bytes) (p : Val) : Except Err Bytes :=
  wAt p ["concrete_model_type"] fun c =>
    wcat [wAt p ["instance_id"] wGuid, wAt p ["model_instance_id"] wGuid,
      concreteBodyEncode wp c p]

end Pal
