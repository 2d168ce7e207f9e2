import Verif.Model.Writer
/-
rawdata modules without embedded property lists: common, group,
character_container, item_container, item_container_slots, foliage_model,
foliage_model_instance, base_camp, worker_director, work_collection, map_model,
connector, build_process, map_concrete_model_module, base_camp_module, work.

`xDecode` models `decode_bytes` on the bytes of the blob (the state of the reader
is the rest of the blob), `xEncode` models `encode_bytes`.  `an` is the reader's
`allow_nan`.  Dicts that the Python code builds key by key are written as one
literal, all keys being distinct.
-/

namespace Pal

/-- `reader.internal_copy(bytes(v))` followed by reading a blob. -/
def runBlob (v : Val) (x : R Val) : Except Err Val :=
  match toBytes v with
  | .error e => .error e
  | .ok b => match x b with
    | .ok (r, _) => .ok r
    | .error e => .error e

/-- `x in [...]` for a value and string literals. -/
def Val.isAny (v : Val) (l : List String) : Bool :=
  match v with
  | .str s => l.any fun t => P t = s
  | _ => false

/-- `v == "..."`.  (A UUID object of fewer than 16 bytes would raise IndexError here; the model says
False.  The reader makes none in such a place and JSON holds no UUID objects.) -/
def Val.isS (v : Val) (t : String) : Bool :=
  match v with
  | .str s => P t = s
  | _ => false

/-- `v == k` for an int literal `k`.  A float equal to `k` also compares equal. -/
def Val.isI (v : Val) (k : Int) : Bool :=
  match v with
  | .int i => i = k
  | .bool b => (if b then 1 else 0) = k
  | .float f => !(isNaN64 f) && !(isInf64 f) && !(Num.lt (.f f) (.i k)) && !(Num.lt (.i k) (.f f))
  | _ => false

/-! ### rawdata/common.py -/

/-- common.py:6-16 -/
def itemAndNumDecode : R Val := do
  let sid ← rStr
  let w ← rGuid
  let l ← rGuid
  let n ← rU32
  return dct [("item_id", dct [("static_id", sid),
    ("dynamic_id", dct [("created_world_id", w), ("local_id_in_created_world", l)])]),
    ("num", .int n)]

/-- common.py:19-23 -/
def itemAndNumEncode (p : Val) : Except Err Bytes :=
  wcat [wAt p ["item_id", "static_id"] wFString,
    wAt p ["item_id", "dynamic_id", "created_world_id"] wGuid,
    wAt p ["item_id", "dynamic_id", "local_id_in_created_world"] wGuid,
    wAt p ["num"] wU32]

/-! ### rawdata/group.py -/

def orgTypes : List String :=
  ["EPalGroupType::Guild", "EPalGroupType::IndependentGuild", "EPalGroupType::Organization"]
def guildTypes : List String := ["EPalGroupType::Guild", "EPalGroupType::IndependentGuild"]

/-- group.py:67-73, also 54-57 -/
def playerInfoDecode : R Val := do
  let t ← rI64
  let n ← rStr
  return dct [("last_online_real_time", .int t), ("player_name", n)]

/-- group.py:67-73 -/
def guildPlayerDecode : R Val := do
  let u ← rGuid
  let i ← playerInfoDecode
  return dct [("player_uid", u), ("player_info", i)]

/-- group.py:33-42 -/
def groupOrg : R Dict := do
  let t ← rByte
  let b ← rTArray rUuid
  return [(P "org_type", .int t), (P "base_ids", b)]

/-- group.py:43-49 -/
def groupGuild : R Dict := do
  let l ← rI32
  let m ← rTArray rUuid
  let n ← rStr
  return [(P "base_camp_level", .int l), (P "map_object_instance_ids_base_camp_points", m),
    (P "guild_name", n)]

/-- group.py:50-59 -/
def groupIndie : R Dict := do
  let u ← rGuid
  let n ← rStr
  let i ← playerInfoDecode
  return [(P "player_uid", u), (P "guild_name_2", n), (P "player_info", i)]

/-- group.py:60-75; `range(player_count)` is empty for a negative count. -/
def groupPlayers : R Dict := do
  let a ← rGuid
  let n ← rI32
  let l ← rRepeat guildPlayerDecode n.toNat
  return [(P "admin_player_uid", a), (P "players", .list l)]

/-- `decode_bytes` (group.py:23-78) -/
def groupDecode (groupType : Val) : R Val := do
  let g ← rGuid
  let n ← rStr
  let h ← rTArray rInstanceId
  let org ← (if groupType.isAny orgTypes then groupOrg else R.pure [])
  let guild ← (if groupType.isAny guildTypes then groupGuild else R.pure [])
  let indie ← (if groupType.isS "EPalGroupType::IndependentGuild" then groupIndie else R.pure [])
  let pl ← (if groupType.isS "EPalGroupType::Guild" then groupPlayers else R.pure [])
  rCheckEof
  return .dict ([(P "group_type", groupType), (P "group_id", g), (P "group_name", n),
    (P "individual_character_handle_ids", h)] ++ org ++ guild ++ indie ++ pl)

/-- group.py:121-124, one player -/
def guildPlayerEncode (p : Val) : Except Err Bytes :=
  wcat [wAt p ["player_uid"] wGuid,
    wAt p ["player_info", "last_online_real_time"] wI64,
    wAt p ["player_info", "player_name"] wFString]

/-- group.py:120-124 -/
def guildPlayersEncode (v : Val) : Except Err Bytes :=
  match v.seqItems with
  | .ok l => wcat [wI32 (.int l.length), wItems guildPlayerEncode l]
  | .error e => .error e

/-- `encode_bytes` (group.py:97-126) -/
def groupEncode (p : Val) : Except Err Bytes :=
  wcat [wAt p ["group_id"] wGuid,
    wAt p ["group_name"] wFString,
    wAt p ["individual_character_handle_ids"] (wTArray wInstanceId),
    wAt p ["group_type"] fun gt =>
      wcat [
        if gt.isAny orgTypes then
          wcat [wAt p ["org_type"] wByte, wAt p ["base_ids"] (wTArray wGuid)]
        else .ok [],
        if gt.isAny guildTypes then
          wcat [wAt p ["base_camp_level"] wI32,
            wAt p ["map_object_instance_ids_base_camp_points"] (wTArray wGuid),
            wAt p ["guild_name"] wFString]
        else .ok [],
        if gt.isS "EPalGroupType::IndependentGuild" then
          wcat [wAt p ["player_uid"] wGuid, wAt p ["guild_name_2"] wFString,
            wAt p ["player_info", "last_online_real_time"] wI64,
            wAt p ["player_info", "player_name"] wFString]
        else .ok [],
        if gt.isS "EPalGroupType::Guild" then
          wcat [wAt p ["admin_player_uid"] wGuid, wAt p ["players"] guildPlayersEncode]
        else .ok []]]

/-! ### rawdata/character_container.py, item_container.py, item_container_slots.py -/

/-- `decode_bytes` after the empty test (character_container.py:22-30) -/
def charContainerDecode : R Val := do
  let u ← rGuid
  let i ← rGuid
  let t ← rByte
  rCheckEof
  return dct [("player_uid", u), ("instance_id", i), ("permission_tribe_id", .int t)]

/-- `encode_bytes` after the None test (character_container.py:44-52) -/
def charContainerEncode (p : Val) : Except Err Bytes :=
  wcat [wAt p ["player_uid"] wGuid, wAt p ["instance_id"] wGuid,
    wAt p ["permission_tribe_id"] wByte]

def rByteVal : R Val := do
  let b ← rByte
  return .int b

def rI32Val : R Val := do
  let b ← rI32
  return .int b

/-- The "permission" dict (item_container.py:24-28, item_container_slots.py:24-28) -/
def permissionDecode : R Val := do
  let a ← rTArray rByteVal
  let b ← rTArray rByteVal
  let s ← rTArray rStr
  return dct [("type_a", a), ("type_b", b), ("item_static_ids", s)]

/-- item_container.py:49-53, item_container_slots.py:50-54 -/
def permissionEncode (p : Val) : Except Err Bytes :=
  wcat [wAt p ["permission", "type_a"] (wTArray wByte),
    wAt p ["permission", "type_b"] (wTArray wByte),
    wAt p ["permission", "item_static_ids"] (wTArray wFString)]

/-- item_container.py:22-31 -/
def itemContainerDecode : R Val := do
  let p ← permissionDecode
  rCheckEof
  return dct [("permission", p)]

/-- item_container.py:45-55 -/
def itemContainerEncode (p : Val) : Except Err Bytes := permissionEncode p

/-- item_container_slots.py:22-32 -/
def itemContainerSlotsDecode (an : Bool) : R Val := do
  let p ← permissionDecode
  let c ← rFloat an
  rCheckEof
  return dct [("permission", p), ("corruption_progress_value", c)]

/-- item_container_slots.py:46-57 -/
def itemContainerSlotsEncode (p : Val) : Except Err Bytes :=
  wcat [permissionEncode p, wAt p ["corruption_progress_value"] wFloat]

/-! ### rawdata/foliage_model.py, foliage_model_instance.py -/

/-- foliage_model.py:17-31 -/
def foliageModelDecode : R Val := do
  let m ← rStr
  let t ← rByte
  let x ← rI64
  let y ← rI64
  let z ← rI64
  rCheckEof
  return dct [("model_id", m), ("foliage_preset_type", .int t),
    ("cell_coord", dct [("x", .int x), ("y", .int y), ("z", .int z)])]

/-- foliage_model.py:45-55 -/
def foliageModelEncode (p : Val) : Except Err Bytes :=
  wcat [wAt p ["model_id"] wFString, wAt p ["foliage_preset_type"] wByte,
    wAt p ["cell_coord", "x"] wI64, wAt p ["cell_coord", "y"] wI64,
    wAt p ["cell_coord", "z"] wI64]

/-- foliage_model_instance.py:17-41 -/
def foliageInstanceDecode (an : Bool) : R Val := do
  let g ← rGuid
  let (pitch, yaw, roll) ← rRotator
  let (x, y, z) ← rPackedVector an 1
  let s ← rFloat an
  let hp ← rI32
  rCheckEof
  return dct [("model_instance_id", g),
    ("world_transform", dct [
      ("rotator", dct [("pitch", pitch), ("yaw", yaw), ("roll", roll)]),
      ("location", dct [("x", x), ("y", y), ("z", z)]),
      ("scale_x", s)]),
    ("hp", .int hp)]

/-- `p[a][b][k1], p[a][b][k2], p[a][b][k3]` passed as three arguments. -/
def wAt3 (p : Val) (ks : List String) (k1 k2 k3 : String)
    (w : Val → Val → Val → Except Err Bytes) : Except Err Bytes :=
  match p.path (ks.map P ++ [P k1]) with
  | .error e => .error e
  | .ok a => match p.path (ks.map P ++ [P k2]) with
    | .error e => .error e
    | .ok b => match p.path (ks.map P ++ [P k3]) with
      | .error e => .error e
      | .ok c => w a b c

/-- foliage_model_instance.py:55-74 -/
def foliageInstanceEncode (p : Val) : Except Err Bytes :=
  wcat [wAt p ["model_instance_id"] wGuid,
    wAt3 p ["world_transform", "rotator"] "pitch" "yaw" "roll" wRotator,
    wAt3 p ["world_transform", "location"] "x" "y" "z" (wPackedVector 1),
    wAt p ["world_transform", "scale_x"] wFloat,
    wAt p ["hp"] wI32]

/-! ### rawdata/base_camp.py, worker_director.py, work_collection.py -/

/-- base_camp.py:17-33 -/
def baseCampDecode (an : Bool) : R Val := do
  let id ← rGuid
  let name ← rStr
  let state ← rByte
  let tr ← rFTransform an
  let area ← rFloat an
  let gid ← rGuid
  let ft ← rFTransform an
  let own ← rGuid
  rCheckEof
  return dct [("id", id), ("name", name), ("state", .int state), ("transform", tr),
    ("area_range", area), ("group_id_belong_to", gid), ("fast_travel_local_transform", ft),
    ("owner_map_object_instance_id", own)]

/-- base_camp.py:47-58 -/
def baseCampEncode (p : Val) : Except Err Bytes :=
  wcat [wAt p ["id"] wGuid, wAt p ["name"] wFString, wAt p ["state"] wByte,
    wAt p ["transform"] wFTransform, wAt p ["area_range"] wFloat,
    wAt p ["group_id_belong_to"] wGuid, wAt p ["fast_travel_local_transform"] wFTransform,
    wAt p ["owner_map_object_instance_id"] wGuid]

/-- worker_director.py:17-29 -/
def workerDirectorDecode (an : Bool) : R Val := do
  let id ← rGuid
  let tr ← rFTransform an
  let o ← rByte
  let b ← rByte
  let c ← rGuid
  rCheckEof
  return dct [("id", id), ("spawn_transform", tr), ("current_order_type", .int o),
    ("current_battle_type", .int b), ("container_id", c)]

/-- worker_director.py:43-51 -/
def workerDirectorEncode (p : Val) : Except Err Bytes :=
  wcat [wAt p ["id"] wGuid, wAt p ["spawn_transform"] wFTransform,
    wAt p ["current_order_type"] wByte, wAt p ["current_battle_type"] wByte,
    wAt p ["container_id"] wGuid]

/-- work_collection.py:17-26 -/
def workCollectionDecode : R Val := do
  let id ← rGuid
  let w ← rTArray rUuid
  rCheckEof
  return dct [("id", id), ("work_ids", w)]

/-- work_collection.py:40-45 -/
def workCollectionEncode (p : Val) : Except Err Bytes :=
  wcat [wAt p ["id"] wGuid, wAt p ["work_ids"] (wTArray wGuid)]

/-! ### rawdata/map_model.py, connector.py, build_process.py -/

/-- map_model.py:17-43 -/
def mapModelDecode (an : Bool) : R Val := do
  let i ← rGuid
  let c ← rGuid
  let b ← rGuid
  let g ← rGuid
  let cur ← rI32
  let mx ← rI32
  let tr ← rFTransform an
  let rw ← rGuid
  let os ← rGuid
  let oi ← rGuid
  let bp ← rGuid
  let ir ← rByte
  let si ← rGuid
  let sv ← rU32
  let ca ← rI64
  rCheckEof
  return dct [("instance_id", i), ("concrete_model_instance_id", c),
    ("base_camp_id_belong_to", b), ("group_id_belong_to", g),
    ("hp", dct [("current", .int cur), ("max", .int mx)]),
    ("initital_transform_cache", tr), ("repair_work_id", rw),
    ("owner_spawner_level_object_instance_id", os), ("owner_instance_id", oi),
    ("build_player_uid", bp), ("interact_restrict_type", .int ir),
    ("stage_instance_id_belong_to", dct [("id", si), ("valid", .bool (decide (sv > 0)))]),
    ("created_at", .int ca)]

/-- map_model.py:57-83 -/
def mapModelEncode (p : Val) : Except Err Bytes :=
  wcat [wAt p ["instance_id"] wGuid, wAt p ["concrete_model_instance_id"] wGuid,
    wAt p ["base_camp_id_belong_to"] wGuid, wAt p ["group_id_belong_to"] wGuid,
    wAt p ["hp", "current"] wI32, wAt p ["hp", "max"] wI32,
    wAt p ["initital_transform_cache"] wFTransform,
    wAt p ["repair_work_id"] wGuid, wAt p ["owner_spawner_level_object_instance_id"] wGuid,
    wAt p ["owner_instance_id"] wGuid, wAt p ["build_player_uid"] wGuid,
    wAt p ["interact_restrict_type"] wByte,
    wAt p ["stage_instance_id_belong_to", "id"] wGuid,
    wAt p ["stage_instance_id_belong_to", "valid"] wFlag32,
    wAt p ["created_at"] wI64]

/-- connector.py:17-21 -/
def connectInfoDecode : R Val := do
  let g ← rGuid
  let i ← rByte
  return dct [("connect_to_model_instance_id", g), ("index", .int i)]

/-- connector.py:24-26 -/
def connectInfoEncode (p : Val) : Except Err Bytes :=
  wcat [wAt p ["connect_to_model_instance_id"] wGuid, wAt p ["index"] wByte]

/-- connector.py:48-53 -/
def otherConnectorDecode : R Val := do
  let i ← rByte
  let c ← rTArray connectInfoDecode
  return dct [("index", .int i), ("connect", c)]

/-- `while not reader.eof()` loop (connector.py:47-53).  The first argument bounds
the number of iterations; the caller passes the number of remaining bytes, and each
iteration consumes at least five. -/
def otherConnectors : Nat → R (List Val)
  | 0 => fun s => match s with
    | [] => .ok ([], [])
    | _ :: _ => .error .fuel
  | n + 1 => fun s => match s with
    | [] => .ok ([], [])
    | _ :: _ => (do
        let a ← otherConnectorDecode
        let l ← otherConnectors n
        return a :: l) s

/-- `decode_bytes` after the empty test (connector.py:34-58) -/
def connectorDecode : R Val := do
  let lv ← rI32
  let ix ← rByte
  let ap ← rTArray connectInfoDecode
  let e ← rEof
  let n ← rRemaining
  let others ← otherConnectors n
  let base : Dict := [(P "supported_level", .int lv),
    (P "connect", dct [("index", .int ix), ("any_place", ap)])]
  return .dict (if e then base else base ++ [(P "other_connectors", .list others)])

/-- connector.py:80-82, one element -/
def otherConnectorEncode (p : Val) : Except Err Bytes :=
  wcat [wAt p ["index"] wByte, wAt p ["connect"] (wTArray connectInfoEncode)]

/-- `encode_bytes` after the None test (connector.py:75-84) -/
def connectorEncode (p : Val) : Except Err Bytes :=
  wcat [wAt p ["supported_level"] wI32, wAt p ["connect", "index"] wByte,
    wAt p ["connect", "any_place"] (wTArray connectInfoEncode),
    match p.contains (P "other_connectors") with
    | .error e => .error e
    | .ok false => .ok []
    | .ok true => wAt p ["other_connectors"] fun v =>
        match v.iterItems with
        | .ok l => wItems otherConnectorEncode l
        | .error e => .error e]

/-- build_process.py:17-27 -/
def buildProcessDecode : R Val := do
  let s ← rByte
  let i ← rGuid
  rCheckEof
  return dct [("state", .int s), ("id", i)]

/-- build_process.py:41-46 -/
def buildProcessEncode (p : Val) : Except Err Bytes :=
  wcat [wAt p ["state"] wByte, wAt p ["id"] wGuid]

/-! ### rawdata/map_concrete_model_module.py -/

/-- map_concrete_model_module.py:18-22 -/
def slotIndexesDecode : R Val := do
  let a ← rByte
  let i ← rTArray rI32Val
  return dct [("attribute", .int a), ("indexes", i)]

/-- map_concrete_model_module.py:73-75 -/
def slotIndexesEncode (p : Val) : Except Err Bytes :=
  wcat [wAt p ["attribute"] wByte, wAt p ["indexes"] (wTArray wI32)]

/-- map_concrete_model_module.py:25-30 -/
def lockInfoDecode : R Val := do
  let u ← rGuid
  let f ← rI32
  let s ← rU32
  return dct [("player_uid", u), ("try_failed_count", .int f),
    ("try_success_cache", .bool (decide (s > 0)))]

/-- map_concrete_model_module.py:78-81 -/
def lockInfoEncode (p : Val) : Except Err Bytes :=
  wcat [wAt p ["player_uid"] wGuid, wAt p ["try_failed_count"] wI32,
    wAt p ["try_success_cache"] wFlag32]

/-- map_concrete_model_module.py:42-46 -/
def moduleItemDecode : R Val := do
  let c ← rGuid
  let s ← rTArray slotIndexesDecode
  let a ← rTArray rByteVal
  let d ← rU32
  let u ← rByte
  return dct [("target_container_id", c), ("slot_attribute_indexes", s),
    ("all_slot_attribute", a), ("drop_item_at_disposed", .bool (decide (d > 0))),
    ("usage_type", .int u)]

/-- map_concrete_model_module.py:64-66 -/
def moduleLockDecode : R Val := do
  let l ← rByte
  let p ← rStr
  let i ← rTArray lockInfoDecode
  return dct [("lock_state", .int l), ("password", p), ("player_infos", i)]

/-- A dict with a single guid. -/
def guidDict (k : String) : R Val := do
  let c ← rGuid
  return dct [(k, c)]

/-- map_concrete_model_module.py:57-58 -/
def moduleSwitchDecode : R Val := do
  let c ← rByte
  return dct [("switch_state", .int c)]

/-- The if/elif chain (map_concrete_model_module.py:41-66); the branches that `pass`
and the missing `else` all leave the dict empty. -/
def moduleBodyDecode (mt : Val) : R Val :=
  if mt.isS "EPalMapObjectConcreteModelModuleType::ItemContainer" then moduleItemDecode
  else if mt.isS "EPalMapObjectConcreteModelModuleType::CharacterContainer" then
    guidDict "target_container_id"
  else if mt.isS "EPalMapObjectConcreteModelModuleType::Workee" then guidDict "target_work_id"
  else if mt.isS "EPalMapObjectConcreteModelModuleType::Switch" then moduleSwitchDecode
  else if mt.isS "EPalMapObjectConcreteModelModuleType::PasswordLock" then moduleLockDecode
  else R.pure (.dict [])

/-- `decode_bytes` after the empty test (map_concrete_model_module.py:38-70) -/
def concreteModuleDecode (mt : Val) : R Val := do
  let d ← moduleBodyDecode mt
  rCheckEofFor
  return d

/-- `encode_bytes` after the None test (map_concrete_model_module.py:87-107) -/
def concreteModuleEncode (mt : Val) (p : Val) : Except Err Bytes :=
  if mt.isS "EPalMapObjectConcreteModelModuleType::ItemContainer" then
    wcat [wAt p ["target_container_id"] wGuid,
      wAt p ["slot_attribute_indexes"] (wTArray slotIndexesEncode),
      wAt p ["all_slot_attribute"] (wTArray wByte),
      wAt p ["drop_item_at_disposed"] wFlag32, wAt p ["usage_type"] wByte]
  else if mt.isS "EPalMapObjectConcreteModelModuleType::CharacterContainer" then
    wAt p ["target_container_id"] wGuid
  else if mt.isS "EPalMapObjectConcreteModelModuleType::Workee" then
    wAt p ["target_work_id"] wGuid
  else if mt.isS "EPalMapObjectConcreteModelModuleType::Switch" then
    wAt p ["switch_state"] wByte
  else if mt.isS "EPalMapObjectConcreteModelModuleType::PasswordLock" then
    wcat [wAt p ["lock_state"] wByte, wAt p ["password"] wFString,
      wAt p ["player_infos"] (wTArray lockInfoEncode)]
  else .ok []

/-! ### rawdata/base_camp_module.py -/

/-- base_camp_module.py:9-16 -/
def campNoOp : List String := [
  "EPalBaseCampModuleType::Energy", "EPalBaseCampModuleType::Medical",
  "EPalBaseCampModuleType::ResourceCollector", "EPalBaseCampModuleType::ItemStorages",
  "EPalBaseCampModuleType::FacilityReservation", "EPalBaseCampModuleType::ObjectMaintenance"]

/-- base_camp_module.py:36-40 -/
def transportInfoDecode (an : Bool) : R Val := do
  let i ← rTArray itemAndNumDecode
  let l ← rVectorDict an
  return dct [("item_infos", i), ("character_location", l)]

/-- base_camp_module.py:115-119 -/
def transportInfoEncode (p : Val) : Except Err Bytes :=
  wcat [wAt p ["item_infos"] (wTArray itemAndNumEncode),
    wAt p ["character_location"] wVectorDict]

/-- base_camp_module.py:50-58; `reader.read(4)` may be short -/
def passiveEffectDecode : R Val := do
  let t ← rByte
  if t > 2 then rFail (.exc "Unknown passive effect type")
  else if t = 2 then do
    let w ← rByte
    let u ← rRead 4
    return dct [("type", .int t), ("work_hard_type", .int w),
      ("unknown_trailer", .list (u.map fun b => .int b.toNat))]
  else return dct [("type", .int t)]

/-- base_camp_module.py:122-126 -/
def passiveEffectEncode (p : Val) : Except Err Bytes :=
  wcat [wAt p ["type"] wByte,
    wAt p ["type"] fun t =>
      if t.isI 2 then
        wcat [wAt p ["work_hard_type"] wByte, wAt p ["unknown_trailer"] wBytesOf]
      else .ok []]

/-- `decode_bytes` (base_camp_module.py:61-94).  `raw` is the original `b_bytes`
value, returned as is by the fallbacks.  Leftover bytes are only reported on
stdout. -/
def campModuleDecode (an : Bool) (mt raw : Val) : R Val :=
  if mt.isAny campNoOp then return .dict []
  else if mt.isS "EPalBaseCampModuleType::TransportItemDirector" then
    rTry (do
      let l ← rTArray (transportInfoDecode an)
      return dct [("transport_item_character_infos", l)])
      (fun _ => return dct [("values", raw)])
  else if mt.isS "EPalBaseCampModuleType::PassiveEffect" then
    rTry (do
      let l ← rTArray passiveEffectDecode
      return dct [("passive_effects", l)])
      (fun _ => return dct [("values", raw)])
  else return dct [("values", raw)]

/-- `encode_bytes` (base_camp_module.py:129-142) -/
def campModuleEncode (mt p : Val) : Except Err Bytes :=
  if mt.isAny campNoOp then .ok []
  else if mt.isS "EPalBaseCampModuleType::TransportItemDirector" then
    wAt p ["transport_item_character_infos"] (wTArray transportInfoEncode)
  else if mt.isS "EPalBaseCampModuleType::PassiveEffect" then
    wAt p ["passive_effects"] (wTArray passiveEffectEncode)
  else .ok []

/-! ### rawdata/work.py -/

/-- work.py:5-23 -/
def workBaseTypes : List String := [
  "EPalWorkableType::Progress", "EPalWorkableType::TransportItemInBaseCamp",
  "EPalWorkableType::ReviveCharacter", "EPalWorkableType::LevelObject",
  "EPalWorkableType::Repair", "EPalWorkableType::Defense", "EPalWorkableType::BootUp",
  "EPalWorkableType::OnlyJoin", "EPalWorkableType::OnlyJoinAndWalkAround",
  "EPalWorkableType::RemoveMapObjectEffect", "EPalWorkableType::MonsterFarm"]

/-- work.py:91 -/
def workAssignTypes : List String := ["EPalWorkableType::Assign", "EPalWorkableType::LevelObject"]

/-- work.py:66-69 -/
def assignLocationDecode (an : Bool) : R Val := do
  let l ← rVectorDict an
  let f ← rVectorDict an
  return dct [("location", l), ("facing_direction", f)]

/-- work.py:195-199 -/
def assignLocationEncode (p : Val) : Except Err Bytes :=
  wcat [wAt p ["location"] wVectorDict, wAt p ["facing_direction"] wVectorDict]

/-- work.py:51-77 -/
def workBaseDecode (an : Bool) : R Dict := do
  let id ← rGuid
  let loc ← rVectorDict an
  let rot ← rQuatDict an
  let org ← rVectorDict an
  let ext ← rVectorDict an
  let rad ← rDouble an
  let bc ← rGuid
  let om ← rGuid
  let oc ← rGuid
  let st ← rByte
  let al ← rTArray (assignLocationDecode an)
  let bt ← rByte
  let ad ← rStr
  let ow ← rByte
  let af ← rByte
  let ao ← rU32
  let ct ← rU32
  let cs ← rU32
  return [(P "id", id),
    (P "workable_bounds", dct [("location", loc), ("rotation", rot),
      ("box_sphere_bounds", dct [("origin", org), ("box_extent", ext), ("sphere_radius", rad)])]),
    (P "base_camp_id_belong_to", bc), (P "owner_map_object_model_id", om),
    (P "owner_map_object_concrete_model_id", oc), (P "current_state", .int st),
    (P "assign_locations", al), (P "behaviour_type", .int bt),
    (P "assign_define_data_id", ad), (P "override_work_type", .int ow),
    (P "assignable_fixed_type", .int af), (P "assignable_otomo", .bool (decide (ao > 0))),
    (P "can_trigger_worker_event", .bool (decide (ct > 0))),
    (P "can_steal_assign", .bool (decide (cs > 0)))]

/-- `{"player_uid": guid(), "instance_id": guid()}` (work.py:86-89, 95-98, 141-144) -/
def individualIdDecode : R Val := do
  let u ← rGuid
  let i ← rGuid
  return dct [("player_uid", u), ("instance_id", i)]

/-- work.py:78-89 -/
def workExtraDecode (an : Bool) (wt : Val) : R Dict :=
  if wt.isS "EPalWorkableType::Defense" then do
    let t ← rByte
    return [(P "defense_combat_type", .int t)]
  else if wt.isS "EPalWorkableType::Progress" then do
    let r ← rFloat an
    let e ← rI32
    let c ← rFloat an
    let a ← rFloat an
    return [(P "required_work_amount", r), (P "work_exp", .int e), (P "current_work_amount", c),
      (P "auto_work_self_amount_by_sec", a)]
  else if wt.isS "EPalWorkableType::ReviveCharacter" then do
    let t ← individualIdDecode
    return [(P "target_individual_id", t)]
  else return []

/-- work.py:92-102 -/
def workAssignDecode (wt : Val) : R Dict := do
  let h ← rGuid
  let l ← rI32
  let t ← rByte
  let i ← individualIdDecode
  let s ← rByte
  let f ← rU32
  let base : Dict := [(P "handle_id", h), (P "location_index", .int l), (P "assign_type", .int t),
    (P "assigned_individual_id", i), (P "state", .int s), (P "fixed", .int f)]
  if wt.isS "EPalWorkableType::LevelObject" then do
    let g ← rGuid
    return base ++ [(P "target_map_object_model_id", g)]
  else return base

/-- work.py:107-122: the "transform" dict -/
def workTransformDecode (an : Bool) : R Val := do
  let t ← rByte
  if t = 1 then do
    let r ← rQuatDict an
    let l ← rVectorDict an
    let s ← rVectorDict an
    return dct [("type", .int t), ("v2", .int 0), ("rotation", r), ("translation", l),
      ("scale3d", s)]
  else if t = 2 then do
    let g ← rGuid
    return dct [("type", .int t), ("v2", .int 0), ("map_object_instance_id", g)]
  else if t = 3 then do
    let g ← rGuid
    let i ← rGuid
    return dct [("type", .int t), ("v2", .int 0), ("guid", g), ("instance_id", i)]
  else do
    let b ← rReadToEnd
    return dct [("type", .int t), ("v2", .int 0),
      ("raw_data", .list (b.map fun x => .int x.toNat))]

/-- work.py:50-102 for the types that are handled -/
def workBodyDecode (an : Bool) (wt : Val) : R Dict :=
  if wt.isAny workBaseTypes then do
    let b ← workBaseDecode an
    let x ← workExtraDecode an wt
    return b ++ x
  else workAssignDecode wt

/-- `decode_bytes` (work.py:44-129).  `raw` is the original `b_bytes`.  A list or dict
as `work_type` is unhashable and cannot be looked up in the set `WORK_BASE_TYPES`. -/
def workDecode (an : Bool) (wt raw : Val) : R Val :=
  match wt with
  | .list _ | .dict _ => rFail .type
  | _ =>
    if wt.isAny workBaseTypes || wt.isAny workAssignTypes then do
      let d ← workBodyDecode an wt
      let t ← workTransformDecode an
      rCheckEofFor
      return .dict (d ++ [(P "transform", t)])
    else return dct [("values", raw)]

/-- `decode_work_assign_bytes` (work.py:132-151) -/
def workAssignBytesDecode : R Val := do
  let h ← rGuid
  let l ← rI32
  let t ← rByte
  let i ← individualIdDecode
  let s ← rByte
  let f ← rU32
  rCheckEof
  return dct [("id", h), ("location_index", .int l), ("assign_type", .int t),
    ("assigned_individual_id", i), ("state", .int s), ("fixed", .bool (decide (f > 0)))]

/-- work.py:184-208 -/
def workBaseEncode (p : Val) : Except Err Bytes :=
  wcat [wAt p ["id"] wGuid,
    wAt p ["workable_bounds", "location"] wVectorDict,
    wAt p ["workable_bounds", "rotation"] wQuatDict,
    wAt p ["workable_bounds", "box_sphere_bounds", "origin"] wVectorDict,
    wAt p ["workable_bounds", "box_sphere_bounds", "box_extent"] wVectorDict,
    wAt p ["workable_bounds", "box_sphere_bounds", "sphere_radius"] wDouble,
    wAt p ["base_camp_id_belong_to"] wGuid, wAt p ["owner_map_object_model_id"] wGuid,
    wAt p ["owner_map_object_concrete_model_id"] wGuid, wAt p ["current_state"] wByte,
    wAt p ["assign_locations"] (wTArray assignLocationEncode),
    wAt p ["behaviour_type"] wByte, wAt p ["assign_define_data_id"] wFString,
    wAt p ["override_work_type"] wByte, wAt p ["assignable_fixed_type"] wByte,
    wAt p ["assignable_otomo"] wFlag32, wAt p ["can_trigger_worker_event"] wFlag32,
    wAt p ["can_steal_assign"] wFlag32]

/-- work.py:209-218 -/
def workExtraEncode (wt p : Val) : Except Err Bytes :=
  if wt.isS "EPalWorkableType::Defense" then wAt p ["defense_combat_type"] wByte
  else if wt.isS "EPalWorkableType::Progress" then
    wcat [wAt p ["required_work_amount"] wFloat, wAt p ["work_exp"] wI32,
      wAt p ["current_work_amount"] wFloat, wAt p ["auto_work_self_amount_by_sec"] wFloat]
  else if wt.isS "EPalWorkableType::ReviveCharacter" then
    wcat [wAt p ["target_individual_id", "player_uid"] wGuid,
      wAt p ["target_individual_id", "instance_id"] wGuid]
  else .ok []

/-- work.py:221-229 -/
def workAssignEncode (wt p : Val) : Except Err Bytes :=
  wcat [wAt p ["handle_id"] wGuid, wAt p ["location_index"] wI32, wAt p ["assign_type"] wByte,
    wAt p ["assigned_individual_id", "player_uid"] wGuid,
    wAt p ["assigned_individual_id", "instance_id"] wGuid,
    wAt p ["state"] wByte, wAt p ["fixed"] wU32,
    if wt.isS "EPalWorkableType::LevelObject" then wAt p ["target_map_object_model_id"] wGuid
    else .ok []]

/-- work.py:231-251 -/
def workTransformEncode (p : Val) : Except Err Bytes :=
  wAt p ["transform", "type"] fun t =>
    wcat [wByte t,
      if t.isI 1 then
        wAt p ["transform"] fun tr =>
          match tr.contains (P "v2") with
          | .error e => .error e
          | .ok false =>
            wcat [wAt tr ["location"] wVectorDict, wAt tr ["rotation"] wQuatDict,
              wAt tr ["scale"] wVectorDict]
          | .ok true => wFTransform tr
      else if t.isI 2 then wAt p ["transform", "map_object_instance_id"] wGuid
      else if t.isI 3 then
        wcat [wAt p ["transform", "guid"] wGuid, wAt p ["transform", "instance_id"] wGuid]
      else wAt p ["transform", "raw_data"] wRaw]

/-- `encode_bytes` (work.py:179-254) -/
def workEncode (wt p : Val) : Except Err Bytes :=
  wcat [
    match wt with
    | .list _ | .dict _ => .error .type
    | _ =>
    if wt.isAny workBaseTypes then wcat [workBaseEncode p, workExtraEncode wt p]
    else if wt.isAny workAssignTypes then workAssignEncode wt p
    else .ok [],
    workTransformEncode p]

/-- `encode_work_assign_bytes` (work.py:257-269) -/
def workAssignBytesEncode (p : Val) : Except Err Bytes :=
  wcat [wAt p ["id"] wGuid, wAt p ["location_index"] wI32, wAt p ["assign_type"] wByte,
    wAt p ["assigned_individual_id", "player_uid"] wGuid,
    wAt p ["assigned_individual_id", "instance_id"] wGuid,
    wAt p ["state"] wByte, wAt p ["fixed"] wFlag32]

end Pal
