import Verif.Spec.ShownBlobs
import Verif.Lemmas.Layout
/-
The decoders of the raw data show exactly what the layouts of `Spec/ShownBlobs.lean` say: blobs without
embedded property lists.
-/

set_option linter.unusedSimpArgs false

namespace Pal
open Spec

/-- A decoder shows exactly what `B` says of a blob. -/
def Shows (x : R Val) (B : Bytes → Val → Prop) : Prop := ∀ b v, (∃ rest, x b = .ok (v, rest)) ↔ B b v

theorem rCheckEof_iff {s rest : Bytes} {u : Unit} : rCheckEof s = .ok (u, rest) ↔ s = [] ∧ rest = [] := by
  cases s with
  | nil => exact ⟨fun h => by cases h; exact ⟨rfl, rfl⟩, fun ⟨_, h⟩ => by rw [h]; rfl⟩
  | cons x t => exact ⟨nofun, fun h => nomatch h.1⟩

theorem rCheckEofFor_iff {s rest : Bytes} {u : Unit} : rCheckEofFor s = .ok (u, rest) ↔ s = [] ∧ rest = [] := by
  cases s with
  | nil => exact ⟨fun h => by cases h; exact ⟨rfl, rfl⟩, fun ⟨_, h⟩ => by rw [h]; rfl⟩
  | cons x t => exact ⟨nofun, fun h => nomatch h.1⟩

/-- Read a record and check that nothing follows. -/
def rWhole (t : List (String × R Val)) : R Val := do
  let v ← rRecord t
  rCheckEof
  return v

def rWholeFor (t : List (String × R Val)) : R Val := do
  let v ← rRecord t
  rCheckEofFor
  return v

theorem rWhole_shows {t : List (String × R Val)} {f : List (String × Layout)} (h : ReadsL t f) : Shows (rWhole t) (whole f) := by
  intro b v
  unfold rWhole whole
  simp only [r_bind_iff, r_pure_iff, rRecord_reads h b, rCheckEof_iff]
  constructor
  · rintro ⟨_, a, s', h1, _, _, ⟨rfl, -⟩, rfl, -⟩; exact h1
  · intro h1; exact ⟨[], v, [], h1, (), [], ⟨rfl, rfl⟩, rfl, rfl⟩

theorem rWholeFor_shows {t : List (String × R Val)} {f : List (String × Layout)} (h : ReadsL t f) :
    Shows (rWholeFor t) (whole f) := by
  intro b v
  unfold rWholeFor whole
  simp only [r_bind_iff, r_pure_iff, rRecord_reads h b, rCheckEofFor_iff]
  constructor
  · rintro ⟨_, a, s', h1, _, _, ⟨rfl, -⟩, rfl, -⟩; exact h1
  · intro h1; exact ⟨[], v, [], h1, (), [], ⟨rfl, rfl⟩, rfl, rfl⟩

/-- Unfolds records of fields into a sequence of reads. -/
macro "flat" : tactic => `(tactic| (simp only [rWhole, rWholeFor, rRecord, rFields, rUV, rIV, rFlagV, bind_assoc, pure_bind]; rfl))

/-- Reads of fields, one after the other. -/
macro "rows" : tactic => `(tactic| repeat' first
  | exact ReadsL.nil | refine ReadsL.cons ?_ ?_ | exact rGuid_reads | exact rStr_reads | exact rUV_reads _
  | exact rIV_reads (by decide) | exact rFlagV_reads _ | exact rFloat_reads _ | exact rDouble_reads _
  | exact rByteList_reads _ | exact rUuid_reads | exact rPure_reads _ | assumption
  | refine rTArray_reads ?_ | exact vector_reads _ | refine rRecord_reads ?_)

theorem quatDict_reads (an : Bool) : Reads (rQuatDict an) (Layout.quat an) := by
  have e : rQuatDict an = rRecord [("x", rDouble an), ("y", rDouble an), ("z", rDouble an), ("w", rDouble an)] := by flat
  rw [e]; rows

theorem transform_reads (an : Bool) : Reads (rFTransform an) (Layout.transform an) := by
  have e : rFTransform an = rRecord [("rotation", rQuatDict an), ("translation", rVectorDict an), ("scale3d", rVectorDict an)] := by flat
  have := quatDict_reads an
  rw [e]; rows

theorem itemId_reads : Reads (rRecord [("static_id", rStr),
    ("dynamic_id", rRecord [("created_world_id", rGuid), ("local_id_in_created_world", rGuid)])]) Layout.itemId := by rows

theorem itemAndNum_reads : Reads itemAndNumDecode Layout.itemAndNum := by
  have e : itemAndNumDecode = rRecord [("item_id", rRecord [("static_id", rStr),
    ("dynamic_id", rRecord [("created_world_id", rGuid), ("local_id_in_created_world", rGuid)])]), ("num", rUV 4)] := by flat
  rw [e]; rows

theorem handle_reads : Reads rInstanceId Layout.handle := by
  have e : rInstanceId = rRecord [("guid", rGuid), ("instance_id", rGuid)] := by flat
  rw [e]; rows

theorem individual_reads : Reads individualIdDecode Layout.individual := by
  have e : individualIdDecode = rRecord [("player_uid", rGuid), ("instance_id", rGuid)] := by flat
  rw [e]; rows

theorem playerInfo_reads : Reads playerInfoDecode Layout.playerInfo := by
  have e : playerInfoDecode = rRecord [("last_online_real_time", rIV 8), ("player_name", rStr)] := by flat
  rw [e]; rows

theorem player_reads : Reads guildPlayerDecode Layout.player := by
  have e : guildPlayerDecode = rRecord [("player_uid", rGuid), ("player_info", playerInfoDecode)] := by flat
  have := playerInfo_reads
  rw [e]; rows

theorem permission_reads : Reads permissionDecode Layout.permission := by
  have e : permissionDecode = rRecord [("type_a", rTArray (rUV 1)), ("type_b", rTArray (rUV 1)),
    ("item_static_ids", rTArray rStr)] := by flat
  rw [e]; rows

theorem connectInfo_reads : Reads connectInfoDecode Layout.connectInfo := by
  have e : connectInfoDecode = rRecord [("connect_to_model_instance_id", rGuid), ("index", rUV 1)] := by flat
  rw [e]; rows

theorem slotIndexes_reads : Reads slotIndexesDecode Layout.slotIndexes := by
  have e : slotIndexesDecode = rRecord [("attribute", rUV 1), ("indexes", rTArray (rIV 4))] := by flat
  rw [e]; rows

theorem lockInfo_reads : Reads lockInfoDecode Layout.lockInfo := by
  have e : lockInfoDecode = rRecord [("player_uid", rGuid), ("try_failed_count", rIV 4), ("try_success_cache", rFlagV 4)] := by flat
  rw [e]; rows

theorem transportInfo_reads (an : Bool) : Reads (transportInfoDecode an) (Layout.transportInfo an) := by
  have e : transportInfoDecode an = rRecord [("item_infos", rTArray itemAndNumDecode), ("character_location", rVectorDict an)] := by flat
  have := itemAndNum_reads
  rw [e]; rows

theorem assignLocation_reads (an : Bool) : Reads (assignLocationDecode an) (Layout.assignLocation an) := by
  have e : assignLocationDecode an = rRecord [("location", rVectorDict an), ("facing_direction", rVectorDict an)] := by flat
  rw [e]; rows

/-! ### simple blobs -/

theorem itemContainer_shows : Shows itemContainerDecode (whole [("permission", .permission)]) := by
  have e : itemContainerDecode = rWhole [("permission", permissionDecode)] := by flat
  have := permission_reads
  rw [e]; refine rWhole_shows ?_; rows

theorem itemContainerSlots_shows (an : Bool) : Shows (itemContainerSlotsDecode an)
    (whole [("permission", .permission), ("corruption_progress_value", .f32 an)]) := by
  have e : itemContainerSlotsDecode an = rWhole [("permission", permissionDecode), ("corruption_progress_value", rFloat an)] := by flat
  have := permission_reads
  rw [e]; refine rWhole_shows ?_; rows

theorem charContainer_shows : Shows charContainerDecode
    (whole [("player_uid", .guid), ("instance_id", .guid), ("permission_tribe_id", .u 1)]) := by
  have e : charContainerDecode = rWhole [("player_uid", rGuid), ("instance_id", rGuid), ("permission_tribe_id", rUV 1)] := by flat
  rw [e]; refine rWhole_shows ?_; rows

theorem foliageModel_shows : Shows foliageModelDecode (whole [("model_id", .text), ("foliage_preset_type", .u 1),
      ("cell_coord", .record [("x", .i 8), ("y", .i 8), ("z", .i 8)])]) := by
  have e : foliageModelDecode = rWhole [("model_id", rStr), ("foliage_preset_type", rUV 1),
      ("cell_coord", rRecord [("x", rIV 8), ("y", rIV 8), ("z", rIV 8)])] := by flat
  rw [e]; refine rWhole_shows ?_; rows

theorem baseCamp_shows (an : Bool) : Shows (baseCampDecode an) (whole [("id", .guid), ("name", .text), ("state", .u 1),
      ("transform", .transform an), ("area_range", .f32 an), ("group_id_belong_to", .guid),
      ("fast_travel_local_transform", .transform an), ("owner_map_object_instance_id", .guid)]) := by
  have e : baseCampDecode an = rWhole [("id", rGuid), ("name", rStr), ("state", rUV 1),
      ("transform", rFTransform an), ("area_range", rFloat an), ("group_id_belong_to", rGuid),
      ("fast_travel_local_transform", rFTransform an), ("owner_map_object_instance_id", rGuid)] := by flat
  have := transform_reads an
  rw [e]; refine rWhole_shows ?_; rows

theorem workerDirector_shows (an : Bool) : Shows (workerDirectorDecode an) (whole [("id", .guid),
      ("spawn_transform", .transform an), ("current_order_type", .u 1), ("current_battle_type", .u 1),
      ("container_id", .guid)]) := by
  have e : workerDirectorDecode an = rWhole [("id", rGuid), ("spawn_transform", rFTransform an),
      ("current_order_type", rUV 1), ("current_battle_type", rUV 1), ("container_id", rGuid)] := by flat
  have := transform_reads an
  rw [e]; refine rWhole_shows ?_; rows

theorem workCollection_shows : Shows workCollectionDecode (whole [("id", .guid), ("work_ids", .array .uuid)]) := by
  have e : workCollectionDecode = rWhole [("id", rGuid), ("work_ids", rTArray rUuid)] := by flat
  rw [e]; refine rWhole_shows ?_; rows

theorem buildProcess_shows : Shows buildProcessDecode (whole buildProcess) := by
  have e : buildProcessDecode = rWhole [("state", rUV 1), ("id", rGuid)] := by flat
  rw [e]; refine rWhole_shows ?_; rows

theorem mapModel_shows (an : Bool) : Shows (mapModelDecode an) (whole (mapModel an)) := by
  have e : mapModelDecode an = rWhole [("instance_id", rGuid), ("concrete_model_instance_id", rGuid),
    ("base_camp_id_belong_to", rGuid), ("group_id_belong_to", rGuid), ("hp", rRecord [("current", rIV 4), ("max", rIV 4)]),
    ("initital_transform_cache", rFTransform an), ("repair_work_id", rGuid),
    ("owner_spawner_level_object_instance_id", rGuid), ("owner_instance_id", rGuid), ("build_player_uid", rGuid),
    ("interact_restrict_type", rUV 1), ("stage_instance_id_belong_to", rRecord [("id", rGuid), ("valid", rFlagV 4)]),
    ("created_at", rIV 8)] := by flat
  have := transform_reads an
  rw [e]; refine rWhole_shows ?_; rows

theorem workAssign_shows : Shows workAssignBytesDecode (whole workAssign) := by
  have e : workAssignBytesDecode = rWhole [("id", rGuid), ("location_index", rIV 4), ("assign_type", rUV 1),
    ("assigned_individual_id", individualIdDecode), ("state", rUV 1), ("fixed", rFlagV 4)] := by flat
  have := individual_reads
  rw [e]; refine rWhole_shows ?_; rows

/-! ### fields that depend on a type -/

theorem isS_shown {t : Val} {s : String} : t.isS s = true ↔ IsType t s := by
  unfold Val.isS IsType
  cases t <;> simp [eq_comm]

theorem isS_false {t : Val} {s : String} : t.isS s = false ↔ ¬ IsType t s := by
  rw [← isS_shown, Bool.not_eq_true]

theorem isAny_shown {t : Val} {l : List String} : t.isAny l = true ↔ ∃ s ∈ l, IsType t s := by
  unfold Val.isAny IsType
  cases t with
  | str s =>
    simp only [List.any_eq_true, decide_eq_true_eq, Val.str.injEq]
    exact ⟨fun ⟨x, h, e⟩ => ⟨x, h, e.symm⟩, fun ⟨x, h, e⟩ => ⟨x, h, e.symm⟩⟩
  | _ => simp

theorem isAny_type {s : String} {l : List String} : (Val.str (P s)).isAny l = decide (s ∈ l) := by
  rw [Bool.eq_iff_iff, isAny_shown, decide_eq_true_iff]
  constructor
  · rintro ⟨t, h, e⟩
    rw [(P_inj _ _).1 (Val.str.inj e)]; exact h
  · intro h; exact ⟨s, h, rfl⟩

theorem isS_type {s t : String} : (Val.str (P s)).isS t = decide (s = t) := by
  rw [Bool.eq_iff_iff, isS_shown, decide_eq_true_iff]
  exact ⟨fun e => (P_inj _ _).1 (Val.str.inj e), fun e => by rw [e]⟩

theorem isAny_other {t : Val} {l : List String} (h : ∀ s ∈ l, ¬ IsType t s) : t.isAny l = false := by
  rw [← Bool.not_eq_true, isAny_shown]
  rintro ⟨s, hs, e⟩; exact h s hs e

theorem shows_congr {x : R Val} {B B' : Bytes → Val → Prop} (h : Shows x B) (e : ∀ b v, B b v ↔ B' b v) : Shows x B' :=
  fun b v => (h b v).trans (e b v)

/-- A table with different types has one row for a type. -/
theorem nodup_row : ∀ {table : List (String × List (String × Layout))}, (table.map Prod.fst).Nodup → ∀ {s f f'},
    (s, f) ∈ table → (s, f') ∈ table → f = f'
  | [], _, _, _, _, h, _ => nomatch h
  | (k, g) :: t, hn, s, f, f', h, h' => by
    rw [List.map_cons, List.nodup_cons] at hn
    rcases List.mem_cons.1 h with e | h
    · rcases List.mem_cons.1 h' with e' | h'
      · exact (Prod.mk.inj e).2.trans (Prod.mk.inj e').2.symm
      · rw [(Prod.mk.inj e).1] at h'
        exact absurd (List.mem_map_of_mem h') hn.1
    · rcases List.mem_cons.1 h' with e' | h'
      · rw [(Prod.mk.inj e').1] at h
        exact absurd (List.mem_map_of_mem h) hn.1
      · exact nodup_row hn.2 h h'

theorem known_row {table : List (String × List (String × Layout))} (hn : (table.map Prod.fst).Nodup) {s : String}
    {f : List (String × Layout)} (h : (s, f) ∈ table) (B : List (String × Layout) → Prop) :
    B f ↔ ∃ f', FieldsOf table (.str (P s)) f' ∧ B f' := by
  constructor
  · intro hb; exact ⟨f, .known h rfl, hb⟩
  · rintro ⟨f', hf, hb⟩
    cases hf with
    | @known s' _ h' e =>
      have e : s = s' := (P_inj _ _).1 (Val.str.inj e)
      subst e
      rw [nodup_row hn h h']; exact hb
    | other h' => exact absurd rfl (h' _ h)

theorem other_row {table : List (String × List (String × Layout))} {t : Val} (h : ∀ e ∈ table, ¬ IsType t e.1)
    (B : List (String × Layout) → Prop) : B [] ↔ ∃ f', FieldsOf table t f' ∧ B f' := by
  constructor
  · intro hb; exact ⟨[], .other h, hb⟩
  · rintro ⟨f', hf, hb⟩
    cases hf with
    | known h' e => exact absurd e (h _ h')
    | other => exact hb

/-! ### groups -/

def rCounted (x : R Val) : R Val := do
  let n ← rI32
  let l ← rRepeat x n.toNat
  return .list l

theorem rCounted_reads {x : R Val} {L : Layout} (h : Reads x L) : Reads (rCounted x) (Layout.counted L) := by
  intro s v rest
  unfold rCounted Layout.counted
  simp only [r_bind_iff, r_pure_iff, rRepeat_iff h, rI32_iff]
  constructor
  · rintro ⟨n, s1, h1, l, s2, h2, rfl, rfl⟩; exact ⟨n, s1, l, h1, h2, rfl⟩
  · rintro ⟨n, s1, l, h1, h2, rfl⟩; exact ⟨n, s1, h1, l, rest, h2, rfl, rfl⟩

def groupRows (t : Val) : List (String × R Val) :=
  [("group_type", pure t), ("group_id", rGuid), ("group_name", rStr), ("individual_character_handle_ids", rTArray rInstanceId)]
def orgRows : List (String × R Val) := [("org_type", rUV 1), ("base_ids", rTArray rUuid)]
def guildRows : List (String × R Val) :=
  [("base_camp_level", rIV 4), ("map_object_instance_ids_base_camp_points", rTArray rUuid), ("guild_name", rStr)]

theorem groupRows_reads (t : Val) : ReadsL (groupRows t) (groupHead t) := by
  have := handle_reads
  unfold groupRows groupHead; rows
theorem orgRows_reads : ReadsL orgRows orgFields := by unfold orgRows orgFields; rows
theorem guildRows_reads : ReadsL guildRows guildFields := by unfold guildRows guildFields; rows

theorem group_shows (t : Val) : Shows (groupDecode t) (ShowsGroup t) := by
  have head := groupRows_reads t
  have org := orgRows_reads
  have guild := guildRows_reads
  by_cases h1 : IsType t "EPalGroupType::Organization"
  · unfold IsType at h1
    subst h1
    have e : groupDecode (.str (P "EPalGroupType::Organization")) =
        rWhole (groupRows (.str (P "EPalGroupType::Organization")) ++ orgRows) := by
      simp only [groupDecode, isAny_type, isS_type, orgTypes, guildTypes, List.mem_cons, String.reduceEq, List.not_mem_nil,
        or_false, or_true, decide_true, decide_false, if_true, if_false, Bool.false_eq_true, groupOrg, groupRows, orgRows,
        List.cons_append, List.nil_append]
      flat
    rw [e]
    refine shows_congr (rWhole_shows (head.append org)) fun b v => ?_
    exact known_row (table := groupFields) (by decide +kernel) (.head _) fun f => whole (groupHead _ ++ f) b v
  by_cases h2 : IsType t "EPalGroupType::Guild"
  · unfold IsType at h2
    subst h2
    have e : groupDecode (.str (P "EPalGroupType::Guild")) =
        rWhole (groupRows (.str (P "EPalGroupType::Guild")) ++ (orgRows ++ guildRows ++
          [("admin_player_uid", rGuid), ("players", rCounted guildPlayerDecode)])) := by
      simp only [groupDecode, isAny_type, isS_type, orgTypes, guildTypes, List.mem_cons, String.reduceEq, List.not_mem_nil,
        or_false, or_true, true_or, decide_true, decide_false, if_true, if_false, Bool.false_eq_true, groupOrg, groupRows, orgRows,
        groupGuild, guildRows, groupPlayers, rCounted, List.cons_append, List.nil_append]
      flat
    rw [e]
    have pl := rCounted_reads player_reads
    have last : ReadsL [("admin_player_uid", rGuid), ("players", rCounted guildPlayerDecode)]
      [("admin_player_uid", .guid), ("players", .counted .player)] := by rows
    refine shows_congr (rWhole_shows (head.append ((org.append guild).append last))) fun b v => ?_
    exact known_row (table := groupFields) (by decide +kernel) (.tail _ (.head _)) fun f => whole (groupHead _ ++ f) b v
  by_cases h3 : IsType t "EPalGroupType::IndependentGuild"
  · unfold IsType at h3
    subst h3
    have e : groupDecode (.str (P "EPalGroupType::IndependentGuild")) =
        rWhole (groupRows (.str (P "EPalGroupType::IndependentGuild")) ++ (orgRows ++ guildRows ++
          [("player_uid", rGuid), ("guild_name_2", rStr), ("player_info", playerInfoDecode)])) := by
      simp only [groupDecode, isAny_type, isS_type, orgTypes, guildTypes, List.mem_cons, String.reduceEq, List.not_mem_nil,
        or_false, or_true, true_or, decide_true, decide_false, if_true, if_false, Bool.false_eq_true, groupOrg, groupRows, orgRows,
        groupGuild, guildRows, groupIndie, List.cons_append, List.nil_append]
      flat
    rw [e]
    have pl := playerInfo_reads
    have last : ReadsL [("player_uid", rGuid), ("guild_name_2", rStr), ("player_info", playerInfoDecode)]
      [("player_uid", .guid), ("guild_name_2", .text), ("player_info", .playerInfo)] := by rows
    refine shows_congr (rWhole_shows (head.append ((org.append guild).append last))) fun b v => ?_
    exact known_row (table := groupFields) (by decide +kernel) (.tail _ (.tail _ (.head _))) fun f => whole (groupHead _ ++ f) b v
  have n1 : t.isAny orgTypes = false := isAny_other (by
    simp only [orgTypes, List.mem_cons, List.not_mem_nil, or_false]
    rintro s (rfl | rfl | rfl)
    exacts [h2, h3, h1])
  have n2 : t.isAny guildTypes = false := isAny_other (by
    simp only [guildTypes, List.mem_cons, List.not_mem_nil, or_false]
    rintro s (rfl | rfl)
    exacts [h2, h3])
  have e : groupDecode t = rWhole (groupRows t ++ []) := by
    simp only [groupDecode, n1, n2, isS_false.2 h2, isS_false.2 h3, if_false, Bool.false_eq_true, groupRows, List.cons_append, List.nil_append]
    flat
  rw [e]
  refine shows_congr (rWhole_shows (head.append .nil)) fun b v => ?_
  refine other_row (table := groupFields) ?_ fun f => whole (groupHead _ ++ f) b v
  simp only [groupFields, List.mem_cons, List.not_mem_nil, or_false]
  rintro s (rfl | rfl | rfl)
  exacts [h1, h2, h3]

/-! ### modules of concrete models -/

theorem guidDict_reads (k : String) : Reads (guidDict k) (.record [(k, .guid)]) := by
  have e : guidDict k = rRecord [(k, rGuid)] := by flat
  rw [e]; rows

theorem eofFor_shows {x : R Val} {f : List (String × Layout)} (h : Reads x (.record f)) :
    Shows (do let d ← x; rCheckEofFor; return d) (whole f) := by
  intro b v
  unfold whole
  simp only [r_bind_iff, r_pure_iff, h b, rCheckEofFor_iff]
  constructor
  · rintro ⟨_, a, s', h1, _, _, ⟨rfl, -⟩, rfl, -⟩; exact h1
  · intro h1; exact ⟨[], v, [], h1, (), [], ⟨rfl, rfl⟩, rfl, rfl⟩

theorem moduleItem_reads : Reads moduleItemDecode (.record [("target_container_id", .guid),
    ("slot_attribute_indexes", .array .slotIndexes), ("all_slot_attribute", .array (.u 1)),
    ("drop_item_at_disposed", .flag 4), ("usage_type", .u 1)]) := by
  have e : moduleItemDecode = rRecord [("target_container_id", rGuid),
    ("slot_attribute_indexes", rTArray slotIndexesDecode), ("all_slot_attribute", rTArray (rUV 1)),
    ("drop_item_at_disposed", rFlagV 4), ("usage_type", rUV 1)] := by flat
  have := slotIndexes_reads
  rw [e]; rows

theorem moduleLock_reads : Reads moduleLockDecode (.record [("lock_state", .u 1), ("password", .text),
    ("player_infos", .array .lockInfo)]) := by
  have e : moduleLockDecode = rRecord [("lock_state", rUV 1), ("password", rStr), ("player_infos", rTArray lockInfoDecode)] := by flat
  have := lockInfo_reads
  rw [e]; rows

theorem moduleSwitch_reads : Reads moduleSwitchDecode (.record [("switch_state", .u 1)]) := by
  have e : moduleSwitchDecode = rRecord [("switch_state", rUV 1)] := by flat
  rw [e]; rows

theorem module_shows (t : Val) : Shows (concreteModuleDecode t) (ShowsModule t) := by
  unfold concreteModuleDecode moduleBodyDecode
  by_cases h1 : IsType t "EPalMapObjectConcreteModelModuleType::ItemContainer"
  · rw [if_pos (isS_shown.2 h1)]
    refine shows_congr (eofFor_shows moduleItem_reads) fun b v => ?_
    unfold IsType at h1
    subst h1
    exact known_row (table := moduleFields) (by decide +kernel) (.head _) fun f => whole f b v
  rw [isS_false.2 h1, if_neg Bool.false_ne_true]
  by_cases h2 : IsType t "EPalMapObjectConcreteModelModuleType::CharacterContainer"
  · rw [if_pos (isS_shown.2 h2)]
    refine shows_congr (eofFor_shows (guidDict_reads _)) fun b v => ?_
    unfold IsType at h2
    subst h2
    exact known_row (table := moduleFields) (by decide +kernel) (.tail _ (.head _)) fun f => whole f b v
  rw [isS_false.2 h2, if_neg Bool.false_ne_true]
  by_cases h3 : IsType t "EPalMapObjectConcreteModelModuleType::Workee"
  · rw [if_pos (isS_shown.2 h3)]
    refine shows_congr (eofFor_shows (guidDict_reads _)) fun b v => ?_
    unfold IsType at h3
    subst h3
    exact known_row (table := moduleFields) (by decide +kernel) (.tail _ (.tail _ (.head _))) fun f => whole f b v
  rw [isS_false.2 h3, if_neg Bool.false_ne_true]
  by_cases h4 : IsType t "EPalMapObjectConcreteModelModuleType::Switch"
  · rw [if_pos (isS_shown.2 h4)]
    refine shows_congr (eofFor_shows moduleSwitch_reads) fun b v => ?_
    unfold IsType at h4
    subst h4
    exact known_row (table := moduleFields) (by decide +kernel) (.tail _ (.tail _ (.tail _ (.head _)))) fun f => whole f b v
  rw [isS_false.2 h4, if_neg Bool.false_ne_true]
  by_cases h5 : IsType t "EPalMapObjectConcreteModelModuleType::PasswordLock"
  · rw [if_pos (isS_shown.2 h5)]
    refine shows_congr (eofFor_shows moduleLock_reads) fun b v => ?_
    unfold IsType at h5
    subst h5
    exact known_row (table := moduleFields) (by decide +kernel) (.tail _ (.tail _ (.tail _ (.tail _ (.head _))))) fun f => whole f b v
  rw [isS_false.2 h5, if_neg Bool.false_ne_true]
  have e : Reads (R.pure (.dict [])) (.record []) := by
    have : (R.pure (.dict []) : R Val) = rRecord [] := by flat
    rw [this]; rows
  refine shows_congr (eofFor_shows e) fun b v => ?_
  refine other_row (table := moduleFields) ?_ fun f => whole f b v
  simp only [moduleFields, List.mem_cons, List.not_mem_nil, or_false]
  rintro s (rfl | rfl | rfl | rfl | rfl)
  exacts [h1, h2, h3, h4, h5]

/-! ### base camp modules -/

def NoFuel {α : Type} (x : R α) : Prop := ∀ s, x s ≠ .error .fuel

theorem noFuel_bind {α β : Type} {x : R α} {f : α → R β} (hx : NoFuel x) (hf : ∀ a, NoFuel (f a)) : NoFuel (x >>= f) := by
  intro s h
  have h : R.bind x f s = _ := h
  unfold R.bind at h
  cases hx' : x s with
  | error e => rw [hx'] at h; exact hx s (by rw [hx']; exact congrArg _ (Except.error.inj h))
  | ok r => rw [hx'] at h; exact hf _ _ h
theorem noFuel_pure {α : Type} (a : α) : NoFuel (pure a : R α) := fun _ => nofun
theorem noFuel_unsigned (k : Nat) : NoFuel (rUnsigned k) := by
  intro s; unfold rUnsigned; split <;> nofun
theorem noFuel_signed (k : Nat) : NoFuel (rSigned k) := by
  intro s; unfold rSigned; split <;> nofun
theorem noFuel_read (k : Nat) : NoFuel (rRead k) := fun _ => nofun
theorem noFuel_fail {α : Type} {e : Err} (h : e ≠ .fuel) : NoFuel (rFail e : R α) := fun _ h' => by
  cases h'; exact h rfl
theorem noFuel_str : NoFuel rStr := by
  refine noFuel_bind (noFuel_bind (noFuel_signed _) fun n => ?_) fun _ => noFuel_pure _
  split
  · exact noFuel_pure _
  · split <;> refine noFuel_bind (noFuel_read _) fun b => ?_ <;> split
    · exact noFuel_pure _
    · exact noFuel_fail nofun
    · exact noFuel_pure _
    · exact noFuel_fail nofun
theorem noFuel_repeat {x : R Val} (h : NoFuel x) : ∀ n, NoFuel (rRepeat x n)
  | 0 => noFuel_pure _
  | _ + 1 => noFuel_bind h fun _ => noFuel_bind (noFuel_repeat h _) fun _ => noFuel_pure _
theorem noFuel_array {x : R Val} (h : NoFuel x) : NoFuel (rTArray x) :=
  noFuel_bind (noFuel_unsigned _) fun _ => noFuel_bind (noFuel_repeat h _) fun _ => noFuel_pure _
theorem noFuel_guid : NoFuel rGuid := noFuel_bind (noFuel_read _) fun _ => noFuel_pure _
theorem noFuel_double (an : Bool) : NoFuel (rDouble an) := noFuel_bind (noFuel_unsigned _) fun _ => noFuel_pure _
theorem noFuel_float (an : Bool) : NoFuel (rFloat an) := noFuel_bind (noFuel_unsigned _) fun _ => noFuel_pure _
theorem noFuel_vector (an : Bool) : NoFuel (rVectorDict an) :=
  noFuel_bind (noFuel_double _) fun _ => noFuel_bind (noFuel_double _) fun _ => noFuel_bind (noFuel_double _) fun _ => noFuel_pure _

theorem noFuel_transport (an : Bool) : NoFuel (transportInfoDecode an) :=
  noFuel_bind (noFuel_array (noFuel_bind noFuel_str fun _ => noFuel_bind noFuel_guid fun _ =>
    noFuel_bind noFuel_guid fun _ => noFuel_bind (noFuel_unsigned _) fun _ => noFuel_pure _)) fun _ =>
    noFuel_bind (noFuel_vector _) fun _ => noFuel_pure _

theorem noFuel_passive : NoFuel passiveEffectDecode := by
  refine noFuel_bind (noFuel_unsigned _) fun t => ?_
  split
  · exact noFuel_fail nofun
  · split
    · exact noFuel_bind (noFuel_unsigned _) fun _ => noFuel_bind (noFuel_read _) fun _ => noFuel_pure _
    · exact noFuel_pure _

/-- `try: x except Exception: h` -/
theorem rTry_iff {α : Type} {x : R α} {h : Err → R α} (hx : NoFuel x) {s rest : Bytes} {a : α} :
    rTry x h s = .ok (a, rest) ↔ x s = .ok (a, rest) ∨ ∃ e, x s = .error e ∧ h e s = .ok (a, rest) := by
  unfold rTry
  cases hs : x s with
  | ok r => simp
  | error e =>
    cases e with
    | fuel => exact absurd hs (hx s)
    | _ => simp

theorem error_iff {α : Type} {x : R α} {s : Bytes} : (∃ e, x s = .error e) ↔ ∀ a rest, x s ≠ .ok (a, rest) := by
  cases x s with
  | error e => simp
  | ok r => exact ⟨fun ⟨_, h⟩ => (nomatch h), fun h => absurd rfl (h r.1 r.2)⟩

theorem passive_reads : Reads passiveEffectDecode Layout.passiveEffect := by
  intro s v rest
  unfold passiveEffectDecode Layout.passiveEffect Layout.tagged
  rw [r_bind_iff]
  have e1 : ∀ {s n s'}, rByte s = .ok (n, s') ↔ Unsigned 1 s n s' := rUnsigned_iff
  constructor
  · rintro ⟨n, s', h1, h2⟩
    rw [e1] at h1
    by_cases c1 : n > 2
    · rw [if_pos c1] at h2; cases h2
    rw [if_neg c1] at h2
    by_cases c2 : n = 2
    · rw [if_pos c2] at h2
      obtain ⟨w, s2, h3, h4⟩ := r_bind_inv h2
      obtain ⟨b, s3, h5, h6⟩ := r_bind_inv h4
      obtain ⟨rfl, rfl⟩ := r_pure_inv h6
      exact ⟨n, s', _, [("work_hard_type", .int w), ("unknown_trailer", intsOf b)], h1, .inr ⟨c2, rfl⟩,
        ⟨_, s2, _, ⟨w, e1.1 h3, rfl⟩, ⟨_, _, [], ⟨b, rRead_iff.1 h5, rfl⟩, ⟨rfl, rfl⟩, rfl⟩, rfl⟩, rfl⟩
    · rw [if_neg c2] at h2
      obtain ⟨rfl, rfl⟩ := r_pure_inv h2
      exact ⟨n, _, [], [], h1, .inl ⟨by omega, rfl⟩, ⟨rfl, rfl⟩, rfl⟩
  · rintro ⟨n, s', f, l, h1, ⟨c, rfl⟩ | ⟨rfl, rfl⟩, h3, rfl⟩
    · obtain ⟨rfl, rfl⟩ := h3
      exact ⟨n, _, e1.2 h1, by rw [if_neg (by omega), if_neg (by omega)]; rfl⟩
    · obtain ⟨_, s2, _, ⟨w, h4, rfl⟩, ⟨_, s3, _, ⟨b, h5, rfl⟩, ⟨rfl, rfl⟩, rfl⟩, rfl⟩ := h3
      refine ⟨2, s', e1.2 h1, ?_⟩
      rw [if_neg (by omega), if_pos rfl, r_bind_ok (e1.2 h4), r_bind_ok (rRead_iff.2 h5)]
      rfl

theorem camp_shown_iff {an : Bool} {t raw : Val} {b : Bytes} {s : String} {f : List (String × Layout)} {x : R Val}
    (hx : Reads x (.record f)) (hn : NoFuel x) (hm : (s, f) ∈ campFields an) (ht : IsType t s) (v : Val) :
    (∃ rest, rTry x (fun _ => return dct [("values", raw)]) b = .ok (v, rest)) ↔ ShowsCamp an t raw b v := by
  simp only [rTry_iff hn]
  unfold IsType at ht
  subst ht
  constructor
  · rintro ⟨rest, h | ⟨e, h, h'⟩⟩
    · exact .known hm rfl ((hx _ _ _).1 h)
    · obtain ⟨rfl, rfl⟩ := r_pure_inv h'
      exact .unreadable hm rfl fun a r ha => by rw [(hx _ _ _).2 ha] at h; cases h
  · intro h
    cases h with
    | @empty s' h1 h2 =>
      have h2 : s = s' := (P_inj _ _).1 (Val.str.inj h2)
      subst h2
      revert h1 hm
      simp only [campFields, campEmpty, List.mem_cons, List.not_mem_nil, or_false, Prod.mk.injEq]
      rintro (⟨rfl, -⟩ | ⟨rfl, -⟩) (h | h | h | h | h | h) <;> exact absurd h (by decide)
    | @known s' f' v rest h1 h2 h3 =>
      have h2 : s = s' := (P_inj _ _).1 (Val.str.inj h2)
      subst h2
      rw [nodup_row (table := campFields an) (by show ["EPalBaseCampModuleType::TransportItemDirector", "EPalBaseCampModuleType::PassiveEffect"].Nodup; decide) h1 hm] at h3
      exact ⟨rest, .inl ((hx _ _ _).2 h3)⟩
    | @unreadable s' f' h1 h2 h3 =>
      have h2 : s = s' := (P_inj _ _).1 (Val.str.inj h2)
      subst h2
      rw [nodup_row (table := campFields an) (by show ["EPalBaseCampModuleType::TransportItemDirector", "EPalBaseCampModuleType::PassiveEffect"].Nodup; decide) h1 hm] at h3
      obtain ⟨e, he⟩ := (error_iff (x := x) (s := b)).2 fun a r ha => h3 a r ((hx _ _ _).1 ha)
      exact ⟨b, .inr ⟨e, he, rfl⟩⟩
    | other h1 h2 => exact absurd rfl (h2 _ hm)

theorem camp_shows (an : Bool) (t raw : Val) : Shows (campModuleDecode an t raw) (ShowsCamp an t raw) := by
  intro b v
  unfold campModuleDecode
  by_cases h0 : t.isAny campNoOp
  · rw [if_pos h0]
    obtain ⟨s, hs, ht⟩ := isAny_shown.1 h0
    constructor
    · rintro ⟨rest, h⟩
      obtain ⟨rfl, rfl⟩ := r_pure_inv h
      exact .empty hs ht
    · intro h
      unfold IsType at ht
      subst ht
      have no : ∀ e ∈ campFields an, ¬ IsType (.str (P s)) e.1 := by
        intro e he h
        have h : s = e.1 := (P_inj _ _).1 (Val.str.inj h)
        subst h
        revert hs he
        simp only [campFields, campNoOp, List.mem_cons, List.not_mem_nil, or_false]
        rintro (rfl | rfl) (h | h | h | h | h | h) <;> exact absurd h (by dsimp only; decide)
      cases h with
      | empty => exact ⟨b, rfl⟩
      | known h1 h2 => exact absurd h2 (no _ h1)
      | unreadable h1 h2 => exact absurd h2 (no _ h1)
      | other h1 => exact absurd rfl (h1 _ hs)
  rw [if_neg h0]
  by_cases h1 : IsType t "EPalBaseCampModuleType::TransportItemDirector"
  · rw [if_pos (isS_shown.2 h1)]
    refine camp_shown_iff (f := [("transport_item_character_infos", .array (.transportInfo an))]) ?_ ?_ (.head _) h1 v
    · have e : (do let l ← rTArray (transportInfoDecode an); return dct [("transport_item_character_infos", l)]) =
          rRecord [("transport_item_character_infos", rTArray (transportInfoDecode an))] := by
        simp only [rRecord, rFields, bind_assoc, pure_bind]
      have := transportInfo_reads an
      rw [e]; rows
    · exact noFuel_bind (noFuel_array (noFuel_transport an)) fun _ => noFuel_pure _
  rw [isS_false.2 h1, if_neg Bool.false_ne_true]
  by_cases h2 : IsType t "EPalBaseCampModuleType::PassiveEffect"
  · rw [if_pos (isS_shown.2 h2)]
    refine camp_shown_iff (f := [("passive_effects", .array .passiveEffect)]) ?_ ?_ (.tail _ (.head _)) h2 v
    · have e : (do let l ← rTArray passiveEffectDecode; return dct [("passive_effects", l)]) =
          rRecord [("passive_effects", rTArray passiveEffectDecode)] := by
        simp only [rRecord, rFields, bind_assoc, pure_bind]
      have := passive_reads
      rw [e]; rows
    · exact noFuel_bind (noFuel_array noFuel_passive) fun _ => noFuel_pure _
  rw [isS_false.2 h2, if_neg Bool.false_ne_true]
  have n0 : ∀ s ∈ campEmpty, ¬ IsType t s := fun s hs e => h0 (isAny_shown.2 ⟨s, hs, e⟩)
  have n1 : ∀ e ∈ campFields an, ¬ IsType t e.1 := by
    simp only [campFields, List.mem_cons, List.not_mem_nil, or_false]
    rintro s (rfl | rfl)
    exacts [h1, h2]
  constructor
  · rintro ⟨rest, h⟩
    obtain ⟨rfl, rfl⟩ := r_pure_inv h
    exact .other n0 n1
  · intro h
    cases h with
    | empty h1 h2 => exact absurd h2 (n0 _ h1)
    | known h1 h2 => exact absurd h2 (n1 _ h1)
    | unreadable h1 h2 => exact absurd h2 (n1 _ h1)
    | other => exact ⟨b, rfl⟩

end Pal
