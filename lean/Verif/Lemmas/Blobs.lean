import Verif.Spec.Blobs
import Verif.Lemmas.Fields
import Verif.Lemmas.Mono
import Verif.Model.Codec
/-
Decoding the bytes of a blob record gives its value, encoding the value gives the bytes
(`Spec/Blobs.lean`), for each kind of blob.
-/

set_option linter.unusedSimpArgs false

namespace Pal
open Spec

/-- The end of a blob: nothing may follow. -/
def fin (v : Val) : R Val := do
  rCheckEof
  return v

def finFor (v : Val) : R Val := do
  rCheckEofFor
  return v

theorem toBytes_T (b : Bytes) : toBytes (vBytesT b) = .ok b := mapE_byteOf_ints b

theorem runBlob_T {x : R Val} {b : Bytes} {v : Val} {s : Bytes} (h : x b = .ok (v, s)) :
    runBlob (vBytesT b) x = .ok v := by
  simp only [runBlob, toBytes_T, h]

theorem runBlob_T_error {x : R Val} {b : Bytes} {e : Err} (h : x b = .error e) :
    runBlob (vBytesT b) x = .error e := by
  simp only [runBlob, toBytes_T, h]

theorem len_T (b : Bytes) : (vBytesT b).len = .ok b.length := by simp [vBytesT, Val.len]

theorem emptyOr_T {d v : Val} {x : R Val} {b s : Bytes} (hb : b ≠ []) (h : x b = .ok (v, s)) :
    emptyOr d (vBytesT b) x = .ok v := by
  rw [emptyOr, len_T]
  cases b with
  | nil => exact absurd rfl hb
  | cons => exact runBlob_T h

theorem emptyOr_T_error {d : Val} {x : R Val} {b : Bytes} {e : Err} (hb : b ≠ []) (h : x b = .error e) :
    emptyOr d (vBytesT b) x = .error e := by
  rw [emptyOr, len_T]
  cases b with
  | nil => exact absurd rfl hb
  | cons => exact runBlob_T_error h

theorem fin_nil (v : Val) : fin v [] = .ok (v, []) := rfl
theorem finFor_nil (v : Val) : finFor v [] = .ok (v, []) := rfl
theorem fin_ne (v : Val) {s : Bytes} (h : s ≠ []) : fin v s = .error (.exc "Warning: EOF not reached") := by
  rw [fin, r_bind_error (rCheckEof_ne s h)]
theorem finFor_ne (v : Val) {s : Bytes} (h : s ≠ []) :
    finFor v s = .error (.exc "Warning: EOF not reached for") := by
  rw [finFor, r_bind_error (rCheckEofFor_ne s h)]

/-! ### items and groups -/

@[rd] theorem rByteVal_e (n : BitVec 8) (rest : Bytes) : rByteVal (e8 n ++ rest) = .ok (vU n, rest) := by
  simp only [rByteVal, rd]; rfl
@[rd] theorem rI32Val_e (n : BitVec 32) (rest : Bytes) : rI32Val (e32 n ++ rest) = .ok (vI n, rest) := by
  simp only [rI32Val, rd]; rfl
@[rd] theorem rU32Val_e (n : BitVec 32) (rest : Bytes) : rU32Val (e32 n ++ rest) = .ok (vU n, rest) := by
  simp only [rU32Val, rd]; rfl
@[rd] theorem rI64Val_e (n : BitVec 64) (rest : Bytes) : rI64Val (e64 n ++ rest) = .ok (vI n, rest) := by
  simp only [rI64Val, rd]; rfl

theorem itemAndNum_read (r : ItemAndNum) (rest : Bytes) :
    itemAndNumDecode (r.enc ++ rest) = .ok (r.val, rest) := by
  simp only [itemAndNumDecode, ItemAndNum.enc, rd]; rfl
theorem itemAndNum_write (r : ItemAndNum) : itemAndNumEncode r.val = .ok r.enc := by
  simp [itemAndNumEncode, ItemAndNum.val, ItemAndNum.enc, wr]
theorem itemAndNum_jok (an : Bool) (r : ItemAndNum) : JOk an r.val := by
  unfold ItemAndNum.val; jok_tac

@[rd] theorem handle_read (h : Guid × Guid) (rest : Bytes) :
    rInstanceId (eHandle h ++ rest) = .ok (vHandle h, rest) := by
  simp only [rInstanceId, eHandle, rd]; rfl
@[wr] theorem handle_write (h : Guid × Guid) : wInstanceId (vHandle h) = .ok (eHandle h) := by
  simp [wInstanceId, vHandle, eHandle, wr]
theorem handle_jok (an : Bool) (h : Guid × Guid) : JOk an (vHandle h) := by
  unfold vHandle; jok_tac

theorem player_read (p : Player) (rest : Bytes) : guildPlayerDecode (p.enc ++ rest) = .ok (p.val, rest) := by
  simp only [guildPlayerDecode, playerInfoDecode, Player.enc, rd]; rfl
theorem player_write (p : Player) : guildPlayerEncode p.val = .ok p.enc := by
  simp [guildPlayerEncode, Player.val, Player.info, Player.enc, wr]
theorem player_jok (an : Bool) (p : Player) : JOk an p.val := by
  unfold Player.val Player.info; jok_tac

theorem org_read (o : Org) (rest : Bytes) :
    groupOrg (o.enc ++ rest) = .ok (o.entries.map fun kv => (P kv.1, kv.2), rest) := by
  simp only [groupOrg, Org.enc, rd, rTArray_eList rUuid_eGuid]; rfl
theorem guildBase_read (g : GuildBase) (rest : Bytes) :
    groupGuild (g.enc ++ rest) = .ok (g.entries.map fun kv => (P kv.1, kv.2), rest) := by
  simp only [groupGuild, GuildBase.enc, rd, rTArray_eList rUuid_eGuid]; rfl

theorem isAny_str (s : PyStr) (l : List String) : (Val.str s).isAny l = l.any fun t => P t = s := rfl
theorem isS_str (s : PyStr) (t : String) : (Val.str s).isS t = decide (P t = s) := rfl


theorem gt_guild : (Val.str (P "EPalGroupType::Guild")).isAny orgTypes = true ∧
    (Val.str (P "EPalGroupType::Guild")).isAny guildTypes = true ∧
    (Val.str (P "EPalGroupType::Guild")).isS "EPalGroupType::IndependentGuild" = false ∧
    (Val.str (P "EPalGroupType::Guild")).isS "EPalGroupType::Guild" = true := by decide +kernel
theorem gt_indie : (Val.str (P "EPalGroupType::IndependentGuild")).isAny orgTypes = true ∧
    (Val.str (P "EPalGroupType::IndependentGuild")).isAny guildTypes = true ∧
    (Val.str (P "EPalGroupType::IndependentGuild")).isS "EPalGroupType::IndependentGuild" = true ∧
    (Val.str (P "EPalGroupType::IndependentGuild")).isS "EPalGroupType::Guild" = false := by decide +kernel
theorem gt_org : (Val.str (P "EPalGroupType::Organization")).isAny orgTypes = true ∧
    (Val.str (P "EPalGroupType::Organization")).isAny guildTypes = false ∧
    (Val.str (P "EPalGroupType::Organization")).isS "EPalGroupType::IndependentGuild" = false ∧
    (Val.str (P "EPalGroupType::Organization")).isS "EPalGroupType::Guild" = false := by decide +kernel
theorem gt_other {t : PyStr} (h : t ∉ [P "EPalGroupType::Guild", P "EPalGroupType::IndependentGuild",
      P "EPalGroupType::Organization"]) : (Val.str t).isAny orgTypes = false ∧
    (Val.str t).isAny guildTypes = false ∧
    (Val.str t).isS "EPalGroupType::IndependentGuild" = false ∧
    (Val.str t).isS "EPalGroupType::Guild" = false := by
  simp only [List.mem_cons, not_or, List.not_mem_nil, not_false_eq_true, and_true] at h
  obtain ⟨h1, h2, h3⟩ := h
  simp only [isAny_str, isS_str, orgTypes, guildTypes, List.any_cons, List.any_nil, Ne.symm h1, Ne.symm h2,
    Ne.symm h3, decide_false, Bool.or_false, and_self]

theorem rI32_count31 {α : Type} (l : Lst31 α) (rest : Bytes) :
    rI32 (lit 4 l.val.length ++ rest) = .ok ((l.val.length : Int), rest) := by
  have h := l.2
  have h1 := rI32_e32 (BitVec.ofNat 32 l.val.length) rest
  have h2 : (BitVec.ofNat 32 l.val.length).toNat = l.val.length := by
    rw [BitVec.toNat_ofNat, Nat.mod_eq_of_lt (by omega)]
  rw [e32, h2] at h1
  rw [h1, BitVec.toInt_eq_toNat_of_lt (by rw [h2]; omega), h2]

theorem wI32_count31 {α : Type} (l : Lst31 α) : wI32 (.int l.val.length) = .ok (lit 4 l.val.length) := by
  have h := l.2
  have h1 := wI32_v (BitVec.ofNat 32 l.val.length)
  have h2 : (BitVec.ofNat 32 l.val.length).toNat = l.val.length := by
    rw [BitVec.toNat_ofNat, Nat.mod_eq_of_lt (by omega)]
  rw [e32, vI, h2, BitVec.toInt_eq_toNat_of_lt (by rw [h2]; omega), h2] at h1
  exact h1

theorem players_read (a : Guid) (pl : Lst31 Player) (rest : Bytes) :
    groupPlayers (eGuid a ++ (lit 4 pl.val.length ++ (pl.val.flatMap Player.enc ++ rest))) =
      .ok ([(P "admin_player_uid", vGuid a), (P "players", .list (pl.val.map Player.val))], rest) := by
  simp only [groupPlayers, rd, rI32_count31, Int.toNat_natCast, rRepeat_enc player_read]
theorem players_write (pl : Lst31 Player) :
    guildPlayersEncode (.list (pl.val.map Player.val)) = .ok (lit 4 pl.val.length ++ pl.val.flatMap Player.enc) := by
  simp only [guildPlayersEncode, Val.seqItems, List.length_map, wI32_count31, wItems_enc player_write, wr,
    List.append_nil]

theorem indie_read (u : Guid) (n : Str) (t : BitVec 64) (p : Str) (rest : Bytes) :
    groupIndie (eGuid u ++ (eStr n ++ (e64 t ++ (eStr p ++ rest)))) =
      .ok ([(P "player_uid", vGuid u), (P "guild_name_2", vStr n), (P "player_info",
        vDict [("last_online_real_time", vI t), ("player_name", vStr p)])], rest) := by
  simp only [groupIndie, playerInfoDecode, rd]; rfl

theorem group_read (g : Group) (rest : Bytes) :
    groupDecode (.str g.body.type) (g.enc ++ rest) = fin g.val rest := by
  obtain ⟨id, name, hs, body⟩ := g
  cases body with
  | guild o gb a pl =>
    obtain ⟨h1, h2, h3, h4⟩ := gt_guild
    simp only [groupDecode, Group.enc, GroupBody.enc, rd, rTArray_eList handle_read, GroupBody.type,
      h1, h2, h3, h4, if_true, if_false, org_read, guildBase_read, players_read, Bool.false_eq_true,
      show ∀ (α : Type) (a : α) s, R.pure a s = .ok (a, s) from fun _ _ _ => rfl]
    simp only [fin, rd, Group.val, vDict, GroupBody.entries, GroupBody.type, List.map_append, List.map_cons, List.map_nil,
      List.append_assoc, List.cons_append, List.nil_append, List.append_nil]
  | independent o gb u n t p =>
    obtain ⟨h1, h2, h3, h4⟩ := gt_indie
    simp only [groupDecode, Group.enc, GroupBody.enc, rd, rTArray_eList handle_read, GroupBody.type,
      h1, h2, h3, h4, if_true, if_false, org_read, guildBase_read, indie_read, Bool.false_eq_true,
      show ∀ (α : Type) (a : α) s, R.pure a s = .ok (a, s) from fun _ _ _ => rfl]
    simp only [fin, rd, Group.val, vDict, GroupBody.entries, GroupBody.type, List.map_append, List.map_cons, List.map_nil,
      List.append_assoc, List.cons_append, List.nil_append, List.append_nil]
  | organization o =>
    obtain ⟨h1, h2, h3, h4⟩ := gt_org
    simp only [groupDecode, Group.enc, GroupBody.enc, rd, rTArray_eList handle_read, GroupBody.type,
      h1, h2, h3, h4, if_true, if_false, org_read, Bool.false_eq_true,
      show ∀ (α : Type) (a : α) s, R.pure a s = .ok (a, s) from fun _ _ _ => rfl]
    simp only [fin, rd, Group.val, vDict, GroupBody.entries, GroupBody.type, List.map_append, List.map_cons, List.map_nil,
      List.append_assoc, List.cons_append, List.nil_append, List.append_nil]
  | other t ht =>
    obtain ⟨h1, h2, h3, h4⟩ := gt_other ht
    simp only [groupDecode, Group.enc, GroupBody.enc, rd, rTArray_eList handle_read, GroupBody.type,
      h1, h2, h3, h4, if_true, if_false, Bool.false_eq_true, List.nil_append,
      show ∀ (α : Type) (a : α) s, R.pure a s = .ok (a, s) from fun _ _ _ => rfl]
    simp only [fin, rd, Group.val, vDict, GroupBody.entries, GroupBody.type, List.map_append, List.map_cons, List.map_nil,
      List.append_assoc, List.cons_append, List.nil_append, List.append_nil]

theorem group_write (g : Group) : groupEncode g.val = .ok g.enc := by
  obtain ⟨id, name, hs, body⟩ := g
  cases body with
  | guild o gb a pl =>
    obtain ⟨h1, h2, h3, h4⟩ := gt_guild
    simp [groupEncode, Group.val, Group.enc, GroupBody.enc, GroupBody.entries, GroupBody.type, Org.entries,
      GuildBase.entries, Org.enc, GuildBase.enc, h1, h2, h3, h4, wTArray_v handle_write, wTArray_v wGuid_v,
      players_write, wr]
  | independent o gb u n t p =>
    obtain ⟨h1, h2, h3, h4⟩ := gt_indie
    simp [groupEncode, Group.val, Group.enc, GroupBody.enc, GroupBody.entries, GroupBody.type, Org.entries,
      GuildBase.entries, Org.enc, GuildBase.enc, h1, h2, h3, h4, wTArray_v handle_write, wTArray_v wGuid_v,
      players_write, wr]
  | organization o =>
    obtain ⟨h1, h2, h3, h4⟩ := gt_org
    simp [groupEncode, Group.val, Group.enc, GroupBody.enc, GroupBody.entries, GroupBody.type, Org.entries,
      Org.enc, h1, h2, h3, h4, wTArray_v handle_write, wTArray_v wGuid_v, wr]
  | other t ht =>
    obtain ⟨h1, h2, h3, h4⟩ := gt_other ht
    simp [groupEncode, Group.val, Group.enc, GroupBody.enc, GroupBody.entries, GroupBody.type,
      h1, h2, h3, h4, wTArray_v handle_write, wTArray_v wGuid_v, wr]

theorem group_jok (an : Bool) (g : Group) : JOk an g.val := by
  obtain ⟨id, name, hs, body⟩ := g
  have hh := handle_jok an
  have hp : ∀ l : List Player, JOk an (.list (l.map Player.val)) := by
    intro l
    simp only [JOk, jokL_iff, List.mem_map]
    rintro v ⟨p, _, rfl⟩
    exact player_jok an p
  cases body with
  | guild o gb a pl =>
    have := hp pl.val
    simp only [Group.val, GroupBody.entries, GroupBody.type, Org.entries, GuildBase.entries, List.cons_append,
      List.nil_append]
    jok_tac
  | independent o gb u n t p =>
    simp only [Group.val, GroupBody.entries, GroupBody.type, Org.entries, GuildBase.entries, List.cons_append,
      List.nil_append]
    jok_tac
  | organization o =>
    simp only [Group.val, GroupBody.entries, GroupBody.type, Org.entries, List.cons_append, List.nil_append]
    jok_tac
  | other t ht =>
    have : JOk an (.str t.val) := jok_str an t
    simp only [Group.val, GroupBody.entries, GroupBody.type, List.cons_append, List.nil_append]
    jok_tac

/-! ### containers -/

theorem charSlot_read (c : CharSlot) (rest : Bytes) : charContainerDecode (c.enc ++ rest) = fin c.val rest := by
  simp only [charContainerDecode, CharSlot.enc, rd]; rfl
theorem charSlot_write (c : CharSlot) : charContainerEncode c.val = .ok c.enc := by
  simp [charContainerEncode, CharSlot.val, CharSlot.enc, wr]
theorem charSlot_jok (an : Bool) (c : CharSlot) : JOk an c.val := by
  unfold CharSlot.val; jok_tac

theorem permission_read (p : Permission) (rest : Bytes) :
    permissionDecode (p.enc ++ rest) = .ok (vDict [("type_a", vList vU p.typeA), ("type_b", vList vU p.typeB),
      ("item_static_ids", vList vStr p.items)], rest) := by
  simp only [permissionDecode, Permission.enc, rd, rTArray_eList rByteVal_e, rTArray_eList rStr_eStr]; rfl
theorem itemContainer_read (p : Permission) (rest : Bytes) :
    itemContainerDecode (p.enc ++ rest) = fin p.val rest := by
  simp only [itemContainerDecode, rd, permission_read]; rfl
theorem itemContainer_write (p : Permission) : itemContainerEncode p.val = .ok p.enc := by
  simp [itemContainerEncode, permissionEncode, Permission.val, Permission.enc, wTArray_v wByte_v,
    wTArray_v wFString_v, wr]
theorem itemContainer_jok (an : Bool) (p : Permission) : JOk an p.val := by
  unfold Permission.val; jok_tac

theorem slots_read {m : Mode} (p : Slots m) (rest : Bytes) :
    itemContainerSlotsDecode m.an (p.enc ++ rest) = fin p.val rest := by
  simp only [itemContainerSlotsDecode, Slots.enc, rd, permission_read]; rfl
theorem slots_write {m : Mode} (p : Slots m) : itemContainerSlotsEncode p.val = .ok p.enc := by
  simp [itemContainerSlotsEncode, permissionEncode, Slots.val, Slots.enc, Permission.enc, wTArray_v wByte_v,
    wTArray_v wFString_v, wr]
theorem slots_jok {m : Mode} (hj : m.json = true) (p : Slots m) : JOk m.an p.val := by
  unfold Slots.val; jok_tac

/-! ### foliage -/

theorem foliageModel_read (f : FoliageModel) (rest : Bytes) :
    foliageModelDecode (f.enc ++ rest) = fin f.val rest := by
  simp only [foliageModelDecode, FoliageModel.enc, rd]; rfl
theorem foliageModel_write (f : FoliageModel) : foliageModelEncode f.val = .ok f.enc := by
  simp [foliageModelEncode, FoliageModel.val, FoliageModel.enc, wr]
theorem foliageModel_jok (an : Bool) (f : FoliageModel) : JOk an f.val := by
  unfold FoliageModel.val; jok_tac

/-! ### base camps -/

theorem baseCamp_read {m : Mode} (b : BaseCamp m) (rest : Bytes) :
    baseCampDecode m.an (b.enc ++ rest) = fin b.val rest := by
  simp only [baseCampDecode, BaseCamp.enc, rd]; rfl
theorem baseCamp_write {m : Mode} (b : BaseCamp m) : baseCampEncode b.val = .ok b.enc := by
  simp [baseCampEncode, BaseCamp.val, BaseCamp.enc, wr]
theorem baseCamp_jok {m : Mode} (hj : m.json = true) (b : BaseCamp m) : JOk m.an b.val := by
  have h1 := jok_transform hj b.transform
  have h2 := jok_transform hj b.travel
  unfold BaseCamp.val; jok_tac

theorem workerDirector_read {m : Mode} (b : WorkerDirector m) (rest : Bytes) :
    workerDirectorDecode m.an (b.enc ++ rest) = fin b.val rest := by
  simp only [workerDirectorDecode, WorkerDirector.enc, rd]; rfl
theorem workerDirector_write {m : Mode} (b : WorkerDirector m) : workerDirectorEncode b.val = .ok b.enc := by
  simp [workerDirectorEncode, WorkerDirector.val, WorkerDirector.enc, wr]
theorem workerDirector_jok {m : Mode} (hj : m.json = true) (b : WorkerDirector m) : JOk m.an b.val := by
  have h1 := jok_transform hj b.spawn
  unfold WorkerDirector.val; jok_tac

theorem workCollection_read (b : WorkCollection) (rest : Bytes) :
    workCollectionDecode (b.enc ++ rest) = fin b.val rest := by
  simp only [workCollectionDecode, WorkCollection.enc, rd, rTArray_eList rUuid_eGuid]; rfl
theorem workCollection_write (b : WorkCollection) : workCollectionEncode b.val = .ok b.enc := by
  simp [workCollectionEncode, WorkCollection.val, WorkCollection.enc, wTArray_v wGuid_v, wr]
theorem workCollection_jok (an : Bool) (b : WorkCollection) : JOk an b.val := by
  unfold WorkCollection.val; jok_tac

/-! ### base camp modules -/

theorem transportInfo_read {m : Mode} (t : TransportInfo m) (rest : Bytes) :
    transportInfoDecode m.an (t.enc ++ rest) = .ok (t.val, rest) := by
  simp only [transportInfoDecode, TransportInfo.enc, rd, rTArray_eList itemAndNum_read]; rfl
theorem transportInfo_write {m : Mode} (t : TransportInfo m) : transportInfoEncode t.val = .ok t.enc := by
  simp [transportInfoEncode, TransportInfo.val, TransportInfo.enc, wTArray_v itemAndNum_write, wr]
theorem transportInfo_jok {m : Mode} (hj : m.json = true) (t : TransportInfo m) : JOk m.an t.val := by
  have h1 := jok_vec hj t.location
  have h2 := itemAndNum_jok m.an
  unfold TransportInfo.val
  refine jok_dict _ _ (by simp only [List.map_cons, List.map_nil]; decide +kernel) ?_
  rw [List.forall_mem_cons]
  refine ⟨jok_list _ h2 _, ?_⟩
  jok_tac

theorem rRead_n (b : Bytes) (k : Nat) (h : b.length = k) (rest : Bytes) : rRead k (b ++ rest) = .ok (b, rest) := by
  subst h; exact rRead_append b rest

theorem passiveEffect_read (t : PassiveEffect) (rest : Bytes) :
    passiveEffectDecode (t.enc ++ rest) = .ok (t.val, rest) := by
  cases t with
  | plain b => cases b <;> rfl
  | workHard t u =>
    have h2 : rByte ([2] ++ (e8 t ++ (u.val ++ rest))) = .ok (2, e8 t ++ (u.val ++ rest)) := rfl
    simp only [passiveEffectDecode, PassiveEffect.enc, rd, h2, show ¬ (2 > 2) by decide, if_false, if_true,
      rRead_n u.val 4 u.2]
    rfl
theorem passiveEffect_write (t : PassiveEffect) : passiveEffectEncode t.val = .ok t.enc := by
  cases t with
  | plain b => cases b <;> rfl
  | workHard t u =>
    have h2 : wByte (.int 2) = .ok [2] := rfl
    simp [passiveEffectEncode, PassiveEffect.val, PassiveEffect.enc, wr, h2, Val.isI]
theorem passiveEffect_jok (an : Bool) (t : PassiveEffect) : JOk an t.val := by
  cases t with
  | plain b => cases b <;> (unfold PassiveEffect.val; jok_tac)
  | workHard t u => unfold PassiveEffect.val; jok_tac

/-! ### map model, connector, build process -/

theorem mapModel_read {m : Mode} (b : MapModel m) (rest : Bytes) :
    mapModelDecode m.an (b.enc ++ rest) = fin b.val rest := by
  simp only [mapModelDecode, MapModel.enc, rd]; rfl
theorem mapModel_write {m : Mode} (b : MapModel m) : mapModelEncode b.val = .ok b.enc := by
  simp [mapModelEncode, MapModel.val, MapModel.enc, wr]
theorem mapModel_jok {m : Mode} (hj : m.json = true) (b : MapModel m) : JOk m.an b.val := by
  have h1 := jok_transform hj b.transform
  unfold MapModel.val; jok_tac

theorem connect_read (c : Guid × BitVec 8) (rest : Bytes) :
    connectInfoDecode (eConnect c ++ rest) = .ok (vConnect c, rest) := by
  simp only [connectInfoDecode, eConnect, rd]; rfl
theorem connect_write (c : Guid × BitVec 8) : connectInfoEncode (vConnect c) = .ok (eConnect c) := by
  simp [connectInfoEncode, vConnect, eConnect, wr]
theorem connect_jok (an : Bool) (c : Guid × BitVec 8) : JOk an (vConnect c) := by
  unfold vConnect; jok_tac

theorem other_read (c : BitVec 8 × Lst (Guid × BitVec 8)) (rest : Bytes) :
    otherConnectorDecode (eOther c ++ rest) = .ok (vOther c, rest) := by
  simp only [otherConnectorDecode, eOther, rd, rTArray_eList connect_read]; rfl
theorem other_write (c : BitVec 8 × Lst (Guid × BitVec 8)) : otherConnectorEncode (vOther c) = .ok (eOther c) := by
  simp [otherConnectorEncode, vOther, eOther, wTArray_v connect_write, wr]
theorem other_jok (an : Bool) (c : BitVec 8 × Lst (Guid × BitVec 8)) : JOk an (vOther c) := by
  have := connect_jok an
  unfold vOther; jok_tac

theorem buildProcess_read (b : BuildProcess) (rest : Bytes) :
    buildProcessDecode (b.enc ++ rest) = fin b.val rest := by
  simp only [buildProcessDecode, BuildProcess.enc, rd]; rfl
theorem buildProcess_write (b : BuildProcess) : buildProcessEncode b.val = .ok b.enc := by
  simp [buildProcessEncode, BuildProcess.val, BuildProcess.enc, wr]
theorem buildProcess_jok (an : Bool) (b : BuildProcess) : JOk an b.val := by
  unfold BuildProcess.val; jok_tac

/-! ### concrete modules -/

theorem slotIx_read (s : BitVec 8 × Lst (BitVec 32)) (rest : Bytes) :
    slotIndexesDecode (eSlotIx s ++ rest) = .ok (vSlotIx s, rest) := by
  simp only [slotIndexesDecode, eSlotIx, rd, rTArray_eList rI32Val_e]; rfl
theorem slotIx_write (s : BitVec 8 × Lst (BitVec 32)) : slotIndexesEncode (vSlotIx s) = .ok (eSlotIx s) := by
  simp [slotIndexesEncode, vSlotIx, eSlotIx, wTArray_v wI32_v, wr]
theorem slotIx_jok (an : Bool) (s : BitVec 8 × Lst (BitVec 32)) : JOk an (vSlotIx s) := by
  unfold vSlotIx; jok_tac

theorem lockInfo_read (l : LockInfo) (rest : Bytes) : lockInfoDecode (l.enc ++ rest) = .ok (l.val, rest) := by
  simp only [lockInfoDecode, LockInfo.enc, rd]; rfl
theorem lockInfo_write (l : LockInfo) : lockInfoEncode l.val = .ok l.enc := by
  simp [lockInfoEncode, LockInfo.val, LockInfo.enc, wr]
theorem lockInfo_jok (an : Bool) (l : LockInfo) : JOk an l.val := by
  unfold LockInfo.val; jok_tac

end Pal
