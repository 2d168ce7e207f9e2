import Verif.Lemmas.BlobOk
/-
C28, C30, C32-C36, C38: raw-data blobs round-trip; C39: leftovers are rejected.
The blobs with embedded property lists are in `Props/Nested.lean`.
-/

namespace Pal
open Spec

variable (m : Mode)

/-! ### sample field values for the non-vacuity examples -/

def sampleGuid : Guid := ⟨[1, 2, 3, 4, 5, 6, 7, 8, 9, 10, 11, 12, 13, 14, 15, 16], rfl⟩
def sampleStr : Str := ⟨P "Guildé", by decide +kernel⟩
def sampleF32 (m : Mode) : F32 m := ⟨0x3fc00000#32, by
  refine ⟨by decide, fun _ => by decide, fun _ h => absurd h (by decide)⟩⟩
def sampleF64 (m : Mode) : F64 m := ⟨0x3ff8000000000000#64, by
  refine ⟨fun _ => by decide, fun _ h => absurd h (by decide)⟩⟩
def sampleLst {α : Type} (a : α) : Lst α := ⟨[a, a], by simp⟩
def sampleVec (m : Mode) : Vec m := ⟨sampleF64 m, sampleF64 m, sampleF64 m⟩
def sampleQuat (m : Mode) : Quat m := ⟨sampleF64 m, sampleF64 m, sampleF64 m, sampleF64 m⟩
def sampleTransform (m : Mode) : Transform m := ⟨sampleQuat m, sampleVec m, sampleVec m⟩

/-! ### C28 -/

/-- C28: group blobs, whose group type is stored beside them. -/
theorem C28_group (g : Group) :
    RoundTrips m (fun b => runBlob b (groupDecode (.str g.body.type))) groupEncode g.enc g.val :=
  roundTrips (read_fin (group_read g)) (group_write g) (fun _ => group_jok _ g) mono_group

/-- C39 for groups. -/
theorem C39_group (g : Group) : RejectsMore (fun b => runBlob b (groupDecode (.str g.body.type))) g.enc :=
  rejects (group_read g)

def sampleGroup : Group :=
  ⟨sampleGuid, sampleStr, sampleLst (sampleGuid, sampleGuid),
    .guild ⟨7, sampleLst sampleGuid⟩ ⟨-3, sampleLst sampleGuid, sampleStr⟩ sampleGuid
      ⟨[⟨sampleGuid, -1, sampleStr⟩], by simp⟩⟩

example : sampleGroup.enc.length = 259 ∧ sampleGroup.body.type = P "EPalGroupType::Guild" := by decide +kernel
example := C28_group ⟨true, false⟩ sampleGroup
example := C28_group ⟨true, false⟩ ⟨sampleGuid, sampleStr, sampleLst (sampleGuid, sampleGuid),
  .other ⟨P "EPalGroupType::Neutral", by decide +kernel⟩ (by decide +kernel)⟩

/-! ### C30 -/

/-- C30: character container slots. -/
theorem C30_character_container (c : CharSlot) :
    RoundTrips m (fun b => emptyOr .none b charContainerDecode) (noneOr charContainerEncode) c.enc c.val := by
  refine roundTrips_or ?_ (read_fin (charSlot_read c)) ((noneOr_dict _ _).trans (charSlot_write c)) (fun _ => charSlot_jok _ c)
    (mono_noneOr mono_charContainer)
  intro h
  have := congrArg List.length h
  simp [CharSlot.enc, eGuid, c.player.2] at this

theorem permission_ne (p : Permission) : p.enc ≠ [] := by
  intro h
  have := congrArg List.length h
  simp [Permission.enc, eList, lit_length] at this

/-- C30: item containers. -/
theorem C30_item_container (p : Permission) :
    RoundTrips m (fun b => emptyOr .none b itemContainerDecode) (noneOr itemContainerEncode) p.enc p.val :=
  roundTrips_or (permission_ne p) (read_fin (itemContainer_read p)) ((noneOr_dict _ _).trans (itemContainer_write p))
    (fun _ => itemContainer_jok _ p) (mono_noneOr mono_itemContainer)

/-- C30: item container slots. -/
theorem C30_item_container_slots (s : Slots m) :
    RoundTrips m (fun b => emptyOr .none b (itemContainerSlotsDecode m.an)) (noneOr itemContainerSlotsEncode)
      s.enc s.val := by
  refine roundTrips_or ?_ (read_fin (slots_read s)) ((noneOr_dict _ _).trans (slots_write s)) (fun h => slots_jok h s)
    (mono_noneOr mono_itemContainerSlots)
  rw [Slots.enc]
  intro h
  exact permission_ne _ (List.append_eq_nil_iff.1 h).1

/-- C30: the empty blob is shown as null and written as the empty blob, by each of the
four decoders that allow it. -/
theorem C30_empty (x : R Val) (w : Val → Except Err Bytes) :
    RoundTrips m (fun b => emptyOr .none b x) (noneOr w) [] .none :=
  ⟨rfl, rfl, fun _ => ⟨.none, rfl, rfl⟩⟩

theorem C39_character_container (c : CharSlot) :
    RejectsMore (fun b => emptyOr .none b charContainerDecode) c.enc := rejects_or (rejects (charSlot_read c))
theorem C39_item_container (p : Permission) :
    RejectsMore (fun b => emptyOr .none b itemContainerDecode) p.enc := rejects_or (rejects (itemContainer_read p))
theorem C39_item_container_slots (s : Slots m) :
    RejectsMore (fun b => emptyOr .none b (itemContainerSlotsDecode m.an)) s.enc := rejects_or (rejects (slots_read s))

def samplePermission : Permission := ⟨sampleLst 1, sampleLst 255, sampleLst sampleStr⟩
example := C30_character_container ⟨true, true⟩ ⟨sampleGuid, sampleGuid, 200⟩
example := C30_item_container ⟨true, true⟩ samplePermission
example := C30_item_container_slots ⟨true, true⟩ ⟨samplePermission, sampleF32 _⟩

/-! ### C32 -/

/-- C32: foliage models. -/
theorem C32_foliage_model (f : FoliageModel) :
    RoundTrips m (fun b => runBlob b foliageModelDecode) foliageModelEncode f.enc f.val :=
  roundTrips (read_fin (foliageModel_read f)) (foliageModel_write f) (fun _ => foliageModel_jok _ f) mono_foliageModel

/-- C32: foliage instances, with their compressed rotation and packed location. -/
theorem C32_foliage_instance (f : FoliageInst m) :
    ∃ v, f.Shows v ∧
      RoundTrips m (fun b => runBlob b (foliageInstanceDecode m.an)) foliageInstanceEncode f.enc v :=
  ⟨foliageVal f, foliageInstance_shows f, roundTrips (read_fin (foliageInstance_read f)) (foliageInstance_write f)
    (fun h => foliageInstance_jok h f) (mono_foliageInstance false)⟩

theorem C39_foliage_model (f : FoliageModel) : RejectsMore (fun b => runBlob b foliageModelDecode) f.enc :=
  rejects (foliageModel_read f)
theorem C39_foliage_instance (f : FoliageInst m) :
    RejectsMore (fun b => runBlob b (foliageInstanceDecode m.an)) f.enc := rejects (foliageInstance_read f)

example := C32_foliage_model ⟨true, true⟩ ⟨sampleStr, 3, -1, 5, 0⟩
def sampleFoliage (m : Mode) : FoliageInst m :=
  ⟨sampleGuid, 1, 0, 65535, -129, 200, 0, 9, by
    refine ⟨by decide, by decide, ?_⟩
    intro j h1 h2
    have : j = 1 ∨ j = 2 ∨ j = 3 ∨ j = 4 ∨ j = 5 ∨ j = 6 ∨ j = 7 ∨ j = 8 := by omega
    rcases this with rfl | rfl | rfl | rfl | rfl | rfl | rfl | rfl <;> decide,
   by norm_num, sampleF32 m, 100⟩
example := C32_foliage_instance ⟨true, true⟩ (sampleFoliage _)

/-! ### C33 -/

/-- C33: base camps. -/
theorem C33_base_camp (b : BaseCamp m) :
    RoundTrips m (fun v => runBlob v (baseCampDecode m.an)) baseCampEncode b.enc b.val :=
  roundTrips (read_fin (baseCamp_read b)) (baseCamp_write b) (fun h => baseCamp_jok h b) mono_baseCamp

/-- C33: worker directors. -/
theorem C33_worker_director (b : WorkerDirector m) :
    RoundTrips m (fun v => runBlob v (workerDirectorDecode m.an)) workerDirectorEncode b.enc b.val :=
  roundTrips (read_fin (workerDirector_read b)) (workerDirector_write b) (fun h => workerDirector_jok h b)
    mono_workerDirector

/-- C33: work collections. -/
theorem C33_work_collection (b : WorkCollection) :
    RoundTrips m (fun v => runBlob v workCollectionDecode) workCollectionEncode b.enc b.val :=
  roundTrips (read_fin (workCollection_read b)) (workCollection_write b) (fun _ => workCollection_jok _ b)
    mono_workCollection

theorem C39_base_camp (b : BaseCamp m) : RejectsMore (fun v => runBlob v (baseCampDecode m.an)) b.enc :=
  rejects (baseCamp_read b)
theorem C39_worker_director (b : WorkerDirector m) :
    RejectsMore (fun v => runBlob v (workerDirectorDecode m.an)) b.enc := rejects (workerDirector_read b)
theorem C39_work_collection (b : WorkCollection) : RejectsMore (fun v => runBlob v workCollectionDecode) b.enc :=
  rejects (workCollection_read b)

example := C33_base_camp ⟨true, true⟩
  ⟨sampleGuid, sampleStr, 1, sampleTransform _, sampleF32 _, sampleGuid, sampleTransform _, sampleGuid⟩
example := C33_worker_director ⟨true, true⟩ ⟨sampleGuid, sampleTransform _, 1, 2, sampleGuid⟩
example := C33_work_collection ⟨true, true⟩ ⟨sampleGuid, sampleLst sampleGuid⟩

/-! ### C34 -/

/-- C34: base camp modules; the module type is the key of the map entry. -/
theorem C34_camp_module (c : CampModule m) :
    RoundTrips m (fun v => runBlob v (campModuleDecode m.an (.str (P c.type)) v))
      (campModuleEncode (.str (P c.type))) c.enc c.val := by
  refine ⟨runBlob_T (s := []) ?_, campModule_write c, json_again (campModule_write c) (fun h => campModule_jok h c)
    fun a b h => mono_campModule (sim_refl _ _) h⟩
  have := campModule_read c (vBytesT c.enc) []
  rwa [List.append_nil] at this

/-- A map entry as the tool shows it before the blob is decoded. -/
def campEntry (type : PyStr) (b : Bytes) : Val :=
  vDict [("key", .str type), ("value", vDict [("RawData", vDict [("array_type", .str (P "ByteProperty")),
    ("id", .none), ("value", vDict [("values", vBytesT b)]), ("type", .str (P "ArrayProperty"))])])]

/-- C34: a module of unknown type is shown undecoded and written unchanged. -/
theorem C34_unknown_type (an : Bool) (t : PyStr) (b : Bytes)
    (h : ∀ k ∈ ["EPalBaseCampModuleType::Energy", "EPalBaseCampModuleType::Medical",
      "EPalBaseCampModuleType::ResourceCollector", "EPalBaseCampModuleType::ItemStorages",
      "EPalBaseCampModuleType::FacilityReservation", "EPalBaseCampModuleType::ObjectMaintenance",
      "EPalBaseCampModuleType::TransportItemDirector", "EPalBaseCampModuleType::PassiveEffect"], t ≠ P k) :
    campModulePost1 an (campEntry t b) = .ok (campEntry t b) ∧
    campModulePre1 (campEntry t b) = .ok (campEntry t b) := by
  have h1 : (Val.str t).isAny campNoOp = false := by
    simp only [isAny_str, List.any_eq_false, decide_eq_true_eq]
    intro k hk
    exact fun e => h k (by simp only [campNoOp] at hk; simp only [List.mem_cons] at hk ⊢; tauto) e.symm
  have h2 : (Val.str t).isS "EPalBaseCampModuleType::TransportItemDirector" = false := by
    simp only [isS_str, decide_eq_false_iff_not]
    exact fun e => h _ (by simp) e.symm
  have h3 : (Val.str t).isS "EPalBaseCampModuleType::PassiveEffect" = false := by
    simp only [isS_str, decide_eq_false_iff_not]
    exact fun e => h _ (by simp) e.symm
  have hd : ∀ raw, campModuleDecode an (.str t) raw = pure (dct [("values", raw)]) := by
    intro raw
    simp only [campModuleDecode, h1, h2, h3, Bool.false_eq_true, if_false]
  have hrun : ∀ x, runBlob (vBytesT b) (pure x) = .ok x := fun x => runBlob_T (s := b) rfl
  constructor
  · simp [campModulePost1, campEntry, wr, hd, Val.upd, ks, onValues, hrun, Val.set, dset, vDict, dct, Val.get, dget?]
  · simp [campModulePre1, campEntry, wr, Val.upd, ks, unlessValues, Val.set, dset, vDict, Val.get,
      dget?, Val.contains]

example := C34_camp_module ⟨true, true⟩ (.passive (sampleLst (.workHard 3 ⟨[1, 2, 3, 4], rfl⟩)))
example := C34_camp_module ⟨true, true⟩
  (.transport (sampleLst ⟨sampleLst ⟨sampleStr, sampleGuid, sampleGuid, 9⟩, sampleVec _⟩))
example := C34_unknown_type true (P "EPalBaseCampModuleType::New") [1, 2, 3] (by decide +kernel)

set_option maxRecDepth 20000 in
/-- C34/C39: bytes after the last passive effect are dropped: the blob decodes, and
encoding the result gives a shorter blob. -/
theorem C39_camp_module_drops_leftovers :
    let t : Val := .str (P "EPalBaseCampModuleType::PassiveEffect")
    let b : Bytes := [1, 0, 0, 0, 0, 99]
    ∃ v, runBlob (vBytesT b) (campModuleDecode true t (vBytesT b)) = .ok v ∧
      campModuleEncode t v = .ok [1, 0, 0, 0, 0] :=
  ⟨vDict [("passive_effects", .list [vDict [("type", .int 0)]])], by rfl, by rfl⟩

/-! ### C35 -/

/-- C35: work blobs of every parsed type, whose type is stored beside them. -/
theorem C35_work (w : Work m) :
    RoundTrips m (fun v => runBlob v (workDecode m.an (.str (P w.body.type)) v))
      (workEncode (.str (P w.body.type))) w.enc w.val :=
  ⟨runBlob_T (read_finFor (work_read w (vBytesT w.enc))), work_write w, json_again (work_write w)
    (fun h => work_jok h w) fun _ _ h => mono_work (sim_refl _ _) (nt_refl _ _) h⟩

/-- C35: work assignments. -/
theorem C35_work_assign (w : WorkAssign) :
    RoundTrips m (fun v => runBlob v workAssignBytesDecode) workAssignBytesEncode w.enc w.val :=
  roundTrips (read_fin (workAssign_read w)) (workAssign_write w) (fun _ => workAssign_jok _ w) mono_workAssignBytes

theorem C39_work (w : Work m) :
    RejectsMore (fun v => runBlob v (workDecode m.an (.str (P w.body.type)) v)) w.enc := by
  intro extra he
  exact ⟨_, runBlob_T_error ((work_read w (vBytesT (w.enc ++ extra)) extra).trans (finFor_ne _ he))⟩
theorem C39_work_assign (w : WorkAssign) : RejectsMore (fun v => runBlob v workAssignBytesDecode) w.enc :=
  rejects (workAssign_read w)

def sampleWorkBase (m : Mode) : WorkBase m :=
  ⟨sampleGuid, sampleVec m, sampleQuat m, sampleVec m, sampleVec m, sampleF64 m, sampleGuid, sampleGuid, sampleGuid,
    1, sampleLst (sampleVec m, sampleVec m), 2, sampleStr, 3, 4, true, false, true⟩
example := C35_work ⟨true, true⟩
  ⟨.progress (sampleWorkBase _) (sampleF32 _) (-1) (sampleF32 _) (sampleF32 _), .direct (sampleTransform _)⟩
example := C35_work ⟨true, true⟩
  ⟨.plain "EPalWorkableType::Repair" (by decide) (sampleWorkBase _), .handle sampleGuid sampleGuid⟩
example := C35_work_assign ⟨true, true⟩ ⟨sampleGuid, -1, 2, (sampleGuid, sampleGuid), 5, true⟩

/-! ### C36 -/

/-- C36: map object models. -/
theorem C36_map_model (b : MapModel m) :
    RoundTrips m (fun v => runBlob v (mapModelDecode m.an)) mapModelEncode b.enc b.val :=
  roundTrips (read_fin (mapModel_read b)) (mapModel_write b) (fun h => mapModel_jok h b) mono_mapModel

/-- C36: connectors. -/
theorem C36_connector (c : Connector) : RoundTrips m connectorBlob (noneOr connectorEncode) c.enc c.val :=
  roundTrips_or (connector_ne c) (connector_read c) ((noneOr_dict _ _).trans (connector_write c)) (fun _ => connector_jok _ c)
    (mono_noneOr mono_connector)

/-- C36: build processes. -/
theorem C36_build_process (b : BuildProcess) :
    RoundTrips m (fun v => runBlob v buildProcessDecode) buildProcessEncode b.enc b.val :=
  roundTrips (read_fin (buildProcess_read b)) (buildProcess_write b) (fun _ => buildProcess_jok _ b) mono_buildProcess

theorem C39_map_model (b : MapModel m) : RejectsMore (fun v => runBlob v (mapModelDecode m.an)) b.enc :=
  rejects (mapModel_read b)
theorem C39_build_process (b : BuildProcess) : RejectsMore (fun v => runBlob v buildProcessDecode) b.enc :=
  rejects (buildProcess_read b)

example := C36_map_model ⟨true, true⟩ ⟨sampleGuid, sampleGuid, sampleGuid, sampleGuid, -1, 100, sampleTransform _,
  sampleGuid, sampleGuid, sampleGuid, sampleGuid, 1, sampleGuid, true, 12345⟩
example := C36_connector ⟨true, true⟩ ⟨-1, 2, sampleLst (sampleGuid, 3), [(4, sampleLst (sampleGuid, 5))]⟩
example := C36_build_process ⟨true, true⟩ ⟨1, sampleGuid⟩

/-! ### C38 -/

/-- C38: modules of concrete models; the module type is the key of the map entry. -/
theorem C38_module (d : Module) :
    RoundTrips m (moduleBlob (.str (P d.type))) (noneOr (concreteModuleEncode (.str (P d.type)))) d.enc d.val := by
  have hv : noneOr (concreteModuleEncode (.str (P d.type))) d.val = concreteModuleEncode (.str (P d.type)) d.val := by
    cases d <;> exact noneOr_dict _ _
  refine roundTrips_or (module_ne d) (read_finFor (module_read d)) (hv.trans (module_write d))
    (fun _ => module_jok _ d) (mono_noneOr fun a b h => mono_concreteModule (sim_refl _ _) h)

theorem C39_module (d : Module) : RejectsMore (moduleBlob (.str (P d.type))) d.enc :=
  rejects_or (rejectsFor (module_read d))

/-- C38: an empty module blob is shown undecoded, whatever the type. -/
theorem C38_empty (mt : Val) : moduleBlob mt (vBytesT []) = .ok (vDict [("values", .list [])]) := rfl

/-- C39: data of a module type the decoder does not know raises. -/
theorem C39_module_unknown_type (t : PyStr) (b : Bytes) (hb : b ≠ [])
    (h : ∀ k ∈ ["EPalMapObjectConcreteModelModuleType::ItemContainer",
      "EPalMapObjectConcreteModelModuleType::CharacterContainer", "EPalMapObjectConcreteModelModuleType::Workee",
      "EPalMapObjectConcreteModelModuleType::Switch", "EPalMapObjectConcreteModelModuleType::PasswordLock"],
      t ≠ P k) : ∃ e, moduleBlob (.str t) (vBytesT b) = .error e := by
  have hs : ∀ k ∈ ["EPalMapObjectConcreteModelModuleType::ItemContainer",
      "EPalMapObjectConcreteModelModuleType::CharacterContainer", "EPalMapObjectConcreteModelModuleType::Workee",
      "EPalMapObjectConcreteModelModuleType::Switch", "EPalMapObjectConcreteModelModuleType::PasswordLock"],
      (Val.str t).isS k = false := by
    intro k hk
    rw [isS_str, decide_eq_false_iff_not]
    exact fun e => h k hk e.symm
  simp only [List.forall_mem_cons] at hs
  obtain ⟨h1, h2, h3, h4, h5, _⟩ := hs
  refine ⟨.exc "Warning: EOF not reached for", emptyOr_T_error hb ?_⟩
  simp only [concreteModuleDecode, moduleBodyDecode, h1, h2, h3, h4, h5, Bool.false_eq_true, if_false, rd,
    rCheckEofFor_ne b hb]

example := C38_module ⟨true, true⟩
  (.items sampleGuid (sampleLst (1, sampleLst (-1))) (sampleLst 2) true 3)
example := C38_module ⟨true, true⟩ (.lock 1 sampleStr (sampleLst ⟨sampleGuid, 2, true⟩))
example := C39_module_unknown_type (P "EPalMapObjectConcreteModelModuleType::Energy") [0] (by decide)
  (by decide +kernel)

end Pal
