import Verif.Props.Says
import Verif.Props.Blobs
/-
C59: edited raw-data dicts.
-/

namespace Pal
open Spec

/-- `encode` writes exactly the dicts that say a blob, each as the blob that it says. -/
def EncodesAs (encode : Val → Except Err Bytes) (S : Val → Bytes → Prop) : Prop :=
  ∀ p b, PlainDoc p → (encode p = .ok b ↔ S p b)

/-- The same for the encoders of blobs with property lists inside; the number bounds the depth of the lists. -/
def EncodesAs' (encode : Nat → Val → Except Err Bytes) (S : Val → Bytes → Prop) : Prop :=
  ∀ p b, PlainDoc p → ((∃ n, encode n p = .ok b) ↔ S p b) ∧ (S p b → ∃ k, ∀ n ≥ k, encode n p = .ok b)

theorem Codes.encodes {α : Type} {w : Val → Except Err Bytes} {S : Val → α → Prop} {e : α → Bytes} (h : Codes (fun _ => w) S e) :
    EncodesAs w (InBytes S e) := by
  intro p b hp
  constructor
  · intro hw; exact h.fw (n := 0) hp hw
  · rintro ⟨x, h1, rfl⟩
    obtain ⟨k, hk⟩ := h.bw h1
    exact hk k (Nat.le_refl _)

theorem Codes.encodes_id {w : Val → Except Err Bytes} {S : Val → Bytes → Prop} (h : Codes (fun _ => w) S id) : EncodesAs w S := by
  have := h.encodes
  rw [inBytes_id] at this
  exact this

theorem Codes.encodes' {w : Nat → Val → Except Err Bytes} {S : Val → Bytes → Prop} (h : Codes w S id) : EncodesAs' w S := by
  intro p b hp
  refine ⟨⟨?_, fun hs => ?_⟩, fun hs => h.bw hs⟩
  · rintro ⟨n, hw⟩
    obtain ⟨x, h1, rfl⟩ := h.fw hp hw
    exact h1
  · obtain ⟨k, hk⟩ := h.bw hs
    exact ⟨k, hk k (Nat.le_refl _)⟩

/-- C59: the blobs without property lists.  `t` is the type that the codec takes from beside the blob. -/
theorem C59_blobs (t : Val) (ht : PlainDoc t) :
    EncodesAs groupEncode (InBytes SaysGroup Group.enc) ∧
    EncodesAs (noneOr charContainerEncode) (NoneOr (InBytes SaysCharSlot CharSlot.enc)) ∧
    EncodesAs (noneOr itemContainerEncode) (NoneOr (InBytes SaysPermission Permission.enc)) ∧
    EncodesAs (noneOr itemContainerSlotsEncode) (NoneOr (InBytes SaysSlots Slots.enc)) ∧
    EncodesAs foliageModelEncode (InBytes SaysFoliageModel FoliageModel.enc) ∧
    EncodesAs foliageInstanceEncode SaysFoliageInst ∧
    EncodesAs baseCampEncode (InBytes SaysBaseCamp BaseCamp.enc) ∧
    EncodesAs workerDirectorEncode (InBytes SaysWorkerDirector WorkerDirector.enc) ∧
    EncodesAs workCollectionEncode (InBytes SaysWorkCollection WorkCollection.enc) ∧
    EncodesAs (campModuleEncode t) (SaysCampModule t) ∧
    EncodesAs (workEncode t) (SaysWork t) ∧
    EncodesAs workAssignBytesEncode (InBytes SaysWorkAssign WorkAssign.enc) ∧
    EncodesAs mapModelEncode (InBytes SaysMapModel MapModel.enc) ∧
    EncodesAs (noneOr connectorEncode) (NoneOr (InBytes SaysConnector Connector.enc)) ∧
    EncodesAs buildProcessEncode (InBytes SaysBuildProcess BuildProcess.enc) ∧
    EncodesAs (noneOr (concreteModuleEncode t)) (NoneOr (SaysModule t)) :=
  ⟨codes_group.encodes, codes_charSlot.noneOr.encodes_id, codes_permission.noneOr.encodes_id, codes_slots.noneOr.encodes_id,
    codes_foliageModel.encodes, codes_foliageInst.encodes_id, codes_baseCamp.encodes, codes_workerDirector.encodes,
    codes_workCollection.encodes, (codes2_at codes_campModule ht).encodes_id, (codes2_at codes_work ht).encodes_id,
    codes_workAssign.encodes, codes_mapModel.encodes, codes_connector.noneOr.encodes_id, codes_buildProcess.encodes,
    (codes2_at codes_module ht).noneOr'.encodes_id⟩

/-- C59: the blobs with property lists. -/
theorem C59_embedded :
    EncodesAs' (fun n => characterEncode (bytesOf n)) (SaysCharacter Embedded) ∧
    EncodesAs' (fun n => noneOr (dynamicItemEncode (bytesOf n))) (NoneOr (SaysDynItem Embedded)) ∧
    EncodesAs' (fun n => noneOr (concreteEncode (bytesOf n))) (NoneOr (InBytes (SaysConcrete Embedded) Concrete.enc)) :=
  ⟨(codes_character codes_embedded).encodes', (codes_dynItem codes_embedded).noneOr'.encodes',
    (codes_concrete codes_embedded).noneOr.encodes'⟩

/-- `p` says `x`; it is encoded, and decoding the blob gives the value of `x`, as the decoder shows it. -/
def ComesBack {α : Type} (S : Val → α → Prop) (val : α → Val) (decode : α → Val → Except Err Val) (encode : α → Val → Except Err Bytes) :
    Prop := ∀ p x, S p x → ∃ b, encode x p = .ok b ∧ decode x (vBytesT b) = .ok (val x)

theorem comesBack {α : Type} {S : Val → α → Prop} {val : α → Val} {decode : α → Val → Except Err Val} {w : Val → Except Err Bytes}
    {e : α → Bytes} (h : Codes (fun _ => w) S e) (hr : ∀ x, decode x (vBytesT (e x)) = .ok (val x)) :
    ComesBack S val decode fun _ => w := by
  intro p x hs
  obtain ⟨k, hk⟩ := h.bw hs
  exact ⟨e x, hk k (Nat.le_refl _), hr x⟩

/-- C59: what an edited dict says is what comes back when its blob is decoded again. -/
theorem C59_read_back :
    ComesBack SaysGroup Group.val (fun g b => runBlob b (groupDecode (.str g.body.type))) (fun _ => groupEncode) ∧
    ComesBack SaysCharSlot CharSlot.val (fun _ b => emptyOr .none b charContainerDecode) (fun _ => charContainerEncode) ∧
    ComesBack SaysPermission Permission.val (fun _ b => emptyOr .none b itemContainerDecode) (fun _ => itemContainerEncode) ∧
    ComesBack SaysSlots Slots.val (fun _ b => emptyOr .none b (itemContainerSlotsDecode true)) (fun _ => itemContainerSlotsEncode) ∧
    ComesBack SaysFoliageModel FoliageModel.val (fun _ b => runBlob b foliageModelDecode) (fun _ => foliageModelEncode) ∧
    ComesBack SaysBaseCamp BaseCamp.val (fun _ b => runBlob b (baseCampDecode true)) (fun _ => baseCampEncode) ∧
    ComesBack SaysWorkerDirector WorkerDirector.val (fun _ b => runBlob b (workerDirectorDecode true)) (fun _ => workerDirectorEncode) ∧
    ComesBack SaysWorkCollection WorkCollection.val (fun _ b => runBlob b workCollectionDecode) (fun _ => workCollectionEncode) ∧
    ComesBack SaysWorkAssign WorkAssign.val (fun _ b => runBlob b workAssignBytesDecode) (fun _ => workAssignBytesEncode) ∧
    ComesBack SaysMapModel MapModel.val (fun _ b => runBlob b (mapModelDecode true)) (fun _ => mapModelEncode) ∧
    ComesBack SaysConnector Connector.val (fun _ b => connectorBlob b) (fun _ => connectorEncode) ∧
    ComesBack SaysBuildProcess BuildProcess.val (fun _ b => runBlob b buildProcessDecode) (fun _ => buildProcessEncode) :=
  ⟨comesBack codes_group fun g => (C28_group free g).1, comesBack codes_charSlot fun c => (C30_character_container free c).1,
    comesBack codes_permission fun c => (C30_item_container free c).1, comesBack codes_slots fun c => (C30_item_container_slots free c).1,
    comesBack codes_foliageModel fun c => (C32_foliage_model free c).1, comesBack codes_baseCamp fun c => (C33_base_camp free c).1,
    comesBack codes_workerDirector fun c => (C33_worker_director free c).1,
    comesBack codes_workCollection fun c => (C33_work_collection free c).1,
    comesBack codes_workAssign fun c => (C35_work_assign free c).1, comesBack codes_mapModel fun c => (C36_map_model free c).1,
    comesBack codes_connector fun c => (C36_connector free c).1, comesBack codes_buildProcess fun c => (C36_build_process free c).1⟩

/-! ### cases -/

/-- A group as someone may edit it: GUIDs as text with or without dashes, a bool for a number, a further key. -/
def editedGroup : Val := dct [
  ("note", .str (P "mine")), ("group_type", .str (P "EPalGroupType::Organization")),
  ("group_id", .str (P "01020304-0506-0708-090A-0B0C0D0E0F10")), ("group_name", .str (P "Guildé")),
  ("individual_character_handle_ids", .list [dct [("instance_id", .str (P "{01020304-0506-0708-090a-0b0c0d0e0f10}")),
    ("guid", .str (P "0102030405060708090a0b0c0d0e0f10"))]]),
  ("org_type", .bool true), ("base_ids", .list [])]

/-- A foliage instance turned by 90 degrees, given as an int, at a place given by ints and floats. -/
def editedFoliage : Val := dct [
  ("model_instance_id", .str (P "01020304-0506-0708-090a-0b0c0d0e0f10")), ("hp", .int (-1)),
  ("world_transform", dct [("rotator", dct [("pitch", .int 0), ("yaw", .int 90), ("roll", .float 0xc056800000000000#64)]),
    ("location", dct [("x", .int 300), ("y", .float 0xc05edd2f1a9fbe77#64), ("z", .bool true)]), ("scale_x", .int 2)])]

/-- A character with an edited property. -/
def editedCharacter : Val := dct [
  ("object", dct [("Level", dct [("id", .none), ("value", .int 50), ("type", .str (P "IntProperty"))])]),
  ("unknown_bytes", .list [.int 0, .int 0, .int 0, .int 0]), ("group_id", .str (P "01020304-0506-0708-090a-0b0c0d0e0f10"))]

theorem edited_plain : PlainDoc editedGroup ∧ PlainDoc editedFoliage ∧ PlainDoc editedCharacter := by
  simp only [editedGroup, editedFoliage, editedCharacter, dct_eq, vDict, PlainDoc, PlainDocL, PlainDocD, List.map,
    Val.str.injEq, forall_eq', reduceCtorEq, false_implies, implies_true, and_true, true_and]
  repeat' with_reducible apply And.intro
  all_goals decide +kernel

/-- They are encoded, so they say blobs. -/
example : ∃ b, InBytes SaysGroup Group.enc editedGroup b := by
  have h : ∃ b, groupEncode editedGroup = .ok b := ⟨_, by rfl⟩
  obtain ⟨b, hb⟩ := h
  exact ⟨b, ((C59_blobs .none trivial).1 _ _ edited_plain.1).1 hb⟩
/-- The result is these bytes. -/
def givesBytes (x : Except Err Bytes) (b : Bytes) : Bool :=
  match x with
  | .ok c => c = b
  | .error _ => false
theorem givesBytes_ok {x : Except Err Bytes} {b : Bytes} (h : givesBytes x b = true) : x = .ok b := by
  unfold givesBytes at h
  split at h
  · rw [of_decide_eq_true h]
  · cases h
theorem editedFoliage_encoded : foliageInstanceEncode editedFoliage = .ok
    ([4, 3, 2, 1, 8, 7, 6, 5, 12, 11, 10, 9, 16, 15, 14, 13, 0, 1, 0, 64, 1, 0, 192, 74, 0, 0, 0, 44, 1, 133, 255, 1, 0,
      0, 0, 0, 64, 255, 255, 255, 255]) := by
  refine givesBytes_ok ?_
  decide +kernel
/-- The bytes that the edited instance says: the angles 0, 16384 and 49152, eleven bits per number, 300, -123 and 1. -/
example := ((C59_blobs .none trivial).2.2.2.2.2.1 _ _ edited_plain.2.1).1 editedFoliage_encoded
example : ∃ b, SaysCharacter Embedded editedCharacter b := by
  have h : ∃ b, characterEncode (bytesOf 5) editedCharacter = .ok b := ⟨_, by rfl⟩
  obtain ⟨b, hb⟩ := h
  exact ⟨b, (C59_embedded.1 _ _ edited_plain.2.2).1.1 ⟨5, hb⟩⟩
/-- 90 degrees are a quarter of a turn. -/
example : SaysAngle (.int 90) 16384 := by
  obtain ⟨a, h1, h2⟩ := shortOf_iff.1 (show shortOf (.int 90) = .ok 16384 by rfl)
  have : a = 16384 := BitVec.eq_of_toNat_eq h2.symm
  rwa [← this]
/-- A text where a number is needed is refused. -/
example : ¬ ∃ a, SaysAngle (.str (P "90")) a := by
  rintro ⟨a, h⟩
  have := shortOf_iff.2 ⟨a, h, rfl⟩
  cases this

end Pal
