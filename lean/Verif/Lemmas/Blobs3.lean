import Verif.Lemmas.Blobs2
import Verif.Spec.Custom
/-
Blobs that may embed a property list: characters, dynamic items, concrete models.
-/

set_option linter.unusedSimpArgs false

namespace Pal
open Spec

variable {m : Mode}

/-- The embedded property list is read back and written back. -/
structure ObjOk (m : Mode) (rec : R Val) (wp : Val → Except Err Bytes) (o : Obj) : Prop where
  read : ∀ rest, rec (o.bytes ++ rest) = .ok (o.value, rest)
  write : wp o.value = .ok o.bytes
  jok : m.json = true → JOk m.an o.value

theorem rByteList_n (b : Bytes) (k : Nat) (h : b.length = k) (rest : Bytes) :
    rByteList k (b ++ rest) = .ok (vBytesT b, rest) := by
  subst h
  rw [rByteList, if_pos (by simp)]
  simp [vBytesT]

/-! ### characters -/

theorem character_read {rec : R Val} {wp : Val → Except Err Bytes} (c : Character) (ho : ObjOk m rec wp c.obj)
    (rest : Bytes) : characterDecode rec (c.enc ++ rest) = fin c.val rest := by
  simp only [characterDecode, Character.enc, rd, ho.read, rByteList_n c.unknown.val 4 c.unknown.2]; rfl
theorem character_write {rec : R Val} {wp : Val → Except Err Bytes} (c : Character) (ho : ObjOk m rec wp c.obj) :
    characterEncode wp c.val = .ok c.enc := by
  simp [characterEncode, Character.val, Character.enc, ho.write, wr]
theorem character_jok {rec : R Val} {wp : Val → Except Err Bytes} (c : Character) (ho : ObjOk m rec wp c.obj)
    (hj : m.json = true) : JOk m.an c.val := by
  have := ho.jok hj
  unfold Character.val; jok_tac

/-! ### dynamic items -/

theorem dynId_read (w l : Guid) (s : Str) (rest : Bytes) :
    dynamicIdDecode (eGuid w ++ (eGuid l ++ (eStr s ++ rest))) =
      .ok (vDict [("created_world_id", vGuid w), ("local_id_in_created_world", vGuid l), ("static_id", vStr s)],
        rest) := by
  simp only [dynamicIdDecode, rd]; rfl

theorem tryEgg_not {rec : R Val} {b : Bytes} (h : NotEgg rec b) : tryEgg rec b = .ok (none, b) := by
  obtain ⟨e, h1, h2, h3⟩ := h
  have hx : (do let d ← eggDecode rec; return some d : R (Option Dict)) b = .error e := by
    rw [r_bind_error h1]
  unfold tryEgg rTry
  rw [hx]
  cases e <;> first | exact absurd rfl h3 | (simp only [h2, if_false]; rfl)

/-- What the contents must satisfy: an egg's object must be an object; the others must
not look like an egg; unknown contents must not look like armor or a weapon. -/
def DynOk (m : Mode) (rec : R Val) (wp : Val → Except Err Bytes) : DynBody m → Prop
  | .egg _ o _ _ => ObjOk m rec wp o
  | .armor d => NotEgg rec (eF32 d)
  | .weapon d b s => NotEgg rec (eF32 d ++ e32 b ++ eList eStr s)
  | .unknown b => NotEgg rec b ∧ b.length ≠ 4 ∧ ∃ e, weaponDecode m.an b = .error e ∧ e ≠ .fuel

theorem egg_read {rec : R Val} {wp : Val → Except Err Bytes} (c : Str) (o : Obj) (u : { b : Bytes // b.length = 4 })
    (g : Guid) (ho : ObjOk m rec wp o) :
    eggDecode rec (eStr c ++ o.bytes ++ u.val ++ eGuid g) =
      .ok ((DynBody.egg (m := m) c o u g).entries.map fun kv => (P kv.1, kv.2), []) := by
  have h := rGuid_eGuid g []
  rw [List.append_nil] at h
  simp only [eggDecode, rd, ho.read, rByteList_n u.val 4 u.2, h]; rfl

theorem dynRest_read {rec : R Val} {wp : Val → Except Err Bytes} (d : DynBody m) (hd : DynOk m rec wp d) :
    dynamicRest m.an rec d.enc = .ok (d.entries.map fun kv => (P kv.1, kv.2), []) := by
  have hr : ∀ s, rRemaining s = .ok (s.length, s) := fun _ => rfl
  have hl : ∀ f : F32 m, (eF32 f).length = 4 := fun f => by rw [eF32, lit_length]
  cases d with
  | egg c o u g =>
    have he := egg_read c o u g hd
    have : tryEgg rec (eStr c ++ o.bytes ++ u.val ++ eGuid g) =
        .ok (some ((DynBody.egg (m := m) c o u g).entries.map fun kv => (P kv.1, kv.2)), []) := by
      unfold tryEgg
      apply rTry_ok
      rw [r_bind_ok he]; rfl
    rw [dynamicRest, DynBody.enc, r_bind_ok this]
    rfl
  | armor f =>
    have h := tryEgg_not hd
    rw [dynamicRest, DynBody.enc, r_bind_ok h, r_bind_ok (hr _)]
    have hf := rFloat_eF32 f []
    rw [List.append_nil] at hf
    simp only [hl, if_true, armorDecode, rd, hf]; rfl
  | weapon f b s =>
    have h := tryEgg_not hd
    rw [dynamicRest, DynBody.enc, r_bind_ok h, r_bind_ok (hr _)]
    have hlen : ¬ ((eF32 f ++ e32 b ++ eList eStr s).length = 4) := by
      simp only [List.length_append, hl, e32, lit_length, eList]; omega
    simp only [hlen, if_false]
    apply rTry_ok
    have hs := rTArray_eList rStr_eStr s []
    rw [List.append_nil] at hs
    simp only [weaponDecode, rd, hs]; rfl
  | unknown b =>
    obtain ⟨h1, h2, e, h3, h4⟩ := hd
    rw [dynamicRest, DynBody.enc, r_bind_ok (tryEgg_not h1), r_bind_ok (hr _)]
    simp only [h2, if_false]
    unfold rTry
    rw [h3]
    cases e <;> first | exact absurd rfl h4 | rfl

theorem dyn_read {rec : R Val} {wp : Val → Except Err Bytes} (d : DynItem m) (hd : DynOk m rec wp d.body) :
    dynamicItemDecode m.an rec d.enc = .ok (d.val, []) := by
  rw [dynamicItemDecode, DynItem.enc, List.append_assoc, List.append_assoc, r_bind_ok (dynId_read _ _ _ _),
    r_bind_ok (dynRest_read d.body hd)]
  rfl

theorem isS_P (s t : String) : (Val.str (P s)).isS t = decide (t = s) := by
  rw [isS_str]; simp only [P_inj]
theorem isAny_P (s : String) (l : List String) : (Val.str (P s)).isAny l = decide (s ∈ l) := by
  rw [isAny_str]; simp only [P_inj]
  induction l with
  | nil => rfl
  | cons a t ih =>
    rw [List.any_cons, ih]
    by_cases h : a = s
    · subst h; simp
    · simp [h, Ne.symm h]

theorem dyn_write {rec : R Val} {wp : Val → Except Err Bytes} (d : DynItem m) (hd : DynOk m rec wp d.body) :
    dynamicItemEncode wp d.val = .ok d.enc := by
  obtain ⟨w, l, s, b⟩ := d
  cases b with
  | egg c o u g =>
    have := hd.write
    simp [dynamicItemEncode, DynItem.val, DynItem.enc, DynBody.entries, DynBody.enc, wr, isS_P, this]
  | armor f => simp [dynamicItemEncode, DynItem.val, DynItem.enc, DynBody.entries, DynBody.enc, wr, isS_P]
  | weapon f b s =>
    simp [dynamicItemEncode, DynItem.val, DynItem.enc, DynBody.entries, DynBody.enc, wr, isS_P,
      wTArray_v wFString_v]
  | unknown b => simp [dynamicItemEncode, DynItem.val, DynItem.enc, DynBody.entries, DynBody.enc, wr, isS_P]

theorem dyn_jok {rec : R Val} {wp : Val → Except Err Bytes} (d : DynItem m) (hd : DynOk m rec wp d.body)
    (hj : m.json = true) : JOk m.an d.val := by
  obtain ⟨w, l, s, b⟩ := d
  cases b with
  | egg c o u g =>
    have := hd.jok hj
    simp only [DynItem.val, DynBody.entries]; jok_tac
  | armor f => simp only [DynItem.val, DynBody.entries]; jok_tac
  | weapon f b s => simp only [DynItem.val, DynBody.entries]; jok_tac
  | unknown b => simp only [DynItem.val, DynBody.entries]; jok_tac

theorem dyn_ne (d : DynItem m) : d.enc ≠ [] := by
  intro h
  have := congrArg List.length h
  simp [DynItem.enc, eGuid, d.world.2] at this

/-! ### concrete models -/

/-- An embedded object must be an object. -/
def ConcreteOk (m : Mode) (rec : R Val) (wp : Val → Except Err Bytes) : ConcreteBody m → Prop
  | .hatching o _ _ => ObjOk m rec wp o
  | _ => True

theorem concreteBody_read {rec : R Val} {wp : Val → Except Err Bytes} (b : ConcreteBody m)
    (hb : ConcreteOk m rec wp b) :
    ∃ x, concreteBody m.an rec b.cls = some x ∧
      ∀ rest, (∀ c s p w, b = .farm c s p w none → rest = []) →
        x (b.enc ++ rest) = .ok (b.entries.map fun kv => (P kv.1, kv.2), rest) := by
  cases b with
  | noData c h => exact ⟨_, by rw [concreteBody, ConcreteBody.cls, if_pos h], fun rest _ => rfl⟩
  | droppedCharacter s o =>
    refine ⟨cmDropped, ?_, fun rest _ => ?_⟩
    · have hn : "PalMapObjectDeathDroppedCharacterModel" ∉ concreteNoOp := by decide +kernel
      simp [concreteBody, ConcreteBody.cls, hn]
    · simp only [cmDropped, ConcreteBody.enc, rd]; rfl
  | convertItem r a b w =>
    refine ⟨cmConvert m.an, ?_, fun rest _ => ?_⟩
    · have hn : "PalMapObjectConvertItemModel" ∉ concreteNoOp := by decide +kernel
      simp [concreteBody, ConcreteBody.cls, hn]
    · simp only [cmConvert, ConcreteBody.enc, rd]; rfl
  | pickup a =>
    refine ⟨pickupBase, ?_, fun rest _ => ?_⟩
    · have hn : "PalMapObjectPickupItemOnLevelModel" ∉ concreteNoOp := by decide +kernel
      simp [concreteBody, ConcreteBody.cls, hn]
    · simp only [pickupBase, ConcreteBody.enc, rd]; rfl
  | dropItem a s w l =>
    refine ⟨cmDropItem, ?_, fun rest _ => ?_⟩
    · have hn : "PalMapObjectDropItemModel" ∉ concreteNoOp := by decide +kernel
      simp [concreteBody, ConcreteBody.cls, hn]
    · simp only [cmDropItem, pickupBase, ConcreteBody.enc, rd]; rfl
  | dropOnDamage i =>
    refine ⟨one "drop_item_infos" (rTArray itemAndNumDecode), ?_, fun rest _ => ?_⟩
    · have hn : "PalMapObjectItemDropOnDamagModel" ∉ concreteNoOp := by decide +kernel
      simp [concreteBody, ConcreteBody.cls, hn]
    · simp only [one, ConcreteBody.enc, rd, rTArray_eList itemAndNum_read]; rfl
  | deathPenalty o =>
    refine ⟨one "owner_player_uid" rGuid, ?_, fun rest _ => ?_⟩
    · have hn : "PalMapObjectDeathPenaltyStorageModel" ∉ concreteNoOp := by decide +kernel
      simp [concreteBody, ConcreteBody.cls, hn]
    · simp only [one, ConcreteBody.enc, rd]; rfl
  | bulletLauncher r g b =>
    refine ⟨cmBullet, ?_, fun rest _ => ?_⟩
    · have hn : "PalMapObjectDefenseBulletLauncherModel" ∉ concreteNoOp := by decide +kernel
      simp [concreteBody, ConcreteBody.cls, hn]
    · simp only [cmBullet, ConcreteBody.enc, rd]; rfl
  | energy s =>
    refine ⟨one "stored_energy_amount" (rFloat m.an), ?_, fun rest _ => ?_⟩
    · have hn : "PalMapObjectGenerateEnergyModel" ∉ concreteNoOp := by decide +kernel
      simp [concreteBody, ConcreteBody.cls, hn]
    · simp only [one, ConcreteBody.enc, rd]; rfl
  | farm c s p w g =>
    refine ⟨cmFarm m.an, ?_, fun rest hr => ?_⟩
    · have hn : "PalMapObjectFarmBlockV2Model" ∉ concreteNoOp := by decide +kernel
      simp [concreteBody, ConcreteBody.cls, hn]
    · have h1 : ∀ s, rEof s = .ok (s.isEmpty, s) := fun _ => rfl
      cases g with
      | none =>
        have := hr c s p w rfl
        subst this
        simp only [cmFarm, cmFarmState, ConcreteBody.enc, rd, h1, List.isEmpty_nil, if_true]; rfl
      | some g =>
        have h2 : (eF32 g.1 ++ (eF32 g.2 ++ rest)).isEmpty = false := by
          rw [eF32]; rfl
        simp only [cmFarm, cmFarmState, ConcreteBody.enc, rd, h1, h2, r_ite, Bool.false_eq_true, if_false]; rfl
  | fastTravel l =>
    refine ⟨one "location_instance_id" rGuid, ?_, fun rest _ => ?_⟩
    · have hn : "PalMapObjectFastTravelPointModel" ∉ concreteNoOp := by decide +kernel
      simp [concreteBody, ConcreteBody.cls, hn]
    · simp only [one, ConcreteBody.enc, rd]; rfl
  | shipping h =>
    refine ⟨one "shipping_hours" (rTArray rI32Val), ?_, fun rest _ => ?_⟩
    · have hn : "PalMapObjectShippingItemModel" ∉ concreteNoOp := by decide +kernel
      simp [concreteBody, ConcreteBody.cls, hn]
    · simp only [one, ConcreteBody.enc, rd, rTArray_eList rI32Val_e]; rfl
  | product r i =>
    refine ⟨cmProduct m.an, ?_, fun rest _ => ?_⟩
    · have hn : "PalMapObjectProductItemModel" ∉ concreteNoOp := by decide +kernel
      simp [concreteBody, ConcreteBody.cls, hn]
    · simp only [cmProduct, ConcreteBody.enc, rd]; rfl
  | recover a =>
    refine ⟨one "recover_amount_by_sec" (rFloat m.an), ?_, fun rest _ => ?_⟩
    · have hn : "PalMapObjectRecoverOtomoModel" ∉ concreteNoOp := by decide +kernel
      simp [concreteBody, ConcreteBody.cls, hn]
    · simp only [one, ConcreteBody.enc, rd]; rfl
  | hatching o u c =>
    refine ⟨cmHatch rec, ?_, fun rest _ => ?_⟩
    · have hn : "PalMapObjectHatchingEggModel" ∉ concreteNoOp := by decide +kernel
      simp [concreteBody, ConcreteBody.cls, hn]
    · have := ObjOk.read hb
      simp only [cmHatch, ConcreteBody.enc, rd, this]; rfl
  | treasure g =>
    refine ⟨one "treasure_grade_type" rByteVal, ?_, fun rest _ => ?_⟩
    · have hn : "PalMapObjectTreasureBoxModel" ∉ concreteNoOp := by decide +kernel
      simp [concreteBody, ConcreteBody.cls, hn]
    · simp only [one, ConcreteBody.enc, rd]; rfl
  | breedFarm e =>
    refine ⟨one "spawned_egg_instance_ids" (rTArray rGuid), ?_, fun rest _ => ?_⟩
    · have hn : "PalMapObjectBreedFarmModel" ∉ concreteNoOp := by decide +kernel
      simp [concreteBody, ConcreteBody.cls, hn]
    · simp only [one, ConcreteBody.enc, rd, rTArray_eList rGuid_eGuid]; rfl
  | signboard t =>
    refine ⟨one "signboard_text" rStr, ?_, fun rest _ => ?_⟩
    · have hn : "PalMapObjectSignboardModel" ∉ concreteNoOp := by decide +kernel
      simp [concreteBody, ConcreteBody.cls, hn]
    · simp only [one, ConcreteBody.enc, rd]; rfl
  | torch d =>
    refine ⟨one "extinction_date_time" rI64Val, ?_, fun rest _ => ?_⟩
    · have hn : "PalMapObjectTorchModel" ∉ concreteNoOp := by decide +kernel
      simp [concreteBody, ConcreteBody.cls, hn]
    · simp only [one, ConcreteBody.enc, rd]; rfl
  | palEgg u =>
    refine ⟨one "unknown_bytes" rU32Val, ?_, fun rest _ => ?_⟩
    · have hn : "PalMapObjectPalEggModel" ∉ concreteNoOp := by decide +kernel
      simp [concreteBody, ConcreteBody.cls, hn]
    · simp only [one, ConcreteBody.enc, rd]; rfl
  | campPoint c =>
    refine ⟨one "base_camp_id" rGuid, ?_, fun rest _ => ?_⟩
    · have hn : "PalMapObjectBaseCampPoint" ∉ concreteNoOp := by decide +kernel
      simp [concreteBody, ConcreteBody.cls, hn]
    · simp only [one, ConcreteBody.enc, rd]; rfl

/-- The three entries in front of the body. -/
def concreteHead (i g : Guid) (c : String) : List (String × Val) :=
  [("instance_id", vGuid i), ("model_instance_id", vGuid g), ("concrete_model_type", .str (P c))]

theorem concreteBody_write {rec : R Val} {wp : Val → Except Err Bytes} (i g : Guid) (b : ConcreteBody m)
    (hb : ConcreteOk m rec wp b) :
    concreteBodyEncode wp (.str (P b.cls)) (vDict (concreteHead i g b.cls ++ b.entries)) = .ok b.enc := by
  cases b with
  | noData c h => simp [concreteBodyEncode, ConcreteBody.cls, isAny_P, h, ConcreteBody.enc]
  | farm c s p w g =>
    have hn : "PalMapObjectFarmBlockV2Model" ∉ concreteNoOp := by decide +kernel
    cases g with
    | none =>
      simp [concreteBodyEncode, ConcreteBody.cls, isAny_P, isS_P, hn, concreteHead, ConcreteBody.entries,
        ConcreteBody.enc, contains_vDict, wr]
    | some g =>
      simp [concreteBodyEncode, ConcreteBody.cls, isAny_P, isS_P, hn, concreteHead, ConcreteBody.entries,
        ConcreteBody.enc, contains_vDict, wr]
  | droppedCharacter s o =>
    have hn : "PalMapObjectDeathDroppedCharacterModel" ∉ concreteNoOp := by decide +kernel
    simp [concreteBodyEncode, ConcreteBody.cls, isAny_P, isS_P, hn, concreteHead, ConcreteBody.entries,
      ConcreteBody.enc, wr]
  | convertItem r a b w =>
    have hn : "PalMapObjectConvertItemModel" ∉ concreteNoOp := by decide +kernel
    simp [concreteBodyEncode, ConcreteBody.cls, isAny_P, isS_P, hn, concreteHead, ConcreteBody.entries,
      ConcreteBody.enc, wr]
  | pickup a =>
    have hn : "PalMapObjectPickupItemOnLevelModel" ∉ concreteNoOp := by decide +kernel
    simp [concreteBodyEncode, ConcreteBody.cls, isAny_P, isS_P, hn, concreteHead, ConcreteBody.entries,
      ConcreteBody.enc, wr]
  | dropItem a s w l =>
    have hn : "PalMapObjectDropItemModel" ∉ concreteNoOp := by decide +kernel
    simp [concreteBodyEncode, ConcreteBody.cls, isAny_P, isS_P, hn, concreteHead, ConcreteBody.entries,
      ConcreteBody.enc, wr]
  | dropOnDamage i =>
    have hn : "PalMapObjectItemDropOnDamagModel" ∉ concreteNoOp := by decide +kernel
    simp [concreteBodyEncode, ConcreteBody.cls, isAny_P, isS_P, hn, concreteHead, ConcreteBody.entries,
      ConcreteBody.enc, wTArray_v itemAndNum_write, wr]
  | deathPenalty o =>
    have hn : "PalMapObjectDeathPenaltyStorageModel" ∉ concreteNoOp := by decide +kernel
    simp [concreteBodyEncode, ConcreteBody.cls, isAny_P, isS_P, hn, concreteHead, ConcreteBody.entries,
      ConcreteBody.enc, wr]
  | bulletLauncher r g b =>
    have hn : "PalMapObjectDefenseBulletLauncherModel" ∉ concreteNoOp := by decide +kernel
    simp [concreteBodyEncode, ConcreteBody.cls, isAny_P, isS_P, hn, concreteHead, ConcreteBody.entries,
      ConcreteBody.enc, wr]
  | energy s =>
    have hn : "PalMapObjectGenerateEnergyModel" ∉ concreteNoOp := by decide +kernel
    simp [concreteBodyEncode, ConcreteBody.cls, isAny_P, isS_P, hn, concreteHead, ConcreteBody.entries,
      ConcreteBody.enc, wr]
  | fastTravel l =>
    have hn : "PalMapObjectFastTravelPointModel" ∉ concreteNoOp := by decide +kernel
    simp [concreteBodyEncode, ConcreteBody.cls, isAny_P, isS_P, hn, concreteHead, ConcreteBody.entries,
      ConcreteBody.enc, wr]
  | shipping h =>
    have hn : "PalMapObjectShippingItemModel" ∉ concreteNoOp := by decide +kernel
    simp [concreteBodyEncode, ConcreteBody.cls, isAny_P, isS_P, hn, concreteHead, ConcreteBody.entries,
      ConcreteBody.enc, wTArray_v wI32_v, wr]
  | product r i =>
    have hn : "PalMapObjectProductItemModel" ∉ concreteNoOp := by decide +kernel
    simp [concreteBodyEncode, ConcreteBody.cls, isAny_P, isS_P, hn, concreteHead, ConcreteBody.entries,
      ConcreteBody.enc, wr]
  | recover a =>
    have hn : "PalMapObjectRecoverOtomoModel" ∉ concreteNoOp := by decide +kernel
    simp [concreteBodyEncode, ConcreteBody.cls, isAny_P, isS_P, hn, concreteHead, ConcreteBody.entries,
      ConcreteBody.enc, wr]
  | hatching o u c =>
    have hn : "PalMapObjectHatchingEggModel" ∉ concreteNoOp := by decide +kernel
    simp [concreteBodyEncode, ConcreteBody.cls, isAny_P, isS_P, hn, concreteHead, ConcreteBody.entries,
      ConcreteBody.enc, ObjOk.write hb, wr]
  | treasure g =>
    have hn : "PalMapObjectTreasureBoxModel" ∉ concreteNoOp := by decide +kernel
    simp [concreteBodyEncode, ConcreteBody.cls, isAny_P, isS_P, hn, concreteHead, ConcreteBody.entries,
      ConcreteBody.enc, wr]
  | breedFarm e =>
    have hn : "PalMapObjectBreedFarmModel" ∉ concreteNoOp := by decide +kernel
    simp [concreteBodyEncode, ConcreteBody.cls, isAny_P, isS_P, hn, concreteHead, ConcreteBody.entries,
      ConcreteBody.enc, wTArray_v wGuid_v, wr]
  | signboard t =>
    have hn : "PalMapObjectSignboardModel" ∉ concreteNoOp := by decide +kernel
    simp [concreteBodyEncode, ConcreteBody.cls, isAny_P, isS_P, hn, concreteHead, ConcreteBody.entries,
      ConcreteBody.enc, wr]
  | torch d =>
    have hn : "PalMapObjectTorchModel" ∉ concreteNoOp := by decide +kernel
    simp [concreteBodyEncode, ConcreteBody.cls, isAny_P, isS_P, hn, concreteHead, ConcreteBody.entries,
      ConcreteBody.enc, wr]
  | palEgg u =>
    have hn : "PalMapObjectPalEggModel" ∉ concreteNoOp := by decide +kernel
    simp [concreteBodyEncode, ConcreteBody.cls, isAny_P, isS_P, hn, concreteHead, ConcreteBody.entries,
      ConcreteBody.enc, wr]
  | campPoint c =>
    have hn : "PalMapObjectBaseCampPoint" ∉ concreteNoOp := by decide +kernel
    simp [concreteBodyEncode, ConcreteBody.cls, isAny_P, isS_P, hn, concreteHead, ConcreteBody.entries,
      ConcreteBody.enc, wr]

theorem concrete_read {rec : R Val} {wp : Val → Except Err Bytes} (c : Concrete m) (hb : ConcreteOk m rec wp c.body)
    (oid : PyStr) (ho : concreteClass? oid = some c.body.cls) (raw : Val) (rest : Bytes)
    (hr : ∀ a s p w, c.body = .farm a s p w none → rest = []) :
    concreteDecode m.an rec (.str oid) raw (c.enc ++ rest) = finFor c.val rest := by
  obtain ⟨x, h1, h2⟩ := concreteBody_read c.body hb
  simp only [concreteDecode, ho, Concrete.enc, rd, h1, h2 rest hr, finFor, Concrete.val, vDict, List.map_append,
    List.map_cons, List.map_nil]

theorem concrete_write {rec : R Val} {wp : Val → Except Err Bytes} (c : Concrete m)
    (hb : ConcreteOk m rec wp c.body) : concreteEncode wp c.val = .ok c.enc := by
  have h := concreteBody_write c.inst c.model c.body hb
  rw [concreteHead] at h
  simp only [concreteEncode, Concrete.val, Concrete.enc]
  simp [wr, h] at h ⊢

theorem concrete_jok {rec : R Val} {wp : Val → Except Err Bytes} (c : Concrete m)
    (hb : ConcreteOk m rec wp c.body) (hj : m.json = true) : JOk m.an c.val := by
  have hc : Normal (P c.body.cls) := by
    have hn : ∀ s ∈ concreteNoOp, Normal (P s) := by decide +kernel
    cases c.body with
    | noData c h => exact hn c h
    | _ => simp only [ConcreteBody.cls]; decide +kernel
  have h0 : JOk m.an (.str (P c.body.cls)) := jok_lit _ _ hc
  have hi := itemAndNum_jok m.an
  obtain ⟨i, g, b⟩ := c
  simp only [Concrete.val]
  cases b with
  | hatching o u c =>
    have := ObjOk.jok hb hj
    simp only [ConcreteBody.entries, List.cons_append, List.nil_append]
    jok_tac
  | dropOnDamage i =>
    have := jok_list _ hi i
    clear hi
    simp only [ConcreteBody.entries, List.cons_append, List.nil_append]
    jok_tac
  | farm c s p w g =>
    clear hi
    cases g <;> (simp only [ConcreteBody.entries, List.cons_append, List.nil_append]; jok_tac)
  | _ =>
    clear hi
    simp only [ConcreteBody.entries, List.cons_append, List.nil_append]
    jok_tac

end Pal
