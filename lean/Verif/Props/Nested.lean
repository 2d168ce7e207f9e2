import Verif.Props.Sample
/-
C29, C31, C37: raw-data blobs that can embed a property list round-trip; C39 for them.

An embedded property list is read with the reader's type hints and custom properties,
at the empty path, and written by a fresh writer.  `rPropsLoop cfg n [] []` is that
reader and `bytesOf n` that writer; `n` bounds the nesting and the number of properties,
and is larger than the blob (it is larger than the whole file when a file is read).
-/

set_option linter.unusedSimpArgs false

namespace Pal
open Spec

variable {m : Mode} {cfg : Cfg}

/-! ### C29 -/

theorem character_ok (hcfg : cfg.allowNan = m.an) (hc : m.json = true → CfgJson cfg) (c : Character)
    (ps : Props m) (hw : ObjWf cfg ps) (ho : c.obj = objOf cfg ps) (n : Nat) (hn : c.enc.length < n)
    (h64 : c.enc.length < 2 ^ 64) : ObjOk m (rPropsLoop cfg n [] []) (bytesOf n) c.obj := by
  have hl : (encProps ps).length ≤ c.enc.length := by
    simp only [Character.enc, List.length_append, ho, objOf]; omega
  rw [ho]
  exact obj_ok hcfg hc ps n (by omega) (by omega) hw

/-- C29: characters, with any well-formed property list embedded. -/
theorem C29_character (hcfg : cfg.allowNan = m.an) (hc : m.json = true → CfgJson cfg) (c : Character)
    (ps : Props m) (hw : ObjWf cfg ps) (ho : c.obj = objOf cfg ps) (n : Nat) (hn : c.enc.length < n)
    (h64 : c.enc.length < 2 ^ 64) :
    RoundTrips m (fun b => runBlob b (characterDecode (rPropsLoop cfg n [] []))) (characterEncode (bytesOf n))
      c.enc c.val :=
  have hok := character_ok hcfg hc c ps hw ho n hn h64
  roundTrips (read_fin (character_read c hok)) (character_write c hok) (character_jok c hok)
    fun _ _ h => mono_character (mono_bytesOf' n) h

/-- C39 for characters. -/
theorem C39_character (hcfg : cfg.allowNan = m.an) (hc : m.json = true → CfgJson cfg) (c : Character)
    (ps : Props m) (hw : ObjWf cfg ps) (ho : c.obj = objOf cfg ps) (n : Nat) (hn : c.enc.length < n)
    (h64 : c.enc.length < 2 ^ 64) :
    RejectsMore (fun b => runBlob b (characterDecode (rPropsLoop cfg n [] []))) c.enc :=
  rejects (character_read c (character_ok hcfg hc c ps hw ho n hn h64))

/-- A saved character: a property list with a nested one. -/
def samplePal : Props jsonMode :=
  [(str "SaveParameter", .struct (str "PalIndividualCharacterSaveParameter") sampleGuid none
      (.props [(str "CharacterID", .name none (str "SheepBall")), (str "Level", .int none 7),
        (str "IsPlayer", .bool false none)]))]

theorem samplePal_wf : ObjWf fullCfg samplePal := by
  have h : fullCfg.custom (sub [] (str "SaveParameter")) = none ∧
      fullCfg.custom (sub (sub [] (str "SaveParameter")) (str "CharacterID")) = none ∧
      fullCfg.custom (sub (sub [] (str "SaveParameter")) (str "Level")) = none ∧
      fullCfg.custom (sub (sub [] (str "SaveParameter")) (str "IsPlayer")) = none := by decide +kernel
  obtain ⟨h1, h2, h3, h4⟩ := h
  refine ⟨by decide +kernel, wf_plain (by decide +kernel) h1 ?_ wf_nil⟩
  simp only [PropT.Wf, SVal.Wf]
  refine ⟨fits_props (by decide +kernel), by decide +kernel, wf_plain (by decide +kernel) h2 ?_
    (wf_plain (by decide +kernel) h3 ?_ (wf_plain (by decide +kernel) h4 ?_ wf_nil))⟩ <;> simp only [PropT.Wf]

def sampleCharacter : Character := ⟨objOf fullCfg samplePal, ⟨[0, 0, 0, 9], rfl⟩, sampleGuid⟩

example : sampleCharacter.enc.length = 275 := by decide +kernel
example := C29_character (m := jsonMode) (cfg := fullCfg) rfl (fun _ => palCfg_json _ _) sampleCharacter samplePal
  samplePal_wf rfl 1000 (by decide +kernel) (by decide +kernel)
example := C39_character (m := jsonMode) (cfg := fullCfg) rfl (fun _ => palCfg_json _ _) sampleCharacter samplePal
  samplePal_wf rfl 1000 (by decide +kernel) (by decide +kernel)

/-! ### C31 -/

/-- C31: eggs, armor, weapons and items of unknown structure, each recognized as what it is. -/
theorem C31_dynamic_item (hcfg : cfg.allowNan = m.an) (hc : m.json = true → CfgJson cfg) (d : DynItem m)
    (hd : DynCanon cfg d.body) (n : Nat) (hn : d.enc.length < n) (h64 : d.enc.length < 2 ^ 64) :
    RoundTrips m (fun b => emptyOr .none b (dynamicItemDecode m.an (rPropsLoop cfg n [] [])))
      (noneOr (dynamicItemEncode (bytesOf n))) d.enc d.val := by
  have hl : d.body.enc.length ≤ d.enc.length := by
    simp only [DynItem.enc, List.length_append]; omega
  have hok := dynOk_of hcfg hc d.body hd n (by omega) (by omega)
  exact roundTrips_or (dyn_ne d) (dyn_read d hok) ((noneOr_dict _ _).trans (dyn_write d hok)) (dyn_jok d hok)
    (mono_noneOr fun _ _ h => mono_dynamicItem (mono_bytesOf' n) h)

/-- C31: the empty blob is shown as null. -/
theorem C31_empty (n : Nat) :
    RoundTrips m (fun b => emptyOr .none b (dynamicItemDecode m.an (rPropsLoop cfg n [] [])))
      (noneOr (dynamicItemEncode (bytesOf n))) [] .none := ⟨rfl, rfl, fun _ => ⟨.none, rfl, rfl⟩⟩

/-- C31: bytes whose first string (length in the first four bytes) would reach their end
or lie beyond it are not taken for an egg. -/
theorem C31_not_egg (b : Bytes) (h : Overruns b) : NotEggBytes cfg b := notEgg_bytes cfg h

/-- C39 for eggs: what follows a complete egg makes reading raise. -/
theorem C39_egg (hcfg : cfg.allowNan = m.an) (hc : m.json = true → CfgJson cfg) (d : DynItem m)
    {c : Str} {o : Obj} {u : { b : Bytes // b.length = 4 }} {g : Guid} (hb : d.body = .egg c o u g)
    (hd : DynCanon cfg d.body) (n : Nat) (hn : d.enc.length < n) (h64 : d.enc.length < 2 ^ 64) :
    RejectsMore (fun b => emptyOr .none b (dynamicItemDecode m.an (rPropsLoop cfg n [] []))) d.enc := by
  have hl : d.body.enc.length ≤ d.enc.length := by
    simp only [DynItem.enc, List.length_append]; omega
  have hok := dynOk_of hcfg hc d.body hd n (by omega) (by omega)
  intro extra he
  refine ⟨.exc "Warning: EOF not reached", emptyOr_T_error (by simp [he]) ?_⟩
  rw [dynamicItemDecode, DynItem.enc, List.append_assoc, List.append_assoc, List.append_assoc,
    r_bind_ok (dynId_read _ _ _ _)]
  refine r_bind_error ?_ _
  rw [hb] at hok ⊢
  have hegg : eggDecode (rPropsLoop cfg n [] []) ((DynBody.egg (m := m) c o u g).enc ++ extra) =
      .error (.exc "Warning: EOF not reached") := by
    simp only [eggDecode, DynBody.enc, rd, DynOk] at hok ⊢
    simp only [hok.read, rByteList_n u.val 4 u.2, rd, rCheckEof_ne extra he]
  have htry : tryEgg (rPropsLoop cfg n [] []) ((DynBody.egg (m := m) c o u g).enc ++ extra) =
      .error (.exc "Warning: EOF not reached") := by
    simp only [tryEgg, rTry]
    rw [r_bind_error hegg]
    simp only [↓reduceIte, rFail]
  rw [dynamicRest, r_bind_error htry]

def sampleEgg : DynItem jsonMode :=
  ⟨sampleGuid, sampleGuid, str "PalEgg_Normal_01",
    .egg (str "SheepBall") (objOf fullCfg samplePal) ⟨[0, 0, 0, 0], rfl⟩ sampleGuid⟩
/-- A damaged gun: the first four bytes, taken for the length of a string, are a large number. -/
def sampleGun : DynItem jsonMode :=
  ⟨sampleGuid, sampleGuid, str "AssaultRifle", .weapon (sampleF32 _) 30 ⟨[str "Sharp"], by simp⟩⟩
def sampleOther : DynItem jsonMode := ⟨sampleGuid, sampleGuid, str "Other", .unknown [1, 0, 0, 0, 0]⟩

example := C31_dynamic_item (cfg := fullCfg) rfl (fun _ => palCfg_json _ _) sampleEgg ⟨samplePal, samplePal_wf, rfl⟩
  1000 (by decide +kernel) (by decide +kernel)
example := C39_egg (cfg := fullCfg) rfl (fun _ => palCfg_json _ _) sampleEgg rfl ⟨samplePal, samplePal_wf, rfl⟩
  1000 (by decide +kernel) (by decide +kernel)
example := C31_dynamic_item (cfg := fullCfg) rfl (fun _ => palCfg_json _ _)
  ⟨sampleGuid, sampleGuid, str "Armor", .armor (sampleF32 jsonMode)⟩ trivial 1000 (by decide +kernel) (by decide +kernel)
example := C31_dynamic_item (cfg := fullCfg) rfl (fun _ => palCfg_json _ _) sampleGun
  (C31_not_egg _ (by unfold Overruns; decide +kernel)) 1000 (by decide +kernel) (by decide +kernel)
example := C31_dynamic_item (cfg := fullCfg) rfl (fun _ => palCfg_json _ _) sampleOther
  ⟨C31_not_egg _ (by unfold Overruns; decide +kernel), by decide, .struct, rfl, by simp⟩ 1000 (by decide +kernel)
  (by decide +kernel)

/-! ### C37 -/

/-- C37: concrete models of every class with known contents; the class is found by the
id of the map object. -/
theorem C37_concrete (hcfg : cfg.allowNan = m.an) (hc : m.json = true → CfgJson cfg) (c : Concrete m)
    (hcan : ConcreteCanon cfg c.body) (oid : PyStr) (ho : concreteClass? oid = some c.body.cls) (n : Nat)
    (hn : c.enc.length < n) (h64 : c.enc.length < 2 ^ 64) :
    RoundTrips m (concreteBlob m.an (rPropsLoop cfg n [] []) (.str oid)) (noneOr (concreteEncode (bytesOf n)))
      c.enc c.val := by
  have hl : c.body.enc.length ≤ c.enc.length := by
    simp only [Concrete.enc, List.length_append]; omega
  have hok := concreteOk_of hcfg hc c.body hcan n (by omega) (by omega)
  have hne : c.enc ≠ [] := by
    intro h
    have := congrArg List.length h
    simp [Concrete.enc, eGuid, c.inst.2] at this
  have hw : noneOr (concreteEncode (bytesOf n)) c.val = .ok c.enc := (noneOr_dict _ _).trans (concrete_write c hok)
  refine ⟨emptyOr_T (s := []) hne ?_, hw, json_again hw (concrete_jok c hok)
    (mono_noneOr fun _ _ h => mono_concrete (mono_bytesOf' n) h)⟩
  have := concrete_read c hok oid ho (vBytesT c.enc) [] (fun _ _ _ _ _ => rfl)
  rw [List.append_nil] at this
  exact this

/-- C37: every class of the table has known contents, or is the class of objects whose
contents are unknown. -/
theorem C37_classes : ∀ e ∈ concreteTable, e.2 = unknownClass ∨ ∃ b : ConcreteBody m, b.cls = e.2 := by
  have h : ∀ e ∈ concreteTable, e.2 = unknownClass ∨ e.2 ∈ concreteNoOp ∨ e.2 ∈
      ["PalMapObjectDeathDroppedCharacterModel", "PalMapObjectConvertItemModel", "PalMapObjectPickupItemOnLevelModel",
       "PalMapObjectDropItemModel", "PalMapObjectItemDropOnDamagModel", "PalMapObjectDeathPenaltyStorageModel",
       "PalMapObjectDefenseBulletLauncherModel", "PalMapObjectGenerateEnergyModel", "PalMapObjectFarmBlockV2Model",
       "PalMapObjectFastTravelPointModel", "PalMapObjectShippingItemModel", "PalMapObjectProductItemModel",
       "PalMapObjectRecoverOtomoModel", "PalMapObjectHatchingEggModel", "PalMapObjectTreasureBoxModel",
       "PalMapObjectBreedFarmModel", "PalMapObjectSignboardModel", "PalMapObjectTorchModel", "PalMapObjectPalEggModel",
       "PalMapObjectBaseCampPoint"] := by decide +kernel
  intro e he
  rcases h e he with h | h | h
  · exact .inl h
  · exact .inr ⟨.noData _ h, rfl⟩
  · refine .inr ?_
    have f := sampleF32 m
    have l : ∀ {α : Type} (a : α), Lst α := fun a => sampleLst a
    simp only [List.mem_cons, List.not_mem_nil, or_false] at h
    rcases h with h | h | h | h | h | h | h | h | h | h | h | h | h | h | h | h | h | h | h | h <;> rw [h]
    · exact ⟨.droppedCharacter sampleGuid sampleGuid, rfl⟩
    · exact ⟨.convertItem sampleStr 0 0 f, rfl⟩
    · exact ⟨.pickup true, rfl⟩
    · exact ⟨.dropItem true sampleStr sampleGuid sampleGuid, rfl⟩
    · exact ⟨.dropOnDamage ⟨[], by simp⟩, rfl⟩
    · exact ⟨.deathPenalty sampleGuid, rfl⟩
    · exact ⟨.bulletLauncher 0 0 sampleStr, rfl⟩
    · exact ⟨.energy f, rfl⟩
    · exact ⟨.farm sampleStr 0 f f none, rfl⟩
    · exact ⟨.fastTravel sampleGuid, rfl⟩
    · exact ⟨.shipping (l 1), rfl⟩
    · exact ⟨.product f sampleStr, rfl⟩
    · exact ⟨.recover f, rfl⟩
    · exact ⟨.hatching ⟨[], .none⟩ 0 sampleGuid, rfl⟩
    · exact ⟨.treasure 0, rfl⟩
    · exact ⟨.breedFarm (l sampleGuid), rfl⟩
    · exact ⟨.signboard sampleStr, rfl⟩
    · exact ⟨.torch 0, rfl⟩
    · exact ⟨.palEgg 0, rfl⟩
    · exact ⟨.campPoint sampleGuid, rfl⟩

/-- C37: the data of an object that is not in the table, or whose contents are unknown,
is shown undecoded (and so written unchanged, see `C37_undecoded`). -/
theorem C37_unknown (oid : PyStr) (h : concreteClass? oid = none ∨ concreteClass? oid = some unknownClass) (b : Bytes)
    (an : Bool) (rec : R Val) (hb : b ≠ []) :
    concreteBlob an rec (.str oid) (vBytesT b) = .ok (vDict [("values", vBytesT b)]) := by
  rcases h with h | h
  · refine emptyOr_T (s := b) hb ?_
    simp only [concreteDecode, h]
    rfl
  · refine emptyOr_T (s := (b.drop 16).drop 16) hb ?_
    simp only [concreteDecode, h, concreteBody_unknown]
    rfl

/-- C37: undecoded data is left as it is when written. -/
theorem C37_undecoded (f : Val → Except Err Val) (x : Val) :
    unlessValues f (vDict [("values", x)]) = .ok (vDict [("values", x)]) := unless_raw x

/-- C39 for concrete models: what follows a complete record makes reading raise, except
for a farm block without growth state (the growth state could follow). -/
theorem C39_concrete (hcfg : cfg.allowNan = m.an) (hc : m.json = true → CfgJson cfg) (c : Concrete m)
    (hcan : ConcreteCanon cfg c.body) (oid : PyStr) (ho : concreteClass? oid = some c.body.cls) (n : Nat)
    (hn : c.enc.length < n) (h64 : c.enc.length < 2 ^ 64) (hf : ∀ a s p w, c.body ≠ .farm a s p w none) :
    RejectsMore (concreteBlob m.an (rPropsLoop cfg n [] []) (.str oid)) c.enc := by
  have hl : c.body.enc.length ≤ c.enc.length := by
    simp only [Concrete.enc, List.length_append]; omega
  have hok := concreteOk_of hcfg hc c.body hcan n (by omega) (by omega)
  intro extra he
  refine ⟨.exc "Warning: EOF not reached for", emptyOr_T_error (by simp [he]) ?_⟩
  exact (concrete_read c hok oid ho (vBytesT (c.enc ++ extra)) extra
      (fun a s p w h => absurd h (hf a s p w))).trans (finFor_ne _ he)

def sampleHatching : Concrete jsonMode := ⟨sampleGuid, sampleGuid, .hatching (objOf fullCfg samplePal) 5 sampleGuid⟩

theorem hatching_id : concreteClass? (P "HatchingPalEgg") = some "PalMapObjectHatchingEggModel" := by decide +kernel

example := C37_concrete (cfg := fullCfg) rfl (fun _ => palCfg_json _ _) sampleHatching ⟨samplePal, samplePal_wf, rfl⟩
  (P "HatchingPalEgg") hatching_id 1000 (by decide +kernel) (by decide +kernel)
example := C39_concrete (cfg := fullCfg) rfl (fun _ => palCfg_json _ _) sampleHatching ⟨samplePal, samplePal_wf, rfl⟩
  (P "HatchingPalEgg") hatching_id 1000 (by decide +kernel) (by decide +kernel)
  (fun _ _ _ _ h => by cases h)
example := C37_unknown (P "NoSuchThing") (.inl (by decide +kernel)) [1, 2, 3] true rU32Val (by decide)

end Pal
