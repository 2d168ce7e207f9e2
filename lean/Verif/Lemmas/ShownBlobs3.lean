import Verif.Lemmas.ShownBlobs2
import Verif.Lemmas.ShownFoliage
/-
Concrete models, characters and dynamic items are shown as `Spec/ShownBlobs.lean` says.
-/

set_option linter.unusedSimpArgs false

namespace Pal
open Spec

/-! ### concrete models -/

def concreteRows (c : String) : List (String × R Val) :=
  [("instance_id", rGuid), ("model_instance_id", rGuid), ("concrete_model_type", pure (.str (P c)))]

theorem concrete_eq {an : Bool} {rec : R Val} {o : PyStr} {c : String} {raw : Val} {x : R Dict} (hc : concreteClass? o = some c)
    (hb : concreteBody an rec c = some x) : concreteDecode an rec (.str o) raw = (do
      let l ← rFields (concreteRows c)
      let d ← x
      rCheckEofFor
      return .dict ((l.map fun kv => (P kv.1, kv.2)) ++ d)) := by
  unfold concreteDecode
  dsimp only
  rw [hc]
  dsimp only
  rw [hb]
  simp only [concreteRows, rFields, bind_assoc, pure_bind]
  rfl

theorem concretePlain_nodup (an : Bool) (E : Layout) : ((concretePlain an E).map Prod.fst).Nodup := by
  rw [concretePlain, List.map_append, List.map_map]
  show (concreteNoOp.map (fun c => c) ++ ["PalMapObjectDeathDroppedCharacterModel", "PalMapObjectConvertItemModel",
    "PalMapObjectPickupItemOnLevelModel", "PalMapObjectDropItemModel", "PalMapObjectItemDropOnDamagModel",
    "PalMapObjectDeathPenaltyStorageModel", "PalMapObjectDefenseBulletLauncherModel", "PalMapObjectGenerateEnergyModel",
    "PalMapObjectFarmBlockV2Model", "PalMapObjectFastTravelPointModel", "PalMapObjectShippingItemModel",
    "PalMapObjectProductItemModel", "PalMapObjectRecoverOtomoModel", "PalMapObjectHatchingEggModel",
    "PalMapObjectTreasureBoxModel", "PalMapObjectBreedFarmModel", "PalMapObjectSignboardModel", "PalMapObjectTorchModel",
    "PalMapObjectPalEggModel", "PalMapObjectBaseCampPoint"]).Nodup
  decide +kernel

def farmClass : String := "PalMapObjectFarmBlockV2Model"

/-- Classes other than farm blocks. -/
theorem concrete_known {an : Bool} {rec : R Val} {E : Layout} {o : PyStr} {c : String} {raw : Val} {f : List (String × Layout)}
    {x : List (String × R Val)} (hc : concreteClass? o = some c) (hb : concreteBody an rec c = some (rDict x))
    (hm : (c, f) ∈ concretePlain an E) (hx : ReadsL x f) (hf : c ≠ farmClass) :
    Shows (concreteDecode an rec (.str o) raw) (fun b v => ShowsConcrete an E raw b (.str o) v) := by
  have e : concreteDecode an rec (.str o) raw = rWholeFor (concreteRows c ++ x) := by
    rw [concrete_eq hc hb, rWholeFor_append]
  have hh : ReadsL (concreteRows c) [("instance_id", .guid), ("model_instance_id", .guid),
    ("concrete_model_type", .always (.str (P c)))] := by unfold concreteRows; rows
  rw [e]
  refine shows_congr (rWholeFor_shows (hh.append hx)) fun b v => ?_
  constructor
  · exact fun h => .known hc (List.mem_append_left _ hm) h
  · intro h
    cases h with
    | @known _ c' f' _ h1 h2 h3 =>
      rw [hc] at h1
      cases h1
      rcases List.mem_append.1 h2 with h2 | h2
      · rw [nodup_row (concretePlain_nodup an E) hm h2]; exact h3
      · cases List.mem_singleton.1 h2; exact absurd rfl hf
    | unknown h1 => exact absurd rfl (h1 c hc _ (List.mem_append_left _ hm))

theorem fields_rest_nil {f : List (String × Layout)} {g : Layout} {k : String} {s : Bytes} {v : Val} :
    whole (f ++ [(k, g)]) s v ↔ ∃ l s' x, Layout.fields f s l s' ∧ g s' x [] ∧ v = vDict (l ++ [(k, x)]) := by
  unfold whole Layout.record
  constructor
  · rintro ⟨l, h, rfl⟩
    obtain ⟨l1, s', l2, h1, ⟨x, s2, l3, h2, ⟨rfl, rfl⟩, rfl⟩, rfl⟩ := fields_append.1 h
    exact ⟨l1, s', x, h1, h2, rfl⟩
  · rintro ⟨l, s', x, h1, h2, rfl⟩
    exact ⟨_, fields_append.2 ⟨l, s', _, h1, ⟨x, [], [], h2, ⟨rfl, rfl⟩, rfl⟩, rfl⟩, rfl⟩

def farmRows (an : Bool) : List (String × R Val) :=
  [("crop_data_id", rStr), ("current_state", rUV 1), ("crop_progress_rate_value", rFloat an), ("water_stack_rate_value", rFloat an)]

theorem farm_eq (an : Bool) : cmFarm an = (do
    let d ← rDict (farmRows an)
    let st ← cmFarmState an
    return d ++ st) := by
  simp only [cmFarm, rDict, farmRows, rFields, rUV, bind_assoc, pure_bind]
  rfl

theorem vDict_append (a b : List (String × Val)) : vDict (a ++ b) = .dict ((a.map fun kv => (P kv.1, kv.2)) ++ b.map fun kv => (P kv.1, kv.2)) := by
  rw [vDict, List.map_append]

theorem concrete_farm {an : Bool} {rec : R Val} {E : Layout} {o : PyStr} {raw : Val} (hc : concreteClass? o = some farmClass) :
    Shows (concreteDecode an rec (.str o) raw) (fun b v => ShowsConcrete an E raw b (.str o) v) := by
  have hb : concreteBody an rec farmClass = some (cmFarm an) := by
    unfold concreteBody
    rw [if_neg (by unfold farmClass; decide +kernel)]
    simp only [farmClass, String.reduceEq, if_true, if_false]
  have hh : ReadsL (concreteRows farmClass ++ farmRows an) ([("instance_id", .guid), ("model_instance_id", .guid),
    ("concrete_model_type", .always (.str (P farmClass)))] ++ farmFields an) := by
    refine ReadsL.append ?_ ?_
    · unfold concreteRows; rows
    · unfold farmRows farmFields; rows
  have hs : Reads (rRecord [("growup_required_time", rFloat an), ("growup_progress_time", rFloat an)])
    (.record [("growup_required_time", .f32 an), ("growup_progress_time", .f32 an)]) := by rows
  have e : concreteDecode an rec (.str o) raw = (do
      let l ← rFields (concreteRows farmClass ++ farmRows an)
      let st ← cmFarmState an
      rCheckEofFor
      return .dict ((l.map fun kv => (P kv.1, kv.2)) ++ st)) := by
    rw [concrete_eq hc hb, farm_eq]
    simp only [rDict, rFields_append, bind_assoc, pure_bind, List.map_append, List.append_assoc]
  have hst : cmFarmState an = (do
      let e ← rEof
      if e then return []
      else do
        let v ← rRecord [("growup_required_time", rFloat an), ("growup_progress_time", rFloat an)]
        return [(P "state_machine", v)]) := by
    simp only [cmFarmState, rRecord, rFields, bind_assoc, pure_bind]
  have m1 : (farmClass, farmFields an) ∈ concretePlain an E := by
    unfold concretePlain farmClass
    refine List.mem_append_right _ ?_
    row
  have key : ∀ b v, ShowsConcrete an E raw b (.str o) v ↔ ∃ s' l, Layout.fields ([("instance_id", .guid), ("model_instance_id", .guid),
      ("concrete_model_type", .always (.str (P farmClass)))] ++ farmFields an) b l s' ∧
      (s' = [] ∧ v = vDict l ∨ ∃ x, Layout.record [("growup_required_time", .f32 an), ("growup_progress_time", .f32 an)] s' x [] ∧
        v = vDict (l ++ [("state_machine", x)])) := by
    intro b v
    constructor
    · intro h
      cases h with
      | @known _ c' f' _ h1 h2 h3 =>
        rw [hc] at h1
        cases h1
        rcases List.mem_append.1 h2 with h2 | h2
        · rw [nodup_row (concretePlain_nodup an E) h2 m1] at h3
          obtain ⟨l, h3, rfl⟩ := h3
          exact ⟨[], l, h3, .inl ⟨rfl, rfl⟩⟩
        · cases List.mem_singleton.1 h2
          rw [← List.append_assoc] at h3
          obtain ⟨l, s', x, h4, h5, rfl⟩ := fields_rest_nil.1 h3
          exact ⟨s', l, h4, .inr ⟨x, h5, rfl⟩⟩
      | unknown h1 => exact absurd rfl (h1 _ hc _ (List.mem_append_left _ m1))
    · rintro ⟨s', l, h1, ⟨rfl, rfl⟩ | ⟨x, h2, rfl⟩⟩
      · exact .known hc (List.mem_append_left _ m1) ⟨l, h1, rfl⟩
      · refine .known hc (List.mem_append_right _ (List.mem_singleton.2 rfl)) ?_
        rw [← List.append_assoc]
        exact fields_rest_nil.2 ⟨l, s', x, h1, h2, rfl⟩
  intro b v
  show _ ↔ ShowsConcrete an E raw b (.str o) v
  rw [key, e]
  simp only [r_bind_iff, r_pure_iff, rFields_iff hh, rCheckEofFor_iff]
  constructor
  · rintro ⟨rest, l, s1, h1, st, s2, h2, _, s3, ⟨rfl, rfl⟩, rfl, rfl⟩
    rw [hst] at h2
    obtain ⟨_, s4, h3, h4⟩ := r_bind_inv h2
    cases h3
    refine ⟨s1, l, h1, ?_⟩
    cases s1 with
    | nil =>
      obtain ⟨rfl, -⟩ := r_pure_inv h4
      exact .inl ⟨rfl, by rw [List.append_nil]; rfl⟩
    | cons y t =>
      obtain ⟨x, s5, h5, h6⟩ := r_bind_inv h4
      obtain ⟨rfl, rfl⟩ := r_pure_inv h6
      exact .inr ⟨x, (hs _ _ _).1 h5, by rw [vDict_append]; rfl⟩
  · rintro ⟨s1, l, h1, ⟨rfl, rfl⟩ | ⟨x, h2, rfl⟩⟩
    · exact ⟨[], l, [], h1, [], [], rfl, (), [], ⟨rfl, rfl⟩, by rw [List.append_nil]; rfl, rfl⟩
    · refine ⟨[], l, s1, h1, [(P "state_machine", x)], [], ?_, (), [], ⟨rfl, rfl⟩, by rw [vDict_append]; rfl, rfl⟩
      rw [hst]
      have h2 := (hs _ _ _).2 h2
      cases s1 with
      | nil =>
        exfalso
        simp only [rRecord, rFields, bind_assoc, pure_bind] at h2
        obtain ⟨_, _, h3, _⟩ := r_bind_inv h2
        cases h3
      | cons y t =>
        show (do
          let v ← rRecord [("growup_required_time", rFloat an), ("growup_progress_time", rFloat an)]
          return [(P "state_machine", v)] : R Dict) (y :: t) = _
        rw [r_bind_ok h2]
        rfl

/-- The chain of tests goes through the table. -/
theorem concrete_table {an : Bool} {rec : R Val} {E : Layout} (hE : Reads rec E) (c : String) : c = farmClass ∨
    (∃ f x, (c, f) ∈ concretePlain an E ∧ ReadsL x f ∧ concreteBody an rec c = some (rDict x)) ∨
    (concreteBody an rec c = none ∧ ∀ e ∈ concreteFields an E, e.1 ≠ c) := by
  unfold concreteBody
  by_cases h0 : c ∈ concreteNoOp
  · rw [if_pos h0]
    refine .inr (.inl ⟨[], [], ?_, .nil, rfl⟩)
    exact List.mem_append_left _ (List.mem_map.2 ⟨c, h0, rfl⟩)
  rw [if_neg h0]
  by_cases h9 : c = farmClass
  · exact .inl h9
  refine .inr ?_
  have i := itemAndNum_reads
  by_cases h1 : c = "PalMapObjectDeathDroppedCharacterModel"
  · rw [if_pos h1, h1]
    exact .inl ⟨_, [("stored_parameter_id", rGuid), ("owner_player_uid", rGuid)], List.mem_append_right _ (by row), by rows,
      congrArg some (by simp only [cmDropped, rDict, rFields, bind_assoc, pure_bind]; rfl)⟩
  rw [if_neg h1]
  by_cases h2 : c = "PalMapObjectConvertItemModel"
  · rw [if_pos h2, h2]
    exact .inl ⟨_, [("current_recipe_id", rStr), ("remain_product_num", rIV 4), ("requested_product_num", rIV 4),
      ("work_speed_additional_rate", rFloat an)], List.mem_append_right _ (by row), by rows,
      congrArg some (by simp only [cmConvert, rDict, rFields, rIV, bind_assoc, pure_bind]; rfl)⟩
  rw [if_neg h2]
  by_cases h3 : c = "PalMapObjectPickupItemOnLevelModel"
  · rw [if_pos h3, h3]
    exact .inl ⟨_, [("auto_picked_up", rFlagV 4)], List.mem_append_right _ (by row), by rows,
      congrArg some (by simp only [pickupBase, rDict, rFields, rFlagV, bind_assoc, pure_bind]; rfl)⟩
  rw [if_neg h3]
  by_cases h4 : c = "PalMapObjectDropItemModel"
  · rw [if_pos h4, h4]
    have := itemId_reads
    exact .inl ⟨_, [("auto_picked_up", rFlagV 4), ("item_id", rRecord [("static_id", rStr),
      ("dynamic_id", rRecord [("created_world_id", rGuid), ("local_id_in_created_world", rGuid)])])],
      List.mem_append_right _ (by row), by rows,
      congrArg some (by simp only [cmDropItem, pickupBase, rDict, rRecord, rFields, rFlagV, bind_assoc, pure_bind]; rfl)⟩
  rw [if_neg h4]
  by_cases h5 : c = "PalMapObjectItemDropOnDamagModel"
  · rw [if_pos h5, h5]
    exact .inl ⟨_, [("drop_item_infos", rTArray itemAndNumDecode)], List.mem_append_right _ (by row), by rows,
      congrArg some (by simp only [one, rDict, rFields, bind_assoc, pure_bind]; rfl)⟩
  rw [if_neg h5]
  by_cases h6 : c = "PalMapObjectDeathPenaltyStorageModel"
  · rw [if_pos h6, h6]
    exact .inl ⟨_, [("owner_player_uid", rGuid)], List.mem_append_right _ (by row), by rows,
      congrArg some (by simp only [one, rDict, rFields, bind_assoc, pure_bind]; rfl)⟩
  rw [if_neg h6]
  by_cases h7 : c = "PalMapObjectDefenseBulletLauncherModel"
  · rw [if_pos h7, h7]
    exact .inl ⟨_, [("remaining_bullets", rIV 4), ("magazine_size", rIV 4), ("bullet_item_name", rStr)],
      List.mem_append_right _ (by row), by rows,
      congrArg some (by simp only [cmBullet, rDict, rFields, rIV, bind_assoc, pure_bind]; rfl)⟩
  rw [if_neg h7]
  by_cases h8 : c = "PalMapObjectGenerateEnergyModel"
  · rw [if_pos h8, h8]
    exact .inl ⟨_, [("stored_energy_amount", rFloat an)], List.mem_append_right _ (by row), by rows,
      congrArg some (by simp only [one, rDict, rFields, bind_assoc, pure_bind]; rfl)⟩
  rw [if_neg h8, if_neg (show ¬ c = "PalMapObjectFarmBlockV2Model" from h9)]
  by_cases h10 : c = "PalMapObjectFastTravelPointModel"
  · rw [if_pos h10, h10]
    exact .inl ⟨_, [("location_instance_id", rGuid)], List.mem_append_right _ (by row), by rows,
      congrArg some (by simp only [one, rDict, rFields, bind_assoc, pure_bind]; rfl)⟩
  rw [if_neg h10]
  by_cases h11 : c = "PalMapObjectShippingItemModel"
  · rw [if_pos h11, h11]
    exact .inl ⟨_, [("shipping_hours", rTArray (rIV 4))], List.mem_append_right _ (by row), by rows,
      congrArg some (by simp only [one, rDict, rFields, bind_assoc, pure_bind]; rfl)⟩
  rw [if_neg h11]
  by_cases h12 : c = "PalMapObjectProductItemModel"
  · rw [if_pos h12, h12]
    exact .inl ⟨_, [("work_speed_additional_rate", rFloat an), ("product_item_id", rStr)], List.mem_append_right _ (by row), by rows,
      congrArg some (by simp only [cmProduct, rDict, rFields, bind_assoc, pure_bind]; rfl)⟩
  rw [if_neg h12]
  by_cases h13 : c = "PalMapObjectRecoverOtomoModel"
  · rw [if_pos h13, h13]
    exact .inl ⟨_, [("recover_amount_by_sec", rFloat an)], List.mem_append_right _ (by row), by rows,
      congrArg some (by simp only [one, rDict, rFields, bind_assoc, pure_bind]; rfl)⟩
  rw [if_neg h13]
  by_cases h14 : c = "PalMapObjectHatchingEggModel"
  · rw [if_pos h14, h14]
    exact .inl ⟨_, [("hatched_character_save_parameter", rec), ("unknown_bytes", rUV 4), ("hatched_character_guid", rGuid)],
      List.mem_append_right _ (by row), by rows,
      congrArg some (by simp only [cmHatch, rDict, rFields, rUV, bind_assoc, pure_bind]; rfl)⟩
  rw [if_neg h14]
  by_cases h15 : c = "PalMapObjectTreasureBoxModel"
  · rw [if_pos h15, h15]
    exact .inl ⟨_, [("treasure_grade_type", rUV 1)], List.mem_append_right _ (by row), by rows,
      congrArg some (by simp only [one, rByteVal, rByte, rDict, rFields, rUV, bind_assoc, pure_bind]; rfl)⟩
  rw [if_neg h15]
  by_cases h16 : c = "PalMapObjectBreedFarmModel"
  · rw [if_pos h16, h16]
    exact .inl ⟨_, [("spawned_egg_instance_ids", rTArray rGuid)], List.mem_append_right _ (by row), by rows,
      congrArg some (by simp only [one, rDict, rFields, bind_assoc, pure_bind]; rfl)⟩
  rw [if_neg h16]
  by_cases h17 : c = "PalMapObjectSignboardModel"
  · rw [if_pos h17, h17]
    exact .inl ⟨_, [("signboard_text", rStr)], List.mem_append_right _ (by row), by rows,
      congrArg some (by simp only [one, rDict, rFields, bind_assoc, pure_bind]; rfl)⟩
  rw [if_neg h17]
  by_cases h18 : c = "PalMapObjectTorchModel"
  · rw [if_pos h18, h18]
    exact .inl ⟨_, [("extinction_date_time", rIV 8)], List.mem_append_right _ (by row), by rows,
      congrArg some (by simp only [one, rI64Val, rDict, rFields, rIV, bind_assoc, pure_bind]; rfl)⟩
  rw [if_neg h18]
  by_cases h19 : c = "PalMapObjectPalEggModel"
  · rw [if_pos h19, h19]
    exact .inl ⟨_, [("unknown_bytes", rUV 4)], List.mem_append_right _ (by row), by rows,
      congrArg some (by simp only [one, rU32Val, rDict, rFields, rUV, bind_assoc, pure_bind]; rfl)⟩
  rw [if_neg h19]
  by_cases h20 : c = "PalMapObjectBaseCampPoint"
  · rw [if_pos h20, h20]
    exact .inl ⟨_, [("base_camp_id", rGuid)], List.mem_append_right _ (by row), by rows,
      congrArg some (by simp only [one, rDict, rFields, bind_assoc, pure_bind]; rfl)⟩
  rw [if_neg h20]
  refine .inr ⟨rfl, ?_⟩
  intro e he hc
  unfold concreteFields concretePlain at he
  rcases List.mem_append.1 he with he | he
  · rcases List.mem_append.1 he with he | he
    · obtain ⟨x, hx, rfl⟩ := List.mem_map.1 he
      exact h0 (hc ▸ hx)
    · have he := List.mem_map_of_mem (f := Prod.fst) he
      rw [hc] at he
      simp only [List.map_cons, List.map_nil, List.mem_cons, List.not_mem_nil, or_false] at he
      rcases he with he | he | he | he | he | he | he | he | he | he | he | he | he | he | he | he | he | he | he | he
      exacts [h1 he, h2 he, h3 he, h4 he, h5 he, h6 he, h7 he, h8 he, h9 he, h10 he, h11 he, h12 he, h13 he, h14 he, h15 he,
        h16 he, h17 he, h18 he, h19 he, h20 he]
  · cases List.mem_singleton.1 he; exact h9 hc.symm

theorem concrete_shows {an : Bool} {rec : R Val} {E : Layout} (hE : Reads rec E) (oid raw : Val) :
    Shows (concreteDecode an rec oid raw) (fun b v => ShowsConcrete an E raw b oid v) := by
  cases oid with
  | str o =>
    have kept : (∀ c, concreteClass? o = some c → ∀ e ∈ concreteFields an E, e.1 ≠ c) → ∀ {b v},
        ShowsConcrete an E raw b (.str o) v ↔ v = keptAs raw := by
      intro hn b v
      constructor
      · intro h
        cases h with
        | known h1 h2 => exact absurd rfl (hn _ h1 _ h2)
        | unknown => rfl
      · rintro rfl; exact .unknown hn
    cases hc : concreteClass? o with
    | none =>
      intro b v
      show _ ↔ ShowsConcrete an E raw b (.str o) v
      rw [kept (by rw [hc]; nofun)]
      unfold concreteDecode
      dsimp only
      rw [hc]
      constructor
      · rintro ⟨rest, h⟩; exact (r_pure_inv h).1
      · rintro rfl; exact ⟨b, rfl⟩
    | some c =>
      rcases concrete_table (an := an) hE c with rfl | ⟨f, x, h1, h2, h3⟩ | ⟨h1, h2⟩
      · exact concrete_farm hc
      · by_cases hf : c = farmClass
        · subst hf; exact concrete_farm hc
        · exact concrete_known hc h3 h1 h2 hf
      · intro b v
        show _ ↔ ShowsConcrete an E raw b (.str o) v
        rw [kept (by rw [hc]; rintro _ ⟨⟩; exact h2)]
        unfold concreteDecode
        dsimp only
        rw [hc]
        dsimp only
        rw [h1]
        constructor
        · rintro ⟨rest, h⟩
          obtain ⟨_, _, _, h⟩ := r_bind_inv h
          obtain ⟨_, _, _, h⟩ := r_bind_inv h
          exact (r_pure_inv h).1
        · rintro rfl; exact ⟨_, rfl⟩
  | _ =>
    intro b v
    constructor
    · rintro ⟨rest, h⟩; cases h
    · intro h; cases h

/-! ### characters -/

theorem character_shows {rec : R Val} {E : Layout} (hE : Reads rec E) : Shows (characterDecode rec)
    (whole [("object", E), ("unknown_bytes", .bytes 4), ("group_id", .guid)]) := by
  have e : characterDecode rec = rWhole [("object", rec), ("unknown_bytes", rByteList 4), ("group_id", rGuid)] := by flat
  rw [e]; refine rWhole_shows ?_; rows

/-! ### dynamic items -/

/-- The error that `try_read_egg` raises again. -/
def eofErr : Err := .exc "Warning: EOF not reached"

theorem r_bind_err {α β : Type} {x : R α} {f : α → R β} {s : Bytes} {e : Err} :
    (x >>= f) s = .error e ↔ x s = .error e ∨ ∃ a s', x s = .ok (a, s') ∧ f a s' = .error e := by
  show R.bind x f s = _ ↔ _
  unfold R.bind
  cases x s with
  | error e' => simp
  | ok r => obtain ⟨a, s'⟩ := r; simp

def NoEof {α : Type} (x : R α) : Prop := ∀ s, x s ≠ .error eofErr

theorem noEof_bind {α β : Type} {x : R α} {f : α → R β} (hx : NoEof x) (hf : ∀ a, NoEof (f a)) : NoEof (x >>= f) := by
  intro s h
  rcases r_bind_err.1 h with h | ⟨a, s', _, h⟩
  · exact hx _ h
  · exact hf _ _ h

theorem noEof_str : NoEof rStr := by
  have p : ∀ {α} (a : α), NoEof (pure a : R α) := fun _ _ => nofun
  have rd : ∀ k, NoEof (rRead k) := fun _ _ => nofun
  refine noEof_bind (noEof_bind (fun s => ?_) fun n => ?_) fun _ => p _
  · unfold rI32 rSigned; split <;> nofun
  split
  · exact p _
  · split <;> refine noEof_bind (rd _) fun b => ?_ <;> split
    · exact p _
    · exact fun _ h => absurd (Err.exc.inj (Except.error.inj h)) (by decide)
    · exact p _
    · exact fun _ h => absurd (Err.exc.inj (Except.error.inj h)) (by decide)

/-- The fields of an egg, before the end is checked. -/
def eggRows (rec : R Val) : List (String × R Val) :=
  [("type", pure (.str (P "egg"))), ("character_id", rStr), ("object", rec), ("unknown_bytes", rByteList 4), ("unknown_id", rGuid)]

theorem egg_eq (rec : R Val) : eggDecode rec = (do
    let l ← rFields (eggRows rec)
    rCheckEof
    return l.map fun kv => (P kv.1, kv.2)) := by
  simp only [eggDecode, eggRows, rFields, bind_assoc, pure_bind]
  rfl

theorem eggRows_reads {rec : R Val} {E : Layout} (hE : Reads rec E) : ReadsL (eggRows rec) (eggFields E) := by
  unfold eggRows eggFields; rows

theorem checkEof_err {s : Bytes} {e : Err} : rCheckEof s = .error e ↔ s ≠ [] ∧ e = eofErr := by
  cases s with
  | nil => exact ⟨nofun, fun h => absurd rfl h.1⟩
  | cons x t => exact ⟨fun h => by cases h; exact ⟨nofun, rfl⟩, fun h => by rw [h.2]; rfl⟩

theorem eggRows_err {rec : R Val} {s : Bytes} :
    rFields (eggRows rec) s = .error eofErr ↔ ∃ t s', Text s t s' ∧ rec s' = .error eofErr := by
  have hb : NoEof (rByteList 4) := by intro s; unfold rByteList; split <;> nofun
  have hg : NoEof rGuid := fun _ => nofun
  have hp : ∀ {α} (a : α), NoEof (pure a : R α) := fun _ _ => nofun
  simp only [eggRows, rFields, bind_assoc, pure_bind]
  rw [r_bind_err]
  have ht : ∀ {a s'}, rStr s = .ok (a, s') ↔ ∃ t, Text s t s' ∧ a = .str t := rStr_reads _ _ _
  constructor
  · rintro (h | ⟨a, s', h1, h2⟩)
    · exact absurd h (noEof_str _)
    · obtain ⟨t, h3, rfl⟩ := ht.1 h1
      refine ⟨t, s', h3, ?_⟩
      rcases r_bind_err.1 h2 with h | ⟨_, _, _, h⟩
      · exact h
      · exact absurd h (noEof_bind hb (fun _ => noEof_bind hg fun _ => hp _) _)
  · rintro ⟨t, s', h1, h2⟩
    exact .inr ⟨_, s', ht.2 ⟨t, h1, rfl⟩, r_bind_err.2 (.inl h2)⟩

theorem egg_err {rec : R Val} {E : Layout} (hE : Reads rec E) {s : Bytes} : eggDecode rec s = .error eofErr ↔
    (∃ t s', Text s t s' ∧ rec s' = .error eofErr) ∨ ∃ l rest, Layout.fields (eggFields E) s l rest ∧ rest ≠ [] := by
  rw [egg_eq, r_bind_err, eggRows_err]
  refine or_congr Iff.rfl ?_
  simp only [r_bind_err, rFields_iff (eggRows_reads hE), checkEof_err, and_true]
  constructor
  · rintro ⟨l, s', h1, h2 | ⟨_, _, _, h⟩⟩
    · exact ⟨l, s', h1, h2⟩
    · cases h
  · rintro ⟨l, s', h1, h2⟩; exact ⟨l, s', h1, .inl h2⟩

theorem egg_ok {rec : R Val} {E : Layout} (hE : Reads rec E) {s rest : Bytes} {d : Dict} : eggDecode rec s = .ok (d, rest) ↔
    ∃ l, Layout.fields (eggFields E) s l [] ∧ d = (l.map fun kv => (P kv.1, kv.2)) ∧ rest = [] := by
  rw [egg_eq]
  simp only [r_bind_iff, rFields_iff (eggRows_reads hE), rCheckEof_iff, r_pure_iff]
  constructor
  · rintro ⟨l, s', h1, _, _, ⟨rfl, rfl⟩, rfl, rfl⟩; exact ⟨l, h1, rfl, rfl⟩
  · rintro ⟨l, h1, rfl, rfl⟩; exact ⟨l, [], h1, (), [], ⟨rfl, rfl⟩, rfl, rfl⟩

theorem noFuel_egg {rec : R Val} (h : NoFuel rec) : NoFuel (eggDecode rec) := by
  unfold eggDecode
  refine noFuel_bind noFuel_str fun _ => noFuel_bind h fun _ => noFuel_bind ?_ fun _ => noFuel_bind noFuel_guid fun _ =>
    noFuel_bind ?_ fun _ => noFuel_pure _
  · intro s; unfold rByteList; split <;> nofun
  · intro s; unfold rCheckEof; split <;> nofun

/-- What `try_read_egg` gives: the egg, or None with the position restored. -/
theorem tryEgg_iff {rec : R Val} {E : Layout} {F : Bytes → Prop} (hE : Reads rec E) (hF : ∀ s, F s ↔ rec s = .error eofErr)
    (hn : NoFuel rec) {s rest : Bytes} {o : Option Dict} : tryEgg rec s = .ok (o, rest) ↔
    (∃ l, Layout.fields (eggFields E) s l [] ∧ o = some (l.map fun kv => (P kv.1, kv.2)) ∧ rest = []) ∨
    ((∀ l r, ¬ Layout.fields (eggFields E) s l r) ∧ (∀ t s', Text s t s' → ¬ F s') ∧ o = none ∧ rest = s) := by
  unfold tryEgg
  rw [← eofErr]
  rw [rTry_iff (noFuel_bind (noFuel_egg hn) fun _ => noFuel_pure _)]
  refine or_congr ?_ ?_
  · simp only [r_bind_iff, r_pure_iff, egg_ok hE]
    constructor
    · rintro ⟨_, _, ⟨l, h, rfl, rfl⟩, rfl, rfl⟩; exact ⟨l, h, rfl, rfl⟩
    · rintro ⟨l, h, rfl, rfl⟩; exact ⟨_, _, ⟨l, h, rfl, rfl⟩, rfl, rfl⟩
  · have hx : ∀ e, (eggDecode rec >>= fun d => pure (some d)) s = .error e ↔ eggDecode rec s = .error e := by
      intro e
      rw [r_bind_err]
      exact ⟨fun h => h.elim id fun ⟨_, _, _, h⟩ => (nomatch h), .inl⟩
    constructor
    · rintro ⟨e, h1, h2⟩
      rw [hx] at h1
      by_cases c : e = eofErr
      · rw [if_pos c] at h2; cases h2
      · rw [if_neg c] at h2
        obtain ⟨rfl, rfl⟩ := r_pure_inv h2
        have ne : ¬ eggDecode rec rest = .error eofErr := by rw [h1]; exact fun h => c (Except.error.inj h)
        rw [egg_err hE] at ne
        push Not at ne
        refine ⟨fun l r h => ?_, fun t s' h h' => ne.1 t s' h ((hF _).1 h'), rfl, rfl⟩
        have h0 := ne.2 l r h
        subst h0
        have := (egg_ok hE).2 ⟨l, h, rfl, rfl⟩
        rw [h1] at this; cases this
    · rintro ⟨h1, h2, rfl, rfl⟩
      cases he : eggDecode rec rest with
      | ok r =>
        obtain ⟨d, r⟩ := r
        obtain ⟨l, h, _⟩ := (egg_ok hE).1 he
        exact absurd h (h1 _ _)
      | error e =>
        refine ⟨e, (hx e).2 he, ?_⟩
        rw [if_neg]
        · rfl
        · rintro rfl
          rcases (egg_err hE).1 he with ⟨t, s', h, h'⟩ | ⟨l, r, h, _⟩
          · exact h2 _ _ h ((hF _).2 h')
          · exact h1 _ _ h

theorem rest_eq {t : List (String × R Val)} {f : List (String × Layout)} (h : ReadsL t f) {s rest : Bytes} {d : Dict} :
    (do let l ← rFields t; rCheckEof; return l.map fun kv => (P kv.1, kv.2) : R Dict) s = .ok (d, rest) ↔
      ∃ l, Layout.fields f s l [] ∧ d = (l.map fun kv => (P kv.1, kv.2)) ∧ rest = [] := by
  simp only [r_bind_iff, rFields_iff h, rCheckEof_iff, r_pure_iff]
  constructor
  · rintro ⟨l, s', h1, _, _, ⟨rfl, rfl⟩, rfl, rfl⟩; exact ⟨l, h1, rfl, rfl⟩
  · rintro ⟨l, h1, rfl, rfl⟩; exact ⟨l, [], h1, (), [], ⟨rfl, rfl⟩, rfl, rfl⟩

theorem armor_iff {an : Bool} {s rest : Bytes} {d : Dict} : armorDecode an s = .ok (d, rest) ↔
    ∃ l, Layout.fields (armorFields an) s l [] ∧ d = (l.map fun kv => (P kv.1, kv.2)) ∧ rest = [] := by
  have e : armorDecode an = (do
      let l ← rFields [("type", pure (.str (P "armor"))), ("durability", rFloat an)]
      rCheckEof
      return l.map fun kv => (P kv.1, kv.2)) := by
    simp only [armorDecode, rFields, bind_assoc, pure_bind]; rfl
  rw [e]
  exact rest_eq (by unfold armorFields; rows)

theorem weapon_iff {an : Bool} {s rest : Bytes} {d : Dict} : weaponDecode an s = .ok (d, rest) ↔
    ∃ l, Layout.fields (weaponFields an) s l [] ∧ d = (l.map fun kv => (P kv.1, kv.2)) ∧ rest = [] := by
  have e : weaponDecode an = (do
      let l ← rFields [("type", pure (.str (P "weapon"))), ("durability", rFloat an), ("remaining_bullets", rIV 4),
        ("passive_skill_list", rTArray rStr)]
      rCheckEof
      return l.map fun kv => (P kv.1, kv.2)) := by
    simp only [weaponDecode, rFields, rIV, bind_assoc, pure_bind]; rfl
  rw [e]
  exact rest_eq (by unfold weaponFields; rows)

theorem noFuel_weapon (an : Bool) : NoFuel (weaponDecode an) := by
  unfold weaponDecode
  refine noFuel_bind (noFuel_float _) fun _ => noFuel_bind (noFuel_signed _) fun _ => noFuel_bind (noFuel_array noFuel_str) fun _ =>
    noFuel_bind ?_ fun _ => noFuel_pure _
  intro s; unfold rCheckEof; split <;> nofun

theorem trailer_iff {s rest : Bytes} {d : Dict} : trailerDecode s = .ok (d, rest) ↔
    ∃ l, Layout.fields otherFields s l [] ∧ d = (l.map fun kv => (P kv.1, kv.2)) ∧ rest = [] := by
  have e : trailerDecode s = .ok ([(P "type", .str (P "unknown")), (P "trailer", intsOf s)], []) := rfl
  rw [e]
  unfold otherFields
  simp only [Layout.fields, Layout.always, Layout.toEnd]
  constructor
  · intro h; cases h
    exact ⟨_, ⟨_, _, _, ⟨rfl, rfl⟩, ⟨_, _, _, ⟨rfl, rfl⟩, ⟨rfl, rfl⟩, rfl⟩, rfl⟩, rfl, rfl⟩
  · rintro ⟨_, ⟨_, _, _, ⟨rfl, rfl⟩, ⟨_, _, _, ⟨rfl, rfl⟩, ⟨rfl, _⟩, rfl⟩, rfl⟩, rfl, rfl⟩
    rfl

theorem dynamicRest_iff {an : Bool} {rec : R Val} {E : Layout} {F : Bytes → Prop} (hE : Reads rec E)
    (hF : ∀ s, F s ↔ rec s = .error eofErr) (hn : NoFuel rec) {s rest : Bytes} {d : Dict} : dynamicRest an rec s = .ok (d, rest) ↔
    ∃ f l, ItemFields an E F s f ∧ Layout.fields f s l [] ∧ d = (l.map fun kv => (P kv.1, kv.2)) ∧ rest = [] := by
  unfold dynamicRest
  simp only [r_bind_iff, tryEgg_iff hE hF hn]
  constructor
  · rintro ⟨o, s1, ⟨l, h1, rfl, rfl⟩ | ⟨h1, h2, rfl, rfl⟩, n, s2, h3, h4⟩
    · cases h3
      obtain ⟨rfl, rfl⟩ := r_pure_inv h4
      exact ⟨_, l, .egg ⟨l, h1⟩, h1, rfl, rfl⟩
    · cases h3
      dsimp only at h4
      by_cases c : s1.length = 4
      · rw [if_pos c, armor_iff] at h4
        obtain ⟨l, h5, h6⟩ := h4
        exact ⟨_, l, .armor h1 h2 c, h5, h6⟩
      · rw [if_neg c, rTry_iff (noFuel_weapon an)] at h4
        rcases h4 with h4 | ⟨e, h4, h5⟩
        · obtain ⟨l, h5, h6⟩ := weapon_iff.1 h4
          exact ⟨_, l, .weapon h1 h2 c ⟨l, h5⟩, h5, h6⟩
        · obtain ⟨l, h6, h7⟩ := trailer_iff.1 h5
          refine ⟨_, l, .other h1 h2 c ?_, h6, h7⟩
          rintro ⟨l', h8⟩
          rw [weapon_iff.2 ⟨l', h8, rfl, rfl⟩] at h4
          cases h4
  · rintro ⟨f, l, h, h5, rfl, rfl⟩
    cases h with
    | egg => exact ⟨_, _, .inl ⟨l, h5, rfl, rfl⟩, _, _, rfl, rfl⟩
    | armor h1 h2 c =>
      refine ⟨none, s, .inr ⟨h1, h2, rfl, rfl⟩, _, _, rfl, ?_⟩
      dsimp only
      rw [if_pos c]
      exact armor_iff.2 ⟨l, h5, rfl, rfl⟩
    | weapon h1 h2 c =>
      refine ⟨none, s, .inr ⟨h1, h2, rfl, rfl⟩, _, _, rfl, ?_⟩
      dsimp only
      rw [if_neg c, rTry_iff (noFuel_weapon an)]
      exact .inl (weapon_iff.2 ⟨l, h5, rfl, rfl⟩)
    | other h1 h2 c h3 =>
      refine ⟨none, s, .inr ⟨h1, h2, rfl, rfl⟩, _, _, rfl, ?_⟩
      dsimp only
      rw [if_neg c, rTry_iff (noFuel_weapon an)]
      refine .inr ?_
      obtain ⟨e, he⟩ := (error_iff (x := weaponDecode an) (s := s)).2 fun d r h => by
        obtain ⟨l', h', _⟩ := weapon_iff.1 h
        exact h3 ⟨l', h'⟩
      exact ⟨e, he, trailer_iff.2 ⟨l, h5, rfl, rfl⟩⟩

theorem item_shows {an : Bool} {rec : R Val} {E : Layout} {F : Bytes → Prop} (hE : Reads rec E)
    (hF : ∀ s, F s ↔ rec s = .error eofErr) (hn : NoFuel rec) : Shows (dynamicItemDecode an rec) (ShowsItem an E F) := by
  have e : dynamicIdDecode = rRecord [("created_world_id", rGuid), ("local_id_in_created_world", rGuid), ("static_id", rStr)] := by flat
  have hi : Reads dynamicIdDecode (.record [("created_world_id", .guid), ("local_id_in_created_world", .guid), ("static_id", .text)]) := by
    rw [e]; rows
  intro b v
  unfold dynamicItemDecode ShowsItem
  simp only [r_bind_iff, hi _ _ _, dynamicRest_iff hE hF hn, r_pure_iff]
  constructor
  · rintro ⟨rest, id, s, h1, d, _, ⟨f, l, h2, h3, rfl, rfl⟩, rfl, rfl⟩
    exact ⟨id, s, f, l, h1, h2, h3, rfl⟩
  · rintro ⟨id, s, f, l, h1, h2, h3, rfl⟩
    exact ⟨[], id, s, h1, _, _, ⟨f, l, h2, h3, rfl, rfl⟩, rfl, rfl⟩

end Pal
