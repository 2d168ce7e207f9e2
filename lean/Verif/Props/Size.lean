import Verif.Lemmas.Size
import Verif.Lemmas.WeightPost
import Verif.Lemmas.Fields
import Verif.Props.Header
import Verif.Props.CustomResave
import Verif.Lemmas.Says
/-
C76: how large a document gets.
-/

namespace Pal
open Spec

/-- C76, with no decoder registered: a document holds at most two values for every byte of the file.  (Missing: the same with
decoders; see the counterexample.) -/
theorem C76_plain_partial {cfg : Cfg} (hc : ∀ p, cfg.custom p = none) {data : Bytes} {g : Gvas} (h : gvasRead cfg data = .ok g) :
    values g.dump ≤ 2 * data.length := Size.read_values hc h

/-- C76, with any decoders but those of groups and of map objects: a document holds at most eight values for every byte of the
file, however often its element counts lie.  (Missing: the factor two, and the two decoders, for which there is no bound; see the
counterexamples.) -/
theorem C76_decoders_partial {cfg : Cfg} (hc : ∀ p c, cfg.custom p = some c → c ≠ .group ∧ c ≠ .mapObject) {data : Bytes} {g : Gvas}
    (h : gvasRead cfg data = .ok g) : values g.dump ≤ 8 * data.length := Weight.read_values hc h

/-- The tool's table without the entries of groups and map objects is such a set of decoders, whatever else is left out. -/
theorem C76_palworld_partial {keep : String → Bool} {an : Bool} (hg : keep ".worldSaveData.GroupSaveDataMap" = false)
    (hm : keep ".worldSaveData.MapObjectSaveData" = false) {data : Bytes} {g : Gvas} (h : gvasRead (palCfg keep an) data = .ok g) :
    values g.dump ≤ 8 * data.length := by
  refine C76_decoders_partial (fun p c hp => ?_) h
  have hp : palCustom keep p = some c := hp
  unfold palCustom at hp
  cases hf : palCustoms.find? fun kv => keep kv.1 && P kv.1 = p with
  | none => rw [hf] at hp; cases hp
  | some kv =>
    rw [hf] at hp
    have hk := List.find?_some hf
    have hmem := List.mem_of_find?_eq_some hf
    rw [Bool.and_eq_true] at hk
    have hall : ∀ kv ∈ palCustoms, (kv.2.1 = .group → kv.1 = ".worldSaveData.GroupSaveDataMap") ∧
        (kv.2.1 = .mapObject → kv.1 = ".worldSaveData.MapObjectSaveData") := by decide +kernel
    obtain ⟨h1, h2⟩ := hall kv hmem
    cases hp
    refine ⟨fun e => ?_, fun e => ?_⟩
    · rw [h1 e, hg] at hk; cases hk.1
    · rw [h2 e, hm] at hk; cases hk.1

namespace Size

theorem values_pos (v : Val) : 1 ≤ values v := by
  cases v <;> simp [values]

theorem valuesD_dset_ge (d : Dict) (k : PyStr) (x : Val) : values x ≤ valuesD (dset d k x) := by
  induction d with
  | nil => simp [dset, valuesD]
  | cons a t ih =>
    obtain ⟨k', v'⟩ := a
    unfold dset
    split
    · simp [valuesD]
    · simp only [valuesD]; omega

theorem dget_values {d : Dict} {k : PyStr} {x : Val} (h : dget? d k = some x) : values x ≤ valuesD d := by
  induction d with
  | nil => cases h
  | cons a t ih =>
    obtain ⟨k', v'⟩ := a
    unfold dget? at h
    simp only [valuesD]
    split at h
    · cases h; omega
    · have := ih h; omega

theorem dget_dset_other (d : Dict) {k k' : PyStr} (x : Val) (h : k' ≠ k) : dget? (dset d k x) k' = dget? d k' := by
  induction d with
  | nil => simp [dset, dget?, Ne.symm h]
  | cons a t ih =>
    obtain ⟨k1, v1⟩ := a
    unfold dset
    split
    · rename_i e; subst e; simp [dget?, Ne.symm h]
    · simp only [dget?]; split
      · rfl
      · exact ih

theorem get_values {v x : Val} {k : PyStr} (h : v.get k = .ok x) : values x ≤ values v := by
  cases v with
  | dict d =>
    simp only [Val.get] at h
    split at h
    · cases h; rename_i e; have := dget_values e; simp only [values]; omega
    · cases h
  | _ => cases h

theorem get_after {v x y : Val} {k k' : PyStr} (h : v.get k' = .ok y) (hk : k' ≠ k) :
    ∃ v', v.set k x = .ok v' ∧ v'.get k' = .ok y := by
  cases v with
  | dict d => exact ⟨_, rfl, by simp only [Val.get] at h ⊢; rw [dget_dset_other _ _ hk]; exact h⟩
  | _ => cases h

theorem set_big {v x : Val} {k : PyStr} {z : Val} (h : v.get k = .ok z) :
    ∃ v', v.set k x = .ok v' ∧ values x ≤ values v' := by
  cases v with
  | dict d => exact ⟨_, rfl, by have := valuesD_dset_ge d k x; simp only [values]; omega⟩
  | _ => cases h

/-- An update makes the document as large as the value put in. -/
theorem upd_big {f : Val → Except Err Val} {x y : Val} : ∀ {ks : List PyStr} {v : Val}, v.path ks = .ok x → f x = .ok y →
    ∃ v', v.upd f ks = .ok v' ∧ values y ≤ values v'
  | [], v, h, hf => by cases h; exact ⟨y, hf, Nat.le_refl _⟩
  | k :: ks, v, h, hf => by
    unfold Val.path at h
    cases hz : v.get k with
    | error e => rw [hz] at h; cases h
    | ok z =>
      rw [hz] at h
      obtain ⟨z', h1, h2⟩ := upd_big h hf
      obtain ⟨v', h3, h4⟩ := set_big (x := z') hz
      refine ⟨v', ?_, by omega⟩
      unfold Val.upd
      rw [hz]
      simp only [h1, h3]

/-- Reading ids where no byte is left: each is an id of no bytes. -/
theorem ids_at_end (n : Nat) : ∃ l, rRepeat rInstanceId n [] = .ok (l, []) ∧ valuesL l = 3 * n := by
  induction n with
  | zero => exact ⟨[], rfl, rfl⟩
  | succ n ih =>
    obtain ⟨l, h1, h2⟩ := ih
    refine ⟨dct [("guid", .uuid []), ("instance_id", .uuid [])] :: l, ?_, ?_⟩
    · have h0 : rInstanceId [] = .ok (dct [("guid", .uuid []), ("instance_id", .uuid [])], []) := rfl
      rw [rRepeat, r_bind_ok h0, r_bind_ok h1]
      rfl
    · have : values (dct [("guid", .uuid []), ("instance_id", .uuid [])]) = 3 := rfl
      simp only [valuesL, this, h2]; omega

end Size

/-- The data of a group: an id, no name, and a number of members without the members. -/
def emptyHands (n : Nat) : Bytes := List.replicate 20 0 ++ lit 4 n

theorem hands_decode (n : Nat) (hn : n < 2 ^ 32) :
    ∃ v, groupDecode (.str (P "EPalGroupType::Neutral")) (emptyHands n) = .ok (v, []) ∧ 3 * n < values v := by
  obtain ⟨l, h1, h2⟩ := Size.ids_at_end n
  have e1 : rGuid (emptyHands n) = .ok (.uuid (List.replicate 16 0), [0, 0, 0, 0] ++ lit 4 n) := rfl
  have e2 : rStr ([0, 0, 0, 0] ++ lit 4 n) = .ok (.str [], lit 4 n) := rfl
  have e3 : rTArray rInstanceId (lit 4 n) = .ok (.list l, []) := by
    have := rUnsigned_lit 4 n (by omega) []
    rw [List.append_nil] at this
    rw [rTArray, r_bind_ok (show rU32 (lit 4 n) = .ok (n, []) from this), r_bind_ok h1]
    rfl
  have e4 : (Val.str (P "EPalGroupType::Neutral")).isAny orgTypes = false := by decide +kernel
  have e5 : (Val.str (P "EPalGroupType::Neutral")).isAny guildTypes = false := by decide +kernel
  have e6 : (Val.str (P "EPalGroupType::Neutral")).isS "EPalGroupType::IndependentGuild" = false := by decide +kernel
  have e7 : (Val.str (P "EPalGroupType::Neutral")).isS "EPalGroupType::Guild" = false := by decide +kernel
  refine ⟨.dict [(P "group_type", .str (P "EPalGroupType::Neutral")), (P "group_id", .uuid (List.replicate 16 0)),
    (P "group_name", .str []), (P "individual_character_handle_ids", .list l)], ?_, ?_⟩
  · rw [groupDecode, r_bind_ok e1, r_bind_ok e2, r_bind_ok e3, e4, e5, e6, e7]
    rfl
  · simp only [values, valuesD, h2]; omega

/-- C76 fails for the decoder of groups: for every `n` that fits in four bytes there are 24 bytes it accepts, from which it makes
more than `3 * n` values. -/
theorem C76_group_counterexample (n : Nat) (hn : n < 2 ^ 32) : ∃ data : Bytes, data.length = 24 ∧
    ∃ v, groupDecode (.str (P "EPalGroupType::Neutral")) data = .ok (v, []) ∧ 3 * n < values v :=
  ⟨emptyHands n, rfl, hands_decode n hn⟩

/-- The bytes of a map of groups with one entry, of no known kind. -/
def handsMap (n : Nat) : Bytes :=
  eLit "StructProperty" ++ eLit "StructProperty" ++ [0] ++ lit 4 0 ++ lit 4 1 ++ List.replicate 16 1 ++
  eLit "GroupType" ++ eLit "EnumProperty" ++ lit 8 0 ++ eLit "EPalGroupType" ++ [0] ++ eLit "EPalGroupType::Neutral" ++
  rawList (emptyHands n)

/-- The name under which the map is found: properties are looked up by their names with dots in between. -/
def handsName : String := "worldSaveData.GroupSaveDataMap"

/-- A save with that map. -/
def handsFile (n : Nat) : Bytes :=
  sampleHeader.enc ++ (eLit handsName ++ (eLit "MapProperty" ++ (lit 8 0 ++ (handsMap n ++ (eLit "None" ++ [0, 0, 0, 0])))))

/-- Ids where no byte is left. -/
theorem Size.guids_at_end (n : Nat) : ∃ l, rRepeat rGuid n [] = .ok (l, []) ∧ valuesL l = n := by
  induction n with
  | zero => exact ⟨[], rfl, rfl⟩
  | succ n ih =>
    obtain ⟨l, h1, h2⟩ := ih
    refine ⟨.uuid [] :: l, ?_, ?_⟩
    · rw [rRepeat, r_bind_ok (show rGuid [] = .ok (.uuid [], []) from rfl), r_bind_ok h1]
      rfl
    · simp only [valuesL, h2, values]; omega

/-- C76 fails for the decoder of map objects: for every `n` that fits in four bytes there are 36 bytes it accepts as a breeding
farm, from which it makes more than `n` values. -/
theorem C76_breeding_counterexample (n : Nat) (hn : n < 2 ^ 32) (an : Bool) (rec : R Val) (raw : Val) : ∃ data : Bytes,
    data.length = 36 ∧ ∃ v, concreteDecode an rec (.str (P "BreedFarm")) raw data = .ok (v, []) ∧ n < values v := by
  obtain ⟨l, h1, h2⟩ := Size.guids_at_end n
  have e1 : rGuid (List.replicate 32 0 ++ lit 4 n) = .ok (.uuid (List.replicate 16 0), List.replicate 16 0 ++ lit 4 n) := rfl
  have e2 : rGuid (List.replicate 16 0 ++ lit 4 n) = .ok (.uuid (List.replicate 16 0), lit 4 n) := rfl
  have e3 : rTArray rGuid (lit 4 n) = .ok (.list l, []) := by
    have := rUnsigned_lit 4 n (by omega) []
    rw [List.append_nil] at this
    rw [rTArray, r_bind_ok (show rU32 (lit 4 n) = .ok (n, []) from this), r_bind_ok h1]
    rfl
  have e4 : concreteClass? (P "BreedFarm") = some "PalMapObjectBreedFarmModel" := by decide +kernel
  have e5 : concreteBody an rec "PalMapObjectBreedFarmModel" = some (one "spawned_egg_instance_ids" (rTArray rGuid)) := by
    unfold concreteBody
    rw [if_neg (by decide +kernel)]
    simp
  refine ⟨List.replicate 32 0 ++ lit 4 n, rfl, .dict [(P "instance_id", .uuid (List.replicate 16 0)),
    (P "model_instance_id", .uuid (List.replicate 16 0)), (P "concrete_model_type", .str (P "PalMapObjectBreedFarmModel")),
    (P "spawned_egg_instance_ids", .list l)], ?_, ?_⟩
  · unfold concreteDecode
    simp only [e4]
    rw [r_bind_ok e1, r_bind_ok e2, e5]
    simp only
    rw [r_bind_ok (show one "spawned_egg_instance_ids" (rTArray rGuid) (lit 4 n) = .ok ([(P "spawned_egg_instance_ids", .list l)], []) from by
      rw [one, r_bind_ok e3]; rfl)]
    rfl
  · simp only [values, valuesD, h2]; omega

/-- The group in the map, as it is before the decoder has seen it. -/
def handsRead (n : Nat) (r : Except Err (Val × Bytes)) : Bool :=
  match r with
  | .ok (v, s) => s == eLit "None" ++ [0, 0, 0, 0] && match v.path [P "value"] with
    | .ok (.list [g]) => (match g.path (ks ["value", "GroupType", "value", "value"]) with
        | .ok t => t.isS "EPalGroupType::Neutral"
        | .error _ => false) && (match g.path (ks ["value", "RawData", "value"]) with
        | .ok w => match w.get (P "values") with
          | .ok b => match toBytes b with
            | .ok b => b == emptyHands n
            | .error _ => false
          | .error _ => false
        | .error _ => false)
    | _ => false
  | .error _ => false

/-- A group of which this holds is decoded to a large one. -/
theorem hands_big {n : Nat} (hn : n < 2 ^ 32) {cfg : Cfg} {rec : R Val} {r : Except Err (Val × Bytes)} (h : handsRead n r = true) :
    ∃ v v', r = .ok (v, eLit "None" ++ [0, 0, 0, 0]) ∧ CodecId.post .group cfg.allowNan rec v = .ok v' ∧
      ∃ y, v'.get (P "value") = .ok y ∧ 3 * n < values y := by
  unfold handsRead at h
  split at h
  · rename_i v s
    rw [Bool.and_eq_true] at h
    obtain ⟨hs, h⟩ := h
    have hs := eq_of_beq hs
    subst hs
    split at h
    · rename_i g hv
      rw [Bool.and_eq_true] at h
      obtain ⟨ht, hw⟩ := h
      split at ht
      · rename_i t ht'
        rw [isS_iff.1 ht] at ht'
        split at hw
        · rename_i w hw'
          split at hw
          · rename_i b hb
            split at hw
            · rename_i b' hb'
              have := eq_of_beq hw
              subst this
              obtain ⟨y, hy, hbig⟩ := hands_decode n hn
              have hf : onValues (fun b => runBlob b (groupDecode (.str (P "EPalGroupType::Neutral")))) w = .ok y := by
                unfold onValues
                rw [hb]
                simp only [runBlob, hb', hy]
              obtain ⟨g', hg', hbig'⟩ := Size.upd_big hw' hf
              have hp : groupPost1 g = .ok g' := by
                unfold groupPost1
                rw [ht']
                exact hg'
              have hl : forEach groupPost1 (.list [g]) = .ok (.list [g']) := by
                simp only [forEach, mapE, hp]
              simp only [Val.path] at hv
              cases hx : v.get (P "value") with
              | error e => rw [hx] at hv; cases hv
              | ok x =>
                rw [hx] at hv
                cases hv
                obtain ⟨v', hv', -⟩ := Size.set_big (x := .list [g']) hx
                refine ⟨v, v', rfl, ?_, .list [g'], get_set hv', ?_⟩
                · simp only [CodecId.post, Val.upd, hx, hl, hv']
                · simp only [values, valuesL]; omega
            · cases hw
          · cases hw
        · cases hw
      · cases ht
    · cases h
  · cases h

/-- The configuration with every decoder. -/
abbrev allCfg : Cfg := palCfg (fun _ => true) true

theorem rFString_lit {s : String} (h : StrOk (P s)) (rest : Bytes) : rFString (eLit s ++ rest) = .ok (P s, rest) :=
  rFString_enc (P s) rest h

theorem hands_file {n : Nat} (hn : n < 2 ^ 32) (hlen : (handsFile n).length = 442)
    (hb : handsRead n (rPlain allCfg (fun p => rPropsLoop allCfg 442 p []) (P "MapProperty") 0 ([] ++ dot ++ P handsName)
      (handsMap n ++ (eLit "None" ++ [0, 0, 0, 0]))) = true) :
    ∃ g, gvasRead allCfg (handsFile n) = .ok g ∧ 3 * n < values g.dump := by
  have hc : allCfg.custom ([] ++ dot ++ P handsName) = some .group := by decide +kernel
  obtain ⟨v, v1, h1, h2, y, hy, h3⟩ := hands_big (cfg := allCfg) (rec := rPropsLoop allCfg 442 [] []) hn hb
  obtain ⟨v2, h4, hy⟩ := Size.get_after (k := P "custom_type") (x := .str ([] ++ dot ++ P handsName)) hy (P_ne (by decide))
  obtain ⟨v3, h5, hy⟩ := Size.get_after (k := P "type") (x := .str (P "MapProperty")) hy (P_ne (by decide))
  have h6 := Size.get_values hy
  have hp : rPropsLoop allCfg 443 [] [] (eLit handsName ++ (eLit "MapProperty" ++ (lit 8 0 ++ (handsMap n ++
      (eLit "None" ++ [0, 0, 0, 0]))))) = .ok (.dict [(P handsName, v3)], [0, 0, 0, 0]) := by
    have hr : rProperty allCfg (fun p => rPropsLoop allCfg 442 p []) (P "MapProperty") 0 ([] ++ dot ++ P handsName)
        (handsMap n ++ (eLit "None" ++ [0, 0, 0, 0])) = .ok (v3, eLit "None" ++ [0, 0, 0, 0]) := by
      unfold rProperty
      rw [hc]
      simp only
      rw [if_pos (by decide +kernel), r_bind_ok h1, h2, r_bind_ok (show rLift (.ok _) _ = .ok (_, _) from rfl), h4, r_bind_ok (show rLift (.ok _) _ = .ok (_, _) from rfl), h5]
      rfl
    have hl : rPropsLoop allCfg 442 [] [(P handsName, v3)] (eLit "None" ++ [0, 0, 0, 0]) = .ok (.dict [(P handsName, v3)], [0, 0, 0, 0]) := by
      rw [rPropsLoop, r_bind_ok (rFString_lit (s := "None") (by decide +kernel) _), if_pos rfl]
      rfl
    rw [rPropsLoop, r_bind_ok (rFString_lit (s := handsName) (by decide +kernel) _), if_neg (P_ne (by decide)),
      r_bind_ok (rFString_lit (s := "MapProperty") (by decide +kernel) _),
      r_bind_ok (show rU64 (lit 8 0 ++ (handsMap n ++ (eLit "None" ++ [0, 0, 0, 0]))) = _ from rUnsigned_lit 8 0 (by decide) _),
      r_bind_ok hr]
    exact hl
  refine ⟨⟨hdrOf sampleHeader, .dict [(P handsName, v3)], [0, 0, 0, 0]⟩, ?_, ?_⟩
  · unfold gvasRead gvasReadR
    rw [hlen]
    unfold handsFile
    rw [r_bind_ok (hdrRead_enc _ _), r_bind_ok (show rProps allCfg 443 [] _ = _ from hp)]
    rfl
  · simp only [Gvas.dump, dct, List.map, values, valuesD]
    omega

set_option maxRecDepth 40000 in
/-- C76 fails with the decoders: there is a file of 442 bytes from which the reader makes more than twelve thousand million
values. -/
theorem C76_counterexample : ∃ data g, gvasRead allCfg data = .ok g ∧ data.length = 442 ∧ 12000000000 < values g.dump := by
  obtain ⟨g, h1, h2⟩ := hands_file (n := 4294967295) (by decide) (by decide +kernel) (by decide +kernel)
  exact ⟨_, g, h1, by decide +kernel, by omega⟩

set_option maxRecDepth 40000 in
/-- The theorem about plain reading is about real files, this one among them. -/
example : ∃ g, gvasRead (palCfg (fun _ => false) true) (handsFile 5) = .ok g ∧ 25 < values g.dump := by
  have h : (match gvasRead (palCfg (fun _ => false) true) (handsFile 5) with
    | .ok g => decide (25 < values g.dump)
    | .error _ => false) = true := by decide +kernel
  split at h
  · rename_i g hg; exact ⟨g, hg, of_decide_eq_true h⟩
  · cases h
set_option maxRecDepth 40000 in
/-- The theorem about decoders is about files whose blobs are decoded: here the access rights of a container. -/
example : ∃ g, gvasRead (palCfg (fun p => p == ".worldSaveData.ItemContainerSaveData.Value.RawData") true) (rightsFile 0 99 looseRights) = .ok g ∧
    (∃ x, g.properties.path (ks ["worldSaveData", "value", "ItemContainerSaveData", "value"]) = .ok (.list [x]) ∧
      x.path (ks ["value", "RawData", "value", "permission", "item_static_ids"]) = .ok (.list [.str (P "Ab")])) ∧
    values g.dump ≤ 8 * (rightsFile 0 99 looseRights).length := by
  have h : (match gvasRead (palCfg (fun p => p == ".worldSaveData.ItemContainerSaveData.Value.RawData") true) (rightsFile 0 99 looseRights) with
    | .ok g => match g.properties.path (ks ["worldSaveData", "value", "ItemContainerSaveData", "value"]) with
      | .ok (.list [x]) => match x.path (ks ["value", "RawData", "value", "permission", "item_static_ids"]) with
        | .ok (.list [.str s]) => decide (s = P "Ab")
        | _ => false
      | _ => false
    | .error _ => false) = true := by decide +kernel
  split at h
  · rename_i g hg
    split at h
    · rename_i x hx
      split at h
      · rename_i s hs
        rw [of_decide_eq_true h] at hs
        exact ⟨g, hg, ⟨x, hx, hs⟩, C76_palworld_partial (by decide) (by decide) hg⟩
      · cases h
    · cases h
  · cases h
example : ∀ p, (palCfg (fun _ => false) true).custom p = none := fun p => by simp [palCfg, palCustom]

end Pal
