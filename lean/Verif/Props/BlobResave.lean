import Verif.Spec.Resave
import Verif.Lemmas.StableBlobs5
import Verif.Lemmas.StableFoliage
import Verif.Props.Resave
import Verif.Props.Nested
/-
C40 (raw-data blobs): what a decoder accepts can be encoded again, with the exceptions.
C52: encoding again is stable, and never longer.
-/

set_option linter.unusedSimpArgs false

namespace Pal
open Spec

theorem encodes_of_st {q : Prop} {dec : R Val} {enc : Val → Except Err Bytes} (h : St q dec enc) : Encodes dec enc :=
  fun s v rest hs hd => by
    obtain ⟨b, hb, -⟩ := h s v rest hs hd
    exact ⟨b, hb⟩

theorem stable_of_st {dec : R Val} {enc : Val → Except Err Bytes} (h : St True dec enc) : Stable dec enc := by
  intro s v rest b hs hd hb
  obtain ⟨b', hb', hl, hk⟩ := h s v rest hs hd
  rw [hb] at hb'
  cases hb'
  exact ⟨back_end (hk trivial), by omega⟩

/-- C40: every blob accepted by these decoders can be encoded again, with or without
`allow_nan`. -/
theorem C40_blobs (an : Bool) (gt mt : Val) :
    Encodes (groupDecode gt) groupEncode ∧
    Encodes itemContainerDecode itemContainerEncode ∧
    Encodes (itemContainerSlotsDecode an) itemContainerSlotsEncode ∧
    Encodes charContainerDecode charContainerEncode ∧
    Encodes foliageModelDecode foliageModelEncode ∧
    Encodes (baseCampDecode an) baseCampEncode ∧
    Encodes (workerDirectorDecode an) workerDirectorEncode ∧
    Encodes workCollectionDecode workCollectionEncode ∧
    Encodes (mapModelDecode an) mapModelEncode ∧
    Encodes buildProcessDecode buildProcessEncode ∧
    Encodes (concreteModuleDecode mt) (concreteModuleEncode mt) ∧
    Encodes workAssignBytesDecode workAssignBytesEncode ∧
    Encodes connectorDecode connectorEncode := by
  refine ⟨encodes_of_st (q := False) (st_group gt), encodes_of_st (q := False) st_itemContainer,
    encodes_of_st (q := False) (st_itemContainerSlots (fun h => h.elim)),
    encodes_of_st (q := False) st_charContainer, encodes_of_st (q := False) st_foliageModel,
    encodes_of_st (q := False) (st_baseCamp (fun h => h.elim)),
    encodes_of_st (q := False) (st_workerDirector (fun h => h.elim)), encodes_of_st (q := False) st_workCollection,
    encodes_of_st (q := False) (st_mapModel (fun h => h.elim)), encodes_of_st (q := False) st_buildProcess,
    encodes_of_st (q := False) (st_module mt), encodes_of_st (q := False) st_workAssignBytes, fun s v rest hs h => ?_⟩
  obtain ⟨b, hb, -⟩ := connector_resave (q := False) hs h
  exact ⟨b, hb⟩

/-- C52: encoding again what one of these decoders returned gives bytes that decode to the same
value, and that are not longer than the blob. -/
theorem C52_blobs (gt mt : Val) :
    Stable (groupDecode gt) groupEncode ∧
    Stable itemContainerDecode itemContainerEncode ∧
    Stable (itemContainerSlotsDecode true) itemContainerSlotsEncode ∧
    Stable charContainerDecode charContainerEncode ∧
    Stable foliageModelDecode foliageModelEncode ∧
    Stable (baseCampDecode true) baseCampEncode ∧
    Stable (workerDirectorDecode true) workerDirectorEncode ∧
    Stable workCollectionDecode workCollectionEncode ∧
    Stable (mapModelDecode true) mapModelEncode ∧
    Stable buildProcessDecode buildProcessEncode ∧
    Stable (concreteModuleDecode mt) (concreteModuleEncode mt) ∧
    Stable workAssignBytesDecode workAssignBytesEncode ∧
    Stable connectorDecode connectorEncode := by
  refine ⟨stable_of_st (st_group gt), stable_of_st st_itemContainer, stable_of_st (st_itemContainerSlots (fun _ => rfl)),
    stable_of_st st_charContainer, stable_of_st st_foliageModel, stable_of_st (st_baseCamp (fun _ => rfl)),
    stable_of_st (st_workerDirector (fun _ => rfl)), stable_of_st st_workCollection,
    stable_of_st (st_mapModel (fun _ => rfl)), stable_of_st st_buildProcess, stable_of_st (st_module mt),
    stable_of_st st_workAssignBytes, fun s v rest b hs h hb => ?_⟩
  obtain ⟨b', hb', hl, hk⟩ := connector_resave (q := True) hs h
  rw [hb] at hb'
  cases hb'
  exact ⟨hk trivial, hl⟩

/-- A flag stored as 7 is written back as 1: the blob decodes, and its canonical form differs. -/
def oddAssign (f : UInt8) : Bytes := List.replicate 54 0 ++ [f, 0, 0, 0]

set_option maxRecDepth 20000 in
theorem oddAssign_decodes : ∃ v, workAssignBytesDecode (oddAssign 7) = .ok (v, []) ∧ workAssignBytesEncode v = .ok (oddAssign 1) :=
  ⟨_, rfl, rfl⟩

/-- A name stored as UTF-16 although it is ASCII: the canonical form is shorter. -/
def oddFoliage : Bytes := [254, 255, 255, 255, 65, 0, 0, 0] ++ List.replicate 25 1

set_option maxRecDepth 20000 in
theorem oddFoliage_decodes : ∃ v, foliageModelDecode oddFoliage = .ok (v, []) ∧
    foliageModelEncode v = .ok ([2, 0, 0, 0, 65, 0] ++ List.replicate 25 1) := ⟨_, rfl, rfl⟩

example : ∃ v, workAssignBytesDecode (oddAssign 7) = .ok (v, []) ∧ workAssignBytesDecode (oddAssign 1) = .ok (v, []) := by
  obtain ⟨v, h1, h2⟩ := oddAssign_decodes
  obtain ⟨-, -, -, -, -, -, -, -, -, -, -, h, -⟩ := C52_blobs .none .none
  exact ⟨v, h1, (h _ v [] _ (by decide) h1 h2).1⟩

example : ∃ v, foliageModelDecode oddFoliage = .ok (v, []) ∧ ∃ b, foliageModelEncode v = .ok b := by
  obtain ⟨v, h1, -⟩ := oddFoliage_decodes
  obtain ⟨-, -, -, -, h, -⟩ := C40_blobs false .none .none
  exact ⟨v, h1, h _ v [] (by decide) h1⟩

/-! ### base camp modules -/

/-- C40: a base camp module is kept as its bytes or can be encoded again. -/
theorem C40_camp (an : Bool) (mt raw : Val) (s : Bytes) (v : Val) (rest : Bytes) (hs : s.length < 2 ^ 32)
    (h : campModuleDecode an mt raw s = .ok (v, rest)) :
    v = dct [("values", raw)] ∨ ∃ b, campModuleEncode mt v = .ok b := by
  rcases camp_resave (q := False) (fun h => h.elim) mt raw hs h with h | ⟨b, hb, -⟩
  · exact .inl h
  · exact .inr ⟨b, hb⟩

/-- C52 for base camp modules. -/
theorem C52_camp (mt raw raw' : Val) (s : Bytes) (v : Val) (rest : Bytes) (hs : s.length < 2 ^ 32)
    (h : campModuleDecode true mt raw s = .ok (v, rest)) (hv : v ≠ dct [("values", raw)]) (b : Bytes)
    (hb : campModuleEncode mt v = .ok b) :
    (∃ rest', campModuleDecode true mt raw' b = .ok (v, rest')) ∧ b.length ≤ s.length := by
  rcases camp_resave (q := True) (fun _ => rfl) mt raw hs h with h | ⟨b', hb', hl, hk⟩
  · exact absurd h hv
  · rw [hb] at hb'
    cases hb'
    exact ⟨hk trivial raw', hl⟩

/-! ### work data -/

theorem workTransformEncode_values (raw : Val) : workTransformEncode (dct [("values", raw)]) = .error .key := by
  have hn : ∀ k, (vDict []).get k = .error .key := fun _ => rfl
  simp only [workTransformEncode, wAt, List.map_cons, List.map_nil, Val.path, dct_eq, get_vDict_cons, hn, String.reduceEq,
    ↓reduceIte]

theorem wcat_error2 {x : Except Err Bytes} (h : ∃ e, x = .error e) (y : Except Err Bytes) :
    ∃ e, wcat [y, x] = .error e := by
  obtain ⟨e, rfl⟩ := h
  cases y with
  | ok b => exact ⟨e, by rw [wcat_ok_cons]; rfl⟩
  | error e' => exact ⟨e', rfl⟩

theorem workTransformEncode_raw {v : Val} (h : RawTransform v) : ∃ e, workTransformEncode v = .error e := by
  obtain ⟨⟨t, ht, h1, h2, h3⟩, l, hl⟩ := h
  unfold workTransformEncode
  have i1 : (Val.int (t : Int)).isI 1 = false := by simp only [Val.isI, decide_eq_false_iff_not]; omega
  have i2 : (Val.int (t : Int)).isI 2 = false := by simp only [Val.isI, decide_eq_false_iff_not]; omega
  have i3 : (Val.int (t : Int)).isI 3 = false := by simp only [Val.isI, decide_eq_false_iff_not]; omega
  unfold wAt
  simp only [List.map_cons, List.map_nil, ht, hl, wRaw]
  rw [i1, i2, i3]
  simp only [Bool.false_eq_true, ↓reduceIte]
  exact wcat_error2 ⟨_, rfl⟩ _

/-- C40: work data can be encoded again unless its type is not parsed or its transform is of an
unknown type, and then it cannot. -/
theorem C40_work (an : Bool) (wt raw : Val) (s : Bytes) (v : Val) (rest : Bytes) (hs : s.length < 2 ^ 32)
    (h : workDecode an wt raw s = .ok (v, rest)) :
    (∃ b, workEncode wt v = .ok b) ↔
      ¬ ((wt.isAny workBaseTypes || wt.isAny workAssignTypes) = false ∨ RawTransform v) := by
  have key := work_resave (q := False) (fun h => h.elim) wt raw hs h
  have e1 : RawTransform v → ∃ e, workEncode wt v = .error e := fun hr =>
    wcat_error2 (workTransformEncode_raw hr) _
  have e2 : (wt.isAny workBaseTypes || wt.isAny workAssignTypes) = false → v = dct [("values", raw)] := fun hu => by
    unfold workDecode at h
    cases wt with
    | list | dict => cases h
    | _ =>
      simp only [hu, Bool.false_eq_true, ↓reduceIte] at h
      exact (r_pure_inv h).1
  constructor
  · rintro ⟨b, hb⟩ (hu | hr)
    · obtain ⟨e, he⟩ : ∃ e, workEncode wt v = .error e := by
        rw [e2 hu]
        exact wcat_error2 ⟨_, workTransformEncode_values raw⟩ _
      rw [hb] at he
      cases he
    · obtain ⟨e, he⟩ := e1 hr
      rw [hb] at he
      cases he
  · intro hn
    rcases key with ⟨hu, -⟩ | hr | ⟨b, hb, -⟩
    · exact absurd (.inl hu) hn
    · exact absurd (.inr hr) hn
    · exact ⟨b, hb⟩

/-- C52 for work data. -/
theorem C52_work (wt raw raw' : Val) (s : Bytes) (v : Val) (rest : Bytes) (hs : s.length < 2 ^ 32)
    (h : workDecode true wt raw s = .ok (v, rest)) (b : Bytes) (hb : workEncode wt v = .ok b) :
    workDecode true wt raw' b = .ok (v, []) ∧ b.length ≤ s.length := by
  have hn := (C40_work true wt raw s v rest hs h).1 ⟨b, hb⟩
  rcases work_resave (q := True) (fun _ => rfl) wt raw hs h with ⟨hu, -⟩ | hr | ⟨b', hb', hl, hk⟩
  · exact absurd (.inl hu) hn
  · exact absurd (.inr hr) hn
  · rw [hb] at hb'
    cases hb'
    exact ⟨hk trivial raw', hl⟩

/-- An Assign work whose transform is of type `t`. -/
def oddWork (f t : UInt8) : Bytes := List.replicate 54 0 ++ [f, 0, 0, 0, t] ++ List.replicate 16 5

def assignType : Val := .str (P "EPalWorkableType::Assign")

set_option maxRecDepth 20000 in
theorem oddWork_decodes : ∃ v, workDecode true assignType .none (oddWork 9 2) = .ok (v, []) ∧
    workEncode assignType v = .ok (oddWork 9 2) := ⟨_, rfl, rfl⟩

example : ∃ v, workDecode true assignType .none (oddWork 9 2) = .ok (v, []) := by
  obtain ⟨v, h1, h2⟩ := oddWork_decodes
  exact ⟨v, (C52_work assignType .none .none _ v [] (by decide) h1 _ h2).1⟩

set_option maxRecDepth 20000 in
/-- C40: a transform of type 4 is read and cannot be written. -/
theorem C40_work_transform : ∃ v e, workDecode true assignType .none (oddWork 9 4) = .ok (v, []) ∧
    workEncode assignType v = .error e := ⟨_, .type, rfl, rfl⟩

set_option maxRecDepth 20000 in
/-- C40: work of a type that is not parsed is read and cannot be written. -/
theorem C40_work_unknown : ∃ v e, workDecode true (.str (P "EPalWorkableType::Illegal")) (.list []) [] = .ok (v, []) ∧
    workEncode (.str (P "EPalWorkableType::Illegal")) v = .error e := ⟨_, .key, rfl, rfl⟩

/-! ### connectors -/

/-- C40: an empty connector blob decodes, and the result cannot be encoded. -/
theorem C40_connector_empty :
    connectorBlob (.list []) = .ok (dct [("values", .list [])]) ∧
      ∃ e, noneOr connectorEncode (dct [("values", .list [])]) = .error e := ⟨rfl, .key, rfl⟩

/-! ### blobs with embedded objects -/

/-- `lambda p: writer.properties(p)` with a fresh writer, as in `FArchiveWriter(); …; bytes()`. -/
def writeObject (o : Val) : Except Err Bytes := bytesOf (o.rank + 1) o

/-- The property lists that the reader returns are written, stably, or have a non-empty array
of GUIDs. -/
theorem recOk {q : Prop} (cfg : Cfg) (hcfg : cfg.allowNan = true) (hc : ∀ p, cfg.custom p = none) (n : Nat)
    (hn : 2 ^ 32 ≤ n) : RecOk q (rProps cfg n []) writeObject fun o => ∃ e, writeObject o = .error e := by
  intro s v s' hs h
  rcases read_tree hcfg hc hs h with ⟨ps, h1, h2, rfl, hl⟩ | hb
  · refine .inr ⟨encProps ps, ?_, hl, fun _ => .inl fun t => tree_read hcfg h1 h2 (by omega) n (by omega) t⟩
    exact bytesOf_ok.2 (tree_write cfg Cfg.empty h2 (by omega))
  · obtain ⟨e, he⟩ := badList_raises hb Cfg.empty (v.rank + 1)
    refine .inl ⟨e, ?_⟩
    unfold writeObject bytesOf
    rw [he]

/-- Encoding fails if writing the object does. -/
theorem character_bad {wp : Val → Except Err Bytes} {v : Val} (h : BadObject (fun o => ∃ e, wp o = .error e) "object" v) : ∃ e, characterEncode wp v = .error e := by
  obtain ⟨o, h1, e, h2⟩ := h
  refine ⟨e, ?_⟩
  unfold characterEncode wAt
  simp only [List.map_cons, List.map_nil, Val.path, h1, h2]
  rfl

/-- C40: a character blob can be encoded again unless the object in it has a non-empty array of
GUIDs, and then it cannot. -/
theorem C40_character (cfg : Cfg) (hcfg : cfg.allowNan = true) (hc : ∀ p, cfg.custom p = none) (n : Nat)
    (hn : 2 ^ 32 ≤ n) (s : Bytes) (v : Val) (rest : Bytes) (hs : s.length < 2 ^ 32)
    (h : characterDecode (rProps cfg n []) s = .ok (v, rest)) :
    (∃ b, characterEncode writeObject v = .ok b) ↔
      ¬ ∃ o, v.get (P "object") = .ok o ∧ ∃ d k p, Inside o (.dict d) ∧ (k, p) ∈ d ∧ GuidArray p := by
  obtain ⟨o, s1, h1, h2⟩ := r_bind_inv h
  have hv : v.get (P "object") = .ok o := by
    obtain ⟨u, s2, -, h3⟩ := r_bind_inv h2
    obtain ⟨g, s3, -, h4⟩ := r_bind_inv h3
    obtain ⟨_, s4, -, h5⟩ := r_bind_inv h4
    obtain ⟨rfl, -⟩ := r_pure_inv h5
    rw [dct_eq, get_vDict_cons, if_pos rfl]
  have key := C40_list cfg Cfg.empty hcfg hc n [] s s1 hs o h1
  have hw : (∃ b w, wProps (o.rank + 1) Cfg.empty o = .ok (b, w)) ↔ ∃ b, writeObject o = .ok b := by
    constructor
    · rintro ⟨b, w, e⟩
      exact ⟨b, bytesOf_ok.2 ⟨w, e⟩⟩
    · rintro ⟨b, e⟩
      obtain ⟨w, e⟩ := bytesOf_ok.1 e
      exact ⟨b, w, e⟩
  have hb : (∃ b, characterEncode writeObject v = .ok b) ↔ ∃ b, writeObject o = .ok b := by
    constructor
    · rintro ⟨b, e⟩
      cases hx : writeObject o with
      | ok b => exact ⟨b, rfl⟩
      | error e' =>
        obtain ⟨e'', he⟩ := character_bad ⟨o, hv, e', hx⟩
        rw [e] at he
        cases he
    · rintro ⟨b, e⟩
      rcases chain_character (q := False) (recOk cfg hcfg hc n hn) s v rest hs h with ⟨o', h3, e', h4⟩ | ⟨b', hb', -⟩
      · rw [hv] at h3
        cases h3
        rw [e] at h4
        cases h4
      · exact ⟨_, hb'⟩
  rw [hb, ← hw, key]
  constructor
  · rintro hk ⟨o', h3, h4⟩
    rw [hv] at h3
    cases h3
    exact hk h4
  · exact fun hk h4 => hk ⟨o, hv, h4⟩

/-- C52 for characters. -/
theorem C52_character (cfg : Cfg) (hcfg : cfg.allowNan = true) (hc : ∀ p, cfg.custom p = none) (n : Nat)
    (hn : 2 ^ 32 ≤ n) : Stable (characterDecode (rProps cfg n [])) (characterEncode writeObject) := by
  intro s v rest b hs h hb
  rcases chain_character (q := True) (recOk cfg hcfg hc n hn) s v rest hs h with hx | ⟨b', hb', hl, hk⟩
  · obtain ⟨e, he⟩ := character_bad hx
    rw [hb] at he
    cases he
  · rw [hb] at hb'
    cases hb'
    rw [List.nil_append]
    exact ⟨back_end (hk trivial), by omega⟩

/-- A character with one Boolean property, stored as `x`. -/
def oddCharacter (x : UInt8) : Bytes :=
  [2, 0, 0, 0, 65, 0, 13, 0, 0, 0, 66, 111, 111, 108, 80, 114, 111, 112, 101, 114, 116, 121, 0] ++ List.replicate 8 0 ++ [x, 0] ++
    [5, 0, 0, 0, 78, 111, 110, 101, 0] ++ List.replicate 20 3

set_option maxRecDepth 20000 in
theorem oddCharacter_decodes (n : Nat) : ∃ v, characterDecode (rProps Cfg.empty (n + 2) []) (oddCharacter 7) = .ok (v, []) ∧
    characterEncode writeObject v = .ok (oddCharacter 1) := ⟨_, rfl, rfl⟩

example : ∃ v, characterDecode (rProps Cfg.empty (2 ^ 32 + 2) []) (oddCharacter 1) = .ok (v, []) := by
  obtain ⟨v, h1, h2⟩ := oddCharacter_decodes (2 ^ 32)
  exact ⟨v, (C52_character Cfg.empty rfl (fun _ => rfl) _ (by omega) _ v [] _ (by decide) h1 h2).1⟩

example : ∃ v : Val, ¬ ∃ o, v.get (P "object") = .ok o ∧ ∃ d k p, Inside o (.dict d) ∧ (k, p) ∈ d ∧ GuidArray p := by
  obtain ⟨v, h1, h2⟩ := oddCharacter_decodes (2 ^ 32)
  exact ⟨v, (C40_character Cfg.empty rfl (fun _ => rfl) _ (by omega) _ v [] (by decide) h1).1 ⟨_, h2⟩⟩

/-- C40: a concrete model is kept as its bytes, or has an embedded object that cannot be
written, or can be encoded again. -/
theorem C40_concrete (cfg : Cfg) (hcfg : cfg.allowNan = true) (hc : ∀ p, cfg.custom p = none) (n : Nat)
    (hn : 2 ^ 32 ≤ n) (oid raw : Val) (s : Bytes) (v : Val) (rest : Bytes) (hs : s.length < 2 ^ 32)
    (h : concreteDecode true (rProps cfg n []) oid raw s = .ok (v, rest)) :
    v = dct [("values", raw)] ∨
      (∃ o e, v.get (P "hatched_character_save_parameter") = .ok o ∧ writeObject o = .error e) ∨
      ∃ b, concreteEncode writeObject v = .ok b := by
  rcases concrete_resave (q := False) (fun h => h.elim) (recOk cfg hcfg hc n hn) oid raw hs h with h | h | ⟨b, hb, -⟩
  · exact .inl h
  · obtain ⟨⟨o, h1, e, h2⟩, -⟩ := h
    exact .inr (.inl ⟨o, e, h1, h2⟩)
  · exact .inr (.inr ⟨b, hb⟩)

/-- C52 for concrete models. -/
theorem C52_concrete (cfg : Cfg) (hcfg : cfg.allowNan = true) (hc : ∀ p, cfg.custom p = none) (n : Nat)
    (hn : 2 ^ 32 ≤ n) (oid raw raw' : Val) (s : Bytes) (v : Val) (rest : Bytes) (hs : s.length < 2 ^ 32)
    (h : concreteDecode true (rProps cfg n []) oid raw s = .ok (v, rest)) (hv : v ≠ dct [("values", raw)])
    (ho : ∀ o, v.get (P "hatched_character_save_parameter") = .ok o → ∃ b, writeObject o = .ok b) :
    ∃ b, concreteEncode writeObject v = .ok b ∧ concreteDecode true (rProps cfg n []) oid raw' b = .ok (v, []) ∧
      b.length ≤ s.length := by
  rcases concrete_resave (q := True) (fun _ => rfl) (recOk cfg hcfg hc n hn) oid raw hs h with
    h | ⟨⟨o, h1, e, h2⟩, -⟩ | ⟨b, hb, hl, hk⟩
  · exact absurd h hv
  · obtain ⟨b, hb⟩ := ho o h1
    rw [hb] at h2
    cases h2
  · exact ⟨b, hb, hk trivial raw', hl⟩

/-- A hatching egg whose character has one Boolean property, stored as `x`. -/
def oddHatching (x : UInt8) : Bytes := List.replicate 32 7 ++ oddCharacter x

set_option maxRecDepth 20000 in
theorem oddHatching_decodes (n : Nat) : ∃ v, concreteDecode true (rProps Cfg.empty (n + 2) []) (.str (P "HatchingPalEgg"))
    (.list []) (oddHatching 7) = .ok (v, []) ∧
      concreteEncode writeObject v = .ok (oddHatching 1) := by
  unfold concreteDecode
  simp only [hatching_id]
  exact ⟨_, rfl, rfl⟩

example := fun n (hn : 2 ^ 32 ≤ n + 2) => (oddHatching_decodes n).imp fun v h =>
  C40_concrete Cfg.empty rfl (fun _ => rfl) (n + 2) hn _ _ _ v [] (by decide) h.1

/-- C40: a dynamic item has an embedded object that cannot be written, or can be encoded again.
C52: the bytes are not longer, and they decode to the same value unless they are those of a
weapon and look like those of an egg. -/
theorem C40_dynamic (cfg : Cfg) (hcfg : cfg.allowNan = true) (hc : ∀ p, cfg.custom p = none) (n : Nat)
    (hn : 2 ^ 32 ≤ n) (s : Bytes) (v : Val) (rest : Bytes) (hs : s.length < 2 ^ 32)
    (h : dynamicItemDecode true (rProps cfg n []) s = .ok (v, rest)) :
    (∃ o e, v.get (P "object") = .ok o ∧ writeObject o = .error e) ∨
      ∃ b, dynamicItemEncode writeObject v = .ok b ∧ b.length ≤ s.length ∧
        (dynamicItemDecode true (rProps cfg n []) b = .ok (v, []) ∨
          ∃ i w, b = i ++ w ∧ ¬ NotEgg (rProps cfg n []) w ∧ ∃ d, weaponDecode true w = .ok (d, [])) := by
  have h0 : rProps cfg n [] [] = .error .struct := rPropsLoop_nil cfg (by omega) [] []
  obtain ⟨-, h | ⟨b, hb, hl, hk⟩⟩ := dynamic_resave (q := True) (fun _ => rfl) (recOk cfg hcfg hc n hn) h0 hs h
  · obtain ⟨o, h1, e, h2⟩ := h
    exact .inl ⟨o, e, h1, h2⟩
  · exact .inr ⟨b, hb, hl, hk trivial⟩

/-- Armor whose id is stored as UTF-16. -/
def oddArmor : Bytes := List.replicate 32 7 ++ [254, 255, 255, 255, 65, 0, 0, 0] ++ [0, 0, 128, 63]

set_option maxRecDepth 20000 in
theorem oddArmor_decodes (n : Nat) : ∃ v, dynamicItemDecode true (rProps Cfg.empty (n + 2) []) oddArmor = .ok (v, []) ∧
    dynamicItemEncode writeObject v = .ok (List.replicate 32 7 ++ [2, 0, 0, 0, 65, 0, 0, 0, 128, 63]) := ⟨_, rfl, rfl⟩

example := fun n (hn : 2 ^ 32 ≤ n + 2) => (oddArmor_decodes n).imp fun v h =>
  C40_dynamic Cfg.empty rfl (fun _ => rfl) (n + 2) hn _ v [] (by decide) h.1

/-! ### foliage instances -/

/-- C40: a foliage instance can be encoded again if no component of its location is null or NaN. -/
theorem C40_foliage (an : Bool) (s : Bytes) (v : Val) (rest : Bytes) (hs : s.length < 2 ^ 32)
    (h : foliageInstanceDecode an s = .ok (v, rest))
    (hv : ∀ k ∈ ["x", "y", "z"], ∀ c, v.path (["world_transform", "location", k].map P) = .ok c → ¬ NoNumber c) :
    ∃ b, foliageInstanceEncode v = .ok b := by
  rcases foliage_resave hs h with ⟨k, hk, c, hc, hn⟩ | h
  · exact absurd hn (hv k hk c hc)
  · exact h

/-- A foliage instance with NaN as the second component of its location. -/
def nanFoliage : Bytes := List.replicate 19 0 ++ [64, 0, 0, 0] ++ List.replicate 14 0 ++ [248, 127] ++ List.replicate 16 0

set_option maxRecDepth 20000 in
/-- C40: a foliage instance with NaN in its location is read and cannot be written. -/
theorem C40_foliage_nan : ∃ v e, foliageInstanceDecode true nanFoliage = .ok (v, []) ∧ foliageInstanceEncode v = .error e :=
  ⟨_, .value, rfl, rfl⟩

end Pal
