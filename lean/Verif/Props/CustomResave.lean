import Verif.Lemmas.RedoTree
import Verif.Props.Sample
/-
C54: re-saving with custom decoders reaches a fixed point after one pass and never makes a
file longer.
-/

namespace Pal
open Spec

/-! ### property lists -/

/-- C54: let any bytes, canonical or not, be read with custom properties as in `CfgOk`.  If
the result can be written, then what was written is read back as the same (decoded) tree,
whatever follows it, and is not longer than what was read.  Writing that tree gives the same
bytes again, because it is the same tree. -/
theorem C54_list (cfg B : Cfg) (H : CfgOk cfg B) (n : Nat) (path : PyStr) (data rest : Bytes) (hd : data.length < 2 ^ 32)
    (hn : data.length < n) (v : Val) (h : rProps cfg n path data = .ok (v, rest)) (b : Bytes) (w : Val)
    (hw : wProps (v.rank + 1) B v = .ok (b, w)) :
    (∀ n' t, b.length < n' → rProps cfg n' path (b ++ t) = .ok (v, t)) ∧ b.length + rest.length ≤ data.length := by
  rcases read_treeC H hd hn h with ⟨ps, h1, h2, rfl, hl⟩ | hb
  · obtain ⟨w', h3⟩ := tree_writeC H h2 (by omega)
    rw [hw] at h3
    cases h3
    exact ⟨fun n' t hn => tree_readC H h1 h2 (by omega) n' hn t, hl⟩
  · obtain ⟨e, he⟩ := noWrite_raises hb (v.rank + 1)
    rw [hw] at he
    cases he

/-! ### files -/

theorem read_fileC {cfg B : Cfg} (H : CfgOk cfg B) {data : Bytes} (hd : data.length < 2 ^ 32) {g : Gvas}
    (h : gvasRead cfg data = .ok g) :
    (∃ (H : Header) (ps : Props rawMode), (ps.map Prod.fst).Nodup ∧ wfProps cfg (Fixed cfg B) [] ps ∧
      g = ⟨hdrOf H, .dict (valProps cfg (decK true cfg) [] ps), g.trailer⟩ ∧
      H.enc.length + (encProps ps).length + g.trailer.length ≤ data.length) ∨ BadList (NoWrite B) g.properties := by
  unfold gvasRead at h
  cases hr : gvasReadR cfg (data.length + 1) data with
  | error e => rw [hr] at h; cases h
  | ok q =>
    obtain ⟨g', s'⟩ := q
    rw [hr] at h
    cases h
    obtain ⟨hd', s1, h1, hr⟩ := r_bind_inv hr
    obtain ⟨v, s2, h2, hr⟩ := r_bind_inv hr
    obtain ⟨t, s3, h3, hr⟩ := r_bind_inv hr
    obtain ⟨rfl, rfl⟩ := r_pure_inv hr
    have ht : t = s2 := by cases h3; rfl
    subst ht
    have g1 := len_of_grow grow_hdr h1
    rcases read_treeC H (by omega) (by omega) h2 with ⟨ps, w1, w2, rfl, l2⟩ | hb
    · have h9 : 0 < (encProps ps).length := by
        cases ps with
        | nil => simp only [encProps, eLit_none]; omega
        | cons a t =>
          have := eStr_len a.1
          obtain ⟨nm, p⟩ := a
          simp only [encProps, List.length_append]
          simp only at this
          omega
      obtain ⟨H, rfl, l1⟩ := inv_hdr h1 (by omega) hd
      exact .inl ⟨H, ps, w1, w2, rfl, by simp only; omega⟩
    · exact .inr hb

/-- C54: a file of any bytes, canonical or not, that is read with custom properties: if it
can be written, reading what was written gives the same file object, and so writing again
gives the same bytes; and it has not become longer. -/
theorem C54_file (cfg B : Cfg) (H : CfgOk cfg B) (data : Bytes) (hd : data.length < 2 ^ 32) (g g' : Gvas)
    (h : gvasRead cfg data = .ok g) (b : Bytes) (hw : g.write B = .ok (b, g')) :
    (∃ g2, gvasRead cfg b = .ok g2 ∧ g2 = g ∧ g2.write B = .ok (b, g')) ∧ b.length ≤ data.length := by
  rcases read_fileC H hd h with ⟨Hd, ps, h1, h2, hg, hl⟩ | hb
  · obtain ⟨hh, hv, t⟩ := g
    simp only [Gvas.mk.injEq] at hg hl
    obtain ⟨rfl, rfl, -⟩ := hg
    obtain ⟨hb, pb, h3, h4, rfl, -⟩ := of_write hw
    rw [hdrWrite_of] at h3
    cases h3
    obtain ⟨w', h5⟩ := tree_writeC H h2 (by omega)
    simp only at h4
    rw [h4] at h5
    cases h5
    refine ⟨⟨_, ?_, rfl, hw⟩, by simp only [List.length_append]; omega⟩
    exact gvasRead_of fun n hn => tree_readC H h1 h2 (by omega) n hn t
  · obtain ⟨e, he⟩ := noWrite_raises hb (g.properties.rank + 1)
    obtain ⟨_, pb, -, h4, -, -⟩ := of_write hw
    rw [h4] at he
    cases he

/-! ### the tool's own tables -/

theorem pal_nest : ∀ e ∈ palCustoms, ∀ e' ∈ palCustoms, (P e.1 ++ dot).isPrefixOf (P e'.1) = false := by decide +kernel
theorem pal_inj : ∀ e ∈ palCustoms, ∀ e' ∈ palCustoms, e.2.1 = e'.2.1 → e.1 = e'.1 := by decide +kernel
theorem pal_steady : ∀ e ∈ palCustoms, e.1 ∉ [".worldSaveData.DynamicItemSaveData.DynamicItemSaveData.RawData",
    ".worldSaveData.FoliageGridSaveDataMap.Value.ModelMap.Value.InstanceDataMap.Value.RawData"] →
      e.2.1 ≠ .foliageModelInstance ∧ e.2.1 ≠ .dynamicItem := by decide +kernel

theorem palCustom_mem {keep : String → Bool} {p : PyStr} {c : CodecId} (h : palCustom keep p = some c) :
    ∃ e ∈ palCustoms, keep e.1 = true ∧ P e.1 = p ∧ e.2.1 = c := by
  simp only [palCustom, Option.map_eq_some_iff] at h
  obtain ⟨e, h1, rfl⟩ := h
  have h2 := List.find?_some h1
  simp only [Bool.and_eq_true, decide_eq_true_eq] at h2
  exact ⟨e, List.mem_of_find?_eq_some h1, h2.1, h2.2, rfl⟩

/-- The two entries of the table for which re-saving need not reach a fixed point. -/
def unsteady : List String := [".worldSaveData.DynamicItemSaveData.DynamicItemSaveData.RawData",
  ".worldSaveData.FoliageGridSaveDataMap.Value.ModelMap.Value.InstanceDataMap.Value.RawData"]

theorem palCfg_ok (keep : String → Bool) (hk : ∀ p ∈ unsteady, keep p = false) :
    CfgOk (palCfg keep true) (palCfg (fun _ => true) true) where
  nan := rfl
  nest := by
    intro p c h r
    cases hr : (palCfg keep true).custom (p ++ dot ++ r) with
    | none => rfl
    | some c' =>
      obtain ⟨e, he, -, rfl, -⟩ := palCustom_mem h
      obtain ⟨e', he', -, h', -⟩ := palCustom_mem hr
      have := pal_nest e he e' he'
      rw [h', Bool.eq_false_iff] at this
      exact absurd (List.isPrefixOf_iff_prefix.2 ⟨r, rfl⟩) this
  inj := by
    intro p q c hp hq
    obtain ⟨e, he, -, rfl, rfl⟩ := palCustom_mem hp
    obtain ⟨e', he', -, rfl, h⟩ := palCustom_mem hq
    rw [pal_inj e he e' he' h.symm]
  same := (palCfg_selects keep true).custom
  steady := by
    intro p c h
    obtain ⟨e, he, h1, rfl, rfl⟩ := palCustom_mem h
    exact pal_steady e he fun hm => by rw [hk _ hm] at h1; cases h1

/-- C54 with the tool's own tables: any selection of `--custom-properties` without the two
entries of `unsteady`; the writer knows the whole table. -/
theorem C54_palworld (keep : String → Bool) (hk : ∀ p ∈ unsteady, keep p = false) (data : Bytes) (hd : data.length < 2 ^ 32)
    (g g' : Gvas) (h : gvasRead (palCfg keep true) data = .ok g) (b : Bytes)
    (hw : g.write (palCfg (fun _ => true) true) = .ok (b, g')) :
    (∃ g2, gvasRead (palCfg keep true) b = .ok g2 ∧ g2 = g ∧ g2.write (palCfg (fun _ => true) true) = .ok (b, g')) ∧
      b.length ≤ data.length :=
  C54_file _ _ (palCfg_ok keep hk) data hd g g' h b hw

/-! ### examples

A file with the access rights of an item container, which are decoded.  It is not canonical:
the declared sizes of the struct and of the map are wrong, and a name in the decoded blob is
stored as UTF-16. -/

def steadyKeep (p : String) : Bool := decide (p ∉ unsteady)

theorem steadyKeep_ok : ∀ p ∈ unsteady, steadyKeep p = false := fun p h => by simp [steadyKeep, h]

/-- A file with the given sizes and blob. -/
def rightsFile (s1 s2 : UInt8) (blob : Bytes) : Bytes :=
  sampleHeader.enc ++ eLit "worldSaveData" ++ eLit "StructProperty" ++ [s1, 0, 0, 0, 0, 0, 0, 0] ++ eLit "PalWorldSaveData" ++
  List.replicate 16 5 ++ [0] ++
  eLit "ItemContainerSaveData" ++ eLit "MapProperty" ++ [s2, 0, 0, 0, 0, 0, 0, 0] ++ eLit "StructProperty" ++
  eLit "StructProperty" ++ [0, 0, 0, 0, 0, 1, 0, 0, 0] ++ eLit "None" ++
  eLit "RawData" ++ eLit "ArrayProperty" ++ lit 8 (4 + blob.length) ++ eLit "ByteProperty" ++ [0] ++ lit 4 blob.length ++ blob ++
  eLit "None" ++ eLit "None" ++ eLit "None" ++ [0, 0, 0, 0]

def looseRights : Bytes := [0, 0, 0, 0, 0, 0, 0, 0, 1, 0, 0, 0, 0xFD, 0xFF, 0xFF, 0xFF, 65, 0, 98, 0, 0, 0]
def tightRights : Bytes := [0, 0, 0, 0, 0, 0, 0, 0, 1, 0, 0, 0, 3, 0, 0, 0, 65, 98, 0]

/-- Reading `data` with the decoders of `steadyKeep` and writing gives `out`. -/
def resaves (data out : Bytes) : Bool :=
  match gvasRead (palCfg steadyKeep true) data with
  | .error _ => false
  | .ok g => match g.write (palCfg (fun _ => true) true) with
    | .error _ => false
    | .ok (b, _) => b == out

set_option maxRecDepth 40000 in
theorem rights_resaves : resaves (rightsFile 0 99 looseRights) (rightsFile 203 105 tightRights) = true := by decide +kernel

theorem resaves_inv {data out : Bytes} (h : resaves data out = true) : ∃ g g', gvasRead (palCfg steadyKeep true) data = .ok g ∧
    g.write (palCfg (fun _ => true) true) = .ok (out, g') := by
  unfold resaves at h
  cases h1 : gvasRead (palCfg steadyKeep true) data with
  | error e => rw [h1] at h; cases h
  | ok g =>
    rw [h1] at h
    simp only at h
    cases h2 : g.write (palCfg (fun _ => true) true) with
    | error e => rw [h2] at h; cases h
    | ok q =>
      rw [h2] at h
      simp only [beq_iff_eq] at h
      subst h
      exact ⟨g, q.2, rfl, h2⟩

-- the hypotheses of `C54_palworld` are met, and what it says
example : ∃ g g', gvasRead (palCfg steadyKeep true) (rightsFile 0 99 looseRights) = .ok g ∧
    g.write (palCfg (fun _ => true) true) = .ok (rightsFile 203 105 tightRights, g') ∧
    gvasRead (palCfg steadyKeep true) (rightsFile 203 105 tightRights) = .ok g ∧
    rightsFile 203 105 tightRights ≠ rightsFile 0 99 looseRights := by
  obtain ⟨g, g', h1, h2⟩ := resaves_inv rights_resaves
  obtain ⟨⟨_, h3, rfl, -⟩, -⟩ := C54_palworld steadyKeep steadyKeep_ok _ (by decide +kernel) g g' h1 _ h2
  exact ⟨_, g', h1, h2, h3, by decide +kernel⟩

/-- The modules of a base camp: one passive effect, with bytes left over after it. -/
def campList (size : UInt8) (left : Bytes) : Bytes :=
  eLit "ModuleMap" ++ eLit "MapProperty" ++ [size, 0, 0, 0, 0, 0, 0, 0] ++ eLit "EnumProperty" ++ eLit "StructProperty" ++ [0] ++
  [0, 0, 0, 0, 1, 0, 0, 0] ++ eLit "EPalBaseCampModuleType::PassiveEffect" ++
  eLit "RawData" ++ eLit "ArrayProperty" ++ lit 8 (9 + left.length) ++ eLit "ByteProperty" ++ [0] ++ lit 4 (5 + left.length) ++
  ([1, 0, 0, 0, 1] ++ left) ++ eLit "None" ++ eLit "None"

/-- Reading the list `data` and writing it gives `out`. -/
def resavesL (path : String) (data out : Bytes) : Bool :=
  match rProps (palCfg steadyKeep true) (data.length + 1) (P path) data with
  | .ok (v, []) => match wProps (v.rank + 1) (palCfg (fun _ => true) true) v with
    | .ok (b, _) => b == out
    | _ => false
  | _ => false

theorem resavesL_inv {path : String} {data out : Bytes} (h : resavesL path data out = true) :
    ∃ v w, rProps (palCfg steadyKeep true) (data.length + 1) (P path) data = .ok (v, []) ∧
      wProps (v.rank + 1) (palCfg (fun _ => true) true) v = .ok (out, w) := by
  unfold resavesL at h
  split at h
  · rename_i v h1
    split at h
    · rename_i b w h2
      rw [beq_iff_eq] at h
      subst h
      exact ⟨v, w, h1, h2⟩
    · cases h
  · cases h

set_option maxRecDepth 40000 in
theorem camp_resaves : resavesL ".worldSaveData.BaseCampSaveData.Value" (campList 7 [9, 9]) (campList 124 []) = true := by
  decide +kernel

theorem resavesL_fixed {path : String} {data out : Bytes} (h : resavesL path data out = true) (hd : data.length < 2 ^ 32) :
    ∃ v w, rProps (palCfg steadyKeep true) (data.length + 1) (P path) data = .ok (v, []) ∧
      wProps (v.rank + 1) (palCfg (fun _ => true) true) v = .ok (out, w) ∧
      rProps (palCfg steadyKeep true) (out.length + 1) (P path) out = .ok (v, []) := by
  obtain ⟨v, w, h1, h2⟩ := resavesL_inv h
  have := (C54_list _ _ (palCfg_ok steadyKeep steadyKeep_ok) _ _ _ _ hd (Nat.lt_succ_self _) v h1 _ w h2).1
    (out.length + 1) [] (Nat.lt_succ_self _)
  rw [List.append_nil] at this
  exact ⟨v, w, h1, h2, this⟩

-- base camp modules: the bytes left over are dropped, and what is written is a fixed point
example : ∃ v w, rProps (palCfg steadyKeep true) ((campList 7 [9, 9]).length + 1) (P ".worldSaveData.BaseCampSaveData.Value")
      (campList 7 [9, 9]) = .ok (v, []) ∧ wProps (v.rank + 1) (palCfg (fun _ => true) true) v = .ok (campList 124 [], w) ∧
    rProps (palCfg steadyKeep true) ((campList 124 []).length + 1) (P ".worldSaveData.BaseCampSaveData.Value") (campList 124 []) =
      .ok (v, []) :=
  resavesL_fixed camp_resaves (by decide +kernel)

/-! ### where it fails

For the entries of `unsteady` re-saving does change the tree. -/

/-- A list with one property: raw data. -/
def rawList (blob : Bytes) : Bytes :=
  eLit "RawData" ++ eLit "ArrayProperty" ++ lit 8 (4 + blob.length) ++ eLit "ByteProperty" ++ [0] ++ lit 4 blob.length ++ blob ++
  eLit "None"

/-- Reading, writing and reading again at `path`: what `f` sees before and after. -/
def twice (path : String) (f : Val → Bool) (data : Bytes) : Option (Bool × Bool) :=
  match rProps (palCfg (fun _ => true) true) (data.length + 1) (P path) data with
  | .ok (v, []) => match wProps (v.rank + 1) (palCfg (fun _ => true) true) v with
    | .ok (b, _) => match rProps (palCfg (fun _ => true) true) (b.length + 1) (P path) b with
      | .ok (v', []) => some (f v, f v')
      | _ => none
    | _ => none
  | _ => none

theorem twice_changes {path : String} {f : Val → Bool} {data : Bytes} (h : twice path f data = some (true, false)) :
    ∃ v b w v', rProps (palCfg (fun _ => true) true) (data.length + 1) (P path) data = .ok (v, []) ∧
      wProps (v.rank + 1) (palCfg (fun _ => true) true) v = .ok (b, w) ∧
      rProps (palCfg (fun _ => true) true) (b.length + 1) (P path) b = .ok (v', []) ∧ f v = true ∧ f v' = false := by
  unfold twice at h
  split at h
  · rename_i v h1
    split at h
    · rename_i b w h2
      split at h
      · rename_i v' h3
        cases hv : f v <;> cases hv' : f v' <;> rw [hv, hv'] at h <;> cases h
        exact ⟨v, b, w, v', h1, h2, h3, hv, hv'⟩
      · cases h
    · cases h
  · cases h

/-- A weapon with three skills: "A", stored as UTF-16, "None" and fifteen letters.  With "A"
stored as ASCII the same bytes can be taken for an egg, and that is tried first: the durability
is then the length of a name, and "None" ends a list of properties. -/
def weaponEgg : Bytes := List.replicate 32 7 ++ [0, 0, 0, 0] ++ [14, 0, 0, 0] ++ [1, 0, 0, 0] ++ [3, 0, 0, 0] ++
  [0xFE, 0xFF, 0xFF, 0xFF, 65, 0, 0, 0] ++ [5, 0, 0, 0, 78, 111, 110, 101, 0] ++ [16, 0, 0, 0] ++ List.replicate 15 66 ++ [0]

/-- "type" of the decoded item. -/
def itemIs (t : String) (v : Val) : Bool :=
  match v.path (ks ["RawData", "value", "type"]) with
  | .ok x => x.isS t
  | .error _ => false

set_option maxRecDepth 40000 in
/-- C54 fails with decoding of dynamic items: after re-saving, a weapon is read as an egg. -/
theorem C54_dynamicItem_counterexample : ∃ data v b w v',
    rProps (palCfg (fun _ => true) true) (data.length + 1) (P ".worldSaveData.DynamicItemSaveData.DynamicItemSaveData") data = .ok (v, []) ∧
    wProps (v.rank + 1) (palCfg (fun _ => true) true) v = .ok (b, w) ∧
    rProps (palCfg (fun _ => true) true) (b.length + 1) (P ".worldSaveData.DynamicItemSaveData.DynamicItemSaveData") b = .ok (v', []) ∧
    itemIs "weapon" v = true ∧ itemIs "weapon" v' = false :=
  ⟨_, twice_changes (data := rawList weaponEgg) (by decide +kernel)⟩

/-- A foliage instance whose location is stored as three doubles, the second of them 0.5. -/
def halfFoliage : Bytes := List.replicate 19 0 ++ [64, 0, 0, 0] ++ List.replicate 14 0 ++ [0xE0, 0x3F] ++ List.replicate 16 0

/-- "y" of the location is 0.5. -/
def yHalf (v : Val) : Bool :=
  match v.path (ks ["RawData", "value", "world_transform", "location", "y"]) with
  | .ok (.float b) => b == 0x3fe0000000000000#64
  | _ => false

set_option maxRecDepth 40000 in
/-- C54 fails with decoding of foliage instances: a location is rounded when it is written. -/
theorem C54_foliage_counterexample : ∃ data v b w v',
    rProps (palCfg (fun _ => true) true) (data.length + 1)
      (P ".worldSaveData.FoliageGridSaveDataMap.Value.ModelMap.Value.InstanceDataMap.Value") data = .ok (v, []) ∧
    wProps (v.rank + 1) (palCfg (fun _ => true) true) v = .ok (b, w) ∧
    rProps (palCfg (fun _ => true) true) (b.length + 1)
      (P ".worldSaveData.FoliageGridSaveDataMap.Value.ModelMap.Value.InstanceDataMap.Value") b = .ok (v', []) ∧
    yHalf v = true ∧ yHalf v' = false :=
  ⟨_, twice_changes (data := rawList halfFoliage) (by decide +kernel)⟩

end Pal
