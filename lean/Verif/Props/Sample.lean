import Verif.Props.RoundTrip
/-
A concrete file meeting the hypotheses of the theorems about whole files: a header with
custom versions, numbers, strings (one with a character outside the BMP), nested property
lists, arrays, maps, and raw data at two custom properties.
-/

namespace Pal
open Spec

def str (s : String) (h : StrOk (P s) := by decide +kernel) : Str := ⟨P s, h⟩

/-- Transport through JSON, infinities kept. -/
def jsonMode : Mode := ⟨true, true⟩

def sampleGroupProps : Props jsonMode :=
  [(str "GroupType", .enum (str "EPalGroupType") none (str "EPalGroupType::Guild")),
   (str "RawData", .bytes none sampleGroup.enc)]

def sampleContainer : Props jsonMode :=
  [(str "RawData", .bytes none samplePermission.enc), (str "SlotNum", .int (some sampleGuid) (-5))]

def sampleWorld : Props jsonMode :=
  [(str "GroupSaveDataMap", .map (str "StructProperty") (str "StructProperty") none
      [(.struct (.guid sampleGuid), .struct (.props sampleGroupProps))]),
   (str "ItemContainerSaveData", .map (str "StructProperty") (str "StructProperty") none
      [(.struct (.props [(str "ID", .struct (str "Guid") sampleGuid none (.guid sampleGuid))]),
        .struct (.props sampleContainer))]),
   (str "Flag", .bool true none)]

def sampleProps : Props jsonMode :=
  [(str "Version", .int none 100),
   (str "Timestamp", .struct (str "DateTime") sampleGuid none (.dateTime 638424512345678901)),
   (str "Height", .float none ⟨0x3fc00000, by unfold F32Ok; decide +kernel⟩),
   (str "Names", .names none [str "Lamball 🐑", str ""]),
   (str "worldSaveData", .struct (str "PalWorldSaveData") sampleGuid none (.props sampleWorld))]

/-- The sample file, with an unusual trailer. -/
def sampleFile : File jsonMode := ⟨sampleHeader, sampleProps, [0, 1, 2, 3, 4]⟩

/-! ### it is well-formed -/

section
variable {m : Mode} {cfg : Cfg} {C : CodecId → PropT m → Prop} {path : PyStr} {n : Str} {p : PropT m}
  {t : Props m}

theorem wf_plain (h1 : n.val ≠ P "None") (h2 : cfg.custom (sub path n) = none) (h3 : p.Wf cfg C (sub path n))
    (h4 : wfProps cfg C path t) : wfProps cfg C path ((n, p) :: t) := by
  simp only [wfProps, h2]
  exact ⟨h1, h3, h4⟩

theorem wf_custom {c : CodecId} (h1 : n.val ≠ P "None") (h2 : cfg.custom (sub path n) = some c)
    (h3 : p.type = c.propType) (h5 : C c p) (h6 : p.Wf cfg noCustom (sub path n))
    (h4 : wfProps cfg C path t) : wfProps cfg C path ((n, p) :: t) := by
  simp only [wfProps, h2]
  exact ⟨h1, ⟨h3, h5, h6⟩, h4⟩

theorem wf_nil : wfProps cfg C path [] := by simp only [wfProps]
end

abbrev fullCfg : Cfg := palCfg (fun _ => true) true

set_option maxRecDepth 20000 in
/-- The custom properties at the paths of the sample. -/
theorem sample_lookups :
    fullCfg.custom (sub [] (str "Version")) = none ∧
    fullCfg.custom (sub [] (str "Timestamp")) = none ∧
    fullCfg.custom (sub [] (str "Height")) = none ∧
    fullCfg.custom (sub [] (str "Names")) = none ∧
    fullCfg.custom (sub [] (str "worldSaveData")) = none ∧
    fullCfg.custom (sub (P ".worldSaveData") (str "GroupSaveDataMap")) = some .group ∧
    fullCfg.custom (sub (P ".worldSaveData") (str "ItemContainerSaveData")) = none ∧
    fullCfg.custom (sub (P ".worldSaveData") (str "Flag")) = none ∧
    fullCfg.custom (sub (P ".worldSaveData.GroupSaveDataMap" ++ P ".Value") (str "GroupType")) = none ∧
    fullCfg.custom (sub (P ".worldSaveData.GroupSaveDataMap" ++ P ".Value") (str "RawData")) = none ∧
    fullCfg.custom (sub (P ".worldSaveData.ItemContainerSaveData" ++ P ".Key") (str "ID")) = none ∧
    fullCfg.custom (sub (P ".worldSaveData.ItemContainerSaveData.Value") (str "RawData")) = some .itemContainer ∧
    fullCfg.custom (sub (P ".worldSaveData.ItemContainerSaveData.Value") (str "SlotNum")) = none ∧
    keyStruct fullCfg (P ".worldSaveData.GroupSaveDataMap") = P "Guid" ∧
    valueStruct fullCfg (P ".worldSaveData.GroupSaveDataMap") ∉ fixedStructs.map P ∧
    keyStruct fullCfg (P ".worldSaveData.ItemContainerSaveData") ∉ fixedStructs.map P ∧
    valueStruct fullCfg (P ".worldSaveData.ItemContainerSaveData") ∉ fixedStructs.map P := by
  decide +kernel

theorem fits_props {st : PyStr} {ps : Props m} (h : st ∉ fixedStructs.map P) : (SVal.props ps).Fits st := by
  intro t ht e
  exact h (e ▸ List.mem_map_of_mem ht)

section
open Pal

theorem sampleGroupProps_wf :
    (SVal.props sampleGroupProps).Wf fullCfg noCustom (P ".worldSaveData.GroupSaveDataMap" ++ P ".Value") := by
  obtain ⟨-, -, -, -, -, -, -, -, h1, h2, -⟩ := sample_lookups
  simp only [SVal.Wf]
  refine ⟨by decide +kernel, wf_plain (by decide +kernel) h1 ?_ (wf_plain (by decide +kernel) h2 ?_ wf_nil)⟩
  · simp only [PropT.Wf]
  · simp only [PropT.Wf]; decide +kernel

theorem sampleContainer_wf :
    (SVal.props sampleContainer).Wf fullCfg (Canon fullCfg) (P ".worldSaveData.ItemContainerSaveData.Value") := by
  obtain ⟨-, -, -, -, -, -, -, -, -, -, -, h1, h2, -⟩ := sample_lookups
  simp only [SVal.Wf]
  refine ⟨by decide +kernel, wf_custom (c := .itemContainer) (by decide +kernel) h1 rfl ?_ ?_
    (wf_plain (by decide +kernel) h2 ?_ wf_nil)⟩
  · exact .inr ⟨samplePermission, _, rfl⟩
  · simp only [PropT.Wf]; decide +kernel
  · simp only [PropT.Wf]

theorem wf_entry {kt vt path : PyStr} {C : CodecId → PropT m → Prop} {cfg : Cfg} {k v : MVal m}
    (h1 : kt = P k.type) (h2 : k.Wf cfg C (path ++ P ".Key") (keyStruct cfg path)) (h3 : vt = P v.type)
    (h4 : v.Wf cfg C (path ++ P ".Value") (valueStruct cfg path)) : wfEntries cfg C path kt vt [(k, v)] := by
  simp only [wfEntries]
  exact ⟨h1, h2, h3, h4, trivial⟩

theorem wf_struct {cfg : Cfg} {C : CodecId → PropT m → Prop} {path st : PyStr} {v : SVal m} (h1 : v.Fits st)
    (h2 : v.Wf cfg C path) : (MVal.struct v).Wf cfg C path st := by
  simp only [MVal.Wf]
  exact ⟨h1, h2⟩

theorem wf_map {kt vt : Str} {id : Option Guid} {path : PyStr} {C : CodecId → PropT m → Prop} {cfg : Cfg}
    {e : MVal m × MVal m} (h : wfEntries cfg C path kt.val vt.val [e]) : (PropT.map kt vt id [e]).Wf cfg C path := by
  simp only [PropT.Wf]
  exact ⟨by simp, h⟩

theorem sampleGroups_wf (path : PyStr) (h : path = P ".worldSaveData.GroupSaveDataMap") :
    wfEntries fullCfg noCustom path (P "StructProperty") (P "StructProperty")
      [(.struct (.guid sampleGuid), .struct (.props sampleGroupProps))] := by
  obtain ⟨-, -, -, -, -, -, -, -, -, -, -, -, -, h1, h2, -⟩ := sample_lookups
  subst h
  refine wf_entry rfl (wf_struct ?_ ?_) rfl (wf_struct (fits_props h2) sampleGroupProps_wf)
  · simp only [SVal.Fits]; exact h1
  · simp only [SVal.Wf]

theorem sampleContainers_wf (path : PyStr) (h : path = P ".worldSaveData.ItemContainerSaveData") :
    wfEntries fullCfg (Canon fullCfg) path (P "StructProperty") (P "StructProperty")
      [(.struct (.props [(str "ID", .struct (str "Guid") sampleGuid none (.guid sampleGuid))]),
        .struct (.props sampleContainer))] := by
  obtain ⟨-, -, -, -, -, -, -, -, -, -, h0, -, -, -, -, h1, h2⟩ := sample_lookups
  subst h
  refine wf_entry rfl (wf_struct (fits_props h1) ?_) rfl (wf_struct (fits_props h2) ?_)
  · simp only [SVal.Wf]
    refine ⟨by decide +kernel, wf_plain (by decide +kernel) h0 ?_ wf_nil⟩
    simp only [PropT.Wf, SVal.Fits, SVal.Wf, and_true]
    decide +kernel
  · rw [show P ".worldSaveData.ItemContainerSaveData" ++ P ".Value" =
        P ".worldSaveData.ItemContainerSaveData.Value" by decide +kernel]
    exact sampleContainer_wf

theorem sampleGroups_canon : Canon fullCfg .group (m := jsonMode) (.map (str "StructProperty") (str "StructProperty") none
      [(.struct (.guid sampleGuid), .struct (.props sampleGroupProps))]) := by
  refine ⟨_, _, _, _, rfl, ?_⟩
  intro e he
  rw [List.mem_singleton] at he
  subst he
  exact ⟨_, sampleGroup, rfl, ⟨_, _, _, ⟨_, rfl, List.mem_cons_self⟩, rfl⟩,
    ⟨_, _, rfl, List.mem_cons_of_mem _ List.mem_cons_self⟩⟩

theorem sampleWorld_wf : (SVal.props sampleWorld).Wf fullCfg (Canon fullCfg) (P ".worldSaveData") := by
  obtain ⟨-, -, -, -, -, h1, h2, h3, -⟩ := sample_lookups
  simp only [SVal.Wf]
  refine ⟨by decide +kernel, wf_custom (c := .group) (by decide +kernel) h1 rfl sampleGroups_canon
    (wf_map (sampleGroups_wf _ (by decide +kernel)))
    (wf_plain (by decide +kernel) h2 (wf_map (sampleContainers_wf _ (by decide +kernel)))
    (wf_plain (by decide +kernel) h3 ?_ wf_nil))⟩
  simp only [PropT.Wf]

theorem sampleFile_wf : sampleFile.Wf fullCfg := by
  obtain ⟨h1, h2, h3, h4, h5, -⟩ := sample_lookups
  refine ⟨?_, by decide +kernel⟩
  simp only [SVal.Wf]
  refine ⟨by decide +kernel, wf_plain (by decide +kernel) h1 ?_
    (wf_plain (by decide +kernel) h2 ?_ (wf_plain (by decide +kernel) h3 ?_
    (wf_plain (by decide +kernel) h4 ?_ (wf_plain (by decide +kernel) h5 ?_ wf_nil))))⟩
  · simp only [PropT.Wf]
  · simp only [PropT.Wf, SVal.Fits, SVal.Wf, and_true]; decide +kernel
  · simp only [PropT.Wf]
  · simp only [PropT.Wf]; decide +kernel
  · have h : sub [] (str "worldSaveData") = P ".worldSaveData" := by decide +kernel
    rw [h]
    simp only [PropT.Wf]
    exact ⟨fits_props (by decide +kernel), sampleWorld_wf⟩

end

/-! ### the theorems apply to it -/

example : sampleFile.enc.length = 1400 := by decide +kernel

example := C01_palworld sampleFile rfl sampleFile_wf
example := C01_identity rfl fullCfg rfl (palCfg_json _ _) sampleFile sampleFile_wf
example := C08_palworld (fun s => s = ".worldSaveData.GroupSaveDataMap") sampleFile rfl sampleFile_wf
example := C03_custom fullCfg fullCfg (fun _ _ h => h) rfl (fun _ => palCfg_json _ _) sampleFile sampleFile_wf
example := C03_plain (m := jsonMode) (palCfg (fun _ => false) true) fullCfg rfl sampleGroupProps
  (wf_subS (palCfg_selects _ _) _ _ _ (fun _ _ h => h) _ sampleGroupProps_wf)
example := C27_file rfl fullCfg rfl (palCfg_json _ _) sampleFile sampleFile_wf [1, 2, 3]

end Pal
