import Verif.Lemmas.Edit
import Verif.Props.Cli
import Verif.Props.JsonText
import Verif.Props.CliSample
/-
C60: an edit of one place of a document changes that place of the file and nothing else.
-/

namespace Pal
open Spec

variable {m : Mode}

/-- The file with another property tree. -/
def Spec.File.withProps (f : File m) (ps : Props m) : File m := { f with props := ps }

theorem edit_wf {cfg : Cfg} {f : File m} {ks : List Key} {op : Op} {b b' : Bytes} {ps : Props m} (hw : f.Wf cfg)
    (he : EditPs cfg [] ks op b b' f.props ps) (hs : (encProps ps).length < 2 ^ 64) : (f.withProps ps).Wf cfg := by
  obtain ⟨h1, -⟩ := hw
  simp only [SVal.Wf] at h1
  obtain ⟨h2, h3, -⟩ := editPs_doc (K := plainK) he h1.1 h1.2
  exact ⟨by simp only [SVal.Wf]; exact ⟨h2, h3⟩, hs⟩

theorem edit_dump {cfg : Cfg} {f : File m} {ks : List Key} {op : Op} {b b' : Bytes} {ps : Props m} (hw : f.Wf cfg)
    (he : EditPs cfg [] ks op b b' f.props ps) :
    EditAt op (Fld "properties" :: ks) (fileOf cfg f).dump (fileOf cfg (f.withProps ps)).dump := by
  obtain ⟨h1, -⟩ := hw
  simp only [SVal.Wf] at h1
  obtain ⟨-, -, h4⟩ := editPs_doc (K := decK m.an cfg) he h1.1 h1.2
  unfold Gvas.dump
  rw [dct_eq, dct_eq]
  edit_key
  exact h4

/-- C60: read a file, change one place of the document, write it: the new file is the old one with that place
changed in its tree, and reading it gives the changed document. -/
theorem C60_edit (cfg B : Cfg) (hcfg : cfg.allowNan = m.an) (hc : m.json = true → CfgJson cfg)
    (hB : ∀ p c, cfg.custom p = some c → B.custom p = some c) (f : File m) (hw : f.Wf cfg) (ks : List Key) (op : Op) (b b' : Bytes)
    (ps : Props m) (he : EditPs cfg [] ks op b b' f.props ps) (hs : (encProps ps).length < 2 ^ 64) :
    ∃ g, gvasRead cfg f.enc = .ok g ∧ (∃ d, EditAt op (Fld "properties" :: ks) g.dump d) ∧
      ∀ d, EditAt op (Fld "properties" :: ks) g.dump d → ∃ g1 g2 g3, Gvas.load d = .ok g1 ∧
        g1.write B = .ok ((f.withProps ps).enc, g2) ∧ gvasRead cfg (f.withProps ps).enc = .ok g3 ∧ g3.dump = d := by
  have hw' := edit_wf hw he hs
  refine ⟨_, file_read hcfg hc f hw, ⟨_, edit_dump hw he⟩, fun d hd => ?_⟩
  rw [editAt_unique hd (edit_dump hw he)]
  obtain ⟨g2, h⟩ := file_write hcfg hc hB (f.withProps ps) hw'
  exact ⟨_, g2, _, C27_dump_load _, h, file_read hcfg hc _ hw', rfl⟩

/-- C60: the same for the JSON form of the document. -/
theorem C60_json (hj : m.json = true) (cfg B : Cfg) (hcfg : cfg.allowNan = m.an) (hc : CfgJson cfg)
    (hB : ∀ p c, cfg.custom p = some c → B.custom p = some c) (f : File m) (hw : f.Wf cfg) (ks : List Key) (op : Op) (b b' : Bytes)
    (ps : Props m) (he : EditPs cfg [] ks op b b' f.props ps) (hs : (encProps ps).length < 2 ^ 64) (op' : Op) (ho : op.Json op') :
    ∃ g j, gvasRead cfg f.enc = .ok g ∧ jsonRT m.an g.dump = .ok j ∧ (∃ d, EditAt op' (Fld "properties" :: ks) j d) ∧
      ∀ d, EditAt op' (Fld "properties" :: ks) j d → ∃ g1 g2 g3, Gvas.load d = .ok g1 ∧
        g1.header.className = .str f.header.className.val ∧
        g1.write B = .ok ((f.withProps ps).enc, g2) ∧ gvasRead cfg (f.withProps ps).enc = .ok g3 ∧ jsonRT m.an g3.dump = .ok d := by
  have hw' := edit_wf hw he hs
  have j1 := file_jok hj hcfg hc f hw
  have j2 := file_jok hj hcfg hc _ hw'
  obtain ⟨j, h1, -⟩ := jok_json false m.an _ j1
  obtain ⟨d0, h2, hsim⟩ := jok_json false m.an _ j2
  have h3 := editAt_json ho (edit_dump hw he) j1 j2 h1 h2
  refine ⟨_, j, file_read hcfg (fun _ => hc) f hw, h1, ⟨d0, h3⟩, fun d hd => ?_⟩
  rw [editAt_unique hd h3]
  obtain ⟨g2, h⟩ := file_write hcfg (fun _ => hc) hB (f.withProps ps) hw'
  obtain ⟨d1, g1, g4, h4, h5, h6⟩ := C04_file m.an B _ _ _ j2 h
  rw [h2] at h4
  cases h4
  obtain ⟨g5, h7, -, -, -, h8⟩ := load_sim hsim _ (C27_dump_load _)
  rw [h5] at h7
  cases h7
  exact ⟨g1, g4, _, h5, sim_str h8, h6, file_read hcfg (fun _ => hc) _ hw', h2⟩

/-- C60: if the new bytes of the value are as many as the old ones, they replace them and every other byte of the
file stays. -/
theorem C60_bytes (cfg : Cfg) (f : File m) (ks : List Key) (op : Op) (b b' : Bytes) (ps : Props m)
    (he : EditPs cfg [] ks op b b' f.props ps) (hb : b.length = b'.length) :
    ∃ pre post, f.enc = pre ++ b ++ post ∧ (f.withProps ps).enc = pre ++ b' ++ post := by
  have := ((editPs_loc he).l f.header.enc).r f.trailer
  exact this.2 hb

/-- C60: in any case the file grows or shrinks by as many bytes as the value. -/
theorem C60_size (cfg : Cfg) (f : File m) (ks : List Key) (op : Op) (b b' : Bytes) (ps : Props m)
    (he : EditPs cfg [] ks op b b' f.props ps) : (f.withProps ps).enc.length + b.length = f.enc.length + b'.length := by
  have := ((editPs_loc he).l f.header.enc).r f.trailer
  exact this.1

/-- C60: on the command line.  `x` is converted to JSON; someone changes one place of the JSON document (the text
may be laid out as they like); converting back leaves at `x` the file with that place changed. -/
theorem C60_command (ext : Ext) (hl : ExtLaws ext) (hcr : ∀ p, ext.canCreate p = true) (f : File m) (hj : m.json = true)
    (hw : f.Wf (palCfg (fun _ => true) m.an)) (x : PyStr) (hx1 : P ".sav" <:+ x) (hx2 : ¬ P ".json" <:+: x)
    (w : World) (data : Bytes) (ty : UInt8) (hx : w.fs x = some (.file data)) (hs : IsSav ext.z.decompress data f.enc ty)
    (ho : w.fs (x ++ P ".json") = none ∨ ∃ b, w.fs (x ++ P ".json") = some (.file b)) (minify minify' nn : Bool) (keys keys' : List PyStr)
    (ks : List Key) (op op' : Op) (b b' : Bytes) (ps : Props m)
    (he : EditPs (palCfg (selects keys) m.an) [] ks op b b' f.props ps) (hop : op.Json op')
    (hlen : (f.withProps ps).enc.length < 2 ^ 32) (hcl : (ext.z.compress (f.withProps ps).enc).length < 2 ^ 32) :
    ∃ w1 text j, convertMain ext ⟨x, false, false, none, true, !m.an, minify, keys⟩ w = (.ok (), w1) ∧
      w1.fs (x ++ P ".json") = some (.file text) ∧ JFile true text j ∧ (∃ d, EditAt op' (Fld "properties" :: ks) j d) ∧
      ∀ text' d, JFile true text' d → EditAt op' (Fld "properties" :: ks) j d →
        ∃ w2 data' ty', convertMain ext ⟨x ++ P ".json", false, false, none, true, nn, minify', keys'⟩
            (w1.put (x ++ P ".json") text') = (.ok (), w2) ∧
          w2.fs x = some (.file data') ∧ IsSav ext.z.decompress data' (f.withProps ps).enc ty' := by
  have hne : x ≠ x ++ P ".json" := (append_ne (by decide)).symm
  have h64 : (encProps ps).length < 2 ^ 64 := by
    simp only [File.enc, File.withProps, List.length_append] at hlen; omega
  have hwk := fileWf_sub (palCfg_selects (selects keys) m.an) hw
  obtain ⟨g, j, h1, h2, h3, h4⟩ := C60_json hj (palCfg (selects keys) m.an) (palCfg (fun _ => true) m.an) rfl
    (palCfg_json _ _) (palCfg_selects (selects keys) m.an).custom f hwk ks op b b' ps he h64 op' hop
  obtain ⟨text, h6, h7⟩ := dump_load hl.repr minify _ (jpre_cp _ (file_jpre (palCfg_json _ _) h1)) h2
  have hconv : convertSavToJson ext x (x ++ P ".json") true minify m.an keys w =
      (.ok (), (w.put (x ++ P ".json") []).put (x ++ P ".json") text) := by
    have ha : askOverwrite (x ++ P ".json") true w = (.ok (), w) := by
      unfold askOverwrite
      simp only [io_bind, pathExists]
      rcases ho with ho | ⟨b, ho⟩ <;> rw [ho] <;> rfl
    have hopen : openTrunc ext (x ++ P ".json") w = (.ok (), w.put (x ++ P ".json") []) := by
      unfold openTrunc
      rcases ho with ho | ⟨b, ho⟩ <;> rw [ho] <;> simp only [hcr, if_true]
    have hd := (C25_sav_validation _ _ _ _).2 hs
    rw [savToJson_eq, io_bind, ha]
    simp only
    unfold savToJsonRest
    have hr : readFile x w = (.ok data, w) := by unfold readFile; rw [hx]
    simp only [io_bind, hr, ioLift, hd, h1, hopen, Ext.jdump, h6, writeOut]
    rfl
  refine ⟨(w.put (x ++ P ".json") []).put (x ++ P ".json") text, text, j, ?_, by simp only [put_fs, if_true],
    (C56_load _ _).1 h7, h3, fun text' d ht hd => ?_⟩
  · rw [C42_to_json ext _ w data hx hx1 rfl rfl]
    simp only [Bool.not_not]
    exact hconv
  · obtain ⟨g1, g2, g3, e1, e2, e3, -, -⟩ := h4 d hd
    have e3' : g1.write palAll = .ok ((f.withProps ps).enc, g2) :=
      (C48_writer palAll (palCfg (fun _ => true) m.an) rfl g1).trans e3
    obtain ⟨sav, ty', e4, e5, -, -⟩ := docToSav_wf (f := f.withProps ps) hl e1 e2 e3' hlen hcl
    refine ⟨((((w.put (x ++ P ".json") []).put (x ++ P ".json") text).put (x ++ P ".json") text').put x []).put x sav, sav, ty', ?_, ?_, e5⟩
    · rw [C42_from_json ext _ x _ text' hx2 rfl (by simp only [put_fs, if_true]) rfl rfl]
      exact jsonToSav_run hcr (by simp only [put_fs, if_true]) ((C56_load _ _).2 ht) e4
        (.inr ⟨rfl, data, by simp only [put_fs, if_neg hne, hx]⟩)
    · simp only [put_fs, if_true]

/-! ### cases -/

/-- The sample file with another number of slots in a map entry. -/
def slotProps : Props jsonMode :=
  [(str "RawData", .bytes none samplePermission.enc), (str "SlotNum", .int (some sampleGuid) 20)]
def slotWorld : Props jsonMode :=
  [(str "GroupSaveDataMap", .map (str "StructProperty") (str "StructProperty") none
      [(.struct (.guid sampleGuid), .struct (.props sampleGroupProps))]),
   (str "ItemContainerSaveData", .map (str "StructProperty") (str "StructProperty") none
      [(.struct (.props [(str "ID", .struct (str "Guid") sampleGuid none (.guid sampleGuid))]),
        .struct (.props slotProps))]),
   (str "Flag", .bool true none)]
def slotTree : Props jsonMode :=
  [(str "Version", .int none 100),
   (str "Timestamp", .struct (str "DateTime") sampleGuid none (.dateTime 638424512345678901)),
   (str "Height", .float none ⟨0x3fc00000, by unfold F32Ok; decide +kernel⟩),
   (str "Names", .names none [str "Lamball 🐑", str ""]),
   (str "worldSaveData", .struct (str "PalWorldSaveData") sampleGuid none (.props slotWorld))]
/-- Where it is in the document. -/
def slotPlace : List Key :=
  [.key (str "worldSaveData").val, Fld "value", .key (str "ItemContainerSaveData").val, Fld "value", .idx 0, Fld "value",
    .key (str "SlotNum").val, Fld "value"]

theorem slot_edit : EditPs fullCfg [] slotPlace (.set (vI (20 : BitVec 32))) (e32 (-5)) (e32 20) sampleProps slotTree := by
  obtain ⟨-, -, -, -, h1, -, h2, -, -, -, -, -, h3, -⟩ := sample_lookups
  refine .prop (l := [_, _, _, _]) (r := []) h1 (.struct (.props ?_))
  refine .prop (l := [_]) (r := [_]) h2 (.mapValue (l := []) (r := []) (.struct (.props ?_)))
  refine .prop (l := [_]) (r := []) h3 (.int 20)

/-- C60: the slots of a container, in the document and in the file. -/
example := C60_edit fullCfg fullCfg rfl (fun _ => palCfg_json _ _) (fun _ _ h => h) sampleFile sampleFile_wf _ _ _ _ _ slot_edit
  (by decide +kernel)
example : ∃ pre post, sampleFile.enc = pre ++ [251, 255, 255, 255] ++ post ∧
    (sampleFile.withProps slotTree).enc = pre ++ [20, 0, 0, 0] ++ post :=
  C60_bytes fullCfg sampleFile _ _ _ _ _ slot_edit rfl
/-- C60: a property taken out. -/
example : ∃ ks ps, EditPs fullCfg [] ks (.del (str "Height").val) (eStr (str "Height") ++ (PropT.float (m := jsonMode) none
    ⟨0x3fc00000, by unfold F32Ok; decide +kernel⟩).enc) [] sampleProps ps :=
  ⟨_, _, .del (l := [_, _]) (r := [_, _])⟩
/-- C60: the same on the command line, with all custom properties selected. -/
theorem slot_edit_all : EditPs (palCfg (selects [P "all"]) true) [] slotPlace (.set (vI (20 : BitVec 32))) (e32 (-5)) (e32 20) sampleProps
    slotTree := by
  have e : palCfg (selects [P "all"]) true = fullCfg := by
    unfold fullCfg
    congr 1
  rw [e]; exact slot_edit
example := C60_command plainExt plainExt_laws (fun _ => rfl) sampleFile rfl sampleFile_wf (P "Saved/Level.sav")
  (by decide +kernel) (by decide +kernel) (sampleWorld0 (storedSav sampleFile.enc 0x31)) _ 0x31 (world0_sav _)
  (storedSav_is _ _ sampleFile_small (.inl rfl)) (.inr ⟨[1, 2], world0_json _⟩) true false false [P "all"] [] slotPlace _
  (.set (.int 20)) _ _ slotTree slot_edit_all (.set (.int 20)) (by decide +kernel) (by decide +kernel)

end Pal
