import Verif.Lemmas.ShownCongr
import Verif.Props.Shown
/-
C62: raw data is shown as what its bytes say.

`Spec/ShownBlobs.lean` gives, for every kind of custom property, the layouts of its blobs and the places of
the document where they are shown.  Some blobs hold whole property lists, which may hold custom properties
again, so that what is shown is the solution of an equation (`ShowsCustom`).  There is one, and for it
reading any byte string shows exactly what the bytes say.

`F` is only used for dynamic items: it says of which bytes the list reader itself stops with the message
"Warning: EOF not reached" (bytes left over in a blob of a list within the item), which the item decoder
does not take as a sign that the item is no egg.
-/

namespace Pal
open Spec

/-- C62: the decoder of a custom property shows a plain property `v` as `w` exactly if the blobs of `v` say
so. -/
theorem C62_blobs (cfg : Cfg) (E : Layout) (F : Bytes → Prop)
    (hE : ∀ s v rest, readList cfg [] s = .ok (v, rest) ↔ E s v rest)
    (hF : ∀ s, F s ↔ readList cfg [] s = .error (.exc "Warning: EOF not reached")) (c : CodecId) (v w : Val) :
    c.post cfg.allowNan (readList cfg []) v = .ok w ↔ Decoded cfg.allowNan E F c v w :=
  post_does hE hF (noFuel_readList cfg []) c v w

/-- C62: a byte string is read as `g` exactly if it is a file that says `g`, for every reading of custom
properties that follows their layouts. -/
theorem C62_file (cfg : Cfg) (F : Bytes → Prop) (D : CodecId → Val → Val → Prop)
    (hF : ∀ s, F s ↔ readList cfg [] s = .error (.exc "Warning: EOF not reached")) (hD : ShowsCustom cfg F D)
    (data : Bytes) (g : Gvas) :
    gvasRead cfg data = .ok g ↔
      ∃ l, FileAt cfg D data g.header.dump l g.trailer ∧ g.properties = .dict (dictOf l) := by
  rw [gvasRead_iff (decodes_post cfg)]
  refine exists_congr fun l => and_congr_left fun _ => ?_
  constructor
  · rintro ⟨⟨s, h1, h2⟩, h3, h4, h5⟩
    exact ⟨⟨s, h1, (solution_list hD hF _ _ _ _ _ (Nat.le_refl _)).2 h2⟩, h3, h4, h5⟩
  · rintro ⟨⟨s, h1, h2⟩, h3, h4, h5⟩
    exact ⟨⟨s, h1, (solution_list hD hF _ _ _ _ _ (Nat.le_refl _)).1 h2⟩, h3, h4, h5⟩

/-- C62: there is such a reading. -/
theorem C62_exists (cfg : Cfg) : ∃ D, ShowsCustom cfg (fun s => readList cfg [] s = .error (.exc "Warning: EOF not reached")) D :=
  ⟨_, fun _ c _ v w => post_solution (fun _ => Iff.rfl) c v w⟩

/-- C62: a byte string says at most one file, whatever the reading of custom properties that follows their
layouts. -/
theorem C62_unambiguous (cfg : Cfg) (F : Bytes → Prop) (D D' : CodecId → Val → Val → Prop)
    (hF : ∀ s, F s ↔ readList cfg [] s = .error (.exc "Warning: EOF not reached")) (hD : ShowsCustom cfg F D)
    (hD' : ShowsCustom cfg F D') (data : Bytes) (header header' : Val) (l l' : List (PyStr × Val)) (trailer trailer' : Bytes)
    (h : FileAt cfg D data header l trailer) (h' : FileAt cfg D' data header' l' trailer') :
    header = header' ∧ dictOf l = dictOf l' ∧ trailer = trailer' := by
  obtain ⟨s, h1, -⟩ := h.split
  obtain ⟨hd, rfl⟩ := headerLayout_dump h1
  obtain ⟨s', h1', -⟩ := h'.split
  obtain ⟨hd', rfl⟩ := headerLayout_dump h1'
  have e := (C62_file cfg F D hF hD data ⟨hd, .dict (dictOf l), trailer⟩).2 ⟨l, h, rfl⟩
  have e' := (C62_file cfg F D' hF hD' data ⟨hd', .dict (dictOf l'), trailer'⟩).2 ⟨l', h', rfl⟩
  rw [e] at e'
  simp only [Except.ok.injEq, Gvas.mk.injEq, Val.dict.injEq] at e'
  exact ⟨by rw [e'.1], e'.2.1, e'.2.2⟩

/-! ### Cases -/

/-- A byte array as the plain reader shows it. -/
def rawProp (b : Bytes) : Val := vDict [("id", .none), ("value", vDict [("values", intsOf b)])]

/-- The id of an item with an empty name. -/
def zeroItem : Bytes := List.replicate 32 0 ++ [0, 0, 0, 0]

def shownItem (l : List (String × Val)) : Val := vDict [("id", .none), ("value", vDict (
  ("id", vDict [("created_world_id", .uuid (List.replicate 16 0)), ("local_id_in_created_world", .uuid (List.replicate 16 0)),
    ("static_id", .str [])]) :: l))]

/-- Four bytes more are armor, ... -/
example : (CodecId.dynamicItem).post true (readList bareCfg []) (rawProp (zeroItem ++ [0, 0, 0x80, 0x3f])) =
    .ok (shownItem [("type", .str (P "armor")), ("durability", .float 0x3ff0000000000000#64)]) := by rfl
/-- ... one byte more is shown as it is. -/
example : (CodecId.dynamicItem).post true (readList bareCfg []) (rawProp (zeroItem ++ [7])) =
    .ok (shownItem [("type", .str (P "unknown")), ("trailer", .list [.int 7])]) := by rfl

/-- What that says about the bytes. -/
example : Decoded true (EmbeddedList bareCfg fun _ _ _ => False) (fun s => readList bareCfg [] s = .error (.exc "Warning: EOF not reached"))
    .dynamicItem (rawProp (zeroItem ++ [7])) (shownItem [("type", .str (P "unknown")), ("trailer", .list [.int 7])]) :=
  (C62_blobs bareCfg _ _ (fun _ _ _ => readList_iff (cfg := bareCfg) fun p c h => by cases h) (fun _ => Iff.rfl) _ _ _).1 (by rfl)

/-- A connector whose other connectors fill the blob, ... -/
def oddConnector : Bytes := [1, 0, 0, 0, 9, 0, 0, 0, 0, 3, 0, 0, 0, 0]
example : ShowsConnector oddConnector (vDict [("supported_level", .int 1),
    ("connect", vDict [("index", .int 9), ("any_place", .list [])]),
    ("other_connectors", .list [vDict [("index", .int 3), ("connect", .list [])]])]) :=
  (connector_shows _ _).1 ⟨[], by rfl⟩
/-- ... and one with a byte too many, which is refused. -/
example : ¬ ∃ v, ShowsConnector (oddConnector ++ [0]) v := by
  rintro ⟨v, h⟩
  obtain ⟨rest, h1⟩ := (connector_shows _ _).2 h
  cases h1

/-- Files with custom properties meet the statements: the sample file with all of them. -/
example : ∃ D header l, ShowsCustom (palCfg (fun _ => true) true)
      (fun s => readList (palCfg (fun _ => true) true) [] s = .error (.exc "Warning: EOF not reached")) D ∧
    FileAt (palCfg (fun _ => true) true) D sampleFile.enc header l [0, 1, 2, 3, 4] := by
  obtain ⟨g, d, g', h, h1, -⟩ := C01_palworld sampleFile rfl sampleFile_wf
  have e : g.trailer = [0, 1, 2, 3, 4] := by
    have := file_read (m := jsonMode) (cfg := palCfg (fun _ => true) true) rfl (fun _ => palCfg_json _ _) sampleFile sampleFile_wf
    cases h1.symm.trans this
    rfl
  obtain ⟨D, hD⟩ := C62_exists (palCfg (fun _ => true) true)
  obtain ⟨l, h2, -⟩ := (C62_file _ _ D (fun _ => Iff.rfl) hD _ _).1 h1
  exact ⟨D, _, l, hD, e ▸ h2⟩

end Pal
