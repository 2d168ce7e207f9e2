import Verif.Lemmas.Base64
import Verif.Lemmas.Shown
import Verif.Props.Sample
/-
C61: every file is shown as what its bytes say.

The round-trip theorems (C01-C04) say that what the tool writes it reads back, C58 says what the bytes of
a document are.  Here the other direction is settled for every byte string whatever: also for files the
tool would never write (any nonzero byte as a flag, wrong sizes, names that come twice, texts in the wider
encoding without need), reading succeeds exactly if the bytes are a file in the sense of `Spec/Shown.lean`,
and then shows exactly what they say.
-/

namespace Pal
open Spec

/-- C61: without custom properties, a byte string is read as `g` exactly if it is a file that says `g`. -/
theorem C61_shown (cfg : Cfg) (hc : ∀ p, cfg.custom p = none) (data : Bytes) (g : Gvas) :
    gvasRead cfg data = .ok g ↔
      ∃ l, FileAt cfg (fun _ _ _ => False) data g.header.dump l g.trailer ∧ g.properties = .dict (dictOf l) :=
  gvasRead_iff fun p c h => by rw [hc] at h; cases h

/-- C61: with custom properties, whose decoders show the plain value `v` as `w` if `D c v w`. -/
theorem C61_custom (cfg : Cfg) (D : CodecId → Val → Val → Prop)
    (hD : ∀ path c, cfg.custom path = some c → ∀ v w, D c v w ↔ c.post cfg.allowNan (readList cfg []) v = .ok w)
    (data : Bytes) (g : Gvas) :
    gvasRead cfg data = .ok g ↔
      ∃ l, FileAt cfg D data g.header.dump l g.trailer ∧ g.properties = .dict (dictOf l) :=
  gvasRead_iff hD

/-- C61: the document of a byte string. -/
theorem C61_document (cfg : Cfg) (D : CodecId → Val → Val → Prop)
    (hD : ∀ path c, cfg.custom path = some c → ∀ v w, D c v w ↔ c.post cfg.allowNan (readList cfg []) v = .ok w)
    (data : Bytes) (doc : Val) :
    (∃ g, gvasRead cfg data = .ok g ∧ g.dump = doc) ↔
      ∃ header l trailer, FileAt cfg D data header l trailer ∧
        doc = vDict [("header", header), ("properties", .dict (dictOf l)), ("trailer", .str (B64.text trailer))] := by
  constructor
  · rintro ⟨g, h, rfl⟩
    obtain ⟨l, h1, h2⟩ := (gvasRead_iff hD).1 h
    exact ⟨_, l, _, h1, by rw [← h2, B64.text_eq]; rfl⟩
  · rintro ⟨header, l, trailer, h, rfl⟩
    obtain ⟨s, h1, -⟩ := h.split
    obtain ⟨hd, rfl⟩ := headerLayout_dump h1
    exact ⟨⟨hd, .dict (dictOf l), trailer⟩, (gvasRead_iff hD).2 ⟨l, h, rfl⟩, by rw [B64.text_eq]; rfl⟩

/-- C61: a byte string says at most one file. -/
theorem C61_unambiguous (cfg : Cfg) (hc : ∀ p, cfg.custom p = none) (D : CodecId → Val → Val → Prop) (data : Bytes)
    (header header' : Val) (l l' : List (PyStr × Val)) (trailer trailer' : Bytes)
    (h : FileAt cfg D data header l trailer) (h' : FileAt cfg D data header' l' trailer') :
    header = header' ∧ dictOf l = dictOf l' ∧ trailer = trailer' := by
  have hD : Decodes cfg D := fun p c h => by rw [hc] at h; cases h
  obtain ⟨s, h1, -⟩ := h.split
  obtain ⟨hd, rfl⟩ := headerLayout_dump h1
  obtain ⟨s', h1', -⟩ := h'.split
  obtain ⟨hd', rfl⟩ := headerLayout_dump h1'
  have e := (gvasRead_iff (g := ⟨hd, .dict (dictOf l), trailer⟩) hD).2 ⟨l, h, rfl⟩
  have e' := (gvasRead_iff (g := ⟨hd', .dict (dictOf l'), trailer'⟩) hD).2 ⟨l', h', rfl⟩
  rw [e] at e'
  simp only [Except.ok.injEq, Gvas.mk.injEq, Val.dict.injEq] at e'
  exact ⟨by rw [e'.1], e'.2.1, e'.2.2⟩

/-! ### Cases -/

/-- A configuration without hints and custom properties. -/
def bareCfg : Cfg := ⟨fun _ => none, fun _ => none, true⟩

/-- A list that the tool would not write: the truth value 7, the same name twice, a wrong size, a name in
the wider encoding. -/
def oddList : Bytes :=
  [0xfe, 0xff, 0xff, 0xff, 65, 0, 0, 0] ++ [13, 0, 0, 0] ++ pyBytes "BoolProperty" ++ [0] ++
    [9, 0, 0, 0, 0, 0, 0, 0] ++ [7, 0] ++
  [2, 0, 0, 0, 66, 0] ++ [12, 0, 0, 0] ++ pyBytes "IntProperty" ++ [0] ++ [4, 0, 0, 0, 0, 0, 0, 0] ++ [0] ++
    [0xff, 0xff, 0xff, 0xff] ++
  [2, 0, 0, 0, 65, 0] ++ [12, 0, 0, 0] ++ pyBytes "IntProperty" ++ [0] ++ [4, 0, 0, 0, 0, 0, 0, 0] ++ [0] ++
    [5, 0, 0, 0] ++
  [5, 0, 0, 0] ++ pyBytes "None" ++ [0] ++ [42]
where pyBytes (s : String) : Bytes := s.toList.map fun c => c.toNat.toUInt8

def oddShown : Val :=
  vDict [("A", vDict [("id", .none), ("value", .int 5), ("type", .str (P "IntProperty"))]),
    ("B", vDict [("id", .none), ("value", .int (-1)), ("type", .str (P "IntProperty"))])]

set_option maxRecDepth 20000 in
example : ∃ l, ListAt bareCfg (fun _ _ _ => False) [] oddList l [42] ∧ oddShown = .dict (dictOf l) :=
  (readList_iff (cfg := bareCfg) fun p c h => by cases h).1 (by rfl)

/-- The sample file meets the statements for every selection of custom properties. -/
example : ∃ header l, FileAt (palCfg (fun _ => true) true)
    (fun c v w => c.post true (readList (palCfg (fun _ => true) true) []) v = .ok w) sampleFile.enc header l [0, 1, 2, 3, 4] := by
  obtain ⟨g, d, g', h, h1, -⟩ := C01_palworld sampleFile rfl sampleFile_wf
  have e : g.trailer = [0, 1, 2, 3, 4] := by
    have := file_read (m := jsonMode) (cfg := palCfg (fun _ => true) true) rfl (fun _ => palCfg_json _ _) sampleFile sampleFile_wf
    cases h1.symm.trans this
    rfl
  obtain ⟨l, h2, -⟩ := (C61_custom _ _ (fun _ _ _ _ _ => Iff.rfl) _ _).1 h1
  exact ⟨_, l, e ▸ h2⟩

end Pal
