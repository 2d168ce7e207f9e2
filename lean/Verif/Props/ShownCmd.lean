import Verif.Lemmas.InJson
import Verif.Props.ShownBlobs
import Verif.Props.JsonText
import Verif.Props.CliSample
/-
C63: the JSON file that the command writes says what the save file says.

C62 (what the bytes of a file say), C25 (what a SAV container holds), C56 (what a JSON text denotes) and C46
(what the user's replies mean), put together for the command that converts a save file to JSON.
-/

namespace Pal
open Spec

theorem ask_iff (out : PyStr) (force : Bool) (w : World) :
    (askOverwrite out force w).1 = .ok () ↔ w.fs out = none ∨ force = true ∨ Consents w.replies := by
  unfold askOverwrite
  simp only [io_bind, pathExists]
  cases hf : w.fs out with
  | none => exact ⟨fun _ => .inl rfl, fun _ => rfl⟩
  | some nd =>
    simp only [Option.isSome_some, if_true]
    cases force with
    | true => exact ⟨fun _ => .inr (.inl rfl), fun _ => rfl⟩
    | false =>
      have hi : Consents w.replies ↔ (confirmPrompt w).1 = .ok true := (C46_iff w).symm
      simp only [Bool.false_eq_true, if_false, io_bind, hi, reduceCtorEq, false_or]
      cases hc : confirmPrompt w with
      | mk r w' =>
        cases r with
        | error e => simp
        | ok b => cases b with
          | true => exact ⟨fun _ => rfl, fun _ => rfl⟩
          | false => exact ⟨fun h => (by cases h), fun h => (by cases h)⟩

theorem open_iff (ext : Ext) (out : PyStr) (w : World) :
    openTrunc ext out w = (.ok (), w.put out []) ↔ w.fs out ≠ some .dir ∧ ext.canCreate out = true := by
  unfold openTrunc
  cases hf : w.fs out with
  | none => cases ext.canCreate out <;> simp
  | some nd => cases nd with
    | dir => simp
    | file b => cases ext.canCreate out <;> simp

/-- What a file says, as the document that `dump` makes. -/
theorem document_iff {cfg : Cfg} {F : Bytes → Prop} {D : CodecId → Val → Val → Prop}
    (hF : ∀ s, F s ↔ readList cfg [] s = .error (.exc "Warning: EOF not reached")) (hD : ShowsCustom cfg F D) (data : Bytes) (doc : Val) :
    (∃ g, gvasRead cfg data = .ok g ∧ g.dump = doc) ↔
      ∃ header l trailer, FileAt cfg D data header l trailer ∧ doc = documentOf header l trailer := by
  constructor
  · rintro ⟨g, h, rfl⟩
    obtain ⟨l, h1, h2⟩ := (C62_file cfg F D hF hD data g).1 h
    exact ⟨_, l, _, h1, by unfold documentOf; rw [← h2, B64.text_eq]; rfl⟩
  · rintro ⟨header, l, trailer, h, rfl⟩
    obtain ⟨s, h1, -⟩ := h.split
    obtain ⟨hd, rfl⟩ := headerLayout_dump h1
    exact ⟨⟨hd, .dict (dictOf l), trailer⟩, (C62_file cfg F D hF hD data _).2 ⟨l, h, rfl⟩, by unfold documentOf; rw [B64.text_eq]; rfl⟩

/-- The custom properties and the treatment of floats that the options select. -/
def optCfg (an : Bool) (keys : List PyStr) : Cfg := palCfg (selects keys) an

variable (ext : Ext) (hr : ReprLaw ext.repr) (an : Bool) (keys : List PyStr) (F : Bytes → Prop) (D : CodecId → Val → Val → Prop)
  (hF : ∀ s, F s ↔ readList (optCfg an keys) [] s = .error (.exc "Warning: EOF not reached")) (hD : ShowsCustom (optCfg an keys) F D)
include hr hF hD

/-- The run of the command that does not stop before the output is opened. -/
theorem savToJson_says (filename out : PyStr) (minify : Bool) (w : World) (header : Val) (l : List (PyStr × Val))
    (trailer data raw : Bytes) (ty : UInt8) (d : Val) (hw : w.fs filename = some (.file data)) (hs : IsSav ext.z.decompress data raw ty)
    (hf : FileAt (optCfg an keys) D raw header l trailer) (hj : Jsonized an (documentOf header l trailer) d)
    (ho : w.fs out ≠ some .dir ∧ ext.canCreate out = true) :
    ∃ text, savToJsonRest ext filename out minify an keys w = (.ok (), (w.put out []).put out text) ∧ (∀ x ∈ text, x < 128) ∧
      JFile an text d := by
  obtain ⟨g, hg, hd⟩ := (document_iff hF hD raw _).2 ⟨header, l, trailer, hf, rfl⟩
  have hp := file_jpre (palCfg_json (selects keys) an) hg
  rw [← hd] at hj
  obtain ⟨b, h1, -⟩ := C56_dump_load ext.repr hr minify an _ d (jpre_cp _ hp) ((jsonRT_iff _ _ hp).2 hj)
  obtain ⟨h2, d', h3, h4⟩ := C56_dump ext.repr hr minify an _ (jpre_cp _ hp) b h1
  rw [(jsonRT_iff _ _ hp).2 hj, Except.ok.injEq] at h3
  subst h3
  refine ⟨b, ?_, h2, h4⟩
  have hrd : readFile filename w = (.ok data, w) := by unfold readFile; rw [hw]
  have hz := (C25_sav_validation ext.z data raw ty).2 hs
  have hop := (open_iff ext out w).2 ho
  have hj2 : ext.jdump minify an g.dump = (b, none) := h1
  unfold optCfg at hg
  unfold savToJsonRest
  rw [io_bind, hrd]
  simp only [io_bind, ioLift, hz, hg, hop, writeOut, hj2]
  rfl

/-- C63: the conversion to JSON succeeds exactly if the user agrees to replace the output, the input is a SAV
container of a file, what it says is in JSON (a GUID cut short is not, nor are NaN and infinities without
`an`), and the output can be opened. -/
theorem C63_succeeds (filename out : PyStr) (force minify : Bool) (w : World) :
    (convertSavToJson ext filename out force minify an keys w).1 = .ok () ↔
      (w.fs out = none ∨ force = true ∨ Consents w.replies) ∧ w.fs out ≠ some .dir ∧ ext.canCreate out = true ∧
      ∃ data raw ty header l trailer d, w.fs filename = some (.file data) ∧ IsSav ext.z.decompress data raw ty ∧
        FileAt (optCfg an keys) D raw header l trailer ∧ Jsonized an (documentOf header l trailer) d := by
  rw [savToJson_eq, io_bind, ← ask_iff out force w]
  obtain ⟨h1, -⟩ := ask_spec out force w
  cases ha : askOverwrite out force w with
  | mk r w' =>
    rw [ha] at h1
    simp only at h1
    cases r with
    | error e => simp
    | ok u =>
      simp only [true_and]
      constructor
      · intro h
        rcases savToJson_cases ext filename out minify an keys w' with ⟨e, he⟩ | ⟨data, raw, ty, g, e1, e2, e3, e4, e5⟩
        · rw [he] at h; cases h
        rw [e5] at h
        obtain ⟨ty', -, hs⟩ := sav_of_decompress e2
        have ho := (open_iff ext out w').1 e4
        obtain ⟨header, l, trailer, hf, hd⟩ := (document_iff hF hD raw _).1 ⟨g, e3, rfl⟩
        have hp := file_jpre (palCfg_json (selects keys) an) e3
        have hb := jsonDump_err ext.repr minify an g.dump
        unfold Ext.jdump at h
        rw [hb] at h
        cases hj : jsonRT an g.dump with
        | error e => rw [hj] at h; cases h
        | ok d =>
          refine ⟨h1 ▸ ho.1, ho.2, data, raw, ty', header, l, trailer, d, h1 ▸ e1, hs, hf, ?_⟩
          rw [← hd]
          exact (jsonRT_iff _ _ hp).1 hj
      · rintro ⟨ho1, ho2, data, raw, ty, header, l, trailer, d, hw, hs, hf, hj⟩
        obtain ⟨text, ht, -⟩ := savToJson_says ext hr an keys F D hF hD filename out minify w' header l trailer data raw ty d
          (h1 ▸ hw) hs hf hj ⟨h1 ▸ ho1, ho2⟩
        rw [ht]

/-- C63: and then the output is an ASCII text, with or without indentation, that denotes exactly what the save
file says; nothing else has changed. -/
theorem C63_output (filename out : PyStr) (force minify : Bool) (w : World)
    (h : (convertSavToJson ext filename out force minify an keys w).1 = .ok ()) (data raw : Bytes) (ty : UInt8) (header : Val)
    (l : List (PyStr × Val)) (trailer : Bytes) (hw : w.fs filename = some (.file data)) (hs : IsSav ext.z.decompress data raw ty)
    (hf : FileAt (optCfg an keys) D raw header l trailer) :
    ∃ text d, (convertSavToJson ext filename out force minify an keys w).2.fs out = some (.file text) ∧
      Jsonized an (documentOf header l trailer) d ∧ JFile an text d ∧ (∀ x ∈ text, x < 128) ∧
      ∀ p ≠ out, (convertSavToJson ext filename out force minify an keys w).2.fs p = w.fs p := by
  obtain ⟨ha, ho1, ho2, data', raw', ty', header', l', trailer', d, hw', hs', hf', hj⟩ :=
    (C63_succeeds ext hr an keys F D hF hD filename out force minify w).1 h
  rw [hw] at hw'
  cases hw'
  obtain ⟨rfl, rfl⟩ := C25_sav_unambiguous _ _ _ _ _ _ hs hs'
  obtain ⟨rfl, hl, rfl⟩ := C62_unambiguous _ F D D hF hD hD raw _ _ _ _ _ _ hf hf'
  have hj' : Jsonized an (documentOf header l trailer) d := by
    unfold documentOf at hj ⊢
    rw [hl]
    exact hj
  rw [savToJson_eq, io_bind]
  obtain ⟨h1, -⟩ := ask_spec out force w
  have h2 := (ask_iff out force w).2 ha
  cases hk : askOverwrite out force w with
  | mk r w' =>
    rw [hk] at h1 h2
    simp only at h1 h2
    subst h2
    simp only
    obtain ⟨text, ht, h3, h4⟩ := savToJson_says ext hr an keys F D hF hD filename out minify w' header l trailer data raw ty d
      (h1 ▸ hw) hs hf hj' ⟨h1 ▸ ho1, ho2⟩
    rw [ht]
    refine ⟨text, d, ?_, hj', h4, h3, fun p hp => ?_⟩
    · simp [World.put]
    · simp [World.put, hp, h1]

omit hr hF hD

/-! ### cases -/

/-- The sample file: the command succeeds after the reply "maybe" and "Y". -/
example : ∃ text d, JFile true text d ∧
    (convertSavToJson plainExt (P "Saved/Level.sav") (P "Saved/Level.sav" ++ P ".json") false true true [P "all"]
      (sampleWorld0 (storedSav sampleFile.enc 0x31))).2.fs (P "Saved/Level.sav" ++ P ".json") = some (.file text) := by
  obtain ⟨D, hD⟩ := C62_exists (optCfg true [P "all"])
  have hr := pyRepr_law
  have hF : ∀ s, (fun s => readList (optCfg true [P "all"]) [] s = .error (.exc "Warning: EOF not reached")) s ↔
      readList (optCfg true [P "all"]) [] s = .error (.exc "Warning: EOF not reached") := fun _ => Iff.rfl
  obtain ⟨g, d, g', h, h1, h2, -⟩ := C01_palworld sampleFile rfl sampleFile_wf
  have e : optCfg true [P "all"] = palCfg (fun _ => true) true := by
    unfold optCfg
    congr 1
  have h1' : gvasRead (optCfg true [P "all"]) sampleFile.enc = .ok g := by rw [e]; exact h1
  obtain ⟨header, l, trailer, hf, hd⟩ := (document_iff hF hD sampleFile.enc _).1 ⟨g, h1', rfl⟩
  have hp := file_jpre (palCfg_json _ true) h1
  have hj : Jsonized true (documentOf header l trailer) d := hd ▸ (jsonRT_iff _ _ hp).1 h2
  have hs := storedSav_is sampleFile.enc 0x31 sampleFile_small (.inl rfl)
  have hw := world0_sav (storedSav sampleFile.enc 0x31)
  have ok := (C63_succeeds plainExt hr true [P "all"] _ D hF hD (P "Saved/Level.sav") (P "Saved/Level.sav" ++ P ".json") false true
    (sampleWorld0 (storedSav sampleFile.enc 0x31))).2
    ⟨.inr (.inr ⟨[P "maybe"], P "Y", [], rfl, by unfold Yes No; decide +kernel, .inr rfl⟩), by rw [world0_json]; simp, rfl,
      _, _, _, _, _, _, _, hw, hs, hf, hj⟩
  obtain ⟨text, d, h3, h4, h5, -⟩ := C63_output plainExt hr true [P "all"] _ D hF hD (P "Saved/Level.sav") (P "Saved/Level.sav" ++ P ".json") false true
    (sampleWorld0 (storedSav sampleFile.enc 0x31)) ok _ _ _ _ _ _ hw hs hf
  exact ⟨text, d, h5, h3⟩

end Pal
