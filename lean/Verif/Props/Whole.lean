import Verif.Spec.Whole
import Verif.Props.Argv
import Verif.Props.WrittenCmd
/-
C69: the whole run of the converter, from the words on the command line to the bytes of the file that it writes.

C68 (what a command line means), C63 and C64 (when the two conversions succeed and what they write), put together.
-/

namespace Pal
open Spec

/-! ### the names -/

theorem strip_unique {s r : PyStr} (h : Stripped s r) : r = stripWith isPySpace s := by
  obtain ⟨a, b, rfl, ha, hb, h1, h2⟩ := h
  have drop : ∀ {a r : PyStr}, (∀ c ∈ a, isPySpace c = true) → (∀ c, r.head? = some c → isPySpace c = false) →
      (a ++ r).dropWhile isPySpace = r := by
    intro a r ha hr
    induction a with
    | nil =>
      cases r with
      | nil => rfl
      | cons c t => rw [List.nil_append, List.dropWhile_cons, hr c rfl]; rfl
    | cons c t ih =>
      rw [List.cons_append, List.dropWhile_cons, ha c (by simp), if_pos rfl]
      exact ih fun c hc => ha c (by simp [hc])
  unfold stripWith
  cases r with
  | nil =>
    have e : (a ++ [] ++ b).dropWhile isPySpace = [] := by
      have := drop (a := a ++ b) (r := []) (fun c hc => by
        rcases List.mem_append.1 hc with h | h
        · exact ha c h
        · exact hb c h) (by simp)
      rwa [List.append_nil] at this ⊢
    rw [e]; rfl
  | cons c t =>
    have e : (a ++ (c :: t) ++ b).dropWhile isPySpace = (c :: t) ++ b := by
      rw [List.append_assoc]
      exact drop ha (by rw [List.cons_append, List.head?_cons]; exact h1)
    rw [e, List.reverse_append, drop (by simpa using hb) (by rw [List.head?_reverse]; exact h2), List.reverse_reverse]

theorem keyList_unique {t : PyStr} {l : List PyStr} (h : KeyList t l) : l = parseKeys t := by
  have none : ∀ {s : PyStr}, (44 : Nat) ∉ s → splitComma s = [s] := by
    intro s h
    induction s with
    | nil => rfl
    | cons c u ih =>
      rw [List.mem_cons, not_or] at h
      rw [splitComma, if_neg (Ne.symm h.1), ih h.2]
  have one : ∀ {s t : PyStr}, (44 : Nat) ∉ s → splitComma (s ++ P "," ++ t) = s :: splitComma t := by
    intro s t h
    induction s with
    | nil => rfl
    | cons c u ih =>
      rw [List.mem_cons, not_or] at h
      rw [List.cons_append, List.cons_append, splitComma, if_neg (Ne.symm h.1), ih h.2]
  induction h with
  | one h1 h2 => rw [parseKeys, none h1, strip_unique h2]; rfl
  | more h1 h2 _ ih => rw [parseKeys, one h1, List.map_cons, ← strip_unique h2, ih]; rfl

theorem prefix_json {p t : PyStr} {c : Nat} (h : ¬ P ".json" <:+: c :: p) : ¬ P ".json" <+: c :: p ++ P ".json" ++ t := by
  intro hp
  rw [dot_json] at hp h
  match p, hp, h with
  | [], hp, _ => simp at hp
  | [a], hp, _ => simp at hp
  | [a, b], hp, _ => simp at hp
  | [a, b, d], hp, _ => simp at hp
  | a :: b :: d :: e :: u, hp, h =>
    refine h (List.IsPrefix.isInfix ?_)
    simp only [List.cons_append, List.cons_prefix_cons] at hp ⊢
    exact ⟨hp.1, hp.2.1, hp.2.2.1, hp.2.2.2.1, hp.2.2.2.2.1, List.nil_prefix⟩

theorem without_unique {x y : PyStr} (h : WithoutJson x y) : removeAll (P ".json") x = y := by
  unfold removeAll
  induction h with
  | @none x h =>
    induction x with
    | nil => rfl
    | cons c t ih =>
      rw [removeAllAux, if_neg, ih fun h' => h (h'.trans (List.suffix_cons c t).isInfix)]
      rw [List.isPrefixOf_iff_prefix]
      exact fun hp => h hp.isInfix
  | @one p t u h _ ih =>
    induction p with
    | nil =>
      rw [dot_json] at ih ⊢
      simpa [removeAllAux] using ih
    | cons c p ihp =>
      rw [List.cons_append, List.cons_append, removeAllAux, if_neg, ihp fun h' => h (h'.trans (List.suffix_cons c p).isInfix)]
      · rfl
      · rw [List.isPrefixOf_iff_prefix]
        exact prefix_json h

theorem target_eq {items : List Item} {usual out : PyStr} {a : Args} (h : Target items usual out)
    (ho : a.output = (outputs items).getLast?) : outputOr a usual = out := by
  unfold outputOr
  rw [ho]
  rcases h with ⟨o, h1, h2, rfl⟩ | ⟨h1 | h1, rfl⟩
  · rw [h1]
    cases out with
    | nil => exact absurd rfl h2
    | cons c t => rfl
  · rw [h1]
  · rw [h1]

theorem selected_eq {items : List Item} {keys : List PyStr} {a : Args} (h : Selected items keys) (hm : Meaning items a) :
    a.keys = keys := by
  cases hk : (keyTexts items).getLast? with
  | none =>
    have := List.getLast?_eq_none_iff.1 hk
    rw [hm.noKeys this, h.2 this]
  | some t => rw [keyList_unique (hm.keys t hk), keyList_unique (h.1 t hk)]

/-! ### the conversion that is run -/

/-- A missing file, or one that is none: nothing is done. -/
theorem main_missing (ext : Ext) (a : Args) (w : World) (h : ∀ b, w.fs a.filename ≠ some (.file b)) :
    convertMain ext a w = (.error (.exit 1), w) := by
  unfold convertMain
  by_cases h1 : (a.toJson && a.fromJson) = true
  · rw [if_pos h1]; rfl
  · rw [if_neg h1]
    simp only [io_bind, pathExists]
    cases hf : w.fs a.filename with
    | none => rfl
    | some x =>
      cases x with
      | file b => exact absurd hf (h b)
      | dir =>
        simp only [Option.isSome_some, Bool.not_true, Bool.false_eq_true, if_false, io_bind, pathIsFile, hf]
        rfl

section
variable (ext : Ext) (digit : Nat → Bool) {items : List Item} {argv : List PyStr} (h : Line items argv) {x : PyStr}
  (hx : files items = [x])
include h hx

/-- The options of the line. -/
theorem argv_run : ∃ a, (∀ w, convertArgv ext digit argv w = convertMain ext a w) ∧ Meaning items a ∧ a.filename = x := by
  obtain ⟨a, ha, hm⟩ := C68_meaning digit h (by rw [hx]; rfl)
  refine ⟨a, fun w => ?_, hm, ?_⟩
  · unfold convertArgv; rw [ha]
  · have := hm.file; rw [hx] at this; exact (List.cons.inj this).1.symm

/-- The run that converts to JSON. -/
theorem run_to {out : PyStr} {keys : List PyStr} (h1 : WantsJson items x) (h2 : ¬ WantsSav items x) (ho : Target items (x ++ P ".json") out)
    (hk : Selected items keys) (w : World) {b : Bytes} (hw : w.fs x = some (.file b)) :
    convertArgv ext digit argv w = convertSavToJson ext x out (decide (.force ∈ items)) (decide (.minify ∈ items))
      (decide (.nanToNull ∉ items)) keys w := by
  obtain ⟨a, ha, hm, rfl⟩ := argv_run ext digit h hx
  unfold WantsSav at h2
  rw [not_or] at h2
  rw [ha, main_only_to ext a w b hw (by rw [hm.toJson]; exact h1) (Bool.eq_false_iff.2 fun h => h2.1 (hm.fromJson.1 h)) h2.2,
    target_eq ho hm.output, selected_eq hk hm]
  have e1 : a.force = decide (.force ∈ items) := by rw [Bool.eq_iff_iff, hm.force, decide_eq_true_iff]
  have e2 : a.minify = decide (.minify ∈ items) := by rw [Bool.eq_iff_iff, hm.minify, decide_eq_true_iff]
  have e3 : a.nanToNull = decide (.nanToNull ∈ items) := by rw [Bool.eq_iff_iff, hm.nanToNull, decide_eq_true_iff]
  rw [e1, e2, e3, decide_not]

/-- The run that converts from JSON. -/
theorem run_from {out usual : PyStr} (h1 : WantsSav items x) (h2 : ¬ WantsJson items x) (hu : WithoutJson x usual)
    (ho : Target items usual out) (w : World) {b : Bytes} (hw : w.fs x = some (.file b)) :
    convertArgv ext digit argv w = convertJsonToSav ext x out (decide (.force ∈ items)) w := by
  obtain ⟨a, ha, hm, rfl⟩ := argv_run ext digit h hx
  unfold WantsJson at h2
  rw [not_or] at h2
  have hu := without_unique hu
  rw [← hu] at ho
  rw [ha, main_only_from ext a w b hw (by rw [hm.fromJson]; exact h1) (Bool.eq_false_iff.2 fun h => h2.1 (hm.toJson.1 h)) h2.2,
    target_eq ho hm.output]
  have e1 : a.force = decide (.force ∈ items) := by rw [Bool.eq_iff_iff, hm.force, decide_eq_true_iff]
  rw [e1]

/-- C69: if there is no such file, the run fails and nothing is changed. -/
theorem C69_missing (w : World) (hw : ∀ b, w.fs x ≠ some (.file b)) : convertArgv ext digit argv w = (.error (.exit 1), w) := by
  obtain ⟨a, ha, -, rfl⟩ := argv_run ext digit h hx
  rw [ha, main_missing ext a w hw]

/-- C69: asking for both directions is refused, and nothing is changed. -/
theorem C69_both_flags (h1 : .toJson ∈ items) (h2 : .fromJson ∈ items) (w : World) :
    convertArgv ext digit argv w = (.error (.exit 1), w) := by
  obtain ⟨a, ha, hm, rfl⟩ := argv_run ext digit h hx
  rw [ha, C43_both ext a w (hm.toJson.2 h1) (hm.fromJson.2 h2)]

/-- C69: if neither the line nor the name says what to do, nothing is done, and the run does not fail. -/
theorem C69_neither (h1 : ¬ WantsJson items x) (h2 : ¬ WantsSav items x) (w : World) (b : Bytes) (hw : w.fs x = some (.file b)) :
    convertArgv ext digit argv w = (.ok (), w) := by
  obtain ⟨a, ha, hm, rfl⟩ := argv_run ext digit h hx
  unfold WantsJson at h1
  unfold WantsSav at h2
  rw [not_or] at h1 h2
  rw [ha, main_file ext a w b hw fun h => h1.1 (hm.toJson.1 h.1), io_bind]
  unfold mainToJson mainFromJson
  have e1 : ¬ (a.toJson || endsWith a.filename ".sav") = true := by
    rw [Bool.or_eq_true, endsWith_iff, hm.toJson, not_or]; exact h1
  have e2 : ¬ (a.fromJson || endsWith a.filename ".json") = true := by
    rw [Bool.or_eq_true, endsWith_iff, hm.fromJson, not_or]; exact h2
  rw [if_neg e1, if_neg e2]
  rfl

/-- C69: the run that converts to JSON succeeds exactly if the user agrees to replace the output, it can be opened, and
the file is a SAV container of a save file whose content is in JSON. -/
theorem C69_to_json (hr : ReprLaw ext.repr) {out : PyStr} {keys : List PyStr} (h1 : WantsJson items x) (h2 : ¬ WantsSav items x)
    (ho : Target items (x ++ P ".json") out) (hk : Selected items keys) (an : Bool) (han : an = true ↔ .nanToNull ∉ items)
    (F : Bytes → Prop) (D : CodecId → Val → Val → Prop)
    (hF : ∀ s, F s ↔ readList (optCfg an keys) [] s = .error (.exc "Warning: EOF not reached")) (hD : ShowsCustom (optCfg an keys) F D)
    (w : World) :
    (convertArgv ext digit argv w).1 = .ok () ↔
      (w.fs out = none ∨ .force ∈ items ∨ Consents w.replies) ∧ w.fs out ≠ some .dir ∧ ext.canCreate out = true ∧
      ∃ data raw ty header l trailer d, w.fs x = some (.file data) ∧ IsSav ext.z.decompress data raw ty ∧
        FileAt (optCfg an keys) D raw header l trailer ∧ Jsonized an (documentOf header l trailer) d := by
  have e : an = decide (.nanToNull ∉ items) := by rw [Bool.eq_iff_iff, han, decide_eq_true_iff]
  by_cases hw : ∃ b, w.fs x = some (.file b)
  · obtain ⟨b, hw⟩ := hw
    rw [run_to ext digit h hx h1 h2 ho hk w hw, ← e, C63_succeeds ext hr an keys F D hF hD, decide_eq_true_iff]
  · rw [C69_missing ext digit h hx w fun b hb => hw ⟨b, hb⟩]
    refine ⟨fun h => (nomatch h), ?_⟩
    rintro ⟨-, -, -, data, -, -, -, -, -, -, hd, -⟩
    exact absurd ⟨data, hd⟩ hw

/-- C69: and then the output is a JSON text for exactly what the save file says; no other file has changed. -/
theorem C69_to_json_output (hr : ReprLaw ext.repr) {out : PyStr} {keys : List PyStr} (h1 : WantsJson items x) (h2 : ¬ WantsSav items x)
    (ho : Target items (x ++ P ".json") out) (hk : Selected items keys) (an : Bool) (han : an = true ↔ .nanToNull ∉ items)
    (F : Bytes → Prop) (D : CodecId → Val → Val → Prop)
    (hF : ∀ s, F s ↔ readList (optCfg an keys) [] s = .error (.exc "Warning: EOF not reached")) (hD : ShowsCustom (optCfg an keys) F D)
    (w : World) (hok : (convertArgv ext digit argv w).1 = .ok ()) (data raw : Bytes) (ty : UInt8) (header : Val)
    (l : List (PyStr × Val)) (trailer : Bytes) (hw : w.fs x = some (.file data)) (hs : IsSav ext.z.decompress data raw ty)
    (hf : FileAt (optCfg an keys) D raw header l trailer) :
    ∃ text d, (convertArgv ext digit argv w).2.fs out = some (.file text) ∧
      Jsonized an (documentOf header l trailer) d ∧ JFile an text d ∧ (∀ x ∈ text, x < 128) ∧
      ∀ p ≠ out, (convertArgv ext digit argv w).2.fs p = w.fs p := by
  have e : an = decide (.nanToNull ∉ items) := by rw [Bool.eq_iff_iff, han, decide_eq_true_iff]
  rw [run_to ext digit h hx h1 h2 ho hk w hw, ← e] at hok ⊢
  exact C63_output ext hr an keys F D hF hD _ _ _ _ w hok data raw ty header l trailer hw hs hf

/-- C69: the run that converts from JSON succeeds exactly if the user agrees to replace the output, it can be opened, and
the file is a JSON text of a document that says a save file, whose bytes, as they are and compressed, number less than
2^32. -/
theorem C69_from_json (hz : ∀ b, ext.z.decompress (ext.z.compress b) = some b) {out usual : PyStr} (h1 : WantsSav items x)
    (h2 : ¬ WantsJson items x) (hu : WithoutJson x usual) (ho : Target items usual out) (w : World) :
    (convertArgv ext digit argv w).1 = .ok () ↔
      (w.fs out = none ∨ .force ∈ items ∨ Consents w.replies) ∧ w.fs out ≠ some .dir ∧ ext.canCreate out = true ∧
      ∃ text d magic ver fmt f, w.fs x = some (.file text) ∧ JFile true text d ∧ SaysDoc (Opens palAll) d magic ver fmt f ∧
        (f.encWith magic ver fmt).length < 2 ^ 32 ∧ (ext.z.compress (f.encWith magic ver fmt)).length < 2 ^ 32 := by
  by_cases hw : ∃ b, w.fs x = some (.file b)
  · obtain ⟨b, hw⟩ := hw
    rw [run_from ext digit h hx h1 h2 hu ho w hw, C64_succeeds ext hz, decide_eq_true_iff]
  · rw [C69_missing ext digit h hx w fun b hb => hw ⟨b, hb⟩]
    refine ⟨fun h => (nomatch h), ?_⟩
    rintro ⟨-, -, -, text, -, -, -, -, -, hd, -⟩
    exact absurd ⟨text, hd⟩ hw

/-- C69: and then the output is a SAV container of exactly that save file, of the type that belongs to it; no other file
has changed. -/
theorem C69_from_json_output (hz : ∀ b, ext.z.decompress (ext.z.compress b) = some b) {out usual : PyStr} (h1 : WantsSav items x)
    (h2 : ¬ WantsJson items x) (hu : WithoutJson x usual) (ho : Target items usual out) (w : World)
    (hok : (convertArgv ext digit argv w).1 = .ok ()) (text : Bytes) (d : Val) (ht : w.fs x = some (.file text))
    (hj : JFile true text d) (magic ver fmt : BitVec 32) (f : File free) (hs : SaysDoc (Opens palAll) d magic ver fmt f) :
    ∃ sav ty, (convertArgv ext digit argv w).2.fs out = some (.file sav) ∧
      IsSav ext.z.decompress sav (f.encWith magic ver fmt) ty ∧ (ty = 0x31 ∨ ty = 0x32) ∧
      (ty = 0x32 ↔ WorldClass f.header.className.val) ∧
      ∀ p ≠ out, (convertArgv ext digit argv w).2.fs p = w.fs p := by
  rw [run_from ext digit h hx h1 h2 hu ho w ht] at hok ⊢
  exact C64_output ext hz _ _ _ w hok text d ht hj magic ver fmt f hs

end

/-- C69: every name has exactly one form without ".json". -/
theorem C69_usual_name (x : PyStr) : ∃ y, WithoutJson x y ∧ ∀ z, WithoutJson x z → z = y := by
  have key : ∃ y, WithoutJson x y := by
    obtain ⟨n, hn⟩ : ∃ n, x.length ≤ n := ⟨_, Nat.le_refl _⟩
    induction n using Nat.strongRecOn generalizing x with
    | _ n ih =>
    by_cases hi : P ".json" <:+: x
    · -- the first one
      have first : ∀ x : PyStr, P ".json" <:+: x → ∃ p t, x = p ++ P ".json" ++ t ∧ ¬ P ".json" <:+: p := by
        intro x
        induction x with
        | nil => intro h; obtain ⟨a, b, h⟩ := h; rw [dot_json] at h; simp at h
        | cons c r ihr =>
          intro h
          by_cases hp : P ".json" <+: c :: r
          · obtain ⟨t, ht⟩ := hp
            exact ⟨[], t, ht.symm, by rw [dot_json]; simp⟩
          · have hr : P ".json" <:+: r := (List.infix_cons_iff.1 h).resolve_left hp
            obtain ⟨p, t, rfl, hq⟩ := ihr hr
            refine ⟨c :: p, t, rfl, fun h' => ?_⟩
            rcases List.infix_cons_iff.1 h' with h' | h'
            · refine hp (h'.trans ?_)
              rw [List.append_assoc]
              exact ⟨P ".json" ++ t, rfl⟩
            · exact hq h'
      obtain ⟨p, t, rfl, hp⟩ := first x hi
      have hl : (P ".json").length = 5 := by decide
      obtain ⟨u, hu⟩ := ih t.length (by simp only [List.length_append] at hn; omega) t (Nat.le_refl _)
      exact ⟨_, .one hp hu⟩
    · exact ⟨x, .none hi⟩
  obtain ⟨y, hy⟩ := key
  exact ⟨y, hy, fun z hz => (without_unique hz).symm.trans (without_unique hy)⟩

/-! ### cases -/

/-- `Saved/Level.sav`, with a reply "maybe" and a reply "Y": the sample file is converted, to `Saved/Level.sav.json`. -/
example : ∃ text d, JFile true text d ∧
    (convertArgv plainExt asciiDigit [P "Saved/Level.sav"] (sampleWorld0 (storedSav sampleFile.enc 0x31))).2.fs
      (P "Saved/Level.sav" ++ P ".json") = some (.file text) := by
  have hl : Line [.file (P "Saved/Level.sav")] [P "Saved/Level.sav"] := .cons (.file (Or.inr (by decide))) .nil
  let keys := palCustoms.map fun kv => P kv.1
  obtain ⟨D, hD⟩ := C62_exists (optCfg true keys)
  have hr := pyRepr_law
  have hF : ∀ s, (fun s => readList (optCfg true keys) [] s = .error (.exc "Warning: EOF not reached")) s ↔
      readList (optCfg true keys) [] s = .error (.exc "Warning: EOF not reached") := fun _ => Iff.rfl
  obtain ⟨g, d, g', h, h1, h2, -⟩ := C01_palworld sampleFile rfl sampleFile_wf
  have e : optCfg true keys = palCfg (fun _ => true) true := by
    unfold optCfg palCfg
    rw [show palCustom (selects keys) = palCustom fun _ => true from funext fun p => by
      have := (C49_default true p).1
      rw [C49_default_keys] at this
      exact this]
  have h1' : gvasRead (optCfg true keys) sampleFile.enc = .ok g := by rw [e]; exact h1
  obtain ⟨header, l, trailer, hf, hd⟩ := (document_iff hF hD sampleFile.enc _).1 ⟨g, h1', rfl⟩
  have hp := file_jpre (palCfg_json _ true) h1
  have hj : Jsonized true (documentOf header l trailer) d := hd ▸ (jsonRT_iff _ _ hp).1 h2
  have hs := storedSav_is sampleFile.enc 0x31 sampleFile_small (.inl rfl)
  have hw := world0_sav (storedSav sampleFile.enc 0x31)
  have a1 : WantsJson [.file (P "Saved/Level.sav")] (P "Saved/Level.sav") := Or.inr (by decide +kernel)
  have a2 : ¬ WantsSav [.file (P "Saved/Level.sav")] (P "Saved/Level.sav") := by
    unfold WantsSav; rw [not_or]; exact ⟨by decide, by decide +kernel⟩
  have a3 : Target [.file (P "Saved/Level.sav")] (P "Saved/Level.sav" ++ P ".json") (P "Saved/Level.sav" ++ P ".json") :=
    Or.inr ⟨Or.inl rfl, rfl⟩
  have a4 : Selected [.file (P "Saved/Level.sav")] keys := ⟨(by intro t h; cases h), fun _ => rfl⟩
  have ok := (C69_to_json plainExt asciiDigit hl rfl hr a1 a2 a3 a4 true (by decide) _ D hF hD
    (sampleWorld0 (storedSav sampleFile.enc 0x31))).2
    ⟨.inr (.inr ⟨[P "maybe"], P "Y", [], rfl, by unfold Yes No; decide +kernel, .inr rfl⟩), by rw [world0_json]; simp, rfl,
      _, _, _, _, _, _, _, hw, hs, hf, hj⟩
  obtain ⟨text, d, h3, h4, h5, -⟩ := C69_to_json_output plainExt asciiDigit hl rfl hr a1 a2 a3 a4 true (by decide) _ D hF hD
    (sampleWorld0 (storedSav sampleFile.enc 0x31)) ok _ _ _ _ _ _ hw hs hf
  exact ⟨text, d, h5, h3⟩

/-- `--output= a.json`: the file of C58 is converted, to `a`. -/
example : ∃ (w : World) (d : Val) (magic ver fmt : BitVec 32) (f : File free) (sav : Bytes) (ty : UInt8),
    w.fs (P "a.json") = some (.file handText) ∧ JFile true handText d ∧ SaysDoc (Opens palAll) d magic ver fmt f ∧
    (convertArgv storeExt asciiDigit [P "--output=", P "a.json"] w).2.fs (P "a") = some (.file sav) ∧
    IsSav storeExt.z.decompress sav (f.encWith magic ver fmt) ty := by
  obtain ⟨w, d, h1, h2, h4⟩ := handOk_spec handOk_text
  obtain ⟨g1, g2, g3, text', d', magic, ver, fmt, f, h5, h6, h7, h8⟩ := (C64_succeeds storeExt (fun _ => rfl) _ _ _ w).1 h4
  have hl : Line [.output [], .file (P "a.json")] [P "--output=", P "a.json"] := by
    refine .cons (i := [.output []]) (ws := [P "--output="]) (Spelling.outputEq (s := P "--output") (v := []) ⟨?_, ?_⟩)
      (.cons (.file (Or.inr (by decide))) .nil)
    · exact List.prefix_refl _
    · decide +kernel
  have a1 : WantsSav [.output [], .file (P "a.json")] (P "a.json") := Or.inr (by decide +kernel)
  have a2 : ¬ WantsJson [.output [], .file (P "a.json")] (P "a.json") := by
    unfold WantsJson; rw [not_or]; exact ⟨by decide, by decide +kernel⟩
  have a3 : WithoutJson (P "a.json") (P "a") := .one (p := P "a") (t := []) (u := []) (by decide +kernel) (.none (by decide +kernel))
  have a4 : Target [.output [], .file (P "a.json")] (P "a") (P "a") := Or.inr ⟨Or.inr rfl, rfl⟩
  have ok := (C69_from_json storeExt asciiDigit hl rfl (fun _ => rfl) a1 a2 a3 a4 w).2
    ⟨g1.imp_right fun h => h.imp_left fun h => (nomatch h), g2, g3, text', d', magic, ver, fmt, f, h5, h6, h7, h8⟩
  rw [h1] at h5
  cases h5
  obtain rfl := jFile_unique h2 h6
  obtain ⟨sav, ty, k1, k2, -⟩ := C69_from_json_output storeExt asciiDigit hl rfl (fun _ => rfl) a1 a2 a3 a4 w ok _ _ h1 h2 _ _ _ f h7
  exact ⟨w, d, magic, ver, fmt, f, sav, ty, h1, h2, h7, k1, k2⟩

/-- C69_neither: `notes.txt`; C69_both_flags: `--to-json --from-json a`. -/
example : ¬ WantsJson [.file (P "notes.txt")] (P "notes.txt") ∧ ¬ WantsSav [.file (P "notes.txt")] (P "notes.txt") := by
  unfold WantsJson WantsSav
  rw [not_or, not_or]
  exact ⟨⟨by decide, by decide +kernel⟩, ⟨by decide, by decide +kernel⟩⟩

/-- The name of C42_other_names. -/
example : WithoutJson (P "my.json.sav.json") (P "my.sav") :=
  .one (p := P "my") (t := P ".sav.json") (u := P ".sav") (by decide +kernel)
    (.one (p := P ".sav") (t := []) (u := []) (by decide +kernel) (.none (by decide +kernel)))

end Pal
