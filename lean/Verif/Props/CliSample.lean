import Verif.Props.Cli
import Verif.Props.Sample
import Verif.Lemmas.FloatRepr
/-
The laws assumed of zlib and of `repr` can be met: stored (uncompressed) payloads and the model
of `float.__repr__`.  With them, cases that meet the hypotheses of the theorems about the
command line.
-/

namespace Pal
open Spec

/-- Stored payloads. -/
def plainExt : Ext where
  z := ⟨fun b => b, fun b => some b⟩
  repr := pyRepr
  canCreate _ := true

/-- The laws can be met. -/
theorem plainExt_laws : ExtLaws plainExt where
  zlib _ := rfl
  repr := pyRepr_law

/-! ### cases -/

/-- A SAV container with a stored payload. -/
def storedSav (d : Bytes) (ty : UInt8) : Bytes := lit 4 d.length ++ lit 4 d.length ++ plz ++ [ty] ++ d

theorem storedSav_is (d : Bytes) (ty : UInt8) (hd : d.length < 2 ^ 32) (ht : ty = 0x31 ∨ ty = 0x32) :
    IsSav plainExt.z.decompress (storedSav d ty) d ty :=
  ⟨[], d, d.length, .inl rfl, rfl, hd, hd, ht.imp (fun h => ⟨h, rfl, rfl⟩) fun h => ⟨h, d, rfl, rfl, rfl⟩⟩

theorem sampleFile_length : sampleFile.enc.length = 1400 := by decide +kernel

theorem sampleFile_small : sampleFile.enc.length < 2 ^ 32 := by rw [sampleFile_length]; decide

/-- The save file `d`, an old JSON file, a directory; the user would answer yes. -/
def sampleWorld0 (d : Bytes) : World := ⟨fun p => if p = P "Saved/Level.sav" then some (.file d) else
  if p = P "Saved/Level.sav.json" then some (.file [1, 2]) else if p = P "Saved" then some .dir else none, [P "maybe", P "Y"]⟩

theorem world0_sav (d : Bytes) : (sampleWorld0 d).fs (P "Saved/Level.sav") = some (.file d) := by
  unfold sampleWorld0; simp only; rw [if_pos trivial]
theorem world0_json (d : Bytes) : (sampleWorld0 d).fs (P "Saved/Level.sav" ++ P ".json") = some (.file [1, 2]) := by
  have h1 : P "Saved/Level.sav" ++ P ".json" ≠ P "Saved/Level.sav" := by decide +kernel
  have h2 : P "Saved/Level.sav" ++ P ".json" = P "Saved/Level.sav.json" := by decide +kernel
  unfold sampleWorld0
  simp only
  rw [if_neg h1, if_pos h2]
theorem world0_none (d : Bytes) (p : PyStr) (h : p ∉ [P "Saved/Level.sav", P "Saved/Level.sav.json", P "Saved"]) :
    (sampleWorld0 d).fs p = none := by
  simp only [List.mem_cons, List.not_mem_nil, or_false, not_or] at h
  unfold sampleWorld0
  simp only
  rw [if_neg h.1, if_neg h.2.1, if_neg h.2.2]

/-- C01: the two conversions of the sample file. -/
example := C01_cli plainExt plainExt_laws (fun _ => rfl) sampleFile rfl sampleFile_wf sampleFile_small (P "Saved/Level.sav")
  (by decide +kernel) (by decide +kernel) (sampleWorld0 (storedSav sampleFile.enc 0x31)) _ 0x31 (world0_sav _)
  (storedSav_is _ _ sampleFile_small (.inl rfl)) (.inr ⟨[1, 2], world0_json _⟩) true false false [P "all"] []

/-- C47: the resave test of the sample file. -/
theorem resave_sample : ∃ ty, (resaveMain plainExt (P "Saved/Level.sav") (sampleWorld0 (storedSav sampleFile.enc ty))).1 = .ok () := by
  have key : ∀ ty : UInt8, (ty = 0x31 ∨ ty = 0x32) → (ty = 0x32 ↔ WorldClass sampleFile.header.className.val) →
      (resaveMain plainExt (P "Saved/Level.sav") (sampleWorld0 (storedSav sampleFile.enc ty))).1 = .ok () := fun ty h1 h2 =>
    C47_success plainExt plainExt_laws (fun _ => rfl) sampleFile rfl rfl sampleFile_wf sampleFile_small _ _ _ ty (world0_sav _)
      (storedSav_is _ _ sampleFile_small h1) h2 (world0_none _ _ (by decide +kernel)) (world0_none _ _ (by decide +kernel))
  rcases Classical.em (WorldClass sampleFile.header.className.val) with h | h
  · exact ⟨0x32, key _ (.inr rfl) ⟨fun _ => h, fun _ => rfl⟩⟩
  · exact ⟨0x31, key _ (.inl rfl) ⟨fun e => absurd e (by decide), fun e => absurd e h⟩⟩

/-- C44: the counterexample is a run that exists. -/
example := C44_sav_to_json_counterexample plainExt (P "Saved/Level.sav") (P "Saved/Level.sav" ++ P ".json") rfl
  (sampleWorld0 (storedSav nanFile.enc 0x31)) _ [1, 2] 0x31 true (world0_sav _) (storedSav_is _ _ (by decide +kernel) (.inl rfl))
  (world0_json _)

/-- C43: `--to-json` alone. -/
example := C43_to_json_partial plainExt ⟨P "Saved/Level.sav", true, false, none, true, false, false, []⟩
  (sampleWorld0 [1, 2, 3]) _ (world0_sav _) rfl rfl (by decide +kernel)

/-- C43: `--from-json` does not override ".sav". -/
example : ∃ e, (convertMain plainExt ⟨P "Saved/Level.sav", false, true, none, true, false, false, []⟩ (sampleWorld0 [1, 2, 3])).1 = .error e := by
  obtain ⟨e, h, -⟩ := C43_from_json_counterexample plainExt ⟨P "Saved/Level.sav", false, true, none, true, false, false, []⟩
    (sampleWorld0 [1, 2, 3]) _ (world0_sav _) (by decide +kernel) (by
      rintro d ty ⟨pre, payload, n, -, h, -⟩
      have := congrArg List.length h
      simp only [List.length_append, lit_length, List.length_cons, List.length_nil] at this
      omega)
  exact ⟨e, h⟩

/-- C41: with consent the old file is replaced, and the replies used contain a yes. -/
example : ∃ used, (sampleWorld0 (storedSav sampleFile.enc 0x31)).replies = used ++
    (convertMain plainExt ⟨P "Saved/Level.sav", false, false, none, false, false, false, []⟩
      (sampleWorld0 (storedSav sampleFile.enc 0x31))).2.replies :=
  (C41_convert plainExt _ _).imp fun _ h => h.1

end Pal
