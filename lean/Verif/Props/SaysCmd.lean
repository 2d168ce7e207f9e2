import Verif.Props.Says
import Verif.Props.JsonText
import Verif.Props.Cli
/-
C58 for JSON files and the command.
-/

namespace Pal
open Spec

/-! ### what `json.load` makes -/

theorem dset_plain {d : Dict} {k : PyStr} {v : Val} (hd : ∀ kv ∈ d, Normal kv.1 ∧ PlainDoc kv.2) (hk : Normal k)
    (hv : PlainDoc v) : ∀ kv ∈ dset d k v, Normal kv.1 ∧ PlainDoc kv.2 := by
  induction d with
  | nil =>
    intro kv h
    cases List.mem_singleton.1 h
    exact ⟨hk, hv⟩
  | cons a t ih =>
    obtain ⟨k', v'⟩ := a
    intro kv h
    unfold dset at h
    split at h
    · rcases List.mem_cons.1 h with rfl | h
      · exact ⟨(hd _ List.mem_cons_self).1, hv⟩
      · exact hd _ (List.mem_cons_of_mem _ h)
    · rcases List.mem_cons.1 h with rfl | h
      · exact hd _ List.mem_cons_self
      · exact ih (fun x hx => hd x (List.mem_cons_of_mem _ hx)) kv h

theorem dupdate_plain : ∀ {l d : Dict}, (∀ kv ∈ d, Normal kv.1 ∧ PlainDoc kv.2) →
    (∀ kv ∈ l, Normal kv.1 ∧ PlainDoc kv.2) →
    ∀ kv ∈ dupdate d l, Normal kv.1 ∧ PlainDoc kv.2
  | [], _, hd, _ => hd
  | (k, v) :: t, d, hd, hl => by
    unfold dupdate
    exact dupdate_plain (dset_plain hd (hl _ List.mem_cons_self).1 (hl _ List.mem_cons_self).2)
      (fun x hx => hl x (List.mem_cons_of_mem _ hx))

theorem plainD_of : ∀ {d : Dict}, (∀ kv ∈ d, Normal kv.1 ∧ PlainDoc kv.2) → PlainDocD d
  | [], _ => trivial
  | (k, v) :: t, h => by
    simp only [PlainDocD]
    exact ⟨(h _ List.mem_cons_self).1, (h _ List.mem_cons_self).2, plainD_of (fun x hx => h x (List.mem_cons_of_mem _ hx))⟩

theorem plainL_of : ∀ {l : List Val}, (∀ v ∈ l, PlainDoc v) → PlainDocL l
  | [], _ => trivial
  | v :: t, h => by
    simp only [PlainDocL]
    exact ⟨h _ List.mem_cons_self, plainL_of (fun x hx => h x (List.mem_cons_of_mem _ hx))⟩

mutual
theorem jText_plain {e : Bool} : ∀ {t : PyStr} {v : Val}, JText e t v → PlainDoc v
  | _, _, .null => trivial
  | _, _, .true => trivial
  | _, _, .false => trivial
  | _, _, .num h => by cases h <;> trivial
  | _, _, .nan _ => trivial
  | _, _, .inf _ => trivial
  | _, _, .negInf _ => trivial
  | _, _, .str h => by
    obtain ⟨_, _, -, -, h, -⟩ := h
    simpa only [PlainDoc] using h
  | _, _, .arr0 _ => by simp only [PlainDoc, PlainDocL]
  | _, _, .arr h => by
    simp only [PlainDoc]
    exact plainL_of (jElems_plain h)
  | _, _, .obj0 _ => by simp only [PlainDoc, PlainDocD]
  | _, _, .obj h => by
    simp only [PlainDoc]
    exact plainD_of (dupdate_plain (by simp) (jMembers_plain h))
theorem jElems_plain {e : Bool} : ∀ {t : PyStr} {l : List Val}, JElems e t l → ∀ v ∈ l, PlainDoc v
  | _, _, .one _ h _ => by
    have := jText_plain h
    intro v hv
    cases List.mem_singleton.1 hv
    exact this
  | _, _, .more _ h _ ht => by
    have h1 := jText_plain h
    have h2 := jElems_plain ht
    intro v hv
    rcases List.mem_cons.1 hv with rfl | hv
    · exact h1
    · exact h2 v hv
theorem jMembers_plain {e : Bool} : ∀ {t : PyStr} {l : List (PyStr × Val)}, JMembers e t l →
    ∀ kv ∈ l, Normal kv.1 ∧ PlainDoc kv.2
  | _, _, .one _ hk _ _ h _ => by
    have h1 := jText_plain h
    obtain ⟨_, _, -, -, hk, -⟩ := hk
    intro v hv
    cases List.mem_singleton.1 hv
    exact ⟨hk, h1⟩
  | _, _, .more _ hk _ _ h _ ht => by
    have h1 := jText_plain h
    have h2 := jMembers_plain ht
    obtain ⟨_, _, -, -, hk, -⟩ := hk
    intro v hv
    rcases List.mem_cons.1 hv with rfl | hv
    · exact ⟨hk, h1⟩
    · exact h2 v hv
end

theorem jFile_plain {e : Bool} {b : Bytes} {v : Val} (h : JFile e b v) : PlainDoc v := by
  obtain ⟨_, -, _, _, _, -, h, -⟩ := h
  exact jText_plain h

/-! ### the command -/

/-- C58: whatever JSON file the command converts, written by the tool or by hand, the save file it leaves holds
exactly what the JSON document says. -/
theorem C58_command (ext : Ext) (hz : ∀ b, ext.z.decompress (ext.z.compress b) = some b) (filename out : PyStr) (force : Bool)
    (w : World) (text : Bytes) (d : Val) (ht : w.fs filename = some (.file text)) (hj : JFile true text d)
    (h : (convertJsonToSav ext filename out force w).1 = .ok ()) :
    ∃ magic ver fmt f sav ty, SaysDoc (Opens palAll) d magic ver fmt f ∧
      (convertJsonToSav ext filename out force w).2.fs out = some (.file sav) ∧
      IsSav ext.z.decompress sav (f.encWith magic ver fmt) ty := by
  obtain ⟨text', d', g, s, b, g', sav, h1, h2, h3, -, h4, h5, ty, h6, -⟩ := C45_save_type ext hz filename out force w h
  rw [ht] at h1
  cases h1
  rw [Ext.jload, (C56_load text d).2 hj] at h2
  cases h2
  obtain ⟨magic, ver, fmt, f, h7, rfl⟩ := C58_written d (jFile_plain hj) palAll g g' h3 b h4
  exact ⟨magic, ver, fmt, f, sav, ty, h7, h5, h6⟩

/-! ### a case -/

/-- A JSON file as someone may write it by hand. -/
def handText : Bytes := (
  P "{\"properties\": {\"A\": {\"type\": \"IntProperty\", " ++
  P "\"value\": true}, \"B\": {\"value\": 3, \"type\": \"Fl" ++
  P "oatProperty\"},\n  \"C\" : {\"type\": \"ArrayPropert" ++
  P "y\", \"array_type\": \"NameProperty\", \"value\": {\"" ++
  P "values\": [\"x\", \"\\u0079\"]}}},\n \"header\": {\"mag" ++
  P "ic\": 1396790855, \"save_game_version\": 3, \"pac" ++
  P "kage_file_version_ue4\": 522, \"package_file_ve" ++
  P "rsion_ue5\": 1008,\n  \"engine_version_major\": 5" ++
  P ", \"engine_version_minor\": 1, \"engine_version_" ++
  P "patch\": 1, \"engine_version_changelist\": 0,\n  " ++
  P "\"engine_version_branch\": \"b\", \"custom_version" ++
  P "_format\": 3,\n  \"custom_versions\": [[\"01020304" ++
  P "-0506-0708-090a-0b0c0d0e0f10\", 7]], \"save_gam" ++
  P "e_class_name\": \"/Script/Pal.PalWorldSaveGame\"" ++
  P "},\n \"trailer\": \"AAAAAA==\"}").map UInt8.ofNat

/-- Storing without compressing, for the case. -/
def storeExt : Ext := ⟨⟨id, some⟩, pyRepr, fun _ => true⟩

/-- Whether the text is a document that is written. -/
def handOk (text : Bytes) : Bool :=
  match jsonLoad text with
  | .ok d => match docToSav storeExt d with
    | .ok _ => true
    | .error _ => false
  | .error _ => false

theorem handOk_spec {text : Bytes} (h : handOk text = true) : ∃ (w : World) (d : Val), w.fs (P "a.json") = some (.file text) ∧
    JFile true text d ∧ (convertJsonToSav storeExt (P "a.json") (P "a") false w).1 = .ok () := by
  unfold handOk at h
  split at h
  · rename_i d hd
    split at h
    · rename_i sav hs
      have e1 : (World.mk (fun p => if p = P "a.json" then some (.file text) else none) []).fs (P "a.json") = some (.file text) := by
        simp only [if_true]
      have e2 : (World.mk (fun p => if p = P "a.json" then some (.file text) else none) []).fs (P "a") = none := by
        simp only [show P "a" ≠ P "a.json" by decide +kernel, if_false]
      refine ⟨_, d, e1, (C56_load _ _).1 hd, ?_⟩
      rw [jsonToSav_run (ext := storeExt) (fun _ => rfl) (text := text) e1 hd hs (.inl e2)]
    · cases h
  · cases h

theorem handOk_text : handOk handText = true := by decide +kernel

/-- C58_command: the file is within the theorem and the command succeeds on it. -/
example : ∃ (w : World) (d : Val), w.fs (P "a.json") = some (.file handText) ∧ JFile true handText d ∧
    (convertJsonToSav storeExt (P "a.json") (P "a") false w).1 = .ok () := by
  exact handOk_spec handOk_text

end Pal
