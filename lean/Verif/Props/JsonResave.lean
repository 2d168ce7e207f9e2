import Verif.Lemmas.JsonTree
import Verif.Props.CustomResave
/-
C55: converting a file to JSON and back writes the same bytes as re-saving it directly, for
every file that can be read, canonical or not.
-/

namespace Pal
open Spec

mutual
theorem full_dumps : ∀ v : Val, JPre v → FullGuids v → ∃ w, jsonRT true v = .ok w
  | .none, _, _ => ⟨_, rfl⟩
  | .bool _, _, _ => ⟨_, rfl⟩
  | .int _, _, _ => ⟨_, rfl⟩
  | .float b, _, _ => by
    simp only [jsonRT, jsonFloat, if_true]
    split
    · exact ⟨_, rfl⟩
    · split <;> exact ⟨_, rfl⟩
  | .str _, _, _ => ⟨_, rfl⟩
  | .bytes _, h, _ => by simp only [JPre] at h
  | .uuid r, _, h => by
    simp only [FullGuids] at h
    simp only [jsonRT, uuidStr_eq r h]
    exact ⟨_, rfl⟩
  | .list l, h, hf => by
    simp only [JPre] at h
    simp only [FullGuids] at hf
    obtain ⟨w, hw⟩ := full_dumpsL l h hf
    simp only [jsonRT, hw]
    exact ⟨_, rfl⟩
  | .tuple l, h, hf => by
    simp only [JPre] at h
    simp only [FullGuids] at hf
    obtain ⟨w, hw⟩ := full_dumpsL l h hf
    simp only [jsonRT, hw]
    exact ⟨_, rfl⟩
  | .dict d, h, hf => by
    simp only [JPre] at h
    simp only [FullGuids] at hf
    obtain ⟨w, hw⟩ := full_dumpsD d h.2 hf
    simp only [jsonRT, hw]
    exact ⟨_, rfl⟩
theorem full_dumpsL : ∀ l : List Val, JPreL l → FullGuidsL l → ∃ w, jsonRTL true l = .ok w
  | [], _, _ => ⟨_, rfl⟩
  | v :: t, h, hf => by
    simp only [JPreL] at h
    simp only [FullGuidsL] at hf
    obtain ⟨a, ha⟩ := full_dumps v h.1 hf.1
    obtain ⟨b, hb⟩ := full_dumpsL t h.2 hf.2
    simp only [jsonRTL, ha, hb]
    exact ⟨_, rfl⟩
theorem full_dumpsD : ∀ d : List (PyStr × Val), JPreD d → FullGuidsD d → ∃ w, jsonRTD true d = .ok w
  | [], _, _ => ⟨_, rfl⟩
  | (k, v) :: t, h, hf => by
    simp only [JPreD] at h
    simp only [FullGuidsD] at hf
    obtain ⟨a, ha⟩ := full_dumps v h.2.2.1 hf.1
    obtain ⟨b, hb⟩ := full_dumpsD t h.2.2.2 hf.2
    simp only [jsonRTD, ha, hb]
    exact ⟨_, rfl⟩
end

/-! ### C55 -/

/-- C55: take any bytes, canonical or not, of any length, that are read with any type hints and
any custom properties (their names being ordinary strings).  If the file object can be written,
giving `b`, and can be converted to a JSON document `d`, then loading `d` gives a file object
that is written to the same bytes `b`.  The only condition is that the NaNs in the file are the
standard one. -/
theorem C55_json_is_resave (cfg B : Cfg) (hc : CfgJson cfg) (an : Bool) (data : Bytes) (g g' : Gvas) (b : Bytes) (d : Val)
    (h : gvasRead cfg data = .ok g) (hw : g.write B = .ok (b, g')) (hj : jsonRT an g.dump = .ok d) (hn : OneNaN g.dump) :
    ∃ g1 g2, Gvas.load d = .ok g1 ∧ g1.write B = .ok (b, g2) := by
  obtain ⟨d', g1, g2, h1, h2, h3⟩ := C04_file an B g g' b (jok_of an _ d (file_jpre hc h) hn hj) hw
  rw [hj] at h1
  cases h1
  exact ⟨g1, g2, h2, h3⟩

/-- C55: conversion to JSON (with NaN allowed, the default) fails for no other reason than a
GUID with missing bytes. -/
theorem C55_dump_succeeds (cfg : Cfg) (hc : CfgJson cfg) (data : Bytes) (g : Gvas) (h : gvasRead cfg data = .ok g)
    (hf : FullGuids g.dump) : ∃ d, jsonRT true g.dump = .ok d :=
  full_dumps _ (file_jpre hc h) hf

/-- C55 with C54: with the tool's own tables, and any selection of decoders without the two of
`unsteady`, conversion to JSON and back gives a file `b` that is not longer, and converting `b`
to JSON gives the same document again; so converting back and forth any number of times changes
nothing more. -/
theorem C55_fixed_point (keep : String → Bool) (hk : ∀ p ∈ unsteady, keep p = false) (data : Bytes) (hd : data.length < 2 ^ 32)
    (g g' : Gvas) (b : Bytes) (d : Val) (h : gvasRead (palCfg keep true) data = .ok g)
    (hw : g.write (palCfg (fun _ => true) true) = .ok (b, g')) (hj : jsonRT true g.dump = .ok d) (hn : OneNaN g.dump) :
    (∃ g1 g2, Gvas.load d = .ok g1 ∧ g1.write (palCfg (fun _ => true) true) = .ok (b, g2)) ∧ b.length ≤ data.length ∧
      ∃ g3, gvasRead (palCfg keep true) b = .ok g3 ∧ jsonRT true g3.dump = .ok d := by
  obtain ⟨⟨g3, h3, rfl, -⟩, hl⟩ := C54_palworld keep hk data hd g g' h b hw
  exact ⟨C55_json_is_resave _ _ (palCfg_json keep true) true data _ g' b d h hw hj hn, hl, _, h3, hj⟩

/-! ### examples -/

mutual
/-- Decision procedure for `OneNaN`. -/
def oneNaN : Val → Bool
  | .float b => !isNaN64 b || b == qnan64
  | .list l => oneNaNL l
  | .tuple l => oneNaNL l
  | .dict d => oneNaND d
  | _ => true
def oneNaNL : List Val → Bool
  | [] => true
  | v :: t => oneNaN v && oneNaNL t
def oneNaND : List (PyStr × Val) → Bool
  | [] => true
  | (_, v) :: t => oneNaN v && oneNaND t
end

mutual
theorem oneNaN_ok : ∀ v, oneNaN v = true → OneNaN v
  | .float b, h => by
    simp only [oneNaN, Bool.or_eq_true, beq_iff_eq, Bool.not_eq_true', ← Bool.not_eq_true] at h
    simp only [OneNaN]
    exact fun hb => h.resolve_left fun h => h ((isNaN64_iff b).2 hb)
  | .list l, h => by simp only [oneNaN] at h; simp only [OneNaN]; exact oneNaNL_ok l h
  | .tuple l, h => by simp only [oneNaN] at h; simp only [OneNaN]; exact oneNaNL_ok l h
  | .dict l, h => by simp only [oneNaN] at h; simp only [OneNaN]; exact oneNaND_ok l h
  | .none, _ => by simp only [OneNaN]
  | .bool _, _ => by simp only [OneNaN]
  | .int _, _ => by simp only [OneNaN]
  | .str _, _ => by simp only [OneNaN]
  | .bytes _, _ => by simp only [OneNaN]
  | .uuid _, _ => by simp only [OneNaN]
theorem oneNaNL_ok : ∀ l, oneNaNL l = true → OneNaNL l
  | [], _ => by simp only [OneNaNL]
  | v :: t, h => by
    simp only [oneNaNL, Bool.and_eq_true] at h
    simp only [OneNaNL]
    exact ⟨oneNaN_ok v h.1, oneNaNL_ok t h.2⟩
theorem oneNaND_ok : ∀ l, oneNaND l = true → OneNaND l
  | [], _ => by simp only [OneNaND]
  | (_, v) :: t, h => by
    simp only [oneNaND, Bool.and_eq_true] at h
    simp only [OneNaND]
    exact ⟨oneNaN_ok v h.1, oneNaND_ok t h.2⟩
end

/-- `data` is read, has only the standard NaN, is written to `out`, and converts to JSON. -/
def jsonResaves (A B : Cfg) (data out : Bytes) : Bool :=
  match gvasRead A data with
  | .error _ => false
  | .ok g => match g.write B with
    | .error _ => false
    | .ok (b, _) => b == out && oneNaN g.dump && (jsonRT true g.dump).toBool

theorem jsonResaves_inv {A B : Cfg} {data out : Bytes} (h : jsonResaves A B data out = true) :
    ∃ g g' d, gvasRead A data = .ok g ∧ g.write B = .ok (out, g') ∧ jsonRT true g.dump = .ok d ∧ OneNaN g.dump := by
  unfold jsonResaves at h
  split at h
  · cases h
  · rename_i g h1
    split at h
    · cases h
    · rename_i b g' h2
      simp only [Bool.and_eq_true, beq_iff_eq] at h
      obtain ⟨⟨rfl, h3⟩, h4⟩ := h
      cases hj : jsonRT true g.dump with
      | error e => rw [hj] at h4; cases h4
      | ok d => exact ⟨g, g', d, h1, h2, hj, oneNaN_ok _ h3⟩

set_option maxRecDepth 40000 in
theorem rights_json : jsonResaves (palCfg steadyKeep true) (palCfg (fun _ => true) true) (rightsFile 0 99 looseRights)
    (rightsFile 203 105 tightRights) = true := by decide +kernel

-- the hypotheses of `C55_fixed_point` (and so of the other theorems) are met by a file that is
-- not canonical, and what the theorem says of it
example : ∃ g d g1 g2 g3, gvasRead (palCfg steadyKeep true) (rightsFile 0 99 looseRights) = .ok g ∧
    jsonRT true g.dump = .ok d ∧ Gvas.load d = .ok g1 ∧
    g1.write (palCfg (fun _ => true) true) = .ok (rightsFile 203 105 tightRights, g2) ∧
    gvasRead (palCfg steadyKeep true) (rightsFile 203 105 tightRights) = .ok g3 ∧ jsonRT true g3.dump = .ok d := by
  obtain ⟨g, g', d, h1, h2, h3, h4⟩ := jsonResaves_inv rights_json
  obtain ⟨⟨g1, g2, h5, h6⟩, -, g3, h7, h8⟩ := C55_fixed_point steadyKeep steadyKeep_ok _ (by decide +kernel) g g' _ d h1 h2 h3 h4
  exact ⟨g, d, g1, g2, g3, h1, h3, h5, h6, h7, h8⟩

/-! ### the conditions are needed -/

/-- A file with one float. -/
def floatFile (x : Bytes) : Bytes :=
  sampleHeader.enc ++ eLit "X" ++ eLit "FloatProperty" ++ [4, 0, 0, 0, 0, 0, 0, 0] ++ [0] ++ x ++ eLit "None" ++ [0, 0, 0, 0]

/-- `data` is re-saved as `out1`, but as `out2` by way of JSON. -/
def jsonDiffers (A B : Cfg) (data out1 out2 : Bytes) : Bool :=
  match gvasRead A data with
  | .error _ => false
  | .ok g => match g.write B, jsonRT true g.dump with
    | .ok (b, _), .ok d => b == out1 && (match Gvas.load d with
      | .error _ => false
      | .ok g1 => match g1.write B with
        | .error _ => false
        | .ok (b', _) => b' == out2)
    | _, _ => false

set_option maxRecDepth 40000 in
theorem nan_differs : jsonDiffers (palCfg (fun _ => true) true) (palCfg (fun _ => true) true) (floatFile [1, 0, 0xC0, 0x7F])
    (floatFile [1, 0, 0xC0, 0x7F]) (floatFile [0, 0, 0xC0, 0x7F]) = true := by decide +kernel

/-- C55: the condition on NaNs cannot be dropped.  A NaN with a payload is kept by re-saving,
but not by JSON. -/
theorem C55_nan_counterexample : ∃ data g b g' d g1 b1 g2, gvasRead (palCfg (fun _ => true) true) data = .ok g ∧
    g.write (palCfg (fun _ => true) true) = .ok (b, g') ∧ jsonRT true g.dump = .ok d ∧ Gvas.load d = .ok g1 ∧
    g1.write (palCfg (fun _ => true) true) = .ok (b1, g2) ∧ b ≠ b1 := by
  have h := nan_differs
  unfold jsonDiffers at h
  split at h
  · cases h
  · rename_i g h1
    split at h
    · rename_i b g' d h2 h3
      simp only [Bool.and_eq_true, beq_iff_eq] at h
      obtain ⟨rfl, h⟩ := h
      split at h
      · cases h
      · rename_i g1 h4
        split at h
        · cases h
        · rename_i b1 g2 h5
          rw [beq_iff_eq] at h
          subst h
          exact ⟨_, g, _, g', d, g1, _, g2, h1, h2, h3, h4, h5, by decide +kernel⟩
    · cases h

/-- Custom properties with a single entry. -/
def oneCustom : Cfg := ⟨fun _ => none, fun p => if p = P ".X" then some .workerDirector else none, true⟩

/-- A file with a worker director whose blob lacks the last GUID. -/
def shortFile : Bytes :=
  sampleHeader.enc ++ eLit "X" ++ eLit "ArrayProperty" ++ [102, 0, 0, 0, 0, 0, 0, 0] ++ eLit "ByteProperty" ++ [0] ++
    [98, 0, 0, 0] ++ List.replicate 98 0 ++ eLit "None" ++ [0, 0, 0, 0]

/-- `data` is re-saved unchanged, but cannot be converted to JSON. -/
def noJson (A : Cfg) (data : Bytes) : Bool :=
  match gvasRead A data with
  | .error _ => false
  | .ok g => match g.write A, jsonRT true g.dump with
    | .ok (b, _), .error _ => b == data
    | _, _ => false

set_option maxRecDepth 40000 in
theorem short_noJson : noJson oneCustom shortFile = true := by decide +kernel

/-- C55: the condition on GUIDs cannot be dropped.  A blob that ends before its last GUID is read
and re-saved, but conversion to JSON raises. -/
theorem C55_short_guid_counterexample : ∃ data g g' e, gvasRead oneCustom data = .ok g ∧ g.write oneCustom = .ok (data, g') ∧
    jsonRT true g.dump = .error e := by
  have h := short_noJson
  unfold noJson at h
  split at h
  · cases h
  · rename_i g h1
    split at h
    · rename_i b g' e h2 h3
      rw [beq_iff_eq] at h
      subst h
      exact ⟨_, g, g', e, h1, h2, h3⟩
    · cases h

end Pal
