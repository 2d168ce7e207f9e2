import Verif.Lemmas.JsonWrite
import Verif.Lemmas.JsonTree
/-
`json.dump` to a file and `json.load` from it.
-/

namespace Pal
open Spec

theorem utf8_cp {b : Bytes} {t : PyStr} (h : Utf8 b t) : CP t := by
  intro c hc
  have := h.1 c hc
  unfold IsScalar at this
  unfold IsCodePoint
  omega

/-- `json.load` accepts the JSON files, and gives the value they denote. -/
theorem jsonLoad_iff (b : Bytes) (v : Val) : jsonLoad b = .ok v ↔ JFile true b v := by
  unfold jsonLoad JFile
  constructor
  · intro h
    split at h
    · cases h
    · rename_i t ht
      have hu := (utf8_iff _ _).1 ht
      exact ⟨t, hu, (jsonLoads_iff _ _ (utf8_cp hu)).1 h⟩
  · rintro ⟨t, hu, hd⟩
    rw [(utf8_iff _ _).2 hu]
    exact (jsonLoads_iff _ _ (utf8_cp hu)).2 hd

/-- What `json.load` raises. -/
theorem jsonLoad_err {b : Bytes} {e : Err} (h : jsonLoad b = .error e) : e = .value ∨ e = .unicode := by
  unfold jsonLoad at h
  split at h
  · cases h; exact .inr rfl
  · rename_i t ht
    exact .inl (jsonLoads_err (utf8_cp ((utf8_iff _ _).1 ht)) h)

/-- Dumping fails when the value has no JSON form, with the same exception. -/
theorem jsonDump_err (repr : BitVec 64 → PyStr) (minify an : Bool) (v : Val) :
    (jsonDump repr minify an v).2 = errOf (jsonRT an v) := enc_err repr minify an 0 v

/-- What is dumped is ASCII text in the grammar, for the value after a round trip. -/
theorem jsonDump_ok {repr : BitVec 64 → PyStr} (hr : ReprLaw repr) (minify an : Bool) {v v' : Val} (hc : CodePoints v)
    (h : jsonRT an v = .ok v') :
    ∃ t, jsonDump repr minify an v = (t.map UInt8.ofNat, none) ∧ JText an t v' ∧ Ascii t := by
  obtain ⟨t, h1, h2, h3⟩ := enc_ok hr minify an 0 v hc h
  exact ⟨t, by unfold jsonDump; rw [h1], h2, h3⟩

theorem jText_file {ext : Bool} {t : PyStr} {v : Val} (ha : Ascii t) (h : JText ext t v) : JFile ext (t.map UInt8.ofNat) v :=
  ⟨t, utf8_ascii ha, [], t, [], blank_nil, h, blank_nil, by simp⟩

theorem dump_load {repr : BitVec 64 → PyStr} (hr : ReprLaw repr) (minify an : Bool) {v v' : Val} (hc : CodePoints v)
    (h : jsonRT an v = .ok v') : ∃ b, jsonDump repr minify an v = (b, none) ∧ jsonLoad b = .ok v' := by
  obtain ⟨t, h1, h2, h3⟩ := jsonDump_ok hr minify an hc h
  exact ⟨_, h1, (jsonLoad_iff _ _).2 (jText_file h3 (jText_ext h2))⟩

mutual
theorem jpre_cp : ∀ (v : Val), JPre v → CodePoints v
  | .none, _ => by simp only [CodePoints]
  | .bool _, _ => by simp only [CodePoints]
  | .int _, _ => by simp only [CodePoints]
  | .float _, _ => by simp only [CodePoints]
  | .bytes _, _ => by simp only [CodePoints]
  | .uuid _, _ => by simp only [CodePoints]
  | .str s, h => by
    rw [JPre] at h
    rw [CodePoints]
    exact h.1
  | .list l, h => by
    rw [JPre] at h
    rw [CodePoints]
    exact jpreL_cp l h
  | .tuple l, h => by
    rw [JPre] at h
    rw [CodePoints]
    exact jpreL_cp l h
  | .dict d, h => by
    rw [JPre] at h
    rw [CodePoints]
    exact jpreD_cp d h.2
theorem jpreL_cp : ∀ (l : List Val), JPreL l → CodePointsL l
  | [], _ => by simp only [CodePointsL]
  | v :: t, h => by
    rw [JPreL] at h
    rw [CodePointsL]
    exact ⟨jpre_cp v h.1, jpreL_cp t h.2⟩
theorem jpreD_cp : ∀ (d : List (PyStr × Val)), JPreD d → CodePointsD d
  | [], _ => by simp only [CodePointsD]
  | (k, v) :: t, h => by
    rw [JPreD] at h
    rw [CodePointsD]
    exact ⟨h.1.1, jpre_cp v h.2.2.1, jpreD_cp t h.2.2.2⟩
end

end Pal
