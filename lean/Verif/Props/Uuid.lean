import Verif.Model.Writer
import Verif.Lemmas.Uuid
/-
C18 UUID text, C19 equality and hashing, C20 agreement with the standard library.
-/

namespace Pal
open Spec

/-- A concrete UUID. -/
def sampleUuid : Bytes := [0x10, 0x32, 0x54, 0x76, 0x98, 0xba, 0xdc, 0xfe, 1, 2, 3, 4, 5, 6, 7, 0xff]

example : sampleUuid.length = 16 := rfl
example : uuidStr sampleUuid = .ok (P "76543210-fedc-ba98-0403-0201ff070605") := by rfl

/-! ### C18 -/

/-- C18: `str()` of every UUID is the documented text: the digits of the raw bytes in
print order, grouped 8-4-4-4-12. -/
theorem C18_uuid_text (raw : Bytes) (h : raw.length = 16) : uuidStr raw = .ok (uuidText raw) :=
  uuidStr_eq raw h

/-- C18: the text is five groups of 8, 4, 4, 4 and 12 lower-case hexadecimal digits
separated by dashes, 36 characters in all. -/
theorem C18_uuid_text_shape (raw : Bytes) (h : raw.length = 16) (t : PyStr) (ht : uuidStr raw = .ok t) :
    t.length = 36 ∧ ∃ a b c d e : PyStr, t = a ++ P "-" ++ b ++ P "-" ++ c ++ P "-" ++ d ++ P "-" ++ e ∧
      a.length = 8 ∧ b.length = 4 ∧ c.length = 4 ∧ d.length = 4 ∧ e.length = 12 ∧
      ∀ x ∈ a ++ b ++ c ++ d ++ e, x ∈ P "0123456789abcdef" := by
  rw [uuidStr_eq raw h, Except.ok.injEq] at ht
  subst ht
  have hl := hexText_length raw
  have hx : ∀ x ∈ hexText raw, x ∈ P "0123456789abcdef" := by
    intro x hx
    have hdig : ∀ n, n < 16 → digits.getD n 0 ∈ P "0123456789abcdef" := by decide
    simp only [hexText, List.mem_flatMap, hex2] at hx
    obtain ⟨b, _, hb⟩ := hx
    have hlt := b.toNat_lt
    simp only [List.mem_cons, List.not_mem_nil, or_false] at hb
    rcases hb with rfl | rfl
    · exact hdig _ (by omega)
    · exact hdig _ (by omega)
  refine ⟨?_, (hexText raw).take 8, ((hexText raw).drop 8).take 4, ((hexText raw).drop 12).take 4,
    ((hexText raw).drop 16).take 4, (hexText raw).drop 20, rfl, ?_, ?_, ?_, ?_, ?_, ?_⟩
  · simp only [uuidText, List.length_append, List.length_take, List.length_drop, hl, List.length_singleton]
    omega
  · simp [hl]
  · simp [hl]
  · simp [hl]
  · simp [hl]
  · simp [hl]
  · intro x h
    simp only [List.mem_append] at h
    rcases h with (((h | h) | h) | h) | h
    · exact hx x (List.mem_of_mem_take h)
    · exact hx x (List.mem_of_mem_drop (List.mem_of_mem_take h))
    · exact hx x (List.mem_of_mem_drop (List.mem_of_mem_take h))
    · exact hx x (List.mem_of_mem_drop (List.mem_of_mem_take h))
    · exact hx x (List.mem_of_mem_drop h)

/-- C18: parsing the text with `from_str`, and writing the text with `guid()`, give back
the raw bytes; writing the object gives the raw bytes too. -/
theorem C18_uuid_roundtrip (raw : Bytes) (h : raw.length = 16) :
    ∃ t, uuidStr raw = .ok t ∧ uuidFromStr t = .ok raw ∧ wGuid (.str t) = .ok raw ∧
      wGuid (.uuid raw) = .ok raw :=
  ⟨uuidText raw, uuidStr_eq raw h, uuidFromStr_text raw h, uuidFromStr_text raw h, rfl⟩

/-- C18: the text is read back unchanged by `str(from_str(text))`. -/
theorem C18_text_stable (raw : Bytes) (h : raw.length = 16) (t : PyStr) (ht : uuidStr raw = .ok t)
    (raw' : Bytes) (hr : uuidFromStr t = .ok raw') : uuidStr raw' = .ok t := by
  obtain ⟨t', h1, h2, _⟩ := C18_uuid_roundtrip raw h
  rw [h1, Except.ok.injEq] at ht
  subst ht
  rw [h2, Except.ok.injEq] at hr
  rw [← hr, h1]

/-! ### C19 -/

/-- C19: equality of UUIDs is equality of raw bytes, and of text, and equal UUIDs have
equal hashes whatever the string hash function is. -/
theorem C19_uuid_eq (a b : Bytes) (ha : a.length = 16) (hb : b.length = 16) :
    (uuidEq a b = true ↔ a = b) ∧
    (uuidEq a b = true ↔ uuidStr a = uuidStr b) ∧
    (∀ (H : Type) (hash : PyStr → H), uuidEq a b = true → uuidHash hash a = uuidHash hash b) := by
  have h1 : uuidEq a b = true ↔ a = b := by simp [uuidEq]
  refine ⟨h1, ?_, ?_⟩
  · rw [h1]
    refine ⟨fun h => by rw [h], fun h => ?_⟩
    rw [uuidStr_eq a ha, uuidStr_eq b hb, Except.ok.injEq] at h
    have e1 := uuidFromStr_text a ha
    rw [h, uuidFromStr_text b hb, Except.ok.injEq] at e1
    exact e1.symm
  · intro H hash h
    rw [h1.1 h]

/-- C19: a UUID equals its own text, and no other string; it hashes like its text, so it
finds the entry of a dict stored under the text. -/
theorem C19_uuid_eq_text (a : Bytes) (ha : a.length = 16) :
    ∃ t, uuidStr a = .ok t ∧ (∀ s, uuidEqStr a s = .ok (decide (t = s))) ∧
      (∀ (H : Type) (hash : PyStr → H), uuidHash hash a = .ok (hash t)) := by
  refine ⟨uuidText a, uuidStr_eq a ha, fun s => ?_, fun H hash => ?_⟩
  · simp only [uuidEqStr, uuidStr_eq a ha]
  · simp only [uuidHash, uuidStr_eq a ha]

example : uuidEq sampleUuid (sampleUuid.take 15 ++ [0xfe]) = false := by rfl

/-! ### C20 -/

/-- C20: `UUID.UUID()` denotes the integer that the standard library parses from the text,
namely the big-endian value of the printed bytes, and writing the standard object gives
the sixteen raw bytes. -/
theorem C20_uuid_stdlib (raw : Bytes) (h : raw.length = 16) :
    ∃ n t, uuidInt raw = .ok n ∧ uuidStr raw = .ok t ∧ stdUuidParse t = .ok n ∧
      n = beVal (printOrder raw) ∧ n < 2 ^ 128 ∧ wStdUuid n = raw := by
  refine ⟨_, _, uuidInt_eq raw h, uuidStr_eq raw h, stdUuidParse_text raw h, rfl, ?_, uuidPerm_beVal raw h⟩
  have : ∀ q : Bytes, ∀ a, q.foldl (fun a x => a * 256 + x.toNat) a < (a + 1) * 256 ^ q.length := by
    intro q
    induction q with
    | nil => intro a; simp
    | cons b t ih =>
      intro a
      have hb := b.toNat_lt
      refine Nat.lt_of_lt_of_le (ih _) ?_
      rw [List.length_cons, Nat.pow_succ, Nat.mul_comm _ 256, ← Nat.mul_assoc]
      exact Nat.mul_le_mul_right _ (by show a * 256 + b.toNat + 1 ≤ _; omega)
  have h1 := this (printOrder raw) 0
  have h2 : (printOrder raw).length = 16 := by simp [printOrder]
  rw [h2] at h1
  rw [beVal]
  omega

example : uuidInt sampleUuid = .ok 0x76543210fedcba9804030201ff070605 := by rfl

end Pal
