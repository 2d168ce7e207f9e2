import Verif.Lemmas.UuidText
import Verif.Lemmas.SaysPrim
import Verif.Props.Uuid
/-
C73: the texts that are taken for a GUID.
-/

namespace Pal
open Pal.Spec

/-- C73: `UUID.from_str` takes the text `s` for the GUID `raw` exactly if it says so. -/
theorem C73_from_str (s : PyStr) (raw : Bytes) :
    uuidFromStr s = .ok raw ↔ raw.length = 16 ∧ GuidText.Says s (beVal (printOrder raw)) := by
  unfold uuidFromStr
  rw [← GuidText.says_iff]
  constructor
  · intro h
    cases hs : stdUuidParse s with
    | error e => rw [hs] at h; cases h
    | ok n =>
      rw [hs] at h
      cases h
      have h3 := beVal_beBytes 16 n (stdUuidParse_lt hs)
      have h4 := beBytes_length 16 n
      generalize beBytes 16 n = q at *
      obtain ⟨h1, h2⟩ := printOrder_perm q h4
      exact ⟨h2, by rw [h1, h3]⟩
  · rintro ⟨h1, h2⟩
    rw [h2]
    simp only [Except.ok.injEq]
    exact uuidPerm_beVal raw h1

/-- C73: all other texts are refused with a ValueError. -/
theorem C73_refused (s : PyStr) (h : ∀ n, ¬ GuidText.Says s n) : uuidFromStr s = .error .value := by
  unfold uuidFromStr
  cases hs : stdUuidParse s with
  | ok n => exact absurd (GuidText.says_iff.1 hs) (h n)
  | error e =>
    unfold stdUuidParse at hs
    simp only at hs
    split at hs
    · cases hs; rfl
    · split at hs
      · cases hs
      · cases hs; rfl

/-- C73: a text says at most one GUID. -/
theorem C73_unambiguous (s : PyStr) (n m : Nat) (h : GuidText.Says s n) (h' : GuidText.Says s m) : n = m := by
  rw [← GuidText.says_iff] at h h'
  rw [h, Except.ok.injEq] at h'
  exact h'

/-- C73: writing a GUID that is given as a text gives the bytes of the GUID it says, and nothing if it says none. -/
theorem C73_written (s : PyStr) (b : Bytes) :
    wGuid (.str s) = .ok b ↔ b.length = 16 ∧ GuidText.Says s (beVal (printOrder b)) := C73_from_str s b

/-! ### the usual forms -/

/-- The 32 hexadecimal digits of a GUID, in the order in which they are printed. -/
def nibbles (raw : Bytes) : List Nat := (printOrder raw).flatMap fun b => [b.toNat / 16, b.toNat % 16]

theorem number_nibbles (q : Bytes) (a : Nat) :
    (q.flatMap fun b => [b.toNat / 16, b.toNat % 16]).foldl (fun a d => a * 16 + d) a = q.foldl (fun a x => a * 256 + x.toNat) a := by
  induction q generalizing a with
  | nil => rfl
  | cons b t ih =>
    have e : [b.toNat / 16, b.toNat % 16].foldl (fun a d => a * 16 + d) a = a * 256 + b.toNat := by
      simp only [List.foldl_cons, List.foldl_nil]
      omega
    rw [List.flatMap_cons, List.foldl_append, e, ih, List.foldl_cons]

theorem plain_digits {h : PyStr} {l : List Nat} (hd : List.Forall₂ GuidText.HexDigit h l) (hl : h ≠ []) : GuidText.HexDigits h l := by
  induction hd with
  | nil => exact absurd rfl hl
  | @cons c d t l hc ht ih =>
    cases ht with
    | nil => exact .one hc
    | cons h1 h2 => exact .cons hc (ih (by simp))

theorem digit_chars : ∀ c < 128, ∀ d, hexVal c = some d → c ≠ 117 ∧ c ≠ 123 ∧ c ≠ 125 ∧ c ≠ 58 := by
  intro c hc d h
  have : ∀ c < 128, hexVal c ≠ none → c ≠ 117 ∧ c ≠ 123 ∧ c ≠ 125 ∧ c ≠ 58 := by decide +kernel
  exact this c hc (by rw [h]; simp)

theorem body_chars {body : PyStr} {l : List Nat} (hd : List.Forall₂ GuidText.HexDigit (body.filter (· ≠ 45)) l) :
    ∀ c ∈ body, c < 128 ∧ c ≠ 117 ∧ c ≠ 123 ∧ c ≠ 125 ∧ c ≠ 58 := by
  intro c hc
  by_cases h : c = 45
  · subst h; decide
  · have hm : c ∈ body.filter (· ≠ 45) := List.mem_filter.2 ⟨hc, by simpa using h⟩
    have key : ∀ {h : PyStr} {l}, List.Forall₂ GuidText.HexDigit h l → c ∈ h → ∃ d, hexVal c = some d := by
      intro h l hf hc
      induction hf with
      | nil => cases hc
      | cons h1 _ ih =>
        rcases List.mem_cons.1 hc with rfl | hc
        · exact ⟨_, GuidText.hexDigit_iff.1 h1⟩
        · exact ih hc
    obtain ⟨d, hv⟩ := key hd hm
    have hlt := (GuidText.hexVal_lt hv).2
    exact ⟨hlt, digit_chars c hlt d hv⟩

theorem no_word {w body : PyStr} {c : Nat} (hw : c ∈ w) (hb : c ∉ body) : ¬ w <:+: body := fun h => hb (h.subset hw)

section
variable {raw : Bytes} {body : PyStr}
  (hd : List.Forall₂ GuidText.HexDigit (body.filter (· ≠ 45)) (nibbles raw))
include hd

theorem body_number : (body.filter (· ≠ 45)).length = 32 ∧ (∀ c ∈ body.filter (· ≠ 45), c < 128) ∧
    GuidText.Number (body.filter (· ≠ 45)) (beVal (printOrder raw)) := by
  have hl : (body.filter (· ≠ 45)).length = 32 := by
    rw [hd.length_eq]
    rfl
  refine ⟨hl, fun c hc => (body_chars hd c (List.mem_of_mem_filter hc)).1, [], [], [], _, [], _, ?_, by simp, by simp, .inl rfl, .inl rfl,
    plain_digits hd ?_, ?_⟩
  · simp only [List.nil_append, List.append_nil]
  · intro h
    rw [h] at hl
    cases hl
  · exact (number_nibbles (printOrder raw) 0).symm

/-- C73: the 32 digits in lower or upper case, with dashes anywhere or nowhere. -/
theorem C73_dashes_and_case : GuidText.Says body (beVal (printOrder raw)) := by
  obtain ⟨h1, h2, h3⟩ := body_number hd
  have hb := body_chars hd
  refine ⟨body, body, body, _, _, .none (no_word (c := 117) (by decide +kernel) fun h => (hb _ h).2.1 rfl),
    .none (no_word (c := 117) (by decide +kernel) fun h => (hb _ h).2.1 rfl), ⟨[], [], by simp, by simp, by simp, fun c hc => ?_, fun c hc => ?_⟩,
    rfl, h1, .inl ⟨h2, rfl⟩, h3⟩
  · have := hb c (List.mem_of_mem_head? hc); omega
  · have := hb c (List.mem_of_mem_getLast? hc); omega

/-- C73: the same in braces. -/
theorem C73_braces : GuidText.Says (P "{" ++ body ++ P "}") (beVal (printOrder raw)) := by
  obtain ⟨h1, h2, h3⟩ := body_number hd
  have hb := body_chars hd
  have hn : 117 ∉ P "{" ++ body ++ P "}" := by
    intro h
    rcases List.mem_append.1 h with h | h
    · rcases List.mem_append.1 h with h | h
      · revert h; decide +kernel
      · exact (hb _ h).2.1 rfl
    · revert h; decide +kernel
  refine ⟨_, _, body, _, _, .none (no_word (c := 117) (by decide +kernel) hn), .none (no_word (c := 117) (by decide +kernel) hn),
    ⟨P "{", P "}", rfl, by decide +kernel, by decide +kernel, fun c hc => ?_, fun c hc => ?_⟩, rfl, h1, .inl ⟨h2, rfl⟩, h3⟩
  · have := hb c (List.mem_of_mem_head? hc); omega
  · have := hb c (List.mem_of_mem_getLast? hc); omega

/-- C73: the same as a URN. -/
theorem C73_urn : GuidText.Says (P "urn:uuid:" ++ body) (beVal (printOrder raw)) := by
  obtain ⟨h1, h2, h3⟩ := body_number hd
  have hb := body_chars hd
  have e1 : P "urn:uuid:" ++ body = [] ++ P "urn:" ++ (P "uuid:" ++ body) := by
    rw [show P "urn:uuid:" = P "urn:" ++ P "uuid:" by decide +kernel, List.nil_append, List.append_assoc]
  have e2 : P "uuid:" ++ body = [] ++ P "uuid:" ++ body := rfl
  have h6 : ¬ P "urn:" <:+: P "uuid:" ++ body := by
    refine no_word (c := 114) (by decide +kernel) fun h => ?_
    rcases List.mem_append.1 h with h | h
    · revert h; decide +kernel
    · have hne : (114 : Nat) ≠ 45 := by decide
      have hm : 114 ∈ body.filter (· ≠ 45) := List.mem_filter.2 ⟨h, by simp⟩
      have key : ∀ {h : PyStr} {l}, List.Forall₂ GuidText.HexDigit h l → 114 ∈ h → False := by
        intro h l hf hc
        induction hf with
        | nil => cases hc
        | cons h1 _ ih =>
          rcases List.mem_cons.1 hc with rfl | hc
          · have := GuidText.hexDigit_iff.1 h1
            rw [show hexVal 114 = none by decide +kernel] at this
            cases this
          · exact ih hc
      exact key hd hm
  refine ⟨P "uuid:" ++ body, body, body, _, _, ?_, ?_, ⟨[], [], by simp, by simp, by simp, fun c hc => ?_, fun c hc => ?_⟩,
    rfl, h1, .inl ⟨h2, rfl⟩, h3⟩
  · rw [e1]
    exact .one (by decide +kernel) (.none h6)
  · rw [e2]
    exact .one (by decide +kernel) (.none (no_word (c := 117) (by decide +kernel) fun h => (hb _ h).2.1 rfl))
  · have := hb c (List.mem_of_mem_head? hc); omega
  · have := hb c (List.mem_of_mem_getLast? hc); omega

end

/-- C73: the text that `str` gives says the GUID. -/
theorem C73_own_text (raw : Bytes) (h : raw.length = 16) (t : PyStr) (ht : uuidStr raw = .ok t) :
    GuidText.Says t (beVal (printOrder raw)) := by
  rw [uuidStr_eq raw h, Except.ok.injEq] at ht
  rw [← ht, ← GuidText.says_iff]
  exact stdUuidParse_text raw h

/-! ### cases -/

/-- Upper case, a dash in an unusual place. -/
example : GuidText.Says (P "76543210FEDCBA98-04030201ff070605") (beVal (printOrder sampleUuid)) :=
  GuidText.says_iff.1 (by decide +kernel)

example : List.Forall₂ GuidText.HexDigit ((P "7654-3210FEDCBA98-04030201ff070605").filter (· ≠ 45)) (nibbles sampleUuid) := by
  have e : (P "7654-3210FEDCBA98-04030201ff070605").filter (· ≠ 45) = P "76543210FEDCBA9804030201ff070605" := by decide +kernel
  rw [e]
  have key : ∀ (h : PyStr) (l : List Nat), h.map hexVal = l.map some → List.Forall₂ GuidText.HexDigit h l := by
    intro h
    induction h with
    | nil => intro l hl; cases l with
      | nil => exact .nil
      | cons => cases hl
    | cons c t ih => intro l hl; cases l with
      | nil => cases hl
      | cons d l =>
        rw [List.map_cons, List.map_cons] at hl
        injection hl with h1 h2
        exact .cons (GuidText.hexDigit_iff.2 h1) (ih l h2)
  exact key _ _ (by decide +kernel)

/-- A mistyped GUID that is accepted all the same: "0x" and an underscore are no digits, so it has 29 of them. -/
example : GuidText.Says (P "0x543210-fedc-ba98-0403-_201ff070605") 0x543210fedcba980403201ff070605 :=
  GuidText.says_iff.1 (by decide +kernel)

/-- A digit too few. -/
example (n : Nat) : ¬ GuidText.Says (P "76543210-fedc-ba98-0403-0201ff07060") n := by
  rw [← GuidText.says_iff]
  rw [show stdUuidParse (P "76543210-fedc-ba98-0403-0201ff07060") = .error .value by decide +kernel]
  exact fun h => (nomatch h)

end Pal
