import Verif.Lemmas.Base64
import Verif.Props.Says
/-
C71: the trailer's text in the JSON document.
-/

namespace Pal
open Pal.Spec

/-- C71: the trailer is in the document of a save as its base64 text, and as nothing else. -/
theorem C71_shown (g : Gvas) (s : PyStr) : At g.dump "trailer" (.str s) ↔ B64.Text g.trailer s := by
  rw [B64.text_iff]
  unfold At Gvas.dump
  have e : (dct [("header", g.header.dump), ("properties", g.properties), ("trailer", .str (b64Encode g.trailer))]).get (P "trailer") =
      .ok (.str (b64Encode g.trailer)) := by
    simp only [dct_eq, get_vDict_cons, String.reduceEq, if_true, if_false]
  rw [e]
  simp only [Except.ok.injEq, Val.str.injEq]
  exact eq_comm

/-- C71: every byte string has exactly one base64 text. -/
theorem C71_one_text (b : Bytes) : ∃! s, B64.Text b s :=
  ⟨b64Encode b, B64.text_encode b, fun _ h => B64.text_iff.1 h⟩

/-- C71: whatever is in a document's trailer, the tool takes it for the trailer `b` exactly if it says `b`. -/
theorem C71_read (d : Val) (g : Gvas) (hl : Gvas.load d = .ok g) (b : Bytes) :
    Entry d "trailer" (B64.Says · b) ↔ b = g.trailer := by
  obtain ⟨-, -, t, h1, h2⟩ := load_iff.1 hl
  constructor
  · rintro ⟨t', h3, h4⟩
    unfold At at h1 h3
    rw [h1] at h3
    cases h3
    have := B64.says_iff.2 h4
    rw [h2] at this
    cases this
    rfl
  · rintro rfl
    exact ⟨t, h1, B64.says_iff.1 h2⟩

/-- C71: a document whose trailer says nothing is refused. -/
theorem C71_refused (d : Val) (h : ∀ b, ¬ Entry d "trailer" (B64.Says · b)) : ∃ e, Gvas.load d = .error e := by
  cases hl : Gvas.load d with
  | error e => exact ⟨e, rfl⟩
  | ok g =>
    obtain ⟨-, -, t, h1, h2⟩ := load_iff.1 hl
    exact absurd ⟨t, h1, B64.says_iff.1 h2⟩ (h g.trailer)

/-- C71: the text of a trailer says that trailer and no other. -/
theorem C71_back (b : Bytes) (s : PyStr) (h : B64.Text b s) (b' : Bytes) : B64.Says (.str s) b' ↔ b' = b := by
  rw [B64.text_iff.1 h, ← B64.says_iff, (C27_base64 b).1]
  simp only [Except.ok.injEq]
  exact eq_comm

/-- C71: line breaks, blanks and any other ASCII characters that are neither digits nor pads may be put anywhere in
the text, or taken out of it. -/
theorem C71_blanks (s s' : PyStr) (hs : ∀ c ∈ s, c < 128) (hs' : ∀ c ∈ s', c < 128)
    (h : s.filter (fun c => c = 61 || (B64.digit c).isSome) = s'.filter (fun c => c = 61 || (B64.digit c).isSome)) (b : Bytes) :
    B64.Says (.str s) b ↔ B64.Says (.str s') b := by
  have key : ∀ s, (∀ c ∈ s, c < 128) → (B64.Says (.str s) b ↔ b64Loop 0 0 0 (s.filter fun c => c = 61 || (B64.digit c).isSome) = .ok b) := by
    intro s hs
    simp only [B64.digit_eq]
    rw [B64.loop_filter, B64.reads_iff]
    exact ⟨fun h => by cases h; assumption, .str hs⟩
  rw [key s hs, key s' hs', h]

/-- C71: a value that is not a text or bytes says no trailer; a text with a character that is not ASCII does not either. -/
theorem C71_text_only (v : Val) (b : Bytes) (h : B64.Says v b) :
    (∃ s, v = .str s ∧ ∀ c ∈ s, c < 128) ∨ ∃ x, v = .bytes x := by
  cases h with
  | str h _ => exact .inl ⟨_, rfl, h⟩
  | bytes _ => exact .inr ⟨_, rfl⟩

theorem loop_encode_append (b : Bytes) (s : PyStr) : b64Loop 0 0 0 (b64Encode b ++ s) =
    if b.length % 3 = 0 then (b64Loop 0 0 0 s).map (b ++ ·) else .ok b := by
  induction b using b64Encode.induct with
  | case1 =>
    rw [if_pos (by rfl), b64Encode]
    simp only [List.nil_append]
    cases b64Loop 0 0 0 s <;> rfl
  | case2 a =>
    have := a.toNat_lt
    rw [if_neg (by simp), b64Encode]
    simp only [List.cons_append]
    rw [b64Loop_char _ _ _ _ (by omega)]
    simp only
    rw [b64Loop_char _ _ _ _ (by omega)]
    simp only [b64Loop, if_true]
    rw [if_pos (by omega), if_neg (by omega), if_pos (by omega), if_pos (by omega)]
    simp only [Except.map]
    rw [b64_join a _ (by omega)]
  | case3 a b =>
    have := a.toNat_lt
    have := b.toNat_lt
    rw [if_neg (by simp), b64Encode]
    simp only [List.cons_append]
    rw [b64Loop_char _ _ _ _ (by omega)]
    simp only
    rw [b64Loop_char _ _ _ _ (by omega)]
    simp only
    rw [b64Loop_char _ _ _ _ (by omega)]
    simp only [b64Loop, if_true]
    rw [if_pos (by omega), if_pos (by omega)]
    simp only [Except.map]
    rw [b64_join a _ (by omega), b64_join b _ (by omega)]
  | case4 a b c t ih =>
    have := a.toNat_lt
    have := b.toNat_lt
    have := c.toNat_lt
    have e : (a :: b :: c :: t).length % 3 = t.length % 3 := by simp only [List.length_cons]; omega
    rw [e, b64Encode]
    simp only [List.cons_append]
    rw [b64Loop_char _ _ _ _ (by omega)]
    simp only
    rw [b64Loop_char _ _ _ _ (by omega)]
    simp only
    rw [b64Loop_char _ _ _ _ (by omega)]
    simp only
    rw [b64Loop_char _ _ _ _ (by omega)]
    simp only [ih]
    rw [b64_join a _ (by omega), b64_join b _ (by omega), b64_join c _ (by omega)]
    split
    · cases b64Loop 0 0 0 s <;> rfl
    · rfl

theorem says_str {s : PyStr} {b : Bytes} (hs : ∀ c ∈ s, c < 128) : B64.Says (.str s) b ↔ b64Loop 0 0 0 s = .ok b :=
  ⟨fun h => by cases h with | str _ h => exact B64.reads_iff.2 h, fun h => .str hs (B64.reads_iff.1 h)⟩

theorem joined_ascii {b : Bytes} {s' : PyStr} (hs' : ∀ c ∈ s', c < 128) : ∀ c ∈ b64Encode b ++ s', c < 128 := fun c hc =>
  (List.mem_append.1 hc).elim (b64Encode_ascii b c) (hs' c)

/-- C71: two texts put one after the other, the first that of `b`: if `b` is whole groups of three bytes, the whole says `b`
and then what the second says. -/
theorem C71_joined (b : Bytes) (hb : b.length % 3 = 0) (s s' : PyStr) (h : B64.Text b s) (hs' : ∀ c ∈ s', c < 128) (x : Bytes) :
    B64.Says (.str (s ++ s')) x ↔ ∃ b', x = b ++ b' ∧ B64.Says (.str s') b' := by
  rw [B64.text_iff.1 h, says_str (joined_ascii hs'), loop_encode_append, if_pos hb]
  simp only [says_str hs']
  cases b64Loop 0 0 0 s' with
  | error e => simp [Except.map]
  | ok r => simp [Except.map, eq_comm]

/-- C71: otherwise the first text is padded, and the second is ignored without a message, whatever it is. -/
theorem C71_rest_ignored (b : Bytes) (hb : b.length % 3 ≠ 0) (s s' : PyStr) (h : B64.Text b s) (hs' : ∀ c ∈ s', c < 128) (x : Bytes) :
    B64.Says (.str (s ++ s')) x ↔ x = b := by
  rw [B64.text_iff.1 h, says_str (joined_ascii hs'), loop_encode_append, if_neg hb, Except.ok.injEq]
  exact eq_comm

/-! ### Cases -/

example : B64.Text [0, 0, 0, 0] (P "AAAAAA==") := B64.text_iff.2 (by decide +kernel)
example : B64.Text [0x4d, 0x61, 0x6e] (P "TWFu") := B64.text_iff.2 (by decide +kernel)
example : B64.Says (.str (P "TWF\nu")) [0x4d, 0x61, 0x6e] := B64.says_iff.1 (by decide +kernel)
/-- The unused bits of the last digit are dropped: two texts say the same bytes. -/
example : B64.Says (.str (P "TR==")) [0x4d] ∧ B64.Says (.str (P "TQ==")) [0x4d] :=
  ⟨B64.says_iff.1 (by decide +kernel), B64.says_iff.1 (by decide +kernel)⟩
/-- A trailer text cut short is refused. -/
example (b : Bytes) : ¬ B64.Says (.str (P "AAAAAA=")) b := by
  rw [← B64.says_iff]
  have : b64Decode (.str (P "AAAAAA=")) = .error .value := by decide +kernel
  rw [this]
  exact fun h => by cases h

end Pal
