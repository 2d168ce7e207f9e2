import Verif.Lemmas.JsonParse
import Verif.Lemmas.Utf8
import Verif.Lemmas.Uuid
/-
What the JSON writer writes is a text of the grammar for the value after a round trip.
-/

namespace Pal
open Spec

/-! ### tokens -/

theorem newline_blank (minify : Bool) (level : Nat) : Blank (newline minify level) := by
  intro c hc
  unfold newline at hc
  split at hc
  · cases hc
  · rcases List.mem_cons.1 hc with rfl | hc
    · simp
    · rw [List.eq_of_mem_replicate hc]; simp

theorem itemSep_form (minify : Bool) (level : Nat) : ∃ w, itemSep minify level = 44 :: w ∧ Blank w := by
  unfold itemSep
  cases minify with
  | true => exact ⟨[32], rfl, by intro c hc; simp at hc; simp [hc]⟩
  | false => exact ⟨_, rfl, newline_blank _ _⟩

theorem blank_ascii {w : PyStr} (h : Blank w) : Ascii w := by
  intro c hc
  have := h c hc
  omega

theorem ascii_append {a b : PyStr} (ha : Ascii a) (hb : Ascii b) : Ascii (a ++ b) := by
  intro c hc
  rcases List.mem_append.1 hc with h | h
  · exact ha c h
  · exact hb c h

theorem ascii_cons {c : Nat} {t : PyStr} (hc : c < 128) (ht : Ascii t) : Ascii (c :: t) := by
  intro x hx
  rcases List.mem_cons.1 hx with rfl | hx
  · exact hc
  · exact ht x hx

theorem hexDigit_char (n : Nat) (h : n < 16) : HexChar (hexDigit n) n ∧ hexDigit n < 128 := by
  unfold hexDigit
  split
  · exact ⟨.digit n (by assumption), by omega⟩
  · have := HexChar.lower (n - 10) (by omega)
    rw [show 97 + (n - 10) = 87 + n by omega, show 10 + (n - 10) = n by omega] at this
    exact ⟨this, by omega⟩

theorem escape_char (u : Nat) (h : u < 65536) : CharText (escapeUnit u) u ∧ Ascii (escapeUnit u) := by
  unfold escapeUnit
  by_cases h1 : u = 34
  · subst h1; exact ⟨.quote, by decide⟩
  rw [if_neg h1]
  by_cases h2 : u = 92
  · subst h2; exact ⟨.backslash, by decide⟩
  rw [if_neg h2]
  by_cases h3 : u = 10
  · subst h3; exact ⟨.line, by decide⟩
  rw [if_neg h3]
  by_cases h4 : u = 13
  · subst h4; exact ⟨.ret, by decide⟩
  rw [if_neg h4]
  by_cases h5 : u = 9
  · subst h5; exact ⟨.tab, by decide⟩
  rw [if_neg h5]
  by_cases h6 : u = 12
  · subst h6; exact ⟨.feed, by decide⟩
  rw [if_neg h6]
  by_cases h7 : u = 8
  · subst h7; exact ⟨.backspace, by decide⟩
  rw [if_neg h7]
  by_cases h8 : 32 ≤ u ∧ u ≤ 126
  · rw [if_pos h8]
    exact ⟨.plain u h8.1 h1 h2, ascii_cons (by omega) (by simp [Ascii])⟩
  rw [if_neg h8]
  obtain ⟨a1, a2⟩ := hexDigit_char (u / 4096 % 16) (by omega)
  obtain ⟨b1, b2⟩ := hexDigit_char (u / 256 % 16) (by omega)
  obtain ⟨c1, c2⟩ := hexDigit_char (u / 16 % 16) (by omega)
  obtain ⟨d1, d2⟩ := hexDigit_char (u % 16) (by omega)
  refine ⟨?_, ?_⟩
  · have := CharText.unicode _ _ _ _ _ _ _ _ a1 b1 c1 d1
    rw [show u / 4096 % 16 * 4096 + u / 256 % 16 * 256 + u / 16 % 16 * 16 + u % 16 = u by omega,
      show P "\\u" = [92, 117] by decide] at this
    exact this
  · unfold uEscape
    exact ascii_cons (by omega) (ascii_cons (by omega) (ascii_cons a2 (ascii_cons b2 (ascii_cons c2 (ascii_cons d2 (by simp [Ascii]))))))

theorem escapes_chars : ∀ (us : List Nat), (∀ u ∈ us, u < 65536) → Chars (us.flatMap escapeUnit) us ∧ Ascii (us.flatMap escapeUnit)
  | [], _ => ⟨.nil, by simp [Ascii]⟩
  | u :: us, h => by
    obtain ⟨h1, h2⟩ := escape_char u (h u (by simp))
    obtain ⟨h3, h4⟩ := escapes_chars us fun x hx => h x (by simp [hx])
    rw [List.flatMap_cons]
    exact ⟨.cons h1 h3, ascii_append h2 h4⟩

/-- The text of a string denotes the string with surrogates joined. -/
theorem strText_spec (s : PyStr) (h : ∀ c ∈ s, IsCodePoint c) : StrText (strText s) (jsonStr s) ∧ Ascii (strText s) := by
  have hlt := utf16Units_lt s h
  obtain ⟨h1, h2⟩ := escapes_chars _ hlt
  obtain ⟨h3, -, h4⟩ := joinUnits_cp _ (utf16Units s) le_rfl fun u hu => by
    have := hlt u hu
    unfold IsCodePoint; omega
  exact ⟨⟨_, _, rfl, h1, h3, h4⟩, ascii_cons (by omega) (ascii_append h2 (by decide))⟩

theorem digitsF_spec : ∀ (f n : Nat), n < 2 ^ f → f ≠ 0 → Digits (digitsF f n) n ∧ (digitsF f n = [48] ∨ (digitsF f n).head? ≠ some 48) ∧
    (n ≠ 0 → (digitsF f n).head? ≠ some 48)
  | 0, _, _, h => absurd rfl h
  | f + 1, n, h, _ => by
    rw [digitsF]
    split
    · rename_i hn
      refine ⟨.one n hn, ?_, ?_⟩
      · by_cases h0 : n = 0
        · subst h0; exact .inl rfl
        · right; simp; omega
      · intro h0; simp; omega
    · rename_i hn
      obtain ⟨h1, -, h3⟩ := digitsF_spec f (n / 10) (by rw [Nat.pow_succ] at h; omega) (by rintro rfl; simp at h; omega)
      have h4 := h3 (by omega)
      have hne : digitsF f (n / 10) ≠ [] := ((digits_iff _ _).1 h1).1
      have h5 : (digitsF f (n / 10) ++ [48 + n % 10]).head? ≠ some 48 := by
        rw [List.head?_append_of_ne_nil _ hne]
        exact h4
      refine ⟨?_, .inr h5, fun _ => h5⟩
      have := Digits.more (n % 10) h1 (by omega)
      rwa [show 10 * (n / 10) + n % 10 = n by omega] at this

theorem natText_spec (n : Nat) : IntPart (natText n) n := by
  obtain ⟨h1, h2, -⟩ := digitsF_spec (Nat.log2 n + 1) n Nat.lt_log2_self (by omega)
  exact ⟨h1, h2⟩

theorem digits_ascii {t : PyStr} {n : Nat} (h : Digits t n) : Ascii t := by
  obtain ⟨-, h, -⟩ := (digits_iff _ _).1 h
  intro c hc
  have := (isDigit_iff c).1 (h c hc)
  omega

theorem intText_spec (i : Int) : NumText (intText i) (.int i) ∧ Ascii (intText i) := by
  have h := natText_spec i.natAbs
  have ha := digits_ascii h.1
  unfold intText
  split
  · have := NumText.int .minus h
    simp only [if_true] at this
    rw [show (-(i.natAbs : Int)) = i by omega] at this
    exact ⟨this, ascii_cons (by omega) ha⟩
  · have := NumText.int .plus h
    simp only [Bool.false_eq_true, if_false] at this
    rw [show ((i.natAbs : Int)) = i by omega] at this
    exact ⟨this, ha⟩

theorem numText_ascii {t : PyStr} {v : Val} (h : NumText t v) : Ascii t := by
  have hs : ∀ {s neg}, Sign s neg → Ascii s := by intro s neg h; cases h <;> decide
  cases h with
  | int h1 h2 => exact ascii_append (hs h1) (digits_ascii h2.1)
  | float h1 h2 h3 h4 =>
    refine ascii_append (ascii_append (ascii_append (hs h1) (digits_ascii h2.1)) ?_) ?_
    · cases h3 with
      | none => simp [Ascii]
      | some h => exact ascii_cons (by omega) (digits_ascii h)
    · cases h4 with
      | none => simp [Ascii]
      | plain c hc h => exact ascii_cons (by omega) (digits_ascii h)
      | plus c hc h => exact ascii_cons (by omega) (ascii_cons (by omega) (digits_ascii h))
      | minus c hc h => exact ascii_cons (by omega) (ascii_cons (by omega) (digits_ascii h))

theorem inf_bits (b : BitVec 64) (h : isInf64 b = true) :
    (sgn64 b = 0 → b = 0x7ff0000000000000#64) ∧ (sgn64 b ≠ 0 → b = 0xfff0000000000000#64) := by
  obtain ⟨h2, h3⟩ : exp64 b = 2047 ∧ man64 b = 0 := by simpa [isInf64] using h
  unfold exp64 at h2
  unfold man64 at h3
  have := b.isLt
  unfold sgn64
  constructor
  · intro h1
    apply BitVec.eq_of_toNat_eq
    simp only [BitVec.toNat_ofNat]
    omega
  · intro h1
    apply BitVec.eq_of_toNat_eq
    simp only [BitVec.toNat_ofNat]
    omega

theorem floatText_spec {repr : BitVec 64 → PyStr} (hr : ReprLaw repr) (an : Bool) (b : BitVec 64) :
    (∀ v, jsonFloat an b = .ok v → ∃ t, floatText repr an b = .ok t ∧ JText an t v ∧ Ascii t) ∧
    (∀ e, jsonFloat an b = .error e → floatText repr an b = .error e) := by
  unfold jsonFloat floatText
  by_cases h1 : isNaN64 b = true
  · rw [if_pos h1, if_pos h1]
    cases an with
    | true =>
      refine ⟨fun v h => ?_, fun e h => by cases h⟩
      simp only [if_true, Except.ok.injEq] at h
      subst h
      exact ⟨_, rfl, .nan rfl, by decide⟩
    | false => exact ⟨fun v h => (by cases h), fun e h => (by cases h; rfl)⟩
  rw [if_neg h1, if_neg h1]
  by_cases h2 : isInf64 b = true
  · rw [if_pos h2, if_pos h2]
    obtain ⟨i1, i2⟩ := inf_bits b h2
    cases an with
    | true =>
      refine ⟨fun v h => ?_, fun e h => by cases h⟩
      simp only [if_true, Except.ok.injEq] at h
      subst h
      refine ⟨_, rfl, ?_⟩
      split
      · rename_i hs
        rw [i1 hs]
        exact ⟨.inf rfl, by decide⟩
      · rename_i hs
        rw [i2 hs]
        exact ⟨.negInf rfl, by decide⟩
    | false => exact ⟨fun v h => (by cases h), fun e h => (by cases h; rfl)⟩
  rw [if_neg h2, if_neg h2]
  refine ⟨fun v h => ?_, fun e h => by cases h⟩
  simp only [Except.ok.injEq] at h
  subst h
  have hf : Finite64 b := by
    intro hc
    have h1' : ¬ (exp64 b = 2047 ∧ man64 b ≠ 0) := by simpa [isNaN64] using h1
    have h2' : ¬ (exp64 b = 2047 ∧ man64 b = 0) := by simpa [isInf64] using h2
    unfold exp64 at h1' h2'
    exact h1' ⟨hc, fun hm => h2' ⟨hc, hm⟩⟩
  exact ⟨_, rfl, .num (hr b hf), numText_ascii (hr b hf)⟩

theorem hexN_ascii : ∀ (k n : Nat), Ascii (hexN k n)
  | 0, _ => by simp [hexN, Ascii]
  | k + 1, n => by
    rw [hexN]
    exact ascii_append (hexN_ascii k _) (ascii_cons (hexDigit_char _ (by omega)).2 (by simp [Ascii]))

theorem ascii_cp {s : PyStr} (h : Ascii s) : ∀ c ∈ s, IsCodePoint c := by
  intro c hc
  have := h c hc
  unfold IsCodePoint; omega

theorem uuidStr_ascii {raw : Bytes} {s : PyStr} (h : uuidStr raw = .ok s) : Ascii s := by
  unfold uuidStr at h
  split at h
  · cases h
    have h45 : Ascii [45] := by decide
    exact ascii_append (ascii_append (ascii_append (ascii_append (ascii_append (ascii_append (ascii_append
      (ascii_append (ascii_append (hexN_ascii _ _) h45) (hexN_ascii _ _)) h45) (hexN_ascii _ _)) h45)
      (hexN_ascii _ _)) h45) (hexN_ascii _ _)) (hexN_ascii _ _)
  · cases h

/-! ### values -/

theorem andThen_ok (a b : PyStr) : Out.andThen (a, none) (b, none) = (a ++ b, none) := rfl

/-- The exception of a result, if any. -/
def errOf {α : Type} : Except Err α → Option Err
  | .ok _ => none
  | .error e => some e

theorem andThen_err (a b : Out) : (Out.andThen a b).2 = match a.2 with | some e => some e | none => b.2 := by
  obtain ⟨t, o⟩ := a
  cases o <;> rfl

theorem encItem_ok (buf : PyStr) (v : Val) (t : PyStr) : encItem buf v (t, none) = (buf ++ t, none) := by
  cases v <;> rfl

theorem encItem_err (buf : PyStr) (v : Val) (o : Out) : (encItem buf v o).2 = o.2 := by
  obtain ⟨t, o⟩ := o
  cases v <;> cases o <;> rfl

theorem floatText_err (repr : BitVec 64 → PyStr) (an : Bool) (b : BitVec 64) :
    errOf (floatText repr an b) = errOf (jsonFloat an b) := by
  unfold floatText jsonFloat
  split
  · cases an <;> rfl
  split
  · cases an <;> rfl
  rfl

mutual
/-- The writer fails when the round trip fails, with the same exception. -/
theorem enc_err (repr : BitVec 64 → PyStr) (minify an : Bool) (level : Nat) : ∀ (v : Val),
    (enc repr minify an level v).2 = errOf (jsonRT an v)
  | .none => by rw [enc]; rfl
  | .bool true => by rw [enc]; rfl
  | .bool false => by rw [enc]; rfl
  | .int i => by rw [enc]; rfl
  | .float b => by
    rw [enc, jsonRT, ← floatText_err repr]
    cases floatText repr an b <;> rfl
  | .str s => by rw [enc]; rfl
  | .bytes _ => by rw [enc]; rfl
  | .uuid raw => by
    rw [enc, jsonRT]
    cases uuidStr raw <;> rfl
  | .list [] => by rw [enc]; rfl
  | .tuple [] => by rw [enc]; rfl
  | .list (v :: l) => by
    rw [enc, jsonRT, jsonRTL, andThen_err, andThen_err, encItem_err, enc_err repr minify an (level + 1) v,
      encL_err repr minify an (level + 1) l]
    cases jsonRT an v <;> cases jsonRTL an l <;> rfl
  | .tuple (v :: l) => by
    rw [enc, jsonRT, jsonRTL, andThen_err, andThen_err, encItem_err, enc_err repr minify an (level + 1) v,
      encL_err repr minify an (level + 1) l]
    cases jsonRT an v <;> cases jsonRTL an l <;> rfl
  | .dict [] => by rw [enc]; rfl
  | .dict ((k, v) :: d) => by
    rw [enc, jsonRT, jsonRTD, andThen_err, andThen_err, andThen_err, enc_err repr minify an (level + 1) v,
      encD_err repr minify an (level + 1) d]
    cases jsonRT an v <;> cases jsonRTD an d <;> rfl
theorem encL_err (repr : BitVec 64 → PyStr) (minify an : Bool) (level : Nat) : ∀ (l : List Val),
    (encL repr minify an level l).2 = errOf (jsonRTL an l)
  | [] => by rw [encL]; rfl
  | v :: l => by
    rw [encL, jsonRTL, andThen_err, encItem_err, enc_err repr minify an level v,
      encL_err repr minify an level l]
    cases jsonRT an v <;> cases jsonRTL an l <;> rfl
theorem encD_err (repr : BitVec 64 → PyStr) (minify an : Bool) (level : Nat) : ∀ (d : List (PyStr × Val)),
    (encD repr minify an level d).2 = errOf (jsonRTD an d)
  | [] => by rw [encD]; rfl
  | (k, v) :: d => by
    rw [encD, jsonRTD, andThen_err, andThen_err, enc_err repr minify an level v,
      encD_err repr minify an level d]
    cases jsonRT an v <;> cases jsonRTD an d <;> rfl
end

theorem blank_space : Blank [32] := by intro c hc; simp at hc; simp [hc]

section
variable {repr : BitVec 64 → PyStr} (hr : ReprLaw repr) (minify an : Bool)
include hr

mutual
/-- What is written for a value is a JSON text for the value after the round trip. -/
theorem enc_ok (level : Nat) : ∀ (v : Val) {v' : Val}, CodePoints v → jsonRT an v = .ok v' →
    ∃ t, enc repr minify an level v = (t, none) ∧ JText an t v' ∧ Ascii t
  | .none, v', _, h => by
    cases h
    exact ⟨_, by rw [enc]; rfl, .null, by decide⟩
  | .bool true, v', _, h => by
    cases h
    exact ⟨_, by rw [enc]; rfl, .true, by decide⟩
  | .bool false, v', _, h => by
    cases h
    exact ⟨_, by rw [enc]; rfl, .false, by decide⟩
  | .int i, v', _, h => by
    cases h
    exact ⟨_, by rw [enc]; rfl, .num (intText_spec i).1, (intText_spec i).2⟩
  | .float b, v', _, h => by
    rw [jsonRT] at h
    obtain ⟨t, h1, h2, h3⟩ := (floatText_spec hr an b).1 _ h
    exact ⟨t, by rw [enc, h1]; rfl, h2, h3⟩
  | .str s, v', hc, h => by
    cases h
    obtain ⟨h1, h2⟩ := strText_spec s (by simpa [CodePoints] using hc)
    exact ⟨_, by rw [enc]; rfl, .str h1, h2⟩
  | .bytes _, v', _, h => by cases h
  | .uuid raw, v', _, h => by
    rw [jsonRT] at h
    split at h
    · rename_i s hs
      cases h
      obtain ⟨h1, h2⟩ := strText_spec s (ascii_cp (uuidStr_ascii hs))
      exact ⟨_, by rw [enc, hs]; rfl, .str h1, h2⟩
    · cases h
  | .list [], v', _, h => by
    cases h
    exact ⟨_, by rw [enc]; rfl, JText.arr0 blank_nil, by decide⟩
  | .tuple [], v', _, h => by
    cases h
    exact ⟨_, by rw [enc]; rfl, JText.arr0 blank_nil, by decide⟩
  | .list (v :: l), v', hc, h => by
    rw [CodePoints, CodePointsL] at hc
    rw [jsonRT, jsonRTL] at h
    split at h
    · rename_i l' hl
      cases h
      split at hl
      · cases hl
      rename_i v1 hv
      split at hl
      · cases hl
      rename_i l1 hl1
      cases hl
      obtain ⟨t, h1, h2, h3⟩ := enc_ok (level + 1) v hc.1 hv
      obtain ⟨r, r1, r2, r3⟩ := encL_ok (level + 1) l hc.2 hl1
      have hb := newline_blank minify level
      have hb' := newline_blank minify (level + 1)
      refine ⟨_, by rw [enc, h1, r1, encItem_ok, andThen_ok]; rfl, ?_, ?_⟩
      · have := JText.arr (r3 _ _ _ _ hb' h2 hb)
        simpa [Out.text] using this
      · exact ascii_append (ascii_append (ascii_append (ascii_cons (by omega) (blank_ascii hb')) h3) r2)
          (ascii_append (blank_ascii hb) (by decide))
    · cases h
  | .tuple (v :: l), v', hc, h => by
    rw [CodePoints, CodePointsL] at hc
    rw [jsonRT, jsonRTL] at h
    split at h
    · rename_i l' hl
      cases h
      split at hl
      · cases hl
      rename_i v1 hv
      split at hl
      · cases hl
      rename_i l1 hl1
      cases hl
      obtain ⟨t, h1, h2, h3⟩ := enc_ok (level + 1) v hc.1 hv
      obtain ⟨r, r1, r2, r3⟩ := encL_ok (level + 1) l hc.2 hl1
      have hb := newline_blank minify level
      have hb' := newline_blank minify (level + 1)
      refine ⟨_, by rw [enc, h1, r1, encItem_ok, andThen_ok]; rfl, ?_, ?_⟩
      · have := JText.arr (r3 _ _ _ _ hb' h2 hb)
        simpa [Out.text] using this
      · exact ascii_append (ascii_append (ascii_append (ascii_cons (by omega) (blank_ascii hb')) h3) r2)
          (ascii_append (blank_ascii hb) (by decide))
    · cases h
  | .dict [], v', _, h => by
    cases h
    exact ⟨_, by rw [enc]; rfl, JText.obj0 blank_nil, by decide⟩
  | .dict ((k, v) :: d), v', hc, h => by
    rw [CodePoints, CodePointsD] at hc
    rw [jsonRT, jsonRTD] at h
    split at h
    · rename_i l' hl
      cases h
      split at hl
      · cases hl
      rename_i v1 hv
      split at hl
      · cases hl
      rename_i l1 hl1
      cases hl
      obtain ⟨t, h1, h2, h3⟩ := enc_ok (level + 1) v hc.2.1 hv
      obtain ⟨r, r1, r2, r3⟩ := encD_ok (level + 1) d hc.2.2 hl1
      obtain ⟨k1, k2⟩ := strText_spec k hc.1
      have hb := newline_blank minify level
      have hb' := newline_blank minify (level + 1)
      refine ⟨_, by rw [enc, h1, r1, Out.text, andThen_ok, andThen_ok]; rfl, ?_, ?_⟩
      · have := JText.obj (r3 _ _ _ _ _ _ _ _ hb' k1 blank_nil blank_space h2 hb)
        rw [show P ": " = [58, 32] by decide]
        simpa [Out.text] using this
      · exact ascii_append (ascii_append (ascii_append (ascii_append (ascii_append (ascii_cons (by omega) (blank_ascii hb')) k2) (by decide)) h3) r2)
          (ascii_append (blank_ascii hb) (by decide))
    · cases h
theorem encL_ok (level : Nat) : ∀ (l : List Val) {l' : List Val}, CodePointsL l → jsonRTL an l = .ok l' →
    ∃ r, encL repr minify an level l = (r, none) ∧ Ascii r ∧
      ∀ w x v0 w', Blank w → JText an x v0 → Blank w' → JElems an (w ++ x ++ r ++ w') (v0 :: l')
  | [], l', _, h => by
    cases h
    refine ⟨[], by rw [encL]; rfl, by simp [Ascii], fun w x v0 w' hw hx hw' => ?_⟩
    simpa using JElems.one hw hx hw'
  | v :: l, l', hc, h => by
    rw [CodePointsL] at hc
    rw [jsonRTL] at h
    split at h
    · cases h
    rename_i v1 hv
    split at h
    · cases h
    rename_i l1 hl1
    cases h
    obtain ⟨t, h1, h2, h3⟩ := enc_ok level v hc.1 hv
    obtain ⟨r, r1, r2, r3⟩ := encL_ok level l hc.2 hl1
    obtain ⟨s, hs, hsb⟩ := itemSep_form minify level
    refine ⟨_, by rw [encL, h1, r1, encItem_ok, andThen_ok], ?_, fun w x v0 w' hw hx hw' => ?_⟩
    · rw [hs]
      exact ascii_append (ascii_append (ascii_cons (by omega) (blank_ascii hsb)) h3) r2
    · have := JElems.more hw hx blank_nil (r3 s t v1 w' hsb h2 hw')
      rw [hs]
      simpa using this
theorem encD_ok (level : Nat) : ∀ (d : List (PyStr × Val)) {d' : List (PyStr × Val)}, CodePointsD d → jsonRTD an d = .ok d' →
    ∃ r, encD repr minify an level d = (r, none) ∧ Ascii r ∧
      ∀ w k' k w1 w2 x v0 w3, Blank w → StrText k' k → Blank w1 → Blank w2 → JText an x v0 → Blank w3 →
        JMembers an (w ++ k' ++ w1 ++ [58] ++ w2 ++ x ++ r ++ w3) ((k, v0) :: d')
  | [], d', _, h => by
    cases h
    refine ⟨[], by rw [encD]; rfl, by simp [Ascii], fun w k' k w1 w2 x v0 w3 hw hk hw1 hw2 hx hw3 => ?_⟩
    simpa using JMembers.one hw hk hw1 hw2 hx hw3
  | (k0, v) :: d, d', hc, h => by
    rw [CodePointsD] at hc
    rw [jsonRTD] at h
    split at h
    · cases h
    rename_i v1 hv
    split at h
    · cases h
    rename_i d1 hd1
    cases h
    obtain ⟨t, h1, h2, h3⟩ := enc_ok level v hc.2.1 hv
    obtain ⟨r, r1, r2, r3⟩ := encD_ok level d hc.2.2 hd1
    obtain ⟨s, hs, hsb⟩ := itemSep_form minify level
    obtain ⟨k1, k2⟩ := strText_spec k0 hc.1
    refine ⟨_, by rw [encD, h1, r1, Out.text, andThen_ok, andThen_ok], ?_, fun w k' k w1 w2 x v0 w3 hw hk hw1 hw2 hx hw3 => ?_⟩
    · rw [hs]
      exact ascii_append (ascii_append (ascii_append (ascii_append (ascii_cons (by omega) (blank_ascii hsb)) k2) (by decide)) h3) r2
    · have := JMembers.more hw hk hw1 hw2 hx blank_nil
        (r3 s _ _ [] [32] t v1 w3 hsb k1 blank_nil blank_space h2 hw3)
      rw [hs, show P ": " = [58, 32] by decide]
      simpa using this
end

end

end Pal
