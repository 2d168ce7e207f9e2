import Verif.Model.JsonText
import Verif.Spec.JsonText
import Verif.Lemmas.Invert
/-
The tokens of the JSON reader: white space, strings, numbers, words.
-/

namespace Pal
open Spec

/-! ### white space -/

/-- A character that is not white space. -/
def Solid (c : Nat) : Prop := ¬ (c = 32 ∨ c = 9 ∨ c = 10 ∨ c = 13)

theorem blank_nil : Blank [] := by intro c hc; cases hc

theorem blank_append {a b : PyStr} (ha : Blank a) (hb : Blank b) : Blank (a ++ b) := by
  intro c hc
  rcases List.mem_append.1 hc with h | h
  · exact ha c h
  · exact hb c h

theorem skipWs_blank : ∀ (w t : PyStr), Blank w → skipWs (w ++ t) = skipWs t
  | [], _, _ => rfl
  | c :: w, t, h => by
    rw [List.cons_append, skipWs, if_pos (h c (by simp)), skipWs_blank w t fun x hx => h x (by simp [hx])]

theorem skipWs_solid {c : Nat} (t : PyStr) (h : Solid c) : skipWs (c :: t) = c :: t := by
  rw [skipWs, if_neg h]

theorem skipWs_to {c : Nat} (w t : PyStr) (hw : Blank w) (h : Solid c) : skipWs (w ++ c :: t) = c :: t := by
  rw [skipWs_blank _ _ hw, skipWs_solid t h]

theorem skipWs_split : ∀ t, ∃ w, Blank w ∧ t = w ++ skipWs t
  | [] => ⟨[], blank_nil, rfl⟩
  | c :: t => by
    rw [skipWs]
    split
    · rename_i h
      obtain ⟨w, h1, h2⟩ := skipWs_split t
      refine ⟨c :: w, ?_, by rw [List.cons_append, ← h2]⟩
      intro x hx
      rcases List.mem_cons.1 hx with rfl | hx
      · exact h
      · exact h1 x hx
    · exact ⟨[], blank_nil, rfl⟩

theorem skipWs_head : ∀ t c r, skipWs t = c :: r → Solid c
  | [], _, _, h => by cases h
  | a :: t, c, r, h => by
    rw [skipWs] at h
    split at h
    · exact skipWs_head t c r h
    · injection h with h1 h2
      subst h1
      assumption

theorem skipWs_blank_nil {w : PyStr} (h : Blank w) : skipWs w = [] := by
  have := skipWs_blank w [] h
  rw [List.append_nil] at this
  exact this

theorem blank_of_skipWs {t : PyStr} (h : skipWs t = []) : Blank t := by
  obtain ⟨w, h1, h2⟩ := skipWs_split t
  rw [h, List.append_nil] at h2
  exact h2 ▸ h1

/-! ### strings -/

theorem hexVal_iff (c n : Nat) : hexVal c = some n ↔ HexChar c n := by
  constructor
  · intro h
    unfold hexVal at h
    split at h
    · injection h with h; subst h
      have := HexChar.digit (c - 48) (by omega)
      rwa [show 48 + (c - 48) = c by omega] at this
    · split at h
      · injection h with h; subst h
        have := HexChar.lower (c - 97) (by omega)
        rwa [show 97 + (c - 97) = c by omega, show 10 + (c - 97) = c - 87 by omega] at this
      · split at h
        · injection h with h; subst h
          have := HexChar.upper (c - 65) (by omega)
          rwa [show 65 + (c - 65) = c by omega, show 10 + (c - 65) = c - 55 by omega] at this
        · cases h
  · intro h
    unfold hexVal
    cases h with
    | digit n h => rw [if_pos (by omega)]; congr 1; omega
    | lower n h => rw [if_neg (by omega), if_pos (by omega)]; congr 1; omega
    | upper n h => rw [if_neg (by omega), if_neg (by omega), if_pos (by omega)]; congr 1; omega

theorem hexChar_lt {c n : Nat} (h : HexChar c n) : n < 16 := by cases h <;> omega

theorem hex4_iff (a b c d u : Nat) : hex4 a b c d = some u ↔
    ∃ w x y z, HexChar a w ∧ HexChar b x ∧ HexChar c y ∧ HexChar d z ∧ u = w * 4096 + x * 256 + y * 16 + z := by
  unfold hex4
  constructor
  · intro h
    split at h
    · rename_i w x y z h1 h2 h3 h4
      injection h with h
      exact ⟨w, x, y, z, (hexVal_iff _ _).1 h1, (hexVal_iff _ _).1 h2, (hexVal_iff _ _).1 h3, (hexVal_iff _ _).1 h4, h.symm⟩
    · cases h
  · rintro ⟨w, x, y, z, h1, h2, h3, h4, rfl⟩
    rw [(hexVal_iff _ _).2 h1, (hexVal_iff _ _).2 h2, (hexVal_iff _ _).2 h3, (hexVal_iff _ _).2 h4]

/-- One character or escape at the front of a string. -/
theorem scanUnits_char {t : PyStr} {u : Nat} (h : CharText t u) (r : PyStr) :
    scanUnits (t ++ r) = match scanUnits r with
      | .ok (us, r) => .ok (u :: us, r)
      | .error x => .error x := by
  cases h with
  | plain c h1 h2 h3 =>
    rw [List.cons_append, List.nil_append, scanUnits.eq_def]
    simp only
    rw [if_neg h2, if_neg h3, if_neg (by omega)]
    rfl
  | unicode a b c d w x y z h1 h2 h3 h4 =>
    have he : P "\\u" = [92, 117] := by decide
    rw [he]
    simp only [List.cons_append, List.nil_append]
    rw [scanUnits, if_neg (by decide), if_pos rfl]
    simp only [if_true]
    rw [(hex4_iff _ _ _ _ _).2 ⟨w, x, y, z, h1, h2, h3, h4, rfl⟩]
    rfl
  | quote => exact scanUnits.eq_def _
  | backslash => exact scanUnits.eq_def _
  | slash => exact scanUnits.eq_def _
  | backspace => exact scanUnits.eq_def _
  | feed => exact scanUnits.eq_def _
  | line => exact scanUnits.eq_def _
  | ret => exact scanUnits.eq_def _
  | tab => exact scanUnits.eq_def _

theorem scanUnits_complete {body : PyStr} {us : List Nat} (h : Chars body us) (r : PyStr) :
    scanUnits (body ++ 34 :: r) = .ok (us, r) := by
  induction h with
  | nil => rw [List.nil_append, scanUnits.eq_def]; rfl
  | cons h1 h2 ih => rw [List.append_assoc, scanUnits_char h1, ih]

theorem backslash_sound {e u : Nat} (h : backslash e = some u) : CharText [92, e] u := by
  unfold backslash at h
  by_cases h1 : e = 34
  · subst h1; injection h with h; subst h; exact .quote
  rw [if_neg h1] at h
  by_cases h1 : e = 92
  · subst h1; injection h with h; subst h; exact .backslash
  rw [if_neg h1] at h
  by_cases h1 : e = 47
  · subst h1; injection h with h; subst h; exact .slash
  rw [if_neg h1] at h
  by_cases h1 : e = 98
  · subst h1; injection h with h; subst h; exact .backspace
  rw [if_neg h1] at h
  by_cases h1 : e = 102
  · subst h1; injection h with h; subst h; exact .feed
  rw [if_neg h1] at h
  by_cases h1 : e = 110
  · subst h1; injection h with h; subst h; exact .line
  rw [if_neg h1] at h
  by_cases h1 : e = 114
  · subst h1; injection h with h; subst h; exact .ret
  rw [if_neg h1] at h
  by_cases h1 : e = 116
  · subst h1; injection h with h; subst h; exact .tab
  rw [if_neg h1] at h
  cases h

theorem scanUnits_sound : ∀ (n : Nat) (t : PyStr) (us : List Nat) (r : PyStr), t.length ≤ n → scanUnits t = .ok (us, r) →
    ∃ body, t = body ++ 34 :: r ∧ Chars body us
  | 0, [], _, _, _, h => by rw [scanUnits] at h; cases h
  | 0, _ :: _, _, _, hl, _ => by simp at hl
  | n + 1, [], _, _, _, h => by rw [scanUnits] at h; cases h
  | n + 1, c :: t, us, r, hl, h => by
    have step : ∀ {p s : PyStr} {u : Nat}, CharText p u → s.length ≤ n → c :: t = p ++ s →
        (match scanUnits s with
          | .ok (us, r) => .ok (u :: us, r)
          | .error x => .error x : J (List Nat)) = .ok (us, r) →
        ∃ body, c :: t = body ++ 34 :: r ∧ Chars body us := by
      intro p s u hp hs he hm
      cases hq : scanUnits s with
      | error e => rw [hq] at hm; cases hm
      | ok x =>
        obtain ⟨us', r'⟩ := x
        rw [hq] at hm
        simp only [Except.ok.injEq, Prod.mk.injEq] at hm
        obtain ⟨rfl, rfl⟩ := hm
        obtain ⟨body, rfl, h2⟩ := scanUnits_sound n s us' r' hs hq
        exact ⟨p ++ body, by rw [he, List.append_assoc], .cons hp h2⟩
    rw [scanUnits.eq_def] at h
    simp only at h
    by_cases h1 : c = 34
    · rw [if_pos h1] at h
      simp only [Except.ok.injEq, Prod.mk.injEq] at h
      obtain ⟨rfl, rfl⟩ := h
      exact ⟨[], by rw [h1]; rfl, .nil⟩
    rw [if_neg h1] at h
    by_cases h2 : c = 92
    · rw [if_pos h2] at h
      subst h2
      cases t with
      | nil => cases h
      | cons e t =>
        simp only at h
        by_cases h3 : e = 117
        · rw [if_pos h3] at h
          subst h3
          rcases t with _ | ⟨a, _ | ⟨b, _ | ⟨c, _ | ⟨d, t⟩⟩⟩⟩
          · cases h
          · cases h
          · cases h
          · cases h
          · simp only at h
            cases h4 : hex4 a b c d with
            | none => rw [h4] at h; cases h
            | some u =>
              rw [h4] at h
              obtain ⟨w, x, y, z, k1, k2, k3, k4, rfl⟩ := (hex4_iff _ _ _ _ _).1 h4
              exact step (.unicode a b c d w x y z k1 k2 k3 k4) (by simp at hl; omega) rfl h
        · rw [if_neg h3] at h
          cases h4 : backslash e with
          | none => rw [h4] at h; cases h
          | some u =>
            rw [h4] at h
            exact step (backslash_sound h4) (by simp at hl; omega) rfl h
    · rw [if_neg h2] at h
      by_cases h3 : c < 32
      · rw [if_pos h3] at h; cases h
      · rw [if_neg h3] at h
        exact step (.plain c (by omega) h1 h2) (by simp at hl; omega) rfl h

/-- Joining surrogates, for a list of code points. -/
theorem joinUnits_cp : ∀ (n : Nat) (us : List Nat), us.length ≤ n → (∀ u ∈ us, IsCodePoint u) →
    Normal (joinUnits us) ∧ (∀ v, (joinUnits us).head? = some v → IsLow v → us.head? = some v) ∧
    units (joinUnits us) = units us := by
  intro n
  induction n with
  | zero =>
    intro us hl _
    cases us with
    | nil => simp [joinUnits, Normal, NoSplit]
    | cons _ _ => simp at hl
  | succ n ih =>
    intro us hl hu
    match us with
    | [] => simp [joinUnits, Normal, NoSplit]
    | [u] =>
      have := hu u (by simp)
      refine ⟨⟨?_, ?_⟩, ?_, ?_⟩
      · simpa [joinUnits] using this
      · simp [joinUnits, NoSplit]
      · intro v hv _; simpa [joinUnits] using hv
      · rfl
    | u :: v :: t =>
      rw [joinUnits]
      have hu0 := hu u (by simp)
      unfold IsCodePoint at hu0
      split
      · rename_i hp
        simp only [isHi, isLo, Bool.and_eq_true, decide_eq_true_eq] at hp
        obtain ⟨⟨hc, hs⟩, hh, he⟩ := ih t (by simp at hl; omega) (fun x hx => hu x (by simp [hx]))
        refine ⟨⟨?_, ?_⟩, ?_, ?_⟩
        · intro c hcm
          rcases List.mem_cons.1 hcm with h1 | h1
          · unfold IsCodePoint; omega
          · exact hc c h1
        · cases hj : joinUnits t with
          | nil => trivial
          | cons d r =>
            rw [hj] at hs
            refine ⟨?_, hs⟩
            unfold IsHigh; omega
        · intro w hw hlow
          simp only [List.head?_cons, Option.some.injEq] at hw
          unfold IsLow at hlow
          omega
        · simp only [units, List.flatMap_cons] at he ⊢
          rw [he, unitsOf, if_neg (by omega), unitsOf, if_pos (by omega), unitsOf, if_pos (by omega)]
          rw [show 0xD800 + (0x10000 + (u - 0xD800) * 0x400 + (v - 0xDC00) - 0x10000) / 0x400 = u by omega,
            show 0xDC00 + (0x10000 + (u - 0xD800) * 0x400 + (v - 0xDC00) - 0x10000) % 0x400 = v by omega]
          rfl
      · rename_i hp
        simp only [isHi, isLo, Bool.and_eq_true, decide_eq_true_eq] at hp
        obtain ⟨⟨hc, hs⟩, hh, he⟩ := ih (v :: t) (by simp at hl ⊢; omega) (fun x hx => hu x (by
          rcases List.mem_cons.1 hx with h1 | h1 <;> simp [h1]))
        refine ⟨⟨?_, ?_⟩, ?_, ?_⟩
        · intro c hcm
          rcases List.mem_cons.1 hcm with h1 | h1
          · unfold IsCodePoint; omega
          · exact hc c h1
        · cases hj : joinUnits (v :: t) with
          | nil => trivial
          | cons d r =>
            rw [hj] at hs hh
            refine ⟨?_, hs⟩
            rintro ⟨h1, h2⟩
            have := hh d rfl h2
            simp only [List.head?_cons, Option.some.injEq] at this
            subst this
            unfold IsHigh at h1
            unfold IsLow at h2
            omega
        · intro w hw _
          exact hw
        · simp only [units, List.flatMap_cons] at he ⊢
          rw [he]

/-- The string denoted by characters is the one with surrogates joined. -/
theorem join_unique {s : PyStr} {us : List Nat} (hs : Normal s) (hu : ∀ u ∈ us, IsCodePoint u) (h : units s = units us) :
    joinUnits us = s := by
  obtain ⟨h1, -, h2⟩ := joinUnits_cp _ us le_rfl hu
  rw [← h, units_eq, units_eq] at h2
  rw [← joinUnits_utf16Units _ h1, h2, joinUnits_utf16Units _ hs]

theorem charText_cp {t : PyStr} {u : Nat} (h : CharText t u) (ht : ∀ c ∈ t, IsCodePoint c) : IsCodePoint u := by
  unfold IsCodePoint
  cases h with
  | plain c => exact ht u (by simp)
  | unicode a b c d w x y z h1 h2 h3 h4 =>
    have := hexChar_lt h1
    have := hexChar_lt h2
    have := hexChar_lt h3
    have := hexChar_lt h4
    omega
  | _ => decide

theorem chars_cp {t : PyStr} {us : List Nat} (h : Chars t us) (ht : ∀ c ∈ t, IsCodePoint c) : ∀ u ∈ us, IsCodePoint u := by
  induction h with
  | nil => intro u hu; cases hu
  | cons h1 h2 ih =>
    intro u hu
    rcases List.mem_cons.1 hu with rfl | hu
    · exact charText_cp h1 fun c hc => ht c (by simp [hc])
    · exact ih (fun c hc => ht c (by simp [hc])) u hu

theorem charText_ne {t : PyStr} {u : Nat} (h : CharText t u) : ∃ c r, t = c :: r := by
  cases h <;> exact ⟨_, _, rfl⟩

theorem scanStr_complete {t s : PyStr} (h : StrText t s) (ht : ∀ c ∈ t, IsCodePoint c) (r : PyStr) :
    ∃ t', t = 34 :: t' ∧ scanStr (t' ++ r) = .ok (s, r) := by
  obtain ⟨body, us, rfl, h1, h2, h3⟩ := h
  refine ⟨body ++ [34], rfl, ?_⟩
  unfold scanStr
  rw [List.append_assoc, List.cons_append, List.nil_append, scanUnits_complete h1]
  simp only
  rw [join_unique h2 (chars_cp h1 fun c hc => ht c (by simp [hc])) h3]

theorem scanStr_sound {t s r : PyStr} (ht : ∀ c ∈ t, IsCodePoint c) (h : scanStr t = .ok (s, r)) :
    ∃ x, 34 :: t = x ++ r ∧ StrText x s := by
  unfold scanStr at h
  cases hq : scanUnits t with
  | error e => rw [hq] at h; cases h
  | ok y =>
    obtain ⟨us, r'⟩ := y
    rw [hq] at h
    simp only [Except.ok.injEq, Prod.mk.injEq] at h
    obtain ⟨rfl, rfl⟩ := h
    obtain ⟨body, rfl, h2⟩ := scanUnits_sound _ _ _ _ le_rfl hq
    obtain ⟨h3, -, h4⟩ := joinUnits_cp _ us le_rfl (chars_cp h2 fun c hc => ht c (by simp [hc]))
    exact ⟨[34] ++ body ++ [34], by simp, body, us, rfl, h2, h3, h4⟩

end Pal
