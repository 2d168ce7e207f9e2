import Verif.Spec.UuidText
/-
The model's parser of GUID texts and the specification `Spec/UuidText.lean`.
-/

namespace Pal.Spec.GuidText
open Pal

/-! ### taking words out -/

theorem urn_chars : P "urn:" = [117, 114, 110, 58] := by decide +kernel
theorem uuid_chars : P "uuid:" = [117, 117, 105, 100, 58] := by decide +kernel

theorem prefix_urn {p t : PyStr} {c : Nat} (h : ¬ P "urn:" <:+: c :: p) : ¬ P "urn:" <+: c :: p ++ P "urn:" ++ t := by
  intro hp
  rw [urn_chars] at hp h
  match p, hp, h with
  | [], hp, _ => simp at hp
  | [a], hp, _ => simp at hp
  | [a, b], hp, _ => simp at hp
  | a :: b :: e :: u, hp, h =>
    refine h (List.IsPrefix.isInfix ?_)
    simp only [List.cons_append, List.cons_prefix_cons] at hp ⊢
    exact ⟨hp.1, hp.2.1, hp.2.2.1, hp.2.2.2.1, List.nil_prefix⟩

theorem prefix_uuid {p t : PyStr} {c : Nat} (h : ¬ P "uuid:" <:+: c :: p) : ¬ P "uuid:" <+: c :: p ++ P "uuid:" ++ t := by
  intro hp
  rw [uuid_chars] at hp h
  match p, hp, h with
  | [], hp, _ => simp at hp
  | [a], hp, _ => simp at hp
  | [a, b], hp, _ => simp at hp
  | [a, b, d], hp, _ => simp at hp
  | a :: b :: d :: e :: u, hp, h =>
    refine h (List.IsPrefix.isInfix ?_)
    simp only [List.cons_append, List.cons_prefix_cons] at hp ⊢
    exact ⟨hp.1, hp.2.1, hp.2.2.1, hp.2.2.2.1, hp.2.2.2.2.1, List.nil_prefix⟩

theorem skip_word (old : PyStr) : ∀ (w : PyStr) (t : PyStr), removeAllAux old w.length (w ++ t) = removeAllAux old 0 t
  | [], t => rfl
  | c :: w, t => by rw [List.cons_append, List.length_cons, removeAllAux, skip_word old w t]

theorem without_eq {w : PyStr} (hw : w ≠ [])
    (hp : ∀ {p t : PyStr} {c : Nat}, ¬ w <:+: c :: p → ¬ w <+: c :: p ++ w ++ t) {x y : PyStr} (h : Without w x y) :
    removeAll w x = y := by
  unfold removeAll
  induction h with
  | @none x h =>
    induction x with
    | nil => rfl
    | cons c t ih =>
      rw [removeAllAux, if_neg, ih fun h' => h (h'.trans (List.suffix_cons c t).isInfix)]
      rw [List.isPrefixOf_iff_prefix]
      exact fun hp => h hp.isInfix
  | @one p t u h _ ih =>
    induction p with
    | nil =>
      cases w with
      | nil => exact absurd rfl hw
      | cons c w =>
        rw [List.nil_append, List.nil_append, List.cons_append, removeAllAux, if_pos]
        · rw [List.length_cons, Nat.add_sub_cancel, skip_word, ih]
        · rw [List.isPrefixOf_iff_prefix, ← List.cons_append]
          exact List.prefix_append _ _
    | cons c p ihp =>
      rw [List.cons_append, List.cons_append, removeAllAux, if_neg, ihp fun h' => h (h'.trans (List.suffix_cons c p).isInfix)]
      · rfl
      · rw [List.isPrefixOf_iff_prefix]
        exact hp h

theorem first_word {w : PyStr} (hw : w ≠ []) : ∀ x : PyStr, w <:+: x → ∃ p t, x = p ++ w ++ t ∧ ¬ w <:+: p
  | [], h => by
    obtain ⟨a, b, h⟩ := h
    have := congrArg List.length h
    cases w with
    | nil => exact absurd rfl hw
    | cons c w => simp at this
  | c :: r, h => by
    by_cases hp : w <+: c :: r
    · obtain ⟨t, ht⟩ := hp
      refine ⟨[], t, ht.symm, fun h => ?_⟩
      exact hw (List.infix_nil.1 h)
    · have hr : w <:+: r := (List.infix_cons_iff.1 h).resolve_left hp
      obtain ⟨p, t, rfl, hq⟩ := first_word hw r hr
      refine ⟨c :: p, t, rfl, fun h' => ?_⟩
      rcases List.infix_cons_iff.1 h' with h' | h'
      · refine hp (h'.trans ?_)
        rw [List.append_assoc]
        exact ⟨w ++ t, rfl⟩
      · exact hq h'

theorem without_exists {w : PyStr} (hw : w ≠ []) (x : PyStr) : ∃ y, Without w x y := by
  obtain ⟨n, hn⟩ : ∃ n, x.length ≤ n := ⟨_, Nat.le_refl _⟩
  induction n using Nat.strongRecOn generalizing x with
  | _ n ih =>
  by_cases hi : w <:+: x
  · obtain ⟨p, t, rfl, hp⟩ := first_word hw x hi
    have hl : t.length < n := by
      have : 0 < w.length := List.length_pos_iff.2 hw
      simp only [List.length_append] at hn
      omega
    obtain ⟨u, hu⟩ := ih t.length hl t (Nat.le_refl _)
    exact ⟨_, .one hp hu⟩
  · exact ⟨x, .none hi⟩

theorem without_iff {w : PyStr} (hw : w ≠ [])
    (hp : ∀ {p t : PyStr} {c : Nat}, ¬ w <:+: c :: p → ¬ w <+: c :: p ++ w ++ t) {x y : PyStr} :
    Without w x y ↔ y = removeAll w x := by
  constructor
  · exact fun h => (without_eq hw hp h).symm
  · rintro rfl
    obtain ⟨y, hy⟩ := without_exists hw x
    rw [without_eq hw hp hy]
    exact hy

theorem urn_iff {x y : PyStr} : Without (P "urn:") x y ↔ y = removeAll (P "urn:") x :=
  without_iff (by decide +kernel) prefix_urn
theorem uuid_iff {x y : PyStr} : Without (P "uuid:") x y ↔ y = removeAll (P "uuid:") x :=
  without_iff (by decide +kernel) prefix_uuid

/-! ### taking off what is around -/

theorem drop_front {p : Nat → Bool} {a r : PyStr} (ha : ∀ c ∈ a, p c = true) (hr : ∀ c, r.head? = some c → p c = false) :
    (a ++ r).dropWhile p = r := by
  induction a with
  | nil =>
    cases r with
    | nil => rfl
    | cons c t => rw [List.nil_append, List.dropWhile_cons, hr c rfl]; rfl
  | cons c t ih =>
    rw [List.cons_append, List.dropWhile_cons, ha c (by simp), if_pos rfl]
    exact ih fun c hc => ha c (by simp [hc])

theorem strip_eq {p : Nat → Bool} {a r b : PyStr} (ha : ∀ c ∈ a, p c = true) (hb : ∀ c ∈ b, p c = true)
    (h1 : ∀ c, r.head? = some c → p c = false) (h2 : ∀ c, r.getLast? = some c → p c = false) :
    stripWith p (a ++ r ++ b) = r := by
  unfold stripWith
  cases r with
  | nil =>
    have e : (a ++ [] ++ b).dropWhile p = [] := by
      have := drop_front (p := p) (a := a ++ b) (r := []) (fun c hc => by
        rcases List.mem_append.1 hc with h | h
        · exact ha c h
        · exact hb c h) (by simp)
      rwa [List.append_nil] at this ⊢
    rw [e]; rfl
  | cons c t =>
    have e : (a ++ (c :: t) ++ b).dropWhile p = (c :: t) ++ b := by
      rw [List.append_assoc]
      exact drop_front ha (by rw [List.cons_append, List.head?_cons]; exact h1)
    rw [e, List.reverse_append, drop_front (by simpa using hb) (by rw [List.head?_reverse]; exact h2), List.reverse_reverse]

theorem drop_parts (p : Nat → Bool) (s : PyStr) :
    ∃ a, s = a ++ s.dropWhile p ∧ (∀ c ∈ a, p c = true) ∧ ∀ c, (s.dropWhile p).head? = some c → p c = false := by
  induction s with
  | nil => exact ⟨[], rfl, by simp, by simp⟩
  | cons c t ih =>
    rw [List.dropWhile_cons]
    by_cases h : p c = true
    · rw [if_pos h]
      obtain ⟨a, h1, h2, h3⟩ := ih
      refine ⟨c :: a, by rw [List.cons_append, ← h1], fun x hx => ?_, h3⟩
      rcases List.mem_cons.1 hx with rfl | hx
      · exact h
      · exact h2 x hx
    · rw [if_neg h]
      refine ⟨[], rfl, by simp, fun x hx => ?_⟩
      cases hx
      simpa using h

theorem strip_parts (p : Nat → Bool) (s : PyStr) :
    ∃ a b, s = a ++ stripWith p s ++ b ∧ (∀ c ∈ a, p c = true) ∧ (∀ c ∈ b, p c = true) ∧
      (∀ c, (stripWith p s).head? = some c → p c = false) ∧ (∀ c, (stripWith p s).getLast? = some c → p c = false) := by
  unfold stripWith
  obtain ⟨a, h1, h2, h3⟩ := drop_parts p s
  obtain ⟨b, h4, h5, h6⟩ := drop_parts p (s.dropWhile p).reverse
  have e : s.dropWhile p = ((s.dropWhile p).reverse.dropWhile p).reverse ++ b.reverse := by
    rw [← List.reverse_append, ← h4, List.reverse_reverse]
  refine ⟨a, b.reverse, by rw [List.append_assoc, ← e]; exact h1, h2, by simpa using h5, fun c hc => ?_, fun c hc => ?_⟩
  · refine h3 c ?_
    rw [e, List.head?_append, hc]; rfl
  · rw [List.getLast?_reverse] at hc
    exact h6 c hc

theorem bare_iff {p : Nat → Bool} {s r : PyStr} : Bare (fun c => p c = true) s r ↔ r = stripWith p s := by
  constructor
  · rintro ⟨a, b, rfl, ha, hb, h1, h2⟩
    exact (strip_eq ha hb (fun c hc => by simpa using h1 c hc) (fun c hc => by simpa using h2 c hc)).symm
  · rintro rfl
    obtain ⟨a, b, h, h1, h2, h3, h4⟩ := strip_parts p s
    exact ⟨a, b, h, h1, h2, fun c hc => by simpa using h3 c hc, fun c hc => by simpa using h4 c hc⟩

/-! ### digits -/

theorem hex_low : ∀ c < 128, ∀ d < 16, hexVal c = some d ↔
    ((P "0123456789abcdef")[d]? = some c ∨ (P "0123456789ABCDEF")[d]? = some c) := by decide +kernel

theorem hexVal_lt {c d : Nat} (h : hexVal c = some d) : d < 16 ∧ c < 128 := by
  unfold hexVal at h
  repeat (split at h; · (first | (cases h; constructor <;> omega) | cases h))
  cases h

theorem low_hex : ∀ x ∈ P "0123456789abcdef" ++ P "0123456789ABCDEF", x < 128 := by decide +kernel

theorem hexDigit_iff {c d : Nat} : HexDigit c d ↔ hexVal c = some d := by
  constructor
  · intro h
    have hd : d < 16 := by
      rcases h with h | h
      · have := (List.getElem?_eq_some_iff.1 h).1; rwa [show (P "0123456789abcdef").length = 16 by decide +kernel] at this
      · have := (List.getElem?_eq_some_iff.1 h).1; rwa [show (P "0123456789ABCDEF").length = 16 by decide +kernel] at this
    have hc : c < 128 := by
      refine low_hex c (List.mem_append.2 ?_)
      rcases h with h | h
      · exact .inl (List.mem_of_getElem? h)
      · exact .inr (List.mem_of_getElem? h)
    exact (hex_low c hc d hd).2 h
  · intro h
    obtain ⟨hd, hc⟩ := hexVal_lt h
    exact (hex_low c hc d hd).1 h

theorem no_hex : hexVal 43 = none ∧ hexVal 45 = none ∧ hexVal 120 = none ∧ hexVal 88 = none := by decide +kernel
theorem hexVal_under : hexVal 95 = none := by decide +kernel

theorem digits_iff : ∀ (t : PyStr) (acc n : Nat),
    (hexDigits acc false t = some n ↔ ∃ l, HexDigits t l ∧ n = l.foldl (fun a d => a * 16 + d) acc) ∧
    (hexDigits acc true t = some n ↔ t = [] ∧ n = acc ∨ ∃ l, (HexDigits t l ∨ ∃ t', t = 95 :: t' ∧ HexDigits t' l) ∧
      n = l.foldl (fun a d => a * 16 + d) acc)
  | [], acc, n => by
    refine ⟨⟨fun h => by simp [hexDigits] at h, fun ⟨l, h, _⟩ => by cases h⟩, ⟨fun h => ?_, ?_⟩⟩
    · simp only [hexDigits, if_true, Option.some.injEq] at h
      exact .inl ⟨rfl, h.symm⟩
    · rintro (⟨-, rfl⟩ | ⟨l, h | ⟨t', h, -⟩, -⟩)
      · rfl
      · cases h
      · cases h
  | c :: t, acc, n => by
    by_cases hc : c = 95
    · subst hc
      have nd : ∀ l, ¬ HexDigits (95 :: t) l := by
        intro l h
        cases h with
        | one h => rw [hexDigit_iff, hexVal_under] at h; cases h
        | cons h => rw [hexDigit_iff, hexVal_under] at h; cases h
        | under h => rw [hexDigit_iff, hexVal_under] at h; cases h
      constructor
      · rw [hexDigits, if_pos rfl]
        exact ⟨fun h => by simp at h, fun ⟨l, h, _⟩ => absurd h (nd l)⟩
      · rw [hexDigits, if_pos rfl, if_pos rfl, (digits_iff t acc n).1]
        constructor
        · rintro ⟨l, h, rfl⟩
          exact .inr ⟨l, .inr ⟨t, rfl, h⟩, rfl⟩
        · rintro (⟨h, -⟩ | ⟨l, h | ⟨t', h, h'⟩, rfl⟩)
          · cases h
          · exact absurd h (nd l)
          · cases h; exact ⟨l, h', rfl⟩
    · have e : ∀ prev, hexDigits acc prev (c :: t) = match hexVal c with
          | some d => hexDigits (acc * 16 + d) true t
          | none => none := fun prev => by rw [hexDigits, if_neg hc]; rfl
      have key : (match hexVal c with
          | some d => hexDigits (acc * 16 + d) true t
          | none => none) = some n ↔ ∃ l, HexDigits (c :: t) l ∧ n = l.foldl (fun a d => a * 16 + d) acc := by
        cases hv : hexVal c with
        | none =>
          refine ⟨fun h => (nomatch h), fun ⟨l, h, _⟩ => ?_⟩
          cases h with
          | one h => rw [hexDigit_iff, hv] at h; cases h
          | cons h => rw [hexDigit_iff, hv] at h; cases h
          | under h => rw [hexDigit_iff, hv] at h; cases h
        | some d =>
          have hd := hexDigit_iff.2 hv
          simp only
          rw [(digits_iff t (acc * 16 + d) n).2]
          constructor
          · rintro (⟨rfl, rfl⟩ | ⟨l, h | ⟨t', rfl, h⟩, rfl⟩)
            · exact ⟨[d], .one hd, rfl⟩
            · exact ⟨d :: l, .cons hd h, rfl⟩
            · exact ⟨d :: l, .under hd h, rfl⟩
          · rintro ⟨l, h, rfl⟩
            have same : ∀ {d'}, HexDigit c d' → d' = d := fun h => by
              rw [hexDigit_iff, hv] at h
              exact (Option.some.inj h).symm
            cases h with
            | one h => rw [same h]; exact .inl ⟨rfl, rfl⟩
            | cons h h' => rw [same h]; exact .inr ⟨_, .inl h', rfl⟩
            | under h h' => rw [same h]; exact .inr ⟨_, .inr ⟨_, rfl, h'⟩, rfl⟩
      constructor
      · rw [e, key]
      · rw [e, key]
        constructor
        · rintro ⟨l, h, h'⟩; exact .inr ⟨l, .inl h, h'⟩
        · rintro (⟨h, -⟩ | ⟨l, h | ⟨t', h, -⟩, h'⟩)
          · cases h
          · exact ⟨l, h, h'⟩
          · cases h; exact absurd rfl hc

/-! ### numbers -/

theorem blank_iff (c : Nat) : Blank c ↔ isWs c = true := by
  unfold Blank isWs
  simp [Bool.and_eq_true, decide_eq_true_eq]

theorem hexDigits_head {ds : PyStr} {l : List Nat} (h : HexDigits ds l) : ∃ c t d, ds = c :: t ∧ hexVal c = some d := by
  cases h with
  | one h => exact ⟨_, _, _, rfl, hexDigit_iff.1 h⟩
  | cons h => exact ⟨_, _, _, rfl, hexDigit_iff.1 h⟩
  | under h => exact ⟨_, _, _, rfl, hexDigit_iff.1 h⟩

theorem hexDigits_last {ds : PyStr} {l : List Nat} (h : HexDigits ds l) : ∃ u c d, ds = u ++ [c] ∧ hexVal c = some d := by
  induction h with
  | one h => exact ⟨[], _, _, rfl, hexDigit_iff.1 h⟩
  | cons _ _ ih => obtain ⟨u, c, d, h1, h2⟩ := ih; exact ⟨_ :: u, c, d, by rw [h1]; rfl, h2⟩
  | under _ _ ih => obtain ⟨u, c, d, h1, h2⟩ := ih; exact ⟨_ :: _ :: u, c, d, by rw [h1]; rfl, h2⟩

theorem hexVal_not_ws {c d : Nat} (h : hexVal c = some d) : isWs c = false := by
  cases hw : isWs c with
  | false => rfl
  | true =>
    have : ∀ c < 128, isWs c = true → hexVal c = none := by decide +kernel
    rw [this c (hexVal_lt h).2 hw] at h
    cases h

theorem prefix_iff {u : PyStr} {n : Nat} : hexDigits 0 false (dropHexPrefix u) = some n ↔
    ∃ pre ds l, u = pre ++ ds ∧ (pre = [] ∨ pre = P "0x" ∨ pre = P "0X" ∨ pre = P "0x_" ∨ pre = P "0X_") ∧
      HexDigits ds l ∧ n = number l := by
  have e1 : P "0x" = [48, 120] := by decide +kernel
  have e2 : P "0X" = [48, 88] := by decide +kernel
  have e3 : P "0x_" = [48, 120, 95] := by decide +kernel
  have e4 : P "0X_" = [48, 88, 95] := by decide +kernel
  rw [e1, e2, e3, e4]
  constructor
  · intro h
    unfold dropHexPrefix at h
    split at h
    · obtain ⟨l, h1, h2⟩ := (digits_iff _ _ _).1.1 h; exact ⟨[48, 120, 95], _, l, rfl, by simp, h1, h2⟩
    · obtain ⟨l, h1, h2⟩ := (digits_iff _ _ _).1.1 h; exact ⟨[48, 88, 95], _, l, rfl, by simp, h1, h2⟩
    · obtain ⟨l, h1, h2⟩ := (digits_iff _ _ _).1.1 h; exact ⟨[48, 120], _, l, rfl, by simp, h1, h2⟩
    · obtain ⟨l, h1, h2⟩ := (digits_iff _ _ _).1.1 h; exact ⟨[48, 88], _, l, rfl, by simp, h1, h2⟩
    · obtain ⟨l, h1, h2⟩ := (digits_iff _ _ _).1.1 h; exact ⟨[], _, l, rfl, by simp, h1, h2⟩
  · rintro ⟨pre, ds, l, rfl, hpre, hds, rfl⟩
    have hd : hexDigits 0 false ds = some (number l) := (digits_iff _ _ _).1.2 ⟨l, hds, rfl⟩
    obtain ⟨c, t, d, rfl, hv⟩ := hexDigits_head hds
    have n95 : c ≠ 95 := fun h => by rw [h, hexVal_under] at hv; cases hv
    rcases hpre with rfl | rfl | rfl | rfl | rfl
    · have : dropHexPrefix (c :: t) = c :: t := by
        unfold dropHexPrefix
        split
        · rename_i h; cases h
          cases hds with
          | cons _ h => obtain ⟨_, _, _, h1, h2⟩ := hexDigits_head h; cases h1; cases (no_hex.2.2.1).symm.trans h2
        · rename_i h; cases h
          cases hds with
          | cons _ h => obtain ⟨_, _, _, h1, h2⟩ := hexDigits_head h; cases h1; cases (no_hex.2.2.2).symm.trans h2
        · rename_i h; cases h
          cases hds with
          | cons _ h => obtain ⟨_, _, _, h1, h2⟩ := hexDigits_head h; cases h1; cases (no_hex.2.2.1).symm.trans h2
        · rename_i h; cases h
          cases hds with
          | cons _ h => obtain ⟨_, _, _, h1, h2⟩ := hexDigits_head h; cases h1; cases (no_hex.2.2.2).symm.trans h2
        · rfl
      rw [List.nil_append, this, hd]
    · have : dropHexPrefix ([48, 120] ++ c :: t) = c :: t := by
        simp only [List.cons_append, List.nil_append]
        unfold dropHexPrefix
        split
        · rename_i h; cases h; exact absurd rfl n95
        · rename_i h; cases h
        · rename_i h; cases h; rfl
        · rename_i h; cases h
        · rename_i h1 h2 h3 h4; exact absurd rfl (h3 _)
      rw [this, hd]
    · have : dropHexPrefix ([48, 88] ++ c :: t) = c :: t := by
        simp only [List.cons_append, List.nil_append]
        unfold dropHexPrefix
        split
        · rename_i h; cases h
        · rename_i h; cases h; exact absurd rfl n95
        · rename_i h; cases h
        · rename_i h; cases h; rfl
        · rename_i h1 h2 h3 h4; exact absurd rfl (h4 _)
      rw [this, hd]
    · exact hd
    · exact hd

theorem number_iff {h : PyStr} {n : Nat} (hd : 45 ∉ h) (ha : asciiDigits h = h) : pyInt16 h = some n ↔ Number h n := by
  have hpre : ∀ {pre : PyStr}, (pre = [] ∨ pre = P "0x" ∨ pre = P "0X" ∨ pre = P "0x_" ∨ pre = P "0X_") →
      pre = [] ∨ pre.head? = some 48 := by
    rintro pre (rfl | rfl | rfl | rfl | rfl)
    · exact .inl rfl
    all_goals exact .inr (by decide +kernel)
  constructor
  · intro hp
    unfold pyInt16 at hp
    rw [ha] at hp
    obtain ⟨a, b, e, h1, h2, h3, h4⟩ := strip_parts isWs h
    have key : ∃ sign rest, stripWith isWs h = sign ++ rest ∧ (sign = [] ∨ sign = P "+") ∧
        dropSign (stripWith isWs h) = (false, rest) := by
      unfold dropSign
      split
      · rename_i t hh; exact ⟨P "+", t, by rw [hh]; rfl, .inr rfl, rfl⟩
      · rename_i t hh
        refine absurd ?_ hd
        rw [e, hh]
        simp
      · exact ⟨[], _, rfl, .inl rfl, rfl⟩
    obtain ⟨sign, rest, e1, hs, e2⟩ := key
    rw [e2] at hp
    simp only [Bool.false_eq_true, false_and, if_false] at hp
    cases hh : hexDigits 0 false (dropHexPrefix rest) with
    | none => rw [hh] at hp; cases hp
    | some m =>
      rw [hh] at hp
      cases hp
      obtain ⟨pre, ds, l, rfl, hpre, hds, hn⟩ := prefix_iff.1 hh
      refine ⟨a, sign, pre, ds, b, l, ?_, fun c hc => (blank_iff c).2 (h1 c hc), fun c hc => (blank_iff c).2 (h2 c hc), hs, hpre, hds, hn⟩
      rw [e1] at e
      rw [e]
      simp only [List.append_assoc]
  · rintro ⟨a, sign, pre, ds, b, l, e, h1, h2, hs, hpr, hds, hn⟩
    have e1 : stripWith isWs h = sign ++ pre ++ ds := by
      rw [e, show a ++ sign ++ pre ++ ds ++ b = a ++ (sign ++ pre ++ ds) ++ b by simp only [List.append_assoc]]
      refine strip_eq (fun c hc => (blank_iff c).1 (h1 c hc)) (fun c hc => (blank_iff c).1 (h2 c hc)) (fun c hc => ?_) (fun c hc => ?_)
      · rcases hs with rfl | rfl
        · rcases hpre hpr with rfl | hp
          · obtain ⟨x, t, d, rfl, hv⟩ := hexDigits_head hds
            cases hc
            exact hexVal_not_ws hv
          · rw [List.nil_append, List.head?_append, hp] at hc
            cases hc
            decide
        · rw [show P "+" = [43] by decide +kernel] at hc
          cases hc
          decide
      · obtain ⟨u, x, d, rfl, hv⟩ := hexDigits_last hds
        rw [← List.append_assoc, List.getLast?_append] at hc
        cases hc
        exact hexVal_not_ws hv
    have e2 : dropSign (sign ++ pre ++ ds) = (false, pre ++ ds) := by
      rcases hs with rfl | rfl
      · have : ∃ c t, pre ++ ds = c :: t ∧ c ≠ 43 ∧ c ≠ 45 := by
          rcases hpre hpr with rfl | hp
          · obtain ⟨x, t, d, rfl, hv⟩ := hexDigits_head hds
            refine ⟨x, t, rfl, fun h => ?_, fun h => ?_⟩
            · rw [h, no_hex.1] at hv; cases hv
            · rw [h, no_hex.2.1] at hv; cases hv
          · cases pre with
            | nil => cases hp
            | cons y pre => cases hp; exact ⟨48, pre ++ ds, rfl, by decide, by decide⟩
        obtain ⟨c, t, ht, n1, n2⟩ := this
        rw [List.nil_append, ht]
        unfold dropSign
        split
        · rename_i h; cases h; exact absurd rfl n1
        · rename_i h; cases h; exact absurd rfl n2
        · rfl
      · rfl
    unfold pyInt16
    rw [ha, e1, e2]
    have := prefix_iff.2 ⟨pre, ds, l, rfl, hpr, hds, hn⟩
    simp only [this, Bool.false_eq_true, false_and, if_false]

/-! ### the whole text -/

theorem zeros_apart : ∀ z ∈ zeroDigits, ∀ y ∈ zeroDigits, z ≠ y → z + 10 ≤ y ∨ y + 10 ≤ z := by decide +kernel

theorem seen_iff {c a : Nat} : Seen WideSpace zeroDigits c a ↔ toAsciiDigit c = a := by
  unfold toAsciiDigit
  constructor
  · intro h
    unfold WideSpace at h
    cases h with
    | ascii h => rw [if_pos h]
    | space h1 h2 => rw [if_neg (by omega), if_pos h2]
    | @digit z h1 h2 h3 h4 h5 =>
      rw [if_neg (by omega), if_neg h2]
      cases hf : zeroDigits.find? fun z => z ≤ c && c < z + 10 with
      | none =>
        have := List.find?_eq_none.1 hf z h3
        simp at this
        omega
      | some y =>
        have h6 := List.mem_of_find?_eq_some hf
        have h7 := List.find?_some hf
        simp only [Bool.and_eq_true, decide_eq_true_eq] at h7
        by_cases e : z = y
        · rw [e]
        · rcases zeros_apart z h3 y h6 e with h | h <;> omega
    | other h1 h2 h3 =>
      rw [if_neg (by omega), if_neg h2]
      cases hf : zeroDigits.find? fun z => z ≤ c && c < z + 10 with
      | none => rfl
      | some y =>
        have h6 := List.mem_of_find?_eq_some hf
        have h7 := List.find?_some hf
        simp only [Bool.and_eq_true, decide_eq_true_eq] at h7
        exact absurd h7 (h3 y h6)
  · rintro rfl
    by_cases h1 : c < 127
    · rw [if_pos h1]; exact .ascii h1
    · rw [if_neg h1]
      by_cases h2 : isWideWs c = true
      · rw [if_pos h2]; exact .space (by omega) h2
      · rw [if_neg h2]
        cases hf : zeroDigits.find? fun z => z ≤ c && c < z + 10 with
        | none =>
          refine .other (by omega) h2 fun z hz => ?_
          have := List.find?_eq_none.1 hf z hz
          simp only [Bool.and_eq_true, decide_eq_true_eq] at this
          exact this
        | some y =>
          have h6 := List.mem_of_find?_eq_some hf
          have h7 := List.find?_some hf
          simp only [Bool.and_eq_true, decide_eq_true_eq] at h7
          exact .digit (by omega) h2 h6 h7.1 h7.2

theorem seen_map {h h' : PyStr} : List.Forall₂ (Seen WideSpace zeroDigits) h h' ↔ h' = h.map toAsciiDigit := by
  constructor
  · intro h
    induction h with
    | nil => rfl
    | cons h1 _ ih => rw [List.map_cons, ← ih, seen_iff.1 h1]
  · rintro rfl
    induction h with
    | nil => exact .nil
    | cons c t ih => exact .cons (seen_iff.2 rfl) ih

theorem toAscii_low (c : Nat) : toAsciiDigit c < 128 ∧ (toAsciiDigit c = 45 → c = 45) := by
  have h := seen_iff (c := c) (a := toAsciiDigit c) |>.2 rfl
  generalize toAsciiDigit c = a at h
  cases h with
  | ascii h => exact ⟨by omega, id⟩
  | space => exact ⟨by omega, fun h => by omega⟩
  | digit => exact ⟨by omega, fun h => by omega⟩
  | other => exact ⟨by omega, fun h => by omega⟩

theorem ascii_self {h : PyStr} (ha : ∀ c ∈ h, c < 128) : asciiDigits h = h := by
  unfold asciiDigits
  rw [if_pos (by simpa using ha)]

theorem pyInt16_ascii (h : PyStr) : pyInt16 h = pyInt16 (asciiDigits h) := by
  have : asciiDigits (asciiDigits h) = asciiDigits h := by
    by_cases ha : ∀ c ∈ h, c < 128
    · rw [ascii_self ha, ascii_self ha]
    · have e : asciiDigits h = h.map toAsciiDigit := by
        unfold asciiDigits
        rw [if_neg (by simpa using ha)]
      rw [e]
      refine ascii_self fun c hc => ?_
      obtain ⟨x, -, rfl⟩ := List.mem_map.1 hc
      exact (toAscii_low x).1
  unfold pyInt16
  rw [this]

theorem is_iff {s : PyStr} {n : Nat} : stdUuidParse s = .ok n ↔ Is WideSpace zeroDigits s n := by
  have hb : ∀ {s r : PyStr}, Bare (fun c => c = 123 ∨ c = 125) s r ↔ r = stripWith (fun c => c = 123 || c = 125) s := by
    intro s r
    rw [← bare_iff]
    have : (fun c : Nat => c = 123 ∨ c = 125) = fun c => (decide (c = 123) || decide (c = 125)) = true := by
      funext c; simp
    rw [this]
  have shape : ∀ h : PyStr, 45 ∉ h → ∀ h', ((∀ c ∈ h, c < 128) ∧ h' = h ∨ (∃ c ∈ h, 128 ≤ c) ∧ List.Forall₂ (Seen WideSpace zeroDigits) h h') ↔
      h' = asciiDigits h := by
    intro h _ h'
    by_cases ha : ∀ c ∈ h, c < 128
    · rw [ascii_self ha]
      constructor
      · rintro (⟨-, h1⟩ | ⟨⟨c, hc, h1⟩, -⟩)
        · exact h1
        · have := ha c hc; omega
      · exact fun h1 => .inl ⟨ha, h1⟩
    · have e : asciiDigits h = h.map toAsciiDigit := by
        unfold asciiDigits
        rw [if_neg (by simpa using ha)]
      have hx : ∃ c ∈ h, 128 ≤ c := by
        by_contra hn
        exact ha fun c hc => by
          by_contra h1
          exact hn ⟨c, hc, by omega⟩
      rw [e, seen_map]
      constructor
      · rintro (⟨h1, -⟩ | ⟨-, h1⟩)
        · exact absurd h1 ha
        · exact h1
      · exact fun h1 => .inr ⟨hx, h1⟩
  have num : ∀ h : PyStr, 45 ∉ h → (pyInt16 h = some n ↔ Number (asciiDigits h) n) := by
    intro h hd
    have hd' : 45 ∉ asciiDigits h := by
      unfold asciiDigits
      split
      · exact hd
      · intro hc
        obtain ⟨x, hx, h1⟩ := List.mem_map.1 hc
        rw [(toAscii_low x).2 h1] at hx
        exact hd hx
    have hs : asciiDigits (asciiDigits h) = asciiDigits h := by
      refine ascii_self fun c hc => ?_
      unfold asciiDigits at hc
      split at hc
      · rename_i ha; exact (by simpa using ha : ∀ c ∈ h, c < 128) c hc
      · obtain ⟨x, -, rfl⟩ := List.mem_map.1 hc
        exact (toAscii_low x).1
    rw [pyInt16_ascii]
    exact number_iff hd' hs
  have no45 : ∀ r : PyStr, 45 ∉ r.filter (· ≠ 45) := by intro r h; simp at h
  unfold Is stdUuidParse
  simp only [urn_iff, uuid_iff, hb]
  constructor
  · intro h
    generalize hh : (stripWith (fun c => decide (c = 123) || decide (c = 125)) (removeAll (P "uuid:") (removeAll (P "urn:") s))).filter (· ≠ 45) = r at h
    by_cases hl : r.length = 32
    · rw [if_neg (by omega)] at h
      cases hp : pyInt16 r with
      | none => rw [hp] at h; cases h
      | some m =>
        rw [hp] at h
        cases h
        have h45 : 45 ∉ r := hh ▸ no45 _
        exact ⟨_, _, _, r, asciiDigits r, rfl, rfl, rfl, hh.symm, hl, (shape r h45 _).2 rfl, (num r h45).1 hp⟩
    · rw [if_pos hl] at h; cases h
  · rintro ⟨_, _, _, r, r', rfl, rfl, rfl, hr, hl, hs, hn⟩
    have h45 : 45 ∉ r := hr ▸ no45 _
    rw [(shape r h45 _).1 hs] at hn
    rw [← hr, if_neg (by omega), (num r h45).2 hn]

theorem says_iff {s : PyStr} {n : Nat} : stdUuidParse s = .ok n ↔ Says s n := is_iff

end Pal.Spec.GuidText
