import Verif.Spec.InJson
import Verif.Lemmas.JsonRead
import Verif.Lemmas.Shown
/-
The model's round trip through JSON gives exactly what the value is in JSON.
-/

namespace Pal
open Spec

theorem sameText_iff {s s' : PyStr} (h : Normal s) : SameText s s' ↔ s' = s := by
  constructor
  · rintro ⟨h1, h2⟩
    rw [← joinUnits_utf16Units s' h1, ← joinUnits_utf16Units s h, ← units_eq, ← units_eq, h2]
  · rintro rfl
    exact ⟨h, rfl⟩

theorem dupdate_dictOf : ∀ (l l0 : List (PyStr × Val)), dupdate (dictOf l0) l = dictOf (l0 ++ l)
  | [], l0 => by rw [List.append_nil]; rfl
  | (k, v) :: t, l0 => by rw [dupdate, dictOf_snoc, dupdate_dictOf t, List.append_assoc]; rfl

theorem dictOf_dupdate (l : List (PyStr × Val)) : dupdate [] l = dictOf l := dupdate_dictOf l []

theorem jsonFloat_iff {an : Bool} {b : BitVec 64} {w : Val} : jsonFloat an b = .ok w ↔ Jsonized an (.float b) w := by
  unfold jsonFloat
  by_cases h1 : NaN64 b
  · rw [if_pos ((isNaN64_iff b).2 h1)]
    have hi : ¬ Inf64 b := fun h => h1.2 h.2
    cases an with
    | true =>
      constructor
      · intro h; cases h; exact .nan rfl h1
      · intro h
        cases h with
        | finite h2 => exact absurd h1 h2
        | infinity _ h2 => exact absurd h2 hi
        | nan => rfl
    | false =>
      constructor
      · intro h; cases h
      · intro h
        cases h with
        | finite h2 => exact absurd h1 h2
        | infinity h2 => cases h2
        | nan h2 => cases h2
  · rw [if_neg (fun h => h1 ((isNaN64_iff b).1 h))]
    by_cases h2 : Inf64 b
    · rw [if_pos ((isInf64_iff b).2 h2)]
      cases an with
      | true =>
        constructor
        · intro h; cases h; exact .infinity rfl h2
        · intro h
          cases h with
          | finite _ h3 => exact absurd h2 h3
          | infinity => rfl
          | nan _ h3 => exact absurd h3 h1
      | false =>
        constructor
        · intro h; cases h
        · intro h
          cases h with
          | finite _ h3 => exact absurd h2 h3
          | infinity h3 => cases h3
          | nan h3 => cases h3
    · rw [if_neg (fun h => h2 ((isInf64_iff b).1 h))]
      constructor
      · intro h; cases h; exact .finite h1 h2
      · intro h
        cases h with
        | finite => rfl
        | infinity _ h3 => exact absurd h3 h2
        | nan _ h3 => exact absurd h3 h1

mutual
theorem jsonRT_iff {an : Bool} : ∀ (v w : Val), JPre v → (jsonRT an v = .ok w ↔ Jsonized an v w)
  | .none, w, _ => by rw [jsonRT]; exact ⟨fun h => by cases h; exact .none, fun h => by cases h; rfl⟩
  | .bool b, w, _ => by rw [jsonRT]; exact ⟨fun h => by cases h; exact .bool b, fun h => by cases h; rfl⟩
  | .int i, w, _ => by rw [jsonRT]; exact ⟨fun h => by cases h; exact .int i, fun h => by cases h; rfl⟩
  | .float b, w, _ => by rw [jsonRT]; exact jsonFloat_iff
  | .str s, w, hp => by
    rw [JPre] at hp
    rw [jsonRT, jsonStr_normal s hp]
    constructor
    · intro h; cases h; exact .str ((sameText_iff hp).2 rfl)
    · intro h
      cases h with
      | str h => rw [(sameText_iff hp).1 h]
  | .bytes b, w, hp => by rw [JPre] at hp; exact hp.elim
  | .uuid raw, w, hp => by
    rw [JPre] at hp
    rw [jsonRT]
    by_cases hl : raw.length = 16
    · rw [uuidStr_eq raw hl]
      simp only
      rw [jsonStr_normal _ (uuidText_normal raw hl)]
      constructor
      · intro h; cases h; exact .uuid hl
      · intro h; cases h; rfl
    · rw [uuidStr_short raw (by omega)]
      constructor
      · intro h; cases h
      · intro h
        cases h with
        | uuid h => exact absurd h hl
  | .list l, w, hp => by
    rw [JPre] at hp
    rw [jsonRT]
    constructor
    · intro h
      cases hj : jsonRTL an l with
      | error e => rw [hj] at h; cases h
      | ok l' => rw [hj] at h; cases h; exact .list ((jsonRTL_iff l l' hp).1 hj)
    · intro h
      cases h with
      | list h => rw [(jsonRTL_iff l _ hp).2 h]
  | .tuple l, w, hp => by
    rw [JPre] at hp
    rw [jsonRT]
    constructor
    · intro h
      cases hj : jsonRTL an l with
      | error e => rw [hj] at h; cases h
      | ok l' => rw [hj] at h; cases h; exact .tuple ((jsonRTL_iff l l' hp).1 hj)
    · intro h
      cases h with
      | tuple h => rw [(jsonRTL_iff l _ hp).2 h]
  | .dict d, w, hp => by
    rw [JPre] at hp
    rw [jsonRT]
    constructor
    · intro h
      cases hj : jsonRTD an d with
      | error e => rw [hj] at h; cases h
      | ok d' => rw [hj] at h; cases h; rw [dictOf_dupdate]; exact .dict ((jsonRTD_iff d d' hp.2).1 hj)
    · intro h
      cases h with
      | dict h => rw [(jsonRTD_iff d _ hp.2).2 h]; simp only; rw [dictOf_dupdate]
theorem jsonRTL_iff {an : Bool} : ∀ (l l' : List Val), JPreL l → (jsonRTL an l = .ok l' ↔ JsonizedL an l l')
  | [], l', _ => by rw [jsonRTL]; exact ⟨fun h => by cases h; exact .nil, fun h => by cases h; rfl⟩
  | v :: t, l', hp => by
    rw [JPreL] at hp
    rw [jsonRTL]
    constructor
    · intro h
      cases h1 : jsonRT an v with
      | error e => rw [h1] at h; cases h
      | ok v' =>
        rw [h1] at h
        simp only at h
        cases h2 : jsonRTL an t with
        | error e => rw [h2] at h; cases h
        | ok t' => rw [h2] at h; cases h; exact .cons ((jsonRT_iff v v' hp.1).1 h1) ((jsonRTL_iff t t' hp.2).1 h2)
    · intro h
      cases h with
      | cons h1 h2 => rw [(jsonRT_iff v _ hp.1).2 h1, (jsonRTL_iff t _ hp.2).2 h2]
theorem jsonRTD_iff {an : Bool} : ∀ (d d' : List (PyStr × Val)), JPreD d → (jsonRTD an d = .ok d' ↔ JsonizedD an d d')
  | [], d', _ => by rw [jsonRTD]; exact ⟨fun h => by cases h; exact .nil, fun h => by cases h; rfl⟩
  | (k, v) :: t, d', hp => by
    rw [JPreD] at hp
    rw [jsonRTD, jsonStr_normal k hp.1]
    constructor
    · intro h
      cases h1 : jsonRT an v with
      | error e => rw [h1] at h; cases h
      | ok v' =>
        rw [h1] at h
        simp only at h
        cases h2 : jsonRTD an t with
        | error e => rw [h2] at h; cases h
        | ok t' =>
          rw [h2] at h; cases h
          exact .cons ((sameText_iff hp.1).2 rfl) ((jsonRT_iff v v' hp.2.2.1).1 h1) ((jsonRTD_iff t t' hp.2.2.2).1 h2)
    · intro h
      cases h with
      | cons h0 h1 h2 => rw [(jsonRT_iff v _ hp.2.2.1).2 h1, (jsonRTD_iff t _ hp.2.2.2).2 h2, (sameText_iff hp.1).1 h0]
end

end Pal
