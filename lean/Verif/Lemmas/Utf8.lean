import Verif.Model.JsonText
import Verif.Spec.JsonText
/-
UTF-8 decoding accepts exactly the UTF-8 forms of texts.
-/

namespace Pal
open Spec

theorem isCont_iff (b : UInt8) : isCont b = true ↔ 0x80 ≤ b.toNat ∧ b.toNat < 0xC0 := by simp [isCont]

theorem utf8_step {c : Nat} (hc : IsScalar c) {b : Bytes} {s : List Nat} (h : b.map UInt8.toNat = utf8Of c ++ s) :
    ∃ b', b'.map UInt8.toNat = s ∧ utf8Decode b = (utf8Decode b').map (c :: ·) := by
  obtain ⟨h1, h2⟩ := hc
  unfold utf8Of at h
  by_cases k1 : c < 0x80
  · rw [if_pos k1] at h
    rcases b with _ | ⟨x, b⟩
    · cases h
    · simp only [List.map_cons, List.cons_append, List.nil_append, List.cons.injEq] at h
      refine ⟨b, h.2, ?_⟩
      rw [utf8Decode.eq_def]
      simp only
      rw [if_pos (by omega), h.1]
  rw [if_neg k1] at h
  by_cases k2 : c < 0x800
  · rw [if_pos k2] at h
    rcases b with _ | ⟨x, _ | ⟨y, b⟩⟩
    · cases h
    · simp at h
    · simp only [List.map_cons, List.cons_append, List.nil_append, List.cons.injEq] at h
      obtain ⟨hx, hy, hs⟩ := h
      refine ⟨b, hs, ?_⟩
      rw [utf8Decode.eq_def]
      simp only
      rw [if_neg (by omega), if_neg (by simp only [isCont_iff]; omega), if_pos (by omega)]
      rw [show (x.toNat - 0xC0) * 64 + (y.toNat - 0x80) = c by omega]
  rw [if_neg k2] at h
  by_cases k3 : c < 0x10000
  · rw [if_pos k3] at h
    rcases b with _ | ⟨x, _ | ⟨y, _ | ⟨z, b⟩⟩⟩
    · cases h
    · simp at h
    · simp at h
    · simp only [List.map_cons, List.cons_append, List.nil_append, List.cons.injEq] at h
      obtain ⟨hx, hy, hz, hs⟩ := h
      refine ⟨b, hs, ?_⟩
      rw [utf8Decode.eq_def]
      simp only
      rw [if_neg (by omega), if_neg (by simp only [isCont_iff]; omega), if_neg (by omega),
        if_neg (by simp only [isCont_iff]; omega), if_pos (by omega)]
      rw [show (x.toNat - 0xE0) * 4096 + (y.toNat - 0x80) * 64 + (z.toNat - 0x80) = c by omega, if_neg (by omega)]
  rw [if_neg k3] at h
  rcases b with _ | ⟨x, _ | ⟨y, _ | ⟨z, _ | ⟨d, b⟩⟩⟩⟩
  · cases h
  · simp at h
  · simp at h
  · simp at h
  · simp only [List.map_cons, List.cons_append, List.nil_append, List.cons.injEq] at h
    obtain ⟨hx, hy, hz, hd, hs⟩ := h
    refine ⟨b, hs, ?_⟩
    rw [utf8Decode.eq_def]
    simp only
    rw [if_neg (by omega), if_neg (by simp only [isCont_iff]; omega), if_neg (by omega),
      if_neg (by simp only [isCont_iff]; omega), if_neg (by omega),
      if_neg (by simp only [isCont_iff]; omega), if_pos (by omega)]
    rw [show (x.toNat - 0xF0) * 262144 + (y.toNat - 0x80) * 4096 + (z.toNat - 0x80) * 64 + (d.toNat - 0x80) = c by omega,
      if_neg (by omega)]

theorem utf8_complete : ∀ (t : PyStr) (b : Bytes), Utf8 b t → utf8Decode b = some t
  | [], b, h => by
    have : b = [] := by simpa using h.2
    subst this
    rfl
  | c :: t, b, h => by
    obtain ⟨h1, h2⟩ := h
    rw [List.flatMap_cons] at h2
    obtain ⟨b', h3, h4⟩ := utf8_step (h1 c (by simp)) h2
    rw [h4, utf8_complete t b' ⟨fun x hx => h1 x (by simp [hx]), h3⟩]
    rfl

theorem utf8_cons {c : Nat} {p : Bytes} {b : Bytes} {t : PyStr} (hc : IsScalar c) (hp : p.map UInt8.toNat = utf8Of c) (h : Utf8 b t) :
    Utf8 (p ++ b) (c :: t) := by
  refine ⟨?_, ?_⟩
  · intro x hx
    rcases List.mem_cons.1 hx with rfl | hx
    · exact hc
    · exact h.1 x hx
  · rw [List.map_append, hp, h.2, List.flatMap_cons]

theorem utf8_sound : ∀ (n : Nat) (b : Bytes) (t : PyStr), b.length ≤ n → utf8Decode b = some t → Utf8 b t
  | _, [], t, _, h => by
    rw [utf8Decode] at h
    injection h with h
    subst h
    exact ⟨by simp, rfl⟩
  | 0, _ :: _, _, hl, _ => by simp at hl
  | n + 1, x :: b, t, hl, h => by
    have step : ∀ (p s : Bytes) (c : Nat), IsScalar c → p.map UInt8.toNat = utf8Of c → s.length ≤ n → x :: b = p ++ s →
        (utf8Decode s).map (c :: ·) = some t → Utf8 (x :: b) t := by
      intro p s c hc hp hs he hm
      cases hq : utf8Decode s with
      | none => rw [hq] at hm; cases hm
      | some t' =>
        rw [hq] at hm
        injection hm with hm
        subst hm
        rw [he]
        exact utf8_cons hc hp (utf8_sound n s t' hs hq)
    simp only [List.length_cons] at hl
    have hx := x.toNat_lt
    rw [utf8Decode.eq_def] at h
    simp only at h
    by_cases k1 : x.toNat < 0x80
    · rw [if_pos k1] at h
      exact step [x] b x.toNat (by unfold IsScalar; omega) (by unfold utf8Of; rw [if_pos k1]; rfl) (by omega) rfl h
    rw [if_neg k1] at h
    rcases b with _ | ⟨y, b⟩
    · cases h
    simp only [List.length_cons] at hl h
    by_cases c1 : isCont y = true
    swap
    · rw [if_pos c1] at h; cases h
    rw [if_neg (by simp [c1])] at h
    rw [isCont_iff] at c1
    by_cases k2 : 0xC2 ≤ x.toNat ∧ x.toNat < 0xE0
    · rw [if_pos k2] at h
      refine step [x, y] b _ ?_ ?_ (by omega) rfl h
      · unfold IsScalar; omega
      · unfold utf8Of
        rw [if_neg (by omega), if_pos (by omega)]
        simp only [List.map_cons, List.map_nil, List.cons.injEq, and_true]
        omega
    rw [if_neg k2] at h
    rcases b with _ | ⟨z, b⟩
    · cases h
    simp only [List.length_cons] at hl h
    by_cases c2 : isCont z = true
    swap
    · rw [if_pos c2] at h; cases h
    rw [if_neg (by simp [c2])] at h
    rw [isCont_iff] at c2
    by_cases k3 : 0xE0 ≤ x.toNat ∧ x.toNat < 0xF0
    · rw [if_pos k3] at h
      split at h
      · cases h
      · rename_i hu
        refine step [x, y, z] b _ ?_ ?_ (by omega) rfl h
        · unfold IsScalar; omega
        · unfold utf8Of
          rw [if_neg (by omega), if_neg (by omega), if_pos (by omega)]
          simp only [List.map_cons, List.map_nil, List.cons.injEq, and_true]
          omega
    rw [if_neg k3] at h
    rcases b with _ | ⟨d, b⟩
    · cases h
    simp only [List.length_cons] at hl h
    by_cases c3 : isCont d = true
    swap
    · rw [if_pos c3] at h; cases h
    rw [if_neg (by simp [c3])] at h
    rw [isCont_iff] at c3
    by_cases k4 : 0xF0 ≤ x.toNat ∧ x.toNat < 0xF8
    · rw [if_pos k4] at h
      split at h
      · cases h
      · rename_i hu
        refine step [x, y, z, d] b _ ?_ ?_ (by omega) rfl h
        · unfold IsScalar; omega
        · unfold utf8Of
          rw [if_neg (by omega), if_neg (by omega), if_neg (by omega)]
          simp only [List.map_cons, List.map_nil, List.cons.injEq, and_true]
          omega
    · rw [if_neg k4] at h; cases h

theorem utf8_iff (b : Bytes) (t : PyStr) : utf8Decode b = some t ↔ Utf8 b t :=
  ⟨utf8_sound _ b t (Nat.le_refl _), utf8_complete t b⟩

/-- ASCII text is its own UTF-8 form. -/
theorem utf8_ascii {t : PyStr} (h : Ascii t) : Utf8 (t.map UInt8.ofNat) t := by
  refine ⟨fun c hc => ?_, ?_⟩
  · have := h c hc
    unfold IsScalar; omega
  · induction t with
    | nil => rfl
    | cons c t ih =>
      have hc := h c (by simp)
      rw [List.flatMap_cons, List.map_cons, List.map_cons, ih fun x hx => h x (by simp [hx]), utf8Of, if_pos hc]
      rw [UInt8.toNat_ofNat', Nat.mod_eq_of_lt (by omega)]
      rfl

end Pal
