import Verif.Lemmas.Grow
import Verif.Lemmas.Cut
import Verif.Lemmas.TreeWrite
import Verif.Props.Unknown
import Verif.Props.Prim
/-
Every successful read without custom properties yields the value of a well-formed tree
whose canonical bytes are not longer than the bytes read, or a value with a non-empty
array of GUIDs, which cannot be written.
-/

namespace Pal
open Spec

/-- In memory, infinities kept. -/
def rawMode : Mode := ⟨false, true⟩

/-! ### fields -/

theorem len_of_grow {α : Type} {r : R α} (hg : Grow r) {s s' : Bytes} {v : α} (h : r s = .ok (v, s')) :
    s'.length ≤ s.length := by
  obtain ⟨⟨c, rfl⟩, -⟩ := hg s v s' h
  rw [List.length_append]; omega

theorem inv_unsigned {k : Nat} {s s' : Bytes} {n : Nat} (h : rUnsigned k s = .ok (n, s')) :
    n < 256 ^ k ∧ s.length = s'.length + k := by
  unfold rUnsigned at h
  split at h
  · rename_i hk
    cases h
    refine ⟨?_, by rw [List.length_drop]; omega⟩
    have := leNat_lt (s.take k)
    rwa [List.length_take, Nat.min_eq_left hk] at this
  · cases h

theorem inv_u16 {s s' : Bytes} {n : Nat} (h : rU16 s = .ok (n, s')) :
    ∃ b : BitVec 16, n = b.toNat ∧ s.length = s'.length + 2 := by
  obtain ⟨h1, h2⟩ := inv_unsigned h
  exact ⟨BitVec.ofNat 16 n, by rw [BitVec.toNat_ofNat, Nat.mod_eq_of_lt (by omega)], h2⟩

theorem inv_u32 {s s' : Bytes} {n : Nat} (h : rU32 s = .ok (n, s')) :
    ∃ b : BitVec 32, n = b.toNat ∧ s.length = s'.length + 4 := by
  obtain ⟨h1, h2⟩ := inv_unsigned h
  exact ⟨BitVec.ofNat 32 n, by rw [BitVec.toNat_ofNat, Nat.mod_eq_of_lt (by omega)], h2⟩

theorem inv_u64 {s s' : Bytes} {n : Nat} (h : rU64 s = .ok (n, s')) :
    ∃ b : BitVec 64, n = b.toNat ∧ s.length = s'.length + 8 := by
  obtain ⟨h1, h2⟩ := inv_unsigned h
  exact ⟨BitVec.ofNat 64 n, by rw [BitVec.toNat_ofNat, Nat.mod_eq_of_lt (by omega)], h2⟩

theorem inv_signed {k : Nat} {s s' : Bytes} {i : Int} (h : rSigned k s = .ok (i, s')) :
    ∃ n : Nat, n < 256 ^ k ∧ (i = if 2 * n < 256 ^ k then (n : Int) else (n : Int) - 256 ^ k) ∧ s.length = s'.length + k := by
  unfold rSigned at h
  split at h
  · rename_i hk
    cases h
    refine ⟨leNat (s.take k), ?_, rfl, by rw [List.length_drop]; omega⟩
    have := leNat_lt (s.take k)
    rwa [List.length_take, Nat.min_eq_left hk] at this
  · cases h

theorem inv_i32 {s s' : Bytes} {i : Int} (h : rI32 s = .ok (i, s')) :
    ∃ b : BitVec 32, i = b.toInt ∧ s.length = s'.length + 4 := by
  obtain ⟨n, h1, h2, h3⟩ := inv_signed h
  refine ⟨BitVec.ofNat 32 n, ?_, h3⟩
  rw [h2, BitVec.toInt, BitVec.toNat_ofNat, Nat.mod_eq_of_lt (by omega)]
  rfl

theorem inv_i64 {s s' : Bytes} {i : Int} (h : rI64 s = .ok (i, s')) :
    ∃ b : BitVec 64, i = b.toInt ∧ s.length = s'.length + 8 := by
  obtain ⟨n, h1, h2, h3⟩ := inv_signed h
  refine ⟨BitVec.ofNat 64 n, ?_, h3⟩
  rw [h2, BitVec.toInt, BitVec.toNat_ofNat, Nat.mod_eq_of_lt (by omega)]
  rfl

theorem inv_i32v {s s' : Bytes} {v : Val} (h : rI32Val s = .ok (v, s')) :
    ∃ b : BitVec 32, v = vI b ∧ s.length = s'.length + 4 := by
  obtain ⟨i, s1, h1, h2⟩ := r_bind_inv h
  obtain ⟨rfl, rfl⟩ := r_pure_inv h2
  obtain ⟨b, rfl, h3⟩ := inv_i32 h1
  exact ⟨b, rfl, h3⟩

theorem inv_i64v {s s' : Bytes} {v : Val} (h : rI64Val s = .ok (v, s')) :
    ∃ b : BitVec 64, v = vI b ∧ s.length = s'.length + 8 := by
  obtain ⟨i, s1, h1, h2⟩ := r_bind_inv h
  obtain ⟨rfl, rfl⟩ := r_pure_inv h2
  obtain ⟨b, rfl, h3⟩ := inv_i64 h1
  exact ⟨b, rfl, h3⟩

theorem inv_bool {s s' : Bytes} {b : Bool} (h : rBool s = .ok (b, s')) : s.length = s'.length + 1 := by
  obtain ⟨n, s1, h1, h2⟩ := r_bind_inv h
  obtain ⟨rfl, rfl⟩ := r_pure_inv h2
  exact (inv_unsigned h1).2

/-- Widening a signalling NaN gives what widening its quiet form gives. -/
theorem quiet32 (b : BitVec 32) : ∃ b' : BitVec 32, ¬ SNaN32 b' ∧ f32to64 b' = f32to64 b := by
  by_cases h : SNaN32 b
  · obtain ⟨hs, -, hm, -⟩ := fields32 b
    have h255 : exp32 b = 255 := h.1.1
    have h0 : man32 b ≠ 0 := h.1.2
    have hlt : man32 b < 2 ^ 22 := h.2
    have he := mk32_toNat (sgn32 b) 255 (man32 b + 2 ^ 22) hs (by omega) (by omega)
    have e1 : sgn32 (mk32 (sgn32 b) 255 (man32 b + 2 ^ 22)) = sgn32 b := by
      rw [show sgn32 (mk32 (sgn32 b) 255 (man32 b + 2 ^ 22)) = (mk32 (sgn32 b) 255 (man32 b + 2 ^ 22)).toNat / 2 ^ 31 from rfl,
        he]; omega
    have e2 : exp32 (mk32 (sgn32 b) 255 (man32 b + 2 ^ 22)) = 255 := by
      rw [show exp32 (mk32 (sgn32 b) 255 (man32 b + 2 ^ 22)) =
        (mk32 (sgn32 b) 255 (man32 b + 2 ^ 22)).toNat / 2 ^ 23 % 2 ^ 8 from rfl, he]; omega
    have e3 : man32 (mk32 (sgn32 b) 255 (man32 b + 2 ^ 22)) = man32 b + 2 ^ 22 := by
      rw [show man32 (mk32 (sgn32 b) 255 (man32 b + 2 ^ 22)) =
        (mk32 (sgn32 b) 255 (man32 b + 2 ^ 22)).toNat % 2 ^ 23 from rfl, he]; omega
    refine ⟨mk32 (sgn32 b) 255 (man32 b + 2 ^ 22), fun hn => ?_, ?_⟩
    · have := hn.2
      change man32 _ < _ at this
      rw [e3] at this
      omega
    · unfold f32to64
      simp only [e1, e2, e3, h255, if_true]
      rw [if_neg h0, if_neg (by omega)]
      unfold quiet23
      rw [if_pos hlt, if_neg (by omega)]
  · exact ⟨b, h, rfl⟩

theorem inv_float {s s' : Bytes} {v : Val} (h : rFloat true s = .ok (v, s')) :
    ∃ f : F32 rawMode, v = vF32 f ∧ s.length = s'.length + 4 := by
  obtain ⟨n, s1, h1, h2⟩ := r_bind_inv h
  obtain ⟨rfl, rfl⟩ := r_pure_inv h2
  obtain ⟨b, hb, he⟩ := quiet32 (BitVec.ofNat 32 n)
  refine ⟨⟨b, hb, fun h => absurd h (by decide), fun h => absurd h (by decide)⟩, ?_, (inv_unsigned h1).2⟩
  simp only [vF32, he]
  rfl

theorem inv_double {s s' : Bytes} {v : Val} (h : rDouble true s = .ok (v, s')) :
    ∃ f : F64 rawMode, v = vF64 f ∧ s.length = s'.length + 8 := by
  obtain ⟨n, s1, h1, h2⟩ := r_bind_inv h
  obtain ⟨rfl, rfl⟩ := r_pure_inv h2
  exact ⟨⟨BitVec.ofNat 64 n, fun h => absurd h (by decide), fun h => absurd h (by decide)⟩, rfl, (inv_unsigned h1).2⟩

theorem inv_read {k : Nat} {s s' b : Bytes} (h : rRead k s = .ok (b, s')) (h0 : 0 < s'.length) :
    b.length = k ∧ s.length = s'.length + k := by
  cases h
  rw [List.length_drop] at h0 ⊢
  rw [List.length_take]
  omega

theorem inv_guid {s s' : Bytes} {v : Val} (h : rGuid s = .ok (v, s')) (h0 : 0 < s'.length) :
    ∃ g : Guid, v = vGuid g ∧ s.length = s'.length + 16 := by
  obtain ⟨b, s1, h1, h2⟩ := r_bind_inv h
  obtain ⟨rfl, rfl⟩ := r_pure_inv h2
  obtain ⟨h3, h4⟩ := inv_read h1 h0
  exact ⟨⟨b, h3⟩, rfl, h4⟩

theorem inv_optGuid {s s' : Bytes} {v : Val} (h : rOptGuid s = .ok (v, s')) (h0 : 0 < s'.length) :
    ∃ g : Option Guid, v = vOptGuid g ∧ s.length = s'.length + (eOptGuid g).length := by
  obtain ⟨b, s1, h1, h2⟩ := r_bind_inv h
  cases b with
  | nil => exact (rFail_inv h2).elim
  | cons x t =>
    simp only at h2
    by_cases hx : x = 0
    · rw [if_pos hx] at h2
      obtain ⟨rfl, rfl⟩ := r_pure_inv h2
      exact ⟨none, rfl, (inv_read h1 h0).2⟩
    · rw [if_neg hx] at h2
      have hl := len_of_grow grow_guid h2
      obtain ⟨g, rfl, h3⟩ := inv_guid h2 h0
      have h4 := (inv_read h1 (by omega)).2
      exact ⟨some g, rfl, by simp only [eOptGuid, List.length_append, List.length_cons, List.length_nil, g.property]; omega⟩

theorem units_join : ∀ (us : List Nat), (∀ u ∈ us, u < 65536) → units (joinUnits us) = us
  | [], _ => rfl
  | [u], h => by
    have := h u (by simp)
    simp only [joinUnits, units, List.flatMap_cons, List.flatMap_nil, List.append_nil, unitsOf]
    rw [if_pos (by omega)]
  | u :: v :: t, h => by
    have hu := h u (by simp)
    have hv := h v (by simp)
    rw [joinUnits]
    split
    · rename_i hp
      simp only [isHi, isLo, Bool.and_eq_true, decide_eq_true_eq] at hp
      have ih := units_join t (fun x hx => h x (by simp [hx]))
      simp only [units, List.flatMap_cons] at ih ⊢
      rw [ih, unitsOf, if_neg (by omega)]
      rw [show 0xD800 + (0x10000 + (u - 0xD800) * 0x400 + (v - 0xDC00) - 0x10000) / 0x400 = u by omega,
        show 0xDC00 + (0x10000 + (u - 0xD800) * 0x400 + (v - 0xDC00) - 0x10000) % 0x400 = v by omega]
      rfl
    · have ih := units_join (v :: t) (fun x hx => h x (by simp [List.mem_cons.1 hx]))
      simp only [units, List.flatMap_cons] at ih ⊢
      rw [ih, unitsOf, if_pos (by omega)]
      rfl

theorem units_ascii (s : PyStr) (h : Ascii s) : units s = s := by
  induction s with
  | nil => rfl
  | cons a t ih =>
    have ha := h a (by simp)
    have := ih (fun c hc => h c (by simp [hc]))
    simp only [units, List.flatMap_cons] at this ⊢
    rw [this, unitsOf, if_pos (by omega)]
    rfl

theorem encStr_len (s : PyStr) : (encStr s).length ≤ 4 + (if s = [] then 0 else if Ascii s then s.length + 1 else 2 * (units s).length + 2) := by
  unfold encStr
  by_cases h1 : s = []
  · rw [if_pos h1, if_pos h1, lit_length]
  · rw [if_neg h1, if_neg h1]
    by_cases h2 : Ascii s
    · rw [if_pos h2, if_pos h2]
      simp only [List.length_append, lit_length, List.length_map, List.length_cons, List.length_nil]; omega
    · rw [if_neg h2, if_neg h2]
      have : (List.flatMap (lit 2) (units s)).length = 2 * (units s).length := by
        rw [unitsToBytes_eq, unitsToBytes_length]
      simp only [List.length_append, twos_length, this, List.length_cons, List.length_nil]; omega

theorem inv_fstring {s s' : Bytes} {x : PyStr} (h : rFString s = .ok (x, s')) (hs : s.length < 2 ^ 32) :
    ∃ S : Str, x = S.val ∧ (eStr S).length + s'.length ≤ s.length := by
  have hn := C12_reader_strings_normal s s' x h
  obtain ⟨size, s1, h1, h2⟩ := rFString_inv s s' x h
  obtain ⟨n, hn1, hn2, hl⟩ := inv_signed h1
  have hsz : -(2 ^ 31) ≤ size ∧ size < 2 ^ 31 := by
    rw [hn2]
    split <;> omega
  have hlen := encStr_len x
  rcases h2 with ⟨-, rfl, rfl⟩ | ⟨h2, h3, rfl⟩ | ⟨h2, h3, rfl⟩
  · refine ⟨⟨[], hn, by decide +kernel⟩, rfl, ?_⟩
    simp only [if_true] at hlen
    simp only [eStr]
    omega
  · obtain ⟨us, h4, rfl⟩ := Option.map_eq_some_iff.1 h3
    have h5 := bytesToUnits_inv h4
    have h6 := units_join us (bytesToUnits_lt _ _ us (Nat.le_refl _) h4)
    simp only [List.length_take] at h5
    have hx : Ascii (joinUnits us) → (joinUnits us).length = us.length := fun ha => by
      rw [← units_ascii _ ha, h6]
    have hf : StrFits (joinUnits us) := by
      unfold StrFits
      split
      · rename_i ha; rw [hx ha]; omega
      · rw [h6]; omega
    refine ⟨⟨_, hn, hf⟩, rfl, ?_⟩
    simp only [eStr, List.length_drop]
    have hne : us = [] → joinUnits us = [] := by rintro rfl; rfl
    split at hlen
    · omega
    · rename_i h7
      have hus : us ≠ [] := fun h => h7 (hne h)
      have : 0 < us.length := List.length_pos_iff.2 hus
      split at hlen
      · rename_i ha; rw [hx ha] at hlen; omega
      · rw [h6] at hlen; omega
  · unfold asciiDecode at h3
    split at h3
    · rename_i ha
      have hx := Option.some.inj h3
      have hl2 : x.length = (s1.take size.natAbs).length - 1 := by
        rw [← hx, List.length_map, List.length_take]; omega
      have hasc : Ascii x := by
        intro c hc
        rw [← hx] at hc
        obtain ⟨b, hb, rfl⟩ := List.mem_map.1 hc
        have := List.all_eq_true.1 ha b hb
        exact of_decide_eq_true this
      rw [List.length_take] at hl2
      refine ⟨⟨x, hn, by unfold StrFits; rw [if_pos hasc]; omega⟩, rfl, ?_⟩
      simp only [eStr, List.length_drop]
      split at hlen
      · omega
      · rename_i h7
        have : 0 < x.length := List.length_pos_iff.2 h7
        omega
    · cases h3

theorem inv_str {s s' : Bytes} {v : Val} (h : rStr s = .ok (v, s')) (hs : s.length < 2 ^ 32) :
    ∃ S : Str, v = vStr S ∧ (eStr S).length + s'.length ≤ s.length := by
  obtain ⟨x, s1, h1, h2⟩ := r_bind_inv h
  obtain ⟨rfl, rfl⟩ := r_pure_inv h2
  obtain ⟨S, rfl, h3⟩ := inv_fstring h1 hs
  exact ⟨S, rfl, h3⟩

theorem inv_repeat {α : Type} {r : R Val} (hg : Grow r) (v : α → Val) (e : α → Bytes)
    (hr : ∀ s x s', r s = .ok (x, s') → 0 < s'.length → s.length < 2 ^ 32 →
      ∃ a, x = v a ∧ (e a).length + s'.length ≤ s.length) :
    ∀ (n : Nat) (s s' : Bytes) (l : List Val), rRepeat r n s = .ok (l, s') → 0 < s'.length → s.length < 2 ^ 32 →
      ∃ as : List α, l = as.map v ∧ as.length = n ∧ (as.flatMap e).length + s'.length ≤ s.length
  | 0, s, s', l, h, _, _ => by
    obtain ⟨rfl, rfl⟩ := r_pure_inv h
    exact ⟨[], rfl, rfl, by simp⟩
  | n + 1, s, s', l, h, h0, hs => by
    obtain ⟨a, s1, h1, h⟩ := r_bind_inv h
    obtain ⟨t, s2, h2, h⟩ := r_bind_inv h
    obtain ⟨rfl, rfl⟩ := r_pure_inv h
    have l2 := len_of_grow (grow_repeat hg n) h2
    have l1 := len_of_grow hg h1
    obtain ⟨x, rfl, e1⟩ := hr _ _ _ h1 (by omega) hs
    obtain ⟨xs, rfl, e2, e3⟩ := inv_repeat hg v e hr n _ _ _ h2 h0 (by omega)
    exact ⟨x :: xs, rfl, by rw [List.length_cons, e2], by rw [List.flatMap_cons, List.length_append]; omega⟩

end Pal
