import Verif.Lemmas.Grow
import Verif.Lemmas.TreeRead
/-
What `fstring` makes of a string that is cut off.
-/

namespace Pal
open Spec

theorem signed_ext {k : Nat} {s s' : Bytes} {i : Int} (h : rSigned k s = .ok (i, s')) (u : Bytes) :
    rSigned k (s ++ u) = .ok (i, s' ++ u) ∧ k ≤ s.length ∧ s = s.take k ++ s' := by
  unfold rSigned at h
  split at h
  · rename_i hk
    cases h
    refine ⟨?_, hk, (List.take_append_drop k s).symm⟩
    unfold rSigned
    rw [if_pos (by rw [List.length_append]; omega), List.take_append_of_le_length hk, List.drop_append_of_le_length hk]
  · cases h

theorem fstring_nil : ∃ e, rFString [] = .error e := ⟨.struct, rfl⟩

theorem bytesToUnits_inv : ∀ {b : Bytes} {us : List Nat}, bytesToUnits b = some us → b.length = 2 * us.length
  | [], us, h => by cases h; rfl
  | [_], us, h => by cases h
  | a :: b :: t, us, h => by
    simp only [bytesToUnits, Option.map_eq_some_iff] at h
    obtain ⟨us', h1, rfl⟩ := h
    have := bytesToUnits_inv h1
    simp only [List.length_cons]
    omega

/-- Cutting bytes after some units leaves a beginning of the units. -/
theorem bytesToUnits_prefix : ∀ {b c : Bytes} {us vs : List Nat}, bytesToUnits b = some us →
    bytesToUnits (b ++ c) = some vs → ∃ ws, vs = us ++ ws
  | [], c, us, vs, h, h' => by cases h; exact ⟨vs, rfl⟩
  | [_], c, us, vs, h, h' => by cases h
  | a :: b :: t, c, us, vs, h, h' => by
    simp only [List.cons_append, bytesToUnits, Option.map_eq_some_iff] at h h'
    obtain ⟨us', h1, rfl⟩ := h
    obtain ⟨vs', h2, rfl⟩ := h'
    obtain ⟨ws, rfl⟩ := bytesToUnits_prefix h1 h2
    exact ⟨ws, rfl⟩

theorem joinUnits_small : ∀ (us : List Nat), (∀ c ∈ joinUnits us, c < 0x10000) → joinUnits us = us
  | [], _ => rfl
  | [u], _ => rfl
  | u :: v :: t, h => by
    unfold joinUnits at h ⊢
    split
    · rename_i hc
      rw [if_pos hc] at h
      have := h _ List.mem_cons_self
      omega
    · rename_i hc
      rw [if_neg hc] at h
      rw [joinUnits_small (v :: t) (fun c hm => h c (List.mem_cons_of_mem _ hm))]

theorem units_prefix : ∀ (x s : PyStr) (ws : List Nat), (∀ c ∈ x, c < 0xD800) → utf16Units s = x ++ ws →
    ∃ r, s = x ++ r ∧ utf16Units r = ws
  | [], s, ws, _, h => ⟨s, rfl, h⟩
  | a :: x, [], ws, _, h => by cases h
  | a :: x, c :: s, ws, hx, h => by
    simp only [utf16Units] at h
    have ha := hx a List.mem_cons_self
    split at h
    · simp only [List.cons_append, List.cons.injEq] at h
      obtain ⟨r, h1, h2⟩ := units_prefix x s ws (fun c hc => hx c (List.mem_cons_of_mem _ hc)) h.2
      exact ⟨r, by rw [h.1, h1]; rfl, h2⟩
    · simp only [List.cons_append, List.cons.injEq] at h
      omega

theorem none_chars : P "None" = [78, 111, 110, 101] := by decide +kernel

/-- The number of bytes after which a name that begins with "None" reads as "None": the
size, the four characters and one more. -/
def noneCut (s : PyStr) : Nat := if Ascii s then 9 else 14

theorem rI32_pos (n : Nat) (h : n < 2 ^ 31) (rest : Bytes) : rI32 (lit 4 n ++ rest) = .ok ((n : Int), rest) := by
  have := rSigned_le 4 (n : Int) rest (by omega)
  rw [show Int.toNat ((n : Int) % (256 : Int) ^ 4) = n by omega] at this
  rw [lit_eq, rI32, this]

/-- A string cut before its end reads as something that uses up the rest of the input; it
reads as "None" exactly if it is longer and the cut is at `noneCut`. -/
theorem cut_string {s : PyStr} (hs : StrOk s) {t u : Bytes} (he : t ++ u = encStr s) (hu : u ≠ []) {x : PyStr} {s' : Bytes}
    (h : rFString t = .ok (x, s')) :
    s' = [] ∧ (x = P "None" → (∃ r, r ≠ [] ∧ s = P "None" ++ r) ∧ t = (encStr s).take (noneCut s)) := by
  have hul : 0 < u.length := List.length_pos_iff.2 hu
  obtain ⟨size, s1, h1, h2⟩ := rFString_inv _ _ _ h
  obtain ⟨h1', hl, ht⟩ := signed_ext (k := 4) h1 u
  rw [he] at h1'
  have htake : t = (encStr s).take t.length := by rw [← he]; simp
  obtain ⟨hn, hf⟩ := hs
  unfold encStr StrFits at *
  by_cases h0 : s = []
  · subst h0
    rw [if_pos rfl] at he
    have := congrArg List.length he
    simp only [List.length_append, lit_length] at this
    omega
  · rw [if_neg h0] at he h1' htake
    by_cases ha : Ascii s
    · rw [if_pos ha] at he h1' htake hf
      have e1 : rI32 (lit 4 (s.length + 1) ++ (s.map UInt8.ofNat ++ [0])) = .ok (((s.length + 1 : Nat) : Int), s.map UInt8.ofNat ++ [0]) :=
        rI32_pos _ hf _
      rw [List.append_assoc] at h1'
      rw [rI32] at e1
      rw [e1] at h1'
      injection h1' with h1'
      injection h1' with h3 h4
      subst h3
      have hlen := congrArg List.length h4
      simp only [List.length_append, List.length_map, List.length_singleton] at hlen
      rcases h2 with ⟨h2, -⟩ | ⟨h2, -⟩ | ⟨-, h2, h5⟩
      · omega
      · omega
      · have hna : ((s.length + 1 : Nat) : Int).natAbs = s.length + 1 := rfl
        rw [hna] at h2 h5
        refine ⟨by rw [h5]; exact List.drop_eq_nil_of_le (by omega), fun hx => ?_⟩
        rw [List.take_of_length_le (l := s1) (by omega)] at h2
        have hp : s1.take (s1.length - 1) = (s.take (s1.length - 1)).map UInt8.ofNat := by
          have : s1.take (s1.length - 1) = (s1 ++ u).take (s1.length - 1) := by
            rw [List.take_append_of_le_length (by omega)]
          rw [this, ← h4, List.take_append_of_le_length (by simp; omega), List.map_take]
        rw [hp] at h2
        have h6 := asciiDecode_encode (s.take (s1.length - 1)) (fun c hc => ha c (List.mem_of_mem_take hc))
        rw [asciiEncode] at h6
        rw [h6] at h2
        injection h2 with h2
        rw [hx] at h2
        have hl4 := congrArg List.length h2
        rw [none_chars, List.length_take] at hl4
        simp only [List.length_cons, List.length_nil] at hl4
        have hs5 : s1.length = 5 := by omega
        have htl : t.length = 9 := by
          have := congrArg List.length ht
          rw [List.length_append, List.length_take] at this
          omega
        refine ⟨⟨s.drop 4, ?_, ?_⟩, ?_⟩
        · intro hd
          have := congrArg List.length hd
          rw [List.length_drop, List.length_nil] at this
          omega
        · rw [← h2, hs5, List.take_append_drop]
        · rw [htl] at htake
          rw [if_neg h0, if_pos ha, noneCut, if_pos ha]
          exact htake
    · rw [if_neg ha] at he h1' htake hf
      have e1 : rI32 (twos 4 (-((units s).length + 1)) ++ ((units s).flatMap (lit 2) ++ [0, 0])) =
          .ok (-((units s).length + 1), (units s).flatMap (lit 2) ++ [0, 0]) :=
        rI32_twos _ _ (by unfold InSigned; omega)
      rw [List.append_assoc] at h1'
      rw [rI32] at e1
      rw [e1] at h1'
      injection h1' with h1'
      injection h1' with h3 h4
      subst h3
      rw [unitsToBytes_eq, units_eq] at h4
      rw [units_eq] at h2
      have hlen := congrArg List.length h4
      simp only [List.length_append, unitsToBytes_length, List.length_cons, List.length_nil] at hlen
      rcases h2 with ⟨h2, -⟩ | ⟨-, h2, h5⟩ | ⟨h2, -⟩
      · omega
      · have hna : 2 * (-(((utf16Units s).length : Int) + 1)).natAbs = 2 * (utf16Units s).length + 2 := by omega
        rw [hna] at h2 h5
        refine ⟨by rw [h5]; exact List.drop_eq_nil_of_le (by omega), fun hx => ?_⟩
        rw [List.take_of_length_le (l := s1) (by omega)] at h2
        have hp : s1.take (s1.length - 2) = (unitsToBytes (utf16Units s)).take (s1.length - 2) := by
          have : s1.take (s1.length - 2) = (s1 ++ u).take (s1.length - 2) := by
            rw [List.take_append_of_le_length (by omega)]
          rw [this, ← h4, List.take_append_of_le_length (by rw [unitsToBytes_length]; omega)]
        simp only [utf16Decode, Option.map_eq_some_iff] at h2
        obtain ⟨us, h6, h7⟩ := h2
        rw [hx, none_chars] at h7
        have h8 := joinUnits_small us (by rw [h7]; decide)
        rw [h7] at h8
        subst h8
        have hl8 := bytesToUnits_inv h6
        simp only [List.length_take, List.length_cons, List.length_nil] at hl8
        rw [hp] at h6
        have h9 := bytesToUnits_unitsToBytes _ (utf16Units_lt s hn.1)
        rw [← List.take_append_drop (s1.length - 2) (unitsToBytes (utf16Units s))] at h9
        obtain ⟨ws, hws⟩ := bytesToUnits_prefix h6 h9
        obtain ⟨r, hr, hrw⟩ := units_prefix _ s ws (by decide) hws
        have hwl := congrArg List.length hws
        simp only [List.length_append, List.length_cons, List.length_nil] at hwl
        have htl : t.length = 14 := by
          have := congrArg List.length ht
          rw [List.length_append, List.length_take] at this
          omega
        refine ⟨⟨r, ?_, by rw [none_chars]; exact hr⟩, ?_⟩
        · rintro rfl
          rw [← hrw] at hwl
          simp only [utf16Units, List.length_nil] at hwl
          omega
        · rw [htl] at htake
          rw [if_neg h0, if_neg ha, noneCut, if_neg ha]
          exact htake
      · omega

theorem fstring_pos (n : Nat) (h0 : 0 < n) (h : n < 2 ^ 31) (b : Bytes) (hb : b.length ≤ n) (x : PyStr)
    (hx : asciiDecode (b.take (b.length - 1)) = some x) : rFString (lit 4 n ++ b) = .ok (x, []) := by
  rw [rFString, r_bind_ok (rI32_pos n h b), if_neg (by omega), if_neg (by omega)]
  have hread : rRead (n : Int).natAbs b = .ok (b, []) := by
    unfold rRead
    rw [Int.natAbs_natCast, List.take_of_length_le hb, List.drop_eq_nil_of_le hb]
  rw [r_bind_ok hread, hx]
  rfl

theorem fstring_neg (n : Nat) (h0 : 0 < n) (h : n ≤ 2 ^ 31) (b : Bytes) (hb : b.length ≤ 2 * n) (x : PyStr)
    (hx : utf16Decode (b.take (b.length - 2)) = some x) : rFString (twos 4 (-(n : Int)) ++ b) = .ok (x, []) := by
  rw [rFString, r_bind_ok (rI32_twos _ b (by unfold InSigned; omega)), if_neg (by omega), if_pos (by omega)]
  have hread : rRead (2 * (-(n : Int)).natAbs) b = .ok (b, []) := by
    unfold rRead
    rw [show 2 * (-(n : Int)).natAbs = 2 * n by omega, List.take_of_length_le hb, List.drop_eq_nil_of_le hb]
  rw [r_bind_ok hread, hx]
  rfl

/-- A name that begins with "None" and goes on, cut at `noneCut`, reads as "None". -/
theorem cut_none {s r : PyStr} (hs : StrOk s) (hr : r ≠ []) (h : s = P "None" ++ r) :
    rFString ((encStr s).take (noneCut s)) = .ok (P "None", []) ∧ noneCut s < (encStr s).length := by
  obtain ⟨hn, hf⟩ := hs
  obtain ⟨c, r, rfl⟩ := List.exists_cons_of_ne_nil hr
  rw [none_chars] at h ⊢
  unfold encStr noneCut StrFits at *
  have h0 : s ≠ [] := by rw [h]; simp
  rw [if_neg h0]
  by_cases ha : Ascii s
  · rw [if_pos ha] at hf ⊢
    rw [if_pos ha]
    constructor
    · have e : ((lit 4 (s.length + 1) ++ s.map UInt8.ofNat ++ [0] : Bytes)).take 9 =
          lit 4 (s.length + 1) ++ [78, 111, 110, 101, UInt8.ofNat c] := by
        rw [List.append_assoc, List.take_append, lit_length, List.take_of_length_le (by rw [lit_length]; omega)]
        rw [h]; rfl
      rw [e]
      refine fstring_pos _ (by omega) hf _ ?_ _ (by rfl)
      rw [h]; simp
    · have := congrArg List.length h
      simp only [List.length_append, List.length_cons, List.length_nil, List.length_map, lit_length] at this ⊢
      omega
  · rw [if_neg ha] at hf ⊢
    rw [if_neg ha, unitsToBytes_eq]
    rw [units_eq] at hf ⊢
    obtain ⟨a, us, hus⟩ : ∃ a us, utf16Units (c :: r) = a :: us := by
      unfold utf16Units; split <;> exact ⟨_, _, rfl⟩
    have hall : utf16Units s = 78 :: 111 :: 110 :: 101 :: a :: us := by
      rw [h, ← hus]; rfl
    have hl2 : (twos 4 (-((utf16Units s).length + 1))).length = 4 := lit_length _ _
    constructor
    · have e : ((twos 4 (-((utf16Units s).length + 1)) ++ unitsToBytes (utf16Units s) ++ [0, 0] : Bytes)).take 14 =
          twos 4 (-((utf16Units s).length + 1)) ++
            [78, 0, 111, 0, 110, 0, 101, 0, UInt8.ofNat (a % 256), UInt8.ofNat (a / 256 % 256)] := by
        rw [List.append_assoc, List.take_append, hl2, List.take_of_length_le (by omega), hall]; rfl
      rw [e]
      refine fstring_neg ((utf16Units s).length + 1) (by omega) hf _ ?_ _ (by rfl)
      rw [hall]; simp; omega
    · rw [List.length_append, List.length_append, hl2, unitsToBytes_length, hall]
      simp only [List.length_cons, List.length_nil]
      omega

end Pal
