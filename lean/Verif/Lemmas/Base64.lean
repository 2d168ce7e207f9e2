import Verif.Spec.Base64
import Verif.Model.Base64
/-
The model's base64 encoder and decoder and the specification `Spec/Base64.lean`.
-/

namespace Pal.Spec.B64
open Pal

/-! ### Digits -/

theorem digit_low : ∀ c < 128, digit c = b64Val c := by decide +kernel

theorem alphabet_low : ∀ c ∈ alphabet, c < 128 := by decide +kernel

theorem digit_eq (c : Nat) : digit c = b64Val c := by
  by_cases h : c < 128
  · exact digit_low c h
  · have h1 : digit c = none := by
      rw [digit, List.findIdx?_eq_none_iff]
      intro x hx
      have := alphabet_low x hx
      simp only [decide_eq_false_iff_not]
      omega
    rw [h1]
    unfold b64Val
    rw [if_neg (by omega), if_neg (by omega), if_neg (by omega), if_neg (by omega), if_neg (by omega)]

theorem b64Val_lt {c v : Nat} (h : b64Val c = some v) : v < 64 := by
  unfold b64Val at h
  repeat (split at h; · (first | (cases h; omega) | cases h))
  cases h

theorem char_eq : ∀ n < 64, alphabet.getD n 0 = b64Char n := by decide +kernel

/-! ### Bits -/

theorem val_byte : ∀ n < 256, val (bits 8 n) = n := by decide +kernel
theorem val_six : ∀ n < 64, val (bits 6 n) = n := by decide +kernel

theorem bits_length (k n : Nat) : (bits k n).length = k := by
  induction k with
  | zero => rfl
  | succ k ih => rw [bits, List.length_cons, ih]

theorem byteBits_cons (x : UInt8) (b : Bytes) : byteBits (x :: b) = bits 8 x.toNat ++ byteBits b := rfl
theorem digitBits_cons (x : Nat) (l : List Nat) : digitBits (x :: l) = bits 6 x ++ digitBits l := rfl

theorem byteBits_length (b : Bytes) : (byteBits b).length = 8 * b.length := by
  induction b with
  | nil => rfl
  | cons x t ih => rw [byteBits_cons, List.length_append, ih, bits_length, List.length_cons]; omega

theorem digitBits_length (b : List Nat) : (digitBits b).length = 6 * b.length := by
  induction b with
  | nil => rfl
  | cons x t ih => rw [digitBits_cons, List.length_append, ih, bits_length, List.length_cons]; omega

theorem byte_inj {x y : UInt8} {s t : List Bool} (h : bits 8 x.toNat ++ s = bits 8 y.toNat ++ t) : x = y ∧ s = t := by
  obtain ⟨h1, h2⟩ := List.append_inj h (by rw [bits_length, bits_length])
  refine ⟨?_, h2⟩
  have := congrArg val h1
  rw [val_byte _ x.toNat_lt, val_byte _ y.toNat_lt] at this
  exact UInt8.toNat_inj.1 this

theorem digit_inj {x y : Nat} (hx : x < 64) (hy : y < 64) {s t : List Bool} (h : bits 6 x ++ s = bits 6 y ++ t) : x = y ∧ s = t := by
  obtain ⟨h1, h2⟩ := List.append_inj h (by rw [bits_length, bits_length])
  refine ⟨?_, h2⟩
  have := congrArg val h1
  rwa [val_six _ hx, val_six _ hy] at this

theorem digitBits_inj : ∀ {l m : List Nat}, (∀ d ∈ l, d < 64) → (∀ d ∈ m, d < 64) → digitBits l = digitBits m → l = m
  | [], [], _, _, _ => rfl
  | [], x :: t, _, _, h => by
    have := congrArg List.length h
    rw [digitBits_length, digitBits_length, List.length_cons, List.length_nil] at this; omega
  | x :: t, [], _, _, h => by
    have := congrArg List.length h
    rw [digitBits_length, digitBits_length, List.length_cons, List.length_nil] at this; omega
  | x :: t, y :: u, hx, hy, h => by
    obtain ⟨h1, h2⟩ := digit_inj (hx x (.head _)) (hy y (.head _)) h
    rw [h1, digitBits_inj (fun d h => hx d (.tail _ h)) (fun d h => hy d (.tail _ h)) h2]

/-! ### The encoder -/

theorem cut1 : ∀ a < 256, bits 6 (a / 4) ++ bits 6 (a % 4 * 16) = bits 8 a ++ List.replicate 4 false := by decide +kernel

theorem cut_a : ∀ a < 256, bits 8 a = bits 6 (a / 4) ++ bits 2 (a % 4) := by decide +kernel
theorem cut_b : ∀ b < 256, bits 8 b = bits 4 (b / 16) ++ bits 4 (b % 16) := by decide +kernel
theorem cut_c : ∀ b < 256, bits 8 b = bits 2 (b / 64) ++ bits 6 (b % 64) := by decide +kernel
theorem glue_ab : ∀ x < 4, ∀ y < 16, bits 6 (x * 16 + y) = bits 2 x ++ bits 4 y := by decide +kernel
theorem glue_bc : ∀ x < 16, ∀ y < 4, bits 6 (x * 4 + y) = bits 4 x ++ bits 2 y := by decide +kernel
theorem glue_b : ∀ x < 16, bits 6 (x * 4) = bits 4 x ++ List.replicate 2 false := by decide +kernel

theorem text_encode (b : Bytes) : Text b (b64Encode b) := by
  induction b using b64Encode.induct with
  | case1 => exact ⟨[], 0, 0, by simp, by omega, by omega, rfl, rfl, rfl⟩
  | case2 a =>
    have ha := a.toNat_lt
    refine ⟨[a.toNat / 4, a.toNat % 4 * 16], 4, 2, ?_, by omega, by omega, ?_, ?_, by rw [b64Encode]; simp⟩
    · simp only [List.mem_cons, List.not_mem_nil, or_false]; rintro d (rfl | rfl) <;> omega
    · simp only [digitBits, byteBits, List.flatMap_cons, List.flatMap_nil, List.append_nil]
      exact cut1 _ ha
    · simp only [b64Encode, List.map_cons, List.map_nil]
      rw [char_eq _ (by omega), char_eq _ (by omega)]; rfl
  | case3 a b =>
    have ha := a.toNat_lt
    have hb := b.toNat_lt
    refine ⟨[a.toNat / 4, a.toNat % 4 * 16 + b.toNat / 16, b.toNat % 16 * 4], 2, 1, ?_, by omega, by omega, ?_, ?_, by rw [b64Encode]; simp⟩
    · simp only [List.mem_cons, List.not_mem_nil, or_false]; rintro d (rfl | rfl | rfl) <;> omega
    · simp only [digitBits, byteBits, List.flatMap_cons, List.flatMap_nil, List.append_nil]
      rw [glue_ab _ (by omega) _ (by omega), glue_b _ (by omega), cut_a _ ha, cut_b _ hb]
      simp only [List.append_assoc]
    · simp only [b64Encode, List.map_cons, List.map_nil]
      rw [char_eq _ (by omega), char_eq _ (by omega), char_eq _ (by omega)]; rfl
  | case4 a b c t ih =>
    have ha := a.toNat_lt
    have hb := b.toNat_lt
    have hc := c.toNat_lt
    obtain ⟨l, zeros, pads, h1, h2, h3, h4, h5, h6⟩ := ih
    refine ⟨(a.toNat / 4) :: (a.toNat % 4 * 16 + b.toNat / 16) :: (b.toNat % 16 * 4 + c.toNat / 64) :: (c.toNat % 64) :: l,
      zeros, pads, ?_, h2, h3, ?_, ?_, ?_⟩
    · simp only [List.mem_cons]; rintro d (rfl | rfl | rfl | rfl | h) <;> first | omega | exact h1 _ h
    · rw [digitBits_cons, digitBits_cons, digitBits_cons, digitBits_cons, h4, byteBits_cons, byteBits_cons, byteBits_cons,
        glue_ab _ (by omega) _ (by omega), glue_bc _ (by omega) _ (by omega), cut_a _ ha, cut_b _ hb, cut_c _ hc]
      simp only [List.append_assoc]
    · simp only [b64Encode, List.map_cons, List.cons_append]
      rw [char_eq _ (by omega), char_eq _ (by omega), char_eq _ (by omega), char_eq _ (by omega), ← h5]
    · rw [b64Encode]; simp only [List.length_cons]; omega

/-- The base64 text of a byte string is unique. -/
theorem text_unique {b : Bytes} {s s' : PyStr} (h : Text b s) (h' : Text b s') : s = s' := by
  obtain ⟨l, z, p, h1, h2, h3, h4, rfl, h6⟩ := h
  obtain ⟨l', z', p', h1', h2', h3', h4', rfl, h6'⟩ := h'
  have e1 := congrArg List.length h4
  have e2 := congrArg List.length h4'
  simp only [digitBits_length, List.length_append, byteBits_length, List.length_replicate, List.length_map] at e1 e2 h6 h6'
  have hz : z = z' := by omega
  subst hz
  have hl := digitBits_inj h1 h1' (h4.trans h4'.symm)
  subst hl
  have hp : p = p' := by omega
  rw [hp]

theorem six_bits : ∀ a b c d e f : Bool, bits 6 (val [a, b, c, d, e, f]) = [a, b, c, d, e, f] := by decide +kernel
theorem six_lt : ∀ a b c d e f : Bool, val [a, b, c, d, e, f] < 64 := by decide +kernel

theorem sixes_bits (l : List Bool) : ∃ z, z < 6 ∧ digitBits (sixes l) = l ++ List.replicate z false := by
  induction l using sixes.induct with
  | case1 a b c d e f t ih =>
    obtain ⟨z, h1, h2⟩ := ih
    exact ⟨z, h1, by rw [sixes, digitBits_cons, h2, six_bits]; rfl⟩
  | case2 => exact ⟨0, by omega, rfl⟩
  | case3 l h1 h2 =>
    refine ⟨6 - l.length, ?_, ?_⟩
    · cases l with
      | nil => exact absurd rfl h2
      | cons a l => rw [List.length_cons]; omega
    · match l, h1, h2 with
      | [], _, h2 => exact absurd rfl h2
      | [a], _, _ => exact (List.append_nil _).trans (six_bits a false false false false false)
      | [a, b], _, _ => exact (List.append_nil _).trans (six_bits a b false false false false)
      | [a, b, c], _, _ => exact (List.append_nil _).trans (six_bits a b c false false false)
      | [a, b, c, d], _, _ => exact (List.append_nil _).trans (six_bits a b c d false false)
      | [a, b, c, d, e], _, _ => exact (List.append_nil _).trans (six_bits a b c d e false)
      | a :: b :: c :: d :: e :: f :: t, h1, _ => exact absurd rfl (h1 a b c d e f t)

theorem sixes_lt (l : List Bool) : ∀ d ∈ sixes l, d < 64 := by
  induction l using sixes.induct with
  | case1 a b c d e f t ih =>
    rw [sixes]
    intro x hx
    rcases List.mem_cons.1 hx with rfl | hx
    · exact six_lt _ _ _ _ _ _
    · exact ih x hx
  | case2 => intro x hx; cases hx
  | case3 l h1 h2 =>
    match l, h1, h2 with
    | [], _, h2 => exact absurd rfl h2
    | [a], _, _ => intro x hx; rw [List.mem_singleton.1 hx]; exact six_lt a false false false false false
    | [a, b], _, _ => intro x hx; rw [List.mem_singleton.1 hx]; exact six_lt a b false false false false
    | [a, b, c], _, _ => intro x hx; rw [List.mem_singleton.1 hx]; exact six_lt a b c false false false
    | [a, b, c, d], _, _ => intro x hx; rw [List.mem_singleton.1 hx]; exact six_lt a b c d false false
    | [a, b, c, d, e], _, _ => intro x hx; rw [List.mem_singleton.1 hx]; exact six_lt a b c d e false
    | a :: b :: c :: d :: e :: f :: t, h1, _ => exact absurd rfl (h1 a b c d e f t)

theorem text_text (b : Bytes) : Text b (text b) := by
  obtain ⟨z, h1, h2⟩ := sixes_bits (byteBits b)
  refine ⟨_, z, _, sixes_lt _, h1, ?_, h2, rfl, ?_⟩
  · omega
  · simp only [text, List.length_append, List.length_map, List.length_replicate]; omega

theorem text_eq (b : Bytes) : text b = b64Encode b := text_unique (text_text b) (text_encode b)

theorem text_iff' {b : Bytes} {s : PyStr} : Text b s ↔ s = text b :=
  ⟨fun h => text_unique h (text_text b), fun h => h ▸ text_text b⟩

theorem text_iff {b : Bytes} {s : PyStr} : Text b s ↔ s = b64Encode b :=
  ⟨fun h => text_unique h (text_encode b), fun h => h ▸ text_encode b⟩

/-! ### The decoder -/

theorem digits_snoc (p : PyStr) (c : Nat) : digits (p ++ [c]) = digits p ++ (digit c).toList := by
  rw [digits, List.filterMap_append]
  cases h : digit c <;> simp [digits, h]

theorem pads_digit {p : PyStr} {c v : Nat} (h : digit c = some v) : padsAtEnd (p ++ [c]) = 0 := by
  simp [padsAtEnd, h]

theorem pads_other {p : PyStr} {c : Nat} (h : digit c = none) :
    padsAtEnd (p ++ [c]) = padsAtEnd p + if c = 61 then 1 else 0 := by
  simp [padsAtEnd, h, List.count_cons]

/-- The bits that the decoder keeps for the next byte. -/
def keeps (q left : Nat) : List Bool :=
  match q with
  | 0 => []
  | 1 => bits 6 left
  | 2 => bits 4 left
  | _ => bits 2 left

/-- What is still to be read, after `p` with the bits `e` left, is read as `b`. -/
def Rest (p t : PyStr) (e : List Bool) (b : Bytes) : Prop :=
  ∃ u r, t = u ++ r ∧ (∀ v, v <+: u → Padded (p ++ v) → v = u) ∧ (Padded (p ++ u) ∨ r = [] ∧ (digits (p ++ t)).length % 4 = 0) ∧
    ∃ rest, e ++ digitBits (digits u) = byteBits b ++ rest ∧ rest.length < 8

theorem rest_nil {p : PyStr} {e : List Bool} {b : Bytes} (hp : ¬ Padded p) (he : e.length < 8) :
    Rest p [] e b ↔ (digits p).length % 4 = 0 ∧ b = [] := by
  constructor
  · rintro ⟨u, r, h1, h2, h3, rest, h4, h5⟩
    obtain ⟨rfl, rfl⟩ := List.append_eq_nil_iff.1 h1.symm
    rw [List.append_nil] at h3
    refine ⟨(h3.resolve_left hp).2, ?_⟩
    have := congrArg List.length h4
    simp only [digits, List.filterMap_nil, digitBits, List.flatMap_nil, List.append_nil, List.length_append, byteBits_length] at this
    exact List.length_eq_zero_iff.1 (by omega)
  · rintro ⟨h, rfl⟩
    exact ⟨[], [], rfl, fun v hv _ => List.prefix_nil.1 hv, .inr ⟨rfl, by rwa [List.append_nil]⟩, e,
      by simp [digits, digitBits, byteBits], he⟩

theorem rest_stop {p : PyStr} {c : Nat} {t : PyStr} {e : List Bool} {b : Bytes} (hp : ¬ Padded p) (hc : Padded (p ++ [c]))
    (hd : digit c = none) (he : e.length < 8) : Rest p (c :: t) e b ↔ b = [] := by
  constructor
  · rintro ⟨u, r, h1, h2, h3, rest, h4, h5⟩
    have hu : u = [c] := by
      cases u with
      | nil =>
        rw [List.append_nil] at h3
        rcases h3 with h3 | h3
        · exact absurd h3 hp
        · rw [List.nil_append] at h1; rw [h3.1] at h1; cases h1
      | cons x u =>
        rw [List.cons_append] at h1
        cases h1
        exact (h2 [c] ⟨u, rfl⟩ hc).symm
    subst hu
    have := congrArg List.length h4
    simp only [digits, List.filterMap_cons, hd, List.filterMap_nil, digitBits, List.flatMap_nil, List.append_nil, List.length_append,
      byteBits_length] at this
    exact List.length_eq_zero_iff.1 (by omega)
  · rintro rfl
    refine ⟨[c], t, rfl, fun v hv hv' => ?_, .inl hc, e, by simp [digits, hd, digitBits, byteBits], he⟩
    obtain ⟨w, hw⟩ := hv
    cases v with
    | nil => rw [List.append_nil] at hv'; exact absurd hv' hp
    | cons x v =>
      rw [List.cons_append] at hw
      injection hw with h1 h2
      obtain ⟨rfl, -⟩ := List.append_eq_nil_iff.1 h2
      rw [h1]

theorem rest_go {p : PyStr} {c : Nat} {t : PyStr} {e : List Bool} {b : Bytes} (hp : ¬ Padded p) :
    Rest p (c :: t) e b ↔ Rest (p ++ [c]) t (e ++ digitBits (digit c).toList) b := by
  have hdig : ∀ u : PyStr, digitBits (digits (c :: u)) = digitBits (digit c).toList ++ digitBits (digits u) := by
    intro u
    unfold digits
    cases h : digit c <;> simp [digitBits, h]
  constructor
  · rintro ⟨u, r, h1, h2, h3, rest, h4, h5⟩
    cases u with
    | nil =>
      rw [List.append_nil] at h3
      rcases h3 with h3 | h3
      · exact absurd h3 hp
      · rw [List.nil_append] at h1; rw [h3.1] at h1; cases h1
    | cons x u =>
      rw [List.cons_append] at h1
      cases h1
      refine ⟨u, r, rfl, fun v hv hv' => ?_, ?_, rest, ?_, h5⟩
      · rw [List.append_assoc] at hv'
        have := h2 (c :: v) (List.cons_prefix_cons.2 ⟨rfl, hv⟩) hv'
        injection this
      · simpa only [List.append_assoc, List.singleton_append] using h3
      · rw [List.append_assoc, ← hdig, h4]
  · rintro ⟨u, r, rfl, h2, h3, rest, h4, h5⟩
    refine ⟨c :: u, r, rfl, fun v hv hv' => ?_, ?_, rest, ?_, h5⟩
    · cases v with
      | nil => rw [List.append_nil] at hv'; exact absurd hv' hp
      | cons x v =>
        obtain ⟨rfl, hv2⟩ := List.cons_prefix_cons.1 hv
        rw [h2 v hv2 (by rwa [List.append_assoc])]
    · simpa only [List.append_assoc, List.singleton_append] using h3
    · rw [hdig, ← List.append_assoc, h4]

theorem rest_byte {p t : PyStr} {e : List Bool} {x : UInt8} {b : Bytes} :
    Rest p t (bits 8 x.toNat ++ e) b ↔ ∃ b', b = x :: b' ∧ Rest p t e b' := by
  constructor
  · rintro ⟨u, r, h1, h2, h3, rest, h4, h5⟩
    cases b with
    | nil =>
      have := congrArg List.length h4
      simp only [List.length_append, bits_length, byteBits_length, List.length_nil] at this
      omega
    | cons y b =>
      rw [byteBits_cons, List.append_assoc, List.append_assoc] at h4
      obtain ⟨rfl, h6⟩ := byte_inj h4
      exact ⟨b, rfl, u, r, h1, h2, h3, rest, h6, h5⟩
  · rintro ⟨b, rfl, u, r, h1, h2, h3, rest, h4, h5⟩
    exact ⟨u, r, h1, h2, h3, rest, by rw [byteBits_cons, List.append_assoc, List.append_assoc, h4], h5⟩

theorem emit1 : ∀ l < 64, ∀ v < 64, bits 6 l ++ bits 6 v = bits 8 (l * 4 + v / 16) ++ bits 4 (v % 16) := by decide +kernel
theorem emit2 : ∀ l < 16, ∀ v < 64, bits 4 l ++ bits 6 v = bits 8 (l * 16 + v / 4) ++ bits 2 (v % 4) := by decide +kernel
theorem emit3 : ∀ l < 4, ∀ v < 64, bits 2 l ++ bits 6 v = bits 8 (l * 64 + v) := by decide +kernel

theorem map_cons_iff {m : Except Err Bytes} {x : UInt8} {b : Bytes} :
    m.map (fun r => x :: r) = .ok b ↔ ∃ b', b = x :: b' ∧ m = .ok b' := by
  cases m with
  | error e => simp [Except.map]
  | ok r =>
    simp only [Except.map, Except.ok.injEq]
    constructor
    · rintro rfl; exact ⟨r, rfl, rfl⟩
    · rintro ⟨b', rfl, rfl⟩; rfl

theorem keeps_lt (q left : Nat) : (keeps q left).length < 8 := by
  unfold keeps
  split <;> simp [bits_length]

theorem loop_iff : ∀ (t p : PyStr) (q left pads : Nat) (b : Bytes), q = (digits p).length % 4 → ¬ Padded p →
    (2 ≤ q → pads = padsAtEnd p) → (q = 1 → left < 64) → (q = 2 → left < 16) → (q = 3 → left < 4) →
    (b64Loop q left pads t = .ok b ↔ Rest p t (keeps q left) b)
  | [], p, q, left, pads, b, hq, hp, _, _, _, _ => by
    rw [rest_nil hp (keeps_lt _ _), b64Loop]
    by_cases h : q = 0
    · rw [if_pos h, ← hq, Except.ok.injEq]; exact ⟨fun h' => ⟨h, h'.symm⟩, fun h' => h'.2.symm⟩
    · rw [if_neg h, ← hq]; exact ⟨fun h' => (by cases h'), fun h' => absurd h'.1 h⟩
  | c :: t, p, q, left, pads, b, hq, hp, hpads, h1, h2, h3 => by
    have hq4 : q < 4 := by omega
    rw [b64Loop]
    by_cases hc : c = 61
    · have hd : digit c = none := by rw [hc]; decide +kernel
      have hn : (digits (p ++ [c])).length = (digits p).length := by rw [digits_snoc, hd]; simp
      have hpe : padsAtEnd (p ++ [c]) = padsAtEnd p + 1 := by rw [pads_other hd, if_pos hc]
      have hgo := rest_go (c := c) (t := t) (e := keeps q left) (b := b) hp
      rw [hd] at hgo
      simp only [Option.toList_none, digitBits, List.flatMap_nil, List.append_nil] at hgo
      rw [if_pos hc]
      by_cases h2q : 2 ≤ q
      · rw [if_pos h2q]
        have hpp := hpads h2q
        by_cases h4 : 4 ≤ q + (pads + 1)
        · rw [if_pos h4, rest_stop hp _ hd (keeps_lt _ _), Except.ok.injEq]
          · exact eq_comm
          · unfold Padded at hp ⊢
            rw [hn, hpe]
            omega
        · rw [if_neg h4, hgo]
          refine loop_iff t (p ++ [c]) q left (pads + 1) b (by rw [hn]; exact hq) ?_ (fun _ => by rw [hpe, hpp]) h1 h2 h3
          unfold Padded at hp ⊢
          rw [hn, hpe]
          omega
      · rw [if_neg h2q, hgo]
        refine loop_iff t (p ++ [c]) q left pads b (by rw [hn]; exact hq) ?_ (fun h => absurd h h2q) h1 h2 h3
        unfold Padded at hp ⊢
        rw [hn, hpe]
        omega
    · rw [if_neg hc]
      cases hv : b64Val c with
      | none =>
        have hd : digit c = none := by rw [digit_eq, hv]
        have hn : (digits (p ++ [c])).length = (digits p).length := by rw [digits_snoc, hd]; simp
        have hpe : padsAtEnd (p ++ [c]) = padsAtEnd p := by rw [pads_other hd, if_neg hc]; rfl
        rw [rest_go hp, hd]
        simp only [Option.toList_none, digitBits, List.flatMap_nil, List.append_nil]
        refine loop_iff t (p ++ [c]) q left pads b (by rw [hn]; exact hq) ?_ (fun h => by rw [hpe]; exact hpads h) h1 h2 h3
        unfold Padded at hp ⊢
        rw [hn, hpe]
        exact hp
      | some v =>
        have hv64 := b64Val_lt hv
        have hd : digit c = some v := by rw [digit_eq, hv]
        have hn : (digits (p ++ [c])).length = (digits p).length + 1 := by rw [digits_snoc, hd]; simp
        have hpe : padsAtEnd (p ++ [c]) = 0 := pads_digit hd
        have hp' : ¬ Padded (p ++ [c]) := by unfold Padded; rw [hpe]; omega
        rw [rest_go hp, hd]
        simp only [Option.toList_some, digitBits, List.flatMap_cons, List.flatMap_nil, List.append_nil]
        rcases (by omega : q = 0 ∨ q = 1 ∨ q = 2 ∨ q = 3) with rfl | rfl | rfl | rfl
        · exact loop_iff t (p ++ [c]) 1 v 0 b (by omega) hp' (fun _ => hpe.symm) (fun _ => hv64) (by omega) (by omega)
        · have hl := h1 rfl
          simp only [keeps]
          rw [map_cons_iff, emit1 _ hl _ hv64]
          have hx : left * 4 + v / 16 = (UInt8.ofNat (left * 4 + v / 16)).toNat := (Nat.mod_eq_of_lt (by omega)).symm
          rw [hx, rest_byte, ← hx]
          exact exists_congr fun b' => and_congr_right fun _ => loop_iff t (p ++ [c]) 2 (v % 16) 0 b' (by omega) hp' (fun _ => hpe.symm) (by omega) (by omega) (by omega)
        · have hl := h2 rfl
          simp only [keeps]
          rw [map_cons_iff, emit2 _ hl _ hv64]
          have hx : left * 16 + v / 4 = (UInt8.ofNat (left * 16 + v / 4)).toNat := (Nat.mod_eq_of_lt (by omega)).symm
          rw [hx, rest_byte, ← hx]
          exact exists_congr fun b' => and_congr_right fun _ => loop_iff t (p ++ [c]) 3 (v % 4) 0 b' (by omega) hp' (fun _ => hpe.symm) (by omega) (by omega) (by omega)
        · have hl := h3 rfl
          simp only [keeps]
          rw [map_cons_iff, emit3 _ hl _ hv64]
          have hx : left * 64 + v = (UInt8.ofNat (left * 64 + v)).toNat := (Nat.mod_eq_of_lt (by omega)).symm
          have := @rest_byte (p ++ [c]) t [] (UInt8.ofNat (left * 64 + v)) b
          rw [List.append_nil, ← hx] at this
          rw [this]
          exact exists_congr fun b' => and_congr_right fun _ => loop_iff t (p ++ [c]) 0 0 0 b' (by omega) hp' (fun _ => hpe.symm) (by omega) (by omega) (by omega)

theorem reads_iff {s : PyStr} {b : Bytes} : b64Loop 0 0 0 s = .ok b ↔ Reads s b :=
  loop_iff s [] 0 0 0 b rfl (by unfold Padded; simp [digits]) (by omega) (by omega) (by omega) (by omega)

theorem says_iff {v : Val} {b : Bytes} : b64Decode v = .ok b ↔ Says v b := by
  constructor
  · intro h
    cases v <;> simp only [b64Decode, reduceCtorEq] at h
    case str s =>
      by_cases ha : s.all (· < 128) = true
      · rw [if_pos ha] at h
        exact .str (by simpa using ha) (reads_iff.1 h)
      · rw [if_neg ha] at h; cases h
    case bytes x => exact .bytes (reads_iff.1 h)
  · rintro (⟨ha, h⟩ | h)
    · rw [b64Decode, if_pos (by simpa using ha)]
      exact reads_iff.2 h
    · exact reads_iff.2 h

/-! ### Characters that do not matter -/

theorem loop_filter : ∀ (t : PyStr) (q left pads : Nat),
    b64Loop q left pads (t.filter fun c => c = 61 || (b64Val c).isSome) = b64Loop q left pads t
  | [], _, _, _ => rfl
  | c :: t, q, left, pads => by
    by_cases hc : c = 61
    · rw [List.filter_cons_of_pos (by simp [hc]), b64Loop, b64Loop, if_pos hc, if_pos hc, loop_filter t, loop_filter t]
    · cases hv : b64Val c with
      | none =>
        rw [List.filter_cons_of_neg (by simp [hc, hv]), loop_filter t, b64Loop, if_neg hc]
        simp only [hv]
      | some v =>
        rw [List.filter_cons_of_pos (by simp [hv]), b64Loop, b64Loop, if_neg hc, if_neg hc]
        simp only [hv, loop_filter t]

end Pal.Spec.B64
