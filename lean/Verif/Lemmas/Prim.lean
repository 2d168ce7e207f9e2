import Verif.Model.Writer
import Verif.Spec.Prim
/-
Lemmas on the primitive readers and writers.
-/

namespace Pal
open Spec

/-! ### bytes -/

theorem UInt8.ofNat_toNat_self (b : UInt8) : UInt8.ofNat b.toNat = b := by simp

theorem u8_toNat_ofNat (n : Nat) (h : n < 256) : (UInt8.ofNat n).toNat = n := by
  simp [Nat.mod_eq_of_lt h]

theorem leBytes_length (k n : Nat) : (leBytes k n).length = k := by
  induction k generalizing n with
  | zero => rfl
  | succ k ih => simp [leBytes, ih]

theorem lit_length (k n : Nat) : (lit k n).length = k := by simp [lit]

theorem lit_eq (k n : Nat) : lit k n = leBytes k n := by
  induction k generalizing n with
  | zero => rfl
  | succ k ih =>
    rw [leBytes, ← ih, lit, lit, List.range_succ_eq_map, List.map_cons, List.map_map]
    congr 1
    · simp
    apply List.map_congr_left
    intro i _
    simp [Function.comp, Nat.pow_succ, Nat.div_div_eq_div_mul, Nat.mul_comm]

theorem leNat_leBytes (k n : Nat) : leNat (leBytes k n) = n % 256 ^ k := by
  induction k generalizing n with
  | zero => simp [leBytes, leNat, Nat.mod_one]
  | succ k ih =>
    simp only [leBytes, leNat, ih]
    rw [u8_toNat_ofNat _ (Nat.mod_lt _ (by decide)), Nat.pow_succ, Nat.mul_comm (256 ^ k) 256,
      Nat.mod_mul]

theorem leNat_lt (b : Bytes) : leNat b < 256 ^ b.length := by
  induction b with
  | nil => simp [leNat]
  | cons a t ih =>
    simp only [leNat, List.length_cons, Nat.pow_succ]
    have := a.toNat_lt
    omega

theorem leBytes_leNat (b : Bytes) : leBytes b.length (leNat b) = b := by
  induction b with
  | nil => rfl
  | cons a t ih =>
    have ha := a.toNat_lt
    simp only [List.length_cons, leBytes, leNat]
    have h1 : (a.toNat + 256 * leNat t) % 256 = a.toNat := by omega
    have h2 : (a.toNat + 256 * leNat t) / 256 = leNat t := by omega
    rw [h1, h2, ih]
    simp

theorem pow256 (k : Nat) : 256 ^ k = 2 ^ (8 * k) := by
  rw [Nat.pow_mul]

theorem pow256i (k : Nat) : (256 : Int) ^ k = 2 ^ (8 * k) := by
  rw [Int.pow_mul]; rfl

/-! ### reader monad -/

@[simp] theorem r_pure {α : Type} (a : α) (s : Bytes) : (pure a : R α) s = .ok (a, s) := rfl
@[simp] theorem r_pure' {α : Type} (a : α) (s : Bytes) : (R.pure a : R α) s = .ok (a, s) := rfl

theorem r_bind {α β : Type} (x : R α) (f : α → R β) (s : Bytes) :
    (x >>= f) s = match x s with
      | .ok (a, s') => f a s'
      | .error e => .error e := rfl

theorem r_bind_ok {α β : Type} {x : R α} {s s' : Bytes} {a : α} (h : x s = .ok (a, s'))
    (f : α → R β) : (x >>= f) s = f a s' := by
  rw [r_bind, h]

theorem r_bind_error {α β : Type} {x : R α} {s : Bytes} {e : Err} (h : x s = .error e)
    (f : α → R β) : (x >>= f) s = .error e := by
  rw [r_bind, h]

theorem rRead_append (b rest : Bytes) : rRead b.length (b ++ rest) = .ok (b, rest) := by
  simp [rRead]

/-! ### unsigned and signed integers -/

theorem rUnsigned_append (b rest : Bytes) :
    rUnsigned b.length (b ++ rest) = .ok (leNat b, rest) := by
  simp [rUnsigned]

theorem rUnsigned_le (k n : Nat) (rest : Bytes) (h : n < 256 ^ k) :
    rUnsigned k (leBytes k n ++ rest) = .ok (n, rest) := by
  have := rUnsigned_append (leBytes k n) rest
  rw [leBytes_length, leNat_leBytes, Nat.mod_eq_of_lt h] at this
  exact this

theorem rSigned_append (b rest : Bytes) :
    rSigned b.length (b ++ rest) =
      .ok (if 2 * leNat b < 256 ^ b.length then (leNat b : Int) else (leNat b : Int) - 256 ^ b.length,
        rest) := by
  simp [rSigned]

theorem rSigned_le (k : Nat) (i : Int) (rest : Bytes)
    (h : -(256 ^ k) ≤ 2 * i ∧ 2 * i < 256 ^ k) :
    rSigned k (leBytes k (i % 256 ^ k).toNat ++ rest) = .ok (i, rest) := by
  have := rSigned_append (leBytes k (i % 256 ^ k).toNat) rest
  have hp : (0 : Int) < 256 ^ k := Int.pow_pos (by decide)
  have hcast : ((256 ^ k : Nat) : Int) = (256 : Int) ^ k := by simp
  have hm := Int.emod_nonneg i (Int.ne_of_gt hp)
  have hl := Int.emod_lt_of_pos i hp
  have hlt : (i % 256 ^ k).toNat < 256 ^ k := by omega
  rw [leBytes_length, leNat_leBytes, Nat.mod_eq_of_lt hlt] at this
  rw [this]
  congr 2
  by_cases hi : 0 ≤ i
  · have he : i % 256 ^ k = i := Int.emod_eq_of_lt hi (by omega)
    rw [he]
    split <;> omega
  · have he : i % 256 ^ k = i + 256 ^ k := by
      rw [← Int.add_emod_right, Int.emod_eq_of_lt] <;> omega
    rw [he]
    split <;> omega

theorem twos_eq (k : Nat) (i : Int) : twos k i = leBytes k (i % 256 ^ k).toNat := by
  rw [twos, lit_eq, pow256i]

theorem twos_length (k : Nat) (i : Int) : (twos k i).length = k := by
  rw [twos_eq, leBytes_length]

theorem inSigned_iff (k : Nat) (hk : 0 < k) (i : Int) :
    InSigned k i ↔ -(256 ^ k) ≤ 2 * i ∧ 2 * i < 256 ^ k := by
  unfold InSigned
  rw [pow256i]
  have : (2 : Int) ^ (8 * k) = 2 * 2 ^ (8 * k - 1) := by
    rw [← Int.pow_succ']; congr 1; omega
  rw [this]
  omega

theorem wUnsigned_in (k n : Nat) (h : n < 256 ^ k) : wUnsigned k (.int n) = .ok (leBytes k n) := by
  have : ((256 ^ k : Nat) : Int) = (256 : Int) ^ k := by simp
  simp only [wUnsigned, Val.asInt?]
  rw [if_pos (by omega)]
  simp

theorem wSigned_in (k : Nat) (i : Int) (h : -(256 ^ k) ≤ 2 * i ∧ 2 * i < 256 ^ k) :
    wSigned k (.int i) = .ok (leBytes k (i % 256 ^ k).toNat) := by
  simp only [wSigned, Val.asInt?]
  rw [if_pos h]

/-! ### strings -/

theorem units_eq (s : PyStr) : units s = utf16Units s := by
  induction s with
  | nil => rfl
  | cons c t ih =>
    simp only [units, List.flatMap_cons, unitsOf, utf16Units] at ih ⊢
    split <;> simp [ih]

theorem unitsToBytes_eq (us : List Nat) : us.flatMap (lit 2) = unitsToBytes us := by
  induction us with
  | nil => rfl
  | cons u t ih => rw [List.flatMap_cons, ih, lit_eq]; rfl

theorem unitsToBytes_length (us : List Nat) : (unitsToBytes us).length = 2 * us.length := by
  induction us with
  | nil => rfl
  | cons u t ih => simp [unitsToBytes, ih]; omega

theorem isAscii_iff (s : PyStr) : isAscii s = true ↔ Ascii s := by
  simp [isAscii, Ascii]

theorem utf16Units_lt (s : PyStr) (h : ∀ c ∈ s, IsCodePoint c) : ∀ u ∈ utf16Units s, u < 65536 := by
  induction s with
  | nil => simp [utf16Units]
  | cons c t ih =>
    have hc : c ≤ 0x10FFFF := h c (by simp)
    have ih := ih (fun x hx => h x (by simp [hx]))
    intro u hu
    simp only [utf16Units] at hu
    split at hu
    · rcases List.mem_cons.1 hu with rfl | hu
      · omega
      · exact ih u hu
    · rcases List.mem_cons.1 hu with h1 | hu
      · omega
      rcases List.mem_cons.1 hu with h1 | hu
      · omega
      · exact ih u hu

theorem bytesToUnits_unitsToBytes (us : List Nat) (h : ∀ u ∈ us, u < 65536) :
    bytesToUnits (unitsToBytes us) = some us := by
  induction us with
  | nil => rfl
  | cons u t ih =>
    have hu := h u (by simp)
    rw [unitsToBytes, bytesToUnits, ih (fun x hx => h x (by simp [hx]))]
    rw [u8_toNat_ofNat _ (by omega), u8_toNat_ofNat _ (by omega)]
    simp only [Option.map_some, Option.some.injEq, List.cons.injEq, and_true]
    omega

theorem joinUnits_head (u : Nat) (us : List Nat) (h : ∀ v, us.head? = some v → ¬ (IsHigh u ∧ IsLow v)) :
    joinUnits (u :: us) = u :: joinUnits us := by
  cases us with
  | nil => rfl
  | cons v t =>
    rw [joinUnits, if_neg]
    have := h v rfl
    simp only [isHi, isLo, IsHigh, IsLow, Bool.and_eq_true, decide_eq_true_eq] at *
    omega

theorem joinUnits_utf16Units (s : PyStr) (h : Normal s) : joinUnits (utf16Units s) = s := by
  obtain ⟨hc, hs⟩ := h
  induction s with
  | nil => rfl
  | cons c t ih =>
    have hct : ∀ x ∈ t, IsCodePoint x := fun x hx => hc x (by simp [hx])
    have hst : NoSplit t := by
      cases t with
      | nil => trivial
      | cons d t' => exact hs.2
    have ih := ih hct hst
    have hcc : c ≤ 0x10FFFF := hc c (by simp)
    simp only [utf16Units]
    split
    · rename_i hlt
      rw [joinUnits_head, ih]
      intro v hv
      cases t with
      | nil => simp [utf16Units] at hv
      | cons d t' =>
        simp only [utf16Units] at hv
        split at hv
        · simp only [List.head?_cons, Option.some.injEq] at hv
          subst hv
          exact hs.1
        · simp only [List.head?_cons, Option.some.injEq] at hv
          have : d ≤ 0x10FFFF := hct d (by simp)
          unfold IsLow
          omega
    · rw [joinUnits, if_pos, ih]
      · rw [show 0x10000 + (0xD800 + (c - 0x10000) / 0x400 - 0xD800) * 0x400 +
          (0xDC00 + (c - 0x10000) % 0x400 - 0xDC00) = c by omega]
      · simp only [isHi, isLo, Bool.and_eq_true, decide_eq_true_eq]
        omega

theorem utf16Decode_encode (s : PyStr) (h : Normal s) : utf16Decode (utf16Encode s) = some s := by
  rw [utf16Decode, utf16Encode, bytesToUnits_unitsToBytes _ (utf16Units_lt s h.1), Option.map_some,
    joinUnits_utf16Units s h]

theorem asciiDecode_encode (s : PyStr) (h : Ascii s) : asciiDecode (asciiEncode s) = some s := by
  have e : (asciiEncode s).map UInt8.toNat = s := by
    rw [asciiEncode, List.map_map]
    conv => rhs; rw [← List.map_id s]
    apply List.map_congr_left
    intro c hc
    have := h c hc
    exact u8_toNat_ofNat c (by omega)
  rw [asciiDecode, if_pos, e]
  simp only [asciiEncode, List.all_map, List.all_eq_true, Function.comp, decide_eq_true_eq]
  intro c hc
  have := h c hc
  rw [u8_toNat_ofNat c (by omega)]
  exact this

@[simp] theorem wcat_nil : wcat [] = .ok [] := rfl
theorem wcat_cons_ok {b c : Bytes} {t : List (Except Err Bytes)} (h : wcat t = .ok c) :
    wcat (.ok b :: t) = .ok (b ++ c) := by
  simp [wcat, h]

theorem wcat_ok (l : List Bytes) : wcat (l.map .ok) = .ok l.flatten := by
  induction l with
  | nil => rfl
  | cons b t ih => simp [wcat, ih]

theorem fstringBytes_eq (s : PyStr) (h : StrFits s) : fstringBytes s = .ok (encStr s) := by
  unfold fstringBytes encStr StrFits at *
  split
  · rw [lit_eq]; rfl
  · split
    · rename_i h0 h1
      have h1 := (isAscii_iff s).1 h1
      rw [if_pos h1] at *
      have hl : (asciiEncode s).length = s.length := by simp [asciiEncode]
      rw [hl]
      have : wI32 (.int (s.length + 1)) = .ok (leBytes 4 (s.length + 1)) := by
        have := wSigned_in 4 (s.length + 1) (by omega)
        rw [wI32, this, show Int.toNat (((s.length : Int) + 1) % (256 : Int) ^ 4) = s.length + 1 by omega]
      rw [this, lit_eq]
      simp [wcat, asciiEncode]
    · rename_i h0 h1
      have h1 : ¬ Ascii s := fun h => h1 ((isAscii_iff s).2 h)
      rw [if_neg h1] at *
      have hl : (utf16Encode s).length / 2 = (units s).length := by
        rw [units_eq, utf16Encode, unitsToBytes_length]; omega
      rw [hl, wI32, wSigned_in 4 _ (by omega), twos_eq, unitsToBytes_eq, units_eq]
      simp [wcat, utf16Encode]

theorem rI32_twos (i : Int) (rest : Bytes) (h : InSigned 4 i) :
    rI32 (twos 4 i ++ rest) = .ok (i, rest) := by
  rw [twos_eq, rI32, rSigned_le]
  exact (inSigned_iff 4 (by decide) i).1 h

theorem rFString_enc (s : PyStr) (rest : Bytes) (h : StrOk s) :
    rFString (encStr s ++ rest) = .ok (s, rest) := by
  obtain ⟨hn, hf⟩ := h
  unfold encStr StrFits at *
  split
  · rename_i h0
    subst h0
    have : rI32 (lit 4 0 ++ rest) = .ok (0, rest) := by
      have := rSigned_le 4 0 rest (by omega)
      rw [lit_eq]; exact this
    rw [rFString, r_bind_ok this]
    rfl
  · rename_i h0
    split
    · rename_i h1
      rw [if_pos h1] at hf
      have hr : rI32 (lit 4 (s.length + 1) ++ (s.map UInt8.ofNat ++ [0] ++ rest)) =
          .ok ((s.length + 1 : Nat), s.map UInt8.ofNat ++ [0] ++ rest) := by
        have := rSigned_le 4 ((s.length + 1 : Nat) : Int) (s.map UInt8.ofNat ++ [0] ++ rest) (by omega)
        rw [show Int.toNat (((s.length + 1 : Nat) : Int) % (256 : Int) ^ 4) = s.length + 1 by omega] at this
        rw [lit_eq, rI32, this]
      rw [List.append_assoc, List.append_assoc, ← List.append_assoc (s.map UInt8.ofNat), rFString,
        r_bind_ok hr]
      rw [if_neg (by omega), if_neg (by omega)]
      have hread : rRead ((s.length + 1 : Nat) : Int).natAbs (s.map UInt8.ofNat ++ [0] ++ rest) =
          .ok (s.map UInt8.ofNat ++ [0], rest) := by
        have := rRead_append (s.map UInt8.ofNat ++ [0]) rest
        rw [List.length_append, List.length_map] at this
        exact this
      rw [r_bind_ok hread]
      have : (s.map UInt8.ofNat ++ [0] : Bytes).take
          ((s.map UInt8.ofNat ++ [0] : Bytes).length - 1) = asciiEncode s := by
        simp [asciiEncode]
      rw [this, asciiDecode_encode s h1]
      rfl
    · rename_i h1
      rw [if_neg h1] at hf
      have hr : rI32 (twos 4 (-((units s).length + 1)) ++ ((units s).flatMap (lit 2) ++ [0, 0] ++ rest)) =
          .ok (-((units s).length + 1), (units s).flatMap (lit 2) ++ [0, 0] ++ rest) := by
        apply rI32_twos
        unfold InSigned
        omega
      rw [List.append_assoc, List.append_assoc, ← List.append_assoc ((units s).flatMap (lit 2)),
        rFString, r_bind_ok hr]
      rw [if_neg (by omega), if_pos (by omega)]
      have hlen : ((units s).flatMap (lit 2)).length = 2 * (units s).length := by
        rw [unitsToBytes_eq, unitsToBytes_length]
      have hread : rRead (2 * (-(((units s).length : Int) + 1)).natAbs)
          ((units s).flatMap (lit 2) ++ [0, 0] ++ rest) =
          .ok ((units s).flatMap (lit 2) ++ [0, 0], rest) := by
        have : 2 * (-(((units s).length : Int) + 1)).natAbs =
            ((units s).flatMap (lit 2) ++ [0, 0]).length := by
          simp only [List.length_append, hlen, List.length_cons, List.length_nil]; omega
        rw [this, rRead_append]
      rw [r_bind_ok hread]
      have : ((units s).flatMap (lit 2) ++ [0, 0] : Bytes).take
          (((units s).flatMap (lit 2) ++ [0, 0] : Bytes).length - 2) = utf16Encode s := by
        rw [List.length_append, List.length_cons, List.length_cons, List.length_nil]
        simp only [Nat.zero_add, Nat.reduceAdd, Nat.add_sub_cancel, List.take_left']
        rw [utf16Encode, ← units_eq, ← unitsToBytes_eq]
      rw [this, utf16Decode_encode s hn]
      rfl

theorem r_fail {α : Type} (e : Err) (s : Bytes) : (rFail e : R α) s = .error e := rfl

theorem rFString_inv (data rest : Bytes) (s : PyStr) (h : rFString data = .ok (s, rest)) :
    ∃ size s', rI32 data = .ok (size, s') ∧
      ((size = 0 ∧ s = [] ∧ rest = s') ∨
       (size < 0 ∧ utf16Decode ((s'.take (2 * size.natAbs)).take ((s'.take (2 * size.natAbs)).length - 2))
          = some s ∧ rest = s'.drop (2 * size.natAbs)) ∨
       (0 < size ∧ asciiDecode ((s'.take size.natAbs).take ((s'.take size.natAbs).length - 1)) = some s
          ∧ rest = s'.drop size.natAbs)) := by
  rw [rFString, r_bind] at h
  split at h
  · rename_i size s' hsz
    refine ⟨size, s', hsz, ?_⟩
    split at h
    · rename_i h0
      simp only [r_pure, Except.ok.injEq, Prod.mk.injEq] at h
      exact .inl ⟨h0, h.1.symm, h.2.symm⟩
    · split at h
      · rename_i h1 h2
        rw [r_bind] at h
        simp only [rRead] at h
        cases hd : utf16Decode ((s'.take (2 * size.natAbs)).take ((s'.take (2 * size.natAbs)).length - 2)) with
        | none => rw [hd] at h; simp [rFail] at h
        | some t =>
          rw [hd] at h
          simp only [r_pure, Except.ok.injEq, Prod.mk.injEq] at h
          exact .inr (.inl ⟨h2, by rw [h.1], h.2.symm⟩)
      · rename_i h1 h2
        rw [r_bind] at h
        simp only [rRead] at h
        cases hd : asciiDecode ((s'.take size.natAbs).take ((s'.take size.natAbs).length - 1)) with
        | none => rw [hd] at h; simp [rFail] at h
        | some t =>
          rw [hd] at h
          simp only [r_pure, Except.ok.injEq, Prod.mk.injEq] at h
          exact .inr (.inr ⟨by omega, by rw [h.1], h.2.symm⟩)
  · simp at h

theorem ascii_normal (l : PyStr) (hl : ∀ c ∈ l, c < 128) : Normal l := by
  refine ⟨fun c hc => by have := hl c hc; unfold IsCodePoint; omega, ?_⟩
  induction l with
  | nil => trivial
  | cons a t ih =>
    cases t with
    | nil => trivial
    | cons b t =>
      refine ⟨?_, ih (fun c hc => hl c (by simp [hc]))⟩
      have := hl a (by simp)
      unfold IsHigh
      omega

theorem joinUnits_normal : ∀ (n : Nat) (us : List Nat), us.length ≤ n → (∀ u ∈ us, u < 65536) →
    Normal (joinUnits us) ∧ (∀ v, (joinUnits us).head? = some v → IsLow v → us.head? = some v) := by
  intro n
  induction n with
  | zero =>
    intro us hl _
    cases us with
    | nil => simp [joinUnits, Normal, NoSplit]
    | cons _ _ => simp at hl
  | succ n ih =>
    intro us hl hu
    match us with
    | [] => simp [joinUnits, Normal, NoSplit]
    | [u] =>
      have := hu u (by simp)
      refine ⟨⟨?_, ?_⟩, ?_⟩
      · simp [joinUnits, IsCodePoint]; omega
      · simp [joinUnits, NoSplit]
      · intro v hv _; simpa [joinUnits] using hv
    | u :: v :: t =>
      rw [joinUnits]
      have hu0 := hu u (by simp)
      split
      · rename_i hp
        simp only [isHi, isLo, Bool.and_eq_true, decide_eq_true_eq] at hp
        obtain ⟨⟨hc, hs⟩, hh⟩ := ih t (by simp at hl; omega) (fun x hx => hu x (by simp [hx]))
        refine ⟨⟨?_, ?_⟩, ?_⟩
        · intro c hcm
          rcases List.mem_cons.1 hcm with h1 | h1
          · unfold IsCodePoint; omega
          · exact hc c h1
        · cases hj : joinUnits t with
          | nil => trivial
          | cons d r =>
            rw [hj] at hs
            refine ⟨?_, hs⟩
            unfold IsHigh; omega
        · intro w hw hlow
          simp only [List.head?_cons, Option.some.injEq] at hw
          unfold IsLow at hlow
          omega
      · rename_i hp
        simp only [isHi, isLo, Bool.and_eq_true, decide_eq_true_eq] at hp
        obtain ⟨⟨hc, hs⟩, hh⟩ := ih (v :: t) (by simp at hl ⊢; omega) (fun x hx => hu x (by
          rcases List.mem_cons.1 hx with h1 | h1 <;> simp [h1]))
        refine ⟨⟨?_, ?_⟩, ?_⟩
        · intro c hcm
          rcases List.mem_cons.1 hcm with h1 | h1
          · unfold IsCodePoint; omega
          · exact hc c h1
        · cases hj : joinUnits (v :: t) with
          | nil => trivial
          | cons d r =>
            rw [hj] at hs hh
            refine ⟨?_, hs⟩
            rintro ⟨h1, h2⟩
            have := hh d rfl h2
            simp only [List.head?_cons, Option.some.injEq] at this
            subst this
            unfold IsHigh at h1
            unfold IsLow at h2
            omega
        · intro w hw _
          exact hw

theorem bytesToUnits_lt : ∀ (n : Nat) (b : Bytes) (us : List Nat), b.length ≤ n → bytesToUnits b = some us →
    ∀ u ∈ us, u < 65536 := by
  intro n
  induction n with
  | zero =>
    intro b us hl h
    cases b with
    | nil =>
      have h : some [] = some us := h
      simp only [Option.some.injEq] at h
      simp [← h]
    | cons _ _ => simp at hl
  | succ n ih =>
    intro b us hl h
    match b with
    | [] =>
      have h : some [] = some us := h
      simp only [Option.some.injEq] at h
      simp [← h]
    | [_] => simp [bytesToUnits] at h
    | a :: c :: t =>
      simp only [bytesToUnits, Option.map_eq_some_iff] at h
      obtain ⟨us', h1, h2⟩ := h
      intro u hu
      rw [← h2] at hu
      have ha := a.toNat_lt
      have hc := c.toNat_lt
      rcases List.mem_cons.1 hu with h3 | h3
      · omega
      · exact ih t us' (by simp at hl; omega) h1 u h3

end Pal
