import Verif.Lemmas.UuidText
import Verif.Spec.Says
import Verif.Lemmas.Single
import Verif.Lemmas.Wrote
import Verif.Lemmas.TreeWrite
import Verif.Props.Uuid
import Mathlib.Data.List.TakeWhile
import Verif.Props.Sizes
/-
Fields: what can be written is what says a field.
-/

namespace Pal
open Spec

theorem wcat_iff {x : Except Err Bytes} {t : List (Except Err Bytes)} {b : Bytes} :
    wcat (x :: t) = .ok b ↔ ∃ c d, x = .ok c ∧ wcat t = .ok d ∧ b = c ++ d := by
  cases x with
  | error e => simp [wcat]
  | ok c =>
    cases h : wcat t with
    | error e => simp [wcat, h]
    | ok d =>
      simp only [wcat, h, Except.ok.injEq]
      constructor
      · rintro rfl; exact ⟨_, _, rfl, rfl, rfl⟩
      · rintro ⟨_, _, rfl, rfl, rfl⟩; rfl

theorem wcat_end {b : Bytes} : wcat [] = .ok b ↔ b = [] := by simp [wcat, eq_comm]

theorem wcat1 {x : Except Err Bytes} {b : Bytes} : wcat [x] = .ok b ↔ x = .ok b := by
  simp only [wcat_iff, wcat_end]
  constructor
  · rintro ⟨c, d, h, rfl, rfl⟩; rw [h, List.append_nil]
  · intro h; exact ⟨b, [], h, rfl, (List.append_nil _).symm⟩

theorem wcat2 {x y : Except Err Bytes} {b : Bytes} : wcat [x, y] = .ok b ↔ ∃ c d, x = .ok c ∧ y = .ok d ∧ b = c ++ d := by
  rw [wcat_iff]; simp only [wcat1]

theorem wcat3 {x y z : Except Err Bytes} {b : Bytes} : wcat [x, y, z] = .ok b ↔
    ∃ c d e, x = .ok c ∧ y = .ok d ∧ z = .ok e ∧ b = c ++ d ++ e := by
  rw [wcat_iff]
  simp only [wcat2]
  constructor
  · rintro ⟨c, _, h1, ⟨d, e, h2, h3, rfl⟩, rfl⟩; exact ⟨c, d, e, h1, h2, h3, by rw [List.append_assoc]⟩
  · rintro ⟨c, d, e, h1, h2, h3, rfl⟩; exact ⟨c, _, h1, ⟨d, e, h2, h3, rfl⟩, by rw [List.append_assoc]⟩

theorem wcat4 {x y z w : Except Err Bytes} {b : Bytes} : wcat [x, y, z, w] = .ok b ↔
    ∃ c d e f, x = .ok c ∧ y = .ok d ∧ z = .ok e ∧ w = .ok f ∧ b = c ++ d ++ e ++ f := by
  rw [wcat_iff]
  simp only [wcat3]
  constructor
  · rintro ⟨c, _, h1, ⟨d, e, f, h2, h3, h4, rfl⟩, rfl⟩; exact ⟨c, d, e, f, h1, h2, h3, h4, by simp only [List.append_assoc]⟩
  · rintro ⟨c, d, e, f, h1, h2, h3, h4, rfl⟩; exact ⟨c, _, h1, ⟨d, e, f, h2, h3, h4, rfl⟩, by simp only [List.append_assoc]⟩

theorem wAt_iff1 {v : Val} {k : String} {w : Val → Except Err Bytes} {b : Bytes} :
    wAt v [k] w = .ok b ↔ ∃ x, At v k x ∧ w x = .ok b := by
  rw [wAt_cons]
  unfold At
  cases v.get (P k) with
  | error e => simp
  | ok x => simp [wAt_nil]

theorem wAt_iff2 {v : Val} {k k' : String} {w : Val → Except Err Bytes} {b : Bytes} :
    wAt v [k, k'] w = .ok b ↔ ∃ x y, At v k x ∧ At x k' y ∧ w y = .ok b := by
  rw [wAt_cons]
  unfold At
  cases v.get (P k) with
  | error e => simp
  | ok x =>
    simp only [Except.ok.injEq]
    rw [wAt_iff1]
    constructor
    · rintro ⟨y, h1, h2⟩; exact ⟨x, y, rfl, h1, h2⟩
    · rintro ⟨_, y, rfl, h1, h2⟩; exact ⟨y, h1, h2⟩

theorem at_unique {v x y : Val} {k : String} (h1 : At v k x) (h2 : At v k y) : x = y := by
  unfold At at *
  rw [h1] at h2
  exact Except.ok.inj h2

/-! ### integers -/

theorem asInt_iff {v : Val} {i : Int} : v.asInt? = some i ↔ SaysInt v i := by
  constructor
  · intro h
    cases v <;> simp only [Val.asInt?, reduceCtorEq, Option.some.injEq] at h <;> subst h
    · exact .bool _
    · exact .int _
  · rintro (_ | _) <;> rfl

theorem wSigned_iff {k w : Nat} (hk : 0 < k) (hw : w = 8 * k) {v : Val} {b : Bytes} :
    wSigned k v = .ok b ↔ ∃ n : BitVec w, SaysI v n ∧ b = lit k n.toNat := by
  subst hw
  constructor
  · intro h
    unfold wSigned at h
    cases hi : v.asInt? with
    | none => rw [hi] at h; cases h
    | some i =>
      rw [hi] at h
      simp only at h
      split at h
      · rename_i hr
        cases h
        have hp : (256 : Int) ^ k = 2 ^ (8 * k) := by rw [show (256 : Int) = 2 ^ 8 by norm_num, ← pow_mul]
        have ht : (BitVec.ofInt (8 * k) i).toInt = i := by
          rw [BitVec.toInt_ofInt]
          apply Int.bmod_eq_of_le_mul_two <;> push_cast <;> rw [← hp] <;> omega
        refine ⟨BitVec.ofInt (8 * k) i, ?_, ?_⟩
        · unfold SaysI; rw [ht]; exact asInt_iff.1 hi
        · rw [lit_eq, BitVec.toNat_ofInt, hp]
          norm_cast
      · cases h
  · rintro ⟨n, hs, rfl⟩
    have := wSigned_bv k (8 * k) hk rfl n
    unfold wSigned at this ⊢
    rw [asInt_iff.2 hs]
    exact this

theorem wUnsigned_iff {k w : Nat} (hw : w = 8 * k) {v : Val} {b : Bytes} :
    wUnsigned k v = .ok b ↔ ∃ n : BitVec w, SaysU v n ∧ b = lit k n.toNat := by
  subst hw
  constructor
  · intro h
    unfold wUnsigned at h
    cases hi : v.asInt? with
    | none => rw [hi] at h; cases h
    | some i =>
      rw [hi] at h
      simp only at h
      split at h
      · rename_i hr
        cases h
        have hp : (256 : Int) ^ k = 2 ^ (8 * k) := by rw [show (256 : Int) = 2 ^ 8 by norm_num, ← pow_mul]
        obtain ⟨h0, h1⟩ := hr
        obtain ⟨m, rfl⟩ := Int.eq_ofNat_of_zero_le h0
        have hm : m < 2 ^ (8 * k) := by rw [hp] at h1; exact_mod_cast h1
        have ht : (BitVec.ofNat (8 * k) m).toNat = m := by rw [BitVec.toNat_ofNat, Nat.mod_eq_of_lt hm]
        refine ⟨BitVec.ofNat (8 * k) m, ?_, ?_⟩
        · unfold SaysU; rw [ht]; exact asInt_iff.1 hi
        · rw [lit_eq, ht]; rfl
      · cases h
  · rintro ⟨n, hs, rfl⟩
    have := wUnsigned_bv k (8 * k) rfl n
    unfold wUnsigned at this ⊢
    rw [asInt_iff.2 hs]
    exact this

theorem wI32_iff {v : Val} {b : Bytes} : wI32 v = .ok b ↔ ∃ n : BitVec 32, SaysI v n ∧ b = e32 n := wSigned_iff (by decide) rfl
theorem wI64_iff {v : Val} {b : Bytes} : wI64 v = .ok b ↔ ∃ n : BitVec 64, SaysI v n ∧ b = e64 n := wSigned_iff (by decide) rfl
theorem wU16_iff {v : Val} {b : Bytes} : wU16 v = .ok b ↔ ∃ n : BitVec 16, SaysU v n ∧ b = e16 n := wUnsigned_iff rfl
theorem wU32_iff {v : Val} {b : Bytes} : wU32 v = .ok b ↔ ∃ n : BitVec 32, SaysU v n ∧ b = e32 n := wUnsigned_iff rfl
theorem wU64_iff {v : Val} {b : Bytes} : wU64 v = .ok b ↔ ∃ n : BitVec 64, SaysU v n ∧ b = e64 n := wUnsigned_iff rfl

theorem wU32_count {n : Nat} {b : Bytes} : wU32 (.int n) = .ok b ↔ n < 2 ^ 32 ∧ b = lit 4 n := by
  constructor
  · intro h
    by_cases hn : n < 2 ^ 32
    · rw [wU32_nat n hn] at h; cases h; exact ⟨hn, rfl⟩
    · exfalso
      unfold wU32 wUnsigned at h
      simp only [Val.asInt?] at h
      rw [if_neg] at h
      · cases h
      · rintro ⟨_, h2⟩
        exact hn (by exact_mod_cast h2)
  · rintro ⟨h, rfl⟩; exact wU32_nat n h

theorem wU64_count {n : Nat} {b : Bytes} : wU64 (.int n) = .ok b ↔ n < 2 ^ 64 ∧ b = lit 8 n := by
  constructor
  · intro h
    by_cases hn : n < 2 ^ 64
    · rw [wU64_nat n hn] at h; cases h; exact ⟨hn, rfl⟩
    · exfalso
      unfold wU64 wUnsigned at h
      simp only [Val.asInt?] at h
      rw [if_neg] at h
      · cases h
      · rintro ⟨_, h2⟩
        exact hn (by exact_mod_cast h2)
  · rintro ⟨h, rfl⟩; exact wU64_nat n h

theorem wByte_iff {v : Val} {b : Bytes} : wByte v = .ok b ↔ ∃ c : UInt8, SaysInt v c.toNat ∧ b = [c] := by
  constructor
  · intro h
    unfold wByte byteOf at h
    cases hi : v.asInt? with
    | none => rw [hi] at h; cases h
    | some i =>
      rw [hi] at h
      simp only at h
      by_cases hr : 0 ≤ i ∧ i < 256
      · rw [if_pos hr] at h
        cases h
        refine ⟨UInt8.ofNat i.toNat, ?_, rfl⟩
        have := asInt_iff.1 hi
        rwa [show (((UInt8.ofNat i.toNat).toNat : Nat) : Int) = i by
          rw [UInt8.toNat_ofNat', Nat.mod_eq_of_lt (by omega)]; omega]
      · rw [if_neg hr] at h; cases h
  · rintro ⟨c, h, rfl⟩
    have := c.toNat_lt
    unfold wByte byteOf
    rw [asInt_iff.2 h]
    simp only
    rw [if_pos (by omega)]
    simp

/-! ### floats -/

theorem finite_of_lt {neg : Bool} {r : Nat} {b : BitVec 64} (h : b.toNat = (if neg then 2 ^ 63 else 0) + min r (2047 * 2 ^ 52)) :
    Finite64 b ↔ r < 2047 * 2 ^ 52 := by
  unfold Finite64
  have : min r (2047 * 2 ^ 52) ≤ 2047 * 2 ^ 52 := Nat.min_le_right _ _
  constructor
  · intro hf
    by_contra hr
    rw [Nat.min_eq_right (by omega)] at h
    apply hf
    rw [h]
    cases neg <;> decide
  · intro hr
    rw [Nat.min_eq_left (by omega)] at h
    rw [h]
    cases neg
    · simp only [Bool.false_eq_true, if_false]; omega
    · simp only [if_true]; omega

theorem intToF64_iff {i : Int} {b : BitVec 64} :
    intToF64 i = some b ↔ NearestFloat (decide (i < 0)) |(i : ℚ)| b ∧ Finite64 b := by
  have hn := roundMag_nearest i.natAbs 1 (by decide)
  rw [Nat.cast_one, div_one, show ((i.natAbs : Nat) : ℚ) = |(i : ℚ)| by rw [Nat.cast_natAbs, Int.cast_abs]] at hn
  have hs : (if decide (i < 0) = true then 2 ^ 63 else 0) = (if i < 0 then 2 ^ 63 else 0) := by simp
  constructor
  · intro h
    unfold intToF64 at h
    dsimp only at h
    generalize roundMag i.natAbs 1 = r at *
    by_cases hr : r < 2047 * 2 ^ 52
    · rw [if_pos hr] at h
      cases h
      have ht : (BitVec.ofNat 64 ((if i < 0 then 2 ^ 63 else 0) + r)).toNat = (if i < 0 then 2 ^ 63 else 0) + r := by
        rw [BitVec.toNat_ofNat, Nat.mod_eq_of_lt]
        split <;> omega
      have hx : (BitVec.ofNat 64 ((if i < 0 then 2 ^ 63 else 0) + r)).toNat =
          (if decide (i < 0) = true then 2 ^ 63 else 0) + min r (2047 * 2 ^ 52) := by
        rw [ht, hs, Nat.min_eq_left (by omega)]
      exact ⟨⟨r, hn, hx⟩, (finite_of_lt hx).2 hr⟩
    · rw [if_neg hr] at h; cases h
  · rintro ⟨⟨r, h1, h2⟩, h3⟩
    have hr := (finite_of_lt h2).1 h3
    have e := nearest_unique h1 hn
    unfold intToF64
    dsimp only
    rw [← e, if_pos hr]
    congr 1
    apply BitVec.eq_of_toNat_eq
    rw [h2, hs, Nat.min_eq_left (by omega), BitVec.toNat_ofNat, Nat.mod_eq_of_lt]
    split <;> omega

theorem asF64_iff {v : Val} {b : BitVec 64} : asF64 v = .ok b ↔ SaysF64 v b := by
  have key : ∀ i, SaysInt v i → asF64 v = (match intToF64 i with
      | some b => .ok b
      | none => .error .struct) → (asF64 v = .ok b ↔ NearestFloat (decide (i < 0)) |(i : ℚ)| b ∧ Finite64 b) := by
    intro i _ e
    rw [e, ← intToF64_iff]
    cases intToF64 i <;> simp
  constructor
  · intro h
    cases v <;> try (cases h; done)
    · cases h; exact .none
    · rename_i c
      have := (key _ (.bool c) rfl).1 h
      exact .int (.bool c) this.1 this.2
    · rename_i i
      have := (key _ (.int i) rfl).1 h
      exact .int (.int i) this.1 this.2
    · cases h; exact .float _
  · intro h
    cases h with
    | none => rfl
    | float => rfl
    | int h1 h2 h3 => cases h1 <;> exact (key _ (by constructor) rfl).2 ⟨h2, h3⟩

theorem wDouble_iff {v : Val} {b : Bytes} : wDouble v = .ok b ↔ ∃ x : F64 free, SaysF64 v x.val ∧ b = eF64 x := by
  unfold wDouble
  constructor
  · intro h
    cases ha : asF64 v with
    | error e => rw [ha] at h; cases h
    | ok x =>
      rw [ha] at h
      cases h
      exact ⟨⟨x, by simp [F64Ok]⟩, asF64_iff.1 ha, (lit_eq _ _).symm⟩
  · rintro ⟨x, h, rfl⟩
    rw [asF64_iff.2 h]
    simp only [eF64, lit_eq]

theorem wFloat_iff {v : Val} {b : Bytes} : wFloat v = .ok b ↔ ∃ x : F32 free, SaysF32 v x.val ∧ b = eF32 x := by
  unfold wFloat
  constructor
  · intro h
    cases ha : asF64 v with
    | error e => rw [ha] at h; cases h
    | ok x =>
      rw [ha] at h
      cases h
      refine ⟨⟨f64to32 x, f64to32_quiet x, by simp, by simp⟩, ⟨x, asF64_iff.1 ha, f64to32_narrows x⟩, (lit_eq _ _).symm⟩
  · rintro ⟨x, ⟨d, h, hx⟩, rfl⟩
    rw [asF64_iff.2 h]
    rw [f64to32_iff] at hx
    simp only [eF32, lit_eq, hx]

/-! ### GUIDs -/

theorem hexVal_lt {c d : Nat} (h : hexVal c = some d) : d < 16 := by
  unfold hexVal at h
  split at h
  · cases h; omega
  · split at h
    · cases h; omega
    · split at h
      · cases h; omega
      · cases h

theorem hexDigits_lt (s : PyStr) : ∀ (acc : Nat) (prev : Bool) (n : Nat), hexDigits acc prev s = some n →
    n < (acc + 1) * 16 ^ s.length := by
  induction s with
  | nil =>
    intro acc prev n h
    simp only [hexDigits] at h
    split at h
    · cases h; simp
    · cases h
  | cons c t ih =>
    intro acc prev n h
    simp only [hexDigits] at h
    have hp : 0 < 16 ^ t.length := Nat.pos_of_ne_zero (by simp)
    split at h
    · split at h
      · have := ih _ _ _ h
        rw [List.length_cons, Nat.pow_succ]
        calc n < (acc + 1) * 16 ^ t.length := this
          _ ≤ (acc + 1) * (16 ^ t.length * 16) := Nat.mul_le_mul_left _ (by omega)
      · cases h
    · split at h
      · rename_i d hd
        have := ih _ _ _ h
        have hd := hexVal_lt hd
        rw [List.length_cons, Nat.pow_succ]
        calc n < (acc * 16 + d + 1) * 16 ^ t.length := this
          _ ≤ ((acc + 1) * 16) * 16 ^ t.length := Nat.mul_le_mul_right _ (by omega)
          _ = _ := by ring
      · cases h

theorem stripWith_length (p : Nat → Bool) (s : PyStr) : (stripWith p s).length ≤ s.length := by
  unfold stripWith
  rw [List.length_reverse]
  refine Nat.le_trans (List.length_dropWhile_le _ _) ?_
  rw [List.length_reverse]
  exact List.length_dropWhile_le _ _

theorem dropSign_length (s : PyStr) : (dropSign s).2.length ≤ s.length := by
  unfold dropSign
  split <;> simp

theorem dropHexPrefix_length (s : PyStr) : (dropHexPrefix s).length ≤ s.length := by
  unfold dropHexPrefix
  split <;> simp <;> omega

theorem asciiDigits_length (s : PyStr) : (asciiDigits s).length = s.length := by
  unfold asciiDigits
  split
  · rfl
  · rw [List.length_map]

theorem pyInt16_lt {s : PyStr} {n : Nat} (h : pyInt16 s = some n) : n < 16 ^ s.length := by
  unfold pyInt16 at h
  dsimp only at h
  split at h
  · rename_i m hm
    split at h
    · cases h
    · cases h
      have := hexDigits_lt _ _ _ _ hm
      rw [Nat.zero_add, Nat.one_mul] at this
      refine lt_of_lt_of_le this (Nat.pow_le_pow_right (by decide) ?_)
      exact Nat.le_trans (dropHexPrefix_length _) (Nat.le_trans (dropSign_length _)
        (Nat.le_trans (stripWith_length _ _) (Nat.le_of_eq (asciiDigits_length s))))
  · cases h

theorem stdUuidParse_lt {s : PyStr} {n : Nat} (h : stdUuidParse s = .ok n) : n < 256 ^ 16 := by
  unfold stdUuidParse at h
  dsimp only at h
  split at h
  · cases h
  · rename_i hl
    split at h
    · rename_i m hm
      cases h
      have := pyInt16_lt hm
      rw [not_not.1 hl] at this
      exact this
    · cases h

theorem beBytes_length (k n : Nat) : (beBytes k n).length = k := by
  induction k generalizing n with
  | zero => rfl
  | succ k ih => simp [beBytes, ih]

theorem beVal_beBytes (k n : Nat) (h : n < 256 ^ k) : beVal (beBytes k n) = n := by
  induction k generalizing n with
  | zero => simp at h; subst h; rfl
  | succ k ih =>
    have hk : n / 256 < 256 ^ k := by
      rw [Nat.pow_succ] at h
      exact Nat.div_lt_of_lt_mul (by omega)
    have := ih _ hk
    unfold beVal at this ⊢
    rw [beBytes, List.foldl_append, this]
    simp only [List.foldl_cons, List.foldl_nil]
    rw [UInt8.toNat_ofNat', Nat.mod_eq_of_lt (by omega : n % 256 < 2 ^ 8)]
    omega

theorem printOrder_perm (q : Bytes) (h : q.length = 16) : printOrder (uuidPerm q) = q ∧ (uuidPerm q).length = 16 := by
  obtain ⟨b0, b1, b2, b3, b4, b5, b6, b7, b8, b9, bA, bB, bC, bD, bE, bF, rfl⟩ := exists16 q h
  exact ⟨rfl, rfl⟩

theorem wGuid_says {v : Val} {g : Guid} (h : SaysGuid v g) : wGuid v = .ok (eGuid g) := by
  cases h with
  | uuid => rfl
  | text h =>
    simp only [wGuid, uuidFromStr, GuidText.says_iff.2 h, eGuid, Except.ok.injEq]
    exact uuidPerm_beVal g.val g.2

theorem wGuid_plain {v : Val} {b : Bytes} (hp : PlainDoc v) (h : wGuid v = .ok b) : ∃ g, SaysGuid v g ∧ b = eGuid g := by
  cases v <;> try (cases h; done)
  · rename_i s
    simp only [wGuid, uuidFromStr] at h
    cases hs : stdUuidParse s with
    | error e => rw [hs] at h; cases h
    | ok n =>
      rw [hs] at h
      cases h
      have h3 := beVal_beBytes 16 n (stdUuidParse_lt hs)
      have h4 := beBytes_length 16 n
      generalize beBytes 16 n = q at *
      obtain ⟨h1, h2⟩ := printOrder_perm q h4
      refine ⟨⟨uuidPerm q, h2⟩, .text ?_, rfl⟩
      rw [← GuidText.says_iff, hs, h1, h3]
  · rename_i raw
    exact ⟨⟨raw, hp⟩, .uuid ⟨raw, hp⟩, (Except.ok.inj h).symm⟩

/-! ### strings -/

theorem wFString_plain {v : Val} {b : Bytes} (hp : PlainDoc v) (h : wFString v = .ok b) :
    ∃ s : Str, v = .str s.val ∧ b = eStr s := by
  obtain ⟨s, rfl, h1, h2⟩ := wFString_inv h
  exact ⟨⟨s, hp, h1⟩, rfl, h2⟩

/-! ### parts of documents -/

theorem plainD_mem {d : Dict} (h : PlainDocD d) {k : PyStr} {x : Val} (hx : dget? d k = some x) : PlainDoc x := by
  induction d with
  | nil => cases hx
  | cons a t ih =>
    obtain ⟨k', v⟩ := a
    obtain ⟨-, h1, h2⟩ := h
    simp only [dget?] at hx
    split at hx
    · cases hx; exact h1
    · exact ih h2 hx

theorem plain_at {v x : Val} {k : String} (h : PlainDoc v) (hx : At v k x) : PlainDoc x := by
  unfold At Val.get at hx
  split at hx
  · split at hx
    · cases hx
      rename_i hd
      exact plainD_mem h hd
    · cases hx
  · cases hx

theorem plainL_mem {l : List Val} (h : PlainDocL l) : ∀ x ∈ l, PlainDoc x := by
  induction l with
  | nil => intro x hx; cases hx
  | cons a t ih =>
    intro x hx
    rcases List.mem_cons.1 hx with rfl | hx
    · exact h.1
    · exact ih h.2 x hx

theorem plain_items {v : Val} {l : List Val} (h : PlainDoc v) (hi : Items v l) : ∀ x ∈ l, PlainDoc x := by
  cases hi with
  | list => exact plainL_mem h
  | tuple => exact plainL_mem h
  | bytes => intro x hx; obtain ⟨c, -, rfl⟩ := List.mem_map.1 hx; trivial
  | str =>
    intro x hx
    obtain ⟨c, hc, rfl⟩ := List.mem_map.1 hx
    exact ⟨fun d hd => by rw [List.mem_singleton.1 hd]; exact h.1 c hc, trivial⟩
  | dict => intro x hx; cases hx

theorem seqItems_iff {v : Val} {l : List Val} : v.seqItems = .ok l ↔ Items v l := by
  constructor
  · intro h
    cases v <;> try (cases h; done)
    · cases h; constructor
    · cases h; constructor
    · cases h; constructor
    · cases h; constructor
    · rename_i d
      cases d with
      | nil => cases h; constructor
      | cons a t => cases h
  · intro h; cases h <;> rfl

theorem iterItems_says {v : Val} {l : List Val} (h : Items v l) : v.iterItems = .ok l := by cases h <;> rfl
theorem len_says {v : Val} {l : List Val} (h : Items v l) : v.len = .ok l.length := by cases h <;> simp [Val.len]

/-! ### the "id" -/

theorem dget_none {d : Dict} {k : PyStr} : dget? d k = none ↔ ∀ kv ∈ d, kv.1 ≠ k := by
  induction d with
  | nil => simp [dget?]
  | cons a t ih =>
    simp only [dget?, List.forall_mem_cons]
    by_cases h : a.1 = k
    · simp [h]
    · simp [h, ih]

theorem wId_says {v : Val} {id : Option Guid} (h : SaysId v id) : wId v = .ok (eOptGuid id) := by
  cases h with
  | absent h =>
    simp only [wId, Val.getD, dget_none.2 h]
    rfl
  | none h =>
    unfold At Val.get at h
    split at h
    · split at h
      · cases h
        rename_i hd
        simp only [wId, Val.getD, hd]
        rfl
      · cases h
    · cases h
  | some h hg =>
    unfold At Val.get at h
    split at h
    · split at h
      · cases h
        rename_i hd
        simp only [wId, Val.getD, hd]
        rw [wOptGuid_some _ (by rintro rfl; cases hg), wGuid_says hg]
        exact wcat2.2 ⟨[1], _, rfl, rfl, rfl⟩
      · cases h
    · cases h

theorem wId_plain {v : Val} {b : Bytes} (hp : PlainDoc v) (h : wId v = .ok b) : ∃ id, SaysId v id ∧ b = eOptGuid id := by
  unfold wId Val.getD at h
  cases v <;> try (cases h; done)
  rename_i d
  simp only at h
  cases hd : dget? d (P "id") with
  | none =>
    rw [hd] at h
    cases h
    exact ⟨none, .absent (dget_none.1 hd), rfl⟩
  | some x =>
    rw [hd] at h
    have ha : At (.dict d) "id" x := by simp only [At, Val.get, hd]
    simp only at h
    by_cases hx : x = .none
    · subst hx
      cases h
      exact ⟨none, .none ha, rfl⟩
    · rw [wOptGuid_some _ hx, wcat2] at h
      obtain ⟨c, e, h1, h2, rfl⟩ := h
      cases h1
      obtain ⟨g, h3, rfl⟩ := wGuid_plain (plain_at hp ha) h2
      exact ⟨some g, .some ha h3, rfl⟩

/-! ### composite fields -/

theorem wVectorDict_iff {v : Val} {b : Bytes} : wVectorDict v = .ok b ↔ ∃ x : Vec free, SaysVec v x ∧ b = eVec x := by
  unfold wVectorDict
  rw [wcat3]
  simp only [wAt_iff1, wDouble_iff]
  constructor
  · rintro ⟨_, _, _, ⟨a, h1, x, h2, rfl⟩, ⟨c, h3, y, h4, rfl⟩, ⟨d, h5, z, h6, rfl⟩, rfl⟩
    exact ⟨⟨x, y, z⟩, ⟨a, c, d, h1, h2, h3, h4, h5, h6⟩, rfl⟩
  · rintro ⟨⟨x, y, z⟩, ⟨a, c, d, h1, h2, h3, h4, h5, h6⟩, rfl⟩
    exact ⟨_, _, _, ⟨a, h1, x, h2, rfl⟩, ⟨c, h3, y, h4, rfl⟩, ⟨d, h5, z, h6, rfl⟩, rfl⟩

theorem wQuatDict_iff {v : Val} {b : Bytes} : wQuatDict v = .ok b ↔ ∃ x : Quat free, SaysQuat v x ∧ b = eQuat x := by
  unfold wQuatDict
  rw [wcat4]
  simp only [wAt_iff1, wDouble_iff]
  constructor
  · rintro ⟨_, _, _, _, ⟨a, h1, x, h2, rfl⟩, ⟨c, h3, y, h4, rfl⟩, ⟨d, h5, z, h6, rfl⟩, ⟨e, h7, w, h8, rfl⟩, rfl⟩
    exact ⟨⟨x, y, z, w⟩, ⟨a, c, d, e, h1, h2, h3, h4, h5, h6, h7, h8⟩, rfl⟩
  · rintro ⟨⟨x, y, z, w⟩, ⟨a, c, d, e, h1, h2, h3, h4, h5, h6, h7, h8⟩, rfl⟩
    exact ⟨_, _, _, _, ⟨a, h1, x, h2, rfl⟩, ⟨c, h3, y, h4, rfl⟩, ⟨d, h5, z, h6, rfl⟩, ⟨e, h7, w, h8, rfl⟩, rfl⟩

end Pal
