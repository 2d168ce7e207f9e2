import Verif.Lemmas.StableBlobs
import Verif.Lemmas.Packed
/-
Decoding and encoding again: foliage instances.  Every location without NaN or null can be
written.
-/

set_option linter.unusedSimpArgs false

namespace Pal
open Spec

variable {q : Prop} {an : Bool}

/-- Non-negative and not NaN. -/
def Nn : Num → Prop
  | .i n => 0 ≤ n
  | .f b => isNaN64 b = false ∧ sgn64 b = 0

/-- Not NaN. -/
def NotNan : Num → Prop
  | .i _ => True
  | .f b => isNaN64 b = false

theorem fin_iff (b : BitVec 64) : Finite64 b ↔ isNaN64 b = false ∧ isInf64 b = false := by
  constructor
  · exact finite_not_special b
  · rintro ⟨h1, h2⟩ h
    unfold isNaN64 isInf64 exp64 at *
    simp only [h, true_and, ne_eq, decide_eq_false_iff_not, not_not] at h1 h2
    exact h2 h1

theorem abs_nn {a : Num} (h : NotNan a) : Nn a.abs := by
  cases a with
  | i n => simp only [Num.abs, Nn]; omega
  | f b =>
    have ha := abs_bits b
    have hb := b.isLt
    simp only [NotNan, isNaN64, exp64, man64, decide_eq_false_iff_not] at h
    simp only [Num.abs, Nn, isNaN64, sgn64, exp64, man64, ha, decide_eq_false_iff_not]
    constructor
    · have e1 : b.toNat % 2 ^ 63 / 2 ^ 52 % 2 ^ 11 = b.toNat / 2 ^ 52 % 2 ^ 11 := by omega
      have e2 : b.toNat % 2 ^ 63 % 2 ^ 52 = b.toNat % 2 ^ 52 := by omega
      rw [e1, e2]; exact of_decide_eq_false h
    · omega

theorem fin_abs {a : Num} (h : NumFin a.abs) : NumFin a := by
  cases a with
  | i => trivial
  | f b =>
    have ha := abs_bits b
    simp only [Num.abs, NumFin, Finite64, ha] at h ⊢
    omega

theorem lt_bound {m : Num} (h : Nn m) {N : Int} (hl : m.lt (.i N) = true) : NumFin m ∧ numVal m < N := by
  have hf : NumFin m := by
    cases m with
    | i => trivial
    | f b =>
      rw [NumFin, fin_iff]
      refine ⟨h.1, ?_⟩
      cases hi : isInf64 b with
      | false => rfl
      | true =>
        simp only [Num.lt, h.1, hi, Bool.false_eq_true, if_false, if_true, h.2] at hl
        simp at hl
  exact ⟨hf, (num_lt_spec _ (.i N) hf trivial).1 hl⟩

theorem lt_false {p r : Num} (hp : Nn p) (hr : Nn r) (hf : NumFin p) (h : p.lt r = false) : NumFin r ∧ numVal r ≤ numVal p := by
  have hf' : NumFin r := by
    cases r with
    | i => trivial
    | f b =>
      rw [NumFin, fin_iff]
      refine ⟨hr.1, ?_⟩
      cases hi : isInf64 b with
      | false => rfl
      | true =>
        cases p with
        | i n => simp only [Num.lt, hr.1, hi, Bool.false_eq_true, if_false, if_true, hr.2] at h; simp at h
        | f c =>
          obtain ⟨-, c2⟩ := finite_not_special c hf
          simp only [Num.lt, hp.1, hr.1, c2, hi, Bool.or_self, Bool.false_eq_true, if_false, if_true, hr.2] at h; simp at h
  refine ⟨hf', ?_⟩
  have := (num_lt_spec p r hf hf').not.1 (by rw [h]; simp)
  exact not_lt.1 this

theorem lt_true {p r : Num} (hp : Nn p) (hr : Nn r) (hf : NumFin r) (h : p.lt r = true) : NumFin p ∧ numVal p ≤ numVal r := by
  have hf' : NumFin p := by
    cases p with
    | i => trivial
    | f b =>
      rw [NumFin, fin_iff]
      refine ⟨hp.1, ?_⟩
      cases hi : isInf64 b with
      | false => rfl
      | true =>
        cases r with
        | i n => simp only [Num.lt, hp.1, hi, Bool.false_eq_true, if_false, if_true, hp.2] at h; simp at h
        | f c =>
          simp only [Num.lt, hp.1, hr.1, hi, Bool.or_self, Bool.false_eq_true, if_false, if_true, hp.2] at h; simp at h
  exact ⟨hf', le_of_lt ((num_lt_spec p r hf' hf).1 h)⟩

theorem max3_bound {a b c : Num} (ha : Nn a) (hb : Nn b) (hc : Nn c) {N : Int} (h : (Num.max3 a b c).lt (.i N) = true) :
    (NumFin a ∧ numVal a < N) ∧ (NumFin b ∧ numVal b < N) ∧ (NumFin c ∧ numVal c < N) := by
  have two : ∀ {p r : Num}, Nn p → Nn r → (NumFin (if p.lt r then r else p) ∧ numVal (if p.lt r then r else p) < N) →
      (NumFin p ∧ numVal p < N) ∧ (NumFin r ∧ numVal r < N) := by
    intro p r hp hr h
    cases e : p.lt r with
    | true =>
      rw [e, if_pos rfl] at h
      obtain ⟨h1, h2⟩ := lt_true hp hr h.1 e
      exact ⟨⟨h1, lt_of_le_of_lt h2 h.2⟩, h⟩
    | false =>
      rw [e, if_neg (by simp)] at h
      obtain ⟨h1, h2⟩ := lt_false hp hr h.1 e
      exact ⟨h, h1, lt_of_le_of_lt h2 h.2⟩
  have hm : Nn (if a.lt b then b else a) := by split <;> assumption
  have hM : Nn (Num.max3 a b c) := by unfold Num.max3; simp only; split <;> split <;> assumption
  obtain ⟨h1, h2⟩ := two hm hc (lt_bound hM h)
  obtain ⟨h3, h4⟩ := two ha hb h1
  exact ⟨h3, h4, h2⟩

theorem value_lt (b : BitVec 64) (h : Finite64 b) : |value64 b| < 2 ^ (1024 : Int) := by
  rw [abs_value]
  have hn : (num64 b).natAbs < 2 ^ 53 := by
    unfold num64
    have := (fields64 b).2.2.1
    simp only
    split <;> split <;> omega
  have hs : scale64 b ≤ 971 := by
    unfold scale64 exp64
    unfold Finite64 at h
    split <;> omega
  have h2 : (0 : ℚ) < 2 ^ scale64 b := zpow_pos (by norm_num) _
  have h3 : (2 : ℚ) ^ scale64 b ≤ 2 ^ (971 : Int) := zpow_le_zpow_right₀ (by norm_num) hs
  have h4 : (((num64 b).natAbs : Nat) : ℚ) < 2 ^ (53 : Int) := by
    rw [show (2 : ℚ) ^ (53 : Int) = ((2 ^ 53 : Nat) : ℚ) by norm_num]
    exact_mod_cast hn
  calc (((num64 b).natAbs : Nat) : ℚ) * 2 ^ scale64 b < 2 ^ (53 : Int) * 2 ^ scale64 b := by
        exact mul_lt_mul_of_pos_right h4 h2
    _ ≤ 2 ^ (53 : Int) * 2 ^ (971 : Int) := by
        exact mul_le_mul_of_nonneg_left h3 (le_of_lt (zpow_pos (by norm_num) _))
    _ = 2 ^ (1024 : Int) := by rw [← zpow_add₀ two_ne]; norm_num

/-- Multiplication by one keeps infinities and finite values. -/
theorem mulOne {a : Num} (h : NotNan a) : NotNan (a.mulInt 1) ∧
    (NumFin (a.mulInt 1) → NumFin a ∧ numVal (a.mulInt 1) = numVal a) := by
  cases a with
  | i n => exact ⟨trivial, fun _ => ⟨trivial, by simp [Num.mulInt, numVal]⟩⟩
  | f b =>
    simp only [Num.mulInt, one_f64, NotNan, NumFin, numVal] at h ⊢
    cases hi : isInf64 b with
    | false =>
      have hf : Finite64 b := (fin_iff b).2 ⟨h, hi⟩
      obtain ⟨h1, h2⟩ := fmul_one b hf (value_lt b hf)
      exact ⟨(finite_not_special _ h1).1, fun _ => ⟨hf, h2⟩⟩
    | true =>
      have e : fmul b 0x3ff0000000000000#64 = mk64 ((sgn64 b + sgn64 0x3ff0000000000000#64) % 2) 2047 0 := by
        have h1 : isNaN64 0x3ff0000000000000#64 = false := by decide +kernel
        have h2 : num64 0x3ff0000000000000#64 ≠ 0 := by decide +kernel
        unfold fmul
        rw [h, hi, h1]
        simp only [Bool.false_eq_true, if_false, true_or, if_true, not_true_eq_false, and_false, h2, false_and, or_self]
      rw [e]
      have hs : ∀ s, s < 2 → isNaN64 (mk64 s 2047 0) = false ∧ ¬ Finite64 (mk64 s 2047 0) := by
        intro s hs
        have : s = 0 ∨ s = 1 := by omega
        rcases this with rfl | rfl
        · exact ⟨by decide +kernel, by unfold Finite64; decide +kernel⟩
        · exact ⟨by decide +kernel, by unfold Finite64; decide +kernel⟩
      obtain ⟨h1, h2⟩ := hs _ (Nat.mod_lt _ (by norm_num))
      exact ⟨h1, fun h3 => absurd h3 h2⟩

theorem trunc_bound {a : Num} (h : NumFin a) (hv : |numVal a| < 2 ^ 62) : ∃ t : Int, a.trunc = .ok t ∧ t.natAbs < 2 ^ 62 := by
  cases a with
  | i n =>
    refine ⟨n, rfl, ?_⟩
    rw [numVal, ← Int.cast_abs, Int.abs_eq_natAbs] at hv
    exact_mod_cast hv
  | f b =>
    obtain ⟨t, h1, h2⟩ := truncF_spec b h
    refine ⟨t, by simp only [Num.trunc, h1], ?_⟩
    have : |(t : ℚ)| < 2 ^ 62 := by
      simp only [numVal] at hv
      refine lt_of_le_of_lt ?_ hv
      rcases le_total 0 (value64 b) with h0 | h0
      · obtain ⟨h3, h4⟩ := h2.1 h0
        have : (-1 : ℚ) < t := by linarith
        have : (-1 : Int) < t := by exact_mod_cast this
        have : (0 : ℚ) ≤ t := by exact_mod_cast (by omega : 0 ≤ t)
        rw [abs_of_nonneg this, abs_of_nonneg h0]; exact h3
      · obtain ⟨h3, h4⟩ := h2.2 h0
        have : (t : ℚ) < 1 := by linarith
        have : t < 1 := by exact_mod_cast this
        have : (t : ℚ) ≤ 0 := by exact_mod_cast (by omega : t ≤ 0)
        rw [abs_of_nonpos this, abs_of_nonpos h0]; linarith
    rw [← Int.cast_abs, Int.abs_eq_natAbs] at this
    exact_mod_cast this

/-- Integers up to `2^62` are converted to doubles. -/
theorem intToF64_some {n : Int} (h : n.natAbs ≤ 2 ^ 62) : ∃ b, intToF64 n = some b := by
  have hr : roundMag n.natAbs 1 < 2047 * 2 ^ 52 := by
    generalize n.natAbs = k at h
    by_cases h0 : k = 0
    · subst h0; rw [roundMag_zero]; norm_num
    obtain ⟨l1, l2⟩ := leadExp_spec k 1 h0 (by norm_num)
    obtain ⟨e, q, he, hr, hq, -⟩ := roundMag_spec k 1 h0 (by norm_num)
    have hk : (k : ℚ) ≤ 2 ^ (62 : Int) := by
      rw [show (2 : ℚ) ^ (62 : Int) = ((2 ^ 62 : Nat) : ℚ) by norm_num]
      exact_mod_cast h
    have hk1 : (1 : ℚ) ≤ k := by exact_mod_cast (by omega : 1 ≤ k)
    rw [Nat.cast_one, div_one] at l1 l2 hq
    have hl : leadExp k 1 ≤ 62 := by
      have := _root_.le_trans l1 hk
      exact (zpow_le_zpow_iff_right₀ (by norm_num : (1 : ℚ) < 2)).1 this
    have hl0 : 0 ≤ leadExp k 1 := by
      have : (2 : ℚ) ^ (0 : Int) < 2 ^ (leadExp k 1 + 1) := by rw [zpow_zero]; exact lt_of_le_of_lt hk1 l2
      have := (zpow_lt_zpow_iff_right₀ (by norm_num : (1 : ℚ) < 2)).1 this
      omega
    have he' : e = leadExp k 1 - 52 := by omega
    have hq' : (k : ℚ) / 2 ^ e < 2 ^ (53 : Int) := by
      rw [div_lt_iff₀ (zpow_pos (by norm_num) _), ← zpow_add₀ two_ne]
      have : 53 + e = leadExp k 1 + 1 := by omega
      rw [this]; exact l2
    have hq2 : (q : ℚ) < ((2 ^ 53 + 1 : Nat) : ℚ) := by
      have h1 := (abs_le.1 hq).2
      rw [show (2 : ℚ) ^ (53 : Int) = ((2 ^ 53 : Nat) : ℚ) by norm_num] at hq'
      push_cast at hq' ⊢
      linarith
    have hq3 : q < 2 ^ 53 + 1 := by exact_mod_cast hq2
    rw [hr]
    have : (e + 1074).toNat ≤ 1084 := by omega
    omega
  unfold intToF64
  simp only
  rw [if_pos hr]
  exact ⟨_, rfl⟩

/-- Components that can be written: not NaN, and an int must be moderate. -/
def Packable : Val → Prop
  | .int n => n.natAbs ≤ 2 ^ 62
  | .float b => isNaN64 b = false
  | _ => False

theorem packable_num {v : Val} (h : Packable v) : ∃ a, numOf v = .ok a ∧ NotNan a ∧ ∃ b, wDouble a.toVal = .ok b := by
  cases v with
  | int n =>
    obtain ⟨b, hb⟩ := intToF64_some h
    exact ⟨.i n, rfl, trivial, leBytes 8 b.toNat, by simp only [Num.toVal, wDouble, asF64, hb]⟩
  | float b => exact ⟨.f b, rfl, h, _, rfl⟩
  | _ => exact h.elim

theorem packable_write {x y z : Val} (hx : Packable x) (hy : Packable y) (hz : Packable z) :
    ∃ b, wPackedVector 1 x y z = .ok b := by
  obtain ⟨a, a1, a2, a3, a4⟩ := packable_num hx
  obtain ⟨b, b1, b2, b3, b4⟩ := packable_num hy
  obtain ⟨c, c1, c2, c3, c4⟩ := packable_num hz
  unfold wPackedVector
  rw [a1, b1, c1]
  simp only [bind, Except.bind]
  cases hm : (Num.max3 (a.mulInt 1).abs (b.mulInt 1).abs (c.mulInt 1).abs).lt (.i (2 ^ 62)) with
  | false =>
    have h1 : wU32 (.int 64) = .ok [64, 0, 0, 0] := by decide +kernel
    rw [if_neg (by simp), h1, a4, b4, c4]
    simp only [wcat_ok_cons, wcat_nil]
    exact ⟨_, rfl⟩
  | true =>
    rw [if_pos rfl]
    obtain ⟨⟨ha, ha'⟩, ⟨hb, hb'⟩, ⟨hc, hc'⟩⟩ := max3_bound (abs_nn (mulOne a2).1) (abs_nn (mulOne b2).1) (abs_nn (mulOne c2).1) hm
    have key : ∀ {n : Num} (s : Bool), NotNan n → NumFin (n.mulInt 1).abs → numVal (n.mulInt 1).abs < ((2 ^ 62 : Int) : ℚ) →
        ∃ t : Int, (if s then n.mulInt 1 else n).trunc = .ok t ∧ t.natAbs < 2 ^ 62 := by
      intro n s h1 h2 h3
      have h4 := fin_abs h2
      obtain ⟨h5, h6⟩ := (mulOne h1).2 h4
      have h7 := (num_abs_spec _ h4).2
      rw [h7] at h3
      push_cast at h3
      cases s with
      | true => exact trunc_bound h4 h3
      | false => exact trunc_bound (a := n) h5 (by rw [← h6]; exact h3)
    generalize (Num.min3 a.abs b.abs c.abs).lt (.i (2 ^ 52)) = s
    obtain ⟨tx, t1, t2⟩ := key s a2 ha ha'
    obtain ⟨ty, t3, t4⟩ := key s b2 hb hb'
    obtain ⟨tz, t5, t6⟩ := key s c2 hc hc'
    rw [t1, t3, t5]
    simp only
    have px := bitsNeeded_pos tx
    have h63 : ∀ v : Int, v.natAbs < 2 ^ 62 → bitsNeeded v ≤ 63 := by
      intro v hv
      refine (bitsNeeded_le v 63 (by norm_num) hv).2 ?_
      unfold FitsBits
      norm_num
      omega
    have q1 := h63 tx t2
    have q2 := h63 ty t4
    have q3 := h63 tz t6
    generalize hk : max (max (bitsNeeded tx) (bitsNeeded ty)) (bitsNeeded tz) = k
    have f1 : FitsBits k tx := (bitsNeeded_le _ _ (by omega) t2).1 (by omega)
    have f2 : FitsBits k ty := (bitsNeeded_le _ _ (by omega) t4).1 (by omega)
    have f3 : FitsBits k tz := (bitsNeeded_le _ _ (by omega) t6).1 (by omega)
    rw [wSerializeInt_eq k tx (by omega) f1, wSerializeInt_eq k ty (by omega) f2, wSerializeInt_eq k tz (by omega) f3]
    have hu : ∃ b, wU32 (.int ((if s then 64 else 0) ||| k : Nat)) = .ok b := by
      have : ((if s then 64 else 0) ||| k : Nat) < 2 ^ 32 := by
        have : ((if s then 64 else 0) ||| k : Nat) < 2 ^ 7 := by
          refine Nat.or_lt_two_pow ?_ (by omega)
          split <;> norm_num
        omega
      exact ⟨_, wU32_nat _ this⟩
    obtain ⟨u, hu⟩ := hu
    rw [hu]
    simp only [wcat_ok_cons, wcat_nil]
    exact ⟨_, rfl⟩

/-! ### reading -/

/-- Not a number: NaN, or the null that stands for an infinity. -/
def NoNumber (v : Val) : Prop := v = .none ∨ ∃ b, v = .float b ∧ isNaN64 b = true

theorem packable_float (b : BitVec 64) : Packable (.float b) ∨ NoNumber (.float b) := by
  cases h : isNaN64 b with
  | true => exact .inr (.inr ⟨b, rfl, h⟩)
  | false => exact .inl h

theorem packable_floatVal (b : BitVec 64) : Packable (floatVal an b) ∨ NoNumber (floatVal an b) := by
  unfold floatVal
  split
  · exact packable_float b
  · split
    · exact .inr (.inl rfl)
    · exact packable_float b

theorem packable_rFloat {s s' : Bytes} {v : Val} (h : rFloat an s = .ok (v, s')) : Packable v ∨ NoNumber v := by
  obtain ⟨n, s1, -, h⟩ := r_bind_inv h
  obtain ⟨rfl, -⟩ := r_pure_inv h
  exact packable_floatVal _

theorem packable_rDouble {s s' : Bytes} {v : Val} (h : rDouble an s = .ok (v, s')) : Packable v ∨ NoNumber v := by
  obtain ⟨n, s1, -, h⟩ := r_bind_inv h
  obtain ⟨rfl, -⟩ := r_pure_inv h
  exact packable_floatVal _

theorem signExtend_bound (k x : Nat) (hk : k ≤ 63) : (signExtend k x).natAbs ≤ 2 ^ 62 := by
  unfold signExtend
  have h1 : x &&& (2 ^ (k - 1) - 1) ≤ 2 ^ (k - 1) - 1 := Nat.and_le_right
  have h2 : x &&& 2 ^ (k - 1) ≤ 2 ^ (k - 1) := Nat.and_le_right
  have h3 : 2 ^ (k - 1) ≤ 2 ^ 62 := Nat.pow_le_pow_right (by norm_num) (by omega)
  omega

theorem packed_components {s s' : Bytes} {x y z : Val} (h : rPackedVector an 1 s = .ok ((x, y, z), s')) :
    (Packable x ∨ NoNumber x) ∧ (Packable y ∨ NoNumber y) ∧ (Packable z ∨ NoNumber z) := by
  obtain ⟨info, s1, -, h⟩ := r_bind_inv h
  have h63 : info &&& 63 ≤ 63 := Nat.and_le_right
  simp only at h
  generalize info &&& 63 = k at *
  by_cases h1 : k > 0
  · rw [if_pos h1] at h
    obtain ⟨a, t1, -, h⟩ := r_bind_inv h
    obtain ⟨b, t2, -, h⟩ := r_bind_inv h
    obtain ⟨c, t3, -, h⟩ := r_bind_inv h
    by_cases h2 : info >>> 6 ≠ 0
    · rw [if_pos h2] at h
      obtain ⟨e, -⟩ := r_pure_inv h
      cases e
      exact ⟨packable_float _, packable_float _, packable_float _⟩
    · rw [if_neg h2] at h
      obtain ⟨e, -⟩ := r_pure_inv h
      cases e
      exact ⟨.inl (signExtend_bound _ _ h63), .inl (signExtend_bound _ _ h63), .inl (signExtend_bound _ _ h63)⟩
  · rw [if_neg h1] at h
    by_cases h2 : info >>> 6 ≠ 0
    · rw [if_pos h2] at h
      obtain ⟨a, t1, k1, h⟩ := r_bind_inv h
      obtain ⟨b, t2, k2, h⟩ := r_bind_inv h
      obtain ⟨c, t3, k3, h⟩ := r_bind_inv h
      obtain ⟨e, -⟩ := r_pure_inv h
      cases e
      exact ⟨packable_rDouble k1, packable_rDouble k2, packable_rDouble k3⟩
    · rw [if_neg h2] at h
      obtain ⟨a, t1, k1, h⟩ := r_bind_inv h
      obtain ⟨b, t2, k2, h⟩ := r_bind_inv h
      obtain ⟨c, t3, k3, h⟩ := r_bind_inv h
      obtain ⟨e, -⟩ := r_pure_inv h
      cases e
      exact ⟨packable_rFloat k1, packable_rFloat k2, packable_rFloat k3⟩

theorem shortAngle_lt {s s' : Bytes} {n : Nat} (h : rShortAngle s = .ok (n, s')) : n < 65536 := by
  obtain ⟨b, s1, -, h⟩ := r_bind_inv h
  cases b with
  | true =>
    have h' : rU16 s1 = .ok (n, s') := h
    have := (inv_unsigned h').1
    have e : (256 : Nat) ^ 2 = 65536 := by norm_num
    omega
  | false =>
    obtain ⟨rfl, -⟩ := r_pure_inv h
    omega

theorem rFloat_writes {s s' : Bytes} {v : Val} (h : rFloat an s = .ok (v, s')) : ∃ b, wFloat v = .ok b := by
  obtain ⟨n, s1, -, h2⟩ := r_bind_inv h
  obtain ⟨rfl, rfl⟩ := r_pure_inv h2
  unfold floatVal
  split
  · exact ⟨_, rfl⟩
  · split <;> exact ⟨_, rfl⟩

theorem rI32_writes {s s' : Bytes} {i : Int} (h : rI32 s = .ok (i, s')) : ∃ b, wI32 (.int i) = .ok b := by
  obtain ⟨n, h1, h2, h3⟩ := inv_signed h
  refine ⟨_, wSigned_in 4 i ?_⟩
  have : (n : Int) < 256 ^ 4 := by exact_mod_cast h1
  split at h2
  · rename_i hn
    have : (2 * n : Int) < 256 ^ 4 := by exact_mod_cast hn
    omega
  · rename_i hn
    have : ¬ (2 * n : Int) < 256 ^ 4 := by exact_mod_cast hn
    omega

/-- A foliage instance can be encoded unless its location has a component that is no number. -/
theorem foliage_resave {s s' : Bytes} {v : Val} (hs : s.length < 2 ^ 32) (h : foliageInstanceDecode an s = .ok (v, s')) :
    (∃ k ∈ ["x", "y", "z"], ∃ c, v.path (["world_transform", "location", k].map P) = .ok c ∧ NoNumber c) ∨
      ∃ b, foliageInstanceEncode v = .ok b := by
  obtain ⟨g, s1, k1, h⟩ := r_bind_inv h
  obtain ⟨⟨p, y, r⟩, s2, k2, h⟩ := r_bind_inv h
  obtain ⟨⟨lx, ly, lz⟩, s3, k3, h⟩ := r_bind_inv h
  obtain ⟨sc, s4, k4, h⟩ := r_bind_inv h
  obtain ⟨hp, s5, k5, h⟩ := r_bind_inv h
  obtain ⟨_, s6, k6, h⟩ := r_bind_inv h
  obtain ⟨rfl, rfl⟩ := r_pure_inv h
  obtain ⟨b1, w1, l1, -⟩ := st_guid (q := False) _ _ _ hs k1
  have hrot : ∃ b, wRotator p y r = .ok b := by
    obtain ⟨np, t1, j1, k2⟩ := r_bind_inv k2
    obtain ⟨ny, t2, j2, k2⟩ := r_bind_inv k2
    obtain ⟨nr, t3, j3, k2⟩ := r_bind_inv k2
    obtain ⟨e, -⟩ := r_pure_inv k2
    cases e
    exact ⟨_, rotator_write _ _ _ (shortAngle_lt j1) (shortAngle_lt j2) (shortAngle_lt j3)⟩
  obtain ⟨b2, w2⟩ := hrot
  obtain ⟨b4, w4⟩ := rFloat_writes k4
  obtain ⟨b5, w5⟩ := rI32_writes k5
  obtain ⟨hx, hy, hz⟩ := packed_components k3
  rcases hx with hx | hx
  · rcases hy with hy | hy
    · rcases hz with hz | hz
      · obtain ⟨b3, w3⟩ := packable_write hx hy hz
        refine .inr ⟨b1 ++ (b2 ++ (b3 ++ (b4 ++ b5))), ?_⟩
        simp only [foliageInstanceEncode, wAt3, List.map_cons, List.map_nil, List.cons_append, List.nil_append, Val.path,
          dct_eq, wAt_cons, wAt_nil, get_vDict_cons, String.reduceEq, ↓reduceIte, w1, w2, w3, w4, w5, wcat_ok_cons, wcat_nil,
          List.append_nil]
      · refine .inl ⟨"z", by simp, lz, ?_, hz⟩
        simp only [List.map_cons, List.map_nil, Val.path, dct_eq, get_vDict_cons, String.reduceEq, ↓reduceIte]
    · refine .inl ⟨"y", by simp, ly, ?_, hy⟩
      simp only [List.map_cons, List.map_nil, Val.path, dct_eq, get_vDict_cons, String.reduceEq, ↓reduceIte]
  · refine .inl ⟨"x", by simp, lx, ?_, hx⟩
    simp only [List.map_cons, List.map_nil, Val.path, dct_eq, get_vDict_cons, String.reduceEq, ↓reduceIte]

end Pal
