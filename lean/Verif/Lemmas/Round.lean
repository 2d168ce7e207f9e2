import Mathlib.Data.Int.Log
import Mathlib.Tactic.Ring
import Mathlib.Tactic.Linarith
import Mathlib.Tactic.NormNum
import Mathlib.Tactic.FieldSimp
import Mathlib.Tactic.Positivity
import Verif.Model.Float
import Verif.Spec.Value
import Verif.Lemmas.Float
/-
Correct rounding of `roundMag` and its consequences.
-/

namespace Pal
open Spec

theorem two_ne : (2 : ℚ) ≠ 0 := by norm_num

/-- `2^k` as an integer power, for a non-negative exponent. -/
theorem zpow_toNat (e : Int) (h : 0 ≤ e) : (2 : ℚ) ^ e = ((2 ^ e.toNat : Nat) : ℚ) := by
  obtain ⟨n, rfl⟩ := Int.eq_ofNat_of_zero_le h
  simp

/-- The leading exponent computed by `roundMag`. -/
def leadExp (n d : Nat) : Int :=
  let l : Int := (Nat.log2 n : Int) - (Nat.log2 d : Int)
  if 0 ≤ l then (if d * 2 ^ l.toNat ≤ n then l else l - 1)
  else (if d ≤ n * 2 ^ (-l).toNat then l else l - 1)

theorem log2_bounds (n : Nat) (h : n ≠ 0) : (2 : ℚ) ^ (Nat.log2 n : Int) ≤ n ∧ (n : ℚ) < 2 ^ ((Nat.log2 n : Int) + 1) := by
  constructor
  · have := Nat.log2_self_le h
    rw [zpow_natCast]
    exact_mod_cast this
  · have := @Nat.lt_log2_self n
    rw [show ((Nat.log2 n : Int) + 1) = ((Nat.log2 n + 1 : Nat) : Int) by push_cast; rfl, zpow_natCast]
    exact_mod_cast this

theorem leadExp_spec (n d : Nat) (hn : n ≠ 0) (hd : d ≠ 0) :
    (2 : ℚ) ^ leadExp n d ≤ (n : ℚ) / d ∧ (n : ℚ) / d < 2 ^ (leadExp n d + 1) := by
  obtain ⟨n1, n2⟩ := log2_bounds n hn
  obtain ⟨d1, d2⟩ := log2_bounds d hd
  have hdq : (0 : ℚ) < d := by exact_mod_cast Nat.pos_of_ne_zero hd
  -- general bounds with l
  have hub : (n : ℚ) / d < 2 ^ ((Nat.log2 n : Int) - (Nat.log2 d : Int) + 1) := by
    rw [div_lt_iff₀ hdq]
    calc (n : ℚ) < 2 ^ ((Nat.log2 n : Int) + 1) := n2
      _ = 2 ^ ((Nat.log2 n : Int) - (Nat.log2 d : Int) + 1) * 2 ^ (Nat.log2 d : Int) := by
        rw [← zpow_add₀ two_ne]; congr 1; ring
      _ ≤ _ := by
        apply mul_le_mul_of_nonneg_left d1
        exact zpow_nonneg (by norm_num) _
  have hlb : (2 : ℚ) ^ ((Nat.log2 n : Int) - (Nat.log2 d : Int) - 1) ≤ (n : ℚ) / d := by
    rw [le_div_iff₀ hdq]
    calc (2 : ℚ) ^ ((Nat.log2 n : Int) - (Nat.log2 d : Int) - 1) * d
        ≤ 2 ^ ((Nat.log2 n : Int) - (Nat.log2 d : Int) - 1) * 2 ^ ((Nat.log2 d : Int) + 1) := by
          apply mul_le_mul_of_nonneg_left d2.le
          exact zpow_nonneg (by norm_num) _
      _ = 2 ^ (Nat.log2 n : Int) := by
        rw [← zpow_add₀ two_ne]; congr 1; ring
      _ ≤ n := n1
  unfold leadExp
  generalize hl : (Nat.log2 n : Int) - (Nat.log2 d : Int) = l at *
  simp only
  by_cases h0 : 0 ≤ l
  · rw [if_pos h0]
    by_cases h1 : d * 2 ^ l.toNat ≤ n
    · rw [if_pos h1]
      refine ⟨?_, hub⟩
      rw [le_div_iff₀ hdq, zpow_toNat l h0]
      have : ((d * 2 ^ l.toNat : Nat) : ℚ) ≤ n := by exact_mod_cast h1
      rw [Nat.cast_mul] at this
      linarith
    · rw [if_neg h1]
      refine ⟨hlb, ?_⟩
      rw [div_lt_iff₀ hdq, sub_add_cancel, zpow_toNat l h0]
      have : (n : ℚ) < ((d * 2 ^ l.toNat : Nat) : ℚ) := by exact_mod_cast not_le.1 h1
      rw [Nat.cast_mul] at this
      linarith
  · rw [if_neg h0]
    have hp : (2 : ℚ) ^ l * 2 ^ (-l) = 1 := by
      rw [← zpow_add₀ two_ne, add_neg_cancel, zpow_zero]
    have hpos : (0 : ℚ) < 2 ^ l := zpow_pos (by norm_num) _
    have hz := zpow_toNat (-l) (by omega)
    by_cases h1 : d ≤ n * 2 ^ (-l).toNat
    · rw [if_pos h1]
      refine ⟨?_, hub⟩
      rw [le_div_iff₀ hdq]
      have : (d : ℚ) ≤ ((n * 2 ^ (-l).toNat : Nat) : ℚ) := by exact_mod_cast h1
      rw [Nat.cast_mul, ← hz] at this
      calc (2 : ℚ) ^ l * d ≤ 2 ^ l * (n * 2 ^ (-l)) := mul_le_mul_of_nonneg_left this hpos.le
        _ = n * (2 ^ l * 2 ^ (-l)) := by ring
        _ = n := by rw [hp, mul_one]
    · rw [if_neg h1]
      refine ⟨hlb, ?_⟩
      rw [div_lt_iff₀ hdq, sub_add_cancel]
      have : ((n * 2 ^ (-l).toNat : Nat) : ℚ) < d := by exact_mod_cast not_le.1 h1
      rw [Nat.cast_mul, ← hz] at this
      calc (n : ℚ) = n * (2 ^ l * 2 ^ (-l)) := by rw [hp, mul_one]
        _ = 2 ^ l * (n * 2 ^ (-l)) := by ring
        _ < 2 ^ l * d := mul_lt_mul_of_pos_left this hpos

/-- Uniqueness of the binade. -/
theorem binade_unique (v : ℚ) (a b : Int) (h1 : (2 : ℚ) ^ a ≤ v) (h2 : v < 2 ^ (a + 1))
    (h3 : (2 : ℚ) ^ b ≤ v) (h4 : v < 2 ^ (b + 1)) : a = b := by
  have hlt : ∀ x y : Int, (2 : ℚ) ^ x < 2 ^ y → x < y := by
    intro x y h
    exact (zpow_lt_zpow_iff_right₀ (by norm_num : (1 : ℚ) < 2)).1 h
  have := hlt _ _ (lt_of_le_of_lt h1 h4)
  have := hlt _ _ (lt_of_le_of_lt h3 h2)
  omega

/-- Round-half-even quotient. -/
def rhe (num den : Nat) : Nat :=
  if 2 * (num % den) > den ∨ (2 * (num % den) = den ∧ num / den % 2 = 1) then num / den + 1 else num / den

theorem rhe_near (num den : Nat) (hd : 0 < den) : |((rhe num den : Nat) : ℚ) - (num : ℚ) / den| ≤ 1 / 2 := by
  have hdq : (0 : ℚ) < den := by exact_mod_cast hd
  have hdm : (num : ℚ) = den * (num / den : Nat) + (num % den : Nat) := by
    exact_mod_cast (Nat.div_add_mod num den).symm
  have hlt := Nat.mod_lt num hd
  have hq : (num : ℚ) / den = (num / den : Nat) + ((num % den : Nat) : ℚ) / den := by
    conv => lhs; rw [hdm]
    field_simp
  unfold rhe
  split
  · rename_i h
    have hr : (den : ℚ) ≤ 2 * (num % den : Nat) := by
      have : den ≤ 2 * (num % den) := by omega
      exact_mod_cast this
    have hr2 : ((num % den : Nat) : ℚ) < den := by exact_mod_cast hlt
    rw [hq, abs_le]
    push_cast
    constructor
    · have : ((num % den : Nat) : ℚ) / den ≤ 1 := by rw [div_le_one hdq]; exact hr2.le
      linarith
    · have : (1 : ℚ) / 2 ≤ ((num % den : Nat) : ℚ) / den := by rw [le_div_iff₀ hdq]; linarith
      linarith
  · rename_i h
    have hr : 2 * ((num % den : Nat) : ℚ) ≤ den := by
      have : 2 * (num % den) ≤ den := by omega
      exact_mod_cast this
    have h0 : (0 : ℚ) ≤ ((num % den : Nat) : ℚ) / den := by positivity
    rw [hq, abs_le]
    constructor
    · have : ((num % den : Nat) : ℚ) / den ≤ 1 / 2 := by rw [div_le_iff₀ hdq]; linarith
      linarith
    · linarith

theorem rhe_exact (m den : Nat) (hd : 0 < den) : rhe (m * den) den = m := by
  unfold rhe
  rw [Nat.mul_mod_left, Nat.mul_div_cancel _ hd, if_neg]
  omega

/-- `rhe` rounds to nearest: an integer closer than one half is the result. -/
theorem rhe_unique (num den m : Nat) (hd : 0 < den) (h : |(m : ℚ) - (num : ℚ) / den| < 1 / 2) : rhe num den = m := by
  have h1 := rhe_near num den hd
  have h2 : |((rhe num den : Nat) : ℚ) - m| < 1 := by
    calc |((rhe num den : Nat) : ℚ) - m|
        = |(((rhe num den : Nat) : ℚ) - (num : ℚ) / den) - ((m : ℚ) - (num : ℚ) / den)| := by congr 1; ring
      _ ≤ |((rhe num den : Nat) : ℚ) - (num : ℚ) / den| + |(m : ℚ) - (num : ℚ) / den| := abs_sub _ _
      _ < 1 := by linarith
  have h3 : |((rhe num den : Nat) : Int) - (m : Int)| < 1 := by
    have : |(((rhe num den : Nat) : Int) : ℚ) - ((m : Int) : ℚ)| < ((1 : Int) : ℚ) := by
      simpa using h2
    exact_mod_cast this
  rw [abs_lt] at h3
  omega


theorem roundMag_eq (n d : Nat) (hn : n ≠ 0) :
    roundMag n d = (max (leadExp n d - 52) (-1074) + 1074).toNat * 2 ^ 52 +
      rhe (if max (leadExp n d - 52) (-1074) < 0 then n * 2 ^ (-(max (leadExp n d - 52) (-1074))).toNat else n)
        (if max (leadExp n d - 52) (-1074) < 0 then d else d * 2 ^ (max (leadExp n d - 52) (-1074)).toNat) := by
  rw [roundMag, if_neg hn]
  rfl

/-- The scaled quotient is `n / d / 2^e`. -/
theorem scaled_quot (n d : Nat) (e : Int) :
    (((if e < 0 then n * 2 ^ (-e).toNat else n : Nat) : ℚ) / ((if e < 0 then d else d * 2 ^ e.toNat : Nat) : ℚ)) =
      (n : ℚ) / d / 2 ^ e := by
  split
  · rename_i h
    rw [Nat.cast_mul, ← zpow_toNat (-e) (by omega), zpow_neg]
    field_simp
  · rename_i h
    rw [Nat.cast_mul, ← zpow_toNat e (by omega)]
    field_simp

/-- Correct rounding: the result is `q * 2^e` with `e` the exponent of the binade (but at
least -1074) and `q` the nearest integer to the scaled quotient. -/
theorem roundMag_spec (n d : Nat) (hn : n ≠ 0) (hd : d ≠ 0) :
    ∃ (e : Int) (q : Nat), e = max (leadExp n d - 52) (-1074) ∧
      roundMag n d = (e + 1074).toNat * 2 ^ 52 + q ∧
      |(q : ℚ) - (n : ℚ) / d / 2 ^ e| ≤ 1 / 2 ∧
      (∀ m : Nat, |(m : ℚ) - (n : ℚ) / d / 2 ^ e| < 1 / 2 → q = m) := by
  refine ⟨_, _, rfl, roundMag_eq n d hn, ?_, ?_⟩
  · rw [← scaled_quot]
    apply rhe_near
    split
    · omega
    · exact Nat.mul_pos (by omega) (Nat.pos_of_ne_zero (by simp))
  · intro m hm
    rw [← scaled_quot] at hm
    apply rhe_unique _ _ _ _ hm
    split
    · omega
    · exact Nat.mul_pos (by omega) (Nat.pos_of_ne_zero (by simp))

/-- Value of a magnitude given by exponent and significand. -/
theorem magValue_eq (e : Int) (q : Nat) (he : -1074 ≤ e) (hq : q ≤ 2 ^ 53) (hn : 2 ^ 52 ≤ q ∨ e = -1074) :
    magValue ((e + 1074).toNat * 2 ^ 52 + q) = q * (2 : ℚ) ^ e := by
  obtain ⟨k, hk⟩ : ∃ k : Nat, e = k - 1074 := ⟨(e + 1074).toNat, by omega⟩
  subst hk
  rw [show ((k : Int) - 1074 + 1074).toNat = k by omega]
  unfold magValue
  by_cases h1 : q < 2 ^ 52
  · have hk : k = 0 := by rcases hn with h | h <;> omega
    subst hk
    rw [if_pos (by omega), show (0 * 2 ^ 52 + q) % 2 ^ 52 = q by omega]
    norm_num
  · by_cases h2 : q < 2 ^ 53
    · rw [if_neg (by omega), show (k * 2 ^ 52 + q) / 2 ^ 52 = k + 1 by omega,
        show 2 ^ 52 + (k * 2 ^ 52 + q) % 2 ^ 52 = q by omega]
      congr 2
      push_cast
      ring
    · have : q = 2 ^ 53 := by omega
      subst this
      rw [if_neg (by omega), show (k * 2 ^ 52 + 2 ^ 53) / 2 ^ 52 = k + 2 by omega,
        show 2 ^ 52 + (k * 2 ^ 52 + 2 ^ 53) % 2 ^ 52 = 2 ^ 52 by omega,
        show (((k + 2 : Nat) : Int) - 1075) = ((k : Int) - 1074) + 1 by push_cast; ring, zpow_add₀ two_ne]
      push_cast
      ring

/-- Exactness: a quotient that is a representable number is not changed. -/
theorem roundMag_exact (n d m : Nat) (e : Int) (hn : n ≠ 0) (hd : d ≠ 0) (hm : m < 2 ^ 53) (he : -1074 ≤ e)
    (hnorm : 2 ^ 52 ≤ m ∨ e = -1074) (h : (n : ℚ) / d = m * 2 ^ e) :
    roundMag n d = (e + 1074).toNat * 2 ^ 52 + m := by
  have hm0 : m ≠ 0 := by
    rintro rfl
    rw [Nat.cast_zero, zero_mul, div_eq_zero_iff] at h
    rcases h with h | h
    · exact hn (by exact_mod_cast h)
    · exact hd (by exact_mod_cast h)
  obtain ⟨l1, l2⟩ := leadExp_spec n d hn hd
  obtain ⟨m1, m2⟩ := log2_bounds m hm0
  have hpos : (0 : ℚ) < 2 ^ e := zpow_pos (by norm_num) _
  have hlead : leadExp n d = Nat.log2 m + e := by
    apply binade_unique _ _ _ l1 l2
    · rw [h, zpow_add₀ two_ne]
      exact mul_le_mul_of_nonneg_right m1 hpos.le
    · rw [h, show (Nat.log2 m : Int) + e + 1 = (Nat.log2 m + 1) + e by ring, zpow_add₀ two_ne]
      exact mul_lt_mul_of_pos_right m2 hpos
  obtain ⟨e', q, he', hr, _, hq⟩ := roundMag_spec n d hn hd
  have hee : e' = e := by
    have hl53 : Nat.log2 m ≤ 52 := by
      have := (Nat.log2_lt hm0).2 hm
      omega
    rcases hnorm with h52 | h1074
    · have : 52 ≤ Nat.log2 m := (Nat.le_log2 hm0).2 h52
      rw [he', hlead]; omega
    · rw [he', hlead]; omega
  rw [hr, hee, hq m]
  rw [hee, h, mul_div_assoc, div_self hpos.ne', mul_one, sub_self, abs_zero]
  norm_num

/-- Any number `m * 2^x` with at most 53 significant bits is not changed (`x ≥ -1074`, below
the overflow threshold is not needed here). -/
theorem roundMag_repr (n d m : Nat) (x : Int) (hn : n ≠ 0) (hd : d ≠ 0) (hm : m < 2 ^ 53) (hx : -1074 ≤ x)
    (h : (n : ℚ) / d = m * 2 ^ x) : magValue (roundMag n d) = (n : ℚ) / d := by
  have hm0 : m ≠ 0 := by
    rintro rfl
    rw [Nat.cast_zero, zero_mul, div_eq_zero_iff] at h
    rcases h with h | h
    · exact hn (by exact_mod_cast h)
    · exact hd (by exact_mod_cast h)
  have hl53 : Nat.log2 m ≤ 52 := by
    have := (Nat.log2_lt hm0).2 hm
    omega
  -- shift to normal form
  obtain ⟨k, hk1, hk2⟩ : ∃ k : Nat, -1074 ≤ x - k ∧ (k = 52 - Nat.log2 m ∨ (k ≤ 52 - Nat.log2 m ∧ x - k = -1074)) := by
    by_cases hc : -1074 ≤ x - (52 - Nat.log2 m : Nat)
    · exact ⟨52 - Nat.log2 m, hc, .inl rfl⟩
    · exact ⟨(x + 1074).toNat, by omega, .inr ⟨by omega, by omega⟩⟩
  have hub : m * 2 ^ k < 2 ^ 53 := by
    have h1 : m < 2 ^ (Nat.log2 m + 1) := Nat.lt_log2_self
    have h2 : Nat.log2 m + 1 + k ≤ 53 := by omega
    calc m * 2 ^ k < 2 ^ (Nat.log2 m + 1) * 2 ^ k := Nat.mul_lt_mul_of_pos_right h1 (by positivity)
      _ = 2 ^ (Nat.log2 m + 1 + k) := (pow_add _ _ _).symm
      _ ≤ 2 ^ 53 := Nat.pow_le_pow_right (by norm_num) h2
  have hlb : 2 ^ 52 ≤ m * 2 ^ k ∨ x - k = -1074 := by
    rcases hk2 with rfl | ⟨_, h⟩
    · left
      calc 2 ^ 52 = 2 ^ Nat.log2 m * 2 ^ (52 - Nat.log2 m) := by rw [← pow_add]; congr 1; omega
        _ ≤ _ := Nat.mul_le_mul_right _ (Nat.log2_self_le hm0)
    · exact .inr h
  have hval : (n : ℚ) / d = (m * 2 ^ k : Nat) * 2 ^ (x - k) := by
    rw [h, zpow_sub₀ two_ne, zpow_natCast]
    push_cast
    field_simp
  rw [roundMag_exact n d (m * 2 ^ k) (x - k) hn hd hub hk1 hlb hval,
    magValue_eq _ _ hk1 hub.le hlb, hval]

/-- Relative error at most `2^-53` above the subnormal range. -/
theorem roundMag_rel (n d : Nat) (hn : n ≠ 0) (hd : d ≠ 0) (h : (2 : ℚ) ^ (-1022 : Int) ≤ (n : ℚ) / d) :
    |magValue (roundMag n d) - (n : ℚ) / d| ≤ (n : ℚ) / d * 2 ^ (-53 : Int) := by
  obtain ⟨l1, l2⟩ := leadExp_spec n d hn hd
  obtain ⟨e, q, he, hr, hq, hq2⟩ := roundMag_spec n d hn hd
  have hlead : -1022 ≤ leadExp n d := by
    have := lt_of_le_of_lt h l2
    rw [zpow_lt_zpow_iff_right₀ (by norm_num)] at this
    omega
  have hee : e = leadExp n d - 52 := by omega
  have hpos : (0 : ℚ) < 2 ^ e := zpow_pos (by norm_num) _
  have hle : (2 : ℚ) ^ (52 : Int) ≤ (n : ℚ) / d / 2 ^ e := by
    rw [le_div_iff₀ hpos, ← zpow_add₀ two_ne, hee]
    rw [show (52 : Int) + (leadExp n d - 52) = leadExp n d by ring]
    exact l1
  have hlt : (n : ℚ) / d / 2 ^ e < 2 ^ (53 : Int) := by
    rw [div_lt_iff₀ hpos, ← zpow_add₀ two_ne, hee]
    rw [show (53 : Int) + (leadExp n d - 52) = leadExp n d + 1 by ring]
    exact l2
  rw [abs_le] at hq
  have hq53 : q ≤ 2 ^ 53 := by
    have : (q : ℚ) < ((2 ^ 53 + 1 : Nat) : ℚ) := by
      push_cast
      have e53 : (2 : ℚ) ^ (53 : Int) = 2 ^ 53 := by norm_cast
      rw [e53] at hlt
      linarith [hq.2]
    have : q < 2 ^ 53 + 1 := by exact_mod_cast this
    omega
  have hq52 : 2 ^ 52 ≤ q := by
    have : ((2 ^ 52 - 1 : Nat) : ℚ) < (q : ℚ) := by
      have e52 : (2 : ℚ) ^ (52 : Int) = 2 ^ 52 := by norm_cast
      rw [e52] at hle
      rw [Nat.cast_sub (by norm_num)]
      push_cast
      linarith [hq.1]
    have : 2 ^ 52 - 1 < q := by exact_mod_cast this
    omega
  rw [hr, magValue_eq e q (by omega) hq53 (.inl hq52)]
  have hv : (q : ℚ) * 2 ^ e - (n : ℚ) / d = (q - (n : ℚ) / d / 2 ^ e) * 2 ^ e := by
    rw [sub_mul, div_mul_cancel₀ _ hpos.ne']
  rw [hv, abs_mul, abs_of_pos hpos]
  have h12 : |(q : ℚ) - (n : ℚ) / d / 2 ^ e| ≤ 1 / 2 := abs_le.2 hq
  calc |(q : ℚ) - (n : ℚ) / d / 2 ^ e| * 2 ^ e ≤ 1 / 2 * 2 ^ e := mul_le_mul_of_nonneg_right h12 hpos.le
    _ = 2 ^ leadExp n d * 2 ^ (-53 : Int) := by
      rw [← zpow_add₀ two_ne, hee, show leadExp n d + -53 = (leadExp n d - 52) + (-1) by ring, zpow_add₀ two_ne _ (-1)]
      norm_num
      ring
    _ ≤ (n : ℚ) / d * 2 ^ (-53 : Int) := mul_le_mul_of_nonneg_right l1 (zpow_nonneg (by norm_num) _)

/-! ### Values of bit patterns -/

theorem magValue_nonneg (r : Nat) : 0 ≤ magValue r := by
  unfold magValue
  split
  · exact mul_nonneg (by positivity) (zpow_nonneg (by norm_num) _)
  · exact mul_nonneg (by positivity) (zpow_nonneg (by norm_num) _)

theorem magValue_inf (r : Nat) (h : 2047 * 2 ^ 52 ≤ r) : (2 : ℚ) ^ (1024 : Int) ≤ magValue r := by
  have h1 : 2047 ≤ r / 2 ^ 52 := by omega
  unfold magValue
  rw [if_neg (by omega)]
  calc (2 : ℚ) ^ (1024 : Int) = 2 ^ (52 : Int) * 2 ^ ((2047 : Int) - 1075) := by
        rw [← zpow_add₀ two_ne]; norm_num
    _ ≤ (2 ^ 52 + r % 2 ^ 52 : Nat) * 2 ^ (((r / 2 ^ 52 : Nat) : Int) - 1075) := by
      apply mul_le_mul
      · have : (0 : ℚ) ≤ ((r % 2 ^ 52 : Nat) : ℚ) := Nat.cast_nonneg _
        rw [zpow_toNat 52 (by norm_num), Nat.cast_add]
        exact le_add_of_nonneg_right this
      · apply zpow_le_zpow_right₀ (by norm_num)
        omega
      · exact zpow_nonneg (by norm_num) _
      · positivity

theorem value64_eq (b : BitVec 64) : value64 b = (num64 b : ℚ) * 2 ^ scale64 b := by
  have hb := b.isLt
  unfold value64 num64 scale64 magValue sgn64 exp64 man64
  by_cases h : b.toNat < 2 ^ 63
  · rw [if_pos h]
    have h1 : b.toNat / 2 ^ 52 % 2 ^ 11 = b.toNat / 2 ^ 52 := by omega
    have h2 : b.toNat / 2 ^ 63 = 0 := by omega
    rw [h1]
    simp only [h2, if_true]
    generalize b.toNat / 2 ^ 52 = x
    generalize b.toNat % 2 ^ 52 = y
    split
    · rw [Int.cast_natCast]
    · rw [Nat.cast_add, Int.cast_add, Int.cast_natCast]
      push_cast
      rfl
  · rw [if_neg h]
    have h1 : (b.toNat - 2 ^ 63) / 2 ^ 52 = b.toNat / 2 ^ 52 % 2 ^ 11 := by omega
    have h2 : b.toNat / 2 ^ 63 ≠ 0 := by omega
    have h3 : (b.toNat - 2 ^ 63) % 2 ^ 52 = b.toNat % 2 ^ 52 := by omega
    rw [h1, h3]
    simp only [h2, if_false]
    generalize b.toNat / 2 ^ 52 % 2 ^ 11 = x
    generalize b.toNat % 2 ^ 52 = y
    split
    · rw [Int.cast_neg, Int.cast_natCast, neg_mul]
    · rw [Int.cast_neg, Nat.cast_add, Int.cast_add, Int.cast_natCast, neg_mul]
      push_cast
      rfl

theorem bits_value (s r : Nat) (hs : s < 2) (hr : r < 2047 * 2 ^ 52) :
    Finite64 (BitVec.ofNat 64 (s * 2 ^ 63 + r)) ∧
    value64 (BitVec.ofNat 64 (s * 2 ^ 63 + r)) = if s = 0 then magValue r else -magValue r := by
  have ht : (BitVec.ofNat 64 (s * 2 ^ 63 + r)).toNat = s * 2 ^ 63 + r := by
    rw [BitVec.toNat_ofNat, Nat.mod_eq_of_lt (by omega)]
  constructor
  · unfold Finite64
    rw [ht]
    omega
  · unfold value64
    rw [ht]
    by_cases h : s = 0
    · subst h
      rw [if_pos (by omega), if_pos rfl, Nat.zero_mul, Nat.zero_add]
    · have h1 : s = 1 := by omega
      subst h1
      rw [if_neg (by omega), if_neg h, Nat.one_mul, Nat.add_sub_cancel_left]

theorem abs_value (b : BitVec 64) : |value64 b| = ((num64 b).natAbs : ℚ) * 2 ^ scale64 b := by
  rw [value64_eq, abs_mul, abs_of_pos (zpow_pos (by norm_num : (0 : ℚ) < 2) _), Nat.cast_natAbs, Int.cast_abs]

theorem roundMag_zero (d : Nat) : roundMag 0 d = 0 := by simp [roundMag]

theorem magValue_zero : magValue 0 = 0 := by simp [magValue]

/-- Integers below `2^53` in magnitude are exact doubles. -/
theorem roundMag_int (n : Nat) (h : n < 2 ^ 53) : magValue (roundMag n 1) = n ∧ roundMag n 1 < 2047 * 2 ^ 52 := by
  have hv : magValue (roundMag n 1) = n := by
    by_cases h0 : n = 0
    · subst h0
      rw [roundMag_zero, magValue_zero]; rfl
    · rw [roundMag_repr n 1 n 0 h0 (by norm_num) h (by norm_num) (by simp)]
      simp
  refine ⟨hv, ?_⟩
  by_contra hc
  have h1 := magValue_inf _ (not_lt.1 hc)
  rw [hv] at h1
  have h2 : (n : ℚ) < ((2 ^ 53 : Nat) : ℚ) := Nat.cast_lt.2 h
  have h3 : (2 : ℚ) ^ (53 : Int) ≤ 2 ^ (1024 : Int) := zpow_le_zpow_right₀ (by norm_num) (by norm_num)
  rw [zpow_toNat 53 (by norm_num)] at h3
  exact absurd (lt_of_lt_of_le (lt_of_lt_of_le h2 h3) h1) (lt_irrefl _)

theorem signBits (i : Int) (r : Nat) (hr : r < 2047 * 2 ^ 52) (hv : magValue r = (i.natAbs : ℚ)) :
    Finite64 (BitVec.ofNat 64 ((if i < 0 then 2 ^ 63 else 0) + r)) ∧
    value64 (BitVec.ofNat 64 ((if i < 0 then 2 ^ 63 else 0) + r)) = i := by
  by_cases hi : i < 0
  · rw [if_pos hi]
    have := bits_value 1 r (by omega) hr
    rw [Nat.one_mul] at this
    refine ⟨this.1, ?_⟩
    rw [this.2, if_neg (by omega), hv, Nat.cast_natAbs, abs_of_neg hi]
    push_cast
    ring
  · rw [if_neg hi]
    have := bits_value 0 r (by omega) hr
    rw [Nat.zero_mul] at this
    refine ⟨this.1, ?_⟩
    rw [this.2, if_pos rfl, hv, Nat.cast_natAbs, abs_of_nonneg (by omega)]

theorem intToF64_exact (i : Int) (h : i.natAbs < 2 ^ 53) :
    ∃ b, intToF64 i = some b ∧ Finite64 b ∧ value64 b = i := by
  obtain ⟨h1, h2⟩ := roundMag_int i.natAbs h
  unfold intToF64
  simp only
  rw [if_pos h2]
  exact ⟨_, rfl, signBits i _ h2 h1⟩

theorem intDiv_one_exact (i : Int) (h : i.natAbs < 2 ^ 53) : Finite64 (intDiv i 1) ∧ value64 (intDiv i 1) = i := by
  obtain ⟨h1, h2⟩ := roundMag_int i.natAbs h
  unfold intDiv
  rw [Nat.min_eq_left h2.le]
  exact signBits i _ h2 h1

theorem finite_not_special (b : BitVec 64) (h : Finite64 b) : isNaN64 b = false ∧ isInf64 b = false := by
  unfold Finite64 at h
  unfold isNaN64 isInf64 exp64
  simp only [h, false_and, decide_false, and_self]

theorem sgn64_lt (b : BitVec 64) : sgn64 b < 2 := (fields64 b).1

theorem value64_sign (b : BitVec 64) : value64 b = if sgn64 b = 0 then |value64 b| else -|value64 b| := by
  have hb := b.isLt
  unfold value64 sgn64
  by_cases h : b.toNat < 2 ^ 63
  · rw [if_pos h, if_pos (by omega), abs_of_nonneg (magValue_nonneg _)]
  · rw [if_neg h, if_neg (by omega), abs_neg, abs_of_nonneg (magValue_nonneg _)]

/-- The rational rounded by a product of finite doubles. -/
theorem mul_quot (a b : BitVec 64) :
    (((if 0 ≤ scale64 a + scale64 b then (num64 a * num64 b).natAbs * 2 ^ (scale64 a + scale64 b).toNat
        else (num64 a * num64 b).natAbs : Nat) : ℚ) /
      ((if 0 ≤ scale64 a + scale64 b then 1 else 2 ^ (-(scale64 a + scale64 b)).toNat : Nat) : ℚ)) =
    |value64 a * value64 b| := by
  rw [abs_mul, abs_value, abs_value, Int.natAbs_mul]
  have hz : (2 : ℚ) ^ scale64 a * 2 ^ scale64 b = 2 ^ (scale64 a + scale64 b) := (zpow_add₀ two_ne _ _).symm
  rw [show ((num64 a).natAbs : ℚ) * 2 ^ scale64 a * (((num64 b).natAbs : ℚ) * 2 ^ scale64 b) =
    ((num64 a).natAbs : ℚ) * (num64 b).natAbs * (2 ^ scale64 a * 2 ^ scale64 b) by ring, hz]
  by_cases h : 0 ≤ scale64 a + scale64 b
  · rw [if_pos h, if_pos h, Nat.cast_mul, ← zpow_toNat _ h, Nat.cast_one, div_one]
    push_cast
    rfl
  · rw [if_neg h, if_neg h, ← zpow_toNat _ (by omega), zpow_neg, div_inv_eq_mul]
    push_cast
    rfl

/-- The product of finite doubles, when the rounded magnitude `r` is known. -/
theorem fmul_fin (a b : BitVec 64) (ha : Finite64 a) (hb : Finite64 b) :
    ∃ N D : Nat, D ≠ 0 ∧ (N : ℚ) / D = |value64 a * value64 b| ∧
      fmul a b = BitVec.ofNat 64 ((sgn64 a + sgn64 b) % 2 * 2 ^ 63 + min (roundMag N D) (2047 * 2 ^ 52)) := by
  obtain ⟨a1, a2⟩ := finite_not_special a ha
  obtain ⟨b1, b2⟩ := finite_not_special b hb
  refine ⟨_, _, ?_, mul_quot a b, ?_⟩
  · split
    · norm_num
    · exact Nat.pos_iff_ne_zero.1 (Nat.pos_of_ne_zero (by simp))
  · unfold fmul
    rw [a1, a2, b1, b2]
    simp only [Bool.false_eq_true, if_false, or_self]
    unfold mulFin mk64
    simp only [Nat.zero_mul, Nat.add_zero]

theorem sign_mul (a b : BitVec 64) :
    value64 a * value64 b = if (sgn64 a + sgn64 b) % 2 = 0 then |value64 a * value64 b| else -|value64 a * value64 b| := by
  have h1 := sgn64_lt a
  have h2 := sgn64_lt b
  have e1 := value64_sign a
  have e2 := value64_sign b
  rw [abs_mul]
  by_cases ha : sgn64 a = 0 <;> by_cases hb : sgn64 b = 0
  · rw [if_pos ha] at e1; rw [if_pos hb] at e2
    rw [if_pos (by omega), ← e1, ← e2]
  · rw [if_pos ha] at e1; rw [if_neg hb] at e2
    rw [if_neg (by omega)]
    rw [e2, ← e1]; rw [abs_neg, abs_abs]; ring
  · rw [if_neg ha] at e1; rw [if_pos hb] at e2
    rw [if_neg (by omega)]
    rw [e1, ← e2]; rw [abs_neg, abs_abs]; ring
  · rw [if_neg ha] at e1; rw [if_neg hb] at e2
    rw [if_pos (by omega)]
    rw [e1, e2, abs_neg, abs_neg, abs_abs, abs_abs]; ring

/-- A product whose exact value is representable is exact. -/
theorem fmul_exact (a b : BitVec 64) (ha : Finite64 a) (hb : Finite64 b) (m : Nat) (x : Int) (hm : m < 2 ^ 53)
    (hx : -1074 ≤ x) (h : |value64 a * value64 b| = m * 2 ^ x) (hlt : |value64 a * value64 b| < 2 ^ (1024 : Int)) :
    Finite64 (fmul a b) ∧ value64 (fmul a b) = value64 a * value64 b := by
  obtain ⟨N, D, hD, hq, hf⟩ := fmul_fin a b ha hb
  have hmag : magValue (roundMag N D) = |value64 a * value64 b| := by
    by_cases hN : N = 0
    · subst hN
      rw [roundMag_zero, magValue_zero, ← hq]; simp
    · rw [roundMag_repr N D m x hN hD hm hx (by rw [hq, h]), hq]
  have hr : roundMag N D < 2047 * 2 ^ 52 := by
    by_contra hc
    have := magValue_inf _ (not_lt.1 hc)
    rw [hmag] at this
    linarith
  rw [Nat.min_eq_left hr.le] at hf
  have := bits_value ((sgn64 a + sgn64 b) % 2) _ (by omega) hr
  rw [hf]
  refine ⟨this.1, ?_⟩
  rw [this.2, hmag]
  exact (sign_mul a b).symm

/-- A product in the normal range has relative error at most `2^-53`. -/
theorem fmul_rel (a b : BitVec 64) (ha : Finite64 a) (hb : Finite64 b)
    (hlo : (2 : ℚ) ^ (-1022 : Int) ≤ |value64 a * value64 b|) (hhi : |value64 a * value64 b| < 2 ^ (1023 : Int)) :
    Finite64 (fmul a b) ∧
    |value64 (fmul a b) - value64 a * value64 b| ≤ |value64 a * value64 b| * 2 ^ (-53 : Int) := by
  obtain ⟨N, D, hD, hq, hf⟩ := fmul_fin a b ha hb
  have hpos : (0 : ℚ) < 2 ^ (-1022 : Int) := zpow_pos (by norm_num) _
  have hN : N ≠ 0 := by
    rintro rfl
    rw [← hq] at hlo
    simp only [Nat.cast_zero, zero_div] at hlo
    linarith
  have hrel := roundMag_rel N D hN hD (by rw [hq]; exact hlo)
  rw [hq] at hrel
  have hr : roundMag N D < 2047 * 2 ^ 52 := by
    by_contra hc
    have h1 := magValue_inf _ (not_lt.1 hc)
    have h2 := (abs_le.1 hrel).2
    have h3 : (2 : ℚ) ^ (-53 : Int) ≤ 1 := by
      rw [show (1 : ℚ) = 2 ^ (0 : Int) by norm_num]
      exact zpow_le_zpow_right₀ (by norm_num) (by norm_num)
    have h4 : |value64 a * value64 b| * 2 ^ (-53 : Int) ≤ |value64 a * value64 b| := by
      calc _ ≤ |value64 a * value64 b| * 1 := mul_le_mul_of_nonneg_left h3 (abs_nonneg _)
        _ = _ := mul_one _
    have h5 : (2 : ℚ) ^ (1024 : Int) = 2 * 2 ^ (1023 : Int) := by
      rw [show (1024 : Int) = 1 + 1023 by norm_num, zpow_add₀ two_ne, zpow_one]
    generalize (2 : ℚ) ^ (1024 : Int) = c1 at *
    generalize (2 : ℚ) ^ (1023 : Int) = c2 at *
    generalize (2 : ℚ) ^ (-53 : Int) = c3 at *
    linarith
  rw [Nat.min_eq_left hr.le] at hf
  have hb2 := bits_value ((sgn64 a + sgn64 b) % 2) _ (by omega) hr
  rw [hf]
  refine ⟨hb2.1, ?_⟩
  rw [hb2.2]
  conv => lhs; rw [sign_mul a b]
  split
  · exact hrel
  · rw [show -magValue (roundMag N D) - -|value64 a * value64 b| = -(magValue (roundMag N D) - |value64 a * value64 b|) by ring,
      abs_neg]
    exact hrel

/-! ### Truncation, rounding, comparison -/

theorem finite_exp (b : BitVec 64) (h : Finite64 b) : ¬ exp64 b = 2047 := h

theorem isTrunc_int (t : Int) : IsTrunc (t : ℚ) t := by
  constructor
  · intro _; exact ⟨le_refl _, by linarith⟩
  · intro _; exact ⟨le_refl _, by linarith⟩

theorem truncF_spec (b : BitVec 64) (h : Finite64 b) : ∃ t, truncF b = some t ∧ IsTrunc (value64 b) t := by
  unfold truncF
  rw [if_neg (finite_exp b h)]
  simp only
  refine ⟨_, rfl, ?_⟩
  rw [value64_eq]
  generalize num64 b = n
  generalize scale64 b = x
  by_cases hx : 0 ≤ x
  · rw [if_pos hx, zpow_toNat x hx]
    have := isTrunc_int (n * 2 ^ x.toNat)
    push_cast at this ⊢
    exact this
  · rw [if_neg hx]
    have hz : (2 : ℚ) ^ x = 1 / ((2 ^ (-x).toNat : Nat) : ℚ) := by
      rw [← zpow_toNat (-x) (by omega), zpow_neg]
      field_simp
    rw [hz, mul_one_div]
    have hdp : 0 < (2 ^ (-x).toNat : Nat) := Nat.pos_of_ne_zero (by simp)
    generalize hd : (2 ^ (-x).toNat : Nat) = d at hdp
    have hdi : (2 : Int) ^ (-x).toNat = (d : Int) := by rw [← hd]; push_cast; rfl
    rw [hdi]
    have hdq : (0 : ℚ) < d := by exact_mod_cast hdp
    constructor
    · intro hv
      have hn : 0 ≤ n := by
        by_contra hc
        have : (n : ℚ) < 0 := by exact_mod_cast not_le.1 hc
        have := div_neg_of_neg_of_pos this hdq
        linarith
      rw [Int.tdiv_eq_ediv_of_nonneg hn]
      have h1 : (d : Int) * (n / d) ≤ n := Int.mul_ediv_self_le (by omega)
      have h2 : n < (d : Int) * (n / d) + d := Int.lt_mul_ediv_self_add (by omega)
      have h1' : (d : ℚ) * (n / (d : Int) : Int) ≤ n := by exact_mod_cast h1
      have h2' : (n : ℚ) < (d : ℚ) * (n / (d : Int) : Int) + d := by exact_mod_cast h2
      constructor
      · rw [le_div_iff₀ hdq]; linarith
      · rw [div_lt_iff₀ hdq]; linarith
    · intro hv
      have hn : n ≤ 0 := by
        by_contra hc
        have : (0 : ℚ) < n := by exact_mod_cast not_le.1 hc
        have := div_pos this hdq
        linarith
      have hneg : n.tdiv d = -((-n) / d) := by
        rw [← Int.tdiv_eq_ediv_of_nonneg (by omega : 0 ≤ -n), Int.neg_tdiv, neg_neg]
      rw [hneg]
      have h1 : (d : Int) * (-n / d) ≤ -n := Int.mul_ediv_self_le (by omega)
      have h2 : -n < (d : Int) * (-n / d) + d := Int.lt_mul_ediv_self_add (by omega)
      have h1' : (d : ℚ) * (-n / (d : Int) : Int) ≤ -n := by exact_mod_cast h1
      have h2' : -(n : ℚ) < (d : ℚ) * (-n / (d : Int) : Int) + d := by exact_mod_cast h2
      rw [Int.cast_neg]
      constructor
      · rw [div_le_iff₀ hdq]; linarith
      · rw [lt_div_iff₀ hdq]; linarith

theorem isTrunc_unique (v : ℚ) (s t : Int) (hs : IsTrunc v s) (ht : IsTrunc v t) : s = t := by
  rcases le_total 0 v with h | h
  · have h1 := hs.1 h
    have h2 := ht.1 h
    have a : (s : ℚ) < (t + 1 : Int) := by push_cast; linarith
    have b : (t : ℚ) < (s + 1 : Int) := by push_cast; linarith
    have a' : s < t + 1 := by exact_mod_cast a
    have b' : t < s + 1 := by exact_mod_cast b
    omega
  · have h1 := hs.2 h
    have h2 := ht.2 h
    have a : (s - 1 : Int) < (t : ℚ) := by push_cast; linarith
    have b : (t - 1 : Int) < (s : ℚ) := by push_cast; linarith
    have a' : s - 1 < t := by exact_mod_cast a
    have b' : t - 1 < s := by exact_mod_cast b
    omega

theorem isTrunc_abs (v : ℚ) (t : Int) (n : Nat) (h : IsTrunc v t) (hv : |v| < n) : t.natAbs < n := by
  have key : |(t : ℚ)| ≤ |v| := by
    rcases le_total 0 v with h0 | h0
    · have := h.1 h0
      have ht : 0 ≤ t := by
        have : (-1 : ℚ) < t := by linarith
        have : (-1 : Int) < t := by exact_mod_cast this
        omega
      rw [abs_of_nonneg h0, abs_of_nonneg (by exact_mod_cast ht)]
      exact this.1
    · have := h.2 h0
      have ht : t ≤ 0 := by
        have : (t : ℚ) < 1 := by linarith
        have : t < (1 : Int) := by exact_mod_cast this
        omega
      rw [abs_of_nonpos h0, abs_of_nonpos (by exact_mod_cast ht)]
      linarith [this.1]
  have h2 : ((t.natAbs : Nat) : ℚ) < n := by
    rw [Nat.cast_natAbs, Int.cast_abs]
    exact lt_of_le_of_lt key hv
  exact_mod_cast h2

theorem rne_eq_rhe (m k : Nat) : rne m k = rhe m (2 ^ k) := rfl

/-- `round()` returns the integer closer than one half (non-negative case). -/
theorem roundF_near (b : BitVec 64) (h : Finite64 b) (n : Nat) (hv : |(n : ℚ) - value64 b| < 1 / 2) :
    roundF b = some (n : Int) := by
  unfold roundF
  rw [if_neg (finite_exp b h)]
  simp only [Option.some.injEq]
  rw [value64_eq] at hv
  generalize num64 b = m at hv ⊢
  generalize scale64 b = x at hv ⊢
  by_cases hx : 0 ≤ x
  · rw [if_pos hx]
    rw [zpow_toNat x hx] at hv
    have h2 : |(((n : Int) - m * 2 ^ x.toNat : Int) : ℚ)| < ((1 : Int) : ℚ) := by
      push_cast at hv ⊢
      linarith
    rw [← Int.cast_abs] at h2
    have h3 : |(n : Int) - m * 2 ^ x.toNat| < 1 := by exact_mod_cast h2
    rw [abs_lt] at h3
    omega
  · rw [if_neg hx]
    have hz : (2 : ℚ) ^ x = 1 / ((2 ^ (-x).toNat : Nat) : ℚ) := by
      rw [← zpow_toNat (-x) (by omega), zpow_neg]
      field_simp
    rw [hz, mul_one_div] at hv
    have hdp : 0 < (2 ^ (-x).toNat : Nat) := Nat.pos_of_ne_zero (by simp)
    rw [rne_eq_rhe]
    by_cases hm : m < 0
    · rw [if_pos hm]
      have habs : ((m.natAbs : Nat) : ℚ) = -(m : ℚ) := by
        rw [Nat.cast_natAbs, abs_of_neg hm]; push_cast; rfl
      have hdq : (0 : ℚ) < ((2 ^ (-x).toNat : Nat) : ℚ) := by exact_mod_cast hdp
      have hmq : (m : ℚ) < 0 := by exact_mod_cast hm
      have hneg := div_neg_of_neg_of_pos hmq hdq
      have hn0 : n = 0 := by
        rw [abs_lt] at hv
        have : (n : ℚ) < 1 := by linarith [hv.2]
        have : n < 1 := by exact_mod_cast this
        omega
      subst hn0
      rw [rhe_unique m.natAbs _ 0 hdp]
      · rfl
      · rw [habs, neg_div]
        rw [abs_lt] at hv ⊢
        push_cast at hv ⊢
        constructor <;> linarith [hv.1, hv.2]
    · rw [if_neg hm]
      have habs : ((m.natAbs : Nat) : ℚ) = (m : ℚ) := by
        rw [Nat.cast_natAbs, abs_of_nonneg (by omega)]
      rw [rhe_unique m.natAbs _ n hdp]
      rw [habs]
      exact hv

end Pal
