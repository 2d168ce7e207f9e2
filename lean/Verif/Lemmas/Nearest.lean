import Verif.Lemmas.Round
import Verif.Spec.JsonText
/-
`roundMag` gives the nearest magnitude, ties to even, and there is only one such magnitude.
-/

namespace Pal
open Spec

/-- Exponent and significand of a magnitude. -/
theorem mag_form (r : Nat) : ∃ (e : Int) (q : Nat), -1074 ≤ e ∧ q < 2 ^ 53 ∧ (2 ^ 52 ≤ q ∨ e = -1074) ∧
    r = (e + 1074).toNat * 2 ^ 52 + q := by
  by_cases h : r < 2 ^ 52
  · exact ⟨-1074, r, by omega, by omega, .inr rfl, by simp⟩
  · refine ⟨(r / 2 ^ 52 : Nat) - 1075, 2 ^ 52 + r % 2 ^ 52, by omega, by omega, .inl (by omega), ?_⟩
    rw [show (((r / 2 ^ 52 : Nat) : Int) - 1075 + 1074).toNat = r / 2 ^ 52 - 1 by omega]
    omega

theorem magValue_step (r : Nat) : magValue r < magValue (r + 1) := by
  obtain ⟨e, q, h1, h2, h3, rfl⟩ := mag_form r
  rw [magValue_eq e q h1 h2.le h3, Nat.add_assoc, magValue_eq e (q + 1) h1 h2 (h3.imp (fun h => by omega) id)]
  have : (0 : ℚ) < 2 ^ e := zpow_pos (by norm_num) _
  push_cast
  linarith

theorem magValue_mono : StrictMono magValue := strictMono_nat_of_lt_succ magValue_step

theorem rhe_tie (num den : Nat) (hd : 0 < den) (h : |((rhe num den : Nat) : ℚ) - (num : ℚ) / den| = 1 / 2) :
    rhe num den % 2 = 0 := by
  have hdq : (0 : ℚ) < den := by exact_mod_cast hd
  have hdm : (num : ℚ) = den * (num / den : Nat) + (num % den : Nat) := by
    exact_mod_cast (Nat.div_add_mod num den).symm
  have hlt := Nat.mod_lt num hd
  have hq : (num : ℚ) / den = (num / den : Nat) + ((num % den : Nat) : ℚ) / den := by
    conv => lhs; rw [hdm]
    field_simp
  have key : 2 * (num % den) = den := by
    have h0 : (0 : ℚ) ≤ ((num % den : Nat) : ℚ) / den := by positivity
    have h1 : ((num % den : Nat) : ℚ) / den < 1 := by rw [div_lt_one hdq]; exact_mod_cast hlt
    have h2 : ((num % den : Nat) : ℚ) / den = 1 / 2 := by
      unfold rhe at h
      rw [hq] at h
      split at h
      · rw [abs_of_nonneg (by push_cast; linarith)] at h
        push_cast at h
        linarith
      · rw [abs_of_nonpos (by linarith)] at h
        linarith
    rw [div_eq_iff hdq.ne'] at h2
    have : (2 * (num % den : Nat) : ℚ) = den := by linarith
    exact_mod_cast this
  unfold rhe
  split <;> omega

/-- `roundMag` rounds to nearest, ties to even. -/
theorem roundMag_nearest (n d : Nat) (hd : d ≠ 0) : NearestMag ((n : ℚ) / d) (roundMag n d) := by
  intro r' hr'
  by_cases hn : n = 0
  · subst hn
    left
    have h0 := magValue_mono (show 0 < r' by rw [roundMag_zero] at hr'; omega)
    rw [roundMag_zero, magValue_zero] at *
    rw [Nat.cast_zero, zero_div, sub_zero, sub_zero, abs_zero, abs_of_pos h0]
    exact h0
  · obtain ⟨l1, l2⟩ := leadExp_spec n d hn hd
    have he0 : (0 : ℚ) < 2 ^ max (leadExp n d - 52) (-1074) := zpow_pos (by norm_num) _
    have hr := roundMag_eq n d hn
    have hs := scaled_quot n d (max (leadExp n d - 52) (-1074))
    generalize hnum : (if max (leadExp n d - 52) (-1074) < 0 then n * 2 ^ (-(max (leadExp n d - 52) (-1074))).toNat else n) = num at hr hs
    generalize hden : (if max (leadExp n d - 52) (-1074) < 0 then d else d * 2 ^ (max (leadExp n d - 52) (-1074)).toNat) = den at hr hs
    have hd0 : 0 < den := by
      rw [← hden]
      split
      · omega
      · exact Nat.mul_pos (by omega) (Nat.pos_of_ne_zero (by simp))
    have k1 := rhe_near num den hd0
    have k2 := rhe_tie num den hd0
    rw [hs] at k1 k2
    generalize rhe num den = q at hr k1 k2
    generalize hv : (n : ℚ) / d = v at *
    -- the significand lies in its binade
    have hq : q ≤ 2 ^ 53 ∧ (2 ^ 52 ≤ q ∨ max (leadExp n d - 52) (-1074) = -1074) ∧
        (-1074 < max (leadExp n d - 52) (-1074) → ((2 ^ 52 : Nat) : ℚ) * 2 ^ max (leadExp n d - 52) (-1074) ≤ v) := by
      have hle : leadExp n d + 1 ≤ 53 + max (leadExp n d - 52) (-1074) := by
        have := Int.le_max_left (leadExp n d - 52) (-1074)
        omega
      have hu : v / 2 ^ max (leadExp n d - 52) (-1074) < 2 ^ 53 := by
        rw [div_lt_iff₀ he0]
        refine lt_of_lt_of_le l2 ?_
        rw [show (2 : ℚ) ^ 53 = 2 ^ (53 : Int) by norm_num, ← zpow_add₀ two_ne]
        exact zpow_le_zpow_right₀ (by norm_num) hle
      refine ⟨?_, ?_, ?_⟩
      · rw [abs_le] at k1
        have : (q : ℚ) < ((2 ^ 53 + 1 : Nat) : ℚ) := by push_cast; linarith
        have : q < 2 ^ 53 + 1 := by exact_mod_cast this
        omega
      · by_cases hc : leadExp n d - 52 ≤ -1074
        · exact .inr (max_eq_right hc)
        · left
          rw [max_eq_left (by omega)] at k1 he0
          have hl : (2 : ℚ) ^ 52 ≤ v / 2 ^ (leadExp n d - 52) := by
            rw [le_div_iff₀ he0, show (2 : ℚ) ^ 52 = 2 ^ (52 : Int) by norm_num, ← zpow_add₀ two_ne]
            rw [show (52 : Int) + (leadExp n d - 52) = leadExp n d by ring]
            exact l1
          rw [abs_le] at k1
          have : ((2 ^ 52 : Nat) : ℚ) < ((q + 1 : Nat) : ℚ) := by push_cast; linarith
          have : 2 ^ 52 < q + 1 := by exact_mod_cast this
          omega
      · intro hc
        rw [max_eq_left (by omega)] at *
        rw [show ((2 ^ 52 : Nat) : ℚ) = 2 ^ (52 : Int) by norm_num, ← zpow_add₀ two_ne]
        rw [show (52 : Int) + (leadExp n d - 52) = leadExp n d by ring]
        exact l1
    have he1 : -1074 ≤ max (leadExp n d - 52) (-1074) := Int.le_max_right _ _
    generalize max (leadExp n d - 52) (-1074) = e at *
    obtain ⟨q1, q2, q3⟩ := hq
    have hm := magValue_eq e q he1 q1 q2
    have hpar : q % 2 = 0 → roundMag n d % 2 = 0 := by rw [hr]; intro h; omega
    rw [← hr] at hm
    -- distances in units of the last place
    have hx : ∀ y : ℚ, |y * 2 ^ e - v| = |y - v / 2 ^ e| * 2 ^ e := by
      intro y
      rw [← abs_of_pos he0, ← abs_mul, abs_of_pos he0, sub_mul, div_mul_cancel₀ _ he0.ne']
    rw [hm, hx]
    rcases Nat.lt_or_gt_of_ne hr' with hlt | hgt
    · -- below
      by_cases hb : 2 ^ 52 < q ∨ e = -1074
      · have hqpos : 1 ≤ q := by
          rcases hb with hb | hb
          · omega
          · subst hb; simp at hr; omega
        have h1 : magValue (roundMag n d - 1) = ((q - 1 : Nat) : ℚ) * 2 ^ e := by
          rw [hr, show (e + 1074).toNat * 2 ^ 52 + q - 1 = (e + 1074).toNat * 2 ^ 52 + (q - 1) by omega]
          exact magValue_eq e (q - 1) he1 (by omega) (hb.imp (fun h => by omega) id)
        have h2 : magValue r' ≤ ((q : ℚ) - 1) * 2 ^ e := by
          have := magValue_mono.monotone (show r' ≤ roundMag n d - 1 by omega)
          rw [h1, Nat.cast_sub hqpos, Nat.cast_one] at this
          exact this
        have h3 : magValue r' / 2 ^ e ≤ (q : ℚ) - 1 := by rwa [div_le_iff₀ he0]
        rw [show magValue r' = magValue r' / 2 ^ e * 2 ^ e by rw [div_mul_cancel₀ _ he0.ne'], hx]
        generalize magValue r' / 2 ^ e = y at *
        generalize v / 2 ^ e = x at *
        rw [mul_lt_mul_iff_left₀ he0, mul_left_inj' he0.ne']
        have hk := abs_le.1 k1
        rw [abs_of_nonpos (show y - x ≤ 0 by linarith)]
        by_cases ht : |(q : ℚ) - x| = 1 / 2
        · have hev := hpar (k2 ht)
          rw [ht]
          rcases lt_or_eq_of_le (show (1 : ℚ) / 2 ≤ -(y - x) by linarith) with h | h
          · exact .inl h
          · exact .inr ⟨h, hev⟩
        · left
          have : |(q : ℚ) - x| < 1 / 2 := lt_of_le_of_ne k1 ht
          have hk' := abs_lt.1 this
          linarith
      · -- the power of two below which numbers are denser
        left
        have hq52 : q = 2 ^ 52 := by omega
        have hv' := q3 (by omega)
        have h1 := magValue_mono hlt
        rw [hm] at h1
        rw [← hx]
        rw [abs_of_nonpos (by rw [hq52]; linarith), abs_of_nonpos (by rw [hq52] at h1; linarith)]
        linarith
    · -- above
      have h1 : ((q : ℚ) + 1) * 2 ^ e ≤ magValue (roundMag n d + 1) := by
        by_cases hq53 : q < 2 ^ 53
        · rw [hr, Nat.add_assoc, magValue_eq e (q + 1) he1 hq53 (q2.imp (fun h => by omega) id)]
          push_cast
          exact le_rfl
        · have hq' : q = 2 ^ 53 := by omega
          rw [hr, show (e + 1074).toNat * 2 ^ 52 + q + 1 = ((e + 1) + 1074).toNat * 2 ^ 52 + (2 ^ 52 + 1) by omega,
            magValue_eq (e + 1) _ (by omega) (by omega) (.inl (by omega)), zpow_add₀ two_ne, hq']
          push_cast
          linarith
      have h2 : ((q : ℚ) + 1) * 2 ^ e ≤ magValue r' :=
        h1.trans (magValue_mono.monotone (show roundMag n d + 1 ≤ r' by omega))
      have h3 : (q : ℚ) + 1 ≤ magValue r' / 2 ^ e := by rwa [le_div_iff₀ he0]
      rw [show magValue r' = magValue r' / 2 ^ e * 2 ^ e by rw [div_mul_cancel₀ _ he0.ne'], hx]
      generalize magValue r' / 2 ^ e = y at *
      generalize v / 2 ^ e = x at *
      rw [mul_lt_mul_iff_left₀ he0, mul_left_inj' he0.ne']
      have hk := abs_le.1 k1
      rw [abs_of_nonneg (show 0 ≤ y - x by linarith)]
      by_cases ht : |(q : ℚ) - x| = 1 / 2
      · have hev := hpar (k2 ht)
        rw [ht]
        rcases lt_or_eq_of_le (show (1 : ℚ) / 2 ≤ y - x by linarith) with h | h
        · exact .inl h
        · exact .inr ⟨h, hev⟩
      · left
        have : |(q : ℚ) - x| < 1 / 2 := lt_of_le_of_ne k1 ht
        have hk' := abs_lt.1 this
        linarith

theorem nearest_lt {v : ℚ} {r s : Nat} (hr : NearestMag v r) (hs : NearestMag v s) (h : r < s) : False := by
  have h1 := hr s (by omega)
  have h2 := hs r (by omega)
  have heq : |magValue r - v| = |magValue s - v| ∧ r % 2 = 0 ∧ s % 2 = 0 := by
    rcases h1 with h1 | h1 <;> rcases h2 with h2 | h2
    · exact absurd h1 (not_lt.2 h2.le)
    · exact absurd h1 (not_lt.2 h2.1.le)
    · exact absurd h2 (not_lt.2 h1.1.le)
    · exact ⟨h1.1, h1.2, h2.2⟩
  have m1 := magValue_step r
  have m2 := magValue_mono (show r + 1 < s by omega)
  have h3 := hr (r + 1) (by omega)
  have hv : v = (magValue r + magValue s) / 2 := by
    have ha := heq.1
    rcases abs_eq_abs.1 ha with h | h
    · linarith
    · linarith
  have h4 : |magValue (r + 1) - v| < |magValue r - v| := by
    rw [abs_of_nonpos (show magValue r - v ≤ 0 by linarith), abs_lt]
    constructor <;> linarith
  rcases h3 with h3 | h3
  · linarith
  · linarith [h3.1]

/-- There is only one nearest magnitude. -/
theorem nearest_unique {v : ℚ} {r s : Nat} (hr : NearestMag v r) (hs : NearestMag v s) : r = s := by
  rcases Nat.lt_trichotomy r s with h | h | h
  · exact (nearest_lt hr hs h).elim
  · exact h
  · exact (nearest_lt hs hr h).elim

/-- A value that is a magnitude is its own nearest one. -/
theorem nearest_exact (r : Nat) : NearestMag (magValue r) r := by
  intro r' h
  left
  rw [sub_self, abs_zero, abs_pos, sub_ne_zero]
  exact fun he => h (magValue_mono.injective he)

theorem nearestFloat_unique {neg : Bool} {v : ℚ} {a b : BitVec 64} (ha : NearestFloat neg v a) (hb : NearestFloat neg v b) : a = b := by
  obtain ⟨r, h1, h2⟩ := ha
  obtain ⟨s, h3, h4⟩ := hb
  obtain rfl := nearest_unique h1 h3
  exact BitVec.eq_of_toNat_eq (h2.trans h4.symm)

end Pal
