import Verif.Model.FloatRepr
import Verif.Lemmas.JsonWrite
/-
The text of a finite float is read as this float.
-/

namespace Pal
open Spec

theorem exactText_spec (neg : Bool) (s : PyStr) (hs : Sign s neg) (m : Nat) (x : Int) (b : BitVec 64)
    (h : NearestFloat neg ((m : ℚ) * 2 ^ x) b) : NumText (s ++ exactText m x) (.float b) := by
  unfold exactText
  split
  · rename_i hx
    obtain ⟨n, rfl⟩ := Int.eq_ofNat_of_zero_le hx
    have := NumText.float (b := b) hs (natText_spec (m * 2 ^ n)) (Frac.some (Digits.one 0 (by omega))) Expo.none (by simp) (by
      simp only [Nat.cast_mul, Nat.cast_pow, Nat.cast_ofNat, Nat.cast_zero, zero_div, add_zero, zpow_zero, mul_one]
      simpa using h)
    simpa [show P ".0" = [46, 48] by decide] using this
  · rename_i hx
    obtain ⟨n, rfl⟩ : ∃ n : Nat, x = -n := ⟨(-x).toNat, by omega⟩
    have := NumText.float (b := b) hs (natText_spec (m * 5 ^ n)) Frac.none (Expo.minus 101 (.inl rfl) (natText_spec n).1) (by simp) (by
      have : (((m * 5 ^ n : Nat) : ℚ) + ((0 : Nat) : ℚ) / 10 ^ 0) * 10 ^ (-(n : Int)) = (m : ℚ) * 2 ^ (-(n : Int)) := by
        rw [zpow_neg, zpow_neg, zpow_natCast, zpow_natCast,
          show (10 : ℚ) ^ n = 5 ^ n * 2 ^ n by rw [← mul_pow]; norm_num]
        push_cast
        have h5 : (5 : ℚ) ^ n ≠ 0 := by positivity
        have h2 : (2 : ℚ) ^ n ≠ 0 := by positivity
        generalize (5 : ℚ) ^ n = u at *
        generalize (2 : ℚ) ^ n = w at *
        field_simp
        norm_num
      rw [this]
      exact h)
    simpa [show P "e-" = [101, 45] by decide] using this

theorem value_nearest (b : BitVec 64) (h : Finite64 b) :
    NearestFloat (decide (sgn64 b ≠ 0)) (((num64 b).natAbs : ℚ) * 2 ^ scale64 b) b := by
  rw [← abs_value]
  unfold Finite64 at h
  have hb := b.isLt
  refine ⟨b.toNat % 2 ^ 63, ?_, ?_⟩
  · have : |value64 b| = magValue (b.toNat % 2 ^ 63) := by
      unfold value64
      split
      · rw [abs_of_nonneg (magValue_nonneg _), Nat.mod_eq_of_lt (by assumption)]
      · rw [abs_neg, abs_of_nonneg (magValue_nonneg _)]
        have : b.toNat - 2 ^ 63 = b.toNat % 2 ^ 63 := by omega
        rw [this]
    rw [this]
    exact nearest_exact _
  · unfold sgn64
    by_cases h0 : b.toNat / 2 ^ 63 = 0
    · simp only [h0, ne_eq, not_true_eq_false, decide_false, Bool.false_eq_true, if_false]
      omega
    · simp only [h0, ne_eq, not_false_eq_true, decide_true, if_true]
      omega

theorem readsAs_spec {neg : Bool} {b : BitVec 64} {s t : PyStr} (hs : Sign s neg) (h : readsAs neg b t = true) :
    NumText (s ++ t) (.float b) := by
  unfold readsAs at h
  split at h
  · rename_i c hc
    obtain ⟨x, h1, h2, -⟩ := scanNum_sound hs hc
    rw [List.append_nil] at h1
    rw [decide_eq_true_eq] at h
    rw [h1, ← h]
    exact h2
  · cases h

/-- `pyRepr` is as `json.load` needs it. -/
theorem pyRepr_law : ReprLaw pyRepr := by
  intro b hb
  unfold pyRepr
  simp only
  have hs : Sign (if decide (sgn64 b ≠ 0) = true then [45] else []) (decide (sgn64 b ≠ 0)) := by
    cases decide (sgn64 b ≠ 0)
    · exact .plus
    · exact .minus
  generalize (if (num64 b).natAbs = 0 then [P "0.0"] else _) = cands
  cases ht : cands.find? (readsAs (decide (sgn64 b ≠ 0)) b) with
  | some t => exact readsAs_spec hs (List.find?_some ht)
  | none => exact exactText_spec _ _ hs _ _ _ (value_nearest b hb)

end Pal
