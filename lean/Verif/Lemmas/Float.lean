import Verif.Model.Float
import Verif.Spec.Float
/-
Float field arithmetic.
-/

namespace Pal
open Spec

theorem mk64_toNat (s e m : Nat) (hs : s < 2) (he : e < 2048) (hm : m < 2 ^ 52) :
    (mk64 s e m).toNat = s * 2 ^ 63 + e * 2 ^ 52 + m := by
  rw [mk64, BitVec.toNat_ofNat, Nat.mod_eq_of_lt]
  omega

theorem mk32_toNat (s e m : Nat) (hs : s < 2) (he : e < 256) (hm : m < 2 ^ 23) :
    (mk32 s e m).toNat = s * 2 ^ 31 + e * 2 ^ 23 + m := by
  rw [mk32, BitVec.toNat_ofNat, Nat.mod_eq_of_lt]
  omega

theorem fields_mk64 (s e m : Nat) (hs : s < 2) (he : e < 2048) (hm : m < 2 ^ 52) :
    sgn64 (mk64 s e m) = s ∧ exp64 (mk64 s e m) = e ∧ man64 (mk64 s e m) = m := by
  unfold sgn64 exp64 man64
  rw [mk64_toNat s e m hs he hm]
  omega

theorem fields32 (b : BitVec 32) : sgn32 b < 2 ∧ exp32 b < 256 ∧ man32 b < 2 ^ 23 ∧
    b.toNat = sgn32 b * 2 ^ 31 + exp32 b * 2 ^ 23 + man32 b := by
  have := b.isLt
  unfold sgn32 exp32 man32
  omega

theorem fields64 (b : BitVec 64) : sgn64 b < 2 ∧ exp64 b < 2048 ∧ man64 b < 2 ^ 52 ∧
    b.toNat = sgn64 b * 2 ^ 63 + exp64 b * 2 ^ 52 + man64 b := by
  have := b.isLt
  unfold sgn64 exp64 man64
  omega

theorem rne_mul (m k : Nat) : rne (m * 2 ^ k) k = m := by
  have hp : 0 < 2 ^ k := Nat.two_pow_pos k
  unfold rne
  rw [Nat.mul_div_cancel _ hp, Nat.mul_mod_left]
  simp only [Nat.mul_zero]
  rw [if_neg]
  omega

theorem f32to64_fields (b : BitVec 32) (h : ¬ SNaN32 b) :
    ∃ e m, e < 2048 ∧ m < 2 ^ 52 ∧ f32to64 b = mk64 (sgn32 b) e m ∧
      (exp32 b = 255 → e = 2047 ∧ m = man32 b * 2 ^ 29) ∧
      (exp32 b ≠ 255 → e < 2047) ∧ f64to32 (mk64 (sgn32 b) e m) = b := by
  obtain ⟨hs, he, hm, hb⟩ := fields32 b
  have fin : ∀ r : Nat, sgn32 b * 2 ^ 31 + r = b.toNat → mk32 (sgn32 b) 0 r = b := by
    intro r hr
    apply BitVec.eq_of_toNat_eq
    have hlt := b.isLt
    rw [mk32, BitVec.toNat_ofNat, ← hr, Nat.zero_mul, Nat.add_zero, Nat.mod_eq_of_lt]
    rw [hr]; exact hlt
  unfold f32to64
  simp only
  split
  · rename_i h255
    split
    · rename_i h0
      refine ⟨2047, 0, by omega, by omega, rfl, fun _ => ⟨rfl, by omega⟩, fun h => absurd h255 h, ?_⟩
      obtain ⟨f1, f2, f3⟩ := fields_mk64 (sgn32 b) 2047 0 hs (by omega) (by omega)
      unfold f64to32
      simp only [f1, f2, f3, if_true]
      apply BitVec.eq_of_toNat_eq
      rw [mk32_toNat _ _ _ hs (by omega) (by omega)]
      omega
    · rename_i h0
      have hq : ¬ man32 b < 2 ^ 22 := by
        intro hlt
        exact h ⟨⟨h255, h0⟩, hlt⟩
      have hqm : quiet23 (man32 b) = man32 b := by unfold quiet23; rw [if_neg hq]
      rw [hqm]
      have hm2 : man32 b * 2 ^ 29 < 2 ^ 52 := by omega
      refine ⟨2047, man32 b * 2 ^ 29, by omega, hm2, rfl, fun _ => ⟨rfl, rfl⟩, fun h => absurd h255 h, ?_⟩
      obtain ⟨f1, f2, f3⟩ := fields_mk64 (sgn32 b) 2047 (man32 b * 2 ^ 29) hs (by omega) hm2
      unfold f64to32
      simp only [f1, f2, f3, if_true]
      rw [if_neg (by omega)]
      have : quiet52 (man32 b * 2 ^ 29) = man32 b * 2 ^ 29 := by
        unfold quiet52; rw [if_neg (by omega)]
      rw [this, Nat.mul_div_cancel _ (by decide)]
      apply BitVec.eq_of_toNat_eq
      rw [mk32_toNat _ _ _ hs (by omega) (by omega)]
      omega
  · rename_i h255
    split
    · rename_i he0
      split
      · rename_i hm0
        refine ⟨0, 0, by omega, by omega, rfl, fun h => absurd h h255, fun _ => by omega, ?_⟩
        obtain ⟨f1, f2, f3⟩ := fields_mk64 (sgn32 b) 0 0 hs (by omega) (by omega)
        unfold f64to32
        simp only [f1, f2, f3]
        rw [if_neg (by omega), if_pos trivial]
        have : ∀ k, rne 0 k = 0 := fun k => by have := rne_mul 0 k; rwa [Nat.zero_mul] at this
        rw [this]
        exact fin 0 (by omega)
      · rename_i hm0
        have hl1 : 2 ^ Nat.log2 (man32 b) ≤ man32 b := Nat.log2_self_le hm0
        have hl2 : man32 b < 2 ^ (Nat.log2 (man32 b) + 1) := Nat.lt_log2_self
        have hl3 : Nat.log2 (man32 b) < 23 := (Nat.log2_lt hm0).2 hm
        generalize Nat.log2 (man32 b) = L at *
        have hpow : 2 ^ L * 2 ^ (52 - L) = 2 ^ 52 := by rw [← Nat.pow_add]; congr 1; omega
        have hmul : man32 b * 2 ^ (52 - L) = 2 ^ 52 + (man32 b - 2 ^ L) * 2 ^ (52 - L) := by
          rw [← hpow, ← Nat.add_mul]; congr 1; omega
        have hlt : (man32 b - 2 ^ L) * 2 ^ (52 - L) < 2 ^ 52 := by
          rw [← hpow]
          apply Nat.mul_lt_mul_of_pos_right _ (Nat.two_pow_pos _)
          rw [Nat.pow_succ] at hl2
          omega
        refine ⟨L + 874, (man32 b - 2 ^ L) * 2 ^ (52 - L), by omega, hlt, rfl,
          fun h => absurd h h255, fun _ => by omega, ?_⟩
        obtain ⟨f1, f2, f3⟩ := fields_mk64 (sgn32 b) (L + 874) ((man32 b - 2 ^ L) * 2 ^ (52 - L)) hs
          (by omega) hlt
        unfold f64to32
        simp only [f1, f2, f3]
        rw [if_neg (by omega), if_neg (by omega), if_pos (by omega), ← hmul,
          show 29 + (897 - (L + 874)) = 52 - L by omega, rne_mul]
        exact fin _ (by omega)
    · rename_i he0
      have hm2 : man32 b * 2 ^ 29 < 2 ^ 52 := by omega
      refine ⟨exp32 b + 896, man32 b * 2 ^ 29, by omega, hm2, rfl, fun h => absurd h h255,
        fun _ => by omega, ?_⟩
      obtain ⟨f1, f2, f3⟩ := fields_mk64 (sgn32 b) (exp32 b + 896) (man32 b * 2 ^ 29) hs (by omega) hm2
      unfold f64to32
      simp only [f1, f2, f3]
      rw [if_neg (by omega), if_neg (by omega), if_neg (by omega),
        show 2 ^ 52 + man32 b * 2 ^ 29 = (2 ^ 23 + man32 b) * 2 ^ 29 by omega, rne_mul,
        if_neg (by omega)]
      exact fin _ (by omega)

theorem f64to32_f32to64 (b : BitVec 32) (h : ¬ SNaN32 b) : f64to32 (f32to64 b) = b := by
  obtain ⟨e, m, _, _, h1, _, _, h2⟩ := f32to64_fields b h
  rw [h1, h2]

theorem isNaN64_iff (b : BitVec 64) : isNaN64 b = true ↔ NaN64 b := by
  exact decide_eq_true_iff

theorem isInf64_iff (b : BitVec 64) : isInf64 b = true ↔ Inf64 b := by
  exact decide_eq_true_iff

/-- Widening keeps the class of the number. -/
theorem f32to64_class (b : BitVec 32) :
    (NaN64 (f32to64 b) ↔ NaN32 b) ∧ (Inf64 (f32to64 b) ↔ Inf32 b) := by
  obtain ⟨hs, he, hm, hb⟩ := fields32 b
  by_cases hsn : SNaN32 b
  · have h255 : exp32 b = 255 := hsn.1.1
    have h0 : man32 b ≠ 0 := hsn.1.2
    have hlt : man32 b < 2 ^ 22 := hsn.2
    have hf : f32to64 b = mk64 (sgn32 b) 2047 ((man32 b + 2 ^ 22) * 2 ^ 29) := by
      unfold f32to64
      simp only [h255, if_true]
      rw [if_neg h0]
      unfold quiet23
      rw [if_pos hlt]
    obtain ⟨f1, f2, f3⟩ := fields_mk64 (sgn32 b) 2047 ((man32 b + 2 ^ 22) * 2 ^ 29) hs (by omega) (by omega)
    rw [hf]
    unfold NaN64 Inf64 Special64 NaN32 Inf32 Special32
    unfold exp64 at f2
    unfold man64 at f3
    unfold exp32 at h255
    unfold man32 at *
    rw [f2, f3]
    omega
  · obtain ⟨e, m, he', hm', h1, h2, h3, _⟩ := f32to64_fields b hsn
    obtain ⟨f1, f2, f3⟩ := fields_mk64 (sgn32 b) e m hs he' hm'
    rw [h1]
    unfold NaN64 Inf64 Special64 NaN32 Inf32 Special32
    unfold exp64 at f2
    unfold man64 at f3
    unfold exp32 at *
    unfold man32 at *
    rw [f2, f3]
    omega

end Pal
