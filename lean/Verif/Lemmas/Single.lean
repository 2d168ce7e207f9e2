import Verif.Lemmas.Nearest
import Verif.Lemmas.Float
import Verif.Spec.Single
/-
Widening single to double precision is exact; narrowing rounds to nearest, ties to even.
-/

namespace Pal
open Spec

theorem singleMag_eq (e : Int) (q : Nat) (he : -149 ≤ e) (hq : q ≤ 2 ^ 24) (hn : 2 ^ 23 ≤ q ∨ e = -149) :
    singleMag ((e + 149).toNat * 2 ^ 23 + q) = q * (2 : ℚ) ^ e := by
  obtain ⟨k, hk⟩ : ∃ k : Nat, e = k - 149 := ⟨(e + 149).toNat, by omega⟩
  subst hk
  rw [show ((k : Int) - 149 + 149).toNat = k by omega]
  unfold singleMag
  by_cases h1 : q < 2 ^ 23
  · have hk : k = 0 := by rcases hn with h | h <;> omega
    subst hk
    rw [if_pos (by omega), show (0 * 2 ^ 23 + q) % 2 ^ 23 = q by omega]
    norm_num
  · by_cases h2 : q < 2 ^ 24
    · rw [if_neg (by omega), show (k * 2 ^ 23 + q) / 2 ^ 23 = k + 1 by omega,
        show 2 ^ 23 + (k * 2 ^ 23 + q) % 2 ^ 23 = q by omega]
      congr 2
      push_cast
      ring
    · have : q = 2 ^ 24 := by omega
      subst this
      rw [if_neg (by omega), show (k * 2 ^ 23 + 2 ^ 24) / 2 ^ 23 = k + 2 by omega,
        show 2 ^ 23 + (k * 2 ^ 23 + 2 ^ 24) % 2 ^ 23 = 2 ^ 23 by omega,
        show (((k + 2 : Nat) : Int) - 150) = ((k : Int) - 149) + 1 by push_cast; ring, zpow_add₀ two_ne]
      push_cast
      ring

/-- Exponent and significand of a magnitude. -/
theorem single_form (r : Nat) : ∃ (e : Int) (q : Nat), -149 ≤ e ∧ q < 2 ^ 24 ∧ (2 ^ 23 ≤ q ∨ e = -149) ∧
    r = (e + 149).toNat * 2 ^ 23 + q := by
  by_cases h : r < 2 ^ 23
  · exact ⟨-149, r, by omega, by omega, .inr rfl, by simp⟩
  · refine ⟨(r / 2 ^ 23 : Nat) - 150, 2 ^ 23 + r % 2 ^ 23, by omega, by omega, .inl (by omega), ?_⟩
    rw [show (((r / 2 ^ 23 : Nat) : Int) - 150 + 149).toNat = r / 2 ^ 23 - 1 by omega]
    omega

theorem singleMag_step (r : Nat) : singleMag r < singleMag (r + 1) := by
  obtain ⟨e, q, h1, h2, h3, rfl⟩ := single_form r
  rw [singleMag_eq e q h1 h2.le h3, Nat.add_assoc, singleMag_eq e (q + 1) h1 h2 (h3.imp (fun h => by omega) id)]
  have : (0 : ℚ) < 2 ^ e := zpow_pos (by norm_num) _
  push_cast
  linarith

theorem singleMag_mono : StrictMono singleMag := strictMono_nat_of_lt_succ singleMag_step

/-- A significand rounded to an integer gives the nearest magnitude. -/
theorem nearestSingle_of (v : ℚ) (e : Int) (q : Nat) (he1 : -149 ≤ e) (q1 : q ≤ 2 ^ 24) (q2 : 2 ^ 23 ≤ q ∨ e = -149)
    (q3 : -149 < e → ((2 ^ 23 : Nat) : ℚ) * 2 ^ e ≤ v) (k1 : |(q : ℚ) - v / 2 ^ e| ≤ 1 / 2)
    (k2 : |(q : ℚ) - v / 2 ^ e| = 1 / 2 → q % 2 = 0) : NearestSingleMag v ((e + 149).toNat * 2 ^ 23 + q) := by
  obtain ⟨r, hr⟩ : ∃ r, r = (e + 149).toNat * 2 ^ 23 + q := ⟨_, rfl⟩
  rw [← hr]
  intro r' hr'
  have he0 : (0 : ℚ) < 2 ^ e := zpow_pos (by norm_num) _
  have hm := singleMag_eq e q he1 q1 q2
  have hpar : q % 2 = 0 → r % 2 = 0 := by rw [hr]; intro h; omega
  rw [← hr] at hm
  have hx : ∀ y : ℚ, |y * 2 ^ e - v| = |y - v / 2 ^ e| * 2 ^ e := by
    intro y
    rw [← abs_of_pos he0, ← abs_mul, abs_of_pos he0, sub_mul, div_mul_cancel₀ _ he0.ne']
  rw [hm, hx]
  rcases Nat.lt_or_gt_of_ne hr' with hlt | hgt
  · -- below
    by_cases hb : 2 ^ 23 < q ∨ e = -149
    · have hqpos : 1 ≤ q := by
        rcases hb with hb | hb
        · omega
        · subst hb; simp at hr; omega
      have h1 : singleMag (r - 1) = ((q - 1 : Nat) : ℚ) * 2 ^ e := by
        rw [hr, show (e + 149).toNat * 2 ^ 23 + q - 1 = (e + 149).toNat * 2 ^ 23 + (q - 1) by omega]
        exact singleMag_eq e (q - 1) he1 (by omega) (hb.imp (fun h => by omega) id)
      have h2 : singleMag r' ≤ ((q : ℚ) - 1) * 2 ^ e := by
        have := singleMag_mono.monotone (show r' ≤ r - 1 by omega)
        rw [h1, Nat.cast_sub hqpos, Nat.cast_one] at this
        exact this
      have h3 : singleMag r' / 2 ^ e ≤ (q : ℚ) - 1 := by rwa [div_le_iff₀ he0]
      rw [show singleMag r' = singleMag r' / 2 ^ e * 2 ^ e by rw [div_mul_cancel₀ _ he0.ne'], hx]
      generalize singleMag r' / 2 ^ e = y at *
      generalize v / 2 ^ e = x at *
      rw [mul_lt_mul_iff_left₀ he0, mul_left_inj' he0.ne']
      have hk := abs_le.1 k1
      rw [abs_of_nonpos (show y - x ≤ 0 by linarith)]
      by_cases ht : |(q : ℚ) - x| = 1 / 2
      · have hev := hpar (k2 ht)
        rw [ht]
        rcases lt_or_eq_of_le (show (1 : ℚ) / 2 ≤ -(y - x) by linarith) with h | h
        · exact .inl h
        · exact .inr ⟨h, hev⟩
      · left
        have : |(q : ℚ) - x| < 1 / 2 := lt_of_le_of_ne k1 ht
        have hk' := abs_lt.1 this
        linarith
    · -- the power of two below which numbers are denser
      left
      have hq23 : q = 2 ^ 23 := by omega
      have hv' := q3 (by omega)
      have h1 := singleMag_mono hlt
      rw [hm] at h1
      rw [← hx]
      rw [abs_of_nonpos (by rw [hq23]; linarith), abs_of_nonpos (by rw [hq23] at h1; linarith)]
      linarith
  · -- above
    have h1 : ((q : ℚ) + 1) * 2 ^ e ≤ singleMag (r + 1) := by
      by_cases hq24 : q < 2 ^ 24
      · rw [hr, Nat.add_assoc, singleMag_eq e (q + 1) he1 hq24 (q2.imp (fun h => by omega) id)]
        push_cast
        exact le_rfl
      · have hq' : q = 2 ^ 24 := by omega
        rw [hr, show (e + 149).toNat * 2 ^ 23 + q + 1 = ((e + 1) + 149).toNat * 2 ^ 23 + (2 ^ 23 + 1) by omega,
          singleMag_eq (e + 1) _ (by omega) (by omega) (.inl (by omega)), zpow_add₀ two_ne, hq']
        push_cast
        linarith
    have h2 : ((q : ℚ) + 1) * 2 ^ e ≤ singleMag r' :=
      h1.trans (singleMag_mono.monotone (show r + 1 ≤ r' by omega))
    have h3 : (q : ℚ) + 1 ≤ singleMag r' / 2 ^ e := by rwa [le_div_iff₀ he0]
    rw [show singleMag r' = singleMag r' / 2 ^ e * 2 ^ e by rw [div_mul_cancel₀ _ he0.ne'], hx]
    generalize singleMag r' / 2 ^ e = y at *
    generalize v / 2 ^ e = x at *
    rw [mul_lt_mul_iff_left₀ he0, mul_left_inj' he0.ne']
    have hk := abs_le.1 k1
    rw [abs_of_nonneg (show 0 ≤ y - x by linarith)]
    by_cases ht : |(q : ℚ) - x| = 1 / 2
    · have hev := hpar (k2 ht)
      rw [ht]
      rcases lt_or_eq_of_le (show (1 : ℚ) / 2 ≤ y - x by linarith) with h | h
      · exact .inl h
      · exact .inr ⟨h, hev⟩
    · left
      have : |(q : ℚ) - x| < 1 / 2 := lt_of_le_of_ne k1 ht
      have hk' := abs_lt.1 this
      linarith

theorem nearestSingle_lt {v : ℚ} {r s : Nat} (hr : NearestSingleMag v r) (hs : NearestSingleMag v s) (h : r < s) : False := by
  have h1 := hr s (by omega)
  have h2 := hs r (by omega)
  have heq : |singleMag r - v| = |singleMag s - v| ∧ r % 2 = 0 ∧ s % 2 = 0 := by
    rcases h1 with h1 | h1 <;> rcases h2 with h2 | h2
    · exact absurd h1 (not_lt.2 h2.le)
    · exact absurd h1 (not_lt.2 h2.1.le)
    · exact absurd h2 (not_lt.2 h1.1.le)
    · exact ⟨h1.1, h1.2, h2.2⟩
  have m1 := singleMag_step r
  have m2 := singleMag_mono (show r + 1 < s by omega)
  have h3 := hr (r + 1) (by omega)
  have hv : v = (singleMag r + singleMag s) / 2 := by
    have ha := heq.1
    rcases abs_eq_abs.1 ha with h | h
    · linarith
    · linarith
  have h4 : |singleMag (r + 1) - v| < |singleMag r - v| := by
    rw [abs_of_nonpos (show singleMag r - v ≤ 0 by linarith), abs_lt]
    constructor <;> linarith
  rcases h3 with h3 | h3
  · linarith
  · linarith [h3.1]

/-- There is only one nearest magnitude. -/
theorem nearestSingle_unique {v : ℚ} {r s : Nat} (hr : NearestSingleMag v r) (hs : NearestSingleMag v s) : r = s := by
  rcases Nat.lt_trichotomy r s with h | h | h
  · exact (nearestSingle_lt hr hs h).elim
  · exact h
  · exact (nearestSingle_lt hs hr h).elim

/-- A value that is a magnitude is its own nearest one. -/
theorem nearestSingle_exact (r : Nat) : NearestSingleMag (singleMag r) r := by
  intro r' h
  left
  rw [sub_self, abs_zero, abs_pos, sub_ne_zero]
  exact fun he => h (singleMag_mono.injective he)

theorem rne_rhe (m k : Nat) : rne m k = rhe m (2 ^ k) := rfl

theorem rne_near (m k : Nat) : |((rne m k : Nat) : ℚ) - (m : ℚ) / 2 ^ k| ≤ 1 / 2 ∧
    (|((rne m k : Nat) : ℚ) - (m : ℚ) / 2 ^ k| = 1 / 2 → rne m k % 2 = 0) := by
  have h1 := rhe_near m (2 ^ k) (Nat.two_pow_pos k)
  have h2 := rhe_tie m (2 ^ k) (Nat.two_pow_pos k)
  rw [← rne_rhe] at h1 h2
  push_cast at h1 h2
  exact ⟨h1, h2⟩

theorem rne_le (m k j : Nat) (h : m < 2 ^ (j + k)) : rne m k ≤ 2 ^ j := by
  have h1 : m / 2 ^ k < 2 ^ j := by rw [Nat.div_lt_iff_lt_mul (Nat.two_pow_pos k), ← Nat.pow_add]; exact h
  unfold rne
  dsimp only
  split <;> omega

theorem rne_ge (m k j : Nat) (h : 2 ^ (j + k) ≤ m) : 2 ^ j ≤ rne m k := by
  have h1 : 2 ^ j ≤ m / 2 ^ k := by rw [Nat.le_div_iff_mul_le (Nat.two_pow_pos k), ← Nat.pow_add]; exact h
  unfold rne
  dsimp only
  split <;> omega

theorem mk32_low (s r : Nat) (hs : s < 2) (hr : r < 2 ^ 31) : (mk32 s 0 r).toNat = s * 2 ^ 31 + r := by
  rw [mk32, BitVec.toNat_ofNat, Nat.mod_eq_of_lt] <;> omega

theorem abs_value64 (b : BitVec 64) : |value64 b| = ((if exp64 b = 0 then man64 b else 2 ^ 52 + man64 b : Nat) : ℚ) * 2 ^ scale64 b := by
  rw [value64_eq, abs_mul, abs_of_pos (zpow_pos (by norm_num : (0 : ℚ) < 2) _)]
  congr 1
  unfold num64
  by_cases h : exp64 b = 0 <;> by_cases h' : sgn64 b = 0 <;> simp only [h, h', if_true, if_false]
  · simp
  · simp
  · push_cast; rw [abs_of_nonneg (by positivity)]
  · push_cast; rw [abs_neg, abs_of_nonneg (by positivity)]

/-- The quiet bit is the top bit of the fraction. -/
theorem quiet_bits (m : Nat) (h : m < 2 ^ 52) : quiet52 m / 2 ^ 29 = 2 ^ 22 ||| m / 2 ^ 29 := by
  have hlt : m / 2 ^ 29 < 2 ^ 23 := by omega
  have e : quiet52 m / 2 ^ 29 = if m / 2 ^ 29 < 2 ^ 22 then m / 2 ^ 29 + 2 ^ 22 else m / 2 ^ 29 := by
    unfold quiet52
    split <;> split <;> omega
  rw [e]
  generalize m / 2 ^ 29 = x at *
  split
  · rename_i hx
    have := Nat.two_pow_add_eq_or_of_lt hx 1
    rw [show 2 ^ 22 * 1 = 2 ^ 22 from rfl] at this
    omega
  · rename_i hx
    obtain ⟨y, rfl⟩ : ∃ y, x = 2 ^ 22 + y := ⟨x - 2 ^ 22, by omega⟩
    have hy : y < 2 ^ 22 := by omega
    have := Nat.two_pow_add_eq_or_of_lt hy 1
    rw [show 2 ^ 22 * 1 = 2 ^ 22 from rfl] at this
    rw [this, ← Nat.or_assoc, Nat.or_self]

/-- Narrowing a double, as `struct.pack` does. -/
theorem f64to32_narrows (b : BitVec 64) : Narrows b (f64to32 b) := by
  obtain ⟨hs, he, hm, hb⟩ := fields64 b
  refine ⟨?_, ?_, ?_⟩
  · rintro ⟨h1, h2⟩
    have h1 : exp64 b = 2047 := h1
    have h2 : man64 b ≠ 0 := h2
    have e : f64to32 b = mk32 (sgn64 b) 255 (quiet52 (man64 b) / 2 ^ 29) := by
      unfold f64to32
      dsimp only
      rw [if_pos h1, if_neg h2]
    rw [e, mk32_toNat _ _ _ hs (by decide) (by unfold quiet52; split <;> omega), quiet_bits _ hm]
    rfl
  · rintro ⟨h1, h2⟩
    have h1 : exp64 b = 2047 := h1
    have h2 : man64 b = 0 := h2
    have e : f64to32 b = mk32 (sgn64 b) 255 0 := by
      unfold f64to32
      dsimp only
      rw [if_pos h1, if_pos h2]
    rw [e, mk32_toNat _ _ _ hs (by decide) (by decide)]
    show b.toNat / 2 ^ 63 * 2 ^ 31 + 255 * 2 ^ 23 + 0 = b.toNat / 2 ^ 63 * 2 ^ 31 + 255 * 2 ^ 23
    omega
  · intro hf
    have h1 : exp64 b ≠ 2047 := hf
    have hv := abs_value64 b
    change ∃ r, _ ∧ _ = sgn64 b * 2 ^ 31 + _
    have small : ∀ (M k : Nat), M < 2 ^ (24 + k) → |value64 b| / 2 ^ (-149 : Int) = (M : ℚ) / 2 ^ k → f64to32 b = mk32 (sgn64 b) 0 (rne M k) →
        ∃ r, NearestSingleMag |value64 b| r ∧ (f64to32 b).toNat = sgn64 b * 2 ^ 31 + min r (255 * 2 ^ 23) := by
      intro M k hM hq hx
      obtain ⟨n1, n2⟩ := rne_near M k
      have hle := rne_le M k 24 hM
      refine ⟨_, nearestSingle_of _ (-149) (rne M k) (by omega) hle (.inr rfl) (by omega) (by rw [hq]; exact n1) (by rw [hq]; exact n2), ?_⟩
      rw [hx, mk32_low _ _ hs (by omega), Nat.min_eq_left (by omega)]
      simp
    by_cases h0 : exp64 b = 0
    · refine small (man64 b) 925 (lt_of_lt_of_le hm (Nat.pow_le_pow_right (by decide) (by decide))) ?_ ?_
      · rw [hv, if_pos h0, scale64, if_pos h0, mul_div_assoc, ← zpow_sub₀ two_ne, show (-1074 - -149 : Int) = -(925 : Nat) by norm_num, zpow_neg, zpow_natCast,
          ← div_eq_mul_inv]
      · unfold f64to32
        dsimp only
        rw [if_neg h1, if_pos h0]
    · by_cases h2 : exp64 b < 897
      · obtain ⟨k, hk⟩ : ∃ k, 897 - exp64 b = k := ⟨_, rfl⟩
        refine small (2 ^ 52 + man64 b) (29 + k) ?_ ?_ ?_
        · have : 2 ^ 53 ≤ 2 ^ (24 + (29 + k)) := Nat.pow_le_pow_right (by decide) (by omega)
          omega
        · rw [hv, if_neg h0, scale64, if_neg h0, mul_div_assoc, ← zpow_sub₀ two_ne,
            show ((exp64 b : Int) - 1075 - -149 : Int) = -((29 + k : Nat) : Int) by omega, zpow_neg, zpow_natCast, ← div_eq_mul_inv]
        · unfold f64to32
          dsimp only
          rw [if_neg h1, if_neg h0, if_pos h2, hk]
      · have n := rne_near (2 ^ 52 + man64 b) 29
        have hle := rne_le (2 ^ 52 + man64 b) 29 24 (by omega)
        have hge := rne_ge (2 ^ 52 + man64 b) 29 23 (by omega)
        have hsc : scale64 b = (exp64 b : Int) - 1046 - 29 := by rw [scale64, if_neg h0]; omega
        rw [if_neg h0, hsc, zpow_sub₀ two_ne] at hv
        have hp : (0 : ℚ) < 2 ^ ((exp64 b : Int) - 1046) := zpow_pos (by norm_num) _
        have hq : |value64 b| / 2 ^ ((exp64 b : Int) - 1046) = ((2 ^ 52 + man64 b : Nat) : ℚ) / 2 ^ 29 := by
          rw [hv]
          norm_num
          field_simp
        have hlow : ((2 ^ 23 : Nat) : ℚ) * 2 ^ ((exp64 b : Int) - 1046) ≤ |value64 b| := by
          rw [← le_div_iff₀ hp, hq, le_div_iff₀ (by norm_num)]
          push_cast
          have : (0 : ℚ) ≤ man64 b := by positivity
          linarith
        have hx : f64to32 b = if (exp64 b - 897) * 2 ^ 23 + rne (2 ^ 52 + man64 b) 29 ≥ 255 * 2 ^ 23 then mk32 (sgn64 b) 255 0
            else mk32 (sgn64 b) 0 ((exp64 b - 897) * 2 ^ 23 + rne (2 ^ 52 + man64 b) 29) := by
          unfold f64to32
          dsimp only
          rw [if_neg h1, if_neg h0, if_neg h2]
        generalize rne (2 ^ 52 + man64 b) 29 = q at *
        refine ⟨_, nearestSingle_of _ ((exp64 b : Int) - 1046) q (by omega) hle (.inl hge) (fun _ => hlow) (by rw [hq]; exact n.1) (by rw [hq]; exact n.2), ?_⟩
        rw [show ((exp64 b : Int) - 1046 + 149).toNat = exp64 b - 897 by omega, hx]
        split
        · rename_i h
          rw [mk32_toNat _ _ _ hs (by decide) (by decide), Nat.min_eq_right h]
          omega
        · rename_i h
          rw [mk32_low _ _ hs (by omega), Nat.min_eq_left (by omega)]

/-- There is only one way to narrow a double. -/
theorem narrows_unique {b : BitVec 64} {x y : BitVec 32} (hx : Narrows b x) (hy : Narrows b y) : x = y := by
  apply BitVec.eq_of_toNat_eq
  by_cases h1 : NaN64 b
  · rw [hx.1 h1, hy.1 h1]
  · by_cases h2 : Inf64 b
    · rw [hx.2.1 h2, hy.2.1 h2]
    · have h3 : Finite64 b := by
        intro h
        by_cases h0 : b.toNat % 2 ^ 52 = 0
        · exact h2 ⟨h, h0⟩
        · exact h1 ⟨h, h0⟩
      obtain ⟨r, hr, ex⟩ := hx.2.2 h3
      obtain ⟨s, hs, ey⟩ := hy.2.2 h3
      obtain rfl := nearestSingle_unique hr hs
      rw [ex, ey]

theorem f64to32_iff {b : BitVec 64} {x : BitVec 32} : Narrows b x ↔ x = f64to32 b :=
  ⟨fun h => narrows_unique h (f64to32_narrows b), fun h => h ▸ f64to32_narrows b⟩

/-- Narrowing never gives a signalling NaN. -/
theorem f64to32_quiet (b : BitVec 64) : ¬ SNaN32 (f64to32 b) := by
  obtain ⟨hs, he, hm, hb⟩ := fields64 b
  obtain ⟨h1, h2, h3⟩ := f64to32_narrows b
  rintro ⟨⟨n1, n2⟩, n3⟩
  have n1 : (f64to32 b).toNat / 2 ^ 23 % 2 ^ 8 = 255 := n1
  by_cases c1 : NaN64 b
  · have e := h1 c1
    have hq := quiet_bits (b.toNat % 2 ^ 52) (by omega)
    rw [← hq] at e
    have : 2 ^ 22 ≤ quiet52 (b.toNat % 2 ^ 52) / 2 ^ 29 ∧ quiet52 (b.toNat % 2 ^ 52) / 2 ^ 29 < 2 ^ 23 := by
      unfold quiet52; split <;> omega
    omega
  · by_cases c2 : Inf64 b
    · have e := h2 c2
      omega
    · have c3 : Finite64 b := by
        intro h
        by_cases h0 : b.toNat % 2 ^ 52 = 0
        · exact c2 ⟨h, h0⟩
        · exact c1 ⟨h, h0⟩
      obtain ⟨r, hr, e⟩ := h3 c3
      have := Nat.min_le_right r (255 * 2 ^ 23)
      generalize min r (255 * 2 ^ 23) = z at *
      omega

/-- Widening is exact. -/
theorem f32to64_value (b : BitVec 32) (h : ¬ Special32 b) : Finite64 (f32to64 b) ∧ value64 (f32to64 b) = value32 b := by
  obtain ⟨hs, he, hm, hb⟩ := fields32 b
  have h1 : exp32 b ≠ 255 := h
  have t0 : sgn32 b = 0 → b.toNat = exp32 b * 2 ^ 23 + man32 b := fun h => hb.trans (by rw [h, Nat.zero_mul, Nat.zero_add])
  have hval : value32 b = (if sgn32 b = 0 then (1 : ℚ) else -1) * ((if exp32 b = 0 then man32 b else 2 ^ 23 + man32 b : Nat) : ℚ) *
      2 ^ (if exp32 b = 0 then -149 else (exp32 b : Int) - 150) := by
    unfold value32
    have key : ∀ r, r = exp32 b * 2 ^ 23 + man32 b → singleMag r = ((if exp32 b = 0 then man32 b else 2 ^ 23 + man32 b : Nat) : ℚ) *
      2 ^ (if exp32 b = 0 then -149 else (exp32 b : Int) - 150) := by
      intro r hr
      have e1 : r / 2 ^ 23 = exp32 b := by omega
      have e2 : r % 2 ^ 23 = man32 b := by omega
      unfold singleMag
      rw [e1, e2]
      split <;> rfl
    by_cases h0 : sgn32 b = 0
    · rw [if_pos (by omega), if_pos h0, one_mul, key b.toNat (t0 h0)]
    · rw [if_neg (by omega), if_neg h0, key _ (by omega)]
      ring
  have fin : ∀ s e m, s < 2 → e < 2047 → m < 2 ^ 52 → Finite64 (mk64 s e m) := by
    intro s e m h1 h2 h3 h4
    have : exp64 (mk64 s e m) = 2047 := h4
    rw [(fields_mk64 s e m h1 (by omega) h3).2.1] at this
    omega
  have val : ∀ s e m, s < 2 → e < 2047 → m < 2 ^ 52 → value64 (mk64 s e m) = (if s = 0 then (1 : ℚ) else -1) *
      ((if e = 0 then m else 2 ^ 52 + m : Nat) : ℚ) * 2 ^ (if e = 0 then -1074 else (e : Int) - 1075) := by
    intro s e m h1 h2 h3
    obtain ⟨f1, f2, f3⟩ := fields_mk64 s e m h1 (by omega) h3
    rw [value64_eq, num64, scale64, f1, f2, f3]
    congr 1
    by_cases c1 : e = 0 <;> by_cases c2 : s = 0 <;> simp [c1, c2]
  by_cases h0 : exp32 b = 0
  · by_cases m0 : man32 b = 0
    · have e : f32to64 b = mk64 (sgn32 b) 0 0 := by
        unfold f32to64
        dsimp only
        rw [if_neg h1, if_pos h0, if_pos m0]
      rw [e]
      refine ⟨fin _ _ _ hs (by decide) (by decide), ?_⟩
      rw [val _ _ _ hs (by decide) (by decide), hval, if_pos h0, m0]
      simp
    · have e : f32to64 b = mk64 (sgn32 b) (Nat.log2 (man32 b) + 874) ((man32 b - 2 ^ Nat.log2 (man32 b)) * 2 ^ (52 - Nat.log2 (man32 b))) := by
        unfold f32to64
        dsimp only
        rw [if_neg h1, if_pos h0, if_neg m0]
      have l1 : 2 ^ Nat.log2 (man32 b) ≤ man32 b := Nat.log2_self_le m0
      have l2 : man32 b < 2 ^ (Nat.log2 (man32 b) + 1) := Nat.lt_log2_self
      have l3 : Nat.log2 (man32 b) < 23 := (Nat.log2_lt m0).2 hm
      generalize Nat.log2 (man32 b) = k at *
      have hx : man32 b * 2 ^ (52 - k) = 2 ^ 52 + (man32 b - 2 ^ k) * 2 ^ (52 - k) := by
        rw [Nat.sub_mul, ← Nat.pow_add, show k + (52 - k) = 52 by omega]
        have : 2 ^ 52 ≤ man32 b * 2 ^ (52 - k) := by
          calc 2 ^ 52 = 2 ^ k * 2 ^ (52 - k) := by rw [← Nat.pow_add]; congr 1; omega
            _ ≤ _ := Nat.mul_le_mul_right _ l1
        omega
      have hy : (man32 b - 2 ^ k) * 2 ^ (52 - k) < 2 ^ 52 := by
        have : man32 b * 2 ^ (52 - k) < 2 ^ 53 := by
          calc man32 b * 2 ^ (52 - k) < 2 ^ (k + 1) * 2 ^ (52 - k) := Nat.mul_lt_mul_of_pos_right l2 (Nat.two_pow_pos _)
            _ = 2 ^ 53 := by rw [← Nat.pow_add]; congr 1; omega
        omega
      rw [e]
      refine ⟨fin _ _ _ hs (by omega) hy, ?_⟩
      rw [val _ _ _ hs (by omega) hy, hval]
      have z : ¬ k + 874 = 0 := by omega
      simp only [h0, if_true, z, if_false]
      rw [← hx, mul_assoc, mul_assoc]
      congr 1
      rw [Nat.cast_mul, Nat.cast_pow, mul_assoc]
      congr 1
      rw [show ((2 : Nat) : ℚ) = 2 by norm_num, ← zpow_natCast, ← zpow_add₀ two_ne]
      exact congrArg (fun z : Int => (2 : ℚ) ^ z) (by omega)
  · have e : f32to64 b = mk64 (sgn32 b) (exp32 b + 896) (man32 b * 2 ^ 29) := by
      unfold f32to64
      dsimp only
      rw [if_neg h1, if_neg h0]
    rw [e]
    refine ⟨fin _ _ _ hs (by omega) (by omega), ?_⟩
    rw [val _ _ _ hs (by omega) (by omega), hval]
    have z : ¬ exp32 b + 896 = 0 := by omega
    simp only [h0, z, if_false]
    rw [mul_assoc, mul_assoc]
    congr 1
    rw [show 2 ^ 52 + man32 b * 2 ^ 29 = (2 ^ 23 + man32 b) * 2 ^ 29 by omega, Nat.cast_mul, Nat.cast_pow, mul_assoc]
    congr 1
    rw [show ((2 : Nat) : ℚ) = 2 by norm_num, ← zpow_natCast, ← zpow_add₀ two_ne]
    exact congrArg (fun z : Int => (2 : ℚ) ^ z) (by omega)

end Pal
