import Mathlib.Data.Nat.Bitwise
import Verif.Model.Writer
import Verif.Lemmas.Round
import Verif.Lemmas.Prim
import Verif.Spec.Packed
/-
Packed vectors and rotators.
-/

namespace Pal
open Spec

/-- A number that is not an infinity or NaN. -/
def NumFin : Num → Prop
  | .i _ => True
  | .f b => Finite64 b

def numVal : Num → ℚ
  | .i n => n
  | .f b => value64 b

theorem dyLt_spec (n1 x1 n2 x2 : Int) :
    Num.dyLt n1 x1 n2 x2 = true ↔ (n1 : ℚ) * 2 ^ x1 < n2 * 2 ^ x2 := by
  have h1 : (0 : ℚ) < 2 ^ x1 := zpow_pos (by norm_num) _
  have h2 : (0 : ℚ) < 2 ^ x2 := zpow_pos (by norm_num) _
  unfold Num.dyLt
  by_cases h : x2 ≤ x1
  · rw [if_pos h, decide_eq_true_iff]
    have e : (2 : ℚ) ^ x1 = 2 ^ (x1 - x2) * 2 ^ x2 := by
      rw [← zpow_add₀ two_ne]; congr 1; ring
    rw [e, ← mul_assoc, mul_lt_mul_iff_left₀ h2, zpow_toNat _ (by omega)]
    norm_cast
  · rw [if_neg h, decide_eq_true_iff]
    have e : (2 : ℚ) ^ x2 = 2 ^ (x2 - x1) * 2 ^ x1 := by
      rw [← zpow_add₀ two_ne]; congr 1; ring
    rw [e, ← mul_assoc, mul_lt_mul_iff_left₀ h1, zpow_toNat _ (by omega)]
    norm_cast

theorem num_lt_spec (a b : Num) (ha : NumFin a) (hb : NumFin b) : Num.lt a b = true ↔ numVal a < numVal b := by
  cases a with
  | i m =>
    cases b with
    | i n => simp [Num.lt, numVal]
    | f y =>
      obtain ⟨h1, h2⟩ := finite_not_special y hb
      simp only [Num.lt, h1, h2, Bool.false_eq_true, if_false, dyLt_spec, numVal, value64_eq, zpow_zero, mul_one]
  | f x =>
    obtain ⟨h1, h2⟩ := finite_not_special x ha
    cases b with
    | i n =>
      simp only [Num.lt, h1, h2, Bool.false_eq_true, if_false, dyLt_spec, numVal, value64_eq, zpow_zero, mul_one]
    | f y =>
      obtain ⟨h3, h4⟩ := finite_not_special y hb
      simp only [Num.lt, h1, h2, h3, h4, Bool.or_self, Bool.false_eq_true, if_false, dyLt_spec, numVal, value64_eq]

theorem abs_bits (b : BitVec 64) : (b &&& 0x7fffffffffffffff#64).toNat = b.toNat % 2 ^ 63 := by
  rw [BitVec.toNat_and]
  exact Nat.and_two_pow_sub_one_eq_mod _ 63

theorem num_abs_spec (a : Num) (h : NumFin a) : NumFin a.abs ∧ numVal a.abs = |numVal a| := by
  cases a with
  | i n =>
    refine ⟨trivial, ?_⟩
    simp only [Num.abs, numVal]
    rw [Int.natCast_natAbs, Int.cast_abs]
  | f b =>
    have hb := b.isLt
    have ha := abs_bits b
    simp only [NumFin, Finite64] at h
    refine ⟨?_, ?_⟩
    · simp only [Num.abs, NumFin, Finite64, ha]
      omega
    · simp only [Num.abs, numVal, value64, ha]
      rw [if_pos (by omega)]
      split
      · rw [abs_of_nonneg (magValue_nonneg _), Nat.mod_eq_of_lt (by assumption)]
      · rw [abs_neg, abs_of_nonneg (magValue_nonneg _), show b.toNat % 2 ^ 63 = b.toNat - 2 ^ 63 by omega]

theorem max3_lt (a b c d : Num) (ha : NumFin a) (hb : NumFin b) (hc : NumFin c) (hd : NumFin d)
    (h1 : numVal a < numVal d) (h2 : numVal b < numVal d) (h3 : numVal c < numVal d) :
    (Num.max3 a b c).lt d = true := by
  unfold Num.max3
  simp only
  split <;> split
  all_goals first
    | exact (num_lt_spec _ _ hc hd).2 h3
    | exact (num_lt_spec _ _ hb hd).2 h2
    | exact (num_lt_spec _ _ ha hd).2 h1

theorem min3_lt (a b c d : Num) (ha : NumFin a) (hb : NumFin b) (hc : NumFin c) (hd : NumFin d)
    (h1 : numVal a < numVal d) (h2 : numVal b < numVal d) (h3 : numVal c < numVal d) :
    (Num.min3 a b c).lt d = true := by
  unfold Num.min3
  simp only
  split <;> split
  all_goals first
    | exact (num_lt_spec _ _ hc hd).2 h3
    | exact (num_lt_spec _ _ hb hd).2 h2
    | exact (num_lt_spec _ _ ha hd).2 h1

theorem one_f64 : (intToF64 ((1 : Nat) : Int)).getD 0 = 0x3ff0000000000000#64 := by decide +kernel

theorem value_one : Finite64 0x3ff0000000000000#64 ∧ value64 0x3ff0000000000000#64 = 1 := by
  obtain ⟨b, h1, h2, h3⟩ := intToF64_exact 1 (by norm_num)
  have : b = 0x3ff0000000000000#64 := by
    have h := one_f64
    simp only [Nat.cast_one] at h
    rw [h1] at h
    exact h
  rw [this] at h2 h3
  exact ⟨h2, by simpa using h3⟩

/-- Multiplication by one is exact on finite doubles. -/
theorem fmul_one (b : BitVec 64) (h : Finite64 b) (hlt : |value64 b| < 2 ^ (1024 : Int)) :
    Finite64 (fmul b 0x3ff0000000000000#64) ∧ value64 (fmul b 0x3ff0000000000000#64) = value64 b := by
  have hv : value64 b * value64 0x3ff0000000000000#64 = value64 b := by rw [value_one.2, mul_one]
  have hn : (num64 b).natAbs < 2 ^ 53 := by
    unfold num64
    have := (fields64 b).2.2.1
    simp only
    split <;> split <;> omega
  have hs : -1074 ≤ scale64 b := by
    unfold scale64
    split <;> omega
  have := fmul_exact b _ h value_one.1 (num64 b).natAbs (scale64 b) hn hs (by rw [hv, abs_value]) (by rw [hv]; exact hlt)
  rw [hv] at this
  exact this

theorem component_num (v : Val) (t : Int) (h : Component v t) :
    ∃ a, numOf v = .ok a ∧ NumFin a ∧ |numVal a| < 2 ^ 52 ∧
      NumFin (a.mulInt 1) ∧ numVal (a.mulInt 1) = numVal a ∧ (a.mulInt 1).trunc = .ok t ∧ t.natAbs < 2 ^ 52 := by
  rcases h with ⟨rfl, h⟩ | ⟨b, rfl, h1, h2, h3⟩
  · refine ⟨.i t, rfl, trivial, h, trivial, ?_, ?_, ?_⟩
    · simp [Num.mulInt, numVal]
    · simp [Num.mulInt, Num.trunc]
    · rw [← Int.cast_abs, Int.abs_eq_natAbs] at h
      exact_mod_cast h
  · have hlt : |value64 b| < 2 ^ (1024 : Int) := by
      refine lt_trans h2 ?_
      have : (2 : ℚ) ^ (52 : Int) < 2 ^ (1024 : Int) := zpow_lt_zpow_right₀ (by norm_num) (by norm_num)
      have e : (2 : ℚ) ^ (52 : Int) = 2 ^ 52 := zpow_natCast (2 : ℚ) 52
      exact lt_of_eq_of_lt e.symm this
    obtain ⟨m1, m2⟩ := fmul_one b h1 hlt
    refine ⟨.f b, rfl, h1, h2, ?_, ?_, ?_, ?_⟩
    · simp only [Num.mulInt, one_f64]; exact m1
    · simp only [Num.mulInt, one_f64]; exact m2
    · simp only [Num.mulInt, one_f64, Num.trunc]
      obtain ⟨t', ht, htr⟩ := truncF_spec _ m1
      rw [ht]
      rw [m2] at htr
      rw [isTrunc_unique _ _ _ htr h3]
    · exact isTrunc_abs _ _ (2 ^ 52) h3 (by push_cast; exact h2)

theorem bitLen_le (n k : Nat) : bitLen n ≤ k ↔ n < 2 ^ k := by
  unfold bitLen
  split
  · rename_i h; subst h; simp
  · rename_i h
    rw [← Nat.log2_lt h]
    omega

theorem bitsNeeded_le (v : Int) (k : Nat) (hk : 0 < k) (hv : v.natAbs < 2 ^ 62) : bitsNeeded v ≤ k ↔ FitsBits k v := by
  obtain ⟨j, rfl⟩ : ∃ j, k = j + 1 := ⟨k - 1, by omega⟩
  unfold bitsNeeded FitsBits
  rw [Nat.add_sub_cancel]
  have e2 : ((2 ^ j : Nat) : Int) = 2 ^ j := by push_cast; rfl
  simp only
  by_cases h : v < 0
  · rw [if_pos h]
    have h1 : bitLen (-v - 1).toNat ≤ 62 := (bitLen_le _ _).2 (by omega)
    have h2 := bitLen_le (-v - 1).toNat j
    constructor
    · intro h3
      have := h2.1 (by omega)
      rw [← e2]
      omega
    · intro h3
      rw [← e2] at h3
      have := h2.2 (by omega)
      omega
  · rw [if_neg h]
    have h1 : bitLen v.toNat ≤ 62 := (bitLen_le _ _).2 (by omega)
    have h2 := bitLen_le v.toNat j
    constructor
    · intro h3
      have := h2.1 (by omega)
      rw [← e2]
      omega
    · intro h3
      rw [← e2] at h3
      have := h2.2 (by omega)
      omega

theorem bitsNeeded_pos (v : Int) : 0 < bitsNeeded v := by
  unfold bitsNeeded
  simp only
  omega

theorem fits_mono (j k : Nat) (v : Int) (h : j ≤ k) (hf : FitsBits j v) : FitsBits k v := by
  unfold FitsBits at *
  have : (2 : Int) ^ (j - 1) ≤ 2 ^ (k - 1) := by
    exact_mod_cast Nat.pow_le_pow_right (by norm_num) (by omega : j - 1 ≤ k - 1)
  omega

theorem width_min (x y z : Int) (hx : x.natAbs < 2 ^ 52) (hy : y.natAbs < 2 ^ 52) (hz : z.natAbs < 2 ^ 52) :
    MinWidth (max (max (bitsNeeded x) (bitsNeeded y)) (bitsNeeded z)) x y z ∧
      max (max (bitsNeeded x) (bitsNeeded y)) (bitsNeeded z) ≤ 53 := by
  have px := bitsNeeded_pos x
  have kx := fun k hk => bitsNeeded_le x k hk (by omega)
  have ky := fun k hk => bitsNeeded_le y k hk (by omega)
  have kz := fun k hk => bitsNeeded_le z k hk (by omega)
  refine ⟨⟨by omega, ⟨?_, ?_, ?_⟩, ?_⟩, ?_⟩
  · exact (kx _ (by omega)).1 (by omega)
  · exact (ky _ (by omega)).1 (by omega)
  · exact (kz _ (by omega)).1 (by omega)
  · rintro j hj hlt ⟨h1, h2, h3⟩
    have := (kx j hj).2 h1
    have := (ky j hj).2 h2
    have := (kz j hj).2 h3
    omega
  · have h53 : ∀ v : Int, v.natAbs < 2 ^ 52 → FitsBits 53 v := by
      intro v hv
      unfold FitsBits
      norm_num
      omega
    have := (kx 53 (by omega)).2 (h53 x hx)
    have := (ky 53 (by omega)).2 (h53 y hy)
    have := (kz 53 (by omega)).2 (h53 z hz)
    omega

theorem wSerializeInt_eq (k : Nat) (v : Int) (hk : 0 < k) (h : FitsBits k v) :
    wSerializeInt k v = .ok (twos ((k + 7) / 8) v) := by
  unfold wSerializeInt
  simp only
  unfold FitsBits at h
  obtain ⟨j, rfl⟩ : ∃ j, k = j + 1 := ⟨k - 1, by omega⟩
  rw [Nat.add_sub_cancel] at h
  have hp : (2 : Int) * 2 ^ j ≤ 256 ^ ((j + 1 + 7) / 8) := by
    have h1 : 2 ^ (j + 1) ≤ 2 ^ (8 * ((j + 1 + 7) / 8)) := Nat.pow_le_pow_right (by norm_num) (by omega)
    rw [pow_mul, pow_succ] at h1
    norm_num at h1
    have : ((2 ^ j * 2 : Nat) : Int) ≤ ((256 ^ ((j + 1 + 7) / 8) : Nat) : Int) := by exact_mod_cast h1
    push_cast at this
    linarith
  rw [if_pos ⟨by linarith [h.1], by linarith [h.2]⟩, twos_eq]

theorem maskLast_spec (r : Nat) (b : Bytes) (h : b ≠ []) :
    ∃ b', maskLast (2 ^ r - 1) b = .ok b' ∧ leNat b' = leNat b % 2 ^ (8 * (b.length - 1) + r) := by
  induction b with
  | nil => exact absurd rfl h
  | cons x t ih =>
    cases t with
    | nil =>
      refine ⟨_, rfl, ?_⟩
      have hx := x.toNat_lt
      simp only [leNat, List.length_singleton, Nat.sub_self, Nat.mul_zero, Nat.add_zero, Nat.zero_add]
      rw [Nat.and_two_pow_sub_one_eq_mod]
      have : x.toNat % 2 ^ r < 256 := lt_of_le_of_lt (Nat.mod_le _ _) (by omega)
      rw [u8_toNat_ofNat _ this]
    | cons c t =>
      obtain ⟨b', h1, h2⟩ := ih (by simp)
      refine ⟨x :: b', by simp only [maskLast, h1], ?_⟩
      rw [leNat, h2]
      rw [show leNat (x :: c :: t) = x.toNat + 256 * leNat (c :: t) from rfl]
      simp only [List.length_cons, Nat.add_sub_cancel]
      generalize leNat (c :: t) = n
      have hx := x.toNat_lt
      rw [show 8 * (t.length + 1) + r = 8 + (8 * t.length + r) by ring, pow_add 2 8 (8 * t.length + r)]
      rw [show (2 : Nat) ^ 8 = 256 by norm_num, Nat.mod_mul]
      rw [show (x.toNat + 256 * n) % 256 = x.toNat by omega, show (x.toNat + 256 * n) / 256 = n by omega]

theorem rSerializeInt_eq (k : Nat) (v : Int) (hk : 0 < k) (rest : Bytes) :
    rSerializeInt k (twos ((k + 7) / 8) v ++ rest) = .ok ((v % 2 ^ k).toNat, rest) := by
  have hl : (twos ((k + 7) / 8) v).length = (k + 7) / 8 := twos_length _ _
  have hle : leNat (twos ((k + 7) / 8) v) = (v % 2 ^ (8 * ((k + 7) / 8))).toNat := by
    rw [twos, lit_eq, leNat_leBytes]
    apply Nat.mod_eq_of_lt
    have hp : (0 : Int) < 2 ^ (8 * ((k + 7) / 8)) := by positivity
    have h1 := Int.emod_lt_of_pos v hp
    have h2 := Int.emod_nonneg v hp.ne'
    have : (256 : Nat) ^ ((k + 7) / 8) = 2 ^ (8 * ((k + 7) / 8)) := pow256 _
    rw [this]
    have e : (((2 : Nat) ^ (8 * ((k + 7) / 8)) : Nat) : Int) = 2 ^ (8 * ((k + 7) / 8)) := by push_cast; rfl
    omega
  have hmod : (v % 2 ^ (8 * ((k + 7) / 8))).toNat % 2 ^ k = (v % 2 ^ k).toNat := by
    have hp : (0 : Int) < 2 ^ (8 * ((k + 7) / 8)) := by positivity
    have h2 := Int.emod_nonneg v hp.ne'
    have hp' : (0 : Int) < 2 ^ k := by positivity
    have h3 := Int.emod_nonneg v hp'.ne'
    have : (((v % 2 ^ (8 * ((k + 7) / 8))).toNat % 2 ^ k : Nat) : Int) = ((v % 2 ^ k).toNat : Int) := by
      push_cast
      rw [Int.toNat_of_nonneg h2, Int.toNat_of_nonneg h3]
      apply Int.emod_emod_of_dvd
      exact pow_dvd_pow 2 (by omega)
    exact_mod_cast this
  unfold rSerializeInt
  rw [r_bind_ok (show rRead ((k + 7) / 8) (twos ((k + 7) / 8) v ++ rest) =
    .ok (twos ((k + 7) / 8) v, rest) from by
      have := rRead_append (twos ((k + 7) / 8) v) rest
      rwa [hl] at this)]
  by_cases h8 : k % 8 = 0
  · rw [if_neg (by omega)]
    show Except.ok _ = _
    rw [hle, show 8 * ((k + 7) / 8) = k by omega]
  · rw [if_pos h8]
    obtain ⟨b', h1, h2⟩ := maskLast_spec (k % 8) (twos ((k + 7) / 8) v) (by
      intro h; rw [h] at hl; simp at hl; omega)
    rw [h1]
    show Except.ok _ = _
    rw [h2, hl, hle, show 8 * ((k + 7) / 8 - 1) + k % 8 = k by omega, hmod]

theorem signExtend_eq (k : Nat) (v : Int) (hk : 0 < k) (h : FitsBits k v) : signExtend k (v % 2 ^ k).toNat = v := by
  obtain ⟨j, rfl⟩ : ∃ j, k = j + 1 := ⟨k - 1, by omega⟩
  unfold signExtend FitsBits at *
  rw [Nat.add_sub_cancel] at *
  rw [Nat.and_two_pow_sub_one_eq_mod, Nat.and_two_pow, Nat.testBit_eq_decide_div_mod_eq]
  have hp : 0 < 2 ^ j := Nat.pos_of_ne_zero (by simp)
  have e2 : ((2 ^ j : Nat) : Int) = 2 ^ j := by push_cast; rfl
  have e3 : (2 : Int) ^ (j + 1) = 2 * ((2 ^ j : Nat) : Int) := by push_cast; ring
  rw [← e2] at h
  rw [e3]
  generalize 2 ^ j = p at *
  by_cases hv : 0 ≤ v
  · have h1 : (v % (2 * (p : Int))).toNat = v.toNat := by
      rw [Int.emod_eq_of_lt hv (by omega)]
    rw [h1, Nat.mod_eq_of_lt (by omega), Nat.div_eq_of_lt (by omega)]
    simp
    omega
  · have h1 : v % (2 * (p : Int)) = v + 2 * p := by
      rw [← Int.add_emod_right]
      exact Int.emod_eq_of_lt (by omega) (by omega)
    have h2 : (v + 2 * (p : Int)).toNat = (v + p).toNat + p := by omega
    rw [h1, h2, Nat.add_mod_right, Nat.mod_eq_of_lt (by omega), Nat.add_div_right _ hp, Nat.div_eq_of_lt (by omega)]
    simp
    omega

theorem packed_write (xv yv zv : Val) (x y z : Int) (hx : Component xv x) (hy : Component yv y) (hz : Component zv z) :
    ∃ k, MinWidth k x y z ∧ k ≤ 53 ∧ wPackedVector 1 xv yv zv = .ok (encPacked k x y z) := by
  obtain ⟨a, a1, a2, a3, a4, a5, a6, a7⟩ := component_num xv x hx
  obtain ⟨b, b1, b2, b3, b4, b5, b6, b7⟩ := component_num yv y hy
  obtain ⟨c, c1, c2, c3, c4, c5, c6, c7⟩ := component_num zv z hz
  obtain ⟨w1, w2⟩ := width_min x y z a7 b7 c7
  refine ⟨_, w1, w2, ?_⟩
  have hp : ∀ q : ℚ, q < 2 ^ 52 → q < numVal (.i (2 ^ 62)) := by
    intro q hq
    simp only [numVal]
    push_cast
    norm_num at hq ⊢
    linarith
  have hp2 : ∀ q : ℚ, q < 2 ^ 52 → q < numVal (.i (2 ^ 52)) := by
    intro q hq
    simp only [numVal]
    push_cast
    exact hq
  have hmax : (Num.max3 (a.mulInt 1).abs (b.mulInt 1).abs (c.mulInt 1).abs).lt (.i (2 ^ 62)) = true := by
    apply max3_lt _ _ _ _ (num_abs_spec _ a4).1 (num_abs_spec _ b4).1 (num_abs_spec _ c4).1 (show NumFin (.i (2 ^ 62)) from trivial)
    · rw [(num_abs_spec _ a4).2, a5]; exact hp _ a3
    · rw [(num_abs_spec _ b4).2, b5]; exact hp _ b3
    · rw [(num_abs_spec _ c4).2, c5]; exact hp _ c3
  have hmin : (Num.min3 a.abs b.abs c.abs).lt (.i (2 ^ 52)) = true := by
    apply min3_lt _ _ _ _ (num_abs_spec _ a2).1 (num_abs_spec _ b2).1 (num_abs_spec _ c2).1 (show NumFin (.i (2 ^ 52)) from trivial)
    · rw [(num_abs_spec _ a2).2]; exact hp2 _ a3
    · rw [(num_abs_spec _ b2).2]; exact hp2 _ b3
    · rw [(num_abs_spec _ c2).2]; exact hp2 _ c3
  unfold wPackedVector
  rw [a1, b1, c1]
  simp only [bind, Except.bind, hmax, hmin, if_true, a6, b6, c6]
  generalize hk : max (max (bitsNeeded x) (bitsNeeded y)) (bitsNeeded z) = k at *
  obtain ⟨k0, ⟨f1, f2, f3⟩, _⟩ := w1
  rw [wSerializeInt_eq k x k0 f1, wSerializeInt_eq k y k0 f2, wSerializeInt_eq k z k0 f3]
  have e64 : (64 ||| k : Nat) = 64 + k := by
    have := Nat.two_pow_add_eq_or_of_lt (i := 6) (b := k) (by omega) 1
    simpa using this.symm
  rw [e64, show wU32 (.int ((64 + k : Nat) : Int)) = .ok (lit 4 (64 + k)) from by
    rw [wU32, wUnsigned_in 4 (64 + k) (by omega), lit_eq]]
  simp only [wcat, encPacked, List.append_nil, List.append_assoc]

theorem packed_read (an : Bool) (k : Nat) (x y z : Int) (hk : 0 < k) (h53 : k ≤ 53)
    (hx : FitsBits k x) (hy : FitsBits k y) (hz : FitsBits k z) (rest : Bytes) :
    rPackedVector an 1 (encPacked k x y z ++ rest) =
      .ok ((.float (intDiv x 1), .float (intDiv y 1), .float (intDiv z 1)), rest) := by
  unfold rPackedVector encPacked
  simp only [List.append_assoc]
  rw [r_bind_ok (show rU32 (lit 4 (64 + k) ++ (twos ((k + 7) / 8) x ++ (twos ((k + 7) / 8) y ++
    (twos ((k + 7) / 8) z ++ rest)))) = .ok (64 + k, _) from by
      rw [lit_eq]; exact rUnsigned_le 4 (64 + k) _ (by omega))]
  have h1 : (64 + k) &&& 63 = k := by
    have := Nat.and_two_pow_sub_one_eq_mod (64 + k) 6
    norm_num at this
    rw [this]
    omega
  have h2 : (64 + k) >>> 6 = 1 := by
    rw [Nat.shiftRight_eq_div_pow]
    norm_num
    omega
  simp only [h1, h2]
  rw [if_pos hk]
  rw [r_bind_ok (rSerializeInt_eq k x hk _), r_bind_ok (rSerializeInt_eq k y hk _),
    r_bind_ok (rSerializeInt_eq k z hk _)]
  simp only [signExtend_eq k _ hk hx, signExtend_eq k _ hk hy, signExtend_eq k _ hk hz]
  rfl

end Pal

namespace Pal
open Spec

/-! ### Compressed rotators -/

theorem rotStep_bits : rotStep = 0x3f76800000000000#64 ∧ num64 0x3f76800000000000#64 = 6333186975989760 ∧
    scale64 0x3f76800000000000#64 = -60 := by decide +kernel

theorem rotInv_bits : rotInv = 0x4066c16c16c16c17#64 ∧ num64 0x4066c16c16c16c17#64 = 6405119470038039 ∧
    scale64 0x4066c16c16c16c17#64 = -45 := by decide +kernel

theorem rotStep_value : Finite64 rotStep ∧ value64 rotStep = 45 / 8192 := by
  rw [rotStep_bits.1]
  refine ⟨by unfold Finite64; decide, ?_⟩
  rw [value64_eq, rotStep_bits.2.1, rotStep_bits.2.2]
  norm_num

theorem rotInv_value : Finite64 rotInv ∧ value64 rotInv = 6405119470038039 / 2 ^ 45 := by
  rw [rotInv_bits.1]
  refine ⟨by unfold Finite64; decide, ?_⟩
  rw [value64_eq, rotInv_bits.2.1, rotInv_bits.2.2]
  norm_num

theorem lt_big (q : ℚ) (h : q < 2 ^ 52) (k : Int) (hk : 52 ≤ k) : q < 2 ^ k := by
  have e : (2 : ℚ) ^ (52 : Int) = 2 ^ 52 := zpow_natCast (2 : ℚ) 52
  exact lt_of_lt_of_le (lt_of_lt_of_eq h e.symm) (zpow_le_zpow_right₀ (by norm_num) hk)

theorem angleOf_value (n : Nat) (h : n < 65536) :
    Finite64 (angleOf n) ∧ value64 (angleOf n) = n * 45 / 8192 := by
  obtain ⟨b, h1, h2, h3⟩ := intToF64_exact (n : Int) (by omega)
  have hn : (n : ℚ) < 65536 := by exact_mod_cast h
  have hn0 : (0 : ℚ) ≤ n := Nat.cast_nonneg _
  have hv : value64 b * value64 rotStep = n * 45 / 8192 := by
    rw [h3, rotStep_value.2]; push_cast; ring
  have habs : |value64 b * value64 rotStep| = n * 45 / 8192 := by
    rw [hv, abs_of_nonneg (by positivity)]
  unfold angleOf
  rw [h1, Option.getD_some, ← hv]
  refine fmul_exact b rotStep h2 rotStep_value.1 (n * 45) (-13) (by omega) (by norm_num) ?_ ?_
  · rw [habs]
    push_cast
    norm_num
    ring
  · rw [habs]
    apply lt_big _ _ _ (by norm_num)
    norm_num
    linarith

theorem shortOf_angleOf (n : Nat) (h : n < 65536) : shortOf (.float (angleOf n)) = .ok n := by
  obtain ⟨f1, f2⟩ := angleOf_value n h
  have hn : (n : ℚ) < 65536 := by exact_mod_cast h
  have hn0 : (0 : ℚ) ≤ n := Nat.cast_nonneg _
  have hv : value64 (angleOf n) * value64 rotInv = n * (45 * 6405119470038039 / (8192 * 2 ^ 45)) := by
    rw [f2, rotInv_value.2]; ring
  have habs : |value64 (angleOf n) * value64 rotInv| = n * (45 * 6405119470038039 / (8192 * 2 ^ 45)) := by
    rw [hv, abs_of_nonneg (by positivity)]
  have hr : roundF (fmul (angleOf n) rotInv) = some (n : Int) := by
    by_cases h0 : n = 0
    · subst h0
      have := fmul_exact (angleOf 0) rotInv f1 rotInv_value.1 0 0 (by norm_num) (by norm_num)
        (by rw [habs]; simp) (by rw [habs]; simp)
      apply roundF_near _ this.1
      rw [this.2, hv]
      norm_num
    · have h1 : (1 : ℚ) ≤ n := by exact_mod_cast Nat.one_le_iff_ne_zero.2 h0
      have hlo : (1 : ℚ) / 2 ≤ |value64 (angleOf n) * value64 rotInv| := by
        rw [habs]
        norm_num
        linarith
      have hhi : |value64 (angleOf n) * value64 rotInv| < 2 ^ 52 := by
        rw [habs]
        norm_num
        linarith
      have := fmul_rel (angleOf n) rotInv f1 rotInv_value.1 (by
        refine le_trans ?_ hlo
        rw [show (1 : ℚ) / 2 = 2 ^ (-1 : Int) by norm_num]
        exact zpow_le_zpow_right₀ (by norm_num) (by norm_num)) (lt_big _ hhi _ (by norm_num))
      apply roundF_near _ this.1
      have h2 := abs_le.1 this.2
      rw [habs, hv] at h2
      rw [show (2 : ℚ) ^ (-53 : Int) = 1 / 2 ^ 53 by norm_num] at h2
      generalize value64 (fmul (angleOf n) rotInv) = w at h2 ⊢
      rw [abs_lt]
      norm_num at h2 ⊢
      constructor <;> linarith [h2.1, h2.2]
  simp only [shortOf, hr]
  congr 1
  omega

theorem wShortAngle_eq (n : Nat) (h : n < 65536) : wShortAngle n = .ok (encAngle n) := by
  unfold wShortAngle encAngle
  by_cases h0 : n = 0
  · rw [if_neg (by simp [h0]), if_pos h0]
    rfl
  · rw [if_pos h0, if_neg h0]
    rw [wU16, wUnsigned_in 2 n (by omega), lit_eq]
    rfl

theorem rShortAngle_eq (n : Nat) (h : n < 65536) (rest : Bytes) : rShortAngle (encAngle n ++ rest) = .ok (n, rest) := by
  unfold rShortAngle encAngle
  by_cases h0 : n = 0
  · rw [if_pos h0, h0]
    rfl
  · rw [if_neg h0]
    have : rBool ([1] ++ lit 2 n ++ rest) = .ok (true, lit 2 n ++ rest) := rfl
    rw [r_bind_ok this]
    simp only [if_true]
    rw [lit_eq]
    exact rUnsigned_le 2 n rest (by omega)

theorem rotator_read (p y r : Nat) (hp : p < 65536) (hy : y < 65536) (hr : r < 65536) (rest : Bytes) :
    rRotator (encRotator p y r ++ rest) =
      .ok ((.float (angleOf p), .float (angleOf y), .float (angleOf r)), rest) := by
  unfold rRotator encRotator
  rw [List.append_assoc, List.append_assoc, r_bind_ok (rShortAngle_eq p hp _), r_bind_ok (rShortAngle_eq y hy _),
    r_bind_ok (rShortAngle_eq r hr _)]
  rfl

theorem rotator_write (p y r : Nat) (hp : p < 65536) (hy : y < 65536) (hr : r < 65536) :
    wRotator (.float (angleOf p)) (.float (angleOf y)) (.float (angleOf r)) = .ok (encRotator p y r) := by
  unfold wRotator
  rw [shortOf_angleOf p hp, shortOf_angleOf y hy, shortOf_angleOf r hr]
  simp only [bind, Except.bind, wShortAngle_eq _ hp, wShortAngle_eq _ hy, wShortAngle_eq _ hr, wcat, encRotator,
    List.append_nil, List.append_assoc]

end Pal
