import Verif.Lemmas.ShownBlobs
import Verif.Lemmas.SaysPrim
import Verif.Lemmas.Packed
/-
Foliage instances are shown as `Spec/ShownBlobs.lean` says: compressed rotations and packed positions.
-/

namespace Pal
open Spec

theorem angleOf_sign {n : Nat} (hn : n < 65536) : (angleOf n).toNat < 2 ^ 63 := by
  rcases Nat.eq_zero_or_pos n with rfl | h
  · decide +kernel
  by_contra c
  have hv := (angleOf_value n hn).2
  unfold value64 at hv
  rw [if_neg c] at hv
  have h1 : 0 ≤ magValue ((angleOf n).toNat - 2 ^ 63) := magValue_nonneg _
  have h2 : (0 : ℚ) < n * 45 / 8192 := by positivity
  rw [← hv] at h2
  linarith

def rAngleV : R Val := do
  let n ← rShortAngle
  return .float (angleOf n)

theorem rBool_iff {s rest : Bytes} {b : Bool} :
    rBool s = .ok (b, rest) ↔ ∃ x, s = x :: rest ∧ b = decide (x ≠ 0) := by
  cases s with
  | nil => exact ⟨nofun, fun ⟨_, h, _⟩ => nomatch h⟩
  | cons x t =>
    have e : rBool (x :: t) = .ok (decide (x.toNat > 0), t) := by
      show Except.ok (decide (leNat [x] > 0), t) = _
      rw [leNat, leNat]; rfl
    rw [e]
    have e2 : decide (x.toNat > 0) = decide (x ≠ 0) := by
      rw [decide_eq_decide]
      constructor
      · rintro h rfl; exact absurd h (by decide)
      · intro h
        rcases Nat.eq_zero_or_pos x.toNat with h0 | h0
        · exact absurd (UInt8.toNat_inj.1 h0) h
        · exact h0
    constructor
    · intro h; cases h; exact ⟨x, rfl, e2⟩
    · rintro ⟨y, h, rfl⟩; cases h; rw [e2]

theorem angle_reads : Reads rAngleV Layout.angle := by
  intro s v rest
  unfold rAngleV rShortAngle Layout.angle
  simp only [bind_assoc, r_bind_iff, r_pure_iff, rBool_iff]
  have key : ∀ {n : Nat} {b : BitVec 64}, n < 65536 → b.toNat < 2 ^ 63 → value64 b = n * 360 / 65536 → b = angleOf n := by
    intro n b hn hs hv
    refine value64_inj ?_ ?_
    · have := angleOf_sign hn
      omega
    · rw [hv, (angleOf_value n hn).2]; ring
  have fine : ∀ {n : Nat}, n < 65536 → Finite64 (angleOf n) ∧ value64 (angleOf n) = n * 360 / 65536 := by
    intro n hn
    refine ⟨(angleOf_value n hn).1, ?_⟩
    rw [(angleOf_value n hn).2]; ring
  constructor
  · rintro ⟨_, s', ⟨x, rfl, rfl⟩, n, s2, h2, rfl, rfl⟩
    by_cases c : x = 0
    · subst c
      rw [if_neg (by simp)] at h2
      obtain ⟨rfl, rfl⟩ := r_pure_inv h2
      exact ⟨0, _, 0, _, rfl, .inl ⟨rfl, rfl, rfl⟩, rfl, angleOf_sign (by decide), fine (by decide)⟩
    · rw [if_pos (by simpa using c)] at h2
      have h2 := rUnsigned_iff.1 h2
      exact ⟨x, _, n, _, rfl, .inr ⟨c, h2⟩, rfl, angleOf_sign h2.1, fine h2.1⟩
  · rintro ⟨x, s', n, b, rfl, ⟨rfl, rfl, rfl⟩ | ⟨hx, h⟩, rfl, h1, -, h2⟩
    · refine ⟨_, _, ⟨0, rfl, rfl⟩, 0, rest, by rw [if_neg (by simp)]; rfl, ?_, rfl⟩
      rw [key (by decide) h1 h2]
    · refine ⟨_, _, ⟨x, rfl, rfl⟩, n, rest, by rw [if_pos (by simpa using hx)]; exact rUnsigned_iff.2 h, ?_, rfl⟩
      rw [key h.1 h1 h2]

/-! ### packed positions -/

def rBits (k : Nat) : R Int := do
  let x ← rSerializeInt k
  return signExtend k x

theorem signExtend_small {k n : Nat} (hk : 0 < k) (h : n < 2 ^ k) :
    signExtend k n = if n < 2 ^ (k - 1) then (n : Int) else n - 2 ^ k := by
  have e : (2 : Int) ^ k = 2 * 2 ^ (k - 1) := by
    rw [← Int.pow_succ', show k - 1 + 1 = k by omega]
  have e1 : ((2 ^ k : Nat) : Int) = 2 ^ k := by push_cast; rfl
  have e2 : ((2 ^ (k - 1) : Nat) : Int) = 2 ^ (k - 1) := by push_cast; rfl
  by_cases c : n < 2 ^ (k - 1)
  · rw [if_pos c]
    have := signExtend_eq k n hk (by unfold FitsBits; omega)
    rwa [Int.emod_eq_of_lt (by omega) (by omega), Int.toNat_natCast] at this
  · rw [if_neg c]
    have := signExtend_eq k (n - 2 ^ k) hk (by unfold FitsBits; omega)
    rwa [Int.sub_emod_right, Int.emod_eq_of_lt (by omega) (by omega), Int.toNat_natCast] at this

theorem unsigned_self (b : Bytes) (m : Nat) : Unsigned b.length b m [] ↔ m = leNat b := by
  rw [← rUnsigned_iff]
  unfold rUnsigned
  rw [if_pos (Nat.le_refl _), List.take_length, List.drop_length]
  simp [eq_comm]

theorem rBits_iff {k : Nat} (hk : 0 < k) {s rest : Bytes} {x : Int} : rBits k s = .ok (x, rest) ↔ Layout.Bits k s x rest := by
  unfold rBits rSerializeInt Layout.Bits
  simp only [bind_assoc, r_bind_iff, rRead_iff, unsigned_self, r_pure_iff]
  have bound : ∀ {b : Bytes}, Takes ((k + 7) / 8) s b rest → (k % 8 ≠ 0 → b ≠ []) →
      (if k % 8 = 0 then leNat b else leNat b % 2 ^ (8 * (b.length - 1) + k % 8)) < 2 ^ k := by
    intro b h1 h2
    have hl : b.length ≤ (k + 7) / 8 := by rcases h1.2 with h | h <;> omega
    by_cases c : k % 8 = 0
    · rw [if_pos c]
      have := leNat_lt b
      rw [pow256] at this
      exact Nat.lt_of_lt_of_le this (Nat.pow_le_pow_right (by decide) (by omega))
    · rw [if_neg c]
      have hb : 0 < b.length := List.length_pos_iff.2 (h2 c)
      exact Nat.lt_of_lt_of_le (Nat.mod_lt _ (Nat.two_pow_pos _)) (Nat.pow_le_pow_right (by decide) (by omega))
  constructor
  · rintro ⟨b, s1, h1, h2⟩
    by_cases c : k % 8 = 0
    · rw [if_neg (by omega)] at h2
      obtain ⟨n, s2, h3, rfl, rfl⟩ := h2
      obtain ⟨rfl, rfl⟩ := r_pure_inv h3
      have hb := bound h1 (fun h => absurd c h)
      rw [if_pos c] at hb
      exact ⟨b, _, _, h1, fun h => absurd c h, rfl, (if_pos c).symm, signExtend_small hk hb⟩
    · rw [if_pos c] at h2
      obtain ⟨n, s2, h3, rfl, rfl⟩ := h2
      obtain ⟨b', s3, h5, h6⟩ := r_bind_inv h3
      obtain ⟨h5, rfl⟩ := rLift_iff.1 h5
      obtain ⟨rfl, rfl⟩ := r_pure_inv h6
      have hne : b ≠ [] := by rintro rfl; cases h5
      obtain ⟨b2, e1, e2⟩ := maskLast_spec (k % 8) b hne
      rw [e1] at h5
      cases h5
      have hb := bound h1 fun _ => hne
      rw [if_neg c] at hb
      exact ⟨b, _, _, h1, fun _ => hne, rfl, (if_neg c).symm, by rw [e2]; exact signExtend_small hk hb⟩
  · rintro ⟨b, m, n, h1, h2, rfl, h3, h4⟩
    refine ⟨b, rest, h1, ?_⟩
    have hb := bound h1 h2
    rw [← h3] at hb
    rw [h4, ← signExtend_small hk hb]
    by_cases c : k % 8 = 0
    · rw [if_pos c] at h3
      rw [if_neg (by omega), h3]
      exact ⟨_, _, rfl, rfl, rfl⟩
    · rw [if_neg c] at h3
      obtain ⟨b2, e1, e2⟩ := maskLast_spec (k % 8) b (h2 c)
      rw [if_pos c, e1, h3, ← e2]
      exact ⟨_, _, rfl, rfl, rfl⟩

def rBitsV (k : Nat) : R Val := do
  let x ← rBits k
  return .int x

def rBitsF (k : Nat) : R Val := do
  let x ← rBits k
  return .float (intDiv x 1)

theorem rBitsV_reads {k : Nat} (hk : 0 < k) : Reads (rBitsV k) (Layout.bits k) := by
  intro s v rest
  unfold rBitsV Layout.bits
  simp only [r_bind_iff, r_pure_iff, rBits_iff hk]
  constructor
  · rintro ⟨x, _, h, rfl, rfl⟩; exact ⟨x, h, rfl⟩
  · rintro ⟨x, h, rfl⟩; exact ⟨x, _, h, rfl, rfl⟩

theorem intDiv_nearest (x : Int) : NearestFloat (decide (x < 0)) |(x : ℚ)| (intDiv x 1) := by
  have hn := roundMag_nearest x.natAbs 1 (by decide)
  rw [Nat.cast_one, div_one, show ((x.natAbs : Nat) : ℚ) = |(x : ℚ)| by rw [Nat.cast_natAbs, Int.cast_abs]] at hn
  refine ⟨_, hn, ?_⟩
  unfold intDiv
  rw [BitVec.toNat_ofNat, Nat.mod_eq_of_lt]
  · simp
  · generalize roundMag x.natAbs 1 = r
    split <;> omega

theorem rBitsF_reads {k : Nat} (hk : 0 < k) : Reads (rBitsF k) (Layout.bitsFloat k) := by
  intro s v rest
  unfold rBitsF Layout.bitsFloat
  simp only [r_bind_iff, r_pure_iff, rBits_iff hk]
  constructor
  · rintro ⟨x, _, h, rfl, rfl⟩; exact ⟨x, _, h, intDiv_nearest x, rfl⟩
  · rintro ⟨x, b, h, hb, rfl⟩; exact ⟨x, _, h, by rw [nearestFloat_unique hb (intDiv_nearest x)], rfl⟩

def rPackedV (an : Bool) : R Val := do
  let (x, y, z) ← rPackedVector an 1
  return dct [("x", x), ("y", y), ("z", z)]

/-- Three components of the same kind. -/
def rThree (x : R Val) : R Val := rRecord [("x", x), ("y", x), ("z", x)]

theorem rThree_reads {x : R Val} {L : Layout} (h : Reads x L) : Reads (rThree x) (.record [("x", L), ("y", L), ("z", L)]) := by
  unfold rThree; rows

theorem packed_eq (an : Bool) : rPackedV an = (do
    let info ← rU32
    if info % 64 = 0 then (if info / 64 = 0 then rThree (rFloat an) else rThree (rDouble an))
    else if info / 64 = 0 then rThree (rBitsV (info % 64)) else rThree (rBitsF (info % 64))) := by
  unfold rPackedV rPackedVector
  simp only [bind_assoc]
  refine bind_congr fun info => ?_
  rw [show info &&& 63 = info % 64 from Nat.and_two_pow_sub_one_eq_mod info 6, show info >>> 6 = info / 64 from Nat.shiftRight_eq_div_pow info 6]
  by_cases c1 : info % 64 = 0
  · rw [if_neg (by omega), if_pos c1]
    by_cases c2 : info / 64 = 0
    · rw [if_neg (by omega), if_pos c2]
      simp only [rThree, rRecord, rFields, bind_assoc, pure_bind]
    · rw [if_pos c2, if_neg c2]
      simp only [rThree, rRecord, rFields, bind_assoc, pure_bind]
  · rw [if_pos (by omega), if_neg c1]
    by_cases c2 : info / 64 = 0
    · simp only [if_pos c2, if_neg (show ¬ info / 64 ≠ 0 by omega)]
      simp only [rThree, rBitsV, rBits, rRecord, rFields, bind_assoc, pure_bind]
    · simp only [if_neg c2, if_pos (show info / 64 ≠ 0 by omega)]
      simp only [rThree, rBitsF, rBits, rRecord, rFields, bind_assoc, pure_bind]

theorem packed_reads (an : Bool) : Reads (rPackedV an) (Layout.packed an) := by
  intro s v rest
  rw [packed_eq]
  unfold Layout.packed
  simp only [r_bind_iff, rU32, rUnsigned_iff]
  have key : ∀ info : Nat, Reads
      (if info % 64 = 0 then (if info / 64 = 0 then rThree (rFloat an) else rThree (rDouble an))
        else if info / 64 = 0 then rThree (rBitsV (info % 64)) else rThree (rBitsF (info % 64)))
      (.record [("x", if info % 64 = 0 then (if info / 64 = 0 then .f32 an else .f64 an)
        else if info / 64 = 0 then .bits (info % 64) else .bitsFloat (info % 64)),
        ("y", if info % 64 = 0 then (if info / 64 = 0 then .f32 an else .f64 an)
        else if info / 64 = 0 then .bits (info % 64) else .bitsFloat (info % 64)),
        ("z", if info % 64 = 0 then (if info / 64 = 0 then .f32 an else .f64 an)
        else if info / 64 = 0 then .bits (info % 64) else .bitsFloat (info % 64))]) := by
    intro info
    by_cases c1 : info % 64 = 0 <;> by_cases c2 : info / 64 = 0 <;> simp only [c1, c2, if_true, if_false]
    · exact rThree_reads (rFloat_reads an)
    · exact rThree_reads (rDouble_reads an)
    · exact rThree_reads (rBitsV_reads (by omega))
    · exact rThree_reads (rBitsF_reads (by omega))
  constructor
  · rintro ⟨info, s', h1, h2⟩
    exact ⟨info, s', _, h1, rfl, (key info _ _ _).1 h2⟩
  · rintro ⟨info, s', _, h1, rfl, h2⟩
    exact ⟨info, s', h1, (key info _ _ _).2 h2⟩

theorem foliageInst_shows (an : Bool) : Shows (foliageInstanceDecode an) (whole (foliageInstance an)) := by
  have e : foliageInstanceDecode an = rWhole [("model_instance_id", rGuid),
      ("world_transform", rRecord [("rotator", rRecord [("pitch", rAngleV), ("yaw", rAngleV), ("roll", rAngleV)]),
        ("location", rPackedV an), ("scale_x", rFloat an)]),
      ("hp", rIV 4)] := by
    unfold foliageInstanceDecode rPackedV rAngleV rRotator
    simp only [rWhole, rRecord, rFields, rIV, bind_assoc, pure_bind]
    refine bind_congr fun g => bind_congr fun p => bind_congr fun y => bind_congr fun r => bind_congr fun c => ?_
    obtain ⟨x, y, z⟩ := c
    simp only [bind_assoc, pure_bind]
    rfl
  have a := angle_reads
  have p := packed_reads an
  rw [e]; refine rWhole_shows ?_
  unfold foliageInstance
  rows

end Pal
