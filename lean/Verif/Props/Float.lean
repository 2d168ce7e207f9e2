import Verif.Model.Json
import Verif.Lemmas.Prim
import Verif.Lemmas.Float
/-
C15 single-precision floats, C16 NaN and None, C17 --convert-nan-to-null.
-/

namespace Pal
open Spec

theorem rFloat_lit (an : Bool) (b : BitVec 32) (rest : Bytes) :
    rFloat an (lit 4 b.toNat ++ rest) = .ok (floatVal an (f32to64 b), rest) := by
  rw [rFloat, lit_eq, r_bind_ok (rUnsigned_le 4 b.toNat rest b.isLt)]
  simp

theorem rDouble_lit (an : Bool) (b : BitVec 64) (rest : Bytes) :
    rDouble an (lit 8 b.toNat ++ rest) = .ok (floatVal an b, rest) := by
  rw [rDouble, lit_eq, r_bind_ok (rUnsigned_le 8 b.toNat rest b.isLt)]
  simp

theorem wFloat_f32 (b : BitVec 32) (h : ¬ SNaN32 b) :
    wFloat (.float (f32to64 b)) = .ok (lit 4 b.toNat) := by
  simp [wFloat, asF64, f64to32_f32to64 b h, lit_eq]

theorem jsonFloat_not_nan (b : BitVec 64) (h : ¬ NaN64 b) : jsonFloat true b = .ok (.float b) := by
  have : isNaN64 b = false := by
    rw [← Bool.not_eq_true, isNaN64_iff]; exact h
  simp [jsonFloat, this]

theorem jsonFloat_nan (b : BitVec 64) (h : NaN64 b) : jsonFloat true b = .ok (.float nan64) := by
  simp [jsonFloat, (isNaN64_iff b).2 h]

/-! ### C15 -/

/-- C15: a 32-bit float that is not a signalling NaN, read as a Python float and written
again, gives the same four bytes. -/
theorem C15_float_roundtrip (b : BitVec 32) (h : ¬ SNaN32 b) (rest : Bytes) :
    ∃ v, rFloat true (lit 4 b.toNat ++ rest) = .ok (v, rest) ∧ wFloat v = .ok (lit 4 b.toNat) :=
  ⟨_, rFloat_lit true b rest, wFloat_f32 b h⟩

/-- C15: with JSON in between, every float that is not a NaN survives. -/
theorem C15_float_roundtrip_json (b : BitVec 32) (h : ¬ NaN32 b) (rest : Bytes) :
    ∃ v v', rFloat true (lit 4 b.toNat ++ rest) = .ok (v, rest) ∧ jsonRT true v = .ok v' ∧
      wFloat v' = .ok (lit 4 b.toNat) := by
  refine ⟨_, .float (f32to64 b), rFloat_lit true b rest, ?_, wFloat_f32 b (fun hs => h hs.1)⟩
  simp only [floatVal, if_true, jsonRT]
  exact jsonFloat_not_nan _ (fun hn => h ((f32to64_class b).1.1 hn))

/-- C15: doubles are copied bit for bit, and survive JSON unless they are NaNs. -/
theorem C15_double_roundtrip (b : BitVec 64) (rest : Bytes) :
    ∃ v, rDouble true (lit 8 b.toNat ++ rest) = .ok (v, rest) ∧ wDouble v = .ok (lit 8 b.toNat) ∧
      (¬ NaN64 b → ∃ v', jsonRT true v = .ok v' ∧ wDouble v' = .ok (lit 8 b.toNat)) := by
  have hw : wDouble (.float b) = .ok (lit 8 b.toNat) := by simp [wDouble, asF64, lit_eq]
  refine ⟨_, rDouble_lit true b rest, hw, fun h => ⟨.float b, ?_, hw⟩⟩
  simp only [floatVal, if_true, jsonRT]
  exact jsonFloat_not_nan _ h

/-- The exception is real: a signalling NaN always comes back as the quiet NaN with the
same sign and payload, which is a different pattern. -/
theorem C15_signalling_nan_changes (b : BitVec 32) (h : SNaN32 b) (rest : Bytes) :
    ∃ v, rFloat true (lit 4 b.toNat ++ rest) = .ok (v, rest) ∧
      wFloat v = .ok (lit 4 (b.toNat + 2 ^ 22)) ∧ lit 4 (b.toNat + 2 ^ 22) ≠ lit 4 b.toNat := by
  obtain ⟨hs, he, hm, hb⟩ := fields32 b
  have h255 : exp32 b = 255 := h.1.1
  have h0 : man32 b ≠ 0 := h.1.2
  have hlt : man32 b < 2 ^ 22 := h.2
  refine ⟨_, rFloat_lit true b rest, ?_, ?_⟩
  · have hf : f32to64 b = mk64 (sgn32 b) 2047 ((man32 b + 2 ^ 22) * 2 ^ 29) := by
      unfold f32to64
      simp only [h255, if_true]
      rw [if_neg h0]
      unfold quiet23
      rw [if_pos hlt]
    obtain ⟨f1, f2, f3⟩ := fields_mk64 (sgn32 b) 2047 ((man32 b + 2 ^ 22) * 2 ^ 29) hs (by omega) (by omega)
    have hg : (f64to32 (f32to64 b)).toNat = b.toNat + 2 ^ 22 := by
      rw [hf]
      unfold f64to32
      simp only [f1, f2, f3, if_true]
      rw [if_neg (by omega)]
      have : quiet52 ((man32 b + 2 ^ 22) * 2 ^ 29) = (man32 b + 2 ^ 22) * 2 ^ 29 := by
        unfold quiet52; rw [if_neg (by omega)]
      rw [this, Nat.mul_div_cancel _ (by decide), mk32_toNat _ _ _ hs (by omega) (by omega)]
      omega
    simp only [floatVal, if_true, wFloat, asF64, hg, lit_eq]
  · intro he
    rw [lit_eq, lit_eq] at he
    have := congrArg leNat he
    rw [leNat_leBytes, leNat_leBytes, Nat.mod_eq_of_lt b.isLt] at this
    omega

example : ¬ SNaN32 0x7fc00001#32 ∧ ¬ NaN32 0x80000001#32 ∧ SNaN32 0x7f800001#32 := by decide +kernel

/-! ### C16 -/

/-- C16: None is written as the canonical quiet NaN. -/
theorem C16_none_is_nan :
    wFloat .none = .ok (lit 4 qnan32.toNat) ∧ wDouble .none = .ok (lit 8 qnan64.toNat) :=
  ⟨rfl, rfl⟩

/-- C16: through JSON every 32-bit NaN becomes the canonical one, so its bytes are
preserved exactly when it already is the canonical one. -/
theorem C16_nan_json_float (b : BitVec 32) (h : NaN32 b) (rest : Bytes) :
    ∃ v v', rFloat true (lit 4 b.toNat ++ rest) = .ok (v, rest) ∧ jsonRT true v = .ok v' ∧
      wFloat v' = .ok (lit 4 qnan32.toNat) ∧
      (wFloat v' = .ok (lit 4 b.toNat) ↔ b = qnan32) := by
  have hw : wFloat (.float nan64) = .ok (lit 4 qnan32.toNat) := rfl
  refine ⟨_, .float nan64, rFloat_lit true b rest, ?_, hw, ?_⟩
  · simp only [floatVal, if_true, jsonRT]
    exact jsonFloat_nan _ ((f32to64_class b).1.2 h)
  · rw [hw]
    constructor
    · intro he
      simp only [Except.ok.injEq] at he
      rw [lit_eq, lit_eq] at he
      have := congrArg leNat he
      rw [leNat_leBytes, leNat_leBytes, Nat.mod_eq_of_lt b.isLt, Nat.mod_eq_of_lt qnan32.isLt] at this
      exact BitVec.eq_of_toNat_eq this.symm
    · intro he
      rw [he]

/-- C16: the same for doubles. -/
theorem C16_nan_json_double (b : BitVec 64) (h : NaN64 b) (rest : Bytes) :
    ∃ v v', rDouble true (lit 8 b.toNat ++ rest) = .ok (v, rest) ∧ jsonRT true v = .ok v' ∧
      wDouble v' = .ok (lit 8 qnan64.toNat) ∧
      (wDouble v' = .ok (lit 8 b.toNat) ↔ b = qnan64) := by
  have hw : wDouble (.float nan64) = .ok (lit 8 qnan64.toNat) := rfl
  refine ⟨_, .float nan64, rDouble_lit true b rest, ?_, hw, ?_⟩
  · simp only [floatVal, if_true, jsonRT]
    exact jsonFloat_nan _ h
  · rw [hw]
    constructor
    · intro he
      simp only [Except.ok.injEq] at he
      rw [lit_eq, lit_eq] at he
      have := congrArg leNat he
      rw [leNat_leBytes, leNat_leBytes, Nat.mod_eq_of_lt b.isLt, Nat.mod_eq_of_lt qnan64.isLt] at this
      exact BitVec.eq_of_toNat_eq this.symm
    · intro he
      rw [he]

example : NaN32 0xffc00001#32 ∧ NaN32 qnan32 ∧ NaN64 0xfff8000000000001#64 ∧ NaN64 qnan64 := by
  decide +kernel

/-! ### C17 -/

/-- C17: with `allow_nan=False`, reading a 32-bit float gives None exactly for the two
infinities. A NaN is never turned into None, and dumping it raises ValueError. -/
theorem C17_nan_to_null_float (b : BitVec 32) (rest : Bytes) :
    ∃ v, rFloat false (lit 4 b.toNat ++ rest) = .ok (v, rest) ∧
      (v = .none ↔ Inf32 b) ∧
      (NaN32 b → jsonRT false v = .error .value) ∧
      (¬ NaN32 b → ∃ v', jsonRT false v = .ok v') := by
  refine ⟨_, rFloat_lit false b rest, ?_, ?_, ?_⟩
  · rw [← (f32to64_class b).2, ← isInf64_iff]
    simp [floatVal]
  · intro h
    have hn := (f32to64_class b).1.2 h
    have hi : isInf64 (f32to64 b) = false := by
      rw [← Bool.not_eq_true, isInf64_iff]
      exact fun h' => hn.2 h'.2
    simp [floatVal, hi, jsonRT, jsonFloat, (isNaN64_iff _).2 hn]
  · intro h
    have hn : isNaN64 (f32to64 b) = false := by
      rw [← Bool.not_eq_true, isNaN64_iff]
      exact fun h' => h ((f32to64_class b).1.1 h')
    cases hi : isInf64 (f32to64 b) with
    | true => exact ⟨.none, by simp [floatVal, hi, jsonRT]⟩
    | false => exact ⟨.float (f32to64 b), by simp [floatVal, hi, jsonRT, jsonFloat, hn]⟩

/-- C17: the same for doubles. -/
theorem C17_nan_to_null_double (b : BitVec 64) (rest : Bytes) :
    ∃ v, rDouble false (lit 8 b.toNat ++ rest) = .ok (v, rest) ∧
      (v = .none ↔ Inf64 b) ∧
      (NaN64 b → jsonRT false v = .error .value) ∧
      (¬ NaN64 b → ∃ v', jsonRT false v = .ok v') := by
  refine ⟨_, rDouble_lit false b rest, ?_, ?_, ?_⟩
  · rw [← isInf64_iff]
    simp [floatVal]
  · intro hn
    have hi : isInf64 b = false := by
      rw [← Bool.not_eq_true, isInf64_iff]
      exact fun h' => hn.2 h'.2
    simp [floatVal, hi, jsonRT, jsonFloat, (isNaN64_iff _).2 hn]
  · intro h
    have hn : isNaN64 b = false := by
      rw [← Bool.not_eq_true, isNaN64_iff]
      exact h
    cases hi : isInf64 b with
    | true => exact ⟨.none, by simp [floatVal, hi, jsonRT]⟩
    | false => exact ⟨.float b, by simp [floatVal, hi, jsonRT, jsonFloat, hn]⟩

/-- C17: the information is lost: an infinity converted to null comes back as a NaN. -/
theorem C17_inf_becomes_nan (b : BitVec 32) (h : Inf32 b) (rest : Bytes) :
    ∃ v v', rFloat false (lit 4 b.toNat ++ rest) = .ok (v, rest) ∧ jsonRT false v = .ok v' ∧
      wFloat v' = .ok (lit 4 qnan32.toNat) := by
  obtain ⟨v, h1, h2, _, _⟩ := C17_nan_to_null_float b rest
  have := h2.2 h
  subst this
  exact ⟨.none, .none, h1, by simp [jsonRT], rfl⟩

example : Inf32 0xff800000#32 ∧ Inf64 0x7ff0000000000000#64 ∧ NaN32 0x7fc00000#32 := by decide +kernel

end Pal
