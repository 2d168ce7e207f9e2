import Verif.Lemmas.Attr
import Verif.Lemmas.Json
/-
Reading and writing the field types of `Spec/Types.lean`.
-/

namespace Pal
open Spec

/-! ### literals -/

theorem P_inj (s t : String) : P s = P t ↔ s = t := by
  constructor
  · intro h
    have : s.toList = t.toList := by
      refine (List.map_inj_right ?_).1 h
      intro a b hab
      exact Char.ext (UInt32.toNat_inj.1 hab)
    exact String.toList_inj.1 this
  · rintro rfl; rfl

/-! ### reading -/

attribute [rd] r_bind r_pure List.append_assoc

theorem dct_eq (l : List (String × Val)) : dct l = vDict l := rfl

@[rd] theorem rUnsigned_lit (k n : Nat) (h : n < 256 ^ k) (rest : Bytes) :
    rUnsigned k (lit k n ++ rest) = .ok (n, rest) := by rw [lit_eq, rUnsigned_le k n rest h]

@[rd] theorem rByte_e8 (n : BitVec 8) (rest : Bytes) : rByte (e8 n ++ rest) = .ok (n.toNat, rest) :=
  rUnsigned_lit 1 n.toNat n.isLt rest
@[rd] theorem rU16_e16 (n : BitVec 16) (rest : Bytes) : rU16 (e16 n ++ rest) = .ok (n.toNat, rest) :=
  rUnsigned_lit 2 n.toNat n.isLt rest
@[rd] theorem rU32_e32 (n : BitVec 32) (rest : Bytes) : rU32 (e32 n ++ rest) = .ok (n.toNat, rest) :=
  rUnsigned_lit 4 n.toNat n.isLt rest
@[rd] theorem rU64_e64 (n : BitVec 64) (rest : Bytes) : rU64 (e64 n ++ rest) = .ok (n.toNat, rest) :=
  rUnsigned_lit 8 n.toNat n.isLt rest

theorem bv_toNat_mod (w : Nat) (n : BitVec w) : (n.toInt % 2 ^ w).toNat = n.toNat := by
  have h := BitVec.toNat_ofInt (n := w) n.toInt
  rw [BitVec.ofInt_toInt] at h
  rw [h]
  norm_cast

theorem lit_twos (k w : Nat) (hw : w = 8 * k) (n : BitVec w) : lit k n.toNat = twos k n.toInt := by
  subst hw
  rw [twos, bv_toNat_mod]

theorem inSigned_bv (k w : Nat) (hw : w = 8 * k) (n : BitVec w) : InSigned k n.toInt := by
  subst hw
  obtain ⟨h1, h2⟩ : -2 ^ (8 * k - 1) ≤ n.toInt ∧ n.toInt < 2 ^ (8 * k - 1) :=
    ⟨BitVec.le_toInt n, BitVec.toInt_lt⟩
  exact ⟨h1, h2⟩

theorem rSigned_bv (k w : Nat) (hk : 0 < k) (hw : w = 8 * k) (n : BitVec w) (rest : Bytes) :
    rSigned k (lit k n.toNat ++ rest) = .ok (n.toInt, rest) := by
  rw [lit_twos k w hw, twos_eq]
  exact rSigned_le k _ rest ((inSigned_iff k hk _).1 (inSigned_bv k w hw n))

@[rd] theorem rI32_e32 (n : BitVec 32) (rest : Bytes) : rI32 (e32 n ++ rest) = .ok (n.toInt, rest) :=
  rSigned_bv 4 32 (by decide) rfl n rest
@[rd] theorem rI64_e64 (n : BitVec 64) (rest : Bytes) : rI64 (e64 n ++ rest) = .ok (n.toInt, rest) :=
  rSigned_bv 8 64 (by decide) rfl n rest

@[rd] theorem rFString_eStr (s : Str) (rest : Bytes) : rFString (eStr s ++ rest) = .ok (s.val, rest) :=
  rFString_enc s.val rest s.2
@[rd] theorem rStr_eStr (s : Str) (rest : Bytes) : rStr (eStr s ++ rest) = .ok (vStr s, rest) := by
  rw [rStr, r_bind_ok (rFString_eStr s rest)]; rfl
@[rd] theorem rGuid_eGuid (g : Guid) (rest : Bytes) : rGuid (eGuid g ++ rest) = .ok (vGuid g, rest) := by
  have h : rRead 16 (g.val ++ rest) = .ok (g.val, rest) := by
    have := rRead_append g.val rest
    rwa [g.2] at this
  rw [rGuid, eGuid, r_bind_ok h]; rfl
@[rd] theorem rUuid_eGuid (g : Guid) (rest : Bytes) : rUuid (eGuid g ++ rest) = .ok (vGuid g, rest) := by
  have h : rRead 16 (g.val ++ rest) = .ok (g.val, rest) := by
    have := rRead_append g.val rest
    rwa [g.2] at this
  rw [rUuid, eGuid, r_bind_ok h, if_neg (by simp [g.2])]; rfl
@[rd] theorem rOptGuid_e (g : Option Guid) (rest : Bytes) : rOptGuid (eOptGuid g ++ rest) = .ok (vOptGuid g, rest) := by
  cases g with
  | none => rfl
  | some g =>
    have h : rRead 1 ([1] ++ g.val ++ rest) = .ok ([1], g.val ++ rest) := rfl
    rw [rOptGuid, eOptGuid, r_bind_ok h]
    exact rGuid_eGuid g rest

@[rd] theorem rFloat_eF32 {m : Mode} (f : F32 m) (rest : Bytes) : rFloat m.an (eF32 f ++ rest) = .ok (vF32 f, rest) := by
  rw [eF32, rFloat_lit]
  unfold floatVal
  obtain ⟨_, h1, _⟩ := f.2
  split
  · rfl
  · rename_i h
    rw [if_neg]
    · rfl
    · rw [isInf64_iff]
      intro hi
      exact h1 (by simpa using h) ((f32to64_class f.val).2.1 hi)
@[rd] theorem rDouble_eF64 {m : Mode} (f : F64 m) (rest : Bytes) : rDouble m.an (eF64 f ++ rest) = .ok (vF64 f, rest) := by
  rw [eF64, rDouble_lit]
  unfold floatVal
  obtain ⟨h1, _⟩ := f.2
  split
  · rfl
  · rename_i h
    rw [if_neg]
    · rfl
    · rw [isInf64_iff]
      exact h1 (by simpa using h)

@[rd] theorem rBool_eBool (b : Bool) (rest : Bytes) : rBool (eBool b ++ rest) = .ok (b, rest) := by
  cases b <;> rfl
@[rd] theorem rU32_eFlag (b : Bool) (rest : Bytes) : rU32 (eFlag b ++ rest) = .ok (if b then 1 else 0, rest) := by
  cases b <;> rfl
@[rd] theorem flag_val (b : Bool) : Val.bool (decide ((if b = true then 1 else 0) > 0)) = vBool b := by
  cases b <;> rfl

theorem rRepeat_enc {α β : Type} {x : R β} {e : α → Bytes} {v : α → β}
    (h : ∀ a rest, x (e a ++ rest) = .ok (v a, rest)) (l : List α) (rest : Bytes) :
    rRepeat x l.length (l.flatMap e ++ rest) = .ok (l.map v, rest) := by
  induction l with
  | nil => rfl
  | cons a t ih =>
    rw [List.length_cons, rRepeat, List.flatMap_cons, List.append_assoc, r_bind_ok (h a _), r_bind_ok ih]
    rfl

theorem rU32_count {α : Type} (l : Lst α) (rest : Bytes) :
    rU32 (lit 4 l.val.length ++ rest) = .ok (l.val.length, rest) :=
  rUnsigned_lit 4 _ (by have := l.2; omega) rest

theorem rTArray_eList {α : Type} {x : R Val} {e : α → Bytes} {v : α → Val}
    (h : ∀ a rest, x (e a ++ rest) = .ok (v a, rest)) (l : Lst α) (rest : Bytes) :
    rTArray x (eList e l ++ rest) = .ok (vList v l, rest) := by
  rw [rTArray, eList, List.append_assoc, r_bind_ok (rU32_count l _), r_bind_ok (rRepeat_enc h l.val rest)]
  rfl

@[rd] theorem rCheckEof_nil : rCheckEof [] = .ok ((), []) := rfl
@[rd] theorem rCheckEofFor_nil : rCheckEofFor [] = .ok ((), []) := rfl
theorem rCheckEof_ne (rest : Bytes) (h : rest ≠ []) :
    rCheckEof rest = .error (.exc "Warning: EOF not reached") := by
  cases rest with
  | nil => exact absurd rfl h
  | cons => rfl
theorem rCheckEofFor_ne (rest : Bytes) (h : rest ≠ []) :
    rCheckEofFor rest = .error (.exc "Warning: EOF not reached for") := by
  cases rest with
  | nil => exact absurd rfl h
  | cons => rfl

@[rd] theorem rVectorDict_e {m : Mode} (v : Vec m) (rest : Bytes) :
    rVectorDict m.an (eVec v ++ rest) = .ok (vVec v, rest) := by
  simp only [rVectorDict, eVec, rd]; rfl
@[rd] theorem rQuatDict_e {m : Mode} (v : Quat m) (rest : Bytes) :
    rQuatDict m.an (eQuat v ++ rest) = .ok (vQuat v, rest) := by
  simp only [rQuatDict, eQuat, rd]; rfl
@[rd] theorem rFTransform_e {m : Mode} (v : Transform m) (rest : Bytes) :
    rFTransform m.an (eTransform v ++ rest) = .ok (vTransform v, rest) := by
  simp only [rFTransform, eTransform, rd]; rfl

/-! ### writing -/

attribute [wr] P_inj

theorem wcat_nil' : wcat [] = .ok [] := rfl
@[wr] theorem wcat_ok_cons (b : Bytes) (t : List (Except Err Bytes)) :
    wcat (.ok b :: t) = match wcat t with
      | .ok c => .ok (b ++ c)
      | .error e => .error e := by
  cases h : wcat t <;> simp [wcat, h]
attribute [wr] wcat_nil'

@[wr] theorem get_vDict_cons (k k' : String) (x : Val) (t : List (String × Val)) :
    (vDict ((k', x) :: t)).get (P k) = if k' = k then .ok x else (vDict t).get (P k) := by
  simp only [vDict, Val.get, List.map_cons, dget?, P_inj]
  by_cases h : k' = k <;> simp [h]

@[wr] theorem wAt_nil (v : Val) (w : Val → Except Err Bytes) : wAt v [] w = w v := rfl
@[wr] theorem wAt_cons (v : Val) (k : String) (ks : List String) (w : Val → Except Err Bytes) :
    wAt v (k :: ks) w = match v.get (P k) with
      | .ok x => wAt x ks w
      | .error e => .error e := by
  simp only [wAt, List.map_cons, Val.path]
  cases v.get (P k) <;> rfl

@[wr] theorem wGuid_v (g : Guid) : wGuid (vGuid g) = .ok (eGuid g) := rfl
@[wr] theorem wFString_v (s : Str) : wFString (vStr s) = .ok (eStr s) := fstringBytes_eq s.val s.2.2
@[wr] theorem wFString_str (s : Str) : wFString (.str s.val) = .ok (eStr s) := fstringBytes_eq s.val s.2.2
@[wr] theorem fstringBytes_str (s : Str) : fstringBytes s.val = .ok (eStr s) := fstringBytes_eq s.val s.2.2

theorem wUnsigned_bv (k w : Nat) (hw : w = 8 * k) (n : BitVec w) :
    wUnsigned k (vU n) = .ok (lit k n.toNat) := by
  rw [vU, wUnsigned_in k n.toNat (by rw [pow256, ← hw]; exact n.isLt), lit_eq]
theorem wSigned_bv (k w : Nat) (hk : 0 < k) (hw : w = 8 * k) (n : BitVec w) :
    wSigned k (vI n) = .ok (lit k n.toNat) := by
  rw [vI, wSigned_in k _ ((inSigned_iff k hk _).1 (inSigned_bv k w hw n)), lit_twos k w hw, twos_eq]
@[wr] theorem wU_v (n : BitVec 8) : wU (vU n) = .ok (e8 n) := wUnsigned_bv 1 8 rfl n
@[wr] theorem wU16_v (n : BitVec 16) : wU16 (vU n) = .ok (e16 n) := wUnsigned_bv 2 16 rfl n
@[wr] theorem wU32_v (n : BitVec 32) : wU32 (vU n) = .ok (e32 n) := wUnsigned_bv 4 32 rfl n
@[wr] theorem wU64_v (n : BitVec 64) : wU64 (vU n) = .ok (e64 n) := wUnsigned_bv 8 64 rfl n
@[wr] theorem wI32_v (n : BitVec 32) : wI32 (vI n) = .ok (e32 n) := wSigned_bv 4 32 (by decide) rfl n
@[wr] theorem wI64_v (n : BitVec 64) : wI64 (vI n) = .ok (e64 n) := wSigned_bv 8 64 (by decide) rfl n
@[wr] theorem wByte_v (n : BitVec 8) : wByte (vU n) = .ok (e8 n) := by
  have h := n.isLt
  simp only [wByte, byteOf, vU, Val.asInt?]
  rw [if_pos (by omega)]
  simp only [e8, lit, List.range_one, List.map_cons, List.map_nil, Nat.pow_zero, Nat.div_one]
  rw [show ((n.toNat : Int)).toNat = n.toNat from rfl]
  congr 2
  apply UInt8.toNat_inj.1
  simp
  omega
@[wr] theorem wFloat_v {m : Mode} (f : F32 m) : wFloat (vF32 f) = .ok (eF32 f) := wFloat_f32 f.val f.2.1
@[wr] theorem wDouble_v {m : Mode} (f : F64 m) : wDouble (vF64 f) = .ok (eF64 f) := by
  simp [wDouble, asF64, vF64, eF64, lit_eq]
@[wr] theorem wBool_v (b : Bool) : wBool (vBool b) = .ok (eBool b) := by cases b <;> rfl
@[wr] theorem wFlag_v (b : Bool) : wFlag32 (vBool b) = .ok (eFlag b) := by cases b <;> rfl
@[wr] theorem wOptGuid_v (g : Option Guid) : wOptGuid (vOptGuid g) = .ok (eOptGuid g) := by
  cases g with
  | none => rfl
  | some g => simp [wOptGuid, vOptGuid, wGuid, wBool, wcat, eOptGuid, Val.truthy]
@[wr] theorem wBytesOf_L (b : Bytes) : wBytesOf (vBytesL b) = .ok b := mapE_byteOf_ints b
@[wr] theorem wBytesOf_T (b : Bytes) : wBytesOf (vBytesT b) = .ok b := mapE_byteOf_ints b

theorem wItems_enc {α : Type} {w : Val → Except Err Bytes} {e : α → Bytes} {v : α → Val}
    (h : ∀ a, w (v a) = .ok (e a)) (l : List α) : wItems w (l.map v) = .ok (l.flatMap e) := by
  induction l with
  | nil => rfl
  | cons a t ih =>
    simp only [wItems, List.map_cons, List.flatMap_cons] at ih ⊢
    simp only [wcat, h, ih]

theorem wTArray_v {α : Type} {w : Val → Except Err Bytes} {e : α → Bytes} {v : α → Val}
    (h : ∀ a, w (v a) = .ok (e a)) (l : Lst α) : wTArray w (vList v l) = .ok (eList e l) := by
  simp only [wTArray, vList, Val.seqItems, wItems_enc h, List.length_map]
  have h2 := wUnsigned_in 4 l.val.length (by have := l.2; omega)
  change wcat [wUnsigned 4 _, _] = _
  rw [h2, eList, lit_eq]
  simp only [wcat, List.append_nil]

@[wr] theorem wVectorDict_v {m : Mode} (v : Vec m) : wVectorDict (vVec v) = .ok (eVec v) := by
  simp [wVectorDict, vVec, eVec, wr]
@[wr] theorem wQuatDict_v {m : Mode} (v : Quat m) : wQuatDict (vQuat v) = .ok (eQuat v) := by
  simp [wQuatDict, vQuat, eQuat, wr]
@[wr] theorem wFTransform_v {m : Mode} (v : Transform m) : wFTransform (vTransform v) = .ok (eTransform v) := by
  simp [wFTransform, vTransform, eTransform, wr]

end Pal
