import Verif.Lemmas.Size
import Verif.Lemmas.Fields
import Verif.Model.Codec
/-
How large a document gets with decoders.  The list of bytes under `"values"` is weighed as what a
decoder may make of it: eight values for each byte, and sixty more.
-/

namespace Pal
namespace Weight
open Spec

/-- The number of bytes a decoder would be given for this value. -/
def blobLen (v : Val) : Nat :=
  match toBytes v with
  | .ok b => b.length
  | .error _ => 0

mutual
/-- The number of values, where the entry `"values"` of a dict weighs at least as much as what a decoder makes of it. -/
def weight : Val → Nat
  | .list l => 1 + weightL l
  | .tuple l => 1 + weightL l
  | .dict d => 1 + weightD d
  | _ => 1
def weightL : List Val → Nat
  | [] => 0
  | v :: t => weight v + weightL t
def weightD : List (PyStr × Val) → Nat
  | [] => 0
  | (k, v) :: t => (if k = P "values" then max (weight v) (61 + 8 * blobLen v) else weight v) + weightD t
end

mutual
theorem values_le : ∀ v, values v ≤ weight v
  | .list l => by simp only [values, weight]; have := valuesL_le l; omega
  | .tuple l => by simp only [values, weight]; have := valuesL_le l; omega
  | .dict d => by simp only [values, weight]; have := valuesD_le d; omega
  | .none | .bool _ | .int _ | .float _ | .str _ | .bytes _ | .uuid _ => Nat.le_refl _
theorem valuesL_le : ∀ l, valuesL l ≤ weightL l
  | [] => Nat.le_refl _
  | v :: t => by simp only [valuesL, weightL]; have := values_le v; have := valuesL_le t; omega
theorem valuesD_le : ∀ d, valuesD d ≤ weightD d
  | [] => Nat.le_refl _
  | (k, v) :: t => by
    simp only [valuesD, weightD]
    have := values_le v; have := valuesD_le t
    split <;> omega
end

theorem weight_pos (v : Val) : 1 ≤ weight v := by
  cases v <;> simp [weight]

/-! ### readers -/

/-- What was read is worth `m` eighths of bytes: always, or if something is left. -/
def Paid (q : Bool) {α : Type} (x : R α) (m : α → Nat) : Prop :=
  ∀ s v s', x s = .ok (v, s') → s'.length ≤ s.length ∧ (q = true ∨ s' ≠ [] → m v + 8 * s'.length ≤ 8 * s.length)

variable {q : Bool}

theorem paid_bind {α β : Type} {x : R α} {f : α → R β} {m : α → Nat} {t : β → Nat} (hx : Paid q x m)
    (hf : ∀ a, Paid q (f a) fun b => t b - m a) : Paid q (x >>= f) t := by
  intro s v s' h
  obtain ⟨a, s1, h1, h2⟩ := r_bind_inv h
  have e1 := hx _ _ _ h1
  have e2 := hf _ _ _ _ h2
  refine ⟨by omega, fun hq => ?_⟩
  have a1 := e1.2 (hq.imp id fun hne e => hne (by
    have := e2.1
    rw [e] at this
    exact List.length_eq_zero_iff.1 (by simpa using this)))
  have a2 := e2.2 hq
  beta_reduce at a2
  omega

theorem paid_pure {α : Type} {a : α} {m : α → Nat} (h : m a = 0) : Paid q (pure a) m := by
  intro s v s' e
  cases e
  exact ⟨Nat.le_refl _, fun _ => by omega⟩

theorem paid_fail {α : Type} {e : Err} {m : α → Nat} : Paid q (rFail e) m := fun _ _ _ h => (nomatch h)

theorem paid_ite {α : Type} {c : Prop} [Decidable c] {a b : R α} {m : α → Nat} (h : Paid q a m) (g : Paid q b m) :
    Paid q (if c then a else b) m := by
  split
  · exact h
  · exact g

theorem paid_mono {α : Type} {x : R α} {m m' : α → Nat} (h : Paid q x m) (hm : ∀ a, m' a ≤ m a) : Paid q x m' := by
  intro s v s' e
  obtain ⟨h1, h2⟩ := h _ _ _ e
  exact ⟨h1, fun hq => Nat.le_trans (Nat.add_le_add_right (hm v) _) (h2 hq)⟩

theorem paid_any {α : Type} {x : R α} {m : α → Nat} (h : Paid true x m) : Paid q x m :=
  fun s v s' e => ⟨(h s v s' e).1, fun _ => (h s v s' e).2 (.inl rfl)⟩

theorem paid_try {α : Type} {x : R α} {h : Err → R α} {m : α → Nat} (hx : Paid q x m) (hh : ∀ e, Paid q (h e) m) : Paid q (rTry x h) m := by
  intro s v s' e
  unfold rTry at e
  split at e
  · rename_i r hr
    cases e
    exact hx _ _ _ hr
  · cases e
  · exact hh _ _ _ _ e

theorem paid_lift {α : Type} {x : Except Err α} {m : α → Nat} (h : ∀ a, x = .ok a → m a = 0) : Paid q (rLift x) m := by
  intro s v s' e
  obtain ⟨e', rfl⟩ := rLift_inv e
  exact ⟨Nat.le_refl _, fun _ => by rw [h _ e']; omega⟩

theorem paid_unsigned (k : Nat) : Paid q (rUnsigned k) fun _ => 8 * k := by
  intro s v s' h
  unfold rUnsigned at h
  split at h
  · cases h
    rw [List.length_drop]
    exact ⟨by omega, fun _ => by beta_reduce; omega⟩
  · cases h

theorem paid_signed (k : Nat) : Paid q (rSigned k) fun _ => 8 * k := by
  intro s v s' h
  unfold rSigned at h
  split at h
  · cases h
    rw [List.length_drop]
    exact ⟨by omega, fun _ => by beta_reduce; omega⟩
  · cases h

theorem paid_read (k : Nat) : Paid q (rRead k) fun b => 8 * b.length := by
  intro s v s' h
  cases h
  beta_reduce
  rw [List.length_drop, List.length_take]
  exact ⟨by omega, fun _ => by omega⟩

theorem paid_read0 (k : Nat) : Paid q (rRead k) fun _ => 0 := paid_mono (paid_read k) fun _ => Nat.zero_le _

theorem paid_toEnd : Paid q rReadToEnd fun b => 8 * b.length := by
  intro s v s' h
  cases h
  exact ⟨by simp, fun _ => by simp⟩

theorem paid_remaining : Paid q rRemaining fun _ => 0 := by
  intro s v s' h
  cases h
  exact ⟨Nat.le_refl _, fun _ => by simp⟩

theorem paid_isEof : Paid q rEof fun _ => 0 := by
  intro s v s' h
  cases h
  exact ⟨Nat.le_refl _, fun _ => by simp⟩

theorem paid_eof : Paid q rCheckEof fun _ => 0 := by
  intro s v s' h
  cases s with
  | nil => cases h; exact ⟨Nat.le_refl _, fun _ => by simp⟩
  | cons => cases h

theorem paid_eofFor : Paid q rCheckEofFor fun _ => 0 := by
  intro s v s' h
  cases s with
  | nil => cases h; exact ⟨Nat.le_refl _, fun _ => by simp⟩
  | cons => cases h

/-- A GUID that is read whole. -/
theorem full_guid : Paid false rGuid fun v => weight v + 127 := by
  intro s v s' h
  cases h
  refine ⟨by rw [List.length_drop]; omega, fun hne => ?_⟩
  have hne := hne.resolve_left (by simp)
  have : (s.drop 16).length ≠ 0 := fun e => hne (List.length_eq_zero_iff.1 e)
  rw [List.length_drop] at this ⊢
  simp only [weight]
  omega

/-- A GUID that may be cut off. -/
theorem paid_guid : Paid q rGuid fun v => weight v - 1 :=
  paid_bind (paid_read0 16) fun b => paid_pure (by simp [weight])

theorem paid_uuid : Paid q rUuid fun v => weight v + 127 := by
  refine paid_bind (paid_read 16) fun b => ?_
  intro s v s' h
  split at h
  · cases h
  · cases h
    exact ⟨Nat.le_refl _, fun _ => by simp only [weight]; omega⟩

theorem paid_optGuid : Paid false rOptGuid fun v => weight v + 7 := by
  intro s v s' h
  unfold rOptGuid at h
  cases s with
  | nil => cases h
  | cons b t =>
    have h : (if b = 0 then return .none else rGuid : R Val) t = .ok (v, s') := h
    split at h
    · cases h
      refine ⟨by simp, fun _ => ?_⟩
      simp only [List.length_cons, weight]; omega
    · obtain ⟨h1, h2⟩ := full_guid _ _ _ h
      refine ⟨by simp only [List.length_cons]; omega, fun hne => ?_⟩
      have := h2 hne
      simp only [List.length_cons] at this ⊢; omega

theorem paid_fstring : Paid q rFString fun _ => 32 := by
  refine paid_bind (paid_signed 4) fun n => ?_
  refine paid_ite (paid_pure rfl) (paid_ite (paid_bind (paid_read0 _) fun d => ?_) (paid_bind (paid_read0 _) fun d => ?_))
  · split
    · exact paid_pure rfl
    · exact paid_fail
  · split
    · exact paid_pure rfl
    · exact paid_fail

theorem paid_str : Paid q rStr fun v => weight v + 31 := paid_bind paid_fstring fun _ => paid_pure (by simp [weight])
theorem paid_i32 : Paid q rI32Val fun v => weight v + 31 := paid_bind (paid_signed 4) fun _ => paid_pure (by simp [weight])
theorem paid_i64 : Paid q rI64Val fun v => weight v + 63 := paid_bind (paid_signed 8) fun _ => paid_pure (by simp [weight])
theorem paid_byteVal : Paid q rByteVal fun v => weight v + 7 := paid_bind (paid_unsigned 1) fun _ => paid_pure (by simp [weight])
theorem paid_bool : Paid q rBool fun _ => 8 := paid_bind (paid_unsigned 1) fun _ => paid_pure rfl

theorem weight_float (an : Bool) (b : BitVec 64) : weight (floatVal an b) = 1 := by
  unfold floatVal
  split
  · rfl
  · split <;> rfl

theorem paid_float (an : Bool) : Paid q (rFloat an) fun v => weight v + 31 := paid_bind (paid_unsigned 4) fun _ => paid_pure (by simp [weight_float])
theorem paid_double (an : Bool) : Paid q (rDouble an) fun v => weight v + 63 := paid_bind (paid_unsigned 8) fun _ => paid_pure (by simp [weight_float])

theorem weightL_ints (b : Bytes) : weightL (b.map fun x => Val.int x.toNat) = b.length := by
  induction b with
  | nil => rfl
  | cons x t ih => simp only [List.map_cons, weightL, weight, ih, List.length_cons]; omega

theorem mapE_length {α β : Type} {f : α → Except Err β} : ∀ {l : List α} {r : List β}, mapE f l = .ok r → r.length = l.length
  | [], r, h => by cases h; rfl
  | a :: t, r, h => by
    unfold mapE at h
    split at h
    · split at h
      · cases h
        rename_i e
        simp [mapE_length e]
      · cases h
    · cases h

theorem blobLen_list (l : List Val) : blobLen (.list l) ≤ l.length := by
  unfold blobLen
  split
  · rename_i b e
    exact Nat.le_of_eq (mapE_length (show mapE byteOf l = .ok b from e))
  · omega

/-- A list as the entry `"values"`. -/
def heavy (l : List Val) : Nat := max (weightL l) (8 * l.length)

theorem paid_repeat {x : R Val} (h : Paid q x weight) : ∀ n, Paid q (rRepeat x n) weightL
  | 0 => paid_pure rfl
  | n + 1 => paid_bind h fun a => paid_bind (paid_repeat h n) fun l => paid_pure (by simp only [weightL]; omega)

theorem heavy_repeat {x : R Val} (h : Paid q x fun v => weight v + 7) : ∀ n, Paid q (rRepeat x n) heavy
  | 0 => paid_pure rfl
  | n + 1 => paid_bind h fun a => paid_bind (heavy_repeat h n) fun l => paid_pure (by
      have := weight_pos a
      simp only [heavy, weightL, List.length_cons]; omega)

/-- The value under `"values"`. -/
def entry (v : Val) : Nat := max (weight v) (61 + 8 * blobLen v)

theorem entry_list (l : List Val) : entry (.list l) ≤ 61 + heavy l := by
  have := blobLen_list l
  simp only [entry, heavy, weight]; omega

theorem entry_tuple (l : List Val) : entry (.tuple l) ≤ 61 + heavy l := by
  have : blobLen (.tuple l) ≤ l.length := blobLen_list l
  simp only [entry, heavy, weight]; omega

theorem heavy_byteList (n : Nat) : Paid q (rByteList n) fun v => entry v - 61 := by
  intro s v s' h
  unfold rByteList at h
  split at h
  · cases h
    have := entry_tuple ((s.take n).map fun x => Val.int x.toNat)
    simp only [heavy, weightL_ints, List.length_map, List.length_take] at this
    rw [List.length_drop]
    exact ⟨by omega, fun _ => by beta_reduce; omega⟩
  · cases h

theorem paid_byteList (n : Nat) : Paid q (rByteList n) fun v => weight v - 1 := by
  intro s v s' h
  unfold rByteList at h
  split at h
  · cases h
    rename_i hn
    simp only [weight, weightL_ints, List.length_drop, List.length_take]
    exact ⟨by omega, fun _ => by omega⟩
  · cases h

/-- The arithmetic at the end of a reader. -/
macro "pay" : tactic => `(tactic| (simp [dct, weight, weightD, weightL, P_inj, weightL_ints] <;> omega))

theorem paid_val {x : R Val} {k : Nat} (h : Paid q x fun v => weight v + k) : Paid q x weight := paid_mono h fun _ => Nat.le_add_right _ _

theorem paid_seven {x : R Val} {k : Nat} (h : Paid q x fun v => weight v + (k + 7)) : Paid q x fun v => weight v + 7 :=
  paid_mono h fun v => by beta_reduce; omega

theorem paid_array {x : R Val} (h : Paid q x weight) : Paid q (rTArray x) fun v => weight v + 31 :=
  paid_bind (paid_unsigned 4) fun n => paid_bind (paid_repeat h n) fun l => paid_pure (by simp only [weight]; omega)

theorem paid_vector (an : Bool) : Paid q (rVectorDict an) fun v => weight v + 7 :=
  paid_bind (paid_double an) fun _ => paid_bind (paid_double an) fun _ => paid_bind (paid_double an) fun _ => paid_pure (by pay)

theorem paid_quat (an : Bool) : Paid q (rQuatDict an) fun v => weight v + 7 :=
  paid_bind (paid_double an) fun _ => paid_bind (paid_double an) fun _ => paid_bind (paid_double an) fun _ =>
    paid_bind (paid_double an) fun _ => paid_pure (by pay)

theorem paid_transform (an : Bool) : Paid q (rFTransform an) fun v => weight v :=
  paid_bind (paid_quat an) fun _ => paid_bind (paid_vector an) fun _ => paid_bind (paid_vector an) fun _ => paid_pure (by pay)

/-! ### properties -/

section
variable {rec : PyStr → R Val} (hr : ∀ p, Paid true (rec p) fun v => weight v + 31)
include hr

theorem paid_structValue (an : Bool) (st path : PyStr) : Paid false (rStructValue an rec st path) fun v => weight v + 7 := by
  unfold rStructValue
  refine paid_ite (paid_vector an) (paid_ite (paid_bind (paid_unsigned 8) fun _ => paid_pure (by simp [weight]))
    (paid_ite (paid_seven full_guid) (paid_ite (paid_quat an) (paid_ite ?_ (paid_seven (paid_any (hr path)))))))
  exact paid_bind (paid_float an) fun _ => paid_bind (paid_float an) fun _ => paid_bind (paid_float an) fun _ =>
    paid_bind (paid_float an) fun _ => paid_pure (by pay)

theorem paid_struct (an : Bool) (path : PyStr) : Paid false (rStruct an rec path) weight :=
  paid_bind paid_fstring fun _ => paid_bind full_guid fun _ => paid_bind paid_optGuid fun _ =>
    paid_bind (paid_structValue hr an _ path) fun _ => paid_pure (by pay)

theorem paid_propValue (an : Bool) (ty st path : PyStr) : Paid false (rPropValue an rec ty st path) fun v => weight v + 7 := by
  unfold rPropValue
  refine paid_ite (paid_structValue hr an st path) (paid_ite (paid_seven paid_str) (paid_ite (paid_seven paid_str)
    (paid_ite (paid_seven paid_i32) (paid_ite (paid_bind paid_bool fun _ => paid_pure (by simp [weight])) paid_fail))))

omit hr in
theorem heavy_arrayValue (at_ : PyStr) (count size : Nat) : Paid false (rArrayValue at_ count size) fun v => entry v - 61 := by
  unfold rArrayValue
  have hl : ∀ {x : R Val} {k}, Paid false x (fun v => weight v + (k + 7)) →
      Paid false (rRepeat x count >>= fun l => pure (Val.list l)) fun v => entry v - 61 := fun h =>
    paid_bind (heavy_repeat (paid_seven h) count) fun l => paid_pure (by have := entry_list l; omega)
  exact paid_ite (hl paid_str) (paid_ite (hl paid_str) (paid_ite (hl full_guid)
    (paid_ite (paid_ite (heavy_byteList count) paid_fail) paid_fail)))

theorem paid_arrayProperty (an : Bool) (at_ : PyStr) (size : Nat) (path : PyStr) :
    Paid false (rArrayProperty an rec at_ size path) fun v => weight v - 30 := by
  refine paid_bind (paid_unsigned 4) fun count => paid_ite ?_ ?_
  · refine paid_bind paid_fstring fun _ => paid_bind paid_fstring fun _ => paid_bind (paid_unsigned 8) fun _ =>
      paid_bind paid_fstring fun _ => paid_bind full_guid fun _ => paid_bind (paid_read0 1) fun _ =>
      paid_bind (heavy_repeat (paid_structValue hr an _ _) count) fun l => paid_pure ?_
    have := entry_list l
    simp only [entry, weight] at this
    simp [dct, weight, weightD, P_inj]
    omega
  · exact paid_bind (heavy_arrayValue at_ count size) fun _ => paid_pure (by simp only [entry]; pay)

theorem paid_mapEntry (an : Bool) (kt ks vt vs kp vp : PyStr) : Paid false (rMapEntry an rec kt ks vt vs kp vp) weight :=
  paid_bind (paid_propValue hr an kt ks kp) fun _ => paid_bind (paid_propValue hr an vt vs vp) fun _ => paid_pure (by pay)

omit hr in
theorem weight_structType (ty st : PyStr) : weight (structTypeVal ty st) = 1 := by
  unfold structTypeVal; split <;> rfl

theorem paid_map (cfg : Cfg) (path : PyStr) : Paid false (rMap cfg rec path) weight :=
  paid_bind paid_fstring fun _ => paid_bind paid_fstring fun _ => paid_bind paid_optGuid fun _ => paid_bind (paid_unsigned 4) fun _ =>
    paid_bind (paid_unsigned 4) fun count => paid_bind (paid_repeat (paid_mapEntry hr _ _ _ _ _ _ _) count) fun _ => paid_pure (by
      simp only [dct, List.map, weight, weightD, weight_structType, P_inj]; pay)

theorem paid_plainBody (cfg : Cfg) (ty : PyStr) (size : Nat) (path : PyStr) : Paid false (rPlainBody cfg rec ty size path) fun v => weight v - 8 := by
  unfold rPlainBody
  have hid : ∀ {x : R Val} {k}, Paid false x (fun v => weight v + k) → Paid false (rIdValue x) fun v => weight v - 8 := fun h =>
    paid_bind paid_optGuid fun _ => paid_bind h fun _ => paid_pure (by pay)
  have hv : ∀ {x : R Val}, Paid false x weight → Paid false x fun v => weight v - 8 := fun h => paid_mono h fun _ => Nat.sub_le _ _
  refine paid_ite (hv (paid_struct hr _ path)) (paid_ite (hid paid_i32) (paid_ite (hid paid_i64) (paid_ite (hid paid_i32)
    (paid_ite (hid (paid_float _)) (paid_ite (hid paid_str) (paid_ite (hid paid_str) (paid_ite ?_ (paid_ite ?_ (paid_ite ?_
    (paid_ite (hv (paid_map hr cfg path)) paid_fail))))))))))
  · exact paid_bind paid_str fun _ => paid_bind paid_optGuid fun _ => paid_bind paid_str fun _ => paid_pure (by pay)
  · exact paid_bind paid_bool fun _ => paid_bind paid_optGuid fun _ => paid_pure (by pay)
  · exact paid_bind paid_fstring fun _ => paid_bind paid_optGuid fun _ => paid_bind (paid_arrayProperty hr _ _ _ _) fun _ => paid_pure (by pay)

end

end Weight
end Pal
