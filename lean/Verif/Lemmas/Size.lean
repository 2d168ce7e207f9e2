import Verif.Spec.Size
import Verif.Lemmas.BoundProps
/-
A reader returns at most two values for each byte it consumes, as long as something is left to read
afterwards: then every GUID in the result was complete.
-/

namespace Pal
namespace Size
open Spec

/-- What was read is worth `m` half bytes, if something is left. -/
def Cost {α : Type} (x : R α) (m : α → Nat) : Prop :=
  ∀ s v s', x s = .ok (v, s') → s'.length ≤ s.length ∧ (s' ≠ [] → m v + 2 * s'.length ≤ 2 * s.length)

theorem cost_bind {α β : Type} {x : R α} {f : α → R β} {m : α → Nat} {t : β → Nat} (hx : Cost x m)
    (hf : ∀ a, Cost (f a) fun b => t b - m a) : Cost (x >>= f) t := by
  intro s v s' h
  obtain ⟨a, s1, h1, h2⟩ := r_bind_inv h
  have e1 := hx _ _ _ h1
  have e2 := hf _ _ _ _ h2
  refine ⟨Nat.le_trans e2.1 e1.1, fun hne => ?_⟩
  have g2 := e2.2 hne
  have g1 := e1.2 (by rintro rfl; exact hne (List.length_eq_zero_iff.1 (by simpa using e2.1)))
  simp only at g2
  omega

theorem cost_pure {α : Type} {a : α} {m : α → Nat} (h : m a = 0) : Cost (pure a) m := by
  intro s v s' e
  cases e
  exact ⟨Nat.le_refl _, fun _ => by omega⟩

theorem cost_fail {α : Type} {e : Err} {m : α → Nat} : Cost (rFail e) m := fun _ _ _ h => (nomatch h)

theorem cost_ite {α : Type} {c : Prop} [Decidable c] {a b : R α} {m : α → Nat} (h : Cost a m) (g : Cost b m) :
    Cost (if c then a else b) m := by
  split
  · exact h
  · exact g

theorem cost_mono {α : Type} {x : R α} {m m' : α → Nat} (h : Cost x m) (hm : ∀ a, m' a ≤ m a) : Cost x m' := by
  intro s v s' e
  obtain ⟨h1, h2⟩ := h _ _ _ e
  exact ⟨h1, fun hne => Nat.le_trans (Nat.add_le_add_right (hm v) _) (h2 hne)⟩

theorem cost_zero {α : Type} {x : R α} (h : ∀ s v s', x s = .ok (v, s') → s'.length ≤ s.length) : Cost x fun _ => 0 :=
  fun s v s' e => ⟨h s v s' e, fun _ => by have := h s v s' e; beta_reduce; omega⟩

theorem cost_unsigned (k : Nat) : Cost (rUnsigned k) fun _ => 2 * k := by
  intro s v s' h
  unfold rUnsigned at h
  split at h
  · cases h
    rw [List.length_drop]
    exact ⟨by omega, fun _ => by beta_reduce; omega⟩
  · cases h

theorem cost_signed (k : Nat) : Cost (rSigned k) fun _ => 2 * k := by
  intro s v s' h
  unfold rSigned at h
  split at h
  · cases h
    rw [List.length_drop]
    exact ⟨by omega, fun _ => by beta_reduce; omega⟩
  · cases h

theorem cost_read (k : Nat) : Cost (rRead k) fun _ => 2 * k := by
  intro s v s' h
  cases h
  refine ⟨by rw [List.length_drop]; omega, fun hne => ?_⟩
  have : (s.drop k).length ≠ 0 := fun e => hne (List.length_eq_zero_iff.1 e)
  rw [List.length_drop] at this ⊢
  beta_reduce
  omega

theorem cost_read0 (k : Nat) : Cost (rRead k) fun _ => 0 := cost_mono (cost_read k) fun _ => Nat.zero_le _

theorem cost_guid : Cost rGuid fun v => values v + 31 := by
  refine cost_bind (cost_read 16) fun b => cost_pure ?_
  simp [values]

theorem cost_optGuid : Cost rOptGuid fun v => values v + 1 := by
  intro s v s' h
  unfold rOptGuid at h
  cases s with
  | nil => cases h
  | cons b t =>
    have h : (if b = 0 then return .none else rGuid : R Val) t = .ok (v, s') := h
    split at h
    · cases h
      refine ⟨by simp, fun _ => ?_⟩
      simp only [List.length_cons, values]; omega
    · obtain ⟨h1, h2⟩ := cost_guid _ _ _ h
      refine ⟨by simp only [List.length_cons]; omega, fun hne => ?_⟩
      have := h2 hne
      simp only [List.length_cons] at this ⊢; omega

theorem cost_fstring : Cost rFString fun _ => 8 := by
  refine cost_bind (cost_signed 4) fun n => ?_
  refine cost_ite (cost_pure rfl) (cost_ite (cost_bind (cost_read0 _) fun d => ?_) (cost_bind (cost_read0 _) fun d => ?_))
  · split
    · exact cost_pure rfl
    · exact cost_fail
  · split
    · exact cost_pure rfl
    · exact cost_fail

theorem fstring_len {s s' : Bytes} {v : PyStr} (h : rFString s = .ok (v, s')) : s'.length + 4 ≤ s.length := by
  obtain ⟨n, s1, h1, h2⟩ := r_bind_inv h
  have l1 : s1.length + 4 ≤ s.length := by
    unfold rI32 rSigned at h1
    split at h1
    · cases h1
      rw [List.length_drop]; omega
    · cases h1
  have l2 : Cost (if n = 0 then pure [] else if n < 0 then do
      let data ← rRead (2 * n.natAbs)
      match utf16Decode (data.take (data.length - 2)) with
      | some s => pure s
      | none => rFail (.exc "Error decoding utf-16-le string")
    else do
      let data ← rRead n.natAbs
      match asciiDecode (data.take (data.length - 1)) with
      | some s => pure s
      | none => rFail (.exc "Error decoding ascii string") : R PyStr) fun _ => 0 := by
    refine cost_ite (cost_pure rfl) (cost_ite (cost_bind (cost_read0 _) fun d => ?_) (cost_bind (cost_read0 _) fun d => ?_))
    · split
      · exact cost_pure rfl
      · exact cost_fail
    · split
      · exact cost_pure rfl
      · exact cost_fail
  have := (l2 _ _ _ h2).1
  omega

theorem cost_str : Cost rStr fun v => values v + 7 := cost_bind cost_fstring fun _ => cost_pure (by simp [values])
theorem cost_i32 : Cost rI32Val fun v => values v + 7 := cost_bind (cost_signed 4) fun _ => cost_pure (by simp [values])
theorem cost_i64 : Cost rI64Val fun v => values v + 15 := cost_bind (cost_signed 8) fun _ => cost_pure (by simp [values])

theorem values_float (an : Bool) (b : BitVec 64) : values (floatVal an b) = 1 := by
  unfold floatVal
  split
  · rfl
  · split <;> rfl

theorem cost_float (an : Bool) : Cost (rFloat an) fun v => values v + 7 := cost_bind (cost_unsigned 4) fun _ => cost_pure (by simp [values_float])
theorem cost_double (an : Bool) : Cost (rDouble an) fun v => values v + 15 := cost_bind (cost_unsigned 8) fun _ => cost_pure (by simp [values_float])

theorem cost_bool : Cost rBool fun _ => 2 := cost_bind (cost_unsigned 1) fun _ => cost_pure rfl

theorem valuesL_ints (b : Bytes) : valuesL (b.map fun x => Val.int x.toNat) = b.length := by
  induction b with
  | nil => rfl
  | cons x t ih => simp only [List.map_cons, valuesL, values, ih, List.length_cons]; omega

theorem cost_byteList (n : Nat) : Cost (rByteList n) fun v => values v - 1 := by
  intro s v s' h
  unfold rByteList at h
  split at h
  · cases h
    rename_i hn
    simp only [values, valuesL_ints, List.length_drop, List.length_take]
    exact ⟨by omega, fun _ => by omega⟩
  · cases h

theorem cost_repeat {x : R Val} (h : Cost x values) : ∀ n, Cost (rRepeat x n) valuesL
  | 0 => cost_pure rfl
  | n + 1 => cost_bind h fun a => cost_bind (cost_repeat h n) fun l => cost_pure (by simp only [valuesL]; omega)

theorem cost_val {x : R Val} {k : Nat} (h : Cost x fun v => values v + k) : Cost x values := cost_mono h fun _ => Nat.le_add_right _ _

theorem cost_one {x : R Val} {k : Nat} (h : Cost x fun v => values v + (k + 1)) : Cost x fun v => values v + 1 :=
  cost_mono h fun v => by beta_reduce; omega

theorem cost_vector (an : Bool) : Cost (rVectorDict an) fun v => values v + 1 :=
  cost_bind (cost_double an) fun _ => cost_bind (cost_double an) fun _ => cost_bind (cost_double an) fun _ => cost_pure (by
    simp only [dct, List.map, values, valuesD]; omega)

theorem cost_quat (an : Bool) : Cost (rQuatDict an) fun v => values v + 1 :=
  cost_bind (cost_double an) fun _ => cost_bind (cost_double an) fun _ => cost_bind (cost_double an) fun _ =>
    cost_bind (cost_double an) fun _ => cost_pure (by simp only [dct, List.map, values, valuesD]; omega)

theorem valuesD_dset (d : Dict) (k : PyStr) (v : Val) : valuesD (dset d k v) ≤ valuesD d + values v := by
  induction d with
  | nil => simp [dset, valuesD]
  | cons q t ih =>
    obtain ⟨k', x⟩ := q
    simp only [dset]
    split
    · simp only [valuesD]; omega
    · simp only [valuesD]; omega

theorem values_set {v v' x : Val} {k : PyStr} (h : v.set k x = .ok v') : values v' ≤ values v + values x := by
  cases v with
  | dict d =>
    cases h
    have := valuesD_dset d k x
    simp only [values]; omega
  | _ => cases h

section
variable {rec : PyStr → R Val} (hr : ∀ p, Cost (rec p) fun v => values v + 7)
include hr

theorem cost_structValue (an : Bool) (st path : PyStr) : Cost (rStructValue an rec st path) fun v => values v + 1 := by
  unfold rStructValue
  refine cost_ite (cost_vector an) (cost_ite (cost_bind (cost_unsigned 8) fun _ => cost_pure (by simp [values]))
    (cost_ite (cost_one cost_guid) (cost_ite (cost_quat an) (cost_ite ?_ (cost_one (hr path))))))
  exact cost_bind (cost_float an) fun _ => cost_bind (cost_float an) fun _ => cost_bind (cost_float an) fun _ =>
    cost_bind (cost_float an) fun _ => cost_pure (by simp only [dct, List.map, values, valuesD]; omega)

theorem cost_struct (an : Bool) (path : PyStr) : Cost (rStruct an rec path) values :=
  cost_bind cost_fstring fun _ => cost_bind cost_guid fun _ => cost_bind cost_optGuid fun _ =>
    cost_bind (cost_structValue hr an _ path) fun _ => cost_pure (by simp only [dct, List.map, values, valuesD]; omega)

theorem cost_propValue (an : Bool) (ty st path : PyStr) : Cost (rPropValue an rec ty st path) fun v => values v + 1 := by
  unfold rPropValue
  refine cost_ite (cost_structValue hr an st path) (cost_ite (cost_one cost_str) (cost_ite (cost_one cost_str)
    (cost_ite (cost_one cost_i32) (cost_ite (cost_bind cost_bool fun _ => cost_pure (by simp [values])) cost_fail))))

omit hr in
theorem cost_arrayValue (at_ : PyStr) (count size : Nat) : Cost (rArrayValue at_ count size) fun v => values v - 1 := by
  unfold rArrayValue
  have hl : ∀ {x : R Val}, Cost x values → Cost (rRepeat x count >>= fun l => pure (Val.list l)) fun v => values v - 1 := fun h =>
    cost_bind (cost_repeat h count) fun l => cost_pure (by simp only [values]; omega)
  exact cost_ite (hl (cost_val cost_str)) (cost_ite (hl (cost_val cost_str)) (cost_ite (hl (cost_val cost_guid))
    (cost_ite (cost_ite (cost_byteList count) cost_fail) cost_fail)))

theorem cost_arrayProperty (an : Bool) (at_ : PyStr) (size : Nat) (path : PyStr) :
    Cost (rArrayProperty an rec at_ size path) values := by
  refine cost_bind (cost_unsigned 4) fun count => cost_ite ?_ ?_
  · refine cost_bind cost_fstring fun _ => cost_bind cost_fstring fun _ => cost_bind (cost_unsigned 8) fun _ =>
      cost_bind cost_fstring fun _ => cost_bind cost_guid fun _ => cost_bind (cost_read0 1) fun _ =>
      cost_bind (cost_repeat (cost_val (cost_structValue hr an _ _)) count) fun _ => cost_pure ?_
    simp only [dct, List.map, values, valuesD]; omega
  · exact cost_bind (cost_arrayValue at_ count size) fun _ => cost_pure (by simp only [dct, List.map, values, valuesD]; omega)

theorem cost_mapEntry (an : Bool) (kt ks vt vs kp vp : PyStr) : Cost (rMapEntry an rec kt ks vt vs kp vp) values :=
  cost_bind (cost_propValue hr an kt ks kp) fun _ => cost_bind (cost_propValue hr an vt vs vp) fun _ => cost_pure (by
    simp only [dct, List.map, values, valuesD]; omega)

omit hr in
theorem values_structType (ty st : PyStr) : values (structTypeVal ty st) = 1 := by
  unfold structTypeVal; split <;> rfl

theorem cost_map (cfg : Cfg) (path : PyStr) : Cost (rMap cfg rec path) values :=
  cost_bind cost_fstring fun _ => cost_bind cost_fstring fun _ => cost_bind cost_optGuid fun _ => cost_bind (cost_unsigned 4) fun _ =>
    cost_bind (cost_unsigned 4) fun count => cost_bind (cost_repeat (cost_mapEntry hr _ _ _ _ _ _ _) count) fun _ => cost_pure (by
      simp only [dct, List.map, values, valuesD, values_structType]; omega)

theorem cost_plainBody (cfg : Cfg) (ty : PyStr) (size : Nat) (path : PyStr) : Cost (rPlainBody cfg rec ty size path) fun v => values v - 8 := by
  unfold rPlainBody
  have hid : ∀ {x : R Val} {k}, Cost x (fun v => values v + k) → Cost (rIdValue x) fun v => values v - 8 := fun h =>
    cost_bind cost_optGuid fun _ => cost_bind h fun _ => cost_pure (by simp only [dct, List.map, values, valuesD]; omega)
  have hv : ∀ {x : R Val}, Cost x values → Cost x fun v => values v - 8 := fun h => cost_mono h fun _ => Nat.sub_le _ _
  refine cost_ite (hv (cost_struct hr _ path)) (cost_ite (hid cost_i32) (cost_ite (hid cost_i64) (cost_ite (hid cost_i32)
    (cost_ite (hid (cost_float _)) (cost_ite (hid cost_str) (cost_ite (hid cost_str) (cost_ite ?_ (cost_ite ?_ (cost_ite ?_
    (cost_ite (hv (cost_map hr cfg path)) cost_fail))))))))))
  · exact cost_bind cost_str fun _ => cost_bind cost_optGuid fun _ => cost_bind cost_str fun _ => cost_pure (by
      simp only [dct, List.map, values, valuesD]; omega)
  · exact cost_bind cost_bool fun _ => cost_bind cost_optGuid fun _ => cost_pure (by simp only [dct, List.map, values, valuesD]; omega)
  · exact cost_bind cost_fstring fun _ => cost_bind cost_optGuid fun _ => cost_bind (cost_arrayProperty hr _ _ _ _) fun _ => cost_pure (by
      simp only [dct, List.map, values, valuesD]; omega)

theorem cost_plain (cfg : Cfg) (ty : PyStr) (size : Nat) (path : PyStr) : Cost (rPlain cfg rec ty size path) fun v => values v - 9 := by
  refine cost_bind (cost_plainBody hr cfg ty size path) fun v => ?_
  intro s v' s' h
  obtain ⟨e, rfl⟩ := rLift_inv h
  refine ⟨Nat.le_refl _, fun _ => ?_⟩
  have := values_set e
  have h1 : values (Val.str ty) = 1 := rfl
  beta_reduce
  omega

end

/-- A property list read without decoders, whatever comes after it. -/
theorem loop_values {cfg : Cfg} (hc : ∀ p, cfg.custom p = none) : ∀ n path acc s v s', rPropsLoop cfg n path acc s = .ok (v, s') →
    s'.length ≤ s.length ∧ values v + 7 + 2 * s'.length ≤ 2 * s.length + valuesD acc
  | 0, _, _, _, _, _ => fun h => (nomatch h)
  | n + 1, path, acc, s, v, s' => by
    intro h
    unfold rPropsLoop at h
    obtain ⟨name, s1, h1, h⟩ := r_bind_inv h
    have c1 := fstring_len h1
    split at h
    · cases h
      simp only [values]
      exact ⟨by omega, by omega⟩
    · obtain ⟨ty, s2, h2, h⟩ := r_bind_inv h
      obtain ⟨size, s3, h3, h⟩ := r_bind_inv h
      obtain ⟨x, s4, h4, h⟩ := r_bind_inv h
      have c2 := fstring_len h2
      have c3 := (cost_unsigned 8 _ _ _ h3).1
      obtain ⟨l5, c5⟩ := loop_values hc n _ _ _ _ _ h
      have hne : s4 ≠ [] := by
        rintro rfl
        cases n with
        | zero => cases h
        | succ n =>
          unfold rPropsLoop at h
          obtain ⟨name, s1, h1, h⟩ := r_bind_inv h
          have := fstring_len h1
          simp at this
      unfold rProperty at h4
      rw [hc] at h4
      obtain ⟨l4, c4⟩ := cost_plain (fun p s v s' e => ⟨(loop_values hc n p [] s v s' e).1, fun _ => by
        have := (loop_values hc n p [] s v s' e).2
        simp only [valuesD] at this
        omega⟩) cfg _ _ _ _ _ _ h4
      have c4 := c4 hne
      have := valuesD_dset acc name x
      beta_reduce at c4
      exact ⟨by omega, by omega⟩

theorem cost_header : Cost hdrRead fun h => values h.dump + 2 := by
  refine cost_bind (cost_signed 4) fun _ => cost_ite cost_fail (cost_bind (cost_signed 4) fun _ => cost_ite cost_fail ?_)
  refine cost_bind (cost_signed 4) fun _ => cost_bind (cost_signed 4) fun _ => cost_bind (cost_unsigned 2) fun _ =>
    cost_bind (cost_unsigned 2) fun _ => cost_bind (cost_unsigned 2) fun _ => cost_bind (cost_unsigned 4) fun _ =>
    cost_bind cost_str fun _ => cost_bind (cost_signed 4) fun _ => cost_ite cost_fail ?_
  have hv : Cost (rTArray customVersionDecode) values :=
    cost_bind (cost_unsigned 4) fun n => cost_bind (cost_repeat (cost_bind cost_guid fun _ => cost_bind (cost_signed 4) fun _ => cost_pure (by
      simp only [values, valuesL]; omega)) n) fun _ => cost_pure (by simp only [values]; omega)
  refine cost_bind hv fun _ => cost_bind cost_str fun _ => cost_pure ?_
  simp only [Hdr.dump, dct, List.map, values, valuesD]
  omega

theorem read_values {cfg : Cfg} (hc : ∀ p, cfg.custom p = none) {data : Bytes} {g : Gvas} (h : gvasRead cfg data = .ok g) :
    values g.dump ≤ 2 * data.length := by
  unfold gvasRead at h
  cases hr : gvasReadR cfg (data.length + 1) data with
  | error e => rw [hr] at h; cases h
  | ok q =>
    obtain ⟨g', s0⟩ := q
    rw [hr] at h
    cases h
    obtain ⟨hd, s1, h1, h⟩ := r_bind_inv hr
    obtain ⟨p, s2, h2, h⟩ := r_bind_inv h
    obtain ⟨t, s3, h3, h⟩ := r_bind_inv h
    cases h
    have c2 := (loop_values hc _ _ _ _ _ _ h2).2
    have hne : s1 ≠ [] := by
      rintro rfl
      simp only [List.length_nil, valuesD] at c2
      omega
    have c1 := (cost_header _ _ _ h1).2 hne
    simp only [valuesD] at c2
    simp only [Gvas.dump, dct, List.map, values, valuesD] at c1 ⊢
    omega

end Size
end Pal
