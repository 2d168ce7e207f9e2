import Verif.Lemmas.Inv
import Verif.Model.Gvas
/-
A read that leaves some bytes unread does not depend on what comes after them.
-/

namespace Pal

variable {α β : Type}

/-- The reader leaves an end of its input; if that end is not empty, further bytes
after it change nothing. -/
def Grow (r : R α) : Prop :=
  ∀ s v s', r s = .ok (v, s') → (∃ c, s = c ++ s') ∧ (s' ≠ [] → ∀ u, r (s ++ u) = .ok (v, s' ++ u))

theorem grow_pure (a : α) : Grow (pure a : R α) := by
  intro s v s' h
  obtain ⟨rfl, rfl⟩ := r_pure_inv h
  exact ⟨⟨[], rfl⟩, fun _ _ => rfl⟩

theorem grow_fail (e : Err) : Grow (rFail e : R α) := fun _ _ _ h => by cases h

theorem grow_lift (x : Except Err α) : Grow (rLift x) := by
  intro s v s' h
  obtain ⟨rfl, rfl⟩ := rLift_inv h
  exact ⟨⟨[], rfl⟩, fun _ _ => rfl⟩

theorem grow_bind {x : R α} {f : α → R β} (hx : Grow x) (hf : ∀ a, Grow (f a)) : Grow (x >>= f) := by
  intro s v s' h
  obtain ⟨a, s1, h1, h2⟩ := r_bind_inv h
  obtain ⟨⟨c, hc⟩, g1⟩ := hx _ _ _ h1
  obtain ⟨⟨c', hc'⟩, g2⟩ := hf _ _ _ _ h2
  refine ⟨⟨c ++ c', by rw [hc, hc', List.append_assoc]⟩, fun hne u => ?_⟩
  have h1ne : s1 ≠ [] := by rw [hc']; simp [hne]
  rw [r_bind_ok (g1 h1ne u)]
  exact g2 hne u

theorem grow_ite {p : Prop} [Decidable p] {x y : R α} (hx : Grow x) (hy : Grow y) : Grow (if p then x else y) := by
  split
  · exact hx
  · exact hy

theorem grow_repeat {x : R α} (hx : Grow x) : ∀ n, Grow (rRepeat x n)
  | 0 => grow_pure _
  | n + 1 => grow_bind hx fun _ => grow_bind (grow_repeat hx n) fun _ => grow_pure _

theorem grow_unsigned (k : Nat) : Grow (rUnsigned k) := by
  intro s v s' h
  unfold rUnsigned at h
  split at h
  · rename_i hk
    cases h
    refine ⟨⟨_, (List.take_append_drop k s).symm⟩, fun _ u => ?_⟩
    unfold rUnsigned
    rw [if_pos (by rw [List.length_append]; omega), List.take_append_of_le_length hk, List.drop_append_of_le_length hk]
  · cases h

theorem grow_signed (k : Nat) : Grow (rSigned k) := by
  intro s v s' h
  unfold rSigned at h
  split at h
  · rename_i hk
    cases h
    refine ⟨⟨_, (List.take_append_drop k s).symm⟩, fun _ u => ?_⟩
    unfold rSigned
    rw [if_pos (by rw [List.length_append]; omega), List.take_append_of_le_length hk, List.drop_append_of_le_length hk]
  · cases h

theorem grow_read (k : Nat) : Grow (rRead k) := by
  intro s v s' h
  cases h
  refine ⟨⟨_, (List.take_append_drop k s).symm⟩, fun hne u => ?_⟩
  have hk : k ≤ s.length := by
    rcases Nat.lt_or_ge s.length k with h | h
    · exact absurd (List.drop_eq_nil_of_le (by omega)) hne
    · exact h
  unfold rRead
  rw [List.take_append_of_le_length hk, List.drop_append_of_le_length hk]

theorem grow_byteList (k : Nat) : Grow (rByteList k) := by
  intro s v s' h
  unfold rByteList at h
  split at h
  · rename_i hk
    cases h
    refine ⟨⟨_, (List.take_append_drop k s).symm⟩, fun _ u => ?_⟩
    unfold rByteList
    rw [if_pos (by rw [List.length_append]; omega), List.take_append_of_le_length hk, List.drop_append_of_le_length hk]
  · cases h

theorem grow_i32 : Grow rI32 := grow_signed 4
theorem grow_i64 : Grow rI64 := grow_signed 8
theorem grow_u16 : Grow rU16 := grow_unsigned 2
theorem grow_u32 : Grow rU32 := grow_unsigned 4
theorem grow_u64 : Grow rU64 := grow_unsigned 8
theorem grow_byte : Grow rByte := grow_unsigned 1
theorem grow_bool : Grow rBool := grow_bind grow_byte fun _ => grow_pure _
theorem grow_float (an : Bool) : Grow (rFloat an) := grow_bind (grow_unsigned 4) fun _ => grow_pure _
theorem grow_double (an : Bool) : Grow (rDouble an) := grow_bind (grow_unsigned 8) fun _ => grow_pure _
theorem grow_guid : Grow rGuid := grow_bind (grow_read 16) fun _ => grow_pure _
theorem grow_optGuid : Grow rOptGuid := grow_bind (grow_read 1) fun b => by
  cases b with
  | nil => exact grow_fail _
  | cons x t => exact grow_ite (grow_pure _) grow_guid
theorem grow_fstring : Grow rFString := by
  refine grow_bind grow_i32 fun size => grow_ite (grow_pure _) (grow_ite ?_ ?_)
  · refine grow_bind (grow_read _) fun data => ?_
    cases utf16Decode (data.take (data.length - 2)) with
    | none => exact grow_fail _
    | some s => exact grow_pure _
  · refine grow_bind (grow_read _) fun data => ?_
    cases asciiDecode (data.take (data.length - 1)) with
    | none => exact grow_fail _
    | some s => exact grow_pure _
theorem grow_str : Grow rStr := grow_bind grow_fstring fun _ => grow_pure _

macro "grow_tac" : tactic => `(tactic|
  repeat (any_goals first
  | with_reducible assumption
  | with_reducible exact grow_i32 | with_reducible exact grow_u32 | with_reducible exact grow_i64
  | with_reducible exact grow_u64 | with_reducible exact grow_byte | with_reducible exact grow_u16
  | with_reducible exact grow_bool
  | with_reducible exact grow_float _ | with_reducible exact grow_double _ | with_reducible exact grow_guid
  | with_reducible exact grow_optGuid | with_reducible exact grow_fstring
  | with_reducible exact grow_str | with_reducible exact grow_byteList _ | with_reducible exact grow_read _
  | with_reducible exact grow_fail _ | with_reducible exact grow_lift _
  | with_reducible refine grow_repeat ?_ _
  | with_reducible refine grow_ite ?_ ?_
  | with_reducible refine grow_bind ?_ fun _ => ?_
  | with_reducible exact grow_pure _))

theorem grow_structValue (an : Bool) {rec : PyStr → R Val} (hr : ∀ p, Grow (rec p)) (st path : PyStr) :
    Grow (rStructValue an rec st path) := by
  unfold rStructValue rVectorDict rQuatDict
  have := hr path
  grow_tac

theorem grow_propValue (an : Bool) {rec : PyStr → R Val} (hr : ∀ p, Grow (rec p)) (ty st path : PyStr) :
    Grow (rPropValue an rec ty st path) := by
  unfold rPropValue rI32Val
  have := grow_structValue an hr st path
  grow_tac

theorem grow_mapEntry (an : Bool) {rec : PyStr → R Val} (hr : ∀ p, Grow (rec p)) (kt ks vt vs kp vp : PyStr) :
    Grow (rMapEntry an rec kt ks vt vs kp vp) :=
  grow_bind (grow_propValue an hr _ _ _) fun _ => grow_bind (grow_propValue an hr _ _ _) fun _ => grow_pure _

theorem grow_arrayProperty (an : Bool) {rec : PyStr → R Val} (hr : ∀ p, Grow (rec p)) (at_ : PyStr) (size : Nat)
    (path : PyStr) : Grow (rArrayProperty an rec at_ size path) := by
  unfold rArrayProperty rArrayValue
  have h := fun tn pn => grow_structValue an hr tn (path ++ dot ++ pn)
  repeat (any_goals first | exact h _ _ | grow_tac)

theorem grow_map (cfg : Cfg) {rec : PyStr → R Val} (hr : ∀ p, Grow (rec p)) (path : PyStr) : Grow (rMap cfg rec path) := by
  unfold rMap
  refine grow_bind grow_fstring fun kt => grow_bind grow_fstring fun vt => grow_bind grow_optGuid fun id =>
    grow_bind grow_u32 fun _ => grow_bind grow_u32 fun count =>
    grow_bind (grow_repeat (grow_mapEntry _ hr _ _ _ _ _ _) _) fun l => grow_pure _

theorem grow_idValue {x : R Val} (hx : Grow x) : Grow (rIdValue x) :=
  grow_bind grow_optGuid fun _ => grow_bind hx fun _ => grow_pure _

theorem grow_plainBody (cfg : Cfg) {rec : PyStr → R Val} (hr : ∀ p, Grow (rec p)) (ty : PyStr) (size : Nat) (path : PyStr) :
    Grow (rPlainBody cfg rec ty size path) := by
  have h1 : Grow rI32Val := grow_bind grow_i32 fun _ => grow_pure _
  have h2 : Grow rI64Val := grow_bind grow_i64 fun _ => grow_pure _
  have h3 := grow_idValue h1
  have h4 := grow_idValue h2
  have h5 := grow_idValue grow_str
  have h6 := grow_idValue (grow_float cfg.allowNan)
  have h7 := fun st => grow_structValue cfg.allowNan hr st path
  have h8 := fun at_ => grow_arrayProperty cfg.allowNan hr at_ size path
  have h9 := grow_map cfg hr path
  unfold rPlainBody rStruct rEnum rBoolProp rArrayProp
  repeat (any_goals first | exact h7 _ | exact h8 _ | grow_tac)

theorem grow_plain (cfg : Cfg) {rec : PyStr → R Val} (hr : ∀ p, Grow (rec p)) (ty : PyStr) (size : Nat) (path : PyStr) :
    Grow (rPlain cfg rec ty size path) :=
  grow_bind (grow_plainBody cfg hr ty size path) fun _ => grow_lift _

theorem grow_property (cfg : Cfg) {rec : PyStr → R Val} (hr : ∀ p, Grow (rec p)) (ty : PyStr) (size : Nat) (path : PyStr) :
    Grow (rProperty cfg rec ty size path) := by
  unfold rProperty
  cases cfg.custom path with
  | none => exact grow_plain cfg hr ty size path
  | some c =>
    exact grow_ite (grow_bind (grow_plain cfg hr ty size path) fun _ => grow_bind (grow_lift _) fun _ =>
      grow_bind (grow_lift _) fun _ => grow_lift _) (grow_fail _)

theorem grow_loop (cfg : Cfg) : ∀ (n : Nat) (path : PyStr) (acc : Dict), Grow (rPropsLoop cfg n path acc)
  | 0, _, _ => grow_fail _
  | n + 1, path, acc => by
    unfold rPropsLoop
    exact grow_bind grow_fstring fun name => grow_ite (grow_pure _) (grow_bind grow_fstring fun ty =>
      grow_bind grow_u64 fun size => grow_bind (grow_property cfg (fun p => grow_loop cfg n p []) _ _ _) fun v =>
      grow_loop cfg n path _)

theorem grow_props (cfg : Cfg) (n : Nat) (path : PyStr) : Grow (rProps cfg n path) := grow_loop cfg n path []

theorem grow_hdr : Grow hdrRead := by
  have h : Grow customVersionDecode := grow_bind grow_guid fun _ => grow_bind grow_i32 fun _ => grow_pure _
  have h' : Grow (rTArray customVersionDecode) := grow_bind grow_u32 fun _ => grow_bind (grow_repeat h _) fun _ => grow_pure _
  unfold hdrRead
  grow_tac

end Pal
