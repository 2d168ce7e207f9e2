import Verif.Lemmas.Invert
import Verif.Lemmas.BoundBlob
/-
Decoding any accepted bytes, canonical or not, and encoding the result: the encoder
succeeds, its bytes are not longer than the bytes read, and reading them gives the same
value.  The lemmas here compose this along a decoder.
-/

namespace Pal
open Spec

/-- `r` reads `v` from `b`: whatever follows, or at the end of the blob only. -/
def Back {α : Type} (r : R α) (v : α) (b s' : Bytes) : Prop :=
  (∀ t, r (b ++ t) = .ok (v, t)) ∨ (s' = [] ∧ r b = .ok (v, []))

/-- Whatever `r` reads is written by `E` as `pre` followed by bytes not longer than those read,
which read back as the same value if `q`; or it is `Bad`. -/
def Chain {β : Type} (q : Prop) (r : R β) (pre : Bytes) (E : β → Except Err Bytes) (Bad : β → Prop) : Prop :=
  ∀ s v s', s.length < 2 ^ 32 → r s = .ok (v, s') →
    Bad v ∨ ∃ b, E v = .ok (pre ++ b) ∧ b.length + s'.length ≤ s.length ∧ (q → Back r v b s')

/-- The same for one field. -/
def St {α : Type} (q : Prop) (r : R α) (w : α → Except Err Bytes) : Prop :=
  ∀ s v s', s.length < 2 ^ 32 → r s = .ok (v, s') →
    ∃ b, w v = .ok b ∧ b.length + s'.length ≤ s.length ∧ (q → Back r v b s')

variable {q : Prop} {an : Bool}

theorem back_end {α : Type} {r : R α} {v : α} {b s' : Bytes} (h : Back r v b s') : r b = .ok (v, []) := by
  rcases h with h | ⟨-, h⟩
  · have := h []
    rwa [List.append_nil] at this
  · exact h

theorem back_bind {α β : Type} {r : R α} {f : α → R β} {a : α} {v : β} {b1 b2 s1 s2 : Bytes} (h1 : Back r a b1 s1)
    (h2 : Back (f a) v b2 s2) (hl : b2.length + s2.length ≤ s1.length) : Back (r >>= f) v (b1 ++ b2) s2 := by
  rcases h1 with h1 | ⟨rfl, h1⟩
  · rcases h2 with h2 | ⟨rfl, h2⟩
    · exact .inl fun t => by rw [List.append_assoc, r_bind_ok (h1 _), h2]
    · exact .inr ⟨rfl, by rw [r_bind_ok (h1 _), h2]⟩
  · have e1 : b2 = [] := List.length_eq_zero_iff.1 (by simp only [List.length_nil] at hl; omega)
    have e2 : s2 = [] := List.length_eq_zero_iff.1 (by simp only [List.length_nil] at hl; omega)
    subst e1 e2
    exact .inr ⟨rfl, by rw [List.append_nil, r_bind_ok h1, back_end h2]⟩

theorem chain_bind {α β : Type} {r : R α} {w : α → Except Err Bytes} {f : α → R β} {pre : Bytes}
    {E : β → Except Err Bytes} {Bad : β → Prop} (hr : St q r w)
    (hf : ∀ a b, w a = .ok b → Chain q (f a) (pre ++ b) E Bad) : Chain q (r >>= f) pre E Bad := by
  intro s v s' hs h
  obtain ⟨a, s1, h1, h2⟩ := r_bind_inv h
  obtain ⟨b1, w1, l1, k1⟩ := hr s a s1 hs h1
  rcases hf a b1 w1 s1 v s' (by omega) h2 with hb | ⟨b2, w2, l2, k2⟩
  · exact .inl hb
  · exact .inr ⟨b1 ++ b2, by rw [w2, List.append_assoc], by rw [List.length_append]; omega,
      fun hq => back_bind (k1 hq) (k2 hq) l2⟩

theorem chain_pure {β : Type} {v : β} {pre : Bytes} {E : β → Except Err Bytes} {Bad : β → Prop} (h : E v = .ok pre) :
    Chain q (pure v : R β) pre E Bad := by
  intro s v' s' _ hr
  obtain ⟨rfl, rfl⟩ := r_pure_inv hr
  exact .inr ⟨[], by rw [h, List.append_nil], by simp, fun _ => .inl fun t => rfl⟩

theorem chain_fail {β : Type} {e : Err} {pre : Bytes} {E : β → Except Err Bytes} {Bad : β → Prop} :
    Chain q (rFail e : R β) pre E Bad := fun _ _ _ _ h => (rFail_inv h).elim

theorem st_of_chain {α : Type} {r : R α} {w : α → Except Err Bytes} (h : Chain q r [] w fun _ => False) : St q r w :=
  fun s v s' hs hr => (h s v s' hs hr).elim False.elim id

theorem chain_st {α : Type} {r : R α} {w : α → Except Err Bytes} {Bad : α → Prop} (h : St q r w) : Chain q r [] w Bad :=
  fun s v s' hs hr => .inr (h s v s' hs hr)

theorem chain_weaken {β : Type} {r : R β} {pre : Bytes} {E : β → Except Err Bytes} {B B' : β → Prop} (h : Chain q r pre E B)
    (hb : ∀ v, B v → B' v) : Chain q r pre E B' := fun s v s' hs hr => (h s v s' hs hr).imp (hb v) id

theorem r_pure_bind {α β : Type} (a : α) (f : α → R β) : ((pure a : R α) >>= f) = f a := rfl

theorem r_pureR {α : Type} (a : α) : (R.pure a : R α) = (pure a : R α) := rfl

/-! ### fields -/

theorem take_app {k : Nat} {b t : Bytes} (h : b.length = k) : (b ++ t).take k = b := by
  rw [List.take_append_of_le_length (by omega), List.take_of_length_le (by omega)]

theorem drop_app {k : Nat} {b t : Bytes} (h : b.length = k) : (b ++ t).drop k = t := by
  subst h; exact List.drop_left

theorem st_unsigned (k : Nat) : St q (rUnsigned k) fun n => wUnsigned k (.int n) := by
  intro s n s' _ h
  obtain ⟨h1, h2⟩ := inv_unsigned h
  exact ⟨leBytes k n, wUnsigned_in k n h1, by rw [leBytes_length]; omega, fun _ => .inl fun t => rUnsigned_le k n t h1⟩

theorem st_u32 : St q rU32 fun n => wU32 (.int n) := st_unsigned 4
theorem st_u16 : St q rU16 fun n => wU16 (.int n) := st_unsigned 2

theorem st_byte : St q rByte fun n => wByte (.int n) := by
  intro s n s' _ h
  obtain ⟨h1, h2⟩ := inv_unsigned h
  refine ⟨[UInt8.ofNat n], ?_, by simp only [List.length_cons, List.length_nil]; omega, fun _ => .inl fun t => ?_⟩
  · simp only [wByte, byteOf, Val.asInt?]
    rw [if_pos (by omega)]
    rfl
  · have := rUnsigned_le 1 n t h1
    simp only [leBytes, Nat.mod_eq_of_lt (show n < 256 by omega)] at this
    exact this

theorem st_signed (k : Nat) : St q (rSigned k) fun n => wSigned k (.int n) := by
  intro s i s' _ h
  obtain ⟨n, h1, h2, h3⟩ := inv_signed h
  have h4 : -(256 ^ k : Int) ≤ 2 * i ∧ 2 * i < 256 ^ k := by
    have : (n : Int) < 256 ^ k := by exact_mod_cast h1
    split at h2
    · rename_i hn
      have : (2 * n : Int) < 256 ^ k := by exact_mod_cast hn
      omega
    · rename_i hn
      have : ¬ (2 * n : Int) < 256 ^ k := by exact_mod_cast hn
      omega
  exact ⟨_, wSigned_in k i h4, by rw [leBytes_length]; omega, fun _ => .inl fun t => rSigned_le k i t h4⟩

theorem st_i32 : St q rI32 fun n => wI32 (.int n) := st_signed 4
theorem st_i64 : St q rI64 fun n => wI64 (.int n) := st_signed 8

theorem st_val {α : Type} {r : R α} {g : α → Val} {w : Val → Except Err Bytes} (h : St q r fun a => w (g a)) :
    St q (r >>= fun a => pure (g a)) w := by
  refine st_of_chain (chain_bind h fun a b hb => chain_pure ?_)
  rw [hb]; rfl

theorem st_i32v : St q rI32Val wI32 := st_val st_i32
theorem st_i64v : St q rI64Val wI64 := st_val st_i64
theorem st_u32v : St q rU32Val wU32 := st_val st_u32
theorem st_bytev : St q rByteVal wByte := st_val st_byte

theorem st_float (hq : q → an = true) : St q (rFloat an) wFloat := by
  intro s v s' _ h
  have h0 := h
  obtain ⟨n, s1, h1, h2⟩ := r_bind_inv h
  obtain ⟨rfl, rfl⟩ := r_pure_inv h2
  have hl := (inv_unsigned h1).2
  have : ∃ b, asF64 (floatVal an (f32to64 (BitVec.ofNat 32 n))) = .ok b := by
    unfold floatVal
    split
    · exact ⟨_, rfl⟩
    · split <;> exact ⟨_, rfl⟩
  obtain ⟨b, hb⟩ := this
  refine ⟨leBytes 4 (f64to32 b).toNat, by simp only [wFloat, hb], by rw [leBytes_length]; omega, fun hq' => .inl fun t => ?_⟩
  have := hq hq'
  subst this
  obtain ⟨f, hf, -⟩ := inv_float h0
  rw [hf] at hb ⊢
  have h3 : wFloat (vF32 f) = .ok (eF32 f) := wFloat_v f
  have h4 : wFloat (vF32 f) = .ok (leBytes 4 (f64to32 b).toNat) := by simp only [wFloat, hb]
  rw [h3] at h4
  rw [← Except.ok.inj h4]
  exact rFloat_eF32 f t

theorem st_double (hq : q → an = true) : St q (rDouble an) wDouble := by
  intro s v s' _ h
  have h0 := h
  obtain ⟨n, s1, h1, h2⟩ := r_bind_inv h
  obtain ⟨rfl, rfl⟩ := r_pure_inv h2
  have hl := (inv_unsigned h1).2
  have : ∃ b, asF64 (floatVal an (BitVec.ofNat 64 n)) = .ok b := by
    unfold floatVal
    split
    · exact ⟨_, rfl⟩
    · split <;> exact ⟨_, rfl⟩
  obtain ⟨b, hb⟩ := this
  refine ⟨leBytes 8 b.toNat, by simp only [wDouble, hb], by rw [leBytes_length]; omega, fun hq' => .inl fun t => ?_⟩
  have := hq hq'
  subst this
  obtain ⟨f, hf, -⟩ := inv_double h0
  rw [hf] at hb ⊢
  have h3 : wDouble (vF64 f) = .ok (eF64 f) := wDouble_v f
  have h4 : wDouble (vF64 f) = .ok (leBytes 8 b.toNat) := by simp only [wDouble, hb]
  rw [h3] at h4
  rw [← Except.ok.inj h4]
  exact rDouble_eF64 f t

theorem st_read (n : Nat) : St q (rRead n) fun b => .ok b := by
  intro s b s' _ h
  cases h
  refine ⟨_, rfl, by rw [List.length_take, List.length_drop]; omega, fun _ => ?_⟩
  by_cases hn : n ≤ s.length
  · refine .inl fun t => ?_
    have : (s.take n).length = n := by rw [List.length_take]; omega
    unfold rRead
    rw [take_app this, drop_app this]
  · refine .inr ⟨List.drop_eq_nil_of_le (by omega), ?_⟩
    unfold rRead
    rw [List.take_take, Nat.min_self, List.drop_eq_nil_of_le (by rw [List.length_take]; omega)]

theorem st_guid : St q rGuid wGuid := st_val (st_read 16)

theorem st_uuid : St q rUuid wGuid := by
  intro s v s' _ h
  obtain ⟨b, s1, h1, h⟩ := r_bind_inv h
  split at h
  · exact (rFail_inv h).elim
  · rename_i hb
    obtain ⟨rfl, rfl⟩ := r_pure_inv h
    have hb : b.length = 16 := by omega
    cases h1
    refine ⟨_, rfl, by rw [List.length_take, List.length_drop]; omega, fun _ => .inl fun t => ?_⟩
    exact rUuid_eGuid ⟨s.take 16, hb⟩ t

theorem st_str : St q rStr wFString := by
  intro s v s' hs h
  obtain ⟨S, rfl, hl⟩ := inv_str h hs
  exact ⟨eStr S, wFString_v S, hl, fun _ => .inl fun t => rStr_eStr S t⟩

theorem st_byteList (n : Nat) : St q (rByteList n) wBytesOf := by
  intro s v s' _ h
  unfold rByteList at h
  split at h
  · rename_i hn
    cases h
    refine ⟨s.take n, mapE_byteOf_ints _, by rw [List.length_take, List.length_drop]; omega, fun _ => .inl fun t => ?_⟩
    have : (s.take n).length = n := by rw [List.length_take]; omega
    unfold rByteList
    rw [if_pos (by rw [List.length_append]; omega), take_app this, drop_app this]
  · cases h

theorem st_toEnd : St q rReadToEnd fun b => .ok b := by
  intro s b s' _ h
  cases h
  exact ⟨s, rfl, by simp, fun _ => .inr ⟨rfl, rfl⟩⟩

theorem chain_eof {β : Type} {f : Unit → R β} {pre : Bytes} {E : β → Except Err Bytes} {Bad : β → Prop}
    (hf : Chain q (f ()) pre E Bad) : Chain q (rCheckEof >>= f) pre E Bad := by
  have : St q rCheckEof fun _ => .ok [] := by
    intro s v s' _ h
    cases s with
    | nil => cases h; exact ⟨[], rfl, Nat.le_refl _, fun _ => .inr ⟨rfl, rfl⟩⟩
    | cons => cases h
  exact chain_bind this fun _ b hb => by cases hb; rwa [List.append_nil]

theorem chain_eofFor {β : Type} {f : Unit → R β} {pre : Bytes} {E : β → Except Err Bytes} {Bad : β → Prop}
    (hf : Chain q (f ()) pre E Bad) : Chain q (rCheckEofFor >>= f) pre E Bad := by
  have : St q rCheckEofFor fun _ => .ok [] := by
    intro s v s' _ h
    cases s with
    | nil => cases h; exact ⟨[], rfl, Nat.le_refl _, fun _ => .inr ⟨rfl, rfl⟩⟩
    | cons => cases h
  exact chain_bind this fun _ b hb => by cases hb; rwa [List.append_nil]

/-- A flag is stored as any non-zero number and written as one. -/
theorem chain_flag {β : Type} {f : Nat → R β} {pre : Bytes} {E : β → Except Err Bytes} {Bad : β → Prop}
    (hf : ∀ n m : Nat, decide (n > 0) = decide (m > 0) → f n = f m)
    (h : ∀ n b, wFlag32 (.bool (decide (n > 0))) = .ok b → Chain q (f n) (pre ++ b) E Bad) :
    Chain q (rU32 >>= f) pre E Bad := by
  intro s v s' hs hr
  obtain ⟨n, s1, h1, h2⟩ := r_bind_inv hr
  have hl := (inv_unsigned h1).2
  have hw : wFlag32 (.bool (decide (n > 0))) = .ok (eFlag (decide (n > 0))) := by
    cases decide (n > 0) <;> rfl
  rcases h n _ hw s1 v s' (by omega) h2 with hb | ⟨b2, w2, l2, k2⟩
  · exact .inl hb
  · have hle : (eFlag (decide (n > 0))).length = 4 := by cases decide (n > 0) <;> rfl
    refine .inr ⟨eFlag (decide (n > 0)) ++ b2, by rw [w2, List.append_assoc], by rw [List.length_append]; omega, fun hq => ?_⟩
    have e : f n = f (if decide (n > 0) = true then 1 else 0) := hf _ _ (by cases decide (n > 0) <;> rfl)
    have k2 := k2 hq
    rw [e] at k2
    exact back_bind (.inl fun t => rU32_eFlag _ t) k2 l2

theorem st_repeat {r : R Val} {w : Val → Except Err Bytes} (hr : St q r w) :
    ∀ n, St q (rRepeat r n) fun l => wcat (l.map w)
  | 0 => st_of_chain (chain_pure rfl)
  | n + 1 => by
    refine st_of_chain (chain_bind hr fun a b hb => chain_bind (st_repeat hr n) fun l c hc => chain_pure ?_)
    simp only [List.map_cons, wcat, hb, hc, List.nil_append]

theorem repeat_length {α : Type} {r : R α} : ∀ {n : Nat} {s s' : Bytes} {l : List α}, rRepeat r n s = .ok (l, s') → l.length = n
  | 0, s, s', l, h => by obtain ⟨rfl, rfl⟩ := r_pure_inv h; rfl
  | n + 1, s, s', l, h => by
    obtain ⟨a, s1, h1, h⟩ := r_bind_inv h
    obtain ⟨t, s2, h2, h⟩ := r_bind_inv h
    obtain ⟨rfl, rfl⟩ := r_pure_inv h
    rw [List.length_cons, repeat_length h2]

theorem wTArray_list {w : Val → Except Err Bytes} {l : List Val} {b1 b2 : Bytes} (h1 : wU32 (.int l.length) = .ok b1)
    (h2 : wcat (l.map w) = .ok b2) : wTArray w (.list l) = .ok (b1 ++ b2) := by
  have e : wTArray w (.list l) = wcat [wU32 (.int l.length), wItems w l] := rfl
  have h2 : wItems w l = .ok b2 := h2
  rw [e, h1, h2]
  simp only [wcat, List.append_nil]

theorem st_tarray {r : R Val} {w : Val → Except Err Bytes} (hr : St q r w) : St q (rTArray r) (wTArray w) := by
  intro s v s' hs h
  obtain ⟨n, s1, h1, h⟩ := r_bind_inv h
  obtain ⟨l, s2, h2, h⟩ := r_bind_inv h
  obtain ⟨rfl, rfl⟩ := r_pure_inv h
  have hn := repeat_length h2
  subst hn
  obtain ⟨b1, w1, l1, k1⟩ := st_u32 (q := q) s _ s1 hs h1
  obtain ⟨b2, w2, l2, k2⟩ := st_repeat hr _ s1 l _ (by omega) h2
  refine ⟨b1 ++ b2, wTArray_list w1 w2, by rw [List.length_append]; omega, fun hq => ?_⟩
  · refine back_bind (k1 hq) ?_ l2
    have := back_bind (k2 hq) (f := fun l => (pure (Val.list l) : R Val)) (v := .list l) (b2 := []) (s2 := s')
      (.inl fun t => rfl) (by simp)
    rwa [List.append_nil] at this

/-- Take the fields of a decoder one by one. -/
macro "st_field" : tactic => `(tactic| first
  | exact st_guid | exact st_uuid | exact st_str | exact st_i32 | exact st_i64 | exact st_byte | exact st_u32
  | exact st_float (by assumption) | exact st_double (by assumption) | exact st_byteList _
  | exact st_tarray st_uuid | exact st_tarray st_str | exact st_tarray st_bytev | exact st_tarray st_i32v
  | exact st_tarray st_guid | assumption)

macro "chain_tac" : tactic => `(tactic| repeat' first
  | with_reducible refine chain_eof ?_
  | with_reducible refine chain_eofFor ?_
  | (refine chain_flag (fun _ _ h => by simp only [h]; done) fun _ _ _ => ?_)
  | (refine chain_bind (by st_field) fun _ _ _ => ?_))

end Pal
