import Verif.Spec.SaysBlobs
import Verif.Lemmas.Says
import Mathlib.Tactic.MkIffOfInductiveProp
/-
Encoders and what they write, piece by piece.  Encoders take the fuel of the embedded property lists.
-/

namespace Pal
open Spec

/-- `w` writes exactly what `S` says, as `e` lays it out. -/
structure Codes {α : Type} (w : Nat → Val → Except Err Bytes) (S : Val → α → Prop) (e : α → Bytes) : Prop where
  fw : ∀ {n v b}, PlainDoc v → w n v = .ok b → ∃ x, S v x ∧ b = e x
  bw : ∀ {v x}, S v x → ∃ k, ∀ n ≥ k, w n v = .ok (e x)

/-- The same for encoders that depend on a type. -/
structure Codes2 {α : Type} (w : Nat → Val → Val → Except Err Bytes) (S : Val → Val → α → Prop) (e : α → Bytes) : Prop where
  fw : ∀ {n t v b}, PlainDoc t → PlainDoc v → w n t v = .ok b → ∃ x, S t v x ∧ b = e x
  bw : ∀ {t v x}, S t v x → ∃ k, ∀ n ≥ k, w n t v = .ok (e x)

variable {α β : Type} {w w1 w2 : Nat → Val → Except Err Bytes} {S S1 : Val → α → Prop} {e e1 : α → Bytes}

theorem Codes.of_iff {f : Val → Except Err Bytes} (h : ∀ {v b}, f v = .ok b ↔ ∃ x, S v x ∧ b = e x) : Codes (fun _ => f) S e :=
  ⟨fun _ h' => h.1 h', fun h' => ⟨0, fun _ _ => h.2 ⟨_, h', rfl⟩⟩⟩

/-! ### fields -/

theorem codes_guid : Codes (fun _ => wGuid) SaysGuid eGuid := ⟨wGuid_plain, fun h => ⟨0, fun _ _ => wGuid_says h⟩⟩
theorem codes_str : Codes (fun _ => wFString) SaysStr eStr :=
  ⟨wFString_plain, fun h => ⟨0, fun _ _ => by rw [h]; exact wFString_of _⟩⟩
theorem codes_i32 : Codes (fun _ => wI32) (fun v (n : BitVec 32) => SaysI v n) e32 := .of_iff wI32_iff
theorem codes_i64 : Codes (fun _ => wI64) (fun v (n : BitVec 64) => SaysI v n) e64 := .of_iff wI64_iff
theorem codes_u32 : Codes (fun _ => wU32) (fun v (n : BitVec 32) => SaysU v n) e32 := .of_iff wU32_iff
theorem codes_f32 : Codes (fun _ => wFloat) (fun v (x : F32 free) => SaysF32 v x.val) eF32 := .of_iff wFloat_iff
theorem codes_f64 : Codes (fun _ => wDouble) (fun v (x : F64 free) => SaysF64 v x.val) eF64 := .of_iff wDouble_iff
theorem codes_vec : Codes (fun _ => wVectorDict) SaysVec eVec := .of_iff wVectorDict_iff
theorem codes_quat : Codes (fun _ => wQuatDict) SaysQuat eQuat := .of_iff wQuatDict_iff
theorem codes_bytes : Codes (fun _ => wBytesOf) SaysBytes id :=
  ⟨fun _ h => ⟨_, h, rfl⟩, fun h => ⟨0, fun _ _ => h⟩⟩

theorem e8_byte (c : UInt8) : e8 (BitVec.ofNat 8 c.toNat) = [c] := by
  unfold e8
  rw [BitVec.toNat_ofNat, Nat.mod_eq_of_lt c.toNat_lt]
  simp [lit]

theorem codes_u8 : Codes (fun _ => wByte) (fun v (n : BitVec 8) => SaysU v n) e8 := by
  refine .of_iff fun {v b} => ?_
  rw [wByte_iff]
  constructor
  · rintro ⟨c, h, rfl⟩
    refine ⟨BitVec.ofNat 8 c.toNat, ?_, (e8_byte c).symm⟩
    unfold SaysU
    rw [BitVec.toNat_ofNat, Nat.mod_eq_of_lt c.toNat_lt]
    exact h
  · rintro ⟨n, h, rfl⟩
    refine ⟨UInt8.ofNat n.toNat, ?_, ?_⟩
    · rw [UInt8.toNat_ofNat', Nat.mod_eq_of_lt n.isLt]; exact h
    · have := e8_byte (UInt8.ofNat n.toNat)
      rw [UInt8.toNat_ofNat', Nat.mod_eq_of_lt n.isLt, BitVec.ofNat_toNat, BitVec.setWidth_eq] at this
      exact this

theorem codes_flag : Codes (fun _ => wFlag32) SaysFlag eFlag := by
  have key : ∀ v : Val, wFlag32 v = .ok (eFlag v.truthy) := by
    intro v
    unfold wFlag32 eFlag
    cases v.truthy
    · exact wU32_nat 0 (by decide)
    · exact wU32_nat 1 (by decide)
  exact ⟨fun {n v b} _ h => ⟨v.truthy, rfl, by rw [key] at h; exact (Except.ok.inj h).symm⟩,
    fun {v x} h => ⟨0, fun _ _ => by rw [h]; exact key v⟩⟩

/-! ### combinations -/

theorem wAt_iff {ks : List String} {f : Val → Except Err Bytes} : ∀ {v : Val} {b : Bytes},
    wAt v ks f = .ok b ↔ Reach v ks (fun x => f x = .ok b) := by
  induction ks with
  | nil => intro v b; rw [wAt_nil]; rfl
  | cons k ks ih =>
    intro v b
    rw [wAt_cons]
    unfold Reach At
    cases v.get (P k) with
    | error e => simp
    | ok x => simp [ih]

theorem reach_imp {ks : List String} {p q : Val → Prop} : ∀ {v : Val}, (∀ x, PlainDoc x → p x → q x) → PlainDoc v →
    Reach v ks p → Reach v ks q := by
  induction ks with
  | nil => intro v h hp h1; exact h v hp h1
  | cons k ks ih =>
    rintro v h hp ⟨x, h1, h2⟩
    exact ⟨x, h1, ih h (plain_at hp h1) h2⟩

theorem reach_mono {ks : List String} {p q : Val → Prop} : ∀ {v : Val}, (∀ x, p x → q x) → Reach v ks p → Reach v ks q := by
  induction ks with
  | nil => intro v h h1; exact h v h1
  | cons k ks ih =>
    rintro v h ⟨x, h1, h2⟩
    exact ⟨x, h1, ih h h2⟩

theorem reach_ex {ks : List String} {p : Val → Prop} : ∀ {v : Val}, Reach v ks p →
    ∃ x, p x ∧ (PlainDoc v → PlainDoc x) ∧ ∀ q : Val → Prop, q x → Reach v ks q := by
  induction ks with
  | nil => intro v h; exact ⟨v, h, id, fun _ h => h⟩
  | cons k ks ih =>
    rintro v ⟨y, h1, h2⟩
    obtain ⟨x, h3, h4, h5⟩ := ih h2
    exact ⟨x, h3, fun hp => h4 (plain_at hp h1), fun q hq => ⟨y, h1, h5 q hq⟩⟩

theorem Codes.under {ks : List String} (h : Codes w S e) : Codes (fun n p => wAt p ks (w n)) (fun v x => Reach v ks (S · x)) e where
  fw := fun {n v b} hp hw => by
    obtain ⟨y, h1, h2, h3⟩ := reach_ex (wAt_iff.1 hw)
    obtain ⟨x, h4, h5⟩ := h.fw (h2 hp) h1
    exact ⟨x, h3 _ h4, h5⟩
  bw := fun {v x} hs => by
    obtain ⟨y, h1, -, h3⟩ := reach_ex hs
    obtain ⟨k, hk⟩ := h.bw h1
    exact ⟨k, fun n hn => wAt_iff.2 (h3 _ (hk n hn))⟩

theorem Codes2.under {ks : List String} {w : Nat → Val → Val → Except Err Bytes} {S : Val → Val → α → Prop} (h : Codes2 w S e) :
    Codes (fun n p => wAt p ks (fun t => w n t p)) (fun v x => Reach v ks (S · v x)) e where
  fw := fun {n v b} hp hw => by
    obtain ⟨y, h1, h2, h3⟩ := reach_ex (wAt_iff.1 hw)
    obtain ⟨x, h4, h5⟩ := h.fw (h2 hp) hp h1
    exact ⟨x, h3 _ h4, h5⟩
  bw := fun {v x} hs => by
    obtain ⟨y, h1, -, h3⟩ := reach_ex hs
    obtain ⟨k, hk⟩ := h.bw h1
    exact ⟨k, fun n hn => wAt_iff.2 (h3 _ (hk n hn))⟩

theorem Codes.nil : Codes (fun _ _ => wcat []) (fun _ (_ : Unit) => True) (fun _ => []) :=
  ⟨fun _ h => ⟨(), trivial, wcat_end.1 h⟩, fun _ => ⟨0, fun _ _ => rfl⟩⟩

theorem Codes.none : Codes (fun _ _ => .ok []) (fun _ (_ : Unit) => True) (fun _ => []) :=
  ⟨fun _ h => ⟨(), trivial, (Except.ok.inj h).symm⟩, fun _ => ⟨0, fun _ _ => rfl⟩⟩

theorem Codes.one (h : Codes w S e) : Codes (fun n p => wcat [w n p]) S e :=
  ⟨fun hp hw => h.fw hp (wcat1.1 hw), fun hs => (h.bw hs).imp fun _ hk n hn => wcat1.2 (hk n hn)⟩

theorem Codes.seq {t : Nat → Val → List (Except Err Bytes)} {S2 : Val → β → Prop} {e2 : β → Bytes}
    (h1 : Codes w S e) (h2 : Codes (fun n p => wcat (t n p)) S2 e2) :
    Codes (fun n p => wcat (w n p :: t n p)) (fun v (x : α × β) => S v x.1 ∧ S2 v x.2) (fun x => e x.1 ++ e2 x.2) where
  fw := fun hp hw => by
    obtain ⟨c, d, g1, g2, rfl⟩ := wcat_iff.1 hw
    obtain ⟨x, g3, rfl⟩ := h1.fw hp g1
    obtain ⟨y, g4, rfl⟩ := h2.fw hp g2
    exact ⟨(x, y), ⟨g3, g4⟩, rfl⟩
  bw := fun hs => by
    obtain ⟨k, hk⟩ := both (h1.bw hs.1) (h2.bw hs.2)
    exact ⟨k, fun n hn => wcat_iff.2 ⟨_, _, (hk n hn).1, (hk n hn).2, rfl⟩⟩

theorem Codes.conv {S' : Val → β → Prop} {e' : β → Bytes} (h : Codes w S e) (f : β → α) (g : α → β)
    (hto : ∀ x, f (g x) = x) (hS : ∀ v y, S' v y ↔ S v (f y)) (he : ∀ y, e' y = e (f y)) : Codes w S' e' where
  fw := fun hp hw => by
    obtain ⟨x, h1, rfl⟩ := h.fw hp hw
    exact ⟨g x, (hS _ _).2 (by rw [hto]; exact h1), by rw [he, hto]⟩
  bw := fun {v y} hs => by
    obtain ⟨k, hk⟩ := h.bw ((hS _ _).1 hs)
    exact ⟨k, fun n hn => by rw [he]; exact hk n hn⟩

/-- Only the bytes. -/
theorem Codes.forget (h : Codes w S e) : Codes w (fun v b => ∃ x, S v x ∧ b = e x) id :=
  ⟨fun hp hw => (h.fw hp hw).elim fun x hx => ⟨_, ⟨x, hx⟩, rfl⟩, fun ⟨x, h1, h2⟩ => by rw [h2]; exact h.bw h1⟩

theorem Codes.bytes {S' : Val → Bytes → Prop} (h : Codes w S e) (h1 : ∀ v x, S v x → S' v (e x))
    (h2 : ∀ v b, S' v b → ∃ x, S v x ∧ b = e x) : Codes w S' id :=
  ⟨fun hp hw => by obtain ⟨x, h3, rfl⟩ := h.fw hp hw; exact ⟨_, h1 _ _ h3, rfl⟩,
    fun {v b} hs => by obtain ⟨x, h3, rfl⟩ := h2 _ _ hs; exact h.bw h3⟩

theorem wItems_fw {n : Nat} (h : Codes w S e) : ∀ {l : List Val} {b : Bytes}, (∀ x ∈ l, PlainDoc x) →
    wItems (w n) l = .ok b → ∃ xs, List.Forall₂ S l xs ∧ b = xs.flatMap e
  | [], b, _, hw => ⟨[], .nil, wcat_end.1 hw⟩
  | v :: l, b, hp, hw => by
    obtain ⟨c, d, h1, h2, rfl⟩ := wcat_iff.1 hw
    obtain ⟨x, h3, rfl⟩ := h.fw (hp v List.mem_cons_self) h1
    obtain ⟨xs, h4, rfl⟩ := wItems_fw h (fun y hy => hp y (List.mem_cons_of_mem _ hy)) h2
    exact ⟨x :: xs, .cons h3 h4, rfl⟩

theorem wItems_bw (h : Codes w S e) : ∀ {l : List Val} {xs : List α}, List.Forall₂ S l xs →
    ∃ k, ∀ n ≥ k, wItems (w n) l = .ok (xs.flatMap e)
  | _, _, .nil => ⟨0, fun _ _ => rfl⟩
  | _, _, .cons h1 h2 => (both (h.bw h1) (wItems_bw h h2)).imp fun _ hk n hn =>
      wcat_iff.2 ⟨_, _, (hk n hn).1, (hk n hn).2, rfl⟩

theorem Codes.list (h : Codes w S e) : Codes (fun n => wTArray (w n)) (SaysList S) (eList e) where
  fw := fun {n v b} hp hw => by
    unfold wTArray at hw
    cases hi : v.seqItems with
    | error er => rw [hi] at hw; cases hw
    | ok l =>
      rw [hi] at hw
      obtain ⟨c, d, h1, h2, rfl⟩ := wcat2.1 hw
      obtain ⟨h3, rfl⟩ := wU32_count.1 h1
      have hi := seqItems_iff.1 hi
      obtain ⟨xs, h4, rfl⟩ := wItems_fw h (plain_items hp hi) h2
      have hl := h4.length_eq
      exact ⟨⟨xs, by rw [← hl]; exact h3⟩, ⟨l, hi, h4⟩, congrArg (lit 4 · ++ xs.flatMap e) hl⟩
  bw := by
    rintro v ⟨xs, hx⟩ ⟨l, hi, h4⟩
    have hl : l.length = xs.length := h4.length_eq
    obtain ⟨k, hk⟩ := wItems_bw h h4
    refine ⟨k, fun n hn => ?_⟩
    unfold wTArray
    rw [seqItems_iff.2 hi]
    exact wcat2.2 ⟨_, _, wU32_count.2 ⟨by rw [hl]; exact hx, rfl⟩, hk n hn, (congrArg (lit 4 · ++ xs.flatMap e) hl).symm⟩

/-! ### by type -/

theorem Codes.lift (h : Codes w S e) : Codes2 (fun n _ p => w n p) (fun _ v b => ∃ x, S v x ∧ b = e x) id :=
  ⟨fun _ hp hw => h.forget.fw hp hw, fun hs => h.forget.bw hs⟩

theorem Codes2.ite {s : String} {u : Nat → Val → Val → Except Err Bytes} {T : Val → Val → Bytes → Prop} (h1 : Codes w S e)
    (h2 : Codes2 u T id) : Codes2 (fun n t p => if t.isS s = true then w n p else u n t p)
      (fun t v b => (IsType t s ∧ ∃ x, S v x ∧ b = e x) ∨ (¬ IsType t s ∧ T t v b)) id where
  fw := fun {n t v b} ht hp hw => by
    by_cases h : t.isS s = true
    · rw [if_pos h] at hw
      obtain ⟨x, h3, h4⟩ := h1.fw hp hw
      exact ⟨b, .inl ⟨isS_iff.1 h, x, h3, h4⟩, rfl⟩
    · rw [if_neg h] at hw
      obtain ⟨x, h3, h4⟩ := h2.fw ht hp hw
      subst h4
      exact ⟨_, .inr ⟨not_isS.1 h, h3⟩, rfl⟩
  bw := fun {t v b} hs => by
    rcases hs with ⟨ht, x, h3, rfl⟩ | ⟨ht, h3⟩
    · exact (h1.bw h3).imp fun k hk n hn => by rw [if_pos (isS_iff.2 ht)]; exact hk n hn
    · exact (h2.bw h3).imp fun k hk n hn => by rw [if_neg (not_isS.2 ht)]; exact hk n hn

theorem isAny_iff {l : List String} {t : Val} : t.isAny l = true ↔ ∃ s ∈ l, IsType t s := by
  unfold Val.isAny
  constructor
  · intro h
    split at h
    · obtain ⟨s, h1, h2⟩ := List.any_eq_true.1 h
      exact ⟨s, h1, by rw [IsType, of_decide_eq_true h2]⟩
    · cases h
  · rintro ⟨s, h1, rfl⟩
    exact List.any_eq_true.2 ⟨s, h1, decide_eq_true rfl⟩

theorem Codes2.any {l : List String} {u : Nat → Val → Val → Except Err Bytes} {T : Val → Val → Bytes → Prop} (h1 : Codes w S e)
    (h2 : Codes2 u T id) : Codes2 (fun n t p => if t.isAny l = true then w n p else u n t p)
      (fun t v b => ((∃ s ∈ l, IsType t s) ∧ ∃ x, S v x ∧ b = e x) ∨ ((∀ s ∈ l, ¬ IsType t s) ∧ T t v b)) id where
  fw := fun {n t v b} ht hp hw => by
    by_cases h : t.isAny l = true
    · rw [if_pos h] at hw
      obtain ⟨x, h3, h4⟩ := h1.fw hp hw
      exact ⟨b, .inl ⟨isAny_iff.1 h, x, h3, h4⟩, rfl⟩
    · rw [if_neg h] at hw
      obtain ⟨x, h3, h4⟩ := h2.fw ht hp hw
      subst h4
      rw [isAny_iff] at h
      exact ⟨_, .inr ⟨fun s hs hn => h ⟨s, hs, hn⟩, h3⟩, rfl⟩
  bw := fun {t v b} hs => by
    rcases hs with ⟨ht, x, h3, rfl⟩ | ⟨ht, h3⟩
    · exact (h1.bw h3).imp fun k hk n hn => by rw [if_pos (isAny_iff.2 ht)]; exact hk n hn
    · refine (h2.bw h3).imp fun k hk n hn => ?_
      rw [if_neg]
      · exact hk n hn
      · rw [isAny_iff]; rintro ⟨s, h4, h5⟩; exact ht s h4 h5

theorem Codes2.of {u : Nat → Val → Val → Except Err Bytes} {T : Val → Val → Bytes → Prop} {T' : Val → Val → β → Prop}
    {e' : β → Bytes} (h : Codes2 u T id) (h1 : ∀ t v b, T t v b → ∃ y, T' t v y ∧ b = e' y)
    (h2 : ∀ t v y, T' t v y → T t v (e' y)) : Codes2 u T' e' where
  fw := fun ht hp hw => by
    obtain ⟨x, h3, rfl⟩ := h.fw ht hp hw
    exact h1 _ _ _ h3
  bw := fun hs => h.bw (h2 _ _ _ hs)

theorem type_ne {t : Val} {s s' : String} (ht : IsType t s) (h : s ≠ s') : ¬ IsType t s' := by
  intro h'
  have := isS_iff.2 h'
  rw [ht] at this
  exact isS_no s s' h.symm this

/-- Records that are known by now. -/
syntax "known" : tactic
macro_rules | `(tactic| known) => `(tactic| fail)
/-- The fields of a record, one after the other. -/
macro "fields" : tactic => `(tactic| repeat' with_reducible first
  | exact codes_guid | exact codes_str | exact codes_i32 | exact codes_i64 | exact codes_u32 | exact codes_f32
  | exact codes_f64 | exact codes_vec | exact codes_quat | exact codes_bytes | exact codes_u8 | exact codes_flag | known | assumption
  | apply Codes.list | apply Codes.under | apply Codes.one | apply Codes.seq)

/-- A record: its parts, the record made of the parts, and what it says. -/
macro "record " f:term ", " g:term ", " i:term : tactic => `(tactic| (
  apply Codes.conv (f := $f) (g := $g) (hto := fun _ => rfl)
  case h => fields
  case hS => intro v y; exact $i v y
  case he => intro y; simp only [List.append_assoc, id_eq]))

end Pal
