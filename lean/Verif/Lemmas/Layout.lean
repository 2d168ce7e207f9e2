import Verif.Spec.Layout
import Verif.Lemmas.Invert
import Verif.Lemmas.Single
import Verif.Lemmas.Nearest
/-
The readers of the model read exactly what the layouts of `Spec/Layout.lean` say.
-/

namespace Pal
open Spec

/-- A reader reads exactly the values of a layout. -/
def Reads (x : R Val) (L : Layout) : Prop := ∀ s v rest, x s = .ok (v, rest) ↔ L s v rest

theorem r_bind_iff {α β : Type} {x : R α} {f : α → R β} {s rest : Bytes} {b : β} :
    (x >>= f) s = .ok (b, rest) ↔ ∃ a s', x s = .ok (a, s') ∧ f a s' = .ok (b, rest) :=
  ⟨fun h => by obtain ⟨a, s', h1, h2⟩ := r_bind_inv h; exact ⟨a, s', h1, h2⟩,
    fun ⟨_, _, h1, h2⟩ => by rw [r_bind_ok h1]; exact h2⟩

theorem r_pure_iff {α : Type} {a b : α} {s rest : Bytes} : (pure a : R α) s = .ok (b, rest) ↔ b = a ∧ rest = s :=
  ⟨r_pure_inv, fun ⟨h1, h2⟩ => by rw [h1, h2]; rfl⟩

theorem rFail_iff {α : Type} {e : Err} {b : α} {s rest : Bytes} : (rFail e : R α) s = .ok (b, rest) ↔ False :=
  ⟨rFail_inv, False.elim⟩

theorem rLift_iff {α : Type} {x : Except Err α} {a : α} {s rest : Bytes} :
    rLift x s = .ok (a, rest) ↔ x = .ok a ∧ rest = s := by
  cases x with
  | error e => exact ⟨nofun, fun h => nomatch h.1⟩
  | ok b =>
    simp only [rLift, Except.ok.injEq, Prod.mk.injEq]
    exact ⟨fun h => ⟨h.1, h.2.symm⟩, fun h => ⟨h.1, h.2.symm⟩⟩

instance : LawfulMonad R := LawfulMonad.mk'
  (id_map := fun x => by
    funext s
    show R.bind x (fun a => R.pure (id a)) s = x s
    unfold R.bind
    cases h : x s <;> rfl)
  (pure_bind := fun _ _ => rfl)
  (bind_assoc := fun x f g => by
    funext s
    show R.bind (R.bind x f) g s = R.bind x (fun a => R.bind (f a) g) s
    unfold R.bind
    cases x s <;> rfl)

theorem rRead_iff {n : Nat} {s b rest : Bytes} : rRead n s = .ok (b, rest) ↔ Takes n s b rest := by
  unfold rRead Takes
  simp only [Except.ok.injEq, Prod.mk.injEq]
  constructor
  · rintro ⟨rfl, rfl⟩
    refine ⟨(List.take_append_drop _ _).symm, ?_⟩
    rw [List.length_take]
    by_cases h : n ≤ s.length
    · left; omega
    · right; exact ⟨by omega, List.drop_eq_nil_of_le (by omega)⟩
  · rintro ⟨rfl, h | ⟨h, rfl⟩⟩
    · subst h; simp
    · simp; omega

theorem rUnsigned_iff {k : Nat} {s rest : Bytes} {n : Nat} : rUnsigned k s = .ok (n, rest) ↔ Unsigned k s n rest := by
  unfold Unsigned
  constructor
  · intro h
    unfold rUnsigned at h
    split at h
    · rename_i hk
      simp only [Except.ok.injEq, Prod.mk.injEq] at h
      obtain ⟨rfl, rfl⟩ := h
      have hl : (s.take k).length = k := by rw [List.length_take]; omega
      have := leNat_lt (s.take k)
      rw [hl, pow256] at this
      refine ⟨this, ?_⟩
      have e := leBytes_leNat (s.take k)
      rw [hl] at e
      rw [lit_eq, e, List.take_append_drop]
    · cases h
  · rintro ⟨h, rfl⟩
    rw [lit_eq]
    exact rUnsigned_le k n rest (by rwa [pow256])

theorem rSigned_iff {k : Nat} (hk : 0 < k) {s rest : Bytes} {i : Int} : rSigned k s = .ok (i, rest) ↔ Signed k s i rest := by
  unfold Signed
  rw [inSigned_iff k hk]
  constructor
  · intro h
    unfold rSigned at h
    split at h
    · rename_i hl
      simp only [Except.ok.injEq, Prod.mk.injEq] at h
      obtain ⟨rfl, rfl⟩ := h
      have hl : (s.take k).length = k := by rw [List.length_take]; omega
      have hlt := leNat_lt (s.take k)
      rw [hl] at hlt
      have e := leBytes_leNat (s.take k)
      rw [hl] at e
      have hcast : ((256 ^ k : Nat) : Int) = (256 : Int) ^ k := by simp
      generalize leNat (s.take k) = n at *
      refine ⟨by split <;> omega, ?_⟩
      rw [twos_eq]
      have : ((if 2 * n < 256 ^ k then (n : Int) else (n : Int) - 256 ^ k) % 256 ^ k).toNat = n := by
        split
        · rw [Int.emod_eq_of_lt] <;> omega
        · rw [Int.sub_emod_right, Int.emod_eq_of_lt] <;> omega
      rw [this, e, List.take_append_drop]
    · cases h
  · rintro ⟨h, rfl⟩
    rw [twos_eq]
    exact rSigned_le k i rest h

theorem asciiDecode_iff {b : Bytes} {t : PyStr} : asciiDecode b = some t ↔ t = b.map UInt8.toNat ∧ Ascii t := by
  unfold asciiDecode
  constructor
  · intro h
    split at h
    · rename_i ha
      cases h
      refine ⟨rfl, fun c hc => ?_⟩
      obtain ⟨x, hx, rfl⟩ := List.mem_map.1 hc
      exact of_decide_eq_true (List.all_eq_true.1 ha x hx)
    · cases h
  · rintro ⟨rfl, h⟩
    rw [if_pos]
    refine List.all_eq_true.2 fun x hx => decide_eq_true (h _ (List.mem_map_of_mem hx))

theorem bytesToUnits_eq : ∀ {b : Bytes} {us : List Nat}, bytesToUnits b = some us → b = unitsToBytes us
  | [], us, h => by cases h; rfl
  | [_], us, h => by cases h
  | x :: y :: t, us, h => by
    simp only [bytesToUnits, Option.map_eq_some_iff] at h
    obtain ⟨us', h1, rfl⟩ := h
    have hx := x.toNat_lt
    have hy := y.toNat_lt
    rw [unitsToBytes, ← bytesToUnits_eq h1, show (x.toNat + 256 * y.toNat) % 256 = x.toNat by omega,
      show (x.toNat + 256 * y.toNat) / 256 % 256 = y.toNat by omega, UInt8.ofNat_toNat_self, UInt8.ofNat_toNat_self]

theorem utf16Decode_iff {b : Bytes} {t : PyStr} : utf16Decode b = some t ↔ b = (units t).flatMap (lit 2) ∧ Normal t := by
  constructor
  · intro h
    obtain ⟨us, h1, rfl⟩ := Option.map_eq_some_iff.1 h
    have hlt := bytesToUnits_lt _ _ us (Nat.le_refl _) h1
    refine ⟨?_, (joinUnits_normal _ us (Nat.le_refl _) hlt).1⟩
    rw [units_join us hlt, unitsToBytes_eq]
    exact bytesToUnits_eq h1
  · rintro ⟨rfl, h⟩
    rw [unitsToBytes_eq, units_eq]
    exact utf16Decode_encode t h

theorem dropLast_take (b : Bytes) : b.dropLast = b.take (b.length - 1) := List.dropLast_eq_take

theorem dropLast2_take (b : Bytes) : b.dropLast.dropLast = b.take (b.length - 2) := by
  rw [List.dropLast_eq_take, List.length_dropLast, List.dropLast_eq_take, List.take_take]
  congr 1
  omega

theorem rI32_iff {s rest : Bytes} {i : Int} : rI32 s = .ok (i, rest) ↔ Signed 4 s i rest := rSigned_iff (by decide)

theorem rFString_iff {s rest : Bytes} {t : PyStr} : rFString s = .ok (t, rest) ↔ Text s t rest := by
  constructor
  · intro h
    unfold rFString at h
    obtain ⟨size, s1, h1, h'⟩ := r_bind_inv h
    clear h
    have h := h'
    obtain ⟨hs, rfl⟩ := rI32_iff.1 h1
    have hs : -(2 ^ 31 : Int) ≤ size ∧ size < 2 ^ 31 := hs
    by_cases c1 : size = 0
    · rw [if_pos c1] at h
      obtain ⟨rfl, rfl⟩ := r_pure_inv h
      subst c1
      exact .empty
    · rw [if_neg c1] at h
      by_cases c2 : size < 0
      · rw [if_pos c2] at h
        obtain ⟨d, s2, h2, h⟩ := r_bind_inv h
        rw [rRead_iff] at h2
        rw [show size = -(size.natAbs : Int) by omega]
        cases hd : utf16Decode (d.take (d.length - 2)) with
        | none => rw [hd] at h; cases h
        | some x =>
          rw [hd] at h
          obtain ⟨rfl, rfl⟩ := r_pure_inv h
          obtain ⟨h3, h4⟩ := utf16Decode_iff.1 hd
          exact .wide (by omega) (by omega) h2 (by rw [dropLast2_take]; exact h3) h4
      · rw [if_neg c2] at h
        obtain ⟨d, s2, h2, h⟩ := r_bind_inv h
        rw [rRead_iff] at h2
        have e : twos 4 size = lit 4 size.natAbs := by
          have e1 : (size % 2 ^ (8 * 4)).toNat = size.natAbs := by omega
          rw [twos, e1]
        rw [e]
        cases hd : asciiDecode (d.take (d.length - 1)) with
        | none => rw [hd] at h; cases h
        | some x =>
          rw [hd] at h
          obtain ⟨rfl, rfl⟩ := r_pure_inv h
          obtain ⟨h3, h4⟩ := asciiDecode_iff.1 hd
          exact .ascii (by omega) (by omega) h2 (by rw [dropLast_take]; exact h3) h4
  · intro h
    unfold rFString
    cases h with
    | empty =>
      rw [show lit 4 0 = twos 4 0 from rfl, r_bind_ok (rI32_iff.2 ⟨(by unfold InSigned; omega : InSigned 4 0), (rfl : _ = twos 4 0 ++ rest)⟩), if_pos rfl]; rfl
    | @ascii n s d _ _ h0 h1 h2 h3 h4 =>
      have e : twos 4 (n : Int) = lit 4 n := by
        have e1 : ((n : Int) % 2 ^ (8 * 4)).toNat = n := by omega
        rw [twos, e1]
      rw [← e, r_bind_ok (rI32_iff.2 ⟨(by unfold InSigned; omega : InSigned 4 n), rfl⟩),
        if_neg (by omega), if_neg (by omega), Int.natAbs_natCast, r_bind_ok (rRead_iff.2 h2)]
      rw [(asciiDecode_iff (b := d.take (d.length - 1)) (t := t)).2 ⟨by rw [← dropLast_take]; exact h3, h4⟩]
      rfl
    | @wide n s d _ _ h0 h1 h2 h3 h4 =>
      rw [r_bind_ok (rI32_iff.2 ⟨(by unfold InSigned; omega : InSigned 4 (-(n : Int))), rfl⟩),
        if_neg (by omega), if_pos (by omega), show (-(n : Int)).natAbs = n by omega, r_bind_ok (rRead_iff.2 h2)]
      rw [(utf16Decode_iff (b := d.take (d.length - 2)) (t := t)).2 ⟨by rw [← dropLast2_take]; exact h3, h4⟩]
      rfl

/-! ### Floats -/

theorem quiet_bits23 (m : Nat) (h : m < 2 ^ 23) : quiet23 m = 2 ^ 22 ||| m := by
  have e : m * 2 ^ 29 / 2 ^ 29 = m := by omega
  have := quiet_bits (m * 2 ^ 29) (by omega)
  rw [e] at this
  rw [← this]
  unfold quiet23 quiet52
  split <;> split <;> omega

theorem f32to64_sign (x : BitVec 32) : sgn64 (f32to64 x) = sgn32 x := by
  obtain ⟨hs, he, hm, -⟩ := fields32 x
  unfold f32to64
  dsimp only
  have hq : quiet23 (man32 x) < 2 ^ 23 := by unfold quiet23; split <;> omega
  split
  · split
    · exact (fields_mk64 _ _ _ hs (by decide) (by decide)).1
    · exact (fields_mk64 _ _ _ hs (by decide) (by omega)).1
  · split
    · split
      · exact (fields_mk64 _ _ _ hs (by decide) (by decide)).1
      · rename_i h0
        have hl : Nat.log2 (man32 x) < 23 := (Nat.log2_lt h0).2 hm
        have h1 := Nat.lt_log2_self (n := man32 x)
        refine (fields_mk64 _ _ _ hs (by omega) ?_).1
        have h2 : man32 x - 2 ^ (man32 x).log2 < 2 ^ (man32 x).log2 := by
          rw [Nat.pow_succ] at h1
          have : 0 < 2 ^ (man32 x).log2 := Nat.two_pow_pos _
          omega
        calc _ < 2 ^ (man32 x).log2 * 2 ^ (52 - (man32 x).log2) := Nat.mul_lt_mul_of_pos_right h2 (Nat.two_pow_pos _)
          _ = 2 ^ 52 := by rw [← Nat.pow_add]; congr 1; omega
    · exact (fields_mk64 _ _ _ hs (by omega) (by omega)).1

theorem widens_f32to64 (x : BitVec 32) : Widens x (f32to64 x) := by
  obtain ⟨hs, he, hm, -⟩ := fields32 x
  refine ⟨f32to64_sign x, f32to64_value x, fun h => ?_, fun h => ?_⟩
  · have e : f32to64 x = mk64 (sgn32 x) 2047 0 := by
      unfold f32to64
      dsimp only
      rw [if_pos (show exp32 x = 255 from h.1), if_pos (show man32 x = 0 from h.2)]
    have f := fields_mk64 (sgn32 x) 2047 0 hs (by decide) (by decide)
    rw [e]
    exact ⟨f.2.1, f.2.2⟩
  · have hq : 2 ^ 22 ≤ quiet23 (man32 x) ∧ quiet23 (man32 x) < 2 ^ 23 := by unfold quiet23; split <;> omega
    have e : f32to64 x = mk64 (sgn32 x) 2047 (quiet23 (man32 x) * 2 ^ 29) := by
      unfold f32to64
      dsimp only
      rw [if_pos (show exp32 x = 255 from h.1), if_neg (show man32 x ≠ 0 from h.2)]
    have f := fields_mk64 (sgn32 x) 2047 (quiet23 (man32 x) * 2 ^ 29) hs (by decide) (by omega)
    have f3 : (mk64 (sgn32 x) 2047 (quiet23 (man32 x) * 2 ^ 29)).toNat % 2 ^ 52 = quiet23 (man32 x) * 2 ^ 29 := f.2.2
    rw [e]
    refine ⟨⟨f.2.1, by omega⟩, ?_⟩
    rw [f3, quiet_bits23 _ hm]
    rfl

theorem value64_inj {a b : BitVec 64} (hs : a.toNat / 2 ^ 63 = b.toNat / 2 ^ 63) (h : value64 a = value64 b) : a = b := by
  have ha := a.isLt
  have hb := b.isLt
  apply BitVec.eq_of_toNat_eq
  unfold value64 at h
  by_cases c : a.toNat < 2 ^ 63
  · rw [if_pos c, if_pos (by omega)] at h
    exact magValue_mono.injective h
  · rw [if_neg c, if_neg (by omega), neg_inj] at h
    have := magValue_mono.injective h
    omega

theorem widens_eq {x : BitVec 32} {b : BitVec 64} (h : Widens x b) : b = f32to64 x := by
  have g := widens_f32to64 x
  have hs := h.sign.trans g.sign.symm
  have hb := b.isLt
  have hf := (f32to64 x).isLt
  by_cases c : Special32 x
  · apply BitVec.eq_of_toNat_eq
    by_cases c0 : x.toNat % 2 ^ 23 = 0
    · obtain ⟨h1, h2⟩ := h.infinity ⟨c, c0⟩
      obtain ⟨g1, g2⟩ := g.infinity ⟨c, c0⟩
      unfold Special64 at h1 g1
      generalize (f32to64 x).toNat = y at *
      omega
    · obtain ⟨⟨h1, -⟩, h2⟩ := h.nan ⟨c, c0⟩
      obtain ⟨⟨g1, -⟩, g2⟩ := g.nan ⟨c, c0⟩
      unfold Special64 at h1 g1
      rw [← g2] at h2
      generalize (f32to64 x).toNat = y at *
      omega
  · exact value64_inj hs ((h.number c).2.trans (g.number c).2.symm)

theorem shownFloat_eq (an : Bool) (b : BitVec 64) : shownFloat an b = floatVal an b := by
  have hi : isInf64 b = decide (Inf64 b) := by
    unfold isInf64 Inf64 Special64
    rfl
  unfold shownFloat floatVal
  cases an
  · rw [hi]
    by_cases h : Inf64 b <;> simp [h]
  · simp

theorem rFloat_reads (an : Bool) : Reads (rFloat an) (Layout.f32 an) := by
  intro s v rest
  unfold rFloat Layout.f32
  rw [r_bind_iff]
  simp only [rUnsigned_iff, r_pure_iff]
  constructor
  · rintro ⟨n, s', ⟨h1, rfl⟩, rfl, rfl⟩
    refine ⟨BitVec.ofNat 32 n, _, ?_, widens_f32to64 _, (shownFloat_eq _ _).symm⟩
    rw [BitVec.toNat_ofNat, Nat.mod_eq_of_lt h1]
  · rintro ⟨x, b, rfl, h, rfl⟩
    rw [widens_eq h]
    refine ⟨x.toNat, rest, ⟨x.isLt, rfl⟩, ?_, rfl⟩
    rw [BitVec.ofNat_toNat, BitVec.setWidth_eq, shownFloat_eq]

theorem rDouble_reads (an : Bool) : Reads (rDouble an) (Layout.f64 an) := by
  intro s v rest
  unfold rDouble Layout.f64
  rw [r_bind_iff]
  simp only [rUnsigned_iff, r_pure_iff]
  constructor
  · rintro ⟨n, s', ⟨h1, rfl⟩, rfl, rfl⟩
    refine ⟨BitVec.ofNat 64 n, ?_, (shownFloat_eq _ _).symm⟩
    rw [BitVec.toNat_ofNat, Nat.mod_eq_of_lt h1]
  · rintro ⟨b, rfl, rfl⟩
    refine ⟨b.toNat, rest, ⟨b.isLt, rfl⟩, ?_, rfl⟩
    rw [BitVec.ofNat_toNat, BitVec.setWidth_eq, shownFloat_eq]

/-! ### Other fields -/

/-- An unsigned integer as a value. -/
def rUV (k : Nat) : R Val := do
  let n ← rUnsigned k
  return .int n

def rIV (k : Nat) : R Val := do
  let n ← rSigned k
  return .int n

/-- A flag as a value. -/
def rFlagV (k : Nat) : R Val := do
  let n ← rUnsigned k
  return .bool (decide (n > 0))

theorem rUV_reads (k : Nat) : Reads (rUV k) (Layout.u k) := by
  intro s v rest
  unfold rUV Layout.u
  rw [r_bind_iff]
  simp only [rUnsigned_iff, r_pure_iff]
  constructor
  · rintro ⟨n, s', h, rfl, rfl⟩; exact ⟨n, h, rfl⟩
  · rintro ⟨n, h, rfl⟩; exact ⟨n, rest, h, rfl, rfl⟩

theorem rIV_reads {k : Nat} (hk : 0 < k) : Reads (rIV k) (Layout.i k) := by
  intro s v rest
  unfold rIV Layout.i
  rw [r_bind_iff]
  simp only [rSigned_iff hk, r_pure_iff]
  constructor
  · rintro ⟨n, s', h, rfl, rfl⟩; exact ⟨n, h, rfl⟩
  · rintro ⟨n, h, rfl⟩; exact ⟨n, rest, h, rfl, rfl⟩

theorem rFlagV_reads (k : Nat) : Reads (rFlagV k) (Layout.flag k) := by
  intro s v rest
  unfold rFlagV Layout.flag
  rw [r_bind_iff]
  simp only [rUnsigned_iff, r_pure_iff, Nat.pos_iff_ne_zero, gt_iff_lt]
  constructor
  · rintro ⟨n, s', h, rfl, rfl⟩; exact ⟨n, h, rfl⟩
  · rintro ⟨n, h, rfl⟩; exact ⟨n, rest, h, rfl, rfl⟩

theorem rStr_reads : Reads rStr Layout.text := by
  intro s v rest
  unfold rStr Layout.text
  rw [r_bind_iff]
  simp only [rFString_iff, r_pure_iff]
  constructor
  · rintro ⟨n, s', h, rfl, rfl⟩; exact ⟨n, h, rfl⟩
  · rintro ⟨n, h, rfl⟩; exact ⟨n, rest, h, rfl, rfl⟩

theorem rGuid_reads : Reads rGuid Layout.guid := by
  intro s v rest
  unfold rGuid Layout.guid
  rw [r_bind_iff]
  simp only [rRead_iff, r_pure_iff]
  constructor
  · rintro ⟨n, s', h, rfl, rfl⟩; exact ⟨n, h, rfl⟩
  · rintro ⟨n, h, rfl⟩; exact ⟨n, rest, h, rfl, rfl⟩

theorem rUuid_reads : Reads rUuid Layout.uuid := by
  intro s v rest
  unfold rUuid Layout.uuid
  rw [r_bind_iff]
  simp only [rRead_iff]
  constructor
  · rintro ⟨b, s', h, h'⟩
    by_cases c : b.length ≠ 16
    · rw [if_pos c] at h'; cases h'
    · rw [if_neg c] at h'
      obtain ⟨rfl, rfl⟩ := r_pure_inv h'
      exact ⟨b, h.1, by omega, rfl⟩
  · rintro ⟨b, h, h', rfl⟩
    exact ⟨b, rest, ⟨h, .inl h'⟩, by rw [if_neg (by omega)]; rfl⟩

theorem rOptGuid_reads : Reads rOptGuid Layout.optGuid := by
  intro s v rest
  unfold rOptGuid Layout.optGuid
  cases s with
  | nil => exact ⟨nofun, fun ⟨x, s', h, _⟩ => by cases h⟩
  | cons x s' =>
    have e : rRead 1 (x :: s') = .ok ([x], s') := rfl
    rw [r_bind_ok e]
    by_cases c : x = 0
    · subst c
      simp only [if_true, r_pure_iff]
      constructor
      · rintro ⟨rfl, rfl⟩; exact ⟨0, _, rfl, .inl ⟨rfl, rfl, rfl⟩⟩
      · rintro ⟨y, s2, h, h1⟩
        cases h
        rcases h1 with ⟨-, rfl, rfl⟩ | ⟨h1, -⟩
        · exact ⟨rfl, rfl⟩
        · exact absurd rfl h1
    · simp only [c, if_false]
      rw [rGuid_reads]
      constructor
      · intro h; exact ⟨x, _, rfl, .inr ⟨c, h⟩⟩
      · rintro ⟨y, s2, h, h1⟩
        cases h
        rcases h1 with ⟨h1, -⟩ | ⟨-, h1⟩
        · exact absurd h1 c
        · exact h1

theorem rByteList_reads (n : Nat) : Reads (rByteList n) (Layout.bytes n) := by
  intro s v rest
  unfold rByteList Layout.bytes vBytesT
  constructor
  · intro h
    split at h
    · cases h
      exact ⟨s.take n, (List.take_append_drop _ _).symm, by rw [List.length_take]; omega, rfl⟩
    · cases h
  · rintro ⟨b, rfl, rfl, rfl⟩
    rw [if_pos (by simp)]
    simp

/-! ### Composite layouts -/

/-- Fields one after the other. -/
def rFields : List (String × R Val) → R (List (String × Val))
  | [] => pure []
  | (k, x) :: t => do
    let v ← x
    let l ← rFields t
    return (k, v) :: l

def rRecord (t : List (String × R Val)) : R Val := do
  let l ← rFields t
  return dct l

/-- The same fields, as a dict. -/
def rDict (t : List (String × R Val)) : R Dict := do
  let l ← rFields t
  return l.map fun kv => (P kv.1, kv.2)

/-- Pairs of a reader and a layout. -/
inductive ReadsL : List (String × R Val) → List (String × Layout) → Prop
  | nil : ReadsL [] []
  | cons {k x L t t'} : Reads x L → ReadsL t t' → ReadsL ((k, x) :: t) ((k, L) :: t')

theorem ReadsL.append {a b : List (String × R Val)} {a' b' : List (String × Layout)} (h : ReadsL a a') (h' : ReadsL b b') :
    ReadsL (a ++ b) (a' ++ b') := by
  induction h with
  | nil => exact h'
  | cons h _ ih => exact .cons h ih

theorem rFields_iff {t : List (String × R Val)} {t' : List (String × Layout)} (h : ReadsL t t') {s rest : Bytes}
    {l : List (String × Val)} : rFields t s = .ok (l, rest) ↔ Layout.fields t' s l rest := by
  induction h generalizing s l with
  | nil => rw [rFields, Layout.fields, r_pure_iff]
  | @cons k x L t t' hx _ ih =>
    rw [rFields, Layout.fields]
    simp only [r_bind_iff, r_pure_iff]
    constructor
    · rintro ⟨v, s1, h1, l', s2, h2, rfl, rfl⟩
      exact ⟨v, s1, l', (hx _ _ _).1 h1, ih.1 h2, rfl⟩
    · rintro ⟨v, s1, l', h1, h2, rfl⟩
      exact ⟨v, s1, (hx _ _ _).2 h1, l', rest, ih.2 h2, rfl, rfl⟩

theorem rRecord_reads {t : List (String × R Val)} {t' : List (String × Layout)} (h : ReadsL t t') :
    Reads (rRecord t) (Layout.record t') := by
  intro s v rest
  unfold rRecord Layout.record
  simp only [r_bind_iff, r_pure_iff, rFields_iff h]
  constructor
  · rintro ⟨l, s', h1, rfl, rfl⟩; exact ⟨l, h1, rfl⟩
  · rintro ⟨l, h1, rfl⟩; exact ⟨l, rest, h1, rfl, rfl⟩

theorem rRepeat_iff {x : R Val} {L : Layout} (h : Reads x L) {n : Nat} {s rest : Bytes} {l : List Val} :
    rRepeat x n s = .ok (l, rest) ↔ Layout.many L n s l rest := by
  induction n generalizing s l with
  | zero => rw [rRepeat, Layout.many, r_pure_iff]
  | succ n ih =>
    rw [rRepeat, Layout.many]
    simp only [r_bind_iff, r_pure_iff]
    constructor
    · rintro ⟨v, s1, h1, l', s2, h2, rfl, rfl⟩
      exact ⟨v, s1, l', (h _ _ _).1 h1, ih.1 h2, rfl⟩
    · rintro ⟨v, s1, l', h1, h2, rfl⟩
      exact ⟨v, s1, (h _ _ _).2 h1, l', rest, ih.2 h2, rfl, rfl⟩

theorem rTArray_reads {x : R Val} {L : Layout} (h : Reads x L) : Reads (rTArray x) (Layout.array L) := by
  intro s v rest
  unfold rTArray Layout.array rU32
  simp only [r_bind_iff, r_pure_iff, rRepeat_iff h, rUnsigned_iff]
  constructor
  · rintro ⟨n, s1, h1, l, s2, h2, rfl, rfl⟩; exact ⟨n, s1, l, h1, h2, rfl⟩
  · rintro ⟨n, s1, l, h1, h2, rfl⟩; exact ⟨n, s1, h1, l, rest, h2, rfl, rfl⟩

theorem rPure_reads (c : Val) : Reads (pure c) (Layout.always c) := by
  intro s v rest
  rw [r_pure_iff]; rfl

theorem vector_reads (an : Bool) : Reads (rVectorDict an) (Layout.vector an) := by
  have e : rVectorDict an = rRecord [("x", rDouble an), ("y", rDouble an), ("z", rDouble an)] := by
    simp only [rRecord, rFields, bind_assoc, pure_bind]; rfl
  rw [e]
  exact rRecord_reads (.cons (rDouble_reads _) (.cons (rDouble_reads _) (.cons (rDouble_reads _) .nil)))

end Pal
