import Verif.Lemmas.Prim
/-
C12 strings round-trip, C13 string encoding is canonical, C14 integers.
-/

namespace Pal
open Spec

/-! ### C12 -/

/-- C12: every storable string is written by `fstring`, and reading the bytes back gives
the same string and leaves whatever follows untouched. -/
theorem C12_string_roundtrip (s : PyStr) (h : StrOk s) :
    ∃ b, wFString (.str s) = .ok b ∧ ∀ rest, rFString (b ++ rest) = .ok (s, rest) :=
  ⟨encStr s, fstringBytes_eq s h.2, fun rest => rFString_enc s rest h⟩

/-- "aé😀", a lone surrogate and a NUL. -/
example : StrOk [97, 0xE9, 0x1F600, 0xD800, 0] := by decide +kernel

/-- C12: what the reader returns is always made of code points without split surrogate
pair, so the hypothesis of `C12_string_roundtrip` only excludes lengths beyond 2^31 and
strings the reader cannot produce. -/
theorem C12_reader_strings_normal (data rest : Bytes) (s : PyStr) (h : rFString data = .ok (s, rest)) :
    Normal s := by
  obtain ⟨size, s', _, h | h | h⟩ := rFString_inv data rest s h
  · rw [h.2.1]; simp [Normal, NoSplit]
  · obtain ⟨us, h1, h2⟩ := Option.map_eq_some_iff.1 h.2.1
    rw [← h2]
    exact (joinUnits_normal _ us (Nat.le_refl _) (bytesToUnits_lt _ _ us (Nat.le_refl _) h1)).1
  · have hd := h.2.1
    rw [asciiDecode] at hd
    split at hd
    · rename_i hall
      simp only [Option.some.injEq] at hd
      rw [← hd]
      apply ascii_normal
      intro c hc
      rw [List.mem_map] at hc
      obtain ⟨x, hx, rfl⟩ := hc
      simpa using List.all_eq_true.1 hall x hx
    · simp at hd

/-! ### C13 -/

/-- C13: the bytes written for a string are exactly the canonical form of the
specification: length 0; or length plus one, ASCII and NUL; or minus (units plus one),
UTF-16LE and two NULs. -/
theorem C13_string_canonical (s : PyStr) (h : StrFits s) : wFString (.str s) = .ok (encStr s) :=
  fstringBytes_eq s h

example : wFString (.str [104, 105]) = .ok [3, 0, 0, 0, 104, 105, 0] := by rfl
example : wFString (.str [0xE9]) = .ok [254, 255, 255, 255, 0xE9, 0, 0, 0] := by rfl
example : wFString (.str [0x1F600]) =
    .ok [253, 255, 255, 255, 0x3D, 0xD8, 0x00, 0xDE, 0, 0] := by rfl

/-- C13: strings whose length does not fit the length field are rejected. -/
theorem C13_too_long_rejected (s : PyStr) (h : ¬ StrFits s) : ∃ e, wFString (.str s) = .error e := by
  have wSigned_out : ∀ i : Int, ¬ (-(256 ^ 4) ≤ 2 * i ∧ 2 * i < 256 ^ 4) →
      wI32 (.int i) = .error .struct := by
    intro i hi
    simp only [wI32, wSigned, Val.asInt?]
    rw [if_neg hi]
  unfold StrFits at h
  refine ⟨.struct, ?_⟩
  simp only [wFString]
  unfold fstringBytes
  split
  · rename_i h0
    subst h0
    exact absurd (by decide) h
  · split
    · rename_i h0 h1
      rw [if_pos ((isAscii_iff s).1 h1)] at h
      have hl : (asciiEncode s).length = s.length := by simp [asciiEncode]
      rw [hl, wSigned_out _ (by omega)]
      rfl
    · rename_i h0 h1
      rw [if_neg (fun h => h1 ((isAscii_iff s).2 h))] at h
      have hl : (utf16Encode s).length / 2 = (units s).length := by
        rw [units_eq, utf16Encode, unitsToBytes_length]; omega
      rw [hl, wSigned_out _ (by omega)]
      rfl

/-- C13: two different storable strings never get the same encoding, and no encoding is
a prefix of another one. -/
theorem C13_string_injective (s t : PyStr) (hs : StrOk s) (ht : StrOk t) (r1 r2 : Bytes)
    (h : encStr s ++ r1 = encStr t ++ r2) : s = t ∧ r1 = r2 := by
  have h1 := rFString_enc s r1 hs
  have h2 := rFString_enc t r2 ht
  rw [h, h2] at h1
  simp only [Except.ok.injEq, Prod.mk.injEq] at h1
  exact ⟨h1.1.symm, h1.2.symm⟩

/-! ### C14 -/

/-- A signed `k`-byte writer and reader: in range, exactly the `k` two's complement
bytes are written and read back to the same number; out of range, the writer raises. -/
def SignedCodec (k : Nat) (w : Val → Except Err Bytes) (r : R Int) : Prop :=
  ∀ i : Int,
    (InSigned k i → w (.int i) = .ok (twos k i) ∧ (twos k i).length = k ∧
      ∀ rest, r (twos k i ++ rest) = .ok (i, rest)) ∧
    (¬ InSigned k i → ∃ e, w (.int i) = .error e)

/-- The same for unsigned integers. -/
def UnsignedCodec (k : Nat) (w : Val → Except Err Bytes) (r : R Nat) : Prop :=
  ∀ i : Int,
    (InUnsigned k i → w (.int i) = .ok (lit k i.toNat) ∧ (lit k i.toNat).length = k ∧
      ∀ rest, r (lit k i.toNat ++ rest) = .ok (i.toNat, rest)) ∧
    (¬ InUnsigned k i → ∃ e, w (.int i) = .error e)

theorem signedCodec (k : Nat) (hk : 0 < k) : SignedCodec k (wSigned k) (rSigned k) := by
  intro i
  rw [inSigned_iff k hk]
  constructor
  · intro h
    rw [twos_eq]
    exact ⟨wSigned_in k i h, leBytes_length _ _, fun rest => rSigned_le k i rest h⟩
  · intro h
    exact ⟨.struct, by simp only [wSigned, Val.asInt?]; rw [if_neg h]⟩

theorem unsignedCodec (k : Nat) : UnsignedCodec k (wUnsigned k) (rUnsigned k) := by
  intro i
  have hp : ((256 ^ k : Nat) : Int) = 2 ^ (8 * k) := by simp [pow256]
  have hp2 : (256 : Int) ^ k = 2 ^ (8 * k) := pow256i k
  unfold InUnsigned
  constructor
  · intro h
    rw [lit_eq]
    refine ⟨?_, leBytes_length _ _, fun rest => rUnsigned_le k _ rest (by omega)⟩
    simp only [wUnsigned, Val.asInt?]
    rw [if_pos (by omega)]
  · intro h
    refine ⟨.struct, ?_⟩
    simp only [wUnsigned, Val.asInt?]
    rw [if_neg (by omega)]

theorem byteCodec : UnsignedCodec 1 wByte rByte := by
  intro i
  unfold InUnsigned
  constructor
  · intro h
    have := (unsignedCodec 1 i).1 h
    refine ⟨?_, this.2⟩
    simp only [wByte, byteOf, Val.asInt?]
    rw [if_pos (by omega), lit_eq]
    simp only [leBytes]
    rw [Nat.mod_eq_of_lt (by omega)]
  · intro h
    refine ⟨.value, ?_⟩
    simp only [wByte, byteOf, Val.asInt?]
    rw [if_neg (by omega)]

/-- C14: all seven fixed-width integer writers. -/
theorem C14_integers :
    SignedCodec 2 wI16 rI16 ∧ SignedCodec 4 wI32 rI32 ∧ SignedCodec 8 wI64 rI64 ∧
    UnsignedCodec 2 wU16 rU16 ∧ UnsignedCodec 4 wU32 rU32 ∧ UnsignedCodec 8 wU64 rU64 ∧
    UnsignedCodec 1 wByte rByte ∧ UnsignedCodec 1 wU rByte :=
  ⟨signedCodec 2 (by decide), signedCodec 4 (by decide), signedCodec 8 (by decide),
    unsignedCodec 2, unsignedCodec 4, unsignedCodec 8, byteCodec, unsignedCodec 1⟩

example : InSigned 2 (-32768) ∧ ¬ InSigned 2 32768 := by unfold InSigned; decide
example : wI16 (.int (-32768)) = .ok [0, 128] ∧ wI16 (.int 32768) = .error .struct := ⟨by rfl, by rfl⟩

/-- C14: values that are not integers are rejected as well. -/
theorem C14_non_integers_rejected (k : Nat) (v : Val) (h : v.asInt? = none) :
    (∃ e, wSigned k v = .error e) ∧ (∃ e, wUnsigned k v = .error e) ∧ ∃ e, wByte v = .error e := by
  refine ⟨⟨.struct, ?_⟩, ⟨.struct, ?_⟩, ⟨.type, ?_⟩⟩
  · simp [wSigned, h]
  · simp [wUnsigned, h]
  · simp [wByte, byteOf, h]

example : Val.asInt? (.str (P "12")) = none := rfl

end Pal
