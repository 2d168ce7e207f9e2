import Verif.Lemmas.Fields
import Verif.Spec.Header
/-
C26: the GVAS header.  C27 (base64 part): the trailer in the JSON file.
-/

namespace Pal
open Spec

/-- The attributes of the header object for a described header. -/
def hdrOf (h : Header) : Hdr :=
  ⟨.int 1396790855, .int 3, vI h.ue4, vI h.ue5, vU h.major, vU h.minor, vU h.patch, vU h.changelist,
    vStr h.branch, .int 3, vList (fun v => .tuple [vGuid v.1, vI v.2]) h.versions, vStr h.className⟩

theorem customVersion_e (v : Guid × BitVec 32) (rest : Bytes) :
    customVersionDecode (eVersion v ++ rest) = .ok (.tuple [vGuid v.1, vI v.2], rest) := by
  simp only [customVersionDecode, eVersion, rd]; rfl

theorem customVersion_v (v : Guid × BitVec 32) :
    customVersionEncode (.tuple [vGuid v.1, vI v.2]) = .ok (eVersion v) := by
  simp [customVersionEncode, Val.idx, Val.seqItems, eVersion, wr]

theorem magic_eq : gvasMagic = e32 1396790855 := by decide +kernel

theorem hdrRead_enc (h : Header) (rest : Bytes) : hdrRead (h.enc ++ rest) = .ok (hdrOf h, rest) := by
  have h1 : (1396790855 : BitVec 32).toInt = 1396790855 := by decide +kernel
  have h2 : (3 : BitVec 32).toInt = 3 := by decide +kernel
  simp only [hdrRead, Header.enc, Header.encWith, magic_eq, rd, h1, h2,
    rTArray_eList customVersion_e, ne_eq, not_true_eq_false, if_false]
  rfl

theorem hdr_dump (h : Header) : (hdrOf h).dump = h.val := rfl

theorem hdrWrite_of (h : Header) : (hdrOf h).write = .ok h.enc := by
  have e1 : wI32 (.int 1396790855) = .ok gvasMagic := rfl
  have e2 : wI32 (.int 3) = .ok (e32 3) := rfl
  simp [Hdr.write, hdrOf, Header.enc, Header.encWith, e1, e2, wTArray_v customVersion_v, wr]

theorem e_bind_ok {α β : Type} (a : α) (f : α → Except Err β) : (Except.ok a >>= f) = f a := rfl

theorem hdrLoad_dump (h : Hdr) : Hdr.load h.dump = .ok h := by
  simp only [Hdr.load, Hdr.dump, dct_eq, get_vDict_cons, String.reduceEq, if_true, if_false, e_bind_ok]
  rfl

theorem hdr_jok (an : Bool) (h : Header) : JOk an h.val := by
  unfold Header.val
  have hv : ∀ v : Guid × BitVec 32, JOk an (.tuple [vGuid v.1, vI v.2]) := by
    intro v
    simp only [JOk, JOkL]
    exact ⟨jok_guid an _, jok_i an _, trivial⟩
  jok_tac
  exact hv _

theorem sim_bind_get {α : Type} {bs : Bool} {a b : Val} (hs : Sim bs a b) (Q : α → α → Prop) (k : PyStr)
    {f g : Val → Except Err α}
    (h : ∀ x y, Sim bs x y → ∀ r, f x = .ok r → ∃ r', g y = .ok r' ∧ Q r r') :
    ∀ r, (a.get k >>= f) = .ok r → ∃ r', (b.get k >>= g) = .ok r' ∧ Q r r' := by
  intro r hr
  cases hx : a.get k with
  | error e => rw [hx] at hr; cases hr
  | ok x =>
    obtain ⟨y, hy, hxy⟩ := sim_get hs hx
    rw [hx] at hr
    rw [hy]
    exact h x y hxy r hr

theorem mono_customVersion {bs : Bool} : Mono bs customVersionEncode := by
  have key : ∀ (i : Nat) (w : Val → Except Err Bytes), Mono bs w → ∀ a b, Sim bs a b →
      Le (match a.idx i with
        | .ok x => w x
        | .error e => .error e) (match b.idx i with
        | .ok x => w x
        | .error e => .error e) := by
    intro i w hw a b hs r hr
    cases hl : a.seqItems with
    | error e => simp only [Val.idx, hl] at hr; cases hr
    | ok l =>
      obtain ⟨l', hl', hll⟩ := sim_seqItems hs hl
      simp only [Val.idx, hl, hl'] at hr ⊢
      clear hl hl' hs
      induction i generalizing l l' with
      | zero =>
        cases hll with
        | nil => exact hr
        | cons h ht => exact hw _ _ h r hr
      | succ i ih =>
        cases hll with
        | nil => exact hr
        | cons h ht =>
          simp only [List.getElem?_cons_succ] at hr ⊢
          exact ih _ _ ht hr
  intro a b hs
  unfold customVersionEncode
  exact le_wcat_cons (key 0 _ (mono_guid _) _ _ hs)
    (le_wcat_cons (key 1 _ (mono_i32 _) _ _ hs) (le_refl _))

/-- The header loaded from a value related to `a` writes the bytes of the header loaded from `a`. -/
theorem hdrLoad_sim {bs : Bool} {a b : Val} (hs : Sim bs a b) :
    ∀ h, Hdr.load a = .ok h → ∃ h', Hdr.load b = .ok h' ∧ Le h.write h'.write ∧ Sim bs h.className h'.className := by
  unfold Hdr.load
  iterate 12 (refine sim_bind_get hs _ _ ?_; intro _ _ _)
  intro r hr
  cases hr
  refine ⟨_, rfl, ?_, by assumption⟩
  unfold Hdr.write
  have hcv := mono_tarray (@mono_customVersion bs)
  dsimp only
  repeat' (first
    | exact le_refl _
    | apply le_wcat_cons
    | exact mono_i32 _ _ _ (by assumption) | exact mono_u16 _ _ _ (by assumption)
    | exact mono_u32 _ _ _ (by assumption) | exact mono_fstring _ _ _ (by assumption)
    | exact hcv _ _ (by assumption))

theorem hdrWrite_sim {bs : Bool} {a b : Val} (hs : Sim bs a b) {h : Hdr} (ha : Hdr.load a = .ok h)
    {x : Bytes} (hw : h.write = .ok x) : ∃ h', Hdr.load b = .ok h' ∧ h'.write = .ok x := by
  obtain ⟨h', h1, h2, -⟩ := hdrLoad_sim hs h ha
  exact ⟨h', h1, h2 x hw⟩

/-! ### C26 -/

/-- C26: reading the bytes of a header gives the described values and consumes exactly
the header. -/
theorem C26_read (h : Header) (rest : Bytes) :
    ∃ r, hdrRead (h.enc ++ rest) = .ok (r, rest) ∧ r.dump = h.val :=
  ⟨_, hdrRead_enc h rest, hdr_dump h⟩

/-- C26: a header survives read then write, and read, dump, load then write, in memory. -/
theorem C26_write (h : Header) (rest : Bytes) :
    ∃ r, hdrRead (h.enc ++ rest) = .ok (r, rest) ∧ r.write = .ok h.enc ∧
      ∃ r', Hdr.load r.dump = .ok r' ∧ r' = r :=
  ⟨_, hdrRead_enc h rest, hdrWrite_of h, _, hdrLoad_dump _, rfl⟩

/-- C26: a header survives read, dump, JSON, load then write. -/
theorem C26_json (an : Bool) (h : Header) (rest : Bytes) :
    ∃ r v r', hdrRead (h.enc ++ rest) = .ok (r, rest) ∧ jsonRT an r.dump = .ok v ∧
      Hdr.load v = .ok r' ∧ r'.write = .ok h.enc := by
  obtain ⟨v, hv, hs⟩ := jok_json false an h.val (hdr_jok an h)
  obtain ⟨r', h1, h2⟩ := hdrWrite_sim hs (h := hdrOf h) (hdrLoad_dump (hdrOf h)) (hdrWrite_of h)
  exact ⟨_, v, r', hdrRead_enc h rest, hv, h1, h2⟩

/-- C26: `load` inverts `dump` for every header object, whatever its attributes hold. -/
theorem C26_dump_load (r : Hdr) : Hdr.load r.dump = .ok r := hdrLoad_dump r

theorem rI32_inv {s : Bytes} {i : Int} {r : Bytes} (h : rI32 s = .ok (i, r)) :
    s.take 4 = twos 4 i ∧ r = s.drop 4 := by
  have hl : 4 ≤ s.length := Decidable.byContradiction fun hc => by
    simp [rI32, rSigned, hc] at h
  have hsp : s = s.take 4 ++ s.drop 4 := (List.take_append_drop 4 s).symm
  have h4 : (s.take 4).length = 4 := by simp [hl]
  have hlt := leNat_lt (s.take 4)
  rw [h4] at hlt
  have hb := leBytes_leNat (s.take 4)
  rw [h4] at hb
  simp only [rI32, rSigned, hl, if_true] at h
  injection h with h
  injection h with h1 h2
  refine ⟨?_, h2.symm⟩
  rw [twos_eq]
  generalize leNat (s.take 4) = n at *
  rw [← hb]
  congr 1
  simp only [show (256 : Nat) ^ 4 = 4294967296 from rfl, show (256 : Int) ^ 4 = 4294967296 from rfl] at *
  split at h1 <;> omega

/-- C26: data that does not start with "GVAS" is rejected. -/
theorem C26_bad_magic (s : Bytes) (h : s.take 4 ≠ gvasMagic) : ∃ e, hdrRead s = .error e := by
  cases hi : rI32 s with
  | error e => exact ⟨e, r_bind_error hi _⟩
  | ok p =>
    obtain ⟨i, r⟩ := p
    obtain ⟨h1, h2⟩ := rI32_inv hi
    refine ⟨.exc "invalid magic", ?_⟩
    rw [hdrRead, r_bind_ok hi, if_pos]
    · rfl
    · rintro rfl
      exact h (h1.trans (by decide +kernel))

/-- C26: data whose save game version is not 3 is rejected. -/
theorem C26_bad_version (s : Bytes) (h : (s.drop 4).take 4 ≠ [3, 0, 0, 0]) : ∃ e, hdrRead s = .error e := by
  cases hi : rI32 s with
  | error e => exact ⟨e, r_bind_error hi _⟩
  | ok p =>
    obtain ⟨i, r⟩ := p
    obtain ⟨h1, h2⟩ := rI32_inv hi
    rw [hdrRead, r_bind_ok hi]
    split
    · exact ⟨_, rfl⟩
    · cases hj : rI32 r with
      | error e => exact ⟨e, r_bind_error hj _⟩
      | ok p =>
        obtain ⟨j, r'⟩ := p
        obtain ⟨h3, h4⟩ := rI32_inv hj
        refine ⟨.exc "expected save game version 3", ?_⟩
        rw [r_bind_ok hj, if_pos]
        · rfl
        · rintro rfl
          exact h (h2 ▸ h3.trans (by decide +kernel))

/-- C26: a header with a custom version format other than 3 is rejected. -/
theorem C26_bad_format (h : Header) (fmt : BitVec 32) (hf : fmt ≠ 3) (rest : Bytes) :
    hdrRead (h.encWith gvasMagic 3 fmt ++ rest) = .error (.exc "expected custom version format 3") := by
  have h1 : (1396790855 : BitVec 32).toInt = 1396790855 := by decide +kernel
  have h2 : (3 : BitVec 32).toInt = 3 := by decide +kernel
  have h3 : ¬ fmt.toInt = 3 := fun e => hf (BitVec.eq_of_toInt_eq (e.trans h2.symm))
  simp only [hdrRead, Header.encWith, magic_eq, rd, h1, h2, h3, ne_eq, not_true_eq_false, if_false,
    not_false_eq_true, if_true]
  rfl

/-- The theorems are about real headers: one with a branch name, two custom versions and
a negative version number. -/
def sampleHeader : Header :=
  ⟨-1, 1008, 5, 1, 1, 0, ⟨P "++UE5+Release-5.1", by decide +kernel⟩,
    ⟨[(⟨List.replicate 16 7, by decide⟩, 40), (⟨List.replicate 16 9, by decide⟩, -3)], by decide⟩,
    ⟨P "/Script/Pal.PalWorldSaveGame", by decide +kernel⟩⟩

example : ∃ r, hdrRead (sampleHeader.enc ++ [1, 2]) = .ok (r, [1, 2]) ∧ r.write = .ok sampleHeader.enc :=
  ⟨_, hdrRead_enc _ _, hdrWrite_of _⟩
example : sampleHeader.enc.length = 129 := by decide +kernel
example : ([1, 2, 3, 4, 3, 0, 0, 0] : Bytes).take 4 ≠ gvasMagic := by decide +kernel

/-! ### C27: base64 -/

theorem b64Val_char : ∀ n < 64, b64Val (b64Char n) = some n := by decide +kernel
theorem b64Char_ne : ∀ n < 64, b64Char n ≠ 61 := by decide +kernel
theorem b64Char_lt : ∀ n < 64, b64Char n < 128 := by decide +kernel

theorem b64Loop_char (q left pads n : Nat) (h : n < 64) (t : PyStr) :
    b64Loop q left pads (b64Char n :: t) = match q with
        | 0 => b64Loop 1 n 0 t
        | 1 => (b64Loop 2 (n % 16) 0 t).map fun r => UInt8.ofNat (left * 4 + n / 16) :: r
        | 2 => (b64Loop 3 (n % 4) 0 t).map fun r => UInt8.ofNat (left * 16 + n / 4) :: r
        | _ => (b64Loop 0 0 0 t).map fun r => UInt8.ofNat (left * 64 + n) :: r := by
  rw [b64Loop, if_neg (b64Char_ne n h), b64Val_char n h]
  rfl

theorem b64_join (a : UInt8) (n : Nat) (h : n = a.toNat) : UInt8.ofNat n = a := by
  subst h; exact UInt8.ofNat_toNat

theorem b64Loop_encode (b : Bytes) : b64Loop 0 0 0 (b64Encode b) = .ok b := by
  induction b using b64Encode.induct with
  | case1 => rfl
  | case2 a =>
    have := a.toNat_lt
    rw [b64Encode, b64Loop_char _ _ _ _ (by omega)]
    simp only
    rw [b64Loop_char _ _ _ _ (by omega)]
    simp only [b64Loop, if_true]
    rw [if_pos (by omega), if_neg (by omega), if_pos (by omega), if_pos (by omega)]
    simp only [Except.map]
    rw [b64_join a _ (by omega)]
  | case3 a b =>
    have := a.toNat_lt
    have := b.toNat_lt
    rw [b64Encode, b64Loop_char _ _ _ _ (by omega)]
    simp only
    rw [b64Loop_char _ _ _ _ (by omega)]
    simp only
    rw [b64Loop_char _ _ _ _ (by omega)]
    simp only [b64Loop, if_true]
    rw [if_pos (by omega), if_pos (by omega)]
    simp only [Except.map]
    rw [b64_join a _ (by omega), b64_join b _ (by omega)]
  | case4 a b c t ih =>
    have := a.toNat_lt
    have := b.toNat_lt
    have := c.toNat_lt
    rw [b64Encode, b64Loop_char _ _ _ _ (by omega)]
    simp only
    rw [b64Loop_char _ _ _ _ (by omega)]
    simp only
    rw [b64Loop_char _ _ _ _ (by omega)]
    simp only
    rw [b64Loop_char _ _ _ _ (by omega)]
    simp only [ih, Except.map]
    rw [b64_join a _ (by omega), b64_join b _ (by omega), b64_join c _ (by omega)]

theorem b64Encode_ascii (b : Bytes) : ∀ c ∈ b64Encode b, c < 128 := by
  induction b using b64Encode.induct with
  | case1 => simp [b64Encode]
  | case2 a =>
    have := a.toNat_lt
    simp only [b64Encode, List.mem_cons, List.not_mem_nil, or_false]
    rintro c (rfl | rfl | rfl | rfl) <;> first | exact b64Char_lt _ (by omega) | decide
  | case3 a b =>
    have := a.toNat_lt
    have := b.toNat_lt
    simp only [b64Encode, List.mem_cons, List.not_mem_nil, or_false]
    rintro c (rfl | rfl | rfl | rfl) <;> first | exact b64Char_lt _ (by omega) | decide
  | case4 a b c t ih =>
    have := a.toNat_lt
    have := b.toNat_lt
    have := c.toNat_lt
    simp only [b64Encode, List.mem_cons]
    rintro x (rfl | rfl | rfl | rfl | h) <;> first | exact b64Char_lt _ (by omega) | exact ih _ h

/-- C27: the trailer's base64 text is ASCII and decodes to the trailer, for every byte string. -/
theorem C27_base64 (b : Bytes) : b64Decode (.str (b64Encode b)) = .ok b ∧ Ascii (b64Encode b) := by
  refine ⟨?_, b64Encode_ascii b⟩
  rw [b64Decode, if_pos, b64Loop_encode]
  simpa using b64Encode_ascii b

/-- C27: `load` after `dump` gives back the whole file object: header, properties and trailer. -/
theorem C27_dump_load (g : Gvas) : Gvas.load g.dump = .ok g := by
  have h2 : b64Decode (.str (b64Encode g.trailer)) = .ok g.trailer := (C27_base64 g.trailer).1
  simp only [Gvas.load, Gvas.dump, dct_eq, get_vDict_cons, String.reduceEq, if_true, if_false, e_bind_ok,
    hdrLoad_dump, h2]
  rfl

example : b64Encode [0, 0, 0, 0] = P "AAAAAA==" := by decide +kernel
example : b64Encode [255, 254, 3, 7, 9] = P "//4DBwk=" := by decide +kernel

end Pal
