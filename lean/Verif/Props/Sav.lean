import Verif.Model.PalSav
import Verif.Spec.Sav
import Verif.Lemmas.Prim
/-
C24 the SAV container round-trips, C25 its validation is exact.
-/

namespace Pal
open Spec

theorem take_append_len {α : Type} (a b : List α) (n : Nat) (h : a.length = n) : (a ++ b).take n = a := by
  subst h; simp

theorem drop_append_len {α : Type} (a b : List α) (n : Nat) (h : a.length = n) : (a ++ b).drop n = b := by
  subst h; simp

/-- The twelve header bytes after `pre`, as the reader slices them. -/
theorem sav_slices (pre payload : Bytes) (U n : Nat) (mg : Bytes) (ty : UInt8) (hm : mg.length = 3) (o : Nat)
    (ho : pre.length = o) (hU : U < 2 ^ 32) (hn : n < 2 ^ 32) :
    leNat (slice (pre ++ lit 4 U ++ lit 4 n ++ mg ++ [ty] ++ payload) o (o + 4)) = U ∧
    leNat (slice (pre ++ lit 4 U ++ lit 4 n ++ mg ++ [ty] ++ payload) (o + 4) (o + 8)) = n ∧
    slice (pre ++ lit 4 U ++ lit 4 n ++ mg ++ [ty] ++ payload) (o + 8) (o + 11) = mg ∧
    (pre ++ lit 4 U ++ lit 4 n ++ mg ++ [ty] ++ payload)[o + 11]? = some ty ∧
    (pre ++ lit 4 U ++ lit 4 n ++ mg ++ [ty] ++ payload).drop (o + 12) = payload ∧
    (pre ++ lit 4 U ++ lit 4 n ++ mg ++ [ty] ++ payload).length = o + 12 + payload.length := by
  have l1 := lit_length 4 U
  have l2 := lit_length 4 n
  refine ⟨?_, ?_, ?_, ?_, ?_, ?_⟩
  · rw [slice, List.append_assoc, List.append_assoc, List.append_assoc,
      take_append_len (pre ++ lit 4 U) _ (o + 4) (by rw [List.length_append]; omega),
      drop_append_len pre _ o ho, lit_eq, leNat_leBytes, Nat.mod_eq_of_lt (by omega)]
  · rw [slice, List.append_assoc, List.append_assoc,
      take_append_len (pre ++ lit 4 U ++ lit 4 n) _ (o + 8) (by simp only [List.length_append]; omega),
      drop_append_len (pre ++ lit 4 U) _ (o + 4) (by simp only [List.length_append]; omega),
      lit_eq, leNat_leBytes, Nat.mod_eq_of_lt (by omega)]
  · rw [slice, List.append_assoc,
      take_append_len (pre ++ lit 4 U ++ lit 4 n ++ mg) _ (o + 11) (by simp only [List.length_append]; omega),
      drop_append_len (pre ++ lit 4 U ++ lit 4 n) _ (o + 8) (by simp only [List.length_append]; omega)]
  · have hl : (pre ++ lit 4 U ++ lit 4 n ++ mg).length = o + 11 := by simp only [List.length_append]; omega
    rw [List.append_assoc, List.getElem?_append_right (by omega), hl, Nat.sub_self]
    rfl
  · exact drop_append_len _ _ _ (by simp only [List.length_append, List.length_singleton]; omega)
  · simp only [List.length_append, List.length_singleton]; omega

theorem plz_eq : magicPlZ = plz := rfl
theorem cnk_eq : magicCNK = cnk := rfl

theorem ne3132 : ((0x31 : UInt8) = 0x32) = False := by decide
theorem ne3231 : ((0x32 : UInt8) = 0x31) = False := by decide

theorem savBody_ok (z : Zlib) (data : Bytes) (U n : Nat) (mg : Bytes) (ty : UInt8) (off : Nat) (d : Bytes) (t : Nat)
    (hoff : off ≤ data.length) :
    savBody z data U n mg ty.toNat off = .ok (d, t) ↔
      t = ty.toNat ∧ mg = plz ∧ U = d.length ∧ Inflates z.decompress ty (data.drop off) d n := by
  have e31 : ty.toNat = 0x31 ↔ ty = 0x31 := by
    rw [← UInt8.toNat_inj]; exact Iff.rfl
  have e32 : ty.toNat = 0x32 ↔ ty = 0x32 := by
    rw [← UInt8.toNat_inj]; exact Iff.rfl
  unfold savBody Inflates
  rw [plz_eq]
  by_cases hm : mg = plz
  · rw [if_neg (by simp [hm])]
    by_cases h1 : ty.toNat = 0x31
    · have n2 : ¬ ty = 0x32 := fun h => by rw [e31.1 h1] at h; exact absurd h (by decide)
      rw [if_neg (by omega), if_neg (by omega)]
      by_cases hc : (n : Int) ≠ data.length - off
      · rw [if_pos ⟨h1, hc⟩]
        simp only [List.length_drop, n2, false_and, or_false, reduceCtorEq, false_iff, not_and]
        intro _ _ _ _ _ hn
        omega
      · rw [if_neg (fun h => hc h.2)]
        cases hz : z.decompress (data.drop off) with
        | none => simp [zDecompress, hz, n2]
        | some u =>
          simp only [zDecompress, hz]
          rw [if_neg (by omega)]
          simp only [e31.1 h1, ne3132, false_and, or_false, List.length_drop, Option.some.injEq, true_and, hm]
          split
          · simp only [reduceCtorEq, false_iff, not_and]
            intro _ hU hd _
            subst hd
            contradiction
          · simp only [Except.ok.injEq, Prod.mk.injEq]
            rename_i hU
            simp only [Decidable.not_not] at hU
            constructor
            · rintro ⟨rfl, h⟩; exact ⟨h.symm, hU, rfl, by omega⟩
            · rintro ⟨h, _, rfl, _⟩; exact ⟨rfl, h.symm⟩
    · have n1 : ¬ ty = 0x31 := fun h => h1 (e31.2 h)
      by_cases h2 : ty.toNat = 0x32
      · rw [if_neg (by omega), if_neg (by omega), if_neg (by omega)]
        have t2 := e32.1 h2
        cases hz : z.decompress (data.drop off) with
        | none => simp [zDecompress, hz, n1]
        | some u =>
          simp only [zDecompress, hz]
          rw [if_pos h2]
          simp only [t2, ne3231, false_and, false_or, Option.some.injEq, true_and, hm]
          by_cases hc : n = u.length
          · rw [if_neg (by simp [hc])]
            cases hz2 : z.decompress u with
            | none => 
              simp only [reduceCtorEq, false_iff, not_and, not_exists]
              intro _ _ u' h3 h4
              subst h3
              rw [hz2] at h4
              cases h4
            | some w =>
              simp only
              split
              · simp only [reduceCtorEq, false_iff, not_and, not_exists]
                intro _ hU u' h3 h4
                subst h3
                rw [hz2, Option.some.injEq] at h4
                subst h4
                contradiction
              · rename_i hU
                simp only [Decidable.not_not] at hU
                simp only [Except.ok.injEq, Prod.mk.injEq]
                constructor
                · rintro ⟨rfl, h⟩; exact ⟨h.symm, hU, u, rfl, hz2, hc⟩
                · rintro ⟨h, _, u', rfl, h4, _⟩
                  rw [hz2, Option.some.injEq] at h4
                  exact ⟨h4, h.symm⟩
          · rw [if_pos hc]
            simp only [reduceCtorEq, false_iff, not_and, not_exists]
            intro _ _ u' h3 h4
            subst h3
            exact hc
      · have n2 : ¬ ty = 0x32 := fun h => h2 (e32.2 h)
        simp only [n1, n2, false_and, or_self, and_false, iff_false]
        split
        · simp
        · rw [if_pos (by omega)]; simp
  · rw [if_pos hm]
    simp only [hm, false_and, and_false, iff_false]
    split <;> simp

theorem exists_lit4 (b : Bytes) (h : b.length = 4) : b = lit 4 (leNat b) ∧ leNat b < 2 ^ 32 := by
  refine ⟨?_, ?_⟩
  · have := leBytes_leNat b
    rw [h] at this
    rw [lit_eq, this]
  · have := leNat_lt b
    rw [h] at this
    exact this

/-- A byte string of length at least 12 after `pre`, cut into fields. -/
theorem sav_cut (q : Bytes) (h : 12 ≤ q.length) :
    ∃ U n mg ty payload, U < 2 ^ 32 ∧ n < 2 ^ 32 ∧ mg.length = 3 ∧
      q = lit 4 U ++ lit 4 n ++ mg ++ [ty] ++ payload := by
  have l1 := exists_lit4 (q.take 4) (by rw [List.length_take]; omega)
  have l2 := exists_lit4 ((q.drop 4).take 4) (by rw [List.length_take, List.length_drop]; omega)
  have l3 : ∃ ty r, q.drop 11 = ty :: r := by
    cases hq : q.drop 11 with
    | nil => have := congrArg List.length hq; simp at this; omega
    | cons a b => exact ⟨a, b, rfl⟩
  obtain ⟨ty, r, l3⟩ := l3
  refine ⟨_, _, (q.drop 8).take 3, ty, r, l1.2, l2.2, by rw [List.length_take, List.length_drop]; omega, ?_⟩
  rw [← l1.1, ← l2.1]
  have : q = q.take 4 ++ ((q.drop 4).take 4 ++ (((q.drop 4).drop 4).take 3 ++ ((q.drop 4).drop 4).drop 3)) := by
    rw [List.take_append_drop, List.take_append_drop, List.take_append_drop]
  simp only [List.drop_drop] at this
  rw [l3] at this
  simpa only [List.append_assoc, List.singleton_append] using this

/-- C25: `decompress_sav_to_gvas` returns `(d, ty)` exactly when the file is a SAV
container of type `ty` holding `d`; on every other byte string it raises. -/
theorem C25_sav_validation (z : Zlib) (file d : Bytes) (ty : UInt8) :
    decompressSav z file = .ok (d, ty.toNat) ↔ IsSav z.decompress file d ty := by
  constructor
  · intro h
    unfold decompressSav at h
    cases h11 : file[11]? with
    | none => rw [h11] at h; simp at h
    | some t =>
      rw [h11] at h
      simp only at h
      have hlen : 12 ≤ file.length := by
        have := (List.getElem?_eq_some_iff.1 h11).1; omega
      by_cases hc : slice file 8 11 = magicCNK
      · rw [if_pos hc] at h
        cases h23 : file[23]? with
        | none => rw [h23] at h; simp at h
        | some t' =>
          rw [h23] at h
          simp only at h
          have hlen : 24 ≤ file.length := by
            have := (List.getElem?_eq_some_iff.1 h23).1; omega
          rw [savBody_ok _ _ _ _ _ _ _ _ _ hlen] at h
          obtain ⟨ht, hm, hU, hi⟩ := h
          obtain ⟨U, n, mg, ty2, payload, hU2, hn2, hmg, hq⟩ := sav_cut (file.drop 12) (by rw [List.length_drop]; omega)
          obtain ⟨U0, n0, mg0, ty0, payload0, _, _, hmg0, hq0⟩ := sav_cut file (by omega)
          have hf : file = file.take 12 ++ (lit 4 U ++ lit 4 n ++ mg ++ [ty2] ++ payload) := by
            rw [← hq, List.take_append_drop]
          have hp : (file.take 12).length = 12 := by rw [List.length_take]; omega
          obtain ⟨s1, s2, s3, s4, s5, _⟩ := sav_slices (file.take 12) payload U n mg ty2 hmg 12 hp hU2 hn2
          have hf' : file.take 12 ++ lit 4 U ++ lit 4 n ++ mg ++ [ty2] ++ payload = file := by
            conv => rhs; rw [hf]
            simp only [List.append_assoc]
          rw [hf'] at s1 s2 s3 s4 s5
          simp only [Nat.reduceAdd] at s1 s2 s3 s4 s5
          rw [s1] at hU
          rw [s3] at hm
          rw [s2, s5] at hi
          rw [s4, Option.some.injEq] at h23
          subst h23
          have hty : ty2 = ty := UInt8.toNat_inj.1 ht.symm
          subst hty
          subst hU hm
          refine ⟨file.take 12, payload, n, .inr ⟨file.take 8, ty0, ?_, ?_⟩, hf'.symm, hU2, hn2, hi⟩
          · have hl1 := lit_length 4 U0
            have hl2 := lit_length 4 n0
            have e8 : file.take 8 = lit 4 U0 ++ lit 4 n0 := by
              rw [hq0, List.append_assoc, List.append_assoc]
              exact take_append_len _ _ 8 (by simp only [List.length_append]; omega)
            have e12 : file.take 12 = lit 4 U0 ++ lit 4 n0 ++ mg0 ++ [ty0] := by
              rw [hq0]
              exact take_append_len _ _ 12 (by simp only [List.length_append, List.length_singleton]; omega)
            have e3 : mg0 = cnk := by
              rw [← cnk_eq, ← hc]
              rw [hq0, slice, List.append_assoc,
                take_append_len (lit 4 U0 ++ lit 4 n0 ++ mg0) _ 11 (by simp only [List.length_append]; omega),
                drop_append_len _ _ 8 (by simp only [List.length_append]; omega)]
            rw [e12, e8, e3]
          · rw [List.length_take]; omega
      · rw [if_neg hc] at h
        rw [savBody_ok _ _ _ _ _ _ _ _ _ hlen] at h
        obtain ⟨ht, hm, hU, hi⟩ := h
        obtain ⟨U, n, mg, ty2, payload, hU2, hn2, hmg, hq⟩ := sav_cut file hlen
        obtain ⟨s1, s2, s3, s4, s5, _⟩ := sav_slices [] payload U n mg ty2 hmg 0 rfl hU2 hn2
        rw [List.nil_append, ← hq] at s1 s2 s3 s4 s5
        simp only [Nat.reduceAdd] at s1 s2 s3 s4 s5
        rw [s1] at hU
        rw [s3] at hm
        rw [s2, s5] at hi
        rw [s4, Option.some.injEq] at h11
        subst h11
        have hty : ty2 = ty := UInt8.toNat_inj.1 ht.symm
        subst hty
        subst hU hm
        exact ⟨[], payload, n, .inl rfl, by rw [List.nil_append]; exact hq, hU2, hn2, hi⟩
  · rintro ⟨pre, payload, n, hpre, hf, hd, hn, hi⟩
    rcases hpre with rfl | ⟨a, x, rfl, ha⟩
    · obtain ⟨s1, s2, s3, s4, s5, s6⟩ := sav_slices [] payload d.length n plz ty rfl 0 rfl hd hn
      rw [← hf] at s1 s2 s3 s4 s5 s6
      simp only [Nat.zero_add] at s1 s2 s3 s4 s5 s6
      unfold decompressSav
      rw [s4]
      simp only
      rw [s3, if_neg (by decide), savBody_ok _ _ _ _ _ _ _ _ _ (by omega), s1, s2, s5]
      exact ⟨rfl, rfl, rfl, hi⟩
    · have hp : (a ++ cnk ++ [x]).length = 12 := by
        simp only [List.length_append, List.length_singleton, ha]; rfl
      obtain ⟨s1, s2, s3, s4, s5, s6⟩ := sav_slices (a ++ cnk ++ [x]) payload d.length n plz ty rfl 12 hp hd hn
      rw [← hf] at s1 s2 s3 s4 s5 s6
      simp only [Nat.reduceAdd] at s1 s2 s3 s4 s5 s6
      have h11 : file[11]? = some x := by
        rw [hf]
        simp only [List.append_assoc]
        rw [List.getElem?_append_right (by omega), ha]
        rfl
      have hc : slice file 8 11 = magicCNK := by
        rw [hf, slice]
        simp only [List.append_assoc]
        rw [← List.append_assoc a, take_append_len (a ++ cnk) _ 11 (by rw [List.length_append, ha]; rfl),
          drop_append_len _ _ 8 ha, cnk_eq]
      unfold decompressSav
      rw [h11]
      simp only
      rw [if_pos hc, s4]
      simp only
      rw [savBody_ok _ _ _ _ _ _ _ _ _ (by omega), s1, s2, s3, s5]
      exact ⟨rfl, rfl, rfl, hi⟩

/-- What is accepted is a container. -/
theorem sav_of_decompress {z : Zlib} {file d : Bytes} {t : Nat} (hd : decompressSav z file = .ok (d, t)) :
    ∃ ty : UInt8, t = ty.toNat ∧ IsSav z.decompress file d ty := by
  have key : ∀ data U n mg (ty : UInt8) off, savBody z data U n mg ty.toNat off = .ok (d, t) → t = ty.toNat := by
    intro data U n mg ty off h
    unfold savBody at h
    repeat' split at h
    all_goals simp_all
  have : ∃ ty : UInt8, t = ty.toNat := by
    have hd := hd
    unfold decompressSav at hd
    split at hd
    · simp at hd
    · split at hd
      · split at hd
        · simp at hd
        · exact ⟨_, key _ _ _ _ _ _ hd⟩
      · exact ⟨_, key _ _ _ _ _ _ hd⟩
  obtain ⟨ty, rfl⟩ := this
  exact ⟨ty, rfl, (C25_sav_validation z file d ty).1 hd⟩

/-- C25: everything else raises. -/
theorem C25_sav_rejects (z : Zlib) (file : Bytes) (h : ∀ d ty, ¬ IsSav z.decompress file d ty) :
    ∃ e, decompressSav z file = .error e := by
  cases hd : decompressSav z file with
  | error e => exact ⟨e, rfl⟩
  | ok r =>
    obtain ⟨ty, -, h'⟩ := sav_of_decompress hd
    exact absurd h' (h _ _)

/-- C25: a file is never read as two different payloads or types. -/
theorem C25_sav_unambiguous (z : Zlib) (file d d' : Bytes) (ty ty' : UInt8)
    (h : IsSav z.decompress file d ty) (h' : IsSav z.decompress file d' ty') : d = d' ∧ ty = ty' := by
  rw [← C25_sav_validation] at h h'
  rw [h, Except.ok.injEq, Prod.mk.injEq] at h'
  exact ⟨h'.1, UInt8.toNat_inj.1 h'.2⟩

/-- C25: a file of fewer than twelve bytes is rejected. -/
theorem C25_short_rejected (z : Zlib) (file : Bytes) (h : file.length < 12) :
    decompressSav z file = .error .index := by
  unfold decompressSav
  rw [List.getElem?_eq_none (by omega)]

/-- A toy zlib satisfying the inverse law: a one-byte header. -/
def toyZlib : Zlib where
  compress b := 120 :: b
  decompress b := match b with
    | 120 :: t => some t
    | _ => none

example : ∀ b, toyZlib.decompress (toyZlib.compress b) = some b := fun _ => rfl

example : IsSav toyZlib.decompress
    ([9, 9, 9, 9, 9, 9, 9, 9] ++ cnk ++ [7] ++ [2, 0, 0, 0, 3, 0, 0, 0] ++ plz ++ [0x32] ++ [120, 120, 1, 2]) [1, 2] 0x32 :=
  ⟨[9, 9, 9, 9, 9, 9, 9, 9] ++ cnk ++ [7], [120, 120, 1, 2], 3, .inr ⟨_, _, rfl, rfl⟩, rfl, by decide, by decide,
    .inr ⟨rfl, [120, 1, 2], rfl, rfl, rfl⟩⟩

/-! ### C24 -/

/-- C24: with any zlib whose `decompress` inverts its `compress`, what
`compress_gvas_to_sav` writes for type 0x31 or 0x32 is read back by
`decompress_sav_to_gvas` as the same data and type. -/
theorem C24_sav_roundtrip (z : Zlib) (hz : ∀ b, z.decompress (z.compress b) = some b) (d : Bytes) (ty : Nat)
    (hty : ty = 0x31 ∨ ty = 0x32) (hd : d.length < 2 ^ 32) (hc : (z.compress d).length < 2 ^ 32) :
    ∃ f, compressSav z d ty = .ok f ∧ decompressSav z f = .ok (d, ty) := by
  unfold compressSav
  simp only [len4]
  rw [if_pos hd]
  simp only
  rw [if_pos hc]
  simp only
  rw [if_pos (by omega)]
  refine ⟨_, rfl, ?_⟩
  rw [show ty = (UInt8.ofNat ty).toNat by rcases hty with rfl | rfl <;> rfl]
  rw [C25_sav_validation]
  rw [show (UInt8.ofNat ty).toNat = ty by rcases hty with rfl | rfl <;> rfl]
  refine ⟨[], _, (z.compress d).length, .inl rfl, by rw [lit_eq, lit_eq, List.nil_append, plz_eq], hd, hc, ?_⟩
  rcases hty with rfl | rfl
  · exact .inl ⟨rfl, hz d, rfl⟩
  · exact .inr ⟨rfl, z.compress d, hz _, hz _, rfl⟩

example : compressSav toyZlib [1, 2] 0x32 = .ok [2, 0, 0, 0, 3, 0, 0, 0, 0x50, 0x6C, 0x5A, 0x32, 120, 120, 1, 2] := by
  rfl

/-- C24: the writer never truncates a length silently: it fails exactly when a length does
not fit 32 bits or the type does not fit a byte. -/
theorem C24_sav_write_total (z : Zlib) (d : Bytes) (ty : Nat) :
    (∃ f, compressSav z d ty = .ok f) ↔ d.length < 2 ^ 32 ∧ (z.compress d).length < 2 ^ 32 ∧ ty < 256 := by
  unfold compressSav
  simp only [len4]
  by_cases h1 : d.length < 2 ^ 32
  · rw [if_pos h1]
    simp only
    by_cases h2 : (z.compress d).length < 2 ^ 32
    · rw [if_pos h2]
      simp only
      by_cases h3 : ty < 256
      · rw [if_pos h3]; simp [h1, h2, h3]
      · rw [if_neg h3]; simp [h3]
    · rw [if_neg h2]; simp [h2]
  · rw [if_neg h1]; simp [h1]

end Pal
