import Verif.Lemmas.JsonCut
import Verif.Props.CliSample
/-
C57: files cut short.
-/

namespace Pal
open Spec

/-! ### JSON -/

theorem dump_head (repr : BitVec 64 → PyStr) (minify an : Bool) (g : Gvas) : (enc repr minify an 0 g.dump).1.head? = some 123 := by
  unfold Gvas.dump dct
  simp only [List.map_cons, List.map_nil]
  rw [enc]
  simp only [Out.andThen, Out.text]
  split <;> split <;> simp

theorem ascii_prefix_text {t : PyStr} (ha : Ascii t) {p : Bytes} (hp : p <+: t.map UInt8.ofNat) {t' : PyStr} (hu : Utf8 p t') :
    ∃ s, t = t' ++ s ∧ p = t'.map UInt8.ofNat := by
  obtain ⟨q, hq⟩ := hp
  have hs : t = t.take p.length ++ t.drop p.length := (List.take_append_drop _ _).symm
  have hp' : p = (t.take p.length).map UInt8.ofNat := by
    rw [List.map_take, ← hq, List.take_left]
  have h1 : Utf8 p (t.take p.length) := by
    have := utf8_ascii (t := t.take p.length) fun c hc => ha c (List.mem_of_mem_take hc)
    rwa [← hp'] at this
  have h2 := ((utf8_iff _ _).2 h1).symm.trans ((utf8_iff _ _).2 hu)
  rw [Option.some.injEq] at h2
  rw [← h2]
  exact ⟨_, hs, hp'⟩

/-- The beginning of an object is not a document. -/
theorem cut_not_doc {t' y s r : PyStr} {v v' : Val} (hy : JText true y v) (hc : CP y) (h0 : y.head? = some 123) (h : y = t' ++ s ++ r)
    (hd : JDoc true t' v') : s ++ r = [] := by
  obtain ⟨w, x, w', hw, hx, hw', rfl⟩ := hd
  have hwn : w = [] := by
    cases w with
    | nil => rfl
    | cons a w =>
      rw [h] at h0
      simp only [List.cons_append, List.head?_cons, Option.some.injEq] at h0
      have := hw a (by simp)
      omega
  subst hwn
  have := object_prefix hx hy hc (r := w' ++ (s ++ r)) (by rw [h]; simp) h0
  simp only [List.append_eq_nil_iff] at this
  simp [this.2.1, this.2.2]

/-- C57: the JSON of a save file, cut anywhere, is rejected: if what is written up to some moment can be read, it is the
whole output of a dump that did not raise. -/
theorem C57_json_cut (repr : BitVec 64 → PyStr) (hr : ReprLaw repr) (minify an : Bool) (keep : String → Bool) (data : Bytes) (g : Gvas)
    (hg : gvasRead (palCfg keep an) data = .ok g) (p : Bytes) (hp : p <+: (jsonDump repr minify an g.dump).1) (v : Val)
    (hl : jsonLoad p = .ok v) : jsonDump repr minify an g.dump = (p, none) := by
  have hcp := jpre_cp _ (file_jpre (palCfg_json keep an) hg)
  have h0 := dump_head repr minify an g
  obtain ⟨t', hu, hd⟩ := (jsonLoad_iff _ _).1 hl
  have acp : ∀ {t : PyStr}, Ascii t → CP t := fun h => ascii_cp h
  rcases err_cases (enc repr minify an 0 g.dump).2 with he | ⟨e, he⟩
  · obtain ⟨v', hv'⟩ := errOf_none ((enc_err repr minify an 0 g.dump).symm.trans he)
    obtain ⟨t, h1, h2, h3⟩ := enc_ok hr minify an 0 _ hcp hv'
    unfold jsonDump at hp ⊢
    rw [h1] at hp h0 ⊢
    obtain ⟨s, rfl, rfl⟩ := ascii_prefix_text h3 hp hu
    have := cut_not_doc (t' := t') (s := s) (r := []) (jText_ext h2) (acp h3) h0 (by rw [List.append_nil]) hd
    rw [List.append_nil] at this
    subst this
    simp
  · obtain ⟨h3, r, v', h4, h5, h6⟩ := enc_cut hr minify an 0 _ e hcp he
    unfold jsonDump at hp
    simp only at hp
    generalize (enc repr minify an 0 g.dump).1 = t at *
    obtain ⟨s, rfl, rfl⟩ := ascii_prefix_text h3 hp hu
    have := cut_not_doc (s := s) (r := r) h6 (acp (ascii_append h3 h4)) (by
      rw [List.head?_append, h0]; rfl) rfl hd
    simp only [List.append_eq_nil_iff] at this
    exact absurd this.2 h5

/-- C57: converting such a file to SAV raises and changes no file. -/
theorem C57_json_cut_convert (ext : Ext) (hr : ReprLaw ext.repr) (minify an : Bool) (keep : String → Bool) (data : Bytes) (g : Gvas)
    (hg : gvasRead (palCfg keep an) data = .ok g) (p : Bytes) (hp : p <+: (ext.jdump minify an g.dump).1)
    (hne : ext.jdump minify an g.dump ≠ (p, none)) (filename out : PyStr) (force : Bool) (w : World)
    (hf : w.fs filename = some (.file p)) :
    (∃ e, (convertJsonToSav ext filename out force w).1 = .error e) ∧ (convertJsonToSav ext filename out force w).2.fs = w.fs := by
  have key : ∃ e, (convertJsonToSav ext filename out force w).1 = .error e := by
    cases hres : (convertJsonToSav ext filename out force w).1 with
    | error e => exact ⟨e, rfl⟩
    | ok u =>
      exfalso
      rw [jsonToSav_eq, io_bind] at hres
      obtain ⟨h1, -⟩ := ask_spec out force w
      cases ha : askOverwrite out force w with
      | mk r w' =>
        rw [ha] at hres h1
        cases r with
        | error e => cases hres
        | ok u' =>
          simp only at hres h1
          rcases jsonToSav_cases ext filename out w' with ⟨e', h'⟩ | ⟨text, doc, sav, t1, t2, -, -, -⟩
          · rw [h'] at hres; cases hres
          · rw [h1, hf] at t1
            simp only [Option.some.injEq, Node.file.injEq] at t1
            subst t1
            exact hne (C57_json_cut ext.repr hr minify an keep data g hg p hp doc t2)
  obtain ⟨e, he⟩ := key
  exact ⟨⟨e, he⟩, C44_json_to_sav ext filename out force w e he⟩

/-- C57: when the conversion of a save file to JSON raises, either no file has changed, or the output is a file that
`json.load` rejects. -/
theorem C57_failed_dump (ext : Ext) (hr : ReprLaw ext.repr) (filename out : PyStr) (force minify an : Bool) (keys : List PyStr)
    (w : World) (e : Err) (h : (convertSavToJson ext filename out force minify an keys w).1 = .error e) :
    (convertSavToJson ext filename out force minify an keys w).2.fs = w.fs ∨
    ∃ b, (convertSavToJson ext filename out force minify an keys w).2.fs out = some (.file b) ∧ ∀ v, ext.jload b ≠ .ok v := by
  rw [savToJson_eq, io_bind] at h ⊢
  obtain ⟨h1, -⟩ := ask_spec out force w
  cases ha : askOverwrite out force w with
  | mk r w' =>
    rw [ha] at h h1
    cases r with
    | error e => exact .inl h1
    | ok u =>
      simp only at h h1 ⊢
      rcases savToJson_cases ext filename out minify an keys w' with ⟨e', h'⟩ | ⟨data, raw, ty, g, -, -, e3, -, h'⟩
      · rw [h']; exact .inl h1
      · right
        rw [h'] at h ⊢
        refine ⟨(ext.jdump minify an g.dump).1, by simp [World.put], fun v hv => ?_⟩
        have := C57_json_cut ext.repr hr minify an _ raw g e3 _ (List.prefix_refl _) v hv
        unfold Ext.jdump at h
        rw [this] at h
        cases h

/-! ### SAV -/

theorem slice_prefix {p r : Bytes} {a b : Nat} (h : b ≤ p.length) : slice (p ++ r) a b = slice p a b := by
  unfold slice
  rw [List.take_append_of_le_length h]

theorem savBody_len {z : Zlib} {data : Bytes} {u c : Nat} {m : Bytes} {off : Nat} {x : Bytes × Nat}
    (h : savBody z data u c m 0x31 off = .ok x) : (c : Int) = data.length - off := by
  unfold savBody at h
  split at h
  · split at h <;> cases h
  rw [if_neg (by decide), if_neg (by decide)] at h
  split at h
  · cases h
  · rename_i hc
    simpa using hc

theorem savBody_ty {z : Zlib} {data : Bytes} {u c : Nat} {m : Bytes} {ty off : Nat} {x : Bytes × Nat}
    (h : savBody z data u c m ty off = .ok x) : x.2 = ty := by
  unfold savBody at h
  split at h
  · split at h <;> cases h
  split at h
  · cases h
  split at h
  · cases h
  split at h
  · cases h
  split at h
  · cases h
  split at h
  · split at h
    · cases h
    · split at h
      · cases h
      · split at h
        · cases h
        · cases h; rfl
  · split at h
    · cases h
    · cases h; rfl

/-- C57: a singly compressed save file with bytes missing at its end is rejected, whatever zlib does. -/
theorem C57_sav_truncated (z : Zlib) (file d : Bytes) (h : IsSav z.decompress file d 0x31) (p : Bytes) (hp : p <+: file)
    (hne : p ≠ file) : ∃ e, decompressSav z p = .error e := by
  cases hd : decompressSav z p with
  | error e => exact ⟨e, rfl⟩
  | ok x =>
    exfalso
    obtain ⟨r, rfl⟩ := hp
    have hr : r.length ≠ 0 := by
      intro h0
      rw [List.length_eq_zero_iff] at h0
      subst h0
      simp at hne
    have h12 : 12 ≤ p.length := by
      by_contra hc
      rw [C25_short_rejected z p (by omega)] at hd
      cases hd
    rw [← C25_sav_validation] at h
    unfold decompressSav at h hd
    rw [List.getElem?_append_left (by omega), List.getElem?_eq_getElem (by omega)] at h
    rw [List.getElem?_eq_getElem (by omega)] at hd
    simp only at h hd
    rw [slice_prefix (by omega)] at h
    split at h
    · rename_i hk
      rw [if_pos hk] at hd
      by_cases h24 : 24 ≤ p.length
      · rw [List.getElem?_append_left (by omega), List.getElem?_eq_getElem (by omega)] at h
        rw [List.getElem?_eq_getElem (by omega)] at hd
        simp only at h hd
        rw [slice_prefix (by omega), slice_prefix (by omega), slice_prefix (by omega)] at h
        have ht := savBody_ty h
        simp only at ht
        rw [← ht] at h hd
        have l1 := savBody_len h
        have l2 := savBody_len hd
        rw [List.length_append] at l1
        omega
      · rw [List.getElem?_eq_none (by omega)] at hd
        cases hd
    · rename_i hk
      rw [if_neg hk] at hd
      rw [slice_prefix (by omega), slice_prefix (by omega)] at h
      have ht := savBody_ty h
      simp only at ht
      rw [← ht] at h hd
      have l1 := savBody_len h
      have l2 := savBody_len hd
      rw [List.length_append] at l1
      omega

/-- C57: a save file as written by the tools, cut anywhere, is rejected; for double compression this assumes that zlib
rejects a stream that is cut. -/
theorem C57_sav_cut (z : Zlib) (hz : ∀ b, z.decompress (z.compress b) = some b)
    (hcut : ∀ b p, p <+: z.compress b → p ≠ z.compress b → z.decompress p = none) (d f : Bytes) (ty : Nat)
    (hty : ty = 0x31 ∨ ty = 0x32) (h : compressSav z d ty = .ok f) (p : Bytes) (hp : p <+: f) (hne : p ≠ f) :
    ∃ e, decompressSav z p = .error e := by
  obtain ⟨hd, hc, -⟩ := (C24_sav_write_total z d ty).1 ⟨f, h⟩
  rcases hty with rfl | rfl
  · obtain ⟨f', h1, h2⟩ := C24_sav_roundtrip z hz d 0x31 (.inl rfl) hd hc
    rw [h] at h1
    injection h1 with h1
    subst h1
    exact C57_sav_truncated z f d ((C25_sav_validation z f d 0x31).1 h2) p hp hne
  · by_cases h12 : p.length < 12
    · exact ⟨_, C25_short_rejected z p h12⟩
    · unfold compressSav len4 at h
      simp only [hd, hc, if_true] at h
      rw [if_pos (by decide), Except.ok.injEq] at h
      have hl : (leBytes 4 d.length ++ leBytes 4 (z.compress d).length ++ magicPlZ ++ [UInt8.ofNat 0x32]).length = 12 := by
        simp [leBytes_length, magicPlZ]
      have hm : slice (leBytes 4 d.length ++ leBytes 4 (z.compress d).length ++ magicPlZ ++ [UInt8.ofNat 0x32]) 8 11 = magicPlZ := by
        unfold slice
        rw [List.take_append_of_le_length (by simp [leBytes_length, magicPlZ]),
          List.take_of_length_le (by simp [leBytes_length, magicPlZ]), List.drop_left' (by simp [leBytes_length])]
      have h11 : (leBytes 4 d.length ++ leBytes 4 (z.compress d).length ++ magicPlZ ++ [UInt8.ofNat 0x32])[11]? = some 0x32 := by
        rw [List.getElem?_append_right (by simp [leBytes_length, magicPlZ])]
        simp [leBytes_length, magicPlZ]
      generalize leBytes 4 d.length ++ leBytes 4 (z.compress d).length ++ magicPlZ ++ [UInt8.ofNat 0x32] = hdr at *
      subst h
      obtain ⟨r, hr⟩ := hp
      obtain ⟨q, rfl⟩ : ∃ q, p = hdr ++ q := by
        have := List.prefix_of_prefix_length_le (List.prefix_append hdr (z.compress (z.compress d))) ⟨r, hr⟩ (by omega)
        obtain ⟨q, hq⟩ := this
        exact ⟨q, hq.symm⟩
      have hq : q ++ r = z.compress (z.compress d) := by
        rw [List.append_assoc] at hr
        exact List.append_cancel_left hr
      have hnone := hcut (z.compress d) q ⟨r, hq⟩ (fun hh => hne (by rw [hh]))
      unfold decompressSav
      rw [List.getElem?_append_left (by omega), h11]
      simp only
      rw [slice_prefix (by omega), hm, if_neg (by decide)]
      unfold savBody
      rw [if_neg (by simp)]
      simp only [show (0x32 : UInt8).toNat = 0x32 from rfl]
      rw [if_neg (by decide), if_neg (by decide), if_neg (by simp)]
      rw [List.drop_left' hl]
      unfold zDecompress
      rw [hnone]
      exact ⟨_, rfl⟩

/-! ### cases -/

/-- A code whose words are not beginnings of each other: every byte after a 1, then a 0. -/
def markedZlib : Zlib where
  compress b := b.flatMap (fun x => [1, x]) ++ [0]
  decompress := go
where
  go : Bytes → Option Bytes
    | [0] => some []
    | 1 :: x :: t => (go t).map (x :: ·)
    | _ => none

theorem marked_inverse : ∀ b, markedZlib.decompress (markedZlib.compress b) = some b
  | [] => rfl
  | x :: b => by
    have := marked_inverse b
    simp only [markedZlib, List.flatMap_cons, List.cons_append, List.nil_append] at this ⊢
    rw [markedZlib.go, this]
    rfl

theorem marked_cut : ∀ b p, p <+: markedZlib.compress b → p ≠ markedZlib.compress b → markedZlib.decompress p = none
  | [], p, h, hne => by
    obtain ⟨r, hr⟩ := h
    simp only [markedZlib, List.flatMap_nil, List.nil_append] at hr hne
    cases p with
    | nil => rfl
    | cons a p =>
      simp only [List.cons_append, List.cons.injEq, List.append_eq_nil_iff] at hr
      obtain ⟨rfl, rfl, -⟩ := hr
      exact absurd rfl hne
  | x :: b, p, h, hne => by
    have ih := marked_cut b
    simp only [markedZlib, List.flatMap_cons, List.cons_append, List.nil_append] at h hne ih ⊢
    match p, h, hne with
    | [], _, _ => rfl
    | [a], h, _ =>
      obtain ⟨r, hr⟩ := h
      simp only [List.cons_append, List.cons.injEq] at hr
      rw [hr.1]
      rfl
    | a :: c :: p, h, hne =>
      rw [List.cons_prefix_cons, List.cons_prefix_cons] at h
      obtain ⟨rfl, rfl, h'⟩ := h
      rw [markedZlib.go, ih p h' (fun hh => hne (by rw [hh]))]
      rfl

/-- C57_sav_cut: both save types. -/
example (ty : Nat) (hty : ty = 0x31 ∨ ty = 0x32) : ∃ f, compressSav markedZlib [1, 2, 3] ty = .ok f ∧
    ∀ n < f.length, ∃ e, decompressSav markedZlib (f.take n) = .error e := by
  obtain ⟨f, hf⟩ := (C24_sav_write_total markedZlib [1, 2, 3] ty).2 ⟨by decide, by decide, by omega⟩
  refine ⟨f, hf, fun n hn => C57_sav_cut markedZlib marked_inverse marked_cut _ f ty hty hf _ (List.take_prefix _ _) fun h => ?_⟩
  have := congrArg List.length h
  rw [List.length_take] at this
  omega

/-- C57_sav_truncated: the sample file in a container. -/
example (n : Nat) (h : n < (storedSav sampleFile.enc 0x31).length) :
    ∃ e, decompressSav plainExt.z ((storedSav sampleFile.enc 0x31).take n) = .error e := by
  refine C57_sav_truncated plainExt.z _ _ (storedSav_is sampleFile.enc 0x31 sampleFile_small (.inl rfl)) _ (List.take_prefix _ _)
    fun hh => ?_
  have := congrArg List.length hh
  rw [List.length_take] at this
  omega

/-- C57_json_cut: the sample file is read, and its JSON can be cut. -/
example : ∃ g, gvasRead (palCfg (fun _ => true) true) sampleFile.enc = .ok g ∧
    ∀ n v, n < (jsonDump pyRepr true true g.dump).1.length → jsonLoad ((jsonDump pyRepr true true g.dump).1.take n) ≠ .ok v := by
  refine ⟨_, file_read rfl (fun _ => palCfg_json _ _) sampleFile sampleFile_wf, fun n v hn hl => ?_⟩
  have := C57_json_cut pyRepr pyRepr_law true true (fun _ => true) sampleFile.enc _
    (file_read rfl (fun _ => palCfg_json _ _) sampleFile sampleFile_wf) _ (List.take_prefix _ _) v hl
  have := congrArg (fun o => o.1.length) this
  simp only [List.length_take] at this
  omega

/-- C57_failed_dump: the file with a NaN. -/
example : ∃ b, (convertSavToJson plainExt (P "Saved/Level.sav") (P "Saved/Level.sav" ++ P ".json") true true false []
      (sampleWorld0 (storedSav nanFile.enc 0x31))).2.fs (P "Saved/Level.sav" ++ P ".json") = some (.file b) ∧ ∀ v, jsonLoad b ≠ .ok v := by
  obtain ⟨e, b, h⟩ := C44_sav_to_json_counterexample plainExt (P "Saved/Level.sav") (P "Saved/Level.sav" ++ P ".json") rfl
    (sampleWorld0 (storedSav nanFile.enc 0x31)) _ [1, 2] 0x31 true (world0_sav _) (storedSav_is _ _ (by decide +kernel) (.inl rfl))
    (world0_json _)
  rcases C57_failed_dump plainExt pyRepr_law _ _ true true false [] _ e (by rw [h]) with h' | h'
  · refine ⟨[1, 2], by rw [h']; exact world0_json _, fun v hv => ?_⟩
    have : (match jsonLoad [1, 2] with | .ok _ => true | .error _ => false) = true := by rw [hv]
    exact absurd this (by decide +kernel)
  · exact h'

end Pal
