import Verif.Props.ShownCmd
import Verif.Props.SaysCmd
/-
C64: the save file that the command writes holds what the JSON file says.

C58 (what a document says), C24/C25 (what a SAV container holds), C56 (what a JSON text denotes), C45 (the type of
the container) and C46 (what the user's replies mean), put together for the command that converts JSON to a save
file.
-/

namespace Pal
open Spec

/-- The conversion of a document that says a file. -/
theorem docToSav_says {ext : Ext} {d : Val} {magic ver fmt : BitVec 32} {f : File free}
    (hs : SaysDoc (Opens palAll) d magic ver fmt f) (h1 : (f.encWith magic ver fmt).length < 2 ^ 32)
    (h2 : (ext.z.compress (f.encWith magic ver fmt)).length < 2 ^ 32) : ∃ sav, docToSav ext d = .ok sav := by
  obtain ⟨g, g', h3, h4⟩ := C58_writable d palAll magic ver fmt f hs
  obtain ⟨hb, pb, h5, -⟩ := of_write h4
  obtain ⟨s, h6⟩ := hdrWrite_class h5
  obtain ⟨ty, h7, h8, -⟩ := saveType_str s
  obtain ⟨sav, h9⟩ := (C24_sav_write_total ext.z (f.encWith magic ver fmt) ty).2 ⟨h1, h2, by omega⟩
  refine ⟨sav, ?_⟩
  unfold docToSav
  rw [h3, e_bind_ok, h6, h7, e_bind_ok, h4, e_bind_ok]
  exact h9

/-- What the conversion of a document gives. -/
theorem docToSav_written {ext : Ext} (hz : ∀ b, ext.z.decompress (ext.z.compress b) = some b) {d : Val} (hd : PlainDoc d) {sav : Bytes}
    (h : docToSav ext d = .ok sav) :
    ∃ magic ver fmt f ty, SaysDoc (Opens palAll) d magic ver fmt f ∧ IsSav ext.z.decompress sav (f.encWith magic ver fmt) ty ∧
      (ty = 0x31 ∨ ty = 0x32) ∧ (ty = 0x32 ↔ WorldClass f.header.className.val) ∧
      (f.encWith magic ver fmt).length < 2 ^ 32 ∧ (ext.z.compress (f.encWith magic ver fmt)).length < 2 ^ 32 := by
  obtain ⟨g, s, b, g', ty, e1, e2, e3, e4, e5, e6⟩ := docToSav_ok hz h
  obtain ⟨ty', rfl, e7⟩ := sav_of_decompress e4
  obtain ⟨magic, ver, fmt, f, h7, rfl⟩ := C58_written d hd palAll g g' e1 b e3
  have hs : s = f.header.className.val := by
    obtain ⟨g2, h8, h9, -⟩ := doc_iff.1 h7
    rw [e1] at h8
    cases h8
    have := h9.className
    rw [e2] at this
    exact Val.str.inj this
  subst hs
  have hl : (f.encWith magic ver fmt).length < 2 ^ 32 ∧ (ext.z.compress (f.encWith magic ver fmt)).length < 2 ^ 32 := by
    unfold docToSav at h
    obtain ⟨ty2, h2, -⟩ := saveType_str f.header.className.val
    rw [e1, e_bind_ok, e2, h2, e_bind_ok, e3, e_bind_ok] at h
    obtain ⟨h5, h6, -⟩ := (C24_sav_write_total ext.z (f.encWith magic ver fmt) ty2).1 ⟨sav, h⟩
    exact ⟨h5, h6⟩
  refine ⟨magic, ver, fmt, f, ty', h7, e7, ?_, ?_, hl⟩
  · simpa [← UInt8.toNat_inj] using e5
  · rw [← e6, ← UInt8.toNat_inj]; rfl

variable (ext : Ext) (hz : ∀ b, ext.z.decompress (ext.z.compress b) = some b)
include hz

/-- C64: the conversion from JSON succeeds exactly if the user agrees to replace the output, the output can be
opened, the input is a JSON text, the document says a file, and its bytes, as they are and compressed, number less
than 2^32. -/
theorem C64_succeeds (filename out : PyStr) (force : Bool) (w : World) :
    (convertJsonToSav ext filename out force w).1 = .ok () ↔
      (w.fs out = none ∨ force = true ∨ Consents w.replies) ∧ w.fs out ≠ some .dir ∧ ext.canCreate out = true ∧
      ∃ text d magic ver fmt f, w.fs filename = some (.file text) ∧ JFile true text d ∧ SaysDoc (Opens palAll) d magic ver fmt f ∧
        (f.encWith magic ver fmt).length < 2 ^ 32 ∧ (ext.z.compress (f.encWith magic ver fmt)).length < 2 ^ 32 := by
  rw [jsonToSav_eq, io_bind, ← ask_iff out force w]
  obtain ⟨h1, -⟩ := ask_spec out force w
  cases ha : askOverwrite out force w with
  | mk r w' =>
    rw [ha] at h1
    simp only at h1
    cases r with
    | error e => simp
    | ok u =>
      simp only [true_and]
      constructor
      · intro h
        rcases jsonToSav_cases ext filename out w' with ⟨e, he⟩ | ⟨text, d, sav, e1, e2, e3, e4, -⟩
        · rw [he] at h; cases h
        have ho := (open_iff ext out w').1 e4
        have hj : JFile true text d := (C56_load text d).1 e2
        obtain ⟨magic, ver, fmt, f, ty, h2, -, -, -, h3, h4⟩ := docToSav_written hz (jFile_plain hj) e3
        exact ⟨h1 ▸ ho.1, ho.2, text, d, magic, ver, fmt, f, h1 ▸ e1, hj, h2, h3, h4⟩
      · rintro ⟨ho1, ho2, text, d, magic, ver, fmt, f, hw, hj, hs, h2, h3⟩
        obtain ⟨sav, h4⟩ := docToSav_says hs h2 h3
        have hl : ext.jload text = .ok d := (C56_load text d).2 hj
        have hop := (open_iff ext out w').2 ⟨h1 ▸ ho1, ho2⟩
        have hrd : readFile filename w' = (.ok text, w') := by unfold readFile; rw [h1, hw]
        unfold jsonToSavRest
        simp only [io_bind, hrd, ioLift, hl, h4, hop, writeOut]

/-- C64: and then the output is a SAV container that holds exactly the bytes of the file that the document says, of
the type that belongs to its class name; nothing else has changed. -/
theorem C64_output (filename out : PyStr) (force : Bool) (w : World)
    (h : (convertJsonToSav ext filename out force w).1 = .ok ()) (text : Bytes) (d : Val) (ht : w.fs filename = some (.file text))
    (hj : JFile true text d) (magic ver fmt : BitVec 32) (f : File free)
    (hs : SaysDoc (Opens palAll) d magic ver fmt f) :
    ∃ sav ty, (convertJsonToSav ext filename out force w).2.fs out = some (.file sav) ∧
      IsSav ext.z.decompress sav (f.encWith magic ver fmt) ty ∧ (ty = 0x31 ∨ ty = 0x32) ∧
      (ty = 0x32 ↔ WorldClass f.header.className.val) ∧
      ∀ p ≠ out, (convertJsonToSav ext filename out force w).2.fs p = w.fs p := by
  rw [jsonToSav_eq, io_bind] at h ⊢
  obtain ⟨h1, -⟩ := ask_spec out force w
  cases ha : askOverwrite out force w with
  | mk r w' =>
    rw [ha] at h1 h
    simp only at h1
    cases r with
    | error e => cases h
    | ok u =>
      simp only at h ⊢
      rcases jsonToSav_cases ext filename out w' with ⟨e, he⟩ | ⟨text', d', sav, e1, e2, e3, e4, e5⟩
      · rw [he] at h; cases h
      rw [h1, ht] at e1
      cases e1
      have hl : ext.jload text = .ok d := (C56_load text d).2 hj
      rw [hl] at e2
      cases e2
      obtain ⟨magic', ver', fmt', f', ty, h2, h3, h4, h5, -⟩ := docToSav_written hz (jFile_plain hj) e3
      have hb := C58_unambiguous d palAll _ _ _ _ _ _ f f' hs h2
      have hc : f.header.className.val = f'.header.className.val := by
        obtain ⟨x, b1, b2⟩ := hs.header
        obtain ⟨y, b3, b4⟩ := h2.header
        have b5 : x = y := by
          have := b1.symm.trans b3
          exact Except.ok.inj this
        subst b5
        have := b2.className.symm.trans b4.className
        exact Val.str.inj (Except.ok.inj this)
      rw [e5]
      refine ⟨sav, ty, ?_, hb ▸ h3, h4, hc ▸ h5, fun p hp => ?_⟩
      · simp [World.put]
      · simp [World.put, hp, h1]

omit hz

/-! ### a case -/

theorem jFile_unique {text : Bytes} {d d' : Val} (h : JFile true text d) (h' : JFile true text d') : d = d' :=
  Except.ok.inj (((C56_load _ _).2 h).symm.trans ((C56_load _ _).2 h'))

theorem handOk_written {text : Bytes} (h : handOk text = true) :
    ∃ (w : World) (d : Val) (magic ver fmt : BitVec 32) (f : File free) (sav : Bytes) (ty : UInt8),
    w.fs (P "a.json") = some (.file text) ∧ JFile true text d ∧ SaysDoc (Opens palAll) d magic ver fmt f ∧
    (convertJsonToSav storeExt (P "a.json") (P "a") false w).2.fs (P "a") = some (.file sav) ∧
    IsSav storeExt.z.decompress sav (f.encWith magic ver fmt) ty := by
  obtain ⟨w, d, h1, h2, h4⟩ := handOk_spec h
  obtain ⟨-, -, -, text', d', magic, ver, fmt, f, h5, h6, h7, -⟩ := (C64_succeeds storeExt (fun _ => rfl) _ _ _ w).1 h4
  rw [h1] at h5
  cases h5
  obtain rfl := jFile_unique h2 h6
  obtain ⟨sav, ty, h8, h9, -⟩ := C64_output storeExt (fun _ => rfl) _ _ _ w h4 _ _ h1 h2 _ _ _ f h7
  exact ⟨w, d, magic, ver, fmt, f, sav, ty, h1, h2, h7, h8, h9⟩

/-- The file of C58: it is within both theorems. -/
example : ∃ (w : World) (d : Val) (magic ver fmt : BitVec 32) (f : File free) (sav : Bytes) (ty : UInt8),
    w.fs (P "a.json") = some (.file handText) ∧ JFile true handText d ∧ SaysDoc (Opens palAll) d magic ver fmt f ∧
    (convertJsonToSav storeExt (P "a.json") (P "a") false w).2.fs (P "a") = some (.file sav) ∧
    IsSav storeExt.z.decompress sav (f.encWith magic ver fmt) ty := by
  exact handOk_written handOk_text

end Pal
