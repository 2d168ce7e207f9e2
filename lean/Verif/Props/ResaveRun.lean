import Verif.Props.ShownCmd
import Verif.Props.WrittenCmd
/-
C72: a whole run of the resave test, from the words of its command line to its verdict, in terms of what the save
file says.
-/

namespace Pal
open Spec

/-! ### the questions -/

theorem confirm_split (l : List PyStr) (n : Nat) :
    ConsentsTo (n + 1) l ↔ (confirmLoop l).1 = .ok true ∧ ConsentsTo n (confirmLoop l).2 := by
  induction l with
  | nil =>
    constructor
    · rintro ⟨pre, r, post, h, -⟩; simp at h
    · rintro ⟨h, -⟩; simp [confirmLoop] at h
  | cons s t ih =>
    rw [confirmLoop]
    by_cases h1 : casefold s = P "y"
    · rw [if_pos h1]
      have hy := (casefold_y s).1 h1
      constructor
      · rintro ⟨pre, r, post, h, h2, h3, h4⟩
        cases pre with
        | nil => rw [List.nil_append] at h; cases h; exact ⟨rfl, h4⟩
        | cons x pre => rw [List.cons_append] at h; cases h; exact absurd hy (h2 s (.head _)).1
      · rintro ⟨-, h⟩
        exact ⟨[], s, t, rfl, by simp, hy, h⟩
    · rw [if_neg h1]
      have hy : ¬ Yes s := fun h => h1 ((casefold_y s).2 h)
      by_cases h2 : casefold s = P "n"
      · rw [if_pos h2]
        have hn := (casefold_n s).1 h2
        constructor
        · rintro ⟨pre, r, post, h, h3, h4, -⟩
          cases pre with
          | nil => rw [List.nil_append] at h; cases h; exact absurd h4 hy
          | cons x pre => rw [List.cons_append] at h; cases h; exact absurd hn (h3 s (.head _)).2
        · rintro ⟨h, -⟩; cases h
      · rw [if_neg h2, ← ih]
        have hn : ¬ No s := fun h => h2 ((casefold_n s).2 h)
        constructor
        · rintro ⟨pre, r, post, h, h3, h4, h5⟩
          cases pre with
          | nil => rw [List.nil_append] at h; cases h; exact absurd h4 hy
          | cons x pre =>
            rw [List.cons_append] at h
            cases h
            exact ⟨pre, r, post, rfl, fun y hy => h3 y (.tail _ hy), h4, h5⟩
        · rintro ⟨pre, r, post, rfl, h3, h4, h5⟩
          refine ⟨s :: pre, r, post, rfl, fun y h => ?_, h4, h5⟩
          rcases List.mem_cons.1 h with rfl | h
          · exact ⟨hy, hn⟩
          · exact h3 y h

/-- The number of questions about an output. -/
def asks (w : World) (out : PyStr) : Nat := if w.fs out = none then 0 else 1

theorem ask_consents (out : PyStr) (w : World) (n : Nat) :
    ConsentsTo (asks w out + n) w.replies ↔
      (askOverwrite out false w).1 = .ok () ∧ ConsentsTo n (askOverwrite out false w).2.replies := by
  unfold asks askOverwrite
  simp only [io_bind, pathExists]
  cases hf : w.fs out with
  | none => simp only [if_true, Nat.zero_add]; exact ⟨fun h => ⟨rfl, h⟩, fun h => h.2⟩
  | some nd =>
    simp only [reduceCtorEq, if_false, Option.isSome_some, if_true, Bool.false_eq_true, io_bind]
    rw [Nat.add_comm, confirm_split]
    unfold confirmPrompt
    rcases hc : confirmLoop w.replies with ⟨r, t⟩
    cases r with
    | error e => simp
    | ok b =>
      cases b with
      | false => simp [ioFail]
      | true =>
        simp only [true_and, if_true]
        exact ⟨fun h => ⟨rfl, h⟩, fun h => h.2⟩

/-! ### the run -/

/-- C72: with any number of words but one, nothing is done, and the run fails. -/
theorem C72_usage (ext : Ext) (argv : List PyStr) (h : argv.length ≠ 1) (w : World) :
    resaveArgv ext argv w = (.error (.exit 1), w) := by
  match argv, h with
  | [], _ => rfl
  | [x], h => exact absurd rfl h
  | _ :: _ :: _, _ => rfl

theorem savToJson_replies {ext : Ext} {filename out : PyStr} {force minify an : Bool} {keys : List PyStr} {w w' : World}
    (h : convertSavToJson ext filename out force minify an keys w = (.ok (), w')) :
    w'.replies = (askOverwrite out force w).2.replies := by
  rw [savToJson_eq, io_bind] at h
  rcases ha : askOverwrite out force w with ⟨r, w1⟩
  rw [ha] at h
  cases r with
  | error e => cases h
  | ok u =>
    simp only at h ⊢
    rcases savToJson_cases ext filename out minify an keys w1 with ⟨e, he⟩ | ⟨data, raw, ty, g, -, -, -, -, h5⟩
    · rw [he] at h; cases h
    · rw [h5] at h
      have := congrArg (fun x => x.2.replies) h
      exact this.symm

section
variable (ext : Ext) (hl : ExtLaws ext) (F : Bytes → Prop) (D : CodecId → Val → Val → Prop)
  (hF : ∀ s, F s ↔ readList palAll [] s = .error (.exc "Warning: EOF not reached")) (hD : ShowsCustom palAll F D)
include hl hF hD

/-- C72: the run reports success exactly if there is one word on the line, the name of a SAV container of a save file
whose content is in JSON; the document says a save file with the same bytes, the container has the type that belongs to
that file, its bytes can be compressed to less than 2^32; the two outputs can be opened, and the user agrees to replace those that
exist. -/
theorem C72_verdict (argv : List PyStr) (w : World) :
    (resaveArgv ext argv w).1 = .ok () ↔
      ∃ x js sv, argv = [x] ∧ js = x ++ P ".resave.json" ∧ sv = x ++ P ".resave.sav" ∧
        ConsentsTo ((if w.fs js = none then 0 else 1) + if w.fs sv = none then 0 else 1) w.replies ∧
        (w.fs js ≠ some .dir ∧ ext.canCreate js = true) ∧ (w.fs sv ≠ some .dir ∧ ext.canCreate sv = true) ∧
        ∃ data raw ty header l trailer d magic ver fmt f, w.fs x = some (.file data) ∧ IsSav ext.z.decompress data raw ty ∧
          FileAt palAll D raw header l trailer ∧ Jsonized true (documentOf header l trailer) d ∧
          SaysDoc (Opens palAll) d magic ver fmt f ∧ f.encWith magic ver fmt = raw ∧
          (ty = 0x31 ∨ ty = 0x32) ∧ (ty = 0x32 ↔ WorldClass f.header.className.val) ∧ (ext.z.compress raw).length < 2 ^ 32 := by
  have ec : optCfg true [P "all"] = palAll := by
    unfold optCfg palAll
    congr 1
  have hF' : ∀ s, F s ↔ readList (optCfg true [P "all"]) [] s = .error (.exc "Warning: EOF not reached") := by rw [ec]; exact hF
  have hD' : ShowsCustom (optCfg true [P "all"]) F D := by rw [ec]; exact hD
  match argv with
  | [] =>
    rw [C72_usage ext [] (by decide) w]
    exact ⟨fun h => (nomatch h), fun ⟨_, _, _, h, _⟩ => (nomatch h)⟩
  | a :: b :: t =>
    rw [C72_usage ext _ (by simp) w]
    exact ⟨fun h => (nomatch h), fun ⟨_, _, _, h, _⟩ => (nomatch h)⟩
  | [x] =>
    have n1 : x ≠ x ++ P ".resave.json" := (append_ne (by decide)).symm
    have n2 : x ≠ x ++ P ".resave.sav" := (append_ne (by decide)).symm
    have n3 : x ++ P ".resave.sav" ≠ x ++ P ".resave.json" := fun h => absurd (List.append_cancel_left h) (by decide)
    have e : resaveArgv ext [x] = resaveMain ext x := rfl
    rw [e, C47_verdict]
    have two : ∀ w1, (∀ p ≠ x ++ P ".resave.json", w1.fs p = w.fs p) →
        w1.replies = (askOverwrite (x ++ P ".resave.json") false w).2.replies →
        (ConsentsTo ((if w.fs (x ++ P ".resave.json") = none then 0 else 1) + if w.fs (x ++ P ".resave.sav") = none then 0 else 1) w.replies ↔
          (askOverwrite (x ++ P ".resave.json") false w).1 = .ok () ∧ (askOverwrite (x ++ P ".resave.sav") false w1).1 = .ok ()) := by
      intro w1 h1 h2
      have e1 := ask_consents (x ++ P ".resave.json") w (asks w (x ++ P ".resave.sav"))
      have e2 := ask_consents (x ++ P ".resave.sav") w1 0
      have e3 : asks w1 (x ++ P ".resave.sav") = asks w (x ++ P ".resave.sav") := by unfold asks; rw [h1 _ n3]
      rw [e3, h2, Nat.add_zero] at e2
      unfold asks at e1 e2
      rw [e1, e2]
      simp [ConsentsTo]
    constructor
    · rintro ⟨w1, w2, a, b, d, ty, h1, h2, ha, hb, hsa, hsb⟩
      have ok1 : (convertSavToJson ext x (x ++ P ".resave.json") false true true [P "all"] w).1 = .ok () := by rw [h1]
      obtain ⟨ha1, hd1, hc1, data, raw, ty1, header, l, trailer, d1, hw1, hs1, hf1, hj1⟩ :=
        (C63_succeeds ext hl.repr true [P "all"] F D hF' hD' _ _ _ _ _).1 ok1
      obtain ⟨text, d2, ht, hj2, hjf, -, hfr⟩ := C63_output ext hl.repr true [P "all"] F D hF' hD' _ _ _ _ _ ok1 _ _ _ _ _ _ hw1 hs1 hf1
      rw [h1] at ht hfr
      simp only at ht hfr
      have ok2 : (convertJsonToSav ext (x ++ P ".resave.json") (x ++ P ".resave.sav") false w1).1 = .ok () := by rw [h2]
      obtain ⟨ha2, hd2, hc2, text', d3, magic, ver, fmt, f, ht', hjf', hsd, hlen, hcl⟩ := (C64_succeeds ext hl.zlib _ _ _ _).1 ok2
      rw [ht] at ht'
      cases ht'
      have := C56_unambiguous _ _ _ hjf hjf'
      subst this
      obtain ⟨sav, ty2, hsv, his, hty, hwc, -⟩ := C64_output ext hl.zlib _ _ _ _ ok2 _ _ ht hjf _ _ _ _ hsd
      rw [h2] at hsv
      simp only at hsv
      rw [hb] at hsv
      cases hsv
      rw [ha] at hw1
      cases hw1
      obtain ⟨rfl, rfl⟩ := C25_sav_unambiguous _ _ _ _ _ _ hsa hs1
      obtain ⟨rfl, rfl⟩ := C25_sav_unambiguous _ _ _ _ _ _ hsb his
      refine ⟨x, _, _, rfl, rfl, rfl, ?_, ⟨hd1, hc1⟩, ⟨by rw [← hfr _ n3]; exact hd2, hc2⟩, a, _, ty, header, l, trailer, d2, magic, ver,
        fmt, f, ha, hsa, by rw [← ec]; exact hf1, hj2, hsd, rfl, hty, hwc, hcl⟩
      rw [two w1 hfr (savToJson_replies h1)]
      exact ⟨(ask_iff _ _ _).2 ha1, (ask_iff _ _ _).2 ha2⟩
    · rintro ⟨x', js, sv, hx, rfl, rfl, hag, ho1, ho2, data, raw, ty, header, l, trailer, d, magic, ver, fmt, f, hw, hs, hf, hj, hsd, rfl,
        hty, hwc, hcl⟩
      cases hx
      have hask : (askOverwrite (x ++ P ".resave.json") false w).1 = .ok () :=
        ((ask_consents _ _ _).1 hag).1
      have ok1 := (C63_succeeds ext hl.repr true [P "all"] F D hF' hD' x (x ++ P ".resave.json") false true w).2
        ⟨(ask_iff _ _ _).1 hask, ho1.1, ho1.2, data, _, ty, header, l, trailer, d, hw, hs, by rw [ec]; exact hf, hj⟩
      obtain ⟨text, d2, ht, hj2, hjf, -, hfr⟩ := C63_output ext hl.repr true [P "all"] F D hF' hD' _ _ _ _ _ ok1 _ _ _ _ _ _ hw hs (by rw [ec]; exact hf)
      rcases h1 : convertSavToJson ext x (x ++ P ".resave.json") false true true [P "all"] w with ⟨r, w1⟩
      rw [h1] at ok1 ht hfr
      simp only at ok1 ht hfr
      subst ok1
      have hdd : d2 = d := by
        obtain ⟨g, hg, hd⟩ := (document_iff hF' hD' _ _).2 ⟨header, l, trailer, by rw [ec]; exact hf, rfl⟩
        have hp := file_jpre (palCfg_json (selects [P "all"]) true) hg
        rw [← hd, ← jsonRT_iff _ _ hp] at hj hj2
        rw [hj, Except.ok.injEq] at hj2
        exact hj2.symm
      subst hdd
      obtain ⟨-, hask2⟩ := (two w1 hfr (savToJson_replies h1)).1 hag
      have hlen : (f.encWith magic ver fmt).length < 2 ^ 32 := by
        obtain ⟨_, _, _, _, _, hlen, _, _⟩ := hs
        exact hlen
      have ok2 := (C64_succeeds ext hl.zlib (x ++ P ".resave.json") (x ++ P ".resave.sav") false w1).2
        ⟨(ask_iff _ _ _).1 hask2, by rw [hfr _ n3]; exact ho2.1, ho2.2, text, d2, magic, ver, fmt, f, ht, hjf, hsd, hlen, hcl⟩
      obtain ⟨sav, ty2, hsv, his, hty2, hwc2, hfr2⟩ := C64_output ext hl.zlib _ _ _ _ ok2 _ _ ht hjf _ _ _ _ hsd
      rcases h2 : convertJsonToSav ext (x ++ P ".resave.json") (x ++ P ".resave.sav") false w1 with ⟨r, w2⟩
      rw [h2] at ok2 hsv
      simp only at ok2 hsv
      subst ok2
      have htt : ty2 = ty := by
        by_cases hc : ty = 0x32
        · rw [hc]; exact hwc2.2 (hwc.1 hc)
        · have h3 : ty2 ≠ 0x32 := fun h => hc (hwc.2 (hwc2.1 h))
          rw [hty.resolve_right hc, hty2.resolve_right h3]
      subst htt
      exact ⟨w1, w2, data, sav, _, ty2, rfl, h2, hw, hsv, hs, his⟩

end

/-! ### cases -/

/-- Saying yes to two questions. -/
example : ConsentsTo 2 [P "what", P "y", P "Y"] :=
  ⟨[P "what"], P "y", [P "Y"], rfl, by unfold Yes No; decide +kernel, .inl rfl, [], P "Y", [], rfl, by simp, .inr rfl, trivial⟩

/-- The sample file: the test succeeds, so the right side of `C72_verdict` holds for it. -/
example : ∃ (D : CodecId → Val → Val → Prop) (ty : UInt8) (x js sv : PyStr) (raw : Bytes) (header : Val) (l : List (PyStr × Val))
    (trailer : Bytes) (d : Val) (magic ver fmt : BitVec 32) (f : File free),
    ShowsCustom palAll (fun s => readList palAll [] s = .error (.exc "Warning: EOF not reached")) D ∧
      [P "Saved/Level.sav"] = [x] ∧ js = x ++ P ".resave.json" ∧ sv = x ++ P ".resave.sav" ∧
      FileAt palAll D raw header l trailer ∧ Jsonized true (documentOf header l trailer) d ∧
      SaysDoc (Opens palAll) d magic ver fmt f ∧ f.encWith magic ver fmt = raw ∧ (ty = 0x32 ↔ WorldClass f.header.className.val) := by
  obtain ⟨D, hD⟩ := C62_exists palAll
  obtain ⟨ty, hok⟩ := resave_sample
  obtain ⟨x, js, sv, h1, h2, h3, -, -, -, data, raw, ty, header, l, trailer, d, magic, ver, fmt, f, -, -, h4, h5, h6, h7, -, h8, -⟩ :=
    (C72_verdict plainExt plainExt_laws _ D (fun _ => Iff.rfl) hD [P "Saved/Level.sav"] _).1 hok
  exact ⟨D, ty, x, js, sv, raw, header, l, trailer, d, magic, ver, fmt, f, hD, h1, h2, h3, h4, h5, h6, h7, h8⟩

end Pal
