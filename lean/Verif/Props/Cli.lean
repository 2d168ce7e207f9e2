import Verif.Spec.Cli
import Verif.Props.Sav
import Verif.Props.RoundTrip
import Verif.Props.Writing
import Verif.Lemmas.JsonDump
/-
C41-C47: the command line.
-/

namespace Pal
open Spec

theorem io_bind {α β : Type} (x : IOm α) (f : α → IOm β) (w : World) :
    (x >>= f) w = match x w with
      | (.ok a, w') => f a w'
      | (.error e, w') => (.error e, w') := rfl

theorem io_pure {α : Type} (a : α) (w : World) : (pure a : IOm α) w = (.ok a, w) := rfl

/-! ### C46 -/

theorem casefold_y (r : PyStr) : casefold r = P "y" ↔ Yes r := by
  unfold Yes
  rw [show P "y" = [121] from rfl, show P "Y" = [89] from rfl]
  unfold casefold
  match r with
  | [] => simp
  | [c] =>
    simp only [List.map_cons, List.map_nil, List.cons.injEq, and_true]
    split <;> omega
  | a :: b :: t => simp

theorem casefold_n (r : PyStr) : casefold r = P "n" ↔ No r := by
  unfold No
  rw [show P "n" = [110] from rfl, show P "N" = [78] from rfl]
  unfold casefold
  match r with
  | [] => simp
  | [c] =>
    simp only [List.map_cons, List.map_nil, List.cons.injEq, and_true]
    split <;> omega
  | a :: b :: t => simp

theorem not_yes_no {r : PyStr} : Yes r → ¬ No r := by
  rintro (rfl | rfl) (h | h) <;> exact absurd h (by decide)

/-- C46: the prompt skips every reply that is neither y nor n (in either case); the first one that is decides, and
no further line is read. -/
theorem C46_prompt (w : World) (pre post : List PyStr) (r : PyStr) (hw : w.replies = pre ++ r :: post)
    (hpre : ∀ s ∈ pre, ¬ Yes s ∧ ¬ No s) :
    (Yes r → confirmPrompt w = (.ok true, { w with replies := post })) ∧
    (No r → confirmPrompt w = (.ok false, { w with replies := post })) := by
  have key : ∀ b, (if casefold r = P "y" then b = true else casefold r = P "n" ∧ b = false) →
      confirmLoop (pre ++ r :: post) = (.ok b, post) := by
    intro b hb
    clear hw
    induction pre with
    | nil =>
      simp only [List.nil_append, confirmLoop]
      split at hb
      · rename_i h; rw [if_pos h, hb]
      · rename_i h; rw [if_neg h, if_pos hb.1, hb.2]
    | cons s t ih =>
      obtain ⟨h1, h2⟩ := hpre s (by simp)
      simp only [List.cons_append, confirmLoop]
      rw [if_neg (mt (casefold_y s).1 h1), if_neg (mt (casefold_n s).1 h2)]
      exact ih (fun x hx => hpre x (by simp [hx]))
  refine ⟨fun h => ?_, fun h => ?_⟩
  · simp only [confirmPrompt, hw]
    rw [key true (by rw [if_pos ((casefold_y r).2 h)])]
  · simp only [confirmPrompt, hw]
    rw [key false (by rw [if_neg (fun h' => not_yes_no ((casefold_y r).1 h') h)]; exact ⟨(casefold_n r).2 h, rfl⟩)]

/-- C46: without such a reply the prompt never returns an answer: it reads all lines and ends with EOFError. -/
theorem C46_no_answer (w : World) (h : ∀ s ∈ w.replies, ¬ Yes s ∧ ¬ No s) :
    confirmPrompt w = (.error .eof, { w with replies := [] }) := by
  have key : ∀ l : List PyStr, (∀ s ∈ l, ¬ Yes s ∧ ¬ No s) → confirmLoop l = (.error .eof, []) := by
    intro l
    induction l with
    | nil => intro _; rfl
    | cons s t ih =>
      intro h
      obtain ⟨h1, h2⟩ := h s (by simp)
      simp only [confirmLoop]
      rw [if_neg (mt (casefold_y s).1 h1), if_neg (mt (casefold_n s).1 h2)]
      exact ih (fun x hx => h x (by simp [hx]))
  simp only [confirmPrompt, key _ h]

/-- C46: the answer is yes exactly when the first reply that is y or n is y. -/
theorem C46_iff (w : World) : (confirmPrompt w).1 = .ok true ↔
    ∃ pre r post, w.replies = pre ++ r :: post ∧ (∀ s ∈ pre, ¬ Yes s ∧ ¬ No s) ∧ Yes r := by
  constructor
  · intro h
    have key : ∀ l : List PyStr, (confirmLoop l).1 = .ok true →
        ∃ pre r post, l = pre ++ r :: post ∧ (∀ s ∈ pre, ¬ Yes s ∧ ¬ No s) ∧ Yes r := by
      intro l
      induction l with
      | nil => intro h; simp [confirmLoop] at h
      | cons s t ih =>
        intro h
        simp only [confirmLoop] at h
        by_cases h1 : casefold s = P "y"
        · exact ⟨[], s, t, rfl, by simp, (casefold_y s).1 h1⟩
        · rw [if_neg h1] at h
          by_cases h2 : casefold s = P "n"
          · rw [if_pos h2] at h; simp at h
          · rw [if_neg h2] at h
            obtain ⟨pre, r, post, rfl, h4, h5⟩ := ih h
            refine ⟨s :: pre, r, post, rfl, ?_, h5⟩
            intro x hx
            rcases List.mem_cons.1 hx with rfl | hx
            · exact ⟨mt (casefold_y _).2 h1, mt (casefold_n _).2 h2⟩
            · exact h4 x hx
    exact key _ h
  · rintro ⟨pre, r, post, h1, h2, h3⟩
    rw [(C46_prompt w pre post r h1 h2).1 h3]

example : (confirmPrompt ⟨fun _ => none, [P "yes", P "", P "Y", P "n"]⟩).1 = .ok true := by rfl
example : (confirmPrompt ⟨fun _ => none, [P "ok", P "N", P "y"]⟩).1 = .ok false := by rfl

/-! ### What the conversions do to the world -/

theorem prompt_fs (w : World) : (confirmPrompt w).2.fs = w.fs := rfl

theorem prompt_used (w : World) : ∃ used, w.replies = used ++ (confirmPrompt w).2.replies ∧
    ((confirmPrompt w).1 = .ok true → ∃ r ∈ used, Yes r) := by
  have key : ∀ l : List PyStr, ∃ used, l = used ++ (confirmLoop l).2 ∧
      ((confirmLoop l).1 = .ok true → ∃ r ∈ used, Yes r) := by
    intro l
    induction l with
    | nil => exact ⟨[], rfl, by simp [confirmLoop]⟩
    | cons s t ih =>
      simp only [confirmLoop]
      by_cases h1 : casefold s = P "y"
      · rw [if_pos h1]; exact ⟨[s], rfl, fun _ => ⟨s, by simp, (casefold_y s).1 h1⟩⟩
      · rw [if_neg h1]
        by_cases h2 : casefold s = P "n"
        · rw [if_pos h2]; exact ⟨[s], rfl, by simp⟩
        · rw [if_neg h2]
          obtain ⟨used, h3, h4⟩ := ih
          refine ⟨s :: used, ?_, fun h => ?_⟩
          · rw [List.cons_append, ← h3]
          · obtain ⟨r, hr, hy⟩ := h4 h
            exact ⟨r, by simp [hr], hy⟩
  exact key w.replies

/-- The question before overwriting changes no file; it is passed only if there is nothing to overwrite, or with
consent. -/
theorem ask_spec (out : PyStr) (force : Bool) (w : World) :
    (askOverwrite out force w).2.fs = w.fs ∧ ∃ used, w.replies = used ++ (askOverwrite out force w).2.replies ∧
      ((askOverwrite out force w).1 = .ok () → w.fs out = none ∨ force = true ∨ ∃ r ∈ used, Yes r) := by
  unfold askOverwrite
  simp only [io_bind, pathExists]
  cases hf : w.fs out with
  | none => exact ⟨rfl, [], rfl, fun _ => .inl rfl⟩
  | some nd =>
    simp only [Option.isSome_some, if_true]
    cases force with
    | true => exact ⟨rfl, [], rfl, fun _ => .inr (.inl rfl)⟩
    | false =>
      simp only [Bool.false_eq_true, if_false, io_bind]
      obtain ⟨used, h1, h2⟩ := prompt_used w
      have h3 := prompt_fs w
      cases hp : confirmPrompt w with
      | mk r w' =>
        rw [hp] at h1 h2 h3
        simp only at h1 h2 h3
        cases r with
        | error e => simp only; exact ⟨h3, used, h1, by simp⟩
        | ok b =>
          cases b with
          | true => simp only [if_true, io_pure]; exact ⟨h3, used, h1, fun _ => .inr (.inr (h2 rfl))⟩
          | false => simp only [Bool.false_eq_true, if_false, ioFail]; exact ⟨h3, used, h1, by simp⟩

/-- What a program that may write the file `out` (and nothing else) after asking does. -/
structure Polite (out : PyStr) (force : Bool) (w : World) (r : Except Err Unit × World) : Prop where
  others : ∀ p, p ≠ out → r.2.fs p = w.fs p
  used : ∃ used, w.replies = used ++ r.2.replies ∧
    (r.2.fs out ≠ w.fs out → w.fs out = none ∨ force = true ∨ ∃ r ∈ used, Yes r)

theorem put_fs (w : World) (p q : PyStr) (b : Bytes) : (w.put p b).fs q = if q = p then some (.file b) else w.fs q := rfl

/-- Opening fails without effect or empties the file. -/
theorem open_spec (ext : Ext) (out : PyStr) (w : World) :
    (∃ e, openTrunc ext out w = (.error e, w)) ∨ openTrunc ext out w = (.ok (), w.put out []) := by
  unfold openTrunc
  split
  · exact .inl ⟨_, rfl⟩
  · split
    · exact .inr rfl
    · exact .inl ⟨_, rfl⟩
  · split
    · exact .inr rfl
    · exact .inl ⟨_, rfl⟩

theorem polite_of {out : PyStr} {force : Bool} {x : Unit → IOm Unit}
    (hx : ∀ w, (∀ p, p ≠ out → (x () w).2.fs p = w.fs p) ∧ (x () w).2.replies = w.replies) (w : World) :
    Polite out force w ((askOverwrite out force >>= x) w) := by
  obtain ⟨h1, used, h2, h3⟩ := ask_spec out force w
  rw [io_bind]
  cases ha : askOverwrite out force w with
  | mk r w' =>
    rw [ha] at h1 h2 h3
    cases r with
    | error e => exact ⟨fun p _ => by rw [h1], used, h2, fun h => absurd (by rw [h1]) h⟩
    | ok u =>
      obtain ⟨h4, h5⟩ := hx w'
      exact ⟨fun p hp => by rw [← h1]; exact h4 p hp, used, by rw [h5]; exact h2, fun _ => h3 rfl⟩

/-- What remains of the SAV to JSON conversion after the question. -/
def savToJsonRest (ext : Ext) (filename out : PyStr) (minify an : Bool) (keys : List PyStr) : IOm Unit := do
  let data ← readFile filename
  let (raw, _) ← ioLift (decompressSav ext.z data)
  let g ← ioLift (gvasRead (palCfg (selects keys) an) raw)
  openTrunc ext out
  let (b, e) := ext.jdump minify an g.dump
  writeOut out b
  match e with
  | none => return ()
  | some e => ioFail e

def jsonToSavRest (ext : Ext) (filename out : PyStr) : IOm Unit := do
  let text ← readFile filename
  let doc ← ioLift (ext.jload text)
  let sav ← ioLift (docToSav ext doc)
  openTrunc ext out
  writeOut out sav

theorem read_spec (p : PyStr) (w : World) :
    (∃ e, readFile p w = (.error e, w)) ∨ ∃ b, w.fs p = some (.file b) ∧ readFile p w = (.ok b, w) := by
  unfold readFile
  split
  · rename_i b h; exact .inr ⟨b, h, rfl⟩
  · exact .inl ⟨_, rfl⟩

/-- The conversion ends early without any effect, or opens the output and puts there what `json.dump` writes,
raising if that raises. -/
theorem savToJson_cases (ext : Ext) (filename out : PyStr) (minify an : Bool) (keys : List PyStr) (w : World) :
    (∃ e, savToJsonRest ext filename out minify an keys w = (.error e, w)) ∨
    ∃ data raw ty g, w.fs filename = some (.file data) ∧ decompressSav ext.z data = .ok (raw, ty) ∧
      gvasRead (palCfg (selects keys) an) raw = .ok g ∧ openTrunc ext out w = (.ok (), w.put out []) ∧
      savToJsonRest ext filename out minify an keys w =
        (match (ext.jdump minify an g.dump).2 with
          | none => .ok ()
          | some e => .error e, (w.put out []).put out (ext.jdump minify an g.dump).1) := by
  unfold savToJsonRest
  rcases read_spec filename w with ⟨e, h⟩ | ⟨data, hd, h⟩
  · exact .inl ⟨e, by rw [io_bind, h]⟩
  cases hs : decompressSav ext.z data with
  | error e => exact .inl ⟨e, by rw [io_bind, h]; simp only [io_bind, ioLift, hs]⟩
  | ok r =>
    obtain ⟨raw, ty⟩ := r
    cases hg : gvasRead (palCfg (selects keys) an) raw with
    | error e => exact .inl ⟨e, by rw [io_bind, h]; simp only [io_bind, ioLift, hs, hg]⟩
    | ok g =>
      rcases open_spec ext out w with ⟨e, ho⟩ | ho
      · exact .inl ⟨e, by rw [io_bind, h]; simp only [io_bind, ioLift, hs, hg, ho]⟩
      · refine .inr ⟨data, raw, ty, g, hd, hs, hg, ho, ?_⟩
        rw [io_bind, h]
        simp only [io_bind, ioLift, hs, hg, ho, writeOut]
        cases (ext.jdump minify an g.dump).2 <;> rfl

theorem jsonToSav_cases (ext : Ext) (filename out : PyStr) (w : World) :
    (∃ e, jsonToSavRest ext filename out w = (.error e, w)) ∨
    ∃ text doc sav, w.fs filename = some (.file text) ∧ ext.jload text = .ok doc ∧ docToSav ext doc = .ok sav ∧
      openTrunc ext out w = (.ok (), w.put out []) ∧
      jsonToSavRest ext filename out w = (.ok (), (w.put out []).put out sav) := by
  unfold jsonToSavRest
  rcases read_spec filename w with ⟨e, h⟩ | ⟨text, hd, h⟩
  · exact .inl ⟨e, by rw [io_bind, h]⟩
  cases hs : ext.jload text with
  | error e => exact .inl ⟨e, by rw [io_bind, h]; simp only [io_bind, ioLift, hs]⟩
  | ok doc =>
    cases hg : docToSav ext doc with
    | error e => exact .inl ⟨e, by rw [io_bind, h]; simp only [io_bind, ioLift, hs, hg]⟩
    | ok sav =>
      rcases open_spec ext out w with ⟨e, ho⟩ | ho
      · exact .inl ⟨e, by rw [io_bind, h]; simp only [io_bind, ioLift, hs, hg, ho]⟩
      · refine .inr ⟨text, doc, sav, hd, hs, hg, ho, ?_⟩
        rw [io_bind, h]
        simp only [io_bind, ioLift, hs, hg, ho, writeOut]

theorem savToJson_eq (ext : Ext) (filename out : PyStr) (force minify an : Bool) (keys : List PyStr) :
    convertSavToJson ext filename out force minify an keys =
      (askOverwrite out force >>= fun _ => savToJsonRest ext filename out minify an keys) := rfl

theorem jsonToSav_eq (ext : Ext) (filename out : PyStr) (force : Bool) :
    convertJsonToSav ext filename out force = (askOverwrite out force >>= fun _ => jsonToSavRest ext filename out) := rfl

theorem polite_savToJson (ext : Ext) (filename out : PyStr) (force minify an : Bool) (keys : List PyStr) (w : World) :
    Polite out force w (convertSavToJson ext filename out force minify an keys w) := by
  rw [savToJson_eq]
  refine polite_of (fun w => ?_) w
  rcases savToJson_cases ext filename out minify an keys w with ⟨e, h⟩ | ⟨data, raw, ty, g, -, -, -, -, h⟩
  · rw [h]; exact ⟨fun _ _ => rfl, rfl⟩
  · rw [h]; exact ⟨fun p hp => by simp only [put_fs, if_neg hp], rfl⟩

theorem polite_jsonToSav (ext : Ext) (filename out : PyStr) (force : Bool) (w : World) :
    Polite out force w (convertJsonToSav ext filename out force w) := by
  rw [jsonToSav_eq]
  refine polite_of (fun w => ?_) w
  rcases jsonToSav_cases ext filename out w with ⟨e, h⟩ | ⟨text, doc, sav, -, -, -, -, h⟩
  · rw [h]; exact ⟨fun _ _ => rfl, rfl⟩
  · rw [h]; exact ⟨fun p hp => by simp only [put_fs, if_neg hp], rfl⟩

/-! ### C41 -/

/-- Existing files are changed only with consent: `--force`, or a yes among the replies used up by the run. -/
def Consent (force : Bool) (w : World) (r : Except Err Unit × World) : Prop :=
  ∃ used, w.replies = used ++ r.2.replies ∧
    ∀ p, (w.fs p).isSome → r.2.fs p ≠ w.fs p → force = true ∨ ∃ r ∈ used, Yes r

theorem consent_refl (force : Bool) (w : World) (r : Except Err Unit) : Consent force w (r, w) :=
  ⟨[], rfl, fun _ _ h => absurd rfl h⟩

theorem consent_polite {out : PyStr} {force : Bool} {w : World} {r : Except Err Unit × World} (h : Polite out force w r) :
    Consent force w r := by
  obtain ⟨h1, used, h2, h3⟩ := h
  refine ⟨used, h2, fun p hp hc => ?_⟩
  by_cases hpo : p = out
  · subst hpo
    rcases h3 hc with h | h
    · rw [h] at hp; cases hp
    · exact h
  · exact absurd (h1 p hpo) hc

theorem consent_bind {force : Bool} {x : IOm Unit} {f : Unit → IOm Unit} {w : World} (h1 : Consent force w (x w))
    (h2 : ∀ w, Consent force w (f () w)) : Consent force w ((x >>= f) w) := by
  rw [io_bind]
  obtain ⟨u1, e1, c1⟩ := h1
  cases hx : x w with
  | mk r w1 =>
    rw [hx] at e1 c1
    cases r with
    | error e => exact ⟨u1, e1, c1⟩
    | ok a =>
      obtain ⟨u2, e2, c2⟩ := h2 w1
      simp only at e1 c1 ⊢
      refine ⟨u1 ++ u2, by rw [List.append_assoc, ← e2, e1], fun p hp hc => ?_⟩
      by_cases h : w1.fs p = w.fs p
      · rcases c2 p (by rw [h]; exact hp) (by rw [h]; exact hc) with h | ⟨r, hr, hy⟩
        · exact .inl h
        · exact .inr ⟨r, by simp [hr], hy⟩
      · rcases c1 p hp h with h | ⟨r, hr, hy⟩
        · exact .inl h
        · exact .inr ⟨r, by simp [hr], hy⟩

theorem main_cases (ext : Ext) (a : Args) (w : World) :
    convertMain ext a w = (.error (.exit 1), w) ∨ (¬ (a.toJson = true ∧ a.fromJson = true) ∧
      (∃ b, w.fs a.filename = some (.file b)) ∧
      convertMain ext a w = (mainToJson ext a >>= fun _ => mainFromJson ext a) w) := by
  unfold convertMain
  by_cases h : (a.toJson && a.fromJson) = true
  · rw [if_pos h]; exact .inl rfl
  · rw [if_neg h]
    simp only [io_bind, pathExists]
    cases hf : w.fs a.filename with
    | none => exact .inl rfl
    | some nd =>
      cases nd with
      | dir =>
        refine .inl ?_
        simp only [Option.isSome_some, Bool.not_true, Bool.false_eq_true, if_false, io_bind, pathIsFile, hf, Bool.not_false, if_true,
          ioFail]
      | file b =>
        refine .inr ⟨by simpa using h, ⟨b, rfl⟩, ?_⟩
        simp only [Option.isSome_some, Bool.not_true, Bool.false_eq_true, if_false, io_bind, pathIsFile, hf]

theorem consent_toJson (ext : Ext) (a : Args) (w : World) : Consent a.force w (mainToJson ext a w) := by
  unfold mainToJson
  split
  · exact consent_polite (polite_savToJson ..)
  · exact consent_refl ..

theorem consent_fromJson (ext : Ext) (a : Args) (w : World) : Consent a.force w (mainFromJson ext a w) := by
  unfold mainFromJson
  split
  · exact consent_polite (polite_jsonToSav ..)
  · exact consent_refl ..

/-- C41: for every file system, arguments, replies and library behaviour: a run of the convert command, successful
or not, changes a path that exists only if `--force` was given or a yes is among the replies the run read. -/
theorem C41_convert (ext : Ext) (a : Args) (w : World) :
    ∃ used, w.replies = used ++ (convertMain ext a w).2.replies ∧
      ∀ p, (w.fs p).isSome → (convertMain ext a w).2.fs p ≠ w.fs p → a.force = true ∨ ∃ r ∈ used, Yes r := by
  rcases main_cases ext a w with h | ⟨-, -, h⟩
  · rw [h]; exact consent_refl a.force w _
  · rw [h]; exact consent_bind (consent_toJson ext a w) (consent_fromJson ext a)

/-- C41: nothing but the output paths is changed, whatever the consent: the path given by `--output`, or without it the
two default names. In particular the input file is left alone unless it is the output. -/
theorem C41_only_output (ext : Ext) (a : Args) (w : World) (p : PyStr)
    (h : (convertMain ext a w).2.fs p ≠ w.fs p) :
    (∃ o, a.output = some o ∧ o ≠ [] ∧ p = o) ∨
      ((a.output = none ∨ a.output = some []) ∧ (p = a.filename ++ P ".json" ∨ p = removeAll (P ".json") a.filename)) := by
  have hout : ∀ d, (∃ o, a.output = some o ∧ o ≠ [] ∧ outputOr a d = o) ∨
      ((a.output = none ∨ a.output = some []) ∧ outputOr a d = d) := by
    intro d
    unfold outputOr
    rcases ho : a.output with _ | _ | ⟨c, t⟩
    · exact .inr ⟨.inl rfl, rfl⟩
    · exact .inr ⟨.inr rfl, rfl⟩
    · exact .inl ⟨_, rfl, by simp, rfl⟩
  have h1 : ∀ w : World, (mainToJson ext a w).2.fs p ≠ w.fs p → p = outputOr a (a.filename ++ P ".json") := by
    intro w h
    unfold mainToJson at h
    split at h
    · apply Classical.byContradiction
      intro hp
      exact h ((polite_savToJson ..).others p hp)
    · exact absurd rfl h
  have h2 : ∀ w : World, (mainFromJson ext a w).2.fs p ≠ w.fs p → p = outputOr a (removeAll (P ".json") a.filename) := by
    intro w h
    unfold mainFromJson at h
    split at h
    · apply Classical.byContradiction
      intro hp
      exact h ((polite_jsonToSav ..).others p hp)
    · exact absurd rfl h
  have h3 : p = outputOr a (a.filename ++ P ".json") ∨ p = outputOr a (removeAll (P ".json") a.filename) := by
    rcases main_cases ext a w with hm | ⟨-, -, hm⟩
    · rw [hm] at h; exact absurd rfl h
    · rw [hm, io_bind] at h
      cases hx : mainToJson ext a w with
      | mk r w1 =>
        have h1' := h1 w
        rw [hx] at h h1'
        cases r with
        | error e => exact .inl (h1' h)
        | ok u =>
          simp only at h h1'
          by_cases hc : w1.fs p = w.fs p
          · exact .inr (h2 w1 (by rw [hc]; exact h))
          · exact .inl (h1' hc)
  rcases h3 with h3 | h3
  · rcases hout (a.filename ++ P ".json") with ⟨o, e1, e2, e3⟩ | ⟨e1, e2⟩
    · exact .inl ⟨o, e1, e2, h3.trans e3⟩
    · exact .inr ⟨e1, .inl (h3.trans e2)⟩
  · rcases hout (removeAll (P ".json") a.filename) with ⟨o, e1, e2, e3⟩ | ⟨e1, e2⟩
    · exact .inl ⟨o, e1, e2, h3.trans e3⟩
    · exact .inr ⟨e1, .inr (h3.trans e2)⟩

/-! ### C44 -/

/-- C44: JSON to SAV: if the conversion raises, no file has changed. -/
theorem C44_json_to_sav (ext : Ext) (filename out : PyStr) (force : Bool) (w : World) (e : Err)
    (h : (convertJsonToSav ext filename out force w).1 = .error e) :
    (convertJsonToSav ext filename out force w).2.fs = w.fs := by
  rw [jsonToSav_eq, io_bind] at h ⊢
  obtain ⟨h1, -⟩ := ask_spec out force w
  cases ha : askOverwrite out force w with
  | mk r w' =>
    rw [ha] at h h1
    cases r with
    | error e => exact h1
    | ok u =>
      simp only at h h1 ⊢
      rcases jsonToSav_cases ext filename out w' with ⟨e', h'⟩ | ⟨text, doc, sav, -, -, -, -, h'⟩
      · rw [h']; exact h1
      · rw [h'] at h; cases h

/-- C44: SAV to JSON: if the conversion raises, no file has changed, unless the input was read and it was
`json.dump` that failed on it. -/
theorem C44_sav_to_json_partial (ext : Ext) (filename out : PyStr) (force minify an : Bool) (keys : List PyStr)
    (w : World) (e : Err) (h : (convertSavToJson ext filename out force minify an keys w).1 = .error e) :
    (convertSavToJson ext filename out force minify an keys w).2.fs = w.fs ∨
    ∃ data raw ty g e', w.fs filename = some (.file data) ∧ IsSav ext.z.decompress data raw ty ∧
      gvasRead (palCfg (selects keys) an) raw = .ok g ∧ jsonRT an g.dump = .error e' := by
  rw [savToJson_eq, io_bind] at h ⊢
  obtain ⟨h1, -⟩ := ask_spec out force w
  cases ha : askOverwrite out force w with
  | mk r w' =>
    rw [ha] at h h1
    cases r with
    | error e => exact .inl h1
    | ok u =>
      simp only at h h1 ⊢
      rcases savToJson_cases ext filename out minify an keys w' with ⟨e', h'⟩ | ⟨data, raw, ty, g, e1, e2, e3, -, h'⟩
      · rw [h']; exact .inl h1
      · right
        cases hj : jsonRT an g.dump with
        | ok v =>
          have hb := jsonDump_err ext.repr minify an g.dump
          rw [hj] at hb
          rw [h'] at h
          unfold Ext.jdump at h
          rw [hb] at h
          cases h
        | error e'' =>
          obtain ⟨ty', -, e2⟩ := sav_of_decompress e2
          exact ⟨data, raw, ty', g, e'', h1 ▸ e1, e2, e3, hj⟩

/-! ### C42, C43 -/

theorem endsWith_iff (s : PyStr) (x : String) : endsWith s x = true ↔ P x <:+ s := by
  unfold endsWith
  exact List.isSuffixOf_iff_suffix

theorem dot_json : P ".json" = [46, 106, 115, 111, 110] := by decide

theorem not_both {s : PyStr} (h1 : P ".sav" <:+ s) (h2 : P ".json" <:+ s) : False := by
  obtain ⟨a, rfl⟩ := h1
  obtain ⟨b, h2⟩ := h2
  have := congrArg List.getLast? h2
  rw [show P ".json" = [46, 106, 115, 111] ++ [110] by decide, show P ".sav" = [46, 115, 97] ++ [118] by decide,
    ← List.append_assoc, ← List.append_assoc, List.getLast?_concat, List.getLast?_concat] at this
  cases this

theorem remove_json (p : PyStr) (h : ¬ P ".json" <:+: p) : removeAll (P ".json") (p ++ P ".json") = p := by
  unfold removeAll
  induction p with
  | nil => decide
  | cons c t ih =>
    have h1 : ¬ P ".json" <:+: t := fun h' => h (h'.trans (List.suffix_cons c t).isInfix)
    rw [List.cons_append, removeAllAux, ih h1, if_neg]
    intro hp
    rw [List.isPrefixOf_iff_prefix] at hp
    rw [dot_json] at hp h
    match t, hp, h with
    | [], hp, _ => exact absurd hp (by simp)
    | [a], hp, _ => exact absurd hp (by simp)
    | [a, b], hp, _ => exact absurd hp (by simp)
    | [a, b, d], hp, _ => exact absurd hp (by simp)
    | a :: b :: d :: e :: u, hp, h =>
      refine h (List.IsPrefix.isInfix ?_)
      simp only [List.cons_append, List.cons_prefix_cons] at hp ⊢
      exact ⟨hp.1, hp.2.1, hp.2.2.1, hp.2.2.2.1, hp.2.2.2.2.1, List.nil_prefix⟩

theorem main_file (ext : Ext) (a : Args) (w : World) (b : Bytes) (hf : w.fs a.filename = some (.file b))
    (h : ¬ (a.toJson = true ∧ a.fromJson = true)) :
    convertMain ext a w = (mainToJson ext a >>= fun _ => mainFromJson ext a) w := by
  unfold convertMain
  rw [if_neg (by simpa using h)]
  simp only [io_bind, pathExists, hf, Option.isSome_some, Bool.not_true, Bool.false_eq_true, if_false, pathIsFile]

theorem main_only_to (ext : Ext) (a : Args) (w : World) (b : Bytes) (hf : w.fs a.filename = some (.file b))
    (h1 : a.toJson = true ∨ P ".sav" <:+ a.filename) (h2 : a.fromJson = false) (h3 : ¬ P ".json" <:+ a.filename) :
    convertMain ext a w = convertSavToJson ext a.filename (outputOr a (a.filename ++ P ".json")) a.force a.minify
      (!a.nanToNull) a.keys w := by
  rw [main_file ext a w b hf (by simp [h2]), io_bind]
  unfold mainToJson mainFromJson
  rw [if_pos (by rw [Bool.or_eq_true, endsWith_iff]; exact h1),
    if_neg (by rw [Bool.or_eq_true, endsWith_iff, h2]; simpa using h3)]
  cases convertSavToJson ext a.filename (outputOr a (a.filename ++ P ".json")) a.force a.minify (!a.nanToNull) a.keys w with
  | mk r w' => cases r <;> rfl

theorem main_only_from (ext : Ext) (a : Args) (w : World) (b : Bytes) (hf : w.fs a.filename = some (.file b))
    (h1 : a.fromJson = true ∨ P ".json" <:+ a.filename) (h2 : a.toJson = false) (h3 : ¬ P ".sav" <:+ a.filename) :
    convertMain ext a w = convertJsonToSav ext a.filename (outputOr a (removeAll (P ".json") a.filename)) a.force w := by
  rw [main_file ext a w b hf (by simp [h2]), io_bind]
  unfold mainToJson mainFromJson
  rw [if_pos (c := (a.fromJson || endsWith a.filename ".json") = true) (by rw [Bool.or_eq_true, endsWith_iff]; exact h1),
    if_neg (by rw [Bool.or_eq_true, endsWith_iff, h2]; simpa using h3)]
  rfl

/-- C42: without options, a run on an existing file `x` whose name ends in ".sav" is its conversion to JSON at `x`.json. -/
theorem C42_to_json (ext : Ext) (a : Args) (w : World) (b : Bytes) (hf : w.fs a.filename = some (.file b))
    (hs : P ".sav" <:+ a.filename) (h1 : a.output = none) (h2 : a.fromJson = false) :
    convertMain ext a w = convertSavToJson ext a.filename (a.filename ++ P ".json") a.force a.minify (!a.nanToNull) a.keys w := by
  rw [main_only_to ext a w b hf (.inr hs) h2 (not_both hs)]
  unfold outputOr
  rw [h1]

/-- C42: and a run on that JSON file is its conversion to SAV at `x`, if `x` does not contain ".json". -/
theorem C42_from_json (ext : Ext) (a : Args) (x : PyStr) (w : World) (b : Bytes) (hx : ¬ P ".json" <:+: x)
    (ha : a.filename = x ++ P ".json") (hf : w.fs a.filename = some (.file b))
    (h1 : a.output = none) (h2 : a.toJson = false) :
    convertMain ext a w = convertJsonToSav ext a.filename x a.force w := by
  have hs : P ".json" <:+ a.filename := ⟨x, ha.symm⟩
  rw [main_only_from ext a w b hf (.inr hs) h2 (fun h => not_both h hs)]
  unfold outputOr
  rw [h1, ha, remove_json x hx]

/-- C42: a name that contains ".json" elsewhere is not restored. -/
theorem C42_other_names : removeAll (P ".json") (P "my.json.sav" ++ P ".json") = P "my.sav" := by decide +kernel

example : ¬ P ".json" <:+: P "Saved/Level.sav" := by decide +kernel

/-- C43: with --to-json only the SAV to JSON conversion runs, if the name does not end in ".json". -/
theorem C43_to_json_partial (ext : Ext) (a : Args) (w : World) (b : Bytes) (hf : w.fs a.filename = some (.file b))
    (h1 : a.toJson = true) (h2 : a.fromJson = false) (h3 : ¬ P ".json" <:+ a.filename) :
    convertMain ext a w = convertSavToJson ext a.filename (outputOr a (a.filename ++ P ".json")) a.force a.minify
      (!a.nanToNull) a.keys w :=
  main_only_to ext a w b hf (.inl h1) h2 h3

/-- C43: with --from-json only the JSON to SAV conversion runs, if the name does not end in ".sav". -/
theorem C43_from_json_partial (ext : Ext) (a : Args) (w : World) (b : Bytes) (hf : w.fs a.filename = some (.file b))
    (h1 : a.fromJson = true) (h2 : a.toJson = false) (h3 : ¬ P ".sav" <:+ a.filename) :
    convertMain ext a w = convertJsonToSav ext a.filename (outputOr a (removeAll (P ".json") a.filename)) a.force w :=
  main_only_from ext a w b hf (.inl h1) h2 h3

/-- C43: both flags together: the command stops, nothing changes. -/
theorem C43_both (ext : Ext) (a : Args) (w : World) (h1 : a.toJson = true) (h2 : a.fromJson = true) :
    convertMain ext a w = (.error (.exit 1), w) := by
  unfold convertMain
  rw [h1, h2]
  rfl

/-- C43 fails: --from-json does not override the extension ".sav". Whatever the file contains, unless it is a SAV
container the run raises and changes nothing; so a JSON document in a file named x.sav is not converted. -/
theorem C43_from_json_counterexample (ext : Ext) (a : Args) (w : World) (b : Bytes) (hf : w.fs a.filename = some (.file b))
    (hs : P ".sav" <:+ a.filename) (hb : ∀ d ty, ¬ IsSav ext.z.decompress b d ty) :
    ∃ e, (convertMain ext a w).1 = .error e ∧ (convertMain ext a w).2.fs = w.fs := by
  by_cases hboth : a.toJson = true ∧ a.fromJson = true
  · rw [C43_both ext a w hboth.1 hboth.2]; exact ⟨_, rfl, rfl⟩
  · rw [main_file ext a w b hf hboth, io_bind]
    unfold mainToJson
    rw [if_pos (by rw [Bool.or_eq_true, endsWith_iff]; exact .inr hs), savToJson_eq, io_bind]
    generalize outputOr a (a.filename ++ P ".json") = out
    obtain ⟨h1, -⟩ := ask_spec out a.force w
    cases ha : askOverwrite out a.force w with
    | mk r w' =>
      rw [ha] at h1
      cases r with
      | error e => exact ⟨e, rfl, h1⟩
      | ok u =>
        simp only at h1 ⊢
        rcases savToJson_cases ext a.filename out a.minify (!a.nanToNull) a.keys w' with ⟨e, h⟩ | ⟨data, raw, ty, g, h2, h3, -⟩
        · rw [h]; exact ⟨e, rfl, h1⟩
        · rw [h1, hf] at h2
          cases h2
          obtain ⟨ty', -, h4⟩ := sav_of_decompress h3
          exact absurd h4 (hb _ _)

/-- C43 fails: --to-json does not override the extension ".json" either: after the conversion to JSON the file is
also taken for a JSON document, and if it is not one the run raises. -/
theorem C43_to_json_counterexample (ext : Ext) (a : Args) (w : World) (b : Bytes) (hf : w.fs a.filename = some (.file b))
    (hs : P ".json" <:+ a.filename) (hb : ∀ d, ext.jload b ≠ .ok d)
    (hout : outputOr a (a.filename ++ P ".json") ≠ a.filename) : ∃ e, (convertMain ext a w).1 = .error e := by
  by_cases hboth : a.toJson = true ∧ a.fromJson = true
  · rw [C43_both ext a w hboth.1 hboth.2]; exact ⟨_, rfl⟩
  · rw [main_file ext a w b hf hboth, io_bind]
    have h1 : (mainToJson ext a w).2.fs a.filename = w.fs a.filename := by
      unfold mainToJson
      split
      · exact (polite_savToJson ..).others _ (Ne.symm hout)
      · rfl
    cases hx : mainToJson ext a w with
    | mk r w1 =>
      rw [hx] at h1
      cases r with
      | error e => exact ⟨e, rfl⟩
      | ok u =>
        simp only at h1 ⊢
        unfold mainFromJson
        rw [if_pos (by rw [Bool.or_eq_true, endsWith_iff]; exact .inr hs), jsonToSav_eq, io_bind]
        generalize outputOr a (removeAll (P ".json") a.filename) = out
        obtain ⟨h2, -⟩ := ask_spec out a.force w1
        cases ha : askOverwrite out a.force w1 with
        | mk r w' =>
          rw [ha] at h2
          cases r with
          | error e => exact ⟨e, rfl⟩
          | ok u =>
            simp only at h2 ⊢
            rcases jsonToSav_cases ext a.filename out w' with ⟨e, h⟩ | ⟨text, doc, sav, h3, h4, -⟩
            · rw [h]; exact ⟨e, rfl⟩
            · rw [h2, h1, hf] at h3
              cases h3
              exact absurd h4 (hb _)

/-! ### C45 -/

theorem isSubstr_iff (k s : PyStr) : Val.isSubstr k s = true ↔ k <:+: s := by
  induction s with
  | nil => simp [Val.isSubstr]
  | cons c t ih =>
    rw [Val.isSubstr, Bool.or_eq_true, ih, List.isPrefixOf_iff_prefix, List.infix_cons_iff]

/-- The class names of world saves. -/
def WorldClass (s : PyStr) : Prop := P "Pal.PalWorldSaveGame" <:+: s ∨ P "Pal.PalLocalWorldSaveGame" <:+: s

theorem saveType_str (s : PyStr) : ∃ ty, saveTypeOf (.str s) = .ok ty ∧ (ty = 0x31 ∨ ty = 0x32) ∧ (ty = 0x32 ↔ WorldClass s) := by
  unfold saveTypeOf WorldClass
  simp only [Val.contains]
  rw [← isSubstr_iff, ← isSubstr_iff]
  cases h1 : Val.isSubstr (P "Pal.PalWorldSaveGame") s with
  | true => exact ⟨0x32, rfl, .inr rfl, by simp⟩
  | false =>
    cases h2 : Val.isSubstr (P "Pal.PalLocalWorldSaveGame") s with
    | true => exact ⟨0x32, rfl, .inr rfl, by simp⟩
    | false => exact ⟨0x31, rfl, .inl rfl, by simp⟩

theorem wcat_all {l : List (Except Err Bytes)} {b : Bytes} (h : wcat l = .ok b) : ∀ x ∈ l, ∃ c, x = .ok c := by
  induction l generalizing b with
  | nil => intro x hx; cases hx
  | cons y t ih =>
    cases y with
    | error e => cases h
    | ok c =>
      intro x hx
      rcases List.mem_cons.1 hx with rfl | hx
      · exact ⟨c, rfl⟩
      · simp only [wcat] at h
        cases ht : wcat t with
        | error e => rw [ht] at h; cases h
        | ok d => exact ih ht x hx

theorem hdrWrite_class {h : Hdr} {b : Bytes} (hw : h.write = .ok b) : ∃ s, h.className = .str s := by
  obtain ⟨c, hc⟩ := wcat_all hw (wFString h.className) (by simp)
  unfold wFString at hc
  split at hc
  · rename_i s hs; exact ⟨s, hs⟩
  · cases hc

/-- What the conversion of a document gives: a container for the bytes of the file object, of the type given by the
class name. -/
theorem docToSav_ok {ext : Ext} (hz : ∀ b, ext.z.decompress (ext.z.compress b) = some b) {doc : Val} {sav : Bytes}
    (h : docToSav ext doc = .ok sav) :
    ∃ g s b g' ty, Gvas.load doc = .ok g ∧ g.header.className = .str s ∧ g.write palAll = .ok (b, g') ∧
      decompressSav ext.z sav = .ok (b, ty) ∧ (ty = 0x31 ∨ ty = 0x32) ∧ (ty = 0x32 ↔ WorldClass s) := by
  unfold docToSav at h
  cases hg : Gvas.load doc with
  | error e => rw [hg] at h; cases h
  | ok g =>
    rw [hg, e_bind_ok] at h
    cases ht : saveTypeOf g.header.className with
    | error e => rw [ht] at h; cases h
    | ok ty =>
      rw [ht, e_bind_ok] at h
      cases hw : g.write palAll with
      | error e => rw [hw] at h; cases h
      | ok r =>
        obtain ⟨b, g'⟩ := r
        rw [hw, e_bind_ok] at h
        simp only at h
        obtain ⟨hb, pb, h1, -⟩ := of_write hw
        obtain ⟨s, hs⟩ := hdrWrite_class h1
        obtain ⟨ty', h2, h3, h4⟩ := saveType_str s
        rw [hs, h2] at ht
        cases ht
        obtain ⟨h5, h6, -⟩ := (C24_sav_write_total ext.z b ty).1 ⟨sav, h⟩
        obtain ⟨f, h7, h8⟩ := C24_sav_roundtrip ext.z hz b ty h3 h5 h6
        rw [h] at h7
        cases h7
        exact ⟨g, s, b, g', ty, rfl, hs, hw, h8, h3, h4⟩

/-- C45: a successful JSON to SAV conversion leaves at the output a SAV container whose payload is the file object
loaded from the JSON document, as written with the whole custom property table, and whose type is 0x32 if
the class name contains one of the two world class names, 0x31 otherwise. -/
theorem C45_save_type (ext : Ext) (hz : ∀ b, ext.z.decompress (ext.z.compress b) = some b) (filename out : PyStr) (force : Bool)
    (w : World) (h : (convertJsonToSav ext filename out force w).1 = .ok ()) :
    ∃ text doc g s b g' sav, w.fs filename = some (.file text) ∧ ext.jload text = .ok doc ∧ Gvas.load doc = .ok g ∧
      g.header.className = .str s ∧ g.write palAll = .ok (b, g') ∧
      (convertJsonToSav ext filename out force w).2.fs out = some (.file sav) ∧
      ∃ ty : UInt8, IsSav ext.z.decompress sav b ty ∧ (ty = 0x31 ∨ ty = 0x32) ∧ (ty = 0x32 ↔ WorldClass s) := by
  rw [jsonToSav_eq, io_bind] at h ⊢
  obtain ⟨h1, -⟩ := ask_spec out force w
  cases ha : askOverwrite out force w with
  | mk r w' =>
    rw [ha] at h h1
    cases r with
    | error e => cases h
    | ok u =>
      simp only at h h1 ⊢
      rcases jsonToSav_cases ext filename out w' with ⟨e, h'⟩ | ⟨text, doc, sav, h2, h3, h4, -, h'⟩
      · rw [h'] at h; cases h
      · obtain ⟨g, s, b, g', ty, e1, e2, e3, e4, e5, e6⟩ := docToSav_ok hz h4
        obtain ⟨ty', rfl, e7⟩ := sav_of_decompress e4
        refine ⟨text, doc, g, s, b, g', sav, h1 ▸ h2, h3, e1, e2, e3, ?_, ty', e7, ?_, ?_⟩
        · rw [h']; simp only [put_fs, if_true]
        · simpa [← UInt8.toNat_inj] using e5
        · rw [← e6, ← UInt8.toNat_inj]; rfl

/-! ### C47 -/

theorem append_ne {s t : PyStr} (h : t ≠ []) : s ++ t ≠ s := by
  intro e
  exact h (List.append_right_eq_self.1 e)

/-- C47: the resave test succeeds exactly when both conversions succeed and the container it then finds at
the input holds the same payload, with the same type, as the container it has written. -/
theorem C47_verdict (ext : Ext) (input : PyStr) (w : World) :
    (resaveMain ext input w).1 = .ok () ↔
      ∃ w1 w2 a b d ty, convertSavToJson ext input (input ++ P ".resave.json") false true true [P "all"] w = (.ok (), w1) ∧
        convertJsonToSav ext (input ++ P ".resave.json") (input ++ P ".resave.sav") false w1 = (.ok (), w2) ∧
        w.fs input = some (.file a) ∧ w2.fs (input ++ P ".resave.sav") = some (.file b) ∧
        IsSav ext.z.decompress a d ty ∧ IsSav ext.z.decompress b d ty := by
  have n1 : input ≠ input ++ P ".resave.json" := (append_ne (by decide)).symm
  have n2 : input ≠ input ++ P ".resave.sav" := (append_ne (by decide)).symm
  unfold resaveMain
  simp only [io_bind]
  have p1 := polite_savToJson ext input (input ++ P ".resave.json") false true true [P "all"] w
  cases h1 : convertSavToJson ext input (input ++ P ".resave.json") false true true [P "all"] w with
  | mk r w1 =>
  rw [h1] at p1
  cases r with
  | error e => simp
  | ok u =>
  simp only
  have p2 := polite_jsonToSav ext (input ++ P ".resave.json") (input ++ P ".resave.sav") false w1
  cases h2 : convertJsonToSav ext (input ++ P ".resave.json") (input ++ P ".resave.sav") false w1 with
  | mk r w2 =>
  rw [h2] at p2
  cases r with
  | error e =>
    simp only [reduceCtorEq, false_iff]
    rintro ⟨w1', w2', a, b, d, ty, e1, e2, -⟩
    simp only [Prod.mk.injEq, true_and] at e1
    subst e1
    rw [h2] at e2
    cases e2
  | ok u =>
  simp only
  have hin : w2.fs input = w.fs input := (p2.others _ n2).trans (p1.others _ n1)
  constructor
  · intro h
    rcases read_spec input w2 with ⟨e, hr⟩ | ⟨a, ha, hr⟩
    · rw [hr] at h; cases h
    rw [hr] at h
    simp only [ioLift] at h
    cases hd : decompressSav ext.z a with
    | error e => rw [hd] at h; cases h
    | ok x =>
      rw [hd] at h
      simp only at h
      rcases read_spec (input ++ P ".resave.sav") w2 with ⟨e, hr'⟩ | ⟨b, hb, hr'⟩
      · rw [hr'] at h; cases h
      rw [hr'] at h
      simp only at h
      cases hd' : decompressSav ext.z b with
      | error e => rw [hd'] at h; cases h
      | ok y =>
        rw [hd'] at h
        simp only at h
        by_cases hxy : x = y
        · subst hxy
          obtain ⟨d, t⟩ := x
          obtain ⟨ty, rfl, i1⟩ := sav_of_decompress hd
          exact ⟨w1, w2, a, b, d, ty, rfl, h2, hin ▸ ha, hb, i1, (C25_sav_validation _ _ _ _).1 hd'⟩
        · rw [if_neg hxy] at h; cases h
  · rintro ⟨w1', w2', a, b, d, ty, e1, e2, e3, e4, e5, e6⟩
    simp only [Prod.mk.injEq, true_and] at e1
    subst e1
    rw [h2] at e2
    simp only [Prod.mk.injEq, true_and] at e2
    subst e2
    rw [← C25_sav_validation] at e5 e6
    have r1 : readFile input w2 = (.ok a, w2) := by unfold readFile; rw [hin, e3]
    have r2 : readFile (input ++ P ".resave.sav") w2 = (.ok b, w2) := by unfold readFile; rw [e4]
    simp only [r1, r2, ioLift, e5, e6, if_true]
    rfl

/-! ### The whole way: C01 and C47 for well-formed files, C44 -/

variable {m : Mode}

theorem sim_str {bs : Bool} {s : PyStr} {v : Val} (h : Sim bs (.str s) v) : v = .str s := by
  cases h; rfl

/-- The pipeline of C08 with the class name. -/
theorem cli_pipeline (keep : String → Bool) (f : File m) (hj : m.json = true) (hw : f.Wf (palCfg (fun _ => true) m.an)) :
    ∃ g d g' h, gvasRead (palCfg keep m.an) f.enc = .ok g ∧ jsonRT m.an g.dump = .ok d ∧ Gvas.load d = .ok g' ∧
      g'.header.className = .str f.header.className.val ∧ g'.write palAll = .ok (f.enc, h) := by
  obtain ⟨g, d, g', h, h1, h2, h3, h4⟩ := C08_palworld keep f hj hw
  have hw' := fileWf_sub (palCfg_selects keep m.an) hw
  have h1' := file_read rfl (fun _ => palCfg_json keep m.an) f hw'
  rw [h1] at h1'
  injection h1' with h1'
  have hjok := file_jok hj rfl (palCfg_json keep m.an) f hw'
  rw [← h1'] at hjok
  obtain ⟨d', h5, h6⟩ := jok_json false m.an _ hjok
  rw [h2] at h5
  injection h5 with h5
  subst h5
  obtain ⟨g'', h7, -, -, -, h8⟩ := load_sim h6 _ (C27_dump_load g)
  rw [h3] at h7
  injection h7 with h7
  subst h7
  rw [h1'] at h8
  exact ⟨g, d, g', h, h1, h2, h3, sim_str h8, (C48_writer palAll (palCfg (fun _ => true) m.an) rfl g').trans h4⟩

/-- The SAV to JSON conversion of a well-formed file. -/
theorem savToJson_wf {ext : Ext} (hl : ExtLaws ext) (hcr : ∀ p, ext.canCreate p = true) (f : File m) (hj : m.json = true)
    (hw : f.Wf (palCfg (fun _ => true) m.an)) {x out : PyStr} {data : Bytes} {ty : UInt8} {w : World} {force : Bool} (minify : Bool)
    (keys : List PyStr) (hx : w.fs x = some (.file data)) (hs : IsSav ext.z.decompress data f.enc ty)
    (ho : (w.fs out = none ∨ (force = true ∧ ∃ b, w.fs out = some (.file b)))) :
    ∃ text d g', convertSavToJson ext x out force minify m.an keys w = (.ok (), (w.put out []).put out text) ∧
      ext.jload text = .ok d ∧ Gvas.load d = .ok g' ∧
      g'.header.className = .str f.header.className.val ∧ ∃ h, g'.write palAll = .ok (f.enc, h) := by
  obtain ⟨g, d, g', h, h1, h2, h3, h4, h5⟩ := cli_pipeline (selects keys) f hj hw
  obtain ⟨text, h6, h7⟩ := dump_load hl.repr minify _ (jpre_cp _ (file_jpre (palCfg_json _ _) h1)) h2
  have ha : askOverwrite out force w = (.ok (), w) := by
    unfold askOverwrite
    simp only [io_bind, pathExists]
    rcases ho with ho | ⟨rfl, b, ho⟩ <;> rw [ho] <;> rfl
  have hopen : openTrunc ext out w = (.ok (), w.put out []) := by
    unfold openTrunc
    rcases ho with ho | ⟨-, b, ho⟩ <;> rw [ho] <;> simp only [hcr, if_true]
  have hd := (C25_sav_validation _ _ _ _).2 hs
  refine ⟨text, d, g', ?_, h7, h3, h4, h, h5⟩
  rw [savToJson_eq, io_bind, ha]
  simp only
  unfold savToJsonRest
  have hr : readFile x w = (.ok data, w) := by unfold readFile; rw [hx]
  simp only [io_bind, hr, ioLift, hd, h1, hopen, Ext.jdump, h6, writeOut]
  rfl

theorem docToSav_wf {ext : Ext} (hl : ExtLaws ext) {f : File m} {d : Val} {g' h : Gvas} (h1 : Gvas.load d = .ok g')
    (h2 : g'.header.className = .str f.header.className.val) (h3 : g'.write palAll = .ok (f.enc, h))
    (hlen : f.enc.length < 2 ^ 32) (hc : (ext.z.compress f.enc).length < 2 ^ 32) :
    ∃ sav ty, docToSav ext d = .ok sav ∧ IsSav ext.z.decompress sav f.enc ty ∧ (ty = 0x31 ∨ ty = 0x32) ∧
      (ty = 0x32 ↔ WorldClass f.header.className.val) := by
  obtain ⟨ty, e1, e2, e3⟩ := saveType_str f.header.className.val
  obtain ⟨sav, e4, e5⟩ := C24_sav_roundtrip ext.z hl.zlib f.enc ty e2 hlen hc
  obtain ⟨ty', rfl, e6⟩ := sav_of_decompress e5
  refine ⟨sav, ty', ?_, e6, ?_, ?_⟩
  · unfold docToSav
    rw [h1, e_bind_ok, h2, e1, e_bind_ok, h3, e_bind_ok]
    exact e4
  · simpa [← UInt8.toNat_inj] using e2
  · rw [← e3, ← UInt8.toNat_inj]; rfl

theorem jsonToSav_run {ext : Ext} (hcr : ∀ p, ext.canCreate p = true) {x out : PyStr} {text sav : Bytes} {d : Val} {w : World} {force : Bool}
    (hx : w.fs x = some (.file text)) (h1 : ext.jload text = .ok d) (h2 : docToSav ext d = .ok sav)
    (ho : (w.fs out = none ∨ (force = true ∧ ∃ b, w.fs out = some (.file b)))) :
    convertJsonToSav ext x out force w = (.ok (), (w.put out []).put out sav) := by
  have ha : askOverwrite out force w = (.ok (), w) := by
    unfold askOverwrite
    simp only [io_bind, pathExists]
    rcases ho with ho | ⟨rfl, b, ho⟩ <;> rw [ho] <;> rfl
  have hopen : openTrunc ext out w = (.ok (), w.put out []) := by
    unfold openTrunc
    rcases ho with ho | ⟨-, b, ho⟩ <;> rw [ho] <;> simp only [hcr, if_true]
  rw [jsonToSav_eq, io_bind, ha]
  simp only
  unfold jsonToSavRest
  have hr : readFile x w = (.ok text, w) := by unfold readFile; rw [hx]
  simp only [io_bind, hr, ioLift, h1, h2, hopen, writeOut]

/-- C01 at the command line: let `x` be a file whose name ends in ".sav" and does not contain ".json", holding a SAV container
for a well-formed file.  Then `convert x --force` followed by `convert x.json --force` succeeds, whatever the custom
properties selected and whether or not the JSON is minified, and leaves at `x` a container with the same payload, of
the type that goes with the class name.  (With `--convert-nan-to-null`, `m.an` is false.) -/
theorem C01_cli (ext : Ext) (hl : ExtLaws ext) (hcr : ∀ p, ext.canCreate p = true) (f : File m) (hj : m.json = true)
    (hw : f.Wf (palCfg (fun _ => true) m.an)) (hc : (ext.z.compress f.enc).length < 2 ^ 32)
    (x : PyStr) (hx1 : P ".sav" <:+ x) (hx2 : ¬ P ".json" <:+: x)
    (w : World) (data : Bytes) (ty : UInt8) (hx : w.fs x = some (.file data)) (hs : IsSav ext.z.decompress data f.enc ty)
    (ho : w.fs (x ++ P ".json") = none ∨ ∃ b, w.fs (x ++ P ".json") = some (.file b)) (minify minify' nn : Bool) (keys keys' : List PyStr) :
    ∃ w1 w2 data' ty',
      convertMain ext ⟨x, false, false, none, true, !m.an, minify, keys⟩ w = (.ok (), w1) ∧
      convertMain ext ⟨x ++ P ".json", false, false, none, true, nn, minify', keys'⟩ w1 = (.ok (), w2) ∧
      w2.fs x = some (.file data') ∧ IsSav ext.z.decompress data' f.enc ty' ∧ (ty' = 0x31 ∨ ty' = 0x32) ∧
      (ty' = 0x32 ↔ WorldClass f.header.className.val) := by
  have hne : x ≠ x ++ P ".json" := (append_ne (by decide)).symm
  obtain ⟨text, d, g', h1, h2, h3, h4, h, h5⟩ := savToJson_wf hl hcr f hj hw (x := x) (out := x ++ P ".json") (w := w)
    (force := true) minify keys hx hs (ho.imp id (fun h => ⟨rfl, h⟩))
  obtain ⟨-, -, -, -, -, hlen, -⟩ := hs
  obtain ⟨sav, ty', h6, h7, h8, h9⟩ := docToSav_wf hl h3 h4 h5 hlen hc
  refine ⟨(w.put (x ++ P ".json") []).put (x ++ P ".json") text,
    (((w.put (x ++ P ".json") []).put (x ++ P ".json") text).put x []).put x sav, sav, ty', ?_, ?_, ?_, h7, h8, h9⟩
  · rw [C42_to_json ext _ w data hx hx1 rfl rfl]
    simp only [Bool.not_not]
    exact h1
  · rw [C42_from_json ext _ x _ text hx2 rfl (by simp only [put_fs, if_true]) rfl rfl]
    exact jsonToSav_run hcr (by simp only [put_fs, if_true]) h2 h6 (.inr ⟨rfl, data, by simp only [put_fs, if_neg hne, hx]⟩)
  · simp only [put_fs, if_true]

/-- C47: on a well-formed file in a container of the type that goes with its class name, the resave test
succeeds (when its two auxiliary files do not exist yet). -/
theorem C47_success (ext : Ext) (hl : ExtLaws ext) (hcr : ∀ p, ext.canCreate p = true) (f : File m) (hj : m.json = true) (han : m.an = true)
    (hw : f.Wf (palCfg (fun _ => true) m.an)) (hc : (ext.z.compress f.enc).length < 2 ^ 32)
    (x : PyStr) (w : World) (data : Bytes) (ty : UInt8) (hx : w.fs x = some (.file data))
    (hs : IsSav ext.z.decompress data f.enc ty) (hty : ty = 0x32 ↔ WorldClass f.header.className.val)
    (ho1 : w.fs (x ++ P ".resave.json") = none) (ho2 : w.fs (x ++ P ".resave.sav") = none) :
    (resaveMain ext x w).1 = .ok () := by
  have hne : x ++ P ".resave.sav" ≠ x ++ P ".resave.json" := fun h => absurd (List.append_cancel_left h) (by decide)
  obtain ⟨text, d, g', h1, h2, h3, h4, h, h5⟩ := savToJson_wf hl hcr f hj hw (x := x) (out := x ++ P ".resave.json") (w := w)
    (force := false) true [P "all"] hx hs (.inl ho1)
  have hs' := hs
  obtain ⟨_, _, _, _, _, hlen, _, hi⟩ := hs'
  obtain ⟨sav, ty', h6, h7, h8, h9⟩ := docToSav_wf hl h3 h4 h5 hlen hc
  rw [han] at h1
  rw [C47_verdict]
  refine ⟨_, _, data, sav, f.enc, ty, h1, jsonToSav_run hcr (by simp only [put_fs, if_true]) h2 h6
    (.inl (by simp only [put_fs, if_neg hne, ho2])), hx, by simp only [put_fs, if_true], hs, ?_⟩
  have : ty = ty' := by
    have hty1 : ty = 0x31 ∨ ty = 0x32 := by
      rcases hi with ⟨h, -⟩ | ⟨h, -⟩
      · exact .inl h
      · exact .inr h
    rcases hty1 with rfl | rfl <;> rcases h8 with rfl | rfl
    · rfl
    · exact absurd (hty.2 (h9.1 rfl)) (by decide)
    · exact absurd (h9.2 (hty.1 rfl)) (by decide)
    · rfl
  rw [this]
  exact h7

/-- A file with a NaN, read with `--convert-nan-to-null` (which converts infinities only). -/
def nanFile : File ⟨false, false⟩ := ⟨sampleHeader,
  [(str "F", .float none ⟨0x7fc00000, by unfold F32Ok; decide +kernel⟩)], [0, 0, 0, 0]⟩

theorem nanFile_wf : nanFile.Wf (palCfg (fun _ => false) false) := by
  refine ⟨?_, by decide +kernel⟩
  simp only [SVal.Wf]
  exact ⟨by decide +kernel, wf_plain (by decide +kernel) rfl (by simp only [PropT.Wf]) wf_nil⟩

theorem nanFile_json : ∃ e, jsonRT false (fileOf (palCfg (fun _ => false) false) nanFile).dump = .error e := ⟨_, rfl⟩

/-- C44 fails for SAV to JSON: with `--convert-nan-to-null` a file with a NaN makes `json.dump` raise after the output was
opened, and the previous content of the output is lost. -/
theorem C44_sav_to_json_counterexample (ext : Ext) (x out : PyStr) (hcr : ext.canCreate out = true) (w : World)
    (data old : Bytes) (ty : UInt8) (minify : Bool) (hx : w.fs x = some (.file data)) (hs : IsSav ext.z.decompress data nanFile.enc ty)
    (ho : w.fs out = some (.file old)) :
    ∃ e b, convertSavToJson ext x out true minify false [] w = (.error e, (w.put out []).put out b) := by
  have ha : askOverwrite out true w = (.ok (), w) := by
    unfold askOverwrite
    simp only [io_bind, pathExists, ho]
    rfl
  have hopen : openTrunc ext out w = (.ok (), w.put out []) := by
    unfold openTrunc
    rw [ho]; simp only [hcr, if_true]
  have hd := (C25_sav_validation _ _ _ _).2 hs
  have hr : readFile x w = (.ok data, w) := by unfold readFile; rw [hx]
  have hg : gvasRead (palCfg (selects []) false) nanFile.enc = .ok (fileOf (palCfg (fun _ => false) false) nanFile) :=
    file_read rfl (fun h => by cases h) nanFile nanFile_wf
  obtain ⟨e, he⟩ := nanFile_json
  have hj : (ext.jdump minify false (fileOf (palCfg (fun _ => false) false) nanFile).dump).2 ≠ none := by
    unfold Ext.jdump
    rw [jsonDump_err, he]
    exact fun h => by cases h
  rw [savToJson_eq, io_bind, ha]
  simp only
  unfold savToJsonRest
  simp only [io_bind, hr, ioLift, hd, hg, hopen, writeOut]
  cases hjd : ext.jdump minify false (fileOf (palCfg (fun _ => false) false) nanFile).dump with
  | mk b e =>
    rw [hjd] at hj
    cases e with
    | none => exact absurd rfl hj
    | some e => exact ⟨e, b, rfl⟩

end Pal
