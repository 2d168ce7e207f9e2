import Verif.Lemmas.Interrupt
import Verif.Props.Crash
import Verif.Props.ShownCmd
import Verif.Props.SaysCmd
/-
C65: a conversion that is interrupted at any moment.
-/

namespace Pal
open Spec

/-- C65: the programs of single steps are the commands: every run that gets to its end ends as the command does. -/
theorem C65_complete (ext : Ext) (w w' : World) (r : Except Err Unit) :
    (∀ filename out force minify an keys, Steps ext (convertSavToJsonP ext filename out force minify an keys) w (.done r) w' ↔
      convertSavToJson ext filename out force minify an keys w = (r, w')) ∧
    (∀ filename out force, Steps ext (convertJsonToSavP ext filename out force) w (.done r) w' ↔
      convertJsonToSav ext filename out force w = (r, w')) ∧
    (∀ a, Steps ext (convertMainP ext a) w (.done r) w' ↔ convertMain ext a w = (r, w')) ∧
    (∀ input, Steps ext (resaveMainP ext input) w (.done r) w' ↔ resaveMain ext input w = (r, w')) :=
  ⟨fun _ _ _ _ _ _ => by rw [steps_done, run_savToJson], fun _ _ _ => by rw [steps_done, run_jsonToSav],
    fun _ => by rw [steps_done, run_main], fun _ => by rw [steps_done, run_resave]⟩

theorem savToJson_end {ext : Ext} {filename out : PyStr} {force minify an : Bool} {keys : List PyStr} {w w1 : World} {data raw : Bytes}
    {ty : Nat} {g : Gvas} (ha : askOverwrite out force w = (.ok (), w1)) (hw : w1.fs = w.fs) (h1 : w.fs filename = some (.file data))
    (h2 : decompressSav ext.z data = .ok (raw, ty)) (h3 : gvasRead (palCfg (selects keys) an) raw = .ok g)
    (ho : openTrunc ext out w1 = (.ok (), w1.put out [])) :
    convertSavToJson ext filename out force minify an keys w = (match (ext.jdump minify an g.dump).2 with
      | none => .ok ()
      | some e => .error e, w1.put out (ext.jdump minify an g.dump).1) := by
  rw [savToJson_eq, io_bind, ha]
  simp only
  have hr : readFile filename w1 = (.ok data, w1) := by unfold readFile; rw [hw, h1]
  unfold savToJsonRest
  simp only [io_bind, ioLift, hr, h2, h3, ho, writeOut, world_put_put]
  cases (ext.jdump minify an g.dump).2 <;> rfl

theorem jsonToSav_end {ext : Ext} {filename out : PyStr} {force : Bool} {w w1 : World} {text sav : Bytes}
    {doc : Val} (ha : askOverwrite out force w = (.ok (), w1)) (hw : w1.fs = w.fs) (h1 : w.fs filename = some (.file text))
    (h2 : ext.jload text = .ok doc) (h3 : docToSav ext doc = .ok sav)
    (ho : openTrunc ext out w1 = (.ok (), w1.put out [])) :
    convertJsonToSav ext filename out force w = (.ok (), w1.put out sav) := by
  rw [jsonToSav_eq, io_bind, ha]
  simp only
  have hr : readFile filename w1 = (.ok text, w1) := by unfold readFile; rw [hw, h1]
  unfold jsonToSavRest
  simp only [io_bind, ioLift, hr, h2, h3, ho, writeOut, world_put_put]

/-- C65: whenever the conversion to JSON is interrupted, either nothing has changed, or the user has agreed (or there
was no output), only the output has changed, and it holds the beginning of what the command would have written. -/
theorem C65_to_json (ext : Ext) (filename out : PyStr) (force minify an : Bool) (keys : List PyStr) (w w' : World)
    (h : Interrupted ext (convertSavToJsonP ext filename out force minify an keys) w w') :
    w'.fs = w.fs ∨ ((w.fs out = none ∨ force = true ∨ Consents w.replies) ∧ (∀ p ≠ out, w'.fs p = w.fs p) ∧
      ∃ b c, w'.fs out = some (.file b) ∧ (convertSavToJson ext filename out force minify an keys w).2.fs out = some (.file c) ∧
        b <+: c) := by
  obtain ⟨y, h⟩ := h
  rcases savToJson_mid h with h | ⟨w1, data, raw, ty, g, b, ha, hw, h1, h2, h3, ho, rfl, hb⟩
  · exact .inl h
  refine .inr ⟨(ask_iff out force w).1 (by rw [ha]), fun p hp => ?_, b, (ext.jdump minify an g.dump).1, ?_, ?_, hb⟩
  · simp [World.put, hp, hw]
  · simp [World.put]
  · rw [savToJson_end ha hw h1 h2 h3 ho]
    simp [World.put]

/-- C65: the same for the conversion to a save file. -/
theorem C65_to_sav (ext : Ext) (filename out : PyStr) (force : Bool) (w w' : World)
    (h : Interrupted ext (convertJsonToSavP ext filename out force) w w') :
    w'.fs = w.fs ∨ ((w.fs out = none ∨ force = true ∨ Consents w.replies) ∧ (∀ p ≠ out, w'.fs p = w.fs p) ∧
      ∃ b c, w'.fs out = some (.file b) ∧ (convertJsonToSav ext filename out force w).2.fs out = some (.file c) ∧ b <+: c) := by
  obtain ⟨y, h⟩ := h
  rcases jsonToSav_mid h with h | ⟨w1, text, doc, sav, b, ha, hw, h1, h2, h3, ho, rfl, hb⟩
  · exact .inl h
  refine .inr ⟨(ask_iff out force w).1 (by rw [ha]), fun p hp => ?_, b, sav, ?_, ?_, hb⟩
  · simp [World.put, hp, hw]
  · simp [World.put]
  · rw [jsonToSav_end ha hw h1 h2 h3 ho]
    simp [World.put]

/-- C65: what an interrupted conversion to JSON leaves is complete, or converting it back raises and changes
nothing. -/
theorem C65_json_refused (ext : Ext) (hr : ReprLaw ext.repr) (filename out : PyStr) (force minify an : Bool) (keys : List PyStr)
    (w w' : World) (h : Interrupted ext (convertSavToJsonP ext filename out force minify an keys) w w') :
    w'.fs = w.fs ∨ ∃ b, w'.fs out = some (.file b) ∧
      (((convertSavToJson ext filename out force minify an keys w).1 = .ok () ∧
        (convertSavToJson ext filename out force minify an keys w).2.fs out = some (.file b)) ∨
      ∀ (v : World) (file out' : PyStr) (force' : Bool), v.fs file = some (.file b) →
        (∃ e, (convertJsonToSav ext file out' force' v).1 = .error e) ∧ (convertJsonToSav ext file out' force' v).2.fs = v.fs) := by
  obtain ⟨y, h⟩ := h
  rcases savToJson_mid h with h | ⟨w1, data, raw, ty, g, b, ha, hw, h1, h2, h3, ho, rfl, hb⟩
  · exact .inl h
  refine .inr ⟨b, by simp [World.put], ?_⟩
  by_cases hd : ext.jdump minify an g.dump = (b, none)
  · left
    rw [savToJson_end ha hw h1 h2 h3 ho, hd]
    exact ⟨rfl, by simp [World.put]⟩
  · exact .inr fun v file out' force' hv => C57_json_cut_convert ext hr minify an _ raw g h3 b hb hd file out' force' v hv

/-- C65: what an interrupted conversion to a save file leaves is complete, or it is refused as a save file.  For double
compression this assumes that zlib rejects a stream that is cut. -/
theorem C65_sav_refused (ext : Ext) (hz : ∀ b, ext.z.decompress (ext.z.compress b) = some b)
    (hcut : ∀ b p, p <+: ext.z.compress b → p ≠ ext.z.compress b → ext.z.decompress p = none)
    (filename out : PyStr) (force : Bool) (w w' : World) (h : Interrupted ext (convertJsonToSavP ext filename out force) w w') :
    w'.fs = w.fs ∨ ∃ b, w'.fs out = some (.file b) ∧
      (((convertJsonToSav ext filename out force w).1 = .ok () ∧ (convertJsonToSav ext filename out force w).2.fs out = some (.file b)) ∨
      ∀ (v : World) (file out' : PyStr) (force' minify an : Bool) (keys : List PyStr), v.fs file = some (.file b) →
        (∃ e, (convertSavToJson ext file out' force' minify an keys v).1 = .error e) ∧
        (convertSavToJson ext file out' force' minify an keys v).2.fs = v.fs) := by
  obtain ⟨y, h⟩ := h
  rcases jsonToSav_mid h with h | ⟨w1, text, doc, sav, b, ha, hw, h1, h2, h3, ho, rfl, hb⟩
  · exact .inl h
  refine .inr ⟨b, by simp [World.put], ?_⟩
  by_cases hd : b = sav
  · subst hd
    left
    rw [jsonToSav_end ha hw h1 h2 h3 ho]
    exact ⟨rfl, by simp [World.put]⟩
  · right
    intro v file out' force' minify an keys hv
    have hbad : ∃ e, decompressSav ext.z b = .error e := by
      unfold docToSav at h3
      cases hg : Gvas.load doc with
      | error e => rw [hg] at h3; cases h3
      | ok g =>
        rw [hg, e_bind_ok] at h3
        cases ht : saveTypeOf g.header.className with
        | error e => rw [ht] at h3; cases h3
        | ok ty =>
          rw [ht, e_bind_ok] at h3
          cases hg : g.write palAll with
          | error e => rw [hg] at h3; cases h3
          | ok r =>
            obtain ⟨d, g'⟩ := r
            rw [hg, e_bind_ok] at h3
            simp only at h3
            obtain ⟨hb', pb, h4, -⟩ := of_write hg
            obtain ⟨s, hs⟩ := hdrWrite_class h4
            obtain ⟨ty', h5, h6, -⟩ := saveType_str s
            rw [hs, h5] at ht
            cases ht
            exact C57_sav_cut ext.z hz hcut d sav ty h6 h3 b hb hd
    obtain ⟨e, he⟩ := hbad
    rw [savToJson_eq, io_bind]
    obtain ⟨h4, -⟩ := ask_spec out' force' v
    cases hk : askOverwrite out' force' v with
    | mk r v' =>
      rw [hk] at h4
      simp only at h4
      cases r with
      | error e => exact ⟨⟨e, rfl⟩, h4⟩
      | ok u =>
        simp only
        rcases savToJson_cases ext file out' minify an keys v' with ⟨e, he'⟩ | ⟨data, raw, ty, g, e1, e2, -⟩
        · rw [he']; exact ⟨⟨e, rfl⟩, h4⟩
        · rw [h4, hv] at e1
          cases e1
          rw [he] at e2
          cases e2

/-! ### trying again -/

/-- Worlds in which a conversion to `out` finds the same. -/
def Alike (out : PyStr) (w w' : World) : Prop := (∀ p ≠ out, w'.fs p = w.fs p) ∧ (w'.fs out = some .dir ↔ w.fs out = some .dir)

theorem alike_open {ext : Ext} {out : PyStr} {w w' : World} (h : Alike out w w') :
    openTrunc ext out w = (.ok (), w.put out []) ↔ openTrunc ext out w' = (.ok (), w'.put out []) := by
  rw [open_iff, open_iff, Ne, Ne, h.2]

theorem alike_put {out : PyStr} {w w' : World} (h : Alike out w w') (b : Bytes) : (w'.put out b).fs = (w.put out b).fs := by
  funext p
  simp only [World.put]
  split
  · rfl
  · rename_i hp; exact h.1 p hp

theorem forced_ask (out : PyStr) (w : World) : askOverwrite out true w = (.ok (), w) := by
  unfold askOverwrite
  simp only [io_bind, pathExists]
  cases (w.fs out).isSome <;> rfl

/-- A successful run is what the run with `--force` is in any alike world. -/
theorem savToJson_alike {ext : Ext} {filename out : PyStr} {force minify an : Bool} {keys : List PyStr} {w w' : World} (hne : filename ≠ out)
    (hw : Alike out w w') (h : (convertSavToJson ext filename out force minify an keys w').1 = .ok ()) :
    (convertSavToJson ext filename out true minify an keys w).1 = .ok () ∧
    (convertSavToJson ext filename out force minify an keys w').2.fs = (convertSavToJson ext filename out true minify an keys w).2.fs := by
  obtain ⟨h4, -⟩ := ask_spec out force w'
  cases hk : askOverwrite out force w' with
  | mk r v =>
    rw [hk] at h4
    simp only at h4
    cases r with
    | error e => rw [savToJson_eq, io_bind, hk] at h; cases h
    | ok u =>
      have hq : convertSavToJson ext filename out force minify an keys w' = savToJsonRest ext filename out minify an keys v := by
        rw [savToJson_eq, io_bind, hk]
      rw [hq] at h ⊢
      rcases savToJson_cases ext filename out minify an keys v with ⟨e, he'⟩ | ⟨data, raw, ty, g, e1, e2, e3, e4, e5⟩
      · rw [he'] at h; cases h
      have hv : Alike out w v := ⟨fun p hp => by rw [h4]; exact hw.1 p hp, by rw [h4]; exact hw.2⟩
      rw [savToJson_end (forced_ask out w) rfl ((hv.1 _ hne).symm.trans e1) e2 e3 ((alike_open hv).2 e4)]
      rw [e5] at h ⊢
      exact ⟨h, by rw [world_put_put]; exact alike_put hv _⟩

theorem jsonToSav_alike {ext : Ext} {filename out : PyStr} {force : Bool} {w w' : World} (hne : filename ≠ out)
    (hw : Alike out w w') (h : (convertJsonToSav ext filename out force w').1 = .ok ()) :
    (convertJsonToSav ext filename out true w).1 = .ok () ∧
    (convertJsonToSav ext filename out force w').2.fs = (convertJsonToSav ext filename out true w).2.fs := by
  obtain ⟨h4, -⟩ := ask_spec out force w'
  cases hk : askOverwrite out force w' with
  | mk r v =>
    rw [hk] at h4
    simp only at h4
    cases r with
    | error e => rw [jsonToSav_eq, io_bind, hk] at h; cases h
    | ok u =>
      have hq : convertJsonToSav ext filename out force w' = jsonToSavRest ext filename out v := by
        rw [jsonToSav_eq, io_bind, hk]
      rw [hq] at h ⊢
      rcases jsonToSav_cases ext filename out v with ⟨e, he'⟩ | ⟨text, doc, sav, e1, e2, e3, e4, e5⟩
      · rw [he'] at h; cases h
      have hv : Alike out w v := ⟨fun p hp => by rw [h4]; exact hw.1 p hp, by rw [h4]; exact hw.2⟩
      rw [jsonToSav_end (forced_ask out w) rfl ((hv.1 _ hne).symm.trans e1) e2 e3 ((alike_open hv).2 e4)]
      rw [e5]
      exact ⟨rfl, by rw [world_put_put]; exact alike_put hv _⟩

theorem alike_trans {out : PyStr} {w w' w'' : World} (h : Alike out w w') (h' : Alike out w' w'') : Alike out w w'' :=
  ⟨fun p hp => (h'.1 p hp).trans (h.1 p hp), h'.2.trans h.2⟩

theorem alike_symm {out : PyStr} {w w' : World} (h : Alike out w w') : Alike out w' w :=
  ⟨fun p hp => (h.1 p hp).symm, h.2.symm⟩

theorem attempts_alike {ext : Ext} {c : Bool → Prog Unit} {out : PyStr}
    (hc : ∀ force w w', Interrupted ext (c force) w w' → Alike out w w') {w w' : World} (h : Attempts ext c w w') : Alike out w w' := by
  induction h with
  | none => exact ⟨fun _ _ => rfl, Iff.rfl⟩
  | @more force w w' w'' replies h _ ih =>
    have h1 : Alike out w w' := hc force { w with replies := replies } w' h
    exact alike_trans h1 ih

theorem savToJson_mid_alike {ext : Ext} {filename out : PyStr} {force minify an : Bool} {keys : List PyStr} {w w' : World}
    (h : Interrupted ext (convertSavToJsonP ext filename out force minify an keys) w w') : Alike out w w' := by
  obtain ⟨y, h⟩ := h
  rcases savToJson_mid h with h | ⟨w1, data, raw, ty, g, b, ha, hw, h1, h2, h3, ho, rfl, hb⟩
  · exact ⟨fun p _ => by rw [h], by rw [h]⟩
  · have := ((open_iff ext out w1).1 ho).1
    rw [hw] at this
    exact ⟨fun p hp => by simp [World.put, hp, hw], by simp [World.put, this]⟩

theorem jsonToSav_mid_alike {ext : Ext} {filename out : PyStr} {force : Bool} {w w' : World}
    (h : Interrupted ext (convertJsonToSavP ext filename out force) w w') : Alike out w w' := by
  obtain ⟨y, h⟩ := h
  rcases jsonToSav_mid h with h | ⟨w1, text, doc, sav, b, ha, hw, h1, h2, h3, ho, rfl, hb⟩
  · exact ⟨fun p _ => by rw [h], by rw [h]⟩
  · have := ((open_iff ext out w1).1 ho).1
    rw [hw] at this
    exact ⟨fun p hp => by simp [World.put, hp, hw], by simp [World.put, this]⟩

/-- C65: after any number of interrupted attempts, the conversion to JSON succeeds with `--force` exactly if it would
have succeeded at once, and whenever it succeeds all files are as if it had succeeded at once. -/
theorem C65_again_json (ext : Ext) (filename out : PyStr) (minify an : Bool) (keys : List PyStr) (hne : filename ≠ out) (w w' : World)
    (h : Attempts ext (fun force => convertSavToJsonP ext filename out force minify an keys) w w') :
    ((convertSavToJson ext filename out true minify an keys w').1 = .ok () ↔
      (convertSavToJson ext filename out true minify an keys w).1 = .ok ()) ∧
    ∀ force, (convertSavToJson ext filename out force minify an keys w').1 = .ok () →
      (convertSavToJson ext filename out force minify an keys w').2.fs = (convertSavToJson ext filename out true minify an keys w).2.fs := by
  have ha := attempts_alike (fun _ _ _ => savToJson_mid_alike) h
  exact ⟨⟨fun h => (savToJson_alike hne ha h).1, fun h => (savToJson_alike hne (alike_symm ha) h).1⟩,
    fun force h => (savToJson_alike hne ha h).2⟩

/-- C65: the same for the conversion to a save file. -/
theorem C65_again_sav (ext : Ext) (filename out : PyStr) (hne : filename ≠ out) (w w' : World)
    (h : Attempts ext (fun force => convertJsonToSavP ext filename out force) w w') :
    ((convertJsonToSav ext filename out true w').1 = .ok () ↔ (convertJsonToSav ext filename out true w).1 = .ok ()) ∧
    ∀ force, (convertJsonToSav ext filename out force w').1 = .ok () →
      (convertJsonToSav ext filename out force w').2.fs = (convertJsonToSav ext filename out true w).2.fs := by
  have ha := attempts_alike (fun _ _ _ => jsonToSav_mid_alike) h
  exact ⟨⟨fun h => (jsonToSav_alike hne ha h).1, fun h => (jsonToSav_alike hne (alike_symm ha) h).1⟩,
    fun force h => (jsonToSav_alike hne ha h).2⟩

/-! ### the other commands -/

theorem confirm_suffix : ∀ l : List PyStr, (confirmLoop l).2 <:+ l
  | [] => List.suffix_refl _
  | r :: t => by
    unfold confirmLoop
    split
    · exact List.suffix_cons _ _
    split
    · exact List.suffix_cons _ _
    · exact (confirm_suffix t).trans (List.suffix_cons _ _)

theorem openTrunc_replies (ext : Ext) (p : PyStr) (w : World) : (openTrunc ext p w).2.replies = w.replies := by
  rcases open_spec ext p w with ⟨e, h⟩ | h <;> rw [h]
  rfl

theorem grow_replies (p : PyStr) (x : UInt8) (w : World) : (w.grow p x).replies = w.replies := by
  unfold World.grow
  split <;> rfl

theorem steps_replies {α : Type} {ext : Ext} {x y : Prog α} {w w' : World} (h : Steps ext x w y w') : w'.replies <:+ w.replies := by
  induction h with
  | refl => exact List.suffix_refl _
  | @step x _ _ w _ _ h _ ih =>
    refine ih.trans ?_
    cases x <;> simp only [Prog.step, Option.some.injEq, Prod.mk.injEq, reduceCtorEq] at h <;> obtain ⟨rfl, rfl⟩ := h
    · exact List.suffix_refl _
    · exact List.suffix_refl _
    · exact confirm_suffix _
    · exact List.suffix_refl _
    · rw [openTrunc_replies]
    · rw [grow_replies]

/-- What has changed is in `Wr`, and was not there before, or somebody agreed. -/
def Asked (force : Bool) (Wr : PyStr → Prop) (w w' : World) : Prop :=
  ∀ p, w'.fs p ≠ w.fs p → Wr p ∧ (w.fs p = none ∨ force = true ∨ ∃ r ∈ w.replies, Yes r)

theorem asked_refl {force : Bool} {Wr : PyStr → Prop} {w w' : World} (h : w'.fs = w.fs) : Asked force Wr w w' :=
  fun p hp => absurd (by rw [h]) hp

theorem asked_mono {force : Bool} {Wr Wr' : PyStr → Prop} {w w' : World} (hm : ∀ p, Wr p → Wr' p) (h : Asked force Wr w w') :
    Asked force Wr' w w' := fun p hp => ⟨hm p (h p hp).1, (h p hp).2⟩

theorem asked_trans {force : Bool} {Wr : PyStr → Prop} {w w1 w' : World} (h : Asked force Wr w w1) (hr : w1.replies <:+ w.replies)
    (h' : Asked force Wr w1 w') : Asked force Wr w w' := by
  intro p hp
  by_cases h1 : w1.fs p = w.fs p
  · obtain ⟨a, b⟩ := h' p (by rw [h1]; exact hp)
    refine ⟨a, ?_⟩
    rcases b with b | b | ⟨r, b, c⟩
    · exact .inl (h1 ▸ b)
    · exact .inr (.inl b)
    · exact .inr (.inr ⟨r, hr.subset b, c⟩)
  · exact h p h1

theorem consents_yes {l : List PyStr} (h : Consents l) : ∃ r ∈ l, Yes r := by
  obtain ⟨pre, y, post, rfl, -, hy⟩ := h
  exact ⟨y, by simp, hy⟩

theorem asked_savToJson {ext : Ext} {filename out : PyStr} {force minify an : Bool} {keys : List PyStr} {y : Prog Unit} {w w' : World}
    (h : Steps ext (convertSavToJsonP ext filename out force minify an keys) w y w') : Asked force (· = out) w w' := by
  rcases C65_to_json ext filename out force minify an keys w w' ⟨y, h⟩ with h | ⟨h1, h2, -⟩
  · exact asked_refl h
  · intro p hp
    have : p = out := by
      by_contra hne
      exact hp (h2 p hne)
    subst this
    exact ⟨rfl, h1.imp id (Or.imp id consents_yes)⟩

theorem asked_jsonToSav {ext : Ext} {filename out : PyStr} {force : Bool} {y : Prog Unit} {w w' : World}
    (h : Steps ext (convertJsonToSavP ext filename out force) w y w') : Asked force (· = out) w w' := by
  rcases C65_to_sav ext filename out force w w' ⟨y, h⟩ with h | ⟨h1, h2, -⟩
  · exact asked_refl h
  · intro p hp
    have : p = out := by
      by_contra hne
      exact hp (h2 p hne)
    subst this
    exact ⟨rfl, h1.imp id (Or.imp id consents_yes)⟩

theorem asked_bind {α β : Type} {ext : Ext} {force : Bool} {Wr : PyStr → Prop} {x : Prog α} {f : α → Prog β} {y : Prog β} {w w' : World}
    (hx : ∀ {y w'}, Steps ext x w y w' → Asked force Wr w w') (hf : ∀ {a y w1 w'}, Steps ext (f a) w1 y w' → Asked force Wr w1 w')
    (h : Steps ext (x.bind f) w y w') : Asked force Wr w w' := by
  rcases steps_bind h rfl with ⟨x', h'⟩ | ⟨a, w1, h1, h'⟩
  · exact hx h'
  · have h2 := run_steps ext x w
    rw [h1] at h2
    exact asked_trans (hx h2) (steps_replies h2) (hf h')

theorem asked_quiet {α : Type} {ext : Ext} {force : Bool} {Wr : PyStr → Prop} {x : Prog α} (hx : x.Within (fun _ => True) (fun _ => False))
    {y : Prog α} {w w' : World} (h : Steps ext x w y w') : Asked force Wr w w' :=
  asked_refl (funext fun p => (within_steps h hx).2 p (fun h => h))

/-- C65: whenever the resave test is interrupted, only its own two files have changed, and only if they were not there
or the user agreed. -/
theorem C65_resave (ext : Ext) (input : PyStr) (w w' : World) (h : Interrupted ext (resaveMainP ext input) w w') (p : PyStr)
    (hp : w'.fs p ≠ w.fs p) :
    (p = input ++ P ".resave.json" ∨ p = input ++ P ".resave.sav") ∧ (w.fs p = none ∨ ∃ r ∈ w.replies, Yes r) := by
  obtain ⟨y, h⟩ := h
  have key : Asked false (fun q => q = input ++ P ".resave.json" ∨ q = input ++ P ".resave.sav") w w' := by
    refine asked_bind (fun h => asked_mono (fun _ h => .inl h) (asked_savToJson h)) (fun h => ?_) h
    refine asked_bind (fun h => asked_mono (fun _ h => .inr h) (asked_jsonToSav h)) (fun h => ?_) h
    refine asked_quiet ?_ h
    refine within_bind ⟨trivial, fun _ => trivial⟩ fun _ => within_bind trivial fun _ => within_bind ⟨trivial, fun _ => trivial⟩ fun _ =>
      within_bind trivial fun _ => ?_
    split <;> trivial
  obtain ⟨h1, h2⟩ := key p hp
  exact ⟨h1, h2.imp id fun h => h.elim (fun h => by cases h) id⟩

/-- C65: whenever the convert command is interrupted, only the output, given or by default, has changed, and only if it
was not there or the user agreed. -/
theorem C65_main (ext : Ext) (a : Args) (w w' : World) (h : Interrupted ext (convertMainP ext a) w w') (p : PyStr)
    (hp : w'.fs p ≠ w.fs p) :
    (p = outputOr a (a.filename ++ P ".json") ∨ p = outputOr a (removeAll (P ".json") a.filename)) ∧
      (w.fs p = none ∨ a.force = true ∨ ∃ r ∈ w.replies, Yes r) := by
  obtain ⟨y, h⟩ := h
  refine (show Asked a.force (fun q => q = outputOr a (a.filename ++ P ".json") ∨ q = outputOr a (removeAll (P ".json") a.filename)) w w'
    from ?_) p hp
  have stop : ∀ {e : Err} {y : Prog Unit} {w w' : World}, Steps ext (.done (.error e)) w y w' → w' = w := by
    intro e y w w' h
    cases h with
    | refl => rfl
    | step h _ => cases h
  unfold convertMainP at h
  split at h
  · exact asked_refl (by rw [stop h])
  cases h with
  | refl => exact asked_refl rfl
  | step h1 h =>
    simp only [Prog.step, Option.some.injEq, Prod.mk.injEq] at h1
    obtain ⟨rfl, rfl⟩ := h1
    split at h
    · exact asked_refl (by rw [stop h])
    cases h with
    | refl => exact asked_refl rfl
    | step h1 h =>
      simp only [Prog.step, Option.some.injEq, Prod.mk.injEq] at h1
      obtain ⟨h1, rfl⟩ := h1
      have hfin : ∀ {y w'}, Steps ext ((mainToJsonP ext a).bind fun _ => mainFromJsonP ext a) w y w' →
          Asked a.force (fun q => q = outputOr a (a.filename ++ P ".json") ∨ q = outputOr a (removeAll (P ".json") a.filename)) w w' := by
        intro y w' h
        refine asked_bind (fun h => ?_) (fun h => ?_) h
        · unfold mainToJsonP at h
          split at h
          · exact asked_mono (fun _ h => .inl h) (asked_savToJson h)
          · exact asked_quiet (x := .done _) trivial h
        · unfold mainFromJsonP at h
          split at h
          · exact asked_mono (fun _ h => .inr h) (asked_jsonToSav h)
          · exact asked_quiet (x := .done _) trivial h
      cases hf : w.fs a.filename with
      | none =>
        simp only [hf] at h1
        subst h1
        exact asked_refl (by rw [stop h])
      | some nd =>
        cases nd with
        | dir =>
          simp only [hf] at h1
          subst h1
          exact asked_refl (by rw [stop h])
        | file b =>
          simp only [hf] at h1
          subst h1
          exact hfin h

/-! ### what is lost -/

theorem bind_steps {α β : Type} {ext : Ext} {x : Prog α} (f : α → Prog β) : ∀ {w w' : World} {a : α}, x.run ext w = (.ok a, w') →
    Steps ext (x.bind f) w (f a) w' := by
  induction x with
  | done r =>
    intro w w' a h
    cases h
    exact .refl _ _
  | exist p k ih => exact fun h => .step rfl (ih _ h)
  | isFile p k ih => exact fun h => .step rfl (ih _ h)
  | prompt k ih => exact fun h => .step rfl (ih _ h)
  | read p k ih => exact fun h => .step rfl (ih _ h)
  | trunc p k ih => exact fun h => .step rfl (ih _ h)
  | byte p x k ih => exact fun h => .step rfl (ih h)

/-- The old contents of the output are not safe: every successful conversion to a save file passes through every
beginning of the new contents, the empty file first.  An interruption there leaves neither the old file nor the
new one. -/
theorem C65_overwrite_not_atomic (ext : Ext) (filename out : PyStr) (force : Bool) (w : World) (c : Bytes)
    (h : (convertJsonToSav ext filename out force w).1 = .ok ())
    (hc : (convertJsonToSav ext filename out force w).2.fs out = some (.file c)) (b : Bytes) (hb : b <+: c) :
    ∃ w', Interrupted ext (convertJsonToSavP ext filename out force) w w' ∧ w'.fs out = some (.file b) := by
  rw [jsonToSav_eq, io_bind] at h hc
  obtain ⟨h4, -⟩ := ask_spec out force w
  cases hk : askOverwrite out force w with
  | mk r v =>
    rw [hk] at h4 h hc
    simp only at h4 h hc
    cases r with
    | error e => cases h
    | ok u =>
      simp only at h hc
      rcases jsonToSav_cases ext filename out v with ⟨e, he'⟩ | ⟨text, doc, sav, e1, e2, e3, e4, e5⟩
      · rw [he'] at h; cases h
      rw [e5] at hc
      simp only [World.put, if_true, Option.some.injEq, Node.file.injEq] at hc
      subst hc
      obtain ⟨c', rfl⟩ := hb
      have hr : readFile filename v = (.ok text, v) := by unfold readFile; rw [e1]
      refine ⟨v.put out b, ⟨Prog.bytes out c', ?_⟩, by simp [World.put]⟩
      refine (bind_steps _ ((congrFun (run_ask ext out force) w).trans hk)).trans ?_
      refine (bind_steps _ ((congrFun (read_run ext filename) v).trans hr)).trans ?_
      refine (bind_steps _ (show (Prog.lift (ext.jload text)).run ext v = (.ok doc, v) by rw [e2]; rfl)).trans ?_
      refine (bind_steps _ (show (Prog.lift (docToSav ext doc)).run ext v = (.ok (b ++ c'), v) by rw [e3]; rfl)).trans ?_
      refine (bind_steps _ ((congrFun (trunc_run ext out) v).trans e4)).trans ?_
      exact bytes_steps' ext out v b c' []

/-! ### cases -/

theorem handOk_lost {text : Bytes} (h : handOk text = true) : ∃ w w' w'' : World, w.fs (P "a") = some (.file [1, 2, 3]) ∧
    Interrupted storeExt (convertJsonToSavP storeExt (P "a.json") (P "a") true) w w' ∧ w'.fs (P "a") = some (.file []) ∧
    Attempts storeExt (fun force => convertJsonToSavP storeExt (P "a.json") (P "a") force) w w' ∧
    (convertJsonToSav storeExt (P "a.json") (P "a") true w').1 = .ok () ∧
    convertJsonToSav storeExt (P "a.json") (P "a") true w = (.ok (), w'') ∧
    (convertJsonToSav storeExt (P "a.json") (P "a") true w').2.fs = w''.fs := by
  unfold handOk at h
  split at h
  · rename_i d hd
    split at h
    · rename_i sav hs
      let w : World := ⟨fun p => if p = P "a.json" then some (.file text) else if p = P "a" then some (.file [1, 2, 3]) else none, []⟩
      have e1 : w.fs (P "a.json") = some (.file text) := by simp only [w, if_true]
      have e2 : w.fs (P "a") = some (.file [1, 2, 3]) := by
        simp only [w, show P "a" ≠ P "a.json" by decide +kernel, if_false, if_true]
      have e3 := jsonToSav_run (ext := storeExt) (force := true) (fun _ => rfl) (text := text) e1 hd hs (.inr ⟨rfl, _, e2⟩)
      obtain ⟨w', h3, h4⟩ := C65_overwrite_not_atomic storeExt (P "a.json") (P "a") true w sav (by rw [e3]) (by rw [e3]; simp [World.put])
        [] (List.nil_prefix)
      have h5 : Attempts storeExt (fun force => convertJsonToSavP storeExt (P "a.json") (P "a") force) w w' := .more [] h3 (.none _)
      have h6 := C65_again_sav storeExt (P "a.json") (P "a") (by decide +kernel) w w' h5
      have h7 := h6.1.2 (by rw [e3])
      exact ⟨w, w', _, e2, h3, h4, h5, h7, e3, by rw [h6.2 true h7, e3]⟩
    · cases h
  · cases h

/-- C65: an interruption that leaves an empty output, and a second attempt that succeeds. -/
example : ∃ w w' w'' : World, w.fs (P "a") = some (.file [1, 2, 3]) ∧
    Interrupted storeExt (convertJsonToSavP storeExt (P "a.json") (P "a") true) w w' ∧ w'.fs (P "a") = some (.file []) ∧
    Attempts storeExt (fun force => convertJsonToSavP storeExt (P "a.json") (P "a") force) w w' ∧
    (convertJsonToSav storeExt (P "a.json") (P "a") true w').1 = .ok () ∧
    convertJsonToSav storeExt (P "a.json") (P "a") true w = (.ok (), w'') ∧
    (convertJsonToSav storeExt (P "a.json") (P "a") true w').2.fs = w''.fs := by
  exact handOk_lost (text := handText) handOk_text

/-- The assumptions on zlib in C65_sav_refused can be met. -/
example := C65_sav_refused ⟨markedZlib, pyRepr, fun _ => true⟩ marked_inverse marked_cut
/-- The assumption on `repr` in C65_json_refused can be met. -/
example := C65_json_refused ⟨markedZlib, pyRepr, fun _ => true⟩ pyRepr_law

end Pal
