import Verif.Lemmas.Steps
/-
What is in the file system while a conversion runs.
-/

namespace Pal
open Spec

/-- The program looks only at paths in `Rd` and writes only to paths in `Wr`. -/
def Prog.Within {α : Type} (Rd Wr : PyStr → Prop) : Prog α → Prop
  | .done _ => True
  | .exist p k => Rd p ∧ ∀ b, (k b).Within Rd Wr
  | .isFile p k => Rd p ∧ ∀ b, (k b).Within Rd Wr
  | .prompt k => ∀ b, (k b).Within Rd Wr
  | .read p k => Rd p ∧ ∀ b, (k b).Within Rd Wr
  | .trunc p k => Wr p ∧ ∀ b, (k b).Within Rd Wr
  | .byte p _ k => Wr p ∧ k.Within Rd Wr

theorem within_bind {α β : Type} {Rd Wr : PyStr → Prop} {x : Prog α} {f : α → Prog β} (hx : x.Within Rd Wr)
    (hf : ∀ a, (f a).Within Rd Wr) : (x.bind f).Within Rd Wr := by
  induction x with
  | done r =>
    cases r with
    | ok a => exact hf a
    | error e => trivial
  | exist p k ih => exact ⟨hx.1, fun b => ih b (hx.2 b)⟩
  | isFile p k ih => exact ⟨hx.1, fun b => ih b (hx.2 b)⟩
  | prompt k ih => exact fun b => ih b (hx b)
  | read p k ih => exact ⟨hx.1, fun b => ih b (hx.2 b)⟩
  | trunc p k ih => exact ⟨hx.1, fun b => ih b (hx.2 b)⟩
  | byte p x k ih => exact ⟨hx.1, ih hx.2⟩

theorem within_mono {α : Type} {Rd Wr Rd' Wr' : PyStr → Prop} (h1 : ∀ p, Rd p → Rd' p) (h2 : ∀ p, Wr p → Wr' p) {x : Prog α}
    (hx : x.Within Rd Wr) : x.Within Rd' Wr' := by
  induction x with
  | done r => trivial
  | exist p k ih => exact ⟨h1 _ hx.1, fun b => ih b (hx.2 b)⟩
  | isFile p k ih => exact ⟨h1 _ hx.1, fun b => ih b (hx.2 b)⟩
  | prompt k ih => exact fun b => ih b (hx b)
  | read p k ih => exact ⟨h1 _ hx.1, fun b => ih b (hx.2 b)⟩
  | trunc p k ih => exact ⟨h2 _ hx.1, fun b => ih b (hx.2 b)⟩
  | byte p x k ih => exact ⟨h2 _ hx.1, ih hx.2⟩

theorem openTrunc_other (ext : Ext) {p q : PyStr} (w : World) (h : q ≠ p) : (openTrunc ext p w).2.fs q = w.fs q := by
  rcases open_spec ext p w with ⟨e, h'⟩ | h' <;> rw [h']
  simp [World.put, h]

theorem grow_other {p q : PyStr} (w : World) (x : UInt8) (h : q ≠ p) : (w.grow p x).fs q = w.fs q := by
  unfold World.grow
  split
  · simp [World.put, h]
  · rfl

theorem within_step {α : Type} {ext : Ext} {Rd Wr : PyStr → Prop} {x y : Prog α} {w w' : World} (hx : x.Within Rd Wr)
    (h : x.step ext w = some (y, w')) : y.Within Rd Wr ∧ ∀ p, ¬ Wr p → w'.fs p = w.fs p := by
  cases x <;> simp only [Prog.step, Option.some.injEq, Prod.mk.injEq, reduceCtorEq] at h <;> obtain ⟨rfl, rfl⟩ := h
  · exact ⟨hx.2 _, fun _ _ => rfl⟩
  · exact ⟨hx.2 _, fun _ _ => rfl⟩
  · exact ⟨hx _, fun _ _ => rfl⟩
  · exact ⟨hx.2 _, fun _ _ => rfl⟩
  · exact ⟨hx.2 _, fun p hp => openTrunc_other ext w (fun e => hp (e ▸ hx.1))⟩
  · exact ⟨hx.2, fun p hp => grow_other w _ (fun e => hp (e ▸ hx.1))⟩

theorem within_steps {α : Type} {ext : Ext} {Rd Wr : PyStr → Prop} {x y : Prog α} {w w' : World} (h : Steps ext x w y w')
    (hx : x.Within Rd Wr) : y.Within Rd Wr ∧ ∀ p, ¬ Wr p → w'.fs p = w.fs p := by
  induction h with
  | refl => exact ⟨hx, fun _ _ => rfl⟩
  | step h _ ih =>
    obtain ⟨h1, h2⟩ := within_step hx h
    obtain ⟨h3, h4⟩ := ih h1
    exact ⟨h3, fun p hp => (h4 p hp).trans (h2 p hp)⟩

theorem ask_within {Rd Wr : PyStr → Prop} {out : PyStr} (h : Rd out) (force : Bool) : (askOverwriteP out force).Within Rd Wr := by
  refine ⟨h, fun b => ?_⟩
  cases b with
  | false => trivial
  | true =>
    cases force with
    | true => trivial
    | false =>
      intro c
      cases c with
      | error e => trivial
      | ok b => cases b <;> trivial

theorem bytes_within {Rd Wr : PyStr → Prop} {out : PyStr} (h : Wr out) : ∀ b, (Prog.bytes out b).Within Rd Wr
  | [] => trivial
  | _ :: t => ⟨h, bytes_within h t⟩

theorem savToJson_within (ext : Ext) (filename out : PyStr) (force minify an : Bool) (keys : List PyStr) :
    (convertSavToJsonP ext filename out force minify an keys).Within (fun p => p = filename ∨ p = out) (· = out) := by
  refine within_bind (ask_within (.inr rfl) force) fun _ => within_bind (⟨.inl rfl, fun _ => trivial⟩) fun data =>
    within_bind trivial fun x => within_bind trivial fun g => within_bind (⟨rfl, fun _ => trivial⟩) fun _ => ?_
  cases ext.jdump minify an g.dump with
  | mk b e =>
    refine within_bind (bytes_within (Wr := (· = out)) rfl _) fun _ => ?_
    cases e <;> trivial

theorem jsonToSav_within (ext : Ext) (filename out : PyStr) (force : Bool) :
    (convertJsonToSavP ext filename out force).Within (fun p => p = filename ∨ p = out) (· = out) := by
  refine within_bind (ask_within (.inr rfl) force) fun _ => within_bind (⟨.inl rfl, fun _ => trivial⟩) fun data =>
    within_bind trivial fun x => within_bind trivial fun g => within_bind (⟨rfl, fun _ => trivial⟩) fun _ => bytes_within (Wr := (· = out)) rfl _

/-! ### the output -/

/-- The program writes bytes to `out` and ends. -/
inductive Late (out : PyStr) : Prog Unit → Prop
  | done (r) : Late out (.done r)
  | byte {x k} : Late out k → Late out (.byte out x k)

theorem late_run {out : PyStr} {x : Prog Unit} (hx : Late out x) (ext : Ext) :
    ∃ c r, ∀ (b : Bytes) (w : World), x.run ext (w.put out b) = (r, w.put out (b ++ c)) := by
  induction hx with
  | done r => exact ⟨[], r, fun b w => by simp [Prog.run]⟩
  | @byte x k _ ih =>
    obtain ⟨c, r, h⟩ := ih
    refine ⟨x :: c, r, fun b w => ?_⟩
    simp only [Prog.run, put_grow]
    rw [h]
    simp

theorem late_steps {ext : Ext} {out : PyStr} {x y : Prog Unit} {w1 w' : World} (h : Steps ext x w1 y w') :
    ∀ {w : World} {b : Bytes}, Late out x → w1 = w.put out b → ∃ b', Late out y ∧ w' = w.put out b' := by
  induction h with
  | refl => exact fun hx e => ⟨_, hx, e⟩
  | step h _ ih =>
    intro w b hx e
    subst e
    cases hx with
    | done r => cases h
    | byte hk =>
      simp only [Prog.step, Option.some.injEq, Prod.mk.injEq] at h
      obtain ⟨rfl, rfl⟩ := h
      exact ih hk (put_grow _ _ _ _)

theorem bytes_late (out : PyStr) {k : Prog Unit} (hk : Late out k) : ∀ b, Late out ((Prog.bytes out b).bind fun _ => k)
  | [] => hk
  | _ :: t => .byte (bytes_late out hk t)

theorem bytes_late' (out : PyStr) : ∀ b, Late out (Prog.bytes out b)
  | [] => .done _
  | _ :: t => .byte (bytes_late' out t)

/-- In the middle of two things. -/
theorem steps_bind {α β : Type} {ext : Ext} {z : Prog β} {w w' : World} {y : Prog β} (h : Steps ext z w y w') :
    ∀ {x : Prog α} {f : α → Prog β}, z = x.bind f →
    (∃ x', Steps ext x w x' w') ∨ ∃ a w1, x.run ext w = (.ok a, w1) ∧ Steps ext (f a) w1 y w' := by
  induction h with
  | refl => exact fun _ => .inl ⟨_, .refl _ _⟩
  | @step z1 z2 z3 w w1 w2 h hs ih =>
    intro x f e
    subst e
    cases x with
    | done r =>
      cases r with
      | error e => cases h
      | ok a => exact .inr ⟨a, w, rfl, .step h hs⟩
    | _ =>
      simp only [Prog.bind, Prog.step, Option.some.injEq, Prod.mk.injEq] at h
      obtain ⟨rfl, rfl⟩ := h
      rcases ih rfl with ⟨x', h'⟩ | ⟨a, w3, h1, h2⟩
      · exact .inl ⟨x', .step rfl h'⟩
      · exact .inr ⟨a, w3, h1, h2⟩

/-- In the middle of two things, the first of which writes nothing. -/
theorem steps_quiet {α β : Type} {ext : Ext} {x : Prog α} {f : α → Prog β} {w w' : World} {y : Prog β}
    (hx : x.Within (fun _ => True) (fun _ => False)) (h : Steps ext (x.bind f) w y w') :
    w'.fs = w.fs ∨ ∃ a w1, x.run ext w = (.ok a, w1) ∧ Steps ext (f a) w1 y w' := by
  rcases steps_bind h rfl with ⟨x', h'⟩ | h'
  · exact .inl (funext fun p => (within_steps h' hx).2 p (fun h => h))
  · exact .inr h'

/-- In the middle of opening and writing: the output has not changed, or holds the beginning of what is written. -/
theorem steps_out {ext : Ext} {out : PyStr} {k : Prog Unit} (hk : Late out k) {w w' : World} {y : Prog Unit} {c : Bytes} {r : Except Err Unit}
    (hc : k.run ext (w.put out []) = (r, w.put out c))
    (h : Steps ext ((Prog.trunc out .done).bind fun _ => k) w y w') :
    w'.fs = w.fs ∨ (openTrunc ext out w = (.ok (), w.put out []) ∧ ∃ b, w' = w.put out b ∧ b <+: c) := by
  rcases open_spec ext out w with ⟨e, ho⟩ | ho
  · left
    cases h with
    | refl => rfl
    | step h hs =>
      simp only [Prog.bind, Prog.step, ho, Option.some.injEq, Prod.mk.injEq] at h
      obtain ⟨rfl, rfl⟩ := h
      cases hs with
      | refl => rfl
      | step h _ => cases h
  · cases h with
    | refl => exact .inl rfl
    | step h hs =>
      simp only [Prog.bind, Prog.step, ho, Option.some.injEq, Prod.mk.injEq] at h
      obtain ⟨rfl, rfl⟩ := h
      obtain ⟨b, h1, rfl⟩ := late_steps hs hk rfl
      refine .inr ⟨ho, b, rfl, ?_⟩
      obtain ⟨c', r', h2⟩ := late_run h1 ext
      have h3 := hs.run
      rw [hc, h2] at h3
      have h4 := congrArg (fun x => x.2.fs out) h3
      simp only [World.put, if_true, Option.some.injEq, Node.file.injEq] at h4
      exact ⟨c', h4.symm⟩

theorem savToJson_mid {ext : Ext} {filename out : PyStr} {force minify an : Bool} {keys : List PyStr} {y : Prog Unit} {w w' : World}
    (h : Steps ext (convertSavToJsonP ext filename out force minify an keys) w y w') :
    w'.fs = w.fs ∨ ∃ w1 data raw ty g b, askOverwrite out force w = (.ok (), w1) ∧ w1.fs = w.fs ∧ w.fs filename = some (.file data) ∧
      decompressSav ext.z data = .ok (raw, ty) ∧ gvasRead (palCfg (selects keys) an) raw = .ok g ∧
      openTrunc ext out w1 = (.ok (), w1.put out []) ∧ w' = w1.put out b ∧ b <+: (ext.jdump minify an g.dump).1 := by
  rcases steps_quiet (ask_within trivial force) h with h | ⟨_, w1, h1, h⟩
  · exact .inl h
  rw [run_ask] at h1
  obtain ⟨hw, -⟩ := ask_spec out force w
  rw [h1] at hw
  simp only at hw
  rcases steps_quiet (x := Prog.read filename .done) ⟨trivial, fun _ => trivial⟩ h with h | ⟨data, w2, h2, h⟩
  · exact .inl (h.trans hw)
  rw [read_run] at h2
  rcases read_spec filename w1 with ⟨e, h3⟩ | ⟨data', h3, h4⟩
  · rw [h3] at h2; cases h2
  rw [h4] at h2
  cases h2
  rcases steps_quiet (x := Prog.lift _) trivial h with h | ⟨x, w2, h5, h⟩
  · exact .inl (h.trans hw)
  rw [lift_run, ioLift] at h5
  obtain ⟨h5, rfl⟩ := Prod.mk.inj h5
  rcases steps_quiet (x := Prog.lift _) trivial h with h | ⟨g, w2, h6, h⟩
  · exact .inl (h.trans hw)
  rw [lift_run, ioLift] at h6
  obtain ⟨h6, rfl⟩ := Prod.mk.inj h6
  have key : ∀ b e, w'.fs = w1.fs ∨ (openTrunc ext out w1 = (.ok (), w1.put out []) ∧ ∃ b', w' = w1.put out b' ∧ b' <+: b) ∨
      ¬ Steps ext ((Prog.trunc out .done).bind fun _ => (Prog.bytes out b).bind fun _ => .done e) w1 y w' := by
    intro b e
    by_cases hs : Steps ext ((Prog.trunc out .done).bind fun _ => (Prog.bytes out b).bind fun _ => .done e) w1 y w'
    · rcases steps_out (r := e) (c := b) (bytes_late out (.done e) b) (by
        rw [run_bind]
        unfold IOm.bind
        rw [run_bytes]
        rfl) hs with h | h
      · exact .inl h
      · exact .inr (.inl h)
    · exact .inr (.inr hs)
  cases hj : ext.jdump minify an g.dump with
  | mk b e =>
    have hs : ∃ r, Steps ext ((Prog.trunc out .done).bind fun _ => (Prog.bytes out b).bind fun _ => .done r) w1 y w' := by
      simp only [hj] at h
      cases e with
      | none => exact ⟨_, h⟩
      | some e => exact ⟨_, h⟩
    obtain ⟨r, hs⟩ := hs
    rcases key b r with h | ⟨ho, b', h, h'⟩ | h
    · exact .inl (h.trans hw)
    · exact .inr ⟨w1, data, x.1, x.2, g, b', h1, hw, hw ▸ h3, (Prod.mk.inj h5).1, (Prod.mk.inj h6).1, ho, h, by rw [hj]; exact h'⟩
    · exact absurd hs h

theorem jsonToSav_mid {ext : Ext} {filename out : PyStr} {force : Bool} {y : Prog Unit} {w w' : World}
    (h : Steps ext (convertJsonToSavP ext filename out force) w y w') :
    w'.fs = w.fs ∨ ∃ w1 text doc sav b, askOverwrite out force w = (.ok (), w1) ∧ w1.fs = w.fs ∧ w.fs filename = some (.file text) ∧
      ext.jload text = .ok doc ∧ docToSav ext doc = .ok sav ∧
      openTrunc ext out w1 = (.ok (), w1.put out []) ∧ w' = w1.put out b ∧ b <+: sav := by
  rcases steps_quiet (ask_within trivial force) h with h | ⟨_, w1, h1, h⟩
  · exact .inl h
  rw [run_ask] at h1
  obtain ⟨hw, -⟩ := ask_spec out force w
  rw [h1] at hw
  simp only at hw
  rcases steps_quiet (x := Prog.read filename .done) ⟨trivial, fun _ => trivial⟩ h with h | ⟨text, w2, h2, h⟩
  · exact .inl (h.trans hw)
  rw [read_run] at h2
  rcases read_spec filename w1 with ⟨e, h3⟩ | ⟨text', h3, h4⟩
  · rw [h3] at h2; cases h2
  rw [h4] at h2
  cases h2
  rcases steps_quiet (x := Prog.lift _) trivial h with h | ⟨doc, w2, h5, h⟩
  · exact .inl (h.trans hw)
  rw [lift_run, ioLift] at h5
  obtain ⟨h5, rfl⟩ := Prod.mk.inj h5
  rcases steps_quiet (x := Prog.lift _) trivial h with h | ⟨sav, w2, h6, h⟩
  · exact .inl (h.trans hw)
  rw [lift_run, ioLift] at h6
  obtain ⟨h6, rfl⟩ := Prod.mk.inj h6
  rcases steps_out (r := .ok ()) (c := sav) (bytes_late' out sav) (run_bytes ext out sav [] w1) h with h | ⟨ho, b, h, h'⟩
  · exact .inl (h.trans hw)
  · exact .inr ⟨w1, text, doc, sav, b, h1, hw, hw ▸ h3, (Prod.mk.inj h5).1, (Prod.mk.inj h6).1, ho, h, h'⟩

/-- Every beginning of what is written is there at some moment. -/
theorem bytes_steps' (ext : Ext) (out : PyStr) (w : World) : ∀ (b c a : Bytes),
    Steps ext (Prog.bytes out (b ++ c)) (w.put out a) (Prog.bytes out c) (w.put out (a ++ b))
  | [], c, a => by
    rw [List.nil_append, List.append_nil]
    exact .refl _ _
  | x :: b, c, a => by
    refine .step (y := Prog.bytes out (b ++ c)) (w' := w.put out (a ++ [x])) ?_ ?_
    · simp only [List.cons_append, Prog.bytes, Prog.step, put_grow]
    · have := bytes_steps' ext out w b c (a ++ [x])
      rwa [List.append_assoc] at this

end Pal
