import Verif.Model.Steps
import Verif.Props.Cli
/-
Complete runs of the programs of `Model/Steps`, and what holds in the states in between.
-/

namespace Pal
open Spec

/-- A complete run. -/
def Prog.run {α : Type} (ext : Ext) : Prog α → World → Except Err α × World
  | .done r, w => (r, w)
  | .exist p k, w => (k (w.fs p).isSome).run ext w
  | .isFile p k, w => (k (match w.fs p with
      | some (.file _) => true
      | _ => false)).run ext w
  | .prompt k, w => (k (confirmLoop w.replies).1).run ext { w with replies := (confirmLoop w.replies).2 }
  | .read p k, w => (k (readFile p w).1).run ext w
  | .trunc p k, w => (k (openTrunc ext p w).1).run ext (openTrunc ext p w).2
  | .byte p x k, w => k.run ext (w.grow p x)

theorem step_run {α : Type} {ext : Ext} {x y : Prog α} {w w' : World} (h : x.step ext w = some (y, w')) : x.run ext w = y.run ext w' := by
  cases x <;> simp only [Prog.step, Option.some.injEq, Prod.mk.injEq, reduceCtorEq] at h <;> obtain ⟨rfl, rfl⟩ := h <;> rfl

theorem Steps.run {α : Type} {ext : Ext} {x y : Prog α} {w w' : World} (h : Steps ext x w y w') : x.run ext w = y.run ext w' := by
  induction h with
  | refl => rfl
  | step h _ ih => exact (step_run h).trans ih

theorem Steps.trans {α : Type} {ext : Ext} {x y z : Prog α} {w w' w'' : World} (h : Steps ext x w y w') (h' : Steps ext y w' z w'') :
    Steps ext x w z w'' := by
  induction h with
  | refl => exact h'
  | step h _ ih => exact .step h (ih h')

/-- Every program gets to its end. -/
theorem run_steps {α : Type} (ext : Ext) (x : Prog α) : ∀ w, Steps ext x w (.done (x.run ext w).1) (x.run ext w).2 := by
  induction x with
  | done r => exact fun w => .refl _ _
  | exist p k ih => exact fun w => .step rfl (ih _ w)
  | isFile p k ih => exact fun w => .step rfl (ih _ w)
  | prompt k ih => exact fun w => .step rfl (ih _ _)
  | read p k ih => exact fun w => .step rfl (ih _ w)
  | trunc p k ih => exact fun w => .step rfl (ih _ _)
  | byte p x k ih => exact fun w => .step rfl (ih _)

/-- The end of a program is that of its complete run. -/
theorem steps_done {α : Type} {ext : Ext} {x : Prog α} {w w' : World} {r : Except Err α} :
    Steps ext x w (.done r) w' ↔ x.run ext w = (r, w') := by
  constructor
  · intro h; exact h.run
  · intro h
    have := run_steps ext x w
    rwa [h] at this

theorem run_bind {α β : Type} (ext : Ext) (x : Prog α) (f : α → Prog β) :
    ∀ w, (x.bind f).run ext w = (IOm.bind (x.run ext) fun a => (f a).run ext) w := by
  induction x with
  | done r => intro w; cases r <;> rfl
  | exist p k ih => exact fun w => ih _ w
  | isFile p k ih => exact fun w => ih _ w
  | prompt k ih => exact fun w => ih _ _
  | read p k ih => exact fun w => ih _ w
  | trunc p k ih => exact fun w => ih _ _
  | byte p x k ih => exact fun w => ih _

theorem run_bind' {α β : Type} (ext : Ext) (x : Prog α) (f : α → Prog β) :
    (x >>= f).run ext = bind (m := IOm) (x.run ext) fun a => (f a).run ext := funext (run_bind ext x f)

theorem world_put_put (w : World) (p : PyStr) (a b : Bytes) : (w.put p a).put p b = w.put p b := by
  unfold World.put
  congr 1
  funext q
  dsimp only
  split <;> rfl

theorem put_grow (w : World) (p : PyStr) (b : Bytes) (x : UInt8) : (w.put p b).grow p x = w.put p (b ++ [x]) := by
  unfold World.grow
  rw [show (w.put p b).fs p = some (.file b) by simp [World.put]]
  exact world_put_put _ _ _ _

theorem run_bytes (ext : Ext) (p : PyStr) (b : Bytes) : ∀ (a : Bytes) (w : World),
    (Prog.bytes p b).run ext (w.put p a) = (.ok (), w.put p (a ++ b)) := by
  induction b with
  | nil => intro a w; simp [Prog.bytes, Prog.run]
  | cons x t ih =>
    intro a w
    simp only [Prog.bytes, Prog.run]
    rw [put_grow, ih]
    simp

theorem run_ask (ext : Ext) (out : PyStr) (force : Bool) : (askOverwriteP out force).run ext = askOverwrite out force := by
  funext w
  unfold askOverwriteP askOverwrite
  simp only [Prog.run, io_bind, pathExists]
  cases (w.fs out).isSome with
  | false => rfl
  | true =>
    cases force with
    | true => rfl
    | false =>
      simp only [if_true, Prog.run, io_bind, confirmPrompt, Bool.false_eq_true, if_false]
      cases (confirmLoop w.replies).1 with
      | error e => rfl
      | ok b => cases b <;> rfl

theorem read_run (ext : Ext) (p : PyStr) : (Prog.read p .done).run ext = readFile p := by
  funext w
  simp only [Prog.run]
  unfold readFile
  cases w.fs p with
  | none => rfl
  | some nd => cases nd <;> rfl

theorem trunc_run (ext : Ext) (p : PyStr) : (Prog.trunc p .done).run ext = openTrunc ext p := rfl

theorem lift_run {α : Type} (ext : Ext) (x : Except Err α) : (Prog.lift x).run ext = ioLift x := rfl

/-- Opening and writing. -/
theorem run_out (ext : Ext) (out : PyStr) (b : Bytes) (k : IOm Unit) (w : World) :
    (bind (m := IOm) (openTrunc ext out) fun _ => bind (m := IOm) ((Prog.bytes out b).run ext) fun _ => k) w =
    (bind (m := IOm) (openTrunc ext out) fun _ => bind (m := IOm) (writeOut out b) fun _ => k) w := by
  rcases open_spec ext out w with ⟨e, h⟩ | h
  · simp only [io_bind, h]
  · have h1 := run_bytes ext out b [] w
    rw [List.nil_append] at h1
    simp only [io_bind, h, h1, writeOut, world_put_put]

/-- The complete runs are those of `Model/Cli`. -/
theorem run_savToJson (ext : Ext) (filename out : PyStr) (force minify an : Bool) (keys : List PyStr) :
    (convertSavToJsonP ext filename out force minify an keys).run ext = convertSavToJson ext filename out force minify an keys := by
  unfold convertSavToJsonP convertSavToJson
  simp only [run_bind', run_ask, read_run, trunc_run, lift_run]
  congr 1; funext _; congr 1; funext data; congr 1; funext x; congr 1; funext g
  funext w
  cases ext.jdump minify an g.dump with
  | mk b e =>
    cases e with
    | none => exact run_out ext out b (pure ()) w
    | some e => exact run_out ext out b (ioFail e) w

theorem run_jsonToSav (ext : Ext) (filename out : PyStr) (force : Bool) :
    (convertJsonToSavP ext filename out force).run ext = convertJsonToSav ext filename out force := by
  unfold convertJsonToSavP convertJsonToSav
  simp only [run_bind', run_ask, read_run, trunc_run, lift_run]
  congr 1; funext _; congr 1; funext data; congr 1; funext x; congr 1; funext g
  funext w
  have := run_out ext out g (pure ()) w
  have e : ∀ x : IOm Unit, (x >>= fun _ => (pure () : IOm Unit)) = x := by
    intro x
    funext w
    rw [io_bind]
    cases h : x w with
    | mk r w' => cases r <;> rfl
  rw [e, e] at this
  exact this

theorem run_main (ext : Ext) (a : Args) : (convertMainP ext a).run ext = convertMain ext a := by
  have h1 : (mainToJsonP ext a).run ext = mainToJson ext a := by
    unfold mainToJsonP mainToJson
    split
    · exact run_savToJson _ _ _ _ _ _ _
    · rfl
  have h2 : (mainFromJsonP ext a).run ext = mainFromJson ext a := by
    unfold mainFromJsonP mainFromJson
    split
    · exact run_jsonToSav _ _ _ _
    · rfl
  funext w
  unfold convertMainP convertMain
  split
  · rfl
  · simp only [Prog.run, io_bind, pathExists]
    cases (w.fs a.filename).isSome with
    | false => rfl
    | true =>
      simp only [Bool.not_true, Bool.false_eq_true, if_false, Prog.run, io_bind, pathIsFile]
      cases hf : w.fs a.filename with
      | none => rfl
      | some nd =>
        cases nd with
        | dir => rfl
        | file b =>
          simp only [Bool.not_true, Bool.false_eq_true, if_false]
          rw [run_bind', h1, h2]

theorem run_resave (ext : Ext) (input : PyStr) : (resaveMainP ext input).run ext = resaveMain ext input := by
  unfold resaveMainP resaveMain
  simp only [run_bind', run_savToJson, run_jsonToSav, read_run, lift_run]
  congr 1; funext _; congr 1; funext _; congr 1; funext ib; congr 1; funext o; congr 1; funext ob; congr 1; funext r
  split <;> rfl

end Pal
