import Verif.Props.Interrupt
import Mathlib.Data.DFinsupp.WellFounded
/-
C66: conversions that run at the same time.
-/

namespace Pal
open Spec

/-- A step sees and changes only what the program is said to access. -/
theorem step_local {α : Type} {ext : Ext} {Rd Wr : PyStr → Prop} {x y : Prog α} {u v w : World} (hx : x.Within Rd Wr)
    (hr : v.replies = u.replies) (hfs : ∀ p, Rd p ∨ Wr p → v.fs p = u.fs p) (h : x.step ext u = some (y, w)) :
    ∃ v', x.step ext v = some (y, v') ∧ v'.replies = w.replies ∧ (∀ p, Rd p ∨ Wr p → v'.fs p = w.fs p) := by
  cases x with
  | done r => cases h
  | exist p k =>
    simp only [Prog.step, Option.some.injEq, Prod.mk.injEq] at h ⊢
    obtain ⟨rfl, rfl⟩ := h
    exact ⟨v, ⟨by rw [hfs p (.inl hx.1)], rfl⟩, hr, hfs⟩
  | isFile p k =>
    simp only [Prog.step, Option.some.injEq, Prod.mk.injEq] at h ⊢
    obtain ⟨rfl, rfl⟩ := h
    exact ⟨v, ⟨by rw [hfs p (.inl hx.1)], rfl⟩, hr, hfs⟩
  | prompt k =>
    simp only [Prog.step, Option.some.injEq, Prod.mk.injEq] at h ⊢
    obtain ⟨rfl, rfl⟩ := h
    exact ⟨{ v with replies := (confirmLoop v.replies).2 }, ⟨by rw [hr], rfl⟩, by rw [hr], hfs⟩
  | read p k =>
    simp only [Prog.step, Option.some.injEq, Prod.mk.injEq] at h ⊢
    obtain ⟨rfl, rfl⟩ := h
    refine ⟨v, ⟨?_, rfl⟩, hr, hfs⟩
    congr 1
    unfold readFile
    rw [hfs p (.inl hx.1)]
    cases u.fs p with
    | none => rfl
    | some nd => cases nd <;> rfl
  | trunc p k =>
    simp only [Prog.step, Option.some.injEq, Prod.mk.injEq] at h ⊢
    obtain ⟨rfl, rfl⟩ := h
    have hp := hfs p (.inr hx.1)
    rcases open_spec ext p u with ⟨e, h⟩ | h
    · have h' : openTrunc ext p v = (.error e, v) := by
        unfold openTrunc at h ⊢
        rw [hp]
        revert h
        cases u.fs p with
        | none => cases ext.canCreate p <;> simp
        | some nd => cases nd <;> cases ext.canCreate p <;> simp
      rw [h, h']
      exact ⟨v, ⟨rfl, rfl⟩, hr, hfs⟩
    · have h' : openTrunc ext p v = (.ok (), v.put p []) := by
        rw [open_iff] at h ⊢
        rw [hp]
        exact h
      rw [h, h']
      refine ⟨_, ⟨rfl, rfl⟩, hr, fun q hq => ?_⟩
      simp only [World.put]
      split
      · rfl
      · exact hfs q hq
  | byte p b k =>
    simp only [Prog.step, Option.some.injEq, Prod.mk.injEq] at h ⊢
    obtain ⟨rfl, rfl⟩ := h
    refine ⟨_, ⟨rfl, rfl⟩, by rw [grow_replies, grow_replies, hr], fun q hq => ?_⟩
    unfold World.grow
    rw [hfs p (.inr hx.1)]
    split
    · simp only [World.put]
      split
      · rfl
      · exact hfs q hq
    · exact hfs q hq

theorem job_within (ext : Ext) (j : Job) : (j.prog ext).Within (fun p => p = j.input ∨ p = j.output) (· = j.output) := by
  cases j with
  | toJson => exact savToJson_within ext _ _ _ _ _ _
  | toSav => exact jsonToSav_within ext _ _ _

theorem job_run (ext : Ext) (j : Job) : (j.prog ext).run ext = j.alone ext := by
  cases j with
  | toJson => exact run_savToJson ext _ _ _ _ _ _
  | toSav => exact run_jsonToSav ext _ _ _

/-- No output is the input or the output of another job. -/
def Apart {ι : Type} (jobs : ι → Job) : Prop :=
  ∀ i j, i ≠ j → (jobs i).output ≠ (jobs j).output ∧ (jobs i).output ≠ (jobs j).input

/-- What each job has done is what it does on its own. -/
def AsAlone {ι : Type} (ext : Ext) (jobs : ι → Job) (fs : PyStr → Option Node) (replies : ι → List PyStr) (s : Procs ι) : Prop :=
  (∀ i, ∃ v : World, Steps ext ((jobs i).prog ext) ⟨fs, replies i⟩ (s.st i).1 v ∧ v.replies = (s.st i).2 ∧
    ∀ p, p = (jobs i).input ∨ p = (jobs i).output → v.fs p = s.fs p) ∧
  ∀ p, (∀ i, p ≠ (jobs i).output) → s.fs p = fs p

theorem asAlone_step {ι : Type} {ext : Ext} {jobs : ι → Job} (ha : Apart jobs) {fs : PyStr → Option Node} {replies : ι → List PyStr}
    {s t : Procs ι} (h : AsAlone ext jobs fs replies s) (ht : Procs.Step ext s t) : AsAlone ext jobs fs replies t := by
  obtain ⟨h1, h2⟩ := h
  cases ht with
  | @mk i y w hs =>
    obtain ⟨v, h3, h4, h5⟩ := h1 i
    have hw := (within_steps h3 (job_within ext (jobs i))).1
    obtain ⟨v', h6, h7, h8⟩ := step_local (v := v) hw h4
      (fun p hp => h5 p (hp.elim id .inr)) hs
    have hq : ∀ p, p ≠ (jobs i).output → w.fs p = s.fs p := (within_step hw hs).2
    refine ⟨fun j => ?_, fun p hp => ?_⟩
    · by_cases hj : j = i
      · subst hj
        simp only [if_true]
        exact ⟨v', h3.trans (.step h6 (.refl _ _)), h7, fun p hp => h8 p (.inl hp)⟩
      · simp only [hj, if_false]
        obtain ⟨u, h9, h10, h11⟩ := h1 j
        refine ⟨u, h9, h10, fun p hp => (h11 p hp).trans (hq p ?_).symm⟩
        have := ha i j (Ne.symm hj)
        rcases hp with rfl | rfl
        · exact this.2.symm
        · exact this.1.symm
    · exact (hq p (hp i)).trans (h2 p hp)

theorem asAlone_runs {ι : Type} {ext : Ext} {jobs : ι → Job} (ha : Apart jobs) {fs : PyStr → Option Node} {replies : ι → List PyStr}
    {t : Procs ι} (h : Procs.Runs ext (.start ext jobs fs replies) t) : AsAlone ext jobs fs replies t := by
  induction h with
  | refl => exact ⟨fun i => ⟨⟨fs, replies i⟩, .refl _ _, rfl, fun _ _ => rfl⟩, fun _ _ => rfl⟩
  | step _ h ih => exact asAlone_step ha ih h

/-- C66: conversions run at the same time, in any order of their steps, none of which writes what another one reads or
writes.  Then at any moment no file has changed but their outputs, and each job that has ended has ended with the
result, and has left in its output what it would have on its own. -/
theorem C66_apart {ι : Type} (ext : Ext) (jobs : ι → Job) (ha : Apart jobs) (fs : PyStr → Option Node) (replies : ι → List PyStr)
    (s : Procs ι) (h : Procs.Runs ext (.start ext jobs fs replies) s) :
    (∀ p, (∀ i, p ≠ (jobs i).output) → s.fs p = fs p) ∧
    ∀ i r, (s.st i).1 = .done r →
      r = ((jobs i).alone ext ⟨fs, replies i⟩).1 ∧ s.fs (jobs i).output = ((jobs i).alone ext ⟨fs, replies i⟩).2.fs (jobs i).output := by
  obtain ⟨h1, h2⟩ := asAlone_runs ha h
  refine ⟨h2, fun i r hr => ?_⟩
  obtain ⟨v, h3, -, h4⟩ := h1 i
  rw [hr, steps_done, job_run] at h3
  rw [h3]
  exact ⟨rfl, (h4 _ (.inr rfl)).symm⟩

/-- C66: so whatever the schedule, in the end all files and results are the same. -/
theorem C66_schedule_irrelevant {ι : Type} (ext : Ext) (jobs : ι → Job) (ha : Apart jobs) (fs : PyStr → Option Node)
    (replies : ι → List PyStr) (s t : Procs ι) (hs : Procs.Runs ext (.start ext jobs fs replies) s)
    (ht : Procs.Runs ext (.start ext jobs fs replies) t) (ds : ∀ i, ∃ r, (s.st i).1 = .done r) (dt : ∀ i, ∃ r, (t.st i).1 = .done r) :
    s.fs = t.fs ∧ ∀ i, (s.st i).1 = (t.st i).1 := by
  obtain ⟨a1, a2⟩ := C66_apart ext jobs ha fs replies s hs
  obtain ⟨b1, b2⟩ := C66_apart ext jobs ha fs replies t ht
  refine ⟨funext fun p => ?_, fun i => ?_⟩
  · by_cases hp : ∃ i, p = (jobs i).output
    · obtain ⟨i, rfl⟩ := hp
      obtain ⟨r, hr⟩ := ds i
      obtain ⟨r', hr'⟩ := dt i
      rw [(a2 i r hr).2, (b2 i r' hr').2]
    · have hp' : ∀ i, p ≠ (jobs i).output := fun i h => hp ⟨i, h⟩
      rw [a1 p hp', b1 p hp']
  · obtain ⟨r, hr⟩ := ds i
    obtain ⟨r', hr'⟩ := dt i
    rw [hr, hr', (a2 i r hr).1, (b2 i r' hr').1]

/-! ### every schedule ends -/

/-- A job that has not ended can go on. -/
theorem C66_no_deadlock {ι : Type} (ext : Ext) (s : Procs ι) (i : ι) (h : ∀ r, (s.st i).1 ≠ .done r) : ∃ t, Procs.Step ext s t := by
  have : ∃ y w, (s.st i).1.step ext ⟨s.fs, (s.st i).2⟩ = some (y, w) := by
    cases hx : (s.st i).1 with
    | done r => exact absurd hx (h r)
    | _ => exact ⟨_, _, rfl⟩
  obtain ⟨y, w, h⟩ := this
  exact ⟨_, .mk s i h⟩

/-- `y` is what `x` becomes by a step. -/
def Next (y x : Prog Unit) : Prop := ∃ ext w w', x.step ext w = some (y, w')

theorem next_wf : WellFounded Next := by
  refine ⟨fun x => ?_⟩
  induction x with
  | done r => exact ⟨_, fun y ⟨_, _, _, h⟩ => by cases h⟩
  | byte p b k ih =>
    refine ⟨_, fun y ⟨_, _, _, h⟩ => ?_⟩
    simp only [Prog.step, Option.some.injEq, Prod.mk.injEq] at h
    exact h.1 ▸ ih
  | _ _ =>
    rename_i ih
    refine ⟨_, fun y ⟨_, _, _, h⟩ => ?_⟩
    simp only [Prog.step, Option.some.injEq, Prod.mk.injEq] at h
    exact h.1 ▸ ih _

/-- C66: whatever the schedule, any number of jobs, apart or not, comes to an end. -/
theorem C66_ends (n : Nat) (ext : Ext) (f : Nat → Procs (Fin n)) : ¬ ∀ k, Procs.Step ext (f k) (f (k + 1)) := by
  intro h
  have wf : WellFounded (Pi.Lex (fun a b : Fin n => a < b) (fun {_} => Next)) := Pi.Lex.wellFounded _ fun _ => next_wf
  have dec : ∀ k, Pi.Lex (fun a b : Fin n => a < b) (fun {_} => Next) (fun i => ((f (k + 1)).st i).1) (fun i => ((f k).st i).1) := by
    intro k
    have hk := h k
    generalize f (k + 1) = t at hk
    cases hk with
    | @mk i y w hs =>
      refine ⟨i, fun j hj => ?_, ?_⟩
      · simp only [ne_of_lt hj, if_false]
      · simp only [if_true]
        exact ⟨ext, _, _, hs⟩
  have acc := wf.apply fun i => ((f 0).st i).1
  have key : ∀ x, Acc (Pi.Lex (fun a b : Fin n => a < b) (fun {_} => Next)) x → ∀ k, x ≠ fun i => ((f k).st i).1 := by
    intro x hx
    induction hx with
    | intro x _ ih =>
      intro k hk
      subst hk
      exact ih _ (dec k) (k + 1) rfl
  exact key _ acc 0 rfl

theorem Procs.Runs.trans {ι : Type} {ext : Ext} {s t u : Procs ι} (h : Runs ext s t) (h' : Runs ext t u) : Runs ext s u := by
  induction h' with
  | refl => exact h
  | step _ h ih => exact .step ih h

/-- C66: there is a schedule that completes all jobs. -/
theorem C66_completes (n : Nat) (ext : Ext) (s : Procs (Fin n)) : ∃ t, Procs.Runs ext s t ∧ ∀ i, ∃ r, (t.st i).1 = .done r := by
  by_contra hno
  have go : ∀ t : { t : Procs (Fin n) // Procs.Runs ext s t }, ∃ u : { t : Procs (Fin n) // Procs.Runs ext s t }, Procs.Step ext t.1 u.1 := by
    rintro ⟨t, ht⟩
    have : ¬ ∀ i, ∃ r, (t.st i).1 = .done r := fun h => hno ⟨t, ht, h⟩
    obtain ⟨i, hi⟩ := not_forall.1 this
    obtain ⟨u, hu⟩ := C66_no_deadlock ext t i (fun r h => hi ⟨r, h⟩)
    exact ⟨⟨u, .step ht hu⟩, hu⟩
  choose nx hnx using go
  refine C66_ends n ext (fun k => (Nat.rec (motive := fun _ => { t : Procs (Fin n) // Procs.Runs ext s t }) ⟨s, .refl s⟩ (fun _ => nx) k).1) ?_
  intro k
  exact hnx _

/-! ### a case -/

/-- Two conversions. -/
def twoJobs (i : Fin 2) : Job := if i = 0 then .toSav (P "a.json") (P "a") false else .toSav (P "b.json") (P "b") false

theorem handOk_both {text : Bytes} (h : handOk text = true) : ∃ (fs : PyStr → Option Node) (s : Procs (Fin 2)) (sav : Bytes),
    Procs.Runs storeExt (.start storeExt twoJobs fs fun _ => []) s ∧
    (∀ i, (s.st i).1 = .done (.ok ())) ∧ s.fs (P "a") = some (.file sav) ∧ s.fs (P "b") = some (.file sav) := by
  unfold handOk at h
  split at h
  · rename_i d hd
    split at h
    · rename_i sav hs
      let fs : PyStr → Option Node := fun p => if p = P "a.json" ∨ p = P "b.json" then some (.file text) else none
      have ap : Apart twoJobs := by
        intro i j hij
        have : (i = 0 ∧ j = 1) ∨ (i = 1 ∧ j = 0) := by omega
        rcases this with ⟨rfl, rfl⟩ | ⟨rfl, rfl⟩
        · exact ⟨show P "a" ≠ P "b" by decide +kernel, show P "a" ≠ P "b.json" by decide +kernel⟩
        · exact ⟨show P "b" ≠ P "a" by decide +kernel, show P "b" ≠ P "a.json" by decide +kernel⟩
      obtain ⟨s, h1, h2⟩ := C66_completes 2 storeExt
        (.start storeExt twoJobs fs fun _ => [])
      obtain ⟨-, h3⟩ := C66_apart storeExt _ ap fs (fun _ => []) s h1
      have ea := jsonToSav_run (ext := storeExt) (force := false) (fun _ => rfl) (x := P "a.json") (out := P "a") (text := text)
        (w := ⟨fs, []⟩) (by simp only [fs, true_or, if_true]) hd hs (.inl (by
          simp only [fs, show ¬ (P "a" = P "a.json" ∨ P "a" = P "b.json") by decide +kernel, if_false]))
      have eb := jsonToSav_run (ext := storeExt) (force := false) (fun _ => rfl) (x := P "b.json") (out := P "b") (text := text)
        (w := ⟨fs, []⟩) (by simp only [fs, or_true, if_true]) hd hs (.inl (by
          simp only [fs, show ¬ (P "b" = P "a.json" ∨ P "b" = P "b.json") by decide +kernel, if_false]))
      obtain ⟨r0, d0⟩ := h2 0
      obtain ⟨r1, d1⟩ := h2 1
      obtain ⟨a0, b0⟩ := h3 0 r0 d0
      obtain ⟨a1, b1⟩ := h3 1 r1 d1
      change r0 = (convertJsonToSav storeExt (P "a.json") (P "a") false ⟨fs, []⟩).1 at a0
      change s.fs (P "a") = (convertJsonToSav storeExt (P "a.json") (P "a") false ⟨fs, []⟩).2.fs (P "a") at b0
      change r1 = (convertJsonToSav storeExt (P "b.json") (P "b") false ⟨fs, []⟩).1 at a1
      change s.fs (P "b") = (convertJsonToSav storeExt (P "b.json") (P "b") false ⟨fs, []⟩).2.fs (P "b") at b1
      rw [ea] at a0 b0
      rw [eb] at a1 b1
      refine ⟨fs, s, sav, h1, fun i => ?_, by rw [b0]; simp [World.put], by rw [b1]; simp [World.put]⟩
      have : i = 0 ∨ i = 1 := by omega
      rcases this with rfl | rfl
      · rw [d0, a0]
      · rw [d1, a1]
    · cases h
  · cases h

/-- C66: two conversions at the same time, both to their end. -/
example : ∃ (fs : PyStr → Option Node) (s : Procs (Fin 2)) (sav : Bytes),
    Procs.Runs storeExt (.start storeExt twoJobs fs fun _ => []) s ∧
    (∀ i, (s.st i).1 = .done (.ok ())) ∧ s.fs (P "a") = some (.file sav) ∧ s.fs (P "b") = some (.file sav) := by
  exact handOk_both (text := handText) handOk_text

end Pal
