import Verif.Lemmas.SaysBlob2
import Verif.Lemmas.SaysFoliage
import Verif.Lemmas.Idem
/-
Custom properties: the in-place changes before a property is written, and what they say.
-/

namespace Pal
open Spec

/-- `f` changes values exactly as `R` says. -/
structure Turns (f : Nat → Val → Except Err Val) (R : Val → Val → Prop) : Prop where
  fw : ∀ {n v v'}, PlainDoc v → f n v = .ok v' → R v v' ∧ PlainDoc v'
  bw : ∀ {v v'}, R v v' → ∃ k, ∀ n ≥ k, f n v = .ok v'

variable {α : Type} {f g : Nat → Val → Except Err Val} {R R' : Val → Val → Prop} {w : Nat → Val → Except Err Bytes}
  {S : Val → α → Prop} {e : α → Bytes}

theorem plainD_set {k : PyStr} {x : Val} (hk : Normal k) (hx : PlainDoc x) :
    ∀ {d : Dict}, PlainDocD d → PlainDocD (dset d k x)
  | [], _ => ⟨hk, hx, trivial⟩
  | (k', v') :: t, h => by
    simp only [dset]
    split
    · rename_i he
      subst he
      exact ⟨h.1, hx, h.2.2⟩
    · exact ⟨h.1, h.2.1, plainD_set hk hx h.2.2⟩

theorem plain_set {k : String} {v x v' : Val} (hk : Normal (P k)) (hv : PlainDoc v) (hx : PlainDoc x)
    (h : v.set (P k) x = .ok v') : PlainDoc v' := by
  cases v <;> cases h
  exact plainD_set hk hx hv

theorem plainD_erase {k : PyStr} : ∀ {d : Dict}, PlainDocD d → PlainDocD (derase d k)
  | [], _ => trivial
  | (k', v') :: t, h => by
    simp only [derase]
    split
    · exact plainD_erase h.2.2
    · exact ⟨h.1, h.2.1, plainD_erase h.2.2⟩

theorem plain_del {k : PyStr} {v v' : Val} (hv : PlainDoc v) (h : v.del k = .ok v') : PlainDoc v' := by
  cases v <;> simp only [Val.del, reduceCtorEq] at h
  split at h
  · cases h; exact plainD_erase hv
  · cases h

theorem upd_iff {F : Val → Except Err Val} {k : String} {l : List String} {v v' : Val} :
    Val.upd F (ks (k :: l)) v = .ok v' ↔ ∃ x x', At v k x ∧ Val.upd F (ks l) x = .ok x' ∧ v.set (P k) x' = .ok v' := by
  have e : ks (k :: l) = P k :: ks l := rfl
  rw [e]
  simp only [Val.upd]
  unfold At
  cases h1 : v.get (P k) with
  | error e => exact ⟨nofun, nofun⟩
  | ok x =>
    dsimp only
    cases h2 : Val.upd F (ks l) x with
    | error e =>
      refine ⟨nofun, ?_⟩
      rintro ⟨y, y', h3, h4, -⟩
      cases h3
      rw [h2] at h4; cases h4
    | ok x' =>
      constructor
      · intro h; exact ⟨x, x', rfl, h2, h⟩
      · rintro ⟨y, y', h3, h4, h5⟩
        cases h3
        rw [h2] at h4; cases h4
        exact h5

theorem Turns.change (h : Turns f R) : ∀ {l : List String}, (∀ k ∈ l, Normal (P k)) →
    Turns (fun n => Val.upd (f n) (ks l)) (Change R l)
  | [], _ => ⟨fun hp hf => h.fw hp hf, fun hr => h.bw hr⟩
  | k :: l, hk => by
    have ih := h.change fun k' hk' => hk k' (List.mem_cons_of_mem _ hk')
    have hk1 := hk k List.mem_cons_self
    constructor
    · intro n v v' hp hf
      obtain ⟨x, x', h1, h2, h3⟩ := upd_iff.1 hf
      obtain ⟨h4, h5⟩ := ih.fw (plain_at hp h1) h2
      exact ⟨⟨x, x', h1, h4, h3⟩, plain_set hk1 hp h5 h3⟩
    · rintro v v' ⟨x, x', h1, h2, h3⟩
      obtain ⟨N, hN⟩ := ih.bw h2
      exact ⟨N, fun n hn => upd_iff.2 ⟨x, x', h1, hN n hn, h3⟩⟩

theorem mapE_fw {n : Nat} (h : Turns f R) : ∀ {l l' : List Val}, PlainDocL l → mapE (f n) l = .ok l' → List.Forall₂ R l l' ∧ PlainDocL l'
  | [], l', _, hm => by cases hm; exact ⟨.nil, trivial⟩
  | a :: t, l', hp, hm => by
    simp only [mapE] at hm
    cases h1 : f n a with
    | error e => rw [h1] at hm; cases hm
    | ok a' =>
    rw [h1] at hm
    cases h2 : mapE (f n) t with
    | error e => rw [h2] at hm; cases hm
    | ok t' =>
    rw [h2] at hm
    cases hm
    obtain ⟨g1, g2⟩ := h.fw hp.1 h1
    obtain ⟨g3, g4⟩ := mapE_fw h hp.2 h2
    exact ⟨.cons g1 g3, g2, g4⟩

theorem mapE_bw (h : Turns f R) : ∀ {l l' : List Val}, List.Forall₂ R l l' → ∃ k, ∀ n ≥ k, mapE (f n) l = .ok l'
  | _, _, .nil => ⟨0, fun _ _ => rfl⟩
  | _, _, .cons h1 h2 => (both (h.bw h1) (mapE_bw h h2)).imp fun _ hk n hn => by
      simp only [mapE, (hk n hn).1, (hk n hn).2]

theorem Turns.each (h : Turns f R) : Turns (fun n => forEach (f n)) (Each R) where
  fw := fun {n v v'} hp hf => by
    unfold forEach at hf
    split at hf
    · rename_i l
      cases h1 : mapE (f n) l with
      | error e => rw [h1] at hf; cases hf
      | ok l' =>
        rw [h1] at hf; cases hf
        exact ⟨.list (mapE_fw h hp h1).1, (mapE_fw h hp h1).2⟩
    · rename_i l
      cases h1 : mapE (f n) l with
      | error e => rw [h1] at hf; cases hf
      | ok l' =>
        rw [h1] at hf; cases hf
        exact ⟨.tuple (mapE_fw h hp h1).1, (mapE_fw h hp h1).2⟩
    · cases hf; exact ⟨.empty (.bytes []), hp⟩
    · cases hf; exact ⟨.empty (.str []), hp⟩
    · cases hf; exact ⟨.empty .dict, hp⟩
    · cases hf
  bw := fun {v v'} hr => by
    cases hr with
    | list h1 =>
      obtain ⟨k, hk⟩ := mapE_bw h h1
      exact ⟨k, fun n hn => by simp only [forEach, hk n hn]⟩
    | tuple h1 =>
      obtain ⟨k, hk⟩ := mapE_bw h h1
      exact ⟨k, fun n hn => by simp only [forEach, hk n hn]⟩
    | empty hi =>
      refine ⟨0, fun n _ => ?_⟩
      generalize hl : ([] : List Val) = l at hi
      cases hi with
      | list => subst hl; rfl
      | tuple => subst hl; rfl
      | bytes b =>
        cases b with
        | nil => rfl
        | cons => cases hl
      | str b =>
        cases b with
        | nil => rfl
        | cons => cases hl
      | dict => rfl

theorem plain_ints (b : Bytes) : PlainDocL (b.map fun x => .int x.toNat) := by
  induction b with
  | nil => trivial
  | cons a t ih => exact ⟨trivial, ih⟩

theorem values_normal : Normal (P "values") := by decide +kernel

theorem plain_values {x : Val} (hx : PlainDoc x) : PlainDoc (.dict [(P "values", x)]) :=
  ⟨values_normal, hx, trivial⟩

theorem Codes.numbers (h : Codes w S e) : Turns (fun n => asValuesList (w n)) (Numbers (InBytes S e)) where
  fw := fun {n v v'} hp hf => by
    unfold asValuesList at hf
    cases h1 : w n v with
    | error er => rw [h1] at hf; cases hf
    | ok b =>
      rw [h1] at hf
      obtain ⟨x, h2, h3⟩ := h.fw hp h1
      exact ⟨⟨b, ⟨x, h2, h3⟩, (Except.ok.inj hf).symm⟩, by rw [← Except.ok.inj hf]; exact plain_values (plain_ints b)⟩
  bw := by
    rintro v v' ⟨b, ⟨x, h1, rfl⟩, rfl⟩
    obtain ⟨k, hk⟩ := h.bw h1
    exact ⟨k, fun n hn => by simp only [asValuesList, hk n hn]; rfl⟩

theorem Codes.raw (h : Codes w S e) : Turns (fun n => asValuesBytes (w n)) (Raw (InBytes S e)) where
  fw := fun {n v v'} hp hf => by
    unfold asValuesBytes at hf
    cases h1 : w n v with
    | error er => rw [h1] at hf; cases hf
    | ok b =>
      rw [h1] at hf
      obtain ⟨x, h2, h3⟩ := h.fw hp h1
      exact ⟨⟨b, ⟨x, h2, h3⟩, (Except.ok.inj hf).symm⟩, by rw [← Except.ok.inj hf]; exact plain_values trivial⟩
  bw := by
    rintro v v' ⟨b, ⟨x, h1, rfl⟩, rfl⟩
    obtain ⟨k, hk⟩ := h.bw h1
    exact ⟨k, fun n hn => by simp only [asValuesBytes, hk n hn]; rfl⟩

theorem inBytes_id {S : Val → Bytes → Prop} : InBytes S id = S := by
  funext v b
  apply propext
  constructor
  · rintro ⟨x, h, rfl⟩; exact h
  · intro h; exact ⟨b, h, rfl⟩

theorem Codes.numbers' {S : Val → Bytes → Prop} (h : Codes w S id) : Turns (fun n => asValuesList (w n)) (Numbers S) := by
  have := h.numbers
  rw [inBytes_id] at this
  exact this

theorem Codes.raw' {S : Val → Bytes → Prop} (h : Codes w S id) : Turns (fun n => asValuesBytes (w n)) (Raw S) := by
  have := h.raw
  rw [inBytes_id] at this
  exact this

theorem Codes.noneOr' {S : Val → Bytes → Prop} (h : Codes w S id) : Codes (fun n => noneOr (w n)) (NoneOr S) id where
  fw := fun {n v b} hp hf => by
    unfold noneOr at hf
    split at hf
    · cases hf; exact ⟨[], .inl ⟨rfl, rfl⟩, rfl⟩
    · rename_i hn
      obtain ⟨x, h1, rfl⟩ := h.fw hp hf
      exact ⟨_, .inr ⟨hn, h1⟩, rfl⟩
  bw := by
    rintro v b (⟨rfl, rfl⟩ | ⟨hn, h1⟩)
    · exact ⟨0, fun _ _ => rfl⟩
    · obtain ⟨k, hk⟩ := h.bw h1
      refine ⟨k, fun n hn' => ?_⟩
      have := hk n hn'
      unfold noneOr
      split
      · exact absurd rfl hn
      · exact this

theorem Codes.noneOr (h : Codes w S e) : Codes (fun n => noneOr (w n)) (NoneOr (InBytes S e)) id := h.forget.noneOr'

theorem Turns.unless (h : Turns f R) : Turns (fun n => unlessValues (f n)) (Unless R) where
  fw := fun {n v v'} hp hf => by
    unfold unlessValues at hf
    split at hf
    · cases hf
    · rename_i hc; cases hf; exact ⟨.inl ⟨hc, rfl⟩, hp⟩
    · rename_i hc; exact ⟨.inr ⟨hc, (h.fw hp hf).1⟩, (h.fw hp hf).2⟩
  bw := by
    rintro v v' (⟨h1, rfl⟩ | ⟨h1, h2⟩)
    · exact ⟨0, fun _ _ => by simp only [unlessValues, h1]⟩
    · obtain ⟨k, hk⟩ := h.bw h2
      exact ⟨k, fun n hn => by simp only [unlessValues, h1, hk n hn]⟩

theorem Turns.after (h1 : Turns f R) (h2 : Turns g R') :
    Turns (fun n v => match f n v with | .ok v' => g n v' | .error e => .error e) (Then R R') where
  fw := fun {n v v'} hp hf => by
    cases h3 : f n v with
    | error e => simp only [h3, reduceCtorEq] at hf
    | ok v1 =>
      simp only [h3] at hf
      obtain ⟨g1, g2⟩ := h1.fw hp h3
      obtain ⟨g3, g4⟩ := h2.fw g2 hf
      exact ⟨⟨v1, g1, g3⟩, g4⟩
  bw := by
    rintro v v' ⟨v1, g1, g2⟩
    obtain ⟨k, hk⟩ := both (h1.bw g1) (h2.bw g2)
    exact ⟨k, fun n hn => by simp only [(hk n hn).1, (hk n hn).2]⟩

theorem Turns.first {l : Nat → List (Val → Except Err Val)} (h1 : Turns f R) (h2 : Turns (fun n => updAll (l n)) R') :
    Turns (fun n => updAll (f n :: l n)) (Then R R') := h1.after h2

theorem Turns.last (h : Turns f R) : Turns (fun n => updAll [f n]) R where
  fw := fun {n v v'} hp hf => by
    simp only [updAll] at hf
    cases h3 : f n v with
    | error e => rw [h3] at hf; cases hf
    | ok v1 => rw [h3] at hf; cases hf; exact h.fw hp h3
  bw := fun hr => (h.bw hr).imp fun k hk n hn => by simp only [updAll, hk n hn]

/-! ### entries -/

theorem entry_keys : ∀ k ∈ entryBlob, Normal (P k) := by decide +kernel

theorem turns_group : Turns (fun _ => groupPre1) OpenedGroup := codes_group.numbers.unless.change entry_keys

theorem turns_addValues (t : Val) (ht : PlainDoc t) : Turns (fun _ p => match campModuleEncode t p with
      | .ok b => p.set (P "values") (.bytes b)
      | .error e => .error e) (fun p p' => ∃ b, SaysCampModule t p b ∧ p.set (P "values") (.bytes b) = .ok p') where
  fw := fun {n v v'} hp hf => by
    cases h1 : campModuleEncode t v with
    | error e => simp only [h1, reduceCtorEq] at hf
    | ok b =>
      simp only [h1] at hf
      obtain ⟨b', h2, rfl⟩ := codes_campModule.fw (n := 0) ht hp h1
      exact ⟨⟨_, h2, hf⟩, plain_set (x := .bytes b) values_normal hp trivial hf⟩
  bw := by
    rintro v v' ⟨b, h1, h2⟩
    obtain ⟨k, hk⟩ := codes_campModule.bw h1
    exact ⟨0, fun n hn => by simp only [show campModuleEncode t v = .ok b from hk k (Nat.le_refl _), h2]⟩

/-- The relation does not need the type to be plain. -/
theorem addValues_bw {t v v' : Val} (h : Change (Unless fun p p' => ∃ b, SaysCampModule t p b ∧ p.set (P "values") (.bytes b) = .ok p') entryBlob v v') :
    Val.upd (unlessValues fun p => match campModuleEncode t p with
      | .ok b => p.set (P "values") (.bytes b)
      | .error e => .error e) (ks entryBlob) v = .ok v' := by
  have key : ∀ p p', (Unless fun p p' => ∃ b, SaysCampModule t p b ∧ p.set (P "values") (.bytes b) = .ok p') p p' →
      (unlessValues fun p => match campModuleEncode t p with
      | .ok b => p.set (P "values") (.bytes b)
      | .error e => .error e) p = .ok p' := by
    rintro p p' (⟨h1, rfl⟩ | ⟨h1, b, h2, h3⟩)
    · simp only [unlessValues, h1]
    · obtain ⟨k, hk⟩ := codes_campModule.bw h2
      simp only [unlessValues, h1, show campModuleEncode t p = .ok b from hk k (Nat.le_refl _), h3]
  obtain ⟨x1, y1, a1, ⟨x2, y2, a2, ⟨x3, y3, a3, a4, a5⟩, a6⟩, a7⟩ := h
  exact upd_iff.2 ⟨x1, y1, a1, upd_iff.2 ⟨x2, y2, a2, upd_iff.2 ⟨x3, y3, a3, key _ _ a4, a5⟩, a6⟩, a7⟩

theorem turns_campModule : Turns (fun _ => campModulePre1) OpenedCampModule where
  fw := fun {n v v'} hp hf => by
    unfold campModulePre1 at hf
    cases h1 : v.get (P "key") with
    | error e => rw [h1] at hf; cases hf
    | ok t =>
      rw [h1] at hf
      obtain ⟨h2, h3⟩ := ((turns_addValues t (plain_at hp h1)).unless.change entry_keys).fw (n := n) hp hf
      exact ⟨⟨t, h1, h2⟩, h3⟩
  bw := by
    rintro v v' ⟨t, h1, h2⟩
    refine ⟨0, fun n _ => ?_⟩
    unfold campModulePre1
    rw [show v.get (P "key") = .ok t from h1]
    exact addValues_bw h2

theorem turns_workAssign : Turns (fun _ => workAssignPre1) OpenedWorkAssign := codes_workAssign.numbers.change entry_keys

theorem codes2_at {w : Val → Val → Except Err Bytes} {S : Val → Val → Bytes → Prop} (h : Codes2 (fun _ => w) S id) {t : Val}
    (ht : PlainDoc t) : Codes (fun _ => w t) (S t) id :=
  ⟨fun hp hf => h.fw (n := 0) ht hp hf, fun hs => h.bw hs⟩

theorem reach_plain {l : List String} {t : Val} : ∀ {v : Val}, PlainDoc v → Reach v l (· = t) → PlainDoc t := by
  intro v hp h
  obtain ⟨x, h1, h2, -⟩ := reach_ex h
  subst h1
  exact h2 hp

theorem turns_work : Turns (fun _ => workPre1) OpenedWork where
  fw := fun {n v v'} hp hf => by
    unfold workPre1 at hf
    cases h1 : v.path (ks ["WorkableType", "value", "value"]) with
    | error e => rw [h1] at hf; cases hf
    | ok t =>
      rw [h1] at hf
      dsimp only at hf
      have h1 := path_reach.1 h1
      obtain ⟨h2, h3⟩ := (((codes2_at codes_work (reach_plain hp h1)).numbers'.change (l := ["RawData", "value"])
        (by decide +kernel)).after (turns_workAssign.each.change (l := ["WorkAssignMap", "value"]) (by decide +kernel))).fw (n := n) (v' := v') hp
          (by
            cases h2 : Val.upd (asValuesList (workEncode t)) (ks ["RawData", "value"]) v with
            | error e => rw [h2] at hf; cases hf
            | ok v1 => rw [h2] at hf; exact hf)
      exact ⟨⟨t, h1, h2⟩, h3⟩
  bw := by
    rintro v v' ⟨t, h1, v1, ⟨x1, y1, a1, ⟨x2, y2, a2, ⟨b, a3, rfl⟩, a5⟩, a6⟩, h3⟩
    obtain ⟨k, hk⟩ := (turns_workAssign.each.change (l := ["WorkAssignMap", "value"]) (by decide +kernel)).bw h3
    obtain ⟨k', hk'⟩ := codes_work.bw a3
    refine ⟨0, fun n _ => ?_⟩
    unfold workPre1
    have e1 : v.path (ks ["WorkableType", "value", "value"]) = .ok t := path_reach.2 h1
    have e2 : Val.upd (asValuesList (workEncode t)) (ks ["RawData", "value"]) v = .ok v1 :=
      upd_iff.2 ⟨x1, y1, a1, upd_iff.2 ⟨x2, _, a2, by
        show asValuesList (workEncode t) x2 = _
        simp only [asValuesList, show workEncode t x2 = .ok b from hk' k' (Nat.le_refl _)]; rfl, a5⟩, a6⟩
    rw [e1]
    dsimp only
    rw [e2]
    exact hk k (Nat.le_refl _)

theorem turns_module : Turns (fun _ => moduleMapPre1) OpenedModule where
  fw := fun {n v v'} hp hf => by
    unfold moduleMapPre1 at hf
    cases h1 : v.get (P "key") with
    | error e =>
      rw [h1] at hf
      have ht : Turns (fun _ p => (.error e : Except Err Val)) (fun p p' => ∃ t, At v "key" t ∧ Raw (NoneOr (SaysModule t)) p p') :=
        ⟨fun _ h => (by cases h), fun ⟨t, h2, _⟩ => (by rw [At, h1] at h2; cases h2)⟩
      exact (ht.unless.change entry_keys).fw (n := n) hp hf
    | ok t =>
      rw [h1] at hf
      have ht : Turns (fun _ p => asValuesBytes (noneOr (concreteModuleEncode t)) p)
          (fun p p' => ∃ t, At v "key" t ∧ Raw (NoneOr (SaysModule t)) p p') := by
        have := (codes2_at codes_module (plain_at hp h1)).noneOr'.raw'
        exact ⟨fun hp hf => ⟨⟨t, h1, (this.fw (n := 0) hp hf).1⟩, (this.fw (n := 0) hp hf).2⟩,
          fun ⟨t', h2, h3⟩ => by rw [At, h1] at h2; cases h2; exact this.bw h3⟩
      exact (ht.unless.change entry_keys).fw (n := n) hp hf
  bw := by
    rintro v v' ⟨x1, y1, a1, ⟨x2, y2, a2, ⟨x3, y3, a3, a4, a5⟩, a6⟩, a7⟩
    refine ⟨0, fun n _ => upd_iff.2 ⟨x1, y1, a1, upd_iff.2 ⟨x2, y2, a2, upd_iff.2 ⟨x3, y3, a3, ?_, a5⟩, a6⟩, a7⟩⟩
    show unlessValues _ x3 = .ok y3
    rcases a4 with ⟨h1, rfl⟩ | ⟨h1, t, h2, b, h3, rfl⟩
    · simp only [unlessValues, h1]
    · simp only [unlessValues, h1, show v.get (P "key") = .ok t from h2]
      rcases h3 with ⟨rfl, rfl⟩ | ⟨hn, h3⟩
      · rfl
      · obtain ⟨k, hk⟩ := codes_module.bw h3
        have : noneOr (concreteModuleEncode t) x3 = .ok b := by
          unfold noneOr
          split
          · exact absurd rfl hn
          · exact hk k (Nat.le_refl _)
        simp only [asValuesBytes, this]
        rfl

theorem turns_mapObject : Turns (fun n => mapObjectPre1 (bytesOf n)) OpenedMapObject := by
  have h1 := codes_mapModel.raw.unless.change (l := ["Model", "value", "RawData", "value"]) (by decide +kernel)
  have h2 := codes_connector.noneOr.raw'.unless.change (l := ["Model", "value", "Connector", "value", "RawData", "value"])
    (by decide +kernel)
  have h3 := codes_buildProcess.raw.unless.change (l := ["Model", "value", "BuildProcess", "value", "RawData", "value"])
    (by decide +kernel)
  have h4 := (codes_concrete codes_embedded).noneOr.raw'.unless.change (l := ["ConcreteModel", "value", "RawData", "value"])
    (by decide +kernel)
  have h5 := turns_module.each.change (l := ["ConcreteModel", "value", "ModuleMap", "value"]) (by decide +kernel)
  exact h1.first (h2.first (h3.first (h4.first h5.last)))

/-! ### the codecs -/

theorem value_key : ∀ k ∈ ["value"], Normal (P k) := by decide +kernel
theorem values_key : ∀ k ∈ ["value", "values"], Normal (P k) := by decide +kernel

theorem codec_turns (c : CodecId) : ∃ F, Turns F (Opened c) ∧ ∀ n v, c.pre (bytesOf n) v = delThen (F n) v := by
  have simple : ∀ {c : CodecId} {w : Nat → Val → Except Err Bytes}, Codes w (SaysRaw c) id →
      (Opened c = Change (Numbers (SaysRaw c)) ["value"]) → (∀ n v, c.pre (bytesOf n) v = encodeValue (w n) v) →
      ∃ F, Turns F (Opened c) ∧ ∀ n v, c.pre (bytesOf n) v = delThen (F n) v := by
    intro c w h1 h2 h3
    rw [h2]
    exact ⟨_, h1.numbers'.change value_key, h3⟩
  cases c with
  | group => exact ⟨_, turns_group.each.change value_key, fun _ _ => rfl⟩
  | baseCampModule => exact ⟨_, turns_campModule.each.change value_key, fun _ _ => rfl⟩
  | work => exact ⟨_, turns_work.each.change values_key, fun _ _ => rfl⟩
  | mapObject => exact ⟨_, turns_mapObject.each.change values_key, fun _ _ => rfl⟩
  | debug =>
    refine ⟨fun _ v => .ok v, ⟨fun hp h => by cases h; exact ⟨rfl, hp⟩, fun h => ⟨0, fun _ _ => by rw [h]⟩⟩, fun n v => ?_⟩
    unfold delThen CodecId.pre
    cases v.del (P "custom_type") <;> rfl
  | character => exact simple (c := .character) (codes_character codes_embedded) rfl fun _ _ => rfl
  | itemContainer => exact simple (c := .itemContainer) codes_permission.noneOr rfl fun _ _ => rfl
  | itemContainerSlots => exact simple (c := .itemContainerSlots) codes_slots.noneOr rfl fun _ _ => rfl
  | characterContainer => exact simple (c := .characterContainer) codes_charSlot.noneOr rfl fun _ _ => rfl
  | dynamicItem => exact simple (c := .dynamicItem) (codes_dynItem codes_embedded).noneOr' rfl fun _ _ => rfl
  | foliageModel => exact simple (c := .foliageModel) codes_foliageModel.forget rfl fun _ _ => rfl
  | foliageModelInstance => exact simple (c := .foliageModelInstance) codes_foliageInst rfl fun _ _ => rfl
  | baseCamp => exact simple (c := .baseCamp) codes_baseCamp.forget rfl fun _ _ => rfl
  | workerDirector => exact simple (c := .workerDirector) codes_workerDirector.forget rfl fun _ _ => rfl
  | workCollection => exact simple (c := .workCollection) codes_workCollection.forget rfl fun _ _ => rfl
  | connector => exact simple (c := .connector) codes_connector.noneOr rfl fun _ _ => rfl
  | buildProcess => exact simple (c := .buildProcess) codes_buildProcess.forget rfl fun _ _ => rfl
  | mapModel => exact simple (c := .mapModel) codes_mapModel.forget rfl fun _ _ => rfl

theorem customType_eq (c : CodecId) : customType c = c.propType := by cases c <;> rfl

/-- The writer opens custom properties as the specification says. -/
theorem opens_as (cfg : Cfg) : OpensAs (Opens cfg) cfg where
  fw := by
    intro n v v' path c hp h1 h2 h3 h4
    obtain ⟨F, hF, he⟩ := codec_turns c
    have ht : At v' "type" (.str (P c.propType)) := by
      unfold At
      rw [pre_get_type h4]; exact h3
    rw [he] at h4
    unfold delThen at h4
    cases h5 : v.del (P "custom_type") with
    | error e => rw [h5] at h4; cases h4
    | ok v1 =>
      rw [h5] at h4
      obtain ⟨g1, g2⟩ := hF.fw (plain_del hp h5) h4
      exact ⟨⟨path, c, v1, h1, h2, by rw [customType_eq]; exact h3, h5, g1⟩, g2, ht⟩
  bw := by
    rintro v v' ⟨path, c, v1, h1, h2, h3, h4, h5⟩
    obtain ⟨F, hF, he⟩ := codec_turns c
    obtain ⟨k, hk⟩ := hF.bw h5
    have hpre : ∀ n ≥ k, c.pre (bytesOf n) v = .ok v' := by
      intro n hn
      rw [he]
      unfold delThen
      rw [h4]
      exact hk n hn
    rw [customType_eq] at h3
    refine ⟨path, c, ?_, h1, h2, h3, ?_, k, hpre⟩
    · unfold At at h1
      cases v <;> simp only [Val.get, reduceCtorEq] at h1
      rename_i d
      cases hd : dget? d (P "custom_type") with
      | none => rw [hd] at h1; cases h1
      | some x => simp only [Val.contains, hd, Option.isSome_some]
    · unfold At
      rw [pre_get_type (hpre k (Nat.le_refl _))]; exact h3

end Pal
