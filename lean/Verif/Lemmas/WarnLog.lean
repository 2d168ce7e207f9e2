import Verif.Lemmas.Warn
import Verif.Lemmas.BoundProps
import Verif.Lemmas.RedoBlobs
import Verif.Lemmas.Idem
import Verif.Spec.Warn
/-
What must be announced is announced.
-/

namespace Pal
namespace Warn

/-! ### results of a reader all of whose messages are in a given log -/

/-- Every result of `x` satisfies `Q`, if what it prints is in the log. -/
def Res {α : Type} (lg : List Warning) (x : L α) (Q : α → Prop) : Prop :=
  ∀ s a s', x.run s = .ok (a, s') → (∀ w ∈ x.log s, w ∈ lg) → Q a

/-- The same for functions of values. -/
def ResE {α : Type} (lg : List Warning) (x : E α) (Q : α → Prop) : Prop :=
  ∀ a, x.1 = .ok a → (∀ w ∈ x.2, w ∈ lg) → Q a

section
variable {lg : List Warning}

theorem res_true {α : Type} (x : L α) : Res lg x fun _ => True := fun _ _ _ _ _ => trivial

theorem res_pure {α : Type} {a : α} {Q : α → Prop} (h : Q a) : Res lg (pure a) Q := by
  intro s b s' e _
  cases e; exact h

theorem res_fail {α : Type} {e : Err} {Q : α → Prop} : Res lg (L.lift (rFail e)) Q := fun _ _ _ h _ => by cases h

theorem res_bind {α β : Type} {x : L α} {f : α → L β} {Q : α → Prop} {T : β → Prop} (h : Res lg x Q)
    (hf : ∀ a, Q a → Res lg (f a) T) : Res lg (x >>= f) T := by
  intro s b s' e hl
  obtain ⟨a, s1, e1, e2⟩ := r_bind_inv (x := x.run) (f := fun a => (f a).run) e
  rw [bind_log, e1] at hl
  exact hf a (h s a s1 e1 fun w hw => hl w (List.mem_append_left _ hw)) s1 b s' e2 fun w hw => hl w (List.mem_append_right _ hw)

theorem res_bind' {α β : Type} (x : L α) {f : α → L β} {T : β → Prop} (hf : ∀ a, Res lg (f a) T) : Res lg (x >>= f) T :=
  res_bind (res_true x) fun a _ => hf a

theorem res_tell {β : Type} {w : Warning} {f : Unit → L β} {T : β → Prop} (hf : w ∈ lg → Res lg (f ()) T) :
    Res lg (L.tell w >>= f) T := by
  intro s b s' e hl
  rw [bind_log] at hl
  exact hf (hl w (List.mem_append_left _ (List.mem_singleton_self _))) s b s' e fun w hw => hl w (List.mem_append_right _ hw)

theorem res_tellIf {β : Type} {c : Prop} [Decidable c] {w : Warning} {f : Unit → L β} {T : β → Prop}
    (hf : (c → w ∈ lg) → Res lg (f ()) T) : Res lg (tellIf c w >>= f) T := by
  unfold tellIf
  split
  · exact res_tell fun h => hf fun _ => h
  · rename_i hc
    intro s b s' e hl
    exact hf (fun h => absurd h hc) s b s' e hl

theorem res_ite {α : Type} {c : Prop} [Decidable c] {a b : L α} {Q : α → Prop} (h : c → Res lg a Q) (g : ¬ c → Res lg b Q) :
    Res lg (if c then a else b) Q := by
  split
  · rename_i hc; exact h hc
  · rename_i hc; exact g hc

theorem res_try {α : Type} {x : L α} {h : Err → L α} {Q : α → Prop} (hx : Res lg x Q) (hh : ∀ e, Res lg (h e) Q) :
    Res lg (L.try_ x h) Q := by
  intro s a s' e hl
  have e' : rTry x.run (fun e => (h e).run) s = .ok (a, s') := e
  unfold rTry at e'
  have hl1 : ∀ w ∈ x.log s, w ∈ lg := fun w hw => hl w (List.mem_append_left _ hw)
  cases hr : x.run s with
  | ok q => rw [hr] at e'; cases e'; exact hx s _ _ hr hl1
  | error er =>
    rw [hr] at e'
    have hl2 : er ≠ .fuel → ∀ w ∈ (h er).log s, w ∈ lg := by
      intro hne w hw
      refine hl w (List.mem_append_right _ ?_)
      rw [hr]
      cases er <;> first | exact hw | exact absurd rfl hne
    cases er <;> first | cases e' | exact hh _ s a s' e' (hl2 (by simp))

theorem res_lift {α : Type} {x : R α} {Q : α → Prop} (h : ∀ s a s', x s = .ok (a, s') → Q a) : Res lg (L.lift x) Q :=
  fun s a s' e _ => h s a s' e

theorem res_mono {α : Type} {x : L α} {Q T : α → Prop} (h : Res lg x Q) (g : ∀ a, Q a → T a) : Res lg x T :=
  fun s a s' e hl => g a (h s a s' e hl)

theorem res_repeat {α : Type} {x : L α} {Q : α → Prop} (h : Res lg x Q) : ∀ n, Res lg (lRepeat x n) fun l => ∀ a ∈ l, Q a
  | 0 => res_pure (by simp)
  | n + 1 => res_bind h fun a ha => res_bind (res_repeat h n) fun l hl => res_pure fun b hb => by
      rcases List.mem_cons.1 hb with rfl | hb
      · exact ha
      · exact hl b hb

/-! ### inversions of updates -/

/-- The paths part at some key. -/
def Part : List PyStr → List PyStr → Prop
  | k :: ks, k' :: ks' => k ≠ k' ∨ (k = k' ∧ Part ks ks')
  | _, _ => False

theorem path_cons {v x : Val} {k : PyStr} {ks : List PyStr} (h : v.get k = .ok x) : v.path (k :: ks) = x.path ks := by
  simp only [Val.path, h]

theorem path_part {v v' : Val} : ∀ {ks ks' : List PyStr} {f : Val → E Val}, (eUpd f ks v).1 = .ok v' → Part ks ks' → v'.path ks' = v.path ks'
  | [], ks', f, _, hp => by cases ks' <;> exact absurd hp id
  | k :: ks, [], f, _, hp => absurd hp id
  | k :: ks, k' :: ks', f, h, hp => by
    simp only [eUpd] at h
    cases hg : v.get k with
    | error e => rw [hg] at h; cases h
    | ok x =>
      rw [hg] at h
      simp only at h
      cases hu : (eUpd f ks x).1 with
      | error e => rw [hu] at h; cases h
      | ok x' =>
        rw [hu] at h
        simp only at h
        rcases hp with hne | ⟨rfl, hp⟩
        · simp only [Val.path, get_set_ne h (Ne.symm hne)]
        · rw [path_cons (get_set h), path_cons hg]
          exact path_part hu hp

theorem eUpd_inv {f : Val → E Val} : ∀ {ks : List PyStr} {v v' : Val}, (eUpd f ks v).1 = .ok v' →
    ∃ x x', v.path ks = .ok x ∧ (f x).1 = .ok x' ∧ (f x).2 = (eUpd f ks v).2 ∧ v'.path ks = .ok x'
  | [], v, v', h => ⟨v, v', rfl, h, rfl, rfl⟩
  | k :: ks, v, v', h => by
    simp only [eUpd] at h ⊢
    cases hg : v.get k with
    | error e => rw [hg] at h; cases h
    | ok x =>
      rw [hg] at h
      simp only at h
      cases hu : (eUpd f ks x).1 with
      | error e => rw [hu] at h; cases h
      | ok x' =>
        rw [hu] at h
        simp only at h
        obtain ⟨y, y', h1, h2, h3, h4⟩ := eUpd_inv hu
        exact ⟨y, y', by rw [path_cons hg]; exact h1, h2, h3, by rw [path_cons (get_set h)]; exact h4⟩

/-- An update as a quiet function, to use the same inversions. -/
theorem upd_quiet (f : Val → Except Err Val) : ∀ (ks : List PyStr) (v : Val), (eUpd (quiet f) ks v).1 = Val.upd f ks v
  | [], v => rfl
  | k :: ks, v => by
    simp only [eUpd, Val.upd]
    cases v.get k with
    | error e => rfl
    | ok x => simp only; rw [upd_quiet f ks x]; rfl

theorem path_part_upd {f : Val → Except Err Val} {ks ks' : List PyStr} {v v' : Val} (h : Val.upd f ks v = .ok v') (hp : Part ks ks') :
    v'.path ks' = v.path ks' :=
  path_part (f := quiet f) (by rw [upd_quiet]; exact h) hp

theorem path_app {v x : Val} : ∀ {ks : List PyStr} (_ : v.path ks = .ok x) (ks' : List PyStr), v.path (ks ++ ks') = x.path ks'
  | [], h, ks' => by cases h; rfl
  | k :: ks, h, ks' => by
    simp only [Val.path, List.cons_append] at h ⊢
    cases hg : v.get k with
    | error e => rw [hg] at h; cases h
    | ok y => rw [hg] at h; exact path_app h ks'

theorem eMap_inv {f : Val → E Val} : ∀ {l l' : List Val}, (eMap f l).1 = .ok l' → ∀ m' ∈ l', ∃ m, (f m).1 = .ok m' ∧ ∀ w ∈ (f m).2, w ∈ (eMap f l).2
  | [], l', h, m', hm => by cases h; cases hm
  | a :: t, l', h, m', hm => by
    simp only [eMap] at h ⊢
    cases ha : (f a).1 with
    | error e => rw [ha] at h; cases h
    | ok b =>
      rw [ha] at h
      simp only at h
      cases ht : (eMap f t).1 with
      | error e => rw [ht] at h; cases h
      | ok bs =>
        rw [ht] at h
        cases h
        rcases List.mem_cons.1 hm with rfl | hm
        · exact ⟨a, ha, fun w hw => List.mem_append_left _ hw⟩
        · obtain ⟨m, h1, h2⟩ := eMap_inv ht m' hm
          exact ⟨m, h1, fun w hw => List.mem_append_right _ (h2 w hw)⟩

theorem eForEach_inv {f : Val → E Val} {v : Val} {l' : List Val} (h : (eForEach f v).1 = .ok (.list l')) :
    ∀ m' ∈ l', ∃ m, (f m).1 = .ok m' ∧ ∀ w ∈ (f m).2, w ∈ (eForEach f v).2 := by
  unfold eForEach at h ⊢
  cases v with
  | list l =>
    simp only [forEach] at h ⊢
    rw [mapE_mute] at h
    cases hm : (eMap f l).1 with
    | error e => rw [hm] at h; cases h
    | ok l2 => rw [hm] at h; cases h; exact eMap_inv hm
  | tuple l =>
    simp only [forEach] at h
    cases hm : mapE (mute f) l with
    | error e => rw [hm] at h; cases h
    | ok l2 => rw [hm] at h; cases h
  | str s => cases s <;> cases h
  | bytes s => cases s <;> cases h
  | dict s => cases s <;> cases h
  | _ => cases h

theorem eAll_inv {f : Val → E Val} {t : List (Val → E Val)} {v v2 : Val} (h : (eAll (f :: t) v).1 = .ok v2) :
    ∃ v1, (f v).1 = .ok v1 ∧ (eAll t v1).1 = .ok v2 ∧ (eAll (f :: t) v).2 = (f v).2 ++ (eAll t v1).2 := by
  simp only [eAll] at h ⊢
  cases hf : (f v).1 with
  | error e => rw [hf] at h; cases h
  | ok v1 => rw [hf] at h; exact ⟨v1, rfl, h, rfl⟩

/-- A blob that was read. -/
theorem resE_blob {v : Val} {x : L Val} {Q : Val → Prop} (h : Res lg x Q) : ResE lg (eBlob v x) Q := by
  intro a e hl
  unfold eBlob at e hl
  cases hb : toBytes v with
  | error e' => rw [hb] at e; cases e
  | ok b =>
    rw [hb] at e hl
    simp only at e hl
    cases hr : x.run b with
    | error e' => rw [hr] at e; cases e
    | ok q => obtain ⟨r, s'⟩ := q; rw [hr] at e; cases e; exact h b _ _ hr hl

theorem resE_emptyOr {v d : Val} {x : L Val} {Q : Val → Prop} (hd : Q d) (h : Res lg x Q) : ResE lg (eEmptyOr d v x) Q := by
  intro a e hl
  unfold eEmptyOr at e hl
  cases hn : v.len with
  | error e' => rw [hn] at e; cases e
  | ok n =>
    rw [hn] at e hl
    cases n with
    | zero => cases e; exact hd
    | succ n => exact resE_blob h a e hl

theorem resE_onValues {v : Val} {f : Val → E Val} {Q : Val → Prop} (h : ∀ b, ResE lg (f b) Q) : ResE lg (eOnValues f v) Q := by
  intro a e hl
  unfold eOnValues at e hl
  cases hn : v.get (P "values") with
  | error e' => rw [hn] at e; cases e
  | ok b => rw [hn] at e hl; exact h b a e hl

/-! ### the decoders -/

theorem res_campEnd {mt v : Val} {Q : Val → Prop} (h : Q v) : Res lg (lCampEnd mt v) Q :=
  res_bind' _ fun _ => res_tellIf fun _ => res_pure h

/-- A key that a dict does not have. -/
theorem dget_absent {d : Dict} {k : PyStr} (h : ∀ q ∈ d, q.1 ≠ k) : dget? d k = none := by
  cases hd : dget? d k with
  | none => rfl
  | some x => exact absurd rfl (h _ (dget_mem hd))

theorem get_dict_absent {d : Dict} {k : PyStr} (h : ∀ q ∈ d, q.1 ≠ k) : (Val.dict d).get k = .error .key := by
  simp only [Val.get, dget_absent h]

theorem get_absent {l : List (String × Val)} {k : String} (h : ∀ q ∈ l, q.1 ≠ k) : (dct l).get (P k) = .error .key := by
  refine get_dict_absent fun q hq => ?_
  obtain ⟨a, ha, rfl⟩ := List.mem_map.1 hq
  exact P_ne (h a ha)

theorem dget_append {d e : Dict} {k : PyStr} (h : ∀ q ∈ d, q.1 ≠ k) : dget? (d ++ e) k = dget? e k := by
  induction d with
  | nil => rfl
  | cons a t ih =>
    simp only [List.cons_append, dget?]
    rw [if_neg (h a List.mem_cons_self), ih fun q hq => h q (List.mem_cons_of_mem _ hq)]

theorem path_two {v : Val} {k k' : PyStr} {x : Val} (h : v.path [k, k'] = .ok x) : ∃ y, v.get k = .ok y ∧ y.get k' = .ok x := by
  simp only [Val.path] at h
  cases hg : v.get k with
  | error e => rw [hg] at h; cases h
  | ok y =>
    rw [hg] at h
    simp only at h
    cases hh : y.get k' with
    | error e => rw [hh] at h; cases h
    | ok z => rw [hh] at h; cases h; exact ⟨y, rfl, hh⟩

theorem path_one {v : Val} {k : PyStr} {x : Val} (h : v.path [k] = .ok x) : v.get k = .ok x := by
  simp only [Val.path] at h
  cases hg : v.get k with
  | error e => rw [hg] at h; cases h
  | ok y => rw [hg] at h; cases h; rfl

theorem isS_str {v : Val} {s : String} (h : v.isS s = true) : v = .str (P s) := by
  cases v <;> simp_all [Val.isS]

theorem res_campModule (an : Bool) (mt raw : Val) : Res lg (lCampModule an mt raw) fun r => ∀ x, r.get (P "values") = .ok x →
    .noModule mt ∈ lg ∨ (mt = .str (P "EPalBaseCampModuleType::TransportItemDirector") ∧ .rawTransport ∈ lg) ∨
    (mt = .str (P "EPalBaseCampModuleType::PassiveEffect") ∧ .rawPassive ∈ lg) := by
  unfold lCampModule
  refine res_ite (fun _ => res_campEnd (fun x h => by cases h)) fun _ => res_ite (fun h => ?_) fun _ => res_ite (fun h => ?_) fun _ => ?_
  · exact res_try (res_bind' _ fun _ => res_campEnd fun x h => by rw [get_absent (by simp)] at h; cases h) fun _ => res_tell fun hm => res_pure fun _ _ => .inr (.inl ⟨isS_str h, hm⟩)
  · exact res_try (res_bind' _ fun _ => res_campEnd fun x h => by rw [get_absent (by simp)] at h; cases h) fun _ => res_tell fun hm => res_pure fun _ _ => .inr (.inr ⟨isS_str h, hm⟩)
  · exact res_tell fun hm => res_pure fun _ _ => .inl hm

theorem campModule1_reported (an : Bool) (m : Val) : ResE lg (eCampModule1 an m) (CampReported lg) := by
  intro m' e hl t raw ht hraw
  unfold eCampModule1 at e hl
  cases hk : m.get (P "key") with
  | error e' => rw [hk] at e; cases e
  | ok mt =>
    rw [hk] at e hl
    simp only at e hl
    have hkey : m'.path [P "key"] = m.path [P "key"] := path_part e (.inl (by decide +kernel))
    simp only [Val.path, ht, hk] at hkey
    cases hkey
    obtain ⟨x, x', _, h2, h3, h4⟩ := eUpd_inv e
    rw [← h3] at hl
    have := path_app h4 [P "values"]
    rw [show ks ["value", "RawData", "value"] ++ [P "values"] = ks ["value", "RawData", "value", "values"] from rfl, hraw] at this
    refine resE_onValues (fun b => resE_blob (res_campModule an t b)) x' h2 hl raw ?_
    exact path_one this.symm

theorem ret_pure' {α : Type} {a : α} {Q : α → Prop} (h : Q a) : Ret (pure a) Q := by
  intro s v s' e; cases e; exact h

theorem ret_ite' {α : Type} {c : Prop} [Decidable c] {a b : R α} {Q : α → Prop} (h : Ret a Q) (g : Ret b Q) : Ret (if c then a else b) Q := by
  split
  · exact h
  · exact g

/-- Keys that are not those of a raw record. -/
def NoRaw (d : Dict) : Prop := ∀ q ∈ d, q.1 ≠ P "values" ∧ q.1 ≠ P "transform"

theorem noRaw_append {d e : Dict} (h : NoRaw d) (g : NoRaw e) : NoRaw (d ++ e) := fun q hq =>
  (List.mem_append.1 hq).elim (h q) (g q)

theorem work_body (an : Bool) (wt : Val) : Ret (workBodyDecode an wt) NoRaw := by
  unfold workBodyDecode
  refine ret_ite' (ret_bind' (S := NoRaw) ?_ fun b hb => ret_bind' (S := NoRaw) ?_ fun x hx => ret_pure' (noRaw_append hb hx)) ?_
  · unfold workBaseDecode
    iterate 18 refine ret_bind fun _ => ?_
    exact ret_pure' (by simp [NoRaw, P_inj])
  · unfold workExtraDecode
    refine ret_ite' ?_ (ret_ite' ?_ (ret_ite' ?_ ?_))
    · exact ret_bind fun _ => ret_pure' (by simp [NoRaw, P_inj])
    · exact ret_bind fun _ => ret_bind fun _ => ret_bind fun _ => ret_bind fun _ => ret_pure' (by simp [NoRaw, P_inj])
    · exact ret_bind fun _ => ret_pure' (by simp [NoRaw, P_inj])
    · exact ret_pure' (by simp [NoRaw])
  · unfold workAssignDecode
    iterate 6 refine ret_bind fun _ => ?_
    refine ret_ite' (ret_bind fun _ => ret_pure' ?_) (ret_pure' ?_) <;> simp [NoRaw, P_inj]

theorem res_transform (an : Bool) (wt : Val) : Res lg (lTransform an wt) fun r => ∀ x, r.get (P "raw_data") = .ok x →
    ∃ n : Nat, r.get (P "type") = .ok (.int n) ∧ .rawTransform n wt ∈ lg := by
  unfold lTransform
  refine res_bind' _ fun t => res_ite (fun _ => ?_) fun _ => res_ite (fun _ => ?_) fun _ => res_ite (fun _ => ?_) fun _ => ?_
  · exact res_bind' _ fun _ => res_bind' _ fun _ => res_bind' _ fun _ => res_pure fun x h => by rw [get_absent (by simp)] at h; cases h
  · exact res_bind' _ fun _ => res_pure fun x h => by rw [get_absent (by simp)] at h; cases h
  · exact res_bind' _ fun _ => res_bind' _ fun _ => res_pure fun x h => by rw [get_absent (by simp)] at h; cases h
  · exact res_bind' _ fun _ => res_tell fun hm => res_pure fun x h => ⟨t, by simp [dct, Val.get, dget?, P_inj], hm⟩

theorem res_work (an : Bool) (wt raw : Val) : Res lg (lWork an wt raw) fun r => (∀ x, r.get (P "values") = .ok x → .rawWork wt ∈ lg) ∧
    ∀ x, r.path (ks ["transform", "raw_data"]) = .ok x →
      ∃ n : Nat, r.path (ks ["transform", "type"]) = .ok (.int n) ∧ .rawTransform n wt ∈ lg := by
  have key : ∀ (c : Prop) [Decidable c], Res lg
      (if c then do
        let d ← L.lift (workBodyDecode an wt)
        let t ← lTransform an wt
        L.lift rCheckEofFor
        return .dict (d ++ [(P "transform", t)])
      else do
        L.tell (.rawWork wt)
        return dct [("values", raw)]) fun r => (∀ x, r.get (P "values") = .ok x → .rawWork wt ∈ lg) ∧
    ∀ x, r.path (ks ["transform", "raw_data"]) = .ok x →
      ∃ n : Nat, r.path (ks ["transform", "type"]) = .ok (.int n) ∧ .rawTransform n wt ∈ lg := by
    intro c _
    refine res_ite (fun _ => ?_) fun _ => ?_
    · refine res_bind (res_lift (work_body an wt)) fun d hd => res_bind (res_transform an wt) fun t ht => res_bind' _ fun _ => res_pure ⟨?_, ?_⟩
      · intro x hx
        rw [get_dict_absent] at hx
        · cases hx
        · intro q hq
          rcases List.mem_append.1 hq with hq | hq
          · exact (hd q hq).1
          · cases List.mem_singleton.1 hq
            exact P_ne (by decide)
      · have hg : (Val.dict (d ++ [(P "transform", t)])).get (P "transform") = .ok t := by
          simp only [Val.get]
          rw [dget_append fun q hq => (hd q hq).2]
          simp [dget?]
        intro x hx
        obtain ⟨y, h1, h2⟩ := path_two (k := P "transform") (k' := P "raw_data") hx
        rw [hg] at h1
        cases h1
        obtain ⟨n, h3, h4⟩ := ht x h2
        refine ⟨n, ?_, h4⟩
        show (Val.dict _).path (P "transform" :: [P "type"]) = _
        rw [path_cons hg]
        simp only [Val.path, h3]
    · refine res_tell fun hm => res_pure ⟨fun _ _ => hm, fun x hx => ?_⟩
      obtain ⟨y, h1, h2⟩ := path_two (k := P "transform") (k' := P "raw_data") hx
      rw [get_absent (by simp)] at h1
      cases h1
  unfold lWork
  cases wt <;> first | exact key _ | exact res_fail

theorem work1_reported (an : Bool) (m : Val) : ResE lg (eWork1 an m) (WorkReported lg) := by
  intro m' e hl t ht
  unfold eWork1 at e hl
  cases hb : m.path (ks ["RawData", "value", "values"]) with
  | error e' => rw [hb] at e; cases e
  | ok b =>
    rw [hb] at e hl
    cases hw : m.path (ks ["WorkableType", "value", "value"]) with
    | error e' => rw [hw] at e; cases e
    | ok wt =>
      rw [hw] at e hl
      simp only at e hl
      obtain ⟨m1, e1, e2, e3⟩ := eAll_inv e
      obtain ⟨m2, e4, e5, -⟩ := eAll_inv e2
      cases e5
      rw [e3] at hl
      have q1 : m'.path (ks ["WorkableType", "value", "value"]) = m.path (ks ["WorkableType", "value", "value"]) := by
        exact (path_part_upd (ks' := ks ["WorkableType", "value", "value"]) e4 (.inl (P_ne (by decide)))).trans
          (path_part (ks' := ks ["WorkableType", "value", "value"]) e1 (.inl (P_ne (by decide))))
      rw [ht, hw] at q1
      cases q1
      obtain ⟨x, x', -, h2, h3, h4⟩ := eUpd_inv e1
      have hq : ∀ l, m'.path (ks ["RawData", "value"] ++ l) = x'.path l := by
        intro l
        have h5 : m'.path (ks ["RawData", "value"]) = m1.path (ks ["RawData", "value"]) :=
          path_part_upd e4 (.inl (P_ne (by decide)))
        exact path_app (h5.trans h4) l
      have := resE_blob (res_work an t b) x' h2 fun w hw => hl w (List.mem_append_left _ (by rw [← h3]; exact hw))
      refine ⟨fun raw hr => this.1 raw (path_one ?_), fun raw hr => ?_⟩
      · rw [← hq]; exact hr
      · obtain ⟨n, h6, h7⟩ := this.2 raw (by rw [← hq]; exact hr)
        exact ⟨n, by rw [← h6, ← hq]; rfl, h7⟩

theorem res_connector : Res lg lConnector (ConnectorReported lg) := by
  unfold lConnector
  refine res_bind' _ fun lv => res_bind' _ fun ix => res_bind' _ fun ap => res_bind' _ fun e => res_bind' _ fun n => res_bind' _ fun o =>
    res_tellIf fun hm => res_pure ?_
  intro l hl h2 h4
  cases e with
  | true =>
    rw [get_dict_absent (by simp [P_inj])] at hl
    cases hl
  | false =>
    have : (Val.dict ([(P "supported_level", Val.int lv), (P "connect", dct [("index", .int ix), ("any_place", ap)])] ++
        [(P "other_connectors", .list o)])).get (P "other_connectors") = .ok (.list o) := by
      simp [Val.get, dget?, P_inj]
    have h5 := this.symm.trans hl
    cases h5
    exact hm ⟨rfl, h2, h4⟩

theorem connectorBlob_reported (b : Val) : ResE lg (eConnectorBlob b) (ConnectorReported lg) :=
  resE_emptyOr (fun l h => by rw [get_absent (by simp)] at h; cases h) res_connector

/-- The key of a raw record and that of a hatching egg are not among these. -/
def NoVal (d : Dict) : Prop := ∀ q ∈ d, q.1 ≠ P "values" ∧ q.1 ≠ P "hatched_character_save_parameter"

theorem res_one {k : String} {x : R Val} (h : k ≠ "values" ∧ k ≠ "hatched_character_save_parameter") : Ret (one k x) NoVal :=
  ret_bind fun _ => ret_pure' (by simp [NoVal, P_inj, h.1, h.2])

theorem opt_ite {o p : Option (R Dict)} {c : Prop} [Decidable c] {Q : Dict → Prop} (h : ∀ x, o = some x → Ret x Q)
    (g : ∀ x, p = some x → Ret x Q) : ∀ x, (if c then o else p) = some x → Ret x Q := by
  split
  · exact h
  · exact g

theorem opt_some {y : R Dict} {Q : Dict → Prop} (h : Ret y Q) : ∀ x, some y = some x → Ret x Q := by
  intro x e; cases e; exact h

theorem ret_pickup : Ret pickupBase NoVal := ret_bind fun _ => ret_pure' (by simp [NoVal, P_inj])

theorem concrete_body (an : Bool) (rec : R Val) (c : String) (hne : c ≠ "PalMapObjectHatchingEggModel") : ∀ x, concreteBody an rec c = some x → Ret x NoVal := by
  unfold concreteBody
  refine opt_ite (opt_some ?_) ?_
  · intro s v s' e; cases e; simp [NoVal]
  refine opt_ite (opt_some (ret_bind fun _ => ret_bind fun _ => ret_pure' (by simp [NoVal, P_inj]))) ?_
  refine opt_ite (opt_some (ret_bind fun _ => ret_bind fun _ => ret_bind fun _ => ret_bind fun _ => ret_pure' (by simp [NoVal, P_inj]))) ?_
  refine opt_ite (opt_some ret_pickup) ?_
  refine opt_ite (opt_some (ret_bind' ret_pickup fun a ha => ret_bind fun _ => ret_bind fun _ => ret_bind fun _ => ret_pure' fun q hq => ?_)) ?_
  · rcases List.mem_append.1 hq with hq | hq
    · exact ha q hq
    · cases List.mem_singleton.1 hq; exact ⟨P_ne (by decide), P_ne (by decide)⟩
  refine opt_ite (opt_some (res_one (by decide))) ?_
  refine opt_ite (opt_some (res_one (by decide))) ?_
  refine opt_ite (opt_some (ret_bind fun _ => ret_bind fun _ => ret_bind fun _ => ret_pure' (by simp [NoVal, P_inj]))) ?_
  refine opt_ite (opt_some (res_one (by decide))) ?_
  refine opt_ite (opt_some (ret_bind fun _ => ret_bind fun _ => ret_bind fun _ => ret_bind fun _ => ret_bind' (S := NoVal)
    (ret_bind fun _ => ret_ite' (ret_pure' (by simp [NoVal])) (ret_bind fun _ => ret_bind fun _ => ret_pure' (by simp [NoVal, P_inj])))
    fun st hst => ret_pure' fun q hq => ?_)) ?_
  · rcases List.mem_append.1 hq with hq | hq
    · simp only [List.mem_cons, List.not_mem_nil, or_false] at hq
      rcases hq with rfl | rfl | rfl | rfl <;> exact ⟨P_ne (by decide), P_ne (by decide)⟩
    · exact hst q hq
  refine opt_ite (opt_some (res_one (by decide))) ?_
  refine opt_ite (opt_some (res_one (by decide))) ?_
  refine opt_ite (opt_some (ret_bind fun _ => ret_bind fun _ => ret_pure' (by simp [NoVal, P_inj]))) ?_
  refine opt_ite (opt_some (res_one (by decide))) ?_
  rw [if_neg hne]
  refine opt_ite (opt_some (res_one (by decide))) ?_
  refine opt_ite (opt_some (res_one (by decide))) ?_
  refine opt_ite (opt_some (res_one (by decide))) ?_
  refine opt_ite (opt_some (res_one (by decide))) ?_
  refine opt_ite (opt_some (res_one (by decide))) ?_
  refine opt_ite (opt_some (res_one (by decide))) ?_
  intro x e; cases e

/-- The body of a concrete model: not raw, and what a hatching egg holds is a property list. -/
def BodyOk (T : Val → Prop) (d : Dict) : Prop := ∀ q ∈ d, q.1 ≠ P "values" ∧ (q.1 = P "hatched_character_save_parameter" → T q.2)

theorem res_concreteBody {T : Val → Prop} (an : Bool) {rec : L Val} (hrec : Res lg rec T) (c : String) {x : L Dict}
    (h : lConcreteBody an rec c = some x) : Res lg x (BodyOk T) := by
  unfold lConcreteBody at h
  split at h
  · cases h
    refine res_bind hrec fun o ho => res_bind' _ fun _ => res_bind' _ fun _ => res_pure fun q hq => ?_
    simp only [List.mem_cons, List.not_mem_nil, or_false] at hq
    rcases hq with rfl | rfl | rfl
    · exact ⟨P_ne (by decide), fun _ => ho⟩
    · exact ⟨P_ne (by decide), fun e => absurd e (P_ne (by decide))⟩
    · exact ⟨P_ne (by decide), fun e => absurd e (P_ne (by decide))⟩
  · rename_i hne
    cases hc : concreteBody an rec.run c with
    | none => rw [hc] at h; cases h
    | some y =>
      rw [hc] at h; cases h
      exact res_lift fun s a s' e q hq =>
        have := concrete_body an _ c hne y hc s a s' e q hq
        ⟨this.1, fun e => absurd e this.2⟩

/-- The record of a concrete model, when raw, is announced, and what a hatching egg holds is a good property list. -/
def RawModel (lg : List Warning) (T : Val → Prop) (oid r : Val) : Prop :=
  (∀ raw, r.get (P "values") = .ok raw → raw ≠ .list [] →
    ∃ o, oid = .str o ∧ (.noClass o ∈ lg ∨ ∃ c, concreteClass? o = some c ∧ .noModel c ∈ lg)) ∧
  ∀ x, r.get (P "hatched_character_save_parameter") = .ok x → T x

theorem hatched_raw {T : Val → Prop} {raw x : Val} (h : (dct [("values", raw)]).get (P "hatched_character_save_parameter") = .ok x) : T x := by
  rw [get_absent (by simp)] at h; cases h

theorem res_concrete {T : Val → Prop} (an : Bool) {rec : L Val} (hrec : Res lg rec T) (oid raw : Val) :
    Res lg (lConcrete an rec oid raw) (RawModel lg T oid) := by
  unfold lConcrete
  cases oid <;> try exact res_fail
  rename_i o
  simp only
  cases hc : concreteClass? o with
  | none => exact res_tell fun hm => res_pure ⟨fun _ _ _ => ⟨o, rfl, .inl hm⟩, fun _ => hatched_raw⟩
  | some c =>
    refine res_bind' _ fun i => res_bind' _ fun m => ?_
    cases hb : lConcreteBody an rec c with
    | none => exact res_tell fun hm => res_pure ⟨fun _ _ _ => ⟨o, rfl, .inr ⟨c, hc, hm⟩⟩, fun _ => hatched_raw⟩
    | some body =>
      refine res_bind (res_concreteBody an hrec c hb) fun d hd => res_bind' _ fun _ => res_pure ⟨fun x hx => ?_, fun x hx => ?_⟩
      · rw [get_dict_absent] at hx
        · cases hx
        · intro q hq
          rcases List.mem_append.1 hq with hq | hq
          · simp only [List.mem_cons, List.not_mem_nil, or_false] at hq
            rcases hq with rfl | rfl | rfl <;> exact P_ne (by decide)
          · exact (hd q hq).1
      · have hx : (match dget? ([(P "instance_id", i), (P "model_instance_id", m), (P "concrete_model_type", Val.str (P c))] ++ d)
            (P "hatched_character_save_parameter") with
            | some v => Except.ok v
            | none => .error Err.key) = .ok x := hx
        rw [dget_append] at hx
        · cases hg : dget? d (P "hatched_character_save_parameter") with
          | none => rw [hg] at hx; cases hx
          | some y =>
            rw [hg] at hx
            cases hx
            exact (hd _ (dget_mem hg)).2 rfl
        · intro q hq
          simp only [List.mem_cons, List.not_mem_nil, or_false] at hq
          rcases hq with rfl | rfl | rfl <;> exact P_ne (by decide)

theorem concreteBlob_reported {T : Val → Prop} (an : Bool) {rec : L Val} (hrec : Res lg rec T) (oid b : Val) :
    ResE lg (eConcreteBlob an rec oid b) (RawModel lg T oid) := by
  refine resE_emptyOr ⟨?_, fun _ => hatched_raw⟩ (res_concrete an hrec oid b)
  intro raw h hne
  have : (dct [("values", Val.list [])]).get (P "values") = .ok (.list []) := by simp [dct, Val.get, dget?]
  rw [this] at h
  cases h
  exact absurd rfl hne

theorem mapObject1_reported {T : Val → Prop} (an : Bool) {rec : L Val} (hrec : Res lg rec T) (m : Val) : ResE lg (eMapObject1 an rec m) fun m' =>
    ((∀ x, m'.path (ks ["Model", "value", "Connector", "value", "RawData", "value"]) = .ok x → ConnectorReported lg x) ∧
      ConcreteReported lg m') ∧
    ∀ x, m'.path (ks ["ConcreteModel", "value", "RawData", "value", "hatched_character_save_parameter"]) = .ok x → T x := by
  intro m' e hl
  unfold eMapObject1 at e hl
  obtain ⟨m1, e1, f1, g1⟩ := eAll_inv e
  obtain ⟨m2, e2, f2, g2⟩ := eAll_inv f1
  obtain ⟨m3, e3, f3, g3⟩ := eAll_inv f2
  obtain ⟨m4, e4, f4, g4⟩ := eAll_inv f3
  obtain ⟨m5, e5, f5, -⟩ := eAll_inv f4
  cases f5
  rw [g1, g2, g3, g4] at hl
  have n1 : P "ConcreteModel" ≠ P "Model" := P_ne (by decide)
  have n2 : P "BuildProcess" ≠ P "Connector" := P_ne (by decide)
  have n3 : P "ModuleMap" ≠ P "RawData" := P_ne (by decide)
  have n4 : P "ConcreteModel" ≠ P "MapObjectId" := P_ne (by decide)
  have hcon : ∃ oid y', m'.path (ks ["ConcreteModel", "value", "RawData", "value"]) = .ok y' ∧
      m'.path (ks ["MapObjectId", "value"]) = .ok oid ∧ RawModel lg T oid y' := by
    unfold eConcrete1 at e4 hl
    cases ho : m3.path (ks ["MapObjectId", "value"]) with
    | error er => rw [ho] at e4; cases e4
    | ok oid =>
      rw [ho] at e4 hl
      simp only at e4 hl
      obtain ⟨y, y', -, h2, h3, h4⟩ := eUpd_inv e4
      have p : m'.path (ks ["ConcreteModel", "value", "RawData", "value"]) = m4.path (ks ["ConcreteModel", "value", "RawData", "value"]) :=
        path_part_upd e5 (.inr ⟨rfl, .inr ⟨rfl, .inl n3⟩⟩)
      have q : m'.path (ks ["MapObjectId", "value"]) = m3.path (ks ["MapObjectId", "value"]) :=
        (path_part_upd (ks' := ks ["MapObjectId", "value"]) e5 (.inl n4)).trans
          (path_part (ks' := ks ["MapObjectId", "value"]) e4 (.inl n4))
      exact ⟨oid, y', p.trans h4, q.trans ho, resE_onValues (concreteBlob_reported an hrec oid) y' h2 (fun w hw => hl w (by
        rw [h3] at hw
        exact List.mem_append_right _ (List.mem_append_right _ (List.mem_append_right _ (List.mem_append_left _ hw)))))⟩
  refine ⟨⟨?_, ?_⟩, ?_⟩
  · intro x hx
    obtain ⟨y, y', -, h2, h3, h4⟩ := eUpd_inv e2
    unfold eConcrete1 at e4
    cases ho : m3.path (ks ["MapObjectId", "value"]) with
    | error er => rw [ho] at e4; cases e4
    | ok oid =>
      rw [ho] at e4
      have p : m'.path (ks ["Model", "value", "Connector", "value", "RawData", "value"]) =
          m2.path (ks ["Model", "value", "Connector", "value", "RawData", "value"]) :=
        (path_part_upd (ks' := ks ["Model", "value", "Connector", "value", "RawData", "value"]) e5 (.inl n1)).trans
          ((path_part (ks' := ks ["Model", "value", "Connector", "value", "RawData", "value"]) e4 (.inl n1)).trans
          (path_part_upd e3 (.inr ⟨rfl, .inr ⟨rfl, .inl n2⟩⟩)))
      rw [hx, h4] at p
      cases p
      refine resE_onValues connectorBlob_reported _ h2 fun w hw => hl w ?_
      rw [h3] at hw
      exact List.mem_append_right _ (List.mem_append_left _ hw)
  · intro raw hraw hne
    obtain ⟨oid, y', p, q, h⟩ := hcon
    obtain ⟨o, h7, h8⟩ := h.1 raw (path_one ((path_app p [P "values"]).symm.trans hraw)) hne
    exact ⟨o, by rw [q, h7], h8⟩
  · intro x hx
    obtain ⟨oid, y', p, q, h⟩ := hcon
    exact h.2 x (path_one ((path_app p [P "hatched_character_save_parameter"]).symm.trans hx))

end

end Warn
end Pal
