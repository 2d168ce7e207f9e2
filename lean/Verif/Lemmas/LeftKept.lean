import Verif.Lemmas.LeftRel
/-
A save, failed or not, changes decoded properties only.
-/

namespace Pal.Hist
open Spec

theorem kept_all2 : ∀ {l l' : List Val}, All2 Kept l l' → List.Forall₂ Kept l l'
  | [], _, .nil => .nil
  | _ :: _, _, .cons h t => .cons h (kept_all2 t)

theorem kept_fq {v u : Val} (h : FQ (fun _ => Kept) v u) : Kept v u := by
  rcases h with rfl | ⟨d, e, rfl, rfl, ha⟩
  · exact .same
  · refine .dict ?_ ?_
    · induction ha with
      | nil => rfl
      | cons h1 _ ih => simp only [List.map_cons, h1.1, ih]
    · induction ha with
      | nil => exact .nil
      | cons h1 _ ih => exact .cons h1.2 ih

/-- The value of a key is replaced on the right. -/
theorem fq_put {Q : PyStr → Val → Val → Prop} (hr : ∀ k x, Q k x x) {v u : Val} (h : FQ Q v u) {k : PyStr} {x y u' : Val}
    (hx : v.get k = .ok x) (hxy : Q k x y) (hs : u.set k y = .ok u') : FQ Q v u' := by
  cases v <;> simp only [Val.get, reduceCtorEq] at hx
  rename_i d
  obtain ⟨e, rfl, ha⟩ := fq_dict hr h
  cases hs
  have hx' : dget? d k = some x := by
    cases hd : dget? d k with
    | none => rw [hd] at hx; cases hx
    | some z => rw [hd] at hx; cases hx; rfl
  clear hx h
  refine .inr ⟨_, _, rfl, rfl, ?_⟩
  induction ha with
  | nil => cases hx'
  | @cons a b s t h1 hst ih =>
    obtain ⟨k1, x1⟩ := a
    obtain ⟨k2, x2⟩ := b
    obtain ⟨h1, h2⟩ := h1
    simp only at h1 h2
    subst h1
    simp only [dget?] at hx'
    simp only [dset]
    by_cases hk : k1 = k
    · subst hk
      simp only [if_true, Option.some.injEq] at hx'
      subst hx'
      simp only [if_true]
      exact .cons ⟨rfl, hxy⟩ hst
    · simp only [if_neg hk] at hx' ⊢
      exact .cons ⟨rfl, h2⟩ (ih hx')

theorem keptF_refl : ∀ (k : PyStr) (x : Val), (fun _ => Kept) k x x := fun _ _ => .same

theorem kept_on {v u : Val} (h : FQ (fun _ => Kept) v u) {k : String} {l : Val → Val} (hg : u.get (P k) = v.get (P k))
    (hl : ∀ x, Kept x (l x)) : FQ (fun _ => Kept) v (lOn u k l) := by
  unfold lOn
  cases hx : u.get (P k) with
  | error e => exact h
  | ok x =>
    simp only
    cases hs : u.set (P k) (l x) with
    | error e => exact h
    | ok u' => exact fq_put keptF_refl h (by rw [← hg]; exact hx) (hl x) hs

theorem kept_seq (f : Val → W) {l : Val → Val} (hl : ∀ x, Kept x (l x)) (v : Val) : Kept v (lSeq f l v) := by
  have ha : ∀ xs : List Val, List.Forall₂ Kept xs (lMapL f l xs) := by
    intro xs
    induction xs with
    | nil => exact .nil
    | cons a t ih =>
      simp only [lMapL]
      split
      · refine .cons (hl a) ?_
        clear ih
        induction t with
        | nil => exact .nil
        | cons b t ih => exact .cons .same ih
      · exact .cons (hl a) ih
  unfold lSeq
  split
  · exact .list (ha _)
  · exact .tuple (ha _)
  · exact .same

theorem kept_structValue {l : Val → Val} (hl : ∀ x, Kept x (l x)) (st x : Val) : Kept x (lStructValue l st x) := by
  unfold lStructValue
  repeat' split
  all_goals first
    | exact .same
    | exact hl x

theorem kept_propValue {l : Val → Val} (hl : ∀ x, Kept x (l x)) (ty st x : Val) : Kept x (lPropValue l ty st x) := by
  unfold lPropValue
  split
  · exact kept_structValue hl st x
  · exact .same

theorem lOn_get {v : Val} {k k' : String} {l : Val → Val} (hn : P k' ≠ P k) : (lOn v k l).get (P k') = v.get (P k') := by
  unfold lOn
  split
  · rfl
  · split
    · rfl
    · rename_i h; exact get_set_ne h hn

theorem kept_entry {r : Val → W} {l : Val → Val} (ha : Agr r l) (hl : ∀ x, Kept x (l x)) (p x : Val) : Kept x (lMapEntry r l p x) := by
  apply kept_fq
  unfold lMapEntry
  cases h1 : p.get (P "key_type") with
  | error e => exact .inl rfl
  | ok kt =>
  cases h2 : p.get (P "key_struct_type") with
  | error e => exact .inl rfl
  | ok kst =>
  have hk : FQ (fun _ => Kept) x (lOn x "key" (lPropValue l kt kst)) := kept_on (.inl rfl) rfl (kept_propValue hl _ _)
  cases h3 : wOn x "key" (wPropValue r kt kst) with
  | error e => simp only [h3]; exact hk
  | ok q =>
  obtain ⟨c, y1⟩ := q
  have hg := wOn_get h3 (k' := P "value") (by decide +kernel)
  rw [agr_on (agr_propValue ha _ _) h3] at hk
  simp only [h3]
  cases h4 : p.get (P "value_type") with
  | error e => exact hk
  | ok vt =>
  cases h5 : p.get (P "value_struct_type") with
  | error e => exact hk
  | ok vst => exact kept_on hk hg (kept_propValue hl _ _)

theorem kept_array {r : Val → W} {l : Val → Val} (hl : ∀ x, Kept x (l x)) (at_ x : Val) : Kept x (lArrayProperty r l at_ x) := by
  unfold lArrayProperty
  split
  · exact .same
  · split
    · split
      · exact .same
      · refine kept_fq (kept_on (.inl rfl) rfl (kept_seq _ fun y => ?_))
        unfold lStructElem
        split
        · exact .same
        · exact kept_structValue hl _ y
    · exact .same

/-- A property that is not decoded: only its value may change. -/
theorem kept_plain {r : Val → W} {l : Val → Val} (ha : Agr r l) (hl : ∀ x, Kept x (l x)) (ty p : Val) :
    Kept p (lPlainInner r l ty p) ∧ ∀ k, k ≠ P "value" → (lPlainInner r l ty p).get k = p.get k := by
  have key : ∀ {m : Val → Val}, (∀ x, Kept x (m x)) → Kept p (lOn p "value" m) ∧ ∀ k, k ≠ P "value" → (lOn p "value" m).get k = p.get k := by
    intro m hm
    refine ⟨kept_fq (kept_on (.inl rfl) rfl hm), fun k hk => ?_⟩
    unfold lOn
    split
    · rfl
    · split
      · rfl
      · rename_i h; exact get_set_ne h hk
  have same : Kept p p ∧ ∀ k, k ≠ P "value" → p.get k = p.get k := ⟨.same, fun _ _ => rfl⟩
  unfold lPlainInner lMapBody
  repeat' split
  all_goals first
    | exact same
    | exact key (kept_structValue hl _)
    | exact key (kept_array hl _)
    | exact key (kept_seq _ (kept_entry ha hl _))

theorem del_get {v w : Val} {c k : PyStr} (h : v.del c = .ok w) (hk : k ≠ c) : w.get k = v.get k := by
  cases v <;> simp only [Val.del, reduceCtorEq] at h
  rename_i d
  split at h
  · cases h
    have : dget? (derase d c) k = dget? d k := by
      clear * - hk
      induction d with
      | nil => rfl
      | cons a t ih =>
        obtain ⟨k', x⟩ := a
        simp only [derase]
        by_cases e : k' = c
        · rw [if_pos e]; simp only [dget?, e, Ne.symm hk, if_false]; exact ih
        · rw [if_neg e]; simp only [dget?, ih]
    simp only [Val.get, this]
  · cases h

theorem pre_get {c : CodecId} {wp : Val → Except Err Bytes} {v v' : Val} (h : c.pre wp v = .ok v') {k : PyStr} (h1 : k ≠ P "custom_type")
    (h2 : k ≠ P "value") : v'.get k = v.get k := by
  have key : ∀ {f : Val → Except Err Val} {t : List PyStr}, delThen (Val.upd f (P "value" :: t)) v = .ok v' → v'.get k = v.get k := by
    intro f t h
    unfold delThen at h
    cases h3 : v.del (P "custom_type") with
    | error e => rw [h3] at h; cases h
    | ok w =>
      rw [h3] at h
      simp only [Val.upd] at h
      cases h4 : w.get (P "value") with
      | error e => rw [h4] at h; cases h
      | ok x =>
        rw [h4] at h
        simp only at h
        cases h5 : x.upd f t with
        | error e => rw [h5] at h; cases h
        | ok x' =>
          rw [h5] at h
          rw [get_set_ne h h2]
          exact del_get h3 h1
  cases c <;> simp only [CodecId.pre, encodeValue, ks, List.map] at h <;> first | exact key h | exact del_get h h1

theorem left_get (c : CodecId) (wp : Val → Except Err Bytes) (v : Val) {k : PyStr} (h1 : k ≠ P "custom_type") (h2 : k ≠ P "value") :
    (c.left wp v).get k = v.get k := by
  have key : ∀ {l : Val → Val} {t : List PyStr}, (delLeft (updLeft l (P "value" :: t)) v).get k = v.get k := by
    intro l t
    unfold delLeft
    cases h3 : v.del (P "custom_type") with
    | error e => rfl
    | ok w =>
      simp only [updLeft]
      split
      · exact del_get h3 h1
      · split
        · exact del_get h3 h1
        · rename_i h; rw [get_set_ne h h2]; exact del_get h3 h1
  have key' : (delLeft id v).get k = v.get k := by
    unfold delLeft
    cases h3 : v.del (P "custom_type") with
    | error e => rfl
    | ok w => exact del_get h3 h1
  cases c <;> simp only [CodecId.left, ks, List.map] <;> first | exact key | exact key'

theorem get_dict {d : Dict} {u : Val} {k0 k1 : PyStr} (h : ∀ k, k ≠ k0 → k ≠ k1 → u.get k = (Val.dict d).get k) :
    ∃ d', u = .dict d' ∧ ∀ k, k ≠ k0 → k ≠ k1 → dget? d' k = dget? d k := by
  have hu : ∃ d', u = .dict d' := by
    have hk : ∃ k : PyStr, k ≠ k0 ∧ k ≠ k1 := by
      refine ⟨k0 ++ k1 ++ P "x", fun e => ?_, fun e => ?_⟩
      · have := congrArg List.length e
        simp [P] at this
      · have := congrArg List.length e
        simp [P] at this
        omega
    obtain ⟨k, h0, h1⟩ := hk
    have hg := h k h0 h1
    cases u <;> simp only [Val.get] at hg <;> first | exact ⟨_, rfl⟩ | (cases hd : dget? d k <;> rw [hd] at hg <;> cases hg)
  obtain ⟨d', rfl⟩ := hu
  refine ⟨d', rfl, fun k h0 h1 => ?_⟩
  have hg := h k h0 h1
  simp only [Val.get] at hg
  cases h1 : dget? d' k <;> cases h2 : dget? d k <;> rw [h1, h2] at hg <;> cases hg <;> rfl

theorem get_isDict {p x : Val} {k : PyStr} (hg : p.get k = .ok x) : ∃ d, p = .dict d ∧ (dget? d k).isSome := by
  cases p <;> simp only [Val.get, reduceCtorEq] at hg
  rename_i d
  refine ⟨d, rfl, ?_⟩
  cases hd : dget? d k with
  | none => rw [hd] at hg; cases hg
  | some z => rfl

theorem kept_property {cfg : Cfg} {r : Val → W} {l : Val → Val} {wp : Val → Except Err Bytes} (ha : Agr r l) (hl : ∀ x, Kept x (l x))
    (p : Val) : Kept p (lProperty cfg r l wp p) := by
  unfold lProperty
  split
  · exact .same
  · split
    · exact .same
    · unfold lInner
      split
      · exact .same
      · exact (kept_plain ha hl _ p).1
      · rename_i hc
        split
        · rename_i s hg
          split
          · exact .same
          · rename_i c _
            split
            · obtain ⟨d, rfl, hd⟩ := get_isDict hg
              have fin : ∀ u : Val, (∀ k, k ≠ P "custom_type" → k ≠ P "value" → u.get k = (Val.dict d).get k) → Kept (.dict d) u := by
                intro u hu
                obtain ⟨d', rfl, h⟩ := get_dict hu
                exact .decoded hd h
              split
              · exact fin _ fun k h1 h2 => left_get c wp _ h1 h2
              · rename_i p' hp
                exact fin _ fun k h1 h2 => by rw [(kept_plain ha hl _ p').2 k h2]; exact pre_get hp h1 h2
            · exact .same
        · exact .same

theorem kept_body {f : Val → W} {l : Val → Val} (hl : ∀ x, Kept x (l x)) (v : Val) : Kept v (lPropsBody f l v) := by
  cases v <;> try exact .same
  rename_i d
  refine .dict ?_ ?_
  · induction d with
    | nil => rfl
    | cons a t ih =>
      simp only [lEntries]
      split
      · rfl
      · split
        · rfl
        · simp only [List.map_cons, ih]
  · induction d with
    | nil => exact .nil
    | cons a t ih =>
      have hs : ∀ t : Dict, List.Forall₂ Kept (t.map Prod.snd) (t.map Prod.snd) := by
        intro t
        induction t with
        | nil => exact .nil
        | cons b t ih => exact .cons .same ih
      simp only [lEntries]
      split
      · exact .cons .same (hs t)
      · split
        · exact .cons (hl _) (hs t)
        · exact .cons (hl _) ih

theorem kept_props (cfg : Cfg) : ∀ n v, Kept v (lProps n cfg v)
  | 0, _ => .same
  | n + 1, v => by
    rw [lProps_succ]
    exact kept_body (fun x => kept_property (agr_props n cfg) (kept_props cfg n) x) v

theorem within_trans {x y z : Val} (h : Inside x y) (h' : Inside y z) : Inside x z := by
  induction h' with
  | here => exact h
  | list hm _ ih => exact .list hm ih
  | tuple hm _ ih => exact .tuple hm ih
  | dict hm _ ih => exact .dict hm ih

mutual
theorem kept_eq : ∀ (v : Val) {v' : Val}, Kept v v' → NothingDecoded v → v' = v
  | .list l, _, .list h, hn => by rw [kept_eqL l h fun v hv d hd => hn d (.list hv hd)]
  | .tuple l, _, .tuple h, hn => by rw [kept_eqL l h fun v hv d hd => hn d (.tuple hv hd)]
  | .dict d, _, .decoded h _, hn => by rw [hn d .here] at h; cases h
  | .dict d, _, .dict h1 h2, hn => by
    rw [kept_eqD d h1 h2 fun kv hkv d' hd => hn d' (.dict (k := kv.1) (v := kv.2) hkv hd)]
  | _, _, .same, _ => rfl
theorem kept_eqL : ∀ (l : List Val) {l' : List Val}, List.Forall₂ Kept l l' → (∀ v ∈ l, NothingDecoded v) → l' = l
  | [], _, .nil, _ => rfl
  | a :: t, _, .cons h1 h2, hn => by
    rw [kept_eq a h1 (hn a (by simp)), kept_eqL t h2 fun v hv => hn v (by simp [hv])]
theorem kept_eqD : ∀ (d : List (PyStr × Val)) {d' : List (PyStr × Val)}, d'.map Prod.fst = d.map Prod.fst →
    List.Forall₂ Kept (d.map Prod.snd) (d'.map Prod.snd) → (∀ kv ∈ d, NothingDecoded kv.2) → d' = d
  | [], [], _, _, _ => rfl
  | [], _ :: _, h, _, _ => by cases h
  | _ :: _, [], h, _, _ => by cases h
  | (k, a) :: t, (k', a') :: t', h1, h2, hn => by
    simp only [List.map_cons, List.cons.injEq] at h1
    cases h2 with
    | cons h3 h4 =>
      have e1 := kept_eq a h3 (hn (k, a) (by simp))
      have e2 := kept_eqD t h1.2 h4 fun v hv => hn v (by simp [hv])
      rw [e2, h1.1]
      simp only at e1
      rw [e1]
end

end Pal.Hist
