import Verif.Spec.File
/-
Files that are well-formed with some custom properties enabled are well-formed with fewer.
-/

namespace Pal
open Spec

variable {m : Mode}

theorem keyStruct_eq {A B : Cfg} (h : Selects A B) (p : PyStr) : keyStruct A p = keyStruct B p := by
  simp only [keyStruct, h.hint]
theorem valueStruct_eq {A B : Cfg} (h : Selects A B) (p : PyStr) : valueStruct A p = valueStruct B p := by
  simp only [valueStruct, h.hint]

mutual
theorem wf_subS {A B : Cfg} (h : Selects A B) : ∀ (v : SVal m) (C C' : CodecId → PropT m → Prop)
    (_ : ∀ c p, C c p → C' c p) (path : PyStr), v.Wf B C path → v.Wf A C' path
  | .props ps, C, C', hC, path, hw => by
    simp only [SVal.Wf] at hw ⊢
    exact ⟨hw.1, wf_subP h ps C C' hC path hw.2⟩
  | .vector _, _, _, _, _, _ => by simp only [SVal.Wf]
  | .dateTime _, _, _, _, _, _ => by simp only [SVal.Wf]
  | .guid _, _, _, _, _, _ => by simp only [SVal.Wf]
  | .quat _, _, _, _, _, _ => by simp only [SVal.Wf]
  | .color .., _, _, _, _, _ => by simp only [SVal.Wf]
theorem wf_subM {A B : Cfg} (h : Selects A B) : ∀ (v : MVal m) (C C' : CodecId → PropT m → Prop)
    (_ : ∀ c p, C c p → C' c p) (path st : PyStr), v.Wf B C path st → v.Wf A C' path st
  | .struct s, C, C', hC, path, st, hw => by
    simp only [MVal.Wf] at hw ⊢
    exact ⟨hw.1, wf_subS h s C C' hC path hw.2⟩
  | .enum _, _, _, _, _, _, _ => by simp only [MVal.Wf]
  | .name _, _, _, _, _, _, _ => by simp only [MVal.Wf]
  | .int _, _, _, _, _, _, _ => by simp only [MVal.Wf]
  | .bool _, _, _, _, _, _, _ => by simp only [MVal.Wf]
theorem wf_subT {A B : Cfg} (h : Selects A B) : ∀ (p : PropT m) (C C' : CodecId → PropT m → Prop)
    (_ : ∀ c p, C c p → C' c p) (path : PyStr), p.Wf B C path → p.Wf A C' path
  | .struct _ _ _ v, C, C', hC, path, hw => by
    simp only [PropT.Wf] at hw ⊢
    exact ⟨hw.1, wf_subS h v C C' hC path hw.2⟩
  | .structs _ pn _ tn _ l, C, C', hC, path, hw => by
    simp only [PropT.Wf] at hw ⊢
    exact ⟨hw.1, wf_subL h l C C' hC _ _ hw.2⟩
  | .map kt vt _ l, C, C', hC, path, hw => by
    simp only [PropT.Wf] at hw ⊢
    exact ⟨hw.1, wf_subE h l C C' hC _ _ _ hw.2⟩
  | .enums _ _, _, _, _, _, hw => by simpa only [PropT.Wf] using hw
  | .names _ _, _, _, _, _, hw => by simpa only [PropT.Wf] using hw
  | .others .., _, _, _, _, hw => by simp only [PropT.Wf] at hw
  | .guids _ _, _, _, _, _, hw => by simpa only [PropT.Wf] using hw
  | .bytes _ _, _, _, _, _, hw => by simpa only [PropT.Wf] using hw
  | .int .., _, _, _, _, _ => by simp only [PropT.Wf]
  | .int64 .., _, _, _, _, _ => by simp only [PropT.Wf]
  | .fixed64 .., _, _, _, _, _ => by simp only [PropT.Wf]
  | .float .., _, _, _, _, _ => by simp only [PropT.Wf]
  | .str .., _, _, _, _, _ => by simp only [PropT.Wf]
  | .name .., _, _, _, _, _ => by simp only [PropT.Wf]
  | .enum .., _, _, _, _, _ => by simp only [PropT.Wf]
  | .bool .., _, _, _, _, _ => by simp only [PropT.Wf]
theorem wf_subL {A B : Cfg} (h : Selects A B) : ∀ (l : List (SVal m)) (C C' : CodecId → PropT m → Prop)
    (_ : ∀ c p, C c p → C' c p) (path st : PyStr), wfSVals B C path st l → wfSVals A C' path st l
  | [], _, _, _, _, _, _ => by simp only [wfSVals]
  | v :: t, C, C', hC, path, st, hw => by
    simp only [wfSVals] at hw ⊢
    exact ⟨hw.1, wf_subS h v C C' hC path hw.2.1, wf_subL h t C C' hC path st hw.2.2⟩
theorem wf_subE {A B : Cfg} (h : Selects A B) : ∀ (l : List (MVal m × MVal m)) (C C' : CodecId → PropT m → Prop)
    (_ : ∀ c p, C c p → C' c p) (path kt vt : PyStr), wfEntries B C path kt vt l → wfEntries A C' path kt vt l
  | [], _, _, _, _, _, _, _ => by simp only [wfEntries]
  | (k, v) :: t, C, C', hC, path, kt, vt, hw => by
    simp only [wfEntries] at hw ⊢
    rw [keyStruct_eq h, valueStruct_eq h]
    exact ⟨hw.1, wf_subM h k C C' hC _ _ hw.2.1, hw.2.2.1, wf_subM h v C C' hC _ _ hw.2.2.2.1,
      wf_subE h t C C' hC path kt vt hw.2.2.2.2⟩
theorem wf_subP {A B : Cfg} (h : Selects A B) : ∀ (l : List (Str × PropT m)) (C C' : CodecId → PropT m → Prop)
    (_ : ∀ c p, C c p → C' c p) (path : PyStr), wfProps B C path l → wfProps A C' path l
  | [], _, _, _, _, _ => by simp only [wfProps]
  | (n, p) :: t, C, C', hC, path, hw => by
    simp only [wfProps] at hw ⊢
    refine ⟨hw.1, ?_, wf_subP h t C C' hC path hw.2.2⟩
    have h2 := hw.2.1
    cases ha : A.custom (sub path n) with
    | none =>
      simp only
      cases hb : B.custom (sub path n) with
      | none => simp only [hb] at h2; exact wf_subT h p C C' hC _ h2
      | some c =>
        simp only [hb] at h2
        exact wf_subT h p noCustom C' (fun _ _ h => h.elim) _ h2.2.2
    | some c =>
      simp only [h.custom _ _ ha] at h2
      exact ⟨h2.1, hC _ _ h2.2.1, wf_subT h p noCustom noCustom (fun _ _ h => h) _ h2.2.2⟩
end

theorem showProp_sub {A B : Cfg} (h : Selects A B) (K : CodecId → Val → Val) (path : PyStr) (p : PropT m) (x : Val)
    (hb : B.custom path = none) : showProp A K path p x = showProp B K path p x := by
  have ha : A.custom path = none := by
    cases ha : A.custom path with
    | none => rfl
    | some c => rw [h.custom _ _ ha] at hb; cases hb
  simp only [showProp, ha, hb]
  cases p <;> simp only [PropT.entries, keyStruct_eq h, valueStruct_eq h]

mutual
theorem val_subS {A B : Cfg} (h : Selects A B) (K : CodecId → Val → Val) : ∀ (v : SVal m) (path : PyStr),
    v.Wf B noCustom path → v.val A K path = v.val B K path
  | .props ps, path, hw => by
    simp only [SVal.Wf] at hw
    simp only [SVal.val, val_subP h K ps path hw.2]
  | .vector _, _, _ => by simp only [SVal.val]
  | .dateTime _, _, _ => by simp only [SVal.val]
  | .guid _, _, _ => by simp only [SVal.val]
  | .quat _, _, _ => by simp only [SVal.val]
  | .color .., _, _ => by simp only [SVal.val]
theorem val_subM {A B : Cfg} (h : Selects A B) (K : CodecId → Val → Val) : ∀ (v : MVal m) (path st : PyStr),
    v.Wf B noCustom path st → v.val A K path = v.val B K path
  | .struct s, path, st, hw => by
    simp only [MVal.Wf] at hw
    simp only [MVal.val, val_subS h K s path hw.2]
  | .enum _, _, _, _ => by simp only [MVal.val]
  | .name _, _, _, _ => by simp only [MVal.val]
  | .int _, _, _, _ => by simp only [MVal.val]
  | .bool _, _, _, _ => by simp only [MVal.val]
theorem val_subT {A B : Cfg} (h : Selects A B) (K : CodecId → Val → Val) : ∀ (v : PropT m) (path : PyStr),
    v.Wf B noCustom path → v.val A K path = v.val B K path
  | .struct _ _ _ v, path, hw => by
    simp only [PropT.Wf] at hw
    simp only [PropT.val, val_subS h K v path hw.2]
  | .structs _ pn _ tn _ l, path, hw => by
    simp only [PropT.Wf] at hw
    simp only [PropT.val, val_subL h K l _ _ hw.2]
  | .map kt vt _ l, path, hw => by
    simp only [PropT.Wf] at hw
    simp only [PropT.val, val_subE h K l _ _ _ hw.2]
  | .enums _ _, _, _ => by simp only [PropT.val]
  | .names _ _, _, _ => by simp only [PropT.val]
  | .others .., _, _ => by simp only [PropT.val]
  | .guids _ _, _, _ => by simp only [PropT.val]
  | .bytes _ _, _, _ => by simp only [PropT.val]
  | .int .., _, _ => by simp only [PropT.val]
  | .int64 .., _, _ => by simp only [PropT.val]
  | .fixed64 .., _, _ => by simp only [PropT.val]
  | .float .., _, _ => by simp only [PropT.val]
  | .str .., _, _ => by simp only [PropT.val]
  | .name .., _, _ => by simp only [PropT.val]
  | .enum .., _, _ => by simp only [PropT.val]
  | .bool .., _, _ => by simp only [PropT.val]
theorem val_subL {A B : Cfg} (h : Selects A B) (K : CodecId → Val → Val) : ∀ (l : List (SVal m)) (path st : PyStr),
    wfSVals B noCustom path st l → valSVals A K path l = valSVals B K path l
  | [], _, _, _ => by simp only [valSVals]
  | v :: t, path, st, hw => by
    simp only [wfSVals] at hw
    simp only [valSVals, val_subS h K v path hw.2.1, val_subL h K t path st hw.2.2]
theorem val_subE {A B : Cfg} (h : Selects A B) (K : CodecId → Val → Val) :
    ∀ (l : List (MVal m × MVal m)) (path kt vt : PyStr),
    wfEntries B noCustom path kt vt l → valEntries A K path l = valEntries B K path l
  | [], _, _, _, _ => by simp only [valEntries]
  | (k, v) :: t, path, kt, vt, hw => by
    simp only [wfEntries] at hw
    simp only [valEntries, val_subM h K k _ _ hw.2.1, val_subM h K v _ _ hw.2.2.2.1, val_subE h K t _ _ _ hw.2.2.2.2]
theorem val_subP {A B : Cfg} (h : Selects A B) (K : CodecId → Val → Val) : ∀ (l : List (Str × PropT m)) (path : PyStr),
    wfProps B noCustom path l → valProps A K path l = valProps B K path l
  | [], _, _ => by simp only [valProps]
  | (n, p) :: t, path, hw => by
    simp only [wfProps] at hw
    obtain ⟨h1, h2, h3⟩ := hw
    cases hb : B.custom (sub path n) with
    | some c => simp only [hb, noCustom, false_and, and_false] at h2
    | none =>
      simp only [hb] at h2
      simp only [valProps, val_subT h K p _ h2, showProp_sub h K _ p _ hb, val_subP h K t path h3]
end

theorem objWf_sub {A B : Cfg} (h : Selects A B) {ps : Props m} (hw : ObjWf B ps) :
    ObjWf A ps ∧ objOf B ps = objOf A ps :=
  ⟨⟨hw.1, wf_subP h ps _ _ (fun _ _ h => h) [] hw.2⟩, by
    simp only [objOf, val_subP h plainK ps [] hw.2]⟩

theorem exObj_sub {A B : Cfg} (h : Selects A B) {o : Obj} (hw : ∃ ps : Props m, ObjWf B ps ∧ o = objOf B ps) :
    ∃ ps : Props m, ObjWf A ps ∧ o = objOf A ps := by
  obtain ⟨ps, h1, h2⟩ := hw
  exact ⟨ps, (objWf_sub h h1).1, h2.trans (objWf_sub h h1).2⟩

theorem notEgg_sub {A B : Cfg} (h : Selects A B) {b : Bytes} (hw : NotEggBytes B b) : NotEggBytes A b := by
  intro custom n hn
  have := hw custom n hn
  rwa [show ({ A with custom := custom } : Cfg) = { B with custom := custom } by rw [h.hint, h.nan]]

theorem dyn_sub {A B : Cfg} (h : Selects A B) {d : DynBody m} (hw : DynCanon B d) : DynCanon A d := by
  cases d with
  | egg c o u g => exact exObj_sub h hw
  | armor d => trivial
  | weapon d b s => exact notEgg_sub h hw
  | unknown b => exact ⟨notEgg_sub h hw.1, hw.2⟩

theorem concrete_sub {A B : Cfg} (h : Selects A B) {d : ConcreteBody m} (hw : ConcreteCanon B d) : ConcreteCanon A d := by
  cases d with
  | hatching o u g => exact exObj_sub h hw
  | _ => trivial

theorem concreteRaw_sub {A B : Cfg} (h : Selects A B) {oid : PyStr} {b : Bytes} (hw : ConcreteRaw m B oid b) :
    ConcreteRaw m A oid b := by
  obtain h1 | h1 | h1 | ⟨c, h1, h2⟩ := hw
  · exact .inl h1
  · exact .inr (.inl h1)
  · exact .inr (.inr (.inl h1))
  · exact .inr (.inr (.inr ⟨c, concrete_sub h h1, h2⟩))

theorem mapObject_sub {A B : Cfg} (h : Selects A B) {v : SVal m} (hw : MapObject B v) : MapObject A v := by
  obtain ⟨ps, ms, cs, bs, qs, es, oid, cb, b, h1, h2, h3, h4, h5, h6, h7, h8, h9, h10, h11, h12, h13⟩ := hw
  exact ⟨ps, ms, cs, bs, qs, es, oid, cb, b, h1, h2, h3, h4, h5, h6, h7, h8, h9, h10, h11, concreteRaw_sub h h12, h13⟩

theorem canon_sub {A B : Cfg} (h : Selects A B) (c : CodecId) (p : PropT m) (hw : Canon B c p) : Canon A c p := by
  cases c <;> simp only [Canon] at hw ⊢ <;> try exact hw
  · obtain ⟨c, h1, h2⟩ := hw
    exact ⟨c, exObj_sub h h1, h2⟩
  · obtain h1 | ⟨r, h1, h2⟩ := hw
    · exact .inl h1
    · exact .inr ⟨r, dyn_sub h h1, h2⟩
  · obtain ⟨id, pn, pt, tn, gid, l, h1, h2⟩ := hw
    exact ⟨id, pn, pt, tn, gid, l, h1, fun v hv => mapObject_sub h (h2 v hv)⟩

/-- Files stay well-formed when custom properties are disabled. -/
theorem fileWf_sub {A B : Cfg} (h : Selects A B) {f : File m} (hw : f.Wf B) : f.Wf A :=
  ⟨wf_subS h _ _ _ (canon_sub h) [] hw.1, hw.2⟩

end Pal
