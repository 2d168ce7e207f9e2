import Verif.Lemmas.TreeCodec
/-
`Undo` for each custom property.
-/

set_option linter.unusedSimpArgs false

namespace Pal
open Spec

variable {m : Mode} {N : Nat}

/-- What `decode` does to the "value" of the plain property. -/
def CodecId.post1 (c : CodecId) (an : Bool) (rec : R Val) : Val → Except Err Val :=
  match c with
  | .group => forEach groupPost1
  | .character => onValues (fun b => runBlob b (characterDecode rec))
  | .itemContainer => onValues (fun b => emptyOr .none b itemContainerDecode)
  | .itemContainerSlots => onValues (fun b => emptyOr .none b (itemContainerSlotsDecode an))
  | .characterContainer => onValues (fun b => emptyOr .none b charContainerDecode)
  | .dynamicItem => onValues (fun b => emptyOr .none b (dynamicItemDecode an rec))
  | .foliageModel => onValues (fun b => runBlob b foliageModelDecode)
  | .foliageModelInstance => onValues (fun b => runBlob b (foliageInstanceDecode an))
  | .baseCamp => onValues (fun b => runBlob b (baseCampDecode an))
  | .workerDirector => onValues (fun b => runBlob b (workerDirectorDecode an))
  | .workCollection => onValues (fun b => runBlob b workCollectionDecode)
  | .baseCampModule => forEach (campModulePost1 an)
  | .work => Val.upd (forEach (workPost1 an)) [P "values"]
  | .mapObject => Val.upd (forEach (mapObjectPost1 an rec)) [P "values"]
  | .debug => fun v => match v.get (P "values") with
    | .error e => .error e
    | .ok b => match b.len, b.iterItems with
      | .error e, _ => .error e
      | _, .error e => .error e
      | .ok _, .ok l => match mapE debugPrint1 l with
        | .ok _ => .ok v
        | .error e => .error e
  | .connector => onValues connectorBlob
  | .buildProcess => onValues (fun b => runBlob b buildProcessDecode)
  | .mapModel => onValues (fun b => runBlob b (mapModelDecode an))

/-- base_camp_module's `encode`, had it replaced the decoded dict instead of adding
"values" to it. -/
def campAlt1 (e : Val) : Except Err Val :=
  match e.get (P "key") with
  | .error e => .error e
  | .ok mt => e.upd (unlessValues (asValuesBytes (campModuleEncode mt))) (ks ["value", "RawData", "value"])

/-- What `encode` does to the "value". -/
def CodecId.pre1 (c : CodecId) (wp : Val → Except Err Bytes) : Val → Except Err Val :=
  match c with
  | .group => forEach groupPre1
  | .character => asValuesList (characterEncode wp)
  | .itemContainer => asValuesList (noneOr itemContainerEncode)
  | .itemContainerSlots => asValuesList (noneOr itemContainerSlotsEncode)
  | .characterContainer => asValuesList (noneOr charContainerEncode)
  | .dynamicItem => asValuesList (noneOr (dynamicItemEncode wp))
  | .foliageModel => asValuesList foliageModelEncode
  | .foliageModelInstance => asValuesList foliageInstanceEncode
  | .baseCamp => asValuesList baseCampEncode
  | .workerDirector => asValuesList workerDirectorEncode
  | .workCollection => asValuesList workCollectionEncode
  | .baseCampModule => forEach campAlt1
  | .work => Val.upd (forEach workPre1) [P "values"]
  | .mapObject => Val.upd (forEach (mapObjectPre1 wp)) [P "values"]
  | .debug => fun v => .ok v
  | .connector => asValuesList (noneOr connectorEncode)
  | .buildProcess => asValuesList buildProcessEncode
  | .mapModel => asValuesList mapModelEncode

/-! ### simple records -/

theorem undo_rec {x : R Val} {w : Val → Except Err Bytes} {b : Bytes} {v : Val} (hr : ∀ rest, x (b ++ rest) = fin v rest)
    (hw : w v = .ok b) (hj : m.json = true → JOk m.an v) (hn : NoTuple v) :
    Undo m N (fun _ => onValues fun t => runBlob t x) (fun _ => asValuesList w) (rawVal b) :=
  undo_list (f := fun _ t => runBlob t x) (fun _ _ => runBlob_T (read_fin hr)) (fun _ _ => hw) hj hn

theorem undo_recOr {x : R Val} {w : Val → Except Err Bytes} {b : Bytes} {v : Val} (hb : b ≠ [])
    (hr : ∀ rest, x (b ++ rest) = fin v rest) (hw : noneOr w v = .ok b) (hj : m.json = true → JOk m.an v) (hn : NoTuple v) :
    Undo m N (fun _ => onValues fun t => emptyOr .none t x) (fun _ => asValuesList (noneOr w)) (rawVal b) :=
  undo_list (f := fun _ t => emptyOr .none t x) (fun _ _ => emptyOr_T hb (read_fin hr)) (fun _ _ => hw) hj hn

theorem itemContainer_ne (r : Permission) : r.enc ≠ [] := by
  intro h
  have := congrArg List.length h
  simp [Permission.enc, eList, lit_length] at this
theorem slots_ne (r : Slots m) : r.enc ≠ [] := by
  intro h
  have := congrArg List.length h
  simp [Slots.enc, Permission.enc, eList, lit_length] at this
theorem charSlot_ne (r : CharSlot) : r.enc ≠ [] := by
  intro h
  have := congrArg List.length h
  simp [CharSlot.enc, e8, lit_length] at this

/-! ### blobs with embedded property lists -/

theorem dynOk_of {cfg : Cfg} (hcfg : cfg.allowNan = m.an) (hc : m.json = true → CfgJson cfg) (d : DynBody m)
    (hd : DynCanon cfg d) (n : Nat) (hn : d.enc.length < n) (h64 : d.enc.length < 2 ^ 64) :
    DynOk m (rPropsLoop cfg n [] []) (bytesOf n) d := by
  cases d with
  | egg c o u g =>
    obtain ⟨ps, h1, rfl⟩ := hd
    simp only [DynBody.enc, List.length_append, objOf] at hn h64
    exact obj_ok hcfg hc ps n (by omega) (by omega) h1
  | armor d => exact notEgg_bytes cfg (overruns_four (by simp [eF32, lit_length])) cfg.custom n hn
  | weapon d b s => exact hd cfg.custom n hn
  | unknown b => exact ⟨hd.1 cfg.custom n hn, hd.2⟩

theorem concreteOk_of {cfg : Cfg} (hcfg : cfg.allowNan = m.an) (hc : m.json = true → CfgJson cfg) (d : ConcreteBody m)
    (hd : ConcreteCanon cfg d) (n : Nat) (hn : d.enc.length < n) (h64 : d.enc.length < 2 ^ 64) :
    ConcreteOk m (rPropsLoop cfg n [] []) (bytesOf n) d := by
  cases d with
  | hatching o u g =>
    obtain ⟨ps, h1, rfl⟩ := hd
    simp only [ConcreteBody.enc, List.length_append, objOf] at hn h64
    exact obj_ok hcfg hc ps n (by omega) (by omega) h1
  | _ => trivial

theorem undo_character {cfg : Cfg} (hcfg : cfg.allowNan = m.an) (hc : m.json = true → CfgJson cfg) (r : Character)
    (ho : ∃ ps : Props m, ObjWf cfg ps ∧ r.obj = objOf cfg ps) (hN : r.enc.length ≤ N) (h64 : r.enc.length < 2 ^ 64) :
    Undo m N (fun n => CodecId.character.post1 m.an (rPropsLoop cfg n [] [])) (fun n => CodecId.character.pre1 (bytesOf n))
      (rawVal r.enc) := by
  obtain ⟨ps, h1, h2⟩ := ho
  have hl : (encProps ps).length ≤ r.enc.length := by
    simp only [Character.enc, List.length_append, h2, objOf]; omega
  have hok : ∀ n, N < n → ObjOk m (rPropsLoop cfg n [] []) (bytesOf n) r.obj := by
    intro n hn
    rw [h2]
    exact obj_ok hcfg hc ps n (by omega) (by omega) h1
  refine undo_list (v := r.val) (f := fun n t => runBlob t (characterDecode (rPropsLoop cfg n [] [])))
    (w := fun n => characterEncode (bytesOf n)) ?_ ?_ ?_ trivial
  · exact fun n hn => runBlob_T (read_fin (character_read r (hok n hn)))
  · exact fun n hn => character_write r (hok n hn)
  · exact fun hj => character_jok r (hok (N + 1) (by omega)) hj

theorem undo_dynamicItem {cfg : Cfg} (hcfg : cfg.allowNan = m.an) (hc : m.json = true → CfgJson cfg) (r : DynItem m)
    (hd : DynCanon cfg r.body) (hN : r.enc.length ≤ N) (h64 : r.enc.length < 2 ^ 64) :
    Undo m N (fun n => CodecId.dynamicItem.post1 m.an (rPropsLoop cfg n [] []))
      (fun n => CodecId.dynamicItem.pre1 (bytesOf n)) (rawVal r.enc) := by
  have hl : r.body.enc.length ≤ r.enc.length := by
    simp only [DynItem.enc, List.length_append]; omega
  have hok : ∀ n, N < n → DynOk m (rPropsLoop cfg n [] []) (bytesOf n) r.body := fun n hn =>
    dynOk_of hcfg hc r.body hd n (by omega) (by omega)
  refine undo_list (v := r.val) (f := fun n t => emptyOr .none t (dynamicItemDecode m.an (rPropsLoop cfg n [] [])))
    (w := fun n => noneOr (dynamicItemEncode (bytesOf n))) ?_ ?_ ?_ trivial
  · exact fun n hn => emptyOr_T (dyn_ne r) (dyn_read r (hok n hn))
  · exact fun n hn => (noneOr_dict _ _).trans (dyn_write r (hok n hn))
  · exact fun hj => dyn_jok r (hok (N + 1) (by omega)) hj

/-! ### no key "values" -/

theorem group_nv (g : Group) : NoValues g.val := by
  refine contains_no _ _ ?_
  cases g.body <;> simp [GroupBody.entries, Org.entries, GuildBase.entries]
theorem mapModel_nv (r : MapModel m) : NoValues r.val := contains_no _ _ (by simp)
theorem connector_nv (r : Connector) : NoValues r.val := by
  refine contains_no _ _ ?_
  split <;> simp
theorem buildProcess_nv (r : BuildProcess) : NoValues r.val := contains_no _ _ (by simp)
theorem campModule_nv (r : CampModule m) : NoValues r.val := by
  cases r <;> exact contains_no _ _ (by simp)
theorem module_nv (r : Module) : NoValues r.val := by
  cases r <;> exact contains_no _ _ (by simp)
theorem concrete_nv (r : Concrete m) : NoValues r.val := by
  refine contains_no _ _ ?_
  cases r.body with
  | farm c s p w g => cases g <;> simp [ConcreteBody.entries]
  | _ => simp [ConcreteBody.entries]

/-! ### groups -/

theorem jokL_mem {an : Bool} {l : List Val} (h : JOkL an l) {x : Val} (hx : x ∈ l) : JOk an x :=
  (jokL_iff an l).1 h x hx

theorem str_noTuple : ∀ (s : PyStr) (l : List Val), Val.str s ≠ .tuple l := fun _ _ h => by cases h

theorem undo_group {cfg : Cfg} (K : CodecId → Val → Val) {e : MVal m × MVal m} {a : Val} {p2 st : PyStr}
    (hw : e.2.Wf cfg noCustom p2 st) (h : GroupEntry e)
    (hj : m.json = true → JOk m.an (vDict [("key", a), ("value", e.2.val cfg K p2)])) :
    Undo m N (fun _ => groupPost1) (fun _ => groupPre1) (vDict [("key", a), ("value", e.2.val cfg K p2)]) := by
  obtain ⟨ps, g, h1, h2, h3⟩ := h
  have hr := rawValue_path K a hw ⟨ps, h1, h3⟩
  rw [h1] at hw
  simp only [MVal.Wf] at hw
  have ht := enum_path K hw.2 h2
  refine undo_upd1 hr.1 (raw_noTuple _) (f := fun _ => onValues fun b => runBlob b (groupDecode (.str g.body.type)))
    (g := fun _ => unlessValues (asValuesList groupEncode))
    (undo_unlessList (v := g.val) (f := fun _ b => runBlob b (groupDecode (.str g.body.type)))
      (w := fun _ => groupEncode)
      (fun _ _ => runBlob_T (read_fin (group_read g))) (fun _ _ => group_write g)
      (fun _ => group_jok m.an g) trivial (group_nv g)) hj trivial ?_
  intro s hs n
  refine ⟨fun _ => ?_, rfl⟩
  have hgt : s.path (ks ["value", "GroupType", "value", "value"]) = .ok (.str g.body.type) := by
    rw [hs _ (by simp [Div, ks, P_inj])]
    simp only [ks, List.map_cons, List.map_nil]
    rw [entry_path, h1]
    simp only [MVal.val, SVal.val]
    exact ht
  simp only [groupPost1, hgt]

/-! ### base camp modules -/

theorem camp_unknown {t : PyStr} (h : ∀ s ∈ campTypes, t ≠ P s) : (Val.str t).isAny campNoOp = false ∧
    (Val.str t).isS "EPalBaseCampModuleType::TransportItemDirector" = false ∧
    (Val.str t).isS "EPalBaseCampModuleType::PassiveEffect" = false := by
  have hsub : ∀ s ∈ campNoOp, s ∈ campTypes := by decide +kernel
  refine ⟨?_, ?_, ?_⟩
  · rw [isAny_str, List.any_eq_false]
    intro s hs
    simp only [decide_eq_true_eq]
    exact fun e => h s (hsub s hs) e.symm
  · rw [isS_str, decide_eq_false_iff_not]
    exact fun e => h _ (by decide +kernel) e.symm
  · rw [isS_str, decide_eq_false_iff_not]
    exact fun e => h _ (by decide +kernel) e.symm

theorem undo_camp {cfg : Cfg} (K : CodecId → Val → Val) {e : MVal m × MVal m} {p1 p2 st : PyStr}
    (hw : e.2.Wf cfg noCustom p2 st) (h : CampEntry e)
    (hj : m.json = true → JOk m.an (vDict [("key", e.1.val cfg K p1), ("value", e.2.val cfg K p2)])) :
    Undo m N (fun _ => campModulePost1 m.an) (fun _ => campAlt1)
      (vDict [("key", e.1.val cfg K p1), ("value", e.2.val cfg K p2)]) := by
  obtain ⟨t, b, h1, h2, h3⟩ := h
  rw [keyIs_val K p1 h1] at hj ⊢
  have hr := rawValue_path K (.str t) hw h2
  refine undo_upd1 hr.1 (raw_noTuple _) (f := fun _ => onValues fun b => runBlob b (campModuleDecode m.an (.str t) b))
    (g := fun _ => unlessValues (asValuesBytes (campModuleEncode (.str t)))) ?_ hj trivial ?_
  · rcases h3 with ⟨c, rfl, rfl⟩ | h3
    · refine undo_unlessBytes (v := c.val) (f := fun _ b => runBlob b (campModuleDecode m.an (.str (P c.type)) b))
        (w := fun _ => campModuleEncode (.str (P c.type))) (fun _ _ => ?_) (fun _ _ => campModule_write c)
        (fun hj => campModule_jok hj c) ?_ (campModule_nv c)
      · exact runBlob_T (s := []) (by simpa using campModule_read c (vBytesT c.enc) [])
      · cases c <;> trivial
    · obtain ⟨u1, u2, u3⟩ := camp_unknown h3
      refine undo_keep (x := vBytesT b) (f := fun _ b => runBlob b (campModuleDecode m.an (.str t) b))
        (g := fun _ => asValuesBytes (campModuleEncode (.str t))) (fun _ _ => ?_) (jok_bytesT _ _) (sim_refl _ _)
      refine runBlob_T (s := b) ?_
      simp only [campModuleDecode, u1, u2, u3, Bool.false_eq_true, if_false]
      rfl
  · intro s hs n
    have hk : s.get (P "key") = .ok (.str t) := by
      have := hs [P "key"] (by simp [Div, ks, P_inj])
      rw [entry_key] at this
      simp only [Val.path] at this
      cases hg : s.get (P "key") with
      | error e => rw [hg] at this; cases this
      | ok x => rw [hg] at this; exact this
    simp only [campModulePost1, campAlt1, hk, implies_true, and_self]

/-! ### work -/

theorem undo_workAssign {cfg : Cfg} (K : CodecId → Val → Val) {v : MVal m} {a : Val} {p2 st : PyStr}
    (hw : v.Wf cfg noCustom p2 st) {r : WorkAssign} (h : RawValue v r.enc)
    (hj : m.json = true → JOk m.an (vDict [("key", a), ("value", v.val cfg K p2)])) :
    Undo m N (fun _ => workAssignPost1) (fun _ => workAssignPre1) (vDict [("key", a), ("value", v.val cfg K p2)]) := by
  have hr := rawValue_path K a hw h
  exact undo_upd hr.1 (undo_rec (workAssign_read r) (workAssign_write r) (fun _ => workAssign_jok _ r) trivial) hj
    (raw_noTuple _)

theorem work_raw_path {s : Val} {b : Bytes} (h : s.path (ks ["RawData", "value"]) = .ok (rawVal b)) :
    s.path (ks ["RawData", "value", "values"]) = .ok (vBytesT b) := by
  have := path_append (q := [P "values"]) h
  simp only [ks, List.map_cons, List.map_nil, List.cons_append, List.nil_append] at this ⊢
  rw [this]
  simp only [Val.path, rawVal_get]

theorem undo_work {cfg : Cfg} (K : CodecId → Val → Val) {v : SVal m} {path : PyStr}
    (hw : v.Wf cfg noCustom path) (h : WorkItem v) (hj : m.json = true → JOk m.an (v.val cfg K path)) :
    Undo m N (fun _ => workPost1 m.an) (fun _ => workPre1) (v.val cfg K path) := by
  obtain ⟨ps, es, w, rfl, h1, h2, h3, h4⟩ := h
  simp only [SVal.val] at hj ⊢
  have hr := raw_path K hw h2
  have ht := enum_path K hw h1
  obtain ⟨pm, kt, vt, m1, m2, m3⟩ := map_path K hw h3
  have hjm : m.json = true → JOkL m.an (valEntries cfg K pm es) := by
    intro h
    have := jok_path (hj h) m3
    simpa only [JOk] using this
  have hU := undo_updAll (m := m) (N := N) (v := .dict (valProps cfg K path ps))
    [⟨ks ["RawData", "value"], rawVal w.enc,
      fun _ => onValues fun b => runBlob b (workDecode m.an (.str (P w.body.type)) b),
      fun _ => asValuesList (workEncode (.str (P w.body.type))),
      fun _ s => match s.path (ks ["RawData", "value", "values"]) with
        | .error e => .error e
        | .ok b => match s.path (ks ["WorkableType", "value", "value"]) with
          | .error e => .error e
          | .ok wt => s.upd (fun _ => runBlob b (workDecode m.an wt b)) (ks ["RawData", "value"]),
      fun _ s => match s.path (ks ["WorkableType", "value", "value"]) with
        | .error e => .error e
        | .ok wt => s.upd (asValuesList (workEncode wt)) (ks ["RawData", "value"])⟩,
     ⟨ks ["WorkAssignMap", "value"], .list (valEntries cfg K pm es), fun _ => forEach workAssignPost1,
      fun _ => forEach workAssignPre1, fun _ s => s.upd (forEach workAssignPost1) (ks ["WorkAssignMap", "value"]),
      fun _ s => s.upd (forEach workAssignPre1) (ks ["WorkAssignMap", "value"])⟩]
    (by simp [Div, ks, P_inj]) hj trivial (by
      intro u hu
      simp only [List.mem_cons, List.not_mem_nil, or_false] at hu
      rcases hu with rfl | rfl
      · refine ⟨hr.1, raw_noTuple _, ?_, ?_⟩
        · refine undo_list (v := w.val) (f := fun _ b => runBlob b (workDecode m.an (.str (P w.body.type)) b))
            (w := fun _ => workEncode (.str (P w.body.type))) (fun _ _ => ?_) (fun _ _ => work_write w)
            (fun hj => work_jok hj w) trivial
          exact runBlob_T (read_finFor (work_read w (vBytesT w.enc)))
        · intro s hs n
          have hgt : s.path (ks ["WorkableType", "value", "value"]) = .ok (.str (P w.body.type)) :=
            (hs _ (by simp [Div, ks, P_inj])).trans ht
          refine ⟨fun hp => ?_, by simp only [hgt]⟩
          simp only [hgt, work_raw_path hp]
          exact upd_congr_at hp (by simp only; rw [onValues_raw])
      · refine ⟨m3, (fun l h => by cases h), ?_, fun s hs n => ⟨fun _ => rfl, rfl⟩⟩
        refine undo_forEach (f := fun _ => workAssignPost1) (g := fun _ => workAssignPre1) ?_
        intro x hx
        obtain ⟨e, he, p1, p2, st, rfl, q2, q3⟩ := entries_mem m1 hx
        obtain ⟨a, ha⟩ := h4 e he
        exact undo_workAssign K q2 ha fun h => jokL_mem (hjm h) hx)
  obtain ⟨y, z, g1, g2⟩ := hU
  refine ⟨y, z, fun n hn => ?_, g2⟩
  have := g1 n hn
  clear g1 g2
  simp only [List.map_cons, List.map_nil, updAll] at this
  refine ⟨?_, ?_⟩
  · rw [← this.1]
    simp only [workPost1]
    generalize Val.path (.dict (valProps cfg K path ps)) (ks ["RawData", "value", "values"]) = o1
    generalize Val.path (.dict (valProps cfg K path ps)) (ks ["WorkableType", "value", "value"]) = o2
    cases o1 with
    | error e => rfl
    | ok b =>
      cases o2 with
      | error e => rfl
      | ok wt =>
        simp only
        generalize Val.upd _ _ (Val.dict (valProps cfg K path ps)) = o3
        cases o3 with
        | error e => rfl
        | ok y => simp only; cases Val.upd _ _ y <;> rfl
  · rw [← this.2]
    simp only [workPre1]
    generalize Val.path y (ks ["WorkableType", "value", "value"]) = o1
    cases o1 with
    | error e => rfl
    | ok wt =>
      simp only
      generalize Val.upd _ _ y = o3
      cases o3 with
      | error e => rfl
      | ok y => simp only; cases Val.upd _ _ y <;> rfl

end Pal
