import Verif.Lemmas.TreeCodec2
import Verif.Lemmas.Foliage
/-
`Undo` for map objects, and all custom properties together.
-/

set_option linter.unusedSimpArgs false

namespace Pal
open Spec

variable {m : Mode} {N : Nat}

/-- An empty blob shown as an empty list. -/
theorem undo_empty {x : Nat → R Val} {g : Nat → Val → Except Err Val} :
    Undo m N (fun n => onValues fun t => emptyOr (dct [("values", .list [])]) t (x n)) (fun n => unlessValues (g n))
      (rawVal []) :=
  undo_keep (x := .list []) (f := fun n t => emptyOr (dct [("values", .list [])]) t (x n)) (fun _ _ => rfl)
    (by simp only [JOk, JOkL]) (.tupleList .nil)

theorem undo_mapConnector {cb : Bytes} (h : cb = [] ∨ ∃ c : Connector, cb = c.enc) :
    Undo m N (fun _ => onValues connectorBlob) (fun _ => unlessValues (asValuesBytes (noneOr connectorEncode)))
      (rawVal cb) := by
  rcases h with rfl | ⟨c, rfl⟩
  · exact undo_empty (x := fun _ => connectorDecode) (g := fun _ => asValuesBytes (noneOr connectorEncode))
  · refine undo_unlessBytes (v := c.val) (f := fun _ => connectorBlob) (w := fun _ => noneOr connectorEncode)
      (fun _ _ => ?_) (fun _ _ => ?_) (fun _ => connector_jok _ c) ?_ (connector_nv c)
    · exact emptyOr_T (connector_ne c) (connector_read c)
    · refine Eq.trans ?_ (connector_write c)
      unfold Connector.val
      split <;> exact noneOr_dict _ _
    · unfold Connector.val
      split <;> trivial

theorem concreteBody_unknown (an : Bool) (rec : R Val) : concreteBody an rec unknownClass = none := by
  unfold concreteBody unknownClass concreteNoOp
  simp only [String.reduceEq, List.mem_cons, List.not_mem_nil, or_self, if_false, List.contains_cons, List.contains_nil,
    Bool.or_false, beq_iff_eq]

theorem undo_concrete {cfg : Cfg} (hcfg : cfg.allowNan = m.an) (hc : m.json = true → CfgJson cfg) {oid : PyStr} {b : Bytes}
    (h : ConcreteRaw m cfg oid b) (hN : b.length ≤ N) (h64 : b.length < 2 ^ 64) :
    Undo m N (fun n => onValues (concreteBlob m.an (rPropsLoop cfg n [] []) (.str oid)))
      (fun n => unlessValues (asValuesBytes (noneOr (concreteEncode (bytesOf n))))) (rawVal b) := by
  by_cases hb : b = []
  · subst hb
    exact undo_keep (x := .list []) (f := fun n => concreteBlob m.an (rPropsLoop cfg n [] []) (.str oid))
      (g := fun n => asValuesBytes (noneOr (concreteEncode (bytesOf n)))) (fun _ _ => rfl)
      (by simp only [JOk, JOkL]) (.tupleList .nil)
  rcases h with h | h | h | ⟨c, h1, h2, rfl⟩
  · exact absurd h hb
  · refine undo_keep (x := vBytesT b) (f := fun n => concreteBlob m.an (rPropsLoop cfg n [] []) (.str oid))
      (g := fun n => asValuesBytes (noneOr (concreteEncode (bytesOf n)))) (fun n _ => ?_) (jok_bytesT _ _) (sim_refl _ _)
    refine emptyOr_T (s := b) hb ?_
    simp only [concreteDecode, h]
    rfl
  · refine undo_keep (x := vBytesT b) (f := fun n => concreteBlob m.an (rPropsLoop cfg n [] []) (.str oid))
      (g := fun n => asValuesBytes (noneOr (concreteEncode (bytesOf n)))) (fun n _ => ?_) (jok_bytesT _ _) (sim_refl _ _)
    refine emptyOr_T (s := (b.drop 16).drop 16) hb ?_
    simp only [concreteDecode, h, concreteBody_unknown]
    rfl
  · have hl : c.body.enc.length ≤ c.enc.length := by
      simp only [Concrete.enc, List.length_append]; omega
    have hok : ∀ n, N < n → ConcreteOk m (rPropsLoop cfg n [] []) (bytesOf n) c.body := fun n hn =>
      concreteOk_of hcfg hc c.body h1 n (by omega) (by omega)
    refine undo_unlessBytes (v := c.val) (f := fun n => concreteBlob m.an (rPropsLoop cfg n [] []) (.str oid))
      (w := fun n => noneOr (concreteEncode (bytesOf n))) (fun n hn => ?_) (fun n hn => ?_)
      (concrete_jok c (hok (N + 1) (by omega))) trivial (concrete_nv c)
    · refine emptyOr_T (s := []) hb ?_
      have := concrete_read c (hok n hn) oid h2 (vBytesT c.enc) [] (fun _ _ _ _ _ => rfl)
      rw [List.append_nil] at this
      exact this
    · exact (noneOr_dict _ _).trans (concrete_write c (hok n hn))

theorem undo_module {cfg : Cfg} (K : CodecId → Val → Val) {e : MVal m × MVal m} {p1 p2 st : PyStr}
    (hw : e.2.Wf cfg noCustom p2 st) (h : ModuleEntry e)
    (hj : m.json = true → JOk m.an (vDict [("key", e.1.val cfg K p1), ("value", e.2.val cfg K p2)])) :
    Undo m N (fun _ => moduleMapPost1) (fun _ => moduleMapPre1)
      (vDict [("key", e.1.val cfg K p1), ("value", e.2.val cfg K p2)]) := by
  obtain ⟨t, b, h1, h2, h3⟩ := h
  rw [keyIs_val K p1 h1] at hj ⊢
  have hr := rawValue_path K (.str t) hw h2
  refine undo_upd1 hr.1 (raw_noTuple _) (f := fun _ => onValues (moduleBlob (.str t)))
    (g := fun _ => unlessValues (asValuesBytes (noneOr (concreteModuleEncode (.str t))))) ?_ hj trivial ?_
  · rcases h3 with rfl | ⟨d, rfl, rfl⟩
    · exact undo_empty (x := fun _ => concreteModuleDecode (.str t))
        (g := fun _ => asValuesBytes (noneOr (concreteModuleEncode (.str t))))
    · refine undo_unlessBytes (v := d.val) (f := fun _ => moduleBlob (.str (P d.type)))
        (w := fun _ => noneOr (concreteModuleEncode (.str (P d.type)))) (fun _ _ => ?_) (fun _ _ => ?_)
        (fun _ => module_jok _ d) ?_ (module_nv d)
      · exact emptyOr_T (module_ne d) (read_finFor (module_read d))
      · refine Eq.trans ?_ (module_write d)
        cases d <;> exact noneOr_dict _ _
      · cases d <;> trivial
  · intro s hs n
    have hk : s.get (P "key") = .ok (.str t) := by
      have := hs [P "key"] (by simp [Div, ks, P_inj])
      rw [entry_key] at this
      simp only [Val.path] at this
      cases hg : s.get (P "key") with
      | error e => rw [hg] at this; cases this
      | ok x => rw [hg] at this; exact this
    simp only [moduleMapPost1, moduleMapPre1, hk, implies_true, and_self]

theorem undo_mapObject {cfg : Cfg} (hcfg : cfg.allowNan = m.an) (hc : m.json = true → CfgJson cfg)
    (K : CodecId → Val → Val) {v : SVal m} {path : PyStr}
    (hw : v.Wf cfg noCustom path) (h : MapObject cfg v) (hN : v.enc.length ≤ N) (h64 : v.enc.length < 2 ^ 64)
    (hj : m.json = true → JOk m.an (v.val cfg K path)) :
    Undo m N (fun n => mapObjectPost1 m.an (rPropsLoop cfg n [] [])) (fun n => mapObjectPre1 (bytesOf n))
      (v.val cfg K path) := by
  obtain ⟨ps, ms, cs, bs, qs, es, oid, cb, b, rfl, h1, ⟨o, h2⟩, h3, h4, h5, h6, ⟨r, h7⟩, h8, h9, h10, h11, h12, h13⟩ := h
  simp only [SVal.val, SVal.enc] at hj hN h64 ⊢
  obtain ⟨pm, wm, lm, em⟩ := struct_path K hw h1
  obtain ⟨pc, wc, lc, ec⟩ := struct_path K wm h3
  obtain ⟨pb, wb, lb, eb⟩ := struct_path K wm h6
  obtain ⟨pq, wq, lq, eq⟩ := struct_path K hw h9
  have r1 := raw_path K wm h2
  have r2 := raw_path K wc h4
  have r3 := raw_path K wb h7
  have r4 := raw_path K wq h10
  obtain ⟨pl, kt, vt, m1, m2, m3⟩ := map_path K wq h12
  have ho : (Val.dict (valProps cfg K path ps)).path (ks ["MapObjectId", "value"]) = .ok (.str oid.val) := by
    obtain ⟨id, h | h⟩ := h8 <;>
    · obtain ⟨p', _, _, hp⟩ := has_path K hw h
      refine (hp []).trans ?_
      simp only [PropT.val, vStr, Val.path]
  have q5 : (Val.dict (valProps cfg K path ps)).path (ks ["ConcreteModel", "value", "ModuleMap", "value"]) =
      .ok (.list (valEntries cfg K pl es)) := (eq _).trans m3
  have hjm : m.json = true → JOkL m.an (valEntries cfg K pl es) := by
    intro h
    have := jok_path (hj h) q5
    simpa only [JOk] using this
  exact undo_updAll (m := m) (N := N) (v := .dict (valProps cfg K path ps))
    [⟨ks ["Model", "value", "RawData", "value"], rawVal o.enc,
      fun _ => onValues fun b => runBlob b (mapModelDecode m.an), fun _ => unlessValues (asValuesBytes mapModelEncode),
      fun _ => Val.upd (onValues fun b => runBlob b (mapModelDecode m.an)) (ks ["Model", "value", "RawData", "value"]),
      fun _ => Val.upd (unlessValues (asValuesBytes mapModelEncode)) (ks ["Model", "value", "RawData", "value"])⟩,
     ⟨ks ["Model", "value", "Connector", "value", "RawData", "value"], rawVal cb,
      fun _ => onValues connectorBlob, fun _ => unlessValues (asValuesBytes (noneOr connectorEncode)),
      fun _ => Val.upd (onValues connectorBlob) (ks ["Model", "value", "Connector", "value", "RawData", "value"]),
      fun _ => Val.upd (unlessValues (asValuesBytes (noneOr connectorEncode)))
        (ks ["Model", "value", "Connector", "value", "RawData", "value"])⟩,
     ⟨ks ["Model", "value", "BuildProcess", "value", "RawData", "value"], rawVal r.enc,
      fun _ => onValues fun b => runBlob b buildProcessDecode, fun _ => unlessValues (asValuesBytes buildProcessEncode),
      fun _ => Val.upd (onValues fun b => runBlob b buildProcessDecode)
        (ks ["Model", "value", "BuildProcess", "value", "RawData", "value"]),
      fun _ => Val.upd (unlessValues (asValuesBytes buildProcessEncode))
        (ks ["Model", "value", "BuildProcess", "value", "RawData", "value"])⟩,
     ⟨ks ["ConcreteModel", "value", "RawData", "value"], rawVal b,
      fun n => onValues (concreteBlob m.an (rPropsLoop cfg n [] []) (.str oid.val)),
      fun n => unlessValues (asValuesBytes (noneOr (concreteEncode (bytesOf n)))),
      fun n s => match s.path (ks ["MapObjectId", "value"]) with
        | .error e => .error e
        | .ok oid => s.upd (onValues (concreteBlob m.an (rPropsLoop cfg n [] []) oid))
          (ks ["ConcreteModel", "value", "RawData", "value"]),
      fun n => Val.upd (unlessValues (asValuesBytes (noneOr (concreteEncode (bytesOf n)))))
        (ks ["ConcreteModel", "value", "RawData", "value"])⟩,
     ⟨ks ["ConcreteModel", "value", "ModuleMap", "value"], .list (valEntries cfg K pl es),
      fun _ => forEach moduleMapPost1, fun _ => forEach moduleMapPre1,
      fun _ => Val.upd (forEach moduleMapPost1) (ks ["ConcreteModel", "value", "ModuleMap", "value"]),
      fun _ => Val.upd (forEach moduleMapPre1) (ks ["ConcreteModel", "value", "ModuleMap", "value"])⟩]
    (by simp [Div, ks, P_inj]) hj trivial (by
      intro u hu
      simp only [List.mem_cons, List.not_mem_nil, or_false] at hu
      rcases hu with rfl | rfl | rfl | rfl | rfl
      · refine ⟨(em _).trans r1.1, raw_noTuple _, ?_, fun s hs n => ⟨fun _ => rfl, rfl⟩⟩
        exact undo_unlessBytes (v := o.val) (f := fun _ b => runBlob b (mapModelDecode m.an))
          (w := fun _ => mapModelEncode) (fun _ _ => runBlob_T (read_fin (mapModel_read o)))
          (fun _ _ => mapModel_write o) (fun hj => mapModel_jok hj o) trivial (mapModel_nv o)
      · refine ⟨(em _).trans ((ec _).trans r2.1), raw_noTuple _, undo_mapConnector h5, fun s hs n => ⟨fun _ => rfl, rfl⟩⟩
      · refine ⟨(em _).trans ((eb _).trans r3.1), raw_noTuple _, ?_, fun s hs n => ⟨fun _ => rfl, rfl⟩⟩
        exact undo_unlessBytes (v := r.val) (f := fun _ b => runBlob b buildProcessDecode)
          (w := fun _ => buildProcessEncode) (fun _ _ => runBlob_T (read_fin (buildProcess_read r)))
          (fun _ _ => buildProcess_write r) (fun _ => buildProcess_jok _ r) trivial (buildProcess_nv r)
      · refine ⟨(eq _).trans r4.1, raw_noTuple _, undo_concrete hcfg hc h11 (by omega) (by omega), ?_⟩
        intro s hs n
        have hgt : s.path (ks ["MapObjectId", "value"]) = .ok (.str oid.val) :=
          (hs _ (by simp [Div, ks, P_inj])).trans ho
        exact ⟨fun _ => by simp only [hgt], rfl⟩
      · refine ⟨q5, (fun l h => by cases h), ?_, fun s hs n => ⟨fun _ => rfl, rfl⟩⟩
        refine undo_forEach (f := fun _ => moduleMapPost1) (g := fun _ => moduleMapPre1) ?_
        intro x hx
        obtain ⟨e, he, p1, p2, st, rfl, q2, q3⟩ := entries_mem m1 hx
        exact undo_module K q2 (h13 e he) fun h => jokL_mem (hjm h) hx)

theorem undo_debug (b : Bytes) {rec : Nat → R Val} {wp : Nat → Val → Except Err Bytes} :
    Undo m N (fun n => CodecId.debug.post1 m.an (rec n)) (fun n => CodecId.debug.pre1 (wp n)) (rawVal b) := by
  refine ⟨rawVal b, rawVal b, fun n _ => ⟨?_, rfl⟩, fun _ => ?_, trivial, sim_refl _ _⟩
  · have h : ∃ l, mapE debugPrint1 (b.map fun x => Val.int x.toNat) = .ok l := by
      induction b with
      | nil => exact ⟨_, rfl⟩
      | cons a t ih =>
        obtain ⟨l, hl⟩ := ih
        exact ⟨() :: l, by simp only [List.map_cons, mapE, debugPrint1, hl]⟩
    obtain ⟨l, hl⟩ := h
    simp only [CodecId.post1, rawVal_get]
    simp only [vBytesT, Val.len, Val.iterItems] at hl ⊢
    rw [hl]
  · unfold rawVal
    have := jok_bytesT m.an b
    jok_tac

/-- Encoding undoes decoding, up to the representation of byte strings. -/
theorem custom_undo {cfg : Cfg} (hcfg : cfg.allowNan = m.an) (hc : m.json = true → CfgJson cfg)
    (K : CodecId → Val → Val) {c : CodecId} {p : PropT m} {path : PyStr} (h : Canon cfg c p)
    (hw : p.Wf cfg noCustom path) (h64 : p.tail.length < 2 ^ 64) :
    Undo m p.tail.length (fun n => c.post1 m.an (rPropsLoop cfg n [] [])) (fun n => c.pre1 (bytesOf n))
      (p.val cfg K path) := by
  have hj : m.json = true → JOk m.an (p.val cfg K path) := fun hj =>
    prop_jok hj (hc hj) p noCustom (jsonCustom_no cfg K) path hw h64
  have hb : ∀ {id : Option Guid} {b : Bytes} {q : PropT m}, q = .bytes id b → q.val cfg K path = rawVal b ∧
      b.length ≤ q.tail.length := by
    rintro id b q rfl
    simp only [PropT.val, PropT.tail, List.length_append]
    exact ⟨rfl, by omega⟩
  cases c <;> simp only [Canon, IsBlob] at h
  case group =>
    obtain ⟨kt, vt, id, l, rfl, h⟩ := h
    simp only [PropT.val, PropT.Wf, JOk] at hw hj ⊢
    refine undo_forEach (f := fun _ => groupPost1) (g := fun _ => groupPre1) fun x hx => ?_
    obtain ⟨e, he, p1, p2, st, rfl, q2, q3⟩ := entries_mem hw.2 hx
    exact undo_group K q2 (h e he) fun h => jokL_mem (hj h) hx
  case character =>
    obtain ⟨r, ho, id, h⟩ := h
    rw [(hb h).1]
    exact undo_character hcfg hc r ho (hb h).2 (by have := (hb h).2; omega)
  case itemContainer =>
    rcases h with ⟨id, h⟩ | ⟨r, id, h⟩ <;> rw [(hb h).1]
    · exact undo_none (x := fun _ => itemContainerDecode) (w := fun _ => itemContainerEncode)
    · exact undo_recOr (itemContainer_ne r) (itemContainer_read r) ((noneOr_dict _ _).trans (itemContainer_write r))
        (fun _ => itemContainer_jok _ r) trivial
  case itemContainerSlots =>
    rcases h with ⟨id, h⟩ | ⟨r, id, h⟩ <;> rw [(hb h).1]
    · exact undo_none (x := fun _ => itemContainerSlotsDecode m.an) (w := fun _ => itemContainerSlotsEncode)
    · exact undo_recOr (slots_ne r) (slots_read r) ((noneOr_dict _ _).trans (slots_write r))
        (fun hj => slots_jok hj r) trivial
  case characterContainer =>
    rcases h with ⟨id, h⟩ | ⟨r, id, h⟩ <;> rw [(hb h).1]
    · exact undo_none (x := fun _ => charContainerDecode) (w := fun _ => charContainerEncode)
    · exact undo_recOr (charSlot_ne r) (charSlot_read r) ((noneOr_dict _ _).trans (charSlot_write r))
        (fun _ => charSlot_jok _ r) trivial
  case dynamicItem =>
    rcases h with ⟨id, h⟩ | ⟨r, hd, id, h⟩ <;> rw [(hb h).1]
    · exact undo_none (x := fun n => dynamicItemDecode m.an (rPropsLoop cfg n [] []))
        (w := fun n => dynamicItemEncode (bytesOf n))
    · exact undo_dynamicItem hcfg hc r hd (hb h).2 (by have := (hb h).2; omega)
  case foliageModel =>
    obtain ⟨r, id, h⟩ := h
    rw [(hb h).1]
    exact undo_rec (foliageModel_read r) (foliageModel_write r) (fun _ => foliageModel_jok _ r) trivial
  case foliageModelInstance =>
    obtain ⟨r, id, h⟩ := h
    rw [(hb h).1]
    exact undo_rec (foliageInstance_read r) (foliageInstance_write r) (fun hj => foliageInstance_jok hj r) trivial
  case baseCamp =>
    obtain ⟨r, id, h⟩ := h
    rw [(hb h).1]
    exact undo_rec (baseCamp_read r) (baseCamp_write r) (fun hj => baseCamp_jok hj r) trivial
  case workerDirector =>
    obtain ⟨r, id, h⟩ := h
    rw [(hb h).1]
    exact undo_rec (workerDirector_read r) (workerDirector_write r) (fun hj => workerDirector_jok hj r) trivial
  case workCollection =>
    obtain ⟨r, id, h⟩ := h
    rw [(hb h).1]
    exact undo_rec (workCollection_read r) (workCollection_write r) (fun _ => workCollection_jok _ r) trivial
  case baseCampModule =>
    obtain ⟨kt, vt, id, l, rfl, h⟩ := h
    simp only [PropT.val, PropT.Wf, JOk] at hw hj ⊢
    refine undo_forEach (f := fun _ => campModulePost1 m.an) (g := fun _ => campAlt1) fun x hx => ?_
    obtain ⟨e, he, p1, p2, st, rfl, q2, q3⟩ := entries_mem hw.2 hx
    exact undo_camp K q2 (h e he) fun h => jokL_mem (hj h) hx
  case work =>
    obtain ⟨id, pn, pt, tn, gid, l, rfl, h⟩ := h
    simp only [PropT.Wf] at hw
    have hp : (PropT.val cfg K path (.structs id pn pt tn gid l)).path [P "values"] =
        .ok (.list (valSVals cfg K (sub path pn) l)) := by
      simp only [PropT.val, Val.path]
      simp [wr]
    have hjl : m.json = true → JOkL m.an (valSVals cfg K (sub path pn) l) := fun h => by
      simpa only [JOk] using jok_path (hj h) hp
    refine undo_upd (f := fun _ => forEach (workPost1 m.an)) (g := fun _ => forEach workPre1) hp ?_ hj
      (fun l h => by cases h)
    refine undo_forEach (f := fun _ => workPost1 m.an) (g := fun _ => workPre1) fun x hx => ?_
    obtain ⟨e, he, rfl, q2, q3⟩ := svals_mem hw.2 hx
    exact undo_work K q2 (h e he) fun h => jokL_mem (hjl h) hx
  case mapObject =>
    obtain ⟨id, pn, pt, tn, gid, l, rfl, h⟩ := h
    simp only [PropT.Wf] at hw
    have hp : (PropT.val cfg K path (.structs id pn pt tn gid l)).path [P "values"] =
        .ok (.list (valSVals cfg K (sub path pn) l)) := by
      simp only [PropT.val, Val.path]
      simp [wr]
    have hjl : m.json = true → JOkL m.an (valSVals cfg K (sub path pn) l) := fun h => by
      simpa only [JOk] using jok_path (hj h) hp
    have hl : (encSVals l).length ≤ (PropT.tail (.structs id pn pt tn gid l)).length := by
      simp only [PropT.tail, List.length_append]; omega
    refine undo_upd (f := fun n => forEach (mapObjectPost1 m.an (rPropsLoop cfg n [] [])))
      (g := fun n => forEach (mapObjectPre1 (bytesOf n))) hp ?_ hj (fun l h => by cases h)
    refine undo_forEach (f := fun n => mapObjectPost1 m.an (rPropsLoop cfg n [] []))
      (g := fun n => mapObjectPre1 (bytesOf n)) fun x hx => ?_
    obtain ⟨e, he, rfl, q2, q3⟩ := svals_mem hw.2 hx
    exact undo_mapObject hcfg hc K q2 (h e he) (by omega) (by omega) fun h => jokL_mem (hjl h) hx
  case debug =>
    obtain ⟨b, id, h⟩ := h
    rw [(hb h).1]
    exact undo_debug b
  case connector =>
    obtain ⟨r, id, h⟩ := h
    rw [(hb h).1]
    refine undo_list (v := r.val) (f := fun _ => connectorBlob) (w := fun _ => noneOr connectorEncode)
      (fun _ _ => ?_) (fun _ _ => ?_) (fun _ => connector_jok _ r) ?_
    · exact emptyOr_T (connector_ne r) (connector_read r)
    · refine Eq.trans ?_ (connector_write r)
      unfold Connector.val
      split <;> exact noneOr_dict _ _
    · unfold Connector.val
      split <;> trivial
  case buildProcess =>
    obtain ⟨r, id, h⟩ := h
    rw [(hb h).1]
    exact undo_rec (buildProcess_read r) (buildProcess_write r) (fun _ => buildProcess_jok _ r) trivial
  case mapModel =>
    obtain ⟨r, id, h⟩ := h
    rw [(hb h).1]
    exact undo_rec (mapModel_read r) (mapModel_write r) (fun hj => mapModel_jok hj r) trivial

end Pal
