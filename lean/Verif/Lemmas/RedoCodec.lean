import Verif.Lemmas.RedoEmbed
import Verif.Lemmas.TreeCodec2
import Verif.Props.BlobResave
/-
Decoding a custom property and encoding the result, for each custom property.
-/

namespace Pal
open Spec

theorem nil_fails {r : R Val} (h : (match r [] with | .ok _ => false | .error _ => true) = true) : ∀ p, r [] ≠ .ok p := by
  intro p hp
  rw [hp] at h
  cases h

/-! ### groups -/

theorem ret_group (gt : Val) : Ret (groupDecode gt) NoValues := by
  have e : ∀ (d : Dict), NoKey d → NoKey ([] : Dict) → NoValues (.dict d) := fun d h _ => noKey_nv h
  have h1 : Ret groupOrg NoKey := by unfold groupOrg; nk_tac
  have h2 : Ret groupGuild NoKey := by unfold groupGuild; nk_tac
  have h3 : Ret groupIndie NoKey := by unfold groupIndie; nk_tac
  have h4 : Ret groupPlayers NoKey := by unfold groupPlayers; nk_tac
  have h0 : Ret (R.pure ([] : Dict)) NoKey := ret_pureR noKey_nil
  unfold groupDecode
  refine ret_bind fun _ => ret_bind fun _ => ret_bind fun _ => ret_bind' (ret_ite (fun _ => h1) fun _ => h0) fun _ k1 =>
    ret_bind' (ret_ite (fun _ => h2) fun _ => h0) fun _ k2 => ret_bind' (ret_ite (fun _ => h3) fun _ => h0) fun _ k3 =>
    ret_bind' (ret_ite (fun _ => h4) fun _ => h0) fun _ k4 => ret_bind fun _ => ret_pure (noKey_nv ?_)
  exact noKey_append (noKey_append (noKey_append (noKey_append (noKey_cons (by decide) (noKey_cons (by decide) (noKey_cons (by decide)
    (noKey_cons (by decide) noKey_nil)))) k1) k2) k3) k4

theorem group_nil (gt : Val) : ∀ p, groupDecode gt [] ≠ .ok p := by
  intro p hp
  obtain ⟨_, s1, h1, h⟩ := r_bind_inv hp
  cases h1
  obtain ⟨_, s2, h2, h⟩ := r_bind_inv h
  cases h2

theorem leaf_group (gt : Val) : LeafOk (fun t => runBlob t (groupDecode gt)) fun _ => unlessValues (asValuesList groupEncode) :=
  leaf_unlessRun (mk := intList) (fun _ _ => rfl) sim_intList (res_st (st_group gt)) (group_nil gt) (ret_group gt)

theorem ks_mem {l : List String} {k : PyStr} (h : k ∈ ks l) : ∃ s ∈ l, k = P s := by
  obtain ⟨s, hs, rfl⟩ := List.mem_map.1 h
  exact ⟨s, hs, rfl⟩

theorem nice_ks {l : List String} {v x : Val} (h : Nice v) (hp : v.path (ks l) = .ok x) (hl : "values" ∉ l) : Nice x := by
  refine nice_path h hp fun k hk => ?_
  obtain ⟨s, hs, rfl⟩ := ks_mem hk
  rw [Ne, P_inj]
  rintro rfl
  exact hl hs

theorem redo_group {x y : Val} (hx : Nice x) (h : groupPost1 x = .ok y) : Redo groupPost1 (fun _ => groupPre1) x y := by
  have h0 := h
  unfold groupPost1 at h
  cases hp : x.path (ks ["value", "GroupType", "value", "value"]) with
  | error e => rw [hp] at h; cases h
  | ok gt =>
    refine redo_upd1 (p := ks ["value", "RawData", "value"]) (f := onValues fun b => runBlob b (groupDecode gt))
      (g := fun _ => unlessValues (asValuesList groupEncode)) (fun t ht => ?_) (fun u w hu hw => ?_) h0
    · have : t.path (ks ["value", "GroupType", "value", "value"]) = .ok gt := by
        rw [ht _ (by simp [Div, ks, P_inj]), hp]
      exact ⟨by simp only [groupPost1, this], fun _ => rfl⟩
    · have hn := nice_ks hx hu (by decide)
      exact ⟨nice_not_tuple hn, redo_leaf (leaf_group gt) hn hw⟩

/-! ### work -/

theorem leaf_work (wt : Val) : LeafOk (fun t => runBlob t (workDecode true wt t)) fun _ => asValuesList (workEncode wt) := by
  refine leaf_list (w := fun _ => workEncode wt) (guard_run fun t => workDecode true wt t) (fun b y n c hb hy hc => ?_)
    fun y hy => ?_
  · obtain ⟨s', hs⟩ := runBlob_T_inv hy
    obtain ⟨h1, h2⟩ := C52_work wt _ (vBytesT c) b y s' hb hs c hc
    exact ⟨h2, runBlob_T h1, fun _ _ => hc⟩
  · by_cases hw : ∃ c, workEncode wt y = .ok c
    · obtain ⟨c, hc⟩ := hw
      have e : ∃ s', workDecode true wt (.list []) [] = .ok (y, s') := by
        simp only [runBlob, toBytes, mapE] at hy
        cases hx : workDecode true wt (.list []) [] with
        | error e => rw [hx] at hy; cases hy
        | ok p => obtain ⟨r, s⟩ := p; rw [hx] at hy; cases hy; exact ⟨s, rfl⟩
      obtain ⟨s', hs⟩ := e
      obtain ⟨h1, h2⟩ := C52_work wt _ (vBytesT []) [] y s' (by decide) hs c hc
      have : c = [] := List.eq_nil_of_length_eq_zero (by simpa using h2)
      subst this
      exact .inl (runBlob_T h1)
    · exact .inr fun n c hc => hw ⟨c, hc⟩

theorem redo_workAssign {x y : Val} (hx : Nice x) (h : workAssignPost1 x = .ok y) :
    Redo workAssignPost1 (fun _ => workAssignPre1) x y := by
  refine redo_upd1 (p := ks ["value", "RawData", "value"]) (f := onValues fun b => runBlob b workAssignBytesDecode)
      (g := fun _ => asValuesList workAssignBytesEncode) (fun t ht => ⟨rfl, fun _ => rfl⟩) (fun u w hu hw => ?_) h
  have hn := nice_ks hx hu (by decide)
  exact ⟨nice_not_tuple hn, redo_leaf (leaf_run (res_st st_workAssignBytes)) hn hw⟩

/-- Looking a value up before the update, or during it. -/
theorem upd_onValues (f : Val → Except Err Val) (p : List PyStr) (s : Val) :
    (match s.path (p ++ [P "values"]) with
      | .error e => .error e
      | .ok b => s.upd (fun _ => f b) p) = s.upd (onValues f) p := by
  induction p generalizing s with
  | nil =>
    simp only [List.nil_append, Val.path, Val.upd, onValues]
    cases s.get (P "values") <;> rfl
  | cons k t ih =>
    simp only [List.cons_append, Val.path, Val.upd]
    cases hg : s.get k with
    | error e => rfl
    | ok x =>
      simp only
      rw [← ih x]
      cases x.path (t ++ [P "values"]) <;> rfl

/-- The first of the two updates of a work item. -/
def workF1 (an : Bool) (s : Val) : Except Err Val :=
  match s.path (ks ["RawData", "value", "values"]) with
  | .error e => .error e
  | .ok b => match s.path (ks ["WorkableType", "value", "value"]) with
    | .error e => .error e
    | .ok wt => s.upd (fun _ => runBlob b (workDecode an wt b)) (ks ["RawData", "value"])
def workG1 (s : Val) : Except Err Val :=
  match s.path (ks ["WorkableType", "value", "value"]) with
  | .error e => .error e
  | .ok wt => s.upd (asValuesList (workEncode wt)) (ks ["RawData", "value"])

theorem workPost1_eq (an : Bool) : workPost1 an = updAll [workF1 an, Val.upd (forEach workAssignPost1) (ks ["WorkAssignMap", "value"])] := by
  funext s
  simp only [workPost1, updAll, workF1]
  generalize s.path (ks ["RawData", "value", "values"]) = o1
  generalize s.path (ks ["WorkableType", "value", "value"]) = o2
  cases o1 with
  | error e => rfl
  | ok b =>
    cases o2 with
    | error e => rfl
    | ok wt =>
      simp only
      generalize Val.upd _ _ s = o3
      cases o3 with
      | error e => rfl
      | ok y => simp only; cases Val.upd _ _ y <;> rfl

theorem workPre1_eq : workPre1 = updAll [workG1, Val.upd (forEach workAssignPre1) (ks ["WorkAssignMap", "value"])] := by
  funext s
  simp only [workPre1, updAll, workG1]
  generalize s.path (ks ["WorkableType", "value", "value"]) = o2
  cases o2 with
  | error e => rfl
  | ok wt =>
    simp only
    generalize Val.upd _ _ s = o3
    cases o3 with
    | error e => rfl
    | ok y => simp only; cases Val.upd _ _ y <;> rfl

theorem redo_nice_forEach {f : Val → Except Err Val} {g : Nat → Val → Except Err Val} {x y : Val} (hx : Nice x)
    (hr : ∀ a b, Nice a → f a = .ok b → Redo f g a b) (h : forEach f x = .ok y) : Redo (forEach f) (fun n => forEach (g n)) x y := by
  refine redo_forEach ?_ (fun l hl => absurd hl (nice_not_tuple hx l)) h
  rintro l rfl a ha b hb
  simp only [Nice] at hx
  exact hr a b (niceL_mem hx a ha) hb

theorem redo_work {x y : Val} (hx : Nice x) (h : workPost1 true x = .ok y) : Redo (workPost1 true) (fun _ => workPre1) x y := by
  rw [workPost1_eq] at h ⊢
  rw [workPre1_eq]
  have hwt : ∃ wt, x.path (ks ["WorkableType", "value", "value"]) = .ok wt := by
    simp only [updAll, workF1] at h
    cases h1 : x.path (ks ["RawData", "value", "values"]) with
    | error e => rw [h1] at h; cases h
    | ok b =>
      rw [h1] at h
      simp only at h
      cases h2 : x.path (ks ["WorkableType", "value", "value"]) with
      | error e => rw [h2] at h; cases h
      | ok wt => exact ⟨wt, rfl⟩
  obtain ⟨wt, hwt⟩ := hwt
  refine redo_updAll (v := x) (s := y) [⟨ks ["RawData", "value"], onValues fun b => runBlob b (workDecode true wt b),
      fun _ => asValuesList (workEncode wt), workF1 true, fun _ => workG1⟩,
     ⟨ks ["WorkAssignMap", "value"], forEach workAssignPost1, fun _ => forEach workAssignPre1,
      Val.upd (forEach workAssignPost1) (ks ["WorkAssignMap", "value"]),
      fun _ => Val.upd (forEach workAssignPre1) (ks ["WorkAssignMap", "value"])⟩]
    (by simp [Div, ks, P_inj]) (fun u hu t ht => ?_) (fun u hu a b ha hb => ?_) h
  · simp only [List.mem_cons, List.not_mem_nil, or_false] at hu
    rcases hu with rfl | rfl
    · have e : t.path (ks ["WorkableType", "value", "value"]) = .ok wt :=
        (ht _ (by simp [Div, ks, P_inj])).trans hwt
      refine ⟨?_, fun _ => by simp only [workG1, e]⟩
      simp only [workF1, e]
      exact upd_onValues (fun b => runBlob b (workDecode true wt b)) (ks ["RawData", "value"]) t
    · exact ⟨rfl, fun _ => rfl⟩
  · simp only [List.mem_cons, List.not_mem_nil, or_false] at hu
    rcases hu with rfl | rfl
    · have hn := nice_ks hx ha (by decide)
      exact ⟨nice_not_tuple hn, redo_leaf (leaf_work wt) hn hb⟩
    · have hn := nice_ks hx ha (by decide)
      exact ⟨nice_not_tuple hn, redo_nice_forEach hn (fun a b => redo_workAssign) hb⟩

/-! ### map objects -/

theorem leaf_module (mt : Val) : LeafOk (moduleBlob mt) fun _ => unlessValues (asValuesBytes (noneOr (concreteModuleEncode mt))) := by
  refine leaf_unlessOr (w := concreteModuleEncode mt) (mk := .bytes) (fun _ _ => rfl) sim_bytes (ret_module mt) fun s v s' c h0 hs h hw => ?_
  obtain ⟨h1, h2⟩ := res_st (st_module mt) s v s' c hs h hw
  refine ⟨h1, emptyOr_T (s := []) ?_ h2⟩
  rintro rfl
  clear hw h1
  simp only [concreteModuleDecode] at h h2
  obtain ⟨v1, s1, a1, a2⟩ := r_bind_inv h
  obtain ⟨v2, s2, b1, b2⟩ := r_bind_inv h2
  obtain ⟨_, s3, a3, a4⟩ := r_bind_inv a2
  obtain ⟨_, s4, b3, b4⟩ := r_bind_inv b2
  obtain ⟨rfl, -⟩ := r_pure_inv a4
  obtain ⟨rfl, -⟩ := r_pure_inv b4
  have hs1 : s1 = [] := by
    cases s1 with
    | nil => rfl
    | cons a t => cases a3
  subst hs1
  clear a2 a3 a4 b2 b3 b4 h h2
  have hg : ∀ k, guidDict k s = .ok (v, []) → guidDict k [] = .ok (v, s2) → False := by
    intro k e1 e2
    obtain ⟨g1, _, p1, p2⟩ := r_bind_inv e1
    obtain ⟨g2, _, q1, q2⟩ := r_bind_inv e2
    have r1 := guid_inv p1
    have r2 := guid_inv q1
    have r3 := (r_pure_inv p2).1
    rw [(r_pure_inv q2).1, r1, r2] at r3
    simp only [dct, List.map_cons, List.map_nil, Val.dict.injEq, List.cons.injEq, Prod.mk.injEq, Val.uuid.injEq, and_true, true_and] at r3
    cases s with
    | nil => exact h0 rfl
    | cons a t => simp at r3
  unfold moduleBodyDecode at a1 b1
  by_cases c1 : mt.isS "EPalMapObjectConcreteModelModuleType::ItemContainer"
  · rw [if_pos c1] at b1
    obtain ⟨_, _, q1, q2⟩ := r_bind_inv b1
    cases q1
    obtain ⟨_, _, q3, q4⟩ := r_bind_inv q2
    cases q3
  rw [if_neg c1] at a1 b1
  by_cases c2 : mt.isS "EPalMapObjectConcreteModelModuleType::CharacterContainer"
  · rw [if_pos c2] at a1 b1
    exact hg _ a1 b1
  rw [if_neg c2] at a1 b1
  by_cases c3 : mt.isS "EPalMapObjectConcreteModelModuleType::Workee"
  · rw [if_pos c3] at a1 b1
    exact hg _ a1 b1
  rw [if_neg c3] at a1 b1
  by_cases c4 : mt.isS "EPalMapObjectConcreteModelModuleType::Switch"
  · rw [if_pos c4] at b1
    cases b1
  rw [if_neg c4] at a1 b1
  by_cases c5 : mt.isS "EPalMapObjectConcreteModelModuleType::PasswordLock"
  · rw [if_pos c5] at b1
    cases b1
  rw [if_neg c5] at a1
  have := (r_pure_inv a1).2
  exact h0 this.symm

theorem leaf_mapConnector : LeafOk connectorBlob fun _ => unlessValues (asValuesBytes (noneOr connectorEncode)) := by
  refine leaf_unlessOr (w := connectorEncode) (mk := .bytes) (fun _ _ => rfl) sim_bytes ret_connector fun s v s' c h0 hs h hw => ?_
  obtain ⟨b, h1, h2, h3⟩ := connector_resave (q := True) hs h
  rw [hw] at h1
  cases h1
  refine ⟨h2, emptyOr_T (s := []) ?_ (h3 trivial)⟩
  rintro rfl
  have := h3 trivial
  cases this

theorem redo_moduleMap {x y : Val} (hx : Nice x) (h : moduleMapPost1 x = .ok y) :
    Redo moduleMapPost1 (fun _ => moduleMapPre1) x y := by
  have h0 := h
  unfold moduleMapPost1 at h
  cases hp : x.get (P "key") with
  | error e => rw [hp] at h; cases h
  | ok mt =>
    refine redo_upd1 (p := ks ["value", "RawData", "value"]) (f := onValues (moduleBlob mt))
      (g := fun _ => unlessValues (asValuesBytes (noneOr (concreteModuleEncode mt)))) (fun t ht => ?_) (fun u w hu hw => ?_) h0
    · have hk : t.get (P "key") = .ok mt := by
        have := ht [P "key"] (by simp [Div, ks, P_inj])
        simp only [Val.path, hp] at this
        cases hg : t.get (P "key") with
        | error e => rw [hg] at this; cases this
        | ok x => rw [hg] at this; exact this
      exact ⟨by simp only [moduleMapPost1, hk], fun _ => by simp only [moduleMapPre1, hk]⟩
    · have hn := nice_ks hx hu (by decide)
      exact ⟨nice_not_tuple hn, redo_leaf (leaf_module mt) hn hw⟩

theorem buildProcess_nil : ∀ p, buildProcessDecode [] ≠ .ok p := nil_fails (by rfl)
theorem mapModel_nil : ∀ p, mapModelDecode true [] ≠ .ok p := nil_fails (by rfl)

theorem updAll_cons_inv {f : Val → Except Err Val} {t : List (Val → Except Err Val)} {v w : Val} (h : updAll (f :: t) v = .ok w) :
    ∃ u, f v = .ok u ∧ updAll t u = .ok w := by
  simp only [updAll] at h
  cases hf : f v with
  | error e => rw [hf] at h; cases h
  | ok u => rw [hf] at h; exact ⟨u, rfl, h⟩

theorem redo_mapObject {rec : R Val} (hr : RecOk True rec wpS Unw) {x y : Val} (hx : Nice x) (h : mapObjectPost1 true rec x = .ok y) :
    Redo (mapObjectPost1 true rec) (fun n => mapObjectPre1 (bytesOf n)) x y := by
  have hoid : ∃ oid, x.path (ks ["MapObjectId", "value"]) = .ok oid := by
    unfold mapObjectPost1 at h
    obtain ⟨s1, e1, h⟩ := updAll_cons_inv h
    obtain ⟨s2, e2, h⟩ := updAll_cons_inv h
    obtain ⟨s3, e3, h⟩ := updAll_cons_inv h
    obtain ⟨s4, e4, -⟩ := updAll_cons_inv h
    obtain ⟨x1, y1, -, -, rfl⟩ := upd_inv e1
    obtain ⟨x2, y2, -, -, rfl⟩ := upd_inv e2
    obtain ⟨x3, y3, -, -, rfl⟩ := upd_inv e3
    have := path_putAll_div (v := x) (q := ks ["MapObjectId", "value"])
      (l := [(ks ["Model", "value", "BuildProcess", "value", "RawData", "value"], y3),
        (ks ["Model", "value", "Connector", "value", "RawData", "value"], y2), (ks ["Model", "value", "RawData", "value"], y1)])
      (by simp [Div, ks, P_inj])
    simp only [putAll] at this
    rw [this] at e4
    cases hp : x.path (ks ["MapObjectId", "value"]) with
    | error e => rw [hp] at e4; cases e4
    | ok oid => exact ⟨oid, rfl⟩
  obtain ⟨oid, ho⟩ := hoid
  refine redo_updAll (v := x) (s := y)
    [⟨ks ["Model", "value", "RawData", "value"],
      onValues fun b => runBlob b (mapModelDecode true), fun _ => unlessValues (asValuesBytes mapModelEncode),
      Val.upd (onValues fun b => runBlob b (mapModelDecode true)) (ks ["Model", "value", "RawData", "value"]),
      fun _ => Val.upd (unlessValues (asValuesBytes mapModelEncode)) (ks ["Model", "value", "RawData", "value"])⟩,
     ⟨ks ["Model", "value", "Connector", "value", "RawData", "value"],
      onValues connectorBlob, fun _ => unlessValues (asValuesBytes (noneOr connectorEncode)),
      Val.upd (onValues connectorBlob) (ks ["Model", "value", "Connector", "value", "RawData", "value"]),
      fun _ => Val.upd (unlessValues (asValuesBytes (noneOr connectorEncode)))
        (ks ["Model", "value", "Connector", "value", "RawData", "value"])⟩,
     ⟨ks ["Model", "value", "BuildProcess", "value", "RawData", "value"],
      onValues fun b => runBlob b buildProcessDecode, fun _ => unlessValues (asValuesBytes buildProcessEncode),
      Val.upd (onValues fun b => runBlob b buildProcessDecode)
        (ks ["Model", "value", "BuildProcess", "value", "RawData", "value"]),
      fun _ => Val.upd (unlessValues (asValuesBytes buildProcessEncode))
        (ks ["Model", "value", "BuildProcess", "value", "RawData", "value"])⟩,
     ⟨ks ["ConcreteModel", "value", "RawData", "value"],
      onValues (concreteBlob true rec oid),
      fun n => unlessValues (asValuesBytes (noneOr (concreteEncode (bytesOf n)))),
      fun s => match s.path (ks ["MapObjectId", "value"]) with
        | .error e => .error e
        | .ok oid => s.upd (onValues (concreteBlob true rec oid))
          (ks ["ConcreteModel", "value", "RawData", "value"]),
      fun n => Val.upd (unlessValues (asValuesBytes (noneOr (concreteEncode (bytesOf n)))))
        (ks ["ConcreteModel", "value", "RawData", "value"])⟩,
     ⟨ks ["ConcreteModel", "value", "ModuleMap", "value"],
      forEach moduleMapPost1, fun _ => forEach moduleMapPre1,
      Val.upd (forEach moduleMapPost1) (ks ["ConcreteModel", "value", "ModuleMap", "value"]),
      fun _ => Val.upd (forEach moduleMapPre1) (ks ["ConcreteModel", "value", "ModuleMap", "value"])⟩]
    (by simp [Div, ks, P_inj]) (fun u hu t ht => ?_) (fun u hu a b ha hb => ?_) h
  · simp only [List.mem_cons, List.not_mem_nil, or_false] at hu
    rcases hu with rfl | rfl | rfl | rfl | rfl
    · exact ⟨rfl, fun _ => rfl⟩
    · exact ⟨rfl, fun _ => rfl⟩
    · exact ⟨rfl, fun _ => rfl⟩
    · have e : t.path (ks ["MapObjectId", "value"]) = .ok oid := (ht _ (by simp [Div, ks, P_inj])).trans ho
      exact ⟨by simp only [e], fun _ => rfl⟩
    · exact ⟨rfl, fun _ => rfl⟩
  · simp only [List.mem_cons, List.not_mem_nil, or_false] at hu
    rcases hu with rfl | rfl | rfl | rfl | rfl
    · have hn := nice_ks hx ha (by decide)
      exact ⟨nice_not_tuple hn, redo_leaf (leaf_unlessRun (mk := .bytes) (fun _ _ => rfl) sim_bytes
        (res_st (st_mapModel fun _ => rfl)) mapModel_nil (ret_mapModel true)) hn hb⟩
    · have hn := nice_ks hx ha (by decide)
      exact ⟨nice_not_tuple hn, redo_leaf leaf_mapConnector hn hb⟩
    · have hn := nice_ks hx ha (by decide)
      exact ⟨nice_not_tuple hn, redo_leaf (leaf_unlessRun (mk := .bytes) (fun _ _ => rfl) sim_bytes
        (res_st st_buildProcess) buildProcess_nil ret_buildProcess) hn hb⟩
    · have hn := nice_ks hx ha (by decide)
      exact ⟨nice_not_tuple hn, redo_leaf (leaf_concrete hr oid) hn hb⟩
    · have hn := nice_ks hx ha (by decide)
      exact ⟨nice_not_tuple hn, redo_nice_forEach hn (fun a b => redo_moduleMap) hb⟩

/-! ### all together -/

/-- Custom properties whose data reads back as the same after it has been written.  Of the
others, the location of a foliage instance is rounded when it is written, and a dynamic item
may be taken for an egg when it is read again. -/
def CodecId.Steady (c : CodecId) : Prop := c ≠ .foliageModelInstance ∧ c ≠ .dynamicItem

theorem redo_debug {x y : Val} {rec : R Val} {wp : Nat → Val → Except Err Bytes} (h : CodecId.debug.post1 true rec x = .ok y) :
    Redo (CodecId.debug.post1 true rec) (fun n => CodecId.debug.pre1 (wp n)) x y := by
  have e : y = x := by
    simp only [CodecId.post1] at h
    cases hv : x.get (P "values") with
    | error e => rw [hv] at h; cases h
    | ok b =>
      rw [hv] at h
      simp only at h
      cases hl : b.len with
      | error e => rw [hl] at h; cases h
      | ok k =>
        cases hi : b.iterItems with
        | error e => rw [hl, hi] at h; cases h
        | ok l =>
          rw [hl, hi] at h
          simp only at h
          cases hm : mapE debugPrint1 l with
          | error e => rw [hm] at h; cases h
          | ok _ => rw [hm] at h; cases h; rfl
  subst e
  exact redo_keep h fun _ => rfl

theorem itemContainer_nil : ∀ p, itemContainerDecode [] ≠ .ok p := nil_fails (by rfl)
theorem itemContainerSlots_nil : ∀ p, itemContainerSlotsDecode true [] ≠ .ok p := nil_fails (by rfl)
theorem charContainer_nil : ∀ p, charContainerDecode [] ≠ .ok p := nil_fails (by rfl)

/-- `properties["value"]["values"]`, when it is a struct array, or not. -/
theorem redo_values {f : Val → Except Err Val} {g : Nat → Val → Except Err Val} {x y : Val} (hx : Nice x)
    (hr : ∀ a b, Nice a → f a = .ok b → Redo f g a b) (hf : ∀ i b, f (.int i) ≠ .ok b) (h : Val.upd (forEach f) [P "values"] x = .ok y) :
    Redo (Val.upd (forEach f) [P "values"]) (fun n => Val.upd (forEach (g n)) [P "values"]) x y := by
  have h0 := h
  obtain ⟨v, w, h1, h2, h3⟩ := upd_inv h
  by_cases ht : ∃ l, v = .tuple l
  · obtain ⟨l, rfl⟩ := ht
    simp only [Val.path] at h1
    cases x <;> simp only [Val.get, reduceCtorEq] at h1
    case dict d =>
      cases hd : dget? d (P "values") with
      | none => rw [hd] at h1; cases h1
      | some b =>
        rw [hd] at h1
        cases h1
        simp only [Nice] at hx
        rcases hx with ⟨b, hb, -⟩ | ⟨hl, -⟩
        · have e : Val.tuple l = vBytesT b := by
            simp only [rawVal, vDict, List.map_cons, List.map_nil, Val.dict.injEq] at hb
            rw [hb] at hd
            simp only [dget?, if_true, Option.some.injEq] at hd
            exact hd.symm
          cases b with
          | nil =>
            rw [hb] at h0 h ⊢
            have ey : y = rawVal [] := by cases h0; rfl
            subst ey
            exact redo_keep h fun _ => rfl
          | cons a t =>
            rw [e] at h2
            simp only [vBytesT, List.map_cons, forEach, mapE] at h2
            cases hf1 : f (.int a.toNat) with
            | error e => rw [hf1] at h2; cases h2
            | ok z => exact absurd hf1 (hf _ _)
        · rcases hl _ hd with ⟨l', e, -⟩ | ⟨a, e, h⟩
          · cases e
          · cases h
  · refine redo_upd1 (p := [P "values"]) (f := forEach f) (g := fun n => forEach (g n)) (fun t _ => ⟨rfl, fun _ => rfl⟩)
      (fun u w hu hw => ?_) h0
    rw [h1] at hu
    cases hu
    have hn : ∀ l, v ≠ .tuple l := fun l hl => ht ⟨l, hl⟩
    refine ⟨hn, redo_forEach ?_ (fun l hl => absurd hl (hn l)) hw⟩
    rintro l rfl a ha b hb
    refine hr a b ?_ hb
    simp only [Val.path] at h1
    cases x <;> simp only [Val.get, reduceCtorEq] at h1
    case dict d =>
      cases hd : dget? d (P "values") with
      | none => rw [hd] at h1; cases h1
      | some b =>
        rw [hd] at h1
        cases h1
        simp only [Nice] at hx
        rcases hx with ⟨b, hb, -⟩ | ⟨-, hx⟩
        · simp only [rawVal, vDict, List.map_cons, List.map_nil, Val.dict.injEq] at hb
          rw [hb] at hd
          simp only [dget?, if_true, Option.some.injEq] at hd
          cases hd
        · have := niceD_get hx hd
          simp only [Nice] at this
          exact niceL_mem this a ha

end Pal
