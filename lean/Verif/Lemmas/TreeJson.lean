import Verif.Lemmas.TreeRead
/-
The values shown for property trees survive JSON.
-/

namespace Pal
open Spec

variable {m : Mode}

theorem noTuple_vDict (l : List (String × Val)) : NoTuple (vDict l) := trivial

/-- `jok_dict` for entries that may be called "value". -/
theorem jok_dict2 (an : Bool) (l : List (String × Val)) (h : ((l.map Prod.fst).map P).Nodup ∧ ∀ k ∈ l.map Prod.fst, Normal (P k))
    (hv : ∀ kv ∈ l, JOk an kv.2 ∧ NoTuple kv.2) : JOk an (vDict l) := by
  simp only [vDict, JOk, List.map_map] at h ⊢
  refine ⟨h.1, ?_⟩
  replace h := h.2
  induction l with
  | nil => simp [JOkD]
  | cons a t ih =>
    simp only [List.map_cons, JOkD]
    refine ⟨h a.1 (by simp), fun _ => (hv a (by simp)).2, (hv a (by simp)).1, ih ?_ ?_⟩
    · exact fun kv hk => hv kv (by simp [hk])
    · intro k hk
      exact h k (by rw [List.map_cons]; exact List.mem_cons_of_mem _ hk)

/-- What custom properties show survives JSON. -/
def JsonCustom (cfg : Cfg) (K : CodecId → Val → Val) (C : CodecId → PropT m → Prop) : Prop :=
  ∀ c p path, C c p → p.Wf cfg noCustom path → cfg.custom path = some c → p.tail.length < 2 ^ 64 →
    JOk m.an (K c (p.val cfg K path)) ∧ NoTuple (K c (p.val cfg K path))

theorem jsonCustom_no (cfg : Cfg) (K : CodecId → Val → Val) : JsonCustom (m := m) cfg K noCustom :=
  fun _ _ _ h => absurd h id

theorem keyStruct_normal {cfg : Cfg} (hc : CfgJson cfg) (path : PyStr) : Normal (keyStruct cfg path) := by
  unfold keyStruct
  cases h : cfg.hint (path ++ P ".Key") with
  | none => decide +kernel
  | some t => exact hc.hint _ _ h

theorem valueStruct_normal {cfg : Cfg} (hc : CfgJson cfg) (path : PyStr) : Normal (valueStruct cfg path) := by
  unfold valueStruct
  cases h : cfg.hint (path ++ P ".Value") with
  | none => decide +kernel
  | some t => exact hc.hint _ _ h

theorem structType_ok (an : Bool) (ty : Str) {st : PyStr} (h : Normal st) :
    JOk an (vStructType ty st) ∧ NoTuple (vStructType ty st) := by
  unfold vStructType
  split
  · exact ⟨by simpa only [JOk] using h, trivial⟩
  · exact ⟨by simp only [JOk], trivial⟩

theorem entries_ok {cfg : Cfg} (hc : CfgJson cfg) (an : Bool) (path : PyStr) (p : PropT m) {x : Val} (hx : JOk an x) (hn : NoTuple x) :
    ∀ kv ∈ p.entries cfg path x, JOk an kv.2 ∧ NoTuple kv.2 := by
  have hg : ∀ o, JOk an (vOptGuid o) ∧ NoTuple (vOptGuid o) := fun o => ⟨jok_optGuid an o, by cases o <;> trivial⟩
  have hl : ∀ s : String, Normal (P s) → JOk an (.str (P s)) ∧ NoTuple (.str (P s)) := fun s h => ⟨jok_lit an s h, trivial⟩
  have hs : ∀ s : Str, JOk an (vStr s) ∧ NoTuple (vStr s) := fun s => ⟨jok_str an s, trivial⟩
  have hu : ∀ s : Guid, JOk an (vGuid s) ∧ NoTuple (vGuid s) := fun s => ⟨jok_guid an s, trivial⟩
  have hk := fun ty => structType_ok an ty (keyStruct_normal hc path)
  have hv := fun ty => structType_ok an ty (valueStruct_normal hc path)
  have ho : ∀ o : Others m, JOk an (.str o.type) ∧ NoTuple (.str o.type) := fun o => ⟨by
    cases o
    case nothing t => exact jok_str an t
    all_goals exact jok_lit an _ (by decide +kernel), trivial⟩
  cases p <;> simp only [PropT.entries] <;>
    repeat' (first
      | (rw [List.forall_mem_cons]; constructor)
      | (intro _ hnil; cases hnil)
      | exact hg _ | exact ho _ | exact hs _ | exact hu _ | exact ⟨hx, hn⟩ | exact hk _ | exact hv _
      | exact hl _ (by decide +kernel))

theorem entries_keys (cfg : Cfg) (path : PyStr) (p : PropT m) (x : Val) :
    (((p.entries cfg path x).map Prod.fst).map P).Nodup ∧ ∀ k ∈ (p.entries cfg path x).map Prod.fst, Normal (P k) := by
  cases p <;> (simp only [PropT.entries, List.map_cons, List.map_nil]; decide +kernel)

theorem entries_keys' (cfg : Cfg) (path : PyStr) (p : PropT m) (x y : Val) :
    (((p.entries cfg path x ++ [("custom_type", y)]).map Prod.fst).map P).Nodup ∧
      ∀ k ∈ (p.entries cfg path x ++ [("custom_type", y)]).map Prod.fst, Normal (P k) := by
  cases p <;> (simp only [PropT.entries, List.map_cons, List.map_nil, List.cons_append, List.nil_append]; decide +kernel)

theorem show_ok {cfg : Cfg} (hc : CfgJson cfg) {K : CodecId → Val → Val} {C : CodecId → PropT m → Prop}
    (hK : JsonCustom cfg K C) (path : PyStr) (p : PropT m) (hn : NoTuple (p.val cfg K path))
    (hx : JOk m.an (p.val cfg K path)) (h64 : p.tail.length < 2 ^ 64)
    (hw : match cfg.custom path with
        | none => p.Wf cfg C path
        | some c => p.type = c.propType ∧ C c p ∧ p.Wf cfg noCustom path) :
    JOk m.an (showProp cfg K path p (p.val cfg K path)) := by
  unfold showProp
  cases hp : cfg.custom path with
  | none =>
    exact jok_dict2 _ _ (entries_keys cfg path p _) (entries_ok hc m.an path p hx hn)
  | some c =>
    rw [hp] at hw
    have := hK c p path hw.2.1 hw.2.2 hp h64
    refine jok_dict2 _ _ (entries_keys' cfg path p _ _) ?_
    intro kv hkv
    rw [List.mem_append] at hkv
    rcases hkv with hkv | hkv
    · exact entries_ok hc m.an path p this.1 this.2 kv hkv
    · rw [List.mem_singleton] at hkv
      subst hkv
      exact ⟨by simpa only [JOk] using hc.custom _ _ hp, trivial⟩

theorem sval_noTuple (cfg : Cfg) (K : CodecId → Val → Val) (path : PyStr) (s : SVal m) : NoTuple (s.val cfg K path) := by
  cases s <;> (simp only [SVal.val]; trivial)
theorem mval_noTuple (cfg : Cfg) (K : CodecId → Val → Val) (path : PyStr) (s : MVal m) : NoTuple (s.val cfg K path) := by
  cases s with
  | struct s => simp only [MVal.val]; exact sval_noTuple cfg K path s
  | _ => simp only [MVal.val]; trivial
theorem prop_noTuple (cfg : Cfg) (K : CodecId → Val → Val) (path : PyStr) (s : PropT m) : NoTuple (s.val cfg K path) := by
  cases s with
  | struct _ _ _ s => simp only [PropT.val]; exact sval_noTuple cfg K path s
  | _ => simp only [PropT.val]; trivial

theorem jok_vecs {α : Type} (an : Bool) {v : α → Val} (l : List α) (h : ∀ a, JOk an (v a)) : JOk an (.list (l.map v)) := by
  simp only [JOk, jokL_iff]
  intro x hx
  obtain ⟨a, _, rfl⟩ := List.mem_map.1 hx
  exact h a

mutual
theorem sval_jok (hj : m.json = true) {cfg : Cfg} (hc : CfgJson cfg) {K : CodecId → Val → Val} :
    ∀ (v : SVal m) (C : CodecId → PropT m → Prop) (_ : JsonCustom cfg K C) (path : PyStr)
      (_ : v.Wf cfg C path) (_ : v.enc.length < 2 ^ 64), JOk m.an (v.val cfg K path)
  | .vector v, C, hK, path, hw, hn => by simp only [SVal.val]; exact jok_vec hj v
  | .dateTime v, C, hK, path, hw, hn => by simp only [SVal.val]; exact jok_u _ _
  | .guid v, C, hK, path, hw, hn => by simp only [SVal.val]; exact jok_guid _ _
  | .quat v, C, hK, path, hw, hn => by simp only [SVal.val]; exact jok_quat hj v
  | .color r g b a, C, hK, path, hw, hn => by simp only [SVal.val]; jok_tac
  | .props ps, C, hK, path, hw, hn => by
    simp only [SVal.Wf] at hw
    simp only [SVal.enc] at hn
    simp only [SVal.val, JOk]
    refine ⟨?_, props_jok hj hc ps C hK path hw.2 hn⟩
    rw [valProps_keys]
    exact List.Nodup.map Subtype.val_injective hw.1
theorem mval_jok (hj : m.json = true) {cfg : Cfg} (hc : CfgJson cfg) {K : CodecId → Val → Val} :
    ∀ (v : MVal m) (C : CodecId → PropT m → Prop) (_ : JsonCustom cfg K C) (path st : PyStr)
      (_ : v.Wf cfg C path st) (_ : v.enc.length < 2 ^ 64), JOk m.an (v.val cfg K path)
  | .struct s, C, hK, path, st, hw, hn => by
    simp only [MVal.Wf] at hw
    simp only [MVal.enc] at hn
    simp only [MVal.val]
    exact sval_jok hj hc s C hK path hw.2 hn
  | .enum s, C, hK, path, st, hw, hn => by simp only [MVal.val]; exact jok_str _ _
  | .name s, C, hK, path, st, hw, hn => by simp only [MVal.val]; exact jok_str _ _
  | .int s, C, hK, path, st, hw, hn => by simp only [MVal.val]; exact jok_i _ _
  | .bool s, C, hK, path, st, hw, hn => by simp only [MVal.val]; exact jok_bool _ _
theorem prop_jok (hj : m.json = true) {cfg : Cfg} (hc : CfgJson cfg) {K : CodecId → Val → Val} :
    ∀ (p : PropT m) (C : CodecId → PropT m → Prop) (_ : JsonCustom cfg K C) (path : PyStr)
      (_ : p.Wf cfg C path) (_ : p.tail.length < 2 ^ 64), JOk m.an (p.val cfg K path)
  | .struct st sid id v, C, hK, path, hw, hn => by
    simp only [PropT.Wf] at hw
    simp only [PropT.tail] at hn
    simp only [PropT.val]
    exact sval_jok hj hc v C hK path hw.2 hn
  | .int id x, C, hK, path, hw, hn => by simp only [PropT.val]; exact jok_i _ _
  | .int64 id x, C, hK, path, hw, hn => by simp only [PropT.val]; exact jok_i _ _
  | .fixed64 id x, C, hK, path, hw, hn => by simp only [PropT.val]; exact jok_i _ _
  | .float id x, C, hK, path, hw, hn => by simp only [PropT.val]; exact jok_f32 hj _
  | .str id x, C, hK, path, hw, hn => by simp only [PropT.val]; exact jok_str _ _
  | .name id x, C, hK, path, hw, hn => by simp only [PropT.val]; exact jok_str _ _
  | .enum et id x, C, hK, path, hw, hn => by
    simp only [PropT.val]
    refine jok_dict2 _ _ (by simp only [List.map_cons, List.map_nil]; decide +kernel) ?_
    rw [List.forall_mem_cons, List.forall_mem_cons]
    exact ⟨⟨jok_str _ _, trivial⟩, ⟨jok_str _ _, trivial⟩, fun _ h => by cases h⟩
  | .bool b id, C, hK, path, hw, hn => by simp only [PropT.val]; exact jok_bool _ _
  | .enums id l, C, hK, path, hw, hn => by
    simp only [PropT.val]
    have := jok_vecs m.an l (jok_str m.an)
    jok_tac
  | .names id l, C, hK, path, hw, hn => by
    simp only [PropT.val]
    have := jok_vecs m.an l (jok_str m.an)
    jok_tac
  | .others id o, C, hK, path, hw, hn => by simp only [PropT.Wf] at hw
  | .guids id l, C, hK, path, hw, hn => by
    simp only [PropT.val]
    have := jok_vecs m.an l (jok_guid m.an)
    jok_tac
  | .bytes id b, C, hK, path, hw, hn => by simp only [PropT.val]; jok_tac
  | .structs id pn pt tn gid l, C, hK, path, hw, hn => by
    simp only [PropT.Wf] at hw
    simp only [PropT.tail, List.length_append] at hn
    have h := svals_jok hj hc l C hK (sub path pn) tn.val hw.2 (by omega)
    have h : JOk m.an (.list (valSVals cfg K (sub path pn) l)) := by simpa only [JOk] using h
    simp only [PropT.val]
    clear hK
    jok_tac
  | .map kt vt id l, C, hK, path, hw, hn => by
    simp only [PropT.Wf] at hw
    simp only [PropT.tail, List.length_append] at hn
    have h := entries_jok hj hc l C hK path kt.val vt.val hw.2 (by omega)
    simp only [PropT.val, JOk]
    exact h
theorem svals_jok (hj : m.json = true) {cfg : Cfg} (hc : CfgJson cfg) {K : CodecId → Val → Val} :
    ∀ (l : List (SVal m)) (C : CodecId → PropT m → Prop) (_ : JsonCustom cfg K C) (path st : PyStr)
      (_ : wfSVals cfg C path st l) (_ : (encSVals l).length < 2 ^ 64), JOkL m.an (valSVals cfg K path l)
  | [], C, hK, path, st, hw, hn => by simp only [valSVals, JOkL]
  | v :: t, C, hK, path, st, hw, hn => by
    simp only [wfSVals] at hw
    simp only [encSVals, List.length_append] at hn
    simp only [valSVals, JOkL]
    exact ⟨sval_jok hj hc v C hK path hw.2.1 (by omega), svals_jok hj hc t C hK path st hw.2.2 (by omega)⟩
theorem entries_jok (hj : m.json = true) {cfg : Cfg} (hc : CfgJson cfg) {K : CodecId → Val → Val} :
    ∀ (l : List (MVal m × MVal m)) (C : CodecId → PropT m → Prop) (_ : JsonCustom cfg K C) (path kt vt : PyStr)
      (_ : wfEntries cfg C path kt vt l) (_ : (encEntries l).length < 2 ^ 64), JOkL m.an (valEntries cfg K path l)
  | [], C, hK, path, kt, vt, hw, hn => by simp only [valEntries, JOkL]
  | (k, v) :: t, C, hK, path, kt, vt, hw, hn => by
    simp only [wfEntries] at hw
    obtain ⟨h1, h2, h3, h4, h5⟩ := hw
    simp only [encEntries, List.length_append] at hn
    simp only [valEntries, JOkL]
    refine ⟨?_, entries_jok hj hc t C hK path kt vt h5 (by omega)⟩
    refine jok_dict2 _ _ (by simp only [List.map_cons, List.map_nil]; decide +kernel) ?_
    rw [List.forall_mem_cons, List.forall_mem_cons]
    exact ⟨⟨mval_jok hj hc k C hK _ _ h2 (by omega), mval_noTuple _ _ _ _⟩,
      ⟨mval_jok hj hc v C hK _ _ h4 (by omega), mval_noTuple _ _ _ _⟩, fun _ h => by cases h⟩
theorem props_jok (hj : m.json = true) {cfg : Cfg} (hc : CfgJson cfg) {K : CodecId → Val → Val} :
    ∀ (ps : List (Str × PropT m)) (C : CodecId → PropT m → Prop) (_ : JsonCustom cfg K C) (path : PyStr)
      (_ : wfProps cfg C path ps) (_ : (encProps ps).length < 2 ^ 64), JOkD m.an (valProps cfg K path ps)
  | [], C, hK, path, hw, hn => by simp only [valProps, JOkD]
  | (nm, p) :: t, C, hK, path, hw, hn => by
    simp only [wfProps] at hw
    obtain ⟨h1, h2, h3⟩ := hw
    simp only [encProps, List.length_append] at hn
    simp only [valProps, JOkD]
    refine ⟨nm.2.1, fun _ => ?_, ?_, props_jok hj hc t C hK path h3 (by omega)⟩
    · unfold showProp; split <;> trivial
    · refine show_ok hc hK (sub path nm) p (prop_noTuple _ _ _ _) ?_ (by omega) h2
      cases hcu : cfg.custom (sub path nm) with
      | none =>
        rw [hcu] at h2
        exact prop_jok hj hc p C hK (sub path nm) h2 (by omega)
      | some c =>
        rw [hcu] at h2
        exact prop_jok hj hc p noCustom (jsonCustom_no cfg K) (sub path nm) h2.2.2 (by omega)
end

end Pal
