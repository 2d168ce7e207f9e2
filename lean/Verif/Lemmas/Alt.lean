import Verif.Lemmas.InvertTree
import Verif.Lemmas.TreeCustom
/-
Values that differ only in byte strings, which may be shorter: if one is the value of a
tree, so is the other.
-/

namespace Pal
open Spec

mutual
/-- `w` is `v` with some byte strings replaced by others that are not longer. -/
def Alt : Val → Val → Prop
  | .tuple l, w => w = .tuple l ∨ ∃ b, w = vBytesT b ∧ b.length ≤ l.length
  | .list l, w => ∃ l', w = .list l' ∧ AltL l l'
  | .dict d, w => ∃ d', w = .dict d' ∧ AltD d d'
  | .none, w => w = .none
  | .bool b, w => w = .bool b
  | .int i, w => w = .int i
  | .float b, w => w = .float b
  | .str s, w => w = .str s
  | .bytes b, w => w = .bytes b
  | .uuid r, w => w = .uuid r
def AltL : List Val → List Val → Prop
  | [], l' => l' = []
  | a :: t, l' => ∃ a' t', l' = a' :: t' ∧ Alt a a' ∧ AltL t t'
def AltD : List (PyStr × Val) → List (PyStr × Val) → Prop
  | [], d' => d' = []
  | (k, a) :: t, d' => ∃ a' t', d' = (k, a') :: t' ∧ Alt a a' ∧ AltD t t'
end

mutual
theorem alt_refl : ∀ v, Alt v v
  | .tuple l => by simp only [Alt]; exact .inl trivial
  | .list l => by simp only [Alt]; exact ⟨l, rfl, altL_refl l⟩
  | .dict d => by simp only [Alt]; exact ⟨d, rfl, altD_refl d⟩
  | .none | .bool _ | .int _ | .float _ | .str _ | .bytes _ | .uuid _ => by simp only [Alt]
theorem altL_refl : ∀ l, AltL l l
  | [] => by simp only [AltL]
  | a :: t => by simp only [AltL]; exact ⟨a, t, rfl, alt_refl a, altL_refl t⟩
theorem altD_refl : ∀ d, AltD d d
  | [] => by simp only [AltD]
  | (k, a) :: t => by simp only [AltD]; exact ⟨a, t, rfl, alt_refl a, altD_refl t⟩
end

theorem altD_get {d e : Dict} (h : AltD d e) {k : PyStr} {x : Val} (hx : dget? d k = some x) :
    ∃ y, dget? e k = some y ∧ Alt x y := by
  induction d generalizing e with
  | nil => cases hx
  | cons a t ih =>
    obtain ⟨k', v⟩ := a
    simp only [AltD] at h
    obtain ⟨a', t', rfl, h1, h2⟩ := h
    simp only [dget?] at hx ⊢
    split at hx
    · rename_i e; cases hx; exact ⟨a', by rw [if_pos e], h1⟩
    · rename_i e; rw [if_neg e]; exact ih h2 hx

theorem altD_dset {d e : Dict} (h : AltD d e) {k : PyStr} {x z : Val} (hx : dget? d k = some x) (hs : Alt x z) :
    AltD d (dset e k z) := by
  induction d generalizing e with
  | nil => cases hx
  | cons a t ih =>
    obtain ⟨k', v⟩ := a
    simp only [AltD] at h ⊢
    obtain ⟨a', t', rfl, h1, h2⟩ := h
    simp only [dget?] at hx
    simp only [dset]
    split at hx
    · rename_i e; cases hx; rw [if_pos e]; exact ⟨z, t', by rw [e], hs, h2⟩
    · rename_i e; rw [if_neg e]; exact ⟨a', _, rfl, h1, ih h2 hx⟩

theorem alt_put {p : List PyStr} {v w x z : Val} (h : Alt v w) (hp : v.path p = .ok x) (hs : Alt x z) :
    Alt v (put p z w) := by
  induction p generalizing v w with
  | nil => cases hp; exact hs
  | cons k t ih =>
    obtain ⟨d, y, rfl, hd, hy⟩ := path_cons_ok hp
    simp only [Alt] at h ⊢
    obtain ⟨d', rfl, h⟩ := h
    obtain ⟨y', hd', ha⟩ := altD_get h hd
    rw [put_dict hd']
    exact ⟨_, rfl, altD_dset h hd (ih ha hy)⟩

theorem alt_putAll {v : Val} {l : List (List PyStr × Val)}
    (h : ∀ py ∈ l, ∃ x, v.path py.1 = .ok x ∧ Alt x py.2) : Alt v (putAll l v) := by
  induction l with
  | nil => exact alt_refl _
  | cons a t ih =>
    obtain ⟨p, y⟩ := a
    obtain ⟨x, h1, h2⟩ := h (p, y) (by simp)
    simp only [putAll]
    exact alt_put (ih fun py hpy => h py (by simp [hpy])) h1 h2

theorem alt_list {l l' : List Val} (h : AltL l l') : Alt (.list l) (.list l') := by
  simp only [Alt]; exact ⟨l', rfl, h⟩

theorem alt_raw {b b' : Bytes} (h : b'.length ≤ b.length) : Alt (rawVal b) (rawVal b') := by
  simp only [rawVal, vDict, List.map_cons, List.map_nil, Alt, AltD]
  refine ⟨_, rfl, _, _, rfl, ?_, rfl⟩
  simp only [vBytesT, Alt]
  exact .inr ⟨b', rfl, by simpa using h⟩

/-! ### no byte string inside -/

/-- Nothing in `v` can be replaced. -/
def Rigid (v : Val) : Prop := ∀ w, Alt v w → w = v

theorem rigid_vDict {l : List (String × Val)} (h : ∀ q ∈ l, Rigid q.2) : Rigid (vDict l) := by
  intro w hw
  simp only [vDict, Alt] at hw ⊢
  obtain ⟨d', rfl, hw⟩ := hw
  congr 1
  induction l generalizing d' with
  | nil => simpa only [List.map_nil, AltD] using hw
  | cons a t ih =>
    simp only [List.map_cons, AltD] at hw ⊢
    obtain ⟨a', t', rfl, h1, h2⟩ := hw
    rw [h a (by simp) _ h1, ih (fun q hq => h q (by simp [hq])) _ h2]

theorem rigid_list {l : List Val} (h : ∀ q ∈ l, Rigid q) : Rigid (.list l) := by
  intro w hw
  simp only [Alt] at hw ⊢
  obtain ⟨l', rfl, hw⟩ := hw
  congr 1
  induction l generalizing l' with
  | nil => simpa only [AltL] using hw
  | cons a t ih =>
    simp only [AltL] at hw
    obtain ⟨a', t', rfl, h1, h2⟩ := hw
    rw [h a (by simp) _ h1, ih (fun q hq => h q (by simp [hq])) _ h2]

theorem rigid_str (s : PyStr) : Rigid (.str s) := fun w h => by simpa only [Alt] using h
theorem rigid_vStr (s : Str) : Rigid (vStr s) := rigid_str _
theorem rigid_guid (g : Guid) : Rigid (vGuid g) := fun w h => by simpa only [vGuid, Alt] using h
theorem rigid_int (i : Int) : Rigid (.int i) := fun w h => by simpa only [Alt] using h
theorem rigid_bool (i : Bool) : Rigid (.bool i) := fun w h => by simpa only [Alt] using h
theorem rigid_float (i : BitVec 64) : Rigid (.float i) := fun w h => by simpa only [Alt] using h
theorem rigid_none : Rigid .none := fun w h => by simpa only [Alt] using h
theorem rigid_opt (g : Option Guid) : Rigid (vOptGuid g) := by
  cases g
  · exact rigid_none
  · exact rigid_guid _
theorem rigid_structType (ty : Str) (st : PyStr) : Rigid (vStructType ty st) := by
  unfold vStructType
  split
  · exact rigid_str _
  · exact rigid_none

theorem rigid_vec {m : Mode} (v : Vec m) : Rigid (vVec v) := by
  refine rigid_vDict ?_
  simp only [List.forall_mem_cons]
  exact ⟨rigid_float _, rigid_float _, rigid_float _, by simp⟩
theorem rigid_quat {m : Mode} (v : Quat m) : Rigid (vQuat v) := by
  refine rigid_vDict ?_
  simp only [List.forall_mem_cons]
  exact ⟨rigid_float _, rigid_float _, rigid_float _, rigid_float _, by simp⟩

/-- Only the "value" of a property can be replaced. -/
theorem alt_entries {m : Mode} {cfg : Cfg} {path : PyStr} {x w : Val} {p : PropT m}
    (h : Alt (vDict (p.entries cfg path x)) w) : ∃ x', w = vDict (p.entries cfg path x') ∧ Alt x x' := by
  have hs := rigid_str
  have ho := rigid_opt
  have hv := rigid_vStr
  have hg := rigid_guid
  have hst := rigid_structType
  cases p <;> simp only [PropT.entries, vDict, List.map_cons, List.map_nil, Alt, AltD] at h
  case struct =>
    obtain ⟨_, rfl, a1, _, rfl, h1, a2, _, rfl, h2, a3, _, rfl, h3, a4, _, rfl, h4, a5, _, rfl, h5, rfl⟩ := h
    cases hv _ _ h1; cases hg _ _ h2; cases ho _ _ h3; cases h5
    exact ⟨a4, rfl, h4⟩
  case map =>
    obtain ⟨_, rfl, a1, _, rfl, h1, a2, _, rfl, h2, a3, _, rfl, h3, a4, _, rfl, h4, a5, _, rfl, h5, a6, _, rfl, h6, a7, _, rfl, h7,
      rfl⟩ := h
    cases hv _ _ h1; cases hv _ _ h2; cases hst _ _ _ h3; cases hst _ _ _ h4; cases ho _ _ h5; cases h7
    exact ⟨a6, rfl, h6⟩
  case bool =>
    obtain ⟨_, rfl, a1, _, rfl, h1, a2, _, rfl, h2, a3, _, rfl, h3, rfl⟩ := h
    cases ho _ _ h2; cases h3
    exact ⟨a1, rfl, h1⟩
  case enums | names | guids | bytes | others | structs =>
    obtain ⟨_, rfl, a1, _, rfl, h1, a2, _, rfl, h2, a3, _, rfl, h3, a4, _, rfl, h4, rfl⟩ := h
    cases h1; cases ho _ _ h2; cases h4
    exact ⟨a3, rfl, h3⟩
  all_goals
    obtain ⟨_, rfl, a1, _, rfl, h1, a2, _, rfl, h2, a3, _, rfl, h3, rfl⟩ := h
    cases ho _ _ h1; cases h3
    exact ⟨a2, rfl, h2⟩

/-! ### trees -/

variable {cfg : Cfg} {K : CodecId → Val → Val} {G : Prop}

/-- `w` is the value of a property with the same type and head, and a tail that is not longer. -/
def AltProp (cfg : Cfg) (K : CodecId → Val → Val) (G : Prop) (path : PyStr) (p : PropT rawMode) (w : Val) : Prop :=
  ∃ p' : PropT rawMode, p'.WfG cfg noCustom G path ∧ w = p'.val cfg K path ∧ p'.type = p.type ∧
    (∀ x, p'.entries cfg path x = p.entries cfg path x) ∧ p'.head = p.head ∧ p'.tail.length ≤ p.tail.length

theorem altProp_self {path : PyStr} {p : PropT rawMode} {w : Val} (h : p.WfG cfg noCustom G path)
    (hw : w = p.val cfg K path) : AltProp cfg K G path p w :=
  ⟨p, h, hw, rfl, fun _ => rfl, rfl, Nat.le_refl _⟩

mutual
theorem sval_alt : ∀ (v : SVal rawMode) (path st : PyStr) (w : Val), v.Fits st → v.WfG cfg noCustom G path →
    Alt (v.val cfg K path) w →
    ∃ v' : SVal rawMode, v'.Fits st ∧ v'.WfG cfg noCustom G path ∧ w = v'.val cfg K path ∧ v'.enc.length ≤ v.enc.length
  | .vector v, path, st, w, hf, hw, h => by
    simp only [SVal.val] at h
    exact ⟨.vector v, hf, hw, by simp only [SVal.val]; exact rigid_vec v _ h, Nat.le_refl _⟩
  | .dateTime n, path, st, w, hf, hw, h => by
    simp only [SVal.val] at h
    exact ⟨.dateTime n, hf, hw, by simp only [SVal.val]; exact rigid_int _ _ h, Nat.le_refl _⟩
  | .guid g, path, st, w, hf, hw, h => by
    simp only [SVal.val] at h
    exact ⟨.guid g, hf, hw, by simp only [SVal.val]; exact rigid_guid _ _ h, Nat.le_refl _⟩
  | .quat v, path, st, w, hf, hw, h => by
    simp only [SVal.val] at h
    exact ⟨.quat v, hf, hw, by simp only [SVal.val]; exact rigid_quat v _ h, Nat.le_refl _⟩
  | .color r g b a, path, st, w, hf, hw, h => by
    simp only [SVal.val] at h
    refine ⟨.color r g b a, hf, hw, ?_, Nat.le_refl _⟩
    simp only [SVal.val]
    refine rigid_vDict ?_ _ h
    simp only [List.forall_mem_cons]
    exact ⟨rigid_float _, rigid_float _, rigid_float _, rigid_float _, by simp⟩
  | .props ps, path, st, w, hf, hw, h => by
    simp only [SVal.WfG] at hw
    simp only [SVal.val, Alt] at h
    obtain ⟨d', rfl, h⟩ := h
    obtain ⟨ps', h1, h2, rfl, h4⟩ := props_alt ps path d' hw.2 h
    refine ⟨.props ps', hf, ?_, by simp only [SVal.val], by simpa only [SVal.enc] using h4⟩
    simp only [SVal.WfG]
    exact ⟨by rw [h1]; exact hw.1, h2⟩
theorem mval_alt : ∀ (v : MVal rawMode) (path st : PyStr) (w : Val), v.WfG cfg noCustom G path st →
    Alt (v.val cfg K path) w →
    ∃ v' : MVal rawMode, v'.type = v.type ∧ v'.WfG cfg noCustom G path st ∧ w = v'.val cfg K path ∧ v'.enc.length ≤ v.enc.length
  | .struct s, path, st, w, hw, h => by
    simp only [MVal.WfG] at hw
    simp only [MVal.val] at h
    obtain ⟨s', h1, h2, rfl, h4⟩ := sval_alt s path st w hw.1 hw.2 h
    exact ⟨.struct s', rfl, by simp only [MVal.WfG]; exact ⟨h1, h2⟩, by simp only [MVal.val], by simpa only [MVal.enc] using h4⟩
  | .enum s, path, st, w, hw, h => by
    simp only [MVal.val] at h
    exact ⟨.enum s, rfl, hw, by simp only [MVal.val]; exact rigid_vStr _ _ h, Nat.le_refl _⟩
  | .name s, path, st, w, hw, h => by
    simp only [MVal.val] at h
    exact ⟨.name s, rfl, hw, by simp only [MVal.val]; exact rigid_vStr _ _ h, Nat.le_refl _⟩
  | .int s, path, st, w, hw, h => by
    simp only [MVal.val] at h
    exact ⟨.int s, rfl, hw, by simp only [MVal.val]; exact rigid_int _ _ h, Nat.le_refl _⟩
  | .bool s, path, st, w, hw, h => by
    simp only [MVal.val] at h
    exact ⟨.bool s, rfl, hw, by simp only [MVal.val]; exact rigid_bool _ _ h, Nat.le_refl _⟩
theorem prop_alt : ∀ (p : PropT rawMode) (path : PyStr) (w : Val), p.WfG cfg noCustom G path →
    Alt (p.val cfg K path) w → AltProp cfg K G path p w
  | .struct st sid id v, path, w, hw, h => by
    simp only [PropT.WfG] at hw
    simp only [PropT.val] at h
    obtain ⟨v', h1, h2, rfl, h4⟩ := sval_alt v path st.val w hw.1 hw.2 h
    exact ⟨.struct st sid id v', by simp only [PropT.WfG]; exact ⟨h1, h2⟩, by simp only [PropT.val], rfl,
      fun _ => by simp only [PropT.entries], rfl, by simpa only [PropT.tail] using h4⟩
  | .structs id pn pt tn gid l, path, w, hw, h => by
    simp only [PropT.WfG] at hw
    simp only [PropT.val, vDict, List.map_cons, List.map_nil, Alt, AltD] at h
    obtain ⟨_, rfl, a1, _, rfl, h1, a2, _, rfl, h2, a3, _, rfl, ⟨l', rfl, h3⟩, a4, _, rfl, h4, a5, _, rfl, h5, rfl⟩ := h
    cases rigid_vStr _ _ h1; cases rigid_vStr _ _ h2; cases rigid_vStr _ _ h4; cases rigid_guid _ _ h5
    obtain ⟨vs, g1, g2, rfl, g4⟩ := svals_alt l (sub path pn) tn.val l' hw.2 h3
    refine ⟨.structs id pn pt tn gid vs, ?_, ?_, rfl, fun _ => by simp only [PropT.entries], rfl, ?_⟩
    · simp only [PropT.WfG]; exact ⟨by omega, g2⟩
    · simp only [PropT.val]; rfl
    · simp only [PropT.tail, List.length_append, lit_length]; omega
  | .map kt vt id l, path, w, hw, h => by
    simp only [PropT.WfG] at hw
    simp only [PropT.val, Alt] at h
    obtain ⟨l', rfl, h⟩ := h
    obtain ⟨es, g1, g2, rfl, g4⟩ := entries_alt l path kt.val vt.val l' hw.2 h
    refine ⟨.map kt vt id es, ?_, ?_, rfl, fun _ => by simp only [PropT.entries], rfl, ?_⟩
    · simp only [PropT.WfG]; exact ⟨by omega, g2⟩
    · simp only [PropT.val]
    · simp only [PropT.tail, List.length_append, lit_length]; omega
  | .bytes id b, path, w, hw, h => by
    simp only [PropT.WfG] at hw
    simp only [PropT.val, vDict, List.map_cons, List.map_nil, Alt, AltD, vBytesT] at h
    obtain ⟨_, rfl, a1, _, rfl, h1, rfl⟩ := h
    rcases h1 with rfl | ⟨b', rfl, hb⟩
    · exact altProp_self (by simp only [PropT.WfG]; exact hw) (by simp only [PropT.val]; rfl)
    · rw [List.length_map] at hb
      refine ⟨.bytes id b', ?_, ?_, rfl, fun _ => by simp only [PropT.entries], rfl, ?_⟩
      · simp only [PropT.WfG]; omega
      · simp only [PropT.val]; rfl
      · simp only [PropT.tail, List.length_append, lit_length]; omega
  | .int id n, path, w, hw, h => altProp_self hw (by simp only [PropT.val] at h ⊢; exact rigid_int _ _ h)
  | .int64 id n, path, w, hw, h => altProp_self hw (by simp only [PropT.val] at h ⊢; exact rigid_int _ _ h)
  | .fixed64 id n, path, w, hw, h => altProp_self hw (by simp only [PropT.val] at h ⊢; exact rigid_int _ _ h)
  | .float id n, path, w, hw, h => altProp_self hw (by simp only [PropT.val] at h ⊢; exact rigid_float _ _ h)
  | .str id n, path, w, hw, h => altProp_self hw (by simp only [PropT.val] at h ⊢; exact rigid_vStr _ _ h)
  | .name id n, path, w, hw, h => altProp_self hw (by simp only [PropT.val] at h ⊢; exact rigid_vStr _ _ h)
  | .bool id n, path, w, hw, h => altProp_self hw (by simp only [PropT.val] at h ⊢; exact rigid_bool _ _ h)
  | .enum et id n, path, w, hw, h => altProp_self hw (by
      simp only [PropT.val] at h ⊢
      refine rigid_vDict ?_ _ h
      simp only [List.forall_mem_cons]
      exact ⟨rigid_vStr _, rigid_vStr _, by simp⟩)
  | .enums id l, path, w, hw, h => altProp_self hw (by
      simp only [PropT.val] at h ⊢
      refine rigid_vDict ?_ _ h
      simp only [List.forall_mem_cons]
      refine ⟨rigid_list ?_, by simp⟩
      rintro q hq
      obtain ⟨s, _, rfl⟩ := List.mem_map.1 hq
      exact rigid_vStr s)
  | .names id l, path, w, hw, h => altProp_self hw (by
      simp only [PropT.val] at h ⊢
      refine rigid_vDict ?_ _ h
      simp only [List.forall_mem_cons]
      refine ⟨rigid_list ?_, by simp⟩
      rintro q hq
      obtain ⟨s, _, rfl⟩ := List.mem_map.1 hq
      exact rigid_vStr s)
  | .others id o, path, w, hw, h => by simp only [PropT.WfG] at hw
  | .guids id l, path, w, hw, h => altProp_self hw (by
      simp only [PropT.val] at h ⊢
      refine rigid_vDict ?_ _ h
      simp only [List.forall_mem_cons]
      refine ⟨rigid_list ?_, by simp⟩
      rintro q hq
      obtain ⟨s, _, rfl⟩ := List.mem_map.1 hq
      exact rigid_guid s)
theorem svals_alt : ∀ (l : List (SVal rawMode)) (path st : PyStr) (l' : List Val), wfSValsG cfg noCustom G path st l →
    AltL (valSVals cfg K path l) l' →
    ∃ vs : List (SVal rawMode), vs.length = l.length ∧ wfSValsG cfg noCustom G path st vs ∧ l' = valSVals cfg K path vs ∧
      (encSVals vs).length ≤ (encSVals l).length
  | [], path, st, l', hw, h => by
    simp only [valSVals, AltL] at h
    exact ⟨[], rfl, hw, by simp only [valSVals]; exact h, Nat.le_refl _⟩
  | v :: t, path, st, l', hw, h => by
    simp only [wfSValsG] at hw
    simp only [valSVals, AltL] at h
    obtain ⟨a', t', rfl, h1, h2⟩ := h
    obtain ⟨v', g1, g2, rfl, g4⟩ := sval_alt v path st a' hw.1 hw.2.1 h1
    obtain ⟨vs, k1, k2, rfl, k4⟩ := svals_alt t path st t' hw.2.2 h2
    exact ⟨v' :: vs, by simp [k1], by simp only [wfSValsG]; exact ⟨g1, g2, k2⟩, by simp only [valSVals],
      by simp only [encSVals, List.length_append]; omega⟩
theorem entries_alt : ∀ (l : List (MVal rawMode × MVal rawMode)) (path kt vt : PyStr) (l' : List Val),
    wfEntriesG cfg noCustom G path kt vt l → AltL (valEntries cfg K path l) l' →
    ∃ es : List (MVal rawMode × MVal rawMode), es.length = l.length ∧ wfEntriesG cfg noCustom G path kt vt es ∧
      l' = valEntries cfg K path es ∧ (encEntries es).length ≤ (encEntries l).length
  | [], path, kt, vt, l', hw, h => by
    simp only [valEntries, AltL] at h
    exact ⟨[], rfl, hw, by simp only [valEntries]; exact h, Nat.le_refl _⟩
  | (k, v) :: t, path, kt, vt, l', hw, h => by
    simp only [wfEntriesG] at hw
    obtain ⟨w1, w2, w3, w4, w5⟩ := hw
    simp only [valEntries, AltL, vDict, List.map_cons, List.map_nil, Alt, AltD] at h
    obtain ⟨_, t', rfl, ⟨_, rfl, a1, _, rfl, h1, a2, _, rfl, h2, rfl⟩, h3⟩ := h
    obtain ⟨k', g1, g2, rfl, g4⟩ := mval_alt k _ _ a1 w2 h1
    obtain ⟨v', f1, f2, rfl, f4⟩ := mval_alt v _ _ a2 w4 h2
    obtain ⟨es, k1, k2, rfl, k4⟩ := entries_alt t path kt vt t' w5 h3
    refine ⟨(k', v') :: es, by simp [k1], ?_, by simp only [valEntries]; rfl, by
      simp only [encEntries, List.length_append]; omega⟩
    simp only [wfEntriesG]
    exact ⟨by rw [g1]; exact w1, g2, by rw [f1]; exact w3, f2, k2⟩
theorem props_alt : ∀ (ps : List (Str × PropT rawMode)) (path : PyStr) (d' : Dict), wfPropsG cfg noCustom G path ps →
    AltD (valProps cfg K path ps) d' →
    ∃ ps' : List (Str × PropT rawMode), ps'.map Prod.fst = ps.map Prod.fst ∧ wfPropsG cfg noCustom G path ps' ∧
      d' = valProps cfg K path ps' ∧ (encProps ps').length ≤ (encProps ps).length
  | [], path, d', hw, h => by
    simp only [valProps, AltD] at h
    exact ⟨[], rfl, hw, by simp only [valProps]; exact h, Nat.le_refl _⟩
  | (n, p) :: t, path, d', hw, h => by
    simp only [wfPropsG] at hw
    obtain ⟨w1, w2, w3⟩ := hw
    simp only [valProps, AltD] at h
    obtain ⟨a', t', rfl, h1, h2⟩ := h
    obtain ⟨ps', k1, k2, rfl, k4⟩ := props_alt t path t' w3 h2
    cases hc : cfg.custom (sub path n) with
    | some c => rw [hc] at w2; exact w2.2.1.elim
    | none =>
      rw [hc] at w2
      simp only [showProp, hc] at h1
      obtain ⟨x', rfl, h9⟩ := alt_entries h1
      obtain ⟨p', g1, rfl, g3, g4, g5, g6⟩ := prop_alt p _ x' w2 h9
      refine ⟨(n, p') :: ps', by simp [k1], ?_, ?_, ?_⟩
      · simp only [wfPropsG, hc]; exact ⟨w1, g1, k2⟩
      · simp only [valProps, showProp, hc, g4]
      · simp only [encProps, List.length_append, g3, g5, lit_length]; omega
end

end Pal
