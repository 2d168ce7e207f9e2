import Verif.Lemmas.RedoCodec
import Verif.Lemmas.TreeCustom
/-
Modules of base camps.  The tool's `encode` adds "values" to the decoded dict, where the other
codecs replace the dict; what is written is the same, because the writer of an array does not
look at the other keys.
-/

namespace Pal
open Spec

/-! ### the blob -/

/-- The decoded dict is `{"values": …}`, or has other keys. -/
theorem camp_shape {mt raw : Val} {s s' : Bytes} {v : Val} (h : campModuleDecode true mt raw s = .ok (v, s')) :
    v = dct [("values", raw)] ∨ v = dct [] ∨ (∃ x, v = dct [("transport_item_character_infos", x)]) ∨
      ∃ x, v = dct [("passive_effects", x)] := by
  unfold campModuleDecode at h
  by_cases h1 : mt.isAny campNoOp
  · rw [if_pos h1] at h
    obtain ⟨rfl, rfl⟩ := r_pure_inv h
    exact .inr (.inl rfl)
  rw [if_neg h1] at h
  by_cases h2 : mt.isS "EPalBaseCampModuleType::TransportItemDirector"
  · rw [if_pos h2] at h
    rcases try_ok_or h with h | h
    · obtain ⟨x, _, _, h⟩ := r_bind_inv h
      obtain ⟨rfl, rfl⟩ := r_pure_inv h
      exact .inr (.inr (.inl ⟨x, rfl⟩))
    · exact .inl h
  rw [if_neg h2] at h
  by_cases h3 : mt.isS "EPalBaseCampModuleType::PassiveEffect"
  · rw [if_pos h3] at h
    rcases try_ok_or h with h | h
    · obtain ⟨x, _, _, h⟩ := r_bind_inv h
      obtain ⟨rfl, rfl⟩ := r_pure_inv h
      exact .inr (.inr (.inr ⟨x, rfl⟩))
    · exact .inl h
  rw [if_neg h3] at h
  exact .inl (r_pure_inv h).1

/-- Other keys than "values". -/
def CampDict (v : Val) : Prop := v = dct [] ∨ (∃ x, v = dct [("transport_item_character_infos", x)]) ∨
  ∃ x, v = dct [("passive_effects", x)]

theorem campDict_nv {v : Val} (h : CampDict v) : NoValues v := by
  rcases h with rfl | ⟨x, rfl⟩ | ⟨x, rfl⟩ <;> simp [NoValues, dct, Val.contains, dget?, P_inj]

theorem leaf_camp (mt : Val) :
    LeafOk (fun t => runBlob t (campModuleDecode true mt t)) fun _ => unlessValues (asValuesBytes (campModuleEncode mt)) where
  raw := by
    intro b y n z hb hy hz
    obtain ⟨s', hs⟩ := runBlob_T_inv hy
    rcases camp_shape hs with rfl | hd
    · rw [unless_raw] at hz
      cases hz
      exact ⟨b, Nat.le_refl _, hy, sim_refl _ _, fun n' _ => unless_raw _⟩
    · have h0 := campDict_nv hd
      rcases camp_resave (q := True) (fun _ => rfl) mt (vBytesT b) hb hs with rfl | ⟨c, h1, h2, h3⟩
      · rw [NoValues, show (dct [("values", vBytesT b)]).contains (P "values") = .ok true from by
          simp [dct, Val.contains, dget?]] at h0
        cases h0
      · obtain ⟨s'', h3⟩ := h3 trivial (vBytesT c)
        have hz' := hz
        rw [unless_no h0] at hz
        simp only [asValuesBytes, h1] at hz
        cases hz
        exact ⟨c, h2, runBlob_T h3, sim_raw (sim_bytes c), fun _ _ => hz'⟩
  empty := by
    intro y n z hy hz
    refine ⟨?_, fun _ _ => hz⟩
    have hs : ∃ s', campModuleDecode true mt (.list []) [] = .ok (y, s') := by
      simp only [runBlob, toBytes, mapE] at hy
      cases hx : campModuleDecode true mt (.list []) [] with
      | error e => rw [hx] at hy; cases hy
      | ok p => obtain ⟨r, s⟩ := p; rw [hx] at hy; cases hy; exact ⟨s, rfl⟩
    obtain ⟨s', hs⟩ := hs
    rcases camp_shape hs with rfl | hd
    · rw [unless_raw] at hz
      cases hz
      exact sim_refl _ _
    · have h0 := campDict_nv hd
      rcases camp_resave (q := True) (fun _ => rfl) mt (.list []) (by decide) hs with rfl | ⟨c, h1, h2, h3⟩
      · rw [NoValues, show (dct [("values", Val.list [])]).contains (P "values") = .ok true from by
          simp [dct, Val.contains, dget?]] at h0
        cases h0
      · have : c = [] := List.eq_nil_of_length_eq_zero (by simpa using h2)
        subst this
        rw [unless_no h0] at hz
        simp only [asValuesBytes, h1] at hz
        cases hz
        exact .dict (.cons _ (.listBytes [] rfl) (by simp [NT]) .nil)
  str := guard_str (guard_run fun t => campModuleDecode true mt t)
  uuid := guard_uuid (guard_run fun t => campModuleDecode true mt t)
  dict := guard_dict (guard_run fun t => campModuleDecode true mt t)
  lacks := by
    intro b y n z hy hz
    have hs : ∃ c s', campModuleDecode true mt b c = .ok (y, s') := runBlob_inv hy
    obtain ⟨c, s', hs⟩ := hs
    rcases camp_shape hs with rfl | hd
    · rw [unless_raw] at hz
      cases hz
      exact values_lacks _
    · rw [unless_no (campDict_nv hd)] at hz
      simp only [asValuesBytes] at hz
      cases hw : campModuleEncode mt y with
      | error e => rw [hw] at hz; cases hz
      | ok c =>
        rw [hw] at hz
        cases hz
        exact values_lacks _

theorem redo_camp {x y : Val} (hx : Nice x) (h : campModulePost1 true x = .ok y) :
    Redo (campModulePost1 true) (fun _ => campAlt1) x y := by
  have h0 := h
  unfold campModulePost1 at h
  cases hp : x.get (P "key") with
  | error e => rw [hp] at h; cases h
  | ok mt =>
    refine redo_upd1 (p := ks ["value", "RawData", "value"]) (f := onValues fun b => runBlob b (campModuleDecode true mt b))
      (g := fun _ => unlessValues (asValuesBytes (campModuleEncode mt))) (fun t ht => ?_) (fun u w hu hw => ?_) h0
    · have hk : t.get (P "key") = .ok mt := by
        have := ht [P "key"] (by simp [Div, ks, P_inj])
        simp only [Val.path, hp] at this
        cases hg : t.get (P "key") with
        | error e => rw [hg] at this; cases this
        | ok x => rw [hg] at this; exact this
      exact ⟨by simp only [campModulePost1, hk], fun _ => by simp only [campAlt1, hk]⟩
    · have hn := nice_ks hx hu (by decide)
      exact ⟨nice_not_tuple hn, redo_leaf (leaf_camp mt) hn hw⟩

/-! ### writing -/

/-- Two values of an array property, neither of an array of structs, with the same "values". -/
def SameArr (W W' : Val) : Prop := (∃ w, W.get (P "values") = .ok w ∧ W'.get (P "values") = .ok w) ∧
  (∃ e, W.get (P "prop_name") = .error e) ∧ ∃ e, W'.get (P "prop_name") = .error e

theorem sameArr_symm {W W' : Val} (h : SameArr W W') : SameArr W' W := by
  obtain ⟨⟨w, h1, h2⟩, h3, h4⟩ := h
  exact ⟨⟨w, h2, h1⟩, h4, h3⟩

theorem wAt1 {v : Val} {k : String} {f : Val → Except Err Bytes} {w : Val} (h : v.get (P k) = .ok w) : wAt v [k] f = f w := by
  simp only [wAt, ks, List.map_cons, List.map_nil, Val.path, h]

theorem wAt1_error {v : Val} {k : String} {f : Val → Except Err Bytes} {e : Err} (h : v.get (P k) = .error e) :
    wAt v [k] f = .error e := by
  simp only [wAt, ks, List.map_cons, List.map_nil, Val.path, h]

theorem array_swap {r : Val → W} {at_ W W' : Val} (h : SameArr W W') : LeW (wArrayProperty r at_ W) (wArrayProperty r at_ W') := by
  obtain ⟨⟨w, h1, h2⟩, ⟨e, h3⟩, -⟩ := h
  intro b hb
  unfold wArrayProperty at hb ⊢
  obtain ⟨c, d, g1, g2, rfl⟩ := wrote_then.1 hb
  rw [wAt1 h1] at g1
  refine wrote_then.2 ⟨c, d, by rw [wAt1 h2, g1], ?_, rfl⟩
  by_cases hs : at_.isS "StructProperty"
  · rw [if_pos hs] at g2
    obtain ⟨c', _, g3, -⟩ := wrote_then.1 g2
    rw [wAt1_error h3] at g3
    cases g3
  · rw [if_neg hs] at g2 ⊢
    rw [wrote_keep, wAt1 h1] at g2
    rw [wrote_keep, wAt1 h2, g2]

theorem arr_entries {m : Mode} {q : PropT m} (hq : q.type = "ArrayProperty") : ∃ at_ i, ∀ cfg path x, q.entries cfg path x =
    [("array_type", .str at_), ("id", i), ("value", x), ("type", .str (P "ArrayProperty"))] := by
  cases q <;> simp only [PropT.type, String.reduceEq] at hq <;> exact ⟨_, _, fun _ _ _ => rfl⟩

theorem prop_swap {m : Mode} {cfg B : Cfg} {r : Val → W} {wp : Val → Except Err Bytes} {q : PropT m} {path : PyStr} {W W' : Val}
    (hq : q.type = "ArrayProperty") (h : SameArr W W') :
    LeW (wProperty B r wp (vDict (q.entries cfg path W))) (wProperty B r wp (vDict (q.entries cfg path W'))) := by
  intro b hb
  have hno : ∀ x, (vDict (q.entries cfg path x)).contains (P "custom_type") = .ok false :=
    fun x => contains_no _ _ (custom_not_key cfg path _ _)
  obtain ⟨at_, i, hq'⟩ := arr_entries hq
  obtain ⟨ty, tb, n, buf, sb, g1, g2, g3, g4, rfl⟩ := wrote_property.1 hb
  have ht : ∀ x, (vDict (q.entries cfg path x)).get (P "type") = .ok (.str (P "ArrayProperty")) := fun x => by
    rw [hq']; simp [wr]
  rw [ht] at g1
  cases g1
  refine wrote_property.2 ⟨_, tb, n, buf, sb, ht _, g2, wroteP_inner.2 (.inl ⟨hno _, ?_⟩), g4, rfl⟩
  rcases wroteP_inner.1 g3 with ⟨-, g3⟩ | ⟨g3, -⟩
  swap
  · rw [hno] at g3; cases g3
  rw [hq'] at g3 ⊢
  simp only [wPlainInner, isS_P, String.reduceEq, decide_false, decide_true, Bool.false_eq_true, ↓reduceIte] at g3 ⊢
  have ha : ∀ x, (vDict [("array_type", Val.str at_), ("id", i), ("value", x), ("type", .str (P "ArrayProperty"))]).get
      (P "array_type") = .ok (.str at_) := fun x => by simp [wr]
  have hi : ∀ x, wId (vDict [("array_type", Val.str at_), ("id", i), ("value", x), ("type", .str (P "ArrayProperty"))]) =
      wOptGuid i := fun x => by simp [wId, Val.getD, vDict, dget?, P_inj]
  have hv : ∀ x, (vDict [("array_type", Val.str at_), ("id", i), ("value", x), ("type", .str (P "ArrayProperty"))]).get
      (P "value") = .ok x := fun x => by simp [wr]
  obtain ⟨c, d, k1, k2, rfl, rfl⟩ := wroteP_sized.1 g3
  rw [ha] at k2
  simp only at k2
  obtain ⟨x, k3, k4⟩ := wrote_on.1 k2
  rw [hv] at k3
  cases k3
  refine wroteP_sized.2 ⟨c, d, ?_, ?_, rfl, rfl⟩
  · rw [hi, wAt1 (ha _)] at k1 ⊢
    exact k1
  · rw [ha]
    exact wrote_on.2 ⟨_, hv _, array_swap h d k4⟩

/-- The values of two map entries, that differ at most in the value of an array property. -/
def SameValue (cfg : Cfg) (v v' : Val) : Prop := v = v' ∨ ∃ d k path, ∃ (q : PropT rawMode) (W W' : Val),
  q.type = "ArrayProperty" ∧ SameArr W W' ∧ v = .dict (dset d k (vDict (q.entries cfg path W))) ∧
    v' = .dict (dset d k (vDict (q.entries cfg path W')))

theorem sameValue_symm {cfg : Cfg} {v v' : Val} (h : SameValue cfg v v') : SameValue cfg v' v := by
  rcases h with rfl | ⟨d, k, path, q, W, W', h1, h2, h3, h4⟩
  · exact .inl rfl
  · exact .inr ⟨d, k, path, q, W', W, h1, sameArr_symm h2, h4, h3⟩

theorem value_swap {cfg B : Cfg} {v v' : Val} {n : Nat} (h : SameValue cfg v v') : LeW (wProps n B v) (wProps n B v') := by
  rcases h with rfl | ⟨d, k, path, q, W, W', h1, h2, rfl, rfl⟩
  · exact fun _ h => h
  intro b hb
  cases n with
  | zero => exact (wrote_error.1 hb).elim
  | succ n =>
    rw [wProps_succ] at hb ⊢
    obtain ⟨c, nb, r1, r2, rfl⟩ := wrote_body.1 hb
    refine wrote_body.2 ⟨c, nb, ?_, r2, rfl⟩
    rw [← dset_dset d k (vDict (q.entries cfg path W)) (vDict (q.entries cfg path W'))]
    exact wroteD_dset (dget_dset _ _ _) (prop_swap h1 h2) r1

/-- Map entries with the same key, whose values differ so. -/
def SameEntry (cfg : Cfg) (e e' : Val) : Prop := e = e' ∨ ∃ k v v', e = vDict [("key", k), ("value", v)] ∧
  e' = vDict [("key", k), ("value", v')] ∧ SameValue cfg v v'

def SameEntries (cfg : Cfg) (l l' : List Val) : Prop := List.Forall₂ (SameEntry cfg) l l'

theorem sameEntry_symm {cfg : Cfg} {v v' : Val} (h : SameEntry cfg v v') : SameEntry cfg v' v := by
  rcases h with rfl | ⟨k, v, v', rfl, rfl, h⟩
  · exact .inl rfl
  · exact .inr ⟨k, v', v, rfl, rfl, sameValue_symm h⟩

theorem entry_swap {cfg B : Cfg} {e e' : Val} {n : Nat} {prop prop' : Val} {vt st : PyStr} (h : SameEntry cfg e e')
    (hk : ∀ k ∈ ["key_type", "key_struct_type", "value_type", "value_struct_type"], prop.get (P k) = prop'.get (P k))
    (hvt : prop.get (P "value_type") = .ok (.str vt)) (hv : vt = P "StructProperty")
    (hst : prop.get (P "value_struct_type") = .ok (.str st)) (hf : ∀ s ∈ fixedStructs, st ≠ P s) :
    LeW (wMapEntry (wProps n B) prop e) (wMapEntry (wProps n B) prop' e') := by
  intro b hb
  obtain ⟨kt, kst, vt', vst, k, v, kb, vb, h1, h2, h3, h4, h5, h6, h7, h8, rfl⟩ := wrote_mapEntry.1 hb
  have hk1 := hk "key_type" (by simp)
  have hk2 := hk "key_struct_type" (by simp)
  have hk3 := hk "value_type" (by simp)
  have hk4 := hk "value_struct_type" (by simp)
  refine wrote_mapEntry.2 ?_
  rcases h with rfl | ⟨k0, v0, v0', rfl, rfl, h⟩
  · exact ⟨kt, kst, vt', vst, k, v, kb, vb, hk1 ▸ h1, hk2 ▸ h2, hk3 ▸ h3, hk4 ▸ h4, h5, h6, h7, h8, rfl⟩
  have gv : ∀ x y : Val, (vDict [("key", x), ("value", y)]).get (P "value") = .ok y := fun x y => by simp [wr]
  have gk : ∀ x y : Val, (vDict [("key", x), ("value", y)]).get (P "key") = .ok x := fun x y => by simp [wr]
  rw [gk] at h5
  cases h5
  rw [gv] at h6
  cases h6
  refine ⟨kt, kst, vt', vst, _, _, kb, vb, hk1 ▸ h1, hk2 ▸ h2, hk3 ▸ h3, hk4 ▸ h4, gk _ _, gv _ _, h7, ?_, rfl⟩
  rw [hvt] at h3
  cases h3
  rw [hst] at h4
  cases h4
  subst hv
  simp only [fixedStructs, List.forall_mem_cons] at hf
  obtain ⟨f1, f2, f3, f4, f5, _⟩ := hf
  simp only [wPropValue, isS_str, decide_true, ↓reduceIte] at h8 ⊢
  simp only [wStructValue, isS_str, Ne.symm f1, Ne.symm f2, Ne.symm f3, Ne.symm f4, Ne.symm f5, decide_false,
    Bool.false_eq_true, ↓reduceIte] at h8 ⊢
  exact value_swap h _ h8

/-! ### entries -/

theorem props_lookup {cfg : Cfg} {K : CodecId → Val → Val} {G : Prop} {k : PyStr} {w : Val} {path : PyStr} :
    ∀ {ps : Props rawMode}, wfPropsG cfg noCustom G path ps → dget? (valProps cfg K path ps) k = some w →
      ∃ path', ∃ q : PropT rawMode, q.WfG cfg noCustom G path' ∧ w = vDict (q.entries cfg path' (q.val cfg K path'))
  | [], _, h => by simp only [valProps] at h; cases h
  | (nm, q) :: t, hw, h => by
    simp only [wfPropsG] at hw
    obtain ⟨-, h1, h2⟩ := hw
    cases hc : cfg.custom (sub path nm) with
    | some c => rw [hc] at h1; exact absurd h1.2.1 id
    | none =>
      simp only [valProps, showProp, hc, dget?] at h
      split at h
      · cases h; rw [hc] at h1; exact ⟨_, q, h1, rfl⟩
      · exact props_lookup h2 h

/-- What can be decoded as a blob is an array. -/
theorem blob_array {cfg : Cfg} {K : CodecId → Val → Val} {path : PyStr} {q : PropT rawMode} {h : Val → Except Err Val} {y : Val}
    {G : Prop} (hw : q.WfG cfg noCustom G path) (hd : ∀ a d y, h (.dict (a :: d)) ≠ .ok y) (hy : onValues h (q.val cfg K path) = .ok y) : q.type = "ArrayProperty" := by
  have no : ∀ v : Val, (∀ x, v.get (P "values") ≠ .ok x) → onValues h v ≠ .ok y := by
    intro v hv e
    unfold onValues at e
    cases hg : v.get (P "values") with
    | error e' => rw [hg] at e; cases e
    | ok x => exact hv x hg
  cases q <;> try rfl
  case struct st sid id v =>
    exfalso
    simp only [PropT.val] at hy
    cases v
    case props ps =>
      simp only [SVal.val] at hy
      unfold onValues at hy
      simp only [Val.get] at hy
      cases hg : dget? (valProps cfg K path ps) (P "values") with
      | none => rw [hg] at hy; cases hy
      | some x =>
        rw [hg] at hy
        simp only at hy
        simp only [PropT.WfG, SVal.WfG] at hw
        obtain ⟨a, e, rfl⟩ := (props_nice ps path hw.2.2).2 _ _ hg
        exact hd _ _ _ hy
    all_goals
      refine no _ (fun x hx => ?_) hy
      first
      | exact absurd hx (by simp [SVal.val, vVec, vQuat, vU, vGuid, Val.get, vDict, dget?, P_inj])
      | cases hx
  all_goals
    exfalso
    refine no _ (fun x hx => ?_) hy
    first
    | cases hx
    | exact absurd hx (by simp [PropT.val, Val.get, vDict, dget?, P_inj])

theorem camp_sameArr {y W W' : Val} {mt : Val} (hd : CampDict y)
    (h1 : unlessValues (fun p => match campModuleEncode mt p with
      | .ok b => p.set (P "values") (.bytes b)
      | .error e => .error e) y = .ok W) (h2 : unlessValues (asValuesBytes (campModuleEncode mt)) y = .ok W') : SameArr W W' := by
  rw [unless_no (campDict_nv hd)] at h1 h2
  simp only [asValuesBytes] at h2
  cases hc : campModuleEncode mt y with
  | error e => rw [hc] at h2; cases h2
  | ok c =>
    rw [hc] at h2
    cases h2
    simp only [hc] at h1
    refine ⟨⟨.bytes c, (set_get_same h1).1, by simp [dct, Val.get, dget?]⟩, ?_, values_lacks _⟩
    rcases hd with rfl | ⟨x, rfl⟩ | ⟨x, rfl⟩ <;> simp only [dct, Val.set, Except.ok.injEq] at h1 <;> subst h1 <;>
      exact ⟨_, by simp [Val.get, dset, dget?, P_inj]; rfl⟩

theorem camp_entry {cfg : Cfg} {K : CodecId → Val → Val} {G : Prop} {v : MVal rawMode} {p2 st : PyStr} {k ye ze : Val}
    (hw : v.WfG cfg noCustom G p2 st) (h1 : campModulePost1 true (vDict [("key", k), ("value", v.val cfg K p2)]) = .ok ye)
    (h2 : campModulePre1 ye = .ok ze) :
    v.type = "StructProperty" ∧ (∀ s ∈ fixedStructs, st ≠ P s) ∧ ∃ ze', campAlt1 ye = .ok ze' ∧ SameEntry cfg ze ze' := by
  have hk : (vDict [("key", k), ("value", v.val cfg K p2)]).get (P "key") = .ok k := by simp [wr]
  have hv : ∀ x t, (vDict [("key", k), ("value", x)]).path (P "value" :: t) = x.path t := by
    intro x t
    simp only [Val.path, show (vDict [("key", k), ("value", x)]).get (P "value") = .ok x from by simp [wr]]
  simp only [campModulePost1, hk] at h1
  obtain ⟨u, y, h3, h4, rfl⟩ := upd_inv h1
  -- the value is a property list
  have h5 := h3
  simp only [ks, List.map_cons, List.map_nil] at h5
  rw [hv] at h5
  have noPath : ∀ x : Val, (∀ w, x.get (P "RawData") ≠ .ok w) → x.path [P "RawData", P "value"] ≠ .ok u := by
    intro x hx e
    simp only [Val.path] at e
    cases hg : x.get (P "RawData") with
    | error e' => rw [hg] at e; cases e
    | ok w => exact hx w hg
  have hps : ∃ ps, v = .struct (.props ps) := by
    cases v
    case struct s =>
      cases s
      case props ps => exact ⟨ps, rfl⟩
      all_goals
        exfalso
        refine noPath _ (fun w hw => ?_) h5
        first
        | cases hw
        | exact absurd hw (by simp [MVal.val, SVal.val, vVec, vQuat, vU, vGuid, Val.get, vDict, dget?, P_inj])
    all_goals
      exfalso
      refine noPath _ (fun w hw => ?_) h5
      cases hw
  obtain ⟨ps, rfl⟩ := hps
  simp only [MVal.WfG, SVal.WfG, SVal.Fits] at hw
  refine ⟨rfl, hw.1, ?_⟩
  simp only [MVal.val, SVal.val] at h3 h5 h2 ⊢
  cases hg : dget? (valProps cfg K p2 ps) (P "RawData") with
  | none => simp only [Val.path, Val.get, hg] at h5; cases h5
  | some w =>
  obtain ⟨path', q, hq, rfl⟩ := props_lookup hw.2.2 hg
  have h6 : u = q.val cfg K path' := by
    simp only [Val.path, Val.get, hg] at h5
    have := entries_path cfg path' (q.val cfg K path') q []
    simp only [Val.path, Val.get] at this
    rw [this] at h5
    cases h5
    rfl
  subst h6
  have hqt := blob_array hq (leaf_camp k).dict h4
  have hput : ∀ W, put (ks ["value", "RawData", "value"]) W (vDict [("key", k), ("value", .dict (valProps cfg K p2 ps))]) =
      vDict [("key", k), ("value", .dict (dset (valProps cfg K p2 ps) (P "RawData") (vDict (q.entries cfg path' W))))] := by
    intro W
    rw [← put_entries cfg path' (q.val cfg K path') W]
    simp only [ks, List.map_cons, List.map_nil]
    have : put [P "RawData", P "value"] W (.dict (valProps cfg K p2 ps)) =
        .dict (dset (valProps cfg K p2 ps) (P "RawData") (put [P "value"] W
          (vDict (q.entries cfg path' (q.val cfg K path'))))) := by
      rw [put, hg]
    rw [← this]
    simp [put, vDict, dget?, dset, P_inj]
  have hkey : (put (ks ["value", "RawData", "value"]) y (vDict [("key", k), ("value", .dict (valProps cfg K p2 ps))])).get
      (P "key") = .ok k := by rw [hput]; simp [wr]
  simp only [campModulePre1, hkey] at h2
  obtain ⟨y', W, h7, h8, rfl⟩ := upd_inv h2
  rw [path_put h3] at h7
  cases h7
  have hW' : ∃ W', unlessValues (asValuesBytes (campModuleEncode k)) y = .ok W' ∧ (W = W' ∨ SameArr W W') := by
    have hs : ∃ b c s', campModuleDecode true k b c = .ok (y, s') := by
      unfold onValues at h4
      cases hv : (q.val cfg K path').get (P "values") with
      | error e => rw [hv] at h4; cases h4
      | ok b =>
        rw [hv] at h4
        obtain ⟨c, s', hs⟩ := runBlob_inv h4
        exact ⟨b, c, s', hs⟩
    obtain ⟨b, c, s', hs⟩ := hs
    rcases camp_shape hs with rfl | hd
    · rw [unless_raw] at h8
      cases h8
      exact ⟨_, unless_raw _, .inl rfl⟩
    · have h0 := campDict_nv hd
      have h8' := h8
      rw [unless_no h0] at h8
      cases hc : campModuleEncode k y with
      | error e => simp only [hc] at h8; cases h8
      | ok c =>
        have e : unlessValues (asValuesBytes (campModuleEncode k)) y = .ok (dct [("values", .bytes c)]) := by
          rw [unless_no h0]; simp only [asValuesBytes, hc]
        exact ⟨_, e, .inr (camp_sameArr hd h8' e)⟩
  obtain ⟨W', h9, h10⟩ := hW'
  refine ⟨_, by simp only [campAlt1, hkey]; exact upd_put (path_put h3) h9, ?_⟩
  rw [put_put, put_put, hput, hput]
  rcases h10 with rfl | h10
  · exact .inl rfl
  · exact .inr ⟨_, _, _, rfl, rfl, .inr ⟨_, _, _, q, W, W', hqt, h10, rfl, rfl⟩⟩

theorem camp_entries {cfg : Cfg} {K : CodecId → Val → Val} {G : Prop} {path kt vt : PyStr} {l : List (MVal rawMode × MVal rawMode)}
    (hw : wfEntriesG cfg noCustom G path kt vt l) {ys zs : List Val}
    (h1 : mapE (campModulePost1 true) (valEntries cfg K path l) = .ok ys) (h2 : mapE campModulePre1 ys = .ok zs) :
    (l = [] ∨ vt = P "StructProperty" ∧ ∀ s ∈ fixedStructs, valueStruct cfg path ≠ P s) ∧
      ∃ zs', mapE campAlt1 ys = .ok zs' ∧ SameEntries cfg zs zs' := by
  induction l generalizing ys zs with
  | nil =>
    simp only [valEntries, mapE] at h1
    cases h1
    cases h2
    exact ⟨.inl rfl, [], rfl, .nil⟩
  | cons e t ih =>
    obtain ⟨a, v⟩ := e
    simp only [wfEntriesG] at hw
    obtain ⟨w1, w2, w3, w4, w5⟩ := hw
    simp only [valEntries] at h1
    obtain ⟨ye, yt, g1, g2, rfl⟩ := mapE_cons_ok h1
    obtain ⟨ze, zt, g3, g4, rfl⟩ := mapE_cons_ok h2
    obtain ⟨-, zs', i1, i2⟩ := ih w5 g2 g4
    obtain ⟨c1, c2, ze', c3, c4⟩ := camp_entry w4 g1 g3
    exact ⟨.inr ⟨by rw [w3, c1], c2⟩, ze' :: zs', by simp only [mapE, c3, i1], .cons c4 i2⟩

theorem entries_swap {cfg B : Cfg} {n : Nat} {prop prop' : Val} {vt st : PyStr}
    (hk : ∀ k ∈ ["key_type", "key_struct_type", "value_type", "value_struct_type"], prop.get (P k) = prop'.get (P k))
    (hvt : prop.get (P "value_type") = .ok (.str vt)) (hv : vt = P "StructProperty")
    (hst : prop.get (P "value_struct_type") = .ok (.str st)) (hf : ∀ s ∈ fixedStructs, st ≠ P s)
    {l l' : List Val} (h : SameEntries cfg l l') {b : Bytes} (hb : WroteL (wMapEntry (wProps n B) prop) l b) :
    WroteL (wMapEntry (wProps n B) prop') l' b := by
  induction h generalizing b with
  | nil => rw [wroteL_nil] at hb ⊢; exact hb
  | cons h1 h2 ih =>
    obtain ⟨c, d, g1, g2, rfl⟩ := wroteL_cons.1 hb
    exact wroteL_cons.2 ⟨c, d, entry_swap h1 hk hvt hv hst hf c g1, ih g2, rfl⟩

theorem sameEntries_symm {cfg : Cfg} {l l' : List Val} (h : SameEntries cfg l l') : SameEntries cfg l' l := by
  induction h with
  | nil => exact .nil
  | cons h _ ih => exact .cons (sameEntry_symm h) ih

theorem sameEntries_length {cfg : Cfg} {l l' : List Val} (h : SameEntries cfg l l') : l.length = l'.length :=
  List.Forall₂.length_eq h

theorem map_swap {cfg B : Cfg} {n : Nat} {kt vt : Str} {id : Option Guid} {l0 : List (MVal rawMode × MVal rawMode)} {path : PyStr}
    {l l' : List Val} (h : SameEntries cfg l l')
    (hs : l = [] ∨ vt.val = P "StructProperty" ∧ ∀ s ∈ fixedStructs, valueStruct cfg path ≠ P s) :
    LeP (wPlainInner (wProps n B) (.str (P "MapProperty")) (vDict ((PropT.map kt vt id l0).entries cfg path (.list l))))
      (wPlainInner (wProps n B) (.str (P "MapProperty")) (vDict ((PropT.map kt vt id l0).entries cfg path (.list l')))) := by
  rcases hs with rfl | ⟨hv, hf⟩
  · cases h; exact fun _ _ h => h
  intro size b hb
  simp only [wPlainInner, isS_P, String.reduceEq, decide_false, decide_true, Bool.false_eq_true, ↓reduceIte] at hb ⊢
  have hg : ∀ (x : Val) (k : String), k ≠ "value" → (vDict ((PropT.map kt vt id l0).entries cfg path x)).get (P k) =
      (vDict ((PropT.map kt vt id l0).entries cfg path .none)).get (P k) := by
    intro x k hk
    simp only [PropT.entries, Val.get, vDict, List.map_cons, List.map_nil, dget?, P_inj, if_neg (Ne.symm hk)]
  have hval : ∀ x, (vDict ((PropT.map kt vt id l0).entries cfg path x)).get (P "value") = .ok x := fun x => by
    simp [PropT.entries, wr]
  obtain ⟨c, d, k1, k2, rfl, rfl⟩ := wroteP_sized.1 hb
  refine wroteP_sized.2 ⟨c, d, ?_, ?_, rfl, rfl⟩
  · rw [entries_wId] at k1 ⊢
    rw [← k1]
    simp [PropT.entries, wr]
  · unfold wMapBody at k2 ⊢
    obtain ⟨c', d', g1, g2, rfl⟩ := wrote_then.1 k2
    obtain ⟨x, g3, g4⟩ := wrote_on.1 g2
    rw [hval] at g3
    cases g3
    obtain ⟨_, g5, g6⟩ := wrote_iter.1 g4
    cases g5
    refine wrote_then.2 ⟨c', d', ?_, wrote_on.2 ⟨_, hval _, wrote_iter.2 ⟨_, rfl, ?_⟩⟩, rfl⟩
    · rw [wAt1 (hval _)] at g1 ⊢
      rw [← g1]
      simp only [wLen, Val.len, sameEntries_length h]
    · refine entries_swap (fun k hk => ?_) (vt := vt.val) ?_ hv (st := valueStruct cfg path) ?_ hf h g6
      · have : k ≠ "value" := by
          rintro rfl
          simp at hk
        rw [hg _ _ this, hg (.list l') _ this]
      · simp [PropT.entries, wr, vStr]
      · simp [PropT.entries, wr, vStructType, hv]

/-- Adding "values" and replacing the dict write the same. -/
theorem camp_iff {cfg : Cfg} {K : CodecId → Val → Val} {G : Prop} {p : PropT rawMode} {path : PyStr} {y z : Val}
    (hp : p.type = "MapProperty") (hw : p.WfG cfg noCustom G path)
    (h1 : forEach (campModulePost1 true) (p.val cfg K path) = .ok y) (h2 : forEach campModulePre1 y = .ok z) :
    ∃ z', forEach campAlt1 y = .ok z' ∧ ∀ (B : Cfg) n size buf,
      WroteP (wPlainInner (wProps n B) (.str (P p.type)) (vDict (p.entries cfg path z))) size buf ↔
      WroteP (wPlainInner (wProps n B) (.str (P p.type)) (vDict (p.entries cfg path z'))) size buf := by
  cases p <;> simp only [PropT.type, String.reduceEq] at hp
  case map kt vt id l =>
    simp only [PropT.val, forEach] at h1
    cases g1 : mapE (campModulePost1 true) (valEntries cfg K path l) with
    | error e => rw [g1] at h1; cases h1
    | ok ys =>
      rw [g1] at h1
      cases h1
      simp only [forEach] at h2 ⊢
      cases g2 : mapE campModulePre1 ys with
      | error e => rw [g2] at h2; cases h2
      | ok zs =>
        rw [g2] at h2
        cases h2
        simp only [PropT.WfG] at hw
        obtain ⟨i1, zs', i2, i3⟩ := camp_entries hw.2 g1 g2
        have i1' : zs = [] ∨ vt.val = P "StructProperty" ∧ ∀ s ∈ fixedStructs, valueStruct cfg path ≠ P s := by
          rcases i1 with rfl | i1
          · simp only [valEntries, mapE] at g1
            cases g1
            cases g2
            exact .inl rfl
          · exact .inr i1
        have i1'' : zs' = [] ∨ vt.val = P "StructProperty" ∧ ∀ s ∈ fixedStructs, valueStruct cfg path ≠ P s := by
          rcases i1' with rfl | i1
          · cases i3; exact .inl rfl
          · exact .inr i1
        exact ⟨.list zs', by rw [i2], fun B n size buf => ⟨map_swap i3 i1' size buf, map_swap (sameEntries_symm i3) i1'' size buf⟩⟩

/-! ### all codecs -/

theorem redo_codec {rec : R Val} (hr : RecOk True rec wpS Unw) {c : CodecId} (hc : c.Steady) {x y : Val} (hx : Nice x)
    (h : c.post1 true rec x = .ok y) : Redo (c.post1 true rec) (fun n => c.pre1 (bytesOf n)) x y := by
  cases c
  case group => exact redo_nice_forEach hx (fun a b => redo_group) h
  case character => exact redo_leaf (leaf_character hr) hx h
  case itemContainer => exact redo_leaf (leaf_or (res_st st_itemContainer) itemContainer_nil ret_itemContainer) hx h
  case itemContainerSlots =>
    exact redo_leaf (leaf_or (res_st (st_itemContainerSlots fun _ => rfl)) itemContainerSlots_nil (ret_itemContainerSlots true)) hx h
  case characterContainer => exact redo_leaf (leaf_or (res_st st_charContainer) charContainer_nil ret_charContainer) hx h
  case dynamicItem => exact absurd rfl hc.2
  case foliageModel => exact redo_leaf (leaf_run (res_st st_foliageModel)) hx h
  case foliageModelInstance => exact absurd rfl hc.1
  case baseCamp => exact redo_leaf (leaf_run (res_st (st_baseCamp fun _ => rfl))) hx h
  case workerDirector => exact redo_leaf (leaf_run (res_st (st_workerDirector fun _ => rfl))) hx h
  case workCollection => exact redo_leaf (leaf_run (res_st st_workCollection)) hx h
  case baseCampModule => exact redo_nice_forEach hx (fun a b => redo_camp) h
  case work => exact redo_values hx (fun a b => redo_work) (fun i b h => by cases h) h
  case mapObject => exact redo_values hx (fun a b => redo_mapObject hr) (fun i b h => by cases h) h
  case debug => exact redo_debug h
  case connector => exact redo_leaf leaf_orConnector hx h
  case buildProcess => exact redo_leaf (leaf_run (res_st st_buildProcess)) hx h
  case mapModel => exact redo_leaf (leaf_run (res_st (st_mapModel fun _ => rfl))) hx h

theorem pre_iff {cfg : Cfg} {K : CodecId → Val → Val} {G : Prop} {c : CodecId} {p : PropT rawMode} {path : PyStr} {rec : R Val}
    {y z : Val} {k : Nat} (hp : p.type = c.propType) (hw : p.WfG cfg noCustom G path)
    (h1 : c.post1 true rec (p.val cfg K path) = .ok y) (h2 : c.pre2 (bytesOf k) y = .ok z) :
    ∃ z', c.pre1 (bytesOf k) y = .ok z' ∧ (∀ n, c.pre1 (bytesOf n) y = .ok z' → c.pre2 (bytesOf n) y = .ok z) ∧
      ∀ (B : Cfg) n size buf,
      WroteP (wPlainInner (wProps n B) (.str (P p.type)) (vDict (p.entries cfg path z))) size buf ↔
      WroteP (wPlainInner (wProps n B) (.str (P p.type)) (vDict (p.entries cfg path z'))) size buf := by
  cases c
  case baseCampModule =>
    obtain ⟨z', h3, h4⟩ := camp_iff hp hw h1 h2
    exact ⟨z', h3, fun _ _ => h2, h4⟩
  all_goals exact ⟨z, h2, fun _ h => h, fun _ _ _ _ => Iff.rfl⟩

end Pal
