import Verif.Lemmas.TreeCodec3
/-
Reading, JSON transport and writing of custom properties.
-/

set_option linter.unusedSimpArgs false

namespace Pal
open Spec

variable {m : Mode}

/-! ### what is shown -/

open Classical in
/-- What a custom property shows for a value: the result of decoding with enough fuel. -/
noncomputable def decK (an : Bool) (cfg : Cfg) (c : CodecId) (x : Val) : Val :=
  if h : ∃ y N, ∀ n, N < n → c.post1 an (rPropsLoop cfg n [] []) x = .ok y then h.choose else x

theorem decK_eq {an : Bool} {cfg : Cfg} {c : CodecId} {x y : Val} {N : Nat}
    (h : ∀ n, N < n → c.post1 an (rPropsLoop cfg n [] []) x = .ok y) : decK an cfg c x = y := by
  have hex : ∃ y N, ∀ n, N < n → c.post1 an (rPropsLoop cfg n [] []) x = .ok y := ⟨y, N, h⟩
  unfold decK
  rw [dif_pos hex]
  obtain ⟨N', h'⟩ := hex.choose_spec
  have e1 := h (N + N' + 1) (by omega)
  have e2 := h' (N + N' + 1) (by omega)
  rw [e1] at e2
  exact (Except.ok.inj e2).symm

/-! ### "value" -/

theorem put_entries (cfg : Cfg) (path : PyStr) (x y : Val) (p : PropT m) :
    put [P "value"] y (vDict (p.entries cfg path x)) = vDict (p.entries cfg path y) := by
  cases p <;> simp [PropT.entries, put, vDict, dget?, dset, P_inj]

theorem upd_entries {cfg : Cfg} {path : PyStr} {x y : Val} (p : PropT m) {f : Val → Except Err Val} (h : f x = .ok y) :
    Val.upd f [P "value"] (vDict (p.entries cfg path x)) = .ok (vDict (p.entries cfg path y)) := by
  rw [upd_put (x := x) (entries_path cfg path x p []) h, put_entries]

theorem upd_cons (f : Val → Except Err Val) (k : PyStr) (t : List PyStr) (v : Val) :
    Val.upd f (k :: t) v = Val.upd (Val.upd f t) [k] v := rfl

theorem post_value (c : CodecId) (an : Bool) (rec : R Val) {cfg : Cfg} {path : PyStr} {x y : Val} (p : PropT m)
    (h : c.post1 an rec x = .ok y) :
    c.post an rec (vDict (p.entries cfg path x)) = .ok (vDict (p.entries cfg path y)) := by
  cases c
  case debug =>
    simp only [CodecId.post, debugPost, ks, List.map_cons, List.map_nil, entries_path, Val.path]
    simp only [CodecId.post1] at h
    cases hg : x.get (P "values") with
    | error e => rw [hg] at h; cases h
    | ok b =>
      rw [hg] at h
      simp only at h ⊢
      cases h1 : b.len with
      | error e => rw [h1] at h; cases h
      | ok k =>
        cases h2 : b.iterItems with
        | error e => rw [h1, h2] at h; cases h
        | ok l =>
          rw [h1, h2] at h
          simp only at h ⊢
          cases h3 : mapE debugPrint1 l with
          | error e => rw [h3] at h; cases h
          | ok l' => rw [h3] at h; cases h; rfl
  all_goals exact upd_entries p h

theorem del_last (l : List (String × Val)) (k : String) (v : Val) (h : k ∉ l.map Prod.fst) :
    (vDict (l ++ [(k, v)])).del (P k) = .ok (vDict l) := by
  have h1 : dget? ((l ++ [(k, v)]).map fun q => (P q.1, q.2)) (P k) = some v ∧
      derase ((l ++ [(k, v)]).map fun q => (P q.1, q.2)) (P k) = l.map fun q => (P q.1, q.2) := by
    induction l with
    | nil => simp [dget?, derase]
    | cons a t ih =>
      simp only [List.map_cons, List.mem_cons, not_or] at h
      have hne : ¬ P a.1 = P k := by rw [P_inj]; exact fun e => h.1 e.symm
      simp only [List.cons_append, List.map_cons, dget?, derase, if_neg hne]
      exact ⟨(ih h.2).1, by rw [(ih h.2).2]⟩
  simp only [vDict, Val.del, h1.1, h1.2]

/-- The real `encode` function of base_camp_module. -/
def CodecId.pre2 (c : CodecId) (wp : Val → Except Err Bytes) : Val → Except Err Val :=
  match c with
  | .baseCampModule => forEach campModulePre1
  | c => c.pre1 wp

theorem pre_value (c : CodecId) (wp : Val → Except Err Bytes) {cfg : Cfg} {path : PyStr} {y z : Val} (p : PropT m)
    (h : c.pre2 wp y = .ok z) :
    c.pre wp (vDict (p.entries cfg path y ++ [("custom_type", .str path)])) = .ok (vDict (p.entries cfg path z)) := by
  have hd := del_last _ _ (.str path) (custom_not_key cfg path y p)
  have hdt : ∀ f, delThen f (vDict (p.entries cfg path y ++ [("custom_type", .str path)])) =
      f (vDict (p.entries cfg path y)) := fun f => by unfold delThen; rw [hd]
  cases c
  case debug =>
    simp only [CodecId.pre2, CodecId.pre1] at h
    cases h
    exact hd
  all_goals
    simp only [CodecId.pre, encodeValue, hdt]
    exact upd_entries p h

/-! ### reading and JSON -/

theorem readsCustom_canon {cfg : Cfg} (hcfg : cfg.allowNan = m.an) (hc : m.json = true → CfgJson cfg) :
    ReadsCustom (m := m) cfg (decK m.an cfg) (Canon cfg) := by
  intro n c p path h hw hcu hn h64
  obtain ⟨y, z, h1, _⟩ := custom_undo hcfg hc (decK m.an cfg) h hw h64
  rw [decK_eq fun n hn => (h1 n hn).1]
  exact post_value c m.an _ p (h1 n (by omega)).1

theorem jsonCustom_canon {cfg : Cfg} (hj : m.json = true) (hcfg : cfg.allowNan = m.an) (hc : CfgJson cfg) :
    JsonCustom (m := m) cfg (decK m.an cfg) (Canon cfg) := by
  intro c p path h hw hcu h64
  obtain ⟨y, z, h1, h2, h3, _⟩ := custom_undo hcfg (fun _ => hc) (decK m.an cfg) h hw h64
  rw [decK_eq fun n hn => (h1 n hn).1]
  exact ⟨h2 hj, h3⟩

/-! ### writing -/

theorem sim_entries {bs : Bool} {x z : Val} (cfg : Cfg) (path : PyStr) (p : PropT m) (h : Sim bs x z) (hx : ∀ l, x ≠ .tuple l) :
    Sim bs (vDict (p.entries cfg path x)) (vDict (p.entries cfg path z)) := by
  have := sim_put (bs := bs) (p := [P "value"]) (sim_refl bs (vDict (p.entries cfg path x)))
    (entries_path cfg path x p []) h hx
  rwa [put_entries] at this

theorem noTuple_ne {v : Val} (h : NoTuple v) : ∀ l, v ≠ .tuple l := by
  rintro l rfl; exact h

/-- Writing a related value with any writer. -/
theorem write_sim {cfg B : Cfg} (K : CodecId → Val → Val) {p : PropT m} {path : PyStr} {z : Val} {n : Nat}
    (hw : p.Wf cfg noCustom path) (hn : p.tail.length < n) (h64 : p.tail.length < 2 ^ 64)
    (hs : Sim true (p.val cfg K path) z) (hx : NoTuple (p.val cfg K path)) :
    WroteP (wPlainInner (wProps n B) (.str (P p.type)) (vDict (p.entries cfg path z))) p.tail.length
      (p.head ++ p.tail) := by
  have h := prop_write (B := Cfg.empty) p noCustom (writesCustom_no cfg Cfg.empty K) path n hw hn h64
  exact leP_plainInner (bs := true) (mono_props n (A := Cfg.empty) (B := B) (fun _ _ h => by cases h)) (sim_refl _ _)
    (sim_entries cfg path p hs (noTuple_ne hx)) _ _ h

/-! ### writing base camp modules -/

theorem wroteD_dset {f : Val → W} {d : Dict} {k : PyStr} {a a' : Val} (ha : dget? d k = some a) (h : LeW (f a) (f a'))
    {b : Bytes} (hb : WroteD f d b) : WroteD f (dset d k a') b := by
  induction d generalizing b with
  | nil => cases ha
  | cons e t ih =>
    obtain ⟨k', x⟩ := e
    obtain ⟨kb, c, d', h1, h2, h3, rfl⟩ := wroteD_cons.1 hb
    simp only [dget?, dset] at ha ⊢
    split
    · rename_i hk
      rw [if_pos hk] at ha
      cases ha
      exact wroteD_cons.2 ⟨kb, c, d', h1, h c h2, h3, rfl⟩
    · rename_i hk
      rw [if_neg hk] at ha
      exact wroteD_cons.2 ⟨kb, c, d', h1, h2, ih ha h3, rfl⟩

theorem wArrayProperty_get (r : Val → W) (t : String) (ht : t ≠ "StructProperty") {w x : Val} {n : Nat} {b : Bytes}
    (hw : w.get (P "values") = .ok x) (h1 : wLen x = .ok (lit 4 n)) (h2 : wArrayValue (.str (P t)) x = .ok b) :
    Wrote (wArrayProperty r (.str (P t)) w) (lit 4 n ++ b) := by
  unfold wArrayProperty
  have hat : ∀ f, wAt w ["values"] f = f x := fun f => by
    simp only [wAt, ks, List.map_cons, List.map_nil, Val.path, hw]
  refine wrote_then.2 ⟨_, _, by rw [hat]; exact h1, ?_, rfl⟩
  rw [isS_P, if_neg (by simp [Ne.symm ht])]
  exact wrote_keep.2 (by rw [hat]; exact h2)

/-- A byte array is written from the "values" alone. -/
theorem bytes_write {cfg B : Cfg} {path : PyStr} {id : Option Guid} {b : Bytes} {w v : Val} {n : Nat}
    (hb : b.length < 2 ^ 32) (hw : w.get (P "values") = .ok v) (hv : Sim true (vBytesT b) v) :
    LeW (wProperty B (wProps n B) (bytesOf n) (vDict ((PropT.bytes (m := m) id b).entries cfg path (rawVal b))))
      (wProperty B (wProps n B) (bytesOf n) (vDict ((PropT.bytes (m := m) id b).entries cfg path w))) := by
  have h1 : wLen v = .ok (lit 4 b.length) := le_wLen hv _
    (by rw [vBytesT, wLen_tuple _ (by simpa using hb), List.length_map])
  have h2 : wArrayValue (.str (P "ByteProperty")) v = .ok b :=
    le_arrayValue (sim_refl true _) _ _ hv _ (wArrayValue_bytes b)
  intro c hc
  obtain ⟨ty, tb, k, buf, sb, g1, g2, g3, g4, rfl⟩ := wrote_property.1 hc
  have ht : ∀ x, (vDict ((PropT.bytes (m := m) id b).entries cfg path x)).get (P "type") =
      .ok (.str (P "ArrayProperty")) := fun x => by simp [PropT.entries, wr]
  rw [ht] at g1
  cases g1
  have hno : ∀ x, (vDict ((PropT.bytes (m := m) id b).entries cfg path x)).contains (P "custom_type") = .ok false :=
    fun x => contains_no _ _ (custom_not_key cfg path _ _)
  have w1 : ∀ (x : Val), Wrote (wArrayProperty (wProps n B) (.str (P "ByteProperty")) x) (lit 4 b.length ++ b) →
      WroteP (wPlainInner (wProps n B) (.str (P "ArrayProperty"))
        (vDict ((PropT.bytes (m := m) id b).entries cfg path x))) (PropT.bytes (m := m) id b).tail.length
        ((PropT.bytes (m := m) id b).head ++ (PropT.bytes (m := m) id b).tail) := fun x hx =>
    array_write "ByteProperty" id x (lit 4 b.length ++ b) (PropT.bytes (m := m) id b) (by decide +kernel) rfl rfl rfl
      (by simp only [PropT.tail]) hx
  have e1 := w1 w (wArrayProperty_get _ _ (by decide) hw h1 h2)
  have e0 := w1 (rawVal b) (wArrayProperty_get _ _ (by decide) (rawVal_get b)
    (by rw [vBytesT, wLen_tuple _ (by simpa using hb), List.length_map]) (wArrayValue_bytes b))
  rw [wroteP_inner] at g3
  rcases g3 with ⟨_, g3⟩ | ⟨g3, _⟩
  · obtain ⟨v1, e0⟩ := e0
    obtain ⟨v2, g3⟩ := g3
    rw [e0] at g3
    cases g3
    exact wrote_property.2 ⟨_, tb, _, _, sb, ht w, g2, wroteP_inner.2 (.inl ⟨hno w, e1⟩), g4, rfl⟩
  · rw [hno] at g3; cases g3

theorem set_get {v x : Val} {k : PyStr} (h : ∃ d, v = .dict d) : ∃ w, v.set k x = .ok w ∧ w.get k = .ok x := by
  obtain ⟨d, rfl⟩ := h
  exact ⟨_, rfl, by simp only [Val.get, dget_dset]⟩

theorem camp_step {cfg : Cfg} (K : CodecId → Val → Val) {e : MVal m × MVal m} {p1 p2 st : PyStr}
    (hw : e.2.Wf cfg noCustom p2 st) {t : PyStr} {b : Bytes} (h1 : KeyIs e.1 t) (h2 : RawValue e.2 b)
    (h3 : (∃ c : CampModule m, t = P c.type ∧ b = c.enc) ∨ ∀ s ∈ campTypes, t ≠ P s) :
    ∃ y W v, campModulePost1 m.an (vDict [("key", e.1.val cfg K p1), ("value", e.2.val cfg K p2)]) = .ok y ∧
      campModulePre1 y = .ok (put (ks ["value", "RawData", "value"]) W
        (vDict [("key", e.1.val cfg K p1), ("value", e.2.val cfg K p2)])) ∧
      W.get (P "values") = .ok v ∧ Sim true (vBytesT b) v := by
  rw [keyIs_val K p1 h1]
  have hr := (rawValue_path K (.str t) hw h2).1
  have hk0 := entry_key (.str t) (e.2.val cfg K p2)
  generalize vDict [("key", Val.str t), ("value", e.2.val cfg K p2)] = xe at hr hk0
  have hkey : ∀ s : Val, s.path [P "key"] = .ok (.str t) → s.get (P "key") = .ok (.str t) := by
    intro s hs
    simp only [Val.path] at hs
    cases hg : s.get (P "key") with
    | error e => rw [hg] at hs; cases hs
    | ok x => rw [hg] at hs; exact hs
  have main : ∀ y0 W, runBlob (vBytesT b) (campModuleDecode m.an (.str t) (vBytesT b)) = .ok y0 →
      (unlessValues (fun p => match campModuleEncode (.str t) p with
        | .ok b => p.set (P "values") (.bytes b)
        | .error e => .error e) y0 = .ok W) →
      campModulePost1 m.an xe = .ok (put (ks ["value", "RawData", "value"]) y0 xe) ∧
      campModulePre1 (put (ks ["value", "RawData", "value"]) y0 xe) = .ok (put (ks ["value", "RawData", "value"]) W xe) := by
    intro y0 W g1 g2
    constructor
    · simp only [campModulePost1, hkey xe hk0]
      exact upd_put hr ((onValues_raw _ b).trans g1)
    · have := hkey (put (ks ["value", "RawData", "value"]) y0 xe)
        ((path_put_div (by simp [Div, ks, P_inj])).trans hk0)
      simp only [campModulePre1, this]
      exact (upd_put (path_put hr) g2).trans (by rw [put_put])
  rcases h3 with ⟨c, rfl, rfl⟩ | h3
  · obtain ⟨W, e1, e2⟩ := set_get (v := c.val) (k := P "values") (x := .bytes c.enc) (by cases c <;> exact ⟨_, rfl⟩)
    obtain ⟨g1, g2⟩ := main c.val W (runBlob_T (s := []) (by simpa using campModule_read c (vBytesT c.enc) [])) (by
      rw [unless_no (campModule_nv c)]
      simp only [campModule_write, e1])
    exact ⟨_, W, _, g1, g2, e2, sim_bytes _⟩
  · obtain ⟨u1, u2, u3⟩ := camp_unknown h3
    obtain ⟨g1, g2⟩ := main (dct [("values", vBytesT b)]) _ (by
      refine runBlob_T (s := b) ?_
      simp only [campModuleDecode, u1, u2, u3, Bool.false_eq_true, if_false]
      rfl) (unless_raw _)
    exact ⟨_, _, _, g1, g2, rawVal_get b, sim_refl _ _⟩

/-- A map entry with raw data is written the same with another dict that has the same "values". -/
theorem entry_write {cfg B : Cfg} (K : CodecId → Val → Val) {v : MVal m} {path p2 : PyStr} {vt : Str} {n : Nat}
    {prop a W w : Val} {b : Bytes} (g3 : prop.get (P "value_type") = .ok (vStr vt))
    (g4 : prop.get (P "value_struct_type") = .ok (vStructType vt (valueStruct cfg path)))
    (hvt : vt.val = P v.type) (hw : v.Wf cfg noCustom p2 (valueStruct cfg path)) (h2 : RawValue v b)
    (hW : W.get (P "values") = .ok w) (hs : Sim true (vBytesT b) w) :
    LeW (wMapEntry (wProps n B) prop (vDict [("key", a), ("value", v.val cfg K p2)]))
      (wMapEntry (wProps n B) prop (put (ks ["value", "RawData", "value"]) W
        (vDict [("key", a), ("value", v.val cfg K p2)]))) := by
  obtain ⟨ps, rfl, id, h2⟩ := h2
  simp only [MVal.Wf] at hw
  obtain ⟨path', q1, q2, q3⟩ := has_get K hw.2 h2
  simp only [PropT.Wf] at q1
  simp only [MVal.val, SVal.val]
  have e1 : put (ks ["value", "RawData", "value"]) W
      (vDict [("key", a), ("value", .dict (valProps cfg K p2 ps))]) =
      vDict [("key", a), ("value", .dict (dset (valProps cfg K p2 ps) (P "RawData")
        (vDict ((PropT.bytes (m := m) id b).entries cfg path' W))))] := by
    rw [← put_entries cfg path' (PropT.val cfg K path' (.bytes (m := m) id b)) W]
    simp only [ks, List.map_cons, List.map_nil]
    have : put [P "RawData", P "value"] W (.dict (valProps cfg K p2 ps)) =
        .dict (dset (valProps cfg K p2 ps) (P "RawData") (put [P "value"] W
          (vDict ((PropT.bytes (m := m) id b).entries cfg path' (PropT.val (m := m) cfg K path' (.bytes id b)))))) := by
      rw [put, q3]
    rw [← this]
    simp [put, vDict, dget?, dset, P_inj]
  rw [e1]
  intro c hc
  obtain ⟨kt, kst, vt', vst, k, v', kb, vb, h1, h2, h3, h4, h5, h6, h7, h8, rfl⟩ := wrote_mapEntry.1 hc
  have hv : ∀ x : Val, (vDict [("key", a), ("value", x)]).get (P "value") = .ok x := fun x => by simp [wr]
  have hk : ∀ x : Val, (vDict [("key", a), ("value", x)]).get (P "key") = .ok a := fun x => by simp [wr]
  rw [hv] at h6
  cases h6
  rw [hk] at h5
  cases h5
  refine wrote_mapEntry.2 ⟨kt, kst, vt', vst, _, _, kb, vb, h1, h2, h3, h4, hk _, hv _, h7, ?_, rfl⟩
  rw [g3] at h3
  cases h3
  rw [g4] at h4
  cases h4
  simp only [MVal.type] at hvt
  simp only [wPropValue, vStructType, hvt, isS_vStr, decide_true, ↓reduceIte] at h8 ⊢
  have hf := hw.1
  simp only [SVal.Fits, fixedStructs, List.forall_mem_cons] at hf
  obtain ⟨f1, f2, f3, f4, f5, _⟩ := hf
  simp only [wStructValue, isS_str, Ne.symm f1, Ne.symm f2, Ne.symm f3, Ne.symm f4, Ne.symm f5, decide_false,
    Bool.false_eq_true, ↓reduceIte] at h8 ⊢
  cases n with
  | zero => exact (wrote_error.1 h8).elim
  | succ n =>
    rw [wProps_succ] at h8 ⊢
    obtain ⟨c, nb, r1, r2, rfl⟩ := wrote_body.1 h8
    exact wrote_body.2 ⟨c, nb, wroteD_dset q3 (bytes_write q1 hW hs) r1, r2, rfl⟩

theorem camp_list {cfg B : Cfg} (K : CodecId → Val → Val) {path : PyStr} {kt vt : Str} {n : Nat} {prop : Val}
    (g3 : prop.get (P "value_type") = .ok (vStr vt))
    (g4 : prop.get (P "value_struct_type") = .ok (vStructType vt (valueStruct cfg path)))
    {l : List (MVal m × MVal m)} (hw : wfEntries cfg noCustom path kt.val vt.val l) (h : ∀ e ∈ l, CampEntry e) :
    ∃ ys zs, mapE (campModulePost1 m.an) (valEntries cfg K path l) = .ok ys ∧ mapE campModulePre1 ys = .ok zs ∧
      zs.length = l.length ∧ ∀ b, WroteL (wMapEntry (wProps n B) prop) (valEntries cfg K path l) b →
        WroteL (wMapEntry (wProps n B) prop) zs b := by
  induction l with
  | nil => exact ⟨[], [], rfl, rfl, rfl, fun b hb => hb⟩
  | cons e t ih =>
    obtain ⟨a, v⟩ := e
    simp only [wfEntries] at hw
    obtain ⟨w1, w2, w3, w4, w5⟩ := hw
    obtain ⟨ys, zs, i1, i2, i3, i4⟩ := ih w5 fun e he => h e (by simp [he])
    obtain ⟨tt, b, c1, c2, c3⟩ := h (a, v) (by simp)
    obtain ⟨y, W, w, d1, d2, d3, d4⟩ := camp_step K (p1 := path ++ P ".Key") w4 c1 c2 c3
    refine ⟨y :: ys, put (ks ["value", "RawData", "value"]) W (vDict [("key", a.val cfg K (path ++ P ".Key")),
      ("value", v.val cfg K (path ++ P ".Value"))]) :: zs, ?_, ?_, ?_, ?_⟩
    · simp only [valEntries, mapE, d1, i1]
    · simp only [mapE, d2, i2]
    · simp [i3]
    · intro c hc
      simp only [valEntries] at hc
      obtain ⟨x1, x2, y1, y2, rfl⟩ := wroteL_cons.1 hc
      exact wroteL_cons.2 ⟨x1, x2, entry_write K g3 g4 w3 w4 c2 d3 d4 _ y1, i4 _ y2, rfl⟩

theorem camp_write {cfg B : Cfg} (K : CodecId → Val → Val) {path : PyStr} {kt vt : Str} {id : Option Guid}
    {l : List (MVal m × MVal m)} {n : Nat} (hw : (PropT.map kt vt id l).Wf cfg noCustom path)
    (hn : (PropT.map kt vt id l).tail.length < n) (h64 : (PropT.map kt vt id l).tail.length < 2 ^ 64)
    (h : ∀ e ∈ l, CampEntry e) :
    ∃ y z, forEach (campModulePost1 m.an) ((PropT.map kt vt id l).val cfg K path) = .ok y ∧
      forEach campModulePre1 y = .ok z ∧
      WroteP (wPlainInner (wProps n B) (.str (P (PropT.map kt vt id l).type))
        (vDict ((PropT.map kt vt id l).entries cfg path z))) (PropT.map kt vt id l).tail.length
        ((PropT.map kt vt id l).head ++ (PropT.map kt vt id l).tail) := by
  simp only [PropT.Wf] at hw
  simp only [PropT.tail, List.length_append, lit_length] at hn h64
  have key : ∀ z, ∃ ys zs, mapE (campModulePost1 m.an) (valEntries cfg K path l) = .ok ys ∧
      mapE campModulePre1 ys = .ok zs ∧ zs.length = l.length ∧
      ∀ b, WroteL (wMapEntry (wProps n B) (vDict ((PropT.map kt vt id l).entries cfg path z))) (valEntries cfg K path l) b →
        WroteL (wMapEntry (wProps n B) (vDict ((PropT.map kt vt id l).entries cfg path z))) zs b := fun z =>
    camp_list K (by simp [PropT.entries, wr]) (by simp [PropT.entries, wr]) hw.2 h
  obtain ⟨ys, zs, i1, i2, i3, _⟩ := key .none
  refine ⟨.list ys, .list zs, ?_, ?_, ?_⟩
  · simp only [PropT.val, forEach, i1]
  · simp only [forEach, i2]
  obtain ⟨ys', zs', j1, j2, _, j4⟩ := key (.list zs)
  rw [i1] at j1
  cases j1
  rw [i2] at j2
  cases j2
  simp only [wPlainInner, PropT.type, isS_P, String.reduceEq, decide_false, decide_true, Bool.false_eq_true, ↓reduceIte]
  refine wroteP_sized.2 ⟨_, _, ?_, ?_, rfl, rfl⟩
  · rw [entries_wId]
    simp [PropT.entries, PropT.head, propId, wr]
  · unfold wMapBody
    simp only [PropT.tail]
    refine wrote_then.2 ⟨_, _, ?_, ?_, rfl⟩
    · simp only [PropT.entries, wr, String.reduceEq, if_false, if_true, wU32_nat 0 (by decide), PropT.val]
      rw [show (0 : Int) = ((0 : Nat) : Int) from rfl, wU32_nat 0 (by decide),
        wLen_list _ (by rw [i3]; exact hw.1), i3]
      simp only [wr, List.append_nil]
    · refine wrote_on.2 ⟨.list zs, by simp [PropT.entries, wr, PropT.val], wrote_iter.2 ⟨_, rfl, j4 _ ?_⟩⟩
      exact entries_write l noCustom (writesCustom_no cfg B K) path kt vt n _ (by simp [PropT.entries, wr])
        (by simp [PropT.entries, wr]) (by simp [PropT.entries, wr]) (by simp [PropT.entries, wr]) hw.2 (by omega)
        (by omega)

theorem canon_noTuple {cfg : Cfg} (K : CodecId → Val → Val) (path : PyStr) (p : PropT m) : NoTuple (p.val cfg K path) :=
  prop_noTuple _ _ _ _

theorem writesCustom_canon {cfg B : Cfg} (hcfg : cfg.allowNan = m.an) (hc : m.json = true → CfgJson cfg)
    (hB : ∀ p c, cfg.custom p = some c → B.custom p = some c) :
    WritesCustom (m := m) cfg B (decK m.an cfg) (Canon cfg) := by
  intro n c p path h hw hcu hn h64
  refine ⟨hB path c hcu, ?_⟩
  obtain ⟨y, z, h1, _, _, h4⟩ := custom_undo hcfg hc (decK m.an cfg) h hw h64
  rw [decK_eq fun n hn => (h1 n hn).1]
  by_cases hcc : c = .baseCampModule
  · subst hcc
    obtain ⟨kt, vt, id, l, rfl, h⟩ := h
    obtain ⟨y', z', e1, e2, e3⟩ := camp_write (B := B) (n := n) (decK m.an cfg) hw (by omega) h64 h
    have e0 := (h1 n (by omega)).1
    simp only [CodecId.post1] at e0
    rw [e0] at e1
    cases e1
    exact ⟨_, pre_value .baseCampModule (bytesOf n) _ e2, e3⟩
  · have e : c.pre2 (bytesOf n) y = .ok z := by
      rw [← (h1 n (by omega)).2]
      cases c <;> first | rfl | exact absurd rfl hcc
    exact ⟨_, pre_value c (bytesOf n) p e, write_sim (decK m.an cfg) hw (by omega) h64 h4 (canon_noTuple _ _ _)⟩

end Pal
