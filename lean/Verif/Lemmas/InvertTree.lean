import Verif.Lemmas.Relaxed
/-
Inversion of struct values, maps, arrays, properties and property lists.
-/

namespace Pal
open Spec

variable {cfg : Cfg} {K : CodecId → Val → Val} {C : CodecId → PropT rawMode → Prop} {G : Prop} {Bad : Val → Prop} {L : Nat}

/-- A non-empty array of GUIDs. -/
def GuidArray (p : Val) : Prop :=
  Undecoded p ∧ p.get (P "type") = .ok (.str (P "ArrayProperty")) ∧ p.get (P "array_type") = .ok (.str (P "Guid")) ∧
    ∃ a x l, p.get (P "value") = .ok a ∧ a.get (P "values") = .ok (.list (x :: l))

/-- The property list has a bad property somewhere. -/
def BadList (Bad : Val → Prop) (v : Val) : Prop := ∃ d k p, Inside v (.dict d) ∧ (k, p) ∈ d ∧ Bad p

/-- The contents of a struct of type `st` have one. -/
def BadStruct (Bad : Val → Prop) (st : PyStr) (v : Val) : Prop := IsList (.str st) ∧ BadList Bad v

/-- The property is or has one. -/
def BadProp (Bad : Val → Prop) (p : Val) : Prop := ∀ d k, (k, p) ∈ d → BadList Bad (.dict d)

theorem badProp_of {p : Val} (h : Bad p) : BadProp Bad p := fun d k hm => ⟨d, k, p, .here _, hm, h⟩

/-- `q` is the path `p`, or below it. -/
def Below (p q : PyStr) : Prop := q = p ∨ ∃ r, q = p ++ dot ++ r

theorem below_self (p : PyStr) : Below p p := .inl rfl
theorem below_sub (p r : PyStr) : Below p (p ++ dot ++ r) := .inr ⟨r, rfl⟩
theorem below_trans {p q r : PyStr} (h1 : Below p q) (h2 : Below q r) : Below p r := by
  rcases h1 with rfl | ⟨a, rfl⟩
  · exact h2
  · rcases h2 with rfl | ⟨b, rfl⟩
    · exact .inr ⟨a, rfl⟩
    · exact .inr ⟨a ++ dot ++ b, by simp only [List.append_assoc]⟩

theorem dot_eq : dot = P "." := rfl
theorem below_key (p : PyStr) : Below p (p ++ P ".Key") := .inr ⟨P "Key", by rw [List.append_assoc]; rfl⟩
theorem below_value (p : PyStr) : Below p (p ++ P ".Value") := .inr ⟨P "Value", by rw [List.append_assoc]; rfl⟩

/-- A non-empty array of GUIDs cannot be written. -/
theorem badList_raises {v : Val} (h : BadList GuidArray v) (B : Cfg) (n : Nat) : ∃ e, wProps n B v = .error e := by
  obtain ⟨d, k, p, hi, hm, hu, h1, h2, a, x, l, h3, h4⟩ := h
  refine C09_write_inside B hi (fun n => ?_) n
  refine C09_write_array B n d k p _ a _ x l hm hu h1 h2 h3 h4 rfl ?_
  simp only [writeArrayTypes, List.forall_mem_cons, ne_eq, Val.str.injEq, P_inj, String.reduceEq, not_false_eq_true,
    true_and, List.not_mem_nil, false_imp_iff, implies_true]

/-- Inversion of the reader of property lists. -/
def RecInv (cfg : Cfg) (K : CodecId → Val → Val) (C : CodecId → PropT rawMode → Prop) (G : Prop) (Bad : Val → Prop) (L : Nat)
    (rec : PyStr → R Val) (path : PyStr) : Prop :=
  ∀ s v s', rec path s = .ok (v, s') → s.length < L ∧ s.length < 2 ^ 32 →
    (∃ ps : Props rawMode, (SVal.props ps).WfG cfg C G path ∧ v = .dict (valProps cfg K path ps) ∧
      (encProps ps).length + s'.length ≤ s.length) ∨ BadList Bad v

theorem eF64_len (f : F64 rawMode) : (eF64 f).length = 8 := lit_length _ _
theorem eF32_len (f : F32 rawMode) : (eF32 f).length = 4 := lit_length _ _

theorem inv_vector {s s' : Bytes} {v : Val} (h : rVectorDict true s = .ok (v, s')) :
    ∃ t : Vec rawMode, v = vVec t ∧ s.length = s'.length + (eVec t).length := by
  obtain ⟨x, s1, h1, h⟩ := r_bind_inv h
  obtain ⟨y, s2, h2, h⟩ := r_bind_inv h
  obtain ⟨z, s3, h3, h⟩ := r_bind_inv h
  obtain ⟨rfl, rfl⟩ := r_pure_inv h
  obtain ⟨a, rfl, l1⟩ := inv_double h1
  obtain ⟨b, rfl, l2⟩ := inv_double h2
  obtain ⟨c, rfl, l3⟩ := inv_double h3
  exact ⟨⟨a, b, c⟩, rfl, by simp only [eVec, List.length_append, eF64_len]; omega⟩

theorem inv_quat {s s' : Bytes} {v : Val} (h : rQuatDict true s = .ok (v, s')) :
    ∃ t : Quat rawMode, v = vQuat t ∧ s.length = s'.length + (eQuat t).length := by
  obtain ⟨x, s1, h1, h⟩ := r_bind_inv h
  obtain ⟨y, s2, h2, h⟩ := r_bind_inv h
  obtain ⟨z, s3, h3, h⟩ := r_bind_inv h
  obtain ⟨w, s4, h4, h⟩ := r_bind_inv h
  obtain ⟨rfl, rfl⟩ := r_pure_inv h
  obtain ⟨a, rfl, l1⟩ := inv_double h1
  obtain ⟨b, rfl, l2⟩ := inv_double h2
  obtain ⟨c, rfl, l3⟩ := inv_double h3
  obtain ⟨d, rfl, l4⟩ := inv_double h4
  exact ⟨⟨a, b, c, d⟩, rfl, by simp only [eQuat, List.length_append, eF64_len]; omega⟩

theorem inv_structValue {rec : PyStr → R Val} {st path : PyStr} (hr : RecInv cfg K C G Bad L rec path) {s s' : Bytes} {v : Val}
    (h : rStructValue true rec st path s = .ok (v, s')) (h0 : 0 < s'.length) (hs : s.length < L ∧ s.length < 2 ^ 32) :
    (∃ t : SVal rawMode, t.Fits st ∧ t.WfG cfg C G path ∧ v = t.val cfg K path ∧
      t.enc.length + s'.length ≤ s.length) ∨ BadStruct Bad st v := by
  unfold rStructValue at h
  by_cases e1 : st = P "Vector"
  · rw [if_pos e1] at h
    obtain ⟨t, rfl, hl⟩ := inv_vector h
    exact .inl ⟨.vector t, e1, by simp only [SVal.WfG], by simp only [SVal.val], by simp only [SVal.enc]; omega⟩
  rw [if_neg e1] at h
  by_cases e2 : st = P "DateTime"
  · rw [if_pos e2] at h
    obtain ⟨n, s1, h1, h⟩ := r_bind_inv h
    obtain ⟨rfl, rfl⟩ := r_pure_inv h
    obtain ⟨b, rfl, hl⟩ := inv_u64 h1
    exact .inl ⟨.dateTime b, e2, by simp only [SVal.WfG], by simp only [SVal.val, vU], by
      simp only [SVal.enc, e64, lit_length]; omega⟩
  rw [if_neg e2] at h
  by_cases e3 : st = P "Guid"
  · rw [if_pos e3] at h
    obtain ⟨g, rfl, hl⟩ := inv_guid h h0
    exact .inl ⟨.guid g, e3, by simp only [SVal.WfG], by simp only [SVal.val], by
      simp only [SVal.enc, eGuid, g.property]; omega⟩
  rw [if_neg e3] at h
  by_cases e4 : st = P "Quat"
  · rw [if_pos e4] at h
    obtain ⟨t, rfl, hl⟩ := inv_quat h
    exact .inl ⟨.quat t, e4, by simp only [SVal.WfG], by simp only [SVal.val], by simp only [SVal.enc]; omega⟩
  rw [if_neg e4] at h
  by_cases e5 : st = P "LinearColor"
  · rw [if_pos e5] at h
    obtain ⟨x, s1, h1, h⟩ := r_bind_inv h
    obtain ⟨y, s2, h2, h⟩ := r_bind_inv h
    obtain ⟨z, s3, h3, h⟩ := r_bind_inv h
    obtain ⟨w, s4, h4, h⟩ := r_bind_inv h
    obtain ⟨rfl, rfl⟩ := r_pure_inv h
    obtain ⟨a, rfl, l1⟩ := inv_float h1
    obtain ⟨b, rfl, l2⟩ := inv_float h2
    obtain ⟨c, rfl, l3⟩ := inv_float h3
    obtain ⟨d, rfl, l4⟩ := inv_float h4
    exact .inl ⟨.color a b c d, e5, by simp only [SVal.WfG], by simp only [SVal.val]; rfl, by
      simp only [SVal.enc, List.length_append, eF32_len]; omega⟩
  rw [if_neg e5] at h
  have hf : ∀ t ∈ fixedStructs, st ≠ P t := by
    simp only [fixedStructs, List.forall_mem_cons]
    exact ⟨e1, e2, e3, e4, e5, by simp⟩
  rcases hr _ _ _ h hs with ⟨ps, hw, rfl, hl⟩ | hb
  · exact .inl ⟨.props ps, hf, hw, by simp only [SVal.val], by simpa only [SVal.enc] using hl⟩
  · refine .inr ⟨?_, hb⟩
    intro t ht he
    injection he with he
    exact hf t ht he

theorem inv_structValues {rec : PyStr → R Val} {st path : PyStr} (hr : RecInv cfg K C G Bad L rec path)
    (hg : ∀ p, Grow (rec p)) :
    ∀ (n : Nat) (s s' : Bytes) (l : List Val), rRepeat (rStructValue true rec st path) n s = .ok (l, s') →
      0 < s'.length → s.length < L ∧ s.length < 2 ^ 32 →
      (∃ ts : List (SVal rawMode), wfSValsG cfg C G path st ts ∧ l = valSVals cfg K path ts ∧ ts.length = n ∧
        (encSVals ts).length + s'.length ≤ s.length) ∨ ∃ x ∈ l, BadStruct Bad st x
  | 0, s, s', l, h, _, _ => by
    obtain ⟨rfl, rfl⟩ := r_pure_inv h
    exact .inl ⟨[], by simp only [wfSValsG], by simp only [valSVals], rfl, by simp only [encSVals, List.length_nil]; omega⟩
  | n + 1, s, s', l, h, h0, hs => by
    obtain ⟨a, s1, h1, h⟩ := r_bind_inv h
    obtain ⟨t, s2, h2, h⟩ := r_bind_inv h
    obtain ⟨rfl, rfl⟩ := r_pure_inv h
    have l2 := len_of_grow (grow_repeat (grow_structValue true hg st path) n) h2
    have l1 := len_of_grow (grow_structValue true hg st path) h1
    rcases inv_structValue hr h1 (by omega) hs with ⟨x, f1, w1, rfl, e1⟩ | hb
    · rcases inv_structValues hr hg n _ _ _ h2 h0 (by omega) with ⟨xs, w2, rfl, n2, e2⟩ | ⟨y, hy, hb⟩
      · exact .inl ⟨x :: xs, by simp only [wfSValsG]; exact ⟨f1, w1, w2⟩, by simp only [valSVals],
          by rw [List.length_cons, n2], by simp only [encSVals, List.length_append]; omega⟩
      · exact .inr ⟨y, List.mem_cons_of_mem _ hy, hb⟩
    · exact .inr ⟨a, List.mem_cons_self, hb⟩

theorem inv_propValue {rec : PyStr → R Val} {ty st path : PyStr} (hr : RecInv cfg K C G Bad L rec path) {s s' : Bytes} {v : Val}
    (h : rPropValue true rec ty st path s = .ok (v, s')) (h0 : 0 < s'.length) (hs : s.length < L ∧ s.length < 2 ^ 32) :
    (∃ t : MVal rawMode, ty = P t.type ∧ t.WfG cfg C G path st ∧ v = t.val cfg K path ∧
      t.enc.length + s'.length ≤ s.length) ∨ (ty = P "StructProperty" ∧ BadStruct Bad st v) := by
  unfold rPropValue at h
  by_cases e1 : ty = P "StructProperty"
  · rw [if_pos e1] at h
    rcases inv_structValue hr h h0 hs with ⟨t, f, w, rfl, e⟩ | hb
    · exact .inl ⟨.struct t, e1, by simp only [MVal.WfG]; exact ⟨f, w⟩, by simp only [MVal.val], by
        simpa only [MVal.enc] using e⟩
    · exact .inr ⟨e1, hb⟩
  rw [if_neg e1] at h
  by_cases e2 : ty = P "EnumProperty"
  · rw [if_pos e2] at h
    obtain ⟨S, rfl, hl⟩ := inv_str h hs.2
    exact .inl ⟨.enum S, e2, by simp only [MVal.WfG], by simp only [MVal.val], by simpa only [MVal.enc] using hl⟩
  rw [if_neg e2] at h
  by_cases e3 : ty = P "NameProperty"
  · rw [if_pos e3] at h
    obtain ⟨S, rfl, hl⟩ := inv_str h hs.2
    exact .inl ⟨.name S, e3, by simp only [MVal.WfG], by simp only [MVal.val], by simpa only [MVal.enc] using hl⟩
  rw [if_neg e3] at h
  by_cases e4 : ty = P "IntProperty"
  · rw [if_pos e4] at h
    obtain ⟨b, rfl, hl⟩ := inv_i32v h
    exact .inl ⟨.int b, e4, by simp only [MVal.WfG], by simp only [MVal.val], by
      simp only [MVal.enc, e32, lit_length]; omega⟩
  rw [if_neg e4] at h
  by_cases e5 : ty = P "BoolProperty"
  · rw [if_pos e5] at h
    obtain ⟨b, s1, h1, h⟩ := r_bind_inv h
    obtain ⟨rfl, rfl⟩ := r_pure_inv h
    have hl := inv_bool h1
    exact .inl ⟨.bool b, e5, by simp only [MVal.WfG], by simp only [MVal.val, vBool], by
      simp only [MVal.enc, eBool, lit_length]; omega⟩
  rw [if_neg e5] at h
  exact (rFail_inv h).elim

/-- The entry, in a map with these types, has a non-empty array of GUIDs. -/
def BadEntry (Bad : Val → Prop) (kt ks vt vs : PyStr) (x : Val) : Prop :=
  (kt = P "StructProperty" ∧ ∃ k, x.get (P "key") = .ok k ∧ BadStruct Bad ks k) ∨
    (vt = P "StructProperty" ∧ ∃ v, x.get (P "value") = .ok v ∧ BadStruct Bad vs v)

theorem inv_entries {rec : PyStr → R Val} {kt vt path : PyStr} (hrk : RecInv cfg K C G Bad L rec (path ++ P ".Key"))
    (hrv : RecInv cfg K C G Bad L rec (path ++ P ".Value")) (hg : ∀ p, Grow (rec p)) :
    ∀ (n : Nat) (s s' : Bytes) (l : List Val),
      rRepeat (rMapEntry true rec kt (keyStruct cfg path) vt (valueStruct cfg path) (path ++ P ".Key") (path ++ P ".Value"))
        n s = .ok (l, s') →
      0 < s'.length → s.length < L ∧ s.length < 2 ^ 32 →
      (∃ ts : List (MVal rawMode × MVal rawMode), wfEntriesG cfg C G path kt vt ts ∧ l = valEntries cfg K path ts ∧
        ts.length = n ∧ (encEntries ts).length + s'.length ≤ s.length) ∨
      ∃ x ∈ l, BadEntry Bad kt (keyStruct cfg path) vt (valueStruct cfg path) x
  | 0, s, s', l, h, _, _ => by
    obtain ⟨rfl, rfl⟩ := r_pure_inv h
    exact .inl ⟨[], by simp only [wfEntriesG], by simp only [valEntries], rfl, by
      simp only [encEntries, List.length_nil]; omega⟩
  | n + 1, s, s', l, h, h0, hs => by
    obtain ⟨a, s1, h1, h⟩ := r_bind_inv h
    obtain ⟨t, s2, h2, h⟩ := r_bind_inv h
    obtain ⟨rfl, rfl⟩ := r_pure_inv h
    have l2 := len_of_grow (grow_repeat (grow_mapEntry true hg _ _ _ _ _ _) n) h2
    obtain ⟨k, s3, h3, h1⟩ := r_bind_inv h1
    obtain ⟨v, s4, h4, h1⟩ := r_bind_inv h1
    obtain ⟨rfl, rfl⟩ := r_pure_inv h1
    have l3 := len_of_grow (grow_propValue true hg _ _ _) h3
    have l4 := len_of_grow (grow_propValue true hg _ _ _) h4
    rcases inv_propValue hrk h3 (by omega) hs with ⟨k, t1, w1, rfl, e1⟩ | ⟨hk, hb⟩
    · rcases inv_propValue hrv h4 (by omega) (by omega) with ⟨v, t2, w2, rfl, e2⟩ | ⟨hk, hb⟩
      · rcases inv_entries hrk hrv hg n _ _ _ h2 h0 (by omega) with ⟨xs, w3, rfl, n3, e3⟩ | ⟨y, hy, hb⟩
        · refine .inl ⟨(k, v) :: xs, by simp only [wfEntriesG]; exact ⟨t1, w1, t2, w2, w3⟩, by simp only [valEntries]; rfl,
            by rw [List.length_cons, n3], by simp only [encEntries, List.length_append]; omega⟩
        · exact .inr ⟨y, List.mem_cons_of_mem _ hy, hb⟩
      · exact .inr ⟨_, List.mem_cons_self, .inr ⟨hk, v, by simp only [dct_eq, get_vDict_cons, String.reduceEq, if_true, if_false], hb⟩⟩
    · exact .inr ⟨_, List.mem_cons_self, .inl ⟨hk, k, by
        simp only [dct_eq, get_vDict_cons, if_true], hb⟩⟩

theorem undecoded_vDict (l : List (String × Val)) (h : "custom_type" ∉ l.map Prod.fst) : Undecoded (vDict l) :=
  contains_no l _ h

theorem badStruct_prop {st : PyStr} {v : Val} (l : List (String × Val)) (hc : "custom_type" ∉ l.map Prod.fst)
    (h1 : (vDict l).get (P "type") = .ok (.str (P "StructProperty")))
    (h2 : (vDict l).get (P "struct_type") = .ok (.str st)) (h3 : (vDict l).get (P "value") = .ok v)
    (hb : BadStruct Bad st v) : BadProp Bad (vDict l) := by
  intro d k hm
  obtain ⟨hl, d', k', p, hi, hp⟩ := hb
  exact ⟨d', k', p, .struct hm (undecoded_vDict l hc) h1 h2 hl h3 hi, hp⟩

theorem badArray_prop {a : Val} {tn : PyStr} {xs : List Val} (l : List (String × Val))
    (hc : "custom_type" ∉ l.map Prod.fst)
    (h1 : (vDict l).get (P "type") = .ok (.str (P "ArrayProperty")))
    (h2 : (vDict l).get (P "array_type") = .ok (.str (P "StructProperty"))) (h3 : (vDict l).get (P "value") = .ok a)
    (h4 : a.get (P "type_name") = .ok (.str tn)) (h5 : a.get (P "values") = .ok (.list xs))
    (hb : ∃ x ∈ xs, BadStruct Bad tn x) : BadProp Bad (vDict l) := by
  intro d k hm
  obtain ⟨x, hx, hl, d', k', p, hi, hp⟩ := hb
  exact ⟨d', k', p, .array hm (undecoded_vDict l hc) h1 h2 h3 h4 hl h5 rfl hx hi, hp⟩

theorem badGuids_prop (hG : ∀ p, GuidArray p → Bad p) {a : Val} {x : Val} {xs : List Val} (l : List (String × Val))
    (hc : "custom_type" ∉ l.map Prod.fst)
    (h1 : (vDict l).get (P "type") = .ok (.str (P "ArrayProperty")))
    (h2 : (vDict l).get (P "array_type") = .ok (.str (P "Guid"))) (h3 : (vDict l).get (P "value") = .ok a)
    (h4 : a.get (P "values") = .ok (.list (x :: xs))) : BadProp Bad (vDict l) :=
  badProp_of (hG _ ⟨undecoded_vDict l hc, h1, h2, a, x, xs, h3, h4⟩)

theorem badMap_prop {kt vt ks vs : PyStr} {xs : List Val} (l : List (String × Val))
    (hc : "custom_type" ∉ l.map Prod.fst)
    (h1 : (vDict l).get (P "type") = .ok (.str (P "MapProperty")))
    (h2 : (vDict l).get (P "key_type") = .ok (.str kt)) (h3 : (vDict l).get (P "value_type") = .ok (.str vt))
    (h4 : (vDict l).get (P "key_struct_type") = .ok (structTypeVal kt ks))
    (h5 : (vDict l).get (P "value_struct_type") = .ok (structTypeVal vt vs))
    (h6 : (vDict l).get (P "value") = .ok (.list xs))
    (hb : ∃ x ∈ xs, BadEntry Bad kt ks vt vs x) : BadProp Bad (vDict l) := by
  intro d k hm
  obtain ⟨e, he, hb⟩ := hb
  rcases hb with ⟨rfl, x, hx, hl, d', k', p, hi, hp⟩ | ⟨rfl, x, hx, hl, d', k', p, hi, hp⟩
  · rw [structTypeVal, if_pos rfl] at h4
    exact ⟨d', k', p, .key hm (undecoded_vDict l hc) h1 h2 h4 hl h6 rfl he hx hi, hp⟩
  · rw [structTypeVal, if_pos rfl] at h5
    exact ⟨d', k', p, .value hm (undecoded_vDict l hc) h1 h3 h5 hl h6 rfl he hx hi, hp⟩

/-- Inversion of a property. -/
def PropInv (cfg : Cfg) (K : CodecId → Val → Val) (C : CodecId → PropT rawMode → Prop) (G : Prop) (Bad : Val → Prop) (ty path : PyStr) (s s' : Bytes) (x : Val) : Prop :=
  (∃ p : PropT rawMode, ty = P p.type ∧ p.WfG cfg C G path ∧ x = vDict (p.entries cfg path (p.val cfg K path)) ∧
    p.head.length + p.tail.length + s'.length ≤ s.length) ∨ BadProp Bad x

theorem inv_idValue {r : R Val} (hg : Grow r) {s s' : Bytes} {v x : Val} {ty : String} (h : rIdValue r s = .ok (v, s'))
    (hx : v.set (P "type") (.str (P ty)) = .ok x) (h0 : 0 < s'.length) :
    ∃ (id : Option Guid) (y : Val) (s1 : Bytes), r s1 = .ok (y, s') ∧
      x = vDict [("id", vOptGuid id), ("value", y), ("type", .str (P ty))] ∧
      s.length = s1.length + (eOptGuid id).length ∧ s'.length ≤ s1.length := by
  obtain ⟨id, s1, h1, h⟩ := r_bind_inv h
  obtain ⟨y, s2, h2, h⟩ := r_bind_inv h
  obtain ⟨rfl, rfl⟩ := r_pure_inv h
  have l2 := len_of_grow hg h2
  obtain ⟨g, rfl, l1⟩ := inv_optGuid h1 (by omega)
  rw [dct_eq, set_vDict_new _ _ _ (by simp)] at hx
  exact ⟨g, y, s1, h2, (Except.ok.inj hx).symm, l1, l2⟩

theorem inv_array {rec : PyStr → R Val} {path : PyStr} (hG : G ∨ ∀ p, GuidArray p → Bad p)
    (hr : ∀ q, Below path q → RecInv cfg K C G Bad L rec q) (hg : ∀ p, Grow (rec p)) {size : Nat}
    {s s' : Bytes} {v x : Val} (h : rArrayProp true rec size path s = .ok (v, s'))
    (hx : v.set (P "type") (.str (P "ArrayProperty")) = .ok x) (h0 : 0 < s'.length) (hs : s.length < L ∧ s.length < 2 ^ 32) :
    PropInv cfg K C G Bad (P "ArrayProperty") path s s' x := by
  obtain ⟨at_, s1, h1, h⟩ := r_bind_inv h
  obtain ⟨id, s2, h2, h⟩ := r_bind_inv h
  obtain ⟨a, s3, h3, h⟩ := r_bind_inv h
  obtain ⟨rfl, rfl⟩ := r_pure_inv h
  rw [dct_eq, set_vDict_new _ _ _ (by simp)] at hx
  obtain rfl := (Except.ok.inj hx).symm
  clear hx
  have g3 := len_of_grow (grow_arrayProperty true hg at_ size path) h3
  obtain ⟨S, rfl, l1⟩ := inv_fstring h1 hs.2
  obtain ⟨id, rfl, l2⟩ := inv_optGuid h2 (by omega)
  obtain ⟨count, s4, h4, h3⟩ := r_bind_inv h3
  obtain ⟨cb, rfl, l4⟩ := inv_u32 h4
  have hcount := cb.isLt
  by_cases e1 : S.val = P "StructProperty"
  · rw [if_pos e1] at h3
    obtain ⟨pn, t1, k1, h3⟩ := r_bind_inv h3
    obtain ⟨pt, t2, k2, h3⟩ := r_bind_inv h3
    obtain ⟨u, t3, k3, h3⟩ := r_bind_inv h3
    obtain ⟨tn, t4, k4, h3⟩ := r_bind_inv h3
    obtain ⟨gid, t5, k5, h3⟩ := r_bind_inv h3
    obtain ⟨sk, t6, k6, h3⟩ := r_bind_inv h3
    obtain ⟨vs, t7, k7, h3⟩ := r_bind_inv h3
    obtain ⟨rfl, rfl⟩ := r_pure_inv h3
    have g7 := len_of_grow (grow_repeat (grow_structValue true hg _ _) _) k7
    have m6 := (inv_read k6 (by omega)).2
    obtain ⟨gid, rfl, m5⟩ := inv_guid k5 (by omega)
    have g4 := len_of_grow grow_fstring k4
    have m3 := (inv_unsigned k3).2
    have g2 := len_of_grow grow_fstring k2
    have g1 := len_of_grow grow_fstring k1
    obtain ⟨pn, rfl, m1⟩ := inv_fstring k1 (by omega)
    obtain ⟨pt, rfl, m2⟩ := inv_fstring k2 (by omega)
    obtain ⟨tn, rfl, m4⟩ := inv_fstring k4 (by omega)
    rw [e1]
    rcases inv_structValues (hr _ (below_sub _ _)) hg _ _ _ _ k7 (by omega) (by omega) with ⟨ts, w, rfl, n7, m7⟩ | hb
    · refine .inl ⟨.structs id pn pt tn gid ts, rfl, ?_, ?_, ?_⟩
      · simp only [PropT.WfG]; exact ⟨by omega, w⟩
      · simp only [PropT.entries, PropT.val]; rfl
      · have : eStr S = eLit "StructProperty" := by rw [eStr, e1, eLit]
        rw [this] at l1
        simp only [PropT.head, PropT.tail, List.length_append, lit_length, eGuid, gid.property, List.length_cons,
          List.length_nil]
        omega
    · refine .inr (badArray_prop (a := dct [("prop_name", .str pn.val), ("prop_type", .str pt.val), ("values", .list vs),
        ("type_name", .str tn.val), ("id", vGuid gid)]) (tn := tn.val) (xs := vs) _ (by simp) ?_ ?_ ?_ ?_ ?_ hb)
      · simp only [List.cons_append, List.nil_append, get_vDict_cons, String.reduceEq, if_false, if_true]
      · simp only [List.cons_append, List.nil_append, get_vDict_cons, String.reduceEq, if_false, if_true]
      · simp only [List.cons_append, List.nil_append, get_vDict_cons, String.reduceEq, if_false, if_true]
      · simp only [dct_eq, get_vDict_cons, String.reduceEq, if_false, if_true]
      · simp only [dct_eq, get_vDict_cons, String.reduceEq, if_false, if_true]
  · rw [if_neg e1] at h3
    obtain ⟨w, t1, k1, h3⟩ := r_bind_inv h3
    obtain ⟨rfl, rfl⟩ := r_pure_inv h3
    unfold rArrayValue at k1
    by_cases e2 : S.val = P "EnumProperty"
    · rw [if_pos e2] at k1
      obtain ⟨l, t2, k2, k1⟩ := r_bind_inv k1
      obtain ⟨rfl, rfl⟩ := r_pure_inv k1
      obtain ⟨ss, rfl, n2, m2⟩ := inv_repeat grow_str vStr eStr (fun s x s' h _ hs => inv_str h hs) _ _ _ _ k2 h0 (by omega)
      refine .inl ⟨.enums id ss, rfl, ?_, ?_, ?_⟩
      · simp only [PropT.WfG]; omega
      · rw [e2]; simp only [PropT.entries, PropT.val]; rfl
      · have : eStr S = eLit "EnumProperty" := by rw [eStr, e2, eLit]
        rw [this] at l1
        simp only [PropT.head, PropT.tail, List.length_append, lit_length]
        omega
    rw [if_neg e2] at k1
    by_cases e3 : S.val = P "NameProperty"
    · rw [if_pos e3] at k1
      obtain ⟨l, t2, k2, k1⟩ := r_bind_inv k1
      obtain ⟨rfl, rfl⟩ := r_pure_inv k1
      obtain ⟨ss, rfl, n2, m2⟩ := inv_repeat grow_str vStr eStr (fun s x s' h _ hs => inv_str h hs) _ _ _ _ k2 h0 (by omega)
      refine .inl ⟨.names id ss, rfl, ?_, ?_, ?_⟩
      · simp only [PropT.WfG]; omega
      · rw [e3]; simp only [PropT.entries, PropT.val]; rfl
      · have : eStr S = eLit "NameProperty" := by rw [eStr, e3, eLit]
        rw [this] at l1
        simp only [PropT.head, PropT.tail, List.length_append, lit_length]
        omega
    rw [if_neg e3] at k1
    by_cases e4 : S.val = P "Guid"
    · rw [if_pos e4] at k1
      obtain ⟨l, t2, k2, k1⟩ := r_bind_inv k1
      obtain ⟨rfl, rfl⟩ := r_pure_inv k1
      cases l with
      | nil =>
        refine .inl ⟨.guids id [], rfl, by simp only [PropT.WfG, true_or], ?_, ?_⟩
        · rw [e4]; simp only [PropT.entries, PropT.val]; rfl
        · have g2 := len_of_grow (grow_repeat grow_guid _) k2
          have : eStr S = eLit "Guid" := by rw [eStr, e4, eLit]
          rw [this] at l1
          simp only [PropT.head, PropT.tail, List.length_append, lit_length, List.flatMap_nil, List.length_nil]
          omega
      | cons y ys =>
        rw [e4]
        rcases hG with hg0 | hG
        · obtain ⟨l', h2, h3, h4⟩ := inv_repeat grow_guid vGuid eGuid (fun s x s' h h0 _ => by
            obtain ⟨g, rfl, hl⟩ := inv_guid h h0
            exact ⟨g, rfl, by simp only [eGuid, g.property]; omega⟩) _ _ _ _ k2 h0 (by omega)
          refine .inl ⟨.guids id l', rfl, by simp only [PropT.WfG]; exact .inr hg0, ?_, ?_⟩
          · simp only [PropT.entries, PropT.val, h2]; rfl
          · have : eStr S = eLit "Guid" := by rw [eStr, e4, eLit]
            rw [this] at l1
            simp only [PropT.head, PropT.tail, List.length_append, lit_length]
            omega
        refine .inr (badGuids_prop hG (a := dct [("values", .list (y :: ys))]) (x := y) (xs := ys) _ (by simp) ?_ ?_ ?_ ?_)
        · simp only [List.cons_append, List.nil_append, get_vDict_cons, String.reduceEq, if_false, if_true]
        · simp only [List.cons_append, List.nil_append, get_vDict_cons, String.reduceEq, if_false, if_true]
        · simp only [List.cons_append, List.nil_append, get_vDict_cons, String.reduceEq, if_false, if_true]
        · simp only [dct_eq, get_vDict_cons, if_true]
    rw [if_neg e4] at k1
    by_cases e5 : S.val = P "ByteProperty"
    · rw [if_pos e5] at k1
      split at k1
      · unfold rByteList at k1
        split at k1
        · rename_i hk
          cases k1
          refine .inl ⟨.bytes id (s4.take cb.toNat), rfl, ?_, ?_, ?_⟩
          · simp only [PropT.WfG, List.length_take]; omega
          · rw [e5]; simp only [PropT.entries, PropT.val]; rfl
          · have : eStr S = eLit "ByteProperty" := by rw [eStr, e5, eLit]
            rw [this] at l1
            simp only [PropT.head, PropT.tail, List.length_append, lit_length, List.length_take, List.length_drop]
            omega
        · cases k1
      · exact (rFail_inv k1).elim
    rw [if_neg e5] at k1
    exact (rFail_inv k1).elim

theorem inv_map {rec : PyStr → R Val} {path : PyStr} (hcfg : cfg.allowNan = true)
    (hr : ∀ q, Below path q → RecInv cfg K C G Bad L rec q) (hg : ∀ p, Grow (rec p))
    {s s' : Bytes} {v x : Val} (h : rMap cfg rec path s = .ok (v, s'))
    (hx : v.set (P "type") (.str (P "MapProperty")) = .ok x) (h0 : 0 < s'.length) (hs : s.length < L ∧ s.length < 2 ^ 32) :
    PropInv cfg K C G Bad (P "MapProperty") path s s' x := by
  obtain ⟨kt, s1, h1, h⟩ := r_bind_inv h
  obtain ⟨vt, s2, h2, h⟩ := r_bind_inv h
  obtain ⟨id, s3, h3, h⟩ := r_bind_inv h
  obtain ⟨u, s4, h4, h⟩ := r_bind_inv h
  obtain ⟨count, s5, h5, h⟩ := r_bind_inv h
  obtain ⟨l, s6, h6, h⟩ := r_bind_inv h
  obtain ⟨rfl, rfl⟩ := r_pure_inv h
  rw [dct_eq, set_vDict_new _ _ _ (by simp)] at hx
  obtain rfl := (Except.ok.inj hx).symm
  clear hx
  rw [hcfg] at h6
  have g6 := len_of_grow (grow_repeat (grow_mapEntry true hg _ _ _ _ _ _) _) h6
  have l4 := (inv_unsigned h4).2
  obtain ⟨cb, rfl, l5⟩ := inv_u32 h5
  have hcount := cb.isLt
  have g2 := len_of_grow grow_fstring h2
  have g1 := len_of_grow grow_fstring h1
  obtain ⟨id, rfl, l3⟩ := inv_optGuid h3 (by omega)
  obtain ⟨kt, rfl, l1⟩ := inv_fstring h1 hs.2
  obtain ⟨vt, rfl, l2⟩ := inv_fstring h2 (by omega)
  rcases inv_entries (hr _ (below_key _)) (hr _ (below_value _)) hg _ _ _ _ h6 h0 (by omega) with ⟨ts, w, rfl, n6, m6⟩ | hb
  · refine .inl ⟨.map kt vt id ts, rfl, ?_, ?_, ?_⟩
    · simp only [PropT.WfG]; exact ⟨by omega, w⟩
    · simp only [PropT.entries, PropT.val]; rfl
    · simp only [PropT.head, PropT.tail, List.length_append, lit_length]
      omega
  · refine .inr (badMap_prop (kt := kt.val) (vt := vt.val) (ks := keyStruct cfg path) (vs := valueStruct cfg path) (xs := l) _
      (by simp) ?_ ?_ ?_ ?_ ?_ ?_ hb)
    all_goals simp only [List.cons_append, List.nil_append, get_vDict_cons, String.reduceEq, if_false, if_true]
    all_goals rfl

theorem inv_plain {rec : PyStr → R Val} {ty path : PyStr} (hcfg : cfg.allowNan = true)
    (hG : G ∨ ∀ p, GuidArray p → Bad p) (hr : ∀ q, Below path q → RecInv cfg K C G Bad L rec q) (hg : ∀ p, Grow (rec p))
    {size : Nat} {s s' : Bytes} {x : Val} (h : rPlain cfg rec ty size path s = .ok (x, s'))
    (h0 : 0 < s'.length) (hs : s.length < L ∧ s.length < 2 ^ 32) : PropInv cfg K C G Bad ty path s s' x := by
  obtain ⟨v, s1, h1, h⟩ := r_bind_inv h
  obtain ⟨hx, rfl⟩ := rLift_inv h
  clear h
  unfold rPlainBody at h1
  rw [hcfg] at h1
  by_cases e1 : ty = P "StructProperty"
  · rw [if_pos e1] at h1
    obtain ⟨st, t1, k1, h1⟩ := r_bind_inv h1
    obtain ⟨sid, t2, k2, h1⟩ := r_bind_inv h1
    obtain ⟨id, t3, k3, h1⟩ := r_bind_inv h1
    obtain ⟨y, t4, k4, h1⟩ := r_bind_inv h1
    obtain ⟨rfl, rfl⟩ := r_pure_inv h1
    rw [dct_eq, set_vDict_new _ _ _ (by simp)] at hx
    obtain rfl := (Except.ok.inj hx).symm
    clear hx
    have g4 := len_of_grow (grow_structValue true hg _ _) k4
    have g1 := len_of_grow grow_fstring k1
    obtain ⟨id, rfl, m3⟩ := inv_optGuid k3 (by omega)
    obtain ⟨sid, rfl, m2⟩ := inv_guid k2 (by omega)
    obtain ⟨st, rfl, m1⟩ := inv_fstring k1 hs.2
    rcases inv_structValue (hr _ (below_self _)) k4 h0 (by omega) with ⟨t, f, w, rfl, m4⟩ | hb
    · refine .inl ⟨.struct st sid id t, e1, ?_, ?_, ?_⟩
      · simp only [PropT.WfG]; exact ⟨f, w⟩
      · rw [e1]; simp only [PropT.entries, PropT.val]; rfl
      · simp only [PropT.head, PropT.tail, List.length_append, eGuid, sid.property]; omega
    · refine .inr (badStruct_prop (st := st.val) (v := y) _ (by simp) ?_ ?_ ?_ hb)
      all_goals simp only [List.cons_append, List.nil_append, get_vDict_cons, String.reduceEq, if_false, if_true, e1]
  rw [if_neg e1] at h1
  by_cases e2 : ty = P "IntProperty"
  · rw [if_pos e2] at h1
    rw [e2] at hx ⊢
    obtain ⟨id, y, s2, k, rfl, l1, -⟩ := inv_idValue (grow_bind grow_i32 fun _ => grow_pure _) h1 hx h0
    obtain ⟨b, rfl, l2⟩ := inv_i32v k
    exact .inl ⟨.int id b, rfl, by simp only [PropT.WfG], by simp only [PropT.entries, PropT.val], by
      simp only [PropT.head, PropT.tail, e32, lit_length]; omega⟩
  rw [if_neg e2] at h1
  by_cases e3 : ty = P "Int64Property"
  · rw [if_pos e3] at h1
    rw [e3] at hx ⊢
    obtain ⟨id, y, s2, k, rfl, l1, -⟩ := inv_idValue (grow_bind grow_i64 fun _ => grow_pure _) h1 hx h0
    obtain ⟨b, rfl, l2⟩ := inv_i64v k
    exact .inl ⟨.int64 id b, rfl, by simp only [PropT.WfG], by simp only [PropT.entries, PropT.val], by
      simp only [PropT.head, PropT.tail, e64, lit_length]; omega⟩
  rw [if_neg e3] at h1
  by_cases e4 : ty = P "FixedPoint64Property"
  · rw [if_pos e4] at h1
    rw [e4] at hx ⊢
    obtain ⟨id, y, s2, k, rfl, l1, -⟩ := inv_idValue (grow_bind grow_i32 fun _ => grow_pure _) h1 hx h0
    obtain ⟨b, rfl, l2⟩ := inv_i32v k
    exact .inl ⟨.fixed64 id b, rfl, by simp only [PropT.WfG], by simp only [PropT.entries, PropT.val], by
      simp only [PropT.head, PropT.tail, e32, lit_length]; omega⟩
  rw [if_neg e4] at h1
  by_cases e5 : ty = P "FloatProperty"
  · rw [if_pos e5] at h1
    rw [e5] at hx ⊢
    obtain ⟨id, y, s2, k, rfl, l1, -⟩ := inv_idValue (grow_float true) h1 hx h0
    obtain ⟨b, rfl, l2⟩ := inv_float k
    exact .inl ⟨.float id b, rfl, by simp only [PropT.WfG], by simp only [PropT.entries, PropT.val], by
      simp only [PropT.head, PropT.tail, eF32_len]; omega⟩
  rw [if_neg e5] at h1
  by_cases e6 : ty = P "StrProperty"
  · rw [if_pos e6] at h1
    rw [e6] at hx ⊢
    obtain ⟨id, y, s2, k, rfl, l1, -⟩ := inv_idValue grow_str h1 hx h0
    obtain ⟨b, rfl, l2⟩ := inv_str k (by omega)
    exact .inl ⟨.str id b, rfl, by simp only [PropT.WfG], by simp only [PropT.entries, PropT.val], by
      simp only [PropT.head, PropT.tail]; omega⟩
  rw [if_neg e6] at h1
  by_cases e7 : ty = P "NameProperty"
  · rw [if_pos e7] at h1
    rw [e7] at hx ⊢
    obtain ⟨id, y, s2, k, rfl, l1, -⟩ := inv_idValue grow_str h1 hx h0
    obtain ⟨b, rfl, l2⟩ := inv_str k (by omega)
    exact .inl ⟨.name id b, rfl, by simp only [PropT.WfG], by simp only [PropT.entries, PropT.val], by
      simp only [PropT.head, PropT.tail]; omega⟩
  rw [if_neg e7] at h1
  by_cases e8 : ty = P "EnumProperty"
  · rw [if_pos e8] at h1
    obtain ⟨et, t1, k1, h1⟩ := r_bind_inv h1
    obtain ⟨id, t2, k2, h1⟩ := r_bind_inv h1
    obtain ⟨ev, t3, k3, h1⟩ := r_bind_inv h1
    obtain ⟨rfl, rfl⟩ := r_pure_inv h1
    rw [dct_eq, set_vDict_new _ _ _ (by simp)] at hx
    obtain rfl := (Except.ok.inj hx).symm
    clear hx
    have g3 := len_of_grow grow_str k3
    have g1 := len_of_grow grow_str k1
    obtain ⟨et, rfl, m1⟩ := inv_str k1 hs.2
    obtain ⟨id, rfl, m2⟩ := inv_optGuid k2 (by omega)
    obtain ⟨ev, rfl, m3⟩ := inv_str k3 (by omega)
    refine .inl ⟨.enum et id ev, e8, by simp only [PropT.WfG], ?_, ?_⟩
    · rw [e8]; simp only [PropT.entries, PropT.val]; rfl
    · simp only [PropT.head, PropT.tail, List.length_append]; omega
  rw [if_neg e8] at h1
  by_cases e9 : ty = P "BoolProperty"
  · rw [if_pos e9] at h1
    obtain ⟨b, t1, k1, h1⟩ := r_bind_inv h1
    obtain ⟨id, t2, k2, h1⟩ := r_bind_inv h1
    obtain ⟨rfl, rfl⟩ := r_pure_inv h1
    rw [dct_eq, set_vDict_new _ _ _ (by simp)] at hx
    obtain rfl := (Except.ok.inj hx).symm
    clear hx
    have m1 := inv_bool k1
    obtain ⟨id, rfl, m2⟩ := inv_optGuid k2 (by omega)
    refine .inl ⟨.bool b id, e9, by simp only [PropT.WfG], ?_, ?_⟩
    · rw [e9]; simp only [PropT.entries, PropT.val]; rfl
    · simp only [PropT.head, PropT.tail, List.length_append, eBool, lit_length, List.length_nil]; omega
  rw [if_neg e9] at h1
  by_cases e10 : ty = P "ArrayProperty"
  · rw [if_pos e10] at h1
    rw [e10] at hx ⊢
    exact inv_array hG hr hg h1 hx h0 hs
  rw [if_neg e10] at h1
  by_cases e11 : ty = P "MapProperty"
  · rw [if_pos e11] at h1
    rw [e11] at hx ⊢
    exact inv_map hcfg hr hg h1 hx h0 hs
  rw [if_neg e11] at h1
  exact (rFail_inv h1).elim

/-! ### property lists -/

/-- A property, decoded or not, that is shown for some syntax. -/
def PropOk (cfg : Cfg) (K : CodecId → Val → Val) (C : CodecId → PropT rawMode → Prop) (G : Prop) (Bad : Val → Prop) (ty path : PyStr)
    (s s' : Bytes) (x : Val) : Prop :=
  (∃ p : PropT rawMode, ty = P p.type ∧
    (match cfg.custom path with
      | none => p.WfG cfg C G path
      | some c => p.type = c.propType ∧ C c p ∧ p.Wf cfg noCustom path) ∧
    x = showProp cfg K path p (p.val cfg K path) ∧ p.head.length + p.tail.length + s'.length ≤ s.length) ∨ BadProp Bad x

theorem propOk_plain {ty path : PyStr} {s s' : Bytes} {x : Val} (hc : cfg.custom path = none)
    (h : PropInv cfg K C G Bad ty path s s' x) : PropOk cfg K C G Bad ty path s s' x := by
  rcases h with ⟨p, h1, h2, h3, h4⟩ | hb
  · refine .inl ⟨p, h1, by rw [hc]; exact h2, ?_, h4⟩
    rw [h3, showProp, hc]
  · exact .inr hb

/-- The entry takes at most `c` bytes, or is bad. -/
def EntryOk (cfg : Cfg) (K : CodecId → Val → Val) (C : CodecId → PropT rawMode → Prop) (G : Prop) (Bad : Val → Prop) (path k : PyStr)
    (v : Val) (c : Nat) : Prop :=
  (∃ (S : Str) (p : PropT rawMode), k = S.val ∧ S.val ≠ P "None" ∧
    (match cfg.custom (sub path S) with
      | none => p.WfG cfg C G (sub path S)
      | some c => p.type = c.propType ∧ C c p ∧ p.Wf cfg noCustom (sub path S)) ∧
    v = showProp cfg K (sub path S) p (p.val cfg K (sub path S)) ∧ (eStr S).length + p.enc.length ≤ c) ∨ BadProp Bad v

def AccOk (cfg : Cfg) (K : CodecId → Val → Val) (C : CodecId → PropT rawMode → Prop) (G : Prop) (Bad : Val → Prop) (path : PyStr) :
    Dict → Nat → Prop
  | [], _ => True
  | (k, v) :: t, c => ∃ c1 c2, c1 + c2 ≤ c ∧ EntryOk cfg K C G Bad path k v c1 ∧ AccOk cfg K C G Bad path t c2

theorem accOk_dset {path k : PyStr} {v : Val} {c' : Nat} (he : EntryOk cfg K C G Bad path k v c') : ∀ {d : Dict} {c : Nat},
    AccOk cfg K C G Bad path d c → AccOk cfg K C G Bad path (dset d k v) (c + c')
  | [], c, _ => ⟨c', 0, by omega, he, trivial⟩
  | (k1, v1) :: t, c, ⟨c1, c2, h, h1, h2⟩ => by
    simp only [dset]
    split
    · rename_i e
      exact ⟨c', c2, by omega, e ▸ he, h2⟩
    · exact ⟨c1, c2 + c', by omega, h1, accOk_dset he h2⟩

theorem dset_nodup {k : PyStr} {v : Val} : ∀ {d : Dict}, (d.map Prod.fst).Nodup → ((dset d k v).map Prod.fst).Nodup
  | [], _ => by simp [dset]
  | (k1, v1) :: t, h => by
    simp only [List.map_cons, List.nodup_cons] at h
    simp only [dset]
    split
    · simpa only [List.map_cons, List.nodup_cons] using h
    · rename_i e
      simp only [List.map_cons, List.nodup_cons]
      refine ⟨fun hm => ?_, dset_nodup h.2⟩
      obtain ⟨q, hq, hq'⟩ := List.mem_map.1 hm
      rcases mem_dset hq with hq | rfl
      · exact h.1 (hq' ▸ List.mem_map_of_mem hq)
      · exact e hq'.symm

theorem acc_tree {path : PyStr} : ∀ {d : Dict} {c : Nat}, AccOk cfg K C G Bad path d c → (d.map Prod.fst).Nodup →
    (∃ ps : Props rawMode, (ps.map Prod.fst).Nodup ∧ wfPropsG cfg C G path ps ∧ d = valProps cfg K path ps ∧
      (encProps ps).length ≤ c + (eLit "None").length) ∨ ∃ q ∈ d, BadProp Bad q.2
  | [], c, _, _ => .inl ⟨[], by simp, by simp only [wfPropsG], by simp only [valProps], by simp only [encProps]; omega⟩
  | (k, v) :: t, c, ⟨c1, c2, h, h1, h2⟩, hn => by
    simp only [List.map_cons, List.nodup_cons] at hn
    rcases h1 with ⟨S, p, rfl, g1, g2, rfl, g3⟩ | hb
    · rcases acc_tree h2 hn.2 with ⟨ps, n1, w, rfl, hl⟩ | ⟨q, hq, hb⟩
      · refine .inl ⟨(S, p) :: ps, ?_, ?_, ?_, ?_⟩
        · simp only [List.map_cons, List.nodup_cons]
          refine ⟨fun hm => hn.1 ?_, n1⟩
          rw [valProps_keys]
          exact List.mem_map_of_mem hm
        · simp only [wfPropsG]; exact ⟨g1, g2, w⟩
        · simp only [valProps]
        · simp only [PropT.enc, List.length_append] at g3
          simp only [encProps, List.length_append]; omega
      · exact .inr ⟨q, List.mem_cons_of_mem _ hq, hb⟩
    · exact .inr ⟨_, List.mem_cons_self, hb⟩

theorem eLit_none : (eLit "None").length = 9 := by decide +kernel

theorem fstring_none {s s' : Bytes} (h : rFString s = .ok (P "None", s')) (hs : s.length < 2 ^ 32) :
    (eLit "None").length + s'.length ≤ s.length := by
  obtain ⟨S, e, hl⟩ := inv_fstring h hs
  rwa [eStr, ← e] at hl

/-- Inversion of the loop, from an accumulator whose entries take at most `c` bytes. -/
def LoopInv (cfg : Cfg) (K : CodecId → Val → Val) (C : CodecId → PropT rawMode → Prop) (G : Prop) (Bad : Val → Prop) (path : PyStr)
    (s : Bytes) (v : Val) (s' : Bytes) (c : Nat) : Prop :=
  (∃ ps : Props rawMode, (ps.map Prod.fst).Nodup ∧ wfPropsG cfg C G path ps ∧ v = .dict (valProps cfg K path ps) ∧
    (encProps ps).length + s'.length ≤ c + s.length) ∨ BadList Bad v

/-- One round of the loop. -/
theorem loop_body {n : Nat} {path : PyStr} {acc : Dict} {s : Bytes} {v : Val} {s' : Bytes} {c : Nat}
    (ha : AccOk cfg K C G Bad path acc c) (hn : (acc.map Prod.fst).Nodup)
    (h : rPropsLoop cfg (n + 1) path acc s = .ok (v, s')) (hs : s.length < 2 ^ 32)
    (hprop : ∀ name ty size s3 x s4, rProperty cfg (fun p => rPropsLoop cfg n p []) ty size (path ++ dot ++ name) s3 = .ok (x, s4) →
      0 < s4.length → s3.length < s.length → PropOk cfg K C G Bad ty (path ++ dot ++ name) s3 s4 x)
    (hrest : ∀ acc s4 c, AccOk cfg K C G Bad path acc c → (acc.map Prod.fst).Nodup →
      rPropsLoop cfg n path acc s4 = .ok (v, s') → s4.length < s.length → LoopInv cfg K C G Bad path s4 v s' c) :
    LoopInv cfg K C G Bad path s v s' c := by
  rw [rPropsLoop] at h
  obtain ⟨name, s1, h1, h⟩ := r_bind_inv h
  by_cases e : name = P "None"
  · rw [if_pos e] at h
    obtain ⟨rfl, rfl⟩ := r_pure_inv h
    rw [e] at h1
    have hl := fstring_none h1 hs
    rcases acc_tree ha hn with ⟨ps, w1, w2, rfl, hl2⟩ | ⟨q, hq, hb⟩
    · exact .inl ⟨ps, w1, w2, rfl, by omega⟩
    · exact .inr (hb _ q.1 hq)
  · rw [if_neg e] at h
    obtain ⟨ty, s2, h2, h⟩ := r_bind_inv h
    obtain ⟨size, s3, h3, h⟩ := r_bind_inv h
    obtain ⟨x, s4, h4, h5⟩ := r_bind_inv h
    clear h
    have g1 := len_of_grow grow_fstring h1
    have g2 := len_of_grow grow_fstring h2
    have l3 := (inv_unsigned h3).2
    have g4 := len_of_grow (grow_property cfg (fun p => grow_loop cfg n p []) _ _ _) h4
    obtain ⟨S, rfl, l1⟩ := inv_fstring h1 hs
    obtain ⟨T, rfl, l2⟩ := inv_fstring h2 (by omega)
    have h4' : 0 < s4.length := by
      cases n with
      | zero => exact (rFail_inv h5).elim
      | succ n =>
        rw [rPropsLoop] at h5
        obtain ⟨_, _, k, _⟩ := r_bind_inv h5
        obtain ⟨_, _, k, _⟩ := r_bind_inv k
        obtain ⟨_, _, _, hk⟩ := inv_signed k
        omega
    have hx := hprop _ _ _ _ _ _ h4 h4' (by omega)
    have he : EntryOk cfg K C G Bad path S.val x (s.length - s4.length) := by
      rcases hx with ⟨p, t1, w, rfl, hl⟩ | hb
      · refine .inl ⟨S, p, rfl, e, w, rfl, ?_⟩
        have : eStr T = eLit p.type := by rw [eStr, t1, eLit]
        rw [this] at l2
        simp only [PropT.enc, List.length_append, lit_length]
        omega
      · exact .inr hb
    rcases hrest _ s4 _ (accOk_dset he ha) (dset_nodup hn) h5 (by omega) with ⟨ps, w1, w2, w3, w4⟩ | hb
    · exact .inl ⟨ps, w1, w2, w3, by omega⟩
    · exact .inr hb

/-- Inversion of a property list below whose path there are no custom properties. -/
theorem inv_loop (hcfg : cfg.allowNan = true) (hG : G ∨ ∀ p, GuidArray p → Bad p) : ∀ (n : Nat) (path : PyStr)
    (_ : ∀ r, cfg.custom (path ++ dot ++ r) = none) (acc : Dict)
    (s : Bytes) (v : Val) (s' : Bytes) (c : Nat), AccOk cfg K noCustom G Bad path acc c → (acc.map Prod.fst).Nodup →
    rPropsLoop cfg n path acc s = .ok (v, s') → s.length < 2 ^ 32 → LoopInv cfg K noCustom G Bad path s v s' c
  | 0, _, _, _, _, _, _, _, _, _, h, _ => (rFail_inv h).elim
  | n + 1, path, hc, acc, s, v, s', c, ha, hn, h, hs => by
    refine loop_body ha hn h hs ?_ ?_
    · intro name ty size s3 x s4 h4 h4' hl
      have hr : ∀ q, Below (path ++ dot ++ name) q →
          RecInv cfg K noCustom G Bad (2 ^ 32) (fun p => rPropsLoop cfg n p []) q := by
        intro q hq s v s' h hs
        have hc' : ∀ r, cfg.custom (q ++ dot ++ r) = none := by
          intro r
          rcases below_trans (below_trans (below_sub path name) hq) (below_sub q r) with h0 | ⟨r', h'⟩
          · have := congrArg List.length h0
            have hd : dot.length = 1 := rfl
            rcases hq with rfl | ⟨r2, rfl⟩ <;> simp only [List.length_append, hd] at this <;> omega
          · rw [h']; exact hc r'
        rcases inv_loop hcfg hG n q hc' [] s v s' 0 trivial (by simp) h hs.2 with ⟨ps, w1, w2, w3, w4⟩ | hb
        · exact .inl ⟨ps, by simp only [SVal.WfG]; exact ⟨w1, w2⟩, w3, by omega⟩
        · exact .inr hb
      rw [rProperty, hc] at h4
      exact propOk_plain (hc _) (inv_plain hcfg hG hr (fun p => grow_loop cfg n p []) h4 h4' (by omega))
    · intro acc s4 c ha hn h hl
      exact inv_loop hcfg hG n path hc acc s4 v s' c ha hn h (by omega)

/-- Inversion of any property list, given the inversion of custom properties. -/
theorem inv_loopC (hcfg : cfg.allowNan = true) (hG : G ∨ ∀ p, GuidArray p → Bad p)
    (hleaf : ∀ (n : Nat) (path : PyStr) (c : CodecId) (ty : PyStr) (size : Nat) (s : Bytes) (x : Val) (s' : Bytes),
      cfg.custom path = some c → rProperty cfg (fun p => rPropsLoop cfg n p []) ty size path s = .ok (x, s') →
      0 < s'.length → s.length < n ∧ s.length < 2 ^ 32 → PropOk cfg K C G Bad ty path s s' x) : ∀ (n : Nat) (path : PyStr) (acc : Dict)
    (s : Bytes) (v : Val) (s' : Bytes) (c : Nat), AccOk cfg K C G Bad path acc c → (acc.map Prod.fst).Nodup →
    rPropsLoop cfg n path acc s = .ok (v, s') → s.length < n ∧ s.length < 2 ^ 32 → LoopInv cfg K C G Bad path s v s' c
  | 0, _, _, _, _, _, _, _, _, h, _ => (rFail_inv h).elim
  | n + 1, path, acc, s, v, s', c, ha, hn, h, hs => by
    refine loop_body ha hn h hs.2 ?_ ?_
    · intro name ty size s3 x s4 h4 h4' hl
      cases hc : cfg.custom (path ++ dot ++ name) with
      | some c => exact hleaf n _ c ty size s3 x s4 hc h4 h4' (by omega)
      | none =>
        have hr : ∀ q, Below (path ++ dot ++ name) q → RecInv cfg K C G Bad n (fun p => rPropsLoop cfg n p []) q := by
          intro q _ s v s' h hs
          rcases inv_loopC hcfg hG hleaf n q [] s v s' 0 trivial (by simp) h hs with ⟨ps, w1, w2, w3, w4⟩ | hb
          · exact .inl ⟨ps, by simp only [SVal.WfG]; exact ⟨w1, w2⟩, w3, by omega⟩
          · exact .inr hb
        rw [rProperty, hc] at h4
        exact propOk_plain hc (inv_plain hcfg hG hr (fun p => grow_loop cfg n p []) h4 h4' (by omega))
    · intro acc s4 c ha hn h hl
      exact inv_loopC hcfg hG hleaf n path acc s4 v s' c ha hn h (by omega)

end Pal
