import Verif.Props.Sample
import Verif.Lemmas.Inv
/-
C09: unknown types are never silently skipped.
-/

set_option linter.unusedSimpArgs false

namespace Pal
open Spec

variable {m : Mode}

/-- The property types the tool supports. -/
def propTypes : List String := ["StructProperty", "IntProperty", "Int64Property", "FixedPoint64Property", "FloatProperty",
  "StrProperty", "NameProperty", "EnumProperty", "BoolProperty", "ArrayProperty", "MapProperty"]
/-- The element types of arrays that can be read. -/
def readArrayTypes : List String := ["StructProperty", "EnumProperty", "NameProperty", "Guid", "ByteProperty"]
/-- The element types of arrays that can be written. -/
def writeArrayTypes : List String := ["StructProperty", "IntProperty", "Int64Property", "FloatProperty", "StrProperty",
  "NameProperty", "EnumProperty", "BoolProperty", "ByteProperty"]
/-- The types of map keys and values. -/
def mapTypes : List String := ["StructProperty", "EnumProperty", "NameProperty", "IntProperty", "BoolProperty"]

/-! ### reading -/

/-- The encoding of properties that are followed by something else than the end of the list. -/
def encFirst (ps : Props m) : Bytes := ps.flatMap fun q => eStr q.1 ++ q.2.enc

theorem first_cons (n : Str) (p : PropT m) (t : Props m) :
    encFirst ((n, p) :: t) = eStr n ++ eLit p.type ++ lit 8 p.tail.length ++ p.head ++ p.tail ++ encFirst t := by
  simp only [encFirst, List.flatMap_cons, PropT.enc, List.append_assoc]

theorem encProps_eq (ps : Props m) : encProps ps = encFirst ps ++ eLit "None" := by
  induction ps with
  | nil => simp only [encProps, encFirst, List.flatMap_nil, List.nil_append]
  | cons q t ih => obtain ⟨n, p⟩ := q; simp only [encProps, first_cons, ih, List.append_assoc]

theorem first_read {cfg : Cfg} (hcfg : cfg.allowNan = m.an) {K : CodecId → Val → Val} {C : CodecId → PropT m → Prop}
    (hK : ReadsCustom cfg K C) (path : PyStr) (rest : Bytes) :
    ∀ (ps : Props m) (n : Nat) (acc : Dict) (_ : wfProps cfg C path ps) (_ : (encFirst ps).length < n)
      (_ : (encFirst ps).length < 2 ^ 64),
    ∃ acc', rPropsLoop cfg n path acc (encFirst ps ++ rest) = rPropsLoop cfg (n - ps.length) path acc' rest := by
  intro ps
  induction ps with
  | nil => intro n acc _ _ _; exact ⟨acc, by simp [encFirst]⟩
  | cons q t ih =>
    obtain ⟨nm, p⟩ := q
    intro n acc hw hn hn64
    cases n with
    | zero => omega
    | succ n =>
      simp only [wfProps] at hw
      obtain ⟨h1, h2, h3⟩ := hw
      have hl := eStr_len nm
      rw [first_cons] at hn hn64
      simp only [List.length_append] at hn hn64
      have hp : rPlain cfg (fun q => rPropsLoop cfg n q []) (P p.type) p.tail.length (sub path nm)
          (p.head ++ p.tail ++ (encFirst t ++ rest)) =
          .ok (vDict (p.entries cfg (sub path nm) (p.val cfg K (sub path nm))), encFirst t ++ rest) := by
        apply rPlain_of
        cases hc : cfg.custom (sub path nm) with
        | none =>
          rw [hc] at h2
          exact prop_read hcfg p C hK (sub path nm) n _ h2 (by omega) (by omega)
        | some c =>
          rw [hc] at h2
          exact prop_read hcfg p noCustom (readsCustom_no cfg K) (sub path nm) n _ h2.2.2 (by omega) (by omega)
      have hq := rProperty_of hcfg hK (by omega) (by omega) h2 hp
      simp only [sub, List.append_assoc] at hq
      obtain ⟨acc', ih⟩ := ih n (dset acc nm.val (showProp cfg K (sub path nm) p (p.val cfg K (sub path nm)))) h3
        (by omega) (by omega)
      refine ⟨acc', ?_⟩
      simp only [rPropsLoop, first_cons, rd, h1, if_false, rFString_eLit p.type (type_strOk p),
        rU64_lit p.tail.length (by omega), dot, hq, r_ite]
      simp only [sub, List.append_assoc] at ih
      rw [List.length_cons, Nat.add_sub_add_right]
      exact ih

/-- C09: a property list in which a property of unknown type comes up (and no custom
property is registered for its path) is not read, whatever precedes and follows. -/
theorem C09_read_list (cfg : Cfg) (n : Nat) (path : PyStr) (acc : Dict) (s s1 s2 : Bytes) (name ty : PyStr)
    (h1 : rFString s = .ok (name, s1)) (hn : name ≠ P "None") (h2 : rFString s1 = .ok (ty, s2))
    (hty : ∀ t ∈ propTypes, ty ≠ P t) (hc : cfg.custom (path ++ P "." ++ name) = none) :
    ∃ e, rPropsLoop cfg n path acc s = .error e := by
  cases n with
  | zero => exact ⟨_, rfl⟩
  | succ n =>
    simp only [propTypes, List.forall_mem_cons] at hty
    obtain ⟨t1, t2, t3, t4, t5, t6, t7, t8, t9, t10, t11, _⟩ := hty
    have hb : ∀ size s, rProperty cfg (fun p => rPropsLoop cfg n p []) ty size (path ++ dot ++ name) s =
        .error (.exc "Unknown type") := by
      intro size s
      simp only [dot, rProperty, hc, rPlain, rPlainBody, t1, t2, t3, t4, t5, t6, t7, t8, t9, t10, t11, if_false]
      rfl
    simp only [rPropsLoop, r_bind_ok h1, hn, if_false, r_bind_ok h2]
    cases h3 : rU64 s2 with
    | error e => exact ⟨e, r_bind_error h3 _⟩
    | ok q => exact ⟨_, by rw [r_bind_ok h3, r_bind_error (hb _ _)]⟩

/-- C09: a file with a property of unknown type after any well-formed properties is
rejected, whatever the size it declares and whatever bytes follow. -/
theorem C09_read_file (cfg : Cfg) (hcfg : cfg.allowNan = m.an) (hj : m.json = true → CfgJson cfg) (h : Header) (ps : Props m)
    (hw : wfProps cfg (Canon cfg) [] ps) (name ty : Str) (hn : name.val ≠ P "None") (hty : ∀ t ∈ propTypes, ty.val ≠ P t)
    (hc : cfg.custom (P "." ++ name.val) = none) (rest : Bytes)
    (h64 : (h.enc ++ encFirst ps ++ eStr name ++ eStr ty ++ rest).length < 2 ^ 64) :
    ∃ e, gvasRead cfg (h.enc ++ encFirst ps ++ eStr name ++ eStr ty ++ rest) = .error e := by
  unfold gvasRead gvasReadR
  simp only [List.append_assoc] at h64 ⊢
  rw [r_bind_ok (hdrRead_enc _ _)]
  simp only [List.length_append] at h64 ⊢
  obtain ⟨acc', h1⟩ := first_read hcfg (readsCustom_canon hcfg hj) [] (eStr name ++ (eStr ty ++ rest)) ps
    (h.enc.length + ((encFirst ps).length + ((eStr name).length + ((eStr ty).length + rest.length))) + 1) [] hw
    (by omega) (by omega)
  obtain ⟨e, h2⟩ := C09_read_list cfg (h.enc.length + ((encFirst ps).length + ((eStr name).length + ((eStr ty).length +
    rest.length))) + 1 - ps.length) [] acc' (eStr name ++ (eStr ty ++ rest)) _ _ _ _ (rFString_eStr name _) hn (rFString_eStr ty _) hty
    (by simpa using hc)
  refine ⟨e, ?_⟩
  rw [rProps, r_bind_error (h1.trans h2)]

/-- The beginning of a property: its name, type and declared size. -/
def eTag (name : Str) (ty : String) (size : BitVec 64) : Bytes := eStr name ++ eLit ty ++ e64 size

theorem tag_error (cfg : Cfg) (n : Nat) (path : PyStr) (acc : Dict) (name : Str) (ty : String) (hty : StrOk (P ty))
    (size : BitVec 64) (s : Bytes) (hn : name.val ≠ P "None")
    (h : ∀ rec p, ∃ e, rPlain cfg rec (P ty) size.toNat p s = .error e) :
    ∃ e, rPropsLoop cfg n path acc (eTag name ty size ++ s) = .error e := by
  cases n with
  | zero => exact ⟨_, rfl⟩
  | succ n =>
    have hb : ∃ e, rProperty cfg (fun p => rPropsLoop cfg n p []) (P ty) size.toNat (path ++ dot ++ name.val) s =
        .error e := by
      unfold rProperty
      cases cfg.custom (path ++ dot ++ name.val) with
      | none => exact h _ _
      | some c =>
        by_cases ht : P ty = P c.propType
        · obtain ⟨e, he⟩ := h (fun p => rPropsLoop cfg n p []) (path ++ dot ++ name.val)
          exact ⟨e, by simp only [ht, if_true]; rw [← ht]; exact r_bind_error he _⟩
        · exact ⟨.exc "Expected property type", by simp only [ht, if_false]; rfl⟩
    obtain ⟨e, he⟩ := hb
    refine ⟨e, ?_⟩
    rw [List.append_assoc] at he
    simp only [eTag, rPropsLoop, rd, rFString_eLit ty hty, hn, if_false, r_ite, List.append_assoc, he]

theorem r_id (id : Option Guid) (rest : Bytes) : rOptGuid (eOptGuid id ++ rest) = .ok (vOptGuid id, rest) := by
  simp only [rd]

/-- C09: an array of unsupported element type is not read, even if it is empty. -/
theorem C09_read_array (cfg : Cfg) (n : Nat) (path : PyStr) (acc : Dict) (name : Str) (hn : name.val ≠ P "None")
    (size : BitVec 64) (ty : Str) (hty : ∀ t ∈ readArrayTypes, ty.val ≠ P t) (id : Option Guid) (rest : Bytes) :
    ∃ e, rPropsLoop cfg n path acc (eTag name "ArrayProperty" size ++ (eStr ty ++ eOptGuid id ++ rest)) = .error e := by
  refine tag_error cfg n path acc name _ (by decide +kernel) size _ hn fun rec p => ?_
  simp only [readArrayTypes, List.forall_mem_cons] at hty
  obtain ⟨t1, t2, t3, t4, t5, _⟩ := hty
  have : ∃ e, rArrayProp cfg.allowNan rec size.toNat p (eStr ty ++ eOptGuid id ++ rest) = .error e := by
    simp only [rArrayProp, List.append_assoc, rd]
    cases h : rU32 rest with
    | error e => exact ⟨e, by simp only [rArrayProperty, rd, h]⟩
    | ok q => exact ⟨.exc "Unknown array type", by
        simp only [rArrayProperty, rArrayValue, rd, h, t1, t2, t3, t4, t5, if_false, r_ite, r_fail]⟩
  obtain ⟨e, he⟩ := this
  refine ⟨e, ?_⟩
  simp only [rPlain, rPlainBody, P_inj, String.reduceEq, if_false, if_true]
  exact r_bind_error he _

theorem propValue_unknown (an : Bool) (rec : PyStr → R Val) (ty st path : PyStr) (h : ∀ t ∈ mapTypes, ty ≠ P t) (s : Bytes) :
    ∃ e, rPropValue an rec ty st path s = .error e := by
  simp only [mapTypes, List.forall_mem_cons] at h
  obtain ⟨t1, t2, t3, t4, t5, _⟩ := h
  exact ⟨_, by simp only [rPropValue, t1, t2, t3, t4, t5, if_false]; rfl⟩

/-- C09: a map whose key or value type is not supported is not read, if it has an entry. -/
theorem C09_read_map (cfg : Cfg) (n : Nat) (path : PyStr) (acc : Dict) (name : Str) (hn : name.val ≠ P "None")
    (size : BitVec 64) (kt vt : Str) (hty : (∀ t ∈ mapTypes, kt.val ≠ P t) ∨ ∀ t ∈ mapTypes, vt.val ≠ P t)
    (id : Option Guid) (skipped count : BitVec 32) (hc : count ≠ 0) (rest : Bytes) :
    ∃ e, rPropsLoop cfg n path acc (eTag name "MapProperty" size ++
      (eStr kt ++ eStr vt ++ eOptGuid id ++ e32 skipped ++ e32 count ++ rest)) = .error e := by
  refine tag_error cfg n path acc name _ (by decide +kernel) size _ hn fun rec p => ?_
  obtain ⟨c, hc⟩ : ∃ c, count.toNat = c + 1 := by
    have : count.toNat ≠ 0 := fun h => hc (BitVec.eq_of_toNat_eq (by simpa using h))
    exact ⟨count.toNat - 1, by omega⟩
  have h1 : ∃ e, rMapEntry cfg.allowNan rec kt.val (getTypeOr cfg (p ++ P ".Key") (P "Guid")) vt.val
      (getTypeOr cfg (p ++ P ".Value") (P "StructProperty")) (p ++ P ".Key") (p ++ P ".Value") rest = .error e := by
    unfold rMapEntry
    rcases hty with h | h
    · obtain ⟨e, he⟩ := propValue_unknown cfg.allowNan rec kt.val (getTypeOr cfg (p ++ P ".Key") (P "Guid")) (p ++ P ".Key") h rest
      exact ⟨e, r_bind_error he _⟩
    · cases hk : rPropValue cfg.allowNan rec kt.val (getTypeOr cfg (p ++ P ".Key") (P "Guid")) (p ++ P ".Key") rest with
      | error e => exact ⟨e, r_bind_error hk _⟩
      | ok q =>
        obtain ⟨e, he⟩ := propValue_unknown cfg.allowNan rec vt.val (getTypeOr cfg (p ++ P ".Value") (P "StructProperty"))
          (p ++ P ".Value") h q.2
        exact ⟨e, by rw [r_bind_ok hk, r_bind_error he]⟩
  obtain ⟨e, he⟩ := h1
  have : rMap cfg rec p (eStr kt ++ eStr vt ++ eOptGuid id ++ e32 skipped ++ e32 count ++ rest) = .error e := by
    simp only [rMap, List.append_assoc, rd, hc, rRepeat, he]
  refine ⟨e, ?_⟩
  simp only [rPlain, rPlainBody, P_inj, String.reduceEq, if_false, if_true]
  exact r_bind_error this _

theorem plain_type {cfg : Cfg} {rec : PyStr → R Val} {ty path : PyStr} {size : Nat} {s s' : Bytes} {x : Val}
    (h : rPlain cfg rec ty size path s = .ok (x, s')) :
    ∃ t ∈ propTypes, ty = P t ∧ x.get (P "type") = .ok (.str (P t)) := by
  obtain ⟨v, s1, h1, h2⟩ := r_bind_inv h
  have hx := get_set (rLift_inv h2).1
  have ht : ∃ t ∈ propTypes, ty = P t := by
    refine Classical.byContradiction fun hc => ?_
    have hty : ∀ t ∈ propTypes, ty ≠ P t := fun t ht e => hc ⟨t, ht, e⟩
    simp only [propTypes, List.forall_mem_cons] at hty
    obtain ⟨t1, t2, t3, t4, t5, t6, t7, t8, t9, t10, t11, _⟩ := hty
    simp only [rPlainBody, t1, t2, t3, t4, t5, t6, t7, t8, t9, t10, t11, if_false] at h1
    exact rFail_inv h1
  obtain ⟨t, ht, rfl⟩ := ht
  exact ⟨t, ht, rfl, hx⟩

theorem property_type {cfg : Cfg} {rec : PyStr → R Val} {ty path : PyStr} {size : Nat} {s s' : Bytes} {x : Val}
    (h : rProperty cfg rec ty size path s = .ok (x, s')) :
    ∃ t ∈ propTypes, x.get (P "type") = .ok (.str (P t)) := by
  unfold rProperty at h
  cases hc : cfg.custom path with
  | none =>
    rw [hc] at h
    obtain ⟨t, h1, -, h2⟩ := plain_type h
    exact ⟨t, h1, h2⟩
  | some c =>
    rw [hc] at h
    simp only at h
    by_cases ht : ty = P c.propType
    · rw [if_pos ht] at h
      obtain ⟨v, s1, h1, h⟩ := r_bind_inv h
      obtain ⟨v2, s2, h2, h⟩ := r_bind_inv h
      obtain ⟨v3, s3, h3, h⟩ := r_bind_inv h
      obtain ⟨t, h4, rfl, -⟩ := plain_type h1
      exact ⟨t, h4, get_set (rLift_inv h).1⟩
    · rw [if_neg ht] at h
      exact (rFail_inv h).elim

/-- C09: what was read has only supported types. -/
theorem C09_read_types (cfg : Cfg) : ∀ (n : Nat) (path : PyStr) (acc : Dict) (s : Bytes) (v : Val) (s' : Bytes),
    (∀ q ∈ acc, ∃ t ∈ propTypes, q.2.get (P "type") = .ok (.str (P t))) →
    rPropsLoop cfg n path acc s = .ok (v, s') →
    ∃ d, v = .dict d ∧ ∀ q ∈ d, ∃ t ∈ propTypes, q.2.get (P "type") = .ok (.str (P t)) := by
  intro n
  induction n with
  | zero => intro path acc s v s' _ h; cases h
  | succ n ih =>
    intro path acc s v s' ha h
    rw [rPropsLoop] at h
    obtain ⟨name, s1, -, h⟩ := r_bind_inv h
    by_cases hn : name = P "None"
    · rw [if_pos hn] at h
      obtain ⟨rfl, -⟩ := r_pure_inv h
      exact ⟨acc, rfl, ha⟩
    · rw [if_neg hn] at h
      obtain ⟨ty, s2, -, h⟩ := r_bind_inv h
      obtain ⟨size, s3, -, h⟩ := r_bind_inv h
      obtain ⟨x, s4, hx, h⟩ := r_bind_inv h
      refine ih path _ s4 v s' ?_ h
      intro q hq
      rcases mem_dset hq with hq | rfl
      · exact ha q hq
      · exact property_type hx

/-! ### writing -/

theorem raises_iff {x : W} : (∃ e, x = .error e) ↔ ¬ ∃ b, Wrote x b := by
  cases x with
  | error e => simp [wrote_error]
  | ok q => obtain ⟨b, v⟩ := q; simp [wrote_ok]

theorem wroteD_mem {f : Val → W} {k : PyStr} {p : Val} : ∀ {d : Dict} {b : Bytes}, WroteD f d b → (k, p) ∈ d →
    ∃ c, Wrote (f p) c
  | [], _, _, h => by cases h
  | (k', p') :: t, b, hw, h => by
    obtain ⟨kb, c, d, -, h1, h2, -⟩ := wroteD_cons.1 hw
    rcases List.mem_cons.1 h with h | h
    · cases h; exact ⟨c, h1⟩
    · exact wroteD_mem h2 h

/-- Writing a property list writes each of its properties. -/
theorem wrote_mem {n : Nat} {cfg : Cfg} {d : Dict} {b : Bytes} (h : Wrote (wProps n cfg (.dict d)) b) {k : PyStr} {p : Val}
    (hm : (k, p) ∈ d) : ∃ n', n = n' + 1 ∧ ∃ ty size c, p.get (P "type") = .ok ty ∧
      WroteP (wInner cfg (wProps n' cfg) (bytesOf n') ty p) size c := by
  cases n with
  | zero => exact (wrote_error.1 h).elim
  | succ n =>
    rw [wProps_succ] at h
    obtain ⟨c, nb, h1, -, -⟩ := wrote_body.1 h
    obtain ⟨c, h2⟩ := wroteD_mem h1 hm
    obtain ⟨ty, _, size, buf, _, h3, -, h4, -, -⟩ := wrote_property.1 h2
    exact ⟨n, rfl, ty, size, buf, h3, h4⟩

theorem isS_ne {v : Val} {t : String} (h : v ≠ .str (P t)) : v.isS t = false := by
  cases v <;> simp only [Val.isS, decide_eq_false_iff_not]
  exact fun e => h (by rw [e])

/-- C09: a property of unknown type is not written. -/
theorem C09_write_type (cfg : Cfg) (n : Nat) (ps : Dict) (k : PyStr) (p ty : Val) (hm : (k, p) ∈ ps)
    (ht : p.get (P "type") = .ok ty) (hty : ∀ t ∈ propTypes, ty ≠ .str (P t)) :
    ∃ e, wProps n cfg (.dict ps) = .error e := by
  refine raises_iff.2 fun ⟨b, h⟩ => ?_
  obtain ⟨n, rfl, ty', size, c, h1, h2⟩ := wrote_mem h hm
  cases ht.symm.trans h1
  have hf := fun t ht => isS_ne (hty t ht)
  simp only [propTypes, List.forall_mem_cons] at hf
  obtain ⟨t1, t2, t3, t4, t5, t6, t7, t8, t9, t10, t11, _⟩ := hf
  have hp : ∀ q, wPlainInner (wProps n cfg) ty q = .error (.exc "Unknown property type") := by
    intro q
    simp only [wPlainInner, t1, t2, t3, t4, t5, t6, t7, t8, t9, t10, t11, Bool.false_eq_true, if_false]
  rcases wroteP_inner.1 h2 with ⟨_, h⟩ | ⟨_, _, _, q, _, _, _, _, h⟩ <;>
  · rw [hp] at h; exact wroteP_error.1 h

/-- C09: a property with a custom type that is not registered is not written. -/
theorem C09_write_custom (cfg : Cfg) (n : Nat) (ps : Dict) (k : PyStr) (p c : Val) (hm : (k, p) ∈ ps)
    (hc : p.get (P "custom_type") = .ok c) (h : ∀ path, c = .str path → cfg.custom path = none) :
    ∃ e, wProps n cfg (.dict ps) = .error e := by
  refine raises_iff.2 fun ⟨b, hb⟩ => ?_
  obtain ⟨n, rfl, ty, size, d, h1, h2⟩ := wrote_mem hb hm
  obtain ⟨q, rfl⟩ := get_dict_of_ok hc
  have hq : (Val.dict q).contains (P "custom_type") = .ok true := by
    simp only [Val.get] at hc
    rw [contains_dict]
    split at hc
    · rename_i hv; rw [hv]; rfl
    · cases hc
  rcases wroteP_inner.1 h2 with ⟨h3, _⟩ | ⟨_, p, cc, _, h3, h4, _⟩
  · rw [hq] at h3; cases h3
  · rw [hc] at h3
    cases h3
    rw [h p rfl] at h4
    cases h4

/-- The property is not decoded by a custom property. -/
def Undecoded (p : Val) : Prop := p.contains (P "custom_type") = .ok false

theorem plain_of_undecoded {cfg : Cfg} {r : Val → W} {wp : Val → Except Err Bytes} {ty p : Val} {size : Nat} {c : Bytes}
    (hu : Undecoded p) (h : WroteP (wInner cfg r wp ty p) size c) : WroteP (wPlainInner r ty p) size c := by
  rcases wroteP_inner.1 h with ⟨_, h⟩ | ⟨h3, _⟩
  · exact h
  · rw [hu] at h3; cases h3

theorem array_inv {r : Val → W} {p : Val} {size : Nat} {c : Bytes}
    (h : WroteP (wPlainInner r (.str (P "ArrayProperty")) p) size c) :
    ∃ at_ v d, p.get (P "array_type") = .ok at_ ∧ p.get (P "value") = .ok v ∧ Wrote (wArrayProperty r at_ v) d := by
  simp only [wPlainInner, isS_P, String.reduceEq, decide_false, decide_true, Bool.false_eq_true, ↓reduceIte] at h
  obtain ⟨_, d, -, h1, -, -⟩ := wroteP_sized.1 h
  cases ha : p.get (P "array_type") with
  | error e => rw [ha] at h1; exact (wrote_error.1 h1).elim
  | ok at_ =>
    rw [ha] at h1
    obtain ⟨v, h2, h3⟩ := wrote_on.1 h1
    exact ⟨at_, v, d, rfl, h2, h3⟩

theorem map_inv {r : Val → W} {p : Val} {size : Nat} {c : Bytes}
    (h : WroteP (wPlainInner r (.str (P "MapProperty")) p) size c) :
    ∃ v l d, p.get (P "value") = .ok v ∧ v.iterItems = .ok l ∧ WroteL (wMapEntry r p) l d := by
  simp only [wPlainInner, isS_P, String.reduceEq, decide_false, decide_true, Bool.false_eq_true, ↓reduceIte, wMapBody] at h
  obtain ⟨_, d, -, h1, -, -⟩ := wroteP_sized.1 h
  obtain ⟨_, d, -, h1, -⟩ := wrote_then.1 h1
  obtain ⟨v, h2, h3⟩ := wrote_on.1 h1
  obtain ⟨l, h4, h5⟩ := wrote_iter.1 h3
  exact ⟨v, l, d, h2, h4, h5⟩

theorem struct_inv {r : Val → W} {p : Val} {size : Nat} {c : Bytes}
    (h : WroteP (wPlainInner r (.str (P "StructProperty")) p) size c) :
    ∃ st v d, p.get (P "struct_type") = .ok st ∧ p.get (P "value") = .ok v ∧ Wrote (wStructValue r st v) d := by
  simp only [wPlainInner, isS_P, String.reduceEq, decide_false, decide_true, Bool.false_eq_true, ↓reduceIte] at h
  obtain ⟨_, d, -, h1, -, -⟩ := wroteP_sized.1 h
  cases ha : p.get (P "struct_type") with
  | error e => rw [ha] at h1; exact (wrote_error.1 h1).elim
  | ok at_ =>
    rw [ha] at h1
    obtain ⟨v, h2, h3⟩ := wrote_on.1 h1
    exact ⟨at_, v, d, rfl, h2, h3⟩

/-- C09: an array of unsupported element type is not written, if it has an element. -/
theorem C09_write_array (cfg : Cfg) (n : Nat) (ps : Dict) (k : PyStr) (p at_ v a x : Val) (l : List Val) (hm : (k, p) ∈ ps)
    (hu : Undecoded p) (h1 : p.get (P "type") = .ok (.str (P "ArrayProperty"))) (h2 : p.get (P "array_type") = .ok at_)
    (h3 : p.get (P "value") = .ok v) (h4 : v.get (P "values") = .ok a) (h5 : a.seqItems = .ok (x :: l))
    (hty : ∀ t ∈ writeArrayTypes, at_ ≠ .str (P t)) : ∃ e, wProps n cfg (.dict ps) = .error e := by
  refine raises_iff.2 fun ⟨b, hb⟩ => ?_
  obtain ⟨n, rfl, ty, size, d, h6, h7⟩ := wrote_mem hb hm
  cases h1.symm.trans h6
  obtain ⟨at', v', d, h8, h9, h10⟩ := array_inv (plain_of_undecoded hu h7)
  cases h2.symm.trans h8
  cases h3.symm.trans h9
  have hf := fun t ht => isS_ne (hty t ht)
  simp only [writeArrayTypes, List.forall_mem_cons] at hf
  obtain ⟨t1, t2, t3, t4, t5, t6, t7, t8, t9, _⟩ := hf
  simp only [wArrayProperty, t1, Bool.false_eq_true, if_false] at h10
  obtain ⟨_, d, -, h11, -⟩ := wrote_then.1 h10
  have h12 := wrote_keep.1 h11
  simp only [wAt_cons, wAt_nil, h4, wArrayValue, h5, wItems, wArrayElem, t2, t3, t4, t5, t6, t7, t8, t9, Bool.false_eq_true,
    if_false, reduceCtorEq] at h12
  have he : wArrayElem at_ x = .error (.exc "Unknown array type") := by
    simp only [wArrayElem, t2, t3, t4, t5, t6, t7, t8, t9, Bool.false_eq_true, if_false]
  rw [List.map_cons, he] at h12
  cases h12

theorem wPropValue_unknown {r : Val → W} {ty st v : Val} (h : ∀ t ∈ mapTypes, ty ≠ .str (P t)) (b : Bytes) :
    ¬ Wrote (wPropValue r ty st v) b := by
  have hf := fun t ht => isS_ne (h t ht)
  simp only [mapTypes, List.forall_mem_cons] at hf
  obtain ⟨t1, t2, t3, t4, t5, _⟩ := hf
  simp only [wPropValue, t1, t2, t3, t4, t5, Bool.false_eq_true, if_false, wrote_error, not_false_eq_true]

/-- C09: a map whose key or value type is not supported is not written, if it has an entry. -/
theorem C09_write_map (cfg : Cfg) (n : Nat) (ps : Dict) (k : PyStr) (p kt vt v x : Val) (l : List Val) (hm : (k, p) ∈ ps)
    (hu : Undecoded p) (h1 : p.get (P "type") = .ok (.str (P "MapProperty"))) (h2 : p.get (P "key_type") = .ok kt)
    (h3 : p.get (P "value_type") = .ok vt) (h4 : p.get (P "value") = .ok v) (h5 : v.iterItems = .ok (x :: l))
    (hty : (∀ t ∈ mapTypes, kt ≠ .str (P t)) ∨ ∀ t ∈ mapTypes, vt ≠ .str (P t)) :
    ∃ e, wProps n cfg (.dict ps) = .error e := by
  refine raises_iff.2 fun ⟨b, hb⟩ => ?_
  obtain ⟨n, rfl, ty, size, d, h6, h7⟩ := wrote_mem hb hm
  cases h1.symm.trans h6
  obtain ⟨v', l', d, h8, h9, h10⟩ := map_inv (plain_of_undecoded hu h7)
  cases h4.symm.trans h8
  cases h5.symm.trans h9
  obtain ⟨c, _, h11, -, -⟩ := wroteL_cons.1 h10
  obtain ⟨kt', kst, vt', vst, _, _, kb, vb, h12, -, h13, -, -, -, h14, h15, -⟩ := wrote_mapEntry.1 h11
  cases h2.symm.trans h12
  cases h3.symm.trans h13
  rcases hty with h | h
  · exact wPropValue_unknown h _ h14
  · exact wPropValue_unknown h _ h15

/-- The struct type is not one of those with a fixed layout, so the contents are a property list. -/
def IsList (st : Val) : Prop := ∀ t ∈ fixedStructs, st ≠ .str (P t)

/-- The property list `w` occurs in the property list `v`: as the contents of a struct, of an
element of an array of structs, or of a key or value of a map. -/
inductive Inside : Val → Val → Prop
  | here (v : Val) : Inside v v
  | struct {ps : Dict} {k : PyStr} {p st v w : Val} (hm : (k, p) ∈ ps) (hu : Undecoded p)
      (h1 : p.get (P "type") = .ok (.str (P "StructProperty"))) (h2 : p.get (P "struct_type") = .ok st) (h3 : IsList st)
      (h4 : p.get (P "value") = .ok v) (h : Inside v w) : Inside (.dict ps) w
  | array {ps : Dict} {k : PyStr} {p a st xs x w : Val} {l : List Val} (hm : (k, p) ∈ ps) (hu : Undecoded p)
      (h1 : p.get (P "type") = .ok (.str (P "ArrayProperty")))
      (h2 : p.get (P "array_type") = .ok (.str (P "StructProperty"))) (h3 : p.get (P "value") = .ok a)
      (h4 : a.get (P "type_name") = .ok st) (h5 : IsList st) (h6 : a.get (P "values") = .ok xs)
      (h7 : xs.seqItems = .ok l) (h8 : x ∈ l) (h : Inside x w) : Inside (.dict ps) w
  | key {ps : Dict} {k : PyStr} {p st a e x w : Val} {l : List Val} (hm : (k, p) ∈ ps) (hu : Undecoded p)
      (h1 : p.get (P "type") = .ok (.str (P "MapProperty")))
      (h2 : p.get (P "key_type") = .ok (.str (P "StructProperty"))) (h3 : p.get (P "key_struct_type") = .ok st)
      (h4 : IsList st) (h5 : p.get (P "value") = .ok a) (h6 : a.iterItems = .ok l) (h7 : e ∈ l)
      (h8 : e.get (P "key") = .ok x) (h : Inside x w) : Inside (.dict ps) w
  | value {ps : Dict} {k : PyStr} {p st a e x w : Val} {l : List Val} (hm : (k, p) ∈ ps) (hu : Undecoded p)
      (h1 : p.get (P "type") = .ok (.str (P "MapProperty")))
      (h2 : p.get (P "value_type") = .ok (.str (P "StructProperty"))) (h3 : p.get (P "value_struct_type") = .ok st)
      (h4 : IsList st) (h5 : p.get (P "value") = .ok a) (h6 : a.iterItems = .ok l) (h7 : e ∈ l)
      (h8 : e.get (P "value") = .ok x) (h : Inside x w) : Inside (.dict ps) w

theorem wStruct_list {r : Val → W} {st v : Val} (h : IsList st) : wStructValue r st v = r v := by
  have hf := fun t ht => isS_ne (h t ht)
  simp only [fixedStructs, List.forall_mem_cons] at hf
  obtain ⟨t1, t2, t3, t4, t5, _⟩ := hf
  simp only [wStructValue, t1, t2, t3, t4, t5, Bool.false_eq_true, if_false]

theorem wroteL_mem {f : Val → W} {x : Val} : ∀ {l : List Val} {b : Bytes}, WroteL f l b → x ∈ l → ∃ c, Wrote (f x) c
  | [], _, _, h => by cases h
  | a :: t, b, hw, h => by
    obtain ⟨c, d, h1, h2, -⟩ := wroteL_cons.1 hw
    rcases List.mem_cons.1 h with h | h
    · cases h; exact ⟨c, h1⟩
    · exact wroteL_mem h2 h

/-- C09: if a property list that occurs anywhere in another one cannot be written, neither
can the other. -/
theorem C09_write_inside (cfg : Cfg) {v w : Val} (hi : Inside v w) (h : ∀ n, ∃ e, wProps n cfg w = .error e) :
    ∀ n, ∃ e, wProps n cfg v = .error e := by
  induction hi with
  | here v => exact h
  | @struct ps k p st v w hm hu h1 h2 h3 h4 _ ih =>
    intro n
    refine raises_iff.2 fun ⟨b, hb⟩ => ?_
    obtain ⟨n, rfl, ty, size, d, h6, h7⟩ := wrote_mem hb hm
    cases h1.symm.trans h6
    obtain ⟨st', v', d, h8, h9, h10⟩ := struct_inv (plain_of_undecoded hu h7)
    cases h2.symm.trans h8
    cases h4.symm.trans h9
    rw [wStruct_list h3] at h10
    exact raises_iff.1 (ih h n) ⟨_, h10⟩
  | @array ps k p a st xs x w l hm hu h1 h2 h3 h4 h5 h6 h7 h8 _ ih =>
    intro n
    refine raises_iff.2 fun ⟨b, hb⟩ => ?_
    obtain ⟨n, rfl, ty, size, d, h9, h10⟩ := wrote_mem hb hm
    cases h1.symm.trans h9
    obtain ⟨at', v', d, h11, h12, h13⟩ := array_inv (plain_of_undecoded hu h10)
    cases h2.symm.trans h11
    cases h3.symm.trans h12
    simp only [wArrayProperty, isS_P, decide_true, if_true] at h13
    obtain ⟨_, d, -, h14, -⟩ := wrote_then.1 h13
    obtain ⟨_, d, -, h14, -⟩ := wrote_then.1 h14
    cases ho : wOn a "values" (wSeq (wStructElem (wProps n cfg) a)) with
    | error e => rw [ho] at h14; exact wrote_error.1 h14
    | ok q =>
      obtain ⟨xs', h15, h16⟩ := wrote_on.1 ⟨q.2, ho⟩
      cases h6.symm.trans h15
      obtain ⟨l', h17, h18⟩ := wrote_seq.1 h16
      cases h7.symm.trans h17
      obtain ⟨c, h19⟩ := wroteL_mem h18 h8
      simp only [wStructElem, h4, wStruct_list h5] at h19
      exact raises_iff.1 (ih h n) ⟨_, h19⟩
  | @key ps k p st a e x w l hm hu h1 h2 h3 h4 h5 h6 h7 h8 _ ih =>
    intro n
    refine raises_iff.2 fun ⟨b, hb⟩ => ?_
    obtain ⟨n, rfl, ty, size, d, h9, h10⟩ := wrote_mem hb hm
    cases h1.symm.trans h9
    obtain ⟨v', l', d, h11, h12, h13⟩ := map_inv (plain_of_undecoded hu h10)
    cases h5.symm.trans h11
    cases h6.symm.trans h12
    obtain ⟨c, h14⟩ := wroteL_mem h13 h7
    obtain ⟨kt', kst', vt', vst, kk, vv, kb, vb, h15, h16, -, -, h17, -, h18, -, -⟩ := wrote_mapEntry.1 h14
    cases h2.symm.trans h15
    cases h3.symm.trans h16
    cases h8.symm.trans h17
    simp only [wPropValue, isS_P, decide_true, if_true, wStruct_list h4] at h18
    exact raises_iff.1 (ih h n) ⟨_, h18⟩
  | @value ps k p st a e x w l hm hu h1 h2 h3 h4 h5 h6 h7 h8 _ ih =>
    intro n
    refine raises_iff.2 fun ⟨b, hb⟩ => ?_
    obtain ⟨n, rfl, ty, size, d, h9, h10⟩ := wrote_mem hb hm
    cases h1.symm.trans h9
    obtain ⟨v', l', d, h11, h12, h13⟩ := map_inv (plain_of_undecoded hu h10)
    cases h5.symm.trans h11
    cases h6.symm.trans h12
    obtain ⟨c, h14⟩ := wroteL_mem h13 h7
    obtain ⟨kt', kst', vt', vst, kk, vv, kb, vb, -, -, h15, h16, -, h17, -, h18, -⟩ := wrote_mapEntry.1 h14
    cases h2.symm.trans h15
    cases h3.symm.trans h16
    cases h8.symm.trans h17
    simp only [wPropValue, isS_P, decide_true, if_true, wStruct_list h4] at h18
    exact raises_iff.1 (ih h n) ⟨_, h18⟩

/-- C09: a file that cannot be written because of its property list is not written at all. -/
theorem C09_write_file (cfg : Cfg) (g : Gvas) (h : ∀ n, ∃ e, wProps n cfg g.properties = .error e) :
    ∃ e, g.write cfg = .error e := by
  unfold Gvas.write Gvas.writeF
  cases g.header.write with
  | error e => exact ⟨e, rfl⟩
  | ok hb =>
    obtain ⟨e, he⟩ := h (g.properties.rank + 1)
    simp only [he]
    exact ⟨e, rfl⟩

/-! ### examples -/

example : ∃ e, gvasRead fullCfg (sampleHeader.enc ++ encFirst sampleProps ++ eStr (str "New") ++ eStr (str "UInt16Property") ++
    [2, 0, 0, 0, 0, 0, 0, 0, 0, 5, 0]) = .error e :=
  C09_read_file (m := jsonMode) fullCfg rfl (fun _ => palCfg_json _ _) sampleHeader sampleProps sampleFile_wf.1.2 _ _
    (by decide +kernel) (by decide +kernel) (by decide +kernel) _ (by decide +kernel)

-- an empty array of integers: the reader has no case for that element type
example (cfg : Cfg) (n : Nat) : ∃ e, rPropsLoop cfg n [] [] (eTag (str "A") "ArrayProperty" 4 ++
    (eStr (str "IntProperty") ++ eOptGuid none ++ [0, 0, 0, 0])) = .error e :=
  C09_read_array cfg n [] [] _ (by decide +kernel) _ _ (by decide +kernel) _ _

example (cfg : Cfg) (n : Nat) (rest : Bytes) : ∃ e, rPropsLoop cfg n [] [] (eTag (str "M") "MapProperty" 9 ++
    (eStr (str "NameProperty") ++ eStr (str "FloatProperty") ++ eOptGuid none ++ e32 0 ++ e32 7 ++ rest)) = .error e :=
  C09_read_map cfg n [] [] _ (by decide +kernel) _ _ _ (.inr (by decide +kernel)) _ _ _ (by decide +kernel) _

-- reading the sample gives only supported types
example : ∃ v s', rPropsLoop fullCfg 10000 [] [] (encProps sampleProps) = .ok (v, s') :=
  ⟨_, _, by
    have h := props_read (cfg := fullCfg) (m := jsonMode) rfl sampleProps _
      (readsCustom_canon rfl (fun _ => palCfg_json _ _)) [] 10000 [] [] sampleFile_wf.1.2 (by decide +kernel)
      (by decide +kernel)
    rwa [List.append_nil] at h⟩

example (cfg : Cfg) (n : Nat) : ∃ e, wProps n cfg (.dict [(P "A", vDict [("id", .none), ("value", .int 1),
    ("type", .str (P "UInt16Property"))])]) = .error e :=
  C09_write_type cfg n _ _ _ _ List.mem_cons_self (by rfl) (by
    simp only [propTypes, List.forall_mem_cons, ne_eq, Val.str.injEq, P_inj, String.reduceEq,
        not_false_eq_true, true_and, List.not_mem_nil, false_imp_iff, implies_true])

example (n : Nat) : ∃ e, wProps n { fullCfg with custom := fun _ => none } (.dict [(P "A", vDict [("id", .none),
    ("value", .int 1), ("type", .str (P "IntProperty")), ("custom_type", .str (P ".worldSaveData.Mine"))])]) = .error e :=
  C09_write_custom _ n _ _ _ _ List.mem_cons_self (by rfl) (fun _ _ => rfl)

example (cfg : Cfg) (n : Nat) : ∃ e, wProps n cfg (.dict [(P "M", vDict [("key_type", .str (P "NameProperty")),
    ("value_type", .str (P "FloatProperty")), ("key_struct_type", .none), ("value_struct_type", .none), ("id", .none),
    ("value", .list [vDict [("key", .str (P "k")), ("value", .int 2)]]), ("type", .str (P "MapProperty"))])]) = .error e :=
  C09_write_map cfg n _ _ _ _ _ _ _ _ List.mem_cons_self (by rfl) (by rfl) (by rfl) (by rfl) (by rfl) (by rfl) (.inr (by
    simp only [mapTypes, List.forall_mem_cons, ne_eq, Val.str.injEq, P_inj, String.reduceEq,
        not_false_eq_true, true_and, List.not_mem_nil, false_imp_iff, implies_true]))

/-- A struct holding an array of soft object paths. -/
def badLeaf : Dict := [(P "Paths", vDict [("array_type", .str (P "SoftObjectProperty")), ("id", .none),
  ("value", vDict [("values", .list [.str (P "/Game/X")])]), ("type", .str (P "ArrayProperty"))])]
def badTree : Dict := [(P "Version", vDict [("id", .none), ("value", .int 1), ("type", .str (P "IntProperty"))]),
  (P "S", vDict [("struct_type", .str (P "Refs")), ("struct_id", vGuid sampleGuid), ("id", .none),
    ("value", .dict badLeaf), ("type", .str (P "StructProperty"))])]

example (cfg : Cfg) (n : Nat) : ∃ e, wProps n cfg (.dict badTree) = .error e :=
  C09_write_inside cfg (.struct (List.mem_cons_of_mem _ List.mem_cons_self) (by rfl) (by rfl) (by rfl)
      (by simp only [IsList, fixedStructs, List.forall_mem_cons, ne_eq, Val.str.injEq, P_inj, String.reduceEq,
        not_false_eq_true, true_and, List.not_mem_nil, false_imp_iff, implies_true]) (by rfl) (.here _))
    (fun n => C09_write_array cfg n badLeaf _ _ _ _ _ _ _ List.mem_cons_self (by rfl) (by rfl) (by rfl) (by rfl) (by rfl)
      (by rfl) (by simp only [writeArrayTypes, List.forall_mem_cons, ne_eq, Val.str.injEq, P_inj, String.reduceEq,
        not_false_eq_true, true_and, List.not_mem_nil, false_imp_iff, implies_true])) n

example (cfg : Cfg) (h : Hdr) : ∃ e, Gvas.write { header := h, properties := .dict badTree, trailer := [0, 0, 0, 0] }
    cfg = .error e :=
  C09_write_file cfg _ fun n =>
    C09_write_inside cfg (.struct (List.mem_cons_of_mem _ List.mem_cons_self) (by rfl) (by rfl) (by rfl)
      (by simp only [IsList, fixedStructs, List.forall_mem_cons, ne_eq, Val.str.injEq, P_inj, String.reduceEq,
        not_false_eq_true, true_and, List.not_mem_nil, false_imp_iff, implies_true]) (by rfl) (.here _))
    (fun n => C09_write_array cfg n badLeaf _ _ _ _ _ _ _ List.mem_cons_self (by rfl) (by rfl) (by rfl) (by rfl) (by rfl)
      (by rfl) (by simp only [writeArrayTypes, List.forall_mem_cons, ne_eq, Val.str.injEq, P_inj, String.reduceEq,
        not_false_eq_true, true_and, List.not_mem_nil, false_imp_iff, implies_true])) n

end Pal
