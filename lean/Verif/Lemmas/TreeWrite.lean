import Verif.Lemmas.TreeRead
import Verif.Lemmas.TreeMono
/-
The writer writes what `Spec/Tree.lean` describes.
-/

set_option linter.unusedSimpArgs false

namespace Pal
open Spec

variable {m : Mode}

/-- What writing needs to know about the custom properties. -/
def WritesCustom (cfg B : Cfg) (K : CodecId → Val → Val) (C : CodecId → PropT m → Prop) : Prop :=
  ∀ n c p path, C c p → p.Wf cfg noCustom path → cfg.custom path = some c →
    p.head.length + p.tail.length < n → p.tail.length < 2 ^ 64 → B.custom path = some c ∧
    ∃ v, c.pre (bytesOf n) (vDict (p.entries cfg path (K c (p.val cfg K path)) ++ [("custom_type", .str path)])) = .ok v ∧
      WroteP (wPlainInner (wProps n B) (.str (P p.type)) v) p.tail.length (p.head ++ p.tail)

theorem writesCustom_no (cfg B : Cfg) (K : CodecId → Val → Val) : WritesCustom (m := m) cfg B K noCustom :=
  fun _ _ _ _ h => absurd h id

theorem wU64_nat (n : Nat) (h : n < 2 ^ 64) : wU64 (.int n) = .ok (lit 8 n) := by
  have := wUnsigned_in 8 n (by rwa [show (256 : Nat) ^ 8 = 2 ^ 64 by decide +kernel])
  rw [lit_eq]
  exact this

theorem wU32_nat (n : Nat) (h : n < 2 ^ 32) : wU32 (.int n) = .ok (lit 4 n) := by
  have := wUnsigned_in 4 n (by rwa [show (256 : Nat) ^ 4 = 2 ^ 32 by decide +kernel])
  rw [lit_eq]
  exact this

theorem fstringBytes_lit (s : String) (h : StrOk (P s)) : fstringBytes (P s) = .ok (eLit s) :=
  fstringBytes_str ⟨P s, h⟩

theorem wFString_lit (s : String) (h : StrOk (P s)) : wFString (.str (P s)) = .ok (eLit s) :=
  wFString_str ⟨P s, h⟩

theorem isS_vStr (s : Str) (t : String) : (vStr s).isS t = decide (P t = s.val) := rfl

/-- The optional GUID of a property. -/
def propId : PropT m → Option Guid
  | .struct _ _ id _ | .int id _ | .int64 id _ | .fixed64 id _ | .float id _ | .str id _ | .name id _
  | .enum _ id _ | .bool _ id | .enums id _ | .names id _ | .guids id _ | .bytes id _ | .others id _ | .structs id _ _ _ _ _
  | .map _ _ id _ => id

theorem contains_no (l : List (String × Val)) (k : String) (h : k ∉ l.map Prod.fst) :
    (vDict l).contains (P k) = .ok false := by
  rw [vDict, contains_dict]
  congr 1
  induction l with
  | nil => rfl
  | cons a t ih =>
    simp only [List.map_cons, List.mem_cons, not_or] at h
    simp only [List.map_cons, dget?, P_inj]
    rw [if_neg (Ne.symm h.1)]
    exact ih h.2

theorem get_last (l : List (String × Val)) (k : String) (x : Val) (h : k ∉ l.map Prod.fst) :
    (vDict (l ++ [(k, x)])).get (P k) = .ok x := by
  induction l with
  | nil => simp only [List.nil_append, wr, if_true]
  | cons a t ih =>
    obtain ⟨k', y⟩ := a
    simp only [List.map_cons, List.mem_cons, not_or] at h
    simp only [List.cons_append, wr]
    rw [if_neg (Ne.symm h.1)]
    exact ih h.2

theorem contains_of_get {v x : Val} {k : PyStr} (h : v.get k = .ok x) : v.contains k = .ok true := by
  cases v <;> simp only [Val.get, reduceCtorEq] at h
  case dict d =>
    rw [contains_dict]
    cases hd : dget? d k <;> rw [hd] at h <;> cases h
    rfl

theorem getD_of_get {v x : Val} {k : PyStr} (h : v.get k = .ok x) : v.getD k = .ok x := by
  cases v <;> simp only [Val.get, reduceCtorEq] at h
  case dict d =>
    simp only [Val.getD]
    cases hd : dget? d k <;> rw [hd] at h <;> cases h
    rfl

theorem wId_of {v : Val} {g : Option Guid} (h : v.get (P "id") = .ok (vOptGuid g)) :
    wId v = .ok (eOptGuid g) := by
  simp only [wId, getD_of_get h, wr]

theorem entries_id (cfg : Cfg) (path : PyStr) (x : Val) (p : PropT m) :
    (vDict (p.entries cfg path x)).get (P "id") = .ok (vOptGuid (propId p)) := by
  cases p <;> simp [PropT.entries, propId, wr]

theorem entries_wId (cfg : Cfg) (path : PyStr) (x : Val) (p : PropT m) :
    wId (vDict (p.entries cfg path x)) = .ok (eOptGuid (propId p)) := wId_of (entries_id cfg path x p)

theorem entries_value (cfg : Cfg) (path : PyStr) (x : Val) (p : PropT m) (t : List (String × Val)) :
    (vDict (p.entries cfg path x ++ t)).get (P "value") = .ok x := by
  cases p <;> simp [PropT.entries, wr]

theorem wId_cons (k : String) (x : Val) (t : List (String × Val)) (h : k ≠ "id") :
    wId (vDict ((k, x) :: t)) = wId (vDict t) := by
  simp only [wId, vDict, Val.getD, List.map_cons, dget?, P_inj, h, if_false]
theorem wId_head (g : Option Guid) (t : List (String × Val)) :
    wId (vDict (("id", vOptGuid g) :: t)) = .ok (eOptGuid g) :=
  wId_of (by simp only [wr, if_true])

theorem wLen_list (l : List Val) (h : l.length < 2 ^ 32) : wLen (.list l) = .ok (lit 4 l.length) := by
  simp only [wLen, Val.len, wU32_nat _ h]
theorem wLen_tuple (l : List Val) (h : l.length < 2 ^ 32) : wLen (.tuple l) = .ok (lit 4 l.length) := by
  simp only [wLen, Val.len, wU32_nat _ h]

theorem valSVals_length (cfg : Cfg) (K : CodecId → Val → Val) (path : PyStr) :
    ∀ l : List (SVal m), (valSVals cfg K path l).length = l.length
  | [] => rfl
  | v :: t => by simp [valSVals, valSVals_length cfg K path t]
theorem valEntries_length (cfg : Cfg) (K : CodecId → Val → Val) (path : PyStr) :
    ∀ l : List (MVal m × MVal m), (valEntries cfg K path l).length = l.length
  | [] => rfl
  | (k, v) :: t => by simp [valEntries, valEntries_length cfg K path t]

/-- Arrays of strings. -/
theorem wArrayValue_str (t : String) (ht : t = "EnumProperty" ∨ t = "NameProperty") (l : List Str) :
    wArrayValue (.str (P t)) (.list (l.map vStr)) = .ok (l.flatMap eStr) := by
  simp only [wArrayValue, Val.seqItems]
  apply wItems_enc
  intro s
  rcases ht with rfl | rfl <;>
  simp only [wArrayElem, isS_P, String.reduceEq, decide_false, decide_true, Bool.false_eq_true, ↓reduceIte, wr]

theorem wArrayValue_bytes (b : Bytes) :
    wArrayValue (.str (P "ByteProperty")) (vBytesT b) = .ok b := by
  simp only [wArrayValue, vBytesT, Val.seqItems]
  have h : ∀ x : UInt8, wArrayElem (.str (P "ByteProperty")) (.int x.toNat) = .ok [x] := by
    intro x
    simp only [wArrayElem, isS_P, String.reduceEq, decide_false, decide_true, Bool.false_eq_true, ↓reduceIte]
    have := wByte_v (BitVec.ofNat 8 x.toNat)
    have h2 := x.toNat_lt
    simp only [wByte, byteOf, Val.asInt?]
    rw [if_pos (by omega)]
    simp
  rw [wItems_enc (v := fun x : UInt8 => Val.int x.toNat) (e := fun x => [x]) h]
  congr 1
  induction b with
  | nil => rfl
  | cons a t ih => simp [List.flatMap_cons, ih]

theorem wArrayProperty_plain (r : Val → W) (t : String) (ht : t ≠ "StructProperty") (x : Val) (n : Nat) (b : Bytes)
    (h1 : wLen x = .ok (lit 4 n)) (h2 : wArrayValue (.str (P t)) x = .ok b) :
    Wrote (wArrayProperty r (.str (P t)) (vDict [("values", x)])) (lit 4 n ++ b) := by
  unfold wArrayProperty
  refine wrote_then.2 ⟨_, _, by simp only [wr, if_true, h1], ?_, rfl⟩
  rw [isS_P, if_neg (by simp [Ne.symm ht])]
  exact wrote_keep.2 (by simp only [wr, if_true, h2])

theorem wStructElem_v (r : Val → W) (v : Val) (tn : Str) (h : v.get (P "type_name") = .ok (vStr tn)) :
    wStructElem r v = wStructValue r (vStr tn) := by
  funext x
  simp only [wStructElem, h]

theorem fits_enc (r : Val → W) (v : SVal m) (st : PyStr) (cfg : Cfg) (K : CodecId → Val → Val) (path : PyStr)
    (hf : v.Fits st) (h : ∀ ps, v = .props ps → Wrote (r (.dict (valProps cfg K path ps))) (encProps ps)) :
    Wrote (wStructValue r (.str st) (v.val cfg K path)) v.enc := by
  unfold wStructValue
  simp only [isS_str]
  cases v with
  | vector v =>
    simp only [SVal.Fits] at hf
    rw [hf]
    simp only [P_inj, String.reduceEq, decide_false, decide_true, Bool.false_eq_true, ↓reduceIte]
    exact wrote_keep.2 (by simp only [SVal.val, SVal.enc, wr])
  | dateTime v =>
    simp only [SVal.Fits] at hf
    rw [hf]
    simp only [P_inj, String.reduceEq, decide_false, decide_true, Bool.false_eq_true, ↓reduceIte]
    exact wrote_keep.2 (by simp only [SVal.val, SVal.enc, wr])
  | guid v =>
    simp only [SVal.Fits] at hf
    rw [hf]
    simp only [P_inj, String.reduceEq, decide_false, decide_true, Bool.false_eq_true, ↓reduceIte]
    exact wrote_keep.2 (by simp only [SVal.val, SVal.enc, wr])
  | quat v =>
    simp only [SVal.Fits] at hf
    rw [hf]
    simp only [P_inj, String.reduceEq, decide_false, decide_true, Bool.false_eq_true, ↓reduceIte]
    exact wrote_keep.2 (by simp only [SVal.val, SVal.enc, wr])
  | color x y z w =>
    simp only [SVal.Fits] at hf
    rw [hf]
    simp only [P_inj, String.reduceEq, decide_false, decide_true, Bool.false_eq_true, ↓reduceIte]
    exact wrote_keep.2 (by simp [SVal.val, SVal.enc, wr])
  | props ps =>
    simp only [SVal.Fits, fixedStructs, List.forall_mem_cons] at hf
    obtain ⟨h1, h2, h3, h4, h5, _⟩ := hf
    simp only [Ne.symm h1, Ne.symm h2, Ne.symm h3, Ne.symm h4, Ne.symm h5, decide_false, Bool.false_eq_true, ↓reduceIte]
    exact h ps rfl

/-- A custom property is written by its encoder, any other by the plain writer. -/
theorem property_write {cfg B : Cfg} {K : CodecId → Val → Val} {C : CodecId → PropT m → Prop}
    (hK : WritesCustom cfg B K C) {n : Nat} {p : PropT m} {path : PyStr}
    (hn : p.head.length + p.tail.length < n) (hn64 : p.tail.length < 2 ^ 64)
    (hw : match cfg.custom path with
        | none => p.Wf cfg C path
        | some c => p.type = c.propType ∧ C c p ∧ p.Wf cfg noCustom path)
    (h : cfg.custom path = none → WroteP (wPlainInner (wProps n B) (.str (P p.type))
        (vDict (p.entries cfg path (p.val cfg K path)))) p.tail.length (p.head ++ p.tail)) :
    Wrote (wProperty B (wProps n B) (bytesOf n) (showProp cfg K path p (p.val cfg K path))) p.enc := by
  have key : ∀ v, v.get (P "type") = .ok (.str (P p.type)) →
      WroteP (wInner B (wProps n B) (bytesOf n) (.str (P p.type)) v) p.tail.length (p.head ++ p.tail) →
      Wrote (wProperty B (wProps n B) (bytesOf n) v) p.enc := by
    intro v h1 h2
    refine wrote_property.2 ⟨_, _, _, _, _, h1, wFString_lit _ (type_strOk p), h2, wU64_nat _ hn64, ?_⟩
    simp [PropT.enc]
  have hne : "custom_type" ∉ (p.entries cfg path (p.val cfg K path)).map Prod.fst := custom_not_key cfg path _ p
  unfold showProp
  cases hc : cfg.custom path with
  | none =>
    apply key
    · have := get_type cfg path (p.val cfg K path) p []
      rwa [List.append_nil] at this
    · refine wroteP_inner.2 (.inl ⟨?_, h hc⟩)
      exact contains_no _ _ hne
  | some c =>
    rw [hc] at hw
    obtain ⟨h1, h2, h3⟩ := hw
    obtain ⟨h4, v, h5, h6⟩ := hK n c p path h2 h3 hc hn hn64
    apply key
    · exact get_type cfg path _ p _
    · refine wroteP_inner.2 (.inr ⟨?_, path, c, v, ?_, h4, ?_, h5, h6⟩)
      · exact contains_of_get (get_last _ _ _ (custom_not_key cfg path _ p))
      · exact get_last _ _ _ (custom_not_key cfg path _ p)
      · rw [h1, isS_P]; simp

theorem array_write (at_ : String) (id : Option Guid) (x : Val) (b : Bytes) {r : Val → W} (p : PropT m) {l}
    (hat : StrOk (P at_)) (hty : p.type = "ArrayProperty")
    (hl : l = [("array_type", .str (P at_)), ("id", vOptGuid id), ("value", x), ("type", .str (P "ArrayProperty"))])
    (hh : p.head = eLit at_ ++ eOptGuid id) (ht : p.tail = b)
    (h3 : Wrote (wArrayProperty r (.str (P at_)) x) b) :
    WroteP (wPlainInner r (.str (P p.type)) (vDict l)) p.tail.length (p.head ++ p.tail) := by
  subst hl
  rw [hty]
  simp only [wPlainInner, isS_P, String.reduceEq, decide_false, decide_true, Bool.false_eq_true, ↓reduceIte]
  refine wroteP_sized.2 ⟨eLit at_ ++ eOptGuid id, b, ?_, ?_, by rw [ht], by rw [hh, ht]⟩
  · rw [wId_of (g := id) (by simp only [wr, String.reduceEq, if_false, if_true])]
    simp only [wr, String.reduceEq, if_false, if_true, wFString_lit _ hat, List.append_nil]
  · simp only [wr, if_true]
    exact wrote_on.2 ⟨x, by simp only [wr, String.reduceEq, if_false, if_true], h3⟩

theorem structs_write (r : Val → W) (id : Option Guid) (pn pt tn : Str) (gid : Guid) (l : List (SVal m)) (cfg : Cfg)
    (K : CodecId → Val → Val) (path : PyStr) (h1 : l.length < 2 ^ 32) (h2 : (encSVals l).length < 2 ^ 64)
    (h : WroteL (wStructValue r (.str tn.val)) (valSVals cfg K (sub path pn) l) (encSVals l)) :
    Wrote (wArrayProperty r (.str (P "StructProperty")) ((PropT.structs id pn pt tn gid l).val cfg K path))
      (PropT.structs id pn pt tn gid l).tail := by
  unfold wArrayProperty
  have e : (PropT.structs id pn pt tn gid l).tail = lit 4 l.length ++ (eStr pn ++ eStr pt ++
      (lit 8 (encSVals l).length ++ eStr tn ++ eGuid gid ++ [0] ++ encSVals l)) := by
    simp only [PropT.tail, List.append_assoc]
  rw [e]
  refine wrote_then.2 ⟨_, _, ?_, ?_, rfl⟩
  · simp only [PropT.val, wr, String.reduceEq, if_false, if_true]
    rw [wLen_list _ (by rw [valSVals_length]; exact h1), valSVals_length]
  · rw [isS_P]
    simp only [decide_true, if_true]
    refine wrote_then.2 ⟨_, _, ?_, ?_, rfl⟩
    · simp only [PropT.val, wr, String.reduceEq, if_false, if_true, List.append_nil]
    · have g : ((PropT.structs id pn pt tn gid l).val cfg K path).get (P "type_name") = .ok (vStr tn) := by
        simp only [PropT.val, wr, String.reduceEq, if_false, if_true]
      have g2 : ((PropT.structs id pn pt tn gid l).val cfg K path).get (P "values") =
          .ok (.list (valSVals cfg K (sub path pn) l)) := by
        simp only [PropT.val, wr, String.reduceEq, if_false, if_true]
      rw [wStructElem_v _ _ tn g]
      obtain ⟨v', hv'⟩ := wrote_on.2 ⟨_, g2, wrote_seq.2 ⟨_, rfl, h⟩⟩
      rw [show vStr tn = .str tn.val from rfl, hv']
      refine wrote_then.2 ⟨_, _, ?_, wrote_ok.2 rfl, rfl⟩
      rw [wU64_nat _ h2]
      simp [PropT.val, wr, wU, wUnsigned, Val.asInt?, leBytes]

mutual
theorem sval_write {cfg B : Cfg} {K : CodecId → Val → Val} :
    ∀ (v : SVal m) (C : CodecId → PropT m → Prop) (_ : WritesCustom cfg B K C) (path st : PyStr) (n : Nat)
      (_ : v.Fits st) (_ : v.Wf cfg C path) (_ : v.enc.length < n) (_ : v.enc.length < 2 ^ 64),
    Wrote (wStructValue (wProps n B) (.str st) (v.val cfg K path)) v.enc
  | .vector v, C, hK, path, st, n, hf, hw, hn, hn64 => fits_enc _ _ _ _ _ _ hf (fun _ h => by cases h)
  | .dateTime v, C, hK, path, st, n, hf, hw, hn, hn64 => fits_enc _ _ _ _ _ _ hf (fun _ h => by cases h)
  | .guid v, C, hK, path, st, n, hf, hw, hn, hn64 => fits_enc _ _ _ _ _ _ hf (fun _ h => by cases h)
  | .quat v, C, hK, path, st, n, hf, hw, hn, hn64 => fits_enc _ _ _ _ _ _ hf (fun _ h => by cases h)
  | .color r g b a, C, hK, path, st, n, hf, hw, hn, hn64 => fits_enc _ _ _ _ _ _ hf (fun _ h => by cases h)
  | .props ps, C, hK, path, st, n, hf, hw, hn, hn64 => fits_enc _ _ _ _ _ _ hf (fun ps' h => by
      cases h
      simp only [SVal.Wf] at hw
      simp only [SVal.enc] at hn hn64
      exact props_write ps C hK path n hw.2 hn hn64)
theorem mval_write {cfg B : Cfg} {K : CodecId → Val → Val} :
    ∀ (v : MVal m) (C : CodecId → PropT m → Prop) (_ : WritesCustom cfg B K C) (path : PyStr) (kt : Str) (st : PyStr)
      (n : Nat) (_ : kt.val = P v.type) (_ : v.Wf cfg C path st) (_ : v.enc.length < n)
      (_ : v.enc.length < 2 ^ 64),
    Wrote (wPropValue (wProps n B) (vStr kt) (vStructType kt st) (v.val cfg K path)) v.enc
  | .struct s, C, hK, path, kt, st, n, hk, hw, hn, hn64 => by
    simp only [MVal.type] at hk
    simp only [MVal.Wf] at hw
    simp only [MVal.enc] at hn hn64
    simp only [wPropValue, vStructType, hk, isS_vStr, decide_true, ↓reduceIte]
    exact sval_write s C hK path st n hw.1 hw.2 hn hn64
  | .enum s, C, hK, path, kt, st, n, hk, hw, hn, hn64 => by
    simp only [MVal.type] at hk
    simp only [wPropValue, hk, isS_vStr, P_inj, String.reduceEq, decide_false, decide_true, Bool.false_eq_true, ↓reduceIte]
    exact wrote_keep.2 (by simp only [MVal.val, MVal.enc, wr])
  | .name s, C, hK, path, kt, st, n, hk, hw, hn, hn64 => by
    simp only [MVal.type] at hk
    simp only [wPropValue, hk, isS_vStr, P_inj, String.reduceEq, decide_false, decide_true, Bool.false_eq_true, ↓reduceIte]
    exact wrote_keep.2 (by simp only [MVal.val, MVal.enc, wr])
  | .int s, C, hK, path, kt, st, n, hk, hw, hn, hn64 => by
    simp only [MVal.type] at hk
    simp only [wPropValue, hk, isS_vStr, P_inj, String.reduceEq, decide_false, decide_true, Bool.false_eq_true, ↓reduceIte]
    exact wrote_keep.2 (by simp only [MVal.val, MVal.enc, wr])
  | .bool s, C, hK, path, kt, st, n, hk, hw, hn, hn64 => by
    simp only [MVal.type] at hk
    simp only [wPropValue, hk, isS_vStr, P_inj, String.reduceEq, decide_false, decide_true, Bool.false_eq_true, ↓reduceIte]
    exact wrote_keep.2 (by simp only [MVal.val, MVal.enc, wr])
theorem prop_write {cfg B : Cfg} {K : CodecId → Val → Val} :
    ∀ (p : PropT m) (C : CodecId → PropT m → Prop) (_ : WritesCustom cfg B K C) (path : PyStr) (n : Nat)
      (_ : p.Wf cfg C path) (_ : p.tail.length < n) (_ : p.tail.length < 2 ^ 64),
    WroteP (wPlainInner (wProps n B) (.str (P p.type)) (vDict (p.entries cfg path (p.val cfg K path)))) p.tail.length
      (p.head ++ p.tail)
  | .struct st sid id v, C, hK, path, n, hw, hn, hn64 => by
    simp only [PropT.Wf] at hw
    simp only [PropT.tail] at hn hn64
    have ih := sval_write v C hK path st.val n hw.1 hw.2 hn hn64
    simp only [wPlainInner, PropT.type, isS_P, String.reduceEq, decide_false, decide_true, Bool.false_eq_true, ↓reduceIte]
    refine wroteP_sized.2 ⟨_, _, ?_, ?_, rfl, rfl⟩
    · rw [entries_wId]
      simp [PropT.entries, PropT.head, propId, wr]
    · have h1 : (vDict (PropT.entries cfg path (v.val cfg K path) (.struct st sid id v))).get (P "struct_type") =
          .ok (vStr st) := by simp only [PropT.entries, wr, if_true]
      simp only [PropT.val, h1]
      exact wrote_on.2 ⟨_, by simp [PropT.entries, wr], ih⟩
  | .int id x, C, hK, path, n, hw, hn, hn64 => by
    simp only [wPlainInner, PropT.type, isS_P, String.reduceEq, decide_false, decide_true, Bool.false_eq_true, ↓reduceIte]
    refine wroteP_const.2 ⟨?_, lit_length _ _⟩
    rw [entries_wId]
    simp [PropT.entries, PropT.head, PropT.tail, PropT.val, propId, wr]
  | .int64 id x, C, hK, path, n, hw, hn, hn64 => by
    simp only [wPlainInner, PropT.type, isS_P, String.reduceEq, decide_false, decide_true, Bool.false_eq_true, ↓reduceIte]
    refine wroteP_const.2 ⟨?_, lit_length _ _⟩
    rw [entries_wId]
    simp [PropT.entries, PropT.head, PropT.tail, PropT.val, propId, wr]
  | .fixed64 id x, C, hK, path, n, hw, hn, hn64 => by
    simp only [wPlainInner, PropT.type, isS_P, String.reduceEq, decide_false, decide_true, Bool.false_eq_true, ↓reduceIte]
    refine wroteP_const.2 ⟨?_, lit_length _ _⟩
    rw [entries_wId]
    simp [PropT.entries, PropT.head, PropT.tail, PropT.val, propId, wr]
  | .float id x, C, hK, path, n, hw, hn, hn64 => by
    simp only [wPlainInner, PropT.type, isS_P, String.reduceEq, decide_false, decide_true, Bool.false_eq_true, ↓reduceIte]
    refine wroteP_const.2 ⟨?_, lit_length _ _⟩
    rw [entries_wId]
    simp [PropT.entries, PropT.head, PropT.tail, PropT.val, propId, wr]
  | .str id x, C, hK, path, n, hw, hn, hn64 => by
    simp only [wPlainInner, PropT.type, isS_P, String.reduceEq, decide_false, decide_true, Bool.false_eq_true, ↓reduceIte]
    refine wroteP_sized.2 ⟨_, _, entries_wId _ _ _ _, wrote_keep.2 ?_, rfl, rfl⟩
    simp [PropT.entries, PropT.head, PropT.tail, PropT.val, propId, wr]
  | .name id x, C, hK, path, n, hw, hn, hn64 => by
    simp only [wPlainInner, PropT.type, isS_P, String.reduceEq, decide_false, decide_true, Bool.false_eq_true, ↓reduceIte]
    refine wroteP_sized.2 ⟨_, _, entries_wId _ _ _ _, wrote_keep.2 ?_, rfl, rfl⟩
    simp [PropT.entries, PropT.head, PropT.tail, PropT.val, propId, wr]
  | .enum et id x, C, hK, path, n, hw, hn, hn64 => by
    simp only [wPlainInner, PropT.type, isS_P, String.reduceEq, decide_false, decide_true, Bool.false_eq_true, ↓reduceIte]
    refine wroteP_sized.2 ⟨_, _, ?_, wrote_keep.2 ?_, rfl, rfl⟩
    · rw [entries_wId]
      simp [PropT.entries, PropT.head, PropT.tail, PropT.val, propId, wr]
    · simp [PropT.entries, PropT.head, PropT.tail, PropT.val, propId, wr]
  | .bool b id, C, hK, path, n, hw, hn, hn64 => by
    simp only [wPlainInner, PropT.type, isS_P, String.reduceEq, decide_false, decide_true, Bool.false_eq_true, ↓reduceIte]
    refine wroteP_const.2 ⟨?_, rfl⟩
    rw [entries_wId]
    simp [PropT.entries, PropT.head, PropT.tail, PropT.val, propId, wr]
  | .enums id l, C, hK, path, n, hw, hn, hn64 => by
    simp only [PropT.Wf] at hw
    refine array_write "EnumProperty" id _ _ _ (by decide +kernel) rfl rfl rfl rfl
      (wArrayProperty_plain _ _ (by decide) _ _ _ (by rw [wLen_list _ (by simpa using hw), List.length_map])
        (wArrayValue_str _ (.inl rfl) l))
  | .names id l, C, hK, path, n, hw, hn, hn64 => by
    simp only [PropT.Wf] at hw
    refine array_write "NameProperty" id _ _ _ (by decide +kernel) rfl rfl rfl rfl
      (wArrayProperty_plain _ _ (by decide) _ _ _ (by rw [wLen_list _ (by simpa using hw), List.length_map])
        (wArrayValue_str _ (.inr rfl) l))
  | .others id o, C, hK, path, n, hw, hn, hn64 => by simp only [PropT.Wf] at hw
  | .guids id l, C, hK, path, n, hw, hn, hn64 => by
    simp only [PropT.Wf] at hw
    subst hw
    refine array_write "Guid" id _ _ _ (by decide +kernel) rfl rfl rfl rfl
      (wArrayProperty_plain _ _ (by decide) _ _ _ (wLen_list _ (by decide)) (by rfl))
  | .bytes id b, C, hK, path, n, hw, hn, hn64 => by
    simp only [PropT.Wf] at hw
    refine array_write "ByteProperty" id _ _ _ (by decide +kernel) rfl rfl rfl rfl
      (wArrayProperty_plain _ _ (by decide) _ _ _ (by rw [vBytesT, wLen_tuple _ (by simpa using hw), List.length_map])
        (wArrayValue_bytes b))
  | .structs id pn pt tn gid l, C, hK, path, n, hw, hn, hn64 => by
    simp only [PropT.Wf] at hw
    simp only [PropT.tail, List.length_append, lit_length] at hn hn64
    have h2 : (encSVals l).length < 2 ^ 64 := by omega
    refine array_write "StructProperty" id _ _ _ (by decide +kernel) rfl rfl rfl rfl
      (structs_write _ id pn pt tn gid l cfg K path hw.1 h2
        (svals_write l C hK (sub path pn) tn.val n hw.2 (by omega) h2))
  | .map kt vt id l, C, hK, path, n, hw, hn, hn64 => by
    simp only [PropT.Wf] at hw
    simp only [PropT.tail, List.length_append, lit_length] at hn hn64
    simp only [wPlainInner, PropT.type, isS_P, String.reduceEq, decide_false, decide_true, Bool.false_eq_true, ↓reduceIte]
    refine wroteP_sized.2 ⟨_, _, ?_, ?_, rfl, rfl⟩
    · rw [entries_wId]
      simp [PropT.entries, PropT.head, propId, wr]
    · unfold wMapBody
      simp only [PropT.tail]
      refine wrote_then.2 ⟨_, _, ?_, ?_, rfl⟩
      · simp only [PropT.entries, wr, String.reduceEq, if_false, if_true, wU32_nat 0 (by decide), PropT.val]
        rw [show (0 : Int) = ((0 : Nat) : Int) from rfl, wU32_nat 0 (by decide),
          wLen_list _ (by rw [valEntries_length]; exact hw.1), valEntries_length]
        simp only [wr, List.append_nil]
      · refine wrote_on.2 ⟨.list (valEntries cfg K path l), by simp [PropT.entries, wr, PropT.val], wrote_iter.2 ⟨_, rfl, ?_⟩⟩
        exact entries_write l C hK path kt vt n _ (by simp [PropT.entries, wr]) (by simp [PropT.entries, wr])
          (by simp [PropT.entries, wr]) (by simp [PropT.entries, wr]) hw.2 (by omega) (by omega)
theorem svals_write {cfg B : Cfg} {K : CodecId → Val → Val} :
    ∀ (l : List (SVal m)) (C : CodecId → PropT m → Prop) (_ : WritesCustom cfg B K C) (path st : PyStr) (n : Nat)
      (_ : wfSVals cfg C path st l) (_ : (encSVals l).length < n) (_ : (encSVals l).length < 2 ^ 64),
    WroteL (wStructValue (wProps n B) (.str st)) (valSVals cfg K path l) (encSVals l)
  | [], C, hK, path, st, n, hw, hn, hn64 => wroteL_nil.2 rfl
  | v :: t, C, hK, path, st, n, hw, hn, hn64 => by
    simp only [wfSVals] at hw
    simp only [encSVals, List.length_append] at hn hn64
    exact wroteL_cons.2 ⟨_, _, sval_write v C hK path st n hw.1 hw.2.1 (by omega) (by omega),
      svals_write t C hK path st n hw.2.2 (by omega) (by omega), rfl⟩
theorem entries_write {cfg B : Cfg} {K : CodecId → Val → Val} :
    ∀ (l : List (MVal m × MVal m)) (C : CodecId → PropT m → Prop) (_ : WritesCustom cfg B K C) (path : PyStr)
      (kt vt : Str) (n : Nat) (prop : Val) (_ : prop.get (P "key_type") = .ok (vStr kt))
      (_ : prop.get (P "key_struct_type") = .ok (vStructType kt (keyStruct cfg path)))
      (_ : prop.get (P "value_type") = .ok (vStr vt))
      (_ : prop.get (P "value_struct_type") = .ok (vStructType vt (valueStruct cfg path)))
      (_ : wfEntries cfg C path kt.val vt.val l) (_ : (encEntries l).length < n)
      (_ : (encEntries l).length < 2 ^ 64),
    WroteL (wMapEntry (wProps n B) prop) (valEntries cfg K path l) (encEntries l)
  | [], C, hK, path, kt, vt, n, prop, g1, g2, g3, g4, hw, hn, hn64 => wroteL_nil.2 rfl
  | (k, v) :: t, C, hK, path, kt, vt, n, prop, g1, g2, g3, g4, hw, hn, hn64 => by
    simp only [wfEntries] at hw
    obtain ⟨h1, h2, h3, h4, h5⟩ := hw
    simp only [encEntries, List.length_append] at hn hn64
    refine wroteL_cons.2 ⟨_, _, wrote_mapEntry.2 ⟨_, _, _, _, _, _, _, _, g1, g2, g3, g4, ?_, ?_,
      mval_write k C hK _ kt _ n h1 h2 (by omega) (by omega), mval_write v C hK _ vt _ n h3 h4 (by omega) (by omega),
      rfl⟩, entries_write t C hK path kt vt n prop g1 g2 g3 g4 h5 (by omega) (by omega), rfl⟩
    · simp only [wr, if_true]
    · simp only [wr, String.reduceEq, if_false, if_true]
theorem props_write {cfg B : Cfg} {K : CodecId → Val → Val} :
    ∀ (ps : List (Str × PropT m)) (C : CodecId → PropT m → Prop) (_ : WritesCustom cfg B K C) (path : PyStr) (n : Nat)
      (_ : wfProps cfg C path ps) (_ : (encProps ps).length < n) (_ : (encProps ps).length < 2 ^ 64),
    Wrote (wProps n B (.dict (valProps cfg K path ps))) (encProps ps)
  | ps, C, hK, path, 0, hw, hn, hn64 => absurd hn (Nat.not_lt_zero _)
  | ps, C, hK, path, n + 1, hw, hn, hn64 => by
    rw [wProps_succ]
    obtain ⟨c, h1, h2⟩ := props_list_write ps C hK path n hw hn hn64
    exact wrote_body.2 ⟨c, _, h1, fstringBytes_lit "None" (by decide +kernel), h2⟩
theorem props_list_write {cfg B : Cfg} {K : CodecId → Val → Val} :
    ∀ (ps : List (Str × PropT m)) (C : CodecId → PropT m → Prop) (_ : WritesCustom cfg B K C) (path : PyStr) (n : Nat)
      (_ : wfProps cfg C path ps) (_ : (encProps ps).length < n + 1) (_ : (encProps ps).length < 2 ^ 64),
    ∃ c, WroteD (wProperty B (wProps n B) (bytesOf n)) (valProps cfg K path ps) c ∧ encProps ps = c ++ eLit "None"
  | [], C, hK, path, n, hw, hn, hn64 => ⟨[], wroteD_nil.2 rfl, rfl⟩
  | (nm, p) :: t, C, hK, path, n, hw, hn, hn64 => by
    simp only [wfProps] at hw
    obtain ⟨h1, h2, h3⟩ := hw
    have hl := eStr_len nm
    simp only [encProps, List.length_append] at hn hn64
    obtain ⟨c, h4, h5⟩ := props_list_write t C hK path n h3 (by omega) (by omega)
    refine ⟨eStr nm ++ p.enc ++ c, wroteD_cons.2 ⟨_, p.enc, _, fstringBytes_str nm, ?_, h4, rfl⟩, ?_⟩
    · refine property_write hK (by omega) (by omega) h2 ?_
      intro hc
      rw [hc] at h2
      exact prop_write p C hK _ n h2 (by omega) (by omega)
    · rw [encProps, h5, PropT.enc]
      simp only [List.append_assoc]
end

end Pal
