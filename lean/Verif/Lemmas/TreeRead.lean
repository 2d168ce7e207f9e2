import Verif.Lemmas.Blobs3
import Verif.Spec.Tree
import Mathlib.Data.List.Nodup
/-
The reader reads what `Spec/Tree.lean` describes.
-/

set_option linter.unusedSimpArgs false

namespace Pal
open Spec

variable {m : Mode}

theorem rFString_eLit (s : String) (h : StrOk (P s)) (rest : Bytes) : rFString (eLit s ++ rest) = .ok (P s, rest) :=
  rFString_eStr ⟨P s, h⟩ rest

theorem type_strOk (p : PropT m) : StrOk (P p.type) := by
  cases p <;> (simp only [PropT.type]; decide +kernel)

theorem eStr_len (s : Str) : 4 ≤ (eStr s).length := by
  unfold eStr encStr
  split
  · simp [lit_length]
  · split <;> simp [lit_length, twos]

theorem eLit_len (s : String) (h : StrOk (P s)) : 4 ≤ (eLit s).length := eStr_len ⟨P s, h⟩

theorem rU64_lit (n : Nat) (h : n < 2 ^ 64) (rest : Bytes) : rU64 (lit 8 n ++ rest) = .ok (n, rest) :=
  rUnsigned_lit 8 n (by rwa [show (256 : Nat) ^ 8 = 2 ^ 64 by decide +kernel]) rest

theorem rU32_lit (n : Nat) (h : n < 2 ^ 32) (rest : Bytes) : rU32 (lit 4 n ++ rest) = .ok (n, rest) :=
  rUnsigned_lit 4 n (by rwa [show (256 : Nat) ^ 4 = 2 ^ 32 by decide +kernel]) rest

theorem rRead_zero (s : Bytes) : rRead 1 ([0] ++ s) = .ok ([0], s) := rfl

/-- What reading needs to know about the custom properties: decoding shows `K`. -/
def ReadsCustom (cfg : Cfg) (K : CodecId → Val → Val) (C : CodecId → PropT m → Prop) : Prop :=
  ∀ n c p path, C c p → p.Wf cfg noCustom path → cfg.custom path = some c →
    p.head.length + p.tail.length < n → p.tail.length < 2 ^ 64 →
    c.post m.an (rPropsLoop cfg n [] []) (vDict (p.entries cfg path (p.val cfg K path))) =
      .ok (vDict (p.entries cfg path (K c (p.val cfg K path))))

theorem readsCustom_no (cfg : Cfg) (K : CodecId → Val → Val) : ReadsCustom (m := m) cfg K noCustom :=
  fun _ _ _ _ h => absurd h id

theorem entries_split (cfg : Cfg) (path : PyStr) (x : Val) (p : PropT m) :
    p.entries cfg path x = (p.entries cfg path x).dropLast ++ [("type", .str (P p.type))] := by
  cases p <;> rfl
theorem type_not_key (cfg : Cfg) (path : PyStr) (x : Val) (p : PropT m) :
    "type" ∉ ((p.entries cfg path x).dropLast).map Prod.fst := by
  cases p <;> simp [PropT.entries]

theorem dset_map (l : List (String × Val)) (k : String) (v : Val) (h : k ∉ l.map Prod.fst) :
    dset (l.map fun kv => (P kv.1, kv.2)) (P k) v = (l ++ [(k, v)]).map fun kv => (P kv.1, kv.2) := by
  rw [dset_new]
  · simp
  · simp only [List.map_map, List.mem_map, not_exists, not_and] at h ⊢
    intro x hx e
    exact h x hx ((P_inj _ _).1 e)

theorem set_vDict_new (l : List (String × Val)) (k : String) (v : Val) (h : k ∉ l.map Prod.fst) :
    (vDict l).set (P k) v = .ok (vDict (l ++ [(k, v)])) := by
  simp only [vDict, Val.set, dset_map l k v h]

theorem dset_same (d : Dict) (k : PyStr) (v : Val) (h : dget? d k = some v) : dset d k v = d := by
  induction d with
  | nil => cases h
  | cons a t ih =>
    obtain ⟨k', v'⟩ := a
    simp only [dget?, dset] at h ⊢
    split
    · rename_i e
      rw [if_pos e] at h
      cases h; rfl
    · rename_i e
      rw [if_neg e] at h
      rw [ih h]

theorem set_same (v : Val) (k : PyStr) (x : Val) (h : v.get k = .ok x) : v.set k x = .ok v := by
  cases v <;> simp only [Val.get, reduceCtorEq] at h
  case dict d =>
    cases hd : dget? d k with
    | none => rw [hd] at h; cases h
    | some y =>
      rw [hd] at h
      cases h
      simp only [Val.set, dset_same d k _ hd]

/-- The entries without the type are what `rPlainBody` returns. -/
theorem rPlain_of {cfg : Cfg} {rec : PyStr → R Val} {p : PropT m} {size : Nat} {path : PyStr} {x : Val} {b rest : Bytes}
    (h : rPlainBody cfg rec (P p.type) size path b = .ok (vDict (p.entries cfg path x).dropLast, rest)) :
    rPlain cfg rec (P p.type) size path b = .ok (vDict (p.entries cfg path x), rest) := by
  rw [rPlain, r_bind_ok h, set_vDict_new _ _ _ (type_not_key cfg path x p), ← entries_split]
  rfl

theorem custom_not_key (cfg : Cfg) (path : PyStr) (x : Val) (p : PropT m) :
    "custom_type" ∉ (p.entries cfg path x).map Prod.fst := by
  cases p <;> simp [PropT.entries]

theorem get_type (cfg : Cfg) (path : PyStr) (x : Val) (p : PropT m) (t : List (String × Val)) :
    (vDict (p.entries cfg path x ++ t)).get (P "type") = .ok (.str (P p.type)) := by
  cases p <;> simp [PropT.entries, PropT.type, wr]

theorem rProperty_of {cfg : Cfg} (hcfg : cfg.allowNan = m.an) {K : CodecId → Val → Val} {C : CodecId → PropT m → Prop}
    (hK : ReadsCustom cfg K C) {n : Nat} {p : PropT m} {path : PyStr} {b rest : Bytes}
    (hn : p.head.length + p.tail.length < n) (hn64 : p.tail.length < 2 ^ 64)
    (hw : match cfg.custom path with
        | none => p.Wf cfg C path
        | some c => p.type = c.propType ∧ C c p ∧ p.Wf cfg noCustom path)
    (h : rPlain cfg (fun q => rPropsLoop cfg n q []) (P p.type) p.tail.length path b =
      .ok (vDict (p.entries cfg path (p.val cfg K path)), rest)) :
    rProperty cfg (fun q => rPropsLoop cfg n q []) (P p.type) p.tail.length path b =
      .ok (showProp cfg K path p (p.val cfg K path), rest) := by
  unfold rProperty showProp
  cases hc : cfg.custom path with
  | none => simp only [h]
  | some c =>
    rw [hc] at hw
    obtain ⟨h1, h2, h3⟩ := hw
    have hp := hK n c p path h2 h3 hc hn hn64
    have hs := set_vDict_new _ "custom_type" (.str path) (custom_not_key cfg path (K c (p.val cfg K path)) p)
    have ht := set_same _ _ _ (get_type cfg path (K c (p.val cfg K path)) p [("custom_type", .str path)])
    simp only [h1, if_true] at h ⊢
    rw [r_bind_ok h]
    simp only [hcfg]
    simp only [rLift, r_bind, hp, hs]
    rw [← h1]
    simp only [rLift, r_bind, hp, hs, ht]

theorem structTypeVal_eq (ty : Str) (st : PyStr) : structTypeVal ty.val st = vStructType ty st := rfl

theorem valProps_keys (cfg : Cfg) (K : CodecId → Val → Val) (path : PyStr) :
    ∀ ps : List (Str × PropT m), (valProps cfg K path ps).map Prod.fst = (ps.map Prod.fst).map Subtype.val
  | [] => rfl
  | (n, p) :: t => by simp [valProps, valProps_keys cfg K path t]

theorem structs_read {cfg : Cfg} (hcfg : cfg.allowNan = m.an) {K : CodecId → Val → Val} (id : Option Guid)
    (pn pt tn : Str) (gid : Guid) (l : List (SVal m)) (path : PyStr) (n : Nat) (rest : Bytes)
    (h1 : l.length < 2 ^ 32) (h2 : (encSVals l).length < 2 ^ 64)
    (ih : rRepeat (rStructValue m.an (fun q => rPropsLoop cfg n q []) tn.val (sub path pn)) l.length
      (encSVals l ++ rest) = .ok (valSVals cfg K (sub path pn) l, rest)) :
    rPlainBody cfg (fun q => rPropsLoop cfg n q []) (P "ArrayProperty") (PropT.structs id pn pt tn gid l).tail.length
      path ((PropT.structs id pn pt tn gid l).head ++ (PropT.structs id pn pt tn gid l).tail ++ rest) =
      .ok (vDict ((PropT.structs id pn pt tn gid l).entries cfg path
        ((PropT.structs id pn pt tn gid l).val cfg K path)).dropLast, rest) := by
  generalize (PropT.structs id pn pt tn gid l).tail.length = size
  have h3 : rArrayProperty cfg.allowNan (fun q => rPropsLoop cfg n q []) (P "StructProperty") size path
      ((PropT.structs id pn pt tn gid l).tail ++ rest) = .ok ((PropT.structs id pn pt tn gid l).val cfg K path, rest) := by
    simp only [PropT.tail, PropT.val, List.append_assoc]
    rw [rArrayProperty, r_bind_ok (rU32_lit _ h1 _), if_pos rfl, r_bind_ok (rFString_eStr _ _),
      r_bind_ok (rFString_eStr _ _), r_bind_ok (rU64_lit _ h2 _), r_bind_ok (rFString_eStr _ _),
      r_bind_ok (rGuid_eGuid _ _), r_bind_ok (rRead_zero _), hcfg]
    exact r_bind_ok ih _
  simp only [rPlainBody, P_inj, String.reduceEq, r_ite, ↓reduceIte, PropT.head, rArrayProp, rd,
      rFString_eLit "StructProperty" (by decide +kernel), h3]
  rfl

mutual
theorem sval_read {cfg : Cfg} (hcfg : cfg.allowNan = m.an) {K : CodecId → Val → Val} :
    ∀ (v : SVal m) (C : CodecId → PropT m → Prop) (_ : ReadsCustom cfg K C) (path st : PyStr) (n : Nat) (rest : Bytes)
      (_ : v.Fits st) (_ : v.Wf cfg C path) (_ : v.enc.length < n) (_ : v.enc.length < 2 ^ 64),
    rStructValue m.an (fun q => rPropsLoop cfg n q []) st path (v.enc ++ rest) = .ok (v.val cfg K path, rest)
  | .vector v, C, hK, path, st, n, rest, hf, hw, hn, hn64 => by
    simp only [SVal.Fits] at hf
    subst hf
    simp only [rStructValue, P_inj, String.reduceEq, r_ite, ↓reduceIte, SVal.enc, SVal.val, rd]
  | .dateTime v, C, hK, path, st, n, rest, hf, hw, hn, hn64 => by
    simp only [SVal.Fits] at hf
    subst hf
    simp only [rStructValue, P_inj, String.reduceEq, r_ite, ↓reduceIte, SVal.enc, SVal.val, rd]
    rfl
  | .guid v, C, hK, path, st, n, rest, hf, hw, hn, hn64 => by
    simp only [SVal.Fits] at hf
    subst hf
    simp only [rStructValue, P_inj, String.reduceEq, r_ite, ↓reduceIte, SVal.enc, SVal.val, rd]
  | .quat v, C, hK, path, st, n, rest, hf, hw, hn, hn64 => by
    simp only [SVal.Fits] at hf
    subst hf
    simp only [rStructValue, P_inj, String.reduceEq, r_ite, ↓reduceIte, SVal.enc, SVal.val, rd]
  | .color r g b a, C, hK, path, st, n, rest, hf, hw, hn, hn64 => by
    simp only [SVal.Fits] at hf
    subst hf
    simp only [rStructValue, P_inj, String.reduceEq, r_ite, ↓reduceIte, SVal.enc, SVal.val, rd]
    rfl
  | .props ps, C, hK, path, st, n, rest, hf, hw, hn, hn64 => by
    simp only [SVal.Fits, fixedStructs, List.forall_mem_cons] at hf
    obtain ⟨h1, h2, h3, h4, h5, _⟩ := hf
    simp only [SVal.Wf] at hw
    simp only [SVal.enc] at hn hn64
    simp only [rStructValue, h1, h2, h3, h4, h5, if_false, SVal.enc, SVal.val]
    rw [props_read hcfg ps C hK path n [] rest hw.2 hn hn64]
    rw [dupdate_nodup]
    · rfl
    · rw [List.nil_append, valProps_keys]
      exact List.Nodup.map Subtype.val_injective hw.1
theorem mval_read {cfg : Cfg} (hcfg : cfg.allowNan = m.an) {K : CodecId → Val → Val} :
    ∀ (v : MVal m) (C : CodecId → PropT m → Prop) (_ : ReadsCustom cfg K C) (path st : PyStr) (n : Nat) (rest : Bytes)
      (_ : v.Wf cfg C path st) (_ : v.enc.length < n) (_ : v.enc.length < 2 ^ 64),
    rPropValue m.an (fun q => rPropsLoop cfg n q []) (P v.type) st path (v.enc ++ rest) = .ok (v.val cfg K path, rest)
  | .struct s, C, hK, path, st, n, rest, hw, hn, hn64 => by
    simp only [MVal.Wf] at hw
    simp only [MVal.enc] at hn hn64
    simp only [rPropValue, MVal.type, P_inj, String.reduceEq, r_ite, ↓reduceIte, MVal.enc, MVal.val]
    exact sval_read hcfg s C hK path st n rest hw.1 hw.2 hn hn64
  | .enum s, C, hK, path, st, n, rest, hw, hn, hn64 => by
    simp only [rPropValue, MVal.type, P_inj, String.reduceEq, r_ite, ↓reduceIte, MVal.enc, MVal.val, rd]
  | .name s, C, hK, path, st, n, rest, hw, hn, hn64 => by
    simp only [rPropValue, MVal.type, P_inj, String.reduceEq, r_ite, ↓reduceIte, MVal.enc, MVal.val, rd]
  | .int s, C, hK, path, st, n, rest, hw, hn, hn64 => by
    simp only [rPropValue, MVal.type, P_inj, String.reduceEq, r_ite, ↓reduceIte, MVal.enc, MVal.val, rd, rI32Val]
    rfl
  | .bool s, C, hK, path, st, n, rest, hw, hn, hn64 => by
    simp only [rPropValue, MVal.type, P_inj, String.reduceEq, r_ite, ↓reduceIte, MVal.enc, MVal.val, rd]
    rfl
theorem prop_read {cfg : Cfg} (hcfg : cfg.allowNan = m.an) {K : CodecId → Val → Val} :
    ∀ (p : PropT m) (C : CodecId → PropT m → Prop) (_ : ReadsCustom cfg K C) (path : PyStr) (n : Nat) (rest : Bytes)
      (_ : p.Wf cfg C path) (_ : p.tail.length < n) (_ : p.tail.length < 2 ^ 64),
    rPlainBody cfg (fun q => rPropsLoop cfg n q []) (P p.type) p.tail.length path (p.head ++ p.tail ++ rest) =
      .ok (vDict (p.entries cfg path (p.val cfg K path)).dropLast, rest)
  | .struct st sid id v, C, hK, path, n, rest, hw, hn, hn64 => by
    simp only [PropT.Wf] at hw
    simp only [PropT.tail] at hn hn64
    simp only [rPlainBody, PropT.type, P_inj, String.reduceEq, r_ite, ↓reduceIte, PropT.head, PropT.tail, rStruct, rd,
      hcfg, sval_read hcfg v C hK path st.val n rest hw.1 hw.2 hn hn64]
    rfl
  | .int id x, C, hK, path, n, rest, hw, hn, hn64 => by
    simp only [rPlainBody, PropT.type, P_inj, String.reduceEq, r_ite, ↓reduceIte, PropT.head, PropT.tail, rIdValue, rd,
      rI32Val]
    rfl
  | .int64 id x, C, hK, path, n, rest, hw, hn, hn64 => by
    simp only [rPlainBody, PropT.type, P_inj, String.reduceEq, r_ite, ↓reduceIte, PropT.head, PropT.tail, rIdValue, rd,
      rI64Val]
    rfl
  | .fixed64 id x, C, hK, path, n, rest, hw, hn, hn64 => by
    simp only [rPlainBody, PropT.type, P_inj, String.reduceEq, r_ite, ↓reduceIte, PropT.head, PropT.tail, rIdValue, rd,
      rI32Val]
    rfl
  | .float id x, C, hK, path, n, rest, hw, hn, hn64 => by
    simp only [rPlainBody, PropT.type, P_inj, String.reduceEq, r_ite, ↓reduceIte, PropT.head, PropT.tail, rIdValue, rd,
      hcfg]
    rfl
  | .str id x, C, hK, path, n, rest, hw, hn, hn64 => by
    simp only [rPlainBody, PropT.type, P_inj, String.reduceEq, r_ite, ↓reduceIte, PropT.head, PropT.tail, rIdValue, rd]
    rfl
  | .name id x, C, hK, path, n, rest, hw, hn, hn64 => by
    simp only [rPlainBody, PropT.type, P_inj, String.reduceEq, r_ite, ↓reduceIte, PropT.head, PropT.tail, rIdValue, rd]
    rfl
  | .enum et id x, C, hK, path, n, rest, hw, hn, hn64 => by
    simp only [rPlainBody, PropT.type, P_inj, String.reduceEq, r_ite, ↓reduceIte, PropT.head, PropT.tail, rEnum, rd]
    rfl
  | .bool b id, C, hK, path, n, rest, hw, hn, hn64 => by
    simp only [rPlainBody, PropT.type, P_inj, String.reduceEq, r_ite, ↓reduceIte, PropT.head, PropT.tail, rBoolProp, rd,
      List.nil_append]
    rfl
  | .enums id l, C, hK, path, n, rest, hw, hn, hn64 => by
    simp only [PropT.Wf] at hw
    simp only [rPlainBody, PropT.type, P_inj, String.reduceEq, r_ite, ↓reduceIte, PropT.head, PropT.tail, rArrayProp, rd,
      rFString_eLit "EnumProperty" (by decide +kernel), rArrayProperty, rU32_lit _ hw, rArrayValue,
      rRepeat_enc rStr_eStr]
    rfl
  | .names id l, C, hK, path, n, rest, hw, hn, hn64 => by
    simp only [PropT.Wf] at hw
    simp only [rPlainBody, PropT.type, P_inj, String.reduceEq, r_ite, ↓reduceIte, PropT.head, PropT.tail, rArrayProp, rd,
      rFString_eLit "NameProperty" (by decide +kernel), rArrayProperty, rU32_lit _ hw, rArrayValue,
      rRepeat_enc rStr_eStr]
    rfl
  | .others id o, C, hK, path, n, rest, hw, hn, hn64 => by simp only [PropT.Wf] at hw
  | .guids id l, C, hK, path, n, rest, hw, hn, hn64 => by
    simp only [PropT.Wf] at hw
    have hw : l.length < 2 ^ 32 := by rw [hw]; decide
    simp only [rPlainBody, PropT.type, P_inj, String.reduceEq, r_ite, ↓reduceIte, PropT.head, PropT.tail, rArrayProp, rd,
      rFString_eLit "Guid" (by decide +kernel), rArrayProperty, rU32_lit _ hw, rArrayValue,
      rRepeat_enc rGuid_eGuid]
    rfl
  | .bytes id b, C, hK, path, n, rest, hw, hn, hn64 => by
    simp only [PropT.Wf] at hw
    have h1 : (((lit 4 b.length ++ b).length : Nat) : Int) - 4 = b.length := by
      rw [List.length_append, lit_length]; omega
    simp only [rPlainBody, PropT.type, P_inj, String.reduceEq, r_ite, ↓reduceIte, PropT.head, PropT.tail, rArrayProp, rd,
      rFString_eLit "ByteProperty" (by decide +kernel), rArrayProperty, rU32_lit _ hw, rArrayValue,
      h1, rByteList_n b _ rfl]
    rfl
  | .structs id pn pt tn gid l, C, hK, path, n, rest, hw, hn, hn64 => by
    simp only [PropT.Wf] at hw
    simp only [PropT.tail, List.length_append, lit_length] at hn hn64
    have h2 : (encSVals l).length < 2 ^ 64 := by omega
    exact structs_read hcfg id pn pt tn gid l path n rest hw.1 h2
      (svals_read hcfg l C hK (sub path pn) tn.val n rest hw.2 (by omega) h2)
  | .map kt vt id l, C, hK, path, n, rest, hw, hn, hn64 => by
    simp only [PropT.Wf] at hw
    simp only [PropT.tail, List.length_append, lit_length] at hn hn64
    have ih := entries_read hcfg l C hK path kt.val vt.val n rest hw.2 (by omega) (by omega)
    simp only [rPlainBody, PropT.type, P_inj, String.reduceEq, r_ite, ↓reduceIte, PropT.head, PropT.tail, rMap, rd,
      rU32_lit _ hw.1, rU32_lit 0 (by decide), getTypeOr, hcfg]
    simp only [keyStruct, valueStruct] at ih
    simp only [ih]
    rfl
theorem svals_read {cfg : Cfg} (hcfg : cfg.allowNan = m.an) {K : CodecId → Val → Val} :
    ∀ (l : List (SVal m)) (C : CodecId → PropT m → Prop) (_ : ReadsCustom cfg K C) (path st : PyStr) (n : Nat)
      (rest : Bytes) (_ : wfSVals cfg C path st l) (_ : (encSVals l).length < n) (_ : (encSVals l).length < 2 ^ 64),
    rRepeat (rStructValue m.an (fun q => rPropsLoop cfg n q []) st path) l.length (encSVals l ++ rest) =
      .ok (valSVals cfg K path l, rest)
  | [], C, hK, path, st, n, rest, hw, hn, hn64 => rfl
  | v :: t, C, hK, path, st, n, rest, hw, hn, hn64 => by
    simp only [wfSVals] at hw
    simp only [encSVals, List.length_append] at hn hn64
    simp only [List.length_cons, rRepeat, encSVals, valSVals, rd,
      sval_read hcfg v C hK path st n _ hw.1 hw.2.1 (by omega) (by omega),
      svals_read hcfg t C hK path st n _ hw.2.2 (by omega) (by omega)]
theorem entries_read {cfg : Cfg} (hcfg : cfg.allowNan = m.an) {K : CodecId → Val → Val} :
    ∀ (l : List (MVal m × MVal m)) (C : CodecId → PropT m → Prop) (_ : ReadsCustom cfg K C) (path kt vt : PyStr) (n : Nat)
      (rest : Bytes) (_ : wfEntries cfg C path kt vt l) (_ : (encEntries l).length < n)
      (_ : (encEntries l).length < 2 ^ 64),
    rRepeat (rMapEntry m.an (fun q => rPropsLoop cfg n q []) kt (keyStruct cfg path) vt (valueStruct cfg path)
      (path ++ P ".Key") (path ++ P ".Value")) l.length (encEntries l ++ rest) =
      .ok (valEntries cfg K path l, rest)
  | [], C, hK, path, kt, vt, n, rest, hw, hn, hn64 => rfl
  | (k, v) :: t, C, hK, path, kt, vt, n, rest, hw, hn, hn64 => by
    simp only [wfEntries] at hw
    obtain ⟨h1, h2, h3, h4, h5⟩ := hw
    simp only [encEntries, List.length_append] at hn hn64
    have ih := entries_read hcfg t C hK path kt vt n rest h5 (by omega) (by omega)
    have h6 : rMapEntry m.an (fun q => rPropsLoop cfg n q []) kt (keyStruct cfg path) vt (valueStruct cfg path)
        (path ++ P ".Key") (path ++ P ".Value") (k.enc ++ (v.enc ++ (encEntries t ++ rest))) =
        .ok (vDict [("key", k.val cfg K (path ++ P ".Key")), ("value", v.val cfg K (path ++ P ".Value"))],
          encEntries t ++ rest) := by
      subst h1 h3
      simp only [rMapEntry, rd, mval_read hcfg k C hK _ _ n _ h2 (by omega) (by omega),
        mval_read hcfg v C hK _ _ n _ h4 (by omega) (by omega)]
      rfl
    simp only [List.length_cons, rRepeat, encEntries, valEntries, rd, h6, ih]
theorem props_read {cfg : Cfg} (hcfg : cfg.allowNan = m.an) {K : CodecId → Val → Val} :
    ∀ (ps : List (Str × PropT m)) (C : CodecId → PropT m → Prop) (_ : ReadsCustom cfg K C) (path : PyStr) (n : Nat)
      (acc : Dict) (rest : Bytes) (_ : wfProps cfg C path ps) (_ : (encProps ps).length < n)
      (_ : (encProps ps).length < 2 ^ 64),
    rPropsLoop cfg n path acc (encProps ps ++ rest) = .ok (.dict (dupdate acc (valProps cfg K path ps)), rest)
  | [], C, hK, path, n, acc, rest, hw, hn, hn64 => by
    cases n with
    | zero => omega
    | succ n =>
      simp only [rPropsLoop, encProps, rd, rFString_eLit "None" (by decide +kernel), if_true, valProps, dupdate, r_ite]
  | (nm, p) :: t, C, hK, path, n, acc, rest, hw, hn, hn64 => by
    cases n with
    | zero => omega
    | succ n =>
      simp only [wfProps] at hw
      obtain ⟨h1, h2, h3⟩ := hw
      have hl := eStr_len nm
      simp only [encProps, List.length_append] at hn hn64
      have hp : rPlain cfg (fun q => rPropsLoop cfg n q []) (P p.type) p.tail.length (sub path nm)
          (p.head ++ p.tail ++ (encProps t ++ rest)) =
          .ok (vDict (p.entries cfg (sub path nm) (p.val cfg K (sub path nm))), encProps t ++ rest) := by
        apply rPlain_of
        cases hc : cfg.custom (sub path nm) with
        | none =>
          rw [hc] at h2
          exact prop_read hcfg p C hK (sub path nm) n _ h2 (by omega) (by omega)
        | some c =>
          rw [hc] at h2
          exact prop_read hcfg p noCustom (readsCustom_no cfg K) (sub path nm) n _ h2.2.2 (by omega) (by omega)
      have hq := rProperty_of hcfg hK (by omega) (by omega) h2 hp
      simp only [sub, List.append_assoc] at hq
      have ih := props_read hcfg t C hK path n
        (dset acc nm.val (showProp cfg K (sub path nm) p (p.val cfg K (sub path nm)))) rest h3 (by omega) (by omega)
      simp only [rPropsLoop, encProps, rd, h1, if_false, rFString_eLit p.type (type_strOk p),
        rU64_lit p.tail.length (by omega), dot, hq, valProps, dupdate, r_ite]
      simp only [sub, List.append_assoc] at ih
      simp only [sub, List.append_assoc]
      exact ih
end

end Pal
