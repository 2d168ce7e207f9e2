import Verif.Lemmas.Says
/-
What the reader shows says the file that was read.
-/

set_option linter.unusedSectionVars false

namespace Pal
open Spec

theorem at_head (k : String) (x : Val) (t : List (String × Val)) : At (vDict ((k, x) :: t)) k x := by
  simp only [At, wr, if_true]
theorem at_tail {k k' : String} (x : Val) {y : Val} {t : List (String × Val)} (h : k ≠ k') (ht : At (vDict t) k' y) :
    At (vDict ((k, x) :: t)) k' y := by
  simp only [At, wr] at *
  rw [if_neg h]
  exact ht

/-- Look a constant key up in a dict with constant keys. -/
macro "at_key" : tactic => `(tactic| ((repeat refine at_tail _ (by decide) ?_); exact at_head _ _ _))

theorem says_f64 (x : F64 free) : SaysF64 (vF64 x) x.val := .float _
theorem says_f32 (x : F32 free) : SaysF32 (vF32 x) x.val :=
  ⟨_, .float _, f64to32_iff.2 (f64to32_f32to64 x.val x.2.1).symm⟩
theorem says_vec (x : Vec free) : SaysVec (vVec x) x :=
  ⟨_, _, _, by unfold vVec; at_key, says_f64 _, by unfold vVec; at_key, says_f64 _, by unfold vVec; at_key, says_f64 _⟩
theorem says_quat (x : Quat free) : SaysQuat (vQuat x) x :=
  ⟨_, _, _, _, by unfold vQuat; at_key, says_f64 _, by unfold vQuat; at_key, says_f64 _, by unfold vQuat; at_key, says_f64 _,
    by unfold vQuat; at_key, says_f64 _⟩
theorem says_guid (g : Guid) : SaysGuid (vGuid g) g := .uuid g
theorem says_id {v : Val} {id : Option Guid} (h : At v "id" (vOptGuid id)) : SaysId v id := by
  cases id with
  | none => exact .none h
  | some g => exact .some h (.uuid g)

theorem says_bytes : ∀ b : Bytes, List.Forall₂ (fun a c => SaysInt a (UInt8.toNat c)) (b.map fun x => Val.int x.toNat) b
  | [] => .nil
  | _ :: t => .cons (.int _) (says_bytes t)

variable {O : Val → Val → Prop} {cfg : Cfg} (hno : ∀ p, cfg.custom p = none) {K : CodecId → Val → Val} {C : CodecId → PropT free → Prop}

include hno in
mutual
theorem says_sval : ∀ (v : SVal free) (path st : PyStr), v.Fits st → v.Wf cfg C path → v.enc.length < 2 ^ 64 →
    SaysS O (.str st) (v.val cfg K path) v
  | .vector v, _, st, hf, _, _ => by cases hf; exact .vector (says_vec v)
  | .dateTime n, _, st, hf, _, _ => by cases hf; exact .dateTime (.int _)
  | .guid g, _, st, hf, _, _ => by cases hf; exact .guid (.uuid g)
  | .quat q, _, st, hf, _, _ => by cases hf; exact .quat (says_quat q)
  | .color r g b a, _, st, hf, _, _ => by
    cases hf
    simp only [SVal.val]
    exact .color (by at_key) (says_f32 r) (by at_key) (says_f32 g) (by at_key) (says_f32 b) (by at_key) (says_f32 a)
  | .props ps, path, st, hf, hw, hl => by
    simp only [SVal.Wf] at hw
    simp only [SVal.val]
    refine .props (fun t ht => ?_) (.dict (says_props ps path hw.2 (by simpa only [SVal.enc] using hl)))
    intro e
    exact hf t ht (Val.str.inj e)
theorem says_mval : ∀ (v : MVal free) (path : PyStr) (kt : Str) (st : PyStr), kt.val = P v.type → v.Wf cfg C path st → v.enc.length < 2 ^ 64 →
    SaysM O (vStr kt) (vStructType kt st) (v.val cfg K path) v
  | .struct s, path, kt, st, hk, hw, hl => by
    simp only [MVal.Wf] at hw
    simp only [MVal.type] at hk
    simp only [vStr, vStructType, hk, if_true, MVal.val]
    exact .struct (says_sval s path st hw.1 hw.2 (by simpa only [MVal.enc] using hl))
  | .enum s, path, kt, st, hk, hw, hl => by
    simp only [MVal.type] at hk
    simp only [vStr, hk, MVal.val]
    exact .enum s
  | .name s, path, kt, st, hk, hw, hl => by
    simp only [MVal.type] at hk
    simp only [vStr, hk, MVal.val]
    exact .name s
  | .int n, path, kt, st, hk, hw, hl => by
    simp only [MVal.type] at hk
    simp only [vStr, hk, MVal.val]
    exact .int (.int _)
  | .bool b, path, kt, st, hk, hw, hl => by
    simp only [MVal.type] at hk
    simp only [vStr, hk, MVal.val]
    exact .bool (vBool b)
theorem says_prop : ∀ (p : PropT free) (path : PyStr), p.Wf cfg C path → p.tail.length < 2 ^ 64 →
    SaysP O (vDict (p.entries cfg path (p.val cfg K path))) p
  | .struct st sid id v, path, hw, hl => by
    simp only [PropT.Wf] at hw
    simp only [PropT.entries]
    exact .struct (by at_key) (by unfold vStr; at_key) (by at_key) (says_guid sid) (says_id (by at_key)) (by at_key)
      (says_sval v path st.val hw.1 hw.2 (by simpa only [PropT.tail] using hl))
  | .int id n, path, hw, hl => by
    simp only [PropT.entries, PropT.val]; exact .int (by at_key) (says_id (by at_key)) (by at_key) (.int _)
  | .int64 id n, path, hw, hl => by
    simp only [PropT.entries, PropT.val]; exact .int64 (by at_key) (says_id (by at_key)) (by at_key) (.int _)
  | .fixed64 id n, path, hw, hl => by
    simp only [PropT.entries, PropT.val]; exact .fixed64 (by at_key) (says_id (by at_key)) (by at_key) (.int _)
  | .float id f, path, hw, hl => by
    simp only [PropT.entries, PropT.val]; exact .float (by at_key) (says_id (by at_key)) (by at_key) (says_f32 f)
  | .str id s, path, hw, hl => by
    simp only [PropT.entries, PropT.val]; exact .str (by at_key) (says_id (by at_key)) (by unfold vStr; at_key)
  | .name id s, path, hw, hl => by
    simp only [PropT.entries, PropT.val]; exact .name (by at_key) (says_id (by at_key)) (by unfold vStr; at_key)
  | .enum et id s, path, hw, hl => by
    simp only [PropT.entries, PropT.val]
    exact .enum (y := vDict [("type", vStr et), ("value", vStr s)]) (by at_key) (says_id (by at_key)) (by at_key) (by unfold vStr; at_key) (by unfold vStr; at_key)
  | .bool b id, path, hw, hl => by
    simp only [PropT.entries, PropT.val]
    exact .bool (y := vBool b) (by at_key) (says_id (by at_key)) (by at_key)
  | .enums id l, path, hw, hl => by
    simp only [PropT.Wf] at hw
    simp only [PropT.entries, PropT.val]
    exact .enums (y := vDict [("values", .list (l.map vStr))]) l (by at_key) (by at_key) (says_id (by at_key)) (by at_key) (by at_key) (.list _) hw
  | .names id l, path, hw, hl => by
    simp only [PropT.Wf] at hw
    simp only [PropT.entries, PropT.val]
    exact .names (y := vDict [("values", .list (l.map vStr))]) l (by at_key) (by at_key) (says_id (by at_key)) (by at_key) (by at_key) (.list _) hw
  | .others id o, path, hw, hl => by simp only [PropT.Wf] at hw
  | .guids id l, path, hw, hl => by
    simp only [PropT.Wf] at hw
    subst hw
    simp only [PropT.entries, PropT.val]
    exact .guids (y := vDict [("values", .list [])]) (by at_key) (by at_key) (says_id (by at_key)) (by at_key) (by at_key) (.list _)
  | .bytes id b, path, hw, hl => by
    simp only [PropT.Wf] at hw
    simp only [PropT.entries, PropT.val]
    exact .bytes (y := vDict [("values", vBytesT b)]) (by at_key) (by at_key) (says_id (by at_key)) (by at_key) (by unfold vBytesT; at_key) (.tuple _) (says_bytes b) hw
  | .structs id pn pt tn gid l, path, hw, hl => by
    simp only [PropT.Wf] at hw
    simp only [PropT.entries, PropT.val]
    exact .structs (y := vDict [("prop_name", vStr pn), ("prop_type", vStr pt),
        ("values", .list (valSVals cfg K (sub path pn) l)), ("type_name", vStr tn), ("id", vGuid gid)])
      (by at_key) (by at_key) (says_id (by at_key)) (by at_key) (by unfold vStr; at_key) (by unfold vStr; at_key)
      (by unfold vStr; at_key) (by at_key) (says_guid gid) (by at_key) (.list _) (says_svals l (sub path pn) tn.val hw.2 (by simp only [PropT.tail, List.length_append] at hl; omega)) hw.1
      (by simp only [PropT.tail, List.length_append] at hl; omega)
  | .map kt vt id l, path, hw, hl => by
    simp only [PropT.Wf] at hw
    simp only [PropT.entries, PropT.val]
    exact .map (by at_key) (by unfold vStr; at_key) (by unfold vStr; at_key) (says_id (by at_key)) (by at_key) (.list _)
      (says_entries l path kt vt _ (by at_key) (by at_key) (by at_key) (by at_key) hw.2
        (by simp only [PropT.tail, List.length_append] at hl; omega)) hw.1
theorem says_svals : ∀ (l : List (SVal free)) (path st : PyStr), wfSVals cfg C path st l → (encSVals l).length < 2 ^ 64 →
    SaysSs O (.str st) (valSVals cfg K path l) l
  | [], _, _, _, _ => .nil
  | v :: t, path, st, hw, hl => by
    simp only [wfSVals] at hw
    simp only [encSVals, List.length_append] at hl
    exact .cons (says_sval v path st hw.1 hw.2.1 (by omega)) (says_svals t path st hw.2.2 (by omega))
theorem says_entries : ∀ (l : List (MVal free × MVal free)) (path : PyStr) (kt vt : Str) (m : Val),
    At m "key_type" (vStr kt) → At m "value_type" (vStr vt) → At m "key_struct_type" (vStructType kt (keyStruct cfg path)) →
    At m "value_struct_type" (vStructType vt (valueStruct cfg path)) → wfEntries cfg C path kt.val vt.val l → (encEntries l).length < 2 ^ 64 →
    SaysEs O m (valEntries cfg K path l) l
  | [], _, _, _, _, _, _, _, _, _, _ => .nil
  | (k, v) :: t, path, kt, vt, m, h1, h2, h3, h4, hw, hl => by
    simp only [wfEntries] at hw
    simp only [encEntries, List.length_append] at hl
    simp only [valEntries]
    exact .cons h1 h2 h3 h4 (by at_key) (by at_key) (says_mval k _ kt _ hw.1 hw.2.1 (by omega))
      (says_mval v _ vt _ hw.2.2.1 hw.2.2.2.1 (by omega))
      (says_entries t path kt vt m h1 h2 h3 h4 hw.2.2.2.2 (by omega))
theorem says_props : ∀ (ps : Props free) (path : PyStr), wfProps cfg C path ps → (encProps ps).length < 2 ^ 64 → SaysD O (valProps cfg K path ps) ps
  | [], _, _, _ => .nil
  | (n, p) :: t, path, hw, hl => by
    simp only [encProps, List.length_append] at hl
    simp only [wfProps, hno] at hw
    simp only [valProps, showProp, hno]
    exact .cons (contains_no _ _ (custom_not_key cfg _ _ p)) (says_prop p _ hw.2.1 (by omega)) (by omega)
      (says_props t path hw.2.2 (by omega))
end

end Pal
