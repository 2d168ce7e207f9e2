import Verif.Lemmas.Invert
/-
Well-formed trees, except that arrays of GUIDs may have elements: what the reader accepts.
-/

namespace Pal.Spec
open Pal

variable {m : Mode}

mutual
/-- `Wf`, but arrays of GUIDs may have elements if `G`. -/
def SVal.WfG (cfg : Cfg) (C : CodecId → PropT m → Prop) (G : Prop) (path : PyStr) : SVal m → Prop
  | .props ps => (ps.map Prod.fst).Nodup ∧ wfPropsG cfg C G path ps
  | _ => True
def MVal.WfG (cfg : Cfg) (C : CodecId → PropT m → Prop) (G : Prop) (path st : PyStr) : MVal m → Prop
  | .struct s => s.Fits st ∧ s.WfG cfg C G path
  | _ => True
def PropT.WfG (cfg : Cfg) (C : CodecId → PropT m → Prop) (G : Prop) (path : PyStr) : PropT m → Prop
  | .struct st _ _ v => v.Fits st.val ∧ v.WfG cfg C G path
  | .enums _ l => l.length < 2 ^ 32
  | .names _ l => l.length < 2 ^ 32
  | .guids _ l => l = [] ∨ G
  | .bytes _ b => b.length < 2 ^ 32
  | .others .. => False
  | .structs _ pn _ tn _ l => l.length < 2 ^ 32 ∧ wfSValsG cfg C G (sub path pn) tn.val l
  | .map kt vt _ l => l.length < 2 ^ 32 ∧ wfEntriesG cfg C G path kt.val vt.val l
  | _ => True
def wfSValsG (cfg : Cfg) (C : CodecId → PropT m → Prop) (G : Prop) (path st : PyStr) : List (SVal m) → Prop
  | [] => True
  | v :: t => v.Fits st ∧ v.WfG cfg C G path ∧ wfSValsG cfg C G path st t
def wfEntriesG (cfg : Cfg) (C : CodecId → PropT m → Prop) (G : Prop) (path kt vt : PyStr) : List (MVal m × MVal m) → Prop
  | [] => True
  | (k, v) :: t => kt = P k.type ∧ k.WfG cfg C G (path ++ P ".Key") (keyStruct cfg path) ∧
      vt = P v.type ∧ v.WfG cfg C G (path ++ P ".Value") (valueStruct cfg path) ∧ wfEntriesG cfg C G path kt vt t
def wfPropsG (cfg : Cfg) (C : CodecId → PropT m → Prop) (G : Prop) (path : PyStr) : List (Str × PropT m) → Prop
  | [] => True
  | (n, p) :: t => n.val ≠ P "None" ∧
      (match cfg.custom (sub path n) with
        | none => p.WfG cfg C G (sub path n)
        | some c => p.type = c.propType ∧ C c p ∧ p.Wf cfg noCustom (sub path n)) ∧
      wfPropsG cfg C G path t
end

end Pal.Spec

namespace Pal
open Spec

variable {m : Mode}

mutual
theorem sval_strict {cfg : Cfg} {C : CodecId → PropT m → Prop} : ∀ (v : SVal m) (path : PyStr),
    v.WfG cfg C False path → v.Wf cfg C path
  | .props ps, path, h => by
    simp only [SVal.WfG] at h
    simp only [SVal.Wf]
    exact ⟨h.1, props_strict ps path h.2⟩
  | .vector _, _, _ | .dateTime _, _, _ | .guid _, _, _ | .quat _, _, _ | .color .., _, _ => by simp only [SVal.Wf]
theorem mval_strict {cfg : Cfg} {C : CodecId → PropT m → Prop} : ∀ (v : MVal m) (path st : PyStr),
    v.WfG cfg C False path st → v.Wf cfg C path st
  | .struct s, path, st, h => by
    simp only [MVal.WfG] at h
    simp only [MVal.Wf]
    exact ⟨h.1, sval_strict s path h.2⟩
  | .enum _, _, _, _ | .name _, _, _, _ | .int _, _, _, _ | .bool _, _, _, _ => by simp only [MVal.Wf]
theorem prop_strict {cfg : Cfg} {C : CodecId → PropT m → Prop} : ∀ (p : PropT m) (path : PyStr),
    p.WfG cfg C False path → p.Wf cfg C path
  | .struct st _ _ v, path, h => by
    simp only [PropT.WfG] at h
    simp only [PropT.Wf]
    exact ⟨h.1, sval_strict v path h.2⟩
  | .structs _ pn _ tn _ l, path, h => by
    simp only [PropT.WfG] at h
    simp only [PropT.Wf]
    exact ⟨h.1, svals_strict l _ _ h.2⟩
  | .map kt vt _ l, path, h => by
    simp only [PropT.WfG] at h
    simp only [PropT.Wf]
    exact ⟨h.1, entries_strict l _ _ _ h.2⟩
  | .others .., _, h => by simp only [PropT.WfG] at h
  | .guids _ l, _, h => by simp only [PropT.WfG, or_false] at h; simpa only [PropT.Wf] using h
  | .enums _ l, _, h | .names _ l, _, h | .bytes _ l, _, h => by
    simp only [PropT.WfG] at h; simpa only [PropT.Wf] using h
  | .int .., _, _ | .int64 .., _, _ | .fixed64 .., _, _ | .float .., _, _ | .str .., _, _ | .name .., _, _
  | .enum .., _, _ | .bool .., _, _ => by simp only [PropT.Wf]
theorem svals_strict {cfg : Cfg} {C : CodecId → PropT m → Prop} : ∀ (l : List (SVal m)) (path st : PyStr),
    wfSValsG cfg C False path st l → wfSVals cfg C path st l
  | [], _, _, _ => by simp only [wfSVals]
  | v :: t, path, st, h => by
    simp only [wfSValsG] at h
    simp only [wfSVals]
    exact ⟨h.1, sval_strict v path h.2.1, svals_strict t path st h.2.2⟩
theorem entries_strict {cfg : Cfg} {C : CodecId → PropT m → Prop} : ∀ (l : List (MVal m × MVal m)) (path kt vt : PyStr),
    wfEntriesG cfg C False path kt vt l → wfEntries cfg C path kt vt l
  | [], _, _, _, _ => by simp only [wfEntries]
  | (k, v) :: t, path, kt, vt, h => by
    simp only [wfEntriesG] at h
    simp only [wfEntries]
    exact ⟨h.1, mval_strict k _ _ h.2.1, h.2.2.1, mval_strict v _ _ h.2.2.2.1, entries_strict t path kt vt h.2.2.2.2⟩
theorem props_strict {cfg : Cfg} {C : CodecId → PropT m → Prop} : ∀ (ps : List (Str × PropT m)) (path : PyStr),
    wfPropsG cfg C False path ps → wfProps cfg C path ps
  | [], _, _ => by simp only [wfProps]
  | (n, p) :: t, path, h => by
    simp only [wfPropsG] at h
    simp only [wfProps]
    refine ⟨h.1, ?_, props_strict t path h.2.2⟩
    have h2 := h.2.1
    cases hc : cfg.custom (sub path n) with
    | none => rw [hc] at h2; exact prop_strict p _ h2
    | some c => rw [hc] at h2; exact h2
end

end Pal
