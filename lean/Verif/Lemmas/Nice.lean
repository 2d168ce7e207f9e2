import Verif.Lemmas.ExtTree
/-
What is found at the places where custom properties look: the "values" of an array, or a
property called "values".
-/

namespace Pal
open Spec

/-- A dict with a key "values" that is not a byte array. -/
def NiceLeaf (d : Dict) : Prop := ∀ b, dget? d (P "values") = some b →
  (∃ l, b = .list l ∧ ((d = [(P "values", b)] ∧ ∀ x ∈ l, (∃ s, x = .str s) ∨ ∃ g, x = .uuid g) ∨
    ∃ s, dget? d (P "prop_name") = some (.str s))) ∨ ∃ a e, b = .dict (a :: e)

mutual
/-- As in the value of a property: byte strings are in byte arrays only. -/
def Nice : Val → Prop
  | .dict d => (∃ b : Bytes, .dict d = rawVal b ∧ b.length < 2 ^ 32) ∨ NiceLeaf d ∧ NiceD d
  | .list l => NiceL l
  | .tuple _ => False
  | _ => True
def NiceL : List Val → Prop
  | [] => True
  | a :: t => Nice a ∧ NiceL t
def NiceD : List (PyStr × Val) → Prop
  | [] => True
  | (_, a) :: t => Nice a ∧ NiceD t
end

theorem niceL_mem {l : List Val} (h : NiceL l) : ∀ x ∈ l, Nice x := by
  induction l with
  | nil => simp
  | cons a t ih =>
    simp only [NiceL] at h
    simp only [List.forall_mem_cons]
    exact ⟨h.1, ih h.2⟩

theorem niceD_get {d : Dict} (h : NiceD d) {k : PyStr} {x : Val} (hx : dget? d k = some x) : Nice x := by
  induction d with
  | nil => cases hx
  | cons a t ih =>
    obtain ⟨k', v⟩ := a
    simp only [NiceD] at h
    simp only [dget?] at hx
    split at hx
    · cases hx; exact h.1
    · exact ih h.2 hx

theorem nice_path {p : List PyStr} {v x : Val} (h : Nice v) (hp : v.path p = .ok x) (hk : ∀ k ∈ p, k ≠ P "values") : Nice x := by
  induction p generalizing v with
  | nil => cases hp; exact h
  | cons k t ih =>
    obtain ⟨d, y, rfl, hd, hy⟩ := path_cons_ok hp
    simp only [Nice] at h
    rcases h with ⟨b, hb, -⟩ | ⟨-, h⟩
    · simp only [rawVal, vDict, List.map_cons, List.map_nil, Val.dict.injEq] at hb
      subst hb
      simp only [dget?] at hd
      rw [if_neg (Ne.symm (hk k (by simp)))] at hd
      cases hd
    · exact ih (niceD_get h hd) hy fun k' h' => hk k' (by simp [h'])

theorem nice_not_tuple {v : Val} (h : Nice v) : ∀ l, v ≠ .tuple l := by
  rintro l rfl
  simp only [Nice] at h

theorem nice_vDict {l : List (String × Val)} (hl : NiceLeaf (l.map fun kv => (P kv.1, kv.2))) (h : ∀ q ∈ l, Nice q.2) :
    Nice (vDict l) := by
  simp only [vDict, Nice]
  refine .inr ⟨hl, ?_⟩
  clear hl
  induction l with
  | nil => simp only [List.map_nil, NiceD]
  | cons a t ih =>
    simp only [List.map_cons, NiceD]
    exact ⟨h a (by simp), ih fun q hq => h q (by simp [hq])⟩

theorem niceLeaf_no {l : List (String × Val)} (h : "values" ∉ l.map Prod.fst) : NiceLeaf (l.map fun kv => (P kv.1, kv.2)) := by
  intro b hb
  exfalso
  induction l with
  | nil => cases hb
  | cons a t ih =>
    simp only [List.map_cons, List.mem_cons, not_or] at h
    simp only [List.map_cons, dget?] at hb
    rw [if_neg (by rw [P_inj]; exact Ne.symm h.1)] at hb
    exact ih h.2 hb

theorem nice_no {l : List (String × Val)} (hl : "values" ∉ l.map Prod.fst) (h : ∀ q ∈ l, Nice q.2) : Nice (vDict l) :=
  nice_vDict (niceLeaf_no hl) h

theorem nice_raw {b : Bytes} (h : b.length < 2 ^ 32) : Nice (rawVal b) := by
  have : rawVal b = .dict [(P "values", vBytesT b)] := rfl
  rw [this, Nice]
  exact .inl ⟨b, this.symm, h⟩

theorem nice_plainList {l : List Val} (h : ∀ x ∈ l, (∃ s, x = .str s) ∨ ∃ g, x = .uuid g) : Nice (vDict [("values", .list l)]) := by
  refine nice_vDict ?_ ?_
  · intro b hb
    simp only [List.map_cons, List.map_nil, dget?, if_true, Option.some.injEq] at hb
    subst hb
    exact .inl ⟨l, rfl, .inl ⟨by simp, h⟩⟩
  · simp only [List.forall_mem_cons]
    refine ⟨?_, by simp⟩
    simp only [Nice]
    induction l with
    | nil => simp only [NiceL]
    | cons a t ih =>
      simp only [List.forall_mem_cons] at h
      simp only [NiceL]
      refine ⟨?_, ih h.2⟩
      rcases h.1 with ⟨s, rfl⟩ | ⟨s, rfl⟩ <;> simp only [Nice]

theorem nice_vStr (s : Str) : Nice (vStr s) := by simp only [vStr, Nice]
theorem nice_str (s : PyStr) : Nice (.str s) := by simp only [Nice]
theorem nice_guid (g : Guid) : Nice (vGuid g) := by simp only [vGuid, Nice]
theorem nice_opt (g : Option Guid) : Nice (vOptGuid g) := by
  cases g
  · simp only [vOptGuid, Nice]
  · exact nice_guid _
theorem nice_structType (ty : Str) (st : PyStr) : Nice (vStructType ty st) := by
  unfold vStructType; split <;> simp only [Nice]
theorem nice_vec {m : Mode} (v : Vec m) : Nice (vVec v) := by
  refine nice_no (by simp) ?_
  simp only [List.forall_mem_cons]
  refine ⟨?_, ?_, ?_, by simp⟩ <;> simp only [vF64, Nice]
theorem nice_quat {m : Mode} (v : Quat m) : Nice (vQuat v) := by
  refine nice_no (by simp) ?_
  simp only [List.forall_mem_cons]
  refine ⟨?_, ?_, ?_, ?_, by simp⟩ <;> simp only [vF64, Nice]

theorem nice_entries {m : Mode} (cfg : Cfg) (path : PyStr) {x : Val} (p : PropT m) (h : Nice x) :
    Nice (vDict (p.entries cfg path x)) := by
  refine nice_no (by cases p <;> simp [PropT.entries]) ?_
  cases p <;> simp [PropT.entries, nice_vStr, nice_str, nice_guid, nice_opt, nice_structType, h]

variable {cfg : Cfg} {K : CodecId → Val → Val} {G : Prop} {m : Mode}

mutual
theorem sval_nice : ∀ (v : SVal m) (path : PyStr), v.WfG cfg noCustom G path → Nice (v.val cfg K path)
  | .vector v, path, _ => by simp only [SVal.val]; exact nice_vec v
  | .dateTime n, path, _ => by simp only [SVal.val, vU, Nice]
  | .guid g, path, _ => by simp only [SVal.val]; exact nice_guid g
  | .quat v, path, _ => by simp only [SVal.val]; exact nice_quat v
  | .color r g b a, path, _ => by
    simp only [SVal.val]
    refine nice_no (by simp) ?_
    simp only [List.forall_mem_cons]
    refine ⟨?_, ?_, ?_, ?_, by simp⟩ <;> simp only [vF32, Nice]
  | .props ps, path, h => by
    simp only [SVal.WfG] at h
    simp only [SVal.val, Nice]
    obtain ⟨h1, h2⟩ := props_nice ps path h.2
    refine .inr ⟨?_, h1⟩
    intro b hb
    obtain ⟨a, e, rfl⟩ := h2 _ _ hb
    exact .inr ⟨a, e, rfl⟩
theorem mval_nice : ∀ (v : MVal m) (path st : PyStr), v.WfG cfg noCustom G path st → Nice (v.val cfg K path)
  | .struct s, path, st, h => by
    simp only [MVal.WfG] at h
    simp only [MVal.val]
    exact sval_nice s path h.2
  | .enum s, path, st, _ | .name s, path, st, _ => by simp only [MVal.val]; exact nice_vStr s
  | .int s, path, st, _ => by simp only [MVal.val, vI, Nice]
  | .bool s, path, st, _ => by simp only [MVal.val, vBool, Nice]
theorem prop_nice : ∀ (p : PropT m) (path : PyStr), p.WfG cfg noCustom G path → Nice (p.val cfg K path)
  | .struct st sid id v, path, h => by
    simp only [PropT.WfG] at h
    simp only [PropT.val]
    exact sval_nice v path h.2
  | .structs id pn pt tn gid l, path, h => by
    simp only [PropT.WfG] at h
    simp only [PropT.val]
    refine nice_vDict ?_ ?_
    · intro b hb
      simp only [List.map_cons, List.map_nil, dget?, P_inj, String.reduceEq, ↓reduceIte, Option.some.injEq] at hb
      subst hb
      exact .inl ⟨_, rfl, .inr ⟨pn.val, by simp [dget?, vStr]⟩⟩
    · simp only [List.forall_mem_cons]
      refine ⟨nice_vStr _, nice_vStr _, ?_, nice_vStr _, nice_guid _, by simp⟩
      simp only [Nice]
      exact svals_nice l _ _ h.2
  | .map kt vt id l, path, h => by
    simp only [PropT.WfG] at h
    simp only [PropT.val, Nice]
    exact entries_nice l _ _ _ h.2
  | .bytes id b, path, h => by
    simp only [PropT.WfG] at h
    simp only [PropT.val]
    exact nice_raw h
  | .others id o, path, h => by simp only [PropT.WfG] at h
  | .guids id l, path, h => by
    simp only [PropT.val]
    refine nice_plainList fun x hx => ?_
    obtain ⟨s, _, rfl⟩ := List.mem_map.1 hx
    exact .inr ⟨_, rfl⟩
  | .enums id l, path, h | .names id l, path, h => by
    simp only [PropT.val]
    refine nice_plainList fun x hx => ?_
    obtain ⟨s, _, rfl⟩ := List.mem_map.1 hx
    exact .inl ⟨_, rfl⟩
  | .enum et id n, path, h => by
    simp only [PropT.val]
    refine nice_no (by simp) ?_
    simp only [List.forall_mem_cons]
    exact ⟨nice_vStr _, nice_vStr _, by simp⟩
  | .int id n, path, h | .int64 id n, path, h | .fixed64 id n, path, h => by simp only [PropT.val, vI, Nice]
  | .float id n, path, h => by simp only [PropT.val, vF32, Nice]
  | .str id n, path, h | .name id n, path, h => by simp only [PropT.val]; exact nice_vStr _
  | .bool id n, path, h => by simp only [PropT.val, vBool, Nice]
theorem svals_nice : ∀ (l : List (SVal m)) (path st : PyStr), wfSValsG cfg noCustom G path st l → NiceL (valSVals cfg K path l)
  | [], path, st, _ => by simp only [valSVals, NiceL]
  | v :: t, path, st, h => by
    simp only [wfSValsG] at h
    simp only [valSVals, NiceL]
    exact ⟨sval_nice v path h.2.1, svals_nice t path st h.2.2⟩
theorem entries_nice : ∀ (l : List (MVal m × MVal m)) (path kt vt : PyStr), wfEntriesG cfg noCustom G path kt vt l →
    NiceL (valEntries cfg K path l)
  | [], path, kt, vt, _ => by simp only [valEntries, NiceL]
  | (k, v) :: t, path, kt, vt, h => by
    simp only [wfEntriesG] at h
    simp only [valEntries, NiceL]
    refine ⟨nice_no (by simp) ?_, entries_nice t path kt vt h.2.2.2.2⟩
    simp only [List.forall_mem_cons]
    exact ⟨mval_nice k _ _ h.2.1, mval_nice v _ _ h.2.2.2.1, by simp⟩
theorem props_nice : ∀ (ps : List (Str × PropT m)) (path : PyStr), wfPropsG cfg noCustom G path ps →
    NiceD (valProps cfg K path ps) ∧ ∀ k x, dget? (valProps cfg K path ps) k = some x → ∃ a e, x = .dict (a :: e)
  | [], path, _ => by simp only [valProps, NiceD]; exact ⟨trivial, fun k x h => by cases h⟩
  | (n, p) :: t, path, h => by
    simp only [wfPropsG] at h
    obtain ⟨w1, w2, w3⟩ := h
    obtain ⟨h1, h2⟩ := props_nice t path w3
    cases hc : cfg.custom (sub path n) with
    | some c => rw [hc] at w2; exact w2.2.1.elim
    | none =>
      rw [hc] at w2
      simp only [valProps, showProp, hc, NiceD]
      refine ⟨⟨nice_entries _ _ _ (prop_nice p _ w2), h1⟩, ?_⟩
      intro k x hx
      simp only [dget?] at hx
      split at hx
      · cases hx
        cases p <;> exact ⟨_, _, rfl⟩
      · exact h2 k x hx
end

end Pal
