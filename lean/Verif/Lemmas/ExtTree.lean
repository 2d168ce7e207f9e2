import Verif.Lemmas.Ext
/-
If an encoder has put something into the value of a property that was read, then either
the value was well-formed and nothing else was disturbed, or the result has a property
that cannot be written.
-/

namespace Pal
open Spec

macro "look" : tactic => `(tactic| (simp only [get_vDict_cons, String.reduceEq, if_false, if_true] <;> rfl))

variable {cfg : Cfg} {K : CodecId → Val → Val} {Bad : Val → Prop}

/-- An array of structs without the name that the writer needs. -/
def HalfArray (p : Val) : Prop :=
  Undecoded p ∧ p.get (P "type") = .ok (.str (P "ArrayProperty")) ∧ p.get (P "array_type") = .ok (.str (P "StructProperty")) ∧
    ∃ a e, p.get (P "value") = .ok a ∧ a.get (P "prop_name") = .error e

theorem valProps_nonraw {m : Mode} {ps : List (Str × PropT m)} {path : PyStr} {d' : Val} {br : Prop}
    (h : Filled br (.dict (valProps cfg K path ps)) d') :
    ∃ d, d' = .dict d ∧ ExtD br (valProps cfg K path ps) d := by
  have hs : ∀ (n : Str) (p : PropT m), ∃ l, showProp cfg K (sub path n) p (p.val cfg K (sub path n)) = .dict l := by
    intro n p; unfold showProp; split <;> exact ⟨_, rfl⟩
  simp only [Filled] at h
  rcases h with (⟨v, h1, h2⟩ | ⟨-, ⟨s, h1⟩, -⟩) | h
  · exfalso
    cases ps with
    | nil => simp only [valProps] at h1; cases h1
    | cons a t =>
      obtain ⟨l, hl⟩ := hs a.1 a.2
      simp only [valProps, hl] at h1
      injection h1 with h1 _
      injection h1 with _ h1
      subst h1
      rcases h2 with ⟨_, h2⟩ | h2 <;> cases h2
  · exfalso
    induction ps with
    | nil => simp only [valProps] at h1; cases h1
    | cons a t ih =>
      obtain ⟨l, hl⟩ := hs a.1 a.2
      simp only [valProps, hl, dget?] at h1
      split at h1
      · cases h1
      · exact ih h1
  · exact h

mutual
theorem sval_ext (hG : ∀ p, GuidArray p → Bad p) (hH : ∀ p, HalfArray p → Bad p) :
    ∀ (v : SVal rawMode) (path st : PyStr) (z : Val), v.Fits st → v.WfG cfg noCustom True path →
    Filled True (v.val cfg K path) z →
    (v.WfG cfg noCustom False path ∧ Filled False (v.val cfg K path) z) ∨ BadStruct Bad st z
  | .vector v, path, st, z, hf, hw, h => by
    simp only [SVal.val] at h ⊢
    exact .inl ⟨by simp only [SVal.WfG], flat_vec v _ h⟩
  | .dateTime n, path, st, z, hf, hw, h => by
    simp only [SVal.val] at h ⊢
    exact .inl ⟨by simp only [SVal.WfG], flat_int _ _ h⟩
  | .guid g, path, st, z, hf, hw, h => by
    simp only [SVal.val] at h ⊢
    exact .inl ⟨by simp only [SVal.WfG], flat_guid _ _ h⟩
  | .quat v, path, st, z, hf, hw, h => by
    simp only [SVal.val] at h ⊢
    exact .inl ⟨by simp only [SVal.WfG], flat_quat v _ h⟩
  | .color r g b a, path, st, z, hf, hw, h => by
    simp only [SVal.val] at h ⊢
    refine .inl ⟨by simp only [SVal.WfG], flat_vDict (by simp) ?_ _ h⟩
    simp only [List.forall_mem_cons]
    exact ⟨flat_float _, flat_float _, flat_float _, flat_float _, by simp⟩
  | .props ps, path, st, z, hf, hw, h => by
    simp only [SVal.WfG] at hw ⊢
    simp only [SVal.val] at h ⊢
    obtain ⟨d, rfl, h9⟩ := valProps_nonraw h
    rcases props_ext hG hH ps path d hw.2 h9 with ⟨h1, h2⟩ | ⟨q, hq, hb⟩
    · refine .inl ⟨⟨hw.1, h1⟩, ?_⟩
      simp only [Filled]
      exact .inr ⟨d, rfl, h2⟩
    · refine .inr ⟨?_, hb d q.1 hq⟩
      intro t ht he
      injection he with he
      exact hf t ht he
theorem mval_ext (hG : ∀ p, GuidArray p → Bad p) (hH : ∀ p, HalfArray p → Bad p) :
    ∀ (v : MVal rawMode) (path st : PyStr) (z : Val), v.WfG cfg noCustom True path st →
    Filled True (v.val cfg K path) z →
    (v.WfG cfg noCustom False path st ∧ Filled False (v.val cfg K path) z) ∨
      (v.type = "StructProperty" ∧ BadStruct Bad st z)
  | .struct s, path, st, z, hw, h => by
    simp only [MVal.WfG] at hw ⊢
    simp only [MVal.val] at h ⊢
    rcases sval_ext hG hH s path st z hw.1 hw.2 h with ⟨h1, h2⟩ | hb
    · exact .inl ⟨⟨hw.1, h1⟩, h2⟩
    · exact .inr ⟨rfl, hb⟩
  | .enum s, path, st, z, hw, h => by
    simp only [MVal.val] at h ⊢
    exact .inl ⟨by simp only [MVal.WfG], flat_vStr _ _ h⟩
  | .name s, path, st, z, hw, h => by
    simp only [MVal.val] at h ⊢
    exact .inl ⟨by simp only [MVal.WfG], flat_vStr _ _ h⟩
  | .int s, path, st, z, hw, h => by
    simp only [MVal.val] at h ⊢
    exact .inl ⟨by simp only [MVal.WfG], flat_int _ _ h⟩
  | .bool s, path, st, z, hw, h => by
    simp only [MVal.val] at h ⊢
    exact .inl ⟨by simp only [MVal.WfG], flat_bool _ _ h⟩
theorem prop_ext (hG : ∀ p, GuidArray p → Bad p) (hH : ∀ p, HalfArray p → Bad p) :
    ∀ (p : PropT rawMode) (path : PyStr) (z : Val), p.WfG cfg noCustom True path →
    Filled True (p.val cfg K path) z →
    (p.WfG cfg noCustom False path ∧ Filled False (p.val cfg K path) z) ∨ BadProp Bad (vDict (p.entries cfg path z))
  | .struct st sid id v, path, z, hw, h => by
    simp only [PropT.WfG] at hw ⊢
    simp only [PropT.val] at h ⊢
    rcases sval_ext hG hH v path st.val z hw.1 hw.2 h with ⟨h1, h2⟩ | hb
    · exact .inl ⟨⟨hw.1, h1⟩, h2⟩
    · simp only [PropT.entries]
      exact .inr (badStruct_prop (st := st.val) (v := z) _ (by simp) (by look) (by look) (by look) hb)
  | .structs id pn pt tn gid l, path, z, hw, h => by
    simp only [PropT.WfG] at hw ⊢
    simp only [PropT.val] at h ⊢
    rw [vDict, Filled] at h
    simp only [List.map_cons, List.map_nil] at h
    rcases h with (⟨v, h1, h2⟩ | ⟨-, -, e, h1⟩) | ⟨d', rfl, h⟩
    · simp at h1
    · simp only [PropT.entries]
      exact .inr (badProp_of (hH _ ⟨undecoded_vDict _ (by simp), by look, by look, z, e, by look, h1⟩))
    · simp only [ExtD] at h
      obtain ⟨a1, _, rfl, h1, a2, _, rfl, h2, a3, _, rfl, h3, a4, _, rfl, h4, a5, _, rfl, h5, rfl⟩ := h
      cases ext_vStr h1; cases ext_vStr h2; cases ext_vStr h4; cases ext_guid h5
      rw [Filled] at h3
      obtain ⟨l', rfl, h3⟩ := h3
      rcases svals_ext hG hH l (sub path pn) tn.val l' hw.2 h3 with ⟨g1, g2⟩ | hb
      · refine .inl ⟨⟨hw.1, g1⟩, ?_⟩
        rw [vDict, Filled]
        refine .inr ⟨_, rfl, ?_⟩
        simp only [List.map_cons, List.map_nil, ExtD]
        exact ⟨_, _, rfl, ext_refl _ _, _, _, rfl, ext_refl _ _, _, _, rfl, ext_list g2, _, _, rfl, ext_refl _ _, _, _, rfl,
          ext_refl _ _, rfl⟩
      · simp only [PropT.entries]
        exact .inr (badArray_prop (a := vDict [("prop_name", vStr pn), ("prop_type", vStr pt), ("values", .list l'),
          ("type_name", vStr tn), ("id", vGuid gid)]) (tn := tn.val) (xs := l') _ (by simp) (by look) (by look) (by look) (by look)
          (by look) hb)
  | .map kt vt id l, path, z, hw, h => by
    simp only [PropT.WfG] at hw ⊢
    simp only [PropT.val, Filled] at h ⊢
    obtain ⟨l', rfl, h⟩ := h
    rcases entries_ext' hG hH l path kt.val vt.val l' hw.2 h with ⟨g1, g2⟩ | hb
    · exact .inl ⟨⟨hw.1, g1⟩, l', rfl, g2⟩
    · simp only [PropT.entries]
      exact .inr (badMap_prop (kt := kt.val) (vt := vt.val) (ks := keyStruct cfg path) (vs := valueStruct cfg path) (xs := l') _
        (by simp) (by look) (by look) (by look) (by look) (by look) (by look) hb)
  | .bytes id b, path, z, hw, h => by
    simp only [PropT.WfG] at hw ⊢
    simp only [PropT.val] at h ⊢
    exact .inl ⟨hw, ext_raw False b z⟩
  | .others id o, path, z, hw, h => by simp only [PropT.WfG] at hw
  | .guids id [], path, z, hw, h => by
    simp only [PropT.WfG] at hw ⊢
    simp only [PropT.val] at h ⊢
    exact .inl ⟨.inl trivial, ext_empty False z⟩
  | .guids id (g :: l), path, z, hw, h => by
    simp only [PropT.val] at h ⊢
    refine .inr ?_
    obtain ⟨d', rfl, h9⟩ := ext_vDict (by simp) (by simp) h
    simp only [List.map_cons, List.map_nil, ExtD] at h9
    obtain ⟨a1, _, rfl, h1, rfl⟩ := h9
    simp only [PropT.entries]
    simp only [Filled, ExtL] at h1
    obtain ⟨_, rfl, x, xs, rfl, _, _⟩ := h1
    exact badGuids_prop hG (a := vDict [("values", .list (x :: xs))]) (x := x) (xs := xs) _ (by simp) (by look) (by look) (by look)
      (by look)
  | .int id n, path, z, hw, h => by
    simp only [PropT.val] at h ⊢
    exact .inl ⟨by simp only [PropT.WfG], flat_int _ _ h⟩
  | .int64 id n, path, z, hw, h => by
    simp only [PropT.val] at h ⊢
    exact .inl ⟨by simp only [PropT.WfG], flat_int _ _ h⟩
  | .fixed64 id n, path, z, hw, h => by
    simp only [PropT.val] at h ⊢
    exact .inl ⟨by simp only [PropT.WfG], flat_int _ _ h⟩
  | .float id n, path, z, hw, h => by
    simp only [PropT.val] at h ⊢
    exact .inl ⟨by simp only [PropT.WfG], flat_float _ _ h⟩
  | .str id n, path, z, hw, h => by
    simp only [PropT.val] at h ⊢
    exact .inl ⟨by simp only [PropT.WfG], flat_vStr _ _ h⟩
  | .name id n, path, z, hw, h => by
    simp only [PropT.val] at h ⊢
    exact .inl ⟨by simp only [PropT.WfG], flat_vStr _ _ h⟩
  | .bool id n, path, z, hw, h => by
    simp only [PropT.val] at h ⊢
    exact .inl ⟨by simp only [PropT.WfG], flat_bool _ _ h⟩
  | .enum et id n, path, z, hw, h => by
    simp only [PropT.val] at h ⊢
    refine .inl ⟨by simp only [PropT.WfG], flat_vDict (by simp) ?_ _ h⟩
    simp only [List.forall_mem_cons]
    exact ⟨flat_vStr _, flat_vStr _, by simp⟩
  | .enums id l, path, z, hw, h => by
    simp only [PropT.WfG] at hw ⊢
    simp only [PropT.val] at h ⊢
    refine .inl ⟨hw, flat_vDict (by simp) ?_ _ h⟩
    simp only [List.forall_mem_cons]
    refine ⟨flat_list ?_, by simp⟩
    rintro q hq
    obtain ⟨s, _, rfl⟩ := List.mem_map.1 hq
    exact flat_vStr s
  | .names id l, path, z, hw, h => by
    simp only [PropT.WfG] at hw ⊢
    simp only [PropT.val] at h ⊢
    refine .inl ⟨hw, flat_vDict (by simp) ?_ _ h⟩
    simp only [List.forall_mem_cons]
    refine ⟨flat_list ?_, by simp⟩
    rintro q hq
    obtain ⟨s, _, rfl⟩ := List.mem_map.1 hq
    exact flat_vStr s
theorem svals_ext (hG : ∀ p, GuidArray p → Bad p) (hH : ∀ p, HalfArray p → Bad p) :
    ∀ (l : List (SVal rawMode)) (path st : PyStr) (l' : List Val), wfSValsG cfg noCustom True path st l →
    ExtL True (valSVals cfg K path l) l' →
    (wfSValsG cfg noCustom False path st l ∧ ExtL False (valSVals cfg K path l) l') ∨ ∃ x ∈ l', BadStruct Bad st x
  | [], path, st, l', hw, h => by
    simp only [valSVals, ExtL] at h ⊢
    exact .inl ⟨by simp only [wfSValsG], h⟩
  | v :: t, path, st, l', hw, h => by
    simp only [wfSValsG] at hw ⊢
    simp only [valSVals, ExtL] at h ⊢
    obtain ⟨a', t', rfl, h1, h2⟩ := h
    rcases sval_ext hG hH v path st a' hw.1 hw.2.1 h1 with ⟨g1, g2⟩ | hb
    · rcases svals_ext hG hH t path st t' hw.2.2 h2 with ⟨k1, k2⟩ | ⟨x, hx, hb⟩
      · exact .inl ⟨⟨hw.1, g1, k1⟩, a', t', rfl, g2, k2⟩
      · exact .inr ⟨x, by simp [hx], hb⟩
    · exact .inr ⟨a', by simp, hb⟩
theorem entries_ext' (hG : ∀ p, GuidArray p → Bad p) (hH : ∀ p, HalfArray p → Bad p) :
    ∀ (l : List (MVal rawMode × MVal rawMode)) (path kt vt : PyStr) (l' : List Val),
    wfEntriesG cfg noCustom True path kt vt l → ExtL True (valEntries cfg K path l) l' →
    (wfEntriesG cfg noCustom False path kt vt l ∧ ExtL False (valEntries cfg K path l) l') ∨
      ∃ x ∈ l', BadEntry Bad kt (keyStruct cfg path) vt (valueStruct cfg path) x
  | [], path, kt, vt, l', hw, h => by
    simp only [valEntries, ExtL] at h ⊢
    exact .inl ⟨by simp only [wfEntriesG], h⟩
  | (k, v) :: t, path, kt, vt, l', hw, h => by
    simp only [wfEntriesG] at hw ⊢
    obtain ⟨w1, w2, w3, w4, w5⟩ := hw
    simp only [valEntries, ExtL] at h ⊢
    obtain ⟨a', t', rfl, h1, h2⟩ := h
    obtain ⟨d', rfl, h9⟩ := ext_vDict (by simp) (by simp) h1
    simp only [List.map_cons, List.map_nil, ExtD] at h9
    obtain ⟨a1, _, rfl, h3, a2, _, rfl, h4, rfl⟩ := h9
    rcases mval_ext hG hH k _ _ a1 w2 h3 with ⟨g1, g2⟩ | ⟨ht, hb⟩
    · rcases mval_ext hG hH v _ _ a2 w4 h4 with ⟨f1, f2⟩ | ⟨ht, hb⟩
      · rcases entries_ext' hG hH t path kt vt t' w5 h2 with ⟨k1, k2⟩ | ⟨x, hx, hb⟩
        · refine .inl ⟨⟨w1, g1, w3, f1, k1⟩, _, t', rfl, ?_, k2⟩
          simp only [vDict, List.map_cons, List.map_nil]
          rw [Filled]
          refine .inr ⟨_, rfl, ?_⟩
          simp only [ExtD]
          exact ⟨_, _, rfl, g2, _, _, rfl, f2, rfl⟩
        · exact .inr ⟨x, by simp [hx], hb⟩
      · exact .inr ⟨_, List.mem_cons_self, .inr ⟨by rw [w3, ht], a2, by rfl, hb⟩⟩
    · exact .inr ⟨_, List.mem_cons_self, .inl ⟨by rw [w1, ht], a1, by rfl, hb⟩⟩
theorem props_ext (hG : ∀ p, GuidArray p → Bad p) (hH : ∀ p, HalfArray p → Bad p) :
    ∀ (ps : List (Str × PropT rawMode)) (path : PyStr) (d' : Dict), wfPropsG cfg noCustom True path ps →
    ExtD True (valProps cfg K path ps) d' →
    (wfPropsG cfg noCustom False path ps ∧ ExtD False (valProps cfg K path ps) d') ∨ ∃ q ∈ d', BadProp Bad q.2
  | [], path, d', hw, h => by
    simp only [valProps, ExtD] at h ⊢
    exact .inl ⟨by simp only [wfPropsG], h⟩
  | (n, p) :: t, path, d', hw, h => by
    simp only [wfPropsG] at hw ⊢
    obtain ⟨w1, w2, w3⟩ := hw
    simp only [valProps, ExtD] at h ⊢
    obtain ⟨a', t', rfl, h1, h2⟩ := h
    cases hc : cfg.custom (sub path n) with
    | some c => rw [hc] at w2; exact w2.2.1.elim
    | none =>
      rw [hc] at w2
      simp only [showProp, hc] at h1 ⊢
      obtain ⟨x', rfl, h9⟩ := ext_entries h1
      rcases prop_ext hG hH p _ x' w2 h9 with ⟨g1, g2⟩ | hb
      · rcases props_ext hG hH t path t' w3 h2 with ⟨k1, k2⟩ | ⟨q, hq, hb⟩
        · exact .inl ⟨⟨w1, g1, k1⟩, _, t', rfl, entries_ext cfg _ p g2, k2⟩
        · exact .inr ⟨q, by simp [hq], hb⟩
      · exact .inr ⟨_, List.mem_cons_self, hb⟩
end

end Pal
