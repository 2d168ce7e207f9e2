import Verif.Lemmas.TreeMono
import Verif.Lemmas.Put
/-
Writing again what a write has left behind gives the same bytes and changes nothing.
-/

namespace Pal

/-- Writing the value left by a write gives the same bytes and the same value. -/
def Idem (f : Val → W) : Prop := ∀ v b v', f v = .ok (b, v') → f v' = .ok (b, v')

theorem keep_ok {v v' : Val} {x : Except Err Bytes} {b : Bytes} : keep v x = .ok (b, v') ↔ x = .ok b ∧ v' = v := by
  cases x with
  | error e => simp [keep]
  | ok c => simp only [keep, Except.ok.injEq, Prod.mk.injEq, eq_comm (a := v)]

theorem idem_keep (w : Val → Except Err Bytes) : Idem fun v => keep v (w v) := by
  intro v b v' h
  obtain ⟨h1, rfl⟩ := keep_ok.1 h
  exact h

theorem wOn_ok {v v' : Val} {k : String} {f : Val → W} {b : Bytes} :
    wOn v k f = .ok (b, v') ↔ ∃ x x', v.get (P k) = .ok x ∧ f x = .ok (b, x') ∧ v.set (P k) x' = .ok v' := by
  unfold wOn
  cases h1 : v.get (P k) with
  | error e => simp
  | ok x =>
    simp only [Except.ok.injEq, exists_and_left, exists_eq_left']
    cases h2 : f x with
    | error e => simp
    | ok r =>
      obtain ⟨c, x'⟩ := r
      simp only [Except.ok.injEq, Prod.mk.injEq]
      cases h3 : v.set (P k) x' with
      | error e =>
        simp only [reduceCtorEq, false_iff, not_exists, not_and]
        rintro y ⟨-, rfl⟩
        rw [h3]; simp
      | ok w =>
        simp only [Except.ok.injEq, Prod.mk.injEq]
        constructor
        · rintro ⟨rfl, rfl⟩; exact ⟨x', ⟨rfl, rfl⟩, h3⟩
        · rintro ⟨y, ⟨rfl, rfl⟩, h⟩
          rw [h3] at h
          exact ⟨rfl, by injection h⟩

theorem set_get_same {v v' x : Val} {k : PyStr} (h : v.set k x = .ok v') :
    v'.get k = .ok x ∧ v'.set k x = .ok v' := by
  cases v <;> simp only [Val.set, reduceCtorEq, Except.ok.injEq] at h
  subst h
  simp only [Val.get, Val.set, dget_dset, dset_dset, and_self]

theorem idem_on {k : String} {F : Val → Val → W} (hF : ∀ v, Idem (F v))
    (hs : ∀ v v' x, v.set (P k) x = .ok v' → F v' = F v) : Idem fun v => wOn v k (F v) := by
  intro v b v' h
  obtain ⟨x, x', h1, h2, h3⟩ := wOn_ok.1 h
  obtain ⟨h4, h5⟩ := set_get_same h3
  refine wOn_ok.2 ⟨x', x', h4, ?_, h5⟩
  rw [hs _ _ _ h3]
  exact hF v _ _ _ h2

theorem wThen_ok {p : Except Err Bytes} {x : W} {b : Bytes} {v : Val} :
    wThen p x = .ok (b, v) ↔ ∃ c d, p = .ok c ∧ x = .ok (d, v) ∧ b = c ++ d := by
  unfold wThen
  cases p with
  | error e => simp
  | ok c =>
    cases x with
    | error e => simp
    | ok r =>
      obtain ⟨d, w⟩ := r
      simp only [Except.ok.injEq, Prod.mk.injEq]
      constructor
      · rintro ⟨rfl, rfl⟩; exact ⟨c, d, rfl, ⟨rfl, rfl⟩, rfl⟩
      · rintro ⟨_, _, rfl, ⟨rfl, rfl⟩, rfl⟩; exact ⟨rfl, rfl⟩

theorem sized_ok {p : Except Err Bytes} {x : W} {n : Nat} {b : Bytes} {v : Val} :
    sized p x = .ok (n, b, v) ↔ ∃ c d, p = .ok c ∧ x = .ok (d, v) ∧ n = d.length ∧ b = c ++ d := by
  unfold sized
  cases p with
  | error e => simp
  | ok c =>
    cases x with
    | error e => simp
    | ok r =>
      obtain ⟨d, w⟩ := r
      simp only [Except.ok.injEq, Prod.mk.injEq]
      constructor
      · rintro ⟨rfl, rfl, rfl⟩; exact ⟨c, d, rfl, ⟨rfl, rfl⟩, rfl, rfl⟩
      · rintro ⟨_, _, rfl, ⟨rfl, rfl⟩, rfl, rfl⟩; exact ⟨rfl, rfl, rfl⟩

theorem idem_mapL {f : Val → W} (hf : Idem f) : ∀ l b l', wMapL f l = .ok (b, l') → wMapL f l' = .ok (b, l')
  | [], b, l', h => by cases h; rfl
  | a :: t, b, l', h => by
    simp only [wMapL] at h
    cases h1 : f a with
    | error e => rw [h1] at h; cases h
    | ok r =>
      obtain ⟨c, a'⟩ := r
      rw [h1] at h
      simp only at h
      cases h2 : wMapL f t with
      | error e => rw [h2] at h; cases h
      | ok r =>
        obtain ⟨d, t'⟩ := r
        rw [h2] at h
        cases h
        simp only [wMapL, hf _ _ _ h1, idem_mapL hf _ _ _ h2]

theorem mapL_list {f : Val → W} {l : List Val} {v : Val} {k : List Val → Val} {b : Bytes}
    (h : (match wMapL f l with
      | .ok (b, l') => (.ok (b, k l') : W)
      | .error e => .error e) = .ok (b, v)) : ∃ l', wMapL f l = .ok (b, l') ∧ v = k l' := by
  cases h1 : wMapL f l with
  | error e => rw [h1] at h; cases h
  | ok r =>
    obtain ⟨c, l'⟩ := r
    rw [h1] at h
    cases h
    exact ⟨l', rfl, rfl⟩

theorem idem_seq {f : Val → W} (hf : Idem f) : Idem (wSeq f) := by
  intro v b v' h
  unfold wSeq at h
  split at h
  · obtain ⟨l', h1, rfl⟩ := mapL_list (k := Val.list) h
    simp only [wSeq, idem_mapL hf _ _ _ h1]
  · obtain ⟨l', h1, rfl⟩ := mapL_list (k := Val.tuple) h
    simp only [wSeq, idem_mapL hf _ _ _ h1]
  · rename_i hl ht
    have hv : v' = v := by
      split at h
      · cases h
      · split at h <;> cases h
        rfl
    subst hv
    unfold wSeq
    split
    · exact (hl _ rfl).elim
    · exact (ht _ rfl).elim
    · exact h

theorem idem_iter {f : Val → W} (hf : Idem f) : Idem (wIter f) := by
  intro v b v' h
  unfold wIter at h
  split at h
  · obtain ⟨l', h1, rfl⟩ := mapL_list (k := Val.list) h
    simp only [wIter, idem_mapL hf _ _ _ h1]
  · obtain ⟨l', h1, rfl⟩ := mapL_list (k := Val.tuple) h
    simp only [wIter, idem_mapL hf _ _ _ h1]
  · rename_i hl ht
    have hv : v' = v := by
      split at h
      · cases h
      · split at h <;> cases h
        rfl
    subst hv
    unfold wIter
    split
    · exact (hl _ rfl).elim
    · exact (ht _ rfl).elim
    · exact h

theorem idem_structValue {r : Val → W} (hr : Idem r) (st : Val) : Idem (wStructValue r st) := by
  intro v b v' h
  unfold wStructValue at h ⊢
  repeat' split
  all_goals simp only [*, if_true, if_false, Bool.false_eq_true] at h
  all_goals first
    | exact hr _ _ _ h
    | (obtain ⟨h1, rfl⟩ := keep_ok.1 h; exact h)

theorem idem_propValue {r : Val → W} (hr : Idem r) (ty st : Val) : Idem (wPropValue r ty st) := by
  intro v b v' h
  unfold wPropValue at h ⊢
  repeat' split
  all_goals simp only [*, if_true, if_false, Bool.false_eq_true] at h
  all_goals first
    | exact idem_structValue hr st _ _ _ h
    | (obtain ⟨h1, rfl⟩ := keep_ok.1 h; exact h)
    | cases h

/-! ### parts of a property -/

theorem P_ne {a b : String} (h : a ≠ b) : P a ≠ P b := fun e => h ((P_inj a b).1 e)

theorem mapL_length {f : Val → W} : ∀ {l : List Val} {b : Bytes} {l' : List Val}, wMapL f l = .ok (b, l') →
    l'.length = l.length
  | [], b, l', h => by cases h; rfl
  | a :: t, b, l', h => by
    simp only [wMapL] at h
    cases h1 : f a with
    | error e => rw [h1] at h; cases h
    | ok r =>
      obtain ⟨c, a'⟩ := r
      rw [h1] at h
      simp only at h
      cases h2 : wMapL f t with
      | error e => rw [h2] at h; cases h
      | ok r =>
        obtain ⟨d, t'⟩ := r
        rw [h2] at h
        cases h
        simp only [List.length_cons, mapL_length h2]

theorem seq_len {f : Val → W} {v v' : Val} {b : Bytes} (h : wSeq f v = .ok (b, v')) : wLen v' = wLen v := by
  unfold wSeq at h
  split at h
  · obtain ⟨l', h1, rfl⟩ := mapL_list (k := Val.list) h
    simp only [wLen, Val.len, mapL_length h1]
  · obtain ⟨l', h1, rfl⟩ := mapL_list (k := Val.tuple) h
    simp only [wLen, Val.len, mapL_length h1]
  · split at h
    · cases h
    · split at h <;> cases h
      rfl

theorem iter_len {f : Val → W} {v v' : Val} {b : Bytes} (h : wIter f v = .ok (b, v')) : wLen v' = wLen v := by
  unfold wIter at h
  split at h
  · obtain ⟨l', h1, rfl⟩ := mapL_list (k := Val.list) h
    simp only [wLen, Val.len, mapL_length h1]
  · obtain ⟨l', h1, rfl⟩ := mapL_list (k := Val.tuple) h
    simp only [wLen, Val.len, mapL_length h1]
  · split at h
    · cases h
    · split at h <;> cases h
      rfl

theorem at_set_ne {v v' x : Val} {k k' : String} {w : Val → Except Err Bytes} {t : List String} (h : v.set (P k) x = .ok v')
    (hn : k' ≠ k) : wAt v' (k' :: t) w = wAt v (k' :: t) w := by
  have h1 : v'.get (P k') = v.get (P k') := get_set_ne h (P_ne hn)
  simp only [wAt, List.map, Val.path, h1]

theorem at_get {v x : Val} {k : String} {w : Val → Except Err Bytes} (h : v.get (P k) = .ok x) :
    wAt v [k] w = w x := by
  simp only [wAt, List.map, Val.path, h]

theorem getD_set_ne {v v' x : Val} {k k' : PyStr} (h : v.set k x = .ok v') (hn : k' ≠ k) : v'.getD k' = v.getD k' := by
  cases v <;> simp only [Val.set, reduceCtorEq, Except.ok.injEq] at h
  subst h
  simp only [Val.getD, dget_dset_ne _ _ hn]

theorem contains_set_ne {v v' x : Val} {k k' : PyStr} (h : v.set k x = .ok v') (hn : k' ≠ k) :
    v'.contains k' = v.contains k' := by
  cases v <;> simp only [Val.set, reduceCtorEq, Except.ok.injEq] at h
  subst h
  simp only [Val.contains, dget_dset_ne _ _ hn]

theorem wId_set {v v' x : Val} (h : v.set (P "value") x = .ok v') : wId v' = wId v := by
  simp only [wId, getD_set_ne h (P_ne (by decide : "id" ≠ "value"))]

theorem idem_arrayProperty {r : Val → W} (hr : Idem r) (at_ : Val) : Idem (wArrayProperty r at_) := by
  intro v b v' h
  unfold wArrayProperty at h ⊢
  by_cases hs : at_.isS "StructProperty" = true
  · simp only [hs, if_true] at h ⊢
    obtain ⟨c, d, h1, h2, rfl⟩ := wThen_ok.1 h
    obtain ⟨e, f, h3, h4, rfl⟩ := wThen_ok.1 h2
    cases h5 : wOn v "values" (wSeq (wStructElem r v)) with
    | error _ => rw [h5] at h4; cases h4
    | ok y =>
      obtain ⟨buf, value'⟩ := y
      rw [h5] at h4
      simp only at h4
      obtain ⟨g, i, h6, h7, rfl⟩ := wThen_ok.1 h4
      simp only [Except.ok.injEq, Prod.mk.injEq] at h7
      obtain ⟨rfl, rfl⟩ := h7
      obtain ⟨x, x', h8, h9, h10⟩ := wOn_ok.1 h5
      have hE : wStructElem r value' = wStructElem r v := by
        funext z
        simp only [wStructElem, get_set_ne h10 (P_ne (by decide : "type_name" ≠ "values"))]
      obtain ⟨h11, h12⟩ := set_get_same h10
      refine wThen_ok.2 ⟨c, _, ?_, wThen_ok.2 ⟨e, _, ?_, ?_, rfl⟩, rfl⟩
      · rw [at_get h11, seq_len h9]
        rwa [at_get h8] at h1
      · rw [at_set_ne h10 (by decide), at_set_ne h10 (by decide)]
        exact h3
      · have hid : Idem (wStructElem r v) := by
          intro a b a' ha
          unfold wStructElem at ha ⊢
          split at ha
          · cases ha
          · exact idem_structValue hr _ _ _ _ ha
        have : wOn value' "values" (wSeq (wStructElem r value')) = .ok (buf, value') :=
          wOn_ok.2 ⟨x', x', h11, by rw [hE]; exact idem_seq hid _ _ _ h9, h12⟩
        rw [this]
        simp only
        refine wThen_ok.2 ⟨g, _, ?_, rfl, rfl⟩
        rw [at_set_ne h10 (by decide), at_set_ne h10 (by decide)]
        exact h6
  · simp only [hs, if_false, Bool.false_eq_true] at h ⊢
    obtain ⟨c, d, h1, h2, rfl⟩ := wThen_ok.1 h
    obtain ⟨h3, rfl⟩ := keep_ok.1 h2
    exact h

theorem idem_mapEntry {r : Val → W} (hr : Idem r) (p : Val) : Idem (wMapEntry r p) := by
  intro v b v' h
  unfold wMapEntry at h ⊢
  cases h1 : p.get (P "key_type") with
  | error e => rw [h1] at h; cases h
  | ok kt =>
    rw [h1] at h
    simp only at h ⊢
    cases h2 : p.get (P "key_struct_type") with
    | error e => rw [h2] at h; cases h
    | ok kst =>
      rw [h2] at h
      simp only at h ⊢
      cases h3 : wOn v "key" (wPropValue r kt kst) with
      | error e => rw [h3] at h; cases h
      | ok y =>
        obtain ⟨kb, w⟩ := y
        rw [h3] at h
        simp only at h
        cases h4 : p.get (P "value_type") with
        | error e => rw [h4] at h; cases h
        | ok vt =>
          rw [h4] at h
          simp only at h
          cases h5 : p.get (P "value_struct_type") with
          | error e => rw [h5] at h; cases h
          | ok vst =>
            rw [h5] at h
            simp only at h ⊢
            obtain ⟨_, d, h6, h7, rfl⟩ := wThen_ok.1 h
            injection h6 with h6
            subst h6
            obtain ⟨x, x', h8, h9, h10⟩ := wOn_ok.1 h3
            obtain ⟨y, y', h11, h12, h13⟩ := wOn_ok.1 h7
            have hk : P "key" ≠ P "value" := P_ne (by decide)
            have hg : v'.get (P "key") = .ok x' := by
              rw [get_set_ne h13 hk]; exact (set_get_same h10).1
            have hset : v'.set (P "key") x' = .ok v' := by
              obtain ⟨d', rfl⟩ := get_dict_of_ok hg
              simp only [Val.get] at hg
              cases hd : dget? d' (P "key") with
              | none => rw [hd] at hg; cases hg
              | some z =>
                rw [hd] at hg
                injection hg with hg
                subst hg
                simp only [Val.set, dset_same _ _ _ hd]
            have hk1 : wOn v' "key" (wPropValue r kt kst) = .ok (kb, v') :=
              wOn_ok.2 ⟨x', x', hg, idem_propValue hr _ _ _ _ _ h9, hset⟩
            rw [hk1]
            simp only
            refine wThen_ok.2 ⟨kb, d, rfl, wOn_ok.2 ⟨y', y', (set_get_same h13).1, idem_propValue hr _ _ _ _ _ h12,
              (set_get_same h13).2⟩, rfl⟩

theorem idem_mapBody {r : Val → W} (hr : Idem r) : Idem (wMapBody r) := by
  intro v b v' h
  unfold wMapBody at h ⊢
  obtain ⟨c, d, h1, h2, rfl⟩ := wThen_ok.1 h
  obtain ⟨x, x', h3, h4, h5⟩ := wOn_ok.1 h2
  have hE : wMapEntry r v' = wMapEntry r v := by
    funext e
    unfold wMapEntry
    rw [get_set_ne h5 (P_ne (by decide : "key_type" ≠ "value")),
      get_set_ne h5 (P_ne (by decide : "key_struct_type" ≠ "value")),
      get_set_ne h5 (P_ne (by decide : "value_type" ≠ "value")),
      get_set_ne h5 (P_ne (by decide : "value_struct_type" ≠ "value"))]
  obtain ⟨h6, h7⟩ := set_get_same h5
  refine wThen_ok.2 ⟨c, d, ?_, wOn_ok.2 ⟨x', x', h6, ?_, h7⟩, rfl⟩
  · rw [at_get h6, iter_len h4]
    rwa [at_get h3] at h1
  · rw [hE]
    exact idem_iter (idem_mapEntry hr v) _ _ _ h4

/-! ### properties -/

/-- The plain writer, besides, changes only "value". -/
theorem idem_plain {r : Val → W} (hr : Idem r) (ty : Val) {v v' : Val} {n : Nat} {b : Bytes}
    (h : wPlainInner r ty v = .ok (n, b, v')) :
    wPlainInner r ty v' = .ok (n, b, v') ∧ (v' = v ∨ ∃ x, v.set (P "value") x = .ok v') := by
  have hconst : ∀ {k : Nat} {w : Val} {x : Except Err Bytes}, sizeConst k w x = .ok (n, b, v') → v' = w := by
    intro k w x h
    cases x <;> cases h
    rfl
  have hkeep : ∀ {w : Val} {p x : Except Err Bytes}, sized p (keep w x) = .ok (n, b, v') → v' = w := by
    intro w p x h
    obtain ⟨c, d, -, h2, -⟩ := sized_ok.1 h
    exact (keep_ok.1 h2).2
  unfold wPlainInner at h ⊢
  by_cases ht : ty.isS "StructProperty" = true
  · rw [if_pos ht] at h ⊢
    obtain ⟨c, d, h1, h2, rfl, rfl⟩ := sized_ok.1 h
    cases h3 : v.get (P "struct_type") with
    | error e => rw [h3] at h2; cases h2
    | ok st =>
      rw [h3] at h2
      simp only at h2
      obtain ⟨x, x', h4, h5, h6⟩ := wOn_ok.1 h2
      refine ⟨?_, .inr ⟨x', h6⟩⟩
      rw [get_set_ne h6 (P_ne (by decide)), h3, at_set_ne h6 (by decide),
        at_set_ne h6 (by decide), wId_set h6]
      exact sized_ok.2 ⟨c, d, h1, wOn_ok.2 ⟨x', x', (set_get_same h6).1, idem_structValue hr _ _ _ _ h5,
        (set_get_same h6).2⟩, rfl, rfl⟩
  rw [if_neg ht] at h ⊢
  clear ht
  by_cases ht : ty.isS "IntProperty" = true
  · rw [if_pos ht] at h ⊢
    cases hconst h
    exact ⟨h, .inl rfl⟩
  rw [if_neg ht] at h ⊢
  clear ht
  by_cases ht : ty.isS "Int64Property" = true
  · rw [if_pos ht] at h ⊢
    cases hconst h
    exact ⟨h, .inl rfl⟩
  rw [if_neg ht] at h ⊢
  clear ht
  by_cases ht : ty.isS "FixedPoint64Property" = true
  · rw [if_pos ht] at h ⊢
    cases hconst h
    exact ⟨h, .inl rfl⟩
  rw [if_neg ht] at h ⊢
  clear ht
  by_cases ht : ty.isS "FloatProperty" = true
  · rw [if_pos ht] at h ⊢
    cases hconst h
    exact ⟨h, .inl rfl⟩
  rw [if_neg ht] at h ⊢
  clear ht
  by_cases ht : ty.isS "StrProperty" = true
  · rw [if_pos ht] at h ⊢
    cases hkeep h
    exact ⟨h, .inl rfl⟩
  rw [if_neg ht] at h ⊢
  clear ht
  by_cases ht : ty.isS "NameProperty" = true
  · rw [if_pos ht] at h ⊢
    cases hkeep h
    exact ⟨h, .inl rfl⟩
  rw [if_neg ht] at h ⊢
  clear ht
  by_cases ht : ty.isS "EnumProperty" = true
  · rw [if_pos ht] at h ⊢
    cases hkeep h
    exact ⟨h, .inl rfl⟩
  rw [if_neg ht] at h ⊢
  clear ht
  by_cases ht : ty.isS "BoolProperty" = true
  · rw [if_pos ht] at h ⊢
    cases hconst h
    exact ⟨h, .inl rfl⟩
  rw [if_neg ht] at h ⊢
  clear ht
  by_cases ht : ty.isS "ArrayProperty" = true
  · rw [if_pos ht] at h ⊢
    obtain ⟨c, d, h1, h2, rfl, rfl⟩ := sized_ok.1 h
    cases h3 : v.get (P "array_type") with
    | error e => rw [h3] at h2; cases h2
    | ok st =>
      rw [h3] at h2
      simp only at h2
      obtain ⟨x, x', h4, h5, h6⟩ := wOn_ok.1 h2
      refine ⟨?_, .inr ⟨x', h6⟩⟩
      rw [get_set_ne h6 (P_ne (by decide)), h3, at_set_ne h6 (by decide), wId_set h6]
      exact sized_ok.2 ⟨c, d, h1, wOn_ok.2 ⟨x', x', (set_get_same h6).1, idem_arrayProperty hr _ _ _ _ h5,
        (set_get_same h6).2⟩, rfl, rfl⟩
  rw [if_neg ht] at h ⊢
  clear ht
  by_cases ht : ty.isS "MapProperty" = true
  · rw [if_pos ht] at h ⊢
    obtain ⟨c, d, h1, h2, rfl, rfl⟩ := sized_ok.1 h
    have h3 := idem_mapBody hr _ _ _ h2
    unfold wMapBody at h2
    obtain ⟨e, f, h4, h5, h6⟩ := wThen_ok.1 h2
    obtain ⟨x, x', h7, h8, h9⟩ := wOn_ok.1 h5
    refine ⟨?_, .inr ⟨x', h9⟩⟩
    rw [at_set_ne h9 (by decide), at_set_ne h9 (by decide), wId_set h9]
    exact sized_ok.2 ⟨c, d, h1, h3, rfl, rfl⟩
  rw [if_neg ht] at h
  cases h

theorem contains_del {v v' : Val} {k : PyStr} (h : v.del k = .ok v') : v'.contains k = .ok false := by
  cases v <;> simp only [Val.del, reduceCtorEq] at h
  rename_i d
  split at h
  · cases h
    have : dget? (derase d k) k = none := by
      clear * -
      induction d with
      | nil => rfl
      | cons a t ih =>
        obtain ⟨k', x⟩ := a
        simp only [derase]
        by_cases e : k' = k
        · rw [if_pos e]; exact ih
        · rw [if_neg e]; simp only [dget?, e, if_false]; exact ih
    simp only [Val.contains, this, Option.isSome_none]
  · cases h

theorem contains_upd {f : Val → Except Err Val} {k k' : PyStr} {t : List PyStr} {v v' : Val} (hn : k' ≠ k)
    (h : v.upd f (k :: t) = .ok v') : v'.contains k' = v.contains k' := by
  simp only [Val.upd] at h
  cases h1 : v.get k with
  | error e => rw [h1] at h; cases h
  | ok x =>
    rw [h1] at h
    simp only at h
    cases h2 : x.upd f t with
    | error e => rw [h2] at h; cases h
    | ok x' => rw [h2] at h; exact contains_set_ne h hn

theorem pre_contains {c : CodecId} {wp : Val → Except Err Bytes} {v v' : Val} (h : c.pre wp v = .ok v') :
    v'.contains (P "custom_type") = .ok false := by
  have key : ∀ {f : Val → Except Err Val} {k : String} {t : List PyStr}, "custom_type" ≠ k →
      delThen (Val.upd f (P k :: t)) v = .ok v' → v'.contains (P "custom_type") = .ok false := by
    intro f k t hn h
    unfold delThen at h
    cases h1 : v.del (P "custom_type") with
    | error e => rw [h1] at h; cases h
    | ok w =>
      rw [h1] at h
      simp only at h
      rw [contains_upd (P_ne hn) h]
      exact contains_del h1
  have hv : "custom_type" ≠ "value" := by decide
  cases c <;> simp only [CodecId.pre, encodeValue, ks, List.map] at h <;> first | exact key hv h | exact contains_del h

theorem inner_plain {cfg : Cfg} {r : Val → W} {wp : Val → Except Err Bytes} {ty v : Val}
    (h : v.contains (P "custom_type") = .ok false) : wInner cfg r wp ty v = wPlainInner r ty v := by
  simp only [wInner, h]

theorem idem_inner {cfg : Cfg} {r : Val → W} (hr : Idem r) {wp : Val → Except Err Bytes} (ty : Val) {v v' : Val} {n : Nat}
    {b : Bytes} (h : wInner cfg r wp ty v = .ok (n, b, v')) : wInner cfg r wp ty v' = .ok (n, b, v') := by
  have key : ∀ w, w.contains (P "custom_type") = .ok false → wPlainInner r ty w = .ok (n, b, v') →
      wInner cfg r wp ty v' = .ok (n, b, v') := by
    intro w hw h
    obtain ⟨h1, h2⟩ := idem_plain hr ty h
    rw [inner_plain, h1]
    obtain rfl | ⟨x, h2⟩ := h2
    · exact hw
    · rw [contains_set_ne h2 (P_ne (by decide))]; exact hw
  unfold wInner at h
  split at h
  · cases h
  · rename_i hc; exact key v hc h
  · split at h
    · cases h
    · split at h
      · cases h
      · split at h
        · split at h
          · cases h
          · rename_i hp; exact key _ (pre_contains hp) h
        · cases h
    · cases h
    · cases h
    · cases h

theorem pre_get_type {c : CodecId} {wp : Val → Except Err Bytes} {v v' : Val} (h : c.pre wp v = .ok v') :
    v'.get (P "type") = v.get (P "type") := by
  have hd : ∀ {v w : Val}, v.del (P "custom_type") = .ok w → w.get (P "type") = v.get (P "type") := by
    clear * -
    intro v w h
    cases v <;> simp only [Val.del, reduceCtorEq] at h
    rename_i d
    split at h
    · cases h
      have : dget? (derase d (P "custom_type")) (P "type") = dget? d (P "type") := by
        clear * -
        have hn : P "custom_type" ≠ P "type" := P_ne (by decide)
        induction d with
        | nil => rfl
        | cons a t ih =>
          obtain ⟨k', x⟩ := a
          simp only [derase]
          by_cases e : k' = P "custom_type"
          · rw [if_pos e]; simp only [dget?, e, hn, if_false]; exact ih
          · rw [if_neg e]; simp only [dget?, ih]
      simp only [Val.get, this]
    · cases h
  have key : ∀ {f : Val → Except Err Val} {k : String} {t : List PyStr}, "type" ≠ k →
      delThen (Val.upd f (P k :: t)) v = .ok v' → v'.get (P "type") = v.get (P "type") := by
    intro f k t hn h
    unfold delThen at h
    cases h1 : v.del (P "custom_type") with
    | error e => rw [h1] at h; cases h
    | ok w =>
      rw [h1] at h
      simp only [Val.upd] at h
      cases h2 : w.get (P k) with
      | error e => rw [h2] at h; cases h
      | ok x =>
        rw [h2] at h
        simp only at h
        cases h3 : x.upd f t with
        | error e => rw [h3] at h; cases h
        | ok x' =>
          rw [h3] at h
          rw [get_set_ne h (P_ne hn)]
          exact hd h1
  have hv : "type" ≠ "value" := by decide
  cases c <;> simp only [CodecId.pre, encodeValue, ks, List.map] at h <;> first | exact key hv h | exact hd h

theorem inner_get_type {cfg : Cfg} {r : Val → W} (hr : Idem r) {wp : Val → Except Err Bytes} {ty : Val} {v v' : Val} {n : Nat}
    {b : Bytes} (h : wInner cfg r wp ty v = .ok (n, b, v')) : v'.get (P "type") = v.get (P "type") := by
  have key : ∀ w, wPlainInner r ty w = .ok (n, b, v') → v'.get (P "type") = w.get (P "type") := by
    intro w h
    obtain ⟨h1, rfl | ⟨x, h2⟩⟩ := idem_plain hr ty h
    · rfl
    · exact get_set_ne h2 (P_ne (by decide))
  unfold wInner at h
  split at h
  · cases h
  · exact key v h
  · split at h
    · cases h
    · split at h
      · cases h
      · split at h
        · split at h
          · cases h
          · rename_i hp; rw [key _ h, pre_get_type hp]
        · cases h
    · cases h
    · cases h
    · cases h

theorem property_shape {g : Except Err Val} {wf : Val → Except Err Bytes} {inner : Val → Val → WP}
    {w : Val → Except Err Bytes} {prop v' : Val} {b : Bytes} :
    (show W from match g with
      | .error e => .error e
      | .ok ty => match wf ty with
        | .error e => .error e
        | .ok tb => match inner ty prop with
          | .error e => .error e
          | .ok (size, buf, prop') => match w (.int size) with
            | .error e => .error e
            | .ok sb => .ok (tb ++ sb ++ buf, prop')) = .ok (b, v') ↔
    ∃ ty tb n buf sb, g = .ok ty ∧ wf ty = .ok tb ∧ inner ty prop = .ok (n, buf, v') ∧ w (.int n) = .ok sb ∧
      b = tb ++ sb ++ buf := by
  constructor
  · intro h
    cases g with
    | error e => cases h
    | ok ty =>
      simp only at h
      cases h2 : wf ty with
      | error e => rw [h2] at h; cases h
      | ok tb =>
        rw [h2] at h
        simp only at h
        cases h3 : inner ty prop with
        | error e => rw [h3] at h; cases h
        | ok q =>
          obtain ⟨n, buf, p⟩ := q
          rw [h3] at h
          simp only at h
          cases h4 : w (.int n) with
          | error e => rw [h4] at h; cases h
          | ok sb => rw [h4] at h; cases h; exact ⟨ty, tb, _, _, sb, rfl, h2, h3, h4, rfl⟩
  · rintro ⟨ty, tb, n, buf, sb, h1, h2, h3, h4, rfl⟩
    simp only [h1, h2, h3, h4]

theorem property_ok {cfg : Cfg} {r : Val → W} {wp : Val → Except Err Bytes} {prop v' : Val} {b : Bytes} :
    wProperty cfg r wp prop = .ok (b, v') ↔ ∃ ty tb n buf sb, prop.get (P "type") = .ok ty ∧ wFString ty = .ok tb ∧
      wInner cfg r wp ty prop = .ok (n, buf, v') ∧ wU64 (.int n) = .ok sb ∧ b = tb ++ sb ++ buf := by
  unfold wProperty
  have h := fun g wf inner w => @property_shape g wf inner w prop v' b
  generalize prop.get (P "type") = g
  generalize wInner cfg r wp = inner
  generalize wU64 = w64
  generalize wFString = wf
  exact h g wf inner w64

theorem idem_property {cfg : Cfg} {r : Val → W} (hr : Idem r) {wp : Val → Except Err Bytes} : Idem (wProperty cfg r wp) := by
  intro v b v' h
  obtain ⟨ty, tb, n, buf, sb, h1, h2, h3, h4, rfl⟩ := property_ok.1 h
  exact property_ok.2 ⟨ty, tb, n, buf, sb, by rw [inner_get_type hr h3, h1], h2, idem_inner hr ty h3, h4, rfl⟩

theorem idem_entries {f : Val → W} (hf : Idem f) : ∀ d b d', wEntries f d = .ok (b, d') → wEntries f d' = .ok (b, d')
  | [], b, d', h => by cases h; rfl
  | (k, v) :: t, b, d', h => by
    simp only [wEntries] at h
    cases h0 : fstringBytes k with
    | error e => rw [h0] at h; cases h
    | ok kb =>
      rw [h0] at h
      simp only at h
      cases h1 : f v with
      | error e => rw [h1] at h; cases h
      | ok r =>
        obtain ⟨c, a'⟩ := r
        rw [h1] at h
        simp only at h
        cases h2 : wEntries f t with
        | error e => rw [h2] at h; cases h
        | ok r =>
          obtain ⟨d, t'⟩ := r
          rw [h2] at h
          cases h
          simp only [wEntries, h0, hf _ _ _ h1, idem_entries hf _ _ _ h2]

theorem idem_body {f : Val → W} (hf : Idem f) : Idem (wPropsBody f) := by
  intro v b v' h
  have h' := h
  unfold wPropsBody at h
  split at h
  · rename_i d
    cases h1 : wEntries f d with
    | error e => rw [h1] at h; cases h
    | ok r =>
      obtain ⟨c, d'⟩ := r
      rw [h1] at h
      simp only at h
      generalize hz : fstringBytes (P "None") = z at h
      cases z with
      | error e => cases h
      | ok nb =>
        simp only [Except.ok.injEq, Prod.mk.injEq] at h
        obtain ⟨rfl, rfl⟩ := h
        simp only [wPropsBody, idem_entries hf _ _ _ h1, hz]
  · split at h
    · cases h
    · obtain ⟨h1, rfl⟩ := keep_ok.1 h
      exact h'
    · cases h

/-- Writing again what a write has left behind gives the same bytes and changes nothing. -/
theorem idem_props : ∀ (n : Nat) (cfg : Cfg), Idem (wProps n cfg)
  | 0, _ => fun _ _ _ h => by cases h
  | n + 1, cfg => by
    intro v b v' h
    rw [wProps_succ] at h ⊢
    exact idem_body (idem_property (idem_props n cfg)) v b v' h

end Pal
