import Verif.Model.Left
import Verif.Lemmas.Idem
import Verif.Lemmas.Rank
/-
What a call of the writer leaves behind (Model/Left.lean): it agrees with the writer when the call returns, and the
recursion budget does not matter.
-/

namespace Pal

theorem lProps_succ (n : Nat) (cfg : Cfg) (v : Val) :
    lProps (n + 1) cfg v = lPropsBody (wProperty cfg (wProps n cfg) (bytesOf n))
      (lProperty cfg (wProps n cfg) (lProps n cfg) (bytesOf n)) v := rfl

/-! ### calls that return -/

/-- After a call that returns, `l` gives the value that the call gives. -/
def Agr (f : Val → W) (l : Val → Val) : Prop := ∀ v b v', f v = .ok (b, v') → l v = v'

theorem agr_on {k : String} {f : Val → W} {l : Val → Val} (h : Agr f l) {v v' : Val} {b : Bytes} (hw : wOn v k f = .ok (b, v')) :
    lOn v k l = v' := by
  obtain ⟨x, x', h1, h2, h3⟩ := wOn_ok.1 hw
  unfold lOn
  rw [h1]
  simp only [h x b x' h2, h3]

theorem agr_mapL {f : Val → W} {l : Val → Val} (h : Agr f l) : ∀ xs b xs', wMapL f xs = .ok (b, xs') → lMapL f l xs = xs'
  | [], b, xs', hw => by cases hw; rfl
  | a :: t, b, xs', hw => by
    simp only [wMapL] at hw
    cases h1 : f a with
    | error e => rw [h1] at hw; cases hw
    | ok r =>
      obtain ⟨c, a'⟩ := r
      rw [h1] at hw
      simp only at hw
      cases h2 : wMapL f t with
      | error e => rw [h2] at hw; cases hw
      | ok r =>
        obtain ⟨d, t'⟩ := r
        rw [h2] at hw
        cases hw
        simp only [lMapL, h1, h _ _ _ h1, agr_mapL h _ _ _ h2]

theorem agr_seq {f : Val → W} {l : Val → Val} (h : Agr f l) : Agr (wSeq f) (lSeq f l) := by
  intro v b v' hw
  unfold wSeq at hw
  split at hw
  · split at hw
    · rename_i h1; cases hw; simp only [lSeq, agr_mapL h _ _ _ h1]
    · cases hw
  · split at hw
    · rename_i h1; cases hw; simp only [lSeq, agr_mapL h _ _ _ h1]
    · cases hw
  · split at hw
    · cases hw
    · split at hw
      · cases hw
        rename_i h1 h2 _ _ _ _ _ _
        unfold lSeq
        split
        · exact absurd rfl (h1 _)
        · exact absurd rfl (h2 _)
        · rfl
      · cases hw

theorem agr_iter {f : Val → W} {l : Val → Val} (h : Agr f l) : Agr (wIter f) (lSeq f l) := by
  intro v b v' hw
  unfold wIter at hw
  split at hw
  · split at hw
    · rename_i h1; cases hw; simp only [lSeq, agr_mapL h _ _ _ h1]
    · cases hw
  · split at hw
    · rename_i h1; cases hw; simp only [lSeq, agr_mapL h _ _ _ h1]
    · cases hw
  · split at hw
    · cases hw
    · split at hw
      · cases hw
        rename_i h1 h2 _ _ _ _ _ _
        unfold lSeq
        split
        · exact absurd rfl (h1 _)
        · exact absurd rfl (h2 _)
        · rfl
      · cases hw

theorem agr_structValue {r : Val → W} {l : Val → Val} (h : Agr r l) (st : Val) : Agr (wStructValue r st) (lStructValue l st) := by
  intro v b v' hw
  unfold wStructValue at hw
  unfold lStructValue
  repeat' split
  all_goals simp only [*, if_true, if_false, Bool.false_eq_true] at hw
  all_goals first
    | exact h _ _ _ hw
    | exact (keep_ok.1 hw).2.symm

theorem agr_propValue {r : Val → W} {l : Val → Val} (h : Agr r l) (ty st : Val) : Agr (wPropValue r ty st) (lPropValue l ty st) := by
  intro v b v' hw
  unfold wPropValue at hw
  unfold lPropValue
  split at hw
  · rename_i ht; rw [if_pos ht]; exact agr_structValue h st _ _ _ hw
  · rename_i ht
    rw [if_neg ht]
    repeat' split at hw
    all_goals first
      | exact (keep_ok.1 hw).2.symm
      | cases hw

theorem agr_structElem {r : Val → W} {l : Val → Val} (h : Agr r l) (value : Val) : Agr (wStructElem r value) (lStructElem l value) := by
  intro v b v' hw
  unfold wStructElem at hw
  unfold lStructElem
  cases h1 : value.get (P "type_name") with
  | error e => rw [h1] at hw; cases hw
  | ok tn => rw [h1] at hw; exact agr_structValue h _ _ _ _ hw

theorem agr_array {r : Val → W} {l : Val → Val} (h : Agr r l) (at_ : Val) : Agr (wArrayProperty r at_) (lArrayProperty r l at_) := by
  intro v b v' hw
  unfold wArrayProperty at hw
  obtain ⟨c, d, h1, h2, rfl⟩ := wThen_ok.1 hw
  simp only [lArrayProperty, h1]
  by_cases hs : at_.isS "StructProperty" = true
  · rw [if_pos hs] at h2 ⊢
    obtain ⟨e, f, h3, h4, rfl⟩ := wThen_ok.1 h2
    rw [h3]
    simp only
    cases h5 : wOn v "values" (wSeq (wStructElem r v)) with
    | error _ => rw [h5] at h4; cases h4
    | ok y =>
      obtain ⟨buf, value'⟩ := y
      rw [h5] at h4
      simp only at h4
      obtain ⟨g, i, h6, h7, rfl⟩ := wThen_ok.1 h4
      simp only [Except.ok.injEq, Prod.mk.injEq] at h7
      obtain ⟨rfl, rfl⟩ := h7
      exact agr_on (agr_seq (agr_structElem h v)) h5
  · rw [if_neg hs] at h2 ⊢
    exact (keep_ok.1 h2).2.symm

theorem agr_entry {r : Val → W} {l : Val → Val} (h : Agr r l) (p : Val) : Agr (wMapEntry r p) (lMapEntry r l p) := by
  intro v b v' hw
  unfold wMapEntry at hw
  unfold lMapEntry
  cases h1 : p.get (P "key_type") with
  | error e => simp only [h1] at hw; cases hw
  | ok kt =>
  cases h2 : p.get (P "key_struct_type") with
  | error e => simp only [h1, h2] at hw; cases hw
  | ok kst =>
  cases h3 : wOn v "key" (wPropValue r kt kst) with
  | error e => simp only [h1, h2, h3] at hw; cases hw
  | ok x =>
  obtain ⟨c, v1⟩ := x
  cases h4 : p.get (P "value_type") with
  | error e => simp only [h1, h2, h3, h4] at hw; cases hw
  | ok vt =>
  cases h5 : p.get (P "value_struct_type") with
  | error e => simp only [h1, h2, h3, h4, h5] at hw; cases hw
  | ok vst =>
  simp only [h1, h2, h3, h4, h5] at hw
  obtain ⟨d, e, h6, h7, rfl⟩ := wThen_ok.1 hw
  simp only [h3]
  exact agr_on (agr_propValue h _ _) h7

theorem agr_mapBody {r : Val → W} {l : Val → Val} (h : Agr r l) : Agr (wMapBody r) (lMapBody r l) := by
  intro v b v' hw
  unfold wMapBody at hw
  obtain ⟨c, d, h1, h2, rfl⟩ := wThen_ok.1 hw
  simp only [lMapBody, h1]
  exact agr_on (agr_iter (agr_entry h v)) h2

theorem isS_str_eq {v : Val} {s : String} (h : v.isS s = true) : v = .str (P s) := by
  cases v <;> simp [Val.isS] at h
  rw [h]

theorem isS_other {v : Val} {s t : String} (h : v.isS s = true) (hn : s ≠ t) : v.isS t = false := by
  rw [isS_str_eq h]
  simp [Val.isS, P_ne (Ne.symm hn)]

theorem agr_plain {r : Val → W} {l : Val → Val} (h : Agr r l) (ty : Val) {v v' : Val} {n : Nat} {b : Bytes}
    (hw : wPlainInner r ty v = .ok (n, b, v')) : lPlainInner r l ty v = v' := by
  have hconst : ∀ {k : Nat} {w : Val} {x : Except Err Bytes}, sizeConst k w x = .ok (n, b, v') → w = v' := by
    intro k w x h
    cases x <;> cases h
    rfl
  have hkeep : ∀ {w : Val} {p x : Except Err Bytes}, sized p (keep w x) = .ok (n, b, v') → w = v' := by
    intro w p x h
    obtain ⟨c, d, -, h2, -⟩ := sized_ok.1 h
    exact (keep_ok.1 h2).2.symm
  unfold lPlainInner
  by_cases t1 : ty.isS "StructProperty" = true
  · rw [if_pos t1]
    unfold wPlainInner at hw
    rw [if_pos t1] at hw
    obtain ⟨c, d, h1, h2, rfl, rfl⟩ := sized_ok.1 hw
    rw [h1]
    simp only
    cases h3 : v.get (P "struct_type") with
    | error e => rw [h3] at h2; cases h2
    | ok st => rw [h3] at h2; exact agr_on (agr_structValue h st) h2
  rw [if_neg t1]
  by_cases t2 : ty.isS "ArrayProperty" = true
  · rw [if_pos t2]
    unfold wPlainInner at hw
    simp only [t2, isS_other t2 (show "ArrayProperty" ≠ "StructProperty" by decide), isS_other t2 (show "ArrayProperty" ≠ "IntProperty" by decide),
      isS_other t2 (show "ArrayProperty" ≠ "Int64Property" by decide), isS_other t2 (show "ArrayProperty" ≠ "FixedPoint64Property" by decide),
      isS_other t2 (show "ArrayProperty" ≠ "FloatProperty" by decide), isS_other t2 (show "ArrayProperty" ≠ "StrProperty" by decide),
      isS_other t2 (show "ArrayProperty" ≠ "NameProperty" by decide), isS_other t2 (show "ArrayProperty" ≠ "EnumProperty" by decide),
      isS_other t2 (show "ArrayProperty" ≠ "BoolProperty" by decide), Bool.false_eq_true, if_false, if_true] at hw
    obtain ⟨c, d, h1, h2, rfl, rfl⟩ := sized_ok.1 hw
    rw [h1]
    simp only
    cases h3 : v.get (P "array_type") with
    | error e => rw [h3] at h2; cases h2
    | ok st => rw [h3] at h2; exact agr_on (agr_array h st) h2
  rw [if_neg t2]
  by_cases t3 : ty.isS "MapProperty" = true
  · rw [if_pos t3]
    unfold wPlainInner at hw
    simp only [t3, isS_other t3 (show "MapProperty" ≠ "StructProperty" by decide), isS_other t3 (show "MapProperty" ≠ "IntProperty" by decide),
      isS_other t3 (show "MapProperty" ≠ "Int64Property" by decide), isS_other t3 (show "MapProperty" ≠ "FixedPoint64Property" by decide),
      isS_other t3 (show "MapProperty" ≠ "FloatProperty" by decide), isS_other t3 (show "MapProperty" ≠ "StrProperty" by decide),
      isS_other t3 (show "MapProperty" ≠ "NameProperty" by decide), isS_other t3 (show "MapProperty" ≠ "EnumProperty" by decide),
      isS_other t3 (show "MapProperty" ≠ "BoolProperty" by decide), isS_other t3 (show "MapProperty" ≠ "ArrayProperty" by decide),
      Bool.false_eq_true, if_false, if_true] at hw
    obtain ⟨c, d, h1, h2, rfl, rfl⟩ := sized_ok.1 hw
    rw [h1]
    exact agr_mapBody h _ _ _ h2
  rw [if_neg t3]
  unfold wPlainInner at hw
  rw [if_neg t1] at hw
  repeat' split at hw
  all_goals first
    | exact hconst hw
    | exact hkeep hw
    | exact absurd ‹_› t2
    | exact absurd ‹_› t3
    | cases hw

theorem agr_inner {cfg : Cfg} {r : Val → W} {l : Val → Val} (h : Agr r l) {wp : Val → Except Err Bytes} (ty : Val) {v v' : Val}
    {n : Nat} {b : Bytes} (hw : wInner cfg r wp ty v = .ok (n, b, v')) : lInner cfg r l wp ty v = v' := by
  unfold wInner at hw
  unfold lInner
  split at hw
  · cases hw
  · rename_i hc; simp only [hc]; exact agr_plain h ty hw
  · rename_i hc
    simp only [hc]
    split at hw
    · cases hw
    · rename_i hg
      simp only [hg]
      split at hw
      · cases hw
      · rename_i hcu
        simp only [hcu]
        split at hw
        · rename_i ht
          rw [if_pos ht]
          split at hw
          · cases hw
          · rename_i hp; simp only [hp]; exact agr_plain h ty hw
        · cases hw
    · cases hw
    · cases hw
    · cases hw

theorem agr_property {cfg : Cfg} {r : Val → W} {l : Val → Val} (h : Agr r l) {wp : Val → Except Err Bytes} :
    Agr (wProperty cfg r wp) (lProperty cfg r l wp) := by
  intro v b v' hw
  obtain ⟨ty, tb, n, buf, sb, h1, h2, h3, h4, rfl⟩ := property_ok.1 hw
  unfold lProperty
  rw [h1]
  simp only
  generalize hf : wFString ty = x at *
  subst h2
  exact agr_inner h ty h3

theorem agr_entries {f : Val → W} {l : Val → Val} (h : Agr f l) : ∀ d b d', wEntries f d = .ok (b, d') → lEntries f l d = d'
  | [], b, d', hw => by cases hw; rfl
  | (k, v) :: t, b, d', hw => by
    simp only [wEntries] at hw
    cases h0 : fstringBytes k with
    | error e => rw [h0] at hw; cases hw
    | ok kb =>
      rw [h0] at hw
      simp only at hw
      cases h1 : f v with
      | error e => rw [h1] at hw; cases hw
      | ok r =>
        obtain ⟨c, a'⟩ := r
        rw [h1] at hw
        simp only at hw
        cases h2 : wEntries f t with
        | error e => rw [h2] at hw; cases hw
        | ok r =>
          obtain ⟨d, t'⟩ := r
          rw [h2] at hw
          cases hw
          simp only [lEntries, h0, h1, h _ _ _ h1, agr_entries h _ _ _ h2]

theorem agr_body {f : Val → W} {l : Val → Val} (h : Agr f l) : Agr (wPropsBody f) (lPropsBody f l) := by
  intro v b v' hw
  unfold wPropsBody at hw
  split at hw
  · rename_i d
    cases h1 : wEntries f d with
    | error e => rw [h1] at hw; cases hw
    | ok r =>
      obtain ⟨c, d'⟩ := r
      rw [h1] at hw
      simp only at hw
      generalize hz : fstringBytes (P "None") = z at hw
      cases z with
      | error e => cases hw
      | ok nb =>
        simp only [Except.ok.injEq, Prod.mk.injEq] at hw
        obtain ⟨rfl, rfl⟩ := hw
        simp only [lPropsBody, agr_entries h _ _ _ h1]
  · rename_i hd
    have : lPropsBody f l v = v := by
      unfold lPropsBody
      split
      · exact absurd rfl (hd _)
      · rfl
    rw [this]
    split at hw
    · cases hw
    · exact (keep_ok.1 hw).2.symm
    · cases hw

/-- What a call leaves behind that returns. -/
theorem agr_props : ∀ (n : Nat) (cfg : Cfg), Agr (wProps n cfg) (lProps n cfg)
  | 0, _ => fun _ _ _ h => by cases h
  | n + 1, cfg => by
    intro v b v' h
    rw [wProps_succ] at h
    rw [lProps_succ]
    exact agr_body (agr_property (agr_props n cfg)) v b v' h

end Pal
