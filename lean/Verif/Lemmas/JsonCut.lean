import Verif.Lemmas.JsonDump
/-
What a dump that raises has written is the beginning of a longer JSON text.
-/

namespace Pal
open Spec

theorem errOf_none {α : Type} {x : Except Err α} (h : errOf x = none) : ∃ a, x = .ok a := by
  cases x with
  | ok a => exact ⟨a, rfl⟩
  | error e => cases h

theorem err_cases (o : Option Err) : o = none ∨ ∃ e, o = some e := by
  cases o with
  | none => exact .inl rfl
  | some e => exact .inr ⟨e, rfl⟩

theorem andThen_none {a b : Out} (h : a.2 = none) : (Out.andThen a b).1 = a.1 ++ b.1 := by
  obtain ⟨t, o⟩ := a
  simp only at h
  subst h
  rfl

theorem andThen_some {a b : Out} {e : Err} (h : a.2 = some e) : Out.andThen a b = a := by
  obtain ⟨t, o⟩ := a
  simp only at h
  subst h
  rfl

/-- An item that fails: nothing is written, or what was written of it after the separator. -/
theorem encItem_cut {buf : PyStr} {v : Val} {o : Out} {e : Err} (h : o.2 = some e) :
    (encItem buf v o).1 = [] ∨ (encItem buf v o).1 = buf ++ o.1 := by
  obtain ⟨t, o⟩ := o
  simp only at h
  subst h
  cases v <;> first | exact .inl rfl | exact .inr rfl

/-- The text can be completed to a value. -/
def Cut (t : PyStr) : Prop := Ascii t ∧ ∃ r v, Ascii r ∧ r ≠ [] ∧ JText true (t ++ r) v

theorem cut_nil : Cut [] := ⟨by simp [Ascii], P "null", _, by decide, by decide, .null⟩

/-- The text after a first element can be completed to elements. -/
def CutL (t : PyStr) : Prop := Ascii t ∧ ∃ r, Ascii r ∧ ∀ w x v, Blank w → JText true x v → ∃ l, JElems true (w ++ x ++ t ++ r) l

/-- The text after a first member can be completed to members. -/
def CutD (t : PyStr) : Prop := Ascii t ∧ ∃ r, Ascii r ∧ ∀ w k' k w1 w2 x v, Blank w → StrText k' k → Blank w1 → Blank w2 → JText true x v →
  ∃ l, JMembers true (w ++ k' ++ w1 ++ [58] ++ w2 ++ x ++ t ++ r) l

theorem cutL_nil : CutL [] := ⟨by simp [Ascii], [], by simp [Ascii], fun w x v hw hx => ⟨[v], by simpa using JElems.one hw hx blank_nil⟩⟩

section
variable {repr : BitVec 64 → PyStr} (hr : ReprLaw repr) (minify an : Bool)
include hr

theorem items_cut {level : Nat} {v : Val} {l : List Val} {e : Err} (hc : CodePoints v)
    (h1 : ∀ e, (enc repr minify an level v).2 = some e → Cut (enc repr minify an level v).1)
    (h2 : ∀ e, (encL repr minify an level l).2 = some e → CutL (encL repr minify an level l).1) (w : PyStr) (hw : Blank w)
    (buf : PyStr) (hb : buf = 91 :: w) (z : PyStr)
    (h : (((encItem buf v (enc repr minify an level v)).andThen (encL repr minify an level l)).andThen (.text z)).2 = some e) :
    Cut (((encItem buf v (enc repr minify an level v)).andThen (encL repr minify an level l)).andThen (.text z)).1 := by
  subst hb
  rcases err_cases (enc repr minify an level v).2 with hv | ⟨e', hv⟩
  · obtain ⟨v', hv'⟩ := errOf_none ((enc_err repr minify an level v).symm.trans hv)
    obtain ⟨t, t1, t2, t3⟩ := enc_ok hr minify an level v hc hv'
    rw [t1, encItem_ok] at h ⊢
    rcases err_cases (encL repr minify an level l).2 with hl | ⟨e'', hl⟩
    · rw [andThen_err, andThen_err, hl] at h
      cases h
    · obtain ⟨c1, r, hra, c2⟩ := h2 _ hl
      rw [andThen_some (e := e'') (by rw [andThen_err]; exact hl), andThen_none rfl]
      refine ⟨ascii_append (ascii_append (ascii_cons (by omega) (blank_ascii hw)) t3) c1, r ++ [93], ?_⟩
      obtain ⟨l', c3⟩ := c2 w t v' hw (jText_ext t2)
      exact ⟨_, ascii_append hra (by decide), by simp, by simpa using JText.arr c3⟩
  · have hi : (encItem (91 :: w) v (enc repr minify an level v)).2 = some e' := by rw [encItem_err, hv]
    rw [andThen_some hi, andThen_some hi]
    rcases encItem_cut (buf := 91 :: w) (v := v) hv with h0 | h0
    · rw [h0]; exact cut_nil
    · obtain ⟨c1, r, v', hra, -, c2⟩ := h1 _ hv
      rw [h0]
      refine ⟨ascii_append (ascii_cons (by omega) (blank_ascii hw)) c1, r ++ [93], .list [v'], ascii_append hra (by decide), by simp, ?_⟩
      simpa using JText.arr (JElems.one hw c2 blank_nil)

mutual
theorem enc_cut (level : Nat) : ∀ (v : Val) (e : Err), CodePoints v → (enc repr minify an level v).2 = some e →
    Cut (enc repr minify an level v).1
  | .none, e, _, h => by rw [enc] at h; cases h
  | .bool true, e, _, h => by rw [enc] at h; cases h
  | .bool false, e, _, h => by rw [enc] at h; cases h
  | .int i, e, _, h => by rw [enc] at h; cases h
  | .float b, e, _, h => by
    rw [enc] at h ⊢
    split at h
    · cases h
    · exact cut_nil
  | .str s, e, _, h => by rw [enc] at h; cases h
  | .bytes b, e, _, h => by rw [enc]; exact cut_nil
  | .uuid raw, e, _, h => by
    rw [enc] at h ⊢
    split at h
    · cases h
    · exact cut_nil
  | .list [], e, _, h => by rw [enc] at h; cases h
  | .tuple [], e, _, h => by rw [enc] at h; cases h
  | .list (v :: l), e, hc, h => by
    rw [CodePoints, CodePointsL] at hc
    rw [enc] at h ⊢
    exact items_cut hr minify an hc.1 (fun e => enc_cut (level + 1) v e hc.1) (fun e => encL_cut (level + 1) l e hc.2) _
      (newline_blank _ _) _ rfl _ h
  | .tuple (v :: l), e, hc, h => by
    rw [CodePoints, CodePointsL] at hc
    rw [enc] at h ⊢
    exact items_cut hr minify an hc.1 (fun e => enc_cut (level + 1) v e hc.1) (fun e => encL_cut (level + 1) l e hc.2) _
      (newline_blank _ _) _ rfl _ h
  | .dict [], e, _, h => by rw [enc] at h; cases h
  | .dict ((k, v) :: d), e, hc, h => by
    rw [CodePoints, CodePointsD] at hc
    obtain ⟨k1, k2⟩ := strText_spec k hc.1
    have hb := newline_blank minify (level + 1)
    rw [enc] at h ⊢
    rw [show P ": " = [58, 32] by decide] at h ⊢
    have hk : Ascii (123 :: newline minify (level + 1) ++ strText k ++ [58, 32]) :=
      ascii_append (ascii_append (ascii_cons (by omega) (blank_ascii hb)) k2) (by decide)
    rcases err_cases (enc repr minify an (level + 1) v).2 with hv | ⟨e', hv⟩
    · obtain ⟨v', hv'⟩ := errOf_none ((enc_err repr minify an (level + 1) v).symm.trans hv)
      obtain ⟨t, t1, t2, t3⟩ := enc_ok hr minify an (level + 1) v hc.2.1 hv'
      rw [t1, Out.text, andThen_ok] at h ⊢
      rcases err_cases (encD repr minify an (level + 1) d).2 with hl | ⟨e'', hl⟩
      · rw [andThen_err, andThen_err, hl] at h
        cases h
      · obtain ⟨c1, r, hra, c2⟩ := encD_cut (level + 1) d _ hc.2.2 hl
        rw [andThen_some (e := e'') (by rw [andThen_err]; exact hl), andThen_none rfl]
        refine ⟨ascii_append (ascii_append hk t3) c1, r ++ [125], ?_⟩
        obtain ⟨l', c3⟩ := c2 _ _ _ [] _ t v' hb k1 blank_nil blank_space (jText_ext t2)
        exact ⟨_, ascii_append hra (by decide), by simp, by simpa using JText.obj c3⟩
    · have hi : (Out.andThen (Out.text (123 :: newline minify (level + 1) ++ strText k ++ [58, 32]))
          (enc repr minify an (level + 1) v)).2 = some e' := by rw [andThen_err]; exact hv
      rw [andThen_some hi, andThen_some hi, Out.text, andThen_none rfl]
      obtain ⟨c1, r, v', hra, -, c2⟩ := enc_cut (level + 1) v _ hc.2.1 hv
      refine ⟨ascii_append hk c1, r ++ [125], .dict (dupdate [] [(jsonStr k, v')]), ascii_append hra (by decide), by simp, ?_⟩
      simpa using JText.obj (JMembers.one hb k1 blank_nil blank_space c2 blank_nil)
theorem encL_cut (level : Nat) : ∀ (l : List Val) (e : Err), CodePointsL l → (encL repr minify an level l).2 = some e →
    CutL (encL repr minify an level l).1
  | [], e, _, h => by rw [encL] at h; cases h
  | v :: l, e, hc, h => by
    rw [CodePointsL] at hc
    obtain ⟨s, hs, hsb⟩ := itemSep_form minify level
    have hsa : Ascii (44 :: s) := ascii_cons (by omega) (blank_ascii hsb)
    rw [encL, hs] at h ⊢
    rcases err_cases (enc repr minify an level v).2 with hv | ⟨e', hv⟩
    · obtain ⟨v', hv'⟩ := errOf_none ((enc_err repr minify an level v).symm.trans hv)
      obtain ⟨t, t1, t2, t3⟩ := enc_ok hr minify an level v hc.1 hv'
      rw [t1, encItem_ok] at h ⊢
      obtain ⟨c1, r, hra, c2⟩ := encL_cut level l e hc.2 (by rw [andThen_err] at h; exact h)
      rw [andThen_none rfl]
      refine ⟨ascii_append (ascii_append hsa t3) c1, r, hra, fun w x v0 hw hx => ?_⟩
      obtain ⟨l', c3⟩ := c2 s t v' hsb (jText_ext t2)
      exact ⟨_, by simpa using JElems.more hw hx blank_nil c3⟩
    · have hi : (encItem (44 :: s) v (enc repr minify an level v)).2 = some e' := by rw [encItem_err, hv]
      rw [andThen_some hi]
      rcases encItem_cut (buf := 44 :: s) (v := v) hv with h0 | h0
      · rw [h0]; exact cutL_nil
      · obtain ⟨c1, r, v', hra, -, c2⟩ := enc_cut level v _ hc.1 hv
        rw [h0]
        refine ⟨ascii_append hsa c1, r, hra, fun w x v0 hw hx => ⟨[v0, v'], ?_⟩⟩
        simpa using JElems.more hw hx blank_nil (JElems.one hsb c2 blank_nil)
theorem encD_cut (level : Nat) : ∀ (d : List (PyStr × Val)) (e : Err), CodePointsD d → (encD repr minify an level d).2 = some e →
    CutD (encD repr minify an level d).1
  | [], e, _, h => by rw [encD] at h; cases h
  | (k0, v) :: d, e, hc, h => by
    rw [CodePointsD] at hc
    obtain ⟨s, hs, hsb⟩ := itemSep_form minify level
    obtain ⟨k1, k2⟩ := strText_spec k0 hc.1
    rw [encD, hs] at h ⊢
    rw [show P ": " = [58, 32] by decide] at h ⊢
    have hk : Ascii (44 :: s ++ strText k0 ++ [58, 32]) :=
      ascii_append (ascii_append (ascii_cons (by omega) (blank_ascii hsb)) k2) (by decide)
    rcases err_cases (enc repr minify an level v).2 with hv | ⟨e', hv⟩
    · obtain ⟨v', hv'⟩ := errOf_none ((enc_err repr minify an level v).symm.trans hv)
      obtain ⟨t, t1, t2, t3⟩ := enc_ok hr minify an level v hc.2.1 hv'
      rw [t1, Out.text, andThen_ok] at h ⊢
      obtain ⟨c1, r, hra, c2⟩ := encD_cut level d e hc.2.2 (by rw [andThen_err] at h; exact h)
      rw [andThen_none rfl]
      refine ⟨ascii_append (ascii_append hk t3) c1, r, hra, fun w k' k w1 w2 x v0 hw hkk hw1 hw2 hx => ?_⟩
      obtain ⟨l', c3⟩ := c2 _ _ _ [] _ t v' hsb k1 blank_nil blank_space (jText_ext t2)
      exact ⟨_, by simpa using JMembers.more hw hkk hw1 hw2 hx blank_nil c3⟩
    · have hi : (Out.andThen (Out.text (44 :: s ++ strText k0 ++ [58, 32])) (enc repr minify an level v)).2 = some e' := by
        rw [andThen_err]; exact hv
      rw [andThen_some hi, Out.text, andThen_none rfl]
      obtain ⟨c1, r, v', hra, -, c2⟩ := enc_cut level v _ hc.2.1 hv
      refine ⟨ascii_append hk c1, r, hra, fun w k' k w1 w2 x v0 hw hkk hw1 hw2 hx => ⟨[(k, v0), (jsonStr k0, v')], ?_⟩⟩
      simpa using JMembers.more hw hkk hw1 hw2 hx blank_nil (JMembers.one hsb k1 blank_nil blank_space c2 blank_nil)
end

end

end Pal
