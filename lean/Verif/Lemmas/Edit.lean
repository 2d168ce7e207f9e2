import Verif.Spec.Edit
import Verif.Lemmas.SaysVal
import Verif.Lemmas.Json
/-
An edit of one place: what it does to the bytes, to the document and to well-formedness.
-/

set_option linter.unusedSectionVars false

namespace Pal
open Spec

variable {m : Mode}

/-! ### bytes -/

/-- `x'` is `x` with `b` replaced by `b'` (exactly so when they have equal lengths). -/
def Loc (b b' x x' : Bytes) : Prop :=
  x'.length + b.length = x.length + b'.length ∧ (b.length = b'.length → ∃ pre post, x = pre ++ b ++ post ∧ x' = pre ++ b' ++ post)

theorem Loc.self (b b' : Bytes) : Loc b b' b b' := ⟨by omega, fun _ => ⟨[], [], by simp, by simp⟩⟩
theorem Loc.l {b b' x x' : Bytes} (c : Bytes) (h : Loc b b' x x') : Loc b b' (c ++ x) (c ++ x') := by
  refine ⟨?_, fun e => ?_⟩
  · have := h.1
    simp only [List.length_append]; omega
  · obtain ⟨pre, post, rfl, rfl⟩ := h.2 e
    exact ⟨c ++ pre, post, by simp, by simp⟩
theorem Loc.r {b b' x x' : Bytes} (c : Bytes) (h : Loc b b' x x') : Loc b b' (x ++ c) (x' ++ c) := by
  refine ⟨?_, fun e => ?_⟩
  · have := h.1
    simp only [List.length_append]; omega
  · obtain ⟨pre, post, rfl, rfl⟩ := h.2 e
    exact ⟨pre, post ++ c, by simp, by simp⟩
/-- A size before the bytes. -/
theorem Loc.sized {b b' x x' : Bytes} {k n n' : Nat} (y : Bytes) (h : Loc b b' x x') (hn : b.length = b'.length → n = n') :
    Loc b b' (lit k n ++ y ++ x) (lit k n' ++ y ++ x') := by
  refine ⟨?_, fun e => ?_⟩
  · have := h.1
    simp only [List.length_append, lit_length]; omega
  · rw [hn e]
    exact ((h.l y).l (lit k n')).2 e |>.imp fun pre => fun ⟨post, h1, h2⟩ => ⟨post, by rw [← h1]; simp, by rw [← h2]; simp⟩
theorem Loc.len {b b' x x' : Bytes} (h : Loc b b' x x') (e : b.length = b'.length) : x.length = x'.length := by
  have := h.1; omega

theorem encSVals_append (l r : List (SVal m)) : encSVals (l ++ r) = encSVals l ++ encSVals r := by
  induction l with
  | nil => simp [encSVals]
  | cons a t ih => simp [encSVals, ih]
theorem encEntries_append (l r : List (MVal m × MVal m)) : encEntries (l ++ r) = encEntries l ++ encEntries r := by
  induction l with
  | nil => simp [encEntries]
  | cons a t ih => obtain ⟨k, v⟩ := a; simp [encEntries, ih]
/-- The properties of a list without the end mark. -/
theorem encProps_append (l r : Props m) : encProps (l ++ r) = (l.flatMap fun np => eStr np.1 ++ np.2.enc) ++ encProps r := by
  induction l with
  | nil => simp
  | cons a t ih =>
    obtain ⟨k, v⟩ := a
    simp only [List.cons_append, encProps, ih, List.flatMap_cons, PropT.enc, List.append_assoc]

variable {cfg : Cfg}

/-- A property whose declared part is changed. -/
theorem loc_tail {b b' : Bytes} {p p' : PropT m} (ht : p'.type = p.type) (hh : p'.head = p.head) (h : Loc b b' p.tail p'.tail) :
    Loc b b' p.enc p'.enc := by
  unfold PropT.enc
  rw [ht, hh]
  have := (h.sized (k := 8) (n := p.tail.length) (n' := p'.tail.length) p.head h.len).l (eLit p.type)
  simpa only [List.append_assoc] using this

mutual
theorem editS_loc : ∀ {path : PyStr} {ks : List Key} {op : Op} {b b' : Bytes} {s s' : SVal m}, EditS cfg path ks op b b' s s' →
    Loc b b' s.enc s'.enc
  | _, _, _, _, _, _, _, .vx _ => by simp only [SVal.enc, eVec]; exact ((Loc.self _ _).r _).r _
  | _, _, _, _, _, _, _, .vy _ => by simp only [SVal.enc, eVec]; exact ((Loc.self _ _).l _).r _
  | _, _, _, _, _, _, _, .vz _ => by simp only [SVal.enc, eVec]; exact (Loc.self _ _).l _
  | _, _, _, _, _, _, _, .qx _ => by simp only [SVal.enc, eQuat]; exact (((Loc.self _ _).r _).r _).r _
  | _, _, _, _, _, _, _, .qy _ => by simp only [SVal.enc, eQuat]; exact (((Loc.self _ _).l _).r _).r _
  | _, _, _, _, _, _, _, .qz _ => by simp only [SVal.enc, eQuat]; exact ((Loc.self _ _).l _).r _
  | _, _, _, _, _, _, _, .qw _ => by simp only [SVal.enc, eQuat]; exact (Loc.self _ _).l _
  | _, _, _, _, _, _, _, .red _ => by simp only [SVal.enc]; exact (((Loc.self _ _).r _).r _).r _
  | _, _, _, _, _, _, _, .green _ => by simp only [SVal.enc]; exact (((Loc.self _ _).l _).r _).r _
  | _, _, _, _, _, _, _, .blue _ => by simp only [SVal.enc]; exact ((Loc.self _ _).l _).r _
  | _, _, _, _, _, _, _, .alpha _ => by simp only [SVal.enc]; exact (Loc.self _ _).l _
  | _, _, _, _, _, _, _, .dateTime _ => by simp only [SVal.enc]; exact Loc.self _ _
  | _, _, _, _, _, _, _, .guid _ => by simp only [SVal.enc]; exact Loc.self _ _
  | _, _, _, _, _, _, _, .props h => by simp only [SVal.enc]; exact editPs_loc h
theorem editM_loc : ∀ {path : PyStr} {ks : List Key} {op : Op} {b b' : Bytes} {s s' : MVal m}, EditM cfg path ks op b b' s s' →
    Loc b b' s.enc s'.enc
  | _, _, _, _, _, _, _, .struct h => by simp only [MVal.enc]; exact editS_loc h
  | _, _, _, _, _, _, _, .enum _ => by simp only [MVal.enc]; exact Loc.self _ _
  | _, _, _, _, _, _, _, .name _ => by simp only [MVal.enc]; exact Loc.self _ _
  | _, _, _, _, _, _, _, .int _ => by simp only [MVal.enc]; exact Loc.self _ _
  | _, _, _, _, _, _, _, .bool _ => by simp only [MVal.enc]; exact Loc.self _ _
theorem editT_loc : ∀ {path : PyStr} {ks : List Key} {op : Op} {b b' : Bytes} {p p' : PropT m}, EditT cfg path ks op b b' p p' →
    Loc b b' p.enc p'.enc
  | _, _, _, _, _, _, _, .struct h => loc_tail rfl rfl (by simp only [PropT.tail]; exact editS_loc h)
  | _, _, _, _, _, _, _, .int _ => loc_tail rfl rfl (by simp only [PropT.tail]; exact Loc.self _ _)
  | _, _, _, _, _, _, _, .int64 _ => loc_tail rfl rfl (by simp only [PropT.tail]; exact Loc.self _ _)
  | _, _, _, _, _, _, _, .fixed64 _ => loc_tail rfl rfl (by simp only [PropT.tail]; exact Loc.self _ _)
  | _, _, _, _, _, _, _, .float _ => loc_tail rfl rfl (by simp only [PropT.tail]; exact Loc.self _ _)
  | _, _, _, _, _, _, _, .str _ => loc_tail rfl rfl (by simp only [PropT.tail]; exact Loc.self _ _)
  | _, _, _, _, _, _, _, .name _ => loc_tail rfl rfl (by simp only [PropT.tail]; exact Loc.self _ _)
  | _, _, _, _, _, _, _, .enum _ => loc_tail rfl rfl (by simp only [PropT.tail]; exact Loc.self _ _)
  | _, _, _, _, _, _, _, .bool _ => by
    simp only [PropT.enc, PropT.tail, PropT.head, PropT.type]
    exact (((Loc.self _ _).r _).l _).r _
  | _, _, _, _, _, _, _, .enums _ => loc_tail rfl rfl (by
    simp only [PropT.tail, List.length_append, List.length_cons, List.flatMap_append, List.flatMap_cons]
    exact (((Loc.self _ _).r _).l _).l _)
  | _, _, _, _, _, _, _, .names _ => loc_tail rfl rfl (by
    simp only [PropT.tail, List.length_append, List.length_cons, List.flatMap_append, List.flatMap_cons]
    exact (((Loc.self _ _).r _).l _).l _)
  | _, _, _, _, _, _, _, .structs (pn := pn) (pt := pt) (tn := tn) (gid := gid) (l := l) (r := r) (s := s) (s' := s') h => loc_tail rfl rfl (by
    have h1 := editS_loc h
    have h2 := (h1.r (encSVals r)).l (encSVals l)
    have h3 := (h2.sized (k := 8) (n := (encSVals l ++ (s.enc ++ encSVals r)).length)
      (n' := (encSVals l ++ (s'.enc ++ encSVals r)).length) (eStr tn ++ eGuid gid ++ [0]) h2.len).l
      (lit 4 (l.length + (r.length + 1)) ++ eStr pn ++ eStr pt)
    simp only [PropT.tail, encSVals_append, encSVals, List.length_append, List.length_cons, List.append_assoc] at h3 ⊢
    exact h3)
  | _, _, _, _, _, _, _, .mapKey (l := l) (r := r) (v := v) h => loc_tail rfl rfl (by
    have h1 := (((editM_loc h).r (v.enc ++ encEntries r)).l (encEntries l)).l (lit 4 0 ++ lit 4 (l.length + (r.length + 1)))
    simp only [PropT.tail, encEntries_append, encEntries, List.length_append, List.length_cons, List.append_assoc] at h1 ⊢
    exact h1)
  | _, _, _, _, _, _, _, .mapValue (l := l) (r := r) (k := k) h => loc_tail rfl rfl (by
    have h1 := (((editM_loc h).r (encEntries r)).l (encEntries l ++ k.enc)).l (lit 4 0 ++ lit 4 (l.length + (r.length + 1)))
    simp only [PropT.tail, encEntries_append, encEntries, List.length_append, List.length_cons, List.append_assoc] at h1 ⊢
    exact h1)
theorem editPs_loc : ∀ {path : PyStr} {ks : List Key} {op : Op} {b b' : Bytes} {ps ps' : Props m}, EditPs cfg path ks op b b' ps ps' →
    Loc b b' (encProps ps) (encProps ps')
  | _, _, _, _, _, _, _, .prop (l := l) (r := r) (n := n) hc h => by
    have h1 := (((editT_loc h).r (encProps r)).l (eStr n)).l (l.flatMap fun np => eStr np.1 ++ np.2.enc)
    simp only [encProps_append, encProps, PropT.enc, List.append_assoc] at h1 ⊢
    exact h1
  | _, _, _, _, _, _, _, .del (l := l) (r := r) (n := n) (p := p) => by
    have h1 := ((Loc.self (eStr n ++ p.enc) []).r (encProps r)).l (l.flatMap fun np => eStr np.1 ++ np.2.enc)
    simp only [encProps_append, encProps, PropT.enc, List.append_assoc, List.nil_append] at h1 ⊢
    exact h1
end

/-! ### the document -/

theorem editAt_head {op : Op} {ks : List Key} {k : String} {x x' : Val} (t : List (String × Val)) (h : EditAt op ks x x') :
    EditAt op (Fld k :: ks) (vDict ((k, x) :: t)) (vDict ((k, x') :: t)) :=
  .key (l := []) (by simp) h
theorem editAt_tail {op : Op} {ks : List Key} {k k' : String} (y : Val) {t t' : List (String × Val)} (hk : k' ≠ k)
    (h : EditAt op (Fld k :: ks) (vDict t) (vDict t')) : EditAt op (Fld k :: ks) (vDict ((k', y) :: t)) (vDict ((k', y) :: t')) := by
  unfold vDict at h ⊢
  generalize hd : Val.dict (t.map fun kv => (P kv.1, kv.2)) = d at h
  generalize hd' : Val.dict (t'.map fun kv => (P kv.1, kv.2)) = d' at h
  cases h with
  | key hl hx =>
    rename_i l r x x'
    simp only [List.map_cons, Val.dict.inj hd, Val.dict.inj hd']
    refine EditAt.key (l := (P k', y) :: l) ?_ hx
    intro kv hkv
    rcases List.mem_cons.1 hkv with rfl | h1
    · exact fun e => hk ((P_inj _ _).1 e)
    · exact hl _ h1

/-- Find the key of an edit in a dict with constant keys. -/
macro "edit_key" : tactic => `(tactic| ((repeat refine editAt_tail _ (by decide) ?_); refine editAt_head _ ?_))
theorem editS_fits {path : PyStr} {ks : List Key} {op : Op} {b b' : Bytes} {s s' : SVal m} {st : PyStr}
    (h : EditS cfg path ks op b b' s s') (hf : s.Fits st) : s'.Fits st := by
  cases h <;> exact hf
theorem editM_type {path : PyStr} {ks : List Key} {op : Op} {b b' : Bytes} {s s' : MVal m}
    (h : EditM cfg path ks op b b' s s') : s'.type = s.type := by
  cases h <;> rfl

variable {K : CodecId → Val → Val} {C : CodecId → PropT m → Prop}

theorem valSVals_append (path : PyStr) (l r : List (SVal m)) :
    valSVals cfg K path (l ++ r) = valSVals cfg K path l ++ valSVals cfg K path r := by
  induction l with
  | nil => simp [valSVals]
  | cons a t ih => simp [valSVals, ih]
theorem valEntries_append (path : PyStr) (l r : List (MVal m × MVal m)) :
    valEntries cfg K path (l ++ r) = valEntries cfg K path l ++ valEntries cfg K path r := by
  induction l with
  | nil => simp [valEntries]
  | cons a t ih => obtain ⟨k, v⟩ := a; simp [valEntries, ih]
theorem valProps_append (path : PyStr) (l r : Props m) :
    valProps cfg K path (l ++ r) = valProps cfg K path l ++ valProps cfg K path r := by
  induction l with
  | nil => simp [valProps]
  | cons a t ih => obtain ⟨k, v⟩ := a; simp [valProps, ih]
theorem wfSVals_append (path st : PyStr) (l r : List (SVal m)) :
    wfSVals cfg C path st (l ++ r) ↔ wfSVals cfg C path st l ∧ wfSVals cfg C path st r := by
  induction l with
  | nil => simp [wfSVals]
  | cons a t ih => simp [wfSVals, ih, and_assoc]
theorem wfEntries_append (path kt vt : PyStr) (l r : List (MVal m × MVal m)) :
    wfEntries cfg C path kt vt (l ++ r) ↔ wfEntries cfg C path kt vt l ∧ wfEntries cfg C path kt vt r := by
  induction l with
  | nil => simp [wfEntries]
  | cons a t ih => obtain ⟨k, v⟩ := a; simp [wfEntries, ih, and_assoc]
theorem wfProps_append (path : PyStr) (l r : Props m) :
    wfProps cfg C path (l ++ r) ↔ wfProps cfg C path l ∧ wfProps cfg C path r := by
  induction l with
  | nil => simp [wfProps]
  | cons a t ih => obtain ⟨k, v⟩ := a; simp only [List.cons_append, wfProps, ih, and_assoc]

theorem editAt_elem {op : Op} {ks : List Key} {l r : List Val} {x x' : Val} {n : Nat} (hn : n = l.length) (h : EditAt op ks x x') :
    EditAt op (.idx n :: ks) (.list (l ++ x :: r)) (.list (l ++ x' :: r)) := by
  subst hn; exact .idx h

theorem not_before {l r : Props m} {n : Str} {p : PropT m} {path : PyStr} (h : ((l ++ (n, p) :: r).map Prod.fst).Nodup) :
    ∀ kv ∈ valProps cfg K path l, kv.1 ≠ n.val := by
  intro kv hkv e
  have h1 : kv.1 ∈ (valProps cfg K path l).map Prod.fst := List.mem_map_of_mem hkv
  rw [valProps_keys, e] at h1
  obtain ⟨n', hn', e'⟩ := List.mem_map.1 h1
  rw [List.map_append, List.map_cons] at h
  have := (List.nodup_append.1 h).2.2 n' (by simpa using hn') n (by simp)
  exact this (Subtype.ext e')

theorem keys_same {l r : Props m} {n : Str} {p p' : PropT m} :
    (l ++ (n, p') :: r).map Prod.fst = (l ++ (n, p) :: r).map Prod.fst := by simp

mutual
theorem editS_doc : ∀ {path : PyStr} {ks : List Key} {op : Op} {b b' : Bytes} {s s' : SVal m}, EditS cfg path ks op b b' s s' →
    s.Wf cfg C path → s'.Wf cfg C path ∧ EditAt op ks (s.val cfg K path) (s'.val cfg K path)
  | _, _, _, _, _, _, _, .vx _, _ => by simp only [SVal.val, SVal.Wf, vVec, true_and]; edit_key; exact .set rfl
  | _, _, _, _, _, _, _, .vy _, _ => by simp only [SVal.val, SVal.Wf, vVec, true_and]; edit_key; exact .set rfl
  | _, _, _, _, _, _, _, .vz _, _ => by simp only [SVal.val, SVal.Wf, vVec, true_and]; edit_key; exact .set rfl
  | _, _, _, _, _, _, _, .qx _, _ => by simp only [SVal.val, SVal.Wf, vQuat, true_and]; edit_key; exact .set rfl
  | _, _, _, _, _, _, _, .qy _, _ => by simp only [SVal.val, SVal.Wf, vQuat, true_and]; edit_key; exact .set rfl
  | _, _, _, _, _, _, _, .qz _, _ => by simp only [SVal.val, SVal.Wf, vQuat, true_and]; edit_key; exact .set rfl
  | _, _, _, _, _, _, _, .qw _, _ => by simp only [SVal.val, SVal.Wf, vQuat, true_and]; edit_key; exact .set rfl
  | _, _, _, _, _, _, _, .red _, _ => by simp only [SVal.val, SVal.Wf, true_and]; edit_key; exact .set rfl
  | _, _, _, _, _, _, _, .green _, _ => by simp only [SVal.val, SVal.Wf, true_and]; edit_key; exact .set rfl
  | _, _, _, _, _, _, _, .blue _, _ => by simp only [SVal.val, SVal.Wf, true_and]; edit_key; exact .set rfl
  | _, _, _, _, _, _, _, .alpha _, _ => by simp only [SVal.val, SVal.Wf, true_and]; edit_key; exact .set rfl
  | _, _, _, _, _, _, _, .dateTime _, _ => by simp only [SVal.val, SVal.Wf, true_and]; exact .set rfl
  | _, _, _, _, _, _, _, .guid _, _ => by simp only [SVal.val, SVal.Wf, true_and]; exact .set rfl
  | _, _, _, _, _, _, _, .props h, hw => by
    simp only [SVal.Wf] at hw
    simp only [SVal.val, SVal.Wf]
    obtain ⟨h1, h2, h3⟩ := editPs_doc h hw.1 hw.2
    exact ⟨⟨h1, h2⟩, h3⟩
theorem editM_doc : ∀ {path : PyStr} {ks : List Key} {op : Op} {b b' : Bytes} {s s' : MVal m}, EditM cfg path ks op b b' s s' →
    ∀ {st : PyStr}, s.Wf cfg C path st → s'.Wf cfg C path st ∧ EditAt op ks (s.val cfg K path) (s'.val cfg K path)
  | _, _, _, _, _, _, _, .struct h, st, hw => by
    simp only [MVal.Wf] at hw
    simp only [MVal.val, MVal.Wf]
    obtain ⟨h1, h2⟩ := editS_doc h hw.2
    exact ⟨⟨editS_fits h hw.1, h1⟩, h2⟩
  | _, _, _, _, _, _, _, .enum _, _, _ => by simp only [MVal.val, MVal.Wf, true_and]; exact .set rfl
  | _, _, _, _, _, _, _, .name _, _, _ => by simp only [MVal.val, MVal.Wf, true_and]; exact .set rfl
  | _, _, _, _, _, _, _, .int _, _, _ => by simp only [MVal.val, MVal.Wf, true_and]; exact .set rfl
  | _, _, _, _, _, _, _, .bool _, _, _ => by simp only [MVal.val, MVal.Wf, true_and]; exact .set rfl
theorem editT_doc : ∀ {path : PyStr} {ks : List Key} {op : Op} {b b' : Bytes} {p p' : PropT m}, EditT cfg path ks op b b' p p' →
    p.Wf cfg C path → p'.Wf cfg C path ∧
      EditAt op ks (vDict (p.entries cfg path (p.val cfg K path))) (vDict (p'.entries cfg path (p'.val cfg K path)))
  | _, _, _, _, _, _, _, .struct h, hw => by
    simp only [PropT.Wf] at hw
    obtain ⟨h1, h2⟩ := editS_doc h hw.2
    simp only [PropT.Wf, PropT.entries, PropT.val]
    refine ⟨⟨editS_fits h hw.1, h1⟩, ?_⟩
    edit_key; exact h2
  | _, _, _, _, _, _, _, .int _, _ => by simp only [PropT.Wf, PropT.entries, PropT.val, true_and]; edit_key; exact .set rfl
  | _, _, _, _, _, _, _, .int64 _, _ => by simp only [PropT.Wf, PropT.entries, PropT.val, true_and]; edit_key; exact .set rfl
  | _, _, _, _, _, _, _, .fixed64 _, _ => by simp only [PropT.Wf, PropT.entries, PropT.val, true_and]; edit_key; exact .set rfl
  | _, _, _, _, _, _, _, .float _, _ => by simp only [PropT.Wf, PropT.entries, PropT.val, true_and]; edit_key; exact .set rfl
  | _, _, _, _, _, _, _, .str _, _ => by simp only [PropT.Wf, PropT.entries, PropT.val, true_and]; edit_key; exact .set rfl
  | _, _, _, _, _, _, _, .name _, _ => by simp only [PropT.Wf, PropT.entries, PropT.val, true_and]; edit_key; exact .set rfl
  | _, _, _, _, _, _, _, .enum _, _ => by
    simp only [PropT.Wf, PropT.entries, PropT.val, true_and]; edit_key; edit_key; exact .set rfl
  | _, _, _, _, _, _, _, .bool _, _ => by simp only [PropT.Wf, PropT.entries, PropT.val, true_and]; edit_key; exact .set rfl
  | _, _, _, _, _, _, _, .enums _, hw => by
    simp only [PropT.Wf, List.length_append, List.length_cons] at hw
    simp only [PropT.Wf, PropT.entries, PropT.val, List.map_append, List.map_cons, List.length_append, List.length_cons]
    refine ⟨hw, ?_⟩
    edit_key; edit_key; exact editAt_elem (by simp) (.set rfl)
  | _, _, _, _, _, _, _, .names _, hw => by
    simp only [PropT.Wf, List.length_append, List.length_cons] at hw
    simp only [PropT.Wf, PropT.entries, PropT.val, List.map_append, List.map_cons, List.length_append, List.length_cons]
    refine ⟨hw, ?_⟩
    edit_key; edit_key; exact editAt_elem (by simp) (.set rfl)
  | _, _, _, _, _, _, _, .structs h, hw => by
    simp only [PropT.Wf, List.length_append, List.length_cons, wfSVals_append, wfSVals] at hw
    obtain ⟨h1, h2⟩ := editS_doc h hw.2.2.2.1
    simp only [PropT.Wf, PropT.entries, PropT.val, List.length_append, List.length_cons, wfSVals_append, wfSVals, valSVals_append, valSVals]
    refine ⟨⟨hw.1, hw.2.1, editS_fits h hw.2.2.1, h1, hw.2.2.2.2⟩, ?_⟩
    edit_key; edit_key; exact editAt_elem (by rw [valSVals_length]) h2
  | _, _, _, _, _, _, _, .mapKey h, hw => by
    simp only [PropT.Wf, List.length_append, List.length_cons, wfEntries_append, wfEntries] at hw
    obtain ⟨h1, h2⟩ := editM_doc h hw.2.2.2.1
    simp only [PropT.Wf, PropT.entries, PropT.val, List.length_append, List.length_cons, wfEntries_append, wfEntries, valEntries_append,
      valEntries]
    refine ⟨⟨hw.1, hw.2.1, by rw [editM_type h]; exact hw.2.2.1, h1, hw.2.2.2.2⟩, ?_⟩
    edit_key; refine editAt_elem (by rw [valEntries_length]) ?_
    edit_key; exact h2
  | _, _, _, _, _, _, _, .mapValue h, hw => by
    simp only [PropT.Wf, List.length_append, List.length_cons, wfEntries_append, wfEntries] at hw
    obtain ⟨h1, h2⟩ := editM_doc h hw.2.2.2.2.2.1
    simp only [PropT.Wf, PropT.entries, PropT.val, List.length_append, List.length_cons, wfEntries_append, wfEntries, valEntries_append,
      valEntries]
    refine ⟨⟨hw.1, hw.2.1, hw.2.2.1, hw.2.2.2.1, by rw [editM_type h]; exact hw.2.2.2.2.1, h1, hw.2.2.2.2.2.2⟩, ?_⟩
    edit_key; refine editAt_elem (by rw [valEntries_length]) ?_
    edit_key; exact h2
theorem editPs_doc : ∀ {path : PyStr} {ks : List Key} {op : Op} {b b' : Bytes} {ps ps' : Props m}, EditPs cfg path ks op b b' ps ps' →
    (ps.map Prod.fst).Nodup → wfProps cfg C path ps → (ps'.map Prod.fst).Nodup ∧ wfProps cfg C path ps' ∧
      EditAt op ks (.dict (valProps cfg K path ps)) (.dict (valProps cfg K path ps'))
  | _, _, _, _, _, _, _, .prop (l := l) (r := r) (n := n) hc h, hn, hw => by
    simp only [wfProps_append, wfProps, hc] at hw
    obtain ⟨h1, h2⟩ := editT_doc h hw.2.2.1
    refine ⟨by rw [keys_same]; exact hn, ?_, ?_⟩
    · simp only [wfProps_append, wfProps, hc]
      exact ⟨hw.1, hw.2.1, h1, hw.2.2.2⟩
    · simp only [valProps_append, valProps, showProp, hc]
      exact .key (not_before hn) h2
  | _, _, _, _, _, _, _, .del (l := l) (r := r) (n := n) (p := p), hn, hw => by
    simp only [wfProps_append, wfProps] at hw
    refine ⟨?_, ?_, ?_⟩
    · refine List.Nodup.sublist ?_ hn
      exact ((List.sublist_cons_self _ _).append_left _).map _
    · rw [wfProps_append]; exact ⟨hw.1, hw.2.2.2⟩
    · simp only [valProps_append, valProps]
      exact .del rfl (not_before hn)
end

/-! ### one result -/

theorem split_unique {l l' r r' : Dict} {k : PyStr} {x x' : Val} (h : l ++ (k, x) :: r = l' ++ (k, x') :: r')
    (hl : ∀ kv ∈ l, kv.1 ≠ k) (hl' : ∀ kv ∈ l', kv.1 ≠ k) : l = l' ∧ x = x' ∧ r = r' := by
  induction l generalizing l' with
  | nil =>
    cases l' with
    | nil => simpa using h
    | cons a t =>
      simp only [List.nil_append, List.cons_append, List.cons.injEq] at h
      exact absurd (congrArg Prod.fst h.1.symm) (hl' a (by simp))
  | cons a t ih =>
    cases l' with
    | nil =>
      simp only [List.nil_append, List.cons_append, List.cons.injEq] at h
      exact absurd (congrArg Prod.fst h.1) (hl a (by simp))
    | cons a' t' =>
      simp only [List.cons_append, List.cons.injEq] at h
      obtain ⟨h1, h2, h3⟩ := ih h.2 (fun kv hk => hl kv (by simp [hk])) (fun kv hk => hl' kv (by simp [hk]))
      exact ⟨by rw [h.1, h1], h2, h3⟩

theorem editAt_unique {op : Op} {ks : List Key} {v v1 v2 : Val} (h1 : EditAt op ks v v1) : EditAt op ks v v2 → v1 = v2 := by
  induction h1 generalizing v2 with
  | set e =>
    intro h2
    cases h2 with
    | set e' => rw [e] at e'; exact Op.set.inj e'
    | del e' => rw [e] at e'; cases e'
  | del e hl =>
    rename_i k l r x
    intro h2
    generalize hv : Val.dict (l ++ (k, x) :: r) = v at h2
    cases h2 with
    | set e' => rw [e] at e'; cases e'
    | del e' hl' =>
      rw [e] at e'; cases e'
      obtain ⟨rfl, -, rfl⟩ := split_unique (Val.dict.inj hv) hl hl'
      rfl
  | key hl _ ih =>
    rename_i k ks l r x x' _
    intro h2
    generalize hv : Val.dict (l ++ (k, x) :: r) = v at h2
    cases h2 with
    | key hl' h3 =>
      obtain ⟨rfl, rfl, rfl⟩ := split_unique (Val.dict.inj hv) hl hl'
      rw [ih h3]
  | idx _ ih =>
    rename_i ks l r x x' _
    intro h2
    generalize hv : Val.list (l ++ x :: r) = v at h2
    generalize hn : l.length = n at h2
    cases h2 with
    | idx h3 =>
      obtain ⟨rfl, h4⟩ := List.append_inj (Val.list.inj hv) hn
      obtain ⟨rfl, rfl⟩ := List.cons.inj h4
      rw [ih h3]

/-! ### JSON -/

theorem jsonRTL_append {an : Bool} : ∀ {l r : List Val} {d : List Val}, jsonRTL an (l ++ r) = .ok d ↔
    ∃ a b, jsonRTL an l = .ok a ∧ jsonRTL an r = .ok b ∧ d = a ++ b
  | [], r, d => by
    simp only [List.nil_append, jsonRTL]
    constructor
    · intro h; exact ⟨[], d, rfl, h, rfl⟩
    · rintro ⟨a, b, h1, h2, rfl⟩; cases h1; exact h2
  | v :: t, r, d => by
    have ih := fun d => @jsonRTL_append an t r d
    simp only [List.cons_append, jsonRTL]
    cases hv : jsonRT an v with
    | error e => simp
    | ok v' =>
      simp only
      cases ht : jsonRTL an (t ++ r) with
      | error e =>
        simp only [reduceCtorEq, false_iff]
        rintro ⟨a, b, h1, h2, rfl⟩
        cases h3 : jsonRTL an t with
        | error e => rw [h3] at h1; cases h1
        | ok t' => have := (ih _).2 ⟨t', b, h3, h2, rfl⟩; rw [ht] at this; cases this
      | ok d' =>
        obtain ⟨a, b, h1, h2, rfl⟩ := (ih d').1 ht
        simp only [h1, h2, Except.ok.injEq]
        constructor
        · rintro rfl; exact ⟨v' :: a, b, rfl, rfl, rfl⟩
        · rintro ⟨a', b', rfl, rfl, rfl⟩; rfl

theorem jsonRTD_append {an : Bool} : ∀ {l r : Dict} {d : Dict}, jsonRTD an (l ++ r) = .ok d ↔
    ∃ a b, jsonRTD an l = .ok a ∧ jsonRTD an r = .ok b ∧ d = a ++ b
  | [], r, d => by
    simp only [List.nil_append, jsonRTD]
    constructor
    · intro h; exact ⟨[], d, rfl, h, rfl⟩
    · rintro ⟨a, b, h1, h2, rfl⟩; cases h1; exact h2
  | (k, v) :: t, r, d => by
    have ih := fun d => @jsonRTD_append an t r d
    simp only [List.cons_append, jsonRTD]
    cases hv : jsonRT an v with
    | error e => simp
    | ok v' =>
      simp only
      cases ht : jsonRTD an (t ++ r) with
      | error e =>
        simp only [reduceCtorEq, false_iff]
        rintro ⟨a, b, h1, h2, rfl⟩
        cases h3 : jsonRTD an t with
        | error e => rw [h3] at h1; cases h1
        | ok t' => have := (ih _).2 ⟨t', b, h3, h2, rfl⟩; rw [ht] at this; cases this
      | ok d' =>
        obtain ⟨a, b, h1, h2, rfl⟩ := (ih d').1 ht
        simp only [h1, h2, Except.ok.injEq]
        constructor
        · rintro rfl; exact ⟨(jsonStr k, v') :: a, b, rfl, rfl, rfl⟩
        · rintro ⟨a', b', rfl, rfl, rfl⟩; rfl

theorem jokD_append {an : Bool} (l r : Dict) : JOkD an (l ++ r) ↔ JOkD an l ∧ JOkD an r := by
  induction l with
  | nil => simp [JOkD]
  | cons a t ih => obtain ⟨k, v⟩ := a; simp only [List.cons_append, JOkD, ih, and_assoc]
theorem jokL_append {an : Bool} (l r : List Val) : JOkL an (l ++ r) ↔ JOkL an l ∧ JOkL an r := by
  induction l with
  | nil => simp [JOkL]
  | cons a t ih => simp only [List.cons_append, JOkL, ih, and_assoc]

theorem jsonRTD_keys {an : Bool} {d d' : Dict} (h : JOkD an d) (hd : jsonRTD an d = .ok d') : d'.map Prod.fst = d.map Prod.fst := by
  obtain ⟨d'', h1, h2⟩ := jok_jsonD false an d h
  rw [h1] at hd
  cases hd
  exact simD_keys h2

theorem jsonRT_dict {an : Bool} {d : Dict} {v : Val} (h : JOk an (.dict d)) (hv : jsonRT an (.dict d) = .ok v) :
    ∃ d', jsonRTD an d = .ok d' ∧ v = .dict d' := by
  simp only [JOk] at h
  obtain ⟨d', h1, h2⟩ := jok_jsonD false an d h.2
  refine ⟨d', h1, ?_⟩
  simp only [jsonRT, h1, Except.ok.injEq] at hv
  rw [← hv, dupdate_nodup, List.nil_append]
  rw [List.nil_append, simD_keys h2]; exact h.1
theorem jsonRT_list {an : Bool} {l : List Val} {v : Val} (hv : jsonRT an (.list l) = .ok v) :
    ∃ l', jsonRTL an l = .ok l' ∧ v = .list l' := by
  simp only [jsonRT] at hv
  cases h : jsonRTL an l with
  | error e => rw [h] at hv; cases hv
  | ok l' => rw [h] at hv; exact ⟨l', rfl, (Except.ok.inj hv).symm⟩

theorem jsonRTL_length {an : Bool} : ∀ {l l' : List Val}, jsonRTL an l = .ok l' → l'.length = l.length
  | [], _, h => by cases h; rfl
  | v :: t, l', h => by
    simp only [jsonRTL] at h
    cases hv : jsonRT an v with
    | error e => rw [hv] at h; cases h
    | ok v' =>
      cases ht : jsonRTL an t with
      | error e => rw [hv, ht] at h; cases h
      | ok t' =>
        rw [hv, ht] at h
        cases h
        simp [jsonRTL_length ht]

theorem inJson_ok {an : Bool} {x y : Val} (h : JOk an x) (hi : InJson x y) : jsonRT an x = .ok y := by
  cases hi with
  | int i => rfl
  | float b => simp only [jsonRT]; exact jfloat_json an b (by simpa only [JOk] using h)
  | bool b => rfl
  | str s => simp only [jsonRT, jsonStr_normal s (by simpa only [JOk] using h)]
  | guid raw =>
    simp only [JOk] at h
    simp only [jsonRT, uuidStr_eq raw h, jsonStr_normal _ (uuidText_normal raw h)]

theorem jsonRTD_cons {an : Bool} {k : PyStr} {v : Val} {t d : Dict} (hk : Normal k) (h : jsonRTD an ((k, v) :: t) = .ok d) :
    ∃ v' t', jsonRT an v = .ok v' ∧ jsonRTD an t = .ok t' ∧ d = (k, v') :: t' := by
  simp only [jsonRTD, jsonStr_normal k hk] at h
  cases hv : jsonRT an v with
  | error e => rw [hv] at h; cases h
  | ok v' =>
    cases ht : jsonRTD an t with
    | error e => rw [hv, ht] at h; cases h
    | ok t' => rw [hv, ht] at h; exact ⟨v', t', rfl, rfl, (Except.ok.inj h).symm⟩
theorem jsonRTL_cons {an : Bool} {v : Val} {t d : List Val} (h : jsonRTL an (v :: t) = .ok d) :
    ∃ v' t', jsonRT an v = .ok v' ∧ jsonRTL an t = .ok t' ∧ d = v' :: t' := by
  simp only [jsonRTL] at h
  cases hv : jsonRT an v with
  | error e => rw [hv] at h; cases h
  | ok v' =>
    cases ht : jsonRTL an t with
    | error e => rw [hv, ht] at h; cases h
    | ok t' => rw [hv, ht] at h; exact ⟨v', t', rfl, rfl, (Except.ok.inj h).symm⟩

theorem keys_ne {an : Bool} {l a : Dict} {k : PyStr} (hl : ∀ kv ∈ l, kv.1 ≠ k) (h : JOkD an l) (ha : jsonRTD an l = .ok a) :
    ∀ kv ∈ a, kv.1 ≠ k := by
  intro kv hkv e
  have h1 : kv.1 ∈ a.map Prod.fst := List.mem_map_of_mem hkv
  rw [jsonRTD_keys h ha] at h1
  obtain ⟨kv', h2, h3⟩ := List.mem_map.1 h1
  exact hl _ h2 (h3.trans e)

/-- An edit of a document that survives JSON is an edit of its JSON form. -/
theorem editAt_json {an : Bool} {op op' : Op} (ho : op.Json op') {ks : List Key} {v v' : Val} (h : EditAt op ks v v') :
    ∀ {d d' : Val}, JOk an v → JOk an v' → jsonRT an v = .ok d → jsonRT an v' = .ok d' → EditAt op' ks d d' := by
  induction h with
  | set e =>
    intro d d' _ h2 _ h4
    cases ho with
    | del k => cases e
    | set hi =>
      cases e
      rw [inJson_ok h2 hi] at h4
      cases h4
      exact .set rfl
  | del e hl =>
    intro d d' h1 h2 h3 h4
    cases ho with
    | set hi => cases e
    | del k =>
      cases e
      obtain ⟨e1, h5, rfl⟩ := jsonRT_dict h1 h3
      obtain ⟨e2, h6, rfl⟩ := jsonRT_dict h2 h4
      simp only [JOk, jokD_append, JOkD] at h1
      obtain ⟨a, b, h7, h8, rfl⟩ := jsonRTD_append.1 h5
      obtain ⟨x', t', -, h9, rfl⟩ := jsonRTD_cons h1.2.2.1 h8
      obtain ⟨a', b', h10, h11, rfl⟩ := jsonRTD_append.1 h6
      rw [h7] at h10; cases h10
      rw [h9] at h11; cases h11
      exact .del rfl (keys_ne hl h1.2.1 h7)
  | key hl _ ih =>
    intro d d' h1 h2 h3 h4
    obtain ⟨e1, h5, rfl⟩ := jsonRT_dict h1 h3
    obtain ⟨e2, h6, rfl⟩ := jsonRT_dict h2 h4
    simp only [JOk, jokD_append, JOkD] at h1 h2
    obtain ⟨a, b, h7, h8, rfl⟩ := jsonRTD_append.1 h5
    obtain ⟨x1, t1, h9, h10, rfl⟩ := jsonRTD_cons h1.2.2.1 h8
    obtain ⟨a', b', h11, h12, rfl⟩ := jsonRTD_append.1 h6
    obtain ⟨x2, t2, h13, h14, rfl⟩ := jsonRTD_cons h1.2.2.1 h12
    rw [h7] at h11; cases h11
    rw [h10] at h14; cases h14
    exact .key (keys_ne hl h1.2.1 h7) (ih h1.2.2.2.2.1 h2.2.2.2.2.1 h9 h13)
  | idx _ ih =>
    intro d d' h1 h2 h3 h4
    obtain ⟨e1, h5, rfl⟩ := jsonRT_list h3
    obtain ⟨e2, h6, rfl⟩ := jsonRT_list h4
    simp only [JOk, jokL_append, JOkL] at h1 h2
    obtain ⟨a, b, h7, h8, rfl⟩ := jsonRTL_append.1 h5
    obtain ⟨x1, t1, h9, h10, rfl⟩ := jsonRTL_cons h8
    obtain ⟨a', b', h11, h12, rfl⟩ := jsonRTL_append.1 h6
    obtain ⟨x2, t2, h13, h14, rfl⟩ := jsonRTL_cons h12
    rw [h7] at h11; cases h11
    rw [h10] at h14; cases h14
    exact editAt_elem (jsonRTL_length h7).symm (ih h1.2.1 h2.2.1 h9 h13)

end Pal
