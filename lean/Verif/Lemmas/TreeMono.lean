import Verif.Lemmas.Wrote
/-
The property writer does not distinguish a value from its image under JSON.
-/

namespace Pal
open Spec

def LeW (x y : W) : Prop := ∀ b, Wrote x b → Wrote y b
def LeP (x y : WP) : Prop := ∀ n b, WroteP x n b → WroteP y n b

/-- Two writers, applied to related values, write the same. -/
def MonoW (bs : Bool) (r r' : Val → W) : Prop := ∀ a b, Sim bs a b → LeW (r a) (r' b)

theorem leW_keep {a b : Val} {x y : Except Err Bytes} (h : Le x y) : LeW (keep a x) (keep b y) :=
  fun c hc => wrote_keep.2 (h c (wrote_keep.1 hc))

theorem leW_ite {c c' : Bool} (e : c' = c) {x y x' y' : W} (h1 : LeW x x') (h2 : LeW y y') :
    LeW (if c = true then x else y) (if c' = true then x' else y') := by
  subst e
  cases c'
  · exact h2
  · exact h1

theorem leP_ite {c c' : Bool} (e : c' = c) {x y x' y' : WP} (h1 : LeP x x') (h2 : LeP y y') :
    LeP (if c = true then x else y) (if c' = true then x' else y') := by
  subst e
  cases c'
  · exact h2
  · exact h1

theorem leW_error (e : Err) (y : W) : LeW (.error e) y := fun _ h => (wrote_error.1 h).elim
theorem leP_error (e : Err) (y : WP) : LeP (.error e) y := fun _ _ h => (wroteP_error.1 h).elim

theorem leW_on {bs : Bool} {a b : Val} (h : Sim bs a b) (k : String) {f g : Val → W} (hf : MonoW bs f g) :
    LeW (wOn a k f) (wOn b k g) := by
  intro c hc
  obtain ⟨x, h1, h2⟩ := wrote_on.1 hc
  obtain ⟨y, h3, h4⟩ := sim_get h h1
  exact wrote_on.2 ⟨y, h3, hf x y h4 c h2⟩

theorem leW_then {p q : Except Err Bytes} {x y : W} (h : Le p q) (hx : LeW x y) : LeW (wThen p x) (wThen q y) := by
  intro b hb
  obtain ⟨c, d, h1, h2, rfl⟩ := wrote_then.1 hb
  exact wrote_then.2 ⟨c, d, h c h1, hx d h2, rfl⟩

theorem wroteL_mono {bs : Bool} {f g : Val → W} (hf : MonoW bs f g) {l l' : List Val} (h : SimL bs l l') {b : Bytes}
    (hb : WroteL f l b) : WroteL g l' b := by
  induction l generalizing l' b with
  | nil => cases h; rw [wroteL_nil] at hb ⊢; exact hb
  | cons a t ih =>
    cases h with
    | cons h1 h2 =>
      obtain ⟨c, d, h3, h4, rfl⟩ := wroteL_cons.1 hb
      exact wroteL_cons.2 ⟨c, d, hf _ _ h1 c h3, ih h2 h4, rfl⟩

theorem leW_seq {bs : Bool} {f g : Val → W} (hf : MonoW bs f g) : MonoW bs (wSeq f) (wSeq g) := by
  intro a b h c hc
  obtain ⟨l, h1, h2⟩ := wrote_seq.1 hc
  obtain ⟨l', h3, h4⟩ := sim_seqItems h h1
  exact wrote_seq.2 ⟨l', h3, wroteL_mono hf h4 h2⟩

theorem leW_iter {bs : Bool} {f g : Val → W} (hf : MonoW bs f g) : MonoW bs (wIter f) (wIter g) := by
  intro a b h c hc
  obtain ⟨l, h1, h2⟩ := wrote_iter.1 hc
  obtain ⟨l', h3, h4⟩ := sim_iterItems h h1
  exact wrote_iter.2 ⟨l', h3, wroteL_mono hf h4 h2⟩

theorem leP_sized {p q : Except Err Bytes} {x y : W} (h : Le p q) (hx : LeW x y) : LeP (sized p x) (sized q y) := by
  intro n b hb
  obtain ⟨c, d, h1, h2, rfl, rfl⟩ := wroteP_sized.1 hb
  exact wroteP_sized.2 ⟨c, d, h c h1, hx d h2, rfl, rfl⟩

theorem leP_const {k : Nat} {a b : Val} {x y : Except Err Bytes} (h : Le x y) :
    LeP (sizeConst k a x) (sizeConst k b y) := by
  intro n c hc
  obtain ⟨h1, rfl⟩ := wroteP_const.1 hc
  exact wroteP_const.2 ⟨h _ h1, rfl⟩

theorem le_wId {bs : Bool} {a b : Val} (h : Sim bs a b) : Le (wId a) (wId b) := by
  intro r hr
  simp only [wId] at hr ⊢
  cases hg : a.getD (P "id") with
  | error e => rw [hg] at hr; cases hr
  | ok x =>
    obtain ⟨y, h1, h2⟩ := sim_getD h hg
    rw [hg] at hr
    rw [h1]
    exact mono_optGuid bs x y h2 r hr

theorem mono_structValue {bs : Bool} {r r' : Val → W} (hr : MonoW bs r r') {st st' : Val} (hs : Sim bs st st') :
    MonoW bs (wStructValue r st) (wStructValue r' st') := by
  intro a b h
  unfold wStructValue
  refine leW_ite (sim_isS hs _ (by decide +kernel)) (leW_keep (mono_vectorDict _ _ _ h)) ?_
  refine leW_ite (sim_isS hs _ (by decide +kernel)) (leW_keep (mono_u64 _ _ _ h)) ?_
  refine leW_ite (sim_isS hs _ (by decide +kernel)) (leW_keep (mono_guid _ _ _ h)) ?_
  refine leW_ite (sim_isS hs _ (by decide +kernel)) (leW_keep (mono_quatDict _ _ _ h)) ?_
  refine leW_ite (sim_isS hs _ (by decide +kernel)) (leW_keep ?_) (hr _ _ h)
  mono_tac

theorem mono_propValue {bs : Bool} {r r' : Val → W} (hr : MonoW bs r r') {ty ty' st st' : Val} (ht : Sim bs ty ty')
    (hs : Sim bs st st') : MonoW bs (wPropValue r ty st) (wPropValue r' ty' st') := by
  intro a b h
  unfold wPropValue
  refine leW_ite (sim_isS ht _ (by decide +kernel)) (mono_structValue hr hs _ _ h) ?_
  refine leW_ite (sim_isS ht _ (by decide +kernel)) (leW_keep (mono_fstring _ _ _ h)) ?_
  refine leW_ite (sim_isS ht _ (by decide +kernel)) (leW_keep (mono_fstring _ _ _ h)) ?_
  refine leW_ite (sim_isS ht _ (by decide +kernel)) (leW_keep (mono_i32 _ _ _ h)) ?_
  exact leW_ite (sim_isS ht _ (by decide +kernel)) (leW_keep (mono_bool _ _ _ h)) (leW_error _ _)

theorem le_arrayElem {bs : Bool} {at_ at' : Val} (ht : Sim bs at_ at') (a b : Val) (h : Sim bs a b) :
    Le (wArrayElem at_ a) (wArrayElem at' b) := by
  unfold wArrayElem
  refine le_ite (sim_isS ht _ (by decide +kernel)) (mono_i32 _ _ _ h) ?_
  refine le_ite (sim_isS ht _ (by decide +kernel)) (mono_i64 _ _ _ h) ?_
  refine le_ite (sim_isS ht _ (by decide +kernel)) (mono_float _ _ _ h) ?_
  refine le_ite (sim_isS ht _ (by decide +kernel)) (mono_fstring _ _ _ h) ?_
  refine le_ite (sim_isS ht _ (by decide +kernel)) (mono_fstring _ _ _ h) ?_
  refine le_ite (sim_isS ht _ (by decide +kernel)) (mono_fstring _ _ _ h) ?_
  refine le_ite (sim_isS ht _ (by decide +kernel)) (mono_bool _ _ _ h) ?_
  exact le_ite (sim_isS ht _ (by decide +kernel)) (mono_byte _ _ _ h) (le_error _ _)

theorem le_arrayValue {bs : Bool} {at_ at' : Val} (ht : Sim bs at_ at') (a b : Val) (h : Sim bs a b) :
    Le (wArrayValue at_ a) (wArrayValue at' b) := by
  intro r hr
  simp only [wArrayValue] at hr ⊢
  cases hl : a.seqItems with
  | error e => rw [hl] at hr; cases hr
  | ok l =>
    obtain ⟨l', h1, h2⟩ := sim_seqItems h hl
    rw [hl] at hr
    rw [h1]
    exact le_wItems (le_arrayElem ht) h2 r hr

theorem leW_structElem {bs : Bool} {r r' : Val → W} (hr : MonoW bs r r') {v v' : Val} (hv : Sim bs v v') :
    MonoW bs (wStructElem r v) (wStructElem r' v') := by
  intro a b h
  unfold wStructElem
  cases hg : v.get (P "type_name") with
  | error e => exact leW_error _ _
  | ok tn =>
    obtain ⟨tn', h1, h2⟩ := sim_get hv hg
    rw [h1]
    exact mono_structValue hr h2 a b h

theorem leW_arrayProperty {bs : Bool} {r r' : Val → W} (hr : MonoW bs r r') {at_ at' : Val} (ht : Sim bs at_ at') :
    MonoW bs (wArrayProperty r at_) (wArrayProperty r' at') := by
  intro a b h
  unfold wArrayProperty
  refine leW_then (le_wAt (fun _ _ h => le_wLen h) h _) (leW_ite (sim_isS ht _ (by decide +kernel)) ?_ ?_)
  · refine leW_then (by mono_tac) ?_
    have hl := leW_on h "values" (leW_seq (leW_structElem hr h))
    intro c hc
    cases hw : wOn a "values" (wSeq (wStructElem r a)) with
    | error e => rw [hw] at hc; exact (wrote_error.1 hc).elim
    | ok q =>
      obtain ⟨buf, a'⟩ := q
      obtain ⟨b', hb'⟩ := hl buf ⟨a', hw⟩
      rw [hw] at hc
      rw [hb']
      refine leW_then ?_ (fun _ h => wrote_ok.2 (wrote_ok.1 h)) c hc
      refine le_wcat_cons (le_refl _) ?_
      mono_tac
  · exact leW_keep (le_wAt (le_arrayValue ht) h _)

theorem leW_mapEntry {bs : Bool} {r r' : Val → W} (hr : MonoW bs r r') {p p' : Val} (hp : Sim bs p p') :
    MonoW bs (wMapEntry r p) (wMapEntry r' p') := by
  intro a b h c hc
  obtain ⟨kt, kst, vt, vst, k, v, kb, vb, h1, h2, h3, h4, h5, h6, h7, h8, rfl⟩ := wrote_mapEntry.1 hc
  obtain ⟨kt', e1, s1⟩ := sim_get hp h1
  obtain ⟨kst', e2, s2⟩ := sim_get hp h2
  obtain ⟨vt', e3, s3⟩ := sim_get hp h3
  obtain ⟨vst', e4, s4⟩ := sim_get hp h4
  obtain ⟨k', e5, s5⟩ := sim_get h h5
  obtain ⟨v', e6, s6⟩ := sim_get h h6
  exact wrote_mapEntry.2 ⟨kt', kst', vt', vst', k', v', kb, vb, e1, e2, e3, e4, e5, e6,
    mono_propValue hr s1 s2 _ _ s5 _ h7, mono_propValue hr s3 s4 _ _ s6 _ h8, rfl⟩

theorem leP_plainInner {bs : Bool} {r r' : Val → W} (hr : MonoW bs r r') {ty ty' : Val} (ht : Sim bs ty ty')
    {a b : Val} (h : Sim bs a b) : LeP (wPlainInner r ty a) (wPlainInner r' ty' b) := by
  have hid := le_wId h
  have one {x y : Except Err Bytes} {u v : Except Err Bytes} (h1 : Le x y) (h2 : Le u v) :
      Le (wcat [x, u]) (wcat [y, v]) := le_wcat_cons h1 (le_wcat_cons h2 (le_refl _))
  have three {x y : Except Err Bytes} {u v w z : Except Err Bytes} (h1 : Le x y) (h2 : Le u v) (h3 : Le w z) :
      Le (wcat [x, u, w]) (wcat [y, v, z]) := le_wcat_cons h1 (one h2 h3)
  unfold wPlainInner
  refine leP_ite (sim_isS ht _ (by decide +kernel)) ?_ ?_
  · refine leP_sized (three (le_wAt (mono_fstring _) h _) (le_wAt (mono_guid _) h _) hid) ?_
    cases hg : a.get (P "struct_type") with
    | error e => exact leW_error _ _
    | ok st =>
      obtain ⟨st', h1, h2⟩ := sim_get h hg
      rw [h1]
      exact leW_on h _ (mono_structValue hr h2)
  refine leP_ite (sim_isS ht _ (by decide +kernel)) (leP_const (one hid (le_wAt (mono_i32 _) h _))) ?_
  refine leP_ite (sim_isS ht _ (by decide +kernel)) (leP_const (one hid (le_wAt (mono_i64 _) h _))) ?_
  refine leP_ite (sim_isS ht _ (by decide +kernel)) (leP_const (one hid (le_wAt (mono_i32 _) h _))) ?_
  refine leP_ite (sim_isS ht _ (by decide +kernel)) (leP_const (one hid (le_wAt (mono_float _) h _))) ?_
  refine leP_ite (sim_isS ht _ (by decide +kernel)) (leP_sized hid (leW_keep (le_wAt (mono_fstring _) h _))) ?_
  refine leP_ite (sim_isS ht _ (by decide +kernel)) (leP_sized hid (leW_keep (le_wAt (mono_fstring _) h _))) ?_
  refine leP_ite (sim_isS ht _ (by decide +kernel))
    (leP_sized (one (le_wAt (mono_fstring _) h _) hid) (leW_keep (le_wAt (mono_fstring _) h _))) ?_
  refine leP_ite (sim_isS ht _ (by decide +kernel)) (leP_const (one (le_wAt (mono_bool _) h _) hid)) ?_
  refine leP_ite (sim_isS ht _ (by decide +kernel)) ?_ ?_
  · refine leP_sized (one (le_wAt (mono_fstring _) h _) hid) ?_
    cases hg : a.get (P "array_type") with
    | error e => exact leW_error _ _
    | ok st =>
      obtain ⟨st', h1, h2⟩ := sim_get h hg
      rw [h1]
      exact leW_on h _ (leW_arrayProperty hr h2)
  refine leP_ite (sim_isS ht _ (by decide +kernel)) ?_ (leP_error _ _)
  refine leP_sized (three (le_wAt (mono_fstring _) h _) (le_wAt (mono_fstring _) h _) hid) ?_
  unfold wMapBody
  refine leW_then (one (le_refl _) (le_wAt (fun _ _ h => le_wLen h) h _)) ?_
  exact leW_on h _ (leW_iter (leW_mapEntry hr h))

theorem contains_dict (d : Dict) (k : PyStr) : (Val.dict d).contains k = .ok (dget? d k).isSome := rfl

theorem get_dict_of_ok {v x : Val} {k : PyStr} (h : v.get k = .ok x) : ∃ d, v = .dict d := by
  cases v <;> simp only [Val.get, reduceCtorEq] at h
  exact ⟨_, rfl⟩

theorem leW_property {bs : Bool} {A B : Cfg} (hc : ∀ p c, A.custom p = some c → B.custom p = some c ∧ bs = false)
    {r r' : Val → W} (hr : MonoW bs r r') {wp : Val → Except Err Bytes} (hw : Mono false wp) :
    MonoW bs (wProperty A r wp) (wProperty B r' wp) := by
  intro a b h c hcw
  obtain ⟨ty, tb, n, buf, sb, h1, h2, h3, h4, rfl⟩ := wrote_property.1 hcw
  obtain ⟨ty', e1, s1⟩ := sim_get h h1
  refine wrote_property.2 ⟨ty', tb, n, buf, sb, e1, mono_fstring bs _ _ s1 _ h2, ?_, h4, rfl⟩
  obtain ⟨d, rfl⟩ := get_dict_of_ok h1
  cases h with
  | @dict _ d' hd =>
    have hcon : ∀ q, (Val.dict d).contains (P "custom_type") = .ok q →
        (Val.dict d').contains (P "custom_type") = .ok q := by
      intro q hq
      rw [contains_dict] at hq ⊢
      rcases simD_get hd (P "custom_type") with ⟨h1, h2⟩ | ⟨x', y, h1, h2, h3, h4⟩
      · rw [h1] at hq; rw [h2]; exact hq
      · rw [h1] at hq; rw [h2]; exact hq
    rw [wroteP_inner] at h3 ⊢
    rcases h3 with ⟨h5, h6⟩ | ⟨h5, p, c, prop', h6, h7, h8, h9, h10⟩
    · exact .inl ⟨hcon _ h5, leP_plainInner hr s1 (.dict hd) n buf h6⟩
    · obtain ⟨h7', rfl⟩ := hc p c h7
      obtain ⟨y, e2, s2⟩ := sim_get (.dict hd) h6
      cases s2
      obtain ⟨q, e3, s3⟩ := fsim_pre c hw _ _ (.dict hd) _ h9
      refine .inr ⟨hcon _ h5, p, c, q, e2, h7', ?_, e3, leP_plainInner hr s1 s3 n buf h10⟩
      rw [sim_isS s1 _ (by cases c <;> decide +kernel)]
      exact h8

theorem wroteD_mono {bs : Bool} {f g : Val → W} (hf : MonoW bs f g) {l l' : Dict} (h : SimD bs l l') {b : Bytes}
    (hb : WroteD f l b) : WroteD g l' b := by
  induction l generalizing l' b with
  | nil => cases h; rw [wroteD_nil] at hb ⊢; exact hb
  | cons a t ih =>
    cases h with
    | cons k h1 hn h2 =>
      obtain ⟨kb, c, d, h0, h3, h4, rfl⟩ := wroteD_cons.1 hb
      exact wroteD_cons.2 ⟨kb, c, d, h0, hf _ _ h1 c h3, ih h2 h4, rfl⟩

theorem leW_body {bs : Bool} {f g : Val → W} (hf : MonoW bs f g) : MonoW bs (wPropsBody f) (wPropsBody g) := by
  intro a b h c hc
  by_cases ha : ∃ d, a = .dict d
  · obtain ⟨d, rfl⟩ := ha
    cases h with
    | dict hd =>
      obtain ⟨e, nb, h1, h2, rfl⟩ := wrote_body.1 hc
      exact wrote_body.2 ⟨e, nb, wroteD_mono hf hd h1, h2, rfl⟩
  · have hb : ∀ d, b ≠ .dict d := by
      rintro d rfl
      cases h
      exact ha ⟨_, rfl⟩
    rw [wrote_body_other fun d e => ha ⟨d, e⟩] at hc
    rw [wrote_body_other hb]
    obtain ⟨l', h1, h2⟩ := sim_iterItems h hc.1
    cases h2
    exact ⟨h1, hc.2⟩

/-- `lambda p: writer.properties(p); writer.bytes()` with a writer without custom properties. -/
def bytesOf (n : Nat) (p : Val) : Except Err Bytes :=
  match wProps n Cfg.empty p with
  | .ok (b, _) => .ok b
  | .error e => .error e

theorem wProps_succ (n : Nat) (cfg : Cfg) (v : Val) :
    wProps (n + 1) cfg v = wPropsBody (wProperty cfg (wProps n cfg) (bytesOf n)) v := rfl

theorem bytesOf_ok {n : Nat} {p : Val} {b : Bytes} : bytesOf n p = .ok b ↔ Wrote (wProps n Cfg.empty p) b := by
  unfold bytesOf
  cases h : wProps n Cfg.empty p with
  | error e => simp [wrote_error]
  | ok q => obtain ⟨c, v⟩ := q; simp [wrote_ok]

/-- The property writer does not distinguish related values, and does not need more
custom properties than the value has. -/
theorem mono_props : ∀ (n : Nat) {bs : Bool} {A B : Cfg}
    (_ : ∀ p c, A.custom p = some c → B.custom p = some c ∧ bs = false),
    MonoW bs (wProps n A) (wProps n B)
  | 0, _, _, _, _ => fun _ _ _ _ h => (wrote_error.1 h).elim
  | n + 1, bs, A, B, hc => by
    intro a b h
    rw [wProps_succ, wProps_succ]
    have hw : Mono false (bytesOf n) := by
      intro a b h r hr
      rw [bytesOf_ok] at hr ⊢
      exact mono_props n (A := Cfg.empty) (B := Cfg.empty) (fun _ _ h => by cases h) a b h r hr
    exact leW_body (leW_property hc (mono_props n hc) hw) a b h

theorem mono_bytesOf' (n : Nat) : Mono false (bytesOf n) := by
  intro a b h r hr
  rw [bytesOf_ok] at hr ⊢
  exact mono_props n (A := Cfg.empty) (B := Cfg.empty) (fun _ _ h => by cases h) a b h r hr

end Pal
