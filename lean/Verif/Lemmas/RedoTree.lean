import Verif.Lemmas.RedoCamp
import Verif.Lemmas.ExtTree
import Verif.Props.Resave
/-
Inversion of the reader of property lists, custom properties included.
-/

namespace Pal
open Spec

/-! ### embedded property lists -/

/-- A property that a writer without custom properties does not write. -/
def Locked (p : Val) : Prop := GuidArray p ∨ ∃ c, p.get (P "custom_type") = .ok c

theorem locked_raises {v : Val} (h : BadList Locked v) (n : Nat) : ∃ e, wProps n Cfg.empty v = .error e := by
  obtain ⟨d, k, p, hi, hm, hg | ⟨c, hc⟩⟩ := h
  · exact badList_raises ⟨d, k, p, hi, hm, hg⟩ Cfg.empty n
  · exact C09_write_inside Cfg.empty hi (fun n => C09_write_custom Cfg.empty n d k p c hm hc fun _ _ => rfl) n

theorem custom_key {cfg : Cfg} {rec : PyStr → R Val} {ty path : PyStr} {size : Nat} {s s' : Bytes} {x : Val} {c : CodecId}
    (hc : cfg.custom path = some c) (h : rProperty cfg rec ty size path s = .ok (x, s')) :
    ∃ v w, rPlain cfg rec ty size path s = .ok (v, s') ∧ ty = P c.propType ∧ c.post cfg.allowNan (rec []) v = .ok w ∧
      ∃ u, w.set (P "custom_type") (.str path) = .ok u ∧ u.set (P "type") (.str ty) = .ok x := by
  unfold rProperty at h
  rw [hc] at h
  simp only at h
  by_cases ht : ty = P c.propType
  · rw [if_pos ht] at h
    obtain ⟨v, s1, h1, ha⟩ := r_bind_inv h
    obtain ⟨w, s2, h2, hb⟩ := r_bind_inv ha
    obtain ⟨u, s3, h3, hd⟩ := r_bind_inv hb
    obtain ⟨e2, rfl⟩ := rLift_inv h2
    obtain ⟨e3, rfl⟩ := rLift_inv h3
    obtain ⟨e4, rfl⟩ := rLift_inv hd
    exact ⟨v, w, h1, ht, e2, u, e3, e4⟩
  · rw [if_neg ht] at h
    cases h

theorem recOk_custom (cfg : Cfg) (hcfg : cfg.allowNan = true) : RecOk True (rPropsLoop cfg (2 ^ 32) [] []) wpS Unw := by
  intro s v s' hs h
  have key := inv_loopC (cfg := cfg) (K := plainK) (C := noCustom) (G := False) (Bad := Locked) hcfg (.inr fun _ h => .inl h)
    (fun n path c ty size s x s' hc h _ _ => by
      obtain ⟨v, w, -, -, -, u, h1, h2⟩ := custom_key hc h
      refine .inr (badProp_of (.inr ⟨.str path, ?_⟩))
      rw [get_set_ne h2 (by rw [Ne, P_inj]; decide)]
      exact (set_get_same h1).1)
    (2 ^ 32) [] [] s v s' 0 trivial (by simp) h ⟨hs, hs⟩
  rcases key with ⟨ps, w1, w2, rfl, w4⟩ | hb
  · have w2 := props_strict ps [] w2
    refine .inr ⟨encProps ps, ?_, by omega, fun _ => .inl fun t => ?_⟩
    · exact wpS_of fun n hn =>
        bytesOf_ok.2 (props_write ps noCustom (writesCustom_no cfg Cfg.empty plainK) [] n w2 hn (by omega))
    · exact tree_read hcfg w1 w2 (by omega) (2 ^ 32) (by omega) t
  · refine .inl fun n => ?_
    obtain ⟨e, he⟩ := locked_raises hb n
    refine ⟨e, ?_⟩
    unfold bytesOf
    rw [he]

/-! ### the decoders on whole properties -/

theorem post_inv {c : CodecId} {an : Bool} {rec : R Val} {cfg : Cfg} {path : PyStr} {x w : Val} {m : Mode} (p : PropT m)
    (h : c.post an rec (vDict (p.entries cfg path x)) = .ok w) :
    ∃ y, c.post1 an rec x = .ok y ∧ w = vDict (p.entries cfg path y) := by
  have key : ∀ f : Val → Except Err Val, Val.upd f [P "value"] (vDict (p.entries cfg path x)) = .ok w →
      ∃ y, f x = .ok y ∧ w = vDict (p.entries cfg path y) := by
    intro f h
    obtain ⟨x', y, h1, h2, rfl⟩ := upd_inv h
    rw [entries_path] at h1
    cases h1
    exact ⟨y, h2, put_entries cfg path x y p⟩
  cases c
  case debug =>
    simp only [CodecId.post, debugPost, ks, List.map_cons, List.map_nil, entries_path, Val.path] at h
    simp only [CodecId.post1]
    cases hg : x.get (P "values") with
    | error e => rw [hg] at h; cases h
    | ok b =>
      rw [hg] at h
      simp only at h ⊢
      cases h1 : b.len with
      | error e => rw [h1] at h; cases h
      | ok k =>
        cases h2 : b.iterItems with
        | error e => rw [h1, h2] at h; cases h
        | ok l =>
          rw [h1, h2] at h
          simp only at h ⊢
          cases h3 : mapE debugPrint1 l with
          | error e => rw [h3] at h; cases h
          | ok l' => rw [h3] at h; cases h; exact ⟨x, rfl, rfl⟩
  all_goals exact key _ h

theorem pre_inv {c : CodecId} {wp : Val → Except Err Bytes} {cfg : Cfg} {path : PyStr} {y w : Val} {m : Mode} (p : PropT m)
    (h : c.pre wp (vDict (p.entries cfg path y ++ [("custom_type", .str path)])) = .ok w) :
    ∃ z, c.pre2 wp y = .ok z ∧ w = vDict (p.entries cfg path z) := by
  have hd := del_last _ _ (.str path) (custom_not_key cfg path y p)
  have hdt : ∀ f, delThen f (vDict (p.entries cfg path y ++ [("custom_type", .str path)])) =
      f (vDict (p.entries cfg path y)) := fun f => by unfold delThen; rw [hd]
  have key : ∀ f : Val → Except Err Val, Val.upd f [P "value"] (vDict (p.entries cfg path y)) = .ok w →
      ∃ z, f y = .ok z ∧ w = vDict (p.entries cfg path z) := by
    intro f h
    obtain ⟨x', z, h1, h2, rfl⟩ := upd_inv h
    rw [entries_path] at h1
    cases h1
    exact ⟨z, h2, put_entries cfg path y z p⟩
  cases c
  case debug =>
    simp only [CodecId.pre] at h
    rw [hd] at h
    cases h
    exact ⟨y, rfl, rfl⟩
  all_goals
    simp only [CodecId.pre, encodeValue, hdt] at h
    exact key _ h

theorem okRec_loop (cfg : Cfg) {K n n' : Nat} (h : K < n) (h' : K < n') :
    OkRec K K (fun p => rPropsLoop cfg n p []) (fun p => rPropsLoop cfg n' p []) :=
  ⟨fun p => ok_loop cfg K n n' p [] K h h' (Nat.le_refl _) trivial, fun p _ _ _ h => loop_dict cfg n p [] _ _ _ h⟩

theorem half_raises {v : Val} (h : BadList HalfArray v) (B : Cfg) (n : Nat) : ∃ e, wProps n B v = .error e := by
  obtain ⟨d, k, p, hi, hm, hu, h1, h2, a, e, h3, h4⟩ := h
  refine C09_write_inside B hi (fun n => ?_) n
  refine raises_iff.2 fun ⟨b, hb⟩ => ?_
  obtain ⟨n, rfl, ty, size, c, h6, h7⟩ := wrote_mem hb hm
  cases h1.symm.trans h6
  obtain ⟨at', v', c', h8, h9, h10⟩ := array_inv (plain_of_undecoded hu h7)
  cases h2.symm.trans h8
  cases h3.symm.trans h9
  unfold wArrayProperty at h10
  obtain ⟨_, _, -, h11, -⟩ := wrote_then.1 h10
  rw [isS_P, decide_eq_true rfl, if_pos rfl] at h11
  obtain ⟨_, _, h12, -, -⟩ := wrote_then.1 h11
  have : wAt a ["prop_name"] wFString = .error e := by
    simp only [wAt, List.map_cons, List.map_nil, Val.path, h4]
  rw [this] at h12
  cases h12

/-! ### one custom property -/

/-- A property that a writer with configuration `B` does not write. -/
def NoWrite (B : Cfg) (p : Val) : Prop := ∀ d k n, (k, p) ∈ d → ∃ e, wProps n B (.dict d) = .error e

theorem noWrite_raises {B : Cfg} {v : Val} (h : BadList (NoWrite B) v) (n : Nat) : ∃ e, wProps n B v = .error e := by
  obtain ⟨d, k, p, hi, hm, hg⟩ := h
  exact C09_write_inside B hi (fun n => hg d k n hm) n

theorem noWrite_guid {B : Cfg} {p : Val} (h : GuidArray p) : NoWrite B p :=
  fun d k n hm => badList_raises ⟨d, k, p, .here _, hm, h⟩ B n

theorem noWrite_half {B : Cfg} {p : Val} (h : HalfArray p) : NoWrite B p :=
  fun d k n hm => half_raises ⟨d, k, p, .here _, hm, h⟩ B n

/-- The stored form `p` of a custom property with decoder `c` is a fixed point: it is
decoded, and what it is decoded to is encoded as `p`. -/
def Fixed (cfg B : Cfg) (c : CodecId) (p : PropT rawMode) : Prop :=
  ∃ path y, cfg.custom path = some c ∧
    (∀ n, p.head.length + p.tail.length < n →
      c.post1 true (rPropsLoop cfg n [] []) (p.val cfg (decK true cfg) path) = .ok y) ∧
    ∀ n, p.head.length + p.tail.length < n → ∃ z, c.pre2 (bytesOf n) y = .ok z ∧
      WroteP (wPlainInner (wProps n B) (.str (P p.type)) (vDict (p.entries cfg path z))) p.tail.length (p.head ++ p.tail)

/-- The configuration of C54: no custom property inside a custom property, a decoder of
its own for each path, the same decoders for writing. -/
structure CfgOk (cfg B : Cfg) : Prop where
  nan : cfg.allowNan = true
  nest : ∀ p c, cfg.custom p = some c → ∀ r, cfg.custom (p ++ dot ++ r) = none
  inj : ∀ p q c, cfg.custom p = some c → cfg.custom q = some c → p = q
  same : ∀ p c, cfg.custom p = some c → B.custom p = some c
  steady : ∀ p c, cfg.custom p = some c → c.Steady

theorem fixed_reads {cfg B : Cfg} (H : CfgOk cfg B) : ReadsCustom (m := rawMode) cfg (decK true cfg) (Fixed cfg B) := by
  rintro n c p path ⟨q, y, hq, h1, -⟩ hw hc hn h64
  cases H.inj _ _ _ hq hc
  rw [decK_eq h1]
  exact post_value c true _ p (h1 n hn)

theorem fixed_writes {cfg B : Cfg} (H : CfgOk cfg B) : WritesCustom (m := rawMode) cfg B (decK true cfg) (Fixed cfg B) := by
  rintro n c p path ⟨q, y, hq, h1, h2⟩ hw hc hn h64
  cases H.inj _ _ _ hq hc
  rw [decK_eq h1]
  obtain ⟨z, h3, h4⟩ := h2 n hn
  exact ⟨H.same _ _ hc, _, pre_value c _ p h3, h4⟩

theorem badProp_false {x : Val} (h : BadProp (fun _ => False) x) : False := by
  obtain ⟨_, _, _, _, _, h⟩ := h [([], x)] [] List.mem_cons_self
  exact h

theorem inv_custom {cfg B : Cfg} (H : CfgOk cfg B) (n : Nat) (path : PyStr) (c : CodecId) (ty : PyStr) (size : Nat) (s : Bytes)
    (x : Val) (s' : Bytes) (hc : cfg.custom path = some c)
    (h : rProperty cfg (fun p => rPropsLoop cfg n p []) ty size path s = .ok (x, s')) (h0 : 0 < s'.length)
    (hs : s.length < n ∧ s.length < 2 ^ 32) : PropOk cfg (decK true cfg) (Fixed cfg B) False (NoWrite B) ty path s s' x := by
  have hst := H.steady _ _ hc
  obtain ⟨v, w, h1, hty, h2, u, h3, h4⟩ := custom_key hc h
  rw [H.nan] at h2
  -- the stored form
  have hrec : ∀ q, Below path q → RecInv cfg (decK true cfg) noCustom True (fun _ => False) (2 ^ 32) (fun p => rPropsLoop cfg n p []) q := by
    intro q hq s v s' h hl
    have hq' : ∀ r, cfg.custom (q ++ dot ++ r) = none := by
      intro r
      rcases hq with rfl | ⟨r', rfl⟩
      · exact H.nest _ _ hc r
      · have := H.nest _ _ hc (r' ++ dot ++ r)
        simpa only [List.append_assoc] using this
    rcases inv_loop (K := decK true cfg) (G := True) (Bad := fun _ => False) H.nan (.inl trivial) n q hq' [] s v s' 0
      trivial (by simp) h hl.2 with ⟨ps, w1, w2, w3, w4⟩ | ⟨_, _, _, _, _, hb⟩
    · exact .inl ⟨ps, by simp only [SVal.WfG]; exact ⟨w1, w2⟩, w3, by omega⟩
    · exact hb.elim
  rcases inv_plain H.nan (.inl trivial) hrec (fun p => grow_loop cfg n p []) h1 h0 ⟨hs.2, hs.2⟩ with
    ⟨p, rfl, hw, rfl, hl⟩ | hb
  swap
  · exact (badProp_false hb).elim
  have hnice := prop_nice (K := decK true cfg) p path hw
  -- the decoded form, for any budget
  have hlim := ((ok_plain cfg (okRec_loop cfg hs.1 hs.1) (Nat.le_refl s.length) (P p.type) size path) s (Nat.le_refl _)).2.2 _ _ h1
  have hpost := (okv_post c true ((okRec_loop cfg hs.1 hs.2).1 []) _ hlim.2).1
  rw [h2] at hpost
  obtain ⟨y, h5, rfl⟩ := post_inv p hpost.symm
  have hx : x = vDict (p.entries cfg path y ++ [("custom_type", .str path)]) := by
    rw [set_vDict_new _ _ _ (custom_not_key cfg path y p)] at h3
    cases h3
    rw [set_same _ _ _ (get_type cfg path y p _)] at h4
    cases h4
    rfl
  subst hx
  have hredo := redo_codec (recOk_custom cfg H.nan) hst hnice h5
  have hpt := P_inj _ _ |>.1 hty
  by_cases hex : ∃ k z2 z, c.pre2 (bytesOf k) y = .ok z2 ∧ c.pre1 (bytesOf k) y = .ok z ∧ p.WfG cfg noCustom False path ∧
      Filled False (p.val cfg (decK true cfg) path) z
  · -- the property can be written
    obtain ⟨k, z2, z, h60, h6, hw', hf⟩ := hex
    obtain ⟨z', h61, h62, h63⟩ := pre_iff hpt hw h5 h60
    rw [h6] at h61
    cases h61
    obtain ⟨x1, ha, hf1, hs1, hb1⟩ := (hredo k z h6).2 hf
    obtain ⟨p1, w1, rfl, w3, w4, w5, w6⟩ := prop_alt p path x1 hw' ha
    have w1' := prop_strict p1 path w1
    have hM : p1.head.length + p1.tail.length ≤ s.length := by rw [w5]; omega
    have hread := rPlain_of (prop_read H.nan p1 noCustom (readsCustom_no cfg (decK true cfg)) path n [] w1' (by omega) (by omega))
    have hlim1 := ((ok_plain cfg (okRec_loop cfg (K := p1.head.length + p1.tail.length) (n := n) (n' := n) (by omega)
      (by omega)) (Nat.le_refl _) (P p1.type) p1.tail.length path) (p1.head ++ p1.tail ++ [])
      (by simp only [List.append_nil, List.length_append]; omega)).2.2 _ _ hread
    have hval : Lim (p1.head.length + p1.tail.length) (p1.val cfg (decK true cfg) path) :=
      path_lim [P "value"] hlim1.2 (entries_path cfg path _ p1 [])
    have hdec : ∀ n', p1.head.length + p1.tail.length < n' →
        c.post1 true (rPropsLoop cfg n' [] []) (p1.val cfg (decK true cfg) path) = .ok y := by
      intro n' hn'
      have e := (okv_post c true ((okRec_loop cfg (n := n') (n' := 2 ^ 32) hn' (by omega)).1 []) _ hlim1.2).1
      rw [post_value c true _ p1 hf1] at e
      obtain ⟨y', e1, e2⟩ := post_inv p1 e
      have e3 := entries_path cfg path y p1 []
      rw [e2, entries_path] at e3
      cases e3
      exact e1
    refine .inl ⟨p1, by rw [w3], ?_, ?_, by rw [w5]; omega⟩
    · rw [hc]
      refine ⟨by rw [w3, hpt], ⟨path, y, hc, hdec, fun n' hn' => ⟨z2, h62 _ (hb1 _ _ hval hn'), ?_⟩⟩, w1'⟩
      · rw [w4, w3, h63, ← w4, ← w3]
        exact write_sim (decK true cfg) w1' (by omega) (by omega) hs1 (prop_noTuple _ _ _ _)
    · unfold showProp
      rw [hc]
      simp only
      rw [decK_eq hdec, w4]
  · refine .inr (badProp_of fun d k n hm => raises_iff.2 fun ⟨b, hb⟩ => ?_)
    cases n with
    | zero => exact (wrote_error.1 hb).elim
    | succ n =>
    rw [wProps_succ] at hb
    obtain ⟨_, nb, g1, g0, -⟩ := wrote_body.1 hb
    obtain ⟨_, g2⟩ := wroteD_mem g1 hm
    obtain ⟨ty, tb, size, buf, sb, g3, g4, g5, g6, -⟩ := wrote_property.1 g2
    rw [get_type] at g3
    cases g3
    have hget := get_last (p.entries cfg path y) "custom_type" (.str path) (custom_not_key cfg path y p)
    rcases wroteP_inner.1 g5 with ⟨g7, -⟩ | ⟨-, path', c', x', g7, g8, -, g9, g10⟩
    · rw [contains_of_get hget] at g7
      cases g7
    rw [hget] at g7
    cases g7
    rw [H.same _ _ hc] at g8
    cases g8
    obtain ⟨z, g11, rfl⟩ := pre_inv p g9
    obtain ⟨z', g16, -, g17⟩ := pre_iff hpt hw h5 g11
    rw [g17] at g10
    rcases prop_ext (fun _ => noWrite_guid) (fun _ => noWrite_half) p path z' hw (hredo n z' g16).1 with ⟨g12, g13⟩ | hbad
    · exact hex ⟨n, z, z', g11, g16, g12, g13⟩
    obtain ⟨e, he⟩ := noWrite_raises (hbad [(P "A", _)] _ List.mem_cons_self) (n + 1)
    have g14 : Wrote (wProperty B (wProps n B) (bytesOf n) (vDict (p.entries cfg path z'))) (tb ++ sb ++ buf) :=
      wrote_property.2 ⟨_, tb, size, buf, sb, by have := get_type cfg path z' p []; rwa [List.append_nil] at this, g4,
        wroteP_inner.2 (.inl ⟨contains_no _ _ (custom_not_key cfg path z' p), g10⟩), g6, rfl⟩
    have g15 : Wrote (wProps (n + 1) B (.dict [(P "A", vDict (p.entries cfg path z'))])) (eLit "A" ++ (tb ++ sb ++ buf) ++ [] ++ nb) := by
      rw [wProps_succ]
      refine wrote_body.2 ⟨_, nb, ?_, g0, rfl⟩
      obtain ⟨v', g14⟩ := g14
      exact ⟨[(P "A", v')], by simp only [wEntries, g14]; rfl⟩
    obtain ⟨_, g15⟩ := g15
    rw [he] at g15
    cases g15

/-! ### property lists -/

theorem read_treeC {cfg B : Cfg} (H : CfgOk cfg B) {n : Nat} {path : PyStr} {data rest : Bytes} {v : Val}
    (hd : data.length < 2 ^ 32) (hn : data.length < n) (h : rProps cfg n path data = .ok (v, rest)) :
    (∃ ps : Props rawMode, (ps.map Prod.fst).Nodup ∧ wfProps cfg (Fixed cfg B) path ps ∧
      v = .dict (valProps cfg (decK true cfg) path ps) ∧ (encProps ps).length + rest.length ≤ data.length) ∨
      BadList (NoWrite B) v := by
  rcases inv_loopC (K := decK true cfg) (C := Fixed cfg B) (G := False) (Bad := NoWrite B) H.nan (.inr fun _ => noWrite_guid)
    (inv_custom H) n path [] data v rest 0 trivial (by simp) h ⟨hn, hd⟩ with ⟨ps, w1, w2, w3, w4⟩ | hb
  · exact .inl ⟨ps, w1, props_strict ps path w2, w3, by omega⟩
  · exact .inr hb

theorem tree_writeC {cfg B : Cfg} (H : CfgOk cfg B) {path : PyStr} {ps : Props rawMode}
    (h2 : wfProps cfg (Fixed cfg B) path ps) (hl : (encProps ps).length < 2 ^ 32) :
    Wrote (wProps ((Val.dict (valProps cfg (decK true cfg) path ps)).rank + 1) B (.dict (valProps cfg (decK true cfg) path ps)))
      (encProps ps) :=
  wProps_rank (n := (encProps ps).length + 1) fun n' hn' =>
    props_write ps (Fixed cfg B) (fixed_writes H) path n' h2 (by omega) (by omega)

theorem tree_readC {cfg B : Cfg} (H : CfgOk cfg B) {path : PyStr} {ps : Props rawMode} (h1 : (ps.map Prod.fst).Nodup)
    (h2 : wfProps cfg (Fixed cfg B) path ps) (hl : (encProps ps).length < 2 ^ 32) (n : Nat) (hn : (encProps ps).length < n)
    (t : Bytes) :
    rProps cfg n path (encProps ps ++ t) = .ok (.dict (valProps cfg (decK true cfg) path ps), t) := by
  have := props_read (m := rawMode) H.nan ps (Fixed cfg B) (fixed_reads H) path n [] t h2 hn (by omega)
  rw [dupdate_nodup] at this
  · exact this
  · rw [List.nil_append]
    exact valProps_nodup _ _ _ _ h1

end Pal
