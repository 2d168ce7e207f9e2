import Verif.Lemmas.Redo
/-
Which blobs can be decoded again: the decoders of the modules with a single blob.
-/

namespace Pal
open Spec

/-! ### what the results of a decoder look like -/

/-- Every result of `r` has the property. -/
def Ret {α : Type} (r : R α) (Q : α → Prop) : Prop := ∀ s v s', r s = .ok (v, s') → Q v

theorem ret_bind {α β : Type} {r : R α} {f : α → R β} {Q : β → Prop} (h : ∀ a, Ret (f a) Q) : Ret (r >>= f) Q := by
  intro s v s' hr
  obtain ⟨a, s1, -, h2⟩ := r_bind_inv hr
  exact h a s1 v s' h2

theorem ret_bind' {α β : Type} {r : R α} {f : α → R β} {S : α → Prop} {Q : β → Prop} (h0 : Ret r S) (h : ∀ a, S a → Ret (f a) Q) :
    Ret (r >>= f) Q := by
  intro s v s' hr
  obtain ⟨a, s1, h1, h2⟩ := r_bind_inv hr
  exact h a (h0 _ _ _ h1) s1 v s' h2

theorem ret_pure {α : Type} {a : α} {Q : α → Prop} (h : Q a) : Ret (pure a : R α) Q := by
  intro s v s' hr
  obtain ⟨rfl, rfl⟩ := r_pure_inv hr
  exact h

theorem ret_ite {α : Type} {c : Prop} [Decidable c] {r1 r2 : R α} {Q : α → Prop} (h1 : c → Ret r1 Q) (h2 : ¬ c → Ret r2 Q) :
    Ret (if c then r1 else r2) Q := by
  split
  · exact h1 (by assumption)
  · exact h2 (by assumption)

theorem ret_fail {α : Type} {e : Err} {Q : α → Prop} : Ret (rFail e : R α) Q := by
  intro s v s' hr
  cases hr

theorem ret_pureR {α : Type} {a : α} {Q : α → Prop} (h : Q a) : Ret (R.pure a : R α) Q := ret_pure h

macro "ret_tac" : tactic => `(tactic|
  repeat' (first | refine ret_bind fun _ => ?_ | refine ret_ite (fun _ => ?_) (fun _ => ?_) | exact ret_fail | refine ret_pure ?_ | refine ret_pureR ?_))

theorem nv_ne {v : Val} (h : NoValues v) : v ≠ .none := by
  rintro rfl
  cases h

macro "nv_tac" : tactic => `(tactic| (
  ret_tac <;> first
    | exact contains_pnil _
    | (rw [dct_eq]; exact contains_no _ _ (by simp only [List.map]; decide))
    | (simp only [NoValues, List.cons_append, List.nil_append, contains_pdict, contains_pnil, String.reduceEq, ↓reduceIte])))

theorem ret_charContainer : Ret charContainerDecode NoValues := by unfold charContainerDecode; nv_tac
theorem ret_itemContainer : Ret itemContainerDecode NoValues := by unfold itemContainerDecode; nv_tac
theorem ret_itemContainerSlots (an : Bool) : Ret (itemContainerSlotsDecode an) NoValues := by
  unfold itemContainerSlotsDecode; nv_tac
theorem ret_mapModel (an : Bool) : Ret (mapModelDecode an) NoValues := by unfold mapModelDecode; nv_tac
theorem ret_buildProcess : Ret buildProcessDecode NoValues := by unfold buildProcessDecode; nv_tac
theorem ret_connector : Ret connectorDecode NoValues := by
  unfold connectorDecode
  ret_tac
  split <;> simp only [NoValues, List.cons_append, List.nil_append, contains_pdict, contains_pnil, String.reduceEq, ↓reduceIte]
theorem ret_module (mt : Val) : Ret (concreteModuleDecode mt) NoValues := by
  unfold concreteModuleDecode
  refine ret_bind' (S := NoValues) ?_ fun d hd => ret_bind fun _ => ret_pure hd
  unfold moduleBodyDecode moduleItemDecode guidDict moduleSwitchDecode moduleLockDecode
  nv_tac

/-! ### the shape of the decoders -/

/-- What is decoded is an empty value or bytes. -/
def Guard (h : Val → Except Err Val) : Prop := ∀ t y, h t = .ok y → t.len = .ok 0 ∨ ∃ b, toBytes t = .ok b

theorem guard_run (r : Val → R Val) : Guard fun t => runBlob t (r t) := by
  intro t y h
  simp only [runBlob] at h
  cases ht : toBytes t with
  | error e => rw [ht] at h; cases h
  | ok b => exact .inr ⟨b, rfl⟩

theorem guard_or (d : Val) (r : Val → R Val) : Guard fun t => emptyOr d t (r t) := by
  intro t y h
  simp only [emptyOr] at h
  split at h
  · cases h
  · exact .inl (by assumption)
  · exact guard_run r t y h

theorem guard_str {h : Val → Except Err Val} (hg : Guard h) (s : PyStr) (l : List Val) (y : Val) : h (.list (.str s :: l)) ≠ .ok y := by
  intro e
  rcases hg _ _ e with h | ⟨b, h⟩ <;> cases h

theorem guard_uuid {h : Val → Except Err Val} (hg : Guard h) (s : Bytes) (l : List Val) (y : Val) : h (.list (.uuid s :: l)) ≠ .ok y := by
  intro e
  rcases hg _ _ e with h | ⟨b, h⟩ <;> cases h

theorem guard_dict {h : Val → Except Err Val} (hg : Guard h) (a : PyStr × Val) (d : Dict) (y : Val) : h (.dict (a :: d)) ≠ .ok y := by
  intro e
  rcases hg _ _ e with h | ⟨b, h⟩ <;> cases h

theorem values_lacks (x : Val) : ∃ e, (dct [("values", x)]).get (P "prop_name") = .error e := by
  rw [dct_eq, get_vDict_cons, if_neg (by decide)]
  exact ⟨_, rfl⟩

/-- A blob that is always encoded, into a list of ints. -/
theorem leaf_list {h : Val → Except Err Val} {w : Nat → Val → Except Err Bytes} (hg : Guard h)
    (hraw : ∀ (b : Bytes) y n c, b.length < 2 ^ 32 → h (vBytesT b) = .ok y → w n y = .ok c →
      c.length ≤ b.length ∧ h (vBytesT c) = .ok y ∧ ∀ n', c.length < n' → w n' y = .ok c)
    (hE : ∀ y, h (.list []) = .ok y → h (vBytesT []) = .ok y ∨ ∀ n c, w n y ≠ .ok c) : LeafOk h fun n => asValuesList (w n) where
  raw := by
    intro b y n z hb hy hz
    simp only [asValuesList] at hz
    cases hw : w n y with
    | error e => rw [hw] at hz; cases hz
    | ok c =>
      rw [hw] at hz
      cases hz
      obtain ⟨h1, h2, h3⟩ := hraw b y n c hb hy hw
      exact ⟨c, h1, h2, sim_raw (sim_intList c), fun n' hn => asList_ok (h3 n' hn)⟩
  empty := by
    intro y n z hy hz
    simp only [asValuesList] at hz
    cases hw : w n y with
    | error e => rw [hw] at hz; cases hz
    | ok c =>
      rw [hw] at hz
      cases hz
      rcases hE y hy with h0 | h0
      · obtain ⟨h1, h2, h3⟩ := hraw [] y n c (by decide) h0 hw
        have : c = [] := List.length_eq_zero_iff.1 (by simpa using h1)
        subst this
        exact ⟨sim_refl _ _, fun n' hn => asList_ok (h3 n' hn)⟩
      · exact absurd hw (h0 n c)
  str := guard_str hg
  uuid := guard_uuid hg
  dict := guard_dict hg
  lacks := by
    intro b y n z _ hz
    simp only [asValuesList] at hz
    cases hw : w n y with
    | error e => rw [hw] at hz; cases hz
    | ok c =>
      rw [hw] at hz
      cases hz
      exact values_lacks _

/-- A blob that is encoded unless it was kept as it is. -/
theorem leaf_unless {h : Val → Except Err Val} {w : Nat → Val → Except Err Bytes} {G : Nat → Val → Except Err Val} {mk : Bytes → Val}
    (hG : ∀ n p, G n p = unlessValues (fun p => match w n p with
      | .ok b => .ok (dct [("values", mk b)])
      | .error e => .error e) p) (hmk : ∀ b, Sim true (vBytesT b) (mk b)) (hg : Guard h)
    (hraw : ∀ (b : Bytes) y, b.length < 2 ^ 32 → h (vBytesT b) = .ok y → y = dct [("values", vBytesT b)] ∨
      (b = [] ∧ y = dct [("values", .list [])]) ∨ (NoValues y ∧ ∀ n c, w n y = .ok c →
        c.length ≤ b.length ∧ h (vBytesT c) = .ok y ∧ ∀ n', c.length < n' → w n' y = .ok c))
    (hE : ∀ y, h (.list []) = .ok y → y = dct [("values", .list [])])
    (hL : ∀ t y, h t = .ok y → NoValues y ∨ ∃ x, y = dct [("values", x)]) : LeafOk h G where
  raw := by
    intro b y n z hb hy hz
    rw [hG] at hz
    rcases hraw b y hb hy with rfl | ⟨rfl, rfl⟩ | ⟨h0, h1⟩
    · rw [unless_raw] at hz
      cases hz
      exact ⟨b, Nat.le_refl _, hy, sim_refl _ _, fun n' _ => by rw [hG, unless_raw]⟩
    · rw [unless_raw] at hz
      cases hz
      exact ⟨[], Nat.le_refl _, hy, sim_raw (sim_intList []), fun n' _ => by rw [hG, unless_raw]⟩
    · rw [unless_no h0] at hz
      cases hw : w n y with
      | error e => simp only [hw] at hz; cases hz
      | ok c =>
        simp only [hw] at hz
        cases hz
        obtain ⟨h1, h2, h3⟩ := h1 n c hw
        exact ⟨c, h1, h2, sim_raw (hmk c), fun n' hn => by rw [hG, unless_no h0]; simp only [h3 n' hn]⟩
  empty := by
    intro y n z hy hz
    obtain rfl := hE y hy
    rw [hG, unless_raw] at hz
    cases hz
    exact ⟨sim_refl _ _, fun n' _ => by rw [hG, unless_raw]⟩
  str := guard_str hg
  uuid := guard_uuid hg
  dict := guard_dict hg
  lacks := by
    intro b y n z hy hz
    rw [hG] at hz
    rcases hL b y hy with h0 | ⟨x, rfl⟩
    · rw [unless_no h0] at hz
      cases hw : w n y with
      | error e => simp only [hw] at hz; cases hz
      | ok c =>
        simp only [hw] at hz
        cases hz
        exact values_lacks _
    · rw [unless_raw] at hz
      cases hz
      exact values_lacks _

/-! ### the codecs -/

theorem runBlob_T_inv {x : R Val} {b : Bytes} {v : Val} (h : runBlob (vBytesT b) x = .ok v) : ∃ s, x b = .ok (v, s) := by
  unfold runBlob at h
  rw [toBytes_T] at h
  simp only at h
  cases hx : x b with
  | error e => rw [hx] at h; cases h
  | ok p => obtain ⟨r, s⟩ := p; rw [hx] at h; cases h; exact ⟨s, rfl⟩

theorem emptyOr_T_inv {d v : Val} {x : R Val} {b : Bytes} (h : emptyOr d (vBytesT b) x = .ok v) :
    (b = [] ∧ v = d) ∨ (b ≠ [] ∧ ∃ s, x b = .ok (v, s)) := by
  cases b with
  | nil => cases h; exact .inl ⟨rfl, rfl⟩
  | cons a t =>
    right
    unfold emptyOr at h
    rw [len_T] at h
    exact ⟨by simp, runBlob_T_inv h⟩

theorem runBlob_inv {x : R Val} {t v : Val} (h : runBlob t x = .ok v) : ∃ b s, x b = .ok (v, s) := by
  unfold runBlob at h
  cases ht : toBytes t with
  | error e => rw [ht] at h; cases h
  | ok b =>
    rw [ht] at h
    simp only at h
    cases hx : x b with
    | error e => rw [hx] at h; cases h
    | ok p => obtain ⟨r, s⟩ := p; rw [hx] at h; cases h; exact ⟨b, s, hx⟩

/-- Decoding accepted bytes and encoding gives bytes that are not longer and decode to the same. -/
def Res (r : R Val) (w : Val → Except Err Bytes) : Prop := ∀ s v s' c, s.length < 2 ^ 32 → r s = .ok (v, s') → w v = .ok c →
  c.length ≤ s.length ∧ r c = .ok (v, [])

theorem res_st {r : R Val} {w : Val → Except Err Bytes} (h : St True r w) : Res r w := by
  intro s v s' c hs hr hw
  obtain ⟨b, h1, h2, h3⟩ := h s v s' hs hr
  rw [h1] at hw
  cases hw
  exact ⟨by omega, back_end (h3 trivial)⟩

theorem leaf_run {r : R Val} {w : Val → Except Err Bytes} (h : Res r w) :
    LeafOk (fun t => runBlob t r) fun _ => asValuesList w := by
  refine leaf_list (w := fun _ => w) (guard_run fun _ => r) (fun b y n c hb hy hc => ?_) fun y hy => .inl hy
  obtain ⟨s', hs⟩ := runBlob_T_inv hy
  obtain ⟨h1, h2⟩ := h b y s' c hb hs hc
  exact ⟨h1, runBlob_T h2, fun _ _ => hc⟩

theorem leaf_or {r : R Val} {w : Val → Except Err Bytes} (h : Res r w) (h0 : ∀ p, r [] ≠ .ok p) (hn : Ret r NoValues) :
    LeafOk (fun t => emptyOr .none t r) fun _ => asValuesList (noneOr w) := by
  refine leaf_list (w := fun _ => noneOr w) (guard_or .none fun _ => r) (fun b y n c hb hy hc => ?_) fun y hy => .inl hy
  rcases emptyOr_T_inv hy with ⟨rfl, rfl⟩ | ⟨hb0, s', hs⟩
  · cases hc
    exact ⟨Nat.le_refl _, rfl, fun _ _ => rfl⟩
  · have hy0 := nv_ne (hn _ _ _ hs)
    have hc' := hc
    have e : noneOr w y = w y := by cases y <;> first | rfl | exact absurd rfl hy0
    simp only [e] at hc
    obtain ⟨h1, h2⟩ := h b y s' c hb hs hc
    refine ⟨h1, emptyOr_T ?_ h2, fun _ _ => hc'⟩
    rintro rfl
    exact h0 _ h2

theorem leaf_orConnector : LeafOk connectorBlob fun _ => asValuesList (noneOr connectorEncode) := by
  refine leaf_list (w := fun _ => noneOr connectorEncode) (guard_or (dct [("values", .list [])]) fun _ => connectorDecode)
    (fun b y n c hb hy hc => ?_) fun y hy => .inl hy
  rcases emptyOr_T_inv hy with ⟨rfl, rfl⟩ | ⟨hb0, s', hs⟩
  · cases hc
  · have hy0 := nv_ne (ret_connector _ _ _ hs)
    have hc' := hc
    have e : noneOr connectorEncode y = connectorEncode y := by cases y <;> first | rfl | exact absurd rfl hy0
    simp only [e] at hc
    obtain ⟨b', h1, h2, h3⟩ := connector_resave (q := True) hb hs
    rw [hc] at h1
    cases h1
    refine ⟨h2, emptyOr_T ?_ (h3 trivial), fun _ _ => hc'⟩
    rintro rfl
    cases h3 trivial

/-- Kept, or decoded. -/
theorem leaf_unlessRun {r : R Val} {w : Val → Except Err Bytes} {G : Nat → Val → Except Err Val} {mk : Bytes → Val}
    (hG : ∀ n p, G n p = unlessValues (fun p => match w p with
      | .ok b => .ok (dct [("values", mk b)])
      | .error e => .error e) p) (hmk : ∀ b, Sim true (vBytesT b) (mk b)) (h : Res r w) (h0 : ∀ p, r [] ≠ .ok p)
    (hn : Ret r NoValues) : LeafOk (fun t => runBlob t r) G := by
  refine leaf_unless (w := fun _ => w) hG hmk (guard_run fun _ => r) (fun b y hb hy => ?_) (fun y hy => ?_) fun t y hy => ?_
  · obtain ⟨s', hs⟩ := runBlob_T_inv hy
    refine .inr (.inr ⟨hn _ _ _ hs, fun n c hc => ?_⟩)
    obtain ⟨h1, h2⟩ := h b y s' c hb hs hc
    exact ⟨h1, runBlob_T h2, fun _ _ => hc⟩
  · obtain ⟨s', hs⟩ := runBlob_T_inv (b := []) hy
    exact absurd hs (h0 _)
  · obtain ⟨b, s, hs⟩ := runBlob_inv hy
    exact .inl (hn _ _ _ hs)

theorem leaf_unlessOr {r : R Val} {w : Val → Except Err Bytes} {G : Nat → Val → Except Err Val} {mk : Bytes → Val}
    (hG : ∀ n p, G n p = unlessValues (fun p => match noneOr w p with
      | .ok b => .ok (dct [("values", mk b)])
      | .error e => .error e) p) (hmk : ∀ b, Sim true (vBytesT b) (mk b))
    (hn : Ret r NoValues) (h : ∀ s v s' c, s ≠ [] → s.length < 2 ^ 32 → r s = .ok (v, s') → w v = .ok c →
      c.length ≤ s.length ∧ emptyOr (dct [("values", .list [])]) (vBytesT c) r = .ok v) :
    LeafOk (fun t => emptyOr (dct [("values", .list [])]) t r) G := by
  refine leaf_unless (w := fun _ => noneOr w) hG hmk (guard_or _ fun _ => r) (fun b y hb hy => ?_) (fun y hy => ?_) fun t y hy => ?_
  · rcases emptyOr_T_inv hy with ⟨rfl, rfl⟩ | ⟨hb0, s', hs⟩
    · exact .inr (.inl ⟨rfl, rfl⟩)
    · have hy0 := nv_ne (hn _ _ _ hs)
      refine .inr (.inr ⟨hn _ _ _ hs, fun n c hc => ?_⟩)
      have e : noneOr w y = w y := by cases y <;> first | rfl | exact absurd rfl hy0
      have hc' := hc
      simp only [e] at hc
      obtain ⟨h1, h2⟩ := h b y s' c hb0 hb hs hc
      exact ⟨h1, h2, fun _ _ => hc'⟩
  · cases hy; rfl
  · unfold emptyOr at hy
    split at hy
    · cases hy
    · cases hy; exact .inr ⟨_, rfl⟩
    · obtain ⟨b, s, hs⟩ := runBlob_inv hy
      exact .inl (hn _ _ _ hs)

end Pal
