import Verif.Lemmas.Left
/-
The recursion budget does not matter for what a call of the writer leaves behind.
-/

namespace Pal

theorem lOn_congr {v : Val} {k : String} {l m : Val → Val} (h : ∀ x, v.get (P k) = .ok x → l x = m x) :
    lOn v k l = lOn v k m := by
  unfold lOn
  cases hg : v.get (P k) with
  | error e => rfl
  | ok x => simp only [h x hg]

theorem lMapL_congr {f g : Val → W} {l m : Val → Val} {xs : List Val} (h : ∀ x ∈ xs, f x = g x) (h' : ∀ x ∈ xs, l x = m x) :
    lMapL f l xs = lMapL g m xs := by
  induction xs with
  | nil => rfl
  | cons a t ih => simp only [lMapL, h a (by simp), h' a (by simp), ih (fun x hx => h x (by simp [hx])) fun x hx => h' x (by simp [hx])]

theorem lSeq_congr {f g : Val → W} {l m : Val → Val} {v : Val} (h : ∀ x, x.rank ≤ v.rank → f x = g x)
    (h' : ∀ x, x.rank ≤ v.rank → l x = m x) : lSeq f l v = lSeq g m v := by
  unfold lSeq
  split
  · rw [lMapL_congr (fun x hx => h x (rank_seqItems rfl x hx)) fun x hx => h' x (rank_seqItems rfl x hx)]
  · rw [lMapL_congr (fun x hx => h x (rank_seqItems rfl x hx)) fun x hx => h' x (rank_seqItems rfl x hx)]
  · rfl

theorem lStructValue_congr {l m : Val → Val} {st v : Val} (h : l v = m v) : lStructValue l st v = lStructValue m st v := by
  simp only [lStructValue, h]

theorem lPropValue_congr {l m : Val → Val} {ty st v : Val} (h : l v = m v) : lPropValue l ty st v = lPropValue m ty st v := by
  simp only [lPropValue, lStructValue_congr h]

theorem lArray_congr {r s : Val → W} {l m : Val → Val} {at_ v : Val} (h : ∀ x, x.rank ≤ v.rank → r x = s x)
    (h' : ∀ x, x.rank ≤ v.rank → l x = m x) : lArrayProperty r l at_ v = lArrayProperty s m at_ v := by
  have : lOn v "values" (lSeq (wStructElem r v) (lStructElem l v)) = lOn v "values" (lSeq (wStructElem s v) (lStructElem m v)) := by
    apply lOn_congr
    intro x hx
    apply lSeq_congr
    · intro y hy
      unfold wStructElem
      cases v.get (P "type_name") with
      | error e => rfl
      | ok tn => exact structValue_congr (h y (Nat.le_trans hy (rank_get hx)))
    · intro y hy
      unfold lStructElem
      cases v.get (P "type_name") with
      | error e => rfl
      | ok tn => exact lStructValue_congr (h' y (Nat.le_trans hy (rank_get hx)))
  simp only [lArrayProperty, this]

theorem lEntry_congr {r s : Val → W} {l m : Val → Val} {prop entry : Val} (h : ∀ x, x.rank ≤ entry.rank → r x = s x)
    (h' : ∀ x, x.rank ≤ entry.rank → l x = m x) : lMapEntry r l prop entry = lMapEntry s m prop entry := by
  unfold lMapEntry
  cases prop.get (P "key_type") with
  | error e => rfl
  | ok kt =>
    cases prop.get (P "key_struct_type") with
    | error e => rfl
    | ok kst =>
      have h1 : wOn entry "key" (wPropValue r kt kst) = wOn entry "key" (wPropValue s kt kst) :=
        on_congr fun x hx => propValue_congr (h x (rank_get hx))
      have h2 : lOn entry "key" (lPropValue l kt kst) = lOn entry "key" (lPropValue m kt kst) :=
        lOn_congr fun x hx => lPropValue_congr (h' x (rank_get hx))
      simp only [h1, h2]
      cases hk : wOn entry "key" (wPropValue s kt kst) with
      | error e => rfl
      | ok q =>
        obtain ⟨kb, entry'⟩ := q
        simp only
        cases prop.get (P "value_type") with
        | error e => rfl
        | ok vt =>
          cases prop.get (P "value_struct_type") with
          | error e => rfl
          | ok vst =>
            simp only
            apply lOn_congr
            intro x hx
            apply lPropValue_congr
            apply h'
            rw [wOn_get hk (by decide +kernel)] at hx
            exact rank_get hx

theorem lMapBody_congr {r s : Val → W} {l m : Val → Val} {prop : Val} (h : ∀ x, x.rank < prop.rank → r x = s x)
    (h' : ∀ x, x.rank < prop.rank → l x = m x) : lMapBody r l prop = lMapBody s m prop := by
  have : lOn prop "value" (lSeq (wMapEntry r prop) (lMapEntry r l prop)) =
      lOn prop "value" (lSeq (wMapEntry s prop) (lMapEntry s m prop)) := by
    apply lOn_congr
    intro x hx
    have := rank_get_lt (by decide +kernel) hx
    apply lSeq_congr
    · intro y hy
      exact mapEntry_congr fun z hz => h z (by omega)
    · intro y hy
      exact lEntry_congr (fun z hz => h z (by omega)) fun z hz => h' z (by omega)
  simp only [lMapBody, this]

theorem lPlain_congr {r s : Val → W} {l m : Val → Val} {ty prop : Val} (h : ∀ x, x.rank < prop.rank → r x = s x)
    (h' : ∀ x, x.rank < prop.rank → l x = m x) : lPlainInner r l ty prop = lPlainInner s m ty prop := by
  have h1 : ∀ st, lOn prop "value" (lStructValue l st) = lOn prop "value" (lStructValue m st) := fun st =>
    lOn_congr fun x hx => lStructValue_congr (h' x (rank_get_lt (by decide +kernel) hx))
  have h2 : ∀ a, lOn prop "value" (lArrayProperty r l a) = lOn prop "value" (lArrayProperty s m a) := fun a =>
    lOn_congr fun x hx => lArray_congr (fun y hy => h y (Nat.lt_of_le_of_lt hy (rank_get_lt (by decide +kernel) hx)))
      fun y hy => h' y (Nat.lt_of_le_of_lt hy (rank_get_lt (by decide +kernel) hx))
  simp only [lPlainInner, h1, h2, lMapBody_congr h h']

theorem updLeft_congr {l m : Val → Val} (ks : List PyStr) {v : Val} (h : ∀ u, u.rank ≤ v.rank → l u = m u) :
    updLeft l ks v = updLeft m ks v := by
  induction ks generalizing v with
  | nil => exact h v (Nat.le_refl _)
  | cons k t ih =>
    simp only [updLeft]
    cases hg : v.get k with
    | error e => rfl
    | ok x =>
      simp only
      rw [ih fun u hu => h u (Nat.le_trans hu (rank_get hg))]

theorem updLeft_congr_lt {l m : Val → Val} {k : PyStr} (hk : k ≠ P "values") (ks : List PyStr) {v : Val}
    (h : ∀ u, u.rank < v.rank → l u = m u) : updLeft l (k :: ks) v = updLeft m (k :: ks) v := by
  simp only [updLeft]
  cases hg : v.get k with
  | error e => rfl
  | ok x =>
    simp only
    rw [updLeft_congr ks fun u hu => h u (Nat.lt_of_le_of_lt hu (rank_get_lt hk hg))]

theorem forEachLeft_congr {f g : Val → Except Err Val} {l m : Val → Val} {v : Val} (h : ∀ u, u.rank ≤ v.rank → f u = g u)
    (h' : ∀ u, u.rank ≤ v.rank → l u = m u) : forEachLeft f l v = forEachLeft g m v := by
  have hm : ∀ xs : List Val, Val.rankL xs ≤ v.rank → eachLeft f l xs = eachLeft g m xs := by
    intro xs
    induction xs with
    | nil => intro _; rfl
    | cons a t ih =>
      intro hl
      simp only [Val.rankL] at hl
      simp only [eachLeft, h a (by omega), h' a (by omega), ih (by omega)]
  unfold forEachLeft
  split
  · rw [hm _ (by simp only [Val.rank]; omega)]
  · rw [hm _ (by simp only [Val.rank]; omega)]
  · rfl

theorem mapObjectPre1_congr {wp wp' : Val → Except Err Bytes} {u : Val} (h : ∀ x, x.rank ≤ u.rank → wp x = wp' x) :
    mapObjectPre1 wp u = mapObjectPre1 wp' u ∧ mapObjectLeft1 wp u = mapObjectLeft1 wp' u := by
  have hc : ∀ x, x.rank ≤ u.rank →
      Val.upd (unlessValues (asValuesBytes (noneOr (concreteEncode wp)))) (ks ["ConcreteModel", "value", "RawData", "value"]) x =
      Val.upd (unlessValues (asValuesBytes (noneOr (concreteEncode wp')))) (ks ["ConcreteModel", "value", "RawData", "value"]) x := by
    intro x hx
    apply upd_congr
    intro y hy
    have : noneOr (concreteEncode wp) y = noneOr (concreteEncode wp') y :=
      noneOr_congr (concrete_congr fun z hz => h z (by omega))
    simp only [unlessValues, asValuesBytes, this]
  constructor
  · have step : ∀ (f : Val → Except Err Val) (t t' : List (Val → Except Err Val)) (x : Val), RankLe f →
        x.rank ≤ u.rank → (∀ y, y.rank ≤ u.rank → updAll t y = updAll t' y) →
        updAll (f :: t) x = updAll (f :: t') x := by
      intro f t t' x hf hx ht
      simp only [updAll]
      cases hfx : f x with
      | error e => rfl
      | ok y => exact ht y (Nat.le_trans (hf _ _ hfx) hx)
    unfold mapObjectPre1
    refine step _ _ _ _ (rankLe_upd (rankLe_unlessBytes _) _) (Nat.le_refl _) fun x hx => ?_
    refine step _ _ _ _ (rankLe_upd (rankLe_unlessBytes _) _) hx fun x hx => ?_
    refine step _ _ _ _ (rankLe_upd (rankLe_unlessBytes _) _) hx fun x hx => ?_
    simp only [updAll, hc x hx]
  · have step : ∀ (f : Val → Except Err Val) (l : Val → Val) (t t' : List ((Val → Except Err Val) × (Val → Val))) (x : Val), RankLe f →
        x.rank ≤ u.rank → (∀ y, y.rank ≤ u.rank → updAllLeft t y = updAllLeft t' y) →
        updAllLeft ((f, l) :: t) x = updAllLeft ((f, l) :: t') x := by
      intro f l t t' x hf hx ht
      simp only [updAllLeft]
      cases hfx : f x with
      | error e => rfl
      | ok y => exact ht y (Nat.le_trans (hf _ _ hfx) hx)
    unfold mapObjectLeft1
    refine step _ _ _ _ _ (rankLe_upd (rankLe_unlessBytes _) _) (Nat.le_refl _) fun x hx => ?_
    refine step _ _ _ _ _ (rankLe_upd (rankLe_unlessBytes _) _) hx fun x hx => ?_
    refine step _ _ _ _ _ (rankLe_upd (rankLe_unlessBytes _) _) hx fun x hx => ?_
    simp only [updAllLeft, hc x hx]

theorem left_congr (c : CodecId) {wp wp' : Val → Except Err Bytes} {v : Val} (h : ∀ u, u.rank < v.rank → wp u = wp' u) :
    c.left wp v = c.left wp' v := by
  cases c <;> try rfl
  case mapObject =>
    simp only [CodecId.left, delLeft]
    cases hd : v.del (P "custom_type") with
    | error e => rfl
    | ok w =>
      have := rank_del hd
      apply updLeft_congr_lt (by decide +kernel)
      intro u hu
      apply forEachLeft_congr
      · intro x hx
        exact (mapObjectPre1_congr fun y hy => h y (by omega)).1
      · intro x hx
        exact (mapObjectPre1_congr fun y hy => h y (by omega)).2

theorem lProperty_congr {cfg : Cfg} {r s : Val → W} {l m : Val → Val} {wp wp' : Val → Except Err Bytes} {prop : Val}
    (h : ∀ x, x.rank < prop.rank → r x = s x) (h' : ∀ x, x.rank < prop.rank → l x = m x)
    (hw : ∀ x, x.rank < prop.rank → wp x = wp' x) : lProperty cfg r l wp prop = lProperty cfg s m wp' prop := by
  have hi : ∀ ty, lInner cfg r l wp ty prop = lInner cfg s m wp' ty prop := by
    intro ty
    have hp : ∀ c : CodecId, (match c.pre wp prop with
          | .error _ => c.left wp prop
          | .ok prop' => lPlainInner r l ty prop') = (match c.pre wp' prop with
          | .error _ => c.left wp' prop
          | .ok prop' => lPlainInner s m ty prop') := by
      intro c
      rw [pre_congr c hw, left_congr c hw]
      cases hc : c.pre wp' prop with
      | error e => rfl
      | ok p' =>
        have hr := rankLe_pre c wp' _ _ hc
        exact lPlain_congr (fun x hx => h x (Nat.lt_of_lt_of_le hx hr)) fun x hx => h' x (Nat.lt_of_lt_of_le hx hr)
    simp only [lInner, lPlain_congr h h']
    split
    · rfl
    · rfl
    · split
      · split
        · rfl
        · split
          · exact hp _
          · rfl
      · rfl
  simp only [lProperty, hi]

theorem lBody_congr {f g : Val → W} {l m : Val → Val} {v : Val} (h : ∀ x, x.rank ≤ v.rank → f x = g x)
    (h' : ∀ x, x.rank ≤ v.rank → l x = m x) : lPropsBody f l v = lPropsBody g m v := by
  cases v <;> try rfl
  case dict d =>
    have : ∀ d : Dict, (∀ kv ∈ d, f kv.2 = g kv.2 ∧ l kv.2 = m kv.2) → lEntries f l d = lEntries g m d := by
      intro d
      induction d with
      | nil => intro _; rfl
      | cons a t ih =>
        intro ht
        obtain ⟨k, v⟩ := a
        have h1 := ht (k, v) (by simp)
        simp only at h1
        simp only [lEntries, h1, ih fun kv hk => ht kv (by simp [hk])]
    have hr : ∀ d : Dict, ∀ kv ∈ d, kv.2.rank ≤ Val.rankD d := by
      intro d
      induction d with
      | nil => intro kv hk; cases hk
      | cons a t ih =>
        intro kv hk
        obtain ⟨k, v⟩ := a
        simp only [Val.rankD]
        rcases List.mem_cons.1 hk with rfl | hk
        · simp only; omega
        · have := ih kv hk; omega
    simp only [lPropsBody]
    rw [this d fun kv hk => ⟨h _ (by have := hr d kv hk; simp only [Val.rank]; omega),
      h' _ (by have := hr d kv hk; simp only [Val.rank]; omega)⟩]

theorem lProps_stable : ∀ (n : Nat) (cfg : Cfg) (v : Val), v.rank < n → lProps (n + 1) cfg v = lProps n cfg v
  | 0, _, _, h => absurd h (by omega)
  | n + 1, cfg, v, h => by
    rw [lProps_succ, lProps_succ]
    have hw : ∀ x : Val, x.rank ≤ v.rank → ∀ u : Val, u.rank < x.rank → bytesOf (n + 1) u = bytesOf n u := by
      intro x hx u hu
      simp only [bytesOf]
      rw [wProps_stable n Cfg.empty u (by omega)]
    apply lBody_congr
    · intro x hx
      exact property_congr (fun u hu => wProps_stable n cfg u (by omega)) (hw x hx)
    · intro x hx
      exact lProperty_congr (fun u hu => wProps_stable n cfg u (by omega)) (fun u hu => lProps_stable n cfg u (by omega)) (hw x hx)

/-- Every budget above the rank of the value gives the same. -/
theorem lProps_enough {n n' : Nat} {cfg : Cfg} {v : Val} (h : v.rank < n) (h' : n ≤ n') : lProps n' cfg v = lProps n cfg v := by
  induction h' with
  | refl => rfl
  | step hm ih => rw [lProps_stable _ cfg v (Nat.lt_of_lt_of_le h hm), ih]

end Pal
