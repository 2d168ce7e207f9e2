import Verif.Lemmas.LeftRel
/-
Edits keep trees related that are written alike (Lemmas/LeftRel.lean).
-/

namespace Pal.Hist
open Spec

theorem onKey_some {k : PyStr} {f : Val → Option Val} {v v2 : Val} :
    onKey k f v = some v2 ↔ ∃ x y, v.get k = .ok x ∧ f x = some y ∧ v.set k y = .ok v2 := by
  cases v <;> try (simp [onKey, Val.get]; done)
  rename_i d
  simp only [onKey, Val.get, Val.set, Except.ok.injEq]
  cases hd : dget? d k with
  | none => simp
  | some x => simp [Option.map_eq_some_iff]

theorem onIdx_some {i : Nat} {f : Val → Option Val} {v v2 : Val} :
    onIdx i f v = some v2 ↔ ∃ l x y, v = .list l ∧ l[i]? = some x ∧ f x = some y ∧ v2 = .list (l.set i y) := by
  cases v <;> try (simp [onIdx]; done)
  rename_i l
  simp only [onIdx]
  cases hd : l[i]? with
  | none => simp [hd]
  | some x =>
    simp only [Option.bind_some, Option.map_eq_some_iff, Val.list.injEq]
    constructor
    · rintro ⟨y, h1, rfl⟩; exact ⟨l, x, y, rfl, hd, h1, rfl⟩
    · rintro ⟨l', x', y, rfl, h1, h2, rfl⟩
      rw [hd] at h1; cases h1
      exact ⟨y, h2, rfl⟩

theorem fq_onKey {Q : PyStr → Val → Val → Prop} (hr : ∀ k x, Q k x x) {v u : Val} (h : FQ Q v u) {k : PyStr} {f : Val → Option Val}
    {v2 : Val} (hv : onKey k f v = some v2)
    (hf : ∀ x x2 y, v.get k = .ok x → Q k x y → f x = some x2 → ∃ y2, f y = some y2 ∧ Q k x2 y2) :
    ∃ u2, onKey k f u = some u2 ∧ FQ Q v2 u2 := by
  obtain ⟨x, x2, h1, h2, h3⟩ := onKey_some.1 hv
  obtain ⟨y, h4, h5⟩ := fq_get hr h h1
  obtain ⟨y2, h6, h7⟩ := hf x x2 y h1 h5 h2
  obtain ⟨u2, h8, h9⟩ := fq_set hr h h7 h3
  exact ⟨u2, onKey_some.2 ⟨y, y2, h4, h6, h8⟩, h9⟩

theorem fq_setKey {Q : PyStr → Val → Val → Prop} (hr : ∀ k x, Q k x x) {v u : Val} (h : FQ Q v u) {k : PyStr} {q v2 : Val}
    (hv : setKey k q v = some v2) : ∃ u2, setKey k q u = some u2 ∧ FQ Q v2 u2 := by
  cases v <;> simp only [setKey, reduceCtorEq, Option.some.injEq] at hv
  subst hv
  obtain ⟨e, rfl, ha⟩ := fq_dict hr h
  exact ⟨_, rfl, .inr ⟨_, _, rfl, rfl, all2_dset ha (hr _ _)⟩⟩

theorem fq_delKey {Q : PyStr → Val → Val → Prop} (hr : ∀ k x, Q k x x) {v u : Val} (h : FQ Q v u) {k : PyStr} {v2 : Val}
    (hv : delKey k v = some v2) : ∃ u2, delKey k u = some u2 ∧ FQ Q v2 u2 := by
  cases v <;> simp only [delKey, reduceCtorEq] at hv
  rename_i d
  obtain ⟨e, rfl, ha⟩ := fq_dict hr h
  rcases all2_dget ha k with ⟨h1, h2⟩ | ⟨x, y, h1, h2, -⟩
  · rw [h1] at hv; cases hv
  · rw [h1] at hv
    cases hv
    exact ⟨.dict (derase e k), by simp [delKey, h2], .inr ⟨_, _, rfl, rfl, all2_derase ha k⟩⟩

theorem lq_onIdx {Q : Val → Val → Prop} (hr : ∀ x, Q x x) {v u : Val} (h : LQ Q v u) {i : Nat} {f : Val → Option Val} {v2 : Val}
    (hv : onIdx i f v = some v2)
    (hf : ∀ l x x2 y, v = .list l → l[i]? = some x → Q x y → f x = some x2 → ∃ y2, f y = some y2 ∧ Q x2 y2) :
    ∃ u2, onIdx i f u = some u2 ∧ LQ Q v2 u2 := by
  obtain ⟨l, x, x2, rfl, h1, h2, rfl⟩ := onIdx_some.1 hv
  obtain ⟨ys, rfl, ha⟩ := lq_list hr h
  obtain ⟨y, h3, h4⟩ := all2_get ha h1
  obtain ⟨y2, h5, h6⟩ := hf l x x2 y rfl h1 h4 h2
  exact ⟨_, onIdx_some.2 ⟨ys, y, y2, rfl, h3, h5, rfl⟩, .inr ⟨_, _, all2_set ha i h6, .inl ⟨rfl, rfl⟩⟩⟩

theorem lq_change {Q : Val → Val → Prop} (hr : ∀ x, Q x x) {v u : Val} (h : LQ Q v u) {c : ListEdit} {v2 : Val}
    (hv : c.on v = some v2) : ∃ u2, c.on u = some u2 ∧ LQ Q v2 u2 := by
  cases v <;> try (cases c <;> cases hv; done)
  rename_i l
  obtain ⟨ys, rfl, ha⟩ := lq_list hr h
  have hlen := all2_len ha
  cases c with
  | put i q =>
    simp only [ListEdit.on] at hv ⊢
    split at hv
    · rename_i hi
      cases hv
      exact ⟨_, if_pos (by omega), .inr ⟨_, _, all2_set ha i (hr q), .inl ⟨rfl, rfl⟩⟩⟩
    · cases hv
  | insert i q =>
    simp only [ListEdit.on] at hv ⊢
    split at hv
    · rename_i hi
      cases hv
      exact ⟨_, if_pos (by omega), .inr ⟨_, _, all2_append (all2_take ha i) (.cons (hr q) (all2_drop ha i)), .inl ⟨rfl, rfl⟩⟩⟩
    · cases hv
  | delete i =>
    simp only [ListEdit.on] at hv ⊢
    split at hv
    · rename_i hi
      cases hv
      exact ⟨_, if_pos (by omega), .inr ⟨_, _, all2_append (all2_take ha i) (all2_drop ha (i + 1)), .inl ⟨rfl, rfl⟩⟩⟩
    · cases hv

section
variable {R : Val → Val → Prop}

theorem entF_congr {p p2 : Val} (hp : ∀ k, k ≠ P "value" → p2.get k = p.get k) {k : PyStr} {x y : Val} (h : entF R p k x y) :
    entF R p2 k x y := by
  rcases h with rfl | ⟨rfl, kt, kst, h1, h2, h3⟩ | ⟨rfl, vt, vst, h1, h2, h3⟩
  · exact .inl rfl
  · exact .inr (.inl ⟨rfl, kt, kst, by rw [hp _ (by decide +kernel)]; exact h1, by rw [hp _ (by decide +kernel)]; exact h2, h3⟩)
  · exact .inr (.inr ⟨rfl, vt, vst, by rw [hp _ (by decide +kernel)]; exact h1, by rw [hp _ (by decide +kernel)]; exact h2, h3⟩)

theorem lq_mono {Q Q' : Val → Val → Prop} (hm : ∀ x y, Q x y → Q' x y) {v u : Val} (h : LQ Q v u) : LQ Q' v u := by
  have ha : ∀ {xs ys : List Val}, All2 Q xs ys → All2 Q' xs ys := by
    intro xs ys h
    induction h with
    | nil => exact .nil
    | cons h1 _ ih => exact .cons (hm _ _ h1) ih
  rcases h with rfl | ⟨xs, ys, h1, h2⟩
  · exact .inl rfl
  · exact .inr ⟨xs, ys, ha h1, h2⟩

theorem propF_congr {p p2 ty : Val} (hp : ∀ k, k ≠ P "value" → p2.get k = p.get k) {k : PyStr} {x y : Val} (h : propF R p ty k x y) :
    propF R p2 ty k x y := by
  rcases h with rfl | ⟨rfl, rfl | ⟨h1, st, h2, h3⟩ | ⟨h1, ⟨at_, h2, h3⟩, h4⟩ | ⟨h1, h2⟩⟩
  · exact .inl rfl
  · exact .inl rfl
  · exact .inr ⟨rfl, .inr (.inl ⟨h1, st, by rw [hp _ (by decide +kernel)]; exact h2, h3⟩)⟩
  · exact .inr ⟨rfl, .inr (.inr (.inl ⟨h1, ⟨at_, by rw [hp _ (by decide +kernel)]; exact h2, h3⟩, h4⟩))⟩
  · exact .inr ⟨rfl, .inr (.inr (.inr ⟨h1, lq_mono (fun _ _ h => fq_mono (fun _ _ _ h => entF_congr hp h) h) h2⟩))⟩

theorem prR_plain {f : Val → W} {p u ty : Val} (h : PrR R f p u) (hc : p.contains (P "custom_type") = .ok false)
    (hty : p.get (P "type") = .ok ty) : FQ (propF R p ty) p u := by
  rcases h with rfl | ⟨h1, -⟩ | ⟨-, ty', h1, h2⟩
  · exact .inl rfl
  · rw [hc] at h1; cases h1
  · rw [hty] at h1; cases h1; exact h2

/-- The value of a property that is not decoded is changed. -/
theorem prop_edit {f : Val → W} {p u ty : Val} (h : PrR R f p u) (hc : p.contains (P "custom_type") = .ok false)
    (hty : p.get (P "type") = .ok ty) {g : Val → Option Val} {p2 : Val} (hp : onKey (P "value") g p = some p2)
    (hg : ∀ x x2 y, p.get (P "value") = .ok x → VQ R p ty x y → g x = some x2 → ∃ y2, g y = some y2 ∧ VQ R p ty x2 y2) :
    ∃ u2, onKey (P "value") g u = some u2 ∧ PrR R f p2 u2 := by
  obtain ⟨u2, h1, h2⟩ := fq_onKey (propF_refl p ty) (prR_plain h hc hty) hp (by
    intro x x2 y hx hxy hgx
    have hv : VQ R p ty x y := by
      rcases hxy with rfl | ⟨-, h⟩
      · exact .inl rfl
      · exact h
    obtain ⟨y2, g1, g2⟩ := hg x x2 y hx hv hgx
    exact ⟨y2, g1, .inr ⟨rfl, g2⟩⟩)
  obtain ⟨x, x2, h3, h4, h5⟩ := onKey_some.1 hp
  have hget : ∀ k, k ≠ P "value" → p2.get k = p.get k := fun k hk => get_set_ne h5 hk
  refine ⟨u2, h1, .inr (.inr ⟨?_, ty, ?_, fq_mono (fun _ _ _ h => propF_congr hget h) h2⟩)⟩
  · rw [contains_set_ne h5 (by decide +kernel)]; exact hc
  · rw [hget _ (by decide +kernel)]; exact hty

theorem prop_setValue {f : Val → W} {p u ty : Val} (h : PrR R f p u) (hc : p.contains (P "custom_type") = .ok false)
    (hty : p.get (P "type") = .ok ty) {q p2 : Val} (hp : setKey (P "value") q p = some p2) :
    ∃ u2, setKey (P "value") q u = some u2 ∧ PrR R f p2 u2 := by
  obtain ⟨u2, h1, h2⟩ := fq_setKey (propF_refl p ty) (prR_plain h hc hty) hp
  have h5 : p.set (P "value") q = .ok p2 := by
    cases p <;> simp only [setKey, reduceCtorEq, Option.some.injEq] at hp
    subst hp
    rfl
  have hget : ∀ k, k ≠ P "value" → p2.get k = p.get k := fun k hk => get_set_ne h5 hk
  refine ⟨u2, h1, .inr (.inr ⟨?_, ty, ?_, fq_mono (fun _ _ _ h => propF_congr hget h) h2⟩)⟩
  · rw [contains_set_ne h5 (by decide +kernel)]; exact hc
  · rw [hget _ (by decide +kernel)]; exact hty

/-- The list of an array is changed. -/
theorem arr_edit {x y : Val} (h : FQ (arrF R x) x y) {g : Val → Option Val} {x2 : Val} (hx : onKey (P "values") g x = some x2)
    (hg : ∀ a a2 b, x.get (P "values") = .ok a → arrF R x (P "values") a b → g a = some a2 →
      ∃ b2, g b = some b2 ∧ arrF R x (P "values") a2 b2) : ∃ y2, onKey (P "values") g y = some y2 ∧ FQ (arrF R x2) x2 y2 := by
  obtain ⟨y2, h1, h2⟩ := fq_onKey (arrF_refl x) h hx hg
  obtain ⟨a, a2, -, -, h5⟩ := onKey_some.1 hx
  refine ⟨y2, h1, fq_mono (fun k u w huw => ?_) h2⟩
  rcases huw with rfl | ⟨rfl, tn, g1, g2⟩
  · exact .inl rfl
  · exact .inr ⟨rfl, tn, by rw [get_set_ne h5 (by decide +kernel)]; exact g1, g2⟩

theorem isS_str (s : String) : (Val.str (P s)).isS s = true := by simp [Val.isS]

theorem isS_str_ne {s t : String} (h : s ≠ t) : (Val.str (P s)).isS t = false := isS_other (isS_str s) h

theorem sq_props {st x y : Val} (hR : ∀ x, R x x) (h : SQ R st x y) : R x y := by
  rcases h with rfl | ⟨-, h⟩
  · exact hR _
  · exact h

theorem pq_props {ty st x y : Val} (hR : ∀ x, R x x) (h : PQ R ty st x y) : R x y := by
  rcases h with rfl | ⟨-, h⟩
  · exact hR _
  · exact sq_props hR h

theorem not_special {st : Val} (h : ¬ Special st) : special st = false := by
  cases hs : special st
  · rfl
  · exact absurd (special_iff.1 hs) h

/-- A step to a property list. -/
theorem hop_edit {f : Val → W} (hR : ∀ x, R x x) {h : Hop} {v u x : Val} (hv : FQ (fun _ => PrR R f) v u) (hg : Goes h v x)
    {g : Val → Option Val} {v2 : Val} (hon : h.on g v = some v2)
    (hgg : ∀ y x2, R x y → g x = some x2 → ∃ y2, g y = some y2 ∧ R x2 y2) :
    ∃ u2, h.on g u = some u2 ∧ FQ (fun _ => PrR R f) v2 u2 := by
  have hrr : ∀ (k : PyStr) (x : Val), (fun _ => PrR R f) k x x := fun _ x => .inl rfl
  cases hg with
  | @struct _ p _ st k hp hst hsp hx =>
    obtain ⟨hp1, hp2, hp3⟩ := hp
    refine fq_onKey hrr hv hon fun p' p2 q hp' hpq hon' => ?_
    rw [hp1] at hp'; cases hp'
    refine prop_edit hpq hp2 hp3 hon' fun a a2 b ha hab hga => ?_
    rw [hx] at ha; cases ha
    have hab' : R x b := by
      rcases hab with rfl | ⟨-, st', g1, g2⟩ | ⟨g, -⟩ | ⟨g, -⟩
      · exact hR _
      · exact sq_props hR g2
      · rw [isS_str_ne (by decide)] at g; cases g
      · rw [isS_str_ne (by decide)] at g; cases g
    obtain ⟨b2, g1, g2⟩ := hgg b a2 hab' hga
    exact ⟨b2, g1, .inr (.inl ⟨isS_str _, st, hst, .inr ⟨not_special hsp, g2⟩⟩)⟩
  | @elem _ p _ y tn l k i hp hat hy htn hsp hl hi =>
    obtain ⟨hp1, hp2, hp3⟩ := hp
    refine fq_onKey hrr hv hon fun p' p2 q hp' hpq hon' => ?_
    rw [hp1] at hp'; cases hp'
    refine prop_edit hpq hp2 hp3 hon' fun a a2 b ha hab hga => ?_
    rw [hy] at ha; cases ha
    have hab' : FQ (arrF R y) y b := by
      rcases hab with rfl | ⟨g, -⟩ | ⟨-, -, g⟩ | ⟨g, -⟩
      · exact .inl rfl
      · rw [isS_str_ne (by decide)] at g; cases g
      · exact g
      · rw [isS_str_ne (by decide)] at g; cases g
    obtain ⟨b2, g1, g2⟩ := arr_edit hab' hga (by
      intro c c2 d hc hcd hgc
      rw [hl] at hc; cases hc
      have hcd' : LQ (SQ R tn) (.list l) d := by
        rcases hcd with rfl | ⟨-, tn', g1, g2⟩
        · exact .inl rfl
        · rw [htn] at g1; cases g1; exact g2
      obtain ⟨d2, k1, k2⟩ := lq_onIdx (fun _ => .inl rfl) hcd' hgc (by
        intro l' z z2 w hl' hz hzw hgz
        cases hl'
        rw [hi] at hz; cases hz
        obtain ⟨w2, m1, m2⟩ := hgg w z2 (sq_props hR hzw) hgz
        exact ⟨w2, m1, .inr ⟨not_special hsp, m2⟩⟩)
      exact ⟨d2, k1, .inr ⟨rfl, tn, htn, k2⟩⟩)
    exact ⟨b2, g1, .inr (.inr (.inl ⟨isS_str _, ⟨_, hat, isS_str _⟩, g2⟩))⟩
  | @mapKey _ p _ y st l k i hp hkt hst hsp hl hi hx =>
    obtain ⟨hp1, hp2, hp3⟩ := hp
    refine fq_onKey hrr hv hon fun p' p2 q hp' hpq hon' => ?_
    rw [hp1] at hp'; cases hp'
    refine prop_edit hpq hp2 hp3 hon' fun a a2 b ha hab hga => ?_
    rw [hl] at ha; cases ha
    have hab' : LQ (FQ (entF R p)) (.list l) b := by
      rcases hab with rfl | ⟨g, -⟩ | ⟨g, -⟩ | ⟨-, g⟩
      · exact .inl rfl
      · rw [isS_str_ne (by decide)] at g; cases g
      · rw [isS_str_ne (by decide)] at g; cases g
      · exact g
    obtain ⟨b2, g1, g2⟩ := lq_onIdx (fun _ => .inl rfl) hab' hga (by
      intro l' z z2 w hl' hz hzw hgz
      cases hl'
      rw [hi] at hz; cases hz
      refine fq_onKey (entF_refl p) hzw hgz fun c c2 d hc hcd hgc => ?_
      rw [hx] at hc; cases hc
      have hcd' : R x d := by
        rcases hcd with rfl | ⟨-, _, _, -, -, g⟩ | ⟨g, -⟩
        · exact hR _
        · exact pq_props hR g
        · exact absurd g (by decide +kernel)
      obtain ⟨d2, m1, m2⟩ := hgg d c2 hcd' hgc
      exact ⟨d2, m1, .inr (.inl ⟨rfl, _, _, hkt, hst, .inr ⟨isS_str _, .inr ⟨not_special hsp, m2⟩⟩⟩)⟩)
    exact ⟨b2, g1, .inr (.inr (.inr ⟨isS_str _, g2⟩))⟩
  | @mapValue _ p _ y st l k i hp hkt hst hsp hl hi hx =>
    obtain ⟨hp1, hp2, hp3⟩ := hp
    refine fq_onKey hrr hv hon fun p' p2 q hp' hpq hon' => ?_
    rw [hp1] at hp'; cases hp'
    refine prop_edit hpq hp2 hp3 hon' fun a a2 b ha hab hga => ?_
    rw [hl] at ha; cases ha
    have hab' : LQ (FQ (entF R p)) (.list l) b := by
      rcases hab with rfl | ⟨g, -⟩ | ⟨g, -⟩ | ⟨-, g⟩
      · exact .inl rfl
      · rw [isS_str_ne (by decide)] at g; cases g
      · rw [isS_str_ne (by decide)] at g; cases g
      · exact g
    obtain ⟨b2, g1, g2⟩ := lq_onIdx (fun _ => .inl rfl) hab' hga (by
      intro l' z z2 w hl' hz hzw hgz
      cases hl'
      rw [hi] at hz; cases hz
      refine fq_onKey (entF_refl p) hzw hgz fun c c2 d hc hcd hgc => ?_
      rw [hx] at hc; cases hc
      have hcd' : R x d := by
        rcases hcd with rfl | ⟨g, -⟩ | ⟨-, _, _, -, -, g⟩
        · exact hR _
        · exact absurd g (by decide +kernel)
        · exact pq_props hR g
      obtain ⟨d2, m1, m2⟩ := hgg d c2 hcd' hgc
      exact ⟨d2, m1, .inr (.inr ⟨rfl, _, _, hkt, hst, .inr ⟨isS_str _, .inr ⟨not_special hsp, m2⟩⟩⟩)⟩)
    exact ⟨b2, g1, .inr (.inr (.inr ⟨isS_str _, g2⟩))⟩

/-- A change of a property list. -/
theorem change_edit {f : Val → W} {c : TreeEdit} {v u : Val} (hv : FQ (fun _ => PrR R f) v u) (hc : c.Fits v) {v2 : Val}
    (hon : c.on v = some v2) : ∃ u2, c.on u = some u2 ∧ FQ (fun _ => PrR R f) v2 u2 := by
  have hrr : ∀ (k : PyStr) (x : Val), (fun _ => PrR R f) k x x := fun _ x => .inl rfl
  cases c with
  | set k q => exact fq_setKey hrr hv hon
  | del k => exact fq_delKey hrr hv hon
  | value k q =>
    obtain ⟨p, hp1, hp2, ty, hp3⟩ := hc
    refine fq_onKey hrr hv hon fun p' p2 q hp' hpq hon' => ?_
    rw [hp1] at hp'; cases hp'
    exact prop_setValue hpq hp2 hp3 hon'
  | values k c =>
    obtain ⟨p, hp1, hp2, hp3⟩ := hc
    refine fq_onKey hrr hv hon fun p' p2 q hp' hpq hon' => ?_
    rw [hp1] at hp'; cases hp'
    refine prop_edit hpq hp2 hp3 hon' fun a a2 b ha hab hga => ?_
    rcases hab with rfl | ⟨g, -⟩ | ⟨t, at_, hab'⟩ | ⟨g, -⟩
    · exact ⟨a2, hga, .inl rfl⟩
    · rw [isS_str_ne (by decide)] at g; cases g
    · obtain ⟨b2, g1, g2⟩ := arr_edit hab' hga (by
        intro c' c2 d _ hcd hgc
        rcases hcd with rfl | ⟨-, tn, g1, g2⟩
        · exact ⟨c2, hgc, .inl rfl⟩
        · obtain ⟨d2, k1, k2⟩ := lq_change (fun _ => .inl rfl) g2 hgc
          exact ⟨d2, k1, .inr ⟨rfl, tn, g1, k2⟩⟩)
      exact ⟨b2, g1, .inr (.inr (.inl ⟨t, at_, g2⟩))⟩
    · rw [isS_str_ne (by decide)] at g; cases g
  | entries k c =>
    obtain ⟨p, hp1, hp2, hp3⟩ := hc
    refine fq_onKey hrr hv hon fun p' p2 q hp' hpq hon' => ?_
    rw [hp1] at hp'; cases hp'
    refine prop_edit hpq hp2 hp3 hon' fun a a2 b ha hab hga => ?_
    rcases hab with rfl | ⟨g, -⟩ | ⟨g, -⟩ | ⟨t, hab'⟩
    · exact ⟨a2, hga, .inl rfl⟩
    · rw [isS_str_ne (by decide)] at g; cases g
    · rw [isS_str_ne (by decide)] at g; cases g
    · obtain ⟨b2, k1, k2⟩ := lq_change (fun _ => .inl rfl) hab' hga
      exact ⟨b2, k1, .inr (.inr (.inr ⟨t, k2⟩))⟩

end

/-- An edit keeps trees related. -/
theorem rel_edit (cfg : Cfg) (c : TreeEdit) : ∀ (hs : List Hop) (n : Nat) (v u v2 : Val), FitsAt c hs v → Rel cfg n v u →
    hs.foldr Hop.on c.on v = some v2 → ∃ u2, hs.foldr Hop.on c.on u = some u2 ∧ Rel cfg n v2 u2
  | hs, 0, v, u, v2, _, h, hon => by cases h; exact ⟨v2, hon, rfl⟩
  | [], n + 1, v, u, v2, hf, h, hon => by
    cases hf with
    | here hc => exact change_edit h hc hon
  | hop :: t, n + 1, v, u, v2, hf, h, hon => by
    cases hf with
    | @hop _ _ _ x hg hf =>
      exact hop_edit (rel_refl cfg n) h hg hon fun y x2 hxy hgx => rel_edit cfg c t n x y x2 hf hxy hgx

end Pal.Hist
