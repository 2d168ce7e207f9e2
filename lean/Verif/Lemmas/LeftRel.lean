import Verif.Lemmas.LeftFuel
import Verif.Spec.History
/-
Trees that are written alike: the relation between a tree that was never saved and the same tree after saves, which may have
failed.  Outside of decoded properties the two are equal; a decoded property and what became of it are written alike if the
decoded one can be written at all.
-/

namespace Pal.Hist

/-- Element by element. -/
inductive All2 {α : Type} (Q : α → α → Prop) : List α → List α → Prop
  | nil : All2 Q [] []
  | cons {a b : α} {s t : List α} : Q a b → All2 Q s t → All2 Q (a :: s) (b :: t)

theorem all2_refl {α : Type} {Q : α → α → Prop} (h : ∀ a, Q a a) : ∀ l, All2 Q l l
  | [] => .nil
  | a :: t => .cons (h a) (all2_refl h t)

theorem all2_len {α : Type} {Q : α → α → Prop} {s t : List α} (h : All2 Q s t) : t.length = s.length := by
  induction h with
  | nil => rfl
  | cons _ _ ih => simp [ih]

theorem all2_get {α : Type} {Q : α → α → Prop} {s t : List α} (h : All2 Q s t) {i : Nat} {a : α} (ha : s[i]? = some a) :
    ∃ b, t[i]? = some b ∧ Q a b := by
  induction h generalizing i with
  | nil => cases ha
  | cons h1 _ ih =>
    cases i with
    | zero => cases ha; exact ⟨_, rfl, h1⟩
    | succ i => exact ih (by simpa using ha)

theorem all2_set {α : Type} {Q : α → α → Prop} {s t : List α} (h : All2 Q s t) (i : Nat) {a b : α} (hab : Q a b) :
    All2 Q (s.set i a) (t.set i b) := by
  induction h generalizing i with
  | nil => exact .nil
  | cons h1 h2 ih =>
    cases i with
    | zero => exact .cons hab h2
    | succ i => exact .cons h1 (ih i)

theorem all2_take {α : Type} {Q : α → α → Prop} {s t : List α} (h : All2 Q s t) (i : Nat) : All2 Q (s.take i) (t.take i) := by
  induction h generalizing i with
  | nil => simp only [List.take_nil]; exact .nil
  | cons h1 h2 ih =>
    cases i with
    | zero => exact .nil
    | succ i => exact .cons h1 (ih i)

theorem all2_drop {α : Type} {Q : α → α → Prop} {s t : List α} (h : All2 Q s t) (i : Nat) : All2 Q (s.drop i) (t.drop i) := by
  induction h generalizing i with
  | nil => simp only [List.drop_nil]; exact .nil
  | cons h1 h2 ih =>
    cases i with
    | zero => exact .cons h1 h2
    | succ i => exact ih i

theorem all2_append {α : Type} {Q : α → α → Prop} {s t s' t' : List α} (h : All2 Q s t) (h' : All2 Q s' t') :
    All2 Q (s ++ s') (t ++ t') := by
  induction h with
  | nil => exact h'
  | cons h1 _ ih => exact .cons h1 ih

/-! ### dicts, key by key -/

/-- Equal, or dicts with the same keys in the same order and related values. -/
def FQ (Q : PyStr → Val → Val → Prop) (v u : Val) : Prop :=
  v = u ∨ ∃ d e, v = .dict d ∧ u = .dict e ∧ All2 (fun (a b : PyStr × Val) => a.1 = b.1 ∧ Q a.1 a.2 b.2) d e

theorem fq_dict {Q : PyStr → Val → Val → Prop} (hr : ∀ k x, Q k x x) {d : Dict} {u : Val} (h : FQ Q (.dict d) u) :
    ∃ e, u = .dict e ∧ All2 (fun (a b : PyStr × Val) => a.1 = b.1 ∧ Q a.1 a.2 b.2) d e := by
  rcases h with rfl | ⟨d', e, h1, h2, h3⟩
  · exact ⟨d, rfl, all2_refl (fun a => ⟨rfl, hr _ _⟩) d⟩
  · cases h1; exact ⟨e, h2, h3⟩

theorem all2_dget {Q : PyStr → Val → Val → Prop} {d e : Dict}
    (h : All2 (fun (a b : PyStr × Val) => a.1 = b.1 ∧ Q a.1 a.2 b.2) d e) (k : PyStr) :
    (dget? d k = none ∧ dget? e k = none) ∨ ∃ x y, dget? d k = some x ∧ dget? e k = some y ∧ Q k x y := by
  induction h with
  | nil => exact .inl ⟨rfl, rfl⟩
  | @cons a b s t h1 _ ih =>
    obtain ⟨k1, x1⟩ := a
    obtain ⟨k2, x2⟩ := b
    obtain ⟨h1, h2⟩ := h1
    simp only at h1 h2
    subst h1
    simp only [dget?]
    by_cases hk : k1 = k
    · subst hk; simp only [if_true]; exact .inr ⟨_, _, rfl, rfl, h2⟩
    · simp only [if_neg hk]; exact ih

theorem all2_dset {Q : PyStr → Val → Val → Prop} {d e : Dict}
    (h : All2 (fun (a b : PyStr × Val) => a.1 = b.1 ∧ Q a.1 a.2 b.2) d e) {k : PyStr} {x y : Val} (hxy : Q k x y) :
    All2 (fun (a b : PyStr × Val) => a.1 = b.1 ∧ Q a.1 a.2 b.2) (dset d k x) (dset e k y) := by
  induction h with
  | nil => exact .cons ⟨rfl, hxy⟩ .nil
  | @cons a b s t h1 hst ih =>
    obtain ⟨k1, x1⟩ := a
    obtain ⟨k2, x2⟩ := b
    obtain ⟨h1, h2⟩ := h1
    simp only at h1 h2
    subst h1
    simp only [dset]
    by_cases hk : k1 = k
    · subst hk; simp only [if_true]; exact .cons ⟨rfl, hxy⟩ hst
    · simp only [if_neg hk]; exact .cons ⟨rfl, h2⟩ ih

theorem all2_derase {Q : PyStr → Val → Val → Prop} {d e : Dict}
    (h : All2 (fun (a b : PyStr × Val) => a.1 = b.1 ∧ Q a.1 a.2 b.2) d e) (k : PyStr) :
    All2 (fun (a b : PyStr × Val) => a.1 = b.1 ∧ Q a.1 a.2 b.2) (derase d k) (derase e k) := by
  induction h with
  | nil => exact .nil
  | @cons a b s t h1 hst ih =>
    obtain ⟨k1, x1⟩ := a
    obtain ⟨k2, x2⟩ := b
    obtain ⟨h1, h2⟩ := h1
    simp only at h1 h2
    subst h1
    simp only [derase]
    by_cases hk : k1 = k
    · simp only [if_pos hk]; exact ih
    · simp only [if_neg hk]; exact .cons ⟨rfl, h2⟩ ih

/-- TreeEdit the value of a key on the right only. -/
theorem all2_dset_right {Q : PyStr → Val → Val → Prop} {d e : Dict}
    (h : All2 (fun (a b : PyStr × Val) => a.1 = b.1 ∧ Q a.1 a.2 b.2) d e) {k : PyStr} {y y' : Val} (hy : dget? e k = some y)
    (hs : ∀ x, Q k x y → Q k x y') : All2 (fun (a b : PyStr × Val) => a.1 = b.1 ∧ Q a.1 a.2 b.2) d (dset e k y') := by
  induction h with
  | nil => cases hy
  | @cons a b s t h1 hst ih =>
    obtain ⟨k1, x1⟩ := a
    obtain ⟨k2, x2⟩ := b
    obtain ⟨h1, h2⟩ := h1
    simp only at h1 h2
    subst h1
    simp only [dget?] at hy
    simp only [dset]
    by_cases hk : k1 = k
    · subst hk
      simp only [if_true, Option.some.injEq] at hy
      subst hy
      simp only [if_true]
      exact .cons ⟨rfl, hs _ h2⟩ hst
    · simp only [if_neg hk] at hy ⊢
      exact .cons ⟨rfl, h2⟩ (ih hy)

section
variable {Q : PyStr → Val → Val → Prop} (hr : ∀ k x, Q k x x)
include hr

theorem fq_get {v u : Val} (h : FQ Q v u) {k : PyStr} {x : Val} (hx : v.get k = .ok x) : ∃ y, u.get k = .ok y ∧ Q k x y := by
  cases v <;> simp only [Val.get, reduceCtorEq] at hx
  rename_i d
  obtain ⟨e, rfl, ha⟩ := fq_dict hr h
  rcases all2_dget ha k with ⟨h1, h2⟩ | ⟨x', y, h1, h2, h3⟩
  · rw [h1] at hx; cases hx
  · rw [h1] at hx; cases hx; exact ⟨y, by simp only [Val.get, h2], h3⟩

theorem fq_get_back {v u : Val} (h : FQ Q v u) {k : PyStr} {y : Val} (hy : u.get k = .ok y) : ∃ x, v.get k = .ok x ∧ Q k x y := by
  rcases h with rfl | ⟨d, e, rfl, rfl, ha⟩
  · exact ⟨y, hy, hr _ _⟩
  · simp only [Val.get] at hy
    rcases all2_dget ha k with ⟨h1, h2⟩ | ⟨x', y', h1, h2, h3⟩
    · rw [h2] at hy; cases hy
    · rw [h2] at hy; cases hy; exact ⟨x', by simp only [Val.get, h1], h3⟩

theorem fq_get_eq {v u : Val} (h : FQ Q v u) {k : PyStr} (hk : ∀ x y, Q k x y → x = y) : u.get k = v.get k := by
  rcases h with rfl | ⟨d, e, rfl, rfl, ha⟩
  · rfl
  · simp only [Val.get]
    rcases all2_dget ha k with ⟨h1, h2⟩ | ⟨x', y', h1, h2, h3⟩
    · rw [h1, h2]
    · rw [h1, h2, hk _ _ h3]

theorem fq_getD_eq {v u : Val} (h : FQ Q v u) {k : PyStr} (hk : ∀ x y, Q k x y → x = y) : u.getD k = v.getD k := by
  rcases h with rfl | ⟨d, e, rfl, rfl, ha⟩
  · rfl
  · simp only [Val.getD]
    rcases all2_dget ha k with ⟨h1, h2⟩ | ⟨x', y', h1, h2, h3⟩
    · rw [h1, h2]
    · rw [h1, h2, hk _ _ h3]

theorem fq_contains {v u : Val} (h : FQ Q v u) (k : PyStr) : u.contains k = v.contains k := by
  rcases h with rfl | ⟨d, e, rfl, rfl, ha⟩
  · rfl
  · simp only [Val.contains]
    rcases all2_dget ha k with ⟨h1, h2⟩ | ⟨x', y', h1, h2, h3⟩
    · rw [h1, h2]
    · rw [h1, h2]; rfl

theorem fq_set {v u : Val} (h : FQ Q v u) {k : PyStr} {x y v' : Val} (hxy : Q k x y) (hv : v.set k x = .ok v') :
    ∃ u', u.set k y = .ok u' ∧ FQ Q v' u' := by
  cases v <;> simp only [Val.set, reduceCtorEq] at hv
  rename_i d
  cases hv
  obtain ⟨e, rfl, ha⟩ := fq_dict hr h
  exact ⟨_, rfl, .inr ⟨_, _, rfl, rfl, all2_dset ha hxy⟩⟩

/-- Changing the value of a key on the right. -/
theorem fq_lOn {v u : Val} (h : FQ Q v u) {k : String} {l : Val → Val} (hl : ∀ x y, Q (P k) x y → Q (P k) x (l y)) :
    FQ Q v (lOn u k l) := by
  unfold lOn
  cases hg : u.get (P k) with
  | error e => exact h
  | ok y =>
    simp only
    cases hs : u.set (P k) (l y) with
    | error e => exact h
    | ok u' =>
      simp only
      cases u <;> simp only [Val.set, reduceCtorEq] at hs
      rename_i e
      cases hs
      have hg' : dget? e (P k) = some y := by
        simp only [Val.get] at hg
        cases hd : dget? e (P k) with
        | none => rw [hd] at hg; cases hg
        | some z => rw [hd] at hg; cases hg; rfl
      rcases h with rfl | ⟨d, e', rfl, h2, ha⟩
      · exact .inr ⟨e, _, rfl, rfl, all2_dset_right (all2_refl (fun a => ⟨rfl, hr _ _⟩) e) hg' fun x hx => hl x y hx⟩
      · cases h2
        exact .inr ⟨d, _, rfl, rfl, all2_dset_right ha hg' fun x hx => hl x y hx⟩

theorem fq_eq {v u : Val} (h : FQ Q v u) (hk : ∀ k x y, Q k x y → x = y) : v = u := by
  rcases h with rfl | ⟨d, e, rfl, rfl, ha⟩
  · rfl
  · have : d = e := by
      induction ha with
      | nil => rfl
      | @cons a b s t h1 _ ih =>
        obtain ⟨k1, x1⟩ := a
        obtain ⟨k2, x2⟩ := b
        obtain ⟨h1, h2⟩ := h1
        simp only at h1 h2
        subst h1
        rw [hk _ _ _ h2, ih]
    rw [this]

end

theorem fq_mono {Q Q' : PyStr → Val → Val → Prop} (hm : ∀ k x y, Q k x y → Q' k x y) {v u : Val} (h : FQ Q v u) : FQ Q' v u := by
  rcases h with rfl | ⟨d, e, rfl, rfl, ha⟩
  · exact .inl rfl
  · refine .inr ⟨d, e, rfl, rfl, ?_⟩
    induction ha with
    | nil => exact .nil
    | cons h1 _ ih => exact .cons ⟨h1.1, hm _ _ _ h1.2⟩ ih

/-! ### lists, element by element -/

/-- Equal, or two lists or two tuples with related elements. -/
def LQ (Q : Val → Val → Prop) (v u : Val) : Prop :=
  v = u ∨ ∃ xs ys, All2 Q xs ys ∧ ((v = .list xs ∧ u = .list ys) ∨ (v = .tuple xs ∧ u = .tuple ys))

theorem lq_list {Q : Val → Val → Prop} (hr : ∀ x, Q x x) {xs : List Val} {u : Val} (h : LQ Q (.list xs) u) :
    ∃ ys, u = .list ys ∧ All2 Q xs ys := by
  rcases h with rfl | ⟨xs', ys, h1, ⟨h2, h3⟩ | ⟨h2, h3⟩⟩
  · exact ⟨xs, rfl, all2_refl hr xs⟩
  · cases h2; exact ⟨ys, h3, h1⟩
  · cases h2

theorem lq_len {Q : Val → Val → Prop} {v u : Val} (h : LQ Q v u) : wLen u = wLen v := by
  rcases h with rfl | ⟨xs, ys, h1, ⟨rfl, rfl⟩ | ⟨rfl, rfl⟩⟩
  · rfl
  · simp only [wLen, Val.len, all2_len h1]
  · simp only [wLen, Val.len, all2_len h1]

/-- Related values are written alike: if the first can be written, so can the second, and as the same bytes. -/
def Sim (Q : Val → Val → Prop) (f : Val → W) : Prop := ∀ x y, Q x y → ∀ b x', f x = .ok (b, x') → ∃ y', f y = .ok (b, y')

theorem sim_mapL {Q : Val → Val → Prop} {f : Val → W} (h : Sim Q f) {xs ys : List Val} (ha : All2 Q xs ys) :
    ∀ {b xs'}, wMapL f xs = .ok (b, xs') → ∃ ys', wMapL f ys = .ok (b, ys') := by
  induction ha with
  | nil => intro b xs' hw; cases hw; exact ⟨_, rfl⟩
  | @cons a a' s t h1 _ ih =>
    intro b xs' hw
    simp only [wMapL] at hw ⊢
    cases h2 : f a with
    | error e => rw [h2] at hw; cases hw
    | ok r =>
      obtain ⟨c, a1⟩ := r
      obtain ⟨a2, h3⟩ := h _ _ h1 _ _ h2
      rw [h2] at hw
      simp only at hw
      cases h4 : wMapL f s with
      | error e => rw [h4] at hw; cases hw
      | ok r =>
        obtain ⟨d, s1⟩ := r
        obtain ⟨t1, h5⟩ := ih h4
        rw [h4] at hw
        cases hw
        exact ⟨a2 :: t1, by simp only [h3, h5]⟩

theorem sim_seq {Q : Val → Val → Prop} {f : Val → W} (h : Sim Q f) : Sim (LQ Q) (wSeq f) := by
  intro x y hxy b x' hw
  rcases hxy with rfl | ⟨xs, ys, h1, ⟨rfl, rfl⟩ | ⟨rfl, rfl⟩⟩
  · exact ⟨x', hw⟩
  all_goals
    simp only [wSeq] at hw ⊢
    cases h2 : wMapL f xs with
    | error e => rw [h2] at hw; cases hw
    | ok r =>
      obtain ⟨c, xs'⟩ := r
      obtain ⟨ys', h3⟩ := sim_mapL h h1 h2
      rw [h2] at hw
      cases hw
      rw [h3]
      exact ⟨_, rfl⟩

theorem sim_iter {Q : Val → Val → Prop} {f : Val → W} (h : Sim Q f) : Sim (LQ Q) (wIter f) := by
  intro x y hxy b x' hw
  rcases hxy with rfl | ⟨xs, ys, h1, ⟨rfl, rfl⟩ | ⟨rfl, rfl⟩⟩
  · exact ⟨x', hw⟩
  all_goals
    simp only [wIter] at hw ⊢
    cases h2 : wMapL f xs with
    | error e => rw [h2] at hw; cases hw
    | ok r =>
      obtain ⟨c, xs'⟩ := r
      obtain ⟨ys', h3⟩ := sim_mapL h h1 h2
      rw [h2] at hw
      cases hw
      rw [h3]
      exact ⟨_, rfl⟩

theorem get_set_ok {v x : Val} {k : PyStr} (h : v.get k = .ok x) (y : Val) : ∃ v', v.set k y = .ok v' := by
  cases v <;> simp only [Val.get, reduceCtorEq] at h
  exact ⟨_, rfl⟩

theorem sim_on {Q : PyStr → Val → Val → Prop} (hr : ∀ k x, Q k x x) {v u : Val} (h : FQ Q v u) {k : String} {f : Val → W}
    (hf : Sim (Q (P k)) f) {b : Bytes} {v' : Val} (hw : wOn v k f = .ok (b, v')) : ∃ u', wOn u k f = .ok (b, u') := by
  obtain ⟨x, x', h1, h2, h3⟩ := wOn_ok.1 hw
  obtain ⟨y, h4, h5⟩ := fq_get hr h h1
  obtain ⟨y', h6⟩ := hf _ _ h5 _ _ h2
  obtain ⟨u', h7⟩ := get_set_ok h4 y'
  exact ⟨u', wOn_ok.2 ⟨y, y', h4, h6, h7⟩⟩

theorem lMapL_id (f : Val → W) : ∀ xs, lMapL f (fun x => x) xs = xs
  | [] => rfl
  | a :: t => by
    simp only [lMapL, lMapL_id f t]
    split <;> rfl

theorem lSeq_id (f : Val → W) (v : Val) : lSeq f (fun x => x) v = v := by
  unfold lSeq
  split <;> simp only [lMapL_id]

/-- A loop that changes elements on the right. -/
theorem lq_step {Q : Val → Val → Prop} (hr : ∀ x, Q x x) {f : Val → W} {l : Val → Val} (hl : ∀ x y, Q x y → Q x (l y)) {v u : Val}
    (h : LQ Q v u) : LQ Q v (lSeq f l u) := by
  have ha : ∀ {xs ys : List Val}, All2 Q xs ys → All2 Q xs (lMapL f l ys) := by
    intro xs ys h
    induction h with
    | nil => exact .nil
    | cons h1 h2 ih =>
      simp only [lMapL]
      split
      · exact .cons (hl _ _ h1) h2
      · exact .cons (hl _ _ h1) ih
  rcases h with rfl | ⟨xs, ys, h1, ⟨rfl, rfl⟩ | ⟨rfl, rfl⟩⟩
  · cases v
    case list xs => exact .inr ⟨_, _, ha (all2_refl hr xs), .inl ⟨rfl, rfl⟩⟩
    case tuple xs => exact .inr ⟨_, _, ha (all2_refl hr xs), .inr ⟨rfl, rfl⟩⟩
    all_goals exact .inl rfl
  · exact .inr ⟨_, _, ha h1, .inl ⟨rfl, rfl⟩⟩
  · exact .inr ⟨_, _, ha h1, .inr ⟨rfl, rfl⟩⟩

/-! ### struct values, map entries, arrays -/

/-- The struct types whose values are not property lists. -/
def special (st : Val) : Bool :=
  st.isS "Vector" || st.isS "DateTime" || st.isS "Guid" || st.isS "Quat" || st.isS "LinearColor"

theorem special_iff {st : Val} : special st = true ↔ Spec.Special st := by
  have h : ∀ s : String, st.isS s = true ↔ st = .str (P s) := by
    intro s
    constructor
    · exact isS_str_eq
    · rintro rfl; simp [Val.isS]
  simp only [special, Bool.or_eq_true, h, Spec.Special, or_assoc]

def SQ (R : Val → Val → Prop) (st x y : Val) : Prop := x = y ∨ (special st = false ∧ R x y)

def PQ (R : Val → Val → Prop) (ty st x y : Val) : Prop := x = y ∨ (ty.isS "StructProperty" = true ∧ SQ R st x y)

def entF (R : Val → Val → Prop) (p : Val) (k : PyStr) (x y : Val) : Prop :=
  x = y ∨
  (k = P "key" ∧ ∃ kt kst, p.get (P "key_type") = .ok kt ∧ p.get (P "key_struct_type") = .ok kst ∧ PQ R kt kst x y) ∨
  (k = P "value" ∧ ∃ vt vst, p.get (P "value_type") = .ok vt ∧ p.get (P "value_struct_type") = .ok vst ∧ PQ R vt vst x y)

def arrF (R : Val → Val → Prop) (a : Val) (k : PyStr) (x y : Val) : Prop :=
  x = y ∨ (k = P "values" ∧ ∃ tn, a.get (P "type_name") = .ok tn ∧ LQ (SQ R tn) x y)

/-- The values of two properties of the same type. -/
def VQ (R : Val → Val → Prop) (p ty x y : Val) : Prop :=
  x = y ∨
  (ty.isS "StructProperty" = true ∧ ∃ st, p.get (P "struct_type") = .ok st ∧ SQ R st x y) ∨
  (ty.isS "ArrayProperty" = true ∧ (∃ at_, p.get (P "array_type") = .ok at_ ∧ at_.isS "StructProperty" = true) ∧ FQ (arrF R x) x y) ∨
  (ty.isS "MapProperty" = true ∧ LQ (FQ (entF R p)) x y)

def propF (R : Val → Val → Prop) (p ty : Val) (k : PyStr) (x y : Val) : Prop := x = y ∨ (k = P "value" ∧ VQ R p ty x y)

/-- Whenever the first can be written, so can the second, and as the same bytes. -/
def Leaf (f : Val → W) (p u : Val) : Prop := ∀ b p', f p = .ok (b, p') → ∃ u', f u = .ok (b, u')

/-- Two properties. -/
def PrR (R : Val → Val → Prop) (f : Val → W) (p u : Val) : Prop :=
  p = u ∨ (p.contains (P "custom_type") = .ok true ∧ Leaf f p u) ∨
  (p.contains (P "custom_type") = .ok false ∧ ∃ ty, p.get (P "type") = .ok ty ∧ FQ (propF R p ty) p u)

/-- Two property lists. -/
def Rel (cfg : Cfg) : Nat → Val → Val → Prop
  | 0 => fun x y => x = y
  | n + 1 => FQ fun _ => PrR (Rel cfg n) (wProperty cfg (wProps n cfg) (bytesOf n))

theorem rel_refl (cfg : Cfg) (n : Nat) (x : Val) : Rel cfg n x x := by
  cases n with
  | zero => rfl
  | succ n => exact .inl rfl

theorem at_eq {v u : Val} {k : String} {w : Val → Except Err Bytes} {t : List String} (h : u.get (P k) = v.get (P k)) :
    wAt u (k :: t) w = wAt v (k :: t) w := by
  simp only [wAt, List.map, Val.path, h]

section
variable {R : Val → Val → Prop} (hR : ∀ x, R x x) {r : Val → W} {l : Val → Val} (hs : Sim R r)

theorem sim_structValue (hs : Sim R r) (st : Val) : Sim (SQ R st) (wStructValue r st) := by
  intro x y h b x' hw
  rcases h with rfl | ⟨h1, h2⟩
  · exact ⟨x', hw⟩
  · simp only [special, Bool.or_eq_false_iff] at h1
    obtain ⟨⟨⟨⟨a1, a2⟩, a3⟩, a4⟩, a5⟩ := h1
    simp only [wStructValue, a1, a2, a3, a4, a5, Bool.false_eq_true, if_false] at hw ⊢
    exact hs _ _ h2 _ _ hw

theorem step_structValue (hl : ∀ x y, R x y → R x (l y)) (hR : ∀ x, R x x) (st : Val) {x y : Val} (h : SQ R st x y) :
    SQ R st x (lStructValue l st y) := by
  by_cases hsp : special st = true
  · have : lStructValue l st y = y := by
      unfold lStructValue
      repeat' split
      all_goals try rfl
      simp_all [special]
    rw [this]
    exact h
  · simp only [Bool.not_eq_true] at hsp
    have h1 := hsp
    simp only [special, Bool.or_eq_false_iff] at h1
    obtain ⟨⟨⟨⟨a1, a2⟩, a3⟩, a4⟩, a5⟩ := h1
    simp only [lStructValue, a1, a2, a3, a4, a5, Bool.false_eq_true, if_false]
    rcases h with rfl | ⟨-, h⟩
    · exact .inr ⟨hsp, hl _ _ (hR _)⟩
    · exact .inr ⟨hsp, hl _ _ h⟩

theorem sim_propValue (hs : Sim R r) (ty st : Val) : Sim (PQ R ty st) (wPropValue r ty st) := by
  intro x y h b x' hw
  rcases h with rfl | ⟨h1, h2⟩
  · exact ⟨x', hw⟩
  · simp only [wPropValue, if_pos h1] at hw ⊢
    exact sim_structValue hs st _ _ h2 _ _ hw

theorem step_propValue (hl : ∀ x y, R x y → R x (l y)) (hR : ∀ x, R x x) (ty st : Val) {x y : Val} (h : PQ R ty st x y) :
    PQ R ty st x (lPropValue l ty st y) := by
  unfold lPropValue
  split
  · rename_i ht
    refine .inr ⟨ht, step_structValue hl hR st ?_⟩
    rcases h with rfl | ⟨-, h⟩
    · exact .inl rfl
    · exact h
  · exact h

theorem entF_refl (p : Val) : ∀ k x, entF R p k x x := fun _ _ => .inl rfl
theorem arrF_refl (p : Val) : ∀ k x, arrF R p k x x := fun _ _ => .inl rfl
theorem propF_refl (p ty : Val) : ∀ k x, propF R p ty k x x := fun _ _ => .inl rfl

theorem sim_entry (hs : Sim R r) (p : Val) : Sim (FQ (entF R p)) (wMapEntry r p) := by
  intro x y h b x' hw
  unfold wMapEntry at hw ⊢
  cases h1 : p.get (P "key_type") with
  | error e => simp only [h1] at hw; cases hw
  | ok kt =>
  cases h2 : p.get (P "key_struct_type") with
  | error e => simp only [h1, h2] at hw; cases hw
  | ok kst =>
  cases h3 : wOn x "key" (wPropValue r kt kst) with
  | error e => simp only [h1, h2, h3] at hw; cases hw
  | ok q =>
  obtain ⟨c, x1⟩ := q
  cases h4 : p.get (P "value_type") with
  | error e => simp only [h1, h2, h3, h4] at hw; cases hw
  | ok vt =>
  cases h5 : p.get (P "value_struct_type") with
  | error e => simp only [h1, h2, h3, h4, h5] at hw; cases hw
  | ok vst =>
  simp only [h1, h2, h3, h4, h5] at hw
  obtain ⟨d, e, h6, h7, rfl⟩ := wThen_ok.1 hw
  cases h6
  obtain ⟨y1, h8⟩ := sim_on (entF_refl p) h (k := "key") (f := wPropValue r kt kst) (by
    intro a a' ha
    apply sim_propValue hs
    rcases ha with rfl | ⟨-, kt', kst', g1, g2, g3⟩ | ⟨g, -⟩
    · exact .inl rfl
    · rw [h1] at g1; rw [h2] at g2; cases g1; cases g2; exact g3
    · exact absurd g (by decide +kernel)) h3
  obtain ⟨a, a', k1, k2, k3⟩ := wOn_ok.1 h7
  rw [wOn_get h3 (by decide +kernel)] at k1
  obtain ⟨z, k4, k5⟩ := fq_get (entF_refl p) h k1
  obtain ⟨z', k6⟩ := sim_propValue hs vt vst a z (by
    rcases k5 with rfl | ⟨g, -⟩ | ⟨-, kt', kst', g1, g2, g3⟩
    · exact .inl rfl
    · exact absurd g (by decide +kernel)
    · rw [h4] at g1; rw [h5] at g2; cases g1; cases g2; exact g3) _ _ k2
  have k7 : y1.get (P "value") = .ok z := by rw [wOn_get h8 (by decide +kernel)]; exact k4
  obtain ⟨y2, k8⟩ := get_set_ok k7 z'
  refine ⟨y2, ?_⟩
  simp only [h8]
  exact wThen_ok.2 ⟨_, _, rfl, wOn_ok.2 ⟨_, _, k7, k6, k8⟩, rfl⟩

theorem step_entry (ha : Agr r l) (hl : ∀ x y, R x y → R x (l y)) (hR : ∀ x, R x x) (p : Val) {x y : Val} (h : FQ (entF R p) x y) :
    FQ (entF R p) x (lMapEntry r l p y) := by
  unfold lMapEntry
  cases h1 : p.get (P "key_type") with
  | error e => exact h
  | ok kt =>
  cases h2 : p.get (P "key_struct_type") with
  | error e => exact h
  | ok kst =>
  have hk : FQ (entF R p) x (lOn y "key" (lPropValue l kt kst)) := by
    refine fq_lOn (entF_refl p) h fun a b hab => .inr (.inl ⟨rfl, kt, kst, h1, h2, step_propValue hl hR _ _ ?_⟩)
    rcases hab with rfl | ⟨-, kt', kst', g1, g2, g3⟩ | ⟨g, -⟩
    · exact .inl rfl
    · rw [h1] at g1; rw [h2] at g2; cases g1; cases g2; exact g3
    · exact absurd g (by decide +kernel)
  cases h3 : wOn y "key" (wPropValue r kt kst) with
  | error e => simp only [h3]; exact hk
  | ok q =>
  obtain ⟨c, y1⟩ := q
  rw [agr_on (agr_propValue ha _ _) h3] at hk
  simp only [h3]
  cases h4 : p.get (P "value_type") with
  | error e => exact hk
  | ok vt =>
  cases h5 : p.get (P "value_struct_type") with
  | error e => exact hk
  | ok vst =>
  refine fq_lOn (entF_refl p) hk fun a b hab => .inr (.inr ⟨rfl, vt, vst, h4, h5, step_propValue hl hR _ _ ?_⟩)
  rcases hab with rfl | ⟨g, -⟩ | ⟨-, kt', kst', g1, g2, g3⟩
  · exact .inl rfl
  · exact absurd g (by decide +kernel)
  · rw [h4] at g1; rw [h5] at g2; cases g1; cases g2; exact g3

theorem arr_field {a x y : Val} (h : FQ (arrF R a) x y) {k : PyStr} (hk : k ≠ P "values") : y.get k = x.get k :=
  fq_get_eq (arrF_refl a) h fun u w hu => by
    rcases hu with rfl | ⟨g, -⟩
    · rfl
    · exact absurd g hk

theorem prop_field {p ty x y : Val} (h : FQ (propF R p ty) x y) {k : PyStr} (hk : k ≠ P "value") : y.get k = x.get k :=
  fq_get_eq (propF_refl p ty) h fun u w hu => by
    rcases hu with rfl | ⟨g, -⟩
    · rfl
    · exact absurd g hk

theorem sim_array (hs : Sim R r) {at_ : Val} (hat : at_.isS "StructProperty" = true) {x y : Val} (h : FQ (arrF R x) x y) {b : Bytes}
    {x' : Val} (hw : wArrayProperty r at_ x = .ok (b, x')) : ∃ y', wArrayProperty r at_ y = .ok (b, y') := by
  have e1 : wAt y ["prop_name"] wFString = wAt x ["prop_name"] wFString := at_eq (arr_field h (by decide +kernel))
  have e2 : wAt y ["prop_type"] wFString = wAt x ["prop_type"] wFString := at_eq (arr_field h (by decide +kernel))
  have e3 : wAt y ["type_name"] wFString = wAt x ["type_name"] wFString := at_eq (arr_field h (by decide +kernel))
  have e4 : wAt y ["id"] wGuid = wAt x ["id"] wGuid := at_eq (arr_field h (by decide +kernel))
  have e5 : wStructElem r y = wStructElem r x := by
    funext z
    simp only [wStructElem, arr_field h (k := P "type_name") (by decide +kernel)]
  have hse : ∀ tn, x.get (P "type_name") = .ok tn → Sim (SQ R tn) (wStructElem r x) := by
    intro tn htn a a' ha
    simp only [wStructElem, htn]
    exact sim_structValue hs tn a a' ha
  have e6 : ∀ c, wAt x ["values"] wLen = .ok c → wAt y ["values"] wLen = .ok c := by
    intro c hc
    cases hv : x.get (P "values") with
    | error e => simp only [wAt, List.map, Val.path, hv] at hc; cases hc
    | ok z =>
      obtain ⟨z', g1, g2⟩ := fq_get (arrF_refl x) h hv
      simp only [wAt, List.map, Val.path, hv] at hc
      simp only [wAt, List.map, Val.path, g1]
      rcases g2 with rfl | ⟨-, tn, -, g3⟩
      · exact hc
      · rw [lq_len g3]; exact hc
  unfold wArrayProperty at hw ⊢
  obtain ⟨c, d, h1, h2, rfl⟩ := wThen_ok.1 hw
  rw [if_pos hat] at h2
  obtain ⟨c2, d2, h3, h4, rfl⟩ := wThen_ok.1 h2
  rw [if_pos hat, e1, e2, e3, e4, e5]
  cases h5 : wOn x "values" (wSeq (wStructElem r x)) with
  | error e => rw [h5] at h4; cases h4
  | ok q =>
  obtain ⟨buf, x1⟩ := q
  rw [h5] at h4
  simp only at h4
  obtain ⟨c3, d3, h6, h7, rfl⟩ := wThen_ok.1 h4
  cases h7
  obtain ⟨y1, h8⟩ := sim_on (arrF_refl x) h (k := "values") (f := wSeq (wStructElem r x)) (by
    intro a a' ha
    rcases ha with rfl | ⟨-, tn, g1, g2⟩
    · intro b x' hb; exact ⟨x', hb⟩
    · exact sim_seq (hse tn g1) a a' g2) h5
  refine ⟨y1, wThen_ok.2 ⟨_, _, e6 _ h1, wThen_ok.2 ⟨_, _, h3, ?_, rfl⟩, rfl⟩⟩
  rw [h8]
  exact wThen_ok.2 ⟨_, _, h6, rfl, rfl⟩

theorem step_array (hl : ∀ x y, R x y → R x (l y)) (hR : ∀ x, R x x) {at_ : Val} {x y : Val} (h : FQ (arrF R x) x y) :
    FQ (arrF R x) x (lArrayProperty r l at_ y) := by
  unfold lArrayProperty
  split
  · exact h
  · split
    · split
      · exact h
      · refine fq_lOn (arrF_refl x) h ?_
        intro a b hab
        have htn := arr_field h (k := P "type_name") (by decide +kernel)
        cases hx : x.get (P "type_name") with
        | error e =>
          have : lStructElem l y = fun z => z := by
            funext z
            simp only [lStructElem, htn, hx]
          rw [this, lSeq_id]
          exact hab
        | ok tn =>
          have : lStructElem l y = lStructValue l tn := by
            funext z
            simp only [lStructElem, htn, hx]
          rw [this]
          refine .inr ⟨rfl, tn, hx, lq_step (fun _ => .inl rfl) (fun u w hu => step_structValue hl hR tn hu) ?_⟩
          rcases hab with rfl | ⟨-, tn', g1, g2⟩
          · exact .inl rfl
          · rw [hx] at g1; cases g1; exact g2
    · exact h

theorem sim_plain (hs : Sim R r) {ty p u : Val} (h : FQ (propF R p ty) p u) {n : Nat} {b : Bytes} {p' : Val}
    (hw : wPlainInner r ty p = .ok (n, b, p')) : ∃ u', wPlainInner r ty u = .ok (n, b, u') := by
  have hid : wId u = wId p := by
    have := fq_getD_eq (propF_refl p ty) h (k := P "id") fun x y hxy => by
      rcases hxy with rfl | ⟨g, -⟩
      · rfl
      · exact absurd g (by decide +kernel)
    simp only [wId, this]
  have hat : ∀ (k : String) (w : Val → Except Err Bytes), P k ≠ P "value" → wAt u [k] w = wAt p [k] w := fun k w hk =>
    at_eq (prop_field h hk)
  by_cases t1 : ty.isS "StructProperty" = true
  · have hget := prop_field h (k := P "struct_type") (by decide +kernel)
    simp only [wPlainInner, if_pos t1] at hw ⊢
    rw [hat _ _ (by decide +kernel), hat _ _ (by decide +kernel), hid, hget]
    obtain ⟨c, d, h1, h2, rfl, rfl⟩ := sized_ok.1 hw
    cases h3 : p.get (P "struct_type") with
    | error e => rw [h3] at h2; cases h2
    | ok st =>
      rw [h3] at h2
      obtain ⟨u', h4⟩ := sim_on (propF_refl p ty) h (k := "value") (f := wStructValue r st) (by
        intro x y hxy
        apply sim_structValue hs
        rcases hxy with rfl | ⟨-, rfl | ⟨-, st', g1, g2⟩ | ⟨g, -⟩ | ⟨g, -⟩⟩
        · exact .inl rfl
        · exact .inl rfl
        · rw [h3] at g1; cases g1; exact g2
        · rw [isS_other t1 (show "StructProperty" ≠ "ArrayProperty" by decide)] at g; cases g
        · rw [isS_other t1 (show "StructProperty" ≠ "MapProperty" by decide)] at g; cases g) h2
      exact ⟨u', sized_ok.2 ⟨_, _, h1, h4, rfl, rfl⟩⟩
  by_cases t2 : ty.isS "ArrayProperty" = true
  · have hget := prop_field h (k := P "array_type") (by decide +kernel)
    simp only [wPlainInner, t2, isS_other t2 (show "ArrayProperty" ≠ "StructProperty" by decide),
      isS_other t2 (show "ArrayProperty" ≠ "IntProperty" by decide), isS_other t2 (show "ArrayProperty" ≠ "Int64Property" by decide),
      isS_other t2 (show "ArrayProperty" ≠ "FixedPoint64Property" by decide), isS_other t2 (show "ArrayProperty" ≠ "FloatProperty" by decide),
      isS_other t2 (show "ArrayProperty" ≠ "StrProperty" by decide), isS_other t2 (show "ArrayProperty" ≠ "NameProperty" by decide),
      isS_other t2 (show "ArrayProperty" ≠ "EnumProperty" by decide), isS_other t2 (show "ArrayProperty" ≠ "BoolProperty" by decide),
      Bool.false_eq_true, if_false, if_true] at hw ⊢
    rw [hat _ _ (by decide +kernel), hid, hget]
    obtain ⟨c, d, h1, h2, rfl, rfl⟩ := sized_ok.1 hw
    cases h3 : p.get (P "array_type") with
    | error e => rw [h3] at h2; cases h2
    | ok at_ =>
      rw [h3] at h2
      obtain ⟨u', h4⟩ := sim_on (propF_refl p ty) h (k := "value") (f := wArrayProperty r at_) (by
        intro x y hxy b x' hb
        rcases hxy with rfl | ⟨-, rfl | ⟨g, -⟩ | ⟨-, ⟨at', g1, g2⟩, g3⟩ | ⟨g, -⟩⟩
        · exact ⟨x', hb⟩
        · exact ⟨x', hb⟩
        · exact absurd g t1
        · rw [h3] at g1; cases g1; exact sim_array hs g2 g3 hb
        · rw [isS_other t2 (show "ArrayProperty" ≠ "MapProperty" by decide)] at g; cases g) h2
      exact ⟨u', sized_ok.2 ⟨_, _, h1, h4, rfl, rfl⟩⟩
  by_cases t3 : ty.isS "MapProperty" = true
  · simp only [wPlainInner, t3, isS_other t3 (show "MapProperty" ≠ "StructProperty" by decide),
      isS_other t3 (show "MapProperty" ≠ "IntProperty" by decide), isS_other t3 (show "MapProperty" ≠ "Int64Property" by decide),
      isS_other t3 (show "MapProperty" ≠ "FixedPoint64Property" by decide), isS_other t3 (show "MapProperty" ≠ "FloatProperty" by decide),
      isS_other t3 (show "MapProperty" ≠ "StrProperty" by decide), isS_other t3 (show "MapProperty" ≠ "NameProperty" by decide),
      isS_other t3 (show "MapProperty" ≠ "EnumProperty" by decide), isS_other t3 (show "MapProperty" ≠ "BoolProperty" by decide),
      isS_other t3 (show "MapProperty" ≠ "ArrayProperty" by decide), Bool.false_eq_true, if_false, if_true] at hw ⊢
    rw [hat _ _ (by decide +kernel), hat _ _ (by decide +kernel), hid]
    obtain ⟨c, d, h1, h2, rfl, rfl⟩ := sized_ok.1 hw
    unfold wMapBody at h2
    obtain ⟨c2, d2, h3, h4, rfl⟩ := wThen_ok.1 h2
    have hv : ∀ x y, propF R p ty (P "value") x y → LQ (FQ (entF R p)) x y := by
      intro x y hxy
      rcases hxy with rfl | ⟨-, rfl | ⟨g, -⟩ | ⟨g, -⟩ | ⟨-, g⟩⟩
      · exact .inl rfl
      · exact .inl rfl
      · exact absurd g t1
      · exact absurd g t2
      · exact g
    have hlen : wAt u ["value"] wLen = wAt p ["value"] wLen := by
      cases hg : p.get (P "value") with
      | error e =>
        have : u.get (P "value") = .error e := by
          rcases h with rfl | ⟨d, e', rfl, rfl, ha⟩
          · exact hg
          · simp only [Val.get] at hg ⊢
            rcases all2_dget ha (P "value") with ⟨g1, g2⟩ | ⟨x', y', g1, g2, g3⟩
            · rw [g1] at hg; rw [g2]; exact hg
            · rw [g1] at hg; cases hg
        simp only [wAt, List.map, Val.path, hg, this]
      | ok z =>
        obtain ⟨z', g1, g2⟩ := fq_get (propF_refl p ty) h hg
        simp only [wAt, List.map, Val.path, hg, g1]
        exact lq_len (hv _ _ g2)
    have hent : wMapEntry r u = wMapEntry r p := by
      funext z
      simp only [wMapEntry, prop_field h (k := P "key_type") (by decide +kernel), prop_field h (k := P "key_struct_type") (by decide +kernel),
        prop_field h (k := P "value_type") (by decide +kernel), prop_field h (k := P "value_struct_type") (by decide +kernel)]
    obtain ⟨u', h5⟩ := sim_on (propF_refl p ty) h (k := "value") (f := wIter (wMapEntry r p)) (by
      intro x y hxy
      exact sim_iter (sim_entry hs p) x y (hv x y hxy)) h4
    refine ⟨u', sized_ok.2 ⟨_, _, h1, ?_, rfl, rfl⟩⟩
    unfold wMapBody
    rw [hlen, hent]
    exact wThen_ok.2 ⟨_, _, h3, h5, rfl⟩
  · have : p = u := fq_eq (propF_refl p ty) h fun k x y hxy => by
      rcases hxy with rfl | ⟨-, rfl | ⟨g, -⟩ | ⟨g, -⟩ | ⟨g, -⟩⟩
      · rfl
      · rfl
      · exact absurd g t1
      · exact absurd g t2
      · exact absurd g t3
    rw [← this]
    exact ⟨p', hw⟩

theorem step_plain (ha : Agr r l) (hl : ∀ x y, R x y → R x (l y)) (hR : ∀ x, R x x) {ty p u : Val} (h : FQ (propF R p ty) p u) :
    FQ (propF R p ty) p (lPlainInner r l ty u) := by
  unfold lPlainInner
  by_cases t1 : ty.isS "StructProperty" = true
  · rw [if_pos t1]
    split
    · exact h
    · rw [prop_field h (k := P "struct_type") (by decide +kernel)]
      cases h3 : p.get (P "struct_type") with
      | error e => exact h
      | ok st =>
        refine fq_lOn (propF_refl p ty) h fun x y hxy => .inr ⟨rfl, .inr (.inl ⟨t1, st, h3, step_structValue hl hR st ?_⟩)⟩
        rcases hxy with rfl | ⟨-, rfl | ⟨-, st', g1, g2⟩ | ⟨g, -⟩ | ⟨g, -⟩⟩
        · exact .inl rfl
        · exact .inl rfl
        · rw [h3] at g1; cases g1; exact g2
        · rw [isS_other t1 (show "StructProperty" ≠ "ArrayProperty" by decide)] at g; cases g
        · rw [isS_other t1 (show "StructProperty" ≠ "MapProperty" by decide)] at g; cases g
  rw [if_neg t1]
  by_cases t2 : ty.isS "ArrayProperty" = true
  · rw [if_pos t2]
    split
    · exact h
    · rw [prop_field h (k := P "array_type") (by decide +kernel)]
      cases h3 : p.get (P "array_type") with
      | error e => exact h
      | ok at_ =>
        refine fq_lOn (propF_refl p ty) h fun x y hxy => ?_
        by_cases hat : at_.isS "StructProperty" = true
        · refine .inr ⟨rfl, .inr (.inr (.inl ⟨t2, ⟨at_, h3, hat⟩, step_array hl hR ?_⟩))⟩
          rcases hxy with rfl | ⟨-, rfl | ⟨g, -⟩ | ⟨-, -, g⟩ | ⟨g, -⟩⟩
          · exact .inl rfl
          · exact .inl rfl
          · exact absurd g t1
          · exact g
          · rw [isS_other t2 (show "ArrayProperty" ≠ "MapProperty" by decide)] at g; cases g
        · have : lArrayProperty r l at_ y = y := by
            unfold lArrayProperty
            rw [if_neg hat]
            split <;> rfl
          rw [this]
          exact hxy
  rw [if_neg t2]
  by_cases t3 : ty.isS "MapProperty" = true
  · rw [if_pos t3]
    split
    · exact h
    · unfold lMapBody
      split
      · exact h
      · refine fq_lOn (propF_refl p ty) h fun x y hxy => .inr ⟨rfl, .inr (.inr (.inr ⟨t3, ?_⟩))⟩
        have hent : lMapEntry r l u = lMapEntry r l p := by
          funext z
          simp only [lMapEntry, prop_field h (k := P "key_type") (by decide +kernel), prop_field h (k := P "key_struct_type") (by decide +kernel),
            prop_field h (k := P "value_type") (by decide +kernel), prop_field h (k := P "value_struct_type") (by decide +kernel)]
        rw [hent]
        refine lq_step (fun _ => .inl rfl) (fun a b hab => step_entry ha hl hR p hab) ?_
        rcases hxy with rfl | ⟨-, rfl | ⟨g, -⟩ | ⟨g, -⟩ | ⟨-, g⟩⟩
        · exact .inl rfl
        · exact .inl rfl
        · exact absurd g t1
        · exact absurd g t2
        · exact g
  rw [if_neg t3]
  exact h

theorem sim_property {cfg : Cfg} {wp : Val → Except Err Bytes} (hs : Sim R r) :
    Sim (PrR R (wProperty cfg r wp)) (wProperty cfg r wp) := by
  intro p u h b p' hw
  rcases h with rfl | ⟨-, h⟩ | ⟨hc, ty, hty, h⟩
  · exact ⟨p', hw⟩
  · exact h b p' hw
  · obtain ⟨ty', tb, n, buf, sb, h1, h2, h3, h4, rfl⟩ := property_ok.1 hw
    rw [hty] at h1
    cases h1
    rw [inner_plain hc] at h3
    obtain ⟨u', h5⟩ := sim_plain hs h h3
    refine ⟨u', property_ok.2 ⟨ty, tb, n, buf, sb, ?_, h2, ?_, h4, rfl⟩⟩
    · rw [prop_field h (by decide +kernel)]; exact hty
    · rw [inner_plain (by rw [fq_contains (propF_refl p ty) h]; exact hc)]; exact h5

theorem step_property {cfg : Cfg} {wp : Val → Except Err Bytes} (ha : Agr r l) (hi : Idem r) (hl : ∀ x y, R x y → R x (l y))
    (hR : ∀ x, R x x) {p u : Val} (h : PrR R (wProperty cfg r wp) p u) : PrR R (wProperty cfg r wp) p (lProperty cfg r l wp u) := by
  have hleaf : ∀ {p u}, p.contains (P "custom_type") = .ok true → Leaf (wProperty cfg r wp) p u →
      PrR R (wProperty cfg r wp) p (lProperty cfg r l wp u) := by
    intro p u hc h
    refine .inr (.inl ⟨hc, fun b p' hw => ?_⟩)
    obtain ⟨u', h1⟩ := h b p' hw
    rw [agr_property ha u b u' h1]
    exact ⟨u', idem_property hi u b u' h1⟩
  have hplain : ∀ {p u ty}, p.contains (P "custom_type") = .ok false → p.get (P "type") = .ok ty → FQ (propF R p ty) p u →
      PrR R (wProperty cfg r wp) p (lProperty cfg r l wp u) := by
    intro p u ty hc hty h
    refine .inr (.inr ⟨hc, ty, hty, ?_⟩)
    have h1 : u.get (P "type") = .ok ty := by rw [prop_field h (by decide +kernel)]; exact hty
    have h2 : u.contains (P "custom_type") = .ok false := by rw [fq_contains (propF_refl p ty) h]; exact hc
    unfold lProperty
    rw [h1]
    simp only
    split
    · exact h
    · unfold lInner
      rw [h2]
      exact step_plain ha hl hR h
  rcases h with rfl | ⟨hc, h⟩ | ⟨hc, ty, hty, h⟩
  · cases hc : p.contains (P "custom_type") with
    | error e =>
      have : lProperty cfg r l wp p = p := by
        unfold lProperty lInner
        rw [hc]
        split
        · rfl
        · split <;> rfl
      rw [this]
      exact .inl rfl
    | ok c =>
      cases c with
      | true => exact hleaf hc fun b p' hw => ⟨p', hw⟩
      | false =>
        cases hty : p.get (P "type") with
        | error e =>
          have : lProperty cfg r l wp p = p := by
            unfold lProperty
            rw [hty]
          rw [this]
          exact .inl rfl
        | ok ty => exact hplain hc hty (.inl rfl)
  · exact hleaf hc h
  · exact hplain hc hty h

end

theorem sim_body {Q : Val → Val → Prop} {f : Val → W} (hQ : ∀ x, Q x x) (h : Sim Q f) : Sim (FQ fun _ => Q) (wPropsBody f) := by
  intro x y hxy b x' hw
  rcases hxy with rfl | ⟨d, e, rfl, rfl, ha⟩
  · exact ⟨x', hw⟩
  · have he : ∀ {d e : Dict}, All2 (fun (a b : PyStr × Val) => a.1 = b.1 ∧ Q a.2 b.2) d e → ∀ {b d'}, wEntries f d = .ok (b, d') →
        ∃ e', wEntries f e = .ok (b, e') := by
      intro d e ha
      induction ha with
      | nil => intro b d' hw; exact ⟨_, hw⟩
      | @cons a a' s t h1 _ ih =>
        intro b d' hw
        obtain ⟨k1, x1⟩ := a
        obtain ⟨k2, x2⟩ := a'
        obtain ⟨h1, h2⟩ := h1
        simp only at h1 h2
        subst h1
        simp only [wEntries] at hw ⊢
        cases h0 : fstringBytes k1 with
        | error e => rw [h0] at hw; cases hw
        | ok kb =>
          rw [h0] at hw
          simp only at hw
          cases h3 : f x1 with
          | error e => rw [h3] at hw; cases hw
          | ok q =>
            obtain ⟨c, z⟩ := q
            obtain ⟨z', h4⟩ := h _ _ h2 _ _ h3
            rw [h3] at hw
            simp only at hw
            cases h5 : wEntries f s with
            | error e => rw [h5] at hw; cases hw
            | ok q =>
              obtain ⟨c', s'⟩ := q
              obtain ⟨t', h6⟩ := ih h5
              rw [h5] at hw
              cases hw
              exact ⟨_, by simp only [h4, h6]; rfl⟩
    simp only [wPropsBody] at hw ⊢
    cases h1 : wEntries f d with
    | error e => rw [h1] at hw; cases hw
    | ok q =>
      obtain ⟨c, d'⟩ := q
      obtain ⟨e', h2⟩ := he ha h1
      rw [h1] at hw
      simp only at hw
      rw [h2]
      simp only
      generalize fstringBytes (P "None") = z at hw ⊢
      cases z with
      | error e => cases hw
      | ok nb => cases hw; exact ⟨_, rfl⟩

theorem step_body {Q : Val → Val → Prop} {f : Val → W} {l : Val → Val} (hQ : ∀ x, Q x x) (h : ∀ x y, Q x y → Q x (l y)) {x y : Val}
    (hxy : FQ (fun _ => Q) x y) : FQ (fun _ => Q) x (lPropsBody f l y) := by
  have he : ∀ {d e : Dict}, All2 (fun (a b : PyStr × Val) => a.1 = b.1 ∧ Q a.2 b.2) d e →
      All2 (fun (a b : PyStr × Val) => a.1 = b.1 ∧ Q a.2 b.2) d (lEntries f l e) := by
    intro d e ha
    induction ha with
    | nil => exact .nil
    | @cons a b s t h1 hst ih =>
      obtain ⟨k2, x2⟩ := b
      obtain ⟨h1, h2⟩ := h1
      simp only [lEntries]
      split
      · exact .cons ⟨h1, h2⟩ hst
      · split
        · exact .cons ⟨h1, h _ _ h2⟩ hst
        · exact .cons ⟨h1, h _ _ h2⟩ ih
  rcases hxy with rfl | ⟨d, e, rfl, rfl, ha⟩
  · cases x
    case dict d => exact .inr ⟨_, _, rfl, rfl, he (all2_refl (fun a => ⟨rfl, hQ _⟩) d)⟩
    all_goals exact .inl rfl
  · exact .inr ⟨_, _, rfl, rfl, he ha⟩

theorem prR_refl {R : Val → Val → Prop} {f : Val → W} (x : Val) : PrR R f x x := .inl rfl

/-- Related property lists are written alike. -/
theorem rel_sim (cfg : Cfg) : ∀ n, Sim (Rel cfg n) (wProps n cfg)
  | 0 => fun _ _ _ _ _ h => by cases h
  | n + 1 => by
    intro x y h b x' hw
    rw [wProps_succ] at hw ⊢
    exact sim_body prR_refl (sim_property (rel_sim cfg n)) x y h b x' hw

/-- A save keeps them related. -/
theorem rel_step (cfg : Cfg) : ∀ n x y, Rel cfg n x y → Rel cfg n x (lProps n cfg y)
  | 0, _, _, h => h
  | n + 1, x, y, h => by
    rw [lProps_succ]
    exact step_body prR_refl (fun _ _ h => step_property (agr_props n cfg) (idem_props n cfg) (rel_step cfg n) (rel_refl cfg n) h) h

end Pal.Hist
