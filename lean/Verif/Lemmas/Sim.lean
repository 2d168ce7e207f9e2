import Verif.Spec.Types
import Verif.Model.Gvas
import Verif.Model.Json
import Verif.Props.Uuid
import Verif.Props.Float
/-
A relation between a value and its image under JSON dump and load (and, with the flag
set, a list of byte values and the bytes object), and the fact that the writers do not
distinguish related values.
-/

namespace Pal
open Spec

/-- A tuple directly under the key "value" is related to nothing but itself (a tuple is
hashable and a list is not, which matters for work types, work.py:50). -/
def NT (k : PyStr) (a b : Val) : Prop := k = P "value" → a = b ∨ ∀ l, a ≠ .tuple l

theorem nt_refl (k : PyStr) (a : Val) : NT k a a := fun _ => .inl rfl

mutual
inductive Sim (bs : Bool) : Val → Val → Prop
  | none : Sim bs .none .none
  | bool (b) : Sim bs (.bool b) (.bool b)
  | int (i) : Sim bs (.int i) (.int i)
  | float (b) : Sim bs (.float b) (.float b)
  | str (s) : Sim bs (.str s) (.str s)
  | bytes (b) : Sim bs (.bytes b) (.bytes b)
  | uuid (r) : Sim bs (.uuid r) (.uuid r)
  | uuidText (r) (h : r.length = 16) : Sim bs (.uuid r) (.str (uuidText r))
  | list {l l'} (h : SimL bs l l') : Sim bs (.list l) (.list l')
  | tuple {l l'} (h : SimL bs l l') : Sim bs (.tuple l) (.tuple l')
  | tupleList {l l'} (h : SimL bs l l') : Sim bs (.tuple l) (.list l')
  | dict {d d'} (h : SimD bs d d') : Sim bs (.dict d) (.dict d')
  | listBytes (b : Bytes) (h : bs = true) : Sim bs (.list (b.map fun x => .int x.toNat)) (.bytes b)
  | tupleBytes (b : Bytes) (h : bs = true) : Sim bs (.tuple (b.map fun x => .int x.toNat)) (.bytes b)
inductive SimL (bs : Bool) : List Val → List Val → Prop
  | nil : SimL bs [] []
  | cons {a b t t'} (h : Sim bs a b) (ht : SimL bs t t') : SimL bs (a :: t) (b :: t')
inductive SimD (bs : Bool) : Dict → Dict → Prop
  | nil : SimD bs [] []
  | cons (k : PyStr) {a b : Val} {t t' : Dict} (h : Sim bs a b) (hn : NT k a b) (ht : SimD bs t t') :
    SimD bs ((k, a) :: t) ((k, b) :: t')
end

mutual
theorem sim_refl (bs : Bool) : ∀ v, Sim bs v v
  | .none => .none
  | .bool b => .bool b
  | .int b => .int b
  | .float b => .float b
  | .str b => .str b
  | .bytes b => .bytes b
  | .uuid b => .uuid b
  | .list l => .list (simL_refl bs l)
  | .tuple l => .tuple (simL_refl bs l)
  | .dict d => .dict (simD_refl bs d)
theorem simL_refl (bs : Bool) : ∀ l, SimL bs l l
  | [] => .nil
  | a :: t => .cons (sim_refl bs a) (simL_refl bs t)
theorem simD_refl (bs : Bool) : ∀ l, SimD bs l l
  | [] => .nil
  | (k, a) :: t => .cons k (sim_refl bs a) (nt_refl k a) (simD_refl bs t)
end

theorem simL_length {bs : Bool} {l l' : List Val} (h : SimL bs l l') : l'.length = l.length := by
  induction l generalizing l' with
  | nil => cases h; rfl
  | cons a t ih => cases h with | cons h1 h2 => simp [ih h2]

theorem simD_length {bs : Bool} {l l' : Dict} (h : SimD bs l l') : l'.length = l.length := by
  induction l generalizing l' with
  | nil => cases h; rfl
  | cons a t ih => cases h with | cons k h1 hn h2 => simp [ih h2]

theorem simD_keys {bs : Bool} {l l' : Dict} (h : SimD bs l l') : l'.map Prod.fst = l.map Prod.fst := by
  induction l generalizing l' with
  | nil => cases h; rfl
  | cons a t ih => cases h with | cons k h1 hn h2 => simp [ih h2]

/-! ### dict operations -/

theorem simD_get {bs : Bool} {d d' : Dict} (h : SimD bs d d') (k : PyStr) :
    (dget? d k = Option.none ∧ dget? d' k = Option.none) ∨
    ∃ x y, dget? d k = some x ∧ dget? d' k = some y ∧ Sim bs x y ∧ NT k x y := by
  induction d generalizing d' with
  | nil => cases h; simp [dget?]
  | cons a t ih =>
    cases h with
    | cons k' h1 hn h2 =>
      simp only [dget?]
      by_cases e : k' = k
      · subst e
        simp only [if_true]
        exact .inr ⟨_, _, rfl, rfl, h1, hn⟩
      · simp only [e, if_false]
        exact ih h2

theorem simD_set {bs : Bool} {d d' : Dict} (h : SimD bs d d') (k : PyStr) {x y : Val} (hxy : Sim bs x y)
    (hnt : NT k x y) : SimD bs (dset d k x) (dset d' k y) := by
  induction d generalizing d' with
  | nil => cases h; exact .cons k hxy hnt .nil
  | cons a t ih =>
    cases h with
    | cons k' h1 hn h2 =>
      simp only [dset]
      by_cases e : k' = k
      · simp only [e, if_true]
        exact .cons k hxy hnt h2
      · simp only [e, if_false]
        exact .cons k' h1 hn (ih h2)

theorem simD_erase {bs : Bool} {d d' : Dict} (h : SimD bs d d') (k : PyStr) :
    SimD bs (derase d k) (derase d' k) := by
  induction d generalizing d' with
  | nil => cases h; exact .nil
  | cons a t ih =>
    cases h with
    | cons k' h1 hn h2 =>
      simp only [derase]
      by_cases e : k' = k
      · simp only [e, if_true]
        exact ih h2
      · simp only [e, if_false]
        exact .cons k' h1 hn (ih h2)

theorem sim_get_nt {bs : Bool} {a b : Val} (h : Sim bs a b) {k : PyStr} {x : Val} (hx : a.get k = .ok x) :
    ∃ y, b.get k = .ok y ∧ Sim bs x y ∧ NT k x y := by
  cases h <;> simp only [Val.get, reduceCtorEq] at hx
  case dict d d' h =>
    rcases simD_get h k with ⟨h1, h2⟩ | ⟨x', y, h1, h2, h3, h4⟩
    · rw [h1] at hx; cases hx
    · rw [h1] at hx
      injection hx with hx
      subst hx
      exact ⟨y, by simp [Val.get, h2], h3, h4⟩

theorem sim_get {bs : Bool} {a b : Val} (h : Sim bs a b) {k : PyStr} {x : Val} (hx : a.get k = .ok x) :
    ∃ y, b.get k = .ok y ∧ Sim bs x y :=
  let ⟨y, h1, h2, _⟩ := sim_get_nt h hx
  ⟨y, h1, h2⟩

theorem sim_getD {bs : Bool} {a b : Val} (h : Sim bs a b) {k : PyStr} {x : Val} (hx : a.getD k = .ok x) :
    ∃ y, b.getD k = .ok y ∧ Sim bs x y := by
  cases h <;> simp only [Val.getD, reduceCtorEq] at hx
  case dict d d' h =>
    rcases simD_get h k with ⟨h1, h2⟩ | ⟨x', y, h1, h2, h3, h4⟩
    · rw [h1] at hx
      injection hx with hx
      subst hx
      exact ⟨.none, by simp [Val.getD, h2], .none⟩
    · rw [h1] at hx
      injection hx with hx
      subst hx
      exact ⟨y, by simp [Val.getD, h2], h3⟩

theorem sim_path {bs : Bool} (ks : List PyStr) {a b : Val} (h : Sim bs a b) {x : Val} (hx : a.path ks = .ok x) :
    ∃ y, b.path ks = .ok y ∧ Sim bs x y := by
  induction ks generalizing a b with
  | nil =>
    simp only [Val.path] at hx ⊢
    injection hx with hx
    subst hx
    exact ⟨b, rfl, h⟩
  | cons k t ih =>
    simp only [Val.path] at hx ⊢
    cases hg : a.get k with
    | error e => rw [hg] at hx; cases hx
    | ok c =>
      rw [hg] at hx
      obtain ⟨y, h1, h2⟩ := sim_get h hg
      rw [h1]
      exact ih h2 hx

/-- The value at the end of a path, with the key it is stored under. -/
theorem sim_path_nt {bs : Bool} (ks : List PyStr) (k : PyStr) {a b : Val} (h : Sim bs a b) {x : Val}
    (hx : a.path (ks ++ [k]) = .ok x) : ∃ y, b.path (ks ++ [k]) = .ok y ∧ Sim bs x y ∧ NT k x y := by
  induction ks generalizing a b with
  | nil =>
    simp only [List.nil_append, Val.path] at hx ⊢
    cases hg : a.get k with
    | error e => rw [hg] at hx; cases hx
    | ok c =>
      rw [hg] at hx
      obtain ⟨y, h1, h2, h3⟩ := sim_get_nt h hg
      rw [h1]
      injection hx with hx
      subst hx
      exact ⟨y, rfl, h2, h3⟩
  | cons k t ih =>
    simp only [List.cons_append, Val.path] at hx ⊢
    cases hg : a.get k with
    | error e => rw [hg] at hx; cases hx
    | ok c =>
      rw [hg] at hx
      obtain ⟨y, h1, h2⟩ := sim_get h hg
      rw [h1]
      exact ih h2 hx

theorem sim_set {bs : Bool} {a b : Val} (h : Sim bs a b) {k : PyStr} {x y : Val} (hxy : Sim bs x y)
    (hnt : NT k x y) {a' : Val} (ha : a.set k x = .ok a') : ∃ b', b.set k y = .ok b' ∧ Sim bs a' b' := by
  cases h <;> simp only [Val.set, reduceCtorEq] at ha
  case dict d d' h =>
    injection ha with ha
    subst ha
    exact ⟨_, rfl, .dict (simD_set h k hxy hnt)⟩

theorem sim_del {bs : Bool} {a b : Val} (h : Sim bs a b) {k : PyStr} {a' : Val}
    (ha : a.del k = .ok a') : ∃ b', b.del k = .ok b' ∧ Sim bs a' b' := by
  cases h <;> simp only [Val.del, reduceCtorEq] at ha
  case dict d d' h =>
    rcases simD_get h k with ⟨h1, h2⟩ | ⟨x', y, h1, h2, h3, h4⟩
    · rw [h1] at ha; cases ha
    · rw [h1] at ha
      injection ha with ha
      subst ha
      exact ⟨.dict (derase d' k), by simp [Val.del, h2], .dict (simD_erase h k)⟩

/-- `f` makes no tuples. -/
def KeepsNT (f : Val → Except Err Val) : Prop := ∀ a x, f a = .ok x → (∀ l, a ≠ .tuple l) → ∀ l, x ≠ .tuple l

theorem keepsNT_upd {f : Val → Except Err Val} (hf : KeepsNT f) (ks : List PyStr) : KeepsNT (Val.upd f ks) := by
  intro a x hx ha
  cases ks with
  | nil => exact hf a x hx ha
  | cons k t =>
    simp only [Val.upd] at hx
    cases hg : a.get k with
    | error e => rw [hg] at hx; cases hx
    | ok c =>
      rw [hg] at hx
      simp only at hx
      cases hu : Val.upd f t c with
      | error e => rw [hu] at hx; cases hx
      | ok u =>
        rw [hu] at hx
        cases a <;> simp only [Val.set, reduceCtorEq] at hx
        injection hx with hx
        subst hx
        intro l hl
        cases hl

/-- Updates through a path. -/
theorem sim_upd {bs : Bool} {f : Val → Except Err Val}
    (hf : ∀ a b, Sim bs a b → ∀ x, f a = .ok x → ∃ y, f b = .ok y ∧ Sim bs x y) (hk : KeepsNT f) (ks : List PyStr)
    {a b : Val} (h : Sim bs a b) {x : Val} (hx : Val.upd f ks a = .ok x) :
    ∃ y, Val.upd f ks b = .ok y ∧ Sim bs x y := by
  induction ks generalizing a b x with
  | nil => exact hf a b h x hx
  | cons k t ih =>
    simp only [Val.upd] at hx ⊢
    cases hg : a.get k with
    | error e => rw [hg] at hx; cases hx
    | ok c =>
      rw [hg] at hx
      obtain ⟨c', h1, h2, hn⟩ := sim_get_nt h hg
      rw [h1]
      simp only at hx ⊢
      cases hu : Val.upd f t c with
      | error e => rw [hu] at hx; cases hx
      | ok u =>
        rw [hu] at hx
        obtain ⟨u', h3, h4⟩ := ih h2 hu
        rw [h3]
        refine sim_set h h4 ?_ hx
        intro e
        rcases hn e with rfl | hnt
        · rw [hu] at h3; injection h3 with h3; exact .inl h3
        · exact .inr (keepsNT_upd hk t c u hu hnt)

theorem simL_mapE {bs : Bool} {f : Val → Except Err Val}
    (hf : ∀ a b, Sim bs a b → ∀ x, f a = .ok x → ∃ y, f b = .ok y ∧ Sim bs x y)
    {l l' : List Val} (h : SimL bs l l') {x : List Val} (hx : mapE f l = .ok x) :
    ∃ y, mapE f l' = .ok y ∧ SimL bs x y := by
  induction l generalizing l' x with
  | nil =>
    cases h
    simp only [mapE] at hx ⊢
    injection hx with hx
    subst hx
    exact ⟨[], rfl, .nil⟩
  | cons a t ih =>
    cases h with
    | cons h1 h2 =>
      simp only [mapE] at hx ⊢
      cases ha : f a with
      | error e => rw [ha] at hx; cases hx
      | ok a' =>
        rw [ha] at hx
        obtain ⟨b', e1, e2⟩ := hf _ _ h1 _ ha
        rw [e1]
        simp only at hx ⊢
        cases ht : mapE f t with
        | error e => rw [ht] at hx; cases hx
        | ok t' =>
          rw [ht] at hx
          obtain ⟨u, e3, e4⟩ := ih h2 ht
          rw [e3]
          injection hx with hx
          subst hx
          exact ⟨_, rfl, .cons e2 e4⟩

theorem sim_forEach {f : Val → Except Err Val}
    (hf : ∀ a b, Sim false a b → ∀ x, f a = .ok x → ∃ y, f b = .ok y ∧ Sim false x y)
    {a b : Val} (h : Sim false a b) {x : Val} (hx : forEach f a = .ok x) :
    ∃ y, forEach f b = .ok y ∧ Sim false x y := by
  cases h <;> simp only [forEach, reduceCtorEq] at hx ⊢
  case str s =>
    cases s with
    | nil => injection hx with hx; subst hx; exact ⟨_, rfl, .str []⟩
    | cons => cases hx
  case bytes s =>
    cases s with
    | nil => injection hx with hx; subst hx; exact ⟨_, rfl, .bytes []⟩
    | cons => cases hx
  case list l l' h =>
    cases hm : mapE f l with
    | error e => rw [hm] at hx; cases hx
    | ok m =>
      rw [hm] at hx
      obtain ⟨y, e1, e2⟩ := simL_mapE hf h hm
      rw [e1]
      injection hx with hx
      subst hx
      exact ⟨_, rfl, .list e2⟩
  case tuple l l' h =>
    cases hm : mapE f l with
    | error e => rw [hm] at hx; cases hx
    | ok m =>
      rw [hm] at hx
      obtain ⟨y, e1, e2⟩ := simL_mapE hf h hm
      rw [e1]
      injection hx with hx
      subst hx
      exact ⟨_, rfl, .tuple e2⟩
  case tupleList l l' h =>
    cases hm : mapE f l with
    | error e => rw [hm] at hx; cases hx
    | ok m =>
      rw [hm] at hx
      obtain ⟨y, e1, e2⟩ := simL_mapE hf h hm
      rw [e1]
      injection hx with hx
      subst hx
      exact ⟨_, rfl, .tupleList e2⟩
  case dict d d' h =>
    cases h with
    | nil => injection hx with hx; subst hx; exact ⟨_, rfl, .dict .nil⟩
    | cons => cases hx
  case listBytes b h => cases h
  case tupleBytes b h => cases h

/-! ### strings -/

/-- A literal that cannot be the text of a UUID. -/
def notHex (t : String) : Bool := t.toList.any fun c => c.toNat ∉ P "0123456789abcdef-"

theorem uuidText_hex (raw : Bytes) (h : raw.length = 16) :
    ∀ c ∈ uuidText raw, c ∈ P "0123456789abcdef-" := by
  obtain ⟨_, a, b, c, d, e, ht, _, _, _, _, _, hx⟩ :=
    C18_uuid_text_shape raw h (uuidText raw) (C18_uuid_text raw h)
  have hs : ∀ x, x ∈ P "0123456789abcdef" → x ∈ P "0123456789abcdef-" := by
    intro x hx
    have : P "0123456789abcdef-" = P "0123456789abcdef" ++ P "-" := by decide +kernel
    rw [this]
    exact List.mem_append_left _ hx
  have hd : ∀ x, x ∈ P "-" → x ∈ P "0123456789abcdef-" := by
    intro x hx
    have : P "0123456789abcdef-" = P "0123456789abcdef" ++ P "-" := by decide +kernel
    rw [this]
    exact List.mem_append_right _ hx
  intro x hxt
  rw [ht] at hxt
  simp only [List.mem_append] at hxt hx
  rcases hxt with (((((((h | h) | h) | h) | h) | h) | h) | h) | h
  all_goals first
    | exact hd x h
    | exact hs x (hx x (by simp [h]))

theorem uuidText_ne (t : String) (ht : notHex t = true) (raw : Bytes) (h : raw.length = 16) :
    P t ≠ uuidText raw := by
  intro e
  simp only [notHex, List.any_eq_true, decide_eq_true_eq] at ht
  obtain ⟨c, hc, hn⟩ := ht
  apply hn
  apply uuidText_hex raw h
  rw [← e]
  exact List.mem_map.2 ⟨c, hc, rfl⟩

theorem uuidText_ne_nil (raw : Bytes) (h : raw.length = 16) : uuidText raw ≠ [] := by
  intro e
  have := (C18_uuid_text_shape raw h (uuidText raw) (C18_uuid_text raw h)).1
  rw [e] at this
  simp at this

theorem sim_isS {bs : Bool} {a b : Val} (h : Sim bs a b) (t : String) (ht : notHex t = true) :
    b.isS t = a.isS t := by
  cases h <;> try rfl
  case uuidText r hr =>
    simp only [Val.isS, decide_eq_false_iff_not]
    exact uuidText_ne t ht r hr

theorem sim_isAny {bs : Bool} {a b : Val} (h : Sim bs a b) (l : List String) (ht : l.all notHex = true) :
    b.isAny l = a.isAny l := by
  cases h <;> try rfl
  case uuidText r hr =>
    simp only [Val.isAny, List.any_eq_false, decide_eq_true_eq]
    intro x hx
    exact uuidText_ne x (List.all_eq_true.1 ht x hx) r hr

theorem sim_isI {bs : Bool} {a b : Val} (h : Sim bs a b) (k : Int) : b.isI k = a.isI k := by
  cases h <;> rfl

theorem sim_truthy {bs : Bool} {a b : Val} (h : Sim bs a b) : b.truthy = a.truthy := by
  cases h
  case uuidText r hr =>
    simp only [Val.truthy]
    cases e : uuidText r with
    | nil => exact absurd e (uuidText_ne_nil r hr)
    | cons => rfl
  case list h => cases h <;> rfl
  case tuple h => cases h <;> rfl
  case tupleList h => cases h <;> rfl
  case dict h => cases h <;> rfl
  case listBytes b h => cases b <;> rfl
  case tupleBytes b h => cases b <;> rfl
  all_goals rfl

theorem sim_contains {a b : Val} (h : Sim false a b) (t : String) (ht : notHex t = true) {r : Bool}
    (hr : a.contains (P t) = .ok r) : b.contains (P t) = .ok r := by
  have hl : ∀ l l' : List Val, SimL false l l' →
      (l'.any fun | .str s => s = P t | _ => false) = (l.any fun | .str s => s = P t | _ => false) := by
    intro l
    induction l with
    | nil => intro l' h; cases h; rfl
    | cons x u ih =>
      intro l' h
      cases h with
      | cons h1 h2 =>
        simp only [List.any_cons, ih _ h2]
        congr 1
        cases h1 <;> try rfl
        case uuidText r hr =>
          simp only [decide_eq_false_iff_not]
          exact fun e => uuidText_ne t ht r hr e.symm
  cases h <;> simp only [Val.contains, reduceCtorEq] at hr ⊢
  case str => exact hr
  case list h => rw [← hr]; congr 1; exact hl _ _ h
  case tuple h => rw [← hr]; congr 1; exact hl _ _ h
  case tupleList h => rw [← hr]; congr 1; exact hl _ _ h
  case dict d d' h =>
    rcases simD_get h (P t) with ⟨h1, h2⟩ | ⟨x', y, h1, h2, h3, h4⟩
    · rw [← hr, h1, h2]
    · rw [← hr, h1, h2]; rfl
  case listBytes h => cases h
  case tupleBytes h => cases h

theorem sim_len {bs : Bool} {a b : Val} (h : Sim bs a b) {n : Nat} (hn : a.len = .ok n) : b.len = .ok n := by
  cases h <;> simp only [Val.len, reduceCtorEq] at hn ⊢ <;> try exact hn
  case list h => rw [simL_length h]; exact hn
  case tuple h => rw [simL_length h]; exact hn
  case tupleList h => rw [simL_length h]; exact hn
  case dict h => rw [simD_length h]; exact hn
  case listBytes => simpa using hn
  case tupleBytes => simpa using hn

theorem simL_ints (bs : Bool) (b : Bytes) :
    SimL bs (b.map fun x => Val.int x.toNat) (b.map fun x => Val.int x.toNat) := simL_refl _ _

theorem sim_seqItems {bs : Bool} {a b : Val} (h : Sim bs a b) {l : List Val} (hl : a.seqItems = .ok l) :
    ∃ l', b.seqItems = .ok l' ∧ SimL bs l l' := by
  cases h <;> simp only [Val.seqItems, reduceCtorEq] at hl ⊢
  case str => injection hl with hl; subst hl; exact ⟨_, rfl, simL_refl _ _⟩
  case bytes => injection hl with hl; subst hl; exact ⟨_, rfl, simL_refl _ _⟩
  case list h => injection hl with hl; subst hl; exact ⟨_, rfl, h⟩
  case tuple h => injection hl with hl; subst hl; exact ⟨_, rfl, h⟩
  case tupleList h => injection hl with hl; subst hl; exact ⟨_, rfl, h⟩
  case dict h =>
    cases h with
    | nil => injection hl with hl; subst hl; exact ⟨_, rfl, .nil⟩
    | cons => cases hl
  case listBytes b h => injection hl with hl; subst hl; exact ⟨_, rfl, simL_refl _ _⟩
  case tupleBytes b h => injection hl with hl; subst hl; exact ⟨_, rfl, simL_refl _ _⟩

theorem sim_iterItems {bs : Bool} {a b : Val} (h : Sim bs a b) {l : List Val} (hl : a.iterItems = .ok l) :
    ∃ l', b.iterItems = .ok l' ∧ SimL bs l l' := by
  cases h <;> simp only [Val.iterItems, reduceCtorEq] at hl ⊢
  case str => injection hl with hl; subst hl; exact ⟨_, rfl, simL_refl _ _⟩
  case bytes => injection hl with hl; subst hl; exact ⟨_, rfl, simL_refl _ _⟩
  case list h => injection hl with hl; subst hl; exact ⟨_, rfl, h⟩
  case tuple h => injection hl with hl; subst hl; exact ⟨_, rfl, h⟩
  case tupleList h => injection hl with hl; subst hl; exact ⟨_, rfl, h⟩
  case dict d d' h =>
    injection hl with hl
    subst hl
    refine ⟨_, rfl, ?_⟩
    have e : (d'.map fun kv => Val.str kv.1) = d.map fun kv => Val.str kv.1 := by
      have := congrArg (List.map Val.str) (simD_keys h)
      rw [List.map_map, List.map_map] at this
      exact this
    rw [e]
    exact simL_refl _ _
  case listBytes b h => injection hl with hl; subst hl; exact ⟨_, rfl, simL_refl _ _⟩
  case tupleBytes b h => injection hl with hl; subst hl; exact ⟨_, rfl, simL_refl _ _⟩

/-! ### writers -/

/-- If the first succeeds, the second succeeds with the same result. -/
def Le {α : Type} (x y : Except Err α) : Prop := ∀ r, x = .ok r → y = .ok r

/-- The writer does not distinguish related values. -/
def Mono (bs : Bool) (w : Val → Except Err Bytes) : Prop := ∀ a b, Sim bs a b → Le (w a) (w b)

theorem le_refl {α : Type} (x : Except Err α) : Le x x := fun _ h => h

theorem le_error {α : Type} (e : Err) (y : Except Err α) : Le (.error e) y := fun _ h => by cases h

theorem le_wcat_nil : Le (wcat []) (wcat []) := le_refl _

theorem le_wcat_cons {x y : Except Err Bytes} {t u : List (Except Err Bytes)} (h : Le x y)
    (ht : Le (wcat t) (wcat u)) : Le (wcat (x :: t)) (wcat (y :: u)) := by
  intro r hr
  simp only [wcat] at hr ⊢
  cases hx : x with
  | error e => rw [hx] at hr; cases hr
  | ok b =>
    rw [hx] at hr
    rw [h b hx]
    simp only at hr ⊢
    cases hc : wcat t with
    | error e => rw [hc] at hr; cases hr
    | ok c =>
      rw [hc] at hr
      rw [ht c hc]
      exact hr

theorem le_wAt {bs : Bool} {w w' : Val → Except Err Bytes} (hw : ∀ a b, Sim bs a b → Le (w a) (w' b)) {a b : Val}
    (h : Sim bs a b) (ks : List String) : Le (wAt a ks w) (wAt b ks w') := by
  intro r hr
  simp only [wAt] at hr ⊢
  cases hp : a.path (ks.map P) with
  | error e => rw [hp] at hr; cases hr
  | ok x =>
    rw [hp] at hr
    obtain ⟨y, h1, h2⟩ := sim_path _ h hp
    rw [h1]
    exact hw _ _ h2 r hr

theorem sim_asInt {bs : Bool} {a b : Val} (h : Sim bs a b) : b.asInt? = a.asInt? := by
  cases h <;> rfl

theorem mono_unsigned (bs : Bool) (k : Nat) : Mono bs (wUnsigned k) := by
  intro a b h r hr
  simpa only [wUnsigned, sim_asInt h] using hr

theorem mono_signed (bs : Bool) (k : Nat) : Mono bs (wSigned k) := by
  intro a b h r hr
  simpa only [wSigned, sim_asInt h] using hr

theorem mono_i16 (bs) : Mono bs wI16 := mono_signed bs 2
theorem mono_u16 (bs) : Mono bs wU16 := mono_unsigned bs 2
theorem mono_i32 (bs) : Mono bs wI32 := mono_signed bs 4
theorem mono_u32 (bs) : Mono bs wU32 := mono_unsigned bs 4
theorem mono_i64 (bs) : Mono bs wI64 := mono_signed bs 8
theorem mono_u64 (bs) : Mono bs wU64 := mono_unsigned bs 8
theorem mono_u (bs) : Mono bs wU := mono_unsigned bs 1

theorem mono_byte (bs) : Mono bs wByte := by
  intro a b h r hr
  simpa only [wByte, byteOf, sim_asInt h] using hr

theorem mono_bool (bs) : Mono bs wBool := by
  intro a b h r hr
  simpa only [wBool, sim_truthy h] using hr

theorem mono_flag (bs) : Mono bs wFlag32 := by
  intro a b h r hr
  simpa only [wFlag32, sim_truthy h] using hr

theorem le_asF64 {bs : Bool} {a b : Val} (h : Sim bs a b) : Le (asF64 a) (asF64 b) := by
  intro r hr
  cases h <;> first | exact hr | cases hr

theorem mono_float (bs) : Mono bs wFloat := by
  intro a b h r hr
  simp only [wFloat] at hr ⊢
  cases ha : asF64 a with
  | error e => rw [ha] at hr; cases hr
  | ok x => rw [ha] at hr; rw [le_asF64 h x ha]; exact hr

theorem mono_double (bs) : Mono bs wDouble := by
  intro a b h r hr
  simp only [wDouble] at hr ⊢
  cases ha : asF64 a with
  | error e => rw [ha] at hr; cases hr
  | ok x => rw [ha] at hr; rw [le_asF64 h x ha]; exact hr

theorem mono_fstring (bs) : Mono bs wFString := by
  intro a b h r hr
  cases h <;> first | exact hr | cases hr

theorem mono_guid (bs) : Mono bs wGuid := by
  intro a b h r hr
  cases h
  case uuidText u hu =>
    simp only [wGuid] at hr ⊢
    rw [uuidFromStr_text u hu, ← hr]
  case str => exact hr
  case uuid => exact hr
  all_goals cases hr

theorem wOptGuid_some (v : Val) (h : v ≠ .none) : wOptGuid v = wcat [wBool (.bool true), wGuid v] := by
  unfold wOptGuid
  split
  · exact absurd rfl h
  · rfl

theorem mono_optGuid (bs) : Mono bs wOptGuid := by
  intro a b h
  by_cases ha : a = .none
  · subst ha; cases h; exact le_refl _
  · have hb : b ≠ .none := by rintro rfl; cases h; exact ha rfl
    rw [wOptGuid_some a ha, wOptGuid_some b hb]
    exact le_wcat_cons (le_refl _) (le_wcat_cons (mono_guid bs a b h) le_wcat_nil)

theorem mono_raw (bs) : Mono bs wRaw := by
  intro a b h r hr
  cases h <;> first | exact hr | cases hr

theorem simL_bytes {bs : Bool} {l l' : List Val} (h : SimL bs l l') {r : Bytes} (hr : mapE byteOf l = .ok r) :
    mapE byteOf l' = .ok r := by
  induction l generalizing l' r with
  | nil => cases h; exact hr
  | cons a t ih =>
    cases h with
    | cons h1 h2 =>
      simp only [mapE] at hr ⊢
      simp only [byteOf, sim_asInt h1] at hr ⊢
      cases ht : mapE byteOf t with
      | error e =>
        rw [ht] at hr
        split at hr <;> cases hr
      | ok u =>
        rw [ht] at hr
        rw [ih h2 ht]
        exact hr

theorem mapE_byteOf_ints (b : Bytes) : mapE byteOf (b.map fun x => Val.int x.toNat) = .ok b := by
  induction b with
  | nil => rfl
  | cons x t ih =>
    have : byteOf (.int x.toNat) = .ok x := by
      have := x.toNat_lt
      simp only [byteOf, Val.asInt?]
      rw [if_pos (by omega)]
      simp
    simp only [List.map_cons, mapE, this, ih]

theorem mono_bytesOf (bs) : Mono bs wBytesOf := by
  intro a b h r hr
  simp only [wBytesOf] at hr ⊢
  cases h <;> try first | exact hr | cases hr
  case list h => exact simL_bytes h hr
  case tuple h => exact simL_bytes h hr
  case tupleList h => exact simL_bytes h hr
  case dict h =>
    cases h with
    | nil => exact hr
    | cons => cases hr
  case listBytes b h => simp only [toBytes, mapE_byteOf_ints] at hr ⊢; exact hr
  case tupleBytes b h => simp only [toBytes, mapE_byteOf_ints] at hr ⊢; exact hr

theorem le_wItems {bs : Bool} {w w' : Val → Except Err Bytes} (hw : ∀ a b, Sim bs a b → Le (w a) (w' b))
    {l l' : List Val} (h : SimL bs l l') : Le (wItems w l) (wItems w' l') := by
  induction l generalizing l' with
  | nil => cases h; exact le_refl _
  | cons a t ih =>
    cases h with
    | cons h1 h2 =>
      simp only [wItems, List.map_cons]
      exact le_wcat_cons (hw _ _ h1) (ih h2)

theorem mono_tarray {bs : Bool} {w : Val → Except Err Bytes} (hw : Mono bs w) : Mono bs (wTArray w) := by
  intro a b h r hr
  simp only [wTArray] at hr ⊢
  cases hl : a.seqItems with
  | error e => rw [hl] at hr; cases hr
  | ok l =>
    rw [hl] at hr
    obtain ⟨l', h1, h2⟩ := sim_seqItems h hl
    rw [h1]
    simp only at hr ⊢
    rw [simL_length h2]
    exact le_wcat_cons (le_refl _) (le_wcat_cons (le_wItems hw h2) le_wcat_nil) r hr

theorem le_wLen {bs : Bool} {a b : Val} (h : Sim bs a b) : Le (wLen a) (wLen b) := by
  intro r hr
  simp only [wLen] at hr ⊢
  cases hl : a.len with
  | error e => rw [hl] at hr; cases hr
  | ok n => rw [hl] at hr; rw [sim_len h hl]; exact hr

theorem le_ite {α : Type} {c c' : Bool} (e : c' = c) {x y x' y' : Except Err α} (h1 : Le x x') (h2 : Le y y') :
    Le (if c = true then x else y) (if c' = true then x' else y') := by
  subst e
  cases c'
  · exact h2
  · exact h1

/-- Proves that a sequence of writer calls does not distinguish related values. -/
syntax "mono_tac" : tactic
macro_rules
  | `(tactic| mono_tac) => `(tactic| repeat' (first
    | with_reducible exact le_refl _
    | with_reducible exact le_error _ _
    | exact mono_guid _ | exact mono_fstring _ | exact mono_byte _ | exact mono_i32 _ | exact mono_u32 _
    | exact mono_i64 _ | exact mono_u64 _ | exact mono_float _ | exact mono_double _ | exact mono_flag _
    | exact mono_bool _ | exact mono_bytesOf _ | exact mono_raw _ | exact mono_u16 _ | exact mono_u _
    | assumption
    | apply mono_tarray
    | apply le_wcat_cons
    | (apply le_wAt _ (by assumption))
    | (apply le_ite (sim_isS (by assumption) _ (by decide +kernel)))
    | (apply le_ite (sim_isAny (by assumption) _ (by decide +kernel)))
    | (apply le_ite (sim_isI (by assumption) _))))

theorem mono_vectorDict (bs) : Mono bs wVectorDict := by
  intro a b h
  unfold wVectorDict
  mono_tac

theorem mono_quatDict (bs) : Mono bs wQuatDict := by
  intro a b h
  unfold wQuatDict
  mono_tac

theorem mono_ftransform (bs) : Mono bs wFTransform := by
  intro a b h
  unfold wFTransform
  have h1 := mono_quatDict bs
  have h2 := mono_vectorDict bs
  mono_tac

theorem mono_instanceId (bs) : Mono bs wInstanceId := by
  intro a b h
  unfold wInstanceId
  mono_tac

end Pal
