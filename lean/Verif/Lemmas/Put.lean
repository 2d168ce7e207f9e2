import Verif.Lemmas.Json
import Verif.Model.Codec
import Verif.Lemmas.TreeRead
import Verif.Lemmas.Rank
import Mathlib.Tactic.Choose
/-
Updates of several places inside a value, and undoing them.
-/

namespace Pal
open Spec

/-- `v[p0][p1]... = y` for a path that exists. -/
def put : List PyStr → Val → Val → Val
  | [], y, _ => y
  | k :: t, y, v => match v with
    | .dict d => match dget? d k with
      | some x => .dict (dset d k (put t y x))
      | none => .dict d
    | v => v

theorem dget_dset (d : Dict) (k : PyStr) (x : Val) : dget? (dset d k x) k = some x := by
  induction d with
  | nil => simp [dset, dget?]
  | cons a t ih =>
    obtain ⟨k', v'⟩ := a
    simp only [dset]
    split
    · rename_i e; simp [dget?, e]
    · rename_i e; simp [dget?, e, ih]

theorem dget_dset_ne (d : Dict) {k k' : PyStr} (x : Val) (h : k' ≠ k) : dget? (dset d k x) k' = dget? d k' := by
  induction d with
  | nil => simp [dset, dget?, Ne.symm h]
  | cons a t ih =>
    obtain ⟨k2, v2⟩ := a
    simp only [dset]
    split
    · rename_i e; subst e; simp [dget?, Ne.symm h]
    · simp only [dget?, ih]

theorem dset_dset (d : Dict) (k : PyStr) (x y : Val) : dset (dset d k x) k y = dset d k y := by
  induction d with
  | nil => simp [dset]
  | cons a t ih =>
    obtain ⟨k2, v2⟩ := a
    simp only [dset]
    split
    · rename_i e; simp [dset, e]
    · rename_i e; simp [dset, e, ih]

theorem dset_comm (d : Dict) {k k' : PyStr} (x y : Val) (h : k ≠ k') {a b : Val} (h1 : dget? d k = some a)
    (h2 : dget? d k' = some b) : dset (dset d k x) k' y = dset (dset d k' y) k x := by
  induction d with
  | nil => cases h1
  | cons c t ih =>
    obtain ⟨k2, v2⟩ := c
    simp only [dget?] at h1 h2
    by_cases e1 : k2 = k
    · subst e1
      simp [dset, h]
    · by_cases e2 : k2 = k'
      · subst e2; simp [dset, e1]
      · rw [if_neg e1] at h1
        rw [if_neg e2] at h2
        simp [dset, e1, e2, ih h1 h2]

theorem path_cons_ok {k : PyStr} {t : List PyStr} {v x : Val} (h : v.path (k :: t) = .ok x) :
    ∃ d y, v = .dict d ∧ dget? d k = some y ∧ y.path t = .ok x := by
  simp only [Val.path] at h
  cases v <;> simp only [Val.get, reduceCtorEq] at h
  case dict d =>
    cases hd : dget? d k with
    | none => rw [hd] at h; cases h
    | some y => rw [hd] at h; exact ⟨d, y, rfl, hd, h⟩

theorem path_dict {k : PyStr} {t : List PyStr} {d : Dict} {y : Val} (h : dget? d k = some y) :
    (Val.dict d).path (k :: t) = y.path t := by
  simp only [Val.path, Val.get, h]

theorem put_dict {k : PyStr} {t : List PyStr} {d : Dict} {y x : Val} (h : dget? d k = some x) :
    put (k :: t) y (.dict d) = .dict (dset d k (put t y x)) := by
  simp only [put, h]

/-- `p` and `q` lead to different places, neither inside the other. -/
def Div : List PyStr → List PyStr → Prop
  | [], _ => False
  | _, [] => False
  | k :: t, k' :: t' => k ≠ k' ∨ Div t t'

theorem upd_put {f : Val → Except Err Val} {p : List PyStr} {v x y : Val} (hp : v.path p = .ok x) (hf : f x = .ok y) :
    Val.upd f p v = .ok (put p y v) := by
  induction p generalizing v with
  | nil => cases hp; exact hf
  | cons k t ih =>
    obtain ⟨d, w, rfl, hd, hw⟩ := path_cons_ok hp
    simp only [Val.upd, Val.get, hd, ih hw, put, Val.set]

theorem path_put {p : List PyStr} {v x y : Val} (hp : v.path p = .ok x) : (put p y v).path p = .ok y := by
  induction p generalizing v with
  | nil => rfl
  | cons k t ih =>
    obtain ⟨d, w, rfl, hd, hw⟩ := path_cons_ok hp
    rw [put_dict hd, path_dict (dget_dset d k _)]
    exact ih hw

theorem path_put_div {p q : List PyStr} {v y : Val} (h : Div p q) : (put p y v).path q = v.path q := by
  induction p generalizing v q with
  | nil => exact absurd h id
  | cons k t ih =>
    cases q with
    | nil => exact absurd h id
    | cons k' t' =>
      simp only [Div] at h
      cases v <;> try rfl
      case dict d =>
        cases hd : dget? d k with
        | none => simp only [put, hd]
        | some x =>
          rw [put_dict hd]
          by_cases e : k = k'
          · subst e
            rw [path_dict (dget_dset d k _), path_dict hd]
            exact ih (h.resolve_left fun h => h rfl)
          · simp only [Val.path, Val.get, dget_dset_ne d _ (Ne.symm e)]

theorem put_put {p : List PyStr} {v x y : Val} : put p y (put p x v) = put p y v := by
  induction p generalizing v with
  | nil => rfl
  | cons k t ih =>
    cases v <;> try rfl
    case dict d =>
      cases hd : dget? d k with
      | none => simp only [put, hd]
      | some w => rw [put_dict hd, put_dict (dget_dset d k _), put_dict hd, dset_dset, ih]

theorem put_comm {p q : List PyStr} {v a b x y : Val} (h : Div p q) (hp : v.path p = .ok x) (hq : v.path q = .ok y) :
    put p a (put q b v) = put q b (put p a v) := by
  induction p generalizing v q with
  | nil => exact absurd h id
  | cons k t ih =>
    cases q with
    | nil => exact absurd h id
    | cons k' t' =>
      simp only [Div] at h
      obtain ⟨d, w, rfl, hd, hw⟩ := path_cons_ok hp
      obtain ⟨d', w', e, hd', hw'⟩ := path_cons_ok hq
      cases e
      by_cases e : k = k'
      · subst e
        rw [hd] at hd'
        cases hd'
        rw [put_dict hd, put_dict hd, put_dict (dget_dset d k _), put_dict (dget_dset d k _), dset_dset, dset_dset,
          ih (h.resolve_left fun h => h rfl) hw hw']
      · have h1 : dget? (dset d k' (put t' b w')) k = some w := by rw [dget_dset_ne d _ e, hd]
        have h2 : dget? (dset d k (put t a w)) k' = some w' := by rw [dget_dset_ne d _ (Ne.symm e), hd']
        rw [put_dict hd', put_dict hd, put_dict h1, put_dict h2, dset_comm d _ _ (Ne.symm e) hd' hd]

/-! ### related values -/

theorem simD_put {bs : Bool} {d e : Dict} (h : SimD bs d e) {k : PyStr} {x z : Val} (hx : dget? d k = some x)
    (hs : Sim bs x z) (hn : NT k x z) : SimD bs d (dset e k z) := by
  induction d generalizing e with
  | nil => cases hx
  | cons a t ih =>
    cases h with
    | cons k' h1 h2 h3 =>
      simp only [dget?] at hx
      simp only [dset]
      split at hx
      · rename_i e1; cases hx; rw [if_pos e1]; subst e1; exact .cons _ hs hn h3
      · rename_i e1; rw [if_neg e1]; exact .cons _ h1 h2 (ih h3 hx)

theorem sim_put {bs : Bool} {p : List PyStr} {v w x z : Val} (h : Sim bs v w) (hp : v.path p = .ok x) (hs : Sim bs x z)
    (hn : ∀ l, x ≠ .tuple l) : Sim bs v (put p z w) := by
  induction p generalizing v w with
  | nil => cases hp; exact hs
  | cons k t ih =>
    obtain ⟨d, y, rfl, hd, hy⟩ := path_cons_ok hp
    cases h with
    | dict h =>
      rename_i d'
      rcases simD_get h k with ⟨h1, _⟩ | ⟨a, b, h1, h2, h3, h4⟩
      · rw [hd] at h1; cases h1
      · rw [hd] at h1
        cases h1
        rw [put_dict h2]
        refine .dict (simD_put h hd (ih h3 hy) ?_)
        intro _
        right
        intro l hl
        subst hl
        cases t with
        | nil => cases hy; exact hn l rfl
        | cons => simp only [Val.path, Val.get] at hy; cases hy

theorem jokD_get {an : Bool} {d : Dict} (h : JOkD an d) {k : PyStr} {x : Val} (hx : dget? d k = some x) :
    JOk an x := by
  induction d with
  | nil => cases hx
  | cons a t ih =>
    obtain ⟨k', v'⟩ := a
    simp only [JOkD] at h
    simp only [dget?] at hx
    split at hx
    · cases hx; exact h.2.2.1
    · exact ih h.2.2.2 hx

theorem dset_keys {d : Dict} {k : PyStr} {x : Val} (h : dget? d k = some x) (y : Val) :
    (dset d k y).map Prod.fst = d.map Prod.fst := by
  induction d with
  | nil => cases h
  | cons a t ih =>
    obtain ⟨k', v'⟩ := a
    simp only [dget?] at h
    simp only [dset]
    split
    · rfl
    · rename_i e; rw [if_neg e] at h; simp [ih h]

theorem jokD_dset {an : Bool} {d : Dict} (h : JOkD an d) {k : PyStr} {x y : Val} (hx : dget? d k = some x)
    (hy : JOk an y) (hn : NoTuple y) : JOkD an (dset d k y) := by
  induction d with
  | nil => cases hx
  | cons a t ih =>
    obtain ⟨k', v'⟩ := a
    simp only [JOkD] at h
    simp only [dget?] at hx
    simp only [dset]
    split at hx
    · rename_i e; rw [if_pos e]; simp only [JOkD]; exact ⟨h.1, fun _ => hn, hy, h.2.2.2⟩
    · rename_i e; rw [if_neg e]; simp only [JOkD]; exact ⟨h.1, h.2.1, h.2.2.1, ih h.2.2.2 hx⟩

theorem jok_put {an : Bool} {p : List PyStr} {v x y : Val} (h : JOk an v) (hp : v.path p = .ok x)
    (hy : JOk an y) (hn : NoTuple y) : JOk an (put p y v) := by
  induction p generalizing v with
  | nil => exact hy
  | cons k t ih =>
    obtain ⟨d, w, rfl, hd, hw⟩ := path_cons_ok hp
    rw [put_dict hd]
    simp only [JOk] at h ⊢
    rw [dset_keys hd]
    refine ⟨h.1, jokD_dset h.2 hd (ih (jokD_get h.2 hd) hw) ?_⟩
    cases t with
    | nil => exact hn
    | cons k' t' =>
      obtain ⟨d', w', rfl, hd', _⟩ := path_cons_ok hw
      rw [put_dict hd']
      trivial

theorem noTuple_put {p : List PyStr} {v x y : Val} (hp : v.path p = .ok x) (hn : NoTuple y) : NoTuple (put p y v) := by
  cases p with
  | nil => exact hn
  | cons k t =>
    obtain ⟨d, w, rfl, hd, hw⟩ := path_cons_ok hp
    rw [put_dict hd]
    trivial

/-! ### undoing -/

/-- With every budget `n` above `N`, `f` turns `x` into the same `y`, which survives JSON,
and `g` turns `y` into something that is written like `x`. -/
def Undo (m : Mode) (N : Nat) (f g : Nat → Val → Except Err Val) (x : Val) : Prop :=
  ∃ y z, (∀ n, N < n → f n x = .ok y ∧ g n y = .ok z) ∧ (m.json = true → JOk m.an y) ∧ NoTuple y ∧ Sim true x z

variable {m : Mode} {N : Nat}

theorem undo_mono {N' : Nat} {f g : Nat → Val → Except Err Val} {x : Val} (h : Undo m N f g x) (hN : N ≤ N') :
    Undo m N' f g x := by
  obtain ⟨y, z, h1, h2⟩ := h
  exact ⟨y, z, fun n hn => h1 n (by omega), h2⟩

theorem undo_upd {f g : Nat → Val → Except Err Val} {p : List PyStr} {v x : Val} (hp : v.path p = .ok x)
    (h : Undo m N f g x) (hv : m.json = true → JOk m.an v) (hx : ∀ l, x ≠ .tuple l) :
    Undo m N (fun n => Val.upd (f n) p) (fun n => Val.upd (g n) p) v := by
  obtain ⟨y, z, h1, h2, h3, h4⟩ := h
  refine ⟨put p y v, put p z v, ?_, fun hj => jok_put (hv hj) hp (h2 hj) h3, noTuple_put hp h3,
    sim_put (sim_refl _ _) hp h4 hx⟩
  intro n hn
  refine ⟨upd_put hp (h1 n hn).1, ?_⟩
  simp only
  rw [upd_put (path_put hp) (h1 n hn).2, put_put]

theorem undo_forEach {f g : Nat → Val → Except Err Val} {l : List Val} (h : ∀ x ∈ l, Undo m N f g x) :
    Undo m N (fun n => forEach (f n)) (fun n => forEach (g n)) (.list l) := by
  suffices hs : ∃ ys zs, (∀ n, N < n → mapE (f n) l = .ok ys ∧ mapE (g n) ys = .ok zs) ∧
      (m.json = true → JOkL m.an ys) ∧ SimL true l zs by
    obtain ⟨ys, zs, h1, h2, h3⟩ := hs
    refine ⟨.list ys, .list zs, ?_, fun hj => by simpa only [JOk] using h2 hj, trivial, .list h3⟩
    intro n hn
    simp only [forEach, (h1 n hn).1, (h1 n hn).2, and_self]
  induction l with
  | nil => exact ⟨[], [], fun _ _ => ⟨rfl, rfl⟩, fun _ => by simp only [JOkL], .nil⟩
  | cons a t ih =>
    obtain ⟨ys, zs, h1, h2, h3⟩ := ih fun x hx => h x (by simp [hx])
    obtain ⟨y, z, g1, g2, g3, g4⟩ := h a (by simp)
    refine ⟨y :: ys, z :: zs, ?_, fun hj => by simp only [JOkL]; exact ⟨g2 hj, h2 hj⟩, .cons g4 h3⟩
    intro n hn
    simp only [mapE, (g1 n hn).1, (g1 n hn).2, (h1 n hn).1, (h1 n hn).2, and_self]

/-- `v` with new values at several places. -/
def putAll : List (List PyStr × Val) → Val → Val
  | [], v => v
  | (p, y) :: t, v => put p y (putAll t v)

/-- Every path of the list exists in `v`. -/
def Valid (v : Val) (l : List (List PyStr × Val)) : Prop := ∀ py ∈ l, ∃ x, v.path py.1 = .ok x

theorem path_putAll_div {l : List (List PyStr × Val)} {v : Val} {q : List PyStr} (h : ∀ py ∈ l, Div py.1 q) :
    (putAll l v).path q = v.path q := by
  induction l with
  | nil => rfl
  | cons a t ih =>
    obtain ⟨p, y⟩ := a
    simp only [putAll]
    rw [path_put_div (h (p, y) (by simp)), ih fun py hpy => h py (by simp [hpy])]

theorem div_symm {p q : List PyStr} (h : Div p q) : Div q p := by
  induction p generalizing q with
  | nil => exact absurd h id
  | cons k t ih =>
    cases q with
    | nil => exact absurd h id
    | cons k' t' =>
      simp only [Div] at h ⊢
      rcases h with h | h
      · exact .inl (Ne.symm h)
      · exact .inr (ih h)

/-- Replacing the value at one of the places, the first `i` being done. -/
theorem put_putAll {l r : List (List PyStr × Val)} {p : List PyStr} {y y' : Val} {v : Val}
    (hl : ∀ py ∈ l, Div py.1 p) (hr : ∀ py ∈ r, Div py.1 p) (hv : Valid v (l ++ (p, y) :: r))
    (hd : (l ++ (p, y) :: r).Pairwise fun a b => Div a.1 b.1) :
    put p y' (putAll (l ++ (p, y) :: r) v) = putAll (l ++ (p, y') :: r) v := by
  induction l with
  | nil => simp only [List.nil_append, putAll, put_put]
  | cons a t ih =>
    obtain ⟨q, b⟩ := a
    simp only [List.cons_append, putAll]
    have hv' : Valid v (t ++ (p, y) :: r) := fun py h => hv py (by simp only [List.cons_append, List.mem_cons]; exact .inr h)
    rw [List.cons_append, List.pairwise_cons] at hd
    have hq : (putAll (t ++ (p, y) :: r) v).path q = v.path q :=
      path_putAll_div fun py h => div_symm (hd.1 py h)
    obtain ⟨x, hx⟩ := hv (q, b) (by simp)
    have hp : ∃ x, (putAll (t ++ (p, y) :: r) v).path p = .ok x := by
      clear ih hq
      induction t with
      | nil =>
        simp only [List.nil_append, putAll]
        refine ⟨y, path_put (x := ?_) ?_⟩
        · exact (hv' (p, y) (by simp)).choose
        · rw [path_putAll_div hr]; exact (hv' (p, y) (by simp)).choose_spec
      | cons c t ih2 =>
        obtain ⟨q', b'⟩ := c
        simp only [List.cons_append, putAll]
        rw [path_put_div (hl (q', b') (by simp))]
        refine ih2 (fun py h => hl py ?_) ?_ ?_ ?_
        · simp only [List.mem_cons] at h ⊢
          rcases h with h | h
          · exact .inl h
          · exact .inr (.inr h)
        · intro py h
          refine hv py ?_
          simp only [List.cons_append, List.mem_cons] at h ⊢
          rcases h with h | h
          · exact .inl h
          · exact .inr (.inr h)
        · refine ⟨fun py h => hd.1 py ?_, ?_⟩
          · simp only [List.cons_append, List.mem_cons]; exact .inr h
          · have := hd.2; rw [List.cons_append, List.pairwise_cons] at this; exact this.2
        · intro py h; exact hv' py (by simp only [List.cons_append, List.mem_cons]; exact .inr h)
    obtain ⟨w, hw⟩ := hp
    rw [put_comm (div_symm (hl (q, b) (by simp))) hw (hq.trans hx),
      ih (fun py h => hl py (by simp [h])) hv' hd.2]

theorem put_same {p : List PyStr} {v x : Val} (hp : v.path p = .ok x) : put p x v = v := by
  induction p generalizing v with
  | nil => cases hp; rfl
  | cons k t ih =>
    obtain ⟨d, w, rfl, hd, hw⟩ := path_cons_ok hp
    rw [put_dict hd, ih hw, dset_same d k w hd]

theorem putAll_same {l : List (List PyStr × Val)} {v : Val} (h : ∀ py ∈ l, v.path py.1 = .ok py.2) : putAll l v = v := by
  induction l with
  | nil => rfl
  | cons a t ih =>
    obtain ⟨p, y⟩ := a
    simp only [putAll]
    rw [ih fun py hpy => h py (by simp [hpy]), put_same (h (p, y) (by simp))]

theorem path_putAll_mid {l r : List (List PyStr × Val)} {p : List PyStr} {y x : Val} {v : Val}
    (hl : ∀ py ∈ l, Div py.1 p) (hr : ∀ py ∈ r, Div py.1 p) (hv : v.path p = .ok x) :
    (putAll (l ++ (p, y) :: r) v).path p = .ok y := by
  induction l with
  | nil =>
    simp only [List.nil_append, putAll]
    exact path_put ((path_putAll_div hr).trans hv)
  | cons a t ih =>
    obtain ⟨q, b⟩ := a
    simp only [List.cons_append, putAll]
    rw [path_put_div (hl (q, b) (by simp))]
    exact ih fun py h => hl py (by simp [h])

/-- One step of a sequence of updates: `F` changes the value at `p` from `x` to `y`. -/
structure Step where
  p : List PyStr
  x : Val
  y : Val
  F : Val → Except Err Val

/-- `s` agrees with `v` away from the paths. -/
def Agrees (ps : List (List PyStr)) (v s : Val) : Prop := ∀ q, (∀ p ∈ ps, Div p q) → s.path q = v.path q

theorem agrees_putAll {ps : List (List PyStr)} {v : Val} {l : List (List PyStr × Val)} (h : ∀ py ∈ l, py.1 ∈ ps) :
    Agrees ps v (putAll l v) := fun _ hq => path_putAll_div fun py hpy => hq _ (h py hpy)

theorem run_updAll {ps : List (List PyStr)} {v : Val} (T : List Step) (l : List (List PyStr × Val))
    (h : ∀ t ∈ T, ∀ s, Agrees ps v s → s.path t.p = .ok t.x → t.F s = .ok (put t.p t.y s))
    (hd : (l.map Prod.fst ++ T.map Step.p).Pairwise Div) (hl : ∀ py ∈ l, py.1 ∈ ps) (hT : ∀ t ∈ T, t.p ∈ ps)
    (hv : ∀ p ∈ ps, ∃ x, v.path p = .ok x) :
    updAll (T.map Step.F) (putAll (l ++ T.map fun t => (t.p, t.x)) v) =
      .ok (putAll (l ++ T.map fun t => (t.p, t.y)) v) := by
  induction T generalizing l with
  | nil => rfl
  | cons t T ih =>
    have hd' := hd
    rw [List.pairwise_append, List.map_cons, List.pairwise_cons] at hd'
    obtain ⟨d1, ⟨d2, d3⟩, d4⟩ := hd'
    have e1 : ∀ py ∈ l, Div py.1 t.p := fun py hpy => d4 py.1 (List.mem_map_of_mem hpy) t.p (by simp)
    have e2 : ∀ py ∈ T.map (fun t => (t.p, t.x)), Div py.1 t.p := by
      intro py hpy
      obtain ⟨t', ht', rfl⟩ := List.mem_map.1 hpy
      exact div_symm (d2 _ (List.mem_map_of_mem ht'))
    obtain ⟨w, hw⟩ := hv t.p (hT t (by simp))
    have hx : (putAll (l ++ (t.p, t.x) :: T.map fun t => (t.p, t.x)) v).path t.p = .ok t.x :=
      path_putAll_mid e1 e2 hw
    have hag : Agrees ps v (putAll (l ++ (t.p, t.x) :: T.map fun t => (t.p, t.x)) v) := by
      refine agrees_putAll fun py hpy => ?_
      rw [List.mem_append, List.mem_cons] at hpy
      rcases hpy with hpy | rfl | hpy
      · exact hl py hpy
      · exact hT t (by simp)
      · obtain ⟨t', ht', rfl⟩ := List.mem_map.1 hpy
        exact hT t' (by simp [ht'])
    simp only [List.map_cons, updAll]
    rw [h t (by simp) _ hag hx]
    have hval : Valid v (l ++ (t.p, t.x) :: T.map fun t => (t.p, t.x)) := by
      intro py hpy
      rw [List.mem_append, List.mem_cons] at hpy
      rcases hpy with hpy | rfl | hpy
      · exact hv _ (hl py hpy)
      · exact ⟨w, hw⟩
      · obtain ⟨t', ht', rfl⟩ := List.mem_map.1 hpy
        exact hv _ (hT t' (by simp [ht']))
    have hpw : (l ++ (t.p, t.x) :: T.map fun t => (t.p, t.x)).Pairwise fun a b => Div a.1 b.1 := by
      rw [← List.pairwise_map (f := Prod.fst)]
      simpa [List.map_map, Function.comp_def] using hd
    simp only
    rw [put_putAll e1 e2 hval hpw]
    have := ih (l ++ [(t.p, t.y)]) (fun t' ht' => h t' (by simp [ht'])) (by simpa using hd)
      (by
        intro py hpy
        rw [List.mem_append, List.mem_singleton] at hpy
        rcases hpy with hpy | rfl
        · exact hl py hpy
        · exact hT t (by simp))
      (fun t' ht' => hT t' (by simp [ht']))
    simpa using this

theorem sim_putAll {bs : Bool} {v : Val} {l : List (List PyStr × Val)}
    (h : ∀ py ∈ l, ∃ x, v.path py.1 = .ok x ∧ Sim bs x py.2 ∧ ∀ t, x ≠ .tuple t) : Sim bs v (putAll l v) := by
  induction l with
  | nil => exact sim_refl _ _
  | cons a t ih =>
    obtain ⟨p, y⟩ := a
    obtain ⟨x, h1, h2, h3⟩ := h (p, y) (by simp)
    simp only [putAll]
    exact sim_put (ih fun py hpy => h py (by simp [hpy])) h1 h2 h3

theorem jok_putAll {an : Bool} {v : Val} {l : List (List PyStr × Val)} (hv : JOk an v)
    (h : ∀ py ∈ l, (∃ x, v.path py.1 = .ok x) ∧ JOk an py.2 ∧ NoTuple py.2)
    (hd : l.Pairwise fun a b => Div a.1 b.1) : JOk an (putAll l v) := by
  induction l with
  | nil => exact hv
  | cons a t ih =>
    obtain ⟨p, y⟩ := a
    rw [List.pairwise_cons] at hd
    obtain ⟨⟨x, h1⟩, h2, h3⟩ := h (p, y) (by simp)
    simp only [putAll]
    refine jok_put (ih (fun py hpy => h py (by simp [hpy])) hd.2) (x := x) ?_ h2 h3
    rw [path_putAll_div fun py hpy => div_symm (hd.1 py hpy)]
    exact h1

theorem noTuple_put' {p : List PyStr} {v y : Val} (hv : NoTuple v) (hn : NoTuple y) : NoTuple (put p y v) := by
  cases p with
  | nil => exact hn
  | cons k t =>
    cases v <;> try exact hv
    case dict d =>
      simp only [put]
      split <;> trivial

theorem noTuple_putAll {v : Val} {l : List (List PyStr × Val)} (hv : NoTuple v) (h : ∀ py ∈ l, NoTuple py.2) :
    NoTuple (putAll l v) := by
  induction l with
  | nil => exact hv
  | cons a t ih => exact noTuple_put' (ih fun py hpy => h py (by simp [hpy])) (h a (by simp))

/-- One of several updates: its place, the value there, and the two functions. -/
structure Upd where
  p : List PyStr
  x : Val
  f : Nat → Val → Except Err Val
  g : Nat → Val → Except Err Val
  F : Nat → Val → Except Err Val
  G : Nat → Val → Except Err Val

theorem undo_updAll {v : Val} (us : List Upd)
    (hd : (us.map Upd.p).Pairwise Div) (hv : m.json = true → JOk m.an v) (hnt : NoTuple v)
    (h : ∀ u ∈ us, v.path u.p = .ok u.x ∧ (∀ l, u.x ≠ .tuple l) ∧ Undo m N u.f u.g u.x ∧
      ∀ s, Agrees (us.map Upd.p) v s → ∀ n, (s.path u.p = .ok u.x → u.F n s = Val.upd (u.f n) u.p s) ∧
        u.G n s = Val.upd (u.g n) u.p s) :
    Undo m N (fun n => updAll (us.map fun u => u.F n)) (fun n => updAll (us.map fun u => u.G n)) v := by
  have hch : ∀ u : Upd, ∃ yz : Val × Val, u ∈ us → (∀ n, N < n → u.f n u.x = .ok yz.1 ∧ u.g n yz.1 = .ok yz.2) ∧
      (m.json = true → JOk m.an yz.1) ∧ NoTuple yz.1 ∧ Sim true u.x yz.2 := by
    intro u
    by_cases hu : u ∈ us
    · obtain ⟨y, z, h1⟩ := (h u hu).2.2.1
      exact ⟨(y, z), fun _ => h1⟩
    · exact ⟨(.none, .none), fun h => absurd h hu⟩
  choose c hc using hch
  have hpaths : ∀ p ∈ us.map Upd.p, ∃ x, v.path p = .ok x := by
    intro p hp
    obtain ⟨u, hu, rfl⟩ := List.mem_map.1 hp
    exact ⟨_, (h u hu).1⟩
  have hpw : ∀ f : Upd → Val, (us.map fun u => (u.p, f u)).Pairwise fun a b => Div a.1 b.1 := by
    intro f
    rw [← List.pairwise_map (f := Prod.fst)]
    simpa [List.map_map, Function.comp_def] using hd
  refine ⟨putAll (us.map fun u => (u.p, (c u).1)) v, putAll (us.map fun u => (u.p, (c u).2)) v, ?_, ?_, ?_, ?_⟩
  · intro n hn
    constructor
    · have := run_updAll (ps := us.map Upd.p) (v := v) (us.map fun u => ⟨u.p, u.x, (c u).1, u.F n⟩) []
        (by
          intro t ht s hs hx
          obtain ⟨u, hu, rfl⟩ := List.mem_map.1 ht
          simp only at hx ⊢
          rw [((h u hu).2.2.2 s hs n).1 hx]
          exact upd_put hx ((hc u hu).1 n hn).1)
        (by simpa [List.map_map, Function.comp_def] using hd) (by simp)
        (by
          intro t ht
          obtain ⟨u, hu, rfl⟩ := List.mem_map.1 ht
          exact List.mem_map_of_mem hu) hpaths
      simp only [List.map_map, Function.comp_def, List.nil_append] at this
      rwa [putAll_same] at this
      intro py hpy
      obtain ⟨u, hu, rfl⟩ := List.mem_map.1 hpy
      exact (h u hu).1
    · have := run_updAll (ps := us.map Upd.p) (v := v) (us.map fun u => ⟨u.p, (c u).1, (c u).2, u.G n⟩) []
        (by
          intro t ht s hs hx
          obtain ⟨u, hu, rfl⟩ := List.mem_map.1 ht
          simp only at hx ⊢
          rw [((h u hu).2.2.2 s hs n).2]
          exact upd_put hx ((hc u hu).1 n hn).2)
        (by simpa [List.map_map, Function.comp_def] using hd) (by simp)
        (by
          intro t ht
          obtain ⟨u, hu, rfl⟩ := List.mem_map.1 ht
          exact List.mem_map_of_mem hu) hpaths
      simpa only [List.map_map, Function.comp_def, List.nil_append] using this
  · intro hj
    refine jok_putAll (hv hj) ?_ (hpw _)
    intro py hpy
    obtain ⟨u, hu, rfl⟩ := List.mem_map.1 hpy
    exact ⟨⟨_, (h u hu).1⟩, (hc u hu).2.1 hj, (hc u hu).2.2.1⟩
  · refine noTuple_putAll hnt ?_
    intro py hpy
    obtain ⟨u, hu, rfl⟩ := List.mem_map.1 hpy
    exact (hc u hu).2.2.1
  · refine sim_putAll ?_
    intro py hpy
    obtain ⟨u, hu, rfl⟩ := List.mem_map.1 hpy
    exact ⟨_, (h u hu).1, (hc u hu).2.2.2, (h u hu).2.1⟩

theorem updAll_one (f : Val → Except Err Val) (v : Val) : updAll [f] v = f v := by
  simp only [updAll]
  cases f v <;> rfl

/-- `undo_updAll` for a single place. -/
theorem undo_upd1 {v x : Val} {p : List PyStr} {f g F G : Nat → Val → Except Err Val} (hp : v.path p = .ok x)
    (hx : ∀ l, x ≠ .tuple l) (h : Undo m N f g x) (hv : m.json = true → JOk m.an v) (hnt : NoTuple v)
    (hF : ∀ s, Agrees [p] v s → ∀ n, (s.path p = .ok x → F n s = Val.upd (f n) p s) ∧ G n s = Val.upd (g n) p s) :
    Undo m N F G v := by
  have := undo_updAll (m := m) (N := N) (v := v) [⟨p, x, f, g, F, G⟩] (by simp) hv hnt (by
    intro u hu
    rw [List.mem_singleton] at hu
    subst hu
    exact ⟨hp, hx, h, hF⟩)
  have e : ∀ f : Val → Except Err Val, updAll [f] = f := fun f => funext (updAll_one f)
  simpa only [List.map_cons, List.map_nil, e] using this

theorem upd_congr_at {f f' : Val → Except Err Val} {p : List PyStr} {s x : Val} (hp : s.path p = .ok x) (h : f x = f' x) :
    Val.upd f p s = Val.upd f' p s := by
  induction p generalizing s with
  | nil => cases hp; exact h
  | cons k t ih =>
    obtain ⟨d, w, rfl, hd, hw⟩ := path_cons_ok hp
    simp only [Val.upd, Val.get, hd, ih hw]

theorem path_append {p q : List PyStr} {v x : Val} (h : v.path p = .ok x) : v.path (p ++ q) = x.path q := by
  induction p generalizing v with
  | nil => cases h; rfl
  | cons k t ih =>
    obtain ⟨d, w, rfl, hd, hw⟩ := path_cons_ok h
    rw [List.cons_append, path_dict hd]
    exact ih hw

theorem jok_path {an : Bool} {p : List PyStr} {v x : Val} (h : JOk an v) (hp : v.path p = .ok x) : JOk an x := by
  induction p generalizing v with
  | nil => cases hp; exact h
  | cons k t ih =>
    obtain ⟨d, w, rfl, hd, hw⟩ := path_cons_ok hp
    simp only [JOk] at h
    exact ih (jokD_get h.2 hd) hw

end Pal
