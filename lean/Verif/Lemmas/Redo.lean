import Verif.Lemmas.Nice
import Verif.Lemmas.BoundProps
import Verif.Lemmas.StableBlobs4
/-
Decoding a custom property and encoding the result, for any accepted bytes: whatever the
encoder makes of it reads back as the same, or cannot be written.
-/

namespace Pal
open Spec

/-- `y` is what `f` made of `x`.  If `g` turns it into `z` (for some budget of the writer),
then `z` is `x` except for places where an encoder puts something.  If those places hold
bytes then `z` is written like a `x1` that is `x` except for bytes that are not longer,
and `f` turns `x1` into `y` again. -/
def Redo (f : Val → Except Err Val) (g : Nat → Val → Except Err Val) (x y : Val) : Prop :=
  ∀ n z, g n y = .ok z → Filled True x z ∧ (Filled False x z → ∃ x1, Alt x x1 ∧ f x1 = .ok y ∧ Sim true x1 z ∧
    ∀ M n', Lim M x1 → M < n' → g n' y = .ok z)

theorem redo_never {f : Val → Except Err Val} {g : Nat → Val → Except Err Val} {x y : Val}
    (h : ∀ n z, g n y ≠ .ok z) : Redo f g x y := fun n z hz => absurd hz (h n z)

theorem alt_not_tuple {x y : Val} (h : Alt x y) (hx : ∀ l, x ≠ .tuple l) : ∀ l, y ≠ .tuple l := by
  rintro l rfl
  cases x <;> simp only [Alt, reduceCtorEq, exists_const, false_and] at h
  exact hx _ rfl

/-! ### updates -/

theorem upd_inv {f : Val → Except Err Val} {p : List PyStr} {v w : Val} (h : Val.upd f p v = .ok w) :
    ∃ x y, v.path p = .ok x ∧ f x = .ok y ∧ w = put p y v := by
  induction p generalizing v w with
  | nil => exact ⟨v, w, rfl, h, rfl⟩
  | cons k t ih =>
    simp only [Val.upd] at h
    cases hg : v.get k with
    | error e => rw [hg] at h; cases h
    | ok x0 =>
      rw [hg] at h
      simp only at h
      cases hu : Val.upd f t x0 with
      | error e => rw [hu] at h; cases h
      | ok x' =>
        rw [hu] at h
        simp only at h
        obtain ⟨x, y, h1, h2, rfl⟩ := ih hu
        refine ⟨x, y, by simp only [Val.path, hg, h1], h2, ?_⟩
        cases v <;> simp only [Val.set, reduceCtorEq, Except.ok.injEq] at h
        case dict d =>
          subst h
          simp only [Val.get] at hg
          cases hd : dget? d k with
          | none => rw [hd] at hg; cases hg
          | some x1 => rw [hd] at hg; cases hg; rw [put_dict hd]

theorem putAll_put {l : List (List PyStr × Val)} {p : List PyStr} {u x y : Val} (h : ∀ py ∈ l, Div py.1 p)
    (hv : Valid u l) (hp : u.path p = .ok x) (hd : l.Pairwise fun a b => Div a.1 b.1) :
    putAll l (put p y u) = put p y (putAll l u) := by
  induction l with
  | nil => rfl
  | cons a t ih =>
    obtain ⟨q, b⟩ := a
    rw [List.pairwise_cons] at hd
    simp only [putAll]
    rw [ih (fun py hpy => h py (by simp [hpy])) (fun py hpy => hv py (by simp [hpy])) hd.2]
    obtain ⟨w, hw⟩ := hv (q, b) (by simp)
    refine put_comm (h (q, b) (by simp)) (x := w) (y := x) ?_ ?_
    · rw [path_putAll_div fun py hpy => div_symm (hd.1 py hpy)]; exact hw
    · rw [path_putAll_div fun py hpy => h py (by simp [hpy])]; exact hp

/-- Overwriting all the places. -/
theorem putAll_putAll {α : Type} (l : List α) (p : α → List PyStr) (y z : α → Val) {v : Val}
    (hd : (l.map p).Pairwise Div) (hv : ∀ a ∈ l, ∃ x, v.path (p a) = .ok x) :
    putAll (l.map fun a => (p a, z a)) (putAll (l.map fun a => (p a, y a)) v) = putAll (l.map fun a => (p a, z a)) v := by
  have hpw : ∀ (l : List α) (f : α → Val), (l.map p).Pairwise Div →
      (l.map fun u => (p u, f u)).Pairwise fun a b => Div a.1 b.1 := by
    intro l f hd
    rw [← List.pairwise_map (f := Prod.fst)]
    simpa [List.map_map, Function.comp_def] using hd
  induction l with
  | nil => rfl
  | cons a t ih =>
    simp only [List.map_cons, putAll]
    rw [List.map_cons, List.pairwise_cons] at hd
    have hdiv : ∀ (f : α → Val), ∀ py ∈ t.map (fun a => (p a, f a)), Div py.1 (p a) := by
      intro f py hpy
      obtain ⟨b, hb, rfl⟩ := List.mem_map.1 hpy
      exact div_symm (hd.1 _ (List.mem_map_of_mem hb))
    obtain ⟨x, hx⟩ := hv a (by simp)
    rw [putAll_put (x := x) (hdiv z) ?_ ?_ (hpw t z hd.2), ih hd.2 fun b hb => hv b (by simp [hb]), put_put]
    · intro py hpy
      obtain ⟨b, hb, rfl⟩ := List.mem_map.1 hpy
      have := hpw t y hd.2
      clear ih
      have hm := List.mem_iff_append.1 hb
      obtain ⟨s1, s2, rfl⟩ := hm
      obtain ⟨w, hw⟩ := hv b (by simp)
      rw [List.map_append, List.map_cons] at this ⊢
      rw [List.pairwise_append, List.pairwise_cons] at this
      exact ⟨_, path_putAll_mid (fun c hc => this.2.2 c hc _ List.mem_cons_self) (fun c hc => div_symm (this.2.1.1 c hc)) hw⟩
    · rw [path_putAll_div (hdiv y)]; exact hx

theorem path_putAll_mem {α : Type} (l : List α) (p : α → List PyStr) (y : α → Val) {v x : Val}
    (hd : (l.map p).Pairwise Div) {a : α} (ha : a ∈ l) (hv : v.path (p a) = .ok x) :
    (putAll (l.map fun a => (p a, y a)) v).path (p a) = .ok (y a) := by
  have hpw : (l.map fun u => (p u, y u)).Pairwise fun a b => Div a.1 b.1 := by
    rw [← List.pairwise_map (f := Prod.fst)]
    simpa [List.map_map, Function.comp_def] using hd
  obtain ⟨s1, s2, rfl⟩ := List.mem_iff_append.1 ha
  rw [List.map_append, List.map_cons] at hpw ⊢
  rw [List.pairwise_append, List.pairwise_cons] at hpw
  exact path_putAll_mid (fun c hc => hpw.2.2 c hc _ List.mem_cons_self) (fun c hc => div_symm (hpw.2.1.1 c hc)) hv

/-- One of several updates: its place, and what it does there. -/
structure Upd1 where
  p : List PyStr
  f : Val → Except Err Val
  F : Val → Except Err Val

/-- The result of the update. -/
def resAt (f : Val → Except Err Val) (p : List PyStr) (v : Val) : Val :=
  match v.path p with
  | .ok x => match f x with
    | .ok y => y
    | .error _ => .none
  | .error _ => .none

theorem resAt_eq {f : Val → Except Err Val} {p : List PyStr} {v x y : Val} (h1 : v.path p = .ok x) (h2 : f x = .ok y) :
    resAt f p v = y := by
  simp only [resAt, h1, h2]

/-- What a sequence of updates has done, if it succeeded. -/
theorem updAll_inv {ps : List (List PyStr)} {v : Val} (T : List Upd1) (l : List (List PyStr × Val)) {w : Val}
    (h : ∀ t ∈ T, ∀ s, Agrees ps v s → t.F s = Val.upd t.f t.p s)
    (hd : (l.map Prod.fst ++ T.map Upd1.p).Pairwise Div) (hl : ∀ py ∈ l, py.1 ∈ ps) (hT : ∀ t ∈ T, t.p ∈ ps)
    (hw : updAll (T.map Upd1.F) (putAll l v) = .ok w) :
    (∀ t ∈ T, ∃ x, v.path t.p = .ok x ∧ t.f x = .ok (resAt t.f t.p v)) ∧
      w = putAll (T.reverse.map (fun t => (t.p, resAt t.f t.p v)) ++ l) v := by
  induction T generalizing l with
  | nil => cases hw; exact ⟨by simp, rfl⟩
  | cons t T ih =>
    have hd' := hd
    rw [List.pairwise_append, List.map_cons, List.pairwise_cons] at hd'
    obtain ⟨d1, ⟨d2, d3⟩, d4⟩ := hd'
    have e1 : ∀ py ∈ l, Div py.1 t.p := fun py hpy => d4 py.1 (List.mem_map_of_mem hpy) t.p (by simp)
    simp only [List.map_cons, updAll] at hw
    rw [h t (by simp) _ (agrees_putAll hl)] at hw
    cases hu : Val.upd t.f t.p (putAll l v) with
    | error e => rw [hu] at hw; cases hw
    | ok s =>
      rw [hu] at hw
      obtain ⟨x, y, h1, h2, rfl⟩ := upd_inv hu
      rw [path_putAll_div e1] at h1
      have ey := resAt_eq h1 h2
      obtain ⟨g2, g3⟩ := ih ((t.p, y) :: l) (fun t' ht' => h t' (by simp [ht'])) (by
          simp only [List.map_cons, List.cons_append, List.pairwise_cons]
          refine ⟨?_, ?_⟩
          · intro q hq
            rw [List.mem_append] at hq
            rcases hq with hq | hq
            · obtain ⟨py, hpy, rfl⟩ := List.mem_map.1 hq
              exact div_symm (e1 py hpy)
            · exact d2 q hq
          · rw [List.pairwise_append]
            exact ⟨d1, d3, fun a ha b hb => d4 a ha b (by simp [hb])⟩)
        (by simp only [List.forall_mem_cons]; exact ⟨hT t (by simp), hl⟩) (fun t' ht' => hT t' (by simp [ht'])) hw
      refine ⟨?_, ?_⟩
      · simp only [List.forall_mem_cons]
        exact ⟨⟨x, h1, by rw [ey]; exact h2⟩, g2⟩
      · rw [g3]; simp [ey]

theorem updAll_run {ps : List (List PyStr)} {v : Val} (T : List Upd1) (l : List (List PyStr × Val)) (y : Upd1 → Val)
    (h : ∀ t ∈ T, ∀ s, Agrees ps v s → t.F s = Val.upd t.f t.p s)
    (hd : (l.map Prod.fst ++ T.map Upd1.p).Pairwise Div) (hl : ∀ py ∈ l, py.1 ∈ ps) (hT : ∀ t ∈ T, t.p ∈ ps)
    (hr : ∀ t ∈ T, ∃ x, v.path t.p = .ok x ∧ t.f x = .ok (y t)) :
    updAll (T.map Upd1.F) (putAll l v) = .ok (putAll (T.reverse.map (fun t => (t.p, y t)) ++ l) v) := by
  induction T generalizing l with
  | nil => rfl
  | cons t T ih =>
    have hd' := hd
    rw [List.pairwise_append, List.map_cons, List.pairwise_cons] at hd'
    obtain ⟨d1, ⟨d2, d3⟩, d4⟩ := hd'
    have e1 : ∀ py ∈ l, Div py.1 t.p := fun py hpy => d4 py.1 (List.mem_map_of_mem hpy) t.p (by simp)
    simp only [List.forall_mem_cons] at hr
    obtain ⟨⟨x, h1, h2⟩, hr⟩ := hr
    simp only [List.map_cons, updAll]
    rw [h t (by simp) _ (agrees_putAll hl), upd_put ((path_putAll_div e1).trans h1) h2]
    have := ih ((t.p, y t) :: l) (fun t' ht' => h t' (by simp [ht'])) (by
        simp only [List.map_cons, List.cons_append, List.pairwise_cons]
        refine ⟨?_, ?_⟩
        · intro q hq
          rw [List.mem_append] at hq
          rcases hq with hq | hq
          · obtain ⟨py, hpy, rfl⟩ := List.mem_map.1 hq
            exact div_symm (e1 py hpy)
          · exact d2 q hq
        · rw [List.pairwise_append]
          exact ⟨d1, d3, fun a ha b hb => d4 a ha b (by simp [hb])⟩)
      (by simp only [List.forall_mem_cons]; exact ⟨hT t (by simp), hl⟩) (fun t' ht' => hT t' (by simp [ht'])) hr
    simp only [putAll] at this ⊢
    rw [this]; simp

/-- One of several updates and its encoder. -/
structure Upd2 where
  p : List PyStr
  f : Val → Except Err Val
  g : Nat → Val → Except Err Val
  F : Val → Except Err Val
  G : Nat → Val → Except Err Val

theorem pairwise_rev {α : Type} {l : List α} {p : α → List PyStr} (h : (l.map p).Pairwise Div) :
    (l.reverse.map p).Pairwise Div := by
  rw [List.map_reverse, List.pairwise_reverse]
  exact h.imp div_symm

theorem redo_updAll {v s : Val} (us : List Upd2) (hd : (us.map Upd2.p).Pairwise Div)
    (hF : ∀ u ∈ us, ∀ t, Agrees (us.map Upd2.p) v t → u.F t = Val.upd u.f u.p t ∧ ∀ n, u.G n t = Val.upd (u.g n) u.p t)
    (hr : ∀ u ∈ us, ∀ x y, v.path u.p = .ok x → u.f x = .ok y → (∀ l, x ≠ .tuple l) ∧ Redo u.f u.g x y)
    (h : updAll (us.map Upd2.F) v = .ok s) :
    Redo (updAll (us.map Upd2.F)) (fun n => updAll (us.map fun u => u.G n)) v s := by
  have hag : ∀ (y : Upd2 → Val) t, Agrees (us.map Upd2.p) (putAll (us.reverse.map fun u => (u.p, y u)) v) t →
      Agrees (us.map Upd2.p) v t := by
    intro y t ht q hq
    rw [ht q hq]
    refine path_putAll_div fun py hpy => ?_
    obtain ⟨u, hu, rfl⟩ := List.mem_map.1 hpy
    exact hq _ (List.mem_map_of_mem (List.mem_reverse.1 hu))
  -- the decoder
  obtain ⟨a1, a2⟩ := updAll_inv (ps := us.map Upd2.p) (v := v) (w := s) (us.map fun u => ⟨u.p, u.f, u.F⟩) []
    (by
      intro t ht s hs
      obtain ⟨u, hu, rfl⟩ := List.mem_map.1 ht
      exact (hF u hu s hs).1)
    (by simpa [List.map_map, Function.comp_def] using hd) (by simp)
    (by
      intro t ht
      obtain ⟨u, hu, rfl⟩ := List.mem_map.1 ht
      exact List.mem_map_of_mem hu)
    (by simpa [List.map_map, Function.comp_def, putAll] using h)
  rw [List.append_nil, ← List.map_reverse, List.map_map] at a2
  simp only [Function.comp_def] at a2
  have b1 : ∀ u ∈ us, ∃ x, v.path u.p = .ok x ∧ u.f x = .ok (resAt u.f u.p v) := fun u hu => a1 _ (List.mem_map_of_mem hu)
  clear a1
  generalize hY : (fun u : Upd2 => resAt u.f u.p v) = Y
  have hY' : ∀ u : Upd2, resAt u.f u.p v = Y u := fun u => congrFun hY u
  simp only [hY'] at a2 b1
  have hv : ∀ u ∈ us.reverse, ∃ x, v.path u.p = .ok x := fun u hu => by
    obtain ⟨x, hx, _⟩ := b1 u (List.mem_reverse.1 hu); exact ⟨x, hx⟩
  have hdr : (us.reverse.map Upd2.p).Pairwise Div := pairwise_rev hd
  have hs : ∀ u ∈ us, s.path u.p = .ok (Y u) := by
    intro u hu
    obtain ⟨x, hx, _⟩ := b1 u hu
    have e : s = putAll (us.reverse.map fun u => (u.p, Y u)) v := a2
    rw [e]
    exact path_putAll_mem us.reverse Upd2.p Y hdr (List.mem_reverse.2 hu) hx
  intro n z hz
  -- the encoder
  obtain ⟨c1, c2⟩ := updAll_inv (ps := us.map Upd2.p) (v := s) (w := z) (us.map fun u => ⟨u.p, u.g n, u.G n⟩) []
    (by
      intro t ht r hrr
      obtain ⟨u, hu, rfl⟩ := List.mem_map.1 ht
      rw [a2] at hrr
      exact (hF u hu r (hag Y r hrr)).2 n)
    (by simpa [List.map_map, Function.comp_def] using hd) (by simp)
    (by
      intro t ht
      obtain ⟨u, hu, rfl⟩ := List.mem_map.1 ht
      exact List.mem_map_of_mem hu)
    (by simpa [List.map_map, Function.comp_def, putAll] using hz)
  rw [List.append_nil, ← List.map_reverse, List.map_map] at c2
  simp only [Function.comp_def] at c2
  have d1 : ∀ u ∈ us, ∃ x, s.path u.p = .ok x ∧ u.g n x = .ok (resAt (u.g n) u.p s) := fun u hu =>
    c1 _ (List.mem_map_of_mem hu)
  clear c1
  generalize hZ : (fun u : Upd2 => resAt (u.g n) u.p s) = Z
  have hZ' : ∀ u : Upd2, resAt (u.g n) u.p s = Z u := fun u => congrFun hZ u
  simp only [hZ'] at c2 d1
  have d2 : ∀ u ∈ us, u.g n (Y u) = .ok (Z u) := by
    intro u hu
    obtain ⟨x, hx, hg⟩ := d1 u hu
    rw [hs u hu] at hx
    cases hx
    exact hg
  have hz' : z = putAll (us.reverse.map fun u => (u.p, Z u)) v := by
    rw [c2, a2]
    exact putAll_putAll us.reverse Upd2.p Y Z hdr hv
  have hred : ∀ u ∈ us, ∀ x, v.path u.p = .ok x → (∀ l, x ≠ .tuple l) ∧ Filled True x (Z u) ∧ (Filled False x (Z u) →
      ∃ x1, Alt x x1 ∧ u.f x1 = .ok (Y u) ∧ Sim true x1 (Z u) ∧ ∀ M n', Lim M x1 → M < n' → u.g n' (Y u) = .ok (Z u)) := by
    intro u hu x hx
    obtain ⟨x', hx', hf⟩ := b1 u hu
    rw [hx] at hx'
    cases hx'
    obtain ⟨r1, r2⟩ := hr u hu x _ hx hf
    exact ⟨r1, r2 n _ (d2 u hu)⟩
  refine ⟨?_, fun he => ?_⟩
  · rw [hz']
    refine ext_putAll fun py hpy => ?_
    obtain ⟨u, hu, rfl⟩ := List.mem_map.1 hpy
    obtain ⟨x, hx⟩ := hv u hu
    exact ⟨x, hx, (hred u (List.mem_reverse.1 hu) x hx).2.1⟩
  · have hch : ∀ u : Upd2, ∃ x1 : Val, u ∈ us → ∃ x, v.path u.p = .ok x ∧ (∀ l, x1 ≠ .tuple l) ∧ Alt x x1 ∧ u.f x1 = .ok (Y u) ∧
        Sim true x1 (Z u) ∧ ∀ M n', Lim M x1 → M < n' → u.g n' (Y u) = .ok (Z u) := by
      intro u
      by_cases hu : u ∈ us
      · obtain ⟨x, hx⟩ := hv u (List.mem_reverse.2 hu)
        obtain ⟨r1, r2, r3⟩ := hred u hu x hx
        have hzp : z.path u.p = .ok (Z u) := by
          rw [hz']
          exact path_putAll_mem us.reverse Upd2.p Z hdr (List.mem_reverse.2 hu) hx
        obtain ⟨x1, q1, q2⟩ := r3 (ext_path' he hx hzp r2)
        exact ⟨x1, fun _ => ⟨x, hx, alt_not_tuple q1 r1, q1, q2⟩⟩
      · exact ⟨.none, fun h => absurd h hu⟩
    choose X1 hX using hch
    refine ⟨putAll (us.reverse.map fun u => (u.p, X1 u)) v, ?_, ?_, ?_, ?_⟩
    · refine alt_putAll fun py hpy => ?_
      obtain ⟨u, hu, rfl⟩ := List.mem_map.1 hpy
      obtain ⟨x, hx, -, q1, -⟩ := hX u (List.mem_reverse.1 hu)
      exact ⟨x, hx, q1⟩
    · have := updAll_run (ps := us.map Upd2.p) (v := putAll (us.reverse.map fun u => (u.p, X1 u)) v)
        (us.map fun u => ⟨u.p, u.f, u.F⟩) [] (fun t => resAt t.f t.p v)
        (by
          intro t ht r hrr
          obtain ⟨u, hu, rfl⟩ := List.mem_map.1 ht
          exact (hF u hu r (hag X1 r hrr)).1)
        (by simpa [List.map_map, Function.comp_def] using hd) (by simp)
        (by
          intro t ht
          obtain ⟨u, hu, rfl⟩ := List.mem_map.1 ht
          exact List.mem_map_of_mem hu)
        (by
          intro t ht
          obtain ⟨u, hu, rfl⟩ := List.mem_map.1 ht
          obtain ⟨x, hx, -, q1, q2, -⟩ := hX u hu
          refine ⟨X1 u, path_putAll_mem us.reverse Upd2.p X1 hdr (List.mem_reverse.2 hu) hx, ?_⟩
          simp only
          rw [q2, hY'])
      rw [List.append_nil, ← List.map_reverse, List.map_map, List.map_map] at this
      simp only [Function.comp_def, putAll, hY'] at this
      rw [this, putAll_putAll us.reverse Upd2.p X1 Y hdr hv, a2]
    · have e := putAll_putAll us.reverse Upd2.p X1 Z hdr hv
      rw [hz', ← e]
      refine sim_putAll fun py hpy => ?_
      obtain ⟨u, hu, rfl⟩ := List.mem_map.1 hpy
      obtain ⟨x, hx, q0, -, -, q3, -⟩ := hX u (List.mem_reverse.1 hu)
      exact ⟨X1 u, path_putAll_mem us.reverse Upd2.p X1 hdr hu hx, q3, q0⟩
    · intro M n' hM hn
      have := updAll_run (ps := us.map Upd2.p) (v := s) (us.map fun u => ⟨u.p, u.g n', u.G n'⟩) []
        (fun t => resAt t.f t.p s)
        (by
          intro t ht r hrr
          obtain ⟨u, hu, rfl⟩ := List.mem_map.1 ht
          rw [a2] at hrr
          exact (hF u hu r (hag Y r hrr)).2 n')
        (by simpa [List.map_map, Function.comp_def] using hd) (by simp)
        (by
          intro t ht
          obtain ⟨u, hu, rfl⟩ := List.mem_map.1 ht
          exact List.mem_map_of_mem hu)
        (by
          intro t ht
          obtain ⟨u, hu, rfl⟩ := List.mem_map.1 ht
          obtain ⟨x, hx, -, -, -, -, q4⟩ := hX u hu
          have e := q4 M n' (path_lim _ hM (path_putAll_mem us.reverse Upd2.p X1 hdr (List.mem_reverse.2 hu) hx)) hn
          refine ⟨Y u, hs u hu, ?_⟩
          simp only
          rw [resAt_eq (hs u hu) e]
          exact e)
      rw [List.append_nil, ← List.map_reverse, List.map_map, List.map_map] at this
      simp only [Function.comp_def, putAll] at this
      simp only
      rw [this, c2]
      congr 2
      refine List.map_congr_left fun u hu => ?_
      have hu := List.mem_reverse.1 hu
      obtain ⟨x, hx, -, -, -, -, q4⟩ := hX u hu
      have e := q4 M n' (path_lim _ hM (path_putAll_mem us.reverse Upd2.p X1 hdr (List.mem_reverse.2 hu) hx)) hn
      rw [resAt_eq (hs u hu) e]

/-- One update. -/
theorem redo_upd1 {v s : Val} {p : List PyStr} {f F : Val → Except Err Val} {g G : Nat → Val → Except Err Val}
    (hF : ∀ t, Agrees [p] v t → F t = Val.upd f p t ∧ ∀ n, G n t = Val.upd (g n) p t)
    (hr : ∀ x y, v.path p = .ok x → f x = .ok y → (∀ l, x ≠ .tuple l) ∧ Redo f g x y)
    (h : F v = .ok s) : Redo F G v s := by
  have e1 : ∀ (F : Val → Except Err Val) v, updAll [F] v = F v := fun F v => by
    simp only [updAll]; cases F v <;> rfl
  have := redo_updAll (v := v) (s := s) [⟨p, f, g, F, G⟩] (by simp) (by simpa using hF) (by simpa using hr)
    (by simpa only [List.map_cons, List.map_nil, e1] using h)
  simpa only [List.map_cons, List.map_nil, e1, Redo] using this

/-! ### lists -/

theorem mapE_cons_ok {f : Val → Except Err Val} {a : Val} {t l' : List Val} (h : mapE f (a :: t) = .ok l') :
    ∃ b t', f a = .ok b ∧ mapE f t = .ok t' ∧ l' = b :: t' := by
  simp only [mapE] at h
  cases h1 : f a with
  | error e => rw [h1] at h; cases h
  | ok b =>
    rw [h1] at h
    cases h2 : mapE f t with
    | error e => rw [h2] at h; cases h
    | ok t' => rw [h2] at h; cases h; exact ⟨b, t', rfl, rfl, rfl⟩

theorem redo_mapE {f : Val → Except Err Val} {g : Nat → Val → Except Err Val} {l ys : List Val}
    (hr : ∀ x ∈ l, ∀ y, f x = .ok y → Redo f g x y) (h : mapE f l = .ok ys) {n : Nat} {zs : List Val}
    (hz : mapE (g n) ys = .ok zs) : ExtL True l zs ∧ (ExtL False l zs → ∃ l1, AltL l l1 ∧ mapE f l1 = .ok ys ∧ SimL true l1 zs ∧
      ∀ M n', LimL M l1 → M < n' → mapE (g n') ys = .ok zs) := by
  induction l generalizing ys zs with
  | nil =>
    cases h
    cases hz
    refine ⟨by simp only [ExtL], fun _ => ⟨[], by simp only [AltL], rfl, .nil, fun _ _ _ _ => rfl⟩⟩
  | cons a t ih =>
    obtain ⟨y, ys', h1, h2, rfl⟩ := mapE_cons_ok h
    obtain ⟨z, zs', g1, g2, rfl⟩ := mapE_cons_ok hz
    obtain ⟨i1, i2⟩ := ih (fun x hx => hr x (by simp [hx])) h2 g2
    obtain ⟨r1, r2⟩ := hr a (by simp) y h1 n z g1
    simp only [ExtL]
    refine ⟨⟨z, zs', rfl, r1, i1⟩, ?_⟩
    rintro ⟨_, _, e, s1, s2⟩
    cases e
    obtain ⟨l1, j1, j2, j3, j4⟩ := i2 s2
    obtain ⟨x1, q1, q2, q3, q4⟩ := r2 s1
    refine ⟨x1 :: l1, by simp only [AltL]; exact ⟨x1, l1, rfl, q1, j1⟩, by simp only [mapE, q2, j2], .cons q3 j3, ?_⟩
    intro M n' hM hn
    simp only [LimL] at hM
    simp only [mapE, q4 M n' hM.1 hn, j4 M n' hM.2 hn]

theorem redo_keep {f : Val → Except Err Val} {g : Nat → Val → Except Err Val} {x : Val} (hf : f x = .ok x)
    (hg : ∀ n, g n x = .ok x) : Redo f g x x := by
  intro n z hz
  rw [hg] at hz
  cases hz
  exact ⟨ext_refl _ _, fun _ => ⟨x, alt_refl _, hf, sim_refl _ _, fun _ n' _ _ => hg n'⟩⟩

theorem redo_forEach {f : Val → Except Err Val} {g : Nat → Val → Except Err Val} {x y : Val}
    (hr : ∀ l, x = .list l → ∀ a ∈ l, ∀ b, f a = .ok b → Redo f g a b) (hx : ∀ l, x = .tuple l → l = [])
    (h : forEach f x = .ok y) : Redo (forEach f) (fun n => forEach (g n)) x y := by
  unfold forEach at h
  split at h
  · rename_i l
    cases hm : mapE f l with
    | error e => rw [hm] at h; cases h
    | ok ys =>
      rw [hm] at h
      cases h
      intro n z hz
      simp only [forEach] at hz
      cases hm' : mapE (g n) ys with
      | error e => rw [hm'] at hz; cases hz
      | ok zs =>
        rw [hm'] at hz
        cases hz
        obtain ⟨r1, r2⟩ := redo_mapE (hr l rfl) hm hm'
        simp only [Filled]
        refine ⟨⟨zs, rfl, r1⟩, ?_⟩
        rintro ⟨_, e, s1⟩
        cases e
        obtain ⟨l1, q1, q2, q3, q4⟩ := r2 s1
        refine ⟨.list l1, alt_list q1, by simp only [forEach, q2], .list q3, fun M n' hM hn => ?_⟩
        simp only [Lim] at hM
        simp only [forEach, q4 M n' hM hn]
  · rename_i l
    have := hx l rfl
    subst this
    cases h
    exact redo_keep rfl fun _ => rfl
  · cases h
    exact redo_keep rfl fun _ => rfl
  · cases h
    exact redo_keep rfl fun _ => rfl
  · cases h
    exact redo_keep rfl fun _ => rfl
  · cases h

/-! ### blobs -/

/-- What is asked of the decoder of a blob and its encoder. -/
structure LeafOk (h : Val → Except Err Val) (G : Nat → Val → Except Err Val) : Prop where
  raw : ∀ (b : Bytes) y n z, b.length < 2 ^ 32 → h (vBytesT b) = .ok y → G n y = .ok z →
    ∃ b1 : Bytes, b1.length ≤ b.length ∧ h (vBytesT b1) = .ok y ∧ Sim true (rawVal b1) z ∧
      ∀ n', b1.length < n' → G n' y = .ok z
  empty : ∀ y n z, h (.list []) = .ok y → G n y = .ok z →
    Sim true (vDict [("values", .list [])]) z ∧ ∀ n', 0 < n' → G n' y = .ok z
  str : ∀ s l y, h (.list (.str s :: l)) ≠ .ok y
  uuid : ∀ s l y, h (.list (.uuid s :: l)) ≠ .ok y
  dict : ∀ a d y, h (.dict (a :: d)) ≠ .ok y
  lacks : ∀ b y n z, h b = .ok y → G n y = .ok z → ∃ e, z.get (P "prop_name") = .error e

theorem blob_lim {b : Bytes} {M : Nat} (h : Lim M (rawVal b)) : b.length ≤ M := by
  have := (get_lim h (rawVal_get b)).2 rfl
  exact this b (toBytes_T b)

theorem redo_leaf {h : Val → Except Err Val} {G : Nat → Val → Except Err Val} (H : LeafOk h G) {u y : Val} (hu : Nice u)
    (hy : onValues h u = .ok y) : Redo (onValues h) G u y := by
  have hy0 := hy
  unfold onValues at hy
  cases hg : u.get (P "values") with
  | error e => rw [hg] at hy; cases hy
  | ok b =>
    rw [hg] at hy
    simp only at hy
    cases u <;> simp only [Val.get, reduceCtorEq] at hg
    case dict d =>
      cases hd : dget? d (P "values") with
      | none => rw [hd] at hg; cases hg
      | some b' =>
        rw [hd] at hg
        cases hg
        intro n z hz
        simp only [Nice] at hu
        rcases hu with ⟨bs, hb, hlt⟩ | ⟨hl, -⟩
        · rw [hb] at hy0 ⊢
          rw [onValues_raw] at hy0
          refine ⟨ext_raw _ _ _, fun _ => ?_⟩
          obtain ⟨b1, r1, r2, r3, r4⟩ := H.raw bs y n z hlt hy0 hz
          exact ⟨rawVal b1, alt_raw r1, by rw [onValues_raw]; exact r2, r3, fun M n' hM hn => r4 n' (by have := blob_lim hM; omega)⟩
        · rcases hl b hd with ⟨l, rfl, ⟨e, he⟩ | ⟨s, hs⟩⟩ | ⟨a, e, rfl⟩
          · cases l with
            | nil =>
              have e' : Val.dict d = vDict [("values", .list [])] := by rw [e]; rfl
              rw [e'] at hy0 ⊢
              obtain ⟨r1, r2⟩ := H.empty y n z hy hz
              exact ⟨ext_empty _ _, fun _ => ⟨_, alt_refl _, hy0, r1, fun _ n' _ hn => r2 n' (by omega)⟩⟩
            | cons a t =>
              rcases he a (by simp) with ⟨s, rfl⟩ | ⟨s, rfl⟩
              · exact absurd hy (H.str _ _ _)
              · exact absurd hy (H.uuid _ _ _)
          · obtain ⟨e, he⟩ := H.lacks _ y n z hy hz
            simp only [Filled]
            refine ⟨.inl (.inr ⟨trivial, ⟨s, hs⟩, e, he⟩), ?_⟩
            rintro ((⟨v, h1, h2⟩ | ⟨h1, -⟩) | ⟨d', rfl, h1⟩)
            · rw [h1] at hs
              simp only [dget?] at hs
              rw [if_neg (by rw [P_inj]; decide)] at hs
              cases hs
            · exact h1.elim
            · obtain ⟨y', h2, -⟩ := extD_get h1 hs
              simp only [Val.get, h2, reduceCtorEq] at he
          · exact absurd hy (H.dict _ _ _)

end Pal
