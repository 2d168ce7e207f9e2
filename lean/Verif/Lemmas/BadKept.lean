import Verif.Lemmas.OneNaN
/-
A document with a non-empty array of GUIDs still has it after a trip through JSON.
-/

namespace Pal.NaNs
open Pal Spec

/-- What a relation of documents must keep for the writer's refusals to be kept. -/
structure Keeps (R : Val → Val → Prop) : Prop where
  get : ∀ {a b k x}, R a b → a.get k = .ok x → ∃ y, b.get k = .ok y ∧ R x y
  str : ∀ {s b}, R (.str s) b → b = .str s
  isList : ∀ {a b}, R a b → IsList a → IsList b
  dict : ∀ {d b}, R (.dict d) b → ∃ e, b = .dict e ∧ (∀ k p, (k, p) ∈ d → ∃ q, (k, q) ∈ e ∧ R p q) ∧
    ∀ k, dget? d k = none → dget? e k = none
  list : ∀ {l b}, R (.list l) b → ∃ l', b = .list l' ∧ (∀ x ∈ l, ∃ y ∈ l', R x y) ∧ (l' = [] → l = [])
  tuple : ∀ {l b}, R (.tuple l) b → ∃ l', (b = .tuple l' ∨ b = .list l') ∧ ∀ x ∈ l, ∃ y ∈ l', R x y

variable {R : Val → Val → Prop}

theorem Keeps.gets (K : Keeps R) {a b : Val} {k s : PyStr} (h : R a b) (hx : a.get k = .ok (.str s)) : b.get k = .ok (.str s) := by
  obtain ⟨y, h1, h2⟩ := K.get h hx
  rw [h1, K.str h2]

theorem get_isDict {a x : Val} {k : PyStr} (h : a.get k = .ok x) : ∃ d, a = .dict d := by
  cases a <;> simp only [Val.get, reduceCtorEq] at h
  exact ⟨_, rfl⟩

theorem Keeps.undecoded (K : Keeps R) {a b x : Val} {k : PyStr} (h : R a b) (hx : a.get k = .ok x) (hu : Undecoded a) : Undecoded b := by
  obtain ⟨d, rfl⟩ := get_isDict hx
  obtain ⟨e, rfl, -, h2⟩ := K.dict h
  simp only [Undecoded, Val.contains, Except.ok.injEq, Option.isSome_eq_false_iff, Option.isNone_iff_eq_none] at hu ⊢
  exact h2 _ hu

theorem Keeps.iter (K : Keeps R) {a b e : Val} {d : Dict} {l : List Val} (h : R a b) (hl : a.iterItems = .ok l) (he : e ∈ l)
    (hd : e = .dict d) : ∃ l', b.iterItems = .ok l' ∧ ∃ e' ∈ l', R e e' := by
  subst hd
  cases a <;> simp only [Val.iterItems, reduceCtorEq, Except.ok.injEq] at hl <;> subst hl
  case list l =>
    obtain ⟨l', rfl, h2, -⟩ := K.list h
    exact ⟨l', rfl, h2 _ he⟩
  case tuple l =>
    obtain ⟨l', rfl | rfl, h2⟩ := K.tuple h <;> exact ⟨l', rfl, h2 _ he⟩
  all_goals
    obtain ⟨_, _, h⟩ := List.mem_map.1 he
    cases h

theorem Keeps.seq (K : Keeps R) {a b e : Val} {d : Dict} {l : List Val} (h : R a b) (hl : a.seqItems = .ok l) (he : e ∈ l)
    (hd : e = .dict d) : ∃ l', b.seqItems = .ok l' ∧ ∃ e' ∈ l', R e e' := by
  subst hd
  unfold Val.seqItems at hl
  split at hl <;> cases hl
  case h_1 l =>
    obtain ⟨l', rfl, h2, -⟩ := K.list h
    exact ⟨l', rfl, h2 _ he⟩
  case h_2 l =>
    obtain ⟨l', rfl | rfl, h2⟩ := K.tuple h <;> exact ⟨l', rfl, h2 _ he⟩
  case h_5 => cases he
  all_goals
    obtain ⟨_, _, h⟩ := List.mem_map.1 he
    cases h

theorem inside_isDict {v w : Val} {d : Dict} (h : Pal.Inside v w) (hw : w = .dict d) : ∃ e, v = .dict e := by
  cases h <;> first | exact ⟨_, rfl⟩ | exact ⟨_, hw⟩

theorem Keeps.inside (K : Keeps R) {v w : Val} (h : Pal.Inside v w) : ∀ {v'}, R v v' → ∀ {d}, w = .dict d →
    ∃ w', Pal.Inside v' w' ∧ R w w' := by
  induction h with
  | here v => intro v' h _ _; exact ⟨v', .here _, h⟩
  | @struct ps k p st v w hm hu h1 h2 h3 h4 hi ih =>
    intro v' h d hd
    obtain ⟨e, rfl, h5, -⟩ := K.dict h
    obtain ⟨q, hq, hr⟩ := h5 _ _ hm
    obtain ⟨st', g2, r2⟩ := K.get hr h2
    obtain ⟨x', g4, r4⟩ := K.get hr h4
    obtain ⟨w', i, r⟩ := ih r4 hd
    exact ⟨w', .struct hq (K.undecoded hr h1 hu) (K.gets hr h1) g2 (K.isList r2 h3) g4 i, r⟩
  | @array ps k p a st xs x w l hm hu h1 h2 h3 h4 h5 h6 h7 h8 hi ih =>
    intro v' h d hd
    obtain ⟨e, rfl, h9, -⟩ := K.dict h
    obtain ⟨q, hq, hr⟩ := h9 _ _ hm
    obtain ⟨a', g3, r3⟩ := K.get hr h3
    obtain ⟨st', g4, r4⟩ := K.get r3 h4
    obtain ⟨xs', g6, r6⟩ := K.get r3 h6
    obtain ⟨dx, hdx⟩ := inside_isDict hi hd
    obtain ⟨l', g7, x', g8, r8⟩ := K.seq r6 h7 h8 hdx
    obtain ⟨w', i, r⟩ := ih r8 hd
    exact ⟨w', .array hq (K.undecoded hr h1 hu) (K.gets hr h1) (K.gets hr h2) g3 g4 (K.isList r4 h5) g6 g7 g8 i, r⟩
  | @key ps k p st a e x w l hm hu h1 h2 h3 h4 h5 h6 h7 h8 hi ih =>
    intro v' h d hd
    obtain ⟨e', rfl, h9, -⟩ := K.dict h
    obtain ⟨q, hq, hr⟩ := h9 _ _ hm
    obtain ⟨st', g3, r3⟩ := K.get hr h3
    obtain ⟨a', g5, r5⟩ := K.get hr h5
    obtain ⟨de, hde⟩ := get_isDict h8
    obtain ⟨l', g6, e2, g7, r7⟩ := K.iter r5 h6 h7 hde
    obtain ⟨x', g8, r8⟩ := K.get r7 h8
    obtain ⟨w', i, r⟩ := ih r8 hd
    exact ⟨w', .key hq (K.undecoded hr h1 hu) (K.gets hr h1) (K.gets hr h2) g3 (K.isList r3 h4) g5 g6 g7 g8 i, r⟩
  | @value ps k p st a e x w l hm hu h1 h2 h3 h4 h5 h6 h7 h8 hi ih =>
    intro v' h d hd
    obtain ⟨e', rfl, h9, -⟩ := K.dict h
    obtain ⟨q, hq, hr⟩ := h9 _ _ hm
    obtain ⟨st', g3, r3⟩ := K.get hr h3
    obtain ⟨a', g5, r5⟩ := K.get hr h5
    obtain ⟨de, hde⟩ := get_isDict h8
    obtain ⟨l', g6, e2, g7, r7⟩ := K.iter r5 h6 h7 hde
    obtain ⟨x', g8, r8⟩ := K.get r7 h8
    obtain ⟨w', i, r⟩ := ih r8 hd
    exact ⟨w', .value hq (K.undecoded hr h1 hu) (K.gets hr h1) (K.gets hr h2) g3 (K.isList r3 h4) g5 g6 g7 g8 i, r⟩

theorem Keeps.bad (K : Keeps R) {v v' : Val} (h : BadList GuidArray v) (hr : R v v') : BadList GuidArray v' := by
  obtain ⟨d, k, p, hi, hm, hu, h1, h2, a, x, l, h3, h4⟩ := h
  obtain ⟨w', i, r⟩ := K.inside hi hr rfl
  obtain ⟨e, rfl, h5, -⟩ := K.dict r
  obtain ⟨q, hq, hr⟩ := h5 _ _ hm
  obtain ⟨a', g3, r3⟩ := K.get hr h3
  obtain ⟨xs, g4, r4⟩ := K.get r3 h4
  obtain ⟨l', rfl, g5, g6⟩ := K.list r4
  cases l' with
  | nil => cases g6 rfl
  | cons y t => exact ⟨e, k, q, i, hq, K.undecoded hr h1 hu, K.gets hr h1, K.gets hr h2, a', y, t, g3, g4⟩

/-! ### standard NaNs -/

theorem oneNaND_mem {k : PyStr} {p : Val} : ∀ {d : Dict}, (k, p) ∈ d → (k, oneNaN p) ∈ oneNaND d
  | (k', v) :: t, h => by
    simp only [oneNaND]
    rcases List.mem_cons.1 h with h | h
    · cases h; exact List.mem_cons_self
    · exact List.mem_cons_of_mem _ (oneNaND_mem h)

theorem oneNaNL_mem {p : Val} : ∀ {d : List Val}, p ∈ d → oneNaN p ∈ oneNaNL d
  | v :: t, h => by
    simp only [oneNaNL]
    rcases List.mem_cons.1 h with h | h
    · cases h; exact List.mem_cons_self
    · exact List.mem_cons_of_mem _ (oneNaNL_mem h)

theorem oneNaND_get (k : PyStr) : ∀ d : Dict, dget? (oneNaND d) k = (dget? d k).map oneNaN
  | [] => by simp only [oneNaND, dget?, Option.map_none]
  | (k', v) :: t => by
    simp only [oneNaND, dget?]
    split
    · rfl
    · exact oneNaND_get k t

theorem keeps_one : Keeps fun v w => w = oneNaN v where
  get := by
    rintro a b k x rfl h
    obtain ⟨d, rfl⟩ := get_isDict h
    simp only [oneNaN, Val.get, oneNaND_get] at h ⊢
    cases hd : dget? d k with
    | none => rw [hd] at h; cases h
    | some y => rw [hd] at h; cases h; exact ⟨_, rfl, rfl⟩
  str := by rintro s b rfl; simp only [oneNaN]
  isList := by
    rintro a b rfl h t ht e
    cases a <;> simp only [oneNaN, reduceCtorEq, Val.str.injEq] at e
    subst e
    exact h t ht rfl
  dict := by
    rintro d b rfl
    simp only [oneNaN]
    refine ⟨_, rfl, fun k p h => ⟨_, oneNaND_mem h, rfl⟩, fun k h => ?_⟩
    rw [oneNaND_get, h, Option.map_none]
  list := by
    rintro l b rfl
    simp only [oneNaN]
    refine ⟨_, rfl, fun x h => ⟨_, oneNaNL_mem h, rfl⟩, fun h => ?_⟩
    cases l with
    | nil => rfl
    | cons a t => simp only [oneNaNL] at h; cases h
  tuple := by
    rintro l b rfl
    simp only [oneNaN]
    exact ⟨_, .inl rfl, fun x h => ⟨_, oneNaNL_mem h, rfl⟩⟩

/-! ### JSON -/

theorem simD_mem {d e : Dict} (h : Pal.SimD false d e) : ∀ k p, (k, p) ∈ d → ∃ q, (k, q) ∈ e ∧ Pal.Sim false p q := by
  induction d generalizing e with
  | nil => intro _ _ h; cases h
  | cons a t ih =>
    cases h with
    | @cons k a b t t' h _ ht =>
      intro k' p hm
      rcases List.mem_cons.1 hm with hm | hm
      · cases hm; exact ⟨b, List.mem_cons_self, h⟩
      · obtain ⟨q, h1, h2⟩ := ih ht _ _ hm
        exact ⟨q, List.mem_cons_of_mem _ h1, h2⟩

theorem simL_mem {d e : List Val} (h : Pal.SimL false d e) : ∀ p ∈ d, ∃ q ∈ e, Pal.Sim false p q := by
  induction d generalizing e with
  | nil => intro _ h; cases h
  | cons a t ih =>
    cases h with
    | @cons a b t t' h ht =>
      intro p hm
      rcases List.mem_cons.1 hm with hm | hm
      · cases hm; exact ⟨b, List.mem_cons_self, h⟩
      · obtain ⟨q, h1, h2⟩ := ih ht _ hm
        exact ⟨q, List.mem_cons_of_mem _ h1, h2⟩

theorem keeps_sim : Keeps (Pal.Sim false) where
  get := fun h hx => sim_get h hx
  str := by intro s b h; cases h; rfl
  isList := by
    intro a b h hl t ht e
    subst e
    generalize hs : Val.str (P t) = w at h
    cases h <;> simp only [reduceCtorEq, Val.str.injEq] at hs
    · exact hl t ht (by rw [hs])
    · rename_i r hr
      have hf : ∀ t ∈ fixedStructs, ∃ c ∈ P t, c ∉ P "0123456789abcdef-" := by decide +kernel
      obtain ⟨c, h1, h2⟩ := hf t ht
      rw [hs] at h1
      exact h2 (uuidText_hex r hr c h1)
  dict := by
    intro d b h
    cases h with
    | @dict _ e h =>
      refine ⟨e, rfl, simD_mem h, fun k hk => ?_⟩
      rcases simD_get h k with ⟨-, h2⟩ | ⟨x, y, h1, -⟩
      · exact h2
      · rw [hk] at h1; cases h1
  list := by
    intro l b h
    cases h with
    | @list _ l' h =>
      refine ⟨l', rfl, simL_mem h, ?_⟩
      rintro rfl
      cases h
      rfl
    | listBytes b h => cases h
  tuple := by
    intro l b h
    cases h with
    | @tuple _ l' h => exact ⟨l', .inl rfl, simL_mem h⟩
    | @tupleList _ l' h => exact ⟨l', .inr rfl, simL_mem h⟩
    | tupleBytes b h => cases h

end Pal.NaNs
