import Verif.Model.Extract
import Verif.Spec.Extract
import Verif.Lemmas.Put
import Verif.Lemmas.Says
import Verif.Lemmas.BoundProps
/-
The script against its specification (C67).
-/

namespace Pal

open Spec

theorem ex_bind {α β : Type} {x : Except Err α} {f : α → Except Err β} {b : β} (h : (x >>= f) = .ok b) :
    ∃ a, x = .ok a ∧ f a = .ok b := by
  cases x with
  | error e => cases h
  | ok a => exact ⟨a, rfl, h⟩

theorem ex_ok {α β : Type} (a : α) (f : α → Except Err β) : ((Except.ok a : Except Err α) >>= f) = f a := rfl

theorem path_one (v : Val) (k : PyStr) : v.path [k] = v.get k := by
  simp only [Val.path]
  cases v.get k <;> rfl

theorem path_two {v w : Val} {k k' : PyStr} : v.path [k, k'] = .ok w ↔ ∃ x, v.get k = .ok x ∧ x.get k' = .ok w := by
  simp only [Val.path]
  cases v.get k with
  | error e => simp
  | ok x =>
    cases hx : x.get k' <;> simp [hx]

theorem asStr_inv {v : Val} {s : PyStr} (h : v.asStr = .ok s) : v = .str s := by
  cases v <;> first | (cases h; rfl) | cases h

/-! ### references -/

theorem removeSuffix_app (s p : PyStr) : removeSuffix p (s ++ p) = s := by
  have h : p.isSuffixOf (s ++ p) = true := List.isSuffixOf_iff_suffix.mpr ⟨s, rfl⟩
  simp [removeSuffix, h]

theorem removePrefix_app (p s : PyStr) : removePrefix p (p ++ s) = s := by
  have h : p.isPrefixOf (p ++ s) = true := List.isPrefixOf_iff_prefix.mpr ⟨s, rfl⟩
  simp [removePrefix, h]

theorem prefix_iff {p s : PyStr} : p.isPrefixOf s = true ↔ ∃ t, s = p ++ t := by
  rw [List.isPrefixOf_iff_prefix]
  exact ⟨fun ⟨t, h⟩ => ⟨t, h.symm⟩, fun ⟨t, h⟩ => ⟨t, h.symm⟩⟩

theorem bp_not_class (t : PyStr) : (P "Class'").isPrefixOf (P "BlueprintGeneratedClass'" ++ t) = false := by
  rw [show P "Class'" = 67 :: P "lass'" from rfl, show P "BlueprintGeneratedClass'" = 66 :: P "lueprintGeneratedClass'" from rfl]
  simp [List.isPrefixOf]

/-! ### files -/

variable {lower : PyStr → PyStr}

theorem mapObjects_iff : ∀ {objs : List Val} {m m' : Dict}, mapObjects lower objs m = .ok m' ↔
    ∃ names : List PyStr, objs.length = names.length ∧ (∀ x ∈ objs.zip names, x.1.path [P "Name"] = .ok (.str x.2)) ∧
      m' = (objs.zip names).foldl (fun m x => dset m (lower x.2) x.1) m := by
  intro objs
  induction objs with
  | nil =>
    intro m m'
    constructor
    · intro h
      cases h
      exact ⟨[], rfl, by simp, rfl⟩
    · rintro ⟨names, h1, -, h3⟩
      cases names with
      | nil => rw [h3]; rfl
      | cons _ _ => simp at h1
  | cons o t ih =>
    intro m m'
    constructor
    · intro h
      obtain ⟨n, h1, h⟩ := ex_bind h
      obtain ⟨s, h2, h⟩ := ex_bind h
      obtain ⟨names, h3, h4, h5⟩ := ih.mp h
      refine ⟨s :: names, by simp [h3], ?_, h5⟩
      intro x hx
      rw [List.zip_cons_cons, List.mem_cons] at hx
      rcases hx with rfl | hx
      · rw [path_one, h1, asStr_inv h2]
      · exact h4 x hx
    · rintro ⟨names, h1, h2, h3⟩
      cases names with
      | nil => simp at h1
      | cons s names =>
        have h4 := h2 (o, s) (by simp)
        rw [path_one] at h4
        have h5 := ih (m := dset m (lower s) o) (m' := m') |>.mpr ⟨names, by simpa using h1, fun x hx => h2 x (by simp [hx]), h3⟩
        simp only [mapObjects, h4]
        exact h5

theorem byName_iff {objs : List Val} {m : Dict} : ByName lower objs m ↔ mapObjects lower objs [] = .ok m := mapObjects_iff.symm

theorem ends_json {f : PyStr} : endsWith f ".json" = true ↔ ∃ s, f = s ++ P ".json" := by
  rw [endsWith, List.isSuffixOf_iff_suffix]
  exact ⟨fun ⟨t, h⟩ => ⟨t, h.symm⟩, fun ⟨t, h⟩ => ⟨t, h.symm⟩⟩

theorem fileOf_cons {f : PyStr × Val} {files : List (PyStr × Val)} {k : PyStr} {data : Val} :
    FileOf lower (f :: files) k data ↔ FileOf lower files k data ∨
      ((¬ ∃ d, FileOf lower files k d) ∧ ∃ s, f = (s ++ P ".json", data) ∧ lower s = k) := by
  constructor
  · rintro ⟨pre, s, post, h1, h2, h3⟩
    cases pre with
    | nil =>
      rw [List.nil_append, List.cons.injEq] at h1
      right
      refine ⟨?_, s, h1.1, h2⟩
      rintro ⟨d, pre, s', post', h4, h5, h6⟩
      refine h3 s' d ?_ h5
      rw [← h1.2, h4]
      simp
    | cons g pre =>
      rw [List.cons_append, List.cons.injEq] at h1
      exact .inl ⟨pre, s, post, h1.2, h2, h3⟩
  · rintro (⟨pre, s, post, h1, h2, h3⟩ | ⟨h1, s, h2, h3⟩)
    · exact ⟨f :: pre, s, post, by rw [h1]; rfl, h2, h3⟩
    · refine ⟨[], s, files, by rw [h2]; rfl, h3, ?_⟩
      intro s' d' hm hl
      apply h1
      clear h1 h2 h3
      induction files with
      | nil => cases hm
      | cons g t ih =>
        by_cases hx : ∃ d s', (s' ++ P ".json", d) ∈ t ∧ lower s' = k
        · obtain ⟨d, s'', h5, h6⟩ := hx
          have : ∃ d, FileOf lower t k d := by
            clear ih hm hl
            induction t generalizing d s'' with
            | nil => cases h5
            | cons g' t ih =>
              by_cases hx : ∃ d s', (s' ++ P ".json", d) ∈ t ∧ lower s' = k
              · obtain ⟨d1, s1, h7, h8⟩ := hx
                obtain ⟨d2, pre, s2, post, h9⟩ := ih d1 s1 h7 h8
                exact ⟨d2, g' :: pre, s2, post, by rw [h9.1]; rfl, h9.2⟩
              · rcases List.mem_cons.mp h5 with rfl | h5
                · exact ⟨d, [], s'', t, rfl, h6, fun s1 d1 h1 h2 => hx ⟨d1, s1, h1, h2⟩⟩
                · exact absurd ⟨d, s'', h5, h6⟩ hx
          obtain ⟨d2, pre, s2, post, h9⟩ := this
          exact ⟨d2, g :: pre, s2, post, by rw [h9.1]; rfl, h9.2⟩
        · rcases List.mem_cons.mp hm with rfl | hm
          · exact ⟨d', [], s', t, rfl, hl, fun s1 d1 h1 h2 => hx ⟨d1, s1, h1, h2⟩⟩
          · exact absurd ⟨d', s', hm, hl⟩ hx

theorem fileOf_unique {files : List (PyStr × Val)} {k : PyStr} {d d' : Val} (h : FileOf lower files k d)
    (h' : FileOf lower files k d') : d = d' := by
  induction files with
  | nil =>
    obtain ⟨pre, s, post, h1, -⟩ := h
    cases pre <;> cases h1
  | cons f t ih =>
    rcases fileOf_cons.mp h with h1 | ⟨h1, s, h2, h3⟩ <;> rcases fileOf_cons.mp h' with h4 | ⟨h4, s', h5, h6⟩
    · exact ih h1 h4
    · exact absurd ⟨_, h1⟩ h4
    · exact absurd ⟨_, h4⟩ h1
    · rw [h2] at h5
      exact (Prod.mk.inj h5).2

theorem fileOf_mem {files : List (PyStr × Val)} {k : PyStr} {d : Val} (h : FileOf lower files k d) :
    ∃ s, (s, d) ∈ files := by
  obtain ⟨pre, s, post, h1, -⟩ := h
  exact ⟨s ++ P ".json", by rw [h1]; simp⟩

theorem blueprint_unique {files : List (PyStr × Val)} {k : PyStr} {m m' : Dict} (h : Blueprint lower files k m)
    (h' : Blueprint lower files k m') : m = m' := by
  obtain ⟨o, h1, h2⟩ := h
  obtain ⟨o', h3, h4⟩ := h'
  cases fileOf_unique h1 h3
  rw [byName_iff] at h2 h4
  rw [h2] at h4
  cases h4
  rfl

theorem load_reads : ∀ {files : List (PyStr × Val)} {B B' : Blueprints}, loadBlueprints lower files B = .ok B' →
    ∀ s objs, (s ++ P ".json", Val.list objs) ∈ files → ∃ m, mapObjects lower objs [] = .ok m := by
  intro files
  induction files with
  | nil => intro _ _ _ _ _ h; cases h
  | cons f t ih =>
    intro B B' h s objs hm
    obtain ⟨file, data⟩ := f
    by_cases he : endsWith file ".json" = true
    · rw [loadBlueprints, if_pos he] at h
      obtain ⟨o2, h1, h⟩ := ex_bind h
      obtain ⟨m2, h2, h⟩ := ex_bind h
      rcases List.mem_cons.mp hm with hm | hm
      · cases (Prod.mk.inj hm).2
        cases h1
        exact ⟨m2, h2⟩
      · exact ih h s objs hm
    · rw [loadBlueprints, if_neg he] at h
      rcases List.mem_cons.mp hm with hm | hm
      · exact absurd (ends_json.mpr ⟨s, (Prod.mk.inj hm).1.symm⟩) he
      · exact ih h s objs hm

theorem ex_load_iff : ∀ {files : List (PyStr × Val)} (_ : ∀ f ∈ files, ∃ objs, f.2 = .list objs) {B B' : Blueprints},
    loadBlueprints lower files B = .ok B' → ∀ k m, B' k = some m ↔
      (Blueprint lower files k m ∨ (¬ ∃ m, Blueprint lower files k m) ∧ B k = some m) := by
  intro files
  induction files with
  | nil =>
    intro _ B B' h k m
    cases h
    have : ∀ m, ¬ Blueprint lower [] k m := by
      rintro m ⟨o, ⟨pre, s, post, h, -⟩, -⟩
      cases pre <;> cases h
    simp [this]
  | cons f t ih =>
    intro ha B B' h k m
    obtain ⟨file, data⟩ := f
    obtain ⟨objs, hd⟩ := ha (file, data) List.mem_cons_self
    have hd : data = .list objs := hd
    subst hd
    have ha' : ∀ f ∈ t, ∃ objs, f.2 = .list objs := fun f hf => ha f (List.mem_cons_of_mem _ hf)
    by_cases he : endsWith file ".json" = true
    · rw [loadBlueprints, if_pos he] at h
      obtain ⟨o2, h1, h⟩ := ex_bind h
      cases h1
      obtain ⟨m2, h2, h⟩ := ex_bind h
      obtain ⟨s, hs⟩ := ends_json.mp he
      subst hs
      rw [removeSuffix_app] at h
      have h3 := ih ha' h k
      -- every later file called `k` is readable
      have hread : ∀ d, FileOf lower t k d → ∃ m, Blueprint lower t k m := by
        intro d hd
        by_contra hn
        have hd' := hd
        obtain ⟨sd, hsd⟩ := fileOf_mem hd
        obtain ⟨od, hod⟩ := ha' _ hsd
        have hod : d = .list od := hod
        subst hod
        -- loading succeeded, so the objects have names
        obtain ⟨pre, s1, post, h5, -⟩ := hd'
        obtain ⟨m3, h4⟩ := load_reads h s1 od (by rw [h5]; simp)
        exact hn ⟨m3, od, hd, byName_iff.mpr h4⟩
      have hb : ∀ m, Blueprint lower ((s ++ P ".json", .list objs) :: t) k m ↔
          Blueprint lower t k m ∨ (¬ ∃ m, Blueprint lower t k m) ∧ lower s = k ∧ m = m2 := by
        intro m
        constructor
        · rintro ⟨o, h4, h5⟩
          rcases fileOf_cons.mp h4 with h40 | ⟨h40, s', h6, h7⟩
          · exact .inl ⟨o, h40, h5⟩
          · have h8 : o = objs := by cases (Prod.mk.inj h6).2; rfl
            have h9 : s = s' := List.append_cancel_right (Prod.mk.inj h6).1
            subst h8 h9
            refine .inr ⟨fun ⟨m, o, h, _⟩ => h40 ⟨_, h⟩, h7, ?_⟩
            rw [byName_iff, h2] at h5
            cases h5
            rfl
        · rintro (⟨o, h4, h5⟩ | ⟨h4, h5, h6⟩)
          · exact ⟨o, fileOf_cons.mpr (.inl h4), h5⟩
          · subst h6
            exact ⟨objs, fileOf_cons.mpr (.inr ⟨fun ⟨d, hd⟩ => h4 (hread d hd), s, rfl, h5⟩), byName_iff.mpr h2⟩
      rw [h3]
      by_cases hk : lower s = k
      · subst hk
        rw [if_pos rfl]
        by_cases hx : ∃ m, Blueprint lower t (lower s) m
        · obtain ⟨m3, hx⟩ := hx
          have hy : ∃ m, Blueprint lower ((s ++ P ".json", .list objs) :: t) (lower s) m := ⟨m3, (hb m3).mpr (.inl hx)⟩
          have hx' : ∃ m, Blueprint lower t (lower s) m := ⟨_, hx⟩
          rw [hb]
          simp [hx', hy]
        · have hy : ∃ m, Blueprint lower ((s ++ P ".json", .list objs) :: t) (lower s) m :=
            ⟨m2, (hb m2).mpr (.inr ⟨hx, rfl, rfl⟩)⟩
          rw [hb]
          have hn : ¬ Blueprint lower t (lower s) m := fun h => hx ⟨_, h⟩
          simp only [hx, hy, hn, not_true_eq_false, false_and, or_false, not_false_eq_true, true_and, false_or,
            Option.some.injEq]
          exact eq_comm
      · rw [if_neg (fun h => hk h.symm)]
        have hb' : ∀ m, Blueprint lower ((s ++ P ".json", .list objs) :: t) k m ↔ Blueprint lower t k m := by
          intro m
          rw [hb]
          simp [hk]
        simp only [hb']
    · rw [loadBlueprints, if_neg he] at h
      have h3 := ih ha' h k
      have hf : ∀ d, FileOf lower ((file, .list objs) :: t) k d ↔ FileOf lower t k d := by
        intro d
        rw [fileOf_cons]
        constructor
        · rintro (h | ⟨-, s, h, -⟩)
          · exact h
          · exact absurd (ends_json.mpr ⟨s, (Prod.mk.inj h).1⟩) he
        · exact .inl
      have hb' : ∀ m, Blueprint lower ((file, .list objs) :: t) k m ↔ Blueprint lower t k m := by
        intro m
        exact ⟨fun ⟨o, h, h'⟩ => ⟨o, (hf _).mp h, h'⟩, fun ⟨o, h, h'⟩ => ⟨o, (hf _).mpr h, h'⟩⟩
      simp only [hb']
      exact h3 m

/-- The objects of a blueprint are objects of a file, and have names. -/
theorem mapObjects_mem : ∀ {objs : List Val} {m m' : Dict}, mapObjects lower objs m = .ok m' → ∀ {e : PyStr × Val},
    e ∈ m' → e ∈ m ∨ e.2 ∈ objs ∧ ∃ d, e.2 = .dict d := by
  intro objs
  induction objs with
  | nil =>
    intro m m' h e he
    cases h
    exact .inl he
  | cons o t ih =>
    intro m m' h e he
    obtain ⟨n, h1, h⟩ := ex_bind h
    obtain ⟨s, h2, h⟩ := ex_bind h
    rcases ih h he with h3 | ⟨h3, h4⟩
    · rcases mem_dset h3 with h3 | h3
      · exact .inl h3
      · subst h3
        refine .inr ⟨List.mem_cons_self, ?_⟩
        cases o <;> first | exact ⟨_, rfl⟩ | cases h1
    · exact .inr ⟨List.mem_cons_of_mem _ h3, h4⟩

/-- What the loaded blueprints know about the files. -/
structure Loaded (lower : PyStr → PyStr) (files : List (PyStr × Val)) (B : Blueprints) : Prop where
  has : ∀ k m, B k = some m ↔ Blueprint lower files k m
  ok : ExportOk files

theorem load_loaded {files : List (PyStr × Val)} {B : Blueprints} (hok : ExportOk files)
    (h : loadBlueprints lower files (fun _ => none) = .ok B) : Loaded lower files B := by
  refine ⟨fun k m => ?_, hok⟩
  rw [ex_load_iff hok.arrays h k m]
  simp

namespace Loaded

variable {files : List (PyStr × Val)} {B : Blueprints}

theorem objs (L : Loaded lower files B) {k : PyStr} {m : Dict} (h : B k = some m) {e : PyStr × Val} (he : e ∈ m) :
    ∃ f ∈ files, ∃ objs, f.2 = .list objs ∧ e.2 ∈ objs ∧ ∃ d, e.2 = .dict d := by
  obtain ⟨o, h1, h2⟩ := (L.has k m).mp h
  obtain ⟨s, h3⟩ := fileOf_mem h1
  rw [byName_iff] at h2
  rcases mapObjects_mem h2 he with h4 | h4
  · cases h4
  · exact ⟨_, h3, o, rfl, h4.1, h4.2⟩

theorem getN (L : Loaded lower files B) {k : PyStr} {m : Dict} (h : B k = some m) (n : PyStr) : dgetN m n = dget? m n := by
  unfold dgetN
  cases hn : dget? m n with
  | none => rfl
  | some v =>
    obtain ⟨-, -, -, -, -, d, hd⟩ := L.objs h (dget_mem hn)
    have hd : v = .dict d := hd
    subst hd
    rfl

theorem supers (L : Loaded lower files B) {k : PyStr} {m : Dict} (h : B k = some m) {e : PyStr × Val} (he : e ∈ m) {r : Val}
    (hr : e.2.path [P "SuperStruct", P "ObjectName"] = .ok r) : RefOk r := by
  obtain ⟨f, hf, objs, h1, h2, -⟩ := L.objs h he
  exact L.ok.supers f hf objs h1 _ h2 r hr

theorem models (L : Loaded lower files B) {k : PyStr} {m : Dict} (h : B k = some m) {e : PyStr × Val} (he : e ∈ m) {r : Val}
    (hr : Spec.Model e.2 r) : RefOk r := by
  obtain ⟨f, hf, objs, h1, h2, -⟩ := L.objs h he
  exact L.ok.models f hf objs h1 _ h2 r hr

theorem props (L : Loaded lower files B) {k : PyStr} {m : Dict} (h : B k = some m) {e : PyStr × Val} (he : e ∈ m) {p : Val}
    (hr : e.2.path [P "Properties"] = .ok p) : ∃ d, p = .dict d := by
  obtain ⟨f, hf, objs, h1, h2, -⟩ := L.objs h he
  exact L.ok.props f hf objs h1 _ h2 p hr

end Loaded

/-! ### the first generated class -/

theorem generated_some : ∀ {m : Dict} {c : Val}, generatedClass m = .ok (some c) → ∃ pre k post, m = pre ++ (k, c) :: post ∧
    (∀ e ∈ pre, ¬ IsGenerated e.2) ∧ IsGenerated c := by
  intro m
  induction m with
  | nil => intro c h; cases h
  | cons e t ih =>
    intro c h
    obtain ⟨k, v⟩ := e
    obtain ⟨ty, h1, h⟩ := ex_bind h
    by_cases hg : ty.isS "BlueprintGeneratedClass" = true
    · rw [if_pos hg] at h
      cases h
      rw [isS_iff] at hg
      exact ⟨[], k, t, rfl, by simp, by rw [IsGenerated, path_one, h1, hg]⟩
    · rw [if_neg hg] at h
      obtain ⟨pre, k', post, h2, h3, h4⟩ := ih h
      refine ⟨(k, v) :: pre, k', post, by rw [h2]; rfl, ?_, h4⟩
      intro e he
      rcases List.mem_cons.mp he with rfl | he
      · intro hx
        rw [IsGenerated, path_one, h1] at hx
        cases hx
        exact hg (isS_iff.mpr rfl)
      · exact h3 e he

theorem generated_none : ∀ {m : Dict}, generatedClass m = .ok none → ∀ e ∈ m, ¬ IsGenerated e.2 := by
  intro m
  induction m with
  | nil => intro _ e he; cases he
  | cons e t ih =>
    intro h
    obtain ⟨k, v⟩ := e
    obtain ⟨ty, h1, h⟩ := ex_bind h
    by_cases hg : ty.isS "BlueprintGeneratedClass" = true
    · rw [if_pos hg] at h
      cases h
    · rw [if_neg hg] at h
      intro e he
      rcases List.mem_cons.mp he with rfl | he
      · intro hx
        rw [IsGenerated, path_one, h1] at hx
        cases hx
        exact hg (isS_iff.mpr rfl)
      · exact ih h e he

/-- The first generated class is determined. -/
theorem first_unique {pre pre' post post' : Dict} {e e' : PyStr × Val} (h : pre ++ e :: post = pre' ++ e' :: post')
    (h1 : ∀ e ∈ pre, ¬ IsGenerated e.2) (h2 : IsGenerated e.2) (h3 : ∀ e ∈ pre', ¬ IsGenerated e.2)
    (h4 : IsGenerated e'.2) : e = e' := by
  induction pre generalizing pre' with
  | nil =>
    cases pre' with
    | nil => exact (List.cons.inj h).1
    | cons a t =>
      have := (List.cons.inj h).1
      subst this
      exact absurd h2 (h3 _ List.mem_cons_self)
  | cons a t ih =>
    cases pre' with
    | nil =>
      have := (List.cons.inj h).1
      subst this
      exact absurd h4 (h1 _ List.mem_cons_self)
    | cons a' t' =>
      exact ih (List.cons.inj h).2 (fun e he => h1 e (List.mem_cons_of_mem _ he)) fun e he => h3 e (List.mem_cons_of_mem _ he)

theorem extends_unique {files : List (PyStr × Val)} {q : PyStr} {r r' : Val} (h : Extends lower files q r)
    (h' : Extends lower files q r') : r = r' := by
  obtain ⟨pre, k, o, post, h1, h2, h3, h4⟩ := h
  obtain ⟨pre', k', o', post', h5, h6, h7, h8⟩ := h'
  have := first_unique (blueprint_unique h1 h5) h2 h3 h6 h7
  cases this
  rw [h4] at h8
  cases h8
  rfl

/-! ### going up -/

section Up

variable {files : List (PyStr × Val)} {B : Blueprints}

theorem resolve_native {n : Nat} {v : Val} {c : PyStr} (h : NativeRef v c) :
    resolveConcrete lower B (n + 1) v = .ok (some c) := by
  rw [NativeRef] at h
  subst h
  have h1 : (P "Class'").isPrefixOf (P "Class'" ++ c ++ P "'") = true := prefix_iff.mpr ⟨_, List.append_assoc ..⟩
  simp only [resolveConcrete, Val.asStr]
  rw [ex_ok, if_pos h1, removeSuffix_app, removePrefix_app]
  rfl

theorem resolve_other {n : Nat} {v : Val} (h : OtherRef v) : resolveConcrete lower B (n + 1) v = .ok none := by
  obtain ⟨s, rfl, h1, h2⟩ := h
  rw [← prefix_iff] at h1 h2
  simp only [resolveConcrete, Val.asStr]
  rw [ex_ok, if_neg h1, if_neg h2]
  rfl

theorem resolve_blueprint {n : Nat} {v : Val} {q : PyStr} (h : BlueprintRef v q) :
    resolveConcrete lower B (n + 1) v = (match B (lower q) with
      | none => .ok none
      | some bp => do
        match ← generatedClass bp with
        | none => return none
        | some c => do
          let sup ← c.path [P "SuperStruct", P "ObjectName"]
          resolveConcrete lower B n sup) := by
  rw [BlueprintRef] at h
  subst h
  have h1 : (P "BlueprintGeneratedClass'").isPrefixOf (P "BlueprintGeneratedClass'" ++ q ++ P "_C'") = true :=
    prefix_iff.mpr ⟨_, List.append_assoc ..⟩
  have h2 : ¬ (P "Class'").isPrefixOf (P "BlueprintGeneratedClass'" ++ q ++ P "_C'") = true := by
    rw [List.append_assoc, bp_not_class]
    exact Bool.false_ne_true
  rw [resolveConcrete]
  simp only [Val.asStr]
  rw [ex_ok, if_neg h2, if_pos h1, removeSuffix_app, removePrefix_app]
  cases B (lower q) <;> rfl

theorem resolve_sound (L : Loaded lower files B) : ∀ {n : Nat} {v : Val} {x : Option PyStr}, RefOk v →
    resolveConcrete lower B n v = .ok x →
    (∀ c, x = some c → Derives lower files v c) ∧ (x = none → Lost lower files v) := by
  intro n
  induction n with
  | zero => intro v x _ h; cases h
  | succ n ih =>
    intro v x hv h
    rcases hv with ⟨c, hv⟩ | ⟨q, hv⟩ | hv
    · rw [resolve_native hv] at h
      cases h
      exact ⟨fun c' h => by cases h; exact .native hv, fun h => by cases h⟩
    · rw [resolve_blueprint hv] at h
      cases hb : B (lower q) with
      | none =>
        simp only [hb] at h
        cases h
        refine ⟨fun c' h => (by cases h), fun _ => .missing hv ?_⟩
        rintro ⟨m, hm⟩
        rw [← L.has, hb] at hm
        cases hm
      | some m =>
        simp only [hb] at h
        have hB := (L.has _ _).mp hb
        obtain ⟨g, h1, h⟩ := ex_bind h
        cases g with
        | none =>
          cases h
          exact ⟨fun c' h => (by cases h), fun _ => .noClass hv hB (generated_none h1)⟩
        | some c =>
          obtain ⟨sup, h2, h⟩ := ex_bind h
          obtain ⟨pre, k, post, h3, h4, h5⟩ := generated_some h1
          have hs : RefOk sup := L.supers hb (e := (k, c)) (by rw [h3]; simp) h2
          have he : Extends lower files q sup := ⟨pre, k, c, post, h3 ▸ hB, h4, h5, h2⟩
          obtain ⟨h6, h7⟩ := ih hs h
          exact ⟨fun c' hc => .up hv he (h6 c' hc), fun hc => .up hv he (h7 hc)⟩
    · rw [resolve_other hv] at h
      cases h
      exact ⟨fun c' h => (by cases h), fun _ => .other hv⟩

theorem generated_first {m pre post : Dict} {k : PyStr} {o : Val} {g : Option Val} (hm : m = pre ++ (k, o) :: post)
    (h1 : ∀ e ∈ pre, ¬ IsGenerated e.2) (h2 : IsGenerated o) (h : generatedClass m = .ok g) : g = some o := by
  cases g with
  | none => exact absurd h2 (generated_none h (k, o) (by rw [hm]; simp))
  | some c =>
    obtain ⟨pre', k', post', h3, h4, h5⟩ := generated_some h
    have := first_unique (e := (k', c)) (e' := (k, o)) (h3.symm.trans hm) h4 h5 h1 h2
    cases this
    rfl

theorem resolve_up (L : Loaded lower files B) {n : Nat} {v r : Val} {q : PyStr} {x : Option PyStr} (hv : BlueprintRef v q)
    (he : Extends lower files q r) (h : resolveConcrete lower B (n + 1) v = .ok x) : resolveConcrete lower B n r = .ok x := by
  rw [resolve_blueprint hv] at h
  obtain ⟨pre, k, o, post, h1, h2, h3, h4⟩ := he
  have hb := (L.has _ _).mpr h1
  simp only [hb] at h
  obtain ⟨g, h5, h⟩ := ex_bind h
  have := generated_first rfl h2 h3 h5
  subst this
  obtain ⟨sup, h6, h⟩ := ex_bind h
  rw [h4] at h6
  cases h6
  exact h

theorem derives_resolve (L : Loaded lower files B) {v : Val} {c : PyStr} (h : Derives lower files v c) :
    ∀ {n : Nat} {x : Option PyStr}, resolveConcrete lower B n v = .ok x → x = some c := by
  induction h with
  | native hv =>
    intro n x h
    cases n with
    | zero => cases h
    | succ n =>
      rw [resolve_native hv] at h
      cases h
      rfl
  | up hv he _ ih =>
    intro n x h
    cases n with
    | zero => cases h
    | succ n => exact ih (resolve_up L hv he h)

theorem lost_resolve (L : Loaded lower files B) {v : Val} (h : Lost lower files v) :
    ∀ {n : Nat} {x : Option PyStr}, resolveConcrete lower B n v = .ok x → x = none := by
  induction h with
  | other hv =>
    intro n x h
    cases n with
    | zero => cases h
    | succ n =>
      rw [resolve_other hv] at h
      cases h
      rfl
  | @missing v q hv hm =>
    intro n x h
    cases n with
    | zero => cases h
    | succ n =>
      rw [resolve_blueprint hv] at h
      have : B (lower q) = none := by
        cases hb : B (lower q) with
        | none => rfl
        | some m => exact absurd ⟨m, (L.has _ _).mp hb⟩ hm
      simp only [this] at h
      cases h
      rfl
  | noClass hv hb hn =>
    intro n x h
    cases n with
    | zero => cases h
    | succ n =>
      rw [resolve_blueprint hv] at h
      have hb := (L.has _ _).mpr hb
      simp only [hb] at h
      obtain ⟨g, h5, h⟩ := ex_bind h
      cases g with
      | none =>
        cases h
        rfl
      | some c =>
        obtain ⟨pre', k', post', h3, h4, h5⟩ := generated_some h5
        exact absurd h5 (hn (k', c) (by rw [h3]; simp))
  | up hv he _ ih =>
    intro n x h
    cases n with
    | zero => cases h
    | succ n => exact ih (resolve_up L hv he h)

/-! ### the entry of one object -/

/-- The concrete model class in the "Properties" of an object: what the script finds there. -/
theorem model_cases {o p : Val} {b : Bool} (hd : ∃ d, p = .dict d) (h1 : o.get (P "Properties") = .ok p)
    (h2 : p.contains (P "ConcreteModelClass") = .ok b) :
    (b = false → NoModel o) ∧ (b = true → (¬ NoModel o) ∧ ∀ r, p.path [P "ConcreteModelClass", P "ObjectName"] = .ok r ↔ Spec.Model o r) ∧
      (NoModel o → b = false) ∧ ∀ r, Spec.Model o r → b = true := by
  obtain ⟨d, rfl⟩ := hd
  simp only [Val.contains, Except.ok.injEq] at h2
  have hm : ∀ r, (Val.dict d).path [P "ConcreteModelClass", P "ObjectName"] = .ok r ↔ Spec.Model o r := by
    intro r
    rw [Spec.Model]
    conv => rhs; rw [Val.path, h1]
  have hno : NoModel o ↔ dget? d (P "ConcreteModelClass") = none := by
    constructor
    · rintro ⟨d', h3, h4⟩
      rw [path_one, h1] at h3
      cases h3
      exact h4
    · intro h
      exact ⟨d, by rw [path_one, h1], h⟩
  have hb : b = false ↔ dget? d (P "ConcreteModelClass") = none := by
    rw [← h2]
    cases dget? d (P "ConcreteModelClass") <;> simp
  refine ⟨fun h => hno.mpr (hb.mp h), fun h => ⟨fun hn => ?_, hm⟩, fun h => hb.mpr (hno.mp h), fun r hr => ?_⟩
  · rw [hb.mpr (hno.mp hn)] at h
    cases h
  · cases b with
    | true => rfl
    | false =>
      rw [← hm, path_two] at hr
      obtain ⟨x, hx, -⟩ := hr
      rw [Val.get, hb.mp rfl] at hx
      cases hx

theorem object_unique {k n : PyStr} {o o' : Val} (h : Object lower files k n o) (h' : Object lower files k n o') : o = o' := by
  obtain ⟨m, h1, h2⟩ := h
  obtain ⟨m', h3, h4⟩ := h'
  cases blueprint_unique h1 h3
  rw [h2] at h4
  cases h4
  rfl

theorem nref_bref {v : Val} {c q : PyStr} (h : NativeRef v c) (h' : BlueprintRef v q) : False := by
  rw [NativeRef] at h
  rw [BlueprintRef] at h'
  rw [h, List.append_assoc, List.append_assoc] at h'
  have h1 := bp_not_class (q ++ P "_C'")
  rw [← Val.str.inj h'] at h1
  rw [show (P "Class'").isPrefixOf (P "Class'" ++ (c ++ P "'")) = true from prefix_iff.mpr ⟨_, rfl⟩] at h1
  cases h1

theorem nref_other {v : Val} {c : PyStr} (h : NativeRef v c) (h' : OtherRef v) : False := by
  rw [NativeRef] at h
  obtain ⟨s, h1, h2, -⟩ := h'
  rw [h] at h1
  exact h2 ⟨c ++ P "'", by rw [← Val.str.inj h1, List.append_assoc]⟩

theorem bref_other {v : Val} {q : PyStr} (h : BlueprintRef v q) (h' : OtherRef v) : False := by
  rw [BlueprintRef] at h
  obtain ⟨s, h1, -, h2⟩ := h'
  rw [h] at h1
  exact h2 ⟨q ++ P "_C'", by rw [← Val.str.inj h1, List.append_assoc]⟩

theorem nref_unique {v : Val} {c c' : PyStr} (h : NativeRef v c) (h' : NativeRef v c') : c = c' := by
  rw [NativeRef] at h h'
  rw [h] at h'
  exact List.append_cancel_left (List.append_cancel_right (Val.str.inj h'))

theorem bref_unique {v : Val} {c c' : PyStr} (h : BlueprintRef v c) (h' : BlueprintRef v c') : c = c' := by
  rw [BlueprintRef] at h h'
  rw [h] at h'
  exact List.append_cancel_left (List.append_cancel_right (Val.str.inj h'))

theorem derives_unique {v : Val} {c c' : PyStr} (h : Derives lower files v c) (h' : Derives lower files v c') : c = c' := by
  induction h with
  | native hv =>
    cases h' with
    | native hv' => exact nref_unique hv hv'
    | up hv' _ _ => exact (nref_bref hv hv').elim
  | up hv he _ ih =>
    cases h' with
    | native hv' => exact (nref_bref hv' hv).elim
    | up hv' he' hd' =>
      cases bref_unique hv hv'
      cases extends_unique he he'
      exact ih hd'

theorem extends_blueprint {q : PyStr} {r : Val} (h : Extends lower files q r) :
    ∃ m, Blueprint lower files (lower q) m ∧ ∃ e ∈ m, IsGenerated e.2 := by
  obtain ⟨pre, k, o, post, h1, -, h3, -⟩ := h
  exact ⟨_, h1, (k, o), by simp, h3⟩

theorem derives_lost {v : Val} {c : PyStr} (h : Derives lower files v c) (h' : Lost lower files v) : False := by
  induction h with
  | native hv =>
    cases h' with
    | other hv' => exact nref_other hv hv'
    | missing hv' _ => exact nref_bref hv hv'
    | noClass hv' _ _ => exact nref_bref hv hv'
    | up hv' _ _ => exact nref_bref hv hv'
  | up hv he _ ih =>
    obtain ⟨m, hm, e, he1, he2⟩ := extends_blueprint he
    cases h' with
    | other hv' => exact bref_other hv hv'
    | missing hv' hm' =>
      cases bref_unique hv hv'
      exact hm' ⟨m, hm⟩
    | noClass hv' hb hn =>
      cases bref_unique hv hv'
      cases blueprint_unique hm hb
      exact hn e he1 he2
    | up hv' he' hd' =>
      cases bref_unique hv hv'
      cases extends_unique he he'
      exact ih hd'

theorem model_unique {o r r' : Val} (h : Spec.Model o r) (h' : Spec.Model o r') : r = r' := by
  rw [Spec.Model] at h h'
  rw [h] at h'
  cases h'
  rfl

theorem model_noModel {o r : Val} (h : Spec.Model o r) (h' : NoModel o) : False := by
  obtain ⟨d, h1, h2⟩ := h'
  rw [Spec.Model, Val.path] at h
  rw [path_one] at h1
  rw [h1] at h
  simp only [Val.path, Val.get, h2] at h
  cases h

theorem gives_unique {v : Val} {c c' : PyStr} (h : Gives lower files v c) (h' : Gives lower files v c') : c = c' := by
  rcases h with h | ⟨q, o, r, h1, h2, h3, h4⟩ <;> rcases h' with h' | ⟨q', o', r', h1', h2', h3', h4'⟩
  · exact nref_unique h h'
  · exact (nref_bref h h1').elim
  · exact (nref_bref h' h1).elim
  · cases bref_unique h1 h1'
    cases object_unique h2 h2'
    cases model_unique h3 h3'
    exact derives_unique h4 h4'

theorem gives_none {v : Val} {c : PyStr} (h : Gives lower files v c) (h' : GivesNone lower files v) : False := by
  rcases h with h | ⟨q, o, r, h1, h2, h3, h4⟩ <;> rcases h' with h' | ⟨q', h1', h2'⟩
  · exact nref_other h h'
  · exact nref_bref h h1'
  · exact bref_other h1 h'
  · cases bref_unique h1 h1'
    rcases h2' with h2' | ⟨o', h2', h3'⟩
    · exact h2' ⟨o, h2⟩
    · cases object_unique h2 h2'
      rcases h3' with h3' | ⟨r', h3', h4'⟩
      · exact model_noModel h3 h3'
      · cases model_unique h3 h3'
        exact derives_lost h4 h4'

/-- `resolve_object_super_concrete_class_name` -/
theorem super_blueprint {n : Nat} {v : Val} {q : PyStr} (h : BlueprintRef v q) :
    resolveSuper lower B n v = (match B (lower q) with
      | none => .ok none
      | some bp =>
        match dgetN bp (lower (P "Default__" ++ q ++ P "_C")) with
        | none => return none
        | some st => do
          let props ← st.get (P "Properties")
          if ← props.contains (P "ConcreteModelClass") then
            let c ← props.path [P "ConcreteModelClass", P "ObjectName"]
            resolveConcrete lower B n c
          else return none) := by
  rw [BlueprintRef] at h
  subst h
  have h1 : (P "BlueprintGeneratedClass'").isPrefixOf (P "BlueprintGeneratedClass'" ++ q ++ P "_C'") = true :=
    prefix_iff.mpr ⟨_, List.append_assoc ..⟩
  have h2 : ¬ (P "Class'").isPrefixOf (P "BlueprintGeneratedClass'" ++ q ++ P "_C'") = true := by
    rw [List.append_assoc, bp_not_class]
    exact Bool.false_ne_true
  rw [resolveSuper]
  simp only [Val.asStr]
  rw [ex_ok, if_neg h2, if_pos h1, removeSuffix_app, removePrefix_app]
  cases B (lower q) <;> rfl

theorem super_sound (L : Loaded lower files B) {n : Nat} {v : Val} {x : Option PyStr} (hv : RefOk v)
    (h : resolveSuper lower B n v = .ok x) : (∀ c, x = some c ↔ Gives lower files v c) ∧ (x = none ↔ GivesNone lower files v) := by
  rcases hv with ⟨c, hv⟩ | ⟨q, hv⟩ | hv
  · have hx : x = some c := by
      rw [NativeRef] at hv
      subst hv
      have h1 : (P "Class'").isPrefixOf (P "Class'" ++ c ++ P "'") = true := prefix_iff.mpr ⟨_, List.append_assoc ..⟩
      simp only [resolveSuper, Val.asStr] at h
      rw [ex_ok, if_pos h1, removeSuffix_app, removePrefix_app] at h
      cases h
      rfl
    subst hx
    refine ⟨fun c' => ⟨fun h => ?_, ?_⟩, fun h => (by cases h), ?_⟩
    · cases h
      exact .inl hv
    · rintro (h1 | ⟨q, o, r, h1, -⟩)
      · rw [nref_unique hv h1]
      · exact (nref_bref hv h1).elim
    · rintro (h1 | ⟨q, h1, -⟩)
      · exact (nref_other hv h1).elim
      · exact (nref_bref hv h1).elim
  · -- it is enough to know the right answer
    have key : (∀ c, x = some c → Gives lower files v c) ∧ (x = none → GivesNone lower files v) := by
      rw [super_blueprint hv] at h
      cases hb : B (lower q) with
      | none =>
        simp only [hb] at h
        cases h
        refine ⟨fun c h => (by cases h), fun _ => .inr ⟨q, hv, .inl ?_⟩⟩
        rintro ⟨o, m, h1, -⟩
        rw [← L.has, hb] at h1
        cases h1
      | some m =>
        have hB := (L.has _ _).mp hb
        simp only [hb, L.getN hb] at h
        cases ho : dget? m (lower (P "Default__" ++ q ++ P "_C")) with
        | none =>
          simp only [ho] at h
          cases h
          refine ⟨fun c h => (by cases h), fun _ => .inr ⟨q, hv, .inl ?_⟩⟩
          rintro ⟨o, m', h1, h2⟩
          cases blueprint_unique hB h1
          rw [ho] at h2
          cases h2
        | some st =>
          simp only [ho] at h
          have hmem := dget_mem ho
          have hD : Default lower files q st := ⟨m, hB, ho⟩
          obtain ⟨p, h1, h⟩ := ex_bind h
          obtain ⟨b, h2, h⟩ := ex_bind h
          have hp := L.props hb hmem (p := p) (by rw [path_one]; exact h1)
          obtain ⟨m1, m2, m3, m4⟩ := model_cases hp h1 h2
          cases b with
          | false =>
            cases h
            exact ⟨fun c h => (by cases h), fun _ => .inr ⟨q, hv, .inr ⟨st, hD, .inl (m1 rfl)⟩⟩⟩
          | true =>
            rw [if_pos rfl] at h
            obtain ⟨r, h3, h⟩ := ex_bind h
            have hr := ((m2 rfl).2 r).mp h3
            obtain ⟨s1, s2⟩ := resolve_sound L (L.models hb hmem hr) h
            exact ⟨fun c hc => .inr ⟨q, st, r, hv, hD, hr, s1 c hc⟩,
              fun hc => .inr ⟨q, hv, .inr ⟨st, hD, .inr ⟨r, hr, s2 hc⟩⟩⟩⟩
    cases x with
    | none =>
      have hn := key.2 rfl
      exact ⟨fun c => ⟨fun h => (by cases h), fun h => (gives_none h hn).elim⟩, fun _ => hn, fun _ => rfl⟩
    | some c =>
      have hg := key.1 c rfl
      refine ⟨fun c' => ⟨key.1 c', fun h => by rw [gives_unique hg h]⟩, fun h => (by cases h), fun h => (gives_none hg h).elim⟩
  · have hx : x = none := by
      obtain ⟨s, rfl, h1, h2⟩ := hv
      rw [← prefix_iff] at h1 h2
      simp only [resolveSuper, Val.asStr] at h
      rw [ex_ok, if_neg h1, if_neg h2] at h
      cases h
      rfl
    subst hx
    refine ⟨fun c' => ⟨fun h => (by cases h), ?_⟩, fun _ => .inl hv, fun _ => rfl⟩
    rintro (h1 | ⟨q, o, r, h1, -⟩)
    · exact (nref_other h1 hv).elim
    · exact (bref_other h1 hv).elim

theorem tableEntry_unique {c : PyStr} {v v' : Val} (h : TableEntry lower files c v) (h' : TableEntry lower files c v') : v = v' := by
  cases h with
  | own h1 h2 h3 =>
    cases h' with
    | own g1 g2 g3 =>
      cases object_unique h1 g1
      cases model_unique h2 g2
      rw [derives_unique h3 g3]
    | ownLost g1 g2 g3 =>
      cases object_unique h1 g1
      cases model_unique h2 g2
      exact (derives_lost h3 g3).elim
    | parent g1 g2 _ _ _ =>
      cases object_unique h1 g1
      exact (model_noModel h2 g2).elim
    | unknown g1 g2 _ _ _ =>
      cases object_unique h1 g1
      exact (model_noModel h2 g2).elim
  | ownLost h1 h2 h3 =>
    cases h' with
    | own g1 g2 g3 =>
      cases object_unique h1 g1
      cases model_unique h2 g2
      exact (derives_lost g3 h3).elim
    | ownLost g1 g2 g3 => rfl
    | parent g1 g2 _ _ _ =>
      cases object_unique h1 g1
      exact (model_noModel h2 g2).elim
    | unknown g1 g2 _ _ _ =>
      cases object_unique h1 g1
      exact (model_noModel h2 g2).elim
  | parent h1 h2 h3 h4 h5 =>
    cases h' with
    | own g1 g2 _ =>
      cases object_unique h1 g1
      exact (model_noModel g2 h2).elim
    | ownLost g1 g2 _ =>
      cases object_unique h1 g1
      exact (model_noModel g2 h2).elim
    | parent g1 g2 g3 g4 g5 =>
      cases object_unique h3 g3
      rw [h4] at g4
      cases g4
      rw [gives_unique h5 g5]
    | unknown g1 g2 g3 g4 g5 =>
      cases object_unique h3 g3
      rw [h4] at g4
      cases g4
      exact (gives_none h5 g5).elim
  | unknown h1 h2 h3 h4 h5 =>
    cases h' with
    | own g1 g2 _ =>
      cases object_unique h1 g1
      exact (model_noModel g2 h2).elim
    | ownLost g1 g2 _ =>
      cases object_unique h1 g1
      exact (model_noModel g2 h2).elim
    | parent g1 g2 g3 g4 g5 =>
      cases object_unique h3 g3
      rw [h4] at g4
      cases g4
      exact (gives_none g5 h5).elim
    | unknown g1 g2 g3 g4 g5 => rfl

/-- What an entry needs: a default object, and where it sets no class, a generated class. -/
theorem tableEntry_needs {c : PyStr} {v : Val} (h : TableEntry lower files c v) :
    ∃ o, Object lower files c (P "Default__" ++ c ++ P "_C") o ∧ ((¬ NoModel o) ∨ ∃ g, Object lower files c (c ++ P "_C") g) := by
  cases h with
  | own h1 h2 _ => exact ⟨_, h1, .inl fun h => model_noModel h2 h⟩
  | ownLost h1 h2 _ => exact ⟨_, h1, .inl fun h => model_noModel h2 h⟩
  | parent h1 _ h3 _ _ => exact ⟨_, h1, .inr ⟨_, h3⟩⟩
  | unknown h1 _ h3 _ _ => exact ⟨_, h1, .inr ⟨_, h3⟩⟩

theorem concreteOf_iff (L : Loaded lower files B) {n : Nat} {c : PyStr} {x : Option Val} (h : concreteOf lower B n c = .ok x) (v : Val) :
    x = some v ↔ TableEntry lower files c v := by
  have key : (∀ v, x = some v → TableEntry lower files c v) ∧ (x = none → ∀ v, ¬ TableEntry lower files c v) := by
    unfold concreteOf at h
    cases hb : B c with
    | none => rw [hb] at h; cases h
    | some m =>
      have hB := (L.has _ _).mp hb
      simp only [hb, L.getN hb] at h
      cases ho : dget? m (lower (P "Default__" ++ c ++ P "_C")) with
      | none =>
        simp only [ho] at h
        cases h
        refine ⟨fun v h => (by cases h), fun _ v hv => ?_⟩
        obtain ⟨o, ⟨m', h1, h2⟩, -⟩ := tableEntry_needs hv
        cases blueprint_unique hB h1
        rw [ho] at h2
        cases h2
      | some st =>
        simp only [ho] at h
        have hmem := dget_mem ho
        have hD : Object lower files c (P "Default__" ++ c ++ P "_C") st := ⟨m, hB, ho⟩
        obtain ⟨p, h1, h⟩ := ex_bind h
        obtain ⟨b, h2, h⟩ := ex_bind h
        have hp := L.props hb hmem (p := p) (by rw [path_one]; exact h1)
        obtain ⟨m1, m2, m3, m4⟩ := model_cases hp h1 h2
        cases b with
        | true =>
          rw [if_pos rfl] at h
          obtain ⟨r, h3, h⟩ := ex_bind h
          obtain ⟨y, h4, h⟩ := ex_bind h
          cases h
          have hr := ((m2 rfl).2 r).mp h3
          obtain ⟨s1, s2⟩ := resolve_sound L (L.models hb hmem hr) h4
          refine ⟨fun v hv => ?_, fun h => (by cases h)⟩
          cases hv
          cases y with
          | none => exact .ownLost hD hr (s2 rfl)
          | some cls => exact .own hD hr (s1 cls rfl)
        | false =>
          rw [if_neg Bool.false_ne_true] at h
          cases hg : dget? m (lower (c ++ P "_C")) with
          | none =>
            simp only [hg] at h
            cases h
            refine ⟨fun v h => (by cases h), fun _ v hv => ?_⟩
            obtain ⟨o, h3, h4 | ⟨g, m', h4, h5⟩⟩ := tableEntry_needs hv
            · cases object_unique hD h3
              exact h4 (m1 rfl)
            · cases blueprint_unique hB h4
              rw [hg] at h5
              cases h5
          | some g =>
            simp only [hg] at h
            obtain ⟨r, h3, h⟩ := ex_bind h
            obtain ⟨y, h4, h⟩ := ex_bind h
            have hG : Object lower files c (c ++ P "_C") g := ⟨m, hB, hg⟩
            obtain ⟨s1, s2⟩ := super_sound L (L.supers hb (dget_mem hg) h3) h4
            cases y with
            | none =>
              cases h
              refine ⟨fun v hv => ?_, fun h => (by cases h)⟩
              cases hv
              exact .unknown hD (m1 rfl) hG h3 (s2.mp rfl)
            | some cls =>
              cases h
              refine ⟨fun v hv => ?_, fun h => (by cases h)⟩
              cases hv
              exact .parent hD (m1 rfl) hG h3 ((s1 cls).mp rfl)
  constructor
  · exact key.1 v
  · intro hv
    cases x with
    | none => exact (key.2 rfl v hv).elim
    | some w => rw [tableEntry_unique (key.1 w rfl) hv]

/-! ### the rows -/

theorem listed_unique {data : Val} {c c' : PyStr} (h : Listed lower files data c) (h' : Listed lower files data c') : c = c' := by
  have h1 := h.2.1
  rw [h'.2.1] at h1
  cases h1
  rfl

theorem rowOf_exists {rows : Dict} {k n : PyStr} {d : Val} {c : PyStr} (h : (n, d) ∈ rows) (h1 : lower n = k)
    (h2 : Listed lower files d c) : ∃ c, RowOf lower files rows k c := by
  induction rows generalizing n d c with
  | nil => cases h
  | cons e t ih =>
    by_cases hx : ∃ n d c, (n, d) ∈ t ∧ lower n = k ∧ Listed lower files d c
    · obtain ⟨n', d', c', h3, h4, h5⟩ := hx
      obtain ⟨c2, pre, n2, d2, post, h6⟩ := ih h3 h4 h5
      exact ⟨c2, e :: pre, n2, d2, post, by rw [h6.1]; rfl, h6.2⟩
    · rcases List.mem_cons.mp h with rfl | h
      · exact ⟨c, [], n, d, t, rfl, h1, h2, fun n' d' h3 h4 ⟨c', h5⟩ => hx ⟨n', d', c', h3, h4, h5⟩⟩
      · exact absurd ⟨n, d, c, h, h1, h2⟩ hx

theorem rowOf_cons {n : PyStr} {d : Val} {rows : Dict} {k c : PyStr} :
    RowOf lower files ((n, d) :: rows) k c ↔ RowOf lower files rows k c ∨
      ((¬ ∃ c, RowOf lower files rows k c) ∧ lower n = k ∧ Listed lower files d c) := by
  constructor
  · rintro ⟨pre, n', d', post, h1, h2, h3, h4⟩
    cases pre with
    | nil =>
      rw [List.nil_append, List.cons.injEq] at h1
      cases h1.1
      cases h1.2
      refine .inr ⟨?_, h2, h3⟩
      rintro ⟨c', pre, n'', d'', post', h5, h6, h7, -⟩
      exact h4 n'' d'' (by rw [h5]; simp) h6 ⟨c', h7⟩
    | cons e pre =>
      rw [List.cons_append, List.cons.injEq] at h1
      exact .inl ⟨pre, n', d', post, h1.2, h2, h3, h4⟩
  · rintro (⟨pre, n', d', post, h1, h2⟩ | ⟨h1, h2, h3⟩)
    · exact ⟨(n, d) :: pre, n', d', post, by rw [h1]; rfl, h2⟩
    · exact ⟨[], n, d, rows, rfl, h2, h3, fun n' d' h4 h5 ⟨c', h6⟩ => h1 (rowOf_exists h4 h5 h6)⟩

theorem rowOf_unique {rows : Dict} {k c c' : PyStr} (h : RowOf lower files rows k c) (h' : RowOf lower files rows k c') : c = c' := by
  induction rows with
  | nil =>
    obtain ⟨pre, n, d, post, h1, -⟩ := h
    cases pre <;> cases h1
  | cons e t ih =>
    rcases rowOf_cons.mp h with h | ⟨h1, h2, h3⟩ <;> rcases rowOf_cons.mp h' with h' | ⟨h1', h2', h3'⟩
    · exact ih h h'
    · exact absurd ⟨_, h⟩ h1'
    · exact absurd ⟨_, h'⟩ h1
    · exact listed_unique h3 h3'

theorem sset_mem {d : List (PyStr × PyStr)} {k v k' v' : PyStr} (hn : (d.map Prod.fst).Nodup) :
    (k', v') ∈ sset d k v ↔ (k' = k ∧ v' = v) ∨ (k' ≠ k ∧ (k', v') ∈ d) := by
  induction d with
  | nil =>
    simp only [sset, List.mem_singleton, Prod.mk.injEq, List.not_mem_nil, and_false, or_false]
  | cons e t ih =>
    obtain ⟨a, b⟩ := e
    rw [List.map_cons, List.nodup_cons] at hn
    rw [sset]
    by_cases ha : a = k
    · subst ha
      rw [if_pos rfl, List.mem_cons, List.mem_cons, Prod.mk.injEq, Prod.mk.injEq]
      constructor
      · rintro (h | h)
        · exact .inl h
        · refine .inr ⟨?_, .inr h⟩
          rintro rfl
          exact hn.1 (List.mem_map.mpr ⟨_, h, rfl⟩)
      · rintro (h | ⟨h1, h | h⟩)
        · exact .inl h
        · exact absurd h.1 h1
        · exact .inr h
    · rw [if_neg ha, List.mem_cons, List.mem_cons, ih hn.2, Prod.mk.injEq]
      constructor
      · rintro (h | h | h)
        · exact .inr ⟨by rw [h.1]; exact ha, .inl h⟩
        · exact .inl h
        · exact .inr ⟨h.1, .inr h.2⟩
      · rintro (h | ⟨h1, h | h⟩)
        · exact .inr (.inl h)
        · exact .inl h
        · exact .inr (.inr ⟨h1, h⟩)

theorem sset_keys {d : List (PyStr × PyStr)} {k v x : PyStr} (h : x ∈ (sset d k v).map Prod.fst) : x = k ∨ x ∈ d.map Prod.fst := by
  induction d with
  | nil =>
    rw [sset, List.map_singleton, List.mem_singleton] at h
    exact .inl h
  | cons e t ih =>
    rw [sset] at h
    by_cases ha : e.1 = k
    · rw [if_pos ha] at h
      exact .inr h
    · rw [if_neg ha] at h
      rcases List.mem_cons.mp h with h | h
      · exact .inr (List.mem_cons.mpr (.inl h))
      · rcases ih h with h | h
        · exact .inl h
        · exact .inr (List.mem_cons_of_mem _ h)

theorem sset_nodup {d : List (PyStr × PyStr)} {k v : PyStr} (hn : (d.map Prod.fst).Nodup) : ((sset d k v).map Prod.fst).Nodup := by
  induction d with
  | nil => simp [sset]
  | cons e t ih =>
    have hn' := hn
    rw [List.map_cons, List.nodup_cons] at hn
    rw [sset]
    by_cases ha : e.1 = k
    · rw [if_pos ha]
      exact hn'
    · rw [if_neg ha, List.map_cons, List.nodup_cons]
      refine ⟨fun h => ?_, ih hn.2⟩
      rcases sset_keys h with h | h
      · exact ha h
      · exact hn.1 h

theorem objects_iff (L : Loaded lower files B) : ∀ {rows : Dict} {acc objs : List (PyStr × PyStr)}, (acc.map Prod.fst).Nodup →
    objectBlueprints lower B rows acc = .ok objs → (objs.map Prod.fst).Nodup ∧ ∀ k c', (k, c') ∈ objs ↔
      ((∃ c, RowOf lower files rows k c ∧ lower c = c') ∨ (¬ ∃ c, RowOf lower files rows k c) ∧ (k, c') ∈ acc) := by
  intro rows
  induction rows with
  | nil =>
    intro acc objs hn h
    cases h
    have : ∀ k c, ¬ RowOf lower files [] k c := by
      rintro k c ⟨pre, n, d, post, h, -⟩
      cases pre <;> cases h
    simp [hn, this]
  | cons e t ih =>
    intro acc objs hn h
    obtain ⟨name, data⟩ := e
    -- a row that is skipped
    have skip : (∀ c, ¬ Listed lower files data c) → objectBlueprints lower B t acc = .ok objs →
        (objs.map Prod.fst).Nodup ∧ ∀ k c', (k, c') ∈ objs ↔ ((∃ c, RowOf lower files ((name, data) :: t) k c ∧ lower c = c') ∨
          (¬ ∃ c, RowOf lower files ((name, data) :: t) k c) ∧ (k, c') ∈ acc) := by
      intro hs h
      obtain ⟨h1, h2⟩ := ih hn h
      refine ⟨h1, fun k c' => ?_⟩
      rw [h2]
      have : ∀ c, RowOf lower files ((name, data) :: t) k c ↔ RowOf lower files t k c := by
        intro c
        rw [rowOf_cons]
        exact ⟨fun h => h.elim id fun h => absurd h.2.2 (hs c), .inl⟩
      simp only [this]
    rw [objectBlueprints] at h
    obtain ⟨soft, h1, h⟩ := ex_bind h
    by_cases hs : soft.isS "None" = true
    · rw [if_pos hs] at h
      rw [isS_iff] at hs
      subst hs
      exact skip (fun c hc => hc.1 h1) h
    · rw [if_neg hs] at h
      obtain ⟨cv, h2, h⟩ := ex_bind h
      obtain ⟨c, h3, h8⟩ := ex_bind h
      cases asStr_inv h3
      cases hb : B (lower c) with
      | none =>
        rw [hb, if_pos (by rfl)] at h8
        refine skip (fun c' hc => ?_) h8
        have h4 := hc.2.1
        rw [path_one, h2] at h4
        cases h4
        obtain ⟨m, hm⟩ := hc.2.2
        rw [← L.has, hb] at hm
        cases hm
      | some m =>
        rw [hb, if_neg (by simp)] at h8
        have hl : Listed lower files data c := by
          refine ⟨?_, by rw [path_one, h2], m, (L.has _ _).mp hb⟩
          rw [h1]
          intro hx
          cases hx
          exact hs (isS_iff.mpr rfl)
        obtain ⟨h4, h5⟩ := ih (sset_nodup hn) h8
        refine ⟨h4, fun k c' => ?_⟩
        rw [h5, sset_mem hn]
        by_cases hx : ∃ c, RowOf lower files t k c
        · have : ∀ c, RowOf lower files ((name, data) :: t) k c ↔ RowOf lower files t k c := by
            intro c
            rw [rowOf_cons]
            exact ⟨fun h => h.elim id fun h => absurd hx h.1, .inl⟩
          simp only [hx, this, not_true_eq_false, false_and, or_false]
        · have hrow : ∀ c2, RowOf lower files ((name, data) :: t) k c2 ↔ lower name = k ∧ c2 = c := by
            intro c2
            rw [rowOf_cons]
            constructor
            · rintro (h | h)
              · exact absurd ⟨_, h⟩ hx
              · exact ⟨h.2.1, listed_unique h.2.2 hl⟩
            · rintro ⟨hk, rfl⟩
              exact .inr ⟨hx, hk, hl⟩
          have hx' : ∀ c, ¬ RowOf lower files t k c := fun c h => hx ⟨c, h⟩
          simp only [hrow, hx', false_and, exists_false, false_or, not_false_eq_true, true_and]
          by_cases hk : lower name = k
          · subst hk
            constructor
            · rintro (hc | hc)
              · exact .inl ⟨c, ⟨rfl, rfl⟩, hc.2.symm⟩
              · exact absurd rfl hc.1
            · rintro (⟨c2, ⟨-, rfl⟩, hc⟩ | hc)
              · exact .inl ⟨rfl, hc.symm⟩
              · exact absurd ⟨c, rfl, rfl⟩ hc.1
          · have hk' : ¬ k = lower name := fun h => hk h.symm
            simp [hk, hk']

theorem classes_iff {n : Nat} : ∀ {objs : List (PyStr × PyStr)} {acc d : Dict}, (objs.map Prod.fst).Nodup →
    concreteClasses lower B n objs acc = .ok d → (∀ k c, (k, c) ∈ objs → ∃ x, concreteOf lower B n c = .ok x) ∧
      ∀ k v, dget? d k = some v ↔ ((∃ c, (k, c) ∈ objs ∧ concreteOf lower B n c = .ok (some v)) ∨
        (¬ ∃ c v, (k, c) ∈ objs ∧ concreteOf lower B n c = .ok (some v)) ∧ dget? acc k = some v) := by
  intro objs
  induction objs with
  | nil =>
    intro acc d _ h
    cases h
    simp
  | cons e t ih =>
    intro acc d hn h
    obtain ⟨name, c⟩ := e
    rw [List.map_cons, List.nodup_cons] at hn
    have hnt : ∀ c, (name, c) ∉ t := fun c h => hn.1 (List.mem_map.mpr ⟨_, h, rfl⟩)
    rw [concreteClasses] at h
    obtain ⟨x, h1, h⟩ := ex_bind h
    have hall : ∀ {acc}, concreteClasses lower B n t acc = .ok d → ∀ k c', (k, c') ∈ (name, c) :: t → ∃ x, concreteOf lower B n c' = .ok x := by
      intro acc h k c' hm
      rcases List.mem_cons.mp hm with hm | hm
      · cases hm
        exact ⟨x, h1⟩
      · exact (ih hn.2 h).1 k c' hm
    cases x with
    | none =>
      obtain ⟨-, h3⟩ := ih hn.2 h
      refine ⟨hall h, fun k v => ?_⟩
      rw [h3]
      have : ∀ c' v, ((k, c') ∈ (name, c) :: t ∧ concreteOf lower B n c' = .ok (some v)) ↔
          ((k, c') ∈ t ∧ concreteOf lower B n c' = .ok (some v)) := by
        intro c' v
        rw [List.mem_cons]
        constructor
        · rintro ⟨h | h, h'⟩
          · cases h
            rw [h1] at h'
            cases h'
          · exact ⟨h, h'⟩
        · rintro ⟨h, h'⟩
          exact ⟨.inr h, h'⟩
      simp only [this]
    | some v0 =>
      obtain ⟨-, h3⟩ := ih hn.2 h
      refine ⟨hall h, fun k v => ?_⟩
      rw [h3]
      by_cases hk : k = name
      · subst hk
        have h4 : ∀ c' v, ¬ ((k, c') ∈ t ∧ concreteOf lower B n c' = .ok (some v)) := fun c' v h => hnt c' h.1
        have h5 : ∃ c' v, (k, c') ∈ (k, c) :: t ∧ concreteOf lower B n c' = .ok (some v) := ⟨c, v0, by simp, h1⟩
        have h6 : ∀ v, (∃ c', (k, c') ∈ (k, c) :: t ∧ concreteOf lower B n c' = .ok (some v)) ↔ v0 = v := by
          intro v
          constructor
          · rintro ⟨c', h, h'⟩
            rcases List.mem_cons.mp h with h | h
            · cases h
              rw [h1] at h'
              cases h'
              rfl
            · exact absurd h (hnt c')
          · rintro rfl
            exact ⟨c, by simp, h1⟩
        rw [h6]
        simp only [h4, h5, exists_false, not_false_eq_true, true_and, false_or, not_true_eq_false, false_and, or_false]
        rw [dget_dset, Option.some.injEq]
      · have h4 : ∀ c' v, ((k, c') ∈ (name, c) :: t ∧ concreteOf lower B n c' = .ok (some v)) ↔
            ((k, c') ∈ t ∧ concreteOf lower B n c' = .ok (some v)) := by
          intro c' v
          rw [List.mem_cons]
          constructor
          · rintro ⟨h | h, h'⟩
            · exact absurd (Prod.mk.inj h).1 hk
            · exact ⟨h, h'⟩
          · rintro ⟨h, h'⟩
            exact ⟨.inr h, h'⟩
        simp only [h4]
        rw [dget_dset_ne _ _ hk]

/-! ### the limit on recursion -/

theorem resolve_mono {n : Nat} : ∀ {v : Val} {x : Except Err (Option PyStr)}, resolveConcrete lower B n v = x → x ≠ .error .fuel →
    resolveConcrete lower B (n + 1) v = x := by
  induction n with
  | zero =>
    intro v x h hx
    exact absurd h.symm hx
  | succ n ih =>
    intro v x h hx
    rw [resolveConcrete] at h ⊢
    cases hs : v.asStr with
    | error e => rw [hs] at h; exact h
    | ok s =>
      rw [hs, ex_ok] at h
      rw [ex_ok]
      by_cases h1 : (P "Class'").isPrefixOf s = true
      · rw [if_pos h1] at h ⊢
        exact h
      · rw [if_neg h1] at h ⊢
        by_cases h2 : (P "BlueprintGeneratedClass'").isPrefixOf s = true
        · rw [if_pos h2] at h ⊢
          cases hb : B (lower (removePrefix (P "BlueprintGeneratedClass'") (removeSuffix (P "_C'") s))) with
          | none => rw [hb] at h; exact h
          | some bp =>
            simp only [hb] at h ⊢
            cases hg : generatedClass bp with
            | error e => rw [hg] at h; exact h
            | ok g =>
              rw [hg, ex_ok] at h
              rw [ex_ok]
              cases g with
              | none => exact h
              | some c =>
                simp only at h ⊢
                cases hp : c.path [P "SuperStruct", P "ObjectName"] with
                | error e => rw [hp] at h; exact h
                | ok sup =>
                  rw [hp, ex_ok] at h
                  rw [ex_ok]
                  exact ih h hx
        · rw [if_neg h2] at h ⊢
          exact h

end Up

end Pal
