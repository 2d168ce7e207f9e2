import Verif.Lemmas.Argv
/-
What every accepted command line says (C68).
-/

namespace Pal
open Spec

theorem lookup_mem {s : PyStr} {a : Act} (h : lookupOption s = some a) : (s, a) ∈ optionStrings := by
  unfold lookupOption at h
  cases hf : optionStrings.find? fun x => x.1 = s with
  | none => rw [hf] at h; cases h
  | some x =>
    rw [hf] at h
    cases h
    have h1 := List.mem_of_find?_eq_some hf
    have h2 := List.find?_some hf
    simp only [decide_eq_true_eq] at h2
    rw [← h2]; exact h1

theorem lookup_none {s : PyStr} (h : lookupOption s = none) : ∀ x ∈ optionStrings, x.1 ≠ s := by
  unfold lookupOption at h
  rw [Option.map_eq_none_iff, List.find?_eq_none] at h
  intro x hx e
  exact h x hx (by simp [e])

theorem lookup_short_act {c : Nat} {a : Act} (h : lookupOption [45, c] = some a) : a = .help ∨ a = .output ∨ a = .force := by
  have key : ∀ x ∈ optionStrings, x.1.length = 2 → x.2 = .help ∨ x.2 = .output ∨ x.2 = .force := by decide
  exact key _ (lookup_mem h) rfl

theorem short_tuples_one {c : Nat} (hc : c ≠ 45) (h : lookupOption [45, c] = none) : optionTuples [45, c] = [] := by
  have hn := lookup_none h
  have e1 : optionTuples [45, c] = optionStrings.filterMap fun x =>
      if x.1 = [45, c] then some ⟨some x.2, false, false, some []⟩
      else if ([45, c] : PyStr).isPrefixOf x.1 then some ⟨some x.2, isLong x.1, false, none⟩
      else none := by
    unfold optionTuples
    split
    · rename_i h; simp at h; exact absurd h.1 hc
    · simp
  rw [e1, List.filterMap_eq_nil_iff]
  intro x hx
  rw [if_neg (hn x hx), if_neg]
  rw [List.isPrefixOf_iff_prefix]
  rintro ⟨t, ht⟩
  have : ∀ y ∈ optionStrings, y.1.length = 2 ∨ y.1.take 2 = [45, 45] := by decide
  rcases this x hx with h2 | h2
  · have : t = [] := by
      have := congrArg List.length ht
      simp at this
      exact List.length_eq_zero_iff.1 (by omega)
    subst this
    exact hn x hx (by rw [← ht]; rfl)
  · rw [← ht] at h2
    simp at h2
    exact hc h2

theorem partitionEq_suffix : ∀ {s v : PyStr}, (partitionEq s).2 = some v → v <:+ s
  | [], v, h => by cases h
  | c :: t, v, h => by
    rw [partitionEq] at h
    split at h
    · cases h; exact List.suffix_cons _ _
    · exact (partitionEq_suffix h).trans (List.suffix_cons _ _)

theorem partitionEq_prefix : ∀ (s : PyStr), (partitionEq s).1 <+: s
  | [] => by simp [partitionEq]
  | c :: t => by
    rw [partitionEq]
    split
    · simp
    · exact (List.cons_prefix_cons).2 ⟨rfl, partitionEq_prefix t⟩

theorem partitionEq_name : ∀ (s : PyStr), (partitionEq s).1 = namePart s
  | [] => rfl
  | c :: t => by
    rw [partitionEq, namePart, List.takeWhile_cons]
    by_cases h : c = 61
    · simp [h]
    · simp only [if_neg h, ne_eq, h, not_false_eq_true, decide_true, if_true]
      rw [partitionEq_name t]; rfl

theorem partitionEq_snd_none : ∀ {s : PyStr}, (partitionEq s).2 = none → partitionEq s = (s, none)
  | [], _ => rfl
  | c :: t, h => by
    rw [partitionEq] at h ⊢
    by_cases hc : c = 61
    · rw [if_pos hc] at h; cases h
    · rw [if_neg hc] at h ⊢
      rw [partitionEq_snd_none h]

theorem isLong_of_prefix {e n : PyStr} (h : (partitionEq (45 :: 45 :: e)).1 <+: n) : isLong n = true := by
  obtain ⟨t, rfl⟩ := h
  rw [isLong, List.isPrefixOf_iff_prefix, partitionEq, if_neg (by decide), partitionEq, if_neg (by decide)]
  exact ⟨(partitionEq e).1 ++ t, rfl⟩

/-- What `_parse_optional` finds in a word. -/
theorem parse_some {digit : Nat → Bool} {s : PyStr} {x : OptTuple} (h : parseOptional digit s = .ok (some x)) :
    (x.act = none ∧ x.explicit = none) ∨
    (∃ n a, (n, a) ∈ optionStrings ∧ x.act = some a ∧ x.explicit = none ∧
      (s = n ∨ (optionStrings.filter fun y => s.isPrefixOf y.1) = [(n, a)])) ∨
    (∃ n a v, (n, a) ∈ optionStrings ∧ x.act = some a ∧ x.long = isLong n ∧ x.explicit = some v ∧ v <:+ s ∧
      (isLong n = false → n <+: s)) := by
  unfold parseOptional at h
  cases s with
  | nil => cases h
  | cons c t =>
    simp only at h
    by_cases hc : c = 45
    · subst hc
      rw [if_neg (by simp)] at h
      cases hl : lookupOption (45 :: t) with
      | some a =>
        rw [hl] at h
        cases h
        exact Or.inr (Or.inl ⟨_, a, lookup_mem hl, rfl, rfl, Or.inl rfl⟩)
      | none =>
        rw [hl] at h
        simp only at h
        by_cases ht : t = []
        · rw [if_pos ht] at h; cases h
        rw [if_neg ht] at h
        split at h
        · rename_i v a hv ha
          cases h
          exact Or.inr (Or.inr ⟨_, a, v, lookup_mem ha, rfl, rfl, rfl, partitionEq_suffix hv, fun _ => partitionEq_prefix _⟩)
        · split at h
          · cases h
          · rename_i y hy
            cases h
            cases t with
            | nil => exact absurd rfl ht
            | cons d e =>
              by_cases hd : d = 45
              · subst hd
                simp only [optionTuples] at hy
                cases hf : optionStrings.filter fun x => (partitionEq (45 :: 45 :: e)).1.isPrefixOf x.1 with
                | nil => rw [hf] at hy; cases hy
                | cons z w =>
                  rw [hf] at hy
                  cases w with
                  | cons _ _ => cases hy
                  | nil =>
                    cases hy
                    have hz : z ∈ optionStrings ∧ _ := List.mem_filter.1 (show z ∈ _ by rw [hf]; exact List.mem_cons_self)
                    have hz2 := List.isPrefixOf_iff_prefix.1 hz.2
                    cases hp : (partitionEq (45 :: 45 :: e)).2 with
                    | none =>
                      have e1 : (partitionEq (45 :: 45 :: e)).1 = 45 :: 45 :: e := by
                        rw [partitionEq_snd_none hp]
                      rw [e1] at hf
                      exact Or.inr (Or.inl ⟨z.1, z.2, hz.1, rfl, rfl, Or.inr hf⟩)
                    | some v =>
                      refine Or.inr (Or.inr ⟨z.1, z.2, v, hz.1, rfl, ?_, rfl, partitionEq_suffix hp, ?_⟩)
                      · rw [isLong_of_prefix hz2]
                      · intro h; rw [isLong_of_prefix hz2] at h; cases h
              · cases e with
                | nil => rw [short_tuples_one hd hl] at hy; cases hy
                | cons f g =>
                  rw [short_tuples hd (by simp)] at hy
                  cases ha : lookupOption [45, d] with
                  | none => rw [ha] at hy; cases hy
                  | some a =>
                    rw [ha] at hy
                    cases hy
                    refine Or.inr (Or.inr ⟨_, a, f :: g, lookup_mem ha, rfl, ?_, rfl, ?_, ?_⟩)
                    · symm
                      rw [isLong, Bool.eq_false_iff, ne_eq, List.isPrefixOf_iff_prefix]
                      rintro ⟨t, ht⟩
                      exact hd (List.cons.inj (List.cons.inj ht).2).1.symm
                    · exact ⟨[45, d], rfl⟩
                    · intro _; exact ⟨f :: g, rfl⟩
          · split at h
            · cases h
            · split at h
              · cases h
              · cases h
                exact Or.inl ⟨rfl, rfl⟩
    · rw [if_pos hc] at h; cases h

/-! ### Options -/

/-- What an option with a value in its word leads to. -/
theorem runExplicit_ok : ∀ {n : Nat} {a : Act} {long sep : Bool} {e : PyStr} {r : OptRun},
    runExplicit n a long sep e = .ok r →
    (a.takesArg = true ∧ r = ⟨[(a, some e)], false, none⟩) ∨
    (a.takesArg = false ∧ long = false ∧ (a, none) ∈ r.acts ∧
      (∀ b, (∃ v, (b, v) ∈ r.acts) ∨ r.needs = some b → b = a ∨ b = .help ∨ b = .output ∨ b = .force) ∧
      ∀ b v, (b, some v) ∈ r.acts → v <:+ e)
  | 0, _, _, _, _, _, h => by cases h
  | n + 1, a, long, sep, e, r, h => by
    rw [runExplicit.eq_def] at h
    simp only at h
    by_cases ha : a.takesArg = true
    · rw [if_pos ha] at h
      cases h
      exact Or.inl ⟨ha, rfl⟩
    rw [if_neg ha] at h
    rw [Bool.not_eq_true] at ha
    cases e with
    | nil => cases h
    | cons c t =>
      simp only at h
      by_cases hl : long = true
      · rw [if_pos hl] at h; cases h
      rw [if_neg hl] at h
      rw [Bool.not_eq_true] at hl
      split at h
      · cases h
      cases hk : lookupOption [45, c] with
      | none =>
        rw [hk] at h
        cases h
        refine Or.inr ⟨ha, hl, by simp, ?_, ?_⟩
        · rintro b (⟨v, hb⟩ | hb)
          · simp at hb; exact Or.inl hb.1
          · cases hb
        · intro b v hb; simp at hb
      | some a' =>
        have ha' := lookup_short_act hk
        rw [hk] at h
        simp only at h
        cases hn : nextExplicit t with
        | none =>
          rw [hn] at h
          cases h
          refine Or.inr ⟨ha, hl, by simp, ?_, ?_⟩
          · rintro b (⟨v, hb⟩ | hb)
            · rcases List.mem_cons.1 hb with hb | hb
              · cases hb; exact Or.inl rfl
              · unfold runBare at hb
                split at hb
                · cases hb
                · simp at hb; exact Or.inr (hb.1 ▸ ha')
            · simp only [runBare] at hb
              split at hb
              · cases hb; exact Or.inr ha'
              · cases hb
          · intro b v hb
            rcases List.mem_cons.1 hb with hb | hb
            · cases hb
            · unfold runBare at hb
              split at hb
              · cases hb
              · simp at hb
        | some y =>
          rw [hn] at h
          simp only at h
          cases hr : runExplicit n a' false y.1 y.2 with
          | error _ => rw [hr] at h; cases h
          | ok z =>
            rw [hr] at h
            cases h
            have hy : y.2 <:+ t := by
              cases t with
              | nil => cases hn
              | cons d u =>
                rw [nextExplicit] at hn
                split at hn
                · cases hn; exact List.suffix_cons _ _
                · cases hn; exact List.suffix_refl _
            have ih := runExplicit_ok hr
            refine Or.inr ⟨ha, hl, by simp, ?_, ?_⟩
            · rintro b hb
              have hb' : b = a ∨ (∃ v, (b, v) ∈ z.acts) ∨ z.needs = some b := by
                rcases hb with ⟨v, hb⟩ | hb
                · rcases List.mem_cons.1 hb with hb | hb
                  · cases hb; exact Or.inl rfl
                  · exact Or.inr (Or.inl ⟨v, hb⟩)
                · exact Or.inr (Or.inr hb)
              rcases hb' with rfl | hb'
              · exact Or.inl rfl
              · rcases ih with ⟨_, rfl⟩ | ⟨_, _, _, ih, _⟩
                · rcases hb' with ⟨v, hb'⟩ | hb'
                  · simp at hb'; exact Or.inr (hb'.1 ▸ ha')
                  · cases hb'
                · rcases ih b hb' with rfl | h
                  · exact Or.inr ha'
                  · exact Or.inr h
            · intro b v hb
              rcases List.mem_cons.1 hb with hb | hb
              · cases hb
              · rcases ih with ⟨_, rfl⟩ | ⟨_, _, _, _, ih⟩
                · simp at hb
                  rw [hb.2]
                  exact hy.trans (List.suffix_cons _ _)
                · exact (ih b v hb).trans (hy.trans (List.suffix_cons _ _))

/-- Only usage errors. -/
theorem runExplicit_error : ∀ {n : Nat} {a : Act} {long sep : Bool} {e : PyStr} {x : Err},
    runExplicit n a long sep e = .error x → e.length < n → x = .exit 2
  | 0, _, _, _, _, _, _, h => by omega
  | n + 1, a, long, sep, e, x, h, hl => by
    rw [runExplicit.eq_def] at h
    simp only at h
    split at h
    · cases h
    cases e with
    | nil => cases h; rfl
    | cons c t =>
      simp only at h
      split at h
      · cases h; rfl
      split at h
      · cases h; rfl
      cases hk : lookupOption [45, c] with
      | none => rw [hk] at h; cases h
      | some a' =>
        rw [hk] at h
        simp only at h
        cases hn : nextExplicit t with
        | none => rw [hn] at h; cases h
        | some y =>
          rw [hn] at h
          simp only at h
          have hy : y.2.length ≤ t.length := by
            cases t with
            | nil => cases hn
            | cons d u =>
              rw [nextExplicit] at hn
              split at hn
              · cases hn; simp
              · cases hn; simp
          cases hr : runExplicit n a' false y.1 y.2 with
          | error _ =>
            rw [hr] at h; cases h
            exact runExplicit_error hr (by simp at hl; omega)
          | ok z => rw [hr] at h; cases h

theorem runOption_error {x : OptTuple} {e : Err} (h : runOption x = .error e) : e = .exit 2 := by
  unfold runOption at h
  split at h
  · cases h
  · split at h
    · exact runExplicit_error h (by omega)
    · cases h

/-- The option leads to the action, and not to the help text. -/
def Gives (x : OptTuple) (a : Act) : Prop :=
  ∃ r, runOption x = .ok r ∧ (∀ v, (.help, v) ∉ r.acts) ∧ ((∃ v, (a, v) ∈ r.acts) ∨ r.needs = some a)

/-! ### The second loop -/

def flagOf : Act → ArgState → Bool
  | .toJson, st => st.toJson
  | .fromJson, st => st.fromJson
  | .force, st => st.force
  | .nan, st => st.nan
  | .minify, st => st.minify
  | _, _ => false

def valueOf : Act → ArgState → Option PyStr
  | .output, st => st.output
  | .keys, st => st.keys
  | _, _ => none

theorem takeActs_inv : ∀ {acts : List (Act × Option PyStr)} {st st' : ArgState}, takeActs st acts = .ok st' →
    (∀ v, (.help, v) ∉ acts) ∧ (∀ a, flagOf a st' = true → flagOf a st = true ∨ ∃ v, (a, v) ∈ acts) ∧
    (∀ a v, valueOf a st' = some v → valueOf a st = some v ∨ (a, some v) ∈ acts) ∧
    st'.filename = st.filename ∧ st'.extras = st.extras
  | [], st, st', h => by
    cases h
    exact ⟨by simp, fun a h => Or.inl h, fun a v h => Or.inl h, rfl, rfl⟩
  | (b, w) :: t, st, st', h => by
    rw [takeActs] at h
    cases h1 : takeAct st (b, w) with
    | error _ => rw [h1] at h; cases h
    | ok s1 =>
      rw [h1] at h
      obtain ⟨i1, i2, i3, i4, i5⟩ := takeActs_inv h
      have key : b ≠ .help ∧ (∀ a, flagOf a s1 = true → flagOf a st = true ∨ a = b) ∧
          (∀ a v, valueOf a s1 = some v → valueOf a st = some v ∨ (a = b ∧ w = some v)) ∧
          s1.filename = st.filename ∧ s1.extras = st.extras := by
        cases b <;> simp only [takeAct] at h1 <;> cases h1 <;>
          refine ⟨by simp, fun a => ?_, fun a v => ?_, rfl, rfl⟩ <;> cases a <;> simp [flagOf, valueOf]
        · intro h; exact Or.inr h
        · intro h; exact Or.inr h
      obtain ⟨k1, k2, k3, k4, k5⟩ := key
      refine ⟨?_, ?_, ?_, i4.trans k4, i5.trans k5⟩
      · intro v hv
        rcases List.mem_cons.1 hv with hv | hv
        · cases hv; exact k1 rfl
        · exact i1 v hv
      · intro a ha
        rcases i2 a ha with ha | ⟨v, ha⟩
        · rcases k2 a ha with ha | rfl
          · exact Or.inl ha
          · exact Or.inr ⟨w, by simp⟩
        · exact Or.inr ⟨v, List.mem_cons_of_mem _ ha⟩
      · intro a v ha
        rcases i3 a v ha with ha | ha
        · rcases k3 a v ha with ha | ⟨rfl, rfl⟩
          · exact Or.inl ha
          · exact Or.inr (by simp)
        · exact Or.inr (List.mem_cons_of_mem _ ha)

theorem takeActs_error : ∀ {acts : List (Act × Option PyStr)} {st : ArgState} {e : Err}, takeActs st acts = .error e → e = .exit 0
  | [], _, _, h => by cases h
  | (b, w) :: t, st, e, h => by
    rw [takeActs] at h
    cases h1 : takeAct st (b, w) with
    | error _ =>
      rw [h1] at h; cases h
      cases b <;> simp only [takeAct] at h1 <;> cases h1
      rfl
    | ok s1 => rw [h1] at h; exact takeActs_error h

/-- What the second loop has done in the end. -/
structure Done (l : List Tok) (st st' : ArgState) : Prop where
  flag : ∀ a, flagOf a st' = true → flagOf a st = true ∨ ∃ x, .opt x ∈ l ∧ Gives x a
  value : ∀ a v, valueOf a st' = some v → valueOf a st = some v ∨ .arg v ∈ l ∨
    ∃ x r, .opt x ∈ l ∧ runOption x = .ok r ∧ (a, some v) ∈ r.acts
  file : ∀ f, st'.filename = some f → st.filename = some f ∨ .arg f ∈ l
  extras : st.extras = true → st'.extras = true
  unknown : ∀ x, .opt x ∈ l → x.act = none → st'.extras = true

theorem Done.weaken {l l' : List Tok} {st s1 st' : ArgState} (h : Done l s1 st') (hl : ∀ t ∈ l, t ∈ l')
    (hf : ∀ a, flagOf a s1 = true → flagOf a st = true ∨ ∃ x, .opt x ∈ l' ∧ Gives x a)
    (hv : ∀ a v, valueOf a s1 = some v → valueOf a st = some v ∨ .arg v ∈ l' ∨
      ∃ x r, .opt x ∈ l' ∧ runOption x = .ok r ∧ (a, some v) ∈ r.acts)
    (hn : ∀ f, s1.filename = some f → st.filename = some f ∨ .arg f ∈ l') (he : st.extras = true → s1.extras = true)
    (hu : ∀ x, .opt x ∈ l' → .opt x ∉ l → x.act = none → s1.extras = true) : Done l' st st' where
  flag a ha := by
    rcases h.flag a ha with ha | ⟨x, hx, hg⟩
    · exact hf a ha
    · exact Or.inr ⟨x, hl _ hx, hg⟩
  value a v ha := by
    rcases h.value a v ha with ha | ha | ⟨x, r, hx, hr, hm⟩
    · exact hv a v ha
    · exact Or.inr (Or.inl (hl _ ha))
    · exact Or.inr (Or.inr ⟨x, r, hl _ hx, hr, hm⟩)
  file f hf := by
    rcases h.file f hf with hf | hf
    · exact hn f hf
    · exact Or.inr (hl _ hf)
  extras hx := h.extras (he hx)
  unknown x hx ha := by
    by_cases hm : Tok.opt x ∈ l
    · exact h.unknown x hm ha
    · exact h.extras (hu x hx hm ha)

/-- The state with a file name or with something left over. -/
theorem Done.word {l l' : List Tok} {st s1 st' : ArgState} (h : Done l s1 st') (hl : ∀ t ∈ l, t ∈ l')
    (h1 : s1 = { st with extras := true } ∨ ∃ s, .arg s ∈ l' ∧ s1 = { st with filename := some s })
    (hu : ∀ x, .opt x ∈ l' → .opt x ∈ l) : Done l' st st' := by
  rcases h1 with rfl | ⟨s, hs, rfl⟩
  · exact h.weaken hl (fun a ha => Or.inl (by cases a <;> exact ha)) (fun a v ha => Or.inl (by cases a <;> exact ha))
      (fun f hf => Or.inl hf) (fun _ => rfl) (fun x hx hn => absurd (hu x hx) hn)
  · refine h.weaken hl (fun a ha => Or.inl (by cases a <;> exact ha)) (fun a v ha => Or.inl (by cases a <;> exact ha))
      (fun f hf => Or.inr ?_) (fun h => h) (fun x hx hn => absurd (hu x hx) hn)
    cases hf; exact hs

theorem runOption_unknown {x : OptTuple} (h : x.act = none) : runOption x = .ok ⟨[], true, none⟩ := by
  unfold runOption; rw [h]

theorem consume_done (l : List Tok) (st st' : ArgState) (h : consume l st = .ok st') : Done l st st' := by
  fun_induction consume l st with
  | case1 st =>
    cases h
    exact ⟨fun a h => Or.inl h, fun a v h => Or.inl h, fun f h => Or.inl h, fun h => h, fun x hx => by cases hx⟩
  | case2 s t st hn ih =>
    exact (ih h).word (by simp +contextual) (Or.inr ⟨s, by simp, rfl⟩) (by simp)
  | case3 s t st hn ih =>
    exact (ih h).word (by simp +contextual) (Or.inl rfl) (by simp)
  | case4 s t st _ hn ih =>
    exact (ih h).word (by simp +contextual) (Or.inr ⟨s, by simp, rfl⟩) (by simp)
  | case5 s t st _ hn ih =>
    exact (ih h).word (by simp +contextual) (Or.inl rfl) (by simp)
  | case6 s t st hn ih =>
    exact (ih h).word (by simp +contextual) (Or.inr ⟨s, by simp, rfl⟩) (by simp)
  | case7 s t st hn ih =>
    exact (ih h).word (by simp +contextual) (Or.inl rfl) (by simp)
  | case8 t st _ ih =>
    exact (ih h).word (by simp +contextual) (Or.inl rfl) (by simp)
  | case9 => cases h
  | case10 => cases h
  | case11 x t st r hr hn s1 ha ih =>
    obtain ⟨i1, i2, i3, i4, i5⟩ := takeActs_inv ha
    refine (ih h).weaken (by simp +contextual) ?_ ?_ ?_ ?_ ?_
    · intro a h
      rcases i2 a (by cases a <;> exact h) with h | h
      · exact Or.inl h
      · exact Or.inr ⟨x, by simp, r, hr, i1, Or.inl h⟩
    · intro a v h
      rcases i3 a v (by cases a <;> exact h) with h | h
      · exact Or.inl h
      · exact Or.inr (Or.inr ⟨x, r, by simp, hr, h⟩)
    · intro f hf
      exact Or.inl (i4 ▸ hf)
    · intro h
      show (s1.extras || r.extra) = true
      rw [i5, h]; rfl
    · intro y hy hy' hu
      have : y = x := by
        rcases List.mem_cons.1 hy with hy | hy
        · cases hy; rfl
        · exact absurd hy hy'
      subst this
      rw [runOption_unknown hu] at hr
      cases hr
      show (s1.extras || true) = true
      rw [Bool.or_true]
  | case12 => cases h
  | case13 x st r hr a hn v t s1 ha ih =>
    obtain ⟨i1, i2, i3, i4, i5⟩ := takeActs_inv ha
    refine (ih h).weaken (by simp +contextual) ?_ ?_ ?_ ?_ ?_
    · intro b h
      rcases i2 b (by cases b <;> exact h) with h | ⟨w, h⟩
      · exact Or.inl h
      · refine Or.inr ⟨x, by simp, r, hr, fun v hv => i1 v (List.mem_append_left _ hv), ?_⟩
        rcases List.mem_append.1 h with h | h
        · exact Or.inl ⟨w, h⟩
        · simp at h; exact Or.inr (by rw [hn, h.1])
    · intro b w h
      rcases i3 b w (by cases b <;> exact h) with h | h
      · exact Or.inl h
      · rcases List.mem_append.1 h with h | h
        · exact Or.inr (Or.inr ⟨x, r, by simp, hr, h⟩)
        · simp at h; exact Or.inr (Or.inl (by simp [h.2]))
    · intro f hf
      exact Or.inl (i4 ▸ hf)
    · intro h
      show (s1.extras || r.extra) = true
      rw [i5, h]; rfl
    · intro y hy hy' hu
      have : y = x := by
        rcases List.mem_cons.1 hy with hy | hy
        · cases hy; rfl
        · rcases List.mem_cons.1 hy with hy | hy
          · cases hy
          · exact absurd hy hy'
      subst this
      rw [runOption_unknown hu] at hr
      cases hr
      cases hn
  | case14 => cases h

theorem consume_error (l : List Tok) (st : ArgState) (e : Err) (h : consume l st = .error e) : e = .exit 0 ∨ e = .exit 2 := by
  fun_induction consume l st <;> (first | cases h | skip)
  all_goals first
    | (rename_i ih; exact ih h)
    | exact Or.inr rfl
    | (rename_i hr; exact Or.inr (runOption_error hr))
    | (rename_i hr; exact Or.inl (takeActs_error hr))

theorem parseOptional_error {digit : Nat → Bool} {s : PyStr} {e : Err} (h : parseOptional digit s = .error e) : e = .exit 2 := by
  unfold parseOptional at h
  repeat' split at h
  all_goals first
    | cases h; done
    | (cases h; rfl)

theorem classify_error {digit : Nat → Bool} : ∀ {l : List PyStr} {e : Err}, classify digit l = .error e → e = .exit 2
  | [], _, h => by cases h
  | s :: t, e, h => by
    rw [classify] at h
    split at h
    · cases h
    · cases hp : parseOptional digit s with
      | error _ => rw [hp] at h; cases h; exact parseOptional_error hp
      | ok o =>
        rw [hp] at h
        simp only at h
        cases ht : classify digit t with
        | error _ => rw [ht] at h; cases h; exact classify_error ht
        | ok l => rw [ht] at h; cases h

/-- Where the tokens come from. -/
theorem classify_mem {digit : Nat → Bool} : ∀ {l : List PyStr} {toks : List Tok}, classify digit l = .ok toks →
    (∀ x, .opt x ∈ toks → ∃ s ∈ l, parseOptional digit s = .ok (some x)) ∧ ∀ s, .arg s ∈ toks → s ∈ l
  | [], _, h => by cases h; simp
  | s :: t, toks, h => by
    rw [classify] at h
    split at h
    · cases h
      refine ⟨?_, ?_⟩
      · intro x hx; simp at hx
      · intro y hy; simp at hy; exact List.mem_cons_of_mem _ hy
    · cases hp : parseOptional digit s with
      | error _ => rw [hp] at h; cases h
      | ok o =>
        rw [hp] at h
        simp only at h
        cases ht : classify digit t with
        | error _ => rw [ht] at h; cases h
        | ok l =>
          rw [ht] at h; cases h
          obtain ⟨i1, i2⟩ := classify_mem ht
          refine ⟨?_, ?_⟩
          · intro x hx
            rcases List.mem_cons.1 hx with hx | hx
            · cases o with
              | none => cases hx
              | some y => cases hx; exact ⟨s, by simp, hp⟩
            · obtain ⟨u, hu, hu'⟩ := i1 x hx
              exact ⟨u, List.mem_cons_of_mem _ hu, hu'⟩
          · intro y hy
            rcases List.mem_cons.1 hy with hy | hy
            · cases o with
              | none => cases hy; simp
              | some z => cases hy
            · exact List.mem_cons_of_mem _ (i2 y hy)

theorem classify_at {digit : Nat → Bool} {s : PyStr} {x : OptTuple} {post : List PyStr} (h1 : s ≠ P "--")
    (h2 : parseOptional digit s = .ok (some x)) : ∀ {pre : List PyStr} {toks : List Tok}, P "--" ∉ pre →
    classify digit (pre ++ s :: post) = .ok toks → .opt x ∈ toks
  | [], toks, _, h => by
    rw [List.nil_append, classify_word digit h1 h2] at h
    cases hp : classify digit post with
    | error _ => rw [hp] at h; cases h
    | ok l => rw [hp] at h; cases h; exact List.mem_cons_self
  | u :: pre, toks, hn, h => by
    rw [List.mem_cons, not_or] at hn
    rw [List.cons_append, classify, if_neg (Ne.symm hn.1)] at h
    cases hp : parseOptional digit u with
    | error _ => rw [hp] at h; cases h
    | ok o =>
      rw [hp] at h
      simp only at h
      cases ht : classify digit (pre ++ s :: post) with
      | error _ => rw [ht] at h; cases h
      | ok l =>
        rw [ht] at h; cases h
        exact List.mem_cons_of_mem _ (classify_at h1 h2 hn.2 ht)

/-! ### What is asked for -/

/-- The short option, the shortest abbreviation and the long option of a flag. -/
def askOf : Act → Option PyStr × PyStr × PyStr
  | .toJson => (none, P "--t", P "--to-json")
  | .fromJson => (none, P "--fr", P "--from-json")
  | .force => (some (P "-f"), P "--fo", P "--force")
  | .nan => (none, P "--co", P "--convert-nan-to-null")
  | .minify => (none, P "--m", P "--minify-json")
  | _ => (none, [], [])

def Act.isFlag (a : Act) : Bool := !a.takesArg && a != .help

def askCheck : Bool :=
  optionStrings.all fun y => !y.2.isFlag || (List.range (y.1.length + 1)).all fun k =>
    !decide ((optionStrings.filter fun z => (y.1.take k).isPrefixOf z.1) = [y]) ||
      (match (askOf y.2).1 with
        | some n => n.isPrefixOf (y.1.take k)
        | none => false) ||
      ((askOf y.2).2.1.isPrefixOf (y.1.take k) && (y.1.take k).isPrefixOf (askOf y.2).2.2)

theorem askCheck_ok : askCheck = true := by decide +kernel

theorem asks_of_filter {s n : PyStr} {a : Act} (hf : a.isFlag = true)
    (h : (optionStrings.filter fun y => s.isPrefixOf y.1) = [(n, a)]) :
    AsksFor (askOf a).1 (askOf a).2.1 (askOf a).2.2 s := by
  have hm : (n, a) ∈ optionStrings ∧ _ := List.mem_filter.1 (show (n, a) ∈ _ by rw [h]; exact List.mem_cons_self)
  have hp : s <+: n := List.isPrefixOf_iff_prefix.1 hm.2
  have h1 := List.all_eq_true.1 askCheck_ok _ hm.1
  rw [hf] at h1
  simp only [Bool.not_true, Bool.false_or] at h1
  have h2 := List.all_eq_true.1 h1 s.length (List.mem_range.2 (by have := hp.length_le; omega))
  rw [← List.prefix_iff_eq_take.1 hp] at h2
  rw [h] at h2
  simp only [decide_true, Bool.not_true, Bool.false_or, Bool.or_eq_true, Bool.and_eq_true, List.isPrefixOf_iff_prefix] at h2
  rcases h2 with h2 | h2
  · cases hk : (askOf a).1 with
    | none => rw [hk] at h2; cases h2
    | some m => rw [hk] at h2; exact Or.inl ⟨m, rfl, List.isPrefixOf_iff_prefix.1 h2⟩
  · exact Or.inr h2

theorem filter_exact : ∀ y ∈ optionStrings, (optionStrings.filter fun z => y.1.isPrefixOf z.1) = [y] := by decide +kernel

theorem gives_asks {digit : Nat → Bool} {s : PyStr} {x : OptTuple} {b : Act} (hb : b.isFlag = true)
    (h : parseOptional digit s = .ok (some x)) (hg : Gives x b) : AsksFor (askOf b).1 (askOf b).2.1 (askOf b).2.2 s := by
  obtain ⟨r, hr, hh, hv⟩ := hg
  have hb' : b.takesArg = false ∧ b ≠ .help := by
    simp only [Act.isFlag, Bool.and_eq_true, Bool.not_eq_true', bne_iff_ne] at hb; exact hb
  rcases parse_some h with ⟨h1, h2⟩ | ⟨n, a, hm, ha, he, hs⟩ | ⟨n, a, v, hm, ha, hl, he, hs, hp⟩
  · rw [runOption_unknown h1] at hr
    cases hr
    rcases hv with ⟨v, hv⟩ | hv <;> cases hv
  · unfold runOption at hr
    rw [ha] at hr
    simp only [he] at hr
    cases hr
    have : b = a := by
      unfold runBare at hv
      split at hv
      · rcases hv with ⟨v, hv⟩ | hv
        · cases hv
        · cases hv; rfl
      · rcases hv with ⟨v, hv⟩ | hv
        · simp at hv; exact hv.1
        · cases hv
    subst this
    rcases hs with rfl | hs
    · exact asks_of_filter hb (filter_exact _ hm)
    · exact asks_of_filter hb hs
  · unfold runOption at hr
    rw [ha] at hr
    simp only [he] at hr
    rcases runExplicit_ok hr with ⟨ht, rfl⟩ | ⟨ht, hlf, hma, hk, _⟩
    · exfalso
      rcases hv with ⟨w, hv⟩ | hv
      · simp at hv; rw [hv.1, ht] at hb'; exact absurd hb'.1 (by simp)
      · cases hv
    · rw [hl] at hlf
      have key : ∀ y ∈ optionStrings, isLong y.1 = false → y.2.takesArg = false → y.2 = .help ∨ y = (P "-f", .force) := by decide +kernel
      rcases key _ hm hlf ht with h0 | h0
      · simp only at h0
        rw [h0] at hma
        exact absurd hma (hh none)
      · cases h0
        have : b = .force := by
          rcases hk b hv with rfl | h | h | h
          · rfl
          · exact absurd h hb'.2
          · rw [h] at hb'; exact absurd hb'.1 (by decide)
          · exact h
        subst this
        exact Or.inl ⟨_, rfl, hp hlf⟩

/-- A value in an option is the end of its word. -/
theorem value_suffix {digit : Nat → Bool} {s : PyStr} {x : OptTuple} {r : OptRun} {b : Act} {v : PyStr}
    (h : parseOptional digit s = .ok (some x)) (hr : runOption x = .ok r) (hv : (b, some v) ∈ r.acts) : v <:+ s := by
  rcases parse_some h with ⟨h1, h2⟩ | ⟨n, a, hm, ha, he, hs⟩ | ⟨n, a, w, hm, ha, hl, he, hs, hp⟩
  · rw [runOption_unknown h1] at hr
    cases hr
    cases hv
  · unfold runOption at hr
    rw [ha] at hr
    simp only [he] at hr
    cases hr
    unfold runBare at hv
    split at hv
    · cases hv
    · simp at hv
  · unfold runOption at hr
    rw [ha] at hr
    simp only [he] at hr
    rcases runExplicit_ok hr with ⟨ht, rfl⟩ | ⟨ht, hlf, hma, hk, hx⟩
    · simp at hv; rw [hv.2]; exact hs
    · exact (hx b v hv).trans hs

/-! ### Unknown options -/

theorem numberBody_inv {digit : Nat → Bool} {r : PyStr} (h : numberBody digit r = true) :
    ∃ a b : PyStr, (∀ c ∈ a, digit c = true) ∧ (∀ c ∈ b, digit c = true) ∧ b ≠ [] ∧ (r = b ∨ r = a ++ 46 :: b) := by
  unfold numberBody at h
  rw [Bool.or_eq_true] at h
  rcases h with h | h
  · simp only [Bool.and_eq_true, Bool.not_eq_true', List.isEmpty_eq_false_iff, List.all_eq_true] at h
    exact ⟨[], r, by simp, h.2, h.1, .inl rfl⟩
  · cases e : r.dropWhile digit with
    | nil => rw [e] at h; cases h
    | cons c t =>
      rw [e] at h
      simp only [Bool.and_eq_true, Bool.not_eq_true', List.isEmpty_eq_false_iff, List.all_eq_true, beq_iff_eq] at h
      obtain ⟨⟨rfl, h1⟩, h2⟩ := h
      refine ⟨r.takeWhile digit, t, fun c hc => List.all_eq_true.1 List.all_takeWhile c hc, h2, h1, .inr ?_⟩
      rw [← e, List.takeWhile_append_dropWhile]

theorem negativeNumber_false {digit : Nat → Bool} {s : PyStr} (h : ¬ NegativeNumber digit s) : negativeNumber digit s = false := by
  rw [Bool.eq_false_iff]
  intro k
  apply h
  unfold negativeNumber at k
  split at k
  · next r =>
    rw [Bool.or_eq_true, Bool.and_eq_true, beq_iff_eq] at k
    rcases k with k | ⟨k1, k2⟩
    · obtain ⟨a, b, h1, h2, h3, h4⟩ := numberBody_inv k
      exact ⟨a, b, [], h1, h2, h3, .inl rfl, by simpa using h4⟩
    · obtain ⟨a, b, h1, h2, h3, h4⟩ := numberBody_inv k2
      have e : r = r.dropLast ++ [10] := by
        obtain ⟨l, rfl⟩ := List.getLast?_eq_some_iff.1 k1
        rw [List.dropLast_concat]
      refine ⟨a, b, [10], h1, h2, h3, .inr rfl, ?_⟩
      rw [e]
      rcases h4 with h4 | h4 <;> rw [h4] <;> simp
  · cases k

theorem unknown_parse {digit : Nat → Bool} {s : PyStr} (h : Unknown digit s) :
    s ≠ P "--" ∧ ∃ x, parseOptional digit s = .ok (some x) ∧ x.act = none := by
  obtain ⟨h32, hnn, c, r, rfl, h⟩ := h
  have longs : ∀ y ∈ optionStrings, y.1 ∈ longNames ∨ ∃ c, c ≠ 45 ∧ c ∈ P "hof" ∧ y.1 = [45, c] := by
    intro y hy
    have : ∀ y ∈ optionStrings, y.1 ∈ longNames ∨ y.1 = [45, 104] ∨ y.1 = [45, 111] ∨ y.1 = [45, 102] := by decide +kernel
    rcases this y hy with h | h | h | h
    · exact Or.inl h
    · exact Or.inr ⟨_, by decide, by decide, h⟩
    · exact Or.inr ⟨_, by decide, by decide, h⟩
    · exact Or.inr ⟨_, by decide, by decide, h⟩
  have hn : negativeNumber digit (45 :: c :: r) = false := negativeNumber_false hnn
  have fin : lookupOption (45 :: c :: r) = none → lookupOption (partitionEq (45 :: c :: r)).1 = none →
      optionTuples (45 :: c :: r) = [] →
      parseOptional digit (45 :: c :: r) = .ok (some ⟨none, isLong (45 :: c :: r), false, none⟩) := by
    intro h1 h2 h3
    unfold parseOptional
    simp only [ne_eq, not_true_eq_false, if_false]
    rw [h1]
    simp only [reduceCtorEq, if_false]
    rw [h2, h3, hn]
    simp only [Bool.false_eq_true, if_false, if_neg h32]
    cases (partitionEq (45 :: c :: r)).2 <;> rfl
  have lk : ∀ t : PyStr, (∀ y ∈ optionStrings, y.1 ≠ t) → lookupOption t = none := by
    intro t ht
    cases hl : lookupOption t with
    | none => rfl
    | some a => exact absurd rfl (ht _ (lookup_mem hl))
  rcases h with ⟨rfl, hp⟩ | ⟨hc, hm⟩
  · have hname : ∀ y ∈ optionStrings, ¬ namePart (45 :: 45 :: r) <+: y.1 := by
      intro y hy hpre
      rcases longs y hy with h | ⟨d, hd1, _, hd2⟩
      · exact hp _ h hpre
      · rw [hd2] at hpre
        have e : namePart (45 :: 45 :: r) = 45 :: 45 :: namePart r := by
          rw [namePart, List.takeWhile_cons_of_pos (by decide), List.takeWhile_cons_of_pos (by decide)]; rfl
        rw [e, List.cons_prefix_cons, List.cons_prefix_cons] at hpre
        exact hd1 hpre.2.1.symm
    have hself : ∀ y ∈ optionStrings, namePart y.1 = y.1 := by decide +kernel
    refine ⟨?_, _, fin ?_ ?_ ?_, rfl⟩
    · intro e
      apply hp _ (by decide : P "--help" ∈ longNames)
      rw [e]; decide
    · apply lk
      intro y hy e
      apply hname y hy
      rw [← e, hself y hy]
      exact List.prefix_refl _
    · apply lk
      intro y hy e
      apply hname y hy
      rw [← partitionEq_name, ← e]
      exact List.prefix_refl _
    · simp only [optionTuples]
      rw [List.map_eq_nil_iff, List.filter_eq_nil_iff]
      intro y hy
      rw [List.isPrefixOf_iff_prefix, partitionEq_name]
      exact hname y hy
  · have hl : lookupOption [45, c] = none := by
      apply lk
      intro y hy e
      rcases longs y hy with h | ⟨d, _, hd1, hd2⟩
      · rw [e] at h
        have : ∀ n ∈ longNames, n.length ≠ 2 := by decide
        exact this _ h rfl
      · rw [hd2] at e
        cases e
        exact hm hd1
    have h61 : ∀ t : PyStr, lookupOption (45 :: c :: t) = none := by
      intro t
      cases t with
      | nil => exact hl
      | cons _ _ => exact lookup_short hc (by simp)
    refine ⟨?_, _, fin (h61 _) ?_ ?_, rfl⟩
    · intro e
      exact hc (List.cons.inj (List.cons.inj e).2).1
    · rw [partitionEq, if_neg (by decide), partitionEq]
      split
      · rfl
      · exact h61 _
    · cases r with
      | nil => exact short_tuples_one hc hl
      | cons _ _ => rw [short_tuples hc (by simp), hl]

end Pal
