import Verif.Model.Argv
import Verif.Spec.Argv
/-
Lemmas on the command line (C68).
-/

namespace Pal
open Spec

/-! ### Words -/

theorem partitionEq_none : ∀ {s : PyStr}, (61 : Nat) ∉ s → partitionEq s = (s, none)
  | [], _ => rfl
  | c :: t, h => by
    rw [List.mem_cons, not_or] at h
    rw [partitionEq, if_neg (Ne.symm h.1), partitionEq_none h.2]

theorem partitionEq_some : ∀ {s v : PyStr}, (61 : Nat) ∉ s → partitionEq (s ++ 61 :: v) = (s, some v)
  | [], _, _ => by simp [partitionEq]
  | c :: t, v, h => by
    rw [List.mem_cons, not_or] at h
    rw [List.cons_append, partitionEq, if_neg (Ne.symm h.1), partitionEq_some h.2]

/-- What is left to check of an abbreviation, by its length. -/
def abbrevFacts (full : PyStr) (a : Act) (s : PyStr) : Bool :=
  (P "--").isPrefixOf s && s != P "--" && !s.contains 61 &&
    (decide (lookupOption s = some a) || (decide (lookupOption s = none) &&
      decide ((optionStrings.filter fun x => s.isPrefixOf x.1) = [(full, a)]))) &&
    decide ((optionStrings.filter fun x => s.isPrefixOf x.1) = [(full, a)])

def abbrevCheck (full : PyStr) (a : Act) : Bool :=
  (List.range (full.length + 1)).all fun n =>
    !(longNames.all fun m => !(full.take n).isPrefixOf m || m == full) || abbrevFacts full a (full.take n)

def longActs : List (PyStr × Act) :=
  [(P "--help", .help), (P "--to-json", .toJson), (P "--from-json", .fromJson), (P "--output", .output),
   (P "--force", .force), (P "--convert-nan-to-null", .nan), (P "--custom-properties", .keys), (P "--minify-json", .minify)]

theorem abbrevCheck_all : (longActs.all fun x => abbrevCheck x.1 x.2) = true := by decide +kernel

theorem abbrev_facts {full s : PyStr} {a : Act} (hm : (full, a) ∈ longActs) (h : Abbrev full s) :
    abbrevFacts full a s = true := by
  have h1 := List.all_eq_true.1 abbrevCheck_all _ hm
  have h2 := List.all_eq_true.1 h1 s.length (List.mem_range.2 (by have := h.1.length_le; show _ < full.length + 1; omega))
  rw [← List.prefix_iff_eq_take.1 h.1] at h2
  rw [Bool.or_eq_true] at h2
  rcases h2 with h2 | h2
  · exfalso
    rw [Bool.not_eq_true', ← Bool.not_eq_true, List.all_eq_true] at h2
    apply h2
    intro m hm
    by_cases hp : s <+: m
    · rw [h.2 m hm hp]; simp
    · rw [Bool.or_eq_true]; left
      rw [Bool.not_eq_true', ← Bool.not_eq_true, List.isPrefixOf_iff_prefix]; exact hp
  · exact h2

theorem abbrev_parse (digit : Nat → Bool) {full s : PyStr} {a : Act} (hm : (full, a) ∈ longActs) (h : Abbrev full s) :
    s ≠ P "--" ∧ parseOptional digit s = .ok (some ⟨some a, true, false, none⟩) ∧
      ∀ v, s ++ 61 :: v ≠ P "--" ∧ parseOptional digit (s ++ 61 :: v) = .ok (some ⟨some a, true, true, some v⟩) := by
  have f := abbrev_facts hm h
  simp only [abbrevFacts, Bool.and_eq_true, decide_eq_true_eq, Bool.or_eq_true, bne_iff_ne, ne_eq, Bool.not_eq_true',
    List.isPrefixOf_iff_prefix, List.contains_eq_mem, decide_eq_false_iff_not] at f
  obtain ⟨⟨⟨⟨⟨r, rfl⟩, hne⟩, hq⟩, hl⟩, hf⟩ := f
  have hr : r ≠ [] := by rintro rfl; exact hne (by simp)
  have e1 : P "--" ++ r = 45 :: 45 :: r := rfl
  rw [e1] at hl hq hf hne ⊢
  have hcont : ∀ t : PyStr, (61 : Nat) ∈ t → lookupOption t = none := by
    intro t ht
    have : ∀ x ∈ optionStrings, (61 : Nat) ∉ x.1 := by decide
    unfold lookupOption
    rw [List.find?_eq_none.2]; rfl
    intro x hx
    simp only [decide_eq_true_eq]
    intro e
    exact this x hx (e ▸ ht)
  have tup : ∀ v : Option PyStr, (optionStrings.filter fun x => (45 :: 45 :: r : PyStr).isPrefixOf x.1).map (fun x =>
      (⟨some x.2, true, v.isSome, v⟩ : OptTuple)) = [⟨some a, true, v.isSome, v⟩] := by
    intro v; rw [hf]; rfl
  refine ⟨hne, ?_, ?_⟩
  · unfold parseOptional
    simp only [ne_eq, not_true_eq_false, if_false]
    rcases hl with hl | ⟨hl, _⟩
    · rw [hl]; rfl
    · rw [hl]
      simp only [reduceCtorEq, if_false]
      rw [partitionEq_none hq]
      simp only [optionTuples]
      rw [partitionEq_none hq]
      simp only [tup none]
      rfl
  · intro v
    have hq' : (61 : Nat) ∉ (45 :: 45 :: r) := hq
    refine ⟨by intro h; have := congrArg List.length h; simp [P] at this, ?_⟩
    have e2 : (45 :: 45 :: r) ++ 61 :: v = 45 :: 45 :: (r ++ 61 :: v) := rfl
    unfold parseOptional
    rw [e2]
    simp only [ne_eq, not_true_eq_false, if_false]
    rw [hcont (45 :: 45 :: (r ++ 61 :: v)) (by simp)]
    simp only [reduceCtorEq, if_false]
    rw [← e2, partitionEq_some hq']
    rcases hl with hl | ⟨hl, _⟩
    · simp only [hl]; rfl
    · simp only [hl]
      rw [e2]
      simp only [optionTuples]
      rw [← e2, partitionEq_some hq']
      simp only [tup (some v)]
      rfl

theorem optionStrings_eq : optionStrings =
    [([45, 104], .help), (45 :: 45 :: P "help", .help), (45 :: 45 :: P "to-json", .toJson),
     (45 :: 45 :: P "from-json", .fromJson), (45 :: 45 :: P "output", .output), ([45, 111], .output),
     (45 :: 45 :: P "force", .force), ([45, 102], .force), (45 :: 45 :: P "convert-nan-to-null", .nan),
     (45 :: 45 :: P "custom-properties", .keys), (45 :: 45 :: P "minify-json", .minify)] := rfl

theorem lookup_short {c : Nat} {e : PyStr} (hc : c ≠ 45) (he : e ≠ []) : lookupOption (45 :: c :: e) = none := by
  unfold lookupOption
  rw [optionStrings_eq]
  have h1 : ¬ (45 = c) := fun h => hc h.symm
  have h2 : ¬ ([] = e) := fun h => he h.symm
  simp [h1, h2]

theorem short_tuples {c : Nat} {e : PyStr} (hc : c ≠ 45) (he : e ≠ []) :
    optionTuples (45 :: c :: e) = (match lookupOption [45, c] with
      | some a => [⟨some a, false, false, some e⟩]
      | none => []) := by
  have h1 : ¬ (45 = c) := fun h => hc h.symm
  have h3 : ∀ x : PyStr, (45 :: c :: e).isPrefixOf (45 :: 45 :: x) = false := by
    intro x; rw [Bool.eq_false_iff, ne_eq, List.isPrefixOf_iff_prefix]; simp [List.cons_prefix_cons, hc]
  have h4 : ∀ x : Nat, (45 :: c :: e).isPrefixOf [45, x] = false := by
    intro x; cases e with
    | nil => exact absurd rfl he
    | cons d t => rw [Bool.eq_false_iff, ne_eq, List.isPrefixOf_iff_prefix]; simp [List.cons_prefix_cons]
  have e1 : optionTuples (45 :: c :: e) = optionStrings.filterMap fun x =>
      if x.1 = [45, c] then some ⟨some x.2, false, false, some e⟩
      else if (45 :: c :: e).isPrefixOf x.1 then some ⟨some x.2, isLong x.1, false, none⟩
      else none := by
    unfold optionTuples
    split
    · rename_i h; simp at h; exact absurd h.1 hc
    · simp
  rw [e1]
  unfold lookupOption
  rw [optionStrings_eq]
  simp only [List.filterMap_cons, List.filterMap_nil, h3, h4, List.cons.injEq, true_and, h1, false_and, if_false,
    List.find?_cons, List.find?_nil, decide_false, Bool.false_eq_true, and_true]
  by_cases a1 : (104 : Nat) = c
  · subst a1; simp
  by_cases a2 : (111 : Nat) = c
  · subst a2; simp
  by_cases a3 : (102 : Nat) = c
  · subst a3; simp
  simp [a1, a2, a3]

theorem partition_fst_short {c : Nat} {e : PyStr} (hc : c ≠ 61) (he : e.head? ≠ some 61) :
    ∃ p, (partitionEq (45 :: c :: e)).1 = 45 :: c :: p ∧ (e ≠ [] → p ≠ []) := by
  refine ⟨(partitionEq e).1, ?_, ?_⟩
  · rw [partitionEq, if_neg (by decide), partitionEq, if_neg hc]
  · intro h
    cases e with
    | nil => exact absurd rfl h
    | cons d t =>
      have : d ≠ 61 := fun h => he (by simp [h])
      rw [partitionEq, if_neg this]; simp

theorem short_parse (digit : Nat → Bool) {c : Nat} {e : PyStr} {a : Act} (hl : lookupOption [45, c] = some a) (hc : c ≠ 45)
    (hc' : c ≠ 61) (he : e ≠ []) (he' : e.head? ≠ some 61) :
    parseOptional digit (45 :: c :: e) = .ok (some ⟨some a, false, false, some e⟩) := by
  obtain ⟨p, h1, h2⟩ := partition_fst_short hc' he'
  unfold parseOptional
  simp only [ne_eq, not_true_eq_false, if_false]
  rw [lookup_short hc he]
  simp only [reduceCtorEq, if_false]
  rw [h1, lookup_short hc (h2 he), short_tuples hc he, hl]
  cases (partitionEq (45 :: c :: e)).2 <;> rfl

theorem short_parse_eq (digit : Nat → Bool) {v : PyStr} :
    parseOptional digit (45 :: 111 :: 61 :: v) = .ok (some ⟨some .output, false, true, some v⟩) := by
  unfold parseOptional
  simp only [ne_eq, not_true_eq_false, if_false]
  rw [lookup_short (by decide) (by simp)]
  simp only [reduceCtorEq, if_false]
  have e1 : partitionEq (45 :: 111 :: 61 :: v) = ([45, 111], some v) := by
    rw [partitionEq, if_neg (by decide), partitionEq, if_neg (by decide), partitionEq, if_pos rfl]
  rw [e1]
  rfl

/-! ### Clusters of short options -/

theorem run_f_more {n : Nat} {r : PyStr} (hr : r ≠ []) (hr' : r.head? ≠ some 61) :
    runExplicit (n + 1) .force false false (102 :: r) = (match runExplicit n .force false false r with
      | .error x => .error x
      | .ok z => .ok ⟨(.force, none) :: z.acts, z.extra, z.needs⟩) := by
  cases r with
  | nil => exact absurd rfl hr
  | cons d t =>
    have : d ≠ 61 := fun h => hr' (by simp [h])
    rw [runExplicit]
    · have hl : lookupOption [45, 102] = some .force := rfl
      simp only [Act.takesArg, Bool.false_eq_true, if_false, Bool.or_eq_true, beq_iff_eq, hl]
      simp only [Nat.reduceEqDiff, or_false, if_false, nextExplicit, if_neg this]
      rfl

theorem run_f_last {n : Nat} : runExplicit (n + 1) .force false false [102] =
    .ok ⟨[(.force, none), (.force, none)], false, none⟩ := rfl

theorem run_o_last {n : Nat} : runExplicit (n + 1) .force false false [111] =
    .ok ⟨[(.force, none)], false, some .output⟩ := rfl

theorem run_o_eq {n : Nat} {v : PyStr} : runExplicit (n + 2) .force false false (111 :: 61 :: v) =
    .ok ⟨[(.force, none), (.output, some v)], false, none⟩ := rfl

theorem run_o_in {n : Nat} {v : PyStr} (hv : v ≠ []) (hv' : v.head? ≠ some 61) :
    runExplicit (n + 2) .force false false (111 :: v) = .ok ⟨[(.force, none), (.output, some v)], false, none⟩ := by
  cases v with
  | nil => exact absurd rfl hv
  | cons d t =>
    have : d ≠ 61 := fun h => hv' (by simp [h])
    rw [runExplicit]
    · have hl : lookupOption [45, 111] = some .output := rfl
      simp only [Act.takesArg, Bool.false_eq_true, if_false, Bool.or_eq_true, beq_iff_eq, hl]
      simp only [Nat.reduceEqDiff, or_false, if_false, nextExplicit, if_neg this, runExplicit, Act.takesArg, if_true]

/-- A cluster `f…f` before something that is handled. -/
theorem run_cluster {tl : PyStr} {z : OptRun} (ht : tl ≠ []) (ht' : tl.head? ≠ some 61)
    (h : ∀ m, tl.length ≤ m → runExplicit (m + 1) .force false false tl = .ok ⟨(.force, none) :: z.acts, z.extra, z.needs⟩) :
    ∀ k m, k + tl.length ≤ m → runExplicit (m + 1) .force false false (List.replicate k 102 ++ tl) =
      .ok ⟨List.replicate (k + 1) (.force, none) ++ z.acts, z.extra, z.needs⟩
  | 0, m, hm => by
    rw [List.replicate_zero, List.nil_append, h m (by omega)]; rfl
  | k + 1, m, hm => by
    obtain ⟨m', rfl⟩ : ∃ m', m = m' + 1 := ⟨m - 1, by omega⟩
    rw [List.replicate_succ, List.cons_append, run_f_more, run_cluster ht ht' h k m' (by omega)]
    · rfl
    · cases k <;> simp [ht]
    · cases k with
      | zero => simpa using ht'
      | succ k => simp [List.replicate_succ]

/-! ### Lines -/

/-- What an item does to the state of the parser. -/
def applyItem (st : ArgState) : Item → ArgState
  | .file s => if st.filename.isNone then { st with filename := some s } else { st with extras := true }
  | .toJson => { st with toJson := true }
  | .fromJson => { st with fromJson := true }
  | .force => { st with force := true }
  | .nanToNull => { st with nan := true }
  | .minify => { st with minify := true }
  | .output v => { st with output := some v }
  | .keys v => { st with keys := some v }

/-- The words `ws` are the tokens `toks`, which do what the items do. -/
structure Group (digit : Nat → Bool) (i : List Item) (ws : List PyStr) (toks : List Tok) : Prop where
  words : ∀ rest, classify digit (ws ++ rest) = (match classify digit rest with
    | .error e => .error e
    | .ok l => .ok (toks ++ l))
  start : ∀ t, toks ≠ .dash :: t
  run : ∀ l st, (files i = [] ∨ ∀ t, l ≠ .dash :: t) → consume (toks ++ l) st = consume l (i.foldl applyItem st)

theorem classify_word (digit : Nat → Bool) {s : PyStr} {o : Option OptTuple} (h1 : s ≠ P "--")
    (h2 : parseOptional digit s = .ok o) (rest : List PyStr) :
    classify digit (s :: rest) = (match classify digit rest with
      | .error e => .error e
      | .ok l => .ok (tokOf s o :: l)) := by
  rw [classify, if_neg h1, h2]
  rfl

theorem plain_parse (digit : Nat → Bool) {s : PyStr} (h : Plain s) : s ≠ P "--" ∧ parseOptional digit s = .ok none := by
  rcases h with rfl | h
  · exact ⟨by decide, rfl⟩
  · cases s with
    | nil => exact ⟨by decide, rfl⟩
    | cons c t =>
      have hc : c ≠ 45 := fun e => h (by simp [e])
      refine ⟨fun e => ?_, ?_⟩
      · have := congrArg List.head? e
        rw [List.head?_cons] at this
        exact hc (Option.some.inj this)
      · rw [parseOptional, if_pos hc]

theorem consume_opt {x : OptTuple} {r : OptRun} (h : runOption x = .ok r) (hn : r.needs = none) (he : r.extra = false)
    {st st' : ArgState} (ha : takeActs st r.acts = .ok st') (l : List Tok) : consume (.opt x :: l) st = consume l st' := by
  rw [consume, h]
  simp only [hn, ha, he, Bool.or_false]

theorem consume_opt_arg {x : OptTuple} {r : OptRun} {a : Act} {v : PyStr} (h : runOption x = .ok r) (hn : r.needs = some a)
    (he : r.extra = false) {st st' : ArgState} (ha : takeActs st (r.acts ++ [(a, some v)]) = .ok st') (l : List Tok) :
    consume (.opt x :: .arg v :: l) st = consume l st' := by
  rw [consume, h]
  simp only [hn, ha, he, Bool.or_false]

theorem consume_arg {s : PyStr} {l : List Tok} {st : ArgState} (h : ∀ t, l ≠ .dash :: t) :
    consume (.arg s :: l) st = consume l (applyItem st (.file s)) := by
  rw [consume, applyItem]
  · split <;> rfl
  · intro t e; exact h t e

theorem takeActs_force (acts : List (Act × Option PyStr)) (i : List Item) {k : Nat} {st : ArgState}
    (h : ∀ st, takeActs st acts = .ok (i.foldl applyItem st)) :
    takeActs st (List.replicate k (.force, none) ++ acts) = .ok ((List.replicate k Item.force ++ i).foldl applyItem st) := by
  induction k generalizing st with
  | zero => exact h st
  | succ k ih =>
    rw [List.replicate_succ, List.cons_append, takeActs]
    simp only [takeAct]
    rw [ih, List.replicate_succ, List.cons_append, List.foldl_cons]
    rfl

/-- An option alone in a word. -/
theorem group_flag {digit : Nat → Bool} {s : PyStr} {x : OptTuple} {r : OptRun} {i : List Item} (h1 : s ≠ P "--")
    (h2 : parseOptional digit s = .ok (some x)) (h : runOption x = .ok r) (hn : r.needs = none) (he : r.extra = false)
    (ha : ∀ st, takeActs st r.acts = .ok (i.foldl applyItem st)) : Group digit i [s] [.opt x] where
  words rest := classify_word digit h1 h2 rest
  start t h := by cases h
  run l st _ := consume_opt h hn he (ha st) l

/-- An option with its value in the next word. -/
theorem group_value {digit : Nat → Bool} {s v : PyStr} {x : OptTuple} {r : OptRun} {a : Act} {i : List Item} (h1 : s ≠ P "--")
    (h2 : parseOptional digit s = .ok (some x)) (hv : Plain v) (h : runOption x = .ok r) (hn : r.needs = some a)
    (he : r.extra = false) (ha : ∀ st, takeActs st (r.acts ++ [(a, some v)]) = .ok (i.foldl applyItem st)) :
    Group digit i [s, v] [.opt x, .arg v] where
  words rest := by
    rw [List.cons_append, classify_word digit h1 h2, List.cons_append,
      classify_word digit (plain_parse digit hv).1 (plain_parse digit hv).2, List.nil_append]
    cases classify digit rest <;> rfl
  start t h := by cases h
  run l st _ := consume_opt_arg h hn he (ha st) l

theorem dashF_ne (n : Nat) (s : PyStr) (h : n = 0 → s.head? ≠ some 45) : dashF n ++ s ≠ P "--" := by
  intro e
  have e' : List.replicate n 102 ++ s = [45] := List.cons.inj e |>.2
  cases n with
  | zero => rw [List.replicate_zero, List.nil_append] at e'; exact h rfl (by rw [e']; rfl)
  | succ n => rw [List.replicate_succ] at e'; cases e'

/-- A cluster of short options is one option. -/
theorem cluster_parse (digit : Nat → Bool) {n : Nat} {tl : PyStr} {z : OptRun} (ht : tl ≠ []) (ht' : tl.head? ≠ some 61)
    (h : ∀ m, tl.length ≤ m → runExplicit (m + 1) .force false false tl = .ok ⟨(.force, none) :: z.acts, z.extra, z.needs⟩) :
    ∃ x, parseOptional digit (dashF (n + 1) ++ tl) = .ok (some x) ∧
      runOption x = .ok ⟨List.replicate (n + 1) (.force, none) ++ z.acts, z.extra, z.needs⟩ := by
  refine ⟨⟨some .force, false, false, some (List.replicate n 102 ++ tl)⟩, ?_, ?_⟩
  · show parseOptional digit (45 :: 102 :: (List.replicate n 102 ++ tl)) = _
    refine short_parse digit rfl (by decide) (by decide) ?_ ?_
    · cases n <;> simp [ht]
    · cases n with
      | zero => simpa using ht'
      | succ k => simp [List.replicate_succ]
  · exact run_cluster ht ht' h n _ (by simp)

theorem spelling_group (digit : Nat → Bool) {i : List Item} {ws : List PyStr} (h : Spelling i ws) :
    ∃ toks, Group digit i ws toks := by
  have flag : ∀ {full s : PyStr} {a : Act} {j : Item}, (full, a) ∈ longActs → Abbrev full s → a.takesArg = false →
      (∀ st, takeActs st [(a, none)] = .ok ([j].foldl applyItem st)) → ∃ toks, Group digit [j] [s] toks := by
    intro full s a j hm hs hf ha
    obtain ⟨h1, h2, _⟩ := abbrev_parse digit hm hs
    refine ⟨_, group_flag h1 h2 (r := ⟨[(a, none)], false, none⟩) ?_ rfl rfl ha⟩
    simp only [runOption, runBare, hf, Bool.false_eq_true, if_false]
  have val : ∀ {full s v : PyStr} {a : Act} {j : Item}, (full, a) ∈ longActs → Abbrev full s → Plain v → a.takesArg = true →
      (∀ st, takeActs st [(a, some v)] = .ok ([j].foldl applyItem st)) → ∃ toks, Group digit [j] [s, v] toks := by
    intro full s v a j hm hs hv hf ha
    obtain ⟨h1, h2, _⟩ := abbrev_parse digit hm hs
    refine ⟨_, group_value h1 h2 hv (r := ⟨[], false, some a⟩) ?_ rfl rfl ha⟩
    simp only [runOption, runBare, hf, if_true]
  have eq : ∀ {full s v : PyStr} {a : Act} {j : Item}, (full, a) ∈ longActs → Abbrev full s → a.takesArg = true →
      (∀ st, takeActs st [(a, some v)] = .ok ([j].foldl applyItem st)) → ∃ toks, Group digit [j] [s ++ P "=" ++ v] toks := by
    intro full s v a j hm hs hf ha
    obtain ⟨_, _, h3⟩ := abbrev_parse digit hm hs
    have e : s ++ P "=" ++ v = s ++ 61 :: v := by rw [List.append_assoc]; rfl
    rw [e]
    refine ⟨_, group_flag (h3 v).1 (h3 v).2 (r := ⟨[(a, some v)], false, none⟩) ?_ rfl rfl ha⟩
    simp only [runOption, runExplicit, hf, if_true]
  cases h with
  | @file s hs =>
    refine ⟨[.arg s], ?_, ?_, ?_⟩
    · intro rest; exact classify_word digit (plain_parse digit hs).1 (plain_parse digit hs).2 rest
    · intro t h; cases h
    · rintro l st (h | h)
      · cases h
      · exact consume_arg h
  | toJson hs => exact flag (a := .toJson) (by decide) hs rfl fun st => rfl
  | fromJson hs => exact flag (a := .fromJson) (by decide) hs rfl fun st => rfl
  | force hs => exact flag (a := .force) (by decide) hs rfl fun st => rfl
  | nanToNull hs => exact flag (a := .nan) (by decide) hs rfl fun st => rfl
  | minify hs => exact flag (a := .minify) (by decide) hs rfl fun st => rfl
  | output hs hv => exact val (a := .output) (by decide) hs hv rfl fun st => rfl
  | outputEq hs => exact eq (a := .output) (by decide) hs rfl fun st => rfl
  | keys hs hv => exact val (a := .keys) (by decide) hs hv rfl fun st => rfl
  | keysEq hs => exact eq (a := .keys) (by decide) hs rfl fun st => rfl
  | shortForce n =>
    cases n with
    | zero =>
      exact ⟨_, group_flag (by decide) (rfl : parseOptional digit (dashF 1) = .ok (some ⟨some .force, false, false, none⟩))
        rfl rfl rfl fun st => rfl⟩
    | succ n =>
      obtain ⟨x, h1, h2⟩ := cluster_parse digit (n := n) (tl := [102]) (z := ⟨[(.force, none)], false, none⟩) (by simp) (by simp)
        (fun m _ => run_f_last)
      have e : dashF (n + 1 + 1) = dashF (n + 1) ++ [102] := by
        rw [dashF, dashF, List.cons_append, List.replicate_succ']
      have e' : List.replicate (n + 1 + 1) Item.force = List.replicate (n + 1) Item.force ++ [Item.force] := List.replicate_succ'
      rw [e, e']
      exact ⟨_, group_flag (dashF_ne _ _ (by simp)) h1 h2 rfl rfl fun st => takeActs_force _ _ fun st => rfl⟩
  | shortOutput n hv =>
    cases n with
    | zero =>
      exact ⟨_, group_value (by decide) (rfl : parseOptional digit (dashF 0 ++ P "o") = .ok (some ⟨some .output, false, false, none⟩))
        hv rfl rfl rfl fun st => rfl⟩
    | succ n =>
      obtain ⟨x, h1, h2⟩ := cluster_parse digit (n := n) (tl := [111]) (z := ⟨[], false, some .output⟩) (by simp) (by simp)
        (fun m _ => run_o_last)
      refine ⟨_, group_value (dashF_ne _ _ (by simp)) h1 hv h2 rfl rfl fun st => ?_⟩
      rw [List.append_nil]
      exact takeActs_force _ _ fun st => rfl
  | @shortOutputIn n v hv hv' =>
    cases n with
    | zero =>
      exact ⟨_, group_flag (by rw [List.append_assoc]; exact dashF_ne _ _ (by simp [P])) (short_parse digit (c := 111) rfl (by decide) (by decide) hv hv')
        rfl rfl rfl fun st => rfl⟩
    | succ n =>
      obtain ⟨x, h1, h2⟩ := cluster_parse digit (n := n) (tl := 111 :: v) (z := ⟨[(.output, some v)], false, none⟩) (by simp) (by simp)
        (fun m hm => by
          obtain ⟨m', rfl⟩ : ∃ m', m = m' + 1 := ⟨m - 1, by simp at hm; omega⟩
          exact run_o_in hv hv')
      rw [show dashF (n + 1) ++ P "o" ++ v = dashF (n + 1) ++ 111 :: v by rw [List.append_assoc]; rfl]
      exact ⟨_, group_flag (dashF_ne _ _ (by simp)) h1 h2 rfl rfl fun st => takeActs_force _ _ fun st => rfl⟩
  | @shortOutputEq n v =>
    cases n with
    | zero =>
      exact ⟨_, group_flag (by rw [List.append_assoc]; exact dashF_ne _ _ (by simp [P])) (short_parse_eq digit (v := v))
        rfl rfl rfl fun st => rfl⟩
    | succ n =>
      obtain ⟨x, h1, h2⟩ := cluster_parse digit (n := n) (tl := 111 :: 61 :: v) (z := ⟨[(.output, some v)], false, none⟩) (by simp) (by simp)
        (fun m hm => by
          obtain ⟨m', rfl⟩ : ∃ m', m = m' + 1 := ⟨m - 1, by simp at hm; omega⟩
          exact run_o_eq)
      rw [show dashF (n + 1) ++ P "o=" ++ v = dashF (n + 1) ++ 111 :: 61 :: v by rw [List.append_assoc]; rfl]
      exact ⟨_, group_flag (dashF_ne _ _ (by simp)) h1 h2 rfl rfl fun st => takeActs_force _ _ fun st => rfl⟩

theorem line_group (digit : Nat → Bool) {i : List Item} {ws : List PyStr} (h : Line i ws) : ∃ toks, Group digit i ws toks := by
  induction h with
  | nil =>
    refine ⟨[], ?_, ?_, ?_⟩
    · intro rest; rw [List.nil_append]; cases classify digit rest <;> rfl
    · intro t h; cases h
    · intro l st _; rfl
  | @cons i t ws u hs _ ih =>
    obtain ⟨t1, g1⟩ := spelling_group digit hs
    obtain ⟨t2, g2⟩ := ih
    refine ⟨t1 ++ t2, ?_, ?_, ?_⟩
    · intro rest
      rw [List.append_assoc, g1.words, g2.words]
      cases classify digit rest with
      | error e => rfl
      | ok l => simp only [List.append_assoc]
    · intro x h
      cases t1 with
      | nil => exact g2.start x h
      | cons a b => rw [List.cons_append] at h; exact g1.start b (by rw [(List.cons.inj h).1])
    · intro l st h
      have hf : files (i ++ t) = files i ++ files t := List.filterMap_append ..
      rw [hf, List.append_eq_nil_iff] at h
      rw [List.append_assoc, g1.run _ _, g2.run _ _, List.foldl_append]
      · rcases h with h | h
        · exact Or.inl h.2
        · exact Or.inr h
      · rcases h with h | h
        · exact Or.inl h.1
        · refine Or.inr fun x e => ?_
          cases t2 with
          | nil => exact h x e
          | cons a b => rw [List.cons_append] at e; exact g2.start b (by rw [(List.cons.inj e).1])

/-! ### What the state is in the end -/

theorem foldl_flag {p : ArgState → Bool} {i : Item} (h : ∀ st j, p (applyItem st j) = true ↔ p st = true ∨ j = i) :
    ∀ (l : List Item) (st : ArgState), p (l.foldl applyItem st) = true ↔ p st = true ∨ i ∈ l
  | [], st => by simp
  | j :: l, st => by
    rw [List.foldl_cons, foldl_flag h l, h, List.mem_cons, or_assoc, eq_comm (a := i)]

theorem foldl_output : ∀ (l : List Item) (st : ArgState),
    (l.foldl applyItem st).output = (outputs l).getLast?.or st.output
  | [], st => rfl
  | j :: l, st => by
    rw [List.foldl_cons, foldl_output l]
    cases j with
    | output v =>
      rw [show outputs (.output v :: l) = v :: outputs l from rfl, List.getLast?_cons]
      cases (outputs l).getLast? <;> rfl
    | file s =>
      rw [show outputs (.file s :: l) = outputs l from rfl, applyItem]
      split <;> rfl
    | _ => rfl

theorem foldl_keys : ∀ (l : List Item) (st : ArgState),
    (l.foldl applyItem st).keys = (keyTexts l).getLast?.or st.keys
  | [], st => rfl
  | j :: l, st => by
    rw [List.foldl_cons, foldl_keys l]
    cases j with
    | keys v =>
      rw [show keyTexts (.keys v :: l) = v :: keyTexts l from rfl, List.getLast?_cons]
      cases (keyTexts l).getLast? <;> rfl
    | file s =>
      rw [show keyTexts (.file s :: l) = keyTexts l from rfl, applyItem]
      split <;> rfl
    | _ => rfl

theorem foldl_file : ∀ (l : List Item) (st : ArgState),
    (l.foldl applyItem st).filename = st.filename.or (files l).head? ∧
    ((l.foldl applyItem st).extras = true ↔ st.extras = true ∨ (1 < (files l).length + (if st.filename.isSome then 1 else 0) ∧ files l ≠ []))
  | [], st => by
    rw [List.foldl_nil, show files [] = [] from rfl]
    cases st.filename <;> simp
  | j :: l, st => by
    rw [List.foldl_cons]
    have ih := foldl_file l (applyItem st j)
    refine ⟨ih.1.trans ?_, ih.2.trans ?_⟩
    · cases j with
      | file s =>
        rw [show files (.file s :: l) = s :: files l from rfl, applyItem]
        cases h : st.filename <;> simp [h]
      | _ => rfl
    · cases j with
      | file s =>
        rw [show files (.file s :: l) = s :: files l from rfl, applyItem]
        cases h : st.filename <;> simp [h]
        cases files l <;> simp
      | _ => rfl

/-! ### Lists of custom properties -/

theorem stripped_strip (s : PyStr) : Stripped s (stripWith isPySpace s) := by
  have hd : ∀ (l : PyStr) c, (l.dropWhile isPySpace).head? = some c → isPySpace c = false := by
    intro l c h
    have := List.head?_dropWhile_not isPySpace l
    rw [h] at this
    simpa using this
  have tw : ∀ (l : PyStr), ∀ c ∈ l.takeWhile isPySpace, isPySpace c = true := by
    intro l
    induction l with
    | nil => simp
    | cons a t ih =>
      rw [List.takeWhile_cons]
      split
      · intro c hc
        rcases List.mem_cons.1 hc with rfl | hc
        · assumption
        · exact ih c hc
      · simp
  have e1 : s = s.takeWhile isPySpace ++ s.dropWhile isPySpace := List.takeWhile_append_dropWhile.symm
  have e2 : s.dropWhile isPySpace = stripWith isPySpace s ++ ((s.dropWhile isPySpace).reverse.takeWhile isPySpace).reverse := by
    rw [stripWith, ← List.reverse_append, List.takeWhile_append_dropWhile, List.reverse_reverse]
  refine ⟨s.takeWhile isPySpace, ((s.dropWhile isPySpace).reverse.takeWhile isPySpace).reverse, ?_, tw s, ?_, ?_, ?_⟩
  · rw [List.append_assoc, ← e2, ← e1]
  · intro c hc; exact tw _ c (List.mem_reverse.1 hc)
  · intro c hc
    apply hd s c
    rw [e2]
    cases h : stripWith isPySpace s with
    | nil => rw [h] at hc; cases hc
    | cons a t => rw [h] at hc; exact hc
  · intro c hc
    rw [stripWith, List.getLast?_reverse] at hc
    exact hd _ c hc

theorem keyList_parse : ∀ t : PyStr, KeyList t (parseKeys t) := by
  have key : ∀ (t h : PyStr), ∃ s r, splitComma t = s :: r ∧ (44 : Nat) ∉ s ∧
      ((t = s ∧ r = []) ∨ ∃ t', t = s ++ 44 :: t' ∧ r = splitComma t') := by
    intro t h
    induction t with
    | nil => exact ⟨[], [], rfl, by simp, Or.inl ⟨rfl, rfl⟩⟩
    | cons c u ih =>
      by_cases hc : c = 44
      · subst hc
        exact ⟨[], splitComma u, by rw [splitComma, if_pos rfl], by simp, Or.inr ⟨u, rfl, rfl⟩⟩
      · obtain ⟨s, r, h1, h2, h3⟩ := ih
        refine ⟨c :: s, r, by rw [splitComma, if_neg hc, h1], ?_, ?_⟩
        · rw [List.mem_cons, not_or]; exact ⟨Ne.symm hc, h2⟩
        · rcases h3 with ⟨rfl, rfl⟩ | ⟨t', rfl, rfl⟩
          · exact Or.inl ⟨rfl, rfl⟩
          · exact Or.inr ⟨t', rfl, rfl⟩
  intro t
  obtain ⟨n, hn⟩ : ∃ n, t.length ≤ n := ⟨_, Nat.le_refl _⟩
  induction n generalizing t with
  | zero =>
    have : t = [] := List.length_eq_zero_iff.1 (by omega)
    subst this
    exact .one (by simp) (stripped_strip _)
  | succ n ih =>
    obtain ⟨s, r, h1, h2, h3⟩ := key t t
    rw [parseKeys, h1, List.map_cons]
    rcases h3 with ⟨rfl, rfl⟩ | ⟨t', rfl, rfl⟩
    · exact .one h2 (stripped_strip _)
    · have e : s ++ 44 :: t' = s ++ P "," ++ t' := by rw [List.append_assoc]; rfl
      rw [e]
      exact .more h2 (stripped_strip _) (ih t' (by simp at hn; omega))

end Pal
