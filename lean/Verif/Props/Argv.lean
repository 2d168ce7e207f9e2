import Verif.Lemmas.ArgvSound
import Verif.Props.Registry
import Verif.Props.CliSample
/-
C68: what a command line means.
-/

namespace Pal
open Spec

/-- The options the state stands for, if the line is complete. -/
def argsOf (st : ArgState) (f : PyStr) : Args :=
  ⟨f, st.toJson, st.fromJson, st.output, st.force, st.nan, st.minify, match st.keys with
    | some k => parseKeys k
    | none => defaultKeys⟩

theorem parse_line (digit : Nat → Bool) {items : List Item} {argv : List PyStr} (h : Line items argv) :
    parseArgs digit argv = (match files items with
      | [f] => .ok (argsOf (items.foldl applyItem {}) f)
      | _ => .error (.exit 2)) := by
  obtain ⟨toks, g⟩ := line_group digit h
  have h1 : classify digit argv = .ok toks := by
    have := g.words []
    rw [List.append_nil] at this
    rw [this]
    simp only [classify, List.append_nil]
  have h2 := g.run [] {} (Or.inr fun t h => by cases h)
  rw [List.append_nil] at h2
  obtain ⟨f1, f2⟩ := foldl_file items {}
  unfold parseArgs
  rw [h1]
  simp only [h2, consume]
  rw [f1]
  cases hf : files items with
  | nil => rfl
  | cons a t =>
    simp only [hf, Option.none_or, List.head?_cons]
    rw [hf] at f2
    cases t with
    | nil =>
      rw [if_neg (by rw [f2]; simp)]
      rfl
    | cons b u => rw [if_pos (by rw [f2]; simp)]

theorem meaning_fold {items : List Item} {f : PyStr} (hf : files items = [f]) :
    Meaning items (argsOf (items.foldl applyItem {}) f) where
  file := hf
  toJson := (foldl_flag (p := ArgState.toJson) (i := .toJson) (by intro st j; cases j <;> simp [applyItem]; split <;> rfl) items {}).trans (by simp)
  fromJson := (foldl_flag (p := ArgState.fromJson) (i := .fromJson) (by intro st j; cases j <;> simp [applyItem]; split <;> rfl) items {}).trans (by simp)
  force := (foldl_flag (p := ArgState.force) (i := .force) (by intro st j; cases j <;> simp [applyItem]; split <;> rfl) items {}).trans (by simp)
  nanToNull := (foldl_flag (p := ArgState.nan) (i := .nanToNull) (by intro st j; cases j <;> simp [applyItem]; split <;> rfl) items {}).trans (by simp)
  minify := (foldl_flag (p := ArgState.minify) (i := .minify) (by intro st j; cases j <;> simp [applyItem]; split <;> rfl) items {}).trans (by simp)
  output := by
    show (items.foldl applyItem {}).output = _
    rw [foldl_output, Option.or_none]
  keys t ht := by
    show KeyList t (match (items.foldl applyItem {}).keys with | some k => parseKeys k | none => defaultKeys)
    rw [foldl_keys, ht]
    exact keyList_parse t
  noKeys h := by
    show (match (items.foldl applyItem {}).keys with | some k => parseKeys k | none => defaultKeys) = _
    rw [foldl_keys, h]
    exact C49_default_keys

/-- C68: a line that asks for one file is accepted, and means what its items say. -/
theorem C68_meaning (digit : Nat → Bool) {items : List Item} {argv : List PyStr} (h : Line items argv)
    (hf : (files items).length = 1) : ∃ a, parseArgs digit argv = .ok a ∧ Meaning items a := by
  obtain ⟨f, hf⟩ := List.length_eq_one_iff.1 hf
  refine ⟨argsOf (items.foldl applyItem {}) f, ?_, meaning_fold hf⟩
  rw [parse_line digit h, hf]

/-- C68: a line that asks for no file or for several files is refused. -/
theorem C68_count (digit : Nat → Bool) {items : List Item} {argv : List PyStr} (h : Line items argv)
    (hf : (files items).length ≠ 1) : parseArgs digit argv = .error (.exit 2) := by
  rw [parse_line digit h]
  split
  · rename_i f e; rw [e] at hf; exact absurd rfl hf
  · rfl

/-- C68: the order does not matter, nor which spellings are used. -/
theorem C68_order (digit : Nat → Bool) {items items' : List Item} {argv argv' : List PyStr} (h : Line items argv)
    (h' : Line items' argv') (hp : items.Perm items') (ho : (outputs items).length ≤ 1) (hk : (keyTexts items).length ≤ 1) :
    parseArgs digit argv = parseArgs digit argv' := by
  rw [parse_line digit h, parse_line digit h']
  have pf : (files items).Perm (files items') := hp.filterMap _
  have one : ∀ {l l' : List PyStr}, l.Perm l' → l.length ≤ 1 → l = l' := by
    intro l l' hp hl
    match l, hl with
    | [], _ => exact hp.nil_eq
    | [a], _ => exact hp.singleton_eq.symm ▸ rfl
  by_cases hf : (files items).length ≤ 1
  · rw [one pf hf]
    split
    · rename_i f _
      have flag : ∀ (p : ArgState → Bool) (i : Item), (∀ st j, p (applyItem st j) = true ↔ p st = true ∨ j = i) →
          p (items.foldl applyItem {}) = p (items'.foldl applyItem {}) := by
        intro p i hpi
        rw [Bool.eq_iff_iff, foldl_flag hpi, foldl_flag hpi, hp.mem_iff]
      have e1 := flag ArgState.toJson .toJson (by intro st j; cases j <;> simp [applyItem]; split <;> rfl)
      have e2 := flag ArgState.fromJson .fromJson (by intro st j; cases j <;> simp [applyItem]; split <;> rfl)
      have e3 := flag ArgState.force .force (by intro st j; cases j <;> simp [applyItem]; split <;> rfl)
      have e4 := flag ArgState.nan .nanToNull (by intro st j; cases j <;> simp [applyItem]; split <;> rfl)
      have e5 := flag ArgState.minify .minify (by intro st j; cases j <;> simp [applyItem]; split <;> rfl)
      have e6 : (items.foldl applyItem {}).output = (items'.foldl applyItem {}).output := by
        rw [foldl_output, foldl_output, one (l := outputs items) (l' := outputs items') (hp.filterMap _) ho]
      have e7 : (items.foldl applyItem {}).keys = (items'.foldl applyItem {}).keys := by
        rw [foldl_keys, foldl_keys, one (l := keyTexts items) (l' := keyTexts items') (hp.filterMap _) hk]
      unfold argsOf
      rw [e1, e2, e3, e4, e5, e6, e7]
    · rfl
  · have h1 : 2 ≤ (files items).length := by omega
    have h2 : 2 ≤ (files items').length := by rw [← pf.length_eq]; exact h1
    cases e1 : files items with
    | nil => rw [e1] at h1; exact absurd h1 (by simp)
    | cons a t =>
      cases t with
      | nil => rw [e1] at h1; exact absurd h1 (by simp)
      | cons b u =>
        cases e2 : files items' with
        | nil => rfl
        | cons a' t' =>
          cases t' with
          | nil => rw [e2] at h2; exact absurd h2 (by simp)
          | cons b' u' => rfl

/-- C68: after `--` the next word is the file, whatever it is called. -/
theorem C68_dashdash (digit : Nat → Bool) {items : List Item} {argv : List PyStr} (h : Line items argv)
    (hf : files items = []) (f : PyStr) :
    ∃ a, parseArgs digit (argv ++ [P "--", f]) = .ok a ∧ Meaning (items ++ [.file f]) a := by
  obtain ⟨toks, g⟩ := line_group digit h
  have h1 : classify digit (argv ++ [P "--", f]) = .ok (toks ++ [.dash, .arg f]) := by
    rw [g.words]; rfl
  have h2 := g.run [.dash, .arg f] {} (Or.inl hf)
  obtain ⟨f1, f2⟩ := foldl_file items {}
  rw [hf] at f1 f2
  have f1 : (items.foldl applyItem {}).filename = none := f1
  have e : (items ++ [Item.file f]).foldl applyItem {} = { items.foldl applyItem {} with filename := some f } := by
    rw [List.foldl_append, List.foldl_cons, List.foldl_nil, applyItem, f1]; rfl
  have h3 : consume [.dash, .arg f] (items.foldl applyItem {}) = .ok ((items ++ [Item.file f]).foldl applyItem {}) := by
    rw [e, consume, f1]; rfl
  refine ⟨argsOf ((items ++ [Item.file f]).foldl applyItem {}) f, ?_, meaning_fold ?_⟩
  · unfold parseArgs
    rw [h1]
    simp only [h2, h3]
    rw [e]
    simp only
    rw [if_neg (by rw [f2]; simp)]
    rfl
  · show List.filterMap _ _ = _
    rw [List.filterMap_append]
    show files items ++ [f] = [f]
    rw [hf]; rfl

/-- C68: asking for help prints it and does nothing else, whatever else the line says. -/
theorem C68_help (ext : Ext) (digit : Nat → Bool) {items items' : List Item} {argv argv' : List PyStr} (h : Line items argv)
    (h' : Line items' argv') (s : PyStr) (hs : s = P "-h" ∨ Abbrev (P "--help") s) (w : World) :
    convertArgv ext digit (argv ++ s :: argv') w = (.error (.exit 0), w) := by
  obtain ⟨toks, g⟩ := line_group digit h
  obtain ⟨toks', g'⟩ := line_group digit h'
  obtain ⟨hne, long, hp⟩ : s ≠ P "--" ∧ ∃ long, parseOptional digit s = .ok (some ⟨some .help, long, false, none⟩) := by
    rcases hs with rfl | hs
    · exact ⟨by decide, _, rfl⟩
    · obtain ⟨h1, h2, _⟩ := abbrev_parse digit (a := .help) (by decide) hs
      exact ⟨h1, _, h2⟩
  have h1 : classify digit argv' = .ok toks' := by
    have := g'.words []
    rw [List.append_nil] at this
    rw [this]
    simp only [classify, List.append_nil]
  have h2 : classify digit (argv ++ s :: argv') = .ok (toks ++ .opt ⟨some .help, long, false, none⟩ :: toks') := by
    rw [g.words, classify_word digit hne hp, h1]; rfl
  have h3 : parseArgs digit (argv ++ s :: argv') = .error (.exit 0) := by
    unfold parseArgs
    rw [h2]
    simp only
    rw [g.run _ _ (Or.inr fun t e => by cases e)]
    rfl
  unfold convertArgv
  rw [h3]
  rfl

/-- What is known of an accepted line. -/
theorem parse_ok {digit : Nat → Bool} {argv : List PyStr} {a : Args} (h : parseArgs digit argv = .ok a) :
    ∃ toks st f, classify digit argv = .ok toks ∧ consume toks {} = .ok st ∧ st.filename = some f ∧ st.extras = false ∧
      a = argsOf st f := by
  unfold parseArgs at h
  cases h1 : classify digit argv with
  | error _ => rw [h1] at h; cases h
  | ok toks =>
    rw [h1] at h
    simp only at h
    cases h2 : consume toks {} with
    | error _ => rw [h2] at h; cases h
    | ok st =>
      rw [h2] at h
      simp only at h
      cases h3 : st.filename with
      | none => rw [h3] at h; cases h
      | some f =>
        rw [h3] at h
        simp only at h
        cases h4 : st.extras with
        | true => rw [h4] at h; cases h
        | false =>
          rw [h4] at h
          cases h
          exact ⟨toks, st, f, rfl, h2, h3, h4, rfl⟩

/-- C68: nothing is done that was not asked for.  On every line that is accepted, the file is one of the words, each flag
stands there, and the output and the custom properties end one of the words. -/
theorem C68_asked (digit : Nat → Bool) (argv : List PyStr) (a : Args) (h : parseArgs digit argv = .ok a) :
    a.filename ∈ argv ∧
    (a.force = true → ∃ s ∈ argv, AsksFor (some (P "-f")) (P "--fo") (P "--force") s) ∧
    (a.toJson = true → ∃ s ∈ argv, AsksFor none (P "--t") (P "--to-json") s) ∧
    (a.fromJson = true → ∃ s ∈ argv, AsksFor none (P "--fr") (P "--from-json") s) ∧
    (a.nanToNull = true → ∃ s ∈ argv, AsksFor none (P "--co") (P "--convert-nan-to-null") s) ∧
    (a.minify = true → ∃ s ∈ argv, AsksFor none (P "--m") (P "--minify-json") s) ∧
    (∀ v, a.output = some v → ∃ s ∈ argv, v <:+ s) ∧
    (a.keys = (palCustoms.map fun kv => P kv.1) ∨ ∃ t, KeyList t a.keys ∧ ∃ s ∈ argv, t <:+ s) := by
  obtain ⟨toks, st, f, h1, h2, h3, h4, rfl⟩ := parse_ok h
  have d := consume_done _ _ _ h2
  obtain ⟨c1, c2⟩ := classify_mem h1
  have flag : ∀ b : Act, b.isFlag = true → flagOf b st = true →
      ∃ s ∈ argv, AsksFor (askOf b).1 (askOf b).2.1 (askOf b).2.2 s := by
    intro b hb hf
    rcases d.flag b hf with h | ⟨x, hx, hg⟩
    · cases b <;> cases h
    · obtain ⟨s, hs, hp⟩ := c1 x hx
      exact ⟨s, hs, gives_asks hb hp hg⟩
  have val : ∀ (b : Act) v, valueOf b st = some v → ∃ s ∈ argv, v <:+ s := by
    intro b v hv
    rcases d.value b v hv with h | h | ⟨x, r, hx, hr, hm⟩
    · cases b <;> cases h
    · exact ⟨v, c2 v h, List.suffix_refl _⟩
    · obtain ⟨s, hs, hp⟩ := c1 x hx
      exact ⟨s, hs, value_suffix hp hr hm⟩
  refine ⟨?_, flag .force rfl, flag .toJson rfl, flag .fromJson rfl, flag .nan rfl, flag .minify rfl, val .output, ?_⟩
  · rcases d.file f h3 with h | h
    · cases h
    · exact c2 f h
  · cases hk : st.keys with
    | none =>
      left
      unfold argsOf
      rw [hk]
      exact C49_default_keys
    | some t =>
      right
      refine ⟨t, ?_, val .keys t hk⟩
      unfold argsOf
      rw [hk]
      exact keyList_parse t

/-- C68: a misspelled option is never ignored. -/
theorem C68_unknown (digit : Nat → Bool) (pre post : List PyStr) (s : PyStr) (hp : P "--" ∉ pre) (hs : Unknown digit s)
    (a : Args) : parseArgs digit (pre ++ s :: post) ≠ .ok a := by
  intro h
  obtain ⟨toks, st, f, h1, h2, h3, h4, rfl⟩ := parse_ok h
  obtain ⟨hne, x, hx, hu⟩ := unknown_parse hs
  have := (consume_done _ _ _ h2).unknown x (classify_at hne hx hp h1) hu
  rw [h4] at this
  cases this

/-- C68: every line is accepted, or the command ends with the usage message (2) or the help text (0) before it has looked
at a file. -/
theorem C68_total (ext : Ext) (digit : Nat → Bool) (argv : List PyStr) (w : World) :
    (∃ a, parseArgs digit argv = .ok a ∧ convertArgv ext digit argv w = convertMain ext a w) ∨
    convertArgv ext digit argv w = (.error (.exit 0), w) ∨ convertArgv ext digit argv w = (.error (.exit 2), w) := by
  unfold convertArgv
  cases h : parseArgs digit argv with
  | ok a => exact Or.inl ⟨a, rfl, rfl⟩
  | error e =>
    have : e = .exit 0 ∨ e = .exit 2 := by
      unfold parseArgs at h
      cases h1 : classify digit argv with
      | error _ => rw [h1] at h; cases h; exact Or.inr (classify_error h1)
      | ok toks =>
        rw [h1] at h
        simp only at h
        cases h2 : consume toks {} with
        | error _ => rw [h2] at h; cases h; exact consume_error _ _ _ h2
        | ok st =>
          rw [h2] at h
          simp only at h
          cases h3 : st.filename with
          | none => rw [h3] at h; cases h; exact Or.inr rfl
          | some f =>
            rw [h3] at h
            simp only at h
            cases h4 : st.extras with
            | true => rw [h4] at h; cases h; exact Or.inr rfl
            | false => rw [h4] at h; cases h
    rcases this with rfl | rfl
    · exact Or.inr (Or.inl rfl)
    · exact Or.inr (Or.inr rfl)

/-- C68: on every command line, a file that was there changes only if some word asks for `--force` or the user said yes. -/
theorem C68_overwrite (ext : Ext) (digit : Nat → Bool) (argv : List PyStr) (w : World) :
    ∃ used, w.replies = used ++ (convertArgv ext digit argv w).2.replies ∧
      ∀ p, (w.fs p).isSome → (convertArgv ext digit argv w).2.fs p ≠ w.fs p →
        (∃ s ∈ argv, AsksFor (some (P "-f")) (P "--fo") (P "--force") s) ∨ ∃ r ∈ used, Yes r := by
  rcases C68_total ext digit argv w with ⟨a, h1, h2⟩ | h | h
  · obtain ⟨used, u1, u2⟩ := C41_convert ext a w
    refine ⟨used, h2 ▸ u1, fun p hp hc => ?_⟩
    rw [h2] at hc
    rcases u2 p hp hc with hf | hy
    · exact Or.inl ((C68_asked digit argv a h1).2.1 hf)
    · exact Or.inr hy
  · rw [h]; exact ⟨[], rfl, fun p _ hc => absurd rfl hc⟩
  · rw [h]; exact ⟨[], rfl, fun p _ hc => absurd rfl hc⟩

/-- C68 with C01, from the words on the command line to the bytes of the file: `x.sav`, `--force` and any flags about the
JSON, then `x.sav.json` and `--force`, in any order and spelling. -/
theorem C68_round_trip (ext : Ext) (digit : Nat → Bool) (hl : ExtLaws ext) (hcr : ∀ p, ext.canCreate p = true) (f : File m)
    (hj : m.json = true) (hw : f.Wf (palCfg (fun _ => true) m.an)) (hc : (ext.z.compress f.enc).length < 2 ^ 32)
    (x : PyStr) (hx1 : P ".sav" <:+ x) (hx2 : ¬ P ".json" <:+: x)
    (w : World) (data : Bytes) (ty : UInt8) (hx : w.fs x = some (.file data)) (hs : IsSav ext.z.decompress data f.enc ty)
    (ho : w.fs (x ++ P ".json") = none ∨ ∃ b, w.fs (x ++ P ".json") = some (.file b))
    {i1 i2 : List Item} {argv1 argv2 : List PyStr} (h1 : Line i1 argv1) (h2 : Line i2 argv2)
    (f1 : files i1 = [x]) (o1 : outputs i1 = []) (t1 : .toJson ∉ i1 ∧ .fromJson ∉ i1) (g1 : .force ∈ i1)
    (n1 : .nanToNull ∈ i1 ↔ m.an = false)
    (f2 : files i2 = [x ++ P ".json"]) (o2 : outputs i2 = []) (t2 : .toJson ∉ i2 ∧ .fromJson ∉ i2) (g2 : .force ∈ i2) :
    ∃ w1 w2 data' ty', convertArgv ext digit argv1 w = (.ok (), w1) ∧ convertArgv ext digit argv2 w1 = (.ok (), w2) ∧
      w2.fs x = some (.file data') ∧ IsSav ext.z.decompress data' f.enc ty' ∧ (ty' = 0x31 ∨ ty' = 0x32) ∧
      (ty' = 0x32 ↔ WorldClass f.header.className.val) := by
  have shape : ∀ {i : List Item} {argv : List PyStr} {y : PyStr}, Line i argv → files i = [y] → outputs i = [] →
      .toJson ∉ i ∧ .fromJson ∉ i → .force ∈ i → ∃ nn mi ks, (nn = true ↔ .nanToNull ∈ i) ∧
        ∀ w, convertArgv ext digit argv w = convertMain ext ⟨y, false, false, none, true, nn, mi, ks⟩ w := by
    intro i argv y h hf ho ht hg
    obtain ⟨a, ha, hm⟩ := C68_meaning digit h (by rw [hf]; rfl)
    refine ⟨a.nanToNull, a.minify, a.keys, hm.nanToNull, fun w => ?_⟩
    unfold convertArgv
    rw [ha]
    have e1 : a.toJson = false := Bool.eq_false_iff.2 fun h => ht.1 (hm.toJson.1 h)
    have e2 : a.fromJson = false := Bool.eq_false_iff.2 fun h => ht.2 (hm.fromJson.1 h)
    have e3 : a.force = true := hm.force.2 hg
    have e4 : a.output = none := by rw [hm.output, ho]; rfl
    have e5 : a.filename = y := by have := hm.file; rw [hf] at this; exact (List.cons.inj this).1.symm
    cases a
    simp only at e1 e2 e3 e4 e5
    rw [e1, e2, e3, e4, e5]
  obtain ⟨nn1, mi1, k1, hn1, s1⟩ := shape h1 f1 o1 t1 g1
  obtain ⟨nn2, mi2, k2, _, s2⟩ := shape h2 f2 o2 t2 g2
  have en : nn1 = !m.an := by
    rw [Bool.eq_iff_iff, hn1, n1]; simp
  obtain ⟨w1, w2, data', ty', c1, c2, c3⟩ := C01_cli ext hl hcr f hj hw hc x hx1 hx2 w data ty hx hs ho mi1 mi2 nn2 k1 k2
  refine ⟨w1, w2, data', ty', ?_, ?_, c3⟩
  · rw [s1, en]; exact c1
  · rw [s2]; exact c2

/-! ### Cases -/

def asciiDigit (c : Nat) : Bool := 48 ≤ c && c ≤ 57

/-- `--fo a.sav -fo=b --custom= x , y` and the same in another order and with other spellings. -/
theorem case_line : Line [.force, .file (P "a.sav"), .force, .output (P "b"), .keys (P " x , y")]
    [P "--fo", P "a.sav", P "-fo=b", P "--custom= x , y"] := by
  have ab : ∀ {full s : PyStr}, s.isPrefixOf full = true → (longNames.all fun n => !s.isPrefixOf n || n == full) = true →
      Abbrev full s := by
    intro full s h1 h2
    refine ⟨List.isPrefixOf_iff_prefix.1 h1, fun n hn hp => ?_⟩
    have := List.all_eq_true.1 h2 n hn
    rw [List.isPrefixOf_iff_prefix.2 hp] at this
    simpa using this
  refine .cons (.force (ab (by decide) (by decide))) ?_
  refine .cons (.file (Or.inr (by decide))) ?_
  refine .cons (i := [.force, .output (P "b")]) (ws := [P "-fo=b"]) (Spelling.shortOutputEq 1 (v := P "b")) ?_
  exact .cons (i := [.keys (P " x , y")]) (ws := [P "--custom= x , y"])
    (Spelling.keysEq (s := P "--custom") (v := P " x , y") (ab (by decide) (by decide))) .nil

example : ∃ a, parseArgs asciiDigit [P "--fo", P "a.sav", P "-fo=b", P "--custom= x , y"] = .ok a ∧ a.filename = P "a.sav" ∧
    a.force = true ∧ a.minify = false ∧ a.output = some (P "b") ∧ a.keys = [P "x", P "y"] := by
  obtain ⟨a, h1, h2⟩ := C68_meaning asciiDigit case_line rfl
  exact ⟨_, rfl, rfl, rfl, rfl, rfl, by decide +kernel⟩

/-- C68_round_trip: `-f Saved/Level.sav`, then `Saved/Level.sav.json -ff`, on the sample file. -/
example := C68_round_trip (m := _) plainExt asciiDigit plainExt_laws (fun _ => rfl) sampleFile rfl sampleFile_wf sampleFile_small
  (P "Saved/Level.sav") (by decide +kernel) (by decide +kernel) (sampleWorld0 (storedSav sampleFile.enc 0x31)) _ 0x31 (world0_sav _)
  (storedSav_is _ _ sampleFile_small (.inl rfl)) (.inr ⟨[1, 2], world0_json _⟩)
  (i1 := [.force, .file (P "Saved/Level.sav")]) (i2 := [.file (P "Saved/Level.sav" ++ P ".json"), .force, .force])
  (.cons (.shortForce 0) (.cons (.file (Or.inr (by decide))) .nil))
  (.cons (.file (Or.inr (by decide))) (.cons (.shortForce 1) .nil))
  rfl rfl (by decide) (by decide) (by decide) rfl rfl (by decide) (by decide)

/-- C68_count: without the file, and with two. -/
example : Line [] [] ∧ parseArgs asciiDigit [P "a", P "b"] = .error (.exit 2) :=
  ⟨.nil, C68_count asciiDigit (.cons (.file (Or.inr (by decide))) (.cons (.file (Or.inr (by decide))) .nil)) (by decide)⟩

/-- C68_dashdash: a file called `--force`. -/
example : ∃ a, parseArgs asciiDigit [P "-f", P "--", P "--force"] = .ok a ∧ a.filename = P "--force" := ⟨_, rfl, rfl⟩

/-- C68_help: `-f --he a.sav` -/
example (ext : Ext) (w : World) : convertArgv ext asciiDigit [P "-f", P "--he", P "a.sav"] w = (.error (.exit 0), w) := rfl

/-- C68_unknown: a typo. -/
example : Unknown asciiDigit (P "--forse=a") ∧ Unknown asciiDigit (P "-m") ∧ Unknown asciiDigit (P "-.") := by
  have no : ∀ {s : PyStr}, (∀ c ∈ s, asciiDigit c = false) → ¬ NegativeNumber asciiDigit s := by
    rintro s hs ⟨a, b, e, -, hb, hne, -, h⟩
    obtain ⟨c, t, rfl⟩ := List.exists_cons_of_ne_nil hne
    have := hs c (by rcases h with rfl | rfl <;> simp)
    rw [hb c (by simp)] at this
    cases this
  refine ⟨⟨by decide, no (by decide), _, _, rfl, Or.inl ⟨rfl, ?_⟩⟩, ⟨by decide, no (by decide), _, _, rfl, Or.inr (by decide)⟩,
    ⟨by decide, no (by decide), _, _, rfl, Or.inr (by decide)⟩⟩
  intro n hn hp
  have : ∀ n ∈ longNames, (namePart (P "--forse=a")).isPrefixOf n = false := by decide +kernel
  rw [← List.isPrefixOf_iff_prefix, show P "--forse=a" = 45 :: 45 :: P "forse=a" from rfl] at *
  rw [this n hn] at hp
  cases hp

end Pal
