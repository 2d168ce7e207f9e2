import Verif.Model.Cli
/-
What a command line of the converter means (C68): the items that are asked for, and the words they are spelled with.
-/

namespace Pal.Spec

/-- One thing that is asked for on the command line. -/
inductive Item where
  | file (s : PyStr)
  | toJson
  | fromJson
  | force
  | nanToNull
  | minify
  | output (v : PyStr)
  | keys (v : PyStr)
  deriving DecidableEq

/-- The long options. -/
def longNames : List PyStr :=
  [P "--help", P "--to-json", P "--from-json", P "--output", P "--force", P "--convert-nan-to-null",
   P "--custom-properties", P "--minify-json"]

/-- `s` is the option `full`, or a beginning of it with which no other option begins. -/
def Abbrev (full s : PyStr) : Prop := s <+: full ∧ ∀ n ∈ longNames, s <+: n → n = full

/-- A word that does not start with a dash, or that is just a dash. -/
def Plain (s : PyStr) : Prop := s = P "-" ∨ s.head? ≠ some 45

/-- `-` and `n` times the flag `f` (for `--force`) -/
def dashF (n : Nat) : PyStr := 45 :: List.replicate n 102

/-- The ways to spell items. -/
inductive Spelling : List Item → List PyStr → Prop
  | file {s : PyStr} : Plain s → Spelling [.file s] [s]
  | toJson {s : PyStr} : Abbrev (P "--to-json") s → Spelling [.toJson] [s]
  | fromJson {s : PyStr} : Abbrev (P "--from-json") s → Spelling [.fromJson] [s]
  | force {s : PyStr} : Abbrev (P "--force") s → Spelling [.force] [s]
  | nanToNull {s : PyStr} : Abbrev (P "--convert-nan-to-null") s → Spelling [.nanToNull] [s]
  | minify {s : PyStr} : Abbrev (P "--minify-json") s → Spelling [.minify] [s]
  | output {s v : PyStr} : Abbrev (P "--output") s → Plain v → Spelling [.output v] [s, v]
  | outputEq {s v : PyStr} : Abbrev (P "--output") s → Spelling [.output v] [s ++ P "=" ++ v]
  | keys {s v : PyStr} : Abbrev (P "--custom-properties") s → Plain v → Spelling [.keys v] [s, v]
  | keysEq {s v : PyStr} : Abbrev (P "--custom-properties") s → Spelling [.keys v] [s ++ P "=" ++ v]
  /-- `-f`, `-ff`, … -/
  | shortForce (n : Nat) : Spelling (List.replicate (n + 1) .force) [dashF (n + 1)]
  /-- `-o v`, `-fo v`, … -/
  | shortOutput (n : Nat) {v : PyStr} : Plain v → Spelling (List.replicate n .force ++ [.output v]) [dashF n ++ P "o", v]
  /-- `-ov`, `-fov`, … -/
  | shortOutputIn (n : Nat) {v : PyStr} : v ≠ [] → v.head? ≠ some 61 →
      Spelling (List.replicate n .force ++ [.output v]) [dashF n ++ P "o" ++ v]
  /-- `-o=v`, `-fo=v`, … -/
  | shortOutputEq (n : Nat) {v : PyStr} : Spelling (List.replicate n .force ++ [.output v]) [dashF n ++ P "o=" ++ v]

/-- A command line: the spellings of its items, one after the other. -/
inductive Line : List Item → List PyStr → Prop
  | nil : Line [] []
  | cons {i t : List Item} {ws u : List PyStr} : Spelling i ws → Line t u → Line (i ++ t) (ws ++ u)

def files (items : List Item) : List PyStr := items.filterMap fun | .file s => some s | _ => none
def outputs (items : List Item) : List PyStr := items.filterMap fun | .output s => some s | _ => none
def keyTexts (items : List Item) : List PyStr := items.filterMap fun | .keys s => some s | _ => none

/-- `r` is `s` without the white space around it. -/
def Stripped (s r : PyStr) : Prop :=
  ∃ a b, s = a ++ r ++ b ∧ (∀ c ∈ a, isPySpace c = true) ∧ (∀ c ∈ b, isPySpace c = true) ∧
    (∀ c, r.head? = some c → isPySpace c = false) ∧ (∀ c, r.getLast? = some c → isPySpace c = false)

/-- The names in a text with commas between them. -/
inductive KeyList : PyStr → List PyStr → Prop
  | one {s r : PyStr} : (44 : Nat) ∉ s → Stripped s r → KeyList s [r]
  | more {s r t : PyStr} {l : List PyStr} : (44 : Nat) ∉ s → Stripped s r → KeyList t l → KeyList (s ++ P "," ++ t) (r :: l)

/-- What the items mean: the file, the flags that are asked for, the last output and the last list of custom properties;
without such a list all custom properties of the tool. -/
structure Meaning (items : List Item) (a : Args) : Prop where
  file : files items = [a.filename]
  toJson : a.toJson = true ↔ .toJson ∈ items
  fromJson : a.fromJson = true ↔ .fromJson ∈ items
  force : a.force = true ↔ .force ∈ items
  nanToNull : a.nanToNull = true ↔ .nanToNull ∈ items
  minify : a.minify = true ↔ .minify ∈ items
  output : a.output = (outputs items).getLast?
  keys : ∀ t, (keyTexts items).getLast? = some t → KeyList t a.keys
  noKeys : keyTexts items = [] → a.keys = palCustoms.map fun kv => P kv.1

/-- The part of a word before an equals sign. -/
def namePart (s : PyStr) : PyStr := s.takeWhile (· ≠ 61)

/-- A negative number: a dash and digits, or a dash, maybe digits, a point and digits; a line feed may follow. -/
def NegativeNumber (digit : Nat → Bool) (s : PyStr) : Prop :=
  ∃ a b e : PyStr, (∀ c ∈ a, digit c = true) ∧ (∀ c ∈ b, digit c = true) ∧ b ≠ [] ∧ (e = [] ∨ e = [10]) ∧
    (s = 45 :: (b ++ e) ∨ s = 45 :: (a ++ 46 :: (b ++ e)))

/-- A word like an option, that is no option: `--` and a name no option begins with, or a dash and a letter that is no
option.  (Words with a space in them and negative numbers are taken for file names.) -/
def Unknown (digit : Nat → Bool) (s : PyStr) : Prop :=
  (32 : Nat) ∉ s ∧ ¬ NegativeNumber digit s ∧ ∃ c r, s = 45 :: c :: r ∧
    ((c = 45 ∧ ∀ n ∈ longNames, ¬ namePart s <+: n) ∨ (c ≠ 45 ∧ c ∉ P "hof"))

/-- A word with which the option is asked for: it starts with `short`, or it is the long option, of which at least `least`
has to be there. -/
def AsksFor (short : Option PyStr) (least full : PyStr) (s : PyStr) : Prop :=
  (∃ n, short = some n ∧ n <+: s) ∨ (least <+: s ∧ s <+: full)

end Pal.Spec
