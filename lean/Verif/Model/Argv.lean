import Verif.Model.Cli
/-
The command line of convert.py: `parser.parse_args()` for the parser of convert.py:14-51, as argparse of CPython 3.11
does it (`argparse.py`: `_parse_known_args`, `_parse_optional`, `_get_option_tuples`, `consume_optional`,
`consume_positionals`).

Specialised to this parser: one positional, flags, and options with one value.  Messages are dropped; a usage error is
exit code 2, `--help` is exit code 0.  `digit` is the character class `\d`, any set of characters.
-/

namespace Pal

/-- The optional actions of the parser. (in `parse_args`, convert.py:52) -/
inductive Act where
  | help | toJson | fromJson | output | force | nan | keys | minify
  deriving DecidableEq

/-- `parser._option_string_actions`, in order (convert.py:18-51; argparse adds the help option) -/
def optionStrings : List (PyStr × Act) :=
  [(P "-h", .help), (P "--help", .help), (P "--to-json", .toJson), (P "--from-json", .fromJson), (P "--output", .output),
   (P "-o", .output), (P "--force", .force), (P "-f", .force), (P "--convert-nan-to-null", .nan),
   (P "--custom-properties", .keys), (P "--minify-json", .minify)]

/-- The options with a value; the others are `store_true` and help. (in `parse_args`, convert.py:52) -/
def Act.takesArg : Act → Bool
  | .output | .keys => true
  | _ => false

/-- The action of an option by its full name (in `parse_args`, convert.py:52) -/
def lookupOption (s : PyStr) : Option Act := (optionStrings.find? fun x => x.1 = s).map Prod.snd

/-- An option in an argument: the action (`None` if there is none of this name), whether its name starts with two
dashes, whether an `=` separates the value, and the value in the same argument. (in `parse_args`, convert.py:52) -/
structure OptTuple where
  act : Option Act
  long : Bool
  sep : Bool
  explicit : Option PyStr

/-- `s.partition('=')` (in `parse_args`, convert.py:52) -/
def partitionEq : PyStr → PyStr × Option PyStr
  | [] => ([], none)
  | c :: t => if c = 61 then ([], some t) else ((c :: (partitionEq t).1), (partitionEq t).2)

/-- `\d+|\d*\.\d+` (in `parse_args`, convert.py:52) -/
def numberBody (digit : Nat → Bool) (r : PyStr) : Bool :=
  (!r.isEmpty && r.all digit) || (match r.dropWhile digit with
    | [] => false
    | c :: t => c == 46 && !t.isEmpty && t.all digit)

/-- `^-\d+$|^-\d*\.\d+$`, where `$` is also before a final line feed (in `parse_args`, convert.py:52) -/
def negativeNumber (digit : Nat → Bool) (s : PyStr) : Bool :=
  match s with
  | 45 :: r => numberBody digit r || (r.getLast? == some 10 && numberBody digit r.dropLast)
  | _ => false

/-- Does the name of the option start with two dashes? (`option_string[1] in chars`) (in `parse_args`, convert.py:52) -/
def isLong (s : PyStr) : Bool := (P "--").isPrefixOf s

/-- `_get_option_tuples` (in `parse_args`, convert.py:52) -/
def optionTuples (s : PyStr) : List OptTuple :=
  match s with
  | 45 :: 45 :: _ => (optionStrings.filter fun x => (partitionEq s).1.isPrefixOf x.1).map fun x =>
      ⟨some x.2, true, (partitionEq s).2.isSome, (partitionEq s).2⟩
  | _ => optionStrings.filterMap fun x =>
      if x.1 = s.take 2 then some ⟨some x.2, false, false, some (s.drop 2)⟩
      else if s.isPrefixOf x.1 then some ⟨some x.2, isLong x.1, false, none⟩
      else none

/-- `_parse_optional`: `none` is an argument. (in `parse_args`, convert.py:52) -/
def parseOptional (digit : Nat → Bool) (s : PyStr) : Except Err (Option OptTuple) :=
  match s with
  | [] => .ok none
  | c :: t =>
    if c ≠ 45 then .ok none
    else match lookupOption s with
      | some a => .ok (some ⟨some a, isLong s, false, none⟩)
      | none =>
        if t = [] then .ok none
        else match (partitionEq s).2, lookupOption (partitionEq s).1 with
          | some v, some a => .ok (some ⟨some a, isLong (partitionEq s).1, true, some v⟩)
          | _, _ => match optionTuples s with
            | _ :: _ :: _ => .error (.exit 2)
            | [x] => .ok (some x)
            | [] =>
              if negativeNumber digit s then .ok none
              else if (32 : Nat) ∈ s then .ok none
              else .ok (some ⟨none, isLong s, false, none⟩)

/-- An argument after classification: a value, the separator `--`, or an option. (in `parse_args`, convert.py:52) -/
inductive Tok where
  | arg (s : PyStr)
  | dash
  | opt (x : OptTuple)

/-- The token of a word, given what `_parse_optional` says. (in `parse_args`, convert.py:52) -/
def tokOf (s : PyStr) : Option OptTuple → Tok
  | some x => .opt x
  | none => .arg s

/-- The first loop of `_parse_known_args`. (in `parse_args`, convert.py:52) -/
def classify (digit : Nat → Bool) : List PyStr → Except Err (List Tok)
  | [] => .ok []
  | s :: t =>
    if s = P "--" then .ok (.dash :: t.map .arg)
    else match parseOptional digit s with
      | .error e => .error e
      | .ok o => match classify digit t with
        | .error e => .error e
        | .ok l => .ok (tokOf s o :: l)

/-- What one option does: the actions with their values, whether something is left that is no option, and whether the
last action still needs a value. (in `parse_args`, convert.py:52) -/
structure OptRun where
  acts : List (Act × Option PyStr)
  extra : Bool
  needs : Option Act

/-- An option without a value in its argument. (in `parse_args`, convert.py:52) -/
def runBare (a : Act) : OptRun := if a.takesArg then ⟨[], false, some a⟩ else ⟨[(a, none)], false, none⟩

/-- What follows a short option in its argument: nothing, or a value with or without `=` before it. (in `parse_args`, convert.py:52) -/
def nextExplicit : PyStr → Option (Bool × PyStr)
  | [] => none
  | c :: t => if c = 61 then some (true, t) else some (false, c :: t)

/-- The loop of `consume_optional` over an argument with a value in it. (in `parse_args`, convert.py:52) -/
def runExplicit : Nat → Act → (long sep : Bool) → PyStr → Except Err OptRun
  | 0, _, _, _, _ => .error .fuel
  | n + 1, a, long, sep, e =>
    if a.takesArg then .ok ⟨[(a, some e)], false, none⟩
    else match e with
      | [] => .error (.exit 2)
      | c :: r =>
        if long then .error (.exit 2)
        else if sep || c == 45 then .error (.exit 2)
        else match lookupOption [45, c] with
          | none => .ok ⟨[(a, none)], true, none⟩
          | some a' =>
            match nextExplicit r with
            | none => .ok ⟨(a, none) :: (runBare a').acts, (runBare a').extra, (runBare a').needs⟩
            | some x => match runExplicit n a' false x.1 x.2 with
              | .error x => .error x
              | .ok z => .ok ⟨(a, none) :: z.acts, z.extra, z.needs⟩

/-- `consume_optional` without the following arguments. (in `parse_args`, convert.py:52) -/
def runOption (x : OptTuple) : Except Err OptRun :=
  match x.act with
  | none => .ok ⟨[], true, none⟩
  | some a => match x.explicit with
    | some e => runExplicit (e.length + 1) a x.long x.sep e
    | none => .ok (runBare a)

/-- The namespace, and whether there were arguments that are left over. (in `parse_args`, convert.py:52) -/
structure ArgState where
  filename : Option PyStr := none
  toJson : Bool := false
  fromJson : Bool := false
  output : Option PyStr := none
  force : Bool := false
  nan : Bool := false
  keys : Option PyStr := none
  minify : Bool := false
  extras : Bool := false

/-- `take_action` (in `parse_args`, convert.py:52) -/
def takeAct (st : ArgState) : Act × Option PyStr → Except Err ArgState
  | (.help, _) => .error (.exit 0)
  | (.toJson, _) => .ok { st with toJson := true }
  | (.fromJson, _) => .ok { st with fromJson := true }
  | (.output, v) => .ok { st with output := v }
  | (.force, _) => .ok { st with force := true }
  | (.nan, _) => .ok { st with nan := true }
  | (.keys, v) => .ok { st with keys := v }
  | (.minify, _) => .ok { st with minify := true }

/-- The actions of one argument, one after the other (in `parse_args`, convert.py:52) -/
def takeActs (st : ArgState) : List (Act × Option PyStr) → Except Err ArgState
  | [] => .ok st
  | a :: t => match takeAct st a with
    | .error e => .error e
    | .ok st' => takeActs st' t

/-- The second loop of `_parse_known_args`, one argument after the other.  The positional takes the first value, with a
separator before or after it; further values are left over. (in `parse_args`, convert.py:52) -/
def consume : List Tok → ArgState → Except Err ArgState
  | [], st => .ok st
  | .arg s :: .dash :: t, st =>
    if st.filename.isNone then consume t { st with filename := some s }
    else consume (.dash :: t) { st with extras := true }
  | .arg s :: t, st =>
    if st.filename.isNone then consume t { st with filename := some s } else consume t { st with extras := true }
  | .dash :: .arg s :: t, st =>
    if st.filename.isNone then consume t { st with filename := some s } else consume t { st with extras := true }
  | .dash :: t, st => consume t { st with extras := true }
  | .opt x :: t, st => match runOption x with
    | .error e => .error e
    | .ok r => match r.needs with
      | none => match takeActs st r.acts with
        | .error e => .error e
        | .ok st => consume t { st with extras := st.extras || r.extra }
      | some a => match t with
        | .arg v :: t' => match takeActs st (r.acts ++ [(a, some v)]) with
          | .error e => .error e
          | .ok st => consume t' { st with extras := st.extras || r.extra }
        | _ => .error (.exit 2)

/-- `parser.parse_args(argv)` (convert.py:52) -/
def parseArgs (digit : Nat → Bool) (argv : List PyStr) : Except Err Args :=
  match classify digit argv with
  | .error e => .error e
  | .ok l => match consume l {} with
    | .error e => .error e
    | .ok st => match st.filename with
      | none => .error (.exit 2)
      | some f =>
        if st.extras then .error (.exit 2)
        else .ok ⟨f, st.toJson, st.fromJson, st.output, st.force, st.nan, st.minify,
          match st.keys with
          | some k => parseKeys k
          | none => defaultKeys⟩

/-- The whole command: arguments, then convert.py:54-85. -/
def convertArgv (ext : Ext) (digit : Nat → Bool) (argv : List PyStr) : IOm Unit :=
  match parseArgs digit argv with
  | .error e => ioFail e
  | .ok a => convertMain ext a

end Pal
