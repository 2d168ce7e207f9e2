import Verif.Model.JsonText
import Verif.Model.PalSav
import Verif.Model.PalTypes
/-
commands/convert.py and commands/resave_test.py over a small file-system model.

The world is a map from paths to nodes and the list of lines still to be typed by the
user.  Paths are compared as strings (no links, no normalisation).  `print` is
dropped.  argparse is not modelled: the entry point takes the parsed arguments; the
splitting of `--custom-properties` is modelled.
-/

namespace Pal

/-- A path is a file, or a directory. -/
inductive Node where
  | file (b : Bytes)
  | dir

structure World where
  fs : PyStr → Option Node
  replies : List PyStr

/-- What the model leaves open: zlib, the text `repr` gives a finite float, and whether the
operating system lets us create or truncate a path. -/
structure Ext where
  z : Zlib
  repr : BitVec 64 → PyStr
  canCreate : PyStr → Bool

/-- What `json.dump(v, f, indent=None if minify else "\t", cls=CustomEncoder, allow_nan=an)`
writes to the file, and the exception it ends with, if any (convert.py:118-122). -/
def Ext.jdump (ext : Ext) (minify an : Bool) (v : Val) : Bytes × Option Err := jsonDump ext.repr minify an v

/-- `json.load(f)` (convert.py:133-134). -/
def Ext.jload (_ : Ext) (b : Bytes) : Except Err Val := jsonLoad b

/-- A program: exceptions keep the world. -/
abbrev IOm (α : Type) := World → Except Err α × World

namespace IOm
def pure {α : Type} (a : α) : IOm α := fun w => (.ok a, w)
def bind {α β : Type} (x : IOm α) (f : α → IOm β) : IOm β := fun w =>
  match x w with
  | (.ok a, w') => f a w'
  | (.error e, w') => (.error e, w')
end IOm

instance : Monad IOm where
  pure := IOm.pure
  bind := IOm.bind

def ioFail {α : Type} (e : Err) : IOm α := fun w => (.error e, w)
def ioLift {α : Type} (x : Except Err α) : IOm α := fun w => (x, w)

/-- `os.path.exists` -/
def pathExists (p : PyStr) : IOm Bool := fun w => (.ok (w.fs p).isSome, w)

/-- `os.path.isfile` -/
def pathIsFile (p : PyStr) : IOm Bool := fun w =>
  (.ok (match w.fs p with
    | some (.file _) => true
    | _ => false), w)

/-- `open(p, "rb").read()` -/
def readFile (p : PyStr) : IOm Bytes := fun w =>
  match w.fs p with
  | some (.file b) => (.ok b, w)
  | _ => (.error .os, w)

def World.put (w : World) (p : PyStr) (b : Bytes) : World :=
  { w with fs := fun q => if q = p then some (.file b) else w.fs q }

/-- `open(p, "w")`: creates or truncates the file, or raises OSError without effect. -/
def openTrunc (ext : Ext) (p : PyStr) : IOm Unit := fun w =>
  match w.fs p with
  | some .dir => (.error .os, w)
  | some (.file _) => if ext.canCreate p then (.ok (), w.put p []) else (.error .os, w)
  | none => if ext.canCreate p then (.ok (), w.put p []) else (.error .os, w)

/-- Content of an open file after writing `b` to it from the start and closing it. -/
def writeOut (p : PyStr) (b : Bytes) : IOm Unit := fun w => (.ok (), w.put p b)

/-- `str.casefold`, exact for comparison with "y" and "n": the only characters that
casefold to those are the ASCII letters. -/
def casefold (s : PyStr) : PyStr := s.map fun c => if 65 ≤ c ∧ c ≤ 90 then c + 32 else c

/-- The loop of `confirm_prompt` (convert.py:152-156) over the lines typed by the user;
running out of lines is EOFError. -/
def confirmLoop : List PyStr → Except Err Bool × List PyStr
  | [] => (.error .eof, [])
  | r :: t =>
    if casefold r = P "y" then (.ok true, t)
    else if casefold r = P "n" then (.ok false, t)
    else confirmLoop t

/-- `confirm_prompt` (convert.py:152-156) -/
def confirmPrompt : IOm Bool := fun w =>
  let (r, t) := confirmLoop w.replies
  (r, { w with replies := t })

/-- `if os.path.exists(output_path): ...` (convert.py:97-101, 127-131) -/
def askOverwrite (out : PyStr) (force : Bool) : IOm Unit := do
  let e ← pathExists out
  if e then
    if force then return ()
    else
      let c ← confirmPrompt
      if c then return () else ioFail (.exit 1)
  else return ()

/-- Which entries of the custom property table are used (convert.py:107-113). -/
def selects (keys : List PyStr) (prop : String) : Bool :=
  match keys with
  | [] => false
  | k :: t => if k = P "all" then true else (k :: t).contains (P prop)

/-- `convert_sav_to_json` (convert.py:88-122) -/
def convertSavToJson (ext : Ext) (filename out : PyStr) (force minify an : Bool)
    (keys : List PyStr) : IOm Unit := do
  askOverwrite out force
  let data ← readFile filename
  let (raw, _) ← ioLift (decompressSav ext.z data)
  let g ← ioLift (gvasRead (palCfg (selects keys) an) raw)
  openTrunc ext out
  let (b, e) := ext.jdump minify an g.dump
  writeOut out b
  match e with
  | none => return ()
  | some e => ioFail e

/-- The save type chosen by `convert_json_to_sav` (convert.py:137-143). -/
def saveTypeOf (className : Val) : Except Err Nat :=
  match className.contains (P "Pal.PalWorldSaveGame") with
  | .error e => .error e
  | .ok true => .ok 0x32
  | .ok false => match className.contains (P "Pal.PalLocalWorldSaveGame") with
    | .error e => .error e
    | .ok true => .ok 0x32
    | .ok false => .ok 0x31

/-- The writer configuration `PALWORLD_CUSTOM_PROPERTIES` (convert.py:145). -/
def palAll : Cfg := palCfg (fun _ => true) true

/-- From the loaded JSON document to the content of the SAV file (convert.py:135-146). -/
def docToSav (ext : Ext) (doc : Val) : Except Err Bytes := do
  let g ← Gvas.load doc
  let ty ← saveTypeOf g.header.className
  let (b, _) ← g.write palAll
  compressSav ext.z b ty

/-- `convert_json_to_sav` (convert.py:125-149) -/
def convertJsonToSav (ext : Ext) (filename out : PyStr) (force : Bool) : IOm Unit := do
  askOverwrite out force
  let text ← readFile filename
  let doc ← ioLift (ext.jload text)
  let sav ← ioLift (docToSav ext doc)
  openTrunc ext out
  writeOut out sav

/-- Parsed command line (convert.py:14-51). -/
structure Args where
  filename : PyStr
  toJson : Bool
  fromJson : Bool
  output : Option PyStr
  force : Bool
  nanToNull : Bool
  minify : Bool
  keys : List PyStr

/-- `args.output` if given and not empty (convert.py:66-69, 80-83) -/
def outputOr (a : Args) (dflt : PyStr) : PyStr :=
  match a.output with
  | some (c :: t) => c :: t
  | _ => dflt

def endsWith (s : PyStr) (suffix : String) : Bool := (P suffix).isSuffixOf s

/-- convert.py:65-77 -/
def mainToJson (ext : Ext) (a : Args) : IOm Unit :=
  if a.toJson || endsWith a.filename ".sav" then
    convertSavToJson ext a.filename (outputOr a (a.filename ++ P ".json")) a.force a.minify
      (!a.nanToNull) a.keys
  else IOm.pure ()

/-- convert.py:79-85 -/
def mainFromJson (ext : Ext) (a : Args) : IOm Unit :=
  if a.fromJson || endsWith a.filename ".json" then
    convertJsonToSav ext a.filename (outputOr a (removeAll (P ".json") a.filename)) a.force
  else IOm.pure ()

/-- `main` (convert.py:52-85) -/
def convertMain (ext : Ext) (a : Args) : IOm Unit := do
  if a.toJson && a.fromJson then ioFail (.exit 1)
  else
    let e ← pathExists a.filename
    if !e then ioFail (.exit 1)
    else
      let f ← pathIsFile a.filename
      if !f then ioFail (.exit 1)
      else
        mainToJson ext a
        mainFromJson ext a

/-! ### `--custom-properties` (convert.py:45-50) -/

/-- `t.split(",")` -/
def splitComma : PyStr → List PyStr
  | [] => [[]]
  | c :: t => if c = 44 then [] :: splitComma t
    else match splitComma t with
      | [] => [[c]]
      | h :: r => (c :: h) :: r

/-- Characters removed by `str.strip()`. -/
def isPySpace (c : Nat) : Bool :=
  (9 ≤ c && c ≤ 13) || (28 ≤ c && c ≤ 32) || c = 0x85 || c = 0xA0 || c = 0x1680 ||
  (0x2000 ≤ c && c ≤ 0x200A) || c = 0x2028 || c = 0x2029 || c = 0x202F || c = 0x205F || c = 0x3000

/-- `[s.strip() for s in t.split(",")]` (convert.py:48) -/
def parseKeys (t : PyStr) : List PyStr := (splitComma t).map (stripWith isPySpace)

/-- `",".join(...)` -/
def joinComma : List PyStr → PyStr
  | [] => []
  | [a] => a
  | a :: b :: t => a ++ 44 :: joinComma (b :: t)

/-- The default of the option (convert.py:47); argparse passes string defaults through
`type`. -/
def defaultKeys : List PyStr := parseKeys (joinComma (palCustoms.map fun kv => P kv.1))

/-! ### resave_test -/

/-- `main` (resave_test.py:12-33) given the path; the defaults of `convert_sav_to_json`
are no force, allow_nan and all custom properties. -/
def resaveMain (ext : Ext) (input : PyStr) : IOm Unit := do
  let js := input ++ P ".resave.json"
  let sv := input ++ P ".resave.sav"
  convertSavToJson ext input js false true true [P "all"]
  convertJsonToSav ext js sv false
  let ib ← readFile input
  let orig ← ioLift (decompressSav ext.z ib)
  let ob ← readFile sv
  let res ← ioLift (decompressSav ext.z ob)
  if orig = res then return () else ioFail (.exit 1)

/-- `main` (resave_test.py:12-33) with the words of the command line after the program's name; what it prints is not
modelled. -/
def resaveArgv (ext : Ext) (argv : List PyStr) : IOm Unit :=
  match argv with
  | [input] => resaveMain ext input
  | _ => ioFail (.exit 1)

end Pal
