import Verif.Model.Cli
/-
commands/convert.py and commands/resave_test.py as sequences of steps on the file system, for interrupted runs and
for runs at the same time.

`Model/Cli` maps a world to the world after the command.  Here the same commands are programs whose steps are
single accesses to the file system, so that the states in between can be seen.  What a program writes arrives one
byte at a time: Python's buffer may be flushed anywhere, so every beginning of the output may be what is in the file
when the process dies.  Reading a file is one step.  A prompt, which loops until it is answered, is one step,
because nobody else sees the terminal.  `Lemmas/Steps` proves that complete runs do what `Model/Cli` says.
-/

namespace Pal

/-- A program: it has ended, or it accesses the file system or the terminal and goes on with the answer. -/
inductive Prog (α : Type) where
  | done (r : Except Err α)
  /-- `os.path.exists(p)` -/
  | exist (p : PyStr) (k : Bool → Prog α)
  /-- `os.path.isfile(p)` -/
  | isFile (p : PyStr) (k : Bool → Prog α)
  /-- `confirm_prompt(...)` -/
  | prompt (k : Except Err Bool → Prog α)
  /-- `open(p, "rb").read()` -/
  | read (p : PyStr) (k : Except Err Bytes → Prog α)
  /-- `open(p, "w")` -/
  | trunc (p : PyStr) (k : Except Err Unit → Prog α)
  /-- one byte of what is written to the open file `p` arrives there -/
  | byte (p : PyStr) (x : UInt8) (k : Prog α)

namespace Prog

/-- One thing after the other; an exception ends both. -/
def bind {α β : Type} : Prog α → (α → Prog β) → Prog β
  | .done (.ok a), f => f a
  | .done (.error e), _ => .done (.error e)
  | .exist p k, f => .exist p fun b => (k b).bind f
  | .isFile p k, f => .isFile p fun b => (k b).bind f
  | .prompt k, f => .prompt fun b => (k b).bind f
  | .read p k, f => .read p fun b => (k b).bind f
  | .trunc p k, f => .trunc p fun b => (k b).bind f
  | .byte p x k, f => .byte p x (k.bind f)

instance : Monad Prog where
  pure a := .done (.ok a)
  bind := bind

/-- An exception, or a value. -/
def lift {α : Type} (x : Except Err α) : Prog α := .done x

/-- The bytes `b`, one after the other. -/
def bytes (p : PyStr) : Bytes → Prog Unit
  | [] => .done (.ok ())
  | x :: t => .byte p x (bytes p t)

end Prog

/-- The open file `p` grows by a byte. -/
def World.grow (w : World) (p : PyStr) (x : UInt8) : World :=
  match w.fs p with
  | some (.file b) => w.put p (b ++ [x])
  | _ => w

/-- One step of a program. -/
def Prog.step {α : Type} (ext : Ext) : Prog α → World → Option (Prog α × World)
  | .done _, _ => none
  | .exist p k, w => some (k (w.fs p).isSome, w)
  | .isFile p k, w => some (k (match w.fs p with
      | some (.file _) => true
      | _ => false), w)
  | .prompt k, w => some (k (confirmLoop w.replies).1, { w with replies := (confirmLoop w.replies).2 })
  | .read p k, w => some (k (readFile p w).1, w)
  | .trunc p k, w => some (k (openTrunc ext p w).1, (openTrunc ext p w).2)
  | .byte p x k, w => some (k, w.grow p x)

/-- Any number of steps. -/
inductive Steps {α : Type} (ext : Ext) : Prog α → World → Prog α → World → Prop
  | refl (x : Prog α) (w : World) : Steps ext x w x w
  | step {x y z : Prog α} {w w' w'' : World} : x.step ext w = some (y, w') → Steps ext y w' z w'' → Steps ext x w z w''

/-- The process may die at any moment and leave the world `w'`. -/
def Interrupted {α : Type} (ext : Ext) (x : Prog α) (w w' : World) : Prop := ∃ y, Steps ext x w y w'

/-- Any number of interrupted (or complete) runs of a command, with or without `--force`, whatever is typed. -/
inductive Attempts (ext : Ext) (c : Bool → Prog Unit) : World → World → Prop
  | none (w : World) : Attempts ext c w w
  | more {force : Bool} {w w' w'' : World} (replies : List PyStr) : Interrupted ext (c force) { w with replies := replies } w' →
      Attempts ext c w' w'' → Attempts ext c w w''

/-! ### the commands -/

/-- convert.py:97-101, 127-131 -/
def askOverwriteP (out : PyStr) (force : Bool) : Prog Unit :=
  .exist out fun e =>
    if e then
      if force then .done (.ok ())
      else .prompt fun c => match c with
        | .ok true => .done (.ok ())
        | .ok false => .done (.error (.exit 1))
        | .error e => .done (.error e)
    else .done (.ok ())

/-- `convert_sav_to_json` (convert.py:88-122) -/
def convertSavToJsonP (ext : Ext) (filename out : PyStr) (force minify an : Bool) (keys : List PyStr) : Prog Unit := do
  askOverwriteP out force
  let data ← Prog.read filename .done
  let (raw, _) ← Prog.lift (decompressSav ext.z data)
  let g ← Prog.lift (gvasRead (palCfg (selects keys) an) raw)
  Prog.trunc out .done
  let (b, e) := ext.jdump minify an g.dump
  Prog.bytes out b
  match e with
  | none => return ()
  | some e => Prog.lift (.error e)

/-- `convert_json_to_sav` (convert.py:125-149) -/
def convertJsonToSavP (ext : Ext) (filename out : PyStr) (force : Bool) : Prog Unit := do
  askOverwriteP out force
  let text ← Prog.read filename .done
  let doc ← Prog.lift (ext.jload text)
  let sav ← Prog.lift (docToSav ext doc)
  Prog.trunc out .done
  Prog.bytes out sav

/-- convert.py:65-77 -/
def mainToJsonP (ext : Ext) (a : Args) : Prog Unit :=
  if a.toJson || endsWith a.filename ".sav" then
    convertSavToJsonP ext a.filename (outputOr a (a.filename ++ P ".json")) a.force a.minify (!a.nanToNull) a.keys
  else .done (.ok ())

/-- convert.py:79-85 -/
def mainFromJsonP (ext : Ext) (a : Args) : Prog Unit :=
  if a.fromJson || endsWith a.filename ".json" then
    convertJsonToSavP ext a.filename (outputOr a (removeAll (P ".json") a.filename)) a.force
  else .done (.ok ())

/-- `main` of convert.py (convert.py:52-85) -/
def convertMainP (ext : Ext) (a : Args) : Prog Unit :=
  if a.toJson && a.fromJson then .done (.error (.exit 1))
  else .exist a.filename fun e =>
    if !e then .done (.error (.exit 1))
    else .isFile a.filename fun f =>
      if !f then .done (.error (.exit 1))
      else do
        mainToJsonP ext a
        mainFromJsonP ext a

/-- `main` of resave_test.py (resave_test.py:12-37) -/
def resaveMainP (ext : Ext) (input : PyStr) : Prog Unit := do
  let js := input ++ P ".resave.json"
  let sv := input ++ P ".resave.sav"
  convertSavToJsonP ext input js false true true [P "all"]
  convertJsonToSavP ext js sv false
  let ib ← Prog.read input .done
  let orig ← Prog.lift (decompressSav ext.z ib)
  let ob ← Prog.read sv .done
  let res ← Prog.lift (decompressSav ext.z ob)
  if orig = res then return () else Prog.lift (.error (.exit 1))

/-! ### several conversions at the same time -/

/-- A conversion: one of the two commands with its arguments. -/
inductive Job where
  | toJson (filename out : PyStr) (force minify an : Bool) (keys : List PyStr)
  | toSav (filename out : PyStr) (force : Bool)

def Job.prog (ext : Ext) : Job → Prog Unit
  | .toJson filename out force minify an keys => convertSavToJsonP ext filename out force minify an keys
  | .toSav filename out force => convertJsonToSavP ext filename out force

def Job.input : Job → PyStr
  | .toJson filename _ _ _ _ _ => filename
  | .toSav filename _ _ => filename

def Job.output : Job → PyStr
  | .toJson _ out _ _ _ _ => out
  | .toSav _ out _ => out

/-- The job on its own, as a whole. -/
def Job.alone (ext : Ext) : Job → IOm Unit
  | .toJson filename out force minify an keys => convertSavToJson ext filename out force minify an keys
  | .toSav filename out force => convertJsonToSav ext filename out force

/-- Processes that share the file system; each has its own terminal. -/
structure Procs (ι : Type) where
  fs : PyStr → Option Node
  st : ι → Prog Unit × List PyStr

open Classical in
/-- The scheduler lets one process take a step. -/
inductive Procs.Step {ι : Type} (ext : Ext) : Procs ι → Procs ι → Prop
  | mk (s : Procs ι) (i : ι) {y : Prog Unit} {w : World} : (s.st i).1.step ext ⟨s.fs, (s.st i).2⟩ = some (y, w) →
      Step ext s ⟨w.fs, fun j => if j = i then (y, w.replies) else s.st j⟩

/-- Any schedule. -/
inductive Procs.Runs {ι : Type} (ext : Ext) : Procs ι → Procs ι → Prop
  | refl (s : Procs ι) : Runs ext s s
  | step {s t u : Procs ι} : Runs ext s t → Step ext t u → Runs ext s u

/-- The jobs are started together. -/
def Procs.start {ι : Type} (ext : Ext) (jobs : ι → Job) (fs : PyStr → Option Node) (replies : ι → List PyStr) : Procs ι :=
  ⟨fs, fun i => ((jobs i).prog ext, replies i)⟩

end Pal
