import Verif.Model.Gvas
/-
Reading and writing on a limited interpreter stack.

`properties_until_end`, `property`, `struct_value` and the decoders call each other
recursively (archive.py:378-585, 800-969), so a deeply nested file can use up the stack of
the interpreter, which raises RecursionError.  This is an ordinary `Exception`: a
`try: ... except Exception` catches it.  Everything else is as in Model/Props.lean and
Model/Gvas.lean; only the recursive calls differ.

How many frames a call needs depends on the version of the interpreter, on what is called and
on who called the tool.  So the rule is a parameter: it is asked at each property and at each
nested property list, and knows the whole chain of calls that led there.  Simplification: a
shortage shows when a property or a nested list is entered, not in the leaf calls inside the
decoders of raw data.
-/

namespace Pal

/-- One level of the recursion: type and path of the property that is being read, and the
path argument of the nested `properties_until_end` call. -/
abbrev Frame := PyStr × PyStr × PyStr

/-- Where there is room on the stack. -/
structure Stack where
  /-- to enter the nested property list at the head of the chain -/
  nested : List Frame → Bool
  /-- to read a property with this type and path, in a list nested like this -/
  own : List Frame → PyStr → PyStr → Bool
  /-- to write the property list at the head of the chain of lists being written -/
  write : List Val → Bool

/-- RecursionError; the text is not "Warning: EOF not reached". -/
def stackErr : Err := .exc "maximum recursion depth exceeded"

/-- `x` if there is room. -/
def ifRoom {α : Type} (b : Bool) (x : R α) : R α := if b then x else rFail stackErr

/-- `properties_until_end` (archive.py:378-387) on a limited stack. -/
def sLoop (cfg : Cfg) (st : Stack) : Nat → List Frame → PyStr → Dict → R Val
  | 0, _, _, _ => rFail .fuel
  | n + 1, ch, path, acc => do
    let name ← rFString
    if name = P "None" then return .dict acc
    else
      let ty ← rFString
      let size ← rU64
      let q := path ++ dot ++ name
      let v ← ifRoom (st.own ch ty q) (rProperty cfg
        (fun p => ifRoom (st.nested ((ty, q, p) :: ch)) (sLoop cfg st n ((ty, q, p) :: ch) p [])) ty size q)
      sLoop cfg st n ch path (dset acc name v)

/-- `GvasFile.read` (gvas.py:116-137) on a limited stack. -/
def gvasReadSR (cfg : Cfg) (st : Stack) (fuel : Nat) : R Gvas := do
  let h ← hdrRead
  let p ← ifRoom (st.nested []) (sLoop cfg st fuel [] [] [])
  let t ← rReadToEnd
  return ⟨h, p, t⟩

/-- `GvasFile.read` on a limited stack; the model's own budget always suffices. -/
def gvasReadS (cfg : Cfg) (st : Stack) (data : Bytes) : Except Err Gvas :=
  match gvasReadSR cfg st (data.length + 1) data with
  | .ok (g, _) => .ok g
  | .error e => .error e

/-- `properties` (archive.py:800-804) on a limited stack. -/
def sProps (st : Stack) : Nat → Cfg → List Val → Val → W
  | 0, _, _, _ => .error .fuel
  | n + 1, cfg, ch, v =>
    if st.write (v :: ch) then
      wPropsBody (wProperty cfg (sProps st n cfg (v :: ch)) (fun p =>
        match sProps st n Cfg.empty (v :: ch) p with
        | .ok (b, _) => .ok b
        | .error e => .error e)) v
    else .error stackErr

/-- `GvasFile.write` (gvas.py:154-161) on a limited stack. -/
def Gvas.writeS (g : Gvas) (cfg : Cfg) (st : Stack) : Except Err (Bytes × Gvas) :=
  match g.header.write with
  | .error e => .error e
  | .ok hb => match sProps st (g.properties.rank + 1) cfg [] g.properties with
    | .error e => .error e
    | .ok (pb, p') => .ok (hb ++ pb ++ g.trailer, { g with properties := p' })

end Pal
