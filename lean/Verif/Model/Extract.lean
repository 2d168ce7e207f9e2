import Verif.Model.Cli
/-
scripts/extract_map_object_concrete_classes.py: from an export of the game's assets to the table of concrete model
classes.

Simplified: the documents are given as loaded by `json.load`, the blueprint files in the order of `os.walk`; `print` is
dropped, the table is the result.  `str.lower` is a parameter, any function on texts: the script only compares what it
returns.  Python's limit on recursion is a parameter, reaching it is `Err.fuel`.  A data table whose "Rows" is no
object is a TypeError.
-/

namespace Pal

/-- `s.removeprefix(p)` -/
def removePrefix (p s : PyStr) : PyStr := if p.isPrefixOf s then s.drop p.length else s

/-- `s.removesuffix(p)` for a `p` that is not empty -/
def removeSuffix (p s : PyStr) : PyStr := if p.isSuffixOf s then s.take (s.length - p.length) else s

/-- `v.startswith(..)`, `v.lower()`: only strings have these. -/
def Val.asStr (v : Val) : Except Err PyStr :=
  match v with
  | .str s => .ok s
  | _ => .error .attr

/-- The dict `blueprints`: from the name of a file to what is in it.  It is never iterated, so a function. -/
abbrev Blueprints := PyStr → Option Dict

/-- `d.get(k, None)`, where a value that is `None` is the same as no value -/
def dgetN (d : Dict) (k : PyStr) : Option Val :=
  match dget? d k with
  | some .none => none
  | r => r

/-- extract_map_object_concrete_classes.py:35-37 -/
def mapObjects (lower : PyStr → PyStr) : List Val → Dict → Except Err Dict
  | [], m => .ok m
  | obj :: t, m => do
    let n ← obj.get (P "Name")
    let n ← n.asStr
    mapObjects lower t (dset m (lower n) obj)

/-- extract_map_object_concrete_classes.py:26-38 -/
def loadBlueprints (lower : PyStr → PyStr) : List (PyStr × Val) → Blueprints → Except Err Blueprints
  | [], b => .ok b
  | (file, data) :: t, b =>
    if endsWith file ".json" then do
      let objs ← data.iterItems
      let m ← mapObjects lower objs []
      loadBlueprints lower t fun k => if k = lower (removeSuffix (P ".json") file) then some m else b k
    else loadBlueprints lower t b

/-- `d[k] = v` for a dict of texts -/
def sset (d : List (PyStr × PyStr)) (k v : PyStr) : List (PyStr × PyStr) :=
  match d with
  | [] => [(k, v)]
  | (k', v') :: t => if k' = k then (k', v) :: t else (k', v') :: sset t k v

/-- extract_map_object_concrete_classes.py:41-54 -/
def objectBlueprints (lower : PyStr → PyStr) (b : Blueprints) : Dict → List (PyStr × PyStr) →
    Except Err (List (PyStr × PyStr))
  | [], acc => .ok acc
  | (name, data) :: t, acc => do
    let soft ← data.path [P "BlueprintClassSoft", P "AssetPathName"]
    if soft.isS "None" then objectBlueprints lower b t acc
    else do
      let c ← data.get (P "BlueprintClassName")
      let c ← c.asStr
      if (b (lower c)).isNone then objectBlueprints lower b t acc
      else objectBlueprints lower b t (sset acc (lower name) (lower c))

/-- extract_map_object_concrete_classes.py:67-71: the first entry that is a generated class -/
def generatedClass : Dict → Except Err (Option Val)
  | [] => .ok none
  | (_, v) :: t => do
    let ty ← v.get (P "Type")
    if ty.isS "BlueprintGeneratedClass" then return some v
    else generatedClass t

/-- `resolve_concrete_class_name` (extract_map_object_concrete_classes.py:56-73) -/
def resolveConcrete (lower : PyStr → PyStr) (b : Blueprints) : Nat → Val → Except Err (Option PyStr)
  | 0, _ => .error .fuel
  | n + 1, cls => do
    let s ← cls.asStr
    if (P "Class'").isPrefixOf s then return some (removePrefix (P "Class'") (removeSuffix (P "'") s))
    else if (P "BlueprintGeneratedClass'").isPrefixOf s then
      match b (lower (removePrefix (P "BlueprintGeneratedClass'") (removeSuffix (P "_C'") s))) with
      | none => return none
      | some bp => do
        match ← generatedClass bp with
        | none => return none
        | some c => do
          let sup ← c.path [P "SuperStruct", P "ObjectName"]
          resolveConcrete lower b n sup
    else return none

/-- `resolve_object_super_concrete_class_name` (extract_map_object_concrete_classes.py:75-97) -/
def resolveSuper (lower : PyStr → PyStr) (b : Blueprints) (n : Nat) (cls : Val) : Except Err (Option PyStr) := do
  let s ← cls.asStr
  if (P "Class'").isPrefixOf s then return some (removePrefix (P "Class'") (removeSuffix (P "'") s))
  else if (P "BlueprintGeneratedClass'").isPrefixOf s then
    let q := removePrefix (P "BlueprintGeneratedClass'") (removeSuffix (P "_C'") s)
    match b (lower q) with
    | none => return none
    | some bp =>
      match dgetN bp (lower (P "Default__" ++ q ++ P "_C")) with
      | none => return none
      | some st => do
        let props ← st.get (P "Properties")
        if ← props.contains (P "ConcreteModelClass") then
          let c ← props.path [P "ConcreteModelClass", P "ObjectName"]
          resolveConcrete lower b n c
        else return none
  else return none

/-- A class name or `None` as a value -/
def Val.ofName : Option PyStr → Val
  | some s => .str s
  | Option.none => .none

/-- The body of the loop (extract_map_object_concrete_classes.py:102-131): what is entered for an object, if anything -/
def concreteOf (lower : PyStr → PyStr) (b : Blueprints) (n : Nat) (c : PyStr) : Except Err (Option Val) :=
  match b c with
  | none => .error .key
  | some bp =>
    match dgetN bp (lower (P "Default__" ++ c ++ P "_C")) with
    | none => .ok none
    | some st => do
      let props ← st.get (P "Properties")
      if ← props.contains (P "ConcreteModelClass") then
        let cls ← props.path [P "ConcreteModelClass", P "ObjectName"]
        let r ← resolveConcrete lower b n cls
        return some (Val.ofName r)
      else
        match dgetN bp (lower (c ++ P "_C")) with
        | none => return none
        | some g => do
          let sup ← g.path [P "SuperStruct", P "ObjectName"]
          match ← resolveSuper lower b n sup with
          | none => return some (.str (P "DEFAULT_UNKNOWN_PalMapObjectConcreteModelBase"))
          | some r => return some (.str r)

/-- extract_map_object_concrete_classes.py:100-131 -/
def concreteClasses (lower : PyStr → PyStr) (b : Blueprints) (n : Nat) : List (PyStr × PyStr) → Dict → Except Err Dict
  | [], acc => .ok acc
  | (name, c) :: t, acc => do
    match ← concreteOf lower b n c with
    | none => concreteClasses lower b n t acc
    | some v => concreteClasses lower b n t (dset acc name v)

/-- `map_object_data_table[0]["Rows"]` (extract_map_object_concrete_classes.py:42) -/
def tableRows (table : Val) : Except Err Dict :=
  match table with
  | .list (x :: _) => match x.get (P "Rows") with
    | .error e => .error e
    | .ok (.dict d) => .ok d
    | .ok _ => .error .type
  | .list [] => .error .index
  | .dict _ => .error .key
  | _ => .error .type

/-- `main` (extract_map_object_concrete_classes.py:9-133) -/
def extractMain (lower : PyStr → PyStr) (limit : Nat) (table : Val) (files : List (PyStr × Val)) : Except Err Dict := do
  let b ← loadBlueprints lower files fun _ => none
  let rows ← tableRows table
  let objs ← objectBlueprints lower b rows []
  concreteClasses lower b limit objs []

end Pal
