import Verif.Model.Left
import Mathlib.Data.List.Forall2
/-
Working on a loaded save file: changes of the tree, with saves in between.
-/

namespace Pal.Spec
open Pal

/-! ### changes of the tree -/

/-- TreeEdit the value of the key `k` of a dict, which must be there. -/
def onKey (k : PyStr) (f : Val → Option Val) : Val → Option Val
  | .dict d => (dget? d k).bind fun x => (f x).map fun y => .dict (dset d k y)
  | _ => none

/-- TreeEdit the element `i` of a list, which must be there. -/
def onIdx (i : Nat) (f : Val → Option Val) : Val → Option Val
  | .list l => l[i]?.bind fun x => (f x).map fun y => .list (l.set i y)
  | _ => none

/-- A step from a property list of the tree to a property list inside it. -/
inductive Hop where
  /-- `["k"]["value"]`: into a struct -/
  | struct (k : PyStr)
  /-- `["k"]["value"]["values"][i]`: into an element of an array of structs -/
  | elem (k : PyStr) (i : Nat)
  /-- `["k"]["value"][i]["key"]`: into the key of an entry of a map -/
  | mapKey (k : PyStr) (i : Nat)
  /-- `["k"]["value"][i]["value"]`: into the value of an entry of a map -/
  | mapValue (k : PyStr) (i : Nat)

/-- Do `f` after the step. -/
def Hop.on : Hop → (Val → Option Val) → Val → Option Val
  | .struct k, f => onKey k (onKey (P "value") f)
  | .elem k i, f => onKey k (onKey (P "value") (onKey (P "values") (onIdx i f)))
  | .mapKey k i, f => onKey k (onKey (P "value") (onIdx i (onKey (P "key") f)))
  | .mapValue k i, f => onKey k (onKey (P "value") (onIdx i (onKey (P "value") f)))

/-- A change of a list. -/
inductive ListEdit where
  /-- `l[i] = q` -/
  | put (i : Nat) (q : Val)
  /-- `l.insert(i, q)`, and `l.append(q)` if `i` is the length -/
  | insert (i : Nat) (q : Val)
  /-- `del l[i]` -/
  | delete (i : Nat)

def ListEdit.on : ListEdit → Val → Option Val
  | .put i q, .list l => if i < l.length then some (.list (l.set i q)) else none
  | .insert i q, .list l => if i ≤ l.length then some (.list (l.take i ++ q :: l.drop i)) else none
  | .delete i, .list l => if i < l.length then some (.list (l.take i ++ l.drop (i + 1))) else none
  | _, _ => none

/-- A change of a property list `props`. -/
inductive TreeEdit where
  /-- `props["k"] = q`: a new property, or another one in its place -/
  | set (k : PyStr) (q : Val)
  /-- `del props["k"]` -/
  | del (k : PyStr)
  /-- `props["k"]["value"] = q` -/
  | value (k : PyStr) (q : Val)
  /-- a change of the list `props["k"]["value"]["values"]` -/
  | values (k : PyStr) (c : ListEdit)
  /-- a change of the list `props["k"]["value"]` -/
  | entries (k : PyStr) (c : ListEdit)

/-- `v["k"] = q` -/
def setKey (k : PyStr) (q : Val) : Val → Option Val
  | .dict d => some (.dict (dset d k q))
  | _ => none

/-- `del v["k"]` -/
def delKey (k : PyStr) : Val → Option Val
  | .dict d => if (dget? d k).isSome then some (.dict (derase d k)) else none
  | _ => none

def TreeEdit.on : TreeEdit → Val → Option Val
  | .set k q => setKey k q
  | .del k => delKey k
  | .value k q => onKey k (setKey (P "value") q)
  | .values k c => onKey k (onKey (P "value") (onKey (P "values") c.on))
  | .entries k c => onKey k (onKey (P "value") c.on)

/-- An edit: where, and what. -/
structure Edit where
  hops : List Hop
  change : TreeEdit

def Edit.on (e : Edit) : Val → Option Val := e.hops.foldr Hop.on e.change.on

/-! ### edits outside the decoded parts -/

/-- The struct types whose values are not property lists (archive.py:899-916). -/
def Special (st : Val) : Prop :=
  st = .str (P "Vector") ∨ st = .str (P "DateTime") ∨ st = .str (P "Guid") ∨ st = .str (P "Quat") ∨ st = .str (P "LinearColor")

/-- The property `p` of the given type under the name `k`, which is not shown in decoded form. -/
def PlainAt (v : Val) (k : PyStr) (ty : String) (p : Val) : Prop :=
  v.get k = .ok p ∧ p.contains (P "custom_type") = .ok false ∧ p.get (P "type") = .ok (.str (P ty))

/-- The step leads from the property list `v` to the property list `x`. -/
inductive Goes : Hop → Val → Val → Prop
  | struct {v p x st : Val} {k : PyStr} : PlainAt v k "StructProperty" p → p.get (P "struct_type") = .ok st → ¬ Special st →
      p.get (P "value") = .ok x → Goes (.struct k) v x
  | elem {v p x y tn : Val} {l : List Val} {k : PyStr} {i : Nat} : PlainAt v k "ArrayProperty" p →
      p.get (P "array_type") = .ok (.str (P "StructProperty")) → p.get (P "value") = .ok y → y.get (P "type_name") = .ok tn →
      ¬ Special tn → y.get (P "values") = .ok (.list l) → l[i]? = some x → Goes (.elem k i) v x
  | mapKey {v p x y st : Val} {l : List Val} {k : PyStr} {i : Nat} : PlainAt v k "MapProperty" p →
      p.get (P "key_type") = .ok (.str (P "StructProperty")) → p.get (P "key_struct_type") = .ok st → ¬ Special st →
      p.get (P "value") = .ok (.list l) → l[i]? = some y → y.get (P "key") = .ok x → Goes (.mapKey k i) v x
  | mapValue {v p x y st : Val} {l : List Val} {k : PyStr} {i : Nat} : PlainAt v k "MapProperty" p →
      p.get (P "value_type") = .ok (.str (P "StructProperty")) → p.get (P "value_struct_type") = .ok st → ¬ Special st →
      p.get (P "value") = .ok (.list l) → l[i]? = some y → y.get (P "value") = .ok x → Goes (.mapValue k i) v x

/-- The change does not reach into a decoded property: it replaces or removes a whole property, or changes one that is not
decoded. -/
def TreeEdit.Fits (v : Val) : TreeEdit → Prop
  | .set _ _ => True
  | .del _ => True
  | .value k _ => ∃ p, v.get k = .ok p ∧ p.contains (P "custom_type") = .ok false ∧ ∃ ty, p.get (P "type") = .ok ty
  | .values k _ => ∃ p, PlainAt v k "ArrayProperty" p
  | .entries k _ => ∃ p, PlainAt v k "MapProperty" p

/-- The way to the change meets no decoded property. -/
inductive FitsAt (c : TreeEdit) : List Hop → Val → Prop
  | here {v : Val} : c.Fits v → FitsAt c [] v
  | hop {h : Hop} {hs : List Hop} {v x : Val} : Goes h v x → FitsAt c hs x → FitsAt c (h :: hs) v

/-! ### histories -/

/-- What a user does with the file: save it, which may fail, or edit it. -/
inductive UserAct where
  | save
  | edit (e : Edit)

/-- The file after the actions, if all edits are possible.  A save leaves behind what `Gvas.left` says, whether it fails or
not. -/
def runActs (cfg : Cfg) : List UserAct → Gvas → Option Gvas
  | [], g => some g
  | .save :: t, g => runActs cfg t (g.left cfg)
  | .edit e :: t, g => (e.on g.properties).bind fun p => runActs cfg t { g with properties := p }

/-- The edits among the actions. -/
def editsOf : List UserAct → List Edit
  | [] => []
  | .save :: t => editsOf t
  | .edit e :: t => e :: editsOf t

/-- The edits alone, each of which fits when it is made. -/
inductive Edited : List Edit → Gvas → Gvas → Prop
  | nil {g : Gvas} : Edited [] g g
  | cons {e : Edit} {t : List Edit} {g g' : Gvas} {p : Val} : FitsAt e.change e.hops g.properties → e.on g.properties = some p →
      Edited t { g with properties := p } g' → Edited (e :: t) g g'

/-! ### what a save may change -/

/-- `v'` is `v`, except that dicts with a "custom_type" may have lost it and may have another "value". -/
inductive Kept : Val → Val → Prop
  | same {v : Val} : Kept v v
  | decoded {d d' : Dict} : (dget? d (P "custom_type")).isSome →
      (∀ k, k ≠ P "custom_type" → k ≠ P "value" → dget? d' k = dget? d k) → Kept (.dict d) (.dict d')
  | list {l l' : List Val} : List.Forall₂ Kept l l' → Kept (.list l) (.list l')
  | tuple {l l' : List Val} : List.Forall₂ Kept l l' → Kept (.tuple l) (.tuple l')
  | dict {d d' : Dict} : d'.map Prod.fst = d.map Prod.fst → List.Forall₂ Kept (d.map Prod.snd) (d'.map Prod.snd) →
      Kept (.dict d) (.dict d')

/-- `x` is `v` or inside `v`. -/
inductive Inside (x : Val) : Val → Prop
  | here : Inside x x
  | list {l : List Val} {v : Val} : v ∈ l → Inside x v → Inside x (.list l)
  | tuple {l : List Val} {v : Val} : v ∈ l → Inside x v → Inside x (.tuple l)
  | dict {d : Dict} {k : PyStr} {v : Val} : (k, v) ∈ d → Inside x v → Inside x (.dict d)

/-- Nothing in `v` is decoded. -/
def NothingDecoded (v : Val) : Prop := ∀ d, Inside (.dict d) v → dget? d (P "custom_type") = none

end Pal.Spec
