import Verif.Model.Py
/-
What the table of concrete classes is, in terms of the exported files (C67).  `lower` is `str.lower`.  A file of the
export is its name and the document in it, the data table is its rows.
-/

namespace Pal.Spec

/-- `Class'X'`: the class `X` of the game itself -/
def NativeRef (v : Val) (c : PyStr) : Prop := v = .str (P "Class'" ++ c ++ P "'")

/-- `BlueprintGeneratedClass'X_C'`: the class generated from the blueprint `X` -/
def BlueprintRef (v : Val) (q : PyStr) : Prop := v = .str (P "BlueprintGeneratedClass'" ++ q ++ P "_C'")

/-- A text that refers to neither. -/
def OtherRef (v : Val) : Prop :=
  ∃ s, v = .str s ∧ (¬ ∃ t, s = P "Class'" ++ t) ∧ ¬ ∃ t, s = P "BlueprintGeneratedClass'" ++ t

/-- References are spelled in one of the three ways. -/
def RefOk (v : Val) : Prop := (∃ c, NativeRef v c) ∨ (∃ q, BlueprintRef v q) ∨ OtherRef v

/-- The file called `k` up to case: the last one if there are several. -/
def FileOf (lower : PyStr → PyStr) (files : List (PyStr × Val)) (k : PyStr) (data : Val) : Prop :=
  ∃ pre s post, files = pre ++ (s ++ P ".json", data) :: post ∧ lower s = k ∧
    ∀ s' d', (s' ++ P ".json", d') ∈ post → lower s' ≠ k

/-- The objects of a file by name: an object replaces an earlier one with the same name up to case. -/
def ByName (lower : PyStr → PyStr) (objs : List Val) (m : Dict) : Prop :=
  ∃ names : List PyStr, objs.length = names.length ∧
    (∀ x ∈ objs.zip names, x.1.path [P "Name"] = .ok (.str x.2)) ∧
    m = (objs.zip names).foldl (fun m x => dset m (lower x.2) x.1) []

/-- The blueprint called `k`, and its objects. -/
def Blueprint (lower : PyStr → PyStr) (files : List (PyStr × Val)) (k : PyStr) (m : Dict) : Prop :=
  ∃ objs, FileOf lower files k (.list objs) ∧ ByName lower objs m

def IsGenerated (o : Val) : Prop := o.path [P "Type"] = .ok (.str (P "BlueprintGeneratedClass"))

/-- The class generated from blueprint `q` extends the class `r`. -/
def Extends (lower : PyStr → PyStr) (files : List (PyStr × Val)) (q : PyStr) (r : Val) : Prop :=
  ∃ pre k o post, Blueprint lower files (lower q) (pre ++ (k, o) :: post) ∧ (∀ e ∈ pre, ¬ IsGenerated e.2) ∧
    IsGenerated o ∧ o.path [P "SuperStruct", P "ObjectName"] = .ok r

/-- The class `v` extends, over any number of blueprints, the class `c` of the game. -/
inductive Derives (lower : PyStr → PyStr) (files : List (PyStr × Val)) : Val → PyStr → Prop
  | native {v : Val} {c : PyStr} : NativeRef v c → Derives lower files v c
  | up {v : Val} {q : PyStr} {r : Val} {c : PyStr} : BlueprintRef v q → Extends lower files q r →
      Derives lower files r c → Derives lower files v c

/-- Going up from the class `v` one arrives at something that is not in the export. -/
inductive Lost (lower : PyStr → PyStr) (files : List (PyStr × Val)) : Val → Prop
  | other {v : Val} : OtherRef v → Lost lower files v
  | missing {v : Val} {q : PyStr} : BlueprintRef v q → (¬ ∃ m, Blueprint lower files (lower q) m) → Lost lower files v
  | noClass {v : Val} {q : PyStr} {m : Dict} : BlueprintRef v q → Blueprint lower files (lower q) m →
      (∀ e ∈ m, ¬ IsGenerated e.2) → Lost lower files v
  | up {v : Val} {q : PyStr} {r : Val} : BlueprintRef v q → Extends lower files q r → Lost lower files r → Lost lower files v

/-- The object called `n` in the blueprint called `k`. -/
def Object (lower : PyStr → PyStr) (files : List (PyStr × Val)) (k n : PyStr) (o : Val) : Prop :=
  ∃ m, Blueprint lower files k m ∧ dget? m (lower n) = some o

/-- The default object of the blueprint `q`: its fields are the initial values. -/
def Default (lower : PyStr → PyStr) (files : List (PyStr × Val)) (q : PyStr) (o : Val) : Prop :=
  Object lower files (lower q) (P "Default__" ++ q ++ P "_C") o

/-- The object sets its concrete model class to `r`. -/
def Model (o r : Val) : Prop := o.path [P "Properties", P "ConcreteModelClass", P "ObjectName"] = .ok r

/-- The object does not set it. -/
def NoModel (o : Val) : Prop := ∃ d, o.path [P "Properties"] = .ok (.dict d) ∧ dget? d (P "ConcreteModelClass") = none

/-- The class `r` sets the concrete model class to one that derives from `c`, or is itself a class `c` of the game. -/
def Gives (lower : PyStr → PyStr) (files : List (PyStr × Val)) (r : Val) (c : PyStr) : Prop :=
  NativeRef r c ∨ ∃ q o r', BlueprintRef r q ∧ Default lower files q o ∧ Model o r' ∧ Derives lower files r' c

/-- The class `r` gives no class of the game. -/
def GivesNone (lower : PyStr → PyStr) (files : List (PyStr × Val)) (r : Val) : Prop :=
  OtherRef r ∨ ∃ q, BlueprintRef r q ∧ ((¬ ∃ o, Default lower files q o) ∨
    ∃ o, Default lower files q o ∧ (NoModel o ∨ ∃ r', Model o r' ∧ Lost lower files r'))

/-- What the table says for an object with the blueprint `c` (whose name is in lower case). -/
inductive TableEntry (lower : PyStr → PyStr) (files : List (PyStr × Val)) (c : PyStr) : Val → Prop
  /-- the object's own blueprint sets the class -/
  | own {o r : Val} {cls : PyStr} : Object lower files c (P "Default__" ++ c ++ P "_C") o → Model o r →
      Derives lower files r cls → TableEntry lower files c (.str cls)
  | ownLost {o r : Val} : Object lower files c (P "Default__" ++ c ++ P "_C") o → Model o r →
      Lost lower files r → TableEntry lower files c .none
  /-- the blueprint that it extends does -/
  | parent {o g r : Val} {cls : PyStr} : Object lower files c (P "Default__" ++ c ++ P "_C") o → NoModel o →
      Object lower files c (c ++ P "_C") g → g.path [P "SuperStruct", P "ObjectName"] = .ok r →
      Gives lower files r cls → TableEntry lower files c (.str cls)
  | unknown {o g r : Val} : Object lower files c (P "Default__" ++ c ++ P "_C") o → NoModel o →
      Object lower files c (c ++ P "_C") g → g.path [P "SuperStruct", P "ObjectName"] = .ok r →
      GivesNone lower files r → TableEntry lower files c (.str (P "DEFAULT_UNKNOWN_PalMapObjectConcreteModelBase"))

/-- The row names the blueprint `c`, and it is in the export. -/
def Listed (lower : PyStr → PyStr) (files : List (PyStr × Val)) (data : Val) (c : PyStr) : Prop :=
  data.path [P "BlueprintClassSoft", P "AssetPathName"] ≠ .ok (.str (P "None")) ∧
  data.path [P "BlueprintClassName"] = .ok (.str c) ∧ ∃ m, Blueprint lower files (lower c) m

/-- The row that counts for the object `k` (up to case): the last one that names a blueprint of the export. -/
def RowOf (lower : PyStr → PyStr) (files : List (PyStr × Val)) (rows : Dict) (k c : PyStr) : Prop :=
  ∃ pre name data post, rows = pre ++ (name, data) :: post ∧ lower name = k ∧ Listed lower files data c ∧
    ∀ n' d', (n', d') ∈ post → lower n' = k → ¬ ∃ c', Listed lower files d' c'

/-- The export is as the exporting tool writes it: files are arrays, references are spelled in the usual way and
"Properties" is an object. -/
structure ExportOk (files : List (PyStr × Val)) : Prop where
  arrays : ∀ f ∈ files, ∃ objs, f.2 = .list objs
  supers : ∀ f ∈ files, ∀ objs, f.2 = .list objs → ∀ o ∈ objs, ∀ r,
    o.path [P "SuperStruct", P "ObjectName"] = .ok r → RefOk r
  models : ∀ f ∈ files, ∀ objs, f.2 = .list objs → ∀ o ∈ objs, ∀ r, Model o r → RefOk r
  props : ∀ f ∈ files, ∀ objs, f.2 = .list objs → ∀ o ∈ objs, ∀ p, o.path [P "Properties"] = .ok p → ∃ d, p = .dict d

end Pal.Spec
