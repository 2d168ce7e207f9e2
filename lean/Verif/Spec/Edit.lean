import Verif.Spec.File
import Verif.Spec.Uuid
/-
Edits of one place: in a document, and in the tree of a save file.
-/

namespace Pal.Spec
open Pal

/-- A step into a document: a key of a dict or a position in a list. -/
inductive Key where
  | key (k : PyStr)
  | idx (i : Nat)

/-- What is done at a place: put another value there, or take a key out of the dict there. -/
inductive Op where
  | set (x : Val)
  | del (k : PyStr)

/-- `v'` is `v` with the change `op` at the place `ks`, which must be there. -/
inductive EditAt (op : Op) : List Key → Val → Val → Prop
  | set {v x : Val} : op = .set x → EditAt op [] v x
  | del {k : PyStr} {l r : Dict} {x : Val} : op = .del k → (∀ kv ∈ l, kv.1 ≠ k) →
      EditAt op [] (.dict (l ++ (k, x) :: r)) (.dict (l ++ r))
  | key {k : PyStr} {ks : List Key} {l r : Dict} {x x' : Val} : (∀ kv ∈ l, kv.1 ≠ k) → EditAt op ks x x' →
      EditAt op (.key k :: ks) (.dict (l ++ (k, x) :: r)) (.dict (l ++ (k, x') :: r))
  | idx {ks : List Key} {l r : List Val} {x x' : Val} : EditAt op ks x x' →
      EditAt op (.idx l.length :: ks) (.list (l ++ x :: r)) (.list (l ++ x' :: r))

/-- What a scalar looks like in JSON: a GUID becomes its text. -/
inductive InJson : Val → Val → Prop
  | int (i : Int) : InJson (.int i) (.int i)
  | float (b : BitVec 64) : InJson (.float b) (.float b)
  | bool (b : Bool) : InJson (.bool b) (.bool b)
  | str (s : PyStr) : InJson (.str s) (.str s)
  | guid (raw : Bytes) : InJson (.uuid raw) (.str (uuidText raw))

/-- The same change in the JSON document. -/
inductive Op.Json : Op → Op → Prop
  | set {x y : Val} : InJson x y → Op.Json (.set x) (.set y)
  | del (k : PyStr) : Op.Json (.del k) (.del k)

variable {m : Mode}

/-- A key given as text. -/
abbrev Fld (s : String) : Key := .key (P s)

mutual
/-- `s'` is `s` with the stored bytes `b` of one value replaced by `b'`; in the document this is the change `op`
at the place `ks`.  `path` is the path of the tree, for the type hints. -/
inductive EditS (cfg : Cfg) : PyStr → List Key → Op → Bytes → Bytes → SVal m → SVal m → Prop
  | vx {path : PyStr} {x y z : F64 m} (x' : F64 m) :
      EditS cfg path [Fld "x"] (.set (vF64 x')) (eF64 x) (eF64 x') (.vector ⟨x, y, z⟩) (.vector ⟨x', y, z⟩)
  | vy {path : PyStr} {x y z : F64 m} (y' : F64 m) :
      EditS cfg path [Fld "y"] (.set (vF64 y')) (eF64 y) (eF64 y') (.vector ⟨x, y, z⟩) (.vector ⟨x, y', z⟩)
  | vz {path : PyStr} {x y z : F64 m} (z' : F64 m) :
      EditS cfg path [Fld "z"] (.set (vF64 z')) (eF64 z) (eF64 z') (.vector ⟨x, y, z⟩) (.vector ⟨x, y, z'⟩)
  | qx {path : PyStr} {x y z w : F64 m} (x' : F64 m) :
      EditS cfg path [Fld "x"] (.set (vF64 x')) (eF64 x) (eF64 x') (.quat ⟨x, y, z, w⟩) (.quat ⟨x', y, z, w⟩)
  | qy {path : PyStr} {x y z w : F64 m} (y' : F64 m) :
      EditS cfg path [Fld "y"] (.set (vF64 y')) (eF64 y) (eF64 y') (.quat ⟨x, y, z, w⟩) (.quat ⟨x, y', z, w⟩)
  | qz {path : PyStr} {x y z w : F64 m} (z' : F64 m) :
      EditS cfg path [Fld "z"] (.set (vF64 z')) (eF64 z) (eF64 z') (.quat ⟨x, y, z, w⟩) (.quat ⟨x, y, z', w⟩)
  | qw {path : PyStr} {x y z w : F64 m} (w' : F64 m) :
      EditS cfg path [Fld "w"] (.set (vF64 w')) (eF64 w) (eF64 w') (.quat ⟨x, y, z, w⟩) (.quat ⟨x, y, z, w'⟩)
  | red {path : PyStr} {r g b a : F32 m} (r' : F32 m) :
      EditS cfg path [Fld "r"] (.set (vF32 r')) (eF32 r) (eF32 r') (.color r g b a) (.color r' g b a)
  | green {path : PyStr} {r g b a : F32 m} (g' : F32 m) :
      EditS cfg path [Fld "g"] (.set (vF32 g')) (eF32 g) (eF32 g') (.color r g b a) (.color r g' b a)
  | blue {path : PyStr} {r g b a : F32 m} (b' : F32 m) :
      EditS cfg path [Fld "b"] (.set (vF32 b')) (eF32 b) (eF32 b') (.color r g b a) (.color r g b' a)
  | alpha {path : PyStr} {r g b a : F32 m} (a' : F32 m) :
      EditS cfg path [Fld "a"] (.set (vF32 a')) (eF32 a) (eF32 a') (.color r g b a) (.color r g b a')
  | dateTime {path : PyStr} {n : BitVec 64} (n' : BitVec 64) :
      EditS cfg path [] (.set (vU n')) (e64 n) (e64 n') (.dateTime n) (.dateTime n')
  | guid {path : PyStr} {g : Guid} (g' : Guid) :
      EditS cfg path [] (.set (vGuid g')) (eGuid g) (eGuid g') (.guid g) (.guid g')
  | props {path : PyStr} {ks : List Key} {op : Op} {b b' : Bytes} {ps ps' : Props m} :
      EditPs cfg path ks op b b' ps ps' → EditS cfg path ks op b b' (.props ps) (.props ps')
/-- The same for keys and values of maps. -/
inductive EditM (cfg : Cfg) : PyStr → List Key → Op → Bytes → Bytes → MVal m → MVal m → Prop
  | struct {path : PyStr} {ks : List Key} {op : Op} {b b' : Bytes} {s s' : SVal m} :
      EditS cfg path ks op b b' s s' → EditM cfg path ks op b b' (.struct s) (.struct s')
  | enum {path : PyStr} {s : Str} (s' : Str) : EditM cfg path [] (.set (vStr s')) (eStr s) (eStr s') (.enum s) (.enum s')
  | name {path : PyStr} {s : Str} (s' : Str) : EditM cfg path [] (.set (vStr s')) (eStr s) (eStr s') (.name s) (.name s')
  | int {path : PyStr} {n : BitVec 32} (n' : BitVec 32) :
      EditM cfg path [] (.set (vI n')) (e32 n) (e32 n') (.int n) (.int n')
  | bool {path : PyStr} {c : Bool} (c' : Bool) : EditM cfg path [] (.set (vBool c')) (eBool c) (eBool c') (.bool c) (.bool c')
/-- The same for properties. -/
inductive EditT (cfg : Cfg) : PyStr → List Key → Op → Bytes → Bytes → PropT m → PropT m → Prop
  | struct {path : PyStr} {ks : List Key} {op : Op} {b b' : Bytes} {s s' : SVal m} {st : Str} {sid : Guid} {id : Option Guid} :
      EditS cfg path ks op b b' s s' → EditT cfg path (Fld "value" :: ks) op b b' (.struct st sid id s) (.struct st sid id s')
  | int {path : PyStr} {id : Option Guid} {n : BitVec 32} (n' : BitVec 32) :
      EditT cfg path [Fld "value"] (.set (vI n')) (e32 n) (e32 n') (.int id n) (.int id n')
  | int64 {path : PyStr} {id : Option Guid} {n : BitVec 64} (n' : BitVec 64) :
      EditT cfg path [Fld "value"] (.set (vI n')) (e64 n) (e64 n') (.int64 id n) (.int64 id n')
  | fixed64 {path : PyStr} {id : Option Guid} {n : BitVec 32} (n' : BitVec 32) :
      EditT cfg path [Fld "value"] (.set (vI n')) (e32 n) (e32 n') (.fixed64 id n) (.fixed64 id n')
  | float {path : PyStr} {id : Option Guid} {f : F32 m} (f' : F32 m) :
      EditT cfg path [Fld "value"] (.set (vF32 f')) (eF32 f) (eF32 f') (.float id f) (.float id f')
  | str {path : PyStr} {id : Option Guid} {s : Str} (s' : Str) :
      EditT cfg path [Fld "value"] (.set (vStr s')) (eStr s) (eStr s') (.str id s) (.str id s')
  | name {path : PyStr} {id : Option Guid} {s : Str} (s' : Str) :
      EditT cfg path [Fld "value"] (.set (vStr s')) (eStr s) (eStr s') (.name id s) (.name id s')
  | enum {path : PyStr} {id : Option Guid} {et s : Str} (s' : Str) :
      EditT cfg path [Fld "value", Fld "value"] (.set (vStr s')) (eStr s) (eStr s') (.enum et id s) (.enum et id s')
  | bool {path : PyStr} {id : Option Guid} {c : Bool} (c' : Bool) :
      EditT cfg path [Fld "value"] (.set (vBool c')) (eBool c) (eBool c') (.bool c id) (.bool c' id)
  | enums {path : PyStr} {id : Option Guid} {l r : List Str} {s : Str} (s' : Str) :
      EditT cfg path [Fld "value", Fld "values", .idx l.length] (.set (vStr s')) (eStr s) (eStr s')
        (.enums id (l ++ s :: r)) (.enums id (l ++ s' :: r))
  | names {path : PyStr} {id : Option Guid} {l r : List Str} {s : Str} (s' : Str) :
      EditT cfg path [Fld "value", Fld "values", .idx l.length] (.set (vStr s')) (eStr s) (eStr s')
        (.names id (l ++ s :: r)) (.names id (l ++ s' :: r))
  | structs {path : PyStr} {ks : List Key} {op : Op} {b b' : Bytes} {id : Option Guid} {pn pt tn : Str} {gid : Guid}
      {l r : List (SVal m)} {s s' : SVal m} : EditS cfg (sub path pn) ks op b b' s s' →
      EditT cfg path (Fld "value" :: Fld "values" :: .idx l.length :: ks) op b b'
        (.structs id pn pt tn gid (l ++ s :: r)) (.structs id pn pt tn gid (l ++ s' :: r))
  | mapKey {path : PyStr} {ks : List Key} {op : Op} {b b' : Bytes} {kt vt : Str} {id : Option Guid}
      {l r : List (MVal m × MVal m)} {k k' v : MVal m} : EditM cfg (path ++ P ".Key") ks op b b' k k' →
      EditT cfg path (Fld "value" :: .idx l.length :: Fld "key" :: ks) op b b'
        (.map kt vt id (l ++ (k, v) :: r)) (.map kt vt id (l ++ (k', v) :: r))
  | mapValue {path : PyStr} {ks : List Key} {op : Op} {b b' : Bytes} {kt vt : Str} {id : Option Guid}
      {l r : List (MVal m × MVal m)} {k v v' : MVal m} : EditM cfg (path ++ P ".Value") ks op b b' v v' →
      EditT cfg path (Fld "value" :: .idx l.length :: Fld "value" :: ks) op b b'
        (.map kt vt id (l ++ (k, v) :: r)) (.map kt vt id (l ++ (k, v') :: r))
/-- The same for property lists; the way to the place meets no custom property.  A property can be taken out. -/
inductive EditPs (cfg : Cfg) : PyStr → List Key → Op → Bytes → Bytes → Props m → Props m → Prop
  | prop {path : PyStr} {ks : List Key} {op : Op} {b b' : Bytes} {l r : Props m} {n : Str} {p p' : PropT m} :
      cfg.custom (sub path n) = none → EditT cfg (sub path n) ks op b b' p p' →
      EditPs cfg path (.key n.val :: ks) op b b' (l ++ (n, p) :: r) (l ++ (n, p') :: r)
  | del {path : PyStr} {l r : Props m} {n : Str} {p : PropT m} :
      EditPs cfg path [] (.del n.val) (eStr n ++ p.enc) [] (l ++ (n, p) :: r) (l ++ r)
end

end Pal.Spec
