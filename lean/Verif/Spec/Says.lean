import Verif.Spec.File
import Verif.Spec.JsonText
import Verif.Spec.Single
import Verif.Spec.Uuid
import Verif.Spec.UuidText
import Verif.Spec.Base64
import Verif.Model.Gvas
/-
What a document says: the relation between a Python value, as a user may have edited it, and the save file it
describes.  The dict, list and truth operations are Python's (`Verif/Model/Py.lean`), the texts of
GUIDs are those of `Spec/UuidText`; nothing of the writer is used.
-/

namespace Pal.Spec
open Pal

/-- Values of any kind; floats as they are, without signalling NaNs in single precision. -/
abbrev free : Mode := ⟨false, true⟩

/-- `v[k]` is `x`. -/
def At (v : Val) (k : String) (x : Val) : Prop := v.get (P k) = .ok x

/-! ### numbers, strings, GUIDs -/

/-- An integer field holds an int or a bool. -/
inductive SaysInt : Val → Int → Prop
  | int (i : Int) : SaysInt (.int i) i
  | bool (b : Bool) : SaysInt (.bool b) (if b then 1 else 0)

/-- A signed field of `w` bits. -/
def SaysI {w : Nat} (v : Val) (n : BitVec w) : Prop := SaysInt v n.toInt
/-- An unsigned field of `w` bits. -/
def SaysU {w : Nat} (v : Val) (n : BitVec w) : Prop := SaysInt v n.toNat

/-- A double: None is the quiet NaN, an int the nearest double if that is finite. -/
inductive SaysF64 : Val → BitVec 64 → Prop
  | none : SaysF64 .none qnan64
  | float (b : BitVec 64) : SaysF64 (.float b) b
  | int {v : Val} {i : Int} {b : BitVec 64} : SaysInt v i → NearestFloat (decide (i < 0)) |(i : ℚ)| b → Finite64 b →
      SaysF64 v b

/-- A single: a double in single precision. -/
def SaysF32 (v : Val) (x : BitVec 32) : Prop := ∃ b, SaysF64 v b ∧ Narrows b x

/-- A GUID object, or a text that the standard library reads as the number printed from left to right. -/
inductive SaysGuid : Val → Guid → Prop
  | uuid (g : Guid) : SaysGuid (.uuid g.val) g
  | text {s : PyStr} {g : Guid} : GuidText.Says s (beVal (printOrder g.val)) → SaysGuid (.str s) g

/-- The optional "id" of a property: absent or None, or a GUID. -/
inductive SaysId : Val → Option Guid → Prop
  | absent {d : Dict} : (∀ kv ∈ d, kv.1 ≠ P "id") → SaysId (.dict d) none
  | none {v : Val} : At v "id" .none → SaysId v none
  | some {v x : Val} {g : Guid} : At v "id" x → SaysGuid x g → SaysId v (some g)

/-- The items of a sequence; of the dicts only the empty one. -/
inductive Items : Val → List Val → Prop
  | list (l : List Val) : Items (.list l) l
  | tuple (l : List Val) : Items (.tuple l) l
  | bytes (b : Bytes) : Items (.bytes b) (b.map fun x => .int x.toNat)
  | str (s : PyStr) : Items (.str s) (s.map fun c => .str [c])
  | dict : Items (.dict []) []

def SaysVec (v : Val) (x : Vec free) : Prop :=
  ∃ a b c, At v "x" a ∧ SaysF64 a x.x.val ∧ At v "y" b ∧ SaysF64 b x.y.val ∧ At v "z" c ∧ SaysF64 c x.z.val

def SaysQuat (v : Val) (x : Quat free) : Prop :=
  ∃ a b c d, At v "x" a ∧ SaysF64 a x.x.val ∧ At v "y" b ∧ SaysF64 b x.y.val ∧ At v "z" c ∧ SaysF64 c x.z.val ∧
    At v "w" d ∧ SaysF64 d x.w.val

/-- The values `l` say the elements of an array that the tool writes, but cannot read again. -/
inductive SaysOthers : List Val → Others free → Prop
  | ints {l : List Val} {ns : List (BitVec 32)} : List.Forall₂ SaysI l ns → SaysOthers l (.ints ns)
  | int64s {l : List Val} {ns : List (BitVec 64)} : List.Forall₂ SaysI l ns → SaysOthers l (.int64s ns)
  | floats {l : List Val} {fs : List (F32 free)} : List.Forall₂ (fun v f => SaysF32 v f.val) l fs → SaysOthers l (.floats fs)
  | strs (l : List Str) : SaysOthers (l.map fun s => .str s.val) (.strs l)
  | bools (l : List Val) : SaysOthers l (.bools (l.map Val.truthy))
  | nothing {t : Str} : t.val ≠ P "StructProperty" → SaysOthers [] (.nothing t)

/-- Neither the value is one of the struct types with a fixed layout. -/
def Generic (st : Val) : Prop := ∀ t ∈ fixedStructs, st ≠ .str (P t)

mutual
/-- `v` says the contents of a struct of type `st`. -/
inductive SaysS (O : Val → Val → Prop) : Val → Val → SVal free → Prop
  | vector {v : Val} {x : Vec free} : SaysVec v x → SaysS O (.str (P "Vector")) v (.vector x)
  | dateTime {v : Val} {n : BitVec 64} : SaysU v n → SaysS O (.str (P "DateTime")) v (.dateTime n)
  | guid {v : Val} {g : Guid} : SaysGuid v g → SaysS O (.str (P "Guid")) v (.guid g)
  | quat {v : Val} {q : Quat free} : SaysQuat v q → SaysS O (.str (P "Quat")) v (.quat q)
  | color {v xr xg xb xa : Val} {r g b a : F32 free} : At v "r" xr → SaysF32 xr r.val → At v "g" xg → SaysF32 xg g.val →
      At v "b" xb → SaysF32 xb b.val → At v "a" xa → SaysF32 xa a.val → SaysS O (.str (P "LinearColor")) v (.color r g b a)
  | props {st v : Val} {ps : Props free} : Generic st → SaysPs O v ps → SaysS O st v (.props ps)
/-- `v` says a key or a value of a map, of type `ty` and, for structs, struct type `st`. -/
inductive SaysM (O : Val → Val → Prop) : Val → Val → Val → MVal free → Prop
  | struct {st v : Val} {s : SVal free} : SaysS O st v s → SaysM O (.str (P "StructProperty")) st v (.struct s)
  | enum {st : Val} (s : Str) : SaysM O (.str (P "EnumProperty")) st (.str s.val) (.enum s)
  | name {st : Val} (s : Str) : SaysM O (.str (P "NameProperty")) st (.str s.val) (.name s)
  | int {st v : Val} {n : BitVec 32} : SaysI v n → SaysM O (.str (P "IntProperty")) st v (.int n)
  | bool {st : Val} (v : Val) : SaysM O (.str (P "BoolProperty")) st v (.bool v.truthy)
/-- `v` says a property. -/
inductive SaysP (O : Val → Val → Prop) : Val → PropT free → Prop
  | struct {v x y : Val} {st : Str} {sid : Guid} {id : Option Guid} {s : SVal free} :
      At v "type" (.str (P "StructProperty")) → At v "struct_type" (.str st.val) → At v "struct_id" x → SaysGuid x sid →
      SaysId v id → At v "value" y → SaysS O (.str st.val) y s → SaysP O v (.struct st sid id s)
  | int {v y : Val} {id : Option Guid} {n : BitVec 32} :
      At v "type" (.str (P "IntProperty")) → SaysId v id → At v "value" y → SaysI y n → SaysP O v (.int id n)
  | int64 {v y : Val} {id : Option Guid} {n : BitVec 64} :
      At v "type" (.str (P "Int64Property")) → SaysId v id → At v "value" y → SaysI y n → SaysP O v (.int64 id n)
  | fixed64 {v y : Val} {id : Option Guid} {n : BitVec 32} :
      At v "type" (.str (P "FixedPoint64Property")) → SaysId v id → At v "value" y → SaysI y n → SaysP O v (.fixed64 id n)
  | float {v y : Val} {id : Option Guid} {f : F32 free} :
      At v "type" (.str (P "FloatProperty")) → SaysId v id → At v "value" y → SaysF32 y f.val → SaysP O v (.float id f)
  | str {v : Val} {id : Option Guid} {s : Str} :
      At v "type" (.str (P "StrProperty")) → SaysId v id → At v "value" (.str s.val) → SaysP O v (.str id s)
  | name {v : Val} {id : Option Guid} {s : Str} :
      At v "type" (.str (P "NameProperty")) → SaysId v id → At v "value" (.str s.val) → SaysP O v (.name id s)
  | enum {v y : Val} {id : Option Guid} {et s : Str} :
      At v "type" (.str (P "EnumProperty")) → SaysId v id → At v "value" y → At y "type" (.str et.val) →
      At y "value" (.str s.val) → SaysP O v (.enum et id s)
  | bool {v y : Val} {id : Option Guid} :
      At v "type" (.str (P "BoolProperty")) → SaysId v id → At v "value" y → SaysP O v (.bool y.truthy id)
  | enums {v y x : Val} {id : Option Guid} (l : List Str) :
      At v "type" (.str (P "ArrayProperty")) → At v "array_type" (.str (P "EnumProperty")) → SaysId v id →
      At v "value" y → At y "values" x → Items x (l.map fun s => .str s.val) → l.length < 2 ^ 32 → SaysP O v (.enums id l)
  | names {v y x : Val} {id : Option Guid} (l : List Str) :
      At v "type" (.str (P "ArrayProperty")) → At v "array_type" (.str (P "NameProperty")) → SaysId v id →
      At v "value" y → At y "values" x → Items x (l.map fun s => .str s.val) → l.length < 2 ^ 32 → SaysP O v (.names id l)
  | guids {v y x : Val} {id : Option Guid} :
      At v "type" (.str (P "ArrayProperty")) → At v "array_type" (.str (P "Guid")) → SaysId v id →
      At v "value" y → At y "values" x → Items x [] → SaysP O v (.guids id [])
  | bytes {v y x : Val} {id : Option Guid} {l : List Val} {b : Bytes} :
      At v "type" (.str (P "ArrayProperty")) → At v "array_type" (.str (P "ByteProperty")) → SaysId v id →
      At v "value" y → At y "values" x → Items x l → List.Forall₂ (fun a c => SaysInt a (UInt8.toNat c)) l b →
      b.length < 2 ^ 32 → SaysP O v (.bytes id b)
  | others {v y x : Val} {id : Option Guid} {l : List Val} {o : Others free} :
      At v "type" (.str (P "ArrayProperty")) → At v "array_type" (.str o.type) → SaysId v id →
      At v "value" y → At y "values" x → Items x l → SaysOthers l o → l.length < 2 ^ 32 → SaysP O v (.others id o)
  | structs {v y x z : Val} {id : Option Guid} {pn pt tn : Str} {gid : Guid} {l : List Val} {ss : List (SVal free)} :
      At v "type" (.str (P "ArrayProperty")) → At v "array_type" (.str (P "StructProperty")) → SaysId v id →
      At v "value" y → At y "prop_name" (.str pn.val) → At y "prop_type" (.str pt.val) →
      At y "type_name" (.str tn.val) → At y "id" z → SaysGuid z gid → At y "values" x → Items x l →
      SaysSs O (.str tn.val) l ss → ss.length < 2 ^ 32 → (encSVals ss).length < 2 ^ 64 → SaysP O v (.structs id pn pt tn gid ss)
  | map {v y : Val} {id : Option Guid} {kt vt : Str} {l : List Val} {es : List (MVal free × MVal free)} :
      At v "type" (.str (P "MapProperty")) → At v "key_type" (.str kt.val) → At v "value_type" (.str vt.val) →
      SaysId v id → At v "value" y → Items y l → SaysEs O v l es → es.length < 2 ^ 32 → SaysP O v (.map kt vt id es)
/-- The elements of an array of structs of type `st`. -/
inductive SaysSs (O : Val → Val → Prop) : Val → List Val → List (SVal free) → Prop
  | nil {st : Val} : SaysSs O st [] []
  | cons {st v : Val} {l : List Val} {s : SVal free} {ss : List (SVal free)} :
      SaysS O st v s → SaysSs O st l ss → SaysSs O st (v :: l) (s :: ss)
/-- The entries of the map `m`. -/
inductive SaysEs (O : Val → Val → Prop) : Val → List Val → List (MVal free × MVal free) → Prop
  | nil {m : Val} : SaysEs O m [] []
  | cons {m e k v kt vt kst vst : Val} {l : List Val} {k' v' : MVal free} {es : List (MVal free × MVal free)} :
      At m "key_type" kt → At m "value_type" vt → At m "key_struct_type" kst → At m "value_struct_type" vst →
      At e "key" k → At e "value" v → SaysM O kt kst k k' → SaysM O vt vst v v' → SaysEs O m l es →
      SaysEs O m (e :: l) ((k', v') :: es)
/-- The entries of a dict of properties: a property without "custom_type" is written as it is, one with
"custom_type" as the property `v'` that `O` gives for it.  The size of the value fits in eight bytes. -/
inductive SaysD (O : Val → Val → Prop) : Dict → Props free → Prop
  | nil : SaysD O [] []
  | cons {v : Val} {d : Dict} {n : Str} {p : PropT free} {ps : Props free} :
      v.contains (P "custom_type") = .ok false → SaysP O v p → p.tail.length < 2 ^ 64 → SaysD O d ps →
      SaysD O ((n.val, v) :: d) ((n, p) :: ps)
  | opened {v v' : Val} {d : Dict} {n : Str} {p : PropT free} {ps : Props free} :
      O v v' → SaysP O v' p → p.tail.length < 2 ^ 64 → SaysD O d ps → SaysD O ((n.val, v) :: d) ((n, p) :: ps)
/-- `v` says a property list: a dict of properties, or something empty. -/
inductive SaysPs (O : Val → Val → Prop) : Val → Props free → Prop
  | dict {d : Dict} {ps : Props free} : SaysD O d ps → SaysPs O (.dict d) ps
  | empty {v : Val} : Items v [] → SaysPs O v []
end

/-- `v[0]` and `v[1]`: a GUID and a signed number. -/
def SaysVersion (v : Val) (x : Guid × BitVec 32) : Prop :=
  ∃ a b t, Items v (a :: b :: t) ∧ SaysGuid a x.1 ∧ SaysI b x.2

/-- The field `k` of `v` is there and says what `p` asks for. -/
def Entry (v : Val) (k : String) (p : Val → Prop) : Prop := ∃ x, At v k x ∧ p x

/-- `v` says a header.  The magic, the version and the version of the format are fields, too. -/
structure SaysHeader (v : Val) (magic ver fmt : BitVec 32) (x : Header) : Prop where
  magic : Entry v "magic" (SaysI · magic)
  ver : Entry v "save_game_version" (SaysI · ver)
  ue4 : Entry v "package_file_version_ue4" (SaysI · x.ue4)
  ue5 : Entry v "package_file_version_ue5" (SaysI · x.ue5)
  major : Entry v "engine_version_major" (SaysU · x.major)
  minor : Entry v "engine_version_minor" (SaysU · x.minor)
  patch : Entry v "engine_version_patch" (SaysU · x.patch)
  changelist : Entry v "engine_version_changelist" (SaysU · x.changelist)
  branch : At v "engine_version_branch" (.str x.branch.val)
  format : Entry v "custom_version_format" (SaysI · fmt)
  versions : Entry v "custom_versions" fun y => ∃ l, Items y l ∧ List.Forall₂ SaysVersion l x.versions.val
  className : At v "save_game_class_name" (.str x.className.val)

/-- The document `d` says the file `f`.  The trailer is a base64 text (`B64.Says`). -/
structure SaysDoc (O : Val → Val → Prop) (d : Val) (magic ver fmt : BitVec 32) (f : File free) : Prop where
  header : Entry d "header" (SaysHeader · magic ver fmt f.header)
  props : Entry d "properties" (SaysPs O · f.props)
  trailer : Entry d "trailer" (B64.Says · f.trailer)

/-- The bytes of a file with the given magic and versions (a proper save file has "GVAS", 3 and 3). -/
def File.encWith (magic ver fmt : BitVec 32) (f : File free) : Bytes :=
  f.header.encWith (e32 magic) ver fmt ++ encProps f.props ++ f.trailer

/-! ### Documents -/

mutual
/-- A document as JSON and the reader make it (strings without split surrogate pairs, GUIDs of sixteen bytes). -/
def PlainDoc : Val → Prop
  | .str s => Normal s
  | .uuid raw => raw.length = 16
  | .list l => PlainDocL l
  | .tuple l => PlainDocL l
  | .dict d => PlainDocD d
  | _ => True
def PlainDocL : List Val → Prop
  | [] => True
  | v :: t => PlainDoc v ∧ PlainDocL t
def PlainDocD : List (PyStr × Val) → Prop
  | [] => True
  | (k, v) :: t => Normal k ∧ PlainDoc v ∧ PlainDocD t
end

end Pal.Spec
