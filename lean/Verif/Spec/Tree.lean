import Verif.Spec.Blobs
import Verif.Spec.Header
import Verif.Model.Props
/-
Save files as trees of properties: the grammar, the stored bytes and the Python value
the tool shows.  Only the data type `Cfg` (type hints, custom properties, `allow_nan`) is
taken from the model.
-/

namespace Pal.Spec
open Pal

/-- The elements of an array that the tool writes, but cannot read again: an array of numbers, texts or truth values, or an
array of any type without elements. -/
inductive Others (m : Mode) where
  | ints (l : List (BitVec 32))
  | int64s (l : List (BitVec 64))
  | floats (l : List (F32 m))
  | strs (l : List Str)
  | bools (l : List Bool)
  | nothing (type : Str)

mutual
/-- Contents of a struct. -/
inductive SVal (m : Mode) where
  | vector (v : Vec m)
  | dateTime (n : BitVec 64)
  | guid (g : Guid)
  | quat (q : Quat m)
  | color (r g b a : F32 m)
  | props (ps : List (Str × PropT m))
/-- Keys and values of maps. -/
inductive MVal (m : Mode) where
  | struct (s : SVal m)
  | enum (s : Str)
  | name (s : Str)
  | int (n : BitVec 32)
  | bool (b : Bool)
/-- Properties. -/
inductive PropT (m : Mode) where
  | struct (structType : Str) (structId : Guid) (id : Option Guid) (v : SVal m)
  | int (id : Option Guid) (n : BitVec 32)
  | int64 (id : Option Guid) (n : BitVec 64)
  | fixed64 (id : Option Guid) (n : BitVec 32)
  | float (id : Option Guid) (f : F32 m)
  | str (id : Option Guid) (s : Str)
  | name (id : Option Guid) (s : Str)
  | enum (enumType : Str) (id : Option Guid) (s : Str)
  | bool (b : Bool) (id : Option Guid)
  | enums (id : Option Guid) (l : List Str)
  | names (id : Option Guid) (l : List Str)
  | guids (id : Option Guid) (l : List Guid)
  | bytes (id : Option Guid) (b : Bytes)
  | others (id : Option Guid) (o : Others m)
  | structs (id : Option Guid) (propName propType typeName : Str) (gid : Guid) (l : List (SVal m))
  | map (keyType valueType : Str) (id : Option Guid) (l : List (MVal m × MVal m))
end

variable {m : Mode}

abbrev Props (m : Mode) := List (Str × PropT m)

/-! ### Types -/

/-- The name stored as the property's type. -/
def PropT.type : PropT m → String
  | .struct .. => "StructProperty"
  | .int .. => "IntProperty"
  | .int64 .. => "Int64Property"
  | .fixed64 .. => "FixedPoint64Property"
  | .float .. => "FloatProperty"
  | .str .. => "StrProperty"
  | .name .. => "NameProperty"
  | .enum .. => "EnumProperty"
  | .bool .. => "BoolProperty"
  | .enums .. | .names .. | .guids .. | .bytes .. | .others .. | .structs .. => "ArrayProperty"
  | .map .. => "MapProperty"

def MVal.type : MVal m → String
  | .struct _ => "StructProperty"
  | .enum _ => "EnumProperty"
  | .name _ => "NameProperty"
  | .int _ => "IntProperty"
  | .bool _ => "BoolProperty"

/-- The struct types with a fixed layout; every other struct is a property list. -/
def fixedStructs : List String := ["Vector", "DateTime", "Guid", "Quat", "LinearColor"]

/-- The struct type determines the kind of contents. -/
def SVal.Fits (st : PyStr) : SVal m → Prop
  | .vector _ => st = P "Vector"
  | .dateTime _ => st = P "DateTime"
  | .guid _ => st = P "Guid"
  | .quat _ => st = P "Quat"
  | .color .. => st = P "LinearColor"
  | .props _ => ∀ t ∈ fixedStructs, st ≠ P t

/-- The type of the elements. -/
def Others.type : Others m → PyStr
  | .ints _ => P "IntProperty"
  | .int64s _ => P "Int64Property"
  | .floats _ => P "FloatProperty"
  | .strs _ => P "StrProperty"
  | .bools _ => P "BoolProperty"
  | .nothing t => t.val

/-! ### Stored bytes -/

/-- A literal string, stored as an ASCII string. -/
def eLit (s : String) : Bytes := encStr (P s)

/-- The number of elements, and the elements. -/
def Others.enc : Others m → Bytes
  | .ints l => lit 4 l.length ++ l.flatMap e32
  | .int64s l => lit 4 l.length ++ l.flatMap e64
  | .floats l => lit 4 l.length ++ l.flatMap eF32
  | .strs l => lit 4 l.length ++ l.flatMap eStr
  | .bools l => lit 4 l.length ++ l.flatMap eBool
  | .nothing _ => lit 4 0

/-- What comes before the part whose size is declared. -/
def PropT.head : PropT m → Bytes
  | .struct st sid id _ => eStr st ++ eGuid sid ++ eOptGuid id
  | .int id _ | .int64 id _ | .fixed64 id _ | .float id _ | .str id _ | .name id _ => eOptGuid id
  | .enum et id _ => eStr et ++ eOptGuid id
  | .bool b id => eBool b ++ eOptGuid id
  | .enums id _ => eLit "EnumProperty" ++ eOptGuid id
  | .names id _ => eLit "NameProperty" ++ eOptGuid id
  | .guids id _ => eLit "Guid" ++ eOptGuid id
  | .bytes id _ => eLit "ByteProperty" ++ eOptGuid id
  | .others id o => encStr o.type ++ eOptGuid id
  | .structs id .. => eLit "StructProperty" ++ eOptGuid id
  | .map kt vt id _ => eStr kt ++ eStr vt ++ eOptGuid id

mutual
def SVal.enc : SVal m → Bytes
  | .vector v => eVec v
  | .dateTime n => e64 n
  | .guid g => eGuid g
  | .quat q => eQuat q
  | .color r g b a => eF32 r ++ eF32 g ++ eF32 b ++ eF32 a
  | .props ps => encProps ps
def MVal.enc : MVal m → Bytes
  | .struct s => s.enc
  | .enum s => eStr s
  | .name s => eStr s
  | .int n => e32 n
  | .bool b => eBool b
/-- The part whose size is declared. -/
def PropT.tail : PropT m → Bytes
  | .struct _ _ _ v => v.enc
  | .int _ n => e32 n
  | .int64 _ n => e64 n
  | .fixed64 _ n => e32 n
  | .float _ f => eF32 f
  | .str _ s => eStr s
  | .name _ s => eStr s
  | .enum _ _ s => eStr s
  | .bool _ _ => []
  | .enums _ l => lit 4 l.length ++ l.flatMap eStr
  | .names _ l => lit 4 l.length ++ l.flatMap eStr
  | .guids _ l => lit 4 l.length ++ l.flatMap eGuid
  | .bytes _ b => lit 4 b.length ++ b
  | .others _ o => o.enc
  | .structs _ pn pt tn gid l =>
    lit 4 l.length ++ eStr pn ++ eStr pt ++ lit 8 (encSVals l).length ++ eStr tn ++ eGuid gid ++ [0] ++
      encSVals l
  | .map _ _ _ l => lit 4 0 ++ lit 4 l.length ++ encEntries l
def encSVals : List (SVal m) → Bytes
  | [] => []
  | v :: t => v.enc ++ encSVals t
def encEntries : List (MVal m × MVal m) → Bytes
  | [] => []
  | (k, v) :: t => k.enc ++ v.enc ++ encEntries t
/-- A property list: for each property its name, type, declared size and contents; then
the name "None". -/
def encProps : List (Str × PropT m) → Bytes
  | [] => eLit "None"
  | (n, p) :: t => eStr n ++ eLit p.type ++ lit 8 p.tail.length ++ p.head ++ p.tail ++ encProps t
end

/-- A property with its type and declared size. -/
def PropT.enc (p : PropT m) : Bytes := eLit p.type ++ lit 8 p.tail.length ++ p.head ++ p.tail

/-! ### Python values -/

/-- The struct type the tool uses for map keys: the type hint for the path, or Guid. -/
def keyStruct (cfg : Cfg) (path : PyStr) : PyStr := (cfg.hint (path ++ P ".Key")).getD (P "Guid")
/-- The struct type of map values: the type hint, or a property list. -/
def valueStruct (cfg : Cfg) (path : PyStr) : PyStr := (cfg.hint (path ++ P ".Value")).getD (P "StructProperty")

/-- The path of a property. -/
def sub (path : PyStr) (n : Str) : PyStr := path ++ P "." ++ n.val

def vStructType (ty : Str) (st : PyStr) : Val := if ty.val = P "StructProperty" then .str st else .none

/-- The entries of the dict shown for a property at `path` whose "value" is `x`. -/
def PropT.entries (cfg : Cfg) (path : PyStr) (x : Val) : PropT m → List (String × Val)
  | .struct st sid id _ => [("struct_type", vStr st), ("struct_id", vGuid sid), ("id", vOptGuid id), ("value", x),
      ("type", .str (P "StructProperty"))]
  | .int id _ => [("id", vOptGuid id), ("value", x), ("type", .str (P "IntProperty"))]
  | .int64 id _ => [("id", vOptGuid id), ("value", x), ("type", .str (P "Int64Property"))]
  | .fixed64 id _ => [("id", vOptGuid id), ("value", x), ("type", .str (P "FixedPoint64Property"))]
  | .float id _ => [("id", vOptGuid id), ("value", x), ("type", .str (P "FloatProperty"))]
  | .str id _ => [("id", vOptGuid id), ("value", x), ("type", .str (P "StrProperty"))]
  | .name id _ => [("id", vOptGuid id), ("value", x), ("type", .str (P "NameProperty"))]
  | .enum _ id _ => [("id", vOptGuid id), ("value", x), ("type", .str (P "EnumProperty"))]
  | .bool _ id => [("value", x), ("id", vOptGuid id), ("type", .str (P "BoolProperty"))]
  | .enums id _ => [("array_type", .str (P "EnumProperty")), ("id", vOptGuid id), ("value", x),
      ("type", .str (P "ArrayProperty"))]
  | .names id _ => [("array_type", .str (P "NameProperty")), ("id", vOptGuid id), ("value", x),
      ("type", .str (P "ArrayProperty"))]
  | .guids id _ => [("array_type", .str (P "Guid")), ("id", vOptGuid id), ("value", x),
      ("type", .str (P "ArrayProperty"))]
  | .bytes id _ => [("array_type", .str (P "ByteProperty")), ("id", vOptGuid id), ("value", x),
      ("type", .str (P "ArrayProperty"))]
  | .others id o => [("array_type", .str o.type), ("id", vOptGuid id), ("value", x), ("type", .str (P "ArrayProperty"))]
  | .structs id .. => [("array_type", .str (P "StructProperty")), ("id", vOptGuid id), ("value", x),
      ("type", .str (P "ArrayProperty"))]
  | .map kt vt id _ => [("key_type", vStr kt), ("value_type", vStr vt),
      ("key_struct_type", vStructType kt (keyStruct cfg path)),
      ("value_struct_type", vStructType vt (valueStruct cfg path)), ("id", vOptGuid id), ("value", x),
      ("type", .str (P "MapProperty"))]

/-- What is shown for a property whose own "value" is `x`: with a custom property
registered for the path, the "value" is replaced and the path is recorded. -/
def showProp (cfg : Cfg) (K : CodecId → Val → Val) (path : PyStr) (p : PropT m) (x : Val) : Val :=
  match cfg.custom path with
  | none => vDict (p.entries cfg path x)
  | some c => vDict (p.entries cfg path (K c x) ++ [("custom_type", .str path)])

def Others.vals : Others m → List Val
  | .ints l => l.map vI
  | .int64s l => l.map vI
  | .floats l => l.map vF32
  | .strs l => l.map vStr
  | .bools l => l.map vBool
  | .nothing _ => []

mutual
/-- What is shown for a tree at `path`; `K c x` is what custom property `c` shows for a
"value" that would otherwise be shown as `x`. -/
def SVal.val (cfg : Cfg) (K : CodecId → Val → Val) (path : PyStr) : SVal m → Val
  | .vector v => vVec v
  | .dateTime n => vU n
  | .guid g => vGuid g
  | .quat q => vQuat q
  | .color r g b a => vDict [("r", vF32 r), ("g", vF32 g), ("b", vF32 b), ("a", vF32 a)]
  | .props ps => .dict (valProps cfg K path ps)
def MVal.val (cfg : Cfg) (K : CodecId → Val → Val) (path : PyStr) : MVal m → Val
  | .struct s => s.val cfg K path
  | .enum s => vStr s
  | .name s => vStr s
  | .int n => vI n
  | .bool b => vBool b
/-- The "value" of a property. -/
def PropT.val (cfg : Cfg) (K : CodecId → Val → Val) (path : PyStr) : PropT m → Val
  | .struct _ _ _ v => v.val cfg K path
  | .int _ n => vI n
  | .int64 _ n => vI n
  | .fixed64 _ n => vI n
  | .float _ f => vF32 f
  | .str _ s => vStr s
  | .name _ s => vStr s
  | .enum et _ s => vDict [("type", vStr et), ("value", vStr s)]
  | .bool b _ => vBool b
  | .enums _ l => vDict [("values", .list (l.map vStr))]
  | .names _ l => vDict [("values", .list (l.map vStr))]
  | .guids _ l => vDict [("values", .list (l.map vGuid))]
  | .bytes _ b => vDict [("values", vBytesT b)]
  | .others _ o => vDict [("values", .list o.vals)]
  | .structs _ pn pt tn gid l =>
    vDict [("prop_name", vStr pn), ("prop_type", vStr pt), ("values", .list (valSVals cfg K (sub path pn) l)),
      ("type_name", vStr tn), ("id", vGuid gid)]
  | .map _ _ _ l => .list (valEntries cfg K path l)
def valSVals (cfg : Cfg) (K : CodecId → Val → Val) (path : PyStr) : List (SVal m) → List Val
  | [] => []
  | v :: t => v.val cfg K path :: valSVals cfg K path t
def valEntries (cfg : Cfg) (K : CodecId → Val → Val) (path : PyStr) : List (MVal m × MVal m) → List Val
  | [] => []
  | (k, v) :: t => vDict [("key", k.val cfg K (path ++ P ".Key")), ("value", v.val cfg K (path ++ P ".Value"))] ::
      valEntries cfg K path t
/-- The entries shown for a property list. -/
def valProps (cfg : Cfg) (K : CodecId → Val → Val) (path : PyStr) : List (Str × PropT m) → Dict
  | [] => []
  | (n, p) :: t => (n.val, showProp cfg K (sub path n) p (p.val cfg K (sub path n))) :: valProps cfg K path t
end

/-- Configurations whose texts survive JSON (no split surrogate pairs). -/
structure CfgJson (cfg : Cfg) : Prop where
  hint : ∀ p t, cfg.hint p = some t → Normal t
  custom : ∀ p c, cfg.custom p = some c → Normal p

/-! ### Well-formed trees -/

/-- No custom property. -/
def noCustom : CodecId → PropT m → Prop := fun _ _ => False

mutual
/-- A well-formed tree at `path`: counts fit 32 bits, names are not "None" and distinct,
struct types agree with the contents, arrays of GUIDs are empty (the tool cannot write
them), and there are no arrays that the tool cannot read.  A property at the path of a custom property has the type the custom property
expects and satisfies `C`, and nothing below it has a custom property. -/
def SVal.Wf (cfg : Cfg) (C : CodecId → PropT m → Prop) (path : PyStr) : SVal m → Prop
  | .props ps => (ps.map Prod.fst).Nodup ∧ wfProps cfg C path ps
  | _ => True
def MVal.Wf (cfg : Cfg) (C : CodecId → PropT m → Prop) (path st : PyStr) : MVal m → Prop
  | .struct s => s.Fits st ∧ s.Wf cfg C path
  | _ => True
def PropT.Wf (cfg : Cfg) (C : CodecId → PropT m → Prop) (path : PyStr) : PropT m → Prop
  | .struct st _ _ v => v.Fits st.val ∧ v.Wf cfg C path
  | .enums _ l => l.length < 2 ^ 32
  | .names _ l => l.length < 2 ^ 32
  | .guids _ l => l = []
  | .bytes _ b => b.length < 2 ^ 32
  | .others .. => False
  | .structs _ pn _ tn _ l => l.length < 2 ^ 32 ∧ wfSVals cfg C (sub path pn) tn.val l
  | .map kt vt _ l => l.length < 2 ^ 32 ∧ wfEntries cfg C path kt.val vt.val l
  | _ => True
def wfSVals (cfg : Cfg) (C : CodecId → PropT m → Prop) (path st : PyStr) : List (SVal m) → Prop
  | [] => True
  | v :: t => v.Fits st ∧ v.Wf cfg C path ∧ wfSVals cfg C path st t
def wfEntries (cfg : Cfg) (C : CodecId → PropT m → Prop) (path kt vt : PyStr) : List (MVal m × MVal m) → Prop
  | [] => True
  | (k, v) :: t => kt = P k.type ∧ k.Wf cfg C (path ++ P ".Key") (keyStruct cfg path) ∧
      vt = P v.type ∧ v.Wf cfg C (path ++ P ".Value") (valueStruct cfg path) ∧ wfEntries cfg C path kt vt t
def wfProps (cfg : Cfg) (C : CodecId → PropT m → Prop) (path : PyStr) : List (Str × PropT m) → Prop
  | [] => True
  | (n, p) :: t => n.val ≠ P "None" ∧
      (match cfg.custom (sub path n) with
        | none => p.Wf cfg C (sub path n)
        | some c => p.type = c.propType ∧ C c p ∧ p.Wf cfg noCustom (sub path n)) ∧
      wfProps cfg C path t
end

end Pal.Spec
