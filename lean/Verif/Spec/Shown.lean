import Verif.Spec.Layout
import Verif.Spec.Header
import Verif.Model.Props
/-
What a property list in a file is shown as, for every file: the dual of `Spec/Says.lean`.  The relations
say which value the bytes at a path stand for, whether or not the tool could have written them.  Of the
model only the configuration type (type hints, enabled custom properties) is used.
-/

namespace Pal.Spec
open Pal

/-- The Python dict after assigning the entries one after the other: the keys in the order of their first
occurrence, each with its last value. -/
def dictOf (l : List (PyStr × Val)) : List (PyStr × Val) :=
  (l.map Prod.fst).eraseDups.map fun k => (k, ((l.reverse.find? fun e => e.1 = k).map Prod.snd).getD .none)

/-- Structs with a fixed layout. -/
def structLayouts (an : Bool) : List (String × Layout) :=
  [("Vector", .vector an), ("DateTime", .u 8), ("Guid", .guid), ("Quat", .quat an), ("LinearColor", .color an)]

/-- Map keys and values that are not structs. -/
def entryLayouts : List (String × Layout) :=
  [("EnumProperty", .text), ("NameProperty", .text), ("IntProperty", .i 4), ("BoolProperty", .flag 1)]

/-- Properties that consist of an optional id and a value. -/
def valueLayouts (an : Bool) : List (String × Layout) :=
  [("IntProperty", .i 4), ("Int64Property", .i 8), ("FixedPoint64Property", .i 4), ("FloatProperty", .f32 an),
    ("StrProperty", .text), ("NameProperty", .text)]

/-- Elements of arrays. -/
def elementLayouts : List (String × Layout) :=
  [("EnumProperty", .text), ("NameProperty", .text), ("Guid", .guid)]

/-- The path of a property inside a list. -/
def under (path name : PyStr) : PyStr := path ++ P "." ++ name

section
variable (cfg : Cfg) (D : CodecId → Val → Val → Prop)

/- In all relations the last three arguments are: the bytes at some point, what is shown, the bytes that
follow.  `D c v w`: the custom property `c` shows the plain value `v` as `w`. -/
mutual
/-- A struct of type `st` at a path. -/
inductive StructAt : (st path : PyStr) → Bytes → Val → Bytes → Prop
  | fixed {t L path s v rest} : (t, L) ∈ structLayouts cfg.allowNan → L s v rest → StructAt (P t) path s v rest
  | list {st path s l rest} : (∀ e ∈ structLayouts cfg.allowNan, st ≠ P e.1) → ListAt path s l rest →
      StructAt st path s (.dict (dictOf l)) rest

/-- A map key or value of type `ty`, of struct type `st` if it is a struct. -/
inductive EntryAt : (ty st path : PyStr) → Bytes → Val → Bytes → Prop
  | struct {st path s v rest} : StructAt st path s v rest → EntryAt (P "StructProperty") st path s v rest
  | plain {t L st path s v rest} : (t, L) ∈ entryLayouts → L s v rest → EntryAt (P t) st path s v rest

/-- `n` structs. -/
inductive StructsAt : (st path : PyStr) → (n : Nat) → Bytes → List Val → Bytes → Prop
  | nil {st path s} : StructsAt st path 0 s [] s
  | cons {st path n s v s' l rest} : StructAt st path s v s' → StructsAt st path n s' l rest →
      StructsAt st path (n + 1) s (v :: l) rest

/-- `n` map entries with keys of type `kt`, `ks` and values of type `vt`, `vs`. -/
inductive EntriesAt : (kt ks vt vs kp vp : PyStr) → (n : Nat) → Bytes → List Val → Bytes → Prop
  | nil {kt ks vt vs kp vp s} : EntriesAt kt ks vt vs kp vp 0 s [] s
  | cons {kt ks vt vs kp vp n s k s1 v s2 l rest} : EntryAt kt ks kp s k s1 → EntryAt vt vs vp s1 v s2 →
      EntriesAt kt ks vt vs kp vp n s2 l rest →
      EntriesAt kt ks vt vs kp vp (n + 1) s (vDict [("key", k), ("value", v)] :: l) rest

/-- The part of a property after its name, type and size. -/
inductive BodyAt : (ty : PyStr) → (size : Nat) → (path : PyStr) → Bytes → List (String × Val) → Bytes → Prop
  | value {t L size path s id s' v rest} : (t, L) ∈ valueLayouts cfg.allowNan → Layout.optGuid s id s' → L s' v rest →
      BodyAt (P t) size path s [("id", id), ("value", v)] rest
  | enum {size path s et s1 id s2 ev rest} : Layout.text s et s1 → Layout.optGuid s1 id s2 → Layout.text s2 ev rest →
      BodyAt (P "EnumProperty") size path s [("id", id), ("value", vDict [("type", et), ("value", ev)])] rest
  | bool {size path s v s' id rest} : Layout.flag 1 s v s' → Layout.optGuid s' id rest →
      BodyAt (P "BoolProperty") size path s [("value", v), ("id", id)] rest
  | struct {size path s st s1 sid s2 id s3 v rest} : Text s st s1 → Layout.guid s1 sid s2 → Layout.optGuid s2 id s3 →
      StructAt st path s3 v rest →
      BodyAt (P "StructProperty") size path s
        [("struct_type", .str st), ("struct_id", sid), ("id", id), ("value", v)] rest
  | array {t L size path s s1 id s2 n s3 l rest} : (t, L) ∈ elementLayouts → Text s (P t) s1 → Layout.optGuid s1 id s2 →
      Unsigned 4 s2 n s3 → Layout.many L n s3 l rest →
      BodyAt (P "ArrayProperty") size path s
        [("array_type", .str (P t)), ("id", id), ("value", vDict [("values", .list l)])] rest
  | bytes {size path s s1 id s2 n s3 v rest} : Text s (P "ByteProperty") s1 → Layout.optGuid s1 id s2 →
      Unsigned 4 s2 n s3 → size = n + 4 → Layout.bytes n s3 v rest →
      BodyAt (P "ArrayProperty") size path s
        [("array_type", .str (P "ByteProperty")), ("id", id), ("value", vDict [("values", v)])] rest
  | structs {size path s s1 id s2 n s3 pn s4 pt s5 k s6 tn s7 tid s8 b s9 l rest} : Text s (P "StructProperty") s1 →
      Layout.optGuid s1 id s2 → Unsigned 4 s2 n s3 → Text s3 pn s4 → Text s4 pt s5 → Unsigned 8 s5 k s6 →
      Text s6 tn s7 → Layout.guid s7 tid s8 → Takes 1 s8 b s9 → StructsAt tn (under path pn) n s9 l rest →
      BodyAt (P "ArrayProperty") size path s
        [("array_type", .str (P "StructProperty")), ("id", id),
          ("value", vDict [("prop_name", .str pn), ("prop_type", .str pt), ("values", .list l),
            ("type_name", .str tn), ("id", tid)])] rest
  | map {size path s kt s1 vt s2 id s3 z s4 n s5 ks vs l rest} : Text s kt s1 → Text s1 vt s2 → Layout.optGuid s2 id s3 →
      Unsigned 4 s3 z s4 → Unsigned 4 s4 n s5 →
      ks = (cfg.hint (under path (P "Key"))).getD (P "Guid") →
      vs = (cfg.hint (under path (P "Value"))).getD (P "StructProperty") →
      EntriesAt kt ks vt vs (under path (P "Key")) (under path (P "Value")) n s5 l rest →
      BodyAt (P "MapProperty") size path s
        [("key_type", .str kt), ("value_type", .str vt),
          ("key_struct_type", if kt = P "StructProperty" then .str ks else .none),
          ("value_struct_type", if vt = P "StructProperty" then .str vs else .none),
          ("id", id), ("value", .list l)] rest

/-- A property list, as its names and values in the order of the file. -/
inductive ListAt : (path : PyStr) → Bytes → List (PyStr × Val) → Bytes → Prop
  | nil {path s rest} : Text s (P "None") rest → ListAt path s [] rest
  | plain {path s name s1 ty s2 size s3 es s4 l rest} : Text s name s1 → name ≠ P "None" → Text s1 ty s2 →
      Unsigned 8 s2 size s3 → cfg.custom (under path name) = none → BodyAt ty size (under path name) s3 es s4 →
      ListAt path s4 l rest → ListAt path s ((name, vDict (es ++ [("type", .str ty)])) :: l) rest
  | custom {path s name s1 c s2 size s3 es s4 d l rest} : Text s name s1 → name ≠ P "None" → Text s1 (P c.propType) s2 →
      Unsigned 8 s2 size s3 → cfg.custom (under path name) = some c →
      BodyAt (P c.propType) size (under path name) s3 es s4 →
      D c (vDict (es ++ [("type", .str (P c.propType))])) (.dict d) →
      ListAt path s4 l rest →
      ListAt path s ((name, .dict (dset (dset d (P "custom_type") (.str (under path name)))
        (P "type") (.str (P c.propType)))) :: l) rest
end

/-- The header of a file. -/
def headerLayout : Layout :=
  .record [("magic", .i 4), ("save_game_version", .i 4), ("package_file_version_ue4", .i 4),
    ("package_file_version_ue5", .i 4), ("engine_version_major", .u 2), ("engine_version_minor", .u 2),
    ("engine_version_patch", .u 2), ("engine_version_changelist", .u 4), ("engine_version_branch", .text),
    ("custom_version_format", .i 4), ("custom_versions", .array (.pair .guid (.i 4))),
    ("save_game_class_name", .text)]

/-- What a file says: its header, its property list and the bytes after it. -/
structure FileAt (data : Bytes) (header : Val) (l : List (PyStr × Val)) (trailer : Bytes) : Prop where
  split : ∃ s, headerLayout data header s ∧ ListAt cfg D [] s l trailer
  magic : header.get (P "magic") = .ok (.int 0x53415647)
  version : header.get (P "save_game_version") = .ok (.int 3)
  format : header.get (P "custom_version_format") = .ok (.int 3)
end

end Pal.Spec
