import Verif.Spec.Types
/-
The GVAS header: its fields and its stored bytes.
-/

namespace Pal.Spec
open Pal

structure Header where
  ue4 : BitVec 32
  ue5 : BitVec 32
  major : BitVec 16
  minor : BitVec 16
  patch : BitVec 16
  changelist : BitVec 32
  branch : Str
  versions : Lst (Guid × BitVec 32)
  className : Str

/-- "GVAS" -/
def gvasMagic : Bytes := [0x47, 0x56, 0x41, 0x53]

def eVersion (v : Guid × BitVec 32) : Bytes := eGuid v.1 ++ e32 v.2

/-- The header's bytes with an arbitrary magic, version and custom version format. -/
def Header.encWith (magic : Bytes) (ver fmt : BitVec 32) (h : Header) : Bytes :=
  magic ++ e32 ver ++ e32 h.ue4 ++ e32 h.ue5 ++ e16 h.major ++ e16 h.minor ++ e16 h.patch ++
    e32 h.changelist ++ eStr h.branch ++ e32 fmt ++ eList eVersion h.versions ++ eStr h.className

/-- The header's bytes: magic "GVAS", save game version 3, custom version format 3. -/
def Header.enc (h : Header) : Bytes := h.encWith gvasMagic 3 3

/-- What the tool shows for a header. -/
def Header.val (h : Header) : Val :=
  vDict [("magic", .int 1396790855), ("save_game_version", .int 3),
    ("package_file_version_ue4", vI h.ue4), ("package_file_version_ue5", vI h.ue5),
    ("engine_version_major", vU h.major), ("engine_version_minor", vU h.minor),
    ("engine_version_patch", vU h.patch), ("engine_version_changelist", vU h.changelist),
    ("engine_version_branch", vStr h.branch), ("custom_version_format", .int 3),
    ("custom_versions", vList (fun v => .tuple [vGuid v.1, vI v.2]) h.versions),
    ("save_game_class_name", vStr h.className)]

end Pal.Spec
