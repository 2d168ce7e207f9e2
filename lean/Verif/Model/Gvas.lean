import Verif.Model.Props
import Verif.Model.Base64
/-
gvas.py: `GvasHeader` and `GvasFile`.
-/

namespace Pal

/-- Attributes of `GvasHeader` (gvas.py:16-28).  `load` stores whatever the dict holds,
so the fields are arbitrary values. -/
structure Hdr where
  magic : Val
  saveGameVersion : Val
  ue4 : Val
  ue5 : Val
  major : Val
  minor : Val
  patch : Val
  changelist : Val
  branch : Val
  customFormat : Val
  customVersions : Val
  className : Val

/-- `custom_version_reader` (gvas.py:7-8). -/
def customVersionDecode : R Val := do
  let g ← rGuid
  let v ← rI32
  return .tuple [g, .int v]

/-- `value[0]`, `value[1]`. -/
def Val.idx (v : Val) (i : Nat) : Except Err Val :=
  match v.seqItems with
  | .error e => .error e
  | .ok l => match l[i]? with
    | some x => .ok x
    | Option.none => .error .index

/-- `custom_version_writer` (gvas.py:11-13). -/
def customVersionEncode (v : Val) : Except Err Bytes :=
  wcat [match v.idx 0 with
      | .ok x => wGuid x
      | .error e => .error e,
    match v.idx 1 with
      | .ok x => wI32 x
      | .error e => .error e]

/-- `GvasHeader.read` (gvas.py:30-61). -/
def hdrRead : R Hdr := do
  let magic ← rI32
  if magic ≠ 0x53415647 then rFail (.exc "invalid magic")
  else
    let ver ← rI32
    if ver ≠ 3 then rFail (.exc "expected save game version 3")
    else
      let u4 ← rI32
      let u5 ← rI32
      let ma ← rU16
      let mi ← rU16
      let pa ← rU16
      let cl ← rU32
      let br ← rStr
      let cf ← rI32
      if cf ≠ 3 then rFail (.exc "expected custom version format 3")
      else
        let cv ← rTArray customVersionDecode
        let cn ← rStr
        return ⟨.int magic, .int ver, .int u4, .int u5, .int ma, .int mi, .int pa, .int cl, br,
          .int cf, cv, cn⟩

/-- `GvasHeader.dump` (gvas.py:80-94). -/
def Hdr.dump (h : Hdr) : Val :=
  dct [("magic", h.magic), ("save_game_version", h.saveGameVersion),
    ("package_file_version_ue4", h.ue4), ("package_file_version_ue5", h.ue5),
    ("engine_version_major", h.major), ("engine_version_minor", h.minor),
    ("engine_version_patch", h.patch), ("engine_version_changelist", h.changelist),
    ("engine_version_branch", h.branch), ("custom_version_format", h.customFormat),
    ("custom_versions", h.customVersions), ("save_game_class_name", h.className)]

/-- `GvasHeader.load` (gvas.py:63-78). -/
def Hdr.load (d : Val) : Except Err Hdr := do
  let magic ← d.get (P "magic")
  let ver ← d.get (P "save_game_version")
  let u4 ← d.get (P "package_file_version_ue4")
  let u5 ← d.get (P "package_file_version_ue5")
  let ma ← d.get (P "engine_version_major")
  let mi ← d.get (P "engine_version_minor")
  let pa ← d.get (P "engine_version_patch")
  let cl ← d.get (P "engine_version_changelist")
  let br ← d.get (P "engine_version_branch")
  let cf ← d.get (P "custom_version_format")
  let cv ← d.get (P "custom_versions")
  let cn ← d.get (P "save_game_class_name")
  return ⟨magic, ver, u4, u5, ma, mi, pa, cl, br, cf, cv, cn⟩

/-- `GvasHeader.write` (gvas.py:96-108). -/
def Hdr.write (h : Hdr) : Except Err Bytes :=
  wcat [wI32 h.magic, wI32 h.saveGameVersion, wI32 h.ue4, wI32 h.ue5, wU16 h.major, wU16 h.minor,
    wU16 h.patch, wU32 h.changelist, wFString h.branch, wI32 h.customFormat,
    wTArray customVersionEncode h.customVersions, wFString h.className]

/-- `GvasFile` (gvas.py:111-114). -/
structure Gvas where
  header : Hdr
  properties : Val
  trailer : Bytes

/-- `GvasFile.read` (gvas.py:116-137); the warning about the trailer is only printed. -/
def gvasReadR (cfg : Cfg) (fuel : Nat) : R Gvas := do
  let h ← hdrRead
  let p ← rProps cfg fuel []
  let t ← rReadToEnd
  return ⟨h, p, t⟩

/-- `GvasFile.read` with a recursion budget that always suffices. -/
def gvasRead (cfg : Cfg) (data : Bytes) : Except Err Gvas :=
  match gvasReadR cfg (data.length + 1) data with
  | .ok (g, _) => .ok g
  | .error e => .error e

/-- `GvasFile.dump` (gvas.py:147-152). -/
def Gvas.dump (g : Gvas) : Val :=
  dct [("header", g.header.dump), ("properties", g.properties), ("trailer", .str (b64Encode g.trailer))]

/-- `GvasFile.load` (gvas.py:139-145). -/
def Gvas.load (d : Val) : Except Err Gvas := do
  let hd ← d.get (P "header")
  let h ← Hdr.load hd
  let p ← d.get (P "properties")
  let t ← d.get (P "trailer")
  let t ← b64Decode t
  return ⟨h, p, t⟩

/-! Nesting rank of a value, used as the recursion budget of the writer.  A blob, that is
`{"values": [...]}` with ints or bytes, has the smallest rank of all dicts and lists, so
replacing a decoded value by its blob does not increase the rank. -/
mutual
def Val.rank : Val → Nat
  | .int _ => 0
  | .bool _ => 0
  | .bytes _ => 0
  | .list l => max 2 (1 + Val.rankL l)
  | .tuple l => max 2 (1 + Val.rankL l)
  | .dict d => max 2 (Val.rankD d)
  | _ => 2
def Val.rankL : List Val → Nat
  | [] => 0
  | v :: t => max v.rank (Val.rankL t)
def Val.rankD : List (PyStr × Val) → Nat
  | [] => 0
  | (k, v) :: t => max ((if k = P "values" then 0 else 1) + v.rank) (Val.rankD t)
end

/-- `GvasFile.write` (gvas.py:154-161): the bytes and the file after the call (the
property tree is mutated by the custom encoders).  The second argument is the recursion
budget. -/
def Gvas.writeF (g : Gvas) (cfg : Cfg) (fuel : Nat) : Except Err (Bytes × Gvas) :=
  match g.header.write with
  | .error e => .error e
  | .ok hb => match wProps fuel cfg g.properties with
    | .error e => .error e
    | .ok (pb, p') => .ok (hb ++ pb ++ g.trailer, { g with properties := p' })

/-- `GvasFile.write` with a recursion budget that always suffices. -/
def Gvas.write (g : Gvas) (cfg : Cfg) : Except Err (Bytes × Gvas) :=
  g.writeF cfg (g.properties.rank + 1)

end Pal
