import Verif.Lemmas.InvertTree
import Verif.Props.Writing
/-
C11: re-saving reaches a fixed point after one pass.  C51: re-saving never makes a file
longer.  C40 (property lists): what is read can be written, arrays of GUIDs excepted.
-/

namespace Pal
open Spec

/-- What is read without custom properties is the value of a well-formed tree, or has a
non-empty array of GUIDs. -/
theorem read_tree {cfg : Cfg} (hcfg : cfg.allowNan = true) (hc : ∀ p, cfg.custom p = none) {n : Nat} {path : PyStr}
    {data rest : Bytes} {v : Val} (hd : data.length < 2 ^ 32) (h : rProps cfg n path data = .ok (v, rest)) :
    (∃ ps : Props rawMode, (ps.map Prod.fst).Nodup ∧ wfProps cfg noCustom path ps ∧
      v = .dict (valProps cfg plainK path ps) ∧ (encProps ps).length + rest.length ≤ data.length) ∨ BadList GuidArray v := by
  rcases inv_loop (K := plainK) (G := False) (Bad := GuidArray) hcfg (.inr fun _ h => h) n path (fun _ => hc _) [] data v rest 0
    trivial (by simp) h hd with ⟨ps, w1, w2, w3, w4⟩ | hb
  · exact .inl ⟨ps, w1, props_strict ps path w2, w3, by omega⟩
  · exact .inr hb

theorem tree_write (cfg B : Cfg) {path : PyStr} {ps : Props rawMode} (h2 : wfProps cfg noCustom path ps)
    (hl : (encProps ps).length < 2 ^ 32) :
    Wrote (wProps ((Val.dict (valProps cfg plainK path ps)).rank + 1) B (.dict (valProps cfg plainK path ps))) (encProps ps) :=
  wProps_rank (n := (encProps ps).length + 1) fun n' hn' =>
    props_write ps noCustom (writesCustom_no cfg B plainK) path n' h2 (by omega) (by omega)

theorem tree_read {cfg : Cfg} (hcfg : cfg.allowNan = true) {path : PyStr} {ps : Props rawMode}
    (h1 : (ps.map Prod.fst).Nodup) (h2 : wfProps cfg noCustom path ps) (hl : (encProps ps).length < 2 ^ 32) (n : Nat)
    (hn : (encProps ps).length < n) (t : Bytes) :
    rProps cfg n path (encProps ps ++ t) = .ok (.dict (valProps cfg plainK path ps), t) := by
  have := props_read (m := rawMode) hcfg ps noCustom (readsCustom_no cfg plainK) path n [] t h2 hn (by omega)
  rw [dupdate_nodup] at this
  · exact this
  · rw [List.nil_append]
    exact valProps_nodup _ _ _ _ h1

/-! ### property lists -/

/-- C11: let any bytes, canonical or not, be read without custom properties (and without
turning infinities into null).  If the result can be written, then what was written is
read back as the same tree, whatever follows it, and is not longer than what was read
(C51).  Writing that tree gives the same bytes again, because it is the same tree. -/
theorem C11_list (cfg B : Cfg) (hcfg : cfg.allowNan = true) (hc : ∀ p, cfg.custom p = none) (n : Nat) (path : PyStr)
    (data rest : Bytes) (hd : data.length < 2 ^ 32) (v : Val) (h : rProps cfg n path data = .ok (v, rest)) (b : Bytes) (w : Val)
    (hw : wProps (v.rank + 1) B v = .ok (b, w)) :
    (∀ n' t, b.length < n' → rProps cfg n' path (b ++ t) = .ok (v, t)) ∧ b.length + rest.length ≤ data.length := by
  rcases read_tree hcfg hc hd h with ⟨ps, h1, h2, rfl, hl⟩ | hb
  · obtain ⟨w', h3⟩ := tree_write cfg B h2 (by omega)
    rw [hw] at h3
    cases h3
    exact ⟨fun n' t hn => tree_read hcfg h1 h2 (by omega) n' hn t, hl⟩
  · obtain ⟨e, he⟩ := badList_raises hb B (v.rank + 1)
    rw [hw] at he
    cases he

/-- C40, property lists: what was read without custom properties can be written, unless
there is a non-empty array of GUIDs somewhere in it; then it cannot. -/
theorem C40_list (cfg B : Cfg) (hcfg : cfg.allowNan = true) (hc : ∀ p, cfg.custom p = none) (n : Nat) (path : PyStr)
    (data rest : Bytes) (hd : data.length < 2 ^ 32) (v : Val) (h : rProps cfg n path data = .ok (v, rest)) :
    (∃ b w, wProps (v.rank + 1) B v = .ok (b, w)) ↔ ¬ ∃ d k p, Inside v (.dict d) ∧ (k, p) ∈ d ∧ GuidArray p := by
  constructor
  · rintro ⟨b, w, hw⟩ hb
    obtain ⟨e, he⟩ := badList_raises hb B (v.rank + 1)
    rw [hw] at he
    cases he
  · intro hb
    rcases read_tree hcfg hc hd h with ⟨ps, h1, h2, rfl, hl⟩ | hb'
    · obtain ⟨w', h3⟩ := tree_write cfg B h2 (by omega)
      exact ⟨_, _, h3⟩
    · exact absurd hb' hb

/-! ### files -/

theorem inv_version {s s' : Bytes} {v : Val} (h : customVersionDecode s = .ok (v, s')) :
    ∃ x : Guid × BitVec 32, v = .tuple [vGuid x.1, vI x.2] ∧ (eVersion x).length + s'.length ≤ s.length := by
  obtain ⟨g, s1, h1, h⟩ := r_bind_inv h
  obtain ⟨i, s2, h2, h⟩ := r_bind_inv h
  obtain ⟨rfl, rfl⟩ := r_pure_inv h
  obtain ⟨b, rfl, l2⟩ := inv_i32 h2
  obtain ⟨g, rfl, l1⟩ := inv_guid h1 (by omega)
  exact ⟨(g, b), rfl, by simp only [eVersion, eGuid, e32, List.length_append, g.property, lit_length]; omega⟩

theorem inv_hdr {s s' : Bytes} {h : Hdr} (hr : hdrRead s = .ok (h, s')) (h0 : 0 < s'.length) (hs : s.length < 2 ^ 32) :
    ∃ H : Header, h = hdrOf H ∧ H.enc.length + s'.length ≤ s.length := by
  obtain ⟨magic, s1, k1, hr⟩ := r_bind_inv hr
  by_cases e1 : magic ≠ 0x53415647
  · rw [if_pos e1] at hr; exact (rFail_inv hr).elim
  rw [if_neg e1] at hr
  obtain ⟨ver, s2, k2, hr⟩ := r_bind_inv hr
  by_cases e2 : ver ≠ 3
  · rw [if_pos e2] at hr; exact (rFail_inv hr).elim
  rw [if_neg e2] at hr
  obtain ⟨u4, s3, k3, hr⟩ := r_bind_inv hr
  obtain ⟨u5, s4, k4, hr⟩ := r_bind_inv hr
  obtain ⟨ma, s5, k5, hr⟩ := r_bind_inv hr
  obtain ⟨mi, s6, k6, hr⟩ := r_bind_inv hr
  obtain ⟨pa, s7, k7, hr⟩ := r_bind_inv hr
  obtain ⟨cl, s8, k8, hr⟩ := r_bind_inv hr
  obtain ⟨br, s9, k9, hr⟩ := r_bind_inv hr
  obtain ⟨cf, s10, k10, hr⟩ := r_bind_inv hr
  by_cases e3 : cf ≠ 3
  · rw [if_pos e3] at hr; exact (rFail_inv hr).elim
  rw [if_neg e3] at hr
  obtain ⟨cv, s11, k11, hr⟩ := r_bind_inv hr
  obtain ⟨cn, s12, k12, hr⟩ := r_bind_inv hr
  obtain ⟨rfl, rfl⟩ := r_pure_inv hr
  obtain ⟨cnt, t1, j1, k11⟩ := r_bind_inv k11
  obtain ⟨l, t2, j2, k11⟩ := r_bind_inv k11
  obtain ⟨rfl, rfl⟩ := r_pure_inv k11
  have hgv : Grow customVersionDecode := grow_bind grow_guid fun _ => grow_bind grow_i32 fun _ => grow_pure _
  have g2 := len_of_grow (grow_repeat hgv _) j2
  have g12 := len_of_grow grow_str k12
  have l1 := (inv_signed k1).choose_spec.2.2
  have l2 := (inv_signed k2).choose_spec.2.2
  have l10 := (inv_signed k10).choose_spec.2.2
  obtain ⟨b3, rfl, l3⟩ := inv_i32 k3
  obtain ⟨b4, rfl, l4⟩ := inv_i32 k4
  obtain ⟨b5, rfl, l5⟩ := inv_u16 k5
  obtain ⟨b6, rfl, l6⟩ := inv_u16 k6
  obtain ⟨b7, rfl, l7⟩ := inv_u16 k7
  obtain ⟨b8, rfl, l8⟩ := inv_u32 k8
  obtain ⟨b9, rfl, l9⟩ := inv_str k9 (by omega)
  obtain ⟨b11, rfl, l11⟩ := inv_u32 j1
  obtain ⟨vs, rfl, n2, m2⟩ := inv_repeat hgv (fun v : Guid × BitVec 32 => Val.tuple [vGuid v.1, vI v.2]) eVersion
    (fun s x s' h _ _ => inv_version h) _ _ _ _ j2 (by omega) (by omega)
  obtain ⟨b12, rfl, l12⟩ := inv_str k12 (by omega)
  have hlt := b11.isLt
  have hm : magic = 1396790855 := Classical.byContradiction e1
  have hv : ver = 3 := Classical.byContradiction e2
  have hf : cf = 3 := Classical.byContradiction e3
  refine ⟨⟨b3, b4, b5, b6, b7, b8, b9, ⟨vs, by omega⟩, b12⟩, ?_, ?_⟩
  · rw [hm, hv, hf]; rfl
  · have hg : gvasMagic.length = 4 := rfl
    simp only [Header.enc, Header.encWith, List.length_append, e32, e16, lit_length, eList, hg]
    omega

/-- What `GvasFile.read` accepts, without custom properties: a header and a well-formed
tree, or a non-empty array of GUIDs. -/
theorem read_file {cfg : Cfg} (hcfg : cfg.allowNan = true) (hc : ∀ p, cfg.custom p = none) {data : Bytes}
    (hd : data.length < 2 ^ 32) {g : Gvas} (h : gvasRead cfg data = .ok g) :
    (∃ (H : Header) (ps : Props rawMode), (ps.map Prod.fst).Nodup ∧ wfProps cfg noCustom [] ps ∧
      g = ⟨hdrOf H, .dict (valProps cfg plainK [] ps), g.trailer⟩ ∧
      H.enc.length + (encProps ps).length + g.trailer.length ≤ data.length) ∨ BadList GuidArray g.properties := by
  unfold gvasRead at h
  cases hr : gvasReadR cfg (data.length + 1) data with
  | error e => rw [hr] at h; cases h
  | ok q =>
    obtain ⟨g', s'⟩ := q
    rw [hr] at h
    cases h
    obtain ⟨hd', s1, h1, hr⟩ := r_bind_inv hr
    obtain ⟨v, s2, h2, hr⟩ := r_bind_inv hr
    obtain ⟨t, s3, h3, hr⟩ := r_bind_inv hr
    obtain ⟨rfl, rfl⟩ := r_pure_inv hr
    have ht : t = s2 := by cases h3; rfl
    subst ht
    have g1 := len_of_grow grow_hdr h1
    rcases read_tree hcfg hc (by omega) h2 with ⟨ps, w1, w2, rfl, l2⟩ | hb
    · have h9 : 0 < (encProps ps).length := by
        cases ps with
        | nil => simp only [encProps, eLit_none]; omega
        | cons a t =>
          have := eStr_len a.1
          obtain ⟨nm, p⟩ := a
          simp only [encProps, List.length_append]
          simp only at this
          omega
      obtain ⟨H, rfl, l1⟩ := inv_hdr h1 (by omega) hd
      exact .inl ⟨H, ps, w1, w2, rfl, by simp only; omega⟩
    · exact .inr hb

/-- C11: a file of any bytes, canonical or not, that is read without custom properties: if
it can be written, reading what was written gives the same file object, and so writing
again gives the same bytes; and it has not become longer (C51). -/
theorem C11_file (cfg B : Cfg) (hcfg : cfg.allowNan = true) (hc : ∀ p, cfg.custom p = none) (data : Bytes)
    (hd : data.length < 2 ^ 32) (g g' : Gvas) (h : gvasRead cfg data = .ok g) (b : Bytes) (hw : g.write B = .ok (b, g')) :
    (∃ g2, gvasRead cfg b = .ok g2 ∧ g2 = g ∧ g2.write B = .ok (b, g')) ∧ b.length ≤ data.length := by
  rcases read_file hcfg hc hd h with ⟨H, ps, h1, h2, hg, hl⟩ | hb
  · obtain ⟨hh, hv, t⟩ := g
    simp only [Gvas.mk.injEq] at hg hl
    obtain ⟨rfl, rfl, -⟩ := hg
    obtain ⟨hb, pb, h3, h4, rfl, -⟩ := of_write hw
    rw [hdrWrite_of] at h3
    cases h3
    obtain ⟨w', h5⟩ := tree_write cfg B h2 (by omega)
    simp only at h4
    rw [h4] at h5
    cases h5
    refine ⟨⟨_, ?_, rfl, hw⟩, by simp only [List.length_append]; omega⟩
    exact gvasRead_of fun n hn => tree_read hcfg h1 h2 (by omega) n hn t
  · obtain ⟨e, he⟩ := badList_raises hb B (g.properties.rank + 1)
    obtain ⟨_, pb, -, h4, -, -⟩ := of_write hw
    rw [h4] at he
    cases he

/-- C51: re-saving a file never makes it longer. -/
theorem C51_length (cfg B : Cfg) (hcfg : cfg.allowNan = true) (hc : ∀ p, cfg.custom p = none) (data : Bytes)
    (hd : data.length < 2 ^ 32) (g g' : Gvas) (h : gvasRead cfg data = .ok g) (b : Bytes) (hw : g.write B = .ok (b, g')) :
    b.length ≤ data.length := (C11_file cfg B hcfg hc data hd g g' h b hw).2

/-- C40, files: a file read without custom properties can be written, unless there is a
non-empty array of GUIDs somewhere in it; then it cannot. -/
theorem C40_file (cfg B : Cfg) (hcfg : cfg.allowNan = true) (hc : ∀ p, cfg.custom p = none) (data : Bytes)
    (hd : data.length < 2 ^ 32) (g : Gvas) (h : gvasRead cfg data = .ok g) :
    (∃ b g', g.write B = .ok (b, g')) ↔ ¬ ∃ d k p, Inside g.properties (.dict d) ∧ (k, p) ∈ d ∧ GuidArray p := by
  constructor
  · rintro ⟨b, g', hw⟩ hb
    obtain ⟨e, he⟩ := badList_raises hb B (g.properties.rank + 1)
    obtain ⟨_, pb, -, h4, -, -⟩ := of_write hw
    rw [h4] at he
    cases he
  · intro hb
    rcases read_file hcfg hc hd h with ⟨H, ps, h1, h2, hg, hl⟩ | hb'
    · obtain ⟨hh, hv, t⟩ := g
      simp only [Gvas.mk.injEq] at hg hl
      obtain ⟨rfl, rfl, -⟩ := hg
      obtain ⟨g', hw⟩ := write_of (g := ⟨hdrOf H, _, t⟩) (cfg := B) (hdrWrite_of H) (tree_write cfg B h2 (by omega))
      exact ⟨_, g', hw⟩
    · exact absurd hb' hb

/-! ### examples

A list that is not canonical: the name "Ab" stored as UTF-16, twice; a boolean byte 7; a
declared size 99. -/

def sloppy : Bytes :=
  [0xFD, 0xFF, 0xFF, 0xFF, 65, 0, 98, 0, 0, 0] ++ eLit "BoolProperty" ++ [99, 0, 0, 0, 0, 0, 0, 0, 7, 0] ++
  [0xFD, 0xFF, 0xFF, 0xFF, 65, 0, 98, 0, 0, 0] ++ eLit "IntProperty" ++ [99, 0, 0, 0, 0, 0, 0, 0, 0, 5, 0, 0, 0] ++
  eLit "None"

def sloppyVal : Val := .dict [(P "Ab", vDict [("id", .none), ("value", .int 5), ("type", .str (P "IntProperty"))])]

/-- The canonical bytes. -/
def tidy : Bytes := [3, 0, 0, 0, 65, 98, 0] ++ eLit "IntProperty" ++ [4, 0, 0, 0, 0, 0, 0, 0, 0, 5, 0, 0, 0] ++ eLit "None"

set_option maxRecDepth 20000 in
theorem sloppy_read : rProps Cfg.empty (sloppy.length + 1) [] sloppy = .ok (sloppyVal, []) := by rfl

set_option maxRecDepth 20000 in
theorem sloppy_write : wProps (sloppyVal.rank + 1) Cfg.empty sloppyVal = .ok (tidy, sloppyVal) := by rfl

example : (∀ n' t, tidy.length < n' → rProps Cfg.empty n' [] (tidy ++ t) = .ok (sloppyVal, t)) ∧
    tidy.length + ([] : Bytes).length ≤ sloppy.length ∧ tidy ≠ sloppy :=
  ⟨(C11_list Cfg.empty Cfg.empty rfl (fun _ => rfl) _ [] sloppy [] (by decide +kernel) sloppyVal sloppy_read tidy _
    sloppy_write).1, by decide +kernel, by decide +kernel⟩

-- the same list in a file, after the sample's header and before a trailer
set_option maxRecDepth 40000 in
theorem sloppy_file : gvasRead Cfg.empty (sampleHeader.enc ++ sloppy ++ [1, 2, 3]) =
    .ok ⟨hdrOf sampleHeader, sloppyVal, [1, 2, 3]⟩ := by
  rfl

example : ∃ b g', (Gvas.mk (hdrOf sampleHeader) sloppyVal [1, 2, 3]).write Cfg.empty = .ok (b, g') ∧
    gvasRead Cfg.empty b = .ok ⟨hdrOf sampleHeader, sloppyVal, [1, 2, 3]⟩ ∧ b ≠ sampleHeader.enc ++ sloppy ++ [1, 2, 3] := by
  obtain ⟨g', hw⟩ := write_of (g := ⟨hdrOf sampleHeader, sloppyVal, [1, 2, 3]⟩) (cfg := Cfg.empty) (hdrWrite_of _) ⟨_, sloppy_write⟩
  obtain ⟨⟨g2, h1, h2, -⟩, -⟩ := C11_file Cfg.empty Cfg.empty rfl (fun _ => rfl) _ (by decide +kernel) _ g' sloppy_file _ hw
  subst h2
  exact ⟨_, g', hw, h1, by decide +kernel⟩

-- a non-empty array of GUIDs is read and cannot be written
def guidsVal : Val := .dict [(P "A", vDict [("array_type", .str (P "Guid")), ("id", .none),
  ("value", vDict [("values", .list [.uuid (List.replicate 16 7)])]), ("type", .str (P "ArrayProperty"))])]

set_option maxRecDepth 40000 in
theorem guids_read : rProps Cfg.empty 1000 [] ([2, 0, 0, 0, 65, 0] ++ eLit "ArrayProperty" ++ [20, 0, 0, 0, 0, 0, 0, 0] ++
    eLit "Guid" ++ [0, 1, 0, 0, 0] ++ List.replicate 16 7 ++ eLit "None") = .ok (guidsVal, []) := by rfl

/-- C40 fails for property lists with a non-empty array of GUIDs. -/
theorem C40_guids_counterexample : ∃ data v, rProps Cfg.empty 1000 [] data = .ok (v, []) ∧
    ¬ ∃ b w, wProps (v.rank + 1) Cfg.empty v = .ok (b, w) := by
  refine ⟨_, _, guids_read, ?_⟩
  rw [C40_list Cfg.empty Cfg.empty rfl (fun _ => rfl) _ _ _ _ (by decide +kernel) _ guids_read]
  refine fun h => h ⟨_, _, _, .here _, List.mem_cons_self, by rfl, by rfl, by rfl, _, _, _, by rfl, by rfl⟩

/-- C11 needs infinities to be kept: with `allow_nan=False` (`--convert-nan-to-null`) an
infinity is read as None, written as NaN and read back as NaN. -/
def nullCfg : Cfg := ⟨fun _ => none, fun _ => none, false⟩

def infBytes (hi : UInt8) : Bytes := [2, 0, 0, 0, 65, 0] ++ eLit "FloatProperty" ++ [4, 0, 0, 0, 0, 0, 0, 0, 0, 0, 0, hi, 0x7F] ++ eLit "None"

def floatVal1 (x : Val) : Val := .dict [(P "A", vDict [("id", .none), ("value", x), ("type", .str (P "FloatProperty"))])]

set_option maxRecDepth 20000 in
theorem C11_null_counterexample : ∃ data v b w v', rProps nullCfg (data.length + 1) [] data = .ok (v, []) ∧
    wProps (v.rank + 1) nullCfg v = .ok (b, w) ∧ rProps nullCfg (b.length + 1) [] b = .ok (v', []) ∧ v' ≠ v :=
  ⟨infBytes 0x80, floatVal1 .none, infBytes 0xC0, floatVal1 .none, floatVal1 (.float nan64), by rfl, by rfl, by rfl, by
    intro h
    simp only [floatVal1, vDict, List.map_cons, Val.dict.injEq, List.cons.injEq, Prod.mk.injEq, reduceCtorEq, false_and, and_false] at h⟩

end Pal
