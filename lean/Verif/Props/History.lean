import Verif.Lemmas.LeftEdit
import Verif.Lemmas.LeftKept
import Verif.Model.PalTypes
/-
C70: saves on the way do not change what the last save writes, even if they fail.

`GvasFile.write` changes the tree that it writes: decoded properties are replaced by their encoded form, and a call that
raises leaves the tree half way (Model/Left.lean).  A user who saves now and then gets the same file in the end as one who
makes the same edits and saves once, as long as the edits do not reach into decoded properties (Spec/History.lean).  Two
counterexamples show that this condition is needed.
-/

namespace Pal
open Spec

/-- What is left behind by a save that returns is the file that `GvasFile.write` gives back. -/
theorem C70_returns {g g' : Gvas} {cfg : Cfg} {b : Bytes} (h : g.write cfg = .ok (b, g')) : g.left cfg = g' := by
  unfold Gvas.write Gvas.writeF at h
  unfold Gvas.left
  cases h1 : g.header.write with
  | error e => rw [h1] at h; cases h
  | ok hb =>
    rw [h1] at h
    simp only at h
    cases h2 : wProps (g.properties.rank + 1) cfg g.properties with
    | error e => rw [h2] at h; cases h
    | ok r =>
      obtain ⟨pb, p'⟩ := r
      rw [h2] at h
      cases h
      simp only [agr_props _ cfg _ _ _ h2]

/-- **C70.** A save, failed or not, keeps the header, the trailer and everything in the tree, except that decoded properties
may lose their "custom_type" and get another "value". -/
theorem C70_frame (g : Gvas) (cfg : Cfg) : (g.left cfg).header = g.header ∧ (g.left cfg).trailer = g.trailer ∧
    Kept g.properties (g.left cfg).properties := by
  unfold Gvas.left
  split
  · exact ⟨rfl, rfl, .same⟩
  · exact ⟨rfl, rfl, Hist.kept_props cfg _ _⟩

/-- **C70.** A save, failed or not, changes nothing in a file in which nothing is decoded. -/
theorem C70_nothing_decoded {g : Gvas} (cfg : Cfg) (h : NothingDecoded g.properties) : g.left cfg = g := by
  obtain ⟨h1, h2, h3⟩ := C70_frame g cfg
  have h4 := Hist.kept_eq _ h3 h
  cases hg : g.left cfg
  cases g
  rw [hg] at h1 h2 h4
  simp only at h1 h2 h4
  rw [h1, h2, h4]

/-- The file that was saved on the way and the one that was not. -/
def SavedAlike (cfg : Cfg) (g u : Gvas) : Prop :=
  u.header = g.header ∧ u.trailer = g.trailer ∧ ∃ n, ∀ m, n ≤ m → Hist.Rel cfg m g.properties u.properties

theorem savedAlike_left {cfg : Cfg} {g u : Gvas} (h : SavedAlike cfg g u) : SavedAlike cfg g (u.left cfg) := by
  obtain ⟨h1, h2, n, h3⟩ := h
  unfold Gvas.left
  split
  · exact ⟨h1, h2, n, h3⟩
  · refine ⟨h1, h2, max n (u.properties.rank + 1), fun m hm => ?_⟩
    simp only
    rw [← lProps_enough (n := u.properties.rank + 1) (n' := m) (by omega) (by omega)]
    exact Hist.rel_step cfg m _ _ (h3 m (by omega))

theorem savedAlike_run {cfg : Cfg} : ∀ (acts : List UserAct) {g u g2 : Gvas}, SavedAlike cfg g u → Edited (editsOf acts) g g2 →
    ∃ u2, runActs cfg acts u = some u2 ∧ SavedAlike cfg g2 u2
  | [], g, u, g2, h, he => by cases he; exact ⟨u, rfl, h⟩
  | .save :: t, g, u, g2, h, he => savedAlike_run t (savedAlike_left h) he
  | .edit e :: t, g, u, g2, h, he => by
    simp only [editsOf] at he
    cases he with
    | @cons _ _ _ _ p hf hp he =>
      obtain ⟨h1, h2, n, h3⟩ := h
      obtain ⟨q, hq, -⟩ := Hist.rel_edit cfg e.change e.hops n _ _ _ hf (h3 n (Nat.le_refl n)) hp
      have hall : SavedAlike cfg { g with properties := p } { u with properties := q } := by
        refine ⟨h1, h2, n, fun m hm => ?_⟩
        obtain ⟨q', hq', hr⟩ := Hist.rel_edit cfg e.change e.hops m _ _ _ hf (h3 m hm) hp
        rw [hq] at hq'
        cases hq'
        exact hr
      obtain ⟨u2, h4, h5⟩ := savedAlike_run t hall he
      refine ⟨u2, ?_, h5⟩
      have : e.on u.properties = some q := hq
      simp only [runActs, this, Option.bind_some]
      exact h4

/-- **C70.** If the file after the edits can be saved, then the same edits with any saves in between, failed or not, are possible
too, and the file can then be saved as well, with the same bytes. -/
theorem C70_history {cfg : Cfg} {acts : List UserAct} {g g2 g2' : Gvas} {b : Bytes} (he : Edited (editsOf acts) g g2)
    (hw : g2.write cfg = .ok (b, g2')) : ∃ u2 u2', runActs cfg acts g = some u2 ∧ u2.write cfg = .ok (b, u2') := by
  obtain ⟨u2, h1, h2, h3, n, h4⟩ := savedAlike_run acts ⟨rfl, rfl, 0, fun m _ => Hist.rel_refl cfg m _⟩ he
  unfold Gvas.write Gvas.writeF at hw
  cases hh : g2.header.write with
  | error e => rw [hh] at hw; cases hw
  | ok hb =>
    rw [hh] at hw
    simp only at hw
    cases hp : wProps (g2.properties.rank + 1) cfg g2.properties with
    | error e => rw [hp] at hw; cases hw
    | ok r =>
      obtain ⟨pb, p'⟩ := r
      rw [hp] at hw
      cases hw
      have hm := h4 (max n (max (g2.properties.rank + 1) (u2.properties.rank + 1))) (by omega)
      rw [← wProps_enough (n := g2.properties.rank + 1)
        (n' := max n (max (g2.properties.rank + 1) (u2.properties.rank + 1))) (by omega) (by omega)] at hp
      obtain ⟨q, hq⟩ := Hist.rel_sim cfg _ _ _ hm _ _ hp
      rw [wProps_enough (n := u2.properties.rank + 1) (by omega) (by omega)] at hq
      refine ⟨u2, { u2 with properties := q }, h1, ?_⟩
      unfold Gvas.write Gvas.writeF
      rw [h2, hh]
      simp only [hq, h3]

/-! ### a case -/

/-- A header. -/
def exHeader : Hdr :=
  ⟨.int 0x53415647, .int 3, .int 522, .int 1008, .int 5, .int 1, .int 1, .int 0, .str (P "++UE5+Release-5.1"), .int 3, .list [],
    .str (P "/Script/Pal.PalWorldSaveGame")⟩

/-- The work collection of a base, decoded; `i` is its id. -/
def exWork (i : Val) : Val :=
  dct [("array_type", .str (P "ByteProperty")), ("id", .none), ("value", dct [("id", i), ("work_ids", .list [])]),
    ("type", .str (P "ArrayProperty")), ("custom_type", .str (P ".worldSaveData.BaseCampSaveData.Value.WorkCollection.RawData"))]

/-- A struct with an IntProperty inside. -/
def exWorld (day : Int) : Val :=
  dct [("struct_type", .str (P "PalWorldSaveData")), ("struct_id", .uuid (List.replicate 16 0)), ("id", .none),
    ("value", dct [("Day", dct [("id", .none), ("value", .int day), ("type", .str (P "IntProperty"))])]),
    ("type", .str (P "StructProperty"))]

def exSave (i : Val) (day : Int) : Gvas := ⟨exHeader, dct [("worldSaveData", exWorld day), ("RawData", exWork i)], [0, 0, 0, 0]⟩

abbrev exCfg : Cfg := palCfg (fun _ => true) true

def writes (g : Gvas) (cfg : Cfg) : Option Bytes :=
  match g.write cfg with
  | .ok (b, _) => some b
  | .error _ => none

/-- The id of the work collection is broken: the first save fails.  Then the decoded property is replaced, the file saved, a number
in the tree changed. -/
def exActs : List UserAct :=
  [.save, .edit ⟨[], .set (P "RawData") (exWork (.uuid (List.replicate 16 0)))⟩, .save,
    .edit ⟨[.struct (P "worldSaveData")], .value (P "Day") (.int 7)⟩]

example : writes (exSave (.int 5) 1) exCfg = none := by decide +kernel

example : Edited (editsOf exActs) (exSave (.int 5) 1) (exSave (.uuid (List.replicate 16 0)) 7) := by
  have hp : PlainAt (dct [("worldSaveData", exWorld 1), ("RawData", exWork (.uuid (List.replicate 16 0)))]) (P "worldSaveData") "StructProperty"
      (exWorld 1) := ⟨by rfl, by rfl, by rfl⟩
  have hns : ¬ Special (.str (P "PalWorldSaveData")) := by
    unfold Special
    simp only [Val.str.injEq]
    decide +kernel
  refine .cons (p := dct [("worldSaveData", exWorld 1), ("RawData", exWork (.uuid (List.replicate 16 0)))]) (.here trivial) (by rfl) ?_
  refine .cons (p := dct [("worldSaveData", exWorld 7), ("RawData", exWork (.uuid (List.replicate 16 0)))])
    (.hop (.struct hp (by rfl) hns (by rfl)) (.here ⟨_, by rfl, by rfl, _, by rfl⟩)) (by rfl) ?_
  exact .nil

example : (writes (exSave (.uuid (List.replicate 16 0)) 7) exCfg).isSome = true ∧
    ((runActs exCfg exActs (exSave (.int 5) 1)).bind fun u => writes u exCfg) = writes (exSave (.uuid (List.replicate 16 0)) 7) exCfg := by
  decide +kernel

/-- A tree in which nothing is decoded, and which cannot be saved. -/
def exPlain : Gvas := ⟨exHeader, dct [("Day", dct [("id", .none), ("value", .str (P "x")), ("type", .str (P "IntProperty"))])], []⟩

example : NothingDecoded exPlain.properties ∧ writes exPlain exCfg = none := by
  refine ⟨?_, by decide +kernel⟩
  intro d h
  cases h with
  | here => decide +kernel
  | dict hm hw =>
    simp only [List.map_cons, List.map_nil, List.mem_cons, List.not_mem_nil, or_false, Prod.mk.injEq] at hm
    obtain ⟨-, rfl⟩ := hm
    cases hw with
    | here => decide +kernel
    | dict hm hw =>
      simp only [List.map_cons, List.map_nil, List.mem_cons, List.not_mem_nil, or_false, Prod.mk.injEq] at hm
      rcases hm with ⟨-, rfl⟩ | ⟨-, rfl⟩ | ⟨-, rfl⟩ <;> cases hw

/-! ### edits inside decoded properties -/

/-- `properties["RawData"]["value"]["id"] = i` -/
def repair (i : Val) (v : Val) : Option Val := onKey (P "RawData") (onKey (P "value") (setKey (P "id") i)) v

/-- The error of a save. -/
def failsWith (g : Gvas) (cfg : Cfg) (e : Err) : Bool :=
  match g.write cfg with
  | .ok _ => false
  | .error e' => decide (e' = e)

/-- **C70**, counterexample: a decoded property that is repaired in place after a failed save.  Before the failed save the repair would
have worked; after it the property has lost its "custom_type", and the next save raises KeyError. -/
theorem C70_retry_counterexample : ∃ (g : Gvas) (f : Val → Option Val) (p q : Val),
    writes g exCfg = none ∧
    f g.properties = some p ∧ (writes { g with properties := p } exCfg).isSome = true ∧
    f (g.left exCfg).properties = some q ∧ failsWith { g.left exCfg with properties := q } exCfg .key = true := by
  refine ⟨exSave (.int 5) 1, repair (.uuid (List.replicate 16 0)), _, _, ?_, rfl, ?_, rfl, ?_⟩ <;> decide +kernel

/-- The modules of a base, decoded. -/
def exModules : Val :=
  dct [("key_type", .str (P "EnumProperty")), ("value_type", .str (P "StructProperty")), ("key_struct_type", .none),
    ("value_struct_type", .str (P "StructProperty")), ("id", .none),
    ("value", .list [dct [("key", .str (P "EPalBaseCampModuleType::PassiveEffect")),
      ("value", dct [("RawData", dct [("array_type", .str (P "ByteProperty")), ("id", .none),
        ("value", dct [("passive_effects", .list [])]), ("type", .str (P "ArrayProperty"))])])]]),
    ("type", .str (P "MapProperty")), ("custom_type", .str (P ".worldSaveData.BaseCampSaveData.Value.ModuleMap"))]

def exCamp : Gvas := ⟨exHeader, dct [("ModuleMap", exModules)], [0, 0, 0, 0]⟩

/-- `properties["ModuleMap"]["value"][0]["value"]["RawData"]["value"]["passive_effects"] = [{"type": 1}]` -/
def addEffect : Val → Option Val :=
  onKey (P "ModuleMap") (onKey (P "value") (onIdx 0 (onKey (P "value") (onKey (P "RawData") (onKey (P "value")
    (setKey (P "passive_effects") (.list [dct [("type", .int 1)]])))))))

set_option maxRecDepth 20000 in
/-- **C70**, counterexample: an edit of a decoded base camp module after a save is possible, but without effect on the file: the next
save writes the same bytes as if it had not been made. -/
theorem C70_stale_counterexample : ∃ (g : Gvas) (f : Val → Option Val) (p q : Val),
    f g.properties = some p ∧ f (g.left exCfg).properties = some q ∧
    (writes g exCfg).isSome = true ∧ (writes { g with properties := p } exCfg).isSome = true ∧
    writes { g with properties := p } exCfg ≠ writes g exCfg ∧
    writes { g.left exCfg with properties := q } exCfg = writes g exCfg := by
  refine ⟨exCamp, addEffect, _, _, rfl, rfl, ?_⟩
  decide +kernel

end Pal
