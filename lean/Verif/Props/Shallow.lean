import Verif.Lemmas.Shallow
import Verif.Props.CustomResave
import Verif.Props.Nested
/-
C74: a shortage of stack.

A file nested deeper than the interpreter's stack allows must not be converted into something
else without notice: reading and writing raise RecursionError, or give what they give with
enough stack.  Reading does so unless dynamic items are decoded: `try_read_egg`
(dynamic_item.py:58-73) catches the exception, and shows the egg as data of unknown structure.
An egg shown like that is still saved as the same bytes.
-/

set_option linter.unusedSimpArgs false

namespace Pal
open Spec Shallow

/-- C74, without decoding of dynamic items: on any stack, `GvasFile.read` raises RecursionError or
has the same outcome as with enough stack. -/
theorem C74_read_partial (cfg : Cfg) (hd : ∀ p, cfg.custom p ≠ some .dynamicItem) (st : Stack) (data : Bytes) :
    gvasReadS cfg st data = gvasRead cfg data ∨ gvasReadS cfg st data = .error stackErr := by
  have h : ShR (gvasReadSR cfg st (data.length + 1)) (gvasReadR cfg (data.length + 1)) :=
    shR_bind' _ fun _ => shR_bind (shR_room (shR_loop hd st _ _ _ _)) fun _ => shR_refl _
  unfold gvasReadS gvasRead
  rcases h data with e | e
  · rw [e]; exact .inl rfl
  · rw [e]; exact .inr rfl

/-- The table of the tool without the entry for dynamic items. -/
def noItems (k : String) : Bool := k != ".worldSaveData.DynamicItemSaveData.DynamicItemSaveData.RawData"

theorem noItems_custom (p : PyStr) : palCustom noItems p ≠ some .dynamicItem := by
  intro h
  simp only [palCustom, Option.map_eq_some_iff] at h
  obtain ⟨kv, h1, h2⟩ := h
  have hm := List.mem_of_find?_eq_some h1
  have hk := List.find?_some h1
  have key : ∀ kv ∈ palCustoms, noItems kv.1 = true → kv.2.1 ≠ .dynamicItem := by decide +kernel
  simp only [Bool.and_eq_true] at hk
  exact key kv hm hk.1 h2

/-- C74 for the tool with all decoders but the one for dynamic items, and for the tool without
decoders. -/
theorem C74_palworld_partial (an : Bool) (st : Stack) (data : Bytes) :
    (gvasReadS (palCfg noItems an) st data = gvasRead (palCfg noItems an) data ∨
      gvasReadS (palCfg noItems an) st data = .error stackErr) ∧
    (gvasReadS (palCfg (fun _ => false) an) st data = gvasRead (palCfg (fun _ => false) an) data ∨
      gvasReadS (palCfg (fun _ => false) an) st data = .error stackErr) := by
  refine ⟨C74_read_partial _ noItems_custom st data, C74_read_partial _ (fun p h => ?_) st data⟩
  simp only [palCfg, palCustom, Bool.false_and, Option.map_eq_some_iff] at h
  obtain ⟨kv, h1, -⟩ := h
  exact absurd (List.find?_some h1) (by simp)

/-- C74: with enough stack, the outcome is the one that the other properties are about. -/
theorem C74_enough (cfg : Cfg) (st : Stack) (h : Stack.Ample st) (data : Bytes) (g : Gvas) :
    gvasReadS cfg st data = gvasRead cfg data ∧ g.writeS cfg st = g.write cfg := by
  constructor
  · unfold gvasReadS gvasRead gvasReadSR gvasReadR rProps
    simp only [h.1, ifRoom, if_true, loop_ample h]
    rfl
  · unfold Gvas.writeS Gvas.write Gvas.writeF
    simp only [props_ample h]
    rfl

/-- C74, writing: on any stack, `GvasFile.write` raises RecursionError or writes the same bytes as
with enough stack. -/
theorem C74_write (cfg : Cfg) (st : Stack) (g : Gvas) :
    g.writeS cfg st = g.write cfg ∨ g.writeS cfg st = .error stackErr := by
  unfold Gvas.writeS Gvas.write Gvas.writeF
  cases g.header.write with
  | error e => exact .inl rfl
  | ok hb =>
    simp only
    rcases shV_props st (g.properties.rank + 1) cfg [] g.properties with e | e
    · rw [e]; exact .inl rfl
    · rw [e]; exact .inr rfl

theorem own_of_read {cfg : Cfg} {st : Stack} : ∀ {n : Nat} {ch : List Frame} {path : PyStr} {acc : Dict} {s rest : Bytes} {v : Val},
    sLoop cfg st n ch path acc s = .ok (v, rest) → v = .dict acc ∨ ∃ ty q, st.own ch ty q = true
  | 0, _, _, _, _, _, _, h => by cases h
  | n + 1, ch, path, acc, s, rest, v, h => by
    unfold sLoop at h
    obtain ⟨name, s1, -, h⟩ := r_bind_inv h
    split at h
    · cases h; exact .inl rfl
    · obtain ⟨ty, s2, -, h⟩ := r_bind_inv h
      obtain ⟨size, s3, -, h⟩ := r_bind_inv h
      obtain ⟨x, s4, h, -⟩ := r_bind_inv h
      unfold ifRoom at h
      split at h
      · next e => exact .inr ⟨ty, _, e⟩
      · cases h

/-- C74: success needs room: for the outermost list, and for at least one property if there are any; and to be written, for the
outermost list. -/
theorem C74_room (cfg : Cfg) (st : Stack) (g : Gvas) :
    (∀ data, gvasReadS cfg st data = .ok g → st.nested [] = true ∧ (g.properties ≠ .dict [] → ∃ ty q, st.own [] ty q = true)) ∧
    (∀ b g', g.writeS cfg st = .ok (b, g') → st.write [g.properties] = true) := by
  constructor
  · intro data h
    unfold gvasReadS at h
    split at h
    · next g1 s1 e =>
      cases h
      unfold gvasReadSR at e
      obtain ⟨hd, s2, -, e⟩ := r_bind_inv e
      obtain ⟨p, s3, e1, e⟩ := r_bind_inv e
      obtain ⟨t, s4, -, e⟩ := r_bind_inv e
      cases e
      unfold ifRoom at e1
      split at e1
      · next hr => exact ⟨hr, fun hne => (own_of_read e1).resolve_left hne⟩
      · cases e1
    · cases h
  · intro b g' h
    unfold Gvas.writeS sProps at h
    split at h
    · cases h
    · by_cases hw : st.write [g.properties] = true
      · exact hw
      · rw [if_neg hw] at h
        cases h

/-- There is room on `st'` wherever there is room on `st`. -/
def Stack.Within (st st' : Stack) : Prop :=
  (∀ ch, st.nested ch = true → st'.nested ch = true) ∧ (∀ ch ty q, st.own ch ty q = true → st'.own ch ty q = true) ∧
    ∀ ch, st.write ch = true → st'.write ch = true

theorem shR_more {α : Type} {b b' : Bool} {x y : R α} (hb : b = true → b' = true) (h : ShR x y) : ShR (ifRoom b x) (ifRoom b' y) := by
  intro s
  cases b with
  | false => exact .inr rfl
  | true => rw [hb rfl]; exact h s

theorem more_loop {cfg : Cfg} (hd : ∀ p, cfg.custom p ≠ some .dynamicItem) {st st' : Stack} (h : st.Within st') :
    ∀ n ch path acc, ShR (sLoop cfg st n ch path acc) (sLoop cfg st' n ch path acc)
  | 0, _, _, _ => shR_refl _
  | n + 1, ch, path, acc => by
    unfold sLoop
    refine shR_bind' _ fun name => shR_ite (shR_refl _) (shR_bind' _ fun ty => shR_bind' _ fun size => ?_)
    exact shR_bind (shR_more (h.2.1 _ _ _) (shR_property hd (fun p => shR_more (h.1 _) (more_loop hd h n _ p [])) _ _ _))
      fun v => more_loop hd h n ch path _

theorem more_props {st st' : Stack} (h : st.Within st') : ∀ n cfg ch, ShV (sProps st n cfg ch) (sProps st' n cfg ch)
  | 0, _, _ => shV_refl _
  | n + 1, cfg, ch => by
    intro v
    unfold sProps
    by_cases hw : st.write (v :: ch) = true
    · rw [if_pos hw, if_pos (h.2.2 _ hw)]
      refine shV_body (shV_wProperty (more_props h n cfg _) cfg fun p => ?_) v
      rcases more_props h n Cfg.empty (v :: ch) p with e | e
      · rw [e]; exact .inl rfl
      · rw [e]; exact .inr rfl
    · rw [if_neg hw]; exact .inr rfl

/-- C74, without decoding of dynamic items: more room never makes a read fail or gives another document.  On a stack with more
room the outcome is the same, unless RecursionError was raised on the smaller one. -/
theorem C74_more_read_partial (cfg : Cfg) (hd : ∀ p, cfg.custom p ≠ some .dynamicItem) (st st' : Stack) (h : st.Within st')
    (data : Bytes) : gvasReadS cfg st data = gvasReadS cfg st' data ∨ gvasReadS cfg st data = .error stackErr := by
  have k : ShR (gvasReadSR cfg st (data.length + 1)) (gvasReadSR cfg st' (data.length + 1)) :=
    shR_bind' _ fun _ => shR_bind (shR_more (h.1 _) (more_loop hd h _ _ _ _)) fun _ => shR_refl _
  unfold gvasReadS
  rcases k data with e | e
  · rw [e]; exact .inl rfl
  · rw [e]; exact .inr rfl

/-- C74: the same for writing, with all decoders. -/
theorem C74_more_write (cfg : Cfg) (st st' : Stack) (h : st.Within st') (g : Gvas) :
    g.writeS cfg st = g.writeS cfg st' ∨ g.writeS cfg st = .error stackErr := by
  unfold Gvas.writeS
  cases g.header.write with
  | error e => exact .inl rfl
  | ok hb =>
    simp only
    rcases more_props h (g.properties.rank + 1) cfg [] g.properties with e | e
    · rw [e]; exact .inl rfl
    · rw [e]; exact .inr rfl

/-- C74, dynamic items: when the stack is too short for the object in an egg, the egg is shown as data
of unknown structure, unless it happens to look like a weapon, and this is saved as the same bytes. -/
theorem C74_egg {m : Mode} {cfg : Cfg} (hcfg : cfg.allowNan = m.an) (hc : m.json = true → CfgJson cfg) (d : DynItem m)
    {c : Str} {o : Obj} {u : { b : Bytes // b.length = 4 }} {g : Guid} (hb : d.body = .egg c o u g)
    (hd : DynCanon cfg d.body) (n : Nat) (hn : d.enc.length < n) (h64 : d.enc.length < 2 ^ 64) (rec : R Val)
    (hrec : rec (o.bytes ++ (u.val ++ eGuid g)) = rPropsLoop cfg n [] [] (o.bytes ++ (u.val ++ eGuid g)) ∨
      rec (o.bytes ++ (u.val ++ eGuid g)) = .error stackErr)
    (hw : ∃ e, weaponDecode m.an d.body.enc = .error e ∧ e ≠ .fuel) :
    ∃ v, dynamicItemDecode m.an rec d.enc = .ok (v, []) ∧ dynamicItemEncode (bytesOf n) v = .ok d.enc ∧
      (rec (o.bytes ++ (u.val ++ eGuid g)) = rPropsLoop cfg n [] [] (o.bytes ++ (u.val ++ eGuid g)) → v = d.val) ∧
      (rec (o.bytes ++ (u.val ++ eGuid g)) = .error stackErr → v = { d with body := .unknown d.body.enc : DynItem m }.val) := by
  have hl : d.body.enc.length ≤ d.enc.length := by
    simp only [DynItem.enc, List.length_append]; omega
  have hok := dynOk_of hcfg hc d.body hd n (by omega) (by omega)
  have hob : ObjOk m (rPropsLoop cfg n [] []) (bytesOf n) o := by rw [hb] at hok; exact hok
  have hok1 : rPropsLoop cfg n [] [] (o.bytes ++ (u.val ++ eGuid g)) = .ok (o.value, u.val ++ eGuid g) := hob.read _
  rcases hrec with e | e
  · refine ⟨d.val, ?_, dyn_write d hok, fun _ => rfl, fun e' => ?_⟩
    · have hegg : eggDecode rec d.body.enc = .ok (d.body.entries.map fun kv => (P kv.1, kv.2), []) := by
        have h := rGuid_eGuid g []
        rw [List.append_nil] at h
        rw [hb, DynBody.enc]
        simp only [eggDecode, rd, e, hok1, rByteList_n u.val 4 u.2, h]; rfl
      have htry : tryEgg rec d.body.enc = .ok (some (d.body.entries.map fun kv => (P kv.1, kv.2)), []) := by
        unfold tryEgg
        apply rTry_ok
        rw [r_bind_ok hegg]; rfl
      rw [dynamicItemDecode, DynItem.enc, List.append_assoc, List.append_assoc, r_bind_ok (dynId_read _ _ _ _), dynamicRest]
      rw [r_bind_ok (show (tryEgg rec >>= _) d.body.enc = .ok (d.body.entries.map fun kv => (P kv.1, kv.2), []) by
        rw [r_bind_ok htry]; rfl)]
      rfl
    · rw [e, hok1] at e'; cases e'
  · refine ⟨_, ?_, ?_, fun e' => ?_, fun _ => rfl⟩
    · have hegg : eggDecode rec d.body.enc = .error stackErr := by
        rw [hb, DynBody.enc]
        simp only [eggDecode, rd, e]
      have hne : NotEgg rec d.body.enc := ⟨_, hegg, by decide, nofun⟩
      have hlen : d.body.enc.length ≠ 4 := by
        rw [hb]
        simp only [DynBody.enc, List.length_append, eGuid, g.2]
        omega
      have := dyn_read (rec := rec) (wp := bytesOf n) { d with body := .unknown d.body.enc : DynItem m } ⟨hne, hlen, hw⟩
      exact this
    · simp [dynamicItemEncode, DynItem.val, DynItem.enc, DynBody.entries, DynBody.enc, wr, isS_P]
    · rw [e, hok1] at e'; cases e'

/-! The sample egg on a stack that is too short for any object. -/
set_option maxRecDepth 40000 in
example := C74_egg (cfg := fullCfg) rfl (fun _ => palCfg_json _ _) sampleEgg rfl ⟨samplePal, samplePal_wf, rfl⟩ 1000 (by decide +kernel)
  (by decide +kernel) (ifRoom false (rPropsLoop fullCfg 1000 [] [])) (.inr rfl) ⟨.exc "Error decoding ascii string", by rfl, nofun⟩

/-! ### the exception is caught -/

/-- An egg whose object holds a struct. -/
def deepEgg : Bytes := List.replicate 32 0 ++ eLit "Egg" ++ eLit "SheepBall" ++ eLit "SaveParameter" ++ eLit "StructProperty" ++ lit 8 0 ++
  eLit "PalParameter" ++ List.replicate 17 0 ++ eLit "None" ++ eLit "None" ++ List.replicate 20 0

/-- A file with a list of dynamic items that holds it. -/
def deepFile : Bytes :=
  sampleHeader.enc ++ eLit "worldSaveData" ++ eLit "StructProperty" ++ lit 8 0 ++ eLit "PalWorldSaveData" ++ List.replicate 17 0 ++
  eLit "DynamicItemSaveData" ++ eLit "ArrayProperty" ++ lit 8 0 ++ eLit "StructProperty" ++ [0] ++ lit 4 1 ++
  eLit "DynamicItemSaveData" ++ eLit "StructProperty" ++ lit 8 0 ++ eLit "PalDynamicItemSaveData" ++ List.replicate 17 0 ++
  rawList deepEgg ++ eLit "None" ++ eLit "None" ++ [0, 0, 0, 0]

/-- Room for property lists nested three levels deep: enough for the list of items, and for the object
in the egg, but not for the struct in it. -/
def threeLevels : Stack := ⟨fun ch => ch.length ≤ 3, fun _ _ _ => true, fun _ => true⟩

/-- "type" of the first item. -/
def firstItemIs (t : String) (g : Except Err Gvas) : Bool :=
  match g with
  | .error _ => false
  | .ok g => match g.properties.path (ks ["worldSaveData", "value", "DynamicItemSaveData", "value", "values"]) with
    | .ok (.list (x :: _)) => itemIs t x
    | _ => false

set_option maxRecDepth 40000 in
/-- C74 fails with decoding of dynamic items: the egg is shown as an item of unknown structure, and no
exception is raised. -/
theorem C74_counterexample : ∃ st data g g', gvasRead (palCfg (fun _ => true) true) data = .ok g ∧
    gvasReadS (palCfg (fun _ => true) true) st data = .ok g' ∧ firstItemIs "egg" (.ok g) = true ∧ firstItemIs "unknown" (.ok g') = true := by
  have h1 : firstItemIs "egg" (gvasRead (palCfg (fun _ => true) true) deepFile) = true := by decide +kernel
  have h2 : firstItemIs "unknown" (gvasReadS (palCfg (fun _ => true) true) threeLevels deepFile) = true := by decide +kernel
  cases e1 : gvasRead (palCfg (fun _ => true) true) deepFile with
  | error e => rw [e1] at h1; cases h1
  | ok g =>
    cases e2 : gvasReadS (palCfg (fun _ => true) true) threeLevels deepFile with
    | error e => rw [e2] at h2; cases h2
    | ok g' => exact ⟨threeLevels, deepFile, g, g', e1, e2, e1 ▸ h1, e2 ▸ h2⟩

/-! Without the decoder for dynamic items the same file is read on this stack, and on a smaller one
RecursionError is raised, also by the writer. -/
def isStackErr {α : Type} (x : Except Err α) : Bool :=
  match x with
  | .error e => decide (e = stackErr)
  | .ok _ => false
def isOk {α : Type} (x : Except Err α) : Bool := match x with
  | .error _ => false
  | .ok _ => true
def oneLevel : Stack := ⟨fun ch => ch.length ≤ 1, fun _ _ _ => true, fun ch => ch.length ≤ 1⟩

set_option maxRecDepth 40000 in
theorem deep_reads : isOk (gvasReadS (palCfg noItems true) threeLevels deepFile) = true := by decide +kernel
set_option maxRecDepth 40000 in
example : isStackErr (gvasReadS (palCfg noItems true) oneLevel deepFile) = true := by decide +kernel
set_option maxRecDepth 40000 in
example : (match gvasRead (palCfg noItems true) deepFile with
    | .ok g => isOk (g.writeS (palCfg (fun _ => true) true) threeLevels) && isStackErr (g.writeS (palCfg (fun _ => true) true) oneLevel)
    | .error _ => false) = true := by decide +kernel

/-- On a stack that has no room for a property, nothing is read of this file. -/
example (g : Gvas) : gvasReadS (palCfg noItems true) ⟨fun _ => true, fun _ _ _ => false, fun _ => true⟩ deepFile ≠ .ok g ∨
    g.properties = .dict [] := by
  by_cases h : g.properties = .dict []
  · exact .inr h
  · refine .inl fun hr => ?_
    obtain ⟨_, _, k⟩ := ((C74_room _ _ g).1 _ hr).2 h
    cases k

/-- What is read on the small stack is read on the larger one. -/
example : oneLevel.Within threeLevels ∧ ∃ g, gvasReadS (palCfg noItems true) threeLevels deepFile = .ok g ∧
    ∀ st, threeLevels.Within st → gvasReadS (palCfg noItems true) st deepFile = .ok g := by
  refine ⟨⟨fun ch h => ?_, fun _ _ _ _ => rfl, fun ch h => ?_⟩, ?_⟩
  · simp only [oneLevel, threeLevels, decide_eq_true_eq] at h ⊢; omega
  · rfl
  · have h := deep_reads
    cases e : gvasReadS (palCfg noItems true) threeLevels deepFile with
    | error x => rw [e] at h; cases h
    | ok g =>
      refine ⟨g, rfl, fun st hs => ?_⟩
      rcases C74_more_read_partial (palCfg noItems true) noItems_custom _ st hs deepFile with k | k
      · rw [← k, e]
      · rw [e] at k; cases k

end Pal
