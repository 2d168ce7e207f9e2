import Verif.Props.RoundTrip
import Verif.Props.Sample
import Verif.Lemmas.Idem
/-
C05: writing twice.  C48: type hints.  C50: property names.
-/

namespace Pal
open Spec

variable {m : Mode}

/-! ### C05 -/

/-- C05: whatever the file object is (also one edited by hand), if it can be written then writing
it again gives the same bytes, and leaves the object as the first write left it. -/
theorem C05_again (cfg : Cfg) (g g' : Gvas) (b : Bytes) (h : g.write cfg = .ok (b, g')) :
    g'.write cfg = .ok (b, g') := by
  obtain ⟨hb, pb, h1, h2, rfl, h4⟩ := of_write h
  have h5 : wProps (g'.properties.rank + 1) cfg g'.properties = .ok (pb, g'.properties) := by
    rw [← wProps_enough (n' := max (g.properties.rank + 1) (g'.properties.rank + 1)) (Nat.lt_succ_self _) (by omega)]
    rw [← wProps_enough (n' := max (g.properties.rank + 1) (g'.properties.rank + 1)) (Nat.lt_succ_self _) (by omega)] at h2
    exact idem_props _ _ _ _ _ h2
  have h6 : g'.header.write = .ok hb := by rw [h4]; exact h1
  have h7 : g'.trailer = g.trailer := by rw [h4]
  obtain ⟨x, y, z⟩ := g'
  simp only at h5 h6 h7
  subst h7
  simp only [Gvas.write, Gvas.writeF, h6, h5]

/-- The bytes of the last of `k + 1` writes, and the object after it. -/
def writeTimes (cfg : Cfg) : Nat → Gvas → Except Err (Bytes × Gvas)
  | 0, g => g.write cfg
  | k + 1, g => match g.write cfg with
    | .ok (_, g') => writeTimes cfg k g'
    | .error e => .error e

/-- C05: any number of repetitions. -/
theorem C05_repeated (cfg : Cfg) (g g' : Gvas) (b : Bytes) (h : g.write cfg = .ok (b, g')) (k : Nat) :
    writeTimes cfg k g = .ok (b, g') := by
  induction k generalizing g with
  | zero => exact h
  | succ k ih =>
    simp only [writeTimes, h]
    exact ih g' (C05_again cfg g g' b h)

example : ∃ g, gvasRead fullCfg sampleFile.enc = .ok g ∧ ∃ g', ∀ k, writeTimes fullCfg k g = .ok (sampleFile.enc, g') := by
  obtain ⟨h, hw⟩ := file_write (m := jsonMode) (cfg := fullCfg) (B := fullCfg) rfl (fun _ => palCfg_json _ _)
    (fun _ _ h => h) sampleFile sampleFile_wf
  exact ⟨_, file_read rfl (fun _ => palCfg_json _ _) sampleFile sampleFile_wf, h, C05_repeated _ _ _ _ hw⟩

/-! ### C48 -/

theorem wProps_hints {A B : Cfg} (h : A.custom = B.custom) : ∀ n v, wProps n A v = wProps n B v
  | 0, _ => rfl
  | n + 1, v => by
    have ih : wProps n A = wProps n B := funext (wProps_hints h n)
    rw [wProps_succ, wProps_succ, ih]
    congr 1
    funext p
    simp only [wProperty, wInner, h]

/-- C48: type hints (and `allow_nan`) play no role in writing, for any file object. -/
theorem C48_writer (A B : Cfg) (h : A.custom = B.custom) (g : Gvas) : g.write A = g.write B := by
  simp only [Gvas.write, Gvas.writeF, wProps_hints h]

/-- C48: a file that is well-formed for two tables of type hints gives the same bytes, whichever
table was used for reading and whichever is used for writing (`W`). -/
theorem C48_hints (hj : m.json = true) (A B W : Cfg) (hA : A.allowNan = m.an) (hB : B.allowNan = m.an)
    (jA : CfgJson A) (jB : CfgJson B) (cA : ∀ p c, A.custom p = some c → W.custom p = some c)
    (cB : ∀ p c, B.custom p = some c → W.custom p = some c) (f : File m) (wA : f.Wf A) (wB : f.Wf B) :
    ∃ ga gb da db ga' gb' b ha hb, gvasRead A f.enc = .ok ga ∧ gvasRead B f.enc = .ok gb ∧
      jsonRT m.an ga.dump = .ok da ∧ jsonRT m.an gb.dump = .ok db ∧ Gvas.load da = .ok ga' ∧ Gvas.load db = .ok gb' ∧
      ga'.write W = .ok (b, ha) ∧ gb'.write W = .ok (b, hb) ∧ b = f.enc := by
  obtain ⟨h1, w1⟩ := file_write hA (fun _ => jA) cA f wA
  obtain ⟨h2, w2⟩ := file_write hB (fun _ => jB) cB f wB
  obtain ⟨d1, g1, h1', j1, l1, w1'⟩ := C04_file m.an W _ _ _ (file_jok hj hA jA f wA) w1
  obtain ⟨d2, g2, h2', j2, l2, w2'⟩ := C04_file m.an W _ _ _ (file_jok hj hB jB f wB) w2
  exact ⟨_, _, d1, d2, g1, g2, _, h1', h2', file_read hA (fun _ => jA) f wA, file_read hB (fun _ => jB) f wB,
    j1, j2, l1, l2, w1', w2', rfl⟩

/-- A small file with a map, and type hints that say of the map what is assumed without hints. -/
def smallFile : File jsonMode := ⟨sampleHeader,
  [(str "A", .int none 5),
   (str "M", .map (str "StructProperty") (str "StructProperty") none
      [(.struct (.guid sampleGuid), .struct (.props [(str "x", .bool true none)]))])], [0, 0, 0, 0]⟩

def someHints : Cfg :=
  { Cfg.empty with hint := fun p => if p = P ".M.Key" then some (P "Guid") else if p = P ".A.Key" then some (P "Quat") else none }

theorem smallFile_wf : smallFile.Wf Cfg.empty ∧ smallFile.Wf someHints := by
  refine ⟨⟨?_, by decide +kernel⟩, ⟨?_, by decide +kernel⟩⟩ <;>
  · simp only [SVal.Wf]
    refine ⟨by decide +kernel, wf_plain (by decide +kernel) rfl (by simp only [PropT.Wf])
      (wf_plain (by decide +kernel) rfl (wf_map (wf_entry rfl (wf_struct ?_ (by simp only [SVal.Wf])) rfl
        (wf_struct (fits_props (by decide +kernel)) ?_))) wf_nil)⟩
    · simp only [SVal.Fits]; decide +kernel
    · simp only [SVal.Wf]
      exact ⟨by decide +kernel, wf_plain (by decide +kernel) rfl (by simp only [PropT.Wf]) wf_nil⟩

theorem someHints_json : CfgJson someHints where
  hint := by
    intro p t h
    simp only [someHints] at h
    split at h
    · cases h; decide +kernel
    · split at h
      · cases h; decide +kernel
      · cases h
  custom := by intro p c h; cases h

theorem empty_json : CfgJson Cfg.empty := ⟨fun _ _ h => (nomatch h), fun _ _ h => (nomatch h)⟩

example := C48_hints (m := jsonMode) rfl Cfg.empty someHints fullCfg rfl rfl empty_json someHints_json
  (by intro p c h; cases h) (by intro p c h; cases h) smallFile smallFile_wf.1 smallFile_wf.2

/-! ### C50 -/

/-- Put a property into a list: in the place of the one with the same name, or at the end. -/
def setProp (n : Str) (p : PropT m) : Props m → Props m
  | [] => [(n, p)]
  | (n', p') :: t => if n' = n then (n, p) :: t else (n', p') :: setProp n p t

/-- A list with repeated names made one without. -/
def collapse (acc : Props m) : Props m → Props m
  | [] => acc
  | (n, p) :: t => collapse (setProp n p acc) t

theorem valProps_setProp (cfg : Cfg) (K : CodecId → Val → Val) (path : PyStr) (n : Str) (p : PropT m) (acc : Props m) :
    valProps cfg K path (setProp n p acc) =
      dset (valProps cfg K path acc) n.val (showProp cfg K (sub path n) p (p.val cfg K (sub path n))) := by
  induction acc with
  | nil => simp only [setProp, valProps, dset]
  | cons a t ih =>
    obtain ⟨n', p'⟩ := a
    by_cases e : n' = n
    · subst e
      simp only [setProp, valProps, dset, if_true]
    · have : n'.val ≠ n.val := fun h => e (Subtype.ext h)
      simp only [setProp, valProps, dset, if_neg e, if_neg this, ih]

theorem valProps_collapse (cfg : Cfg) (K : CodecId → Val → Val) (path : PyStr) (ps acc : Props m) :
    dupdate (valProps cfg K path acc) (valProps cfg K path ps) = valProps cfg K path (collapse acc ps) := by
  induction ps generalizing acc with
  | nil => simp only [valProps, dupdate, collapse]
  | cons a t ih =>
    obtain ⟨n, p⟩ := a
    simp only [valProps, dupdate, collapse]
    rw [← valProps_setProp, ih]

theorem setProp_keys (n : Str) (p : PropT m) (acc : Props m) :
    (setProp n p acc).map Prod.fst = if n ∈ acc.map Prod.fst then acc.map Prod.fst else acc.map Prod.fst ++ [n] := by
  induction acc with
  | nil => simp [setProp]
  | cons a t ih =>
    obtain ⟨n', p'⟩ := a
    by_cases e : n' = n
    · subst e; simp [setProp]
    · simp only [setProp, if_neg e, List.map_cons, ih, List.mem_cons, Ne.symm e, false_or]
      split <;> simp

theorem setProp_nodup (n : Str) (p : PropT m) (acc : Props m) (h : (acc.map Prod.fst).Nodup) :
    ((setProp n p acc).map Prod.fst).Nodup := by
  rw [setProp_keys]
  split
  · exact h
  · rename_i hn
    rw [List.nodup_append]
    refine ⟨h, by simp, ?_⟩
    intro a ha b hb e
    rw [List.mem_singleton] at hb
    subst hb; subst e
    exact hn ha

theorem collapse_nodup (ps acc : Props m) (h : (acc.map Prod.fst).Nodup) : ((collapse acc ps).map Prod.fst).Nodup := by
  induction ps generalizing acc with
  | nil => exact h
  | cons a t ih => exact ih _ (setProp_nodup _ _ _ h)

theorem setProp_wf {cfg : Cfg} {C : CodecId → PropT m → Prop} {path : PyStr} {n : Str} {p : PropT m} {t acc : Props m}
    (h : wfProps cfg C path ((n, p) :: t)) (ha : wfProps cfg C path acc) : wfProps cfg C path (setProp n p acc) := by
  induction acc with
  | nil =>
    simp only [setProp, wfProps] at h ⊢
    exact ⟨h.1, h.2.1, trivial⟩
  | cons a s ih =>
    obtain ⟨n', p'⟩ := a
    by_cases e : n' = n
    · subst e
      simp only [setProp, if_true, wfProps] at h ha ⊢
      exact ⟨h.1, h.2.1, ha.2.2⟩
    · simp only [setProp, if_neg e, wfProps] at ha ⊢
      exact ⟨ha.1, ha.2.1, ih ha.2.2⟩

theorem collapse_wf {cfg : Cfg} {C : CodecId → PropT m → Prop} {path : PyStr} {ps acc : Props m}
    (h : wfProps cfg C path ps) (ha : wfProps cfg C path acc) : wfProps cfg C path (collapse acc ps) := by
  induction ps generalizing acc with
  | nil => exact ha
  | cons a t ih =>
    obtain ⟨n, p⟩ := a
    simp only [collapse]
    refine ih ?_ (setProp_wf h ha)
    simp only [wfProps] at h
    exact h.2.2

/-- Length of the bytes of a list without the final "None". -/
def propsSize : Props m → Nat
  | [] => 0
  | (n, p) :: t => (eStr n ++ p.enc).length + propsSize t

theorem propsSize_eq (ps : Props m) : (encProps ps).length = propsSize ps + (eLit "None").length := by
  induction ps with
  | nil => simp only [encProps, propsSize, Nat.zero_add]
  | cons a t ih =>
    obtain ⟨n, p⟩ := a
    simp only [encProps, propsSize, PropT.enc, List.length_append, ih]
    omega

theorem entry_pos (n : Str) (p : PropT m) : 0 < (eStr n ++ p.enc).length := by
  simp only [PropT.enc, List.length_append, lit_length]
  omega

theorem setProp_size (n : Str) (p : PropT m) (acc : Props m) :
    propsSize (setProp n p acc) ≤ propsSize acc + (eStr n ++ p.enc).length ∧
    (n ∈ acc.map Prod.fst → propsSize (setProp n p acc) < propsSize acc + (eStr n ++ p.enc).length) := by
  induction acc with
  | nil => simp [setProp, propsSize]
  | cons a t ih =>
    obtain ⟨n', p'⟩ := a
    have := entry_pos n' p'
    by_cases e : n' = n
    · subst e
      simp only [setProp, if_true, propsSize]
      exact ⟨by omega, fun _ => by omega⟩
    · simp only [setProp, if_neg e, propsSize, List.map_cons, List.mem_cons, Ne.symm e, false_or]
      exact ⟨by omega, fun h => by have := ih.2 h; omega⟩

theorem collapse_size (ps acc : Props m) (ha : (acc.map Prod.fst).Nodup) :
    propsSize (collapse acc ps) ≤ propsSize acc + propsSize ps ∧
    (¬ ((acc ++ ps).map Prod.fst).Nodup → propsSize (collapse acc ps) < propsSize acc + propsSize ps) := by
  induction ps generalizing acc with
  | nil =>
    simp only [collapse, propsSize, List.append_nil, Nat.add_zero]
    exact ⟨Nat.le_refl _, fun h => absurd ha h⟩
  | cons a t ih =>
    obtain ⟨n, p⟩ := a
    obtain ⟨h1, h2⟩ := ih (setProp n p acc) (setProp_nodup _ _ _ ha)
    obtain ⟨h3, h4⟩ := setProp_size n p acc
    simp only [collapse, propsSize]
    refine ⟨by omega, fun h => ?_⟩
    by_cases hn : n ∈ acc.map Prod.fst
    · have := h4 hn; omega
    · have := h2 (by
        rw [List.map_append, setProp_keys, if_neg hn]
        simpa using h)
      omega

/-- C50: distinct names are kept, in file order. -/
theorem C50_order (cfg : Cfg) (hcfg : cfg.allowNan = m.an) (hc : m.json = true → CfgJson cfg) (f : File m)
    (hw : f.Wf cfg) :
    ∃ g d, gvasRead cfg f.enc = .ok g ∧ g.properties = .dict d ∧ d.map Prod.fst = f.props.map fun e => e.1.val :=
  ⟨_, _, file_read hcfg hc f hw, rfl, by rw [valProps_keys, List.map_map]; rfl⟩

/-- C50: when names are repeated, what is read is the list in which each name keeps its first place and
gets its last contents; writing this gives a valid but shorter file, so such a file does
not round-trip. -/
theorem C50_duplicates (cfg B : Cfg) (hB : ∀ p c, cfg.custom p = some c → B.custom p = some c)
    (hcfg : cfg.allowNan = m.an) (hc : m.json = true → CfgJson cfg) (h : Header) (ps : Props m) (t : Bytes)
    (hw : wfProps cfg (Canon cfg) [] ps) (h64 : (encProps ps).length < 2 ^ 64) (hd : ¬ (ps.map Prod.fst).Nodup) :
    ∃ g g', gvasRead cfg (h.enc ++ encProps ps ++ t) = .ok g ∧
      gvasRead cfg (h.enc ++ encProps (collapse [] ps) ++ t) = .ok g ∧
      g.write B = .ok (h.enc ++ encProps (collapse [] ps) ++ t, g') ∧
      (encProps (collapse [] ps)).length < (encProps ps).length := by
  have hlen : (encProps (collapse [] ps)).length < (encProps ps).length := by
    rw [propsSize_eq, propsSize_eq]
    have := (collapse_size ps [] (by simp)).2 (by simpa using hd)
    simp only [propsSize] at this
    omega
  have hw' : File.Wf cfg (⟨h, collapse [] ps, t⟩ : File m) := by
    refine ⟨?_, by simp only; omega⟩
    simp only [SVal.Wf]
    exact ⟨collapse_nodup _ _ (by simp), collapse_wf hw (by simp only [wfProps])⟩
  obtain ⟨g', hg'⟩ := file_write hcfg hc hB _ hw'
  have h1 := file_read hcfg hc _ hw'
  suffices h2 : gvasRead cfg (h.enc ++ encProps ps ++ t) = .ok (fileOf cfg (⟨h, collapse [] ps, t⟩ : File m)) by
    generalize fileOf cfg (⟨h, collapse [] ps, t⟩ : File m) = g at h1 h2 hg'
    exact ⟨g, g', h2, h1, hg', hlen⟩
  have := fun n hn => props_read hcfg ps (Canon cfg) (readsCustom_canon hcfg hc) [] n [] t hw hn h64
  have hv := valProps_collapse cfg (decK m.an cfg) [] ps []
  simp only [valProps] at hv
  rw [hv] at this
  exact gvasRead_of this

def dupProps : Props jsonMode :=
  [(str "A", .int none 1), (str "B", .bool true none), (str "A", .str none (str "again"))]

example := C50_duplicates (m := jsonMode) Cfg.empty fullCfg (by intro p c h; cases h) rfl (fun _ => empty_json) sampleHeader dupProps
  [0, 0, 0, 0]
  (wf_plain (by decide +kernel) rfl (by simp only [PropT.Wf]) (wf_plain (by decide +kernel) rfl (by simp only [PropT.Wf])
    (wf_plain (by decide +kernel) rfl (by simp only [PropT.Wf]) wf_nil)))
  (by decide +kernel) (by decide +kernel)

example : collapse [] dupProps = [(str "A", .str none (str "again")), (str "B", .bool true none)] := by rfl

example := C50_order fullCfg rfl (fun _ => palCfg_json _ _) sampleFile sampleFile_wf

theorem collapse_names (ps acc : Props m) : (collapse acc ps).map Prod.fst =
    acc.map Prod.fst ++ ((ps.map Prod.fst).filter fun x => decide (x ∉ acc.map Prod.fst)).eraseDups := by
  induction ps generalizing acc with
  | nil => simp [collapse]
  | cons a t ih =>
    obtain ⟨n, p⟩ := a
    simp only [collapse]
    rw [ih, setProp_keys]
    by_cases hn : n ∈ acc.map Prod.fst
    · rw [if_pos hn]
      simp only [List.map_cons, List.filter_cons, hn, not_true_eq_false, decide_false, Bool.false_eq_true, if_false]
    · rw [if_neg hn]
      simp only [List.map_cons, List.filter_cons, hn, not_false_eq_true, decide_true, if_true, List.eraseDups_cons,
        List.filter_filter, List.append_assoc, List.singleton_append]
      congr 4
      funext x
      simp only [List.mem_append, List.mem_singleton, not_or]
      by_cases h1 : x = n <;> by_cases h2 : x ∈ acc.map Prod.fst <;> simp [h1, h2]
      exact fun h => h1 (Subtype.ext h)

/-- C50: the place of a name is its first place: names are listed in the order of first occurrence. -/
theorem C50_collapse_names (ps : Props m) : (collapse [] ps).map Prod.fst = (ps.map Prod.fst).eraseDups := by
  rw [collapse_names]
  simp

theorem mem_setProp (n : Str) (p : PropT m) (acc : Props m) (ha : (acc.map Prod.fst).Nodup) (x : Str) (q : PropT m) :
    (x, q) ∈ setProp n p acc ↔ (x = n ∧ q = p) ∨ (x ≠ n ∧ (x, q) ∈ acc) := by
  induction acc with
  | nil => simp [setProp]
  | cons a t ih =>
    obtain ⟨n', p'⟩ := a
    simp only [List.map_cons, List.nodup_cons] at ha
    by_cases e : n' = n
    · subst e
      have : ∀ q, (n', q) ∉ t := fun q h => ha.1 (List.mem_map_of_mem (f := Prod.fst) h)
      simp only [setProp, if_true, List.mem_cons, Prod.mk.injEq]
      by_cases h : x = n'
      · subst h; simp [this]
      · simp [h]
    · simp only [setProp, if_neg e, List.mem_cons, Prod.mk.injEq, ih ha.2]
      by_cases h : x = n
      · subst h; simp [Ne.symm e]
      · simp [h]

theorem mem_collapse (ps acc : Props m) (ha : (acc.map Prod.fst).Nodup) (x : Str) (q : PropT m) :
    (x, q) ∈ collapse acc ps ↔
      (∃ a b, ps = a ++ (x, q) :: b ∧ x ∉ b.map Prod.fst) ∨ ((x, q) ∈ acc ∧ x ∉ ps.map Prod.fst) := by
  induction ps generalizing acc with
  | nil => simp [collapse]
  | cons e t ih =>
    obtain ⟨n, p⟩ := e
    simp only [collapse]
    rw [ih _ (setProp_nodup _ _ _ ha), mem_setProp _ _ _ ha]
    constructor
    · rintro (⟨a, b, rfl, h⟩ | ⟨⟨rfl, rfl⟩ | ⟨h1, h2⟩, h3⟩)
      · exact .inl ⟨(n, p) :: a, b, rfl, h⟩
      · exact .inl ⟨[], t, rfl, h3⟩
      · refine .inr ⟨h2, ?_⟩
        simp only [List.map_cons, List.mem_cons, not_or]
        exact ⟨h1, h3⟩
    · rintro (⟨a, b, h1, h2⟩ | ⟨h1, h2⟩)
      · cases a with
        | nil =>
          simp only [List.nil_append, List.cons.injEq, Prod.mk.injEq] at h1
          obtain ⟨⟨rfl, rfl⟩, rfl⟩ := h1
          exact .inr ⟨.inl ⟨rfl, rfl⟩, h2⟩
        | cons c a =>
          simp only [List.cons_append, List.cons.injEq] at h1
          exact .inl ⟨a, b, h1.2, h2⟩
      · simp only [List.map_cons, List.mem_cons, not_or] at h2
        exact .inr ⟨.inr ⟨h2.1, h1⟩, h2.2⟩

/-- C50: the contents are those of the last occurrence. -/
theorem C50_collapse_contents (ps : Props m) (n : Str) (p : PropT m) :
    (n, p) ∈ collapse [] ps ↔ ∃ a b, ps = a ++ (n, p) :: b ∧ n ∉ b.map Prod.fst := by
  rw [mem_collapse _ _ (by simp)]
  simp

/-! ### Further cases for C02 and C04 -/

/-- Without JSON also NaNs with a payload are kept. -/
def memMode : Mode := ⟨false, true⟩

def memFile : File memMode := ⟨sampleHeader,
  [(str "F", .float none ⟨0xffc00123, by unfold F32Ok; decide +kernel⟩), (str "N", .name none (str "név"))], [1]⟩

example := C02_identity (m := memMode) rfl Cfg.empty rfl memFile ⟨by
  simp only [SVal.Wf]
  exact ⟨by decide +kernel, wf_plain (by decide +kernel) rfl (by simp only [PropT.Wf])
    (wf_plain (by decide +kernel) rfl (by simp only [PropT.Wf]) wf_nil)⟩, by decide +kernel⟩

/-- A tree made by hand: the reader never gives an array of 64-bit integers, nor a bool for an integer. -/
def handMade : Val := vDict
  [("L", vDict [("type", .str (P "ArrayProperty")), ("array_type", .str (P "Int64Property")), ("id", .none),
      ("value", vDict [("values", .tuple [.int 5, .bool true, .int (-1)])])])]

example : ∃ w, wProps 10 Cfg.empty handMade = .ok (eLit "L" ++ eLit "ArrayProperty" ++ lit 8 28 ++ eLit "Int64Property" ++ [0] ++
    lit 4 3 ++ lit 8 5 ++ lit 8 1 ++ lit 8 (2 ^ 64 - 1) ++ eLit "None", w) := ⟨_, rfl⟩

example : JOk true handMade := by
  simp only [handMade, vDict, List.map, JOk, JOkL, JOkD, NoTuple, implies_true, and_true, true_and]
  decide +kernel

end Pal
