import Verif.Lemmas.Put
import Verif.Lemmas.TreeWrite
import Verif.Lemmas.TreeJson
import Verif.Lemmas.BlobOk
/-
Decoding the properties described by `Canon` and encoding the result: for each custom
property, `Undo`.
-/

set_option linter.unusedSimpArgs false

namespace Pal
open Spec

variable {m : Mode} {N : Nat}

/-! ### single blobs -/

/-- The "value" of a byte array. -/
def rawVal (b : Bytes) : Val := vDict [("values", vBytesT b)]

theorem rawVal_get (b : Bytes) : (rawVal b).get (P "values") = .ok (vBytesT b) := by
  simp [rawVal, wr]

theorem onValues_raw (f : Val → Except Err Val) (b : Bytes) : onValues f (rawVal b) = f (vBytesT b) := by
  simp only [onValues, rawVal_get]

theorem nt_values {a b : Val} : NT (P "values") a b := by
  intro h
  exact absurd h (by decide +kernel)

theorem sim_raw {b : Bytes} {x : Val} (h : Sim true (vBytesT b) x) : Sim true (rawVal b) (dct [("values", x)]) := by
  refine .dict ?_
  exact .cons _ h nt_values .nil

theorem sim_intList (b : Bytes) : Sim true (vBytesT b) (intList b) := .tupleList (simL_refl _ _)
theorem sim_bytes (b : Bytes) : Sim true (vBytesT b) (.bytes b) := .tupleBytes b rfl

/-- A value made of constant keys that has no key "values". -/
def NoValues (v : Val) : Prop := v.contains (P "values") = .ok false

theorem unless_no {f : Val → Except Err Val} {v : Val} (h : NoValues v) : unlessValues f v = f v := by
  unfold unlessValues; rw [h]

theorem unless_raw {f : Val → Except Err Val} (x : Val) :
    unlessValues f (dct [("values", x)]) = .ok (dct [("values", x)]) := by
  unfold unlessValues
  rw [show (dct [("values", x)]).contains (P "values") = .ok true from ?_]
  have := contains_vDict [("values", x)] "values"
  simpa [vDict, dct] using this

theorem asList_ok {w : Val → Except Err Bytes} {v : Val} {b : Bytes} (h : w v = .ok b) :
    asValuesList w v = .ok (dct [("values", intList b)]) := by
  unfold asValuesList; rw [h]

theorem asBytes_ok {w : Val → Except Err Bytes} {v : Val} {b : Bytes} (h : w v = .ok b) :
    asValuesBytes w v = .ok (dct [("values", .bytes b)]) := by
  unfold asValuesBytes; rw [h]

theorem undo_list {f : Nat → Val → Except Err Val} {w : Nat → Val → Except Err Bytes} {b : Bytes} {v : Val}
    (hf : ∀ n, N < n → f n (vBytesT b) = .ok v) (hw : ∀ n, N < n → w n v = .ok b)
    (hj : m.json = true → JOk m.an v) (hn : NoTuple v) :
    Undo m N (fun n => onValues (f n)) (fun n => asValuesList (w n)) (rawVal b) := by
  refine ⟨v, _, fun n hn => ⟨(onValues_raw _ b).trans (hf n hn), asList_ok (hw n hn)⟩, hj, hn, sim_raw (sim_intList b)⟩

theorem undo_unlessList {f : Nat → Val → Except Err Val} {w : Nat → Val → Except Err Bytes} {b : Bytes} {v : Val}
    (hf : ∀ n, N < n → f n (vBytesT b) = .ok v) (hw : ∀ n, N < n → w n v = .ok b)
    (hj : m.json = true → JOk m.an v) (hn : NoTuple v) (hv : NoValues v) :
    Undo m N (fun n => onValues (f n)) (fun n => unlessValues (asValuesList (w n))) (rawVal b) := by
  refine ⟨v, _, fun n hn => ⟨(onValues_raw _ b).trans (hf n hn), (unless_no hv).trans (asList_ok (hw n hn))⟩, hj, hn,
    sim_raw (sim_intList b)⟩

theorem undo_unlessBytes {f : Nat → Val → Except Err Val} {w : Nat → Val → Except Err Bytes} {b : Bytes} {v : Val}
    (hf : ∀ n, N < n → f n (vBytesT b) = .ok v) (hw : ∀ n, N < n → w n v = .ok b)
    (hj : m.json = true → JOk m.an v) (hn : NoTuple v) (hv : NoValues v) :
    Undo m N (fun n => onValues (f n)) (fun n => unlessValues (asValuesBytes (w n))) (rawVal b) := by
  refine ⟨v, _, fun n hn => ⟨(onValues_raw _ b).trans (hf n hn), (unless_no hv).trans (asBytes_ok (hw n hn))⟩, hj, hn,
    sim_raw (sim_bytes b)⟩

/-- The bytes are kept as they are. -/
theorem undo_keep {f g : Nat → Val → Except Err Val} {b : Bytes} {x : Val}
    (hf : ∀ n, N < n → f n (vBytesT b) = .ok (dct [("values", x)])) (hx : JOk m.an x) (hs : Sim true (vBytesT b) x) :
    Undo m N (fun n => onValues (f n)) (fun n => unlessValues (g n)) (rawVal b) := by
  refine ⟨_, _, fun n hn => ⟨(onValues_raw _ b).trans (hf n hn), unless_raw x⟩, fun _ => ?_, trivial, sim_raw hs⟩
  have : dct [("values", x)] = vDict [("values", x)] := rfl
  rw [this]
  clear hf hs
  jok_tac

theorem emptyOr_nil (d : Val) (x : R Val) : emptyOr d (vBytesT []) x = .ok d := rfl

theorem blob_run {x : Nat → R Val} {b : Bytes} {v : Val} (h : ∀ n, N < n → x n b = .ok (v, [])) :
    ∀ n, N < n → runBlob (vBytesT b) (x n) = .ok v := fun n hn => runBlob_T (h n hn)

theorem blob_or {x : Nat → R Val} {b : Bytes} {v d : Val} (hb : b ≠ []) (h : ∀ n, N < n → x n b = .ok (v, [])) :
    ∀ n, N < n → emptyOr d (vBytesT b) (x n) = .ok v := fun n hn => emptyOr_T hb (h n hn)

/-- An empty blob shown as null. -/
theorem undo_none {x : Nat → R Val} {w : Nat → Val → Except Err Bytes} :
    Undo m N (fun n => onValues fun t => emptyOr .none t (x n)) (fun n => asValuesList (noneOr (w n))) (rawVal []) :=
  undo_list (v := .none) (fun _ _ => rfl) (fun _ _ => rfl) (fun _ => by simp only [JOk]) trivial

/-! ### embedded property lists -/

theorem obj_ok {cfg : Cfg} (hcfg : cfg.allowNan = m.an) (hc : m.json = true → CfgJson cfg) (ps : Props m) (n : Nat)
    (hn : (encProps ps).length < n) (h64 : (encProps ps).length < 2 ^ 64) (hw : ObjWf cfg ps) :
    ObjOk m (rPropsLoop cfg n [] []) (bytesOf n) (objOf cfg ps) where
  read := by
    intro rest
    have := props_read hcfg ps noCustom (readsCustom_no cfg plainK) [] n [] rest hw.2 hn h64
    rw [dupdate_nodup] at this
    · exact this
    · rw [List.nil_append, valProps_keys]
      exact List.Nodup.map Subtype.val_injective hw.1
  write := bytesOf_ok.2 (props_write ps noCustom (writesCustom_no cfg Cfg.empty plainK) [] n hw.2 hn h64)
  jok := by
    intro hj
    simp only [objOf, JOk]
    refine ⟨?_, props_jok hj (hc hj) ps noCustom (jsonCustom_no cfg plainK) [] hw.2 h64⟩
    rw [valProps_keys]
    exact List.Nodup.map Subtype.val_injective hw.1

/-! ### bytes that are not an egg -/

/-- The string at the beginning of the bytes extends to their end or beyond. -/
def Overruns (b : Bytes) : Prop :=
  b.length ≤ 4 + if leNat (b.take 4) < 2 ^ 31 then leNat (b.take 4) else 2 * (2 ^ 32 - leNat (b.take 4))

theorem rFString_overruns {b : Bytes} (h : Overruns b) :
    (∃ s, rFString b = .ok (s, [])) ∨ rFString b = .error .struct ∨
      rFString b = .error (.exc "Error decoding utf-16-le string") ∨
      rFString b = .error (.exc "Error decoding ascii string") := by
  unfold Overruns at h
  have hlt : leNat (b.take 4) < 2 ^ 32 := by
    have := leNat_lt (b.take 4)
    have h4 : (b.take 4).length ≤ 4 := by simp
    have h5 : (256 : Nat) ^ (b.take 4).length ≤ 256 ^ 4 := Nat.pow_le_pow_right (by decide) h4
    omega
  generalize hx : leNat (b.take 4) = x at h hlt
  by_cases h4 : 4 ≤ b.length
  · have hI : ∃ i : Int, rI32 b = .ok (i, b.drop 4) ∧ i = if x < 2 ^ 31 then (x : Int) else (x : Int) - 2 ^ 32 := by
      refine ⟨_, ?_, rfl⟩
      rw [← hx]
      unfold rI32 rSigned
      rw [if_pos h4]
      have e1 : (256 : Nat) ^ 4 = 2 ^ 32 := by decide +kernel
      have e2 : (256 : Int) ^ 4 = 2 ^ 32 := by decide +kernel
      simp only [e1, e2]
      have e3 : (2 * leNat (b.take 4) < 2 ^ 32) = (leNat (b.take 4) < 2 ^ 31) := by
        apply propext; omega
      simp only [e3]
    obtain ⟨i, h1, h2⟩ := hI
    have hd : ∀ k, (b.drop 4).length ≤ k → (b.drop 4).drop k = [] := fun k hk => List.drop_eq_nil_of_le hk
    rw [List.length_drop] at hd
    unfold rFString
    rw [r_bind_ok h1]
    split
    · rename_i h0
      left
      refine ⟨[], ?_⟩
      have : x = 0 := by split at h2 <;> omega
      rw [if_pos (by omega)] at h
      have h3 : b.drop 4 = [] := List.drop_eq_nil_of_le (by omega)
      rw [h3]; rfl
    · split
      · rename_i h0 hneg
        have hd := hd (2 * i.natAbs) (by split at h2 <;> split at h <;> omega)
        simp only [rRead, r_bind, hd]
        generalize utf16Decode _ = o
        cases o with
        | some s => exact .inl ⟨_, rfl⟩
        | none => exact .inr (.inr (.inl rfl))
      · rename_i h0 hneg
        have hd := hd i.natAbs (by split at h2 <;> split at h <;> omega)
        simp only [rRead, r_bind, hd]
        generalize asciiDecode _ = o
        cases o with
        | some s => exact .inl ⟨_, rfl⟩
        | none => exact .inr (.inr (.inr rfl))
  · right; left
    unfold rFString
    rw [r_bind_error (e := .struct)]
    unfold rI32 rSigned
    rw [if_neg h4]

theorem rPropsLoop_nil (cfg : Cfg) {n : Nat} (hn : 0 < n) (path : PyStr) (acc : Dict) :
    rPropsLoop cfg n path acc [] = .error .struct := by
  cases n with
  | zero => omega
  | succ n => rfl

theorem notEgg_overruns (cfg : Cfg) {n : Nat} (hn : 0 < n) {b : Bytes} (h : Overruns b) :
    NotEgg (rPropsLoop cfg n [] []) b := by
  unfold NotEgg eggDecode
  have hs : ∀ e, rFString b = .error e → rStr b = .error e := fun e he => by
    unfold rStr; rw [r_bind_error he]
  rcases rFString_overruns h with ⟨s, h⟩ | h | h | h
  · refine ⟨.struct, ?_, by simp, by simp⟩
    have : rStr b = .ok (.str s, []) := by unfold rStr; rw [r_bind_ok h]; rfl
    rw [r_bind_ok this, r_bind_error (rPropsLoop_nil cfg hn [] [])]
  · exact ⟨_, r_bind_error (hs _ h) _, by simp, by simp⟩
  · exact ⟨_, r_bind_error (hs _ h) _, by decide +kernel, by simp⟩
  · exact ⟨_, r_bind_error (hs _ h) _, by decide +kernel, by simp⟩

theorem overruns_four {b : Bytes} (h : b.length = 4) : Overruns b := by
  unfold Overruns; omega

theorem notEgg_bytes (cfg : Cfg) {b : Bytes} (h : Overruns b) : NotEggBytes cfg b :=
  fun _ _ hn => notEgg_overruns _ (by omega) h

/-! ### places in trees -/

theorem entries_path (cfg : Cfg) (path : PyStr) (x : Val) (q : PropT m) (t : List PyStr) :
    (vDict (q.entries cfg path x)).path (P "value" :: t) = x.path t := by
  have h : (vDict (q.entries cfg path x)).get (P "value") = .ok x := by
    cases q <;> simp [PropT.entries, wr]
  simp only [Val.path, h]

theorem has_get {cfg : Cfg} (K : CodecId → Val → Val) {path : PyStr} {ps : Props m} {name : String} {q : PropT m}
    (hw : (SVal.props ps).Wf cfg noCustom path) (h : Has ps name q) :
    ∃ path', q.Wf cfg noCustom path' ∧ q.tail.length ≤ (encProps ps).length ∧
      dget? (valProps cfg K path ps) (P name) = some (vDict (q.entries cfg path' (q.val cfg K path'))) := by
  obtain ⟨nm, hn, hm⟩ := h
  simp only [SVal.Wf] at hw
  obtain ⟨hd, hw⟩ := hw
  refine ⟨sub path nm, ?_⟩
  induction ps with
  | nil => cases hm
  | cons a t ih =>
    obtain ⟨n', p'⟩ := a
    simp only [wfProps] at hw
    obtain ⟨h1, h2, h3⟩ := hw
    simp only [List.map_cons, List.nodup_cons] at hd
    simp only [encProps, List.length_append, valProps, dget?]
    rw [List.mem_cons] at hm
    rcases hm with hm | hm
    · cases hm
      have hc : cfg.custom (sub path nm) = none := by
        cases hc : cfg.custom (sub path nm) with
        | none => rfl
        | some c => rw [hc] at h2; exact absurd h2.2.1 id
      rw [hc] at h2
      refine ⟨h2, by omega, ?_⟩
      rw [if_pos hn]
      simp only [showProp, hc]
    · have hne : n'.val ≠ P name := by
        intro e
        have : n' = nm := Subtype.ext (e.trans hn.symm)
        subst this
        exact hd.1 (List.mem_map_of_mem (f := Prod.fst) hm)
      obtain ⟨e1, e2, e3⟩ := ih hm hd.2 h3
      rw [if_neg hne]
      exact ⟨e1, by omega, e3⟩

theorem has_path {cfg : Cfg} (K : CodecId → Val → Val) {path : PyStr} {ps : Props m} {name : String} {q : PropT m}
    (hw : (SVal.props ps).Wf cfg noCustom path) (h : Has ps name q) :
    ∃ path', q.Wf cfg noCustom path' ∧ q.tail.length ≤ (encProps ps).length ∧
      ∀ t, (Val.dict (valProps cfg K path ps)).path (P name :: P "value" :: t) = (q.val cfg K path').path t := by
  obtain ⟨path', h1, h2, h3⟩ := has_get K hw h
  refine ⟨path', h1, h2, fun t => ?_⟩
  rw [path_dict h3, entries_path]

theorem raw_path {cfg : Cfg} (K : CodecId → Val → Val) {path : PyStr} {ps : Props m} {b : Bytes}
    (hw : (SVal.props ps).Wf cfg noCustom path) (h : RawIs ps b) :
    (Val.dict (valProps cfg K path ps)).path [P "RawData", P "value"] = .ok (rawVal b) ∧
      b.length < 2 ^ 32 ∧ b.length ≤ (encProps ps).length := by
  obtain ⟨id, h⟩ := h
  obtain ⟨path', h1, h2, h3⟩ := has_path K hw h
  simp only [PropT.Wf] at h1
  simp only [PropT.tail, List.length_append] at h2
  refine ⟨h3 [], h1, by omega⟩

theorem struct_path {cfg : Cfg} (K : CodecId → Val → Val) {path : PyStr} {ps qs : Props m} {name : String}
    (hw : (SVal.props ps).Wf cfg noCustom path) (h : HasStruct ps name qs) :
    ∃ path', (SVal.props qs).Wf cfg noCustom path' ∧ (encProps qs).length ≤ (encProps ps).length ∧
      ∀ t, (Val.dict (valProps cfg K path ps)).path (P name :: P "value" :: t) =
        (Val.dict (valProps cfg K path' qs)).path t := by
  obtain ⟨st, sid, id, h⟩ := h
  obtain ⟨path', h1, h2, h3⟩ := has_path K hw h
  simp only [PropT.Wf] at h1
  simp only [PropT.tail, SVal.enc] at h2
  refine ⟨path', h1.2, h2, fun t => ?_⟩
  rw [h3 t]
  simp only [PropT.val, SVal.val]

theorem enum_path {cfg : Cfg} (K : CodecId → Val → Val) {path : PyStr} {ps : Props m} {name : String} {s : PyStr}
    (hw : (SVal.props ps).Wf cfg noCustom path) (h : HasEnum ps name s) :
    (Val.dict (valProps cfg K path ps)).path [P name, P "value", P "value"] = .ok (.str s) := by
  obtain ⟨et, id, v, h, rfl⟩ := h
  obtain ⟨path', h1, h2, h3⟩ := has_path K hw h
  rw [h3]
  simp [PropT.val, Val.path, wr, vStr]

theorem map_path {cfg : Cfg} (K : CodecId → Val → Val) {path : PyStr} {ps : Props m} {name : String}
    {l : List (MVal m × MVal m)} (hw : (SVal.props ps).Wf cfg noCustom path) (h : HasMap ps name l) :
    ∃ path' kt vt, wfEntries cfg noCustom path' kt vt l ∧ (encEntries l).length ≤ (encProps ps).length ∧
      (Val.dict (valProps cfg K path ps)).path [P name, P "value"] = .ok (.list (valEntries cfg K path' l)) := by
  obtain ⟨kt, vt, id, h⟩ := h
  obtain ⟨path', h1, h2, h3⟩ := has_path K hw h
  simp only [PropT.Wf] at h1
  simp only [PropT.tail, List.length_append] at h2
  refine ⟨path', kt.val, vt.val, h1.2, by omega, ?_⟩
  rw [h3]
  simp only [PropT.val, Val.path]

theorem entries_mem {cfg : Cfg} {K : CodecId → Val → Val} {path kt vt : PyStr} {l : List (MVal m × MVal m)}
    (hw : wfEntries cfg noCustom path kt vt l) {x : Val} (hx : x ∈ valEntries cfg K path l) :
    ∃ e ∈ l, ∃ p1 p2 st, x = vDict [("key", e.1.val cfg K p1), ("value", e.2.val cfg K p2)] ∧
      e.2.Wf cfg noCustom p2 st ∧ e.2.enc.length ≤ (encEntries l).length := by
  induction l with
  | nil => cases hx
  | cons a t ih =>
    obtain ⟨k, v⟩ := a
    simp only [wfEntries] at hw
    simp only [valEntries, List.mem_cons] at hx
    simp only [encEntries, List.length_append]
    rcases hx with rfl | hx
    · exact ⟨(k, v), by simp, _, _, _, rfl, hw.2.2.2.1, by simp only; omega⟩
    · obtain ⟨e, he, p1, p2, st, h1, h2, h3⟩ := ih hw.2.2.2.2 hx
      exact ⟨e, by simp [he], p1, p2, st, h1, h2, by omega⟩

theorem svals_mem {cfg : Cfg} {K : CodecId → Val → Val} {path st : PyStr} {l : List (SVal m)}
    (hw : wfSVals cfg noCustom path st l) {x : Val} (hx : x ∈ valSVals cfg K path l) :
    ∃ e ∈ l, x = e.val cfg K path ∧ e.Wf cfg noCustom path ∧ e.enc.length ≤ (encSVals l).length := by
  induction l with
  | nil => cases hx
  | cons a t ih =>
    simp only [wfSVals] at hw
    simp only [valSVals, List.mem_cons] at hx
    simp only [encSVals, List.length_append]
    rcases hx with rfl | hx
    · exact ⟨a, by simp, rfl, hw.2.1, by omega⟩
    · obtain ⟨e, he, h1, h2, h3⟩ := ih hw.2.2 hx
      exact ⟨e, by simp [he], h1, h2, by omega⟩

theorem entry_path (a b : Val) (t : List PyStr) :
    (vDict [("key", a), ("value", b)]).path (P "value" :: t) = b.path t := by
  have h : (vDict [("key", a), ("value", b)]).get (P "value") = .ok b := by simp [wr]
  simp only [Val.path, h]

theorem entry_key (a b : Val) : (vDict [("key", a), ("value", b)]).path [P "key"] = .ok a := by
  have h : (vDict [("key", a), ("value", b)]).get (P "key") = .ok a := by simp [wr]
  simp only [Val.path, h]

/-- The raw data of a map value. -/
theorem rawValue_path {cfg : Cfg} (K : CodecId → Val → Val) {v : MVal m} {b : Bytes} {p2 st : PyStr} (a : Val)
    (hw : v.Wf cfg noCustom p2 st) (h : RawValue v b) :
    (vDict [("key", a), ("value", v.val cfg K p2)]).path (ks ["value", "RawData", "value"]) = .ok (rawVal b) ∧
      b.length < 2 ^ 32 ∧ b.length ≤ v.enc.length := by
  obtain ⟨ps, rfl, h⟩ := h
  simp only [MVal.Wf] at hw
  obtain ⟨h1, h2⟩ := raw_path K hw.2 h
  simp only [MVal.enc, SVal.enc, MVal.val, SVal.val, ks, List.map_cons, List.map_nil]
  refine ⟨?_, h2⟩
  rw [entry_path]
  exact h1

theorem keyIs_val {cfg : Cfg} (K : CodecId → Val → Val) {k : MVal m} {s : PyStr} (path : PyStr) (h : KeyIs k s) :
    k.val cfg K path = .str s := by
  obtain ⟨t, rfl, rfl | rfl⟩ := h <;> simp only [MVal.val, vStr]

theorem raw_noTuple (b : Bytes) : ∀ l, rawVal b ≠ .tuple l := by
  intro l h; cases h

end Pal
