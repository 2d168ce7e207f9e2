import Verif.Lemmas.TreeCustom
import Verif.Lemmas.WfSub
import Verif.Props.Header
import Verif.Props.Blobs
import Verif.Model.PalTypes
/-
C01, C02, C03, C04, C08, C48, C27: whole files.

`m` says how the file is transported (`m.json`) and whether infinities are kept (`m.an`);
it restricts the floats of the file to those the transport can represent.
-/

namespace Pal
open Spec

variable {m : Mode}

/-! ### reading and writing whole files -/

/-- The object a reader makes of a file. -/
noncomputable def fileOf (cfg : Cfg) (f : File m) : Gvas :=
  ⟨hdrOf f.header, .dict (valProps cfg (decK m.an cfg) [] f.props), f.trailer⟩

theorem valProps_nodup (cfg : Cfg) (K : CodecId → Val → Val) (path : PyStr) (ps : Props m)
    (h : (ps.map Prod.fst).Nodup) : ((valProps cfg K path ps).map Prod.fst).Nodup := by
  rw [valProps_keys]
  exact List.Nodup.map Subtype.val_injective h

theorem file_props {cfg : Cfg} (hcfg : cfg.allowNan = m.an) (hc : m.json = true → CfgJson cfg) (f : File m)
    (hw : f.Wf cfg) (n : Nat) (hn : (encProps f.props).length < n) (rest : Bytes) :
    rProps cfg n [] (encProps f.props ++ rest) = .ok (.dict (valProps cfg (decK m.an cfg) [] f.props), rest) := by
  obtain ⟨h1, h2⟩ := hw
  simp only [SVal.Wf] at h1
  have := props_read hcfg f.props (Canon cfg) (readsCustom_canon hcfg hc) [] n [] rest h1.2 hn h2
  rw [dupdate_nodup] at this
  · exact this
  · rw [List.nil_append]
    exact valProps_nodup _ _ _ _ h1.1

theorem gvasRead_of {cfg : Cfg} {h : Header} {b t : Bytes} {v : Val}
    (hr : ∀ n, b.length < n → rProps cfg n [] (b ++ t) = .ok (v, t)) :
    gvasRead cfg (h.enc ++ b ++ t) = .ok ⟨hdrOf h, v, t⟩ := by
  have h1 := hdrRead_enc h (b ++ t)
  have h2 := hr ((h.enc ++ b ++ t).length + 1) (by simp only [List.length_append]; omega)
  generalize hN : (h.enc ++ b ++ t).length + 1 = N at h2
  unfold gvasRead gvasReadR
  rw [hN, List.append_assoc, r_bind_ok h1, r_bind_ok h2]
  rfl

theorem file_read {cfg : Cfg} (hcfg : cfg.allowNan = m.an) (hc : m.json = true → CfgJson cfg) (f : File m)
    (hw : f.Wf cfg) : gvasRead cfg f.enc = .ok (fileOf cfg f) :=
  gvasRead_of fun n hn => file_props hcfg hc f hw n hn f.trailer

/-- What a budget large enough writes is written. -/
theorem wProps_rank {cfg : Cfg} {v : Val} {n : Nat} {b : Bytes} (h : ∀ n', n ≤ n' → Wrote (wProps n' cfg v) b) :
    Wrote (wProps (v.rank + 1) cfg v) b := by
  have := h (max n (v.rank + 1)) (by omega)
  rwa [wProps_enough (Nat.lt_succ_self _) (by omega)] at this

theorem write_of {g : Gvas} {cfg : Cfg} {hb pb : Bytes} (h1 : g.header.write = .ok hb)
    (h2 : Wrote (wProps (g.properties.rank + 1) cfg g.properties) pb) :
    ∃ g', g.write cfg = .ok (hb ++ pb ++ g.trailer, g') := by
  obtain ⟨v, h2⟩ := h2
  exact ⟨{ g with properties := v }, by simp only [Gvas.write, Gvas.writeF, h1, h2]⟩

theorem of_write {g g' : Gvas} {cfg : Cfg} {b : Bytes} (h : g.write cfg = .ok (b, g')) :
    ∃ hb pb, g.header.write = .ok hb ∧ wProps (g.properties.rank + 1) cfg g.properties = .ok (pb, g'.properties) ∧
      b = hb ++ pb ++ g.trailer ∧ g' = { g with properties := g'.properties } := by
  simp only [Gvas.write, Gvas.writeF] at h
  cases h1 : g.header.write with
  | error e => rw [h1] at h; cases h
  | ok hb =>
    rw [h1] at h
    simp only at h
    cases h2 : wProps (g.properties.rank + 1) cfg g.properties with
    | error e => rw [h2] at h; cases h
    | ok x =>
      obtain ⟨pb, p'⟩ := x
      rw [h2] at h
      simp only [Except.ok.injEq, Prod.mk.injEq] at h
      obtain ⟨rfl, rfl⟩ := h
      exact ⟨hb, pb, rfl, rfl, rfl, rfl⟩

theorem file_write {cfg B : Cfg} (hcfg : cfg.allowNan = m.an) (hc : m.json = true → CfgJson cfg)
    (hB : ∀ p c, cfg.custom p = some c → B.custom p = some c) (f : File m) (hw : f.Wf cfg) :
    ∃ g', (fileOf cfg f).write B = .ok (f.enc, g') := by
  obtain ⟨h1, h2⟩ := hw
  simp only [SVal.Wf] at h1
  refine write_of (g := fileOf cfg f) (hdrWrite_of f.header) (wProps_rank (n := (encProps f.props).length + 1) ?_)
  intro n' hn'
  exact props_write f.props (Canon cfg) (writesCustom_canon hcfg hc hB) [] n' h1.2 (by omega) h2

theorem b64Encode_normal (b : Bytes) : Normal (b64Encode b) := ascii_normal _ (C27_base64 b).2

/-! ### JSON transport -/

theorem b64Decode_sim {a b : Val} (hs : Sim false a b) : Le (b64Decode a) (b64Decode b) := by
  intro r hr
  cases hs <;> first | exact hr | (simp only [b64Decode, reduceCtorEq] at hr)

/-- Loading related documents gives files that write the same. -/
theorem load_sim {a b : Val} (hs : Sim false a b) : ∀ g, Gvas.load a = .ok g →
    ∃ g', Gvas.load b = .ok g' ∧ (g'.trailer = g.trailer ∧ Sim false g.properties g'.properties ∧
      Le g.header.write g'.header.write ∧ Sim false g.header.className g'.header.className) := by
  unfold Gvas.load
  refine sim_bind_get hs (fun g g' : Gvas => g'.trailer = g.trailer ∧ Sim false g.properties g'.properties ∧
      Le g.header.write g'.header.write ∧ Sim false g.header.className g'.header.className) _ ?_
  intro x y hxy g hg
  cases hx : Hdr.load x with
  | error e => rw [hx] at hg; cases hg
  | ok h =>
    obtain ⟨h', h1, h2, h3⟩ := hdrLoad_sim hxy h hx
    rw [hx] at hg
    rw [h1]
    simp only [e_bind_ok] at hg ⊢
    refine sim_bind_get hs (fun g g' : Gvas => g'.trailer = g.trailer ∧ Sim false g.properties g'.properties ∧
      Le g.header.write g'.header.write ∧ Sim false g.header.className g'.header.className) _ ?_ g hg
    intro p p' hp
    refine sim_bind_get hs (fun g g' : Gvas => g'.trailer = g.trailer ∧ Sim false g.properties g'.properties ∧
      Le g.header.write g'.header.write ∧ Sim false g.header.className g'.header.className) _ ?_
    intro t t' ht g hg
    cases hb : b64Decode t with
    | error e => rw [hb] at hg; cases hg
    | ok r =>
      rw [hb] at hg
      rw [b64Decode_sim ht r hb]
      simp only [e_bind_ok] at hg ⊢
      cases hg
      exact ⟨_, rfl, rfl, hp, h2, h3⟩

theorem write_mono {A B : Cfg} (hc : ∀ p c, A.custom p = some c → B.custom p = some c) {g g' : Gvas}
    (ht : g'.trailer = g.trailer) (hs : Sim false g.properties g'.properties) (hh : Le g.header.write g'.header.write)
    {b : Bytes} {h : Gvas} (hw : g.write A = .ok (b, h)) : ∃ h', g'.write B = .ok (b, h') := by
  obtain ⟨hb, pb, h1, h2, rfl, h4⟩ := of_write hw
  rw [← ht]
  refine write_of (hh _ h1) (wProps_rank (n := g.properties.rank + 1) ?_)
  intro n' hn'
  refine mono_props n' (fun p c h => ⟨hc p c h, rfl⟩) _ _ hs pb ⟨h.properties, ?_⟩
  rw [wProps_enough (Nat.lt_succ_self _) hn', h2]

/-! ### C04 -/

/-- C04: for every document (not only those made by the reader) that survives JSON: if the file
object loaded from it can be written, then the document obtained through JSON is loaded
and written to exactly the same bytes. -/
theorem C04_document (an : Bool) (cfg : Cfg) (d : Val) (g h : Gvas) (b : Bytes) (hd : JOk an d)
    (hl : Gvas.load d = .ok g) (hw : g.write cfg = .ok (b, h)) :
    ∃ d' g' h', jsonRT an d = .ok d' ∧ Gvas.load d' = .ok g' ∧ g'.write cfg = .ok (b, h') := by
  obtain ⟨d', h1, h2⟩ := jok_json false an d hd
  obtain ⟨g', h3, h4, h5, h6, -⟩ := load_sim h2 g hl
  obtain ⟨h', h7⟩ := write_mono (fun _ _ h => h) h4 h5 h6 hw
  exact ⟨d', g', h', h1, h3, h7⟩

/-- C04: the same for a file object in memory that is dumped. -/
theorem C04_file (an : Bool) (cfg : Cfg) (g h : Gvas) (b : Bytes) (hd : JOk an g.dump)
    (hw : g.write cfg = .ok (b, h)) :
    ∃ d' g' h', jsonRT an g.dump = .ok d' ∧ Gvas.load d' = .ok g' ∧ g'.write cfg = .ok (b, h') :=
  C04_document an cfg _ g h b hd (C27_dump_load g) hw

/-- C04: the same for a property tree on its own (`FArchiveWriter.properties`), with any recursion budget. -/
theorem C04_tree (an : Bool) (cfg : Cfg) (n : Nat) (v w : Val) (b : Bytes) (hd : JOk an v)
    (hw : wProps n cfg v = .ok (b, w)) : ∃ v' w', jsonRT an v = .ok v' ∧ wProps n cfg v' = .ok (b, w') := by
  obtain ⟨v', h1, h2⟩ := jok_json false an v hd
  obtain ⟨w', h3⟩ := mono_props n (A := cfg) (B := cfg) (fun p c h => ⟨h, rfl⟩) _ _ h2 b ⟨w, hw⟩
  exact ⟨v', w', h1, h3⟩

/-! ### C01, C02, C08 -/

theorem file_jok {cfg : Cfg} (hj : m.json = true) (hcfg : cfg.allowNan = m.an) (hc : CfgJson cfg) (f : File m)
    (hw : f.Wf cfg) : JOk m.an (fileOf cfg f).dump := by
  obtain ⟨h1, h2⟩ := hw
  simp only [SVal.Wf] at h1
  have hp := props_jok hj hc f.props (Canon cfg) (jsonCustom_canon hj hcfg hc) [] h1.2 h2
  have hn := valProps_nodup cfg (decK m.an cfg) [] f.props h1.1
  have hh := hdr_jok m.an f.header
  have ht := b64Encode_normal f.trailer
  rw [← hdr_dump] at hh
  have hv : JOk m.an (fileOf cfg f).properties := by
    simp only [fileOf, JOk]
    exact ⟨hn, hp⟩
  unfold Gvas.dump
  rw [dct_eq]
  refine jok_dict _ _ (by simp only [List.map]; decide +kernel) ?_
  simp only [List.mem_cons, List.not_mem_nil, or_false, forall_eq_or_imp, forall_eq]
  refine ⟨hh, hv, ?_⟩
  simp only [JOk]
  exact ht

/-- C01: SAV to JSON to SAV is the identity on well-formed files, for every choice of type hints and
custom properties. -/
theorem C01_identity (hj : m.json = true) (cfg : Cfg) (hcfg : cfg.allowNan = m.an) (hc : CfgJson cfg) (f : File m)
    (hw : f.Wf cfg) :
    ∃ g d g' h, gvasRead cfg f.enc = .ok g ∧ jsonRT m.an g.dump = .ok d ∧ Gvas.load d = .ok g' ∧
      g'.write cfg = .ok (f.enc, h) := by
  obtain ⟨h, hwr⟩ := file_write hcfg (fun _ => hc) (B := cfg) (fun _ _ h => h) f hw
  obtain ⟨d, g', h', h1, h2, h3⟩ := C04_file m.an cfg _ _ _ (file_jok hj hcfg hc f hw) hwr
  exact ⟨_, d, g', h', file_read hcfg (fun _ => hc) f hw, h1, h2, h3⟩

/-- C02: reading and writing without JSON in between is the identity on well-formed files. -/
theorem C02_identity (hj : m.json = false) (cfg : Cfg) (hcfg : cfg.allowNan = m.an) (f : File m) (hw : f.Wf cfg) :
    ∃ g h, gvasRead cfg f.enc = .ok g ∧ g.write cfg = .ok (f.enc, h) := by
  have hc : m.json = true → CfgJson cfg := by rw [hj]; intro h; cases h
  obtain ⟨h, hwr⟩ := file_write hcfg hc (B := cfg) (fun _ _ h => h) f hw
  exact ⟨_, h, file_read hcfg hc f hw, hwr⟩

/-- C08: the custom properties enabled for reading do not matter: if a file is well-formed
for the writer's custom properties, then reading it with any selection of them and going
through JSON gives back the file. -/
theorem C08_json (hj : m.json = true) (A B : Cfg) (hs : Selects A B) (hcfg : B.allowNan = m.an) (hc : CfgJson A)
    (f : File m) (hw : f.Wf B) :
    ∃ g d g' h, gvasRead A f.enc = .ok g ∧ jsonRT m.an g.dump = .ok d ∧ Gvas.load d = .ok g' ∧
      g'.write B = .ok (f.enc, h) := by
  have hw := fileWf_sub hs hw
  have hcfg : A.allowNan = m.an := hs.nan.trans hcfg
  obtain ⟨h, hwr⟩ := file_write hcfg (fun _ => hc) hs.custom f hw
  obtain ⟨d, g', h', h1, h2, h3⟩ := C04_file m.an B _ _ _ (file_jok hj hcfg hc f hw) hwr
  exact ⟨_, d, g', h', file_read hcfg (fun _ => hc) f hw, h1, h2, h3⟩

/-- C08: the same in memory. -/
theorem C08_memory (hj : m.json = false) (A B : Cfg) (hs : Selects A B) (hcfg : B.allowNan = m.an)
    (f : File m) (hw : f.Wf B) : ∃ g h, gvasRead A f.enc = .ok g ∧ g.write B = .ok (f.enc, h) := by
  have hc : m.json = true → CfgJson A := by rw [hj]; intro h; cases h
  have hw := fileWf_sub hs hw
  have hcfg : A.allowNan = m.an := hs.nan.trans hcfg
  obtain ⟨h, hwr⟩ := file_write hcfg hc hs.custom f hw
  exact ⟨_, h, file_read hcfg hc f hw, hwr⟩

/-! ### the tool's own tables -/

theorem palHints_normal : ∀ kv ∈ palHints, Normal (P kv.2) := by decide +kernel
theorem palCustoms_normal : ∀ kv ∈ palCustoms, Normal (P kv.1) := by decide +kernel

theorem palCfg_json (keep : String → Bool) (an : Bool) : CfgJson (palCfg keep an) where
  hint := by
    intro p t h
    simp only [palCfg, palHint, Option.map_eq_some_iff] at h
    obtain ⟨kv, h1, rfl⟩ := h
    exact palHints_normal kv (List.mem_of_find?_eq_some h1)
  custom := by
    intro p c h
    simp only [palCfg, palCustom, Option.map_eq_some_iff] at h
    obtain ⟨kv, h1, rfl⟩ := h
    have h2 := List.find?_some h1
    simp only [Bool.and_eq_true, decide_eq_true_eq] at h2
    rw [← h2.2]
    exact palCustoms_normal kv (List.mem_of_find?_eq_some h1)

theorem palCfg_selects (keep : String → Bool) (an : Bool) : Selects (palCfg keep an) (palCfg (fun _ => true) an) where
  hint := rfl
  nan := rfl
  custom := by
    intro p c h
    simp only [palCfg, palCustom, Bool.true_and] at h ⊢
    rw [Option.map_eq_some_iff] at h ⊢
    obtain ⟨kv, h1, h2⟩ := h
    refine ⟨kv, ?_, h2⟩
    have h3 := List.find?_some h1
    simp only [Bool.and_eq_true, decide_eq_true_eq] at h3
    have h4 := List.mem_of_find?_eq_some h1
    obtain ⟨-, rfl⟩ := h3
    have : ∀ kv ∈ palCustoms, palCustoms.find? (fun x => decide (P x.1 = P kv.1)) = some kv := by decide +kernel
    exact this kv h4

/-- C08: `convert.py` with any selection `keep` of `--custom-properties`, then back (the writer always
knows the whole table): every well-formed file is restored. -/
theorem C08_palworld (keep : String → Bool) (f : File m) (hj : m.json = true)
    (hw : f.Wf (palCfg (fun _ => true) m.an)) :
    ∃ g d g' h, gvasRead (palCfg keep m.an) f.enc = .ok g ∧ jsonRT m.an g.dump = .ok d ∧
      Gvas.load d = .ok g' ∧ g'.write (palCfg (fun _ => true) m.an) = .ok (f.enc, h) :=
  C08_json hj _ _ (palCfg_selects keep m.an) rfl (palCfg_json keep m.an) f hw

/-- C01 with the tool's own tables. -/
theorem C01_palworld (f : File m) (hj : m.json = true) (hw : f.Wf (palCfg (fun _ => true) m.an)) :
    ∃ g d g' h, gvasRead (palCfg (fun _ => true) m.an) f.enc = .ok g ∧ jsonRT m.an g.dump = .ok d ∧
      Gvas.load d = .ok g' ∧ g'.write (palCfg (fun _ => true) m.an) = .ok (f.enc, h) :=
  C08_palworld _ f hj hw

/-! ### C03 -/

/-- C03: a property tree without custom properties, described by `valProps`, is written and read back;
the reader stops exactly at the end of what was written, whatever follows. -/
theorem C03_plain (cfg B : Cfg) (hcfg : cfg.allowNan = m.an) (ps : Props m)
    (hw : (SVal.props ps).Wf cfg noCustom []) (h64 : (encProps ps).length < 2 ^ 64) :
    ∃ b w, wProps ((Val.dict (valProps cfg plainK [] ps)).rank + 1) B (.dict (valProps cfg plainK [] ps)) = .ok (b, w) ∧
      ∀ rest n, b.length < n → rProps cfg n [] (b ++ rest) = .ok (.dict (valProps cfg plainK [] ps), rest) := by
  simp only [SVal.Wf] at hw
  obtain ⟨w, h⟩ := wProps_rank (n := (encProps ps).length + 1) fun n' hn' =>
    props_write ps noCustom (writesCustom_no cfg B plainK) [] n' hw.2 (by omega) h64
  refine ⟨encProps ps, w, h, fun rest n hn => ?_⟩
  have := props_read hcfg ps noCustom (readsCustom_no cfg plainK) [] n [] rest hw.2 hn h64
  rw [dupdate_nodup] at this
  · exact this
  · rw [List.nil_append]
    exact valProps_nodup _ _ _ _ hw.1

/-- C03: with custom properties: a tree read from a well-formed file is written, and read
back from what was written, whatever follows. -/
theorem C03_custom (cfg B : Cfg) (hB : ∀ p c, cfg.custom p = some c → B.custom p = some c)
    (hcfg : cfg.allowNan = m.an) (hc : m.json = true → CfgJson cfg) (f : File m) (hw : f.Wf cfg) (g : Gvas)
    (hg : gvasRead cfg f.enc = .ok g) :
    ∃ b w, wProps (g.properties.rank + 1) B g.properties = .ok (b, w) ∧
      ∀ rest n, b.length < n → rProps cfg n [] (b ++ rest) = .ok (g.properties, rest) := by
  rw [file_read hcfg hc f hw] at hg
  injection hg with hg
  subst hg
  obtain ⟨w, h⟩ := wProps_rank (n := (encProps f.props).length + 1) fun n' hn' =>
    props_write f.props (Canon cfg) (writesCustom_canon (m := m) hcfg hc hB) [] n'
      (by have := hw.1; simp only [SVal.Wf] at this; exact this.2) (by omega) hw.2
  exact ⟨_, w, h, fun rest n hn => file_props hcfg hc f hw n hn rest⟩

/-- C03: whole files: reading what was written gives the same file object. -/
theorem C03_file (cfg B : Cfg) (hB : ∀ p c, cfg.custom p = some c → B.custom p = some c)
    (hcfg : cfg.allowNan = m.an) (hc : m.json = true → CfgJson cfg) (f : File m) (hw : f.Wf cfg) (g : Gvas)
    (hg : gvasRead cfg f.enc = .ok g) :
    ∃ b h, g.write B = .ok (b, h) ∧ gvasRead cfg b = .ok g := by
  rw [file_read hcfg hc f hw] at hg
  injection hg with hg
  subst hg
  obtain ⟨h, h1⟩ := file_write hcfg hc hB f hw
  exact ⟨_, h, h1, file_read hcfg hc f hw⟩

/-! ### C27 -/

/-- C27: whatever follows the property list is the trailer; it is written unchanged, also through JSON. -/
theorem C27_file (hj : m.json = true) (cfg : Cfg) (hcfg : cfg.allowNan = m.an) (hc : CfgJson cfg) (f : File m)
    (hw : f.Wf cfg) (t : Bytes) :
    ∃ g d g' h, gvasRead cfg (f.header.enc ++ encProps f.props ++ t) = .ok g ∧ g.trailer = t ∧
      jsonRT m.an g.dump = .ok d ∧ Gvas.load d = .ok g' ∧ g'.trailer = t ∧
      g'.write cfg = .ok (f.header.enc ++ encProps f.props ++ t, h) := by
  obtain ⟨f', rfl⟩ : ∃ f', f' = ({ f with trailer := t } : File m) := ⟨_, rfl⟩
  have hw' : File.Wf cfg { f with trailer := t } := hw
  have hr := file_read hcfg (fun _ => hc) _ hw'
  obtain ⟨h, hwr⟩ := file_write hcfg (fun _ => hc) (B := cfg) (fun _ _ h => h) _ hw'
  obtain ⟨d, h1, h2⟩ := jok_json false m.an _ (file_jok hj hcfg hc _ hw')
  have ht : (fileOf cfg { f with trailer := t }).trailer = t := rfl
  generalize fileOf cfg { f with trailer := t } = g at hr hwr h1 h2 ht
  obtain ⟨g', h3, h4, h5, h6, -⟩ := load_sim h2 _ (C27_dump_load g)
  obtain ⟨h', h7⟩ := write_mono (fun _ _ h => h) h4 h5 h6 hwr
  exact ⟨g, d, g', h', hr, ht, h1, h3, h4.trans ht, h7⟩

/-- C27: every file object is written with its trailer at the end, unchanged. -/
theorem C27_write (cfg : Cfg) (g h : Gvas) (b : Bytes) (hw : g.write cfg = .ok (b, h)) :
    (∃ pre, b = pre ++ g.trailer) ∧ h.trailer = g.trailer := by
  obtain ⟨hb, pb, -, -, rfl, h4⟩ := of_write hw
  exact ⟨⟨_, rfl⟩, by rw [h4]⟩

end Pal
