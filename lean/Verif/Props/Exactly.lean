import Verif.Lemmas.BadKept
import Verif.Props.CustomResave
import Verif.Props.Sample
/-
C78: the files that survive are exactly the well-formed ones.

C01 and C02 say that well-formed files survive.  Here is the converse, so that being
well-formed is not a restriction of those theorems: it is what surviving means.
-/

namespace Pal
open Spec NaNs

theorem wf_of_plain {m : Mode} {cfg : Cfg} {C : CodecId → PropT m → Prop} {path : PyStr} {ps : Props m}
    (h : wfProps cfg noCustom path ps) : wfProps cfg C path ps :=
  wf_subP ⟨rfl, rfl, fun _ _ h => h⟩ ps noCustom C (fun _ _ h => h.elim) path h

theorem json_mid {a b c : PyStr} {h x y t : Val} (e : jsonRT true x = jsonRT true y) :
    jsonRT true (.dict [(a, h), (b, x), (c, t)]) = jsonRT true (.dict [(a, h), (b, y), (c, t)]) := by
  simp only [jsonRT, jsonRTD, e]

mutual
theorem jpre_one : ∀ v, JPre v → JPre (oneNaN v)
  | .list l, h => by simp only [JPre] at h; simp only [oneNaN, JPre]; exact jpre_oneL l h
  | .tuple l, h => by simp only [JPre] at h; simp only [oneNaN, JPre]; exact jpre_oneL l h
  | .dict d, h => by
    simp only [JPre] at h
    simp only [oneNaN, JPre, oneNaND_keys]
    exact ⟨h.1, jpre_oneD d h.2⟩
  | .float _, _ => by simp only [oneNaN, JPre]
  | .none, h | .bool _, h | .int _, h | .str _, h | .bytes _, h | .uuid _, h => by simp only [oneNaN]; exact h
theorem jpre_oneL : ∀ l, JPreL l → JPreL (oneNaNL l)
  | [], h => by simp only [oneNaNL, JPreL]
  | v :: t, h => by simp only [JPreL] at h; simp only [oneNaNL, JPreL]; exact ⟨jpre_one v h.1, jpre_oneL t h.2⟩
theorem jpre_oneD : ∀ l, JPreD l → JPreD (oneNaND l)
  | [], h => by simp only [oneNaND, JPreD]
  | (k, v) :: t, h => by
    simp only [JPreD] at h
    simp only [oneNaND, JPreD]
    refine ⟨h.1, fun e => ?_, jpre_one v h.2.2.1, jpre_oneD t h.2.2.2⟩
    have := h.2.1 e
    cases v <;> simp only [oneNaN] <;> exact this
end

mutual
theorem one_one : ∀ v, OneNaN (oneNaN v)
  | .float b => by
    simp only [oneNaN, OneNaN, oneF]
    intro h
    split
    · rfl
    · rename_i hn; rw [if_neg hn] at h; exact (hn h).elim
  | .list l => by simp only [oneNaN, OneNaN]; exact one_oneL l
  | .tuple l => by simp only [oneNaN, OneNaN]; exact one_oneL l
  | .dict d => by simp only [oneNaN, OneNaN]; exact one_oneD d
  | .none | .bool _ | .int _ | .str _ | .bytes _ | .uuid _ => by simp only [oneNaN, OneNaN]
theorem one_oneL : ∀ l, OneNaNL (oneNaNL l)
  | [] => by simp only [oneNaNL, OneNaNL]
  | v :: t => by simp only [oneNaNL, OneNaNL]; exact ⟨one_one v, one_oneL t⟩
theorem one_oneD : ∀ l, OneNaND (oneNaND l)
  | [] => by simp only [oneNaND, OneNaND]
  | (k, v) :: t => by simp only [oneNaND, OneNaND]; exact ⟨one_one v, one_oneD t⟩
end

theorem load_props {d p : Val} {g : Gvas} (h : Gvas.load d = .ok g) (hp : d.get (P "properties") = .ok p) : g.properties = p := by
  unfold Gvas.load at h
  cases h1 : d.get (P "header") with
  | error e => rw [h1] at h; cases h
  | ok hd =>
    rw [h1, hp] at h
    simp only [e_bind_ok] at h
    cases h2 : Hdr.load hd with
    | error e => rw [h2] at h; cases h
    | ok hh =>
      rw [h2] at h
      simp only [e_bind_ok] at h
      cases h3 : d.get (P "trailer") with
      | error e => rw [h3] at h; cases h
      | ok t =>
        rw [h3] at h
        simp only [e_bind_ok] at h
        cases h4 : b64Decode t with
        | error e => rw [h4] at h; cases h
        | ok t' => rw [h4] at h; cases h; rfl

theorem dump_props (g : Gvas) : g.dump.get (P "properties") = .ok g.properties := by
  unfold Gvas.dump dct
  simp only [Val.get, List.map_cons, dget?]
  rw [if_neg (P_ne (by decide)), if_pos trivial]

/-- Whatever is converted through JSON without custom properties becomes a well-formed file. -/
theorem json_wf {cfg : Cfg} (hcfg : cfg.allowNan = true) (hc : ∀ p, cfg.custom p = none) (hj : CfgJson cfg) {data : Bytes}
    (hd : data.length < 2 ^ 32) {g g2 g' : Gvas} {d : Val} {B : Cfg} {b : Bytes} (h : gvasRead cfg data = .ok g)
    (h1 : jsonRT true g.dump = .ok d) (h2 : Gvas.load d = .ok g2) (h3 : g2.write B = .ok (b, g')) :
    ∃ f : File jsonMode, f.Wf cfg ∧ f.enc = b ∧ b.length ≤ data.length := by
  rcases read_file hcfg hc hd h with ⟨H, ps, w1, w2, hg, hl⟩ | hb
  · obtain ⟨hh, hv, t⟩ := g
    simp only [Gvas.mk.injEq] at hg hl
    obtain ⟨rfl, rfl, -⟩ := hg
    have w1' : ((oneProps ps).map Prod.fst).Nodup := by rw [oneProps_keys]; exact w1
    have w2' := oneProps_wf ps [] w2
    have hlen := oneProps_len ps
    let g1 : Gvas := ⟨hdrOf H, .dict (valProps cfg plainK [] (oneProps ps)), t⟩
    have hjok : JOk true g1.dump := by
      have hp := props_jok (m := jsonMode) rfl hj (oneProps ps) noCustom (jsonCustom_no cfg plainK) [] w2' (by rw [hlen]; omega)
      have hn := valProps_nodup cfg plainK [] (oneProps ps) w1'
      have hh := hdr_jok true H
      rw [← hdr_dump] at hh
      unfold Gvas.dump
      rw [dct_eq]
      refine jok_dict _ _ (by simp only [List.map]; decide +kernel) ?_
      simp only [List.mem_cons, List.not_mem_nil, or_false, forall_eq_or_imp, forall_eq]
      refine ⟨hh, by simp only [g1, JOk]; exact ⟨hn, hp⟩, ?_⟩
      simp only [JOk]
      exact b64Encode_normal t
    have hwr : ∃ g'', g1.write B = .ok (H.enc ++ encProps (oneProps ps) ++ t, g'') :=
      write_of (g := g1) (hdrWrite_of H) (wProps_rank (n := (encProps (oneProps ps)).length + 1) fun n' hn' =>
        props_write (m := jsonMode) (oneProps ps) noCustom (writesCustom_no cfg B plainK) [] n' w2' (by omega) (by omega))
    obtain ⟨g'', hwr⟩ := hwr
    obtain ⟨d', g3, g4, k1, k2, k3⟩ := C04_file true B g1 g'' _ hjok hwr
    have e : jsonRT true g1.dump = jsonRT true (Gvas.dump ⟨hdrOf H, .dict (valProps cfg plainK [] ps), t⟩) := by
      have : jsonRT true (Val.dict (valProps cfg plainK [] (oneProps ps))) = jsonRT true (.dict (valProps cfg plainK [] ps)) := by
        rw [← oneNaN_json (.dict (valProps cfg plainK [] ps)), oneNaN, oneProps_val ps [] w2]
      simp only [g1, Gvas.dump, dct_eq, vDict, List.map_cons, List.map_nil]
      exact json_mid this
    rw [e, h1] at k1
    cases k1
    rw [h2] at k2
    cases k2
    rw [h3] at k3
    cases k3
    refine ⟨⟨H, oneProps ps, t⟩, ⟨?_, by simp only; omega⟩, rfl, by simp only [List.length_append]; omega⟩
    simp only [SVal.Wf]
    exact ⟨w1', wf_of_plain w2'⟩
  · exfalso
    have hp := jpre_one _ (file_jpre hj h)
    have hr : jsonRT true (oneNaN g.dump) = .ok d := by rw [oneNaN_json]; exact h1
    obtain ⟨d', k1, k2⟩ := jok_json false true _ (jok_of true _ _ hp (one_one _) hr)
    rw [hr] at k1
    cases k1
    have k3 : (oneNaN g.dump).get (P "properties") = .ok (oneNaN g.properties) := by
      have : g.dump.get (P "properties") = .ok g.properties := dump_props g
      obtain ⟨y, k4, rfl⟩ := keeps_one.get (a := g.dump) rfl this
      exact k4
    obtain ⟨p, k4, k5⟩ := sim_get k2 k3
    have hb' := keeps_sim.bad (keeps_one.bad hb rfl) k5
    rw [← load_props h2 k4] at hb'
    obtain ⟨e, he⟩ := badList_raises hb' B (g2.properties.rank + 1)
    obtain ⟨_, pb, -, h4, -, -⟩ := of_write h3
    rw [h4] at he
    cases he

/-! ### the theorems -/

/-- C78: without custom properties, the files that are unchanged by reading and writing them are exactly the well-formed ones. -/
theorem C78_direct (cfg B : Cfg) (hcfg : cfg.allowNan = true) (hc : ∀ p, cfg.custom p = none) (data : Bytes)
    (hd : data.length < 2 ^ 32) :
    (∃ g g', gvasRead cfg data = .ok g ∧ g.write B = .ok (data, g')) ↔ ∃ f : File rawMode, f.Wf cfg ∧ f.enc = data := by
  constructor
  · rintro ⟨g, g', h, hw⟩
    rcases read_file hcfg hc hd h with ⟨H, ps, w1, w2, hg, hl⟩ | hb
    · obtain ⟨hh, hv, t⟩ := g
      simp only [Gvas.mk.injEq] at hg hl
      obtain ⟨rfl, rfl, -⟩ := hg
      obtain ⟨hb, pb, h3, h4, rfl, -⟩ := of_write hw
      rw [hdrWrite_of] at h3
      cases h3
      obtain ⟨w', h5⟩ := tree_write cfg B w2 (by omega)
      simp only at h4
      rw [h4] at h5
      cases h5
      refine ⟨⟨H, ps, t⟩, ⟨?_, by simp only; omega⟩, rfl⟩
      simp only [SVal.Wf]
      exact ⟨w1, wf_of_plain w2⟩
    · obtain ⟨e, he⟩ := badList_raises hb B (g.properties.rank + 1)
      obtain ⟨_, pb, -, h4, -, -⟩ := of_write hw
      rw [h4] at he
      cases he
  · rintro ⟨f, hw, rfl⟩
    have hj : rawMode.json = true → CfgJson cfg := by intro h; cases h
    obtain ⟨h, hwr⟩ := file_write (m := rawMode) hcfg hj (B := B) (fun p c h => by rw [hc] at h; cases h) f hw
    exact ⟨_, h, file_read (m := rawMode) hcfg hj f hw, hwr⟩

/-- C78: without custom properties, the files that are unchanged by the conversion to JSON and back are exactly the well-formed
ones whose NaNs are the standard ones (`F32Ok`, `F64Ok`). -/
theorem C78_json (cfg B : Cfg) (hcfg : cfg.allowNan = true) (hc : ∀ p, cfg.custom p = none) (hj : CfgJson cfg) (data : Bytes)
    (hd : data.length < 2 ^ 32) :
    (∃ g d g2 g', gvasRead cfg data = .ok g ∧ jsonRT true g.dump = .ok d ∧ Gvas.load d = .ok g2 ∧ g2.write B = .ok (data, g')) ↔
      ∃ f : File jsonMode, f.Wf cfg ∧ f.enc = data := by
  constructor
  · rintro ⟨g, d, g2, g', h, h1, h2, h3⟩
    obtain ⟨f, w, e, -⟩ := json_wf hcfg hc hj hd h h1 h2 h3
    exact ⟨f, w, e⟩
  · rintro ⟨f, hw, rfl⟩
    obtain ⟨h, hwr⟩ := file_write (m := jsonMode) hcfg (fun _ => hj) (B := B) (fun p c h => by rw [hc] at h; cases h) f hw
    obtain ⟨d, g', h', h1, h2, h3⟩ := C04_file true B _ _ _ (file_jok (m := jsonMode) rfl hcfg hj f hw) hwr
    exact ⟨_, d, g', h', file_read (m := jsonMode) hcfg (fun _ => hj) f hw, h1, h2, h3⟩

/-- C78: whatever comes back from a conversion to JSON and back is not changed by converting it again, and is not longer than
the file was. -/
theorem C78_again (cfg B : Cfg) (hcfg : cfg.allowNan = true) (hc : ∀ p, cfg.custom p = none) (hj : CfgJson cfg) (data : Bytes)
    (hd : data.length < 2 ^ 32) (g g2 g' : Gvas) (d : Val) (b : Bytes) (h : gvasRead cfg data = .ok g)
    (h1 : jsonRT true g.dump = .ok d) (h2 : Gvas.load d = .ok g2) (h3 : g2.write B = .ok (b, g')) :
    b.length ≤ data.length ∧
    ∃ g3 d' g4 g'', gvasRead cfg b = .ok g3 ∧ jsonRT true g3.dump = .ok d' ∧ Gvas.load d' = .ok g4 ∧ g4.write B = .ok (b, g'') := by
  obtain ⟨f, w, e, l⟩ := json_wf hcfg hc hj hd h h1 h2 h3
  exact ⟨l, (C78_json cfg B hcfg hc hj b (by omega)).2 ⟨f, w, e⟩⟩

/-- C78: with custom properties, the files that are unchanged by reading and writing them are exactly the well-formed ones in
which the stored form of every custom property is itself unchanged by decoding and encoding it (`Fixed`).  So a file is changed
only if it is not well-formed, or if one of the decoders changes its own property. -/
theorem C78_decoders (cfg B : Cfg) (H : CfgOk cfg B) (data : Bytes) (hd : data.length < 2 ^ 32) :
    (∃ g g', gvasRead cfg data = .ok g ∧ g.write B = .ok (data, g')) ↔
      ∃ f : File rawMode, (SVal.props f.props).Wf cfg (Fixed cfg B) [] ∧ f.enc = data := by
  constructor
  · rintro ⟨g, g', h, hw⟩
    rcases read_fileC H hd h with ⟨Hd, ps, w1, w2, hg, hl⟩ | hb
    · obtain ⟨hh, hv, t⟩ := g
      simp only [Gvas.mk.injEq] at hg hl
      obtain ⟨rfl, rfl, -⟩ := hg
      obtain ⟨hb, pb, h3, h4, rfl, -⟩ := of_write hw
      rw [hdrWrite_of] at h3
      cases h3
      obtain ⟨w', h5⟩ := tree_writeC H w2 (by omega)
      simp only at h4
      rw [h4] at h5
      cases h5
      refine ⟨⟨Hd, ps, t⟩, ?_, rfl⟩
      simp only [SVal.Wf]
      exact ⟨w1, w2⟩
    · obtain ⟨e, he⟩ := noWrite_raises hb (g.properties.rank + 1)
      obtain ⟨_, pb, -, h4, -, -⟩ := of_write hw
      rw [h4] at he
      cases he
  · rintro ⟨f, hw, rfl⟩
    simp only [SVal.Wf] at hw
    have hl : (encProps f.props).length < 2 ^ 32 := by
      have : f.enc.length < 2 ^ 32 := hd
      simp only [File.enc, List.length_append] at this
      omega
    obtain ⟨g', hwr⟩ := write_of (g := ⟨hdrOf f.header, .dict (valProps cfg (decK true cfg) [] f.props), f.trailer⟩)
      (hdrWrite_of f.header) (tree_writeC H hw.2 hl)
    exact ⟨_, g', gvasRead_of fun n hn => tree_readC H hw.1 hw.2 hl n hn f.trailer, hwr⟩

/-- C78: the same with the tool's own tables, for every selection of custom properties without the two of `unsteady`; the
writer knows the whole table. -/
theorem C78_palworld (keep : String → Bool) (hk : ∀ p ∈ unsteady, keep p = false) (data : Bytes) (hd : data.length < 2 ^ 32) :
    (∃ g g', gvasRead (palCfg keep true) data = .ok g ∧ g.write (palCfg (fun _ => true) true) = .ok (data, g')) ↔
      ∃ f : File rawMode, (SVal.props f.props).Wf (palCfg keep true) (Fixed (palCfg keep true) (palCfg (fun _ => true) true)) [] ∧
        f.enc = data :=
  C78_decoders _ _ (palCfg_ok keep hk) data hd

/-! ### examples -/

set_option maxRecDepth 40000 in
/-- A file with a custom property that is not changed by its decoder; below, one that is. -/
theorem tight_same : resaves (rightsFile 203 105 tightRights) (rightsFile 203 105 tightRights) = true := by decide +kernel

example : ∃ f : File rawMode, (SVal.props f.props).Wf (palCfg steadyKeep true)
    (Fixed (palCfg steadyKeep true) (palCfg (fun _ => true) true)) [] ∧ f.enc = rightsFile 203 105 tightRights :=
  (C78_palworld steadyKeep steadyKeep_ok _ (by decide +kernel)).1 (resaves_inv tight_same)

example : ¬ ∃ f : File rawMode, (SVal.props f.props).Wf (palCfg steadyKeep true)
    (Fixed (palCfg steadyKeep true) (palCfg (fun _ => true) true)) [] ∧ f.enc = rightsFile 0 99 looseRights := by
  rw [← C78_palworld steadyKeep steadyKeep_ok _ (by decide +kernel)]
  rintro ⟨g, g', h, hw⟩
  obtain ⟨g1, g1', h', hw'⟩ := resaves_inv rights_resaves
  rw [h] at h'
  cases h'
  rw [hw] at hw'
  simp only [Except.ok.injEq, Prod.mk.injEq] at hw'
  exact absurd (congrArg List.length hw'.1) (by decide +kernel)

end Pal
