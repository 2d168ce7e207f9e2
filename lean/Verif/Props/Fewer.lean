import Verif.Spec.Fewer
import Verif.Lemmas.FewerLoop
import Verif.Props.Size
/-
C77: reading with fewer decoders.
-/

namespace Pal
open Spec

namespace Fewer
open Size

theorem read_fewer {cfg : Cfg} {cu : PyStr → Option CodecId} (hap : Apart cfg.custom)
    (hsub : ∀ p c, cu p = some c → cfg.custom p = some c) {data : Bytes} {g : Gvas} (h : gvasRead cfg data = .ok g) :
    (∃ g', gvasRead { cfg with custom := cu } data = .ok g' ∧ g'.header = g.header ∧ g'.trailer = g.trailer ∧
      Fewer cfg { cfg with custom := cu } g.properties g'.properties) ∨
    (∃ p, cu p = some .dynamicItem) ∧ gvasRead { cfg with custom := cu } data = .error (.exc "Warning: EOF not reached") := by
  unfold gvasRead gvasReadR at h ⊢
  split at h
  · rename_i g0 s0 hg
    cases h
    obtain ⟨hd, s1, h1, h2⟩ := r_bind_inv hg
    obtain ⟨p, s2, h3, h4⟩ := r_bind_inv h2
    rw [r_bind_ok h1]
    have l1 : s1.length ≤ data.length := (cost_header _ _ _ h1).1
    rcases loop_fewer hap hsub data.length (data.length + 1) [] [] [] (by omega) .nil s1 l1 p s2 h3 with ⟨p', e, _, hT⟩ | ⟨e, e1, he⟩
    · refine Or.inl ⟨⟨hd, p', s2⟩, ?_, ?_⟩
      · rw [r_bind_ok (show rProps { cfg with custom := cu } (data.length + 1) [] s1 = _ from e)]
        rfl
      · cases h4
        exact ⟨rfl, rfl, dd_of (closed_fewer _ _) hT⟩
    · rcases he with ⟨rfl, hd⟩ | rfl
      · refine Or.inr ⟨hd, ?_⟩
        rw [r_bind_error (show rProps { cfg with custom := cu } (data.length + 1) [] s1 = _ from e1)]
      · exact absurd e1 (ok_loop { cfg with custom := cu } data.length (data.length + 1) (data.length + 1) [] [] data.length (by omega)
          (by omega) (Nat.le_refl _) (by simp only [LimD]) s1 l1).2.1
  · cases h

theorem custom_mem {keep : String → Bool} {p : PyStr} {c : CodecId} (h : palCustom keep p = some c) :
    ∃ kv ∈ palCustoms, keep kv.1 = true ∧ P kv.1 = p ∧ kv.2.1 = c := by
  unfold palCustom at h
  rw [Option.map_eq_some_iff] at h
  obtain ⟨kv, h1, h2⟩ := h
  have := List.find?_some h1
  simp only [Bool.and_eq_true, decide_eq_true_eq] at this
  exact ⟨kv, List.mem_of_find?_eq_some h1, this.1, this.2, h2⟩

/-- No path of Palworld's table is inside another one. -/
theorem pal_apart (keep : String → Bool) : Apart (palCustom keep) := by
  intro p c r h
  cases h' : palCustom keep (p ++ dot ++ r) with
  | none => rfl
  | some c' =>
    obtain ⟨kv, m, _, rfl, _⟩ := custom_mem h
    obtain ⟨kv', m', _, e, _⟩ := custom_mem h'
    have key : ∀ a ∈ palCustoms, ∀ b ∈ palCustoms, (P a.1 ++ dot).isPrefixOf (P b.1) = false := by decide +kernel
    have := key kv m kv' m'
    rw [e] at this
    have hp : (P kv.1 ++ dot).isPrefixOf (P kv.1 ++ dot ++ r) = true := by
      rw [List.isPrefixOf_iff_prefix]; exact List.prefix_append _ _
    rw [this] at hp
    cases hp

theorem pal_sub {keep keep' : String → Bool} (h : ∀ p, keep' p = true → keep p = true) (p : PyStr) (c : CodecId)
    (hc : palCustom keep' p = some c) : palCustom keep p = some c := by
  obtain ⟨kv, m, k, rfl, rfl⟩ := custom_mem hc
  have key : ∀ a ∈ palCustoms, ∀ b ∈ palCustoms, P b.1 = P a.1 → b.2.1 = a.2.1 := by decide +kernel
  unfold palCustom
  cases hf : palCustoms.find? (fun x => keep x.1 && decide (P x.1 = P kv.1)) with
  | none =>
    rw [List.find?_eq_none] at hf
    have := hf kv m
    simp [h _ k] at this
  | some b =>
    have hb := List.find?_some hf
    simp only [Bool.and_eq_true, decide_eq_true_eq] at hb
    rw [Option.map_some, key kv m b (List.mem_of_find?_eq_some hf) hb.2]

end Fewer

/-- C77.  A file that is read with the decoders of `cfg` is read with some of them left out (where no decoder works inside what another
one decodes).  Header and trailer are the same, and so are the properties, except that those whose decoder is left out are as they
were before decoding.  The one exception: reading fails because an egg is followed by other bytes, which can only be when
dynamic items are decoded. -/
theorem C77_fewer {cfg cfg' : Cfg} (hhint : cfg'.hint = cfg.hint) (hnan : cfg'.allowNan = cfg.allowNan) (hap : Apart cfg.custom)
    (hsub : ∀ p c, cfg'.custom p = some c → cfg.custom p = some c) {data : Bytes} {g : Gvas} (h : gvasRead cfg data = .ok g) :
    (∃ g', gvasRead cfg' data = .ok g' ∧ g'.header = g.header ∧ g'.trailer = g.trailer ∧ Fewer cfg cfg' g.properties g'.properties) ∨
    (∃ p, cfg'.custom p = some .dynamicItem) ∧ gvasRead cfg' data = .error (.exc "Warning: EOF not reached") := by
  obtain ⟨hint', cu, nan'⟩ := cfg'
  simp only at hhint hnan
  subst hhint hnan
  exact Fewer.read_fewer hap hsub h

/-- C77 for Palworld's decoders, when those for dynamic items are not among them: leaving out decoders never makes a readable file
unreadable.  (Missing: the same when dynamic items are decoded; see the counterexample.) -/
theorem C77_palworld_partial {keep keep' : String → Bool} {allowNan : Bool} (hsub : ∀ p, keep' p = true → keep p = true)
    (hdyn : keep' ".worldSaveData.DynamicItemSaveData.DynamicItemSaveData.RawData" = false) {data : Bytes} {g : Gvas}
    (h : gvasRead (palCfg keep allowNan) data = .ok g) : ∃ g', gvasRead (palCfg keep' allowNan) data = .ok g' ∧
      g'.header = g.header ∧ g'.trailer = g.trailer ∧ Fewer (palCfg keep allowNan) (palCfg keep' allowNan) g.properties g'.properties := by
  rcases C77_fewer (cfg := palCfg keep allowNan) (cfg' := palCfg keep' allowNan) rfl rfl (Fewer.pal_apart keep) (Fewer.pal_sub hsub) h
    with h | ⟨⟨p, hp⟩, _⟩
  · exact h
  · obtain ⟨kv, m, k, _, e⟩ := Fewer.custom_mem hp
    have key : ∀ a ∈ palCustoms, a.2.1 = .dynamicItem → a.1 = ".worldSaveData.DynamicItemSaveData.DynamicItemSaveData.RawData" := by
      decide +kernel
    rw [key kv m e, hdyn] at k
    cases k

/-- C77 with no decoder at all: what can be read with any of Palworld's decoders can be read without. -/
theorem C77_plain {keep : String → Bool} {allowNan : Bool} {data : Bytes} {g : Gvas} (h : gvasRead (palCfg keep allowNan) data = .ok g) :
    ∃ g', gvasRead (palCfg (fun _ => false) allowNan) data = .ok g' ∧ g'.header = g.header ∧ g'.trailer = g.trailer ∧
      Fewer (palCfg keep allowNan) (palCfg (fun _ => false) allowNan) g.properties g'.properties :=
  C77_palworld_partial (keep' := fun _ => false) (fun _ h => absurd h Bool.false_ne_true) rfl h

/-- A dynamic item: ids, then what would be an egg with one byte too many, holding a number under the name of the list of works. -/
def oddEgg : Bytes :=
  List.replicate 36 0 ++ List.replicate 4 0 ++
  (eLit "worldSaveData.WorkSaveData" ++ eLit "IntProperty" ++ lit 8 4 ++ [0] ++ lit 4 7 ++ eLit "None") ++ List.replicate 21 0

/-- A save with that item. -/
def oddFile : Bytes :=
  sampleHeader.enc ++ (eLit "worldSaveData.DynamicItemSaveData.DynamicItemSaveData.RawData" ++ eLit "ArrayProperty" ++
    lit 8 (4 + oddEgg.length) ++ eLit "ByteProperty" ++ [0] ++ lit 4 oddEgg.length ++ oddEgg ++ eLit "None" ++ [0, 0, 0, 0])

def isEofErr : Except Err Gvas → Bool
  | .error e => decide (e = .exc "Warning: EOF not reached")
  | .ok _ => false

set_option maxRecDepth 40000 in
/-- C77 fails when dynamic items are decoded: a file that can be read with all decoders, but not without the one for works. -/
theorem C77_counterexample : ∃ data g, gvasRead allCfg data = .ok g ∧
    gvasRead (palCfg (fun p => decide (p ≠ ".worldSaveData.WorkSaveData")) true) data = .error (.exc "Warning: EOF not reached") := by
  have h1 : (gvasRead allCfg oddFile).toOption.isSome = true := by decide +kernel
  have h2 : isEofErr (gvasRead (palCfg (fun p => decide (p ≠ ".worldSaveData.WorkSaveData")) true) oddFile) = true := by decide +kernel
  cases hg : gvasRead allCfg oddFile with
  | error e => rw [hg] at h1; cases h1
  | ok g =>
    refine ⟨oddFile, g, hg, ?_⟩
    cases hx : gvasRead (palCfg (fun p => decide (p ≠ ".worldSaveData.WorkSaveData")) true) oddFile with
    | ok g' => rw [hx] at h2; cases h2
    | error e => rw [hx] at h2; rw [of_decide_eq_true h2]

set_option maxRecDepth 40000 in
/-- Files the theorems are about: a map of groups, decoded in the first document and not in the second. -/
example : (gvasRead (palCfg (fun p => p == ".worldSaveData.GroupSaveDataMap") true) (handsFile 1)).toOption.isSome = true := by
  decide +kernel
example : ∃ p, (palCfg (fun p => p == ".worldSaveData.GroupSaveDataMap") true).custom p ≠ none :=
  ⟨P ".worldSaveData.GroupSaveDataMap", by decide +kernel⟩

/-- The relation tells documents apart. -/
example (cfg cfg' : Cfg) : ¬ Fewer cfg cfg' (.int 1) (.int 2) := by
  have hn : ∀ {cfg : Cfg} {p : PyStr} {c : CodecId} {d0 : Val}, ¬ Made cfg p c d0 (.int 1) := by
    intro cfg p c d0 h
    obtain ⟨m, h⟩ := h
    obtain ⟨w, w', _, _, h⟩ := h m (Nat.le_refl _)
    obtain ⟨d, e⟩ := set_dict h
    cases e
  intro h
  cases h with
  | left_out _ _ h => exact hn h
  | kept _ _ h _ => exact hn h

end Pal
