import Verif.Props.Writing
import Verif.Props.Cli
/-
C49: the table of custom properties.
-/

namespace Pal
open Spec

/-- C49: the two functions of every entry of the table come from the same module. -/
theorem C49_partners : ∀ e ∈ palCustoms, e.2.1 = e.2.2 := by decide +kernel

/-- C49: no path occurs twice. -/
theorem C49_paths_distinct : (palCustoms.map Prod.fst).Nodup := by decide +kernel

/-- C49: the property type demanded by the functions of an entry: groups and base camp modules are maps, all others are arrays. -/
theorem C49_types : ∀ e ∈ palCustoms, e.2.1.propType =
    if e.1 = ".worldSaveData.GroupSaveDataMap" ∨ e.1 = ".worldSaveData.BaseCampSaveData.Value.ModuleMap" then "MapProperty"
    else "ArrayProperty" := by decide +kernel

/-- C49: an entry is used exactly if the first key given is "all", or the entry's path is among the keys. -/
theorem C49_selection (keys : List PyStr) (s : String) : selects keys s = true ↔ keys.head? = some (P "all") ∨ P s ∈ keys := by
  unfold selects
  cases keys with
  | nil => simp
  | cons k t =>
    by_cases h : k = P "all"
    · simp [h]
    · simp [h]

/-- Splitting at commas undoes joining with commas. -/
theorem split_join (l : List PyStr) (hne : l ≠ []) (h : ∀ s ∈ l, 44 ∉ s) : splitComma (joinComma l) = l := by
  have single : ∀ s : PyStr, 44 ∉ s → splitComma s = [s] := by
    intro s
    induction s with
    | nil => intro _; rfl
    | cons c t ih =>
      intro hs
      simp only [List.mem_cons, not_or] at hs
      rw [splitComma, if_neg (Ne.symm hs.1), ih hs.2]
  have app : ∀ (s t : PyStr), 44 ∉ s → splitComma (s ++ 44 :: t) = s :: splitComma t := by
    intro s t
    induction s with
    | nil => intro _; simp [splitComma]
    | cons c u ih =>
      intro hs
      simp only [List.mem_cons, not_or] at hs
      rw [List.cons_append, splitComma, if_neg (Ne.symm hs.1), ih hs.2]
  induction l with
  | nil => exact absurd rfl hne
  | cons a t ih =>
    cases t with
    | nil => exact single a (h a (by simp))
    | cons b u =>
      rw [joinComma, app a _ (h a (by simp)), ih (by simp) (fun s hs => h s (by simp [hs]))]

/-- C49: the default of `--custom-properties` is the list of all paths of the table, ... -/
theorem C49_default_keys : defaultKeys = palCustoms.map fun e => P e.1 := by
  have h1 : ∀ s ∈ (palCustoms.map fun e => P e.1), 44 ∉ s := by decide +kernel
  have h2 : (palCustoms.map fun e => P e.1).map (stripWith isPySpace) = palCustoms.map fun e => P e.1 := by decide +kernel
  unfold defaultKeys parseKeys
  rw [split_join _ (by decide) h1, h2]

theorem palCustom_all {keep : String → Bool} (h : ∀ e ∈ palCustoms, keep e.1 = true) (p : PyStr) :
    palCustom keep p = palCustom (fun _ => true) p := by
  have : ∀ l : List (String × CodecId × CodecId), (∀ e ∈ l, keep e.1 = true) →
      (l.find? fun kv => keep kv.1 && decide (P kv.1 = p)) = l.find? fun kv => true && decide (P kv.1 = p) := by
    intro l
    induction l with
    | nil => intro _; rfl
    | cons e t ih =>
      intro h
      simp only [List.find?_cons, h e (by simp), ih (fun e he => h e (by simp [he]))]
  unfold palCustom
  rw [this _ h]

/-- C49: ... so that without the option exactly the whole table is used, as with "all". -/
theorem C49_default (an : Bool) (p : PyStr) :
    (palCfg (selects defaultKeys) an).custom p = (palCfg (fun _ => true) an).custom p ∧
    (palCfg (selects [P "all"]) an).custom p = (palCfg (fun _ => true) an).custom p := by
  refine ⟨palCustom_all ?_ p, palCustom_all ?_ p⟩
  · intro e he
    rw [C49_selection, C49_default_keys]
    exact .inr (List.mem_map_of_mem (f := fun e : String × CodecId × CodecId => P e.1) he)
  · intro e _
    rw [C49_selection]
    exact .inl rfl

/-- C49: with any keys, exactly the entries of the table that are selected are used, with the functions of the table. -/
theorem C49_used (keys : List PyStr) (an : Bool) (p : PyStr) (c : CodecId) :
    (palCfg (selects keys) an).custom p = some c ↔
      (keys.head? = some (P "all") ∨ p ∈ keys) ∧ ∃ e ∈ palCustoms, P e.1 = p ∧ e.2.1 = c := by
  have hu : ∀ kv ∈ palCustoms, palCustoms.find? (fun x => decide (P x.1 = P kv.1)) = some kv := by decide +kernel
  simp only [palCfg, palCustom, Option.map_eq_some_iff]
  constructor
  · rintro ⟨e, h1, rfl⟩
    have h2 := List.find?_some h1
    simp only [Bool.and_eq_true, decide_eq_true_eq, C49_selection] at h2
    obtain ⟨h2, rfl⟩ := h2
    exact ⟨h2, e, List.mem_of_find?_eq_some h1, rfl, rfl⟩
  · rintro ⟨h1, e, h2, rfl, rfl⟩
    refine ⟨e, ?_, rfl⟩
    have h3 : (fun kv : String × CodecId × CodecId => selects keys kv.1 && decide (P kv.1 = P e.1)) =
        fun kv => decide (P kv.1 = P e.1) := by
      funext kv
      by_cases h : P kv.1 = P e.1
      · have : selects keys kv.1 = true := by rw [C49_selection, h]; exact h1
        simp [h, this]
      · simp [h]
    rw [h3]
    exact hu e h2

example : (palCfg (selects (parseKeys (P " .worldSaveData.WorkSaveData ,x"))) true).custom (P ".worldSaveData.WorkSaveData") = some .work :=
  (C49_used _ _ _ _).2 ⟨.inr (by decide +kernel), by decide +kernel⟩

/-- The check of `C49_maps` at every position of every path. -/
theorem maps_check : ∀ e ∈ palCustoms, ∀ i < (P e.1).length + 1,
    (((P e.1).take i ++ P ".Value." ++ (P e.1).drop (i + 7)) = P e.1 →
      valueStruct (palCfg (fun _ => true) true) ((P e.1).take i) ∉ fixedStructs.map P) ∧
    (((P e.1).take i ++ P ".Key." ++ (P e.1).drop (i + 5)) = P e.1 →
      keyStruct (palCfg (fun _ => true) true) ((P e.1).take i) ∉ fixedStructs.map P) := by decide +kernel

/-- C49: where the path of an entry goes through the values or the keys of a map, the hint
table makes them property lists (never vectors, GUIDs and so on), so that properties with that
path exist. -/
theorem C49_maps (keep : String → Bool) (an : Bool) : ∀ e ∈ palCustoms, ∀ pre rest : PyStr,
    (P e.1 = pre ++ P ".Value." ++ rest → valueStruct (palCfg keep an) pre ∉ fixedStructs.map P) ∧
    (P e.1 = pre ++ P ".Key." ++ rest → keyStruct (palCfg keep an) pre ∉ fixedStructs.map P) := by
  intro e he pre rest
  have key : ∀ w : PyStr, P e.1 = pre ++ w ++ rest → (P e.1).take pre.length = pre ∧
      (P e.1).drop (pre.length + w.length) = rest ∧ pre.length < (P e.1).length + 1 := by
    intro w h
    rw [h]
    refine ⟨by simp, ?_, by simp only [List.length_append]; omega⟩
    rw [← List.length_append, List.drop_left]
  refine ⟨fun h => ?_, fun h => ?_⟩
  · obtain ⟨h1, h2, h3⟩ := key _ h
    have := (maps_check e he _ h3).1
    rw [h1, show (7 : Nat) = (P ".Value.").length from rfl, h2] at this
    exact this h.symm
  · obtain ⟨h1, h2, h3⟩ := key _ h
    have := (maps_check e he _ h3).2
    rw [h1, show (5 : Nat) = (P ".Key.").length from rfl, h2] at this
    exact this h.symm

/-- C49: so it is for the values of the maps that an entry decodes as a whole. -/
theorem C49_map_values (keep : String → Bool) (an : Bool) : ∀ pre ∈ [".worldSaveData.GroupSaveDataMap",
      ".worldSaveData.BaseCampSaveData.Value.ModuleMap",
      ".worldSaveData.MapObjectSaveData.MapObjectSaveData.ConcreteModel.ModuleMap"],
    valueStruct (palCfg keep an) (P pre) ∉ fixedStructs.map P := by
  have h : ∀ pre ∈ [".worldSaveData.GroupSaveDataMap", ".worldSaveData.BaseCampSaveData.Value.ModuleMap",
      ".worldSaveData.MapObjectSaveData.MapObjectSaveData.ConcreteModel.ModuleMap"],
      valueStruct (palCfg (fun _ => true) true) (P pre) ∉ fixedStructs.map P := by decide +kernel
  exact h

/-- A path through two maps. -/
example : P ".worldSaveData.FoliageGridSaveDataMap.Value.ModelMap.Value.RawData" =
    P ".worldSaveData.FoliageGridSaveDataMap.Value.ModelMap" ++ P ".Value." ++ P "RawData" := by rfl

end Pal
