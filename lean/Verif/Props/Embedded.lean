import Verif.Props.BlobResave
import Verif.Model.PalTypes
/-
C49, last clause: a custom property inside an object that is embedded in a blob is decoded
when reading, but the object is written without custom properties.
-/

namespace Pal
open Spec

/-- A property list with the struct "worldSaveData", in it the empty map "GroupSaveDataMap". -/
def nestedCustom : Bytes :=
  eLit "worldSaveData" ++ eLit "StructProperty" ++ lit 8 0 ++ eLit "X" ++ List.replicate 17 0 ++
    (eLit "GroupSaveDataMap" ++ eLit "MapProperty" ++ lit 8 0 ++ eLit "IntProperty" ++ eLit "IntProperty" ++ [0] ++
      lit 4 0 ++ lit 4 0 ++ eLit "None") ++ eLit "None"

/-- A character whose object has such a list. -/
def nestedCharacter : Bytes := nestedCustom ++ List.replicate 20 3

/-- Reading the character (with a budget far above its length), and writing it. -/
def nestedTest : Bool :=
  match characterDecode (rProps (palCfg (fun _ => true) true) 5000 []) nestedCharacter with
  | .ok (v, []) =>
    (match v.path [P "object", P "worldSaveData", P "value", P "GroupSaveDataMap", P "custom_type"] with
      | .ok (.str t) => decide (t = P ".worldSaveData.GroupSaveDataMap")
      | _ => false) &&
    match characterEncode writeObject v with
    | .error _ => true
    | .ok _ => false
  | _ => false

set_option maxRecDepth 40000 in
theorem nestedTest_eq : nestedTest = true := by decide +kernel

/-- C49 fails for embedded objects: the character is read, with a custom property inside its
object, and cannot be written. -/
theorem C49_embedded_counterexample : ∃ v e,
    characterDecode (rProps (palCfg (fun _ => true) true) 5000 []) nestedCharacter = .ok (v, []) ∧
      v.path [P "object", P "worldSaveData", P "value", P "GroupSaveDataMap", P "custom_type"] =
        .ok (.str (P ".worldSaveData.GroupSaveDataMap")) ∧
      characterEncode writeObject v = .error e := by
  have h := nestedTest_eq
  unfold nestedTest at h
  split at h
  · rename_i v hv
    rw [Bool.and_eq_true] at h
    obtain ⟨h1, h2⟩ := h
    split at h1
    · rename_i t ht
      rw [decide_eq_true_eq] at h1
      split at h2
      · rename_i e he
        exact ⟨v, e, hv, by rw [ht, h1], he⟩
      · cases h2
    · cases h1
  · cases h

/-- What the plain reader returns has no "custom_type". -/
theorem plainBody_plain {cfg : Cfg} {rec : PyStr → R Val} {ty : PyStr} {size : Nat} {path : PyStr} {s s' : Bytes} {v : Val}
    (h : rPlainBody cfg rec ty size path s = .ok (v, s')) : v.contains (P "custom_type") = .ok false := by
  unfold rPlainBody at h
  by_cases h1 : ty = P "StructProperty"
  · rw [if_pos h1] at h
    unfold rStruct at h
    obtain ⟨_, _, -, h⟩ := r_bind_inv h
    obtain ⟨_, _, -, h⟩ := r_bind_inv h
    obtain ⟨_, _, -, h⟩ := r_bind_inv h
    obtain ⟨_, _, -, h⟩ := r_bind_inv h
    obtain ⟨rfl, -⟩ := r_pure_inv h
    rw [dct_eq]; exact contains_no _ _ (by simp only [List.map]; decide)
  rw [if_neg h1] at h
  have idv : ∀ {x : R Val}, rIdValue x s = .ok (v, s') → v.contains (P "custom_type") = .ok false := by
    intro x h
    unfold rIdValue at h
    obtain ⟨_, _, -, h⟩ := r_bind_inv h
    obtain ⟨_, _, -, h⟩ := r_bind_inv h
    obtain ⟨rfl, -⟩ := r_pure_inv h
    rw [dct_eq]; exact contains_no _ _ (by simp only [List.map]; decide)
  by_cases h2 : ty = P "IntProperty"
  · rw [if_pos h2] at h; exact idv h
  rw [if_neg h2] at h
  by_cases h2 : ty = P "Int64Property"
  · rw [if_pos h2] at h; exact idv h
  rw [if_neg h2] at h
  by_cases h2 : ty = P "FixedPoint64Property"
  · rw [if_pos h2] at h; exact idv h
  rw [if_neg h2] at h
  by_cases h2 : ty = P "FloatProperty"
  · rw [if_pos h2] at h; exact idv h
  rw [if_neg h2] at h
  by_cases h2 : ty = P "StrProperty"
  · rw [if_pos h2] at h; exact idv h
  rw [if_neg h2] at h
  by_cases h2 : ty = P "NameProperty"
  · rw [if_pos h2] at h; exact idv h
  rw [if_neg h2] at h
  by_cases h2 : ty = P "EnumProperty"
  · rw [if_pos h2] at h
    unfold rEnum at h
    obtain ⟨_, _, -, h⟩ := r_bind_inv h
    obtain ⟨_, _, -, h⟩ := r_bind_inv h
    obtain ⟨_, _, -, h⟩ := r_bind_inv h
    obtain ⟨rfl, -⟩ := r_pure_inv h
    rw [dct_eq]; exact contains_no _ _ (by simp only [List.map]; decide)
  rw [if_neg h2] at h
  by_cases h2 : ty = P "BoolProperty"
  · rw [if_pos h2] at h
    unfold rBoolProp at h
    obtain ⟨_, _, -, h⟩ := r_bind_inv h
    obtain ⟨_, _, -, h⟩ := r_bind_inv h
    obtain ⟨rfl, -⟩ := r_pure_inv h
    rw [dct_eq]; exact contains_no _ _ (by simp only [List.map]; decide)
  rw [if_neg h2] at h
  by_cases h2 : ty = P "ArrayProperty"
  · rw [if_pos h2] at h
    unfold rArrayProp at h
    obtain ⟨_, _, -, h⟩ := r_bind_inv h
    obtain ⟨_, _, -, h⟩ := r_bind_inv h
    obtain ⟨_, _, -, h⟩ := r_bind_inv h
    obtain ⟨rfl, -⟩ := r_pure_inv h
    rw [dct_eq]; exact contains_no _ _ (by simp only [List.map]; decide)
  rw [if_neg h2] at h
  by_cases h2 : ty = P "MapProperty"
  · rw [if_pos h2] at h
    unfold rMap at h
    obtain ⟨_, _, -, h⟩ := r_bind_inv h
    obtain ⟨_, _, -, h⟩ := r_bind_inv h
    obtain ⟨_, _, -, h⟩ := r_bind_inv h
    obtain ⟨_, _, -, h⟩ := r_bind_inv h
    obtain ⟨_, _, -, h⟩ := r_bind_inv h
    obtain ⟨_, _, -, h⟩ := r_bind_inv h
    obtain ⟨rfl, -⟩ := r_pure_inv h
    rw [dct_eq]; exact contains_no _ _ (by simp only [List.map]; decide)
  rw [if_neg h2] at h
  exact (rFail_inv h).elim

/-- C49, last clause, for one property: whatever the reader makes of a property at a path,
anywhere in the file, its "custom_type", if it has one, is the path itself, the path has an
entry in the table, and the property has the type the entry's encoder demands.  What is
missing: the object embedded in a blob is written without the table, where the claim fails
(`C49_embedded_counterexample`). -/
theorem C49_named_partial {cfg : Cfg} {rec : PyStr → R Val} {ty : PyStr} {size : Nat} {path : PyStr} {s s' : Bytes} {v t : Val}
    (h : rProperty cfg rec ty size path s = .ok (v, s')) (ht : v.get (P "custom_type") = .ok t) :
    t = .str path ∧ ∃ c, cfg.custom path = some c ∧ v.get (P "type") = .ok (.str (P c.propType)) := by
  unfold rProperty at h
  cases hc : cfg.custom path with
  | none =>
    rw [hc] at h
    simp only at h
    unfold rPlain at h
    obtain ⟨w, s1, hw, h⟩ := r_bind_inv h
    obtain ⟨hset, -⟩ := rLift_inv h
    have h1 := contains_set_ne (k' := P "custom_type") hset (by rw [Ne, P_inj]; decide)
    rw [plainBody_plain hw, contains_of_get ht] at h1
    cases h1
  | some c =>
    rw [hc] at h
    simp only at h
    by_cases hty : ty = P c.propType
    · rw [if_pos hty] at h
      obtain ⟨w, s1, -, h⟩ := r_bind_inv h
      obtain ⟨w2, s2, -, h⟩ := r_bind_inv h
      obtain ⟨w3, s3, h3, h⟩ := r_bind_inv h
      obtain ⟨hset, -⟩ := rLift_inv h3
      obtain ⟨hset2, -⟩ := rLift_inv h
      have h1 := get_set_ne (k' := P "custom_type") hset2 (by rw [Ne, P_inj]; decide)
      rw [ht, (set_get_same hset).1] at h1
      cases h1
      exact ⟨rfl, c, rfl, by rw [(set_get_same hset2).1, hty]⟩
    · rw [if_neg hty] at h
      exact (rFail_inv h).elim

/-- A table with one entry. -/
def oneCfg : Cfg := { Cfg.empty with custom := fun p => if p = P ".G" then some .group else none }

set_option maxRecDepth 20000 in
example : ∃ v, rProperty oneCfg (fun _ => rFail .fuel) (P "MapProperty") 0 (P ".G")
      (eLit "IntProperty" ++ eLit "IntProperty" ++ [0] ++ lit 4 0 ++ lit 4 0) = .ok (v, []) ∧
    v.get (P "custom_type") = .ok (.str (P ".G")) ∧ v.get (P "value") = .ok (.list []) :=
  ⟨_, rfl, rfl, rfl⟩

end Pal
