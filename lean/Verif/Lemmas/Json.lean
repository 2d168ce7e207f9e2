import Verif.Lemmas.Sim
/-
Values that survive JSON are related to their image.
-/

namespace Pal
open Spec

theorem jsonStr_normal (s : PyStr) (h : Normal s) : jsonStr s = s := joinUnits_utf16Units s h

theorem uuidText_normal (raw : Bytes) (h : raw.length = 16) : Normal (uuidText raw) := by
  apply ascii_normal
  intro c hc
  have hc := uuidText_hex raw h c hc
  have : ∀ c ∈ P "0123456789abcdef-", c < 128 := by decide +kernel
  exact this c hc

theorem dset_new (d : Dict) (k : PyStr) (v : Val) (h : k ∉ d.map Prod.fst) : dset d k v = d ++ [(k, v)] := by
  induction d with
  | nil => rfl
  | cons a t ih =>
    simp only [List.map_cons, List.mem_cons, not_or] at h
    simp only [dset]
    rw [if_neg (Ne.symm h.1), ih h.2]
    rfl

theorem dupdate_nodup (d e : Dict) (h : ((d ++ e).map Prod.fst).Nodup) : dupdate d e = d ++ e := by
  induction e generalizing d with
  | nil => simp [dupdate]
  | cons a t ih =>
    obtain ⟨k, v⟩ := a
    have hk : k ∉ d.map Prod.fst := by
      rw [List.map_append, List.map_cons, List.nodup_append] at h
      intro hk
      exact h.2.2 k hk k (by simp) rfl
    simp only [dupdate]
    rw [dset_new d k v hk, ih]
    · simp
    · simpa using h

theorem jfloat_json (an : Bool) (b : BitVec 64) (h : JFloat an b) : jsonFloat an b = .ok (.float b) := by
  obtain ⟨h1, h2⟩ := h
  unfold jsonFloat
  by_cases hn : isNaN64 b = true
  · obtain ⟨e1, e2⟩ := h1 ((isNaN64_iff b).1 hn)
    rw [if_pos hn, if_pos e1, e2]
    rfl
  · rw [if_neg hn]
    by_cases hi : isInf64 b = true
    · rw [if_pos hi, if_pos (h2 ((isInf64_iff b).1 hi))]
    · rw [if_neg hi]

mutual
theorem jok_json (bs an : Bool) : ∀ v, JOk an v → ∃ v', jsonRT an v = .ok v' ∧ Sim bs v v'
  | .none, _ => ⟨.none, rfl, .none⟩
  | .bool b, _ => ⟨.bool b, rfl, .bool b⟩
  | .int i, _ => ⟨.int i, rfl, .int i⟩
  | .float b, h => ⟨.float b, jfloat_json an b (by simpa only [JOk] using h), .float b⟩
  | .str s, h => ⟨.str s, by simp only [jsonRT, jsonStr_normal s (by simpa only [JOk] using h)], .str s⟩
  | .bytes b, h => by simp only [JOk] at h
  | .uuid r, h => by
    simp only [JOk] at h
    refine ⟨.str (uuidText r), ?_, .uuidText r h⟩
    simp only [jsonRT, uuidStr_eq r h, jsonStr_normal _ (uuidText_normal r h)]
  | .list l, h => by
    simp only [JOk] at h
    obtain ⟨l', h1, h2⟩ := jok_jsonL bs an l h
    exact ⟨.list l', by simp only [jsonRT, h1], .list h2⟩
  | .tuple l, h => by
    simp only [JOk] at h
    obtain ⟨l', h1, h2⟩ := jok_jsonL bs an l h
    exact ⟨.list l', by simp only [jsonRT, h1], .tupleList h2⟩
  | .dict d, h => by
    simp only [JOk] at h
    obtain ⟨d', h1, h2⟩ := jok_jsonD bs an d h.2
    refine ⟨.dict d', ?_, .dict h2⟩
    simp only [jsonRT, h1]
    rw [dupdate_nodup]
    · rfl
    · rw [List.nil_append, simD_keys h2]; exact h.1
theorem jok_jsonL (bs an : Bool) : ∀ l, JOkL an l → ∃ l', jsonRTL an l = .ok l' ∧ SimL bs l l'
  | [], _ => ⟨[], rfl, .nil⟩
  | v :: t, h => by
    simp only [JOkL] at h
    obtain ⟨v', h1, h2⟩ := jok_json bs an v h.1
    obtain ⟨t', h3, h4⟩ := jok_jsonL bs an t h.2
    exact ⟨v' :: t', by simp only [jsonRTL, h1, h3], .cons h2 h4⟩
theorem jok_jsonD (bs an : Bool) : ∀ d, JOkD an d → ∃ d', jsonRTD an d = .ok d' ∧ SimD bs d d'
  | [], _ => ⟨[], rfl, .nil⟩
  | (k, v) :: t, h => by
    simp only [JOkD] at h
    obtain ⟨v', h1, h2⟩ := jok_json bs an v h.2.2.1
    obtain ⟨t', h3, h4⟩ := jok_jsonD bs an t h.2.2.2
    refine ⟨(k, v') :: t', by simp only [jsonRTD, h1, h3, jsonStr_normal k h.1], .cons k h2 ?_ h4⟩
    intro e
    refine .inr fun l hl => ?_
    subst hl
    exact h.2.1 e
end

/-! ### JOk of the field values -/

theorem jokL_iff (an : Bool) (l : List Val) : JOkL an l ↔ ∀ v ∈ l, JOk an v := by
  induction l with
  | nil => simp [JOkL]
  | cons a t ih => simp [JOkL, ih]

/-- Distinct keys without split surrogates, other than "value", for literals. -/
def keysOk (l : List String) : Bool := (l.map P).Nodup ∧ ∀ k ∈ l, Normal (P k) ∧ P k ≠ P "value"

theorem jok_dict (an : Bool) (l : List (String × Val)) (h : keysOk (l.map Prod.fst) = true)
    (hv : ∀ kv ∈ l, JOk an kv.2) : JOk an (vDict l) := by
  simp only [keysOk, decide_eq_true_eq, List.map_map] at h
  simp only [vDict, JOk, List.map_map]
  refine ⟨h.1, ?_⟩
  replace h := h.2
  induction l with
  | nil => simp [JOkD]
  | cons a t ih =>
    simp only [List.map_cons, JOkD]
    refine ⟨(h a.1 (by simp)).1, fun e => absurd e (h a.1 (by simp)).2, hv a (by simp), ih (fun kv hk => hv kv (by simp [hk])) ?_⟩
    intro k hk
    exact h k (by simp at hk ⊢; exact Or.inr hk)

theorem jok_str (an : Bool) (s : Str) : JOk an (vStr s) := by simp only [vStr, JOk]; exact s.2.1
theorem jok_guid (an : Bool) (g : Guid) : JOk an (vGuid g) := by simp only [vGuid, JOk]; exact g.2
theorem jok_u (an : Bool) {w : Nat} (n : BitVec w) : JOk an (vU n) := by simp only [vU, JOk]
theorem jok_i (an : Bool) {w : Nat} (n : BitVec w) : JOk an (vI n) := by simp only [vI, JOk]
theorem jok_bool (an : Bool) (b : Bool) : JOk an (vBool b) := by simp only [vBool, JOk]
theorem jok_optGuid (an : Bool) (o : Option Guid) : JOk an (vOptGuid o) := by
  cases o with
  | none => simp only [vOptGuid, JOk]
  | some g => simp only [vOptGuid, JOk]; exact g.2
theorem jok_f64 {m : Mode} (hj : m.json = true) (f : F64 m) : JOk m.an (vF64 f) := by
  simp only [vF64, JOk]
  obtain ⟨h1, h2⟩ := f.2
  refine ⟨h2 hj, fun h => ?_⟩
  cases ha : m.an with
  | true => rfl
  | false => exact absurd h (h1 ha)
theorem jok_f32 {m : Mode} (hj : m.json = true) (f : F32 m) : JOk m.an (vF32 f) := by
  simp only [vF32, JOk]
  obtain ⟨_, h1, h2⟩ := f.2
  refine ⟨fun h => ?_, fun h => ?_⟩
  · obtain ⟨e1, e2⟩ := h2 hj ((f32to64_class f.val).1.1 h)
    exact ⟨e1, by rw [e2]; decide +kernel⟩
  · cases ha : m.an with
    | true => rfl
    | false => exact absurd ((f32to64_class f.val).2.1 h) (h1 ha)
theorem jok_list (an : Bool) {α : Type} {v : α → Val} (h : ∀ a, JOk an (v a)) (l : Lst α) : JOk an (vList v l) := by
  simp only [vList, JOk, jokL_iff]
  intro x hx
  obtain ⟨a, _, rfl⟩ := List.mem_map.1 hx
  exact h a
theorem jok_bytesL (an : Bool) (b : Bytes) : JOk an (vBytesL b) := by
  simp only [vBytesL, JOk, jokL_iff]
  intro x hx
  obtain ⟨a, _, rfl⟩ := List.mem_map.1 hx
  simp only [JOk]
theorem jok_bytesT (an : Bool) (b : Bytes) : JOk an (vBytesT b) := by
  simp only [vBytesT, JOk, jokL_iff]
  intro x hx
  obtain ⟨a, _, rfl⟩ := List.mem_map.1 hx
  simp only [JOk]
theorem jok_lit (an : Bool) (s : String) (h : Normal (P s)) : JOk an (.str (P s)) := by
  simp only [JOk]; exact h
theorem jok_int (an : Bool) (i : Int) : JOk an (.int i) := by simp only [JOk]
theorem jok_none (an : Bool) : JOk an .none := by simp only [JOk]

/-- Proves that a record's value survives JSON. -/
syntax "jok_tac" : tactic
macro_rules
  | `(tactic| jok_tac) => `(tactic| repeat' (first
    | assumption
    | exact jok_str _ _ | exact jok_guid _ _ | exact jok_u _ _ | exact jok_i _ _ | exact jok_bool _ _
    | exact jok_optGuid _ _ | exact jok_f64 (by assumption) _ | exact jok_f32 (by assumption) _
    | exact jok_bytesL _ _ | exact jok_bytesT _ _ | exact jok_int _ _ | exact jok_none _
    | exact jok_lit _ _ (by decide +kernel)
    | (apply jok_list; intro _)
    | (refine jok_dict _ _ ?_ ?_; (simp only [List.map_cons, List.map_nil]; decide +kernel))
    | (rw [List.forall_mem_cons]; constructor)
    | (intro _ hnil; cases hnil)))

theorem jok_vec {m : Mode} (hj : m.json = true) (v : Vec m) : JOk m.an (vVec v) := by
  unfold vVec; jok_tac
theorem jok_quat {m : Mode} (hj : m.json = true) (v : Quat m) : JOk m.an (vQuat v) := by
  unfold vQuat; jok_tac
theorem jok_transform {m : Mode} (hj : m.json = true) (v : Transform m) : JOk m.an (vTransform v) := by
  have h1 := @jok_vec m hj
  have h2 := @jok_quat m hj
  unfold vTransform
  have := h1 v.translation
  have := h1 v.scale
  have := h2 v.rotation
  jok_tac

end Pal
