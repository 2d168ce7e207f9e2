import Verif.Lemmas.StableBlobs
/-
Decoding and encoding again: base camp modules, work, connectors, concrete models.
-/

set_option linter.unusedSimpArgs false

namespace Pal
open Spec

variable {q : Prop} {an : Bool}

theorem chain_bad {β : Type} {r : R β} {pre : Bytes} {E : β → Except Err Bytes} {Bad : β → Prop}
    (h : ∀ s v s', r s = .ok (v, s') → Bad v) : Chain q r pre E Bad :=
  fun s v s' _ hr => .inl (h s v s' hr)

/-! ### base camp modules -/

theorem isI_int (n k : Int) : (Val.int n).isI k = decide (n = k) := rfl

theorem st_readList (n : Nat) : St q (rRead n) fun u => wBytesOf (.list (u.map fun b => .int b.toNat)) := by
  intro s v s' hs h
  obtain ⟨b, hb, l, k⟩ := st_read (q := q) n s v s' hs h
  cases hb
  exact ⟨v, mapE_byteOf_ints v, l, k⟩

theorem st_passive : St q passiveEffectDecode passiveEffectEncode := by
  refine st_of_chain ?_
  unfold passiveEffectDecode
  refine chain_bind st_byte fun t bt ht => ?_
  by_cases h1 : t > 2
  · rw [if_pos h1]; exact chain_fail
  rw [if_neg h1]
  by_cases h2 : t = 2
  · subst h2
    rw [if_pos rfl]
    refine chain_bind st_byte fun w bw hw => chain_bind (st_readList 4) fun u bu hu => ?_
    have e : (Val.int ((2 : Nat) : Int)).isI 2 = true := rfl
    chain_done [passiveEffectEncode, e]
  · rw [if_neg h2]
    have e : (Val.int (t : Int)).isI 2 = false := by rw [isI_int, decide_eq_false]; omega
    chain_done [passiveEffectEncode, e, Bool.false_eq_true]

theorem st_transportList (hq : q → an = true) : St q (do
      let l ← rTArray (transportInfoDecode an)
      return dct [("transport_item_character_infos", l)])
    fun p => wAt p ["transport_item_character_infos"] (wTArray transportInfoEncode) := by
  have h0 := st_tarray (@st_transportInfo q an hq)
  refine st_of_chain ?_
  chain_tac
  chain_done [wcat_nil]

theorem st_passiveList : St q (do
      let l ← rTArray passiveEffectDecode
      return dct [("passive_effects", l)])
    fun p => wAt p ["passive_effects"] (wTArray passiveEffectEncode) := by
  have h0 := st_tarray (@st_passive q)
  refine st_of_chain ?_
  chain_tac
  chain_done [wcat_nil]

theorem try_ok_or {x : R Val} {w v : Val} {s s' : Bytes} (h : rTry x (fun _ => pure w) s = .ok (v, s')) :
    x s = .ok (v, s') ∨ v = w := by
  unfold rTry at h
  split at h
  · rename_i r hr; exact .inl (by rw [hr]; exact h)
  · cases h
  · exact .inr (r_pure_inv h).1

/-- The blob is kept as it is, or its decoding can be encoded. -/
theorem camp_resave (hq : q → an = true) (mt raw : Val) {s s' : Bytes} {v : Val} (hs : s.length < 2 ^ 32)
    (h : campModuleDecode an mt raw s = .ok (v, s')) :
    v = dct [("values", raw)] ∨ ∃ b, campModuleEncode mt v = .ok b ∧ b.length ≤ s.length ∧
      (q → ∀ raw', ∃ s'', campModuleDecode an mt raw' b = .ok (v, s'')) := by
  unfold campModuleDecode at h
  by_cases h1 : mt.isAny campNoOp
  · rw [if_pos h1] at h
    obtain ⟨rfl, rfl⟩ := r_pure_inv h
    refine .inr ⟨[], by unfold campModuleEncode; rw [if_pos h1], by simp, fun _ raw' => ⟨[], ?_⟩⟩
    unfold campModuleDecode; rw [if_pos h1]; rfl
  rw [if_neg h1] at h
  by_cases h2 : mt.isS "EPalBaseCampModuleType::TransportItemDirector"
  · rw [if_pos h2] at h
    rcases try_ok_or h with h | h
    · obtain ⟨b, w, l, k⟩ := st_transportList hq s v s' hs h
      refine .inr ⟨b, ?_, by omega, fun hq' raw' => ⟨[], ?_⟩⟩
      · unfold campModuleEncode; rw [if_neg h1, if_pos h2]; exact w
      · unfold campModuleDecode
        rw [if_neg h1, if_pos h2]
        exact rTry_ok (back_end (k hq'))
    · exact .inl h
  rw [if_neg h2] at h
  by_cases h3 : mt.isS "EPalBaseCampModuleType::PassiveEffect"
  · rw [if_pos h3] at h
    rcases try_ok_or h with h | h
    · obtain ⟨b, w, l, k⟩ := st_passiveList (q := q) s v s' hs h
      refine .inr ⟨b, ?_, by omega, fun hq' raw' => ⟨[], ?_⟩⟩
      · unfold campModuleEncode; rw [if_neg h1, if_neg h2, if_pos h3]; exact w
      · unfold campModuleDecode
        rw [if_neg h1, if_neg h2, if_pos h3]
        exact rTry_ok (back_end (k hq'))
    · exact .inl h
  rw [if_neg h3] at h
  exact .inl (r_pure_inv h).1

/-! ### work -/

theorem contains_vdict_cons (k k' : String) (x : Val) (t : List (String × Val)) :
    (vDict ((k', x) :: t)).contains (P k) = if k' = k then .ok true else (vDict t).contains (P k) := by
  simp only [Val.contains, vDict, List.map_cons, dget?, P_inj]
  split <;> rfl

/-- The transform of the work is of a type that is kept as raw bytes. -/
def RawTransform (v : Val) : Prop :=
  (∃ t : Nat, v.path [P "transform", P "type"] = .ok (.int t) ∧ t ≠ 1 ∧ t ≠ 2 ∧ t ≠ 3) ∧
    ∃ l, v.path [P "transform", P "raw_data"] = .ok (.list l)

macro "raw_transform" : tactic => `(tactic|
  (refine chain_bad fun s v s' h => ?_
   obtain ⟨b, s1, -, h⟩ := r_bind_inv h
   obtain ⟨_, s2, -, h⟩ := r_bind_inv h
   obtain ⟨hv, -⟩ := r_pure_inv h
   subst hv
   refine ⟨⟨_, ?_, by assumption, by assumption, by assumption⟩, b.map fun x => .int x.toNat, ?_⟩ <;>
   simp only [List.cons_append, List.nil_append, Val.path, get_pdict, dct_eq, get_vDict_cons, String.reduceEq, ↓reduceIte]))

/-- `workEncode` for the types that are handled. -/
def workEncode' (wt p : Val) : Except Err Bytes :=
  wcat [if wt.isAny workBaseTypes then wcat [workBaseEncode p, workExtraEncode wt p]
    else if wt.isAny workAssignTypes then workAssignEncode wt p else .ok [], workTransformEncode p]

theorem isI_nat {t k : Nat} (h : t ≠ k) : (Val.int t).isI (k : Int) = false := by
  rw [isI_int, decide_eq_false]; omega

macro "work_tail" "[" ds:Lean.Parser.Tactic.simpLemma,* "]" : tactic => `(tactic|
  (rename_i t bt ht
   by_cases t1 : t = 1
   · subst t1
     have e : (Val.int ((1 : Nat) : Int)).isI 1 = true := rfl
     simp only [↓reduceIte, r_bind_assoc, r_pure_bind]
     chain_tac
     chain_done' [$ds,*, workEncode', workTransformEncode, wFTransform, e, contains_vdict_cons]
   by_cases t2 : t = 2
   · subst t2
     have e1 : (Val.int ((2 : Nat) : Int)).isI 1 = false := rfl
     have e : (Val.int ((2 : Nat) : Int)).isI 2 = true := rfl
     simp only [↓reduceIte, r_bind_assoc, r_pure_bind, OfNat.ofNat_ne_one]
     chain_tac
     chain_done' [$ds,*, workEncode', workTransformEncode, e, e1]
   by_cases t3 : t = 3
   · subst t3
     have e1 : (Val.int ((3 : Nat) : Int)).isI 1 = false := rfl
     have e2 : (Val.int ((3 : Nat) : Int)).isI 2 = false := rfl
     have e : (Val.int ((3 : Nat) : Int)).isI 3 = true := rfl
     simp only [↓reduceIte, r_bind_assoc, r_pure_bind, Nat.reduceEqDiff, OfNat.ofNat_ne_one]
     chain_tac
     chain_done' [$ds,*, workEncode', workTransformEncode, e, e1, e2]
   simp only [t1, t2, t3, ↓reduceIte, r_bind_assoc, r_pure_bind]
   raw_transform))

set_option maxHeartbeats 1000000 in
theorem chain_workBase (hq : q → an = true) (wt : Val) (hb : wt.isAny workBaseTypes) :
    Chain q (do
      let d ← workBodyDecode an wt
      let t ← workTransformDecode an
      rCheckEofFor
      return .dict (d ++ [(P "transform", t)])) [] (workEncode' wt) RawTransform := by
  have h1 := @st_vector q an hq
  have h2 := @st_quat q an hq
  have h3 := st_tarray (@st_assignLocation q an hq)
  unfold workBodyDecode workTransformDecode workBaseDecode workExtraDecode individualIdDecode
  by_cases x1 : wt.isS "EPalWorkableType::Defense"
  · simp only [hb, x1, ↓reduceIte, r_bind_assoc, r_pure_bind]
    chain_tac
    work_tail [workBaseEncode, workExtraEncode]
  by_cases x2 : wt.isS "EPalWorkableType::Progress"
  · simp only [hb, x1, x2, ↓reduceIte, r_bind_assoc, r_pure_bind, Bool.false_eq_true]
    chain_tac
    work_tail [workBaseEncode, workExtraEncode]
  by_cases x3 : wt.isS "EPalWorkableType::ReviveCharacter"
  · simp only [hb, x1, x2, x3, ↓reduceIte, r_bind_assoc, r_pure_bind, Bool.false_eq_true]
    chain_tac
    work_tail [workBaseEncode, workExtraEncode]
  · simp only [hb, x1, x2, x3, ↓reduceIte, r_bind_assoc, r_pure_bind, Bool.false_eq_true]
    chain_tac
    work_tail [workBaseEncode, workExtraEncode]

theorem chain_workAssign (hq : q → an = true) (wt : Val) (hb : ¬ wt.isAny workBaseTypes) (ha : wt.isAny workAssignTypes) :
    Chain q (do
      let d ← workBodyDecode an wt
      let t ← workTransformDecode an
      rCheckEofFor
      return .dict (d ++ [(P "transform", t)])) [] (workEncode' wt) RawTransform := by
  have h1 := @st_vector q an hq
  have h2 := @st_quat q an hq
  unfold workBodyDecode workTransformDecode workAssignDecode individualIdDecode
  by_cases x1 : wt.isS "EPalWorkableType::LevelObject"
  · simp only [hb, x1, ↓reduceIte, r_bind_assoc, r_pure_bind, Bool.false_eq_true]
    chain_tac
    work_tail [workAssignEncode]
  · simp only [hb, x1, ↓reduceIte, r_bind_assoc, r_pure_bind, Bool.false_eq_true]
    chain_tac
    work_tail [workAssignEncode]

/-- Work data of an unhandled type is kept, a transform of an unknown type is kept as raw
bytes; everything else can be encoded. -/
theorem work_resave (hq : q → an = true) (wt raw : Val) {s s' : Bytes} {v : Val} (hs : s.length < 2 ^ 32)
    (h : workDecode an wt raw s = .ok (v, s')) :
    ((wt.isAny workBaseTypes || wt.isAny workAssignTypes) = false ∧ v = dct [("values", raw)]) ∨ RawTransform v ∨
      ∃ b, workEncode wt v = .ok b ∧ b.length ≤ s.length ∧
        (q → ∀ raw', workDecode an wt raw' b = .ok (v, [])) := by
  cases wt with
  | str x =>
    have e1 : ∀ raw, workDecode an (.str x) raw = if (Val.str x).isAny workBaseTypes || (Val.str x).isAny workAssignTypes
      then (do
        let d ← workBodyDecode an (.str x)
        let t ← workTransformDecode an
        rCheckEofFor
        return .dict (d ++ [(P "transform", t)])) else pure (dct [("values", raw)]) := fun _ => rfl
    have e2 : ∀ p, workEncode (.str x) p = workEncode' (.str x) p := fun _ => rfl
    generalize Val.str x = wt at *
    simp only [e1, e2] at h ⊢
    by_cases hb : wt.isAny workBaseTypes
    · simp only [hb, Bool.true_or, ↓reduceIte] at h ⊢
      rcases chain_workBase hq wt hb s v s' hs h with h1 | ⟨b, h1, h2, h3⟩
      · exact .inr (.inl h1)
      · exact .inr (.inr ⟨b, h1, by omega, fun hq' _ => back_end (h3 hq')⟩)
    · by_cases ha : wt.isAny workAssignTypes
      · simp only [hb, ha, Bool.or_true, ↓reduceIte] at h ⊢
        rcases chain_workAssign hq wt hb ha s v s' hs h with h1 | ⟨b, h1, h2, h3⟩
        · exact .inr (.inl h1)
        · exact .inr (.inr ⟨b, h1, by omega, fun hq' _ => back_end (h3 hq')⟩)
      · simp only [hb, ha, Bool.or_self, Bool.false_eq_true, ↓reduceIte] at h ⊢
        exact .inl ⟨trivial, (r_pure_inv h).1⟩
  | list => cases h
  | dict => cases h
  | _ => exact .inl ⟨rfl, (r_pure_inv h).1⟩

end Pal
