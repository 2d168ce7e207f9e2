import Verif.Lemmas.StableBlobs3
/-
Decoding and encoding again: blobs with an embedded property list.
-/

set_option linter.unusedSimpArgs false

namespace Pal
open Spec

variable {q : Prop} {an : Bool} {rec : R Val} {wp : Val → Except Err Bytes} {Bo : Val → Prop}

/-- The embedded object `k` of the blob is one that cannot be written. -/
def BadObject (Bo : Val → Prop) (k : String) (v : Val) : Prop := ∃ o, v.get (P k) = .ok o ∧ Bo o

/-- What is asked of the reader and the writer of embedded property lists: `Bo` are those that
cannot be written. -/
def RecOk (q : Prop) (rec : R Val) (wp : Val → Except Err Bytes) (Bo : Val → Prop) : Prop := Chain q rec [] wp Bo

/-- A hatching egg whose object cannot be written. -/
def BadHatch (Bo : Val → Prop) (v : Val) : Prop := BadObject Bo "hatched_character_save_parameter" v ∧
  v.get (P "concrete_model_type") = .ok (.str (P "PalMapObjectHatchingEggModel"))

theorem chain_rec {α β : Type} {r : R α} {w : α → Except Err Bytes} {B : α → Prop} {f : α → R β} {pre : Bytes}
    {E : β → Except Err Bytes} {Bad : β → Prop} (hr : Chain q r [] w B)
    (hb : ∀ a s v s', B a → f a s = .ok (v, s') → Bad v)
    (hf : ∀ a b, w a = .ok b → Chain q (f a) (pre ++ b) E Bad) : Chain q (r >>= f) pre E Bad := by
  intro s v s' hs h
  obtain ⟨a, s1, h1, h2⟩ := r_bind_inv h
  obtain h0 | ⟨b1, w1, l1, k1⟩ := hr s a s1 hs h1
  · exact .inl (hb a s1 v s' h0 h2)
  rcases hf a b1 w1 s1 v s' (by omega) h2 with hb | ⟨b2, w2, l2, k2⟩
  · exact .inl hb
  · exact .inr ⟨b1 ++ b2, by rw [w2, List.append_assoc], by rw [List.length_append]; omega,
      fun hq => back_bind (k1 hq) (k2 hq) l2⟩

theorem chain_character (hr : RecOk q rec wp Bo) : Chain q (characterDecode rec) [] (characterEncode wp) (BadObject Bo "object") := by
  unfold characterDecode
  refine chain_rec hr ?_ fun o b hb => ?_
  · rintro o s v s' he h
    obtain ⟨_, s1, -, h⟩ := r_bind_inv h
    obtain ⟨_, s2, -, h⟩ := r_bind_inv h
    obtain ⟨_, s3, -, h⟩ := r_bind_inv h
    obtain ⟨rfl, rfl⟩ := r_pure_inv h
    refine ⟨o, ?_, he⟩
    simp only [dct_eq, get_vDict_cons, String.reduceEq, ↓reduceIte]
  · chain_tac
    chain_done [characterEncode]

/-! ### concrete models -/

/-- The crop plot ends early when there is no state machine. -/
theorem chain_farmState (hq : q → an = true) {X : Dict} {pre : Bytes} {E : Val → Except Err Bytes} {Bad : Val → Prop}
    (h0 : E (.dict X) = .ok pre)
    (h1 : ∀ r b p c, wFloat r = .ok b → wFloat p = .ok c → E (.dict (X ++ [(P "state_machine",
      dct [("growup_required_time", r), ("growup_progress_time", p)])])) = .ok (pre ++ b ++ c)) :
    Chain q (cmFarmState an >>= fun st => rCheckEofFor >>= fun _ => (pure (.dict (X ++ st)) : R Val)) pre E Bad := by
  have hc : Chain q (do
      let r ← rFloat an
      let p ← rFloat an
      rCheckEofFor
      (pure (.dict (X ++ [(P "state_machine", dct [("growup_required_time", r), ("growup_progress_time", p)])])) : R Val))
      pre E Bad := by
    refine chain_bind (st_float hq) fun r b hb => chain_bind (st_float hq) fun p c hc => chain_eofFor (chain_pure ?_)
    exact h1 r b p c hb hc
  intro s v s' hs h
  cases s with
  | nil =>
    obtain ⟨st, s1, e, h⟩ := r_bind_inv h
    cases e
    obtain ⟨_, s2, e, h⟩ := r_bind_inv h
    cases e
    obtain ⟨rfl, rfl⟩ := r_pure_inv h
    refine .inr ⟨[], ?_, by simp, fun _ => .inr ⟨rfl, rfl⟩⟩
    rw [List.append_nil, List.append_nil, h0]
  | cons x s =>
    have e : ∀ y t, (cmFarmState an >>= fun st => rCheckEofFor >>= fun _ => (pure (.dict (X ++ st)) : R Val)) (y :: t) =
        (do
          let r ← rFloat an
          let p ← rFloat an
          rCheckEofFor
          (pure (.dict (X ++ [(P "state_machine", dct [("growup_required_time", r), ("growup_progress_time", p)])])) : R Val))
          (y :: t) := by
      intro y t
      have : cmFarmState an (y :: t) = (do
        let r ← rFloat an
        let p ← rFloat an
        return [(P "state_machine", dct [("growup_required_time", r), ("growup_progress_time", p)])]) (y :: t) := rfl
      show R.bind _ _ _ = _
      unfold R.bind
      rw [this]
      refine Eq.trans (b := ((do
        let r ← rFloat an
        let p ← rFloat an
        return [(P "state_machine", dct [("growup_required_time", r), ("growup_progress_time", p)])]) >>=
          fun st => rCheckEofFor >>= fun _ => (pure (.dict (X ++ st)) : R Val)) (y :: t)) rfl ?_
      simp only [r_bind_assoc, r_pure_bind]
    rw [e] at h
    obtain hb | ⟨b, w, l, k⟩ := hc _ v s' hs h
    · exact .inl hb
    have hs' : s' = [] := by
      obtain ⟨_, s1, -, h⟩ := r_bind_inv h
      obtain ⟨_, s2, -, h⟩ := r_bind_inv h
      obtain ⟨_, s3, h3, h⟩ := r_bind_inv h
      obtain ⟨rfl, rfl⟩ := r_pure_inv h
      cases s2 with
      | nil => cases h3; rfl
      | cons => cases h3
    subst hs'
    refine .inr ⟨b, w, l, fun hq' => .inr ⟨rfl, ?_⟩⟩
    have hk := back_end (k hq')
    cases b with
    | nil =>
      have : ∀ f : Val → R Val, (rFloat an >>= f) [] = .error .struct := fun f => rfl
      rw [this] at hk
      cases hk
    | cons y t => rw [e, hk]

macro "cm_case" "[" ds:Lean.Parser.Tactic.simpLemma,* "]" : tactic => `(tactic|
  (simp only [$ds,*, one, pickupBase, rI32Val, rByteVal, rU32Val, rI64Val, r_bind_assoc, r_pure_bind]
   chain_tac))

/-- Which concrete models cannot be encoded: those that embed an unwritable object. -/
theorem chain_concrete (hq : q → an = true) (hr : RecOk q rec wp Bo) (c : String) (body : R Dict)
    (hb : concreteBody an rec c = some body) :
    Chain q (do
      let i ← rGuid
      let m ← rGuid
      let d ← body
      rCheckEofFor
      (return .dict ([(P "instance_id", i), (P "model_instance_id", m), (P "concrete_model_type", .str (P c))] ++ d) : R Val))
      [] (concreteEncode wp) (BadHatch Bo) := by
  have h0 := st_tarray (@st_itemAndNum q)
  have hI := @st_i32v q
  have hN := st_tarray (@st_i32v q)
  refine chain_bind st_guid fun i bi hi => chain_bind st_guid fun m bm hm => ?_
  by_cases hn : c ∈ concreteNoOp
  · rw [concreteBody, if_pos hn] at hb
    cases hb
    refine chain_eofFor ?_
    chain_done' [concreteEncode, concreteBodyEncode, isAny_P, hn, decide_true]
  rw [concreteBody, if_neg hn] at hb
  by_cases h : c = "PalMapObjectDeathDroppedCharacterModel"
  · subst h; rw [if_pos rfl] at hb; cases hb
    cm_case [cmDropped]
    chain_done' [concreteEncode, concreteBodyEncode, isAny_P, isS_P, hn, decide_true, decide_false]
  rw [if_neg h] at hb; clear h
  by_cases h : c = "PalMapObjectConvertItemModel"
  · subst h; rw [if_pos rfl] at hb; cases hb
    cm_case [cmConvert]
    chain_done' [concreteEncode, concreteBodyEncode, isAny_P, isS_P, hn, decide_true, decide_false]
  rw [if_neg h] at hb; clear h
  by_cases h : c = "PalMapObjectPickupItemOnLevelModel"
  · subst h; rw [if_pos rfl] at hb; cases hb
    cm_case [pickupBase]
    chain_done' [concreteEncode, concreteBodyEncode, isAny_P, isS_P, hn, decide_true, decide_false]
  rw [if_neg h] at hb; clear h
  by_cases h : c = "PalMapObjectDropItemModel"
  · subst h; rw [if_pos rfl] at hb; cases hb
    cm_case [cmDropItem]
    chain_done' [concreteEncode, concreteBodyEncode, isAny_P, isS_P, hn, decide_true, decide_false]
  rw [if_neg h] at hb; clear h
  by_cases h : c = "PalMapObjectItemDropOnDamagModel"
  · subst h; rw [if_pos rfl] at hb; cases hb
    cm_case [pickupBase]
    chain_done' [concreteEncode, concreteBodyEncode, isAny_P, isS_P, hn, decide_true, decide_false]
  rw [if_neg h] at hb; clear h
  by_cases h : c = "PalMapObjectDeathPenaltyStorageModel"
  · subst h; rw [if_pos rfl] at hb; cases hb
    cm_case [pickupBase]
    chain_done' [concreteEncode, concreteBodyEncode, isAny_P, isS_P, hn, decide_true, decide_false]
  rw [if_neg h] at hb; clear h
  by_cases h : c = "PalMapObjectDefenseBulletLauncherModel"
  · subst h; rw [if_pos rfl] at hb; cases hb
    cm_case [cmBullet]
    chain_done' [concreteEncode, concreteBodyEncode, isAny_P, isS_P, hn, decide_true, decide_false]
  rw [if_neg h] at hb; clear h
  by_cases h : c = "PalMapObjectGenerateEnergyModel"
  · subst h; rw [if_pos rfl] at hb; cases hb
    cm_case [pickupBase]
    chain_done' [concreteEncode, concreteBodyEncode, isAny_P, isS_P, hn, decide_true, decide_false]
  rw [if_neg h] at hb; clear h
  by_cases h : c = "PalMapObjectFarmBlockV2Model"
  · subst h; rw [if_pos rfl] at hb; cases hb
    simp only [cmFarm, r_bind_assoc, r_pure_bind]
    refine chain_bind st_str fun _ _ _ => chain_bind st_byte fun _ _ _ => chain_bind (st_float hq) fun _ _ _ =>
      chain_bind (st_float hq) fun _ _ _ => ?_
    simp only [← List.append_assoc]
    refine chain_farmState hq ?_ fun r b p c hb hc => ?_
    · simp only [concreteEncode, concreteBodyEncode, isAny_P, isS_P, hn, decide_true, decide_false, dct_eq, wAt_cons, wAt_nil,
        get_vDict_cons, get_pdict, contains_pdict, contains_pnil, List.cons_append, List.nil_append, String.reduceEq, ↓reduceIte,
        wcat_ok_cons, wcat_nil, *, Bool.false_eq_true, List.append_nil, List.append_assoc]
    · simp only [concreteEncode, concreteBodyEncode, isAny_P, isS_P, hn, decide_true, decide_false, dct_eq, wAt_cons, wAt_nil,
        get_vDict_cons, get_pdict, contains_pdict, contains_pnil, List.cons_append, List.nil_append, String.reduceEq, ↓reduceIte,
        wcat_ok_cons, wcat_nil, *, Bool.false_eq_true, List.append_nil, List.append_assoc]
  rw [if_neg h] at hb; clear h
  by_cases h : c = "PalMapObjectFastTravelPointModel"
  · subst h; rw [if_pos rfl] at hb; cases hb
    cm_case [pickupBase]
    chain_done' [concreteEncode, concreteBodyEncode, isAny_P, isS_P, hn, decide_true, decide_false]
  rw [if_neg h] at hb; clear h
  by_cases h : c = "PalMapObjectShippingItemModel"
  · subst h; rw [if_pos rfl] at hb; cases hb
    simp only [one, r_bind_assoc, r_pure_bind]
    chain_tac
    chain_done' [concreteEncode, concreteBodyEncode, isAny_P, isS_P, hn, decide_true, decide_false]
  rw [if_neg h] at hb; clear h
  by_cases h : c = "PalMapObjectProductItemModel"
  · subst h; rw [if_pos rfl] at hb; cases hb
    cm_case [cmProduct]
    chain_done' [concreteEncode, concreteBodyEncode, isAny_P, isS_P, hn, decide_true, decide_false]
  rw [if_neg h] at hb; clear h
  by_cases h : c = "PalMapObjectRecoverOtomoModel"
  · subst h; rw [if_pos rfl] at hb; cases hb
    cm_case [pickupBase]
    chain_done' [concreteEncode, concreteBodyEncode, isAny_P, isS_P, hn, decide_true, decide_false]
  rw [if_neg h] at hb; clear h
  by_cases h : c = "PalMapObjectHatchingEggModel"
  · subst h; rw [if_pos rfl] at hb; cases hb
    simp only [cmHatch, r_bind_assoc, r_pure_bind]
    refine chain_rec hr ?_ fun o b hb => ?_
    · rintro o s v s' he h
      obtain ⟨_, s1, -, h⟩ := r_bind_inv h
      obtain ⟨_, s2, -, h⟩ := r_bind_inv h
      obtain ⟨_, s3, -, h⟩ := r_bind_inv h
      obtain ⟨rfl, rfl⟩ := r_pure_inv h
      refine ⟨⟨o, ?_, he⟩, ?_⟩ <;>
      simp only [List.cons_append, List.nil_append, get_pdict, String.reduceEq, ↓reduceIte]
    · refine chain_bind st_u32 fun _ _ _ => chain_bind st_guid fun _ _ _ => chain_eofFor ?_
      chain_done' [concreteEncode, concreteBodyEncode, isAny_P, isS_P, hn, decide_true, decide_false]
  rw [if_neg h] at hb; clear h
  by_cases h : c = "PalMapObjectTreasureBoxModel"
  · subst h; rw [if_pos rfl] at hb; cases hb
    cm_case [pickupBase]
    chain_done' [concreteEncode, concreteBodyEncode, isAny_P, isS_P, hn, decide_true, decide_false]
  rw [if_neg h] at hb; clear h
  by_cases h : c = "PalMapObjectBreedFarmModel"
  · subst h; rw [if_pos rfl] at hb; cases hb
    cm_case [pickupBase]
    chain_done' [concreteEncode, concreteBodyEncode, isAny_P, isS_P, hn, decide_true, decide_false]
  rw [if_neg h] at hb; clear h
  by_cases h : c = "PalMapObjectSignboardModel"
  · subst h; rw [if_pos rfl] at hb; cases hb
    cm_case [pickupBase]
    chain_done' [concreteEncode, concreteBodyEncode, isAny_P, isS_P, hn, decide_true, decide_false]
  rw [if_neg h] at hb; clear h
  by_cases h : c = "PalMapObjectTorchModel"
  · subst h; rw [if_pos rfl] at hb; cases hb
    cm_case [pickupBase]
    chain_done' [concreteEncode, concreteBodyEncode, isAny_P, isS_P, hn, decide_true, decide_false]
  rw [if_neg h] at hb; clear h
  by_cases h : c = "PalMapObjectPalEggModel"
  · subst h; rw [if_pos rfl] at hb; cases hb
    simp only [one, rU32Val, r_bind_assoc, r_pure_bind]
    refine chain_bind st_u32 fun _ _ _ => chain_eofFor ?_
    chain_done' [concreteEncode, concreteBodyEncode, isAny_P, isS_P, hn, decide_true, decide_false]
  rw [if_neg h] at hb; clear h
  by_cases h : c = "PalMapObjectBaseCampPoint"
  · subst h; rw [if_pos rfl] at hb; cases hb
    cm_case [pickupBase]
    chain_done' [concreteEncode, concreteBodyEncode, isAny_P, isS_P, hn, decide_true, decide_false]
  rw [if_neg h] at hb
  cases hb

/-- A concrete model is kept as raw bytes, or embeds an object that cannot be written, or can be encoded. -/
theorem concrete_resave (hq : q → an = true) (hr : RecOk q rec wp Bo) (oid raw : Val) {s s' : Bytes} {v : Val}
    (hs : s.length < 2 ^ 32) (h : concreteDecode an rec oid raw s = .ok (v, s')) :
    v = dct [("values", raw)] ∨ BadHatch Bo v ∨
      ∃ b, concreteEncode wp v = .ok b ∧ b.length ≤ s.length ∧
        (q → ∀ raw', concreteDecode an rec oid raw' b = .ok (v, [])) := by
  cases oid with
  | str o =>
    unfold concreteDecode at h ⊢
    simp only at h ⊢
    cases hc : concreteClass? o with
    | none =>
      rw [hc] at h
      exact .inl (r_pure_inv h).1
    | some c =>
      rw [hc] at h
      simp only at h ⊢
      cases hb : concreteBody an rec c with
      | none =>
        rw [hb] at h
        obtain ⟨_, s1, -, h⟩ := r_bind_inv h
        obtain ⟨_, s2, -, h⟩ := r_bind_inv h
        exact .inl (r_pure_inv h).1
      | some body =>
        rw [hb] at h
        rcases chain_concrete hq hr c body hb s v s' hs h with h1 | ⟨b, h1, h2, h3⟩
        · exact .inr (.inl h1)
        · exact .inr (.inr ⟨b, h1, by omega, fun hq' _ => back_end (h3 hq')⟩)
  | _ => cases h

end Pal
