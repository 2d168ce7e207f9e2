import Verif.Lemmas.Blobs
/-
Base camp modules, work, connectors, concrete modules.
-/

set_option linter.unusedSimpArgs false

namespace Pal
open Spec

variable {m : Mode}

@[rd] theorem rpure_apply (α : Type) (a : α) (s : Bytes) : R.pure a s = .ok (a, s) := rfl

@[rd] theorem r_ite {α : Type} (c : Prop) [Decidable c] (x y : R α) (s : Bytes) :
    (if c then x else y) s = if c then x s else y s := by split <;> rfl

theorem rTry_ok {α : Type} {x : R α} {h : Err → R α} {s : Bytes} {r : α × Bytes} (e : x s = .ok r) :
    rTry x h s = .ok r := by
  simp only [rTry, e]

theorem contains_vDict (l : List (String × Val)) (k : String) :
    (vDict l).contains (P k) = .ok (decide (k ∈ l.map Prod.fst)) := by
  induction l with
  | nil => rfl
  | cons a t ih =>
    obtain ⟨a1, a2⟩ := a
    simp only [vDict, Val.contains, List.map_cons, dget?, P_inj, List.mem_cons] at ih ⊢
    by_cases h : a1 = k
    · subst h; simp
    · simp [h, Ne.symm h] at ih ⊢; exact ih

/-! ### base camp modules -/

theorem camp_noop : ∀ t ∈ ["EPalBaseCampModuleType::Energy", "EPalBaseCampModuleType::Medical",
      "EPalBaseCampModuleType::ResourceCollector", "EPalBaseCampModuleType::ItemStorages",
      "EPalBaseCampModuleType::FacilityReservation", "EPalBaseCampModuleType::ObjectMaintenance"],
    (Val.str (P t)).isAny campNoOp = true := by decide +kernel
theorem camp_transport :
    (Val.str (P "EPalBaseCampModuleType::TransportItemDirector")).isAny campNoOp = false ∧
    (Val.str (P "EPalBaseCampModuleType::TransportItemDirector")).isS
      "EPalBaseCampModuleType::TransportItemDirector" = true := by decide +kernel
theorem camp_passive :
    (Val.str (P "EPalBaseCampModuleType::PassiveEffect")).isAny campNoOp = false ∧
    (Val.str (P "EPalBaseCampModuleType::PassiveEffect")).isS
      "EPalBaseCampModuleType::TransportItemDirector" = false ∧
    (Val.str (P "EPalBaseCampModuleType::PassiveEffect")).isS
      "EPalBaseCampModuleType::PassiveEffect" = true := by decide +kernel

theorem campModule_read (c : CampModule m) (raw : Val) (rest : Bytes) :
    campModuleDecode m.an (.str (P c.type)) raw (c.enc ++ rest) = .ok (c.val, rest) := by
  cases c with
  | noData t h =>
    simp only [r_ite, ↓reduceIte, campModuleDecode, CampModule.type, camp_noop t h, if_true, rd]; rfl
  | transport l =>
    simp only [r_ite, ↓reduceIte, campModuleDecode, CampModule.type, camp_transport, if_true, if_false, Bool.false_eq_true]
    apply rTry_ok
    simp only [CampModule.enc, rd, rTArray_eList transportInfo_read]; rfl
  | passive l =>
    simp only [r_ite, ↓reduceIte, campModuleDecode, CampModule.type, camp_passive, if_true, if_false, Bool.false_eq_true]
    apply rTry_ok
    simp only [CampModule.enc, rd, rTArray_eList passiveEffect_read]; rfl

theorem campModule_write (c : CampModule m) : campModuleEncode (.str (P c.type)) c.val = .ok c.enc := by
  cases c with
  | noData t h => simp only [campModuleEncode, CampModule.type, camp_noop t h, if_true]; rfl
  | transport l =>
    simp [campModuleEncode, CampModule.type, camp_transport, CampModule.val, CampModule.enc,
      wTArray_v transportInfo_write, wr]
  | passive l =>
    simp [campModuleEncode, CampModule.type, camp_passive, CampModule.val, CampModule.enc,
      wTArray_v passiveEffect_write, wr]

theorem campModule_jok (hj : m.json = true) (c : CampModule m) : JOk m.an c.val := by
  have h1 := passiveEffect_jok m.an
  have h2 := @transportInfo_jok m hj
  cases c with
  | noData t h => unfold CampModule.val; jok_tac
  | transport l =>
    unfold CampModule.val
    have := jok_list _ h2 l
    clear h2
    jok_tac
  | passive l =>
    unfold CampModule.val
    have := jok_list _ h1 l
    jok_tac

/-! ### work -/

theorem assignLoc_read (a : Vec m × Vec m) (rest : Bytes) :
    assignLocationDecode m.an (eAssignLoc a ++ rest) = .ok (vAssignLoc a, rest) := by
  simp only [assignLocationDecode, eAssignLoc, rd]; rfl
theorem assignLoc_write (a : Vec m × Vec m) : assignLocationEncode (vAssignLoc a) = .ok (eAssignLoc a) := by
  simp [assignLocationEncode, vAssignLoc, eAssignLoc, wr]
theorem assignLoc_jok (hj : m.json = true) (a : Vec m × Vec m) : JOk m.an (vAssignLoc a) := by
  have h1 := jok_vec hj a.1
  have h2 := jok_vec hj a.2
  unfold vAssignLoc; jok_tac

theorem workBase_read (w : WorkBase m) (rest : Bytes) :
    workBaseDecode m.an (w.enc ++ rest) = .ok (w.entries.map fun kv => (P kv.1, kv.2), rest) := by
  simp only [workBaseDecode, WorkBase.enc, rd, rTArray_eList assignLoc_read]; rfl

theorem individual_read (i : Guid × Guid) (rest : Bytes) :
    individualIdDecode (eHandle i ++ rest) = .ok (vIndividual i, rest) := by
  simp only [individualIdDecode, eHandle, rd]; rfl

theorem plain_types : ∀ t ∈ plainWork, (Val.str (P t)).isAny workBaseTypes = true ∧
    (Val.str (P t)).isS "EPalWorkableType::Defense" = false ∧
    (Val.str (P t)).isS "EPalWorkableType::Progress" = false ∧
    (Val.str (P t)).isS "EPalWorkableType::ReviveCharacter" = false := by decide +kernel
theorem defense_type : (Val.str (P "EPalWorkableType::Defense")).isAny workBaseTypes = true ∧
    (Val.str (P "EPalWorkableType::Defense")).isS "EPalWorkableType::Defense" = true := by decide +kernel
theorem progress_type : (Val.str (P "EPalWorkableType::Progress")).isAny workBaseTypes = true ∧
    (Val.str (P "EPalWorkableType::Progress")).isS "EPalWorkableType::Defense" = false ∧
    (Val.str (P "EPalWorkableType::Progress")).isS "EPalWorkableType::Progress" = true := by decide +kernel
theorem revive_type : (Val.str (P "EPalWorkableType::ReviveCharacter")).isAny workBaseTypes = true ∧
    (Val.str (P "EPalWorkableType::ReviveCharacter")).isS "EPalWorkableType::Defense" = false ∧
    (Val.str (P "EPalWorkableType::ReviveCharacter")).isS "EPalWorkableType::Progress" = false ∧
    (Val.str (P "EPalWorkableType::ReviveCharacter")).isS "EPalWorkableType::ReviveCharacter" = true := by
  decide +kernel
theorem assign_type : (Val.str (P "EPalWorkableType::Assign")).isAny workBaseTypes = false ∧
    (Val.str (P "EPalWorkableType::Assign")).isAny workAssignTypes = true ∧
    (Val.str (P "EPalWorkableType::Assign")).isS "EPalWorkableType::LevelObject" = false := by decide +kernel

theorem workBody_type (b : WorkBody m) : (Val.str (P b.type)).isAny workBaseTypes = true ∨
    (Val.str (P b.type)).isAny workBaseTypes = false ∧ (Val.str (P b.type)).isAny workAssignTypes = true := by
  cases b with
  | plain t h _ => exact .inl (plain_types t h).1
  | defense => exact .inl defense_type.1
  | progress => exact .inl progress_type.1
  | revive => exact .inl revive_type.1
  | assign => exact .inr ⟨assign_type.1, assign_type.2.1⟩

theorem workBody_read (b : WorkBody m) (rest : Bytes) :
    workBodyDecode m.an (.str (P b.type)) (b.enc ++ rest) =
      .ok (b.entries.map fun kv => (P kv.1, kv.2), rest) := by
  cases b with
  | plain t h w =>
    simp only [r_ite, ↓reduceIte, workBodyDecode, workExtraDecode, WorkBody.type, WorkBody.enc, rd, workBase_read, plain_types t h,
      if_true, if_false, Bool.false_eq_true, WorkBody.entries, List.append_nil]
  | defense w c =>
    simp only [r_ite, ↓reduceIte, workBodyDecode, workExtraDecode, WorkBody.type, WorkBody.enc, rd, workBase_read, defense_type,
      if_true, if_false, Bool.false_eq_true, WorkBody.entries, List.map_append]
    rfl
  | progress w r e c a =>
    simp only [r_ite, ↓reduceIte, workBodyDecode, workExtraDecode, WorkBody.type, WorkBody.enc, rd, workBase_read, progress_type,
      if_true, if_false, Bool.false_eq_true, WorkBody.entries, List.map_append]
    rfl
  | revive w t =>
    simp only [r_ite, ↓reduceIte, workBodyDecode, workExtraDecode, WorkBody.type, WorkBody.enc, rd, workBase_read, revive_type,
      if_true, if_false, Bool.false_eq_true, WorkBody.entries, List.map_append, individual_read]
    rfl
  | assign h i t w s f =>
    simp only [r_ite, ↓reduceIte, workBodyDecode, workAssignDecode, WorkBody.type, WorkBody.enc, rd, assign_type,
      if_true, if_false, Bool.false_eq_true, WorkBody.entries, individual_read]
    rfl

theorem workTransform_read (t : WorkTransform m) (rest : Bytes) :
    workTransformDecode m.an (t.enc ++ rest) = .ok (t.val, rest) := by
  cases t with
  | direct t =>
    have h : ∀ s, rByte ([1] ++ s) = .ok (1, s) := fun _ => rfl
    simp only [r_ite, ↓reduceIte, workTransformDecode, WorkTransform.enc, eTransform, rd, h, if_true]
    rfl
  | object g =>
    have h : ∀ s, rByte ([2] ++ s) = .ok (2, s) := fun _ => rfl
    simp only [r_ite, ↓reduceIte, workTransformDecode, WorkTransform.enc, rd, h, if_true, show ¬ (2 = 1) by decide, if_false]
    rfl
  | handle g i =>
    have h : ∀ s, rByte ([3] ++ s) = .ok (3, s) := fun _ => rfl
    simp only [r_ite, ↓reduceIte, workTransformDecode, WorkTransform.enc, rd, h, if_true, show ¬ (3 = 1) by decide,
      show ¬ (3 = 2) by decide, if_false]
    rfl

theorem work_read (w : Work m) (raw : Val) (rest : Bytes) :
    workDecode m.an (.str (P w.body.type)) raw (w.enc ++ rest) = finFor w.val rest := by
  have h : ((Val.str (P w.body.type)).isAny workBaseTypes || (Val.str (P w.body.type)).isAny workAssignTypes)
      = true := by
    rcases workBody_type w.body with h | ⟨h1, h2⟩
    · rw [h]; rfl
    · rw [h1, h2]; rfl
  simp only [r_ite, ↓reduceIte, workDecode, h, if_true, Work.enc, rd, workBody_read, workTransform_read, finFor, Work.val, vDict,
    List.map_append, List.map_cons, List.map_nil]

theorem workBody_write (b : WorkBody m) (t : Val) :
    (match (Val.str (P b.type)) with
    | .list _ | .dict _ => Except.error Err.type
    | _ =>
    if (Val.str (P b.type)).isAny workBaseTypes then
      wcat [workBaseEncode (vDict (b.entries ++ [("transform", t)])),
        workExtraEncode (Val.str (P b.type)) (vDict (b.entries ++ [("transform", t)]))]
    else if (Val.str (P b.type)).isAny workAssignTypes then
      workAssignEncode (Val.str (P b.type)) (vDict (b.entries ++ [("transform", t)]))
    else .ok []) = .ok b.enc := by
  have hb : ∀ (w : WorkBase m) (l : List (String × Val)), workBaseEncode (vDict (w.entries ++ l)) = .ok w.enc := by
    intro w l
    simp [workBaseEncode, WorkBase.entries, WorkBase.enc, wTArray_v assignLoc_write, wr]
  cases b with
  | plain t h w =>
    simp [WorkBody.type, plain_types t h, WorkBody.entries, hb, workExtraEncode, WorkBody.enc, wr]
  | defense w c =>
    simp [WorkBody.type, defense_type, WorkBody.entries, hb, workExtraEncode, WorkBody.enc, WorkBase.entries, wr]
    have := hb w [("defense_combat_type", vU c), ("transform", t)]
    simp only [WorkBase.entries, List.cons_append, List.nil_append] at this
    simp [this, wr]
  | progress w r e c a =>
    have := hb w [("required_work_amount", vF32 r), ("work_exp", vI e),
      ("current_work_amount", vF32 c), ("auto_work_self_amount_by_sec", vF32 a), ("transform", t)]
    simp only [WorkBase.entries, List.cons_append, List.nil_append] at this
    simp [WorkBody.type, progress_type, WorkBody.entries, workExtraEncode, WorkBody.enc, WorkBase.entries, this, wr]
  | revive w i =>
    have := hb w [("target_individual_id", vIndividual i), ("transform", t)]
    simp only [vIndividual, WorkBase.entries, List.cons_append, List.nil_append] at this
    simp [WorkBody.type, revive_type, WorkBody.entries, workExtraEncode, WorkBody.enc, WorkBase.entries, this, wr,
      vIndividual, eHandle]
  | assign h i t w s f =>
    simp [WorkBody.type, assign_type, WorkBody.entries, workAssignEncode, WorkBody.enc, wr, vIndividual, eHandle]

theorem workTransform_write (t : WorkTransform m) (l : List (String × Val)) (hl : "transform" ∉ l.map Prod.fst) :
    workTransformEncode (vDict (l ++ [("transform", t.val)])) = .ok t.enc := by
  have hg : ∀ l : List (String × Val), "transform" ∉ l.map Prod.fst →
      (vDict (l ++ [("transform", t.val)])).get (P "transform") = .ok t.val := by
    intro l hl
    induction l with
    | nil => simp [wr]
    | cons a l ih =>
      obtain ⟨a1, a2⟩ := a
      simp only [List.map_cons, List.mem_cons, not_or] at hl
      simp only [List.cons_append, wr, if_neg (Ne.symm hl.1), ih hl.2]
  simp only [workTransformEncode, wr, hg l hl]
  cases t with
  | direct t =>
    have h2 : wByte (.int 1) = .ok [1] := rfl
    simp [WorkTransform.val, WorkTransform.enc, wr, Val.isI, h2]
    have hc : (vDict [("type", .int 1), ("v2", .int 0), ("rotation", vQuat t.rotation),
      ("translation", vVec t.translation), ("scale3d", vVec t.scale)]).contains (P "v2") = .ok true := rfl
    simp [hc, wFTransform, eTransform, wr]
  | object g =>
    have h2 : wByte (.int 2) = .ok [2] := rfl
    simp [WorkTransform.val, WorkTransform.enc, wr, Val.isI, h2]
  | handle g i =>
    have h2 : wByte (.int 3) = .ok [3] := rfl
    simp [WorkTransform.val, WorkTransform.enc, wr, Val.isI, h2]

theorem workBody_transform (b : WorkBody m) : "transform" ∉ b.entries.map Prod.fst := by
  cases b <;> simp [WorkBody.entries, WorkBase.entries]

theorem work_write (w : Work m) : workEncode (.str (P w.body.type)) w.val = .ok w.enc := by
  have h1 := workBody_write w.body w.transform.val
  have h2 := workTransform_write w.transform w.body.entries (workBody_transform w.body)
  simp only [workEncode, Work.val, h1, h2, Work.enc, wr, List.append_nil]

theorem individual_jok (an : Bool) (i : Guid × Guid) : JOk an (vIndividual i) := by
  unfold vIndividual; jok_tac

theorem workTransform_jok (hj : m.json = true) (t : WorkTransform m) : JOk m.an t.val := by
  cases t with
  | direct t =>
    have h1 := jok_vec hj t.translation
    have h2 := jok_vec hj t.scale
    have h3 := jok_quat hj t.rotation
    unfold WorkTransform.val; jok_tac
  | object g => unfold WorkTransform.val; jok_tac
  | handle g i => unfold WorkTransform.val; jok_tac

theorem work_jok (hj : m.json = true) (w : Work m) : JOk m.an w.val := by
  obtain ⟨b, t⟩ := w
  have ht := workTransform_jok hj t
  have hv := @jok_vec m hj
  have hq := @jok_quat m hj
  have hi := individual_jok m.an
  have ha := @assignLoc_jok m hj
  have key : ∀ (w : WorkBase m) (l : List (String × Val)),
      keysOk ((w.entries ++ l).map Prod.fst) = true → (∀ kv ∈ l, JOk m.an kv.2) →
      JOk m.an (vDict (w.entries ++ l)) := by
    intro w l hk hl
    have a1 := hv w.location
    have a2 := hv w.origin
    have a3 := hv w.extent
    have a4 := hq w.rotation
    have a5 := jok_list _ ha w.assign
    clear hv hq ha hi
    refine jok_dict _ _ hk ?_
    intro kv hkv
    rcases List.mem_append.1 hkv with h | h
    · revert kv
      suffices ∀ kv ∈ w.entries, JOk m.an kv.2 from fun kv _ h => this kv h
      unfold WorkBase.entries
      jok_tac
    · exact hl kv h
  cases b with
  | plain p h w =>
    simp only [Work.val, WorkBody.entries]
    refine key w _ ?_ ?_
    · simp only [WorkBase.entries, List.cons_append, List.nil_append, List.map_cons, List.map_nil]; decide +kernel
    · clear hv hq ha hi key; jok_tac
  | defense w c =>
    simp only [Work.val, WorkBody.entries, List.append_assoc]
    refine key w _ ?_ ?_
    · simp only [WorkBase.entries, List.cons_append, List.nil_append, List.map_cons, List.map_nil]; decide +kernel
    · clear hv hq ha hi key; simp only [List.cons_append, List.nil_append]; jok_tac
  | progress w r e c a =>
    simp only [Work.val, WorkBody.entries, List.append_assoc]
    refine key w _ ?_ ?_
    · simp only [WorkBase.entries, List.cons_append, List.nil_append, List.map_cons, List.map_nil]; decide +kernel
    · clear hv hq ha hi key; simp only [List.cons_append, List.nil_append]; jok_tac
  | revive w i =>
    simp only [Work.val, WorkBody.entries, List.append_assoc]
    have hi := hi i
    refine key w _ ?_ ?_
    · simp only [WorkBase.entries, List.cons_append, List.nil_append, List.map_cons, List.map_nil]; decide +kernel
    · clear hv hq ha key; simp only [List.cons_append, List.nil_append]; jok_tac
  | assign h i t' w s f =>
    have hi := hi w
    clear hv hq ha key
    simp only [Work.val, WorkBody.entries, List.cons_append, List.nil_append]
    jok_tac

theorem workAssign_read (w : WorkAssign) (rest : Bytes) :
    workAssignBytesDecode (w.enc ++ rest) = fin w.val rest := by
  simp only [workAssignBytesDecode, WorkAssign.enc, rd, individual_read]; rfl
theorem workAssign_write (w : WorkAssign) : workAssignBytesEncode w.val = .ok w.enc := by
  simp [workAssignBytesEncode, WorkAssign.val, WorkAssign.enc, vIndividual, eHandle, wr]
theorem workAssign_jok (an : Bool) (w : WorkAssign) : JOk an w.val := by
  have := individual_jok an w.who
  unfold WorkAssign.val; jok_tac

/-! ### connectors -/

theorem eOther_length (c : BitVec 8 × Lst (Guid × BitVec 8)) : 0 < (eOther c).length := by
  rw [eOther, List.length_append, e8, lit_length]; omega

theorem others_read : ∀ (l : List (BitVec 8 × Lst (Guid × BitVec 8))) (n : Nat), l.length ≤ n →
    otherConnectors n (l.flatMap eOther) = .ok (l.map vOther, [])
  | [], 0, _ => rfl
  | [], _ + 1, _ => rfl
  | c :: t, 0, h => by simp at h
  | c :: t, n + 1, h => by
    have ih := others_read t n (by simpa using h)
    have hne : 0 < ((c :: t).flatMap eOther).length := by
      have := eOther_length c
      rw [List.flatMap_cons, List.length_append]
      omega
    have hr := other_read c (t.flatMap eOther)
    rw [← List.flatMap_cons] at hr
    cases hs : (c :: t).flatMap eOther with
    | nil => rw [hs] at hne; simp at hne
    | cons x y =>
      rw [hs] at hr
      simp only [otherConnectors, rd, hr, ih, List.map_cons]

theorem others_length (l : List (BitVec 8 × Lst (Guid × BitVec 8))) : l.length ≤ (l.flatMap eOther).length := by
  induction l with
  | nil => simp
  | cons c t ih =>
    have := eOther_length c
    rw [List.flatMap_cons, List.length_append, List.length_cons]
    omega

theorem connector_read (c : Connector) : connectorDecode c.enc = .ok (c.val, []) := by
  have h1 : ∀ s, rEof s = .ok (s.isEmpty, s) := fun _ => rfl
  have h2 : ∀ s, rRemaining s = .ok (s.length, s) := fun _ => rfl
  simp only [connectorDecode, Connector.enc, rd, rTArray_eList connect_read, h1, h2,
    others_read c.others _ (others_length c.others)]
  by_cases hc : c.others = []
  · simp [Connector.val, hc, vDict, dct, vU, vI]
  · have : (c.others.flatMap eOther).isEmpty = false := by
      cases hl : c.others with
      | nil => exact absurd hl hc
      | cons a t =>
        have := eOther_length a
        rw [List.flatMap_cons]
        cases he : eOther a with
        | nil => rw [he] at this; simp at this
        | cons => rfl
    simp [Connector.val, hc, vDict, dct, vU, vI, this]

theorem connector_write (c : Connector) : connectorEncode c.val = .ok c.enc := by
  by_cases hc : c.others = []
  · have h1 : (vDict [("supported_level", vI c.level),
      ("connect", vDict [("index", vU c.index), ("any_place", vList vConnect c.anyPlace)])]).contains
        (P "other_connectors") = .ok false := by rw [contains_vDict]; rfl
    simp [connectorEncode, Connector.val, Connector.enc, hc, h1, wTArray_v connect_write, wr]
  · have h1 : (vDict [("supported_level", vI c.level),
      ("connect", vDict [("index", vU c.index), ("any_place", vList vConnect c.anyPlace)]),
      ("other_connectors", .list (c.others.map vOther))]).contains
        (P "other_connectors") = .ok true := by rw [contains_vDict]; rfl
    simp [connectorEncode, Connector.val, Connector.enc, hc, h1, wTArray_v connect_write, wr, Val.iterItems,
      wItems_enc other_write]

theorem connector_jok (an : Bool) (c : Connector) : JOk an c.val := by
  have h1 := connect_jok an
  have h2 : JOk an (.list (c.others.map vOther)) := by
    simp only [JOk, jokL_iff, List.mem_map]
    rintro v ⟨p, _, rfl⟩
    exact other_jok an p
  have h3 := jok_list _ h1 c.anyPlace
  clear h1
  unfold Connector.val
  split
  · simp only [List.append_nil]; jok_tac
  · simp only [List.cons_append, List.nil_append]; jok_tac

theorem connector_ne (c : Connector) : c.enc ≠ [] := by
  intro h
  have := congrArg List.length h
  simp [Connector.enc, e32, lit_length] at this

/-! ### concrete modules -/

theorem mod_items : (Val.str (P "EPalMapObjectConcreteModelModuleType::ItemContainer")).isS
    "EPalMapObjectConcreteModelModuleType::ItemContainer" = true := by decide +kernel
theorem mod_chars : (Val.str (P "EPalMapObjectConcreteModelModuleType::CharacterContainer")).isS
    "EPalMapObjectConcreteModelModuleType::ItemContainer" = false ∧
    (Val.str (P "EPalMapObjectConcreteModelModuleType::CharacterContainer")).isS
    "EPalMapObjectConcreteModelModuleType::CharacterContainer" = true := by decide +kernel
theorem mod_workee : (Val.str (P "EPalMapObjectConcreteModelModuleType::Workee")).isS
    "EPalMapObjectConcreteModelModuleType::ItemContainer" = false ∧
    (Val.str (P "EPalMapObjectConcreteModelModuleType::Workee")).isS
    "EPalMapObjectConcreteModelModuleType::CharacterContainer" = false ∧
    (Val.str (P "EPalMapObjectConcreteModelModuleType::Workee")).isS
    "EPalMapObjectConcreteModelModuleType::Workee" = true := by decide +kernel
theorem mod_switch : (Val.str (P "EPalMapObjectConcreteModelModuleType::Switch")).isS
    "EPalMapObjectConcreteModelModuleType::ItemContainer" = false ∧
    (Val.str (P "EPalMapObjectConcreteModelModuleType::Switch")).isS
    "EPalMapObjectConcreteModelModuleType::CharacterContainer" = false ∧
    (Val.str (P "EPalMapObjectConcreteModelModuleType::Switch")).isS
    "EPalMapObjectConcreteModelModuleType::Workee" = false ∧
    (Val.str (P "EPalMapObjectConcreteModelModuleType::Switch")).isS
    "EPalMapObjectConcreteModelModuleType::Switch" = true := by decide +kernel
theorem mod_lock : (Val.str (P "EPalMapObjectConcreteModelModuleType::PasswordLock")).isS
    "EPalMapObjectConcreteModelModuleType::ItemContainer" = false ∧
    (Val.str (P "EPalMapObjectConcreteModelModuleType::PasswordLock")).isS
    "EPalMapObjectConcreteModelModuleType::CharacterContainer" = false ∧
    (Val.str (P "EPalMapObjectConcreteModelModuleType::PasswordLock")).isS
    "EPalMapObjectConcreteModelModuleType::Workee" = false ∧
    (Val.str (P "EPalMapObjectConcreteModelModuleType::PasswordLock")).isS
    "EPalMapObjectConcreteModelModuleType::Switch" = false ∧
    (Val.str (P "EPalMapObjectConcreteModelModuleType::PasswordLock")).isS
    "EPalMapObjectConcreteModelModuleType::PasswordLock" = true := by decide +kernel

theorem module_body_read (d : Module) (rest : Bytes) :
    moduleBodyDecode (.str (P d.type)) (d.enc ++ rest) = .ok (d.val, rest) := by
  cases d with
  | items c s a dr u =>
    simp only [r_ite, ↓reduceIte, moduleBodyDecode, Module.type, mod_items, moduleItemDecode, Module.enc, rd,
      rTArray_eList slotIx_read, rTArray_eList rByteVal_e]
    rfl
  | characters c =>
    simp only [r_ite, ↓reduceIte, moduleBodyDecode, Module.type, mod_chars, guidDict, Module.enc, rd,
      Bool.false_eq_true]
    rfl
  | workee w =>
    simp only [r_ite, ↓reduceIte, moduleBodyDecode, Module.type, mod_workee, guidDict, Module.enc, rd,
      Bool.false_eq_true]
    rfl
  | switch s =>
    simp only [r_ite, ↓reduceIte, moduleBodyDecode, Module.type, mod_switch, moduleSwitchDecode, Module.enc, rd,
      Bool.false_eq_true]
    rfl
  | lock s p i =>
    simp only [r_ite, ↓reduceIte, moduleBodyDecode, Module.type, mod_lock, moduleLockDecode, Module.enc, rd,
      Bool.false_eq_true, rTArray_eList lockInfo_read]
    rfl

theorem module_read (d : Module) (rest : Bytes) :
    concreteModuleDecode (.str (P d.type)) (d.enc ++ rest) = finFor d.val rest := by
  simp only [concreteModuleDecode, rd, module_body_read, finFor]

theorem module_write (d : Module) : concreteModuleEncode (.str (P d.type)) d.val = .ok d.enc := by
  cases d with
  | items c s a dr u =>
    simp [concreteModuleEncode, Module.type, mod_items, Module.val, Module.enc, wTArray_v slotIx_write,
      wTArray_v wByte_v, wr]
  | characters c => simp [concreteModuleEncode, Module.type, mod_chars, Module.val, Module.enc, wr]
  | workee w => simp [concreteModuleEncode, Module.type, mod_workee, Module.val, Module.enc, wr]
  | switch s => simp [concreteModuleEncode, Module.type, mod_switch, Module.val, Module.enc, wr]
  | lock s p i =>
    simp [concreteModuleEncode, Module.type, mod_lock, Module.val, Module.enc, wTArray_v lockInfo_write, wr]

theorem module_jok (an : Bool) (d : Module) : JOk an d.val := by
  have h1 := slotIx_jok an
  have h2 := lockInfo_jok an
  cases d with
  | items c s a dr u =>
    have := jok_list _ h1 s
    clear h1 h2
    unfold Module.val; jok_tac
  | lock s p i =>
    have := jok_list _ h2 i
    clear h1 h2
    unfold Module.val; jok_tac
  | _ => clear h1 h2; unfold Module.val; jok_tac

theorem module_ne (d : Module) : d.enc ≠ [] := by
  intro h
  have := congrArg List.length h
  have hg : ∀ g : Guid, (eGuid g).length = 16 := fun g => g.2
  cases d <;> simp [Module.enc, e8, lit_length, hg] at this

end Pal
