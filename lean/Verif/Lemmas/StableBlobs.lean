import Verif.Lemmas.Stable
/-
Decoding and encoding again, for each kind of blob (`Lemmas/Stable.lean`).
-/

set_option linter.unusedSimpArgs false

namespace Pal
open Spec

variable {q : Prop} {an : Bool}

macro "chain_done" "[" ds:Lean.Parser.Tactic.simpLemma,* "]" : tactic => `(tactic|
  (refine chain_pure ?_
   simp only [$ds,*, dct_eq, wAt_cons, wAt_nil, get_vDict_cons, String.reduceEq, ↓reduceIte, wcat_ok_cons, wcat_nil, *, List.nil_append,
     List.append_nil, List.append_assoc]))

theorem st_itemAndNum : St q itemAndNumDecode itemAndNumEncode := by
  refine st_of_chain ?_
  unfold itemAndNumDecode
  chain_tac
  chain_done [itemAndNumEncode]

theorem st_charContainer : St q charContainerDecode charContainerEncode := by
  refine st_of_chain ?_
  unfold charContainerDecode
  chain_tac
  chain_done [charContainerEncode]

theorem st_vector (hq : q → an = true) : St q (rVectorDict an) wVectorDict := by
  refine st_of_chain ?_
  unfold rVectorDict
  chain_tac
  chain_done [wVectorDict]

theorem st_quat (hq : q → an = true) : St q (rQuatDict an) wQuatDict := by
  refine st_of_chain ?_
  unfold rQuatDict
  chain_tac
  chain_done [wQuatDict]

theorem st_transform (hq : q → an = true) : St q (rFTransform an) wFTransform := by
  have h1 := @st_vector q an hq
  have h2 := @st_quat q an hq
  refine st_of_chain ?_
  unfold rFTransform
  chain_tac
  chain_done [wFTransform]

theorem st_instanceId : St q rInstanceId wInstanceId := by
  refine st_of_chain ?_
  unfold rInstanceId
  chain_tac
  chain_done [wInstanceId]

theorem st_baseCamp (hq : q → an = true) : St q (baseCampDecode an) baseCampEncode := by
  have h1 := @st_transform q an hq
  refine st_of_chain ?_
  unfold baseCampDecode
  chain_tac
  chain_done [baseCampEncode]

theorem st_workerDirector (hq : q → an = true) : St q (workerDirectorDecode an) workerDirectorEncode := by
  have h1 := @st_transform q an hq
  refine st_of_chain ?_
  unfold workerDirectorDecode
  chain_tac
  chain_done [workerDirectorEncode]

theorem st_workCollection : St q workCollectionDecode workCollectionEncode := by
  refine st_of_chain ?_
  unfold workCollectionDecode
  chain_tac
  chain_done [workCollectionEncode]

theorem st_mapModel (hq : q → an = true) : St q (mapModelDecode an) mapModelEncode := by
  have h1 := @st_transform q an hq
  refine st_of_chain ?_
  unfold mapModelDecode
  chain_tac
  chain_done [mapModelEncode]

theorem st_buildProcess : St q buildProcessDecode buildProcessEncode := by
  refine st_of_chain ?_
  unfold buildProcessDecode
  chain_tac
  chain_done [buildProcessEncode]

theorem st_foliageModel : St q foliageModelDecode foliageModelEncode := by
  refine st_of_chain ?_
  unfold foliageModelDecode
  chain_tac
  chain_done [foliageModelEncode]

theorem st_permission : St q permissionDecode fun p => permissionEncode (dct [("permission", p)]) := by
  refine st_of_chain ?_
  unfold permissionDecode
  chain_tac
  chain_done [permissionEncode]

theorem st_itemContainer : St q itemContainerDecode itemContainerEncode := by
  refine st_of_chain ?_
  unfold itemContainerDecode permissionDecode
  simp only [r_bind_assoc, r_pure_bind]
  chain_tac
  chain_done [itemContainerEncode, permissionEncode]

theorem st_itemContainerSlots (hq : q → an = true) : St q (itemContainerSlotsDecode an) itemContainerSlotsEncode := by
  refine st_of_chain ?_
  unfold itemContainerSlotsDecode permissionDecode
  simp only [r_bind_assoc, r_pure_bind]
  chain_tac
  chain_done [itemContainerSlotsEncode, permissionEncode]

theorem st_connectInfo : St q connectInfoDecode connectInfoEncode := by
  refine st_of_chain ?_
  unfold connectInfoDecode
  chain_tac
  chain_done [connectInfoEncode]

theorem st_otherConnector : St q otherConnectorDecode otherConnectorEncode := by
  have h1 := st_tarray (@st_connectInfo q)
  refine st_of_chain ?_
  unfold otherConnectorDecode
  chain_tac
  chain_done [otherConnectorEncode]

theorem st_slotIndexes : St q slotIndexesDecode slotIndexesEncode := by
  refine st_of_chain ?_
  unfold slotIndexesDecode
  chain_tac
  chain_done [slotIndexesEncode]

theorem st_lockInfo : St q lockInfoDecode lockInfoEncode := by
  refine st_of_chain ?_
  unfold lockInfoDecode
  chain_tac
  chain_done [lockInfoEncode]

theorem st_transportInfo (hq : q → an = true) : St q (transportInfoDecode an) transportInfoEncode := by
  have h1 := st_tarray (@st_itemAndNum q)
  have h2 := @st_vector q an hq
  refine st_of_chain ?_
  unfold transportInfoDecode
  chain_tac
  chain_done [transportInfoEncode]

theorem st_assignLocation (hq : q → an = true) : St q (assignLocationDecode an) assignLocationEncode := by
  have h2 := @st_vector q an hq
  refine st_of_chain ?_
  unfold assignLocationDecode
  chain_tac
  chain_done [assignLocationEncode]

theorem st_workAssignBytes : St q workAssignBytesDecode workAssignBytesEncode := by
  refine st_of_chain ?_
  unfold workAssignBytesDecode individualIdDecode
  simp only [r_bind_assoc, r_pure_bind]
  chain_tac
  chain_done [workAssignBytesEncode]

/-! ### dicts built in pieces -/

theorem get_pdict (k k' : String) (x : Val) (t : Dict) :
    (Val.dict ((P k', x) :: t)).get (P k) = if k' = k then .ok x else (Val.dict t).get (P k) := by
  simp only [Val.get, dget?, P_inj]
  by_cases h : k' = k <;> simp only [h, ↓reduceIte]

theorem contains_pdict (k k' : String) (x : Val) (t : Dict) :
    (Val.dict ((P k', x) :: t)).contains (P k) = if k' = k then .ok true else (Val.dict t).contains (P k) := by
  simp only [Val.contains, dget?, P_inj]
  split <;> rfl

theorem contains_pnil (k : PyStr) : (Val.dict []).contains k = .ok false := rfl

macro "chain_done'" "[" ds:Lean.Parser.Tactic.simpLemma,* "]" : tactic => `(tactic|
  (refine chain_pure ?_
   simp only [$ds,*, dct_eq, wAt_cons, wAt_nil, get_vDict_cons, get_pdict, contains_pdict, contains_pnil, List.cons_append,
     List.nil_append, String.reduceEq, ↓reduceIte,
     wcat_ok_cons, wcat_nil, *, Bool.false_eq_true, List.append_nil, List.append_assoc]))

/-! ### group -/

theorem st_guildPlayer : St q guildPlayerDecode guildPlayerEncode := by
  refine st_of_chain ?_
  unfold guildPlayerDecode playerInfoDecode
  simp only [r_bind_assoc, r_pure_bind]
  chain_tac
  chain_done [guildPlayerEncode]

/-- group.py:63-75, the players alone -/
def playersR : R Val := do
  let n ← rI32
  let l ← rRepeat guildPlayerDecode n.toNat
  return .list l

theorem players_list {l : List Val} {b1 b2 : Bytes} (h1 : wI32 (.int l.length) = .ok b1)
    (h2 : wcat (l.map guildPlayerEncode) = .ok b2) : guildPlayersEncode (.list l) = .ok (b1 ++ b2) := by
  have e : guildPlayersEncode (.list l) = wcat [wI32 (.int l.length), wItems guildPlayerEncode l] := rfl
  have h2 : wItems guildPlayerEncode l = .ok b2 := h2
  rw [e, h1, h2]
  simp only [wcat, List.append_nil]

theorem st_players : St q playersR guildPlayersEncode := by
  intro s v s' hs h
  obtain ⟨n, s1, h1, h⟩ := r_bind_inv h
  obtain ⟨l, s2, h2, h⟩ := r_bind_inv h
  obtain ⟨rfl, rfl⟩ := r_pure_inv h
  have hn := repeat_length h2
  obtain ⟨m, hm, hnm, hl⟩ := inv_signed h1
  have h3 : -(256 ^ 4 : Int) ≤ 2 * (l.length : Int) ∧ 2 * (l.length : Int) < 256 ^ 4 := by
    split at hnm <;> omega
  have w1 : wI32 (.int l.length) = .ok _ := wSigned_in 4 _ h3
  have k1 : ∀ t, rI32 (leBytes 4 ((l.length : Int) % 256 ^ 4).toNat ++ t) = .ok ((l.length : Int), t) :=
    fun t => rSigned_le 4 _ t h3
  have hl1 : (leBytes 4 ((l.length : Int) % 256 ^ 4).toNat).length = 4 := leBytes_length _ _
  generalize leBytes 4 ((l.length : Int) % 256 ^ 4).toNat = b1 at w1 k1 hl1
  obtain ⟨b2, w2, l2, k2⟩ := st_repeat (@st_guildPlayer q) _ s1 l _ (by omega) h2
  refine ⟨b1 ++ b2, players_list w1 w2, by rw [List.length_append]; omega, fun hq => ?_⟩
  refine back_bind (.inl k1) ?_ l2
  have := back_bind (k2 hq) (f := fun l => (pure (Val.list l) : R Val)) (v := .list l) (b2 := []) (s2 := s')
    (.inl fun t => rfl) (by simp)
  rw [List.append_nil] at this
  rwa [show ((l.length : Int)).toNat = n.toNat by omega]

theorem groupPlayers_eq : groupPlayers = (do
    let a ← rGuid
    let p ← playersR
    return [(P "admin_player_uid", a), (P "players", p)]) := by
  simp only [groupPlayers, playersR, r_bind_assoc, r_pure_bind]

theorem st_group (gt : Val) : St q (groupDecode gt) groupEncode := by
  have h0 := st_tarray (@st_instanceId q)
  have h00 := @st_players q
  refine st_of_chain ?_
  unfold groupDecode
  rw [groupPlayers_eq]
  by_cases h1 : gt.isAny orgTypes <;> by_cases h2 : gt.isAny guildTypes <;>
    by_cases h3 : gt.isS "EPalGroupType::IndependentGuild" <;> by_cases h4 : gt.isS "EPalGroupType::Guild" <;>
    simp only [h1, h2, h3, h4, ↓reduceIte, groupOrg, groupGuild, groupIndie, playerInfoDecode, r_bind_assoc,
      r_pure_bind, r_pureR, Bool.false_eq_true] <;>
    chain_tac <;>
    chain_done' [groupEncode]

/-! ### concrete model modules -/

theorem st_module (mt : Val) : St q (concreteModuleDecode mt) (concreteModuleEncode mt) := by
  have h0 := st_tarray (@st_slotIndexes q)
  have h00 := st_tarray (@st_lockInfo q)
  refine st_of_chain ?_
  unfold concreteModuleDecode moduleBodyDecode
  by_cases h1 : mt.isS "EPalMapObjectConcreteModelModuleType::ItemContainer"
  · simp only [h1, ↓reduceIte, moduleItemDecode, r_bind_assoc, r_pure_bind]
    chain_tac
    chain_done [concreteModuleEncode]
  by_cases h2 : mt.isS "EPalMapObjectConcreteModelModuleType::CharacterContainer"
  · simp only [h1, h2, ↓reduceIte, guidDict, r_bind_assoc, r_pure_bind, Bool.false_eq_true]
    chain_tac
    chain_done [concreteModuleEncode, Bool.false_eq_true]
  by_cases h3 : mt.isS "EPalMapObjectConcreteModelModuleType::Workee"
  · simp only [h1, h2, h3, ↓reduceIte, guidDict, r_bind_assoc, r_pure_bind, Bool.false_eq_true]
    chain_tac
    chain_done [concreteModuleEncode, Bool.false_eq_true]
  by_cases h4 : mt.isS "EPalMapObjectConcreteModelModuleType::Switch"
  · simp only [h1, h2, h3, h4, ↓reduceIte, moduleSwitchDecode, r_bind_assoc, r_pure_bind, Bool.false_eq_true]
    chain_tac
    chain_done [concreteModuleEncode, Bool.false_eq_true]
  by_cases h5 : mt.isS "EPalMapObjectConcreteModelModuleType::PasswordLock"
  · simp only [h1, h2, h3, h4, h5, ↓reduceIte, moduleLockDecode, r_bind_assoc, r_pure_bind, Bool.false_eq_true]
    chain_tac
    chain_done [concreteModuleEncode, Bool.false_eq_true]
  · simp only [h1, h2, h3, h4, h5, ↓reduceIte, r_pureR, r_pure_bind, Bool.false_eq_true]
    chain_tac
    chain_done [concreteModuleEncode, Bool.false_eq_true]

end Pal
