import Verif.Lemmas.Bound
/-
The bounds of Bound.lean for the decoders of the raw-data blobs.
-/

namespace Pal

variable {α : Type} [HasLim α] {K N : Nat}

theorem ok_i16 : Ok K N rI16 rI16 := ok_signed 2
theorem ok_u16 : Ok K N rU16 rU16 := ok_unsigned 2
theorem ok_i32 : Ok K N rI32 rI32 := ok_signed 4
theorem ok_u32 : Ok K N rU32 rU32 := ok_unsigned 4
theorem ok_i64 : Ok K N rI64 rI64 := ok_signed 8
theorem ok_u64 : Ok K N rU64 rU64 := ok_unsigned 8
theorem ok_byte : Ok K N rByte rByte := ok_unsigned 1

/-- Side conditions about values. -/
macro "lim_tac" : tactic => `(tactic|
  (try simp only [HasLim.lim, lim_dct, LimS, Lim, LimL, LimD, limD_append, limL_ints, lim_floatVal,
      List.cons_append, List.nil_append, P_inj, String.reduceEq, false_imp_iff, and_self, and_true, true_and, implies_true]
   try (repeat' (first | exact True.intro | assumption | (refine And.intro ?_ ?_)))))

theorem ok_bool : Ok K N rBool rBool := ok_bind ok_byte fun _ _ => ok_pure trivial
theorem ok_float (an : Bool) : Ok K N (rFloat an) (rFloat an) :=
  ok_bind (ok_unsigned 4) fun _ _ => ok_pure (lim_floatVal _ _)
theorem ok_double (an : Bool) : Ok K N (rDouble an) (rDouble an) :=
  ok_bind (ok_unsigned 8) fun _ _ => ok_pure (lim_floatVal _ _)
theorem ok_guid : Ok K N rGuid rGuid := ok_bind (ok_read 16) fun _ _ => ok_pure (by lim_tac)
theorem ok_optGuid : Ok K N rOptGuid rOptGuid :=
  ok_bind (ok_read 1) fun b _ => by
    cases b with
    | nil => exact ok_fail nofun
    | cons x t => exact ok_ite (fun _ => ok_pure (by lim_tac)) (fun _ => ok_guid)
theorem ok_uuid : Ok K N rUuid rUuid :=
  ok_bind (ok_read 16) fun _ _ => ok_ite (fun _ => ok_fail nofun) (fun _ => ok_pure (by lim_tac))
theorem ok_fstring : Ok K N rFString rFString := by
  refine ok_bind ok_i32 fun size _ => ok_ite (fun _ => ok_pure trivial) fun _ => ok_ite (fun _ => ?_) fun _ => ?_
  · refine ok_bind (ok_read _) fun data _ => ?_
    cases utf16Decode (data.take (data.length - 2)) with
    | none => exact ok_fail nofun
    | some s => exact ok_pure trivial
  · refine ok_bind (ok_read _) fun data _ => ?_
    cases asciiDecode (data.take (data.length - 1)) with
    | none => exact ok_fail nofun
    | some s => exact ok_pure trivial
theorem ok_str : Ok K N rStr rStr := ok_bind ok_fstring fun _ _ => ok_pure (by lim_tac)
theorem ok_tarray {x x' : R Val} (hx : Ok K N x x') : Ok K N (rTArray x) (rTArray x') :=
  ok_bind ok_u32 fun _ _ => ok_bind (ok_repeat hx _) fun l hl => ok_pure (by lim_tac)

/-- One step on a reader without `match`. -/
macro "ok_step" : tactic => `(tactic|
  first
  | with_reducible assumption
  | with_reducible exact ok_i32 | with_reducible exact ok_u32 | with_reducible exact ok_i64
  | with_reducible exact ok_u64 | with_reducible exact ok_byte | with_reducible exact ok_u16
  | with_reducible exact ok_bool
  | with_reducible exact ok_float _ | with_reducible exact ok_double _ | with_reducible exact ok_guid
  | with_reducible exact ok_uuid | with_reducible exact ok_optGuid | with_reducible exact ok_fstring
  | with_reducible exact ok_str | with_reducible exact ok_byteList _ | with_reducible exact ok_read _
  | with_reducible exact ok_readToEnd | with_reducible exact ok_eof | with_reducible exact ok_remaining
  | with_reducible exact ok_checkEof | with_reducible exact ok_checkEofFor
  | ((with_reducible refine ok_fail ?_); exact nofun)
  | with_reducible refine ok_tarray ?_
  | with_reducible refine ok_repeat ?_ _
  | with_reducible refine ok_ite (fun _ => ?_) (fun _ => ?_)
  | with_reducible refine ok_bind ?_ fun _ _ => ?_
  | ((with_reducible refine ok_pure ?_); lim_tac; done)
  | ((with_reducible refine ok_rpure ?_); lim_tac; done)
  | with_reducible refine ok_try ?_ fun _ => ?_)

macro "ok_tac" : tactic => `(tactic| repeat (any_goals ok_step))

theorem ok_instanceId : Ok K N rInstanceId rInstanceId := by unfold rInstanceId; ok_tac
theorem ok_vector (an : Bool) : Ok K N (rVectorDict an) (rVectorDict an) := by unfold rVectorDict; ok_tac
theorem ok_quat (an : Bool) : Ok K N (rQuatDict an) (rQuatDict an) := by unfold rQuatDict; ok_tac
theorem ok_transform (an : Bool) : Ok K N (rFTransform an) (rFTransform an) := by
  have := fun K N => @ok_vector K N an
  have := fun K N => @ok_quat K N an
  unfold rFTransform
  refine ok_bind (ok_quat an) fun _ _ => ?_
  refine ok_bind (ok_vector an) fun _ _ => ?_
  refine ok_bind (ok_vector an) fun _ _ => ?_
  ok_tac
theorem ok_shortAngle : Ok K N rShortAngle rShortAngle := by unfold rShortAngle; ok_tac
theorem ok_rotator : Ok K N rRotator rRotator := by
  unfold rRotator
  refine ok_bind ok_shortAngle fun _ _ => ?_
  refine ok_bind ok_shortAngle fun _ _ => ?_
  refine ok_bind ok_shortAngle fun _ _ => ?_
  ok_tac
theorem maskLast_fuel (m : Nat) : ∀ b, maskLast m b ≠ .error .fuel
  | [] => nofun
  | [_] => nofun
  | b :: c :: t => by
    unfold maskLast
    have := maskLast_fuel m (c :: t)
    split
    · nofun
    · rename_i heq; rw [heq] at this; exact fun h => this (by injection h with h; rw [h])
theorem ok_serializeInt (bits : Nat) : Ok K N (rSerializeInt bits) (rSerializeInt bits) := by
  unfold rSerializeInt
  refine ok_bind (ok_read _) fun b _ => ok_ite (fun _ => ?_) fun _ => ok_pure trivial
  exact ok_bind (ok_lift (maskLast_fuel _ _) fun _ _ => trivial) fun _ _ => ok_pure trivial
theorem ok_packedVector (an : Bool) (k : Nat) : Ok K N (rPackedVector an k) (rPackedVector an k) := by
  unfold rPackedVector
  refine ok_bind ok_u32 fun info _ => ok_ite (fun _ => ?_) fun _ => ?_
  · refine ok_bind (ok_serializeInt _) fun _ _ => ok_bind (ok_serializeInt _) fun _ _ =>
      ok_bind (ok_serializeInt _) fun _ _ => ?_
    ok_tac
  · ok_tac

/-- With the compound readers. -/
macro "ok_tac'" : tactic => `(tactic|
  repeat (any_goals first
    | with_reducible exact ok_instanceId | with_reducible exact ok_vector _
    | with_reducible exact ok_quat _ | with_reducible exact ok_transform _
    | ok_step))

theorem ok_itemAndNum : Ok K N itemAndNumDecode itemAndNumDecode := by unfold itemAndNumDecode; ok_tac'
theorem ok_playerInfo : Ok K N playerInfoDecode playerInfoDecode := by unfold playerInfoDecode; ok_tac'
theorem ok_guildPlayer : Ok K N guildPlayerDecode guildPlayerDecode := by
  unfold guildPlayerDecode
  have := @ok_playerInfo K N
  ok_tac'
theorem ok_groupOrg : Ok K N groupOrg groupOrg := by unfold groupOrg; ok_tac'
theorem ok_groupGuild : Ok K N groupGuild groupGuild := by unfold groupGuild; ok_tac'
theorem ok_groupIndie : Ok K N groupIndie groupIndie := by
  unfold groupIndie
  have := @ok_playerInfo K N
  ok_tac'
theorem ok_groupPlayers : Ok K N groupPlayers groupPlayers := by
  unfold groupPlayers
  have := @ok_guildPlayer K N
  ok_tac'
theorem ok_group {t : Val} (ht : Lim N t) : Ok K N (groupDecode t) (groupDecode t) := by
  unfold groupDecode
  have h1 := @ok_groupOrg K N
  have h2 := @ok_groupGuild K N
  have h3 := @ok_groupIndie K N
  have h4 := @ok_groupPlayers K N
  refine ok_bind ok_guid fun _ _ => ok_bind ok_str fun _ _ => ok_bind (ok_tarray ok_instanceId) fun _ _ =>
    ok_bind ?_ fun _ _ => ok_bind ?_ fun _ _ => ok_bind ?_ fun _ _ => ok_bind ?_ fun _ _ => ?_
  all_goals ok_tac'
theorem ok_charContainer : Ok K N charContainerDecode charContainerDecode := by unfold charContainerDecode; ok_tac'
theorem ok_byteVal : Ok K N rByteVal rByteVal := by unfold rByteVal; ok_tac'
theorem ok_i32Val : Ok K N rI32Val rI32Val := by unfold rI32Val; ok_tac'
theorem ok_u32Val : Ok K N rU32Val rU32Val := by unfold rU32Val; ok_tac'
theorem ok_i64Val : Ok K N rI64Val rI64Val := by unfold rI64Val; ok_tac'
theorem ok_permission : Ok K N permissionDecode permissionDecode := by
  unfold permissionDecode
  have := @ok_byteVal K N
  ok_tac'
theorem ok_itemContainer : Ok K N itemContainerDecode itemContainerDecode := by
  unfold itemContainerDecode
  have := @ok_permission K N
  ok_tac'
theorem ok_itemContainerSlots (an : Bool) : Ok K N (itemContainerSlotsDecode an) (itemContainerSlotsDecode an) := by
  unfold itemContainerSlotsDecode
  have := @ok_permission K N
  ok_tac'
theorem ok_foliageModel : Ok K N foliageModelDecode foliageModelDecode := by unfold foliageModelDecode; ok_tac'
theorem ok_foliageInstance (an : Bool) : Ok K N (foliageInstanceDecode an) (foliageInstanceDecode an) := by
  unfold foliageInstanceDecode
  refine ok_bind ok_guid fun _ _ => ok_bind ok_rotator fun p hp => ?_
  obtain ⟨a, b, c⟩ := p
  simp only
  refine ok_bind (ok_packedVector an 1) fun q hq => ?_
  obtain ⟨x, y, z⟩ := q
  simp only
  simp only [HasLim.lim] at hp hq
  obtain ⟨ha, hb, hc⟩ := hp
  obtain ⟨hx, hy, hz⟩ := hq
  ok_tac'
theorem ok_baseCamp (an : Bool) : Ok K N (baseCampDecode an) (baseCampDecode an) := by unfold baseCampDecode; ok_tac'
theorem ok_workerDirector (an : Bool) : Ok K N (workerDirectorDecode an) (workerDirectorDecode an) := by
  unfold workerDirectorDecode; ok_tac'
theorem ok_workCollection : Ok K N workCollectionDecode workCollectionDecode := by unfold workCollectionDecode; ok_tac'
theorem ok_mapModel (an : Bool) : Ok K N (mapModelDecode an) (mapModelDecode an) := by unfold mapModelDecode; ok_tac'
theorem ok_connectInfo : Ok K N connectInfoDecode connectInfoDecode := by unfold connectInfoDecode; ok_tac'
theorem ok_otherConnector : Ok K N otherConnectorDecode otherConnectorDecode := by
  unfold otherConnectorDecode
  have := @ok_connectInfo K N
  ok_tac'
theorem otherConnector_consumes {s s' : Bytes} {v : Val} (h : otherConnectorDecode s = .ok (v, s')) :
    s'.length < s.length := by
  unfold otherConnectorDecode at h
  obtain ⟨i, s1, h1, h⟩ := r_bind_inv h
  obtain ⟨c, s2, h2, h⟩ := r_bind_inv h
  obtain ⟨-, rfl⟩ := r_pure_inv h
  have h3 : s1.length < s.length := by
    unfold rByte rUnsigned at h1
    split at h1
    · injection h1 with h1
      injection h1 with _ h1
      rw [← h1, List.length_drop]; omega
    · cases h1
  obtain ⟨⟨c', hc⟩, -⟩ := (ok_tarray (K := s1.length) (N := 0) ok_connectInfo s1 (Nat.le_refl _)).2.2 _ _ h2
  rw [hc, List.length_append] at h3
  omega
theorem ok_otherConnectors : ∀ (n K : Nat), K ≤ n → Ok K N (otherConnectors n) (otherConnectors n)
  | 0, K, h => by
    intro s hs
    cases s with
    | nil =>
      refine ⟨rfl, nofun, fun v s' e => ?_⟩
      injection e with e
      injection e with e1 e2
      subst e1
      exact ⟨⟨[], e2⟩, by simp only [HasLim.lim, LimL]⟩
    | cons a t => simp only [List.length_cons] at hs; omega
  | n + 1, K, h => by
    intro s hs
    cases s with
    | nil =>
      refine ⟨rfl, nofun, fun v s' e => ?_⟩
      injection e with e
      injection e with e1 e2
      subst e1
      exact ⟨⟨[], e2⟩, by simp only [HasLim.lim, LimL]⟩
    | cons a t =>
      unfold otherConnectors
      simp only
      cases hd : otherConnectorDecode (a :: t) with
      | error e =>
        refine ⟨by trivial, ?_, ?_⟩
        · rw [r_bind_error hd]
          have := (ok_otherConnector (K := K) (N := N) _ hs).2.1
          rw [hd] at this
          exact fun h' => this (by injection h' with h'; rw [h'])
        · rw [r_bind_error hd]; exact fun _ _ => nofun
      | ok p =>
        obtain ⟨v, s1⟩ := p
        rw [r_bind_ok hd]
        have hlt := otherConnector_consumes hd
        obtain ⟨⟨c, hc⟩, hv⟩ := (ok_otherConnector (K := K) (N := N) _ hs).2.2 _ _ hd
        have := ok_bind (ok_otherConnectors n s1.length (by omega)) (f := fun l => (pure (v :: l) : R (List Val)))
          (f' := fun l => pure (v :: l)) (fun l hl => ok_pure (by
            simp only [HasLim.lim, LimL] at *; exact ⟨hv, hl⟩)) s1 (Nat.le_refl _)
        refine ⟨by trivial, this.2.1, fun w s' e => ?_⟩
        obtain ⟨⟨c', hc'⟩, hw⟩ := this.2.2 w s' e
        exact ⟨⟨c ++ c', by rw [hc, hc', List.append_assoc]⟩, hw⟩
theorem ok_others : Ok K N (rRemaining >>= fun n => otherConnectors n) (rRemaining >>= fun n => otherConnectors n) := by
  intro s hs
  exact ok_otherConnectors s.length s.length (Nat.le_refl _) s (Nat.le_refl _)
theorem r_bind_assoc {α β γ : Type} (x : R α) (f : α → R β) (g : β → R γ) :
    ((x >>= f) >>= g) = (x >>= fun a => f a >>= g) := by
  funext s
  show R.bind (R.bind x f) g s = R.bind x (fun a => R.bind (f a) g) s
  unfold R.bind
  cases x s <;> rfl
theorem ok_connector : Ok K N connectorDecode connectorDecode := by
  unfold connectorDecode
  refine ok_bind ok_i32 fun _ _ => ok_bind ok_byte fun _ _ => ok_bind (ok_tarray ok_connectInfo) fun _ _ =>
    ok_bind ok_eof fun e _ => ?_
  rw [← r_bind_assoc]
  refine ok_bind ok_others fun _ _ => ok_pure ?_
  cases e <;> simp only [Bool.false_eq_true, if_true, if_false] <;> lim_tac
theorem ok_buildProcess : Ok K N buildProcessDecode buildProcessDecode := by unfold buildProcessDecode; ok_tac'
theorem ok_slotIndexes : Ok K N slotIndexesDecode slotIndexesDecode := by
  unfold slotIndexesDecode
  have := @ok_i32Val K N
  ok_tac'
theorem ok_lockInfo : Ok K N lockInfoDecode lockInfoDecode := by unfold lockInfoDecode; ok_tac'
theorem ok_moduleItem : Ok K N moduleItemDecode moduleItemDecode := by
  unfold moduleItemDecode
  have := @ok_slotIndexes K N
  have := @ok_byteVal K N
  ok_tac'
theorem ok_moduleLock : Ok K N moduleLockDecode moduleLockDecode := by
  unfold moduleLockDecode
  have := @ok_lockInfo K N
  ok_tac'
theorem ok_guidDict (k : String) (h : k ≠ "values") : Ok K N (guidDict k) (guidDict k) := by
  unfold guidDict
  refine ok_bind ok_guid fun _ _ => ok_pure ?_
  simp only [HasLim.lim, lim_dct, LimS, and_true] at *
  exact ⟨by assumption, fun e => absurd e h⟩
theorem ok_moduleSwitch : Ok K N moduleSwitchDecode moduleSwitchDecode := by unfold moduleSwitchDecode; ok_tac'
theorem ok_concreteModule (mt : Val) : Ok K N (concreteModuleDecode mt) (concreteModuleDecode mt) := by
  unfold concreteModuleDecode moduleBodyDecode
  have h1 := @ok_moduleItem K N
  have h2 := @ok_moduleLock K N
  have h3 := @ok_moduleSwitch K N
  have h4 := @ok_guidDict K N "target_container_id" (by decide)
  have h5 := @ok_guidDict K N "target_work_id" (by decide)
  ok_tac'
theorem ok_transportInfo (an : Bool) : Ok K N (transportInfoDecode an) (transportInfoDecode an) := by
  unfold transportInfoDecode
  have := @ok_itemAndNum K N
  ok_tac'
theorem ok_passiveEffect : Ok K N passiveEffectDecode passiveEffectDecode := by unfold passiveEffectDecode; ok_tac'

theorem lim_raw {raw : Val} (h : Lim N raw) (hb : blobOk N raw) : Lim N (dct [("values", raw)]) :=
  lim_dct.2 ⟨⟨h, fun _ => hb⟩, trivial⟩

theorem ok_campModule (an : Bool) (mt : Val) {raw : Val} (h : Lim N raw) (hb : blobOk N raw) :
    Ok K N (campModuleDecode an mt raw) (campModuleDecode an mt raw) := by
  unfold campModuleDecode
  have h1 := @ok_transportInfo K N an
  have h2 := @ok_passiveEffect K N
  have h3 : Ok K N (pure (dct [("values", raw)]) : R Val) (pure (dct [("values", raw)])) := ok_pure (lim_raw h hb)
  ok_tac'
theorem ok_assignLocation (an : Bool) : Ok K N (assignLocationDecode an) (assignLocationDecode an) := by
  unfold assignLocationDecode; ok_tac'
theorem ok_workBase (an : Bool) : Ok K N (workBaseDecode an) (workBaseDecode an) := by
  unfold workBaseDecode
  have := @ok_assignLocation K N an
  ok_tac'
theorem ok_individualId : Ok K N individualIdDecode individualIdDecode := by unfold individualIdDecode; ok_tac'
theorem ok_workExtra (an : Bool) (wt : Val) : Ok K N (workExtraDecode an wt) (workExtraDecode an wt) := by
  unfold workExtraDecode
  have := @ok_individualId K N
  ok_tac'
theorem ok_workAssign (wt : Val) : Ok K N (workAssignDecode wt) (workAssignDecode wt) := by
  unfold workAssignDecode
  have := @ok_individualId K N
  ok_tac'
theorem ok_workTransform (an : Bool) : Ok K N (workTransformDecode an) (workTransformDecode an) := by
  unfold workTransformDecode; ok_tac'
theorem ok_work (an : Bool) (wt : Val) {raw : Val} (h : Lim N raw) (hb : blobOk N raw) :
    Ok K N (workDecode an wt raw) (workDecode an wt raw) := by
  have h1 := @ok_workBase K N an
  have h2 := @ok_workExtra K N an wt
  have h3 := @ok_workAssign K N wt
  have h4 := @ok_workTransform K N an
  have h5 : Ok K N (pure (dct [("values", raw)]) : R Val) (pure (dct [("values", raw)])) := ok_pure (lim_raw h hb)
  unfold workDecode
  split
  · exact ok_fail nofun
  · exact ok_fail nofun
  · unfold workBodyDecode
    ok_tac'
theorem ok_workAssignBytes : Ok K N workAssignBytesDecode workAssignBytesDecode := by
  unfold workAssignBytesDecode
  have := @ok_individualId K N
  ok_tac'

/-! ### Blobs with embedded property lists -/

theorem ok_character {r r' : R Val} (hr : Ok K N r r') : Ok K N (characterDecode r) (characterDecode r') := by
  unfold characterDecode; ok_tac'
theorem ok_egg {r r' : R Val} (hr : Ok K N r r') : Ok K N (eggDecode r) (eggDecode r') := by
  unfold eggDecode; ok_tac'
theorem ok_dynamicRest (an : Bool) {r r' : R Val} (hr : Ok K N r r') :
    Ok K N (dynamicRest an r) (dynamicRest an r') := by
  unfold dynamicRest tryEgg armorDecode weaponDecode trailerDecode
  refine ok_bind ?_ fun e he => ok_bind ok_remaining fun n _ => ?_
  · refine ok_try (ok_bind (ok_egg hr) fun d hd => ok_pure hd) fun e => ?_
    by_cases h : e = .exc "Warning: EOF not reached"
    · rw [if_pos h]; exact ok_fail (by rw [h]; nofun)
    · rw [if_neg h]; exact ok_pure trivial
  · cases e with
    | some d => exact ok_pure he
    | none => simp only; ok_tac'
theorem ok_dynamicItem (an : Bool) {r r' : R Val} (hr : Ok K N r r') :
    Ok K N (dynamicItemDecode an r) (dynamicItemDecode an r') := by
  have := ok_dynamicRest an hr
  unfold dynamicItemDecode dynamicIdDecode
  ok_tac'
theorem ok_one (k : String) (hk : k ≠ "values") {x : R Val} (h : Ok K N x x) : Ok K N (one k x) (one k x) := by
  unfold one
  refine ok_bind h fun v hv => ok_pure ?_
  simp only [HasLim.lim, LimD, and_true] at *
  exact ⟨hv, fun e => absurd ((P_inj _ _).1 e) hk⟩
theorem ok_hatch {r r' : R Val} (hr : Ok K N r r') : Ok K N (cmHatch r) (cmHatch r') := by
  unfold cmHatch; ok_tac'
theorem ok_farm (an : Bool) : Ok K N (cmFarm an) (cmFarm an) := by
  unfold cmFarm cmFarmState; ok_tac'
theorem ok_concreteBody (an : Bool) {r r' : R Val} (hr : Ok K N r r') (c : String) :
    (concreteBody an r c = none ∧ concreteBody an r' c = none) ∨
    ∃ x x', concreteBody an r c = some x ∧ concreteBody an r' c = some x' ∧ Ok K N x x' := by
  have h1 := @ok_itemAndNum K N
  have h2 := @ok_byteVal K N
  have h3 := @ok_i32Val K N
  have h4 := @ok_u32Val K N
  have h5 := @ok_i64Val K N
  have h6 := ok_hatch hr
  have h7 := @ok_farm K N an
  have key : ∀ {p : Prop} [Decidable p] {a a' b b' : Option (R Dict)},
      ((a = none ∧ a' = none) ∨ ∃ x x', a = some x ∧ a' = some x' ∧ Ok K N x x') →
      ((b = none ∧ b' = none) ∨ ∃ x x', b = some x ∧ b' = some x' ∧ Ok K N x x') →
      (((if p then a else b) = none ∧ (if p then a' else b') = none) ∨
        ∃ x x', (if p then a else b) = some x ∧ (if p then a' else b') = some x' ∧ Ok K N x x') := by
    intro p _ a a' b b' ha hb
    by_cases h : p
    · simp only [if_pos h]; exact ha
    · simp only [if_neg h]; exact hb
  unfold concreteBody
  repeat' refine key (.inr ⟨_, _, rfl, rfl, ?_⟩) ?_
  case _ => exact ok_rpure (by lim_tac)
  case _ => unfold cmDropped; ok_tac'
  case _ => unfold cmConvert; ok_tac'
  case _ => unfold pickupBase; ok_tac'
  case _ => unfold cmDropItem pickupBase; ok_tac'
  case _ => exact ok_one _ (by decide) (ok_tarray h1)
  case _ => exact ok_one _ (by decide) ok_guid
  case _ => unfold cmBullet; ok_tac'
  case _ => exact ok_one _ (by decide) (ok_float _)
  case _ => exact h7
  case _ => exact ok_one _ (by decide) ok_guid
  case _ => exact ok_one _ (by decide) (ok_tarray h3)
  case _ => unfold cmProduct; ok_tac'
  case _ => exact ok_one _ (by decide) (ok_float _)
  case _ => exact h6
  case _ => exact ok_one _ (by decide) h2
  case _ => exact ok_one _ (by decide) (ok_tarray ok_guid)
  case _ => exact ok_one _ (by decide) ok_str
  case _ => exact ok_one _ (by decide) h5
  case _ => exact ok_one _ (by decide) h4
  case _ => exact ok_one _ (by decide) ok_guid
  case _ => exact .inl ⟨rfl, rfl⟩
theorem ok_concrete (an : Bool) {r r' : R Val} (hr : Ok K N r r') (oid : Val) {raw : Val} (h : Lim N raw)
    (hb : blobOk N raw) : Ok K N (concreteDecode an r oid raw) (concreteDecode an r' oid raw) := by
  have h5 : Ok K N (pure (dct [("values", raw)]) : R Val) (pure (dct [("values", raw)])) := ok_pure (lim_raw h hb)
  unfold concreteDecode
  cases oid with
  | str o =>
    simp only
    cases concreteClass? o with
    | none => exact h5
    | some c =>
      simp only
      refine ok_bind ok_guid fun _ _ => ok_bind ok_guid fun _ _ => ?_
      rcases ok_concreteBody an hr c with ⟨e1, e2⟩ | ⟨x, x', e1, e2, hx⟩
      · rw [e1, e2]; exact h5
      · rw [e1, e2]
        simp only
        refine ok_bind hx fun _ _ => ok_bind ok_checkEofFor fun _ _ => ok_pure ?_
        lim_tac
  | _ => exact ok_fail nofun

end Pal
