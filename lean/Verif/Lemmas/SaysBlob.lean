import Verif.Lemmas.Codes
/-
The encoders of the raw data and what they write.
-/

namespace Pal
open Spec

/-! ### records -/

mk_iff_of_inductive_prop Pal.Spec.SaysTransform Pal.saysTransform_iff
theorem codes_transform : Codes (fun _ => wFTransform) SaysTransform eTransform := by
  unfold wFTransform eTransform
  record fun r => (r.rotation, r.translation, r.scale), fun (a, b, c) => ⟨a, b, c⟩, saysTransform_iff
macro_rules | `(tactic| known) => `(tactic| exact codes_transform)

mk_iff_of_inductive_prop Pal.Spec.SaysItemAndNum Pal.saysItemAndNum_iff
theorem codes_itemAndNum : Codes (fun _ => itemAndNumEncode) SaysItemAndNum ItemAndNum.enc := by
  unfold itemAndNumEncode ItemAndNum.enc
  record fun r => (r.staticId, r.world, r.localId, r.num), fun (a, b, c, d) => ⟨a, b, c, d⟩, saysItemAndNum_iff
macro_rules | `(tactic| known) => `(tactic| exact codes_itemAndNum)

theorem codes_handle : Codes (fun _ => wInstanceId) SaysHandle eHandle := by
  unfold wInstanceId SaysHandle eHandle
  record fun r => (r.1, r.2), fun x => x, fun _ _ => Iff.rfl
macro_rules | `(tactic| known) => `(tactic| exact codes_handle)

mk_iff_of_inductive_prop Pal.Spec.SaysPlayer Pal.saysPlayer_iff
theorem codes_player : Codes (fun _ => guildPlayerEncode) SaysPlayer Player.enc := by
  unfold guildPlayerEncode Player.enc
  record fun r => (r.uid, r.lastOnline, r.name), fun (a, b, c) => ⟨a, b, c⟩, saysPlayer_iff
macro_rules | `(tactic| known) => `(tactic| exact codes_player)

mk_iff_of_inductive_prop Pal.Spec.SaysCharSlot Pal.saysCharSlot_iff
theorem codes_charSlot : Codes (fun _ => charContainerEncode) SaysCharSlot CharSlot.enc := by
  unfold charContainerEncode CharSlot.enc
  record fun r => (r.player, r.inst, r.tribe), fun (a, b, c) => ⟨a, b, c⟩, saysCharSlot_iff
macro_rules | `(tactic| known) => `(tactic| exact codes_charSlot)

mk_iff_of_inductive_prop Pal.Spec.SaysPermission Pal.saysPermission_iff
theorem codes_permission : Codes (fun _ => permissionEncode) SaysPermission Permission.enc := by
  unfold permissionEncode Permission.enc
  record fun r => (r.typeA, r.typeB, r.items), fun (a, b, c) => ⟨a, b, c⟩, saysPermission_iff
macro_rules | `(tactic| known) => `(tactic| exact codes_permission)

mk_iff_of_inductive_prop Pal.Spec.SaysSlots Pal.saysSlots_iff
theorem codes_slots : Codes (fun _ => itemContainerSlotsEncode) SaysSlots Slots.enc := by
  unfold itemContainerSlotsEncode Slots.enc
  record fun r => (r.permission, r.corruption), fun (a, b) => ⟨a, b⟩, saysSlots_iff
macro_rules | `(tactic| known) => `(tactic| exact codes_slots)

mk_iff_of_inductive_prop Pal.Spec.SaysFoliageModel Pal.saysFoliageModel_iff
theorem codes_foliageModel : Codes (fun _ => foliageModelEncode) SaysFoliageModel FoliageModel.enc := by
  unfold foliageModelEncode FoliageModel.enc
  record fun r => (r.model, r.preset, r.x, r.y, r.z), fun (a, b, c, d, e) => ⟨a, b, c, d, e⟩, saysFoliageModel_iff
macro_rules | `(tactic| known) => `(tactic| exact codes_foliageModel)

mk_iff_of_inductive_prop Pal.Spec.SaysBaseCamp Pal.saysBaseCamp_iff
theorem codes_baseCamp : Codes (fun _ => baseCampEncode) SaysBaseCamp BaseCamp.enc := by
  unfold baseCampEncode BaseCamp.enc
  record fun r => (r.id, r.name, r.state, r.transform, r.area, r.group, r.travel, r.owner), fun (a, b, c, d, e, f, g, h) => ⟨a, b, c, d, e, f, g, h⟩, saysBaseCamp_iff
macro_rules | `(tactic| known) => `(tactic| exact codes_baseCamp)

mk_iff_of_inductive_prop Pal.Spec.SaysWorkerDirector Pal.saysWorkerDirector_iff
theorem codes_workerDirector : Codes (fun _ => workerDirectorEncode) SaysWorkerDirector WorkerDirector.enc := by
  unfold workerDirectorEncode WorkerDirector.enc
  record fun r => (r.id, r.spawn, r.order, r.battle, r.container), fun (a, b, c, d, e) => ⟨a, b, c, d, e⟩, saysWorkerDirector_iff
macro_rules | `(tactic| known) => `(tactic| exact codes_workerDirector)

mk_iff_of_inductive_prop Pal.Spec.SaysWorkCollection Pal.saysWorkCollection_iff
theorem codes_workCollection : Codes (fun _ => workCollectionEncode) SaysWorkCollection WorkCollection.enc := by
  unfold workCollectionEncode WorkCollection.enc
  record fun r => (r.id, r.works), fun (a, b) => ⟨a, b⟩, saysWorkCollection_iff
macro_rules | `(tactic| known) => `(tactic| exact codes_workCollection)

mk_iff_of_inductive_prop Pal.Spec.SaysTransport Pal.saysTransport_iff
theorem codes_transport : Codes (fun _ => transportInfoEncode) SaysTransport TransportInfo.enc := by
  unfold transportInfoEncode TransportInfo.enc
  record fun r => (r.items, r.location), fun (a, b) => ⟨a, b⟩, saysTransport_iff
macro_rules | `(tactic| known) => `(tactic| exact codes_transport)

theorem codes_assignLoc : Codes (fun _ => assignLocationEncode) SaysAssignLoc eAssignLoc := by
  unfold assignLocationEncode SaysAssignLoc eAssignLoc
  record fun r => (r.1, r.2), fun x => x, fun _ _ => Iff.rfl
macro_rules | `(tactic| known) => `(tactic| exact codes_assignLoc)

mk_iff_of_inductive_prop Pal.Spec.SaysWorkBase Pal.saysWorkBase_iff
theorem codes_workBase : Codes (fun _ => workBaseEncode) SaysWorkBase WorkBase.enc := by
  unfold workBaseEncode WorkBase.enc
  record fun r => (r.id, r.location, r.rotation, r.origin, r.extent, r.radius, r.camp, r.model, r.concrete, r.state, r.assign, r.behaviour, r.define, r.override, r.fixed, r.otomo, r.trigger, r.steal), fun (a, b, c, d, e, f, g, h, i, j, k, l, m, n, o, p, q, r) => ⟨a, b, c, d, e, f, g, h, i, j, k, l, m, n, o, p, q, r⟩, saysWorkBase_iff
macro_rules | `(tactic| known) => `(tactic| exact codes_workBase)

mk_iff_of_inductive_prop Pal.Spec.SaysMapModel Pal.saysMapModel_iff
theorem codes_mapModel : Codes (fun _ => mapModelEncode) SaysMapModel MapModel.enc := by
  unfold mapModelEncode MapModel.enc
  record fun r => (r.inst, r.concrete, r.camp, r.group, r.hp, r.hpMax, r.transform, r.repair, r.spawner, r.owner, r.builder, r.restrict, r.stage, r.stageValid, r.created), fun (a, b, c, d, e, f, g, h, i, j, k, l, m, n, o) => ⟨a, b, c, d, e, f, g, h, i, j, k, l, m, n, o⟩, saysMapModel_iff
macro_rules | `(tactic| known) => `(tactic| exact codes_mapModel)

theorem codes_connect : Codes (fun _ => connectInfoEncode) SaysConnect eConnect := by
  unfold connectInfoEncode SaysConnect eConnect
  record fun r => (r.1, r.2), fun x => x, fun _ _ => Iff.rfl
macro_rules | `(tactic| known) => `(tactic| exact codes_connect)

theorem codes_other : Codes (fun _ => otherConnectorEncode) SaysOther eOther := by
  unfold otherConnectorEncode SaysOther eOther
  record fun r => (r.1, r.2), fun x => x, fun _ _ => Iff.rfl
macro_rules | `(tactic| known) => `(tactic| exact codes_other)

mk_iff_of_inductive_prop Pal.Spec.SaysBuildProcess Pal.saysBuildProcess_iff
theorem codes_buildProcess : Codes (fun _ => buildProcessEncode) SaysBuildProcess BuildProcess.enc := by
  unfold buildProcessEncode BuildProcess.enc
  record fun r => (r.state, r.id), fun (a, b) => ⟨a, b⟩, saysBuildProcess_iff
macro_rules | `(tactic| known) => `(tactic| exact codes_buildProcess)

theorem codes_slotIx : Codes (fun _ => slotIndexesEncode) SaysSlotIx eSlotIx := by
  unfold slotIndexesEncode SaysSlotIx eSlotIx
  record fun r => (r.1, r.2), fun x => x, fun _ _ => Iff.rfl
macro_rules | `(tactic| known) => `(tactic| exact codes_slotIx)

mk_iff_of_inductive_prop Pal.Spec.SaysLockInfo Pal.saysLockInfo_iff
theorem codes_lockInfo : Codes (fun _ => lockInfoEncode) SaysLockInfo LockInfo.enc := by
  unfold lockInfoEncode LockInfo.enc
  record fun r => (r.player, r.failed, r.success), fun (a, b, c) => ⟨a, b, c⟩, saysLockInfo_iff
macro_rules | `(tactic| known) => `(tactic| exact codes_lockInfo)

mk_iff_of_inductive_prop Pal.Spec.SaysWorkAssign Pal.saysWorkAssign_iff
theorem saysWorkAssign_iff' (v : Val) (y : WorkAssign) : SaysWorkAssign v y ↔ Reach v ["id"] (SaysGuid · y.id) ∧
    Reach v ["location_index"] (SaysI · y.index) ∧ Reach v ["assign_type"] (SaysU · y.type) ∧
    Reach v ["assigned_individual_id", "player_uid"] (SaysGuid · y.who.1) ∧
    Reach v ["assigned_individual_id", "instance_id"] (SaysGuid · y.who.2) ∧
    Reach v ["state"] (SaysU · y.state) ∧ Reach v ["fixed"] (SaysFlag · y.fixed) := by
  rw [saysWorkAssign_iff]; simp only [SaysIndividual, and_assoc]
theorem codes_workAssign : Codes (fun _ => workAssignBytesEncode) SaysWorkAssign WorkAssign.enc := by
  unfold workAssignBytesEncode WorkAssign.enc eHandle
  record fun r => (r.id, r.index, r.type, r.who.1, r.who.2, r.state, r.fixed),
    fun (a, b, c, d, e, f, g) => ⟨a, b, c, (d, e), f, g⟩, saysWorkAssign_iff'

/-! ### groups -/

theorem codes_players : Codes (fun _ => guildPlayersEncode)
    (fun v (pl : Lst31 Player) => ∃ l, Items v l ∧ List.Forall₂ SaysPlayer l pl.val)
    (fun pl => lit 4 pl.val.length ++ pl.val.flatMap Player.enc) where
  fw := fun {n v b} hp hw => by
    unfold guildPlayersEncode at hw
    cases hi : v.seqItems with
    | error er => rw [hi] at hw; cases hw
    | ok l =>
      rw [hi] at hw
      obtain ⟨c, d, h1, h2, rfl⟩ := wcat2.1 hw
      have hi := seqItems_iff.1 hi
      obtain ⟨xs, h4, rfl⟩ := wItems_fw (n := 0) codes_player (plain_items hp hi) h2
      have hl := h4.length_eq
      obtain ⟨m, h5, rfl⟩ := wI32_iff.1 h1
      have h6 : (l.length : Int) = m.toInt := by
        have h5 : SaysInt (.int (l.length : Int)) m.toInt := h5
        generalize m.toInt = z at h5
        cases h5
        rfl
      have h7 : l.length < 2 ^ 31 := by
        have := BitVec.toInt_lt (x := m)
        simp only [Nat.reduceSub] at this
        omega
      have h8 : m.toNat = l.length := by
        have := BitVec.toInt_eq_toNat_cond m
        split at this <;> omega
      refine ⟨⟨xs, by rw [← hl]; exact h7⟩, ⟨l, hi, h4⟩, ?_⟩
      show e32 m ++ _ = _
      unfold e32
      rw [h8]
      exact congrArg (lit 4 · ++ xs.flatMap Player.enc) hl
  bw := by
    rintro v ⟨xs, hx⟩ ⟨l, hi, h4⟩
    have hl : l.length = xs.length := h4.length_eq
    obtain ⟨k, hk⟩ := wItems_bw codes_player h4
    refine ⟨k, fun n hn => ?_⟩
    unfold guildPlayersEncode
    rw [seqItems_iff.2 hi]
    refine wcat2.2 ⟨lit 4 xs.length, _, ?_, hk n hn, rfl⟩
    rw [wI32_iff]
    have h9 : (BitVec.ofNat 32 xs.length).toNat = xs.length := by
      rw [BitVec.toNat_ofNat, Nat.mod_eq_of_lt (by omega)]
    refine ⟨BitVec.ofNat 32 xs.length, ?_, by unfold e32; rw [h9]⟩
    unfold SaysI
    rw [show (BitVec.ofNat 32 xs.length).toInt = ((l.length : Nat) : Int) by
      rw [BitVec.toInt_eq_toNat_cond, h9, hl, if_pos (by omega)]]
    exact .int _
macro_rules | `(tactic| known) => `(tactic| exact codes_players)
macro_rules | `(tactic| known) => `(tactic| exact Codes.none)

mk_iff_of_inductive_prop Pal.Spec.SaysOrg Pal.saysOrg_iff
mk_iff_of_inductive_prop Pal.Spec.SaysGuildBase Pal.saysGuildBase_iff

def orgEncode (p : Val) : Except Err Bytes := wcat [wAt p ["org_type"] wByte, wAt p ["base_ids"] (wTArray wGuid)]
def guildEncode (p : Val) : Except Err Bytes := wcat [wAt p ["base_camp_level"] wI32,
  wAt p ["map_object_instance_ids_base_camp_points"] (wTArray wGuid), wAt p ["guild_name"] wFString]
def indieEncode (p : Val) : Except Err Bytes := wcat [wAt p ["player_uid"] wGuid, wAt p ["guild_name_2"] wFString,
  wAt p ["player_info", "last_online_real_time"] wI64, wAt p ["player_info", "player_name"] wFString]
def membersEncode (p : Val) : Except Err Bytes := wcat [wAt p ["admin_player_uid"] wGuid, wAt p ["players"] guildPlayersEncode]

theorem codes_org : Codes (fun _ => orgEncode) SaysOrg Org.enc := by
  unfold orgEncode Org.enc
  record fun r => (r.type, r.baseIds), fun (a, b) => ⟨a, b⟩, saysOrg_iff
macro_rules | `(tactic| known) => `(tactic| exact codes_org)

theorem codes_guildBase : Codes (fun _ => guildEncode) SaysGuildBase GuildBase.enc := by
  unfold guildEncode GuildBase.enc
  record fun r => (r.level, r.points, r.name), fun (a, b, c) => ⟨a, b, c⟩, saysGuildBase_iff
macro_rules | `(tactic| known) => `(tactic| exact codes_guildBase)

theorem groupBody_eq (t p : Val) :
    wcat [if t.isAny orgTypes then orgEncode p else .ok [], if t.isAny guildTypes then guildEncode p else .ok [],
      if t.isS "EPalGroupType::IndependentGuild" then indieEncode p else .ok [],
      if t.isS "EPalGroupType::Guild" then membersEncode p else .ok []] =
    if t.isS "EPalGroupType::Guild" then wcat [orgEncode p, guildEncode p, .ok [], membersEncode p]
    else if t.isS "EPalGroupType::IndependentGuild" then wcat [orgEncode p, guildEncode p, indieEncode p, .ok []]
    else if t.isS "EPalGroupType::Organization" then wcat [orgEncode p, .ok [], .ok [], .ok []]
    else .ok [] := by
  by_cases h1 : t.isS "EPalGroupType::Guild" = true
  · cases isS_iff.1 h1
    rfl
  by_cases h2 : t.isS "EPalGroupType::IndependentGuild" = true
  · cases isS_iff.1 h2
    rfl
  by_cases h3 : t.isS "EPalGroupType::Organization" = true
  · cases isS_iff.1 h3
    rfl
  have h4 : ¬ t.isAny orgTypes = true := by
    rw [isAny_iff]
    rintro ⟨s, hs, ht⟩
    simp only [orgTypes, List.mem_cons, List.not_mem_nil, or_false] at hs
    rcases hs with rfl | rfl | rfl
    · exact h1 (isS_iff.2 ht)
    · exact h2 (isS_iff.2 ht)
    · exact h3 (isS_iff.2 ht)
  have h5 : ¬ t.isAny guildTypes = true := by
    rw [isAny_iff]
    rintro ⟨s, hs, ht⟩
    simp only [guildTypes, List.mem_cons, List.not_mem_nil, or_false] at hs
    rcases hs with rfl | rfl
    · exact h1 (isS_iff.2 ht)
    · exact h2 (isS_iff.2 ht)
  rw [if_neg h1, if_neg h2, if_neg h4, if_neg h5, if_neg h1, if_neg h2, if_neg h3]
  rfl

theorem type_not_any {t : Val} {s : String} {l : List String} (ht : IsType t s) (h : s ∉ l) : ∀ s' ∈ l, ¬ IsType t s' :=
  fun _ hs => type_ne ht fun e => h (e ▸ hs)

/-- Take the branch of the type that `h` gives. -/
macro "branch " h:term : tactic => `(tactic| repeat first
  | with_reducible refine Or.inl ⟨$h, ?_⟩
  | with_reducible refine Or.inr ⟨type_ne $h (by decide +kernel), ?_⟩
  | with_reducible refine Or.inr ⟨type_not_any $h (by decide +kernel), ?_⟩)

theorem codes_groupBody : Codes2 (fun _ t p => wcat [if t.isAny orgTypes then orgEncode p else .ok [],
      if t.isAny guildTypes then guildEncode p else .ok [],
      if t.isS "EPalGroupType::IndependentGuild" then indieEncode p else .ok [],
      if t.isS "EPalGroupType::Guild" then membersEncode p else .ok []]) SaysGroupBody GroupBody.enc := by
  simp only [groupBody_eq]
  unfold indieEncode membersEncode
  apply Codes2.of (Codes2.ite (by fields) (Codes2.ite (by fields) (Codes2.ite (by fields) Codes.none.lift)))
  · intro t v b h
    rcases h with ⟨ht, x, h, rfl⟩ | ⟨h1, ⟨ht, x, h, rfl⟩ | ⟨h2, ⟨ht, x, h, rfl⟩ | ⟨h3, x, h, rfl⟩⟩⟩
    · exact ⟨_, .guild ht h.1 h.2.1 h.2.2.2.1 h.2.2.2.2, by simp [GroupBody.enc]⟩
    · exact ⟨_, .independent ht h.1 h.2.1 h.2.2.1.1 h.2.2.1.2.1 h.2.2.1.2.2.1 h.2.2.1.2.2.2, by simp [GroupBody.enc]⟩
    · exact ⟨_, .organization ht h.1, by simp [GroupBody.enc]⟩
    · refine ⟨_, .other (s := ⟨[], by decide +kernel, by decide +kernel⟩) (h := by decide +kernel) ?_, by simp [GroupBody.enc]⟩
      intro s hs
      simp only [List.mem_cons, List.not_mem_nil, or_false] at hs
      rcases hs with rfl | rfl | rfl
      exacts [h1, h2, h3]
  · intro t v y h
    cases h with
    | @guild o g a pl ht h1 h2 h3 h4 =>
      branch ht
      exact ⟨(o, g, (), a, pl), ⟨h1, h2, trivial, h3, h4⟩, by simp [GroupBody.enc]⟩
    | @independent o g u n p time ht h1 h2 h3 h4 h5 h6 =>
      branch ht
      exact ⟨(o, g, (u, n, time, p), ()), ⟨h1, h2, ⟨h3, h4, h5, h6⟩, trivial⟩, by simp [GroupBody.enc]⟩
    | @organization o ht h1 =>
      branch ht
      exact ⟨(o, (), (), ()), ⟨h1, trivial, trivial, trivial⟩, by simp [GroupBody.enc]⟩
    | other h =>
      exact .inr ⟨h _ (by simp), .inr ⟨h _ (by simp), .inr ⟨h _ (by simp), (), trivial, rfl⟩⟩⟩

mk_iff_of_inductive_prop Pal.Spec.SaysGroup Pal.saysGroup_iff
theorem codes_group : Codes (fun _ => groupEncode) SaysGroup Group.enc := by
  have hb := codes_groupBody.under (ks := ["group_type"])
  unfold orgEncode guildEncode indieEncode membersEncode at hb
  unfold groupEncode Group.enc
  record fun r => (r.id, r.name, r.handles, r.body), fun (a, b, c, d) => ⟨a, b, c, d⟩, saysGroup_iff

/-! ### base camp modules -/

theorem isI_says {t : Val} {i k : Int} (h : SaysInt t i) : t.isI k = true ↔ i = k := by
  cases h with
  | int => simp [Val.isI]
  | bool => simp [Val.isI]

theorem saysInt_unique {v : Val} {i j : Int} (h1 : SaysInt v i) (h2 : SaysInt v j) : i = j := by
  cases h1 <;> cases h2 <;> rfl

theorem e8_two : e8 2 = [2] := rfl

theorem codes_effect : Codes (fun _ => passiveEffectEncode) SaysEffect id where
  fw := fun {n v b} hp hw => by
    obtain ⟨c, d, h1, h2, rfl⟩ := wcat2.1 hw
    obtain ⟨t, h3, h4⟩ := wAt_iff1.1 h1
    obtain ⟨t', h5, h6⟩ := wAt_iff1.1 h2
    cases at_unique h3 h5
    obtain ⟨k, h7, rfl⟩ := codes_u8.fw (n := n) (plain_at hp h3) h4
    by_cases hk : k.toNat = 2
    · have hi : t.isI 2 = true := (isI_says h7).2 (by rw [hk]; rfl)
      have hk' : k = 2 := BitVec.eq_of_toNat_eq hk
      subst hk'
      rw [if_pos hi] at h6
      have : Codes (fun _ p => wcat [wAt p ["work_hard_type"] wByte, wAt p ["unknown_trailer"] wBytesOf])
        (fun v (x : BitVec 8 × Bytes) => Reach v ["work_hard_type"] (SaysU · x.1) ∧ Reach v ["unknown_trailer"] (SaysBytes · x.2))
        (fun x => e8 x.1 ++ x.2) := by
          record fun r => (r.1, r.2), fun x => x, fun _ _ => Iff.rfl
      obtain ⟨x, h8, rfl⟩ := this.fw (n := n) hp h6
      exact ⟨_, .workHard h3 h7 h8.1 h8.2, by rw [e8_two]; rfl⟩
    · have hi : ¬ t.isI 2 = true := by rw [isI_says h7]; omega
      rw [if_neg hi] at h6
      cases h6
      refine ⟨_, .other h3 h7 ?_, by simp⟩
      rintro rfl
      exact hk rfl
  bw := fun {v b} hs => by
    refine ⟨0, fun n _ => ?_⟩
    cases hs with
    | @workHard t k u h1 h2 h3 h4 =>
      obtain ⟨_, g1⟩ := (codes_u8.under (ks := ["work_hard_type"])).bw h3
      obtain ⟨_, g2⟩ := (codes_bytes.under (ks := ["unknown_trailer"])).bw h4
      obtain ⟨_, g3⟩ := codes_u8.bw (v := t) (x := 2) h2
      refine wcat2.2 ⟨e8 2, e8 k ++ u, wAt_of h1 (g3 _ (Nat.le_refl _)), wAt_of h1 ?_, by rw [e8_two]; rfl⟩
      rw [if_pos ((isI_says h2).2 rfl)]
      exact wcat2.2 ⟨_, _, g1 _ (Nat.le_refl _), g2 _ (Nat.le_refl _), rfl⟩
    | @other t k h1 h2 h3 =>
      obtain ⟨_, g3⟩ := codes_u8.bw h2
      refine wcat2.2 ⟨e8 k, [], wAt_of h1 (g3 _ (Nat.le_refl _)), wAt_of h1 ?_, by simp⟩
      rw [if_neg]
      rw [isI_says h2]
      intro h
      exact h3 (BitVec.eq_of_toNat_eq (by exact_mod_cast h))
macro_rules | `(tactic| known) => `(tactic| exact codes_effect)

theorem codes_campModule : Codes2 (fun _ => campModuleEncode) SaysCampModule id := by
  unfold campModuleEncode
  apply Codes2.of (Codes2.any (by fields) (Codes2.ite (by fields) (Codes2.ite (by fields) Codes.none.lift)))
  · intro t v b h
    rcases h with ⟨⟨s, hs, ht⟩, x, h, rfl⟩ | ⟨-, ⟨ht, x, h, rfl⟩ | ⟨h1, ⟨ht, x, h, rfl⟩ | ⟨h2, x, h, rfl⟩⟩⟩
    · refine ⟨_, .other (type_ne ht ?_) (type_ne ht ?_), rfl⟩ <;> (rintro rfl; revert hs; decide +kernel)
    · exact ⟨_, .transport ht h, rfl⟩
    · exact ⟨_, .passive ht h, rfl⟩
    · exact ⟨_, .other h1 h2, rfl⟩
  · intro t v y h
    cases h with
    | transport ht h =>
      branch ht
      exact ⟨_, h, rfl⟩
    | passive ht h =>
      branch ht
      exact ⟨_, h, rfl⟩
    | other h1 h2 =>
      by_cases h : ∃ s ∈ campNoOp, IsType t s
      · exact .inl ⟨h, (), trivial, rfl⟩
      · exact .inr ⟨fun s hs ht => h ⟨s, hs, ht⟩, .inr ⟨h1, .inr ⟨h2, (), trivial, rfl⟩⟩⟩

/-! ### work -/

def workBody (t p : Val) : Except Err Bytes := match t with
    | .list _ | .dict _ => .error .type
    | _ => if t.isAny workBaseTypes then wcat [workBaseEncode p, workExtraEncode t p]
      else if t.isAny workAssignTypes then workAssignEncode t p
      else .ok []

theorem workBody_eq (t p : Val) (h1 : ∀ l, t ≠ .list l) (h2 : ∀ d, t ≠ .dict d) : workBody t p =
    if t.isS "EPalWorkableType::Defense" then wcat [workBaseEncode p, wAt p ["defense_combat_type"] wByte]
    else if t.isS "EPalWorkableType::Progress" then wcat [workBaseEncode p, wAt p ["required_work_amount"] wFloat,
      wAt p ["work_exp"] wI32, wAt p ["current_work_amount"] wFloat, wAt p ["auto_work_self_amount_by_sec"] wFloat]
    else if t.isS "EPalWorkableType::ReviveCharacter" then wcat [workBaseEncode p,
      wAt p ["target_individual_id", "player_uid"] wGuid, wAt p ["target_individual_id", "instance_id"] wGuid]
    else if t.isAny plainWork then workBaseEncode p
    else if t.isS "EPalWorkableType::Assign" then wcat [wAt p ["handle_id"] wGuid, wAt p ["location_index"] wI32,
      wAt p ["assign_type"] wByte, wAt p ["assigned_individual_id", "player_uid"] wGuid,
      wAt p ["assigned_individual_id", "instance_id"] wGuid, wAt p ["state"] wByte, wAt p ["fixed"] wU32]
    else .ok [] := by
  have hm : workBody t p = if t.isAny workBaseTypes then wcat [workBaseEncode p, workExtraEncode t p]
      else if t.isAny workAssignTypes then workAssignEncode t p
      else .ok [] := by
    cases t
    case list l => exact absurd rfl (h1 l)
    case dict d => exact absurd rfl (h2 d)
    all_goals rfl
  rw [hm]
  have flat : ∀ l, wcat [workBaseEncode p, wcat l] = wcat (workBaseEncode p :: l) := by
    intro l
    simp only [wcat]
    cases workBaseEncode p <;> cases wcat l <;> simp
  have drop : wcat [workBaseEncode p, .ok []] = workBaseEncode p := by
    simp only [wcat]
    cases workBaseEncode p <;> simp
  by_cases g1 : t.isS "EPalWorkableType::Defense" = true
  · cases isS_iff.1 g1
    rfl
  by_cases g2 : t.isS "EPalWorkableType::Progress" = true
  · cases isS_iff.1 g2
    exact flat _
  by_cases g3 : t.isS "EPalWorkableType::ReviveCharacter" = true
  · cases isS_iff.1 g3
    exact flat _
  rw [if_neg g1, if_neg g2, if_neg g3]
  by_cases g4 : t.isAny plainWork = true
  · rw [if_pos g4]
    have : t.isAny workBaseTypes = true := by
      rw [isAny_iff] at g4 ⊢
      obtain ⟨s, hs, ht⟩ := g4
      exact ⟨s, (by decide +kernel : ∀ s ∈ plainWork, s ∈ workBaseTypes) s hs, ht⟩
    rw [if_pos this]
    unfold workExtraEncode
    rw [if_neg g1, if_neg g2, if_neg g3]
    exact drop
  · rw [if_neg g4]
    have : ¬ t.isAny workBaseTypes = true := by
      rw [isAny_iff] at g4 ⊢
      rintro ⟨s, hs, ht⟩
      rcases (by decide +kernel : ∀ s ∈ workBaseTypes, s ∈ plainWork ∨ s = "EPalWorkableType::Defense" ∨
        s = "EPalWorkableType::Progress" ∨ s = "EPalWorkableType::ReviveCharacter") s hs with h | rfl | rfl | rfl
      · exact g4 ⟨s, h, ht⟩
      · exact g1 (isS_iff.2 ht)
      · exact g2 (isS_iff.2 ht)
      · exact g3 (isS_iff.2 ht)
    rw [if_neg this]
    by_cases g5 : t.isS "EPalWorkableType::Assign" = true
    · cases isS_iff.1 g5
      show wcat _ = wcat _
      have last : ∀ l : List (Except Err Bytes), wcat (l ++ [.ok []]) = wcat l := by
        intro l
        induction l with
        | nil => rfl
        | cons a t ih => simp only [List.cons_append, wcat, ih]
      exact last [_, _, _, _, _, _, _]
    · rw [if_neg g5, if_neg]
      rw [isAny_iff]
      rintro ⟨s, hs, ht⟩
      rcases (by decide +kernel : ∀ s ∈ workAssignTypes, s ∈ plainWork ∨ s = "EPalWorkableType::Assign") s hs with h | rfl
      · exact g4 (isAny_iff.2 ⟨s, h, ht⟩)
      · exact g5 (isS_iff.2 ht)

theorem workBody_key {t p : Val} {b : Bytes} (h : workBody t p = .ok b) : (∀ l, t ≠ .list l) ∧ ∀ d, t ≠ .dict d := by
  constructor
  · rintro l rfl; cases h
  · rintro l rfl; cases h

theorem saysWork_key {t v : Val} {b : Bytes} (h : SaysWorkBody t v b) : (∀ l, t ≠ .list l) ∧ ∀ d, t ≠ .dict d := by
  cases h with
  | other _ h1 h2 => exact ⟨h1, h2⟩
  | plain _ h => rw [h]; exact ⟨nofun, nofun⟩
  | defense h => rw [h]; exact ⟨nofun, nofun⟩
  | progress h => rw [h]; exact ⟨nofun, nofun⟩
  | revive h => rw [h]; exact ⟨nofun, nofun⟩
  | assign h => rw [h]; exact ⟨nofun, nofun⟩

theorem codes_workBody : Codes2 (fun _ => workBody) SaysWorkBody id := by
  have key := Codes2.ite (s := "EPalWorkableType::Defense")
    (w := fun _ p => wcat [workBaseEncode p, wAt p ["defense_combat_type"] wByte]) (by fields) <|
    Codes2.ite (s := "EPalWorkableType::Progress") (w := fun _ p => wcat [workBaseEncode p, wAt p ["required_work_amount"] wFloat,
      wAt p ["work_exp"] wI32, wAt p ["current_work_amount"] wFloat, wAt p ["auto_work_self_amount_by_sec"] wFloat])
      (by fields) <|
    Codes2.ite (s := "EPalWorkableType::ReviveCharacter") (w := fun _ p => wcat [workBaseEncode p,
      wAt p ["target_individual_id", "player_uid"] wGuid, wAt p ["target_individual_id", "instance_id"] wGuid]) (by fields) <|
    Codes2.any (l := plainWork) (w := fun _ p => workBaseEncode p) (by fields) <|
    Codes2.ite (s := "EPalWorkableType::Assign") (w := fun _ p => wcat [wAt p ["handle_id"] wGuid,
      wAt p ["location_index"] wI32, wAt p ["assign_type"] wByte, wAt p ["assigned_individual_id", "player_uid"] wGuid,
      wAt p ["assigned_individual_id", "instance_id"] wGuid, wAt p ["state"] wByte, wAt p ["fixed"] wU32]) (by fields) <|
    Codes.none.lift
  constructor
  · intro n t v b hpt hp hw
    have g1 : ∀ l, t ≠ .list l := (workBody_key hw).1
    have g2 : ∀ d, t ≠ .dict d := (workBody_key hw).2
    rw [workBody_eq t v g1 g2] at hw
    obtain ⟨c, h, he⟩ := key.fw (n := n) hpt hp hw
    clear key hw
    refine ⟨c, ?_, he⟩
    rcases h with ⟨ht, x, h, hx⟩ | ⟨h1, ⟨ht, x, h, hx⟩ | ⟨h2, ⟨ht, x, h, hx⟩ | ⟨h3, ⟨⟨s, hs, ht⟩, x, h, hx⟩ |
      ⟨h4, ⟨ht, x, h, hx⟩ | ⟨h5, x, h, hx⟩⟩⟩⟩⟩ <;> rw [hx]
    · exact .defense ht h.1 h.2
    · have := SaysWorkBody.progress ht h.1 h.2.1 h.2.2.1 h.2.2.2.1 h.2.2.2.2
      simp only [WorkBody.enc, List.append_assoc] at this
      exact this
    · have := SaysWorkBody.revive (x := (x.2.1, x.2.2)) ht h.1 ⟨h.2.1, h.2.2⟩
      simp only [WorkBody.enc, eHandle] at this
      exact this
    · exact .plain hs ht h
    · have := SaysWorkBody.assign (w := (x.2.2.2.1, x.2.2.2.2.1)) ht h.1 h.2.1 h.2.2.1 ⟨h.2.2.2.1, h.2.2.2.2.1⟩ h.2.2.2.2.2.1 h.2.2.2.2.2.2
      simp only [WorkBody.enc, eHandle, List.append_assoc] at this
      exact this
    · refine .other ?_ g1 g2
      intro s hs
      rcases List.mem_append.1 hs with hs | hs
      · exact h4 s hs
      · simp only [List.mem_cons, List.not_mem_nil, or_false] at hs
        rcases hs with rfl | rfl | rfl | rfl
        exacts [h1, h2, h3, h5]
  · intro t v b h
    have g := saysWork_key h
    simp only [workBody_eq t v g.1 g.2]
    apply key.bw
    cases h with
    | @plain s hs b ht h1 =>
      have e : ∀ s', s' ∉ plainWork → ¬ IsType t s' := fun s' hs' => type_ne ht (fun h => hs' (h ▸ hs))
      exact .inr ⟨e _ (by decide +kernel), .inr ⟨e _ (by decide +kernel), .inr ⟨e _ (by decide +kernel), .inl ⟨⟨s, hs, ht⟩, b, h1, rfl⟩⟩⟩⟩
    | @defense b c ht h1 h2 =>
      branch ht
      exact ⟨(b, c), ⟨h1, h2⟩, rfl⟩
    | @progress b r c a e ht h1 h2 h3 h4 h5 =>
      branch ht
      exact ⟨(b, r, e, c, a), ⟨h1, h2, h3, h4, h5⟩, by simp [WorkBody.enc]⟩
    | @revive b x ht h1 h2 =>
      branch ht
      exact ⟨(b, x.1, x.2), ⟨h1, h2.1, h2.2⟩, by simp [WorkBody.enc, eHandle]⟩
    | @assign h i f k s w ht h1 h2 h3 h4 h5 h6 =>
      branch ht
      exact ⟨(h, i, k, w.1, w.2, s, f), ⟨h1, h2, h3, h4.1, h4.2, h5, h6⟩, by simp [WorkBody.enc, eHandle]⟩
    | other h =>
      refine .inr ⟨h _ (by simp), .inr ⟨h _ (by simp), .inr ⟨h _ (by simp), .inr ⟨fun s hs => h s (by simp [hs]),
        .inr ⟨h _ (by simp), (), trivial, rfl⟩⟩⟩⟩⟩

def transformEncode (tr : Val) : Except Err Bytes :=
  wAt tr ["type"] fun t =>
    wcat [wByte t,
      if t.isI 1 then
        match tr.contains (P "v2") with
        | .error e => .error e
        | .ok false =>
          wcat [wAt tr ["location"] wVectorDict, wAt tr ["rotation"] wQuatDict, wAt tr ["scale"] wVectorDict]
        | .ok true => wFTransform tr
      else if t.isI 2 then wAt tr ["map_object_instance_id"] wGuid
      else if t.isI 3 then wcat [wAt tr ["guid"] wGuid, wAt tr ["instance_id"] wGuid]
      else wAt tr ["raw_data"] wRaw]

theorem workTransform_eq (p : Val) : workTransformEncode p = wAt p ["transform"] transformEncode := by
  unfold workTransformEncode
  cases h : p.get (P "transform") with
  | error e => simp only [wAt_cons, h]
  | ok tr =>
    unfold transformEncode
    simp only [wAt_cons, wAt_nil, h]
    cases tr.get (P "type") <;> rfl

theorem wRaw_iff {v : Val} {b : Bytes} : wRaw v = .ok b ↔ v = .bytes b := by
  cases v <;> simp [wRaw]

theorem codes_oldTransform : Codes (fun _ tr => wcat [wAt tr ["location"] wVectorDict, wAt tr ["rotation"] wQuatDict,
    wAt tr ["scale"] wVectorDict]) (fun v (x : Vec free × Quat free × Vec free) => Reach v ["location"] (SaysVec · x.1) ∧
      Reach v ["rotation"] (SaysQuat · x.2.1) ∧ Reach v ["scale"] (SaysVec · x.2.2))
    (fun x => eVec x.1 ++ (eQuat x.2.1 ++ eVec x.2.2)) := by
  record fun r => (r.1, r.2.1, r.2.2), fun x => x, fun _ _ => Iff.rfl

theorem codes_instance : Codes (fun _ tr => wcat [wAt tr ["guid"] wGuid, wAt tr ["instance_id"] wGuid])
    (fun v (x : Guid × Guid) => Reach v ["guid"] (SaysGuid · x.1) ∧ Reach v ["instance_id"] (SaysGuid · x.2))
    (fun x => eGuid x.1 ++ eGuid x.2) := by
  record fun r => (r.1, r.2), fun x => x, fun _ _ => Iff.rfl

theorem codes_workTransform : Codes (fun _ => transformEncode) SaysWorkTransform id where
  fw := fun {n v b} hp hw => by
    obtain ⟨t, h3, h4⟩ := wAt_iff1.1 hw
    obtain ⟨c, d, h1, h6, rfl⟩ := wcat2.1 h4
    obtain ⟨k, h7, rfl⟩ := codes_u8.fw (n := n) (plain_at hp h3) h1
    have hv : ∀ m : BitVec 8, (t.isI (m.toNat : Int) = true ↔ k = m) := fun m => by
      rw [isI_says h7]
      exact ⟨fun h => BitVec.eq_of_toNat_eq (by exact_mod_cast h), fun h => by rw [h]⟩
    by_cases k1 : t.isI 1 = true
    · cases (hv 1).1 k1
      rw [if_pos k1] at h6
      cases hc : v.contains (P "v2") with
      | error e => rw [hc] at h6; cases h6
      | ok x =>
        rw [hc] at h6
        cases x with
        | false =>
          obtain ⟨y, g1, rfl⟩ := codes_oldTransform.fw (n := n) hp h6
          refine ⟨_, .old h3 h7 hc g1.1 g1.2.1 g1.2.2, ?_⟩
          simp only [id, List.append_assoc]; rfl
        | true =>
          obtain ⟨y, g1, rfl⟩ := codes_transform.fw (n := n) hp h6
          exact ⟨_, .direct h3 h7 hc g1, rfl⟩
    rw [if_neg k1] at h6
    by_cases k2 : t.isI 2 = true
    · cases (hv 2).1 k2
      rw [if_pos k2] at h6
      obtain ⟨y, g1, rfl⟩ := codes_guid.under.fw (n := n) hp h6
      exact ⟨_, .object h3 h7 g1, rfl⟩
    rw [if_neg k2] at h6
    by_cases k3 : t.isI 3 = true
    · cases (hv 3).1 k3
      rw [if_pos k3] at h6
      obtain ⟨y, g1, rfl⟩ := codes_instance.fw (n := n) hp h6
      exact ⟨_, .handle h3 h7 g1.1 g1.2, by simp only [id, List.append_assoc]; rfl⟩
    rw [if_neg k3] at h6
    obtain ⟨y, g1, g2⟩ := wAt_iff1.1 h6
    rw [wRaw_iff] at g2
    subst g2
    refine ⟨_, .other h3 h7 ?_ g1, rfl⟩
    intro hk
    simp only [List.mem_cons, List.not_mem_nil, or_false] at hk
    rcases hk with rfl | rfl | rfl
    · exact k1 ((hv 1).2 rfl)
    · exact k2 ((hv 2).2 rfl)
    · exact k3 ((hv 3).2 rfl)
  bw := fun {v b} hs => by
    refine ⟨0, fun n _ => ?_⟩
    have fin : ∀ {t : Val} {k : BitVec 8} {d : Bytes}, At v "type" t → SaysU t k →
        (if t.isI 1 then
          match v.contains (P "v2") with
          | .error e => .error e
          | .ok false =>
            wcat [wAt v ["location"] wVectorDict, wAt v ["rotation"] wQuatDict, wAt v ["scale"] wVectorDict]
          | .ok true => wFTransform v
        else if t.isI 2 then wAt v ["map_object_instance_id"] wGuid
        else if t.isI 3 then wcat [wAt v ["guid"] wGuid, wAt v ["instance_id"] wGuid]
        else wAt v ["raw_data"] wRaw) = .ok d → transformEncode v = .ok (e8 k ++ d) := by
      intro t k d h1 h2 h3
      obtain ⟨_, g3⟩ := codes_u8.bw h2
      exact wAt_of h1 (wcat2.2 ⟨_, _, g3 _ (Nat.le_refl _), h3, rfl⟩)
    cases hs with
    | @direct t x h1 h2 h3 h4 =>
      refine fin (k := 1) h1 h2 ?_
      obtain ⟨_, g⟩ := codes_transform.bw h4
      rw [if_pos ((isI_says h2).2 rfl), h3]
      exact g _ (Nat.le_refl _)
    | @old t loc sc q h1 h2 h3 h4 h5 h6 =>
      have := fin (k := 1) (d := eVec loc ++ (eQuat q ++ eVec sc)) h1 h2 ?_
      · rw [this]
        simp only [id, List.append_assoc]; rfl
      obtain ⟨_, g⟩ := codes_oldTransform.bw (x := (loc, q, sc)) ⟨h4, h5, h6⟩
      rw [if_pos ((isI_says h2).2 rfl), h3]
      exact g _ (Nat.le_refl _)
    | @object t x h1 h2 h3 =>
      refine fin (k := 2) h1 h2 ?_
      obtain ⟨_, g⟩ := codes_guid.under.bw h3
      rw [if_neg (by rw [isI_says h2]; decide), if_pos ((isI_says h2).2 rfl)]
      exact g _ (Nat.le_refl _)
    | @handle t x i h1 h2 h3 h4 =>
      have := fin (k := 3) (d := eGuid x ++ eGuid i) h1 h2 ?_
      · rw [this]
        simp only [id, List.append_assoc]; rfl
      obtain ⟨_, g⟩ := codes_instance.bw (x := (x, i)) ⟨h3, h4⟩
      rw [if_neg (by rw [isI_says h2]; decide), if_neg (by rw [isI_says h2]; decide), if_pos ((isI_says h2).2 rfl)]
      exact g _ (Nat.le_refl _)
    | @other t k d h1 h2 h3 h4 =>
      refine fin h1 h2 ?_
      have hv : ∀ m : BitVec 8, m ∈ [1, 2, 3] → ¬ t.isI (m.toNat : Int) = true := fun m hm h => by
        rw [isI_says h2] at h
        exact h3 (by rw [BitVec.eq_of_toNat_eq (show k.toNat = m.toNat by exact_mod_cast h)]; exact hm)
      rw [if_neg (c := t.isI 1 = true) (hv 1 (by simp)), if_neg (c := t.isI 2 = true) (hv 2 (by simp)),
        if_neg (c := t.isI 3 = true) (hv 3 (by simp))]
      exact wAt_of h4 (wRaw_iff.2 rfl)

theorem codes_work : Codes2 (fun _ => workEncode) SaysWork id where
  fw := fun {n t v b} hpt hp hw => by
    obtain ⟨c, d, h1, h2, rfl⟩ := wcat2.1 hw
    obtain ⟨_, h3, rfl⟩ := codes_workBody.fw (n := n) hpt hp h1
    rw [workTransform_eq] at h2
    obtain ⟨_, h4, rfl⟩ := codes_workTransform.under.fw (n := n) hp h2
    exact ⟨_, ⟨_, _, h3, h4, rfl⟩, rfl⟩
  bw := by
    rintro t v b ⟨c, d, h1, h2, rfl⟩
    obtain ⟨k, hk⟩ := both (codes_workBody.bw h1) (codes_workTransform.under.bw h2)
    exact ⟨k, fun n hn => wcat2.2 ⟨_, _, (hk n hn).1, by rw [workTransform_eq]; exact (hk n hn).2, rfl⟩⟩

/-! ### map objects -/

theorem codes_module : Codes2 (fun _ => concreteModuleEncode) SaysModule id := by
  unfold concreteModuleEncode
  apply Codes2.of (Codes2.ite (by fields) (Codes2.ite (by fields) (Codes2.ite (by fields) (Codes2.ite (by fields)
    (Codes2.ite (by fields) Codes.none.lift)))))
  · intro t v b h
    rcases h with ⟨ht, x, h, rfl⟩ | ⟨h1, ⟨ht, x, h, rfl⟩ | ⟨h2, ⟨ht, x, h, rfl⟩ | ⟨h3, ⟨ht, x, h, rfl⟩ | ⟨h4, ⟨ht, x, h, rfl⟩ |
      ⟨h5, x, h, rfl⟩⟩⟩⟩⟩
    · exact ⟨_, .items ht h.1 h.2.1 h.2.2.1 h.2.2.2.1 h.2.2.2.2, by simp [Module.enc]⟩
    · exact ⟨_, .characters ht h, rfl⟩
    · exact ⟨_, .workee ht h, rfl⟩
    · exact ⟨_, .switch ht h, rfl⟩
    · exact ⟨_, .lock ht h.1 h.2.1 h.2.2, by simp [Module.enc]⟩
    · refine ⟨_, .other ?_, rfl⟩
      intro s hs
      simp only [List.mem_cons, List.not_mem_nil, or_false] at hs
      rcases hs with rfl | rfl | rfl | rfl | rfl
      exacts [h1, h2, h3, h4, h5]
  · intro t v y h
    cases h with
    | items ht h1 h2 h3 h4 h5 =>
      branch ht
      exact ⟨(_, _, _, _, _), ⟨h1, h2, h3, h4, h5⟩, by simp [Module.enc]⟩
    | characters ht h =>
      branch ht
      exact ⟨_, h, rfl⟩
    | workee ht h =>
      branch ht
      exact ⟨_, h, rfl⟩
    | switch ht h =>
      branch ht
      exact ⟨_, h, rfl⟩
    | lock ht h1 h2 h3 =>
      branch ht
      exact ⟨(_, _, _), ⟨h1, h2, h3⟩, by simp [Module.enc]⟩
    | other h =>
      exact .inr ⟨h _ (by simp), .inr ⟨h _ (by simp), .inr ⟨h _ (by simp), .inr ⟨h _ (by simp), .inr ⟨h _ (by simp), (), trivial,
        rfl⟩⟩⟩⟩⟩

end Pal
