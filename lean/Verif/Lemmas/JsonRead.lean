import Verif.Lemmas.RedoBlobs
import Verif.Lemmas.BoundProps
import Verif.Lemmas.TreeJson
import Verif.Props.Prim
/-
The values made by the reader are such that JSON transports them, apart from NaNs and
truncated GUIDs: an analysis of every reader and decoder.
-/

namespace Pal
open Spec

mutual
/-- What `JOk` asks of everything but floats and short GUIDs. -/
def JPre : Val → Prop
  | .none => True
  | .bool _ => True
  | .int _ => True
  | .float _ => True
  | .str s => Normal s
  | .bytes _ => False
  | .uuid raw => raw.length ≤ 16
  | .list l => JPreL l
  | .tuple l => JPreL l
  | .dict d => (d.map Prod.fst).Nodup ∧ JPreD d
def JPreL : List Val → Prop
  | [] => True
  | v :: t => JPre v ∧ JPreL t
def JPreD : List (PyStr × Val) → Prop
  | [] => True
  | (k, v) :: t => Normal k ∧ (k = P "value" → NoTuple v) ∧ JPre v ∧ JPreD t
end

/-- The same for a value that may be stored under "value". -/
def JN (v : Val) : Prop := JPre v ∧ NoTuple v

theorem jn1 {v : Val} (h : JN v) : JPre v := h.1
theorem jn2 {v : Val} (h : JN v) : NoTuple v := h.2

theorem jpreL_iff {l : List Val} : JPreL l ↔ ∀ v ∈ l, JPre v := by
  induction l with
  | nil => simp [JPreL]
  | cons a t ih => simp [JPreL, ih]

theorem jpreD_iff {d : Dict} : JPreD d ↔ ∀ kv ∈ d, Normal kv.1 ∧ (kv.1 = P "value" → NoTuple kv.2) ∧ JPre kv.2 := by
  induction d with
  | nil => simp [JPreD]
  | cons a t ih => obtain ⟨k, v⟩ := a; simp [JPreD, ih, and_assoc]

/-! ### dicts -/

/-- Entries of a dict literal. -/
def JS : List (String × Val) → Prop
  | [] => True
  | (k, v) :: t => (k = "value" → NoTuple v) ∧ JPre v ∧ JS t

/-- Distinct keys without split surrogates, for literals. -/
def keysOk' (l : List String) : Bool := (l.map P).Nodup ∧ ∀ k ∈ l, Normal (P k)

theorem jn_dct {l : List (String × Val)} (hk : keysOk' (l.map Prod.fst) = true) (h : JS l) : JN (dct l) := by
  refine ⟨?_, trivial⟩
  simp only [keysOk', decide_eq_true_eq, List.map_map] at hk
  simp only [dct, JPre, List.map_map]
  refine ⟨hk.1, ?_⟩
  replace hk := hk.2
  induction l with
  | nil => simp [JPreD]
  | cons a t ih =>
    obtain ⟨k, v⟩ := a
    simp only [JS] at h
    simp only [List.map_cons, JPreD]
    refine ⟨hk k (by simp), fun e => h.1 ((P_inj _ _).1 e), h.2.1, ih h.2.2 fun k hk' => hk k ?_⟩
    simp at hk' ⊢; exact .inr hk'

/-- A dict with keys among those given. -/
def KD (ks : List String) (d : Dict) : Prop :=
  (d.map Prod.fst).Nodup ∧ (∀ k ∈ d.map Prod.fst, k ∈ ks.map P) ∧ JPreD d

theorem kd_nil {ks : List String} : KD ks [] := ⟨List.nodup_nil, by simp, by simp [JPreD]⟩

theorem kd_mono {a b : List String} (h : ∀ k ∈ a, k ∈ b) {d : Dict} (hd : KD a d) : KD b d :=
  ⟨hd.1, fun k hk => by
    obtain ⟨s, hs, rfl⟩ := List.mem_map.1 (hd.2.1 k hk)
    exact List.mem_map.2 ⟨s, h s hs, rfl⟩, hd.2.2⟩

theorem kd_append {a b : List String} (h : ∀ k ∈ a, k ∉ b) {d e : Dict} (hd : KD a d) (he : KD b e) : KD (a ++ b) (d ++ e) := by
  refine ⟨?_, ?_, ?_⟩
  · rw [List.map_append, List.nodup_append]
    refine ⟨hd.1, he.1, fun k hk k' hk' e => ?_⟩
    subst e
    obtain ⟨s, hs, rfl⟩ := List.mem_map.1 (hd.2.1 k hk)
    obtain ⟨t, ht, e⟩ := List.mem_map.1 (he.2.1 _ hk')
    rw [P_inj] at e
    subst e
    exact h _ hs ht
  · intro k hk
    rw [List.map_append, List.mem_append] at hk ⊢
    exact hk.imp (hd.2.1 k) (he.2.1 k)
  · rw [jpreD_iff]
    intro kv hm
    rcases List.mem_append.1 hm with hm | hm
    · exact jpreD_iff.1 hd.2.2 kv hm
    · exact jpreD_iff.1 he.2.2 kv hm

theorem jn_kd {ks : List String} {d : Dict} (h : KD ks d) : JN (.dict d) := ⟨by simp only [JPre]; exact ⟨h.1, h.2.2⟩, trivial⟩

theorem kd_cons {k : String} {v : Val} {ks : List String} (hk : Normal (P k)) (hm : k ∈ ks) (hv : JPre v) (ht : k = "value" → NoTuple v)
    {d : Dict} (hn : P k ∉ d.map Prod.fst) (hd : KD ks d) : KD ks ((P k, v) :: d) := by
  refine ⟨?_, ?_, ?_⟩
  · rw [List.map_cons, List.nodup_cons]; exact ⟨hn, hd.1⟩
  · intro k' h
    rcases List.mem_cons.1 h with rfl | h
    · exact List.mem_map.2 ⟨k, hm, rfl⟩
    · exact hd.2.1 k' h
  · simp only [JPreD]
    exact ⟨hk, fun e => ht ((P_inj _ _).1 e), hv, hd.2.2⟩

/-! ### primitives -/

theorem jp_ints (b : Bytes) : JPreL (b.map fun x => .int x.toNat) := by
  rw [jpreL_iff]
  intro v hv
  obtain ⟨x, -, rfl⟩ := List.mem_map.1 hv
  simp only [JPre]

theorem jn_int (i : Int) : JN (.int i) := ⟨by simp only [JPre], trivial⟩
theorem jn_bool (b : Bool) : JN (.bool b) := ⟨by simp only [JPre], trivial⟩
theorem jn_float (b : BitVec 64) : JN (.float b) := ⟨by simp only [JPre], trivial⟩
theorem jn_none : JN .none := ⟨by simp only [JPre], trivial⟩
theorem jn_str {s : PyStr} (h : Normal s) : JN (.str s) := ⟨by simpa only [JPre] using h, trivial⟩
theorem jn_list {l : List Val} (h : JPreL l) : JN (.list l) := ⟨by simpa only [JPre] using h, trivial⟩
theorem jn_ints (b : Bytes) : JN (.list (b.map fun x => .int x.toNat)) := jn_list (jp_ints b)
theorem jn_floatVal (an : Bool) (b : BitVec 64) : JN (floatVal an b) := by
  unfold floatVal
  split
  · exact jn_float _
  · split
    · exact jn_none
    · exact jn_float _

/-- Closes goals about values. -/
macro "jv" : tactic => `(tactic| repeat' (first
  | with_reducible assumption
  | with_reducible exact trivial
  | with_reducible exact jn1 (by with_reducible assumption) | with_reducible exact jn2 (by with_reducible assumption)
  | with_reducible exact jn1 (jn_int _) | with_reducible exact jn1 (jn_bool _) | with_reducible exact jn1 (jn_float _)
  | with_reducible exact jn1 jn_none | with_reducible exact jn1 (jn_ints _)
  | with_reducible exact jn1 (jn_str (by first | assumption | decide +kernel))
  | with_reducible exact jn1 (jn_list (by assumption))
  | with_reducible exact jn2 (jn_int _) | with_reducible exact jn2 (jn_bool _) | with_reducible exact jn2 (jn_float _)
  | with_reducible exact jn2 (jn_list (by assumption))
  | with_reducible exact jn_int _ | with_reducible exact jn_bool _ | with_reducible exact jn_float _
  | with_reducible exact jn_none | with_reducible exact jn_ints _ | with_reducible exact jn_floatVal _ _
  | with_reducible exact jn_str (by first | assumption | decide +kernel)
  | with_reducible exact jn_list (by assumption)
  | ((with_reducible refine jn1 (jn_dct ?_ ?_)); (simp only [List.map_cons, List.map_nil]; decide +kernel))
  | ((with_reducible refine jn2 (jn_dct ?_ ?_)); (simp only [List.map_cons, List.map_nil]; decide +kernel))
  | ((with_reducible refine jn_dct ?_ ?_); (simp only [List.map_cons, List.map_nil]; decide +kernel))
  | (simp only [JS, String.reduceEq, false_imp_iff, true_and, and_true, forall_const])
  | with_reducible refine And.intro ?_ ?_
  | with_reducible exact kd_nil
  | ((with_reducible refine kd_cons ?_ ?_ ?_ ?_ ?_ ?_); (decide +kernel); (decide))
  | (simp only [List.map_cons, List.map_nil]; decide +kernel)
  | (intro h; exact absurd h (by decide))))

theorem ret_true {α : Type} (r : R α) : Ret r fun _ => True := fun _ _ _ _ => trivial
theorem jr_i32 : Ret rI32 fun _ => True := ret_true _
theorem jr_u32 : Ret rU32 fun _ => True := ret_true _
theorem jr_i64 : Ret rI64 fun _ => True := ret_true _
theorem jr_u64 : Ret rU64 fun _ => True := ret_true _
theorem jr_u16 : Ret rU16 fun _ => True := ret_true _
theorem jr_byte : Ret rByte fun _ => True := ret_true _
theorem jr_bool : Ret rBool fun _ => True := ret_true _
theorem jr_unsigned {n : Nat} : Ret (rUnsigned n) fun _ => True := ret_true _
theorem jr_toEnd : Ret rReadToEnd fun _ => True := ret_true _
theorem jr_eof : Ret rEof fun _ => True := ret_true _
theorem jr_remaining : Ret rRemaining fun _ => True := ret_true _
theorem jr_checkEof : Ret rCheckEof fun _ => True := ret_true _
theorem jr_checkEofFor : Ret rCheckEofFor fun _ => True := ret_true _
theorem jr_read {n : Nat} : Ret (rRead n) fun b => b.length ≤ n := by
  intro s v s' h
  cases h
  exact List.length_take_le _ _
theorem jr_float (an : Bool) : Ret (rFloat an) JN := ret_bind' jr_unsigned fun _ _ => ret_pure (jn_floatVal _ _)
theorem jr_double (an : Bool) : Ret (rDouble an) JN := ret_bind' jr_unsigned fun _ _ => ret_pure (jn_floatVal _ _)
theorem jr_guid : Ret rGuid JN := ret_bind' jr_read fun b h => ret_pure ⟨by simpa only [JPre] using h, trivial⟩
theorem jr_optGuid : Ret rOptGuid JN := ret_bind fun b => by
  cases b with
  | nil => exact ret_fail
  | cons x t => exact ret_ite (fun _ => ret_pure jn_none) (fun _ => jr_guid)
theorem jr_uuid : Ret rUuid JN :=
  ret_bind' jr_read fun b h => ret_ite (fun _ => ret_fail) fun _ => ret_pure ⟨by simpa only [JPre] using h, trivial⟩
theorem jr_byteList (n : Nat) : Ret (rByteList n) JPre := by
  intro s v s' h
  unfold rByteList at h
  split at h
  · cases h
    simp only [JPre]
    exact jp_ints _
  · cases h
theorem jr_repeat {r : R Val} (h : Ret r JPre) : ∀ n, Ret (rRepeat r n) JPreL
  | 0 => ret_pure (by simp only [JPreL])
  | n + 1 => ret_bind' h fun _ ha => ret_bind' (jr_repeat h n) fun _ hl => ret_pure (by simp only [JPreL]; exact ⟨ha, hl⟩)
theorem ret_mono {α : Type} {r : R α} {Q S : α → Prop} (h : Ret r Q) (hs : ∀ a, Q a → S a) : Ret r S :=
  fun s v s' hr => hs v (h s v s' hr)
theorem jr_repeat' {r : R Val} (h : Ret r JN) (n : Nat) : Ret (rRepeat r n) JPreL := jr_repeat (ret_mono h fun _ => jn1) n
theorem jr_tarray {r : R Val} (h : Ret r JN) : Ret (rTArray r) JN :=
  ret_bind' jr_u32 fun _ _ => ret_bind' (jr_repeat' h _) fun _ hl => ret_pure (jn_list hl)
theorem jr_try {α : Type} {r : R α} {h : Err → R α} {Q : α → Prop} (h1 : Ret r Q) (h2 : ∀ e, Ret (h e) Q) : Ret (rTry r h) Q := by
  intro s v s' hr
  unfold rTry at hr
  split at hr
  · cases hr; exact h1 _ _ _ (by assumption)
  · cases hr
  · exact h2 _ _ _ _ hr

theorem jr_fstring : Ret rFString Normal := fun s v s' h => C12_reader_strings_normal s s' v h
theorem jr_str : Ret rStr JN := ret_bind' jr_fstring fun _ h => ret_pure (jn_str h)

/-- One step on a reader without `match`. -/
macro "jr_step" : tactic => `(tactic|
  first
  | with_reducible assumption
  | with_reducible exact jr_i32 | with_reducible exact jr_u32 | with_reducible exact jr_i64
  | with_reducible exact jr_u64 | with_reducible exact jr_byte | with_reducible exact jr_u16
  | with_reducible exact jr_bool
  | with_reducible exact jr_float _ | with_reducible exact jr_double _ | with_reducible exact jr_guid
  | with_reducible exact jr_uuid | with_reducible exact jr_optGuid | with_reducible exact jr_fstring
  | with_reducible exact jr_str | with_reducible exact jr_byteList _ | with_reducible exact jr_read
  | with_reducible exact jr_toEnd | with_reducible exact jr_eof | with_reducible exact jr_remaining
  | with_reducible exact jr_checkEof | with_reducible exact jr_checkEofFor
  | with_reducible exact ret_fail
  | with_reducible refine jr_tarray ?_
  | with_reducible refine jr_repeat' ?_ _
  | with_reducible refine ret_ite (fun _ => ?_) (fun _ => ?_)
  | with_reducible refine ret_bind' (S := ?_) ?_ fun _ _ => ?_
  | ((with_reducible refine ret_pure ?_); jv; done)
  | ((with_reducible refine ret_pureR ?_); jv; done)
  | with_reducible refine jr_try ?_ fun _ => ?_)

macro "jr_tac" : tactic => `(tactic| repeat (any_goals jr_step))

theorem jr_instanceId : Ret rInstanceId JN := by unfold rInstanceId; jr_tac
theorem jr_vector (an : Bool) : Ret (rVectorDict an) JN := by unfold rVectorDict; jr_tac
theorem jr_quat (an : Bool) : Ret (rQuatDict an) JN := by unfold rQuatDict; jr_tac
theorem jr_transform (an : Bool) : Ret (rFTransform an) JN := by
  have h1 := jr_vector an
  have h2 := jr_quat an
  unfold rFTransform
  jr_tac

/-- Three values. -/
def JN3 (p : Val × Val × Val) : Prop := JN p.1 ∧ JN p.2.1 ∧ JN p.2.2

theorem jr_rotator : Ret rRotator JN3 := by
  unfold rRotator
  exact ret_bind fun _ => ret_bind fun _ => ret_bind fun _ => ret_pure ⟨jn_float _, jn_float _, jn_float _⟩
theorem jr_packedVector (an : Bool) (k : Nat) : Ret (rPackedVector an k) JN3 := by
  unfold rPackedVector
  refine ret_bind fun info => ret_ite (fun _ => ?_) fun _ => ret_ite (fun _ => ?_) fun _ => ?_
  · refine ret_bind fun _ => ret_bind fun _ => ret_bind fun _ => ret_ite (fun _ => ret_pure ?_) (fun _ => ret_pure ?_)
    · exact ⟨jn_float _, jn_float _, jn_float _⟩
    · exact ⟨jn_int _, jn_int _, jn_int _⟩
  · exact ret_bind' (jr_double an) fun _ h1 => ret_bind' (jr_double an) fun _ h2 => ret_bind' (jr_double an) fun _ h3 =>
      ret_pure ⟨h1, h2, h3⟩
  · exact ret_bind' (jr_float an) fun _ h1 => ret_bind' (jr_float an) fun _ h2 => ret_bind' (jr_float an) fun _ h3 =>
      ret_pure ⟨h1, h2, h3⟩

/-- With the compound readers. -/
macro "jr_tac'" : tactic => `(tactic|
  repeat (any_goals first
    | with_reducible exact jr_instanceId | with_reducible exact jr_vector _
    | with_reducible exact jr_quat _ | with_reducible exact jr_transform _
    | jr_step))

/-! ### the decoders of blobs -/

theorem jr_itemAndNum : Ret itemAndNumDecode JN := by unfold itemAndNumDecode; jr_tac'
theorem jr_playerInfo : Ret playerInfoDecode JN := by unfold playerInfoDecode; jr_tac'
theorem jr_guildPlayer : Ret guildPlayerDecode JN := by
  unfold guildPlayerDecode
  have := jr_playerInfo
  jr_tac'
theorem jr_groupOrg : Ret groupOrg (KD ["org_type", "base_ids"]) := by unfold groupOrg; jr_tac'
theorem jr_groupGuild : Ret groupGuild (KD ["base_camp_level", "map_object_instance_ids_base_camp_points", "guild_name"]) := by
  unfold groupGuild; jr_tac'
theorem jr_groupIndie : Ret groupIndie (KD ["player_uid", "guild_name_2", "player_info"]) := by
  unfold groupIndie
  have := jr_playerInfo
  jr_tac'
theorem jr_groupPlayers : Ret groupPlayers (KD ["admin_player_uid", "players"]) := by
  unfold groupPlayers
  have := jr_guildPlayer
  jr_tac'
theorem jr_group {t : Val} (ht : JPre t) : Ret (groupDecode t) JN := by
  unfold groupDecode
  have h1 := jr_groupOrg
  have h2 := jr_groupGuild
  have h3 := jr_groupIndie
  have h4 := jr_groupPlayers
  refine ret_bind' jr_guid fun a g1 => ret_bind' jr_str fun b g2 => ret_bind' (jr_tarray jr_instanceId) fun c g3 =>
    ret_bind' (S := KD ["org_type", "base_ids"]) ?_ fun _ g4 =>
    ret_bind' (S := KD ["base_camp_level", "map_object_instance_ids_base_camp_points", "guild_name"]) ?_ fun _ g5 =>
    ret_bind' (S := KD ["player_uid", "guild_name_2", "player_info"]) ?_ fun _ g6 =>
    ret_bind' (S := KD ["admin_player_uid", "players"]) ?_ fun _ g7 => ret_bind' jr_checkEof fun _ _ => ret_pure ?_
  · jr_tac'
  · jr_tac'
  · jr_tac'
  · jr_tac'
  · have g0 : KD ["group_type", "group_id", "group_name", "individual_character_handle_ids"]
      [(P "group_type", t), (P "group_id", a), (P "group_name", b), (P "individual_character_handle_ids", c)] := by jv
    exact jn_kd (kd_append (by decide) (kd_append (by decide) (kd_append (by decide) (kd_append (by decide) g0 g4) g5) g6) g7)

theorem jr_charContainer : Ret charContainerDecode JN := by unfold charContainerDecode; jr_tac'
theorem jr_byteVal : Ret rByteVal JN := by unfold rByteVal; jr_tac'
theorem jr_i32Val : Ret rI32Val JN := by unfold rI32Val; jr_tac'
theorem jr_u32Val : Ret rU32Val JN := by unfold rU32Val; jr_tac'
theorem jr_i64Val : Ret rI64Val JN := by unfold rI64Val; jr_tac'
theorem jr_permission : Ret permissionDecode JN := by
  unfold permissionDecode
  have := jr_byteVal
  jr_tac'
theorem jr_itemContainer : Ret itemContainerDecode JN := by
  unfold itemContainerDecode
  have := jr_permission
  jr_tac'
theorem jr_itemContainerSlots (an : Bool) : Ret (itemContainerSlotsDecode an) JN := by
  unfold itemContainerSlotsDecode
  have := jr_permission
  jr_tac'
theorem jr_foliageModel : Ret foliageModelDecode JN := by unfold foliageModelDecode; jr_tac'
theorem jr_foliageInstance (an : Bool) : Ret (foliageInstanceDecode an) JN := by
  unfold foliageInstanceDecode
  refine ret_bind' jr_guid fun _ _ => ret_bind' jr_rotator fun p hp => ?_
  obtain ⟨a, b, c⟩ := p
  simp only
  refine ret_bind' (jr_packedVector an 1) fun q hq => ?_
  obtain ⟨x, y, z⟩ := q
  simp only
  simp only [JN3] at hp hq
  obtain ⟨ha, hb, hc⟩ := hp
  obtain ⟨hx, hy, hz⟩ := hq
  jr_tac'
theorem jr_baseCamp (an : Bool) : Ret (baseCampDecode an) JN := by unfold baseCampDecode; jr_tac'
theorem jr_workerDirector (an : Bool) : Ret (workerDirectorDecode an) JN := by unfold workerDirectorDecode; jr_tac'
theorem jr_workCollection : Ret workCollectionDecode JN := by unfold workCollectionDecode; jr_tac'
theorem jr_mapModel (an : Bool) : Ret (mapModelDecode an) JN := by unfold mapModelDecode; jr_tac'
theorem jr_connectInfo : Ret connectInfoDecode JN := by unfold connectInfoDecode; jr_tac'
theorem jr_otherConnector : Ret otherConnectorDecode JN := by
  unfold otherConnectorDecode
  have := jr_connectInfo
  jr_tac'
theorem jr_otherConnectors : ∀ n, Ret (otherConnectors n) JPreL
  | 0 => by
    intro s v s' h
    cases s with
    | nil => cases h; simp only [JPreL]
    | cons a t => cases h
  | n + 1 => by
    intro s v s' h
    cases s with
    | nil => cases h; simp only [JPreL]
    | cons a t =>
      unfold otherConnectors at h
      simp only at h
      exact ret_bind' jr_otherConnector (fun x hx => ret_bind' (jr_otherConnectors n) fun l hl =>
        ret_pure (Q := JPreL) (by simp only [JPreL]; exact ⟨hx.1, hl⟩)) _ _ _ h
theorem jr_connector : Ret connectorDecode JN := by
  unfold connectorDecode
  refine ret_bind' jr_i32 fun lv _ => ret_bind' jr_byte fun ix _ => ret_bind' (jr_tarray jr_connectInfo) fun ap _ =>
    ret_bind' jr_eof fun e _ => ret_bind' jr_remaining fun _ _ => ret_bind' (jr_otherConnectors _) fun l hl => ret_pure ?_
  have g0 : KD ["supported_level", "connect"] [(P "supported_level", .int lv),
    (P "connect", dct [("index", .int ix), ("any_place", ap)])] := by jv
  have g1 : KD ["other_connectors"] [(P "other_connectors", .list l)] := by jv
  cases e
  · exact jn_kd (kd_append (by decide) g0 g1)
  · exact jn_kd g0
theorem jr_buildProcess : Ret buildProcessDecode JN := by unfold buildProcessDecode; jr_tac'
theorem jr_slotIndexes : Ret slotIndexesDecode JN := by
  unfold slotIndexesDecode
  have := jr_i32Val
  jr_tac'
theorem jr_lockInfo : Ret lockInfoDecode JN := by unfold lockInfoDecode; jr_tac'
theorem jr_moduleItem : Ret moduleItemDecode JN := by
  unfold moduleItemDecode
  have := jr_slotIndexes
  have := jr_byteVal
  jr_tac'
theorem jr_moduleLock : Ret moduleLockDecode JN := by
  unfold moduleLockDecode
  have := jr_lockInfo
  jr_tac'
theorem jr_guidDict (k : String) (h : Normal (P k)) : Ret (guidDict k) JN := by
  unfold guidDict
  refine ret_bind' jr_guid fun v hv => ret_pure (jn_dct ?_ ?_)
  · simp only [keysOk', List.map_cons, List.map_nil, decide_eq_true_eq]
    refine ⟨by simp, fun k' hk => ?_⟩
    rw [List.mem_singleton.1 hk]
    exact h
  · simp only [JS]
    exact ⟨fun _ => hv.2, hv.1, trivial⟩
theorem jr_moduleSwitch : Ret moduleSwitchDecode JN := by unfold moduleSwitchDecode; jr_tac'
theorem jr_concreteModule (mt : Val) : Ret (concreteModuleDecode mt) JN := by
  unfold concreteModuleDecode
  refine ret_bind' (S := JN) ?_ fun _ _ => by jr_tac'
  unfold moduleBodyDecode
  have h1 := jr_moduleItem
  have h2 := jr_moduleLock
  have h3 := jr_moduleSwitch
  have h4 := jr_guidDict "target_container_id" (by decide +kernel)
  have h5 := jr_guidDict "target_work_id" (by decide +kernel)
  have h6 : Ret (R.pure (.dict []) : R Val) JN := ret_pureR (jn_kd (kd_nil (ks := [])))
  jr_tac'
theorem jr_transportInfo (an : Bool) : Ret (transportInfoDecode an) JN := by
  unfold transportInfoDecode
  have := jr_itemAndNum
  jr_tac'
theorem jr_passiveEffect : Ret passiveEffectDecode JN := by unfold passiveEffectDecode; jr_tac'

theorem jn_raw {raw : Val} (h : JPre raw) : JN (dct [("values", raw)]) := by jv

theorem jr_campModule (an : Bool) (mt : Val) {raw : Val} (h : JPre raw) : Ret (campModuleDecode an mt raw) JN := by
  unfold campModuleDecode
  have h1 := jr_transportInfo an
  have h2 := jr_passiveEffect
  have h3 : Ret (pure (dct [("values", raw)]) : R Val) JN := ret_pure (jn_raw h)
  have h4 : Ret (pure (.dict []) : R Val) JN := ret_pure (jn_kd (kd_nil (ks := [])))
  jr_tac'
theorem jr_assignLocation (an : Bool) : Ret (assignLocationDecode an) JN := by unfold assignLocationDecode; jr_tac'
theorem jr_individualId : Ret individualIdDecode JN := by unfold individualIdDecode; jr_tac'

def workKeys : List String := ["id", "workable_bounds", "base_camp_id_belong_to", "owner_map_object_model_id",
  "owner_map_object_concrete_model_id", "current_state", "assign_locations", "behaviour_type", "assign_define_data_id",
  "override_work_type", "assignable_fixed_type", "assignable_otomo", "can_trigger_worker_event", "can_steal_assign"]
def workExtraKeys : List String := ["defense_combat_type", "required_work_amount", "work_exp", "current_work_amount",
  "auto_work_self_amount_by_sec", "target_individual_id"]
def workAssignKeys : List String := ["handle_id", "location_index", "assign_type", "assigned_individual_id", "state", "fixed",
  "target_map_object_model_id"]

theorem jr_workBase (an : Bool) : Ret (workBaseDecode an) (KD workKeys) := by
  unfold workBaseDecode
  have := jr_assignLocation an
  jr_tac'
theorem jr_workExtra (an : Bool) (wt : Val) : Ret (workExtraDecode an wt) (KD workExtraKeys) := by
  unfold workExtraDecode
  have := jr_individualId
  jr_tac'
theorem jr_workAssign (wt : Val) : Ret (workAssignDecode wt) (KD workAssignKeys) := by
  unfold workAssignDecode
  have := jr_individualId
  simp only [List.cons_append, List.nil_append]
  jr_tac'
theorem jr_workBody (an : Bool) (wt : Val) : Ret (workBodyDecode an wt) (KD (workKeys ++ workExtraKeys ++ workAssignKeys)) := by
  unfold workBodyDecode
  refine ret_ite (fun _ => ?_) fun _ => ?_
  · exact ret_bind' (jr_workBase an) fun _ h1 => ret_bind' (jr_workExtra an wt) fun _ h2 =>
      ret_pure (kd_mono (by decide) (kd_append (by decide) h1 h2))
  · exact ret_mono (jr_workAssign wt) fun _ => kd_mono (by decide)
theorem jr_workTransform (an : Bool) : Ret (workTransformDecode an) JN := by unfold workTransformDecode; jr_tac'
theorem jr_work (an : Bool) (wt : Val) {raw : Val} (h : JPre raw) : Ret (workDecode an wt raw) JN := by
  unfold workDecode
  split
  · exact ret_fail
  · exact ret_fail
  · refine ret_ite (fun _ => ?_) fun _ => ret_pure (jn_raw h)
    refine ret_bind' (jr_workBody an wt) fun d hd => ret_bind' (jr_workTransform an) fun t ht =>
      ret_bind' jr_checkEofFor fun _ _ => ret_pure ?_
    have g1 : KD ["transform"] [(P "transform", t)] := by jv
    exact jn_kd (kd_append (by decide) hd g1)
theorem jr_workAssignBytes : Ret workAssignBytesDecode JN := by
  unfold workAssignBytesDecode
  have := jr_individualId
  jr_tac'

/-! ### blobs with embedded property lists -/

theorem jr_character {r : R Val} (hr : Ret r JN) : Ret (characterDecode r) JN := by unfold characterDecode; jr_tac'

def dynamicKeys : List String := ["type", "character_id", "object", "unknown_bytes", "unknown_id", "durability",
  "remaining_bullets", "passive_skill_list", "trailer"]

theorem jr_egg {r : R Val} (hr : Ret r JN) : Ret (eggDecode r) (KD dynamicKeys) := by unfold eggDecode; jr_tac'
theorem jr_armor (an : Bool) : Ret (armorDecode an) (KD dynamicKeys) := by unfold armorDecode; jr_tac'
theorem jr_weapon (an : Bool) : Ret (weaponDecode an) (KD dynamicKeys) := by unfold weaponDecode; jr_tac'
theorem jr_trailer : Ret trailerDecode (KD dynamicKeys) := by unfold trailerDecode; jr_tac'
theorem jr_dynamicRest (an : Bool) {r : R Val} (hr : Ret r JN) : Ret (dynamicRest an r) (KD dynamicKeys) := by
  unfold dynamicRest tryEgg
  refine ret_bind' (S := fun o => ∀ d, o = some d → KD dynamicKeys d) ?_ fun e he => ret_bind fun n => ?_
  · refine jr_try (ret_bind' (jr_egg hr) fun d hd => ret_pure ?_) fun e => ret_ite (fun _ => ret_fail) fun _ => ret_pure nofun
    intro d' e; cases e; exact hd
  · cases e with
    | some d => exact ret_pure (he d rfl)
    | none => exact ret_ite (fun _ => jr_armor an) fun _ => jr_try (jr_weapon an) fun _ => jr_trailer
theorem jr_dynamicItem (an : Bool) {r : R Val} (hr : Ret r JN) : Ret (dynamicItemDecode an r) JN := by
  unfold dynamicItemDecode
  refine ret_bind' (S := JN) ?_ fun i hi => ret_bind' (jr_dynamicRest an hr) fun d hd => ret_pure ?_
  · unfold dynamicIdDecode; jr_tac'
  · have g0 : KD ["id"] [(P "id", i)] := by jv
    exact jn_kd (kd_append (d := [(P "id", i)]) (by decide) g0 hd)

def cmKeys : List String := ["auto_picked_up", "stored_parameter_id", "owner_player_uid", "current_recipe_id",
  "remain_product_num", "requested_product_num", "work_speed_additional_rate", "item_id", "remaining_bullets",
  "magazine_size", "bullet_item_name", "state_machine", "crop_data_id", "current_state", "crop_progress_rate_value",
  "water_stack_rate_value", "product_item_id", "hatched_character_save_parameter", "unknown_bytes", "hatched_character_guid",
  "drop_item_infos", "stored_energy_amount", "location_instance_id", "shipping_hours", "recover_amount_by_sec",
  "treasure_grade_type", "spawned_egg_instance_ids", "signboard_text", "extinction_date_time", "base_camp_id"]

theorem cmKeys_normal : ∀ k ∈ cmKeys, Normal (P k) := by decide +kernel

theorem jr_one {k : String} (hk : k ∈ cmKeys) {x : R Val} (h : Ret x JN) : Ret (one k x) (KD cmKeys) := by
  unfold one
  exact ret_bind' h fun v hv => ret_pure (kd_cons (cmKeys_normal k hk) hk hv.1 (fun _ => hv.2) (by simp) kd_nil)

theorem jr_pickup : Ret pickupBase (KD ["auto_picked_up"]) := by unfold pickupBase; jr_tac'

theorem jr_concreteBody (an : Bool) {r : R Val} (hr : Ret r JN) (c : String) {body : R Dict} (h : concreteBody an r c = some body) :
    Ret body (KD cmKeys) := by
  have key : ∀ {p : Prop} [Decidable p] {x : R Dict} {o : Option (R Dict)}, Ret x (KD cmKeys) → (o = some body → Ret body (KD cmKeys)) →
      (if p then some x else o) = some body → Ret body (KD cmKeys) := by
    intro p _ x o hx ho h
    by_cases hp : p
    · rw [if_pos hp] at h; cases h; exact hx
    · rw [if_neg hp] at h; exact ho h
  revert h
  unfold concreteBody
  refine key (ret_pureR kd_nil) ?_
  refine key (by unfold cmDropped; jr_tac') ?_
  refine key (by unfold cmConvert; jr_tac') ?_
  refine key (ret_mono jr_pickup fun _ => kd_mono (by decide)) ?_
  refine key ?_ ?_
  · unfold cmDropItem
    refine ret_bind' jr_pickup fun a ha => ret_bind' jr_str fun s _ => ret_bind' jr_guid fun w _ => ret_bind' jr_guid fun l _ =>
      ret_pure ?_
    have g1 : KD ["item_id"] [(P "item_id", dct [("static_id", s),
      ("dynamic_id", dct [("created_world_id", w), ("local_id_in_created_world", l)])])] := by jv
    exact kd_mono (by decide) (kd_append (by decide) ha g1)
  refine key (jr_one (by decide) (jr_tarray jr_itemAndNum)) ?_
  refine key (jr_one (by decide) jr_guid) ?_
  refine key (by unfold cmBullet; jr_tac') ?_
  refine key (jr_one (by decide) (jr_float _)) ?_
  refine key ?_ ?_
  · unfold cmFarm
    refine ret_bind' jr_str fun c _ => ret_bind' jr_byte fun s _ => ret_bind' (jr_float an) fun r _ => ret_bind' (jr_float an) fun w _ =>
      ret_bind' (S := KD ["state_machine"]) ?_ fun st hst => ret_pure ?_
    · unfold cmFarmState; jr_tac'
    · have g1 : KD ["crop_data_id", "current_state", "crop_progress_rate_value", "water_stack_rate_value"]
        [(P "crop_data_id", c), (P "current_state", .int s), (P "crop_progress_rate_value", r),
          (P "water_stack_rate_value", w)] := by jv
      exact kd_mono (by decide) (kd_append (by decide) g1 hst)
  refine key (jr_one (by decide) jr_guid) ?_
  refine key (jr_one (by decide) (jr_tarray jr_i32Val)) ?_
  refine key (by unfold cmProduct; jr_tac') ?_
  refine key (jr_one (by decide) (jr_float _)) ?_
  refine key (by unfold cmHatch; jr_tac') ?_
  refine key (jr_one (by decide) jr_byteVal) ?_
  refine key (jr_one (by decide) (jr_tarray jr_guid)) ?_
  refine key (jr_one (by decide) jr_str) ?_
  refine key (jr_one (by decide) jr_i64Val) ?_
  refine key (jr_one (by decide) jr_u32Val) ?_
  refine key (jr_one (by decide) jr_guid) ?_
  exact nofun

theorem concreteTable_normal : ∀ kv ∈ concreteTable, Normal (P kv.2) := by decide +kernel

theorem jr_concrete (an : Bool) {r : R Val} (hr : Ret r JN) (oid : Val) {raw : Val} (h : JPre raw) :
    Ret (concreteDecode an r oid raw) JN := by
  have h5 : Ret (pure (dct [("values", raw)]) : R Val) JN := ret_pure (jn_raw h)
  unfold concreteDecode
  cases oid with
  | str o =>
    simp only
    cases hc : concreteClass? o with
    | none => exact h5
    | some c =>
      simp only
      have hn : Normal (P c) := by
        simp only [concreteClass?, Option.map_eq_some_iff] at hc
        obtain ⟨e, h1, rfl⟩ := hc
        exact concreteTable_normal e (List.mem_of_find?_eq_some h1)
      refine ret_bind' jr_guid fun i _ => ret_bind' jr_guid fun m _ => ?_
      cases hb : concreteBody an r c with
      | none => exact h5
      | some body =>
        simp only
        refine ret_bind' (jr_concreteBody an hr c hb) fun d hd => ret_bind' jr_checkEofFor fun _ _ => ret_pure ?_
        have g1 : KD ["instance_id", "model_instance_id", "concrete_model_type"]
          [(P "instance_id", i), (P "model_instance_id", m), (P "concrete_model_type", .str (P c))] := by jv
        exact jn_kd (kd_append (by decide) g1 hd)
  | _ => exact ret_fail

end Pal
