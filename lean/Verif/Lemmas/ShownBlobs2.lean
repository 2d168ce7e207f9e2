import Verif.Lemmas.ShownBlobs
/-
Work, connectors, concrete models, characters and dynamic items are shown as `Spec/ShownBlobs.lean` says.
-/

namespace Pal
open Spec

theorem rFields_append (a b : List (String × R Val)) :
    rFields (a ++ b) = (do let l ← rFields a; let l' ← rFields b; return l ++ l') := by
  induction a with
  | nil => simp only [rFields, List.nil_append, pure_bind, bind_pure]
  | cons h t ih =>
    obtain ⟨k, x⟩ := h
    simp only [List.cons_append, rFields, ih, bind_assoc, pure_bind]

theorem fields_append {a b : List (String × Layout)} {s rest : Bytes} {l : List (String × Val)} :
    Layout.fields (a ++ b) s l rest ↔ ∃ l1 s' l2, Layout.fields a s l1 s' ∧ Layout.fields b s' l2 rest ∧ l = l1 ++ l2 := by
  induction a generalizing s l with
  | nil =>
    simp only [List.nil_append, Layout.fields]
    exact ⟨fun h => ⟨[], s, l, ⟨rfl, rfl⟩, h, rfl⟩, fun ⟨_, _, _, ⟨rfl, rfl⟩, h, e⟩ => by rw [e]; exact h⟩
  | cons h t ih =>
    obtain ⟨k, L⟩ := h
    simp only [List.cons_append, Layout.fields]
    constructor
    · rintro ⟨v, s', l', h1, h2, rfl⟩
      obtain ⟨l1, s2, l2, h3, h4, rfl⟩ := ih.1 h2
      exact ⟨_, s2, l2, ⟨v, s', l1, h1, h3, rfl⟩, h4, rfl⟩
    · rintro ⟨_, s2, l2, ⟨v, s', l1, h1, h3, rfl⟩, h4, rfl⟩
      exact ⟨v, s', _, h1, ih.2 ⟨l1, s2, l2, h3, h4, rfl⟩, rfl⟩

/-- Rows followed by rows that are read as a dict. -/
theorem rWholeFor_append (a b : List (String × R Val)) :
    rWholeFor (a ++ b) = (do
      let l ← rFields a
      let d ← rDict b
      rCheckEofFor
      return .dict ((l.map fun kv => (P kv.1, kv.2)) ++ d)) := by
  simp only [rWholeFor, rRecord, rDict, rFields_append, bind_assoc, pure_bind, dct, List.map_append]

/-! ### work -/

theorem workTransform_reads (an : Bool) : Reads (workTransformDecode an) (Layout.workTransform an) := by
  intro s v rest
  unfold workTransformDecode Layout.workTransform Layout.tagged
  rw [r_bind_iff]
  have e1 : ∀ {s n s'}, rByte s = .ok (n, s') ↔ Unsigned 1 s n s' := rUnsigned_iff
  have key : ∀ (n : Nat) (s' : Bytes), ∃ t : List (String × R Val),
      ReadsL t (("v2", Layout.always (.int 0)) ::
        (if n = 1 then [("rotation", .quat an), ("translation", .vector an), ("scale3d", .vector an)]
        else if n = 2 then [("map_object_instance_id", .guid)]
        else if n = 3 then [("guid", .guid), ("instance_id", .guid)]
        else [("raw_data", .toEnd)])) ∧
      (if n = 1 then do
        let r ← rQuatDict an
        let l ← rVectorDict an
        let s ← rVectorDict an
        return dct [("type", .int n), ("v2", .int 0), ("rotation", r), ("translation", l), ("scale3d", s)]
      else if n = 2 then do
        let g ← rGuid
        return dct [("type", .int n), ("v2", .int 0), ("map_object_instance_id", g)]
      else if n = 3 then do
        let g ← rGuid
        let i ← rGuid
        return dct [("type", .int n), ("v2", .int 0), ("guid", g), ("instance_id", i)]
      else do
        let b ← rReadToEnd
        return dct [("type", .int n), ("v2", .int 0), ("raw_data", .list (b.map fun x => .int x.toNat))]) =
      (do let l ← rFields t; return vDict (("type", .int n) :: l) : R Val) := by
    intro n s'
    have q := quatDict_reads an
    by_cases c1 : n = 1
    · refine ⟨[("v2", pure (.int 0)), ("rotation", rQuatDict an), ("translation", rVectorDict an), ("scale3d", rVectorDict an)], ?_, ?_⟩
      · rw [if_pos c1]; rows
      · rw [if_pos c1]; flat
    rw [if_neg c1, if_neg c1]
    by_cases c2 : n = 2
    · refine ⟨[("v2", pure (.int 0)), ("map_object_instance_id", rGuid)], ?_, ?_⟩
      · rw [if_pos c2]; rows
      · rw [if_pos c2]; flat
    rw [if_neg c2, if_neg c2]
    by_cases c3 : n = 3
    · refine ⟨[("v2", pure (.int 0)), ("guid", rGuid), ("instance_id", rGuid)], ?_, ?_⟩
      · rw [if_pos c3]; rows
      · rw [if_pos c3]; flat
    rw [if_neg c3, if_neg c3]
    refine ⟨[("v2", pure (.int 0)), ("raw_data", do let b ← rReadToEnd; return intsOf b)], ?_, ?_⟩
    · have : Reads (do let b ← rReadToEnd; return intsOf b) .toEnd := by
        intro s v rest
        rw [r_bind_iff]
        unfold Layout.toEnd rReadToEnd
        simp only [r_pure_iff, Except.ok.injEq, Prod.mk.injEq]
        constructor
        · rintro ⟨_, _, ⟨rfl, rfl⟩, rfl, rfl⟩; exact ⟨rfl, rfl⟩
        · rintro ⟨rfl, rfl⟩; exact ⟨_, _, ⟨rfl, rfl⟩, rfl, rfl⟩
      rows
    · flat
  constructor
  · rintro ⟨n, s', h1, h2⟩
    obtain ⟨t, ht, e⟩ := key n s'
    rw [e] at h2
    obtain ⟨l, s2, h3, h4⟩ := r_bind_inv h2
    obtain ⟨rfl, rfl⟩ := r_pure_inv h4
    exact ⟨n, s', _, l, e1.1 h1, rfl, (rFields_iff ht).1 h3, rfl⟩
  · rintro ⟨n, s', f, l, h1, rfl, h2, rfl⟩
    obtain ⟨t, ht, e⟩ := key n s'
    refine ⟨n, s', e1.2 h1, ?_⟩
    rw [e, r_bind_ok ((rFields_iff ht).2 h2)]
    rfl

def workRows (an : Bool) : List (String × R Val) :=
  [("id", rGuid), ("workable_bounds", rRecord [("location", rVectorDict an), ("rotation", rQuatDict an),
    ("box_sphere_bounds", rRecord [("origin", rVectorDict an), ("box_extent", rVectorDict an), ("sphere_radius", rDouble an)])]),
    ("base_camp_id_belong_to", rGuid), ("owner_map_object_model_id", rGuid),
    ("owner_map_object_concrete_model_id", rGuid), ("current_state", rUV 1), ("assign_locations", rTArray (assignLocationDecode an)),
    ("behaviour_type", rUV 1), ("assign_define_data_id", rStr), ("override_work_type", rUV 1),
    ("assignable_fixed_type", rUV 1), ("assignable_otomo", rFlagV 4), ("can_trigger_worker_event", rFlagV 4),
    ("can_steal_assign", rFlagV 4)]

theorem workRows_reads (an : Bool) : ReadsL (workRows an) (workHead an) := by
  have q := quatDict_reads an
  have a := assignLocation_reads an
  unfold workRows workHead
  have : Reads (rRecord [("location", rVectorDict an), ("rotation", rQuatDict an),
    ("box_sphere_bounds", rRecord [("origin", rVectorDict an), ("box_extent", rVectorDict an), ("sphere_radius", rDouble an)])])
    (Layout.bounds an) := by rows
  rows

theorem workBase_eq (an : Bool) : workBaseDecode an = rDict (workRows an) := by
  unfold rDict workRows
  simp only [rRecord, rFields, rUV, rIV, rFlagV, bind_assoc, pure_bind]
  rfl

/-- The rows that are specific to a type of work. -/
theorem work_eq {an : Bool} {s : String} {raw : Val} {x : List (String × R Val)} (hs : s ∈ workBaseTypes)
    (hx : workExtraDecode an (.str (P s)) = rDict x) :
    workDecode an (.str (P s)) raw = rWholeFor (workRows an ++ x ++ [("transform", workTransformDecode an)]) := by
  have h1 : (Val.str (P s)).isAny workBaseTypes = true := by rw [isAny_type]; exact decide_eq_true hs
  rw [workDecode, if_pos (by rw [h1]; rfl), workBodyDecode, if_pos h1, workBase_eq, hx]
  unfold rDict rWholeFor rRecord
  simp only [rFields_append, rFields, bind_assoc, pure_bind, dct, List.map_append, List.map_cons, List.map_nil]
  · nofun
  · nofun

theorem workFields_nodup (an : Bool) : ((workFields an).map Prod.fst).Nodup := by
  show ["EPalWorkableType::Progress", "EPalWorkableType::TransportItemInBaseCamp", "EPalWorkableType::ReviveCharacter",
    "EPalWorkableType::LevelObject", "EPalWorkableType::Repair", "EPalWorkableType::Defense", "EPalWorkableType::BootUp",
    "EPalWorkableType::OnlyJoin", "EPalWorkableType::OnlyJoinAndWalkAround", "EPalWorkableType::RemoveMapObjectEffect",
    "EPalWorkableType::MonsterFarm", "EPalWorkableType::Assign"].Nodup
  decide +kernel

theorem work_known {an : Bool} {s : String} {raw : Val} {f : List (String × Layout)} {t : List (String × R Val)}
    (hm : (s, f) ∈ workFields an) (ht : ReadsL t f)
    (he : workDecode an (.str (P s)) raw = rWholeFor (t ++ [("transform", workTransformDecode an)])) :
    Shows (workDecode an (.str (P s)) raw) (ShowsWork an (.str (P s)) raw) := by
  rw [he]
  refine shows_congr (rWholeFor_shows (ht.append (.cons (workTransform_reads an) .nil))) fun b v => ?_
  constructor
  · exact fun h => .known hm rfl h
  · intro h
    cases h with
    | @known s' f' _ h1 h2 h3 =>
      have h2 : s = s' := (P_inj _ _).1 (Val.str.inj h2)
      subst h2
      rw [nodup_row (workFields_nodup an) hm h1]; exact h3
    | other h1 => exact absurd rfl (h1 _ hm)

/-- Finds a row in a table. -/
macro "row" : tactic => `(tactic| repeat (first | exact List.Mem.head _ | refine List.Mem.tail _ ?_))

theorem workExtra_none {an : Bool} {s : String} (h1 : s ≠ "EPalWorkableType::Defense") (h2 : s ≠ "EPalWorkableType::Progress")
    (h3 : s ≠ "EPalWorkableType::ReviveCharacter") : workExtraDecode an (.str (P s)) = rDict [] := by
  unfold workExtraDecode rDict
  simp only [isS_type, h1, h2, h3, decide_false, Bool.false_eq_true, if_false, rFields, pure_bind, List.map_nil]

theorem work_plain {an : Bool} {s : String} {raw : Val} (hs : s ∈ workBaseTypes) (h1 : s ≠ "EPalWorkableType::Defense")
    (h2 : s ≠ "EPalWorkableType::Progress") (h3 : s ≠ "EPalWorkableType::ReviveCharacter") (hm : (s, workHead an) ∈ workFields an) :
    Shows (workDecode an (.str (P s)) raw) (ShowsWork an (.str (P s)) raw) := by
  refine work_known hm (workRows_reads an) ?_
  rw [work_eq hs (workExtra_none h1 h2 h3), List.append_nil]

theorem work_shows (an : Bool) (t raw : Val) : Shows (workDecode an t raw) (ShowsWork an t raw) := by
  by_cases h0 : ∃ s ∈ workBaseTypes, IsType t s
  · obtain ⟨s, hs, rfl⟩ := h0
    have hs' := hs
    revert hs
    simp only [workBaseTypes, List.mem_cons, List.not_mem_nil, or_false]
    rintro (rfl | rfl | rfl | rfl | rfl | rfl | rfl | rfl | rfl | rfl | rfl)
    case inl =>
      refine work_known (t := workRows an ++ [("required_work_amount", rFloat an), ("work_exp", rIV 4),
        ("current_work_amount", rFloat an), ("auto_work_self_amount_by_sec", rFloat an)]) (.head _)
        ((workRows_reads an).append (by rows)) ?_
      refine work_eq hs' ?_
      unfold workExtraDecode rDict
      simp only [isS_type, String.reduceEq, decide_true, decide_false, Bool.false_eq_true, if_true, if_false]
      flat
    case inr.inr.inl =>
      have := individual_reads
      refine work_known (t := workRows an ++ [("target_individual_id", individualIdDecode)]) (.tail _ (.tail _ (.head _)))
        ((workRows_reads an).append (by rows)) ?_
      refine work_eq hs' ?_
      unfold workExtraDecode rDict
      simp only [isS_type, String.reduceEq, decide_true, decide_false, Bool.false_eq_true, if_true, if_false]
      flat
    case inr.inr.inr.inr.inr.inl =>
      refine work_known (t := workRows an ++ [("defense_combat_type", rUV 1)]) (.tail _ (.tail _ (.tail _ (.tail _ (.tail _ (.head _))))))
        ((workRows_reads an).append (by rows)) ?_
      refine work_eq hs' ?_
      unfold workExtraDecode rDict
      simp only [isS_type, String.reduceEq, decide_true, decide_false, Bool.false_eq_true, if_true, if_false]
      flat
    all_goals exact work_plain hs' (by decide) (by decide) (by decide) (by unfold workFields; row)
  by_cases h1 : IsType t "EPalWorkableType::Assign"
  · unfold IsType at h1
    subst h1
    have := individual_reads
    refine work_known (t := [("handle_id", rGuid), ("location_index", rIV 4), ("assign_type", rUV 1),
      ("assigned_individual_id", individualIdDecode), ("state", rUV 1), ("fixed", rUV 4)]) (by unfold workFields; row) (by rows) ?_
    have n : (Val.str (P "EPalWorkableType::Assign")).isAny workBaseTypes = false := by
      rw [isAny_type]; decide
    rw [workDecode, if_pos (by rw [n, isAny_type]; decide), workBodyDecode, if_neg (by rw [n]; exact Bool.false_ne_true),
      workAssignDecode]
    simp only [isS_type, String.reduceEq, decide_false, Bool.false_eq_true, if_false]
    · simp only [rWholeFor, rRecord, rFields, rUV, rIV, rFlagV, bind_assoc, pure_bind, List.cons_append, List.nil_append]; rfl
    · nofun
    · nofun
  have n0 : t.isAny workBaseTypes = false := isAny_other fun s hs e => h0 ⟨s, hs, e⟩
  have n1 : t.isAny workAssignTypes = false := isAny_other (by
    simp only [workAssignTypes, List.mem_cons, List.not_mem_nil, or_false]
    rintro s (rfl | rfl)
    · exact h1
    · exact fun e => h0 ⟨_, by decide, e⟩)
  have no : ∀ e ∈ workFields an, ¬ IsType t e.1 := by
    intro e he ht
    have hm : e.1 ∈ (workFields an).map Prod.fst := List.mem_map_of_mem he
    have hm : e.1 ∈ workBaseTypes ++ ["EPalWorkableType::Assign"] := hm
    rcases List.mem_append.1 hm with h | h
    · exact h0 ⟨_, h, ht⟩
    · rw [List.mem_singleton.1 h] at ht; exact h1 ht
  intro b v
  constructor
  · rintro ⟨rest, h⟩
    have hl : ∀ l, t ≠ .list l := by rintro l rfl; cases h
    have hd : ∀ l, t ≠ .dict l := by rintro l rfl; cases h
    rw [workDecode, if_neg (by rw [n0, n1]; exact Bool.false_ne_true)] at h
    · obtain ⟨rfl, rfl⟩ := r_pure_inv h
      exact .other no hl hd
    · exact hl
    · exact hd
  · intro h
    cases h with
    | known h1 h2 => exact absurd h2 (no _ h1)
    | other _ hl hd =>
      refine ⟨b, ?_⟩
      rw [workDecode, if_neg (by rw [n0, n1]; exact Bool.false_ne_true)]
      · rfl
      · exact hl
      · exact hd

/-! ### connectors -/

theorem otherConnector_reads : Reads otherConnectorDecode (.record [("index", .u 1), ("connect", .array .connectInfo)]) := by
  have e : otherConnectorDecode = rRecord [("index", rUV 1), ("connect", rTArray connectInfoDecode)] := by flat
  have := connectInfo_reads
  rw [e]; rows

theorem many_le {L : Layout} (h : ∀ s v rest, L s v rest → rest.length ≤ s.length) :
    ∀ {n s l rest}, Layout.many L n s l rest → rest.length ≤ s.length
  | 0, _, _, _, hm => by rw [hm.2]
  | n + 1, s, l, rest, ⟨v, s', l', h1, h2, _⟩ => Nat.le_trans (many_le h h2) (h _ _ _ h1)

theorem takes_le {n : Nat} {s b rest : Bytes} (h : Takes n s b rest) : rest.length ≤ s.length := by
  rw [h.1, List.length_append]; omega

theorem unsigned_len {k : Nat} {s rest : Bytes} {n : Nat} (h : Unsigned k s n rest) : s.length = k + rest.length := by
  rw [h.2, List.length_append, lit_eq, leBytes_length]

theorem otherConnector_lt {s rest : Bytes} {v : Val}
    (h : Layout.record [("index", .u 1), ("connect", .array .connectInfo)] s v rest) : rest.length < s.length := by
  obtain ⟨l, ⟨_, s1, _, ⟨n, h1, _⟩, ⟨_, s2, _, ⟨m, s3, l', h2, h3, _⟩, ⟨_, rfl⟩, _⟩, _⟩, _⟩ := h
  have e1 := unsigned_len h1
  have e2 := unsigned_len h2
  have e3 := many_le (L := .connectInfo) (by
    rintro s v rest ⟨l, ⟨_, s1, _, ⟨b, h1, _⟩, ⟨_, s2, _, ⟨n, h2, _⟩, ⟨_, rfl⟩, _⟩, _⟩, _⟩
    have e1 := takes_le h1
    have e2 := unsigned_len h2
    omega) h3
  omega

theorem otherConnectors_iff : ∀ (n : Nat) {s rest : Bytes} {l : List Val}, s.length ≤ n →
    (otherConnectors n s = .ok (l, rest) ↔
      Layout.Until (.record [("index", .u 1), ("connect", .array .connectInfo)]) s l ∧ rest = [])
  | n, [], rest, l, _ => by
    have e : otherConnectors n [] = .ok ([], []) := by cases n <;> rfl
    rw [e]
    constructor
    · intro h; cases h; exact ⟨.nil, rfl⟩
    · rintro ⟨h, rfl⟩
      cases h with
      | nil => rfl
      | cons h => exact absurd rfl h
  | 0, _ :: _, _, _, h => absurd h (by simp)
  | n + 1, x :: s, rest, l, hn => by
    have e : otherConnectors (n + 1) (x :: s) = (do
        let a ← otherConnectorDecode
        let l ← otherConnectors n
        return a :: l) (x :: s) := rfl
    rw [e]
    simp only [r_bind_iff, r_pure_iff, otherConnector_reads _]
    constructor
    · rintro ⟨a, s', h1, l', s2, h2, rfl, rfl⟩
      have := otherConnector_lt h1
      rw [otherConnectors_iff n (by omega)] at h2
      exact ⟨.cons (by simp) h1 h2.1, h2.2⟩
    · rintro ⟨h, rfl⟩
      cases h with
      | cons h0 h1 h2 =>
        have := otherConnector_lt h1
        exact ⟨_, _, h1, _, [], (otherConnectors_iff n (by omega)).2 ⟨h2, rfl⟩, rfl, rfl⟩

theorem connector_shows : Shows connectorDecode ShowsConnector := by
  have ci := connectInfo_reads
  have hd : ReadsL [("supported_level", rIV 4), ("connect", rRecord [("index", rUV 1), ("any_place", rTArray connectInfoDecode)])]
    connectorHead := by unfold connectorHead; rows
  have e : connectorDecode = (do
      let l ← rFields [("supported_level", rIV 4), ("connect", rRecord [("index", rUV 1), ("any_place", rTArray connectInfoDecode)])]
      let e ← rEof
      let n ← rRemaining
      let others ← otherConnectors n
      return .dict (if e then l.map (fun kv => (P kv.1, kv.2)) else l.map (fun kv => (P kv.1, kv.2)) ++ [(P "other_connectors", .list others)])) := by
    flat
  rw [e]
  intro b v
  unfold ShowsConnector whole Layout.record
  simp only [r_bind_iff, r_pure_iff, rFields_iff hd]
  constructor
  · rintro ⟨rest, l, s1, h1, e, s2, h2, n, s3, h3, os, s4, h4, rfl, rfl⟩
    cases h2
    cases h3
    rw [otherConnectors_iff _ (Nat.le_refl _)] at h4
    cases s1 with
    | nil => exact .inl ⟨l, h1, rfl⟩
    | cons x t =>
      refine .inr ⟨_, fields_append.2 ⟨l, x :: t, [("other_connectors", .list os)], h1, ⟨_, [], [], ⟨os, by simp, h4.1, rfl, rfl⟩, ⟨rfl, rfl⟩, rfl⟩, rfl⟩, ?_⟩
      simp [vDict]
  · rintro (⟨l, h1, rfl⟩ | ⟨l, h1, rfl⟩)
    · exact ⟨[], l, [], h1, true, [], rfl, 0, [], rfl, [], [], rfl, rfl, rfl⟩
    · obtain ⟨l1, s', l2, h2, ⟨_, _, _, ⟨os, hne, hu, rfl, rfl⟩, ⟨rfl, _⟩, rfl⟩, rfl⟩ := fields_append.1 h1
      cases s' with
      | nil => exact absurd rfl hne
      | cons x t =>
        refine ⟨[], l1, _, h2, false, _, rfl, _, _, rfl, os, [], (otherConnectors_iff _ (Nat.le_refl _)).2 ⟨hu, rfl⟩, ?_, rfl⟩
        simp [vDict]

end Pal
