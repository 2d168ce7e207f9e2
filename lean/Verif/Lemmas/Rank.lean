import Verif.Lemmas.TreeMono
/-
The writer's recursion budget: every budget above the rank of the value gives the same
result.
-/

namespace Pal
open Spec

/-! ### ranks of parts -/

theorem rank_mem {l : List Val} {v : Val} (h : v ∈ l) : v.rank ≤ Val.rankL l := by
  induction l with
  | nil => cases h
  | cons a t ih =>
    simp only [Val.rankL]
    rcases List.mem_cons.1 h with rfl | h
    · omega
    · have := ih h; omega

theorem rankL_le {l : List Val} {n : Nat} (h : ∀ v ∈ l, v.rank ≤ n) : Val.rankL l ≤ n := by
  induction l with
  | nil => simp [Val.rankL]
  | cons a t ih =>
    simp only [Val.rankL]
    have := h a (by simp)
    have := ih fun v hv => h v (by simp [hv])
    omega

theorem rank_get {v : Val} {k : PyStr} {x : Val} (h : v.get k = .ok x) : x.rank ≤ v.rank := by
  cases v <;> simp only [Val.get, reduceCtorEq] at h
  case dict d =>
    cases hd : dget? d k with
    | none => rw [hd] at h; cases h
    | some y =>
      rw [hd] at h
      cases h
      have : x.rank ≤ Val.rankD d := by
        induction d with
        | nil => cases hd
        | cons a t ih =>
          obtain ⟨k', v'⟩ := a
          simp only [dget?] at hd
          simp only [Val.rankD]
          split at hd
          · cases hd; split <;> omega
          · have := ih hd; omega
      simp only [Val.rank]
      omega

theorem rank_get_lt {v : Val} {k : PyStr} {x : Val} (hk : k ≠ P "values") (h : v.get k = .ok x) :
    x.rank < v.rank := by
  cases v <;> simp only [Val.get, reduceCtorEq] at h
  case dict d =>
    cases hd : dget? d k with
    | none => rw [hd] at h; cases h
    | some y =>
      rw [hd] at h
      cases h
      have : x.rank < Val.rankD d := by
        induction d with
        | nil => cases hd
        | cons a t ih =>
          obtain ⟨k', v'⟩ := a
          simp only [dget?] at hd
          simp only [Val.rankD]
          split at hd
          · rename_i e
            cases hd
            rw [if_neg (by rw [e]; exact hk)]; omega
          · have := ih hd; omega
      simp only [Val.rank]
      omega

theorem rank_dset (d : Dict) (k : PyStr) (x : Val) :
    Val.rankD (dset d k x) ≤ max (Val.rankD d) ((if k = P "values" then 0 else 1) + x.rank) := by
  induction d with
  | nil => simp [dset, Val.rankD]
  | cons a t ih =>
    obtain ⟨k', v'⟩ := a
    simp only [dset]
    split
    · rename_i e; subst e; simp only [Val.rankD]; omega
    · simp only [Val.rankD]; omega

theorem rank_derase (d : Dict) (k : PyStr) : Val.rankD (derase d k) ≤ Val.rankD d := by
  induction d with
  | nil => simp [derase]
  | cons a t ih =>
    obtain ⟨k', v'⟩ := a
    simp only [derase]
    split
    · simp only [Val.rankD]; omega
    · simp only [Val.rankD]; omega

theorem dget_rank {d : Dict} {k : PyStr} {x : Val} (h : dget? d k = some x) :
    (if k = P "values" then 0 else 1) + x.rank ≤ Val.rankD d := by
  induction d with
  | nil => cases h
  | cons a t ih =>
    obtain ⟨k', v'⟩ := a
    simp only [dget?] at h
    simp only [Val.rankD]
    split at h
    · rename_i e; cases h; rw [e]; omega
    · have := ih h; omega

/-- Replacing an entry by something of no larger rank. -/
theorem rank_set {v w : Val} {k : PyStr} {x y : Val} (hx : v.get k = .ok x) (hy : y.rank ≤ x.rank)
    (h : v.set k y = .ok w) : w.rank ≤ v.rank := by
  cases v <;> simp only [Val.set, reduceCtorEq] at h
  case dict d =>
    cases h
    simp only [Val.get] at hx
    cases hd : dget? d k with
    | none => rw [hd] at hx; cases hx
    | some x' =>
      rw [hd] at hx
      cases hx
      have h1 := dget_rank hd
      have h2 := rank_dset d k y
      simp only [Val.rank]
      omega

theorem rank_del {v w : Val} {k : PyStr} (h : v.del k = .ok w) : w.rank ≤ v.rank := by
  cases v <;> simp only [Val.del, reduceCtorEq] at h
  case dict d =>
    cases hd : dget? d k with
    | none => rw [hd] at h; cases h
    | some x =>
      rw [hd] at h
      cases h
      have := rank_derase d k
      simp only [Val.rank]
      omega

theorem rank_dict (d : Dict) : 2 ≤ (Val.dict d).rank := by simp only [Val.rank]; omega

theorem rank_of_get {v : Val} {k : PyStr} {x : Val} (h : v.get k = .ok x) : 2 ≤ v.rank := by
  cases v <;> simp only [Val.get, reduceCtorEq] at h
  exact rank_dict _

theorem rank_of_contains {v : Val} {k : PyStr} {b : Bool} (h : v.contains k = .ok b) : 2 ≤ v.rank := by
  cases v <;> simp only [Val.contains, reduceCtorEq] at h <;> (simp only [Val.rank]; omega)

theorem rank_path {v : Val} {l : List PyStr} {x : Val} (h : v.path l = .ok x) : x.rank ≤ v.rank := by
  induction l generalizing v with
  | nil => cases h; exact Nat.le_refl _
  | cons k t ih =>
    simp only [Val.path] at h
    cases hg : v.get k with
    | error e => rw [hg] at h; cases h
    | ok y => rw [hg] at h; have := ih h; have := rank_get hg; omega

theorem rank_seqItems {v : Val} {l : List Val} (h : v.seqItems = .ok l) : ∀ x ∈ l, x.rank ≤ v.rank := by
  intro x hx
  cases v <;> simp only [Val.seqItems, reduceCtorEq] at h
  case list m => cases h; have := rank_mem hx; simp only [Val.rank]; omega
  case tuple m => cases h; have := rank_mem hx; simp only [Val.rank]; omega
  case bytes b => cases h; obtain ⟨c, _, rfl⟩ := List.mem_map.1 hx; simp [Val.rank]
  case str s => cases h; obtain ⟨c, _, rfl⟩ := List.mem_map.1 hx; simp [Val.rank]
  case dict d =>
    cases d with
    | nil => cases h; cases hx
    | cons => cases h

theorem rank_iterItems {v : Val} {l : List Val} (h : v.iterItems = .ok l) : ∀ x ∈ l, x.rank ≤ v.rank := by
  intro x hx
  cases v <;> simp only [Val.iterItems, reduceCtorEq] at h
  case list m => cases h; have := rank_mem hx; simp only [Val.rank]; omega
  case tuple m => cases h; have := rank_mem hx; simp only [Val.rank]; omega
  case bytes b => cases h; obtain ⟨c, _, rfl⟩ := List.mem_map.1 hx; simp [Val.rank]
  case str s => cases h; obtain ⟨c, _, rfl⟩ := List.mem_map.1 hx; simp [Val.rank]
  case dict d =>
    cases h; obtain ⟨c, _, rfl⟩ := List.mem_map.1 hx
    have := rank_dict d
    simp only [Val.rank] at this ⊢
    omega

/-! ### updates do not increase the rank -/

def RankLe (f : Val → Except Err Val) : Prop := ∀ u y, f u = .ok y → y.rank ≤ u.rank

theorem rankLe_upd {f : Val → Except Err Val} (h : RankLe f) (ks : List PyStr) : RankLe (Val.upd f ks) := by
  induction ks with
  | nil => exact h
  | cons k t ih =>
    intro u y hy
    simp only [Val.upd] at hy
    cases hg : u.get k with
    | error e => rw [hg] at hy; cases hy
    | ok x =>
      rw [hg] at hy
      simp only at hy
      cases hu : Val.upd f t x with
      | error e => rw [hu] at hy; cases hy
      | ok x' => rw [hu] at hy; exact rank_set hg (ih _ _ hu) hy

theorem rankL_mapE {f : Val → Except Err Val} (h : RankLe f) {l l' : List Val} (hl : mapE f l = .ok l') :
    Val.rankL l' ≤ Val.rankL l := by
  induction l generalizing l' with
  | nil => cases hl; simp
  | cons a t ih =>
    simp only [mapE] at hl
    cases ha : f a with
    | error e => rw [ha] at hl; cases hl
    | ok b =>
      rw [ha] at hl
      simp only at hl
      cases ht : mapE f t with
      | error e => rw [ht] at hl; cases hl
      | ok t' =>
        rw [ht] at hl
        cases hl
        have := h _ _ ha
        have := ih ht
        simp only [Val.rankL]
        omega

theorem rankLe_forEach {f : Val → Except Err Val} (h : RankLe f) : RankLe (forEach f) := by
  intro u y hy
  unfold forEach at hy
  split at hy
  · rename_i l
    cases hm : mapE f l with
    | error e => rw [hm] at hy; cases hy
    | ok l' => rw [hm] at hy; cases hy; have := rankL_mapE h hm; simp only [Val.rank]; omega
  · rename_i l
    cases hm : mapE f l with
    | error e => rw [hm] at hy; cases hy
    | ok l' => rw [hm] at hy; cases hy; have := rankL_mapE h hm; simp only [Val.rank]; omega
  all_goals first | (cases hy; exact Nat.le_refl _) | cases hy

theorem rankLe_updAll {l : List (Val → Except Err Val)} (h : ∀ f ∈ l, RankLe f) : RankLe (updAll l) := by
  induction l with
  | nil => intro u y hy; cases hy; exact Nat.le_refl _
  | cons f t ih =>
    intro u y hy
    simp only [updAll] at hy
    cases hf : f u with
    | error e => rw [hf] at hy; cases hy
    | ok w =>
      rw [hf] at hy
      have h1 := h f (by simp) _ _ hf
      have h2 := ih (fun g hg => h g (by simp [hg])) _ _ hy
      omega

theorem rankLe_delThen {f : Val → Except Err Val} (h : RankLe f) : RankLe (delThen f) := by
  intro u y hy
  simp only [delThen] at hy
  cases hd : u.del (P "custom_type") with
  | error e => rw [hd] at hy; cases hy
  | ok w => rw [hd] at hy; have := h _ _ hy; have := rank_del hd; omega

theorem rank_ints (b : Bytes) : Val.rankL (b.map fun x => Val.int x.toNat) = 0 := by
  induction b with
  | nil => rfl
  | cons a t ih => simp only [List.map_cons, Val.rankL, ih, Val.rank]; rfl

theorem rank_valuesList (b : Bytes) : (dct [("values", intList b)]).rank = 2 := by
  simp only [dct, List.map_cons, List.map_nil, Val.rank, Val.rankD, intList, rank_ints]
  simp
theorem rank_valuesBytes (b : Bytes) : (dct [("values", .bytes b)]).rank = 2 := by
  simp only [dct, List.map_cons, List.map_nil, Val.rank, Val.rankD]
  simp

/-- The encoder only accepts values of rank at least two. -/
def Needs2 (w : Val → Except Err Bytes) : Prop := ∀ u b, w u = .ok b → 2 ≤ u.rank

theorem rankLe_valuesList {w : Val → Except Err Bytes} (h : Needs2 w) : RankLe (asValuesList w) := by
  intro u y hy
  simp only [asValuesList] at hy
  cases hw : w u with
  | error e => rw [hw] at hy; cases hy
  | ok b => rw [hw] at hy; cases hy; rw [rank_valuesList]; exact h _ _ hw

theorem rankLe_unlessBytes (w : Val → Except Err Bytes) : RankLe (unlessValues (asValuesBytes w)) := by
  intro u y hy
  simp only [unlessValues] at hy
  cases hc : u.contains (P "values") with
  | error e => rw [hc] at hy; cases hy
  | ok c =>
    rw [hc] at hy
    cases c with
    | true => cases hy; exact Nat.le_refl _
    | false =>
      simp only [asValuesBytes] at hy
      cases hw : w u with
      | error e => rw [hw] at hy; cases hy
      | ok b => rw [hw] at hy; cases hy; rw [rank_valuesBytes]; exact rank_of_contains hc

theorem rankLe_unlessList (w : Val → Except Err Bytes) : RankLe (unlessValues (asValuesList w)) := by
  intro u y hy
  simp only [unlessValues] at hy
  cases hc : u.contains (P "values") with
  | error e => rw [hc] at hy; cases hy
  | ok c =>
    rw [hc] at hy
    cases c with
    | true => cases hy; exact Nat.le_refl _
    | false =>
      simp only [asValuesList] at hy
      cases hw : w u with
      | error e => rw [hw] at hy; cases hy
      | ok b => rw [hw] at hy; cases hy; rw [rank_valuesList]; exact rank_of_contains hc

theorem needs2_at {u : Val} {k : String} {ks : List String} {w : Val → Except Err Bytes} {b : Bytes}
    (h : wAt u (k :: ks) w = .ok b) : 2 ≤ u.rank := by
  simp only [wAt, List.map_cons, Val.path] at h
  cases hg : u.get (P k) with
  | error e => rw [hg] at h; cases h
  | ok x => exact rank_of_get hg

theorem wcat_head {x : Except Err Bytes} {t : List (Except Err Bytes)} {b : Bytes} (h : wcat (x :: t) = .ok b) :
    ∃ c, x = .ok c := by
  cases x with
  | error e => cases h
  | ok c => exact ⟨c, rfl⟩

theorem wcat_tail {x : Except Err Bytes} {t : List (Except Err Bytes)} {b : Bytes} (h : wcat (x :: t) = .ok b) :
    ∃ c, wcat t = .ok c := by
  cases x with
  | error e => cases h
  | ok c =>
    simp only [wcat] at h
    cases ht : wcat t with
    | error e => rw [ht] at h; cases h
    | ok d => exact ⟨d, rfl⟩

theorem needs2_cat {u : Val} {k : String} {ks : List String} {w : Val → Except Err Bytes}
    {t : List (Except Err Bytes)} {b : Bytes} (h : wcat (wAt u (k :: ks) w :: t) = .ok b) : 2 ≤ u.rank :=
  let ⟨_, h⟩ := wcat_head h
  needs2_at h

theorem needs2_noneOr {w : Val → Except Err Bytes} (h : Needs2 w) : Needs2 (noneOr w) := by
  intro u b hb
  unfold noneOr at hb
  split at hb
  · simp [Val.rank]
  · exact h _ _ hb

theorem needs2_permission : Needs2 permissionEncode := fun _ _ h => needs2_cat h
theorem needs2_slots : Needs2 itemContainerSlotsEncode := by
  intro u b h
  obtain ⟨c, h⟩ := wcat_head h
  exact needs2_permission _ _ h

theorem needs2_work (wt : Val) : Needs2 (workEncode wt) := by
  intro u b h
  obtain ⟨c, h⟩ := wcat_tail h
  obtain ⟨d, h⟩ := wcat_head h
  exact needs2_at h

theorem rankLe_camp1 (mt : Val) : RankLe (unlessValues fun p => match campModuleEncode mt p with
      | .ok b => p.set (P "values") (.bytes b)
      | .error e => .error e) := by
  intro u y hy
  simp only [unlessValues] at hy
  cases hc : u.contains (P "values") with
  | error e => rw [hc] at hy; cases hy
  | ok c =>
    rw [hc] at hy
    cases c with
    | true => cases hy; exact Nat.le_refl _
    | false =>
      simp only at hy
      cases hw : campModuleEncode mt u with
      | error e => rw [hw] at hy; cases hy
      | ok b =>
        rw [hw] at hy
        simp only at hy
        cases u <;> simp only [Val.set, reduceCtorEq] at hy
        case dict d =>
          cases hy
          have := rank_dset d (P "values") (.bytes b)
          simp only [Val.rank] at this ⊢
          simp at this
          omega

theorem rankLe_moduleMap : RankLe moduleMapPre1 := by
  intro m y hy
  unfold moduleMapPre1 at hy
  refine rankLe_upd ?_ _ _ _ hy
  intro u y hy
  cases hk : m.get (P "key") with
  | error e =>
    rw [hk] at hy
    simp only [unlessValues] at hy
    cases hc : u.contains (P "values") with
    | error e => rw [hc] at hy; cases hy
    | ok c => rw [hc] at hy; cases c <;> cases hy; exact Nat.le_refl _
  | ok mt =>
    rw [hk] at hy
    exact rankLe_unlessBytes _ _ _ hy

theorem rankLe_pre (c : CodecId) (wp : Val → Except Err Bytes) : RankLe (c.pre wp) := by
  have ev : ∀ {w : Val → Except Err Bytes}, Needs2 w → RankLe (encodeValue w) := fun h =>
    rankLe_delThen (rankLe_upd (rankLe_valuesList h) _)
  cases c
  case group => exact rankLe_delThen (rankLe_upd (rankLe_forEach (rankLe_upd (rankLe_unlessList _) _)) _)
  case character => exact ev fun _ _ h => needs2_cat h
  case itemContainer => exact ev (needs2_noneOr needs2_permission)
  case itemContainerSlots => exact ev (needs2_noneOr needs2_slots)
  case characterContainer => exact ev (needs2_noneOr fun _ _ h => needs2_cat h)
  case dynamicItem => exact ev (needs2_noneOr fun _ _ h => needs2_cat h)
  case foliageModel => exact ev fun _ _ h => needs2_cat h
  case foliageModelInstance => exact ev fun _ _ h => needs2_cat h
  case baseCamp => exact ev fun _ _ h => needs2_cat h
  case workerDirector => exact ev fun _ _ h => needs2_cat h
  case workCollection => exact ev fun _ _ h => needs2_cat h
  case baseCampModule =>
    refine rankLe_delThen (rankLe_upd (rankLe_forEach ?_) _)
    intro u y hy
    simp only [campModulePre1] at hy
    cases hk : u.get (P "key") with
    | error e => rw [hk] at hy; cases hy
    | ok mt => rw [hk] at hy; exact rankLe_upd (rankLe_camp1 mt) _ _ _ hy
  case work =>
    refine rankLe_delThen (rankLe_upd (rankLe_forEach ?_) _)
    intro u y hy
    simp only [workPre1] at hy
    cases hk : u.path (ks ["WorkableType", "value", "value"]) with
    | error e => rw [hk] at hy; cases hy
    | ok wt =>
      rw [hk] at hy
      simp only at hy
      cases hu : u.upd (asValuesList (workEncode wt)) (ks ["RawData", "value"]) with
      | error e => rw [hu] at hy; cases hy
      | ok u' =>
        rw [hu] at hy
        have h1 := rankLe_upd (rankLe_valuesList (needs2_work wt)) _ _ _ hu
        have h2 := rankLe_upd (rankLe_forEach (rankLe_upd (rankLe_valuesList
          (w := workAssignBytesEncode) fun _ _ h => needs2_cat h) _)) _ _ _ hy
        omega
  case mapObject =>
    refine rankLe_delThen (rankLe_upd (rankLe_forEach (rankLe_updAll ?_)) _)
    simp only [List.forall_mem_cons]
    refine ⟨rankLe_upd (rankLe_unlessBytes _) _, rankLe_upd (rankLe_unlessBytes _) _,
      rankLe_upd (rankLe_unlessBytes _) _, rankLe_upd (rankLe_unlessBytes _) _,
      rankLe_upd (rankLe_forEach rankLe_moduleMap) _, ?_⟩
    intro f hf; cases hf
  case debug => exact fun u y hy => rank_del hy
  case connector => exact ev (needs2_noneOr fun _ _ h => needs2_cat h)
  case buildProcess => exact ev fun _ _ h => needs2_cat h
  case mapModel => exact ev fun _ _ h => needs2_cat h

/-! ### the encoders look at parts of the value only -/

theorem wAt_congr {u : Val} {ks : List String} {w w' : Val → Except Err Bytes}
    (h : ∀ x, x.rank ≤ u.rank → w x = w' x) : wAt u ks w = wAt u ks w' := by
  unfold wAt
  cases hp : u.path (ks.map P) with
  | error e => rfl
  | ok x => exact h x (rank_path hp)

theorem upd_congr {f g : Val → Except Err Val} (ks : List PyStr) {v : Val} (h : ∀ u, u.rank ≤ v.rank → f u = g u) :
    Val.upd f ks v = Val.upd g ks v := by
  induction ks generalizing v with
  | nil => exact h v (Nat.le_refl _)
  | cons k t ih =>
    simp only [Val.upd]
    cases hg : v.get k with
    | error e => rfl
    | ok x =>
      simp only
      rw [ih fun u hu => h u (Nat.le_trans hu (rank_get hg))]

theorem upd_congr_lt {f g : Val → Except Err Val} {k : PyStr} (hk : k ≠ P "values") (ks : List PyStr) {v : Val}
    (h : ∀ u, u.rank < v.rank → f u = g u) : Val.upd f (k :: ks) v = Val.upd g (k :: ks) v := by
  simp only [Val.upd]
  cases hg : v.get k with
  | error e => rfl
  | ok x =>
    simp only
    rw [upd_congr ks fun u hu => h u (Nat.lt_of_le_of_lt hu (rank_get_lt hk hg))]

theorem forEach_congr {f g : Val → Except Err Val} {v : Val} (h : ∀ u, u.rank ≤ v.rank → f u = g u) :
    forEach f v = forEach g v := by
  have hm : ∀ l : List Val, Val.rankL l ≤ v.rank → mapE f l = mapE g l := by
    intro l
    induction l with
    | nil => intro _; rfl
    | cons a t ih =>
      intro hl
      simp only [Val.rankL] at hl
      simp only [mapE, h a (by omega), ih (by omega)]
  unfold forEach
  split
  · rw [hm _ (by simp only [Val.rank]; omega)]
  · rw [hm _ (by simp only [Val.rank]; omega)]
  all_goals rfl

theorem delThen_congr {f g : Val → Except Err Val} {v : Val} (h : ∀ u, u.rank ≤ v.rank → f u = g u) :
    delThen f v = delThen g v := by
  unfold delThen
  cases hd : v.del (P "custom_type") with
  | error e => rfl
  | ok w => exact h w (rank_del hd)

theorem character_congr {wp wp' : Val → Except Err Bytes} {v : Val} (h : ∀ u, u.rank ≤ v.rank → wp u = wp' u) :
    characterEncode wp v = characterEncode wp' v := by
  simp only [characterEncode, wAt_congr h]

theorem dynamicItem_congr {wp wp' : Val → Except Err Bytes} {v : Val} (h : ∀ u, u.rank ≤ v.rank → wp u = wp' u) :
    dynamicItemEncode wp v = dynamicItemEncode wp' v := by
  simp only [dynamicItemEncode, wAt_congr (ks := ["object"]) h]

theorem concrete_congr {wp wp' : Val → Except Err Bytes} {v : Val} (h : ∀ u, u.rank ≤ v.rank → wp u = wp' u) :
    concreteEncode wp v = concreteEncode wp' v := by
  simp only [concreteEncode, concreteBodyEncode, wAt_congr (ks := ["hatched_character_save_parameter"]) h]

theorem encodeValue_congr {w w' : Val → Except Err Bytes} {v : Val} (h : ∀ u, u.rank < v.rank → w u = w' u) :
    encodeValue w v = encodeValue w' v := by
  apply delThen_congr
  intro u hu
  apply upd_congr_lt (by decide +kernel)
  intro x hx
  simp only [asValuesList, h x (by omega)]

theorem noneOr_congr {w w' : Val → Except Err Bytes} {v : Val} (h : w v = w' v) : noneOr w v = noneOr w' v := by
  unfold noneOr
  split
  · rfl
  · exact h

/-- A custom encoder calls the property writer on parts of the property only. -/
theorem pre_congr (c : CodecId) {wp wp' : Val → Except Err Bytes} {v : Val}
    (h : ∀ u, u.rank < v.rank → wp u = wp' u) : c.pre wp v = c.pre wp' v := by
  cases c <;> try rfl
  case character => exact encodeValue_congr fun u hu => character_congr fun x hx => h x (by omega)
  case dynamicItem =>
    exact encodeValue_congr fun u hu => noneOr_congr (dynamicItem_congr fun x hx => h x (by omega))
  case mapObject =>
    apply delThen_congr
    intro w hw
    apply upd_congr_lt (by decide +kernel)
    intro l hl
    apply forEach_congr
    intro u hu
    have hc : ∀ x, x.rank ≤ u.rank →
        Val.upd (unlessValues (asValuesBytes (noneOr (concreteEncode wp))))
          (ks ["ConcreteModel", "value", "RawData", "value"]) x =
        Val.upd (unlessValues (asValuesBytes (noneOr (concreteEncode wp'))))
          (ks ["ConcreteModel", "value", "RawData", "value"]) x := by
      intro x hx
      apply upd_congr
      intro y hy
      have : noneOr (concreteEncode wp) y = noneOr (concreteEncode wp') y :=
        noneOr_congr (concrete_congr fun z hz => h z (by omega))
      simp only [unlessValues, asValuesBytes, this]
    have step : ∀ (f : Val → Except Err Val) (t t' : List (Val → Except Err Val)) (x : Val), RankLe f →
        x.rank ≤ u.rank → (∀ y, y.rank ≤ u.rank → updAll t y = updAll t' y) →
        updAll (f :: t) x = updAll (f :: t') x := by
      intro f t t' x hf hx ht
      simp only [updAll]
      cases hfx : f x with
      | error e => rfl
      | ok y => exact ht y (Nat.le_trans (hf _ _ hfx) hx)
    unfold mapObjectPre1
    refine step _ _ _ _ (rankLe_upd (rankLe_unlessBytes _) _) (Nat.le_refl _) fun x hx => ?_
    refine step _ _ _ _ (rankLe_upd (rankLe_unlessBytes _) _) hx fun x hx => ?_
    refine step _ _ _ _ (rankLe_upd (rankLe_unlessBytes _) _) hx fun x hx => ?_
    simp only [updAll, hc x hx]

/-! ### the property writer -/

theorem structValue_congr {r r' : Val → W} {st v : Val} (h : r v = r' v) :
    wStructValue r st v = wStructValue r' st v := by
  simp only [wStructValue, h]

theorem propValue_congr {r r' : Val → W} {ty st v : Val} (h : r v = r' v) :
    wPropValue r ty st v = wPropValue r' ty st v := by
  simp only [wPropValue, structValue_congr h]

theorem on_congr {v : Val} {k : String} {f g : Val → W} (h : ∀ x, v.get (P k) = .ok x → f x = g x) :
    wOn v k f = wOn v k g := by
  unfold wOn
  cases hg : v.get (P k) with
  | error e => rfl
  | ok x => simp only [h x hg]

theorem mapL_congr {f g : Val → W} {l : List Val} (h : ∀ x ∈ l, f x = g x) : wMapL f l = wMapL g l := by
  induction l with
  | nil => rfl
  | cons a t ih => simp only [wMapL, h a (by simp), ih fun x hx => h x (by simp [hx])]

theorem seq_congr {f g : Val → W} {v : Val} (h : ∀ x, x.rank ≤ v.rank → f x = g x) : wSeq f v = wSeq g v := by
  unfold wSeq
  split
  · rw [mapL_congr fun x hx => h x (rank_seqItems rfl x hx)]
  · rw [mapL_congr fun x hx => h x (rank_seqItems rfl x hx)]
  · cases hs : v.seqItems with
    | error e => rfl
    | ok l => simp only; rw [mapL_congr fun x hx => h x (rank_seqItems hs x hx)]

theorem iter_congr {f g : Val → W} {v : Val} (h : ∀ x, x.rank ≤ v.rank → f x = g x) : wIter f v = wIter g v := by
  unfold wIter
  split
  · rw [mapL_congr fun x hx => h x (rank_iterItems rfl x hx)]
  · rw [mapL_congr fun x hx => h x (rank_iterItems rfl x hx)]
  · cases hs : v.iterItems with
    | error e => rfl
    | ok l => simp only; rw [mapL_congr fun x hx => h x (rank_iterItems hs x hx)]

theorem arrayProperty_congr {r r' : Val → W} {at_ v : Val} (h : ∀ x, x.rank ≤ v.rank → r x = r' x) :
    wArrayProperty r at_ v = wArrayProperty r' at_ v := by
  have : wOn v "values" (wSeq (wStructElem r v)) = wOn v "values" (wSeq (wStructElem r' v)) := by
    apply on_congr
    intro x hx
    apply seq_congr
    intro y hy
    unfold wStructElem
    cases v.get (P "type_name") with
    | error e => rfl
    | ok tn => exact structValue_congr (h y (Nat.le_trans hy (rank_get hx)))
  simp only [wArrayProperty, this]

theorem mapEntry_congr {r r' : Val → W} {prop entry : Val} (h : ∀ x, x.rank ≤ entry.rank → r x = r' x) :
    wMapEntry r prop entry = wMapEntry r' prop entry := by
  unfold wMapEntry
  cases prop.get (P "key_type") with
  | error e => rfl
  | ok kt =>
    cases prop.get (P "key_struct_type") with
    | error e => rfl
    | ok kst =>
      have h1 : wOn entry "key" (wPropValue r kt kst) = wOn entry "key" (wPropValue r' kt kst) :=
        on_congr fun x hx => propValue_congr (h x (rank_get hx))
      simp only [h1]
      cases hk : wOn entry "key" (wPropValue r' kt kst) with
      | error e => rfl
      | ok q =>
        obtain ⟨kb, entry'⟩ := q
        simp only
        cases prop.get (P "value_type") with
        | error e => rfl
        | ok vt =>
          cases prop.get (P "value_struct_type") with
          | error e => rfl
          | ok vst =>
            simp only
            congr 1
            apply on_congr
            intro x hx
            apply propValue_congr
            apply h
            rw [wOn_get hk (by decide +kernel)] at hx
            exact rank_get hx

theorem mapBody_congr {r r' : Val → W} {prop : Val} (h : ∀ x, x.rank < prop.rank → r x = r' x) :
    wMapBody r prop = wMapBody r' prop := by
  unfold wMapBody
  congr 1
  apply on_congr
  intro x hx
  have := rank_get_lt (by decide +kernel) hx
  apply iter_congr
  intro y hy
  exact mapEntry_congr fun z hz => h z (by omega)

theorem plainInner_congr {r r' : Val → W} {ty prop : Val} (h : ∀ x, x.rank < prop.rank → r x = r' x) :
    wPlainInner r ty prop = wPlainInner r' ty prop := by
  have h1 : ∀ st, wOn prop "value" (wStructValue r st) = wOn prop "value" (wStructValue r' st) := fun st =>
    on_congr fun x hx => structValue_congr (h x (rank_get_lt (by decide +kernel) hx))
  have h2 : ∀ a, wOn prop "value" (wArrayProperty r a) = wOn prop "value" (wArrayProperty r' a) := fun a =>
    on_congr fun x hx => arrayProperty_congr fun y hy => h y (Nat.lt_of_le_of_lt hy (rank_get_lt (by decide +kernel) hx))
  simp only [wPlainInner, h1, h2, mapBody_congr h]

theorem property_congr {cfg : Cfg} {r r' : Val → W} {wp wp' : Val → Except Err Bytes} {prop : Val}
    (h : ∀ x, x.rank < prop.rank → r x = r' x) (hw : ∀ x, x.rank < prop.rank → wp x = wp' x) :
    wProperty cfg r wp prop = wProperty cfg r' wp' prop := by
  have hi : ∀ ty, wInner cfg r wp ty prop = wInner cfg r' wp' ty prop := by
    intro ty
    have hp : ∀ c : CodecId, (match c.pre wp prop with
          | .error e => (.error e : WP)
          | .ok prop' => wPlainInner r ty prop') = (match c.pre wp' prop with
          | .error e => .error e
          | .ok prop' => wPlainInner r' ty prop') := by
      intro c
      rw [pre_congr c hw]
      cases hc : c.pre wp' prop with
      | error e => rfl
      | ok p' => exact plainInner_congr fun x hx => h x (Nat.lt_of_lt_of_le hx (rankLe_pre c wp' _ _ hc))
    simp only [wInner, plainInner_congr h]
    split
    · rfl
    · rfl
    · split
      · rfl
      · split
        · rfl
        · split
          · exact hp _
          · rfl
      all_goals rfl
  simp only [wProperty, hi]

theorem body_congr {f g : Val → W} {v : Val} (h : ∀ x, x.rank ≤ v.rank → f x = g x) :
    wPropsBody f v = wPropsBody g v := by
  cases v <;> try rfl
  case dict d =>
    have : ∀ d : Dict, (∀ kv ∈ d, f kv.2 = g kv.2) → wEntries f d = wEntries g d := by
      intro d
      induction d with
      | nil => intro _; rfl
      | cons a t ih =>
        intro ht
        obtain ⟨k, v⟩ := a
        have h1 := ht (k, v) (by simp)
        simp only at h1
        simp only [wEntries, h1, ih fun kv hk => ht kv (by simp [hk])]
    have hr : ∀ d : Dict, ∀ kv ∈ d, kv.2.rank ≤ Val.rankD d := by
      intro d
      induction d with
      | nil => intro kv hk; cases hk
      | cons a t ih =>
        intro kv hk
        obtain ⟨k, v⟩ := a
        simp only [Val.rankD]
        rcases List.mem_cons.1 hk with rfl | hk
        · simp only; omega
        · have := ih kv hk; omega
    simp only [wPropsBody]
    rw [this d fun kv hk => h _ (by have := hr d kv hk; simp only [Val.rank]; omega)]

/-- Every budget above the rank of the value gives the same result. -/
theorem wProps_stable : ∀ (n : Nat) (cfg : Cfg) (v : Val), v.rank < n → wProps (n + 1) cfg v = wProps n cfg v
  | 0, _, _, h => absurd h (by omega)
  | n + 1, cfg, v, h => by
    rw [wProps_succ, wProps_succ]
    apply body_congr
    intro x hx
    apply property_congr
    · intro u hu
      exact wProps_stable n cfg u (by omega)
    · intro u hu
      simp only [bytesOf]
      rw [wProps_stable n Cfg.empty u (by omega)]

theorem wProps_enough {n n' : Nat} {cfg : Cfg} {v : Val} (h : v.rank < n) (h' : n ≤ n') :
    wProps n' cfg v = wProps n cfg v := by
  induction h' with
  | refl => rfl
  | step hm ih => rw [wProps_stable _ cfg v (Nat.lt_of_lt_of_le h hm), ih]

end Pal
