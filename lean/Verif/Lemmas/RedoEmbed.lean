import Verif.Lemmas.RedoBlobs
/-
Which blobs can be decoded again: blobs with an embedded property list.
-/

set_option linter.unusedSimpArgs false

namespace Pal
open Spec

/-- The list of properties cannot be written, whatever the budget. -/
def Unw (o : Val) : Prop := ∀ n, ∃ e, bytesOf n o = .error e

open Classical in
/-- The bytes of a list of properties that can be written with a budget of its own size. -/
noncomputable def wpS (o : Val) : Except Err Bytes :=
  if h : ∃ b : Bytes, ∀ n, b.length < n → bytesOf n o = .ok b then .ok h.choose else .error .type

theorem wpS_ok {o : Val} {b : Bytes} (h : wpS o = .ok b) : ∀ n, b.length < n → bytesOf n o = .ok b := by
  unfold wpS at h
  split at h
  · rename_i hx
    cases h
    exact hx.choose_spec
  · cases h

theorem wpS_of {o : Val} {b : Bytes} (h : ∀ n, b.length < n → bytesOf n o = .ok b) : wpS o = .ok b := by
  have hx : ∃ b : Bytes, ∀ n, b.length < n → bytesOf n o = .ok b := ⟨b, h⟩
  unfold wpS
  rw [dif_pos hx]
  have h1 := h (b.length + hx.choose.length + 1) (by omega)
  have h2 := hx.choose_spec (b.length + hx.choose.length + 1) (by omega)
  rw [h1] at h2
  exact h2.symm

/-! ### a larger budget -/

theorem leW_propertyE {bs : Bool} {r r' : Val → W} (hr : MonoW bs r r') (wp wp' : Val → Except Err Bytes) :
    MonoW bs (wProperty Cfg.empty r wp) (wProperty Cfg.empty r' wp') := by
  intro a b h c hcw
  obtain ⟨ty, tb, n, buf, sb, h1, h2, h3, h4, rfl⟩ := wrote_property.1 hcw
  obtain ⟨ty', e1, s1⟩ := sim_get h h1
  refine wrote_property.2 ⟨ty', tb, n, buf, sb, e1, mono_fstring bs _ _ s1 _ h2, ?_, h4, rfl⟩
  obtain ⟨d, rfl⟩ := get_dict_of_ok h1
  cases h with
  | @dict _ d' hd =>
    have hcon : ∀ q, (Val.dict d).contains (P "custom_type") = .ok q →
        (Val.dict d').contains (P "custom_type") = .ok q := by
      intro q hq
      rw [contains_dict] at hq ⊢
      rcases simD_get hd (P "custom_type") with ⟨h1, h2⟩ | ⟨x', y, h1, h2, h3, h4⟩
      · rw [h1] at hq; rw [h2]; exact hq
      · rw [h1] at hq; rw [h2]; exact hq
    rw [wroteP_inner] at h3 ⊢
    rcases h3 with ⟨h5, h6⟩ | ⟨h5, p, c, prop', h6, h7, h8, h9, h10⟩
    · exact .inl ⟨hcon _ h5, leP_plainInner hr s1 (.dict hd) n buf h6⟩
    · cases h7

theorem mono_succ : ∀ n, MonoW false (wProps n Cfg.empty) (wProps (n + 1) Cfg.empty)
  | 0 => fun _ _ _ _ h => (wrote_error.1 h).elim
  | n + 1 => by
    intro a b h
    rw [wProps_succ, wProps_succ]
    exact leW_body (leW_propertyE (mono_succ n) _ _) a b h

theorem bytes_more {n n' : Nat} {o : Val} {b : Bytes} (h : bytesOf n o = .ok b) (hn : n ≤ n') : bytesOf n' o = .ok b := by
  induction hn with
  | refl => exact h
  | step _ ih =>
    rw [bytesOf_ok] at ih ⊢
    exact mono_succ _ _ _ (sim_refl _ _) _ ih

/-! ### encoders that write an object -/

/-- The encoder does not depend on the writer of objects, or uses it for the object `k`. -/
def Uses (k : String) (W : (Val → Except Err Bytes) → Val → Except Err Bytes) (v : Val) : Prop := ∀ wp c, W wp v = .ok c →
  (∀ wp', W wp' v = .ok c) ∨ ∃ o bo, v.get (P k) = .ok o ∧ wp o = .ok bo ∧ bo.length ≤ c.length ∧
    ∀ wp', wp' o = .ok bo → W wp' v = .ok c

theorem uses_wpS {k : String} {W : (Val → Except Err Bytes) → Val → Except Err Bytes} {v : Val} (h : Uses k W v) {b0 c : Bytes}
    {n : Nat} (h0 : W wpS v = .ok b0) (hc : W (bytesOf n) v = .ok c) :
    c = b0 ∧ ∀ n', b0.length < n' → W (bytesOf n') v = .ok b0 := by
  have hbig : ∀ n', b0.length < n' → W (bytesOf n') v = .ok b0 := by
    intro n' hn
    rcases h _ _ h0 with h1 | ⟨o, bo, -, h2, h3, h4⟩
    · exact h1 _
    · exact h4 _ (wpS_ok h2 n' (by omega))
  refine ⟨?_, hbig⟩
  have e1 : W (bytesOf (n + b0.length + 1)) v = .ok c := by
    rcases h _ _ hc with h1 | ⟨o, bo, -, h2, -, h4⟩
    · exact h1 _
    · exact h4 _ (bytes_more h2 (by omega))
  rw [hbig _ (by omega)] at e1
  exact (Except.ok.inj e1).symm

theorem uses_character (v : Val) : Uses "object" characterEncode v := by
  intro wp c h
  right
  unfold characterEncode at h
  cases ho : v.get (P "object") with
  | error e => simp only [wcat, wAt, List.map_cons, List.map_nil, Val.path, ho] at h; cases h
  | ok o =>
    have hat : ∀ wp : Val → Except Err Bytes, wAt v ["object"] wp = wp o := fun wp => by
      simp only [wAt, List.map_cons, List.map_nil, Val.path, ho]
    rw [hat] at h
    cases hb : wp o with
    | error e => simp only [wcat, hb] at h; cases h
    | ok bo =>
      rw [hb] at h
      refine ⟨o, bo, rfl, hb, ?_, fun wp' hw => ?_⟩
      · rw [wcat_ok_cons] at h
        cases hr : wcat [wAt v ["unknown_bytes"] wBytesOf, wAt v ["group_id"] wGuid] with
        | error e => rw [hr] at h; cases h
        | ok r => rw [hr] at h; cases h; simp
      · unfold characterEncode
        rw [hat, hw, h]

/-! ### characters -/

theorem leaf_character {rec : R Val} (hr : RecOk True rec wpS Unw) :
    LeafOk (fun t => runBlob t (characterDecode rec)) fun n => asValuesList (characterEncode (bytesOf n)) := by
  refine leaf_list (w := fun n => characterEncode (bytesOf n)) (guard_run fun _ => characterDecode rec) (fun b y n c hb hy hc => ?_)
    fun y hy => .inl hy
  obtain ⟨s', hs⟩ := runBlob_T_inv hy
  rcases chain_character hr b y s' hb hs with ⟨o, h1, h2⟩ | ⟨b0, h1, h2, h3⟩
  · rcases uses_character y _ _ hc with h3 | ⟨o', bo, h3, h4, -⟩
    · have := h3 fun _ => .error .type
      unfold characterEncode at this
      simp only [wcat, wAt, List.map_cons, List.map_nil, Val.path, h1] at this
      cases this
    · rw [h1] at h3
      cases h3
      obtain ⟨e, he⟩ := h2 n
      rw [h4] at he
      cases he
  · rw [List.nil_append] at h1
    obtain ⟨rfl, h4⟩ := uses_wpS (uses_character y) h1 hc
    exact ⟨by omega, runBlob_T (back_end (h3 trivial)), h4⟩

/-! ### concrete models -/

theorem uses_concrete (v : Val) : Uses "hatched_character_save_parameter" concreteEncode v := by
  intro wp c h
  unfold concreteEncode at h ⊢
  cases ht : v.get (P "concrete_model_type") with
  | error e => simp only [wAt, List.map_cons, List.map_nil, Val.path, ht] at h; cases h
  | ok t =>
    have hat : ∀ f : Val → Except Err Bytes, wAt v ["concrete_model_type"] f = f t := fun f => by
      simp only [wAt, List.map_cons, List.map_nil, Val.path, ht]
    simp only [hat] at h ⊢
    by_cases hh : t.isS "PalMapObjectHatchingEggModel"
    · have et : t = .str (P "PalMapObjectHatchingEggModel") := by
        cases t <;> simp only [Val.isS, Bool.false_eq_true, decide_eq_true_eq] at hh
        rw [hh]
      have eb : ∀ wp, concreteBodyEncode wp t v = wcat [wAt v ["hatched_character_save_parameter"] wp, wAt v ["unknown_bytes"] wU32,
          wAt v ["hatched_character_guid"] wGuid] := by
        intro wp
        subst et
        have hno : (Val.str (P "PalMapObjectHatchingEggModel")).isAny concreteNoOp = false := by decide +kernel
        simp only [concreteBodyEncode, hno, isS_P, String.reduceEq, decide_false, decide_true, Bool.false_eq_true, ↓reduceIte]
      simp only [eb] at h ⊢
      right
      cases ho : v.get (P "hatched_character_save_parameter") with
      | error e =>
        have e1 : wAt v ["hatched_character_save_parameter"] wp = .error e := by
          simp only [wAt, List.map_cons, List.map_nil, Val.path, ho]
        rw [e1] at h
        generalize wAt v ["instance_id"] wGuid = a at h
        generalize wAt v ["model_instance_id"] wGuid = b at h
        cases a <;> cases b <;> cases h
      | ok o =>
        have hat : ∀ wp : Val → Except Err Bytes, wAt v ["hatched_character_save_parameter"] wp = wp o := fun wp => by
          simp only [wAt, List.map_cons, List.map_nil, Val.path, ho]
        simp only [hat] at h ⊢
        generalize wAt v ["instance_id"] wGuid = a at h
        generalize wAt v ["model_instance_id"] wGuid = b at h
        generalize wAt v ["unknown_bytes"] wU32 = d at h
        generalize wAt v ["hatched_character_guid"] wGuid = g at h
        cases hb : wp o with
        | error e => rw [hb] at h; cases a <;> cases b <;> cases h
        | ok bo =>
          refine ⟨o, bo, rfl, hb, ?_, fun wp' hw => by rw [hw, ← hb]; exact h⟩
          rw [hb] at h
          cases a <;> cases b <;> cases d <;> cases g <;> cases h
          simp only [List.length_append]
          omega
    · left
      intro wp'
      rw [← h]
      have hh' : t.isS "PalMapObjectHatchingEggModel" = false := by simpa using hh
      simp only [concreteBodyEncode, hh', Bool.false_eq_true, ↓reduceIte]

/-- No key "values". -/
def NoKey (d : Dict) : Prop := ∀ k ∈ d.map Prod.fst, k ≠ P "values"

theorem noKey_nil : NoKey [] := by simp [NoKey]
theorem noKey_cons {k : String} {x : Val} {d : Dict} (hk : k ≠ "values") (h : NoKey d) : NoKey ((P k, x) :: d) := by
  intro q hq
  simp only [List.map_cons, List.mem_cons] at hq
  rcases hq with rfl | hq
  · rw [Ne, P_inj]; exact hk
  · exact h q hq
theorem noKey_append {d e : Dict} (h : NoKey d) (h' : NoKey e) : NoKey (d ++ e) := by
  intro q hq
  rw [List.map_append, List.mem_append] at hq
  rcases hq with hq | hq
  · exact h q hq
  · exact h' q hq

theorem noKey_nv {d : Dict} (h : NoKey d) : NoValues (.dict d) := by
  unfold NoValues
  rw [contains_dict]
  have : dget? d (P "values") = none := by
    induction d with
    | nil => rfl
    | cons a t ih =>
      obtain ⟨k, x⟩ := a
      simp only [dget?]
      rw [if_neg (h k (by simp))]
      exact ih fun q hq => h q (by simp only [List.map_cons, List.mem_cons]; exact .inr hq)
  rw [this]
  rfl

macro "nk_tac" : tactic => `(tactic| (
  ret_tac <;> (repeat (first | exact noKey_nil | assumption | refine noKey_cons (by decide) ?_ | refine noKey_append ?_ ?_))))

theorem ret_pickup : Ret pickupBase NoKey := by unfold pickupBase; nk_tac
theorem ret_farmState (an : Bool) : Ret (cmFarmState an) NoKey := by unfold cmFarmState; nk_tac
theorem ret_one {k : String} (hk : k ≠ "values") (x : R Val) : Ret (one k x) NoKey := by
  unfold one
  exact ret_bind fun _ => ret_pure (noKey_cons hk noKey_nil)

theorem ret_concreteBody {an : Bool} {rec : R Val} {c : String} {body : R Dict} (hb : concreteBody an rec c = some body) :
    Ret body NoKey := by
  by_cases hn : c ∈ concreteNoOp
  · rw [concreteBody, if_pos hn] at hb
    cases hb
    exact ret_pureR noKey_nil
  rw [concreteBody, if_neg hn] at hb
  by_cases h : c = "PalMapObjectDeathDroppedCharacterModel"
  · rw [if_pos h] at hb; cases hb
    unfold cmDropped; nk_tac
  rw [if_neg h] at hb; clear h
  by_cases h : c = "PalMapObjectConvertItemModel"
  · rw [if_pos h] at hb; cases hb
    unfold cmConvert; nk_tac
  rw [if_neg h] at hb; clear h
  by_cases h : c = "PalMapObjectPickupItemOnLevelModel"
  · rw [if_pos h] at hb; cases hb
    exact ret_pickup
  rw [if_neg h] at hb; clear h
  by_cases h : c = "PalMapObjectDropItemModel"
  · rw [if_pos h] at hb; cases hb
    unfold cmDropItem; refine ret_bind' ret_pickup fun _ _ => ?_; nk_tac
  rw [if_neg h] at hb; clear h
  by_cases h : c = "PalMapObjectItemDropOnDamagModel"
  · rw [if_pos h] at hb; cases hb
    exact ret_one (by decide) _
  rw [if_neg h] at hb; clear h
  by_cases h : c = "PalMapObjectDeathPenaltyStorageModel"
  · rw [if_pos h] at hb; cases hb
    exact ret_one (by decide) _
  rw [if_neg h] at hb; clear h
  by_cases h : c = "PalMapObjectDefenseBulletLauncherModel"
  · rw [if_pos h] at hb; cases hb
    unfold cmBullet; nk_tac
  rw [if_neg h] at hb; clear h
  by_cases h : c = "PalMapObjectGenerateEnergyModel"
  · rw [if_pos h] at hb; cases hb
    exact ret_one (by decide) _
  rw [if_neg h] at hb; clear h
  by_cases h : c = "PalMapObjectFarmBlockV2Model"
  · rw [if_pos h] at hb; cases hb
    unfold cmFarm; refine ret_bind fun _ => ret_bind fun _ => ret_bind fun _ => ret_bind fun _ => ret_bind' (ret_farmState an) fun _ _ => ?_; nk_tac
  rw [if_neg h] at hb; clear h
  by_cases h : c = "PalMapObjectFastTravelPointModel"
  · rw [if_pos h] at hb; cases hb
    exact ret_one (by decide) _
  rw [if_neg h] at hb; clear h
  by_cases h : c = "PalMapObjectShippingItemModel"
  · rw [if_pos h] at hb; cases hb
    exact ret_one (by decide) _
  rw [if_neg h] at hb; clear h
  by_cases h : c = "PalMapObjectProductItemModel"
  · rw [if_pos h] at hb; cases hb
    unfold cmProduct; nk_tac
  rw [if_neg h] at hb; clear h
  by_cases h : c = "PalMapObjectRecoverOtomoModel"
  · rw [if_pos h] at hb; cases hb
    exact ret_one (by decide) _
  rw [if_neg h] at hb; clear h
  by_cases h : c = "PalMapObjectHatchingEggModel"
  · rw [if_pos h] at hb; cases hb
    unfold cmHatch; nk_tac
  rw [if_neg h] at hb; clear h
  by_cases h : c = "PalMapObjectTreasureBoxModel"
  · rw [if_pos h] at hb; cases hb
    exact ret_one (by decide) _
  rw [if_neg h] at hb; clear h
  by_cases h : c = "PalMapObjectBreedFarmModel"
  · rw [if_pos h] at hb; cases hb
    exact ret_one (by decide) _
  rw [if_neg h] at hb; clear h
  by_cases h : c = "PalMapObjectSignboardModel"
  · rw [if_pos h] at hb; cases hb
    exact ret_one (by decide) _
  rw [if_neg h] at hb; clear h
  by_cases h : c = "PalMapObjectTorchModel"
  · rw [if_pos h] at hb; cases hb
    exact ret_one (by decide) _
  rw [if_neg h] at hb; clear h
  by_cases h : c = "PalMapObjectPalEggModel"
  · rw [if_pos h] at hb; cases hb
    exact ret_one (by decide) _
  rw [if_neg h] at hb; clear h
  by_cases h : c = "PalMapObjectBaseCampPoint"
  · rw [if_pos h] at hb; cases hb
    exact ret_one (by decide) _
  rw [if_neg h] at hb; clear h
  cases hb

theorem ret_concrete (an : Bool) (rec : R Val) (oid raw : Val) :
    Ret (concreteDecode an rec oid raw) fun v => NoValues v ∨ v = dct [("values", raw)] := by
  unfold concreteDecode
  cases oid with
  | str o =>
    simp only
    cases hc : concreteClass? o with
    | none => exact ret_pure (.inr rfl)
    | some c =>
      simp only
      cases hb : concreteBody an rec c with
      | none => exact ret_bind fun _ => ret_bind fun _ => ret_pure (.inr rfl)
      | some body =>
        refine ret_bind fun _ => ret_bind fun _ => ret_bind' (ret_concreteBody hb) fun d hd => ret_bind fun _ => ret_pure (.inl (noKey_nv ?_))
        refine noKey_append ?_ hd
        exact noKey_cons (by decide) (noKey_cons (by decide) (noKey_cons (by decide) noKey_nil))
  | _ => exact ret_fail

theorem guid_inv {s s' : Bytes} {v : Val} (h : rGuid s = .ok (v, s')) : v = .uuid (s.take 16) := by
  obtain ⟨b, s1, h1, h2⟩ := r_bind_inv h
  obtain ⟨rfl, -⟩ := r_pure_inv h2
  cases h1
  rfl

theorem concrete_id {an : Bool} {rec : R Val} {oid raw : Val} {v : Val} {s s' : Bytes}
    (h : concreteDecode an rec oid raw s = .ok (v, s')) (hv : NoValues v) : v.get (P "instance_id") = .ok (.uuid (s.take 16)) := by
  have hno : ¬ NoValues (dct [("values", raw)]) := by
    rw [NoValues, dct_eq, contains_vdict_cons, if_pos rfl]; simp
  unfold concreteDecode at h
  cases oid with
  | str o =>
    simp only at h
    cases hc : concreteClass? o with
    | none =>
      rw [hc] at h
      rw [(r_pure_inv h).1] at hv
      exact absurd hv hno
    | some c =>
      rw [hc] at h
      simp only at h
      cases hb : concreteBody an rec c with
      | none =>
        rw [hb] at h
        obtain ⟨_, s1, -, h⟩ := r_bind_inv h
        obtain ⟨_, s2, -, h⟩ := r_bind_inv h
        rw [(r_pure_inv h).1] at hv
        exact absurd hv hno
      | some body =>
        rw [hb] at h
        obtain ⟨i, s1, h1, h⟩ := r_bind_inv h
        obtain ⟨_, s2, -, h⟩ := r_bind_inv h
        obtain ⟨_, s3, -, h⟩ := r_bind_inv h
        obtain ⟨_, s4, -, h⟩ := r_bind_inv h
        rw [(r_pure_inv h).1, guid_inv h1]
        simp only [List.cons_append, get_pdict, ↓reduceIte]
  | _ => cases h

theorem leaf_concrete {rec : R Val} (hr : RecOk True rec wpS Unw) (oid : Val) :
    LeafOk (concreteBlob true rec oid) fun n => unlessValues (asValuesBytes (noneOr (concreteEncode (bytesOf n)))) := by
  refine leaf_unless (w := fun n => noneOr (concreteEncode (bytesOf n))) (mk := .bytes) (fun _ _ => rfl) sim_bytes
    (guard_or _ fun t => concreteDecode true rec oid t) (fun b y hb hy => ?_) (fun y hy => ?_) fun t y hy => ?_
  · rcases emptyOr_T_inv hy with ⟨rfl, rfl⟩ | ⟨hb0, s', hs⟩
    · exact .inr (.inl ⟨rfl, rfl⟩)
    · rcases ret_concrete _ _ _ _ _ _ _ hs with hnv | rfl
      · have hy0 := nv_ne hnv
        refine .inr (.inr ⟨hnv, fun n c hc => ?_⟩)
        have e : ∀ w, noneOr w y = w y := fun w => by cases y <;> first | rfl | exact absurd rfl hy0
        simp only [e] at hc ⊢
        rcases concrete_resave (fun _ => rfl) hr oid _ hb hs with h1 | ⟨⟨o, h1, h2⟩, h3⟩ | ⟨b0, h1, h2, h3⟩
        · rw [h1] at hnv
          exact absurd hnv (by rw [NoValues, dct_eq, contains_vdict_cons, if_pos rfl]; simp)
        · rcases uses_concrete y _ _ hc with h4 | ⟨o', bo, h4, h5, -⟩
          · have := h4 fun _ => .error .type
            unfold concreteEncode at this
            have hat : ∀ f : Val → Except Err Bytes, wAt y ["concrete_model_type"] f = f (.str (P "PalMapObjectHatchingEggModel")) :=
              fun f => by simp only [wAt, List.map_cons, List.map_nil, Val.path, h3]
            have hat2 : wAt y ["hatched_character_save_parameter"] (fun _ => .error .type) = .error .type := by
              simp only [wAt, List.map_cons, List.map_nil, Val.path, h1]
            have hno : (Val.str (P "PalMapObjectHatchingEggModel")).isAny concreteNoOp = false := by decide +kernel
            simp only [hat, concreteBodyEncode, hno, isS_P, String.reduceEq, decide_false, decide_true, Bool.false_eq_true, ↓reduceIte,
              hat2] at this
            generalize wAt y ["instance_id"] wGuid = a at this
            generalize wAt y ["model_instance_id"] wGuid = b at this
            cases a <;> cases b <;> cases this
          · rw [h1] at h4
            cases h4
            obtain ⟨e, he⟩ := h2 n
            rw [h5] at he
            cases he
        · obtain ⟨rfl, h4⟩ := uses_wpS (uses_concrete y) h1 hc
          refine ⟨h2, emptyOr_T ?_ (h3 trivial _), h4⟩
          rintro rfl
          have e1 := concrete_id (h3 trivial (.list [])) hnv
          rw [concrete_id hs hnv] at e1
          cases b with
          | nil => exact hb0 rfl
          | cons a t => simp at e1
      · exact .inl rfl
  · cases hy; rfl
  · unfold concreteBlob emptyOr at hy
    split at hy
    · cases hy
    · cases hy; exact .inr ⟨_, rfl⟩
    · obtain ⟨b, s, hs⟩ := runBlob_inv hy
      rcases ret_concrete _ _ _ _ _ _ _ hs with h | h
      · exact .inl h
      · exact .inr ⟨_, h⟩

end Pal
