import Verif.Lemmas.WarnLog
/-
Every decoded property of a document read is announced as far as it was not interpreted.
-/

namespace Pal
namespace Warn

variable {custom : PyStr → Option CodecId} {lg : List Warning}

/-- What was not interpreted in the decoded properties of the value is in the log. -/
def Rep (custom : PyStr → Option CodecId) (lg : List Warning) (v : Val) : Prop :=
  ∀ w, Found custom v w → ∀ c, decoderOf custom w = some c → Reported lg c w

/-- Neither a dict nor a list. -/
def Flat : Val → Prop
  | .dict _ | .list _ => False
  | _ => True

theorem decoderOf_flat {v : Val} (h : ∀ d, v ≠ .dict d) : decoderOf custom v = none := by
  cases v with
  | dict d => exact absurd rfl (h d)
  | _ => rfl

theorem rep_flat {v : Val} (h : Flat v) : Rep custom lg v := by
  have hd : decoderOf custom v = none := decoderOf_flat fun d e => by subst e; exact h
  intro w hw
  cases hw with
  | here e => rw [hd] at e; cases e
  | dict => exact absurd h id
  | list => exact absurd h id
  | object e => rw [hd] at e; rcases e with e | e <;> cases e
  | hatching e => rw [hd] at e; cases e

theorem rep_list {l : List Val} (h : ∀ x ∈ l, Rep custom lg x) : Rep custom lg (.list l) := by
  have hd : decoderOf custom (.list l) = none := rfl
  intro w hw
  cases hw with
  | here e => rw [hd] at e; cases e
  | list hx hf => exact h _ hx w hf
  | object e => rw [hd] at e; rcases e with e | e <;> cases e
  | hatching e => rw [hd] at e; cases e

theorem rep_dict {d : Dict} (hd : decoderOf custom (.dict d) = none) (h : ∀ q ∈ d, Rep custom lg q.2) : Rep custom lg (.dict d) := by
  intro w hw
  cases hw with
  | here e => rw [hd] at e; cases e
  | dict _ hx hf => exact h _ hx w hf
  | object e => rw [hd] at e; rcases e with e | e <;> cases e
  | hatching e => rw [hd] at e; cases e

/-- A dict without `custom_type`, with good values. -/
def PlainD (custom : PyStr → Option CodecId) (lg : List Warning) (v : Val) : Prop :=
  ∃ d, v = .dict d ∧ dget? d (P "custom_type") = none ∧ ∀ q ∈ d, Rep custom lg q.2

theorem rep_plain {v : Val} (h : PlainD custom lg v) : Rep custom lg v := by
  obtain ⟨d, rfl, h1, h2⟩ := h
  exact rep_dict (by simp only [decoderOf, Val.get, h1]) h2

theorem plain_dct {l : List (String × Val)} (h1 : ∀ q ∈ l, q.1 ≠ "custom_type") (h2 : ∀ q ∈ l, Rep custom lg q.2) :
    PlainD custom lg (dct l) := by
  refine ⟨_, rfl, dget_absent fun q hq => ?_, fun q hq => ?_⟩
  · obtain ⟨a, ha, rfl⟩ := List.mem_map.1 hq
    exact P_ne (h1 a ha)
  · obtain ⟨a, ha, rfl⟩ := List.mem_map.1 hq
    exact h2 a ha

theorem plain_set {v v' : Val} {k : String} {x : Val} (h : PlainD custom lg v) (hk : k ≠ "custom_type") (hx : Rep custom lg x)
    (e : v.set (P k) x = .ok v') : PlainD custom lg v' := by
  obtain ⟨d, rfl, h1, h2⟩ := h
  cases e
  refine ⟨_, rfl, ?_, fun q hq => ?_⟩
  · have := get_set_ne (v := .dict d) (v' := .dict (dset d (P k) x)) (y := x) (k := P k) (k' := P "custom_type") rfl (P_ne (Ne.symm hk))
    simp only [Val.get, h1] at this
    cases hd : dget? (dset d (P k) x) (P "custom_type") with
    | none => rfl
    | some y => rw [hd] at this; cases this
  · rcases mem_dset hq with hq | rfl
    · exact h2 q hq
    · exact hx

/-! ### leaves -/

theorem flat_guid : Ret rGuid Flat := ret_bind fun _ => ret_pure trivial
theorem flat_str : Ret rStr Flat := ret_bind fun _ => ret_pure trivial
theorem flat_i32 : Ret rI32Val Flat := ret_bind fun _ => ret_pure trivial
theorem flat_i64 : Ret rI64Val Flat := ret_bind fun _ => ret_pure trivial

theorem flat_floatVal (an : Bool) (b : BitVec 64) : Flat (floatVal an b) := by
  unfold floatVal
  split
  · trivial
  · split <;> trivial

theorem flat_float (an : Bool) : Ret (rFloat an) Flat := ret_bind fun _ => ret_pure (flat_floatVal _ _)
theorem flat_double (an : Bool) : Ret (rDouble an) Flat := ret_bind fun _ => ret_pure (flat_floatVal _ _)

theorem flat_optGuid : Ret rOptGuid Flat := by
  refine ret_bind fun b => ?_
  cases b with
  | nil => exact ret_fail
  | cons x t => exact ret_ite (fun _ => ret_pure trivial) fun _ => flat_guid

theorem flat_byteList (n : Nat) : Ret (rByteList n) Flat := by
  intro s v s' h
  unfold rByteList at h
  split at h
  · cases h; trivial
  · cases h

theorem ret_mono {α : Type} {r : R α} {Q T : α → Prop} (h : Ret r Q) (g : ∀ a, Q a → T a) : Ret r T := fun s v s' e => g v (h s v s' e)

theorem rep_of_flat {r : R Val} (h : Ret r Flat) : Ret r (Rep custom lg) := ret_mono h fun _ => rep_flat

theorem ret_repeat {α : Type} {r : R α} {Q : α → Prop} (h : Ret r Q) : ∀ n, Ret (rRepeat r n) fun l => ∀ a ∈ l, Q a
  | 0 => ret_pure (by simp)
  | n + 1 => ret_bind' h fun a ha => ret_bind' (ret_repeat h n) fun l hl => ret_pure fun b hb => by
      rcases List.mem_cons.1 hb with rfl | hb
      · exact ha
      · exact hl b hb

theorem rep_vector (an : Bool) : Ret (rVectorDict an) (Rep custom lg) :=
  ret_bind' (flat_double an) fun x hx => ret_bind' (flat_double an) fun y hy => ret_bind' (flat_double an) fun z hz =>
    ret_pure (rep_plain (plain_dct (by simp) (by simp [rep_flat hx, rep_flat hy, rep_flat hz])))

theorem rep_quat (an : Bool) : Ret (rQuatDict an) (Rep custom lg) :=
  ret_bind' (flat_double an) fun x hx => ret_bind' (flat_double an) fun y hy => ret_bind' (flat_double an) fun z hz =>
    ret_bind' (flat_double an) fun w hw =>
    ret_pure (rep_plain (plain_dct (by simp) (by simp [rep_flat hx, rep_flat hy, rep_flat hz, rep_flat hw])))

theorem rep_structLeaf (an : Bool) (st path : PyStr) : Ret (rStructValue an (fun _ => rFail .type) st path) (Rep custom lg) := by
  unfold rStructValue
  refine ret_ite (fun _ => rep_vector an) fun _ => ret_ite (fun _ => ret_bind fun _ => ret_pure (rep_flat trivial)) fun _ =>
    ret_ite (fun _ => rep_of_flat flat_guid) fun _ => ret_ite (fun _ => rep_quat an) fun _ => ret_ite (fun _ => ?_) fun _ => ret_fail
  exact ret_bind' (flat_float an) fun x hx => ret_bind' (flat_float an) fun y hy => ret_bind' (flat_float an) fun z hz =>
    ret_bind' (flat_float an) fun w hw =>
    ret_pure (rep_plain (plain_dct (by simp) (by simp [rep_flat hx, rep_flat hy, rep_flat hz, rep_flat hw])))

/-! ### the property reader -/

section
variable {r : PyStr → L Val} (hr : ∀ p, Res lg (r p) (Rep custom lg))
include hr

theorem res_structValue (an : Bool) (st path : PyStr) : Res lg (lStructValue an r st path) (Rep custom lg) := by
  unfold lStructValue
  exact res_ite (fun _ => res_lift (rep_structLeaf an st path)) fun _ => hr path

theorem res_struct (an : Bool) (path : PyStr) : Res lg (lStruct an r path) (PlainD custom lg) :=
  res_bind' _ fun st => res_bind (res_lift flat_guid) fun sid hs => res_bind (res_lift flat_optGuid) fun id hi =>
    res_bind (res_structValue hr an _ _) fun v hv => res_pure (plain_dct (by simp)
      (by simp [rep_flat hs, rep_flat hi, hv, rep_flat (v := .str st) trivial]))

theorem res_propValue (an : Bool) (ty st path : PyStr) : Res lg (lPropValue an r ty st path) (Rep custom lg) := by
  unfold lPropValue
  refine res_ite (fun _ => res_structValue hr an _ _) fun h => res_lift ?_
  unfold rPropValue
  rw [if_neg h]
  exact ret_ite (fun _ => rep_of_flat flat_str) fun _ => ret_ite (fun _ => rep_of_flat flat_str) fun _ =>
    ret_ite (fun _ => rep_of_flat flat_i32) fun _ => ret_ite (fun _ => ret_bind fun _ => ret_pure (rep_flat trivial)) fun _ => ret_fail

omit hr in
theorem rep_arrayValue (at_ : PyStr) (count size : Nat) : Ret (rArrayValue at_ count size) (Rep custom lg) := by
  unfold rArrayValue
  refine ret_ite (fun _ => ?_) fun _ => ret_ite (fun _ => ?_) fun _ => ret_ite (fun _ => ?_) fun _ => ret_ite (fun _ => ?_) fun _ => ret_fail
  · exact ret_bind' (ret_repeat flat_str _) fun l hl => ret_pure (rep_list fun x hx => rep_flat (hl x hx))
  · exact ret_bind' (ret_repeat flat_str _) fun l hl => ret_pure (rep_list fun x hx => rep_flat (hl x hx))
  · exact ret_bind' (ret_repeat flat_guid _) fun l hl => ret_pure (rep_list fun x hx => rep_flat (hl x hx))
  · exact ret_ite (fun _ => rep_of_flat (flat_byteList _)) fun _ => ret_fail

theorem res_arrayProperty (an : Bool) (at_ : PyStr) (size : Nat) (path : PyStr) :
    Res lg (lArrayProperty an r at_ size path) (PlainD custom lg) := by
  unfold lArrayProperty
  refine res_bind' _ fun c => res_ite (fun _ => ?_) fun _ => res_bind (res_lift (rep_arrayValue (custom := custom) (lg := lg) _ _ _)) fun v hv =>
    res_pure (plain_dct (by simp) (by simp [hv]))
  exact res_bind' _ fun pn => res_bind' _ fun pt => res_bind' _ fun _ => res_bind' _ fun tn => res_bind (res_lift flat_guid) fun id hi =>
    res_bind' _ fun _ => res_bind (res_repeat (res_structValue hr an _ _) _) fun vs hvs => res_pure (plain_dct (by simp)
      (by simp [rep_flat hi, rep_list hvs, rep_flat (v := .str pn) trivial, rep_flat (v := .str pt) trivial, rep_flat (v := .str tn) trivial]))

theorem res_mapEntry (an : Bool) (kt ks vt vs kp vp : PyStr) : Res lg (lMapEntry an r kt ks vt vs kp vp) (Rep custom lg) :=
  res_bind (res_propValue hr an _ _ _) fun k hk => res_bind (res_propValue hr an _ _ _) fun v hv =>
    res_pure (rep_plain (plain_dct (by simp) (by simp [hk, hv])))

omit hr in
theorem flat_structType (ty st : PyStr) : Flat (structTypeVal ty st) := by
  unfold structTypeVal
  split <;> trivial

theorem res_map (cfg : Cfg) (path : PyStr) : Res lg (lMap cfg r path) (PlainD custom lg) := by
  unfold lMap
  exact res_bind' _ fun kt => res_bind' _ fun vt => res_bind (res_lift flat_optGuid) fun id hi => res_bind' _ fun _ => res_bind' _ fun n =>
    res_bind' _ fun kst => res_bind' _ fun vst => res_bind (res_repeat (res_mapEntry hr _ _ _ _ _ _ _) _) fun l hl => res_pure (plain_dct (by simp)
      (by simp [rep_flat hi, rep_list hl, rep_flat (v := .str kt) trivial, rep_flat (v := .str vt) trivial,
        rep_flat (flat_structType _ _)]))

theorem res_arrayProp (an : Bool) (size : Nat) (path : PyStr) : Res lg (lArrayProp an r size path) (PlainD custom lg) :=
  res_bind' _ fun at_ => res_bind (res_lift flat_optGuid) fun id hi => res_bind (res_arrayProperty hr an _ _ _) fun v hv => res_pure
    (plain_dct (by simp) (by simp [rep_flat hi, rep_plain hv, rep_flat (v := .str at_) trivial]))

omit hr in
theorem plain_idValue {x : R Val} (h : Ret x Flat) : Ret (rIdValue x) (PlainD custom lg) :=
  ret_bind' flat_optGuid fun id hi => ret_bind' h fun v hv => ret_pure (plain_dct (by simp) (by simp [rep_flat hi, rep_flat hv]))

theorem res_plainBody (cfg : Cfg) (ty : PyStr) (size : Nat) (path : PyStr) : Res lg (lPlainBody cfg r ty size path) (PlainD custom lg) := by
  unfold lPlainBody
  refine res_ite (fun _ => res_struct hr _ _) fun h1 => res_ite (fun _ => res_arrayProp hr _ _ _) fun h2 =>
    res_ite (fun _ => res_map hr _ _) fun h3 => res_lift ?_
  unfold rPlainBody
  rw [if_neg h1]
  refine ret_ite (fun _ => plain_idValue flat_i32) fun _ => ret_ite (fun _ => plain_idValue flat_i64) fun _ =>
    ret_ite (fun _ => plain_idValue flat_i32) fun _ => ret_ite (fun _ => plain_idValue (flat_float _)) fun _ =>
    ret_ite (fun _ => plain_idValue flat_str) fun _ => ret_ite (fun _ => plain_idValue flat_str) fun _ => ret_ite (fun _ => ?_) fun _ =>
    ret_ite (fun _ => ?_) fun _ => ?_
  · exact ret_bind' flat_str fun et he => ret_bind' flat_optGuid fun id hi => ret_bind' flat_str fun ev hv => ret_pure (plain_dct (by simp)
      (by simp [rep_flat hi, rep_plain (plain_dct (lg := lg) (custom := custom) (l := [("type", et), ("value", ev)]) (by simp)
        (by simp [rep_flat he, rep_flat hv]))]))
  · exact ret_bind fun b => ret_bind' flat_optGuid fun id hi => ret_pure (plain_dct (by simp)
      (by simp [rep_flat hi, rep_flat (v := .bool b) trivial]))
  · rw [if_neg h2, if_neg h3]; exact ret_fail

theorem res_plain (cfg : Cfg) (ty : PyStr) (size : Nat) (path : PyStr) : Res lg (lPlain cfg r ty size path) (PlainD custom lg) :=
  res_bind (res_plainBody hr _ _ _ _) fun v hv => res_lift fun s a s' e =>
    plain_set hv (by decide) (rep_flat (v := .str ty) trivial) (rLift_inv e).1

end

/-! ### decoded properties -/

theorem res_item {rec : L Val} (hrec : Res lg rec (Rep custom lg)) (an : Bool) : Res lg (lDynamicItem an rec) fun v =>
    (v.get (P "type") = .ok (.str (P "unknown")) → .rawItem ∈ lg) ∧ ∀ x, v.get (P "object") = .ok x → Rep custom lg x := by
  have hegg : Res lg (lTryEgg rec) fun o => ∀ d, o = some d →
      ((Val.dict d).get (P "type") = .ok (.str (P "unknown")) → .rawItem ∈ lg) ∧ ∀ x, (Val.dict d).get (P "object") = .ok x → Rep custom lg x := by
    refine res_try ?_ fun e => res_ite (fun _ => res_fail) fun _ => res_pure fun d h => by cases h
    refine res_bind (Q := fun d => ((Val.dict d).get (P "type") = .ok (.str (P "unknown")) → .rawItem ∈ lg) ∧
      ∀ x, (Val.dict d).get (P "object") = .ok x → Rep custom lg x) ?_ fun d hd => res_pure fun d' h => by cases h; exact hd
    refine res_bind' _ fun c => res_bind hrec fun o ho => res_bind' _ fun u => res_bind' _ fun g => res_bind' _ fun _ => res_pure ⟨?_, ?_⟩
    · intro h
      simp [Val.get, dget?, P_inj] at h
    · intro x h
      simp [Val.get, dget?, P_inj] at h
      rw [← h]; exact ho
  refine res_bind' _ fun i => res_bind (Q := fun d => ((Val.dict d).get (P "type") = .ok (.str (P "unknown")) → .rawItem ∈ lg) ∧
      ∀ x, (Val.dict d).get (P "object") = .ok x → Rep custom lg x) ?_ fun d hd => res_pure ?_
  · refine res_bind hegg fun egg he => res_bind' _ fun n => ?_
    cases egg with
    | some d => exact res_pure (he d rfl)
    | none =>
      refine res_ite (fun _ => res_lift ?_) fun _ => res_try (res_lift ?_) fun _ => res_tell fun hm => ?_
      · refine ret_bind fun _ => ret_bind fun _ => ret_pure ⟨?_, ?_⟩ <;> simp [Val.get, dget?, P_inj]
      · refine ret_bind fun _ => ret_bind fun _ => ret_bind fun _ => ret_bind fun _ => ret_pure ⟨?_, ?_⟩ <;> simp [Val.get, dget?, P_inj]
      · refine res_lift (ret_bind fun _ => ret_pure ⟨fun _ => hm, ?_⟩)
        simp [Val.get, dget?, P_inj]
  · have h1 : ∀ k, k ≠ P "id" → (Val.dict ((P "id", i) :: d)).get k = (Val.dict d).get k := by
      intro k hk
      simp only [Val.get, dget?, if_neg (Ne.symm hk)]
    rw [h1 _ (P_ne (by decide)), h1 _ (P_ne (by decide))]
    exact hd

/-- A decoded value in place. -/
theorem decoded_value {f : Val → E Val} {v v' : Val} {Q : Val → Prop} (h : ∀ b, ResE lg (f b) Q)
    (e : (eUpd (eOnValues f) [P "value"] v).1 = .ok v') (hl : ∀ w ∈ (eUpd (eOnValues f) [P "value"] v).2, w ∈ lg) :
    ∃ x, v'.get (P "value") = .ok x ∧ Q x := by
  obtain ⟨y, y', -, h2, h3, h4⟩ := eUpd_inv e
  exact ⟨y', path_one h4, resE_onValues h y' h2 (by rw [h3]; exact hl)⟩

/-- The property lists inside a decoded property are good. -/
def Inner (custom : PyStr → Option CodecId) (lg : List Warning) (c : CodecId) (v : Val) : Prop :=
  (c = .character ∨ c = .dynamicItem → ∀ x, v.path (ks ["value", "object"]) = .ok x → Rep custom lg x) ∧
  (c = .mapObject → ∀ l, v.path (ks ["value", "values"]) = .ok (.list l) → ∀ m ∈ l,
    ∀ x, m.path (ks ["ConcreteModel", "value", "RawData", "value", "hatched_character_save_parameter"]) = .ok x → Rep custom lg x)

theorem res_post {rec : L Val} (hrec : Res lg rec (Rep custom lg)) (c : CodecId) (an : Bool) (v : Val) :
    ResE lg (ePost c an rec v) fun v' => Reported lg c v' ∧ Inner custom lg c v' := by
  intro v' e hl
  cases c
  case character =>
    refine ⟨trivial, fun _ x hx => ?_, fun h => (nomatch h)⟩
    obtain ⟨y, h1, h2⟩ := decoded_value (Q := fun v => ∀ x, v.get (P "object") = .ok x → Rep custom lg x)
      (fun b => resE_blob (x := lCharacter rec) (res_bind hrec fun o ho => res_bind' _ fun _ => res_bind' _ fun _ => res_bind' _ fun _ => res_pure
        fun x hx => by
          simp [dct, Val.get, dget?] at hx
          rw [← hx]; exact ho)) e hl
    obtain ⟨z, g1, g2⟩ := path_two (k := P "value") (k' := P "object") hx
    rw [h1] at g1
    cases g1
    exact h2 x g2
  case dynamicItem =>
    obtain ⟨y, h1, h2, h3⟩ := decoded_value (Q := fun v => (v.get (P "type") = .ok (.str (P "unknown")) → .rawItem ∈ lg) ∧
      ∀ x, v.get (P "object") = .ok x → Rep custom lg x) (fun b => resE_emptyOr (x := lDynamicItem an rec) (d := .none)
      ⟨fun h => (nomatch h), fun x h => (nomatch h)⟩ (res_item hrec an)) e hl
    refine ⟨fun h => ?_, fun _ x hx => ?_, fun h => (nomatch h)⟩
    · obtain ⟨z, g1, g2⟩ := path_two (k := P "value") (k' := P "type") h
      rw [h1] at g1
      cases g1
      exact h2 g2
    · obtain ⟨z, g1, g2⟩ := path_two (k := P "value") (k' := P "object") hx
      rw [h1] at g1
      cases g1
      exact h3 x g2
  case connector =>
    refine ⟨fun x hx => ?_, fun h => (by rcases h with h | h <;> cases h), fun h => (nomatch h)⟩
    obtain ⟨y, h1, h2⟩ := decoded_value connectorBlob_reported e hl
    rw [path_one hx] at h1
    cases h1
    exact h2
  case baseCampModule =>
    refine ⟨fun l h m hm => ?_, fun h => (by rcases h with h | h <;> cases h), fun h => (nomatch h)⟩
    obtain ⟨y, y', -, h2, h3, h4⟩ := eUpd_inv e
    have h5 : Except.ok (Val.list l) = .ok y' := h.symm.trans h4
    cases h5
    obtain ⟨m0, g1, g2⟩ := eForEach_inv h2 m hm
    exact campModule1_reported an m0 m g1 fun w hw => hl w (by rw [h3] at g2; exact g2 w hw)
  case work =>
    refine ⟨fun l h m hm => ?_, fun h => (by rcases h with h | h <;> cases h), fun h => (nomatch h)⟩
    obtain ⟨y, y', -, h2, h3, h4⟩ := eUpd_inv e
    have h5 : Except.ok (Val.list l) = .ok y' := h.symm.trans h4
    cases h5
    obtain ⟨m0, g1, g2⟩ := eForEach_inv h2 m hm
    exact work1_reported an m0 m g1 fun w hw => hl w (by rw [h3] at g2; exact g2 w hw)
  case mapObject =>
    have key : ∀ l, v'.path (ks ["value", "values"]) = .ok (.list l) → ∀ m ∈ l,
        ((∀ x, m.path (ks ["Model", "value", "Connector", "value", "RawData", "value"]) = .ok x → ConnectorReported lg x) ∧
          ConcreteReported lg m) ∧
        ∀ x, m.path (ks ["ConcreteModel", "value", "RawData", "value", "hatched_character_save_parameter"]) = .ok x → Rep custom lg x := by
      intro l h m hm
      obtain ⟨y, y', -, h2, h3, h4⟩ := eUpd_inv e
      have h5 : Except.ok (Val.list l) = .ok y' := h.symm.trans h4
      cases h5
      obtain ⟨m0, g1, g2⟩ := eForEach_inv h2 m hm
      exact mapObject1_reported an hrec m0 m g1 fun w hw => hl w (by rw [h3] at g2; exact g2 w hw)
    exact ⟨fun l h m hm => (key l h m hm).1, fun h => (by rcases h with h | h <;> cases h), fun _ l h m hm x => (key l h m hm).2 x⟩
  all_goals exact ⟨trivial, fun h => (by rcases h with h | h <;> cases h), fun h => (nomatch h)⟩

/-- Only what is under `value` counts. -/
theorem reported_value {c : CodecId} {v v' : Val} (e : v'.get (P "value") = v.get (P "value")) (h : Reported lg c v) : Reported lg c v' := by
  have hp : ∀ l, v'.path (P "value" :: l) = v.path (P "value" :: l) := fun l => by simp only [Val.path, e]
  cases c
  case dynamicItem => intro g; exact h ((hp _).symm.trans g)
  case connector => intro x g; exact h x ((hp _).symm.trans g)
  case baseCampModule => intro l g; exact h l ((hp _).symm.trans g)
  case work => intro l g; exact h l ((hp _).symm.trans g)
  case mapObject => intro l g; exact h l ((hp _).symm.trans g)
  all_goals trivial

/-- The result of reading a property: a dict, all of whose gaps are announced. -/
def PropOk (custom : PyStr → Option CodecId) (lg : List Warning) (v : Val) : Prop :=
  (∃ d, v = .dict d) ∧ Rep custom lg v

theorem res_property {cfg : Cfg} {r : PyStr → L Val} (hr : ∀ p, Res lg (r p) (Rep cfg.custom lg)) (ty : PyStr) (size : Nat) (path : PyStr) :
    Res lg (lProperty cfg r ty size path) (PropOk cfg.custom lg) := by
  unfold lProperty
  cases hc : cfg.custom path with
  | none => exact res_mono (res_plain hr _ _ _ _) fun v hv => ⟨hv.imp fun d h => h.1, rep_plain hv⟩
  | some c =>
    refine res_ite (fun _ => ?_) fun _ => res_fail
    refine res_bind' _ fun v => res_bind (Q := fun v' => Reported lg c v' ∧ Inner cfg.custom lg c v') ?_ fun v1 h1 => ?_
    · intro s a s' e hl
      exact res_post (hr []) c cfg.allowNan v a (rLift_inv e).1 hl
    refine res_bind (Q := fun v2 => v1.set (P "custom_type") (.str path) = .ok v2) (res_lift fun s a s' e => (rLift_inv e).1) fun v2 e2 => ?_
    refine res_lift fun s v3 s' e => ?_
    have e3 := (rLift_inv e).1
    have hv : v3.get (P "value") = v1.get (P "value") := (get_set_ne e3 (P_ne (by decide))).trans (get_set_ne e2 (P_ne (by decide)))
    have hd : decoderOf cfg.custom v3 = some c := by
      unfold decoderOf
      rw [get_set_ne e3 (P_ne (by decide)), get_set e2]
      exact hc
    refine ⟨?_, fun w hw => ?_⟩
    · cases v2 with
      | dict d => cases e3; exact ⟨_, rfl⟩
      | _ => cases e3
    · cases hw with
      | here => intro c' hc'; rw [hd] at hc'; cases hc'; exact reported_value hv h1.1
      | dict hn => rw [hd] at hn; cases hn
      | list => rw [show decoderOf cfg.custom (.list _) = none from rfl] at hd; cases hd
      | object ho hx hf =>
        rw [hd] at ho
        refine h1.2.1 (ho.imp (fun h => by cases h; rfl) fun h => by cases h; rfl) _ ?_ w hf
        rw [← hx]
        show v1.path (P "value" :: [P "object"]) = v3.path (P "value" :: [P "object"])
        simp only [Val.path, hv]
      | hatching ho hx hm hh hf =>
        rw [hd] at ho
        refine h1.2.2 (by cases ho; rfl) _ ?_ _ hm _ hh w hf
        rw [← hx]
        show v1.path (P "value" :: [P "values"]) = v3.path (P "value" :: [P "values"])
        simp only [Val.path, hv]

theorem res_loop (cfg : Cfg) : ∀ n path acc, (∀ q ∈ acc, PropOk cfg.custom lg q.2) → Res lg (lPropsLoop cfg n path acc) (Rep cfg.custom lg)
  | 0, _, _, _ => res_fail
  | n + 1, path, acc, h => by
    unfold lPropsLoop
    refine res_bind' _ fun name => res_ite (fun _ => res_pure ?_) fun _ => res_bind' _ fun ty => res_bind' _ fun size =>
      res_bind (res_property (fun p => res_loop cfg n p [] (by simp)) _ _ _) fun v hv => res_loop cfg n path _ ?_
    · refine rep_dict ?_ fun q hq => (h q hq).2
      unfold decoderOf
      simp only [Val.get]
      cases hg : dget? acc (P "custom_type") with
      | none => rfl
      | some x =>
        obtain ⟨⟨d, rfl⟩, -⟩ := h _ (dget_mem hg)
        rfl
    · intro q hq
      rcases mem_dset hq with hq | rfl
      · exact h q hq
      · exact hv

theorem read_reported {cfg : Cfg} {data : Bytes} {g : Gvas} (h : (readPrints cfg data).1 = .ok g) :
    Rep cfg.custom (readPrints cfg data).2 g.properties := by
  have : Res (readPrints cfg data).2 (lGvas cfg (data.length + 1)) fun g => Rep cfg.custom (readPrints cfg data).2 g.properties :=
    res_bind' _ fun _ => res_bind (res_loop cfg _ _ _ (by simp)) fun p hp => res_bind' _ fun t => res_bind' _ fun _ => res_pure hp
  simp only [readPrints] at h
  cases hr : (lGvas cfg (data.length + 1)).run data with
  | error e => rw [hr] at h; cases h
  | ok q => rw [hr] at h; cases h; exact this data q.1 q.2 hr fun _ hw => hw

end Warn
end Pal
