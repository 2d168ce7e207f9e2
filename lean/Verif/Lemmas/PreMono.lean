import Verif.Lemmas.Mono
import Verif.Lemmas.Foliage
/-
The custom encoders do not distinguish a value from its image under JSON.
-/

namespace Pal
open Spec

/-- `f` maps related values to related values. -/
def FSim (bs : Bool) (f g : Val → Except Err Val) : Prop :=
  ∀ a b, Sim bs a b → ∀ x, f a = .ok x → ∃ y, g b = .ok y ∧ Sim bs x y

/-- On the same value, `f` and `g` give the same tuple, if any. -/
def SameTuple (f g : Val → Except Err Val) : Prop :=
  ∀ a x y, f a = .ok x → g a = .ok y → x = y ∨ ∀ l, x ≠ .tuple l

theorem sim_upd2 {bs : Bool} {f g : Val → Except Err Val} (hf : FSim bs f g) (hk : KeepsNT f) (hs : SameTuple f g)
    (ks : List PyStr) : FSim bs (Val.upd f ks) (Val.upd g ks) ∧ SameTuple (Val.upd f ks) (Val.upd g ks) := by
  induction ks with
  | nil => exact ⟨hf, hs⟩
  | cons k t ih =>
    obtain ⟨ih1, ih2⟩ := ih
    constructor
    · intro a b h x hx
      simp only [Val.upd] at hx ⊢
      cases hg : a.get k with
      | error e => rw [hg] at hx; cases hx
      | ok c =>
        rw [hg] at hx
        obtain ⟨c', h1, h2, hn⟩ := sim_get_nt h hg
        rw [h1]
        simp only at hx ⊢
        cases hu : Val.upd f t c with
        | error e => rw [hu] at hx; cases hx
        | ok u =>
          rw [hu] at hx
          obtain ⟨u', h3, h4⟩ := ih1 _ _ h2 _ hu
          rw [h3]
          refine sim_set h h4 ?_ hx
          intro e
          rcases hn e with rfl | hnt
          · exact ih2 _ _ _ hu h3
          · exact .inr (keepsNT_upd hk t c u hu hnt)
    · intro a x y hx _
      right
      intro l hl
      simp only [Val.upd] at hx
      cases hg : a.get k with
      | error e => rw [hg] at hx; cases hx
      | ok c =>
        rw [hg] at hx
        simp only at hx
        cases hu : Val.upd f t c with
        | error e => rw [hu] at hx; cases hx
        | ok u =>
          rw [hu] at hx
          subst hl
          cases a <;> cases hx

theorem simL_refl' (bs : Bool) (b : Bytes) : Sim bs (intList b) (intList b) := sim_refl _ _

theorem fsim_asValuesList {bs : Bool} {w w' : Val → Except Err Bytes} (h : ∀ a b, Sim bs a b → Le (w a) (w' b)) :
    FSim bs (asValuesList w) (asValuesList w') := by
  intro a b hs x hx
  simp only [asValuesList] at hx ⊢
  cases hw : w a with
  | error e => rw [hw] at hx; cases hx
  | ok r =>
    rw [hw] at hx
    rw [h a b hs r hw]
    cases hx
    exact ⟨_, rfl, sim_refl _ _⟩

theorem fsim_asValuesBytes {bs : Bool} {w w' : Val → Except Err Bytes} (h : ∀ a b, Sim bs a b → Le (w a) (w' b)) :
    FSim bs (asValuesBytes w) (asValuesBytes w') := by
  intro a b hs x hx
  simp only [asValuesBytes] at hx ⊢
  cases hw : w a with
  | error e => rw [hw] at hx; cases hx
  | ok r =>
    rw [hw] at hx
    rw [h a b hs r hw]
    cases hx
    exact ⟨_, rfl, sim_refl _ _⟩

/-- `f` never gives a tuple. -/
def NoTup (f : Val → Except Err Val) : Prop := ∀ a x, f a = .ok x → ∀ l, x ≠ .tuple l

theorem noTup_asValuesList (w : Val → Except Err Bytes) : NoTup (asValuesList w) := by
  intro a x hx l
  simp only [asValuesList] at hx
  cases hw : w a <;> rw [hw] at hx <;> cases hx
  simp [dct]

theorem noTup_asValuesBytes (w : Val → Except Err Bytes) : NoTup (asValuesBytes w) := by
  intro a x hx l
  simp only [asValuesBytes] at hx
  cases hw : w a <;> rw [hw] at hx <;> cases hx
  simp [dct]

theorem noTup_keeps {f : Val → Except Err Val} (h : NoTup f) : KeepsNT f := fun a x hx _ => h a x hx
theorem noTup_same {f g : Val → Except Err Val} (h : NoTup f) : SameTuple f g := fun a x _ hx _ => .inr (h a x hx)

theorem fsim_unless {f g : Val → Except Err Val} (h : FSim false f g) : FSim false (unlessValues f) (unlessValues g) := by
  intro a b hs x hx
  simp only [unlessValues] at hx ⊢
  cases hc : a.contains (P "values") with
  | error e => rw [hc] at hx; cases hx
  | ok r =>
    rw [hc] at hx
    rw [sim_contains hs "values" (by decide +kernel) hc]
    cases r with
    | true => cases hx; exact ⟨_, rfl, hs⟩
    | false => exact h a b hs x hx

theorem keeps_unless {f : Val → Except Err Val} (h : NoTup f) : KeepsNT (unlessValues f) := by
  intro a x hx ha
  simp only [unlessValues] at hx
  cases hc : a.contains (P "values") with
  | error e => rw [hc] at hx; cases hx
  | ok r =>
    rw [hc] at hx
    cases r with
    | true => cases hx; exact ha
    | false => exact h a x hx

theorem same_unless {f g : Val → Except Err Val} (h : NoTup f) : SameTuple (unlessValues f) (unlessValues g) := by
  intro a x y hx hy
  simp only [unlessValues] at hx hy
  cases hc : a.contains (P "values") with
  | error e => rw [hc] at hx; cases hx
  | ok r =>
    rw [hc] at hx hy
    cases r with
    | true => cases hx; cases hy; exact .inl rfl
    | false => exact .inr (h a x hx)

theorem fsim_forEach {f : Val → Except Err Val} (h : FSim false f f) : FSim false (forEach f) (forEach f) :=
  fun _ _ hs _ hx => sim_forEach h hs hx

theorem keeps_forEach (f : Val → Except Err Val) : KeepsNT (forEach f) := by
  intro a x hx ha l hl
  subst hl
  unfold forEach at hx
  split at hx
  · split at hx <;> cases hx
  · exact ha _ rfl
  all_goals cases hx

theorem same_self (f : Val → Except Err Val) : SameTuple f f := by
  intro a x y hx hy
  rw [hx] at hy
  cases hy
  exact .inl rfl

theorem fsim_upd {f : Val → Except Err Val} (h : FSim false f f) (hk : KeepsNT f) (ks : List PyStr) :
    FSim false (Val.upd f ks) (Val.upd f ks) := (sim_upd2 h hk (same_self f) ks).1

theorem fsim_delThen {f : Val → Except Err Val} (h : FSim false f f) : FSim false (delThen f) (delThen f) := by
  intro a b hs x hx
  simp only [delThen] at hx ⊢
  cases hd : a.del (P "custom_type") with
  | error e => rw [hd] at hx; cases hx
  | ok a' =>
    obtain ⟨b', h1, h2⟩ := sim_del hs hd
    rw [hd] at hx
    rw [h1]
    exact h _ _ h2 x hx

theorem fsim_encodeValue {w : Val → Except Err Bytes} (h : Mono false w) : FSim false (encodeValue w) (encodeValue w) :=
  fsim_delThen (fsim_upd (fsim_asValuesList h) (noTup_keeps (noTup_asValuesList w)) _)

theorem fsim_updAll {l : List (Val → Except Err Val)} (h : ∀ f ∈ l, FSim false f f) : FSim false (updAll l) (updAll l) := by
  induction l with
  | nil => intro a b hs x hx; cases hx; exact ⟨_, rfl, hs⟩
  | cons f t ih =>
    intro a b hs x hx
    simp only [updAll] at hx ⊢
    cases hf : f a with
    | error e => rw [hf] at hx; cases hx
    | ok a' =>
      rw [hf] at hx
      obtain ⟨b', h1, h2⟩ := h f (by simp) a b hs a' hf
      rw [h1]
      exact ih (fun g hg => h g (by simp [hg])) _ _ h2 x hx

theorem mono_noneOr' {w w' : Val → Except Err Bytes} (h : ∀ a b, Sim false a b → Le (w a) (w' b)) :
    ∀ a b, Sim false a b → Le (noneOr w a) (noneOr w' b) := by
  intro a b hs
  cases hs <;> first
    | exact le_refl _
    | exact h _ _ (by constructor; assumption)
    | exact h _ _ (by constructor)

/-! ### the codecs -/

theorem fsim_groupPre1 : FSim false groupPre1 groupPre1 :=
  fsim_upd (fsim_unless (fsim_asValuesList mono_group)) (keeps_unless (noTup_asValuesList _)) _

theorem fsim_campModulePre1 : FSim false campModulePre1 campModulePre1 := by
  intro a b hs x hx
  simp only [campModulePre1] at hx ⊢
  cases hk : a.get (P "key") with
  | error e => rw [hk] at hx; cases hx
  | ok mt =>
    obtain ⟨mt', h1, h2⟩ := sim_get hs hk
    rw [hk] at hx
    rw [h1]
    have nt : ∀ t : Val, NoTup fun p => match campModuleEncode t p with
        | .ok b => p.set (P "values") (.bytes b)
        | .error e => .error e := by
      intro t p x hx l hl
      subst hl
      simp only at hx
      cases hw : campModuleEncode t p <;> rw [hw] at hx
      · cases hx
      · cases p <;> cases hx
    refine (sim_upd2 (fsim_unless ?_) (keeps_unless (nt _)) (same_unless (nt _)) _).1 a b hs x hx
    intro p q hpq x hx
    simp only at hx ⊢
    cases hw : campModuleEncode mt p with
    | error e => rw [hw] at hx; cases hx
    | ok r =>
      rw [hw] at hx
      rw [mono_campModule h2 hpq r hw]
      refine sim_set hpq (.bytes r) ?_ hx
      exact nt_refl _ _

theorem fsim_workAssignPre1 : FSim false workAssignPre1 workAssignPre1 :=
  fsim_upd (fsim_asValuesList mono_workAssignBytes) (noTup_keeps (noTup_asValuesList _)) _

theorem fsim_workPre1 : FSim false workPre1 workPre1 := by
  intro a b hs x hx
  simp only [workPre1] at hx ⊢
  cases hk : a.path (ks ["WorkableType", "value", "value"]) with
  | error e => rw [hk] at hx; cases hx
  | ok wt =>
    obtain ⟨wt', h1, h2, h3⟩ := sim_path_nt (ks ["WorkableType", "value"]) (P "value") hs hk
    have h1 : b.path (ks ["WorkableType", "value", "value"]) = .ok wt' := h1
    rw [hk] at hx
    rw [h1]
    simp only at hx ⊢
    cases hu : a.upd (asValuesList (workEncode wt)) (ks ["RawData", "value"]) with
    | error e => rw [hu] at hx; cases hx
    | ok a' =>
      rw [hu] at hx
      obtain ⟨b', h4, h5⟩ := (sim_upd2 (fsim_asValuesList fun p q h => mono_work h2 h3 h)
        (noTup_keeps (noTup_asValuesList _)) (noTup_same (noTup_asValuesList _)) (ks ["RawData", "value"])).1 a b hs a' hu
      rw [h4]
      exact fsim_upd (fsim_forEach fsim_workAssignPre1) (keeps_forEach _) _ a' b' h5 x hx

theorem fsim_moduleMapPre1 : FSim false moduleMapPre1 moduleMapPre1 := by
  intro a b hs x hx
  simp only [moduleMapPre1] at hx ⊢
  have nt : ∀ v : Val, NoTup fun p => match v.get (P "key") with
      | .error e => .error e
      | .ok mt => asValuesBytes (noneOr (concreteModuleEncode mt)) p := by
    intro v p x hx
    simp only at hx
    cases hw : v.get (P "key") <;> rw [hw] at hx
    · cases hx
    · exact noTup_asValuesBytes _ p x hx
  refine (sim_upd2 (fsim_unless ?_) (keeps_unless (nt _)) (same_unless (nt _)) _).1 a b hs x hx
  intro p q hpq x hx
  simp only at hx ⊢
  cases hk : a.get (P "key") with
  | error e => rw [hk] at hx; cases hx
  | ok mt =>
    obtain ⟨mt', h1, h2⟩ := sim_get hs hk
    rw [hk] at hx
    rw [h1]
    exact fsim_asValuesBytes (mono_noneOr' fun p q h => mono_concreteModule h2 h) p q hpq x hx

theorem fsim_mapObjectPre1 {wp : Val → Except Err Bytes} (hw : Mono false wp) :
    FSim false (mapObjectPre1 wp) (mapObjectPre1 wp) := by
  unfold mapObjectPre1
  apply fsim_updAll
  simp only [List.forall_mem_cons]
  refine ⟨?_, ?_, ?_, ?_, ?_, ?_⟩
  · exact fsim_upd (fsim_unless (fsim_asValuesBytes mono_mapModel)) (keeps_unless (noTup_asValuesBytes _)) _
  · exact fsim_upd (fsim_unless (fsim_asValuesBytes (mono_noneOr' mono_connector)))
      (keeps_unless (noTup_asValuesBytes _)) _
  · exact fsim_upd (fsim_unless (fsim_asValuesBytes mono_buildProcess)) (keeps_unless (noTup_asValuesBytes _)) _
  · exact fsim_upd (fsim_unless (fsim_asValuesBytes (mono_noneOr' fun p q h => mono_concrete hw h)))
      (keeps_unless (noTup_asValuesBytes _)) _
  · exact fsim_upd (fsim_forEach fsim_moduleMapPre1) (keeps_forEach _) _
  · intro f hf; cases hf

/-- The custom encoders do not distinguish a value from its image under JSON. -/
theorem fsim_pre (c : CodecId) {wp : Val → Except Err Bytes} (hw : Mono false wp) :
    FSim false (c.pre wp) (c.pre wp) := by
  cases c
  case group => exact fsim_delThen (fsim_upd (fsim_forEach fsim_groupPre1) (keeps_forEach _) _)
  case character => exact fsim_encodeValue fun a b h => mono_character hw h
  case itemContainer => exact fsim_encodeValue (mono_noneOr' mono_itemContainer)
  case itemContainerSlots => exact fsim_encodeValue (mono_noneOr' mono_itemContainerSlots)
  case characterContainer => exact fsim_encodeValue (mono_noneOr' mono_charContainer)
  case dynamicItem => exact fsim_encodeValue (mono_noneOr' fun a b h => mono_dynamicItem hw h)
  case foliageModel => exact fsim_encodeValue mono_foliageModel
  case foliageModelInstance => exact fsim_encodeValue (mono_foliageInstance false)
  case baseCamp => exact fsim_encodeValue mono_baseCamp
  case workerDirector => exact fsim_encodeValue mono_workerDirector
  case workCollection => exact fsim_encodeValue mono_workCollection
  case baseCampModule => exact fsim_delThen (fsim_upd (fsim_forEach fsim_campModulePre1) (keeps_forEach _) _)
  case work => exact fsim_delThen (fsim_upd (fsim_forEach fsim_workPre1) (keeps_forEach _) _)
  case mapObject => exact fsim_delThen (fsim_upd (fsim_forEach (fsim_mapObjectPre1 hw)) (keeps_forEach _) _)
  case debug => exact fun a b hs x hx => sim_del hs hx
  case connector => exact fsim_encodeValue (mono_noneOr' mono_connector)
  case buildProcess => exact fsim_encodeValue mono_buildProcess
  case mapModel => exact fsim_encodeValue mono_mapModel

end Pal
