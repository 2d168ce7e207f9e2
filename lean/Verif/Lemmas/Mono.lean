import Verif.Lemmas.Sim
import Verif.Model.Codec
/-
The blob encoders do not distinguish a value and its image under JSON.
-/

namespace Pal
open Spec

theorem mono_itemAndNum : Mono false itemAndNumEncode := by
  intro a b h
  unfold itemAndNumEncode
  mono_tac

theorem mono_guildPlayer : Mono false guildPlayerEncode := by
  intro a b h
  unfold guildPlayerEncode
  mono_tac

theorem mono_guildPlayers : Mono false guildPlayersEncode := by
  intro a b h r hr
  unfold guildPlayersEncode at hr ⊢
  cases hl : a.seqItems with
  | error e => rw [hl] at hr; cases hr
  | ok l =>
    obtain ⟨l', hl', hs⟩ := sim_seqItems h hl
    rw [hl] at hr
    rw [hl']
    simp only at hr ⊢
    rw [simL_length hs]
    exact le_wcat_cons (le_refl _) (le_wcat_cons (le_wItems mono_guildPlayer hs) (le_refl _)) r hr

theorem mono_group : Mono false groupEncode := by
  intro a b h
  unfold groupEncode
  have h2 := mono_tarray (mono_instanceId false)
  have h3 := mono_tarray (mono_guid false)
  refine le_wcat_cons ?_ (le_wcat_cons ?_ (le_wcat_cons (le_wAt h2 h _) (le_wcat_cons ?_ (le_refl _))))
  · clear h2 h3; mono_tac
  · clear h2 h3; mono_tac
  · clear h2
    apply le_wAt _ h
    intro x y hxy
    refine le_wcat_cons ?_ (le_wcat_cons ?_ (le_wcat_cons ?_ (le_wcat_cons ?_ (le_refl _))))
    · refine le_ite (sim_isAny hxy _ (by decide +kernel)) (le_wcat_cons ?_ (le_wcat_cons (le_wAt h3 h _) (le_refl _)))
        (le_refl _)
      clear h3; mono_tac
    · refine le_ite (sim_isAny hxy _ (by decide +kernel)) (le_wcat_cons ?_ (le_wcat_cons (le_wAt h3 h _)
        (le_wcat_cons ?_ (le_refl _)))) (le_refl _)
      all_goals clear h3; mono_tac
    · clear h3
      apply le_ite (sim_isS hxy _ (by decide +kernel)); all_goals mono_tac
    · refine le_ite (sim_isS hxy _ (by decide +kernel)) (le_wcat_cons ?_
        (le_wcat_cons (le_wAt mono_guildPlayers h _) (le_refl _))) (le_refl _)
      clear h3; mono_tac

theorem mono_charContainer : Mono false charContainerEncode := by
  intro a b h
  unfold charContainerEncode
  mono_tac

theorem mono_permission : Mono false permissionEncode := by
  intro a b h
  unfold permissionEncode
  mono_tac

theorem mono_itemContainer : Mono false itemContainerEncode := mono_permission

theorem mono_itemContainerSlots : Mono false itemContainerSlotsEncode := by
  intro a b h
  unfold itemContainerSlotsEncode
  refine le_wcat_cons (mono_permission _ _ h) ?_
  mono_tac

theorem mono_foliageModel : Mono false foliageModelEncode := by
  intro a b h
  unfold foliageModelEncode
  mono_tac

theorem mono_baseCamp : Mono false baseCampEncode := by
  intro a b h
  unfold baseCampEncode
  have h1 := mono_ftransform false
  mono_tac

theorem mono_workerDirector : Mono false workerDirectorEncode := by
  intro a b h
  unfold workerDirectorEncode
  have h1 := mono_ftransform false
  mono_tac

theorem mono_workCollection : Mono false workCollectionEncode := by
  intro a b h
  unfold workCollectionEncode
  mono_tac

theorem mono_mapModel : Mono false mapModelEncode := by
  intro a b h
  unfold mapModelEncode
  have h1 := mono_ftransform false
  mono_tac

theorem mono_connectInfo : Mono false connectInfoEncode := by
  intro a b h
  unfold connectInfoEncode
  mono_tac

theorem mono_otherConnector : Mono false otherConnectorEncode := by
  intro a b h
  unfold otherConnectorEncode
  have h1 := mono_connectInfo
  mono_tac

theorem le_contains {a b : Val} (h : Sim false a b) (k : String) (hk : notHex k = true)
    {f g f' g' : Except Err Bytes} (hf : Le f f') (hg : Le g g') :
    Le (match a.contains (P k) with
      | .error e => .error e
      | .ok false => f
      | .ok true => g) (match b.contains (P k) with
      | .error e => .error e
      | .ok false => f'
      | .ok true => g') := by
  intro r hr
  cases hc : a.contains (P k) with
  | error e => rw [hc] at hr; cases hr
  | ok c =>
    rw [hc] at hr
    rw [sim_contains h k hk hc]
    cases c
    · exact hf r hr
    · exact hg r hr

theorem mono_connector : Mono false connectorEncode := by
  intro a b h
  unfold connectorEncode
  have h1 := mono_connectInfo
  refine le_wcat_cons ?_ (le_wcat_cons ?_ (le_wcat_cons ?_ (le_wcat_cons ?_ (le_refl _))))
  · mono_tac
  · mono_tac
  · mono_tac
  · refine le_contains h _ (by decide +kernel) (le_refl _) (le_wAt ?_ h _)
    intro x y hxy r hr
    cases hl : x.iterItems with
    | error e => simp only [hl] at hr; cases hr
    | ok l =>
      obtain ⟨l', hl', hs⟩ := sim_iterItems hxy hl
      simp only [hl, hl'] at hr ⊢
      exact le_wItems mono_otherConnector hs r hr

theorem mono_buildProcess : Mono false buildProcessEncode := by
  intro a b h
  unfold buildProcessEncode
  mono_tac

theorem mono_slotIndexes : Mono false slotIndexesEncode := by
  intro a b h
  unfold slotIndexesEncode
  mono_tac

theorem mono_lockInfo : Mono false lockInfoEncode := by
  intro a b h
  unfold lockInfoEncode
  mono_tac

theorem mono_concreteModule {t t' : Val} (ht : Sim false t t') {a b : Val} (h : Sim false a b) :
    Le (concreteModuleEncode t a) (concreteModuleEncode t' b) := by
  unfold concreteModuleEncode
  have h1 := mono_slotIndexes
  have h2 := mono_lockInfo
  repeat' (first
    | apply le_ite (sim_isS ht _ (by decide +kernel)))
  all_goals mono_tac

theorem mono_transportInfo : Mono false transportInfoEncode := by
  intro a b h
  unfold transportInfoEncode
  have h1 := mono_itemAndNum
  have h2 := mono_vectorDict false
  mono_tac

theorem mono_passiveEffect : Mono false passiveEffectEncode := by
  intro a b h
  unfold passiveEffectEncode
  refine le_wcat_cons (by mono_tac) (le_wcat_cons ?_ (le_refl _))
  apply le_wAt _ h
  intro x y hxy
  apply le_ite (sim_isI hxy _)
  all_goals mono_tac

theorem mono_campModule {t t' : Val} (ht : Sim false t t') {a b : Val} (h : Sim false a b) :
    Le (campModuleEncode t a) (campModuleEncode t' b) := by
  unfold campModuleEncode
  have h1 := mono_transportInfo
  have h2 := mono_passiveEffect
  apply le_ite (sim_isAny ht _ (by decide +kernel)) (le_refl _)
  repeat' (first
    | apply le_ite (sim_isS ht _ (by decide +kernel)))
  all_goals mono_tac

theorem mono_assignLocation : Mono false assignLocationEncode := by
  intro a b h
  unfold assignLocationEncode
  have h2 := mono_vectorDict false
  mono_tac

theorem mono_workBase : Mono false workBaseEncode := by
  intro a b h
  unfold workBaseEncode
  have h1 := mono_assignLocation
  have h2 := mono_vectorDict false
  have h3 := mono_quatDict false
  mono_tac

theorem mono_workExtra {t t' : Val} (ht : Sim false t t') {a b : Val} (h : Sim false a b) :
    Le (workExtraEncode t a) (workExtraEncode t' b) := by
  unfold workExtraEncode
  repeat' (first
    | apply le_ite (sim_isS ht _ (by decide +kernel)))
  all_goals mono_tac

theorem mono_workAssign {t t' : Val} (ht : Sim false t t') {a b : Val} (h : Sim false a b) :
    Le (workAssignEncode t a) (workAssignEncode t' b) := by
  unfold workAssignEncode
  iterate 7 (refine le_wcat_cons (by mono_tac) ?_)
  refine le_wcat_cons ?_ (le_refl _)
  apply le_ite (sim_isS ht _ (by decide +kernel))
  all_goals mono_tac

theorem mono_workTransform : Mono false workTransformEncode := by
  intro a b h
  unfold workTransformEncode
  have h1 := mono_ftransform false
  have h2 := mono_vectorDict false
  have h3 := mono_quatDict false
  apply le_wAt _ h
  intro x y hxy
  refine le_wcat_cons (mono_byte _ _ _ hxy) (le_wcat_cons ?_ (le_refl _))
  refine le_ite (sim_isI hxy _) ?_ (le_ite (sim_isI hxy _) ?_ (le_ite (sim_isI hxy _) ?_ ?_))
  · apply le_wAt _ h
    intro u v huv
    refine le_contains huv _ (by decide +kernel) ?_ (h1 _ _ huv)
    mono_tac
  all_goals mono_tac

theorem mono_work {t t' : Val} (ht : Sim false t t') (hn : NT (P "value") t t') {a b : Val} (h : Sim false a b) :
    Le (workEncode t a) (workEncode t' b) := by
  unfold workEncode
  refine le_wcat_cons ?_ (le_wcat_cons (mono_workTransform _ _ h) (le_refl _))
  have key : Le
      (if t.isAny workBaseTypes then wcat [workBaseEncode a, workExtraEncode t a]
        else if t.isAny workAssignTypes then workAssignEncode t a else .ok [])
      (if t'.isAny workBaseTypes then wcat [workBaseEncode b, workExtraEncode t' b]
        else if t'.isAny workAssignTypes then workAssignEncode t' b else .ok []) :=
    le_ite (sim_isAny ht _ (by decide +kernel))
      (le_wcat_cons (mono_workBase _ _ h) (le_wcat_cons (mono_workExtra ht h) (le_refl _)))
      (le_ite (sim_isAny ht _ (by decide +kernel)) (mono_workAssign ht h) (le_refl _))
  rcases hn rfl with rfl | hnt
  · cases t <;> first | exact key | exact le_error _ _
  · cases ht <;> first | exact key | exact le_error _ _ | exact absurd rfl (hnt _)

theorem mono_workAssignBytes : Mono false workAssignBytesEncode := by
  intro a b h
  unfold workAssignBytesEncode
  mono_tac

theorem mono_character {wp wp' : Val → Except Err Bytes} (hw : ∀ a b, Sim false a b → Le (wp a) (wp' b))
    {a b : Val} (h : Sim false a b) : Le (characterEncode wp a) (characterEncode wp' b) := by
  unfold characterEncode
  refine le_wcat_cons (le_wAt hw h _) ?_
  mono_tac

theorem mono_dynamicItem {wp wp' : Val → Except Err Bytes} (hw : ∀ a b, Sim false a b → Le (wp a) (wp' b))
    {a b : Val} (h : Sim false a b) : Le (dynamicItemEncode wp a) (dynamicItemEncode wp' b) := by
  unfold dynamicItemEncode
  iterate 3 (refine le_wcat_cons (by mono_tac) ?_)
  refine le_wcat_cons ?_ (le_refl _)
  apply le_wAt _ h
  intro x y hxy
  refine le_ite (sim_isS hxy _ (by decide +kernel)) (by mono_tac) ?_
  refine le_ite (sim_isS hxy _ (by decide +kernel)) ?_ ?_
  · refine le_wcat_cons (by mono_tac) (le_wcat_cons (le_wAt hw h _) ?_)
    mono_tac
  refine le_ite (sim_isS hxy _ (by decide +kernel)) (by mono_tac) ?_
  refine le_ite (sim_isS hxy _ (by decide +kernel)) (by mono_tac) (le_refl _)

theorem mono_concreteBody {wp wp' : Val → Except Err Bytes} (hw : ∀ a b, Sim false a b → Le (wp a) (wp' b))
    {t t' : Val} (ht : Sim false t t') {a b : Val} (h : Sim false a b) :
    Le (concreteBodyEncode wp t a) (concreteBodyEncode wp' t' b) := by
  unfold concreteBodyEncode
  have h1 := mono_itemAndNum
  apply le_ite (sim_isAny ht _ (by decide +kernel)) (le_refl _)
  repeat' (first
    | apply le_ite (sim_isS ht _ (by decide +kernel)))
  all_goals mono_tac
  exact le_contains h _ (by decide +kernel) (le_refl _) (by mono_tac)

theorem mono_concrete {wp wp' : Val → Except Err Bytes} (hw : ∀ a b, Sim false a b → Le (wp a) (wp' b))
    {a b : Val} (h : Sim false a b) : Le (concreteEncode wp a) (concreteEncode wp' b) := by
  unfold concreteEncode
  apply le_wAt _ h
  intro x y hxy
  refine le_wcat_cons (by mono_tac) (le_wcat_cons (by mono_tac) (le_wcat_cons (mono_concreteBody hw hxy h) (le_refl _)))

end Pal
