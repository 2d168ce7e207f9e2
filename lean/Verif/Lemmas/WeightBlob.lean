import Verif.Lemmas.Weight
/-
What the decoders make of a blob: at most eight values for each byte, and sixty more.
-/

namespace Pal
namespace Weight
open Spec

/-- A decoder of a blob. -/
def Blob (x : R Val) : Prop := Paid true x fun v => weight v - 60

section
variable {rec : R Val} (hr : Paid true rec fun v => weight v + 31)
include hr

theorem blob_character : Blob (characterDecode rec) :=
  paid_bind hr fun _ => paid_bind (paid_byteList 4) fun _ => paid_bind paid_guid fun _ => paid_bind paid_eof fun _ => paid_pure (by pay)

/-- The entries of a dict. -/
theorem paid_egg : Paid true (eggDecode rec) fun d => weightD d - 2 :=
  paid_bind paid_str fun _ => paid_bind hr fun _ => paid_bind (paid_byteList 4) fun _ => paid_bind paid_guid fun _ =>
    paid_bind paid_eof fun _ => paid_pure (by pay)

theorem paid_tryEgg : Paid true (tryEgg rec) fun o => (o.elim 0 weightD) - 2 :=
  paid_try (paid_bind (paid_egg hr) fun _ => paid_pure (by simp)) fun _ => paid_ite paid_fail (paid_pure (by simp))

theorem paid_dynamicRest (an : Bool) : Paid true (dynamicRest an rec) fun d => weightD d - 2 := by
  refine paid_bind (paid_tryEgg hr) fun o => paid_bind paid_remaining fun n => ?_
  cases o with
  | some d => exact paid_pure (by simp)
  | none =>
    refine paid_ite ?_ (paid_try ?_ fun _ => ?_)
    · exact paid_bind (paid_float an) fun _ => paid_bind paid_eof fun _ => paid_pure (by pay)
    · exact paid_bind (paid_float an) fun _ => paid_bind (paid_signed 4) fun _ => paid_bind (paid_array (paid_val paid_str)) fun _ =>
        paid_bind paid_eof fun _ => paid_pure (by pay)
    · exact paid_bind paid_toEnd fun _ => paid_pure (by pay)

theorem blob_dynamicItem (an : Bool) : Blob (dynamicItemDecode an rec) := by
  refine paid_bind (m := fun v => weight v - 2) ?_ fun i => paid_bind (paid_dynamicRest hr an) fun d => paid_pure ?_
  · exact paid_bind paid_guid fun _ => paid_bind paid_guid fun _ => paid_bind paid_str fun _ => paid_pure (by pay)
  · pay

end

theorem blob_charContainer : Blob charContainerDecode :=
  paid_bind paid_guid fun _ => paid_bind paid_guid fun _ => paid_bind (paid_unsigned 1) fun _ => paid_bind paid_eof fun _ => paid_pure (by pay)

theorem paid_permission : Paid true permissionDecode fun v => weight v :=
  paid_bind (paid_array (paid_val paid_byteVal)) fun _ => paid_bind (paid_array (paid_val paid_byteVal)) fun _ =>
    paid_bind (paid_array (paid_val paid_str)) fun _ => paid_pure (by pay)

theorem blob_itemContainer : Blob itemContainerDecode :=
  paid_bind paid_permission fun _ => paid_bind paid_eof fun _ => paid_pure (by pay)

theorem blob_itemContainerSlots (an : Bool) : Blob (itemContainerSlotsDecode an) :=
  paid_bind paid_permission fun _ => paid_bind (paid_float an) fun _ => paid_bind paid_eof fun _ => paid_pure (by pay)

theorem blob_foliageModel : Blob foliageModelDecode :=
  paid_bind paid_str fun _ => paid_bind (paid_unsigned 1) fun _ => paid_bind (paid_signed 8) fun _ => paid_bind (paid_signed 8) fun _ =>
    paid_bind (paid_signed 8) fun _ => paid_bind paid_eof fun _ => paid_pure (by pay)

theorem paid_angle : Paid true rShortAngle fun _ => 0 :=
  paid_bind paid_bool fun _ => paid_ite (paid_mono (paid_unsigned 2) fun _ => by simp) (paid_pure (by simp))

/-- The number of values in three. -/
def three (p : Val × Val × Val) : Nat := weight p.1 + weight p.2.1 + weight p.2.2

theorem paid_rotator : Paid true rRotator fun p => three p - 3 :=
  paid_bind paid_angle fun _ => paid_bind paid_angle fun _ => paid_bind paid_angle fun _ => paid_pure (by simp [three, weight])

theorem paid_serializeInt (k : Nat) : Paid true (rSerializeInt k) fun _ => 0 :=
  paid_bind (paid_read0 _) fun _ => paid_ite (paid_bind (paid_lift fun _ _ => rfl) fun _ => paid_pure rfl) (paid_pure rfl)

theorem paid_packed (an : Bool) (k : Nat) : Paid true (rPackedVector an k) fun p => three p - 3 := by
  refine paid_bind (paid_unsigned 4) fun info => ?_
  refine paid_ite (paid_bind (paid_serializeInt _) fun x => paid_bind (paid_serializeInt _) fun y => paid_bind (paid_serializeInt _) fun z => ?_)
    (paid_ite ?_ ?_)
  · exact paid_ite (paid_pure (by simp [three, weight])) (paid_pure (by simp [three, weight]))
  · exact paid_bind (paid_double an) fun _ => paid_bind (paid_double an) fun _ => paid_bind (paid_double an) fun _ => paid_pure (by
      simp only [three]; omega)
  · exact paid_bind (paid_float an) fun _ => paid_bind (paid_float an) fun _ => paid_bind (paid_float an) fun _ => paid_pure (by
      simp only [three]; omega)

theorem blob_foliageInstance (an : Bool) : Blob (foliageInstanceDecode an) := by
  refine paid_bind paid_guid fun _ => paid_bind paid_rotator fun p => paid_bind (paid_packed an 1) fun t => ?_
  obtain ⟨p1, p2, p3⟩ := p
  obtain ⟨t1, t2, t3⟩ := t
  refine paid_bind (paid_float an) fun _ => paid_bind (paid_signed 4) fun _ => paid_bind paid_eof fun _ => paid_pure ?_
  simp only [three]
  pay

theorem blob_baseCamp (an : Bool) : Blob (baseCampDecode an) :=
  paid_bind paid_guid fun _ => paid_bind paid_str fun _ => paid_bind (paid_unsigned 1) fun _ => paid_bind (paid_transform an) fun _ =>
    paid_bind (paid_float an) fun _ => paid_bind paid_guid fun _ => paid_bind (paid_transform an) fun _ => paid_bind paid_guid fun _ =>
    paid_bind paid_eof fun _ => paid_pure (by pay)

theorem blob_workerDirector (an : Bool) : Blob (workerDirectorDecode an) :=
  paid_bind paid_guid fun _ => paid_bind (paid_transform an) fun _ => paid_bind (paid_unsigned 1) fun _ =>
    paid_bind (paid_unsigned 1) fun _ => paid_bind paid_guid fun _ => paid_bind paid_eof fun _ => paid_pure (by pay)

theorem blob_workCollection : Blob workCollectionDecode :=
  paid_bind paid_guid fun _ => paid_bind (paid_array (paid_val paid_uuid)) fun _ => paid_bind paid_eof fun _ => paid_pure (by pay)

theorem blob_mapModel (an : Bool) : Blob (mapModelDecode an) :=
  paid_bind paid_guid fun _ => paid_bind paid_guid fun _ => paid_bind paid_guid fun _ => paid_bind paid_guid fun _ =>
    paid_bind (paid_signed 4) fun _ => paid_bind (paid_signed 4) fun _ => paid_bind (paid_transform an) fun _ =>
    paid_bind paid_guid fun _ => paid_bind paid_guid fun _ => paid_bind paid_guid fun _ => paid_bind paid_guid fun _ =>
    paid_bind (paid_unsigned 1) fun _ => paid_bind paid_guid fun _ => paid_bind (paid_unsigned 4) fun _ =>
    paid_bind (paid_signed 8) fun _ => paid_bind paid_eof fun _ => paid_pure (by pay)

theorem paid_connectInfo : Paid true connectInfoDecode fun v => weight v :=
  paid_bind paid_guid fun _ => paid_bind (paid_unsigned 1) fun _ => paid_pure (by pay)

theorem paid_others : ∀ n, Paid true (otherConnectors n) weightL
  | 0 => by
    intro s v s' h
    unfold otherConnectors at h
    split at h
    · cases h; exact ⟨Nat.le_refl _, fun _ => by simp [weightL]⟩
    · cases h
  | n + 1 => by
    intro s v s' h
    unfold otherConnectors at h
    split at h
    · cases h; exact ⟨Nat.le_refl _, fun _ => by simp [weightL]⟩
    · refine paid_bind (m := fun v => weight v) (t := weightL) ?_ (fun a => paid_bind (paid_others n) fun l => paid_pure ?_) _ _ _ h
      · exact paid_bind (paid_unsigned 1) fun _ => paid_bind (paid_array paid_connectInfo) fun _ => paid_pure (by pay)
      · simp only [weightL]; omega

theorem blob_connector : Blob connectorDecode := by
  refine paid_bind (paid_signed 4) fun _ => paid_bind (paid_unsigned 1) fun _ => paid_bind (paid_array paid_connectInfo) fun _ =>
    paid_bind paid_isEof fun e => paid_bind paid_remaining fun n => paid_bind (paid_others n) fun l => paid_pure ?_
  cases e <;> pay

theorem blob_buildProcess : Blob buildProcessDecode :=
  paid_bind (paid_unsigned 1) fun _ => paid_bind paid_guid fun _ => paid_bind paid_eof fun _ => paid_pure (by pay)

theorem paid_itemAndNum : Paid true itemAndNumDecode fun v => weight v :=
  paid_bind paid_str fun _ => paid_bind paid_guid fun _ => paid_bind paid_guid fun _ => paid_bind (paid_unsigned 4) fun _ => paid_pure (by pay)

theorem paid_transport (an : Bool) : Paid true (transportInfoDecode an) fun v => weight v :=
  paid_bind (paid_array paid_itemAndNum) fun _ => paid_bind (paid_vector an) fun _ => paid_pure (by pay)

theorem paid_passive : Paid true passiveEffectDecode fun v => weight v :=
  paid_bind (paid_unsigned 1) fun t => paid_ite paid_fail (paid_ite
    (paid_bind (paid_unsigned 1) fun _ => paid_bind (paid_read 4) fun u => paid_pure (by pay)) (paid_pure (by pay)))

/-- A decoder that may also return the bytes as they were. -/
def BlobOr (raw : Val) (x : R Val) : Prop :=
  ∀ s v s', x s = .ok (v, s') → weight v ≤ 60 + 8 * s.length ∨ v = dct [("values", raw)]

theorem blobOr_of {raw : Val} {x : R Val} (h : Blob x) : BlobOr raw x := fun s v s' e => .inl (by
  have := (h _ _ _ e).2 (.inl rfl)
  beta_reduce at this
  omega)

theorem blobOr_ite {raw : Val} {c : Prop} [Decidable c] {a b : R Val} (h : BlobOr raw a) (g : BlobOr raw b) :
    BlobOr raw (if c then a else b) := by
  split
  · exact h
  · exact g

theorem blobOr_raw (raw : Val) : BlobOr raw (pure (dct [("values", raw)])) := fun s v s' e => by
  cases e
  exact .inr rfl

theorem blobOr_try {raw : Val} {x : R Val} (h : BlobOr raw x) : BlobOr raw (rTry x fun _ => pure (dct [("values", raw)])) := by
  intro s v s' e
  unfold rTry at e
  split at e
  · rename_i r hr
    cases e
    exact h _ _ _ hr
  · cases e
  · exact blobOr_raw raw _ _ _ e

theorem blob_campModule (an : Bool) (mt raw : Val) : BlobOr raw (campModuleDecode an mt raw) := by
  unfold campModuleDecode
  refine blobOr_ite (blobOr_of (paid_pure (by pay))) (blobOr_ite (blobOr_try (blobOr_of ?_)) (blobOr_ite (blobOr_try (blobOr_of ?_)) (blobOr_raw raw)))
  · exact paid_bind (paid_array (paid_transport an)) fun _ => paid_pure (by pay)
  · exact paid_bind (paid_array paid_passive) fun _ => paid_pure (by pay)

theorem weightD_append (a b : List (PyStr × Val)) : weightD (a ++ b) = weightD a + weightD b := by
  induction a with
  | nil => simp [weightD]
  | cons x t ih => obtain ⟨k, v⟩ := x; simp only [List.cons_append, weightD, ih]; omega

theorem paid_assignLocation (an : Bool) : Paid true (assignLocationDecode an) fun v => weight v :=
  paid_bind (paid_vector an) fun _ => paid_bind (paid_vector an) fun _ => paid_pure (by pay)

theorem paid_workBase (an : Bool) : Paid true (workBaseDecode an) fun d => weightD d - 20 :=
  paid_bind paid_guid fun _ => paid_bind (paid_vector an) fun _ => paid_bind (paid_quat an) fun _ => paid_bind (paid_vector an) fun _ =>
    paid_bind (paid_vector an) fun _ => paid_bind (paid_double an) fun _ => paid_bind paid_guid fun _ => paid_bind paid_guid fun _ =>
    paid_bind paid_guid fun _ => paid_bind (paid_unsigned 1) fun _ => paid_bind (paid_array (paid_assignLocation an)) fun _ =>
    paid_bind (paid_unsigned 1) fun _ => paid_bind paid_str fun _ => paid_bind (paid_unsigned 1) fun _ => paid_bind (paid_unsigned 1) fun _ =>
    paid_bind (paid_unsigned 4) fun _ => paid_bind (paid_unsigned 4) fun _ => paid_bind (paid_unsigned 4) fun _ => paid_pure (by pay)

theorem paid_individual : Paid true individualIdDecode fun v => weight v - 3 :=
  paid_bind paid_guid fun _ => paid_bind paid_guid fun _ => paid_pure (by pay)

theorem paid_workExtra (an : Bool) (wt : Val) : Paid true (workExtraDecode an wt) fun d => weightD d - 3 := by
  refine paid_ite ?_ (paid_ite ?_ (paid_ite ?_ (paid_pure (by pay))))
  · exact paid_bind (paid_unsigned 1) fun _ => paid_pure (by pay)
  · exact paid_bind (paid_float an) fun _ => paid_bind (paid_signed 4) fun _ => paid_bind (paid_float an) fun _ =>
      paid_bind (paid_float an) fun _ => paid_pure (by pay)
  · exact paid_bind paid_individual fun _ => paid_pure (by pay)

theorem paid_workAssign (wt : Val) : Paid true (workAssignDecode wt) fun d => weightD d - 20 :=
  paid_bind paid_guid fun _ => paid_bind (paid_signed 4) fun _ => paid_bind (paid_unsigned 1) fun _ => paid_bind paid_individual fun _ =>
    paid_bind (paid_unsigned 1) fun _ => paid_bind (paid_unsigned 4) fun _ => paid_ite
      (paid_bind paid_guid fun _ => paid_pure (by pay)) (paid_pure (by pay))

theorem paid_workBody (an : Bool) (wt : Val) : Paid true (workBodyDecode an wt) fun d => weightD d - 23 :=
  paid_ite (paid_bind (paid_workBase an) fun _ => paid_bind (paid_workExtra an wt) fun _ => paid_pure (by rw [weightD_append]; omega))
    (paid_mono (paid_workAssign wt) fun _ => by beta_reduce; omega)

theorem paid_workTransform (an : Bool) : Paid true (workTransformDecode an) fun v => weight v - 20 := by
  refine paid_bind (paid_unsigned 1) fun t => paid_ite ?_ (paid_ite ?_ (paid_ite ?_ ?_))
  · exact paid_bind (paid_quat an) fun _ => paid_bind (paid_vector an) fun _ => paid_bind (paid_vector an) fun _ => paid_pure (by pay)
  · exact paid_bind paid_guid fun _ => paid_pure (by pay)
  · exact paid_bind paid_guid fun _ => paid_bind paid_guid fun _ => paid_pure (by pay)
  · exact paid_bind paid_toEnd fun b => paid_pure (by pay)

theorem blob_work (an : Bool) (wt raw : Val) : BlobOr raw (workDecode an wt raw) := by
  unfold workDecode
  split
  · exact fun _ _ _ h => (nomatch h)
  · exact fun _ _ _ h => (nomatch h)
  · refine blobOr_ite (blobOr_of ?_) (blobOr_raw raw)
    refine paid_bind (paid_workBody an wt) fun d => paid_bind (paid_workTransform an) fun t => paid_bind paid_eofFor fun _ => paid_pure ?_
    simp only [weight, weightD_append]
    pay

theorem blob_workAssign : Blob workAssignBytesDecode :=
  paid_bind paid_guid fun _ => paid_bind (paid_signed 4) fun _ => paid_bind (paid_unsigned 1) fun _ => paid_bind paid_individual fun _ =>
    paid_bind (paid_unsigned 1) fun _ => paid_bind (paid_unsigned 4) fun _ => paid_bind paid_eof fun _ => paid_pure (by pay)

end Weight
end Pal
