import Verif.Lemmas.Blobs
import Verif.Props.Packed
/-
foliage_model_instance blobs.
-/

set_option linter.unusedSimpArgs false

namespace Pal
open Spec

theorem le_numOf {bs : Bool} {a b : Val} (h : Sim bs a b) : Le (numOf a) (numOf b) := by
  cases h <;> first | exact le_error _ _ | exact le_refl _

theorem le_shortOf {bs : Bool} {a b : Val} (h : Sim bs a b) : Le (shortOf a) (shortOf b) := by
  cases h <;> first | exact le_error _ _ | exact le_refl _

theorem le_ebind {α β : Type} {x y : Except Err α} {f : α → Except Err β} (h : Le x y) :
    Le (x >>= f) (y >>= f) := by
  intro r hr
  cases hx : x with
  | error e => rw [hx] at hr; cases hr
  | ok a => rw [h a hx]; rw [hx] at hr; exact hr

theorem le_ebind' {α β : Type} {x : Except Err α} {f g : α → Except Err β} (h : ∀ a, Le (f a) (g a)) :
    Le (x >>= f) (x >>= g) := by
  intro r hr
  cases hx : x with
  | error e => rw [hx] at hr; cases hr
  | ok a => rw [hx] at hr; exact h a r hr

theorem le_trans {α : Type} {x y z : Except Err α} (h : Le x y) (h' : Le y z) : Le x z :=
  fun r hr => h' r (h r hr)

theorem le_wRotator {bs : Bool} {a b c a' b' c' : Val} (h1 : Sim bs a a') (h2 : Sim bs b b') (h3 : Sim bs c c') :
    Le (wRotator a b c) (wRotator a' b' c') := by
  unfold wRotator
  refine le_trans (le_ebind (le_shortOf h1)) (le_ebind' fun _ => ?_)
  refine le_trans (le_ebind (le_shortOf h2)) (le_ebind' fun _ => ?_)
  exact le_ebind (le_shortOf h3)

theorem le_wPackedVector {bs : Bool} (k : Nat) {a b c a' b' c' : Val} (h1 : Sim bs a a') (h2 : Sim bs b b')
    (h3 : Sim bs c c') : Le (wPackedVector k a b c) (wPackedVector k a' b' c') := by
  unfold wPackedVector
  refine le_trans (le_ebind (le_numOf h1)) (le_ebind' fun _ => ?_)
  refine le_trans (le_ebind (le_numOf h2)) (le_ebind' fun _ => ?_)
  exact le_ebind (le_numOf h3)

theorem le_wAt3 {bs : Bool} {w : Val → Val → Val → Except Err Bytes}
    (hw : ∀ {a b c a' b' c'}, Sim bs a a' → Sim bs b b' → Sim bs c c' → Le (w a b c) (w a' b' c'))
    {a b : Val} (h : Sim bs a b) (ks : List String) (k1 k2 k3 : String) :
    Le (wAt3 a ks k1 k2 k3 w) (wAt3 b ks k1 k2 k3 w) := by
  intro r hr
  simp only [wAt3] at hr ⊢
  cases p1 : a.path (ks.map P ++ [P k1]) with
  | error e => rw [p1] at hr; cases hr
  | ok x =>
    rw [p1] at hr
    obtain ⟨x', q1, s1⟩ := sim_path _ h p1
    rw [q1]
    cases p2 : a.path (ks.map P ++ [P k2]) with
    | error e => rw [p2] at hr; cases hr
    | ok y =>
      rw [p2] at hr
      obtain ⟨y', q2, s2⟩ := sim_path _ h p2
      rw [q2]
      cases p3 : a.path (ks.map P ++ [P k3]) with
      | error e => rw [p3] at hr; cases hr
      | ok z =>
        rw [p3] at hr
        obtain ⟨z', q3, s3⟩ := sim_path _ h p3
        rw [q3]
        exact hw s1 s2 s3 r hr

theorem mono_foliageInstance (bs : Bool) : Mono bs foliageInstanceEncode := by
  intro a b h
  unfold foliageInstanceEncode
  refine le_wcat_cons (le_wAt (fun _ _ h => mono_guid _ _ _ h) h _) ?_
  refine le_wcat_cons (le_wAt3 le_wRotator h _ _ _ _) ?_
  refine le_wcat_cons (le_wAt3 (le_wPackedVector 1) h _ _ _ _) ?_
  refine le_wcat_cons (le_wAt (fun _ _ h => mono_float _ _ _ h) h _) ?_
  exact le_wcat_cons (le_wAt (fun _ _ h => mono_i32 _ _ _ h) h _) le_wcat_nil

/-- The value the tool shows. -/
def foliageVal {m : Mode} (f : FoliageInst m) : Val :=
  f.valWith (angleOf f.pitch.toNat) (angleOf f.yaw.toNat) (angleOf f.roll.toNat)
    (intDiv f.x 1) (intDiv f.y 1) (intDiv f.z 1)

theorem minWidth_unique {k k' : Nat} {x y z : Int} (h : MinWidth k x y z) (h' : MinWidth k' x y z) : k = k' := by
  rcases Nat.lt_trichotomy k k' with c | c | c
  · exact absurd h.2.1 (h'.2.2 k h.1 c)
  · exact c
  · exact absurd h'.2.1 (h.2.2 k' h'.1 c)

theorem int_component {v : Int} (h : |(v : ℚ)| < 2 ^ 52) :
    Finite64 (intDiv v 1) ∧ value64 (intDiv v 1) = v ∧ Component (.float (intDiv v 1)) v := by
  have hv : v.natAbs < 2 ^ 53 := by
    have h2 : (|v| : Int) < 2 ^ 52 := by exact_mod_cast h
    rw [Int.abs_eq_natAbs] at h2
    omega
  obtain ⟨h1, h2⟩ := intDiv_one_exact v (by omega)
  refine ⟨h1, h2, .inr ⟨_, rfl, h1, by rw [h2]; exact h, by rw [h2]; exact isTrunc_int v⟩⟩

theorem foliage_packed {m : Mode} (f : FoliageInst m) :
    f.width ≤ 53 ∧ wPackedVector 1 (.float (intDiv f.x 1)) (.float (intDiv f.y 1)) (.float (intDiv f.z 1)) =
      .ok (encPacked f.width f.x f.y f.z) := by
  obtain ⟨k, h1, h2, h3⟩ := packed_write _ _ _ f.x f.y f.z (int_component f.hsmall.1).2.2
    (int_component f.hsmall.2.1).2.2 (int_component f.hsmall.2.2).2.2
  have := minWidth_unique h1 f.hwidth
  subst this
  exact ⟨h2, h3⟩

theorem foliageInstance_read {m : Mode} (f : FoliageInst m) (rest : Bytes) :
    foliageInstanceDecode m.an (f.enc ++ rest) = fin (foliageVal f) rest := by
  have h1 := rotator_read f.pitch.toNat f.yaw.toNat f.roll.toNat f.pitch.isLt f.yaw.isLt f.roll.isLt
  have h2 := packed_read m.an f.width f.x f.y f.z f.hwidth.1 (foliage_packed f).1 f.hwidth.2.1.1 f.hwidth.2.1.2.1
    f.hwidth.2.1.2.2
  simp only [foliageInstanceDecode, FoliageInst.enc, rd, h1, h2]
  rfl

theorem foliageInstance_write {m : Mode} (f : FoliageInst m) :
    foliageInstanceEncode (foliageVal f) = .ok f.enc := by
  have h1 := rotator_write f.pitch.toNat f.yaw.toNat f.roll.toNat f.pitch.isLt f.yaw.isLt f.roll.isLt
  have h2 := (foliage_packed f).2
  simp [foliageInstanceEncode, foliageVal, FoliageInst.valWith, FoliageInst.enc, wAt3, Val.path, wr, h1, h2]

theorem jfloat_finite (an : Bool) {b : BitVec 64} (h : Finite64 b) : JOk an (.float b) := by
  simp only [JOk, JFloat]
  exact ⟨fun hn => absurd hn.1 h, fun hn => absurd hn.1 h⟩

theorem foliageInstance_jok {m : Mode} (hj : m.json = true) (f : FoliageInst m) : JOk m.an (foliageVal f) := by
  have a1 := jfloat_finite m.an (angleOf_value _ f.pitch.isLt).1
  have a2 := jfloat_finite m.an (angleOf_value _ f.yaw.isLt).1
  have a3 := jfloat_finite m.an (angleOf_value _ f.roll.isLt).1
  have a4 := jfloat_finite m.an (int_component f.hsmall.1).1
  have a5 := jfloat_finite m.an (int_component f.hsmall.2.1).1
  have a6 := jfloat_finite m.an (int_component f.hsmall.2.2).1
  unfold foliageVal FoliageInst.valWith
  jok_tac

theorem foliageInstance_shows {m : Mode} (f : FoliageInst m) : f.Shows (foliageVal f) := by
  refine ⟨_, _, _, _, _, _, rfl, ?_, ?_, ?_, (int_component f.hsmall.1).2.1, (int_component f.hsmall.2.1).2.1,
    (int_component f.hsmall.2.2).2.1⟩
  · rw [(angleOf_value _ f.pitch.isLt).2]; ring
  · rw [(angleOf_value _ f.yaw.isLt).2]; ring
  · rw [(angleOf_value _ f.roll.isLt).2]; ring

end Pal
