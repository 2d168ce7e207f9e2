import Verif.Lemmas.Packed
/-
C21 and C22 packed vectors, C23 compressed rotators.
-/

namespace Pal
open Spec

/-- What `packed_vector` writes and reads back for components whose integer parts are
`x`, `y`, `z` (C22, and C21 when the components are integers): the canonical bytes of
minimal width, and on reading three floats equal to the integer parts. -/
theorem C22_packed_truncates (an : Bool) (xv yv zv : Val) (x y z : Int)
    (hx : Component xv x) (hy : Component yv y) (hz : Component zv z) :
    ∃ k, MinWidth k x y z ∧ wPackedVector 1 xv yv zv = .ok (encPacked k x y z) ∧
      ∀ rest, ∃ fx fy fz,
        rPackedVector an 1 (encPacked k x y z ++ rest) = .ok ((.float fx, .float fy, .float fz), rest) ∧
        (Finite64 fx ∧ value64 fx = x) ∧ (Finite64 fy ∧ value64 fy = y) ∧ (Finite64 fz ∧ value64 fz = z) := by
  obtain ⟨k, h1, h2, h3⟩ := packed_write xv yv zv x y z hx hy hz
  refine ⟨k, h1, h3, fun rest => ⟨_, _, _, packed_read an k x y z h1.1 h2 h1.2.1.1 h1.2.1.2.1 h1.2.1.2.2 rest, ?_⟩⟩
  obtain ⟨_, _, _, _, _, _, _, a⟩ := component_num xv x hx
  obtain ⟨_, _, _, _, _, _, _, b⟩ := component_num yv y hy
  obtain ⟨_, _, _, _, _, _, _, c⟩ := component_num zv z hz
  exact ⟨intDiv_one_exact x (by omega), intDiv_one_exact y (by omega), intDiv_one_exact z (by omega)⟩

/-- C22: a component with a fractional part is not preserved. -/
theorem C22_fraction_lost (b : BitVec 64) (h : Finite64 b) (hb : |value64 b| < 2 ^ 52)
    (hfrac : ∀ i : Int, value64 b ≠ i) :
    ∃ bytes f y z, wPackedVector 1 (.float b) (.int 0) (.int 0) = .ok bytes ∧
      rPackedVector true 1 bytes = .ok ((.float f, y, z), []) ∧ value64 f ≠ value64 b := by
  obtain ⟨t, _, ht⟩ := truncF_spec b h
  have h0 : Component (.int 0) 0 := .inl ⟨rfl, by norm_num⟩
  obtain ⟨k, _, h2, h3⟩ := C22_packed_truncates true (.float b) (.int 0) (.int 0) t 0 0
    (.inr ⟨b, rfl, h, hb, ht⟩) h0 h0
  obtain ⟨fx, fy, fz, h4, h5, _⟩ := h3 []
  rw [List.append_nil] at h4
  refine ⟨_, fx, _, _, h2, h4, ?_⟩
  rw [h5.2]
  exact fun he => hfrac t he.symm

/-- 1.5 -/
example : Finite64 0x3ff8000000000000#64 ∧ value64 0x3ff8000000000000#64 = 3 / 2 ∧
    ∀ i : Int, value64 0x3ff8000000000000#64 ≠ i := by
  have hv : value64 0x3ff8000000000000#64 = 3 / 2 := by
    rw [value64_eq, show num64 0x3ff8000000000000#64 = 6755399441055744 by decide +kernel,
      show scale64 0x3ff8000000000000#64 = -52 by decide +kernel]
    norm_num
  refine ⟨by unfold Finite64; decide, hv, fun i hi => ?_⟩
  rw [hv] at hi
  have : (3 : ℚ) = ((2 * i : Int) : ℚ) := by push_cast; linarith
  have : (3 : Int) = 2 * i := by exact_mod_cast this
  omega

/-- A component given as an integer or as a float that denotes an integer. -/
def Spec.IntComponent (v : Val) (i : Int) : Prop := v = .int i ∨ ∃ b, v = .float b ∧ Finite64 b ∧ value64 b = i

/-- C21: integer-valued components of magnitude below `2^52` survive writing and reading,
the bytes are consumed exactly, and the width stored is minimal. -/
theorem C21_packed_roundtrip (an : Bool) (xv yv zv : Val) (x y z : Int)
    (hx : IntComponent xv x) (hy : IntComponent yv y) (hz : IntComponent zv z)
    (bx : |(x : ℚ)| < 2 ^ 52) (byy : |(y : ℚ)| < 2 ^ 52) (bz : |(z : ℚ)| < 2 ^ 52) :
    ∃ k, MinWidth k x y z ∧ wPackedVector 1 xv yv zv = .ok (encPacked k x y z) ∧
      ∀ rest, ∃ fx fy fz,
        rPackedVector an 1 (encPacked k x y z ++ rest) = .ok ((.float fx, .float fy, .float fz), rest) ∧
        (Finite64 fx ∧ value64 fx = x) ∧ (Finite64 fy ∧ value64 fy = y) ∧ (Finite64 fz ∧ value64 fz = z) := by
  have key : ∀ (v : Val) (i : Int), IntComponent v i → |(i : ℚ)| < 2 ^ 52 → Component v i := by
    rintro v i (rfl | ⟨b, rfl, h1, h2⟩) hb
    · exact .inl ⟨rfl, hb⟩
    · exact .inr ⟨b, rfl, h1, by rw [h2]; exact hb, by rw [h2]; exact isTrunc_int i⟩
  exact C22_packed_truncates an xv yv zv x y z (key _ _ hx bx) (key _ _ hy byy) (key _ _ hz bz)

/-- C21: writing what was read from the canonical bytes gives the same bytes. -/
theorem C21_packed_rewrite (an : Bool) (k : Nat) (x y z : Int) (hk : MinWidth k x y z)
    (bx : |(x : ℚ)| < 2 ^ 52) (byy : |(y : ℚ)| < 2 ^ 52) (bz : |(z : ℚ)| < 2 ^ 52) :
    ∃ v, rPackedVector an 1 (encPacked k x y z) = .ok (v, []) ∧
      wPackedVector 1 v.1 v.2.1 v.2.2 = .ok (encPacked k x y z) := by
  have hi : ∀ i : Int, IntComponent (.int i) i := fun i => .inl rfl
  obtain ⟨k', m1, w1, r1⟩ := C21_packed_roundtrip an _ _ _ x y z (hi x) (hi y) (hi z) bx byy bz
  have hkk : k = k' := by
    rcases Nat.lt_trichotomy k k' with h | h | h
    · exact absurd hk.2.1 (m1.2.2 k hk.1 h)
    · exact h
    · exact absurd m1.2.1 (hk.2.2 k' m1.1 h)
  subst hkk
  obtain ⟨fx, fy, fz, h1, h2, h3, h4⟩ := r1 []
  rw [List.append_nil] at h1
  refine ⟨_, h1, ?_⟩
  obtain ⟨k2, m2, w2, _⟩ := C21_packed_roundtrip an (.float fx) (.float fy) (.float fz) x y z (.inr ⟨fx, rfl, h2⟩)
    (.inr ⟨fy, rfl, h3⟩) (.inr ⟨fz, rfl, h4⟩) bx byy bz
  have hkk : k = k2 := by
    rcases Nat.lt_trichotomy k k2 with h | h | h
    · exact absurd hk.2.1 (m2.2.2 k hk.1 h)
    · exact h
    · exact absurd m2.2.1 (hk.2.2 k2 m2.1 h)
  subst hkk
  exact w2

example : MinWidth 9 (-129) 200 0 := by
  refine ⟨by decide, by decide, ?_⟩
  intro j h1 h2
  have : j = 1 ∨ j = 2 ∨ j = 3 ∨ j = 4 ∨ j = 5 ∨ j = 6 ∨ j = 7 ∨ j = 8 := by omega
  rcases this with rfl | rfl | rfl | rfl | rfl | rfl | rfl | rfl <;> decide

example : wPackedVector 1 (.int (-129)) (.int 200) (.int 0) =
    .ok [73, 0, 0, 0, 127, 255, 200, 0, 0, 0] := by decide +kernel

/-! ### C23 -/

/-- C23: reading the canonical bytes of any three 16-bit angles gives the angles in
degrees, and writing those degrees gives the same bytes. -/
theorem C23_rotator_roundtrip (p y r : Nat) (hp : p < 65536) (hy : y < 65536) (hr : r < 65536) (rest : Bytes) :
    ∃ fp fy fr, rRotator (encRotator p y r ++ rest) = .ok ((.float fp, .float fy, .float fr), rest) ∧
      value64 fp = p * 360 / 65536 ∧ value64 fy = y * 360 / 65536 ∧ value64 fr = r * 360 / 65536 ∧
      wRotator (.float fp) (.float fy) (.float fr) = .ok (encRotator p y r) := by
  refine ⟨_, _, _, rotator_read p y r hp hy hr rest, ?_, ?_, ?_, rotator_write p y r hp hy hr⟩
  · rw [(angleOf_value p hp).2]; ring
  · rw [(angleOf_value y hy).2]; ring
  · rw [(angleOf_value r hr).2]; ring

example : encRotator 1 0 65535 = [1, 1, 0, 0, 1, 255, 255] := by decide

/-- C23: bytes that store a zero angle explicitly are read, but not written back. -/
theorem C23_noncanonical_changes :
    ∃ v, rRotator [1, 0, 0, 0, 0] = .ok (v, []) ∧ wRotator v.1 v.2.1 v.2.2 = .ok [0, 0, 0] := by
  refine ⟨(.float (angleOf 0), .float (angleOf 0), .float (angleOf 0)), rfl, ?_⟩
  exact rotator_write 0 0 0 (by decide) (by decide) (by decide)

end Pal
