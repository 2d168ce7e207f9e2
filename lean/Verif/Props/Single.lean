import Verif.Lemmas.Single
import Verif.Props.Float
/-
C15: the numbers that floats denote.
-/

namespace Pal
open Spec

/-- C15: a finite 32-bit float is read as a Python float denoting the same number; conversely a Python float
is written as the single-precision number nearest to it (ties to even; an infinity if it is too large), and
that number is determined. -/
theorem C15_float_value :
    (∀ (b : BitVec 32) (rest : Bytes), ¬ Special32 b → ∃ d, rFloat true (lit 4 b.toNat ++ rest) = .ok (.float d, rest) ∧
      Finite64 d ∧ value64 d = value32 b) ∧
    (∀ d : BitVec 64, ∃ x, wFloat (.float d) = .ok (lit 4 x.toNat) ∧ Narrows d x ∧ ∀ y, Narrows d y → y = x) := by
  constructor
  · intro b rest h
    obtain ⟨h1, h2⟩ := f32to64_value b h
    exact ⟨_, rFloat_lit true b rest, h1, h2⟩
  · intro d
    refine ⟨f64to32 d, ?_, f64to32_narrows d, fun y hy => narrows_unique hy (f64to32_narrows d)⟩
    simp only [wFloat, asF64, lit_eq]

/-- 1.1, which has no exact single-precision form, and 1e39, which is too large. -/
example : f64to32 0x3ff199999999999a#64 = 0x3f8ccccd#32 ∧ f64to32 0x48078287f49c4a1d#64 = 0x7f800000#32 := by
  decide +kernel

end Pal
