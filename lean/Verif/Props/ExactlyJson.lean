import Verif.Props.Exactly
import Verif.Props.JsonResave
/-
C78 for the conversion to JSON with custom properties.
-/

namespace Pal
open Spec

/-- C78: the same for the conversion to JSON and back, for every file that can be converted at all and that has no other NaN than
the standard one: it is unchanged exactly if it is well-formed and its decoders leave its custom properties as they are. -/
theorem C78_json_palworld (keep : String → Bool) (hk : ∀ p ∈ unsteady, keep p = false) (data : Bytes) (hd : data.length < 2 ^ 32)
    (g g' : Gvas) (b : Bytes) (d : Val) (h : gvasRead (palCfg keep true) data = .ok g)
    (hw : g.write (palCfg (fun _ => true) true) = .ok (b, g')) (hj : jsonRT true g.dump = .ok d) (hn : OneNaN g.dump) :
    (∃ g1 g2, Gvas.load d = .ok g1 ∧ g1.write (palCfg (fun _ => true) true) = .ok (data, g2)) ↔
      ∃ f : File rawMode, (SVal.props f.props).Wf (palCfg keep true) (Fixed (palCfg keep true) (palCfg (fun _ => true) true)) [] ∧
        f.enc = data := by
  rw [← C78_palworld keep hk data hd]
  obtain ⟨g1, g2, h1, h2⟩ := C55_json_is_resave _ (palCfg (fun _ => true) true) (palCfg_json keep true) true data g g' b d h hw hj hn
  constructor
  · rintro ⟨g3, g4, h3, h4⟩
    rw [h1] at h3
    cases h3
    rw [h2] at h4
    simp only [Except.ok.injEq, Prod.mk.injEq] at h4
    exact ⟨g, g', h, by rw [hw, h4.1]⟩
  · rintro ⟨g3, g4, h3, h4⟩
    rw [h] at h3
    cases h3
    rw [hw] at h4
    simp only [Except.ok.injEq, Prod.mk.injEq] at h4
    exact ⟨g1, g2, h1, by rw [h2, h4.1]⟩

/-! ### example -/

set_option maxRecDepth 40000 in
theorem tight_json : jsonResaves (palCfg steadyKeep true) (palCfg (fun _ => true) true) (rightsFile 203 105 tightRights) (rightsFile 203 105 tightRights) = true := by decide +kernel

/-- The hypotheses are met by a file with a custom property, which is unchanged. -/
example : ∃ g d g1 g2, gvasRead (palCfg steadyKeep true) (rightsFile 203 105 tightRights) = .ok g ∧ jsonRT true g.dump = .ok d ∧
    Gvas.load d = .ok g1 ∧ g1.write (palCfg (fun _ => true) true) = .ok (rightsFile 203 105 tightRights, g2) := by
  obtain ⟨g, g', d, h1, h2, h3, h4⟩ := jsonResaves_inv tight_json
  obtain ⟨g1, g2, h5, h6⟩ := (C78_json_palworld steadyKeep steadyKeep_ok _ (by decide +kernel) g g' _ d h1 h2 h3 h4).2
    ((C78_palworld steadyKeep steadyKeep_ok _ (by decide +kernel)).1 ⟨g, g', h1, h2⟩)
  exact ⟨g, d, g1, g2, h1, h3, h5, h6⟩

end Pal
