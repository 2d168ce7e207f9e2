import Verif.Spec.Custom
/-
Save files as a whole: a header, a property tree and a trailer.
-/

namespace Pal.Spec
open Pal

/-- A save file. -/
structure File (m : Mode) where
  header : Header
  props : Props m
  trailer : Bytes

variable {m : Mode}

/-- The bytes of a save file. -/
def File.enc (f : File m) : Bytes := f.header.enc ++ encProps f.props ++ f.trailer

/-- Well-formed files for a configuration (type hints and enabled custom properties): the
property names of every list are distinct and not "None", counts fit, the raw data at the
paths of custom properties holds the records they understand, and the sizes fit. -/
def File.Wf (cfg : Cfg) (f : File m) : Prop :=
  (SVal.props f.props).Wf cfg (Canon cfg) [] ∧ (encProps f.props).length < 2 ^ 64

/-- `A` enables some of the custom properties `B` enables, and agrees with it otherwise. -/
structure Selects (A B : Cfg) : Prop where
  hint : A.hint = B.hint
  nan : A.allowNan = B.allowNan
  custom : ∀ p c, A.custom p = some c → B.custom p = some c

end Pal.Spec
