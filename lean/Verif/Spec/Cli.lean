import Verif.Model.Cli
import Verif.Spec.JsonText
/-
Vocabulary for the command line: consent, and the laws of the libraries that are not
modelled.
-/

namespace Pal.Spec
open Pal

/-- A reply that means yes. -/
def Yes (r : PyStr) : Prop := r = P "y" ∨ r = P "Y"
/-- A reply that means no. -/
def No (r : PyStr) : Prop := r = P "n" ∨ r = P "N"

/-- The first clear reply is yes. -/
def Consents (replies : List PyStr) : Prop :=
  ∃ pre r post, replies = pre ++ r :: post ∧ (∀ s ∈ pre, ¬ Yes s ∧ ¬ No s) ∧ Yes r

/-- The user says yes to `n` questions, one after the other: the first clear reply to each is yes. -/
def ConsentsTo : Nat → List PyStr → Prop
  | 0, _ => True
  | n + 1, replies => ∃ pre r post, replies = pre ++ r :: post ∧ (∀ s ∈ pre, ¬ Yes s ∧ ¬ No s) ∧ Yes r ∧ ConsentsTo n post

/-- What is assumed of zlib and of `repr`: decompression undoes compression; the text of a finite
float is a JSON number that is read as this float. -/
structure ExtLaws (ext : Ext) : Prop where
  zlib : ∀ b, ext.z.decompress (ext.z.compress b) = some b
  repr : ReprLaw ext.repr

end Pal.Spec
