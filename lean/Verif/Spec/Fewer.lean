import Verif.Model.Gvas
import Mathlib.Data.List.Forall2
/-
Reading the same file with fewer decoders.
-/

namespace Pal
namespace Spec

/-- The decoder `c`, registered under `path`, makes `d` of the property `d0`.  (`n` is the budget of the model for the lists of
properties inside raw data; any that is large enough will do.) -/
def Made (cfg : Cfg) (path : PyStr) (c : CodecId) (d0 d : Val) : Prop :=
  ∃ m, ∀ n, m ≤ n → ∃ w w', c.post cfg.allowNan (rProps cfg n []) d0 = .ok w ∧ w.set (P "custom_type") (.str path) = .ok w' ∧
    w'.set (P "type") (.str (P c.propType)) = .ok d

/-- The second document is the first one, read with the decoders of `cfg'` instead of those of `cfg`: everywhere the same, except that
a property whose decoder is left out is as it was before decoding, and that a decoder that is kept has worked on the same
property (which matters if there are decoded properties inside the raw data). -/
inductive Fewer (cfg cfg' : Cfg) : Val → Val → Prop
  | same (v : Val) : Fewer cfg cfg' v v
  | list {l l' : List Val} : List.Forall₂ (Fewer cfg cfg') l l' → Fewer cfg cfg' (.list l) (.list l')
  | dict {d d' : Dict} : d.map Prod.fst = d'.map Prod.fst → List.Forall₂ (Fewer cfg cfg') (d.map Prod.snd) (d'.map Prod.snd) →
      Fewer cfg cfg' (.dict d) (.dict d')
  | left_out {p : PyStr} {c : CodecId} {d0 d : Val} : cfg.custom p = some c → cfg'.custom p = none → Made cfg p c d0 d →
      Fewer cfg cfg' d d0
  | kept {p : PyStr} {c : CodecId} {d0 d d' : Val} : cfg.custom p = some c → cfg'.custom p = some c → Made cfg p c d0 d →
      Made cfg' p c d0 d' → Fewer cfg cfg' d d'

/-- No decoder is registered for a property inside another one that is decoded: no path is a path with a dot and more names after it.
(So it is in Palworld's table.) -/
def Apart (custom : PyStr → Option CodecId) : Prop :=
  ∀ p c r, custom p = some c → custom (p ++ dot ++ r) = none

end Spec
end Pal
