import Verif.Lemmas.Blobs3
import Verif.Lemmas.Foliage
/-
From read/write lemmas to `RoundTrips` and `RejectsMore`.
-/

namespace Pal
open Spec

variable {m : Mode}

theorem json_again {w : Val → Except Err Bytes} {v : Val} {b : Bytes} (hw : w v = .ok b)
    (hj : m.json = true → JOk m.an v) (hm : Mono false w) :
    m.json = true → ∃ v', jsonRT m.an v = .ok v' ∧ w v' = .ok b := by
  intro h
  obtain ⟨v', h1, h2⟩ := jok_json false m.an v (hj h)
  exact ⟨v', h1, hm v v' h2 b hw⟩

theorem roundTrips {x : R Val} {w : Val → Except Err Bytes} {b : Bytes} {v : Val}
    (hr : x b = .ok (v, [])) (hw : w v = .ok b) (hj : m.json = true → JOk m.an v) (hm : Mono false w) :
    RoundTrips m (fun t => runBlob t x) w b v :=
  ⟨runBlob_T hr, hw, json_again hw hj hm⟩

theorem read_fin {x : R Val} {b : Bytes} {v : Val} (h : ∀ rest, x (b ++ rest) = fin v rest) : x b = .ok (v, []) := by
  have := h []
  rwa [List.append_nil] at this

theorem read_finFor {x : R Val} {b : Bytes} {v : Val} (h : ∀ rest, x (b ++ rest) = finFor v rest) :
    x b = .ok (v, []) := by
  have := h []
  rwa [List.append_nil] at this

theorem rejects {x : R Val} {b : Bytes} {v : Val} (h : ∀ rest, x (b ++ rest) = fin v rest) :
    RejectsMore (fun t => runBlob t x) b := by
  intro extra he
  exact ⟨_, runBlob_T_error ((h extra).trans (fin_ne v he))⟩

theorem rejectsFor {x : R Val} {b : Bytes} {v : Val} (h : ∀ rest, x (b ++ rest) = finFor v rest) :
    RejectsMore (fun t => runBlob t x) b := by
  intro extra he
  exact ⟨_, runBlob_T_error ((h extra).trans (finFor_ne v he))⟩

theorem emptyOr_ne {d : Val} {x : R Val} {b : Bytes} (h : b ≠ []) :
    emptyOr d (vBytesT b) x = runBlob (vBytesT b) x := by
  rw [emptyOr, len_T]
  cases b with
  | nil => exact absurd rfl h
  | cons => rfl

theorem roundTrips_or {d : Val} {x : R Val} {w : Val → Except Err Bytes} {b : Bytes} {v : Val}
    (hb : b ≠ []) (hr : x b = .ok (v, [])) (hw : w v = .ok b) (hj : m.json = true → JOk m.an v) (hm : Mono false w) :
    RoundTrips m (fun t => emptyOr d t x) w b v :=
  ⟨emptyOr_T hb hr, hw, json_again hw hj hm⟩

theorem rejects_or {d : Val} {x : R Val} {b : Bytes} (h : RejectsMore (fun t => runBlob t x) b) :
    RejectsMore (fun t => emptyOr d t x) b := by
  intro extra he
  obtain ⟨e, h1⟩ := h extra he
  refine ⟨e, ?_⟩
  show emptyOr d _ x = _
  rw [emptyOr_ne (by simp [he])]
  exact h1

theorem mono_noneOr {w : Val → Except Err Bytes} (h : Mono false w) : Mono false (noneOr w) := by
  intro a b hs
  cases hs <;> first
    | exact le_refl _
    | exact h _ _ (by constructor; assumption)

theorem noneOr_dict (w : Val → Except Err Bytes) (d : List (String × Val)) : noneOr w (vDict d) = w (vDict d) := rfl

end Pal
