import Verif.Lemmas.BoundProps
import Verif.Lemmas.Grow
import Verif.Props.Sample
/-
C06: reading always returns or raises.  C27 for arbitrary input.

The model of the reader carries a recursion budget, which the code does not have; running
out of it is the value `.error .fuel`, which no handler of the model catches.  What has to
be shown is that some budget suffices, that a larger one changes nothing, and that the
answer is then never `.fuel`: the recursion of the code is well-founded, and its depth is
at most the number of bytes.
-/

namespace Pal
open Spec

theorem ok_hdr {K N : Nat} : Ok K N hdrRead hdrRead := by
  have h : Ok K N customVersionDecode customVersionDecode := by unfold customVersionDecode; ok_tac
  have h' := ok_tarray h
  unfold hdrRead
  ok_tac

theorem readToEnd_fuel (s : Bytes) : rReadToEnd s ≠ .error .fuel := nofun

/-- C06: a property list, at any path and with any configuration, is read to an end or
rejected: there is one outcome, not `fuel`, for all budgets above the number of bytes. -/
theorem C06_list (cfg : Cfg) (path : PyStr) (data : Bytes) :
    ∃ r, r ≠ .error .fuel ∧ ∀ m, data.length < m → rProps cfg m path data = r := by
  refine ⟨rProps cfg (data.length + 1) path data, ?_, fun m hm => ?_⟩
  · exact (ok_loop cfg data.length _ (data.length + 1) path [] data.length (Nat.lt_succ_self _) (Nat.lt_succ_self _)
      (Nat.le_refl _) (by simp only [LimD]) data (Nat.le_refl _)).2.1
  · exact (ok_loop cfg data.length m (data.length + 1) path [] data.length hm (Nat.lt_succ_self _)
      (Nat.le_refl _) (by simp only [LimD]) data (Nat.le_refl _)).1

/-- C06: `GvasFile.read` ends on every input, with one outcome for all budgets above the
number of bytes. -/
theorem C06_file (cfg : Cfg) (data : Bytes) :
    ∃ r, r ≠ .error .fuel ∧ ∀ m, data.length < m → gvasReadR cfg m data = r := by
  unfold gvasReadR
  have hh := ok_hdr (K := data.length) (N := data.length) data (Nat.le_refl _)
  cases h1 : hdrRead data with
  | error e =>
    rw [h1] at hh
    exact ⟨.error e, fun h => hh.2.1 (by injection h with h; rw [h]), fun m _ => r_bind_error h1 _⟩
  | ok q =>
    obtain ⟨h, s1⟩ := q
    obtain ⟨⟨c, hc⟩, -⟩ := hh.2.2 _ _ h1
    have hl : s1.length ≤ data.length := by rw [hc, List.length_append]; omega
    obtain ⟨r, hr, hm⟩ := C06_list cfg [] s1
    cases r with
    | error e =>
      exact ⟨.error e, fun h => hr (by injection h with h; rw [h]), fun m h => by
        rw [r_bind_ok h1, r_bind_error (hm m (by omega))]⟩
    | ok q =>
      obtain ⟨v, s2⟩ := q
      exact ⟨.ok (⟨h, v, s2⟩, []), nofun, fun m h => by
        rw [r_bind_ok h1, r_bind_ok (hm m (by omega))]; rfl⟩

/-- C06: reading a file returns a file or raises one of Python's exceptions. -/
theorem C06_read (cfg : Cfg) (data : Bytes) : (∃ g, gvasRead cfg data = .ok g) ∨ ∃ e, e ≠ .fuel ∧ gvasRead cfg data = .error e := by
  obtain ⟨r, hr, hm⟩ := C06_file cfg data
  have := hm (data.length + 1) (Nat.lt_succ_self _)
  unfold gvasRead
  rw [this]
  cases r with
  | error e => exact .inr ⟨e, fun h => hr (by rw [h]), rfl⟩
  | ok q => exact .inl ⟨q.1, rfl⟩

theorem blob_bound (v : Val) : ∃ N, blobOk N v := by
  cases h : toBytes v with
  | error e => exact ⟨0, fun b hb => by rw [h] at hb; cases hb⟩
  | ok b => exact ⟨b.length, fun b' hb => by rw [h] at hb; cases hb; exact Nat.le_refl _⟩

mutual
theorem exists_lim : ∀ v : Val, ∃ N, Lim N v
  | .none => ⟨0, by simp only [Lim]⟩
  | .bool _ => ⟨0, by simp only [Lim]⟩
  | .int _ => ⟨0, by simp only [Lim]⟩
  | .float _ => ⟨0, by simp only [Lim]⟩
  | .str _ => ⟨0, by simp only [Lim]⟩
  | .bytes _ => ⟨0, by simp only [Lim]⟩
  | .uuid _ => ⟨0, by simp only [Lim]⟩
  | .list l => by obtain ⟨N, h⟩ := exists_limL l; exact ⟨N, by simpa only [Lim] using h⟩
  | .tuple l => by obtain ⟨N, h⟩ := exists_limL l; exact ⟨N, by simpa only [Lim] using h⟩
  | .dict d => by obtain ⟨N, h⟩ := exists_limD d; exact ⟨N, by simpa only [Lim] using h⟩
theorem exists_limL : ∀ l : List Val, ∃ N, LimL N l
  | [] => ⟨0, by simp only [LimL]⟩
  | v :: t => by
    obtain ⟨N, h⟩ := exists_lim v
    obtain ⟨M, h'⟩ := exists_limL t
    exact ⟨max N M, by simp only [LimL]; exact ⟨lim_mono (by omega) v h, limL_mono (by omega) t h'⟩⟩
theorem exists_limD : ∀ d : List (PyStr × Val), ∃ N, LimD N d
  | [] => ⟨0, by simp only [LimD]⟩
  | (k, v) :: t => by
    obtain ⟨N, h⟩ := exists_lim v
    obtain ⟨M, h'⟩ := exists_limD t
    obtain ⟨B, h''⟩ := blob_bound v
    exact ⟨max (max N M) B, by
      simp only [LimD]
      exact ⟨⟨lim_mono (by omega) v h, fun _ => blobOk_mono (by omega) h''⟩, limD_mono (by omega) t h'⟩⟩
end

/-- C06: each custom decoder ends on every value, also where it enters the property reader
again for an embedded object: one outcome for all budgets above some bound. -/
theorem C06_decoder (cfg : Cfg) (c : CodecId) (v : Val) :
    ∃ N r, r ≠ .error .fuel ∧ ∀ m, N < m → c.post cfg.allowNan (rProps cfg m []) v = r := by
  obtain ⟨N, hv⟩ := exists_lim v
  have h := fun m (hm : N < m) => okv_post c cfg.allowNan (r := rProps cfg m []) (r' := rProps cfg (N + 1) [])
    (ok_loop cfg N m (N + 1) [] [] N hm (Nat.lt_succ_self _) (Nat.le_refl _) (by simp only [LimD])) v hv
  exact ⟨N, _, (h (N + 1) (Nat.lt_succ_self _)).2.1, fun m hm => (h m hm).1⟩

/-! Corrupt inputs: an empty file, and a list whose first name claims 200 characters. -/
example : gvasRead fullCfg [] = .error .struct := by rfl
example : rProps fullCfg 1 [] [200, 0, 0, 0, 65, 66] = .error .struct := by rfl
/-! A budget that is too small is told apart from an exception. -/
example : rProps fullCfg 0 [] [200, 0, 0, 0, 65, 66] = .error .fuel := by rfl

/-! ### C27 for arbitrary input -/

/-- C27: for every accepted input, well-formed or not, the trailer is an end of the input. -/
theorem C27_suffix (cfg : Cfg) (data : Bytes) (g : Gvas) (h : gvasRead cfg data = .ok g) : ∃ p, data = p ++ g.trailer := by
  unfold gvasRead at h
  split at h
  · rename_i g' s' hr
    injection h with h
    subst h
    unfold gvasReadR at hr
    obtain ⟨hd, s1, h1, hr⟩ := r_bind_inv hr
    obtain ⟨v, s2, h2, hr⟩ := r_bind_inv hr
    obtain ⟨t, s3, h3, hr⟩ := r_bind_inv hr
    obtain ⟨rfl, -⟩ := r_pure_inv hr
    cases h3
    obtain ⟨⟨c1, e1⟩, -⟩ := grow_hdr _ _ _ h1
    obtain ⟨⟨c2, e2⟩, -⟩ := grow_props cfg _ _ _ _ _ h2
    exact ⟨c1 ++ c2, by rw [e1, e2, List.append_assoc]⟩
  · cases h

/-- C27: bytes appended to an accepted input with a trailer are appended to its trailer and
change nothing else. -/
theorem C27_append (cfg : Cfg) (data : Bytes) (g : Gvas) (h : gvasRead cfg data = .ok g) (hne : g.trailer ≠ []) (u : Bytes) :
    gvasRead cfg (data ++ u) = .ok { g with trailer := g.trailer ++ u } := by
  unfold gvasRead at h
  split at h
  · rename_i g' s' hr
    injection h with h
    subst h
    unfold gvasReadR at hr
    obtain ⟨hd, s1, h1, hr⟩ := r_bind_inv hr
    obtain ⟨v, s2, h2, hr⟩ := r_bind_inv hr
    obtain ⟨t, s3, h3, hr⟩ := r_bind_inv hr
    obtain ⟨rfl, -⟩ := r_pure_inv hr
    cases h3
    obtain ⟨⟨c1, e1⟩, g1⟩ := grow_hdr _ _ _ h1
    obtain ⟨⟨c2, e2⟩, -⟩ := grow_props cfg _ _ _ _ _ h2
    have h1ne : s1 ≠ [] := by rw [e2]; simp [hne]
    have hlen : (data ++ u).length = c1.length + (s1 ++ u).length := by rw [e1]; simp
    obtain ⟨r, hr, hm⟩ := C06_list cfg [] s1
    have hl1 : s1.length ≤ data.length := by rw [e1, List.length_append]; omega
    have h2' : rProps cfg ((data ++ u).length + 1) [] s1 = .ok (v, s2) := by
      rw [hm _ (by rw [List.length_append]; omega), ← hm (data.length + 1) (by omega)]; exact h2
    have g2 := (grow_props cfg _ _ _ _ _ h2').2 hne u
    have : gvasReadR cfg ((data ++ u).length + 1) (data ++ u) = .ok (⟨hd, v, s2 ++ u⟩, []) := by
      unfold gvasReadR
      rw [r_bind_ok (g1 h1ne u), r_bind_ok g2]; rfl
    unfold gvasRead
    rw [this]
  · cases h

/-! The sample file ends with five trailer bytes. -/
example (u : Bytes) : ∃ g, gvasRead fullCfg (sampleFile.enc ++ u) = .ok g ∧ g.trailer = [0, 1, 2, 3, 4] ++ u :=
  ⟨_, C27_append fullCfg _ _ (file_read rfl (fun _ => palCfg_json _ _) sampleFile sampleFile_wf) (by nofun) u, rfl⟩

end Pal
