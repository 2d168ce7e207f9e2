import Verif.Lemmas.Wrote
/-
Inversion of successful reads.
-/

namespace Pal

theorem r_bind_inv {α β : Type} {x : R α} {f : α → R β} {s s' : Bytes} {b : β} (h : (x >>= f) s = .ok (b, s')) :
    ∃ a s1, x s = .ok (a, s1) ∧ f a s1 = .ok (b, s') := by
  rw [r_bind] at h
  cases hx : x s with
  | error e => rw [hx] at h; cases h
  | ok q => obtain ⟨a, s1⟩ := q; rw [hx] at h; exact ⟨a, s1, rfl, h⟩

theorem r_pure_inv {α : Type} {a b : α} {s s' : Bytes} (h : (pure a : R α) s = .ok (b, s')) : b = a ∧ s' = s := by
  cases h; exact ⟨rfl, rfl⟩

theorem rLift_inv {α : Type} {x : Except Err α} {a : α} {s s' : Bytes} (h : rLift x s = .ok (a, s')) :
    x = .ok a ∧ s' = s := by
  cases x <;> cases h
  exact ⟨rfl, rfl⟩

theorem rFail_inv {α : Type} {e : Err} {a : α} {s s' : Bytes} (h : (rFail e : R α) s = .ok (a, s')) : False := by
  cases h

theorem dget_dset (d : Dict) (k : PyStr) (v : Val) : dget? (dset d k v) k = some v := by
  induction d with
  | nil => simp [dset, dget?]
  | cons q t ih =>
    simp only [dset]
    split
    · rename_i e; simp [dget?, e]
    · rename_i e; simp only [dget?, e, if_false, ih]

theorem get_set {v v' x : Val} {k : PyStr} (h : v.set k x = .ok v') : v'.get k = .ok x := by
  cases v <;> simp only [Val.set, reduceCtorEq] at h
  cases h
  simp only [Val.get, dget_dset]

theorem mem_dset {d : Dict} {k : PyStr} {v : Val} {q : PyStr × Val} (h : q ∈ dset d k v) : q ∈ d ∨ q = (k, v) := by
  induction d with
  | nil => simp only [dset, List.mem_singleton] at h; exact .inr h
  | cons p t ih =>
    simp only [dset] at h
    split at h
    · rename_i e
      rcases List.mem_cons.1 h with h | h
      · exact .inr (h.trans (by rw [e]))
      · exact .inl (List.mem_cons_of_mem _ h)
    · rcases List.mem_cons.1 h with h | h
      · exact .inl (by rw [h]; exact List.mem_cons_self)
      · rcases ih h with h | h
        · exact .inl (List.mem_cons_of_mem _ h)
        · exact .inr h

end Pal
