import Verif.Lemmas.StableBlobs2
/-
Decoding and encoding again: connectors and concrete models.
-/

set_option linter.unusedSimpArgs false

namespace Pal
open Spec

variable {q : Prop} {an : Bool}

/-! ### connectors -/

theorem otherConnector_nil : ∀ r, otherConnectorDecode [] ≠ .ok r := by
  intro r h
  have : otherConnectorDecode [] = .error .struct := rfl
  rw [this] at h
  cases h

theorem others_resave : ∀ (n : Nat) (s : Bytes) (l : List Val) (s' : Bytes), s.length < 2 ^ 32 →
    otherConnectors n s = .ok (l, s') →
    s' = [] ∧ (s = [] ↔ l = []) ∧ ∃ b, wItems otherConnectorEncode l = .ok b ∧ b.length ≤ s.length ∧
      (q → (b = [] ↔ l = []) ∧ ∀ m, b.length ≤ m → otherConnectors m b = .ok (l, [])) := by
  have nil : ∀ n, otherConnectors n [] = .ok ([], []) := fun n => by cases n <;> rfl
  intro n
  induction n with
  | zero =>
    intro s l s' hs h
    cases s with
    | nil => cases h; exact ⟨rfl, by simp, [], rfl, Nat.le_refl _, fun _ => ⟨by simp, fun m _ => nil m⟩⟩
    | cons => cases h
  | succ n ih =>
    intro s l s' hs h
    cases s with
    | nil => cases h; exact ⟨rfl, by simp, [], rfl, Nat.le_refl _, fun _ => ⟨by simp, fun m _ => nil m⟩⟩
    | cons x s =>
      obtain ⟨a, s1, h1, h⟩ := r_bind_inv (x := otherConnectorDecode) h
      obtain ⟨l1, s2, h2, h⟩ := r_bind_inv h
      obtain ⟨rfl, rfl⟩ := r_pure_inv h
      obtain ⟨b1, w1, l1', k1⟩ := st_otherConnector (q := q) _ a s1 hs h1
      obtain ⟨e, -, b2, w2, l2, k2⟩ := ih s1 l1 s' (by omega) h2
      subst e
      refine ⟨rfl, by simp, b1 ++ b2, ?_, by rw [List.length_append]; omega, fun hq => ?_⟩
      · unfold wItems at w2 ⊢
        rw [List.map_cons, w1, wcat_ok_cons, w2]
      · have hne : b1 ≠ [] := fun e => by
          have := back_end (k1 hq)
          rw [e] at this
          exact otherConnector_nil _ this
        refine ⟨by simp [hne], fun m hm => ?_⟩
        obtain ⟨y, b1, rfl⟩ := List.exists_cons_of_ne_nil hne
        rw [List.length_append, List.length_cons] at hm
        obtain ⟨m, rfl⟩ : ∃ k, m = k + 1 := ⟨m - 1, by omega⟩
        have hr := (k2 hq).2 m (by omega)
        have hd : otherConnectorDecode (y :: b1 ++ b2) = .ok (a, b2) := by
          rcases k1 hq with k | ⟨rfl, k⟩
          · exact k b2
          · have : b2 = [] := List.length_eq_zero_iff.1 (by simp only [List.length_nil] at l2; omega)
            subst this
            rw [List.append_nil, k]
        rw [List.cons_append] at hd ⊢
        unfold otherConnectors
        simp only
        rw [r_bind_ok hd, r_bind_ok hr]
        rfl

theorem connector_resave {s s' : Bytes} {v : Val} (hs : s.length < 2 ^ 32) (h : connectorDecode s = .ok (v, s')) :
    ∃ b, connectorEncode v = .ok b ∧ b.length ≤ s.length ∧ (q → connectorDecode b = .ok (v, [])) := by
  have h0 := st_tarray (@st_connectInfo q)
  have : Chain q connectorDecode [] connectorEncode fun _ => False := by
    unfold connectorDecode
    refine chain_bind st_i32 fun lv b1 w1 => chain_bind st_byte fun ix b2 w2 => chain_bind h0 fun ap b3 w3 => ?_
    intro s v s' hs h
    obtain ⟨l, s1, h1, h⟩ := r_bind_inv (x := otherConnectors s.length) h
    obtain ⟨rfl, rfl⟩ := r_pure_inv h
    obtain ⟨rfl, hl, b, w, le, k⟩ := others_resave (q := q) _ _ _ _ hs h1
    refine .inr ⟨b, ?_, by simpa using le, fun hq => .inr ⟨rfl, ?_⟩⟩
    · cases s with
      | nil =>
        have : l = [] := hl.1 rfl
        subst this
        cases w
        simp only [connectorEncode, wAt_cons, wAt_nil, get_pdict, dct_eq, get_vDict_cons, String.reduceEq, ↓reduceIte, w1, w2, w3,
          List.isEmpty_nil, contains_pdict, contains_pnil, wcat_ok_cons, wcat_nil, List.nil_append, List.append_nil, List.append_assoc]
      | cons =>
        simp only [connectorEncode, wAt_cons, wAt_nil, get_pdict, dct_eq, get_vDict_cons, String.reduceEq, ↓reduceIte, w1, w2, w3,
          List.isEmpty_cons, Bool.false_eq_true, List.cons_append, List.nil_append,
          contains_pdict, contains_pnil, Val.iterItems, w, wcat_ok_cons, wcat_nil, List.nil_append, List.append_nil, List.append_assoc]
    · have e : b.isEmpty = s.isEmpty := by
        rw [Bool.eq_iff_iff, List.isEmpty_iff, List.isEmpty_iff, (k hq).1, hl]
      have hk := (k hq).2 b.length (Nat.le_refl _)
      have := r_bind_ok hk (f := fun others => (pure (.dict (if b.isEmpty then [(P "supported_level", .int lv),
    (P "connect", dct [("index", .int ix), ("any_place", ap)])] else [(P "supported_level", .int lv),
    (P "connect", dct [("index", .int ix), ("any_place", ap)])] ++ [(P "other_connectors", .list others)])) : R Val))
      refine Eq.trans this ?_
      rw [e]; rfl
  obtain h | ⟨b, w, l, k⟩ := this s v s' hs h
  · exact h.elim
  · exact ⟨b, w, by omega, fun hq => back_end (k hq)⟩

end Pal
