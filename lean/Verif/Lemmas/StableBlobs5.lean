import Verif.Lemmas.StableBlobs4
import Verif.Lemmas.TreeCodec
/-
Decoding and encoding again: dynamic items.
-/

set_option linter.unusedSimpArgs false

namespace Pal
open Spec

variable {q : Prop} {an : Bool} {rec : R Val} {wp : Val → Except Err Bytes} {Bo : Val → Prop}

/-- Four bytes are never an egg: the string takes all of them. -/
theorem notEgg_four (h0 : rec [] = .error .struct) {b : Bytes} (h : b.length = 4) : NotEgg rec b := by
  unfold NotEgg eggDecode
  have hs : ∀ e, rFString b = .error e → rStr b = .error e := fun e he => by
    unfold rStr; rw [r_bind_error he]
  rcases rFString_overruns (overruns_four h) with ⟨s, h⟩ | h | h | h
  · refine ⟨.struct, ?_, by simp, by simp⟩
    have : rStr b = .ok (.str s, []) := by unfold rStr; rw [r_bind_ok h]; rfl
    rw [r_bind_ok this, r_bind_error h0]
  · exact ⟨_, r_bind_error (hs _ h) _, by simp, by simp⟩
  · exact ⟨_, r_bind_error (hs _ h) _, by decide +kernel, by simp⟩
  · exact ⟨_, r_bind_error (hs _ h) _, by decide +kernel, by simp⟩

/-- The last part of `dynamicItemEncode`. -/
def dynBodyEncode (wp : Val → Except Err Bytes) (p : Val) : Except Err Bytes :=
  wAt p ["type"] fun t =>
      if t.isS "unknown" then wAt p ["trailer"] wBytesOf
      else if t.isS "egg" then
        wcat [wAt p ["character_id"] wFString, wAt p ["object"] wp,
          wAt p ["unknown_bytes"] wBytesOf, wAt p ["unknown_id"] wGuid]
      else if t.isS "armor" then wAt p ["durability"] wFloat
      else if t.isS "weapon" then
        wcat [wAt p ["durability"] wFloat, wAt p ["remaining_bullets"] wI32,
          wAt p ["passive_skill_list"] (wTArray wFString)]
      else .ok []

theorem chain_egg (hr : RecOk q rec wp Bo) (i : Val) :
    Chain q (eggDecode rec) [] (fun d => dynBodyEncode wp (.dict ((P "id", i) :: d)))
      (fun d => BadObject Bo "object" (.dict ((P "id", i) :: d))) := by
  unfold eggDecode
  refine chain_bind st_str fun c bc hc => ?_
  refine chain_rec hr ?_ fun o b hb => ?_
  · rintro o s v s' he h
    obtain ⟨_, s1, -, h⟩ := r_bind_inv h
    obtain ⟨_, s2, -, h⟩ := r_bind_inv h
    obtain ⟨_, s3, -, h⟩ := r_bind_inv h
    obtain ⟨rfl, rfl⟩ := r_pure_inv h
    refine ⟨o, ?_, he⟩
    simp only [get_pdict, String.reduceEq, ↓reduceIte]
  · chain_tac
    chain_done' [dynBodyEncode, isS_P, decide_true, decide_false]

theorem chain_armor (hq : q → an = true) (i : Val) :
    Chain q (armorDecode an) [] (fun d => dynBodyEncode wp (.dict ((P "id", i) :: d))) (fun _ => False) := by
  unfold armorDecode
  chain_tac
  chain_done' [dynBodyEncode, isS_P, decide_true, decide_false]

theorem chain_weapon (hq : q → an = true) (i : Val) :
    Chain q (weaponDecode an) [] (fun d => dynBodyEncode wp (.dict ((P "id", i) :: d))) (fun _ => False) := by
  unfold weaponDecode
  chain_tac
  chain_done' [dynBodyEncode, isS_P, decide_true, decide_false]

theorem wcat_snoc3 {a b c d : Except Err Bytes} {x y : Bytes} (h : wcat [a, b, c] = .ok x) (hd : d = .ok y) :
    wcat [a, b, c, d] = .ok (x ++ y) := by
  subst hd
  cases a with
  | error => cases h
  | ok a =>
    cases b with
    | error => cases h
    | ok b =>
      cases c with
      | error => cases h
      | ok c =>
        simp only [wcat_ok_cons, wcat_nil, Except.ok.injEq] at h ⊢
        subst h
        simp only [List.append_assoc, List.nil_append, List.append_nil]

theorem float_len {s s' : Bytes} {v : Val} (h : rFloat an s = .ok (v, s')) : s'.length + 4 ≤ s.length := by
  obtain ⟨n, s1, h1, h⟩ := r_bind_inv h
  obtain ⟨rfl, rfl⟩ := r_pure_inv h
  have := (inv_unsigned h1).2
  omega

theorem checkEof_inv {s s' : Bytes} {u : Unit} (h : rCheckEof s = .ok (u, s')) : s' = [] := by
  cases s with
  | nil => cases h; rfl
  | cons => cases h

/-- What follows the id of an item. -/
theorem dynRest_resave (hq : q → an = true) (hr : RecOk q rec wp Bo) (h0 : rec [] = .error .struct) (i : Val) {s s' : Bytes}
    {d : Dict} (hs : s.length < 2 ^ 32) (h : dynamicRest an rec s = .ok (d, s')) :
    s' = [] ∧ (BadObject Bo "object" (.dict ((P "id", i) :: d)) ∨
      ∃ b, dynBodyEncode wp (.dict ((P "id", i) :: d)) = .ok b ∧ b.length ≤ s.length ∧
        (q → dynamicRest an rec b = .ok (d, []) ∨ ¬ NotEgg rec b ∧ weaponDecode an b = .ok (d, []))) := by
  unfold dynamicRest at h
  obtain ⟨e, s1, h1, h3⟩ := r_bind_inv h
  clear h
  obtain ⟨n, s2, h2, h⟩ := r_bind_inv h3
  clear h3
  obtain rfl : s1.length = n := by cases h2; rfl
  obtain rfl : s1 = s2 := by cases h2; rfl
  cases hx : eggDecode rec s with
  | ok r =>
    obtain ⟨d1, t1⟩ := r
    have : tryEgg rec s = .ok (some d1, t1) := by
      unfold tryEgg
      refine rTry_ok ?_
      rw [r_bind_ok hx]; rfl
    rw [this] at h1
    cases h1
    obtain ⟨rfl, rfl⟩ := r_pure_inv h
    have ht : s' = [] := by
      unfold eggDecode at hx
      obtain ⟨_, _, -, hx⟩ := r_bind_inv hx
      obtain ⟨_, _, -, hx⟩ := r_bind_inv hx
      obtain ⟨_, _, -, hx⟩ := r_bind_inv hx
      obtain ⟨_, _, -, hx⟩ := r_bind_inv hx
      obtain ⟨_, _, h5, hx⟩ := r_bind_inv hx
      obtain ⟨rfl, rfl⟩ := r_pure_inv hx
      exact checkEof_inv h5
    refine ⟨ht, ?_⟩
    rcases chain_egg hr i s d s' hs hx with hb | ⟨b, w, l, k⟩
    · exact .inl hb
    · refine .inr ⟨b, w, by omega, fun hq' => .inl ?_⟩
      have : tryEgg rec b = .ok (some d, []) := by
        unfold tryEgg
        refine rTry_ok ?_
        rw [r_bind_ok (back_end (k hq'))]; rfl
      unfold dynamicRest
      rw [r_bind_ok this]
      rfl
  | error er =>
    have he : e = none ∧ s1 = s ∧ NotEgg rec s := by
      have hxx : (do let d ← eggDecode rec; return some d : R (Option Dict)) s = .error er := r_bind_error hx _
      unfold tryEgg rTry at h1
      rw [hxx] at h1
      by_cases hf : er = .fuel
      · subst hf; cases h1
      have h1' : (if er = .exc "Warning: EOF not reached" then rFail er else pure none : R (Option Dict)) s = .ok (e, s1) := by
        cases er <;> first | exact absurd rfl hf | exact h1
      by_cases hf2 : er = .exc "Warning: EOF not reached"
      · rw [if_pos hf2] at h1'; exact (rFail_inv h1').elim
      rw [if_neg hf2] at h1'
      obtain ⟨rfl, rfl⟩ := r_pure_inv h1'
      exact ⟨rfl, rfl, er, hx, hf2, hf⟩
    obtain ⟨rfl, rfl, hne⟩ := he
    replace h : (if s1.length = 4 then armorDecode an else rTry (weaponDecode an) fun _ => trailerDecode) s1 = .ok (d, s') := h
    have hrest : ∀ b, NotEgg rec b → dynamicRest an rec b =
        (if b.length = 4 then armorDecode an else rTry (weaponDecode an) fun _ => trailerDecode) b := by
      intro b hb
      unfold dynamicRest
      rw [r_bind_ok (tryEgg_not hb)]
      rfl
    by_cases h4 : s1.length = 4
    · rw [if_pos h4] at h
      have ht : s' = [] := by
        unfold armorDecode at h
        obtain ⟨_, _, -, h⟩ := r_bind_inv h
        obtain ⟨_, _, h5, h⟩ := r_bind_inv h
        obtain ⟨rfl, rfl⟩ := r_pure_inv h
        exact checkEof_inv h5
      subst ht
      rcases chain_armor (wp := wp) hq i s1 d [] hs h with hb | ⟨b, w, l, k⟩
      · exact hb.elim
      · refine ⟨rfl, .inr ⟨b, w, by simpa using l, fun hq' => .inl ?_⟩⟩
        have hk := back_end (k hq')
        have hb : b.length = 4 := by
          unfold armorDecode at hk
          obtain ⟨_, _, k1, hk⟩ := r_bind_inv hk
          obtain ⟨_, _, h5, hk⟩ := r_bind_inv hk
          have h6 : 4 ≤ b.length := Classical.byContradiction fun hlt => by
            have := float_len k1
            omega
          simp only [List.length_nil, h4] at l; omega
        rw [hrest b (notEgg_four h0 hb), if_pos hb, hk]
    · rw [if_neg h4] at h
      cases hw : weaponDecode an s1 with
      | ok r =>
        obtain ⟨d1, t1⟩ := r
        rw [rTry_ok hw] at h
        cases h
        have ht : s' = [] := by
          unfold weaponDecode at hw
          obtain ⟨_, _, -, hw⟩ := r_bind_inv hw
          obtain ⟨_, _, -, hw⟩ := r_bind_inv hw
          obtain ⟨_, _, -, hw⟩ := r_bind_inv hw
          obtain ⟨_, _, h5, hw⟩ := r_bind_inv hw
          obtain ⟨rfl, rfl⟩ := r_pure_inv hw
          exact checkEof_inv h5
        subst ht
        rcases chain_weapon (wp := wp) hq i s1 d [] hs hw with hb | ⟨b, w, l, k⟩
        · exact hb.elim
        · refine ⟨rfl, .inr ⟨b, w, by simpa using l, fun hq' => ?_⟩⟩
          have hk := back_end (k hq')
          by_cases hE : NotEgg rec b
          · refine .inl ?_
            have hb : b.length ≠ 4 := by
              intro hb
              unfold weaponDecode at hk
              obtain ⟨_, t1, k1, hk⟩ := r_bind_inv hk
              obtain ⟨_, t2, k2, hk⟩ := r_bind_inv hk
              have k3 := (inv_signed k2).choose_spec.2.2
              have k4 := float_len k1
              omega
            rw [hrest b hE, if_neg hb, rTry_ok hk]
          · exact .inr ⟨hE, hk⟩
      | error er =>
        have hrd : ∀ t, dynamicRest an rec s1 = .ok t → True := fun _ _ => trivial
        have h' : trailerDecode s1 = .ok (d, s') := by
          unfold rTry at h
          rw [hw] at h
          cases er <;> first | exact h | cases h
        obtain ⟨b, t1, k1, k2⟩ := r_bind_inv h'
        cases k1
        obtain ⟨rfl, rfl⟩ := r_pure_inv k2
        refine ⟨rfl, .inr ⟨s1, ?_, Nat.le_refl _, fun _ => .inl ?_⟩⟩
        · have : wBytesOf (.list (s1.map fun b => .int b.toNat)) = .ok s1 := mapE_byteOf_ints s1
          simp only [dynBodyEncode, isS_P, wAt_cons, wAt_nil, get_pdict, String.reduceEq, ↓reduceIte, decide_true, this]
        · rw [hrest s1 hne, if_neg h4, h]

/-- A dynamic item embeds an object that cannot be written, or can be encoded.  Reading the
bytes of a weapon again gives the same weapon, unless they are taken for an egg. -/
theorem dynamic_resave (hq : q → an = true) (hr : RecOk q rec wp Bo) (h0 : rec [] = .error .struct) {s s' : Bytes} {v : Val}
    (hs : s.length < 2 ^ 32) (h : dynamicItemDecode an rec s = .ok (v, s')) :
    s' = [] ∧ (BadObject Bo "object" v ∨ ∃ b, dynamicItemEncode wp v = .ok b ∧ b.length ≤ s.length ∧
      (q → dynamicItemDecode an rec b = .ok (v, []) ∨
        ∃ i w, b = i ++ w ∧ ¬ NotEgg rec w ∧ ∃ d, weaponDecode an w = .ok (d, []))) := by
  unfold dynamicItemDecode at h
  obtain ⟨i, s1, h1, h⟩ := r_bind_inv h
  obtain ⟨d, s2, h2, h⟩ := r_bind_inv h
  obtain ⟨rfl, rfl⟩ := r_pure_inv h
  have hi : St q dynamicIdDecode fun i => wcat [wAt i ["created_world_id"] wGuid, wAt i ["local_id_in_created_world"] wGuid,
      wAt i ["static_id"] wFString] := by
    refine st_of_chain ?_
    unfold dynamicIdDecode
    chain_tac
    chain_done [wcat_nil]
  obtain ⟨b1, w1, l1, k1⟩ := hi s i s1 hs h1
  obtain ⟨rfl, hd⟩ := dynRest_resave (wp := wp) hq hr h0 i (by omega : s1.length < 2 ^ 32) h2
  refine ⟨rfl, ?_⟩
  rcases hd with hb | ⟨b2, w2, l2, k2⟩
  · exact .inl hb
  refine .inr ⟨b1 ++ b2, ?_, by rw [List.length_append]; omega, fun hq' => ?_⟩
  · refine Eq.trans ?_ (wcat_snoc3 w1 w2)
    simp only [dynamicItemEncode, dynBodyEncode, wAt_cons, get_pdict, String.reduceEq, ↓reduceIte]
  · have hd : dynamicIdDecode (b1 ++ b2) = .ok (i, b2) := by
      rcases k1 hq' with k | ⟨rfl, k⟩
      · exact k b2
      · have : b2 = [] := List.length_eq_zero_iff.1 (by simp only [List.length_nil] at l2; omega)
        subst this
        rw [List.append_nil, k]
    rcases k2 hq' with k | ⟨e1, e2⟩
    · refine .inl ?_
      unfold dynamicItemDecode
      rw [r_bind_ok hd, r_bind_ok k]; rfl
    · exact .inr ⟨b1, b2, rfl, e1, _, e2⟩

end Pal
