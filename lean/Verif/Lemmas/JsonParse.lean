import Verif.Lemmas.JsonNum
/-
The JSON reader accepts the texts of the grammar, with the value of the grammar, and no others.
-/

namespace Pal
open Spec

/-! ### words -/

theorem stripP_append : ∀ (p r : PyStr), stripP p (p ++ r) = some r
  | [], r => rfl
  | a :: p, r => by rw [List.cons_append, stripP, if_pos rfl, stripP_append p r]

theorem stripP_inv : ∀ (p t r : PyStr), stripP p t = some r → t = p ++ r
  | [], t, r, h => by injection h
  | a :: p, [], r, h => by cases h
  | a :: p, b :: t, r, h => by
    rw [stripP] at h
    split at h
    · rename_i he
      rw [stripP_inv p t r h, he]
      rfl
    · cases h

theorem w_null : P "null" = [110, 117, 108, 108] := by decide
theorem w_true : P "true" = [116, 114, 117, 101] := by decide
theorem w_false : P "false" = [102, 97, 108, 115, 101] := by decide
theorem w_nan : P "NaN" = [78, 97, 78] := by decide
theorem w_inf : P "Infinity" = [73, 110, 102, 105, 110, 105, 116, 121] := by decide
theorem w_ninf : P "-Infinity" = [45, 73, 110, 102, 105, 110, 105, 116, 121] := by decide

/-- The first character of a value. -/
def Start (c : Nat) : Prop :=
  c = 34 ∨ c = 123 ∨ c = 91 ∨ c = 110 ∨ c = 116 ∨ c = 102 ∨ c = 78 ∨ c = 73 ∨ c = 45 ∨ isDigit c = true

theorem start_ne {c : Nat} (h : Start c) : Solid c ∧ c ≠ 93 ∧ c ≠ 125 ∧ c ≠ 44 ∧ c ≠ 58 ∧ c ≠ 0xFEFF := by
  unfold Start at h
  rw [isDigit_iff] at h
  unfold Solid
  omega

/-- What may follow a value. -/
def Stop (r : PyStr) : Prop := ∀ c, r.head? = some c → c = 32 ∨ c = 9 ∨ c = 10 ∨ c = 13 ∨ c = 44 ∨ c = 93 ∨ c = 125

theorem stop_num {r : PyStr} (h : Stop r) : NumEnd r := by
  intro c hc
  have := h c hc
  refine ⟨?_, by omega⟩
  rw [Bool.eq_false_iff, Ne, isDigit_iff]
  omega

theorem stop_blank {w r : PyStr} (hw : Blank w) (hr : Stop r) : Stop (w ++ r) := by
  cases w with
  | nil => exact hr
  | cons a w =>
    intro c hc
    simp only [List.cons_append, List.head?_cons, Option.some.injEq] at hc
    subst hc
    have := hw a (by simp)
    omega

theorem stop_cons {c : Nat} (r : PyStr) (h : c = 44 ∨ c = 93 ∨ c = 125) : Stop (c :: r) := by
  intro d hd
  simp only [List.head?_cons, Option.some.injEq] at hd
  omega

theorem scanInt_none {c : Nat} {t : PyStr} (h : isDigit c = false) : scanInt (c :: t) = none := by
  have h48 : c ≠ 48 := by
    rintro rfl
    cases h
  unfold scanInt
  simp only
  rw [if_neg h48, if_neg (by rw [h]; decide)]

theorem scanNum_none {neg : Bool} {c : Nat} {t : PyStr} (h : isDigit c = false) : scanNum neg (c :: t) = none := by
  unfold scanNum
  rw [scanInt_none h]

theorem scanNum_nil {neg : Bool} : scanNum neg [] = none := rfl

theorem scanAtom_num {s r : PyStr} {v : Val} (h : NumText s v) (hr : NumEnd r) : scanAtom (s ++ r) = .ok (v, r) := by
  obtain ⟨sg, neg, t, rfl, hs, ⟨c, t', rfl, hc⟩, hn⟩ := scanNum_complete h hr
  have hd := (isDigit_iff c).1 hc
  unfold scanAtom
  cases hs with
  | plus =>
    rw [List.nil_append, List.cons_append]
    have e1 : stripP (P "null") (c :: (t' ++ r)) = none := by rw [w_null, stripP, if_neg (by omega)]
    have e2 : stripP (P "true") (c :: (t' ++ r)) = none := by rw [w_true, stripP, if_neg (by omega)]
    have e3 : stripP (P "false") (c :: (t' ++ r)) = none := by rw [w_false, stripP, if_neg (by omega)]
    rw [e1, e2, e3]
    simp only
    split
    · rename_i x hx
      split at hx
      · rename_i heq
        injection heq with h1 h2
        omega
      · rw [List.cons_append] at hn
        rw [hn] at hx
        injection hx with hx
        rw [hx]
    · rename_i hx
      split at hx
      · rename_i heq
        injection heq with h1 h2
        omega
      · rw [List.cons_append] at hn
        rw [hn] at hx
        cases hx
  | minus =>
    have e1 : stripP (P "null") ([45] ++ c :: t' ++ r) = none := by rw [w_null]; rfl
    have e2 : stripP (P "true") ([45] ++ c :: t' ++ r) = none := by rw [w_true]; rfl
    have e3 : stripP (P "false") ([45] ++ c :: t' ++ r) = none := by rw [w_false]; rfl
    rw [e1, e2, e3]
    simp only [List.cons_append, List.nil_append] at hn ⊢
    rw [hn]

theorem scanAtom_word_null (r : PyStr) : scanAtom (P "null" ++ r) = .ok (.none, r) := by
  unfold scanAtom
  rw [stripP_append]

theorem scanAtom_word_true (r : PyStr) : scanAtom (P "true" ++ r) = .ok (.bool true, r) := by
  unfold scanAtom
  have e1 : stripP (P "null") (P "true" ++ r) = none := by rw [w_null, w_true]; rfl
  rw [e1, stripP_append]

theorem scanAtom_word_false (r : PyStr) : scanAtom (P "false" ++ r) = .ok (.bool false, r) := by
  unfold scanAtom
  have e1 : stripP (P "null") (P "false" ++ r) = none := by rw [w_null, w_false]; rfl
  have e2 : stripP (P "true") (P "false" ++ r) = none := by rw [w_true, w_false]; rfl
  rw [e1, e2, stripP_append]

theorem scanAtom_word_nan (r : PyStr) : scanAtom (P "NaN" ++ r) = .ok (.float nan64, r) := by
  unfold scanAtom
  have e1 : stripP (P "null") (P "NaN" ++ r) = none := by rw [w_null, w_nan]; rfl
  have e2 : stripP (P "true") (P "NaN" ++ r) = none := by rw [w_true, w_nan]; rfl
  have e3 : stripP (P "false") (P "NaN" ++ r) = none := by rw [w_false, w_nan]; rfl
  rw [e1, e2, e3, stripP_append, w_nan]
  rfl

theorem scanAtom_word_inf (r : PyStr) : scanAtom (P "Infinity" ++ r) = .ok (.float (mk64 0 2047 0), r) := by
  unfold scanAtom
  have e1 : stripP (P "null") (P "Infinity" ++ r) = none := by rw [w_null, w_inf]; rfl
  have e2 : stripP (P "true") (P "Infinity" ++ r) = none := by rw [w_true, w_inf]; rfl
  have e3 : stripP (P "false") (P "Infinity" ++ r) = none := by rw [w_false, w_inf]; rfl
  have e4 : stripP (P "NaN") (P "Infinity" ++ r) = none := by rw [w_nan, w_inf]; rfl
  rw [e1, e2, e3, e4, stripP_append, w_inf]
  rfl

theorem scanAtom_word_ninf (r : PyStr) : scanAtom (P "-Infinity" ++ r) = .ok (.float (mk64 1 2047 0), r) := by
  unfold scanAtom
  have e1 : stripP (P "null") (P "-Infinity" ++ r) = none := by rw [w_null, w_ninf]; rfl
  have e2 : stripP (P "true") (P "-Infinity" ++ r) = none := by rw [w_true, w_ninf]; rfl
  have e3 : stripP (P "false") (P "-Infinity" ++ r) = none := by rw [w_false, w_ninf]; rfl
  have e4 : stripP (P "NaN") (P "-Infinity" ++ r) = none := by rw [w_nan, w_ninf]; rfl
  have e5 : stripP (P "Infinity") (P "-Infinity" ++ r) = none := by rw [w_inf, w_ninf]; rfl
  rw [e1, e2, e3, e4, e5, stripP_append, w_ninf]
  rfl

/-- What is read as a word or number is one. -/
theorem scanAtom_sound {t r : PyStr} {v : Val} (h : scanAtom t = .ok (v, r)) : ∃ x, t = x ++ r ∧ JText true x v := by
  unfold scanAtom at h
  split at h
  · rename_i r' h1
    simp only [Except.ok.injEq, Prod.mk.injEq] at h
    obtain ⟨rfl, rfl⟩ := h
    exact ⟨_, stripP_inv _ _ _ h1, .null⟩
  split at h
  · rename_i r' h1
    simp only [Except.ok.injEq, Prod.mk.injEq] at h
    obtain ⟨rfl, rfl⟩ := h
    exact ⟨_, stripP_inv _ _ _ h1, .true⟩
  split at h
  · rename_i r' h1
    simp only [Except.ok.injEq, Prod.mk.injEq] at h
    obtain ⟨rfl, rfl⟩ := h
    exact ⟨_, stripP_inv _ _ _ h1, .false⟩
  split at h
  · rename_i y h1
    simp only [Except.ok.injEq] at h
    subst h
    split at h1
    · obtain ⟨x, rfl, h2, -⟩ := scanNum_sound .minus h1
      exact ⟨[45] ++ x, rfl, .num h2⟩
    · obtain ⟨x, rfl, h2, -⟩ := scanNum_sound .plus h1
      exact ⟨x, rfl, .num h2⟩
  split at h
  · rename_i r' h1
    simp only [Except.ok.injEq, Prod.mk.injEq] at h
    obtain ⟨rfl, rfl⟩ := h
    exact ⟨_, stripP_inv _ _ _ h1, .nan rfl⟩
  split at h
  · rename_i r' h1
    simp only [Except.ok.injEq, Prod.mk.injEq] at h
    obtain ⟨rfl, rfl⟩ := h
    exact ⟨_, stripP_inv _ _ _ h1, .inf rfl⟩
  split at h
  · rename_i r' h1
    simp only [Except.ok.injEq, Prod.mk.injEq] at h
    obtain ⟨rfl, rfl⟩ := h
    exact ⟨_, stripP_inv _ _ _ h1, .negInf rfl⟩
  cases h

theorem scanAtom_err {t : PyStr} {e : Err} (h : scanAtom t = .error e) : e = .value := by
  unfold scanAtom at h
  split at h
  · cases h
  split at h
  · cases h
  split at h
  · cases h
  split at h
  · cases h
  split at h
  · cases h
  split at h
  · cases h
  split at h
  · cases h
  injection h with h
  exact h.symm

/-! ### values -/

theorem numText_start {t : PyStr} {v : Val} (h : NumText t v) : ∃ c t', t = c :: t' ∧ Start c := by
  obtain ⟨sg, neg, s, rfl, hs, ⟨c, t', rfl, hc⟩, -⟩ := scanNum_complete h (r := []) (fun c hc => by cases hc)
  cases hs with
  | plus => exact ⟨c, t', rfl, by unfold Start; simp [hc]⟩
  | minus => exact ⟨45, _, rfl, by unfold Start; simp⟩

theorem jText_start {ext : Bool} {t : PyStr} {v : Val} (h : JText ext t v) : ∃ c t', t = c :: t' ∧ Start c := by
  cases h with
  | null => exact ⟨110, [117, 108, 108], w_null, by unfold Start; simp⟩
  | true => exact ⟨116, [114, 117, 101], w_true, by unfold Start; simp⟩
  | false => exact ⟨102, [97, 108, 115, 101], w_false, by unfold Start; simp⟩
  | num h => exact numText_start h
  | nan => exact ⟨78, [97, 78], w_nan, by unfold Start; simp⟩
  | inf => exact ⟨73, [110, 102, 105, 110, 105, 116, 121], w_inf, by unfold Start; simp⟩
  | negInf => exact ⟨45, [73, 110, 102, 105, 110, 105, 116, 121], w_ninf, by unfold Start; simp⟩
  | str h =>
    obtain ⟨body, us, rfl, -⟩ := h
    exact ⟨34, _, rfl, by unfold Start; simp⟩
  | arr0 h => exact ⟨91, _, rfl, by unfold Start; simp⟩
  | arr h => exact ⟨91, _, rfl, by unfold Start; simp⟩
  | obj0 h => exact ⟨123, _, rfl, by unfold Start; simp⟩
  | obj h => exact ⟨123, _, rfl, by unfold Start; simp⟩

/-- Text made of code points. -/
def CP (t : PyStr) : Prop := ∀ c ∈ t, IsCodePoint c

theorem cp_append {a b : PyStr} : CP (a ++ b) ↔ CP a ∧ CP b := by
  simp [CP, or_imp, forall_and]

theorem scanVal_atom {n : Nat} {t r : PyStr} {v : Val} (h : ∃ c t', t = c :: t' ∧ Start c) (h34 : t.head? ≠ some 34)
    (h91 : t.head? ≠ some 91) (h123 : t.head? ≠ some 123) (hs : scanAtom (t ++ r) = .ok (v, r)) :
    scanVal (n + 1) (t ++ r) = .ok (v, r) := by
  obtain ⟨c, t', rfl, hc⟩ := h
  simp only [List.head?_cons, ne_eq, Option.some.injEq] at h34 h91 h123
  rw [List.cons_append] at hs ⊢
  rw [scanVal]
  rw [if_neg h34, if_neg h123, if_neg h91, hs]

theorem numText_head {t : PyStr} {v : Val} (h : NumText t v) : t.head? ≠ some 34 ∧ t.head? ≠ some 91 ∧ t.head? ≠ some 123 := by
  obtain ⟨sg, neg, s, rfl, hs, ⟨c, t', rfl, hc⟩, -⟩ := scanNum_complete h (r := []) (fun c hc => by cases hc)
  have := (isDigit_iff c).1 hc
  cases hs with
  | plus => simp; omega
  | minus => simp

/-- A value followed by what cannot continue it is read; nothing continues an object. -/
theorem jText_complete' {ext : Bool} {t : PyStr} {v : Val} (h : JText ext t v) :
    CP t → ∀ n r, 2 * t.length + 1 ≤ n → (Stop r ∨ t.head? = some 123) → scanVal n (t ++ r) = .ok (v, r) := by
  refine JText.rec
    (motive_1 := fun t v _ => CP t → ∀ n r, 2 * t.length + 1 ≤ n → (Stop r ∨ t.head? = some 123) → scanVal n (t ++ r) = .ok (v, r))
    (motive_2 := fun t l _ => CP t → ∀ n r, 2 * t.length + 2 ≤ n →
      (∃ c s, skipWs (t ++ 93 :: r) = c :: s ∧ c ≠ 93) ∧ scanElems n (skipWs (t ++ 93 :: r)) = .ok (l, r))
    (motive_3 := fun t l _ => CP t → ∀ n r, 2 * t.length + 2 ≤ n →
      (∃ c s, skipWs (t ++ 125 :: r) = c :: s ∧ c ≠ 125) ∧ scanMembers n (skipWs (t ++ 125 :: r)) = .ok (l, r))
    ?null ?true ?false ?num ?nan ?inf ?negInf ?str ?arr0 ?arr ?obj0 ?obj ?eone ?emore ?mone ?mmore h
  case null =>
    intro _ n r hn _
    obtain ⟨n, rfl⟩ : ∃ k, n = k + 1 := ⟨n - 1, by omega⟩
    exact scanVal_atom (jText_start (.null (ext := true))) (by decide) (by decide) (by decide) (scanAtom_word_null r)
  case true =>
    intro _ n r hn _
    obtain ⟨n, rfl⟩ : ∃ k, n = k + 1 := ⟨n - 1, by omega⟩
    exact scanVal_atom (jText_start (.true (ext := true))) (by decide) (by decide) (by decide) (scanAtom_word_true r)
  case false =>
    intro _ n r hn _
    obtain ⟨n, rfl⟩ : ∃ k, n = k + 1 := ⟨n - 1, by omega⟩
    exact scanVal_atom (jText_start (.false (ext := true))) (by decide) (by decide) (by decide) (scanAtom_word_false r)
  case num =>
    intro t v hv _ n r hn hr
    obtain ⟨n, rfl⟩ : ∃ k, n = k + 1 := ⟨n - 1, by omega⟩
    obtain ⟨h1, h2, h3⟩ := numText_head hv
    have hr := hr.resolve_right h3
    exact scanVal_atom (numText_start hv) h1 h2 h3 (scanAtom_num hv (stop_num hr))
  case nan =>
    intro _ _ n r hn _
    obtain ⟨n, rfl⟩ : ∃ k, n = k + 1 := ⟨n - 1, by omega⟩
    exact scanVal_atom (jText_start (.nan (ext := true) rfl)) (by decide) (by decide) (by decide) (scanAtom_word_nan r)
  case inf =>
    intro _ _ n r hn _
    obtain ⟨n, rfl⟩ : ∃ k, n = k + 1 := ⟨n - 1, by omega⟩
    exact scanVal_atom (jText_start (.inf (ext := true) rfl)) (by decide) (by decide) (by decide) (scanAtom_word_inf r)
  case negInf =>
    intro _ _ n r hn _
    obtain ⟨n, rfl⟩ : ∃ k, n = k + 1 := ⟨n - 1, by omega⟩
    exact scanVal_atom (jText_start (.negInf (ext := true) rfl)) (by decide) (by decide) (by decide) (scanAtom_word_ninf r)
  case str =>
    intro t s hs hc n r hn hr
    obtain ⟨n, rfl⟩ : ∃ k, n = k + 1 := ⟨n - 1, by omega⟩
    obtain ⟨t', rfl, h1⟩ := scanStr_complete hs hc r
    rw [List.cons_append, scanVal]
    simp only [if_true]
    rw [h1]
  case arr0 =>
    intro w hw _ n r hn _
    obtain ⟨n, rfl⟩ : ∃ k, n = k + 1 := ⟨n - 1, by omega⟩
    rw [show [91] ++ w ++ [93] ++ r = 91 :: (w ++ 93 :: r) by simp, scanVal]
    simp only
    rw [if_neg (by decide), if_neg (by decide), if_pos trivial, skipWs_to w r hw (by unfold Solid; decide)]
    simp only [if_true]
  case arr =>
    intro t l _ ih hc n r hn _
    obtain ⟨n, rfl⟩ : ∃ k, n = k + 1 := ⟨n - 1, by omega⟩
    simp only [List.length_append, List.length_cons, List.length_nil] at hn
    obtain ⟨⟨c, s, h1, h2⟩, h3⟩ := ih (cp_append.1 (cp_append.1 hc).1).2 n r (by omega)
    rw [show [91] ++ t ++ [93] ++ r = 91 :: (t ++ 93 :: r) by simp, scanVal]
    simp only
    rw [if_neg (by decide), if_neg (by decide), if_pos trivial]
    rw [h1] at h3 ⊢
    simp only
    rw [if_neg h2, h3]
  case obj0 =>
    intro w hw _ n r hn _
    obtain ⟨n, rfl⟩ : ∃ k, n = k + 1 := ⟨n - 1, by omega⟩
    rw [show [123] ++ w ++ [125] ++ r = 123 :: (w ++ 125 :: r) by simp, scanVal]
    simp only
    rw [if_neg (by decide), if_pos trivial, skipWs_to w r hw (by unfold Solid; decide)]
    simp only [if_true]
  case obj =>
    intro t l _ ih hc n r hn _
    obtain ⟨n, rfl⟩ : ∃ k, n = k + 1 := ⟨n - 1, by omega⟩
    simp only [List.length_append, List.length_cons, List.length_nil] at hn
    obtain ⟨⟨c, s, h1, h2⟩, h3⟩ := ih (cp_append.1 (cp_append.1 hc).1).2 n r (by omega)
    rw [show [123] ++ t ++ [125] ++ r = 123 :: (t ++ 125 :: r) by simp, scanVal]
    simp only
    rw [if_neg (by decide), if_pos trivial]
    rw [h1] at h3 ⊢
    simp only
    rw [if_neg h2, h3]
  case eone =>
    intro w t w' v hw ht hw' ih hc n r hn
    obtain ⟨n, rfl⟩ : ∃ k, n = k + 1 := ⟨n - 1, by omega⟩
    simp only [List.length_append] at hn
    obtain ⟨c, t', rfl, hs⟩ := jText_start ht
    have hsol := start_ne hs
    have hcp := (cp_append.1 (cp_append.1 hc).1).2
    have h1 : skipWs (w ++ c :: t' ++ w' ++ 93 :: r) = c :: t' ++ (w' ++ 93 :: r) := by
      rw [show w ++ c :: t' ++ w' ++ 93 :: r = w ++ c :: (t' ++ (w' ++ 93 :: r)) by simp, skipWs_to w _ hw hsol.1]
      rfl
    rw [h1]
    refine ⟨⟨c, _, rfl, hsol.2.1⟩, ?_⟩
    rw [scanElems, ih hcp n _ (by omega) (.inl (stop_blank hw' (stop_cons r (by simp))))]
    simp only
    rw [skipWs_to w' r hw' (by unfold Solid; decide)]
    simp only [if_true]
  case emore =>
    intro w t w' r' v l hw ht hw' hl ih ihl hc n r hn
    obtain ⟨n, rfl⟩ : ∃ k, n = k + 1 := ⟨n - 1, by omega⟩
    simp only [List.length_append, List.length_cons, List.length_nil] at hn
    obtain ⟨c, t', rfl, hs⟩ := jText_start ht
    have hsol := start_ne hs
    have hcr := (cp_append.1 hc).2
    have hcp := (cp_append.1 (cp_append.1 (cp_append.1 (cp_append.1 hc).1).1).1).2
    have h1 : skipWs (w ++ c :: t' ++ w' ++ [44] ++ r' ++ 93 :: r) = c :: t' ++ (w' ++ 44 :: (r' ++ 93 :: r)) := by
      rw [show w ++ c :: t' ++ w' ++ [44] ++ r' ++ 93 :: r = w ++ c :: (t' ++ (w' ++ 44 :: (r' ++ 93 :: r))) by simp,
        skipWs_to w _ hw hsol.1]
      rfl
    rw [h1]
    refine ⟨⟨c, _, rfl, hsol.2.1⟩, ?_⟩
    rw [scanElems, ih hcp n _ (by omega) (.inl (stop_blank hw' (stop_cons _ (by simp))))]
    simp only
    rw [skipWs_to w' _ hw' (by unfold Solid; decide)]
    simp only [if_true]
    rw [if_neg (by decide), (ihl hcr n r (by simp only [List.length_cons] at hn; omega)).2]
  case mone =>
    intro w k' w' w'' t w''' k v hw hk hw' hw'' ht hw''' ih hc n r hn
    obtain ⟨n, rfl⟩ : ∃ k, n = k + 1 := ⟨n - 1, by omega⟩
    simp only [List.length_append, List.length_cons, List.length_nil] at hn
    have c1 := cp_append.1 (cp_append.1 hc).1
    have c2 := cp_append.1 (cp_append.1 (cp_append.1 (cp_append.1 c1.1).1).1).1
    obtain ⟨t1, rfl, hk1⟩ := scanStr_complete hk c2.2 (w' ++ 58 :: (w'' ++ (t ++ (w''' ++ 125 :: r))))
    obtain ⟨c, t', rfl, hs⟩ := jText_start ht
    have hsol := start_ne hs
    have h1 : skipWs (w ++ 34 :: t1 ++ w' ++ [58] ++ w'' ++ c :: t' ++ w''' ++ 125 :: r) =
        34 :: (t1 ++ (w' ++ 58 :: (w'' ++ (c :: t' ++ (w''' ++ 125 :: r))))) := by
      rw [show w ++ 34 :: t1 ++ w' ++ [58] ++ w'' ++ c :: t' ++ w''' ++ 125 :: r =
        w ++ 34 :: (t1 ++ (w' ++ 58 :: (w'' ++ (c :: t' ++ (w''' ++ 125 :: r))))) by simp,
        skipWs_to w _ hw (by unfold Solid; decide)]
    rw [h1]
    refine ⟨⟨34, _, rfl, by decide⟩, ?_⟩
    rw [scanMembers]
    rw [if_neg (by simp), hk1]
    simp only
    rw [skipWs_to w' _ hw' (by unfold Solid; decide)]
    simp only
    rw [if_neg (by simp), show c :: t' ++ (w''' ++ 125 :: r) = c :: (t' ++ (w''' ++ 125 :: r)) from rfl,
      skipWs_to w'' _ hw'' hsol.1, ← List.cons_append,
      ih c1.2 n _ (by omega) (.inl (stop_blank hw''' (stop_cons r (by simp))))]
    simp only
    rw [skipWs_to w''' r hw''' (by unfold Solid; decide)]
    simp only [if_true]
  case mmore =>
    intro w k' w' w'' t w''' r' k v l hw hk hw' hw'' ht hw''' hl ih ihl hc n r hn
    obtain ⟨n, rfl⟩ : ∃ k, n = k + 1 := ⟨n - 1, by omega⟩
    simp only [List.length_append, List.length_cons, List.length_nil] at hn
    have hcr := (cp_append.1 hc).2
    have c1 := cp_append.1 (cp_append.1 (cp_append.1 (cp_append.1 hc).1).1).1
    have c2 := cp_append.1 (cp_append.1 (cp_append.1 (cp_append.1 c1.1).1).1).1
    obtain ⟨t1, rfl, hk1⟩ := scanStr_complete hk c2.2 (w' ++ 58 :: (w'' ++ (t ++ (w''' ++ 44 :: (r' ++ 125 :: r)))))
    obtain ⟨c, t', rfl, hs⟩ := jText_start ht
    have hsol := start_ne hs
    have h1 : skipWs (w ++ 34 :: t1 ++ w' ++ [58] ++ w'' ++ c :: t' ++ w''' ++ [44] ++ r' ++ 125 :: r) =
        34 :: (t1 ++ (w' ++ 58 :: (w'' ++ (c :: t' ++ (w''' ++ 44 :: (r' ++ 125 :: r)))))) := by
      rw [show w ++ 34 :: t1 ++ w' ++ [58] ++ w'' ++ c :: t' ++ w''' ++ [44] ++ r' ++ 125 :: r =
        w ++ 34 :: (t1 ++ (w' ++ 58 :: (w'' ++ (c :: t' ++ (w''' ++ 44 :: (r' ++ 125 :: r)))))) by simp,
        skipWs_to w _ hw (by unfold Solid; decide)]
    rw [h1]
    refine ⟨⟨34, _, rfl, by decide⟩, ?_⟩
    rw [scanMembers]
    rw [if_neg (by simp), hk1]
    simp only
    rw [skipWs_to w' _ hw' (by unfold Solid; decide)]
    simp only
    rw [if_neg (by simp), show c :: t' ++ (w''' ++ 44 :: (r' ++ 125 :: r)) = c :: (t' ++ (w''' ++ 44 :: (r' ++ 125 :: r))) from rfl,
      skipWs_to w'' _ hw'' hsol.1, ← List.cons_append,
      ih c1.2 n _ (by omega) (.inl (stop_blank hw''' (stop_cons _ (by simp))))]
    simp only
    rw [skipWs_to w''' _ hw''' (by unfold Solid; decide)]
    simp only
    rw [if_neg (by decide), if_pos trivial, (ihl hcr n r (by simp only [List.length_cons] at hn; omega)).2]

theorem jText_complete {ext : Bool} {t : PyStr} {v : Val} (h : JText ext t v) (hc : CP t) (n : Nat) (r : PyStr)
    (hn : 2 * t.length + 1 ≤ n) (hr : Stop r) : scanVal n (t ++ r) = .ok (v, r) := jText_complete' h hc n r hn (.inl hr)

/-- No object is the beginning of another one. -/
theorem object_prefix {ext ext' : Bool} {x y r : PyStr} {v w : Val} (hx : JText ext x v) (hy : JText ext' y w) (hc : CP y)
    (h : y = x ++ r) (h0 : y.head? = some 123) : r = [] := by
  subst h
  have hx0 : x.head? = some 123 := by
    obtain ⟨c, x', rfl, -⟩ := jText_start hx
    exact h0
  have h1 := jText_complete' hx (cp_append.1 hc).1 (2 * (x ++ r).length + 1) r (by simp only [List.length_append]; omega) (.inr hx0)
  have h2 := jText_complete' hy hc (2 * (x ++ r).length + 1) [] le_rfl (.inr h0)
  rw [List.append_nil, h1] at h2
  simp only [Except.ok.injEq, Prod.mk.injEq] at h2
  exact h2.2

/-- Text without NaN and infinities is also text with them. -/
theorem jText_ext {ext : Bool} {t : PyStr} {v : Val} (h : JText ext t v) : JText true t v :=
  JText.rec (motive_1 := fun t v _ => JText true t v) (motive_2 := fun t l _ => JElems true t l)
    (motive_3 := fun t l _ => JMembers true t l)
    .null .true .false (fun h => .num h) (fun _ => .nan rfl) (fun _ => .inf rfl) (fun _ => .negInf rfl) (fun h => .str h)
    (fun h => .arr0 h) (fun _ ih => .arr ih) (fun h => .obj0 h) (fun _ ih => .obj ih)
    (fun h1 _ h2 ih => .one h1 ih h2) (fun h1 _ h2 _ ih1 ih2 => .more h1 ih1 h2 ih2)
    (fun h1 h2 h3 h4 _ h5 ih => .one h1 h2 h3 h4 ih h5)
    (fun h1 h2 h3 h4 _ h5 _ ih1 ih2 => .more h1 h2 h3 h4 ih1 h5 ih2) h

/-- White space before a character. -/
theorem skipWs_cons_split {t r : PyStr} {c : Nat} (h : skipWs t = c :: r) : ∃ w, Blank w ∧ t = w ++ c :: r := by
  obtain ⟨w, h1, h2⟩ := skipWs_split t
  rw [h] at h2
  exact ⟨w, h1, h2⟩

theorem cp_cons {c : Nat} {t : PyStr} : CP (c :: t) ↔ IsCodePoint c ∧ CP t := by
  simp [CP]

theorem cp_skipWs {t : PyStr} (h : CP t) : CP (skipWs t) := by
  obtain ⟨w, -, h2⟩ := skipWs_split t
  rw [h2] at h
  exact (cp_append.1 h).2

/-- What is read as a value is a value; elements and members likewise. -/
theorem scan_sound : ∀ n,
    (∀ t v r, CP t → scanVal n t = .ok (v, r) → ∃ x, t = x ++ r ∧ JText true x v) ∧
    (∀ t l r, CP t → scanElems n t = .ok (l, r) → ∃ x, t = x ++ 93 :: r ∧ JElems true x l) ∧
    (∀ t l r, CP t → scanMembers n t = .ok (l, r) → ∃ x, t = x ++ 125 :: r ∧ JMembers true x l)
  | 0 => by
    refine ⟨fun t v r _ h => ?_, fun t v r _ h => ?_, fun t v r _ h => ?_⟩
    · rw [scanVal] at h; cases h
    · rw [scanElems] at h; cases h
    · rw [scanMembers] at h; cases h
  | n + 1 => by
    obtain ⟨ih1, ih2, ih3⟩ := scan_sound n
    refine ⟨fun t v r hc h => ?_, fun t l r hc h => ?_, fun t l r hc h => ?_⟩
    · cases t with
      | nil => rw [scanVal] at h; cases h
      | cons c t =>
        have hct := (cp_cons.1 hc).2
        rw [scanVal] at h
        by_cases h34 : c = 34
        · rw [if_pos h34] at h
          subst h34
          cases hs : scanStr t with
          | error e => rw [hs] at h; cases h
          | ok y =>
            obtain ⟨s, r'⟩ := y
            rw [hs] at h
            simp only [Except.ok.injEq, Prod.mk.injEq] at h
            obtain ⟨rfl, rfl⟩ := h
            obtain ⟨x, h1, h2⟩ := scanStr_sound hct hs
            exact ⟨x, h1, .str h2⟩
        rw [if_neg h34] at h
        by_cases h123 : c = 123
        · rw [if_pos h123] at h
          subst h123
          cases hs : skipWs t with
          | nil => rw [hs] at h; cases h
          | cons d r' =>
            obtain ⟨w, hw, rfl⟩ := skipWs_cons_split hs
            rw [hs] at h
            simp only at h
            by_cases hd : d = 125
            · rw [if_pos hd] at h
              subst hd
              simp only [Except.ok.injEq, Prod.mk.injEq] at h
              obtain ⟨rfl, rfl⟩ := h
              exact ⟨[123] ++ w ++ [125], by simp, .obj0 hw⟩
            · rw [if_neg hd] at h
              cases hm : scanMembers n (d :: r') with
              | error e => rw [hm] at h; cases h
              | ok y =>
                obtain ⟨l, r''⟩ := y
                rw [hm] at h
                simp only [Except.ok.injEq, Prod.mk.injEq] at h
                obtain ⟨rfl, rfl⟩ := h
                obtain ⟨x, h1, h2⟩ := ih3 _ _ _ (cp_append.1 hct).2 hm
                refine ⟨[123] ++ (w ++ x) ++ [125], by rw [h1]; simp, .obj ?_⟩
                cases h2 with
                | one a1 a2 a3 a4 a5 a6 =>
                  simp only [← List.append_assoc]
                  exact .one (blank_append hw a1) a2 a3 a4 a5 a6
                | more a1 a2 a3 a4 a5 a6 a7 =>
                  simp only [← List.append_assoc]
                  exact .more (blank_append hw a1) a2 a3 a4 a5 a6 a7
        rw [if_neg h123] at h
        by_cases h91 : c = 91
        · rw [if_pos h91] at h
          subst h91
          cases hs : skipWs t with
          | nil => rw [hs] at h; cases h
          | cons d r' =>
            obtain ⟨w, hw, rfl⟩ := skipWs_cons_split hs
            rw [hs] at h
            simp only at h
            by_cases hd : d = 93
            · rw [if_pos hd] at h
              subst hd
              simp only [Except.ok.injEq, Prod.mk.injEq] at h
              obtain ⟨rfl, rfl⟩ := h
              exact ⟨[91] ++ w ++ [93], by simp, .arr0 hw⟩
            · rw [if_neg hd] at h
              cases hm : scanElems n (d :: r') with
              | error e => rw [hm] at h; cases h
              | ok y =>
                obtain ⟨l, r''⟩ := y
                rw [hm] at h
                simp only [Except.ok.injEq, Prod.mk.injEq] at h
                obtain ⟨rfl, rfl⟩ := h
                obtain ⟨x, h1, h2⟩ := ih2 _ _ _ (cp_append.1 hct).2 hm
                refine ⟨[91] ++ (w ++ x) ++ [93], by rw [h1]; simp, .arr ?_⟩
                cases h2 with
                | one a1 a2 a3 =>
                  simp only [← List.append_assoc]
                  exact .one (blank_append hw a1) a2 a3
                | more a1 a2 a3 a4 =>
                  simp only [← List.append_assoc]
                  exact .more (blank_append hw a1) a2 a3 a4
        rw [if_neg h91] at h
        exact scanAtom_sound h
    · rw [scanElems] at h
      cases hv : scanVal n t with
      | error e => rw [hv] at h; cases h
      | ok y =>
        obtain ⟨v, r1⟩ := y
        obtain ⟨x, rfl, hx⟩ := ih1 _ _ _ hc hv
        rw [hv] at h
        simp only at h
        cases hs : skipWs r1 with
        | nil => rw [hs] at h; cases h
        | cons c r2 =>
          obtain ⟨w, hw, rfl⟩ := skipWs_cons_split hs
          rw [hs] at h
          simp only at h
          by_cases hc93 : c = 93
          · rw [if_pos hc93] at h
            subst hc93
            simp only [Except.ok.injEq, Prod.mk.injEq] at h
            obtain ⟨rfl, rfl⟩ := h
            exact ⟨x ++ w, by simp, by simpa using JElems.one blank_nil hx hw⟩
          rw [if_neg hc93] at h
          by_cases hc44 : c = 44
          · rw [if_pos hc44] at h
            subst hc44
            have hcr := (cp_cons.1 (cp_append.1 (cp_append.1 hc).2).2).2
            cases hm : scanElems n (skipWs r2) with
            | error e => rw [hm] at h; cases h
            | ok y =>
              obtain ⟨l', r3⟩ := y
              rw [hm] at h
              simp only [Except.ok.injEq, Prod.mk.injEq] at h
              obtain ⟨rfl, rfl⟩ := h
              obtain ⟨y, h1, h2⟩ := ih2 _ _ _ (cp_skipWs hcr) hm
              obtain ⟨w2, hw2, h3⟩ := skipWs_split r2
              rw [h1] at h3
              have h4 : JElems true (w2 ++ y) l' := by
                cases h2 with
                | one a1 a2 a3 =>
                  simp only [← List.append_assoc]
                  exact .one (blank_append hw2 a1) a2 a3
                | more a1 a2 a3 a4 =>
                  simp only [← List.append_assoc]
                  exact .more (blank_append hw2 a1) a2 a3 a4
              exact ⟨x ++ w ++ [44] ++ (w2 ++ y), by rw [h3]; simp, by simpa using JElems.more blank_nil hx hw h4⟩
          · rw [if_neg hc44] at h; cases h
    · cases t with
      | nil => rw [scanMembers] at h; cases h
      | cons q t =>
        have hct := (cp_cons.1 hc).2
        rw [scanMembers] at h
        by_cases hq : q = 34
        · rw [if_neg (by simpa using hq)] at h
          subst hq
          cases hk : scanStr t with
          | error e => rw [hk] at h; cases h
          | ok y =>
            obtain ⟨k, r1⟩ := y
            obtain ⟨k', h1, hk'⟩ := scanStr_sound hct hk
            rw [hk] at h
            simp only at h
            rw [h1] at hc
            have hc1 := (cp_append.1 hc).2
            cases hs : skipWs r1 with
            | nil => rw [hs] at h; cases h
            | cons c r2 =>
              obtain ⟨w1, hw1, rfl⟩ := skipWs_cons_split hs
              rw [hs] at h
              simp only at h
              by_cases h58 : c = 58
              · rw [if_neg (by simpa using h58)] at h
                subst h58
                have hc2 := (cp_cons.1 (cp_append.1 hc1).2).2
                cases hv : scanVal n (skipWs r2) with
                | error e => rw [hv] at h; cases h
                | ok y =>
                  obtain ⟨v, r3⟩ := y
                  obtain ⟨x, h2, hx⟩ := ih1 _ _ _ (cp_skipWs hc2) hv
                  obtain ⟨w2, hw2, h3⟩ := skipWs_split r2
                  rw [h2] at h3
                  rw [h3] at hc2
                  rw [hv] at h
                  simp only at h
                  cases hs3 : skipWs r3 with
                  | nil => rw [hs3] at h; cases h
                  | cons c r4 =>
                    obtain ⟨w3, hw3, rfl⟩ := skipWs_cons_split hs3
                    rw [hs3] at h
                    simp only at h
                    by_cases hc125 : c = 125
                    · rw [if_pos hc125] at h
                      subst hc125
                      simp only [Except.ok.injEq, Prod.mk.injEq] at h
                      obtain ⟨rfl, rfl⟩ := h
                      refine ⟨[] ++ k' ++ w1 ++ [58] ++ w2 ++ x ++ w3, ?_, .one blank_nil hk' hw1 hw2 hx hw3⟩
                      rw [h1, h3]
                      simp
                    rw [if_neg hc125] at h
                    by_cases hc44 : c = 44
                    · rw [if_pos hc44] at h
                      subst hc44
                      have hcr := (cp_cons.1 (cp_append.1 (cp_append.1 (cp_append.1 hc2).2).2).2).2
                      cases hm : scanMembers n (skipWs r4) with
                      | error e => rw [hm] at h; cases h
                      | ok y =>
                        obtain ⟨l', r5⟩ := y
                        rw [hm] at h
                        simp only [Except.ok.injEq, Prod.mk.injEq] at h
                        obtain ⟨rfl, rfl⟩ := h
                        obtain ⟨y, h4, h5⟩ := ih3 _ _ _ (cp_skipWs hcr) hm
                        obtain ⟨w4, hw4, h6⟩ := skipWs_split r4
                        rw [h4] at h6
                        have h7 : JMembers true (w4 ++ y) l' := by
                          cases h5 with
                          | one a1 a2 a3 a4 a5 a6 =>
                            simp only [← List.append_assoc]
                            exact .one (blank_append hw4 a1) a2 a3 a4 a5 a6
                          | more a1 a2 a3 a4 a5 a6 a7 =>
                            simp only [← List.append_assoc]
                            exact .more (blank_append hw4 a1) a2 a3 a4 a5 a6 a7
                        refine ⟨[] ++ k' ++ w1 ++ [58] ++ w2 ++ x ++ w3 ++ [44] ++ (w4 ++ y), ?_,
                          .more blank_nil hk' hw1 hw2 hx hw3 h7⟩
                        rw [h1, h3, h6]
                        simp
                    · rw [if_neg hc44] at h; cases h
              · rw [if_pos (by simpa using h58)] at h; cases h
        · rw [if_pos (by simpa using hq)] at h; cases h

/-- `json.loads` reads exactly the documents of the grammar. -/
theorem jsonLoads_iff (t : PyStr) (v : Val) (hc : CP t) : jsonLoads t = .ok v ↔ JDoc true t v := by
  constructor
  · intro h
    unfold jsonLoads at h
    split at h
    · cases h
    · cases hv : scanVal (2 * t.length + 1) (skipWs t) with
      | error e => rw [hv] at h; cases h
      | ok y =>
        obtain ⟨v', r⟩ := y
        rw [hv] at h
        simp only at h
        split at h
        · rename_i hr
          simp only [Except.ok.injEq] at h
          subst h
          obtain ⟨x, h1, h2⟩ := (scan_sound _).1 _ _ _ (cp_skipWs hc) hv
          obtain ⟨w, hw, h3⟩ := skipWs_split t
          exact ⟨w, x, r, hw, h2, blank_of_skipWs hr, by rw [h3, h1]; simp⟩
        · cases h
  · rintro ⟨w, x, w', hw, hx, hw', rfl⟩
    obtain ⟨c, x', rfl, hs⟩ := jText_start hx
    obtain ⟨h1, -, -, -, -, h2⟩ := start_ne hs
    have hskip : skipWs (w ++ c :: x' ++ w') = c :: x' ++ w' := by
      rw [show w ++ c :: x' ++ w' = w ++ c :: (x' ++ w') by simp, skipWs_to w _ hw h1]
      rfl
    unfold jsonLoads
    rw [if_neg]
    · have hstop : Stop w' := by
        have := stop_blank hw' (r := []) (fun c hc => by cases hc)
        rwa [List.append_nil] at this
      rw [hskip, jText_complete hx (cp_append.1 (cp_append.1 hc).1).2 _ w' (by simp only [List.length_append]; omega) hstop]
      simp only
      rw [if_pos (skipWs_blank_nil hw')]
    · cases w with
      | nil => simpa using h2
      | cons a w =>
        have := hw a (by simp)
        simp only [List.cons_append, List.head?_cons, Option.some.injEq]
        omega

/-! ### errors -/

theorem scanUnits_err : ∀ (n : Nat) (t : PyStr) (e : Err), t.length ≤ n → scanUnits t = .error e → e = .value
  | n, [], _, _, h => by rw [scanUnits] at h; injection h with h; exact h.symm
  | 0, _ :: _, _, hl, _ => by simp at hl
  | n + 1, c :: t, e, hl, h => by
    have step : ∀ (s : PyStr) (u : Nat), s.length ≤ n →
        (match scanUnits s with
          | .ok (us, r) => .ok (u :: us, r)
          | .error x => .error x : J (List Nat)) = .error e → e = .value := by
      intro s u hs hm
      cases hq : scanUnits s with
      | error e' =>
        rw [hq] at hm
        injection hm with hm
        subst hm
        exact scanUnits_err n s _ hs hq
      | ok x => rw [hq] at hm; cases hm
    rw [scanUnits.eq_def] at h
    simp only at h
    by_cases h1 : c = 34
    · rw [if_pos h1] at h; cases h
    rw [if_neg h1] at h
    by_cases h2 : c = 92
    · rw [if_pos h2] at h
      cases t with
      | nil => injection h with h; exact h.symm
      | cons x t =>
        simp only at h
        by_cases h3 : x = 117
        · rw [if_pos h3] at h
          rcases t with _ | ⟨a, _ | ⟨b, _ | ⟨c, _ | ⟨d, t⟩⟩⟩⟩
          · injection h with h; exact h.symm
          · injection h with h; exact h.symm
          · injection h with h; exact h.symm
          · injection h with h; exact h.symm
          · simp only at h
            cases h4 : hex4 a b c d with
            | none => rw [h4] at h; injection h with h; exact h.symm
            | some u => rw [h4] at h; exact step t u (by simp at hl; omega) h
        · rw [if_neg h3] at h
          cases h4 : backslash x with
          | none => rw [h4] at h; injection h with h; exact h.symm
          | some u => rw [h4] at h; exact step t u (by simp at hl; omega) h
    · rw [if_neg h2] at h
      by_cases h3 : c < 32
      · rw [if_pos h3] at h; injection h with h; exact h.symm
      · rw [if_neg h3] at h
        exact step t c (by simp at hl; omega) h

theorem scanStr_err {t : PyStr} {e : Err} (h : scanStr t = .error e) : e = .value := by
  unfold scanStr at h
  cases hq : scanUnits t with
  | error e' => rw [hq] at h; injection h with h; subst h; exact scanUnits_err _ _ _ le_rfl hq
  | ok x => rw [hq] at h; cases h

theorem skipWs_length (t : PyStr) : (skipWs t).length ≤ t.length := by
  obtain ⟨w, -, h⟩ := skipWs_split t
  have := congrArg List.length h
  simp at this
  omega

theorem jText_length {ext : Bool} {t : PyStr} {v : Val} (h : JText ext t v) : 1 ≤ t.length := by
  obtain ⟨c, t', rfl, -⟩ := jText_start h
  simp

/-- All errors are JSONDecodeError; the fuel is enough. -/
theorem scan_err : ∀ n,
    (∀ t e, CP t → 2 * t.length + 1 ≤ n → scanVal n t = .error e → e = .value) ∧
    (∀ t e, CP t → 2 * t.length + 2 ≤ n → scanElems n t = .error e → e = .value) ∧
    (∀ t e, CP t → 2 * t.length + 2 ≤ n → scanMembers n t = .error e → e = .value)
  | 0 => ⟨fun t e _ h => by omega, fun t e _ h => by omega, fun t e _ h => by omega⟩
  | n + 1 => by
    obtain ⟨ih1, ih2, ih3⟩ := scan_err n
    have hval : ∀ {e : Err} {α : Type}, (Except.error Err.value : Except Err α) = .error e → e = .value :=
      fun h => by injection h with h; exact h.symm
    refine ⟨fun t e hc hl h => ?_, fun t e hc hl h => ?_, fun t e hc hl h => ?_⟩
    · cases t with
      | nil => rw [scanVal] at h; exact hval h
      | cons c t =>
        have hct := (cp_cons.1 hc).2
        simp only [List.length_cons] at hl
        have hsk := skipWs_length t
        have hcs := cp_skipWs hct
        rw [scanVal] at h
        by_cases h34 : c = 34
        · rw [if_pos h34] at h
          cases hs : scanStr t with
          | error e' => rw [hs] at h; injection h with h; subst h; exact scanStr_err hs
          | ok y => rw [hs] at h; cases h
        rw [if_neg h34] at h
        by_cases h123 : c = 123
        · rw [if_pos h123] at h
          cases hs : skipWs t with
          | nil => rw [hs] at h; exact hval h
          | cons d r' =>
            rw [hs] at h hsk hcs
            simp only at h
            by_cases hd : d = 125
            · rw [if_pos hd] at h; cases h
            · rw [if_neg hd] at h
              cases hm : scanMembers n (d :: r') with
              | error e' => rw [hm] at h; injection h with h; subst h; exact ih3 _ _ hcs (by omega) hm
              | ok y => rw [hm] at h; cases h
        rw [if_neg h123] at h
        by_cases h91 : c = 91
        · rw [if_pos h91] at h
          cases hs : skipWs t with
          | nil => rw [hs] at h; exact hval h
          | cons d r' =>
            rw [hs] at h hsk hcs
            simp only at h
            by_cases hd : d = 93
            · rw [if_pos hd] at h; cases h
            · rw [if_neg hd] at h
              cases hm : scanElems n (d :: r') with
              | error e' => rw [hm] at h; injection h with h; subst h; exact ih2 _ _ hcs (by omega) hm
              | ok y => rw [hm] at h; cases h
        rw [if_neg h91] at h
        exact scanAtom_err h
    · rw [scanElems] at h
      cases hv : scanVal n t with
      | error e' => rw [hv] at h; injection h with h; subst h; exact ih1 _ _ hc (by omega) hv
      | ok y =>
        obtain ⟨v, r1⟩ := y
        obtain ⟨x, rfl, hx⟩ := (scan_sound n).1 _ _ _ hc hv
        have hx1 := jText_length hx
        rw [hv] at h
        simp only at h
        cases hs : skipWs r1 with
        | nil => rw [hs] at h; exact hval h
        | cons c r2 =>
          obtain ⟨w, hw, rfl⟩ := skipWs_cons_split hs
          rw [hs] at h
          simp only at h
          by_cases hc93 : c = 93
          · rw [if_pos hc93] at h; cases h
          rw [if_neg hc93] at h
          by_cases hc44 : c = 44
          · rw [if_pos hc44] at h
            have hcr := (cp_cons.1 (cp_append.1 (cp_append.1 hc).2).2).2
            have hsk := skipWs_length r2
            simp only [List.length_append, List.length_cons] at hl
            cases hm : scanElems n (skipWs r2) with
            | error e' => rw [hm] at h; injection h with h; subst h; exact ih2 _ _ (cp_skipWs hcr) (by omega) hm
            | ok y => rw [hm] at h; cases h
          · rw [if_neg hc44] at h; exact hval h
    · cases t with
      | nil => rw [scanMembers] at h; exact hval h
      | cons q t =>
        have hct := (cp_cons.1 hc).2
        rw [scanMembers] at h
        by_cases hq : q = 34
        · rw [if_neg (by simpa using hq)] at h
          subst hq
          cases hk : scanStr t with
          | error e' => rw [hk] at h; injection h with h; subst h; exact scanStr_err hk
          | ok y =>
            obtain ⟨k, r1⟩ := y
            obtain ⟨k', h1, hk'⟩ := scanStr_sound hct hk
            rw [hk] at h
            simp only at h
            rw [h1] at hc hl
            have hc1 := (cp_append.1 hc).2
            cases hs : skipWs r1 with
            | nil => rw [hs] at h; exact hval h
            | cons c r2 =>
              obtain ⟨w1, hw1, rfl⟩ := skipWs_cons_split hs
              rw [hs] at h
              simp only at h
              by_cases h58 : c = 58
              · rw [if_neg (by simpa using h58)] at h
                have hc2 := (cp_cons.1 (cp_append.1 hc1).2).2
                have hsk2 := skipWs_length r2
                simp only [List.length_append, List.length_cons] at hl
                cases hv : scanVal n (skipWs r2) with
                | error e' => rw [hv] at h; injection h with h; subst h; exact ih1 _ _ (cp_skipWs hc2) (by omega) hv
                | ok y =>
                  obtain ⟨v, r3⟩ := y
                  obtain ⟨x, h2, hx⟩ := (scan_sound n).1 _ _ _ (cp_skipWs hc2) hv
                  have hc3 := cp_skipWs hc2
                  rw [h2] at hc3
                  have hlen := congrArg List.length h2
                  rw [hv] at h
                  simp only at h
                  cases hs3 : skipWs r3 with
                  | nil => rw [hs3] at h; exact hval h
                  | cons c r4 =>
                    obtain ⟨w3, hw3, rfl⟩ := skipWs_cons_split hs3
                    rw [hs3] at h
                    simp only at h
                    by_cases hc125 : c = 125
                    · rw [if_pos hc125] at h; cases h
                    rw [if_neg hc125] at h
                    by_cases hc44 : c = 44
                    · rw [if_pos hc44] at h
                      have hcr := (cp_cons.1 (cp_append.1 (cp_append.1 hc3).2).2).2
                      have hsk4 := skipWs_length r4
                      simp only [List.length_append, List.length_cons] at hlen
                      cases hm : scanMembers n (skipWs r4) with
                      | error e' => rw [hm] at h; injection h with h; subst h; exact ih3 _ _ (cp_skipWs hcr) (by omega) hm
                      | ok y => rw [hm] at h; cases h
                    · rw [if_neg hc44] at h; exact hval h
              · rw [if_pos (by simpa using h58)] at h; exact hval h
        · rw [if_pos (by simpa using hq)] at h; exact hval h

theorem jsonLoads_err {t : PyStr} {e : Err} (hc : CP t) (h : jsonLoads t = .error e) : e = .value := by
  unfold jsonLoads at h
  split at h
  · injection h with h; exact h.symm
  · cases hv : scanVal (2 * t.length + 1) (skipWs t) with
    | error e' =>
      rw [hv] at h
      injection h with h
      subst h
      have := skipWs_length t
      exact (scan_err _).1 _ _ (cp_skipWs hc) (by omega) hv
    | ok y =>
      rw [hv] at h
      simp only at h
      split at h
      · cases h
      · injection h with h; exact h.symm

end Pal
