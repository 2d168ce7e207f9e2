import Verif.Lemmas.JsonScan
import Verif.Lemmas.Nearest
/-
Numbers in JSON texts.
-/

namespace Pal
open Spec

theorem isDigit_iff (c : Nat) : isDigit c = true ↔ 48 ≤ c ∧ c ≤ 57 := by
  simp [isDigit]

theorem digitsVal_snoc (t : PyStr) (c : Nat) : digitsVal (t ++ [c]) = digitsVal t * 10 + (c - 48) := by
  simp [digitsVal, List.foldl_append]

theorem digitsVal_foldl (t : PyStr) (n : Nat) :
    t.foldl (fun n c => n * 10 + (c - 48)) n = n * 10 ^ t.length + digitsVal t := by
  induction t generalizing n with
  | nil => simp [digitsVal]
  | cons c t ih =>
    simp only [digitsVal, List.foldl_cons, List.length_cons] at ih ⊢
    rw [ih, ih (0 * 10 + (c - 48))]
    ring

theorem digitsVal_append (s t : PyStr) : digitsVal (s ++ t) = digitsVal s * 10 ^ t.length + digitsVal t := by
  rw [digitsVal, List.foldl_append, digitsVal_foldl]
  rfl

theorem digits_iff (t : PyStr) (n : Nat) : Digits t n ↔ t ≠ [] ∧ (∀ c ∈ t, isDigit c = true) ∧ digitsVal t = n := by
  constructor
  · intro h
    induction h with
    | one d h =>
      refine ⟨by simp, ?_, ?_⟩
      · intro c hc; simp only [List.mem_singleton] at hc; rw [isDigit_iff]; omega
      · simp [digitsVal]
    | more d h1 h2 ih =>
      obtain ⟨i1, i2, i3⟩ := ih
      refine ⟨by simp, ?_, ?_⟩
      · intro c hc
        rcases List.mem_append.1 hc with hc | hc
        · exact i2 c hc
        · simp only [List.mem_singleton] at hc; rw [isDigit_iff]; omega
      · rw [digitsVal_snoc, i3]; omega
  · rintro ⟨h1, h2, rfl⟩
    induction t using List.reverseRecOn with
    | nil => exact absurd rfl h1
    | append_singleton t c ih =>
      have hc := (isDigit_iff c).1 (h2 c (by simp))
      by_cases ht : t = []
      · subst ht
        have := Digits.one (c - 48) (by omega)
        rw [show 48 + (c - 48) = c by omega] at this
        rw [digitsVal_snoc]
        simpa [digitsVal] using this
      · have := Digits.more (c - 48) (ih ht fun x hx => h2 x (by simp [hx])) (by omega)
        rw [show 48 + (c - 48) = c by omega] at this
        rw [digitsVal_snoc, Nat.mul_comm]
        exact this

/-! ### scanning digits -/

/-- What may follow a number: nothing that would extend it. -/
def NumEnd (r : PyStr) : Prop := ∀ c, r.head? = some c → isDigit c = false ∧ c ≠ 46 ∧ c ≠ 101 ∧ c ≠ 69

/-- No digit follows. -/
def NoDigit (r : PyStr) : Prop := ∀ c, r.head? = some c → isDigit c = false

theorem noDigit_of {r : PyStr} (h : NumEnd r) : NoDigit r := fun c hc => (h c hc).1

theorem takeWhile_digits {t r : PyStr} (ht : ∀ c ∈ t, isDigit c = true) (hr : NoDigit r) :
    (t ++ r).takeWhile isDigit = t ∧ (t ++ r).dropWhile isDigit = r := by
  induction t with
  | nil =>
    cases r with
    | nil => exact ⟨rfl, rfl⟩
    | cons c r =>
      have := hr c rfl
      simp [this]
  | cons c t ih =>
    have h1 := ht c (by simp)
    have h2 := ih fun x hx => ht x (by simp [hx])
    simp [h1, h2]

theorem split_digits (t : PyStr) : (∀ c ∈ t.takeWhile isDigit, isDigit c = true) ∧ t = t.takeWhile isDigit ++ t.dropWhile isDigit := by
  refine ⟨fun c hc => ?_, (List.takeWhile_append_dropWhile).symm⟩
  induction t with
  | nil => cases hc
  | cons a t ih =>
    rw [List.takeWhile_cons] at hc
    split at hc
    · rcases List.mem_cons.1 hc with rfl | hc
      · assumption
      · exact ih hc
    · cases hc

theorem scanInt_complete {i r : PyStr} {n : Nat} (h : IntPart i n) (hr : NoDigit r) :
    scanInt (i ++ r) = some (i, r) ∧ digitsVal i = n := by
  obtain ⟨h1, h2⟩ := h
  obtain ⟨d1, d2, d3⟩ := (digits_iff _ _).1 h1
  refine ⟨?_, d3⟩
  cases i with
  | nil => exact absurd rfl d1
  | cons c t =>
    rw [List.cons_append]
    unfold scanInt
    simp only
    rcases h2 with h2 | h2
    · injection h2 with h3 h4
      subst h3 h4
      simp
    · have hc : c ≠ 48 := by simpa using h2
      obtain ⟨e1, e2⟩ := takeWhile_digits (t := t) (fun x hx => d2 x (by simp [hx])) hr
      rw [if_neg hc, if_pos (d2 c (by simp)), e1, e2]

theorem scanInt_sound {t i r : PyStr} (h : scanInt t = some (i, r)) : t = i ++ r ∧ IntPart i (digitsVal i) := by
  cases t with
  | nil => cases h
  | cons c t =>
    unfold scanInt at h
    simp only at h
    split at h
    · simp only [Option.some.injEq, Prod.mk.injEq] at h
      obtain ⟨rfl, rfl⟩ := h
      subst_vars
      exact ⟨rfl, .one 0 (by decide), .inl rfl⟩
    · split at h
      · rename_i h1 h2
        simp only [Option.some.injEq, Prod.mk.injEq] at h
        obtain ⟨rfl, rfl⟩ := h
        obtain ⟨e1, e2⟩ := split_digits t
        refine ⟨by rw [List.cons_append, ← e2], (digits_iff _ _).2 ⟨by simp, ?_, rfl⟩, .inr (by simpa using h1)⟩
        intro x hx
        rcases List.mem_cons.1 hx with rfl | hx
        · exact h2
        · exact e1 x hx
      · cases h

/-- What may follow an integer part or a fraction. -/
theorem scanFrac_complete {f r : PyStr} {k m : Nat} (h : Frac f k m) (hr : NoDigit r) (h46 : r.head? ≠ some 46) :
    ∃ ds, scanFrac (f ++ r) = (ds, r) ∧ ds.length = k ∧ digitsVal ds = m ∧ (ds = [] ↔ f = []) ∧ NoDigit (f ++ r) := by
  cases h with
  | none =>
    refine ⟨[], ?_, rfl, rfl, by simp, hr⟩
    cases r with
    | nil => rfl
    | cons c r =>
      have : c ≠ 46 := by simpa using h46
      simp [scanFrac, this]
  | some hd =>
    obtain ⟨d1, d2, d3⟩ := (digits_iff _ _).1 hd
    obtain ⟨e1, e2⟩ := takeWhile_digits d2 hr
    refine ⟨_, ?_, rfl, d3, by simp [d1], ?_⟩
    · rw [List.append_assoc, List.cons_append, List.nil_append]
      unfold scanFrac
      simp only
      rw [e1, e2, if_pos ⟨trivial, d1⟩]
    · intro c hc
      simp at hc
      subst hc
      rfl

theorem scanFrac_sound {t ds r : PyStr} (h : scanFrac t = (ds, r)) :
    ∃ f, t = f ++ r ∧ Frac f ds.length (digitsVal ds) ∧ (ds = [] ↔ f = []) := by
  cases t with
  | nil =>
    simp only [scanFrac, Prod.mk.injEq] at h
    obtain ⟨rfl, rfl⟩ := h
    exact ⟨[], rfl, .none, by simp⟩
  | cons c t =>
    unfold scanFrac at h
    simp only at h
    split at h
    · rename_i h1
      simp only [Prod.mk.injEq] at h
      obtain ⟨rfl, rfl⟩ := h
      obtain ⟨e1, e2⟩ := split_digits t
      refine ⟨[46] ++ t.takeWhile isDigit, ?_, .some ((digits_iff _ _).2 ⟨h1.2, e1, rfl⟩), by simp [h1.2]⟩
      rw [List.append_assoc, ← e2, h1.1]
      rfl
    · simp only [Prod.mk.injEq] at h
      obtain ⟨rfl, rfl⟩ := h
      exact ⟨[], rfl, .none, by simp⟩

theorem scanExp_complete {e r : PyStr} {x : Int} (h : Expo e x) (hr : NumEnd r) :
    ∃ ox, scanExp (e ++ r) = (ox, r) ∧ ox.getD 0 = x ∧ (ox = none ↔ e = []) ∧ NoDigit (e ++ r) ∧ (e ++ r).head? ≠ some 46 := by
  have hn := noDigit_of hr
  have he : ∀ (c : Nat) (t : PyStr), c = 101 ∨ c = 69 → NoDigit (c :: t) ∧ (c :: t).head? ≠ some 46 := by
    intro c t h
    refine ⟨fun d hd => ?_, ?_⟩
    · simp only [List.head?_cons, Option.some.injEq] at hd
      subst hd
      rcases h with rfl | rfl <;> rfl
    · rcases h with rfl | rfl <;> simp
  cases h with
  | none =>
    refine ⟨none, ?_, rfl, by simp, hn, ?_⟩
    · cases r with
      | nil => rfl
      | cons c r =>
        have := hr c rfl
        simp only [List.nil_append, scanExp]
        rw [if_neg (by omega)]
    · intro h46
      exact (hr 46 h46).2.1 rfl
  | plain c hc hd =>
    rename_i t x
    obtain ⟨d1, d2, d3⟩ := (digits_iff _ _).1 hd
    obtain ⟨e1, e2⟩ := takeWhile_digits d2 hn
    refine ⟨some x, ?_, rfl, by simp, he c _ hc⟩
    rw [List.append_assoc, List.cons_append, List.nil_append]
    unfold scanExp
    simp only
    have hs : scanSign (t ++ r) = (false, t ++ r) := by
      cases t with
      | nil => exact absurd rfl d1
      | cons a t =>
        have := (isDigit_iff a).1 (d2 a (by simp))
        rw [List.cons_append, scanSign, if_neg (by omega), if_neg (by omega)]
    rw [hs]
    simp only [e1, e2, d3]
    rw [if_pos ⟨hc, d1⟩]
    rfl
  | plus c hc hd =>
    rename_i t x
    obtain ⟨d1, d2, d3⟩ := (digits_iff _ _).1 hd
    obtain ⟨e1, e2⟩ := takeWhile_digits d2 hn
    refine ⟨some x, ?_, rfl, by simp, he c _ hc⟩
    simp only [List.cons_append, List.nil_append]
    unfold scanExp
    simp only
    have hs : scanSign (43 :: (t ++ r)) = (false, t ++ r) := rfl
    rw [hs]
    simp only [e1, e2, d3]
    rw [if_pos ⟨hc, d1⟩]
    rfl
  | minus c hc hd =>
    rename_i t x
    obtain ⟨d1, d2, d3⟩ := (digits_iff _ _).1 hd
    obtain ⟨e1, e2⟩ := takeWhile_digits d2 hn
    refine ⟨some (-(x : Int)), ?_, rfl, by simp, he c _ hc⟩
    simp only [List.cons_append, List.nil_append]
    unfold scanExp
    simp only
    have hs : scanSign (45 :: (t ++ r)) = (true, t ++ r) := rfl
    rw [hs]
    simp only [e1, e2, d3]
    rw [if_pos ⟨hc, d1⟩]
    rfl

theorem scanExp_sound {t r : PyStr} {ox : Option Int} (h : scanExp t = (ox, r)) :
    ∃ e, t = e ++ r ∧ Expo e (ox.getD 0) ∧ (ox = none ↔ e = []) := by
  cases t with
  | nil =>
    simp only [scanExp, Prod.mk.injEq] at h
    obtain ⟨rfl, rfl⟩ := h
    exact ⟨[], rfl, .none, by simp⟩
  | cons c t =>
    unfold scanExp at h
    simp only at h
    cases hs : scanSign t with
    | mk neg s =>
      rw [hs] at h
      simp only at h
      split at h
      · rename_i h1
        simp only [Prod.mk.injEq] at h
        obtain ⟨rfl, rfl⟩ := h
        obtain ⟨e1, e2⟩ := split_digits s
        have hd : Digits (s.takeWhile isDigit) (digitsVal (s.takeWhile isDigit)) := (digits_iff _ _).2 ⟨h1.2, e1, rfl⟩
        have hform : (t = 45 :: s ∧ neg = true) ∨ (t = 43 :: s ∧ neg = false) ∨ (t = s ∧ neg = false) := by
          cases t with
          | nil => simp only [scanSign, Prod.mk.injEq] at hs; exact .inr (.inr ⟨hs.2, hs.1.symm⟩)
          | cons a t =>
            rw [scanSign] at hs
            split at hs
            · simp only [Prod.mk.injEq] at hs
              exact .inl ⟨by rw [hs.2]; congr, hs.1.symm⟩
            · split at hs
              · simp only [Prod.mk.injEq] at hs
                exact .inr (.inl ⟨by rw [hs.2]; congr, hs.1.symm⟩)
              · simp only [Prod.mk.injEq] at hs
                exact .inr (.inr ⟨hs.2, hs.1.symm⟩)
        rcases hform with ⟨rfl, rfl⟩ | ⟨rfl, rfl⟩ | ⟨rfl, rfl⟩
        · exact ⟨[c, 45] ++ s.takeWhile isDigit, by simp [← e2], .minus c h1.1 hd, by simp⟩
        · exact ⟨[c, 43] ++ s.takeWhile isDigit, by simp [← e2], .plus c h1.1 hd, by simp⟩
        · exact ⟨[c] ++ t.takeWhile isDigit, by simp [← e2], .plain c h1.1 hd, by simp⟩
      · simp only [Prod.mk.injEq] at h
        obtain ⟨rfl, rfl⟩ := h
        exact ⟨[], rfl, .none, by simp⟩

/-! ### values of numbers -/

theorem ten_ne : (10 : ℚ) ≠ 0 := by norm_num

/-- `float(text)` is the double nearest to the number in the text. -/
theorem decFloat_nearest (neg : Bool) (m : Nat) (x : Int) : NearestFloat neg ((m : ℚ) * 10 ^ x) (decFloat neg m x) := by
  have h : ((m : ℚ) * 10 ^ x) = ((if 0 ≤ x then m * 10 ^ x.toNat else m : Nat) : ℚ) / ((if 0 ≤ x then 1 else 10 ^ (-x).toNat : Nat) : ℚ) := by
    split
    · rename_i hx
      obtain ⟨n, rfl⟩ := Int.eq_ofNat_of_zero_le hx
      simp
    · rename_i hx
      obtain ⟨n, rfl⟩ : ∃ n : Nat, x = -n := ⟨(-x).toNat, by omega⟩
      simp [div_eq_mul_inv]
  refine ⟨roundMag (if 0 ≤ x then m * 10 ^ x.toNat else m) (if 0 ≤ x then 1 else 10 ^ (-x).toNat), ?_, ?_⟩
  · rw [h]
    apply roundMag_nearest
    split
    · decide
    · exact Nat.pos_iff_ne_zero.1 (Nat.pos_of_ne_zero (by simp))
  · unfold decFloat mk64
    rw [BitVec.toNat_ofNat]
    generalize roundMag _ _ = r
    cases neg <;> simp only [if_true, Bool.false_eq_true, if_false] <;> omega

theorem frac_value (n m k : Nat) (x : Int) :
    ((n : ℚ) + m / 10 ^ k) * 10 ^ x = ((n * 10 ^ k + m : Nat) : ℚ) * 10 ^ (x - k) := by
  rw [zpow_sub₀ ten_ne, zpow_natCast]
  push_cast
  field_simp

theorem intPart_head {i : PyStr} {n : Nat} (h : IntPart i n) (t : PyStr) : ∃ c t', i ++ t = c :: t' ∧ isDigit c = true := by
  obtain ⟨d1, d2, -⟩ := (digits_iff _ _).1 h.1
  cases i with
  | nil => exact absurd rfl d1
  | cons c i => exact ⟨c, i ++ t, rfl, d2 c (by simp)⟩

/-- A number is read completely, with its value. -/
theorem scanNum_complete {s r : PyStr} {v : Val} (h : NumText s v) (hr : NumEnd r) :
    ∃ sg neg t, s = sg ++ t ∧ Sign sg neg ∧ (∃ c t', t = c :: t' ∧ isDigit c = true) ∧ scanNum neg (t ++ r) = some (v, r) := by
  cases h with
  | int hs hi =>
    rename_i sg i neg n
    refine ⟨sg, neg, i, rfl, hs, by simpa using intPart_head hi [], ?_⟩
    obtain ⟨h1, h2⟩ := scanInt_complete hi (noDigit_of hr)
    obtain ⟨ds, h3, h4, h5, h6, h7⟩ := scanFrac_complete .none (noDigit_of hr) (fun h => (hr 46 h).2.1 rfl)
    obtain ⟨ox, h8, h9, h10, -, -⟩ := scanExp_complete .none hr
    rw [List.nil_append] at h3 h8
    unfold scanNum
    rw [h1]
    simp only [h3, h8, h6.2 rfl, h10.2 rfl, if_true, h2]
  | float hs hi hf he hne hb =>
    rename_i sg i f e neg n k m x b
    obtain ⟨ox, h8, h9, h10, h11, h12⟩ := scanExp_complete he hr
    obtain ⟨ds, h3, h4, h5, h6, h7⟩ := scanFrac_complete hf h11 h12
    obtain ⟨h1, h2⟩ := scanInt_complete hi h7
    have hx : sg ++ i ++ f ++ e = sg ++ (i ++ (f ++ e)) := by simp
    refine ⟨sg, neg, i ++ (f ++ e), hx, hs, intPart_head hi _, ?_⟩
    unfold scanNum
    rw [show i ++ (f ++ e) ++ r = i ++ (f ++ (e ++ r)) by simp, h1]
    simp only [h3, h8]
    have hq : decFloat neg (digitsVal (i ++ ds)) (x - k) = b := by
      apply nearestFloat_unique (decFloat_nearest _ _ _)
      rw [digitsVal_append, h4, h2, h5, ← frac_value]
      exact hb
    cases ox with
    | none =>
      have : e = [] := h10.1 rfl
      subst this
      have hds : ds ≠ [] := fun h => hne (by rw [h6.1 h]; rfl)
      simp only
      rw [if_neg hds, ← hq, h4, ← h9]
      simp
    | some y =>
      simp only
      rw [← hq, h4, ← h9]
      rfl

/-- What is read as a number is a number. -/
theorem scanNum_sound {sg t r : PyStr} {neg : Bool} {v : Val} (hs : Sign sg neg) (h : scanNum neg t = some (v, r)) :
    ∃ x, t = x ++ r ∧ NumText (sg ++ x) v ∧ ∃ c t', x = c :: t' ∧ isDigit c = true := by
  unfold scanNum at h
  cases h1 : scanInt t with
  | none => rw [h1] at h; cases h
  | some y =>
    obtain ⟨i, t1⟩ := y
    obtain ⟨rfl, hi⟩ := scanInt_sound h1
    rw [h1] at h
    simp only at h
    cases h2 : scanFrac t1 with
    | mk ds t2 =>
      obtain ⟨f, rfl, hf, hf0⟩ := scanFrac_sound h2
      rw [h2] at h
      simp only at h
      cases h3 : scanExp t2 with
      | mk ox t3 =>
        obtain ⟨e, rfl, he, he0⟩ := scanExp_sound h3
        rw [h3] at h
        have hfl : ∀ x : Int, x = ox.getD 0 → f ++ e ≠ [] →
            NumText (sg ++ i ++ f ++ e) (.float (decFloat neg (digitsVal (i ++ ds)) (x - ds.length))) := by
          intro x hx hne
          refine .float hs hi hf (hx ▸ he) hne ?_
          rw [frac_value, ← digitsVal_append]
          exact decFloat_nearest _ _ _
        cases ox with
        | none =>
          have : e = [] := he0.1 rfl
          subst this
          simp only at h
          split at h
          · rename_i hds
            have : f = [] := hf0.1 hds
            subst this
            simp only [Option.some.injEq, Prod.mk.injEq] at h
            obtain ⟨rfl, rfl⟩ := h
            exact ⟨i, by simp, .int hs hi, by simpa using intPart_head hi []⟩
          · rename_i hds
            simp only [Option.some.injEq, Prod.mk.injEq] at h
            obtain ⟨rfl, rfl⟩ := h
            have := hfl 0 rfl (by simpa using fun h => hds (hf0.2 h))
            rw [Int.zero_sub] at this
            refine ⟨i ++ f, by simp, by simpa using this, intPart_head hi _⟩
        | some y =>
          simp only [Option.some.injEq, Prod.mk.injEq] at h
          obtain ⟨rfl, rfl⟩ := h
          have hne : f ++ e ≠ [] := by
            intro h
            have := he0.2 (List.append_eq_nil_iff.1 h).2
            cases this
          have := hfl y rfl hne
          exact ⟨i ++ (f ++ e), by simp, by simpa using this, intPart_head hi _⟩

end Pal
