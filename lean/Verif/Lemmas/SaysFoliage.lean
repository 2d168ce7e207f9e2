import Verif.Lemmas.SaysBlob
import Verif.Lemmas.StableFoliage
import Mathlib.Order.WithBot
/-
Foliage instances: packed locations and compressed rotators, for every value.
-/

namespace Pal
open Spec

/-! ### magnitudes -/

/-- The magnitude of a number: nothing for NaN, ⊤ for an infinity. -/
def cls : Num → Option (WithTop ℚ)
  | .i n => some ((|(n : ℚ)| : ℚ) : WithTop ℚ)
  | .f b => if isNaN64 b then none else if isInf64 b then some ⊤ else some ((|value64 b| : ℚ) : WithTop ℚ)

theorem num_cases (a : Num) : (NumFin a ∧ cls a = some ((|numVal a| : ℚ) : WithTop ℚ)) ∨
    (∃ b, a = .f b ∧ isNaN64 b = false ∧ isInf64 b = true ∧ cls a = some ⊤) ∨ ∃ b, a = .f b ∧ isNaN64 b = true ∧ cls a = none := by
  cases a with
  | i n => exact .inl ⟨trivial, rfl⟩
  | f b =>
    cases h1 : isNaN64 b with
    | true => exact .inr (.inr ⟨b, rfl, h1, by simp [cls, h1]⟩)
    | false =>
      cases h2 : isInf64 b with
      | true => exact .inr (.inl ⟨b, rfl, h1, h2, by simp [cls, h1, h2]⟩)
      | false => exact .inl ⟨(fin_iff b).2 ⟨h1, h2⟩, by simp [cls, h1, h2, numVal]⟩

theorem abs_class (b : BitVec 64) : isNaN64 (b &&& 0x7fffffffffffffff#64) = isNaN64 b ∧
    isInf64 (b &&& 0x7fffffffffffffff#64) = isInf64 b ∧ sgn64 (b &&& 0x7fffffffffffffff#64) = 0 := by
  have ha := abs_bits b
  have hb := b.isLt
  have e1 : b.toNat % 2 ^ 63 / 2 ^ 52 % 2 ^ 11 = b.toNat / 2 ^ 52 % 2 ^ 11 := by omega
  have e2 : b.toNat % 2 ^ 63 % 2 ^ 52 = b.toNat % 2 ^ 52 := by omega
  refine ⟨?_, ?_, ?_⟩
  · unfold isNaN64 exp64 man64; rw [ha, e1, e2]
  · unfold isInf64 exp64 man64; rw [ha, e1, e2]
  · unfold sgn64; rw [ha]; omega

theorem absLt (a b : Num) : (a.abs).lt b.abs = true ↔ ∃ p q, cls a = some p ∧ cls b = some q ∧ p < q := by
  rcases num_cases a with ⟨h1, h2⟩ | ⟨x, rfl, h1, h1', h2⟩ | ⟨x, rfl, h1, h2⟩
  · rcases num_cases b with ⟨h3, h4⟩ | ⟨y, rfl, h3, h3', h4⟩ | ⟨y, rfl, h3, h4⟩
    · rw [num_lt_spec _ _ (num_abs_spec a h1).1 (num_abs_spec b h3).1, (num_abs_spec a h1).2, (num_abs_spec b h3).2, h2, h4]
      simp
    · rw [h2, h4]
      obtain ⟨g1, g2, g3⟩ := abs_class y
      have : (a.abs).lt (Num.f y).abs = true := by
        cases a with
        | i n => simp only [Num.abs, Num.lt, g1, g2, g3, h3, h3']; simp
        | f x =>
          obtain ⟨k1, k2, k3⟩ := abs_class x
          obtain ⟨f1, f2⟩ := finite_not_special x h1
          simp only [Num.abs, Num.lt, g1, g2, g3, h3, h3', k1, k2, f1, f2]; simp
      rw [this]
      simp
    · rw [h4]
      obtain ⟨g1, g2, g3⟩ := abs_class y
      have : (a.abs).lt (Num.f y).abs = false := by
        cases a <;> simp [Num.abs, Num.lt, g1, h3]
      rw [this]
      simp
  · rw [h2]
    obtain ⟨g1, g2, g3⟩ := abs_class x
    have : ((Num.f x).abs).lt b.abs = false := by
      cases b <;> simp [Num.abs, Num.lt, g1, g2, g3, h1, h1']
    rw [this]
    simp
  · rw [h2]
    obtain ⟨g1, g2, g3⟩ := abs_class x
    have : ((Num.f x).abs).lt b.abs = false := by
      cases b <;> simp [Num.abs, Num.lt, g1, h1]
    rw [this]
    simp

theorem max_abs (a b c : Num) : ∃ m : Num, Num.max3 a.abs b.abs c.abs = m.abs ∧
    ∀ N : ℚ, (∃ p, cls m = some p ∧ p < (N : WithTop ℚ)) ↔
      cls a ≠ none ∧ (∀ p, cls a = some p → p < N) ∧ (∀ p, cls b = some p → p < N) ∧ ∀ p, cls c = some p → p < N := by
  have two : ∀ a b : Num, ∃ m : Num, (if (a.abs).lt b.abs = true then b.abs else a.abs) = m.abs ∧
      ∀ N : ℚ, (cls m ≠ none ∧ ∀ p, cls m = some p → p < (N : WithTop ℚ)) ↔
        cls a ≠ none ∧ (∀ p, cls a = some p → p < N) ∧ (∀ p, cls b = some p → p < N) := by
    intro a b
    by_cases h : (a.abs).lt b.abs = true
    · refine ⟨b, by rw [if_pos h], fun N => ?_⟩
      obtain ⟨p, q, h1, h2, h3⟩ := (absLt _ _).1 h
      rw [h1, h2]
      simp only [ne_eq, reduceCtorEq, not_false_eq_true, Option.some.injEq, true_and, forall_eq']
      exact ⟨fun h => ⟨lt_trans h3 h, h⟩, fun h => h.2⟩
    · refine ⟨a, by rw [if_neg h], fun N => ?_⟩
      rw [absLt] at h
      cases h1 : cls a with
      | none => simp
      | some p =>
        simp only [ne_eq, reduceCtorEq, not_false_eq_true, Option.some.injEq, true_and, forall_eq']
        refine ⟨fun h' => ⟨h', fun q hq => ?_⟩, fun h => h.1⟩
        exact lt_of_le_of_lt (not_lt.1 fun hlt => h ⟨p, q, h1, hq, hlt⟩) h'
  obtain ⟨m, h1, h2⟩ := two a b
  obtain ⟨M, h3, h4⟩ := two m c
  refine ⟨M, ?_, fun N => ?_⟩
  · unfold Num.max3
    simp only [h1]
    exact h3
  · have := h4 N
    rw [← and_assoc, h2 N] at this
    constructor
    · rintro ⟨p, g1, g2⟩
      have := this.1 ⟨by rw [g1]; simp, fun p' hp' => by rw [g1] at hp'; cases hp'; exact g2⟩
      exact ⟨this.1.1, this.1.2.1, this.1.2.2, this.2⟩
    · rintro ⟨g1, g2, g3, g4⟩
      obtain ⟨k1, k2⟩ := this.2 ⟨⟨g1, g2, g3⟩, g4⟩
      cases hM : cls M with
      | none => exact absurd hM k1
      | some p => exact ⟨p, rfl, k2 p hM⟩

theorem min_abs {a b c : Num} {p q r : ℚ} (ha : cls a = some (p : WithTop ℚ)) (hb : cls b = some (q : WithTop ℚ))
    (hc : cls c = some (r : WithTop ℚ)) :
    ∃ m : Num, Num.min3 a.abs b.abs c.abs = m.abs ∧ ∃ s : ℚ, cls m = some (s : WithTop ℚ) ∧
      ∀ N : ℚ, s < N ↔ p < N ∨ q < N ∨ r < N := by
  have two : ∀ {a b : Num} {p q : ℚ}, cls a = some (p : WithTop ℚ) → cls b = some (q : WithTop ℚ) →
      ∃ m : Num, (if (b.abs).lt a.abs = true then b.abs else a.abs) = m.abs ∧ ∃ s : ℚ, cls m = some (s : WithTop ℚ) ∧
        ∀ N : ℚ, s < N ↔ p < N ∨ q < N := by
    intro a b p q ha hb
    have hl := absLt b a
    rw [ha, hb] at hl
    simp only [Option.some.injEq, exists_and_left, exists_eq_left', WithTop.coe_lt_coe] at hl
    by_cases h : (b.abs).lt a.abs = true
    · refine ⟨b, by rw [if_pos h], q, hb, fun N => ?_⟩
      have := hl.1 h
      exact ⟨fun h => .inr h, fun h => h.elim (fun h => lt_trans this h) id⟩
    · refine ⟨a, by rw [if_neg h], p, ha, fun N => ?_⟩
      have := not_lt.1 (hl.not.1 h)
      exact ⟨fun h => .inl h, fun h => h.elim id (fun h => lt_of_le_of_lt this h)⟩
  obtain ⟨m, h1, s, h2, h3⟩ := two ha hb
  obtain ⟨M, h4, t, h5, h6⟩ := two h2 hc
  refine ⟨M, ?_, t, h5, fun N => ?_⟩
  · unfold Num.min3
    simp only [h1]
    exact h4
  · rw [h6, h3, or_assoc]

theorem cls_mulOne (a : Num) : cls (a.mulInt 1) = cls a := by
  rcases num_cases a with ⟨h1, h2⟩ | ⟨x, rfl, h1, h1', h2⟩ | ⟨x, rfl, h1, h2⟩
  · rw [h2]
    cases a with
    | i n => simp [Num.mulInt, cls, numVal]
    | f b =>
      obtain ⟨g1, g2⟩ := fmul_one b h1 (value_lt b h1)
      obtain ⟨f1, f2⟩ := finite_not_special _ g1
      simp only [Num.mulInt, one_f64, cls, f1, f2, numVal, g2]
      simp
  · rw [h2]
    have h3 : isNaN64 0x3ff0000000000000#64 = false := by decide +kernel
    have h4 : num64 0x3ff0000000000000#64 ≠ 0 := by decide +kernel
    have e : fmul x 0x3ff0000000000000#64 = mk64 ((sgn64 x + sgn64 0x3ff0000000000000#64) % 2) 2047 0 := by
      unfold fmul
      rw [h1, h1', h3]
      simp only [Bool.false_eq_true, if_false, true_or, if_true, not_true_eq_false, and_false, h4, false_and, or_self]
    have hs : ∀ s, s < 2 → isNaN64 (mk64 s 2047 0) = false ∧ isInf64 (mk64 s 2047 0) = true := by
      intro s hs
      have : s = 0 ∨ s = 1 := by omega
      rcases this with rfl | rfl
      · exact ⟨by decide +kernel, by decide +kernel⟩
      · exact ⟨by decide +kernel, by decide +kernel⟩
    obtain ⟨f1, f2⟩ := hs _ (Nat.mod_lt (sgn64 x + sgn64 0x3ff0000000000000#64) (by norm_num))
    simp only [Num.mulInt, one_f64, e, cls, f1, f2]
    simp
  · rw [h2]
    have e : fmul x 0x3ff0000000000000#64 = mk64 (sgn64 x) 2047 (quiet52 (man64 x)) := by
      unfold fmul
      rw [h1]; simp
    have hn : isNaN64 (mk64 (sgn64 x) 2047 (quiet52 (man64 x))) = true := by
      rw [isNaN64_iff]
      have hs := sgn64_lt x
      have hm : man64 x < 2 ^ 52 := (fields64 x).2.2.1
      have hq : quiet52 (man64 x) < 2 ^ 52 ∧ quiet52 (man64 x) ≠ 0 := by
        unfold quiet52; split <;> omega
      unfold NaN64 Special64 mk64
      rw [BitVec.toNat_ofNat]
      generalize quiet52 (man64 x) = q at hq ⊢
      generalize sgn64 x = s at hs ⊢
      omega
    simp only [Num.mulInt, one_f64, e, cls, hn]
    simp

/-- The scaled number truncates as the number does. -/
theorem trunc_iff (a : Num) (t : Int) : a.trunc = .ok t ↔ NumFin a ∧ IsTrunc (numVal a) t := by
  cases a with
  | i n =>
    simp only [Num.trunc, NumFin, numVal, true_and, Except.ok.injEq]
    have : IsTrunc (n : ℚ) n := ⟨fun _ => ⟨by linarith, by linarith⟩, fun _ => ⟨by linarith, by linarith⟩⟩
    exact ⟨fun h => by rw [← h]; exact this, fun h => isTrunc_unique _ _ _ this h⟩
  | f b =>
    by_cases hb : Finite64 b
    · obtain ⟨t', h1, h2⟩ := truncF_spec b hb
      simp only [Num.trunc, h1, NumFin, hb, numVal, true_and, Except.ok.injEq]
      exact ⟨fun h => by rw [← h]; exact h2, fun h => isTrunc_unique _ _ _ h2 h⟩
    · have : truncF b = none := by
        unfold truncF
        rw [if_pos]
        exact not_not.1 hb
      simp [Num.trunc, this, NumFin, hb]

theorem fin_cls (a : Num) (q : ℚ) : cls a = some (q : WithTop ℚ) ↔ NumFin a ∧ |numVal a| = q := by
  rcases num_cases a with ⟨h1, h2⟩ | ⟨x, rfl, h1, h1', h2⟩ | ⟨x, rfl, h1, h2⟩
  · rw [h2]; simp [h1]
  · rw [h2]
    simp only [Option.some.injEq, NumFin, fin_iff, h1, h1']
    simp
  · rw [h2]
    simp [NumFin, fin_iff, h1]

theorem trunc_mulOne (a : Num) (t : Int) : (a.mulInt 1).trunc = .ok t ↔ a.trunc = .ok t := by
  rw [trunc_iff, trunc_iff]
  have key : NumFin (a.mulInt 1) ↔ NumFin a := by
    have h1 := fin_cls (a.mulInt 1)
    have h2 := fin_cls a
    simp only [cls_mulOne] at h1
    exact ⟨fun h => ((h2 _).1 ((h1 _).2 ⟨h, rfl⟩)).1, fun h => ((h1 _).1 ((h2 _).2 ⟨h, rfl⟩)).1⟩
  rw [key]
  refine and_congr_right fun h => ?_
  have : NotNan a := by
    cases a with
    | i => trivial
    | f b => exact (finite_not_special b h).1
  rw [((mulOne this).2 (key.2 h)).2]

/-! ### locations -/

theorem numOf_says {v : Val} {a : Num} (h : numOf v = .ok a) :
    (∀ q, SaysNumber v q ↔ NumFin a ∧ numVal a = q) ∧ (∀ b, SaysF64 v b ↔ SaysF64 a.toVal b) ∧ v ≠ .none ∧
    ((∃ n, v = .float n ∧ NaN64 n) ↔ cls a = none) ∧ (Far v ↔ ∃ p, cls a = some p ∧ ((2 ^ 62 : ℚ) : WithTop ℚ) ≤ p) := by
  have hint : ∀ i : Int, SaysInt v i → a = .i i → (∀ b, v ≠ .float b) → v ≠ .none →
      (∀ q, SaysNumber v q ↔ NumFin a ∧ numVal a = q) ∧ (∀ b, SaysF64 v b ↔ SaysF64 a.toVal b) ∧ v ≠ .none ∧
      ((∃ n, v = .float n ∧ NaN64 n) ↔ cls a = none) ∧ (Far v ↔ ∃ p, cls a = some p ∧ ((2 ^ 62 : ℚ) : WithTop ℚ) ≤ p) := by
    rintro i hi rfl hf hn
    have hs : ∀ q, SaysNumber v q ↔ (i : ℚ) = q := by
      intro q
      constructor
      · intro h
        cases h with
        | int h => rw [saysInt_unique hi h]
        | float => exact absurd rfl (hf _)
      · rintro rfl; exact .int hi
    refine ⟨fun q => ?_, fun b => ?_, hn, ?_, ?_⟩
    · rw [hs]; simp [NumFin, numVal]
    · constructor
      · intro h
        cases h with
        | none => exact absurd rfl hn
        | float => exact absurd rfl (hf _)
        | int h1 h2 h3 => cases saysInt_unique hi h1; exact .int (.int _) h2 h3
      · intro h
        cases h with
        | int h1 h2 h3 => cases h1; exact .int hi h2 h3
    · simp only [cls, reduceCtorEq, iff_false, not_exists, not_and]
      intro n hv; exact absurd hv (hf n)
    · unfold Far
      constructor
      · rintro (⟨b, hb, -⟩ | ⟨q, h1, h2⟩)
        · exact absurd hb (hf b)
        · cases (hs q).1 h1
          exact ⟨_, rfl, WithTop.coe_le_coe.2 h2⟩
      · rintro ⟨p, h1, h2⟩
        cases h1
        exact .inr ⟨i, (hs _).2 rfl, WithTop.coe_le_coe.1 h2⟩
  cases v with
  | int i => cases h; exact hint i (.int i) rfl nofun nofun
  | bool b => cases h; exact hint _ (.bool b) rfl nofun nofun
  | float b =>
    cases h
    have hs : ∀ q, SaysNumber (.float b) q ↔ Finite64 b ∧ value64 b = q := by
      intro q
      constructor
      · intro h
        cases h with
        | int h => cases h
        | float h => exact ⟨h, rfl⟩
      · rintro ⟨h, rfl⟩; exact .float h
    refine ⟨fun q => hs q, fun _ => Iff.rfl, nofun, ?_, ?_⟩
    · simp only [Val.float.injEq, exists_eq_left', cls, ← isNaN64_iff]
      cases isNaN64 b <;> cases isInf64 b <;> simp
    · unfold Far
      simp only [Val.float.injEq, exists_eq_left', hs, ← isInf64_iff]
      rcases num_cases (.f b) with ⟨h1, h2⟩ | ⟨x, hx, h1, h1', h2⟩ | ⟨x, hx, h1, h2⟩
      · rw [h2]
        simp only [NumFin] at h1
        simp [finite_not_special b h1, h1, numVal]
      · cases hx; rw [h2]; simp [h1']
      · cases hx; rw [h2]
        have : ¬ Finite64 b := by rw [fin_iff, h1]; simp
        have hi : isInf64 b = false := by
          unfold isNaN64 at h1
          unfold isInf64
          simp only [decide_eq_true_eq, ne_eq, decide_eq_false_iff_not] at h1 ⊢
          tauto
        simp [this, hi]
  | _ => cases h

theorem width_min' (x y z : Int) (hx : x.natAbs < 2 ^ 62) (hy : y.natAbs < 2 ^ 62) (hz : z.natAbs < 2 ^ 62) :
    MinWidth (max (max (bitsNeeded x) (bitsNeeded y)) (bitsNeeded z)) x y z ∧
      max (max (bitsNeeded x) (bitsNeeded y)) (bitsNeeded z) ≤ 63 := by
  have px := bitsNeeded_pos x
  have kx := fun k hk => bitsNeeded_le x k hk (by omega)
  have ky := fun k hk => bitsNeeded_le y k hk (by omega)
  have kz := fun k hk => bitsNeeded_le z k hk (by omega)
  refine ⟨⟨by omega, ⟨?_, ?_, ?_⟩, ?_⟩, ?_⟩
  · exact (kx _ (by omega)).1 (by omega)
  · exact (ky _ (by omega)).1 (by omega)
  · exact (kz _ (by omega)).1 (by omega)
  · rintro j hj hlt ⟨h1, h2, h3⟩
    have := (kx j hj).2 h1
    have := (ky j hj).2 h2
    have := (kz j hj).2 h3
    omega
  · have h63 : ∀ v : Int, v.natAbs < 2 ^ 62 → FitsBits 63 v := by
      intro v hv
      unfold FitsBits
      norm_num
      omega
    have := (kx 63 (by omega)).2 (h63 x hx)
    have := (ky 63 (by omega)).2 (h63 y hy)
    have := (kz 63 (by omega)).2 (h63 z hz)
    omega

theorem packed_bytes {i j l : Int} (hi : i.natAbs < 2 ^ 62) (hj : j.natAbs < 2 ^ 62) (hl : l.natAbs < 2 ^ 62) (s : Bool) :
    ∃ k, MinWidth k i j l ∧ (wcat [wU32 (.int ((if s then 64 else 0) |||
        (max (max (bitsNeeded i) (bitsNeeded j)) (bitsNeeded l)) : Nat)),
      wSerializeInt (max (max (bitsNeeded i) (bitsNeeded j)) (bitsNeeded l)) i,
      wSerializeInt (max (max (bitsNeeded i) (bitsNeeded j)) (bitsNeeded l)) j,
      wSerializeInt (max (max (bitsNeeded i) (bitsNeeded j)) (bitsNeeded l)) l]) =
      .ok (lit 4 ((if s then 64 else 0) + k) ++ twos ((k + 7) / 8) i ++ twos ((k + 7) / 8) j ++ twos ((k + 7) / 8) l) := by
  obtain ⟨w1, w2⟩ := width_min' i j l hi hj hl
  refine ⟨_, w1, ?_⟩
  generalize max (max (bitsNeeded i) (bitsNeeded j)) (bitsNeeded l) = k at *
  obtain ⟨k0, ⟨f1, f2, f3⟩, _⟩ := w1
  rw [wSerializeInt_eq k i k0 f1, wSerializeInt_eq k j k0 f2, wSerializeInt_eq k l k0 f3]
  have e64 : ((if s then 64 else 0) ||| k : Nat) = (if s then 64 else 0) + k := by
    cases s
    · simp
    · have := Nat.two_pow_add_eq_or_of_lt (i := 6) (b := k) (by omega) 1
      simpa using this.symm
  have hb : (if s then 64 else 0) + k < 2 ^ 32 := by cases s <;> simp <;> omega
  rw [e64, show wU32 (.int (((if s then 64 else 0) + k : Nat) : Int)) = .ok (lit 4 ((if s then 64 else 0) + k)) from by
    rw [wU32, wUnsigned_in 4 _ (by simpa using hb), lit_eq]]
  simp only [wcat, List.append_nil, List.append_assoc]

theorem wPackedVector_nums {a b c : Val} {x y z : Num} (ha : numOf a = .ok x) (hb : numOf b = .ok y) (hc : numOf c = .ok z) :
    wPackedVector 1 a b c =
      if (Num.max3 (x.mulInt 1).abs (y.mulInt 1).abs (z.mulInt 1).abs).lt (.i (2 ^ 62)) then
        (do
          let useScaled := (Num.min3 x.abs y.abs z.abs).lt (.i (2 ^ 52))
          let xi ← (if useScaled then x.mulInt 1 else x).trunc
          let yi ← (if useScaled then y.mulInt 1 else y).trunc
          let zi ← (if useScaled then z.mulInt 1 else z).trunc
          let bits := max (max (bitsNeeded xi) (bitsNeeded yi)) (bitsNeeded zi)
          wcat [wU32 (.int ((if useScaled then 64 else 0) ||| bits : Nat)),
            wSerializeInt bits xi, wSerializeInt bits yi, wSerializeInt bits zi])
      else wcat [wU32 (.int 64), wDouble x.toVal, wDouble y.toVal, wDouble z.toVal] := by
  unfold wPackedVector
  rw [ha, hb, hc]
  rfl

theorem trunc_scaled (s : Bool) (x : Num) (t : Int) : (if s then x.mulInt 1 else x).trunc = .ok t ↔ x.trunc = .ok t := by
  cases s
  · exact Iff.rfl
  · exact trunc_mulOne x t

theorem isTrunc_lt {v : ℚ} {t : Int} (h : IsTrunc v t) (hv : |v| < 2 ^ 62) : t.natAbs < 2 ^ 62 :=
  isTrunc_abs v t (2 ^ 62) h (by push_cast; exact hv)

theorem six4 : wU32 (.int 64) = .ok (lit 4 64) := by
  have := wUnsigned_in 4 64 (by norm_num)
  rw [wU32, lit_eq]
  exact this

theorem nabs62 : Num.i (2 ^ 62) = (Num.i (2 ^ 62)).abs := by
  unfold Num.abs; norm_num

theorem nabs52 : Num.i (2 ^ 52) = (Num.i (2 ^ 52)).abs := by
  unfold Num.abs; norm_num

theorem far_cond {a b c : Val} {x y z : Num} (ha : numOf a = .ok x) (hb : numOf b = .ok y) (hc : numOf c = .ok z) :
    (Num.max3 (x.mulInt 1).abs (y.mulInt 1).abs (z.mulInt 1).abs).lt (.i (2 ^ 62)) = true ↔
      ¬ ((∃ n, a = .float n ∧ NaN64 n) ∨ Far a ∨ Far b ∨ Far c) := by
  obtain ⟨a1, a2, a3, a4, a5⟩ := numOf_says ha
  obtain ⟨b1, b2, b3, b4, b5⟩ := numOf_says hb
  obtain ⟨c1, c2, c3, c4, c5⟩ := numOf_says hc
  obtain ⟨m, hm1, hm2⟩ := max_abs (x.mulInt 1) (y.mulInt 1) (z.mulInt 1)
  rw [hm1, nabs62, absLt]
  have : cls (Num.i (2 ^ 62)) = some ((2 ^ 62 : ℚ) : WithTop ℚ) := by
    simp only [cls]; norm_num
  rw [this]
  have h := hm2 (2 ^ 62)
  simp only [cls_mulOne] at h
  rw [a4, a5, b5, c5]
  simp only [Option.some.injEq, exists_eq_left']
  have e : (∃ p q, cls m = some p ∧ ((2 ^ 62 : ℚ) : WithTop ℚ) = q ∧ p < q) ↔ ∃ p, cls m = some p ∧ p < ((2 ^ 62 : ℚ) : WithTop ℚ) := by
    constructor
    · rintro ⟨p, q, h1, h2, h3⟩; exact ⟨p, h1, by rw [h2]; exact h3⟩
    · rintro ⟨p, h1, h2⟩; exact ⟨p, _, h1, rfl, h2⟩
  rw [e, h]
  simp only [not_or, not_exists, not_and, not_le, ne_eq]

theorem small_cond {x y z : Num} : NumFin x → NumFin y → NumFin z → ((Num.min3 x.abs y.abs z.abs).lt (.i (2 ^ 52)) = true ↔
      (|numVal x| < 2 ^ 52 ∨ |numVal y| < 2 ^ 52 ∨ |numVal z| < 2 ^ 52)) := by
    intro f1 f2 f3
    obtain ⟨n, hn1, s, hn2, hn3⟩ := min_abs ((fin_cls x _).2 ⟨f1, rfl⟩) ((fin_cls y _).2 ⟨f2, rfl⟩) ((fin_cls z _).2 ⟨f3, rfl⟩)
    have : cls (Num.i (2 ^ 52)) = some ((2 ^ 52 : ℚ) : WithTop ℚ) := by
      simp only [cls]; norm_num
    rw [hn1, nabs52, absLt, this, hn2, ← hn3]
    constructor
    · rintro ⟨p, q, h1, h2, h3⟩
      cases h1; cases h2
      exact WithTop.coe_lt_coe.1 h3
    · intro h
      exact ⟨_, _, rfl, rfl, WithTop.coe_lt_coe.2 h⟩

theorem three_bind {α : Type} {A B C : Except Err Int} {f : Int → Int → Int → Except Err α} {r : α} :
    (do let i ← A; let j ← B; let l ← C; f i j l) = .ok r ↔
      ∃ i j l, A = .ok i ∧ B = .ok j ∧ C = .ok l ∧ f i j l = .ok r := by
  cases A with
  | error e => exact ⟨nofun, nofun⟩
  | ok i =>
  cases B with
  | error e => exact ⟨nofun, nofun⟩
  | ok j =>
  cases C with
  | error e => exact ⟨nofun, nofun⟩
  | ok l => exact ⟨fun h => ⟨i, j, l, rfl, rfl, rfl, h⟩, fun ⟨_, _, _, rfl, rfl, rfl, h⟩ => h⟩

theorem location_iff {a b c : Val} {bs : Bytes} : wPackedVector 1 a b c = .ok bs ↔ SaysLocation a b c bs := by
  cases ha : numOf a with
  | error e =>
    have h0 : ∀ q, ¬ SaysNumber a q := by
      intro q h
      cases h with
      | int h => cases h <;> cases ha
      | float => cases ha
    have h1 : ∀ b, SaysF64 a b → a = .none := by
      intro b h
      cases h with
      | none => rfl
      | float => cases ha
      | int h => cases h <;> cases ha
    unfold wPackedVector
    rw [ha]
    constructor
    · intro h; cases h
    · intro h
      cases h with
      | packed h => exact (h0 _ h).elim
      | doubles h _ _ h' => exact (h (h1 _ h')).elim
  | ok x =>
  cases hb : numOf b with
  | error e =>
    have h0 : ∀ q, ¬ SaysNumber b q := by
      intro q h
      cases h with
      | int h => cases h <;> cases hb
      | float => cases hb
    have h1 : ∀ y, SaysF64 b y → b = .none := by
      intro b h
      cases h with
      | none => rfl
      | float => cases hb
      | int h => cases h <;> cases hb
    unfold wPackedVector
    rw [ha, hb]
    constructor
    · intro h; cases h
    · intro h
      cases h with
      | packed _ h => exact (h0 _ h).elim
      | doubles _ h _ _ h' => exact (h (h1 _ h')).elim
  | ok y =>
  cases hc : numOf c with
  | error e =>
    have h0 : ∀ q, ¬ SaysNumber c q := by
      intro q h
      cases h with
      | int h => cases h <;> cases hc
      | float => cases hc
    have h1 : ∀ y, SaysF64 c y → c = .none := by
      intro b h
      cases h with
      | none => rfl
      | float => cases hc
      | int h => cases h <;> cases hc
    unfold wPackedVector
    rw [ha, hb, hc]
    constructor
    · intro h; cases h
    · intro h
      cases h with
      | packed _ _ h => exact (h0 _ h).elim
      | doubles _ _ h _ _ h' => exact (h (h1 _ h')).elim
  | ok z =>
  obtain ⟨a1, a2, a3, a4, a5⟩ := numOf_says ha
  obtain ⟨b1, b2, b3, b4, b5⟩ := numOf_says hb
  obtain ⟨c1, c2, c3, c4, c5⟩ := numOf_says hc
  rw [wPackedVector_nums ha hb hc]
  have hcond := far_cond ha hb hc
  by_cases hf : (∃ n, a = .float n ∧ NaN64 n) ∨ Far a ∨ Far b ∨ Far c
  · rw [if_neg (by rw [hcond]; exact not_not.2 hf)]
    constructor
    · intro h
      obtain ⟨p, q, r, s, h1, h2, h3, h4, rfl⟩ := wcat4.1 h
      rw [six4] at h1
      cases h1
      obtain ⟨x', g1, rfl⟩ := wDouble_iff.1 h2
      obtain ⟨y', g2, rfl⟩ := wDouble_iff.1 h3
      obtain ⟨z', g3, rfl⟩ := wDouble_iff.1 h4
      have := SaysLocation.doubles a3 b3 c3 ((a2 _).2 g1) ((b2 _).2 g2) ((c2 _).2 g3) hf
      simp only [List.append_assoc] at this
      exact this
    · intro h
      cases h with
      | @packed x' y' z' i j l k h1 h2 h3 h4 h5 h6 =>
        exfalso
        obtain ⟨f1, rfl⟩ := (a1 _).1 h1
        obtain ⟨f2, rfl⟩ := (b1 _).1 h2
        obtain ⟨f3, rfl⟩ := (c1 _).1 h3
        have k1 := (fin_cls x _).2 ⟨f1, rfl⟩
        have k2 := (fin_cls y _).2 ⟨f2, rfl⟩
        have k3 := (fin_cls z _).2 ⟨f3, rfl⟩
        rw [a4, a5, b5, c5, k1, k2, k3] at hf
        simp only [Option.some.injEq, exists_eq_left', WithTop.coe_le_coe, reduceCtorEq, false_or] at hf
        rcases hf with h | h | h
        · exact absurd h4 (not_lt.2 h)
        · exact absurd h5 (not_lt.2 h)
        · exact absurd h6 (not_lt.2 h)
      | @doubles x' y' z' _ _ _ h1 h2 h3 =>
        refine wcat4.2 ⟨_, _, _, _, six4, wDouble_iff.2 ⟨⟨x', by simp [F64Ok]⟩, (a2 _).1 h1, rfl⟩,
          wDouble_iff.2 ⟨⟨y', by simp [F64Ok]⟩, (b2 _).1 h2, rfl⟩, wDouble_iff.2 ⟨⟨z', by simp [F64Ok]⟩, (c2 _).1 h3, rfl⟩, ?_⟩
        simp only [List.append_assoc]
        rfl
  · rw [if_pos (hcond.2 hf)]
    have hnf : cls x ≠ none ∧ ∀ w, (w = x ∨ w = y ∨ w = z) → NumFin w → |numVal w| < 2 ^ 62 := by
      rw [a4, a5, b5, c5] at hf
      simp only [not_or, not_exists, not_and, not_le] at hf
      refine ⟨hf.1, ?_⟩
      rintro w (rfl | rfl | rfl) hw
      · exact WithTop.coe_lt_coe.1 (hf.2.1 _ ((fin_cls _ _).2 ⟨hw, rfl⟩))
      · exact WithTop.coe_lt_coe.1 (hf.2.2.1 _ ((fin_cls _ _).2 ⟨hw, rfl⟩))
      · exact WithTop.coe_lt_coe.1 (hf.2.2.2 _ ((fin_cls _ _).2 ⟨hw, rfl⟩))
    have hmin := @small_cond x y z
    constructor
    · intro h
      dsimp only at h
      generalize hS : (Num.min3 x.abs y.abs z.abs).lt (.i (2 ^ 52)) = S at h hmin
      obtain ⟨i, j, l, t1, t2, t3, h⟩ := three_bind.1 h
      rw [trunc_scaled, trunc_iff] at t1 t2 t3
      have v1 := hnf.2 x (.inl rfl) t1.1
      have v2 := hnf.2 y (.inr (.inl rfl)) t2.1
      have v3 := hnf.2 z (.inr (.inr rfl)) t3.1
      obtain ⟨k, hk, hbs⟩ := packed_bytes (isTrunc_lt t1.2 v1) (isTrunc_lt t2.2 v2) (isTrunc_lt t3.2 v3) S
      rw [hbs, Except.ok.injEq] at h
      subst h
      have hif : (if S then 64 else 0) = if |numVal x| < 2 ^ 52 ∨ |numVal y| < 2 ^ 52 ∨ |numVal z| < 2 ^ 52 then 64 else 0 := by
        have := hmin t1.1 t2.1 t3.1
        by_cases hc : S = true
        · rw [if_pos hc, if_pos (this.1 hc)]
        · rw [if_neg hc, if_neg (this.not.1 hc)]
      rw [hif]
      exact .packed ((a1 _).2 ⟨t1.1, rfl⟩) ((b1 _).2 ⟨t2.1, rfl⟩) ((c1 _).2 ⟨t3.1, rfl⟩) v1 v2 v3 t1.2 t2.2 t3.2 hk
    · intro h
      cases h with
      | @packed x' y' z' i j l k h1 h2 h3 h4 h5 h6 h7 h8 h9 hk =>
        obtain ⟨f1, rfl⟩ := (a1 _).1 h1
        obtain ⟨f2, rfl⟩ := (b1 _).1 h2
        obtain ⟨f3, rfl⟩ := (c1 _).1 h3
        dsimp only
        have hif : (if |numVal x| < 2 ^ 52 ∨ |numVal y| < 2 ^ 52 ∨ |numVal z| < 2 ^ 52 then 64 else 0) =
            if (Num.min3 x.abs y.abs z.abs).lt (.i (2 ^ 52)) then 64 else 0 := by
          have := hmin f1 f2 f3
          by_cases hc : (Num.min3 x.abs y.abs z.abs).lt (.i (2 ^ 52)) = true
          · rw [if_pos hc, if_pos (this.1 hc)]
          · rw [if_neg hc, if_neg (this.not.1 hc)]
        rw [hif]
        generalize (Num.min3 x.abs y.abs z.abs).lt (.i (2 ^ 52)) = S
        obtain ⟨k', hk', hbs⟩ := packed_bytes (isTrunc_lt h7 h4) (isTrunc_lt h8 h5) (isTrunc_lt h9 h6) S
        cases minWidth_unique hk hk'
        exact three_bind.2 ⟨i, j, l, (trunc_scaled S x i).2 ((trunc_iff _ _).2 ⟨f1, h7⟩),
          (trunc_scaled S y j).2 ((trunc_iff _ _).2 ⟨f2, h8⟩), (trunc_scaled S z l).2 ((trunc_iff _ _).2 ⟨f3, h9⟩), hbs⟩
      | doubles _ _ _ _ _ _ h => exact absurd h hf

/-! ### angles -/

theorem roundsTo_unique {q : ℚ} {i j : Int} (hi : RoundsTo q i) (hj : RoundsTo q j) : i = j := by
  have key : ∀ i j : Int, i < j → RoundsTo q i → RoundsTo q j → False := by
    intro i j hij hi hj
    have h1 : (i : ℚ) + 1 ≤ j := by exact_mod_cast hij
    unfold RoundsTo at hi hj
    have a1 : q - i ≤ 1 / 2 := le_of_abs_le (hi.elim (fun h => h.le) fun h => h.1.le)
    have a2 : -(1 / 2) ≤ q - j := neg_le_of_abs_le (hj.elim (fun h => h.le) fun h => h.1.le)
    have e : (j : ℚ) = i + 1 := by linarith
    have e' : j = i + 1 := by exact_mod_cast e
    have q1 : q - i = 1 / 2 := by linarith
    have q2 : q - j = -(1 / 2) := by linarith
    rw [q1] at hi
    rw [q2] at hj
    norm_num [abs_of_pos] at hi hj
    omega
  rcases lt_trichotomy i j with h | h | h
  · exact (key i j h hi hj).elim
  · exact h
  · exact (key j i h hj hi).elim

theorem rhe_rounds (n d : Nat) (hd : 0 < d) : RoundsTo ((n : ℚ) / d) (rhe n d : Nat) := by
  have h1 := rhe_near n d hd
  rw [abs_sub_comm] at h1
  rcases lt_or_eq_of_le h1 with h | h
  · exact .inl (by simpa using h)
  · refine .inr ⟨by simpa using h, ?_⟩
    have := rhe_tie n d hd (by rw [abs_sub_comm]; exact h)
    omega

theorem roundsTo_neg {q : ℚ} {i : Int} (h : RoundsTo q i) : RoundsTo (-q) (-i) := by
  have e : |-q - ((-i : Int) : ℚ)| = |q - i| := by
    rw [← abs_neg]; congr 1; push_cast; ring
  unfold RoundsTo at *
  rw [e]
  rcases h with h | h
  · exact .inl h
  · exact .inr ⟨h.1, by omega⟩

theorem roundF_iff (b : BitVec 64) (i : Int) : roundF b = some i ↔ Finite64 b ∧ RoundsTo (value64 b) i := by
  by_cases hb : Finite64 b
  · have key : ∃ j, roundF b = some j ∧ RoundsTo (value64 b) j := by
      unfold roundF
      rw [if_neg (finite_exp b hb), value64_eq]
      refine ⟨_, rfl, ?_⟩
      generalize num64 b = m
      generalize scale64 b = x
      dsimp only
      by_cases hx : 0 ≤ x
      · rw [if_pos hx]
        left
        obtain ⟨k, rfl⟩ := Int.eq_ofNat_of_zero_le hx
        simp
      · rw [if_neg hx]
        obtain ⟨k, hk⟩ : ∃ k : Nat, x = -(k : Int) := ⟨(-x).toNat, by omega⟩
        subst hk
        rw [neg_neg, Int.toNat_natCast, rne_eq_rhe]
        have hr := rhe_rounds m.natAbs (2 ^ k) (by positivity)
        by_cases hm : m < 0
        · rw [if_pos hm]
          have := roundsTo_neg hr
          have e : (m : ℚ) * 2 ^ (-(k : Int)) = -((m.natAbs : ℚ) / ((2 ^ k : Nat) : ℚ)) := by
            rw [zpow_neg, zpow_natCast]
            have : (m : ℚ) = -(m.natAbs : ℚ) := by
              have : m = -(m.natAbs : Int) := by omega
              have h := congrArg (Int.cast (R := ℚ)) this
              rw [Int.cast_neg, Int.cast_natCast] at h
              exact h
            rw [this]; push_cast; ring
          rw [e]; exact this
        · rw [if_neg hm]
          have e : (m : ℚ) * 2 ^ (-(k : Int)) = ((m.natAbs : ℚ) / ((2 ^ k : Nat) : ℚ)) := by
            rw [zpow_neg, zpow_natCast]
            have : (m : ℚ) = (m.natAbs : ℚ) := by
              have : m = (m.natAbs : Int) := by omega
              have h := congrArg (Int.cast (R := ℚ)) this
              rw [Int.cast_natCast] at h
              exact h
            rw [this]; push_cast; ring
          rw [e]; exact hr
    obtain ⟨j, h1, h2⟩ := key
    rw [h1, Option.some.injEq]
    exact ⟨fun h => ⟨hb, h ▸ h2⟩, fun h => roundsTo_unique h2 h.2⟩
  · have : roundF b = none := by
      unfold roundF
      rw [if_pos]
      exact not_not.1 hb
    rw [this]
    simp [hb]

theorem rotInv_nearest (c : BitVec 64) : NearestFloat false (65536 / 360) c ↔ c = rotInv := by
  have h : NearestMag ((65536 : Nat) / (360 : Nat) : ℚ) (roundMag 65536 360) := roundMag_nearest 65536 360 (by norm_num)
  have hb : rotInv.toNat = min (roundMag 65536 360) (2047 * 2 ^ 52) := by decide +kernel
  constructor
  · rintro ⟨r, h1, h2⟩
    have : r = roundMag 65536 360 := nearest_unique h1 (by simpa using h)
    refine BitVec.eq_of_toNat_eq ?_
    rw [h2, hb, this]; simp
  · rintro rfl
    exact ⟨_, by simpa using h, by rw [hb]; simp⟩

theorem fmul_rot (x p : BitVec 64) (hx : Finite64 x) :
    NearestFloat (decide (2 ^ 63 ≤ x.toNat)) |value64 x * value64 rotInv| p ↔ fmul x rotInv = p := by
  obtain ⟨N, D, hD, hq, hf⟩ := fmul_fin x rotInv hx rotInv_value.1
  have hs : sgn64 rotInv = 0 := by decide +kernel
  have hn := roundMag_nearest N D hD
  rw [hq] at hn
  have hsg : (sgn64 x + sgn64 rotInv) % 2 * 2 ^ 63 = if decide (2 ^ 63 ≤ x.toNat) then 2 ^ 63 else 0 := by
    have := x.isLt
    rw [hs]
    unfold sgn64
    simp only [decide_eq_true_eq]
    split <;> omega
  rw [hsg] at hf
  have hlt : (if decide (2 ^ 63 ≤ x.toNat) then 2 ^ 63 else 0) + min (roundMag N D) (2047 * 2 ^ 52) < 2 ^ 64 := by
    split <;> omega
  constructor
  · rintro ⟨r, h1, h2⟩
    cases nearest_unique h1 hn
    refine BitVec.eq_of_toNat_eq ?_
    rw [h2, hf, BitVec.toNat_ofNat, Nat.mod_eq_of_lt hlt]
  · rintro rfl
    refine ⟨_, hn, ?_⟩
    rw [hf, BitVec.toNat_ofNat, Nat.mod_eq_of_lt hlt]

theorem fmul_rot_special (x : BitVec 64) (hx : ¬ Finite64 x) : ¬ Finite64 (fmul x rotInv) := by
  have hn : ∀ s m, s < 2 → m < 2 ^ 52 → ¬ Finite64 (mk64 s 2047 m) := by
    intro s m hs hm h
    unfold Finite64 mk64 at h
    rw [BitVec.toNat_ofNat] at h
    apply h
    omega
  have hr := finite_not_special _ rotInv_value.1
  have hz : num64 rotInv ≠ 0 := by decide +kernel
  have hs := sgn64_lt x
  have hm : man64 x < 2 ^ 52 := (fields64 x).2.2.1
  unfold fmul
  by_cases h1 : isNaN64 x = true
  · rw [if_pos h1]
    exact hn _ _ hs (by unfold quiet52; split <;> omega)
  · have h2 : isInf64 x = true := by
      rw [fin_iff] at hx
      by_contra h2
      exact hx ⟨by simpa using h1, by simpa using h2⟩
    rw [if_neg h1, hr.1, hr.2, h2]
    simp only [Bool.false_eq_true, if_false, true_or, if_true, not_true_eq_false, and_false, hz, false_and, or_self]
    exact hn _ _ (Nat.mod_lt _ (by norm_num)) (by norm_num)

theorem wrap16 (i : Int) : (i % 65536).toNat = (BitVec.ofInt 16 i).toNat := by
  rw [BitVec.toNat_ofInt]; rfl

theorem angle_f (x : BitVec 64) (n : Nat) :
    (match roundF (fmul x rotInv) with | some i => (Except.ok (i % 65536).toNat : Except Err Nat) | none => .error .value) = .ok n ↔
      ∃ (c p : BitVec 64) (i : Int), Finite64 x ∧ NearestFloat false (65536 / 360) c ∧
        NearestFloat (decide (2 ^ 63 ≤ x.toNat)) |value64 x * value64 c| p ∧ Finite64 p ∧ RoundsTo (value64 p) i ∧
        n = (BitVec.ofInt 16 i).toNat := by
  constructor
  · intro h
    cases hr : roundF (fmul x rotInv) with
    | none => rw [hr] at h; cases h
    | some i =>
      rw [hr] at h
      obtain ⟨h1, h2⟩ := (roundF_iff _ _).1 hr
      have hx : Finite64 x := by
        by_contra hx
        exact fmul_rot_special x hx h1
      refine ⟨rotInv, _, i, hx, (rotInv_nearest _).2 rfl, (fmul_rot x _ hx).2 rfl, h1, h2, ?_⟩
      rw [← wrap16]
      exact (Except.ok.inj h).symm
  · rintro ⟨c, p, i, hx, h1, h2, h3, h4, rfl⟩
    cases (rotInv_nearest _).1 h1
    cases (fmul_rot x p hx).1 h2
    rw [(roundF_iff _ _).2 ⟨h3, h4⟩, ← wrap16]

theorem shortOf_iff {v : Val} {n : Nat} : shortOf v = .ok n ↔ ∃ a, SaysAngle v a ∧ n = a.toNat := by
  have hint : ∀ i : Int, SaysInt v i → (∀ b, v ≠ .float b) → v ≠ .none →
      (shortOf v = match intToF64 i with
        | some b => match roundF (fmul b rotInv) with
          | some i => .ok (i % 65536).toNat
          | none => .error .value
        | none => .error .overflow) → (shortOf v = .ok n ↔ ∃ a, SaysAngle v a ∧ n = a.toNat) := by
    intro i hi hf hn he
    rw [he]
    constructor
    · intro h
      cases hq : intToF64 i with
      | none => rw [hq] at h; cases h
      | some x =>
        rw [hq] at h
        obtain ⟨c, p, j, h1, h2, h3, h4, h5, h6⟩ := (angle_f x n).1 h
        obtain ⟨g1, g2⟩ := intToF64_iff.1 hq
        exact ⟨_, .mk hn (.int hi g1 g2) h1 h2 h3 h4 h5, h6⟩
    · rintro ⟨a, h, rfl⟩
      cases h with
      | mk hn hs h1 h2 h3 h4 h5 =>
        cases hs with
        | none => exact absurd rfl hn
        | float => exact absurd rfl (hf _)
        | int k1 k2 k3 =>
          cases saysInt_unique hi k1
          rw [intToF64_iff.2 ⟨k2, k3⟩]
          exact (angle_f _ _).2 ⟨_, _, _, h1, h2, h3, h4, h5, rfl⟩
  cases v with
  | int i => exact hint i (.int i) nofun nofun rfl
  | bool b => exact hint _ (.bool b) nofun nofun rfl
  | float b =>
    constructor
    · intro h
      obtain ⟨c, p, j, h1, h2, h3, h4, h5, h6⟩ := (angle_f b n).1 h
      exact ⟨_, .mk nofun (.float _) h1 h2 h3 h4 h5, h6⟩
    · rintro ⟨a, h, rfl⟩
      cases h with
      | mk hn hs h1 h2 h3 h4 h5 =>
        cases hs with
        | float => exact (angle_f _ _).2 ⟨_, _, _, h1, h2, h3, h4, h5, rfl⟩
        | int k1 => cases k1
  | _ =>
    constructor
    · intro h; cases h
    · rintro ⟨a, h, rfl⟩
      cases h with
      | mk hn hs =>
        cases hs <;> first | exact absurd rfl hn | (rename_i k1 _ _; cases k1)

theorem rotator_iff {a b c : Val} {bs : Bytes} : wRotator a b c = .ok bs ↔
    ∃ p y r, SaysAngle a p ∧ SaysAngle b y ∧ SaysAngle c r ∧ bs = encRotator p.toNat y.toNat r.toNat := by
  unfold wRotator
  constructor
  · intro h
    cases h1 : shortOf a with
    | error e => rw [h1] at h; cases h
    | ok i =>
    cases h2 : shortOf b with
    | error e => rw [h1, h2] at h; cases h
    | ok j =>
    cases h3 : shortOf c with
    | error e => rw [h1, h2, h3] at h; cases h
    | ok l =>
    rw [h1, h2, h3] at h
    obtain ⟨p, g1, rfl⟩ := shortOf_iff.1 h1
    obtain ⟨y, g2, rfl⟩ := shortOf_iff.1 h2
    obtain ⟨r, g3, rfl⟩ := shortOf_iff.1 h3
    refine ⟨p, y, r, g1, g2, g3, ?_⟩
    have h : wcat [wShortAngle p.toNat, wShortAngle y.toNat, wShortAngle r.toNat] = .ok bs := h
    rw [wShortAngle_eq _ p.isLt, wShortAngle_eq _ y.isLt, wShortAngle_eq _ r.isLt] at h
    have h := (Except.ok.inj h).symm
    rw [h]
    simp [encRotator]
  · rintro ⟨p, y, r, g1, g2, g3, rfl⟩
    rw [shortOf_iff.2 ⟨p, g1, rfl⟩, shortOf_iff.2 ⟨y, g2, rfl⟩, shortOf_iff.2 ⟨r, g3, rfl⟩]
    show wcat [wShortAngle p.toNat, wShortAngle y.toNat, wShortAngle r.toNat] = _
    rw [wShortAngle_eq _ p.isLt, wShortAngle_eq _ y.isLt, wShortAngle_eq _ r.isLt]
    simp [wcat, encRotator]

/-! ### the instance -/

theorem path_reach : ∀ {ks : List String} {v a : Val}, v.path (ks.map P) = .ok a ↔ Reach v ks (· = a)
  | [], v, a => by
    show Except.ok v = .ok a ↔ v = a
    rw [Except.ok.injEq]
  | k :: ks, v, a => by
    have ih := fun x => @path_reach ks x a
    simp only [List.map_cons, Val.path]
    unfold Reach At
    cases h : v.get (P k) with
    | error e =>
      constructor
      · intro h; cases h
      · rintro ⟨x, h1, _⟩; cases h1
    | ok x =>
      constructor
      · intro h; exact ⟨x, rfl, (ih x).1 h⟩
      · rintro ⟨y, h1, h2⟩; cases h1; exact (ih x).2 h2

theorem reach_append {ks ls : List String} {p : Val → Prop} : ∀ {v : Val}, Reach v (ks ++ ls) p ↔ Reach v ks (Reach · ls p) := by
  induction ks with
  | nil => intro v; rfl
  | cons k ks ih =>
    intro v
    constructor
    · rintro ⟨x, h1, h2⟩; exact ⟨x, h1, ih.1 h2⟩
    · rintro ⟨x, h1, h2⟩; exact ⟨x, h1, ih.2 h2⟩

theorem reach_unique {ks : List String} {p : Val → Prop} {a : Val} : ∀ {v : Val}, Reach v ks (· = a) → (Reach v ks p ↔ p a) := by
  induction ks with
  | nil => intro v h; cases h; rfl
  | cons k ks ih =>
    rintro v ⟨x, h1, h2⟩
    constructor
    · rintro ⟨y, h3, h4⟩
      cases at_unique h1 h3
      exact (ih h2).1 h4
    · intro h
      exact ⟨x, h1, (ih h2).2 h⟩

theorem wAt3_iff {v : Val} {ks : List String} {k1 k2 k3 : String} {w : Val → Val → Val → Except Err Bytes} {bs : Bytes} :
    wAt3 v ks k1 k2 k3 w = .ok bs ↔ ∃ a b c, Reach v (ks ++ [k1]) (· = a) ∧ Reach v (ks ++ [k2]) (· = b) ∧
      Reach v (ks ++ [k3]) (· = c) ∧ w a b c = .ok bs := by
  have e : ∀ k, ks.map P ++ [P k] = (ks ++ [k]).map P := by intro k; simp
  unfold wAt3
  simp only [e]
  constructor
  · intro h
    cases h1 : v.path ((ks ++ [k1]).map P) with
    | error e => rw [h1] at h; cases h
    | ok a =>
    cases h2 : v.path ((ks ++ [k2]).map P) with
    | error e => rw [h1, h2] at h; cases h
    | ok b =>
    cases h3 : v.path ((ks ++ [k3]).map P) with
    | error e => rw [h1, h2, h3] at h; cases h
    | ok c =>
    rw [h1, h2, h3] at h
    exact ⟨a, b, c, path_reach.1 h1, path_reach.1 h2, path_reach.1 h3, h⟩
  · rintro ⟨a, b, c, h1, h2, h3, h4⟩
    rw [path_reach.2 h1, path_reach.2 h2, path_reach.2 h3]
    exact h4

theorem reach_some {v : Val} {ks : List String} {p : Val → Prop} (h : Reach v ks p) : ∃ a, Reach v ks (· = a) ∧ p a := by
  obtain ⟨a, h1, -, h2⟩ := reach_ex h
  exact ⟨a, h2 _ rfl, h1⟩

theorem codes_rot : Codes (fun _ p => wAt3 p ["world_transform", "rotator"] "pitch" "yaw" "roll" wRotator)
    (fun v (x : BitVec 16 × BitVec 16 × BitVec 16) => Reach v ["world_transform", "rotator", "pitch"] (SaysAngle · x.1) ∧
      Reach v ["world_transform", "rotator", "yaw"] (SaysAngle · x.2.1) ∧
      Reach v ["world_transform", "rotator", "roll"] (SaysAngle · x.2.2))
    (fun x => encRotator x.1.toNat x.2.1.toNat x.2.2.toNat) := by
  refine .of_iff fun {v bs} => ?_
  rw [wAt3_iff]
  constructor
  · rintro ⟨a, b, c, h1, h2, h3, h4⟩
    obtain ⟨p, y, r, g1, g2, g3, g4⟩ := rotator_iff.1 h4
    exact ⟨(p, y, r), ⟨(reach_unique h1).2 g1, (reach_unique h2).2 g2, (reach_unique h3).2 g3⟩, g4⟩
  · rintro ⟨⟨p, y, r⟩, ⟨g1, g2, g3⟩, rfl⟩
    obtain ⟨a, k1, l1⟩ := reach_some g1
    obtain ⟨b, k2, l2⟩ := reach_some g2
    obtain ⟨c, k3, l3⟩ := reach_some g3
    exact ⟨a, b, c, k1, k2, k3, rotator_iff.2 ⟨p, y, r, l1, l2, l3, rfl⟩⟩

theorem codes_loc : Codes (fun _ p => wAt3 p ["world_transform", "location"] "x" "y" "z" (wPackedVector 1))
    (fun v (l : Bytes) => Reach v ["world_transform", "location"]
      (fun w => ∃ a b c, At w "x" a ∧ At w "y" b ∧ At w "z" c ∧ SaysLocation a b c l)) id := by
  refine .of_iff fun {v bs} => ?_
  rw [wAt3_iff]
  have one : ∀ (w : Val) (k : String) (a : Val), Reach w [k] (· = a) ↔ At w k a := by
    intro w k a
    constructor
    · rintro ⟨x, h1, h2⟩; cases h2; exact h1
    · intro h; exact ⟨a, h, rfl⟩
  constructor
  · rintro ⟨a, b, c, h1, h2, h3, h4⟩
    refine ⟨bs, ?_, rfl⟩
    have h1 := reach_append.1 h1
    have h2 := reach_append.1 h2
    have h3 := reach_append.1 h3
    obtain ⟨w, k1, l1⟩ := reach_some h1
    exact (reach_unique k1).2 ⟨a, b, c, (one _ _ _).1 l1, (one _ _ _).1 ((reach_unique k1).1 h2),
      (one _ _ _).1 ((reach_unique k1).1 h3), location_iff.1 h4⟩
  · rintro ⟨l, hl, rfl⟩
    obtain ⟨w, k1, a, b, c, l1, l2, l3, l4⟩ := reach_some hl
    exact ⟨a, b, c, reach_append.2 ((reach_unique k1).2 ((one _ _ _).2 l1)),
      reach_append.2 ((reach_unique k1).2 ((one _ _ _).2 l2)),
      reach_append.2 ((reach_unique k1).2 ((one _ _ _).2 l3)), location_iff.2 l4⟩

theorem codes_foliageInst : Codes (fun _ => foliageInstanceEncode) SaysFoliageInst id := by
  have h : Codes (fun _ => foliageInstanceEncode) _ _ :=
    (Codes.under codes_guid).seq (codes_rot.seq (codes_loc.seq ((Codes.under codes_f32).seq (Codes.under codes_i32).one)))
  refine h.bytes ?_ ?_
  · rintro v ⟨g, ⟨p, y, r⟩, l, s, n⟩ ⟨h1, ⟨h2, h3, h4⟩, h5, h6, h7⟩
    have := SaysFoliageInst.mk h1 h2 h3 h4 h5 h6 h7
    simp only [List.append_assoc] at this
    exact this
  · intro v b hs
    cases hs with
    | @mk g p y r l s n h1 h2 h3 h4 h5 h6 h7 =>
      refine ⟨(g, (p, y, r), l, s, n), ⟨h1, ⟨h2, h3, h4⟩, h5, h6, h7⟩, ?_⟩
      simp only [List.append_assoc, id_eq]

end Pal
