import Verif.Lemmas.PreMono
/-
What the writer functions write, apart from the value they return.
-/

namespace Pal
open Spec

/-- The call succeeds and writes `b`. -/
def Wrote (x : W) (b : Bytes) : Prop := ∃ v, x = .ok (b, v)
/-- The call of `property_inner` succeeds, writes `b` and returns the size `n`. -/
def WroteP (x : WP) (n : Nat) (b : Bytes) : Prop := ∃ v, x = .ok (n, b, v)
def WroteL (f : Val → W) (l : List Val) (b : Bytes) : Prop := ∃ l', wMapL f l = .ok (b, l')
def WroteD (f : Val → W) (d : Dict) (b : Bytes) : Prop := ∃ d', wEntries f d = .ok (b, d')

theorem wrote_ok {b c : Bytes} {v : Val} : Wrote (.ok (b, v)) c ↔ b = c := by
  constructor
  · rintro ⟨v', h⟩; cases h; rfl
  · rintro rfl; exact ⟨v, rfl⟩

theorem wrote_error {e : Err} {c : Bytes} : Wrote (.error e) c ↔ False := by
  constructor
  · rintro ⟨v', h⟩; cases h
  · exact False.elim

theorem wroteP_error {e : Err} {n : Nat} {c : Bytes} : WroteP (.error e) n c ↔ False := by
  constructor
  · rintro ⟨v', h⟩; cases h
  · exact False.elim

theorem wrote_keep {v : Val} {x : Except Err Bytes} {b : Bytes} : Wrote (keep v x) b ↔ x = .ok b := by
  constructor
  · rintro ⟨v', h⟩
    cases x <;> cases h
    rfl
  · rintro rfl; exact ⟨v, rfl⟩

theorem get_set_ok {v x : Val} {k : PyStr} (h : v.get k = .ok x) (y : Val) : ∃ v', v.set k y = .ok v' := by
  cases v <;> simp only [Val.get, reduceCtorEq] at h
  exact ⟨_, rfl⟩

theorem wrote_on {v : Val} {k : String} {f : Val → W} {b : Bytes} :
    Wrote (wOn v k f) b ↔ ∃ x, v.get (P k) = .ok x ∧ Wrote (f x) b := by
  constructor
  · rintro ⟨v', h⟩
    simp only [wOn] at h
    cases hg : v.get (P k) with
    | error e => rw [hg] at h; cases h
    | ok x =>
      rw [hg] at h
      simp only at h
      refine ⟨x, rfl, ?_⟩
      cases hf : f x with
      | error e => rw [hf] at h; cases h
      | ok r =>
        obtain ⟨c, x'⟩ := r
        rw [hf] at h
        simp only at h
        cases hs : v.set (P k) x' with
        | error e => rw [hs] at h; cases h
        | ok u => rw [hs] at h; cases h; exact ⟨_, rfl⟩
  · rintro ⟨x, hg, x', hf⟩
    obtain ⟨u, hu⟩ := get_set_ok hg x'
    exact ⟨u, by simp only [wOn, hg, hf, hu]⟩

theorem wrote_then {p : Except Err Bytes} {x : W} {b : Bytes} :
    Wrote (wThen p x) b ↔ ∃ c d, p = .ok c ∧ Wrote x d ∧ b = c ++ d := by
  constructor
  · rintro ⟨v', h⟩
    simp only [wThen] at h
    cases p with
    | error e => cases h
    | ok c =>
      cases x with
      | error e => cases h
      | ok r => cases h; exact ⟨_, _, rfl, ⟨_, rfl⟩, rfl⟩
  · rintro ⟨c, d, rfl, ⟨v, rfl⟩, rfl⟩
    exact ⟨v, rfl⟩

theorem wroteL_nil {f : Val → W} {b : Bytes} : WroteL f [] b ↔ b = [] := by
  constructor
  · rintro ⟨l, h⟩; cases h; rfl
  · rintro rfl; exact ⟨[], rfl⟩

theorem wroteL_cons {f : Val → W} {a : Val} {t : List Val} {b : Bytes} :
    WroteL f (a :: t) b ↔ ∃ c d, Wrote (f a) c ∧ WroteL f t d ∧ b = c ++ d := by
  constructor
  · rintro ⟨v', h⟩
    simp only [wMapL] at h
    cases hf : f a with
    | error e => rw [hf] at h; cases h
    | ok r =>
      rw [hf] at h
      simp only at h
      cases hl : wMapL f t with
      | error e => rw [hl] at h; cases h
      | ok q => rw [hl] at h; cases h; exact ⟨_, _, ⟨_, rfl⟩, ⟨_, hl⟩, rfl⟩
  · rintro ⟨c, d, ⟨v, h1⟩, ⟨l, h2⟩, rfl⟩
    exact ⟨v :: l, by simp only [wMapL, h1, h2]⟩

theorem wrote_seq {f : Val → W} {v : Val} {b : Bytes} :
    Wrote (wSeq f v) b ↔ ∃ l, v.seqItems = .ok l ∧ WroteL f l b := by
  constructor
  · rintro ⟨v', h⟩
    unfold wSeq at h
    split at h
    · rename_i l
      cases hm : wMapL f l <;> rw [hm] at h <;> cases h
      exact ⟨l, rfl, _, hm⟩
    · rename_i l
      cases hm : wMapL f l <;> rw [hm] at h <;> cases h
      exact ⟨l, rfl, _, hm⟩
    · cases hs : v.seqItems <;> rw [hs] at h
      · cases h
      · rename_i l
        simp only at h
        cases hm : wMapL f l <;> rw [hm] at h <;> cases h
        exact ⟨l, rfl, _, hm⟩
  · rintro ⟨l, h1, l', h2⟩
    unfold wSeq
    split
    · cases h1; exact ⟨_, by rw [h2]⟩
    · cases h1; exact ⟨_, by rw [h2]⟩
    · exact ⟨v, by rw [h1]; simp only [h2]⟩

theorem wrote_iter {f : Val → W} {v : Val} {b : Bytes} :
    Wrote (wIter f v) b ↔ ∃ l, v.iterItems = .ok l ∧ WroteL f l b := by
  constructor
  · rintro ⟨v', h⟩
    unfold wIter at h
    split at h
    · rename_i l
      cases hm : wMapL f l <;> rw [hm] at h <;> cases h
      exact ⟨l, rfl, _, hm⟩
    · rename_i l
      cases hm : wMapL f l <;> rw [hm] at h <;> cases h
      exact ⟨l, rfl, _, hm⟩
    · cases hs : v.iterItems <;> rw [hs] at h
      · cases h
      · rename_i l
        simp only at h
        cases hm : wMapL f l <;> rw [hm] at h <;> cases h
        exact ⟨l, rfl, _, hm⟩
  · rintro ⟨l, h1, l', h2⟩
    unfold wIter
    split
    · cases h1; exact ⟨_, by rw [h2]⟩
    · cases h1; exact ⟨_, by rw [h2]⟩
    · exact ⟨v, by rw [h1]; simp only [h2]⟩

theorem wroteP_sized {p : Except Err Bytes} {x : W} {n : Nat} {b : Bytes} :
    WroteP (sized p x) n b ↔ ∃ c d, p = .ok c ∧ Wrote x d ∧ n = d.length ∧ b = c ++ d := by
  constructor
  · rintro ⟨v', h⟩
    simp only [sized] at h
    cases p with
    | error e => cases h
    | ok c =>
      cases x with
      | error e => cases h
      | ok r => cases h; exact ⟨_, _, rfl, ⟨_, rfl⟩, rfl, rfl⟩
  · rintro ⟨c, d, rfl, ⟨v, rfl⟩, rfl, rfl⟩
    exact ⟨v, rfl⟩

theorem wroteP_const {k : Nat} {v : Val} {x : Except Err Bytes} {n : Nat} {b : Bytes} :
    WroteP (sizeConst k v x) n b ↔ x = .ok b ∧ n = k := by
  constructor
  · rintro ⟨v', h⟩
    cases x <;> cases h
    exact ⟨rfl, rfl⟩
  · rintro ⟨rfl, rfl⟩; exact ⟨v, rfl⟩

theorem get_set_ne {v v' y : Val} {k k' : PyStr} (h : v.set k y = .ok v') (hn : k' ≠ k) : v'.get k' = v.get k' := by
  cases v <;> cases h
  rename_i d
  simp only [Val.get]
  have : dget? (dset d k y) k' = dget? d k' := by
    induction d with
    | nil => simp [dset, dget?, Ne.symm hn]
    | cons a t ih =>
      simp only [dset]
      split
      · rename_i e
        simp only [dget?, e]
        rw [if_neg (Ne.symm hn), if_neg (Ne.symm hn)]
      · simp only [dget?, ih]
  rw [this]

theorem wOn_get {v v' : Val} {k : String} {f : Val → W} {b : Bytes} (h : wOn v k f = .ok (b, v')) {k' : PyStr}
    (hn : k' ≠ P k) : v'.get k' = v.get k' := by
  simp only [wOn] at h
  cases hg : v.get (P k) with
  | error e => rw [hg] at h; cases h
  | ok x =>
    rw [hg] at h
    simp only at h
    cases hf : f x with
    | error e => rw [hf] at h; cases h
    | ok r =>
      rw [hf] at h
      simp only at h
      cases hs : v.set (P k) r.2 with
      | error e => rw [hs] at h; cases h
      | ok u => rw [hs] at h; cases h; exact get_set_ne hs hn

theorem wrote_mapEntry {r : Val → W} {prop entry : Val} {b : Bytes} :
    Wrote (wMapEntry r prop entry) b ↔ ∃ kt kst vt vst k v kb vb, prop.get (P "key_type") = .ok kt ∧
      prop.get (P "key_struct_type") = .ok kst ∧ prop.get (P "value_type") = .ok vt ∧
      prop.get (P "value_struct_type") = .ok vst ∧ entry.get (P "key") = .ok k ∧ entry.get (P "value") = .ok v ∧
      Wrote (wPropValue r kt kst k) kb ∧ Wrote (wPropValue r vt vst v) vb ∧ b = kb ++ vb := by
  have hne : P "value" ≠ P "key" := by decide +kernel
  constructor
  · intro h
    unfold wMapEntry at h
    cases h1 : prop.get (P "key_type") <;> rw [h1] at h
    · exact (wrote_error.1 h).elim
    rename_i kt
    cases h2 : prop.get (P "key_struct_type") <;> rw [h2] at h
    · exact (wrote_error.1 h).elim
    rename_i kst
    simp only at h
    cases h3 : wOn entry "key" (wPropValue r kt kst) with
    | error e => rw [h3] at h; exact (wrote_error.1 h).elim
    | ok q =>
      obtain ⟨kb, entry'⟩ := q
      rw [h3] at h
      simp only at h
      cases h4 : prop.get (P "value_type") <;> rw [h4] at h
      · exact (wrote_error.1 h).elim
      rename_i vt
      cases h5 : prop.get (P "value_struct_type") <;> rw [h5] at h
      · exact (wrote_error.1 h).elim
      rename_i vst
      obtain ⟨c, d, hc, hd, rfl⟩ := wrote_then.1 h
      cases hc
      obtain ⟨k, hk, hkw⟩ := wrote_on.1 ⟨_, h3⟩
      obtain ⟨v, hv, hvw⟩ := wrote_on.1 hd
      rw [wOn_get h3 hne] at hv
      exact ⟨kt, kst, vt, vst, k, v, _, _, rfl, rfl, rfl, rfl, hk, hv, hkw, hvw, rfl⟩
  · rintro ⟨kt, kst, vt, vst, k, v, kb, vb, h1, h2, h3, h4, h5, h6, h7, h8, rfl⟩
    obtain ⟨entry', h9⟩ := wrote_on.2 ⟨k, h5, h7⟩
    simp only [wMapEntry, h1, h2, h3, h4, h9]
    exact wrote_then.2 ⟨_, _, rfl, wrote_on.2 ⟨v, by rw [wOn_get h9 hne, h6], h8⟩, rfl⟩

theorem wroteD_nil {f : Val → W} {b : Bytes} : WroteD f [] b ↔ b = [] := by
  constructor
  · rintro ⟨l, h⟩; cases h; rfl
  · rintro rfl; exact ⟨[], rfl⟩

theorem wroteD_cons {f : Val → W} {k : PyStr} {a : Val} {t : Dict} {b : Bytes} :
    WroteD f ((k, a) :: t) b ↔ ∃ kb c d, fstringBytes k = .ok kb ∧ Wrote (f a) c ∧ WroteD f t d ∧
      b = kb ++ c ++ d := by
  constructor
  · rintro ⟨v', h⟩
    simp only [wEntries] at h
    cases hk : fstringBytes k with
    | error e => rw [hk] at h; cases h
    | ok kb =>
      rw [hk] at h
      simp only at h
      cases hf : f a with
      | error e => rw [hf] at h; cases h
      | ok r =>
        rw [hf] at h
        simp only at h
        cases hl : wEntries f t with
        | error e => rw [hl] at h; cases h
        | ok q => rw [hl] at h; cases h; exact ⟨_, _, _, rfl, ⟨_, rfl⟩, ⟨_, hl⟩, rfl⟩
  · rintro ⟨kb, c, d, h0, ⟨v, h1⟩, ⟨l, h2⟩, rfl⟩
    exact ⟨(k, v) :: l, by simp only [wEntries, h0, h1, h2]⟩

theorem wrote_body {f : Val → W} {d : Dict} {b : Bytes} :
    Wrote (wPropsBody f (.dict d)) b ↔ ∃ c nb, WroteD f d c ∧ fstringBytes (P "None") = .ok nb ∧ b = c ++ nb := by
  constructor
  · rintro ⟨v', h⟩
    simp only [wPropsBody] at h
    cases he : wEntries f d with
    | error e => rw [he] at h; cases h
    | ok q =>
      rw [he] at h
      simp only at h
      cases hn : fstringBytes (P "None") <;> rw [hn] at h <;> cases h
      exact ⟨_, _, ⟨_, he⟩, rfl, rfl⟩
  · rintro ⟨c, nb, ⟨d', h1⟩, h2, rfl⟩
    exact ⟨.dict d', by simp only [wPropsBody, h1, h2]⟩

/-- A property list that is not a dict: only empty sequences can be written. -/
theorem wrote_body_other {f : Val → W} {v : Val} (hv : ∀ d, v ≠ .dict d) {b : Bytes} :
    Wrote (wPropsBody f v) b ↔ v.iterItems = .ok [] ∧ fstringBytes (P "None") = .ok b := by
  have e : wPropsBody f v = match v.iterItems with
    | .error e => .error e
    | .ok [] => keep v (fstringBytes (P "None"))
    | .ok (_ :: _) => .error .type := by
    cases v <;> first | rfl | exact absurd rfl (hv _)
  rw [e]
  cases hi : v.iterItems with
  | error e => simp [wrote_error]
  | ok l =>
    cases l with
    | nil => simp [wrote_keep]
    | cons a t => simp [wrote_error]

/-- `custom_type` is present and registered as `c`. -/
theorem wroteP_inner {cfg : Cfg} {r : Val → W} {wp : Val → Except Err Bytes} {ty prop : Val} {n : Nat} {b : Bytes} :
    WroteP (wInner cfg r wp ty prop) n b ↔
      (prop.contains (P "custom_type") = .ok false ∧ WroteP (wPlainInner r ty prop) n b) ∨
      (prop.contains (P "custom_type") = .ok true ∧ ∃ p c prop', prop.get (P "custom_type") = .ok (.str p) ∧
        cfg.custom p = some c ∧ ty.isS c.propType = true ∧ c.pre wp prop = .ok prop' ∧
        WroteP (wPlainInner r ty prop') n b) := by
  unfold wInner
  generalize P "custom_type" = ct
  constructor
  · intro h
    cases hc : prop.contains ct with
    | error e => rw [hc] at h; exact (wroteP_error.1 h).elim
    | ok q =>
      rw [hc] at h
      cases q with
      | false => exact .inl ⟨rfl, h⟩
      | true =>
        simp only at h
        split at h
        · exact (wroteP_error.1 h).elim
        · rename_i p hp
          split at h
          · exact (wroteP_error.1 h).elim
          · rename_i c hcc
            split at h
            · rename_i ht
              split at h
              · exact (wroteP_error.1 h).elim
              · rename_i prop' hpre
                exact .inr ⟨rfl, p, c, prop', hp, hcc, ht, hpre, h⟩
            · exact (wroteP_error.1 h).elim
        · exact (wroteP_error.1 h).elim
        · exact (wroteP_error.1 h).elim
        · exact (wroteP_error.1 h).elim
  · rintro (⟨h1, h2⟩ | ⟨h1, p, c, prop', h2, h3, h4, h5, h6⟩)
    · rw [h1]; exact h2
    · rw [h1]
      simpa only [h2, h3, h4, h5, if_true] using h6

/-- The shape of `property`. -/
theorem wrote_shape {g : Except Err Val} {wf : Val → Except Err Bytes} {inner : Val → Val → WP}
    {w : Val → Except Err Bytes} {prop : Val} {b : Bytes} :
    Wrote (match g with
      | .error e => .error e
      | .ok ty => match wf ty with
        | .error e => .error e
        | .ok tb => match inner ty prop with
          | .error e => .error e
          | .ok (size, buf, prop') => match w (.int size) with
            | .error e => .error e
            | .ok sb => .ok (tb ++ sb ++ buf, prop')) b ↔
    ∃ ty tb n buf sb, g = .ok ty ∧ wf ty = .ok tb ∧ WroteP (inner ty prop) n buf ∧ w (.int n) = .ok sb ∧
      b = tb ++ sb ++ buf := by
  constructor
  · rintro ⟨v', h⟩
    cases g with
    | error e => cases h
    | ok ty =>
      simp only at h
      cases h2 : wf ty with
      | error e => rw [h2] at h; cases h
      | ok tb =>
        rw [h2] at h
        simp only at h
        cases h3 : inner ty prop with
        | error e => rw [h3] at h; cases h
        | ok q =>
          rw [h3] at h
          simp only at h
          cases h4 : w (.int q.1) with
          | error e => rw [h4] at h; cases h
          | ok sb => rw [h4] at h; cases h; exact ⟨ty, tb, _, _, sb, rfl, h2, ⟨_, h3⟩, h4, rfl⟩
  · rintro ⟨ty, tb, n, buf, sb, h1, h2, ⟨v, h3⟩, h4, rfl⟩
    exact ⟨v, by simp only [h1, h2, h3, h4]⟩

theorem wrote_property {cfg : Cfg} {r : Val → W} {wp : Val → Except Err Bytes} {prop : Val} {b : Bytes} :
    Wrote (wProperty cfg r wp prop) b ↔ ∃ ty tb n buf sb, prop.get (P "type") = .ok ty ∧ wFString ty = .ok tb ∧
      WroteP (wInner cfg r wp ty prop) n buf ∧ wU64 (.int n) = .ok sb ∧ b = tb ++ sb ++ buf := by
  unfold wProperty
  have h := fun g wf inner w => @wrote_shape g wf inner w prop b
  generalize prop.get (P "type") = g
  generalize wInner cfg r wp = inner
  generalize wU64 = w64
  generalize wFString = wf
  exact h g wf inner w64

end Pal
