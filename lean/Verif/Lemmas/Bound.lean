import Verif.Model.Gvas
import Verif.Lemmas.Inv
import Verif.Lemmas.Fields
/-
What every reader does to the stream, whatever the bytes: it leaves a suffix of them, it
does not run out of budget, and the blobs it returns are no longer than the input.
-/

namespace Pal

/-- `bytes(v)` is at most `N` bytes, if it succeeds. -/
def blobOk (N : Nat) (v : Val) : Prop := ∀ b, toBytes v = .ok b → b.length ≤ N

mutual
/-- Every blob stored under the key "values" has at most `N` bytes. -/
def Lim (N : Nat) : Val → Prop
  | .list l => LimL N l
  | .tuple l => LimL N l
  | .dict d => LimD N d
  | _ => True
def LimL (N : Nat) : List Val → Prop
  | [] => True
  | v :: t => Lim N v ∧ LimL N t
def LimD (N : Nat) : List (PyStr × Val) → Prop
  | [] => True
  | (k, v) :: t => (Lim N v ∧ (k = P "values" → blobOk N v)) ∧ LimD N t
end

/-- The same for the results of readers that are not values. -/
class HasLim (α : Type) where
  lim : Nat → α → Prop

instance (priority := low) {α : Type} : HasLim α := ⟨fun _ _ => True⟩
instance : HasLim Val := ⟨Lim⟩
instance : HasLim (List Val) := ⟨LimL⟩
instance : HasLim Dict := ⟨LimD⟩
instance : HasLim (Option Dict) := ⟨fun N o => match o with
  | some d => LimD N d
  | none => True⟩
instance : HasLim (Val × Val × Val) := ⟨fun N p => Lim N p.1 ∧ Lim N p.2.1 ∧ Lim N p.2.2⟩

/-- On inputs of at most `K` bytes the two readers agree, do not run out of budget, leave a
suffix of the input and return blobs of at most `N` bytes. -/
def Ok {α : Type} [HasLim α] (K N : Nat) (r r' : R α) : Prop :=
  ∀ s, s.length ≤ K → r s = r' s ∧ r s ≠ .error .fuel ∧
    ∀ v s', r s = .ok (v, s') → (∃ c, s = c ++ s') ∧ HasLim.lim N v

theorem limL_iff {N : Nat} {l : List Val} : LimL N l ↔ ∀ v ∈ l, Lim N v := by
  induction l with
  | nil => simp [LimL]
  | cons a t ih => simp [LimL, ih]

theorem limD_iff {N : Nat} {d : Dict} :
    LimD N d ↔ ∀ kv ∈ d, Lim N kv.2 ∧ (kv.1 = P "values" → blobOk N kv.2) := by
  induction d with
  | nil => simp [LimD]
  | cons a t ih => obtain ⟨k, v⟩ := a; simp [LimD, ih]

theorem limD_append {N : Nat} {a b : Dict} : LimD N (a ++ b) ↔ LimD N a ∧ LimD N b := by
  simp only [limD_iff, List.mem_append]
  exact ⟨fun h => ⟨fun kv hk => h kv (.inl hk), fun kv hk => h kv (.inr hk)⟩,
    fun h kv hk => hk.elim (h.1 kv) (h.2 kv)⟩

theorem blobOk_mono {N M : Nat} (h : N ≤ M) {v : Val} (hv : blobOk N v) : blobOk M v :=
  fun b hb => Nat.le_trans (hv b hb) h

mutual
theorem lim_mono {N M : Nat} (h : N ≤ M) : ∀ v, Lim N v → Lim M v
  | .list l, hv => by simp only [Lim] at hv ⊢; exact limL_mono h l hv
  | .tuple l, hv => by simp only [Lim] at hv ⊢; exact limL_mono h l hv
  | .dict d, hv => by simp only [Lim] at hv ⊢; exact limD_mono h d hv
  | .none, _ | .bool _, _ | .int _, _ | .float _, _ | .str _, _ | .bytes _, _ | .uuid _, _ => by
    simp only [Lim]
theorem limL_mono {N M : Nat} (h : N ≤ M) : ∀ l, LimL N l → LimL M l
  | [], _ => by simp only [LimL]
  | v :: t, hv => by
    simp only [LimL] at hv ⊢
    exact ⟨lim_mono h v hv.1, limL_mono h t hv.2⟩
theorem limD_mono {N M : Nat} (h : N ≤ M) : ∀ d, LimD N d → LimD M d
  | [], _ => by simp only [LimD]
  | (k, v) :: t, hv => by
    simp only [LimD] at hv ⊢
    exact ⟨⟨lim_mono h v hv.1.1, fun e => blobOk_mono h (hv.1.2 e)⟩, limD_mono h t hv.2⟩
end

/-! ### Combinators -/

variable {α β : Type} [HasLim α] [HasLim β] {K N : Nat}

theorem ok_pure {a : α} (h : HasLim.lim N a) : Ok K N (pure a : R α) (pure a) :=
  fun s _ => ⟨rfl, nofun, fun v s' e => by
    obtain ⟨rfl, rfl⟩ := r_pure_inv e
    exact ⟨⟨[], rfl⟩, h⟩⟩

theorem ok_rpure {a : α} (h : HasLim.lim N a) : Ok K N (R.pure a : R α) (R.pure a) := ok_pure h

theorem ok_fail {e : Err} (h : e ≠ .fuel) : Ok K N (rFail e : R α) (rFail e) :=
  fun _ _ => ⟨rfl, fun x => h (Except.error.inj x), fun _ _ => nofun⟩

theorem ok_bind {x x' : R α} {f f' : α → R β} (hx : Ok K N x x')
    (hf : ∀ a, HasLim.lim N a → Ok K N (f a) (f' a)) : Ok K N (x >>= f) (x' >>= f') := by
  intro s hs
  obtain ⟨h1, h2, h3⟩ := hx s hs
  show R.bind x f s = R.bind x' f' s ∧ R.bind x f s ≠ _ ∧ ∀ v s', R.bind x f s = _ → _
  unfold R.bind
  rw [← h1]
  cases hxs : x s with
  | error e =>
    simp only
    rw [hxs] at h2
    exact ⟨trivial, fun h' => h2 (by injection h' with h'; rw [h']), fun _ _ => nofun⟩
  | ok p =>
    obtain ⟨a, s1⟩ := p
    simp only
    obtain ⟨⟨c, hc⟩, ha⟩ := h3 a s1 hxs
    have hl : s1.length ≤ K := by rw [hc, List.length_append] at hs; omega
    obtain ⟨g1, g2, g3⟩ := hf a ha s1 hl
    refine ⟨g1, g2, fun v s' e => ?_⟩
    obtain ⟨⟨c', hc'⟩, hv⟩ := g3 v s' e
    exact ⟨⟨c ++ c', by rw [hc, hc', List.append_assoc]⟩, hv⟩

theorem ok_ite {c : Prop} [Decidable c] {x x' y y' : R α} (hx : c → Ok K N x x') (hy : ¬ c → Ok K N y y') :
    Ok K N (if c then x else y) (if c then x' else y') := by
  by_cases h : c
  · rw [if_pos h, if_pos h]; exact hx h
  · rw [if_neg h, if_neg h]; exact hy h

theorem ok_lift {x : Except Err α} (hx : x ≠ .error .fuel) (h : ∀ a, x = .ok a → HasLim.lim N a) :
    Ok K N (rLift x) (rLift x) := by
  intro s _
  unfold rLift
  cases x with
  | error e => exact ⟨rfl, fun e' => hx (by injection e' with e'; rw [e']), fun _ _ => nofun⟩
  | ok a =>
    refine ⟨rfl, nofun, fun v s' e => ?_⟩
    injection e with e
    injection e with e1 e2
    subst e1; subst e2
    exact ⟨⟨[], rfl⟩, h _ rfl⟩

theorem ok_try {x x' : R α} {h h' : Err → R α} (hx : Ok K N x x') (hh : ∀ e, Ok K N (h e) (h' e)) :
    Ok K N (rTry x h) (rTry x' h') := by
  intro s hs
  obtain ⟨h1, h2, h3⟩ := hx s hs
  unfold rTry
  rw [← h1]
  cases hxs : x s with
  | ok p =>
    simp only
    exact ⟨trivial, nofun, fun v s' e => h3 v s' (by rw [hxs]; exact e)⟩
  | error e =>
    rw [hxs] at h2
    cases e with
    | fuel => exact absurd rfl h2
    | _ => simp only; exact hh _ s hs

theorem ok_repeat {x x' : R Val} (hx : Ok K N x x') : ∀ n, Ok K N (rRepeat x n) (rRepeat x' n)
  | 0 => ok_pure (by simp only [HasLim.lim, LimL])
  | n + 1 => by
    unfold rRepeat
    refine ok_bind hx fun a ha => ok_bind (ok_repeat hx n) fun l hl => ok_pure ?_
    simp only [HasLim.lim, LimL] at *
    exact ⟨ha, hl⟩

theorem ok_mono {x x' : R α} {K' : Nat} (h : K' ≤ K) (hx : Ok K N x x') : Ok K' N x x' :=
  fun s hs => hx s (Nat.le_trans hs h)

/-! ### Primitives -/

theorem ok_of {r : R α} (h : ∀ s, r s ≠ .error .fuel ∧
    ∀ v s', r s = .ok (v, s') → (∃ c, s = c ++ s') ∧ HasLim.lim N v) : Ok K N r r :=
  fun s _ => ⟨rfl, h s⟩

theorem ok_unsigned (k : Nat) : Ok K N (rUnsigned k) (rUnsigned k) := by
  refine ok_of fun s => ?_
  unfold rUnsigned
  split
  · refine ⟨nofun, fun v s' e => ?_⟩
    injection e with e
    injection e with e1 e2
    exact ⟨⟨s.take k, by rw [← e2, List.take_append_drop]⟩, trivial⟩
  · exact ⟨nofun, fun _ _ => nofun⟩

theorem ok_signed (k : Nat) : Ok K N (rSigned k) (rSigned k) := by
  refine ok_of fun s => ?_
  unfold rSigned
  split
  · refine ⟨nofun, fun v s' e => ?_⟩
    injection e with e
    injection e with e1 e2
    exact ⟨⟨s.take k, by rw [← e2, List.take_append_drop]⟩, trivial⟩
  · exact ⟨nofun, fun _ _ => nofun⟩

theorem ok_read (k : Nat) : Ok K N (rRead k) (rRead k) := by
  refine ok_of fun s => ⟨nofun, fun v s' e => ?_⟩
  injection e with e
  injection e with e1 e2
  exact ⟨⟨s.take k, by rw [← e2, List.take_append_drop]⟩, trivial⟩

theorem ok_readToEnd : Ok K N rReadToEnd rReadToEnd :=
  ok_of fun s => ⟨nofun, fun v s' e => by
    injection e with e
    injection e with e1 e2
    exact ⟨⟨s, by rw [← e2, List.append_nil]⟩, trivial⟩⟩

theorem ok_eof : Ok K N rEof rEof :=
  ok_of fun s => ⟨nofun, fun v s' e => by
    injection e with e
    injection e with e1 e2
    exact ⟨⟨[], e2⟩, trivial⟩⟩

theorem ok_remaining : Ok K N rRemaining rRemaining :=
  ok_of fun s => ⟨nofun, fun v s' e => by
    injection e with e
    injection e with e1 e2
    exact ⟨⟨[], e2⟩, trivial⟩⟩

theorem ok_checkEof : Ok K N rCheckEof rCheckEof :=
  ok_of fun s => by
    cases s with
    | nil => exact ⟨nofun, fun v s' e => by
        injection e with e
        injection e with e1 e2
        exact ⟨⟨[], e2⟩, trivial⟩⟩
    | cons a t => exact ⟨nofun, fun _ _ => nofun⟩

theorem ok_checkEofFor : Ok K N rCheckEofFor rCheckEofFor :=
  ok_of fun s => by
    cases s with
    | nil => exact ⟨nofun, fun v s' e => by
        injection e with e
        injection e with e1 e2
        exact ⟨⟨[], e2⟩, trivial⟩⟩
    | cons a t => exact ⟨nofun, fun _ _ => nofun⟩

theorem limL_ints (N : Nat) (b : Bytes) : LimL N (b.map fun x => Val.int x.toNat) := by
  rw [limL_iff]
  intro v hv
  obtain ⟨x, -, rfl⟩ := List.mem_map.1 hv
  simp only [Lim]

/-- The result of `byte_list` is a blob that was in the input. -/
theorem byteList_blob {n : Nat} {s s' : Bytes} {v : Val} (h : rByteList n s = .ok (v, s')) :
    blobOk s.length v := by
  unfold rByteList at h
  split at h
  · injection h with h
    injection h with h1 h2
    subst h1
    intro b hb
    have hm : ∀ (l : Bytes) (b : Bytes), mapE byteOf (l.map fun x => Val.int x.toNat) = .ok b →
        b.length = l.length := by
      intro l
      induction l with
      | nil => intro b hb; simp only [List.map_nil, mapE] at hb; cases hb; rfl
      | cons a t ih =>
        intro b hb
        simp only [List.map_cons, mapE] at hb
        split at hb
        · split at hb
          · rename_i heq
            cases hb
            simp only [List.length_cons, ih _ heq]
          · cases hb
        · cases hb
    have := hm _ _ hb
    rw [this, List.length_take]
    omega
  · cases h

theorem ok_byteList (n : Nat) : Ok K N (rByteList n) (rByteList n) := by
  refine ok_of fun s => ?_
  unfold rByteList
  split
  · refine ⟨nofun, fun v s' e => ?_⟩
    injection e with e
    injection e with e1 e2
    subst e1
    exact ⟨⟨s.take n, by rw [← e2, List.take_append_drop]⟩, by simp only [HasLim.lim, Lim]; exact limL_ints N _⟩
  · exact ⟨nofun, fun _ _ => nofun⟩

theorem lim_floatVal (an : Bool) (b : BitVec 64) : Lim N (floatVal an b) := by
  unfold floatVal
  split
  · simp only [Lim]
  · split <;> simp only [Lim]

/-- Entries of a dict literal. -/
def LimS (N : Nat) : List (String × Val) → Prop
  | [] => True
  | (k, v) :: t => (Lim N v ∧ (k = "values" → blobOk N v)) ∧ LimS N t

theorem lim_dct {l : List (String × Val)} : Lim N (dct l) ↔ LimS N l := by
  unfold dct
  simp only [Lim]
  induction l with
  | nil => simp only [List.map_nil, LimD, LimS]
  | cons a t ih =>
    obtain ⟨k, v⟩ := a
    simp only [List.map_cons, LimD, LimS, ih]
    refine and_congr (and_congr Iff.rfl ⟨fun h e => h (by rw [e]), fun h e => h ((P_inj _ _).1 e)⟩) Iff.rfl

end Pal
