import Verif.Spec.Skip
import Verif.Props.Unknown
/-
C10: declared sizes are exact.
-/

set_option linter.unusedSimpArgs false

namespace Pal
open Spec

variable {m : Mode}

theorem num_append (a b : Bytes) : num (a ++ b) = num a + 256 ^ a.length * num b := by
  induction a with
  | nil => simp [num]
  | cons x t ih => simp only [List.cons_append, num, ih, List.length_cons, Nat.pow_succ]; grind

theorem num_lit (k n : Nat) (h : n < 256 ^ k) : num (lit k n) = n := by
  rw [lit_eq]
  induction k generalizing n with
  | zero => simp only [Nat.pow_zero] at h; simp [leBytes, num]; omega
  | succ k ih =>
    rw [Nat.pow_succ] at h
    simp only [leBytes, num]
    rw [ih _ (by omega), UInt8.toNat_ofNat']
    omega

theorem cut_append {k : Nat} {a : Bytes} (h : a.length = k) (r : Bytes) : cut k (a ++ r) = some (a, r) := by
  subst h
  simp [cut]

theorem skipStr_enc (s : PyStr) (h : StrFits s) (r : Bytes) : skipStr (encStr s ++ r) = some (encStr s, r) := by
  have key : ∀ h t : Bytes, h.length = 4 → (h ++ t).length = strLen h → skipStr (h ++ t ++ r) = some (h ++ t, r) := by
    intro h t h4 hl
    unfold skipStr
    rw [List.append_assoc, cut_append h4]
    simp only
    rw [← List.append_assoc, cut_append hl]
  unfold encStr StrFits at *
  split
  · have := key (lit 4 0) [] (lit_length _ _) (by decide)
    simpa using this
  · split
    · rename_i h1
      rw [if_pos h1] at h
      rw [List.append_assoc (lit _ _)]
      refine key _ _ (lit_length _ _) ?_
      rw [strLen, num_lit _ _ (by omega), if_pos h]
      simp only [List.length_append, lit_length, List.length_map, List.length_cons, List.length_nil]
    · rename_i h1
      rw [if_neg h1] at h
      rw [List.append_assoc (twos _ _)]
      refine key _ _ (by simp [twos, lit_length]) ?_
      have e : ((-((units s).length + 1 : Int)) % 2 ^ (8 * 4)).toNat = 2 ^ 32 - ((units s).length + 1) := by omega
      have hu : ((units s).flatMap (lit 2)).length = 2 * (units s).length := by
        generalize units s = l
        induction l with
        | nil => rfl
        | cons a t ih => rw [List.flatMap_cons, List.length_append, ih, lit_length, List.length_cons]; omega
      rw [twos, e, strLen, num_lit _ _ (by omega), if_neg (by omega)]
      simp only [List.length_append, lit_length, hu, List.length_cons, List.length_nil]
      omega

theorem fstringBytes_inv {s : PyStr} {b : Bytes} (h : fstringBytes s = .ok b) : StrFits s ∧ b = encStr s := by
  have hf : StrFits s := by
    refine Classical.byContradiction fun hn => ?_
    unfold fstringBytes StrFits at *
    split at h
    · rename_i h0
      subst h0
      exact hn (by decide)
    · split at h
      · rename_i h1
        have h1 := (isAscii_iff s).1 h1
        rw [if_pos h1] at hn
        have hl : (asciiEncode s).length = s.length := by simp [asciiEncode]
        rw [hl] at h
        have : wI32 (.int (s.length + 1)) = .error .struct := by
          simp only [wI32, wSigned, Val.asInt?]
          rw [if_neg (by omega)]
        rw [this] at h
        cases h
      · rename_i h1
        have h1 : ¬ Ascii s := fun h => h1 ((isAscii_iff s).2 h)
        rw [if_neg h1] at hn
        have hl : (utf16Encode s).length / 2 = (units s).length := by
          rw [units_eq, utf16Encode, unitsToBytes_length]; omega
        rw [hl] at h
        have : wI32 (.int (-(((units s).length : Int) + 1))) = .error .struct := by
          simp only [wI32, wSigned, Val.asInt?]
          rw [if_neg (by omega)]
        rw [this] at h
        cases h
  refine ⟨hf, ?_⟩
  rw [fstringBytes_eq s hf] at h
  cases h
  rfl

theorem wFString_inv {v : Val} {b : Bytes} (h : wFString v = .ok b) : ∃ s, v = .str s ∧ StrFits s ∧ b = encStr s := by
  cases v <;> simp only [wFString, reduceCtorEq] at h
  exact ⟨_, rfl, fstringBytes_inv h⟩

/-- GUIDs are sixteen bytes. -/
def Guid16 (v : Val) : Prop := ∀ raw, v = .uuid raw → raw.length = 16

theorem wGuid_len {v : Val} (hv : Guid16 v) {b : Bytes} (h : wGuid v = .ok b) : b.length = 16 := by
  cases v <;> simp only [wGuid, reduceCtorEq, Except.ok.injEq] at h
  · rename_i s
    unfold uuidFromStr at h
    split at h
    · cases h
      have : ∀ c : Bytes, c.length = 16 → (uuidPerm c).length = 16 := by
        intro c hc
        match c, hc with
        | [_, _, _, _, _, _, _, _, _, _, _, _, _, _, _, _], _ => rfl
      exact this _ (by simp [beBytes])
    · cases h
  · exact h ▸ hv _ rfl

theorem skip_bytes {k : Nat} {b : Bytes} (h : b.length = k) (r : Bytes) : (Field.bytes k).skip (b ++ r) = some (b, r) :=
  cut_append h r
theorem skip_str {s : PyStr} (h : StrFits s) (r : Bytes) : Field.str.skip (encStr s ++ r) = some (encStr s, r) :=
  skipStr_enc s h r
theorem skip_id {v : Val} (hv : Guid16 v) {b : Bytes} (h : wOptGuid v = .ok b) (r : Bytes) :
    Field.id.skip (b ++ r) = some (b, r) := by
  have h0 : ∀ {v : Val}, wOptGuid v = .ok b → v ≠ .none → ∃ c, wGuid v = .ok c ∧ b = 1 :: c := by
    intro v h hn
    have : wOptGuid v = wcat [wBool (.bool true), wGuid v] := by cases v <;> first | rfl | exact absurd rfl hn
    rw [this] at h
    cases hg : wGuid v with
    | error e => rw [hg] at h; cases h
    | ok c =>
      rw [hg] at h
      refine ⟨c, rfl, ?_⟩
      cases h
      simp [Val.truthy]
  by_cases hn : v = .none
  · subst hn
    cases h
    rfl
  · obtain ⟨c, h1, rfl⟩ := h0 h hn
    exact cut_append (by rw [List.length_cons, wGuid_len hv h1]; rfl) r


/-- The GUIDs of a property are sixteen bytes. -/
def GuidsOk (p : Val) : Prop := ∀ k ∈ ["id", "struct_id"], ∀ v, p.get (P k) = .ok v → Guid16 v

theorem wcat_inv {x : Except Err Bytes} {t : List (Except Err Bytes)} {b : Bytes} (h : wcat (x :: t) = .ok b) :
    ∃ c d, x = .ok c ∧ wcat t = .ok d ∧ b = c ++ d := by
  simp only [wcat] at h
  cases x with
  | error e => cases h
  | ok c =>
    simp only at h
    cases ht : wcat t with
    | error e => rw [ht] at h; cases h
    | ok d => rw [ht] at h; cases h; exact ⟨c, d, rfl, rfl, rfl⟩

theorem wcat_nil_inv {b : Bytes} (h : wcat [] = .ok b) : b = [] := by cases h; rfl

theorem wAt_inv {p : Val} {k : String} {w : Val → Except Err Bytes} {b : Bytes} (h : wAt p [k] w = .ok b) :
    ∃ x, p.get (P k) = .ok x ∧ w x = .ok b := by
  rw [wAt_cons] at h
  cases hg : p.get (P k) with
  | error e => rw [hg] at h; cases h
  | ok x => rw [hg] at h; exact ⟨x, rfl, h⟩

/-- These bytes are the field. -/
def Is (f : Field) (b : Bytes) : Prop := ∀ r, f.skip (b ++ r) = some (b, r)
def AreFields (f : List Field) (b : Bytes) : Prop := ∀ r, skipFields f (b ++ r) = some (b, r)

theorem are_nil : AreFields [] [] := fun _ => rfl
theorem are_cons {f : Field} {t : List Field} {a b : Bytes} (h1 : Is f a) (h2 : AreFields t b) :
    AreFields (f :: t) (a ++ b) := by
  intro r
  rw [List.append_assoc]
  simp only [skipFields, h1 (b ++ r), h2 r]
theorem are_one {f : Field} {a : Bytes} (h1 : Is f a) : AreFields [f] a := by
  have := are_cons h1 are_nil
  rwa [List.append_nil] at this

theorem is_str {v : Val} {b : Bytes} (h : wFString v = .ok b) : Is .str b := by
  obtain ⟨s, -, h1, rfl⟩ := wFString_inv h
  exact skip_str h1

theorem is_at_str {p : Val} {ks : List String} {b : Bytes} (h : wAt p ks wFString = .ok b) : Is .str b := by
  unfold wAt at h
  split at h
  · exact is_str h
  · cases h

theorem is_id {p : Val} (hp : GuidsOk p) {b : Bytes} (h : wId p = .ok b) : Is .id b := by
  unfold wId at h
  split at h
  · rename_i v hv
    refine skip_id ?_ h
    intro raw e
    subst e
    refine hp "id" (by decide) _ ?_ raw rfl
    cases p <;> simp only [Val.getD, reduceCtorEq] at hv
    simp only [Val.get]
    split at hv
    · exact hv
    · cases hv
  · cases h

theorem wSigned_len {k : Nat} {v : Val} {b : Bytes} (h : wSigned k v = .ok b) : b.length = k := by
  unfold wSigned at h
  split at h
  · split at h
    · cases h; rw [← lit_eq, lit_length]
    · cases h
  · cases h

theorem wFloat_len {v : Val} {b : Bytes} (h : wFloat v = .ok b) : b.length = 4 := by
  unfold wFloat at h
  split at h
  · cases h; rw [← lit_eq, lit_length]
  · cases h

/-- What is written for a property of type `t`, apart from the type and the size `n`. -/
def Inner (t : String) (n : Nat) (b : Bytes) : Prop :=
  ∃ head body, b = head ++ body ∧ n = body.length ∧ AreFields (headFields (eLit t)) head

theorem inner_sized {t : String} {pre : Except Err Bytes} {x : W} {n : Nat} {b : Bytes} (h : WroteP (sized pre x) n b)
    (h1 : ∀ c, pre = .ok c → AreFields (headFields (eLit t)) c) : Inner t n b := by
  obtain ⟨c, d, h2, -, h3, h4⟩ := wroteP_sized.1 h
  exact ⟨c, d, h4, h3, h1 c h2⟩

theorem inner_const {t : String} {k : Nat} {p : Val} (hp : GuidsOk p) {w : Val → Except Err Bytes} {n : Nat} {b : Bytes}
    (h : WroteP (sizeConst k p (wcat [wId p, wAt p ["value"] w])) n b)
    (h1 : headFields (eLit t) = [.id]) (h2 : ∀ v b, w v = .ok b → b.length = k) : Inner t n b := by
  obtain ⟨h3, rfl⟩ := wroteP_const.1 h
  obtain ⟨c, d, h4, h5, rfl⟩ := wcat_inv h3
  obtain ⟨d, e, h6, h7, rfl⟩ := wcat_inv h5
  cases wcat_nil_inv h7
  obtain ⟨v, -, h8⟩ := wAt_inv h6
  rw [List.append_nil]
  exact ⟨c, d, rfl, (h2 _ _ h8).symm, h1 ▸ are_one (is_id hp h4)⟩

theorem inner_plain_skip {r : Val → W} {ty p : Val} (hp : GuidsOk p) {n : Nat} {b : Bytes}
    (h : WroteP (wPlainInner r ty p) n b) : ∃ t ∈ propTypes, ty = .str (P t) ∧ Inner t n b := by
  have hty : ∀ {t : String}, ty.isS t = true → ty = .str (P t) := by
    intro t ht
    cases ty <;> simp only [Val.isS, decide_eq_true_eq, reduceCtorEq] at ht
    rw [ht]
  unfold wPlainInner at h
  by_cases ht : ty.isS "StructProperty" = true
  · rw [if_pos ht] at h
    refine ⟨_, by decide, hty ht, inner_sized h fun c hc => ?_⟩
    rw [show headFields (eLit "StructProperty") = [.str, .bytes 16, .id] by decide +kernel]
    obtain ⟨a, d, h1, h2, rfl⟩ := wcat_inv hc
    obtain ⟨b, d, h3, h4, rfl⟩ := wcat_inv h2
    obtain ⟨c, d, h5, h6, rfl⟩ := wcat_inv h4
    cases wcat_nil_inv h6
    obtain ⟨v, h7, h8⟩ := wAt_inv h3
    rw [List.append_nil]
    exact are_cons (is_at_str h1) (are_cons (skip_bytes (wGuid_len (hp _ (by decide) _ h7) h8)) (are_one (is_id hp h5)))
  rw [if_neg ht] at h
  clear ht
  by_cases ht : ty.isS "IntProperty" = true
  · rw [if_pos ht] at h
    exact ⟨_, by decide, hty ht, inner_const hp h (by decide +kernel) fun _ _ => wSigned_len⟩
  rw [if_neg ht] at h
  clear ht
  by_cases ht : ty.isS "Int64Property" = true
  · rw [if_pos ht] at h
    exact ⟨_, by decide, hty ht, inner_const hp h (by decide +kernel) fun _ _ => wSigned_len⟩
  rw [if_neg ht] at h
  clear ht
  by_cases ht : ty.isS "FixedPoint64Property" = true
  · rw [if_pos ht] at h
    exact ⟨_, by decide, hty ht, inner_const hp h (by decide +kernel) fun _ _ => wSigned_len⟩
  rw [if_neg ht] at h
  clear ht
  by_cases ht : ty.isS "FloatProperty" = true
  · rw [if_pos ht] at h
    exact ⟨_, by decide, hty ht, inner_const hp h (by decide +kernel) fun _ _ => wFloat_len⟩
  rw [if_neg ht] at h
  clear ht
  by_cases ht : ty.isS "StrProperty" = true
  · rw [if_pos ht] at h
    refine ⟨_, by decide, hty ht, inner_sized h fun c hc => ?_⟩
    rw [show headFields (eLit "StrProperty") = [.id] by decide +kernel]
    exact are_one (is_id hp hc)
  rw [if_neg ht] at h
  clear ht
  by_cases ht : ty.isS "NameProperty" = true
  · rw [if_pos ht] at h
    refine ⟨_, by decide, hty ht, inner_sized h fun c hc => ?_⟩
    rw [show headFields (eLit "NameProperty") = [.id] by decide +kernel]
    exact are_one (is_id hp hc)
  rw [if_neg ht] at h
  clear ht
  by_cases ht : ty.isS "EnumProperty" = true
  · rw [if_pos ht] at h
    refine ⟨_, by decide, hty ht, inner_sized h fun c hc => ?_⟩
    rw [show headFields (eLit "EnumProperty") = [.str, .id] by decide +kernel]
    obtain ⟨a, d, h1, h2, rfl⟩ := wcat_inv hc
    obtain ⟨b, d, h3, h4, rfl⟩ := wcat_inv h2
    cases wcat_nil_inv h4
    rw [List.append_nil]
    exact are_cons (is_at_str h1) (are_one (is_id hp h3))
  rw [if_neg ht] at h
  clear ht
  by_cases ht : ty.isS "BoolProperty" = true
  · rw [if_pos ht] at h
    obtain ⟨h3, rfl⟩ := wroteP_const.1 h
    obtain ⟨c, d, h4, h5, rfl⟩ := wcat_inv h3
    obtain ⟨d, e, h6, h7, rfl⟩ := wcat_inv h5
    cases wcat_nil_inv h7
    obtain ⟨v, -, h8⟩ := wAt_inv h4
    cases h8
    refine ⟨_, by decide, hty ht, _, [], (List.append_nil _).symm, rfl, ?_⟩
    rw [show headFields (eLit "BoolProperty") = [.bytes 1, .id] by decide +kernel, List.append_nil]
    exact are_cons (skip_bytes rfl) (are_one (is_id hp h6))
  rw [if_neg ht] at h
  clear ht
  by_cases ht : ty.isS "ArrayProperty" = true
  · rw [if_pos ht] at h
    refine ⟨_, by decide, hty ht, inner_sized h fun c hc => ?_⟩
    rw [show headFields (eLit "ArrayProperty") = [.str, .id] by decide +kernel]
    obtain ⟨a, d, h1, h2, rfl⟩ := wcat_inv hc
    obtain ⟨b, d, h3, h4, rfl⟩ := wcat_inv h2
    cases wcat_nil_inv h4
    rw [List.append_nil]
    exact are_cons (is_at_str h1) (are_one (is_id hp h3))
  rw [if_neg ht] at h
  clear ht
  by_cases ht : ty.isS "MapProperty" = true
  · rw [if_pos ht] at h
    refine ⟨_, by decide, hty ht, inner_sized h fun c hc => ?_⟩
    rw [show headFields (eLit "MapProperty") = [.str, .str, .id] by decide +kernel]
    obtain ⟨a, d, h1, h2, rfl⟩ := wcat_inv hc
    obtain ⟨b, d, h3, h4, rfl⟩ := wcat_inv h2
    obtain ⟨c, d, h5, h6, rfl⟩ := wcat_inv h4
    cases wcat_nil_inv h6
    rw [List.append_nil]
    exact are_cons (is_at_str h1) (are_cons (is_at_str h3) (are_one (is_id hp h5)))
  rw [if_neg ht] at h
  exact (wroteP_error.1 h).elim

theorem pre_get {c : CodecId} {wp : Val → Except Err Bytes} {v v' : Val} (h : c.pre wp v = .ok v') {k : String}
    (hk1 : "custom_type" ≠ k) (hk2 : k ≠ "value") : v'.get (P k) = v.get (P k) := by
  have hd : ∀ {v w : Val}, v.del (P "custom_type") = .ok w → w.get (P k) = v.get (P k) := by
    clear * - hk1
    intro v w h
    cases v <;> simp only [Val.del, reduceCtorEq] at h
    rename_i d
    split at h
    · cases h
      have : dget? (derase d (P "custom_type")) (P k) = dget? d (P k) := by
        clear * - hk1
        have hn : P "custom_type" ≠ P k := fun e => hk1 ((P_inj _ _).1 e)
        induction d with
        | nil => rfl
        | cons a t ih =>
          obtain ⟨k', x⟩ := a
          simp only [derase]
          by_cases e : k' = P "custom_type"
          · rw [if_pos e]; simp only [dget?, e, hn, if_false]; exact ih
          · rw [if_neg e]; simp only [dget?, ih]
      simp only [Val.get, this]
    · cases h
  have key : ∀ {f : Val → Except Err Val} {t : List PyStr},
      delThen (Val.upd f (P "value" :: t)) v = .ok v' → v'.get (P k) = v.get (P k) := by
    intro f t h
    unfold delThen at h
    cases h1 : v.del (P "custom_type") with
    | error e => rw [h1] at h; cases h
    | ok w =>
      rw [h1] at h
      simp only [Val.upd] at h
      cases h2 : w.get (P "value") with
      | error e => rw [h2] at h; cases h
      | ok x =>
        rw [h2] at h
        simp only at h
        cases h3 : x.upd f t with
        | error e => rw [h3] at h; cases h
        | ok x' =>
          rw [h3] at h
          rw [get_set_ne h (fun e => hk2 ((P_inj _ _).1 e))]
          exact hd h1
  cases c <;> simp only [CodecId.pre, encodeValue, ks, List.map] at h <;> first | exact key h | exact hd h

theorem inner_skip {cfg : Cfg} {r : Val → W} {wp : Val → Except Err Bytes} {ty p : Val} (hp : GuidsOk p) {n : Nat} {b : Bytes}
    (h : WroteP (wInner cfg r wp ty p) n b) : ∃ t ∈ propTypes, ty = .str (P t) ∧ Inner t n b := by
  rcases wroteP_inner.1 h with ⟨-, h⟩ | ⟨-, q, c, p', -, -, -, h1, h⟩
  · exact inner_plain_skip hp h
  · refine inner_plain_skip (fun k hk v hv => ?_) h
    have e : True ∧ "custom_type" ≠ k ∧ k ≠ "value" := by
      simp only [List.mem_cons, List.not_mem_nil, or_false] at hk
      rcases hk with rfl | rfl <;> decide
    rw [pre_get h1 e.2.1 e.2.2] at hv
    exact hp k hk v hv

/-- What `property` writes: the type, the size of the body, the head and the body. -/
theorem property_skip {cfg : Cfg} {r : Val → W} {wp : Val → Except Err Bytes} {p : Val} (hp : GuidsOk p) {b : Bytes}
    (h : Wrote (wProperty cfg r wp p) b) : ∃ t ∈ propTypes, p.get (P "type") = .ok (.str (P t)) ∧
      ∃ head body, b = eLit t ++ lit 8 body.length ++ head ++ body ∧ body.length < 2 ^ 64 ∧
        AreFields (headFields (eLit t)) head := by
  obtain ⟨ty, tb, n, buf, sb, h1, h2, h3, h4, rfl⟩ := wrote_property.1 h
  obtain ⟨t, h5, rfl, head, body, rfl, rfl, h6⟩ := inner_skip hp h3
  have h7 := (fstringBytes_inv h2).2
  simp only [wU64, wUnsigned, Val.asInt?] at h4
  split at h4
  · rename_i h8
    cases h4
    refine ⟨t, h5, h1, head, body, ?_, by omega, h6⟩
    rw [h7, lit_eq]
    simp only [List.append_assoc, eLit, Int.toNat_natCast]
  · cases h4

theorem encStr_none {k : PyStr} (hf : StrFits k) (hn : k ≠ P "None") : encStr k ≠ eLit "None" := by
  intro e
  by_cases ha : Ascii k
  · have hk : StrOk k := by
      refine ⟨⟨fun c hc => ?_, ?_⟩, hf⟩
      · have := ha c hc
        show c ≤ 0x10FFFF
        omega
      · clear * - ha
        induction k with
        | nil => trivial
        | cons a t ih =>
          cases t with
          | nil => trivial
          | cons b t =>
            refine ⟨fun h => ?_, ih fun c hc => ha c (List.mem_cons_of_mem _ hc)⟩
            have := ha a List.mem_cons_self
            have := h.1.1
            omega
    have h1 := rFString_enc k [] hk
    rw [e] at h1
    have h2 := rFString_enc (P "None") [] (by decide +kernel)
    rw [eLit] at h1
    rw [h1] at h2
    cases h2
    exact hn rfl
  · have h1 := congrArg List.length e
    have h0 : k ≠ [] := fun h => ha (by rw [h]; decide)
    rw [encStr, if_neg h0, if_neg ha] at h1
    have hu : ((units k).flatMap (lit 2)).length = 2 * (units k).length := by
      generalize units k = l
      clear * -
      induction l with
      | nil => rfl
      | cons a t ih => rw [List.flatMap_cons, List.length_append, ih, lit_length, List.length_cons]; omega
    simp only [List.length_append, twos, lit_length, hu] at h1
    rw [show (eLit "None").length = 9 by decide +kernel] at h1
    simp at h1
    omega

/-- The tag found for a property `p` named `k` is what the writer writes for it. -/
structure TagOf (w : Val → W) (k : PyStr) (p : Val) (t : Tag) : Prop where
  name : fstringBytes k = .ok t.name
  type : ∃ ty, p.get (P "type") = .ok ty ∧ wFString ty = .ok t.type
  size : t.size = lit 8 t.body.length
  written : ∃ c, Wrote (w p) c ∧ t.bytes = t.name ++ c

theorem entries_skip {cfg : Cfg} {r : Val → W} {wp : Val → Except Err Bytes} :
    ∀ (d : Dict) (b : Bytes) (_ : ∀ q ∈ d, GuidsOk q.2) (_ : ∀ q ∈ d, q.1 ≠ P "None")
      (_ : WroteD (wProperty cfg r wp) d b) (n : Nat) (_ : d.length < n) (rest : Bytes),
    ∃ l, walk n (b ++ eLit "None" ++ rest) = some (l, rest) ∧
      List.Forall₂ (fun q t => TagOf (wProperty cfg r wp) q.1 q.2 t) d l
  | [], b, _, _, h, n + 1, _, rest => by
    cases wroteD_nil.1 h
    refine ⟨[], ?_, .nil⟩
    simp only [walk, List.nil_append]
    rw [eLit, skipStr_enc _ (by decide +kernel)]
    simp only [if_true]
  | (k, p) :: t, b, hg, hn, h, n + 1, hl, rest => by
    obtain ⟨kb, c, d, h1, h2, h3, rfl⟩ := wroteD_cons.1 h
    obtain ⟨l, h4, h5⟩ := entries_skip t d (fun q hq => hg q (List.mem_cons_of_mem _ hq))
      (fun q hq => hn q (List.mem_cons_of_mem _ hq)) h3 n (by simpa using hl) rest
    obtain ⟨ty, h7, h6, head, body, rfl, h8, h9⟩ := property_skip (hg _ List.mem_cons_self) h2
    obtain ⟨hf, rfl⟩ := fstringBytes_inv h1
    have hk : encStr k ≠ eLit "None" := encStr_none hf (hn _ List.mem_cons_self)
    have hty : StrFits (P ty) := by
      have : ∀ t ∈ propTypes, StrFits (P t) := by decide +kernel
      exact this ty h7
    refine ⟨⟨encStr k, eLit ty, lit 8 body.length, head, body⟩ :: l, ?_, .cons ⟨h1, ⟨_, h6, ?_⟩, rfl, _, h2, ?_⟩ h5⟩
    · simp only [walk, List.append_assoc] at h4 ⊢
      rw [skipStr_enc k hf]
      simp only [hk, if_false, skipProp]
      rw [eLit, skipStr_enc _ hty]
      simp only
      rw [cut_append (lit_length _ _)]
      simp only
      rw [← eLit, h9]
      simp only
      rw [num_lit _ _ (by omega), cut_append rfl]
      simp only [h4]
    · exact fstringBytes_eq _ hty
    · simp only [Tag.bytes, List.append_assoc]


/-- C10: in whatever the writer writes for a property list, going through by declared sizes
alone finds exactly the properties, in order, and then the end of the list. -/
theorem C10_written (cfg : Cfg) (n : Nat) (d : Dict) (b : Bytes) (v : Val) (h : wProps n cfg (.dict d) = .ok (b, v))
    (hg : ∀ q ∈ d, GuidsOk q.2) (hn : ∀ q ∈ d, q.1 ≠ P "None") (rest : Bytes) :
    ∃ n' l, skipList (b ++ rest) = some (l, rest) ∧
      List.Forall₂ (fun q t => TagOf (wProperty cfg (wProps n' cfg) (bytesOf n')) q.1 q.2 t) d l := by
  cases n with
  | zero => cases h
  | succ n =>
    have h' : Wrote (wProps (n + 1) cfg (.dict d)) b := ⟨v, h⟩
    rw [wProps_succ] at h'
    obtain ⟨c, nb, h1, h2, rfl⟩ := wrote_body.1 h'
    cases (fstringBytes_inv h2).2
    have hl : d.length ≤ c.length := by
      clear * - h1
      induction d generalizing c with
      | nil => simp
      | cons q t ih =>
        obtain ⟨kb, a, d, h2, h3, h4, rfl⟩ := wroteD_cons.1 h1
        have := ih d h4
        obtain ⟨hf, rfl⟩ := fstringBytes_inv h2
        have : 0 < (encStr q.1).length := by
          unfold encStr
          split
          · decide
          · split <;> simp [twos, lit_length]
        simp only [List.length_cons, List.length_append]
        omega
    obtain ⟨l, h3, h4⟩ := entries_skip d c hg hn h1 ((c ++ encStr (P "None") ++ rest).length + 1)
      (by simp only [List.length_append]; omega) rest
    exact ⟨n, l, h3, h4⟩


/-- C10: the same for a whole file: the property list starts after the header, and the
trailer is what remains. -/
theorem C10_file (cfg : Cfg) (g g' : Gvas) (d : Dict) (b : Bytes) (h : g.write cfg = .ok (b, g'))
    (hd : g.properties = .dict d) (hg : ∀ q ∈ d, GuidsOk q.2) (hn : ∀ q ∈ d, q.1 ≠ P "None") :
    ∃ hb pb n l, g.header.write = .ok hb ∧ b = hb ++ pb ∧ skipList pb = some (l, g.trailer) ∧
      List.Forall₂ (fun q t => TagOf (wProperty cfg (wProps n cfg) (bytesOf n)) q.1 q.2 t) d l := by
  unfold Gvas.write Gvas.writeF at h
  cases hh : g.header.write with
  | error e => rw [hh] at h; cases h
  | ok hb =>
    rw [hh, hd] at h
    simp only at h
    cases hp : wProps ((Val.dict d).rank + 1) cfg (.dict d) with
    | error e => rw [hp] at h; cases h
    | ok q =>
      obtain ⟨pb, v⟩ := q
      rw [hp] at h
      cases h
      obtain ⟨n, l, h1, h2⟩ := C10_written cfg _ d pb v hp hg hn g.trailer
      exact ⟨hb, pb ++ g.trailer, n, l, rfl, List.append_assoc _ _ _, h1, h2⟩

theorem strFits_type (p : PropT m) : StrFits (P p.type) := (type_strOk p).2

theorem is_eStr (s : Str) : Is .str (eStr s) := skip_str s.2.2
theorem is_eOptGuid (id : Option Guid) : Is .id (eOptGuid id) := by
  intro r
  cases id with
  | none => rfl
  | some g => exact cut_append (by rw [eOptGuid]; simp [eGuid, g.2, idLen]) r

theorem head_skip (p : PropT m) : AreFields (headFields (eLit p.type)) p.head := by
  cases p <;> simp only [PropT.type, PropT.head]
  case struct st sid id v =>
    rw [show headFields (eLit "StructProperty") = [.str, .bytes 16, .id] by decide +kernel, List.append_assoc]
    exact are_cons (is_eStr _) (are_cons (skip_bytes sid.2) (are_one (is_eOptGuid _)))
  case enum et id s =>
    rw [show headFields (eLit "EnumProperty") = [.str, .id] by decide +kernel]
    exact are_cons (is_eStr _) (are_one (is_eOptGuid _))
  case bool b id =>
    rw [show headFields (eLit "BoolProperty") = [.bytes 1, .id] by decide +kernel]
    exact are_cons (skip_bytes (by cases b <;> rfl)) (are_one (is_eOptGuid _))
  case map kt vt id l =>
    rw [show headFields (eLit "MapProperty") = [.str, .str, .id] by decide +kernel, List.append_assoc]
    exact are_cons (is_eStr _) (are_cons (is_eStr _) (are_one (is_eOptGuid _)))
  case int => rw [show headFields (eLit "IntProperty") = [.id] by decide +kernel]; exact are_one (is_eOptGuid _)
  case int64 => rw [show headFields (eLit "Int64Property") = [.id] by decide +kernel]; exact are_one (is_eOptGuid _)
  case fixed64 => rw [show headFields (eLit "FixedPoint64Property") = [.id] by decide +kernel]; exact are_one (is_eOptGuid _)
  case float => rw [show headFields (eLit "FloatProperty") = [.id] by decide +kernel]; exact are_one (is_eOptGuid _)
  case str => rw [show headFields (eLit "StrProperty") = [.id] by decide +kernel]; exact are_one (is_eOptGuid _)
  case name => rw [show headFields (eLit "NameProperty") = [.id] by decide +kernel]; exact are_one (is_eOptGuid _)
  case others id o =>
    rw [show headFields (eLit "ArrayProperty") = [.str, .id] by decide +kernel]
    refine are_cons (skip_str ?_) (are_one (is_eOptGuid _))
    cases o
    case nothing t => exact t.2.2
    all_goals simp only [Others.type]; decide +kernel
  all_goals
    rw [show headFields (eLit "ArrayProperty") = [.str, .id] by decide +kernel]
    exact are_cons (skip_str (by decide +kernel)) (are_one (is_eOptGuid _))

/-- C10, for the stored form of trees: the boundaries found by sizes are those of the
properties, and the bodies are the sized parts. -/
theorem C10_tree (ps : Props m) (hn : ∀ q ∈ ps, q.1.val ≠ P "None") (h64 : ∀ q ∈ ps, q.2.tail.length < 2 ^ 64)
    (rest : Bytes) : skipList (encProps ps ++ rest) = some (ps.map fun q =>
      ⟨eStr q.1, eLit q.2.type, lit 8 q.2.tail.length, q.2.head, q.2.tail⟩, rest) := by
  have key : ∀ (ps : Props m) (n : Nat), (∀ q ∈ ps, q.1.val ≠ P "None") → (∀ q ∈ ps, q.2.tail.length < 2 ^ 64) →
      ps.length < n → walk n (encProps ps ++ rest) = some (ps.map fun q =>
      ⟨eStr q.1, eLit q.2.type, lit 8 q.2.tail.length, q.2.head, q.2.tail⟩, rest) := by
    intro ps
    induction ps with
    | nil =>
      intro n _ _ hl
      obtain ⟨n, rfl⟩ : ∃ k, n = k + 1 := ⟨n - 1, by simp at hl; omega⟩
      simp only [walk, encProps]
      rw [eLit, skipStr_enc _ (by decide +kernel)]
      simp only [if_true, List.map_nil]
    | cons q t ih =>
      obtain ⟨nm, p⟩ := q
      intro n h1 h2 hl
      obtain ⟨n, rfl⟩ : ∃ k, n = k + 1 := ⟨n - 1, by omega⟩
      have ih := ih n (fun q hq => h1 q (List.mem_cons_of_mem _ hq)) (fun q hq => h2 q (List.mem_cons_of_mem _ hq))
        (by simpa using hl)
      have hk : encStr nm.val ≠ eLit "None" := encStr_none nm.2.2 (h1 _ List.mem_cons_self)
      have h8 := h2 _ List.mem_cons_self
      simp only [walk, encProps, List.append_assoc, eStr]
      rw [skipStr_enc _ nm.2.2]
      simp only [hk, if_false, skipProp]
      rw [eLit, skipStr_enc _ (strFits_type p)]
      simp only
      rw [cut_append (lit_length _ _)]
      simp only
      rw [← eLit, head_skip p]
      simp only
      rw [num_lit _ _ (by simpa using h8), cut_append rfl]
      simp only [ih, List.map_cons, eStr]
  refine key ps _ hn h64 ?_
  have : ps.length ≤ (encProps ps).length := by
    clear * -
    induction ps with
    | nil => simp
    | cons q t ih =>
      have := eStr_len q.1
      simp only [encProps, List.length_append, List.length_cons]
      omega
  simp only [List.length_append]
  omega

/-- C10: the inner tag of an array of structs declares the number of bytes of its elements. -/
theorem C10_structs (cfg : Cfg) (r : Val → W) (wp : Val → Except Err Bytes) (p a : Val) (c : Bytes)
    (h : Wrote (wProperty cfg r wp p) c)
    (h1 : p.get (P "type") = .ok (.str (P "ArrayProperty"))) (hu : Undecoded p)
    (h2 : p.get (P "array_type") = .ok (.str (P "StructProperty"))) (h3 : p.get (P "value") = .ok a)
    (h4 : ∀ id, a.get (P "id") = .ok id → Guid16 id) :
    ∃ head body elems, c = eLit "ArrayProperty" ++ lit 8 body.length ++ head ++ body ∧
      skipStructs body = some (elems, []) ∧
      ∃ tn xs l, a.get (P "type_name") = .ok tn ∧ a.get (P "values") = .ok xs ∧ xs.seqItems = .ok l ∧
        WroteL (wStructValue r tn) l elems := by
  obtain ⟨ty, tb, n, buf, sb, h5, h6, h7, h8, rfl⟩ := wrote_property.1 h
  cases h1.symm.trans h5
  have h9 := plain_of_undecoded hu h7
  cases (fstringBytes_inv h6).2
  simp only [wPlainInner, isS_P, String.reduceEq, decide_false, decide_true, Bool.false_eq_true, ↓reduceIte, h2] at h9
  obtain ⟨head, body, -, h10, rfl, rfl⟩ := wroteP_sized.1 h9
  have hsb : sb = lit 8 body.length := by
    simp only [wU64, wUnsigned, Val.asInt?] at h8
    split at h8
    · cases h8; rw [lit_eq]; rfl
    · cases h8
  obtain ⟨v, h11, h12⟩ := wrote_on.1 h10
  cases h3.symm.trans h11
  simp only [wArrayProperty, isS_P, decide_true, if_true] at h12
  obtain ⟨cnt, d, h13, h14, rfl⟩ := wrote_then.1 h12
  obtain ⟨nm, d, h15, h16, rfl⟩ := wrote_then.1 h14
  obtain ⟨b1, d1, h17, h18, rfl⟩ := wcat_inv h15
  obtain ⟨b2, d2, h19, h20, rfl⟩ := wcat_inv h18
  cases wcat_nil_inv h20
  cases ho : wOn a "values" (wSeq (wStructElem r a)) with
  | error e => rw [ho] at h16; exact (wrote_error.1 h16).elim
  | ok q =>
    obtain ⟨elems, a'⟩ := q
    rw [ho] at h16
    simp only at h16
    obtain ⟨mid, e, h21, h22, rfl⟩ := wrote_then.1 h16
    cases wrote_ok.1 h22
    obtain ⟨c1, d3, h23, h24, rfl⟩ := wcat_inv h21
    obtain ⟨c2, d4, h25, h26, rfl⟩ := wcat_inv h24
    obtain ⟨c3, d5, h27, h28, rfl⟩ := wcat_inv h26
    obtain ⟨c4, d6, h29, h30, rfl⟩ := wcat_inv h28
    cases wcat_nil_inv h30
    cases h29
    obtain ⟨xs, h31, h32⟩ := wrote_on.1 ⟨_, ho⟩
    obtain ⟨l, h33, h34⟩ := wrote_seq.1 h32
    obtain ⟨tn, h35, h36⟩ := wAt_inv h25
    obtain ⟨id, h37, h38⟩ := wAt_inv h27
    have hel : wStructElem r a = wStructValue r tn := by
      funext x
      simp only [wStructElem, h35]
    rw [hel] at h34
    have hc1 : c1 = lit 8 elems.length ∧ elems.length < 256 ^ 8 := by
      simp only [wU64, wUnsigned, Val.asInt?] at h23
      split at h23
      · rename_i hr; cases h23; rw [lit_eq]; exact ⟨rfl, by omega⟩
      · cases h23
    have hcnt : cnt.length = 4 := by
      obtain ⟨x, -, hx⟩ := wAt_inv h13
      unfold wLen at hx
      split at hx
      · simp only [wU32, wUnsigned, Val.asInt?] at hx
        split at hx
        · cases hx; rw [← lit_eq, lit_length]
        · cases hx
      · cases hx
    refine ⟨head, _, elems, by rw [hsb]; simp only [eLit]; exact (List.append_assoc _ _ _).symm, ?_, tn, xs, l, h35, h31, h33, h34⟩
    have f1 := are_cons (skip_bytes hcnt) (are_cons (is_at_str h17) (are_one (is_at_str h19)))
    have f2 := are_cons (is_str h36) (are_cons (skip_bytes (wGuid_len (h4 _ h37) h38)) (are_one (skip_bytes (k := 1) (b := leBytes 1 0) rfl)))
    have f1 := f1 (c1 ++ (c2 ++ (c3 ++ leBytes 1 0)) ++ elems)
    have f2 := f2 elems
    unfold skipStructs
    simp only [List.append_assoc, List.append_nil, List.nil_append] at f1 f2 ⊢
    rw [show Int.toNat 0 = 0 from rfl, f1]
    simp only
    rw [hc1.1, cut_append (lit_length _ _)]
    simp only
    rw [f2]
    simp only
    rw [num_lit _ _ hc1.2]
    have := cut_append (a := elems) rfl []
    rwa [List.append_nil] at this

/-- Part of some bytes. -/
def Part (a b : Bytes) : Prop := ∃ x y, b = x ++ a ++ y

theorem part_refl (a : Bytes) : Part a a := ⟨[], [], by simp⟩
theorem part_trans {a b c : Bytes} : Part a b → Part b c → Part a c := by
  rintro ⟨x, y, rfl⟩ ⟨z, w, rfl⟩
  exact ⟨z ++ x, y ++ w, by simp⟩
theorem part_mid (a b c : Bytes) : Part b (a ++ b ++ c) := ⟨a, c, rfl⟩
theorem part_left (a b : Bytes) : Part a (a ++ b) := ⟨[], b, by simp⟩
theorem part_right (a b : Bytes) : Part b (a ++ b) := ⟨a, [], by simp⟩

theorem wroteD_part {f : Val → W} {k : PyStr} {p : Val} : ∀ {d : Dict} {b : Bytes}, WroteD f d b → (k, p) ∈ d →
    ∃ c, Wrote (f p) c ∧ Part c b
  | [], _, _, h => by cases h
  | (k', p') :: t, b, hw, h => by
    obtain ⟨kb, c, d, -, h1, h2, rfl⟩ := wroteD_cons.1 hw
    rcases List.mem_cons.1 h with h | h
    · cases h; exact ⟨c, h1, part_mid _ _ _⟩
    · obtain ⟨c', h3, h4⟩ := wroteD_part h2 h
      exact ⟨c', h3, part_trans h4 (part_right _ _)⟩

theorem wroteL_part {f : Val → W} {x : Val} : ∀ {l : List Val} {b : Bytes}, WroteL f l b → x ∈ l →
    ∃ c, Wrote (f x) c ∧ Part c b
  | [], _, _, h => by cases h
  | a :: t, b, hw, h => by
    obtain ⟨c, d, h1, h2, rfl⟩ := wroteL_cons.1 hw
    rcases List.mem_cons.1 h with h | h
    · cases h; exact ⟨c, h1, part_left _ _⟩
    · obtain ⟨c', h3, h4⟩ := wroteL_part h2 h
      exact ⟨c', h3, part_trans h4 (part_right _ _)⟩

theorem wrote_part {n : Nat} {cfg : Cfg} {d : Dict} {b : Bytes} (h : Wrote (wProps n cfg (.dict d)) b) {k : PyStr} {p : Val}
    (hm : (k, p) ∈ d) (hu : Undecoded p) : ∃ n', n = n' + 1 ∧ ∃ ty size c, p.get (P "type") = .ok ty ∧
      WroteP (wPlainInner (wProps n' cfg) ty p) size c ∧ Part c b := by
  cases n with
  | zero => exact (wrote_error.1 h).elim
  | succ n =>
    rw [wProps_succ] at h
    obtain ⟨c, nb, h1, -, rfl⟩ := wrote_body.1 h
    obtain ⟨c', h2, h5⟩ := wroteD_part h1 hm
    obtain ⟨ty, _, size, buf, _, h3, -, h4, -, rfl⟩ := wrote_property.1 h2
    exact ⟨n, rfl, ty, size, buf, h3, plain_of_undecoded hu h4, part_trans (part_right _ _) (part_trans h5 (part_left _ _))⟩

/-- C10 below the top level: the stored form of a property list contains the stored form
of every property list in it (and so `C10_written` applies to those). -/
theorem C10_inside (cfg : Cfg) {v w : Val} (hi : Inside v w) : ∀ (n : Nat) (b : Bytes), Wrote (wProps n cfg v) b →
    ∃ n' b', Wrote (wProps n' cfg w) b' ∧ Part b' b := by
  induction hi with
  | here v => exact fun n b h => ⟨n, b, h, part_refl b⟩
  | @struct ps k p st v w hm hu h1 h2 h3 h4 _ ih =>
    intro n b hb
    obtain ⟨n, rfl, ty, size, d, h6, h7, hp⟩ := wrote_part hb hm hu
    cases h1.symm.trans h6
    simp only [wPlainInner, isS_P, String.reduceEq, decide_false, decide_true, Bool.false_eq_true, ↓reduceIte, h2] at h7
    obtain ⟨_, d, -, h8, -, rfl⟩ := wroteP_sized.1 h7
    obtain ⟨v', h9, h10⟩ := wrote_on.1 h8
    cases h4.symm.trans h9
    rw [wStruct_list h3] at h10
    obtain ⟨n', b', h11, h12⟩ := ih n d h10
    exact ⟨n', b', h11, part_trans h12 (part_trans (part_right _ _) hp)⟩
  | @array ps k p a st xs x w l hm hu h1 h2 h3 h4 h5 h6 h7 h8 _ ih =>
    intro n b hb
    obtain ⟨n, rfl, ty, size, d, h9, h10, hp⟩ := wrote_part hb hm hu
    cases h1.symm.trans h9
    simp only [wPlainInner, isS_P, String.reduceEq, decide_false, decide_true, Bool.false_eq_true, ↓reduceIte, h2] at h10
    obtain ⟨_, d, -, h11, -, rfl⟩ := wroteP_sized.1 h10
    obtain ⟨v', h12, h13⟩ := wrote_on.1 h11
    cases h3.symm.trans h12
    simp only [wArrayProperty, isS_P, decide_true, if_true] at h13
    obtain ⟨_, d, -, h14, rfl⟩ := wrote_then.1 h13
    obtain ⟨_, d, -, h23, rfl⟩ := wrote_then.1 h14
    cases ho : wOn a "values" (wSeq (wStructElem (wProps n cfg) a)) with
    | error e => rw [ho] at h23; exact (wrote_error.1 h23).elim
    | ok q =>
      rw [ho] at h23
      simp only at h23
      obtain ⟨_, e, -, h22, rfl⟩ := wrote_then.1 h23
      cases wrote_ok.1 h22
      obtain ⟨xs', h15, h16⟩ := wrote_on.1 ⟨q.2, ho⟩
      cases h6.symm.trans h15
      obtain ⟨l', h17, h18⟩ := wrote_seq.1 h16
      cases h7.symm.trans h17
      obtain ⟨c, h19, hc⟩ := wroteL_part h18 h8
      simp only [wStructElem, h4, wStruct_list h5] at h19
      obtain ⟨n', b', h20, h21⟩ := ih n c h19
      exact ⟨n', b', h20, part_trans h21 (part_trans hc (part_trans (part_right _ _) (part_trans (part_right _ _)
        (part_trans (part_right _ _) (part_trans (part_right _ _) hp)))))⟩
  | @key ps k p st a e x w l hm hu h1 h2 h3 h4 h5 h6 h7 h8 _ ih =>
    intro n b hb
    obtain ⟨n, rfl, ty, size, d, h9, h10, hp⟩ := wrote_part hb hm hu
    cases h1.symm.trans h9
    simp only [wPlainInner, isS_P, String.reduceEq, decide_false, decide_true, Bool.false_eq_true, ↓reduceIte, wMapBody] at h10
    obtain ⟨_, d, -, h11, -, rfl⟩ := wroteP_sized.1 h10
    obtain ⟨_, d, -, h22, rfl⟩ := wrote_then.1 h11
    obtain ⟨v, h12, h23⟩ := wrote_on.1 h22
    cases h5.symm.trans h12
    obtain ⟨l', h13, h24⟩ := wrote_iter.1 h23
    cases h6.symm.trans h13
    obtain ⟨c, h14, hc⟩ := wroteL_part h24 h7
    obtain ⟨kt', kst', vt', vst, kk, vv, kb, vb, h15, h16, -, -, h17, -, h18, -, rfl⟩ := wrote_mapEntry.1 h14
    cases h2.symm.trans h15
    cases h3.symm.trans h16
    cases h8.symm.trans h17
    simp only [wPropValue, isS_P, decide_true, if_true, wStruct_list h4] at h18
    obtain ⟨n', b', h20, h21⟩ := ih n _ h18
    exact ⟨n', b', h20, part_trans h21 (part_trans (part_left _ _) (part_trans hc (part_trans (part_right _ _)
      (part_trans (part_right _ _) hp))))⟩
  | @value ps k p st a e x w l hm hu h1 h2 h3 h4 h5 h6 h7 h8 _ ih =>
    intro n b hb
    obtain ⟨n, rfl, ty, size, d, h9, h10, hp⟩ := wrote_part hb hm hu
    cases h1.symm.trans h9
    simp only [wPlainInner, isS_P, String.reduceEq, decide_false, decide_true, Bool.false_eq_true, ↓reduceIte, wMapBody] at h10
    obtain ⟨_, d, -, h11, -, rfl⟩ := wroteP_sized.1 h10
    obtain ⟨_, d, -, h22, rfl⟩ := wrote_then.1 h11
    obtain ⟨v, h12, h23⟩ := wrote_on.1 h22
    cases h5.symm.trans h12
    obtain ⟨l', h13, h24⟩ := wrote_iter.1 h23
    cases h6.symm.trans h13
    obtain ⟨c, h14, hc⟩ := wroteL_part h24 h7
    obtain ⟨kt', kst', vt', vst, kk, vv, kb, vb, -, -, h15, h16, -, h17, -, h18, rfl⟩ := wrote_mapEntry.1 h14
    cases h2.symm.trans h15
    cases h3.symm.trans h16
    cases h8.symm.trans h17
    simp only [wPropValue, isS_P, decide_true, if_true, wStruct_list h4] at h18
    obtain ⟨n', b', h20, h21⟩ := ih n _ h18
    exact ⟨n', b', h20, part_trans h21 (part_trans (part_right _ _) (part_trans hc (part_trans (part_right _ _)
      (part_trans (part_right _ _) hp))))⟩

/-! ### examples -/

-- the sample file, whose properties include structs, arrays of structs and maps
example : skipList (encProps sampleProps ++ [0, 0, 0, 0]) = some (sampleProps.map fun q =>
    ⟨eStr q.1, eLit q.2.type, lit 8 q.2.tail.length, q.2.head, q.2.tail⟩, [0, 0, 0, 0]) :=
  C10_tree sampleProps (by decide +kernel) (by decide +kernel) _

/-- An edited tree, with the GUIDs as texts as in JSON, and a property list in an array of structs. -/
def editedLeaf : Dict := [(P "Level", vDict [("id", .none), ("value", .int 7), ("type", .str (P "IntProperty"))])]
def editedArray : Val := vDict [("array_type", .str (P "StructProperty")), ("id", .none),
  ("value", vDict [("prop_name", .str (P "A")), ("prop_type", .str (P "StructProperty")),
    ("values", .list [.dict editedLeaf, .dict []]), ("type_name", .str (P "Stats")), ("id", .uuid (List.replicate 16 0))]),
  ("type", .str (P "ArrayProperty"))]
def editedTree : Dict := [(P "A", editedArray),
  (P "B", vDict [("value", .bool true), ("id", .uuid (List.replicate 16 5)), ("type", .str (P "BoolProperty"))])]

theorem edited_written : ∃ b v, wProps 3 Cfg.empty (.dict editedTree) = .ok (b, v) := ⟨_, _, by rfl⟩

theorem guidsOk_dict {d : Dict} (h : ∀ q ∈ d, Guid16 q.2) : GuidsOk (.dict d) := by
  intro k _ v hv
  simp only [Val.get] at hv
  split at hv
  · rename_i x hx
    cases hv
    have : ∀ {d : Dict} {k : PyStr} {x : Val}, dget? d k = some x → ∃ k', (k', x) ∈ d := by
      intro d
      induction d with
      | nil => intro k x h; cases h
      | cons a t ih =>
        obtain ⟨k', y⟩ := a
        intro k x h
        simp only [dget?] at h
        split at h
        · cases h; exact ⟨k', List.mem_cons_self⟩
        · obtain ⟨k'', h⟩ := ih h
          exact ⟨k'', List.mem_cons_of_mem _ h⟩
    obtain ⟨k', h'⟩ := this hx
    exact h _ h'
  · cases hv

theorem edited_guids : ∀ q ∈ editedTree, GuidsOk q.2 := by
  intro q hq
  simp only [editedTree, List.mem_cons, List.not_mem_nil, or_false] at hq
  rcases hq with rfl | rfl
  · refine guidsOk_dict fun q hq => ?_
    simp only [List.map, List.mem_cons, List.not_mem_nil, or_false] at hq
    rcases hq with rfl | rfl | rfl | rfl <;> (intro raw h; cases h)
  · refine guidsOk_dict fun q hq => ?_
    simp only [List.map, List.mem_cons, List.not_mem_nil, or_false] at hq
    rcases hq with rfl | rfl | rfl
    · intro raw h; cases h
    · intro raw h; cases h; rfl
    · intro raw h; cases h

example : ∃ b n l, skipList (b ++ [1, 2, 3]) = some (l, [1, 2, 3]) ∧ l.length = 2 ∧
    List.Forall₂ (fun q t => TagOf (wProperty Cfg.empty (wProps n Cfg.empty) (bytesOf n)) q.1 q.2 t) editedTree l := by
  obtain ⟨b, v, h⟩ := edited_written
  obtain ⟨n, l, h1, h2⟩ := C10_written _ _ _ b v h edited_guids (by decide +kernel) [1, 2, 3]
  exact ⟨b, n, l, h1, h2.length_eq.symm, h2⟩

-- the property list in the array of structs
example : ∃ n b' b v, wProps 3 Cfg.empty (.dict editedTree) = .ok (b, v) ∧
    Wrote (wProps n Cfg.empty (.dict editedLeaf)) b' ∧ Part b' b := by
  obtain ⟨b, v, h⟩ := edited_written
  obtain ⟨n, b', h1, h2⟩ := C10_inside Cfg.empty (.array List.mem_cons_self (by rfl) (by rfl) (by rfl) (by rfl) (by rfl)
    (by simp only [IsList, fixedStructs, List.forall_mem_cons, ne_eq, Val.str.injEq, P_inj, String.reduceEq,
        not_false_eq_true, true_and, List.not_mem_nil, false_imp_iff, implies_true]) (by rfl) (by rfl) List.mem_cons_self
    (.here (.dict editedLeaf))) 3 b ⟨v, h⟩
  exact ⟨n, b', b, v, h, h1, h2⟩

example : ∃ c head body elems, Wrote (wProperty Cfg.empty (wProps 2 Cfg.empty) (bytesOf 2) editedArray) c ∧
    c = eLit "ArrayProperty" ++ lit 8 body.length ++ head ++ body ∧ skipStructs body = some (elems, []) := by
  have h : ∃ c, Wrote (wProperty Cfg.empty (wProps 2 Cfg.empty) (bytesOf 2) editedArray) c := ⟨_, _, by rfl⟩
  obtain ⟨c, h⟩ := h
  obtain ⟨head, body, elems, h1, h2, -⟩ := C10_structs Cfg.empty _ _ editedArray _ c h
    (by rfl) (by rfl) (by rfl) (by rfl)
    (fun id h => by cases h; intro raw h; cases h; rfl)
  exact ⟨c, head, body, elems, h, h1, h2⟩

end Pal
