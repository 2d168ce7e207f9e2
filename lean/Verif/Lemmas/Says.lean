import Verif.Lemmas.SaysPrim
/-
Documents: what can be written is what says a file.
-/

set_option linter.unusedSectionVars false

namespace Pal
open Spec

theorem isS_iff {v : Val} {t : String} : v.isS t = true ↔ v = .str (P t) := by
  constructor
  · intro h
    cases v <;> try cases h
    rw [isS_str, decide_eq_true_eq] at h
    rw [h]
  · rintro rfl; rw [isS_P]; simp

theorem not_isS {v : Val} {t : String} : ¬ v.isS t = true ↔ v ≠ .str (P t) := not_congr isS_iff

theorem isS_no (s t : String) (h : t ≠ s) : ¬ (Val.str (P s)).isS t = true := by rw [isS_P]; simpa using h

theorem wAt_of {v x : Val} {k : String} {w : Val → Except Err Bytes} {b : Bytes} (h : At v k x) (hw : w x = .ok b) :
    wAt v [k] w = .ok b := wAt_iff1.2 ⟨x, h, hw⟩

theorem wFString_of (s : Str) : wFString (.str s.val) = .ok (eStr s) := wFString_str s

theorem wBool_says (v : Val) : wBool v = .ok (eBool v.truthy) := by
  unfold wBool eBool
  cases v.truthy <;> rfl

/-! ### structs -/

/-- What `r` writes is a property list that the value says. -/
def Fw (O : Val → Val → Prop) (r : Val → W) : Prop := ∀ v b, PlainDoc v → Wrote (r v) b → ∃ ps, SaysPs O v ps ∧ encProps ps = b
/-- Property lists shorter than `N` bytes are written. -/
def Bw (O : Val → Val → Prop) (r : Val → W) (N : Nat) : Prop :=
  ∀ v ps, SaysPs O v ps → (encProps ps).length < N → Wrote (r v) (encProps ps)

section
variable {O : Val → Val → Prop} {r : Val → W} {N : Nat}

theorem fw_struct (hr : Fw O r) {st v : Val} {b : Bytes} (hp : PlainDoc v) (h : Wrote (wStructValue r st v) b) :
    ∃ s, SaysS O st v s ∧ s.enc = b := by
  unfold wStructValue at h
  by_cases h1 : st.isS "Vector" = true
  · rw [if_pos h1, wrote_keep, wVectorDict_iff] at h
    obtain ⟨x, hx, rfl⟩ := h
    cases isS_iff.1 h1
    exact ⟨.vector x, .vector hx, rfl⟩
  rw [if_neg h1] at h
  by_cases h2 : st.isS "DateTime" = true
  · rw [if_pos h2, wrote_keep, wU64_iff] at h
    obtain ⟨x, hx, rfl⟩ := h
    cases isS_iff.1 h2
    exact ⟨.dateTime x, .dateTime hx, rfl⟩
  rw [if_neg h2] at h
  by_cases h3 : st.isS "Guid" = true
  · rw [if_pos h3, wrote_keep] at h
    obtain ⟨x, hx, rfl⟩ := wGuid_plain hp h
    cases isS_iff.1 h3
    exact ⟨.guid x, .guid hx, rfl⟩
  rw [if_neg h3] at h
  by_cases h4 : st.isS "Quat" = true
  · rw [if_pos h4, wrote_keep, wQuatDict_iff] at h
    obtain ⟨x, hx, rfl⟩ := h
    cases isS_iff.1 h4
    exact ⟨.quat x, .quat hx, rfl⟩
  rw [if_neg h4] at h
  by_cases h5 : st.isS "LinearColor" = true
  · rw [if_pos h5, wrote_keep, wcat4] at h
    simp only [wAt_iff1, wFloat_iff] at h
    obtain ⟨_, _, _, _, ⟨x1, a1, y1, b1, rfl⟩, ⟨x2, a2, y2, b2, rfl⟩, ⟨x3, a3, y3, b3, rfl⟩, ⟨x4, a4, y4, b4, rfl⟩, rfl⟩ := h
    cases isS_iff.1 h5
    exact ⟨.color y1 y2 y3 y4, .color a1 b1 a2 b2 a3 b3 a4 b4, rfl⟩
  rw [if_neg h5] at h
  obtain ⟨ps, h6, rfl⟩ := hr v b hp h
  refine ⟨.props ps, .props ?_ h6, rfl⟩
  intro t ht
  simp only [fixedStructs, List.mem_cons, List.not_mem_nil, or_false] at ht
  rcases ht with rfl | rfl | rfl | rfl | rfl
  · exact not_isS.1 h1
  · exact not_isS.1 h2
  · exact not_isS.1 h3
  · exact not_isS.1 h4
  · exact not_isS.1 h5

theorem bw_struct (hr : Bw O r N) {st v : Val} {s : SVal free} (h : SaysS O st v s) (hl : s.enc.length < N) :
    Wrote (wStructValue r st v) s.enc := by
  unfold wStructValue
  cases h with
  | vector h =>
    rw [if_pos (isS_iff.2 rfl), wrote_keep]
    exact wVectorDict_iff.2 ⟨_, h, rfl⟩
  | dateTime h =>
    rw [if_neg (isS_no _ _ (by decide)), if_pos (isS_iff.2 rfl), wrote_keep]
    exact wU64_iff.2 ⟨_, h, rfl⟩
  | guid h =>
    rw [if_neg (isS_no _ _ (by decide)), if_neg (isS_no _ _ (by decide)), if_pos (isS_iff.2 rfl), wrote_keep]
    exact wGuid_says h
  | quat h =>
    rw [if_neg (isS_no _ _ (by decide)), if_neg (isS_no _ _ (by decide)), if_neg (isS_no _ _ (by decide)),
      if_pos (isS_iff.2 rfl), wrote_keep]
    exact wQuatDict_iff.2 ⟨_, h, rfl⟩
  | color a1 b1 a2 b2 a3 b3 a4 b4 =>
    rw [if_neg (isS_no _ _ (by decide)), if_neg (isS_no _ _ (by decide)), if_neg (isS_no _ _ (by decide)),
      if_neg (isS_no _ _ (by decide)), if_pos (isS_iff.2 rfl), wrote_keep]
    exact wcat4.2 ⟨_, _, _, _, wAt_of a1 (wFloat_iff.2 ⟨_, b1, rfl⟩), wAt_of a2 (wFloat_iff.2 ⟨_, b2, rfl⟩),
      wAt_of a3 (wFloat_iff.2 ⟨_, b3, rfl⟩), wAt_of a4 (wFloat_iff.2 ⟨_, b4, rfl⟩), rfl⟩
  | props h1 h2 =>
    rw [if_neg (not_isS.2 (h1 _ (by simp [fixedStructs]))), if_neg (not_isS.2 (h1 _ (by simp [fixedStructs]))),
      if_neg (not_isS.2 (h1 _ (by simp [fixedStructs]))), if_neg (not_isS.2 (h1 _ (by simp [fixedStructs]))),
      if_neg (not_isS.2 (h1 _ (by simp [fixedStructs])))]
    exact hr _ _ h2 hl

/-! ### keys and values of maps -/

theorem fw_mval (hr : Fw O r) {ty st v : Val} {b : Bytes} (hp : PlainDoc v) (h : Wrote (wPropValue r ty st v) b) :
    ∃ x, SaysM O ty st v x ∧ x.enc = b := by
  unfold wPropValue at h
  by_cases h1 : ty.isS "StructProperty" = true
  · rw [if_pos h1] at h
    obtain ⟨s, h2, rfl⟩ := fw_struct hr hp h
    cases isS_iff.1 h1
    exact ⟨.struct s, .struct h2, rfl⟩
  rw [if_neg h1] at h
  by_cases h2 : ty.isS "EnumProperty" = true
  · rw [if_pos h2, wrote_keep] at h
    obtain ⟨s, rfl, rfl⟩ := wFString_plain hp h
    cases isS_iff.1 h2
    exact ⟨.enum s, .enum s, rfl⟩
  rw [if_neg h2] at h
  by_cases h3 : ty.isS "NameProperty" = true
  · rw [if_pos h3, wrote_keep] at h
    obtain ⟨s, rfl, rfl⟩ := wFString_plain hp h
    cases isS_iff.1 h3
    exact ⟨.name s, .name s, rfl⟩
  rw [if_neg h3] at h
  by_cases h4 : ty.isS "IntProperty" = true
  · rw [if_pos h4, wrote_keep, wI32_iff] at h
    obtain ⟨n, h5, rfl⟩ := h
    cases isS_iff.1 h4
    exact ⟨.int n, .int h5, rfl⟩
  rw [if_neg h4] at h
  by_cases h5 : ty.isS "BoolProperty" = true
  · rw [if_pos h5, wrote_keep] at h
    rw [wBool_says] at h
    cases h
    cases isS_iff.1 h5
    exact ⟨.bool v.truthy, .bool v, rfl⟩
  rw [if_neg h5] at h
  exact (wrote_error.1 h).elim

theorem bw_mval (hr : Bw O r N) {ty st v : Val} {x : MVal free} (h : SaysM O ty st v x) (hl : x.enc.length < N) :
    Wrote (wPropValue r ty st v) x.enc := by
  unfold wPropValue
  cases h with
  | struct h =>
    rw [if_pos (isS_iff.2 rfl)]
    exact bw_struct hr h hl
  | enum s =>
    rw [if_neg (isS_no _ _ (by decide)), if_pos (isS_iff.2 rfl), wrote_keep]
    exact wFString_of s
  | name s =>
    rw [if_neg (isS_no _ _ (by decide)), if_neg (isS_no _ _ (by decide)), if_pos (isS_iff.2 rfl), wrote_keep]
    exact wFString_of s
  | int h =>
    rw [if_neg (isS_no _ _ (by decide)), if_neg (isS_no _ _ (by decide)), if_neg (isS_no _ _ (by decide)),
      if_pos (isS_iff.2 rfl), wrote_keep]
    exact wI32_iff.2 ⟨_, h, rfl⟩
  | bool v =>
    rw [if_neg (isS_no _ _ (by decide)), if_neg (isS_no _ _ (by decide)), if_neg (isS_no _ _ (by decide)),
      if_neg (isS_no _ _ (by decide)), if_pos (isS_iff.2 rfl), wrote_keep]
    exact wBool_says v

/-! ### lists -/

theorem fw_structs (hr : Fw O r) {value tn : Val} (htn : At value "type_name" tn) : ∀ {l : List Val} {b : Bytes},
    (∀ x ∈ l, PlainDoc x) → WroteL (wStructElem r value) l b →
    ∃ ss, SaysSs O tn l ss ∧ encSVals ss = b ∧ ss.length = l.length
  | [], b, _, h => by
    rw [wroteL_nil] at h
    subst h
    exact ⟨[], .nil, rfl, rfl⟩
  | v :: l, b, hp, h => by
    obtain ⟨c, d, h1, h2, rfl⟩ := wroteL_cons.1 h
    obtain ⟨ss, h3, rfl, h4⟩ := fw_structs hr htn (fun x hx => hp x (List.mem_cons_of_mem _ hx)) h2
    have : wStructElem r value v = wStructValue r tn v := by
      unfold wStructElem; rw [show value.get (P "type_name") = .ok tn from htn]
    rw [this] at h1
    obtain ⟨s, h5, rfl⟩ := fw_struct hr (hp v List.mem_cons_self) h1
    exact ⟨s :: ss, .cons h5 h3, rfl, by simp [h4]⟩

theorem bw_structs (hr : Bw O r N) {value tn : Val} (htn : At value "type_name" tn) : ∀ {l : List Val} {ss : List (SVal free)},
    SaysSs O tn l ss → (encSVals ss).length < N → WroteL (wStructElem r value) l (encSVals ss) ∧ ss.length = l.length
  | [], _, h, _ => by cases h; exact ⟨wroteL_nil.2 rfl, rfl⟩
  | v :: l, _, h, hl => by
    cases h with
    | cons h1 h2 =>
      rename_i s ss
      have e : encSVals (s :: ss) = s.enc ++ encSVals ss := rfl
      rw [e, List.length_append] at hl
      obtain ⟨h3, h4⟩ := bw_structs hr htn h2 (by omega)
      have : wStructElem r value v = wStructValue r tn v := by
        unfold wStructElem; rw [show value.get (P "type_name") = .ok tn from htn]
      refine ⟨wroteL_cons.2 ⟨_, _, ?_, h3, e⟩, by simp [h4]⟩
      rw [this]
      exact bw_struct hr h1 (by omega)

theorem fw_entries (hr : Fw O r) {m : Val} : ∀ {l : List Val} {b : Bytes},
    (∀ x ∈ l, PlainDoc x) → WroteL (wMapEntry r m) l b →
    ∃ es, SaysEs O m l es ∧ encEntries es = b ∧ es.length = l.length
  | [], b, _, h => by
    rw [wroteL_nil] at h
    subst h
    exact ⟨[], .nil, rfl, rfl⟩
  | e :: l, b, hp, h => by
    obtain ⟨c, d, h1, h2, rfl⟩ := wroteL_cons.1 h
    obtain ⟨es, h3, rfl, h4⟩ := fw_entries hr (fun x hx => hp x (List.mem_cons_of_mem _ hx)) h2
    obtain ⟨kt, kst, vt, vst, k, v, kb, vb, a1, a2, a3, a4, a5, a6, a7, a8, rfl⟩ := wrote_mapEntry.1 h1
    have hpe := hp e List.mem_cons_self
    obtain ⟨k', h5, rfl⟩ := fw_mval hr (plain_at hpe a5) a7
    obtain ⟨v', h6, rfl⟩ := fw_mval hr (plain_at hpe a6) a8
    exact ⟨(k', v') :: es, .cons a1 a3 a2 a4 a5 a6 h5 h6 h3, rfl, by simp [h4]⟩

theorem bw_entries (hr : Bw O r N) {m : Val} : ∀ {l : List Val} {es : List (MVal free × MVal free)},
    SaysEs O m l es → (encEntries es).length < N → WroteL (wMapEntry r m) l (encEntries es) ∧ es.length = l.length
  | [], _, h, _ => by cases h; exact ⟨wroteL_nil.2 rfl, rfl⟩
  | e :: l, _, h, hl => by
    cases h with
    | cons a1 a3 a2 a4 a5 a6 h5 h6 h2 =>
      rename_i k v kt vt kst vst k' v' es
      have eq : encEntries ((k', v') :: es) = k'.enc ++ v'.enc ++ encEntries es := rfl
      rw [eq, List.length_append, List.length_append] at hl
      obtain ⟨h3, h4⟩ := bw_entries hr h2 (by omega)
      exact ⟨wroteL_cons.2 ⟨_, _, wrote_mapEntry.2 ⟨kt, kst, vt, vst, k, v, _, _, a1, a2, a3, a4, a5, a6,
        bw_mval hr h5 (by omega), bw_mval hr h6 (by omega), rfl⟩, h3, eq⟩, by simp [h4]⟩

/-- The entries of a map come from a sequence. -/
theorem items_of_entries {m v : Val} {l : List Val} (hi : v.iterItems = .ok l) {b : Bytes}
    (h : WroteL (wMapEntry r m) l b) : Items v l := by
  cases v <;> try (cases hi; done)
  · cases hi; constructor
  · cases hi; constructor
  · cases hi; constructor
  · cases hi; constructor
  · rename_i d
    cases d with
    | nil => cases hi; constructor
    | cons a t =>
      cases hi
      obtain ⟨c, _, h1, -, -⟩ := wroteL_cons.1 h
      obtain ⟨kt, kst, vt, vst, k, v, kb, vb, a1, a2, a3, a4, a5, -⟩ := wrote_mapEntry.1 h1
      cases a5

/-! ### arrays of simple values -/

theorem fw_strs {w : Val → Except Err Bytes} (hw : w = wFString) : ∀ {l : List Val} {b : Bytes},
    (∀ x ∈ l, PlainDoc x) → wItems w l = .ok b → ∃ ss : List Str, l = ss.map (fun s => .str s.val) ∧ b = ss.flatMap eStr
  | [], b, _, h => by
    cases h
    exact ⟨[], rfl, rfl⟩
  | v :: l, b, hp, h => by
    unfold wItems at h
    rw [List.map_cons, wcat_iff] at h
    obtain ⟨c, d, h1, h2, rfl⟩ := h
    obtain ⟨ss, rfl, rfl⟩ := fw_strs hw (fun x hx => hp x (List.mem_cons_of_mem _ hx)) h2
    rw [hw] at h1
    obtain ⟨s, rfl, rfl⟩ := wFString_plain (hp _ List.mem_cons_self) h1
    exact ⟨s :: ss, rfl, rfl⟩

theorem bw_strs {w : Val → Except Err Bytes} (hw : w = wFString) : ∀ ss : List Str,
    wItems w (ss.map fun s => .str s.val) = .ok (ss.flatMap eStr)
  | [] => rfl
  | s :: ss => by
    unfold wItems
    rw [List.map_cons, List.map_cons, wcat_iff]
    exact ⟨_, _, by rw [hw]; exact wFString_of s, bw_strs hw ss, rfl⟩

theorem wItems_bytes {w : Val → Except Err Bytes} (hw : w = wByte) : ∀ {l : List Val} {b : Bytes},
    wItems w l = .ok b ↔ List.Forall₂ (fun a c => SaysInt a (UInt8.toNat c)) l b
  | [], b => by
    constructor
    · intro h; cases h; exact .nil
    · intro h; cases h; rfl
  | v :: l, b => by
    unfold wItems
    rw [List.map_cons, wcat_iff]
    constructor
    · rintro ⟨c, d, h1, h2, rfl⟩
      rw [hw, wByte_iff] at h1
      obtain ⟨x, h1, rfl⟩ := h1
      exact .cons h1 ((wItems_bytes hw).1 h2)
    · intro h
      cases h with
      | cons h1 h2 => exact ⟨[_], _, by rw [hw]; exact wByte_iff.2 ⟨_, h1, rfl⟩, (wItems_bytes hw).2 h2, rfl⟩

/-- Elements of one kind. -/
theorem wItems_all {α : Type} {w : Val → Except Err Bytes} {S : Val → α → Prop} {e : α → Bytes}
    (h : ∀ {v b}, w v = .ok b ↔ ∃ x, S v x ∧ b = e x) : ∀ {l : List Val} {b : Bytes},
    wItems w l = .ok b ↔ ∃ xs, List.Forall₂ S l xs ∧ b = xs.flatMap e
  | [], b => by
    constructor
    · intro h; cases h; exact ⟨[], .nil, rfl⟩
    · rintro ⟨xs, h, rfl⟩; cases h; rfl
  | v :: l, b => by
    unfold wItems
    rw [List.map_cons, wcat_iff]
    constructor
    · rintro ⟨c, d, h1, h2, rfl⟩
      obtain ⟨x, g1, rfl⟩ := h.1 h1
      obtain ⟨xs, g2, rfl⟩ := (wItems_all h).1 h2
      exact ⟨x :: xs, .cons g1 g2, rfl⟩
    · rintro ⟨xs, h0, rfl⟩
      cases h0 with
      | cons h1 h2 => exact ⟨_, _, h.2 ⟨_, h1, rfl⟩, (wItems_all h).2 ⟨_, h2, rfl⟩, rfl⟩

theorem wBool_iff {v : Val} {b : Bytes} : wBool v = .ok b ↔ ∃ x, x = v.truthy ∧ b = eBool x := by
  rw [wBool_says]
  simp [eq_comm]

theorem truths {l : List Val} {bs : List Bool} : List.Forall₂ (fun v x => x = Val.truthy v) l bs ↔ bs = l.map Val.truthy := by
  constructor
  · intro h
    induction h with
    | nil => rfl
    | cons h1 _ ih => rw [List.map_cons, h1, ih]
  · rintro rfl
    induction l with
    | nil => exact .nil
    | cons v l ih => exact .cons rfl ih

theorem elem_int : wArrayElem (.str (P "IntProperty")) = wI32 := by
  funext v; simp [wArrayElem, isS_P]
theorem elem_int64 : wArrayElem (.str (P "Int64Property")) = wI64 := by
  funext v; simp [wArrayElem, isS_P]
theorem elem_float : wArrayElem (.str (P "FloatProperty")) = wFloat := by
  funext v; simp [wArrayElem, isS_P]
theorem elem_str : wArrayElem (.str (P "StrProperty")) = wFString := by
  funext v; simp [wArrayElem, isS_P]
theorem elem_bool : wArrayElem (.str (P "BoolProperty")) = wBool := by
  funext v; simp [wArrayElem, isS_P]
theorem elem_enum : wArrayElem (.str (P "EnumProperty")) = wFString := by
  funext v; simp [wArrayElem, isS_P]
theorem elem_name : wArrayElem (.str (P "NameProperty")) = wFString := by
  funext v; simp [wArrayElem, isS_P]
theorem elem_byte : wArrayElem (.str (P "ByteProperty")) = wByte := by
  funext v; simp [wArrayElem, isS_P]

theorem wLen_iff {v : Val} {l : List Val} (hi : Items v l) {b : Bytes} : wLen v = .ok b ↔ l.length < 2 ^ 32 ∧ b = lit 4 l.length := by
  unfold wLen
  rw [len_says hi]
  exact wU32_count

theorem wArrayValue_iff {at_ v : Val} {b : Bytes} :
    wArrayValue at_ v = .ok b ↔ ∃ l, Items v l ∧ wItems (wArrayElem at_) l = .ok b := by
  unfold wArrayValue
  simp only [← seqItems_iff]
  cases v.seqItems <;> simp

/-- Arrays other than arrays of structs. -/
theorem wrote_array {at_ y : Val} (h : ¬ at_.isS "StructProperty" = true) {b : Bytes} :
    Wrote (wArrayProperty r at_ y) b ↔ ∃ x l c, At y "values" x ∧ Items x l ∧ l.length < 2 ^ 32 ∧
      wItems (wArrayElem at_) l = .ok c ∧ b = lit 4 l.length ++ c := by
  unfold wArrayProperty
  rw [wrote_then, if_neg h]
  simp only [wrote_keep, wAt_iff1, wArrayValue_iff]
  constructor
  · rintro ⟨c, d, ⟨x, h1, h2⟩, ⟨x', h3, l, h4, h5⟩, rfl⟩
    cases at_unique h1 h3
    obtain ⟨h6, rfl⟩ := (wLen_iff h4).1 h2
    exact ⟨x, l, d, h1, h4, h6, h5, rfl⟩
  · rintro ⟨x, l, c, h1, h2, h3, h4, rfl⟩
    exact ⟨_, _, ⟨x, h1, (wLen_iff h2).2 ⟨h3, rfl⟩⟩, ⟨x, h1, l, h2, h4⟩, rfl⟩

/-- Arrays of structs. -/
theorem wrote_structs {y : Val} {b : Bytes} :
    Wrote (wArrayProperty r (.str (P "StructProperty")) y) b ↔ ∃ x l buf c1 c2 c3 c4 sb, At y "values" x ∧ Items x l ∧
      l.length < 2 ^ 32 ∧ wAt y ["prop_name"] wFString = .ok c1 ∧ wAt y ["prop_type"] wFString = .ok c2 ∧
      WroteL (wStructElem r y) l buf ∧ wU64 (.int buf.length) = .ok sb ∧ wAt y ["type_name"] wFString = .ok c3 ∧
      wAt y ["id"] wGuid = .ok c4 ∧ b = lit 4 l.length ++ c1 ++ c2 ++ sb ++ c3 ++ c4 ++ [0] ++ buf := by
  unfold wArrayProperty
  rw [wrote_then, if_pos (isS_iff.2 rfl)]
  constructor
  · rintro ⟨c, d, h1, h2, rfl⟩
    obtain ⟨x, hx, h1⟩ := wAt_iff1.1 h1
    obtain ⟨e, f, h3, h4, rfl⟩ := wrote_then.1 h2
    obtain ⟨c1, c2, h5, h6, rfl⟩ := wcat2.1 h3
    split at h4
    · exact (wrote_error.1 h4).elim
    · rename_i buf value' hb
      obtain ⟨x', hx', h7⟩ := wrote_on.1 ⟨_, hb⟩
      cases at_unique hx hx'
      obtain ⟨l, hl, h8⟩ := wrote_seq.1 h7
      rw [seqItems_iff] at hl
      obtain ⟨h9, rfl⟩ := (wLen_iff hl).1 h1
      obtain ⟨g, k, h10, h11, rfl⟩ := wrote_then.1 h4
      rw [wrote_ok] at h11
      subst h11
      obtain ⟨sb, c3, c4, c5, h12, h13, h14, h15, rfl⟩ := wcat4.1 h10
      rw [show wU (.int 0) = .ok [0] from rfl] at h15
      cases h15
      exact ⟨x, l, _, c1, c2, c3, c4, sb, hx, hl, h9, h5, h6, h8, h12, h13, h14, by simp [List.append_assoc]⟩
  · rintro ⟨x, l, buf, c1, c2, c3, c4, sb, h1, h2, h3, h4, h5, h6, h7, h8, h9, rfl⟩
    obtain ⟨y', hy⟩ := wrote_on.2 ⟨x, h1, wrote_seq.2 ⟨l, seqItems_iff.2 h2, h6⟩⟩
    refine ⟨_, _, wAt_iff1.2 ⟨x, h1, (wLen_iff h2).2 ⟨h3, rfl⟩⟩, wrote_then.2 ⟨_,
      sb ++ c3 ++ c4 ++ [0] ++ buf, wcat2.2 ⟨_, _, h4, h5, rfl⟩, ?_, rfl⟩, ?_⟩
    · rw [hy]
      exact wrote_then.2 ⟨_, _, wcat4.2 ⟨_, _, _, _, h7, h8, h9, rfl, rfl⟩, wrote_ok.2 rfl, rfl⟩
    · simp [List.append_assoc]

/-! ### properties -/

theorem fw_inner (hr : Fw O r) {ty v : Val} {n : Nat} {b : Bytes} (hp : PlainDoc v) (ht : At v "type" ty)
    (h : WroteP (wPlainInner r ty v) n b) :
    ∃ p, SaysP O v p ∧ ty = .str (P p.type) ∧ n = p.tail.length ∧ b = p.head ++ p.tail := by
  unfold wPlainInner at h
  by_cases h1 : ty.isS "StructProperty" = true
  · rw [if_pos h1, wroteP_sized] at h
    cases isS_iff.1 h1
    obtain ⟨c, d, h2, h3, rfl, rfl⟩ := h
    obtain ⟨c1, c2, c3, a1, a2, a3, rfl⟩ := wcat3.1 h2
    obtain ⟨x1, a1', a4⟩ := wAt_iff1.1 a1
    obtain ⟨st, rfl, rfl⟩ := wFString_plain (plain_at hp a1') a4
    obtain ⟨x2, a2', a5⟩ := wAt_iff1.1 a2
    obtain ⟨sid, a5', rfl⟩ := wGuid_plain (plain_at hp a2') a5
    obtain ⟨id, a3', rfl⟩ := wId_plain hp a3
    rw [show v.get (P "struct_type") = .ok (.str st.val) from a1'] at h3
    obtain ⟨y, a6, h3'⟩ := wrote_on.1 h3
    obtain ⟨s, a7, rfl⟩ := fw_struct hr (plain_at hp a6) h3'
    exact ⟨.struct st sid id s, .struct ht a1' a2' a5' a3' a6 a7, rfl, rfl, rfl⟩
  rw [if_neg h1] at h
  by_cases h1 : ty.isS "IntProperty" = true
  · rw [if_pos h1, wroteP_const, wcat2] at h
    cases isS_iff.1 h1
    obtain ⟨⟨c1, c2, a1, a2, rfl⟩, rfl⟩ := h
    obtain ⟨id, a1', rfl⟩ := wId_plain hp a1
    obtain ⟨y, a2', a3⟩ := wAt_iff1.1 a2
    obtain ⟨n, a3', rfl⟩ := wI32_iff.1 a3
    exact ⟨.int id n, .int ht a1' a2' a3', rfl, (lit_length 4 _).symm, rfl⟩
  rw [if_neg h1] at h
  by_cases h1 : ty.isS "Int64Property" = true
  · rw [if_pos h1, wroteP_const, wcat2] at h
    cases isS_iff.1 h1
    obtain ⟨⟨c1, c2, a1, a2, rfl⟩, rfl⟩ := h
    obtain ⟨id, a1', rfl⟩ := wId_plain hp a1
    obtain ⟨y, a2', a3⟩ := wAt_iff1.1 a2
    obtain ⟨n, a3', rfl⟩ := wI64_iff.1 a3
    exact ⟨.int64 id n, .int64 ht a1' a2' a3', rfl, (lit_length 8 _).symm, rfl⟩
  rw [if_neg h1] at h
  by_cases h1 : ty.isS "FixedPoint64Property" = true
  · rw [if_pos h1, wroteP_const, wcat2] at h
    cases isS_iff.1 h1
    obtain ⟨⟨c1, c2, a1, a2, rfl⟩, rfl⟩ := h
    obtain ⟨id, a1', rfl⟩ := wId_plain hp a1
    obtain ⟨y, a2', a3⟩ := wAt_iff1.1 a2
    obtain ⟨n, a3', rfl⟩ := wI32_iff.1 a3
    exact ⟨.fixed64 id n, .fixed64 ht a1' a2' a3', rfl, (lit_length 4 _).symm, rfl⟩
  rw [if_neg h1] at h
  by_cases h1 : ty.isS "FloatProperty" = true
  · rw [if_pos h1, wroteP_const, wcat2] at h
    cases isS_iff.1 h1
    obtain ⟨⟨c1, c2, a1, a2, rfl⟩, rfl⟩ := h
    obtain ⟨id, a1', rfl⟩ := wId_plain hp a1
    obtain ⟨y, a2', a3⟩ := wAt_iff1.1 a2
    obtain ⟨n, a3', rfl⟩ := wFloat_iff.1 a3
    exact ⟨.float id n, .float ht a1' a2' a3', rfl, (lit_length 4 _).symm, rfl⟩
  rw [if_neg h1] at h
  by_cases h1 : ty.isS "StrProperty" = true
  · rw [if_pos h1, wroteP_sized] at h
    cases isS_iff.1 h1
    obtain ⟨c, d, a1, a2, rfl, rfl⟩ := h
    rw [wrote_keep, wAt_iff1] at a2
    obtain ⟨id, a1', rfl⟩ := wId_plain hp a1
    obtain ⟨y, a2', a3⟩ := a2
    obtain ⟨s, rfl, rfl⟩ := wFString_plain (plain_at hp a2') a3
    exact ⟨.str id s, .str ht a1' a2', rfl, rfl, rfl⟩
  rw [if_neg h1] at h
  by_cases h1 : ty.isS "NameProperty" = true
  · rw [if_pos h1, wroteP_sized] at h
    cases isS_iff.1 h1
    obtain ⟨c, d, a1, a2, rfl, rfl⟩ := h
    rw [wrote_keep, wAt_iff1] at a2
    obtain ⟨id, a1', rfl⟩ := wId_plain hp a1
    obtain ⟨y, a2', a3⟩ := a2
    obtain ⟨s, rfl, rfl⟩ := wFString_plain (plain_at hp a2') a3
    exact ⟨.name id s, .name ht a1' a2', rfl, rfl, rfl⟩
  rw [if_neg h1] at h
  by_cases h1 : ty.isS "EnumProperty" = true
  · rw [if_pos h1, wroteP_sized] at h
    cases isS_iff.1 h1
    obtain ⟨c, d, a1, a2, rfl, rfl⟩ := h
    rw [wrote_keep, wAt_iff2] at a2
    obtain ⟨c1, c2, a1', a3, rfl⟩ := wcat2.1 a1
    obtain ⟨id, a3', rfl⟩ := wId_plain hp a3
    obtain ⟨y, z, a4, a5, a6⟩ := wAt_iff2.1 a1'
    obtain ⟨y', z', a7, a8, a9⟩ := a2
    cases at_unique a4 a7
    have hy := plain_at hp a4
    obtain ⟨et, rfl, rfl⟩ := wFString_plain (plain_at hy a5) a6
    obtain ⟨s, rfl, rfl⟩ := wFString_plain (plain_at hy a8) a9
    exact ⟨.enum et id s, .enum ht a3' a4 a5 a8, rfl, rfl, rfl⟩
  rw [if_neg h1] at h
  by_cases h1 : ty.isS "BoolProperty" = true
  · rw [if_pos h1, wroteP_const, wcat2] at h
    cases isS_iff.1 h1
    obtain ⟨⟨c1, c2, a1, a2, rfl⟩, rfl⟩ := h
    obtain ⟨id, a2', rfl⟩ := wId_plain hp a2
    obtain ⟨y, a1', a3⟩ := wAt_iff1.1 a1
    rw [wBool_says] at a3
    cases a3
    exact ⟨.bool y.truthy id, .bool ht a2' a1', rfl, rfl, (List.append_nil _).symm⟩
  rw [if_neg h1] at h
  by_cases h1 : ty.isS "ArrayProperty" = true
  · rw [if_pos h1, wroteP_sized] at h
    cases isS_iff.1 h1
    obtain ⟨c, d, h2, h3, rfl, rfl⟩ := h
    obtain ⟨c1, c2, a1, a2, rfl⟩ := wcat2.1 h2
    obtain ⟨x1, a1', a3⟩ := wAt_iff1.1 a1
    obtain ⟨⟨at_, hat⟩, rfl, rfl⟩ := wFString_plain (plain_at hp a1') a3
    obtain ⟨id, a2', rfl⟩ := wId_plain hp a2
    rw [show v.get (P "array_type") = .ok (.str at_) from a1'] at h3
    obtain ⟨y, a4, h3'⟩ := wrote_on.1 h3
    have hy := plain_at hp a4
    by_cases e1 : at_ = P "EnumProperty"
    · subst e1
      obtain ⟨x, l, c, b1, b2, b3, b4, rfl⟩ := (wrote_array (isS_no _ _ (by decide))).1 h3'
      obtain ⟨ss, rfl, rfl⟩ := fw_strs elem_enum (plain_items (plain_at hy b1) b2) b4
      refine ⟨.enums id ss, .enums ss ht a1' a2' a4 b1 b2 (by simpa using b3), rfl, ?_, ?_⟩ <;>
        simp only [PropT.head, PropT.tail, List.length_map] <;> rfl
    by_cases e2 : at_ = P "NameProperty"
    · subst e2
      obtain ⟨x, l, c, b1', b2', b3', b4', rfl⟩ := (wrote_array (isS_no _ _ (by decide))).1 h3'
      obtain ⟨ss, rfl, rfl⟩ := fw_strs elem_name (plain_items (plain_at hy b1') b2') b4'
      refine ⟨.names id ss, .names ss ht a1' a2' a4 b1' b2' (by simpa using b3'), rfl, ?_, ?_⟩ <;>
        simp only [PropT.head, PropT.tail, List.length_map] <;> rfl
    by_cases e3 : at_ = P "ByteProperty"
    · subst e3
      obtain ⟨x, l, c, b1''', b2''', b3''', b4''', rfl⟩ := (wrote_array (isS_no _ _ (by decide))).1 h3'
      have b5' := (wItems_bytes elem_byte).1 b4'''
      have b6 := b5'.length_eq
      refine ⟨.bytes id c, .bytes ht a1' a2' a4 b1''' b2''' b5' (by rw [← b6]; exact b3'''), rfl, ?_, ?_⟩ <;>
        simp only [PropT.head, PropT.tail, b6] <;> rfl
    by_cases e4 : at_ = P "StructProperty"
    · subst e4
      obtain ⟨x, l, buf, d1, d2, d3, d4, sb, b1'''', b2'''', b3'''', b4'''', b5'', b6', b7, b8, b9, rfl⟩ := wrote_structs.1 h3'
      obtain ⟨z1, b4''''', e1⟩ := wAt_iff1.1 b4''''
      obtain ⟨z2, b5''', e2⟩ := wAt_iff1.1 b5''
      obtain ⟨z3, b8', e3⟩ := wAt_iff1.1 b8
      obtain ⟨z4, b9', e4⟩ := wAt_iff1.1 b9
      obtain ⟨pn, rfl, rfl⟩ := wFString_plain (plain_at hy b4''''') e1
      obtain ⟨pt, rfl, rfl⟩ := wFString_plain (plain_at hy b5''') e2
      obtain ⟨tn, rfl, rfl⟩ := wFString_plain (plain_at hy b8') e3
      obtain ⟨gid, e4', rfl⟩ := wGuid_plain (plain_at hy b9') e4
      obtain ⟨ss, e5, rfl, e6⟩ := fw_structs hr b8' (plain_items (plain_at hy b1'''') b2'''') b6'
      obtain ⟨hsz, rfl⟩ := wU64_count.1 b7
      refine ⟨.structs id pn pt tn gid ss, .structs ht a1' a2' a4 b4''''' b5''' b8' b9' e4' b1'''' b2'''' e5 (by rw [e6]; exact b3'''') hsz, rfl, ?_, ?_⟩ <;>
        simp only [PropT.head, PropT.tail, e6] <;> rfl
    obtain ⟨x, l, c, b1, b2, b3, b4, rfl⟩ := (wrote_array (not_isS.2 fun h => e4 (Val.str.inj h))).1 h3'
    have done : ∀ o : Others free, o.type = at_ → SaysOthers l o → o.enc = lit 4 l.length ++ c →
        ∃ p, SaysP O v p ∧ Val.str (P "ArrayProperty") = .str (P p.type) ∧ (lit 4 l.length ++ c).length = p.tail.length ∧
          eStr ⟨at_, hat⟩ ++ eOptGuid id ++ (lit 4 l.length ++ c) = p.head ++ p.tail := by
      rintro o rfl h1 h2
      exact ⟨.others id o, .others ht a1' a2' a4 b1 b2 h1 b3, rfl, by rw [PropT.tail, h2], by rw [PropT.tail, h2]; rfl⟩
    by_cases e5 : at_ = P "IntProperty"
    · rw [e5, elem_int, wItems_all wI32_iff] at b4
      obtain ⟨xs, c1, rfl⟩ := b4
      exact done (.ints xs) e5.symm (.ints c1) (by rw [c1.length_eq]; rfl)
    by_cases e6 : at_ = P "Int64Property"
    · rw [e6, elem_int64, wItems_all wI64_iff] at b4
      obtain ⟨xs, c1, rfl⟩ := b4
      exact done (.int64s xs) e6.symm (.int64s c1) (by rw [c1.length_eq]; rfl)
    by_cases e7 : at_ = P "FloatProperty"
    · rw [e7, elem_float, wItems_all wFloat_iff] at b4
      obtain ⟨xs, c1, rfl⟩ := b4
      exact done (.floats xs) e7.symm (.floats c1) (by rw [c1.length_eq]; rfl)
    by_cases e8 : at_ = P "StrProperty"
    · rw [e8, elem_str] at b4
      obtain ⟨ss, rfl, rfl⟩ := fw_strs rfl (plain_items (plain_at hy b1) b2) b4
      exact done (.strs ss) e8.symm (.strs ss) (by rw [List.length_map]; rfl)
    by_cases e9 : at_ = P "BoolProperty"
    · rw [e9, elem_bool, wItems_all wBool_iff] at b4
      obtain ⟨xs, c1, rfl⟩ := b4
      rw [truths] at c1
      subst c1
      exact done (.bools _) e9.symm (.bools l) (by simp only [Others.enc, List.length_map])
    cases l with
    | nil =>
      cases b4
      exact done (.nothing ⟨at_, hat⟩) rfl (.nothing e4) rfl
    | cons x0 t =>
      exfalso
      unfold wItems at b4
      rw [List.map_cons, wcat_iff] at b4
      obtain ⟨_, _, b5, -⟩ := b4
      have n : ∀ a : String, at_ ≠ P a → ¬ (Val.str at_).isS a = true := fun a h => not_isS.2 fun e => h (Val.str.inj e)
      unfold wArrayElem at b5
      rw [if_neg (n _ e5), if_neg (n _ e6), if_neg (n _ e7), if_neg (n _ e8), if_neg (n _ e2), if_neg (n _ e1), if_neg (n _ e9),
        if_neg (n _ e3)] at b5
      cases b5
  rw [if_neg h1] at h
  by_cases h1 : ty.isS "MapProperty" = true
  · rw [if_pos h1, wroteP_sized] at h
    cases isS_iff.1 h1
    obtain ⟨c, d, h2, h3, rfl, rfl⟩ := h
    obtain ⟨c1, c2, c3, a1, a2, a3, rfl⟩ := wcat3.1 h2
    obtain ⟨x1, a1', a4⟩ := wAt_iff1.1 a1
    obtain ⟨kt, rfl, rfl⟩ := wFString_plain (plain_at hp a1') a4
    obtain ⟨x2, a2', a5⟩ := wAt_iff1.1 a2
    obtain ⟨vt, rfl, rfl⟩ := wFString_plain (plain_at hp a2') a5
    obtain ⟨id, a3', rfl⟩ := wId_plain hp a3
    unfold wMapBody at h3
    obtain ⟨c, d, h4, h5, rfl⟩ := wrote_then.1 h3
    obtain ⟨d1, d2, h6, h7, rfl⟩ := wcat2.1 h4
    cases h6
    obtain ⟨y, a6, h7'⟩ := wAt_iff1.1 h7
    obtain ⟨y', a7, h8⟩ := wrote_on.1 h5
    cases at_unique a6 a7
    obtain ⟨l, h8', h9⟩ := wrote_iter.1 h8
    have hi := items_of_entries h8' h9
    obtain ⟨h10, rfl⟩ := (wLen_iff hi).1 h7'
    obtain ⟨es, b1, rfl, b2⟩ := fw_entries hr (plain_items (plain_at hp a6) hi) h9
    refine ⟨.map kt vt id es, .map ht a1' a2' a3' a6 hi b1 (by rw [b2]; exact h10), rfl, ?_, ?_⟩ <;>
      simp only [PropT.head, PropT.tail, b2] <;> rfl
  rw [if_neg h1] at h
  exact (wroteP_error.1 h).elim

theorem saysP_type {v : Val} {p : PropT free} (h : SaysP O v p) : At v "type" (.str (P p.type)) := by
  cases h <;> assumption

theorem bw_inner (hr : Bw O r N) {v : Val} {p : PropT free} (h : SaysP O v p) (hl : p.tail.length < N) :
    WroteP (wPlainInner r (.str (P p.type)) v) p.tail.length (p.head ++ p.tail) := by
  have c : ∀ s t : String, (Val.str (P s)).isS t = decide (t = s) := isS_P
  cases h with
  | struct ht a1 a2 a5 a3 a6 a7 =>
    simp only [wPlainInner, PropT.type, c, decide_true, if_true]
    refine wroteP_sized.2 ⟨_, _, wcat3.2 ⟨_, _, _, wAt_of a1 (wFString_of _), wAt_of a2 (wGuid_says a5), wId_says a3, rfl⟩,
      ?_, rfl, rfl⟩
    rw [show v.get (P "struct_type") = .ok _ from a1]
    exact wrote_on.2 ⟨_, a6, bw_struct hr a7 hl⟩
  | int ht a1 a2 a3 =>
    simp only [wPlainInner, PropT.type, c, String.reduceEq, decide_false, Bool.false_eq_true, if_false, decide_true, if_true]
    exact wroteP_const.2 ⟨wcat2.2 ⟨_, _, wId_says a1, wAt_of a2 (wI32_iff.2 ⟨_, a3, rfl⟩), rfl⟩, lit_length 4 _⟩
  | int64 ht a1 a2 a3 =>
    simp only [wPlainInner, PropT.type, c, String.reduceEq, decide_false, Bool.false_eq_true, if_false, decide_true, if_true]
    exact wroteP_const.2 ⟨wcat2.2 ⟨_, _, wId_says a1, wAt_of a2 (wI64_iff.2 ⟨_, a3, rfl⟩), rfl⟩, lit_length 8 _⟩
  | fixed64 ht a1 a2 a3 =>
    simp only [wPlainInner, PropT.type, c, String.reduceEq, decide_false, Bool.false_eq_true, if_false, decide_true, if_true]
    exact wroteP_const.2 ⟨wcat2.2 ⟨_, _, wId_says a1, wAt_of a2 (wI32_iff.2 ⟨_, a3, rfl⟩), rfl⟩, lit_length 4 _⟩
  | float ht a1 a2 a3 =>
    simp only [wPlainInner, PropT.type, c, String.reduceEq, decide_false, Bool.false_eq_true, if_false, decide_true, if_true]
    exact wroteP_const.2 ⟨wcat2.2 ⟨_, _, wId_says a1, wAt_of a2 (wFloat_iff.2 ⟨_, a3, rfl⟩), rfl⟩, lit_length 4 _⟩
  | str ht a1 a2 =>
    simp only [wPlainInner, PropT.type, c, String.reduceEq, decide_false, Bool.false_eq_true, if_false, decide_true, if_true]
    exact wroteP_sized.2 ⟨_, _, wId_says a1, wrote_keep.2 (wAt_of a2 (wFString_of _)), rfl, rfl⟩
  | name ht a1 a2 =>
    simp only [wPlainInner, PropT.type, c, String.reduceEq, decide_false, Bool.false_eq_true, if_false, decide_true, if_true]
    exact wroteP_sized.2 ⟨_, _, wId_says a1, wrote_keep.2 (wAt_of a2 (wFString_of _)), rfl, rfl⟩
  | enum ht a3 a4 a5 a8 =>
    simp only [wPlainInner, PropT.type, c, String.reduceEq, decide_false, Bool.false_eq_true, if_false, decide_true, if_true]
    exact wroteP_sized.2 ⟨_, _, wcat2.2 ⟨_, _, wAt_iff2.2 ⟨_, _, a4, a5, wFString_of _⟩, wId_says a3, rfl⟩,
      wrote_keep.2 (wAt_iff2.2 ⟨_, _, a4, a8, wFString_of _⟩), rfl, rfl⟩
  | bool ht a1 a2 =>
    simp only [wPlainInner, PropT.type, c, String.reduceEq, decide_false, Bool.false_eq_true, if_false, decide_true, if_true]
    exact wroteP_const.2 ⟨wcat2.2 ⟨_, _, wAt_of a2 (wBool_says _), wId_says a1, List.append_nil _⟩, rfl⟩
  | enums ss ht a1 a2 a4 b1 b2 b3 =>
    simp only [wPlainInner, PropT.type, c, String.reduceEq, decide_false, Bool.false_eq_true, if_false, decide_true, if_true]
    refine wroteP_sized.2 ⟨_, _, wcat2.2 ⟨_, _, wAt_of a1 (wFString_lit _ (by decide +kernel)), wId_says a2, rfl⟩, ?_, rfl, rfl⟩
    rw [show v.get (P "array_type") = .ok _ from a1]
    exact wrote_on.2 ⟨_, a4, (wrote_array (isS_no _ _ (by decide))).2
      ⟨_, _, _, b1, b2, by simpa using b3, bw_strs elem_enum ss, by rw [List.length_map]; rfl⟩⟩
  | names ss ht a1 a2 a4 b1 b2 b3 =>
    simp only [wPlainInner, PropT.type, c, String.reduceEq, decide_false, Bool.false_eq_true, if_false, decide_true, if_true]
    refine wroteP_sized.2 ⟨_, _, wcat2.2 ⟨_, _, wAt_of a1 (wFString_lit _ (by decide +kernel)), wId_says a2, rfl⟩, ?_, rfl, rfl⟩
    rw [show v.get (P "array_type") = .ok _ from a1]
    exact wrote_on.2 ⟨_, a4, (wrote_array (isS_no _ _ (by decide))).2
      ⟨_, _, _, b1, b2, by simpa using b3, bw_strs elem_name ss, by rw [List.length_map]; rfl⟩⟩
  | others ht a1 a2 a4 b1 b2 b5 b6 =>
    simp only [wPlainInner, PropT.type, c, String.reduceEq, decide_false, Bool.false_eq_true, if_false, decide_true, if_true]
    rename_i y x id l o
    have hs : StrOk o.type := by
      cases o
      case nothing t => exact t.2
      all_goals simp only [Others.type]; decide +kernel
    have hst : ¬ (Val.str o.type).isS "StructProperty" = true := by
      cases b5
      case nothing h => exact not_isS.2 fun e => h (Val.str.inj e)
      all_goals exact isS_no _ _ (by decide)
    refine wroteP_sized.2 ⟨_, _, wcat2.2 ⟨_, _, wAt_of a1 (wFString_of ⟨o.type, hs⟩), wId_says a2, rfl⟩, ?_, rfl, rfl⟩
    rw [show v.get (P "array_type") = .ok _ from a1]
    refine wrote_on.2 ⟨_, a4, (wrote_array hst).2 ?_⟩
    cases b5 with
    | ints h =>
      refine ⟨_, _, _, b1, b2, b6, ?_, by rw [h.length_eq]; rfl⟩
      rw [Others.type, elem_int]
      exact (wItems_all wI32_iff).2 ⟨_, h, rfl⟩
    | int64s h =>
      refine ⟨_, _, _, b1, b2, b6, ?_, by rw [h.length_eq]; rfl⟩
      rw [Others.type, elem_int64]
      exact (wItems_all wI64_iff).2 ⟨_, h, rfl⟩
    | floats h =>
      refine ⟨_, _, _, b1, b2, b6, ?_, by rw [h.length_eq]; rfl⟩
      rw [Others.type, elem_float]
      exact (wItems_all wFloat_iff).2 ⟨_, h, rfl⟩
    | strs ss =>
      exact ⟨_, _, _, b1, b2, b6, bw_strs elem_str ss, by rw [List.length_map]; rfl⟩
    | bools =>
      refine ⟨_, _, _, b1, b2, b6, ?_, by simp only [PropT.tail, Others.enc, List.length_map]; rfl⟩
      rw [Others.type, elem_bool]
      exact (wItems_all wBool_iff).2 ⟨_, truths.2 rfl, rfl⟩
    | nothing h => exact ⟨_, _, [], b1, b2, b6, rfl, rfl⟩
  | guids ht a1 a2 a4 b1 b2 =>
    simp only [wPlainInner, PropT.type, c, String.reduceEq, decide_false, Bool.false_eq_true, if_false, decide_true, if_true]
    refine wroteP_sized.2 ⟨_, _, wcat2.2 ⟨_, _, wAt_of a1 (wFString_lit _ (by decide +kernel)), wId_says a2, rfl⟩, ?_, rfl, rfl⟩
    rw [show v.get (P "array_type") = .ok _ from a1]
    exact wrote_on.2 ⟨_, a4, (wrote_array (isS_no _ _ (by decide))).2
      ⟨_, _, [], b1, b2, by decide, rfl, rfl⟩⟩
  | bytes ht a1 a2 a4 b1 b2 b5 b6 =>
    simp only [wPlainInner, PropT.type, c, String.reduceEq, decide_false, Bool.false_eq_true, if_false, decide_true, if_true]
    refine wroteP_sized.2 ⟨_, _, wcat2.2 ⟨_, _, wAt_of a1 (wFString_lit _ (by decide +kernel)), wId_says a2, rfl⟩, ?_, rfl, rfl⟩
    rw [show v.get (P "array_type") = .ok _ from a1]
    exact wrote_on.2 ⟨_, a4, (wrote_array (isS_no _ _ (by decide))).2
      ⟨_, _, _, b1, b2, by rw [b5.length_eq]; exact b6, (wItems_bytes elem_byte).2 b5, by rw [b5.length_eq]; rfl⟩⟩
  | structs ht a1 a2 a4 b4 b5 b8 b9 e4 b1 b2 e5 e7 hsz =>
    rename_i y x z id pn pt tn gid l ss
    have hlen : (encSVals ss).length < N := by
      simp only [PropT.tail, List.length_append] at hl
      omega
    obtain ⟨e6, e8⟩ := bw_structs hr b8 e5 hlen
    simp only [wPlainInner, PropT.type, c, String.reduceEq, decide_false, Bool.false_eq_true, if_false, decide_true, if_true]
    refine wroteP_sized.2 ⟨_, _, wcat2.2 ⟨_, _, wAt_of a1 (wFString_lit _ (by decide +kernel)), wId_says a2, rfl⟩, ?_, rfl, rfl⟩
    rw [show v.get (P "array_type") = .ok _ from a1]
    exact wrote_on.2 ⟨_, a4, wrote_structs.2 ⟨_, l, _, _, _, _, _, _, b1, b2, by rw [← e8]; exact e7,
      wAt_of b4 (wFString_of _), wAt_of b5 (wFString_of _), e6, wU64_count.2 ⟨hsz, rfl⟩, wAt_of b8 (wFString_of _),
      wAt_of b9 (wGuid_says e4), by rw [← e8]; rfl⟩⟩
  | map ht a1 a2 a3 a6 hi b1 b2 =>
    rename_i y id kt vt l es
    have hlen : (encEntries es).length < N := by
      simp only [PropT.tail, List.length_append] at hl
      omega
    obtain ⟨e6, e8⟩ := bw_entries hr b1 hlen
    simp only [wPlainInner, PropT.type, c, String.reduceEq, decide_false, Bool.false_eq_true, if_false, decide_true, if_true]
    refine wroteP_sized.2 ⟨_, _, wcat3.2 ⟨_, _, _, wAt_of a1 (wFString_of _), wAt_of a2 (wFString_of _), wId_says a3, rfl⟩,
      ?_, rfl, rfl⟩
    unfold wMapBody
    exact wrote_then.2 ⟨_, _, wcat2.2 ⟨_, _, rfl, wAt_of a6 ((wLen_iff hi).2 ⟨by rw [← e8]; exact b2, rfl⟩), rfl⟩,
      wrote_on.2 ⟨_, a6, wrote_iter.2 ⟨l, iterItems_says hi, e6⟩⟩, by rw [← e8]; rfl⟩

/-! ### property lists -/

variable {cfg : Cfg} {wp : Val → Except Err Bytes}

/-- What the writer makes of a property with "custom_type" is what `O` gives. -/
def Fo (O : Val → Val → Prop) (cfg : Cfg) (wp : Val → Except Err Bytes) : Prop :=
  ∀ v v' path c, PlainDoc v → At v "custom_type" (.str path) → cfg.custom path = some c → At v "type" (.str (P c.propType)) →
    c.pre wp v = .ok v' → O v v' ∧ PlainDoc v' ∧ At v' "type" (.str (P c.propType))
/-- What `O` gives is what the writer makes of a property with "custom_type". -/
def Bo (O : Val → Val → Prop) (cfg : Cfg) (wp : Val → Except Err Bytes) : Prop :=
  ∀ v v', O v v' → ∃ path c, v.contains (P "custom_type") = .ok true ∧ At v "custom_type" (.str path) ∧
    cfg.custom path = some c ∧ At v "type" (.str (P c.propType)) ∧ At v' "type" (.str (P c.propType)) ∧ c.pre wp v = .ok v'

theorem fw_property (hr : Fw O r) (ho : Fo O cfg wp) {v : Val} {b : Bytes} (hp : PlainDoc v) (h : Wrote (wProperty cfg r wp v) b) :
    ∃ p, ((v.contains (P "custom_type") = .ok false ∧ SaysP O v p) ∨ ∃ v', O v v' ∧ SaysP O v' p) ∧ p.tail.length < 2 ^ 64 ∧
      b = p.enc := by
  obtain ⟨ty, tb, n, buf, sb, h1, h2, h3, h4, rfl⟩ := wrote_property.1 h
  have key : ∀ v', PlainDoc v' → At v' "type" ty → WroteP (wPlainInner r ty v') n buf →
      ∃ p, SaysP O v' p ∧ p.tail.length < 2 ^ 64 ∧ tb ++ sb ++ buf = p.enc := by
    intro v' hp' ht' h3
    obtain ⟨p, h5, rfl, rfl, rfl⟩ := fw_inner hr hp' ht' h3
    obtain ⟨hsz, rfl⟩ := wU64_count.1 h4
    refine ⟨p, h5, hsz, ?_⟩
    obtain ⟨s, e1, -, rfl⟩ := wFString_inv h2
    cases e1
    simp only [PropT.enc, eLit, List.append_assoc]
  rcases wroteP_inner.1 h3 with ⟨hc, h3⟩ | ⟨hc, path, c, v', g1, g2, g3, g4, h3⟩
  · obtain ⟨p, h5, h6, h7⟩ := key v hp h1 h3
    exact ⟨p, .inl ⟨hc, h5⟩, h6, h7⟩
  · cases isS_iff.1 g3
    obtain ⟨h5, h6, h7⟩ := ho v v' path c hp g1 g2 h1 g4
    obtain ⟨p, h8, h9, h10⟩ := key v' h6 h7 h3
    exact ⟨p, .inr ⟨v', h5, h8⟩, h9, h10⟩

theorem strOk_type (p : PropT free) : StrOk (P p.type) := by
  cases p <;> simp only [PropT.type] <;> decide +kernel

theorem bw_property (hr : Bw O r N) {v : Val} {p : PropT free}
    (hc : v.contains (P "custom_type") = .ok false) (h : SaysP O v p) (hsz : p.tail.length < 2 ^ 64) (hl : p.tail.length < N) :
    Wrote (wProperty cfg r wp v) p.enc :=
  wrote_property.2 ⟨_, _, _, _, _, saysP_type h, wFString_lit _ (strOk_type p), wroteP_inner.2 (.inl ⟨hc, bw_inner hr h hl⟩),
    wU64_count.2 ⟨hsz, rfl⟩, by simp only [PropT.enc, List.append_assoc]⟩

theorem bw_custom (hr : Bw O r N) (ho : Bo O cfg wp) {v v' : Val} {p : PropT free}
    (hv : O v v') (h : SaysP O v' p) (hsz : p.tail.length < 2 ^ 64) (hl : p.tail.length < N) :
    Wrote (wProperty cfg r wp v) p.enc := by
  obtain ⟨path, c, g1, g2, g3, g4, g5, g6⟩ := ho v v' hv
  have e := saysP_type h
  have := at_unique g5 e
  rw [this] at g4 g5
  have g7 : (Val.str (P p.type)).isS c.propType = true := isS_iff.2 this.symm
  exact wrote_property.2 ⟨_, _, _, _, _, g4, wFString_lit _ (strOk_type p),
    wroteP_inner.2 (.inr ⟨g1, path, c, v', g2, g3, g7, g6, bw_inner hr h hl⟩),
    wU64_count.2 ⟨hsz, rfl⟩, by simp only [PropT.enc, List.append_assoc]⟩

theorem fw_dict (hr : Fw O r) (ho : Fo O cfg wp) : ∀ {d : Dict} {b : Bytes}, PlainDocD d → WroteD (wProperty cfg r wp) d b →
    ∃ ps, SaysD O d ps ∧ encProps ps = b ++ eLit "None"
  | [], b, _, h => by
    rw [wroteD_nil] at h
    subst h
    exact ⟨[], .nil, rfl⟩
  | (k, v) :: d, b, hp, h => by
    obtain ⟨kb, c, e, h1, h2, h3, rfl⟩ := wroteD_cons.1 h
    obtain ⟨g1, g2, g3⟩ := hp
    obtain ⟨ps, h4, h5⟩ := fw_dict hr ho g3 h3
    obtain ⟨p, h6, h7, rfl⟩ := fw_property hr ho g2 h2
    obtain ⟨h8, rfl⟩ := fstringBytes_inv h1
    refine ⟨(⟨k, g1, h8⟩, p) :: ps, ?_, ?_⟩
    · rcases h6 with ⟨h6, h6'⟩ | ⟨v', h6, h6'⟩
      · exact .cons (n := ⟨k, g1, h8⟩) h6 h6' h7 h4
      · exact .opened (n := ⟨k, g1, h8⟩) h6 h6' h7 h4
    · simp only [encProps, PropT.enc, h5, List.append_assoc, eStr]

theorem bw_dict (hr : Bw O r N) (ho : Bo O cfg wp) : ∀ {d : Dict} {ps : Props free}, SaysD O d ps →
    (encProps ps).length ≤ N → ∃ c, WroteD (wProperty cfg r wp) d c ∧ encProps ps = c ++ eLit "None"
  | [], _, h, _ => by cases h; exact ⟨[], wroteD_nil.2 rfl, rfl⟩
  | (k, v) :: d, _, h, hl => by
    have e : ∀ (n : Str) (p : PropT free) (ps : Props free), encProps ((n, p) :: ps) = eStr n ++ p.enc ++ encProps ps := by
      intro n p ps
      simp only [encProps, PropT.enc, List.append_assoc]
    have len : ∀ (n : Str) (p : PropT free) (ps : Props free), (encProps ((n, p) :: ps)).length ≤ N →
        p.tail.length < N ∧ (encProps ps).length ≤ N := by
      intro n p ps hl
      have hp : p.enc = eLit p.type ++ lit 8 p.tail.length ++ p.head ++ p.tail := rfl
      have l8 := lit_length 8 p.tail.length
      rw [e, hp] at hl
      simp only [List.length_append, l8] at hl
      omega
    cases h with
    | cons h1 h2 hsz h3 =>
      rename_i n p ps
      obtain ⟨l1, l2⟩ := len n p ps hl
      obtain ⟨c, h4, h5⟩ := bw_dict hr ho h3 l2
      refine ⟨eStr n ++ p.enc ++ c, wroteD_cons.2 ⟨_, _, _, fstringBytes_str n, bw_property hr h1 h2 hsz l1, h4, rfl⟩, ?_⟩
      rw [e, h5]
      simp only [List.append_assoc]
    | opened h1 h2 hsz h3 =>
      rename_i v' n p ps
      obtain ⟨l1, l2⟩ := len n p ps hl
      obtain ⟨c, h4, h5⟩ := bw_dict hr ho h3 l2
      refine ⟨eStr n ++ p.enc ++ c, wroteD_cons.2 ⟨_, _, _, fstringBytes_str n, bw_custom hr ho h1 h2 hsz l1, h4, rfl⟩, ?_⟩
      rw [e, h5]
      simp only [List.append_assoc]

end

theorem noneBytes : fstringBytes (P "None") = .ok (eLit "None") := fstringBytes_lit _ (by decide +kernel)

theorem fw_props {O : Val → Val → Prop} {cfg : Cfg} : ∀ (n : Nat) (_ : ∀ m < n, Fo O cfg (bytesOf m)), Fw O (wProps n cfg)
  | 0, _ => fun v b _ h => (wrote_error.1 h).elim
  | n + 1, ho => by
    intro v b hp h
    rw [wProps_succ] at h
    by_cases hd : ∃ d, v = .dict d
    · obtain ⟨d, rfl⟩ := hd
      obtain ⟨c, nb, h1, h2, rfl⟩ := wrote_body.1 h
      rw [noneBytes] at h2
      cases h2
      obtain ⟨ps, h3, h4⟩ := fw_dict (fw_props n fun m hm => ho m (by omega)) (ho n (by omega)) hp h1
      exact ⟨ps, .dict h3, h4⟩
    · have hd : ∀ d, v ≠ .dict d := fun d e => hd ⟨d, e⟩
      obtain ⟨h1, h2⟩ := (wrote_body_other hd).1 h
      rw [noneBytes] at h2
      cases h2
      refine ⟨[], .empty ?_, rfl⟩
      cases v <;> try (cases h1; done)
      · rename_i s _
        have : s = [] := by simpa [Val.iterItems] using h1
        subst this
        exact .str []
      · rename_i s _
        have : s = [] := by simpa [Val.iterItems] using h1
        subst this
        exact .bytes []
      · cases h1; exact .list []
      · cases h1; exact .tuple []
      · exact absurd rfl (hd _)

theorem bw_props {O : Val → Val → Prop} {cfg : Cfg} {k : Nat} (ho : ∀ m ≥ k, Bo O cfg (bytesOf m)) :
    ∀ (n : Nat) (N : Nat), N + k ≤ n → Bw O (wProps n cfg) N
  | 0, _ => fun h v ps _ hl => by omega
  | n + 1, N => by
    intro h v ps hs hl
    rw [wProps_succ]
    have hb : Bw O (wProps n cfg) (N - 1) := bw_props ho n (N - 1) (by omega)
    cases hs with
    | dict hd =>
      obtain ⟨c, h1, h2⟩ := bw_dict hb (ho n (by omega)) hd (by omega)
      rw [h2]
      exact wrote_body.2 ⟨c, _, h1, noneBytes, rfl⟩
    | empty hi =>
      by_cases hd : ∃ d, v = .dict d
      · obtain ⟨d, rfl⟩ := hd
        cases hi
        exact wrote_body.2 ⟨[], _, wroteD_nil.2 rfl, noneBytes, rfl⟩
      · exact (wrote_body_other fun d e => hd ⟨d, e⟩).2 ⟨iterItems_says hi, noneBytes⟩

/-! ### enough fuel for the custom properties -/

section
variable {O : Val → Val → Prop} {Q : Nat → Val → Val → Prop} (hQ : ∀ v v', O v v' → ∃ k, ∀ k' ≥ k, Q k' v v')

theorem both {p q : Nat → Prop} (h1 : ∃ k, ∀ k' ≥ k, p k') (h2 : ∃ k, ∀ k' ≥ k, q k') : ∃ k, ∀ k' ≥ k, p k' ∧ q k' := by
  obtain ⟨a, h1⟩ := h1
  obtain ⟨b, h2⟩ := h2
  exact ⟨max a b, fun k hk => ⟨h1 k (by omega), h2 k (by omega)⟩⟩

include hQ in
mutual
theorem fuel_s : ∀ {st v : Val} {s : SVal free}, SaysS O st v s → ∃ k, ∀ k' ≥ k, SaysS (Q k') st v s
  | _, _, _, .vector h => ⟨0, fun _ _ => .vector h⟩
  | _, _, _, .dateTime h => ⟨0, fun _ _ => .dateTime h⟩
  | _, _, _, .guid h => ⟨0, fun _ _ => .guid h⟩
  | _, _, _, .quat h => ⟨0, fun _ _ => .quat h⟩
  | _, _, _, .color a1 b1 a2 b2 a3 b3 a4 b4 => ⟨0, fun _ _ => .color a1 b1 a2 b2 a3 b3 a4 b4⟩
  | _, _, _, .props h1 h2 => (fuel_ps h2).imp fun _ h k hk => .props h1 (h k hk)
theorem fuel_m : ∀ {ty st v : Val} {x : MVal free}, SaysM O ty st v x → ∃ k, ∀ k' ≥ k, SaysM (Q k') ty st v x
  | _, _, _, _, .struct h => (fuel_s h).imp fun _ h k hk => .struct (h k hk)
  | _, _, _, _, .enum s => ⟨0, fun _ _ => .enum s⟩
  | _, _, _, _, .name s => ⟨0, fun _ _ => .name s⟩
  | _, _, _, _, .int h => ⟨0, fun _ _ => .int h⟩
  | _, _, _, _, .bool v => ⟨0, fun _ _ => .bool v⟩
theorem fuel_p : ∀ {v : Val} {p : PropT free}, SaysP O v p → ∃ k, ∀ k' ≥ k, SaysP (Q k') v p
  | _, _, .struct a1 a2 a3 a4 a5 a6 h => (fuel_s h).imp fun _ h k hk => .struct a1 a2 a3 a4 a5 a6 (h k hk)
  | _, _, .int a1 a2 a3 a4 => ⟨0, fun _ _ => .int a1 a2 a3 a4⟩
  | _, _, .int64 a1 a2 a3 a4 => ⟨0, fun _ _ => .int64 a1 a2 a3 a4⟩
  | _, _, .fixed64 a1 a2 a3 a4 => ⟨0, fun _ _ => .fixed64 a1 a2 a3 a4⟩
  | _, _, .float a1 a2 a3 a4 => ⟨0, fun _ _ => .float a1 a2 a3 a4⟩
  | _, _, .str a1 a2 a3 => ⟨0, fun _ _ => .str a1 a2 a3⟩
  | _, _, .name a1 a2 a3 => ⟨0, fun _ _ => .name a1 a2 a3⟩
  | _, _, .enum a1 a2 a3 a4 a5 => ⟨0, fun _ _ => .enum a1 a2 a3 a4 a5⟩
  | _, _, .bool a1 a2 a3 => ⟨0, fun _ _ => .bool a1 a2 a3⟩
  | _, _, .enums l a1 a2 a3 a4 a5 a6 a7 => ⟨0, fun _ _ => .enums l a1 a2 a3 a4 a5 a6 a7⟩
  | _, _, .names l a1 a2 a3 a4 a5 a6 a7 => ⟨0, fun _ _ => .names l a1 a2 a3 a4 a5 a6 a7⟩
  | _, _, .others a1 a2 a3 a4 a5 a6 a7 a8 => ⟨0, fun _ _ => .others a1 a2 a3 a4 a5 a6 a7 a8⟩
  | _, _, .guids a1 a2 a3 a4 a5 a6 => ⟨0, fun _ _ => .guids a1 a2 a3 a4 a5 a6⟩
  | _, _, .bytes a1 a2 a3 a4 a5 a6 a7 a8 => ⟨0, fun _ _ => .bytes a1 a2 a3 a4 a5 a6 a7 a8⟩
  | _, _, .structs a1 a2 a3 a4 a5 a6 a7 a8 a9 a10 a11 h a12 a13 => (fuel_ss h).imp fun _ h k hk =>
      .structs a1 a2 a3 a4 a5 a6 a7 a8 a9 a10 a11 (h k hk) a12 a13
  | _, _, .map a1 a2 a3 a4 a5 a6 h a7 => (fuel_es h).imp fun _ h k hk => .map a1 a2 a3 a4 a5 a6 (h k hk) a7
theorem fuel_ss : ∀ {st : Val} {l : List Val} {ss : List (SVal free)}, SaysSs O st l ss → ∃ k, ∀ k' ≥ k, SaysSs (Q k') st l ss
  | _, _, _, .nil => ⟨0, fun _ _ => .nil⟩
  | _, _, _, .cons h1 h2 => (both (fuel_s h1) (fuel_ss h2)).imp fun _ h k hk => .cons (h k hk).1 (h k hk).2
theorem fuel_es : ∀ {m : Val} {l : List Val} {es : List (MVal free × MVal free)}, SaysEs O m l es →
    ∃ k, ∀ k' ≥ k, SaysEs (Q k') m l es
  | _, _, _, .nil => ⟨0, fun _ _ => .nil⟩
  | _, _, _, .cons a1 a2 a3 a4 a5 a6 h1 h2 h3 => (both (fuel_m h1) (both (fuel_m h2) (fuel_es h3))).imp fun _ h k hk =>
      .cons a1 a2 a3 a4 a5 a6 (h k hk).1 (h k hk).2.1 (h k hk).2.2
theorem fuel_d : ∀ {d : Dict} {ps : Props free}, SaysD O d ps → ∃ k, ∀ k' ≥ k, SaysD (Q k') d ps
  | _, _, .nil => ⟨0, fun _ _ => .nil⟩
  | _, _, .cons a1 h1 a2 h2 => (both (fuel_p h1) (fuel_d h2)).imp fun _ h k hk => .cons a1 (h k hk).1 a2 (h k hk).2
  | _, _, .opened a1 h1 a2 h2 => (both (hQ _ _ a1) (both (fuel_p h1) (fuel_d h2))).imp fun _ h k hk =>
      .opened (h k hk).1 (h k hk).2.1 a2 (h k hk).2.2
theorem fuel_ps : ∀ {v : Val} {ps : Props free}, SaysPs O v ps → ∃ k, ∀ k' ≥ k, SaysPs (Q k') v ps
  | _, _, .dict h => (fuel_d h).imp fun _ h k hk => .dict (h k hk)
  | _, _, .empty h => ⟨0, fun _ _ => .empty h⟩
end
end

/-- `O` is what the writer does with custom properties, for any fuel that is enough. -/
structure OpensAs (O : Val → Val → Prop) (cfg : Cfg) : Prop where
  fw : ∀ n, Fo O cfg (bytesOf n)
  bw : ∀ v v', O v v' → ∃ path c, v.contains (P "custom_type") = .ok true ∧ At v "custom_type" (.str path) ∧
    cfg.custom path = some c ∧ At v "type" (.str (P c.propType)) ∧ At v' "type" (.str (P c.propType)) ∧
    ∃ k, ∀ n ≥ k, c.pre (bytesOf n) v = .ok v'

/-- What a property list says is written, with enough fuel. -/
theorem props_says {O : Val → Val → Prop} {cfg : Cfg} (ho : OpensAs O cfg) {v : Val} {ps : Props free} (h : SaysPs O v ps) :
    ∃ k, ∀ n ≥ k, Wrote (wProps n cfg v) (encProps ps) := by
  let Q : Nat → Val → Val → Prop := fun k v v' => O v v' ∧ ∃ path c, v.contains (P "custom_type") = .ok true ∧
    At v "custom_type" (.str path) ∧ cfg.custom path = some c ∧ At v "type" (.str (P c.propType)) ∧
    At v' "type" (.str (P c.propType)) ∧ ∀ n ≥ k, c.pre (bytesOf n) v = .ok v'
  have hQ : ∀ v v', O v v' → ∃ k, ∀ k' ≥ k, Q k' v v' := by
    intro v v' hv
    obtain ⟨path, c, g1, g2, g3, g4, g5, k, g6⟩ := ho.bw v v' hv
    exact ⟨k, fun k' hk => ⟨hv, path, c, g1, g2, g3, g4, g5, fun n hn => g6 n (by omega)⟩⟩
  obtain ⟨k, hk⟩ := fuel_ps hQ h
  have hb : ∀ m ≥ k, Bo (Q k) cfg (bytesOf m) := by
    rintro m hm v v' ⟨-, path, c, g1, g2, g3, g4, g5, g6⟩
    exact ⟨path, c, g1, g2, g3, g4, g5, g6 m hm⟩
  refine ⟨(encProps ps).length + 1 + k, fun n hn => ?_⟩
  exact bw_props hb n ((encProps ps).length + 1) hn v ps (hk k (Nat.le_refl k)) (Nat.lt_succ_self _)

/-- Without custom properties nothing is opened. -/
theorem opens_none {cfg : Cfg} (h : ∀ p, cfg.custom p = none) : OpensAs (fun _ _ => False) cfg where
  fw := fun n v v' path c _ _ hc => by rw [h] at hc; cases hc
  bw := fun _ _ h => h.elim

end Pal
