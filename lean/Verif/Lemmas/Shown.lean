import Verif.Lemmas.Grow
import Verif.Model.Gvas
import Verif.Spec.Shown
import Verif.Lemmas.Layout
import Verif.Props.Termination
/-
The property reader shows exactly what `Spec/Shown.lean` says.
-/

namespace Pal
open Spec

/-! ### Dicts -/

theorem dget_none_dset {d : Dict} {k : PyStr} (h : ∀ e ∈ d, e.1 ≠ k) (v : Val) : dset d k v = d ++ [(k, v)] := by
  induction d with
  | nil => rfl
  | cons a t ih =>
    obtain ⟨k', v'⟩ := a
    rw [dset, if_neg (h _ List.mem_cons_self), ih fun e he => h e (List.mem_cons_of_mem _ he)]
    rfl

theorem dset_mapKeys {ks : List PyStr} (hn : ks.Nodup) {k : PyStr} (hk : k ∈ ks) (f : PyStr → Val) (v : Val) :
    dset (ks.map fun x => (x, f x)) k v = ks.map fun x => (x, if x = k then v else f x) := by
  induction ks with
  | nil => cases hk
  | cons a t ih =>
    rw [List.nodup_cons] at hn
    simp only [List.map_cons, dset]
    by_cases h : a = k
    · subst h
      rw [if_pos rfl, if_pos rfl]
      congr 1
      apply List.map_congr_left
      intro x hx
      rw [if_neg]
      rintro rfl
      exact hn.1 hx
    · rw [if_neg h, if_neg h, ih hn.2 ((List.mem_cons.1 hk).resolve_left (Ne.symm h))]

theorem nodup_eraseDups (l : List PyStr) : l.eraseDups.Nodup := by
  induction h : l.length using Nat.strong_induction_on generalizing l with
  | _ n ih =>
    cases l with
    | nil => simp
    | cons a t =>
      rw [List.eraseDups_cons, List.nodup_cons]
      refine ⟨?_, ih _ ?_ _ rfl⟩
      · rw [List.mem_eraseDups]; simp
      · subst h
        have := List.length_filter_le (fun b => !b == a) t
        simp only [List.length_cons]
        omega

theorem dictOf_snoc (l : List (PyStr × Val)) (k : PyStr) (v : Val) : dset (dictOf l) k v = dictOf (l ++ [(k, v)]) := by
  unfold dictOf
  rw [List.map_append, List.reverse_append]
  simp only [List.map_cons, List.map_nil, List.reverse_cons, List.reverse_nil, List.nil_append, List.singleton_append,
    List.find?_cons, List.eraseDups_append]
  by_cases h : k ∈ l.map Prod.fst
  · have e : [k].removeAll (l.map Prod.fst) = [] := by
      simp only [List.removeAll, List.filter_cons, List.filter_nil]
      rw [if_neg]
      simpa using h
    rw [e, List.eraseDups_nil, List.append_nil, dset_mapKeys (nodup_eraseDups _) (List.mem_eraseDups.2 h)]
    apply List.map_congr_left
    intro x _
    by_cases hx : x = k
    · subst hx; simp
    · rw [if_neg hx]
      simp [Ne.symm hx]
  · have e : [k].removeAll (l.map Prod.fst) = [k] := by
      simp only [List.removeAll, List.filter_cons, List.filter_nil]
      rw [if_pos]
      simpa using h
    rw [e, dget_none_dset, List.map_append]
    · congr 1
      · apply List.map_congr_left
        intro x hx
        have : x ≠ k := fun e => h (e ▸ List.mem_eraseDups.1 hx)
        simp [Ne.symm this]
      · simp [List.eraseDups_cons]
    · intro e he
      obtain ⟨x, hx, rfl⟩ := List.mem_map.1 he
      exact fun e => h (e ▸ List.mem_eraseDups.1 hx)

/-! ### The reader without a budget -/

/-- A property list read with a sufficient budget. -/
def readList (cfg : Cfg) (path : PyStr) : R Val := fun s => rProps cfg (s.length + 1) path s

def readLoop (cfg : Cfg) (path : PyStr) (acc : Dict) : R Val := fun s => rPropsLoop cfg (s.length + 1) path acc s

theorem readLoop_eq (cfg : Cfg) (path : PyStr) (acc : Dict) {n : Nat} {s : Bytes} (h : s.length < n) :
    rPropsLoop cfg n path acc s = readLoop cfg path acc s := by
  obtain ⟨N, hN⟩ := exists_limD acc
  exact (ok_loop cfg s.length n (s.length + 1) path acc (max s.length N) h (Nat.lt_succ_self _) (by omega)
    (limD_mono (by omega) acc hN) s (Nat.le_refl _)).1

theorem readList_ok (cfg : Cfg) (path : PyStr) {n K : Nat} (h : K < n) :
    Ok K K (fun s => rPropsLoop cfg n path [] s) (readList cfg path) := by
  intro s hs
  have h1 := ok_loop cfg K n (K + 1) path [] K h (Nat.lt_succ_self _) (Nat.le_refl _) (by simp only [LimD]) s hs
  exact ⟨readLoop_eq cfg path [] (by omega), h1.2.1, h1.2.2⟩

theorem readList_ok' (cfg : Cfg) (path : PyStr) (K : Nat) : Ok K K (readList cfg path) (readList cfg path) := by
  intro s hs
  obtain ⟨h1, h2, h3⟩ := readList_ok cfg path (Nat.lt_succ_self K) s hs
  rw [← h1]
  exact ⟨rfl, h2, h3⟩

theorem readList_rec (cfg : Cfg) {n K : Nat} (h : K < n) :
    OkRec K K (fun p => rPropsLoop cfg n p []) (readList cfg) :=
  ⟨fun p => readList_ok cfg p h, fun p => loop_dict cfg n p []⟩

/-- The reader satisfies the equation of the code, without a budget. -/
theorem readLoop_fix (cfg : Cfg) (path : PyStr) (acc : Dict) (s : Bytes) :
    readLoop cfg path acc s = (do
      let name ← rFString
      if name = P "None" then return .dict acc
      else
        let ty ← rFString
        let size ← rU64
        let v ← rProperty cfg (readList cfg) ty size (path ++ dot ++ name)
        readLoop cfg path (dset acc name v) : R Val) s := by
  rw [show readLoop cfg path acc s = rPropsLoop cfg (s.length + 1) path acc s from rfl, rPropsLoop]
  have hf := ok_fstring (K := s.length) (N := s.length) s (Nat.le_refl _)
  cases h1 : rFString s with
  | error e => rw [r_bind_error h1, r_bind_error h1]
  | ok q =>
    obtain ⟨name, s1⟩ := q
    rw [r_bind_ok h1, r_bind_ok h1]
    have hc := fstring_consumes h1
    by_cases hn : name = P "None"
    · rw [if_pos hn, if_pos hn]
    · rw [if_neg hn, if_neg hn]
      have key : Ok s1.length s1.length (do
          let ty ← rFString
          let size ← rU64
          let v ← rProperty cfg (fun p => rPropsLoop cfg s.length p []) ty size (path ++ dot ++ name)
          return v : R Val) (do
          let ty ← rFString
          let size ← rU64
          let v ← rProperty cfg (readList cfg) ty size (path ++ dot ++ name)
          return v : R Val) :=
        ok_bind ok_fstring fun ty _ => ok_bind ok_u64 fun size _ => ok_property cfg (readList_rec cfg hc) _ _ _
      obtain ⟨k1, -, k3⟩ := key s1 (Nat.le_refl _)
      have e : ∀ (r : PyStr → R Val) (g : Val → R Val), (do
          let ty ← rFString
          let size ← rU64
          let v ← rProperty cfg r ty size (path ++ dot ++ name)
          g v : R Val) = ((do
          let ty ← rFString
          let size ← rU64
          let v ← rProperty cfg r ty size (path ++ dot ++ name)
          return v : R Val) >>= g) := by
        intro r g
        simp only [bind_assoc]
      rw [e, e]
      cases h2 : (do
          let ty ← rFString
          let size ← rU64
          let v ← rProperty cfg (fun p => rPropsLoop cfg s.length p []) ty size (path ++ dot ++ name)
          return v : R Val) s1 with
      | error x => rw [r_bind_error h2, r_bind_error (k1 ▸ h2)]
      | ok q =>
        obtain ⟨v, s2⟩ := q
        obtain ⟨⟨c, hc2⟩, -⟩ := k3 v s2 h2
        rw [r_bind_ok h2, r_bind_ok (k1 ▸ h2)]
        exact readLoop_eq cfg path _ (by have := congrArg List.length hc2; rw [List.length_append] at this; omega)

/-! ### Layouts of structs, entries and values -/

theorem quat_reads (an : Bool) : Reads (rQuatDict an) (Layout.quat an) := by
  have e : rQuatDict an = rRecord [("x", rDouble an), ("y", rDouble an), ("z", rDouble an), ("w", rDouble an)] := by
    simp only [rRecord, rFields, bind_assoc, pure_bind]; rfl
  rw [e]
  exact rRecord_reads (.cons (rDouble_reads _) (.cons (rDouble_reads _) (.cons (rDouble_reads _)
    (.cons (rDouble_reads _) .nil))))

def rColor (an : Bool) : R Val := do
  let r ← rFloat an
  let g ← rFloat an
  let b ← rFloat an
  let a ← rFloat an
  return dct [("r", r), ("g", g), ("b", b), ("a", a)]

theorem color_reads (an : Bool) : Reads (rColor an) (Layout.color an) := by
  have e : rColor an = rRecord [("r", rFloat an), ("g", rFloat an), ("b", rFloat an), ("a", rFloat an)] := by
    simp only [rRecord, rFields, bind_assoc, pure_bind]; rfl
  rw [e]
  exact rRecord_reads (.cons (rFloat_reads _) (.cons (rFloat_reads _) (.cons (rFloat_reads _)
    (.cons (rFloat_reads _) .nil))))

/-- A fixed-layout struct is read as its layout, anything else by the recursive call. -/
theorem rStructValue_cases (an : Bool) (rec : PyStr → R Val) (st path : PyStr) :
    (∃ t L, (t, L) ∈ structLayouts an ∧ st = P t ∧ Reads (rStructValue an rec st path) L) ∨
    ((∀ e ∈ structLayouts an, st ≠ P e.1) ∧ rStructValue an rec st path = rec path) := by
  unfold rStructValue
  by_cases h1 : st = P "Vector"
  · rw [if_pos h1]; exact .inl ⟨"Vector", _, .head _, h1, vector_reads an⟩
  rw [if_neg h1]
  by_cases h2 : st = P "DateTime"
  · rw [if_pos h2]; exact .inl ⟨"DateTime", _, .tail _ (.head _), h2, rUV_reads 8⟩
  rw [if_neg h2]
  by_cases h3 : st = P "Guid"
  · rw [if_pos h3]; exact .inl ⟨"Guid", _, .tail _ (.tail _ (.head _)), h3, rGuid_reads⟩
  rw [if_neg h3]
  by_cases h4 : st = P "Quat"
  · rw [if_pos h4]; exact .inl ⟨"Quat", _, .tail _ (.tail _ (.tail _ (.head _))), h4, quat_reads an⟩
  rw [if_neg h4]
  by_cases h5 : st = P "LinearColor"
  · rw [if_pos h5]; exact .inl ⟨"LinearColor", _, .tail _ (.tail _ (.tail _ (.tail _ (.head _)))), h5, color_reads an⟩
  rw [if_neg h5]
  refine .inr ⟨?_, rfl⟩
  simp only [structLayouts, List.mem_cons, List.not_mem_nil, or_false]
  rintro e (rfl | rfl | rfl | rfl | rfl) <;> assumption

theorem structLayouts_inj {an : Bool} {t t' : String} {L L' : Layout} (h : (t, L) ∈ structLayouts an)
    (h' : (t', L') ∈ structLayouts an) (e : P t = P t') : L = L' := by
  have e := (P_inj _ _).1 e
  subst e
  simp only [structLayouts, List.mem_cons, Prod.mk.injEq, List.not_mem_nil, or_false] at h h'
  rcases h with ⟨rfl, rfl⟩ | ⟨rfl, rfl⟩ | ⟨rfl, rfl⟩ | ⟨rfl, rfl⟩ | ⟨rfl, rfl⟩ <;> simp at h' <;> exact h'.symm

theorem structFixed_reads {an : Bool} {rec : PyStr → R Val} {t : String} {L : Layout} {path : PyStr}
    (h : (t, L) ∈ structLayouts an) : Reads (rStructValue an rec (P t) path) L := by
  rcases rStructValue_cases an rec (P t) path with ⟨t', L', h1, h2, h3⟩ | ⟨h1, -⟩
  · rw [structLayouts_inj h h1 h2]; exact h3
  · exact absurd rfl (h1 _ h)

theorem structList_eq {an : Bool} {rec : PyStr → R Val} {st path : PyStr} (h : ∀ e ∈ structLayouts an, st ≠ P e.1) :
    rStructValue an rec st path = rec path := by
  rcases rStructValue_cases an rec st path with ⟨t', L', h1, h2, -⟩ | ⟨-, h2⟩
  · exact absurd h2 (h _ h1)
  · exact h2

theorem rBoolVal_reads : Reads (do let b ← rBool; return .bool b : R Val) (Layout.flag 1) := by
  have e : (do let b ← rBool; return .bool b : R Val) = rFlagV 1 := by
    simp only [rBool, rFlagV, rByte, bind_assoc, pure_bind]
  rw [e]
  exact rFlagV_reads 1

theorem pne {a b : String} (h : a ≠ b) : P a ≠ P b := fun e => h ((P_inj _ _).1 e)

theorem entry_reads {an : Bool} {rec : PyStr → R Val} {t : String} {L : Layout} {st path : PyStr}
    (h : (t, L) ∈ entryLayouts) : Reads (rPropValue an rec (P t) st path) L := by
  unfold rPropValue
  simp only [entryLayouts, List.mem_cons, Prod.mk.injEq, List.not_mem_nil, or_false] at h
  rcases h with ⟨rfl, rfl⟩ | ⟨rfl, rfl⟩ | ⟨rfl, rfl⟩ | ⟨rfl, rfl⟩
  · rw [if_neg (pne (by decide)), if_pos rfl]; exact rStr_reads
  · rw [if_neg (pne (by decide)), if_neg (pne (by decide)), if_pos rfl]; exact rStr_reads
  · rw [if_neg (pne (by decide)), if_neg (pne (by decide)), if_neg (pne (by decide)), if_pos rfl]
    exact rIV_reads (by decide)
  · rw [if_neg (pne (by decide)), if_neg (pne (by decide)), if_neg (pne (by decide)), if_neg (pne (by decide)), if_pos rfl]
    exact rBoolVal_reads

theorem rPropValue_cases (an : Bool) (rec : PyStr → R Val) (ty st path : PyStr) :
    (ty = P "StructProperty" ∧ rPropValue an rec ty st path = rStructValue an rec st path) ∨
    (∃ t L, (t, L) ∈ entryLayouts ∧ ty = P t) ∨
    (∀ s v rest, rPropValue an rec ty st path s ≠ .ok (v, rest)) := by
  unfold rPropValue
  by_cases h1 : ty = P "StructProperty"
  · rw [if_pos h1]; exact .inl ⟨h1, rfl⟩
  rw [if_neg h1]
  by_cases h2 : ty = P "EnumProperty"
  · exact .inr (.inl ⟨_, _, .head _, h2⟩)
  rw [if_neg h2]
  by_cases h3 : ty = P "NameProperty"
  · exact .inr (.inl ⟨_, _, .tail _ (.head _), h3⟩)
  rw [if_neg h3]
  by_cases h4 : ty = P "IntProperty"
  · exact .inr (.inl ⟨_, _, .tail _ (.tail _ (.head _)), h4⟩)
  rw [if_neg h4]
  by_cases h5 : ty = P "BoolProperty"
  · exact .inr (.inl ⟨_, _, .tail _ (.tail _ (.tail _ (.head _))), h5⟩)
  rw [if_neg h5]
  exact .inr (.inr fun _ _ _ => nofun)

theorem rIdValue_iff {x : R Val} {L : Layout} (h : Reads x L) {s rest : Bytes} {v : Val} :
    rIdValue x s = .ok (v, rest) ↔ ∃ id s' w, Layout.optGuid s id s' ∧ L s' w rest ∧ v = vDict [("id", id), ("value", w)] := by
  unfold rIdValue
  simp only [r_bind_iff, r_pure_iff, rOptGuid_reads _ _ _, h _ _ _]
  constructor
  · rintro ⟨id, s1, h1, w, s2, h2, rfl, rfl⟩; exact ⟨id, s1, w, h1, h2, rfl⟩
  · rintro ⟨id, s1, w, h1, h2, rfl⟩; exact ⟨id, s1, h1, w, rest, h2, rfl, rfl⟩

theorem plainBody_value {cfg : Cfg} {rec : PyStr → R Val} {t : String} {L : Layout} {size : Nat} {path : PyStr}
    (h : (t, L) ∈ valueLayouts cfg.allowNan) :
    ∃ x, Reads x L ∧ rPlainBody cfg rec (P t) size path = rIdValue x := by
  unfold rPlainBody
  simp only [valueLayouts, List.mem_cons, Prod.mk.injEq, List.not_mem_nil, or_false] at h
  rcases h with ⟨rfl, rfl⟩ | ⟨rfl, rfl⟩ | ⟨rfl, rfl⟩ | ⟨rfl, rfl⟩ | ⟨rfl, rfl⟩ | ⟨rfl, rfl⟩
  · exact ⟨rI32Val, rIV_reads (by decide), by simp [P_inj]⟩
  · exact ⟨rI64Val, rIV_reads (by decide), by simp [P_inj]⟩
  · exact ⟨rI32Val, rIV_reads (by decide), by simp [P_inj]⟩
  · exact ⟨rFloat cfg.allowNan, rFloat_reads _, by simp [P_inj]⟩
  · exact ⟨rStr, rStr_reads, by simp [P_inj]⟩
  · exact ⟨rStr, rStr_reads, by simp [P_inj]⟩

theorem arrayValue_elements {t : String} {L : Layout} {n size : Nat} (h : (t, L) ∈ elementLayouts) {s rest : Bytes} {v : Val} :
    rArrayValue (P t) n size s = .ok (v, rest) ↔ ∃ l, Layout.many L n s l rest ∧ v = .list l := by
  have key : ∀ {x : R Val} {L : Layout}, Reads x L →
      ((do let l ← rRepeat x n; return .list l : R Val) s = .ok (v, rest) ↔ ∃ l, Layout.many L n s l rest ∧ v = .list l) := by
    intro x L hx
    simp only [r_bind_iff, r_pure_iff, rRepeat_iff hx]
    constructor
    · rintro ⟨l, s', h1, rfl, rfl⟩; exact ⟨l, h1, rfl⟩
    · rintro ⟨l, h1, rfl⟩; exact ⟨l, rest, h1, rfl, rfl⟩
  unfold rArrayValue
  simp only [elementLayouts, List.mem_cons, Prod.mk.injEq, List.not_mem_nil, or_false] at h
  rcases h with ⟨rfl, rfl⟩ | ⟨rfl, rfl⟩ | ⟨rfl, rfl⟩
  · rw [if_pos rfl]; exact key rStr_reads
  · rw [if_neg (pne (by decide)), if_pos rfl]; exact key rStr_reads
  · rw [if_neg (pne (by decide)), if_neg (pne (by decide)), if_pos rfl]; exact key rGuid_reads

theorem arrayValue_bytes {n size : Nat} {s rest : Bytes} {v : Val} :
    rArrayValue (P "ByteProperty") n size s = .ok (v, rest) ↔ size = n + 4 ∧ Layout.bytes n s v rest := by
  unfold rArrayValue
  rw [if_neg (pne (by decide)), if_neg (pne (by decide)), if_neg (pne (by decide)), if_pos rfl]
  by_cases c : (size : Int) - 4 = n
  · rw [if_pos c, rByteList_reads]
    exact ⟨fun h => ⟨by omega, h⟩, fun h => h.2⟩
  · rw [if_neg c]
    exact ⟨nofun, fun h => by omega⟩

theorem arrayValue_other {at_ : PyStr} {n size : Nat} {s rest : Bytes} {v : Val} (h : rArrayValue at_ n size s = .ok (v, rest)) :
    at_ = P "ByteProperty" ∨ ∃ t L, (t, L) ∈ elementLayouts ∧ at_ = P t := by
  unfold rArrayValue at h
  by_cases h1 : at_ = P "EnumProperty"
  · exact .inr ⟨_, _, .head _, h1⟩
  by_cases h2 : at_ = P "NameProperty"
  · exact .inr ⟨_, _, .tail _ (.head _), h2⟩
  by_cases h3 : at_ = P "Guid"
  · exact .inr ⟨_, _, .tail _ (.tail _ (.head _)), h3⟩
  by_cases h4 : at_ = P "ByteProperty"
  · exact .inl h4
  rw [if_neg h1, if_neg h2, if_neg h3, if_neg h4] at h
  cases h

theorem elementLayouts_ne {t : String} {L : Layout} (h : (t, L) ∈ elementLayouts) : t ≠ "StructProperty" := by
  simp only [elementLayouts, List.mem_cons, Prod.mk.injEq, List.not_mem_nil, or_false] at h
  rcases h with ⟨rfl, -⟩ | ⟨rfl, -⟩ | ⟨rfl, -⟩ <;> decide

/-! ### Soundness -/

section sound
variable {cfg : Cfg} {D : CodecId → Val → Val → Prop} {rec : PyStr → R Val}

/-- The recursive call shows what the list at the path says. -/
def SoundRec (cfg : Cfg) (D : CodecId → Val → Val → Prop) (rec : PyStr → R Val) : Prop :=
  ∀ p s v rest, rec p s = .ok (v, rest) → ∃ l, ListAt cfg D p s l rest ∧ v = .dict (dictOf l)

theorem structAt_sound (hr : SoundRec cfg D rec) {st path : PyStr} {s rest : Bytes} {v : Val}
    (h : rStructValue cfg.allowNan rec st path s = .ok (v, rest)) : StructAt cfg D st path s v rest := by
  rcases rStructValue_cases cfg.allowNan rec st path with ⟨t, L, h1, rfl, h3⟩ | ⟨h1, h2⟩
  · exact .fixed h1 ((h3 _ _ _).1 h)
  · rw [h2] at h
    obtain ⟨l, hl, rfl⟩ := hr _ _ _ _ h
    exact .list h1 hl

theorem entryAt_sound (hr : SoundRec cfg D rec) {ty st path : PyStr} {s rest : Bytes} {v : Val}
    (h : rPropValue cfg.allowNan rec ty st path s = .ok (v, rest)) : EntryAt cfg D ty st path s v rest := by
  rcases rPropValue_cases cfg.allowNan rec ty st path with ⟨rfl, h2⟩ | ⟨t, L, h1, rfl⟩ | h1
  · rw [h2] at h; exact .struct (structAt_sound hr h)
  · exact .plain h1 ((entry_reads h1 _ _ _).1 h)
  · exact absurd h (h1 _ _ _)

theorem structsAt_sound (hr : SoundRec cfg D rec) {st path : PyStr} : ∀ {n : Nat} {s rest : Bytes} {l : List Val},
    rRepeat (rStructValue cfg.allowNan rec st path) n s = .ok (l, rest) → StructsAt cfg D st path n s l rest
  | 0, s, rest, l, h => by
    obtain ⟨rfl, rfl⟩ := r_pure_inv h
    exact .nil
  | n + 1, s, rest, l, h => by
    rw [rRepeat] at h
    obtain ⟨v, s1, h1, h⟩ := r_bind_inv h
    obtain ⟨t, s2, h2, h⟩ := r_bind_inv h
    obtain ⟨rfl, rfl⟩ := r_pure_inv h
    exact .cons (structAt_sound hr h1) (structsAt_sound hr h2)

theorem entriesAt_sound (hr : SoundRec cfg D rec) {kt ks vt vs kp vp : PyStr} : ∀ {n : Nat} {s rest : Bytes} {l : List Val},
    rRepeat (rMapEntry cfg.allowNan rec kt ks vt vs kp vp) n s = .ok (l, rest) →
      EntriesAt cfg D kt ks vt vs kp vp n s l rest
  | 0, s, rest, l, h => by
    obtain ⟨rfl, rfl⟩ := r_pure_inv h
    exact .nil
  | n + 1, s, rest, l, h => by
    rw [rRepeat] at h
    obtain ⟨v, s1, h1, h⟩ := r_bind_inv h
    obtain ⟨t, s2, h2, h⟩ := r_bind_inv h
    obtain ⟨rfl, rfl⟩ := r_pure_inv h
    unfold rMapEntry at h1
    obtain ⟨k, s3, h3, h1⟩ := r_bind_inv h1
    obtain ⟨x, s4, h4, h1⟩ := r_bind_inv h1
    obtain ⟨rfl, rfl⟩ := r_pure_inv h1
    exact .cons (entryAt_sound hr h3) (entryAt_sound hr h4) (entriesAt_sound hr h2)

theorem under_key (path : PyStr) : path ++ P ".Key" = under path (P "Key") := by
  unfold under; rw [List.append_assoc]; rfl

theorem under_value (path : PyStr) : path ++ P ".Value" = under path (P "Value") := by
  unfold under; rw [List.append_assoc]; rfl

theorem bodyAt_sound (hr : SoundRec cfg D rec) {ty : PyStr} {size : Nat} {path : PyStr} {s rest : Bytes} {v : Val}
    (h : rPlainBody cfg rec ty size path s = .ok (v, rest)) : ∃ es, BodyAt cfg D ty size path s es rest ∧ v = vDict es := by
  have value : ∀ t L, (t, L) ∈ valueLayouts cfg.allowNan → ty = P t → ∃ es, BodyAt cfg D ty size path s es rest ∧ v = vDict es := by
    rintro t L hm rfl
    obtain ⟨x, hx, e⟩ := plainBody_value (rec := rec) (size := size) (path := path) hm
    rw [e] at h
    obtain ⟨id, s1, w, h1, h2, rfl⟩ := (rIdValue_iff hx).1 h
    exact ⟨_, .value hm h1 h2, rfl⟩
  by_cases c1 : ty = P "StructProperty"
  · subst c1
    unfold rPlainBody at h
    rw [if_pos rfl] at h
    unfold rStruct at h
    obtain ⟨st, s1, h1, h⟩ := r_bind_inv h
    obtain ⟨sid, s2, h2, h⟩ := r_bind_inv h
    obtain ⟨id, s3, h3, h⟩ := r_bind_inv h
    obtain ⟨w, s4, h4, h⟩ := r_bind_inv h
    obtain ⟨rfl, rfl⟩ := r_pure_inv h
    exact ⟨_, .struct (rFString_iff.1 h1) ((rGuid_reads _ _ _).1 h2) ((rOptGuid_reads _ _ _).1 h3) (structAt_sound hr h4), rfl⟩
  by_cases c2 : ty = P "IntProperty"
  · exact value _ _ (.head _) c2
  by_cases c3 : ty = P "Int64Property"
  · exact value _ _ (.tail _ (.head _)) c3
  by_cases c4 : ty = P "FixedPoint64Property"
  · exact value _ _ (.tail _ (.tail _ (.head _))) c4
  by_cases c5 : ty = P "FloatProperty"
  · exact value _ _ (.tail _ (.tail _ (.tail _ (.head _)))) c5
  by_cases c6 : ty = P "StrProperty"
  · exact value _ _ (.tail _ (.tail _ (.tail _ (.tail _ (.head _))))) c6
  by_cases c7 : ty = P "NameProperty"
  · exact value _ _ (.tail _ (.tail _ (.tail _ (.tail _ (.tail _ (.head _)))))) c7
  unfold rPlainBody at h
  rw [if_neg c1, if_neg c2, if_neg c3, if_neg c4, if_neg c5, if_neg c6, if_neg c7] at h
  by_cases c8 : ty = P "EnumProperty"
  · subst c8
    rw [if_pos rfl] at h
    unfold rEnum at h
    obtain ⟨et, s1, h1, h⟩ := r_bind_inv h
    obtain ⟨id, s2, h2, h⟩ := r_bind_inv h
    obtain ⟨ev, s3, h3, h⟩ := r_bind_inv h
    obtain ⟨rfl, rfl⟩ := r_pure_inv h
    exact ⟨_, .enum ((rStr_reads _ _ _).1 h1) ((rOptGuid_reads _ _ _).1 h2) ((rStr_reads _ _ _).1 h3), rfl⟩
  rw [if_neg c8] at h
  by_cases c9 : ty = P "BoolProperty"
  · subst c9
    rw [if_pos rfl] at h
    unfold rBoolProp at h
    obtain ⟨b, s1, h1, h⟩ := r_bind_inv h
    obtain ⟨id, s2, h2, h⟩ := r_bind_inv h
    obtain ⟨rfl, rfl⟩ := r_pure_inv h
    have h1' : (do let b ← rBool; return .bool b : R Val) s = .ok (.bool b, s1) := by rw [r_bind_ok h1]; rfl
    exact ⟨_, .bool ((rBoolVal_reads _ _ _).1 h1') ((rOptGuid_reads _ _ _).1 h2), rfl⟩
  rw [if_neg c9] at h
  by_cases c10 : ty = P "ArrayProperty"
  · subst c10
    rw [if_pos rfl] at h
    unfold rArrayProp rArrayProperty at h
    obtain ⟨at_, s1, h1, h⟩ := r_bind_inv h
    obtain ⟨id, s2, h2, h⟩ := r_bind_inv h
    obtain ⟨w, s3, h3, h⟩ := r_bind_inv h
    obtain ⟨rfl, rfl⟩ := r_pure_inv h
    obtain ⟨n, s4, h4, h3⟩ := r_bind_inv h3
    rw [rFString_iff] at h1
    rw [rOptGuid_reads] at h2
    have h4 := rUnsigned_iff.1 h4
    by_cases d1 : at_ = P "StructProperty"
    · subst d1
      rw [if_pos rfl] at h3
      obtain ⟨pn, s5, h5, h3⟩ := r_bind_inv h3
      obtain ⟨pt, s6, h6, h3⟩ := r_bind_inv h3
      obtain ⟨k, s7, h7, h3⟩ := r_bind_inv h3
      obtain ⟨tn, s8, h8, h3⟩ := r_bind_inv h3
      obtain ⟨tid, s9, h9, h3⟩ := r_bind_inv h3
      obtain ⟨b, s10, h10, h3⟩ := r_bind_inv h3
      obtain ⟨l, s11, h11, h3⟩ := r_bind_inv h3
      obtain ⟨rfl, rfl⟩ := r_pure_inv h3
      exact ⟨_, .structs h1 h2 h4 (rFString_iff.1 h5) (rFString_iff.1 h6) (rUnsigned_iff.1 h7) (rFString_iff.1 h8)
        ((rGuid_reads _ _ _).1 h9) (rRead_iff.1 h10) (structsAt_sound hr h11), rfl⟩
    · rw [if_neg d1] at h3
      obtain ⟨x, s5, h5, h3⟩ := r_bind_inv h3
      obtain ⟨rfl, rfl⟩ := r_pure_inv h3
      rcases arrayValue_other h5 with rfl | ⟨t, L, hm, rfl⟩
      · obtain ⟨e, h6⟩ := arrayValue_bytes.1 h5
        exact ⟨_, .bytes h1 h2 h4 e h6, rfl⟩
      · obtain ⟨l, h6, rfl⟩ := (arrayValue_elements hm).1 h5
        exact ⟨_, .array hm h1 h2 h4 h6, rfl⟩
  rw [if_neg c10] at h
  by_cases c11 : ty = P "MapProperty"
  · subst c11
    rw [if_pos rfl] at h
    unfold rMap at h
    obtain ⟨kt, s1, h1, h⟩ := r_bind_inv h
    obtain ⟨vt, s2, h2, h⟩ := r_bind_inv h
    obtain ⟨id, s3, h3, h⟩ := r_bind_inv h
    obtain ⟨z, s4, h4, h⟩ := r_bind_inv h
    obtain ⟨n, s5, h5, h⟩ := r_bind_inv h
    obtain ⟨l, s6, h6, h⟩ := r_bind_inv h
    obtain ⟨rfl, rfl⟩ := r_pure_inv h
    rw [under_key, under_value] at h6
    have := entriesAt_sound hr h6
    refine ⟨_, .map (rFString_iff.1 h1) (rFString_iff.1 h2) ((rOptGuid_reads _ _ _).1 h3) (rUnsigned_iff.1 h4)
      (rUnsigned_iff.1 h5) rfl rfl this, ?_⟩
    simp only [under_key, under_value]
    rfl
  rw [if_neg c11] at h
  cases h

end sound

/-! ### The reader with the custom decoders cut off

`rPropertyE` is `rProperty` with a separate reader for the lists embedded in blobs. -/

def rPropertyE (cfg : Cfg) (rec : PyStr → R Val) (emb : R Val) (ty : PyStr) (size : Nat) (path : PyStr) : R Val :=
  match cfg.custom path with
  | none => rPlain cfg rec ty size path
  | some c =>
    if ty = P c.propType then do
      let v ← rPlain cfg rec ty size path
      let v ← rLift (c.post cfg.allowNan emb v)
      let v ← rLift (v.set (P "custom_type") (.str path))
      rLift (v.set (P "type") (.str ty))
    else rFail (.exc "Expected property type")

theorem rProperty_eqE (cfg : Cfg) (rec : PyStr → R Val) (ty : PyStr) (size : Nat) (path : PyStr) :
    rProperty cfg rec ty size path = rPropertyE cfg rec (rec []) ty size path := rfl

theorem ok_propertyE {K : Nat} (cfg : Cfg) {rec rec' : PyStr → R Val} (hr : OkRec K K rec rec') {emb : R Val} (he : Ok K K emb emb)
    (ty : PyStr) (size : Nat) (path : PyStr) :
    Ok K K (rPropertyE cfg rec emb ty size path) (rPropertyE cfg rec' emb ty size path) := by
  unfold rPropertyE
  cases cfg.custom path with
  | none => exact ok_plain cfg hr (Nat.le_refl _) ty size path
  | some c =>
    simp only
    refine ok_ite (fun _ => ?_) fun _ => ok_fail nofun
    refine ok_bind (ok_plain cfg hr (Nat.le_refl _) ty size path) fun v hv => ?_
    refine ok_bind (ok_liftV (okv_post c _ he) hv) fun w hw => ?_
    refine ok_bind (ok_lift (set_fuel _ _ _) fun x hx => ?_) fun x hx =>
      ok_lift (set_fuel _ _ _) fun y hy => ?_
    · exact set_lim hw (by simp only [Lim]) (fun e => absurd ((P_inj _ _).1 e) (by decide)) hx
    · exact set_lim hx (by simp only [Lim]) (fun e => absurd ((P_inj _ _).1 e) (by decide)) hy

def loopE (cfg : Cfg) : Nat → PyStr → Dict → R Val
  | 0, _, _ => rFail .fuel
  | n + 1, path, acc => do
    let name ← rFString
    if name = P "None" then return .dict acc
    else
      let ty ← rFString
      let size ← rU64
      let v ← rPropertyE cfg (fun p => loopE cfg n p []) (readList cfg []) ty size (path ++ dot ++ name)
      loopE cfg n path (dset acc name v)

theorem loopE_dict (cfg : Cfg) : ∀ (n : Nat) (path : PyStr) (acc : Dict) (s : Bytes) (v : Val) (s' : Bytes),
    loopE cfg n path acc s = .ok (v, s') → ∃ d, v = .dict d
  | 0, _, _, _, _, _, h => by cases h
  | n + 1, path, acc, s, v, s', h => by
    unfold loopE at h
    obtain ⟨name, s1, -, h⟩ := r_bind_inv h
    split at h
    · obtain ⟨rfl, -⟩ := r_pure_inv h; exact ⟨acc, rfl⟩
    · obtain ⟨ty, s2, -, h⟩ := r_bind_inv h
      obtain ⟨size, s3, -, h⟩ := r_bind_inv h
      obtain ⟨w, s4, -, h⟩ := r_bind_inv h
      exact loopE_dict cfg n path _ s4 v s' h

theorem loopE_eq (cfg : Cfg) : ∀ (n : Nat) (path : PyStr) (acc : Dict) (s : Bytes), s.length < n →
    loopE cfg n path acc s = readLoop cfg path acc s
  | 0, _, _, _, h => by omega
  | n + 1, path, acc, s, h => by
    rw [readLoop_fix, loopE]
    cases h1 : rFString s with
    | error e => rw [r_bind_error h1, r_bind_error h1]
    | ok q =>
      obtain ⟨name, s1⟩ := q
      rw [r_bind_ok h1, r_bind_ok h1]
      have hc := fstring_consumes h1
      by_cases hn : name = P "None"
      · rw [if_pos hn, if_pos hn]
      · rw [if_neg hn, if_neg hn]
        have hrec : OkRec s1.length s1.length (fun p => loopE cfg n p []) (readList cfg) := by
          refine ⟨fun p s hs => ?_, fun p s v s' h' => ?_⟩
          · have e : loopE cfg n p [] s = readList cfg p s := loopE_eq cfg n p [] s (by omega)
            obtain ⟨-, g2, g3⟩ := readList_ok' cfg p s1.length s hs
            rw [← e] at g2 g3
            exact ⟨e, g2, g3⟩
          · exact loopE_dict cfg n p [] s v s' h'
        have key : Ok s1.length s1.length (do
            let ty ← rFString
            let size ← rU64
            let v ← rPropertyE cfg (fun p => loopE cfg n p []) (readList cfg []) ty size (path ++ dot ++ name)
            return v : R Val) (do
            let ty ← rFString
            let size ← rU64
            let v ← rProperty cfg (readList cfg) ty size (path ++ dot ++ name)
            return v : R Val) :=
          ok_bind ok_fstring fun ty _ => ok_bind ok_u64 fun size _ =>
            ok_propertyE cfg hrec (readList_ok' cfg [] _) _ _ _
        obtain ⟨k1, -, k3⟩ := key s1 (Nat.le_refl _)
        have e : ∀ (f : PyStr → Nat → R Val) (g : Val → R Val), (do
            let ty ← rFString
            let size ← rU64
            let v ← f ty size
            g v : R Val) = ((do
            let ty ← rFString
            let size ← rU64
            let v ← f ty size
            return v : R Val) >>= g) := by
          intro r g
          simp only [bind_assoc]
        rw [e, e]
        cases h2 : (do
            let ty ← rFString
            let size ← rU64
            let v ← rPropertyE cfg (fun p => loopE cfg n p []) (readList cfg []) ty size (path ++ dot ++ name)
            return v : R Val) s1 with
        | error x => rw [r_bind_error h2, r_bind_error (k1 ▸ h2)]
        | ok q =>
          obtain ⟨v, s2⟩ := q
          obtain ⟨⟨c, hc2⟩, -⟩ := k3 v s2 h2
          rw [r_bind_ok h2, r_bind_ok (k1 ▸ h2)]
          exact loopE_eq cfg n path _ s2 (by have := congrArg List.length hc2; rw [List.length_append] at this; omega)

theorem bodyAt_noType {cfg : Cfg} {D : CodecId → Val → Val → Prop} {ty : PyStr} {size : Nat} {path : PyStr} {s rest : Bytes}
    {es : List (String × Val)} (h : BodyAt cfg D ty size path s es rest) : ∀ e ∈ es, e.1 ≠ "type" := by
  cases h <;> simp

theorem set_type {es : List (String × Val)} (h : ∀ e ∈ es, e.1 ≠ "type") (v : Val) :
    (vDict es).set (P "type") v = .ok (vDict (es ++ [("type", v)])) := by
  unfold vDict Val.set
  simp only
  rw [dget_none_dset]
  · simp
  · intro e he
    obtain ⟨x, hx, rfl⟩ := List.mem_map.1 he
    exact pne (h x hx)

/-- The custom decoders show what `D` says, reading embedded lists as lists of their own. -/
def Decodes (cfg : Cfg) (D : CodecId → Val → Val → Prop) : Prop :=
  ∀ path c, cfg.custom path = some c → ∀ v w, D c v w ↔ c.post cfg.allowNan (readList cfg []) v = .ok w

theorem plain_iff {cfg : Cfg} {rec : PyStr → R Val} {ty : PyStr} {size : Nat} {path : PyStr} {s rest : Bytes} {v : Val} :
    rPlain cfg rec ty size path s = .ok (v, rest) ↔
      ∃ w, rPlainBody cfg rec ty size path s = .ok (w, rest) ∧ w.set (P "type") (.str ty) = .ok v := by
  unfold rPlain
  simp only [r_bind_iff, rLift_iff]
  constructor
  · rintro ⟨w, s', h1, h2, rfl⟩; exact ⟨w, h1, h2⟩
  · rintro ⟨w, h1, h2⟩; exact ⟨w, rest, h1, h2, rfl⟩

theorem loopE_sound {cfg : Cfg} {D : CodecId → Val → Val → Prop} (hD : Decodes cfg D) : ∀ (n : Nat) (path : PyStr)
    (l0 : List (PyStr × Val)) (s rest : Bytes) (v : Val), loopE cfg n path (dictOf l0) s = .ok (v, rest) →
      ∃ l, ListAt cfg D path s l rest ∧ v = .dict (dictOf (l0 ++ l))
  | 0, _, _, _, _, _, h => by cases h
  | n + 1, path, l0, s, rest, v, h => by
    have hr : SoundRec cfg D (fun p => loopE cfg n p []) := by
      intro p s v rest h
      have := loopE_sound hD n p [] s rest v h
      simpa using this
    rw [loopE] at h
    obtain ⟨name, s1, h1, h⟩ := r_bind_inv h
    rw [rFString_iff] at h1
    by_cases hn : name = P "None"
    · rw [if_pos hn] at h
      obtain ⟨rfl, rfl⟩ := r_pure_inv h
      exact ⟨[], .nil (hn ▸ h1), by rw [List.append_nil]⟩
    · rw [if_neg hn] at h
      obtain ⟨ty, s2, h2, h⟩ := r_bind_inv h
      obtain ⟨size, s3, h3, h⟩ := r_bind_inv h
      obtain ⟨w, s4, h4, h⟩ := r_bind_inv h
      rw [rFString_iff] at h2
      have h3 := rUnsigned_iff.1 h3
      rw [dictOf_snoc] at h
      obtain ⟨l, hl, rfl⟩ := loopE_sound hD n path _ s4 rest v h
      refine ⟨(name, w) :: l, ?_, by rw [List.append_assoc]; rfl⟩
      unfold rPropertyE at h4
      have plain : ∀ {w s4}, rPlain cfg (fun p => loopE cfg n p []) ty size (path ++ dot ++ name) s3 = .ok (w, s4) →
          ∃ es, BodyAt cfg D ty size (under path name) s3 es s4 ∧ w = vDict (es ++ [("type", .str ty)]) := by
        intro w s4 h
        obtain ⟨x, h5, h6⟩ := plain_iff.1 h
        obtain ⟨es, h7, rfl⟩ := bodyAt_sound hr h5
        rw [set_type (bodyAt_noType h7)] at h6
        cases h6
        exact ⟨es, h7, rfl⟩
      cases hc : cfg.custom (path ++ dot ++ name) with
      | none =>
        rw [hc] at h4
        obtain ⟨es, h5, rfl⟩ := plain h4
        exact .plain h1 hn h2 h3 hc h5 hl
      | some c =>
        rw [hc] at h4
        simp only at h4
        by_cases ht : ty = P c.propType
        · subst ht
          rw [if_pos rfl] at h4
          obtain ⟨x, s5, h5, h4a⟩ := r_bind_inv h4
          clear h4
          obtain ⟨y, s6, h6, h4b⟩ := r_bind_inv h4a
          clear h4a
          obtain ⟨h6', rfl⟩ := rLift_inv h6
          obtain ⟨z, s7, h7, h4⟩ := r_bind_inv h4b
          clear h4b
          obtain ⟨h7, rfl⟩ := rLift_inv h7
          obtain ⟨h8, rfl⟩ := rLift_inv h4
          obtain ⟨es, h9, rfl⟩ := plain h5
          have h6 := (hD _ _ hc _ _).2 h6'
          cases y with
          | dict d =>
            cases h7
            cases h8
            exact .custom h1 hn h2 h3 hc h9 h6 hl
          | _ => cases h7
        · rw [if_neg ht] at h4; cases h4

theorem rU32_iff {s rest : Bytes} {n : Nat} : rU32 s = .ok (n, rest) ↔ Unsigned 4 s n rest := rUnsigned_iff
theorem rU64_iff {s rest : Bytes} {n : Nat} : rU64 s = .ok (n, rest) ↔ Unsigned 8 s n rest := rUnsigned_iff

/-! ### Completeness -/

theorem plainProp_ok {cfg : Cfg} {rec : PyStr → R Val} {ty : PyStr} {size : Nat} {path name : PyStr} {s rest : Bytes}
    {es : List (String × Val)} (hc : cfg.custom (under path name) = none) (ht : ∀ e ∈ es, e.1 ≠ "type")
    (h : rPlainBody cfg rec ty size (under path name) s = .ok (vDict es, rest)) :
    rProperty cfg rec ty size (path ++ dot ++ name) s = .ok (vDict (es ++ [("type", .str ty)]), rest) := by
  have hc : cfg.custom (path ++ dot ++ name) = none := hc
  unfold rProperty
  rw [hc]
  exact plain_iff.2 ⟨_, h, set_type ht _⟩

theorem customProp_ok {cfg : Cfg} {rec : PyStr → R Val} {c : CodecId} {size : Nat} {path name : PyStr} {s rest : Bytes}
    {es : List (String × Val)} {d : Dict} (hc : cfg.custom (under path name) = some c) (ht : ∀ e ∈ es, e.1 ≠ "type")
    (h : rPlainBody cfg rec (P c.propType) size (under path name) s = .ok (vDict es, rest))
    (hd : c.post cfg.allowNan (rec []) (vDict (es ++ [("type", .str (P c.propType))])) = .ok (.dict d)) :
    rProperty cfg rec (P c.propType) size (path ++ dot ++ name) s =
      .ok (.dict (dset (dset d (P "custom_type") (.str (under path name))) (P "type") (.str (P c.propType))), rest) := by
  have hc : cfg.custom (path ++ dot ++ name) = some c := hc
  unfold rProperty
  rw [hc]
  simp only
  refine (r_bind_ok (plain_iff.2 ⟨_, h, set_type ht _⟩) _).trans ?_
  refine (r_bind_ok (rLift_iff.2 ⟨hd, rfl⟩) _).trans ?_
  exact (r_bind_ok (rLift_iff.2 ⟨rfl, rfl⟩) _).trans rfl


section complete
set_option linter.unusedSectionVars false
variable {cfg : Cfg} {D : CodecId → Val → Val → Prop} (hD : Decodes cfg D)
include hD

mutual
theorem structAt_read : ∀ {st path : PyStr} {s rest : Bytes} {v : Val}, StructAt cfg D st path s v rest →
    rStructValue cfg.allowNan (readList cfg) st path s = .ok (v, rest)
  | _, _, _, _, _, .fixed h1 h2 => (structFixed_reads h1 _ _ _).2 h2
  | _, _, _, _, _, .list h1 h2 => by
    rw [structList_eq h1]
    exact listAt_read h2 []
theorem entryAt_read : ∀ {ty st path : PyStr} {s rest : Bytes} {v : Val}, EntryAt cfg D ty st path s v rest →
    rPropValue cfg.allowNan (readList cfg) ty st path s = .ok (v, rest)
  | _, _, _, _, _, _, .struct h1 => by
    unfold rPropValue
    rw [if_pos rfl]
    exact structAt_read h1
  | _, _, _, _, _, _, .plain h1 h2 => (entry_reads h1 _ _ _).2 h2
theorem structsAt_read : ∀ {st path : PyStr} {n : Nat} {s rest : Bytes} {l : List Val}, StructsAt cfg D st path n s l rest →
    rRepeat (rStructValue cfg.allowNan (readList cfg) st path) n s = .ok (l, rest)
  | _, _, _, _, _, _, .nil => rfl
  | _, _, _, _, _, _, .cons h1 h2 => by
    rw [rRepeat, r_bind_ok (structAt_read h1), r_bind_ok (structsAt_read h2)]; rfl
theorem entriesAt_read : ∀ {kt ks vt vs kp vp : PyStr} {n : Nat} {s rest : Bytes} {l : List Val},
    EntriesAt cfg D kt ks vt vs kp vp n s l rest →
    rRepeat (rMapEntry cfg.allowNan (readList cfg) kt ks vt vs kp vp) n s = .ok (l, rest)
  | _, _, _, _, _, _, _, _, _, _, .nil => rfl
  | _, _, _, _, _, _, _, _, _, _, .cons h1 h2 h3 => by
    rw [rRepeat]
    refine (r_bind_ok ?_ _).trans (r_bind_ok (entriesAt_read h3) _)
    unfold rMapEntry
    rw [r_bind_ok (entryAt_read h1), r_bind_ok (entryAt_read h2)]; rfl
theorem bodyAt_read : ∀ {ty : PyStr} {size : Nat} {path : PyStr} {s rest : Bytes} {es : List (String × Val)},
    BodyAt cfg D ty size path s es rest → rPlainBody cfg (readList cfg) ty size path s = .ok (vDict es, rest)
  | _, _, _, _, _, _, .value h1 h2 h3 => by
    obtain ⟨x, hx, e⟩ := plainBody_value h1
    rw [e]
    exact (rIdValue_iff hx).2 ⟨_, _, _, h2, h3, rfl⟩
  | _, _, _, _, _, _, .enum h1 h2 h3 => by
    have e : ∀ size path, rPlainBody cfg (readList cfg) (P "EnumProperty") size path = rEnum := by
      intro size path; unfold rPlainBody; simp [P_inj]
    rw [e, rEnum, r_bind_ok ((rStr_reads _ _ _).2 h1), r_bind_ok ((rOptGuid_reads _ _ _).2 h2),
      r_bind_ok ((rStr_reads _ _ _).2 h3)]; rfl
  | _, _, _, _, _, _, .bool h1 h2 => by
    have e : ∀ size path, rPlainBody cfg (readList cfg) (P "BoolProperty") size path = rBoolProp := by
      intro size path; unfold rPlainBody; simp [P_inj]
    obtain ⟨b, s1, h3, h4⟩ := r_bind_inv ((rBoolVal_reads _ _ _).2 h1)
    obtain ⟨rfl, rfl⟩ := r_pure_inv h4
    rw [e, rBoolProp, r_bind_ok h3, r_bind_ok ((rOptGuid_reads _ _ _).2 h2)]; rfl
  | _, _, _, _, _, _, .struct h1 h2 h3 h4 => by
    have e : ∀ size path, rPlainBody cfg (readList cfg) (P "StructProperty") size path = rStruct cfg.allowNan (readList cfg) path := by
      intro size path; unfold rPlainBody; simp [P_inj]
    rw [e, rStruct, r_bind_ok (rFString_iff.2 h1), r_bind_ok ((rGuid_reads _ _ _).2 h2),
      r_bind_ok ((rOptGuid_reads _ _ _).2 h3), r_bind_ok (structAt_read h4)]; rfl
  | _, _, _, _, _, _, .array h0 h1 h2 h3 h4 => by
    have e : ∀ size path, rPlainBody cfg (readList cfg) (P "ArrayProperty") size path = rArrayProp cfg.allowNan (readList cfg) size path := by
      intro size path; unfold rPlainBody; simp [P_inj]
    have hne : P _ ≠ P "StructProperty" := pne (elementLayouts_ne h0)
    rw [e, rArrayProp, r_bind_ok (rFString_iff.2 h1), r_bind_ok ((rOptGuid_reads _ _ _).2 h2)]
    refine (r_bind_ok (a := vDict _) ?_ _).trans rfl
    rw [rArrayProperty, r_bind_ok (rU32_iff.2 h3), if_neg hne, r_bind_ok ((arrayValue_elements h0).2 ⟨_, h4, rfl⟩)]
    rfl
  | _, _, _, _, _, _, .bytes h1 h2 h3 h4 h5 => by
    have e : ∀ size path, rPlainBody cfg (readList cfg) (P "ArrayProperty") size path = rArrayProp cfg.allowNan (readList cfg) size path := by
      intro size path; unfold rPlainBody; simp [P_inj]
    rw [e, rArrayProp, r_bind_ok (rFString_iff.2 h1), r_bind_ok ((rOptGuid_reads _ _ _).2 h2)]
    refine (r_bind_ok (a := vDict _) ?_ _).trans rfl
    rw [rArrayProperty, r_bind_ok (rU32_iff.2 h3), if_neg (pne (by decide)), r_bind_ok (arrayValue_bytes.2 ⟨h4, h5⟩)]
    rfl
  | _, _, _, _, _, _, .structs h1 h2 h3 h4 h5 h6 h7 h8 h9 h10 => by
    have e : ∀ size path, rPlainBody cfg (readList cfg) (P "ArrayProperty") size path = rArrayProp cfg.allowNan (readList cfg) size path := by
      intro size path; unfold rPlainBody; simp [P_inj]
    rw [e, rArrayProp, r_bind_ok (rFString_iff.2 h1), r_bind_ok ((rOptGuid_reads _ _ _).2 h2)]
    refine (r_bind_ok (a := vDict _) ?_ _).trans rfl
    rw [rArrayProperty, r_bind_ok (rU32_iff.2 h3), if_pos rfl, r_bind_ok (rFString_iff.2 h4),
      r_bind_ok (rFString_iff.2 h5), r_bind_ok (rU64_iff.2 h6), r_bind_ok (rFString_iff.2 h7),
      r_bind_ok ((rGuid_reads _ _ _).2 h8), r_bind_ok (rRead_iff.2 h9)]
    exact (r_bind_ok (structsAt_read h10) _).trans rfl
  | _, _, _, _, _, _, .map h1 h2 h3 h4 h5 hk hv h6 => by
    have e : ∀ size path, rPlainBody cfg (readList cfg) (P "MapProperty") size path = rMap cfg (readList cfg) path := by
      intro size path; unfold rPlainBody; simp [P_inj]
    have ih := entriesAt_read h6
    subst hk hv
    rw [e, rMap, r_bind_ok (rFString_iff.2 h1), r_bind_ok (rFString_iff.2 h2), r_bind_ok ((rOptGuid_reads _ _ _).2 h3),
      r_bind_ok (rU32_iff.2 h4), r_bind_ok (rU32_iff.2 h5)]
    simp only [under_key, under_value]
    exact (r_bind_ok ih _).trans rfl
theorem listAt_read : ∀ {path : PyStr} {s rest : Bytes} {l : List (PyStr × Val)}, ListAt cfg D path s l rest →
    ∀ l0, readLoop cfg path (dictOf l0) s = .ok (.dict (dictOf (l0 ++ l)), rest)
  | _, _, _, _, .nil h1, l0 => by
    rw [readLoop_fix, r_bind_ok (rFString_iff.2 h1), if_pos rfl, List.append_nil]; rfl
  | _, _, _, _, .plain h1 hn h2 h3 hc h4 h5, l0 => by
    rw [readLoop_fix, r_bind_ok (rFString_iff.2 h1), if_neg hn, r_bind_ok (rFString_iff.2 h2), r_bind_ok (rU64_iff.2 h3)]
    refine (r_bind_ok (plainProp_ok hc (bodyAt_noType h4) (bodyAt_read h4)) _).trans ?_
    · rw [dictOf_snoc, listAt_read h5, List.append_assoc]; rfl
  | _, _, _, _, .custom h1 hn h2 h3 hc h4 hd h5, l0 => by
    rw [readLoop_fix, r_bind_ok (rFString_iff.2 h1), if_neg hn, r_bind_ok (rFString_iff.2 h2), r_bind_ok (rU64_iff.2 h3)]
    refine (r_bind_ok (customProp_ok hc (bodyAt_noType h4) (bodyAt_read h4) ((hD _ _ hc _ _).1 hd)) _).trans ?_
    · rw [dictOf_snoc, listAt_read h5, List.append_assoc]; rfl
end

end complete

/-- A property list is read as what its bytes say. -/
theorem readList_iff {cfg : Cfg} {D : CodecId → Val → Val → Prop} (hD : Decodes cfg D) {path : PyStr} {s rest : Bytes}
    {v : Val} : readList cfg path s = .ok (v, rest) ↔ ∃ l, ListAt cfg D path s l rest ∧ v = .dict (dictOf l) := by
  constructor
  · intro h
    have h' : readLoop cfg path (dictOf []) s = .ok (v, rest) := h
    rw [← loopE_eq cfg (s.length + 1) path _ s (Nat.lt_succ_self _)] at h'
    obtain ⟨l, h1, h2⟩ := loopE_sound hD _ path [] s rest v h'
    exact ⟨l, h1, by simpa using h2⟩
  · rintro ⟨l, h, rfl⟩
    have := listAt_read hD h []
    rw [List.nil_append] at this
    exact this

/-! ### The header -/

theorem customVersion_reads : Reads customVersionDecode (Layout.pair .guid (.i 4)) := by
  intro s v rest
  unfold customVersionDecode Layout.pair Layout.i
  simp only [r_bind_iff, r_pure_iff, rGuid_reads _ _ _, rI32_iff]
  constructor
  · rintro ⟨g, s1, h1, i, s2, h2, rfl, rfl⟩; exact ⟨g, s1, .int i, h1, ⟨i, h2, rfl⟩, rfl⟩
  · rintro ⟨g, s1, b, h1, ⟨i, h2, rfl⟩, rfl⟩; exact ⟨g, s1, h1, i, rest, h2, rfl, rfl⟩

/-- The header without its checks. -/
def hdrRaw : R Val :=
  rRecord [("magic", rIV 4), ("save_game_version", rIV 4), ("package_file_version_ue4", rIV 4),
    ("package_file_version_ue5", rIV 4), ("engine_version_major", rUV 2), ("engine_version_minor", rUV 2),
    ("engine_version_patch", rUV 2), ("engine_version_changelist", rUV 4), ("engine_version_branch", rStr),
    ("custom_version_format", rIV 4), ("custom_versions", rTArray customVersionDecode),
    ("save_game_class_name", rStr)]

theorem hdrRaw_reads : Reads hdrRaw headerLayout :=
  rRecord_reads (.cons (rIV_reads (by decide)) <| .cons (rIV_reads (by decide)) <| .cons (rIV_reads (by decide)) <|
    .cons (rIV_reads (by decide)) <| .cons (rUV_reads _) <| .cons (rUV_reads _) <| .cons (rUV_reads _) <|
    .cons (rUV_reads _) <| .cons rStr_reads <| .cons (rIV_reads (by decide)) <|
    .cons (rTArray_reads customVersion_reads) <| .cons rStr_reads .nil)

theorem hdrDump_inj {a b : Hdr} (h : a.dump = b.dump) : a = b := by
  cases a; cases b
  simp only [Hdr.dump, dct, Val.dict.injEq, List.map_cons, List.map_nil, List.cons.injEq, Prod.mk.injEq, true_and,
    and_true] at h
  simp only [Hdr.mk.injEq]
  exact h

theorem hdr_bind {x : R Int} {f : Int → R Hdr} {s rest : Bytes} {h : Hdr} :
    (x >>= f) s = .ok (h, rest) ↔ ∃ i s', x s = .ok (i, s') ∧ f i s' = .ok (h, rest) := r_bind_iff

theorem hdrRead_iff {s rest : Bytes} {h : Hdr} :
    hdrRead s = .ok (h, rest) ↔ hdrRaw s = .ok (h.dump, rest) ∧ h.magic = .int 0x53415647 ∧ h.saveGameVersion = .int 3 ∧
      h.customFormat = .int 3 := by
  constructor
  · intro hh
    unfold hdrRead at hh
    obtain ⟨x1, s1, h1, hh⟩ := r_bind_inv hh
    by_cases e1 : x1 = 0x53415647
    swap
    · rw [if_pos e1] at hh; cases hh
    rw [if_neg (by simpa using e1)] at hh
    obtain ⟨x2, s2, h2, hh⟩ := r_bind_inv hh
    by_cases e2 : x2 = 3
    swap
    · rw [if_pos e2] at hh; cases hh
    rw [if_neg (by simpa using e2)] at hh
    obtain ⟨x3, s3, h3, hh⟩ := r_bind_inv hh
    obtain ⟨x4, s4, h4, hh⟩ := r_bind_inv hh
    obtain ⟨x5, s5, h5, hh⟩ := r_bind_inv hh
    obtain ⟨x6, s6, h6, hh⟩ := r_bind_inv hh
    obtain ⟨x7, s7, h7, hh⟩ := r_bind_inv hh
    obtain ⟨x8, s8, h8, hh⟩ := r_bind_inv hh
    obtain ⟨x9, s9, h9, hh⟩ := r_bind_inv hh
    obtain ⟨x10, s10, h10, hh⟩ := r_bind_inv hh
    by_cases e3 : x10 = 3
    swap
    · rw [if_pos e3] at hh; cases hh
    rw [if_neg (by simpa using e3)] at hh
    obtain ⟨x11, s11, h11, hh⟩ := r_bind_inv hh
    obtain ⟨x12, s12, h12, hh⟩ := r_bind_inv hh
    obtain ⟨rfl, rfl⟩ := r_pure_inv hh
    refine ⟨?_, by rw [e1], by rw [e2], by rw [e3]⟩
    unfold hdrRaw rRecord
    simp only [rFields, bind_assoc, pure_bind, rIV, rUV]
    rw [r_bind_ok (show rSigned 4 _ = _ from h1), r_bind_ok (show rSigned 4 _ = _ from h2),
      r_bind_ok (show rSigned 4 _ = _ from h3), r_bind_ok (show rSigned 4 _ = _ from h4),
      r_bind_ok (show rUnsigned 2 _ = _ from h5), r_bind_ok (show rUnsigned 2 _ = _ from h6),
      r_bind_ok (show rUnsigned 2 _ = _ from h7), r_bind_ok (show rUnsigned 4 _ = _ from h8), r_bind_ok h9,
      r_bind_ok (show rSigned 4 _ = _ from h10), r_bind_ok h11, r_bind_ok h12]
    rfl
  · rintro ⟨hh, e1, e2, e3⟩
    unfold hdrRaw rRecord at hh
    simp only [rFields, bind_assoc, pure_bind, rIV, rUV] at hh
    obtain ⟨x1, s1, h1, hh⟩ := r_bind_inv hh
    obtain ⟨x2, s2, h2, hh⟩ := r_bind_inv hh
    obtain ⟨x3, s3, h3, hh⟩ := r_bind_inv hh
    obtain ⟨x4, s4, h4, hh⟩ := r_bind_inv hh
    obtain ⟨x5, s5, h5, hh⟩ := r_bind_inv hh
    obtain ⟨x6, s6, h6, hh⟩ := r_bind_inv hh
    obtain ⟨x7, s7, h7, hh⟩ := r_bind_inv hh
    obtain ⟨x8, s8, h8, hh⟩ := r_bind_inv hh
    obtain ⟨x9, s9, h9, hh⟩ := r_bind_inv hh
    obtain ⟨x10, s10, h10, hh⟩ := r_bind_inv hh
    obtain ⟨x11, s11, h11, hh⟩ := r_bind_inv hh
    obtain ⟨x12, s12, h12, hh⟩ := r_bind_inv hh
    obtain ⟨he, rfl⟩ := r_pure_inv hh
    have he := hdrDump_inj (a := h) (b := ⟨.int x1, .int x2, .int x3, .int x4, .int x5, .int x6, .int x7, .int x8, x9,
      .int x10, x11, x12⟩) he
    subst he
    simp only [Val.int.injEq] at e1 e2 e3
    subst e1 e2 e3
    unfold hdrRead
    rw [r_bind_ok (show rI32 _ = _ from h1), if_neg (by simp), r_bind_ok (show rI32 _ = _ from h2), if_neg (by simp),
      r_bind_ok (show rI32 _ = _ from h3), r_bind_ok (show rI32 _ = _ from h4),
      r_bind_ok (show rU16 _ = _ from h5), r_bind_ok (show rU16 _ = _ from h6),
      r_bind_ok (show rU16 _ = _ from h7), r_bind_ok (show rU32 _ = _ from h8), r_bind_ok h9,
      r_bind_ok (show rI32 _ = _ from h10), if_neg (by simp), r_bind_ok h11, r_bind_ok h12]
    rfl

theorem fields_keys {t : List (String × Layout)} {s rest : Bytes} {l : List (String × Val)} (h : Layout.fields t s l rest) :
    l.map Prod.fst = t.map Prod.fst := by
  induction t generalizing s l with
  | nil => obtain ⟨rfl, -⟩ := h; rfl
  | cons e t ih =>
    obtain ⟨v, s', l', -, h2, rfl⟩ := h
    simp [ih h2]

/-- Every header record is the dump of a header. -/
theorem headerLayout_dump {s rest : Bytes} {v : Val} (h : headerLayout s v rest) : ∃ hd : Hdr, v = hd.dump := by
  obtain ⟨l, h, rfl⟩ := h
  obtain ⟨x1, _, _, -, h, rfl⟩ := h
  obtain ⟨x2, _, _, -, h, rfl⟩ := h
  obtain ⟨x3, _, _, -, h, rfl⟩ := h
  obtain ⟨x4, _, _, -, h, rfl⟩ := h
  obtain ⟨x5, _, _, -, h, rfl⟩ := h
  obtain ⟨x6, _, _, -, h, rfl⟩ := h
  obtain ⟨x7, _, _, -, h, rfl⟩ := h
  obtain ⟨x8, _, _, -, h, rfl⟩ := h
  obtain ⟨x9, _, _, -, h, rfl⟩ := h
  obtain ⟨x10, _, _, -, h, rfl⟩ := h
  obtain ⟨x11, _, _, -, h, rfl⟩ := h
  obtain ⟨x12, _, _, -, h, rfl⟩ := h
  obtain ⟨rfl, -⟩ := h
  exact ⟨⟨x1, x2, x3, x4, x5, x6, x7, x8, x9, x10, x11, x12⟩, rfl⟩

theorem dump_magic (h : Hdr) : h.dump.get (P "magic") = .ok h.magic := by
  simp only [Hdr.dump, dct_eq, get_vDict_cons, String.reduceEq, if_true, if_false]
theorem dump_version (h : Hdr) : h.dump.get (P "save_game_version") = .ok h.saveGameVersion := by
  simp only [Hdr.dump, dct_eq, get_vDict_cons, String.reduceEq, if_true, if_false]
theorem dump_format (h : Hdr) : h.dump.get (P "custom_version_format") = .ok h.customFormat := by
  simp only [Hdr.dump, dct_eq, get_vDict_cons, String.reduceEq, if_true, if_false]

/-- A file is read as what its bytes say. -/
theorem gvasRead_iff {cfg : Cfg} {D : CodecId → Val → Val → Prop} (hD : Decodes cfg D) {data : Bytes} {g : Gvas} :
    gvasRead cfg data = .ok g ↔
      ∃ l, FileAt cfg D data g.header.dump l g.trailer ∧ g.properties = .dict (dictOf l) := by
  have key : gvasRead cfg data = .ok g ↔ ∃ s, hdrRead data = .ok (g.header, s) ∧ readList cfg [] s = .ok (g.properties, g.trailer) := by
    unfold gvasRead gvasReadR
    constructor
    · intro h
      split at h
      · rename_i g' s' hr
        cases h
        obtain ⟨hd, s, h1, hr⟩ := r_bind_inv hr
        obtain ⟨p, s2, h2, hr⟩ := r_bind_inv hr
        obtain ⟨t, s3, h3, hr⟩ := r_bind_inv hr
        obtain ⟨rfl, rfl⟩ := r_pure_inv hr
        cases h3
        refine ⟨s, h1, ?_⟩
        obtain ⟨⟨c, e⟩, -⟩ := grow_hdr _ _ _ h1
        exact (readLoop_eq cfg [] [] (by rw [e, List.length_append]; omega)).symm.trans h2
      · cases h
    · rintro ⟨s, h1, h2⟩
      obtain ⟨⟨c, e⟩, -⟩ := grow_hdr _ _ _ h1
      have h2 : rProps cfg (data.length + 1) [] s = .ok (g.properties, g.trailer) :=
        (readLoop_eq cfg [] [] (by rw [e, List.length_append]; omega)).trans h2
      rw [r_bind_ok h1, r_bind_ok h2]
      rfl
  rw [key]
  constructor
  · rintro ⟨s, h1, h2⟩
    obtain ⟨h3, e1, e2, e3⟩ := hdrRead_iff.1 h1
    obtain ⟨l, h4, h5⟩ := (readList_iff hD).1 h2
    exact ⟨l, ⟨⟨s, (hdrRaw_reads _ _ _).1 h3, h4⟩, by rw [dump_magic, e1], by rw [dump_version, e2], by rw [dump_format, e3]⟩, h5⟩
  · rintro ⟨l, ⟨⟨s, h1, h2⟩, e1, e2, e3⟩, h3⟩
    rw [dump_magic] at e1
    rw [dump_version] at e2
    rw [dump_format] at e3
    refine ⟨s, hdrRead_iff.2 ⟨(hdrRaw_reads _ _ _).2 h1, ?_, ?_, ?_⟩, (readList_iff hD).2 ⟨l, h2, h3⟩⟩
    · exact Except.ok.inj e1
    · exact Except.ok.inj e2
    · exact Except.ok.inj e3

end Pal
