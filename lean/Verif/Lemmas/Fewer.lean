import Verif.Spec.Fewer
import Verif.Lemmas.Size
/-
Reading with fewer decoders: what is read with more of them is read with fewer, too.
-/

namespace Pal
namespace Fewer
open Spec Size

/-- The error that `try_read_egg` passes on. -/
abbrev eofErr : Err := .exc "Warning: EOF not reached"

/-- Where `x` succeeds, `x'` succeeds with a related value and leaves the same bytes, or fails with an error in `E`. -/
def Rel {α β : Type} (K : Nat) (E : Err → Prop) (T : α → β → Prop) (x : R α) (x' : R β) : Prop :=
  ∀ s, s.length ≤ K → ∀ v s', x s = .ok (v, s') →
    (∃ v', x' s = .ok (v', s') ∧ s'.length ≤ s.length ∧ T v v') ∨ ∃ e, x' s = .error e ∧ E e

section
variable {K : Nat} {E : Err → Prop}

theorem rel_bind {α β α' β' : Type} {x : R α} {x' : R α'} {f : α → R β} {f' : α' → R β'} {S : α → α' → Prop} {T : β → β' → Prop}
    (hx : Rel K E S x x') (hf : ∀ a a', S a a' → Rel K E T (f a) (f' a')) : Rel K E T (x >>= f) (x' >>= f') := by
  intro s hs v s' h
  obtain ⟨a, s1, h1, h2⟩ := r_bind_inv h
  rcases hx s hs a s1 h1 with ⟨a', e1, l1, ha⟩ | ⟨e, e1, he⟩
  · rcases hf a a' ha s1 (Nat.le_trans l1 hs) v s' h2 with ⟨v', e2, l2, hv⟩ | ⟨e, e2, he⟩
    · exact Or.inl ⟨v', by rw [r_bind_ok e1]; exact e2, Nat.le_trans l2 l1, hv⟩
    · exact Or.inr ⟨e, by rw [r_bind_ok e1]; exact e2, he⟩
  · exact Or.inr ⟨e, r_bind_error e1 _, he⟩

theorem rel_pure {α β : Type} {a : α} {b : β} {T : α → β → Prop} (h : T a b) : Rel K E T (pure a) (pure b) := by
  intro s _ v s' e
  cases e
  exact Or.inl ⟨b, rfl, Nat.le_refl _, h⟩

theorem rel_fail {α β : Type} {e e' : Err} {T : α → β → Prop} : Rel K E T (rFail e) (rFail e') := fun _ _ _ _ h => (nomatch h)

theorem rel_ite {α β : Type} {c : Prop} [Decidable c] {a b : R α} {a' b' : R β} {T : α → β → Prop} (h : Rel K E T a a')
    (g : Rel K E T b b') : Rel K E T (if c then a else b) (if c then a' else b') := by
  split
  · exact h
  · exact g

theorem rel_same {α : Type} {x : R α} {m : α → Nat} (h : Cost x m) : Rel K E Eq x x :=
  fun s _ v s' e => Or.inl ⟨v, e, (h s v s' e).1, rfl⟩

theorem rel_mono {α β : Type} {x : R α} {x' : R β} {S T : α → β → Prop} (h : Rel K E S x x') (hT : ∀ a b, S a b → T a b) :
    Rel K E T x x' := by
  intro s hs v s' e
  rcases h s hs v s' e with ⟨v', e1, l1, ha⟩ | h
  · exact Or.inl ⟨v', e1, l1, hT _ _ ha⟩
  · exact Or.inr h

/-- Dicts with the same keys and related values. -/
abbrev FD (T : Val → Val → Prop) (d d' : Dict) : Prop := List.Forall₂ (fun e e' => e.1 = e'.1 ∧ T e.2 e'.2) d d'

/-- A relation between documents that only looks inside. -/
structure Closed (T : Val → Val → Prop) : Prop where
  refl : ∀ v, T v v
  list : ∀ {l l'}, List.Forall₂ T l l' → T (.list l) (.list l')
  dict : ∀ {d d'}, FD T d d' → T (.dict d) (.dict d')

/-- Two dicts, related inside. -/
def DD (T : Val → Val → Prop) (v v' : Val) : Prop := ∃ d d', v = .dict d ∧ v' = .dict d' ∧ FD T d d'

theorem fd_refl {T : Val → Val → Prop} (hT : Closed T) : ∀ d, FD T d d
  | [] => .nil
  | _ :: t => .cons ⟨rfl, hT.refl _⟩ (fd_refl hT t)

theorem fd_dset {T : Val → Val → Prop} {k : PyStr} {x x' : Val} (hx : T x x') {d d' : Dict} (h : FD T d d') :
    FD T (dset d k x) (dset d' k x') := by
  induction h with
  | nil => exact .cons ⟨rfl, hx⟩ .nil
  | @cons a b t t' h1 h2 ih =>
    obtain ⟨ka, va⟩ := a
    obtain ⟨kb, vb⟩ := b
    obtain ⟨e, hv⟩ := h1
    have e : ka = kb := e
    subst e
    simp only [dset]
    split
    · exact .cons ⟨rfl, hx⟩ h2
    · exact .cons ⟨rfl, hv⟩ ih

theorem dd_dct {T : Val → Val → Prop} {l l' : List (String × Val)} (h : List.Forall₂ (fun e e' => e.1 = e'.1 ∧ T e.2 e'.2) l l') :
    DD T (dct l) (dct l') := by
  refine ⟨_, _, rfl, rfl, ?_⟩
  induction h with
  | nil => exact .nil
  | cons h1 _ ih => exact .cons ⟨congrArg P h1.1, h1.2⟩ ih

theorem dd_of {T : Val → Val → Prop} (hT : Closed T) {v v' : Val} (h : DD T v v') : T v v' := by
  obtain ⟨d, d', rfl, rfl, h⟩ := h
  exact hT.dict h

theorem rel_repeat {T : Val → Val → Prop} {x x' : R Val} (h : Rel K E T x x') : ∀ n, Rel K E (List.Forall₂ T) (rRepeat x n) (rRepeat x' n)
  | 0 => rel_pure .nil
  | n + 1 => rel_bind h fun _ _ ha => rel_bind (rel_repeat h n) fun _ _ hl => rel_pure (.cons ha hl)

end

section
variable {K : Nat} {E : Err → Prop} {T : Val → Val → Prop} (hT : Closed T) {rec rec' : PyStr → R Val} (hr : ∀ p, Rel K E T (rec p) (rec' p))
include hT hr

omit hr in
theorem rel_val {x : R Val} {m : Val → Nat} (h : Cost x m) : Rel K E T x x := rel_mono (rel_same h) fun _ _ e => e ▸ hT.refl _

theorem rel_structValue (an : Bool) (st path : PyStr) : Rel K E T (rStructValue an rec st path) (rStructValue an rec' st path) := by
  unfold rStructValue
  refine rel_ite (rel_val hT (cost_vector an)) (rel_ite (rel_bind (rel_same (cost_unsigned 8)) fun _ _ e => rel_pure (e ▸ hT.refl _))
    (rel_ite (rel_val hT cost_guid) (rel_ite (rel_val hT (cost_quat an)) (rel_ite ?_ (hr path)))))
  exact rel_bind (rel_same (cost_float an)) fun _ _ e1 => rel_bind (rel_same (cost_float an)) fun _ _ e2 =>
    rel_bind (rel_same (cost_float an)) fun _ _ e3 => rel_bind (rel_same (cost_float an)) fun _ _ e4 => rel_pure (by
      subst e1 e2 e3 e4; exact hT.refl _)

theorem rel_struct (an : Bool) (path : PyStr) : Rel K E (DD T) (rStruct an rec path) (rStruct an rec' path) :=
  rel_bind (rel_same cost_fstring) fun _ _ e1 => rel_bind (rel_same cost_guid) fun _ _ e2 => rel_bind (rel_same cost_optGuid) fun _ _ e3 => by
    subst e1 e2 e3
    exact rel_bind (rel_structValue hT hr an _ path) fun _ _ h => rel_pure (dd_dct
      (.cons ⟨rfl, hT.refl _⟩ (.cons ⟨rfl, hT.refl _⟩ (.cons ⟨rfl, hT.refl _⟩ (.cons ⟨rfl, h⟩ .nil)))))

theorem rel_propValue (an : Bool) (ty st path : PyStr) : Rel K E T (rPropValue an rec ty st path) (rPropValue an rec' ty st path) := by
  unfold rPropValue
  exact rel_ite (rel_structValue hT hr an st path) (rel_ite (rel_val hT cost_str) (rel_ite (rel_val hT cost_str)
    (rel_ite (rel_val hT cost_i32) (rel_ite (rel_bind (rel_same cost_bool) fun _ _ e => rel_pure (e ▸ hT.refl _)) rel_fail))))

theorem rel_arrayProperty (an : Bool) (at_ : PyStr) (size : Nat) (path : PyStr) :
    Rel K E T (rArrayProperty an rec at_ size path) (rArrayProperty an rec' at_ size path) := by
  refine rel_bind (rel_same (cost_unsigned 4)) fun count _ e => ?_
  subst e
  refine rel_ite ?_ ?_
  · refine rel_bind (rel_same cost_fstring) fun _ _ e1 => rel_bind (rel_same cost_fstring) fun _ _ e2 =>
      rel_bind (rel_same (cost_unsigned 8)) fun _ _ _ => rel_bind (rel_same cost_fstring) fun _ _ e4 =>
      rel_bind (rel_same cost_guid) fun _ _ e5 => rel_bind (rel_same (cost_read0 1)) fun _ _ _ => ?_
    subst e1 e2 e4 e5
    exact rel_bind (rel_repeat (rel_structValue hT hr an _ _) count) fun _ _ h => rel_pure (dd_of hT (dd_dct
      (.cons ⟨rfl, hT.refl _⟩ (.cons ⟨rfl, hT.refl _⟩ (.cons ⟨rfl, hT.list h⟩ (.cons ⟨rfl, hT.refl _⟩ (.cons ⟨rfl, hT.refl _⟩ .nil)))))))
  · exact rel_bind (rel_same (cost_arrayValue at_ count size)) fun _ _ e => rel_pure (e ▸ hT.refl _)

theorem rel_mapEntry (an : Bool) (kt ks vt vs kp vp : PyStr) :
    Rel K E T (rMapEntry an rec kt ks vt vs kp vp) (rMapEntry an rec' kt ks vt vs kp vp) :=
  rel_bind (rel_propValue hT hr an kt ks kp) fun _ _ h1 => rel_bind (rel_propValue hT hr an vt vs vp) fun _ _ h2 =>
    rel_pure (dd_of hT (dd_dct (.cons ⟨rfl, h1⟩ (.cons ⟨rfl, h2⟩ .nil))))

theorem rel_map (cfg : Cfg) (path : PyStr) : Rel K E (DD T) (rMap cfg rec path) (rMap cfg rec' path) :=
  rel_bind (rel_same cost_fstring) fun _ _ e1 => rel_bind (rel_same cost_fstring) fun _ _ e2 =>
    rel_bind (rel_same cost_optGuid) fun _ _ e3 => rel_bind (rel_same (cost_unsigned 4)) fun _ _ _ =>
    rel_bind (rel_same (cost_unsigned 4)) fun count _ e5 => by
      subst e1 e2 e3 e5
      exact rel_bind (rel_repeat (rel_mapEntry hT hr _ _ _ _ _ _ _) count) fun _ _ h => rel_pure (dd_dct
        (.cons ⟨rfl, hT.refl _⟩ (.cons ⟨rfl, hT.refl _⟩ (.cons ⟨rfl, hT.refl _⟩ (.cons ⟨rfl, hT.refl _⟩ (.cons ⟨rfl, hT.refl _⟩
          (.cons ⟨rfl, hT.list h⟩ .nil)))))))

theorem rel_plainBody (cfg : Cfg) (ty : PyStr) (size : Nat) (path : PyStr) :
    Rel K E (DD T) (rPlainBody cfg rec ty size path) (rPlainBody cfg rec' ty size path) := by
  unfold rPlainBody
  have hid : ∀ {x : R Val} {m : Val → Nat}, Cost x m → Rel K E (DD T) (rIdValue x) (rIdValue x) := fun h =>
    rel_bind (rel_same cost_optGuid) fun _ _ e1 => rel_bind (rel_same h) fun _ _ e2 => rel_pure (by
      subst e1 e2; exact ⟨_, _, rfl, rfl, fd_refl hT _⟩)
  refine rel_ite (rel_struct hT hr _ path) (rel_ite (hid cost_i32) (rel_ite (hid cost_i64) (rel_ite (hid cost_i32)
    (rel_ite (hid (cost_float _)) (rel_ite (hid cost_str) (rel_ite (hid cost_str) (rel_ite ?_ (rel_ite ?_ (rel_ite ?_
    (rel_ite (rel_map hT hr cfg path) rel_fail))))))))))
  · exact rel_bind (rel_same cost_str) fun _ _ e1 => rel_bind (rel_same cost_optGuid) fun _ _ e2 => rel_bind (rel_same cost_str) fun _ _ e3 =>
      rel_pure (by subst e1 e2 e3; exact ⟨_, _, rfl, rfl, fd_refl hT _⟩)
  · exact rel_bind (rel_same cost_bool) fun _ _ e1 => rel_bind (rel_same cost_optGuid) fun _ _ e2 =>
      rel_pure (by subst e1 e2; exact ⟨_, _, rfl, rfl, fd_refl hT _⟩)
  · refine rel_bind (rel_same cost_fstring) fun _ _ e1 => rel_bind (rel_same cost_optGuid) fun _ _ e2 => ?_
    subst e1 e2
    exact rel_bind (rel_arrayProperty hT hr _ _ _ _) fun _ _ h => rel_pure (dd_dct
      (.cons ⟨rfl, hT.refl _⟩ (.cons ⟨rfl, hT.refl _⟩ (.cons ⟨rfl, h⟩ .nil))))

theorem rel_plain (cfg : Cfg) (ty : PyStr) (size : Nat) (path : PyStr) :
    Rel K E T (rPlain cfg rec ty size path) (rPlain cfg rec' ty size path) := by
  refine rel_bind (rel_plainBody hT hr cfg ty size path) fun v v' h => ?_
  obtain ⟨d, d', rfl, rfl, h⟩ := h
  intro s _ w s' e
  obtain ⟨e, rfl⟩ := rLift_inv e
  cases e
  exact Or.inl ⟨_, rfl, Nat.le_refl _, hT.dict (fd_dset (hT.refl _) h)⟩

end

/-! ### below a decoded property -/

/-- The decoders of `cfg'` instead of those of `cfg`. -/
theorem plain_congr {cfg : Cfg} {cu : PyStr → Option CodecId} {rec rec' : PyStr → R Val} {path : PyStr}
    (h : rec path = rec' path) (hd : ∀ r, rec (path ++ dot ++ r) = rec' (path ++ dot ++ r)) (ty : PyStr) (size : Nat) :
    rPlain cfg rec ty size path = rPlain { cfg with custom := cu } rec' ty size path := by
  have hs : ∀ an st {p}, rec p = rec' p → rStructValue an rec st p = rStructValue an rec' st p := by
    intro an st p e
    unfold rStructValue
    rw [e]
  have hp : ∀ an t st {p}, rec p = rec' p → rPropValue an rec t st p = rPropValue an rec' t st p := by
    intro an t st p e
    unfold rPropValue
    rw [hs _ _ e]
  have hk : rec (path ++ P ".Key") = rec' (path ++ P ".Key") := by
    have := hd (P "Key"); rwa [List.append_assoc, show dot ++ P "Key" = P ".Key" from by decide +kernel] at this
  have hv : rec (path ++ P ".Value") = rec' (path ++ P ".Value") := by
    have := hd (P "Value"); rwa [List.append_assoc, show dot ++ P "Value" = P ".Value" from by decide +kernel] at this
  have hm : rMap cfg rec path = rMap { cfg with custom := cu } rec' path := by
    unfold rMap rMapEntry
    simp only [hp _ _ _ hk, hp _ _ _ hv]
    rfl
  have ha : ∀ an at_, rArrayProperty an rec at_ size path = rArrayProperty an rec' at_ size path := by
    intro an at_
    unfold rArrayProperty
    simp only [hs _ _ (hd _)]
  have hst : ∀ an, rStruct an rec path = rStruct an rec' path := by
    intro an
    unfold rStruct
    simp only [hs _ _ h]
  have hap : ∀ an, rArrayProp an rec size path = rArrayProp an rec' size path := by
    intro an
    unfold rArrayProp
    simp only [ha]
  unfold rPlain rPlainBody
  simp only [hst, hap, hm]

theorem loop_below {cfg : Cfg} {cu : PyStr → Option CodecId} : ∀ n p acc, (∀ r, cfg.custom (p ++ dot ++ r) = none) →
    (∀ r, cu (p ++ dot ++ r) = none) → rPropsLoop cfg n p acc = rPropsLoop { cfg with custom := cu } n p acc
  | 0, _, _, _, _ => rfl
  | n + 1, p, acc, h, h' => by
    unfold rPropsLoop
    congr 1
    funext name
    split
    · rfl
    · congr 1
      funext ty
      congr 1
      funext size
      have hq : ∀ r, p ++ dot ++ name ++ dot ++ r = p ++ dot ++ (name ++ dot ++ r) := fun r => by simp only [List.append_assoc]
      have hsub : ∀ r r', p ++ dot ++ name ++ dot ++ r ++ dot ++ r' = p ++ dot ++ (name ++ dot ++ r ++ dot ++ r') := fun r r' => by
        simp only [List.append_assoc]
      have e : rProperty cfg (fun p => rPropsLoop cfg n p []) ty size (p ++ dot ++ name) =
          rProperty { cfg with custom := cu } (fun p => rPropsLoop { cfg with custom := cu } n p []) ty size (p ++ dot ++ name) := by
        unfold rProperty
        simp only [h, h']
        refine plain_congr ?_ (fun r => ?_) ty size
        · exact loop_below n _ _ (fun r => by rw [hq]; exact h _) (fun r => by rw [hq]; exact h' _)
        · exact loop_below n _ _ (fun r' => by rw [hsub]; exact h _) (fun r' => by rw [hsub]; exact h' _)
      rw [e]
      congr 1
      funext v
      exact loop_below n p _ h h'

end Fewer
end Pal
