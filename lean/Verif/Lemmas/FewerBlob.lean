import Verif.Lemmas.Fewer
/-
Decoders that read lists of properties inside raw data: where they succeed, they succeed when these lists are read with fewer decoders,
or an egg is followed by bytes that do not belong to it.
-/

namespace Pal
namespace Fewer
open Spec Size

/-- Where `x` succeeds, `x'` succeeds and leaves the same bytes, or fails with an error in `E`. -/
def CanR {α β : Type} (E : Err → Prop) (x : R α) (x' : R β) : Prop :=
  ∀ s v s', x s = .ok (v, s') → (∃ v', x' s = .ok (v', s')) ∨ ∃ e, x' s = .error e ∧ E e

/-- The same for functions on documents. -/
def Can (E : Err → Prop) (f f' : Val → Except Err Val) : Prop :=
  ∀ v w, f v = .ok w → (∃ w', f' v = .ok w') ∨ ∃ e, f' v = .error e ∧ E e

variable {E : Err → Prop}

theorem canR_refl {α : Type} (x : R α) : CanR E x x := fun _ v _ h => Or.inl ⟨v, h⟩
theorem can_refl (f : Val → Except Err Val) : Can E f f := fun _ w h => Or.inl ⟨w, h⟩

theorem canR_bind {α β α' β' : Type} {x : R α} {x' : R α'} {f : α → R β} {f' : α' → R β'} (hx : CanR E x x')
    (hf : ∀ a a', CanR E (f a) (f' a')) : CanR E (x >>= f) (x' >>= f') := by
  intro s v s' h
  obtain ⟨a, s1, h1, h2⟩ := r_bind_inv h
  rcases hx s a s1 h1 with ⟨a', e1⟩ | ⟨e, e1, he⟩
  · rw [r_bind_ok e1]; exact hf a a' s1 v s' h2
  · exact Or.inr ⟨e, r_bind_error e1 _, he⟩

theorem canR_then {α β β' : Type} {x : R α} {f : α → R β} {f' : α → R β'} (hf : ∀ a, CanR E (f a) (f' a)) :
    CanR E (x >>= f) (x >>= f') := by
  intro s v s' h
  obtain ⟨a, s1, h1, h2⟩ := r_bind_inv h
  rw [r_bind_ok h1]
  exact hf a s1 v s' h2

theorem canR_pure {α β : Type} (a : α) (b : β) : CanR E (pure a) (pure b) := by
  intro s v s' h
  cases h
  exact Or.inl ⟨b, rfl⟩

theorem can_upd {f f' : Val → Except Err Val} (h : Can E f f') : ∀ ks, Can E (Val.upd f ks) (Val.upd f' ks)
  | [] => h
  | k :: ks => by
    intro v w e
    unfold Val.upd at e ⊢
    cases hx : v.get k with
    | error e' => rw [hx] at e; cases e
    | ok x =>
      rw [hx] at e
      simp only at e ⊢
      cases hy : Val.upd f ks x with
      | error e' => rw [hy] at e; cases e
      | ok y =>
        rcases can_upd h ks x y hy with ⟨y', e'⟩ | ⟨er, e', he⟩
        · rw [e']
          cases v with
          | dict d => exact Or.inl ⟨_, rfl⟩
          | _ => cases hx
        · rw [e']; exact Or.inr ⟨er, rfl, he⟩

theorem can_mapE {f f' : Val → Except Err Val} (h : Can E f f') : ∀ l l1, mapE f l = .ok l1 →
    (∃ l2, mapE f' l = .ok l2) ∨ ∃ e, mapE f' l = .error e ∧ E e
  | [], _, _ => Or.inl ⟨[], rfl⟩
  | a :: t, l1, e => by
    unfold mapE at e ⊢
    cases ha : f a with
    | error e' => rw [ha] at e; cases e
    | ok b =>
      rw [ha] at e
      simp only at e
      cases ht : mapE f t with
      | error e' => rw [ht] at e; cases e
      | ok t1 =>
        rcases h a b ha with ⟨b', e1⟩ | ⟨er, e1, he⟩
        · rcases can_mapE h t t1 ht with ⟨t2, e2⟩ | ⟨er, e2, he⟩
          · rw [e1, e2]; exact Or.inl ⟨_, rfl⟩
          · rw [e1, e2]; exact Or.inr ⟨er, rfl, he⟩
        · rw [e1]; exact Or.inr ⟨er, rfl, he⟩

theorem can_forEach {f f' : Val → Except Err Val} (h : Can E f f') : Can E (forEach f) (forEach f') := by
  intro v w e
  unfold forEach at e ⊢
  have key : ∀ (l : List Val) (k : List Val → Val), (match mapE f l with
      | .ok l' => Except.ok (k l')
      | .error e => .error e) = .ok w → (∃ w', (match mapE f' l with
      | .ok l' => Except.ok (k l')
      | .error e => .error e) = .ok w') ∨ ∃ er, (match mapE f' l with
      | .ok l' => Except.ok (k l')
      | .error e => .error e) = .error er ∧ E er := by
    intro l k e
    cases hl : mapE f l with
    | error e' => rw [hl] at e; cases e
    | ok l1 =>
      rcases can_mapE h l l1 hl with ⟨l2, e2⟩ | ⟨er, e2, he⟩
      · rw [e2]; exact Or.inl ⟨_, rfl⟩
      · rw [e2]; exact Or.inr ⟨er, rfl, he⟩
  split at e
  · exact key _ _ e
  · exact key _ _ e
  · exact Or.inl ⟨_, rfl⟩
  · exact Or.inl ⟨_, rfl⟩
  · exact Or.inl ⟨_, rfl⟩
  · cases e

theorem can_onValues {f f' : Val → Except Err Val} (h : Can E f f') : Can E (onValues f) (onValues f') := by
  intro v w e
  unfold onValues at e ⊢
  cases hb : v.get (P "values") with
  | error e' => rw [hb] at e; cases e
  | ok b => rw [hb] at e; exact h b w e

theorem can_run {x x' : R Val} (h : CanR E x x') : Can E (fun b => runBlob b x) (fun b => runBlob b x') := by
  intro v w e
  unfold runBlob at e ⊢
  beta_reduce at e ⊢
  cases hb : toBytes v with
  | error e' => rw [hb] at e; cases e
  | ok b =>
    rw [hb] at e
    simp only at e ⊢
    cases hx : x b with
    | error e' => rw [hx] at e; cases e
    | ok q =>
      obtain ⟨r, s1⟩ := q
      rcases h b r s1 hx with ⟨v', e1⟩ | ⟨er, e1, he⟩
      · rw [e1]; exact Or.inl ⟨_, rfl⟩
      · rw [e1]; exact Or.inr ⟨er, rfl, he⟩

theorem can_empty {d : Val} {x x' : R Val} (h : CanR E x x') : Can E (fun b => emptyOr d b x) (fun b => emptyOr d b x') := by
  intro v w e
  unfold emptyOr at e ⊢
  beta_reduce at e ⊢
  cases hl : v.len with
  | error e' => rw [hl] at e; cases e
  | ok n =>
    rw [hl] at e
    cases n with
    | zero => exact Or.inl ⟨_, e⟩
    | succ n => exact can_run h v w e

theorem rTry_ok {α : Type} {x : R α} {f : Err → R α} {s : Bytes} {q : α × Bytes} (h : x s = .ok q) : rTry x f s = .ok q := by
  unfold rTry; rw [h]

theorem rTry_fuel {α : Type} {x : R α} {f : Err → R α} {s : Bytes} (h : x s = .error .fuel) : rTry x f s = .error .fuel := by
  unfold rTry; rw [h]

theorem rTry_err {α : Type} {x : R α} {f : Err → R α} {s : Bytes} {e : Err} (h : x s = .error e) (hn : e ≠ .fuel) :
    rTry x f s = f e s := by
  unfold rTry
  rw [h]
  cases e <;> first | rfl | exact absurd rfl hn

section
variable {r r' : R Val} (hr : CanR E r r') (hE : ∀ e, E e → e = eofErr ∨ e = .fuel)
include hr

theorem can_character : CanR E (characterDecode r) (characterDecode r') :=
  canR_bind hr fun _ _ => canR_then fun _ => canR_then fun _ => canR_then fun _ => canR_pure _ _

theorem can_egg : CanR E (eggDecode r) (eggDecode r') :=
  canR_then fun _ => canR_bind hr fun _ _ => canR_then fun _ => canR_then fun _ => canR_then fun _ => canR_pure _ _

omit hr in
theorem egg_end {s s' : Bytes} {d : Dict} (h : eggDecode r s = .ok (d, s')) : s' = [] := by
  obtain ⟨_, s1, _, h⟩ := r_bind_inv h
  obtain ⟨_, s2, _, h⟩ := r_bind_inv h
  obtain ⟨_, s3, _, h⟩ := r_bind_inv h
  obtain ⟨_, s4, _, h⟩ := r_bind_inv h
  obtain ⟨_, s5, h5, h⟩ := r_bind_inv h
  cases h
  cases s4 with
  | nil => cases h5; rfl
  | cons => cases h5

omit hr in
theorem rest_end {an : Bool} {s s' : Bytes} {d : Dict} (n : Nat) (h : (if n = 4 then armorDecode an
    else rTry (weaponDecode an) (fun _ => trailerDecode)) s = .ok (d, s')) : s' = [] := by
  have he : ∀ {s s' : Bytes} {u : Unit}, rCheckEof s = .ok (u, s') → s' = [] := by
    intro s s' u h
    cases s with
    | nil => cases h; rfl
    | cons => cases h
  split at h
  · obtain ⟨_, s1, _, h⟩ := r_bind_inv h
    obtain ⟨_, s2, h2, h⟩ := r_bind_inv h
    cases h
    exact he h2
  · cases hw : weaponDecode an s with
    | error e =>
      by_cases hn : e = .fuel
      · rw [rTry_fuel (hn ▸ hw)] at h; cases h
      · rw [rTry_err hw hn] at h; cases h; rfl
    | ok q =>
      rw [rTry_ok hw] at h
      cases h
      obtain ⟨_, s1, _, h⟩ := r_bind_inv hw
      obtain ⟨_, s2, _, h⟩ := r_bind_inv h
      obtain ⟨_, s3, _, h⟩ := r_bind_inv h
      obtain ⟨_, s4, h4, h⟩ := r_bind_inv h
      cases h
      exact he h4

omit hr in
theorem rest_unfold (an : Bool) (r : R Val) (s : Bytes) : dynamicRest an r s = match eggDecode r s with
    | .ok (d, s1) => .ok (d, s1)
    | .error e => if e = eofErr ∨ e = .fuel then .error e else (if s.length = 4 then armorDecode an
        else rTry (weaponDecode an) (fun _ => trailerDecode)) s := by
  cases h : eggDecode r s with
  | ok q =>
    obtain ⟨d, s1⟩ := q
    have ht : tryEgg r s = .ok (some d, s1) := rTry_ok (by rw [r_bind_ok h]; rfl)
    unfold dynamicRest
    rw [r_bind_ok ht]; rfl
  | error e =>
    simp only
    split
    · rename_i he
      have ht : tryEgg r s = .error e := by
        by_cases hn : e = .fuel
        · subst hn; exact rTry_fuel (r_bind_error h _)
        · refine (rTry_err (r_bind_error h _) hn).trans ?_
          rw [if_pos (by rcases he with he | he; exacts [he, absurd he hn])]; rfl
      unfold dynamicRest
      rw [r_bind_error ht]
    · rename_i he
      rw [not_or] at he
      have ht : tryEgg r s = .ok (none, s) := by
        refine (rTry_err (r_bind_error h _) he.2).trans ?_
        rw [if_neg he.1]; rfl
      unfold dynamicRest
      rw [r_bind_ok ht]; rfl

include hE in
theorem can_rest (heof : E eofErr ∧ E .fuel) (an : Bool) : CanR E (dynamicRest an r) (dynamicRest an r') := by
  intro s v s' h
  rw [rest_unfold] at h ⊢
  cases hx : eggDecode r' s with
  | ok q =>
    obtain ⟨d, s1⟩ := q
    have e1 := egg_end hx
    cases hy : eggDecode r s with
    | ok q' =>
      obtain ⟨d', s1'⟩ := q'
      rw [hy] at h
      cases h
      have e2 := egg_end hy
      subst e1 e2
      exact Or.inl ⟨d, rfl⟩
    | error e =>
      rw [hy] at h
      simp only at h
      split at h
      · cases h
      · have e2 := rest_end _ h
        subst e1 e2
        exact Or.inl ⟨d, rfl⟩
  | error e =>
    simp only
    by_cases he : e = eofErr ∨ e = .fuel
    · rw [if_pos he]
      refine Or.inr ⟨e, rfl, ?_⟩
      rcases he with rfl | rfl
      exacts [heof.1, heof.2]
    · rw [if_neg he]
      cases hy : eggDecode r s with
      | ok q' =>
        obtain ⟨d', s1'⟩ := q'
        rcases can_egg hr s d' s1' hy with ⟨v', g⟩ | ⟨er, g, hg⟩
        · rw [hx] at g; cases g
        · rw [hx] at g; cases g; exact absurd (hE _ hg) he
      | error e' =>
        rw [hy] at h
        simp only at h
        split at h
        · cases h
        · exact Or.inl ⟨v, h⟩

include hE in
theorem can_item (heof : E eofErr ∧ E .fuel) (an : Bool) : CanR E (dynamicItemDecode an r) (dynamicItemDecode an r') :=
  canR_then fun _ => canR_bind (can_rest hr hE heof an) fun _ _ => canR_pure _ _

theorem can_body (an : Bool) (c : String) : (concreteBody an r c = none ∧ concreteBody an r' c = none) ∨
    ∃ b b', concreteBody an r c = some b ∧ concreteBody an r' c = some b' ∧ CanR E b b' := by
  by_cases hc : c = "PalMapObjectHatchingEggModel"
  · subst hc
    exact Or.inr ⟨cmHatch r, cmHatch r', rfl, rfl, canR_bind hr fun _ _ => canR_then fun _ => canR_then fun _ => canR_pure _ _⟩
  · have e : concreteBody an r c = concreteBody an r' c := by
      unfold concreteBody
      simp only [if_neg hc]
    rw [e]
    cases concreteBody an r' c with
    | none => exact Or.inl ⟨rfl, rfl⟩
    | some b => exact Or.inr ⟨b, b, rfl, rfl, canR_refl b⟩

theorem can_concrete (an : Bool) (oid raw : Val) : CanR E (concreteDecode an r oid raw) (concreteDecode an r' oid raw) := by
  unfold concreteDecode
  split
  · split
    · exact canR_refl _
    · rename_i c _
      refine canR_then fun _ => canR_then fun _ => ?_
      rcases can_body hr an c with ⟨h1, h2⟩ | ⟨b, b', h1, h2, h3⟩
      · rw [h1, h2]; exact canR_refl _
      · rw [h1, h2]; exact canR_bind h3 fun _ _ => canR_then fun _ => canR_pure _ _
  · exact canR_refl _

end

/-! ### map objects -/

theorem upd_inv {f : Val → Except Err Val} : ∀ {ks : List PyStr} {v w : Val}, v.upd f ks = .ok w →
    ∃ x y, v.path ks = .ok x ∧ f x = .ok y
  | [], v, w, h => ⟨v, w, rfl, h⟩
  | k :: ks, v, w, h => by
    unfold Val.upd at h
    unfold Val.path
    cases hx : v.get k with
    | error e => rw [hx] at h; cases h
    | ok x =>
      rw [hx] at h
      simp only at h ⊢
      cases hy : Val.upd f ks x with
      | error e => rw [hy] at h; cases h
      | ok y => exact upd_inv hy

theorem upd_of {f : Val → Except Err Val} {x y : Val} : ∀ {ks : List PyStr} {v : Val}, v.path ks = .ok x → f x = .ok y →
    ∃ w, v.upd f ks = .ok w
  | [], v, h, hf => by cases h; exact ⟨y, hf⟩
  | k :: ks, v, h, hf => by
    unfold Val.path at h
    unfold Val.upd
    cases hx : v.get k with
    | error e => rw [hx] at h; cases h
    | ok z =>
      rw [hx] at h
      obtain ⟨w, e⟩ := upd_of h hf
      simp only [e]
      cases v with
      | dict d => exact ⟨_, rfl⟩
      | _ => cases hx

theorem dget_dset_other (d : Dict) {k k' : PyStr} (x : Val) (h : k' ≠ k) : dget? (dset d k x) k' = dget? d k' := by
  induction d with
  | nil => simp [dset, dget?, Ne.symm h]
  | cons a t ih =>
    obtain ⟨k1, v1⟩ := a
    unfold dset
    split
    · rename_i e; subst e; simp [dget?, Ne.symm h]
    · simp only [dget?]; split
      · rfl
      · exact ih

theorem dget_dset_self (d : Dict) (k : PyStr) (x : Val) : dget? (dset d k x) k = some x := by
  induction d with
  | nil => simp [dset, dget?]
  | cons a t ih =>
    obtain ⟨k1, v1⟩ := a
    unfold dset
    split
    · rename_i e; simp [dget?, e]
    · rename_i e; simp only [dget?, if_neg e]; exact ih

theorem path_cons (d : Dict) (k : PyStr) (t : List PyStr) : (Val.dict d).path (k :: t) = match dget? d k with
    | some x => x.path t
    | none => .error .key := by
  show (match (Val.dict d).get k with
    | .ok x => x.path t
    | .error e => .error e) = _
  unfold Val.get
  simp only
  cases dget? d k <;> rfl

theorem upd_cons {f : Val → Except Err Val} {k : PyStr} {t : List PyStr} {v w : Val} (h : v.upd f (k :: t) = .ok w) :
    ∃ d x y, v = .dict d ∧ dget? d k = some x ∧ x.upd f t = .ok y ∧ w = .dict (dset d k y) := by
  unfold Val.upd at h
  cases v with
  | dict d =>
    split at h
    · rename_i x hx
      split at h
      · rename_i y hy
        cases h
        refine ⟨d, x, y, rfl, ?_, hy, rfl⟩
        unfold Val.get at hx
        simp only at hx
        split at hx
        · cases hx; assumption
        · cases hx
      · cases h
    · cases h
  | _ => cases h

/-- An update leaves what is beside it. -/
theorem path_upd_other {f : Val → Except Err Val} {k k' : PyStr} {t t' : List PyStr} (hk : k' ≠ k) : ∀ (pre : List PyStr) {v w : Val},
    v.upd f (pre ++ k :: t) = .ok w → w.path (pre ++ k' :: t') = v.path (pre ++ k' :: t')
  | [], v, w, h => by
    obtain ⟨d, x, y, rfl, _, _, rfl⟩ := upd_cons h
    simp only [List.nil_append, path_cons]
    rw [dget_dset_other _ _ hk]
  | a :: pre, v, w, h => by
    obtain ⟨d, x, y, rfl, hx, hy, rfl⟩ := upd_cons h
    simp only [List.cons_append, path_cons]
    rw [dget_dset_self, hx]
    exact path_upd_other hk pre hy

theorem can_mapObject {r r' : R Val} (hr : CanR E r r') (an : Bool) : Can E (mapObjectPost1 an r) (mapObjectPost1 an r') := by
  intro v w h
  unfold mapObjectPost1 at h ⊢
  simp only [updAll] at h ⊢
  split at h
  · rename_i v1 h1
    split at h
    · rename_i v2 h2
      split at h
      · rename_i v3 h3
        split at h
        · rename_i v4 h4
          cases ho : v3.path (ks ["MapObjectId", "value"]) with
          | error e => rw [ho] at h4; cases h4
          | ok oid =>
            rw [ho] at h4
            simp only at h4 ⊢
            have hc : Can E (onValues (concreteBlob an r oid)) (onValues (concreteBlob an r' oid)) :=
              can_onValues fun b w e => can_empty (can_concrete hr an oid b) b w e
            rcases can_upd hc _ v3 v4 h4 with ⟨v4', e4⟩ | ⟨er, e4, he⟩
            · rw [e4]
              simp only
              split at h
              · rename_i v5 h5
                obtain ⟨x, y, hx, hy⟩ := upd_inv h5
                have hp : ∀ {u}, v3.upd (onValues (concreteBlob an r oid)) (ks ["ConcreteModel", "value", "RawData", "value"]) = .ok u →
                    u.path (ks ["ConcreteModel", "value", "ModuleMap", "value"]) =
                      v3.path (ks ["ConcreteModel", "value", "ModuleMap", "value"]) := fun h =>
                  path_upd_other (fun e => absurd ((P_inj _ _).1 e) (by decide)) (ks ["ConcreteModel", "value"]) h
                have hp' : ∀ {u}, v3.upd (onValues (concreteBlob an r' oid)) (ks ["ConcreteModel", "value", "RawData", "value"]) = .ok u →
                    u.path (ks ["ConcreteModel", "value", "ModuleMap", "value"]) =
                      v3.path (ks ["ConcreteModel", "value", "ModuleMap", "value"]) := fun h =>
                  path_upd_other (fun e => absurd ((P_inj _ _).1 e) (by decide)) (ks ["ConcreteModel", "value"]) h
                obtain ⟨w', ew⟩ := upd_of (f := forEach moduleMapPost1) (by rw [hp' e4, ← hp h4]; exact hx) hy
                rw [ew]
                exact Or.inl ⟨_, rfl⟩
              · cases h
            · rw [e4]; exact Or.inr ⟨er, rfl, he⟩
        · cases h
      · cases h
    · cases h
  · cases h

/-- All decoders. -/
theorem can_post {r r' : R Val} (hr : CanR E r r') (hE : ∀ e, E e → e = eofErr ∨ e = .fuel) (c : CodecId)
    (hc : c = .dynamicItem → E eofErr ∧ E .fuel)
    (an : Bool) : Can E (c.post an r) (c.post an r') := by
  cases c with
  | character => exact can_upd (can_onValues (can_run (can_character hr))) _
  | dynamicItem => exact can_upd (can_onValues (can_empty (can_item hr hE (hc rfl) an))) _
  | mapObject => exact can_upd (can_forEach (can_mapObject hr an)) _
  | _ => exact can_refl _

/-- What a decoder returns is a dict. -/
theorem post_dict {c : CodecId} {an : Bool} {r : R Val} {v w : Val} (h : c.post an r v = .ok w) : ∃ d, w = .dict d := by
  cases c with
  | debug =>
    simp only [CodecId.post, debugPost] at h
    split at h
    · cases h
    · rename_i b hb
      split at h
      · cases h
      · cases h
      · split at h
        · cases h
          cases v with
          | dict d => exact ⟨d, rfl⟩
          | _ => cases hb
        · cases h
  | _ => exact upd_dict h

end Fewer
end Pal
