import Verif.Lemmas.BoundBlob
/-
The bounds of Bound.lean for the custom decoders and the property reader.
-/

namespace Pal

variable {K N : Nat}

/-! ### Functions on values -/

/-- An in-place update that keeps the bound. -/
def OkV (N : Nat) (f f' : Val → Except Err Val) : Prop :=
  ∀ v, Lim N v → f v = f' v ∧ f v ≠ .error .fuel ∧ ∀ v', f v = .ok v' → Lim N v'

/-- The same for a function of a blob. -/
def OkB (N : Nat) (f f' : Val → Except Err Val) : Prop :=
  ∀ v, Lim N v → blobOk N v → f v = f' v ∧ f v ≠ .error .fuel ∧ ∀ v', f v = .ok v' → Lim N v'

theorem dget_mem {d : Dict} {k : PyStr} {v : Val} (h : dget? d k = some v) : (k, v) ∈ d := by
  induction d with
  | nil => cases h
  | cons a t ih =>
    obtain ⟨k', v'⟩ := a
    simp only [dget?] at h
    split at h
    · rename_i e; cases h; rw [e]; exact List.mem_cons_self
    · exact List.mem_cons_of_mem _ (ih h)

theorem get_fuel (v : Val) (k : PyStr) : v.get k ≠ .error .fuel := by
  cases v <;> simp only [Val.get, ne_eq, reduceCtorEq, not_false_eq_true, Except.error.injEq]
  split <;> nofun

theorem get_lim {v x : Val} {k : PyStr} (hv : Lim N v) (h : v.get k = .ok x) :
    Lim N x ∧ (k = P "values" → blobOk N x) := by
  cases v <;> simp only [Val.get, reduceCtorEq] at h
  split at h
  · rename_i heq
    cases h
    simp only [Lim] at hv
    exact limD_iff.1 hv _ (dget_mem heq)
  · cases h

theorem set_fuel (v : Val) (k : PyStr) (x : Val) : v.set k x ≠ .error .fuel := by
  cases v <;> simp only [Val.set, ne_eq, reduceCtorEq, not_false_eq_true, Except.error.injEq]

theorem set_lim {v x v' : Val} {k : PyStr} (hv : Lim N v) (hx : Lim N x) (hk : k = P "values" → blobOk N x)
    (h : v.set k x = .ok v') : Lim N v' := by
  cases v <;> simp only [Val.set, reduceCtorEq] at h
  cases h
  simp only [Lim] at hv ⊢
  rw [limD_iff] at hv ⊢
  intro kv hm
  rcases mem_dset hm with hm | rfl
  · exact hv kv hm
  · exact ⟨hx, hk⟩

theorem set_noblob {v x v' : Val} {k : PyStr} (h : v.set k x = .ok v') (N : Nat) : blobOk N v' := by
  cases v <;> simp only [Val.set, reduceCtorEq] at h
  cases h
  rename_i d
  cases d with
  | nil => intro b hb; simp only [dset, toBytes, reduceCtorEq] at hb
  | cons a t => obtain ⟨k', w⟩ := a; intro b hb; simp only [dset] at hb; split at hb <;> simp only [toBytes, reduceCtorEq] at hb

theorem path_fuel : ∀ (ks : List PyStr) (v : Val), v.path ks ≠ .error .fuel
  | [], v => nofun
  | k :: ks, v => by
    simp only [Val.path]
    have := get_fuel v k
    split
    · exact path_fuel ks _
    · rename_i heq; rw [heq] at this; exact this

theorem path_lim : ∀ (ks : List PyStr) {v x : Val}, Lim N v → v.path ks = .ok x → Lim N x
  | [], v, x, hv, h => by cases h; exact hv
  | k :: ks, v, x, hv, h => by
    simp only [Val.path] at h
    split at h
    · rename_i heq; exact path_lim ks (get_lim hv heq).1 h
    · cases h

theorem okv_upd {f f' : Val → Except Err Val} (hf : OkV N f f') :
    ∀ (ks : List PyStr), (∀ k ∈ ks, k ≠ P "values") → OkV N (Val.upd f ks) (Val.upd f' ks)
  | [], _ => hf
  | k :: ks, hk => by
    intro v hv
    simp only [Val.upd]
    have h0 := get_fuel v k
    cases hg : v.get k with
    | error e => simp only; rw [hg] at h0; exact ⟨trivial, h0, fun _ => nofun⟩
    | ok x =>
      simp only
      have hx := (get_lim hv hg).1
      obtain ⟨h1, h2, h3⟩ := okv_upd hf ks (fun k' h' => hk k' (List.mem_cons_of_mem _ h')) x hx
      rw [← h1]
      cases hu : Val.upd f ks x with
      | error e => simp only; rw [hu] at h2; exact ⟨trivial, h2, fun _ => nofun⟩
      | ok x' =>
        simp only
        exact ⟨trivial, set_fuel _ _ _, fun v' hv' => set_lim hv (h3 _ hu)
          (fun e => absurd e (hk k List.mem_cons_self)) hv'⟩

theorem mapE_ok {f f' : Val → Except Err Val} (hf : OkV N f f') : ∀ l, LimL N l →
    mapE f l = mapE f' l ∧ mapE f l ≠ .error .fuel ∧ ∀ l', mapE f l = .ok l' → LimL N l'
  | [], _ => ⟨rfl, nofun, fun l' e => by cases e; simp only [LimL]⟩
  | a :: t, hl => by
    simp only [LimL] at hl
    obtain ⟨h1, h2, h3⟩ := hf a hl.1
    obtain ⟨g1, g2, g3⟩ := mapE_ok hf t hl.2
    simp only [mapE]
    rw [← h1, ← g1]
    cases ha : f a with
    | error e =>
      simp only
      rw [ha] at h2
      exact ⟨trivial, fun h => h2 (by injection h with h; rw [h]), fun _ => nofun⟩
    | ok b =>
      simp only
      cases ht : mapE f t with
      | error e => simp only; rw [ht] at g2; exact ⟨trivial, g2, fun _ => nofun⟩
      | ok bs =>
        simp only
        refine ⟨trivial, nofun, fun l' e => ?_⟩
        cases e
        simp only [LimL]
        exact ⟨h3 _ ha, g3 _ ht⟩

theorem okv_forEach {f f' : Val → Except Err Val} (hf : OkV N f f') : OkV N (forEach f) (forEach f') := by
  intro v hv
  have key : ∀ (c : List Val → Val) (l : List Val), LimL N l → (∀ l', LimL N l' → Lim N (c l')) →
      (match mapE f l with | .ok l' => Except.ok (c l') | .error e => .error e) =
        (match mapE f' l with | .ok l' => .ok (c l') | .error e => .error e) ∧
      (match mapE f l with | .ok l' => Except.ok (c l') | .error e => .error e) ≠ .error Err.fuel ∧
      ∀ v', (match mapE f l with | .ok l' => Except.ok (c l') | .error e => .error e) = .ok v' → Lim N v' := by
    intro c l hl hc
    obtain ⟨h1, h2, h3⟩ := mapE_ok hf l hl
    rw [← h1]
    cases hm : mapE f l with
    | error e =>
      rw [hm] at h2
      exact ⟨rfl, fun h => h2 (by injection h with h; rw [h]), fun _ => nofun⟩
    | ok l' => exact ⟨rfl, nofun, fun v' e => by cases e; exact hc _ (h3 _ hm)⟩
  unfold forEach
  split
  · exact key Val.list _ (by simpa only [Lim] using hv) (fun l' h => by simpa only [Lim] using h)
  · exact key Val.tuple _ (by simpa only [Lim] using hv) (fun l' h => by simpa only [Lim] using h)
  · exact ⟨rfl, nofun, fun v' e => by cases e; exact hv⟩
  · exact ⟨rfl, nofun, fun v' e => by cases e; exact hv⟩
  · exact ⟨rfl, nofun, fun v' e => by cases e; exact hv⟩
  · exact ⟨rfl, nofun, fun _ => nofun⟩

/-- The result of a loop over dicts is not a blob, unless it is empty. -/
theorem forEach_blob {f : Val → Except Err Val} (hd : ∀ v v', f v = .ok v' → ∃ d, v' = .dict d) {v v' : Val}
    (h : forEach f v = .ok v') (hb : blobOk N v) : blobOk N v' := by
  have key : ∀ l l', mapE f l = .ok l' → ∀ b, mapE byteOf l' = .ok b → b.length ≤ N := by
    intro l l' hl b hb
    cases l with
    | nil => cases hl; cases hb; exact Nat.zero_le _
    | cons a t =>
      simp only [mapE] at hl
      split at hl
      · rename_i x hx
        split at hl
        · cases hl
          obtain ⟨d, rfl⟩ := hd _ _ hx
          simp only [mapE, byteOf, Val.asInt?, reduceCtorEq] at hb
        · cases hl
      · cases hl
  unfold forEach at h
  split at h
  · split at h
    · rename_i heq; cases h; exact fun b hb => key _ _ heq b hb
    · cases h
  · split at h
    · rename_i heq; cases h; exact fun b hb => key _ _ heq b hb
    · cases h
  · cases h; exact hb
  · cases h; exact hb
  · cases h; exact hb
  · cases h

/-- The loop of the decoders of struct arrays. -/
theorem okv_values {f f' : Val → Except Err Val} (hf : OkV N f f') (hd : ∀ v v', f v = .ok v' → ∃ d, v' = .dict d) :
    OkV N (Val.upd (forEach f) (ks ["value", "values"])) (Val.upd (forEach f') (ks ["value", "values"])) := by
  have h1 : OkV N (Val.upd (forEach f) [P "values"]) (Val.upd (forEach f') [P "values"]) := by
    intro v hv
    simp only [Val.upd]
    have h0 := get_fuel v (P "values")
    cases hg : v.get (P "values") with
    | error e => simp only; rw [hg] at h0; exact ⟨trivial, h0, fun _ => nofun⟩
    | ok x =>
      simp only
      obtain ⟨hx, hb⟩ := get_lim hv hg
      obtain ⟨h1, h2, h3⟩ := okv_forEach hf x hx
      rw [← h1]
      cases hu : forEach f x with
      | error e => simp only; rw [hu] at h2; exact ⟨trivial, h2, fun _ => nofun⟩
      | ok x' =>
        simp only
        exact ⟨trivial, set_fuel _ _ _, fun v' hv' => set_lim hv (h3 _ hu)
          (fun _ => forEach_blob hd hu (hb rfl)) hv'⟩
  exact okv_upd (f := Val.upd (forEach f) [P "values"]) (f' := Val.upd (forEach f') [P "values"]) h1 [P "value"] (by
    intro k hk; rw [List.mem_singleton.1 hk]; exact fun e => absurd ((P_inj _ _).1 e) (by decide))

theorem okv_onValues {f f' : Val → Except Err Val} (hf : OkB N f f') : OkV N (onValues f) (onValues f') := by
  intro v hv
  unfold onValues
  have h0 := get_fuel v (P "values")
  cases hg : v.get (P "values") with
  | error e => simp only; rw [hg] at h0; exact ⟨trivial, h0, fun _ => nofun⟩
  | ok x =>
    simp only
    obtain ⟨hx, hb⟩ := get_lim hv hg
    exact hf x hx (hb rfl)

theorem mapE_fuel {α β : Type} {f : α → Except Err β} (h : ∀ a, f a ≠ .error .fuel) : ∀ l, mapE f l ≠ .error .fuel
  | [] => nofun
  | a :: t => by
    simp only [mapE]
    have h1 := h a
    have h2 := mapE_fuel h t
    split
    · split
      · nofun
      · rename_i heq; rw [heq] at h2; exact fun e => h2 (by injection e with e; rw [e])
    · rename_i heq; rw [heq] at h1; exact fun e => h1 (by injection e with e; rw [e])

theorem byteOf_fuel (v : Val) : byteOf v ≠ .error .fuel := by
  unfold byteOf
  split
  · split <;> nofun
  · nofun

theorem toBytes_fuel (v : Val) : toBytes v ≠ .error .fuel := by
  unfold toBytes
  split
  · nofun
  · split <;> nofun
  · nofun
  · exact mapE_fuel byteOf_fuel _
  · exact mapE_fuel byteOf_fuel _
  · nofun
  · nofun
  · nofun

theorem ok_runBlob {v : Val} (hb : blobOk N v) {x x' : R Val} (hx : Ok N N x x') :
    runBlob v x = runBlob v x' ∧ runBlob v x ≠ .error .fuel ∧ ∀ w, runBlob v x = .ok w → Lim N w := by
  unfold runBlob
  have h0 := toBytes_fuel v
  cases ht : toBytes v with
  | error e => simp only; rw [ht] at h0; exact ⟨trivial, fun h => h0 (by injection h with h; rw [h]), fun _ => nofun⟩
  | ok b =>
    simp only
    obtain ⟨h1, h2, h3⟩ := hx b (hb b ht)
    rw [← h1]
    cases hr : x b with
    | error e => simp only; rw [hr] at h2; exact ⟨trivial, fun h => h2 (by injection h with h; rw [h]), fun _ => nofun⟩
    | ok q =>
      obtain ⟨r, s⟩ := q
      simp only
      exact ⟨trivial, nofun, fun w e => by cases e; exact (h3 _ _ hr).2⟩

theorem len_fuel (v : Val) : v.len ≠ .error .fuel := by cases v <;> nofun

theorem ok_emptyOr {d v : Val} (hd : Lim N d) (hb : blobOk N v) {x x' : R Val} (hx : Ok N N x x') :
    emptyOr d v x = emptyOr d v x' ∧ emptyOr d v x ≠ .error .fuel ∧ ∀ w, emptyOr d v x = .ok w → Lim N w := by
  unfold emptyOr
  have h0 := len_fuel v
  cases ht : v.len with
  | error e => simp only; rw [ht] at h0; exact ⟨trivial, fun h => h0 (by injection h with h; rw [h]), fun _ => nofun⟩
  | ok n =>
    cases n with
    | zero => exact ⟨rfl, nofun, fun w e => by cases e; exact hd⟩
    | succ n => exact ok_runBlob hb hx

theorem ne_values {l : List String} (h : "values" ∉ l) : ∀ k ∈ ks l, k ≠ P "values" := by
  intro k hk e
  obtain ⟨t, ht, rfl⟩ := List.mem_map.1 hk
  exact h ((P_inj _ _).1 e ▸ ht)

theorem okv_decodeValue {f f' : Val → Except Err Val} (hf : OkB N f f') : OkV N (decodeValue f) (decodeValue f') :=
  okv_upd (okv_onValues hf) [P "value"] (ne_values (l := ["value"]) (by decide))

theorem okb_run {x x' : R Val} (hx : Ok N N x x') : OkB N (fun b => runBlob b x) (fun b => runBlob b x') :=
  fun _ _ hb => ok_runBlob hb hx

theorem okb_empty {d : Val} (hd : Lim N d) {x x' : R Val} (hx : Ok N N x x') :
    OkB N (fun b => emptyOr d b x) (fun b => emptyOr d b x') :=
  fun _ _ hb => ok_emptyOr hd hb hx

theorem lim_emptyValues : Lim N (dct [("values", .list [])]) :=
  lim_raw (by simp only [Lim, LimL]) (fun b hb => by cases hb; exact Nat.zero_le _)

/-- An update that first looks something up. -/
theorem okv_path (p : List PyStr) {f f' : Val → Val → Except Err Val} (hf : ∀ x, Lim N x → OkV N (f x) (f' x)) :
    OkV N (fun g => match g.path p with | .error e => .error e | .ok x => f x g)
      (fun g => match g.path p with | .error e => .error e | .ok x => f' x g) := by
  intro v hv
  have h0 := path_fuel p v
  beta_reduce
  cases hp : v.path p with
  | error e => simp only; rw [hp] at h0; exact ⟨trivial, h0, fun _ => nofun⟩
  | ok x => simp only; exact hf x (path_lim p hv hp) v hv

theorem okv_get (p : PyStr) {f f' : Val → Val → Except Err Val} (hf : ∀ x, Lim N x → OkV N (f x) (f' x)) :
    OkV N (fun g => match g.get p with | .error e => .error e | .ok x => f x g)
      (fun g => match g.get p with | .error e => .error e | .ok x => f' x g) := by
  intro v hv
  have h0 := get_fuel v p
  beta_reduce
  cases hp : v.get p with
  | error e => simp only; rw [hp] at h0; exact ⟨trivial, h0, fun _ => nofun⟩
  | ok x => simp only; exact hf x (get_lim hv hp).1 v hv

theorem okv_updAll : ∀ {l l' : List (Val → Except Err Val)}, List.Forall₂ (OkV N) l l' → OkV N (updAll l) (updAll l')
  | _, _, .nil => fun v hv => ⟨rfl, nofun, fun v' e => by cases e; exact hv⟩
  | _, _, .cons (a := f) (l₁ := t) hf ht => by
    intro v hv
    simp only [updAll]
    obtain ⟨h1, h2, h3⟩ := hf v hv
    rw [← h1]
    cases hfv : f v with
    | error e => simp only; rw [hfv] at h2; exact ⟨trivial, h2, fun _ => nofun⟩
    | ok v' => simp only; exact okv_updAll ht v' (h3 _ hfv)

theorem set_dict {v x v' : Val} {k : PyStr} (h : v.set k x = .ok v') : ∃ d, v' = .dict d := by
  cases v <;> simp only [Val.set, reduceCtorEq] at h
  cases h; exact ⟨_, rfl⟩

theorem upd_dict {f : Val → Except Err Val} {k : PyStr} {ks : List PyStr} {v v' : Val}
    (h : Val.upd f (k :: ks) v = .ok v') : ∃ d, v' = .dict d := by
  simp only [Val.upd] at h
  split at h
  · split at h
    · exact set_dict h
    · cases h
  · cases h

theorem okv_workAssign : OkV N workAssignPost1 workAssignPost1 :=
  okv_upd (okv_onValues (okb_run ok_workAssignBytes)) _ (ne_values (by decide))

theorem okv_work (an : Bool) : OkV N (workPost1 an) (workPost1 an) := by
  intro v hv
  unfold workPost1
  have h0 := path_fuel (ks ["RawData", "value", "values"]) v
  cases hp : v.path (ks ["RawData", "value", "values"]) with
  | error e => simp only; rw [hp] at h0; exact ⟨trivial, h0, fun _ => nofun⟩
  | ok b =>
    simp only
    have hb : blobOk N b := by
      have : ks ["RawData", "value", "values"] = [P "RawData", P "value", P "values"] := rfl
      rw [this] at hp
      simp only [Val.path] at hp
      split at hp
      · rename_i h1
        split at hp
        · rename_i h2
          split at hp
          · rename_i h3
            cases hp
            exact (get_lim (get_lim (get_lim hv h1).1 h2).1 h3).2 rfl
          · cases hp
        · cases hp
      · cases hp
    have hl := path_lim _ hv hp
    have g0 := path_fuel (ks ["WorkableType", "value", "value"]) v
    cases hw : v.path (ks ["WorkableType", "value", "value"]) with
    | error e => simp only; rw [hw] at g0; exact ⟨trivial, g0, fun _ => nofun⟩
    | ok wt =>
      simp only
      have key : OkV N (fun _ => runBlob b (workDecode an wt b)) (fun _ => runBlob b (workDecode an wt b)) :=
        fun _ _ => ok_runBlob hb (ok_work an wt hl hb)
      obtain ⟨-, h2, h3⟩ := okv_upd key (ks ["RawData", "value"]) (ne_values (by decide)) v hv
      cases hu : Val.upd (fun _ => runBlob b (workDecode an wt b)) (ks ["RawData", "value"]) v with
      | error e => simp only; rw [hu] at h2; exact ⟨trivial, h2, fun _ => nofun⟩
      | ok w =>
        simp only
        exact ⟨trivial, (okv_upd (okv_forEach okv_workAssign) (ks ["WorkAssignMap", "value"]) (ne_values (by decide)) w
          (h3 _ hu)).2⟩

theorem work_dict {an : Bool} {v v' : Val} (h : workPost1 an v = .ok v') : ∃ d, v' = .dict d := by
  unfold workPost1 at h
  split at h
  · cases h
  · split at h
    · cases h
    · split at h
      · cases h
      · exact upd_dict h

theorem okv_moduleMap : OkV N moduleMapPost1 moduleMapPost1 := by
  refine okv_get (P "key") (f := fun mt m => m.upd (onValues (moduleBlob mt)) (ks ["value", "RawData", "value"]))
    (f' := fun mt m => m.upd (onValues (moduleBlob mt)) (ks ["value", "RawData", "value"])) fun mt _ => ?_
  exact okv_upd (okv_onValues (okb_empty lim_emptyValues (ok_concreteModule mt))) _ (ne_values (by decide))

theorem okv_mapObject (an : Bool) {r r' : R Val} (hr : Ok N N r r') :
    OkV N (mapObjectPost1 an r) (mapObjectPost1 an r') := by
  refine okv_updAll (.cons ?_ (.cons ?_ (.cons ?_ (.cons ?_ (.cons ?_ .nil)))))
  · exact okv_upd (okv_onValues (okb_run (ok_mapModel an))) _ (ne_values (by decide))
  · exact okv_upd (okv_onValues (okb_empty lim_emptyValues ok_connector)) _ (ne_values (by decide))
  · exact okv_upd (okv_onValues (okb_run ok_buildProcess)) _ (ne_values (by decide))
  · refine okv_path (ks ["MapObjectId", "value"])
      (f := fun oid m => m.upd (onValues (concreteBlob an r oid)) (ks ["ConcreteModel", "value", "RawData", "value"]))
      (f' := fun oid m => m.upd (onValues (concreteBlob an r' oid)) (ks ["ConcreteModel", "value", "RawData", "value"]))
      fun oid _ => ?_
    refine okv_upd (okv_onValues ?_) _ (ne_values (by decide))
    exact fun b hl hb => ok_emptyOr lim_emptyValues hb (ok_concrete an hr oid hl hb)
  · exact okv_upd (okv_forEach okv_moduleMap) _ (ne_values (by decide))

theorem updAll_dict {l : List (Val → Except Err Val)} (hl : ∀ f ∈ l, ∀ v v', f v = .ok v' → ∃ d, v' = .dict d) :
    ∀ {v v' : Val}, l ≠ [] → updAll l v = .ok v' → ∃ d, v' = .dict d := by
  induction l with
  | nil => intro v v' h; exact absurd rfl h
  | cons f t ih =>
    intro v v' _ h
    simp only [updAll] at h
    split at h
    · rename_i w hw
      cases t with
      | nil => cases h; exact hl f List.mem_cons_self _ _ hw
      | cons g t => exact ih (fun g' hg => hl g' (List.mem_cons_of_mem _ hg)) (by nofun) h
    · cases h

theorem mapObject_dict {an : Bool} {r : R Val} {v v' : Val} (h : mapObjectPost1 an r v = .ok v') :
    ∃ d, v' = .dict d := by
  refine updAll_dict ?_ (by nofun) h
  simp only [List.forall_mem_cons, List.not_mem_nil, false_imp_iff, implies_true, and_true]
  refine ⟨fun _ _ => upd_dict, fun _ _ => upd_dict, fun _ _ => upd_dict, ?_, fun _ _ => upd_dict⟩
  intro v v' h
  split at h
  · cases h
  · exact upd_dict h

theorem okv_group : OkV N groupPost1 groupPost1 := by
  refine okv_path (ks ["value", "GroupType", "value", "value"])
    (f := fun gt g => g.upd (onValues fun b => runBlob b (groupDecode gt)) (ks ["value", "RawData", "value"]))
    (f' := fun gt g => g.upd (onValues fun b => runBlob b (groupDecode gt)) (ks ["value", "RawData", "value"]))
    fun gt hgt => ?_
  exact okv_upd (okv_onValues (okb_run (ok_group hgt))) _ (ne_values (by decide))

theorem okv_campModule (an : Bool) : OkV N (campModulePost1 an) (campModulePost1 an) := by
  refine okv_get (P "key")
    (f := fun mt m => m.upd (onValues fun b => runBlob b (campModuleDecode an mt b)) (ks ["value", "RawData", "value"]))
    (f' := fun mt m => m.upd (onValues fun b => runBlob b (campModuleDecode an mt b)) (ks ["value", "RawData", "value"]))
    fun mt _ => ?_
  refine okv_upd (okv_onValues ?_) _ (ne_values (by decide))
  exact fun b hl hb => ok_runBlob hb (ok_campModule an mt hl hb)

theorem okv_debug : OkV N debugPost debugPost := by
  intro v hv
  refine ⟨rfl, ?_, ?_⟩
  · unfold debugPost
    have h0 := path_fuel (ks ["value", "values"]) v
    split
    · rename_i heq; rw [heq] at h0; exact fun h => h0 (by injection h with h; rw [h])
    · rename_i b _
      have h1 := len_fuel b
      have h2 : b.iterItems ≠ .error .fuel := by cases b <;> nofun
      split
      · rename_i heq; rw [heq] at h1; exact fun h => h1 (by injection h with h; rw [h])
      · rename_i heq _; rw [heq] at h2; exact fun h => h2 (by injection h with h; rw [h])
      · rename_i l _ _
        have h3 := mapE_fuel (f := debugPrint1) (fun a => by cases a <;> nofun) l
        split
        · nofun
        · rename_i heq; rw [heq] at h3; exact fun h => h3 (by injection h with h; rw [h])
  · intro v' h
    unfold debugPost at h
    split at h
    · cases h
    · split at h
      · cases h
      · cases h
      · split at h
        · cases h; exact hv
        · cases h

/-- Every custom decoder keeps the bound and never runs out of budget. -/
theorem okv_post (c : CodecId) (an : Bool) {r r' : R Val} (hr : Ok N N r r') : OkV N (c.post an r) (c.post an r') := by
  have hn : Lim N Val.none := by simp only [Lim]
  cases c with
  | group => exact okv_upd (okv_forEach okv_group) [P "value"] (ne_values (l := ["value"]) (by decide))
  | character => exact okv_decodeValue (okb_run (ok_character hr))
  | itemContainer => exact okv_decodeValue (okb_empty hn ok_itemContainer)
  | itemContainerSlots => exact okv_decodeValue (okb_empty hn (ok_itemContainerSlots an))
  | characterContainer => exact okv_decodeValue (okb_empty hn ok_charContainer)
  | dynamicItem => exact okv_decodeValue (okb_empty hn (ok_dynamicItem an hr))
  | foliageModel => exact okv_decodeValue (okb_run ok_foliageModel)
  | foliageModelInstance => exact okv_decodeValue (okb_run (ok_foliageInstance an))
  | baseCamp => exact okv_decodeValue (okb_run (ok_baseCamp an))
  | workerDirector => exact okv_decodeValue (okb_run (ok_workerDirector an))
  | workCollection => exact okv_decodeValue (okb_run ok_workCollection)
  | baseCampModule =>
    exact okv_upd (okv_forEach (okv_campModule an)) [P "value"] (ne_values (l := ["value"]) (by decide))
  | work => exact okv_values (okv_work an) fun _ _ => work_dict
  | mapObject => exact okv_values (okv_mapObject an hr) fun _ _ => mapObject_dict
  | debug => exact okv_debug
  | connector => exact okv_decodeValue (okb_empty lim_emptyValues ok_connector)
  | buildProcess => exact okv_decodeValue (okb_run ok_buildProcess)
  | mapModel => exact okv_decodeValue (okb_run (ok_mapModel an))

/-! ### The property reader -/

/-- `ok_bind` with something known about the result of the first reader. -/
theorem ok_bind_post {α β : Type} [HasLim α] [HasLim β] {Q : α → Prop} {x x' : R α} {f f' : α → R β} (hx : Ok K N x x')
    (hQ : ∀ s a s', s.length ≤ K → x s = .ok (a, s') → Q a)
    (hf : ∀ a, HasLim.lim N a → Q a → Ok K N (f a) (f' a)) : Ok K N (x >>= f) (x' >>= f') := by
  intro s hs
  cases hxs : x s with
  | error e =>
    obtain ⟨h1, h2, h3⟩ := hx s hs
    rw [r_bind_error hxs, r_bind_error (h1 ▸ hxs)]
    rw [hxs] at h2
    exact ⟨rfl, fun h' => h2 (by injection h' with h'; rw [h']), fun _ _ => nofun⟩
  | ok p =>
    obtain ⟨a, s1⟩ := p
    obtain ⟨h1, h2, h3⟩ := hx s hs
    rw [r_bind_ok hxs, r_bind_ok (h1 ▸ hxs)]
    obtain ⟨⟨c, hc⟩, ha⟩ := h3 a s1 hxs
    have hl : s1.length ≤ K := by rw [hc, List.length_append] at hs; omega
    obtain ⟨g1, g2, g3⟩ := hf a ha (hQ s a s1 hs hxs) s1 hl
    refine ⟨g1, g2, fun v s' e => ?_⟩
    obtain ⟨⟨c', hc'⟩, hv⟩ := g3 v s' e
    exact ⟨⟨c ++ c', by rw [hc, hc', List.append_assoc]⟩, hv⟩

/-- The nested calls of a property reader. -/
def OkRec (K N : Nat) (rec rec' : PyStr → R Val) : Prop :=
  (∀ p, Ok K N (rec p) (rec' p)) ∧ ∀ p s v s', rec p s = .ok (v, s') → ∃ d, v = .dict d

theorem ok_structValue (an : Bool) {rec rec' : PyStr → R Val} (hr : OkRec K N rec rec') (st path : PyStr) :
    Ok K N (rStructValue an rec st path) (rStructValue an rec' st path) := by
  unfold rStructValue
  have := hr.1 path
  ok_tac'

/-- An element of a struct array that could be a byte took some room. -/
theorem structValue_room {an : Bool} {rec rec' : PyStr → R Val} (hr : OkRec K N rec rec') {st path : PyStr}
    {s s' : Bytes} {v : Val} {b : UInt8} (h : rStructValue an rec st path s = .ok (v, s')) (hb : byteOf v = .ok b) :
    s'.length < s.length := by
  unfold rStructValue at h
  split at h
  · unfold rVectorDict at h
    obtain ⟨_, _, _, h⟩ := r_bind_inv h
    obtain ⟨_, _, _, h⟩ := r_bind_inv h
    obtain ⟨_, _, _, h⟩ := r_bind_inv h
    obtain ⟨rfl, -⟩ := r_pure_inv h
    cases hb
  · split at h
    · obtain ⟨n, s1, h1, h⟩ := r_bind_inv h
      obtain ⟨-, rfl⟩ := r_pure_inv h
      unfold rU64 rUnsigned at h1
      split at h1
      · injection h1 with h1
        injection h1 with _ h1
        rw [← h1, List.length_drop]; omega
      · cases h1
    · split at h
      · obtain ⟨_, _, _, h⟩ := r_bind_inv h
        obtain ⟨rfl, -⟩ := r_pure_inv h
        cases hb
      · split at h
        · unfold rQuatDict at h
          obtain ⟨_, _, _, h⟩ := r_bind_inv h
          obtain ⟨_, _, _, h⟩ := r_bind_inv h
          obtain ⟨_, _, _, h⟩ := r_bind_inv h
          obtain ⟨_, _, _, h⟩ := r_bind_inv h
          obtain ⟨rfl, -⟩ := r_pure_inv h
          cases hb
        · split at h
          · obtain ⟨_, _, _, h⟩ := r_bind_inv h
            obtain ⟨_, _, _, h⟩ := r_bind_inv h
            obtain ⟨_, _, _, h⟩ := r_bind_inv h
            obtain ⟨_, _, _, h⟩ := r_bind_inv h
            obtain ⟨rfl, -⟩ := r_pure_inv h
            cases hb
          · obtain ⟨d, rfl⟩ := hr.2 _ _ _ _ h
            cases hb

theorem repeat_room {x x' : R Val} (hx : Ok K N x x')
    (hb : ∀ s v s' b, s.length ≤ K → x s = .ok (v, s') → byteOf v = .ok b → s'.length < s.length) :
    ∀ (n : Nat) {s s' : Bytes} {l : List Val} {b : Bytes}, s.length ≤ K → rRepeat x n s = .ok (l, s') →
      mapE byteOf l = .ok b → b.length + s'.length ≤ s.length
  | 0, s, s', l, b, _, h, hm => by
    unfold rRepeat at h
    obtain ⟨rfl, rfl⟩ := r_pure_inv h
    cases hm
    simp
  | n + 1, s, s', l, b, hs, h, hm => by
    unfold rRepeat at h
    obtain ⟨a, s1, h1, h⟩ := r_bind_inv h
    obtain ⟨t, s2, h2, h⟩ := r_bind_inv h
    obtain ⟨rfl, rfl⟩ := r_pure_inv h
    simp only [mapE] at hm
    split at hm
    · rename_i x hx'
      split at hm
      · rename_i bs hbs
        cases hm
        have h3 := hb _ _ _ _ hs h1 hx'
        have h4 := repeat_room hx hb n (by omega) h2 hbs
        simp only [List.length_cons]
        omega
      · cases hm
    · cases hm

theorem repeat_nobyte {x : R Val} (hb : ∀ s v s' b, x s = .ok (v, s') → byteOf v ≠ .ok b) (n : Nat) {s s' : Bytes}
    {l : List Val} {b : Bytes} (h : rRepeat x n s = .ok (l, s')) (hm : mapE byteOf l = .ok b) : b = [] := by
  cases n with
  | zero =>
    unfold rRepeat at h
    obtain ⟨rfl, rfl⟩ := r_pure_inv h
    cases hm; rfl
  | succ n =>
    unfold rRepeat at h
    obtain ⟨a, s1, h1, h⟩ := r_bind_inv h
    obtain ⟨t, s2, h2, h⟩ := r_bind_inv h
    obtain ⟨rfl, rfl⟩ := r_pure_inv h
    simp only [mapE] at hm
    split at hm
    · rename_i x hx
      exact absurd hx (hb _ _ _ _ h1)
    · cases hm

theorem str_nobyte (s : Bytes) (v : Val) (s' : Bytes) (b : UInt8) (h : rStr s = .ok (v, s')) : byteOf v ≠ .ok b := by
  unfold rStr at h
  obtain ⟨_, _, _, h⟩ := r_bind_inv h
  obtain ⟨rfl, -⟩ := r_pure_inv h
  nofun

theorem guid_nobyte (s : Bytes) (v : Val) (s' : Bytes) (b : UInt8) (h : rGuid s = .ok (v, s')) : byteOf v ≠ .ok b := by
  unfold rGuid at h
  obtain ⟨_, _, _, h⟩ := r_bind_inv h
  obtain ⟨rfl, -⟩ := r_pure_inv h
  nofun

/-- The elements of an array are a blob only if they were bytes of the input. -/
theorem arrayValue_blob {at_ : PyStr} {count size : Nat} {s s' : Bytes} {v : Val}
    (h : rArrayValue at_ count size s = .ok (v, s')) : blobOk s.length v := by
  have key : ∀ {x : R Val}, (∀ s v s' b, x s = .ok (v, s') → byteOf v ≠ .ok b) →
      (do let l ← rRepeat x count; return .list l : R Val) s = .ok (v, s') → blobOk s.length v := by
    intro x hx h
    obtain ⟨l, s1, h1, h⟩ := r_bind_inv h
    obtain ⟨rfl, -⟩ := r_pure_inv h
    intro b hb
    rw [repeat_nobyte hx _ h1 hb]
    exact Nat.zero_le _
  unfold rArrayValue at h
  split at h
  · exact key str_nobyte h
  · split at h
    · exact key str_nobyte h
    · split at h
      · exact key guid_nobyte h
      · split at h
        · split at h
          · exact byteList_blob h
          · cases h
        · cases h

theorem ok_arrayValue (at_ : PyStr) (count size : Nat) : Ok K N (rArrayValue at_ count size) (rArrayValue at_ count size) := by
  unfold rArrayValue; ok_tac'

theorem ok_arrayProperty (an : Bool) {rec rec' : PyStr → R Val} (hr : OkRec K N rec rec') (hKN : K ≤ N) (at_ : PyStr)
    (size : Nat) (path : PyStr) :
    Ok K N (rArrayProperty an rec at_ size path) (rArrayProperty an rec' at_ size path) := by
  unfold rArrayProperty
  refine ok_bind ok_u32 fun count _ => ok_ite (fun _ => ?_) fun _ => ?_
  · refine ok_bind ok_fstring fun pn _ => ok_bind ok_fstring fun pt _ => ok_bind ok_u64 fun _ _ =>
      ok_bind ok_fstring fun tn _ => ok_bind ok_guid fun id hid => ok_bind (ok_read _) fun _ _ => ?_
    refine ok_bind_post (Q := fun l => blobOk N (.list l)) (ok_repeat (ok_structValue an hr _ _) count) ?_ fun l hl hb =>
      ok_pure ?_
    · intro s l s' hs h b hb
      have := repeat_room (ok_structValue an hr _ _) (fun s v s' b _ h => structValue_room hr h) count hs h hb
      omega
    · simp only [HasLim.lim, lim_dct, LimS, Lim, String.reduceEq, false_imp_iff, and_true, true_and, forall_const] at *
      exact ⟨⟨hl, hb⟩, hid⟩
  · refine ok_bind_post (Q := fun v => blobOk N v) (ok_arrayValue at_ count size) ?_ fun v hv hb => ok_pure ?_
    · exact fun s v s' hs h => blobOk_mono (Nat.le_trans hs hKN) (arrayValue_blob h)
    · simp only [HasLim.lim, lim_dct, LimS, and_true, forall_const] at *
      exact ⟨hv, hb⟩

theorem ok_propValue (an : Bool) {rec rec' : PyStr → R Val} (hr : OkRec K N rec rec') (ty st path : PyStr) :
    Ok K N (rPropValue an rec ty st path) (rPropValue an rec' ty st path) := by
  unfold rPropValue
  have h1 := ok_structValue an hr st path
  have h2 := @ok_i32Val K N
  ok_tac'

theorem ok_mapEntry (an : Bool) {rec rec' : PyStr → R Val} (hr : OkRec K N rec rec') (kt ks vt vs kp vp : PyStr) :
    Ok K N (rMapEntry an rec kt ks vt vs kp vp) (rMapEntry an rec' kt ks vt vs kp vp) := by
  unfold rMapEntry
  have h1 := ok_propValue an hr kt ks kp
  have h2 := ok_propValue an hr vt vs vp
  ok_tac'

theorem lim_structType (ty st : PyStr) : Lim N (structTypeVal ty st) := by
  unfold structTypeVal; split <;> simp only [Lim]

theorem ok_map (cfg : Cfg) {rec rec' : PyStr → R Val} (hr : OkRec K N rec rec') (path : PyStr) :
    Ok K N (rMap cfg rec path) (rMap cfg rec' path) := by
  unfold rMap
  refine ok_bind ok_fstring fun kt _ => ok_bind ok_fstring fun vt _ => ok_bind ok_optGuid fun id hid =>
    ok_bind ok_u32 fun _ _ => ok_bind ok_u32 fun count _ =>
    ok_bind (ok_repeat (ok_mapEntry _ hr _ _ _ _ _ _) _) fun l hl => ok_pure ?_
  have h1 := fun st => @lim_structType N kt st
  have h2 := fun st => @lim_structType N vt st
  simp only [HasLim.lim, lim_dct, LimS, Lim, String.reduceEq, false_imp_iff, and_true, true_and, h1, h2] at *
  exact ⟨hid, hl⟩

theorem ok_idValue {x : R Val} (hx : Ok K N x x) : Ok K N (rIdValue x) (rIdValue x) := by
  unfold rIdValue; ok_tac'

theorem ok_plainBody (cfg : Cfg) {rec rec' : PyStr → R Val} (hr : OkRec K N rec rec') (hKN : K ≤ N) (ty : PyStr)
    (size : Nat) (path : PyStr) : Ok K N (rPlainBody cfg rec ty size path) (rPlainBody cfg rec' ty size path) := by
  unfold rPlainBody rStruct rEnum rBoolProp rArrayProp
  have h1 := fun st => ok_structValue cfg.allowNan hr st path
  have h2 := ok_map cfg hr path
  have h3 := fun at_ => ok_arrayProperty cfg.allowNan hr hKN at_ size path
  have h4 := ok_idValue (@ok_i32Val K N)
  have h5 := ok_idValue (@ok_i64Val K N)
  have h6 := ok_idValue (@ok_float K N cfg.allowNan)
  have h7 := ok_idValue (@ok_str K N)
  repeat (any_goals first | exact h1 _ | exact h3 _ | ok_step)

theorem ok_plain (cfg : Cfg) {rec rec' : PyStr → R Val} (hr : OkRec K N rec rec') (hKN : K ≤ N) (ty : PyStr)
    (size : Nat) (path : PyStr) : Ok K N (rPlain cfg rec ty size path) (rPlain cfg rec' ty size path) := by
  unfold rPlain
  refine ok_bind (ok_plainBody cfg hr hKN ty size path) fun v hv => ok_lift (set_fuel _ _ _) fun w hw => ?_
  exact set_lim hv (by simp only [Lim]) (fun e => absurd ((P_inj _ _).1 e) (by decide)) hw

theorem ok_liftV {f f' : Val → Except Err Val} (hf : OkV N f f') {v : Val} (hv : Lim N v) :
    Ok K N (rLift (f v)) (rLift (f' v)) := by
  obtain ⟨h1, h2, h3⟩ := hf v hv
  rw [← h1]
  exact ok_lift h2 h3

/-- One property: the nested calls see at most `K` bytes, both in the stream and in blobs. -/
theorem ok_property (cfg : Cfg) {rec rec' : PyStr → R Val} (hr : OkRec K K rec rec') (ty : PyStr)
    (size : Nat) (path : PyStr) : Ok K K (rProperty cfg rec ty size path) (rProperty cfg rec' ty size path) := by
  unfold rProperty
  cases cfg.custom path with
  | none => exact ok_plain cfg hr (Nat.le_refl _) ty size path
  | some c =>
    simp only
    refine ok_ite (fun _ => ?_) fun _ => ok_fail nofun
    refine ok_bind (ok_plain cfg hr (Nat.le_refl _) ty size path) fun v hv => ?_
    refine ok_bind (ok_liftV (okv_post c _ (hr.1 [])) hv) fun w hw => ?_
    refine ok_bind (ok_lift (set_fuel _ _ _) fun x hx => ?_) fun x hx =>
      ok_lift (set_fuel _ _ _) fun y hy => ?_
    · exact set_lim hw (by simp only [Lim]) (fun e => absurd ((P_inj _ _).1 e) (by decide)) hx
    · exact set_lim hx (by simp only [Lim]) (fun e => absurd ((P_inj _ _).1 e) (by decide)) hy

theorem property_noblob {cfg : Cfg} {rec : PyStr → R Val} {ty : PyStr} {size : Nat} {path : PyStr} {s s' : Bytes}
    {v : Val} (h : rProperty cfg rec ty size path s = .ok (v, s')) (N : Nat) : blobOk N v := by
  have hp : ∀ {s s' v}, rPlain cfg rec ty size path s = .ok (v, s') → blobOk N v := by
    intro s s' v h
    unfold rPlain at h
    obtain ⟨w, s1, -, h⟩ := r_bind_inv h
    exact set_noblob (rLift_inv h).1 N
  unfold rProperty at h
  cases hc : cfg.custom path with
  | none => rw [hc] at h; exact hp h
  | some c =>
    rw [hc] at h
    simp only at h
    split at h
    · obtain ⟨w, s1, -, h⟩ := r_bind_inv h
      obtain ⟨w', s1, -, h⟩ := r_bind_inv h
      obtain ⟨w'', s1, -, h⟩ := r_bind_inv h
      exact set_noblob (rLift_inv h).1 N
    · cases h

theorem loop_dict (cfg : Cfg) : ∀ (n : Nat) (path : PyStr) (acc : Dict) (s : Bytes) (v : Val) (s' : Bytes),
    rPropsLoop cfg n path acc s = .ok (v, s') → ∃ d, v = .dict d
  | 0, _, _, _, _, _, h => by cases h
  | n + 1, path, acc, s, v, s', h => by
    unfold rPropsLoop at h
    obtain ⟨name, s1, -, h⟩ := r_bind_inv h
    split at h
    · obtain ⟨rfl, -⟩ := r_pure_inv h; exact ⟨acc, rfl⟩
    · obtain ⟨ty, s2, -, h⟩ := r_bind_inv h
      obtain ⟨size, s3, -, h⟩ := r_bind_inv h
      obtain ⟨w, s4, -, h⟩ := r_bind_inv h
      exact loop_dict cfg n path _ s4 v s' h

theorem lt_of_signed {k : Nat} (hk : 0 < k) {s s' : Bytes} {i : Int} (h : rSigned k s = .ok (i, s')) :
    s'.length < s.length := by
  unfold rSigned at h
  split at h
  · injection h with h
    injection h with _ h
    rw [← h, List.length_drop]; omega
  · cases h

/-- The part of `fstring` after the size. -/
def fstringBody (size : Int) : R PyStr :=
  if size = 0 then pure []
  else if size < 0 then do
    let data ← rRead (2 * size.natAbs)
    match utf16Decode (data.take (data.length - 2)) with
    | some s => return s
    | none => rFail (.exc "Error decoding utf-16-le string")
  else do
    let data ← rRead size.natAbs
    match asciiDecode (data.take (data.length - 1)) with
    | some s => return s
    | none => rFail (.exc "Error decoding ascii string")

theorem fstring_consumes {s s' : Bytes} {x : PyStr} (h : rFString s = .ok (x, s')) : s'.length < s.length := by
  have h0 := h
  unfold rFString at h
  obtain ⟨size, s1, h1, h⟩ := r_bind_inv h
  have hlt := lt_of_signed (by decide) h1
  have key : s'.length ≤ s1.length := by
    have hc : Ok s1.length 0 (fstringBody size) (fstringBody size) := by
      unfold fstringBody
      refine ok_ite (fun _ => ok_pure trivial) fun _ => ok_ite (fun _ => ?_) fun _ => ?_
      · refine ok_bind (ok_read _) fun data _ => ?_
        cases utf16Decode (data.take (data.length - 2)) with
        | none => exact ok_fail nofun
        | some s => exact ok_pure trivial
      · refine ok_bind (ok_read _) fun data _ => ?_
        cases asciiDecode (data.take (data.length - 1)) with
        | none => exact ok_fail nofun
        | some s => exact ok_pure trivial
    obtain ⟨⟨c, hc⟩, -⟩ := (hc s1 (Nat.le_refl _)).2.2 _ _ h
    rw [hc, List.length_append]; omega
  omega

/-- The whole property reader, for any budget above the number of bytes. -/
theorem ok_loop (cfg : Cfg) : ∀ (K : Nat) (n n' : Nat) (path : PyStr) (acc : Dict) (N : Nat), K < n → K < n' → K ≤ N →
    LimD N acc → Ok K N (rPropsLoop cfg n path acc) (rPropsLoop cfg n' path acc) := by
  intro K
  induction K using Nat.strongRecOn with
  | ind K ih =>
    intro n n' path acc N hn hn' hKN hacc s hs
    obtain ⟨n, rfl⟩ : ∃ m, n = m + 1 := ⟨n - 1, by omega⟩
    obtain ⟨n', rfl⟩ : ∃ m, n' = m + 1 := ⟨n' - 1, by omega⟩
    unfold rPropsLoop
    have hf := ok_fstring (K := K) (N := N) s hs
    cases h1 : rFString s with
    | error e =>
      rw [h1] at hf
      rw [r_bind_error h1, r_bind_error h1]
      exact ⟨rfl, fun h => hf.2.1 (by injection h with h; rw [h]), fun _ _ => nofun⟩
    | ok q =>
      obtain ⟨name, s1⟩ := q
      rw [r_bind_ok h1, r_bind_ok h1]
      have hc1 := fstring_consumes h1
      obtain ⟨⟨c1, e1⟩, -⟩ := hf.2.2 _ _ h1
      have fin : ∀ {x x' : R Val}, Ok s1.length N x x' → x s1 = x' s1 ∧ x s1 ≠ .error .fuel ∧
          ∀ v s', x s1 = .ok (v, s') → (∃ c, s = c ++ s') ∧ HasLim.lim N v := by
        intro x x' hx
        obtain ⟨g1, g2, g3⟩ := hx s1 (Nat.le_refl _)
        refine ⟨g1, g2, fun v s' e => ?_⟩
        obtain ⟨⟨c', hc'⟩, hv⟩ := g3 v s' e
        exact ⟨⟨c1 ++ c', by rw [e1, hc', List.append_assoc]⟩, hv⟩
      refine fin (ok_ite (fun _ => ok_pure (by simpa only [HasLim.lim, Lim] using hacc)) fun _ => ?_)
      refine ok_bind ok_fstring fun ty _ => ok_bind ok_u64 fun size _ => ?_
      have hrec : OkRec s1.length s1.length (fun p => rPropsLoop cfg n p []) (fun p => rPropsLoop cfg n' p []) :=
        ⟨fun p => ih s1.length (by omega) n n' p [] s1.length (by omega) (by omega) (Nat.le_refl _)
          (by simp only [LimD]), fun p => loop_dict cfg n p []⟩
      have hprop := ok_property cfg hrec ty size (path ++ dot ++ name)
      have hprop' : Ok s1.length N (rProperty cfg (fun p => rPropsLoop cfg n p []) ty size (path ++ dot ++ name))
          (rProperty cfg (fun p => rPropsLoop cfg n' p []) ty size (path ++ dot ++ name)) := by
        intro t ht
        obtain ⟨g1, g2, g3⟩ := hprop t ht
        exact ⟨g1, g2, fun v s' e => ⟨(g3 v s' e).1, lim_mono (by omega) v (g3 v s' e).2⟩⟩
      refine ok_bind_post (Q := fun v => blobOk N v) hprop' (fun _ _ _ _ h => property_noblob h N) fun v hv hb => ?_
      refine ih s1.length (by omega) n n' path _ N (by omega) (by omega) (by omega) ?_
      rw [limD_iff] at hacc ⊢
      intro kv hkv
      rcases mem_dset hkv with hm | rfl
      · exact hacc kv hm
      · exact ⟨hv, fun _ => hb⟩

end Pal
