import Verif.Model.Shallow
import Verif.Lemmas.Prim
import Mathlib.Data.List.Forall2
/-
A short stack makes a reader or writer raise RecursionError, or changes nothing, as long as
nothing catches the exception on the way.
-/

namespace Pal
namespace Shallow

/-- The first outcome is the second one, or RecursionError. -/
def Sh {α : Type} (x y : Except Err α) : Prop := x = y ∨ x = .error stackErr

/-- The same for readers. -/
def ShR {α : Type} (x y : R α) : Prop := ∀ s, Sh (x s) (y s)

/-- The same for functions of values. -/
def ShV {α β : Type} (f g : α → Except Err β) : Prop := ∀ v, Sh (f v) (g v)

theorem sh_refl {α : Type} (x : Except Err α) : Sh x x := .inl rfl
theorem shR_refl {α : Type} (x : R α) : ShR x x := fun _ => .inl rfl
theorem shV_refl {α β : Type} (f : α → Except Err β) : ShV f f := fun _ => .inl rfl
theorem shR_room {α : Type} {b : Bool} {x y : R α} (h : ShR x y) : ShR (ifRoom b x) y := by
  intro s
  cases b with
  | false => exact .inr rfl
  | true => exact h s

theorem shR_bind {α β : Type} {x y : R α} {f g : α → R β} (h : ShR x y) (hf : ∀ a, ShR (f a) (g a)) :
    ShR (x >>= f) (y >>= g) := by
  intro s
  rw [r_bind, r_bind]
  rcases h s with e | e
  · rw [e]
    cases y s with
    | error e => exact .inl rfl
    | ok p => exact hf p.1 p.2
  · rw [e]; exact .inr rfl

theorem shR_bind' {α β : Type} (x : R α) {f g : α → R β} (hf : ∀ a, ShR (f a) (g a)) : ShR (x >>= f) (x >>= g) :=
  shR_bind (shR_refl x) hf

theorem shR_ite {α : Type} {c : Prop} [Decidable c] {a b a' b' : R α} (h : ShR a a') (g : ShR b b') :
    ShR (if c then a else b) (if c then a' else b') := by
  split
  · exact h
  · exact g

theorem shR_lift {α : Type} {x y : Except Err α} (h : Sh x y) : ShR (rLift x) (rLift y) := by
  intro s
  rcases h with rfl | rfl
  · exact .inl rfl
  · exact .inr rfl

theorem shR_repeat {x y : R Val} (h : ShR x y) : ∀ n, ShR (rRepeat x n) (rRepeat y n)
  | 0 => shR_refl _
  | n + 1 => shR_bind h fun _ => shR_bind (shR_repeat h n) fun _ => shR_refl _

/-! ### the property reader -/

section
variable {r r' : PyStr → R Val} (hr : ∀ p, ShR (r p) (r' p))
include hr

theorem shR_structValue (an : Bool) (st path : PyStr) : ShR (rStructValue an r st path) (rStructValue an r' st path) := by
  unfold rStructValue
  exact shR_ite (shR_refl _) (shR_ite (shR_refl _) (shR_ite (shR_refl _) (shR_ite (shR_refl _) (shR_ite (shR_refl _) (hr _)))))

theorem shR_struct (an : Bool) (path : PyStr) : ShR (rStruct an r path) (rStruct an r' path) :=
  shR_bind' _ fun _ => shR_bind' _ fun _ => shR_bind' _ fun _ => shR_bind (shR_structValue hr an _ _) fun _ => shR_refl _

theorem shR_propValue (an : Bool) (ty st path : PyStr) : ShR (rPropValue an r ty st path) (rPropValue an r' ty st path) := by
  unfold rPropValue
  exact shR_ite (shR_structValue hr an _ _) (shR_refl _)

theorem shR_arrayProperty (an : Bool) (at_ : PyStr) (size : Nat) (path : PyStr) :
    ShR (rArrayProperty an r at_ size path) (rArrayProperty an r' at_ size path) := by
  unfold rArrayProperty
  refine shR_bind' _ fun c => shR_ite ?_ (shR_refl _)
  exact shR_bind' _ fun _ => shR_bind' _ fun _ => shR_bind' _ fun _ => shR_bind' _ fun _ => shR_bind' _ fun _ => shR_bind' _ fun _ =>
    shR_bind (shR_repeat (shR_structValue hr an _ _) _) fun _ => shR_refl _

theorem shR_mapEntry (an : Bool) (kt ks vt vs kp vp : PyStr) : ShR (rMapEntry an r kt ks vt vs kp vp) (rMapEntry an r' kt ks vt vs kp vp) :=
  shR_bind (shR_propValue hr an _ _ _) fun _ => shR_bind (shR_propValue hr an _ _ _) fun _ => shR_refl _

theorem shR_map (cfg : Cfg) (path : PyStr) : ShR (rMap cfg r path) (rMap cfg r' path) := by
  unfold rMap
  exact shR_bind' _ fun _ => shR_bind' _ fun _ => shR_bind' _ fun _ => shR_bind' _ fun _ => shR_bind' _ fun _ =>
    shR_bind (shR_repeat (shR_mapEntry hr _ _ _ _ _ _ _) _) fun _ => shR_refl _

theorem shR_arrayProp (an : Bool) (size : Nat) (path : PyStr) : ShR (rArrayProp an r size path) (rArrayProp an r' size path) :=
  shR_bind' _ fun _ => shR_bind' _ fun _ => shR_bind (shR_arrayProperty hr an _ _ _) fun _ => shR_refl _

theorem shR_plainBody (cfg : Cfg) (ty : PyStr) (size : Nat) (path : PyStr) :
    ShR (rPlainBody cfg r ty size path) (rPlainBody cfg r' ty size path) := by
  unfold rPlainBody
  exact shR_ite (shR_struct hr _ _) (shR_ite (shR_refl _) (shR_ite (shR_refl _) (shR_ite (shR_refl _) (shR_ite (shR_refl _)
    (shR_ite (shR_refl _) (shR_ite (shR_refl _) (shR_ite (shR_refl _) (shR_ite (shR_refl _)
    (shR_ite (shR_arrayProp hr _ _ _) (shR_ite (shR_map hr _ _) (shR_refl _)))))))))))

theorem shR_plain (cfg : Cfg) (ty : PyStr) (size : Nat) (path : PyStr) : ShR (rPlain cfg r ty size path) (rPlain cfg r' ty size path) :=
  shR_bind (shR_plainBody hr _ _ _ _) fun _ => shR_refl _

end

/-! ### decoders -/

theorem shV_upd {f g : Val → Except Err Val} (h : ShV f g) : ∀ ks, ShV (Val.upd f ks) (Val.upd g ks)
  | [] => h
  | k :: ks => by
    intro v
    simp only [Val.upd]
    cases v.get k with
    | error e => exact .inl rfl
    | ok x =>
      rcases shV_upd h ks x with e | e
      · simp only [e]; exact .inl rfl
      · simp only [e]; exact .inr rfl

theorem sh_mapE {α β : Type} {f g : α → Except Err β} (h : ShV f g) : ∀ l, Sh (mapE f l) (mapE g l)
  | [] => .inl rfl
  | a :: t => by
    simp only [mapE]
    rcases h a with e | e
    · rw [e]
      cases g a with
      | error e => exact .inl rfl
      | ok b =>
        rcases sh_mapE h t with e | e
        · simp only [e]; exact .inl rfl
        · simp only [e]; exact .inr rfl
    · rw [e]; exact .inr rfl

theorem shV_forEach {f g : Val → Except Err Val} (h : ShV f g) : ShV (forEach f) (forEach g) := by
  intro v
  unfold forEach
  split
  · rcases sh_mapE h _ with e | e
    · rw [e]; exact .inl rfl
    · rw [e]; exact .inr rfl
  · rcases sh_mapE h _ with e | e
    · rw [e]; exact .inl rfl
    · rw [e]; exact .inr rfl
  all_goals exact .inl rfl

theorem shV_onValues {f g : Val → Except Err Val} (h : ShV f g) : ShV (onValues f) (onValues g) := by
  intro v
  unfold onValues
  split
  · exact h _
  · exact .inl rfl

theorem sh_runBlob {x y : R Val} (h : ShR x y) (v : Val) : Sh (runBlob v x) (runBlob v y) := by
  unfold runBlob
  split
  · exact .inl rfl
  · rename_i b _
    rcases h b with e | e
    · rw [e]; exact .inl rfl
    · rw [e]; exact .inr rfl

theorem sh_emptyOr {x y : R Val} (h : ShR x y) (d v : Val) : Sh (emptyOr d v x) (emptyOr d v y) := by
  unfold emptyOr
  split
  · exact .inl rfl
  · exact .inl rfl
  · exact sh_runBlob h v

theorem shV_updAll : ∀ {l l' : List (Val → Except Err Val)}, List.Forall₂ ShV l l' → ShV (updAll l) (updAll l')
  | _, _, .nil => fun _ => .inl rfl
  | _, _, .cons (a := f) (b := g) hf ht => by
    intro v
    simp only [updAll]
    rcases hf v with e | e
    · rw [e]
      cases g v with
      | error e => exact .inl rfl
      | ok w => exact shV_updAll ht w
    · rw [e]; exact .inr rfl

theorem shR_concrete (an : Bool) {r r' : R Val} (hr : ShR r r') (oid raw : Val) :
    ShR (concreteDecode an r oid raw) (concreteDecode an r' oid raw) := by
  unfold concreteDecode
  split
  · split
    · exact shR_refl _
    · rename_i c _
      refine shR_bind' _ fun _ => shR_bind' _ fun _ => ?_
      by_cases hc : c = "PalMapObjectHatchingEggModel"
      · subst hc
        have e : ∀ q, concreteBody an q "PalMapObjectHatchingEggModel" = some (cmHatch q) := fun _ => rfl
        simp only [e]
        exact shR_bind (shR_bind hr fun _ => shR_refl _) fun _ => shR_refl _
      · have e : concreteBody an r c = concreteBody an r' c := by
          unfold concreteBody
          rw [if_neg hc, if_neg hc]
        rw [e]
        exact shR_refl _
  · exact shR_refl _

theorem shV_post (c : CodecId) (hc : c ≠ .dynamicItem) (an : Bool) {r r' : R Val} (hr : ShR r r') :
    ShV (c.post an r) (c.post an r') := by
  cases c
  case dynamicItem => exact absurd rfl hc
  case character =>
    exact shV_upd (shV_onValues fun b => sh_runBlob (shR_bind hr fun _ => shR_refl _) b) _
  case mapObject =>
    refine shV_upd (shV_forEach (shV_updAll (.cons (shV_refl _) (.cons (shV_refl _) (.cons (shV_refl _) (.cons ?_ (.cons (shV_refl _) .nil))))))) _
    intro m
    beta_reduce
    split
    · exact .inl rfl
    · exact shV_upd (shV_onValues fun b => sh_emptyOr (shR_concrete an hr _ _) _ _) _ _
  all_goals exact shV_refl _

theorem shR_property {cfg : Cfg} (hd : ∀ p, cfg.custom p ≠ some .dynamicItem) {r r' : PyStr → R Val} (hr : ∀ p, ShR (r p) (r' p))
    (ty : PyStr) (size : Nat) (path : PyStr) : ShR (rProperty cfg r ty size path) (rProperty cfg r' ty size path) := by
  unfold rProperty
  split
  · exact shR_plain hr _ _ _ _
  · rename_i c hc
    refine shR_ite ?_ (shR_refl _)
    exact shR_bind (shR_plain hr _ _ _ _) fun v => shR_bind (shR_lift (shV_post c (fun e => hd path (e ▸ hc)) _ (hr []) v)) fun _ => shR_refl _

theorem shR_loop {cfg : Cfg} (hd : ∀ p, cfg.custom p ≠ some .dynamicItem) (st : Stack) :
    ∀ n ch path acc, ShR (sLoop cfg st n ch path acc) (rPropsLoop cfg n path acc)
  | 0, _, _, _ => shR_refl _
  | n + 1, ch, path, acc => by
    unfold sLoop rPropsLoop
    refine shR_bind' _ fun name => shR_ite (shR_refl _) (shR_bind' _ fun ty => shR_bind' _ fun size => ?_)
    exact shR_bind (shR_room (shR_property hd (fun p => shR_room (shR_loop hd st n _ p [])) _ _ _)) fun v => shR_loop hd st n ch path _

/-! ### with room everywhere -/

/-- A stack that is never used up. -/
def Stack.Ample (st : Stack) : Prop := (∀ ch, st.nested ch = true) ∧ (∀ ch ty q, st.own ch ty q = true) ∧ ∀ ch, st.write ch = true

theorem loop_ample {cfg : Cfg} {st : Stack} (h : Stack.Ample st) : ∀ n ch path acc, sLoop cfg st n ch path acc = rPropsLoop cfg n path acc
  | 0, _, _, _ => rfl
  | n + 1, ch, path, acc => by
    unfold sLoop rPropsLoop
    simp only [h.1, h.2.1, ifRoom, if_true, loop_ample h n]

theorem props_ample {st : Stack} (h : Stack.Ample st) : ∀ n cfg ch v, sProps st n cfg ch v = wProps n cfg v
  | 0, _, _, _ => rfl
  | n + 1, cfg, ch, v => by
    unfold sProps wProps
    have e : ∀ cfg ch, sProps st n cfg ch = wProps n cfg := fun cfg ch => funext fun v => props_ample h n cfg ch v
    simp only [h.2.2, if_true, e]
    rfl

/-! ### the writer -/

theorem sh_ite {α : Type} {c : Prop} [Decidable c] {a b a' b' : Except Err α} (h : Sh a a') (g : Sh b b') :
    Sh (if c then a else b) (if c then a' else b') := by
  split
  · exact h
  · exact g

theorem sh_cat : ∀ {l l' : List (Except Err Bytes)}, List.Forall₂ Sh l l' → Sh (wcat l) (wcat l')
  | _, _, .nil => .inl rfl
  | _, _, .cons (a := x) (b := y) h t => by
    simp only [wcat]
    rcases h with rfl | rfl
    · cases x with
      | error e => exact .inl rfl
      | ok b =>
        rcases sh_cat t with e | e
        · simp only [e]; exact .inl rfl
        · simp only [e]; exact .inr rfl
    · exact .inr rfl

theorem sh_at {f g : Val → Except Err Bytes} (h : ShV f g) (v : Val) (ks : List String) : Sh (wAt v ks f) (wAt v ks g) := by
  unfold wAt
  split
  · exact h _
  · exact .inl rfl

theorem shV_noneOr {f g : Val → Except Err Bytes} (h : ShV f g) : ShV (noneOr f) (noneOr g) := by
  intro v
  unfold noneOr
  split
  · exact .inl rfl
  · exact h _

theorem shV_asList {f g : Val → Except Err Bytes} (h : ShV f g) : ShV (asValuesList f) (asValuesList g) := by
  intro v
  unfold asValuesList
  rcases h v with e | e
  · rw [e]; exact .inl rfl
  · rw [e]; exact .inr rfl

theorem shV_asBytes {f g : Val → Except Err Bytes} (h : ShV f g) : ShV (asValuesBytes f) (asValuesBytes g) := by
  intro v
  unfold asValuesBytes
  rcases h v with e | e
  · rw [e]; exact .inl rfl
  · rw [e]; exact .inr rfl

theorem shV_unless {f g : Val → Except Err Val} (h : ShV f g) : ShV (unlessValues f) (unlessValues g) := by
  intro v
  unfold unlessValues
  split
  · exact .inl rfl
  · exact .inl rfl
  · exact h _

theorem shV_delThen {f g : Val → Except Err Val} (h : ShV f g) : ShV (delThen f) (delThen g) := by
  intro v
  unfold delThen
  split
  · exact h _
  · exact .inl rfl

theorem shV_encodeValue {f g : Val → Except Err Bytes} (h : ShV f g) : ShV (encodeValue f) (encodeValue g) :=
  shV_delThen (shV_upd (shV_asList h) _)

theorem shV_concreteEncode {wp wp' : Val → Except Err Bytes} (h : ShV wp wp') : ShV (concreteEncode wp) (concreteEncode wp') := by
  intro p
  refine sh_at (fun c => sh_cat (.cons (sh_refl _) (.cons (sh_refl _) (.cons ?_ .nil)))) _ _
  by_cases hc : c.isS "PalMapObjectHatchingEggModel"
  · unfold concreteBodyEncode
    repeat' refine sh_ite (sh_refl _) ?_
    exact sh_ite (sh_cat (.cons (sh_at h _ _) (.cons (sh_refl _) (.cons (sh_refl _) .nil)))) (sh_refl _)
  · unfold concreteBodyEncode
    rw [if_neg hc, if_neg hc]
    exact sh_refl _

theorem shV_pre (c : CodecId) {wp wp' : Val → Except Err Bytes} (h : ShV wp wp') : ShV (c.pre wp) (c.pre wp') := by
  cases c
  case character => exact shV_encodeValue fun p => sh_cat (.cons (sh_at h _ _) (.cons (sh_refl _) (.cons (sh_refl _) .nil)))
  case dynamicItem =>
    refine shV_encodeValue (shV_noneOr fun p => sh_cat (.cons (sh_refl _) (.cons (sh_refl _) (.cons (sh_refl _) (.cons
      (sh_at (fun t => sh_ite (sh_refl _) (sh_ite (sh_cat ?_) (sh_refl _))) _ _) .nil)))))
    exact .cons (sh_refl _) (.cons (sh_at h _ _) (.cons (sh_refl _) (.cons (sh_refl _) .nil)))
  case mapObject =>
    refine shV_delThen (shV_upd (shV_forEach (shV_updAll (.cons (shV_refl _) (.cons (shV_refl _) (.cons (shV_refl _) (.cons ?_ (.cons (shV_refl _) .nil))))))) _)
    exact shV_upd (shV_unless (shV_asBytes (shV_noneOr (shV_concreteEncode h)))) _
  all_goals exact shV_refl _

theorem sh_on {f g : Val → W} (h : ShV f g) (v : Val) (k : String) : Sh (wOn v k f) (wOn v k g) := by
  unfold wOn
  split
  · exact .inl rfl
  · rename_i x _
    rcases h x with e | e
    · rw [e]; exact .inl rfl
    · rw [e]; exact .inr rfl

theorem sh_then {x y : W} (h : Sh x y) (pre : Except Err Bytes) : Sh (wThen pre x) (wThen pre y) := by
  unfold wThen
  split
  · exact .inl rfl
  · rcases h with rfl | rfl
    · exact .inl rfl
    · exact .inr rfl

theorem sh_sized {x y : W} (h : Sh x y) (pre : Except Err Bytes) : Sh (sized pre x) (sized pre y) := by
  unfold sized
  split
  · exact .inl rfl
  · rcases h with rfl | rfl
    · exact .inl rfl
    · exact .inr rfl

theorem sh_mapL {f g : Val → W} (h : ShV f g) : ∀ l, Sh (wMapL f l) (wMapL g l)
  | [] => .inl rfl
  | a :: t => by
    simp only [wMapL]
    rcases h a with e | e
    · rw [e]
      cases g a with
      | error e => exact .inl rfl
      | ok b =>
        rcases sh_mapL h t with e | e
        · simp only [e]; exact .inl rfl
        · simp only [e]; exact .inr rfl
    · rw [e]; exact .inr rfl

theorem shV_seq {f g : Val → W} (h : ShV f g) : ShV (wSeq f) (wSeq g) := by
  intro v
  unfold wSeq
  split
  · rcases sh_mapL h _ with e | e
    · rw [e]; exact .inl rfl
    · rw [e]; exact .inr rfl
  · rcases sh_mapL h _ with e | e
    · rw [e]; exact .inl rfl
    · rw [e]; exact .inr rfl
  · split
    · exact .inl rfl
    · rename_i l _
      rcases sh_mapL h l with e | e
      · rw [e]; exact .inl rfl
      · rw [e]; exact .inr rfl

theorem shV_iter {f g : Val → W} (h : ShV f g) : ShV (wIter f) (wIter g) := by
  intro v
  unfold wIter
  split
  · rcases sh_mapL h _ with e | e
    · rw [e]; exact .inl rfl
    · rw [e]; exact .inr rfl
  · rcases sh_mapL h _ with e | e
    · rw [e]; exact .inl rfl
    · rw [e]; exact .inr rfl
  · split
    · exact .inl rfl
    · rename_i l _
      rcases sh_mapL h l with e | e
      · rw [e]; exact .inl rfl
      · rw [e]; exact .inr rfl

section
variable {r r' : Val → W} (hr : ShV r r')
include hr

theorem shV_wStructValue (st : Val) : ShV (wStructValue r st) (wStructValue r' st) := by
  intro v
  unfold wStructValue
  exact sh_ite (sh_refl _) (sh_ite (sh_refl _) (sh_ite (sh_refl _) (sh_ite (sh_refl _) (sh_ite (sh_refl _) (hr _)))))

theorem shV_wPropValue (ty st : Val) : ShV (wPropValue r ty st) (wPropValue r' ty st) := by
  intro v
  unfold wPropValue
  exact sh_ite (shV_wStructValue hr _ _) (sh_refl _)

theorem shV_wStructElem (value : Val) : ShV (wStructElem r value) (wStructElem r' value) := by
  intro v
  unfold wStructElem
  split
  · exact .inl rfl
  · exact shV_wStructValue hr _ _

theorem shV_wArrayProperty (at_ : Val) : ShV (wArrayProperty r at_) (wArrayProperty r' at_) := by
  intro v
  unfold wArrayProperty
  refine sh_then (sh_ite (sh_then ?_ _) (sh_refl _)) _
  rcases sh_on (shV_seq (shV_wStructElem hr v)) v "values" with e | e
  · rw [e]; exact .inl rfl
  · rw [e]; exact .inr rfl

theorem shV_wMapEntry (prop : Val) : ShV (wMapEntry r prop) (wMapEntry r' prop) := by
  intro v
  unfold wMapEntry
  split
  · exact .inl rfl
  · split
    · exact .inl rfl
    · rename_i kt _ _ kst _
      rcases sh_on (shV_wPropValue hr kt kst) v "key" with e | e
      · rw [e]
        split
        · exact .inl rfl
        · split
          · exact .inl rfl
          · split
            · exact .inl rfl
            · exact sh_then (sh_on (shV_wPropValue hr _ _) _ _) _
      · rw [e]; exact .inr rfl

theorem sh_wPlainInner (ty prop : Val) : Sh (wPlainInner r ty prop) (wPlainInner r' ty prop) := by
  unfold wPlainInner
  refine sh_ite (sh_sized ?_ _) ?_
  · split
    · exact .inl rfl
    · exact sh_on (shV_wStructValue hr _) _ _
  refine sh_ite (sh_refl _) (sh_ite (sh_refl _) (sh_ite (sh_refl _) (sh_ite (sh_refl _) (sh_ite (sh_refl _) (sh_ite (sh_refl _)
    (sh_ite (sh_refl _) (sh_ite (sh_refl _) (sh_ite (sh_sized ?_ _) (sh_ite (sh_sized (sh_then (sh_on (shV_iter (shV_wMapEntry hr _)) _ _) _) _)
    (sh_refl _))))))))))
  split
  · exact .inl rfl
  · exact sh_on (shV_wArrayProperty hr _) _ _

theorem sh_wInner (cfg : Cfg) {wp wp' : Val → Except Err Bytes} (hw : ShV wp wp') (ty prop : Val) :
    Sh (wInner cfg r wp ty prop) (wInner cfg r' wp' ty prop) := by
  unfold wInner
  split
  · exact .inl rfl
  · exact sh_wPlainInner hr _ _
  · split
    · exact .inl rfl
    · split
      · exact .inl rfl
      · rename_i c _
        refine sh_ite ?_ (sh_refl _)
        rcases shV_pre c hw prop with e | e
        · rw [e]
          split
          · exact .inl rfl
          · exact sh_wPlainInner hr _ _
        · rw [e]; exact .inr rfl
    all_goals exact .inl rfl

theorem shV_wProperty (cfg : Cfg) {wp wp' : Val → Except Err Bytes} (hw : ShV wp wp') : ShV (wProperty cfg r wp) (wProperty cfg r' wp') := by
  intro prop
  unfold wProperty
  split
  · exact .inl rfl
  · split
    · exact .inl rfl
    · rename_i ty _ _ _ _
      rcases sh_wInner hr cfg hw ty prop with e | e
      · rw [e]; exact .inl rfl
      · rw [e]; exact .inr rfl

end

theorem sh_entries {f g : Val → W} (h : ShV f g) : ∀ d, Sh (wEntries f d) (wEntries g d)
  | [] => .inl rfl
  | (k, v) :: t => by
    simp only [wEntries]
    split
    · exact .inl rfl
    · rcases h v with e | e
      · rw [e]
        cases g v with
        | error e => exact .inl rfl
        | ok b =>
          rcases sh_entries h t with e | e
          · simp only [e]; exact .inl rfl
          · simp only [e]; exact .inr rfl
      · rw [e]; exact .inr rfl

theorem shV_body {f g : Val → W} (h : ShV f g) : ShV (wPropsBody f) (wPropsBody g) := by
  intro v
  unfold wPropsBody
  split
  · rename_i d
    rcases sh_entries h d with e | e
    · rw [e]; exact .inl rfl
    · rw [e]; exact .inr rfl
  · exact .inl rfl

theorem shV_props (st : Stack) : ∀ n cfg ch, ShV (sProps st n cfg ch) (wProps n cfg)
  | 0, _, _ => shV_refl _
  | n + 1, cfg, ch => by
    intro v
    unfold sProps wProps
    split
    · refine shV_body (shV_wProperty (shV_props st n cfg _) cfg fun p => ?_) v
      rcases shV_props st n Cfg.empty (v :: ch) p with e | e
      · rw [e]; exact .inl rfl
      · rw [e]; exact .inr rfl
    · exact .inr rfl

end Shallow
end Pal
