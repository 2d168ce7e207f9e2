import Verif.Model.Warn
import Verif.Lemmas.Inv
import Mathlib.Data.List.Forall2
/-
The reader with prints does what the reader does; and what it does depends on missing type
hints only where a guess was printed.
-/

namespace Pal
namespace Warn

/-- `y` does what `x` does, whenever all that `x` prints is fine. -/
def Ag {α : Type} (F : Warning → Prop) (x : L α) (y : R α) : Prop :=
  ∀ s, (∀ w ∈ x.log s, F w) → y s = x.run s

/-- The same for functions of values. -/
def AgV {α β : Type} (F : Warning → Prop) (f : α → E β) (g : α → Except Err β) : Prop :=
  ∀ a, (∀ w ∈ (f a).2, F w) → g a = (f a).1

theorem bind_run {α β : Type} (x : L α) (f : α → L β) : (x >>= f).run = x.run >>= fun a => (f a).run := rfl

theorem bind_log {α β : Type} (x : L α) (f : α → L β) (s : Bytes) :
    (x >>= f).log s = x.log s ++ match x.run s with
      | .ok (a, s') => (f a).log s'
      | .error _ => [] := rfl

section
variable {F : Warning → Prop}

theorem ag_lift {α : Type} (x : R α) : Ag F (L.lift x) x := fun _ _ => rfl

theorem ag_bind {α β : Type} {x : L α} {y : R α} {f : α → L β} {g : α → R β} (h : Ag F x y) (hf : ∀ a, Ag F (f a) (g a)) :
    Ag F (x >>= f) (y >>= g) := by
  intro s hs
  rw [bind_log] at hs
  rw [bind_run, r_bind, r_bind, h s fun w hw => hs w (List.mem_append_left _ hw)]
  cases hx : x.run s with
  | error e => rfl
  | ok q =>
    obtain ⟨a, s'⟩ := q
    refine hf a s' fun w hw => hs w (List.mem_append_right _ ?_)
    rw [hx]; exact hw

theorem ag_bind' {α β : Type} (x : R α) {f : α → L β} {g : α → R β} (hf : ∀ a, Ag F (f a) (g a)) :
    Ag F (L.lift x >>= f) (x >>= g) := ag_bind (ag_lift x) hf

theorem ag_pure {α : Type} (a : α) : Ag F (pure a) (pure a) := fun _ _ => rfl

theorem ag_tell {β : Type} (w : Warning) {f : Unit → L β} {g : R β} (hf : Ag F (f ()) g) : Ag F (L.tell w >>= f) g := by
  intro s hs
  rw [bind_log] at hs
  exact hf s fun w hw => hs w (List.mem_append_right _ hw)

theorem ag_tellIf {β : Type} (c : Prop) [Decidable c] (w : Warning) {f : Unit → L β} {g : R β} (hf : Ag F (f ()) g) :
    Ag F (tellIf c w >>= f) g := by
  unfold tellIf
  split
  · exact ag_tell w hf
  · exact fun s hs => hf s hs

theorem ag_ite {α : Type} {c : Prop} [Decidable c] {a b : L α} {a' b' : R α} (h : Ag F a a') (g : Ag F b b') :
    Ag F (if c then a else b) (if c then a' else b') := by
  split
  · exact h
  · exact g

theorem ag_try {α : Type} {x : L α} {y : R α} {h : Err → L α} {k : Err → R α} (hx : Ag F x y) (hk : ∀ e, Ag F (h e) (k e)) :
    Ag F (L.try_ x h) (rTry y k) := by
  intro s hs
  have e1 := hx s fun w hw => hs w (List.mem_append_left _ hw)
  show rTry y k s = rTry x.run (fun e => (h e).run) s
  unfold rTry
  rw [e1]
  cases hr : x.run s with
  | ok q => rfl
  | error e =>
    have := hk e s
    cases e <;> first | rfl | (refine hk _ s fun w hw => hs w (List.mem_append_right _ ?_); rw [hr]; exact hw)

theorem ag_repeat {x : L Val} {y : R Val} (h : Ag F x y) : ∀ n, Ag F (lRepeat x n) (rRepeat y n)
  | 0 => ag_pure _
  | n + 1 => ag_bind h fun _ => ag_bind (ag_repeat h n) fun _ => ag_pure _

/-! ### the property reader -/

section
variable {r : PyStr → L Val} {r' : PyStr → R Val} (hr : ∀ p, Ag F (r p) (r' p))
include hr

theorem ag_structValue (an : Bool) (st path : PyStr) : Ag F (lStructValue an r st path) (rStructValue an r' st path) := by
  unfold lStructValue
  split
  · rename_i h
    have e : rStructValue an r' st path = rStructValue an (fun _ => rFail .type) st path := by
      unfold rStructValue
      rcases h with rfl | rfl | rfl | rfl | rfl <;> rfl
    rw [e]; exact ag_lift _
  · rename_i h
    simp only [not_or] at h
    obtain ⟨h1, h2, h3, h4, h5⟩ := h
    unfold rStructValue
    rw [if_neg h1, if_neg h2, if_neg h3, if_neg h4, if_neg h5]
    exact hr path

theorem ag_struct (an : Bool) (path : PyStr) : Ag F (lStruct an r path) (rStruct an r' path) :=
  ag_bind' _ fun _ => ag_bind' _ fun _ => ag_bind' _ fun _ => ag_bind (ag_structValue hr an _ _) fun _ => ag_pure _

theorem ag_propValue (an : Bool) (ty st st' path : PyStr) (h : ty = P "StructProperty" → st' = st) :
    Ag F (lPropValue an r ty st path) (rPropValue an r' ty st' path) := by
  unfold lPropValue rPropValue
  split
  · rename_i e
    rw [h e]; exact ag_structValue hr an _ _
  · exact ag_lift _

theorem ag_arrayProperty (an : Bool) (at_ : PyStr) (size : Nat) (path : PyStr) :
    Ag F (lArrayProperty an r at_ size path) (rArrayProperty an r' at_ size path) := by
  unfold lArrayProperty rArrayProperty
  refine ag_bind' _ fun c => ag_ite ?_ (ag_bind' _ fun _ => ag_pure _)
  exact ag_bind' _ fun _ => ag_bind' _ fun _ => ag_bind' _ fun _ => ag_bind' _ fun _ => ag_bind' _ fun _ => ag_bind' _ fun _ =>
    ag_bind (ag_repeat (ag_structValue hr an _ _) _) fun _ => ag_pure _

theorem ag_mapEntry (an : Bool) (kt ks ks' vt vs vs' kp vp : PyStr) (h : kt = P "StructProperty" → ks' = ks)
    (g : vt = P "StructProperty" → vs' = vs) : Ag F (lMapEntry an r kt ks vt vs kp vp) (rMapEntry an r' kt ks' vt vs' kp vp) :=
  ag_bind (ag_propValue hr an _ _ _ _ h) fun _ => ag_bind (ag_propValue hr an _ _ _ _ g) fun _ => ag_pure _

omit hr in
/-- What a read depends on in the struct type of a map: nothing, unless it is a StructProperty. -/
theorem ag_typeOr {β : Type} {cfg cfg' : Cfg} (hh : ∀ p t, cfg.hint p = some t → cfg'.hint p = some t)
    (hg : ∀ p d, cfg.hint p = none → F (.guessed p d) → getTypeOr cfg' p d = d) (ty p d : PyStr) {f : PyStr → L β} {g : R β}
    (hf : (ty = P "StructProperty" → getTypeOr cfg' p d = getTypeOr cfg p d) → Ag F (f (getTypeOr cfg p d)) g) :
    Ag F (lTypeOr cfg ty p d >>= f) g := by
  intro s hs
  have hs' : ∀ w ∈ (tellIf (ty = P "StructProperty" ∧ cfg.hint p = none) (.guessed p d)).log s, F w :=
    fun w hw => hs w (List.mem_append_left _ (List.mem_append_left _ hw))
  have key : ty = P "StructProperty" → getTypeOr cfg' p d = getTypeOr cfg p d := by
    intro e
    cases ht : cfg.hint p with
    | some t => simp only [getTypeOr, ht, hh p t ht]
    | none =>
      rw [hg p d ht (hs' _ (by rw [tellIf, if_pos ⟨e, ht⟩]; exact List.mem_singleton_self _))]
      simp only [getTypeOr, ht, Option.getD_none]
  have e : (lTypeOr cfg ty p d).run s = .ok (getTypeOr cfg p d, s) := by
    unfold lTypeOr tellIf
    split <;> rfl
  rw [bind_log, e] at hs
  rw [bind_run, r_bind, e]
  exact hf key s fun w hw => hs w (List.mem_append_right _ hw)

theorem ag_map {cfg cfg' : Cfg} (ha : cfg'.allowNan = cfg.allowNan) (hh : ∀ p t, cfg.hint p = some t → cfg'.hint p = some t)
    (hg : ∀ p d, cfg.hint p = none → F (.guessed p d) → getTypeOr cfg' p d = d) (path : PyStr) :
    Ag F (lMap cfg r path) (rMap cfg' r' path) := by
  unfold lMap rMap
  refine ag_bind' _ fun kt => ag_bind' _ fun vt => ag_bind' _ fun id => ag_bind' _ fun _ => ag_bind' _ fun n => ?_
  refine ag_typeOr hh hg _ _ _ fun hk => ag_typeOr hh hg _ _ _ fun hv => ?_
  rw [ha]
  refine ag_bind (ag_repeat (ag_mapEntry hr _ _ _ _ _ _ _ _ _ hk hv) _) fun l => ?_
  have e1 : structTypeVal kt (getTypeOr cfg' (path ++ P ".Key") (P "Guid")) = structTypeVal kt (getTypeOr cfg (path ++ P ".Key") (P "Guid")) := by
    unfold structTypeVal
    split
    · rename_i e; rw [hk e]
    · rfl
  have e2 : structTypeVal vt (getTypeOr cfg' (path ++ P ".Value") (P "StructProperty")) =
      structTypeVal vt (getTypeOr cfg (path ++ P ".Value") (P "StructProperty")) := by
    unfold structTypeVal
    split
    · rename_i e; rw [hv e]
    · rfl
  rw [e1, e2]
  exact ag_pure _

theorem ag_arrayProp (an : Bool) (size : Nat) (path : PyStr) : Ag F (lArrayProp an r size path) (rArrayProp an r' size path) :=
  ag_bind' _ fun _ => ag_bind' _ fun _ => ag_bind (ag_arrayProperty hr an _ _ _) fun _ => ag_pure _

theorem ag_plainBody {cfg cfg' : Cfg} (ha : cfg'.allowNan = cfg.allowNan) (hh : ∀ p t, cfg.hint p = some t → cfg'.hint p = some t)
    (hg : ∀ p d, cfg.hint p = none → F (.guessed p d) → getTypeOr cfg' p d = d) (ty : PyStr) (size : Nat) (path : PyStr) :
    Ag F (lPlainBody cfg r ty size path) (rPlainBody cfg' r' ty size path) := by
  unfold lPlainBody
  by_cases h1 : ty = P "StructProperty"
  · subst h1; rw [if_pos rfl]
    have : rPlainBody cfg' r' (P "StructProperty") size path = rStruct cfg'.allowNan r' path := rfl
    rw [this, ha]; exact ag_struct hr _ _
  rw [if_neg h1]
  by_cases h2 : ty = P "ArrayProperty"
  · subst h2; rw [if_pos rfl]
    have : rPlainBody cfg' r' (P "ArrayProperty") size path = rArrayProp cfg'.allowNan r' size path := rfl
    rw [this, ha]; exact ag_arrayProp hr _ _ _
  rw [if_neg h2]
  by_cases h3 : ty = P "MapProperty"
  · subst h3; rw [if_pos rfl]
    have : rPlainBody cfg' r' (P "MapProperty") size path = rMap cfg' r' path := rfl
    rw [this]; exact ag_map hr ha hh hg _
  rw [if_neg h3]
  have : rPlainBody cfg' r' ty size path = rPlainBody cfg (fun _ => rFail .type) ty size path := by
    unfold rPlainBody
    simp only [h1, h2, h3, if_false, ha]
  rw [this]; exact ag_lift _

theorem ag_plain {cfg cfg' : Cfg} (ha : cfg'.allowNan = cfg.allowNan) (hh : ∀ p t, cfg.hint p = some t → cfg'.hint p = some t)
    (hg : ∀ p d, cfg.hint p = none → F (.guessed p d) → getTypeOr cfg' p d = d) (ty : PyStr) (size : Nat) (path : PyStr) :
    Ag F (lPlain cfg r ty size path) (rPlain cfg' r' ty size path) :=
  ag_bind (ag_plainBody hr ha hh hg _ _ _) fun _ => ag_lift _

end

/-! ### decoders -/

section
variable {r : L Val} {r' : R Val} (hr : Ag F r r')
include hr

theorem ag_character : Ag F (lCharacter r) (characterDecode r') :=
  ag_bind hr fun _ => ag_bind' _ fun _ => ag_bind' _ fun _ => ag_bind' _ fun _ => ag_pure _

theorem ag_egg : Ag F (lEgg r) (eggDecode r') :=
  ag_bind' _ fun _ => ag_bind hr fun _ => ag_bind' _ fun _ => ag_bind' _ fun _ => ag_bind' _ fun _ => ag_pure _

theorem ag_tryEgg : Ag F (lTryEgg r) (tryEgg r') :=
  ag_try (ag_bind (ag_egg hr) fun _ => ag_pure _) fun _ => ag_ite (ag_lift _) (ag_pure _)

theorem ag_dynamicRest (an : Bool) : Ag F (lDynamicRest an r) (dynamicRest an r') := by
  unfold lDynamicRest dynamicRest
  refine ag_bind (ag_tryEgg hr) fun egg => ag_bind' _ fun n => ?_
  cases egg with
  | some d => exact ag_pure _
  | none => exact ag_ite (ag_lift _) (ag_try (ag_lift _) fun _ => ag_tell _ (ag_lift _))

theorem ag_dynamicItem (an : Bool) : Ag F (lDynamicItem an r) (dynamicItemDecode an r') :=
  ag_bind' _ fun _ => ag_bind (ag_dynamicRest hr an) fun _ => ag_pure _

theorem ag_hatch : Ag F (lHatch r) (cmHatch r') :=
  ag_bind hr fun _ => ag_bind' _ fun _ => ag_bind' _ fun _ => ag_pure _

/-- The two chains have the same branches. -/
theorem ag_concreteBody (an : Bool) (c : String) :
    (lConcreteBody an r c = none ∧ concreteBody an r' c = none) ∨
      ∃ x y, lConcreteBody an r c = some x ∧ concreteBody an r' c = some y ∧ Ag F x y := by
  unfold lConcreteBody
  by_cases h : c = "PalMapObjectHatchingEggModel"
  · subst h
    rw [if_pos rfl]
    exact .inr ⟨_, cmHatch r', rfl, by
      unfold concreteBody
      rw [if_neg (by decide +kernel)]
      simp only [String.reduceEq, if_false, if_true], ag_hatch hr⟩
  · rw [if_neg h]
    have e : concreteBody an r' c = concreteBody an r.run c := by
      unfold concreteBody
      simp only [h, if_false]
    rw [e]
    cases concreteBody an r.run c with
    | none => exact .inl ⟨rfl, rfl⟩
    | some y => exact .inr ⟨_, y, rfl, rfl, ag_lift _⟩

theorem ag_concrete (an : Bool) (oid raw : Val) : Ag F (lConcrete an r oid raw) (concreteDecode an r' oid raw) := by
  unfold lConcrete concreteDecode
  cases oid <;> try exact ag_lift _
  rename_i o
  simp only
  cases concreteClass? o with
  | none => exact ag_tell _ (ag_pure _)
  | some c =>
    refine ag_bind' _ fun i => ag_bind' _ fun m => ?_
    rcases ag_concreteBody hr an c with ⟨e1, e2⟩ | ⟨x, y, e1, e2, h⟩
    · rw [e1, e2]; exact ag_tell _ (ag_pure _)
    · rw [e1, e2]
      exact ag_bind h fun _ => ag_bind' _ fun _ => ag_pure _

end

theorem ag_campEnd {mt v : Val} : Ag F (lCampEnd mt v) (pure v) := by
  intro s _
  unfold lCampEnd tellIf
  cases s with
  | nil => rfl
  | cons b t => rfl

theorem ag_campModule (an : Bool) (mt raw : Val) : Ag F (lCampModule an mt raw) (campModuleDecode an mt raw) := by
  unfold lCampModule campModuleDecode
  refine ag_ite ag_campEnd (ag_ite ?_ (ag_ite ?_ (ag_tell _ (ag_pure _))))
  · exact ag_try (ag_bind' _ fun _ => ag_campEnd) fun _ => ag_tell _ (ag_pure _)
  · exact ag_try (ag_bind' _ fun _ => ag_campEnd) fun _ => ag_tell _ (ag_pure _)

theorem ag_transform (an : Bool) (wt : Val) : Ag F (lTransform an wt) (workTransformDecode an) := by
  unfold lTransform workTransformDecode
  refine ag_bind' _ fun t => ag_ite ?_ (ag_ite ?_ (ag_ite ?_ ?_))
  · exact ag_bind' _ fun _ => ag_bind' _ fun _ => ag_bind' _ fun _ => ag_pure _
  · exact ag_bind' _ fun _ => ag_pure _
  · exact ag_bind' _ fun _ => ag_bind' _ fun _ => ag_pure _
  · exact ag_bind' _ fun _ => ag_tell _ (ag_pure _)

theorem ag_work (an : Bool) (wt raw : Val) : Ag F (lWork an wt raw) (workDecode an wt raw) := by
  have h : ∀ (c : Prop) [Decidable c], Ag F
      (if c then do
        let d ← L.lift (workBodyDecode an wt)
        let t ← lTransform an wt
        L.lift rCheckEofFor
        return .dict (d ++ [(P "transform", t)])
      else do
        L.tell (.rawWork wt)
        return dct [("values", raw)])
      (if c then do
        let d ← workBodyDecode an wt
        let t ← workTransformDecode an
        rCheckEofFor
        return .dict (d ++ [(P "transform", t)])
      else return dct [("values", raw)]) := fun c _ =>
    ag_ite (ag_bind' _ fun _ => ag_bind (ag_transform an wt) fun _ => ag_bind' _ fun _ => ag_pure _) (ag_tell _ (ag_pure _))
  unfold lWork workDecode
  cases wt <;> first | exact h _ | exact ag_lift _

theorem ag_connector : Ag F lConnector connectorDecode :=
  ag_bind' _ fun _ => ag_bind' _ fun _ => ag_bind' _ fun _ => ag_bind' _ fun _ => ag_bind' _ fun _ => ag_bind' _ fun _ =>
    ag_tellIf _ _ (ag_pure _)

/-! ### replacing blobs -/

theorem agV_quiet {α β : Type} (f : α → Except Err β) : AgV F (quiet f) f := fun _ _ => rfl

theorem ag_blob {v : Val} {x : L Val} {y : R Val} (h : Ag F x y) (hs : ∀ w ∈ (eBlob v x).2, F w) : runBlob v y = (eBlob v x).1 := by
  unfold eBlob at hs ⊢
  unfold runBlob
  cases hb : toBytes v with
  | error e => rfl
  | ok b =>
    rw [hb] at hs
    simp only
    rw [h b hs]
    rfl

theorem agV_emptyOr {d : Val} {x : Val → L Val} {y : Val → R Val} (h : ∀ b, Ag F (x b) (y b)) :
    AgV F (fun b => eEmptyOr d b (x b)) (fun b => emptyOr d b (y b)) := by
  intro b hs
  simp only [eEmptyOr, emptyOr] at hs ⊢
  cases hl : b.len with
  | error e => rfl
  | ok n =>
    rw [hl] at hs
    cases n with
    | zero => rfl
    | succ n => exact ag_blob (h b) hs

theorem agV_onValues {f : Val → E Val} {g : Val → Except Err Val} (h : AgV F f g) : AgV F (eOnValues f) (onValues g) := by
  intro v hs
  unfold eOnValues at hs ⊢
  unfold onValues
  cases hv : v.get (P "values") with
  | error e => rfl
  | ok b => rw [hv] at hs; exact h b hs

theorem agV_upd {f : Val → E Val} {g : Val → Except Err Val} (h : AgV F f g) : ∀ ks, AgV F (eUpd f ks) (Val.upd g ks)
  | [] => h
  | k :: ks => by
    intro v hs
    simp only [eUpd] at hs ⊢
    simp only [Val.upd]
    cases hv : v.get k with
    | error e => rfl
    | ok x =>
      rw [hv] at hs
      simp only
      rw [agV_upd h ks x hs]
      rfl

theorem agV_map {α β : Type} {f : α → E β} {g : α → Except Err β} (h : AgV F f g) : ∀ l, (∀ w ∈ (eMap f l).2, F w) → mapE g l = (eMap f l).1
  | [] => fun _ => rfl
  | a :: t => by
    intro hs
    simp only [eMap] at hs ⊢
    simp only [mapE]
    cases hv : (f a).1 with
    | error e =>
      rw [hv] at hs
      rw [h a hs, hv]
    | ok b =>
      rw [hv] at hs
      rw [h a fun w hw => hs w (List.mem_append_left _ hw), hv]
      simp only
      rw [agV_map h t fun w hw => hs w (List.mem_append_right _ hw)]
      rfl

theorem mapE_mute {α β : Type} (f : α → E β) : ∀ l, mapE (mute f) l = (eMap f l).1
  | [] => rfl
  | a :: t => by
    simp only [mapE, eMap, mute]
    cases (f a).1 with
    | error e => rfl
    | ok b =>
      simp only
      rw [mapE_mute f t]
      rfl

theorem agV_forEach {f : Val → E Val} {g : Val → Except Err Val} (h : AgV F f g) : AgV F (eForEach f) (forEach g) := by
  intro v hs
  unfold eForEach at hs ⊢
  cases v with
  | list l => simp only [forEach]; rw [agV_map h _ hs, mapE_mute]
  | tuple l => simp only [forEach]; rw [agV_map h _ hs, mapE_mute]
  | str s => cases s <;> rfl
  | bytes s => cases s <;> rfl
  | dict s => cases s <;> rfl
  | _ => rfl

theorem agV_all : ∀ {l : List (Val → E Val)} {m : List (Val → Except Err Val)}, List.Forall₂ (AgV F) l m → AgV F (eAll l) (updAll m)
  | _, _, .nil => fun _ _ => rfl
  | _, _, .cons (a := f) (b := g) h t => by
    intro v hs
    simp only [eAll] at hs ⊢
    simp only [updAll]
    cases hv : (f v).1 with
    | error e =>
      rw [hv] at hs
      rw [h v hs, hv]
    | ok v' =>
      rw [hv] at hs
      rw [h v fun w hw => hs w (List.mem_append_left _ hw), hv]
      exact agV_all t v' fun w hw => hs w (List.mem_append_right _ hw)

theorem agV_campModule1 (an : Bool) : AgV F (eCampModule1 an) (campModulePost1 an) := by
  intro m hs
  unfold eCampModule1 at hs ⊢
  unfold campModulePost1
  cases hk : m.get (P "key") with
  | error e => rfl
  | ok mt =>
    rw [hk] at hs
    exact agV_upd (agV_onValues fun b hb => ag_blob (ag_campModule an mt b) hb) _ m hs

theorem agV_work1 (an : Bool) : AgV F (eWork1 an) (workPost1 an) := by
  intro w hs
  unfold eWork1 at hs ⊢
  unfold workPost1
  cases hb : w.path (ks ["RawData", "value", "values"]) with
  | error e => rfl
  | ok b =>
    rw [hb] at hs
    cases ht : w.path (ks ["WorkableType", "value", "value"]) with
    | error e => rfl
    | ok wt =>
      rw [ht] at hs
      simp only at hs ⊢
      have := agV_all (F := F) (.cons (agV_upd (fun _ hb => ag_blob (ag_work an wt b) hb) (ks ["RawData", "value"]))
        (.cons (agV_quiet _) .nil)) w hs
      rw [← this]
      simp only [updAll]
      cases w.upd (fun _ => runBlob b (workDecode an wt b)) (ks ["RawData", "value"]) with
      | error e => rfl
      | ok w' =>
        simp only
        cases Val.upd (forEach workAssignPost1) (ks ["WorkAssignMap", "value"]) w' <;> rfl

theorem agV_connectorBlob : AgV F eConnectorBlob connectorBlob := agV_emptyOr fun _ => ag_connector

section
variable {r : L Val} {r' : R Val} (hr : Ag F r r')
include hr

theorem agV_mapObject1 (an : Bool) : AgV F (eMapObject1 an r) (mapObjectPost1 an r') := by
  refine agV_all (.cons (agV_quiet _) (.cons (agV_upd (agV_onValues agV_connectorBlob) _) (.cons (agV_quiet _) (.cons ?_
    (.cons (agV_quiet _) .nil)))))
  intro m hs
  unfold eConcrete1 at hs ⊢
  show (match m.path (ks ["MapObjectId", "value"]) with
      | .error e => Except.error e
      | .ok oid => m.upd (onValues (concreteBlob an r' oid)) (ks ["ConcreteModel", "value", "RawData", "value"])) = _
  cases hk : m.path (ks ["MapObjectId", "value"]) with
  | error e => rfl
  | ok oid =>
    rw [hk] at hs
    exact agV_upd (agV_onValues (agV_emptyOr fun b => ag_concrete hr an oid b)) _ m hs

theorem agV_post (c : CodecId) (an : Bool) : AgV F (ePost c an r) (c.post an r') := by
  cases c <;> try exact agV_quiet _
  · exact agV_upd (agV_onValues fun b hb => ag_blob (ag_character hr) hb) _
  · exact agV_upd (agV_onValues (agV_emptyOr fun _ => ag_dynamicItem hr an)) _
  · exact agV_upd (agV_forEach (agV_campModule1 an)) _
  · exact agV_upd (agV_forEach (agV_work1 an)) _
  · exact agV_upd (agV_forEach (agV_mapObject1 hr an)) _
  · exact agV_upd (agV_onValues agV_connectorBlob) _

end

theorem ag_property {r : PyStr → L Val} {r' : PyStr → R Val} (hr : ∀ p, Ag F (r p) (r' p)) {cfg cfg' : Cfg}
    (ha : cfg'.allowNan = cfg.allowNan) (hc : cfg'.custom = cfg.custom) (hh : ∀ p t, cfg.hint p = some t → cfg'.hint p = some t)
    (hg : ∀ p d, cfg.hint p = none → F (.guessed p d) → getTypeOr cfg' p d = d) (ty : PyStr) (size : Nat) (path : PyStr) :
    Ag F (lProperty cfg r ty size path) (rProperty cfg' r' ty size path) := by
  unfold lProperty rProperty
  rw [hc]
  cases cfg.custom path with
  | none => exact ag_plain hr ha hh hg _ _ _
  | some c =>
    refine ag_ite (ag_bind (ag_plain hr ha hh hg _ _ _) fun v => ag_bind ?_ fun v => ag_bind' _ fun v => ag_lift _) (ag_lift _)
    intro s hs
    rw [ha, agV_post (hr []) c cfg.allowNan v hs]
    rfl

theorem ag_loop {cfg cfg' : Cfg} (ha : cfg'.allowNan = cfg.allowNan) (hc : cfg'.custom = cfg.custom)
    (hh : ∀ p t, cfg.hint p = some t → cfg'.hint p = some t)
    (hg : ∀ p d, cfg.hint p = none → F (.guessed p d) → getTypeOr cfg' p d = d) :
    ∀ n path acc, Ag F (lPropsLoop cfg n path acc) (rPropsLoop cfg' n path acc)
  | 0, _, _ => ag_lift _
  | n + 1, path, acc => by
    unfold lPropsLoop rPropsLoop
    exact ag_bind' _ fun name => ag_ite (ag_pure _) (ag_bind' _ fun ty => ag_bind' _ fun size =>
      ag_bind (ag_property (fun p => ag_loop ha hc hh hg n p []) ha hc hh hg _ _ _) fun v => ag_loop ha hc hh hg n path _)

theorem ag_gvas {cfg cfg' : Cfg} (ha : cfg'.allowNan = cfg.allowNan) (hc : cfg'.custom = cfg.custom)
    (hh : ∀ p t, cfg.hint p = some t → cfg'.hint p = some t)
    (hg : ∀ p d, cfg.hint p = none → F (.guessed p d) → getTypeOr cfg' p d = d) (n : Nat) :
    Ag F (lGvas cfg n) (gvasReadR cfg' n) :=
  ag_bind' _ fun _ => ag_bind (ag_loop ha hc hh hg n [] []) fun _ => ag_bind' _ fun _ => ag_tellIf _ _ (ag_pure _)

end

/-- The same read with other type hints. -/
theorem read_agree {F : Warning → Prop} {cfg cfg' : Cfg} (ha : cfg'.allowNan = cfg.allowNan) (hc : cfg'.custom = cfg.custom)
    (hh : ∀ p t, cfg.hint p = some t → cfg'.hint p = some t)
    (hg : ∀ p d, cfg.hint p = none → F (.guessed p d) → getTypeOr cfg' p d = d) (data : Bytes)
    (hs : ∀ w ∈ (readPrints cfg data).2, F w) : gvasRead cfg' data = (readPrints cfg data).1 := by
  unfold gvasRead
  rw [ag_gvas ha hc hh hg (data.length + 1) data hs]
  rfl

/-- The outcome is that of the reader. -/
theorem read_fst (cfg : Cfg) (data : Bytes) : (readPrints cfg data).1 = gvasRead cfg data :=
  (read_agree (F := fun _ => True) rfl rfl (fun _ _ h => h) (fun p d h _ => by simp only [getTypeOr, h, Option.getD_none])
    data fun _ _ => trivial).symm

end Warn
end Pal
