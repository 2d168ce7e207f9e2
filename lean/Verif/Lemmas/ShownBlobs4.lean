import Verif.Lemmas.ShownBlobs3
import Verif.Model.Codec
/-
The decoders of the custom properties do what `Spec/ShownBlobs.lean` says.
-/

namespace Pal
open Spec

/-- `f` succeeds exactly as `R` says. -/
def Does (f : Val → Except Err Val) (R : Val → Val → Prop) : Prop := ∀ v w, f v = .ok w ↔ R v w

theorem does_congr {f : Val → Except Err Val} {R R' : Val → Val → Prop} (h : Does f R) (e : ∀ v w, R v w ↔ R' v w) : Does f R' :=
  fun v w => (h v w).trans (e v w)

theorem runBlob_does {x : Val → R Val} {B : Val → Bytes → Val → Prop} (h : ∀ v, Shows (x v) (B v)) :
    Does (fun v => runBlob v (x v)) (fun raw => FromBlob (B raw) raw) := by
  intro v w
  unfold runBlob FromBlob SaysBytes
  dsimp only
  cases hb : toBytes v with
  | error e => simp
  | ok b =>
    have := h v b w
    simp only [Except.ok.injEq, exists_eq_left', ← this]
    cases x v b with
    | error e => simp
    | ok r => obtain ⟨y, r⟩ := r; simp

theorem runBlob_does' {x : R Val} {B : Bytes → Val → Prop} (h : Shows x B) : Does (fun v => runBlob v x) (FromBlob B) :=
  runBlob_does (x := fun _ => x) (B := fun _ => B) fun _ => h

theorem emptyOr_does {d : Val} {x : Val → R Val} {B : Val → Bytes → Val → Prop} (h : ∀ v, Shows (x v) (B v)) :
    Does (fun v => emptyOr d v (x v)) (fun raw => OrEmpty d (B raw) raw) := by
  have hr := runBlob_does h
  intro v w
  have hr := hr v w
  dsimp only at hr ⊢
  have key : ∀ {n}, v.len = .ok (n + 1) → (runBlob v (x v) = .ok w ↔ OrEmpty d (B v) v w) := by
    intro n hl
    rw [hr]
    unfold OrEmpty
    constructor
    · intro hf
      refine .inr ?_
      obtain ⟨b, hb, hw⟩ := hf
      have : ∃ l, Items v l ∧ l ≠ [] := by
        cases v with
        | list l => exact ⟨l, .list l, by rintro rfl; cases hl⟩
        | tuple l => exact ⟨l, .tuple l, by rintro rfl; cases hl⟩
        | bytes b => exact ⟨_, .bytes b, by rintro h; rw [List.map_eq_nil_iff] at h; subst h; cases hl⟩
        | dict d =>
          cases d with
          | nil => cases hl
          | cons a t => cases hb
        | str s => cases hb
        | _ => cases hl
      obtain ⟨l, h1, h2⟩ := this
      exact ⟨l, h1, h2, b, hb, hw⟩
    · rintro (⟨h1, -⟩ | ⟨_, _, _, h3⟩)
      · exfalso
        cases v with
        | list l => cases h1; cases hl
        | tuple l => cases h1; cases hl
        | dict d => cases h1; cases hl
        | bytes b =>
          generalize hz : ([] : List Val) = z at h1
          cases h1
          rw [eq_comm, List.map_eq_nil_iff] at hz; subst hz; cases hl
        | str b =>
          generalize hz : ([] : List Val) = z at h1
          cases h1
          rw [eq_comm, List.map_eq_nil_iff] at hz; subst hz; cases hl
        | _ => cases hl
      · exact h3
  unfold emptyOr
  cases hl : v.len with
  | error e =>
    constructor
    · nofun
    · have no : ∀ {l}, ¬ Items v l := by intro l h1; cases h1 <;> cases hl
      rintro (⟨h1, -⟩ | ⟨_, h1, -⟩)
      · exact absurd h1 no
      · exact absurd h1 no
  | ok n =>
    cases n with
    | succ n => exact key hl
    | zero =>
      dsimp only
      unfold OrEmpty
      have hi : Items v [] := by
        cases v with
        | list l => cases l with
          | nil => exact .list []
          | cons => cases hl
        | tuple l => cases l with
          | nil => exact .tuple []
          | cons => cases hl
        | bytes l => cases l with
          | nil => exact .bytes []
          | cons => cases hl
        | str l => cases l with
          | nil => exact .str []
          | cons => cases hl
        | dict l => cases l with
          | nil => exact .dict
          | cons => cases hl
        | _ => cases hl
      constructor
      · intro h; cases h; exact .inl ⟨hi, rfl⟩
      · rintro (⟨-, rfl⟩ | ⟨l, h1, h2, -⟩)
        · rfl
        · exfalso
          cases h1 with
          | list => cases l with
            | nil => exact h2 rfl
            | cons => cases hl
          | tuple => cases l with
            | nil => exact h2 rfl
            | cons => cases hl
          | bytes b => cases b with
            | nil => exact h2 rfl
            | cons => cases hl
          | str b => cases b with
            | nil => exact h2 rfl
            | cons => cases hl
          | dict => exact h2 rfl

theorem emptyOr_does' {d : Val} {x : R Val} {B : Bytes → Val → Prop} (h : Shows x B) :
    Does (fun v => emptyOr d v x) (OrEmpty d B) :=
  emptyOr_does (x := fun _ => x) (B := fun _ => B) fun _ => h

theorem onValues_does {f : Val → Except Err Val} {R : Val → Val → Prop} (h : Does f R) : Does (onValues f) (FromValues R) := by
  intro v w
  unfold onValues FromValues At
  cases v.get (P "values") with
  | error e => simp
  | ok x => simp only [Except.ok.injEq, exists_eq_left']; exact h x w

theorem upd_does {f : Val → Except Err Val} {R : Val → Val → Prop} (h : Does f R) : ∀ p, Does (Val.upd f (ks p)) (Change R p)
  | [] => h
  | k :: p => by
    intro v w
    show Val.upd f (P k :: ks p) v = .ok w ↔ _
    unfold Val.upd Change At
    cases v.get (P k) with
    | error e => simp
    | ok x =>
      have ih := upd_does h p x
      dsimp only
      simp only [Except.ok.injEq]
      cases hu : Val.upd f (ks p) x with
      | error e =>
        constructor
        · nofun
        · rintro ⟨_, x', rfl, h2, _⟩; rw [(ih x').2 h2] at hu; cases hu
      | ok x' =>
        constructor
        · intro h'; exact ⟨x, x', rfl, (ih x').1 hu, h'⟩
        · rintro ⟨_, y, rfl, h2, h3⟩
          rw [(ih y).2 h2] at hu; cases hu; exact h3

theorem mapE_does {f : Val → Except Err Val} {R : Val → Val → Prop} (h : Does f R) :
    ∀ (l l' : List Val), mapE f l = .ok l' ↔ List.Forall₂ R l l'
  | [], l' => ⟨fun h => by cases h; exact .nil, fun h => by cases h; rfl⟩
  | a :: t, l' => by
    unfold mapE
    have ih := mapE_does h t
    cases hf : f a with
    | error e =>
      constructor
      · nofun
      · intro h'
        cases h' with
        | cons h1 h2 => rw [(h _ _).2 h1] at hf; cases hf
    | ok b =>
      dsimp only
      cases ht : mapE f t with
      | error e =>
        constructor
        · nofun
        · intro h'
          cases h' with
          | cons h1 h2 => rw [(ih _).2 h2] at ht; cases ht
      | ok bs =>
        constructor
        · intro h'; cases h'; exact .cons ((h _ _).1 hf) ((ih _).1 ht)
        · intro h'
          cases h' with
          | cons h1 h2 => rw [(h _ _).2 h1] at hf; rw [(ih _).2 h2] at ht; cases hf; cases ht; rfl

theorem items_nil {v : Val} (h : Items v []) :
    v = .list [] ∨ v = .tuple [] ∨ v = .bytes [] ∨ v = .str [] ∨ v = .dict [] := by
  generalize hz : ([] : List Val) = z at h
  cases h with
  | list => subst hz; exact .inl rfl
  | tuple => subst hz; exact .inr (.inl rfl)
  | bytes b => rw [eq_comm, List.map_eq_nil_iff] at hz; subst hz; exact .inr (.inr (.inl rfl))
  | str b => rw [eq_comm, List.map_eq_nil_iff] at hz; subst hz; exact .inr (.inr (.inr (.inl rfl)))
  | dict => exact .inr (.inr (.inr (.inr rfl)))

theorem forEach_does {f : Val → Except Err Val} {R : Val → Val → Prop} (h : Does f R) : Does (forEach f) (Each R) := by
  have hm := mapE_does h
  intro v w
  constructor
  · intro h'
    unfold forEach at h'
    cases v with
    | list l =>
      dsimp only at h'
      cases he : mapE f l with
      | error e => rw [he] at h'; cases h'
      | ok l' => rw [he] at h'; cases h'; exact .list ((hm _ _).1 he)
    | tuple l =>
      dsimp only at h'
      cases he : mapE f l with
      | error e => rw [he] at h'; cases h'
      | ok l' => rw [he] at h'; cases h'; exact .tuple ((hm _ _).1 he)
    | bytes l => cases l with
      | nil => cases h'; exact .empty (.bytes [])
      | cons => cases h'
    | str l => cases l with
      | nil => cases h'; exact .empty (.str [])
      | cons => cases h'
    | dict l => cases l with
      | nil => cases h'; exact .empty .dict
      | cons => cases h'
    | _ => cases h'
  · intro h'
    cases h' with
    | list h1 => unfold forEach; dsimp only; rw [(hm _ _).2 h1]
    | tuple h1 => unfold forEach; dsimp only; rw [(hm _ _).2 h1]
    | empty h1 => rcases items_nil h1 with rfl | rfl | rfl | rfl | rfl <;> rfl

theorem path_iff {v : Val} {x : Val} : ∀ {p : List String}, v.path (ks p) = .ok x ↔ Reach v p (· = x) := by
  intro p
  induction p generalizing v with
  | nil => exact ⟨fun h => by cases h; rfl, fun h => by rw [show v = x from h]; rfl⟩
  | cons k p ih =>
    show Val.path v (P k :: ks p) = .ok x ↔ _
    unfold Val.path Reach At
    cases v.get (P k) with
    | error e => simp
    | ok y => simp only [Except.ok.injEq, exists_eq_left']; exact ih

theorem reach_iff {v : Val} {Q : Val → Prop} : ∀ {p : List String}, Reach v p Q ↔ ∃ x, Reach v p (· = x) ∧ Q x := by
  intro p
  induction p generalizing v with
  | nil => exact ⟨fun h => ⟨v, rfl, h⟩, fun ⟨x, e, h⟩ => by rw [show v = x from e]; exact h⟩
  | cons k p ih =>
    simp only [Reach]
    constructor
    · rintro ⟨y, h1, h2⟩
      obtain ⟨x, h3, h4⟩ := ih.1 h2
      exact ⟨x, ⟨y, h1, h3⟩, h4⟩
    · rintro ⟨x, ⟨y, h1, h3⟩, h4⟩; exact ⟨y, h1, ih.2 ⟨x, h3, h4⟩⟩

/-- Looking something up first. -/
theorem look_does {p : List String} {f : Val → Val → Except Err Val} {R : Val → Val → Val → Prop} (h : ∀ t, Does (f t) (R t)) :
    Does (fun m => match m.path (ks p) with
      | .error e => .error e
      | .ok t => f t m) (fun m m' => ∃ t, Reach m p (· = t) ∧ R t m m') := by
  intro v w
  dsimp only
  simp only [← path_iff]
  cases v.path (ks p) with
  | error e => simp
  | ok t => simp only [Except.ok.injEq, exists_eq_left']; exact h t v w

theorem key_does {k : String} {f : Val → Val → Except Err Val} {R : Val → Val → Val → Prop} (h : ∀ t, Does (f t) (R t)) :
    Does (fun m => match m.get (P k) with
      | .error e => .error e
      | .ok t => f t m) (fun m m' => ∃ t, At m k t ∧ R t m m') := by
  intro v w
  dsimp only
  unfold At
  cases v.get (P k) with
  | error e => simp
  | ok t => simp only [Except.ok.injEq, exists_eq_left']; exact h t v w

theorem then_does {f g : Val → Except Err Val} {R S : Val → Val → Prop} (hf : Does f R) (hg : Does g S) :
    Does (fun v => match f v with
      | .error e => .error e
      | .ok v' => g v') (Then R S) := by
  intro v w
  dsimp only
  unfold Then
  cases h : f v with
  | error e =>
    constructor
    · nofun
    · rintro ⟨v1, h1, _⟩; rw [(hf _ _).2 h1] at h; cases h
  | ok v' =>
    constructor
    · intro h'; exact ⟨v', (hf _ _).1 h, (hg _ _).1 h'⟩
    · rintro ⟨v1, h1, h2⟩; rw [(hf _ _).2 h1] at h; cases h; exact (hg _ _).2 h2

theorem updAll_cons_does {f : Val → Except Err Val} {l : List (Val → Except Err Val)} {R S : Val → Val → Prop} (hf : Does f R)
    (hl : Does (updAll l) S) : Does (updAll (f :: l)) (Then R S) := by
  refine fun v w => Iff.trans ?_ (then_does hf hl v w)
  rw [updAll]
  dsimp only
  cases f v <;> rfl

theorem updAll_one_does {f : Val → Except Err Val} {R : Val → Val → Prop} (hf : Does f R) : Does (updAll [f]) R := by
  intro v w
  rw [updAll]
  refine Iff.trans ?_ (hf v w)
  cases f v <;> rfl

/-! ### the custom properties -/

theorem group_does : Does groupPost1 ShownGroup :=
  look_does fun t => upd_does (onValues_does (runBlob_does' (group_shows t))) _

theorem campModule_does (an : Bool) : Does (campModulePost1 an) (ShownCampModule an) :=
  key_does fun t => upd_does (onValues_does (runBlob_does (camp_shows an t))) _

theorem module_does : Does moduleMapPost1 ShownModule :=
  key_does fun t => upd_does (onValues_does (emptyOr_does' (module_shows t))) _

theorem updConst_iff {f : Val → Except Err Val} {g : Val → Except Err Val} : ∀ {p : List String} {v w b : Val},
    v.path (ks (p ++ ["values"])) = .ok b → (∀ x, x.get (P "values") = .ok b → f x = g x) →
    (Val.upd f (ks p) v = .ok w ↔ Val.upd g (ks p) v = .ok w)
  | [], v, w, b, h, e => by
    have h : v.path [P "values"] = .ok b := h
    unfold Val.path at h
    show f v = _ ↔ g v = _
    rw [e]
    cases hv : v.get (P "values") with
    | error _ => rw [hv] at h; cases h
    | ok x => rw [hv] at h; exact h
  | k :: p, v, w, b, h, e => by
    have h : v.path (P k :: ks (p ++ ["values"])) = .ok b := h
    show Val.upd f (P k :: ks p) v = .ok w ↔ Val.upd g (P k :: ks p) v = .ok w
    unfold Val.path at h
    unfold Val.upd
    cases hv : v.get (P k) with
    | error _ => simp
    | ok x =>
      rw [hv] at h
      dsimp only at h ⊢
      have ih := fun y => updConst_iff (w := y) h e
      cases hf : Val.upd f (ks p) x with
      | error _ =>
        cases hg : Val.upd g (ks p) x with
        | error _ => simp
        | ok y => rw [(ih y).2 hg] at hf; cases hf
      | ok y => rw [(ih y).1 hf]

theorem change_path {R : Val → Val → Prop} : ∀ {p : List String} {v w : Val}, Change (FromValues R) p v w →
    ∃ b, v.path (ks (p ++ ["values"])) = .ok b
  | [], v, w, ⟨b, h, _⟩ => ⟨b, by
      show v.path [P "values"] = _
      unfold Val.path; rw [show v.get (P "values") = .ok b from h]; rfl⟩
  | k :: p, v, w, ⟨x, x', h1, h2, _⟩ => by
    obtain ⟨b, hb⟩ := change_path h2
    refine ⟨b, ?_⟩
    show v.path (P k :: ks (p ++ ["values"])) = _
    unfold Val.path; rw [show v.get (P k) = .ok x from h1]; exact hb

theorem work_does (an : Bool) : Does (workPost1 an) (ShownWork an) := by
  have hw : ∀ t, Does (fun w => match w.path (ks ["RawData", "value", "values"]) with
      | .error e => .error e
      | .ok b => w.upd (fun _ => runBlob b (workDecode an t b)) (ks ["RawData", "value"]))
      (Change (FromValues fun raw => FromBlob (ShowsWork an t raw) raw) ["RawData", "value"]) := by
    intro t v w
    have hu := upd_does (onValues_does (runBlob_does (work_shows an t))) ["RawData", "value"] v w
    dsimp only
    cases hp : v.path (ks ["RawData", "value", "values"]) with
    | error e =>
      constructor
      · nofun
      · intro h
        obtain ⟨b, hb⟩ := change_path h
        have hb : v.path (ks ["RawData", "value", "values"]) = .ok b := hb
        rw [hp] at hb; cases hb
    | ok b =>
      refine Iff.trans (updConst_iff (p := ["RawData", "value"]) hp fun x hx => ?_) hu
      unfold onValues
      rw [hx]
  have ha : Does (Val.upd (forEach workAssignPost1) (ks ["WorkAssignMap", "value"]))
      (Change (Each (Change (FromValues (FromBlob (whole workAssign))) entryBlob)) ["WorkAssignMap", "value"]) :=
    upd_does (forEach_does (upd_does (onValues_does (runBlob_does' workAssign_shows)) _)) _
  have := look_does (p := ["WorkableType", "value", "value"]) fun t => then_does (hw t) ha
  refine fun v w => Iff.trans ?_ (this v w)
  unfold workPost1
  dsimp only
  cases v.path (ks ["RawData", "value", "values"]) with
  | error e => cases v.path (ks ["WorkableType", "value", "value"]) <;> simp
  | ok b =>
    dsimp only
    cases v.path (ks ["WorkableType", "value", "value"]) with
    | error e => simp
    | ok t =>
      dsimp only
      cases v.upd (fun _ => runBlob b (workDecode an t b)) (ks ["RawData", "value"]) <;> rfl

theorem mapObject_does {an : Bool} {rec : R Val} {E : Layout} (hE : Reads rec E) : Does (mapObjectPost1 an rec) (ShownMapObject an E) :=
  updAll_cons_does (upd_does (onValues_does (runBlob_does' (mapModel_shows an))) _) <|
  updAll_cons_does (upd_does (onValues_does (emptyOr_does' connector_shows)) _) <|
  updAll_cons_does (upd_does (onValues_does (runBlob_does' buildProcess_shows)) _) <|
  updAll_cons_does (look_does fun oid => upd_does (onValues_does (emptyOr_does fun raw => concrete_shows hE oid raw)) _) <|
  updAll_one_does (upd_does (forEach_does module_does) _)

theorem print_iff {l : List Val} : (∃ u, mapE debugPrint1 l = .ok u) ↔ ∀ x ∈ l, Printable x := by
  induction l with
  | nil => exact ⟨fun _ => nofun, fun _ => ⟨[], rfl⟩⟩
  | cons a t ih =>
    rw [List.forall_mem_cons, ← ih]
    have h1 : ∀ u, debugPrint1 a = .ok u ↔ Printable a := by
      intro u
      constructor
      · intro h
        cases a with
        | int i => exact .int i
        | bool b => exact .bool b
        | _ => cases h
      · intro h; cases h <;> rfl
    rw [mapE]
    cases ha : debugPrint1 a with
    | error e =>
      constructor
      · rintro ⟨_, h⟩; cases h
      · rintro ⟨h, _⟩; rw [(h1 ()).2 h] at ha; cases ha
    | ok u =>
      dsimp only
      cases ht : mapE debugPrint1 t with
      | error e =>
        constructor
        · rintro ⟨_, h⟩; cases h
        · rintro ⟨_, _, h⟩; cases h
      | ok us => exact ⟨fun _ => ⟨(h1 u).1 ha, _, rfl⟩, fun _ => ⟨_, rfl⟩⟩

theorem debug_does : Does debugPost fun v v' => ∃ l, Reach v ["value", "values"] (Items · l) ∧ (∀ x ∈ l, Printable x) ∧ v' = v := by
  intro v w
  unfold debugPost
  simp only [reach_iff (Q := (Items · _)), ← path_iff]
  cases v.path (ks ["value", "values"]) with
  | error e => simp
  | ok b =>
    simp only [Except.ok.injEq, exists_eq_left', ← print_iff]
    have key : ∀ {n l}, b.len = .ok n → b.iterItems = .ok l → Items b l →
        ((match b.len, b.iterItems with
          | .error e, _ => .error e
          | _, .error e => .error e
          | .ok _, .ok l => match mapE debugPrint1 l with
            | .ok _ => .ok v
            | .error e => .error e : Except Err Val) = .ok w ↔ ∃ l, Items b l ∧ (∃ u, mapE debugPrint1 l = .ok u) ∧ w = v) := by
      intro n l h1 h2 h3
      rw [h1, h2]
      dsimp only
      have huniq : ∀ {l'}, Items b l' → l' = l := by
        intro l' h; cases h <;> cases h2 <;> rfl
      cases hm : mapE debugPrint1 l with
      | error e =>
        constructor
        · nofun
        · rintro ⟨l', h, ⟨u, hu⟩, _⟩; rw [huniq h, hm] at hu; cases hu
      | ok u =>
        constructor
        · intro h; cases h; exact ⟨l, h3, ⟨u, hm⟩, rfl⟩
        · rintro ⟨_, _, _, rfl⟩; rfl
    cases b with
    | list l => exact key rfl rfl (.list l)
    | tuple l => exact key rfl rfl (.tuple l)
    | bytes l => exact key rfl rfl (.bytes l)
    | str l => exact key rfl rfl (.str l)
    | dict d =>
      cases d with
      | nil => exact key rfl rfl .dict
      | cons a t =>
        constructor
        · intro h; cases h
        · rintro ⟨_, h, _⟩; cases h
    | _ =>
      constructor
      · intro h; cases h
      · rintro ⟨_, h, _⟩; cases h

/-- The decoders do what the specification says. -/
theorem post_does {an : Bool} {rec : R Val} {E : Layout} {F : Bytes → Prop} (hE : Reads rec E) (hF : ∀ s, F s ↔ rec s = .error eofErr)
    (hn : NoFuel rec) (c : CodecId) : Does (c.post an rec) (Decoded an E F c) := by
  have dv : ∀ {f : Val → Except Err Val} {R : Val → Val → Prop}, Does f R → Does (decodeValue f) (Decoded.blob R) :=
    fun h => upd_does (onValues_does h) ["value"]
  cases c with
  | group => exact upd_does (forEach_does group_does) ["value"]
  | baseCampModule => exact upd_does (forEach_does (campModule_does an)) ["value"]
  | work => exact upd_does (forEach_does (work_does an)) ["value", "values"]
  | mapObject => exact upd_does (forEach_does (mapObject_does hE)) ["value", "values"]
  | debug => exact debug_does
  | character => exact dv (runBlob_does' (character_shows hE))
  | itemContainer => exact dv (emptyOr_does' itemContainer_shows)
  | itemContainerSlots => exact dv (emptyOr_does' (itemContainerSlots_shows an))
  | characterContainer => exact dv (emptyOr_does' charContainer_shows)
  | dynamicItem => exact dv (emptyOr_does' (item_shows hE hF hn))
  | foliageModel => exact dv (runBlob_does' foliageModel_shows)
  | foliageModelInstance => exact dv (runBlob_does' (foliageInst_shows an))
  | baseCamp => exact dv (runBlob_does' (baseCamp_shows an))
  | workerDirector => exact dv (runBlob_does' (workerDirector_shows an))
  | workCollection => exact dv (runBlob_does' workCollection_shows)
  | connector => exact dv (emptyOr_does' connector_shows)
  | buildProcess => exact dv (runBlob_does' buildProcess_shows)
  | mapModel => exact dv (runBlob_does' (mapModel_shows an))

end Pal
