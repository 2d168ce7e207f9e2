import Verif.Lemmas.Alt
/-
Values that differ only where a custom encoder has put something: if a value was read,
either it can be written, or what the encoder made of it cannot be written.
-/

namespace Pal
open Spec

/-- Where an encoder puts something: in the place of the "value" of a byte array or of an
empty array; or, if `br`, in the place of the "value" of an array of structs, without
the name that the writer needs. -/
def Leaf (br : Prop) (d : Dict) (z : Val) : Prop :=
  (∃ v, d = [(P "values", v)] ∧ ((∃ l, v = .tuple l) ∨ v = .list [])) ∨
    (br ∧ (∃ s, dget? d (P "prop_name") = some (.str s)) ∧ ∃ e, z.get (P "prop_name") = .error e)

mutual
/-- `z` is `v` except for places in the sense of `Leaf`. -/
def Filled (br : Prop) : Val → Val → Prop
  | .dict d, z => Leaf br d z ∨ ∃ d', z = .dict d' ∧ ExtD br d d'
  | .list l, z => ∃ l', z = .list l' ∧ ExtL br l l'
  | .tuple l, w => w = .tuple l
  | .none, w => w = .none
  | .bool b, w => w = .bool b
  | .int i, w => w = .int i
  | .float b, w => w = .float b
  | .str s, w => w = .str s
  | .bytes b, w => w = .bytes b
  | .uuid r, w => w = .uuid r
def ExtL (br : Prop) : List Val → List Val → Prop
  | [], l' => l' = []
  | a :: t, l' => ∃ a' t', l' = a' :: t' ∧ Filled br a a' ∧ ExtL br t t'
def ExtD (br : Prop) : List (PyStr × Val) → List (PyStr × Val) → Prop
  | [], d' => d' = []
  | (k, a) :: t, d' => ∃ a' t', d' = (k, a') :: t' ∧ Filled br a a' ∧ ExtD br t t'
end

mutual
theorem ext_refl (br : Prop) : ∀ v, Filled br v v
  | .list l => by simp only [Filled]; exact ⟨l, rfl, extL_refl br l⟩
  | .dict d => by simp only [Filled]; exact .inr ⟨d, rfl, extD_refl br d⟩
  | .none | .bool _ | .int _ | .float _ | .str _ | .bytes _ | .uuid _ | .tuple _ => by simp only [Filled]
theorem extL_refl (br : Prop) : ∀ l, ExtL br l l
  | [] => by simp only [ExtL]
  | a :: t => by simp only [ExtL]; exact ⟨a, t, rfl, ext_refl br a, extL_refl br t⟩
theorem extD_refl (br : Prop) : ∀ d, ExtD br d d
  | [] => by simp only [ExtD]
  | (k, a) :: t => by simp only [ExtD]; exact ⟨a, t, rfl, ext_refl br a, extD_refl br t⟩
end

variable {br : Prop}

theorem extD_get {d e : Dict} (h : ExtD br d e) {k : PyStr} {x : Val} (hx : dget? d k = some x) :
    ∃ y, dget? e k = some y ∧ Filled br x y := by
  induction d generalizing e with
  | nil => cases hx
  | cons a t ih =>
    obtain ⟨k', v⟩ := a
    simp only [ExtD] at h
    obtain ⟨a', t', rfl, h1, h2⟩ := h
    simp only [dget?] at hx ⊢
    split at hx
    · rename_i e; cases hx; exact ⟨a', by rw [if_pos e], h1⟩
    · rename_i e; rw [if_neg e]; exact ih h2 hx

theorem extD_dset {d e : Dict} (h : ExtD br d e) {k : PyStr} {x z : Val} (hx : dget? d k = some x) (hs : Filled br x z) :
    ExtD br d (dset e k z) := by
  induction d generalizing e with
  | nil => cases hx
  | cons a t ih =>
    obtain ⟨k', v⟩ := a
    simp only [ExtD] at h ⊢
    obtain ⟨a', t', rfl, h1, h2⟩ := h
    simp only [dget?] at hx
    simp only [dset]
    split at hx
    · rename_i e; cases hx; rw [if_pos e]; exact ⟨z, t', by rw [e], hs, h2⟩
    · rename_i e; rw [if_neg e]; exact ⟨a', _, rfl, h1, ih h2 hx⟩

theorem put_absent {w z : Val} {k k' : PyStr} {t : List PyStr} {e : Err} (h : w.get k' = .error e) :
    (put (k :: t) z w).get k' = .error e := by
  cases w <;> try exact h
  case dict d =>
    cases hd : dget? d k with
    | none => simp only [put, hd]; exact h
    | some x =>
      rw [put_dict hd]
      by_cases e : k' = k
      · subst e; simp only [Val.get, hd, reduceCtorEq] at h
      · simp only [Val.get, dget_dset_ne d _ e] at h ⊢; exact h

theorem ext_put {p : List PyStr} {v w x z : Val} (h : Filled br v w) (hp : v.path p = .ok x) (hs : Filled br x z) :
    Filled br v (put p z w) := by
  induction p generalizing v w with
  | nil => cases hp; exact hs
  | cons k t ih =>
    obtain ⟨d, y, rfl, hd, hy⟩ := path_cons_ok hp
    simp only [Filled] at h ⊢
    rcases h with (h | ⟨hb, h1, e, h2⟩) | ⟨d', rfl, h⟩
    · exact .inl (.inl h)
    · exact .inl (.inr ⟨hb, h1, e, put_absent h2⟩)
    · obtain ⟨y', hd', ha⟩ := extD_get h hd
      rw [put_dict hd']
      exact .inr ⟨_, rfl, extD_dset h hd (ih ha hy)⟩

theorem ext_putAll {v : Val} {l : List (List PyStr × Val)}
    (h : ∀ py ∈ l, ∃ x, v.path py.1 = .ok x ∧ Filled br x py.2) : Filled br v (putAll l v) := by
  induction l with
  | nil => exact ext_refl _ _
  | cons a t ih =>
    obtain ⟨p, y⟩ := a
    obtain ⟨x, h1, h2⟩ := h (p, y) (by simp)
    simp only [putAll]
    exact ext_put (ih fun py hpy => h py (by simp [hpy])) h1 h2

/-- Not what is in a raw dict. -/
def Sturdy (x : Val) : Prop := (∀ l, x ≠ .tuple l) ∧ x ≠ .list []

theorem raw_get {d : Dict} {v y x : Val} {k : PyStr} {t : List PyStr} (hd : d = [(P "values", v)])
    (hv : (∃ l, v = .tuple l) ∨ v = .list []) (hy : dget? d k = some y) (hp : y.path t = .ok x) (hx : Sturdy x) : False := by
  subst hd
  simp only [dget?] at hy
  split at hy
  · cases hy
    rcases hv with ⟨l, rfl⟩ | rfl
    · cases t with
      | nil => cases hp; exact hx.1 l rfl
      | cons => obtain ⟨d, y, h, -⟩ := path_cons_ok hp; cases h
    · cases t with
      | nil => cases hp; exact hx.2 rfl
      | cons => obtain ⟨d, y, h, -⟩ := path_cons_ok hp; cases h
  · cases hy

/-- A place that has not been disturbed. -/
theorem ext_path {p : List PyStr} {v w x : Val} (h : Filled False v w) (hp : v.path p = .ok x) (hx : Sturdy x) :
    ∃ y, w.path p = .ok y ∧ Filled False x y := by
  induction p generalizing v w with
  | nil => cases hp; exact ⟨w, rfl, h⟩
  | cons k t ih =>
    obtain ⟨d, y, rfl, hd, hy⟩ := path_cons_ok hp
    simp only [Filled] at h
    rcases h with (⟨v, h1, h2⟩ | ⟨hb, -⟩) | ⟨d', rfl, h⟩
    · exact (raw_get h1 h2 hd hy hx).elim
    · exact hb.elim
    · obtain ⟨y', hd', ha⟩ := extD_get h hd
      rw [path_dict hd']
      exact ih ha hy

/-- The same for any place, if its value is related at all. -/
theorem ext_path' {p : List PyStr} {v w x y : Val} (h : Filled False v w) (hp : v.path p = .ok x) (hq : w.path p = .ok y)
    (ht : Filled True x y) : Filled False x y := by
  by_cases h1 : ∃ l, x = .tuple l
  · obtain ⟨l, rfl⟩ := h1; simpa only [Filled] using ht
  by_cases h2 : x = .list []
  · subst h2; simpa only [Filled, ExtL] using ht
  obtain ⟨y', h3, h4⟩ := ext_path h hp ⟨fun l hl => h1 ⟨l, hl⟩, h2⟩
  rw [hq] at h3
  cases h3
  exact h4

theorem ext_list {l l' : List Val} (h : ExtL br l l') : Filled br (.list l) (.list l') := by
  simp only [Filled]; exact ⟨l', rfl, h⟩

theorem ext_raw (br : Prop) (b : Bytes) (z : Val) : Filled br (rawVal b) z := by
  simp only [rawVal, vDict, List.map_cons, List.map_nil, Filled]
  exact .inl (.inl ⟨_, rfl, .inl ⟨_, rfl⟩⟩)

theorem ext_empty (br : Prop) (z : Val) : Filled br (vDict [("values", .list [])]) z := by
  simp only [vDict, List.map_cons, List.map_nil, Filled]
  exact .inl (.inl ⟨_, rfl, .inr rfl⟩)

/-! ### nothing to put there -/

/-- No array of structs inside. -/
def Flat (v : Val) : Prop := ∀ z, Filled True v z → Filled False v z

theorem flat_vDict {l : List (String × Val)} (hk : "prop_name" ∉ l.map Prod.fst) (h : ∀ q ∈ l, Flat q.2) : Flat (vDict l) := by
  intro z hz
  simp only [vDict, Filled] at hz ⊢
  rcases hz with (hl | ⟨-, ⟨s, h1⟩, -⟩) | ⟨d', rfl, hz⟩
  · exact .inl (.inl hl)
  · exfalso
    clear h
    induction l with
    | nil => cases h1
    | cons a t ih =>
      simp only [List.map_cons, List.mem_cons, not_or] at hk
      simp only [List.map_cons, dget?] at h1
      rw [if_neg (by rw [P_inj]; exact Ne.symm hk.1)] at h1
      exact ih hk.2 h1
  · refine .inr ⟨d', rfl, ?_⟩
    clear hk
    induction l generalizing d' with
    | nil => simpa only [List.map_nil, ExtD] using hz
    | cons a t ih =>
      simp only [List.map_cons, ExtD] at hz ⊢
      obtain ⟨a', t', rfl, h1, h2⟩ := hz
      exact ⟨a', t', rfl, h a (by simp) _ h1, ih (fun q hq => h q (by simp [hq])) _ h2⟩

theorem flat_list {l : List Val} (h : ∀ q ∈ l, Flat q) : Flat (.list l) := by
  intro w hw
  simp only [Filled] at hw ⊢
  obtain ⟨l', rfl, hw⟩ := hw
  refine ⟨l', rfl, ?_⟩
  induction l generalizing l' with
  | nil => simpa only [ExtL] using hw
  | cons a t ih =>
    simp only [ExtL] at hw ⊢
    obtain ⟨a', t', rfl, h1, h2⟩ := hw
    exact ⟨a', t', rfl, h a (by simp) _ h1, ih (fun q hq => h q (by simp [hq])) _ h2⟩

theorem flat_str (s : PyStr) : Flat (.str s) := fun w h => by simpa only [Filled] using h
theorem flat_vStr (s : Str) : Flat (vStr s) := flat_str _
theorem flat_guid (g : Guid) : Flat (vGuid g) := fun w h => by simpa only [vGuid, Filled] using h
theorem flat_int (i : Int) : Flat (.int i) := fun w h => by simpa only [Filled] using h
theorem flat_bool (i : Bool) : Flat (.bool i) := fun w h => by simpa only [Filled] using h
theorem flat_float (i : BitVec 64) : Flat (.float i) := fun w h => by simpa only [Filled] using h
theorem flat_none : Flat .none := fun w h => by simpa only [Filled] using h
theorem flat_tuple (l : List Val) : Flat (.tuple l) := fun w h => by simpa only [Filled] using h
theorem flat_vec {m : Mode} (v : Vec m) : Flat (vVec v) := by
  refine flat_vDict (by simp) ?_
  simp only [List.forall_mem_cons]
  exact ⟨flat_float _, flat_float _, flat_float _, by simp⟩
theorem flat_quat {m : Mode} (v : Quat m) : Flat (vQuat v) := by
  refine flat_vDict (by simp) ?_
  simp only [List.forall_mem_cons]
  exact ⟨flat_float _, flat_float _, flat_float _, flat_float _, by simp⟩

/-- Not a `Leaf` itself. -/
theorem ext_vDict {l : List (String × Val)} {w : Val} (hk : "prop_name" ∉ l.map Prod.fst)
    (hv : ∀ v, l = [("values", v)] → (∀ t, v ≠ .tuple t) ∧ v ≠ .list []) (h : Filled br (vDict l) w) :
    ∃ d', w = .dict d' ∧ ExtD br (l.map fun kv => (P kv.1, kv.2)) d' := by
  simp only [vDict, Filled] at h
  rcases h with (⟨v, h1, h2⟩ | ⟨-, ⟨s, h1⟩, -⟩) | h
  · exfalso
    cases l with
    | nil => cases h1
    | cons a t =>
      obtain ⟨k, x⟩ := a
      cases t with
      | cons => simp at h1
      | nil =>
        simp only [List.map_cons, List.map_nil, List.cons.injEq, Prod.mk.injEq, P_inj, and_true] at h1
        obtain ⟨rfl, rfl⟩ := h1
        obtain ⟨g1, g2⟩ := hv _ rfl
        rcases h2 with ⟨t, h2⟩ | h2
        · exact g1 t h2
        · exact g2 h2
  · exfalso
    clear hv
    induction l with
    | nil => cases h1
    | cons a t ih =>
      simp only [List.map_cons, List.mem_cons, not_or] at hk
      simp only [List.map_cons, dget?] at h1
      rw [if_neg (by rw [P_inj]; exact Ne.symm hk.1)] at h1
      exact ih hk.2 h1
  · exact h

theorem ext_str {s : PyStr} {w : Val} (h : Filled br (.str s) w) : w = .str s := by simpa only [Filled] using h
theorem ext_vStr {s : Str} {w : Val} (h : Filled br (vStr s) w) : w = vStr s := ext_str h
theorem ext_guid {s : Guid} {w : Val} (h : Filled br (vGuid s) w) : w = vGuid s := by simpa only [vGuid, Filled] using h
theorem ext_opt {s : Option Guid} {w : Val} (h : Filled br (vOptGuid s) w) : w = vOptGuid s := by
  cases s
  · simpa only [vOptGuid, Filled] using h
  · exact ext_guid h
theorem ext_structType {ty : Str} {st : PyStr} {w : Val} (h : Filled br (vStructType ty st) w) : w = vStructType ty st := by
  unfold vStructType at h ⊢
  split at h
  · rename_i e; rw [if_pos e]; exact ext_str h
  · rename_i e; rw [if_neg e]; simpa only [Filled] using h

/-- Only the "value" of a property is changed. -/
theorem ext_entries {m : Mode} {cfg : Cfg} {path : PyStr} {x w : Val} {p : PropT m}
    (h : Filled br (vDict (p.entries cfg path x)) w) : ∃ x', w = vDict (p.entries cfg path x') ∧ Filled br x x' := by
  have h0 := ext_vDict (by cases p <;> simp [PropT.entries]) (fun v hv => by cases p <;> simp [PropT.entries] at hv) h
  clear h
  obtain ⟨d', rfl, h⟩ := h0
  cases p <;> simp only [PropT.entries, List.map_cons, List.map_nil, ExtD] at h
  case struct =>
    obtain ⟨a1, _, rfl, h1, a2, _, rfl, h2, a3, _, rfl, h3, a4, _, rfl, h4, a5, _, rfl, h5, rfl⟩ := h
    cases ext_vStr h1; cases ext_guid h2; cases ext_opt h3; cases ext_str h5
    exact ⟨a4, rfl, h4⟩
  case map =>
    obtain ⟨a1, _, rfl, h1, a2, _, rfl, h2, a3, _, rfl, h3, a4, _, rfl, h4, a5, _, rfl, h5, a6, _, rfl, h6, a7, _, rfl, h7,
      rfl⟩ := h
    cases ext_vStr h1; cases ext_vStr h2; cases ext_structType h3; cases ext_structType h4; cases ext_opt h5; cases ext_str h7
    exact ⟨a6, rfl, h6⟩
  case bool =>
    obtain ⟨a1, _, rfl, h1, a2, _, rfl, h2, a3, _, rfl, h3, rfl⟩ := h
    cases ext_opt h2; cases ext_str h3
    exact ⟨a1, rfl, h1⟩
  case enums | names | guids | bytes | others | structs =>
    obtain ⟨a1, _, rfl, h1, a2, _, rfl, h2, a3, _, rfl, h3, a4, _, rfl, h4, rfl⟩ := h
    cases ext_str h1; cases ext_opt h2; cases ext_str h4
    exact ⟨a3, rfl, h3⟩
  all_goals
    obtain ⟨a1, _, rfl, h1, a2, _, rfl, h2, a3, _, rfl, h3, rfl⟩ := h
    cases ext_opt h1; cases ext_str h3
    exact ⟨a2, rfl, h2⟩

theorem entries_ext {m : Mode} (cfg : Cfg) (path : PyStr) {x x' : Val} (p : PropT m) (h : Filled br x x') :
    Filled br (vDict (p.entries cfg path x)) (vDict (p.entries cfg path x')) := by
  have hr : ∀ v, Filled br v v := ext_refl br
  simp only [vDict, Filled]
  right
  cases p <;> simp [PropT.entries, ExtD, hr, h]

end Pal
