import Verif.Lemmas.WeightBlob
/-
Decoding makes nothing heavier; a property list is worth at most eight values for each byte.
-/

namespace Pal
namespace Weight
open Spec

/-- What the entry of a dict weighs. -/
def ent (k : PyStr) (v : Val) : Nat := if k = P "values" then entry v else weight v

theorem weightD_cons (k : PyStr) (v : Val) (t : List (PyStr × Val)) : weightD ((k, v) :: t) = ent k v + weightD t := rfl

theorem ent_other {k : PyStr} (h : k ≠ P "values") (v : Val) : ent k v = weight v := if_neg h

theorem dset_new (d : Dict) (k : PyStr) (x : Val) : weightD (dset d k x) ≤ weightD d + ent k x := by
  induction d with
  | nil => simp [dset, weightD_cons, weightD]
  | cons a t ih =>
    obtain ⟨k', v'⟩ := a
    unfold dset
    split
    · rename_i e; subst e; simp only [weightD_cons]; omega
    · simp only [weightD_cons]; omega

theorem dset_le {d : Dict} {k : PyStr} {x x' : Val} (h : dget? d k = some x) (hx : ent k x' ≤ ent k x) :
    weightD (dset d k x') ≤ weightD d := by
  induction d with
  | nil => cases h
  | cons a t ih =>
    obtain ⟨k', v'⟩ := a
    unfold dget? at h
    unfold dset
    split at h
    · rename_i e; cases h; subst e; rw [if_pos rfl]; simp only [weightD_cons]; omega
    · rename_i e; rw [if_neg e]; have := ih h; simp only [weightD_cons]; omega

theorem dget_le {d : Dict} {k : PyStr} {x : Val} (h : dget? d k = some x) : ent k x ≤ weightD d := by
  induction d with
  | nil => cases h
  | cons a t ih =>
    obtain ⟨k', v'⟩ := a
    unfold dget? at h
    simp only [weightD_cons]
    split at h
    · rename_i e; cases h; subst e; omega
    · have := ih h; omega

theorem get_le {v x : Val} {k : PyStr} (h : v.get k = .ok x) : 1 + ent k x ≤ weight v := by
  cases v with
  | dict d =>
    simp only [Val.get] at h
    split at h
    · cases h; rename_i e; have := dget_le e; simp only [weight]; omega
    · cases h
  | _ => cases h

theorem set_le {v v' x x' : Val} {k : PyStr} (h : v.get k = .ok x) (hs : v.set k x' = .ok v') (hx : ent k x' ≤ ent k x) :
    weight v' ≤ weight v := by
  cases v with
  | dict d =>
    simp only [Val.get] at h
    split at h
    · cases h; cases hs; rename_i e; have := dset_le e hx; simp only [weight]; omega
    · cases h
  | _ => cases h

theorem set_new {v v' x : Val} {k : PyStr} (hs : v.set k x = .ok v') : weight v' ≤ weight v + ent k x := by
  cases v with
  | dict d => cases hs; have := dset_new d k x; simp only [weight]; omega
  | _ => cases hs

/-- An update that puts in something no heavier than what was there. -/
theorem upd_le {f : Val → Except Err Val} : ∀ {l : List PyStr} {v v' : Val}, (∀ k ∈ l, k ≠ P "values") →
    (∀ x y, v.path l = .ok x → f x = .ok y → weight y ≤ weight x) → v.upd f l = .ok v' → weight v' ≤ weight v
  | [], v, v', _, hf, h => hf v v' rfl h
  | k :: l, v, v', hk, hf, h => by
    unfold Val.upd at h
    cases hz : v.get k with
    | error e => rw [hz] at h; cases h
    | ok z =>
      rw [hz] at h
      simp only at h
      cases hu : z.upd f l with
      | error e => rw [hu] at h; cases h
      | ok z' =>
        rw [hu] at h
        have h1 := upd_le (fun k' m => hk k' (List.mem_cons_of_mem _ m)) (fun x y hp => hf x y (by unfold Val.path; rw [hz]; exact hp)) hu
        have hv := hk k List.mem_cons_self
        exact set_le hz h (by rw [ent_other hv, ent_other hv]; exact h1)

/-- A step that makes nothing heavier. -/
def Light (f : Val → Except Err Val) : Prop := ∀ x y, f x = .ok y → weight y ≤ weight x

theorem light_upd {f : Val → Except Err Val} (hf : Light f) {l : List PyStr} (hk : ∀ k ∈ l, k ≠ P "values") : Light (Val.upd f l) :=
  fun _ _ h => upd_le hk (fun _ _ _ => hf _ _) h

theorem upd_dict {f : Val → Except Err Val} {k : PyStr} {l : List PyStr} {v v' : Val} (h : v.upd f (k :: l) = .ok v') :
    ∃ d, v' = .dict d := by
  unfold Val.upd at h
  split at h
  · split at h
    · cases v with
      | dict d => cases h; exact ⟨_, rfl⟩
      | _ => cases h
    · cases h
  · cases h

theorem mapE_weight {f : Val → Except Err Val} (hf : Light f) : ∀ {l l' : List Val}, mapE f l = .ok l' → weightL l' ≤ weightL l
  | [], l', h => by cases h; exact Nat.le_refl _
  | a :: t, l', h => by
    unfold mapE at h
    split at h
    · rename_i b hb
      split at h
      · cases h
        rename_i bs hbs
        have := hf _ _ hb
        have := mapE_weight hf hbs
        simp only [weightL]; omega
      · cases h
    · cases h

theorem light_forEach {f : Val → Except Err Val} (hf : Light f) : Light (forEach f) := by
  intro x y h
  unfold forEach at h
  split at h
  · split at h
    · cases h; rename_i e; have := mapE_weight hf e; simp only [weight]; omega
    · cases h
  · split at h
    · cases h; rename_i e; have := mapE_weight hf e; simp only [weight]; omega
    · cases h
  · cases h; exact Nat.le_refl _
  · cases h; exact Nat.le_refl _
  · cases h; exact Nat.le_refl _
  · cases h

theorem blobLen_mapE {f : Val → Except Err Val} (hd : ∀ x y, f x = .ok y → ∃ d, y = .dict d) {l l' : List Val}
    (h : mapE f l = .ok l') : blobLen (.list l') = 0 := by
  cases l with
  | nil => cases h; rfl
  | cons a t =>
    unfold mapE at h
    split at h
    · rename_i b hb
      split at h
      · cases h
        obtain ⟨d, rfl⟩ := hd _ _ hb
        rfl
      · cases h
    · cases h

theorem blobLen_forEach {f : Val → Except Err Val} (hd : ∀ x y, f x = .ok y → ∃ d, y = .dict d) {x y : Val}
    (h : forEach f x = .ok y) : blobLen y ≤ blobLen x := by
  unfold forEach at h
  split at h
  · split at h
    · cases h; rename_i e; rw [blobLen_mapE hd e]; omega
    · cases h
  · split at h
    · cases h; rename_i e
      have : blobLen (.tuple _) = 0 := blobLen_mapE hd e
      rw [this]; omega
    · cases h
  · cases h; exact Nat.le_refl _
  · cases h; exact Nat.le_refl _
  · cases h; exact Nat.le_refl _
  · cases h

/-- Steps on the elements of an array. -/
theorem light_elements {f : Val → Except Err Val} (hf : Light f) (hd : ∀ x y, f x = .ok y → ∃ d, y = .dict d) :
    Light (Val.upd (forEach f) [P "value", P "values"]) := by
  have h1 : Light (Val.upd (forEach f) [P "values"]) := by
    intro v v' h
    unfold Val.upd at h
    cases hz : v.get (P "values") with
    | error e => rw [hz] at h; cases h
    | ok z =>
      rw [hz] at h
      simp only [Val.upd] at h
      cases hu : forEach f z with
      | error e => rw [hu] at h; cases h
      | ok z' =>
        rw [hu] at h
        have a1 := light_forEach hf _ _ hu
        have a2 := blobLen_forEach hd hu
        exact set_le hz h (by simp only [ent, if_pos, entry]; omega)
  intro v v' h
  exact light_upd h1 (l := [P "value"]) (by intro k hk; cases hk with | head => exact fun e => absurd ((P_inj _ _).1 e) (by decide) | tail _ h => cases h) v v' h

/-- What a decoder makes of the entry `"values"`. -/
def Decodes (f : Val → Except Err Val) : Prop := ∀ b y, f b = .ok y → weight y ≤ 1 + entry b

theorem light_onValues {f : Val → Except Err Val} (hf : Decodes f) : Light (onValues f) := by
  intro w y h
  unfold onValues at h
  split at h
  · rename_i b hb
    have := hf _ _ h
    have := get_le hb
    simp only [ent, if_pos] at this
    omega
  · cases h

theorem decodes_runOr {x : Val → R Val} (hx : ∀ b, BlobOr b (x b)) : Decodes fun b => runBlob b (x b) := by
  intro b y h
  beta_reduce at h
  unfold runBlob at h
  split at h
  · cases h
  · rename_i bs hbs
    split at h
    · rename_i r s' hr
      cases h
      have hl : blobLen b = bs.length := by unfold blobLen; rw [hbs]
      rcases hx b _ _ _ hr with h1 | rfl
      · simp only [entry]; omega
      · simp only [dct, List.map, weight, if_pos, weightD, entry]; omega
    · cases h

theorem decodes_run {x : R Val} (hx : Blob x) : Decodes fun b => runBlob b x := decodes_runOr fun _ => blobOr_of hx

theorem decodes_empty {x : R Val} {dflt : Val} (hx : Blob x) (hd : weight dflt ≤ 62) : Decodes fun b => emptyOr dflt b x := by
  intro b y h
  beta_reduce at h
  unfold emptyOr at h
  split at h
  · cases h
  · cases h; simp only [entry]; omega
  · exact decodes_run hx _ _ h

theorem keyNe {l : List String} (h : "values" ∉ l) : ∀ k ∈ ks l, k ≠ P "values" := by
  intro k hk e
  obtain ⟨s, hs, rfl⟩ := List.mem_map.1 hk
  exact h ((P_inj _ _).1 e ▸ hs)

theorem light_value {f : Val → Except Err Val} (hf : Decodes f) : Light (decodeValue f) :=
  light_upd (light_onValues hf) (keyNe (l := ["value"]) (by decide))

theorem light_campModule1 (an : Bool) : Light (campModulePost1 an) := by
  intro m m' h
  unfold campModulePost1 at h
  split at h
  · cases h
  · exact light_upd (light_onValues (decodes_runOr fun b => blob_campModule an _ b)) (keyNe (by decide)) _ _ h

theorem light_workAssign1 : Light workAssignPost1 :=
  light_upd (light_onValues (decodes_run blob_workAssign)) (keyNe (by decide))

theorem path_snoc {k : PyStr} : ∀ {l : List PyStr} {v x b : Val}, v.path l = .ok x → v.path (l ++ [k]) = .ok b → x.get k = .ok b
  | [], v, x, b, h, g => by
    cases h
    rw [List.nil_append] at g
    unfold Val.path at g
    split at g
    · rename_i y e; rw [e]; exact g
    · cases g
  | k' :: l, v, x, b, h, g => by
    rw [List.cons_append] at g
    unfold Val.path at h g
    split at h
    · rename_i y e
      rw [e] at g
      exact path_snoc h g
    · cases h

theorem light_work1 (an : Bool) : Light (workPost1 an) := by
  intro w w' h
  unfold workPost1 at h
  split at h
  · cases h
  · rename_i b hb
    split at h
    · cases h
    · rename_i wt hwt
      split at h
      · cases h
      · rename_i w1 h1
        have e1 : weight w1 ≤ weight w := upd_le (keyNe (by decide)) (fun x y hx hy => by
          have hg : x.get (P "values") = .ok b := path_snoc hx hb
          have a1 := decodes_runOr (fun b => blob_work an wt b) _ _ hy
          have a2 := get_le hg
          simp only [ent, if_pos] at a2
          omega) h1
        have e2 := light_upd (light_forEach light_workAssign1) (keyNe (by decide)) _ _ h
        omega

theorem work1_dict (an : Bool) : ∀ x y, workPost1 an x = .ok y → ∃ d, y = .dict d := by
  intro w w' h
  unfold workPost1 at h
  split at h
  · cases h
  · split at h
    · cases h
    · split at h
      · cases h
      · exact upd_dict h

theorem light_debug : Light debugPost := by
  intro v y h
  unfold debugPost at h
  split at h
  · cases h
  · split at h
    · cases h
    · cases h
    · split at h
      · cases h; exact Nat.le_refl _
      · cases h

/-- Every decoder but that of groups and that of map objects. -/
theorem light_post {c : CodecId} (hg : c ≠ .group) (hm : c ≠ .mapObject) (an : Bool) {rec : R Val}
    (hr : Paid true rec fun v => weight v + 31) : Light (c.post an rec) := by
  have none62 : weight Val.none ≤ 62 := by simp [weight]
  cases c with
  | group => exact absurd rfl hg
  | mapObject => exact absurd rfl hm
  | character => exact light_value (decodes_run (blob_character hr))
  | itemContainer => exact light_value (decodes_empty blob_itemContainer none62)
  | itemContainerSlots => exact light_value (decodes_empty (blob_itemContainerSlots an) none62)
  | characterContainer => exact light_value (decodes_empty blob_charContainer none62)
  | dynamicItem => exact light_value (decodes_empty (blob_dynamicItem hr an) none62)
  | foliageModel => exact light_value (decodes_run blob_foliageModel)
  | foliageModelInstance => exact light_value (decodes_run (blob_foliageInstance an))
  | baseCamp => exact light_value (decodes_run (blob_baseCamp an))
  | workerDirector => exact light_value (decodes_run (blob_workerDirector an))
  | workCollection => exact light_value (decodes_run blob_workCollection)
  | baseCampModule => exact light_upd (light_forEach (light_campModule1 an)) (keyNe (l := ["value"]) (by decide))
  | work => exact light_elements (light_work1 an) (work1_dict an)
  | debug => exact light_debug
  | connector => exact light_value (decodes_empty blob_connector (by simp [dct, weight, weightD, weightL, blobLen, toBytes, mapE]))
  | buildProcess => exact light_value (decodes_run blob_buildProcess)
  | mapModel => exact light_value (decodes_run (blob_mapModel an))

theorem set_dict {v v' x : Val} {k : PyStr} (h : v.set k x = .ok v') : ∃ d, v' = .dict (dset d k x) := by
  cases v with
  | dict d => cases h; exact ⟨d, rfl⟩
  | _ => cases h

theorem blobLen_dset (d : Dict) (k : PyStr) (x : Val) : blobLen (.dict (dset d k x)) = 0 := by
  cases d with
  | nil => rfl
  | cons a t =>
    obtain ⟨k', v'⟩ := a
    unfold dset
    split <;> rfl

/-- The decoders of a configuration, without those of groups and map objects. -/
def Mild (cfg : Cfg) : Prop := ∀ p c, cfg.custom p = some c → c ≠ .group ∧ c ≠ .mapObject

section
variable {cfg : Cfg} (hc : Mild cfg) {rec : PyStr → R Val} (hr : ∀ p, Paid true (rec p) fun v => weight v + 31)
include hr

theorem paid_plain (ty : PyStr) (size : Nat) (path : PyStr) :
    Paid false (rPlain cfg rec ty size path) fun v => weight v - 10 := by
  refine paid_bind (paid_plainBody hr cfg ty size path) fun v => ?_
  refine paid_lift fun v' e => ?_
  have := set_new e
  rw [ent_other (fun e => absurd ((P_inj _ _).1 e) (by decide))] at this
  have h1 : weight (Val.str ty) = 1 := rfl
  omega

include hc in
theorem paid_property (ty : PyStr) (size : Nat) (path : PyStr) :
    Paid false (rProperty cfg rec ty size path) fun v => ent (P "values") v - 72 := by
  have hx : ∀ v, (∃ d k x, v = .dict (dset d k x)) → ent (P "values") v ≤ weight v + 60 := by
    rintro v ⟨d, k, x, rfl⟩
    have := weight_pos (.dict (dset d k x))
    simp only [ent, if_pos, entry, blobLen_dset]
    omega
  unfold rProperty
  split
  · intro s v s' h
    obtain ⟨h1, h2⟩ := paid_plain (cfg := cfg) hr ty size path s v s' h
    refine ⟨h1, fun hq => ?_⟩
    have h2 := h2 hq
    obtain ⟨w, s1, _, h⟩ := r_bind_inv h
    obtain ⟨e, _⟩ := rLift_inv h
    obtain ⟨d, rfl⟩ := set_dict e
    have := hx (.dict (dset d (P "type") (.str ty))) ⟨d, _, _, rfl⟩
    beta_reduce at h2 ⊢
    omega
  · rename_i c hcc
    refine paid_ite ?_ paid_fail
    refine paid_bind (paid_plain hr ty size path) fun v => ?_
    intro s y s' h
    obtain ⟨v1, s1, g1, h⟩ := r_bind_inv h
    obtain ⟨v2, s2, g2, h⟩ := r_bind_inv h
    obtain ⟨e1, r1⟩ := rLift_inv g1
    obtain ⟨e2, r2⟩ := rLift_inv g2
    obtain ⟨e3, r3⟩ := rLift_inv h
    have a1 := light_post (hc _ _ hcc).1 (hc _ _ hcc).2 _ (hr []) _ _ e1
    have a2 := set_new e2
    have a3 := set_new e3
    rw [ent_other (fun e => absurd ((P_inj _ _).1 e) (by decide))] at a2 a3
    obtain ⟨d, rfl⟩ := set_dict e3
    have a4 := hx (.dict (dset d (P "type") (.str ty))) ⟨d, _, _, rfl⟩
    have h1 : weight (Val.str ty) = 1 := rfl
    have h2 : weight (Val.str path) = 1 := rfl
    subst r1 r2 r3
    exact ⟨Nat.le_refl _, fun _ => by beta_reduce; omega⟩

end

/-- A property list, whatever comes after it. -/
theorem loop_weight {cfg : Cfg} (hc : Mild cfg) : ∀ n path acc s v s', rPropsLoop cfg n path acc s = .ok (v, s') →
    s'.length ≤ s.length ∧ weight v + 31 + 8 * s'.length ≤ 8 * s.length + weightD acc
  | 0, _, _, _, _, _ => fun h => (nomatch h)
  | n + 1, path, acc, s, v, s' => by
    intro h
    unfold rPropsLoop at h
    obtain ⟨name, s1, h1, h⟩ := r_bind_inv h
    have c1 := Size.fstring_len h1
    split at h
    · cases h
      simp only [weight]
      exact ⟨by omega, by omega⟩
    · obtain ⟨ty, s2, h2, h⟩ := r_bind_inv h
      obtain ⟨size, s3, h3, h⟩ := r_bind_inv h
      obtain ⟨x, s4, h4, h⟩ := r_bind_inv h
      have c2 := Size.fstring_len h2
      have c3 := (paid_unsigned (q := true) 8 _ _ _ h3).2 (.inl rfl)
      obtain ⟨l5, c5⟩ := loop_weight hc n _ _ _ _ _ h
      have hne : s4 ≠ [] := by
        rintro rfl
        cases n with
        | zero => cases h
        | succ n =>
          unfold rPropsLoop at h
          obtain ⟨name, s1, h1, h⟩ := r_bind_inv h
          have := Size.fstring_len h1
          simp at this
      obtain ⟨l4, c4⟩ := paid_property hc (fun p s v s' e => ⟨(loop_weight hc n p [] s v s' e).1, fun _ => by
        have := (loop_weight hc n p [] s v s' e).2
        simp only [weightD] at this
        omega⟩) _ _ _ _ _ _ h4
      have c4 := c4 (.inr hne)
      have := dset_new acc name x
      have hle : ent name x ≤ ent (P "values") x := by
        simp only [ent]
        split
        · simp
        · simp only [if_pos, entry]; omega
      beta_reduce at c3 c4
      exact ⟨by omega, by omega⟩

theorem paid_header : Paid false hdrRead fun h => weight h.dump + 2 := by
  refine paid_bind (paid_signed 4) fun _ => paid_ite paid_fail (paid_bind (paid_signed 4) fun _ => paid_ite paid_fail ?_)
  refine paid_bind (paid_signed 4) fun _ => paid_bind (paid_signed 4) fun _ => paid_bind (paid_unsigned 2) fun _ =>
    paid_bind (paid_unsigned 2) fun _ => paid_bind (paid_unsigned 2) fun _ => paid_bind (paid_unsigned 4) fun _ =>
    paid_bind paid_str fun _ => paid_bind (paid_signed 4) fun _ => paid_ite paid_fail ?_
  refine paid_bind (paid_array (paid_bind full_guid fun _ => paid_bind (paid_signed 4) fun _ => paid_pure (by
    simp only [weight, weightL]; omega))) fun _ => paid_bind paid_str fun _ => paid_pure ?_
  simp only [Hdr.dump]
  pay

theorem read_values {cfg : Cfg} (hc : Mild cfg) {data : Bytes} {g : Gvas} (h : gvasRead cfg data = .ok g) :
    values g.dump ≤ 8 * data.length := by
  refine Nat.le_trans (values_le _) ?_
  unfold gvasRead at h
  cases hr : gvasReadR cfg (data.length + 1) data with
  | error e => rw [hr] at h; cases h
  | ok q =>
    obtain ⟨g', s0⟩ := q
    rw [hr] at h
    cases h
    obtain ⟨hd, s1, h1, h⟩ := r_bind_inv hr
    obtain ⟨p, s2, h2, h⟩ := r_bind_inv h
    obtain ⟨t, s3, h3, h⟩ := r_bind_inv h
    cases h
    have c2 := (loop_weight hc _ _ _ _ _ _ h2).2
    have hne : s1 ≠ [] := by
      rintro rfl
      simp only [List.length_nil, weightD] at c2
      omega
    have c1 := (paid_header _ _ _ h1).2 (.inr hne)
    simp only [weightD] at c2
    beta_reduce at c1
    simp [Gvas.dump, dct, weight, weightD, P_inj]
    omega

end Weight
end Pal
