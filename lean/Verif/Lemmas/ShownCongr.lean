import Verif.Lemmas.Shown
import Verif.Lemmas.ShownBlobs4
/-
What a list says depends on the decoders of custom properties only through blobs that are shorter than
the list itself.
-/

namespace Pal
open Spec

theorem text_len {s rest : Bytes} {t : PyStr} (h : Text s t rest) : rest.length < s.length :=
  fstring_consumes (rFString_iff.2 h)

theorem textV_len {s rest : Bytes} {v : Val} (h : Layout.text s v rest) : rest.length < s.length := by
  obtain ⟨t, h, _⟩ := h; exact text_len h

theorem guid_len {s rest : Bytes} {v : Val} (h : Layout.guid s v rest) : rest.length ≤ s.length := by
  obtain ⟨b, h, _⟩ := h; exact takes_le h

theorem optGuid_len {s rest : Bytes} {v : Val} (h : Layout.optGuid s v rest) : rest.length ≤ s.length := by
  obtain ⟨x, s', rfl, ⟨_, _, rfl⟩ | ⟨_, h⟩⟩ := h
  · simp
  · have := guid_len h
    simp; omega

theorem ok_len {α : Type} [HasLim α] {x y : R α} {s rest : Bytes} {a : α} (h : Ok s.length s.length x y) (e : x s = .ok (a, rest)) :
    rest.length ≤ s.length := by
  obtain ⟨⟨c, hc⟩, -⟩ := (h s (Nat.le_refl _)).2.2 _ _ e
  have := congrArg List.length hc
  rw [List.length_append] at this
  omega

theorem readList_rec' (cfg : Cfg) (K : Nat) : OkRec K K (readList cfg) (readList cfg) :=
  ⟨fun p => readList_ok' cfg p K, fun p s v s' h => loop_dict cfg _ p [] s v s' h⟩

theorem fixed_len {an : Bool} {cfg : Cfg} (he : an = cfg.allowNan) {t : String} {L : Layout} (h : (t, L) ∈ structLayouts an)
    {s rest : Bytes} {v : Val} (hl : L s v rest) : rest.length ≤ s.length := by
  subst he
  exact ok_len (ok_structValue _ (readList_rec' cfg s.length) (P t) []) ((structFixed_reads h _ _ _).2 hl)

theorem entry_len {t : String} {L : Layout} (h : (t, L) ∈ entryLayouts) {s rest : Bytes} {v : Val} (hl : L s v rest) :
    rest.length ≤ s.length := by
  let cfg : Cfg := ⟨fun _ => none, fun _ => none, true⟩
  exact ok_len (ok_propValue true (readList_rec' cfg s.length) (P t) [] []) ((entry_reads h _ _ _).2 hl)

theorem element_len {t : String} {L : Layout} (h : (t, L) ∈ elementLayouts) {s rest : Bytes} {v : Val} (hl : L s v rest) :
    rest.length ≤ s.length := by
  simp only [elementLayouts, List.mem_cons, List.not_mem_nil, or_false, Prod.mk.injEq] at h
  rcases h with ⟨_, rfl⟩ | ⟨_, rfl⟩ | ⟨_, rfl⟩
  · exact (textV_len hl).le
  · exact (textV_len hl).le
  · exact guid_len hl

section
variable {cfg : Cfg} {D D' : CodecId → Val → Val → Prop} {n : Nat}
  (hB : ∀ ty size path s es rest, BodyAt cfg D ty size path s es rest → BodyAt cfg D' ty size path s es rest →
    rest.length ≤ s.length ∧ Lim s.length (vDict (es ++ [("type", .str ty)])))
  (hD : ∀ path c, cfg.custom path = some c → ∀ K < n, ∀ v w, Lim K v → D c v w → D' c v w)
include hB hD

mutual
theorem structAt_congr : ∀ {st path : PyStr} {s rest : Bytes} {v : Val}, StructAt cfg D st path s v rest → s.length ≤ n →
    StructAt cfg D' st path s v rest ∧ rest.length ≤ s.length
  | _, _, _, _, _, .fixed h1 h2, _ => ⟨.fixed h1 h2, fixed_len rfl h1 h2⟩
  | _, _, _, _, _, .list h1 h2, hs => ⟨.list h1 (listAt_congr h2 hs).1, (listAt_congr h2 hs).2⟩
theorem entryAt_congr : ∀ {ty st path : PyStr} {s rest : Bytes} {v : Val}, EntryAt cfg D ty st path s v rest → s.length ≤ n →
    EntryAt cfg D' ty st path s v rest ∧ rest.length ≤ s.length
  | _, _, _, _, _, _, .struct h1, hs => ⟨.struct (structAt_congr h1 hs).1, (structAt_congr h1 hs).2⟩
  | _, _, _, _, _, _, .plain h1 h2, _ => ⟨.plain h1 h2, entry_len h1 h2⟩
theorem structsAt_congr : ∀ {st path : PyStr} {k : Nat} {s rest : Bytes} {l : List Val}, StructsAt cfg D st path k s l rest →
    s.length ≤ n → StructsAt cfg D' st path k s l rest ∧ rest.length ≤ s.length
  | _, _, _, _, _, _, .nil, _ => ⟨.nil, Nat.le_refl _⟩
  | _, _, _, _, _, _, .cons h1 h2, hs => by
    have i1 := structAt_congr h1 hs
    have i2 := structsAt_congr h2 (by omega)
    exact ⟨.cons i1.1 i2.1, by omega⟩
theorem entriesAt_congr : ∀ {kt ks vt vs kp vp : PyStr} {k : Nat} {s rest : Bytes} {l : List Val},
    EntriesAt cfg D kt ks vt vs kp vp k s l rest → s.length ≤ n →
    EntriesAt cfg D' kt ks vt vs kp vp k s l rest ∧ rest.length ≤ s.length
  | _, _, _, _, _, _, _, _, _, _, .nil, _ => ⟨.nil, Nat.le_refl _⟩
  | _, _, _, _, _, _, _, _, _, _, .cons h1 h2 h3, hs => by
    have i1 := entryAt_congr h1 hs
    have i2 := entryAt_congr h2 (by omega)
    have i3 := entriesAt_congr h3 (by omega)
    exact ⟨.cons i1.1 i2.1 i3.1, by omega⟩
theorem bodyAt_congr : ∀ {ty : PyStr} {size : Nat} {path : PyStr} {s rest : Bytes} {es : List (String × Val)},
    BodyAt cfg D ty size path s es rest → s.length ≤ n → BodyAt cfg D' ty size path s es rest
  | _, _, _, _, _, _, .value h1 h2 h3, _ => .value h1 h2 h3
  | _, _, _, _, _, _, .enum h1 h2 h3, _ => .enum h1 h2 h3
  | _, _, _, _, _, _, .bool h1 h2, _ => .bool h1 h2
  | _, _, _, _, _, _, .struct h1 h2 h3 h4, hs => by
    have l1 := text_len h1
    have l2 := guid_len h2
    have l3 := optGuid_len h3
    exact .struct h1 h2 h3 (structAt_congr h4 (by omega)).1
  | _, _, _, _, _, _, .array h0 h1 h2 h3 h4, _ => .array h0 h1 h2 h3 h4
  | _, _, _, _, _, _, .bytes h1 h2 h3 h4 h5, _ => .bytes h1 h2 h3 h4 h5
  | _, _, _, _, _, _, .structs h1 h2 h3 h4 h5 h6 h7 h8 h9 h10, hs => by
    have l1 := text_len h1
    have l2 := optGuid_len h2
    have l3 := unsigned_len h3
    have l4 := text_len h4
    have l5 := text_len h5
    have l6 := unsigned_len h6
    have l7 := text_len h7
    have l8 := guid_len h8
    have l9 := takes_le h9
    exact .structs h1 h2 h3 h4 h5 h6 h7 h8 h9 (structsAt_congr h10 (by omega)).1
  | _, _, _, _, _, _, .map h1 h2 h3 h4 h5 hk hv h6, hs => by
    have l1 := text_len h1
    have l2 := text_len h2
    have l3 := optGuid_len h3
    have l4 := unsigned_len h4
    have l5 := unsigned_len h5
    exact .map h1 h2 h3 h4 h5 hk hv (entriesAt_congr h6 (by omega)).1
theorem listAt_congr : ∀ {path : PyStr} {s rest : Bytes} {l : List (PyStr × Val)}, ListAt cfg D path s l rest → s.length ≤ n →
    ListAt cfg D' path s l rest ∧ rest.length ≤ s.length
  | _, _, _, _, .nil h1, _ => ⟨.nil h1, (text_len h1).le⟩
  | _, _, _, _, .plain h1 hn h2 h3 hc h4 h5, hs => by
    have l1 := text_len h1
    have l2 := text_len h2
    have l3 := unsigned_len h3
    have i1 := bodyAt_congr h4 (by omega)
    have l4 := (hB _ _ _ _ _ _ h4 i1).1
    have i2 := listAt_congr h5 (by omega)
    exact ⟨.plain h1 hn h2 h3 hc i1 i2.1, by omega⟩
  | _, _, _, _, .custom h1 hn h2 h3 hc h4 hd h5, hs => by
    have l1 := text_len h1
    have l2 := text_len h2
    have l3 := unsigned_len h3
    have i1 := bodyAt_congr h4 (by omega)
    have l4 := hB _ _ _ _ _ _ h4 i1
    have i2 := listAt_congr h5 (by omega)
    exact ⟨.custom h1 hn h2 h3 hc i1 (hD _ _ hc _ (by omega) _ _ l4.2 hd) i2.1, by omega⟩
end
end

/-! ### blobs -/

section
variable {an : Bool} {E E' : Layout} {F : Bytes → Prop} {K : Nat} (hE : ∀ s, s.length ≤ K → ∀ v rest, E s v rest ↔ E' s v rest)
include hE

theorem egg_congr {s rest : Bytes} {l : List (String × Val)} (hs : s.length ≤ K) :
    Layout.fields (eggFields E) s l rest ↔ Layout.fields (eggFields E') s l rest := by
  have key : ∀ {A B : Layout}, (∀ s, s.length ≤ K → ∀ v rest, A s v rest → B s v rest) →
      Layout.fields (eggFields A) s l rest → Layout.fields (eggFields B) s l rest := by
    rintro A B h ⟨_, _, _, ⟨rfl, rfl⟩, ⟨c, s2, _, h2, ⟨o, s3, _, h3, h4, rfl⟩, rfl⟩, rfl⟩
    have := textV_len h2
    exact ⟨_, _, _, ⟨rfl, rfl⟩, ⟨c, s2, _, h2, ⟨o, s3, _, h _ (by omega) _ _ h3, h4, rfl⟩, rfl⟩, rfl⟩
  exact ⟨key fun s hs v r => (hE s hs v r).1, key fun s hs v r => (hE s hs v r).2⟩

theorem shownCharacter_congr {b : Bytes} {v : Val} (hb : b.length ≤ K) (t : List (String × Layout))
    (h : whole (("object", E) :: t) b v) : whole (("object", E') :: t) b v := by
  obtain ⟨_, ⟨o, s, l, h1, h2, rfl⟩, rfl⟩ := h
  exact ⟨_, ⟨o, s, l, (hE _ hb _ _).1 h1, h2, rfl⟩, rfl⟩

theorem item_congr {b : Bytes} {v : Val} (hb : b.length ≤ K) (h : ShowsItem an E F b v) : ShowsItem an E' F b v := by
  obtain ⟨id, s, f, l, h1, h2, h3, rfl⟩ := h
  have hs : s.length ≤ K := by
    obtain ⟨_, ⟨_, s1, _, g1, ⟨_, s2, _, g2, ⟨_, s3, _, g3, ⟨_, rfl⟩, _⟩, _⟩, _⟩, _⟩ := h1
    have l1 := guid_len g1
    have l2 := guid_len g2
    have l3 := textV_len g3
    omega
  have e := fun l r => egg_congr (rest := r) (l := l) hE hs
  cases h2 with
  | egg h4 =>
    obtain ⟨l', h4⟩ := h4
    exact ⟨id, s, _, l, h1, .egg ⟨l', (e _ _).1 h4⟩, (e _ _).1 h3, rfl⟩
  | armor h4 h5 h6 => exact ⟨id, s, _, l, h1, .armor (fun l r h => h4 l r ((e _ _).2 h)) h5 h6, h3, rfl⟩
  | weapon h4 h5 h6 h7 => exact ⟨id, s, _, l, h1, .weapon (fun l r h => h4 l r ((e _ _).2 h)) h5 h6 h7, h3, rfl⟩
  | other h4 h5 h6 h7 => exact ⟨id, s, _, l, h1, .other (fun l r h => h4 l r ((e _ _).2 h)) h5 h6 h7, h3, rfl⟩

omit hE in
theorem concrete_names (an : Bool) (E E' : Layout) : (concreteFields an E).map Prod.fst = (concreteFields an E').map Prod.fst := by
  simp only [concreteFields, concretePlain, List.map_append, List.map_map]
  rfl

omit hE in
theorem concrete_split (an : Bool) (E E' : Layout) : concreteFields an E =
    (concreteFields an E').take (concreteNoOp.length + 13) ++
      ("PalMapObjectHatchingEggModel", [("hatched_character_save_parameter", E), ("unknown_bytes", .u 4), ("hatched_character_guid", .guid)]) ::
      (concreteFields an E').drop (concreteNoOp.length + 14) := rfl

omit hE in
theorem concrete_row (an : Bool) (E E' : Layout) {c : String} {f : List (String × Layout)} (h : (c, f) ∈ concreteFields an E) :
    (c, f) ∈ concreteFields an E' ∨ (f = [("hatched_character_save_parameter", E), ("unknown_bytes", .u 4), ("hatched_character_guid", .guid)] ∧
      (c, [("hatched_character_save_parameter", E'), ("unknown_bytes", .u 4), ("hatched_character_guid", .guid)]) ∈ concreteFields an E') := by
  rw [concrete_split an E E', List.mem_append, List.mem_cons] at h
  rcases h with h | h | h
  · exact .inl (List.mem_of_mem_take h)
  · refine .inr ⟨(Prod.mk.inj h).2, ?_⟩
    rw [(Prod.mk.inj h).1, concrete_split an E' E']
    exact List.mem_append_right _ List.mem_cons_self
  · exact .inl (List.mem_of_mem_drop h)

theorem shownConcrete_congr {raw oid : Val} {b : Bytes} {v : Val} (hb : b.length ≤ K) (h : ShowsConcrete an E raw b oid v) :
    ShowsConcrete an E' raw b oid v := by
  cases h with
  | known h1 h2 h3 =>
    rcases concrete_row an E E' h2 with h4 | ⟨rfl, h4⟩
    · exact .known h1 h4 h3
    · refine .known h1 h4 ?_
      obtain ⟨_, ⟨_, s1, _, g1, ⟨_, s2, _, g2, ⟨_, s3, _, ⟨g3, rfl⟩, ⟨o, s4, _, g4, g5, rfl⟩, rfl⟩, rfl⟩, rfl⟩, rfl⟩ := h3
      have l1 := guid_len g1
      have l2 := guid_len g2
      exact ⟨_, ⟨_, s1, _, g1, ⟨_, _, _, g2, ⟨_, _, _, ⟨g3, rfl⟩, ⟨o, s4, _, (hE _ (by omega) _ _).1 g4, g5, rfl⟩, rfl⟩, rfl⟩, rfl⟩, rfl⟩
  | unknown h1 =>
    refine .unknown fun c hc e he => ?_
    have hm : e.1 ∈ (concreteFields an E').map Prod.fst := List.mem_map_of_mem he
    rw [concrete_names an E' E] at hm
    obtain ⟨e', h2, h3⟩ := List.mem_map.1 hm
    exact h3 ▸ h1 c hc e' h2
end

/-! ### values -/

variable {an : Bool} {E E' : Layout} {F : Bytes → Prop} {K : Nat}

theorem change_congr {R R' : Val → Val → Prop} (h : ∀ x y, Lim K x → R x y → R' x y) : ∀ (p : List String) {v w : Val}, Lim K v →
    Change R p v w → Change R' p v w
  | [], v, w, hl, hc => h v w hl hc
  | _ :: p, v, w, hl, ⟨x, x', h1, h2, h3⟩ => ⟨x, x', h1, change_congr h p (get_lim hl h1).1 h2, h3⟩

theorem values_congr {R R' : Val → Val → Prop} (h : ∀ x y, blobOk K x → R x y → R' x y) {v w : Val} (hl : Lim K v)
    (hv : FromValues R v w) : FromValues R' v w := by
  obtain ⟨raw, h1, h2⟩ := hv
  exact ⟨raw, h1, h raw w ((get_lim hl h1).2 rfl) h2⟩

theorem blob_congr {B B' : Bytes → Val → Prop} (h : ∀ b v, b.length ≤ K → B b v → B' b v) {x y : Val} (hx : blobOk K x)
    (hf : FromBlob B x y) : FromBlob B' x y := by
  obtain ⟨b, h1, h2⟩ := hf
  exact ⟨b, h1, h b y (hx b h1) h2⟩

theorem orEmpty_congr {d : Val} {B B' : Bytes → Val → Prop} (h : ∀ b v, b.length ≤ K → B b v → B' b v) {x y : Val} (hx : blobOk K x)
    (hf : OrEmpty d B x y) : OrEmpty d B' x y := by
  rcases hf with hf | ⟨l, h1, h2, h3⟩
  · exact .inl hf
  · exact .inr ⟨l, h1, h2, blob_congr h hx h3⟩

theorem each_congr {R R' : Val → Val → Prop} (h : ∀ x y, Lim K x → R x y → R' x y) {v w : Val} (hl : Lim K v) (he : Each R v w) :
    Each R' v w := by
  have key : ∀ {l l' : List Val}, LimL K l → List.Forall₂ R l l' → List.Forall₂ R' l l' := by
    intro l l' hl hf
    induction hf with
    | nil => exact .nil
    | cons h1 _ ih => rw [LimL] at hl; exact .cons (h _ _ hl.1 h1) (ih hl.2)
  cases he with
  | list h1 => exact .list (key (by simpa only [Lim] using hl) h1)
  | tuple h1 => exact .tuple (key (by simpa only [Lim] using hl) h1)
  | empty h1 => exact .empty h1

theorem then_congr {R S S' : Val → Val → Prop} {f : Val → Except Err Val} (hf : Does f R) (ho : OkV K f f)
    (h : ∀ x y, Lim K x → S x y → S' x y) {v w : Val} (hl : Lim K v) (ht : Then R S v w) : Then R S' v w := by
  obtain ⟨v1, h1, h2⟩ := ht
  exact ⟨v1, h1, h _ _ ((ho v hl).2.2 v1 ((hf _ _).2 h1)) h2⟩

theorem thenL_congr {R R' S : Val → Val → Prop} (h : ∀ x y, Lim K x → R x y → R' x y) {v w : Val} (hl : Lim K v) (ht : Then R S v w) :
    Then R' S v w := by
  obtain ⟨v1, h1, h2⟩ := ht
  exact ⟨v1, h _ _ hl h1, h2⟩

/-- What a custom property is shown as depends on embedded lists only as far as its blobs reach. -/
theorem decoded_congr (hE : ∀ s, s.length ≤ K → ∀ v rest, E s v rest ↔ E' s v rest) (c : CodecId) {v w : Val} (hl : Lim K v)
    (h : Decoded an E F c v w) : Decoded an E' F c v w := by
  cases c with
  | character =>
    exact change_congr (fun x y hx => values_congr (fun x y hx => blob_congr (fun b v hb => shownCharacter_congr hE hb _) hx) hx) _ hl h
  | dynamicItem =>
    exact change_congr (fun x y hx => values_congr (fun x y hx => orEmpty_congr (fun b v hb => item_congr hE hb) hx) hx) _ hl h
  | mapObject =>
    refine change_congr (fun x y hx => each_congr (fun x y hx => ?_) hx) _ hl h
    refine then_congr (upd_does (onValues_does (runBlob_does' (mapModel_shows an))) _)
      (okv_upd (okv_onValues (okb_run (ok_mapModel an))) _ (ne_values (by decide))) (fun x y hx => ?_) hx
    refine then_congr (upd_does (onValues_does (emptyOr_does' connector_shows)) _)
      (okv_upd (okv_onValues (okb_empty lim_emptyValues ok_connector)) _ (ne_values (by decide))) (fun x y hx => ?_) hx
    refine then_congr (upd_does (onValues_does (runBlob_does' buildProcess_shows)) _)
      (okv_upd (okv_onValues (okb_run ok_buildProcess)) _ (ne_values (by decide))) (fun x y hx => ?_) hx
    refine thenL_congr (fun x y hx => ?_) hx
    rintro ⟨o, h1, h2⟩
    exact ⟨o, h1, change_congr (fun x y hx => values_congr (fun x y hx => orEmpty_congr (fun b v hb => shownConcrete_congr hE hb) hx) hx) _ hx h2⟩
  | _ => exact h

/-! ### the equation of custom properties -/

theorem noFuel_readList (cfg : Cfg) (path : PyStr) : NoFuel (readList cfg path) :=
  fun s => (readList_ok' cfg path s.length s (Nat.le_refl _)).2.1

/-- What the reader does is a solution. -/
theorem decodes_post (cfg : Cfg) : Decodes cfg fun c v w => c.post cfg.allowNan (readList cfg []) v = .ok w :=
  fun _ _ _ _ _ => Iff.rfl

theorem post_solution {cfg : Cfg} {F : Bytes → Prop} (hF : ∀ s, F s ↔ readList cfg [] s = .error eofErr) (c : CodecId) (v w : Val) :
    c.post cfg.allowNan (readList cfg []) v = .ok w ↔
      Decoded cfg.allowNan (EmbeddedList cfg fun c v w => c.post cfg.allowNan (readList cfg []) v = .ok w) F c v w :=
  post_does (fun _ _ _ => readList_iff (decodes_post cfg)) hF (noFuel_readList cfg []) c v w

/-- Every solution is what the reader does. -/
theorem solution_list {cfg : Cfg} {D : CodecId → Val → Val → Prop} {F : Bytes → Prop}
    (hD : ShowsCustom cfg F D)
    (hF : ∀ s, F s ↔ readList cfg [] s = .error eofErr) : ∀ (n : Nat) (path : PyStr) (s rest : Bytes) (l : List (PyStr × Val)), s.length ≤ n →
    (ListAt cfg D path s l rest ↔ ListAt cfg (fun c v w => c.post cfg.allowNan (readList cfg []) v = .ok w) path s l rest) := by
  intro n
  induction n using Nat.strongRecOn with
  | ind n ih =>
  have h0 := decodes_post cfg
  have key : ∀ path c, cfg.custom path = some c → ∀ K < n, ∀ v w, Lim K v →
      (D c v w ↔ c.post cfg.allowNan (readList cfg []) v = .ok w) := by
    intro path c hc K hK v w hl
    rw [hD path c hc, post_solution hF]
    have e : ∀ s : Bytes, s.length ≤ K → ∀ v rest, EmbeddedList cfg D s v rest ↔
        EmbeddedList cfg (fun c v w => c.post cfg.allowNan (readList cfg []) v = .ok w) s v rest :=
      fun s hs v rest => exists_congr fun l => and_congr (ih K hK [] s rest l hs) Iff.rfl
    exact ⟨decoded_congr e c hl, decoded_congr (fun s hs v rest => (e s hs v rest).symm) c hl⟩
  have body : ∀ {ty : PyStr} {size : Nat} {path : PyStr} {s rest : Bytes} {es : List (String × Val)},
      BodyAt cfg (fun c v w => c.post cfg.allowNan (readList cfg []) v = .ok w) ty size path s es rest →
      rest.length ≤ s.length ∧ Lim s.length (vDict (es ++ [("type", .str ty)])) := by
    intro ty size path s rest es h
    have h1 := bodyAt_read h0 h
    have h2 : rPlain cfg (readList cfg) ty size path s = .ok (_, rest) := plain_iff.2 ⟨_, h1, set_type (bodyAt_noType h) _⟩
    have ok := ok_plain cfg (readList_rec' cfg s.length) (Nat.le_refl _) ty size path
    exact ⟨ok_len ok h2, ((ok s (Nat.le_refl _)).2.2 _ _ h2).2⟩
  intro path s rest l hs
  constructor
  · exact fun h => (listAt_congr (fun _ _ _ _ _ _ _ h => body h) (fun p c hc K hK v w hl => (key p c hc K hK v w hl).1) h hs).1
  · exact fun h => (listAt_congr (fun _ _ _ _ _ _ h _ => body h) (fun p c hc K hK v w hl => (key p c hc K hK v w hl).2) h hs).1

end Pal
