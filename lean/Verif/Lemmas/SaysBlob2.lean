import Verif.Lemmas.SaysBlob
/-
The blobs with parts that may be missing, and those with embedded property lists.
-/

namespace Pal
open Spec

/-! ### connectors -/

theorem codes_items : Codes (fun _ v => match v.iterItems with
    | .ok l => wItems otherConnectorEncode l
    | .error e => .error e) (fun y (xs : List (BitVec 8 × Lst (Guid × BitVec 8))) => ∃ l, Items y l ∧ List.Forall₂ SaysOther l xs)
    (·.flatMap eOther) where
  fw := fun {n v b} hp hw => by
    cases hi : v.iterItems with
    | error e => rw [hi] at hw; cases hw
    | ok l =>
      rw [hi] at hw
      have hit : Items v l := by
        cases v with
        | list l => cases hi; exact .list _
        | tuple l => cases hi; exact .tuple _
        | bytes l => cases hi; exact .bytes _
        | str l => cases hi; exact .str _
        | dict d =>
          cases d with
          | nil => cases hi; exact .dict
          | cons a t =>
            cases hi
            obtain ⟨c, d, h1, -, -⟩ := wcat_iff.1 hw
            cases h1
        | _ => cases hi
      obtain ⟨xs, h1, h2⟩ := wItems_fw (n := n) codes_other (plain_items hp hit) hw
      exact ⟨xs, ⟨l, hit, h1⟩, h2⟩
  bw := by
    rintro v xs ⟨l, hi, h⟩
    obtain ⟨k, hk⟩ := wItems_bw codes_other h
    refine ⟨k, fun n hn => ?_⟩
    have : v.iterItems = .ok l := by cases hi <;> rfl
    simp only [this]
    exact hk n hn

theorem codes_others : Codes (fun _ p => match p.contains (P "other_connectors") with
    | .error e => .error e
    | .ok false => .ok []
    | .ok true => wAt p ["other_connectors"] fun v => match v.iterItems with
        | .ok l => wItems otherConnectorEncode l
        | .error e => .error e)
    (fun v xs => (v.contains (P "other_connectors") = .ok false ∧ xs = []) ∨
      Reach v ["other_connectors"] fun y => ∃ l, Items y l ∧ List.Forall₂ SaysOther l xs) (·.flatMap eOther) where
  fw := fun {n v b} hp hw => by
    cases hc : v.contains (P "other_connectors") with
    | error e => rw [hc] at hw; cases hw
    | ok c =>
      rw [hc] at hw
      cases c with
      | false => exact ⟨[], .inl ⟨rfl, rfl⟩, (Except.ok.inj hw).symm⟩
      | true =>
        obtain ⟨xs, h1, h2⟩ := codes_items.under.fw (n := n) hp hw
        exact ⟨xs, .inr h1, h2⟩
  bw := by
    rintro v xs (⟨h, rfl⟩ | h)
    · exact ⟨0, fun _ _ => by simp only [h]; rfl⟩
    · obtain ⟨k, hk⟩ := codes_items.under.bw h
      obtain ⟨y, hy, -⟩ := h
      refine ⟨k, fun n hn => ?_⟩
      simp only [contains_of_get hy]
      exact hk n hn

mk_iff_of_inductive_prop Pal.Spec.SaysConnector Pal.saysConnector_iff
theorem codes_connector : Codes (fun _ => connectorEncode) SaysConnector Connector.enc := by
  unfold connectorEncode Connector.enc
  apply Codes.conv (f := fun r => (r.level, r.index, r.anyPlace, r.others)) (g := fun (a, b, c, d) => ⟨a, b, c, d⟩)
    (hto := fun _ => rfl)
  case h => fields; exact codes_others
  case hS => intro v y; exact saysConnector_iff v y
  case he => intro y; simp only [List.append_assoc]

/-! ### characters and dynamic items -/

section
variable {wp : Nat → Val → Except Err Bytes} {E : Val → Props free → Prop}

theorem codes_character (hE : Codes wp E encProps) : Codes (fun n => characterEncode (wp n)) (SaysCharacter E) id := by
  unfold characterEncode
  apply Codes.bytes (by fields)
  · rintro v ⟨a, b, c⟩ ⟨h1, h2, h3⟩
    simp only [← List.append_assoc]
    exact .mk h1 h2 h3
  · rintro v b ⟨h1, h2, h3⟩
    exact ⟨(_, _, _), ⟨h1, h2, h3⟩, by simp⟩

theorem codes_itemBody (hE : Codes wp E encProps) : Codes2 (fun n t p => if t.isS "unknown" then wAt p ["trailer"] wBytesOf
      else if t.isS "egg" then
        wcat [wAt p ["character_id"] wFString, wAt p ["object"] (wp n),
          wAt p ["unknown_bytes"] wBytesOf, wAt p ["unknown_id"] wGuid]
      else if t.isS "armor" then wAt p ["durability"] wFloat
      else if t.isS "weapon" then
        wcat [wAt p ["durability"] wFloat, wAt p ["remaining_bullets"] wI32,
          wAt p ["passive_skill_list"] (wTArray wFString)]
      else .ok []) (SaysItemBody E) id := by
  apply Codes2.of (Codes2.ite (by fields) (Codes2.ite (by fields) (Codes2.ite (by fields) (Codes2.ite (by fields) Codes.none.lift))))
  · intro t v b h
    refine ⟨b, ?_, rfl⟩
    rcases h with ⟨ht, x, h, hx⟩ | ⟨h1, ⟨ht, x, h, hx⟩ | ⟨h2, ⟨ht, x, h, hx⟩ | ⟨h3, ⟨ht, x, h, hx⟩ | ⟨h4, x, h, hx⟩⟩⟩⟩ <;> rw [hx]
    · exact .unknown ht h
    · have := SaysItemBody.egg ht h.1 h.2.1 h.2.2.1 h.2.2.2
      simp only [List.append_assoc] at this
      exact this
    · exact .armor ht h
    · have := SaysItemBody.weapon (E := E) ht h.1 h.2.1 h.2.2
      simp only [List.append_assoc] at this
      exact this
    · refine .other ?_
      intro s hs
      simp only [List.mem_cons, List.not_mem_nil, or_false] at hs
      rcases hs with rfl | rfl | rfl | rfl
      exacts [h1, h2, h3, h4]
  · intro t v y h
    cases h with
    | unknown ht h =>
      branch ht
      exact ⟨_, h, rfl⟩
    | egg ht h1 h2 h3 h4 =>
      branch ht
      exact ⟨(_, _, _, _), ⟨h1, h2, h3, h4⟩, by simp⟩
    | armor ht h =>
      branch ht
      exact ⟨_, h, rfl⟩
    | weapon ht h1 h2 h3 =>
      branch ht
      exact ⟨(_, _, _), ⟨h1, h2, h3⟩, by simp⟩
    | other h =>
      exact .inr ⟨h _ (by simp), .inr ⟨h _ (by simp), .inr ⟨h _ (by simp), .inr ⟨h _ (by simp), (), trivial, rfl⟩⟩⟩⟩

theorem codes_dynItem (hE : Codes wp E encProps) : Codes (fun n => dynamicItemEncode (wp n)) (SaysDynItem E) id := by
  have hb := (codes_itemBody hE).under (ks := ["type"])
  unfold dynamicItemEncode
  apply Codes.bytes (by fields)
  · rintro v ⟨a, b, c, d⟩ ⟨h1, h2, h3, h4⟩
    simp only [← List.append_assoc]
    exact .mk h1 h2 h3 h4
  · rintro v b ⟨h1, h2, h3, h4⟩
    exact ⟨(_, _, _, _), ⟨h1, h2, h3, h4⟩, by simp⟩

/-! ### concrete models -/

theorem codes_growth : Codes (fun _ p => wcat [wAt p ["state_machine", "growup_required_time"] wFloat,
    wAt p ["state_machine", "growup_progress_time"] wFloat])
    (fun v (x : F32 free × F32 free) => Reach v ["state_machine", "growup_required_time"] (SaysF32 · x.1.val) ∧
      Reach v ["state_machine", "growup_progress_time"] (SaysF32 · x.2.val)) (fun g => eF32 g.1 ++ eF32 g.2) := by
  record fun r => (r.1, r.2), fun x => x, fun _ _ => Iff.rfl

theorem codes_farmState : Codes (fun _ p => match p.contains (P "state_machine") with
      | .error e => .error e
      | .ok false => .ok []
      | .ok true => wcat [wAt p ["state_machine", "growup_required_time"] wFloat,
          wAt p ["state_machine", "growup_progress_time"] wFloat])
    (fun v (x : Option (F32 free × F32 free)) => (v.contains (P "state_machine") = .ok false ∧ x = none) ∨
      ∃ a b, Reach v ["state_machine", "growup_required_time"] (SaysF32 · a.val) ∧
        Reach v ["state_machine", "growup_progress_time"] (SaysF32 · b.val) ∧ x = some (a, b))
    (fun x => match x with | none => [] | some g => eF32 g.1 ++ eF32 g.2) where
  fw := fun {n v b} hp hw => by
    cases hc : v.contains (P "state_machine") with
    | error e => rw [hc] at hw; cases hw
    | ok c =>
      rw [hc] at hw
      cases c with
      | false => exact ⟨none, .inl ⟨rfl, rfl⟩, (Except.ok.inj hw).symm⟩
      | true =>
        obtain ⟨xs, h1, h2⟩ := codes_growth.fw (n := n) hp hw
        exact ⟨some xs, .inr ⟨_, _, h1.1, h1.2, rfl⟩, h2⟩
  bw := by
    rintro v xs (⟨h, rfl⟩ | ⟨a, b, h1, h2, rfl⟩)
    · exact ⟨0, fun _ _ => by simp only [h]⟩
    · obtain ⟨k, hk⟩ := codes_growth.bw (x := (a, b)) ⟨h1, h2⟩
      obtain ⟨y, hy, -⟩ := h1
      refine ⟨k, fun n hn => ?_⟩
      simp only [contains_of_get hy]
      exact hk n hn

theorem codes2_error {er : Err} : Codes2 (fun _ _ _ => .error er) (fun _ _ _ => False) id :=
  ⟨fun _ _ h => (by cases h), fun h => h.elim⟩

theorem codes_concreteBody (hE : Codes wp E encProps) :
    Codes2 (fun n => concreteBodyEncode (wp n)) (SaysConcreteBody E) ConcreteBody.enc := by
  unfold concreteBodyEncode
  apply Codes2.of (Codes2.any Codes.none <| Codes2.ite (by fields) <| Codes2.ite (by fields) <| Codes2.ite (by fields) <|
    Codes2.ite (by fields) <| Codes2.ite (by fields) <| Codes2.ite (by fields) <| Codes2.ite (by fields) <|
    Codes2.ite (by fields) <| Codes2.ite (codes_str.under.seq (codes_u8.under.seq (codes_f32.under.seq (codes_f32.under.seq codes_farmState.one)))) <| Codes2.ite (by fields) <| Codes2.ite (by fields) <|
    Codes2.ite (by fields) <| Codes2.ite (by fields) <| Codes2.ite (by fields) <| Codes2.ite (by fields) <|
    Codes2.ite (by fields) <| Codes2.ite (by fields) <| Codes2.ite (by fields) <| Codes2.ite (by fields) <|
    Codes2.ite (by fields) codes2_error)
  · intro t v b h
    rcases h with ⟨⟨s, hs, ht⟩, x, h, hx⟩ | ⟨-, h⟩
    · exact ⟨_, .noData hs ht, hx⟩
    rcases h with ⟨ht, x, h, hx⟩ | ⟨-, h⟩
    · exact ⟨_, .droppedCharacter ht h.1 h.2, hx⟩
    rcases h with ⟨ht, x, h, hx⟩ | ⟨-, h⟩
    · exact ⟨_, .convertItem ht h.1 h.2.1 h.2.2.1 h.2.2.2, by rw [hx]; simp [ConcreteBody.enc]⟩
    rcases h with ⟨ht, x, h, hx⟩ | ⟨-, h⟩
    · exact ⟨_, .pickup ht h, hx⟩
    rcases h with ⟨ht, x, h, hx⟩ | ⟨-, h⟩
    · exact ⟨_, .dropItem ht h.1 h.2.1 h.2.2.1 h.2.2.2, by rw [hx]; simp [ConcreteBody.enc]⟩
    rcases h with ⟨ht, x, h, hx⟩ | ⟨-, h⟩
    · exact ⟨_, .dropOnDamage ht h, hx⟩
    rcases h with ⟨ht, x, h, hx⟩ | ⟨-, h⟩
    · exact ⟨_, .deathPenalty ht h, hx⟩
    rcases h with ⟨ht, x, h, hx⟩ | ⟨-, h⟩
    · exact ⟨_, .bulletLauncher ht h.1 h.2.1 h.2.2, by rw [hx]; simp [ConcreteBody.enc]⟩
    rcases h with ⟨ht, x, h, hx⟩ | ⟨-, h⟩
    · exact ⟨_, .energy ht h, hx⟩
    rcases h with ⟨ht, x, h, hx⟩ | ⟨-, h⟩
    · rcases h.2.2.2.2 with ⟨h1, h2⟩ | ⟨a, b, h1, h2, h3⟩
      · exact ⟨_, .farm ht h.1 h.2.1 h.2.2.1 h.2.2.2.1 h1, by rw [hx, h2]; simp [ConcreteBody.enc]⟩
      · exact ⟨_, .growing ht h.1 h.2.1 h.2.2.1 h.2.2.2.1 h1 h2, by rw [hx, h3]; simp [ConcreteBody.enc]⟩
    rcases h with ⟨ht, x, h, hx⟩ | ⟨-, h⟩
    · exact ⟨_, .fastTravel ht h, hx⟩
    rcases h with ⟨ht, x, h, hx⟩ | ⟨-, h⟩
    · exact ⟨_, .shipping ht h, hx⟩
    rcases h with ⟨ht, x, h, hx⟩ | ⟨-, h⟩
    · exact ⟨_, .product ht h.1 h.2, hx⟩
    rcases h with ⟨ht, x, h, hx⟩ | ⟨-, h⟩
    · exact ⟨_, .recover ht h, hx⟩
    rcases h with ⟨ht, x, h, hx⟩ | ⟨-, h⟩
    · exact ⟨_, .hatching (o := .none) ht h.1 h.2.1 h.2.2, by rw [hx]; simp [ConcreteBody.enc]⟩
    rcases h with ⟨ht, x, h, hx⟩ | ⟨-, h⟩
    · exact ⟨_, .treasure ht h, hx⟩
    rcases h with ⟨ht, x, h, hx⟩ | ⟨-, h⟩
    · exact ⟨_, .breedFarm ht h, hx⟩
    rcases h with ⟨ht, x, h, hx⟩ | ⟨-, h⟩
    · exact ⟨_, .signboard ht h, hx⟩
    rcases h with ⟨ht, x, h, hx⟩ | ⟨-, h⟩
    · exact ⟨_, .torch ht h, hx⟩
    rcases h with ⟨ht, x, h, hx⟩ | ⟨-, h⟩
    · exact ⟨_, .palEgg ht h, hx⟩
    rcases h with ⟨ht, x, h, hx⟩ | ⟨-, h⟩
    · exact ⟨_, .campPoint ht h, hx⟩
    exact h.elim
  · intro t v y h
    cases h with
    | noData hs ht => exact .inl ⟨⟨_, hs, ht⟩, (), trivial, rfl⟩
    | droppedCharacter ht h1 h2 => branch ht; exact ⟨(_, _), ⟨h1, h2⟩, by simp [ConcreteBody.enc]⟩
    | convertItem ht h1 h2 h3 h4 => branch ht; exact ⟨(_, _, _, _), ⟨h1, h2, h3, h4⟩, by simp [ConcreteBody.enc]⟩
    | pickup ht h => branch ht; exact ⟨_, h, rfl⟩
    | dropItem ht h1 h2 h3 h4 => branch ht; exact ⟨(_, _, _, _), ⟨h1, h2, h3, h4⟩, by simp [ConcreteBody.enc]⟩
    | dropOnDamage ht h => branch ht; exact ⟨_, h, rfl⟩
    | deathPenalty ht h => branch ht; exact ⟨_, h, rfl⟩
    | bulletLauncher ht h1 h2 h3 => branch ht; exact ⟨(_, _, _), ⟨h1, h2, h3⟩, by simp [ConcreteBody.enc]⟩
    | energy ht h => branch ht; exact ⟨_, h, rfl⟩
    | farm ht h1 h2 h3 h4 h5 =>
      branch ht
      exact ⟨(_, _, _, _, none), ⟨h1, h2, h3, h4, .inl ⟨h5, rfl⟩⟩, by simp [ConcreteBody.enc]⟩
    | growing ht h1 h2 h3 h4 h5 h6 =>
      branch ht
      exact ⟨(_, _, _, _, some _), ⟨h1, h2, h3, h4, .inr ⟨_, _, h5, h6, rfl⟩⟩, by simp [ConcreteBody.enc]⟩
    | fastTravel ht h => branch ht; exact ⟨_, h, rfl⟩
    | shipping ht h => branch ht; exact ⟨_, h, rfl⟩
    | product ht h1 h2 => branch ht; exact ⟨(_, _), ⟨h1, h2⟩, rfl⟩
    | recover ht h => branch ht; exact ⟨_, h, rfl⟩
    | hatching ht h1 h2 h3 => branch ht; exact ⟨(_, _, _), ⟨h1, h2, h3⟩, by simp [ConcreteBody.enc]⟩
    | treasure ht h => branch ht; exact ⟨_, h, rfl⟩
    | breedFarm ht h => branch ht; exact ⟨_, h, rfl⟩
    | signboard ht h => branch ht; exact ⟨_, h, rfl⟩
    | torch ht h => branch ht; exact ⟨_, h, rfl⟩
    | palEgg ht h => branch ht; exact ⟨_, h, rfl⟩
    | campPoint ht h => branch ht; exact ⟨_, h, rfl⟩

theorem codes_concrete (hE : Codes wp E encProps) : Codes (fun n => concreteEncode (wp n)) (SaysConcrete E) Concrete.enc where
  fw := fun {n v b} hp hw => by
    obtain ⟨t, h1, h2⟩ := wAt_iff1.1 hw
    obtain ⟨b1, b2, b3, h3, h4, h5, rfl⟩ := wcat3.1 h2
    obtain ⟨i, h6, rfl⟩ := codes_guid.under.fw (n := n) hp h3
    obtain ⟨m, h7, rfl⟩ := codes_guid.under.fw (n := n) hp h4
    obtain ⟨x, h8, rfl⟩ := (codes_concreteBody hE).fw (plain_at hp h1) hp h5
    exact ⟨⟨i, m, x⟩, ⟨h6, h7, t, h1, h8⟩, by simp [Concrete.enc]⟩
  bw := by
    rintro v ⟨i, m, x⟩ ⟨h1, h2, t, h3, h4⟩
    obtain ⟨k, hk⟩ := both (both (codes_guid.under.bw h1) (codes_guid.under.bw h2)) ((codes_concreteBody hE).bw h4)
    exact ⟨k, fun n hn => wAt_of h3 (wcat3.2 ⟨_, _, _, (hk n hn).1.1, (hk n hn).1.2, (hk n hn).2, by simp [Concrete.enc]⟩)⟩

end

/-- Embedded property lists. -/
theorem codes_embedded : Codes bytesOf Embedded encProps where
  fw := fun {n v b} hp hw => by
    obtain ⟨ps, h1, h2⟩ := fw_props n (fun m _ => (opens_none (cfg := Cfg.empty) (fun _ => rfl)).fw m) v b hp (bytesOf_ok.1 hw)
    exact ⟨ps, h1, h2.symm⟩
  bw := fun hs => (props_says (opens_none (cfg := Cfg.empty) (fun _ => rfl)) hs).imp fun k hk n hn => bytesOf_ok.2 (hk n hn)

end Pal
