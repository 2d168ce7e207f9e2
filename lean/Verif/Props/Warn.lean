import Verif.Lemmas.WarnFound
import Verif.Lemmas.WarnJust
import Verif.Props.Shallow
/-
C75: what a read prints.

The tool goes on when it meets something it does not know: it guesses the type of a struct, keeps a
blob as raw bytes, or drops what is left over at the end of a blob.  The user can only notice by
what is printed.  So: whatever was not interpreted is announced, what is announced is not a false
alarm, and when no guess is announced the result does not depend on the missing type hints.
-/

namespace Pal
open Spec Warn

/-- C75: the messages do not change the outcome: the reader with prints gives the outcome that the
other properties are about. -/
theorem C75_outcome (cfg : Cfg) (data : Bytes) : (readPrints cfg data).1 = gvasRead cfg data := read_fst cfg data

/-- C75: in every decoded property of the document, what was not interpreted is announced. -/
theorem C75_reported (cfg : Cfg) (data : Bytes) (g : Gvas) (h : gvasRead cfg data = .ok g) (w : Val)
    (hw : Found cfg.custom g.properties w) (c : CodecId) (hc : decoderOf cfg.custom w = some c) :
    Reported (readPrints cfg data).2 c w :=
  read_reported (by rw [C75_outcome]; exact h) w hw c hc

/-- C75: the message about the trailer is printed exactly when the file does not end with four zero
bytes after the properties, and gives the number of bytes there. -/
theorem C75_trailer (cfg : Cfg) (data : Bytes) (g : Gvas) (h : gvasRead cfg data = .ok g) (n : Nat) :
    .trailer n ∈ (readPrints cfg data).2 ↔ g.trailer ≠ [0, 0, 0, 0] ∧ n = g.trailer.length :=
  read_trailer (by rw [C75_outcome]; exact h) n

/-- C75: no false alarms, also when the read fails later. -/
theorem C75_justified (cfg : Cfg) (data : Bytes) : ∀ w ∈ (readPrints cfg data).2, Justified cfg w := read_justified cfg data

/-- C75: the outcome depends on the missing type hints only where a guess is announced.  Reading again
with more hints gives the same outcome, if the new hints agree with the guesses that were announced. -/
theorem C75_guess (cfg cfg' : Cfg) (hc : cfg'.custom = cfg.custom) (ha : cfg'.allowNan = cfg.allowNan)
    (hh : ∀ p t, cfg.hint p = some t → cfg'.hint p = some t) (data : Bytes)
    (hg : ∀ p d, .guessed p d ∈ (readPrints cfg data).2 → ∀ t, cfg'.hint p = some t → t = d) :
    gvasRead cfg' data = gvasRead cfg data := by
  rw [← C75_outcome cfg]
  refine read_agree (F := fun w => w ∈ (readPrints cfg data).2) ha hc hh (fun p d _ hw => ?_) data fun _ hw => hw
  unfold getTypeOr
  cases ht : cfg'.hint p with
  | none => rfl
  | some t => exact hg p d hw t ht

/-- What an attempt with a fallback does and prints, when the attempt itself ends with the test for leftover bytes. -/
theorem camp_try {mt raw v : Val} {s rest : Bytes} (x : R Val) (k : Val → Val) (w : Warning)
    (hk : ∀ l y, (k l).get (P "values") ≠ .ok y)
    (hr : (L.try_ (do
        let l ← L.lift x
        lCampEnd mt (k l)) (fun _ => do
          L.tell w
          return dct [("values", raw)])).run s = .ok (v, rest)) :
    v = dct [("values", raw)] ∧ (L.try_ (do
        let l ← L.lift x
        lCampEnd mt (k l)) (fun _ => do
          L.tell w
          return dct [("values", raw)])).log s = [w] ∨
    (∀ y, v.get (P "values") ≠ .ok y) ∧ (L.try_ (do
        let l ← L.lift x
        lCampEnd mt (k l)) (fun _ => do
          L.tell w
          return dct [("values", raw)])).log s = if rest = [] then [] else [.moduleLeft mt] := by
  have hl : ∀ t, (lCampEnd mt t).run = fun s => .ok (t, s) := by
    intro t; funext s
    cases s <;> rfl
  unfold L.try_ at hr ⊢
  simp only at hr ⊢
  unfold rTry at hr
  have hrun : (L.lift x >>= fun l => lCampEnd mt (k l)).run s = (x >>= fun l => (lCampEnd mt (k l)).run) s := rfl
  rw [hrun] at hr ⊢
  rw [bind_log, show (L.lift x).run s = x s from rfl, show (L.lift x).log s = [] from rfl]
  cases hx : x s with
  | error e =>
    rw [r_bind_error hx] at hr ⊢
    cases e <;> first | (cases hr; done) | (cases hr; exact .inl ⟨rfl, rfl⟩)
  | ok q =>
    obtain ⟨l, s1⟩ := q
    rw [r_bind_ok hx, hl] at hr ⊢
    cases hr
    refine .inr ⟨hk l, ?_⟩
    cases rest <;> rfl

/-- C75: exactly what is printed for the blob of a camp module: one message if it is kept as raw
bytes, naming an unknown type; one message if it is interpreted and bytes are left over (and
dropped); nothing otherwise. -/
theorem C75_camp (an : Bool) (mt raw v : Val) (s rest : Bytes) (h : campModuleDecode an mt raw s = .ok (v, rest)) :
    v = dct [("values", raw)] ∧ ((∀ k ∈ knownModules, mt ≠ .str (P k)) ∧ (lCampModule an mt raw).log s = [.noModule mt] ∨
      mt = .str (P "EPalBaseCampModuleType::TransportItemDirector") ∧ (lCampModule an mt raw).log s = [.rawTransport] ∨
      mt = .str (P "EPalBaseCampModuleType::PassiveEffect") ∧ (lCampModule an mt raw).log s = [.rawPassive]) ∨
    (∀ x, v.get (P "values") ≠ .ok x) ∧ (∃ k ∈ knownModules, mt = .str (P k)) ∧
      (lCampModule an mt raw).log s = if rest = [] then [] else [.moduleLeft mt] := by
  have hno : ∀ (n : String) (l y : Val), n ≠ "values" → (dct [(n, l)]).get (P "values") ≠ .ok y := by
    intro n l y hn e
    rw [get_absent (by simpa using hn)] at e
    cases e
  rw [ag_campModule (F := fun _ => True) an mt raw s fun _ _ => trivial] at h
  unfold lCampModule at h ⊢
  split at h
  · rename_i hn
    rw [if_pos hn]
    refine .inr ⟨?_, known_module.2 (.inl hn), ?_⟩
    · cases s <;> (cases h; intro x e; cases e)
    · cases s <;> (cases h; rfl)
  · rename_i hn
    rw [if_neg hn]
    split at h
    · rename_i h1
      rw [if_pos h1]
      rcases camp_try _ _ _ (fun l y => hno _ l y (by decide)) h with ⟨a, b⟩ | ⟨a, b⟩
      · exact .inl ⟨a, .inr (.inl ⟨isS_iff.1 h1, b⟩)⟩
      · exact .inr ⟨a, known_module.2 (.inr (.inl h1)), b⟩
    · rename_i h1
      rw [if_neg h1]
      split at h
      · rename_i h2
        rw [if_pos h2]
        rcases camp_try _ _ _ (fun l y => hno _ l y (by decide)) h with ⟨a, b⟩ | ⟨a, b⟩
        · exact .inl ⟨a, .inr (.inr ⟨isS_iff.1 h2, b⟩)⟩
        · exact .inr ⟨a, known_module.2 (.inr (.inr h2)), b⟩
      · rename_i h2
        rw [if_neg h2]
        cases h
        refine .inl ⟨rfl, .inl ⟨fun k hk e => ?_, rfl⟩⟩
        rcases known_module.1 ⟨k, hk, e⟩ with g | g | g
        · exact hn g
        · exact h1 g
        · exact h2 g

/-- C75: bytes left over at the end of the blob of a camp module are dropped, but not silently. -/
theorem C75_leftover (an : Bool) (mt raw v : Val) (s rest : Bytes) (h : campModuleDecode an mt raw s = .ok (v, rest))
    (hs : (lCampModule an mt raw).log s = []) : rest = [] := by
  rcases C75_camp an mt raw v s rest h with ⟨-, ⟨-, e⟩ | ⟨-, e⟩ | ⟨-, e⟩⟩ | ⟨-, -, e⟩
  · rw [hs] at e; cases e
  · rw [hs] at e; cases e
  · rw [hs] at e; cases e
  · by_contra hne
    rw [if_neg hne, hs] at e
    cases e

theorem ret_try {α : Type} {x : R α} {h : Err → R α} {Q : α → Prop} (hx : Ret x Q) (hh : ∀ e, Ret (h e) Q) : Ret (rTry x h) Q := by
  intro s v s' e
  unfold rTry at e
  cases hr : x s with
  | ok q => rw [hr] at e; cases e; exact hx _ _ _ hr
  | error er =>
    rw [hr] at e
    cases er <;> first
      | (cases e; done)
      | exact hh _ _ _ _ e

theorem l_bind_inv {α β : Type} {x : L α} {f : α → L β} {s s' : Bytes} {b : β} (h : (x >>= f).run s = .ok (b, s')) :
    ∃ a s1, x.run s = .ok (a, s1) ∧ (f a).run s1 = .ok (b, s') ∧ (x >>= f).log s = x.log s ++ (f a).log s1 := by
  obtain ⟨a, s1, h1, h2⟩ := r_bind_inv (x := x.run) (f := fun a => (f a).run) h
  exact ⟨a, s1, h1, h2, by rw [bind_log, h1]⟩

/-- C75: for an item, besides what is printed for the property list it may hold, one message is printed,
exactly if it is kept as raw bytes. -/
theorem C75_item (an : Bool) (rec : L Val) (v : Val) (s rest : Bytes) (h : (lDynamicItem an rec).run s = .ok (v, rest)) :
    ∃ l, (∀ w ∈ l, ∃ s', w ∈ rec.log s') ∧
      (v.get (P "type") = .ok (.str (P "unknown")) ∧ (lDynamicItem an rec).log s = l ++ [.rawItem] ∨
       v.get (P "type") ≠ .ok (.str (P "unknown")) ∧ (lDynamicItem an rec).log s = l) := by
  obtain ⟨i, s1, -, h2, h3⟩ := l_bind_inv h
  obtain ⟨d, s2, h4, h5, h6⟩ := l_bind_inv h2
  cases h5
  have hty : (Val.dict ((P "id", i) :: d)).get (P "type") = (Val.dict d).get (P "type") := by
    simp only [Val.get, dget?, if_neg (show P "id" ≠ P "type" from P_ne (by decide))]
  rw [hty, show (lDynamicItem an rec).log s = _ from h3, h6, show (L.lift dynamicIdDecode).log s = [] from rfl, show (pure (Val.dict ((P "id", i) :: d)) : L Val).log rest = [] from rfl,
    List.nil_append, List.append_nil]
  clear h h2 h3 h6 hty
  obtain ⟨egg, s3, g1, g2, g3⟩ := l_bind_inv h4
  obtain ⟨n, s4, -, g5, g6⟩ := l_bind_inv g2
  refine ⟨(lTryEgg rec).log s1, ?_, ?_⟩
  · have : JL (fun w => ∃ s', w ∈ rec.log s') (lTryEgg rec) := by
      refine jl_try (jl_bind ?_ fun _ => jl_pure _) fun e => jl_ite (fun _ => jl_lift _) fun _ => jl_pure _
      exact jl_bind' _ fun _ => jl_bind (fun s w hw => ⟨s, hw⟩) fun _ => jl_bind' _ fun _ => jl_bind' _ fun _ => jl_bind' _ fun _ => jl_pure _
    exact this s1
  rw [show (lDynamicRest an rec).log s1 = _ from g3, g6, show (L.lift rRemaining).log s3 = [] from rfl, List.nil_append]
  cases egg with
  | some d' =>
    cases g5
    refine .inr ⟨?_, List.append_nil _⟩
    have hegg : Ret (lEgg rec).run fun d => (Val.dict d).get (P "type") ≠ .ok (.str (P "unknown")) :=
      ret_bind fun _ => ret_bind fun _ => ret_bind fun _ => ret_bind fun _ => ret_bind fun _ => ret_pure (by simp [Val.get, dget?, P_inj])
    have ht : Ret (lTryEgg rec).run fun o => ∀ d, o = some d → (Val.dict d).get (P "type") ≠ .ok (.str (P "unknown")) := by
      refine ret_try (ret_bind' hegg fun d hd => ret_pure fun d' e => by cases e; exact hd) fun e => ?_
      show Ret (if e = _ then _ else _ : L _).run _
      split
      · intro s v s' e; cases e
      · exact ret_pure fun d e => (nomatch e)
    exact ht _ _ _ g1 _ rfl
  | none =>
    simp only at g5 ⊢
    split at g5
    · rename_i hn
      rw [if_pos hn]
      refine .inr ⟨?_, List.append_nil _⟩
      have : Ret (armorDecode an) fun d => (Val.dict d).get (P "type") ≠ .ok (.str (P "unknown")) :=
        ret_bind fun _ => ret_bind fun _ => ret_pure (by simp [Val.get, dget?, P_inj])
      exact this _ _ _ g5
    · rename_i hn
      rw [if_neg hn]
      have hw : Ret (weaponDecode an) fun d => (Val.dict d).get (P "type") ≠ .ok (.str (P "unknown")) :=
        ret_bind fun _ => ret_bind fun _ => ret_bind fun _ => ret_bind fun _ => ret_pure (by simp [Val.get, dget?, P_inj])
      have hu : Ret trailerDecode fun d => (Val.dict d).get (P "type") = .ok (.str (P "unknown")) :=
        ret_bind fun _ => ret_pure (by simp [Val.get, dget?, P_inj])
      unfold L.try_ at g5 ⊢
      simp only at g5 ⊢
      unfold rTry at g5
      cases hx : (L.lift (weaponDecode an)).run s4 with
      | ok q =>
        rw [hx] at g5
        cases g5
        exact .inr ⟨hw _ _ _ hx, List.append_nil _⟩
      | error e =>
        rw [hx] at g5
        cases e <;> first
          | (cases g5; done)
          | exact .inl ⟨hu _ _ _ g5, rfl⟩

/-! ### the hypotheses can be met -/

/-- An item with six bytes that are neither an egg, nor armour, nor a weapon. -/
def strangeItem : Bytes := List.replicate 36 0 ++ [1, 2, 3, 4, 5, 6]

/-- A save with that item, a map of unknown struct types, and one byte too many at the end. -/
def strangeFile : Bytes :=
  sampleHeader.enc ++ eLit "worldSaveData" ++ eLit "StructProperty" ++ lit 8 0 ++ eLit "PalWorldSaveData" ++ List.replicate 17 0 ++
  eLit "DynamicItemSaveData" ++ eLit "ArrayProperty" ++ lit 8 0 ++ eLit "StructProperty" ++ [0] ++ lit 4 1 ++
  eLit "DynamicItemSaveData" ++ eLit "StructProperty" ++ lit 8 0 ++ eLit "PalDynamicItemSaveData" ++ List.replicate 17 0 ++
  rawList strangeItem ++
  eLit "New" ++ eLit "MapProperty" ++ lit 8 0 ++ eLit "StructProperty" ++ eLit "StructProperty" ++ [0] ++ lit 4 0 ++ lit 4 0 ++
  eLit "None" ++ eLit "None" ++ [0, 0, 0, 0, 0]

/-- Which messages these are. -/
def strangeLog : List Warning → Bool
  | [.rawItem, .guessed p d, .guessed p' d', .trailer n] =>
    p = P ".worldSaveData.New.Key" && d = P "Guid" && p' = P ".worldSaveData.New.Value" && d' = P "StructProperty" && n = 5
  | _ => false

set_option maxRecDepth 40000 in
example : strangeLog (readPrints (palCfg (fun _ => true) true) strangeFile).2 = true ∧
    firstItemIs "unknown" (gvasRead (palCfg (fun _ => true) true) strangeFile) = true := by decide +kernel

/-- Going down by keys, or into the first element of a list, without passing a decoded property. -/
def descend (custom : PyStr → Option CodecId) : List String → Val → Option Val
  | [], v => some v
  | "" :: t, .list (x :: _) => descend custom t x
  | k :: t, v => if decoderOf custom v = none then match v.get (P k) with
      | .ok x => descend custom t x
      | .error _ => none
    else none

theorem found_get {custom : PyStr → Option CodecId} {v x w : Val} {k : PyStr} (h : v.get k = .ok x) (hd : decoderOf custom v = none)
    (f : Found custom x w) : Found custom v w := by
  cases v with
  | dict d =>
    simp only [Val.get] at h
    cases hg : dget? d k with
    | none => rw [hg] at h; cases h
    | some y => rw [hg] at h; cases h; exact .dict hd (dget_mem hg) f
  | _ => cases h

theorem found_descend {custom : PyStr → Option CodecId} {w : Val} : ∀ (ks : List String) (v x : Val), descend custom ks v = some x →
    Found custom x w → Found custom v w := by
  intro ks v
  induction ks, v using descend.induct custom with
  | case1 v => intro x h f; cases h; exact f
  | case2 t x l ih => intro y h f; exact .list List.mem_cons_self (ih y h f)
  | case3 k t v hne hd y hy ih =>
    intro x h f
    rw [descend] at h
    · rw [if_pos hd, hy] at h
      exact found_get hy hd (ih x h f)
    · exact hne
  | case4 k t v hne hd e hy =>
    intro x h f
    rw [descend] at h
    · rw [if_pos hd, hy] at h; cases h
    · exact hne
  | case5 k t v hne hd =>
    intro x h f
    rw [descend] at h
    · rw [if_neg hd] at h; cases h
    · exact hne

/-- The strange item, as a decoded property of the document. -/
def strangeThere (g : Except Err Gvas) : Bool :=
  match g with
  | .error _ => false
  | .ok g => match descend (palCfg (fun _ => true) true).custom
      ["worldSaveData", "value", "DynamicItemSaveData", "value", "values", "", "RawData"] g.properties with
    | none => false
    | some w => decide (decoderOf (palCfg (fun _ => true) true).custom w = some .dynamicItem) && match w.path (ks ["value", "type"]) with
      | .ok t => t.isS "unknown"
      | .error _ => false

set_option maxRecDepth 40000 in
/-- The property of the strange item meets the hypotheses of C75_reported and is not interpreted. -/
example : ∃ g w, gvasRead (palCfg (fun _ => true) true) strangeFile = .ok g ∧ Found (palCfg (fun _ => true) true).custom g.properties w ∧
    decoderOf (palCfg (fun _ => true) true).custom w = some .dynamicItem ∧ w.path (ks ["value", "type"]) = .ok (.str (P "unknown")) := by
  have h : strangeThere (gvasRead (palCfg (fun _ => true) true) strangeFile) = true := by decide +kernel
  unfold strangeThere at h
  cases hg : gvasRead (palCfg (fun _ => true) true) strangeFile with
  | error e => rw [hg] at h; cases h
  | ok g =>
    rw [hg] at h
    simp only at h
    split at h
    · cases h
    · rename_i w hw
      rw [Bool.and_eq_true] at h
      obtain ⟨h1, h2⟩ := h
      have h1 := of_decide_eq_true h1
      refine ⟨g, w, rfl, found_descend _ _ _ hw (.here h1), h1, ?_⟩
      split at h2
      · rename_i t ht; rw [ht, isS_iff.1 h2]
      · cases h2

/-! A module without data of its own: four bytes are dropped, and this is printed; without bytes nothing is. -/
set_option maxRecDepth 40000 in
example : (match campModuleDecode true (.str (P "EPalBaseCampModuleType::Energy")) (.list []) [1, 2, 3, 4] with
      | .ok (_, rest) => decide (rest = [1, 2, 3, 4])
      | .error _ => false) = true ∧
    ((lCampModule true (.str (P "EPalBaseCampModuleType::Energy")) (.list [])).log [1, 2, 3, 4]).length = 1 ∧
    ((lCampModule true (.str (P "EPalBaseCampModuleType::Energy")) (.list [])).log []).length = 0 := by decide +kernel

end Pal
