import Verif.Lemmas.FewerBlob
import Verif.Lemmas.BoundProps
/-
The lists of properties, read with fewer decoders.
-/

namespace Pal
namespace Fewer
open Spec Size

/-- Errors that can appear when decoders are left out: bytes after an egg, and the model's own. -/
def Late (cu : PyStr → Option CodecId) (e : Err) : Prop := (e = eofErr ∧ ∃ p, cu p = some .dynamicItem) ∨ e = .fuel

/-- Reading a property that has a decoder. -/
theorem property_inv {cfg : Cfg} {rec : PyStr → R Val} {ty : PyStr} {size : Nat} {q : PyStr} {c : CodecId} (hc : cfg.custom q = some c)
    {s : Bytes} {v : Val} {s' : Bytes} (h : rProperty cfg rec ty size q s = .ok (v, s')) : ∃ v0 w w1, ty = P c.propType ∧
      rPlain cfg rec ty size q s = .ok (v0, s') ∧ c.post cfg.allowNan (rec []) v0 = .ok w ∧
      w.set (P "custom_type") (.str q) = .ok w1 ∧ w1.set (P "type") (.str ty) = .ok v := by
  unfold rProperty at h
  rw [hc] at h
  simp only at h
  split at h
  · rename_i ht
    obtain ⟨v0, s1, h1, k1⟩ := r_bind_inv h
    obtain ⟨w, s2, h2, k2⟩ := r_bind_inv k1
    obtain ⟨w1, s3, h3, k3⟩ := r_bind_inv k2
    obtain ⟨g2, e2⟩ := rLift_inv h2
    obtain ⟨g3, e3⟩ := rLift_inv h3
    obtain ⟨g4, e4⟩ := rLift_inv k3
    subst e2 e3 e4
    exact ⟨v0, w, w1, ht, h1, g2, g3, g4⟩
  · cases h

theorem property_ok {cfg : Cfg} {rec : PyStr → R Val} {size : Nat} {q : PyStr} {c : CodecId} (hc : cfg.custom q = some c)
    {s s' : Bytes} {v0 w : Val} (h1 : rPlain cfg rec (P c.propType) size q s = .ok (v0, s'))
    (h2 : c.post cfg.allowNan (rec []) v0 = .ok w) : ∃ w1 v, w.set (P "custom_type") (.str q) = .ok w1 ∧
      w1.set (P "type") (.str (P c.propType)) = .ok v ∧ rProperty cfg rec (P c.propType) size q s = .ok (v, s') := by
  obtain ⟨d, rfl⟩ := post_dict h2
  refine ⟨_, _, rfl, rfl, ?_⟩
  unfold rProperty
  rw [hc]
  simp only [if_true]
  rw [r_bind_ok h1]
  unfold rLift
  rw [h2]
  rfl

theorem property_err {cfg : Cfg} {rec : PyStr → R Val} {size : Nat} {q : PyStr} {c : CodecId} (hc : cfg.custom q = some c)
    {s s' : Bytes} {v0 : Val} {e : Err} (h1 : rPlain cfg rec (P c.propType) size q s = .ok (v0, s'))
    (h2 : c.post cfg.allowNan (rec []) v0 = .error e) : rProperty cfg rec (P c.propType) size q s = .error e := by
  unfold rProperty
  rw [hc]
  simp only [if_true]
  rw [r_bind_ok h1]
  unfold rLift
  rw [h2]
  rfl

theorem closed_true : Closed (fun _ _ => True) := ⟨fun _ => trivial, fun _ => trivial, fun _ => trivial⟩

/-- What is left is not longer than what there was. -/
def Less (x : R Val) : Prop := ∀ s v s', x s = .ok (v, s') → s'.length ≤ s.length

theorem less_iff {x : R Val} : Less x ↔ ∀ K, Rel K (fun _ => False) (fun _ _ => True) x x := by
  constructor
  · exact fun h K s _ v s' e => Or.inl ⟨v, e, h s v s' e, trivial⟩
  · intro h s v s' e
    rcases h _ s (Nat.le_refl _) v s' e with ⟨_, _, l, _⟩ | ⟨_, _, h⟩
    · exact l
    · exact h.elim

theorem less_plain (cfg : Cfg) {rec : PyStr → R Val} (h : ∀ p, Less (rec p)) (ty : PyStr) (size : Nat) (q : PyStr) :
    Less (rPlain cfg rec ty size q) :=
  less_iff.2 fun K => rel_plain closed_true (fun p => less_iff.1 (h p) K) cfg ty size q

theorem less_property (cfg : Cfg) {rec : PyStr → R Val} (h : ∀ p, Less (rec p)) (ty : PyStr) (size : Nat) (q : PyStr) :
    Less (rProperty cfg rec ty size q) := by
  intro s v s' e
  cases hc : cfg.custom q with
  | none =>
    unfold rProperty at e
    rw [hc] at e
    exact less_plain cfg h ty size q s v s' e
  | some c =>
    obtain ⟨v0, _, _, _, h1, _⟩ := property_inv hc e
    exact less_plain cfg h ty size q s v0 s' h1

theorem less_loop (cfg : Cfg) : ∀ n p acc, Less (rPropsLoop cfg n p acc)
  | 0, _, _ => fun _ _ _ h => (nomatch h)
  | n + 1, p, acc => by
    rw [less_iff]
    intro K
    unfold rPropsLoop
    refine rel_bind (rel_same cost_fstring) fun name _ e => ?_
    subst e
    refine rel_ite (rel_pure trivial) (rel_bind (rel_same cost_fstring) fun ty _ e => ?_)
    subst e
    refine rel_bind (rel_same (cost_unsigned 8)) fun size _ e => ?_
    subst e
    intro s hs v s' h
    obtain ⟨v1, s1, h1, h2⟩ := r_bind_inv h
    have l1 := less_property cfg (fun p => less_loop cfg n p []) ty size _ s v1 s1 h1
    have l2 := less_loop cfg n p _ s1 v s' h2
    exact Or.inl ⟨v, h, Nat.le_trans l2 l1, trivial⟩

theorem fd_split {T : Val → Val → Prop} {d d' : Dict} (h : FD T d d') : d.map Prod.fst = d'.map Prod.fst ∧
    List.Forall₂ T (d.map Prod.snd) (d'.map Prod.snd) := by
  induction h with
  | nil => exact ⟨rfl, .nil⟩
  | cons h1 _ ih => exact ⟨by rw [List.map_cons, List.map_cons, h1.1, ih.1], .cons h1.2 ih.2⟩

theorem closed_fewer (cfg cfg' : Cfg) : Closed (Fewer cfg cfg') :=
  ⟨.same, .list, fun h => .dict (fd_split h).1 (fd_split h).2⟩

section
variable {cfg : Cfg} {cu : PyStr → Option CodecId} (hap : Apart cfg.custom) (hsub : ∀ p c, cu p = some c → cfg.custom p = some c)
include hap hsub

omit hap in
theorem sub_none {p : PyStr} (h : cfg.custom p = none) : cu p = none := by
  cases e : cu p with
  | none => rfl
  | some c => rw [hsub p c e] at h; cases h

/-- Below a decoded property nothing is decoded, so it is the same in both. -/
theorem plain_below {q : PyStr} {c : CodecId} (hc : cfg.custom q = some c) (n : Nat) (ty : PyStr) (size : Nat) :
    rPlain cfg (fun p => rPropsLoop cfg n p []) ty size q =
      rPlain { cfg with custom := cu } (fun p => rPropsLoop { cfg with custom := cu } n p []) ty size q := by
  have h0 : ∀ r, cfg.custom (q ++ dot ++ r) = none := fun r => hap q c r hc
  have h1 : ∀ r, cu (q ++ dot ++ r) = none := fun r => sub_none hsub (h0 r)
  refine plain_congr (loop_below n q [] h0 h1) (fun r => ?_) ty size
  have e : ∀ r', q ++ dot ++ r ++ dot ++ r' = q ++ dot ++ (r ++ dot ++ r') := fun r' => by simp only [List.append_assoc]
  exact loop_below n _ [] (fun r' => by rw [e]; exact h0 _) (fun r' => by rw [e]; exact h1 _)

omit hap hsub in
theorem canR_of {T : Val → Val → Prop} {x x' : R Val} {E : Err → Prop} (h : ∀ K, Rel K E T x x') : CanR E x x' := by
  intro s v s' e
  rcases h s.length s (Nat.le_refl _) v s' e with ⟨v', e1, _⟩ | h
  · exact Or.inl ⟨v', e1⟩
  · exact Or.inr h

omit hap hsub in
theorem late_cases {e : Err} (h : Late cu e) : e = eofErr ∨ e = .fuel := h.imp And.left id

/-- One property, given the lists inside. -/
theorem property_rel {K n : Nat} {T : Val → Val → Prop} (hT : Closed T)
    (hr : ∀ p, Rel K (Late cu) T (rPropsLoop cfg n p []) (rPropsLoop { cfg with custom := cu } n p []))
    (hcan : CanR (Late cu) (rPropsLoop cfg n [] []) (rPropsLoop { cfg with custom := cu } n [] []))
    (hout : ∀ q c size s s' v0 w w1 v, s.length ≤ K → cfg.custom q = some c → cu q = none →
      rPlain cfg (fun p => rPropsLoop cfg n p []) (P c.propType) size q s = .ok (v0, s') →
      c.post cfg.allowNan (rPropsLoop cfg n [] []) v0 = .ok w → w.set (P "custom_type") (.str q) = .ok w1 →
      w1.set (P "type") (.str (P c.propType)) = .ok v → T v v0)
    (hkept : ∀ q c size s s' v0 w w1 v w' w1' v', s.length ≤ K → cfg.custom q = some c → cu q = some c →
      rPlain cfg (fun p => rPropsLoop cfg n p []) (P c.propType) size q s = .ok (v0, s') →
      c.post cfg.allowNan (rPropsLoop cfg n [] []) v0 = .ok w → w.set (P "custom_type") (.str q) = .ok w1 →
      w1.set (P "type") (.str (P c.propType)) = .ok v →
      c.post cfg.allowNan (rPropsLoop { cfg with custom := cu } n [] []) v0 = .ok w' → w'.set (P "custom_type") (.str q) = .ok w1' →
      w1'.set (P "type") (.str (P c.propType)) = .ok v' → T v v')
    (ty : PyStr) (size : Nat) (q : PyStr) :
    Rel K (Late cu) T (rProperty cfg (fun p => rPropsLoop cfg n p []) ty size q)
      (rProperty { cfg with custom := cu } (fun p => rPropsLoop { cfg with custom := cu } n p []) ty size q) := by
  have hplain := rel_plain hT hr cfg ty size q
  rw [plain_congr (cfg := cfg) (cu := cu) (rec := fun p => rPropsLoop { cfg with custom := cu } n p [])
    (rec' := fun p => rPropsLoop { cfg with custom := cu } n p []) rfl (fun _ => rfl) ty size]
    at hplain
  cases hc : cfg.custom q with
  | none =>
    have hc' := sub_none hsub hc
    unfold rProperty
    simp only [hc, hc']
    exact hplain
  | some c =>
    intro s hs v s' h
    have hlen := less_property cfg (fun p => less_loop cfg n p []) ty size q s v s' h
    obtain ⟨v0, w, w1, rfl, h1, h2, h3, h4⟩ := property_inv hc h
    have h1' := h1
    rw [plain_below hap hsub hc n] at h1'
    cases hc' : cu q with
    | none =>
      refine Or.inl ⟨v0, ?_, hlen, hout q c size s s' v0 w w1 v hs hc hc' h1 h2 h3 h4⟩
      unfold rProperty
      simp only [hc']
      exact h1'
    | some c' =>
      have e := hsub q c' hc'
      rw [hc] at e
      cases e
      have hp := can_post hcan (fun _ => late_cases) c (fun e => ⟨Or.inl ⟨rfl, q, e ▸ hc'⟩, Or.inr rfl⟩) cfg.allowNan v0 w h2
      rcases hp with ⟨w', e'⟩ | ⟨er, e', he⟩
      · obtain ⟨w1', v', g1, g2, g3⟩ := property_ok (cfg := { cfg with custom := cu }) hc' h1' e'
        exact Or.inl ⟨v', g3, hlen, hkept q c size s s' v0 w w1 v w' w1' v' hs hc hc' h1 h2 h3 h4 e' g1 g2⟩
      · exact Or.inr ⟨er, property_err (cfg := { cfg with custom := cu }) hc' h1' e', he⟩


/-- Whether the file can be read, for any budget. -/
theorem loop_can : ∀ n K path acc acc', FD (fun _ _ => True) acc acc' → Rel K (Late cu) (DD fun _ _ => True) (rPropsLoop cfg n path acc)
    (rPropsLoop { cfg with custom := cu } n path acc')
  | 0, _, _, _, _, _ => rel_fail
  | n + 1, K, path, acc, acc', hacc => by
    unfold rPropsLoop
    refine rel_bind (rel_same cost_fstring) fun name _ e => ?_
    subst e
    refine rel_ite (rel_pure ⟨_, _, rfl, rfl, hacc⟩) (rel_bind (rel_same cost_fstring) fun ty _ e => ?_)
    subst e
    refine rel_bind (rel_same (cost_unsigned 8)) fun size _ e => ?_
    subst e
    have hr : ∀ K p, Rel K (Late cu) (fun _ _ => True) (rPropsLoop cfg n p []) (rPropsLoop { cfg with custom := cu } n p []) :=
      fun K p => rel_mono (loop_can n K p [] [] .nil) fun _ _ _ => trivial
    refine rel_bind (property_rel hap hsub closed_true (hr K) (canR_of fun K => hr K []) (fun _ _ _ _ _ _ _ _ _ _ _ _ _ _ _ _ => trivial)
      (fun _ _ _ _ _ _ _ _ _ _ _ _ _ _ _ _ _ _ _ _ _ _ => trivial) ty size _) fun v v' h => ?_
    exact loop_can n K path _ _ (fd_dset h hacc)

omit hap hsub in
/-- What a decoder makes does not depend on the budget. -/
theorem made_of {cfg : Cfg} {K n : Nat} (hn : K < n) {c : CodecId} {q : PyStr} {v0 w w1 v : Val} (hl : Lim K v0)
    (h2 : c.post cfg.allowNan (rPropsLoop cfg n [] []) v0 = .ok w) (h3 : w.set (P "custom_type") (.str q) = .ok w1)
    (h4 : w1.set (P "type") (.str (P c.propType)) = .ok v) : Made cfg q c v0 v := by
  refine ⟨K + 1, fun n' hn' => ⟨w, w1, ?_, h3, h4⟩⟩
  have hr := ok_loop cfg K n n' [] [] K hn (by omega) (Nat.le_refl _) (by simp only [LimD])
  rw [← h2]
  exact (okv_post c cfg.allowNan hr v0 hl).1.symm

/-- What is read. -/
theorem loop_fewer : ∀ K n path acc acc', K < n → FD (Fewer cfg { cfg with custom := cu }) acc acc' →
    Rel K (Late cu) (DD (Fewer cfg { cfg with custom := cu })) (rPropsLoop cfg n path acc)
      (rPropsLoop { cfg with custom := cu } n path acc') := by
  intro K
  induction K using Nat.strongRecOn with
  | ind K ih =>
    intro n path acc acc' hn hacc s hs v s' h
    obtain ⟨n, rfl⟩ : ∃ m, n = m + 1 := ⟨n - 1, by omega⟩
    unfold rPropsLoop at h ⊢
    obtain ⟨name, s1, h1, h2⟩ := r_bind_inv h
    have hc1 := fstring_consumes h1
    rw [r_bind_ok h1]
    have key : Rel s1.length (Late cu) (DD (Fewer cfg { cfg with custom := cu })) (if name = P "None" then pure (.dict acc) else do
        let ty ← rFString
        let size ← rU64
        let v ← rProperty cfg (fun p => rPropsLoop cfg n p []) ty size (path ++ dot ++ name)
        rPropsLoop cfg n path (dset acc name v)) (if name = P "None" then pure (.dict acc') else do
        let ty ← rFString
        let size ← rU64
        let v ← rProperty { cfg with custom := cu } (fun p => rPropsLoop { cfg with custom := cu } n p []) ty size (path ++ dot ++ name)
        rPropsLoop { cfg with custom := cu } n path (dset acc' name v)) := by
      refine rel_ite (rel_pure ⟨_, _, rfl, rfl, hacc⟩) (rel_bind (rel_same cost_fstring) fun ty _ e => ?_)
      subst e
      refine rel_bind (rel_same (cost_unsigned 8)) fun size _ e => ?_
      subst e
      have hlt : s1.length < n := by omega
      have hr : ∀ p, Rel s1.length (Late cu) (Fewer cfg { cfg with custom := cu }) (rPropsLoop cfg n p [])
          (rPropsLoop { cfg with custom := cu } n p []) :=
        fun p => rel_mono (ih s1.length (by omega) n p [] [] hlt .nil) fun _ _ h => dd_of (closed_fewer _ _) h
      have hlim : ∀ {ty : PyStr} {size : Nat} {q : PyStr} {s s' : Bytes} {v0 : Val}, s.length ≤ s1.length →
          rPlain cfg (fun p => rPropsLoop cfg n p []) ty size q s = .ok (v0, s') → Lim s1.length v0 := by
        intro ty size q s s' v0 hs hp
        have hrec : OkRec s1.length s1.length (fun p => rPropsLoop cfg n p []) (fun p => rPropsLoop cfg n p []) :=
          ⟨fun p => ok_loop cfg s1.length n n p [] s1.length hlt hlt (Nat.le_refl _) (by simp only [LimD]),
            fun p => loop_dict cfg n p []⟩
        exact ((ok_plain cfg hrec (Nat.le_refl _) ty size q s hs).2.2 v0 s' hp).2
      refine rel_bind (property_rel hap hsub (closed_fewer _ _) hr
        (canR_of fun K => rel_mono (loop_can hap hsub n K [] [] [] .nil) fun _ _ _ => trivial) ?_ ?_ ty size _) fun v v' h => ?_
      · intro q c size s s' v0 w w1 v hs hc hc' g1 g2 g3 g4
        exact .left_out hc hc' (made_of hlt (hlim hs g1) g2 g3 g4)
      · intro q c size s s' v0 w w1 v w' w1' v' hs hc hc' g1 g2 g3 g4 k2 k3 k4
        exact .kept hc hc' (made_of hlt (hlim hs g1) g2 g3 g4) (made_of (cfg := { cfg with custom := cu }) hlt (hlim hs g1) k2 k3 k4)
      · exact ih s1.length (by omega) n path _ _ hlt (fd_dset h hacc)
    rcases key s1 (Nat.le_refl _) v s' h2 with ⟨v', e1, l1, hT⟩ | h
    · exact Or.inl ⟨v', e1, by omega, hT⟩
    · exact Or.inr h

end
end Fewer
end Pal
