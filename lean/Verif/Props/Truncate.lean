import Verif.Lemmas.Cut
import Verif.Props.Termination
import Verif.Props.Unknown
/-
C07: a property list that is cut off is rejected, with one exception.
-/

set_option linter.unusedSimpArgs false

namespace Pal
open Spec

variable {m : Mode}

/-- The exception: the input ends inside the name of a property of the outermost list; the
name has "None" as a proper prefix, and the cut leaves "None" and one more character. -/
def CutInName (ps : Props m) (t : Bytes) : Prop :=
  ∃ (pre : Props m) (name : Str) (p : PropT m) (post : Props m) (more : PyStr),
    ps = pre ++ (name, p) :: post ∧ more ≠ [] ∧ name.val = P "None" ++ more ∧
    t = encFirst pre ++ (eStr name).take (if Ascii name.val then 4 + 4 + 1 else 4 + 8 + 2)

/-- Type, size and value of a property. -/
def rPart (cfg : Cfg) (n : Nat) (path : PyStr) : R Val := do
  let ty ← rFString
  let size ← rU64
  rProperty cfg (fun p => rPropsLoop cfg n p []) ty size path

theorem grow_part (cfg : Cfg) (n : Nat) (path : PyStr) : Grow (rPart cfg n path) :=
  grow_bind grow_fstring fun _ => grow_bind grow_u64 fun _ => grow_property cfg (fun p => grow_loop cfg n p []) _ _ _

/-- The bytes of a property after its name. -/
def encPart (p : PropT m) : Bytes := eLit p.type ++ lit 8 p.tail.length ++ p.head ++ p.tail

theorem part_read {cfg : Cfg} (hcfg : cfg.allowNan = m.an) {K : CodecId → Val → Val} {C : CodecId → PropT m → Prop}
    (hK : ReadsCustom cfg K C) {path : PyStr} {nm : Str} {p : PropT m} {t : Props m} {n : Nat}
    (hw : wfProps cfg C path ((nm, p) :: t)) (hn : p.head.length + p.tail.length < n)
    (hn64 : p.tail.length < 2 ^ 64) (rest : Bytes) :
    ∃ v, rPart cfg n (path ++ dot ++ nm.val) (encPart p ++ rest) = .ok (v, rest) := by
  simp only [wfProps] at hw
  obtain ⟨h1, h2, h3⟩ := hw
  have hp : rPlain cfg (fun q => rPropsLoop cfg n q []) (P p.type) p.tail.length (sub path nm)
      (p.head ++ p.tail ++ rest) =
      .ok (vDict (p.entries cfg (sub path nm) (p.val cfg K (sub path nm))), rest) := by
    apply rPlain_of
    cases hc : cfg.custom (sub path nm) with
    | none =>
      rw [hc] at h2
      exact prop_read hcfg p C hK (sub path nm) n _ h2 (by omega) (by omega)
    | some c =>
      rw [hc] at h2
      exact prop_read hcfg p noCustom (readsCustom_no cfg K) (sub path nm) n _ h2.2.2 (by omega) (by omega)
  have hq := rProperty_of hcfg hK (by omega) (by omega) h2 hp
  simp only [sub, List.append_assoc] at hq
  refine ⟨showProp cfg K (path ++ (P "." ++ nm.val)) p (p.val cfg K (path ++ (P "." ++ nm.val))), ?_⟩
  simp only [rPart, encPart, rd, rFString_eLit p.type (type_strOk p), rU64_lit p.tail.length (by omega), dot,
    List.append_assoc, hq]

theorem loop_nil (cfg : Cfg) (n : Nat) (path : PyStr) (acc : Dict) : ∃ e, rPropsLoop cfg n path acc [] = .error e := by
  cases n with
  | zero => exact ⟨_, rfl⟩
  | succ n => exact ⟨.struct, rfl⟩

theorem encProps_cons (nm : Str) (p : PropT m) (t : Props m) :
    encProps ((nm, p) :: t) = eStr nm ++ (encPart p ++ encProps t) := by
  simp only [encProps, encPart, PropT.enc, List.append_assoc]

theorem cut_loop {cfg : Cfg} (hcfg : cfg.allowNan = m.an) {K : CodecId → Val → Val} {C : CodecId → PropT m → Prop}
    (hK : ReadsCustom cfg K C) (path : PyStr) : ∀ (ps : Props m) (n : Nat) (acc : Dict) (t u : Bytes) (v : Val) (s' : Bytes),
    wfProps cfg C path ps → (encProps ps).length < n → (encProps ps).length < 2 ^ 64 → t ++ u = encProps ps → u ≠ [] →
    rPropsLoop cfg n path acc t = .ok (v, s') → CutInName ps t := by
  intro ps
  induction ps with
  | nil =>
    intro n acc t u v s' hw hn hn64 he hu h
    cases n with
    | zero => cases h
    | succ n =>
      rw [rPropsLoop] at h
      obtain ⟨x, s1, h1, h0⟩ := r_bind_inv h
      clear h
      rename' h0 => h
      obtain ⟨rfl, h2⟩ := cut_string (s := P "None") (by decide +kernel) he hu h1
      split at h
      · rename_i hx
        obtain ⟨⟨r, hr, hr'⟩, -⟩ := h2 hx
        exact absurd (List.append_right_eq_self.1 hr'.symm) hr
      · obtain ⟨ty, s2, h3, -⟩ := r_bind_inv h
        cases h3
  | cons q rest ih =>
    obtain ⟨nm, p⟩ := q
    intro n acc t u v s' hw hn hn64 he hu h
    cases n with
    | zero => cases h
    | succ n =>
      rw [rPropsLoop] at h
      obtain ⟨x, s1, h1, h0⟩ := r_bind_inv h
      clear h
      rename' h0 => h
      rw [encProps_cons] at he hn hn64
      have hel : (encPart p).length ≥ p.head.length + p.tail.length := by unfold encPart; simp only [List.length_append]; omega
      simp only [List.length_append] at hn hn64
      have key : (∃ a, a ≠ [] ∧ t ++ a = eStr nm) ∨ ∃ c, t = eStr nm ++ c ∧ c ++ u = encPart p ++ encProps rest := by
        rcases List.append_eq_append_iff.1 he with ⟨a, ha, ha'⟩ | ⟨c, hc, hc'⟩
        · by_cases h0 : a = []
          · subst h0
            exact .inr ⟨[], by rw [ha]; simp, by rw [ha']; rfl⟩
          · exact .inl ⟨a, h0, ha.symm⟩
        · exact .inr ⟨c, hc, hc'.symm⟩
      rcases key with ⟨a, ha, hta⟩ | ⟨c, rfl, hcu⟩
      · obtain ⟨rfl, h2⟩ := cut_string nm.2 hta ha h1
        split at h
        · rename_i hx
          obtain ⟨⟨r, hr, hr'⟩, ht⟩ := h2 hx
          exact ⟨[], nm, p, rest, r, rfl, hr, hr', ht⟩
        · obtain ⟨ty, s2, h3, -⟩ := r_bind_inv h
          cases h3
      · rw [rFString_eStr] at h1
        cases h1
        have hw' := hw
        simp only [wfProps] at hw'
        rw [if_neg hw'.1] at h
        obtain ⟨ty, s2, h2, h⟩ := r_bind_inv h
        obtain ⟨size, s3, h3, h⟩ := r_bind_inv h
        obtain ⟨w, s4, h4, hloop⟩ := r_bind_inv h
        have hpart : rPart cfg n (path ++ dot ++ nm.val) s1 = .ok (w, s4) := by
          rw [rPart, r_bind_ok h2, r_bind_ok h3, h4]
        have hl := eStr_len nm
        have key : (∃ a, a ≠ [] ∧ u = a ++ encProps rest) ∨ ∃ d, s1 = encPart p ++ d ∧ d ++ u = encProps rest := by
          rcases List.append_eq_append_iff.1 hcu with ⟨a, ha, ha'⟩ | ⟨d, hd, hd'⟩
          · by_cases h0 : a = []
            · subst h0
              exact .inr ⟨[], by rw [ha]; simp, by rw [ha']; rfl⟩
            · exact .inl ⟨a, h0, ha'⟩
          · exact .inr ⟨d, hd, hd'.symm⟩
        rcases key with ⟨a, ha, hua⟩ | ⟨d, rfl, hdu⟩
        · exfalso
          by_cases h5 : s4 = []
          · subst h5
            obtain ⟨e, he⟩ := loop_nil cfg n path (dset acc nm.val w)
            rw [he] at hloop
            cases hloop
          · have h6 := (grow_part cfg n _ _ _ _ hpart).2 h5 u
            obtain ⟨v0, h7⟩ := part_read hcfg hK hw (n := n) (by omega) (by omega) (encProps rest)
            rw [hcu, h7] at h6
            injection h6 with h6
            injection h6 with _ h6
            have h8 := congrArg List.length h6
            have h9 := congrArg List.length hua
            have h10 := List.length_pos_iff.2 ha
            simp only [List.length_append] at h8 h9
            omega
        · obtain ⟨v0, h7⟩ := part_read hcfg hK hw (n := n) (by omega) (by omega) d
          rw [hpart] at h7
          injection h7 with h7
          injection h7 with h7 h8
          subst h8
          obtain ⟨pre, name, p', post, more, e1, e2, e3, e4⟩ :=
            ih n _ s4 u v s' hw'.2.2 (by omega) (by omega) hdu hu hloop
          refine ⟨(nm, p) :: pre, name, p', post, more, by rw [e1]; rfl, e2, e3, ?_⟩
          rw [first_cons, e4]
          simp only [encPart, List.append_assoc]

theorem wf_split {cfg : Cfg} {C : CodecId → PropT m → Prop} {path : PyStr} : ∀ (pre : Props m) {post : Props m},
    wfProps cfg C path (pre ++ post) → wfProps cfg C path pre
  | [], _, _ => by simp only [wfProps]
  | (n, p) :: t, post, h => by
    simp only [List.cons_append, wfProps] at h ⊢
    exact ⟨h.1, h.2.1, wf_split t h.2.2⟩

theorem encFirst_le : ∀ (pre : Props m) (post : Props m), (encFirst pre).length ≤ (encProps (pre ++ post)).length
  | [], _ => by simp [encFirst]
  | (n, p) :: t, post => by
    have := encFirst_le t post
    rw [List.cons_append, encProps_cons, first_cons]
    simp only [encPart, List.length_append] at this ⊢
    omega

/-- The exception is one: the cut list is read as the properties before the name. -/
theorem cut_reads {cfg : Cfg} (hcfg : cfg.allowNan = m.an) {K : CodecId → Val → Val} {C : CodecId → PropT m → Prop}
    (hK : ReadsCustom cfg K C) (path : PyStr) {ps : Props m} {t : Bytes} (hw : wfProps cfg C path ps)
    (h64 : (encProps ps).length < 2 ^ 64) (hc : CutInName ps t) (n : Nat) (hn : t.length < n) (acc : Dict) :
    ∃ v, rPropsLoop cfg n path acc t = .ok (v, []) := by
  obtain ⟨pre, name, p, post, more, rfl, e2, e3, rfl⟩ := hc
  have hle := encFirst_le pre ((name, p) :: post)
  have hcut := cut_none name.2 e2 e3
  rw [show encStr name.val = eStr name from rfl] at hcut
  have hlen : ((eStr name).take (noneCut name.val)).length = noneCut name.val := by
    rw [List.length_take]; exact Nat.min_eq_left (Nat.le_of_lt hcut.2)
  have hpos : 0 < noneCut name.val := by unfold noneCut; split <;> omega
  have hnc : (if Ascii name.val then 4 + 4 + 1 else 4 + 8 + 2) = noneCut name.val := rfl
  rw [hnc] at hn ⊢
  rw [List.length_append, hlen] at hn
  have hpre : pre.length ≤ (encFirst pre).length := by
    clear hn hle h64 hw
    induction pre with
    | nil => simp
    | cons q t ih =>
      obtain ⟨a, b⟩ := q
      have := eStr_len a
      rw [first_cons]
      simp only [List.length_append, List.length_cons]
      omega
  obtain ⟨acc', h1⟩ := first_read hcfg hK path ((eStr name).take (noneCut name.val)) pre n acc (wf_split pre hw)
    (by omega) (by omega)
  obtain ⟨k, hk⟩ : ∃ k, n - pre.length = k + 1 := ⟨n - pre.length - 1, by omega⟩
  refine ⟨.dict acc', ?_⟩
  rw [h1, hk, rPropsLoop, r_bind_ok hcut.1, if_pos rfl]
  rfl

/-- C07: a proper beginning of a well-formed property list is read without an exception if
and only if it ends inside a name with the proper prefix "None", at the one place where the
part before the cut reads as "None".  (`n` is any sufficient recursion budget.) -/
theorem C07_list (cfg : Cfg) (hcfg : cfg.allowNan = m.an) (hj : m.json = true → CfgJson cfg) (ps : Props m) (path : PyStr)
    (hw : wfProps cfg (Canon cfg) path ps) (h64 : (encProps ps).length < 2 ^ 64) (t u : Bytes) (he : t ++ u = encProps ps)
    (hu : u ≠ []) (n : Nat) (hn : t.length < n) :
    (∃ v s', rProps cfg n path t = .ok (v, s')) ↔ CutInName ps t := by
  obtain ⟨r, -, hr⟩ := C06_list cfg path t
  constructor
  · rintro ⟨v, s', h⟩
    rw [hr n hn, ← hr (t.length + (encProps ps).length + 1) (by omega)] at h
    exact cut_loop hcfg (readsCustom_canon hcfg hj) path ps _ [] t u v s' hw (by omega) h64 he hu h
  · intro hc
    obtain ⟨v, h⟩ := cut_reads hcfg (readsCustom_canon hcfg hj) path hw h64 hc n hn []
    exact ⟨v, [], h⟩

/-- C07: if no name of the outermost list has "None" as a proper prefix, every proper
beginning of the list raises. -/
theorem C07_rejected (cfg : Cfg) (hcfg : cfg.allowNan = m.an) (hj : m.json = true → CfgJson cfg) (ps : Props m) (path : PyStr)
    (hw : wfProps cfg (Canon cfg) path ps) (h64 : (encProps ps).length < 2 ^ 64)
    (hname : ∀ q ∈ ps, ¬ P "None" <+: q.1.val) (t u : Bytes) (he : t ++ u = encProps ps)
    (hu : u ≠ []) (n : Nat) (hn : t.length < n) :
    ∃ e, e ≠ .fuel ∧ rProps cfg n path t = .error e := by
  obtain ⟨r, hf, hr⟩ := C06_list cfg path t
  have h := C07_list cfg hcfg hj ps path hw h64 t u he hu n hn
  rw [hr n hn] at h ⊢
  cases r with
  | error e => exact ⟨e, fun h => hf (by rw [h]), rfl⟩
  | ok q =>
    obtain ⟨pre, name, p, post, more, rfl, -, e3, -⟩ := h.1 ⟨q.1, q.2, rfl⟩
    exact absurd ⟨more, e3.symm⟩ (hname (name, p) (by simp))

/-- C07: the same for a whole file cut anywhere in its header or its property list. -/
theorem C07_file (cfg : Cfg) (hcfg : cfg.allowNan = m.an) (hj : m.json = true → CfgJson cfg) (f : File m) (hw : f.Wf cfg)
    (t u : Bytes) (he : t ++ u = f.header.enc ++ encProps f.props) (hu : u ≠ []) :
    (∃ g, gvasRead cfg t = .ok g) ↔ ∃ t', t = f.header.enc ++ t' ∧ CutInName f.props t' := by
  obtain ⟨hw1, hw2⟩ := hw
  simp only [SVal.Wf] at hw1
  have hread : (∃ g, gvasRead cfg t = .ok g) ↔ ∃ h v s1 s2, hdrRead t = .ok (h, s1) ∧
      rProps cfg (t.length + 1) [] s1 = .ok (v, s2) := by
    constructor
    · rintro ⟨g, hg⟩
      unfold gvasRead at hg
      split at hg
      · rename_i hr
        unfold gvasReadR at hr
        obtain ⟨hd, s1, h1, hr⟩ := r_bind_inv hr
        obtain ⟨v, s2, h2, hr⟩ := r_bind_inv hr
        exact ⟨hd, v, s1, s2, h1, h2⟩
      · cases hg
    · rintro ⟨h, v, s1, s2, h1, h2⟩
      refine ⟨⟨h, v, s2⟩, ?_⟩
      unfold gvasRead gvasReadR
      rw [r_bind_ok h1, r_bind_ok h2]
      rfl
  rw [hread]
  have key : (∃ a, a ≠ [] ∧ t ++ a = f.header.enc ∧ u = a ++ encProps f.props) ∨
      ∃ c, t = f.header.enc ++ c ∧ c ++ u = encProps f.props := by
    rcases List.append_eq_append_iff.1 he with ⟨a, ha, ha'⟩ | ⟨c, hc, hc'⟩
    · by_cases h0 : a = []
      · subst h0
        exact .inr ⟨[], by rw [ha]; simp, by rw [ha']; rfl⟩
      · exact .inl ⟨a, h0, ha.symm, ha'⟩
    · exact .inr ⟨c, hc, hc'.symm⟩
  rcases key with ⟨a, ha, hta, hua⟩ | ⟨c, rfl, hcu⟩
  · constructor
    · rintro ⟨h, v, s1, s2, h1, h2⟩
      exfalso
      by_cases h5 : s1 = []
      · subst h5
        obtain ⟨e, he⟩ := loop_nil cfg (t.length + 1) [] []
        rw [rProps, he] at h2
        cases h2
      · have h6 := (grow_hdr _ _ _ h1).2 h5 u
        rw [he, hdrRead_enc] at h6
        injection h6 with h6
        injection h6 with _ h6
        have h8 := congrArg List.length h6
        have h9 := congrArg List.length hua
        have h10 := List.length_pos_iff.2 ha
        simp only [List.length_append] at h8 h9
        omega
    · rintro ⟨t', ht, -⟩
      have h8 := congrArg List.length ht
      have h9 := congrArg List.length hta
      have h10 := List.length_pos_iff.2 ha
      simp only [List.length_append] at h8 h9
      omega
  · have hl := C07_list cfg hcfg hj f.props [] hw1.2 hw2 c u hcu hu ((f.header.enc ++ c).length + 1)
      (by simp only [List.length_append]; omega)
    constructor
    · rintro ⟨h, v, s1, s2, h1, h2⟩
      rw [hdrRead_enc] at h1
      cases h1
      exact ⟨c, rfl, hl.1 ⟨v, s2, h2⟩⟩
    · rintro ⟨t', ht, hc⟩
      rw [List.append_cancel_left ht] at hl
      obtain ⟨v, s', h⟩ := hl.2 hc
      exact ⟨_, v, _, s', hdrRead_enc _ _, by rw [List.append_cancel_left ht]; exact h⟩

/-! The sample file: no beginning of its header and property list is accepted, at whichever
of its bytes it is cut. -/
example (t u : Bytes) (he : t ++ u = sampleFile.header.enc ++ encProps sampleFile.props) (hu : u ≠ []) :
    ¬ ∃ g, gvasRead fullCfg t = .ok g := by
  rw [C07_file fullCfg rfl (fun _ => palCfg_json _ _) sampleFile sampleFile_wf t u he hu]
  rintro ⟨t', -, pre, name, p, post, more, e1, -, e3, -⟩
  have hm : (name, p) ∈ sampleFile.props := by rw [e1]; simp
  have : ∀ q ∈ sampleFile.props, ¬ P "None" <+: q.1.val := by
    simp only [sampleFile, sampleProps, List.forall_mem_cons, str]
    decide +kernel
  exact this _ hm ⟨more, e3.symm⟩

/-- A property list with a name that begins with "None". -/
def noneProps : Props jsonMode := [(str "Flag", .bool true none), (str "Nonempty", .int none 7)]

theorem noneProps_wf : wfProps Cfg.empty (Canon Cfg.empty) [] noneProps :=
  wf_plain (by decide +kernel) rfl (by simp only [PropT.Wf]) (wf_plain (by decide +kernel) rfl (by simp only [PropT.Wf]) wf_nil)

/-- C07, the exception: such a list is read, without "Nonempty", after a cut inside that name. -/
theorem C07_counterexample : ∃ t u, t ++ u = encProps noneProps ∧ u ≠ [] ∧
    ∃ v s', rProps Cfg.empty (t.length + 1) [] t = .ok (v, s') := by
  have h64 : (encProps noneProps).length < 2 ^ 64 := by decide +kernel
  refine ⟨(encProps noneProps).take 45, (encProps noneProps).drop 45, List.take_append_drop _ _, by decide +kernel, ?_⟩
  refine (C07_list Cfg.empty rfl (fun _ => ?_) noneProps [] noneProps_wf h64 _ ((encProps noneProps).drop 45)
    (List.take_append_drop _ _) (by decide +kernel) _ (Nat.lt_succ_self _)).2 ?_
  · exact ⟨nofun, nofun⟩
  · exact ⟨[(str "Flag", .bool true none)], str "Nonempty", .int none 7, [], P "mpty", rfl, by decide +kernel, by decide +kernel,
      by decide +kernel⟩

end Pal
