import Verif.Lemmas.Extract
/-
C67: the script that makes the table of concrete classes.
-/

namespace Pal

open Spec

variable {lower : PyStr → PyStr} {files : List (PyStr × Val)}

theorem extract_parts {limit : Nat} {first : Val} {more : List Val} {rows d : Dict}
    (hrows : first.path [P "Rows"] = .ok (.dict rows)) (hok : ExportOk files)
    (h : extractMain lower limit (.list (first :: more)) files = .ok d) :
    ∃ B objs, Loaded lower files B ∧ objectBlueprints lower B rows [] = .ok objs ∧ concreteClasses lower B limit objs [] = .ok d := by
  obtain ⟨B, h1, h⟩ := ex_bind h
  obtain ⟨rows', h2, h⟩ := ex_bind h
  obtain ⟨objs, h3, h4⟩ := ex_bind h
  rw [path_one] at hrows
  simp only [tableRows, hrows] at h2
  cases h2
  exact ⟨B, objs, load_loaded hok h1, h3, h4⟩

/-- **C67.**  The table has an entry for an object exactly if its row (the last one with this name up to case that names
a blueprint of the export) leads to one, and the entry is the class of the game at the end of the chain. -/
theorem C67_table {limit : Nat} {first : Val} {more : List Val} {rows d : Dict}
    (hrows : first.path [P "Rows"] = .ok (.dict rows)) (hok : ExportOk files)
    (h : extractMain lower limit (.list (first :: more)) files = .ok d) (k : PyStr) (v : Val) :
    dget? d k = some v ↔ ∃ c, RowOf lower files rows k c ∧ TableEntry lower files (lower c) v := by
  obtain ⟨B, objs, L, h1, h2⟩ := extract_parts hrows hok h
  obtain ⟨h3, h4⟩ := objects_iff L (by simp) h1
  obtain ⟨h5, h6⟩ := classes_iff h3 h2
  rw [h6]
  constructor
  · rintro (⟨c', hc, hv⟩ | ⟨-, hv⟩)
    · rcases (h4 k c').mp hc with ⟨c, hr, rfl⟩ | ⟨-, hm⟩
      · exact ⟨c, hr, (concreteOf_iff L hv v).mp rfl⟩
      · cases hm
    · cases hv
  · rintro ⟨c, hr, hv⟩
    have hm : (k, lower c) ∈ objs := (h4 k (lower c)).mpr (.inl ⟨c, hr, rfl⟩)
    obtain ⟨x, hx⟩ := h5 _ _ hm
    refine .inl ⟨lower c, hm, ?_⟩
    rw [hx, (concreteOf_iff L hx v).mpr hv]

/-- Every object has one entry. -/
theorem C67_one_entry {c : PyStr} {v v' : Val} (h : TableEntry lower files c v) (h' : TableEntry lower files c v') : v = v' :=
  tableEntry_unique h h'

/-- Blueprints that extend each other in a circle. -/
def Circular (lower : PyStr → PyStr) (files : List (PyStr × Val)) (S : PyStr → Prop) : Prop :=
  ∀ q, S q → ∃ r q', Extends lower files q r ∧ BlueprintRef r q' ∧ S q'

theorem circular_resolve {B : Blueprints} (L : Loaded lower files B) {S : PyStr → Prop} (hS : Circular lower files S) :
    ∀ (n : Nat) {r : Val} {q : PyStr} {x : Option PyStr}, BlueprintRef r q → S q → resolveConcrete lower B n r ≠ .ok x := by
  intro n
  induction n with
  | zero => intro r q x _ _ h; cases h
  | succ n ih =>
    intro r q x hr hq h
    obtain ⟨r', q', h1, h2, h3⟩ := hS q hq
    exact ih h2 h3 (resolve_up L hr h1 h)

/-- **C67, circles.**  If the class of one object extends a circle of blueprints then there is no table at all, for no
limit on recursion. -/
theorem C67_circular {limit : Nat} {first : Val} {more : List Val} {rows d : Dict} {S : PyStr → Prop} {k c q : PyStr} {o r : Val}
    (hrows : first.path [P "Rows"] = .ok (.dict rows)) (hok : ExportOk files) (hS : Circular lower files S)
    (hr : RowOf lower files rows k c) (ho : Object lower files (lower c) (P "Default__" ++ lower c ++ P "_C") o)
    (hm : Spec.Model o r) (hq : BlueprintRef r q) (hs : S q) :
    extractMain lower limit (.list (first :: more)) files ≠ .ok d := by
  intro h
  obtain ⟨B, objs, L, h1, h2⟩ := extract_parts hrows hok h
  obtain ⟨h3, h4⟩ := objects_iff L (by simp) h1
  obtain ⟨h5, -⟩ := classes_iff h3 h2
  obtain ⟨x, hx⟩ := h5 _ _ ((h4 k (lower c)).mpr (.inl ⟨c, hr, rfl⟩))
  obtain ⟨m, hb, hd⟩ := ho
  have hb := (L.has _ _).mpr hb
  unfold concreteOf at hx
  simp only [hb, L.getN hb, hd] at hx
  obtain ⟨p, h6, hx⟩ := ex_bind hx
  obtain ⟨b, h7, hx⟩ := ex_bind hx
  obtain ⟨m1, m2, m3, m4⟩ := model_cases (L.props hb (dget_mem hd) (by rw [path_one]; exact h6)) h6 h7
  have := m4 r hm
  subst this
  rw [if_pos rfl] at hx
  obtain ⟨r', h8, hx⟩ := ex_bind hx
  cases model_unique (((m2 rfl).2 r').mp h8) hm
  obtain ⟨y, h9, -⟩ := ex_bind hx
  exact circular_resolve L hS limit hq hs h9

theorem concreteOf_mono {B : Blueprints} {n : Nat} {c : PyStr} {x : Except Err (Option Val)} (h : concreteOf lower B n c = x)
    (hx : x ≠ .error .fuel) : concreteOf lower B (n + 1) c = x := by
  have hres : ∀ v, resolveConcrete lower B n v ≠ .error .fuel → resolveConcrete lower B (n + 1) v = resolveConcrete lower B n v :=
    fun v hv => resolve_mono rfl hv
  unfold concreteOf at h ⊢
  cases hb : B c with
  | none => rw [hb] at h; exact h
  | some m =>
    simp only [hb] at h ⊢
    cases ho : dgetN m (lower (P "Default__" ++ c ++ P "_C")) with
    | none => simp only [ho] at h ⊢; exact h
    | some st =>
      simp only [ho] at h ⊢
      cases hp : st.get (P "Properties") with
      | error e => rw [hp] at h; exact h
      | ok p =>
        rw [hp, ex_ok] at h
        rw [ex_ok]
        cases hc : p.contains (P "ConcreteModelClass") with
        | error e => rw [hc] at h; exact h
        | ok b =>
          rw [hc, ex_ok] at h
          rw [ex_ok]
          cases b with
          | true =>
            rw [if_pos rfl] at h ⊢
            cases hr : p.path [P "ConcreteModelClass", P "ObjectName"] with
            | error e => rw [hr] at h; exact h
            | ok r =>
              rw [hr, ex_ok] at h
              rw [ex_ok, hres r]
              · exact h
              · intro hf
                rw [hf] at h
                exact hx h.symm
          | false =>
            rw [if_neg Bool.false_ne_true] at h ⊢
            cases hg : dgetN m (lower (c ++ P "_C")) with
            | none => simp only [hg] at h ⊢; exact h
            | some g =>
              simp only [hg] at h ⊢
              cases hr : g.path [P "SuperStruct", P "ObjectName"] with
              | error e => rw [hr] at h; exact h
              | ok r =>
                rw [hr, ex_ok] at h
                rw [ex_ok]
                have : resolveSuper lower B n r ≠ .error .fuel → resolveSuper lower B (n + 1) r = resolveSuper lower B n r := by
                  intro hf
                  unfold resolveSuper at hf ⊢
                  cases hs : r.asStr with
                  | error e => rfl
                  | ok s =>
                    rw [hs, ex_ok] at hf
                    rw [ex_ok, ex_ok]
                    by_cases h1 : (P "Class'").isPrefixOf s = true
                    · rw [if_pos h1, if_pos h1]
                    · rw [if_neg h1] at hf ⊢
                      rw [if_neg h1]
                      by_cases h2 : (P "BlueprintGeneratedClass'").isPrefixOf s = true
                      · rw [if_pos h2] at hf ⊢
                        rw [if_pos h2]
                        simp only at hf ⊢
                        cases hb2 : B (lower (removePrefix (P "BlueprintGeneratedClass'") (removeSuffix (P "_C'") s))) with
                        | none => rfl
                        | some bp =>
                          simp only [hb2] at hf ⊢
                          cases ho2 : dgetN bp (lower (P "Default__" ++ removePrefix (P "BlueprintGeneratedClass'") (removeSuffix (P "_C'") s) ++ P "_C")) with
                          | none => rfl
                          | some st2 =>
                            simp only [ho2] at hf ⊢
                            cases hp2 : st2.get (P "Properties") with
                            | error e => rfl
                            | ok p2 =>
                              rw [hp2, ex_ok] at hf
                              rw [ex_ok, ex_ok]
                              cases hc2 : p2.contains (P "ConcreteModelClass") with
                              | error e => rfl
                              | ok b2 =>
                                rw [hc2, ex_ok] at hf
                                rw [ex_ok, ex_ok]
                                cases b2 with
                                | false => rfl
                                | true =>
                                  rw [if_pos rfl] at hf ⊢
                                  rw [if_pos rfl]
                                  cases hr2 : p2.path [P "ConcreteModelClass", P "ObjectName"] with
                                  | error e => rfl
                                  | ok r2 =>
                                    rw [hr2, ex_ok] at hf
                                    rw [ex_ok, ex_ok]
                                    exact hres r2 hf
                      · rw [if_neg h2, if_neg h2]
                rw [this]
                · exact h
                · intro hf
                  rw [hf] at h
                  exact hx h.symm

theorem classes_mono {B : Blueprints} {n : Nat} : ∀ {objs : List (PyStr × PyStr)} {acc : Dict} {x : Except Err Dict},
    concreteClasses lower B n objs acc = x → x ≠ .error .fuel → concreteClasses lower B (n + 1) objs acc = x := by
  intro objs
  induction objs with
  | nil => intro acc x h _; exact h
  | cons e t ih =>
    intro acc x h hx
    obtain ⟨name, c⟩ := e
    rw [concreteClasses] at h ⊢
    have hc : concreteOf lower B n c ≠ .error .fuel := by
      intro hf
      rw [hf] at h
      exact hx h.symm
    rw [concreteOf_mono rfl hc]
    cases hv : concreteOf lower B n c with
    | error e => rw [hv] at h; exact h
    | ok y =>
      rw [hv, ex_ok] at h
      rw [ex_ok]
      cases y with
      | none => exact ih h hx
      | some v => exact ih h hx

/-- **C67, the limit.**  A run that does not reach the limit on recursion does the same with every larger limit. -/
theorem C67_limit {limit limit' : Nat} {table : Val} {x : Except Err Dict} (hl : limit ≤ limit')
    (h : extractMain lower limit table files = x) (hx : x ≠ .error .fuel) : extractMain lower limit' table files = x := by
  induction hl with
  | refl => exact h
  | step _ ih =>
    unfold extractMain at ih ⊢
    cases hb : loadBlueprints lower files (fun _ => none) with
    | error e => rw [hb] at ih; exact ih
    | ok B =>
      rw [hb, ex_ok] at ih
      rw [ex_ok]
      cases hr : tableRows table with
      | error e => rw [hr] at ih; exact ih
      | ok rows =>
        rw [hr, ex_ok] at ih
        rw [ex_ok]
        cases ho : objectBlueprints lower B rows [] with
        | error e => rw [ho] at ih; exact ih
        | ok objs =>
          rw [ho, ex_ok] at ih
          rw [ex_ok]
          exact classes_mono ih hx

/-- **C67, what is missed.**  Only the blueprint itself and the one it extends are asked.  If neither sets the class then
the entry is "unknown", whatever the blueprints above them say. -/
theorem C67_grandparents_not_asked {c q : PyStr} {o g r o' : Val} (h1 : Object lower files c (P "Default__" ++ c ++ P "_C") o)
    (h2 : NoModel o) (h3 : Object lower files c (c ++ P "_C") g) (h4 : g.path [P "SuperStruct", P "ObjectName"] = .ok r)
    (h5 : BlueprintRef r q) (h6 : Default lower files q o') (h7 : NoModel o') :
    TableEntry lower files c (.str (P "DEFAULT_UNKNOWN_PalMapObjectConcreteModelBase")) :=
  .unknown h1 h2 h3 h4 (.inr ⟨q, h5, .inr ⟨o', h6, .inl h7⟩⟩)

/-! ### a small export

The object "Box" has the blueprint `BP_Box` that sets no class; it extends `BP_Base`, which sets the class
`BP_Model_C`; that is a blueprint that extends `PalModel` of the game.  "Deep" has the blueprint `BP_Deep` that extends
`BP_Box`.  "Loop" sets the class `BP_Loop_C`, which extends itself. -/

def exRef (s : String) : Val := .dict [(P "ObjectName", .str (P s))]

def exClass (n sup : String) : Val :=
  .dict [(P "Name", .str (P n)), (P "Type", .str (P "BlueprintGeneratedClass")), (P "SuperStruct", exRef sup)]

def exDefault (n : String) (props : Dict) : Val :=
  .dict [(P "Name", .str (P n)), (P "Type", .str (P "Object")), (P "Properties", .dict props)]

def exFiles : List (PyStr × Val) :=
  [(P "BP_Box.json", .list [exDefault "Default__BP_Box_C" [], exClass "BP_Box_C" "BlueprintGeneratedClass'BP_Base_C'"]),
   (P "BP_Base.json", .list [exClass "BP_Base_C" "Class'Actor'",
      exDefault "Default__BP_Base_C" [(P "ConcreteModelClass", exRef "BlueprintGeneratedClass'BP_Model_C'")]]),
   (P "readme.txt", .list []),
   (P "BP_Model.json", .list [exClass "BP_Model_C" "Class'PalModel'"]),
   (P "BP_Deep.json", .list [exDefault "Default__BP_Deep_C" [], exClass "BP_Deep_C" "BlueprintGeneratedClass'BP_Box_C'"])]

def exLoop : List (PyStr × Val) :=
  [(P "BP_Loop.json", .list [exClass "BP_Loop_C" "BlueprintGeneratedClass'BP_Loop_C'",
      exDefault "Default__BP_Loop_C" [(P "ConcreteModelClass", exRef "BlueprintGeneratedClass'BP_Loop_C'")]])]

def exRow (c : String) : Val :=
  .dict [(P "BlueprintClassSoft", .dict [(P "AssetPathName", .str (P "/Game"))]), (P "BlueprintClassName", .str (P c))]

def exRows : Dict := [(P "Box", exRow "BP_Box"), (P "Deep", exRow "BP_Deep"), (P "Gone", exRow "BP_Gone")]

def exLoopRows : Dict := [(P "Loop", exRow "BP_Loop")]

set_option maxRecDepth 20000 in
/-- The run: the class of "Box" is found one blueprint up and followed to the game, that of "Deep" is not found. -/
example : extractMain casefold 1000 (.list [.dict [(P "Rows", .dict exRows)]]) exFiles =
    .ok [(P "box", .str (P "PalModel")), (P "deep", .str (P "DEFAULT_UNKNOWN_PalMapObjectConcreteModelBase"))] := by rfl

def ExObjOk (o : Val) : Prop := (∀ r, o.path [P "SuperStruct", P "ObjectName"] = .ok r → RefOk r) ∧ (∀ r, Spec.Model o r → RefOk r) ∧
  ∀ p, o.path [P "Properties"] = .ok p → ∃ d, p = .dict d

theorem exportOk_of {files : List (PyStr × Val)} (h : ∀ f ∈ files, ∃ objs, f.2 = .list objs ∧ ∀ o ∈ objs, ExObjOk o) : ExportOk files := by
  have key : ∀ f ∈ files, ∀ objs, f.2 = .list objs → ∀ o ∈ objs, ExObjOk o := by
    intro f hf objs ho o hm
    obtain ⟨objs', h1, h2⟩ := h f hf
    rw [ho] at h1
    cases h1
    exact h2 o hm
  exact ⟨fun f hf => ⟨_, (h f hf).choose_spec.1⟩, fun f hf objs ho o hm => (key f hf objs ho o hm).1,
    fun f hf objs ho o hm => (key f hf objs ho o hm).2.1, fun f hf objs ho o hm => (key f hf objs ho o hm).2.2⟩

theorem exClass_ok {n sup : String} (h : RefOk (.str (P sup))) : ExObjOk (exClass n sup) := by
  refine ⟨fun r hr => ?_, fun r hr => ?_, fun p hp => ?_⟩
  · cases hr
    exact h
  · cases hr
  · cases hp

theorem exDefault_ok {n : String} : ExObjOk (exDefault n []) := by
  refine ⟨fun r hr => ?_, fun r hr => ?_, fun p hp => ?_⟩
  · cases hr
  · cases hr
  · cases hp
    exact ⟨_, rfl⟩

theorem exDefault_ok' {n s : String} (h : RefOk (.str (P s))) : ExObjOk (exDefault n [(P "ConcreteModelClass", exRef s)]) := by
  refine ⟨fun r hr => ?_, fun r hr => ?_, fun p hp => ?_⟩
  · cases hr
  · cases hr
    exact h
  · cases hp
    exact ⟨_, rfl⟩

/-- The hypothesis of C67_table about the export holds for it. -/
theorem exFiles_ok : ExportOk exFiles := by
  apply exportOk_of
  simp only [exFiles, List.forall_mem_cons, List.not_mem_nil, false_imp_iff, implies_true, and_true]
  refine ⟨⟨_, rfl, ?_⟩, ⟨_, rfl, ?_⟩, ⟨_, rfl, by simp⟩, ⟨_, rfl, ?_⟩, ⟨_, rfl, ?_⟩⟩ <;>
    simp only [List.forall_mem_cons, List.not_mem_nil, false_imp_iff, implies_true, and_true]
  · exact ⟨exDefault_ok, exClass_ok (.inr (.inl ⟨P "BP_Base", rfl⟩))⟩
  · exact ⟨exClass_ok (.inl ⟨P "Actor", rfl⟩), exDefault_ok' (.inr (.inl ⟨P "BP_Model", rfl⟩))⟩
  · exact exClass_ok (.inl ⟨P "PalModel", rfl⟩)
  · exact ⟨exDefault_ok, exClass_ok (.inr (.inl ⟨P "BP_Box", rfl⟩))⟩

theorem exLoop_ok : ExportOk exLoop := by
  apply exportOk_of
  simp only [exLoop, List.forall_mem_cons, List.not_mem_nil, false_imp_iff, implies_true, and_true]
  refine ⟨_, rfl, ?_⟩
  simp only [List.forall_mem_cons, List.not_mem_nil, false_imp_iff, implies_true, and_true]
  exact ⟨exClass_ok (.inr (.inl ⟨P "BP_Loop", rfl⟩)), exDefault_ok' (.inr (.inl ⟨P "BP_Loop", rfl⟩))⟩

set_option maxRecDepth 20000 in
/-- So C67_table says what is in the table for "Box", read off the export. -/
example : ∃ c, RowOf casefold exFiles exRows (P "box") c ∧ TableEntry casefold exFiles (casefold c) (.str (P "PalModel")) :=
  (C67_table (first := .dict [(P "Rows", .dict exRows)]) (more := []) (limit := 1000) (by rfl) exFiles_ok (by rfl) (P "box") _).mp (by rfl)

theorem exLoop_file : Blueprint casefold exLoop (P "bp_loop")
    [(P "bp_loop_c", exClass "BP_Loop_C" "BlueprintGeneratedClass'BP_Loop_C'"),
     (P "default__bp_loop_c", exDefault "Default__BP_Loop_C" [(P "ConcreteModelClass", exRef "BlueprintGeneratedClass'BP_Loop_C'")])] :=
  ⟨_, ⟨[], P "BP_Loop", [], rfl, by decide +kernel, by simp⟩, byName_iff.mpr (by rfl)⟩

/-- Nothing is printed for an export with a circle. -/
example (limit : Nat) (d : Dict) : extractMain casefold limit (.list [.dict [(P "Rows", .dict exLoopRows)]]) exLoop ≠ .ok d := by
  have hl : Listed casefold exLoop (exRow "BP_Loop") (P "BP_Loop") :=
    ⟨fun h => (by cases h), by rfl, _, exLoop_file⟩
  have ho : Object casefold exLoop (P "bp_loop") (P "Default__" ++ P "bp_loop" ++ P "_C")
      (exDefault "Default__BP_Loop_C" [(P "ConcreteModelClass", exRef "BlueprintGeneratedClass'BP_Loop_C'")]) :=
    ⟨_, exLoop_file, by rfl⟩
  have hS : Circular casefold exLoop fun q => q = P "BP_Loop" := by
    rintro q rfl
    exact ⟨_, P "BP_Loop", ⟨[], _, _, _, exLoop_file, by simp, by rfl, by rfl⟩, rfl, rfl⟩
  exact C67_circular (by rfl) exLoop_ok hS ⟨[], P "Loop", _, [], rfl, rfl, hl, by simp⟩ ho
    (r := .str (P "BlueprintGeneratedClass'BP_Loop_C'")) (by rfl) (q := P "BP_Loop") rfl rfl

end Pal
