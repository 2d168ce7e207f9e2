import Verif.Lemmas.JsonRead
import Verif.Props.RoundTrip
import Verif.Spec.OneNaN
/-
What the property reader returns is such that JSON transports it, apart from NaNs and
truncated GUIDs.
-/

namespace Pal
open Spec

/-! ### in-place updates -/

/-- An update that keeps values transportable. -/
def FP (f : Val → Except Err Val) : Prop := ∀ v v', JPre v → f v = .ok v' → JPre v' ∧ (NoTuple v → NoTuple v')

theorem get_jpre {v x : Val} {k : PyStr} (hv : JPre v) (h : v.get k = .ok x) : JPre x ∧ (k = P "value" → NoTuple x) := by
  cases v <;> simp only [Val.get, reduceCtorEq] at h
  split at h
  · rename_i heq
    cases h
    simp only [JPre] at hv
    have := jpreD_iff.1 hv.2 _ (dget_mem heq)
    exact ⟨this.2.2, this.2.1⟩
  · cases h

theorem dset_distinct {k : PyStr} {v : Val} : ∀ {d : Dict}, (d.map Prod.fst).Nodup → ((dset d k v).map Prod.fst).Nodup := by
  intro d
  induction d with
  | nil => intro _; simp [dset]
  | cons a t ih =>
    obtain ⟨k', v'⟩ := a
    intro h
    simp only [dset]
    split
    · exact h
    · rename_i hne
      simp only [List.map_cons, List.nodup_cons] at h ⊢
      refine ⟨fun hm => ?_, ih h.2⟩
      obtain ⟨q, hq, e⟩ := List.mem_map.1 hm
      rcases mem_dset hq with hq | rfl
      · exact h.1 (List.mem_map.2 ⟨q, hq, e⟩)
      · exact hne e.symm

theorem set_jpre {v x v' : Val} {k : PyStr} (hv : JPre v) (hk : Normal k) (hx : JPre x) (ht : k = P "value" → NoTuple x)
    (h : v.set k x = .ok v') : JN v' := by
  cases v <;> simp only [Val.set, reduceCtorEq] at h
  cases h
  refine ⟨?_, trivial⟩
  simp only [JPre] at hv ⊢
  refine ⟨dset_distinct hv.1, ?_⟩
  rw [jpreD_iff]
  intro kv hm
  rcases mem_dset hm with hm | rfl
  · exact jpreD_iff.1 hv.2 kv hm
  · exact ⟨hk, ht, hx⟩

theorem get_normal {v x : Val} {k : PyStr} (hv : JPre v) (h : v.get k = .ok x) : Normal k := by
  cases v <;> simp only [Val.get, reduceCtorEq] at h
  split at h
  · rename_i heq
    cases h
    simp only [JPre] at hv
    exact (jpreD_iff.1 hv.2 _ (dget_mem heq)).1
  · cases h

theorem path_jpre : ∀ (ks : List PyStr) {v x : Val}, JPre v → v.path ks = .ok x → JPre x
  | [], v, x, hv, h => by cases h; exact hv
  | k :: ks, v, x, hv, h => by
    simp only [Val.path] at h
    split at h
    · rename_i heq; exact path_jpre ks (get_jpre hv heq).1 h
    · cases h

theorem fp_upd {f : Val → Except Err Val} (hf : FP f) : ∀ ks, FP (Val.upd f ks)
  | [] => hf
  | k :: ks => by
    intro v v' hv h
    simp only [Val.upd] at h
    split at h
    · rename_i x hg
      split at h
      · rename_i x' hu
        obtain ⟨h1, h2⟩ := get_jpre hv hg
        obtain ⟨h3, h4⟩ := fp_upd hf ks x x' h1 hu
        have := set_jpre hv (get_normal hv hg) h3 (fun e => h4 (h2 e)) h
        exact ⟨this.1, fun _ => this.2⟩
      · cases h
    · cases h

theorem mapE_jpre {f : Val → Except Err Val} (hf : FP f) : ∀ l l', JPreL l → mapE f l = .ok l' → JPreL l'
  | [], _, _, h => by cases h; simp only [JPreL]
  | a :: t, l', hl, h => by
    simp only [JPreL] at hl
    simp only [mapE] at h
    split at h
    · rename_i b hb
      split at h
      · rename_i bs hbs
        cases h
        simp only [JPreL]
        exact ⟨(hf _ _ hl.1 hb).1, mapE_jpre hf t _ hl.2 hbs⟩
      · cases h
    · cases h

theorem fp_forEach {f : Val → Except Err Val} (hf : FP f) : FP (forEach f) := by
  intro v v' hv h
  unfold forEach at h
  split at h
  · split at h
    · rename_i heq; cases h
      simp only [JPre] at hv
      exact ⟨by simp only [JPre]; exact mapE_jpre hf _ _ hv heq, fun _ => trivial⟩
    · cases h
  · split at h
    · rename_i heq; cases h
      simp only [JPre] at hv
      exact ⟨by simp only [JPre]; exact mapE_jpre hf _ _ hv heq, fun h => h⟩
    · cases h
  · cases h; exact ⟨hv, id⟩
  · cases h; exact ⟨hv, id⟩
  · cases h; exact ⟨hv, id⟩
  · cases h

theorem fp_updAll : ∀ l : List (Val → Except Err Val), (∀ f ∈ l, FP f) → FP (updAll l)
  | [], _ => fun v v' hv h => by cases h; exact ⟨hv, id⟩
  | f :: t, hl => by
    intro v v' hv h
    simp only [updAll] at h
    split at h
    · rename_i w hw
      obtain ⟨h1, h2⟩ := hl f List.mem_cons_self v w hv hw
      obtain ⟨h3, h4⟩ := fp_updAll t (fun g hg => hl g (List.mem_cons_of_mem _ hg)) w v' h1 h
      exact ⟨h3, fun h => h4 (h2 h)⟩
    · cases h

/-- A function from blobs to decoded values. -/
def FB (f : Val → Except Err Val) : Prop := ∀ v v', JPre v → f v = .ok v' → JN v'

theorem fb_run {r : R Val} (h : Ret r JN) : FB fun b => runBlob b r := by
  intro v v' _ he
  unfold runBlob at he
  beta_reduce at he
  split at he
  · cases he
  · split at he
    · rename_i hr; cases he; exact h _ _ _ hr
    · cases he

theorem fb_run' {r : Val → R Val} (h : ∀ b, JPre b → Ret (r b) JN) : FB fun b => runBlob b (r b) :=
  fun v v' hv he => fb_run (h v hv) v v' hv he

theorem fb_empty {d : Val} (hd : JN d) {r : Val → R Val} (h : ∀ b, JPre b → Ret (r b) JN) : FB fun b => emptyOr d b (r b) := by
  intro v v' hv he
  unfold emptyOr at he
  beta_reduce at he
  split at he
  · cases he
  · cases he; exact hd
  · exact fb_run (h v hv) v v' hv he

theorem fp_onValues {f : Val → Except Err Val} (hf : FB f) : FP (onValues f) := by
  intro v v' hv h
  unfold onValues at h
  split at h
  · rename_i b hb
    have := hf b v' (get_jpre hv hb).1 h
    exact ⟨this.1, fun _ => this.2⟩
  · cases h

theorem fp_const {r : Except Err Val} (h : ∀ v, r = .ok v → JN v) : FP fun _ => r := fun _ _ _ he => ⟨(h _ he).1, fun _ => (h _ he).2⟩

theorem jn_emptyValues : JN (dct [("values", .list [])]) := jn_raw (by simp only [JPre, JPreL])

theorem fp_group : FP groupPost1 := by
  intro v v' hv h
  unfold groupPost1 at h
  split at h
  · cases h
  · rename_i gt hg
    exact fp_upd (fp_onValues (fb_run (jr_group (path_jpre _ hv hg)))) _ v v' hv h

theorem fp_campModule (an : Bool) : FP (campModulePost1 an) := by
  intro v v' hv h
  unfold campModulePost1 at h
  split at h
  · cases h
  · rename_i mt hg
    exact fp_upd (fp_onValues (fb_run' fun b hb => jr_campModule an mt hb)) _ v v' hv h

theorem fp_workAssign : FP workAssignPost1 := fp_upd (fp_onValues (fb_run jr_workAssignBytes)) _

theorem fp_work (an : Bool) : FP (workPost1 an) := by
  intro v v' hv h
  unfold workPost1 at h
  split at h
  · cases h
  · rename_i b hb
    split at h
    · cases h
    · rename_i wt _
      split at h
      · cases h
      · rename_i w hw
        have hb := path_jpre _ hv hb
        obtain ⟨h1, h2⟩ := fp_upd (fp_const fun x hx => fb_run (jr_work an wt hb) b x hb hx) _ v w hv hw
        obtain ⟨h3, h4⟩ := fp_upd (fp_forEach fp_workAssign) _ w v' h1 h
        exact ⟨h3, fun h => h4 (h2 h)⟩

theorem fp_moduleMap : FP moduleMapPost1 := by
  intro v v' hv h
  unfold moduleMapPost1 at h
  split at h
  · cases h
  · rename_i mt _
    exact fp_upd (fp_onValues (fb_empty jn_emptyValues fun _ _ => jr_concreteModule mt)) _ v v' hv h

theorem fp_mapObject (an : Bool) {r : R Val} (hr : Ret r JN) : FP (mapObjectPost1 an r) := by
  refine fp_updAll _ ?_
  simp only [List.forall_mem_cons, List.not_mem_nil, false_imp_iff, implies_true, and_true]
  refine ⟨fp_upd (fp_onValues (fb_run (jr_mapModel an))) _,
    fp_upd (fp_onValues (fb_empty jn_emptyValues fun _ _ => jr_connector)) _,
    fp_upd (fp_onValues (fb_run jr_buildProcess)) _, ?_, fp_upd (fp_forEach fp_moduleMap) _⟩
  intro v v' hv h
  beta_reduce at h
  split at h
  · cases h
  · rename_i oid _
    exact fp_upd (fp_onValues (fb_empty jn_emptyValues fun _ hb => jr_concrete an hr oid hb)) _ v v' hv h

theorem fp_debug : FP debugPost := by
  intro v v' hv h
  unfold debugPost at h
  split at h
  · cases h
  · split at h
    · cases h
    · cases h
    · split at h
      · cases h; exact ⟨hv, id⟩
      · cases h

theorem fp_decodeValue {f : Val → Except Err Val} (hf : FB f) : FP (decodeValue f) := fp_upd (fp_onValues hf) _

/-- Every custom decoder keeps values transportable. -/
theorem fp_post (c : CodecId) (an : Bool) {r : R Val} (hr : Ret r JN) : FP (c.post an r) := by
  cases c with
  | group => exact fp_upd (fp_forEach fp_group) _
  | character => exact fp_decodeValue (fb_run (jr_character hr))
  | itemContainer => exact fp_decodeValue (fb_empty jn_none fun _ _ => jr_itemContainer)
  | itemContainerSlots => exact fp_decodeValue (fb_empty jn_none fun _ _ => jr_itemContainerSlots an)
  | characterContainer => exact fp_decodeValue (fb_empty jn_none fun _ _ => jr_charContainer)
  | dynamicItem => exact fp_decodeValue (fb_empty jn_none fun _ _ => jr_dynamicItem an hr)
  | foliageModel => exact fp_decodeValue (fb_run jr_foliageModel)
  | foliageModelInstance => exact fp_decodeValue (fb_run (jr_foliageInstance an))
  | baseCamp => exact fp_decodeValue (fb_run (jr_baseCamp an))
  | workerDirector => exact fp_decodeValue (fb_run (jr_workerDirector an))
  | workCollection => exact fp_decodeValue (fb_run jr_workCollection)
  | baseCampModule => exact fp_upd (fp_forEach (fp_campModule an)) _
  | work => exact fp_upd (fp_forEach (fp_work an)) _
  | mapObject => exact fp_upd (fp_forEach (fp_mapObject an hr)) _
  | debug => exact fp_debug
  | connector => exact fp_decodeValue (fb_empty jn_emptyValues fun _ _ => jr_connector)
  | buildProcess => exact fp_decodeValue (fb_run jr_buildProcess)
  | mapModel => exact fp_decodeValue (fb_run (jr_mapModel an))

/-! ### the property reader -/

theorem jr_structValue (an : Bool) {rec : PyStr → R Val} (hr : ∀ p, Ret (rec p) JN) (st path : PyStr) :
    Ret (rStructValue an rec st path) JN := by
  unfold rStructValue
  have := hr path
  jr_tac'

theorem jr_arrayValue (at_ : PyStr) (count size : Nat) : Ret (rArrayValue at_ count size) JPre := by
  unfold rArrayValue
  have h1 : ∀ {r : R Val}, Ret r JN → Ret (do let l ← rRepeat r count; return .list l : R Val) JPre := fun h =>
    ret_bind' (jr_repeat' h count) fun _ hl => ret_pure (jn1 (jn_list hl))
  exact ret_ite (fun _ => h1 jr_str) fun _ => ret_ite (fun _ => h1 jr_str) fun _ => ret_ite (fun _ => h1 jr_guid) fun _ =>
    ret_ite (fun _ => ret_ite (fun _ => jr_byteList _) fun _ => ret_fail) fun _ => ret_fail

theorem jr_arrayProperty (an : Bool) {rec : PyStr → R Val} (hr : ∀ p, Ret (rec p) JN) (at_ : PyStr) (size : Nat) (path : PyStr) :
    Ret (rArrayProperty an rec at_ size path) JN := by
  unfold rArrayProperty
  have h1 := jr_structValue an hr
  have h2 := jr_arrayValue
  refine ret_bind' jr_u32 fun count _ => ret_ite (fun _ => ?_) fun _ => ?_
  · refine ret_bind' jr_fstring fun pn _ => ret_bind' jr_fstring fun pt _ => ret_bind' jr_u64 fun _ _ => ret_bind' jr_fstring fun tn _ =>
      ret_bind' jr_guid fun id _ => ret_bind fun _ => ret_bind' (jr_repeat' (h1 _ _) count) fun vs _ => ret_pure ?_
    jv
  · exact ret_bind' (h2 _ _ _) fun v hv => ret_pure (jn_raw hv)

theorem jr_propValue (an : Bool) {rec : PyStr → R Val} (hr : ∀ p, Ret (rec p) JN) (ty st path : PyStr) :
    Ret (rPropValue an rec ty st path) JN := by
  unfold rPropValue
  have h1 := jr_structValue an hr st path
  have h2 := jr_i32Val
  jr_tac'

theorem jr_mapEntry (an : Bool) {rec : PyStr → R Val} (hr : ∀ p, Ret (rec p) JN) (kt ks vt vs kp vp : PyStr) :
    Ret (rMapEntry an rec kt ks vt vs kp vp) JN := by
  unfold rMapEntry
  have h1 := jr_propValue an hr kt ks kp
  have h2 := jr_propValue an hr vt vs vp
  jr_tac'

theorem jn_structType {ty st : PyStr} (h : Normal st) : JN (structTypeVal ty st) := by
  unfold structTypeVal
  split
  · exact jn_str h
  · exact jn_none

theorem getTypeOr_normal {cfg : Cfg} (hc : CfgJson cfg) {path d : PyStr} (hd : Normal d) : Normal (getTypeOr cfg path d) := by
  unfold getTypeOr
  cases h : cfg.hint path with
  | none => exact hd
  | some t => exact hc.hint _ _ h

theorem jr_map {cfg : Cfg} (hc : CfgJson cfg) {rec : PyStr → R Val} (hr : ∀ p, Ret (rec p) JN) (path : PyStr) :
    Ret (rMap cfg rec path) JN := by
  unfold rMap
  refine ret_bind' jr_fstring fun kt _ => ret_bind' jr_fstring fun vt _ => ret_bind' jr_optGuid fun id _ => ret_bind' jr_u32 fun _ _ =>
    ret_bind' jr_u32 fun count _ => ret_bind' (jr_repeat' (jr_mapEntry _ hr _ _ _ _ _ _) _) fun l _ => ret_pure ?_
  have h1 : JN (structTypeVal kt (getTypeOr cfg (path ++ P ".Key") (P "Guid"))) :=
    jn_structType (getTypeOr_normal hc (by decide +kernel))
  have h2 : JN (structTypeVal vt (getTypeOr cfg (path ++ P ".Value") (P "StructProperty"))) :=
    jn_structType (getTypeOr_normal hc (by decide +kernel))
  jv

theorem jr_idValue {x : R Val} (h : Ret x JN) : Ret (rIdValue x) JN := by unfold rIdValue; jr_tac'

theorem jr_plainBody {cfg : Cfg} (hc : CfgJson cfg) {rec : PyStr → R Val} (hr : ∀ p, Ret (rec p) JN) (ty : PyStr) (size : Nat)
    (path : PyStr) : Ret (rPlainBody cfg rec ty size path) JN := by
  unfold rPlainBody rStruct rEnum rBoolProp rArrayProp
  have h1 := fun st => jr_structValue cfg.allowNan hr st path
  have h2 := jr_map hc hr path
  have h3 := fun at_ => jr_arrayProperty cfg.allowNan hr at_ size path
  have h4 := jr_idValue jr_i32Val
  have h5 := jr_idValue jr_i64Val
  have h6 := jr_idValue (jr_float cfg.allowNan)
  have h7 := jr_idValue jr_str
  repeat (any_goals first | exact h1 _ | exact h3 _ | jr_step)

theorem ret_lift {α : Type} {x : Except Err α} {Q : α → Prop} (h : ∀ a, x = .ok a → Q a) : Ret (rLift x) Q :=
  fun _ _ _ hr => h _ (rLift_inv hr).1

theorem jr_plain {cfg : Cfg} (hc : CfgJson cfg) {rec : PyStr → R Val} (hr : ∀ p, Ret (rec p) JN) {ty : PyStr} (ht : Normal ty) (size : Nat)
    (path : PyStr) : Ret (rPlain cfg rec ty size path) JN := by
  unfold rPlain
  refine ret_bind' (jr_plainBody hc hr ty size path) fun v hv => ret_lift fun w hw => ?_
  exact set_jpre hv.1 (by decide +kernel) (jn1 (jn_str ht)) (fun _ => trivial) hw

theorem jr_property {cfg : Cfg} (hc : CfgJson cfg) {rec : PyStr → R Val} (hr : ∀ p, Ret (rec p) JN) {ty : PyStr} (ht : Normal ty)
    (size : Nat) (path : PyStr) : Ret (rProperty cfg rec ty size path) JN := by
  unfold rProperty
  cases hcp : cfg.custom path with
  | none => exact jr_plain hc hr ht size path
  | some c =>
    simp only
    refine ret_ite (fun _ => ?_) fun _ => ret_fail
    refine ret_bind' (jr_plain hc hr ht size path) fun v hv => ret_bind' (S := JN) (ret_lift fun w hw => ?_) fun w hw =>
      ret_bind' (S := JN) (ret_lift fun x hx => ?_) fun x hx => ret_lift fun y hy => ?_
    · obtain ⟨h1, h2⟩ := fp_post c _ (hr []) v w hv.1 hw
      exact ⟨h1, h2 hv.2⟩
    · exact set_jpre hw.1 (by decide +kernel) (jn1 (jn_str (hc.custom _ _ hcp))) (fun _ => trivial) hx
    · exact set_jpre hx.1 (by decide +kernel) (jn1 (jn_str ht)) (fun _ => trivial) hy

theorem jr_loop {cfg : Cfg} (hc : CfgJson cfg) : ∀ n path acc, JN (.dict acc) → Ret (rPropsLoop cfg n path acc) JN
  | 0, _, _, _ => ret_fail
  | n + 1, path, acc, ha => by
    unfold rPropsLoop
    refine ret_bind' jr_fstring fun name hn => ret_ite (fun _ => ret_pure ha) fun _ => ?_
    refine ret_bind' jr_fstring fun ty ht => ret_bind fun size => ?_
    refine ret_bind' (jr_property hc (fun p => jr_loop hc n p [] (jn_kd (kd_nil (ks := [])))) ht size _) fun v hv => ?_
    exact jr_loop hc n path _ (set_jpre (v := .dict acc) ha.1 hn hv.1 (fun _ => hv.2) rfl)

/-! ### files -/

theorem hdr_jpre : Ret hdrRead fun h => JN h.dump := by
  unfold hdrRead
  have h1 : Ret customVersionDecode JPre := by
    unfold customVersionDecode
    refine ret_bind' jr_guid fun g hg => ret_bind fun v => ret_pure ?_
    simp only [JPre, JPreL, and_true]
    exact hg.1
  refine ret_bind fun _ => ret_ite (fun _ => ret_fail) fun _ => ret_bind fun _ => ret_ite (fun _ => ret_fail) fun _ =>
    ret_bind fun _ => ret_bind fun _ => ret_bind fun _ => ret_bind fun _ => ret_bind fun _ => ret_bind fun _ =>
    ret_bind' jr_str fun br _ => ret_bind fun _ => ret_ite (fun _ => ret_fail) fun _ =>
    ret_bind' (S := JN) (ret_bind fun _ => ret_bind' (jr_repeat h1 _) fun l hl => ret_pure (jn_list hl)) fun cv _ =>
    ret_bind' jr_str fun cn _ => ret_pure ?_
  unfold Hdr.dump
  jv

/-- Whatever the file, its dump only has floats and truncated GUIDs that JSON may not transport. -/
theorem file_jpre {cfg : Cfg} (hc : CfgJson cfg) {data : Bytes} {g : Gvas} (h : gvasRead cfg data = .ok g) : JPre g.dump := by
  unfold gvasRead at h
  split at h
  · rename_i hr
    cases h
    unfold gvasReadR at hr
    obtain ⟨hd, s1, h1, hr⟩ := r_bind_inv hr
    obtain ⟨v, s2, h2, hr⟩ := r_bind_inv hr
    obtain ⟨t, s3, h3, hr⟩ := r_bind_inv hr
    obtain ⟨rfl, rfl⟩ := r_pure_inv hr
    have g1 := hdr_jpre _ _ _ h1
    have g2 := jr_loop hc _ _ _ (jn_kd (kd_nil (ks := []))) _ _ _ h2
    have g3 := b64Encode_normal t
    unfold Gvas.dump
    simp only
    jv
  · cases h

/-! ### what is left -/

theorem uuidStr_len {raw s : _} (h : uuidStr raw = .ok s) : 16 ≤ raw.length := by
  unfold uuidStr at h
  split at h
  · simp only [List.length_cons]; omega
  · cases h

mutual
theorem jok_of (an : Bool) : ∀ (v w : Val), JPre v → OneNaN v → jsonRT an v = .ok w → JOk an v
  | .none, _, _, _, _ => by simp only [JOk]
  | .bool _, _, _, _, _ => by simp only [JOk]
  | .int _, _, _, _, _ => by simp only [JOk]
  | .float b, w, _, hn, h => by
    simp only [OneNaN] at hn
    simp only [jsonRT, jsonFloat] at h
    simp only [JOk]
    refine ⟨fun h1 => ⟨?_, hn h1⟩, fun h1 => ?_⟩
    · rw [if_pos ((isNaN64_iff b).2 h1)] at h
      cases an
      · cases h
      · rfl
    · by_cases h2 : isNaN64 b = true
      · rw [if_pos h2] at h
        cases an
        · cases h
        · rfl
      · rw [if_neg h2, if_pos ((isInf64_iff b).2 h1)] at h
        cases an
        · cases h
        · rfl
  | .str s, _, hv, _, _ => by simpa only [JOk, JPre] using hv
  | .bytes _, _, hv, _, _ => by simp only [JPre] at hv
  | .uuid r, w, hv, _, h => by
    simp only [JPre] at hv
    simp only [jsonRT] at h
    simp only [JOk]
    split at h
    · rename_i hu; have := uuidStr_len hu; omega
    · cases h
  | .list l, w, hv, hn, h => by
    simp only [JPre] at hv
    simp only [OneNaN] at hn
    simp only [jsonRT] at h
    simp only [JOk]
    split at h
    · exact jok_ofL an l _ hv hn (by assumption)
    · cases h
  | .tuple l, w, hv, hn, h => by
    simp only [JPre] at hv
    simp only [OneNaN] at hn
    simp only [jsonRT] at h
    simp only [JOk]
    split at h
    · exact jok_ofL an l _ hv hn (by assumption)
    · cases h
  | .dict d, w, hv, hn, h => by
    simp only [JPre] at hv
    simp only [OneNaN] at hn
    simp only [jsonRT] at h
    simp only [JOk]
    split at h
    · exact ⟨hv.1, jok_ofD an d _ hv.2 hn (by assumption)⟩
    · cases h
theorem jok_ofL (an : Bool) : ∀ (l w : List Val), JPreL l → OneNaNL l → jsonRTL an l = .ok w → JOkL an l
  | [], _, _, _, _ => by simp only [JOkL]
  | v :: t, w, hv, hn, h => by
    simp only [JPreL] at hv
    simp only [OneNaNL] at hn
    simp only [jsonRTL] at h
    simp only [JOkL]
    split at h
    · cases h
    · rename_i h1
      split at h
      · cases h
      · rename_i h2
        exact ⟨jok_of an v _ hv.1 hn.1 h1, jok_ofL an t _ hv.2 hn.2 h2⟩
theorem jok_ofD (an : Bool) : ∀ (d w : List (PyStr × Val)), JPreD d → OneNaND d → jsonRTD an d = .ok w → JOkD an d
  | [], _, _, _, _ => by simp only [JOkD]
  | (k, v) :: t, w, hv, hn, h => by
    simp only [JPreD] at hv
    simp only [OneNaND] at hn
    simp only [jsonRTD] at h
    simp only [JOkD]
    split at h
    · cases h
    · rename_i h1
      split at h
      · cases h
      · rename_i h2
        exact ⟨hv.1, hv.2.1, jok_of an v _ hv.2.2.1 hn.1 h1, jok_ofD an t _ hv.2.2.2 hn.2 h2⟩
end

end Pal
