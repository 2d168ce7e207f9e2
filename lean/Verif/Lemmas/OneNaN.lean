import Verif.Lemmas.JsonTree
import Verif.Lemmas.InvertTree
/-
NaNs through JSON: every NaN becomes the standard one.  A document with other NaNs has the
same JSON as the document with standard NaNs, and if it is the value of a tree, the other
document is the value of a tree that JSON transports.
-/

namespace Pal.NaNs
open Pal Spec

/-! ### values -/

/-- The standard NaN for every NaN. -/
def oneF (b : BitVec 64) : BitVec 64 := if NaN64 b then qnan64 else b

mutual
/-- The value with standard NaNs. -/
def oneNaN : Val → Val
  | .float b => .float (oneF b)
  | .list l => .list (oneNaNL l)
  | .tuple l => .tuple (oneNaNL l)
  | .dict d => .dict (oneNaND d)
  | v => v
def oneNaNL : List Val → List Val
  | [] => []
  | v :: t => oneNaN v :: oneNaNL t
def oneNaND : List (PyStr × Val) → List (PyStr × Val)
  | [] => []
  | (k, v) :: t => (k, oneNaN v) :: oneNaND t
end

theorem nan_q : NaN64 qnan64 := by decide +kernel

theorem oneF_json (b : BitVec 64) : jsonFloat true (oneF b) = jsonFloat true b := by
  unfold oneF
  split
  · rename_i h
    unfold jsonFloat
    rw [if_pos ((isNaN64_iff _).2 nan_q), if_pos ((isNaN64_iff _).2 h)]
  · rfl

mutual
theorem oneNaN_json : ∀ v, jsonRT true (oneNaN v) = jsonRT true v
  | .float b => by simp only [oneNaN, jsonRT, oneF_json]
  | .list l => by simp only [oneNaN, jsonRT, oneNaNL_json l]
  | .tuple l => by simp only [oneNaN, jsonRT, oneNaNL_json l]
  | .dict d => by simp only [oneNaN, jsonRT, oneNaND_json d]
  | .none | .bool _ | .int _ | .str _ | .bytes _ | .uuid _ => by simp only [oneNaN]
theorem oneNaNL_json : ∀ l, jsonRTL true (oneNaNL l) = jsonRTL true l
  | [] => by simp only [oneNaNL]
  | v :: t => by simp only [oneNaNL, jsonRTL, oneNaN_json v, oneNaNL_json t]
theorem oneNaND_json : ∀ d, jsonRTD true (oneNaND d) = jsonRTD true d
  | [] => by simp only [oneNaND]
  | (k, v) :: t => by simp only [oneNaND, jsonRTD, oneNaN_json v, oneNaND_json t]
end

theorem oneNaND_keys : ∀ d : Dict, (oneNaND d).map Prod.fst = d.map Prod.fst
  | [] => by simp only [oneNaND]
  | (k, v) :: t => by simp only [oneNaND, List.map_cons, oneNaND_keys t]

theorem oneNaND_map (l : List (String × Val)) :
    oneNaND (l.map fun q => (P q.1, q.2)) = (l.map fun q => (q.1, oneNaN q.2)).map fun q => (P q.1, q.2) := by
  induction l with
  | nil => simp only [List.map_nil, oneNaND]
  | cons a t ih => simp only [List.map_cons, oneNaND, ih]

theorem oneNaN_vDict (l : List (String × Val)) : oneNaN (vDict l) = vDict (l.map fun q => (q.1, oneNaN q.2)) := by
  simp only [vDict, oneNaN, oneNaND_map]

theorem oneNaNL_map {α : Type} {f g : α → Val} (h : ∀ a, oneNaN (f a) = g a) (l : List α) : oneNaNL (l.map f) = l.map g := by
  induction l with
  | nil => simp only [List.map_nil, oneNaNL]
  | cons a t ih => simp only [List.map_cons, oneNaNL, ih, h]

theorem one_vStr (s : Str) : oneNaN (vStr s) = vStr s := by simp only [vStr, oneNaN]
theorem one_guid (s : Guid) : oneNaN (vGuid s) = vGuid s := by simp only [vGuid, oneNaN]
theorem one_opt (s : Option Guid) : oneNaN (vOptGuid s) = vOptGuid s := by cases s <;> simp only [vOptGuid, oneNaN]
theorem one_str (s : PyStr) : oneNaN (.str s) = .str s := by simp only [oneNaN]
theorem one_i {w : Nat} (n : BitVec w) : oneNaN (vI n) = vI n := by simp only [vI, oneNaN]
theorem one_u {w : Nat} (n : BitVec w) : oneNaN (vU n) = vU n := by simp only [vU, oneNaN]
theorem one_bool (b : Bool) : oneNaN (vBool b) = vBool b := by simp only [vBool, oneNaN]
theorem one_structType (ty : Str) (st : PyStr) : oneNaN (vStructType ty st) = vStructType ty st := by
  unfold vStructType; split <;> simp only [oneNaN]
theorem one_bytesT (b : Bytes) : oneNaN (vBytesT b) = vBytesT b := by
  simp only [vBytesT, oneNaN]
  rw [oneNaNL_map (g := fun x => .int x.toNat)]
  intro a; simp only [oneNaN]

/-! ### trees -/

def one64 (f : F64 rawMode) : F64 jsonMode :=
  if h : NaN64 f.val then ⟨qnan64, by refine ⟨?_, fun _ _ => ⟨rfl, rfl⟩⟩; intro h; cases h⟩
  else ⟨f.val, by refine ⟨?_, fun _ h' => (h h').elim⟩; intro h; cases h⟩

theorem notS_q : ¬ SNaN32 qnan32 := by
  unfold SNaN32
  rintro ⟨-, h⟩
  revert h
  decide +kernel

def one32 (f : F32 rawMode) : F32 jsonMode :=
  if h : NaN32 f.val then ⟨qnan32, by refine ⟨notS_q, ?_, fun _ _ => ⟨rfl, rfl⟩⟩; intro h; cases h⟩
  else ⟨f.val, by refine ⟨f.2.1, ?_, fun _ h' => (h h').elim⟩; intro h; cases h⟩

theorem one_f64 (f : F64 rawMode) : oneNaN (vF64 f) = vF64 (one64 f) := by
  simp only [vF64, oneNaN, oneF, one64]
  split <;> rfl

theorem one_f32 (f : F32 rawMode) : oneNaN (vF32 f) = vF32 (one32 f) := by
  have h1 := (f32to64_class f.val).1
  simp only [vF32, oneNaN, oneF, one32]
  by_cases h : NaN32 f.val
  · rw [if_pos (h1.2 h), dif_pos h]
    have : f32to64 qnan32 = qnan64 := by decide +kernel
    rw [this]
  · rw [if_neg (fun h' => h (h1.1 h')), dif_neg h]

def oneVec (v : Vec rawMode) : Vec jsonMode := ⟨one64 v.x, one64 v.y, one64 v.z⟩
def oneQuat (v : Quat rawMode) : Quat jsonMode := ⟨one64 v.x, one64 v.y, one64 v.z, one64 v.w⟩

theorem one_vec (v : Vec rawMode) : oneNaN (vVec v) = vVec (oneVec v) := by
  simp only [vVec, oneNaN_vDict, List.map_cons, List.map_nil, one_f64, oneVec]
theorem one_quat (v : Quat rawMode) : oneNaN (vQuat v) = vQuat (oneQuat v) := by
  simp only [vQuat, oneNaN_vDict, List.map_cons, List.map_nil, one_f64, oneQuat]

def oneOthers : Others rawMode → Others jsonMode
  | .ints l => .ints l
  | .int64s l => .int64s l
  | .floats l => .floats (l.map one32)
  | .strs l => .strs l
  | .bools l => .bools l
  | .nothing t => .nothing t

mutual
/-- The tree with standard NaNs. -/
def oneS : SVal rawMode → SVal jsonMode
  | .vector v => .vector (oneVec v)
  | .dateTime n => .dateTime n
  | .guid g => .guid g
  | .quat q => .quat (oneQuat q)
  | .color r g b a => .color (one32 r) (one32 g) (one32 b) (one32 a)
  | .props ps => .props (oneProps ps)
def oneM : MVal rawMode → MVal jsonMode
  | .struct s => .struct (oneS s)
  | .enum s => .enum s
  | .name s => .name s
  | .int n => .int n
  | .bool b => .bool b
def oneP : PropT rawMode → PropT jsonMode
  | .struct st sid id v => .struct st sid id (oneS v)
  | .int id n => .int id n
  | .int64 id n => .int64 id n
  | .fixed64 id n => .fixed64 id n
  | .float id f => .float id (one32 f)
  | .str id s => .str id s
  | .name id s => .name id s
  | .enum et id s => .enum et id s
  | .bool b id => .bool b id
  | .enums id l => .enums id l
  | .names id l => .names id l
  | .guids id l => .guids id l
  | .bytes id b => .bytes id b
  | .others id o => .others id (oneOthers o)
  | .structs id pn pt tn gid l => .structs id pn pt tn gid (oneSs l)
  | .map kt vt id l => .map kt vt id (oneEs l)
def oneSs : List (SVal rawMode) → List (SVal jsonMode)
  | [] => []
  | v :: t => oneS v :: oneSs t
def oneEs : List (MVal rawMode × MVal rawMode) → List (MVal jsonMode × MVal jsonMode)
  | [] => []
  | (k, v) :: t => (oneM k, oneM v) :: oneEs t
def oneProps : List (Str × PropT rawMode) → List (Str × PropT jsonMode)
  | [] => []
  | (n, p) :: t => (n, oneP p) :: oneProps t
end

theorem oneSs_len : ∀ l, (oneSs l).length = l.length
  | [] => by simp only [oneSs]; rfl
  | v :: t => by simp only [oneSs, List.length_cons, oneSs_len t]
theorem oneEs_len : ∀ l, (oneEs l).length = l.length
  | [] => by simp only [oneEs]; rfl
  | (k, v) :: t => by simp only [oneEs, List.length_cons, oneEs_len t]
theorem oneProps_keys : ∀ l, (oneProps l).map Prod.fst = l.map Prod.fst
  | [] => by simp only [oneProps]; rfl
  | (k, v) :: t => by simp only [oneProps, List.map_cons, oneProps_keys t]

theorem oneM_type (v : MVal rawMode) : (oneM v).type = v.type := by cases v <;> simp only [oneM, MVal.type]
theorem oneP_type (v : PropT rawMode) : (oneP v).type = v.type := by cases v <;> simp only [oneP, PropT.type]
theorem oneS_fits (v : SVal rawMode) (st : PyStr) : (oneS v).Fits st ↔ v.Fits st := by
  cases v <;> simp only [oneS, SVal.Fits]

variable {cfg : Cfg}

mutual
theorem oneS_wf : ∀ (v : SVal rawMode) (path : PyStr), v.Wf cfg noCustom path → (oneS v).Wf cfg noCustom path
  | .props ps, path, h => by
    simp only [SVal.Wf] at h
    simp only [oneS, SVal.Wf]
    exact ⟨by rw [oneProps_keys]; exact h.1, oneProps_wf ps path h.2⟩
  | .vector _, _, _ | .dateTime _, _, _ | .guid _, _, _ | .quat _, _, _ | .color .., _, _ => by simp only [oneS, SVal.Wf]
theorem oneM_wf : ∀ (v : MVal rawMode) (path st : PyStr), v.Wf cfg noCustom path st → (oneM v).Wf cfg noCustom path st
  | .struct s, path, st, h => by
    simp only [MVal.Wf] at h
    simp only [oneM, MVal.Wf]
    exact ⟨(oneS_fits s st).2 h.1, oneS_wf s path h.2⟩
  | .enum _, _, _, _ | .name _, _, _, _ | .int _, _, _, _ | .bool _, _, _, _ => by simp only [oneM, MVal.Wf]
theorem oneP_wf : ∀ (v : PropT rawMode) (path : PyStr), v.Wf cfg noCustom path → (oneP v).Wf cfg noCustom path
  | .struct st _ _ v, path, h => by
    simp only [PropT.Wf] at h
    simp only [oneP, PropT.Wf]
    exact ⟨(oneS_fits v _).2 h.1, oneS_wf v path h.2⟩
  | .enums .., _, h | .names .., _, h | .guids .., _, h | .bytes .., _, h => by
    simp only [PropT.Wf] at h
    simp only [oneP, PropT.Wf]
    exact h
  | .others .., _, h => by simp only [PropT.Wf] at h
  | .structs _ pn _ tn _ l, path, h => by
    simp only [PropT.Wf] at h
    simp only [oneP, PropT.Wf]
    exact ⟨by rw [oneSs_len]; exact h.1, oneSs_wf l _ _ h.2⟩
  | .map kt vt _ l, path, h => by
    simp only [PropT.Wf] at h
    simp only [oneP, PropT.Wf]
    exact ⟨by rw [oneEs_len]; exact h.1, oneEs_wf l _ _ _ h.2⟩
  | .int .., _, _ | .int64 .., _, _ | .fixed64 .., _, _ | .float .., _, _ | .str .., _, _ | .name .., _, _ | .enum .., _, _
  | .bool .., _, _ => by simp only [oneP, PropT.Wf]
theorem oneSs_wf : ∀ (l : List (SVal rawMode)) (path st : PyStr), wfSVals cfg noCustom path st l →
    wfSVals cfg noCustom path st (oneSs l)
  | [], _, _, _ => by simp only [oneSs, wfSVals]
  | v :: t, path, st, h => by
    simp only [wfSVals] at h
    simp only [oneSs, wfSVals]
    exact ⟨(oneS_fits v _).2 h.1, oneS_wf v path h.2.1, oneSs_wf t path st h.2.2⟩
theorem oneEs_wf : ∀ (l : List (MVal rawMode × MVal rawMode)) (path kt vt : PyStr), wfEntries cfg noCustom path kt vt l →
    wfEntries cfg noCustom path kt vt (oneEs l)
  | [], _, _, _, _ => by simp only [oneEs, wfEntries]
  | (k, v) :: t, path, kt, vt, h => by
    simp only [wfEntries] at h
    simp only [oneEs, wfEntries, oneM_type]
    exact ⟨h.1, oneM_wf k _ _ h.2.1, h.2.2.1, oneM_wf v _ _ h.2.2.2.1, oneEs_wf t path kt vt h.2.2.2.2⟩
theorem oneProps_wf : ∀ (l : List (Str × PropT rawMode)) (path : PyStr), wfProps cfg noCustom path l →
    wfProps cfg noCustom path (oneProps l)
  | [], _, _ => by simp only [oneProps, wfProps]
  | (n, p) :: t, path, h => by
    simp only [wfProps] at h
    simp only [oneProps, wfProps]
    refine ⟨h.1, ?_, oneProps_wf t path h.2.2⟩
    have h2 := h.2.1
    split at h2
    · exact oneP_wf p _ h2
    · exact h2.2.1.elim
end

theorem one_entries (path : PyStr) (x y : Val) (h : oneNaN x = y) (p : PropT rawMode) :
    oneNaN (vDict (p.entries cfg path x)) = vDict ((oneP p).entries cfg path y) := by
  subst h
  rw [oneNaN_vDict]
  cases p
  case others id o => cases o <;>
    simp only [oneP, oneOthers, Others.type, PropT.entries, List.map_cons, List.map_nil, one_str, one_opt]
  all_goals simp only [oneP, PropT.entries, List.map_cons, List.map_nil, one_vStr, one_guid, one_opt, one_str, one_structType]

mutual
theorem oneS_val : ∀ (v : SVal rawMode) (path : PyStr), v.Wf cfg noCustom path →
    oneNaN (v.val cfg plainK path) = (oneS v).val cfg plainK path
  | .vector v, _, _ => by simp only [oneS, SVal.val, one_vec]
  | .dateTime n, _, _ => by simp only [oneS, SVal.val, one_u]
  | .guid n, _, _ => by simp only [oneS, SVal.val, one_guid]
  | .quat n, _, _ => by simp only [oneS, SVal.val, one_quat]
  | .color .., _, _ => by simp only [oneS, SVal.val, oneNaN_vDict, List.map_cons, List.map_nil, one_f32]
  | .props ps, path, h => by
    simp only [SVal.Wf] at h
    simp only [oneS, SVal.val, oneNaN, oneProps_val ps path h.2]
theorem oneM_val : ∀ (v : MVal rawMode) (path st : PyStr), v.Wf cfg noCustom path st →
    oneNaN (v.val cfg plainK path) = (oneM v).val cfg plainK path
  | .struct s, path, st, h => by
    simp only [MVal.Wf] at h
    simp only [oneM, MVal.val, oneS_val s path h.2]
  | .enum _, _, _, _ | .name _, _, _, _ => by simp only [oneM, MVal.val, one_vStr]
  | .int _, _, _, _ => by simp only [oneM, MVal.val, one_i]
  | .bool _, _, _, _ => by simp only [oneM, MVal.val, one_bool]
theorem oneP_val : ∀ (v : PropT rawMode) (path : PyStr), v.Wf cfg noCustom path →
    oneNaN (v.val cfg plainK path) = (oneP v).val cfg plainK path
  | .struct st _ _ v, path, h => by
    simp only [PropT.Wf] at h
    simp only [oneP, PropT.val, oneS_val v path h.2]
  | .int .., _, _ | .int64 .., _, _ | .fixed64 .., _, _ => by simp only [oneP, PropT.val, one_i]
  | .float .., _, _ => by simp only [oneP, PropT.val, one_f32]
  | .str .., _, _ | .name .., _, _ => by simp only [oneP, PropT.val, one_vStr]
  | .enum .., _, _ => by simp only [oneP, PropT.val, oneNaN_vDict, List.map_cons, List.map_nil, one_vStr]
  | .bool .., _, _ => by simp only [oneP, PropT.val, one_bool]
  | .enums .., _, _ | .names .., _, _ => by
    simp only [oneP, PropT.val, oneNaN_vDict, List.map_cons, List.map_nil, oneNaN, oneNaNL_map one_vStr]
  | .guids .., _, _ => by
    simp only [oneP, PropT.val, oneNaN_vDict, List.map_cons, List.map_nil, oneNaN, oneNaNL_map one_guid]
  | .bytes .., _, _ => by simp only [oneP, PropT.val, oneNaN_vDict, List.map_cons, List.map_nil, one_bytesT]
  | .others .., _, h => by simp only [PropT.Wf] at h
  | .structs _ pn _ tn _ l, path, h => by
    simp only [PropT.Wf] at h
    simp only [oneP, PropT.val, oneNaN_vDict, List.map_cons, List.map_nil, oneNaN, one_vStr, one_guid, oneSs_val l _ _ h.2]
  | .map kt vt _ l, path, h => by
    simp only [PropT.Wf] at h
    simp only [oneP, PropT.val, oneNaN, oneEs_val l path _ _ h.2]
theorem oneSs_val : ∀ (l : List (SVal rawMode)) (path st : PyStr), wfSVals cfg noCustom path st l →
    oneNaNL (valSVals cfg plainK path l) = valSVals cfg plainK path (oneSs l)
  | [], _, _, _ => by simp only [oneSs, valSVals, oneNaNL]
  | v :: t, path, st, h => by
    simp only [wfSVals] at h
    simp only [oneSs, valSVals, oneNaNL, oneS_val v path h.2.1, oneSs_val t path st h.2.2]
theorem oneEs_val : ∀ (l : List (MVal rawMode × MVal rawMode)) (path kt vt : PyStr), wfEntries cfg noCustom path kt vt l →
    oneNaNL (valEntries cfg plainK path l) = valEntries cfg plainK path (oneEs l)
  | [], _, _, _, _ => by simp only [oneEs, valEntries, oneNaNL]
  | (k, v) :: t, path, kt, vt, h => by
    simp only [wfEntries] at h
    simp only [oneEs, valEntries, oneNaNL, oneNaN_vDict, List.map_cons, List.map_nil, oneM_val k _ _ h.2.1,
      oneM_val v _ _ h.2.2.2.1, oneEs_val t path kt vt h.2.2.2.2]
theorem oneProps_val : ∀ (l : List (Str × PropT rawMode)) (path : PyStr), wfProps cfg noCustom path l →
    oneNaND (valProps cfg plainK path l) = valProps cfg plainK path (oneProps l)
  | [], _, _ => by simp only [oneProps, valProps, oneNaND]
  | (n, p) :: t, path, h => by
    simp only [wfProps] at h
    have h2 := h.2.1
    simp only [oneProps, valProps, oneNaND, oneProps_val t path h.2.2, showProp]
    split at h2
    · rw [one_entries _ _ _ (oneP_val p _ h2)]
    · exact h2.2.1.elim
end

/-! ### lengths -/

theorem one64_len (f : F64 rawMode) : (eF64 (one64 f)).length = (eF64 f).length := by simp only [eF64, lit_length]
theorem one32_len (f : F32 rawMode) : (eF32 (one32 f)).length = (eF32 f).length := by simp only [eF32, lit_length]

theorem oneP_head (p : PropT rawMode) : (oneP p).head = p.head := by
  cases p
  case others id o => cases o <;> simp only [oneP, oneOthers, PropT.head, Others.type]
  all_goals simp only [oneP, PropT.head]

mutual
theorem oneS_len : ∀ v : SVal rawMode, (oneS v).enc.length = v.enc.length
  | .vector v => by simp only [oneS, SVal.enc, eVec, oneVec, List.length_append, one64_len]
  | .dateTime _ | .guid _ => by simp only [oneS, SVal.enc]
  | .quat v => by simp only [oneS, SVal.enc, eQuat, oneQuat, List.length_append, one64_len]
  | .color .. => by simp only [oneS, SVal.enc, List.length_append, one32_len]
  | .props ps => by simp only [oneS, SVal.enc, oneProps_len ps]
theorem oneM_len : ∀ v : MVal rawMode, (oneM v).enc.length = v.enc.length
  | .struct s => by simp only [oneM, MVal.enc, oneS_len s]
  | .enum _ | .name _ | .int _ | .bool _ => by simp only [oneM, MVal.enc]
theorem oneP_len : ∀ v : PropT rawMode, (oneP v).tail.length = v.tail.length
  | .struct _ _ _ v => by simp only [oneP, PropT.tail, oneS_len v]
  | .float .. => by simp only [oneP, PropT.tail, one32_len]
  | .others _ o => by
    cases o <;> simp only [oneP, oneOthers, PropT.tail, Others.enc]
    simp only [List.length_append, lit_length, List.flatMap_map, List.length_flatMap, one32_len]
  | .structs _ _ _ _ _ l => by simp only [oneP, PropT.tail, List.length_append, lit_length, listS_len l]
  | .map _ _ _ l => by simp only [oneP, PropT.tail, List.length_append, lit_length, listE_len l]
  | .int .. | .int64 .. | .fixed64 .. | .str .. | .name .. | .enum .. | .bool .. | .enums .. | .names .. | .guids ..
  | .bytes .. => by simp only [oneP, PropT.tail]
theorem listS_len : ∀ l : List (SVal rawMode), (encSVals (oneSs l)).length = (encSVals l).length
  | [] => by simp only [oneSs, encSVals]
  | v :: t => by simp only [oneSs, encSVals, List.length_append, oneS_len v, listS_len t]
theorem listE_len : ∀ l : List (MVal rawMode × MVal rawMode), (encEntries (oneEs l)).length = (encEntries l).length
  | [] => by simp only [oneEs, encEntries]
  | (k, v) :: t => by simp only [oneEs, encEntries, List.length_append, oneM_len k, oneM_len v, listE_len t]
theorem oneProps_len : ∀ l : List (Str × PropT rawMode), (encProps (oneProps l)).length = (encProps l).length
  | [] => by simp only [oneProps, encProps]
  | (n, p) :: t => by
    simp only [oneProps, encProps, List.length_append, lit_length, oneP_type, oneP_head, oneP_len p, oneProps_len t]
end

end Pal.NaNs
