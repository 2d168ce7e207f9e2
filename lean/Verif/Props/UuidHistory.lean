import Verif.Model.UuidObj
import Verif.Props.Uuid
/-
C53: the values kept inside a UUID object cannot be observed.
-/

namespace Pal
open Spec

/-- What one use shows, as a function of the raw bytes of the objects alone (this is also the
class without kept values, archive.py:113-188, except for its hash). -/
def UuidOp.pure (h : PyStr → Int) (raws : List Bytes) : UuidOp → UuidObs
  | .new _ => .done
  | .str i => match raws[i]? with
    | none => .done
    | some r => .text (uuidStr r)
  | .std i => match raws[i]? with
    | none => .done
    | some r => .num (uuidInt r)
  | .eq i j => match raws[i]?, raws[j]? with
    | some a, some b => .bool (.ok (uuidEq a b))
    | _, _ => .done
  | .eqText i s => match raws[i]? with
    | none => .done
    | some r => .bool (uuidEqStr r s)
  | .hash i => match raws[i]? with
    | none => .done
    | some r => .code (uuidHash h r)

/-- The raw bytes of the objects after a use: only a creation adds to them. -/
def UuidOp.raws (raws : List Bytes) : UuidOp → List Bytes
  | .new raw => raws ++ [raw]
  | _ => raws

/-- What a program without kept values sees. -/
def uuidPure (h : PyStr → Int) : List Bytes → List UuidOp → List UuidObs
  | _, [] => []
  | raws, op :: t => op.pure h raws :: uuidPure h (op.raws raws) t

/-- The kept values are those that would be computed. -/
def UuidObj.Ok (o : UuidObj) : Prop :=
  (∀ t, o.parsedStr = some t → uuidStr o.raw = .ok t) ∧ (∀ n, o.parsedUuid = some n → uuidInt o.raw = .ok n)

theorem UuidObj.str_ok {o : UuidObj} (h : o.Ok) : o.str.1 = uuidStr o.raw ∧ o.str.2.raw = o.raw ∧ o.str.2.Ok := by
  unfold UuidObj.str
  split
  · rename_i c t hs
    exact ⟨(h.1 _ hs).symm, rfl, h⟩
  · split
    · rename_i t ht
      refine ⟨ht.symm, rfl, ?_, h.2⟩
      intro t' h'
      simp only [Option.some.injEq] at h'
      rw [← h', ht]
    · rename_i e he
      exact ⟨he.symm, rfl, h⟩

theorem UuidObj.std_ok {o : UuidObj} (h : o.Ok) : o.std.1 = uuidInt o.raw ∧ o.std.2.raw = o.raw ∧ o.std.2.Ok := by
  unfold UuidObj.std
  split
  · rename_i n hs
    exact ⟨(h.2 _ hs).symm, rfl, h⟩
  · split
    · rename_i t ht
      refine ⟨ht.symm, rfl, h.1, ?_⟩
      intro t' h'
      simp only [Option.some.injEq] at h'
      rw [← h', ht]
    · rename_i e he
      exact ⟨he.symm, rfl, h⟩

theorem UuidObj.eqText_ok {o : UuidObj} (h : o.Ok) (s : PyStr) :
    (o.eqText s).1 = uuidEqStr o.raw s ∧ (o.eqText s).2.raw = o.raw ∧ (o.eqText s).2.Ok := by
  obtain ⟨h1, h2, h3⟩ := UuidObj.str_ok h
  unfold UuidObj.eqText uuidEqStr
  generalize o.str = q at h1 h2 h3
  obtain ⟨x, o'⟩ := q
  simp only at h1 h2 h3
  rw [← h1]
  cases x with
  | ok t => exact ⟨rfl, h2, h3⟩
  | error e => exact ⟨rfl, h2, h3⟩

theorem UuidObj.hash_ok {o : UuidObj} (h : o.Ok) (f : PyStr → Int) :
    (o.hash f).1 = uuidHash f o.raw ∧ (o.hash f).2.raw = o.raw ∧ (o.hash f).2.Ok := by
  obtain ⟨h1, h2, h3⟩ := UuidObj.str_ok h
  unfold UuidObj.hash uuidHash
  generalize o.str = q at h1 h2 h3
  obtain ⟨x, o'⟩ := q
  simp only at h1 h2 h3
  rw [← h1]
  cases x with
  | ok t => exact ⟨rfl, h2, h3⟩
  | error e => exact ⟨rfl, h2, h3⟩

/-- Replacing an object by one with the same raw bytes. -/
theorem pool_set {pool : List UuidObj} {i : Nat} {o o' : UuidObj} (hp : ∀ o ∈ pool, o.Ok) (hi : pool[i]? = some o)
    (hr : o'.raw = o.raw) (ho : o'.Ok) :
    (pool.set i o').map UuidObj.raw = pool.map UuidObj.raw ∧ ∀ x ∈ pool.set i o', x.Ok := by
  refine ⟨?_, fun x hx => ?_⟩
  · apply List.ext_getElem?
    intro k
    rw [List.getElem?_map, List.getElem?_map, List.getElem?_set]
    by_cases hk : i = k
    · subst hk
      rw [if_pos rfl]
      by_cases hl : i < pool.length
      · rw [if_pos hl, hi, Option.map_some, Option.map_some, hr]
      · rw [List.getElem?_eq_none (by omega)] at hi
        cases hi
    · rw [if_neg hk]
  · rcases List.mem_or_eq_of_mem_set hx with h | rfl
    · exact hp x h
    · exact ho

theorem op_ok (h : PyStr → Int) (pool : List UuidObj) (hp : ∀ o ∈ pool, o.Ok) (op : UuidOp) :
    (op.run h pool).1 = op.pure h (pool.map UuidObj.raw) ∧
      (op.run h pool).2.map UuidObj.raw = op.raws (pool.map UuidObj.raw) ∧ ∀ o ∈ (op.run h pool).2, o.Ok := by
  have mem : ∀ {i : Nat} {o : UuidObj}, pool[i]? = some o → o.Ok := fun hi => hp _ (List.mem_of_getElem? hi)
  cases op with
  | new raw =>
    refine ⟨rfl, by simp only [UuidOp.run, UuidOp.raws, List.map_append, List.map_cons, List.map_nil, UuidObj.new], ?_⟩
    intro o ho
    simp only [UuidOp.run, List.mem_append, List.mem_singleton] at ho
    rcases ho with ho | rfl
    · exact hp o ho
    · exact ⟨fun t ht => (by cases ht), fun t ht => (by cases ht)⟩
  | str i =>
    simp only [UuidOp.run, UuidOp.pure, UuidOp.raws, List.getElem?_map]
    cases hi : pool[i]? with
    | none => exact ⟨rfl, rfl, hp⟩
    | some o =>
      obtain ⟨h1, h2, h3⟩ := UuidObj.str_ok (mem hi)
      exact ⟨by simp only [Option.map_some, h1], pool_set hp hi h2 h3⟩
  | std i =>
    simp only [UuidOp.run, UuidOp.pure, UuidOp.raws, List.getElem?_map]
    cases hi : pool[i]? with
    | none => exact ⟨rfl, rfl, hp⟩
    | some o =>
      obtain ⟨h1, h2, h3⟩ := UuidObj.std_ok (mem hi)
      exact ⟨by simp only [Option.map_some, h1], pool_set hp hi h2 h3⟩
  | eq i j =>
    simp only [UuidOp.run, UuidOp.pure, UuidOp.raws, List.getElem?_map]
    cases hi : pool[i]? with
    | none => exact ⟨rfl, rfl, hp⟩
    | some a =>
      cases hj : pool[j]? with
      | none => exact ⟨rfl, rfl, hp⟩
      | some b => exact ⟨rfl, rfl, hp⟩
  | eqText i s =>
    simp only [UuidOp.run, UuidOp.pure, UuidOp.raws, List.getElem?_map]
    cases hi : pool[i]? with
    | none => exact ⟨rfl, rfl, hp⟩
    | some o =>
      obtain ⟨h1, h2, h3⟩ := UuidObj.eqText_ok (mem hi) s
      exact ⟨by simp only [Option.map_some, h1], pool_set hp hi h2 h3⟩
  | hash i =>
    simp only [UuidOp.run, UuidOp.pure, UuidOp.raws, List.getElem?_map]
    cases hi : pool[i]? with
    | none => exact ⟨rfl, rfl, hp⟩
    | some o =>
      obtain ⟨h1, h2, h3⟩ := UuidObj.hash_ok (mem hi) h
      exact ⟨by simp only [Option.map_some, h1], pool_set hp hi h2 h3⟩

/-- C53: a program that creates any number of UUID objects, from any bytes (also too few of
them), and prints, converts, compares and hashes them in any order and any number of times,
sees at each step exactly what the raw bytes of the objects determine, whatever was called
before. -/
theorem C53_history (h : PyStr → Int) (ops : List UuidOp) : uuidRun h [] ops = uuidPure h [] ops := by
  have key : ∀ (ops : List UuidOp) (pool : List UuidObj), (∀ o ∈ pool, o.Ok) →
      uuidRun h pool ops = uuidPure h (pool.map UuidObj.raw) ops := by
    intro ops
    induction ops with
    | nil => intro _ _; rfl
    | cons op t ih =>
      intro pool hp
      obtain ⟨h1, h2, h3⟩ := op_ok h pool hp op
      simp only [uuidRun, uuidPure]
      rw [h1, ih _ h3, h2]
  exact key ops [] (fun o ho => by cases ho)

/-- A history with two objects of the same bytes, one printed before it is hashed and
compared, and one made of too few bytes, which fails each time. -/
example : uuidRun (fun t => t.length) [] [.new sampleUuid, .str 0, .new sampleUuid, .eq 0 1, .hash 0, .hash 1,
      .eqText 1 (P "76543210-fedc-ba98-0403-0201ff070605"), .new [1, 2], .str 2, .std 2, .str 2] =
    [.done, .text (.ok (P "76543210-fedc-ba98-0403-0201ff070605")), .done, .bool (.ok true), .code (.ok 36),
      .code (.ok 36), .bool (.ok true), .done, .text (.error .index), .num (.error .index), .text (.error .index)] := by
  rfl

end Pal
