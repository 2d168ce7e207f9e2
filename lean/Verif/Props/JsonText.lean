import Verif.Lemmas.FloatRepr
import Verif.Lemmas.JsonDump
/-
C56: the text of JSON files.
-/

namespace Pal
open Spec

/-- C56: `json.load` accepts exactly the UTF-8 files with one JSON value (and NaN, Infinity, -Infinity), whatever their
layout and escapes, and gives the value they denote. -/
theorem C56_load (b : Bytes) (v : Val) : jsonLoad b = .ok v ↔ JFile true b v := jsonLoad_iff b v

/-- C56: every other file is rejected with a ValueError or a UnicodeDecodeError. -/
theorem C56_load_rejects (b : Bytes) (h : ∀ v, ¬ JFile true b v) : jsonLoad b = .error .value ∨ jsonLoad b = .error .unicode := by
  cases hl : jsonLoad b with
  | ok v => exact absurd ((C56_load b v).1 hl) (h v)
  | error e => rcases jsonLoad_err hl with rfl | rfl <;> simp

/-- C56: a text denotes at most one value. -/
theorem C56_unambiguous (b : Bytes) (v w : Val) (hv : JFile true b v) (hw : JFile true b w) : v = w := by
  rw [← C56_load] at hv hw
  rw [hv, Except.ok.injEq] at hw
  exact hw

/-- C56: what `json.dump` writes without an exception, indented or not, is ASCII text with one JSON value, the value after
a round trip; with `allow_nan=False` it is JSON as of RFC 8259. -/
theorem C56_dump (repr : BitVec 64 → PyStr) (hr : ReprLaw repr) (minify an : Bool) (v : Val) (hc : CodePoints v) (b : Bytes)
    (h : jsonDump repr minify an v = (b, none)) :
    (∀ x ∈ b, x < 128) ∧ ∃ v', jsonRT an v = .ok v' ∧ JFile an b v' := by
  have he := jsonDump_err repr minify an v
  rw [h] at he
  cases hj : jsonRT an v with
  | error e => rw [hj] at he; cases he
  | ok v' =>
    obtain ⟨t, h1, h2, h3⟩ := jsonDump_ok hr minify an hc hj
    rw [h1, Prod.mk.injEq] at h
    obtain ⟨rfl, -⟩ := h
    refine ⟨fun x hx => ?_, v', rfl, jText_file h3 h2⟩
    obtain ⟨c, hc, rfl⟩ := List.mem_map.1 hx
    have := h3 c hc
    rw [UInt8.lt_iff_toNat_lt, UInt8.toNat_ofNat', Nat.mod_eq_of_lt (by omega)]
    exact this

/-- C56: reading what was written gives the value after a round trip, whatever the layout. -/
theorem C56_dump_load (repr : BitVec 64 → PyStr) (hr : ReprLaw repr) (minify an : Bool) (v v' : Val) (hc : CodePoints v)
    (h : jsonRT an v = .ok v') : ∃ b, jsonDump repr minify an v = (b, none) ∧ jsonLoad b = .ok v' := dump_load hr minify an hc h

/-- C56: for every file the tools can read, the JSON that is written reads back as the dump after a round trip. -/
theorem C56_file (repr : BitVec 64 → PyStr) (hr : ReprLaw repr) (minify an : Bool) (keep : String → Bool) (data : Bytes) (g : Gvas)
    (hg : gvasRead (palCfg keep an) data = .ok g) (b : Bytes) (h : jsonDump repr minify an g.dump = (b, none)) :
    ∃ d, jsonRT an g.dump = .ok d ∧ jsonLoad b = .ok d ∧ JFile an b d := by
  have hc := jpre_cp _ (file_jpre (palCfg_json keep an) hg)
  obtain ⟨-, d, h1, h2⟩ := C56_dump repr hr minify an _ hc b h
  obtain ⟨b', h3, h4⟩ := C56_dump_load repr hr minify an _ d hc h1
  rw [h, Prod.mk.injEq] at h3
  obtain ⟨rfl, -⟩ := h3
  exact ⟨d, h1, h4, h2⟩

/-- C56: writing raises exactly when the value has no JSON form: bytes, GUIDs of fewer than 16 bytes, and with
`allow_nan=False` NaN and infinities. -/
theorem C56_dump_raises (repr : BitVec 64 → PyStr) (minify an : Bool) (v : Val) (e : Err) :
    (jsonDump repr minify an v).2 = some e ↔ jsonRT an v = .error e := by
  rw [jsonDump_err]
  cases jsonRT an v with
  | ok _ => simp [errOf]
  | error e' => simp [errOf]

/-- C56: the text of a finite float is a number that is read as this float. -/
theorem C56_float_text : ReprLaw pyRepr := pyRepr_law

/-! ### C17: NaN and infinities -/

theorem jsonRTL_err {an : Bool} {v : Val} {e : Err} (he : jsonRT an v = .error e) : ∀ {l : List Val}, v ∈ l →
    ∃ e, jsonRTL an l = .error e
  | a :: t, h => by
    simp only [jsonRTL]
    rcases List.mem_cons.1 h with rfl | h
    · rw [he]; exact ⟨_, rfl⟩
    · obtain ⟨e', h'⟩ := jsonRTL_err he h
      rw [h']
      cases jsonRT an a <;> exact ⟨_, rfl⟩

theorem jsonRTD_err {an : Bool} {k : PyStr} {v : Val} {e : Err} (he : jsonRT an v = .error e) : ∀ {l : Dict}, (k, v) ∈ l →
    ∃ e, jsonRTD an l = .error e
  | (k', a) :: t, h => by
    simp only [jsonRTD]
    rcases List.mem_cons.1 h with h | h
    · cases h
      rw [he]; exact ⟨_, rfl⟩
    · obtain ⟨e', h'⟩ := jsonRTD_err he h
      rw [h']
      cases jsonRT an a <;> exact ⟨_, rfl⟩

/-- C17: with `allow_nan=False` no value with a NaN or an infinity in it, however deep, is written as JSON. -/
theorem C17_text (repr : BitVec 64 → PyStr) (minify : Bool) (v : Val) (b : BitVec 64) (hb : NaN64 b ∨ Inf64 b)
    (hw : Within (.float b) v) : ∃ e, (jsonDump repr minify false v).2 = some e := by
  suffices h : ∃ e, jsonRT false v = .error e by
    obtain ⟨e, h⟩ := h
    exact ⟨e, (C56_dump_raises repr minify false v e).2 h⟩
  induction hw with
  | self =>
    refine ⟨.value, ?_⟩
    simp only [jsonRT, jsonFloat]
    rcases hb with hb | hb
    · rw [if_pos ((isNaN64_iff _).2 hb)]; rfl
    · rw [if_neg (fun h => ((isNaN64_iff _).1 h).2 hb.2), if_pos ((isInf64_iff _).2 hb)]; rfl
  | list h _ ih =>
    obtain ⟨e, ih⟩ := ih
    obtain ⟨e, ih⟩ := jsonRTL_err ih h
    exact ⟨e, by simp only [jsonRT, ih]⟩
  | tuple h _ ih =>
    obtain ⟨e, ih⟩ := ih
    obtain ⟨e, ih⟩ := jsonRTL_err ih h
    exact ⟨e, by simp only [jsonRT, ih]⟩
  | dict h _ ih =>
    obtain ⟨e, ih⟩ := ih
    obtain ⟨e, ih⟩ := jsonRTD_err ih h
    exact ⟨e, by simp only [jsonRT, ih]⟩

example : NaN64 0xfff8000000000001#64 ∧
    Within (.float 0xfff8000000000001#64) (.dict [(P "a", .int 1), (P "b", .list [.float 0xfff8000000000001#64])]) :=
  ⟨by decide +kernel, .dict (List.mem_cons_of_mem _ List.mem_cons_self) (.list List.mem_cons_self .self)⟩

/-! ### cases -/

/-- A value with nesting, escapes, an astral character, floats. -/
def jsonSample : Val := .dict [(P "a", .list [.int (-12), .float 0x3fb999999999999a#64, .bool true, .none]),
  (P "q\"\\\n", .str (P "é" ++ [0x1F600])), (P "e", .dict []), (P "t", .tuple [.float 0x7ff0000000000000#64])]

mutual
/-- Equality of values without GUIDs and bytes, by evaluation. -/
def sameVal : Val → Val → Bool
  | .none, .none => true
  | .bool a, .bool b => a = b
  | .int a, .int b => a = b
  | .float a, .float b => a = b
  | .str a, .str b => a = b
  | .list a, .list b => sameVals a b
  | .dict a, .dict b => sameItems a b
  | _, _ => false
def sameVals : List Val → List Val → Bool
  | [], [] => true
  | a :: s, b :: t => sameVal a b && sameVals s t
  | _, _ => false
def sameItems : List (PyStr × Val) → List (PyStr × Val) → Bool
  | [], [] => true
  | (k, a) :: s, (l, b) :: t => decide (k = l) && sameVal a b && sameItems s t
  | _, _ => false
end

/-- The text is read as this value. -/
def loadsAs (s : String) (v : Val) : Bool :=
  match jsonLoad ((P s).map UInt8.ofNat) with
  | .ok w => sameVal w v
  | .error _ => false

set_option maxRecDepth 20000 in
example : (jsonDump pyRepr true true jsonSample).1.map UInt8.toNat =
    P "{\"a\": [-12, 0.1, true, null], \"q\\\"\\\\\\n\": \"\\u00e9\\ud83d\\ude00\", \"e\": {}, \"t\": [Infinity]}" := by
  decide +kernel

set_option maxRecDepth 20000 in
example : (jsonDump pyRepr false true (.dict [(P "a", .list [.int 1, .int 2]), (P "b", .list [])])).1.map UInt8.toNat =
    P "{\n\t\"a\": [\n\t\t1,\n\t\t2\n\t],\n\t\"b\": []\n}" := by
  decide +kernel

theorem jsonSample_cp : CodePoints jsonSample := by
  simp only [jsonSample, CodePoints, CodePointsD, CodePointsL]
  decide +kernel

/-- C56_dump_load: the sample. -/
example : ∃ v', jsonRT true jsonSample = .ok v' ∧ ∃ b, jsonDump pyRepr false true jsonSample = (b, none) ∧ jsonLoad b = .ok v' :=
  ⟨_, rfl, C56_dump_load pyRepr pyRepr_law false true jsonSample _ jsonSample_cp rfl⟩

/-- C56_dump: the sample in strict mode raises, without the infinity it does not. -/
example : (jsonDump pyRepr false false jsonSample).2 = some .value := (C56_dump_raises _ _ _ _ _).2 rfl

/-- C56_load: a hand-written file, with another layout, other escapes and another spelling of numbers. -/
example : loadsAs " { \"\\u0061\" :[ 1E1 , -0.50,\"\\/\" ]\t}\r\n"
    (.dict [(P "a", .list [.float 0x4024000000000000#64, .float 0xbfe0000000000000#64, .str (P "/")])]) = true := by
  decide +kernel

/-- C56_load_rejects: what is not JSON. -/
example : (["", "{", "[1,]", "{\"a\" 1}", "01", "1.", "nul", "\"a", "{} x", "'a'"].map fun s => match jsonLoad ((P s).map UInt8.ofNat) with
    | .error .value => true
    | _ => false).all id = true := by decide +kernel

end Pal
