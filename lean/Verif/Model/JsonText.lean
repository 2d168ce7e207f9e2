import Verif.Model.Json
/-
The text of JSON files: `json.dump(v, f, indent=None or "\t", cls=CustomEncoder,
allow_nan=an)` to a file opened with `encoding="utf8"` (convert.py:118-122,
json_tools.py:7-13) and `json.load(f)` from such a file (convert.py:133-134).

The writer follows `_make_iterencode` of the standard library's json/encoder.py (json.dump
never uses the C encoder), the reader follows json/decoder.py and json/scanner.py (the C
scanner accepts the same texts).  `repr` of a finite float is a parameter.

Not modelled: the limits on recursion and on the digits of an int, the check for circular
references (trees have none), the translation of "\r\n" to "\n" when reading (both are
white space, and neither is allowed inside a string).
-/

namespace Pal

/-! ### writing -/

/-- `'\\u{0:04x}'.format(u)` for a 16-bit code unit. -/
def uEscape (u : Nat) : PyStr :=
  [92, 117, hexDigit (u / 4096 % 16), hexDigit (u / 256 % 16), hexDigit (u / 16 % 16), hexDigit (u % 16)]

/-- One UTF-16 code unit in the output of `py_encode_basestring_ascii`: quote, backslash and
some control characters have short escapes, what is not printable ASCII is escaped by number.
(An astral character is escaped as its two code units.) -/
def escapeUnit (u : Nat) : PyStr :=
  if u = 34 then [92, 34]
  else if u = 92 then [92, 92]
  else if u = 10 then [92, 110]
  else if u = 13 then [92, 114]
  else if u = 9 then [92, 116]
  else if u = 12 then [92, 102]
  else if u = 8 then [92, 98]
  else if 32 ≤ u ∧ u ≤ 126 then [u]
  else uEscape u

/-- `encode_basestring_ascii(s)` -/
def strText (s : PyStr) : PyStr := 34 :: (utf16Units s).flatMap escapeUnit ++ [34]

/-- Decimal digits, with fuel (one unit per digit; the number of binary digits is enough). -/
def digitsF : Nat → Nat → PyStr
  | 0, _ => []
  | f + 1, n => if n < 10 then [48 + n] else digitsF f (n / 10) ++ [48 + n % 10]

/-- Decimal digits of a natural number. -/
def natText (n : Nat) : PyStr := digitsF (Nat.log2 n + 1) n

/-- `int.__repr__(i)` -/
def intText (i : Int) : PyStr := if i < 0 then 45 :: natText i.natAbs else natText i.natAbs

/-- `floatstr(x)` with `allow_nan = an`; `repr` gives the text of finite floats. -/
def floatText (repr : BitVec 64 → PyStr) (an : Bool) (b : BitVec 64) : Except Err PyStr :=
  if isNaN64 b then (if an then .ok (P "NaN") else .error .value)
  else if isInf64 b then
    (if an then .ok (if sgn64 b = 0 then P "Infinity" else P "-Infinity") else .error .value)
  else .ok (repr b)

/-- What was written, and the exception that ended the writing, if any. -/
abbrev Out := PyStr × Option Err

/-- Write, then go on. -/
def Out.andThen (a b : Out) : Out :=
  match a.2 with
  | some _ => a
  | none => (a.1 ++ b.1, b.2)

def Out.text (t : PyStr) : Out := (t, none)
def Out.fail (e : Err) : Out := ([], some e)

/-- A new line with `level` indents; nothing when there is no indent. -/
def newline (minify : Bool) (level : Nat) : PyStr :=
  if minify then [] else 10 :: List.replicate level 9

/-- The separator of items: ", ", or "," and a new line.  (The default of
`item_separator` is "," when there is an indent, ", " otherwise.) -/
def itemSep (minify : Bool) (level : Nat) : PyStr :=
  if minify then P ", " else 44 :: newline minify level

/-- An item of a list after `buf`, when `o` is what writing the item alone gives.  `buf` is written
together with a float and therefore lost when the float is rejected. -/
def encItem (buf : PyStr) (v : Val) (o : Out) : Out :=
  match v, o.2 with
  | .float _, some e => .fail e
  | _, _ => (Out.text buf).andThen o

mutual
/-- `_iterencode(o, level)` -/
def enc (repr : BitVec 64 → PyStr) (minify an : Bool) (level : Nat) : Val → Out
  | .none => .text (P "null")
  | .bool true => .text (P "true")
  | .bool false => .text (P "false")
  | .int i => .text (intText i)
  | .float b => match floatText repr an b with
    | .ok t => .text t
    | .error e => .fail e
  | .str s => .text (strText s)
  | .bytes _ => .fail .type
  | .uuid raw => match uuidStr raw with
    | .ok s => .text (strText s)
    | .error e => .fail e
  | .list [] => .text (P "[]")
  | .list (v :: l) => ((encItem (91 :: newline minify (level + 1)) v (enc repr minify an (level + 1) v)).andThen
      (encL repr minify an (level + 1) l)).andThen (.text (newline minify level ++ [93]))
  | .tuple [] => .text (P "[]")
  | .tuple (v :: l) => ((encItem (91 :: newline minify (level + 1)) v (enc repr minify an (level + 1) v)).andThen
      (encL repr minify an (level + 1) l)).andThen (.text (newline minify level ++ [93]))
  | .dict [] => .text (P "{}")
  | .dict ((k, v) :: d) => (((Out.text (123 :: newline minify (level + 1) ++ strText k ++ P ": ")).andThen
      (enc repr minify an (level + 1) v)).andThen
      (encD repr minify an (level + 1) d)).andThen (.text (newline minify level ++ [125]))
/-- The items of a list after the first. -/
def encL (repr : BitVec 64 → PyStr) (minify an : Bool) (level : Nat) : List Val → Out
  | [] => .text []
  | v :: l => (encItem (itemSep minify level) v (enc repr minify an level v)).andThen (encL repr minify an level l)
/-- The items of a dict after the first. -/
def encD (repr : BitVec 64 → PyStr) (minify an : Bool) (level : Nat) : List (PyStr × Val) → Out
  | [] => .text []
  | (k, v) :: d => ((Out.text (itemSep minify level ++ strText k ++ P ": ")).andThen
      (enc repr minify an level v)).andThen (encD repr minify an level d)
end

/-- The bytes `json.dump` writes and the exception it ends with.  The text is ASCII, so its
UTF-8 form has one byte for each character. -/
def jsonDump (repr : BitVec 64 → PyStr) (minify an : Bool) (v : Val) : Bytes × Option Err :=
  let o := enc repr minify an 0 v
  (o.1.map UInt8.ofNat, o.2)

/-! ### reading -/

/-- Continuation byte of a UTF-8 sequence. -/
def isCont (b : UInt8) : Bool := 0x80 ≤ b.toNat ∧ b.toNat < 0xC0

/-- Strict UTF-8 decoding: overlong forms, surrogates and code points beyond 0x10FFFF are
errors (UnicodeDecodeError). -/
def utf8Decode : Bytes → Option PyStr
  | [] => some []
  | a :: t =>
    let x := a.toNat
    if x < 0x80 then (utf8Decode t).map (x :: ·)
    else match t with
    | [] => none
    | b :: t =>
      let y := b.toNat
      if ¬ isCont b then none
      else if 0xC2 ≤ x ∧ x < 0xE0 then (utf8Decode t).map (((x - 0xC0) * 64 + (y - 0x80)) :: ·)
      else match t with
      | [] => none
      | c :: t =>
        let z := c.toNat
        if ¬ isCont c then none
        else if 0xE0 ≤ x ∧ x < 0xF0 then
          let u := (x - 0xE0) * 4096 + (y - 0x80) * 64 + (z - 0x80)
          if u < 0x800 ∨ (0xD800 ≤ u ∧ u < 0xE000) then none else (utf8Decode t).map (u :: ·)
        else match t with
        | [] => none
        | d :: t =>
          if ¬ isCont d then none
          else if 0xF0 ≤ x ∧ x < 0xF8 then
            let u := (x - 0xF0) * 262144 + (y - 0x80) * 4096 + (z - 0x80) * 64 + (d.toNat - 0x80)
            if u < 0x10000 ∨ 0x110000 ≤ u then none else (utf8Decode t).map (u :: ·)
          else none

/-- A reader of text: a value and the rest.  All errors are JSONDecodeError, a ValueError. -/
abbrev J (α : Type) := Except Err (α × PyStr)

/-- `WHITESPACE.match(s, end).end()` -/
def skipWs : PyStr → PyStr
  | [] => []
  | c :: t => if c = 32 ∨ c = 9 ∨ c = 10 ∨ c = 13 then skipWs t else c :: t

/-- `_decode_uXXXX` -/
def hex4 (a b c d : Nat) : Option Nat :=
  match hexVal a, hexVal b, hexVal c, hexVal d with
  | some a, some b, some c, some d => some (a * 4096 + b * 256 + c * 16 + d)
  | _, _, _, _ => none

/-- `BACKSLASH` -/
def backslash (c : Nat) : Option Nat :=
  if c = 34 then some 34 else if c = 92 then some 92 else if c = 47 then some 47
  else if c = 98 then some 8 else if c = 102 then some 12 else if c = 110 then some 10
  else if c = 114 then some 13 else if c = 116 then some 9 else none

/-- The characters of a string up to the closing quote, escapes replaced (`py_scanstring` with
`strict`), surrogates not yet joined. -/
def scanUnits : PyStr → J (List Nat)
  | [] => .error .value
  | c :: t =>
    if c = 34 then .ok ([], t)
    else if c = 92 then
      match t with
      | [] => .error .value
      | e :: t =>
        if e = 117 then
          match t with
          | a :: b :: c :: d :: t => match hex4 a b c d with
            | none => .error .value
            | some u => match scanUnits t with
              | .ok (us, r) => .ok (u :: us, r)
              | .error x => .error x
          | _ => .error .value
        else match backslash e with
          | none => .error .value
          | some u => match scanUnits t with
            | .ok (us, r) => .ok (u :: us, r)
            | .error x => .error x
    else if c < 32 then .error .value
    else match scanUnits t with
      | .ok (us, r) => .ok (c :: us, r)
      | .error x => .error x

/-- `scanstring(s, end)` after the opening quote.  An escaped high surrogate followed by an
escaped low one is one character; text decoded from UTF-8 holds no surrogate that is not
escaped, so all adjacent pairs can be joined. -/
def scanStr (t : PyStr) : J PyStr :=
  match scanUnits t with
  | .ok (us, r) => .ok (joinUnits us, r)
  | .error e => .error e

def isDigit (c : Nat) : Bool := 48 ≤ c ∧ c ≤ 57

/-- Value of a string of decimal digits. -/
def digitsVal (t : PyStr) : Nat := t.foldl (fun n c => n * 10 + (c - 48)) 0

/-- `(0|[1-9]\d*)` of `NUMBER_RE`. -/
def scanInt (t : PyStr) : Option (PyStr × PyStr) :=
  match t with
  | [] => none
  | c :: r =>
    if c = 48 then some ([48], r)
    else if isDigit c then some (c :: r.takeWhile isDigit, r.dropWhile isDigit)
    else none

/-- `(\.\d+)?` of `NUMBER_RE`: the digits after the point, if any. -/
def scanFrac (t : PyStr) : PyStr × PyStr :=
  match t with
  | [] => ([], [])
  | c :: r => if c = 46 ∧ r.takeWhile isDigit ≠ [] then (r.takeWhile isDigit, r.dropWhile isDigit) else ([], t)

/-- `[-+]?` -/
def scanSign (t : PyStr) : Bool × PyStr :=
  match t with
  | [] => (false, [])
  | c :: r => if c = 45 then (true, r) else if c = 43 then (false, r) else (false, t)

/-- `([eE][-+]?\d+)?` of `NUMBER_RE`: the exponent, if any. -/
def scanExp (t : PyStr) : Option Int × PyStr :=
  match t with
  | [] => (none, [])
  | c :: r =>
    let (neg, s) := scanSign r
    if (c = 101 ∨ c = 69) ∧ s.takeWhile isDigit ≠ [] then
      let n : Int := digitsVal (s.takeWhile isDigit)
      (some (if neg then -n else n), s.dropWhile isDigit)
    else (none, t)

/-- `float(text)` for the text of a number: `±m * 10^x` rounded to the nearest double, beyond
the largest one an infinity. -/
def decFloat (neg : Bool) (m : Nat) (x : Int) : BitVec 64 :=
  mk64 (if neg then 1 else 0) 0
    (min (roundMag (if 0 ≤ x then m * 10 ^ x.toNat else m) (if 0 ≤ x then 1 else 10 ^ (-x).toNat)) (2047 * 2 ^ 52))

/-- A number after its sign: int without fraction and exponent, else float. -/
def scanNum (neg : Bool) (t : PyStr) : Option (Val × PyStr) :=
  match scanInt t with
  | none => none
  | some (i, t) =>
    match scanFrac t with
    | (f, t) =>
      match scanExp t with
      | (none, r) =>
        if f = [] then
          let n : Int := digitsVal i
          some (.int (if neg then -n else n), r)
        else some (.float (decFloat neg (digitsVal (i ++ f)) (-f.length)), r)
      | (some x, r) => some (.float (decFloat neg (digitsVal (i ++ f)) (x - f.length)), r)

/-- What follows `p`, if the text starts with `p`. -/
def stripP : PyStr → PyStr → Option PyStr
  | [], t => some t
  | _ :: _, [] => none
  | a :: p, b :: t => if a = b then stripP p t else none

/-- Values that are neither strings nor containers. -/
def scanAtom (t : PyStr) : J Val :=
  match stripP (P "null") t with
  | some r => .ok (.none, r)
  | none => match stripP (P "true") t with
  | some r => .ok (.bool true, r)
  | none => match stripP (P "false") t with
  | some r => .ok (.bool false, r)
  | none => match (match t with
      | 45 :: r => scanNum true r
      | _ => scanNum false t) with
  | some x => .ok x
  | none => match stripP (P "NaN") t with
  | some r => .ok (.float nan64, r)
  | none => match stripP (P "Infinity") t with
  | some r => .ok (.float (mk64 0 2047 0), r)
  | none => match stripP (P "-Infinity") t with
  | some r => .ok (.float (mk64 1 2047 0), r)
  | none => .error .value

mutual
/-- `scan_once(s, idx)`; every second call consumes a character, so twice the length
of the text is enough fuel. -/
def scanVal : Nat → PyStr → J Val
  | 0, _ => .error .fuel
  | n + 1, t =>
    match t with
    | [] => .error .value
    | c :: r =>
      if c = 34 then match scanStr r with
        | .ok (s, r) => .ok (.str s, r)
        | .error e => .error e
      else if c = 123 then
        match skipWs r with
        | [] => .error .value
        | d :: r' =>
          if d = 125 then .ok (.dict [], r')
          else match scanMembers n (d :: r') with
            | .ok (l, r) => .ok (.dict (dupdate [] l), r)
            | .error e => .error e
      else if c = 91 then
        match skipWs r with
        | [] => .error .value
        | d :: r' =>
          if d = 93 then .ok (.list [], r')
          else match scanElems n (d :: r') with
            | .ok (l, r) => .ok (.list l, r)
            | .error e => .error e
      else scanAtom t
/-- The loop of `JSONArray`. -/
def scanElems : Nat → PyStr → J (List Val)
  | 0, _ => .error .fuel
  | n + 1, t =>
    match scanVal n t with
    | .error e => .error e
    | .ok (v, r) =>
      match skipWs r with
      | [] => .error .value
      | c :: r =>
        if c = 93 then .ok ([v], r)
        else if c = 44 then
          match scanElems n (skipWs r) with
          | .ok (l, r) => .ok (v :: l, r)
          | .error e => .error e
        else .error .value
/-- The loop of `JSONObject`, from the quote of a key. -/
def scanMembers : Nat → PyStr → J (List (PyStr × Val))
  | 0, _ => .error .fuel
  | n + 1, t =>
    match t with
    | [] => .error .value
    | q :: t =>
      if q ≠ 34 then .error .value
      else match scanStr t with
      | .error e => .error e
      | .ok (k, r) =>
        match skipWs r with
        | [] => .error .value
        | c :: r =>
          if c ≠ 58 then .error .value
          else match scanVal n (skipWs r) with
          | .error e => .error e
          | .ok (v, r) =>
            match skipWs r with
            | [] => .error .value
            | c :: r =>
              if c = 125 then .ok ([(k, v)], r)
              else if c = 44 then
                match scanMembers n (skipWs r) with
                | .ok (l, r) => .ok ((k, v) :: l, r)
                | .error e => .error e
              else .error .value
end

/-- `json.loads(s)`: a byte order mark is rejected, a document is one value with white space
around it. -/
def jsonLoads (t : PyStr) : Except Err Val :=
  if t.head? = some 0xFEFF then .error .value
  else match scanVal (2 * t.length + 1) (skipWs t) with
    | .error e => .error e
    | .ok (v, r) => if skipWs r = [] then .ok v else .error .value

/-- `json.load(f)`: UTF-8 decoding, then `json.loads`. -/
def jsonLoad (b : Bytes) : Except Err Val :=
  match utf8Decode b with
  | none => .error .unicode
  | some t => jsonLoads t

end Pal
