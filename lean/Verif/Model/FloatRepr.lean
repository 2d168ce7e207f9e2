import Verif.Model.JsonText
/-
`repr` of a finite float (`float.__repr__`, used by json/encoder.py for `json.dump` in
convert.py:118-122): the shortest decimal that is read as this float, of several the nearest
one, in the layout of `float_repr_style = "short"`.

The model searches for it: 1 to 17 digits, the decimals next below and above the float.  (17
digits are always enough; where the search finds nothing the model writes the exact value.)
-/

namespace Pal

/-- Least `j` with `den ≤ num * 10^j`, up to the fuel. -/
def tensUp (num den : Nat) : Nat → Nat
  | 0 => 0
  | f + 1 => if den ≤ num then 0 else 1 + tensUp (num * 10) den f

/-- The position of the decimal point: `10^(k-1) ≤ num / den < 10^k`. -/
def decpt (num den : Nat) : Int :=
  if den ≤ num then ((natText (num / den)).length : Int) else 1 - (tensUp num den 400 : Int)

/-- The digits of `q` without trailing zeros. -/
def trimZeros (t : PyStr) : PyStr := (t.reverse.dropWhile (· = 48)).reverse

/-- The layout of the digits `ds` with the point after `k` digits (`format_float_short` with
`repr`): an exponent of two or more digits when `k ≤ -4` or `k > 16`. -/
def layout (ds : PyStr) (k : Int) : PyStr :=
  if -4 < k ∧ k ≤ 16 then
    if k ≤ 0 then P "0." ++ List.replicate (-k).toNat 48 ++ ds
    else if (ds.length : Int) ≤ k then ds ++ List.replicate (k.toNat - ds.length) 48 ++ P ".0"
    else ds.take k.toNat ++ [46] ++ ds.drop k.toNat
  else
    let x := natText (k - 1).natAbs
    ds.take 1 ++ (if ds.length = 1 then [] else 46 :: ds.drop 1) ++ [101] ++
      (if k - 1 < 0 then [45] else [43]) ++ (if x.length < 2 then 48 :: x else x)

/-- The decimals of `p` digits around `num / den`, the nearer first. -/
def around (num den : Nat) (k : Int) (p : Nat) : List PyStr :=
  let x := (p : Int) - k
  let n := if 0 ≤ x then num * 10 ^ x.toNat else num
  let d := if 0 ≤ x then den else den * 10 ^ (-x).toNat
  let q := n / d
  let r := n % d
  let text (q : Nat) := layout (trimZeros (natText q)) (k + (natText q).length - p)
  if 2 * r < d ∨ (2 * r = d ∧ q % 2 = 0) then [text q, text (q + 1)] else [text (q + 1), text q]

/-- The text is read as this float. -/
def readsAs (neg : Bool) (b : BitVec 64) (t : PyStr) : Bool :=
  match scanNum neg t with
  | some (.float c, []) => c = b
  | _ => false

/-- The exact value `m * 2^x` in decimal. -/
def exactText (m : Nat) (x : Int) : PyStr :=
  if 0 ≤ x then natText (m * 2 ^ x.toNat) ++ P ".0"
  else natText (m * 5 ^ (-x).toNat) ++ P "e-" ++ natText (-x).toNat

/-- `float.__repr__` of a finite float. -/
def pyRepr (b : BitVec 64) : PyStr :=
  let m := (num64 b).natAbs
  let x := scale64 b
  let neg : Bool := sgn64 b ≠ 0
  let num := if 0 ≤ x then m * 2 ^ x.toNat else m
  let den := if 0 ≤ x then 1 else 2 ^ (-x).toNat
  let cands := if m = 0 then [P "0.0"] else (List.range' 1 17).flatMap (around num den (decpt num den))
  (if neg then [45] else []) ++
    match cands.find? (readsAs neg b) with
    | some t => t
    | none => exactText m x

end Pal
