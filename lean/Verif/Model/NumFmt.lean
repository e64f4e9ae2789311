import Verif.Py.Float

/-!
# Printing numbers and errors in tables: python/getdist/types.py:22-163

A `decimal.Decimal` is a sign, a list of digits and an exponent; `decimal.Decimal(x)` of a float is exact
(types.py:30-41, 48-51), so every number that can be printed is of this form.

Simplifications: in scientific notation the code multiplies by the float `10. ** -exponent` with 28 digits (types.py:55), here
the exponent is shifted exactly.  `float(s)` of printed text is `floatStr` with zero for text that is not a number (never the case
for the text printed here, see `numberFigs_spec`).
-/

namespace Verif.NumFmt
open Verif.Py

/-- `decimal.Decimal` as given by `as_tuple` -/
structure Dec where
  neg : Bool
  digits : List Nat
  exp : Int
deriving DecidableEq, Repr

/-- the integer with the given digits -/
def dval (l : List Nat) : Nat := l.foldl (fun a d => 10 * a + d) 0

/-- `Decimal.adjusted` -/
def Dec.adjusted (d : Dec) : Int := (d.digits.length : Int) + d.exp - 1

/-- the number -/
def Dec.val (d : Dec) : ℚ := (if d.neg then -1 else 1) * (dval d.digits : ℚ) * 10 ^ d.exp

/-- the rounded leading digits, types.py:58-66 -/
def roundDigits (digits : List Nat) (sf : Nat) : Nat :=
  let ds := if digits.length < sf then digits ++ List.replicate (sf - digits.length) 0 else digits
  let r := dval (ds.take sf)
  if sf < ds.length ∧ 5 ≤ ds.getD sf 0 then r + 1 else r

/-- placing the point, types.py:73-82 -/
def place (shift : Int) (sf : Nat) (r : Str) : Str :=
  if (sf : Int) - 1 ≤ shift then r ++ List.replicate (shift - sf + 1).toNat '0'
  else if 0 ≤ shift then r.take (shift + 1).toNat ++ '.' :: r.drop (shift + 1).toNat
  else '0' :: '.' :: (List.replicate (-shift - 1).toNat '0' ++ r)

/-- types.py:45-87; `sigfig > 0` is asserted there -/
def numberFigs (d : Dec) (sf : Nat) : Str :=
  let s := strNat (roundDigits d.digits sf)
  (if d.neg then ['-'] else []) ++ place (d.adjusted + s.length - sf) sf (s.take sf)

/-- `_sci_tolerance`, types.py:8, 52-57 -/
def sciExponent (d : Dec) : Int := if 4 < |d.adjusted| then d.adjusted else 0

/-- multiplication by `10 ** -e` -/
def Dec.shift (d : Dec) (e : Int) : Dec := { d with exp := d.exp - e }

/-- `numberFigs(number, sigfig, sci=True)` -/
def numberFigsSci (d : Dec) (sf : Nat) : Str × Int := (numberFigs (d.shift (sciExponent d)) sf, sciExponent d)

/-- `float(s)` -/
def fl (s : Str) : ℚ := (floatStr s).getD 0

/-- types.py:146-150 -/
def signed (s : Str) : Str :=
  let s := if s.head? ≠ some '-' ∧ fl s < 0 then '-' :: s else s
  if 0 < fl s then '+' :: s else s

/-- types.py:138-154 -/
def formatNumber (d : Dec) (sf : Nat) (wantSign : Bool) : Str :=
  if wantSign then signed (numberFigs d sf) else numberFigs d sf

/-- types.py:156-160 -/
def decimalPlaces (s : Str) : Nat :=
  match find '.' s with
  | some i => if 0 < i then s.length - i - 1 else 0
  | none => 0

/-- types.py:162-163; the division by zero is python's exception -/
def plusMinusLimit (tol : ℚ) (limit : Nat) (upper lower : ℚ) : Option Bool :=
  if limit ≠ 1 then some true else if lower = 0 then none else some (decide (tol < |(|upper / lower| - 1)|))

/-- an integer with the point `dp` digits from the end -/
def fixedPoint (n dp : Nat) : Str :=
  let s := strNat n
  let s := List.replicate (dp + 1 - s.length) '0' ++ s
  if dp = 0 then s else s.take (s.length - dp) ++ '.' :: s.drop (s.length - dp)

/-- `('%.' + str(dp) + 'f') % x` -/
def fmtF (dp : Nat) (x : ℚ) : Str := (if x < 0 then ['-'] else []) ++ fixedPoint (roundEven (|x| * 10 ^ dp)).toNat dp

/-- types.py:98-103 -/
def sfOf (sig : Nat) (v frac : ℚ) : Nat :=
  if 1 / 10 < frac ∧ v < 100 ∧ 20 ≤ v then 2
  else if 1 / 100 < frac ∧ v < 1000 then 3 else sig

/-- types.py:104-106 -/
def errSf (err : Nat) (v frac lp : ℚ) : Nat := if 20 ≤ v ∧ 1 / 10 < frac ∧ 2 ≤ lp then 1 else err

/-- the loop types.py:119-127 -/
def down (d : Dec) (maxdp : Nat) : Nat → Str → Nat × Str
  | 0, res => (0, res)
  | sf + 1, res =>
    if maxdp < decimalPlaces res then
      if sf = 0 then (0, if fl (fmtF maxdp d.val) = 0 then fmtF maxdp 0 else fmtF maxdp d.val)
      else down d maxdp sf (numberFigs d sf)
    else (sf + 1, res)

/-- the loop types.py:129-131 with a bound on the number of rounds (`none`: not finished) -/
def up (d : Dec) (pd : Nat) : Nat → Nat → Str → Option Str
  | 0, _, _ => none
  | f + 1, sf, res => if decimalPlaces res < pd then up d pd f (sf + 1) (numberFigs d (sf + 1)) else some res

inductive FErr
  | zeroDivision
  | diverges
deriving DecidableEq, Repr

/-- rounds allowed for the second loop; never used up, see `namesigFigs_total` -/
def fuel (d : Dec) (pd : Nat) : Nat := pd + (d.adjusted + 3).toNat + 1

/-- types.py:115-135 -/
def layout (value limplus limminus : Dec) (sf err : Nat) (wantSign : Bool) : Except FErr (Str × Str × Str) :=
  let plus := formatNumber limplus err wantSign
  let minus := formatNumber limminus err wantSign
  let r := down value (max (decimalPlaces plus) (decimalPlaces minus)) sf (numberFigs value sf)
  match up value (decimalPlaces plus) (fuel value (decimalPlaces plus)) r.1 r.2 with
  | some res => .ok (res, plus, minus)
  | none => .error .diverges

/-- `namesigFigs(value, limplus, limminus, wantSign)`, types.py:97-135 -/
def namesigFigs (sig err : Nat) (value limplus limminus : Dec) (wantSign : Bool) : Except FErr (Str × Str × Str) :=
  if |value.val| + limplus.val = 0 then .error .zeroDivision
  else
    let frac := limplus.val / (|value.val| + limplus.val)
    layout value limplus limminus (sfOf sig value.val frac) (errSf err value.val frac limplus.val) wantSign

/-- `namesigFigs(..., sci=True)`; `m` is `max(abs(value - limminus), abs(value + limplus))` -/
def namesigFigsSci (sig err : Nat) (m value limplus limminus : Dec) (wantSign : Bool) : Except FErr ((Str × Str × Str) × Int) :=
  if |value.val| + limplus.val = 0 then .error .zeroDivision
  else
    let frac := limplus.val / (|value.val| + limplus.val)
    let e := sciExponent m
    match layout (value.shift e) (limplus.shift e) (limminus.shift e) (sfOf sig value.val frac) (errSf err value.val frac limplus.val) wantSign with
    | .ok r => .ok (r, e)
    | .error x => .error x

end Verif.NumFmt
