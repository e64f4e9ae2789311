import Verif.Py.Float
import Mathlib.Computability.RegularExpressions

/-!
# Model of numbers as text (`python/getdist/matplotlib_ext.py:8-36`, `python/getdist/yaml_tools.py:21-43`)

Modelled: the text that `SciFuncFormatter` makes of a tick value, and which texts the loader of Cobaya's files takes for floats and what value
they get.  Simplified: tick values are elements of an ordered field, so that `nan` and infinities do not occur; the regular expression of
the resolver is one of Mathlib's regular expressions; PyYAML's constructor of floats (`construct_yaml_float` of the library) is modelled from its
documentation; the texts that PyYAML's own resolvers claim before (integers, dates) are a parameter.
-/

namespace Verif.NumText
open Verif.Py

/-! ## Tick labels -/

section Labels
variable {K : Type} [Field K] [LinearOrder K] [IsStrictOrderedRing K] [FloorRing K]

/-- `'%.10e' % x`, with `p` for 10 -/
def fmte (p : Nat) (x : K) : Str := (fmtE p x).map (fun c => if c = 'E' then 'e' else c)

/-- `_format_sci_notation` (matplotlib_ext.py:18-36) -/
def sciNotation (s : Str) : Str := match splitChar 'e' s with
  | a :: (sg :: ex) :: _ =>
    let significand0 := rstripP (· = '.') (rstripP (· = '0') a)
    let sign := if sg = '+' then [] else [sg]
    let exponent0 := ex.dropWhile (· = '0')
    let significand := if significand0 = c!"1" ∧ exponent0 ≠ [] then [] else significand0
    let exponent := if exponent0 = [] then [] else c!"10^{" ++ sign ++ exponent0 ++ c!"}"
    if significand ≠ [] ∧ exponent ≠ [] then significand ++ c!"{\\times}" ++ exponent else significand ++ exponent
  | _ => s                                         -- IndexError

/-- `SciFuncFormatter.__call__` (matplotlib_ext.py:11-12) -/
def label (x : K) : Str := c!"$" ++ sciNotation (fmte 10 x) ++ c!"$"

end Labels

/-! ## Floats in YAML files -/

open RegularExpression in
/-- one of the characters -/
def cls : List Char → RegularExpression Char
  | [] => 0
  | c :: l => char c + cls l

abbrev Re := RegularExpression Char

def opt (r : Re) : Re := r + 1
def many1 (r : Re) : Re := r * r.star
/-- the letters of a word -/
def lit : Str → Re
  | [] => 1
  | c :: s => RegularExpression.char c * lit s

def dig : List Char := ['0', '1', '2', '3', '4', '5', '6', '7', '8', '9']
def dig_ : List Char := dig ++ ['_']
def sgn : Re := opt (cls ['-', '+'])
/-- `[0-9][0-9_]*` -/
def whole : Re := cls dig * (cls dig_).star
/-- `[eE][-+]?[0-9]+` -/
def expo : Re := cls ['e', 'E'] * (sgn * many1 (cls dig))

/-- `[-+]?[0-9][0-9_]*\.[0-9_]*(?:[eE][-+]?[0-9]+)?` (yaml_tools.py:28) -/
def alt1 : Re := sgn * (whole * (RegularExpression.char '.' * ((cls dig_).star * opt expo)))
/-- `[-+]?[0-9][0-9_]*[eE][-+]?[0-9]+` (yaml_tools.py:29) -/
def alt2 : Re := sgn * (whole * expo)
/-- `\.[0-9_]+(?:[eE][-+][0-9]+)?` (yaml_tools.py:30): here the sign of the exponent is needed -/
def alt3 : Re := RegularExpression.char '.' * (many1 (cls dig_) * opt (cls ['e', 'E'] * (cls ['-', '+'] * many1 (cls dig))))
/-- `[-+]?[0-9][0-9_]*(?::[0-5]?[0-9])+\.[0-9_]*` (yaml_tools.py:31) -/
def alt4 : Re := sgn * (whole * (many1 (RegularExpression.char ':' * (opt (cls ['0', '1', '2', '3', '4', '5']) * cls dig)) *
  (RegularExpression.char '.' * (cls dig_).star)))
/-- `[-+]?\.(?:inf|Inf|INF)` (yaml_tools.py:32) -/
def alt5 : Re := sgn * (RegularExpression.char '.' * (lit c!"inf" + (lit c!"Inf" + lit c!"INF")))
/-- `\.(?:nan|NaN|NAN)` (yaml_tools.py:33) -/
def alt6 : Re := RegularExpression.char '.' * (lit c!"nan" + (lit c!"NaN" + lit c!"NAN"))

/-- the regular expression of the resolver (yaml_tools.py:27-33) -/
def floatRe : Re := alt1 + (alt2 + (alt3 + (alt4 + (alt5 + alt6))))

/-- the first characters for which the resolver is tried (yaml_tools.py:34) -/
def firstChars : List Char := ['-', '+', '0', '1', '2', '3', '4', '5', '6', '7', '8', '9', '.']

/-- whether a plain text that no resolver of the library claims is a float -/
def isFloat (s : Str) : Bool := match s with
  | [] => false
  | c :: _ => firstChars.contains c && floatRe.rmatch s

/-- the value of a text that is a float -/
inductive YVal (K : Type)
  | num (v : K)
  | inf (neg : Bool)
  | nan
  | error                       -- ValueError
deriving DecidableEq

section Vals
variable {K : Type} [Field K] [LinearOrder K] [IsStrictOrderedRing K] [FloorRing K]

/-- `float(part)` for each of the parts, each with its power of sixty; the last part has the power zero -/
def base60 : K → List Str → Option K
  | v, [] => some v
  | v, s :: l => match floatStr s with
    | none => none
    | some d => base60 (v * 60 + d) l

/-- `construct_yaml_float` of PyYAML -/
def construct (s : Str) : YVal K :=
  let v0 := (s.filter (· ≠ '_')).map Char.toLower
  let v := (takeSign v0).2
  let neg := (takeSign v0).1
  let f : K := if neg then -1 else 1
  if v = c!".inf" then .inf neg
  else if v = c!".nan" then .nan
  else if ':' ∈ v then match base60 (0 : K) (splitChar ':' v) with
    | none => .error
    | some x => .num (f * x)
  else match (floatStr v : Option K) with
    | none => .error
    | some x => .num (f * x)

end Vals

end Verif.NumText
