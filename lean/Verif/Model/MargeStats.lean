import Verif.Py.Float
import Verif.Model.ParamNames

/-!
# Marginalised statistics: python/getdist/types.py:586-736 (ParamLimit, MargeStats), mcsamples.py:2217-2282 (_setMargeLimits)

Numbers are exact; `str` of a contour level is a function argument.  Densities enter through the limits they give
(`Density1D.getLimits`, modelled in `Verif.Model.Density`) and their value at a point.
-/

namespace Verif.Py

/-- `s.split(None, n)`: the rest keeps its trailing white space -/
def splitWsN : Nat → Str → List Str
  | 0, s => if lstrip s = [] then [] else [lstrip s]
  | n + 1, s => match lstrip s with
    | [] => []
    | c :: cs => (c :: cs).takeWhile (fun c => !isWs c) :: splitWsN n ((c :: cs).dropWhile (fun c => !isWs c))

/-- `"%-ws" % s` -/
def ljust (w : Nat) (s : Str) : Str := s ++ List.replicate (w - s.length) ' '

end Verif.Py

namespace Verif.MargeStats
open Verif.Py

variable {K : Type} [Field K] [LinearOrder K] [IsStrictOrderedRing K] [FloorRing K]

/-! ## Limits -/

structure Lim (K : Type) where
  lower : K
  upper : K
  twotail : Bool
  onetailUpper : Bool
  onetailLower : Bool
deriving DecidableEq, Repr

/-- types.py:597-608 -/
def mkLim (lower upper : K) (tag : Str) : Lim K := ⟨lower, upper, tag = c!"two", tag = c!">", tag = c!"<"⟩

/-- types.py:610-626 -/
def Lim.tag (l : Lim K) : Str := if l.twotail then c!"two" else if l.onetailUpper then c!">" else if l.onetailLower then c!"<" else c!"none"

/-! ## The text format -/

structure Par (K : Type) where
  name : Str
  label : Str
  isDerived : Bool
  mean : K
  err : K
  limits : List (Lim K)
deriving DecidableEq, Repr

structure Marge (K : Type) where
  limits : List K
  names : List (Par K)
deriving DecidableEq, Repr

inductive MErr
  | index
  | value
deriving DecidableEq, Repr

/-- paramnames.py:373-378 -/
def printedName (p : Par K) : Str := if p.isDerived then p.name ++ ['*'] else p.name

/-- paramnames.py:366-371; `max` of an empty list is an error -/
def nameWidth (l : List (Par K)) : Except MErr Nat :=
  if l = [] then .error .value else .ok (max 9 ((l.map (fun p => p.name.length)).foldr max 0) + 1)

/-- types.py:695-711 -/
def headerLine (n w : Nat) : Str :=
  ljust w c!"parameter" ++ c!"  " ++ ljust 15 c!"mean" ++ ljust 15 c!"sddev" ++
  (List.range n).flatMap (fun j => ljust 15 (c!"lower" ++ strNat (j + 1)) ++ ljust 15 (c!"upper" ++ strNat (j + 1)) ++
    ljust 7 (c!"limit" ++ strNat (j + 1)))

/-- `"%15.7E" % x` -/
def num (x : K) : Str := rjust 15 (fmtE 7 x)

def limText (l : Lim K) : Str := num l.lower ++ num l.upper ++ c!"  " ++ ljust 5 l.tag

/-- types.py:721-726 -/
def rowText (w : Nat) (p : Par K) : Str :=
  ljust w (printedName p) ++ num p.mean ++ num p.err ++ p.limits.flatMap limText ++ c!"   " ++ p.label

/-- types.py:713-727 -/
def toText (strF : K → Str) (m : Marge K) : Except MErr Str :=
  match nameWidth m.names with
  | .error e => .error e
  | .ok w => .ok (([c!"Marginalized limits: " ++ join c!"; " (m.limits.map strF), [], headerLine m.limits.length w] ++
      m.names.map (rowText w)).flatMap (fun l => l ++ ['\n']))

def floatAt (items : List Str) (i : Nat) : Except MErr K :=
  match items[i]? with
  | none => .error .index
  | some s => match floatStr s with
    | none => .error .value
    | some x => .ok x

/-- one turn of the loop of types.py:691-692 -/
def readLim (items : List Str) (i : Nat) : Except MErr (Lim K) :=
  match (floatAt items (3 + i * 3) : Except MErr K), (floatAt items (4 + i * 3) : Except MErr K), items[5 + i * 3]? with
  | .ok lo, .ok up, some tag => .ok (mkLim lo up tag)
  | .error e, _, _ => .error e
  | _, .error e, _ => .error e
  | _, _, none => .error .index

def readLims (items : List Str) : List Nat → Except MErr (List (Lim K))
  | [] => .ok []
  | i :: is => match readLim items i with
    | .error e => .error e
    | .ok l => match readLims items is with
      | .error e => .error e
      | .ok ls => .ok (l :: ls)

/-- types.py:678-693 -/
def readPar (n : Nat) (line : Str) : Except MErr (Par K) :=
  let items := (splitWsN (n * 3 + 3) line).map strip
  match items[0]?, items.getLast? with
  | some nm, some label =>
    match (floatAt items 1 : Except MErr K) with
    | .error e => .error e
    | .ok mean => match (floatAt items 2 : Except MErr K) with
      | .error e => .error e
      | .ok err => match readLims items (List.range n) with
        | .error e => .error e
        | .ok ls => .ok ⟨if nm.getLast? = some '*' then nm.dropLast else nm, label, nm.getLast? = some '*', mean, err, ls⟩
  | _, _ => .error .index

/-- types.py:674-693 -/
def readRows (n : Nat) : List Str → Except MErr (List (Par K))
  | [] => .ok []
  | line :: lines => if (strip line).length = 0 then .ok [] else
    match readPar n line with
    | .error e => .error e
    | .ok p => match readRows n lines with
      | .error e => .error e
      | .ok ps => .ok (p :: ps)

def floats : List Str → Except MErr (List K)
  | [] => .ok []
  | s :: ss => match (floatStr (strip s) : Option K) with
    | none => .error .value
    | some x => match floats ss with
      | .error e => .error e
      | .ok xs => .ok (x :: xs)

/-- types.py:664-693 -/
def load (text : Str) : Except MErr (Marge K) :=
  let lines := fileIter (ParamNames.dropBOM text)
  match lines with
  | [] => .error .index
  | l0 :: _ => match (splitChar ':' l0)[1]? with
    | none => .error .index
    | some lims => match (floats (splitChar ';' lims) : Except MErr (List K)) with
      | .error e => .error e
      | .ok cs => match readRows cs.length (lines.drop 3) with
        | .error e => .error e
        | .ok ps => .ok ⟨cs, ps⟩

/-! ## Choosing the limits -/

/-- what `_setMargeLimits` uses for one parameter -/
structure Marg (K : Type) where
  /-- `par.has_limits_bot`, `par.has_limits_top` -/
  hasBot : Bool
  hasTop : Bool
  /-- `par.range_min`, `par.range_max` -/
  rmin : K
  rmax : K
  /-- `density1D.P[0]`, `density1D.P[-1]` -/
  P0 : K
  P1 : K
  /-- `density1D.getLimits(contour)`: lower, upper and whether the density is above the level at the ends -/
  getLimits : K → K × K × Bool × Bool
  /-- `self.confidence(paramConfid, limfrac, upper)` -/
  conf : K → Bool → K
  /-- `density1D.Prob(x)` -/
  prob : K → K

/-- settings: `self.force_twotail`, `self.credible_interval_threshold` -/
structure Settings (K : Type) where
  force : Bool
  threshold : K

/-- mcsamples.py:2234-2281 for one contour -/
def margeLimit (s : Settings K) (d : Marg K) (contour maxFrac : K) : Lim K :=
  let bot0 := d.hasBot && !s.force && decide (maxFrac < d.P0)
  let top0 := d.hasTop && !s.force && decide (maxFrac < d.P1)
  let r : K × K × Bool × Bool :=
    if !bot0 || !top0 then
      let (lo, hi, bot, top) := d.getLimits contour
      let lo1 := if bot then d.rmin else if top then d.conf (1 - contour) false else lo
      let hi1 := if top then d.rmax else if bot then d.conf (1 - contour) true else hi
      let cb := d.conf ((1 - contour) / 2) false
      let ct := d.conf ((1 - contour) / 2) true
      if !bot && !top && decide (|d.prob ct - d.prob cb| < s.threshold) then (cb, ct, bot, top) else (lo1, hi1, bot, top)
    else (d.rmin, d.rmax, bot0, top0)
  mkLim r.1 r.2.1 (if r.2.2.1 && r.2.2.2 then c!"none" else if r.2.2.1 then c!">" else if r.2.2.2 then c!"<" else c!"two")

end Verif.MargeStats
