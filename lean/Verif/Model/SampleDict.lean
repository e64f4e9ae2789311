import Verif.Model.ParamNames
import Verif.Model.Bounds

/-!
# Model of parameter objects and dictionaries of samples, joined samples and saved metadata
(`python/getdist/chains.py:1222-1295, 1519-1525`, `python/getdist/mcsamples.py:2094-2108, 2329-2422, 2538-2553`, `python/getdist/types.py:575-582`)

Modelled: `setParams`, `getParams`, `getParamSampleDict`, `getParamBestFitDict`, `getBestFit`, `BestFit.getParamDict`, `_makeParamvec` (names),
`getCombinedSamplesWithSamples`, `saveTextMetadata`, `getRootFileName`.

Simplified: samples are columns; indices are not negative; an object made by `getParams` is a table from paths of attributes to what is there
(attributes that every python object has, like `__class__`, are left out); the content of `.properties.ini` is its dictionary; files that match the
pattern of `getRootFileName` are given in sorted order.
-/

namespace Verif.SampleDict
open Verif.Py Verif.ParamNames

inductive Err
  | attribute
  | type
  | index
  | value
  | param (name : Str)
  | noBestFit
deriving DecidableEq, Repr

variable {K : Type}

/-! ## Objects with attributes -/

/-- what an attribute is: an object, or the vector of samples of parameter `i` -/
inductive Entry
  | obj
  | vec (i : Nat)
deriving DecidableEq, Repr

abbrev Path := List Str
/-- the attributes below the object made by `getParams` -/
abbrev Tree := Dict Path Entry

def pathOf (name : Str) : Path := splitChar '.' name

/-- the first loop for one name (chains.py:1236-1241): objects on the way, below `pre` -/
def makeObjs (t : Tree) (pre : Path) : Path → Tree
  | [] => t
  | [_] => t
  | p :: q :: rest =>
    let t := if t.has (pre ++ [p]) then t else t.set (pre ++ [p]) .obj
    makeObjs t (pre ++ [p]) (q :: rest)

def pass1 (t : Tree) (names : List Str) : Tree := names.foldl (fun t n => makeObjs t [] (pathOf n)) t

/-- whether all objects on the way to `path` are there -/
def reach (t : Tree) (pre : Path) : Path → Bool
  | [] => true
  | [_] => true
  | p :: q :: rest => t.get? (pre ++ [p]) == some .obj && reach t (pre ++ [p]) (q :: rest)

/-- the second loop for one name (chains.py:1242-1246) -/
def place (t : Tree) (path : Path) (i : Nat) : Except Err Tree :=
  if reach t [] path then
    match t.get? path with
    | some .obj => .ok (t.set (path ++ [c!"value"]) (.vec i))
    | _ => .ok (t.set path (.vec i))
  else .error .attribute

def pass2 (t : Tree) : List (Str × Nat) → Except Err Tree
  | [] => .ok t
  | (n, i) :: l => match place t (pathOf n) i with
    | .error e => .error e
    | .ok t => pass2 t l

/-- `getParams` (chains.py:1248-1258) with `setParams` (1222-1246) -/
def getParams (names : List Str) : Except Err Tree := pass2 (pass1 [] names) names.zipIdx

/-- `obj.a.b.c` -/
def getPath (t : Tree) (path : Path) : Except Err Entry :=
  if reach t [] path then
    match t.get? path with
    | some e => .ok e
    | none => .error .attribute
  else .error .attribute

/-- `getattr(obj, name)`: the name is not split -/
def getAttr (t : Tree) (name : Str) : Except Err Entry := match t.get? [name] with
  | some e => .ok e
  | none => .error .attribute

/-! ## Samples -/

structure Samps (K : Type) where
  names : List Info
  cols : List (List K)
  weights : List K
  loglikes : Option (List K)
  ranges : Bounds.ParamBounds K
  root : Option Str := none

/-- `_makeParamvec` for a name (chains.py:1276-1291); the index has the last parameter of a name -/
def paramVec (s : Samps K) (name : Str) : Except Err (List K) := match (s.names.map (·.name)).zip s.cols |>.reverse.find? (fun p => p.1 = name) with
  | some p => .ok p.2
  | none =>
    if name = c!"weight" then .ok s.weights
    else if name = c!"loglike" then (match s.loglikes with | some l => .ok l | none => .error .type)
    else .error (.param name)

/-- one parameter of the dictionary (chains.py:1271-1273) -/
def addParam (wantDerived : Bool) (ix : Nat) (d : Dict Str K) (p : Info × List K) : Except Err (Dict Str K) :=
  if wantDerived || !p.1.isDerived then
    match p.2[ix]? with
    | some v => .ok (d.set p.1.name v)
    | none => .error .index
  else .ok d

def addParams (wantDerived : Bool) (ix : Nat) : Dict Str K → List (Info × List K) → Except Err (Dict Str K)
  | d, [] => .ok d
  | d, p :: ps => match addParam wantDerived ix d p with
    | .error e => .error e
    | .ok d => addParams wantDerived ix d ps

/-- `Chains.getParamSampleDict` (chains.py:1260-1274) -/
def sampleDict (s : Samps K) (ix : Nat) (wantDerived : Bool) : Except Err (Dict Str K) := match s.weights[ix]? with
  | none => .error .index
  | some w => match s.loglikes with
    | none => .error .type
    | some l => match l[ix]? with
      | none => .error .index
      | some x => addParams wantDerived ix (Dict.set (Dict.set [] c!"weight" w) c!"loglike" x) (s.names.zip s.cols)

variable [Field K] [LinearOrder K]

/-- `res.update(self.ranges.fixedValueDict())` -/
def addFixed (s : Samps K) (want : Bool) (d : Dict Str K) : Dict Str K := if want then d.update (Bounds.fixedValueDict s.ranges) else d

/-- `MCSamples.getParamSampleDict` (mcsamples.py:2355-2367) -/
def sampleDictMC (s : Samps K) (ix : Nat) (wantDerived wantFixed : Bool) : Except Err (Dict Str K) :=
  match sampleDict s ix wantDerived with
  | .error e => .error e
  | .ok d => .ok (addFixed s wantFixed d)

/-- `np.argmin`: the first of the smallest -/
def argmin : List K → Nat
  | [] => 0
  | [_] => 0
  | x :: y :: l => let i := argmin (y :: l); if x ≤ (y :: l).getD i x then 0 else i + 1

/-- the best fit read from a file: names, whether derived, values, and its likelihood -/
structure Best (K : Type) where
  pars : List (Str × Bool × K)
  logLike : K

/-- one parameter of `getParamDict` -/
def addBest (incl : Bool) (d : Dict Str K) (p : Str × Bool × K) : Dict Str K := if incl || !p.2.1 then d.set p.1 p.2.2 else d

/-- `BestFit.getParamDict` (types.py:575-582) -/
def bestDict (b : Best K) (incl : Bool) : Dict Str K :=
  ((b.pars.foldl (addBest incl) []).set c!"weight" 1).set c!"loglike" b.logLike

/-- `getBestFit` (mcsamples.py:2094-2108); `files` are the best fit files that can be read -/
def getBestFit (s : Samps K) (maxPost : Bool) (files : Str → Option (Best K)) : Except Err (Best K) := match s.root with
  | none => .error .type
  | some r => match files (r ++ if maxPost then c!".minimum" else c!".bestfit") with
    | some b => .ok b
    | none => .error .noBestFit

/-- `getParamBestFitDict` (mcsamples.py:2329-2353) -/
def bestFitDict (s : Samps K) (bestSample wantDerived wantFixed maxPost : Bool) (files : Str → Option (Best K)) :
    Except Err (Dict Str K) :=
  if bestSample then
    if !maxPost then .error .value
    else match s.loglikes with
      | none => .error .type
      | some l => if l = [] then .error .value else sampleDictMC s (argmin l) true true
  else match getBestFit s maxPost files with
    | .error e => .error e
    | .ok b => .ok (addFixed s wantFixed (bestDict b wantDerived))

/-! ## Joined samples -/

/-- the vector that `getattr` finds -/
def column (s : Samps K) (t : Tree) (name : Str) : Except Err (List K) := match getAttr t name with
  | .error e => .error e
  | .ok .obj => .error .value
  | .ok (.vec i) => match s.cols[i]? with
    | some c => .ok c
    | none => .error .index

def joinCols (s s2 : Samps K) (t t2 : Tree) : List Str → Except Err (List (List K))
  | [] => .ok []
  | n :: ns => match column s t n, column s2 t2 n with
    | .ok a, .ok b => match joinCols s s2 t t2 ns with
      | .ok r => .ok ((a ++ b) :: r)
      | .error e => .error e
    | .error e, _ => .error e
    | _, .error e => .error e

/-- the factor for the second weights (mcsamples.py:2387-2391) -/
def facOf (s s2 : Samps K) : Option (K × K) → K
  | none => 1
  | some _ => s.weights.sum / s2.weights.sum

/-- the parameters in common (mcsamples.py:2380-2382) -/
def common (s s2 : Samps K) : List Info :=
  (s2.names.filter (fun p => decide (p.name ∈ s.names.map (·.name)))).map (fun p => { name := p.name, label := p.label, isDerived := p.isDerived })

def joinLikes (a b : Option (List K)) : Option (List K) := match a, b with
  | some x, some y => some (x ++ y)
  | _, _ => none

/-- `getCombinedSamplesWithSamples` (mcsamples.py:2369-2398) -/
def combined (s s2 : Samps K) (w : Option (K × K)) : Except Err (Samps K) := match getParams (s.names.map (·.name)), getParams (s2.names.map (·.name)) with
  | .ok t, .ok t2 => match joinCols s s2 t t2 ((common s s2).map (·.name)) with
    | .error e => .error e
    | .ok cols =>
      .ok { names := common s s2, cols := cols, weights := s.weights.map (· * (w.getD (1, 1)).1) ++ s2.weights.map (fun x => x * (w.getD (1, 1)).2 * facOf s s2 w),
            loglikes := joinLikes s.loglikes s2.loglikes, ranges := s.ranges }
  | .error e, _ => .error e
  | _, .error e => .error e

/-! ## Files -/

abbrev Props := Dict Str Str

/-- what `saveTextMetadata` leaves in the properties file (mcsamples.py:2400-2422): `old` is the file there before -/
def saveProps (old : Option Props) (own : Props) (label : Option Str) (given : Option Props) : Option Props :=
  if (given.getD []) ≠ [] ∨ own ≠ [] ∨ (label.getD []) ≠ [] then
    let d := (old.getD []).update own
    let d := if label.getD [] ≠ [] then d.set c!"label" (label.getD []) else d
    some (d.update (given.getD []))
  else none

/-- `s[:s.rindex('_')]` -/
def beforeLast (s : Str) : Str := ((s.reverse.dropWhile (· != '_')).drop 1).reverse

/-- `getRootFileName` (mcsamples.py:2538-2553) for the files of the pattern, sorted -/
def rootFileName (files : List Str) : Str := match files with
  | [] => []
  | f :: _ => beforeLast f

end Verif.SampleDict
