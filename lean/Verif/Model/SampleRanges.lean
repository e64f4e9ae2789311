import Verif.Model.Bounds

/-!
# Model of the ranges of a chain (`python/getdist/mcsamples.py:287-305, 401-427, 2039-2092`)

The files from which ranges are read (`_readRanges`), `setRanges` with its three kinds of arguments, the limits of the settings (`_initLimits`), and
`getUpper`, `getLower`.  Unlike in `Model/Bounds`, what is stored when an exception is raised in the middle is part of the model.  The settings are
a function that gives the text of a key, empty if there is none.  Not modelled: markers, the attributes `has_limits_bot` and `has_limits_top` (see
`Model/Kde1D`), names that are not texts, the reading of the files themselves (see `Model/Bounds`, `Model/Cobaya`), samples without parameter names.
-/

namespace Verif.SampleRanges
open Verif.Py Verif.Bounds

variable {K : Type}

inductive Err
  | valueError | indexError
  deriving DecidableEq, Repr

/-- where `_readRanges` (mcsamples.py:2039-2050) reads from: `isfile` tells whether there is a file, `cobaya` is `cobaya_params_file` -/
def rangesFile (isfile : Str → Bool) (cobaya : Str → Option Str) (root : Option Str) : Option Str := match root with
  | none => none
  | some r => if r = [] then none else if isfile (r ++ c!".ranges") then some (r ++ c!".ranges") else cobaya r

/-- a parameter of the chain: name, `limmin` and `limmax` once they are attributes -/
structure Par (K : Type) where
  name : Str
  lims : Option (Option K × Option K) := none
  deriving DecidableEq, Repr

structure St (K : Type) where
  pars : List (Par K)
  ranges : ParamBounds K := {}
  needsUpdate : Bool := false
  deriving DecidableEq, Repr

variable [Field K] [LinearOrder K] [IsStrictOrderedRing K] [FloorRing K]

/-- `ParamBounds.setRange` (parampriors.py:76-83) with what is stored when it stops -/
def setRange (b : ParamBounds K) (name : Str) (r : Lim K × Lim K) : ParamBounds K × Option Err := match r.1.value with
  | .error _ => (b, some .valueError)
  | .ok l => match r.2.value with
    | .error _ => ({ b with lower := store b.lower name l }, some .valueError)
    | .ok u => ({ names := if name ∈ b.names then b.names else b.names ++ [name], lower := store b.lower name l,
                  upper := store b.upper name u }, none)

/-- the ranges given, one after the other, up to the first that is refused -/
def setAll (b : ParamBounds K) : List (Str × Lim K × Lim K) → ParamBounds K × Option Err
  | [] => (b, none)
  | e :: es => match setRange b e.1 e.2 with
    | (b, some err) => (b, some err)
    | (b, none) => setAll b es

/-- the argument of `setRanges` -/
inductive Arg (K : Type)
  | list (l : List (Lim K × Lim K))
  | dict (d : List (Str × Lim K × Lim K))
  | bounds (b : ParamBounds K)
  | other

/-- the loop over a list (mcsamples.py:296-297): more ranges than parameters are an IndexError -/
def setList (names : List Str) (b : ParamBounds K) (l : List (Lim K × Lim K)) : ParamBounds K × Option Err :=
  match setAll b (names.zip l) with
  | (b, some err) => (b, some err)
  | (b, none) => (b, if names.length < l.length then some .indexError else none)

/-- the ranges after `setRanges`, and the exception (mcsamples.py:295-304) -/
def newRanges (names : List Str) (b : ParamBounds K) : Arg K → ParamBounds K × Option Err
  | .list l => setList names b l
  | .dict d => setAll b d
  | .bounds c => (c, none)
  | .other => (b, some .valueError)

/-- `setRanges` (mcsamples.py:287-305): the statistics are marked as out of date only at the end -/
def setRanges (s : St K) (a : Arg K) : St K × Option Err := match newRanges (s.pars.map (·.name)) s.ranges a with
  | (b, some e) => ({ s with ranges := b }, some e)
  | (b, none) => ({ s with ranges := b, needsUpdate := true }, none)

/-- the text with the limits of a parameter (mcsamples.py:402-415) -/
def limitsLine (ini : Str → Str) (n : Str) : Str := if ini c!"all_limits" ≠ [] then ini c!"all_limits" else ini (c!"limits[" ++ n ++ c!"]")

/-- the limits of the settings for one parameter (mcsamples.py:416-419): only a text with two words is used -/
def limitOne (ini : Str → Str) (b : ParamBounds K) (n : Str) : ParamBounds K × Option Err := match splitWs (limitsLine ini n) with
  | [x, y] => setRange b n (.text x, .text y)
  | _ => (b, none)

/-- `_initLimits` (mcsamples.py:401-427): the parameters done, the ranges, the exception -/
def initLimits (ini : Str → Str) (b : ParamBounds K) : List (Par K) → List (Par K) × ParamBounds K × Option Err
  | [] => ([], b, none)
  | p :: ps => match limitOne ini b p.name with
    | (b, some e) => (p :: ps, b, some e)
    | (b, none) =>
      let r := initLimits ini b ps
      ({ p with lims := some (getLower b p.name, getUpper b p.name) } :: r.1, r.2.1, r.2.2)

/-- the part of `updateBaseStatistics` on limits (mcsamples.py:487-511) -/
def update (ini : Str → Str) (s : St K) : St K × Option Err := match initLimits ini s.ranges s.pars with
  | (ps, b, some e) => ({ s with pars := ps, ranges := b }, some e)
  | (ps, b, none) => ({ pars := ps, ranges := b, needsUpdate := false }, none)

/-- the attributes of the parameter with a name (`getattr(par, …, None)`) -/
def parLims (s : St K) (n : Str) : Option K × Option K := match s.pars.find? (·.name == n) with
  | none => (none, none)
  | some p => p.lims.getD (none, none)

def lower (s : St K) (n : Str) : Option K := (parLims s n).1   -- `getLower` (mcsamples.py:2082-2092)
def upper (s : St K) (n : Str) : Option K := (parLims s n).2   -- `getUpper` (mcsamples.py:2070-2080)

end Verif.SampleRanges
