import Verif.Py.Float
import Verif.Py.Dict

/-!
# Model of parameter ranges (`python/getdist/parampriors.py`)

Not modelled: the yaml branch of `loadFromFile` (see Model/Cobaya), the check of the type of the name, a lower limit of plus infinity (and an upper
limit of minus infinity).
-/

namespace Verif.Bounds
open Verif.Py

variable {K : Type} [Field K] [LinearOrder K] [IsStrictOrderedRing K] [FloorRing K]

/-- `ParamBounds` (parampriors.py:5-25) -/
structure ParamBounds (K : Type) where
  names : List Str := []
  lower : Dict Str K := []
  upper : Dict Str K := []
  deriving DecidableEq, Repr

/-- one side of a range as given to `setRange` -/
inductive Lim (K : Type)
  | none               -- `None`
  | inf                -- `-np.inf` for the lower, `np.inf` for the upper side
  | num (x : K)
  | text (s : Str)

inductive BErr
  | valueError
  deriving DecidableEq, Repr

/-- the value to store (parampriors.py:78-81): `some none` leaves the old entry -/
def Lim.value : Lim K → Except BErr (Option K)
  | .none => .ok .none
  | .inf => .ok .none
  | .num x => .ok (some x)
  | .text s =>
    if s = c!"N" then .ok .none
    else match floatStr s with
      | .none => .error .valueError
      | some x => .ok (some x)

/-- `d[name] = v` if there is a value -/
def store (d : Dict Str K) (name : Str) : Option K → Dict Str K
  | .none => d
  | some x => Dict.set d name x

/-- `setRange` (parampriors.py:76-83) -/
def setRange (b : ParamBounds K) (name : Str) (lo hi : Lim K) : Except BErr (ParamBounds K) := do
  let l ← lo.value
  let u ← hi.value
  pure { names := if name ∈ b.names then b.names else b.names ++ [name]
         lower := store b.lower name l
         upper := store b.upper name u }

/-- `setFixed` (parampriors.py:73-74) -/
def setFixed (b : ParamBounds K) (name : Str) (x : K) : Except BErr (ParamBounds K) := setRange b name (.num x) (.num x)

def getLower (b : ParamBounds K) (name : Str) : Option K := b.lower.get? name   -- parampriors.py:93-99
def getUpper (b : ParamBounds K) (name : Str) : Option K := b.upper.get? name   -- parampriors.py:85-91

/-- `fixedValue` (parampriors.py:101-112) -/
def fixedValue (b : ParamBounds K) (name : Str) : Option K :=
  match b.lower.get? name with
  | .none => .none
  | some lower =>
    match b.upper.get? name with
    | .none => .none
    | some higher => if higher = lower then some lower else .none

/-- `fixedValueDict` (parampriors.py:114-123) -/
def fixedValueDict (b : ParamBounds K) : Dict Str K := b.names.foldl (fun d n => store d n (fixedValue b n)) []

/-- the text of one limit (parampriors.py:47-56) -/
def limText : Option K → Str
  | .none => c!"    N"
  | some x => rjust 15 (fmtE 7 x)

/-- one line of `__str__` (parampriors.py:57) -/
def lineOf (b : ParamBounds K) (name : Str) : Str :=
  rjust 22 name ++ rjust 17 (limText (getLower b name)) ++ rjust 17 (limText (getUpper b name))

/-- `__str__` (parampriors.py:44-58), the text written by `saveToFile` -/
def toText (b : ParamBounds K) : Str := (b.names.map (lineOf b)).flatMap (fun l => l ++ ['\n'])

/-- one line of a `.ranges` file (parampriors.py:33-35) -/
def readLine (b : ParamBounds K) (line : Str) : Except BErr (ParamBounds K) :=
  match splitWs line with
  | [n, lo, hi] => setRange b n (.text lo) (.text hi)
  | _ => .ok b

/-- `ParamBounds(fileName)` for a `.ranges` or `.bounds` file (parampriors.py:26-35) -/
def ofText (text : Str) : Except BErr (ParamBounds K) := (fileIter text).foldlM readLine {}

end Verif.Bounds
