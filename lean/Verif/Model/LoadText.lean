import Verif.Py.Float
import Verif.Py.Str

/-!
# Model of reading tables of numbers (`python/getdist/chains.py:115-140, 231-236`)

`loadNumpyTxt` uses pandas if it is installed and else numpy.  The two libraries are modelled as documented for the arguments that are given:
both leave out the first `skiprows` lines, what follows `#` in a line, and lines without anything else; fields are separated by white space.
pandas (`header=None`) takes the number of columns from the first row, fills shorter rows with `nan` (here `none`), refuses longer ones and tables
without rows; numpy refuses rows of different lengths, gives an empty array for tables without rows, and drops dimensions of length one, which
`atleast_2d` puts back at the front.  Simplified: all exceptions are `ValueError`; numbers are exact; texts such as `nan` are not numbers.
-/

namespace Verif.LoadText
open Verif.Py

inductive Err
  | value   -- ValueError, or a subclass of it
  | empty   -- WeightedSampleError
  | index   -- IndexError
deriving DecidableEq, Repr

/-- the fields of a line -/
def cells (line : Str) : List Str := splitWs (line.takeWhile (fun c => c ≠ '#'))

/-- the fields of the rows of a table -/
def rows (skip : Nat) (text : Str) : List (List Str) := (((fileIter text).drop skip).map cells).filter (fun r => !r.isEmpty)

/-- the numbers of a row -/
def numbers : List Str → Except Err (List ℚ)
  | [] => .ok []
  | s :: l => match (floatStr s : Option ℚ) with
    | none => .error .value
    | some x => (numbers l).map (x :: ·)

def table : List (List Str) → Except Err (List (List ℚ))
  | [] => .ok []
  | r :: l => match numbers r with
    | .error e => .error e
    | .ok x => (table l).map (x :: ·)

/-- `n` numbers, `nan` behind the end -/
def pad (n : Nat) (r : List ℚ) : List (Option ℚ) := r.map some ++ List.replicate (n - r.length) none

/-- `pandas.read_csv(fname, delim_whitespace=True, header=None, dtype=np.float64, skiprows=skiprows, comment='#').values` (chains.py:130-131) -/
def readPandas (skip : Nat) (text : Str) : Except Err (List (List (Option ℚ))) :=
  match table (rows skip text) with
  | .error e => .error e
  | .ok [] => .error .value
  | .ok (r :: l) => if (r :: l).all (fun x => decide (x.length ≤ r.length)) then .ok ((r :: l).map (pad r.length)) else .error .value

/-- `np.atleast_2d(np.loadtxt(fname, skiprows=skiprows or 0))` (chains.py:137) -/
def readNumpy (skip : Nat) (text : Str) : Except Err (List (List (Option ℚ))) :=
  match table (rows skip text) with
  | .error e => .error e
  | .ok [] => .ok [[]]
  | .ok (r :: l) =>
    if (r :: l).all (fun x => decide (x.length = r.length)) then
      if r.length = 1 then .ok [((r :: l).flatten).map some] else .ok ((r :: l).map (fun x => x.map some))
    else .error .value

/-- `loadNumpyTxt` (chains.py:119-140) -/
def loadTxt (pandas : Bool) (skip : Option Nat) (text : Str) : Except Err (List (List (Option ℚ))) :=
  if pandas then readPandas (skip.getD 0) text else readNumpy (skip.getD 0) text

/-- weights, likelihoods and parameters of the file of a chain (chains.py:231-235, 249-259) -/
def loadSamples (pandas : Bool) (skip : Option Nat) (text : Str) : Except Err (List (Option ℚ) × List (Option ℚ) × List (List (Option ℚ))) :=
  match loadTxt pandas skip text with
  | .error e => .error e
  | .ok cols =>
    if cols.length = 0 then .error .empty
    else if cols.any (fun r => decide (r.length < 2)) then .error .index
    else .ok (cols.map (fun r => r.getD 0 none), cols.map (fun r => r.getD 1 none), cols.map (fun r => r.drop 2))

end Verif.LoadText
