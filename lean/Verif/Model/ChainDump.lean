import Mathlib.Algebra.Order.Floor.Ring
import Mathlib.Algebra.BigOperators.Group.Finset.Basic
import Mathlib.Algebra.Order.Field.Basic
import Verif.Py.Dict
import Verif.Py.Str

/-!
# Model of density plots of spectra (`python/chainDumpPlot.py:43-84, 137-147`) and of parameters for CAMB (`python/cosmomc_to_camb.py`)

Simplified: numbers are exact; the window (chainDumpPlot.py:58-60) is a function on eleven places; colours and drawing are not modelled, only the two numbers
given to the colour map.  The arguments of the calls of CAMB are the result of the converter.
-/

namespace Verif.ChainDump
open Verif.Py

inductive Err where
  | type | index | value | key | general
deriving DecidableEq

section density
variable {K : Type} [Field K] [LinearOrder K] [FloorRing K]

/-- least of a list that is not empty -/
def minOf (x : K) (xs : List K) : K := xs.foldl min x

/-- largest of a list that is not empty -/
def maxOf (x : K) (xs : List K) : K := xs.foldl max x

/-- `minCl` (chainDumpPlot.py:45-46) -/
def minCl (x : K) (xs : List K) : K := if 0 < minOf x xs / (104 / 100) then 0 else minOf x xs / (104 / 100)

/-- `maxCl` (chainDumpPlot.py:47) -/
def maxCl (x : K) (xs : List K) : K := maxOf x xs * (104 / 100)

/-- `delta` (chainDumpPlot.py:48) -/
def delta (lo hi : K) (nbins : Nat) : K := (hi - lo) / ((nbins : K) - 1)

/-- `nL` (chainDumpPlot.py:49-50): with Python 3 the quotient is a float, which is no size of an array -/
def numL (py3 : Bool) (lmax deltaL : Nat) : Except Err Nat := if py3 then .error .type else .ok ((lmax - 1) / deltaL)

/-- place of a value (chainDumpPlot.py:54) -/
def place (lo d v : K) : Int := ⌊(v - lo) / d⌋

/-- index of an array of `n`: negative ones count from the end -/
def arrayIx (n : Nat) (i : Int) : Except Err Nat :=
  if 0 ≤ i then (if i < n then .ok i.toNat else .error .index) else if -(n : Int) ≤ i then .ok (n + i).toNat else .error .index

/-- `a[k] += v` -/
def addAt (a : Nat → K) (k : Nat) (v : K) : Nat → K := fun m => if m = k then a m + v else a m

/-- `psums` and `sums` at one multipole after the samples, given as values and parameters (chainDumpPlot.py:53-57) -/
def accum (lo d : K) (n : Nat) : List (K × K) → Except Err ((Nat → K) × (Nat → K))
  | [] => .ok (fun _ => 0, fun _ => 0)
  | s :: l =>
    match accum lo d n l with
    | .error e => .error e
    | .ok (ps, cs) =>
      match arrayIx n (place lo d s.1) with
      | .error e => .error e
      | .ok k => .ok (addAt ps k s.2, addAt cs k 1)

/-- `np.convolve(a, window, 'same')` for an array of `n ≥ 11` and the window of eleven -/
def smooth (w : Nat → K) (n : Nat) (a : Nat → K) (k : Nat) : K := ∑ j ∈ Finset.range 11, if j ≤ k + 5 ∧ k + 5 - j < n then a (k + 5 - j) * w j else 0

/-- largest and least place where a count is positive (chainDumpPlot.py:70-71) -/
def places (n : Nat) (c : Nat → K) : List Nat := (List.range n).filter fun k => decide (0 < c k)

/-- colour values at one multipole (chainDumpPlot.py:62-73); `counts` is a view of `sums`, so it holds the smoothed counts in line 66 on -/
def shade (w : Nat → K) (n : Nat) (ps cs : Nat → K) : Except Err (Nat → K) :=
  match (places n (smooth w n cs)).head?, (places n (smooth w n cs)).getLast? with
  | some lo, some hi =>
    let v := fun k => if 0 < smooth w n cs k then smooth w n ps k / smooth w n cs k else smooth w n ps k
    .ok fun k => if k < lo then v lo else if hi ≤ k then v hi else v k
  | _, _ => .error .value

/-- `sums[i, :]` of one multipole (chainDumpPlot.py:64, 68) -/
def opacity (w : Nat → K) (n : Nat) (cs : Nat → K) (k : Nat) : K := smooth w n cs k / maxOf (smooth w n cs 0) ((List.range n).map (smooth w n cs))

/-- smoothing over multipoles if `deltaL` is one (chainDumpPlot.py:75-77) -/
def overL (w : Nat → K) (nL : Nat) (deltaL : Nat) (s : Nat → Nat → K) (i k : Nat) : K := if deltaL = 1 then smooth w nL (fun m => s m k) i else s i k

end density

/-! ### cosmomc_to_camb.py -/

variable {R : Type} [Field R] [DecidableEq R]

/-- arguments of the calls of CAMB; `none` for `None` -/
structure Camb (R : Type) where
  h0 : R
  ombh2 : R
  omch2 : R
  mnu : R
  omk : R
  tau : R
  deltazrei : Option R
  nnu : R
  yhe : Option R
  meffsterile : R
  ns : R
  r : R
  as : R
  nrun : R
  nrunrun : R
  w : R

/-- `p[name]` -/
def need (p : Dict Str R) (n : Str) : Except Err R :=
  match p.get? n with
  | some v => .ok v
  | none => .error .key

/-- `get_camb_params` (cosmomc_to_camb.py:16-31) -/
def cambParams (p : Dict Str R) : Except Err (Camb R) :=
  let get := fun (n : Str) (v : R) => (p.get? n).getD v
  if get c!"wa" 0 ≠ 0 ∨ get c!"alpha1" 0 ≠ 0 ∨ get c!"Alens" 1 ≠ 1 ∨ get c!"Aphiphi" 1 ≠ 1 then .error .general
  else do
    let h0 ← need p c!"H0"
    let b ← need p c!"omegabh2"
    let c ← need p c!"omegach2"
    let tau ← need p c!"tau"
    let ns ← need p c!"ns"
    let a ← need p c!"A"
    return ⟨h0, b, c, get c!"mnu" (6 / 100), get c!"omegak" 0, tau, p.get? c!"deltazrei", get c!"nnu" (3046 / 1000), p.get? c!"yheused", get c!"meffsterile" 0, ns, get c!"r" 0,
      a * (1 / 10 ^ 9), get c!"nrun" 0, get c!"nrunrun" 0, get c!"w" (-1)⟩

end Verif.ChainDump
