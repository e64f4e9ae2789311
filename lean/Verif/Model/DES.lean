import Mathlib.LinearAlgebra.Matrix.NonsingularInverse
import Mathlib.Analysis.SpecialFunctions.Sqrt
import Verif.Py.Dict
import Verif.Py.Str

/-!
# Model of the DES likelihood (`python/planck/DES.py`)

Data sets in text form (`load_dataset`), selection of data, chi squared, and the sums over multipoles and distances of `get_theory`.
Simplified: numbers of the files are given as numbers; the power spectra, splines of redshift distributions and Bessel functions are parameters; `.fits` files, Hankel
transforms and plots are not modelled.  Bins are at least one (a bin of zero would wrap around) and within the sizes of the arrays
(otherwise an IndexError).
-/

namespace Verif.DES
open Verif.Py Matrix

inductive Err where
  | key | index | value | type | linAlg
deriving DecidableEq

variable {K : Type} [LinearOrder K]

/-! ### selection of data (DES.py:125-170) -/

/-- line of the selection file: type, bins (from one), limits -/
structure Sel (K : Type) where
  tp : Str
  bin1 : Nat
  bin2 : Nat
  mn : K
  mx : K

/-- row of a measurement file: bins, angular bin (from one), value -/
structure Row (K : Type) where
  bin1 : Nat
  bin2 : Nat
  tbin : Nat
  val : K

/-- an entry of `indices`: number of the type, bins, angular bin, from zero -/
abbrev Item := Nat × Nat × Nat × Nat

/-- one line of the selection (DES.py:132-136); types not used are left out -/
def rangeStep (dataTypes usedTypes : List Str) (d : Dict (Str × Nat × Nat) (K × K)) (s : Sel K) : Except Err (Dict (Str × Nat × Nat) (K × K)) :=
  if s.tp ∈ usedTypes then
    if s.tp ∈ dataTypes then
      if s.bin1 - 1 < 6 ∧ s.bin2 - 1 < 6 then .ok (Dict.set d (s.tp, s.bin1 - 1, s.bin2 - 1) (s.mn, s.mx)) else .error .index
    else .error .key
  else .ok d

/-- `ranges` (DES.py:129-136) -/
def rangesOf (dataTypes usedTypes : List Str) (sel : List (Sel K)) : Except Err (Dict (Str × Nat × Nat) (K × K)) :=
  sel.foldlM (rangeStep dataTypes usedTypes) []

/-- variables of the loops over data (DES.py:144-170); `arrays` are the correlations by type, bins, angular bin -/
structure St (K : Type) where
  indices : List Item
  pairs : List (Nat × Nat × Nat)
  arrays : Dict Item K
  usedIdx : List Nat
  usedItems : List Item

/-- limits given and kept strictly (DES.py:163-165) -/
def selected (ranges : Dict (Str × Nat × Nat) (K × K)) (theta : List K) (tp : Str) (r : Row K) : Bool :=
  match Dict.get? ranges (tp, r.bin1 - 1, r.bin2 - 1), theta[r.tbin - 1]? with
  | some (mn, mx), some t => decide (mn < t ∧ t < mx)
  | _, _ => false

/-- the item of a row -/
def itemOf (i : Nat) (r : Row K) : Item := (i, r.bin1 - 1, r.bin2 - 1, r.tbin - 1)

/-- new pairs of bins are appended (DES.py:159-161) -/
def addPair (ps : List (Nat × Nat × Nat)) (p : Nat × Nat × Nat) : List (Nat × Nat × Nat) := if p ∈ ps then ps else ps ++ [p]

/-- one row (DES.py:157-169); the counter `cov_ix` is the length of `indices` -/
def step (ranges : Dict (Str × Nat × Nat) (K × K)) (theta : List K) (i : Nat) (tp : Str) (s : St K) (r : Row K) : St K :=
  { indices := s.indices ++ [itemOf i r]
    pairs := addPair s.pairs (i, r.bin1 - 1, r.bin2 - 1)
    arrays := Dict.set s.arrays (itemOf i r) r.val
    usedIdx := if selected ranges theta tp r then s.usedIdx ++ [s.indices.length] else s.usedIdx
    usedItems := if selected ranges theta tp r then s.usedItems ++ [itemOf i r] else s.usedItems }

/-- all rows of all types (DES.py:148-170), `files` in the order of `data_types` -/
def load (ranges : Dict (Str × Nat × Nat) (K × K)) (theta : List K) : Nat → List (Str × List (Row K)) → St K → St K
  | _, [], s => s
  | i, f :: fs, s => load ranges theta (i + 1) fs (f.2.foldl (step ranges theta i f.1) s)

/-- the whole loading -/
def loadAll (usedTypes : List Str) (sel : List (Sel K)) (theta : List K) (files : List (Str × List (Row K))) : Except Err (St K) :=
  match rangesOf (files.map Prod.fst) usedTypes sel with
  | .error e => .error e
  | .ok r => .ok (load r theta 0 files ⟨[], [], [], [], []⟩)

/-- one entry; a missing array is `None[…]` -/
def consItem {L : Type} : Option L → Except Err (List L) → Except Err (List L)
  | none, _ => .error .type
  | some _, .error e => .error e
  | some x, .ok xs => .ok (x :: xs)

/-- `make_vector` (DES.py:597-602): arrays by type, bins, angular bin -/
def makeVector {L : Type} (used : List Item) (arrays : Item → Option L) : Except Err (List L) :=
  used.foldr (fun it acc => consItem (arrays it) acc) (.ok [])

/-! ### chi squared (DES.py:393-404, 611-616) -/

/-- the covariance of the data used -/
def covSub {R : Type} (full : Nat → Nat → R) (u : List Nat) : Matrix (Fin u.length) (Fin u.length) R := Matrix.of fun i j => full u[i] u[j]

/-- vector of a list of known length -/
def vec {R : Type} [Zero R] (m : Nat) (xs : List R) : Fin m → R := fun i => xs.getD i 0

/-- `chi_squared` -/
noncomputable def chiSq (full : Nat → Nat → ℝ) (u : List Nat) (data theory : List ℝ) : ℝ :=
  (covSub full u)⁻¹ *ᵥ (vec u.length data - vec u.length theory) ⬝ᵥ (vec u.length data - vec u.length theory)

/-- `errors` (DES.py:401-404): for each entry the root of its variance -/
noncomputable def errorsOf (full : Nat → Nat → ℝ) (indices : List Item) : Dict Item ℝ :=
  (indices.zipIdx).foldl (fun d p => Dict.set d p.1 (Real.sqrt (full p.2 p.2))) []

/-! ### order of the theory (DES.py:547-595) -/

/-- the types in the order in which `get_theory` returns them (DES.py:595) -/
def theoryOrder : List Str := [c!"xip", c!"xim", c!"gammat", c!"wtheta"]

/-- pairs of bins of a type; `data_types.index` raises (DES.py:581) -/
def pairsOf (dataTypes : List Str) (pairs : List (Nat × Nat × Nat)) (tp : Str) : Except Err (List (Nat × Nat)) :=
  if dataTypes.contains tp then .ok ((pairs.filter fun p => p.1 == dataTypes.idxOf tp).map Prod.snd) else .error .value

/-- pairs for which each type of correlation is computed (DES.py:580-593) -/
def computed (dataTypes usedTypes : List Str) (pairs : List (Nat × Nat × Nat)) : Except Err (List (List (Nat × Nat))) :=
  let get := fun (c : Bool) (tp : Str) => if c then pairsOf dataTypes pairs tp else .ok []
  match get (usedTypes.contains c!"xip" || usedTypes.contains c!"xim") c!"xip", get (usedTypes.contains c!"gammat") c!"gammat",
    get (usedTypes.contains c!"wtheta") c!"wtheta" with
  | .ok a, .ok b, .ok c => .ok [a, a, b, c]
  | _, _, _ => .error .value

/-- the arrays that `get_theory` returns: place in the order, bins, angular bin -/
def theoryArrays {L : Type} (corr : Str → Nat → Nat → Nat → L) (comp : List (List (Nat × Nat))) (it : Item) : Option L :=
  match comp[it.1]?, theoryOrder[it.1]? with
  | some ps, some tp => if (it.2.1, it.2.2.1) ∈ ps then some (corr tp it.2.1 it.2.2.1 it.2.2.2) else none
  | _, _ => none

/-- the theory vector for given correlations -/
def theoryVector {L : Type} (dataTypes usedTypes : List Str) (s : St K) (corr : Str → Nat → Nat → Nat → L) : Except Err (List L) :=
  match computed dataTypes usedTypes s.pairs with
  | .error e => .error e
  | .ok comp => makeVector s.usedItems (theoryArrays corr comp)

/-! ### sums over multipoles (DES.py:415-435, 580-593) -/

/-- differences of the grid of multipoles -/
def diffs : List Nat → List Nat
  | a :: b :: l => (b - a) :: diffs (b :: l)
  | _ => []

/-- the groups of multipoles (DES.py:421-426), as pairs of start and length -/
def groups : Nat → List Nat → List (Nat × Nat)
  | _, [] => []
  | ell, d :: ds => (ell, d) :: groups (ell + d) ds

variable {F : Type} [Field F]

/-- `ls_bessel` -/
def centre (g : Nat × Nat) : F := (2 * g.1 + g.2 - 1) / 2

/-- one entry of `js`: the sum over a group of `jn(nu, l θ) l / 2π` -/
def groupSum (j : Nat → F) (g : Nat × Nat) : F := ((List.range g.2).map fun k : Nat => j (g.1 + k)).sum

/-- `np.dot(cl, js)`: `cl` at the centres of the groups -/
def transform (j : Nat → F) (cl : F → F) (gs : List (Nat × Nat)) : F := (gs.map fun g => cl (centre g) * groupSum j g).sum

/-! ### sums over distances (DES.py:485-486, 494-508) -/

/-- `dchis` -/
def dchis (c : Nat → F) (n : Nat) (i : Nat) : F :=
  if i = 0 then (c 1 + c 0) / 2 else if i + 1 = n then c (n - 1) - c (n - 2) else (c (i + 1) - c (i - 1)) / 2

/-- lensing efficiency: `np.dot(fac[i:], 1 - chi / chis[i:])` -/
def lensW (c fac : Nat → F) (n i : Nat) : F := ((List.range n).map fun j : Nat => if i ≤ j then fac j * (1 - c i / c j) else 0).sum

end Verif.DES
