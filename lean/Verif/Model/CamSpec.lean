import Mathlib.LinearAlgebra.Matrix.NonsingularInverse
import Mathlib.Algebra.Order.Round
import Mathlib.Analysis.SpecialFunctions.Log.Basic
import Verif.Py.Dict
import Verif.Py.Str
import Verif.Py.Num

/-!
# Model of the CamSpec likelihood (`python/planck/CMB_CamSpec.py`)

Ranges of multipoles, selection of data, chi squared, coadded temperature, differences of spectra.
Simplified: multipoles are natural numbers; the spectra file has enough rows; numbers are exact; the foreground templates are parameters.
-/

namespace Verif.CamSpec
open Verif.Py Matrix

inductive Err where
  | value | index | key | assertion | attribute | name | type | linAlg
deriving DecidableEq

/-! ### ranges of multipoles (CMB_CamSpec.py:16-27) -/

/-- one item of a range as an array: `a-b`; a single number has no dimension and cannot be concatenated -/
def itemElls (item : Str) : Except Err (List Nat) :=
  if item.contains '-' then
    match splitChar '-' item with
    | [a, b] => match intStr a, intStr b with
      | some mn, some mx => .ok ((List.range (mx + 1 - mn)).map (mn + ·))
      | _, _ => .error .value
    | _ => .error .value
  else .error .value

/-- the items of a range -/
def itemsElls : List Str → Except Err (List Nat)
  | [] => .ok []
  | it :: items =>
    match itemElls it with
    | .error e => .error e
    | .ok a => match itemsElls items with
      | .error e => .error e
      | .ok b => .ok (a ++ b)

/-- `range_to_ells` of a string (there must be an item) -/
def rangeToElls (s : Str) : Except Err (List Nat) := if splitWs s = [] then .error .value else itemsElls (splitWs s)

/-! ### data (CMB_CamSpec.py:43-107) -/

/-- `use_range`: for all spectra, or by name -/
inductive Use where
  | all (ells : List Nat)
  | by (d : Dict Str (List Nat))

/-- line of `data_ranges` -/
structure Line where
  tp : Str
  lo : Nat
  hi : Nat

/-- the multipoles of a spectrum -/
def fullElls (lo hi : Nat) : List Nat := (List.range (hi + 1 - lo)).map (lo + ·)

/-- the multipoles used of a spectrum -/
def ellsOf (use : Option Use) (tp : Str) (lo hi : Nat) : List Nat :=
  match use with
  | none => fullElls lo hi
  | some (.all e) => (fullElls lo hi).filter fun L => e.contains L
  | some (.by d) => match d.get? tp with
    | some e => (fullElls lo hi).filter fun L => e.contains L
    | none => fullElls lo hi

/-- state of the loop -/
structure St (F : Type) where
  data : List F
  nX : Nat
  used : List Nat
  ranges : List (Option (List Nat))

/-- one line -/
def step {F : Type} (spectra : Nat → Nat → F) (useCl : List Str) (use : Option Use) (i : Nat) (ln : Line) (s : St F) : St F :=
  if ln.hi ≠ 0 ∧ ln.lo ≤ ln.hi then
    let data := s.data ++ (fullElls ln.lo ln.hi).map fun l => spectra l i
    let nX := s.nX + (ln.hi - ln.lo + 1)
    if useCl.contains ln.tp then
      ⟨data, nX, s.used ++ (ellsOf use ln.tp ln.lo ln.hi).map fun l => l + s.nX - ln.lo, s.ranges ++ [some (ellsOf use ln.tp ln.lo ln.hi)]⟩
    else ⟨data, nX, s.used, s.ranges ++ [none]⟩
  else { s with ranges := s.ranges ++ [none] }

/-- the loop over lines -/
def loadFrom {F : Type} (spectra : Nat → Nat → F) (useCl : List Str) (use : Option Use) : Nat → List Line → St F → St F
  | _, [], s => s
  | i, ln :: lns, s => loadFrom spectra useCl use (i + 1) lns (step spectra useCl use i ln s)

/-- the loop -/
def load {F : Type} (spectra : Nat → Nat → F) (useCl : List Str) (use : Option Use) (lns : List Line) : St F := loadFrom spectra useCl use 0 lns ⟨[], 0, [], []⟩

/-- `np.concatenate(data_vector)[used_indices]` -/
def dataVector {F : Type} (s : St F) : List (Option F) := s.used.map fun k => s.data[k]?

/-- sizes of the spectra used, as lists -/
def rangesOf {F : Type} (s : St F) : List (List Nat) := s.ranges.map fun r => r.getD []

variable {F : Type} [Field F]

/-! ### templates (CMB_CamSpec.py:32-41) -/

/-- `read_normalized`: first multipole of the file, values, pivot -/
def readNormalized (first : Nat) (vals : List F) (pivot : Option Nat) : Except Err (List F) :=
  if first ≠ 2 then .error .assertion else
    let dat := 0 :: 0 :: vals
    match pivot with
    | none => .ok dat
    | some p =>
      if ¬ p < dat.length + 2 then .error .assertion else
        match dat[p]? with
        | none => .error .index
        | some v => .ok (dat.map (· / v))

/-! ### chi squared (CMB_CamSpec.py:204-232) -/

/-- `get_cals`: calibrations by name, with the root as a parameter -/
def cals (sqrt : F → F) (par : Dict Str F) : List F :=
  let get := fun n => (par.get? n).getD 1
  let p2 := get c!"calPlanck" * get c!"calPlanck"
  [get c!"cal0" * p2, 1 * p2, get c!"cal2" * p2, sqrt (get c!"cal2") * p2, get c!"calTE" * p2, get c!"calEE" * p2]

/-- theory for a position and multipole, divided by the calibration -/
def theoryAt (cal : Nat → F) (CT TE EE : Nat → F) (fg : Nat → Nat → F) (i l : Nat) : F :=
  if i ≤ 3 then (CT l + fg i l) / cal i else if i = 4 then TE l / cal i else if i = 5 then EE l / cal i else 0

/-- `delta_vector[ix:ix + n] -= vals` -/
def subSlice (ix : Nat) (vals d : List F) : List F := d.mapIdx fun k x => if ix ≤ k ∧ k < ix + vals.length then x - vals.getD (k - ix) 0 else x

/-- the loop of `chi_squared` -/
def subLoop (th : Nat → Nat → F) : Nat → Nat → List (List Nat) → List F → List F
  | _, _, [], d => d
  | i, ix, e :: es, d => if 0 < e.length then subLoop th (i + 1) (ix + e.length) es (subSlice ix (e.map (th i)) d) else subLoop th (i + 1) ix es d

/-- `delta_vector`: there are six calibrations -/
def deltaVector (th : Nat → Nat → F) (ranges : List (List Nat)) (data : List F) : List F := subLoop th 0 0 (ranges.take 6) data

/-! ### coadded temperature (CMB_CamSpec.py:234-288) -/

/-- `LS - np.arange(LS[0], LS[-1] + 1)`: arrays of other lengths cannot be subtracted (one value is repeated) -/
def contiguousOne (ls : List Nat) : Except Err Bool :=
  match ls.head?, ls.getLast? with
  | some a, some b =>
    let n := b + 1 - a
    if ls.length = n then .ok (ls.zipIdx.all fun p => p.1 == a + p.2)
    else if ls.length = 1 ∨ n = 1 then .ok false
    else .error .value
  | _, _ => .error .value

/-- check of all spectra -/
def contiguousAll : List (List Nat) → Except Err Bool
  | [] => .ok true
  | ls :: lss =>
    match contiguousOne ls with
    | .error e => .error e
    | .ok a => match contiguousAll lss with
      | .error e => .error e
      | .ok b => .ok (a && b)

/-- `min(r)`, `max(r)` of one spectrum -/
def limitsOne : Option (List Nat) → Except Err (Nat × Nat)
  | none => .error .type
  | some [] => .error .value
  | some (a :: l) => .ok (l.foldl min a, l.foldl max a)

/-- least and largest multipole of the temperature spectra -/
def limitsAll : List (Option (List Nat)) → Except Err (Nat × Nat)
  | [] => .error .value
  | [r] => limitsOne r
  | r :: rs =>
    match limitsOne r with
    | .error e => .error e
    | .ok a => match limitsAll rs with
      | .error e => .error e
      | .ok b => .ok (min a.1 b.1, max a.2 b.2)

/-- a spectrum of the sum: calibration, first position, number of multipoles (which are consecutive) -/
abbrev Block (F : Type) := F × Nat × Nat

/-- `x[a:a + n] += v` -/
def sliceAdd (a n : Nat) (v x : Nat → F) : Nat → F := fun p => if a ≤ p ∧ p < a + n then x p + v (p - a) else x p

/-- sum of the weighted data -/
def dLoop (d : Nat → F) : List (Block F) → Nat → (Nat → F) → Nat → F
  | [], _, x => x
  | b :: bs, ix, x => dLoop d bs (ix + b.2.2) (sliceAdd b.2.1 b.2.2 (fun k => d (ix + k) / b.1) x)

/-- `pcov[a:a + n, b:b + m] += covinv[ix1:, ix:] / (cal2 * cal)` -/
def blockAdd (S : Nat → Nat → F) (r : Block F) (ix1 : Nat) (c : Block F) (ix : Nat) (x : Nat → Nat → F) : Nat → Nat → F :=
  fun p q => if (r.2.1 ≤ p ∧ p < r.2.1 + r.2.2) ∧ (c.2.1 ≤ q ∧ q < c.2.1 + c.2.2) then x p q + S (ix1 + (p - r.2.1)) (ix + (q - c.2.1)) / (c.1 * r.1) else x p q

/-- inner loop -/
def innerLoop (S : Nat → Nat → F) (r : Block F) (ix1 : Nat) : List (Block F) → Nat → (Nat → Nat → F) → Nat → Nat → F
  | [], _, x => x
  | c :: cs, ix, x => innerLoop S r ix1 cs (ix + c.2.2) (blockAdd S r ix1 c ix x)

/-- outer loop -/
def outerLoop (S : Nat → Nat → F) (all : List (Block F)) : List (Block F) → Nat → (Nat → Nat → F) → Nat → Nat → F
  | [], _, x => x
  | r :: rs, ix1, x => outerLoop S all rs (ix1 + r.2.2) (innerLoop S r ix1 all 0 x)

/-- number of data -/
def total (bs : List (Block F)) : Nat := (bs.map fun b => b.2.2).sum

/-- `pcov` -/
def pcov (S : Nat → Nat → F) (bs : List (Block F)) (np : Nat) : Matrix (Fin np) (Fin np) F := Matrix.of fun p q => outerLoop S bs bs 0 (fun _ _ => 0) p q

/-- `dL`: `d` is the block of the inverse covariance times the data -/
def dL (S : Nat → Nat → F) (delta : Nat → F) (bs : List (Block F)) (np : Nat) : Fin np → F :=
  fun p => dLoop (fun k => ((List.range (total bs)).map fun j : Nat => S k j * delta j).sum) bs 0 (fun _ => 0) p

/-- the coadded spectrum from the least multipole on -/
noncomputable def coadd (S : Nat → Nat → F) (delta : Nat → F) (bs : List (Block F)) (np : Nat) : Fin np → F := (pcov S bs np)⁻¹ *ᵥ dL S delta bs np

/-! ### differences of spectra (CMB_CamSpec.py:304-333) -/

/-- position in the covariance used for multipole `l` in `diff`: start of the spectrum, first common multipole -/
def diffPos (off lmin : Nat) (ells : List Nat) (l : Nat) : Nat := off + (lmin - ells.headD 0) + (l - lmin)

/-- difference of one multipole -/
def diffAt (ci cj di dj fi fj : F) : F := (di * ci - fi) - (dj * cj - fj)

/-- covariance of two multipoles: positions of spectrum one and two for each -/
def diffCov (cov : Nat → Nat → F) (ci cj : F) (p1 q1 p2 q2 : Nat) : F :=
  ci ^ 2 * cov p1 q1 + cj ^ 2 * cov p2 q2 - ci * cj * (cov p2 q1 + cov p1 q2)

/-! ### the tilt of the infrared background (CMB_CamSpec.py:129-131) -/

/-- value kept in an array of integers -/
noncomputable def toInt (x : ℝ) : ℤ := if 0 ≤ x then ⌊x⌋ else ⌈x⌉

/-- `lnrat`: the array is made of integers -/
noncomputable def lnrat (lmin l : Nat) : ℤ := if lmin ≤ l then toInt (Real.log (l / 3000)) else 0

/-! ### end of the constructor and the stored inverse (CMB_CamSpec.py:133-140, 290-302) -/

/-- attributes set by the constructor before the last lines -/
def attributes : List Str :=
  [c!"Nspec", c!"cl_names", c!"ell_ranges", c!"used_sizes", c!"cl_used", c!"data_vector", c!"cov", c!"lmax", c!"lmin", c!"ls", c!"llp1", c!"sz_143", c!"ksz", c!"tszxcib",
    c!"cib_217", c!"dust", c!"lnrat"]

/-- `self.dataset_file` -/
def attr (n : Str) : Except Err Unit := if attributes.contains n then .ok () else .error .attribute

/-- inverse with the stored file: result and new contents -/
def cachedInverse {M : Type} (inv : M) (round : M → M) (cache : Option M) : M × Option M :=
  match cache with
  | some c => (c, some c)
  | none => (inv, some (round inv))

/-- names known in `get_weights`: that of the object is that of the test program -/
def weightsObject (globals : List Str) : Except Err Unit := if globals.contains c!"camspec" then .ok () else .error .name

end Verif.CamSpec
