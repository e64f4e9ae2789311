import Verif.Model.DES

/-!
# Model of the original files of DES (`python/planck/DES.py:24-88, 91-108, 188-239, 604-610, 621-681`)

The likelihood can be read from a `.fits` file or from a data set in text form that `convert_txt` makes of it; `Model/DES` has the reading of
data sets.  Modelled: the default cuts, the choice of the format, measurements, angles and selection of `load_fits_data`, the same of `convert_txt`, `make_thetas`.

Simplified: a table of a `.fits` file is the list of its rows; numbers are written without rounding (the formats are `%.8e` and `%.4e`); the
assertions that the angles of all tables agree (DES.py:228-245) are left out; covariance, redshift distributions and sizes of the arrays are left out.
-/

namespace Verif.DESFits
open Verif.Py Verif.DES

/-- row of a table: bins (from one), angular bin (from zero), value, angle -/
structure FRow (K : Type) where
  bin1 : Nat
  bin2 : Nat
  ang : Nat
  val : K
  theta : K
deriving DecidableEq

/-- limits by type and bins, from zero -/
abbrev Cuts (K : Type) := Dict (Str × Nat × Nat) (K × K)

/-- `def_DES_types` (DES.py:21) -/
def types : List Str := [c!"xip", c!"xim", c!"gammat", c!"wtheta"]

/-- the assignments of `get_def_cuts` (DES.py:28-85), bins from one -/
def cutTable : Dict (Str × Nat × Nat) (ℚ × ℚ) :=
  [((c!"xip", 1, 1), (1439001 / 200000, 250)), ((c!"xip", 1, 2), (1439001 / 200000, 250)), ((c!"xip", 1, 3), (1428799 / 250000, 250)), ((c!"xip", 1, 4), (1428799 / 250000, 250)),
   ((c!"xip", 2, 1), (1439001 / 200000, 250)), ((c!"xip", 2, 2), (4539741 / 1000000, 250)), ((c!"xip", 2, 3), (4539741 / 1000000, 250)), ((c!"xip", 2, 4), (4539741 / 1000000, 250)),
   ((c!"xip", 3, 1), (1428799 / 250000, 250)), ((c!"xip", 3, 2), (4539741 / 1000000, 250)), ((c!"xip", 3, 3), (721209 / 200000, 250)), ((c!"xip", 3, 4), (721209 / 200000, 250)),
   ((c!"xip", 4, 1), (1428799 / 250000, 250)), ((c!"xip", 4, 2), (4539741 / 1000000, 250)), ((c!"xip", 4, 3), (721209 / 200000, 250)), ((c!"xip", 4, 4), (721209 / 200000, 250)),
   ((c!"xim", 1, 1), (362319 / 4000, 250)), ((c!"xim", 1, 2), (71950053 / 1000000, 250)), ((c!"xim", 1, 3), (71950053 / 1000000, 250)), ((c!"xim", 1, 4), (71950053 / 1000000, 250)),
   ((c!"xim", 2, 1), (71950053 / 1000000, 250)), ((c!"xim", 2, 2), (28575979 / 500000, 250)), ((c!"xim", 2, 3), (28575979 / 500000, 250)), ((c!"xim", 2, 4), (22698707 / 500000, 250)),
   ((c!"xim", 3, 1), (71950053 / 1000000, 250)), ((c!"xim", 3, 2), (28575979 / 500000, 250)), ((c!"xim", 3, 3), (22698707 / 500000, 250)), ((c!"xim", 3, 4), (22698707 / 500000, 250)),
   ((c!"xim", 4, 1), (71950053 / 1000000, 250)), ((c!"xim", 4, 2), (22698707 / 500000, 250)), ((c!"xim", 4, 3), (22698707 / 500000, 250)), ((c!"xim", 4, 4), (1126889 / 31250, 250)),
   ((c!"gammat", 1, 1), (64, 250)), ((c!"gammat", 1, 2), (64, 250)), ((c!"gammat", 1, 3), (64, 250)), ((c!"gammat", 1, 4), (64, 250)),
   ((c!"gammat", 2, 1), (40, 250)), ((c!"gammat", 2, 2), (40, 250)), ((c!"gammat", 2, 3), (40, 250)), ((c!"gammat", 2, 4), (40, 250)),
   ((c!"gammat", 3, 1), (30, 250)), ((c!"gammat", 3, 2), (30, 250)), ((c!"gammat", 3, 3), (30, 250)), ((c!"gammat", 3, 4), (30, 250)),
   ((c!"gammat", 4, 1), (24, 250)), ((c!"gammat", 4, 2), (24, 250)), ((c!"gammat", 4, 3), (24, 250)), ((c!"gammat", 4, 4), (24, 250)),
   ((c!"gammat", 5, 1), (21, 250)), ((c!"gammat", 5, 2), (21, 250)), ((c!"gammat", 5, 3), (21, 250)), ((c!"gammat", 5, 4), (21, 250)),
   ((c!"wtheta", 1, 1), (43, 250)), ((c!"wtheta", 2, 2), (27, 250)), ((c!"wtheta", 3, 3), (20, 250)), ((c!"wtheta", 4, 4), (16, 250)),
   ((c!"wtheta", 5, 5), (14, 250))]

/-- `get_def_cuts` (DES.py:24-88): `[1:, 1:]` -/
def defCuts : Cuts ℚ := cutTable.map (fun e => ((e.1.1, e.1.2.1 - 1, e.1.2.2 - 1), e.2))

/-- `DES_like.__init__` (DES.py:101-108): which reader -/
inductive Format
  | fits
  | dataset
deriving DecidableEq

def formatOf (filename : Str) (params : Dict Str Str) : Except Err Format :=
  if contains c!".fits" filename then (if params = [] then .ok .fits else .error .value) else .ok .dataset

/-- attributes that each reader sets, other than data (DES.py:121, 194) -/
def attributes : Format → List Str
  | .fits => [c!"intrinsic_alignment_model"]
  | .dataset => [c!"iintrinsic_alignment_model", c!"kmax"]

section
variable {K : Type}

/-- the item of a row, bins from zero (DES.py:206-207) -/
def itemOf (i : Nat) (r : FRow K) : Item := (i, r.bin1 - 1, r.bin2 - 1, r.ang)

/-- a pair of bins that is new is appended -/
def addPair {α : Type} [DecidableEq α] (ps : List α) (p : α) : List α := if p ∈ ps then ps else ps ++ [p]

variable [LinearOrder K]

/-- one row (DES.py:206-215 and the filling of the arrays 223-246); `mn, mx = None` is a TypeError -/
def step (cuts : Cuts K) (i : Nat) (tp : Str) (s : St K) (r : FRow K) : Except Err (St K) :=
  match Dict.get? cuts (tp, r.bin1 - 1, r.bin2 - 1) with
  | none => .error .type
  | some lim => .ok
    { indices := s.indices ++ [itemOf i r]
      pairs := addPair s.pairs (i, r.bin1 - 1, r.bin2 - 1)
      arrays := Dict.set s.arrays (itemOf i r) r.val
      usedIdx := if lim.1 < r.theta ∧ r.theta < lim.2 then s.usedIdx ++ [s.indices.length] else s.usedIdx
      usedItems := if lim.1 < r.theta ∧ r.theta < lim.2 then s.usedItems ++ [itemOf i r] else s.usedItems }

/-- the rows of one table -/
def rowsLoop (cuts : Cuts K) (i : Nat) (tp : Str) : St K → List (FRow K) → Except Err (St K)
  | s, [] => .ok s
  | s, r :: rs => match step cuts i tp s r with
    | .error e => .error e
    | .ok s => rowsLoop cuts i tp s rs

/-- all tables (DES.py:203-215) -/
def tablesLoop (cuts : Cuts K) : Nat → List (Str × List (FRow K)) → St K → Except Err (St K)
  | _, [], s => .ok s
  | i, f :: fs, s => match rowsLoop cuts i f.1 s f.2 with
    | .error e => .error e
    | .ok s => tablesLoop cuts (i + 1) fs s

/-- measurements and selection of `load_fits_data` (DES.py:188-246) -/
def loadFits (cuts : Cuts K) (tables : List (Str × List (FRow K))) : Except Err (St K) := tablesLoop cuts 0 tables ⟨[], [], [], [], []⟩

/-! ### `convert_txt` (DES.py:621-681) -/

/-- the pairs of bins of a table, in order (DES.py:643-645) -/
def pairsOf (rows : List (FRow K)) : List (Nat × Nat) := rows.foldl (fun ps r => addPair ps (r.bin1, r.bin2)) []

/-- the lines of the selection for given pairs (DES.py:646-647); `None[0]` is a TypeError -/
def selLines (cuts : Cuts K) (tp : Str) : List (Nat × Nat) → Except Err (List (Sel K))
  | [] => .ok []
  | p :: ps => match Dict.get? cuts (tp, p.1 - 1, p.2 - 1) with
    | none => .error .type
    | some lim => match selLines cuts tp ps with
      | .error e => .error e
      | .ok l => .ok (⟨tp, p.1, p.2, lim.1, lim.2⟩ :: l)

/-- a row of the text: angular bins count from one (DES.py:649-651) -/
def textRow (r : FRow K) : Row K := ⟨r.bin1, r.bin2, r.ang + 1, r.val⟩

/-- the rows of one table as text; `np.asarray(zip(...))` is no table with Python 3, where `zip` is an iterator (DES.py:649-651) -/
def textRows (py3 : Bool) (rows : List (FRow K)) : Except Err (List (Row K)) := if py3 then .error .index else .ok (rows.map textRow)

/-- the tables: selection and measurements -/
def convertTables (py3 : Bool) (cuts : Cuts K) : List (Str × List (FRow K)) → Except Err (List (Sel K) × List (Str × List (Row K)))
  | [] => .ok ([], [])
  | f :: fs => match selLines cuts f.1 (pairsOf f.2) with
    | .error e => .error e
    | .ok sel => match textRows py3 f.2 with
      | .error e => .error e
      | .ok rows => match convertTables py3 cuts fs with
        | .error e => .error e
        | .ok r => .ok (sel ++ r.1, (f.1, rows) :: r.2)

/-- the rows of a table by name -/
def table (tables : List (Str × List (FRow K))) (tp : Str) : List (FRow K) := ((tables.find? (fun f => f.1 = tp)).map (·.2)).getD []

/-- `ntheta` (DES.py:633); `none`: `max` of nothing -/
def ntheta (tables : List (Str × List (FRow K))) : Option Nat := (((table tables c!"wtheta").map (·.ang)).max?).map (· + 1)

/-- `thetas` (DES.py:635) -/
def thetas (tables : List (Str × List (FRow K))) : Option (List K) := (ntheta tables).map (fun n => ((table tables c!"xip").take n).map (·.theta))

/-- the files of `convert_txt` -/
structure Text (K : Type) where
  angles : List K
  sel : List (Sel K)
  data : List (Str × List (Row K))

def convert (py3 : Bool) (cuts : Cuts K) (tables : List (Str × List (FRow K))) : Except Err (Text K) :=
  match thetas tables with
  | none => .error .value
  | some th => match convertTables py3 cuts tables with
    | .error e => .error e
    | .ok r => .ok ⟨th, r.1, r.2⟩

/-- `make_thetas` (DES.py:604-609); `none`: IndexError -/
def makeThetas (angles : List K) (used : List Item) : Option (List K) := used.mapM (fun it => angles[it.2.2.2]?)

end
end Verif.DESFits
