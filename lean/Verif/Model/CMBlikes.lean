import Verif.Py.Str
import Mathlib.Algebra.Order.Ring.Defs
import Mathlib.Algebra.Field.Defs

/-!
# Binned CMB likelihoods: python/CMBlikes.py

Arrays of numbers are functions of their indices, next to their sizes where a size can be wrong.  The settings of the `.dataset` file are given
already read (`ini.split`, `ini.int`); number files are given as their rows.  Not modelled here: plots, windows files (`Verif.Model.CMBFiles`), `camb` results,
unbinned likelihoods with a covariance.
-/

namespace Verif.CMBlikes
open Verif.Py

inductive Err
  | notFound (name : Str)          -- ValueError of `list.index`
  | invalidName (name : Str)       -- 'CMBLikes: invalid spectrum name'
  | needMapNames                   -- 'CL names must use MAP1xMAP2 names'
  | fieldCount                     -- 'number of map_fields does not match map_names'
  | noFields                       -- 'must have fields_use or map_names'
  | useMapsRequired                -- 'use maps_required not fields_required'
  | duplicate                      -- 'GetColsFromOrder: duplicate CL type'
  | noOrder                        -- 'No column order given for'
  | shape                          -- ValueError, IndexError of numpy
  | tooShort                       -- 'C_l file does not go up to maximum used'
  | orderCount                     -- '_in_order and _out_order must have same number of entries'
deriving DecidableEq, Repr

/-- `l.index(s)` -/
def indexOf (l : List Str) (s : Str) : Except Err Nat := if s ∈ l then .ok (l.idxOf s) else .error (.notFound s)

/-- CMBlikes.py:23-33 `lastTopComment`: the last comment line before the first line of numbers -/
def lastTopComment : List Str → Option Str → Option Str
  | [], _ => none
  | x :: xs, result =>
    match strip x with
    | [] => lastTopComment xs result
    | c :: rest => if c ≠ '#' then result else lastTopComment xs (some (strip rest))

/-! ## Names of maps and spectra -/

/-- CMBlikes.py:155-165 `PairStringToMapIndices` (the separator is one character) -/
def pairIndices (hasNames : Bool) (names : List Str) (sep : Char) (S : Str) : Except Err (Nat × Nat) :=
  if S.length = 2 then
    if hasNames then .error .needMapNames
    else do
      let a ← indexOf names (S.take 1)
      let b ← indexOf names (S.drop 1)
      pure (a, b)
  else match find sep S with
    | none => .error (.invalidName S)
    | some i => do
      let a ← indexOf names (S.take i)
      let b ← indexOf names (S.drop (i + 1))
      pure (a, b)

/-- CMBlikes.py:167-174 `PairStringToUsedMapIndices` -/
def usedPair (used : List Int) (p : Nat × Nat) : Int × Int :=
  let i1 := used.getD p.1 (-1)
  let i2 := used.getD p.2 (-1)
  if i2 > i1 then (i2, i1) else (i1, i2)

/-- CMBlikes.py:190-195 `UseString_to_Cl_i_j` -/
def clPairs (hasNames : Bool) (names : List Str) (sep : Char) (used : List Int) (S : List Str) : Except Err (List (Int × Int)) :=
  S.mapM (fun s => (pairIndices hasNames names sep s).map (usedPair used))

/-- CMBlikes.py:181-187: the loops of `UseString_to_cols` for one pair; state: counter and result -/
def colOf (nmaps : Nat) (p : Int × Int) : Int :=
  if p.1 = -1 ∨ p.2 = -1 then -1
  else
    ((List.range nmaps).foldl (fun st ii =>
      (List.range (ii + 1)).foldl (fun (st : Int × Int) (jj : Nat) => (st.1 + 1, if (ii : Int) = p.1 ∧ (jj : Int) = p.2 then st.1 else st.2)) st) ((0 : Int), (-1 : Int))).2

/-- CMBlikes.py:176-188 `UseString_to_cols` -/
def useCols (hasNames : Bool) (names : List Str) (sep : Char) (used : List Int) (nmaps : Nat) (S : List Str) : Except Err (List Int) :=
  (clPairs hasNames names sep used S).map (fun l => l.map (colOf nmaps))

/-- CMBlikes.py:197-203 `MapPair_to_Theory_i_j` -/
def theoryPair (mapFields : List Nat) (order : List Nat) (a b : Nat) : Nat × Nat :=
  let i := mapFields.getD (order.getD a 0) 0
  let j := mapFields.getD (order.getD b 0) 0
  if i ≤ j then (i, j) else (j, i)

/-- CMBlikes.py:208-214 `Cl_i_j_name` -/
def clName (hasNames : Bool) (sep : Char) (names : List Str) (a b : Nat) : Str :=
  if hasNames then names.getD a [] ++ [sep] ++ names.getD b [] else names.getD a [] ++ names.getD b []

/-- the pairs `(i, j)`, `j ≤ i < n`, in the order of the loops -/
def pairs (n : Nat) : List (Nat × Nat) := (List.range n).flatMap (fun i => (List.range (i + 1)).map (fun j => (i, j)))

/-- CMBlikes.py:222-232, one pass of the loops of `GetColsFromOrder`; the entry of `cols` at this place is still -1 -/
def orderCol (hasNames : Bool) (sep : Char) (used : List Str) (names : List Str) (old : Int) (p : Nat × Nat) : Except Err Int :=
  let name := clName hasNames sep used p.1 p.2
  let name := if name ∉ names ∧ p.1 ≠ p.2 then clName hasNames sep used p.2 p.1 else name
  if name ∈ names then
    if old ≠ -1 then .error .duplicate else .ok (names.idxOf name)
  else .ok old

/-- CMBlikes.py:216-233 `GetColsFromOrder` -/
def orderCols (hasNames : Bool) (sep : Char) (used : List Str) (nmaps : Nat) (order : Str) : Except Err (List Int) :=
  (pairs nmaps).mapM (orderCol hasNames sep used (splitWs (strip order)) (-1))

/-! ## Packing -/

variable {K : Type}

/-- CMBlikes.py:235-242 `elements_to_matrix(X, M)` -/
def toMatrix (n : Nat) (X : Nat → K) (M : Nat → Nat → K) : Nat → Nat → K :=
  ((List.range n).foldl (fun (st : Nat × (Nat → Nat → K)) i =>
    let M := fun r c => if r = i ∧ c < i then X (st.1 + c) else st.2 r c
    let M := fun r c => if c = i ∧ r < i then X (st.1 + r) else M r c
    let ix := st.1 + i
    let M := fun r c => if r = i ∧ c = i then X ix else M r c
    (ix + 1, M)) (0, M)).2

/-- CMBlikes.py:244-248 `matrix_to_elements(M, X)` -/
def toElements (n : Nat) (M : Nat → Nat → K) (X : Nat → K) : Nat → K :=
  ((List.range n).foldl (fun (st : Nat × (Nat → K)) i =>
    (st.1 + (i + 1), fun k => if st.1 ≤ k ∧ k < st.1 + (i + 1) then M i (k - st.1) else st.2 k)) (0, X)).2

/-! ## Which maps are used: CMBlikes.py:324-415 -/

structure Cfg where
  fieldNames : List Str
  mapNames : List Str          -- ini: map_names
  mapFields : List Str
  fieldsUse : List Str
  mapsUse : List Str
  required : List Str          -- ini: maps_required with map names, fields_required without
  fieldsRequiredKey : Bool     -- ini.hasKey('fields_required')

/-- arrays of flags in memory -/
abbrev Heap := List (List Bool)

/-- `a[:]`: a view of the same memory for a numpy array, a new list for a list -/
def sliceAll (numpy : Bool) (h : Heap) (addr : Nat) : Heap × Nat :=
  if numpy then (h, addr) else (h ++ [h.getD addr []], h.length)

/-- the loops at lines 352-356 and 369-373: `flags[map_names.index(m)] = True` -/
def mark (names : List Str) (addr : Nat) : Heap → List Str → Except Err Heap
  | h, [] => .ok h
  | h, m :: ms => if m ∈ names then mark names addr (h.modify addr (fun l => l.set (names.idxOf m) true)) ms else .error (.notFound m)

structure Maps where
  hasNames : Bool
  names : List Str
  fields : List Nat
  use : List Bool
  require : List Bool
deriving DecidableEq, Repr

/-- CMBlikes.py:325-334 -/
def readNames (c : Cfg) : Except Err (Bool × List Str × List Nat) :=
  if c.mapNames ≠ [] then
    if c.mapFields.length ≠ c.mapNames.length then .error .fieldCount
    else do
      let f ← c.mapFields.mapM (indexOf c.fieldNames)
      pure (true, c.mapNames, f)
  else .ok (false, c.fieldNames, List.range c.fieldNames.length)

/-- CMBlikes.py:336-344 `use_theory_field` -/
def theoryUse (c : Cfg) (hasNames : Bool) : Except Err (List Bool) :=
  if c.fieldsUse ≠ [] then do
    let ix ← c.fieldsUse.mapM (indexOf c.fieldNames)
    pure ((List.range c.fieldNames.length).map (fun i => decide (i ∈ ix)))
  else if !hasNames then .error .noFields
  else .ok (List.replicate c.fieldNames.length true)

/-- CMBlikes.py:325-373 -/
def readMaps (c : Cfg) : Except Err Maps := do
  let (hasNames, names, fields) ← readNames c
  let tu ← theoryUse c hasNames
  let h : Heap ← if c.mapsUse ≠ [] then mark names 0 [List.replicate names.length false] c.mapsUse                -- 350-356
    else .ok [(List.range names.length).map (fun i => tu.getD (fields.getD i 0) false)]                           -- 358
  let (h, req) := sliceAll (decide (c.mapsUse ≠ [])) h 0                                                          -- 362
  if hasNames && c.fieldsRequiredKey then .error .useMapsRequired
  else
    let h ← mark names req h c.required
    pure ⟨hasNames, names, fields, h.getD 0 [], h.getD req []⟩

/-- CMBlikes.py:391-396, 399-405: positions of the flagged maps, -1 for the others -/
def indexMap : List Bool → Int → List Int
  | [], _ => []
  | true :: l, ix => ix :: indexMap l (ix + 1)
  | false :: l, ix => -1 :: indexMap l ix

/-- `required_order` (lines 388-396) -/
def flagged (l : List Bool) : List Nat := (List.range l.length).filter (fun i => l.getD i false)

/-- `used_map_order` (lines 400-405) -/
def usedOrder (m : Maps) : List Str := (flagged m.use).map (fun i => m.names.getD i [])

/-- `nmaps`, `nmaps_required` (lines 385-386) -/
def count (l : List Bool) : Nat := (l.filter id).length

/-! ## Reading spectra and covariances -/

/-- CMBlikes.py:262-271: `data`: the rows as (first column as an integer, row); result: `cl[ix, b]` -/
def fillCl [Zero K] (cols : List Int) (binMin binMax : Int) : List (Int × List K) → (Nat → Nat → K) → (Nat → Nat → K)
  | [], cl => cl
  | (L, row) :: rows, cl =>
    fillCl cols binMin binMax rows (if binMin ≤ L ∧ L ≤ binMax then
      fun ix b => if ix < cols.length ∧ cols.getD ix (-1) ≠ -1 ∧ (b : Int) = L - binMin then row.getD (cols.getD ix (-1)).toNat 0 else cl ix b
      else cl)

/-- CMBlikes.py:254-260: the names of the columns -/
def headerOf (order : Str) (top : Option Str) : Except Err Str :=
  if order = [] then (match top with | some (a :: t) => .ok (a :: t) | _ => .error .noOrder) else .ok (c!"L " ++ order)

/-- CMBlikes.py:250-275 `ReadClArr`; `top` is `lastTopComment` of the file.  One row is read by `loadtxt` as a one-dimensional array. -/
def readCl [Zero K] (hasNames : Bool) (sep : Char) (used : List Str) (nmaps : Nat) (binned : Bool) (binMin binMax : Int) (order : Str) (top : Option Str)
    (data : List (Int × List K)) : Except Err (Nat → Nat → K) := do
  let incols ← headerOf order top
  let cols ← orderCols hasNames sep used nmaps incols
  let data := if binned then data.map (fun p => (p.1 - 1, p.2)) else data
  match data with
  | [] => .error .shape
  | [_] => .error .shape
  | d :: ds =>
    if ((ds.getLastD d).1) < binMax then .error .tooShort
    else .ok (fillCl cols binMin binMax (d :: ds) (fun _ _ => 0))

structure Cov (K : Type) where
  clUsed : List Nat          -- `cl_used_index`
  covUsed : List Nat         -- `cov_cl_used`
  numIn : Nat
  mat : Nat → Nat → K        -- the returned matrix, `nbins_used * ncl_used` squared

/-- CMBlikes.py:514-518: the used entries of `cl_in_index` and their positions -/
def usedEntries : List Int → Nat → List (Nat × Nat)
  | [], _ => []
  | x :: xs, i => if x ≥ 0 then (x.toNat, i) :: usedEntries xs (i + 1) else usedEntries xs (i + 1)

/-- CMBlikes.py:503-533 `ReadCovmat` from `cl_in_index`; each entry is written once, by the pass `binx = r / ncl_used`, `biny = c / ncl_used` -/
def readCov [Mul K] (clIn : List Int) (nbins binMin : Nat) (scale : K) (full : Nat → Nat → K) : Cov K :=
  let e := usedEntries clIn 0
  let nu := e.length
  let cov := e.map Prod.snd
  ⟨e.map Prod.fst, cov, clIn.length,
    (List.range nbins).foldl (fun P binx => (List.range nbins).foldl (fun P biny => fun r c =>
      if binx * nu ≤ r ∧ r < (binx + 1) * nu ∧ biny * nu ≤ c ∧ c < (biny + 1) * nu then
        scale * full ((binx + binMin) * clIn.length + cov.getD (r - binx * nu) 0) ((biny + binMin) * clIn.length + cov.getD (c - biny * nu) 0)
      else P r c) P) (fun _ _ => full 0 0)⟩

/-! ## Theory -/

/-- CMBlikes.py:111-114 `ClsArray.get` -/
def clsGet (arr : Nat → Nat → Option (List K)) (p : Nat × Nat) : Option (List K) := if p.2 > p.1 then arr p.2 p.1 else arr p.1 p.2

/-- `a[:] = v` for an array of `n` numbers: numpy repeats a single value -/
def assignAll (n : Nat) (v : List K) : Except Err (List K) :=
  if v.length = n then .ok v else match v with
    | [x] => .ok (List.replicate n x)
    | _ => .error .shape

/-- CMBlikes.py:582-586 for one pair of maps -/
def theoryCl [Zero K] (lmin lmax : Nat) (cl : Option (List K)) : Except Err (List K) :=
  match cl with
  | some l => assignAll (lmax + 1 - lmin) ((l.take (lmax + 1)).drop lmin)
  | none => .ok (List.replicate (lmax + 1 - lmin) 0)

section
variable [Field K]

/-- CMBlikes.py:604-625 `add_aberration` for one spectrum.  A spectrum of one value is an IndexError (`cl_deriv[1]`). -/
def aberrate (lmin : Nat) (coeff : K) (cl : List K) : Except Err (List K) :=
  if cl.length < 2 then .error .shape
  else
    let n := cl.length
    let ell : Nat → K := fun i => ((lmin + i : Nat) : K)
    let norm : Nat → K := fun i => ell i * (ell i + 1)
    let d0 : Nat → K := fun i => cl.getD i 0 / norm i
    let d1 : Nat → K := fun i => if 1 ≤ i ∧ i + 1 < n then (d0 (i + 1) - d0 (i - 1)) / 2 else d0 i
    let d2 : Nat → K := fun i => if i = 0 then d1 1 else d1 i
    let d3 : Nat → K := fun i => if i = n - 1 then d2 (n - 2) else d2 i
    .ok ((List.range n).map (fun i => cl.getD i 0 + coeff * (d3 i * norm i * ell i)))

/-- CMBlikes.py:590-599 `adapt_theory_for_maps` for one spectrum with fields `ij`; `add_foregrounds` does nothing here.
`coeff ≠ 0` switches the aberration on. -/
def adapt [DecidableEq K] (lmin : Nat) (coeff : K) (calib : Option K) (ij : Nat × Nat) (cl : List K) : Except Err (List K) := do
  let cl ← if coeff ≠ 0 ∧ ij.1 ≤ 2 ∧ ij.2 ≤ 2 then aberrate lmin coeff cl else .ok cl
  match calib with
  | some c => if ij.1 ≤ 2 ∧ ij.2 ≤ 2 then .ok (cl.map (fun x => x / c ^ 2)) else .ok cl
  | none => .ok cl

structure Win (K : Type) where
  colsIn : List (Int × Int)
  colsOut : List Int
  mat : Nat → Nat → List K       -- `binning_matrix[i, b, :]`

/-- `TheoryCls[x, y]` of an `n` by `n` array where only `j ≤ i` is set; negative indices count from the end -/
def clAt (n : Nat) (cls : Nat → Nat → List K) (x y : Int) : Except Err (Option (List K)) :=
  let w (i : Int) : Int := if i < 0 then i + n else i
  if 0 ≤ w x ∧ w x < n ∧ 0 ≤ w y ∧ w y < n then
    .ok (if w y ≤ w x then some (cls (w x).toNat (w y).toNat) else none)
  else .error .shape

/-- `np.dot` -/
def dot (u v : List K) : K := (List.zipWith (· * ·) u v).sum

/-- CMBlikes.py:126-128, one term -/
def binTerm (W : Win K) (n : Nat) (cls : Nat → Nat → List K) (P : Nat → Nat → K) (e : ((Int × Int) × Int) × Nat) : Except Err (Nat → Nat → K) := do
  let cl ← clAt n cls e.1.1.1 e.1.1.2
  match cl with
  | some cl => if e.1.2 ≥ 0 then .ok (fun b c => if (c : Int) = e.1.2 then P b c + dot (W.mat e.2 b) cl else P b c) else .ok P
  | none => .ok P

/-- CMBlikes.py:123-129 `BinWindows.bin(TheoryCls)`: number of columns and values `[b, c]` -/
def binCls (W : Win K) (n : Nat) (cls : Nat → Nat → List K) : Except Err (Nat × (Nat → Nat → K)) :=
  match (W.colsOut.filter (fun x => decide (x ≥ 0))).max? with
  | none => .error .shape
  | some m => ((W.colsIn.zip W.colsOut).zipIdx.foldlM (binTerm W n cls) (fun _ _ => 0)).map (fun P => ((m + 1).toNat, P))

/-! ## The Gaussian likelihood -/

structure Like (K : Type) where
  nmaps : Nat
  nreq : Nat
  theoryIJ : Nat → Nat → Nat × Nat
  lmin : Nat
  lmax : Nat
  nbins : Nat
  win : Win K
  corr : Option (Win K × (Nat → Nat → K))     -- `linear_correction`, `fid_correction[c, b]`
  noise : Option (Nat → Nat → K)              -- `cl_noise[c, b]`
  band : Nat → Nat → K                        -- `bandpowers[c, b]`
  clUsed : List Nat
  covinv : Nat → Nat → K
  aberration : K

/-- CMBlikes.py:431-438 for `like_approx = gaussian`: the band powers and the noise that are kept -/
def readNoise (includesNoise : Bool) (hat noise : Nat → Nat → K) : (Nat → Nat → K) × Option (Nat → Nat → K) :=
  if includesNoise then (fun c b => hat c b - noise c b, some noise) else (hat, none)

/-- CMBlikes.py:578-588 `get_theory_map_cls`; `theory[i, j]` as in `ClsArray`; the result for `j ≤ i < nreq` in the order of the loops -/
def mapCls [DecidableEq K] (L : Like K) (theory : Nat → Nat → Option (List K)) (calib : Option K) : Except Err (Nat → Nat → List K) := do
  let l ← (pairs L.nreq).mapM (fun p => do
    let cl ← theoryCl L.lmin L.lmax (clsGet theory (L.theoryIJ p.1 p.2))
    adapt L.lmin L.aberration calib (L.theoryIJ p.1 p.2) cl)
  pure (fun i j => l.getD ((pairs L.nreq).idxOf (i, j)) [])

/-- CMBlikes.py:572-576 `get_binned_map_cls`; arrays of different sizes are a ValueError (broadcasting of one column excluded) -/
def binned (L : Like K) (cls : Nat → Nat → List K) : Except Err (Nat × (Nat → Nat → K)) := do
  let (m, P) ← binCls L.win L.nreq cls
  match L.corr with
  | none => pure (m, P)
  | some (W, fid) => do
    let (m', Q) ← binCls W L.nreq cls
    if m' ≠ L.nmaps * (L.nmaps + 1) / 2 ∨ m ≠ m' then .error .shape
    else pure (m, fun b c => P b c + (Q b c - fid c b))

/-- CMBlikes.py:687-709 for one bin -/
def binVector (L : Like K) (X : Nat → K) (b : Nat) : Nat → K :=
  let C := toMatrix L.nmaps X (fun _ _ => 0)
  let C := match L.noise with
    | some N => let M := toMatrix L.nmaps (fun c => N c b) (fun _ _ => 0); fun i j => C i j + M i j
    | none => C
  let B := toMatrix L.nmaps (fun c => L.band c b) (fun _ _ => 0)
  toElements L.nmaps (fun i j => C i j - B i j) (fun _ => 0)

/-- `covinv.dot(x).dot(x)` (lines 19-20) -/
def chi2 (n : Nat) (covinv : Nat → Nat → K) (x : Nat → K) : K :=
  ((List.range n).map (fun r => ((List.range n).map (fun c => covinv r c * x c)).sum * x r)).sum

/-- CMBlikes.py:670-719 `chi_squared` for a binned Gaussian likelihood without prior on the calibration -/
def chiSquared [DecidableEq K] (L : Like K) (theory : Nat → Nat → Option (List K)) (calib : Option K) : Except Err K := do
  let cls ← mapCls L theory calib
  let (m, P) ← binned L cls
  if m < L.nmaps * (L.nmaps + 1) / 2 then .error .shape       -- elements_to_matrix: X[ix]
  else
    let nu := L.clUsed.length
    pure (chi2 (L.nbins * nu) L.covinv (fun r => binVector L (fun c => P (r / nu) c) (r / nu) (L.clUsed.getD (r % nu) 0)))

end
end Verif.CMBlikes
