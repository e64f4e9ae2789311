import Verif.Model.CMBlikes
import Verif.Py.Dict
import Verif.Py.Num

/-!
# Files of CMB likelihoods: python/CMBlikes.py:36-46, 49-136, 277-300, 415-430, 480-498, 539-575, 627-641, 724-729

Tables of theory spectra (`ClsArray`), window functions, the calibration parameter, the table of foregrounds and the plot.  A file of numbers is its lines of text
(for the comment at the top) and its rows as `np.loadtxt` reads them, which are all of one length; `np.loadtxt` gives a one-dimensional array for a file with one
row, whose `[:, ix]` is an error.  `astype(int)` is a given function to the naturals: multipoles are not negative.  Spectra from `camb` are not modelled.
-/

namespace Verif.CMBFiles
open Verif.Py
open Verif.CMBlikes (lastTopComment pairs)

inductive Err
  | notFound (name : Str)     -- ValueError of `list.index`
  | noComment                 -- 'No Comment'
  | attribute                 -- `None.split()`
  | shape                     -- IndexError, ValueError of numpy
  | type
  | format                    -- 'unsupported format character', 'not enough arguments'
  | key (name : Str)          -- KeyError
  | noDirectory               -- IOError of `open`
  | calibration               -- the exceptions of lines 486, 493
  | orderCount                -- '_in_order and _out_order must have same number of entries'
deriving DecidableEq, Repr

variable {K : Type}

structure File (K : Type) where
  lines : List Str
  rows : List (List K)

/-- `l.index(s)` -/
def indexOf (l : List Str) (s : Str) : Except Err Nat := if s ∈ l then .ok (l.idxOf s) else .error (.notFound s)

/-- `r[ix]` for each row -/
def entry (ix : Nat) (r : List K) : Except Err K := match r[ix]? with | some x => .ok x | none => .error .shape

/-- `dat[:, ix]` -/
def column (rows : List (List K)) (ix : Nat) : Except Err (List K) :=
  if rows.length ≤ 1 then .error .shape else rows.mapM (entry ix)

/-- CMBlikes.py:36-39 `readTextCommentColumns`: the columns, in the order asked for -/
def readTextCommentColumns (f : File K) (cols : List Str) : Except Err (List (List K)) :=
  match lastTopComment f.lines none with
  | none => .error .attribute
  | some x => do
    let nums ← cols.mapM (indexOf (splitWs x))
    nums.mapM (column f.rows)

/-- CMBlikes.py:42-46 `readWithHeader` -/
def readWithHeader (f : File K) : Except Err (List Str × List (List K)) :=
  match lastTopComment f.lines none with
  | some (a :: t) => .ok (splitWs (a :: t), f.rows)
  | _ => .error .noComment

/-! ## `ClsArray` -/

structure Cls (K : Type) where
  names : List Str
  arr : Nat → Nat → Option (List K)      -- `cls_array`
  lmin : Nat
  lmax : Nat

/-- CMBlikes.py:52-58: before a file is read -/
def empty (names : List Str) : Cls K := ⟨names, fun _ _ => none, 0, 0⟩

/-- CMBlikes.py:98-104: the column of a pair of fields -/
def colIndex (cols : List Str) (f f2 : Str) : Option Nat :=
  if f ++ f2 ∈ cols then some (cols.idxOf (f ++ f2))
  else if f2 ++ f ∈ cols then some (cols.idxOf (f2 ++ f))
  else none

/-- `l[a:b] = v` of numpy -/
def assignSlice (l : List K) (a b : Nat) (v : List K) : Except Err (List K) :=
  let n := min b l.length - a
  if v.length = n then .ok (l.take a ++ v ++ l.drop (a + n))
  else match v with
    | [x] => .ok (l.take a ++ List.replicate n x ++ l.drop (a + n))
    | _ => .error .shape

/-- CMBlikes.py:105-107 for one column -/
def spectrum [Zero K] (rows : List (List K)) (lmin lmax selfLmax ix : Nat) : Except Err (List K) := do
  let v ← column rows ix
  let cls ← assignSlice (List.replicate (max (selfLmax + 1) (lmax + 1)) 0) lmin (lmax + 1) v
  pure (cls.take (selfLmax + 1))

/-- `cls_array[i, j] = l` -/
def put (arr : Nat → Nat → Option (List K)) (i j : Nat) (l : List K) : Nat → Nat → Option (List K) :=
  fun a b => if a = i ∧ b = j then some l else arr a b

/-- CMBlikes.py:94-107, one pass of the loops -/
def loadPair [Zero K] (cols : List Str) (rows : List (List K)) (lmin lmax selfLmax : Nat) (addOnly : Bool) (names : List Str)
    (arr : Nat → Nat → Option (List K)) (p : Nat × Nat) : Except Err (Nat → Nat → Option (List K)) :=
  if addOnly && (arr p.1 p.2).isSome then .ok arr
  else match colIndex cols (names.getD p.1 []) (names.getD p.2 []) with
    | none => .ok arr
    | some ix => (spectrum rows lmin lmax selfLmax ix).map (put arr p.1 p.2)

/-- CMBlikes.py:79-84: names of columns and rows.  `cols`, when given, is already split. -/
def colsOf (f : File K) (cols : Option (List Str)) : Except Err (List Str × List (List K)) :=
  match cols with
  | none => readWithHeader f
  | some c => .ok (c, f.rows)

/-- CMBlikes.py:79-107 `loadFromFile`; `add_from_file` (109-110) is the same with `addOnly` -/
def loadFromFile [Zero K] (int : K → Nat) (s : Cls K) (f : File K) (cols : Option (List Str)) (addOnly : Bool) : Except Err (Cls K) := do
  let (cols, rows) ← colsOf f cols
  let Lix ← indexOf cols c!"L"
  let L ← column rows Lix
  match L with
  | [] => .error .shape
  | l :: ls =>
    let lmin := int l
    let lmax := int (ls.getLastD l)
    let s := if addOnly then s else { s with lmin := lmin, lmax := lmax }
    let arr ← (pairs s.names.length).foldlM (loadPair cols rows lmin lmax s.lmax addOnly s.names) s.arr
    pure { s with arr := arr }

/-- CMBlikes.py:76-77, one pass: `cls_array[i, j]` of an array of `n` by `n` -/
def scalePair [Mul K] (n : Nat) (c : K) (arr : Nat → Nat → Option (List K)) (p : Nat × Nat) : Except Err (Nat → Nat → Option (List K)) :=
  if p.1 < n ∧ p.2 < n then
    match arr p.1 p.2 with
    | some l => .ok (put arr p.1 p.2 (l.map (fun x => x * c)))
    | none => .ok arr
  else .error .shape

/-- the pairs of the loops of lines 73-74 -/
def fourPairs : List (Nat × Nat) := (List.range 4).flatMap (fun i => (List.range 4).map (fun j => (i, j)))

/-- CMBlikes.py:72-77 -/
def rescale [Mul K] (s : Cls K) (c : K) : Except Err (Cls K) :=
  (fourPairs.foldlM (scalePair s.names.length c) s.arr).map (fun arr => { s with arr := arr })

/-! ## Windows -/

/-- `m[:, b, k] = w` for an array with `n` entries in its first place -/
def weights (n : Nat) (w : List K) : Except Err (List K) :=
  if w.length = n then .ok w else match w with
    | [x] => .ok (List.replicate n x)
    | _ => .error .shape

/-- the window of one bin: `[i, L - pcl_lmin]`, and `Err` of line 293 -/
structure Window (K : Type) where
  mat : Nat → Nat → K
  err : Bool

/-- CMBlikes.py:294-298, one row -/
def windowRow [Zero K] [DecidableEq K] (int : K → Nat) (n lmin lmax : Nat) (w : Window K) (r : List K) : Except Err (Window K) :=
  match r with
  | [] => .error .shape
  | l :: ws =>
    if lmin ≤ int l ∧ int l ≤ lmax then
      (weights n ws).map (fun v => { w with mat := fun i k => if i < n ∧ k = int l - lmin then v.getD i 0 else w.mat i k })
    else .ok { w with err := w.err || ws.any (fun x => decide (x ≠ 0)) }

/-- CMBlikes.py:292-298: one file -/
def readWindow [Zero K] [DecidableEq K] (int : K → Nat) (n lmin lmax : Nat) (rows : List (List K)) : Except Err (Window K) :=
  if rows.length ≤ 1 then .error .shape else rows.foldlM (windowRow int n lmin lmax) ⟨fun _ _ => 0, false⟩

/-- CMBlikes.py:299: number of the bin and of the file shown -/
structure Warning where
  bin : Nat
  file : Nat
deriving DecidableEq, Repr

structure Windows (K : Type) where
  mat : Nat → Nat → Nat → K        -- `binning_matrix[i, b, k]`
  warnings : List Warning

/-- one pass of the loop at line 291; `files k` is the file with number `k` -/
def readBin [Zero K] [DecidableEq K] (int : K → Nat) (n lmin lmax binMin : Nat) (files : Nat → List (List K)) (W : Windows K) (b : Nat) : Except Err (Windows K) := do
  let w ← readWindow int n lmin lmax (files (b + 1 + binMin))
  pure ⟨fun i b' k => if b' = b then w.mat i k else W.mat i b' k, if w.err then W.warnings ++ [⟨b, b + 1⟩] else W.warnings⟩

/-- CMBlikes.py:277-303 `readBinWindows`, `nIn` and `nOut` being the numbers of entries of the two orders -/
def readBinWindows [Zero K] [DecidableEq K] (int : K → Nat) (nIn nOut lmin lmax binMin nbins : Nat) (files : Nat → List (List K)) : Except Err (Windows K) :=
  if nIn ≠ nOut then .error .orderCount
  else (List.range nbins).foldlM (readBin int nIn lmin lmax binMin files) ⟨fun _ _ _ => 0, []⟩

/-- CMBlikes.py:415-418: `bin_min`, `bin_max`, `nbins_used` -/
def binRange (nbins : Int) (useMin useMax : Option Int) : Int × Int × Int :=
  let a := useMin.getD 1 - 1
  let b := useMax.getD nbins - 1
  (a, b, b - a + 1)

/-! ## `%` of strings -/

/-- the conversion character of a specification after `%`, and the rest -/
def conversion (s : Str) : Option (Char × Str) :=
  let s := s.dropWhile (fun c => decide (c ∈ c!"-+ #0"))
  let s := s.dropWhile Char.isDigit
  let s := match s with | '.' :: t => t.dropWhile Char.isDigit | t => t
  let s := match s with | c :: t => if c ∈ c!"hlL" then t else c :: t | [] => []
  match s with
  | c :: t => some (c, t)
  | [] => none

/-- the conversions of a format, or an error for a character that is none -/
def conversions : Nat → Str → Except Err (List Char)
  | 0, _ => .ok []
  | _ + 1, [] => .ok []
  | k + 1, c :: t =>
    if c = '%' then
      match conversion t with
      | none => .error .format
      | some (c, t) =>
        if c = '%' then conversions k t
        else if c ∈ c!"diouxXeEfFgGcrsa" then (conversions k t).map (fun l => c :: l)
        else .error .format
    else conversions k t

/-- whether `fmt % args` has a value for numbers `args` -/
def formats (fmt : Str) (nargs : Nat) : Except Err Unit := do
  let l ← conversions fmt.length fmt
  if l.length = nargs then pure () else .error .format

/-- `s * n` -/
def times (s : Str) : Nat → Str
  | 0 => []
  | n + 1 => s ++ times s n

/-! ## Writing -/

/-- `pcl_lmin` is a number in `readBinWindows` (line 278), not a list -/
inductive Limit
  | number (n : Nat)
  | list (l : List Nat)

/-- `l[b]` -/
def Limit.at (l : Limit) (b : Nat) : Except Err Nat :=
  match l with
  | .number _ => .error .type
  | .list l => match l[b]? with | some x => .ok x | none => .error .shape

/-- directories after the call, and the numbers of the files opened -/
structure Disk where
  dirs : List Str
  opened : List Nat
deriving DecidableEq, Repr

/-- CMBlikes.py:134-136 for one multipole: `cols_in` has two rows, and one array is given for its places -/
def windowLine : Except Err Unit := formats (c!"%5u " ++ times c!"%10e" 2 ++ c!"\n") 2

/-- CMBlikes.py:132-136 for bin `b` -/
def writeBin (dir : Str) (lmin lmax : Limit) (d : Disk) (b : Nat) : Except Err Disk := do
  if dir ∉ d.dirs then .error .noDirectory
  else
    let d := { d with opened := d.opened ++ [b + 1] }
    let a ← lmin.at b
    let z ← lmax.at b
    if a ≤ z then windowLine else pure ()
    pure d

/-- CMBlikes.py:131-136 `BinWindows.write(froot, stem)` -/
def writeWindows (froot stem : Str) (lmin lmax : Limit) (nbins : Nat) (d : Disk) : Except Err Disk :=
  let d := if froot ++ stem ++ c!"_window" ∈ d.dirs then d else { d with dirs := d.dirs ++ [froot ++ c!"_window"] }
  (List.range nbins).foldlM (writeBin (froot ++ stem ++ c!"_window") lmin lmax) d

/-- CMBlikes.py:635-640: one line of `write_likelihood_data` with `ncols` spectra -/
def dataLine (ncols : Nat) : Except Err Unit := formats (c!"%I5 " ++ times c!"%17.8e " ncols) (1 + ncols)

/-- CMBlikes.py:627-640 `write_likelihood_data`: number of lines of numbers written -/
def writeData (ncols lmin lmax : Nat) : Except Err Nat :=
  (List.range (lmax + 1 - lmin)).foldlM (fun k _ => (dataLine ncols).map (fun _ => k + 1)) 0

/-! ## Calibration -/

structure CalCfg where
  nuisance : Bool             -- ini.hasKey('nuisance_params')
  calKey : Bool               -- ini.hasKey('calibration_param')
  calName : Option Str        -- calibration_paramname, when the key is there
  calFile : Str               -- ini.string('calibration_param', '')
  params : List Str           -- the names in the file of nuisance parameters read
  prior : Option Int          -- log_calibration_prior, when the key is there (its sign is what matters to `readIni`)

/-- CMBlikes.py:480-497: `calibration_param`; the file name is relative to the data set, which does not change its end -/
def calibrationParam (c : CalCfg) : Except Err (Option Str) :=
  if c.nuisance then
    if c.calKey then .error .calibration else .ok c.calName
  else if c.calFile ≠ [] then
    if c!".paramnames" <:+: c.calFile then
      match c.params with
      | p :: _ => .ok (some p)
      | [] => .error .shape
    else .error .calibration
  else .ok none

/-- CMBlikes.py:594: by what the spectra are divided -/
def calibrationOf [One K] [Mul K] (calib : Option Str) (data : Dict Str K) : K :=
  match calib with
  | some p => (match data.get? p with | some c => c * c | none => 1)
  | none => 1

/-- CMBlikes.py:714-715: the prior on the calibration -/
def priorTerm [Zero K] [LT K] [DecidableLT K] [Div K] [Mul K] (log : K → K) (prior : K) (calib : Option Str) (data : Dict Str K) : Except Err K :=
  if prior > 0 then
    match calib with
    | none => .error (.key [])
    | some p => match data.get? p with
      | some c => .ok (log c / prior * (log c / prior))
      | none => .error (.key p)
  else .ok 0

/-! ## Plots -/

/-- CMBlikes.py:544-550 `get_full_bandpower_column` -/
def bandColumn (headers : List Str) (rows : List (List K)) (name : Str) : Except Err (List K) := do
  let ix ← indexOf headers name
  column rows ix

inductive Arg (K : Type)
  | name (s : Str)
  | cls (c : Cls K)

structure Drawn (K : Type) where
  points : List (K × K × K)      -- multipole, band power and its error
  curve : Bool                   -- whether a theory curve is drawn

/-- `ax.errorbar(x, y, yerr)` -/
def errorbar (x y e : List K) : Except Err (List (K × K × K)) :=
  if x.length = y.length ∧ y.length = e.length then .ok (x.zip (y.zip e)) else .error .shape

/-- CMBlikes.py:555-575 `plot(column, ClArray)`, with the diagonal errors given -/
def plot (headers : List Str) (rows : List (List K)) (sigma : List K) (_column : Arg K) (clArray : Option (Arg K)) : Except Err (Drawn K) := do
  let lbin ← bandColumn headers rows c!"L_av"
  let band ← bandColumn headers rows c!"PP"
  let pts ← errorbar lbin band sigma
  pure ⟨pts, clArray.isSome⟩

/-- the call `d.plot(cls)` of line 727: the first argument is `column` -/
def plotCall (headers : List Str) (rows : List (List K)) (sigma : List K) (args : List (Arg K)) : Except Err (Drawn K) :=
  match args with
  | [] => plot headers rows sigma (.name c!"PP") none
  | [c] => plot headers rows sigma c none
  | c :: a :: _ => plot headers rows sigma c (some a)

/-- CMBlikes.py:552-553 `diag_sigma` -/
def diagSigma (sqrt : K → K) (cov : List (List K)) : List K := ((List.range cov.length).filterMap (fun i => (cov[i]?).bind (fun r => r[i]?))).map sqrt

end Verif.CMBFiles
