import Verif.Py.Float
import Verif.Py.Dict

/-!
# Model of covariance matrix files (`python/getdist/covmat.py`, `python/getdist/covcomb.py`)

`np.loadtxt` returns a scalar, a vector or a matrix depending on the number of rows and columns (dimensions of length one
are removed); the three shapes are kept apart because later code indexes with two subscripts.
Writing is in bytes (`utf-8`), reading in text mode; only the text is modelled.
-/

namespace Verif.Cov
open Verif.Py

inductive CErr
  | exception      -- `raise Exception(..)`
  | valueError
  | indexError
  | typeError      -- the matrix is `None`
  deriving DecidableEq, Repr

/-- a numpy array of dimension 0, 1 or 2 -/
inductive Arr (K : Type)
  | scalar (x : K)
  | vec (l : List K)
  | mat (rows : List (List K))
  deriving DecidableEq, Repr

/-- `CovMat` (covmat.py:4-25) -/
structure CovMat (K : Type) where
  names : List Str := []
  matrix : Option (Arr K) := none
  size : Nat := 0
  deriving DecidableEq, Repr

variable {K : Type} [Field K] [LinearOrder K] [IsStrictOrderedRing K] [FloorRing K]

/-- `np.savetxt(fout, a, '%15.7E')`: a vector is written as a column, a scalar is refused -/
def savetxt (a : Arr K) : Except CErr (List Str) :=
  match a with
  | .scalar _ => .error .valueError
  | .vec l => .ok (l.map (fun x => rjust 15 (fmtE 7 x)))
  | .mat rows => .ok (rows.map (fun r => join [' '] (r.map (fun x => rjust 15 (fmtE 7 x)))))

/-- `saveToFile` (covmat.py:41-49): the text of the file.  (`np.savetxt` of `None` is a `ValueError`.) -/
def saveText (c : CovMat K) : Except CErr Str :=
  match c.matrix with
  | none => .error .valueError
  | some a =>
    match savetxt a with
    | .error e => .error e
    | .ok ls => .ok ((('#' :: ' ' :: join [' '] c.names) :: ls).flatMap (fun l => l ++ ['\n']))

/-- the part of a line before a comment -/
def uncomment (l : Str) : Str := l.takeWhile (· != '#')

def parseRow (l : List Str) : Option (List K) := l.mapM floatStr

/-- remove the dimensions of length one -/
def squeeze (rows : List (List K)) : Arr K :=
  match rows with
  | [] => .vec []
  | [r] => match r with
    | [x] => .scalar x
    | r => .vec r
  | rows => if rows.all (fun r => r.length == 1) then .vec (rows.map (fun r => r.headD 0)) else .mat rows

/-- all rows have the length of the first -/
def rectangular (rows : List (List K)) : Bool :=
  match rows with
  | [] => true
  | r :: l => l.all (fun x => x.length == r.length)

/-- `np.loadtxt(f)` on the remaining lines -/
def loadtxt (lines : List Str) : Except CErr (Arr K) :=
  match ((lines.map (fun l => splitWs (uncomment l))).filter (fun l => !l.isEmpty)).mapM parseRow with
  | none => .error .valueError
  | some rows => if rectangular rows then .ok (squeeze rows) else .error .valueError

/-- `loadFromFile` (covmat.py:30-39): `CovMat(filename)` -/
def loadText (text : Str) : Except CErr (CovMat K) :=
  let lines := fileIter text
  let first := strip (lines.headD [])
  if startsWith ['#'] first then
    match loadtxt lines.tail with
    | .error e => .error e
    | .ok a => .ok { names := splitWs (first.drop 1), matrix := some a, size := (splitWs (first.drop 1)).length }
  else .error .exception

/-- `matrix[i, j]` -/
def at? (m : Option (Arr K)) (i j : Nat) : Except CErr K :=
  match m with
  | none => .error .typeError
  | some (.mat rows) =>
    match rows[i]? with
    | none => .error .indexError
    | some r => match r[j]? with
      | none => .error .indexError
      | some x => .ok x
  | some _ => .error .indexError

/-- `matrix[:, i] *= s`, `matrix[i, :] *= s` -/
def scaleCol (rows : List (List K)) (i : Nat) (s : K) : List (List K) := rows.map (fun r => r.modify i (· * s))
def scaleRow (rows : List (List K)) (i : Nat) (s : K) : List (List K) := rows.modify i (fun r => r.map (· * s))

/-- `rescaleParameter` (covmat.py:51-63) -/
def rescale (c : CovMat K) (name : Str) (s : K) : Except CErr (CovMat K) :=
  if name ∈ c.names then
    let i := c.names.idxOf name
    match c.matrix with
    | none => .error .typeError
    | some (.mat rows) =>
      if i < rows.length ∧ rows.all (fun r => decide (i < r.length)) = true then
        .ok { c with matrix := some (.mat (scaleRow (scaleCol rows i s) i s)) }
      else .error .indexError
    | some _ => .error .indexError
  else .ok c

/-- the names of the merged matrix (covmat.py:70-74) -/
def mergeNames (n1 n2 : List Str) : List Str :=
  n2.foldl (fun l p => if p ∈ l then l else l ++ [p]) n1

/-- `dict(list(zip(params, list(range(0, l)))))` (covmat.py:79-80): a repeated name keeps its last position -/
def indexMap (params : List Str) : Dict Str Nat := params.zipIdx.foldl (fun d p => Dict.set d p.1 p.2) []

/-- one entry of the merged matrix (covmat.py:86-89) -/
def mergeEntry (c1 c2 : CovMat K) (p q : Str) : Except CErr K :=
  if p ∈ c1.names ∧ q ∈ c1.names then
    at? c1.matrix (((indexMap c1.names).get? p).getD 0) (((indexMap c1.names).get? q).getD 0)
  else if p ∈ c2.names ∧ q ∈ c2.names then
    at? c2.matrix (((indexMap c2.names).get? p).getD 0) (((indexMap c2.names).get? q).getD 0)
  else .ok 0

/-- `mergeCovmatWhereNew` (covmat.py:65-91).  `covmap[i]` is `C.paramNames[i]`.  `C.size` stays `0`, as set by `CovMat()`. -/
def merge (c1 c2 : CovMat K) : Except CErr (CovMat K) := do
  let names := mergeNames c1.names c2.names
  let rows ← names.mapM (fun p => names.mapM (fun q => mergeEntry c1 c2 p q))
  pure { names := names, matrix := some (.mat rows), size := 0 }

/-- covcomb.py:14-18 -/
def mergeAll (c : CovMat K) (l : List (CovMat K)) : Except CErr (CovMat K) := l.foldlM merge c

/-- one step of `correlation` (covmat.py:101-103): `s` comes from the unchanged matrix -/
def corrStep (sqrt : K → K) (orig : Option (Arr K)) (m : List (List K)) (i : Nat) : Except CErr (List (List K)) :=
  match at? orig i i with
  | .error e => .error e
  | .ok v => .ok (scaleCol (scaleRow m i (sqrt v)⁻¹) i (sqrt v)⁻¹)

/-- `correlation` (covmat.py:93-104) -/
def correlation (sqrt : K → K) (c : CovMat K) : Except CErr (Arr K) :=
  match c.matrix with
  | none => .error .typeError
  | some (.mat rows) =>
    match (List.range c.size).foldlM (corrStep sqrt c.matrix) rows with
    | .error e => .error e
    | .ok m => .ok (.mat m)
  | some a => if c.size = 0 then .ok a else .error .indexError

end Verif.Cov
