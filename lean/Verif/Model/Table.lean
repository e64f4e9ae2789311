import Verif.Py.Str

/-!
# Tables of results: python/getdist/types.py:166-259 (TableFormatter), 261-386 (ResultTable)

Only what decides where things go: the layout of parameters in rows and columns, the text of a row, and which objects can be
shown.  Cell texts come from `texValues`, a function argument here.  Titles, rules, documents and images are not modelled.
-/

namespace Verif.Table
open Verif.Py

inductive TErr
  | zeroDivision
  | indexError
  | typeError
deriving DecidableEq, Repr

/-! ## Rows (types.py:310-319, 325-333) -/

/-- `rows[r].append(x)` -/
def appendAt {α : Type} (rows : List (List α)) (r : Nat) (x : α) : List (List α) := rows.modify r (· ++ [x])

/-- types.py:311-313 -/
def numRow (n ncol : Nat) : Nat := if n % ncol ≠ 0 then n / ncol + 1 else n / ncol

/-- `rows[r].append(names[i])` -/
def appendName {α : Type} (names : List α) (base : Nat) (rows : List (List α)) (i : Nat) : List (List α) :=
  match names[i]? with
  | some x => appendAt rows (i - base) x
  | none => rows

/-- one column after the first, types.py:317-319 -/
def addColumn {α : Type} (names : List α) (numrow : Nat) (rows : List (List α)) (col : Nat) : List (List α) :=
  (List.range' (numrow * col) (min (numrow * (col + 1)) names.length - numrow * col)).foldl (appendName names (numrow * col)) rows

/-- types.py:310-319 -/
def layoutRows {α : Type} (names : List α) (ncol : Nat) : List (List α) :=
  (List.range' 1 (ncol - 1)).foldl (addColumn names (numRow names.length ncol)) ((names.take (numRow names.length ncol)).map (fun p => [p]))

/-- the rows of the table in order of printing (all but the last, then `rows[-1]`), types.py:310-333 -/
def tableRows {α : Type} (names : List α) (ncol : Nat) : Except TErr (List (List α)) :=
  if ncol = 0 then .error .zeroDivision
  else match (layoutRows names ncol).getLast? with
    | none => .error .indexError
    | some r => .ok ((layoutRows names ncol).dropLast ++ [r])

/-! ## Cells (types.py:207-226, 335-339, 366-383) -/

/-- `spacer + '&' + spacer` -/
def colSep : Str := c!" & "

/-- types.py:207-211 -/
def texEquation (txt : Str) : Str := if txt ≠ [] ∧ txt.head? ≠ some '$' then '$' :: (txt ++ ['$']) else txt

/-- types.py:213-226 -/
def textAsColumn (txt : Str) (latex separator bold : Bool) : Str :=
  let wid := txt.length + (if latex then 2 + (if bold then 11 else 0) else 0)
  let res := txt ++ List.replicate (28 - wid) ' '
  let res := if latex then (if bold then c!"{\\boldmath" ++ texEquation res ++ ['}'] else texEquation res) else res
  if separator then res ++ colSep else res

/-- a result shown in the table: `MargeStats`, with its column labels and the values of a parameter (`texValues`), or `BestFit`, whose
`getColumnLabels(self, **kwargs)` and `texValues(self, formatter, p, **kwargs)` (types.py:500, 568) take no further positional arguments -/
inductive Result (α : Type)
  | marge (labels : List Str) (values : α → Option (List Str))
  | bestFit (values : α → Option (List Str))

/-- `result.getColumnLabels(limit)`, as called in types.py:303, 361 and 380 -/
def Result.labels {α : Type} : Result α → Except TErr (List Str)
  | .marge l _ => .ok l
  | .bestFit _ => .error .typeError

/-- `result.texValues(format, p, limit, refResults, ...)` as called in types.py:370-371 -/
def Result.texValues {α : Type} : Result α → α → Except TErr (Option (List Str))
  | .marge _ v, p => .ok (v p)
  | .bestFit _, _ => .error .typeError

def noConstraint : Str := c!"---"

/-- `s * n` -/
def times (s : Str) (n : Nat) : Str := (List.replicate n s).flatten

/-- types.py:369-380 -/
def paramResultTex {α : Type} (r : Result α) (p : α) : Except TErr Str :=
  match r.texValues p with
  | .error e => .error e
  | .ok none => match r.labels with
    | .error e => .error e
    | .ok l => .ok (times (textAsColumn [] false false false) l.length)
  | .ok (some []) => .error .indexError
  | .ok (some [v]) => .ok (textAsColumn v (v ≠ noConstraint) false false)
  | .ok (some (v :: b :: _)) => .ok (textAsColumn b true true false ++ textAsColumn v (v ≠ noConstraint) false false)

/-- `[f(x) for x in l]` with exceptions -/
def mapE {α β : Type} (f : α → Except TErr β) : List α → Except TErr (List β)
  | [] => .ok []
  | a :: l => match f a with
    | .error e => .error e
    | .ok b => match mapE f l with
      | .error e => .error e
      | .ok bs => .ok (b :: bs)

/-- types.py:366-367 -/
def paramResultsTex {α : Type} (results : List (Result α)) (p : α) : Except TErr Str :=
  match mapE (fun r => paramResultTex r p) results with
  | .error e => .error e
  | .ok l => .ok (join colSep l)

/-- types.py:303-304; `results[0]` -/
def colsPerParam {α : Type} (results : List (Result α)) : Except TErr Nat :=
  match results with
  | [] => .error .indexError
  | r :: _ => match r.labels with
    | .error e => .error e
    | .ok l => .ok (results.length * l.length)

/-- the part of a row for one parameter; `label`, `derived`: types.py:336, 382-383 -/
def cellText {α : Type} (label : α → Str) (derived : α → Bool) (results : List (Result α)) (p : α) : Except TErr Str :=
  match paramResultsTex results p with
  | .error e => .error e
  | .ok s => .ok (textAsColumn (label p) true true (!derived p) ++ s)

def endOfRow : Str := c!"\\\\"

/-- types.py:335-339 -/
def fullTableRow {α : Type} (label : α → Str) (derived : α → Bool) (results : List (Result α)) (ncol : Nat) (row : List α) : Except TErr Str :=
  match mapE (cellText label derived results) row with
  | .error e => .error e
  | .ok cells => match colsPerParam results with
    | .error e => .error e
    | .ok cpp => .ok (join colSep cells ++ (if ncol = row.length then [] else times colSep ((1 + cpp) * (ncol - row.length))) ++ endOfRow)

/-- types.py:357-362, the header -/
def headerRow {α : Type} (results : List (Result α)) (ncol : Nat) : Except TErr Str :=
  match mapE (fun r => r.labels) results with
  | .error e => .error e
  | .ok ls => .ok (join colSep (List.replicate ncol ((c!" Parameter") :: (ls.flatten.map (fun s => ' ' :: s)))).flatten ++ endOfRow)

/-! ## The number formatter (types.py:167-181, 298-299) -/

/-- a formatter object: the attribute used by `texValues` and the one set by the option -/
structure Format (F : Type) where
  numberFormatter : F
  numFormatter : Option F

/-- types.py:298-299 -/
def setNumFormatter {F : Type} (f : Format F) (opt : Option F) : Format F :=
  match opt with
  | some g => { f with numFormatter := some g }
  | none => f

end Verif.Table
