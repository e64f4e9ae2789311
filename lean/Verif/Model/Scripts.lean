import Verif.Model.Batch
import Verif.Model.CovMat
import Verif.Model.ParamNames
import Verif.Py.Path

/-!
# Model of small scripts

`python/chainPeek.py`, `python/getdist/covscale.py`, `python/makeLatex.py`, `python/makeParamCompare.py`, `python/runningJobs.py`, `python/addGridBatch.py` and the
reading of spectra in `python/chainDumpPlot.py`.

Files, listings of directories, printing of numbers, the LaTeX of a limit and what the queue says are parameters.  Printed text is a list of lines.  Plots of
`chainDumpPlot.py` are not modelled.
-/

namespace Verif.Scripts
open Verif.Py

inductive Err
  | usage
  | index
  | value
  | type
  | attr
  | file
  | other
  deriving DecidableEq, Repr

/-! ## chainPeek.py -/

/-- number of the chain (chainPeek.py:18-19); `argv` has the name of the program first -/
def peekIndex (argv : List Str) : Except Err Nat :=
  if argv.length > 4 then match (argv[3]?).bind intStr with
    | some n => .ok n
    | none => .error .value
  else .ok 1

/-- `d[:, c]` -/
def column {F : Type} (c : Nat) : List (List F) → Except Err (List F)
  | [] => .ok []
  | r :: rs => match r[c]? with
    | none => .error .index
    | some x => match column c rs with
      | .error e => .error e
      | .ok l => .ok (x :: l)

/-- chainPeek.py:10-24: what is printed; `abs` is `os.path.abspath` -/
def peek {F : Type} (abs : Str → Str) (load : Str → Except Err (List (List F))) (names : Str → Except Err (List ParamNames.Info)) (argv : List Str) : Except Err (List F) :=
  match argv with
  | _ :: root :: param :: _ => match peekIndex argv with
    | .error e => .error e
    | .ok n => match load (abs root ++ c!"_" ++ strNat n ++ c!".txt") with
      | .error e => .error e
      | .ok d => match names (abs root ++ c!".paramnames") with
        | .error e => .error e
        | .ok ps => column (ParamNames.numberOfName ps param + 2).toNat d
  | _ => .error .usage

/-! ## covscale.py -/

section cov
variable {K : Type} [Field K] [LinearOrder K] [IsStrictOrderedRing K] [FloorRing K]
open Cov

/-- the loop over parameters and factors (covscale.py:23-24) -/
def scaleAll (float : Str → Option K) : List (Str × Str) → CovMat K → Except Err (CovMat K)
  | [], c => .ok c
  | (p, s) :: l, c => match float s with
    | none => .error .value
    | some x => match rescale c p x with
      | .error _ => .error .other
      | .ok c' => scaleAll float l c'

/-- the loop over files (covscale.py:19-25): files written, with their contents -/
def scaleFiles (float : Str → Option K) (load : Str → Except Err (CovMat K)) (indir outdir : Str) (pairs : List (Str × Str)) : List Str → Except Err (List (Str × CovMat K))
  | [] => .ok []
  | f :: fs =>
    if endsWith c!".covmat" f then match load (indir ++ f) with
      | .error e => .error e
      | .ok c => match scaleAll float pairs c with
        | .error e => .error e
        | .ok c' => match scaleFiles float load indir outdir pairs fs with
          | .error e => .error e
          | .ok l => .ok ((outdir ++ f, c') :: l)
    else scaleFiles float load indir outdir pairs fs

/-- covscale.py:6-25 -/
def covscale (abs : Str → Str) (float : Str → Option K) (listdir : Str → List Str) (load : Str → Except Err (CovMat K)) (argv : List Str) : Except Err (List (Str × CovMat K)) :=
  match argv with
  | _ :: a :: b :: ps :: rest => match rest with
    | [] => .error .index
    | fs :: _ => scaleFiles float load (abs a ++ c!"/") (abs b ++ c!"/") ((splitChar ':' ps).zip (splitChar ':' fs)) (listdir (abs a ++ c!"/"))
  | _ => .error .usage

end cov

/-! ## makeLatex.py -/

/-- name of the file read (makeLatex.py:8-9) -/
def margeFile (root : Str) : Str := if contains c!".margestats" root then root else root ++ c!".margestats"

/-- `margeParamTex` (makeLatex.py:6-25): names, and label and text if known; `all` are the names in the file -/
def margeParamTex (all : List Str) (tex : Str → Except Err (Option (List Str))) (label : Str → Str) (params : List Str) : Except Err (List (Str × Option (Str × Str))) :=
  (if params = [] then all else params).mapM fun p => match tex p with
    | .error e => .error e
    | .ok none => .ok (p, none)
    | .ok (some []) => .error .index
    | .ok (some (t :: _)) => .ok (p, some (label p, t))

/-- `'{:<33}'` -/
def pad33 (s : Str) : Str := s ++ List.replicate (33 - s.length) ' '

/-- a printed line (makeLatex.py:56-62); `None` cannot be formatted with a width -/
def latexLine (tabular : Bool) : Option (Str × Str) → Except Err Str
  | none => .error .type
  | some (l, v) =>
    if tabular then
      if v ≠ c!"---" then .ok (c!"$ " ++ pad33 l ++ c!"$ & $ " ++ pad33 v ++ c!"$\\\\")
      else .ok (c!"$ " ++ pad33 l ++ c!"$ &   " ++ pad33 v ++ c!" \\\\")
    else .ok (pad33 l ++ c!" " ++ v)

def printLatex (tabular : Bool) (l : List (Str × Option (Str × Str))) : Except Err (List Str) := l.mapM fun p => latexLine tabular p.2

/-- name of a snippet (makeLatex.py:29-33) -/
def snippetName (root param tag : Str) : Str := Path.stripExt (Path.basename root) ++ c!"-" ++ param ++ c!"_" ++ tag ++ c!".tex"

/-- `makeSnippetFiles` (makeLatex.py:26-33): the files afterwards, and whether it ended with an error; the file is opened before the text is looked at -/
def snippets (dir root tag : Str) : List (Str × Option (Str × Str)) → Dict Str Str → Dict Str Str × Option Err
  | [], fs => (fs, none)
  | (p, none) :: _, fs => (fs.set (Path.join dir (snippetName root p tag)) [], some .type)
  | (p, some (_, t)) :: l, fs => snippets dir root tag l (fs.set (Path.join dir (snippetName root p tag)) t)

/-! ## makeParamCompare.py -/

structure CArgs where
  params : List Str
  chainNameParams : Option (List Str) := none
  compare : Option (List Str) := none
  single : Bool := false
  math : Bool := false
  endline : Str := c!"\\cr"

/-- normalized tags to compare (makeParamCompare.py:29) -/
def CArgs.tags (a : CArgs) : Option (List Str) := a.compare.map fun l => l.map Batch.normalizeDataTag

/-- is an item used (makeParamCompare.py:37-40) -/
def wanted (a : CArgs) (j : Batch.Info) : Bool :=
  (match a.tags with | none => true | some l => j.matchesDatatag l) && (!a.single || (j.params.length == 1 && j.hasParam (a.chainNameParams.getD a.params)))

abbrev Cells := Dict Str (Dict Str (Dict Str (List Str)))

/-- one value (makeParamCompare.py:47-51) -/
def addCell (paramtag data par : Str) (v : List Str) (t : Cells) : Cells :=
  t.set paramtag (((t.get? paramtag).getD []).set data (((((t.get? paramtag).getD []).get? data).getD []).set par v))

/-- `if not paramtag in l: l.append(paramtag)` -/
def addTag (paramtag : Str) (l : List Str) : List Str := if paramtag ∈ l then l else l ++ [paramtag]

/-- a value found: models, data, parameter, texts -/
structure Val where
  paramtag : Str
  data : Str
  par : Str
  texts : List Str

/-- the values of an item (makeParamCompare.py:44-46); `none` when the item has no results -/
def itemVals (a : CArgs) (tex : Batch.Info → Option (Str → Option (List Str))) (j : Batch.Info) : List Val :=
  match tex j with
  | none => []
  | some t => a.params.filterMap fun p => (t p).map fun v => ⟨j.paramtag, j.normedData, p, v⟩

/-- the loop (makeParamCompare.py:36-51): cells and models of each parameter -/
def collect : List Val → Cells → Dict Str (List Str) → Cells × Dict Str (List Str)
  | [], t, m => (t, m)
  | v :: vs, t, m => collect vs (addCell v.paramtag v.data v.par v.texts t) (m.set v.par (addTag v.paramtag ((m.get? v.par).getD [])))

def allVals (a : CArgs) (tex : Batch.Info → Option (Str → Option (List Str))) (items : List Batch.Info) : List Val := (items.filter (wanted a)).flatMap (itemVals a tex)

/-- `makeMath`, `textAsColumn` (makeParamCompare.py:53-64) -/
def mathText (a : CArgs) (t : Str) : Str := if a.math then c!"$" ++ t ++ c!"$" else t

/-- `sortData` (makeParamCompare.py:67-71) -/
def sortData (keys tags : List Str) : List Str := tags.flatMap fun t => keys.filter (· = t)

/-- the columns of one value (makeParamCompare.py:88-90) -/
def valCols (a : CArgs) : List Str → Except Err (List Str)
  | [] => .error .index
  | [r] => .ok [if r = c!"---" then r else mathText a r]
  | r :: b :: _ => .ok [mathText a b, if r = c!"---" then r else mathText a r]

/-- the columns of a set of data (makeParamCompare.py:85-90) -/
def dataCols (a : CArgs) (cell : Dict Str (List Str)) : List Str → Except Err (List Str)
  | [] => .ok []
  | p :: ps => match cell.get? p with
    | none => dataCols a cell ps
    | some v => match valCols a v with
      | .error e => .error e
      | .ok c => match dataCols a cell ps with
        | .error e => .error e
        | .ok l => .ok (c ++ l)

/-- the columns of all sets of data -/
def rowCols (a : CArgs) (row : Dict Str (Dict Str (List Str))) : List Str → Except Err (List Str)
  | [] => .ok []
  | d :: ds => match dataCols a ((row.get? d).getD []) a.params with
    | .error e => .error e
    | .ok c => match rowCols a row ds with
      | .error e => .error e
      | .ok l => .ok (c ++ l)

/-- order of the sets of data (makeParamCompare.py:81) -/
def rowOrder (a : CArgs) (keys : List Str) : List Str :=
  match a.tags with
  | none => keys
  | some tags => sortData keys tags

/-- one line (makeParamCompare.py:79-93); `label` fails for names that are not in the file of labels -/
def compareLine (a : CArgs) (label : Str → Except Err Str) (t : Cells) (par paramtag : Str) : Except Err Str :=
  match label par with
  | .error e => .error e
  | .ok l =>
    let row := (t.get? paramtag).getD []
    match rowCols a row (rowOrder a row.keys) with
    | .error e => .error e
    | .ok cols => .ok (join c!" & " (mathText a l :: cols) ++ a.endline)

/-- all lines (makeParamCompare.py:76-93) with a file for LaTeX -/
def compareLines (a : CArgs) (tex : Batch.Info → Option (Str → Option (List Str))) (label : Str → Except Err Str) (items : List Batch.Info) : Except Err (List Str) :=
  let r := collect (allVals a tex items) [] []
  (a.params.flatMap fun p => ((r.2.get? p).getD []).map fun t => (p, t)).mapM fun pt => compareLine a label r.1 pt.1 pt.2

/-- the file written (makeParamCompare.py:95-99); `os.makedirs` of nothing or of a directory that exists is an error, and it only makes the parent -/
def writtenTo (isdir : Str → Bool) (latex : Str) : Except Err Str :=
  let f := if contains c!"." latex then latex else latex ++ c!".tex"
  if isdir (Path.dirname f) then .ok f else .error .file

/-! ## runningJobs.py -/

/-- a job of the queue -/
structure QJob where
  name : Str
  names : List Str
  info : Str

/-- the statistics of a job (runningJobs.py:25-32): items with the text of their convergence if it is known and not zero -/
def statOf (items : List (Str × Option Str)) (names : List Str) (name : Str) : Option Str :=
  if name ∈ names then (items.find? (fun i => i.1 = name)).bind (·.2) else none

/-- the lines of a job (runningJobs.py:33-38) -/
def jobLines (items : List (Str × Option Str)) (j : QJob) : List Str :=
  (j.info ++ c!" | " ++ ((statOf items j.names j.name).getD c!"      ") ++ c!" " ++ j.name) ::
    if j.names.length > 1 then j.names.map fun n => c!"    >>  " ++ ((statOf items j.names n).getD c!"      ") ++ c!" " ++ n else []

/-- names of the jobs of a grid (runningJobs.py:15-19) -/
def batchNames (items : Option (List (Str × Option Str))) : List Str :=
  match items with
  | none => []
  | some l => l.map (·.1) ++ l.map fun i => i.1 ++ c!"_minimize"

/-- runningJobs.py:15-38; no index of jobs gives one empty list, which cannot be unpacked -/
def runningJobs (items : Option (List (Str × Option Str))) (queue : Option (List QJob)) : Except Err (List Str) :=
  match queue with
  | none => .error .value
  | some q => .ok ((q.filter fun j => j.names.any fun n => (batchNames items).contains n).flatMap (jobLines (items.getD [])))

/-! ## addGridBatch.py -/

open Batch in
/-- the loop over the importance jobs of an item (addGridBatch.py:21-24) -/
def replaceLoop (names : List Str) : List Job → Job → Job
  | [], j => j
  | x :: xs, j => if replaceStr c!"_post" [] x.info.name ∈ names then replaceLoop names xs (rm x.uid j) else replaceLoop names xs j

open Batch in
/-- addGridBatch.py:13-24: the items of the grid and of the grids added; a directory that is no grid gives `None`, which has no items -/
def addGrids (main : List Job) (subs : List (Option (List Job))) : Except Err (List Job) :=
  match subs.mapM id with
  | none => .error .attr
  | some ss =>
    let all := main ++ ss.flatten
    .ok (all.map fun j => replaceLoop (all.map fun j => j.info.name) (imps j) j)

/-! ## chainDumpPlot.py -/

section dump
variable {F : Type} [Field F]

/-- the loop of `loadFiles` (chainDumpPlot.py:27-39): names of files, multipoles, spectra -/
def loadLoop (isMatch : Str → Bool) (cl : Str → Except Err (List F × List F)) (cal : Str → Except Err F) (rescale : F) (maxFiles : Nat) :
    List Str → Option (List F) → List Str → List (List F) → Except Err (Option (List F) × List Str × List (List F))
  | [], ls, ps, cs => .ok (ls, ps, cs)
  | f :: fs, ls, ps, cs =>
    if isMatch f then match cl f with
      | .error e => .error e
      | .ok (l, c) => match cal f with
        | .error e => .error e
        | .ok k =>
          let ps' := ps ++ [f]
          let cs' := cs ++ [c.map fun x => x / k ^ 2 * rescale]
          if ps'.length = maxFiles then .ok (some (ls.getD l), ps', cs') else loadLoop isMatch cl cal rescale maxFiles fs (some (ls.getD l)) ps' cs'
    else loadLoop isMatch cl cal rescale maxFiles fs ls ps cs

/-- `loadFiles` (chainDumpPlot.py:22-41); `cl` and `cal` read the spectrum and the calibration of a file of the directory -/
def loadFiles (listdir : Str → Except Err (List Str)) (cl : Str → Except Err (List F × List F)) (cal : Str → Except Err F) (rescale : F) (maxFiles : Nat) (pat : Str) :
    Except Err (List F × List Str × List (List F)) :=
  match listdir (Path.dirname (pat ++ c!"_?_*")) with
  | .error e => .error e
  | .ok fs => match loadLoop (fun f => ParamNames.fnmatchcase f (Path.basename (pat ++ c!"_?_*") ++ c!".theory_cl")) cl cal rescale maxFiles fs none [] [] with
    | .error e => .error e
    | .ok (none, _) => .error .other
    | .ok (some ls, r) => .ok (ls, r)

end dump

end Verif.Scripts
