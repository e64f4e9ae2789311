import Verif.Model.Batch
import Verif.Model.BestFit
import Verif.Py.Num
import Verif.Py.Path
import Verif.Py.Replace

/-!
# Tables of the results of a grid: python/makeTables.py

An item is what is known of a job of the grid (`Batch.Info`).  What is loaded from files, whether they exist, the printing of numbers with two decimals and the tables
themselves are given (`Env`); loading the results of items used for reference does not fail.  The items are those selected on the command line, by parameter tag, in
the order of the tags (`Batch.paramtagDict`, C35).  Messages, `pdflatex`, and the file put before the table of contents are not modelled.
-/

namespace Verif.MakeTables
open Verif.Py
open Verif.Batch (Info us)
open Verif.BestFit (Best Chi2)

inductive Err
  | conflict    -- the exceptions of lines 176-181
  | attr        -- AttributeError
  | type        -- TypeError
  | other       -- anything in the functions that are given
deriving DecidableEq, Repr

/-- `--columns`: the default is a number, a value given is a list of one (line 49, `nargs=1`) -/
inductive Cols
  | num (n : Nat)
  | list (l : List Nat)

structure Args where
  limit : Nat := 2
  allLimits : Bool := false
  bestfitonly : Bool := false
  nobestfit : Bool := false
  noDelta : Bool := false
  deltaParamtag : Option Str := none
  fromDatatag : Option Str := none
  fromParamtag : Option Str := none
  adding : Option (List Str) := none
  replacing : Option (List Str) := none      -- at least one name
  changesOnly : Bool := false
  ignore : List Str := []                    -- empty for `None`
  average : Bool := false
  columns : Cols := .num 3
  compare : Option (List Str) := none
  titles : Option Str := none
  forpaper : Bool := false
  separate : Bool := false
  height : Str := c!"13in"
  width : Str := c!"12in"
  latex : Str := []

/-- makeTables.py:175-182 -/
def checkArgs (a : Args) : Except Err Args :=
  match a.fromParamtag with
  | none => .ok a
  | some t =>
    if a.fromDatatag.isSome then .error .conflict
    else if a.deltaParamtag.isSome && a.deltaParamtag ≠ some t then .error .conflict
    else if a.noDelta then .error .conflict
    else .ok { a with deltaParamtag := some t }

/-! ## Items for reference -/

/-- makeTables.py:185-192 `dataIndex` -/
def dataIndex (a : Args) (j : Info) : Str :=
  if a.ignore ≠ [] then j.data.normedTag (some (a.ignore.map fun x => (x, []))) else j.normedData

/-- makeTables.py:199-200: is an item one for reference? -/
def isBaseItem (a : Args) (isBase : Bool) (j : Info) : Bool :=
  match a.deltaParamtag with
  | none => isBase && !a.noDelta
  | some t => decide (j.paramtag = t)

/-- the last of a list for each of its data: `baseJobItems[jobItem.normed_data] = …` -/
def byData (l : List Info) : Dict Str Info := l.foldl (fun d j => d.set j.normedData j) []

/-- makeTables.py:197 -/
def isBase (items : List Info) : Bool := match items with | [] => false | j :: _ => decide (j.params = [])

/-- makeTables.py:195-203 `baseJobItems` -/
def baseItems (a : Args) (items : List (Str × List Info)) : Dict Str Info :=
  byData (items.flatMap fun p => p.2.filter (isBaseItem a (isBase p.2)))

/-- makeTables.py:253-259: the last item with the data -/
def fromData (a : Args) (these : List Info) : Option Info :=
  match a.fromDatatag with
  | none => none
  | some t => (these.filter fun j => decide (j.normedData = t) || decide (j.datatag = t)).getLast?

/-- makeTables.py:264-269 `normed_without` -/
def without (add : List Str) (j : Info) : Option Str :=
  if j.data.hasName add then some (join us (Batch.sorted (j.data.names.filter fun x => !add.contains x))) else none

/-- makeTables.py:260-274 -/
def addingItems (add : List Str) (these : List Info) : Dict Str Info :=
  byData (these.filter fun j => (these.filterMap (without add)).contains j.normedData)

/-- makeTables.py:275-281 -/
def replacingItems (x : Str) (these : List Info) : Dict Str Info := byData (these.filter fun j => j.data.names.contains x)

/-- makeTables.py:292-298: the item with the first of the data replaced that the item has -/
def replacedRef (d : Dict Str Info) (x : Str) (ys : List Str) (j : Info) : Option Info :=
  match ys.find? (fun y => j.data.names.contains y) with
  | none => none
  | some y => d.get? (Batch.normalizeDataTag (j.data.tagReplacing y x))

/-- makeTables.py:283-305: the items for Δχ² and for shifts, or `none` when the item is left out -/
def refs (a : Args) (base : Dict Str Info) (these : List Info) (j : Info) : Option (Option Info × Option Info) :=
  let (delta, ref, skip) :=
    match a.adding, a.replacing with
    | some add, rep =>
      let d := match rep with | some (x :: _) => replacingItems x these | _ => addingItems add these
      let r := (without add j).bind (fun t => d.get? t)
      (r, r, a.changesOnly && r.isNone)
    | none, some (x :: ys) => let r := replacedRef (replacingItems x these) x ys j; (r, r, a.changesOnly && r.isNone)
    | none, some [] => (none, none, false)
    | none, none => (base.get? (dataIndex a j), fromData a these, false)
  let ref := if a.fromParamtag.isSome then delta else ref
  if skip then none else if a.average && ref.isNone then none else some (delta, ref)

/-! ## One table -/

/-- `loadJobItemResults` -/
structure Results (K T : Type) where
  best : Option (Best K)
  marge : Option T
  like : Option (Option K)       -- likestats, and its mean if it has one
  converge : Option Str          -- `worstR()`

structure Env (K T : Type) where
  load : Info → Except Err (Results K T)     -- of the item whose table is made
  loadRef : Info → Results K T               -- of items for reference
  distExists : Info → Bool                   -- `os.path.exists(jobItem.distPath)`
  good : Info → Bool                         -- `args.converge == 0 or …`
  fmt : K → Str                              -- `'%.2f' % x`
  table : Nat → Nat → T → Option T → Except Err (List Str)   -- `ResultTable(ncol, [content], limit, refResults).lines`
  tableBest : Nat → Nat → Best K → Except Err (List Str)
  average : Nat → Nat → Info → Info → Except Err (List Str)
  compare : Nat → List T → List Str → List Str

variable {K T : Type} [Field K]

/-- `texEscapeText`, makeTables.py:71-72 -/
def texEscape (s : Str) : Str := s.flatMap fun c => if c = '_' then c!"{\\textunderscore}" else [c]

/-- makeTables.py:96 -/
def deltaUsed (delta : Option Info) (j : Info) : Option Info := delta.filter fun d => decide (d.name ≠ j.name)

/-- makeTables.py:97-100 -/
def refUsed (a : Args) (ref : Option Info) (j : Info) : Option Info :=
  ref.filter fun r => match a.fromParamtag with
    | none => decide (r.normedData ≠ j.normedData)
    | some _ => decide (r.name ≠ j.name)

/-- makeTables.py:106-111 -/
def bestCaption (E : Env K T) (bf : Option (Best K)) (ref : Option (Best K)) : List Str :=
  match bf with
  | none => []
  | some b => (c!" Best-fit $\\chi^2_{\\rm eff} = " ++ E.fmt (b.logLike * 2) ++ c!"$") ::
    match ref with
    | none => []
    | some r => [c!"$\\Delta \\chi^2_{\\rm eff} = " ++ E.fmt ((b.logLike - r.logLike) * 2) ++ c!"$"]

/-- makeTables.py:116-123 -/
def meanCaption (E : Env K T) (like ref : Option (Option K)) : List Str :=
  match like with
  | some (some m) => (c!"$\\bar{\\chi}^2_{\\rm eff} = " ++ E.fmt (m * 2) ++ c!"$") ::
    match ref with
    | some (some r) => [c!"$\\Delta\\bar{\\chi}^2_{\\rm eff} = " ++ E.fmt ((m - r) * 2) ++ c!"$"]
    | _ => []
  | _ => []

/-- makeTables.py:143-147: the line of one likelihood; a name that is a list has no `replace` -/
def chiLine (E : Env K T) (comp : Option (Best K)) (kind : Str) (v : Chi2 K) : Except Err Str :=
  match v.name with
  | .list _ => .error .attr
  | .str n => .ok (c!"  " ++ texEscape n ++ c!": " ++ E.fmt v.chisq ++ c!" " ++
      match comp.bind (fun b => BestFit.chiSquareForKindName b kind n) with
      | some x => c!"($\\Delta$ " ++ E.fmt (v.chisq - x) ++ c!") "
      | none => [])

/-- makeTables.py:140-147: the lines of one kind -/
def kindLines (E : Env K T) (comp : Option (Best K)) (p : Str × List (Chi2 K)) : Except Err (List Str) := do
  let ls ← p.2.mapM (chiLine E comp p.1)
  pure ((p.1 ++ c!" - ") :: ls)

/-- makeTables.py:131-147: the lines below the table -/
def below (E : Env K T) (a : Args) (caption : List Str) (bf comp : Option (Best K)) : Except Err (List Str) :=
  if a.forpaper then .ok [[]]
  else match bf with
    | none => .ok [[], join c!"; " caption]
    | some b => do
      let ls ← (BestFit.sortedChiSquareds b).mapM (kindLines E comp)
      pure ([[], join c!"; " caption, [], c!"$\\chi^2_{\\rm eff}$:"] ++ ls.flatten)

/-- the number of columns; a list is no number (types.py:311) -/
def Cols.get : Cols → Except Err Nat
  | .num n => .ok n
  | .list _ => .error .type

/-- makeTables.py:113-114, 125-129: the table itself -/
def tableOf (E : Env K T) (a : Args) (limit : Nat) (res : Results K T) (j : Info) (ref : Option Info) : Except Err (List Str) := do
  if a.bestfitonly then
    match res.best with
    | none => pure []
    | some b => E.tableBest (← a.columns.get) limit b
  else match res.marge with
    | none => pure []
    | some m =>
      if a.average then
        match ref with
        | none => .error .attr
        | some r => E.average (← a.columns.get) limit j r
      else E.table (← a.columns.get) limit m (ref.bind fun r => (E.loadRef r).marge)

/-- makeTables.py:95-148 `paramResultTable` -/
def paramResultTable (E : Env K T) (a : Args) (limit : Nat) (j : Info) (delta ref : Option Info) : Except Err (List Str) := do
  let delta := deltaUsed delta j
  let ref := refUsed a ref j
  let res ← E.load j
  let dres := delta.map E.loadRef
  let caption := bestCaption E res.best (dres.bind (·.best)) ++
    (if a.bestfitonly then [] else meanCaption E res.like (dres.bind (·.like)) ++ (match res.converge with | some r => [c!"$R-1 =" ++ r ++ c!"$"] | none => []))
  let t ← tableOf E a limit res j ref
  let b ← below E a caption res.best (dres.bind (·.best))
  pure (t ++ b)

/-! ## The document -/

/-- makeTables.py:306-311 -/
def heading (a : Args) (j : Info) (ref : Option Info) : List Str :=
  if a.forpaper then []
  else match a.average, ref with
    | true, some r => [c!"\\subsection{ " ++ texEscape j.name ++ c!"/" ++ texEscape r.name ++ c!"}"]
    | _, _ => [c!"\\subsection{ " ++ texEscape j.name ++ c!"}"]

/-- makeTables.py:312-318: the lines of one item; when its table fails there is a message -/
def itemLines (E : Env K T) (a : Args) (base : Dict Str Info) (these : List Info) (limit : Nat) (j : Info) : List Str :=
  match refs a base these j with
  | none => []
  | some (delta, ref) => heading a j ref ++ match paramResultTable E a limit j delta ref with | .ok ls => ls | .error _ => []

/-- makeTables.py:249-251 -/
def theseItems (E : Env K T) (a : Args) (items : List Info) : List Info := items.filter fun j => (E.distExists j || a.bestfitonly) && E.good j

/-- makeTables.py:231-239 -/
def section_ (a : Args) (items : List Info) : Str :=
  if a.forpaper then []
  else c!"\\newpage\\section{ " ++ (if isBase items then c!"Baseline model" else texEscape (join c!"+" (match items with | [] => [] | j :: _ => j.params))) ++ c!"}"

/-- makeTables.py:151-162 `compareTable` with the results of the items -/
def compareLines (E : Env K T) (a : Args) (limit : Nat) (items : List Info) : List Str :=
  let with_ := items.filter fun j => (E.loadRef j).marge.isSome
  let titles := match a.titles with | none => with_.map (·.datatag) | some t => splitChar ';' t
  E.compare limit (items.filterMap fun j => (E.loadRef j).marge) titles

/-- batchjob_args.py:150-155 `filterForDataCompare` -/
def filterCompare (items : List Info) (tags : List Str) : List Info :=
  tags.flatMap fun data => items.filter fun j => decide (j.datatag = data) || decide (j.normedData = Batch.normalizeDataTag data)

/-- makeTables.py:230-318: the lines for one parameter tag -/
def tagLines (E : Env K T) (a : Args) (base : Dict Str Info) (limit : Nat) (items : List Info) : List Str :=
  match a.compare with
  | some tags =>
    if (filterCompare items tags).length = tags.length then section_ a items :: compareLines E a limit (filterCompare items tags) else []
  | none => section_ a items :: (theseItems E a items).flatMap (itemLines E a base (theseItems E a items) limit)

/-- makeTables.py:215-226 -/
def opening (a : Args) : List Str :=
  if a.forpaper then []
  else [c!"\\documentclass[10pt]{article}", c!"\\usepackage{fullpage}", c!"\\usepackage[pdftex]{hyperref}",
    c!"\\usepackage[paperheight=" ++ a.height ++ c!",paperwidth=" ++ a.width ++ c!",margin=0.8in]{geometry}", c!"\\renewcommand{\\arraystretch}{1.5}", c!"\\begin{document}",
    c!"\\tableofcontents"]

/-- makeTables.py:215-320: the lines of the file for one limit -/
def document (E : Env K T) (a : Args) (items : List (Str × List Info)) (limit : Nat) : List Str :=
  opening a ++ items.flatMap (fun p => tagLines E a (baseItems a items) limit p.2) ++ if a.forpaper then [] else [c!"\\end{document}"]

/-! ## Files -/

/-- makeTables.py:170-173 -/
def limits (a : Args) : List Nat := if a.allLimits then [1, 2, 3] else [a.limit]

/-- makeTables.py:211-213 -/
def outName (a : Args) (limit : Nat) : Str :=
  let f := if a.allLimits then a.latex ++ c!"_limit" ++ strNat limit else a.latex
  if endsWith c!".tex" f then f else f ++ c!".tex"

/-- makeTables.py:322-331: where the files are written, `cwd` being the current directory, which changes unless the tables are for a paper -/
def outPaths (a : Args) : Str → List Nat → List Str
  | _, [] => []
  | cwd, l :: ls =>
    let f := outName a l
    Path.join cwd f :: outPaths a (if a.forpaper ∨ Path.dirname f = [] then cwd else Path.join cwd (Path.dirname f)) ls

/-- makeTables.py:314: the files of single tables that are written for one limit -/
def separateTagFiles (E : Env K T) (a : Args) (base : Dict Str Info) (distRoot : Info → Str) (limit : Nat) (items : List Info) : List (Str × List Str) :=
  match a.compare with
  | some _ => []
  | none => (theseItems E a items).filterMap fun j =>
      match refs a base (theseItems E a items) j with
      | none => none
      | some (delta, ref) => match paramResultTable E a limit j delta ref with | .ok ls => some (distRoot j ++ c!".tex", ls) | .error _ => none

/-- the files of single tables after all limits -/
def separateFiles (E : Env K T) (a : Args) (items : List (Str × List Info)) (distRoot : Info → Str) : Dict Str (List Str) :=
  if a.separate then
    Dict.update [] ((limits a).flatMap fun l => items.flatMap fun p => separateTagFiles E a (baseItems a items) distRoot l p.2)
  else []

end Verif.MakeTables
