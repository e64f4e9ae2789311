import Verif.Model.IniFile
import Verif.Model.ParamNames
import Verif.Py.Num
import Mathlib.Algebra.Order.Floor.Ring

/-!
# Copying and deleting the files of a grid: copyGridFiles.py, cleanup.py

The file system is a table of files by path.  Directories themselves are not files; the listing of a directory gives the files directly in it.
Progress messages and sizes are not modelled.  Reading a chain file as text translates line ends.
-/

namespace Verif.GridFiles
open Verif.Py

structure FileD where
  text : Str
  mtime : Int
deriving DecidableEq, Repr

abbrev FS := Dict Str FileD

/-- what is used of a `jobItem` -/
structure JobD where
  name : Str
  relativePath : Str
  chainPath : Str
  distPath : Str
  isImp : Bool
  props : IniFile.Ini          -- `propertiesIni()`
deriving DecidableEq, Repr

inductive Content
  | text (s : Str)
  | link (path : Str)
deriving DecidableEq, Repr

structure Args (K : Type) where
  frac : K := by exact 0             -- --remove_burn_fraction
  chains : Bool := false
  dist : Bool := false
  symLink : Bool := false
  dryrun : Bool := false
  exts : List Str := [c!".*"]
  skips : List Str := [c!".data", c!".chk", c!".chk_tmp", c!".log", c!".corr", c!".py", c!".m", c!".py_mcsamples", c!".pysamples"]
  maxAge : Option Int := none        -- the date of --max_age_days

/-- copyGridFiles.py:53-59 `fileMatches` -/
def fileMatches (skips : List Str) (f name : Str) : List Str → Bool
  | [] => false
  | ext :: exts =>
    if ParamNames.fnmatchcase f (name ++ ext) then !(skips.any (fun e => ParamNames.fnmatchcase f (name ++ e)))
    else fileMatches skips f name exts

/-- `l[k:]` -/
def sliceFrom {α : Type} (l : List α) (k : Int) : List α := if k < 0 then l.drop (l.length - (-k).toNat) else l.drop k.toNat

section
variable {K : Type} [Field K] [LinearOrder K] [IsStrictOrderedRing K] [FloorRing K]

/-- `int(x)` -/
def pyInt (x : K) : Int := if 0 ≤ x then ⌊x⌋ else ⌈x⌉

/-- copyGridFiles.py:67-72: the lines kept of a chain file -/
def keptLines (frac : K) (text : Str) : List Str :=
  let lines := fileIter text
  sliceFrom lines (pyInt ((lines.length : K) * frac))

/-- copyGridFiles.py:62-88 `doCopy`: the file written, if any -/
def doCopy (a : Args K) (fs : FS) (source dest f : Str) (hasBurn : Bool) : List (Str × Content) :=
  match fs.get? (source ++ f) with
  | none => []                      -- not called
  | some file =>
    if a.dryrun then []
    else
      let lines := if a.frac ≠ 0 ∧ hasBurn = true then keptLines a.frac file.text else []
      if lines ≠ [] then [(dest ++ f, .text lines.flatten)]
      else if a.symLink then [(dest ++ f, .link (source ++ f))]
      else [(dest ++ f, .text file.text)]

/-- `os.listdir` -/
def listdir (fs : FS) (dir : Str) : List Str :=
  (fs.keys.filter (fun p => startsWith dir p && !(p.drop dir.length).contains '/')).map (fun p => p.drop dir.length)

def chainFile (name : Str) (i : Nat) : Str := name ++ c!"_" ++ strNat i ++ c!".txt"

/-- copyGridFiles.py:118-123: the numbers of the chain files, up to the first that is missing -/
def chainLoop (ex : Nat → Bool) : Nat → Nat → List Nat
  | 0, _ => []
  | fuel + 1, i => if ex i then i :: chainLoop ex fuel (i + 1) else []

def chainNums (fs : FS) (j : JobD) : List Nat := chainLoop (fun i => fs.has (j.chainPath ++ chainFile j.name i)) (fs.length + 1) 1

def fresh (a : Args K) (fs : FS) (path : Str) : Bool :=
  match a.maxAge with
  | none => true
  | some t => match fs.get? path with
    | some f => decide (f.mtime > t)
    | none => false

/-- `chainExists()` (batchjob.py:331-333) -/
def chainExists (fs : FS) (j : JobD) : Bool :=
  match fs.get? (j.chainPath ++ chainFile j.name 1) with
  | some f => !f.text.isEmpty
  | none => false

def propsName (j : JobD) : Str := j.name ++ c!".properties.ini"

/-- whether chains are copied (line 117) -/
def copiesChains (a : Args K) (fs : FS) (j : JobD) : Bool :=
  a.chains && chainExists fs j && fresh a fs (j.chainPath ++ chainFile j.name 1)

/-- whether the burn-in flag is written (line 124) -/
def writesProps (a : Args K) (fs : FS) (j : JobD) : Bool := copiesChains a fs j && !j.isImp && decide (a.frac ≠ 0)

/-- copyGridFiles.py:115-145: the files written for one run, in order -/
def copyJob (a : Args K) (fs : FS) (j : JobD) : List (Str × Content) :=
  let out := j.relativePath
  (if copiesChains a fs j then (chainNums fs j).flatMap (fun i => doCopy a fs j.chainPath out (chainFile j.name i) (!j.isImp)) else []) ++
  (if writesProps a fs j && !a.dryrun then
    [(out ++ propsName j, Content.text (IniFile.toText (IniFile.setParam j.props c!"burn_removed" (.bool true))))] else []) ++
  ((listdir fs j.chainPath).filter (fun f => fileMatches a.skips f j.name a.exts && !(writesProps a fs j && contains c!".properties.ini" f) &&
      fresh a fs (j.chainPath ++ f))).flatMap (fun f => doCopy a fs j.chainPath out f false) ++
  (if a.dist then
    ((listdir fs j.distPath).filter (fun f => fileMatches a.skips f j.name a.exts && fresh a fs (j.distPath ++ f))).flatMap
      (fun f => doCopy a fs j.distPath (out ++ c!"dist/") f false) else [])

end

/-- the target directory after the writes: a later write replaces an earlier one -/
def target (ws : List (Str × Content)) : Dict Str Content := ws.foldl (fun d w => d.set w.1 w.2) []

/-! ## cleanup.py -/

/-- cleanup.py:28-30 -/
def cleanExts (chainnum : Option Str) (ext : List Str) : List Str :=
  match chainnum with
  | some n => ext.map (fun e => c!"_" ++ n ++ c!"." ++ e)
  | none => ext.map (fun e => c!"." ++ e) ++ ext.map (fun e => c!"_*." ++ e)

/-- cleanup.py:34-36 -/
def cleanDirs (hasDist : Bool) (dist : Bool) (j : JobD) : List Str := (if dist then [] else [j.chainPath]) ++ (if hasDist then [j.distPath] else [])

/-- cleanup.py:37-46: the files of one run that are removed -/
def cleanJob (fs : FS) (confirm empty dist hasDist : Bool) (exts : List Str) (j : JobD) : List Str :=
  if !confirm then []
  else (cleanDirs hasDist dist j).flatMap (fun dir => ((listdir fs dir).filter (fun f =>
    exts.any (fun e => ParamNames.fnmatchcase f (j.name ++ e)) &&
      (!empty || (match fs.get? (dir ++ f) with | some d => d.text.isEmpty | none => false)))).map (fun f => dir ++ f))

end Verif.GridFiles
