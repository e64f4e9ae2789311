import Verif.Py.Path
import Verif.Py.Num

/-!
# Model of finding chain files (`python/getdist/chains.py:56-113, 1034-1054, 1506-1517`,
`python/getdist/chain_grid.py:6-27`, `python/getdist/command_line.py:135-145`)

The file system is given by the listing of each directory path (`none`: `os.listdir` raises `FileNotFoundError`).
`os.sep` is `/`.  `os.walk` is a parameter: the list of `(base, dirs)` pairs it yields.  `glob.glob` of
`dir/*suffix` is the list of not hidden names with that suffix; directories with pattern characters are not modelled.
-/

namespace Verif.ChainFiles
open Verif.Py Verif.Py.Path

/-- exceptions -/
inductive FErr
  | fileNotFound
  | indexError
  | valueError
  | ioError
  deriving DecidableEq, Repr

/-- `os.listdir` -/
structure Dirs where
  ls : Str → Option (List Str)

def Dirs.listdir (d : Dirs) (p : Str) : Except FErr (List Str) :=
  match d.ls p with
  | none => .error .fileNotFound
  | some l => .ok l

/-- the keyword arguments of `chainFiles` (chains.py:79-80) -/
structure Opts where
  chainIndices : Option (List Nat) := none
  ext : Str := c!".txt"
  separator : Str := c!"_"
  firstChain : Int := 0
  lastChain : Int := -1
  chainExclude : Option (List Nat) := none

/-- the pattern (chains.py:94-98) -/
def pattern (root : Str) (o : Opts) : Re :=
  if endsWith ['/'] root then .seq (.opt .num) (.lit o.ext)
  else .seq (.lit (basename root)) (.seq (.opt (.seq (.lit o.separator) .num)) (.lit o.ext))

/-- `int(match.group("num") or 0)` (chains.py:103) -/
def numOf : Option Str → Nat
  | none => 0
  | some s => Nat.ofDigitChars 10 s 0

/-- the test of the index (chains.py:104-106) -/
def wanted (o : Opts) (index : Nat) : Bool :=
  (o.chainIndices.all (fun l => l.contains index)) && (o.chainExclude.all (fun l => !l.contains index))
    && decide (o.firstChain ≤ index) && (decide (o.lastChain < 0) || decide ((index : Int) ≤ o.lastChain))

/-- the file is listed (chains.py:101-106) -/
def accepts (root : Str) (o : Opts) (f : Str) : Bool :=
  match (pattern root o).fullmatch f with
  | none => false
  | some g => wanted o (numOf g)

/-- `chainFiles` (chains.py:79-109) -/
def chainFiles (d : Dirs) (root : Str) (o : Opts) : Except FErr (List Str) := do
  let folder := dirname root
  let names ← d.listdir folder
  pure ((names.filter (accepts root o)).map (Path.join folder))

/-- `hasChainFiles` (chains.py:112-113) -/
def hasChainFiles (d : Dirs) (root : Str) (ext : Str := c!".txt") : Except FErr Bool := do
  let a ← chainFiles d root { ext := ext, separator := c!"_", lastChain := 1 }
  if a.isEmpty then
    let b ← chainFiles d root { ext := ext, separator := c!".", lastChain := 1 }
    pure (!b.isEmpty)
  else pure true

/-- the candidate roots of the search in the order of the loops (chains.py:71-73) -/
def candidates (walk : List (Str × List Str)) (root : Str) : List Str :=
  walk.flatMap (fun p => p.2.map (fun dir => Path.join (Path.join p.1 dir) root))

/-- first candidate with chain files -/
def firstWith (d : Dirs) : List Str → Except FErr (Option Str)
  | [] => .ok none
  | r :: rs => do
    if (← hasChainFiles d r) then pure (some r) else firstWith d rs

/-- `findChainFileRoot` (chains.py:56-76) -/
def findChainFileRoot (d : Dirs) (walk : List (Str × List Str)) (chainDir root : Str) (sub : Bool) :
    Except FErr (Option Str) := do
  let root := replaceChar '\\' ['/'] root
  let fileRoot := Path.join chainDir root
  if (← hasChainFiles d fileRoot) then pure (some fileRoot)
  else if sub then firstWith d (candidates walk root)
  else pure none

/-- the name of the file written by `saveAsText` (chains.py:1050-1053) -/
def saveName (root : Str) (chainIndex : Option Nat) : Str :=
  let root := if endsWith c!".txt" root then root.take (root.length - 3) else root
  root ++ (match chainIndex with | none => [] | some i => '_' :: strNat (i + 1)) ++ c!".txt"

/-- the name of the parameter name file written by `Chains.saveAsText`, if any (chains.py:1506-1517) -/
def saveMeta (root : Str) (chainIndex : Option Nat) : Option Str :=
  match chainIndex with
  | none => some (root ++ c!".paramnames")
  | some 0 => some (root ++ c!".paramnames")
  | some _ => none

/-- `glob.glob(os.path.join(rootdir, '*' + suffix))` -/
def globSuffix (d : Dirs) (rootdir suffix : Str) : List Str :=
  (((d.ls rootdir).getD []).filter (fun f => endsWith suffix f && !startsWith ['.'] f)).map (Path.join rootdir)

def insertStr (a : Str) : List Str → List Str
  | [] => [a]
  | b :: l => if a ≤ b then a :: b :: l else b :: insertStr a l

/-- `files.sort()`: by code points -/
def sortStr : List Str → List Str
  | [] => []
  | a :: l => insertStr a (sortStr l)

/-- `filter` with a test that may raise -/
def filterE (p : Str → Except FErr Bool) : List Str → Except FErr (List Str)
  | [] => .ok []
  | a :: l => do
    let b ← p a
    let r ← filterE p l
    pure (if b then a :: r else r)

/-- `get_chain_root_files` (chain_grid.py:11-27) -/
def getChainRootFiles (d : Dirs) (rootdir : Str) : Except FErr (List Str) := do
  let a := (globSuffix d rootdir c!".paramnames").map stripExt
  let ending := c!"updated.yaml"
  let b := (globSuffix d rootdir ending).map (fun f => rstripP (fun c => c == '_' || c == '.') (f.take (f.length - ending.length)))
  let files ← filterE (fun f => hasChainFiles d (Path.join rootdir f)) (a ++ b)
  pure (sortStr files)

end Verif.ChainFiles
