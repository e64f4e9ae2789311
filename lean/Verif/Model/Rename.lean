import Verif.Model.ParamNames

/-!
# Model of `python/renameParam.py`

Modelled: the mapping from the map file and the list of pairs, `.paramnames` files, `.minimum` files, one pass over the chains of a grid.

Simplified: files are a table from names to contents; the selection of chains is the list of their roots; messages are left out.  An exception ends the
script: the state of the files at that moment is kept.
-/

namespace Verif.Rename
open Verif.Py Verif.ParamNames

inductive Err
  | value        -- ValueError: too few items in a line of the map file
  | index        -- IndexError: items[7] of a line without label
  | io           -- io.UnsupportedOperation: writing to a file opened for reading
  | names        -- errors on reading .paramnames files
  | pairs        -- fewer than two names given
deriving DecidableEq, Repr

/-- new name and label for old names -/
abbrev Mapper := Dict Str (Str × Option Str)

/-- `[s.strip() for s in line.split(None, 2)]` -/
def split3 (line : Str) : List Str := match splitWs1 line with
  | [] => []
  | [a] => [strip a]
  | a :: r :: _ => match splitWs1 r with
    | [] => [strip a]
    | [b] => [strip a, strip b]
    | b :: c :: _ => [strip a, strip b, strip c]

/-- the rows of the map file (renameParam.py:27-31) -/
def readMap : List Str → Mapper → Except Err Mapper
  | [], m => .ok m
  | l :: ls, m =>
    if strip l = [] then readMap ls m
    else match split3 l with
      | [old, new, label] => readMap ls (m.set old (new, some label))
      | _ => .error .value

/-- `zip(args.old_new[::2], args.old_new[1::2])` -/
def pairs : List Str → List (Str × Str)
  | a :: b :: l => (a, b) :: pairs l
  | _ => []

/-- renameParam.py:32-34 -/
def addPairs (m : Mapper) (l : List (Str × Str)) : Mapper := l.foldl (fun m p => m.set p.1 (p.2, none)) m

/-- renameParam.py:17, 24-34 -/
def makeMapper (mapFile : Option (List Str)) (oldNew : List Str) : Except Err Mapper :=
  if oldNew.length = 1 then .error .pairs
  else match readMap (mapFile.getD []) [] with
    | .error e => .error e
    | .ok m => .ok (addPairs m (pairs oldNew))

/-- renameParam.py:42-47 -/
def renameInfo (m : Mapper) (p : Info) : Info := match m.get? p.name with
  | none => p
  | some (new, lab) => { p with name := new, label := lab.getD p.label }

/-- renameParam.py:49-53 -/
def labelInfo (labels : List Info) (p : Info) : Info := match parWithName labels p.name with
  | none => p
  | some q => { p with label := q.label }

/-- renameParam.py:38-53: the names and `has` -/
def renameNames (m : Mapper) (labels : List Info) (ps : List Info) : List Info × Bool :=
  let qs := ps.map (renameInfo m)
  (qs.map (labelInfo labels), ps.any (fun p => (m.get? p.name).isSome) || qs.any (fun p => (parWithName labels p.name).isSome))

/-! ## Best fit files -/

/-- `re.split(r'(\S+)', line, maxsplit=n)` -/
def resplit : Nat → Str → List Str
  | 0, s => [s]
  | n + 1, s => match s.dropWhile isWs with
    | [] => [s]
    | c :: cs => s.takeWhile isWs :: (c :: cs).takeWhile (fun c => !isWs c) :: resplit n ((c :: cs).dropWhile (fun c => !isWs c))

/-- what happens to a line -/
inductive Line
  | stop
  | keep
  | new (text : Str) (changed : Bool)
deriving DecidableEq, Repr

/-- the name and the blanks after it (renameParam.py:70-74) -/
def newName (m : Mapper) (name gap : Str) : Str × Str := match m.get? name with
  | some (new, _) => (new, List.replicate (gap.length + name.length - new.length) ' ')
  | none => (name, gap)

/-- `has` for the name -/
def nameChanged (m : Mapper) (name : Str) : Bool := match m.get? name with
  | some (new, _) => new != name
  | none => false

/-- the label (renameParam.py:68-77): that of the label file, for the old name, wins -/
def newLabel (m : Mapper) (labels : List Info) (name : Str) : Option Str := match parWithName labels name with
  | some q => some q.label
  | none => (m.get? name).bind (·.2)

/-- one line of the best fit file (renameParam.py:62-86) -/
def minLine (m : Mapper) (labels : List Info) (line : Str) : Except Err Line := match resplit 4 (rstrip line) with
  | s0 :: w1 :: rest =>
    if w1 = c!"-log(Like)" then .ok .stop
    else match rest with
      | s1 :: w2 :: s2 :: name :: gap :: lab =>
        let r := newName m name gap
        let start := s0 ++ w1 ++ s1 ++ w2 ++ s2 ++ r.1 ++ r.2
        match newLabel m labels name with
        | none => .ok (.new (start ++ lab.flatten ++ ['\n']) (nameChanged m name))
        | some l => match lab with
          | [] => .error .index
          | _ => .ok (.new (start ++ l ++ ['\n']) (nameChanged m name || lab.flatten != l))
      | _ => .ok .keep
  | _ => .ok .keep

/-- the loop over lines (renameParam.py:60-86), after the first three -/
def minLoop (m : Mapper) (labels : List Info) : List Str → Except Err (List Str × Bool)
  | [] => .ok ([], false)
  | l :: ls => match minLine m labels l with
    | .error e => .error e
    | .ok .stop => .ok (l :: ls, false)
    | .ok .keep => match minLoop m labels ls with
      | .error e => .error e
      | .ok r => .ok (l :: r.1, r.2)
    | .ok (.new t b) => match minLoop m labels ls with
      | .error e => .error e
      | .ok r => .ok (t :: r.1, b || r.2)

def minimum (m : Mapper) (labels : List Info) (lines : List Str) : Except Err (List Str × Bool) :=
  match minLoop m labels (lines.drop 3) with
  | .error e => .error e
  | .ok r => .ok (lines.take 3 ++ r.1, r.2)

/-! ## The grid -/

abbrev FS := Str → Option Str

def FS.write (fs : FS) (name text : Str) : FS := fun n => if n = name then some text else fs n

def namesFile (root : Str) : Str := root ++ c!".paramnames"
def minFile (root : Str) : Str := root ++ c!".minimum"

/-- the best fit file of a chain (renameParam.py:57-90): an exception, if any; nothing is ever written -/
def minStep (m : Mapper) (labels : List Info) (confirm : Bool) (fs : FS) (root : Str) : Option Err := match fs (minFile root) with
  | none => none
  | some t => match minimum m labels (fileIter t) with
    | .error e => some e
    | .ok r => if r.2 && confirm then some .io else none

/-- one chain (renameParam.py:37-90) -/
def runItem (m : Mapper) (labels : List Info) (confirm : Bool) (fs : FS) (root : Str) : FS × Option Err := match fs (namesFile root) with
  | none => (fs, none)
  | some t => match loadText t with
    | .error _ => (fs, some .names)
    | .ok ps =>
      let r := renameNames m labels ps
      let fs := if r.2 && confirm then fs.write (namesFile root) (listText r.1) else fs
      (fs, minStep m labels confirm fs root)

/-- all chains -/
def runGrid (m : Mapper) (labels : List Info) (confirm : Bool) : FS → List Str → FS × Option Err
  | fs, [] => (fs, none)
  | fs, root :: roots => match runItem m labels confirm fs root with
    | (fs, some e) => (fs, some e)
    | (fs, none) => runGrid m labels confirm fs roots

end Verif.Rename
