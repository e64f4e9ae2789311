import Verif.Model.Batch
import Verif.Py.Path

/-!
# Model of grids made of folders of chains (`python/getdist/chain_grid.py`)

The search of the folders is in `Model/ChainFiles.lean` (`getChainRootFiles`); here the folders and the roots found in them are given.
`getdist.ini` of the grid is not modelled.
-/

namespace Verif.ChainGrid
open Verif.Py Verif.Batch

/-- `ChainItem` (chain_grid.py:49-56) -/
structure Item where
  chainRoot : Str
  paramtag : Str
  name : Str
  deriving DecidableEq, Repr

/-- values of `self.roots`: lists while reading, single items at the end -/
inductive Ent
  | many (l : List Item)
  | one (i : Item)
  deriving DecidableEq, Repr

inductive GErr
  | indexError
  | typeError
  | valueError
  | keyError
  deriving DecidableEq, Repr

/-- `file_root_to_root` (chain_grid.py:6-8) -/
def fileRootToRoot (root : Str) : Str :=
  if endsWith ['/'] root then Path.basename root.dropLast ++ ['/'] else Path.basename root

/-- `normed_name` (chain_grid.py:85-86) -/
def normedName (root : Str) : Str :=
  join us (sorted (splitChar '_' (replaceStr c!"_post" [] (replaceStr c!"__" us root))))

/-- `self.roots.get(root, []) + [item]` (chain_grid.py:92-93) -/
def addRoot (dirTag dirname : Str) (d : Dict Str (List Item)) (file : Str) : Dict Str (List Item) :=
  let root := fileRootToRoot file
  Dict.set d root ((Dict.get? d root).getD [] ++ [⟨Path.join dirname root, dirTag, root⟩])

/-- `_add` (chain_grid.py:88-93) -/
def add (d : Dict Str (List Item)) (dirTag dirname : Str) (files : List Str) : Dict Str (List Item) :=
  files.foldl (addRoot dirTag dirname) d

/-- all folders (chain_grid.py:71-81): tag, path and roots found of each -/
def addAll (l : List (Str × Str × List Str)) : Dict Str (List Item) := l.foldl (fun d x => add d x.1 x.2.1 x.2.2) []

/-- `s[-i]` for a path in reversed order -/
def back (s : List Str) (i : Nat) : Except GErr Str := match s[i - 1]? with | some c => .ok c | none => .error .indexError

/-- `all(s[-i] == paths[0][-i] for s in paths[1:])` on reversed paths (chain_grid.py:102) -/
def allSame (first : List Str) (i : Nat) : List (List Str) → Except GErr Bool
  | [] => .ok true
  | s :: ss => match back s i, back first i with
    | .ok a, .ok b => if a = b then allSame first i ss else .ok false
    | .error e, _ => .error e
    | _, .error e => .error e

/-- the loop of chain_grid.py:101-103; ends by `IndexError` when a path is used up, so `fuel` = length + 1 is enough -/
def depth (first : List Str) (rest : List (List Str)) : Nat → Nat → Except GErr Nat
  | 0, _ => .error .indexError
  | fuel + 1, i => match allSame first i rest with
    | .error e => .error e
    | .ok true => depth first rest fuel (i + 1)
    | .ok false => .ok i

/-- `'/'.join(parts[-i:])` of a reversed path -/
def tailName (rev : List Str) (i : Nat) : Str := join ['/'] (rev.take i).reverse

/-- the branch for several items (chain_grid.py:100-108) -/
def rename (roots : Dict Str Ent) (root : Str) (l : List Item) : Except GErr (Dict Str Ent) :=
  let revs := l.map (fun i => (splitChar '/' i.chainRoot).reverse)
  match depth (revs.headD []) revs.tail ((revs.headD []).length + 1) 2 with
  | .error e => .error e
  | .ok i =>
    let d := (l.map (fun x => { x with name := tailName (splitChar '/' x.chainRoot).reverse i })).foldl
      (fun d x => Dict.set d x.name (Ent.one x)) roots
    if d.has root then .ok (Dict.erase d root) else .error .keyError

/-- a step of `_make_unique` (chain_grid.py:96-110): the roots and the index by normalised name.  (The index shares the items: their
new names are seen there as well.) -/
def uniqueStep (st : Dict Str Ent × Dict Str (List Item)) (root : Str) : Except GErr (Dict Str Ent × Dict Str (List Item)) :=
  match Dict.get? st.1 root with
  | none => .error .keyError
  | some (.one _) => .error .typeError
  | some (.many l) =>
    let sorted := Dict.set st.2 (normedName root) ((Dict.get? st.2 (normedName root)).getD [] ++ l)
    match l with
    | [] => .error .indexError
    | [x] => .ok (Dict.set st.1 root (.one x), sorted)
    | _ => match rename st.1 root l with
      | .ok d => .ok (d, sorted)
      | .error e => .error e

/-- `_make_unique` (chain_grid.py:95-110) -/
def makeUnique (d : Dict Str (List Item)) : Except GErr (Dict Str Ent × Dict Str (List Item)) :=
  (Dict.keys d).foldlM uniqueStep (d.map (fun e => (e.1, Ent.many e.2)), [])

/-- `resolve_root` (chain_grid.py:122-133); the result is described by the path of the chain -/
def resolveRoot (g : Dict Str Ent × Dict Str (List Item)) (root : Str) : Except GErr (Option Str) :=
  match Dict.get? g.1 root with
  | some (.one x) => .ok (some x.chainRoot)
  | some (.many _) => .error .typeError
  | none => match Dict.get? g.2 (normedName root) with
    | none => .ok none
    | some [] => .ok none
    | some [x] => .ok (some x.chainRoot)
    | some _ => .error .valueError

/-- `roots_for_dir` (chain_grid.py:112-117) -/
def rootsForDir (g : Dict Str Ent) (paramtag : Str) : List Str :=
  g.filterMap (fun e => match e.2 with | .one x => if x.paramtag = paramtag then some x.name else none | .many _ => none)

end Verif.ChainGrid
