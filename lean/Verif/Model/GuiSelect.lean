import Verif.Model.MergeRenames

/-!
# The graphical interface: roots, parameters and directories in its lists

Model of `python/getdist/gui/mainwindow.py`: `saveDirectories` (1083-1092), `newRootItem` and `removeRoot` (1311-1385), `_updateParameters` (1190-1232), `_updateListParameters`,
`_updateListParametersSelection`, `getXParams`, `getZParam` (1413-1456), `_updateComboBoxParam` (1500-1509), `checkedRootNames` (1511-1517), `showParamTable` (817-850), `showPCA` (775-797) and the
attributes of `DialogParamTables` (2137-2190).

Widgets are lists of what they show.  Not modelled: loading of chains (a parameter says whether it succeeds), Qt signals, drawing.
-/

namespace Verif.GuiSelect
open Verif.Py Verif.ParamNames

/-! ## Roots -/

structure Root where
  name : Str
  checked : Bool := true
  selected : Bool := false
deriving DecidableEq, Repr

/-- the list of roots and the paths of `root_infos` -/
structure St where
  roots : List Root
  paths : Dict Str Str
deriving DecidableEq, Repr

/-- the first item with the name is checked (1313-1318) -/
def checkFirst (name : Str) : List Root → Option (List Root)
  | [] => none
  | r :: rs => if r.name = name then some ({ r with checked := true } :: rs) else (checkFirst name rs).map (r :: ·)

/-- `newRootItem` (1311-1351); `loads` is whether the chains can be used -/
def newRoot (loads : Bool) (name path : Str) (st : St) : St := match checkFirst name st.roots with
  | some rs => { st with roots := rs }
  | none => if loads then ⟨st.roots ++ [{ name := name }], st.paths.set name path⟩ else st

/-- `checkedRootNames` (1511-1517) -/
def checkedNames (l : List Root) : List Str := (l.filter (·.checked)).map (·.name)

/-- the loop of `removeRoot` (1374-1381): `n` steps from index `i` -/
def removeFrom (one : Bool) : Nat → Nat → List Root → List Root
  | 0, _, l => l
  | n + 1, i, l => match l[i]? with
    | some r => removeFrom one n (i + 1) (if one || r.selected then l.eraseIdx i else l)
    | none => removeFrom one n (i + 1) l

def removeRoot (l : List Root) : List Root := removeFrom (l.length == 1) l.length 0 l

/-! ## Parameters -/

/-- the names of the first root with the renames of all (1203-1207) -/
def names (pick : List Str → Str) (first : List Info) (others : List Renames) : List Info := others.foldl (updateRenames pick) (filteredCopy first first)

/-- the old selection with its renames (1195-1201) -/
def oldNames (ps : List Info) (sel : List Str) : List (List Str) := sel.map (fun n => n :: aliasesOf (getRenames ps) n)

/-- `find_new_name` (1210-1215) -/
def findNew (ps : List Info) : List Str → Option Str
  | [] => none
  | o :: os => match parWithName ps o with
    | some p => some p.name
    | none => findNew ps os

/-- the text in the list (1222-1223) -/
def tagOf (e : Str × List Str) : Str := e.1 ++ (if e.2 = [] then [] else c!" (" ++ join c!", " e.2 ++ c!")")

/-- `paramNamesTags` (1221-1223) -/
def tags (ps : List Info) : Dict Str Str := (getRenames ps).foldl (fun d e => d.set (tagOf e) e.1) []

/-- the tag of a name: the first found (1426-1427) -/
def tagFor (t : Dict Str Str) (name : Str) : Option Str := (t.find? (fun e => e.2 = name)).map (·.1)

/-- a list of parameters with checks after an update (1224-1229, 1413-1434) -/
def updateList (ps : List Info) (old : List (List Str)) : List (Str × Bool) :=
  let t := tags ps
  let on := (old.filterMap (findNew ps)).filterMap (tagFor t)
  t.keys.map (fun tag => (tag, on.contains tag))

/-- `getCheckedParams`, `getXParams` (1435-1446): the names of the checked tags -/
def getParams (t : Dict Str Str) (l : List (Str × Bool)) : List Str := ((l.filter (·.2)).map (·.1)).filterMap t.get?

/-- the text of a combo box after an update (1500-1509): the first if the old one is not found -/
def combo (ps : List Info) (items : List Str) (old : Str) : Option Str := match parWithName ps old with
  | some p => if p.name ∈ items then some p.name else items.head?
  | none => items.head?

/-- the parameters for tables of a root (825-842) -/
def tableParams (mine theirs : List Info) (sel full : List Str) : Except Err (List Str) :=
  if sel = [] then .ok (full.filterMap (fun n => (parWithName theirs n (getRenames mine)).map (·.name)))
  else sel.foldr (fun n acc => match parWithNameE theirs n true (getRenames mine), acc with
    | .error e, _ => .error e
    | _, .error e => .error e
    | .ok none, .ok l => .ok l
    | .ok (some p), .ok l => .ok (p.name :: l)) (.ok [])

/-- the parameters for a PCA of a root (783-790; mcsamples.py:642-644 keeps those it knows and looks up their names without renames) -/
def pcaParams (theirs : List Info) (sel : List Str) : Except Err (List Str) :=
  let known := sel.filter (fun n => (parWithName theirs n).isSome)
  match known.find? (fun n => !(theirs.map (·.name)).contains n) with
  | some n => .error (.notFound n)
  | none => .ok known

/-! ## Directories, dialogs -/

/-- `saveDirectories` (1083-1089) -/
def saveDirs (root : Option Str) (dirs : List Str) : List Str := (match root with
  | some r => r :: dirs.filter (· ≠ r)
  | none => dirs).take 10

/-- the attributes that `DialogParamTables` and its base give themselves (1984-1991, 2138-2160) -/
def tableDialog : List Str := [c!"textfont", c!"tables", c!"root", c!"tabWidget", c!"copyButton", c!"saveButton", c!"tabs", c!"generated"]

/-- the attributes read by its buttons (2179-2190) -/
def readBy (button : Str) : List Str :=
  if button = c!"Copy latex" then [c!"tables", c!"tabWidget"] else if button = c!"Save latex" then [c!"_last_export_dir", c!"tables", c!"tabWidget"] else []

end Verif.GuiSelect
