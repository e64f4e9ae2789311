import Verif.Py.Str
import Verif.Py.Dict
import Verif.Py.Replace

/-!
# The graphical interface: changes of settings in an open script

Model of `python/getdist/gui/mainwindow.py`: the branch of `settingsChanged` for the script tab (889-913), `plotSettingsChanged` (957-1010) and what `plotData2` does to the text before it is
executed (1904-1908).

A script is the list of its lines.  Simplification: the new assignment of the analysis settings has several lines (893), which are in the list as one element until it is joined; here they are several
elements from the start (none of them starts like a plotter).  `eval`, `getattr` and `str` of plot settings are parameters; nothing is executed.
-/

namespace Verif.GuiEdit
open Verif.Py

def tag : Str := c!"analysis_settings ="

/-- the text of the assignment for the `repr` of the changed settings (893, also 1581) -/
def newText (r : Str) : Str := replaceStr c!", " (',' :: '\n' :: List.replicate 21 ' ') (tag ++ ' ' :: r)

/-- the lines after the first with a brace (897-900) -/
def dropBlock : List Str → Option (List Str)
  | [] => none
  | l :: ls => if '}' ∈ l then some ls else dropBlock ls

/-- the first assignment is replaced (896-903) -/
def replaceTag (nl : List Str) : List Str → Option (List Str)
  | [] => none
  | l :: ls => if startsWith tag l = true then some (nl ++ (dropBlock (l :: ls)).getD (l :: ls)) else (replaceTag nl ls).map (l :: ·)

/-- `last` after the loop without an assignment (894-905) -/
def lastG : Nat → Nat → List Str → Nat
  | _, last, [] => last
  | i, last, l :: ls => lastG (i + 1) (if last = 0 ∧ startsWith c!"g=" l = true then i else last) ls

def insertAt (n : Nat) (nl s : List Str) : List Str := s.take n ++ nl ++ s.drop n

/-- the line of a plotter with the argument (910) -/
def withArg (l : Str) : Str := (strip l).dropLast ++ c!", analysis_settings=analysis_settings)"

def lacks (l : Str) : Bool := startsWith c!"g=plots." l && !contains c!"analysis_settings" l

/-- the first plotter without the argument gets it (908-911) -/
def addArg : List Str → List Str
  | [] => []
  | l :: ls => if lacks l = true then withArg l :: ls else l :: addArg ls

/-- `settingsChanged` (890-912) -/
def editAnalysis (nl s : List Str) : List Str := addArg ((replaceTag nl s).getD (insertAt (lastG 0 0 s) nl s))

/-! ## Plot settings -/

def setPrefix (key : Str) : Str := c!"g.settings." ++ key ++ c!" ="

def setLine (key v : Str) : Str := setPrefix key ++ ' ' :: v

/-- the first line of a setting is replaced (991-995) -/
def replaceSet (key v : Str) : List Str → Option (List Str)
  | [] => none
  | l :: ls => if startsWith (setPrefix key) l = true then some (setLine key v :: ls) else (replaceSet key v ls).map (l :: ·)

/-- `last` after the loop (990-997) -/
def lastSet : Nat → Option Nat → List Str → Option Nat
  | _, last, [] => last
  | i, last, l :: ls => lastSet (i + 1) (if startsWith c!"g.settings." l = true ∨ last = none ∧ startsWith c!"g=" l = true then some i else last) ls

/-- one changed setting (985-999); `last` zero counts as none -/
def setPlot (key v : Str) (s : List Str) : List Str := match replaceSet key v s with
  | some s' => s'
  | none => match lastSet 0 none s with
    | some (n + 1) => insertAt (n + 2) [setLine key v] s
    | _ => s

/-- one setting that is not changed any more (1000-1005) -/
def delPlot (key : Str) : List Str → List Str
  | [] => []
  | l :: ls => if startsWith (setPrefix key) l = true then ls else l :: delPlot key ls

/-- `plotSettingsChanged` (983-1005) -/
def editPlot (custom : List (Str × Str)) (deleted : List Str) (s : List Str) : List Str :=
  deleted.foldl (fun s k => delPlot k s) (custom.foldl (fun s e => setPlot e.1 e.2 s) s)

/-! ## Values of plot settings -/

/-- a default setting: a string, `None`, or another object with its `str` -/
inductive Cur
  | text (s : Str)
  | none
  | other (shown : Str)
deriving DecidableEq, Repr

def Cur.shown : Cur → Str
  | .text s => s
  | .none => c!"None"
  | .other s => s

/-- a new value: a string, or another object as it is written in a script -/
inductive Val
  | text (s : Str)
  | code (s : Str)
deriving DecidableEq, Repr

/-- `re.match(r'^[\w]+$', value)` -/
def isWord (v : Str) : Bool := v ≠ [] && v.all (fun c => c.isAlphanum || c == '_')

/-- the value for an entry that is not the default (965-975); none if `eval` raises and the text cannot be used -/
def valueOf (ev : Str → Option Val) (cur : Cur) (v : Str) : Option Val := match cur with
  | .text _ => some (.text v)
  | .none => some ((ev v).getD (.text v))
  | .other _ => match ev v with
    | some x => some x
    | none => if isWord v then some (.text v) else none

/-- the loop over the entries of the dialog (961-980): custom settings, deleted ones, and whether it came to its end -/
def plotVals (attr : Str → Option Cur) (ev : Str → Option Val) : List (Str × Str) → List (Str × Val) × List Str × Bool
  | [] => ([], [], true)
  | (k, v) :: rest => match attr k with
    | none => ([], [], false)
    | some cur =>
      if cur.shown ≠ v ∧ v ≠ [] then
        match valueOf ev cur v with
        | none => ([], [], false)
        | some x => let r := plotVals attr ev rest; ((k, x) :: r.1, r.2.1, r.2.2)
      else let r := plotVals attr ev rest; (r.1, k :: r.2.1, r.2.2)

/-- the text that is executed (1904-1908) -/
def execText (t : Str) : Str := if contains c!"g.export()" t = true then replaceStr c!"g.export" c!"#g.export" t else t

end Verif.GuiEdit
