import Verif.Py.Str
import Verif.Py.Dict

/-!
# The graphical interface: what is plotted and what the script says

Model of `python/getdist/gui/mainwindow.py`: `plotData` (1544-1813), `changed_settings` (865-870), `settingsChanged` (883-888), `resetAnalysisSettings` (951-955), the making of
plotters (`getPlotter`, 1158-1185) and the reading of the settings by `MCSampleAnalysis` (plots.py:399-464, 498-530).

Modelled: which plot is drawn for a selection, with which arguments, and which call is written to the script; the analysis settings on the screen and of the script; how strings are put into the
script and what Python reads there.  Not modelled: sizes of figures, rendering, spaces for legends, messages; `Sel` is what the widgets hold.  Plot settings are in `Model/GuiEdit`.
-/

namespace Verif.GuiPlot
open Verif.Py

inductive Err
  | noRoots         -- warning "No root selected" (1560-1563)
  | selection       -- GuiSelectionError
  | usage           -- warning "Plot usage" (1783-1796)
  | key (k : Str)   -- KeyError
  | type            -- TypeError
deriving DecidableEq, Repr

/-- the radio buttons -/
inductive Kind | filled | line | color | z
deriving DecidableEq, Repr

/-- the state of the widgets; `color` is the text of `comboBoxColor` -/
structure Sel where
  roots : List Str
  xs : List Str
  ys : List Str
  z : Str
  color : Str
  triangle : Bool
  kind : Kind
  shade : Bool
  shadow : Bool
  inside : Bool
deriving DecidableEq, Repr

/-- a call of the plotter with its arguments -/
inductive Call
  | triangle (roots params : List Str) (with3 : Option Str) (filled shaded : Bool)
  | four (roots params : List Str) (cols : Option (List Str)) (shadow : Bool)
  | one (roots params : List Str) (ncol : Option Nat)
  | rect (xs ys roots : List Str) (filled : Bool)
  | two (roots : List Str) (pair : Str × Str) (filled shaded : Bool)
  | twos (roots : List Str) (pairs : List (Str × Str)) (filled shaded : Bool)
  | three (roots : List Str) (set : List Str)
  | threes (roots : List Str) (sets : List (List Str))
deriving DecidableEq, Repr

/-- `settings.line_styles`: a list of styles or a colour map (plots.py:93) -/
inductive Styles
  | list (l : List Str)
  | map

/-- the pairs of a two-dimensional plot (1733-1747) -/
def pairs (xs ys : List Str) : List (Str × Str) := match xs, ys with
  | [x], ys => ys.map (fun y => (x, y))
  | xs, [y] => xs.map (fun x => (x, y))
  | _, _ => []

/-- the colours of all roots but the first in a four-dimensional plot: the last letter of the styles (1694) -/
def compareColors (n : Nat) : Styles → Except Err (List Str)
  | .list l => .ok ((l.take (n - 1)).map (fun c => match c.getLast? with | some x => [x] | none => []))
  | .map => .error .type

/-- the triangle plot (1664-1684): the call and what is written -/
def plotTriangle (s : Sel) : Except Err (Call × Call) :=
  let filled := decide (s.kind = .filled)
  let shaded := !filled && s.shade
  let with3 := if s.kind = .color then some s.color else none
  if 1 < s.xs.length then
    .ok (.triangle s.roots s.xs with3 filled shaded, .triangle s.roots s.xs (match with3 with | some c => if c = [] then none else some c | none => none) filled shaded)
  else .error .selection

/-- the four-dimensional plot (1685-1703) -/
def plotFour (styles : Styles) (s : Sel) : Except Err (Call × Call) := match s.xs, s.ys with
  | [x], [y] =>
    if s.z = [] then .error .selection else
    let params := [x, y, s.z] ++ (if s.color = [] then [] else [s.color])
    match compareColors s.roots.length styles with
    | .error e => .error e
    | .ok cols => .ok (.four s.roots params (some cols) s.shadow, .four s.roots params (if s.roots.length = 1 then none else some cols) s.shadow)
  | _, _ => .error .selection

/-- the plots of one and two parameters (1704-1782) -/
def plotFlat (s : Sel) : Except Err (Call × Call) :=
  let filled := decide (s.kind = .filled)
  let shaded := !filled && s.shade
  if s.xs = [] then .error .usage
  else if s.ys = [] then .ok (.one s.roots s.xs (if 3 < s.roots.length then some 2 else none), .one s.roots s.xs none)
  else if 1 < s.xs.length ∧ 1 < s.ys.length then .ok (.rect s.xs s.ys s.roots filled, .rect s.xs s.ys s.roots filled)
  else if s.kind = .color then
    let sets := (pairs s.xs s.ys).map (fun p => [p.1, p.2, s.color])
    match sets with
    | [t] => .ok (.three s.roots t, .three s.roots t)
    | sets => .ok (.threes s.roots sets, .threes s.roots sets)
  else
    match pairs s.xs s.ys with
    | [p] => if s.inside then .ok (.two s.roots p filled shaded, .two s.roots p filled shaded) else .ok (.twos s.roots [p] filled shaded, .twos s.roots [p] filled shaded)
    | l => .ok (.twos s.roots l filled shaded, .twos s.roots l filled shaded)

/-- `plotData`: the call that draws and the call in the script -/
def plotData (styles : Styles) (s : Sel) : Except Err (Call × Call) :=
  if s.roots = [] then .error .noRoots
  else if s.triangle then plotTriangle s
  else if s.kind = .z then plotFour styles s
  else plotFlat s

/-! ## Analysis settings -/

abbrev Settings := Dict Str Str

/-- `changed_settings` (865-870) -/
def changed (defaults : Settings) : Settings → Except Err Settings
  | [] => .ok []
  | (k, v) :: rest => match Dict.get? defaults k with
    | none => .error (.key k)
    | some d => match changed defaults rest with
      | .error e => .error e
      | .ok r => .ok (if d = v then r else (k, v) :: r)

/-- the argument `analysis_settings` in the script (1584-1586, 1612-1617) -/
inductive Arg
  | none
  | dict (d : Settings)
  | file

def scriptArg (defaults : Settings) (hasIni : Bool) (current : Settings) : Except Err Arg := match changed defaults current with
  | .error e => .error e
  | .ok [] => .ok (if hasIni then .file else .none)
  | .ok d => .ok (.dict d)

/-- the settings of an analyser made with such an argument (plots.py:454-460); `ini` is what the file has -/
def readArg (defaults ini : Settings) : Arg → Settings
  | .none => defaults
  | .dict d => Dict.update defaults d
  | .file => ini

/-- the setting used for samples that have settings of their own (plots.py:498-530) -/
def used (priority : Bool) (own ini : Settings) (k : Str) : Option Str :=
  if priority then (Dict.get? own k).or (Dict.get? ini k) else (Dict.get? ini k).or (Dict.get? own k)

/-- settings in the window: `base_settings`, `current_settings`, those of the analyser, whether they are one object with `current_settings`, `chain_settings_have_priority` -/
structure Win where
  base : Settings
  current : Settings
  analyser : Settings
  shared : Bool
  priority : Bool
deriving DecidableEq, Repr

inductive Act
  | update (vals : Settings)    -- Update in the dialog: 2296-2298, 883-885
  | openDir                     -- a directory is opened: 1175
  | reset                       -- Reset analysis settings: 951-955

def act (w : Win) : Act → Win
  | .update vals =>
    let c := Dict.update w.current vals
    { w with current := c, analyser := if w.shared then c else Dict.update w.analyser c, priority := false }
  | .openDir => { w with analyser := w.current, shared := true, priority := true }
  | .reset => { w with current := w.base, shared := false }

/-! ## Strings in the script -/

/-- what Python reads up to the closing quote; octal, hexadecimal and named escapes are not modelled (none) -/
def readString (raw : Bool) (q : Char) : Str → Option (Str × Str)
  | [] => none
  | c :: cs =>
    if c = q then some ([], cs)
    else if c = '\n' then none
    else if c = '\\' then
      match cs with
      | [] => none
      | d :: ds => match readString raw q ds with
        | none => none
        | some (v, rest) =>
          if raw then some (c :: d :: v, rest)
          else if d = 'n' then some ('\n' :: v, rest)
          else if d = 'r' then some ('\r' :: v, rest)
          else if d = 't' then some ('\t' :: v, rest)
          else if d = 'a' then some (Char.ofNat 7 :: v, rest)
          else if d = 'b' then some (Char.ofNat 8 :: v, rest)
          else if d = 'f' then some (Char.ofNat 12 :: v, rest)
          else if d = 'v' then some (Char.ofNat 11 :: v, rest)
          else if d = '\\' ∨ d = '\'' ∨ d = '"' then some (d :: v, rest)
          else if d = '\n' then some (v, rest)
          else if d.isDigit ∨ d = 'x' ∨ d = 'u' ∨ d = 'U' ∨ d = 'N' then none
          else some (c :: d :: v, rest)
    else match readString raw q cs with
      | none => none
      | some (v, rest) => some (c :: v, rest)

/-- a plot setting that is a string (1621-1623) -/
def settingLiteral (v : Str) : Str := '"' :: (v ++ ['"'])

/-- one of three or more roots (1628-1630) -/
def rootLiteral (r : Str) : Str := '\'' :: (r ++ ['\''])

/-- trailing characters off -/
def rstripChar (c : Char) (s : Str) : Str := (s.reverse.dropWhile (· == c)).reverse

/-- the directory if there is one (1609-1610), after `r` -/
def dirLiteral (d : Str) : Str := '\'' :: (rstripChar '/' (rstripChar '\\' d) ++ ['\''])

/-- the directories of the script (1599-1608): each once, in order -/
def chainDirs (l : List Str) : List Str := l.foldl (fun acc d => if d ∈ acc then acc else acc ++ [d]) []

end Verif.GuiPlot
