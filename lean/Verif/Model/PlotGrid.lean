import Verif.Model.ParamNames
import Verif.Model.MergeRenames
import Verif.Model.PlotLayout
import Mathlib.Algebra.Field.Basic

/-!
# Model of the choice of parameters, labels and colours for grids of plots (`python/getdist/plots.py`)

Modelled: `get_param_array`, `_check_param`, `_root_display_name`, `_default_legend_labels`, `escapeLatex`, the choice of plots of `plots_1d`,
`plots_2d`, `plots_3d_z`, the labels of `plot_3d`, the size of the figure of `make_figure`, `_get_paler_colors`, `_get_color_at_index`, the
colours of the lines and contours and the list of 1D roots of `triangle_plot`.

Simplified: `param_names_for_root` is a list of parameters; two `ParamInfo` objects are the same if they are equal; colours are
numbers or text.
-/

namespace Verif.PlotGrid
open Verif.Py Verif.ParamNames

inductive Err
  | names (e : ParamNames.Err)
  | layout (e : PlotLayout.Err)
  | attribute
  | plotError
  | index
deriving DecidableEq, Repr

def liftN {α : Type} : Except ParamNames.Err α → Except Err α
  | .ok a => .ok a
  | .error e => .error (.names e)

/-! ## Parameters -/

/-- a parameter given by its name or as an object -/
inductive P
  | str (s : Str)
  | info (p : Info)
deriving DecidableEq, Repr

/-- `getattr(param, "name", param)` -/
def P.name : P → Str
  | .str s => s
  | .info p => p.name

/-- the argument `params`: none, one string, or a list -/
inductive Params
  | none
  | str (s : Str)
  | list (l : List P)
deriving DecidableEq, Repr

/-- `old if isinstance(old, ParamInfo) else ParamInfo(old)` (plots.py:1799) -/
def asInfo : P → Except ParamNames.Err Info
  | .str s => ofLine s
  | .info p => .ok p

def isStr : P → Bool
  | .str _ => true
  | .info _ => false

/-- `renames_from_param_info` (plots.py:1792-1793) -/
def ownStep (d : Renames) : P → Renames
  | .str _ => d
  | .info p => d.set p.name p.renames

def ownRenames (l : List P) : Renames := l.foldl ownStep []

/-- the renames in use (plots.py:1794-1797) -/
def useRenames (pick : List Str → Str) (l : List P) (renames : Renames) : Renames :=
  if renames = [] then ownRenames l else mergeRenames pick false [renames, ownRenames l]

/-- `new or old` -/
def orOld (new : Option Info) (old : Info) : Info := new.getD old

/-- a call with one string returns what `parsWithNames` finds -/
def allFound : List (Option Info) → List Info := List.filterMap id

/-- `get_param_array` (plots.py:1760-1801) for a root with the parameters `ps` -/
def getParamArray (pick : List Str → Str) (ps : List Info) (params : Params) (renames : Renames) : Except Err (List Info) := match params with
  | .none => .ok ps
  | .str s => if s = [] then .ok ps else (liftN (parsWithNames ps [s] [true] renames)).map allFound       -- 1784, 1787-1788
  | .list l =>
    if l = [] then .ok ps
    else do
      let old ← liftN (l.mapM asInfo)                                                                     -- 1799
      let new ← liftN (parsWithNames ps (l.map P.name) (l.map isStr) (useRenames pick l renames))         -- 1800
      .ok (List.zipWith orOld new old)                                                                    -- 1800-1801

/-- `_check_param` (plots.py:1803-1826) -/
def checkParam (ps : List Info) (param : P) (renames : Renames) : Except Err (Option Info) := match param with
  | .str s => liftN (parWithNameE ps s true renames)
  | .info p =>
    let r := if renames = [] then [(p.name, p.renames)] else [(p.name, aliasesOf renames p.name ++ p.renames)]
    liftN (parWithNameE ps p.name false r)

/-! ## Labels -/

/-- `escapeLatex` (paramnames.py:20-25) -/
def escapeLatex (usetex : Bool) (text : Str) : Str := if usetex then replaceChar '_' c!"{\\textunderscore}" text else text

/-- samples: the label and the name tag, possibly none -/
structure Samples where
  label : Option Str := none
  name : Option Str := none
deriving DecidableEq, Repr

/-- a root to plot: a name, samples, a list of names (one per parameter, `roots_per_param`), or none -/
inductive Root
  | str (s : Str)
  | samples (s : Samples)
  | group (l : List Str)
  | none
deriving DecidableEq, Repr

/-- a legend label: text, or (by mistake) a list of roots -/
inductive Label
  | text (s : Str)
  | list (l : List Str)
deriving DecidableEq, Repr

/-- `x or y` for text that may be none -/
def orText : Option Str → Option Str → Option Str
  | some [], y => y
  | none, y => y
  | some x, _ => some x

/-- `MCSamples.getLabel` (chains.py:260-266) -/
def Samples.getLabel (usetex : Bool) (s : Samples) : Option Str := orText s.label (s.name.map (escapeLatex usetex))

/-- `'samples' + str(i)` if there is no text (plots.py:2017-2018) -/
def orNumber (t : Option Str) (i : Nat) : Str := match t with
  | some (c :: cs) => c :: cs
  | _ => c!"samples" ++ strNat i

/-- `_root_display_name` of samples (plots.py:2003-2004, 2017-2019) -/
def samplesName (usetex : Bool) (s : Samples) (i : Nat) : Str := orNumber (s.getLabel usetex) i

/-- `_root_display_name` (plots.py:2000-2019); `load` gives the samples of a root name -/
def displayName (usetex : Bool) (load : Str → Samples) (root : Root) (i : Nat) : Label := match root with
  | .samples s => .text (samplesName usetex s i)
  | .str s =>
    let label := samplesName usetex (load s) i
    if contains label s && contains c!"/" s then .text (escapeLatex usetex s) else .text label
  | .group l => if l = [] then .text (c!"samples" ++ strNat i) else .list l
  | .none => .text (c!"samples" ++ strNat i)

/-- the roots that are not none, with their numbers -/
def numberedRoots (roots : List Root) : List (Root × Nat) := roots.zipIdx.filter (fun p => decide (p.1 ≠ .none))

/-- `_default_legend_labels` (plots.py:2021-2034) -/
def legendLabels (usetex : Bool) (load : Str → Samples) (given : Option (List Label)) (roots : List Root) : List Label := match given with
  | some l => l
  | none => if roots.length < 2 then [] else (numberedRoots roots).map (fun p => displayName usetex load p.1 p.2)

/-! ## Which plots -/

/-- a value of `param_renames` -/
inductive Ren
  | one (s : Str)
  | many (l : List Str)
deriving DecidableEq, Repr

/-- `param_renames.get(param.name, '') in wanted_params`: a list is in no list of names -/
def renWanted (wanted : List Str) : Option Ren → Bool
  | none => wanted.contains []
  | some (.one s) => wanted.contains s
  | some (.many _) => false

/-- the filter of `plots_1d` with `param_list` (plots.py:2081-2085) -/
def listed (wanted : List Str) (renames : Dict Str Ren) (p : Info) : Bool :=
  wanted.contains p.name || (decide (renames ≠ []) && renWanted wanted (renames.get? p.name))

/-- `share_y` and `nx` of `plots_1d` (plots.py:2087-2090) -/
def shareAndCols (shareY : Option Bool) (probLabel : Bool) (nparam : Nat) (nx : Option Nat) : Bool × Option Nat := match shareY with
  | none => (probLabel && decide (1 < nparam), nx)
  | some b => (b, if nx = none ∧ nparam < 6 then some nparam else nx)

/-- one subplot of `plots_1d`: place, parameter, whether the ticks of the y axis are left out -/
structure Cell1 where
  place : Nat × Nat
  param : Info
  noTicks : Bool
deriving DecidableEq, Repr

def cell1 (col : Nat) (share : Bool) (p : Info × Nat) : Cell1 :=
  { place := PlotLayout.place col p.2, param := p.1, noTicks := share && decide (0 < p.2 % col) }

/-- the subplots of `plots_1d` (plots.py:2086-2103) for the chosen parameters -/
def plots1d (params : List Info) (shareY : Option Bool) (probLabel : Bool) (nx : Option Nat) : Except Err (List Cell1) :=
  let sc := shareAndCols shareY probLabel params.length nx
  match PlotLayout.defaultColRow params.length sc.2 none with
  | .error e => .error (.layout e)
  | .ok (col, _) => .ok (params.zipIdx.map (cell1 col sc.1))

/-- the pairs of `plots_2d` for one x parameter (plots.py:2146-2152): a parameter object that is not found has no name -/
def pairsFrom (pick : List Str → Str) (ps : List Info) (param1 : P) (params2 : Params) : Except Err (List (Info × Info)) := do
  let p1 ← checkParam ps param1 []
  let l ← getParamArray pick ps params2 []
  match p1 with
  | none => if l = [] then .ok [] else .error .attribute
  | some p => .ok ((l.filter (fun q => decide (q.name ≠ p.name))).map (fun q => (p, q)))

/-- `plots_3d_z` (plots.py:2990-2996): the sets of parameters -/
def setsZ (params : List Info) (maxZ : Option Nat) (x y : Info) : List (Info × Info × Info) :=
  let cut := match maxZ with
    | some m => params.take m
    | none => params
  (cut.filter (fun z => decide (z ≠ x) && decide (z ≠ y))).map (fun z => (x, y, z))

/-- the parameters that label the axes of `plot_3d` (plots.py:2917-2942): the variable `params` is assigned again in the loop over the other
roots (2932), and is the argument when there are limits and no other roots -/
def axisParams {α : Type} (given : Option α) (forPlots : List α) (limsGiven : Bool) : Option α :=
  if limsGiven then (match forPlots with
    | _ :: p :: ps => some ((p :: ps).getLast (List.cons_ne_nil p ps))
    | _ => given)
  else forPlots.head?

/-! ## Size of the figure -/

section
variable {K : Type} [Field K] [DecidableEq K]

/-- the settings for the size -/
structure Size (K : Type) where
  widthInch : Option K
  subplotInch : K
  ratio : Option K                -- `subplot_size_ratio`

/-- `make_figure` (plots.py:1730-1740): width and height of the figure, width of the axes -/
def figureSize (s : Size K) (col row : Nat) (xstretch ystretch : K) : K × K × K :=
  let ystretch := match s.ratio with
    | some r => if r = 0 then ystretch else ystretch * r
    | none => ystretch
  match s.widthInch with
  | some w => (w, (w * row * ystretch) / (col * xstretch), w / col)
  | none => (s.subplotInch * col * xstretch, s.subplotInch * row * ystretch, s.subplotInch * xstretch)

/-! ## Colours -/

/-- one paler colour -/
def paler (p : K) (c : List K) : List K := c.map (fun x => x * (1 - p) + p)

/-- the loop of `_get_paler_colors` (plots.py:1006-1007) -/
def palerLoop (p : K) : Nat → List (List K) → List (List K)
  | 0, cols => cols
  | n + 1, cols => palerLoop p n (paler p (cols.headD []) :: cols)

/-- `_get_paler_colors` (plots.py:1001-1008) -/
def palerColors (setting : K) (factor : Option K) (color : List K) (nLevels : Nat) : List (List K) :=
  let p := match factor with
    | some f => if f = 0 then setting else f
    | none => setting
  palerLoop p (nLevels - 1) [color]

end

/-- a colour: a name or an rgb tuple, or a list of colours (one per contour) -/
inductive Color
  | one (s : Str)
  | many (l : List Str)
deriving DecidableEq, Repr

/-- `_get_color_at_index` (plots.py:852-871) with the list of colours -/
def colorAt (colors : List Color) (i : Nat) : Except Err Color := match colors[i]? with
  | some c => .ok c
  | none => .error .index

/-- the colour of the 1D line (plots.py:2384-2387): the last of several colours -/
def lineColor : Color → Except Err Str
  | .one s => .ok s
  | .many l => match l.getLast? with
    | some s => .ok s
    | none => .error .index

/-- a filled contour: the colours from the outside in; one colour is made paler outwards and stays the innermost (plots.py:1089-1097) -/
def contourColors (pale : Str → Nat → Str) (nLevels : Nat) : Color → List Str
  | .one s => ((List.range (nLevels - 1)).map (fun k => pale s (nLevels - 1 - k))) ++ [s]
  | .many l => l

/-- the colour of root `plotno` of `n` filled contours: its own or that of the setting, the last root first (plots.py:1090-1093, 2378-2379) -/
def filledColor (solid : List Color) (own : Option Color) (n plotno : Nat) : Except Err Color := match own with
  | some c => .ok c
  | none => colorAt solid (n - plotno - 1)

/-- the 1D line of `def_line_args` for a filled root (plots.py:2377-2388) -/
def filledLine (solid : List Color) (own : Option Color) (n plotno : Nat) : Except Err Str :=
  match filledColor solid own n plotno with
  | .error e => .error e
  | .ok c => lineColor c

/-- `roots1d` and the line arguments (plots.py:2408-2417): the upper roots to show that are not there yet -/
def roots1d {α β : Type} [DecidableEq α] : List α × List β → List (α × β × Bool) → List α × List β
  | acc, [] => acc
  | acc, (root, arg, show_) :: l =>
    if show_ && !acc.1.contains root then roots1d (acc.1 ++ [root], acc.2 ++ [arg]) l else roots1d acc l

end Verif.PlotGrid
