import Mathlib.Algebra.Order.Ring.Rat
import Mathlib.Algebra.Field.Rat
import Verif.Py.Dict
import Verif.Model.PlotGrid

/-!
# Model of making a plotter and of what is added to a plot (`python/getdist/plots.py:241-299, 305-366, 671-723`, `styles/planck.py`)

Simplified: only the settings for sizes are kept; objects with settings are numbered places of a list, so that a plotter can share the object that
the caller gave; a figure is its width and height; numbers are exact.  Drawing by matplotlib is the list of arguments it is given.
-/

namespace Verif.PlotMake
open Verif.Py

/-! ## Sizes of fonts -/

/-- a size of a font: a number or a name as `'large'` -/
inductive FSize where
  | num (x : ℚ)
  | name (s : Str)
deriving DecidableEq, Repr

/-- `x or d` -/
def orQ (x : Option ℚ) (d : ℚ) : ℚ := match x with
  | some v => if v = 0 then d else v
  | none => d

/-- `_numerical_fontsize` (plots.py:241-246); `scale` is matplotlib's `font_scalings` -/
def numerical (scale : Str → Option ℚ) (font : ℚ) : Option FSize → ℚ
  | some (.num x) => if x = 0 then orQ (some font) 11 else x
  | some (.name s) => if s = [] then orQ (some font) 11 else font * orQ (scale s) 1
  | none => orQ (some font) 11

/-- the settings for sizes (plots.py:157-239) -/
structure Settings where
  fontsize : ℚ
  legendFont : ℚ
  labelFont : ℚ
  axesFont : ℚ
  scaling : Bool
  subplotInch : ℚ
  ratio : Option ℚ
  figWidth : Option ℚ
deriving DecidableEq, Repr

/-- the sizes in `rcParams` -/
structure Rc where
  font : FSize
  legend : FSize
  label : FSize
  tick : FSize

/-- `rc_sizes` (plots.py:281-291) -/
def rcSizes (scale : Str → Option ℚ) (rc : Rc) (s : Settings) (axes lab legend : Option ℚ) : Settings :=
  let f := numerical scale s.fontsize (some rc.font)
  { s with
    fontsize := f
    legendFont := orQ legend (numerical scale f (some rc.legend))
    labelFont := orQ lab (numerical scale f (some rc.label))
    axesFont := orQ axes (numerical scale f (some rc.tick)) }

/-- `set_with_subplot_size` (plots.py:266-279) -/
def setSize (s : Settings) (inch : ℚ) (mm ratio : Option ℚ) : Settings :=
  { s with subplotInch := orQ (mm.map (· * (393700787 / 10000000000))) inch, ratio := ratio }

/-! ## Making a plotter -/

/-- all objects with settings -/
abbrev Heap := List Settings

/-- the object with settings of a new plotter (plots.py:684-687, 693-694): the one given or a new copy of the defaults -/
def newPlotter (dflt : Settings) (h : Heap) : Option Nat → Heap × Nat
  | some i => (h, i)
  | none => (h ++ [dflt], h.length)

/-- a change of an object -/
def change (h : Heap) (i : Nat) (f : Settings → Settings) : Heap := h.modify i f

/-- `if scaling is not None: settings.scaling = scaling` -/
def setScaling (scaling : Option Bool) (s : Settings) : Settings := match scaling with
  | some b => { s with scaling := b }
  | none => s

/-- `if not kwargs.get('settings') and rc_sizes: settings.rc_sizes()` -/
def maybeRc (scale : Str → Option ℚ) (rc : Rc) (given : Option Nat) (want : Bool) (s : Settings) : Settings :=
  if given = none ∧ want = true then rcSizes scale rc s none none none else s

/-- what `get_single_plotter` does to the settings (plots.py:699-708) -/
def singleSet (scale : Str → Option ℚ) (rc : Rc) (given : Option Nat) (scaling : Option Bool) (rcs : Bool) (ratio width : Option ℚ) (s : Settings) : Settings :=
  maybeRc scale rc given rcs
    { setScaling scaling (setSize s (orQ width 6) none (some (orQ ratio (3 / 4)))) with figWidth := some (orQ width 6) }

/-- `get_single_plotter` (plots.py:699-710) -/
def single (scale : Str → Option ℚ) (rc : Rc) (dflt : Settings) (h : Heap) (given : Option Nat) (scaling : Option Bool) (rcs : Bool)
    (ratio width : Option ℚ) : Heap × Nat :=
  let p := newPlotter dflt h given
  (change p.1 p.2 (singleSet scale rc given scaling rcs ratio width), p.2)

/-- what `get_subplot_plotter` does to the settings (plots.py:716-723) -/
def subplotSet (scale : Str → Option ℚ) (rc : Rc) (given : Option Nat) (scaling : Option Bool) (rcs : Bool) (size width ratio : Option ℚ) (s : Settings) :
    Settings :=
  let s := setScaling scaling (setSize s (orQ size 2) none ratio)
  match width with
  | some w => if w = 0 then s else maybeRc scale rc given rcs { s with figWidth := some w }
  | none => s

/-- `get_subplot_plotter` (plots.py:713-723) -/
def subplot (scale : Str → Option ℚ) (rc : Rc) (dflt : Settings) (h : Heap) (given : Option Nat) (scaling : Option Bool) (rcs : Bool)
    (size width ratio : Option ℚ) : Heap × Nat :=
  let p := newPlotter dflt h given
  (change p.1 p.2 (subplotSet scale rc given scaling rcs size width ratio), p.2)

/-- the settings as `make_figure` uses them -/
def Settings.forFigure (s : Settings) : PlotGrid.Size ℚ := { widthInch := s.figWidth, subplotInch := s.subplotInch, ratio := s.ratio }

/-- the sizes of the figure of `make_figure` (plots.py:1730-1740) -/
def figure (s : Settings) (col row : Nat) : ℚ × ℚ × ℚ := PlotGrid.figureSize s.forFigure col row 1 1

/-- the settings of `PlanckPlotter.set_default_settings` (styles/planck.py:22-40) for sizes -/
def planckDefaults (scale : Str → Option ℚ) (rc : Rc) (init : Settings) : Settings := rcSizes scale rc init none none none

/-- `PlanckPlotter.get_single_plotter` (styles/planck.py:42-48) -/
def planckSingle (scale : Str → Option ℚ) (rc : Rc) (init : Settings) (h : Heap) (given : Option Nat) (scaling : Option Bool)
    (ratio width : Option ℚ) : Heap × Nat :=
  single scale rc (planckDefaults scale rc init) h given (some (scaling.getD false)) true ratio (some (orQ width (3464 / 1000)))

/-- `PlanckPlotter.get_subplot_plotter` (styles/planck.py:50-55) -/
def planckSubplot (scale : Str → Option ℚ) (rc : Rc) (init : Settings) (h : Heap) (given : Option Nat) (scaling : Option Bool)
    (size width ratio : Option ℚ) : Heap × Nat :=
  subplot scale rc (planckDefaults scale rc init) h given (some (scaling.getD false)) true size width ratio

/-! ## What is added to a plot -/

/-- a value of an argument of matplotlib -/
inductive Val where
  | str (s : Str)
  | num (x : ℚ)
deriving DecidableEq, Repr

/-- `args.update(kwargs)` -/
def update (args kwargs : Dict Str Val) : Dict Str Val := kwargs.foldl (fun d p => d.set p.1 p.2) args

/-- the arguments of `add_text` (plots.py:3193-3195) -/
def textArgs (fontsize x : ℚ) (kwargs : Dict Str Val) : Dict Str Val :=
  update [(c!"horizontalalignment", .str (if x > 1 / 2 then c!"right" else c!"left")), (c!"verticalalignment", .str c!"center"),
    (c!"fontsize", .num fontsize)] kwargs

/-- the arguments of `add_text_left` (plots.py:3209-3211) -/
def textLeftArgs (fontsize x : ℚ) (kwargs : Dict Str Val) : Dict Str Val :=
  textArgs fontsize x (update [(c!"horizontalalignment", .str c!"left")] kwargs)

/-- a line that marks a value: colour, style, width -/
structure Marker where
  color : Str
  ls : Str
  lw : ℚ
deriving DecidableEq, Repr

/-- `add_x_marker`, `add_y_marker` (plots.py:1214-1220, 1234-1240) -/
def markerArgs (s : Marker) (color ls : Option Str) (lw : Option ℚ) : Marker :=
  { color := color.getD s.color, ls := ls.getD s.ls, lw := lw.getD s.lw }

/-- `_get_alpha_2d` (plots.py:892-897); `args` are the arguments of the line after `_get_plot_args` -/
def alpha2d (filledAdd : Val) (args : Dict Str Val) (filled : Bool) (plotno : Nat) : Val :=
  (args.get? c!"alpha").getD (if filled = true ∧ 0 < plotno then filledAdd else .num 1)

/-- the rotation of the label of a colour bar and whether it is aligned at the bottom (plots.py:2740-2745) -/
def barLabel (setting : ℚ) (given : Option ℚ) : ℚ × Bool :=
  let r := orQ given setting
  (r, decide (r ≠ 0 ∧ 10 < -r ∧ -r < 170))

/-- the size of the offset text of an axis (plots.py:1424) -/
def offsetSize (tick : ℚ) : ℚ := if tick > 7 then tick * 3 / 4 else tick

/-- what `finish_plot` does: tight layout, legend with labels, location and whether it is outside, spacing of subplots -/
structure Finish (L : Type) where
  tight : Bool
  legend : Option (List L × Str × Bool)
  adjust : Bool

/-- the settings used by `finish_plot` -/
structure FinishSet where
  lineLabels : Bool
  tightLayout : Bool
  constrained : Bool
  legendLoc : Str
  shared : Bool                   -- `_share_kwargs` is not empty

/-- `finish_plot` (plots.py:1973-1998) -/
def finishPlot {L : Type} (s : FinishSet) (labels : Option (List L)) (loc : Str) (noExtra noTight : Bool) : Finish L where
  tight := s.tightLayout && !s.constrained && !noTight
  legend := match labels with
    | some (l :: ls) => if s.lineLabels then some (l :: ls, if loc = [] then s.legendLoc else loc, !noExtra) else none
    | _ => none
  adjust := !s.constrained && s.shared

/-- the labels of `plots_3d` (plots.py:2972): those of the contours only -/
def labels3d (usetex : Bool) (load : Str → PlotGrid.Samples) (given : Option (List PlotGrid.Label)) (roots : List PlotGrid.Root) : List PlotGrid.Label :=
  PlotGrid.legendLabels usetex load given roots.tail

end Verif.PlotMake
