import Verif.Model.PlotLayout
import Mathlib.Algebra.Order.Field.Basic
import Mathlib.Algebra.Order.Ring.Abs

/-!
# Model of single two-dimensional plots (`python/getdist/plots.py:729-747, 899-920, 1060-1066, 1098, 1127-1168, 1407-1419, 1453-1491, 1633-1698`)

Modelled: axis labels, numbers and limits of `set_axes`, the ranges of `plot_2d`, levels of contours of `add_2d_contours`, colours and levels of `add_2d_shading`, the choice of
the formatter of numbers, the memory of parameter names of a plotter.

Simplified: a label is its text; powers are a parameter; what `matplotlib` draws is not modelled.
-/

namespace Verif.PlotCalls
open Verif.Py Verif.PlotLayout

inductive Err
  | index
  | attribute
  | plotError
deriving DecidableEq

/-! ## Axes -/

/-- what `set_axes` can change; `lims` as last given -/
structure Ax (K : Type) where
  lims : Option (List (Option K))
  xlabel : Option Str
  ylabel : Option Str
  xnumbers : Bool
  ynumbers : Bool
  text : Option Str
deriving DecidableEq

section
variable {K : Type}

/-- arguments of `set_axes` -/
structure AxArgs (K : Type) where
  lims : Option (List (Option K)) := none
  doX : Bool := true
  doY : Bool := true
  noNumbers : Bool := false
  colorLabel : Bool := false

/-- the part on x (plots.py:1478-1481) -/
def setX (params : List Str) (a : AxArgs K) (ax : Ax K) : Ax K :=
  if a.doX ∧ 0 < params.length then { ax with xlabel := params[0]? }
  else if a.noNumbers then { ax with xnumbers := false }
  else ax

/-- the part on y (plots.py:1484-1488) -/
def setY (params : List Str) (a : AxArgs K) (ax : Ax K) : Ax K :=
  if 1 < params.length then
    (if a.doY then { ax with ylabel := params[1]? } else if a.noNumbers then { ax with ynumbers := false } else ax)
  else ax

/-- the part on limits (plots.py:1472) -/
def setLims (a : AxArgs K) (ax : Ax K) : Ax K :=
  match a.lims with
  | some l => { ax with lims := some l }
  | none => ax

/-- `set_axes` (plots.py:1453-1491); `params` are the labels -/
def setAxes (params : List Str) (a : AxArgs K) (ax : Ax K) : Ax K :=
  let ax := setY params a (setX params a (setLims a ax))
  if a.colorLabel ∧ 2 < params.length then { ax with text := params[2]? } else ax

end

/-! ## Ranges -/

section
variable {K : Type} [LinearOrder K]

/-- a root of `plot_2d`: hard priors of both parameters and the bounds of the density, if there is one -/
structure Root2 (K : Type) where
  priorX : Range K
  priorY : Range K
  bounds : Option ((K × K) × (K × K))

/-- the loop of `plot_2d` (plots.py:1679-1685) -/
def hull2 (rs : List (Root2 K)) : Option (K × K) × Option (K × K) := rs.foldl (fun b r => updateLimits r.bounds b.1 b.2) (none, none)

/-- the argument `lims`: not given, `None`, a list -/
inductive Lims (K : Type)
  | missing
  | none
  | given (l : List (Option K))
deriving DecidableEq

/-- the limits that go to `set_axes` (plots.py:1690-1693); those of the first root -/
def lims2 (first : Root2 K) (x y : K × K) : Lims K → Option (List (Option K))
  | .missing =>
    let l1 := checkRange first.priorX (some x.1, some x.2)
    let l2 := checkRange first.priorY (some y.1, some y.2)
    some [l1.1, l1.2, l2.1, l2.2]
  | .none => none
  | .given l => some l

/-- `plot_2d` (plots.py:1633-1698) on the axes: the axes afterwards and the bounds returned -/
def plot2 (rs : List (Root2 K)) (labels : List Str) (lims : Lims K) (a : AxArgs K) (ax : Ax K) : Except Err (Ax K × Option ((K × K) × (K × K))) :=
  match rs with
  | [] => .error .index
  | first :: _ =>
    match hull2 rs with
    | (some x, some y) => .ok (setAxes labels { a with lims := lims2 first x y lims } ax, some (x, y))
    | _ => .ok (ax, none)

end

/-! ## Contours and shades -/

section
variable {K : Type} [Field K] [LinearOrder K]

/-- `contour_levels` (plots.py:1060-1066): those given, else those that the density has, else those computed for the settings; in the last case the density has them afterwards.
A setting that is missing is `np.array(None)`, which is not `None` and has no elements -/
def contourLevels (compute : List K → List K) (setting : Option (List K)) (num : Nat) (given own : Option (List K)) : Except Err (List K × Option (List K)) :=
  match given with
  | some l => .ok (l, own)
  | none => match own with
    | some l => .ok (l, own)
    | none => match setting with
      | none => .error .index
      | some c => .ok (compute (c.take num), some (compute (c.take num)))

/-- `sorted` -/
def insertSorted (x : K) : List K → List K
  | [] => [x]
  | y :: ys => if x ≤ y then x :: y :: ys else y :: insertSorted x ys

def sorted (l : List K) : List K := l.foldr insertSorted []

/-- the levels of filled contours (plots.py:1098) -/
def filledLevels (pmax : K) (levels : List K) : List K := sorted ((pmax + 1) :: levels)

/-- `n` (plots.py:1152) -/
def fadeCount (numShades : Nat) : Nat := min (numShades / 3) 20

/-- one component of `(white * (n - i) + cols[i + 1] * i) / n` (plots.py:1156) -/
def fade (n i : Nat) (c : K) : K := (1 * ((n : K) - (i : K)) + c * (i : K)) / (n : K)

/-- the colour of shade `k` (plots.py:1155-1157), as red, green, blue, alpha: the first is clear, the next `n` fade in -/
def shade (numShades : Nat) (cols : List (List K)) (k : Nat) : List K :=
  let c := cols.getD k []
  if k = 0 then c.set 3 0
  else if k ≤ fadeCount numShades then c.map (fade (fadeCount numShades) (k - 1))
  else c

/-- `np.linspace(0, 1, num_shades) ** shade_level_scale` (plots.py:1159) -/
def shadeLevels (pow : K → K) (numShades : Nat) : List K := (List.range numShades).map (fun (i : Nat) => pow ((i : K) / ((numShades - 1 : Nat) : K)))

/-- `points` (plots.py:1160-1163): `likes` is `none` if the density has no such attribute -/
def shadePoints {α : Type} (meanlikes : Bool) (P : α) (likes : Option α) : Except Err α :=
  if meanlikes then (match likes with
    | some l => .ok l
    | none => .error .attribute)
  else .ok P

inductive Formatter
  | sci
  | scalar
deriving DecidableEq

/-- `_set_axis_formatter` (plots.py:1407-1419): `lo`, `hi` are `10 ** (power_limits[0] + 1)` and `10 ** power_limits[1]` -/
def formatter (lo hi : K) (isX : Bool) (view : K × K) : Formatter :=
  if isX then .scalar
  else if max |view.2| |view.1| ≤ lo ∨ hi ≤ max |view.1| |view.2| then .sci
  else .scalar

end

/-! ## Names -/

/-- a plotter and what its analyser would answer -/
structure Mem (α : Type) where
  sets : Dict Str α
  answer : Str → α

inductive MemOp (α : Type)
  | ask (root : Str)
  | newPlot
  | change (f : Str → α)

/-- `param_names_for_root`, `param_bounds_for_root` (plots.py:899-920), `new_plot` (738-739) -/
def ask {α : Type} (m : Mem α) (root : Str) : Mem α × α :=
  match Dict.get? m.sets root with
  | some v => (m, v)
  | none => ({ m with sets := Dict.set m.sets root (m.answer root) }, m.answer root)

def memStep {α : Type} (m : Mem α) : MemOp α → Mem α
  | .ask r => (ask m r).1
  | .newPlot => { m with sets := [] }
  | .change f => { m with answer := f }

end Verif.PlotCalls
