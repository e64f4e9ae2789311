import Verif.Py.Str
import Verif.Py.Dict
import Mathlib.Data.Nat.Find
import Mathlib.Order.Defs.LinearOrder

/-!
# Model of the layout of figures (`python/getdist/plots.py`)

Modelled: `default_col_row`, `_subplot`, `_subplot_number`, `get_axes_for_params`, the subplots of `triangle_plot` and
`rectangle_plot`, `_check_param_ranges`, `_get_param_bounds`, `_update_limit`, `_update_limits`, the range of `plot_1d` and
`plot_2d`, the legend proxies of `add_2d_contours`, `_get_marker`, `extend_list_zip`.

Simplified: axes are numbers; a parameter is its name; what matplotlib draws is not modelled; `np.sqrt` is exact.
-/

namespace Verif.PlotLayout
open Verif.Py

inductive Err
  | zeroDivision
  | index
  | typeError
  | plotError
deriving DecidableEq, Repr

/-! ## Columns and rows -/

/-- `int(round(np.sqrt(nplot / 1.4)))`: the largest `k` with `(k - 1/2)^2 ≤ nplot / 1.4` (there are no ties) -/
def cols (nplot : Nat) : Nat := Nat.findGreatest (fun k => k = 0 ∨ 7 * (2 * k - 1) ^ 2 ≤ 20 * nplot) (nplot + 1)

/-- `nx or default` -/
def orDefault (o : Option Nat) (d : Nat) : Nat := match o with
  | some (n + 1) => n + 1
  | _ => d

/-- `default_col_row` (plots.py:1700-1711) -/
def defaultColRow (nplot : Nat) (nx ny : Option Nat) : Except Err (Nat × Nat) :=
  let col := orDefault nx (cols nplot)
  match orDefault ny 0 with
  | 0 => if col = 0 then .error .zeroDivision else .ok (col, (nplot + col - 1) / col)
  | row => .ok (col, row)

/-- the place (x, y) of subplot number `i` (plots.py:2252) -/
def place (col i : Nat) : Nat × Nat := (i % col, i / col)

/-! ## Subplots -/

/-- an axes object: the attributes `getdist_params` (set by `_subplot`) and `getdist_pars` (set by `get_axes`) -/
structure Ax where
  params : Option (List Str) := none
  pars : Option (List Str) := none
deriving DecidableEq, Repr

/-- the figure: number of columns and rows, the axes made (in order of creation), the table of subplots, the last axes used -/
structure Fig where
  col : Nat
  row : Nat
  axes : List Ax := []
  table : Dict (Nat × Nat) Nat := []
  last : Option Nat := none
deriving DecidableEq, Repr

/-- `_subplot` (plots.py:2226-2241) -/
def subplot (f : Fig) (x y : Nat) (pars : Option (List Str)) : Except Err (Nat × Fig) :=
  if f.col ≤ x ∨ f.row ≤ y then .error .index
  else
    let (i, f) := match f.table.get? (x, y) with
      | some i => (i, f)
      | none => (f.axes.length, { f with axes := f.axes ++ [Ax.mk none none], table := f.table.set (x, y) f.axes.length })
    let f := match pars with
      | some p => { f with axes := f.axes.modify i (fun a => { a with params := some p }) }
      | none => f
    .ok (i, { f with last := some i })

/-- `_subplot_number` (plots.py:2243-2252) on an existing figure -/
def subplotNumber (f : Fig) (i : Nat) (pars : Option (List Str)) : Except Err (Nat × Fig) :=
  if f.col = 0 then .error .zeroDivision else subplot f (place f.col i).1 (place f.col i).2 pars

/-- `get_axes(ax, pars=...)` with an axes object or none (plots.py:2205-2224): the other attribute is set -/
def getAxes (f : Fig) (ax : Option Nat) (pars : Option (List Str)) : Except Err (Nat × Fig) := do
  let (i, f) ← match ax.or f.last with
    | some i => .ok (i, f)
    | none => subplotNumber f 0 none
  match pars with
  | some p => .ok (i, { f with axes := f.axes.modify i (fun a => { a with pars := some p }) })
  | none => .ok (i, f)

/-- `add_2d_contours` notes the two parameters on the axes (plots.py:1051) -/
def noteContours (f : Fig) (i : Nat) (p1 p2 : Str) : Fig :=
  { f with axes := f.axes.modify i (fun a => { a with params := some [p1, p2] }) }

/-- `self.subplots.reshape(-1)`: row by row -/
def flatTable (f : Fig) : List Nat :=
  (List.range f.row).flatMap (fun y => (List.range f.col).filterMap (fun x => f.table.get? (x, y)))

/-- equality of the two lists, or of the two sets -/
def sameParams (ordered : Bool) (a b : List Str) : Bool :=
  if ordered then a == b else a.all (b.contains ·) && b.all (a.contains ·)

def matchesAx (f : Fig) (ordered : Bool) (pars : List Str) (i : Nat) : Bool :=
  match f.axes[i]? with
  | some a => match a.params with
    | some p => sameParams ordered p pars
    | none => false
  | none => false

/-- `get_axes_for_params` (plots.py:3240-3262) -/
def axesForParams (f : Fig) (ordered : Bool) (pars : List Str) : Option Nat := (flatTable f).find? (matchesAx f ordered pars)

/-- subplots made one after the other -/
def subplots (f : Fig) : List (Nat × Nat × List Str) → Except Err Fig
  | [] => .ok f
  | (x, y, pars) :: l => do
    let (_, f) ← subplot f x y (some pars)
    subplots f l

/-- numbered subplots: `plots_1d`, `plots_2d`, `plots_3d` (plots.py:2094, 2162, 2969) -/
def numbered (f : Fig) (sets : List (List Str)) : Except Err Fig :=
  subplots f (sets.zipIdx.map (fun p => ((place f.col p.2).1, (place f.col p.2).2, p.1)))

/-- the subplots of `triangle_plot` in order (plots.py:2426-2435): column by column, from the bottom up to the diagonal -/
def triangle (params : List Str) : List (Nat × Nat × List Str) :=
  params.zipIdx.flatMap (fun p =>
    ((List.range (params.length - 1 - p.2)).map (fun d =>
      let i2 := params.length - 1 - d
      (p.2, i2, [p.1, params.getD i2 []]))) ++ [(p.2, p.2, [p.1])])

/-- the upper triangle for `upper_roots` (plots.py:2462-2468) -/
def upper (params : List Str) : List (Nat × Nat × List Str) :=
  params.dropLast.zipIdx.flatMap (fun p =>
    (List.range (params.length - 1 - p.2)).map (fun d =>
      let x := params.length - 1 - d
      (x, p.2, [params.getD x [], p.1])))

/-- the subplots of `rectangle_plot` in order (plots.py:2618-2631), when every column has roots for all rows -/
def rectangle (xs ys : List Str) : List (Nat × Nat × List Str) :=
  xs.zipIdx.flatMap (fun p => ys.zipIdx.map (fun q => (p.2, q.2, [p.1, q.1])))

/-! ## Ranges -/

section
variable {K : Type} [LinearOrder K]

abbrev Range (K : Type) := Option K × Option K

/-- `max(xmin, low) if xmin is not None else low` -/
def joinMax : Option K → Option K → Option K
  | x, none => x
  | none, some l => some l
  | some x, some l => some (max x l)

def joinMin : Option K → Option K → Option K
  | x, none => x
  | none, some l => some l
  | some x, some l => some (min x l)

/-- `_check_param_ranges` (plots.py:922-939) with the hard prior bounds of the root -/
def checkRange (prior : Range K) (r : Range K) : Range K := (joinMax r.1 prior.1, joinMin r.2 prior.2)

/-- `_get_param_bounds` (plots.py:941-945) -/
def paramBounds (priors : List (Range K)) : Range K := priors.foldl (fun r p => checkRange p r) (none, none)

/-- `_update_limit` (plots.py:1327-1339); a range is `None` or a pair of numbers -/
def updateLimit (bounds cur : Option (K × K)) : Option (K × K) := match bounds, cur with
  | none, c => c
  | some b, none => some b
  | some b, some c => some (min c.1 b.1, max c.2 b.2)

/-- `_update_limits` (plots.py:1341-1358) with `do_resize` -/
def updateLimits (res : Option ((K × K) × (K × K))) (x y : Option (K × K)) : Option (K × K) × Option (K × K) := match res with
  | none => (x, y)
  | some r => match x, y with
    | none, none => (some r.1, some r.2)
    | x, y => (updateLimit (some r.1) x, updateLimit (some r.2) y)

/-- a root of `plot_1d`: its hard prior bounds and the range of its density, `none` when it does not have the parameter -/
structure Curve (K : Type) where
  prior : Range K
  bounds : Option (K × K)

/-- the loop of `plot_1d` (plots.py:1580-1591): the hull of the ranges -/
def hull (cs : List (Curve K)) : Option (K × K) := cs.foldl (fun r c => updateLimit c.bounds r) none

/-- the range of the x axis of `plot_1d` (plots.py:1579-1599), without given limits: only the prior of the first root plotted counts -/
def plotRange (cs : List (Curve K)) : Except Err (Range K) :=
  match cs.find? (·.bounds.isSome) with
  | none => .error .plotError
  | some c => .ok (checkRange c.prior ((hull cs).map (·.1), (hull cs).map (·.2)))

/-- the limits of the loop of `rectangle_plot` (plots.py:2633-2641), for one column after the other -/
def rectLimits (lim : Dict Str (Option (K × K))) : List (Str × Str × Option ((K × K) × (K × K))) → Dict Str (Option (K × K))
  | [] => lim
  | (xp, yp, res) :: l =>
    let r := updateLimits res ((lim.get? xp).getD none) ((lim.get? yp).getD none)
    rectLimits ((lim.set xp r.1).set yp r.2) l

end

/-! ## Legend proxies -/

/-- `add_2d_contours`, the part on `contours_added` (plots.py:1058-1076, 1094, 1119): `drawn` is whether there is a density; the proxy of
a root is its number -/
def proxy (added : List (Option Nat)) (plotno : Nat) (addProxy drawn : Bool) : List (Option Nat) :=
  if !drawn then (if addProxy then added ++ [none] else added)
  else if addProxy then added ++ [some plotno]
  else if added.idxOf? none = some plotno then added.set plotno (some plotno)
  else added

/-- `plot_2d` on one subplot: the roots in order -/
def proxyPlot (addProxy : Bool) (added : List (Option Nat)) (drawn : List Bool) : List (Option Nat) :=
  drawn.zipIdx.foldl (fun a p => proxy a p.2 addProxy p.1) added

/-- all subplots: proxies are added in the first (plots.py:2163-2164, 2494-2496) -/
def proxies : List (List Bool) → List (Option Nat)
  | [] => []
  | first :: rest => rest.foldl (proxyPlot false) (proxyPlot true [] first)

/-- `rectangle_plot`: the number of columns of the legend (plots.py:2656-2661) -/
def rectNcol (rootsGiven : Bool) (labels : Option (List Str)) (defaults : List Str) (ncol setting : Nat) : Except Err Nat :=
  let labels := if rootsGiven then some (labels.getD defaults) else labels
  if ncol ≠ 0 then .ok ncol else if setting ≠ 0 then .ok setting else match labels with
    | some l => .ok l.length
    | none => .error .typeError

/-! ## Lists of arguments -/

/-- `_get_marker` (plots.py:2264-2271) -/
inductive Markers (K : Type)
  | none
  | dict (d : Dict Str K)
  | list (l : List (Option K))

def getMarker {K : Type} (m : Markers K) (index : Nat) (name : Str) : Option K := match m with
  | .none => Option.none
  | .dict d => d.get? name
  | .list l => (l[index]?).getD Option.none

/-- one argument of `extend_list_zip` -/
inductive Arg (α : Type)
  | one (a : α)
  | list (l : List α)

def Arg.vals {α : Type} : Arg α → List α
  | .one a => [a]
  | .list l => l

/-- `v[i if i < len(v) else -1]` -/
def pick {α : Type} (v : List α) (i : Nat) : Except Err α := match (if i < v.length then v[i]? else v.getLast?) with
  | some a => .ok a
  | none => .error .index

/-- `extend_list_zip` (plots.py:40-46) for a first argument with `n` elements -/
def extendListZip {α : Type} (n : Nat) (args : List (Arg α)) : Except Err (List (List α)) :=
  (List.range n).mapM (fun i => args.mapM (fun a => pick a.vals i))

end Verif.PlotLayout
