import Verif.Model.PlotLayout

/-!
# Model of arrays of plots and the order of legends (`python/getdist/plots.py`)

Modelled: `plots_2d_triplets`, the cells of `plots_3d`, the legend proxies of `plots_3d`, the choice of lines and the order of labels in
`add_legend`, which labels `finish_plot` draws.

Simplified: roots, parameters and limits are opaque; a line of the legend is the number of its root; matplotlib's `legend` shows the lines
paired with the labels up to the shorter of the two, skipping nothing (a line `None` is kept as `none`).
-/

namespace Verif.PlotArrays
open Verif.Py Verif.PlotLayout

/-- one subplot: its place (x, y), what is plotted, whether legend proxies are added, the limits set afterwards -/
structure Cell (α X : Type) where
  place : Nat × Nat
  what : α
  proxy : Bool
  xlim : Option X
deriving DecidableEq, Repr

/-- `plots_2d_triplets` (plots.py:2173-2192): the dimensions and the subplots; a triplet is a root and two parameters -/
def triplets {R P X : Type} (l : List (R × P × P)) (nx : Option Nat) (xlim : Option X) : Except PlotLayout.Err ((Nat × Nat) × List (Cell (R × P × P) X)) := do
  let g ← defaultColRow l.length nx none
  .ok (g, l.zipIdx.map (fun p => { place := place g.1 p.2, what := p.1, proxy := p.2 == 0, xlim := xlim }))

/-- `plots_3d` (plots.py:2965-2973): every set of parameters is plotted with all roots, every subplot adds proxies (the default of `plot_3d`,
plots.py:2878-2879) -/
def plots3d {P X : Type} (sets : List (P × P × P)) (nx : Option Nat) : Except PlotLayout.Err ((Nat × Nat) × List (Cell (P × P × P) X)) := do
  let g ← defaultColRow sets.length nx none
  .ok (g, sets.zipIdx.map (fun p => { place := place g.1 p.2, what := p.1, proxy := true, xlim := none }))

/-- the proxies after `plots_3d` (plots.py:2969-2971; from `plot_3d`, 2932-2935, and `add_2d_contours`, 1058-1074): for each subplot, whether each contour root has a density there -/
def proxies3 (subs : List (List Bool)) : List (Option Nat) := subs.foldl (proxyPlot true) []

/-! ## Legends -/

/-- the argument `label_order` of `add_legend` -/
inductive Order
  | none
  | int (i : Int)
  | list (l : List Int)
deriving DecidableEq, Repr

/-- `l[i]` -/
def item {α : Type} (l : List α) (i : Int) : Except PlotLayout.Err α :=
  let k := if 0 ≤ i then i else i + l.length
  if k < 0 then .error .index
  else match l[k.toNat]? with
    | some a => .ok a
    | none => .error .index

/-- the numbers of the lines in order (plots.py:1899-1901) -/
def orderOf (nlines : Nat) : Order → Except PlotLayout.Err (Option (List Int))
  | .none => .ok none
  | .int i => if i = -1 then .ok (some ((List.range nlines).reverse.map Int.ofNat)) else .error .typeError
  | .list l => .ok (some l)

/-- the lines and labels given to matplotlib (plots.py:1891, 1899-1903) and the entries it shows -/
def legend {L T : Type} (lines : List L) (labels : List T) (order : Order) : Except PlotLayout.Err (List (L × T)) := do
  match ← orderOf lines.length order with
  | none => .ok (lines.zip labels)
  | some l =>
    let lines ← l.mapM (item lines)
    let labels ← l.mapM (item labels)
    .ok (lines.zip labels)

/-- `finish_plot` (plots.py:1988-1997): no legend unless labels are wanted and there are some -/
def finish {L T : Type} (lineLabels : Bool) (lines : List L) (labels : Option (List T)) (order : Order) :
    Except PlotLayout.Err (Option (List (L × T))) := match labels with
  | none => .ok none
  | some t => if lineLabels && decide (t ≠ []) then (legend lines t order).map some else .ok none

end Verif.PlotArrays
