import Mathlib.Data.List.Basic
import Mathlib.Logic.Function.Basic

/-!
# Model of the linked axes of triangle plots (`python/getdist/plots.py`)

Modelled: which subplots of `triangle_plot` share an axis, the callbacks that carry the range of a parameter from the rows to the columns
and back, the ranges set while the figure is made.

matplotlib: `set_xlim` sets the range of the axes, then runs the callbacks of these axes only, then copies the range to all
axes that share it without running their callbacks (`emit=False`).  A range is any value that can be compared.

Simplified: an axes object is its place in the figure; the range of the probability of a 1D plot belongs to no parameter.
-/

namespace Verif.PlotLinks

inductive Err
  | attribute            -- `None.get_ylim()`
  | recursion
deriving DecidableEq, Repr

inductive Dir
  | x
  | y
deriving DecidableEq, Repr

/-- axes: the subplot in a column and row, or the twin of the first one that carries the label (plots.py:2442) -/
inductive Ax
  | cell (c r : Nat)
  | twin
deriving DecidableEq, Repr

/-- one range: of the x or the y axis of some axes -/
abbrev Port := Ax × Dir

/-- no `upper_roots`; `upper_roots` with the labels on the left; with `upper_label_right` -/
inductive Mode
  | lower
  | left
  | right
deriving DecidableEq, Repr

/-- the axes of a plot of `n` parameters (plots.py:2421-2427, 2440-2460) -/
def exists' (m : Mode) (n : Nat) : Ax → Bool
  | .cell c r => decide (c < n) && decide (r < n) && (m != .lower || decide (c ≤ r))
  | .twin => m == .left && decide (0 < n)

/-- axes that share their range: columns share x (plots.py:2424, 2427, 2460; `twinx`), rows share y except for the 1D plot (2425, 2460); with
`upper_label_right` the first row shares nothing: `label_ax` is read before the subplot is made (2452, 2459) -/
def shares (m : Mode) : Port → Port → Bool
  | (.cell c _, .x), (.cell c' _, .x) => c == c'
  | (.cell c _, .x), (.twin, .x) => c == 0 && m == .left
  | (.twin, .x), (.cell c _, .x) => c == 0 && m == .left
  | (.cell c r, .y), (.cell c' r', .y) => (c == c' && r == r') || (r == r' && c != r && c' != r' && (r != 0 || m == .left))
  | (.cell c r, .y), (.twin, .y) => r == 0 && c != 0 && m == .left
  | (.twin, .y), (.cell c r, .y) => r == 0 && c != 0 && m == .left
  | (.twin, .x), (.twin, .x) => true
  | (.twin, .y), (.twin, .y) => true
  | _, _ => false

/-- what a change of a range calls -/
inductive Link
  | none
  | to (p : Port)
  | broken               -- the other axes are `None`
deriving DecidableEq, Repr

/-- the callbacks connected by `triangle_plot` (plots.py:2435-2437, 2485-2497, 2525-2526) -/
def callback (m : Mode) (n : Nat) : Port → Link
  | (.cell c r, .x) =>
    if c = r then (if 0 < c then .to (.cell 0 c, .y) else .none)            -- 2435-2437
    else if c < r then
      if 0 < c then .to (.cell 0 c, .y)                                     -- 2490-2492
      else match m with
        | .lower => .none
        | .left => .to (.twin, .y)                                          -- 2494-2497
        | .right => .broken
    else .none
  | (.cell c r, .y) => if c = r then .none else .to (.cell r (n - 1), .x)   -- 2485-2486, 2525-2526
  | (.twin, _) => .none

variable {R : Type} [DecidableEq R]

abbrev St (R : Type) := Port → R

def set1 (st : St R) (p : Port) (v : R) : St R := fun q => if q = p then v else st q

/-- the range of `p` is copied to all that share it -/
def spread (m : Mode) (st : St R) (p : Port) : St R := fun q => if shares m p q then st p else st q

/-- `set_xlim`, `set_ylim` with the callbacks `_axis_x_limit_changed`, `_axis_y_limit_changed` (plots.py:2357-2367); `fuel` bounds the depth of
nested calls -/
def setLim (m : Mode) (n : Nat) : Nat → St R → Port → R → Except Err (St R)
  | 0, _, _, _ => .error .recursion
  | fuel + 1, st, p, v =>
    let st1 := set1 st p v
    match callback m n p with
    | .none => .ok (spread m st1 p)
    | .broken => .error .attribute
    | .to t =>
      if st1 p = st1 t then .ok (spread m st1 p)
      else match setLim m n fuel st1 t (st1 p) with
        | .error e => .error e
        | .ok st2 => .ok (spread m st2 p)

/-- several calls -/
def setMany (m : Mode) (n fuel : Nat) : St R → List (Port × R) → Except Err (St R)
  | st, [] => .ok st
  | st, (p, v) :: l => match setLim m n fuel st p v with
    | .error e => .error e
    | .ok st' => setMany m n fuel st' l

/-! ## Making the figure -/

/-- a range is set on axes that have no callbacks yet -/
def raw (m : Mode) (st : St R) (p : Port) (v : R) : St R := spread m (set1 st p v) p

/-- the 2D plots of the pair `i < i2` (plots.py:2464-2526): each 2D plot first chooses its own ranges `g` -/
def pairStep (m : Mode) (n : Nat) (g : Port → R) (lims : Nat → R) (i : Nat) (st : St R) (i2 : Nat) : St R :=
  let st := raw m st (.cell i i2, .x) (g (.cell i i2, .x))
  let st := raw m st (.cell i i2, .y) (g (.cell i i2, .y))
  let st := raw m st (.cell i i2, .y) (lims i2)                                         -- 2483
  let st := if i2 = n - 1 then raw m st (.cell i i2, .x) (lims i) else st                -- 2488-2489
  if m = .lower then st
  else
    let st := raw m st (.cell i2 i, .x) (g (.cell i2 i, .x))
    let st := raw m st (.cell i2 i, .y) (g (.cell i2 i, .y))
    let st := raw m st (.cell i2 i, .x) (lims i2)                                       -- 2523
    raw m st (.cell i2 i, .y) (lims i)                                                  -- 2524

/-- the second loop of `triangle_plot` for one parameter (plots.py:2462-2464) -/
def columnStep (m : Mode) (n : Nat) (g : Port → R) (lims : Nat → R) (st : St R) (i : Nat) : St R :=
  (List.range' (i + 1) (n - 1 - i)).foldl (pairStep m n g lims i) st

/-- the first loop: the 1D plots set the ranges of the columns (plots.py:2430-2434) -/
def diagonalStep (m : Mode) (lims : Nat → R) (st : St R) (i : Nat) : St R := raw m st (.cell i i, .x) (lims i)

/-- the twin gets the range of the first parameter (plots.py:2447) -/
def twinStep (m : Mode) (lims : Nat → R) (st : St R) : St R := if m = .left then raw m st (.twin, .y) (lims 0) else st

/-- the ranges of the figure made by `triangle_plot` (plots.py:2420-2527) -/
def made (m : Mode) (n : Nat) (g : Port → R) (lims : Nat → R) (st : St R) : St R :=
  (List.range n).foldl (columnStep m n g lims) (twinStep m lims ((List.range n).foldl (diagonalStep m lims) st))

end Verif.PlotLinks
