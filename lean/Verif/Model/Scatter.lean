import Verif.Model.Thin
import Verif.Model.Samples
import Verif.Py.Dict
import Verif.Py.Replace
import Verif.Py.Path
import Mathlib.Analysis.SpecialFunctions.Exp

/-!
# Model of scatter plots, bands, covariance contours and exported file names (`python/getdist/plots.py:1169-1197, 1235-1325, 2766-2848, 2997-3145, 3213-3238`)

Modelled: the points and opacities that `add_3d_scatter` draws and the bounds that it returns, the points kept by the limits of
`add_4d_scatter` and the colours that `plot_4d` gives to each root, the shaded bands of `add_x_bands`, `add_y_bands` and `add_bands`, the
density of `add_2d_covariance`, and the file name that `export` writes.  Parameters: the samples, the weight-one samples and the random
indices.  Simplified: exact numbers; a colour that is given is not empty; matplotlib draws what it is given; animation, shadows, labels and
colour bars are not modelled.
-/

namespace Verif.Scatter
open Verif.Py Verif.Py.Np Verif.Thin

section Points
variable {K : Type} [Field K] [LinearOrder K] [FloorRing K]

/-! ## Scatter plots coloured by a third parameter -/

/-- `filt = weights > max_weight / (100 * dup_fac)` with `dup_fac = 4`, then `weights[filt] / max_weight * dup_fac` (plots.py:2804-2810) -/
def scaled {P : Type} (m : K) (rows : List (P × K)) : List (P × K) :=
  (rows.filter (fun r => decide (m / 400 < r.2))).map (fun r => (r.1, r.2 / m * 4))

/-- `np.ceil(weights)` as floats (plots.py:2811) -/
def ceilK (w : K) : K := (⌈w⌉ : K)

/-- the points drawn and their opacity when `alpha_samples` is set (plots.py:2802-2822) -/
def alphaPoints {P : Type} (alpha : K) (rows : List (P × K)) : Except NErr (List (P × K)) := do
  let m ← max? (rows.map (·.2))
  let rs := scaled m rows
  let ix ← Samples.allSome (← thinIndices (1 : K) (rs.map (fun r => ceilK r.2)))
  gather (rs.map (fun r => (r.1, r.2 / ceilK r.2 / 4 * alpha))) ix

/-- `pts[::extra_thin]` if that is more than one (plots.py:2828-2829) -/
def thinBy {P : Type} (k : Nat) (l : List P) : List P :=
  if 1 < k then (l.zipIdx.filter (fun r => r.2 % k = 0)).map (·.1) else l

/-- `[min, max]` widened by a twentieth of the range at each end (plots.py:2837-2846) -/
def bounds (l : List K) : Except NErr (K × K) := do
  let lo ← min? l
  let hi ← max? l
  pure (lo - (hi - lo) / 20, hi + (hi - lo) / 20)

/-- what `add_3d_scatter` draws, and the bounds that it returns -/
structure Drawn (K : Type) where
  points : List (List K × K)       -- parameter values and opacity
  xbounds : K × K
  ybounds : K × K

/-- the two bounds of a list of points (plots.py:2837-2846) -/
def withBounds (points : List (List K × K)) (all : List (List K)) : Except NErr (Drawn K) := do
  let xb ← bounds (all.map (fun r => r.getD 0 0))
  let yb ← bounds (all.map (fun r => r.getD 1 0))
  pure ⟨points, xb, yb⟩

/-- `add_3d_scatter` (plots.py:2766-2848) for `nparams` parameters; `rows` are the values of the parameters in the weighted samples,
`single` those in the weight-one samples, `fixed` says whether a fixed colour is given -/
def add3d (alphaSamples fixed : Bool) (nparams extraThin : Nat) (alpha : K) (rows : List (List K × K)) (single : List (List K)) :
    Except NErr (Drawn K) :=
  if alphaSamples then
    if nparams < 3 then .error .indexError                        -- samples[2]
    else do
      let pts ← alphaPoints alpha rows
      withBounds pts (rows.map (·.1))
  else
    if nparams < 2 ∨ (nparams < 3 ∧ fixed = false) then .error .indexError
    else withBounds ((thinBy extraThin single).map (fun r => (r, alpha))) (thinBy extraThin single)

/-- `plot_2d_scatter` (plots.py:2850-2876): two parameters and a fixed colour -/
def scatter2d (alphaSamples : Bool) (extraThin : Nat) (alpha : K) (rows : List (List K × K)) (single : List (List K)) :
    Except NErr (Drawn K) :=
  add3d alphaSamples true 2 extraThin alpha rows single

/-! ## Scatter plots in three dimensions -/

inductive Err
  | plotError       -- GetDistPlotError
  | index
  | key
deriving DecidableEq, Repr

/-- one entry of `lims` -/
inductive Lim (K : Type)
  | pair (lo hi : Option K)
  | other                       -- not a sequence of two

/-- one step of the loop over the limits (plots.py:3008-3014) -/
def limStep (val : Str → Option (Nat → K)) (ix : List Nat) (e : Str × Lim K) : Except Err (List Nat) := match e.2 with
  | .other => .error .plotError
  | .pair none none => .ok ix
  | .pair (some a) none => match val e.1 with
    | none => .error .key
    | some f => .ok (ix.filter (fun i => decide (a < f i)))
  | .pair none (some b) => match val e.1 with
    | none => .error .key
    | some f => .ok (ix.filter (fun i => decide (f i < b)))
  | .pair (some a) (some b) => match val e.1 with
    | none => .error .key
    | some f => .ok ((ix.filter (fun i => decide (a < f i))).filter (fun i => decide (f i < b)))

/-- the loop over the limits -/
def limLoop (val : Str → Option (Nat → K)) : List (Str × Lim K) → List Nat → Except Err (List Nat)
  | [], ix => .ok ix
  | e :: l, ix => match limStep val ix e with
    | .error x => .error x
    | .ok ix' => limLoop val l ix'

/-- how the points of a root are coloured -/
inductive Color
  | fixed (c : Str)
  | byParam                     -- by the value of the fourth parameter
deriving DecidableEq, Repr

/-- `fixed_color` inside `add_4d_scatter` (plots.py:3002-3006, 3025) -/
def color4d (nparams : Nat) (fixed : Option Str) : Except Err Color :=
  if nparams < 3 then .error .plotError
  else match fixed with
    | some c => .ok (.fixed c)
    | none => if nparams = 3 then .ok (.fixed c!"k") else .ok .byParam

/-- `add_4d_scatter` (plots.py:2997-3036): the colour and the row numbers of the points -/
def add4d (val : Str → Option (Nat → K)) (nparams : Nat) (lims : List (Str × Lim K)) (fixed : Option Str) (ix : List Nat) :
    Except Err (Color × List Nat) := do
  let c ← color4d nparams fixed
  let l ← limLoop val lims ix
  pure (c, l)

/-- the `fixed_color` that `plot_4d` passes for root number `i` (plots.py:3127-3129) -/
def passColor (fixed : Option Str) (compare : Option (List Str)) : Nat → Except Err (Option Str)
  | 0 => .ok fixed
  | i + 1 => match compare with
    | none => .ok none
    | some l => match l[i]? with
      | some c => .ok (some c)
      | none => .error .index

/-- the loop of `plot_4d` over the roots (plots.py:3125-3133); a root is its values and its random indices -/
def plot4dFrom (nparams : Nat) (lims : List (Str × Lim K)) (fixed : Option Str) (compare : Option (List Str)) :
    Nat → List ((Str → Option (Nat → K)) × List Nat) → Except Err (List (Color × List Nat))
  | _, [] => .ok []
  | i, r :: rs => do
    let f ← passColor fixed compare i
    let d ← add4d r.1 nparams lims f r.2
    let ds ← plot4dFrom nparams lims fixed compare (i + 1) rs
    pure (d :: ds)

/-- the limits of an axis of `plot_4d` (plots.py:3136-3138): each end from `lims` if given, otherwise the current view -/
def axisLim (lims : List (Str × Lim K)) (name : Str) (view : K × K) : K × K := match lims.find? (fun e => e.1 == name) with
  | some (_, .pair lo hi) => (lo.getD view.1, hi.getD view.2)
  | _ => view

/-! ## Bands -/

/-- `add_x_bands`, `add_y_bands` (plots.py:1264-1300): lower end, upper end and opacity, in drawing order -/
def bands12 (x σ a1 a2 : K) : List (K × K × K) :=
  (if 0 < a2 then [(x - σ * 2, x + σ * 2, a2)] else []) ++ (if 0 < a1 then [(x - σ, x + σ, a1)] else [])

/-- `for i in reversed(range(nbands))` of `add_bands` (plots.py:1321-1322) at one value of `x` -/
def addBands (alphas : List K) (y e : K) : Nat → Except Err (List (K × K × K))
  | 0 => .ok []
  | i + 1 => match alphas[i]? with
    | none => .error .index
    | some a => match addBands alphas y e i with
      | .error x => .error x
      | .ok l => .ok ((y - ((i : K) + 1) * e, y + ((i : K) + 1) * e, a) :: l)

end Points

/-! ## Contours of a covariance -/

/-- `like` (plots.py:1190-1192) with the inverse of the covariance `[[a, b], [b, c]]` -/
noncomputable def covLike (a b c dx dy : ℝ) : ℝ :=
  dx ^ 2 * (c / (a * c - b * b)) + 2 * dx * dy * (-b / (a * c - b * b)) + dy ^ 2 * (a / (a * c - b * b))

/-- the density at a point (plots.py:1193) -/
noncomputable def covDensity (mx my a b c x y : ℝ) : ℝ := Real.exp (-covLike a b c (x - mx) (y - my) / 2)

/-- `density.contours` (plots.py:1194) -/
noncomputable def covContours : List ℝ := [0.32, 0.05]

/-! ## File names -/

/-- the name that `export` saves to (plots.py:3223-3230); `script` is `sys.argv[0]`, `ext` is `getdist.default_plot_output` -/
def exportName (script ext : Str) (fname adir : Option Str) (tag : Str) : Str :=
  let f0 := match fname with
    | none => replaceStr c!".py" [] (Path.basename script)
    | some f => f
  let f1 := if tag = [] then f0 else f0 ++ '_' :: tag
  let f2 := if '.' ∈ f1 then f1 else f1 ++ '.' :: ext
  match adir with
  | none => f2
  | some d => if '/' ∈ f2 then f2 else Path.join d f2

/-- the directory that is made (plots.py:3231-3233) -/
def exportDir (exist : Str → Bool) (name : Str) : Option Str :=
  if Path.dirname name ≠ [] ∧ exist (Path.dirname name) = false then some (Path.dirname name) else none

end Verif.Scatter
