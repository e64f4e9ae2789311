import Verif.Py.Str
import Verif.Py.Dict
import Mathlib.Algebra.Field.Defs
import Mathlib.Algebra.Order.Field.Basic

/-!
# Model of line styles, plot arguments and legends (`python/getdist/plots.py`)

Modelled: `_get_plot_args`, `_get_default_ls`, `_get_line_styles`, `_make_line_args`, `_make_contour_args`, the lines, labels and
location of `add_legend`, `scaled_fontsize`, `scaled_linewidth`.

Simplified: values of arguments are strings; dictionaries and lists given by the caller are returned in their changed form; a call
that raises has no effect on them.
-/

namespace Verif.PlotArgs
open Verif.Py

inductive Err
  | index
  | typeError
  | valueError
deriving DecidableEq, Repr

abbrev Args := Dict Str Str

/-! ## Styles of lines -/

/-- `settings.plot_args`: not set, one dictionary, or one for each line -/
inductive PA
  | unset
  | one (d : Args)
  | many (l : List (Option Args))
deriving DecidableEq, Repr

/-- the dictionary used for line `n` (plots.py:772-784) -/
def argsAt : PA → Nat → Args
  | .unset, _ => []
  | .one d, _ => d
  | .many l, n => ((l[n]?).getD none).getD []

/-- the dictionary of the settings itself is changed (plots.py:786, 830-839) -/
def store : PA → Nat → Args → PA
  | .unset, _, _ => .unset
  | .one _, _, a => .one a
  | .many l, n, a => match l[n]? with
    | some (some _) => .many (l.set n (some a))
    | _ => .many l

/-- `_get_plot_args` (plots.py:764-787) -/
def getPlotArgs (pa : PA) (n : Nat) (kwargs : Args) : Args × PA :=
  let a := (argsAt pa n).update kwargs
  (a, store pa n a)

/-- an entry of `settings.line_styles`: a string, a tuple of style and colour, or a colour of a colour map -/
inductive Style
  | str (s : Str)
  | pair (ls color : Str)
  | rgb (c : Str)
deriving DecidableEq, Repr

def styleChar (c : Char) : Bool := c == '-' || c == '.' || c == ':'

/-- the settings used: default styles, colour test of matplotlib, dashes, width -/
structure Cfg where
  styles : List Style
  isColor : Str → Bool
  dashes : Dict Str Str
  lw : Str

/-- `_get_default_ls` (plots.py:798-819) -/
def defaultLs (c : Cfg) (n : Nat) : Except Err (Str × Str) :=
  match c.styles[n]? with
  | none => .error .index
  | some (.rgb r) => .ok (c!"-", r)
  | some (.pair a b) => .ok (a, b)
  | some (.str s) => if c.isColor s then .ok (c!"-", s) else .ok (s.takeWhile styleChar, s.dropWhile styleChar)

/-- `if key not in args: args[key] = value` -/
def setDefault (a : Args) (k v : Str) : Args := if a.has k then a else a.set k v

def fillDashes (c : Cfg) (a : Args) : Args :=
  if a.has c!"dashes" then a else match c.dashes.get? ((a.get? c!"ls").getD []) with
    | some d => a.set c!"dashes" d
    | none => a

/-- `_get_line_styles` (plots.py:821-841) -/
def getLineStyles (c : Cfg) (pa : PA) (n : Nat) (kwargs : Args) : Except Err (Args × PA) :=
  let a := (getPlotArgs pa n kwargs).1
  if a.has c!"ls" && a.has c!"color" then
    let a := setDefault (fillDashes c a) c!"lw" c.lw
    .ok (a, store pa n a)
  else match defaultLs c n with
    | .error e => .error e
    | .ok (ls, color) =>
      let a := fillDashes c (setDefault a c!"ls" ls)
      let a := setDefault (setDefault a c!"color" color) c!"lw" c.lw
      .ok (a, store pa n a)

/-- the settings after a line -/
def afterLine (c : Cfg) (pa : PA) (k : Nat × Args) : PA := match getLineStyles c pa k.1 k.2 with
  | .ok r => r.2
  | .error _ => pa

/-- the settings after several lines -/
def afterLines (c : Cfg) (pa : PA) (calls : List (Nat × Args)) : PA := calls.foldl (afterLine c) pa

/-! ## Arguments of several roots -/

/-- `line_args` or `contour_args` as given -/
inductive Given
  | none
  | one (d : Args)
  | list (l : List Args)
  | tuple (l : List Args)
deriving DecidableEq, Repr

/-- `colors`, `ls`, `alphas`, `lws` after `_get_list`: `none` in a list for an empty value -/
structure Over where
  colors : List (Option Str) := []
  ls : List (Option Str) := []
  alphas : List (Option Str) := []
  lws : List (Option Str) := []

/-- `if vals and i < len(vals) and vals[i]: c[key] = vals[i]` -/
def over1 (vals : List (Option Str)) (i : Nat) (k : Str) (c : Args) : Args := match (vals[i]?).getD none with
  | some v => c.set k v
  | none => c

/-- the body of the loop (plots.py:1383-1393) -/
def overlay (o : Over) (i : Nat) (c : Args) : Args :=
  over1 o.lws i c!"lw" (over1 o.alphas i c!"alpha" (over1 o.ls i c!"ls" (over1 o.colors i c!"color" c)))

def overlayAll (o : Over) (l : List Args) : List Args := l.zipIdx.map (fun p => overlay o p.2 p.1)

/-- `line_args += [{}] * (nroots - len(line_args))` -/
def padded (n : Nat) (l : List Args) : List Args := l ++ List.replicate (n - l.length) []

/-- `_make_line_args` (plots.py:1360-1394): the arguments of each root, and what the caller's argument is afterwards -/
def makeLineArgs (nroots : Nat) (g : Given) (o : Over) : Except Err (List Args × Given) := match g with
  | .none => .ok (overlayAll o (List.replicate nroots []), .none)
  | .one d => .ok (overlayAll o (List.replicate nroots d), .one d)
  | .list l => .ok (overlayAll o (padded nroots l), .list (overlayAll o (padded nroots l)))
  | .tuple l => if l = [] ∧ nroots = 0 then .ok ([], .tuple []) else .error .typeError

/-- a value of `filled` in the arguments of one contour: a boolean or the whole list given -/
inductive Fill
  | bool (b : Bool)
  | whole
deriving DecidableEq, Repr

def Fill.truthy : Fill → Bool
  | .bool b => b
  | .whole => true

/-- the argument `filled` -/
inductive Filled
  | none
  | bool (b : Bool)
  | list (l : List (Option Bool))
deriving DecidableEq, Repr

def isListed : Filled → List (Option Bool)
  | .list l => l
  | _ => []

/-- `for cont, fill in zip(contour_args, filled): cont['filled'] = fill` -/
def listed (own : List (Option Fill)) (l : List (Option Bool)) : List (Option Fill) :=
  own.zipIdx.map (fun p => match l[p.2]? with
    | some v => v.map Fill.bool
    | none => p.1)

/-- `filled or False` -/
def orFalse : Filled → Fill
  | .none => .bool false
  | .bool b => .bool b
  | .list [] => .bool false
  | .list (_ :: _) => .whole

/-- the part of `_make_contour_args` on `filled` (plots.py:1398-1405); `own` is what the arguments of each root have -/
def fills (own : List (Option Fill)) (f : Filled) : List Fill :=
  (listed own (isListed f)).map (fun v => v.getD (orFalse f))

/-! ## Legends -/

section
variable {L : Type}

/-- the order of labels -/
inductive Order
  | none
  | reversed
  | list (l : List Nat)
deriving DecidableEq, Repr

def pickAll {α : Type} (l : List α) (ix : List Nat) : Except Err (List α) :=
  ix.mapM (fun i => match l[i]? with
    | some a => .ok a
    | none => .error .index)

/-- plots.py:1900-1904 -/
def ordered (lines : List L) (labels : List Str) (o : Order) : Except Err (List L × List Str) := match o with
  | .none => .ok (lines, labels)
  | .reversed => do
    let l ← pickAll lines (List.range lines.length).reverse
    let s ← pickAll labels (List.range lines.length).reverse
    .ok (l, s)
  | .list ix => do
    let l ← pickAll lines ix
    let s ← pickAll labels ix
    .ok (l, s)

/-- the entries shown: matplotlib takes handles and labels in pairs -/
def entries (lines : List L) (labels : List Str) (o : Order) : Except Err (List (L × Str)) :=
  (ordered lines labels o).map (fun p => p.1.zip p.2)

/-- the line of label `i` (plots.py:1877-1888): `added` are the lines drawn, `axLines` those of the axes (none for a figure legend),
`style` the style a line would have -/
def legendLine (added : Dict Nat L) (axLines : List L) (figure : Bool) (style : Nat → L) (offset i : Nat) : L :=
  match added.get? i with
  | some l => l
  | none => if figure then style (i + offset) else match axLines[i]? with
    | some l => l
    | none => style (i + offset)

def legendLines (added : Dict Nat L) (axLines : List L) (figure : Bool) (style : Nat → L) (offset n : Nat) : List L :=
  (List.range n).map (legendLine added axLines figure style offset)

end

/-- the location of a figure legend outside of the plots (plots.py:1910-1916) -/
def outsideLoc (loc : Str) : Except Err Str :=
  let loc := if loc = c!"best" ∨ loc = c!"center" then c!"upper center" else loc
  match splitChar ' ' loc with
  | [loc1, loc2] =>
    if loc1 = c!"upper" then .ok (c!"lower" ++ ' ' :: loc2)
    else if loc1 = c!"lower" then .ok (c!"upper" ++ ' ' :: loc2)
    else .error .valueError
  | _ => .error .valueError

/-! ## Sizes -/

section
variable {K : Type} [Field K] [LinearOrder K]

structure Scale (K : Type) where
  scaling : Bool
  ref : K
  maxSize : Option K
  factor : K
  direct : Bool

/-- `scaled_fontsize` (plots.py:248-258) for a number -/
def scaledFontsize (s : Scale K) (ax var : K) : K :=
  if !s.scaling then var else match s.maxSize with
    | none => if s.direct then var * ax / s.ref else max 5 (var + s.factor * (ax - s.ref))
    | some m =>
      if m = 0 then var
      else if ax < m then (if s.direct then var * ax / s.ref else max 5 (var + s.factor * (ax - s.ref)))
      else var + 2 * (m - s.ref)

/-- `scaled_linewidth` (plots.py:260-264) for `linewidth or self.linewidth` -/
def scaledLinewidth (s : Scale K) (ax lw dflt : K) : K :=
  let lw := if lw = 0 then dflt else lw
  if !s.scaling then lw else max (6 / 10) (lw * ax / s.ref)

end

end Verif.PlotArgs
