import Verif.Model.IniFile
import Verif.Py.Num
import Verif.Py.Float
import Verif.Model.Thin
import Mathlib.Algebra.Order.Floor.Ring
import Mathlib.Data.Rat.Floor

/-!
# Model of typed settings: `python/getdist/inifile.py:191-406` and the settings of samples, `python/getdist/mcsamples.py:180-240, 328-400, 429-457`

Modelled: `isSet`, `asType`, `setAttr`, `getAttr`, `bool`, `bool_list`, `string`, `list`, `float`, `float_list`, `int`, `int_list`, `split`, `ndarray`, `array_int`,
`array_string`, `array_bool`, `array_float`; `MCSamples._setBurnOptions`, `initParameters`, `updateSettings` and the settings part of `MCSamples.__init__`.

Simplified: floats are rational numbers with a given way `fs` to print them; text for numbers as in `Py/Float.lean` and `Py/Num.lean` (no underscores, infinities); arrays
have one dimension; attributes of an object are a dictionary; `exp` and the quantile of the normal distribution are one function.
-/

namespace Verif.Settings
open Verif.Py

inductive Err
  | undefined (name : Str)        -- IniError
  | notBool (name : Str)          -- IniError
  | value                         -- ValueError of a conversion
  | type                          -- TypeError
  | index                         -- IndexError
deriving DecidableEq, Repr

/-- a single python value -/
inductive Atom
  | str (s : Str)
  | bool (b : Bool)
  | int (n : Int)
  | flt (x : ℚ)
deriving DecidableEq, Repr

/-- a value of a setting or attribute -/
inductive V
  | one (a : Atom)
  | lst (l : List Atom)           -- list or tuple
  | arr (l : List ℚ)              -- numpy array
deriving DecidableEq, Repr

inductive Tp
  | str | bool | int | flt | list | arr
deriving DecidableEq, Repr

def typeOf : V → Tp
  | .one (.str _) => .str
  | .one (.bool _) => .bool
  | .one (.int _) => .int
  | .one (.flt _) => .flt
  | .lst _ => .list
  | .arr _ => .arr

/-- text of an integer -/
def intText (n : Int) : Str := if n < 0 then '-' :: strNat n.natAbs else strNat n.natAbs

/-- `int(s)` for text -/
def intOf (s : Str) : Option Int :=
  let sg := takeSign (strip s)
  (intStr sg.2).map fun n => if sg.1 then -(n : Int) else (n : Int)

/-- `str(value)` -/
def pyStr (fs : ℚ → Str) : Atom → Str
  | .str s => s
  | .bool true => c!"True"
  | .bool false => c!"False"
  | .int n => intText n
  | .flt x => fs x

/-- `repr(value)` of an entry of a list -/
def pyRepr (fs : ℚ → Str) : Atom → Str
  | .str s => c!"'" ++ s ++ c!"'"
  | a => pyStr fs a

/-- `str(value)` for all values -/
def pyText (fs : ℚ → Str) : V → Str
  | .one a => pyStr fs a
  | .lst l => c!"[" ++ join c!", " (l.map (pyRepr fs)) ++ c!"]"
  | .arr l => c!"[" ++ join c!" " (l.map fs) ++ c!"]"

/-- as stored in the text of a file (`asIniText`, inifile.py:145-150) -/
def toVal (fs : ℚ → Str) : V → IniFile.Val
  | .one (.str s) => .str s
  | .one (.bool b) => .bool b
  | v => .other (pyText fs v)

/-- conversion `tp(x)` of single values -/
def conv (fs : ℚ → Str) : Tp → Atom → Except Err Atom
  | .str, a => .ok (.str (pyStr fs a))
  | .bool, .str s => .ok (.bool (!s.isEmpty))
  | .bool, .bool b => .ok (.bool b)
  | .bool, .int n => .ok (.bool (n != 0))
  | .bool, .flt x => .ok (.bool (x != 0))
  | .int, .str s => match intOf s with
    | some n => .ok (.int n)
    | none => .error .value
  | .int, .bool b => .ok (.int (if b then 1 else 0))
  | .int, .int n => .ok (.int n)
  | .int, .flt x => .ok (.int (Thin.trunc x))
  | .flt, .str s => match (floatStr s : Option ℚ) with
    | some x => .ok (.flt x)
    | none => .error .value
  | .flt, .bool b => .ok (.flt (if b then 1 else 0))
  | .flt, .int n => .ok (.flt n)
  | .flt, .flt x => .ok (.flt x)
  | .list, _ => .error .type
  | .arr, _ => .error .type

abbrev Params := Dict Str V

/-- inifile.py:191-199 `isSet` for values other than arrays; the comparison of an array with text is an error in a condition, or later when its text is read -/
def isSet (p : Params) (name : Str) (allowEmpty : Bool) : Bool := match p.get? name with
  | none => false
  | some v => allowEmpty || v ≠ .one (.str [])

/-- inifile.py:236-253 `bool` -/
def getBool (p : Params) (name : Str) (default : Option V) : Except Err V :=
  if isSet p name false then
    match p.get? name with
    | some (.one (.bool b)) => .ok (.one (.bool b))
    | some (.one (.str ('T' :: _))) => .ok (.one (.bool true))
    | some (.one (.str ('F' :: _))) => .ok (.one (.bool false))
    | some (.one (.str _)) => .error (.notBool name)
    | some (.lst []) => .error .index
    | some (.lst (a :: _)) => if a = .str c!"T" then .ok (.one (.bool true)) else if a = .str c!"F" then .ok (.one (.bool false)) else .error (.notBool name)
    | some (.arr _) => .error .value
    | _ => .error .type
  else match default with
    | some d => .ok d
    | none => .error (.undefined name)

/-- `asType` for simple types (inifile.py:201-214) -/
def asSimple (fs : ℚ → Str) (p : Params) (name : Str) (tp : Tp) (default : Option V) (allowEmpty : Bool) : Except Err V :=
  if isSet p name allowEmpty then
    match p.get? name with
    | some (.one a) => match conv fs tp a with
      | .ok x => .ok (.one x)
      | .error e => .error e
    | some (.arr l) => if tp = .str then .ok (.one (.str (pyText fs (.arr l)))) else .error .value
    | some (.lst l) => if tp = .str then .ok (.one (.str (pyText fs (.lst l)))) else .error .type
    | none => .error (.undefined name)      -- not reached
  else match default with
    | some d => .ok d
    | none => .error (.undefined name)

/-- inifile.py:267-275 `string` -/
def getString (fs : ℚ → Str) (p : Params) (name : Str) (default : Option V) (allowEmpty : Bool := true) : Except Err V := asSimple fs p name .str default allowEmpty

/-- `[tp(x) for x in l]` -/
def convAll (fs : ℚ → Str) (tp : Option Tp) (l : List Atom) : Except Err V := match tp with
  | none => .ok (.lst l)
  | some t => match l.mapM (conv fs t) with
    | .ok r => .ok (.lst r)
    | .error e => .error e

/-- inifile.py:335-355 `split` -/
def split (fs : ℚ → Str) (p : Params) (name : Str) (default : Option V) (tp : Option Tp) : Except Err V :=
  match p.get? name with
  | some (.lst l) => convAll fs tp l
  | _ => match getString fs p name default with
    | .ok (.one (.str s)) => convAll fs tp ((splitWs s).map .str)
    | .ok v => .ok v
    | .error e => .error e

/-- `if not default: default = []` -/
def orEmpty : Option V → V
  | some (.one (.str [])) => .lst []
  | some v => v
  | none => .lst []

/-- inifile.py:277-289 `list` -/
def getList (fs : ℚ → Str) (p : Params) (name : Str) (default : Option V) (tp : Option Tp) : Except Err V := split fs p name (some (orEmpty default)) tp
/-- inifile.py:255-265 `bool_list` -/
def boolList (fs : ℚ → Str) (p : Params) (name : Str) (default : Option V) : Except Err V := split fs p name (some (orEmpty default)) (some .bool)
/-- inifile.py:300-310 `float_list` -/
def floatList (fs : ℚ → Str) (p : Params) (name : Str) (default : Option V) : Except Err V := split fs p name (some (orEmpty default)) (some .flt)
/-- inifile.py:322-333 `int_list` -/
def intList (fs : ℚ → Str) (p : Params) (name : Str) (default : Option V) : Except Err V := split fs p name (some (orEmpty default)) (some .int)

/-- numbers of a list -/
def numsOf : List Atom → Except Err (List ℚ)
  | [] => .ok []
  | .flt x :: l => match numsOf l with
    | .ok r => .ok (x :: r)
    | .error e => .error e
  | .int n :: l => match numsOf l with
    | .ok r => .ok ((n : ℚ) :: r)
    | .error e => .error e
  | _ :: _ => .error .type

/-- inifile.py:357-365 `ndarray` of floats -/
def ndarray (fs : ℚ → Str) (p : Params) (name : Str) (default : Option V) : Except Err V :=
  match split fs p name default (some .flt) with
  | .error e => .error e
  | .ok (.lst l) => match numsOf l with
    | .ok r => .ok (.arr r)
    | .error e => .error e
  | .ok (.arr r) => .ok (.arr r)
  | .ok (.one _) => .error .type

/-- inifile.py:201-214 `asType` -/
def asType (fs : ℚ → Str) (p : Params) (name : Str) (tp : Tp) (default : Option V) (allowEmpty : Bool) : Except Err V :=
  match p.get? name, tp with
  | some (.arr _), .str => asSimple fs p name tp default allowEmpty
  | some (.arr _), _ => .error .value
  | _, .bool => if isSet p name allowEmpty then getBool p name default else asSimple fs p name tp default allowEmpty
  | _, .list => if isSet p name allowEmpty then split fs p name default none else asSimple fs p name tp default allowEmpty
  | _, .arr => if isSet p name allowEmpty then ndarray fs p name default else asSimple fs p name tp default allowEmpty
  | _, _ => asSimple fs p name tp default allowEmpty

/-- `int`, `float` -/
def getInt (fs : ℚ → Str) (p : Params) (name : Str) (default : Option V) : Except Err V := asType fs p name .int default false
def getFloat (fs : ℚ → Str) (p : Params) (name : Str) (default : Option V) : Except Err V := asType fs p name .flt default false

/-- `name + '(%u)' % index` (inifile.py:367-406) -/
def indexed (name : Str) (i : Int) : Str := name ++ c!"(" ++ intText i ++ c!")"
def arrayInt (fs : ℚ → Str) (p : Params) (name : Str) (i : Int) (d : Option V) := getInt fs p (indexed name i) d
def arrayString (fs : ℚ → Str) (p : Params) (name : Str) (i : Int) (d : Option V) := getString fs p (indexed name i) d
def arrayBool (p : Params) (name : Str) (i : Int) (d : Option V) := getBool p (indexed name i) d
def arrayFloat (fs : ℚ → Str) (p : Params) (name : Str) (i : Int) (d : Option V) := getFloat fs p (indexed name i) d

/-- attributes of an object -/
abbrev Attrs := Dict Str V

/-- inifile.py:216-226 `setAttr`: the type of what is there -/
def setAttr (fs : ℚ → Str) (p : Params) (name : Str) (default : Option V) (allowEmpty : Bool) (o : Attrs) : Except Err Attrs :=
  match (o.get? name).or default with
  | none => if isSet p name allowEmpty then .error .type else .error (.undefined name)
  | some d => match asType fs p name (typeOf d) (some d) allowEmpty with
    | .ok v => .ok (o.set name v)
    | .error e => .error e

/-- inifile.py:228-232 `getAttr` (no comment) for an attribute that is there -/
def getAttr (o : Attrs) (name : Str) (p : Params) : Params := match o.get? name with
  | some v => p.set name v
  | none => p

/-! ### settings of samples -/

structure MC where
  attrs : Attrs
  ignoreLines : Int := 0
  ignoreFrac : ℚ := 0
  maxFrac : List V := []
  ini : Params
deriving DecidableEq, Repr

/-- the attributes set in `MCSamples.__init__` (mcsamples.py:182-234) and `WeightedSamples.__init__` (chains.py:230) that can be changed by settings -/
def attrs0 (rows : ℚ) : Attrs :=
  [(c!"ignore_rows", .one (.flt rows)), (c!"min_weight_ratio", .one (.flt (1 / 10 ^ 30))), (c!"range_ND_contour", .one (.int 1)), (c!"range_confidence", .one (.flt (1 / 1000))),
   (c!"num_bins", .one (.int 128)), (c!"fine_bins", .one (.int 1024)), (c!"num_bins_2D", .one (.int 40)), (c!"fine_bins_2D", .one (.int 256)),
   (c!"smooth_scale_1D", .one (.flt (-1))), (c!"smooth_scale_2D", .one (.flt (-1))), (c!"num_bins_ND", .one (.int 12)), (c!"boundary_correction_order", .one (.int 1)),
   (c!"mult_bias_correction_order", .one (.int 1)), (c!"max_corr_2D", .one (.flt (95 / 100))), (c!"use_effective_samples_2D", .one (.bool false)),
   (c!"contours", .arr [68 / 100, 95 / 100]), (c!"max_scatter_points", .one (.int 2000)), (c!"credible_interval_threshold", .one (.flt (5 / 100))),
   (c!"subplot_size_inch", .one (.flt 4)), (c!"subplot_size_inch2", .one (.flt 4)), (c!"subplot_size_inch3", .one (.flt 6)), (c!"plot_output", .one (.str c!"pdf")),
   (c!"no_warning_params", .lst []), (c!"no_warning_chi2_params", .one (.bool true)), (c!"force_twotail", .one (.bool false)), (c!"corr_length_thin", .one (.int 0)),
   (c!"corr_length_steps", .one (.int 15)), (c!"converge_test_limit", .one (.flt (95 / 100)))]

/-- names read in `_setBurnOptions` -/
def burnNames : List Str := [c!"ignore_rows", c!"min_weight_ratio"]
/-- names read in `initParameters` before the contours (mcsamples.py:352-379) -/
def namesA : List Str := [c!"range_ND_contour", c!"range_confidence", c!"num_bins", c!"fine_bins", c!"num_bins_2D", c!"fine_bins_2D", c!"smooth_scale_1D", c!"smooth_scale_2D",
  c!"boundary_correction_order", c!"mult_bias_correction_order", c!"num_bins_ND", c!"max_scatter_points", c!"credible_interval_threshold", c!"subplot_size_inch",
  c!"subplot_size_inch2", c!"subplot_size_inch3", c!"plot_output", c!"force_twotail", c!"max_corr_2D"]
/-- and after (mcsamples.py:394-398) -/
def namesB : List Str := [c!"converge_test_limit", c!"corr_length_thin", c!"corr_length_steps", c!"no_warning_params", c!"no_warning_chi2_params"]

def setAll (fs : ℚ → Str) (p : Params) : List Str → Attrs → Except Err Attrs
  | [], o => .ok o
  | n :: ns, o => match setAttr fs p n none false o with
    | .ok o' => setAll fs p ns o'
    | .error e => .error e

/-- mcsamples.py:335-340: from `ignore_rows` -/
def burnOf (rows : ℚ) : Int × ℚ := if Thin.trunc rows = 0 then (0, rows) else (Thin.trunc rows, 0)

/-- number of a setting -/
def fltOf : V → Except Err ℚ
  | .one (.flt x) => .ok x
  | .one (.int n) => .ok n
  | _ => .error .type

def numAt (fs : ℚ → Str) (p : Params) (i : Nat) : Except Err ℚ := match getFloat fs p (c!"contour" ++ strNat (i + 1)) none with
  | .ok v => fltOf v
  | .error e => .error e

/-- `range(n)` of a value -/
def countOf : V → Except Err Nat
  | .one (.int n) => .ok n.toNat
  | _ => .error .type

/-- mcsamples.py:381-385 -/
def contoursStep (fs : ℚ → Str) (p : Params) (o : Attrs) : Except Err Attrs :=
  if p.has c!"contours" then setAttr fs p c!"contours" none false o
  else if p.has c!"num_contours" then
    match getInt fs p c!"num_contours" (some (.one (.int 2))) with
    | .error e => .error e
    | .ok v => match countOf v with
      | .error e => .error e
      | .ok n => match (List.range n).mapM (numAt fs p) with
        | .error e => .error e
        | .ok l => .ok (o.set c!"contours" (.arr l))
  else .ok o

/-- mcsamples.py:387-392 -/
def fracAt (fs : ℚ → Str) (frac : ℚ → ℚ) (p : Params) (e : ℚ × Nat) : Except Err V :=
  getFloat fs p (c!"max_frac_twotail" ++ strNat (e.2 + 1)) (some (.one (.flt (frac e.1))))

def contoursOf (o : Attrs) : List ℚ := match o.get? c!"contours" with
  | some (.arr l) => l
  | _ => []

/-- `ignore_rows` of the attributes -/
def rowsOf (o : Attrs) : Except Err ℚ := match o.get? c!"ignore_rows" with
  | some v => fltOf v
  | none => .error .type

/-- mcsamples.py:343-399 `initParameters` -/
def initParameters (fs : ℚ → Str) (frac : ℚ → ℚ) (p : Params) (m : MC) : Except Err MC :=
  match setAll fs p burnNames m.attrs with
  | .error e => .error e
  | .ok o1 => match rowsOf o1 with
    | .error e => .error e
    | .ok rows => match setAll fs p namesA o1 with
      | .error e => .error e
      | .ok o2 => match contoursStep fs p o2 with
        | .error e => .error e
        | .ok o3 => match (contoursOf o3).zipIdx.mapM (fracAt fs frac p) with
          | .error e => .error e
          | .ok fr => if contoursOf o3 = [] then .error .index     -- self.contours[-1]
            else match setAll fs p namesB o3 with
              | .error e => .error e
              | .ok o4 => .ok { attrs := o4, ignoreLines := (burnOf rows).1, ignoreFrac := (burnOf rows).2, maxFrac := fr, ini := p }

/-- mcsamples.py:429-457 `updateSettings` without samples: a given file of settings replaces those there were -/
def updateSettings (fs : ℚ → Str) (frac : ℚ → ℚ) (settings : Params) (ini : Option Params) (m : MC) : Except Err MC :=
  initParameters fs frac ((ini.getD m.ini).update settings) m

/-- the part of `MCSamples.__init__` on settings (mcsamples.py:213-217, 239): the samples and the settings of the caller afterwards -/
def construct (fs : ℚ → Str) (frac : ℚ → ℚ) (defaults : Params) (settings : Option Params) (rowsArg : Option ℚ) : Except Err (MC × Option Params) :=
  let s := match rowsArg with
    | some r => some ((settings.getD []).set c!"ignore_rows" (.one (.flt r)))
    | none => settings
  match updateSettings fs frac (s.getD []) (some defaults) { attrs := attrs0 (rowsArg.getD 0), ini := [] } with
  | .error e => .error e
  | .ok m => .ok (m, settings.map fun _ => s.getD [])

end Verif.Settings
