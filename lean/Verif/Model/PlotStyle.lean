import Verif.Py.Str
import Verif.Py.Dict

/-!
# Model of renamed settings (`python/getdist/_base.py`) and plot styles (`python/getdist/plots.py:3281-3318`)

Modelled: `_convert_camel`, `_map_name`, `__getattribute__`, `__setattr__` of `_BaseObject`, the names of `GetDistPlotSettings`,
`StyleManager`.

Simplified: an object is its class' table of old names, those of its base classes, and its attributes (of instance and classes
together); setting an attribute of a class sets that of the instance, so one table of values is enough.  `rcParams` is a dictionary of
strings.  A plotter class is its `_style_rc`.
-/

namespace Verif.PlotStyle
open Verif.Py

inductive Err
  | attribute
  | value
deriving DecidableEq, Repr

/-! ## Names -/

/-- `re.sub('(.)([A-Z][a-z]+)', r'\1_\2', name)` -/
def sub1 : Nat → Str → Str
  | 0, s => s
  | _ + 1, [] => []
  | _ + 1, [c] => [c]
  | n + 1, c :: u :: rest =>
    if c ≠ '\n' ∧ u.isUpper = true ∧ rest.takeWhile Char.isLower ≠ [] then
      c :: '_' :: u :: (rest.takeWhile Char.isLower ++ sub1 n (rest.dropWhile Char.isLower))
    else c :: sub1 n (u :: rest)

/-- `re.sub('([a-z0-9])([A-Z])', r'\1_\2', s)`: the second group cannot begin the next match -/
def sub2 : Str → Str
  | [] => []
  | [c] => [c]
  | c :: u :: rest => if (c.isLower || c.isDigit) && u.isUpper then c :: '_' :: sub2 (u :: rest) else c :: sub2 (u :: rest)

/-- `_convert_camel` (_base.py:7-9) -/
def convertCamel (name : Str) : Str := (sub2 (sub1 name.length name)).map Char.toLower

/-! ## Attributes -/

abbrev Table := Dict Str (Option Str)

/-- an object: the tables `_deprecated` of its class and of its base classes, `_fail_on_not_exist`, its attributes -/
structure Obj (V : Type) where
  own : Option Table
  bases : List Table := []
  strict : Bool := false
  attrs : Dict Str V := []

variable {V : Type}

/-- what `_map_name` finds: nothing, a removed name, or a value and the name it is under -/
inductive Found (V : Type)
  | missing
  | removed
  | at (v : V) (name : Str)
deriving DecidableEq, Repr

/-- the new name of an old one (_base.py:17-23): `none` for removed; only the table of the object's own class is used -/
def newName (o : Obj V) (name : Str) : Option Str := match (o.own.getD []).get? name with
  | some n => n
  | none => some (convertCamel name)

/-- `_map_name` (_base.py:12-27) -/
def mapName (o : Obj V) (name : Str) : Found V := match o.attrs.get? name with
  | some v => .at v name
  | none => match newName o name with
    | none => .removed
    | some n => match o.attrs.get? n with
      | some v => .at v n
      | none => .missing

/-- `__getattribute__` (_base.py:35-47) for a name that does not begin with two underscores; `none` is `None` -/
def getAttr (o : Obj V) (name : Str) : Except Err (Option V) := match mapName o name with
  | .missing => .error .attribute
  | .removed => .ok none
  | .at v _ => .ok (some v)

/-- `__setattr__` (_base.py:49-61) -/
def setAttr (o : Obj V) (name : Str) (v : V) : Except Err (Obj V) := match mapName o name with
  | .missing => if o.strict then .error .attribute else .ok { o with attrs := o.attrs.set name v }
  | .removed => .ok o
  | .at _ n => .ok { o with attrs := o.attrs.set n v }

/-- `GetDistPlotSettings._deprecated` (plots.py:132-145) -/
def settingsOld : Table :=
  [(c!"lab_fontsize", some c!"axes_labelsize"), (c!"colorbar_rotation", some c!"colorbar_tick_rotation"), (c!"font_size ", some c!"fontsize"),
   (c!"legend_frac_subplot_line", none), (c!"legend_position_config", none), (c!"lineM", some c!"line_styles"), (c!"lw1", some c!"linewidth"),
   (c!"lw_contour", some c!"linewidth_contour"), (c!"lw_likes", some c!"linewidth_meanlikes"), (c!"thin_long_subplot_ticks", none),
   (c!"tick_prune", none), (c!"tight_gap_fraction", none), (c!"x_label_rotation", some c!"axis_tick_x_rotation")]

/-- the attributes that `GetDistPlotSettings.__init__` sets (plots.py:147-239) -/
def settingsNames : List Str :=
  [c!"scaling", c!"scaling_reference_size", c!"scaling_max_axis_size", c!"scaling_factor", c!"direct_scaling", c!"plot_meanlikes", c!"prob_label",
   c!"norm_prob_label", c!"prob_y_ticks", c!"norm_1d_density", c!"line_styles", c!"plot_args", c!"line_dash_styles", c!"line_labels", c!"num_shades",
   c!"shade_level_scale", c!"progress", c!"fig_width_inch", c!"tight_layout", c!"constrained_layout", c!"no_triangle_axis_labels", c!"colormap",
   c!"colormap_scatter", c!"colorbar_tick_rotation", c!"colorbar_label_pad", c!"colorbar_label_rotation", c!"colorbar_axes_fontsize", c!"subplot_size_inch",
   c!"subplot_size_ratio", c!"param_names_for_labels", c!"legend_colored_text", c!"legend_loc", c!"legend_frac_subplot_margin", c!"legend_fontsize",
   c!"legend_frame", c!"legend_rect_border", c!"figure_legend_loc", c!"figure_legend_frame", c!"figure_legend_ncol", c!"linewidth", c!"linewidth_contour",
   c!"linewidth_meanlikes", c!"num_plot_contours", c!"solid_contour_palefactor", c!"solid_colors", c!"alpha_filled_add", c!"alpha_factor_contour_lines",
   c!"shade_meanlikes", c!"axes_fontsize", c!"axes_labelsize", c!"axis_marker_color", c!"axis_marker_ls", c!"axis_marker_lw", c!"axis_tick_powerlimits",
   c!"axis_tick_max_labels", c!"axis_tick_step_groups", c!"axis_tick_x_rotation", c!"axis_tick_y_rotation", c!"scatter_size", c!"fontsize",
   c!"title_limit", c!"title_limit_labels", c!"title_limit_fontsize", c!"_fail_on_not_exist"]

/-- a settings object, every attribute with its name as value -/
def settingsObj : Obj Str where
  own := some settingsOld
  strict := true
  attrs := settingsNames.map (fun n => (n, n))

/-- an object of a subclass of `GetDistPlotSettings` -/
def subclassObj : Obj Str := { settingsObj with own := none, bases := [settingsOld] }

/-! ## Styles -/

abbrev Rc := Dict Str Str

structure Mgr where
  styles : Dict Str Rc
  active : Str
  orig : Option Rc := none
  rc : Rc

def defaultStyle : Str := c!"default"

/-- `StyleManager.set_active_style` (plots.py:3292-3310); `name` is after `name or style_name` -/
def setActive (m : Mgr) (name : Str) : Except Err (Str × Mgr) :=
  if name = m.active then .ok (m.active, m)
  else match m.styles.get? name with
    | none => .error .value
    | some st =>
      let orig := m.orig.getD m.rc
      let m' : Mgr := { m with active := name, rc := orig.update st, orig := if name = defaultStyle then none else some orig }
      .ok (m.active, m')

/-- `add_plotter_style` (plots.py:3312-3315) -/
def addStyle (m : Mgr) (name : Str) (st : Rc) (activate : Bool) : Except Err Mgr :=
  let m := { m with styles := m.styles.set name st }
  if activate then (setActive m name).map (·.2) else .ok m

/-- `active_class` (plots.py:3287-3290), as called by `get_plotter` and others -/
def activeClass (m : Mgr) (style : Option Str) : Except Err (Rc × Mgr) := do
  let m ← match style with
    | some s => (setActive m s).map (·.2)
    | none => .ok m
  match m.styles.get? m.active with
  | some st => .ok (st, m)
  | none => .error .value

/-- calls to the manager; the last is a change of `rcParams` by the user -/
inductive Op
  | activate (name : Str)
  | add (name : Str) (st : Rc) (activate : Bool)
  | plotter (style : Option Str)
  | rc (k v : Str)

def step (m : Mgr) : Op → Mgr
  | .activate n => match setActive m n with
    | .ok r => r.2
    | .error _ => m
  | .add n st a => match addStyle m n st a with
    | .ok r => r
    | .error _ => { m with styles := m.styles.set n st }
  | .plotter s => match activeClass m s with
    | .ok r => r.2
    | .error _ => m
  | .rc k v => { m with rc := m.rc.set k v }

end Verif.PlotStyle
