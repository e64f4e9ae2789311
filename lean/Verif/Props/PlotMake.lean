import Mathlib.Tactic.Linarith
import Mathlib.Tactic.NormNum
import Mathlib.Tactic.Ring
import Mathlib.Tactic.FieldSimp
import Mathlib.Algebra.Order.Ring.Abs
import Verif.Model.PlotMake

/-!
# Making a plotter (C247, C248) and what is added to a plot (C249, C250)
-/

namespace Verif.PlotMake
open Verif.Py

/-! ## Sizes of fonts -/

/-- **C247**: a size given as a number is used, whatever the other sizes are -/
theorem size_number (scale : Str → Option ℚ) (font x : ℚ) (hx : x ≠ 0) : numerical scale font (some (.num x)) = x := by
  simp [numerical, hx]

example : numerical (fun _ => none) 12 (some (.num (17 / 2))) = 17 / 2 := size_number _ _ _ (by norm_num)

/-- **C247**: a size given by a name is that multiple of the size of the font; a name that is not known gives the size of the font -/
theorem size_name (scale : Str → Option ℚ) (font : ℚ) (s : Str) (hs : s ≠ []) :
    (∀ k, scale s = some k → k ≠ 0 → numerical scale font (some (.name s)) = k * font) ∧
    (scale s = none → numerical scale font (some (.name s)) = font) := by
  constructor
  · intro k hk h0
    simp [numerical, hs, hk, orQ, h0, mul_comm]
  · intro hk
    simp [numerical, hs, hk, orQ]

example : numerical (fun s => if s = c!"large" then some (6 / 5) else none) 10 (some (.name c!"large")) = 12 := by decide +kernel

/-- **C247**: the default size is that of the font, and 11 if there is none; no size is ever zero unless the font is of size zero and the size has a name -/
theorem size_default (scale : Str → Option ℚ) (font : ℚ) :
    numerical scale font none = (if font = 0 then 11 else font) ∧
    ∀ o, font ≠ 0 → numerical scale font o ≠ 0 := by
  refine ⟨rfl, ?_⟩
  intro o hf
  have h1 : orQ (some font) 11 ≠ 0 := by simp [orQ, hf]
  cases o with
  | none => exact h1
  | some z => cases z with
    | num x =>
      simp only [numerical]
      split
      · exact h1
      · assumption
    | name s =>
      simp only [numerical]
      split
      · exact h1
      · apply mul_ne_zero hf
        cases h : scale s with
        | none => simp [orQ]
        | some k =>
          by_cases hk : k = 0 <;> simp [orQ, hk]

example : numerical (fun _ => none) 0 none = 11 ∧ numerical (fun _ => none) 9 none = 9 := by decide +kernel

/-- **C247**: the sizes taken from `rcParams` do not depend on those set before, names are relative to the size of the font there, and sizes
given in the call are used instead -/
theorem rc_own (scale : Str → Option ℚ) (rc : Rc) (s : Settings) (f : ℚ) (hrc : rc.font = .num f) (hf : f ≠ 0) (axes lab legend : Option ℚ) :
    let r := rcSizes scale rc s axes lab legend
    r.fontsize = f ∧
    (legend = none → r.legendFont = numerical scale f (some rc.legend)) ∧
    (lab = none → r.labelFont = numerical scale f (some rc.label)) ∧
    (axes = none → r.axesFont = numerical scale f (some rc.tick)) ∧
    (∀ x, x ≠ 0 → legend = some x → r.legendFont = x) ∧
    (∀ x, x ≠ 0 → lab = some x → r.labelFont = x) ∧
    (∀ x, x ≠ 0 → axes = some x → r.axesFont = x) ∧
    (r.subplotInch = s.subplotInch ∧ r.ratio = s.ratio ∧ r.figWidth = s.figWidth ∧ r.scaling = s.scaling) := by
  have e : numerical scale s.fontsize (some rc.font) = f := by rw [hrc]; exact size_number _ _ _ hf
  refine ⟨?_, ?_, ?_, ?_, ?_, ?_, ?_, ⟨rfl, rfl, rfl, rfl⟩⟩
  · exact e
  · intro h; subst h; simp only [rcSizes, e]; rfl
  · intro h; subst h; simp only [rcSizes, e]; rfl
  · intro h; subst h; simp only [rcSizes, e]; rfl
  · intro x hx h; subst h; simp [rcSizes, orQ, hx]
  · intro x hx h; subst h; simp [rcSizes, orQ, hx]
  · intro x hx h; subst h; simp [rcSizes, orQ, hx]

/-- sizes of a usual style -/
def exRc : Rc := { font := .num 10, legend := .name c!"medium", label := .name c!"large", tick := .num 8 }
def exScale : Str → Option ℚ := fun s => if s = c!"medium" then some 1 else if s = c!"large" then some (6 / 5) else none
def exSet : Settings :=
  { fontsize := 12, legendFont := 12, labelFont := 14, axesFont := 11, scaling := true, subplotInch := 2, ratio := none, figWidth := none }

example : (rcSizes exScale exRc exSet none none (some 7)).legendFont = 7 ∧ (rcSizes exScale exRc exSet none none none).legendFont = 10 ∧
    (rcSizes exScale exRc exSet none none none).labelFont = 12 ∧ (rcSizes exScale exRc exSet none none none).axesFont = 8 := by decide +kernel

/-- **C247**: a second call changes nothing -/
theorem rc_idem (scale : Str → Option ℚ) (rc : Rc) (s : Settings) (f : ℚ) (hrc : rc.font = .num f) (hf : f ≠ 0) (axes lab legend : Option ℚ) :
    rcSizes scale rc (rcSizes scale rc s axes lab legend) axes lab legend = rcSizes scale rc s axes lab legend := by
  have e : ∀ z : ℚ, numerical scale z (some rc.font) = f := by intro z; rw [hrc]; exact size_number _ _ _ hf
  simp only [rcSizes, e]

example : rcSizes exScale exRc (rcSizes exScale exRc exSet none none none) none none none = rcSizes exScale exRc exSet none none none :=
  rc_idem _ _ _ 10 rfl (by norm_num) _ _ _

/-- **C247**: a size in millimetres is used in place of one in inches, 25.4 to the inch up to one part in ten million -/
theorem size_mm (s : Settings) (inch mm : ℚ) (hmm : mm ≠ 0) (ratio : Option ℚ) :
    |(setSize s inch (some mm) ratio).subplotInch * (254 / 10) - mm| ≤ |mm| / 10000000 ∧
    (setSize s inch none ratio).subplotInch = inch ∧ (setSize s inch none ratio).ratio = ratio ∧ (setSize s inch (some mm) ratio).ratio = ratio := by
  refine ⟨?_, rfl, rfl, rfl⟩
  have e : (setSize s inch (some mm) ratio).subplotInch = mm * (393700787 / 10000000000) := by
    simp [setSize, orQ, hmm]
  rw [e]
  have : mm * (393700787 / 10000000000) * (254 / 10) - mm = mm * (393700787 / 10000000000 * (254 / 10) - 1) := by ring
  rw [this, abs_mul]
  have h2 : |(393700787 / 10000000000 * (254 / 10) - 1 : ℚ)| ≤ 1 / 10000000 := by
    rw [abs_le]; constructor <;> norm_num
  calc |mm| * |(393700787 / 10000000000 * (254 / 10) - 1 : ℚ)| ≤ |mm| * (1 / 10000000) := mul_le_mul_of_nonneg_left h2 (abs_nonneg _)
    _ = |mm| / 10000000 := by ring

example : (setSize exSet 2 (some 88) none).subplotInch = 88 * 393700787 / 10000000000 := by decide +kernel

/-! ## A new plotter -/

theorem new_read (dflt : Settings) (h : Heap) (f : Settings → Settings) :
    (change (newPlotter dflt h none).1 (newPlotter dflt h none).2 f)[(newPlotter dflt h none).2]? = some (f dflt) := by
  simp [newPlotter, change]

theorem new_other (dflt : Settings) (h : Heap) (f : Settings → Settings) (i : Nat) (hi : i < h.length) :
    (change (newPlotter dflt h none).1 (newPlotter dflt h none).2 f)[i]? = h[i]? := by
  simp only [newPlotter, change, List.getElem?_modify]
  have : h.length ≠ i := by omega
  simp [this, List.getElem?_append_left hi]

/-- **C247**: a plotter made without settings has an object of its own: no object made before is changed, and the new one differs from all -/
theorem own_settings (scale : Str → Option ℚ) (rc : Rc) (dflt : Settings) (h : Heap) (scaling : Option Bool) (rcs : Bool) (a b c : Option ℚ) :
    (∀ i, i < h.length → (single scale rc dflt h none scaling rcs a b).1[i]? = h[i]?) ∧
    (∀ i, i < h.length → (subplot scale rc dflt h none scaling rcs a b c).1[i]? = h[i]?) ∧
    (single scale rc dflt h none scaling rcs a b).2 = h.length ∧ (subplot scale rc dflt h none scaling rcs a b c).2 = h.length :=
  ⟨fun i hi => new_other _ _ _ i hi, fun i hi => new_other _ _ _ i hi, rfl, rfl⟩

example : (subplot exScale exRc exSet [exSet] none none false (some 4) none none).1 = [exSet, { exSet with subplotInch := 4 }] := by decide +kernel

/-- **C247**: the figure of a single plot has the width asked for (6 by default) and a height that is `ratio` times that (3/4 by default) -/
theorem single_size (scale : Str → Option ℚ) (rc : Rc) (dflt : Settings) (h : Heap) (scaling : Option Bool) (rcs : Bool) (ratio width : Option ℚ)
    (w r : ℚ) (hw : w ≠ 0) (hr : r ≠ 0) (ew : width = some w ∨ (width = none ∧ w = 6)) (er : ratio = some r ∨ (ratio = none ∧ r = 3 / 4)) :
    ∃ s, (single scale rc dflt h none scaling rcs ratio width).1[(single scale rc dflt h none scaling rcs ratio width).2]? = some s ∧
      figure s 1 1 = (w, w * r, w) := by
  refine ⟨_, new_read _ _ _, ?_⟩
  have e1 : orQ width 6 = w := by
    rcases ew with e | ⟨e, e2⟩
    · simp [e, orQ, hw]
    · simp [e, e2, orQ]
  have e2 : orQ ratio (3 / 4) = r := by
    rcases er with e | ⟨e, e2⟩
    · simp [e, orQ, hr]
    · simp [e, e2, orQ]
  have key : ∀ s : Settings, s.figWidth = some w → s.ratio = some r → figure s 1 1 = (w, w * r, w) := by
    intro s h1 h2
    simp [figure, Settings.forFigure, PlotGrid.figureSize, h1, h2, hr]
  have k1 : ∀ s : Settings, (maybeRc scale rc none rcs s).figWidth = s.figWidth := by
    intro s; unfold maybeRc; split <;> rfl
  have k2 : ∀ s : Settings, (maybeRc scale rc none rcs s).ratio = s.ratio := by
    intro s; unfold maybeRc; split <;> rfl
  apply key
  · simp only [singleSet, k1, e1]
  · simp only [singleSet, k2, e2]
    cases scaling <;> rfl

example : ∃ s, (single exScale exRc exSet [] none none true none none).1[(single exScale exRc exSet [] none none true none none).2]? = some s ∧
    figure s 1 1 = (6, 6 * (3 / 4), 6) := single_size _ _ _ _ _ _ _ _ _ _ (by norm_num) (by norm_num) (.inr ⟨rfl, rfl⟩) (.inr ⟨rfl, rfl⟩)

/-- **C247**: without a total width every subplot has the size asked for (2 by default) however many there are; with a width the figure has that
width and the axes share it equally -/
theorem subplot_size (scale : Str → Option ℚ) (rc : Rc) (dflt : Settings) (h : Heap) (scaling : Option Bool) (rcs : Bool) (size width : Option ℚ)
    (r z : ℚ) (hr : r ≠ 0) (hz : z ≠ 0) (ez : size = some z ∨ (size = none ∧ z = 2)) (col row : Nat) (hcol : 0 < col) (hd : dflt.figWidth = none) :
    ∃ s, (subplot scale rc dflt h none scaling rcs size width (some r)).1[(subplot scale rc dflt h none scaling rcs size width (some r)).2]? = some s ∧
      (width = none → figure s col row = (col * z, row * (z * r), z)) ∧
      (∀ w, w ≠ 0 → width = some w → figure s col row = (w, row * (w / col * r), w / col)) := by
  refine ⟨_, new_read _ _ _, ?_, ?_⟩
  · intro e
    have e1 : orQ size 2 = z := by
      rcases ez with e | ⟨e, e2⟩
      · simp [e, orQ, hz]
      · simp [e, e2, orQ]
    subst e
    have f1 : (subplotSet scale rc none scaling rcs size none (some r) dflt).figWidth = none := by
      cases scaling <;> exact hd
    have f2 : (subplotSet scale rc none scaling rcs size none (some r) dflt).ratio = some r := by
      cases scaling <;> rfl
    have f3 : (subplotSet scale rc none scaling rcs size none (some r) dflt).subplotInch = z := by
      rw [← e1]; cases scaling <;> rfl
    simp only [figure, Settings.forFigure, PlotGrid.figureSize, f1, f2, f3, hr, if_false]
    refine Prod.ext ?_ (Prod.ext ?_ ?_) <;> simp <;> ring
  · intro w hw e
    subst e
    have k1 : ∀ s : Settings, (maybeRc scale rc none rcs s).figWidth = s.figWidth := by
      intro s; unfold maybeRc; split <;> rfl
    have k2 : ∀ s : Settings, (maybeRc scale rc none rcs s).ratio = s.ratio := by
      intro s; unfold maybeRc; split <;> rfl
    have f1 : (subplotSet scale rc none scaling rcs size (some w) (some r) dflt).figWidth = some w := by
      simp only [subplotSet, hw, if_false, k1]
    have f2 : (subplotSet scale rc none scaling rcs size (some w) (some r) dflt).ratio = some r := by
      simp only [subplotSet, hw, if_false, k2]; cases scaling <;> rfl
    have hc : (col : ℚ) ≠ 0 := by
      have : col ≠ 0 := by omega
      exact_mod_cast this
    simp only [figure, Settings.forFigure, PlotGrid.figureSize, f1, f2, hr, if_false]
    refine Prod.ext rfl (Prod.ext ?_ rfl)
    simp
    field_simp

example : ∃ s, (subplot exScale exRc exSet [] none none false (some 3) none (some (1 / 2))).1[(subplot exScale exRc exSet [] none none false (some 3) none
      (some (1 / 2))).2]? = some s ∧ figure s 2 4 = (6, 6, 3) := ⟨_, rfl, by decide +kernel⟩

/-- **C247**: the fonts of the defaults stay unless sizes of `rcParams` are asked for, and `scaling` stays unless given -/
theorem fonts_kept (scale : Str → Option ℚ) (rc : Rc) (s : Settings) (given : Option Nat) (scaling : Option Bool) (a b c : Option ℚ) :
    let x := singleSet scale rc given scaling false a b s
    let y := subplotSet scale rc given scaling false a b c s
    (x.fontsize = s.fontsize ∧ x.legendFont = s.legendFont ∧ x.labelFont = s.labelFont ∧ x.axesFont = s.axesFont ∧ x.scaling = scaling.getD s.scaling) ∧
    (y.fontsize = s.fontsize ∧ y.legendFont = s.legendFont ∧ y.labelFont = s.labelFont ∧ y.axesFont = s.axesFont ∧ y.scaling = scaling.getD s.scaling) := by
  have hm : ∀ z : Settings, maybeRc scale rc given false z = z := by intro z; simp [maybeRc]
  constructor
  · simp only [singleSet, hm]
    cases scaling <;> exact ⟨rfl, rfl, rfl, rfl, rfl⟩
  · simp only [subplotSet, hm]
    cases b with
    | none => cases scaling <;> exact ⟨rfl, rfl, rfl, rfl, rfl⟩
    | some w =>
      by_cases hw : w = 0
      · simp only [hw, if_true]; cases scaling <;> exact ⟨rfl, rfl, rfl, rfl, rfl⟩
      · simp only [hw, if_false]; cases scaling <;> exact ⟨rfl, rfl, rfl, rfl, rfl⟩

example : (singleSet exScale exRc none (some false) false none (some 3) exSet).labelFont = 14 ∧
    (singleSet exScale exRc none (some false) false none (some 3) exSet).scaling = false := by decide +kernel

/-- **C247**: the fonts of `rcParams` are used when asked for, for a single plot and for subplots of a given total width -/
theorem rc_used (scale : Str → Option ℚ) (rc : Rc) (s : Settings) (f : ℚ) (hrc : rc.font = .num f) (hf : f ≠ 0) (scaling : Option Bool)
    (a b c : Option ℚ) (w : ℚ) (hw : w ≠ 0) :
    let x := singleSet scale rc none scaling true a b s
    let y := subplotSet scale rc none scaling true a (some w) c s
    (x.fontsize = f ∧ x.legendFont = numerical scale f (some rc.legend) ∧ x.labelFont = numerical scale f (some rc.label) ∧
      x.axesFont = numerical scale f (some rc.tick)) ∧
    (y.fontsize = f ∧ y.legendFont = numerical scale f (some rc.legend) ∧ y.labelFont = numerical scale f (some rc.label) ∧
      y.axesFont = numerical scale f (some rc.tick)) := by
  have hm : ∀ z : Settings, maybeRc scale rc none true z = rcSizes scale rc z none none none := by intro z; simp [maybeRc]
  constructor
  · simp only [singleSet, hm]
    have := rc_own scale rc { setScaling scaling (setSize s (orQ b 6) none (some (orQ a (3 / 4)))) with figWidth := some (orQ b 6) } f hrc hf none none none
    exact ⟨this.1, this.2.1 rfl, this.2.2.1 rfl, this.2.2.2.1 rfl⟩
  · simp only [subplotSet, hw, if_false, hm]
    have := rc_own scale rc { setScaling scaling (setSize s (orQ a 2) none c) with figWidth := some w } f hrc hf none none none
    exact ⟨this.1, this.2.1 rfl, this.2.2.1 rfl, this.2.2.2.1 rfl⟩

example : (singleSet exScale exRc none none true none none exSet).labelFont = 12 := by decide +kernel

/-- **C247**: in the Planck style a single plot is 3.464 inches wide unless a width is given, sizes do not scale unless asked to, and the fonts are
those of `rcParams` -/
theorem planck_single (scale : Str → Option ℚ) (rc : Rc) (init : Settings) (h : Heap) (f : ℚ) (hrc : rc.font = .num f) (hf : f ≠ 0)
    (scaling : Option Bool) (ratio width : Option ℚ) :
    ∃ s, (planckSingle scale rc init h none scaling ratio width).1[(planckSingle scale rc init h none scaling ratio width).2]? = some s ∧
      (width = none → s.figWidth = some (3464 / 1000)) ∧ (∀ w, w ≠ 0 → width = some w → s.figWidth = some w) ∧
      s.scaling = scaling.getD false ∧ s.fontsize = f ∧ s.legendFont = numerical scale f (some rc.legend) := by
  refine ⟨_, new_read _ _ _, ?_, ?_, ?_, ?_, ?_⟩
  · intro e; subst e; simp [singleSet, maybeRc, rcSizes, orQ]
  · intro w hw e; subst e; simp [singleSet, maybeRc, rcSizes, orQ, hw]
  · simp [singleSet, maybeRc, rcSizes, setScaling]
  · exact (rc_used scale rc _ f hrc hf (some (scaling.getD false)) ratio (some (orQ width (3464 / 1000))) none 1 one_ne_zero).1.1
  · exact (rc_used scale rc _ f hrc hf (some (scaling.getD false)) ratio (some (orQ width (3464 / 1000))) none 1 one_ne_zero).1.2.1

example : ∃ s, (planckSingle exScale exRc exSet [] none none none none).1[0]? = some s ∧ s.figWidth = some (433 / 125) ∧ s.scaling = false :=
  ⟨_, rfl, by decide +kernel⟩

/-- **C247**: so it is for subplots in the Planck style, with or without a total width -/
theorem planck_subplot (scale : Str → Option ℚ) (rc : Rc) (init : Settings) (h : Heap) (f : ℚ) (hrc : rc.font = .num f) (hf : f ≠ 0)
    (scaling : Option Bool) (size width ratio : Option ℚ) :
    ∃ s, (planckSubplot scale rc init h none scaling size width ratio).1[(planckSubplot scale rc init h none scaling size width ratio).2]? = some s ∧
      s.scaling = scaling.getD false ∧ s.fontsize = f ∧ s.labelFont = numerical scale f (some rc.label) := by
  have d := rc_own scale rc init f hrc hf none none none
  refine ⟨_, new_read _ _ _, ?_⟩
  cases width with
  | none => exact ⟨by simp [subplotSet, setScaling], d.1, d.2.2.1 rfl⟩
  | some w =>
    by_cases hw : w = 0
    · refine ⟨by simp [subplotSet, setScaling, hw], ?_, ?_⟩
      · simp only [subplotSet, hw, if_true]; exact d.1
      · simp only [subplotSet, hw, if_true]; exact d.2.2.1 rfl
    · have := (rc_used scale rc (planckDefaults scale rc init) f hrc hf (some (scaling.getD false)) size none ratio w hw).2
      exact ⟨by simp [subplotSet, setScaling, hw, maybeRc, rcSizes], this.1, this.2.2.1⟩

example : ∃ s, (planckSubplot exScale exRc exSet [] none (some true) none none none).1[0]? = some s ∧ s.labelFont = 12 ∧ s.scaling = true :=
  ⟨_, rfl, by decide +kernel⟩

/-! ## What fails -/

/-- settings given by the caller keep their sizes when no size is given in the call -/
def GivenKept : Prop := ∀ (scale : Str → Option ℚ) (rc : Rc) (dflt s : Settings),
  (subplot scale rc dflt [s] (some 0) none false none none none).1 = [s] ∧
  ∀ w, s.figWidth = some w → ((single scale rc dflt [s] (some 0) none false none none).1[0]?.bind Settings.figWidth) = some w

/-- **C248 fails**: `get_subplot_plotter(settings=s)` sets the size of subplots in `s` to 2 inches and removes its ratio (plots.py:716-717 with
266-279), and `get_single_plotter(settings=s)` sets its total width to 6 inches (plots.py:701-706), whatever `s` says -/
theorem given_size_fails : ¬ GivenKept := by
  intro h
  have := (h exScale exRc exSet { exSet with subplotInch := 5 }).1
  revert this; decide +kernel

/-- **C248 fails**: `get_single_plotter(settings=s)` alone does so for the total width that `s` has (plots.py:701, 706) -/
theorem given_width_fails : ¬ ∀ (s : Settings) (w : ℚ), s.figWidth = some w →
    ((single exScale exRc exSet [s] (some 0) none false none none).1[0]?.bind Settings.figWidth) = some w := by
  intro h
  have := h { exSet with figWidth := some 4 } 4 rfl
  revert this; decide +kernel

/-- a plotter is not changed when another one is made -/
def Independent : Prop := ∀ (scale : Str → Option ℚ) (rc : Rc) (dflt : Settings) (h : Heap) (given : Option Nat) (scaling : Option Bool)
  (rcs : Bool) (size width ratio : Option ℚ) (first : Nat), first < h.length →
  (subplot scale rc dflt h given scaling rcs size width ratio).1[first]? = h[first]?

/-- **C248 fails**: settings given to two plotters are one object, so that making the second changes the sizes of the first (plots.py:687, 717) -/
theorem shared_fails : ¬ Independent := by
  intro h
  have := h exScale exRc exSet [exSet] (some 0) none false (some 4) none none 0 (by decide)
  revert this; decide +kernel

/-- `rc_sizes=True` uses the sizes of `rcParams` -/
def RcFollowed : Prop := ∀ (scale : Str → Option ℚ) (rc : Rc) (s : Settings) (f : ℚ), rc.font = .num f → f ≠ 0 →
  ∀ (size width ratio : Option ℚ), (subplotSet scale rc none none true size width ratio s).fontsize = f

/-- **C248 fails**: `get_subplot_plotter(rc_sizes=True)` does nothing unless a total width is given too (plots.py:720-723), though the
documentation says that it sets the sizes of fonts -/
theorem rc_sizes_fails : ¬ RcFollowed := by
  intro h
  have := h exScale exRc exSet 10 rfl (by norm_num) none none none
  revert this; decide +kernel

/-- **C248**, what holds: of settings given by the caller only the size of subplots, their ratio, the total width and `scaling` can change, the fonts
never do; and `rc_sizes` is followed when a width is given (`rc_used`).  Missing: the sizes that the caller set. -/
theorem given_partial (scale : Str → Option ℚ) (rc : Rc) (s : Settings) (i : Nat) (scaling : Option Bool) (rcs : Bool) (a b c : Option ℚ) :
    let x := singleSet scale rc (some i) scaling rcs a b s
    let y := subplotSet scale rc (some i) scaling rcs a b c s
    (x.fontsize = s.fontsize ∧ x.legendFont = s.legendFont ∧ x.labelFont = s.labelFont ∧ x.axesFont = s.axesFont) ∧
    (y.fontsize = s.fontsize ∧ y.legendFont = s.legendFont ∧ y.labelFont = s.labelFont ∧ y.axesFont = s.axesFont) := by
  have hm : ∀ z : Settings, maybeRc scale rc (some i) rcs z = z := by intro z; simp [maybeRc]
  constructor
  · simp only [singleSet, hm]
    cases scaling <;> exact ⟨rfl, rfl, rfl, rfl⟩
  · simp only [subplotSet, hm]
    cases b with
    | none => cases scaling <;> exact ⟨rfl, rfl, rfl, rfl⟩
    | some w =>
      by_cases hw : w = 0
      · simp only [hw, if_true]; cases scaling <;> exact ⟨rfl, rfl, rfl, rfl⟩
      · simp only [hw, if_false]; cases scaling <;> exact ⟨rfl, rfl, rfl, rfl⟩

example : (singleSet exScale exRc (some 0) none true none none exSet).fontsize = 12 := by decide +kernel

/-! ## What is added to a plot -/

theorem update_get (kwargs : Dict Str Val) (hk : (kwargs.map Prod.fst).Nodup) : ∀ (args : Dict Str Val) (k : Str),
    (update args kwargs).get? k = (match kwargs.get? k with | some v => some v | none => args.get? k) := by
  induction kwargs with
  | nil => intro args k; rfl
  | cons p l ih =>
    intro args k
    simp only [List.map_cons, List.nodup_cons] at hk
    have e : update args (p :: l) = update (args.set p.1 p.2) l := rfl
    rw [e, ih hk.2]
    have eg : Dict.get? (p :: l) k = if p.1 = k then some p.2 else Dict.get? l k := by
      exact Dict.get?_cons _ _ _ _
    rw [eg, Dict.get?_set]
    by_cases h : p.1 = k
    · subst h
      have : Dict.get? l p.1 = none := Dict.get?_eq_none.mpr hk.1
      simp [this]
    · have h' : ¬ k = p.1 := fun e => h e.symm
      simp [h, h']

/-- **C249**: arguments of the call win over the defaults; otherwise text in the right half ends at its place, text in the left half begins there,
and it has the size of the font -/
theorem text_args (fontsize x : ℚ) (kwargs : Dict Str Val) (hk : (kwargs.map Prod.fst).Nodup) :
    (∀ k v, kwargs.get? k = some v → (textArgs fontsize x kwargs).get? k = some v) ∧
    (kwargs.get? c!"horizontalalignment" = none → 1 / 2 < x → (textArgs fontsize x kwargs).get? c!"horizontalalignment" = some (.str c!"right")) ∧
    (kwargs.get? c!"horizontalalignment" = none → x ≤ 1 / 2 → (textArgs fontsize x kwargs).get? c!"horizontalalignment" = some (.str c!"left")) ∧
    (kwargs.get? c!"fontsize" = none → (textArgs fontsize x kwargs).get? c!"fontsize" = some (.num fontsize)) := by
  refine ⟨?_, ?_, ?_, ?_⟩
  · intro k v h
    rw [textArgs, update_get _ hk, h]
  · intro h hx
    rw [textArgs, update_get _ hk, h, if_pos hx]; rfl
  · intro h hx
    rw [textArgs, update_get _ hk, h, if_neg (not_lt.mpr hx)]; rfl
  · intro h
    rw [textArgs, update_get _ hk, h]; rfl

example : (textArgs 12 (95 / 100) [(c!"color", .str c!"red")]).get? c!"horizontalalignment" = some (.str c!"right") ∧
    (textArgs 12 (95 / 100) [(c!"fontsize", .num 8)]).get? c!"fontsize" = some (.num 8) := by decide +kernel

theorem update_nodup (kwargs : Dict Str Val) : ∀ args : Dict Str Val, (args.map Prod.fst).Nodup → ((update args kwargs).map Prod.fst).Nodup := by
  induction kwargs with
  | nil => intro args h; exact h
  | cons p l ih =>
    intro args h
    exact ih _ (Dict.WF_set _ _ h)

/-- **C249**: `add_text_left` begins the text at its place on either half, unless the call says otherwise; all else is as for `add_text` -/
theorem text_left (fontsize x : ℚ) (kwargs : Dict Str Val) (hk : (kwargs.map Prod.fst).Nodup) :
    (textLeftArgs fontsize x kwargs).get? c!"horizontalalignment" = some ((kwargs.get? c!"horizontalalignment").getD (.str c!"left")) ∧
    ∀ k, k ≠ c!"horizontalalignment" → (textLeftArgs fontsize x kwargs).get? k = (textArgs fontsize x kwargs).get? k := by
  have hn : ((update [(c!"horizontalalignment", Val.str c!"left")] kwargs).map Prod.fst).Nodup := update_nodup _ _ (by simp)
  constructor
  · rw [textLeftArgs, textArgs, update_get _ hn, update_get _ hk]
    cases h : Dict.get? kwargs c!"horizontalalignment" with
    | none => rfl
    | some v => rfl
  · intro k h1
    rw [textLeftArgs, textArgs, update_get _ hn, update_get _ hk, textArgs, update_get _ hk]
    cases h : Dict.get? kwargs k with
    | some v => rfl
    | none =>
      have : Dict.get? [(c!"horizontalalignment", Val.str c!"left")] k = none := by
        simp only [Dict.get?]
        rw [if_neg (fun e => h1 e.symm)]
      rw [this]

example : (textLeftArgs 12 (9 / 10) []).get? c!"horizontalalignment" = some (.str c!"left") := by decide +kernel

/-- **C249**: a marker has each of colour, style and width from the call if given there, also a width of zero, else from the settings -/
theorem marker_args (s : Marker) (color ls : Option Str) (lw : Option ℚ) :
    (∀ c, color = some c → (markerArgs s color ls lw).color = c) ∧ (color = none → (markerArgs s color ls lw).color = s.color) ∧
    (∀ l, ls = some l → (markerArgs s color ls lw).ls = l) ∧ (ls = none → (markerArgs s color ls lw).ls = s.ls) ∧
    (∀ w, lw = some w → (markerArgs s color ls lw).lw = w) ∧ (lw = none → (markerArgs s color ls lw).lw = s.lw) := by
  refine ⟨?_, ?_, ?_, ?_, ?_, ?_⟩ <;> (intros; subst_vars; rfl)

example : markerArgs ⟨c!"gray", c!"--", 1 / 2⟩ (some c!"k") none (some 0) = ⟨c!"k", c!"--", 0⟩ := rfl

/-- **C249**: the first contour and lines are opaque, filled contours after the first are transparent as the settings say, and an `alpha` given wins -/
theorem alpha_spec (filledAdd : Val) (args : Dict Str Val) (filled : Bool) (n : Nat) :
    (∀ v, args.get? c!"alpha" = some v → alpha2d filledAdd args filled n = v) ∧
    (args.get? c!"alpha" = none → alpha2d filledAdd args filled 0 = .num 1 ∧ alpha2d filledAdd args false n = .num 1 ∧
      alpha2d filledAdd args true (n + 1) = filledAdd) := by
  constructor
  · intro v h; rw [alpha2d, h]; rfl
  · intro h
    refine ⟨?_, ?_, ?_⟩ <;> (rw [alpha2d, h]; simp)

example : alpha2d (.num (17 / 20)) [(c!"color", .str c!"r")] true 1 = .num (17 / 20) := by decide +kernel

/-- **C249**: there is a figure legend exactly when labels are wanted and there is one; all labels are given to it, at the place asked for; there is no
other effect of the labels -/
theorem finish_legend {L : Type} (s : FinishSet) (labels : Option (List L)) (loc : Str) (noExtra noTight : Bool) :
    ((finishPlot s labels loc noExtra noTight).legend.isSome = true ↔ s.lineLabels = true ∧ ∃ l, labels = some l ∧ l ≠ []) ∧
    (∀ l place out, (finishPlot s labels loc noExtra noTight).legend = some (l, place, out) →
      labels = some l ∧ out = !noExtra ∧ (loc ≠ [] → place = loc) ∧ (loc = [] → place = s.legendLoc)) ∧
    (finishPlot s labels loc noExtra noTight).tight = (finishPlot (L := L) s none loc noExtra noTight).tight ∧
    (finishPlot s labels loc noExtra noTight).adjust = (finishPlot (L := L) s none loc noExtra noTight).adjust := by
  refine ⟨?_, ?_, rfl, rfl⟩
  · cases labels with
    | none => simp [finishPlot]
    | some l => cases l with
      | nil => simp [finishPlot]
      | cons a l => cases h : s.lineLabels <;> simp [finishPlot, h]
  · intro l place out h
    cases labels with
    | none => simp [finishPlot] at h
    | some l' => cases l' with
      | nil => simp [finishPlot] at h
      | cons a l' =>
        cases hl : s.lineLabels with
        | false => simp [finishPlot, hl] at h
        | true =>
          simp only [finishPlot, hl, if_true, Option.some.injEq, Prod.mk.injEq] at h
          obtain ⟨h1, h2, h3⟩ := h
          refine ⟨by rw [h1], h3.symm, ?_, ?_⟩
          · intro hne; rw [if_neg hne] at h2; exact h2.symm
          · intro he; rw [if_pos he] at h2; exact h2.symm

example : (finishPlot ⟨true, true, false, c!"upper center", false⟩ (some [c!"a", c!"b"]) [] false false).legend =
    some ([c!"a", c!"b"], c!"upper center", true) := rfl

/-- **C249**: subplots are moved neither by `tight_layout` nor by the spacing when matplotlib lays them out itself -/
theorem finish_constrained {L : Type} (s : FinishSet) (labels : Option (List L)) (loc : Str) (noExtra noTight : Bool) :
    (s.constrained = true → (finishPlot s labels loc noExtra noTight).tight = false ∧ (finishPlot s labels loc noExtra noTight).adjust = false) ∧
    (s.constrained = false → ((finishPlot s labels loc noExtra noTight).tight = true ↔ s.tightLayout = true ∧ noTight = false) ∧
      (finishPlot s labels loc noExtra noTight).adjust = s.shared) := by
  constructor
  · intro h; simp [finishPlot, h]
  · intro h; simp [finishPlot, h]

example : (finishPlot (L := Str) ⟨true, true, true, [], true⟩ none [] false false).tight = false := rfl

/-- **C249**: the label of a colour bar has the rotation given, if it is not zero, or that of the settings; it is aligned at the bottom exactly when it
reads downwards -/
theorem bar_label (setting : ℚ) (given : Option ℚ) :
    (∀ r, given = some r → r ≠ 0 → (barLabel setting given).1 = r) ∧ (given = none → (barLabel setting given).1 = setting) ∧
    ((barLabel setting given).2 = true ↔ -170 < (barLabel setting given).1 ∧ (barLabel setting given).1 < -10) := by
  refine ⟨?_, ?_, ?_⟩
  · intro r e h; subst e; simp [barLabel, orQ, h]
  · intro e; subst e; rfl
  · simp only [barLabel, decide_eq_true_eq]
    constructor
    · rintro ⟨_, h1, h2⟩; constructor <;> linarith
    · rintro ⟨h1, h2⟩
      refine ⟨?_, by linarith, by linarith⟩
      intro e; rw [e] at h2; norm_num at h2

example : barLabel (-90) (some 45) = (45, false) ∧ barLabel (-90) none = (-90, true) := by decide +kernel

/-- the rotation given is used -/
def RotationUsed : Prop := ∀ (setting r : ℚ), (barLabel setting (some r)).1 = r

/-- **C250 fails**: `add_colorbar_label(cb, param, label_rotation=0)` does not give a horizontal label, since zero counts as not given
(plots.py:2740); the default is -90 degrees -/
theorem rotation_zero_fails : ¬ RotationUsed := by
  intro h
  have := h (-90) 0
  revert this; decide +kernel

/-- larger tick labels have no smaller offset text -/
def OffsetMono : Prop := ∀ a b : ℚ, 0 < a → a ≤ b → offsetSize a ≤ offsetSize b

/-- **C250 fails**: the text of the offset or power of ten shrinks when the tick labels grow from 7 to 8 points (plots.py:1424) -/
theorem offset_fails : ¬ OffsetMono := by
  intro h
  have := h 7 8 (by norm_num) (by norm_num)
  revert this; decide +kernel

/-- contours of several roots have a legend, as in `plots_2d` -/
def Labelled3d : Prop := ∀ (usetex : Bool) (load : Str → PlotGrid.Samples) (roots : List PlotGrid.Root), 2 ≤ roots.length →
  (∀ r ∈ roots, r ≠ PlotGrid.Root.none) → (labels3d usetex load none roots).length = roots.length - 1

/-- **C250 fails**: with two roots `plots_3d` draws one contour and gives it no label (plots.py:2972 with 2029-2031) -/
theorem one_contour_fails : ¬ Labelled3d := by
  intro h
  have := h false (fun _ => {}) [.samples { label := some c!"a" }, .samples { label := some c!"b" }] (by decide) (by decide)
  revert this; decide +kernel

/-- the same samples have the same label in `plots_3d` as in `plots_2d` -/
def SameLabels : Prop := ∀ (usetex : Bool) (load : Str → PlotGrid.Samples) (roots : List PlotGrid.Root), 3 ≤ roots.length →
  labels3d usetex load none roots = (PlotGrid.legendLabels usetex load none roots).tail

/-- **C250 fails**: samples without label are numbered from the first contour on, so that the second samples are `samples0` in `plots_3d` and
`samples1` elsewhere (plots.py:2972 with 2018, 2032) -/
theorem numbers_3d_fails : ¬ SameLabels := by
  intro h
  have := h false (fun _ => {}) [.samples {}, .samples {}, .samples {}] (by decide)
  revert this; decide +kernel

theorem numbered_length (l : List PlotGrid.Root) (h : ∀ r ∈ l, r ≠ PlotGrid.Root.none) : (PlotGrid.numberedRoots l).length = l.length := by
  unfold PlotGrid.numberedRoots
  rw [List.filter_eq_self.mpr, List.length_zipIdx]
  intro p hp
  have := List.fst_mem_of_mem_zipIdx hp
  simpa using h _ this

/-- **C250**, what holds: labels that are given are used, and from three roots on there is one label for each contour.  Missing: a label for a single
contour, and the same numbers as elsewhere. -/
theorem labels_3d_partial (usetex : Bool) (load : Str → PlotGrid.Samples) (roots : List PlotGrid.Root) :
    (∀ g, labels3d usetex load (some g) roots = g) ∧
    (3 ≤ roots.length → (∀ r ∈ roots, r ≠ PlotGrid.Root.none) → (labels3d usetex load none roots).length = roots.length - 1) := by
  refine ⟨fun g => rfl, ?_⟩
  intro h hn
  have hl : ¬ roots.tail.length < 2 := by rw [List.length_tail]; omega
  simp only [labels3d, PlotGrid.legendLabels, hl, if_false, List.length_map]
  rw [numbered_length _ (fun r hr => hn r (List.mem_of_mem_tail hr)), List.length_tail]

example : labels3d false (fun _ => {}) none [.samples {}, .samples { label := some c!"b" }, .samples { label := some c!"c" }] =
    [.text c!"b", .text c!"c"] := by decide +kernel

end Verif.PlotMake
