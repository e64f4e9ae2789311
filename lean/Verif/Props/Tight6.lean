import Verif.Props.PlotLayout
import Verif.Props.PlotArgs

/-!
# Theorems added after changed models went unnoticed: plots
-/

namespace Verif.PlotLayout
open Verif.Py

/-- Axes are found in any order of the parameters exactly if there are axes with the same set of parameters. -/
theorem unordered_found (f : Fig) (pars : List Str) : (axesForParams f false pars).isSome = true ↔
    ∃ i ∈ flatTable f, ∃ a p, f.axes[i]? = some a ∧ a.params = some p ∧ ∀ x, x ∈ p ↔ x ∈ pars := by
  unfold axesForParams
  rw [List.find?_isSome]
  refine exists_congr fun i => and_congr_right fun _ => ?_
  unfold matchesAx
  cases h : f.axes[i]? with
  | none => simp
  | some a =>
    dsimp only
    cases hp : a.params with
    | none => simp [hp]
    | some p =>
      simp only [sameParams, Bool.false_eq_true, if_false, Bool.and_eq_true, List.all_eq_true, List.contains_iff_mem, Option.some.injEq]
      constructor
      · rintro ⟨h1, h2⟩
        exact ⟨a, p, rfl, hp, fun x => ⟨h1 x, h2 x⟩⟩
      · rintro ⟨_, _, rfl, h2, h3⟩
        obtain rfl := Option.some.inj (hp.symm.trans h2)
        exact ⟨fun x hx => (h3 x).1 hx, fun x hx => (h3 x).2 hx⟩

example : (axesForParams { col := 1, row := 1, axes := [⟨some [c!"a", c!"b"], none⟩], table := [((0, 0), 0)] } false [c!"b", c!"a"]) = some 0 := by decide

end Verif.PlotLayout

namespace Verif.PlotArgs
open Verif.Py

/-- a colour given by numbers or by its name has a solid line -/
theorem defaultLs_solid (c : Cfg) (n : Nat) (r : Str) (h : c.styles[n]? = some (.rgb r) ∨ c.styles[n]? = some (.str r) ∧ c.isColor r = true) :
    defaultLs c n = .ok (c!"-", r) := by
  unfold defaultLs
  rcases h with h | ⟨h, hc⟩
  · rw [h]
  · rw [h]
    dsimp only
    rw [if_pos hc]

/-- the centre is no place outside of the plots: below them, in the middle -/
theorem outsideLoc_centre : outsideLoc c!"center" = .ok c!"lower center" := by decide

/-- an empty tuple for no roots is the only tuple accepted -/
theorem makeLineArgs_tuple (n : Nat) (l : List Args) (o : Over) : (∃ r, makeLineArgs n (.tuple l) o = .ok r) ↔ l = [] ∧ n = 0 := by
  unfold makeLineArgs
  dsimp only
  by_cases h : l = [] ∧ n = 0
  · rw [if_pos h]; simp [h]
  · rw [if_neg h]; simp [h]

section
variable {L : Type}

/-- **The line of a label that was not drawn**: in a legend of the figure the style of its number; in a legend of axes the line of that number there, else the style. -/
theorem legend_missing (added : Dict Nat L) (axLines : List L) (figure : Bool) (style : Nat → L) (offset n i : Nat) (hi : i < n) (h : added.get? i = none) :
    (legendLines added axLines figure style offset n)[i]? = some (if figure = true ∨ axLines.length ≤ i then style (i + offset) else (axLines[i]?).getD (style 0)) := by
  have h0 : (legendLines added axLines figure style offset n)[i]? = some (legendLine added axLines figure style offset i) := by
    simp [legendLines, hi]
  rw [h0]
  congr 1
  unfold legendLine
  rw [h]
  dsimp only
  cases figure with
  | true => simp
  | false =>
    by_cases hl : axLines.length ≤ i
    · rw [if_neg (by simp), if_pos (Or.inr hl), List.getElem?_eq_none hl]
    · rw [if_neg (by simp), if_neg (by simp [hl]), List.getElem?_eq_getElem (by omega)]
      rfl

example : legendLines [(0, 'a')] ['b', 'c'] false (fun n => if n = 5 then 'd' else 'e') 3 3 = ['a', 'c', 'd'] := by decide

end

section
variable {K : Type} [Field K] [LinearOrder K]

/-- With direct scaling the size of a font has the same ratio to that of the axes everywhere below the largest size. -/
theorem fontsize_direct (s : Scale K) (hs : s.scaling = true) (hd : s.direct = true) (hr : s.ref ≠ 0) (ax var : K)
    (hm : ∀ m, s.maxSize = some m → m ≠ 0 ∧ ax < m) : scaledFontsize s ax var * s.ref = var * ax := by
  unfold scaledFontsize
  rw [hs, hd]
  cases h : s.maxSize with
  | none => simp [hr]
  | some m => simp [hm m h, hr]

/-- Otherwise, without a largest size, the difference of the sizes of fonts is proportional to that of the axes, and no font is smaller than 5. -/
theorem fontsize_linear (s : Scale K) (hs : s.scaling = true) (hd : s.direct = false) (hm : s.maxSize = none) (ax var : K) :
    5 ≤ scaledFontsize s ax var ∧ (5 < scaledFontsize s ax var → scaledFontsize s ax var - var = s.factor * (ax - s.ref)) ∧
    (scaledFontsize s ax var = 5 → var + s.factor * (ax - s.ref) ≤ 5) := by
  have h : scaledFontsize s ax var = max 5 (var + s.factor * (ax - s.ref)) := by
    unfold scaledFontsize
    rw [hs, hd, hm]
    rfl
  rw [h]
  refine ⟨le_max_left _ _, fun h5 => ?_, fun h5 => ?_⟩
  · rw [max_eq_right (le_of_lt ((lt_max_iff.mp h5).resolve_left (lt_irrefl _)))]
    ring
  · exact (le_max_right _ _).trans h5.le

end

example : scaledFontsize ({ dflt with direct := true, maxSize := none } : Scale ℚ) 7 10 * dflt.ref = 70 := by decide +kernel

end Verif.PlotArgs
