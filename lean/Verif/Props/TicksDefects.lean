import Verif.Props.TicksAll
import Verif.Model.NumFmt

/-!
# Axis ticks: what goes wrong (C156)
-/

namespace Verif.Ticks
open Verif.Py

/-- the power of ten below a number -/
def exMag (x : ℚ) : ℚ := if 100 ≤ x then 100 else if 10 ≤ x then 10 else if 1 ≤ x then 1 else if 1 / 10 ≤ x then 1 / 10 else if 1 / 100 ≤ x then 1 / 100 else 1 / 1000

/-- the decimals of a number -/
def exDec (x : ℚ) : Nat := ((List.range 5).find? fun d => (x * 10 ^ d).isInt).getD 5

/-- the default locator on an axis with upright labels, fonts of the size `s` of the axis; labels have as many decimals as needed -/
def exLoc (s : ℚ) (prune : Bool) : Loc ℚ where
  prune := prune
  nbins := none
  groups := [[1, 2, 5, 10], [5 / 2, 3, 4, 6, 8], [3 / 2, 7, 9]]
  scaleRange := fun a b n => (exMag (|b - a| / n), 0)
  magnitude := exMag
  fmt := fun l x => NumFmt.fmtF ((l.map exDec).foldl max 0) x
  scalar := true
  sizeRatio := s
  cosRot := 1

/-- an axis from zero to one -/
example : tickValues (exLoc (1 / 20) true) 4 0 1 = some [1 / 5, 2 / 5, 3 / 5, 4 / 5] := by decide +kernel

/-- without pruning -/
example : tickValues (exLoc (1 / 20) false) 4 (-3) 7 = some [-2, 0, 2, 4, 6] := by decide +kernel

/-- ticks at odd places -/
example : tickValues (exLoc (1 / 5) true) 4 0 1 = some [3 / 10, 7 / 10] := by decide +kernel

/-- only a single label fits -/
example : tickValues (exLoc (3 / 10) true) 4 0 1 = some [1 / 2] := by decide +kernel

/-- `_ge` and `_le` of a number just beside a whole number of steps -/
example : geN (6 + 1 / 10 ^ 11 : ℚ) 0 2 = 3 ∧ leN (6 - 1 / 10 ^ 11 : ℚ) 0 2 = 3 ∧ geN (61 / 10 : ℚ) 0 2 = 4 ∧ leN (59 / 10 : ℚ) 0 2 = 2 := by decide +kernel

/-- **C156** Without pruning, ticks are moved to round numbers without looking at the ends of the axis: on an axis from one to five one of the two ticks is at zero. -/
theorem shift_fails : tickValues (exLoc (7 / 20) false) 4 1 5 = some [0, 4] := by decide +kernel

/-- **C156** Ticks that include a round number are moved all the same, if there is another round number near: 20, 28, 36 become 22, 30, 38.  Shifts add up: 19, 27, 35 are moved by
one to reach 20, and by another two to reach 30. -/
theorem shift_adds_fails : nice (1 : ℚ) [20, 28, 36] = true ∧ valid (exLoc (1 / 100) true) (0, 100) [20, 28, 36] = true ∧
    shiftLoop (exLoc (1 / 100) true) (0, 100) 1 8 [0, -1, 1, -2, 2] [20, 28, 36] = [22, 30, 38] ∧
    shiftLoop (exLoc (1 / 100) true) (0, 100) 1 8 [0, -1, 1, -2, 2] [19, 27, 35] = [22, 30, 38] := by decide +kernel

/-- **C156** If nothing fits, two ticks that do not fit are returned: on an axis from minus one to minus nine tenths, labels overlap the ends of the axis. -/
theorem last_resort_fails : tickValues (exLoc (3 / 20) true) 4 (-1) (-9 / 10) = some [-49 / 50, -23 / 25] ∧
    valid (exLoc (3 / 20) true) (-1, -9 / 10) [-49 / 50, -23 / 25] = false := by decide +kernel

variable {K : Type} [Field K] [LinearOrder K] [IsStrictOrderedRing K] [FloorRing K]

/-- **C156** Ticks with a zero among them are not preferred: the code looks for zero among the steps, where it never is. -/
theorem zero_bonus_fails (g : List K) (scale : K) (hs : 0 < scale) (hg : ∀ y ∈ g, 0 < y) : (0 : K) ∉ (staircase g g).map (· * scale) := by
  intro h
  rw [List.mem_map] at h
  obtain ⟨y, hy, he⟩ := h
  have : 0 < y := by
    unfold staircase at hy
    split at hy
    all_goals
      simp only [List.mem_append, List.mem_map] at hy
      rcases hy with (⟨z, hz, rfl⟩ | hz) | ⟨z, hz, rfl⟩
    · have := hg z (List.mem_of_mem_dropLast hz); linarith
    · exact hg y hz
    · have := hg z (List.mem_of_mem_tail hz); linarith
    · have := hg z hz; linarith
    · exact hg y hz
    · have := hg z hz; linarith
  exact absurd he (mul_pos this hs).ne'

end Verif.Ticks
