import Verif.Props.SinglesSplit

/-!
# Further theorems added after changed models went unnoticed
-/

namespace Verif.Singles
open Verif.Py Verif.Py.Np

variable {K : Type} [Field K] [LinearOrder K]

/-- **C128** A thinning factor of zero is the same as none. -/
theorem thin_zero (rand weights : List K) : randomSingle rand weights (some 0) none = randomSingle rand weights none none := by
  unfold randomSingle thinOf
  simp

/-- **C128** A thinning factor of one is the same as none. -/
theorem thin_unit (rand weights : List K) : randomSingle rand weights (some 1) none = randomSingle rand weights none none := by
  unfold randomSingle thinOf
  simp

example : randomSingle [1 / 2, 1 / 3, 9 / 10] [1, 2, 1 / 2] (some (0 : ℚ)) none = .ok [0, 1] ∧
    randomSingle [1 / 2, 1 / 3, 9 / 10] [1, 2, 1 / 2] (some (1 : ℚ)) none = .ok [0, 1] ∧
    randomSingle [1 / 2, 1 / 3, 9 / 10] [1, 2, 1 / 2] (some (2 : ℚ)) none = .ok [1] := by decide +kernel

/-- **C132** Asked for no plots, or with less than two parameters, the list is empty whether or not the correlations are known. -/
theorem pairs_none (corr : Option (Nat → Nat → K)) (nd m : Nat) (h : m = 0 ∨ nd < 2) : correlatedPairs corr nd m none = .ok [] := by
  have hp : nd < 2 → pairs nd = [] := by
    intro h
    have : nd = 0 ∨ nd = 1 := by omega
    rcases this with rfl | rfl <;> decide
  unfold correlatedPairs
  cases corr with
  | none =>
    simp only
    rw [if_pos (h.imp id hp)]
  | some c =>
    simp only
    rcases h with rfl | h
    · rfl
    · cases m with
      | zero => rfl
      | succ m => simp [corrLoop, hp h]

example : correlatedPairs (some (fun _ _ => (1 / 2 : ℚ))) 3 0 none = .ok [] ∧ correlatedPairs (none : Option (Nat → Nat → ℚ)) 1 5 none = .ok [] := by
  decide +kernel

section text
variable [FloorRing K]

/-- **C128** What the cooled file says of a row: the weight is the likelihood relative to the worst one to the power temperature minus one, and the
logarithm of the likelihood is multiplied by the temperature. -/
theorem cooled_row (exp : K → K) (fmt6 : K → Str) (cool : K) (h : cool ≠ 1) (l b : K) (hb : l ≤ b) (x : List K) :
    writeThin exp fmt6 cool [l, b] [x] [0] = .ok (field (exp ((l - b) * (1 - cool))) ++ field (cool * l) ++ x.flatMap field) := by
  have e : -(cool * l - l) - b * (1 - cool) = (l - b) * (1 - cool) := by ring
  have e2 : l * cool = cool * l := mul_comm _ _
  simp only [writeThin, max?, thinRow, coolWeight, List.foldl_cons, List.foldl_nil, max_eq_right hb, bind, Except.bind, pure, Except.pure, List.zipIdx_cons, List.zipIdx_nil,
    List.mapM_cons, List.mapM_nil, List.getElem?_cons_zero, e, e2, ne_eq, h, not_false_eq_true, if_true, List.flatten_cons, List.flatten_nil, List.append_nil, List.append_assoc]

end text
end Verif.Singles
