import Verif.Props.SaveChains
import Verif.Props.LikeTable

/-!
# Further statements found by testing with wrong programs
-/

namespace Verif.SaveChains
open Verif.Py Verif.Py.Np Verif.Thin Verif.Samples Verif.Chains Verif.ChainFiles

/-- **C237** A table is written only if weights and likelihoods are as many as the rows; anything else is refused. -/
theorem tableOf_needs {K : Type} [Field K] [LinearOrder K] [FloorRing K] (rnd : K → K) (s : WS K) (w ll : List K) (a : Arr2 K) (hw : s.weights = some w)
    (ha : s.samples = some a) (hl : s.loglikes = some ll) :
    (∃ t, tableOf rnd s = .ok t) ↔ w.length = a.rows.length ∧ ll.length = a.rows.length := by
  unfold tableOf
  rw [hw, ha, hl]
  dsimp only [Option.getD]
  split
  · rename_i h; exact ⟨fun _ => h, fun _ => ⟨_, rfl⟩⟩
  · rename_i h; exact ⟨fun ⟨t, e⟩ => (by cases e), fun h' => absurd h' h⟩

example : tableOf id ({ weights := some [1, 2], loglikes := some [3, 4], samples := some ⟨1, [[6], [7]]⟩, n := 1, numrows := 2 } : WS ℚ) =
      .ok ⟨3, [[1, 3, 6], [2, 4, 7]]⟩ ∧
    tableOf id ({ weights := some [1, 2], loglikes := some [3], samples := some ⟨1, [[6], [7]]⟩, n := 1, numrows := 2 } : WS ℚ) =
      .error .valueError := by decide +kernel

end Verif.SaveChains

namespace Verif.LikeTable
open Verif.Py Verif.MargeStats Verif.BestFit

theorem drop_split (a : Str) (n : Nat) : ∀ (p : Str), p.isPrefixOf (a.drop n) = true → ∃ rest, a.drop n = p ++ rest := by
  intro p h
  obtain ⟨r, e⟩ := List.isPrefixOf_iff_prefix.mp h
  exact ⟨r, e.symm⟩

/-- **C273** The header begins with the word parameter; above the `j`-th number stands its title, two characters from the left. -/
theorem header_spec {w : Nat} (h : 10 ≤ w) :
    (∃ rest, header w = c!"parameter " ++ rest) ∧
    ∀ (j : Nat) t, [c!"bestfit", c!"lower1", c!"upper1", c!"lower2", c!"upper2"][j]? = some t →
      ∃ rest, (header w).drop (w + 15 * j) = c!"  " ++ t ++ rest := by
  have hl : (ljust w c!"parameter").length = w := by
    unfold ljust
    rw [List.length_append, List.length_replicate, show (c!"parameter").length = 9 from rfl]
    omega
  constructor
  · obtain ⟨k, rfl⟩ : ∃ k, w = k + 1 + 9 := ⟨w - 10, by omega⟩
    refine ⟨List.replicate k ' ' ++ c!"  bestfit        lower1         upper1         lower2         upper2\n", ?_⟩
    unfold header ljust
    rw [show k + 1 + 9 - (c!"parameter").length = k + 1 from rfl, List.replicate_succ]
    rfl
  · intro j t hj
    have hd : (header w).drop (w + 15 * j) =
        (c!"  bestfit        lower1         upper1         lower2         upper2\n").drop (15 * j) := by
      unfold header
      rw [List.drop_append, hl, List.drop_eq_nil_of_le (by omega), Nat.add_sub_cancel_left, List.nil_append]
    rw [hd]
    match j, hj with
    | 0, hj => injection hj with hj; subst hj; exact drop_split _ _ _ (by decide)
    | 1, hj => injection hj with hj; subst hj; exact drop_split _ _ _ (by decide)
    | 2, hj => injection hj with hj; subst hj; exact drop_split _ _ _ (by decide)
    | 3, hj => injection hj with hj; subst hj; exact drop_split _ _ _ (by decide)
    | 4, hj => injection hj with hj; subst hj; exact drop_split _ _ _ (by decide)
    | j + 5, hj => simp at hj

example : header 10 = c!"parameter   bestfit        lower1         upper1         lower2         upper2\n" := by decide

end Verif.LikeTable
