import Verif.Props.SampleDict

/-!
# Further theorems that pin definitions (eighth set)
-/

namespace Verif.SampleDict
open Verif.Py

/-- **C182** The properties file is written exactly if there is something to write. -/
theorem saveProps_written (old : Option Props) (own : Props) (label : Option Str) (given : Option Props) :
    (saveProps old own label given).isSome = true ↔ (∃ g, given = some g ∧ g ≠ []) ∨ own ≠ [] ∨ (∃ l, label = some l ∧ l ≠ []) := by
  have e : ∀ {α : Type} (o : Option (List α)), o.getD [] ≠ [] ↔ ∃ g, o = some g ∧ g ≠ [] := by
    intro α o
    cases o with
    | none => simp
    | some g => simp
  unfold saveProps
  by_cases h : (given.getD []) ≠ [] ∨ own ≠ [] ∨ (label.getD []) ≠ []
  · rw [if_pos h]
    rw [e, e] at h
    exact ⟨fun _ => h, fun _ => rfl⟩
  · rw [if_neg h]
    rw [e, e] at h
    exact ⟨fun x => (by cases x), fun x => absurd x h⟩

example : saveProps none [] (some c!"my chain") none = some [(c!"label", c!"my chain")] := rfl

end Verif.SampleDict
