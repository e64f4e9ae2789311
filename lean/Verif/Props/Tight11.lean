import Verif.Props.Scripts
import Verif.Props.StatCache

/-!
# Further theorems that pin definitions (eleventh set)
-/

namespace Verif.Scripts
open Verif.Py

/-- an item is compared when its data are asked for (or no data are named) and, with `single_extparam`, it has exactly one extra parameter and that one is asked for -/
theorem wanted_spec (a : CArgs) (j : Batch.Info) : wanted a j = true ↔
    (∀ l, a.compare = some l → j.matchesDatatag (l.map Batch.normalizeDataTag) = true) ∧
    (a.single = true → ∃ p, j.params = [p] ∧ p ∈ a.chainNameParams.getD a.params) := by
  have h2 : (!a.single || (j.params.length == 1 && j.hasParam (a.chainNameParams.getD a.params))) = true ↔
      (a.single = true → ∃ p, j.params = [p] ∧ p ∈ a.chainNameParams.getD a.params) := by
    cases a.single with
    | false => simp
    | true =>
      simp only [Bool.not_true, Bool.false_or, Bool.and_eq_true, beq_iff_eq, forall_const, Batch.Info.hasParam, List.any_eq_true, List.contains_iff_mem]
      constructor
      · rintro ⟨h, p, hp, hj⟩
        match hq : j.params, h with
        | [q], _ =>
          rw [hq] at hj
          rw [List.mem_singleton] at hj
          exact ⟨q, rfl, hj ▸ hp⟩
      · rintro ⟨p, hp, hm⟩
        rw [hp]
        exact ⟨rfl, p, hm, List.mem_singleton.mpr rfl⟩
  unfold wanted CArgs.tags
  rw [Bool.and_eq_true, h2]
  cases a.compare with
  | none => simp
  | some l => simp

/-- the file read has the ending as part of its name; a name that has it is used as it is, another one gets it appended -/
theorem margeFile_spec (root : Str) : (contains c!".margestats" root = true → margeFile root = root) ∧
    (contains c!".margestats" root = false → margeFile root = root ++ c!".margestats") := by
  unfold margeFile
  exact ⟨fun h => if_pos h, fun h => if_neg (by rw [h]; exact Bool.false_ne_true)⟩

example : margeFile c!"chains/z" = c!"chains/z.margestats" ∧ margeFile c!"a.margestats" = c!"a.margestats" := by decide

end Verif.Scripts

namespace Verif.StatCache
open Verif.Py
variable {D G M C L P X : Type}

/-- new samples satisfy the invariant whatever the library computes: nothing is stored, and the object is marked so that everything is computed at the first use -/
theorem new_inv (lib : Lib D G M C L P X) (d : D) (r : Ranges) (g : G) (names : List (Str × Bool)) :
    Inv lib { data := d, ranges := r, cfg := g, names := names } ∧
    ({ data := d, ranges := r, cfg := g, names := names } : St D G M C L P X).done1D = false :=
  ⟨⟨⟨fun _ h => (by cases h), fun _ h => (by cases h), fun _ h => (by cases h)⟩, fun h => (by cases h)⟩, rfl⟩

end Verif.StatCache
