import Verif.Props.PlotLinks
import Verif.Props.PlotGrid
import Verif.Props.ParamNames
import Verif.Props.GaussMixMore

/-!
# Further theorems that pin definitions (tenth set)
-/

namespace Verif.PlotLinks

/-- sharing a range goes both ways -/
theorem shares_symm (m : Mode) (p q : Port) : shares m p q = shares m q p := by
  obtain ⟨p, a⟩ := p
  obtain ⟨q, b⟩ := q
  cases p <;> cases q <;> cases a <;> cases b <;> simp only [shares, Bool.beq_comm]
  rename_i c r c' r'
  rw [Bool.eq_iff_iff]
  simp only [Bool.or_eq_true, Bool.and_eq_true, beq_iff_eq, bne_iff_ne, ne_eq]
  constructor
  · rintro (⟨h1, h2⟩ | ⟨⟨⟨h1, h2⟩, h3⟩, h4⟩)
    · exact Or.inl ⟨h1, h2⟩
    · exact Or.inr ⟨⟨⟨h1, h3⟩, h2⟩, h1 ▸ h4⟩
  · rintro (⟨h1, h2⟩ | ⟨⟨⟨h1, h2⟩, h3⟩, h4⟩)
    · exact Or.inl ⟨h1, h2⟩
    · exact Or.inr ⟨⟨⟨h1, h3⟩, h2⟩, h1 ▸ h4⟩

end Verif.PlotLinks

namespace Verif.PlotGrid
open Verif.Py Verif.ParamNames

/-- one colour gives as many as there are levels: itself innermost, each next outwards one step paler -/
theorem contourColors_one (pale : Str → Nat → Str) (n : Nat) (hn : 0 < n) (s : Str) :
    (contourColors pale n (.one s)).length = n ∧ (contourColors pale n (.one s)).getLast? = some s ∧
    ∀ k, 0 < k → k < n → (contourColors pale n (.one s))[n - 1 - k]? = some (pale s k) := by
  unfold contourColors
  dsimp only
  refine ⟨by rw [List.length_append, List.length_map, List.length_range]; simp; omega, by simp, ?_⟩
  intro k h0 hk
  rw [List.getElem?_append_left (by rw [List.length_map, List.length_range]; omega), List.getElem?_map, List.getElem?_range (by omega)]
  have : n - 1 - (n - 1 - k) = k := by omega
  simp [this]

example : contourColors (fun s k => s ++ strNat k) 3 (.one c!"c") = [c!"c2", c!"c1", c!"c"] := by decide

/-- a group without roots and no root are numbered samples -/
theorem displayName_empty (usetex : Bool) (load : Str → Samples) (i : Nat) : displayName usetex load (.group []) i = .text (c!"samples" ++ strNat i) ∧
    displayName usetex load .none i = .text (c!"samples" ++ strNat i) := ⟨rfl, rfl⟩

/-- samples without a label and name are numbered -/
theorem samplesName_default (usetex : Bool) (i : Nat) : samplesName usetex {} i = c!"samples" ++ strNat i := by
  cases usetex <;> rfl

/-- a number of columns that is given is used; else few parameters are put in one row if the axes are to be shared or not to be -/
theorem shareAndCols_spec (b : Bool) (shareY : Option Bool) (pl : Bool) (n c : Nat) : (shareAndCols shareY pl n (some c)).2 = some c ∧
    (shareAndCols (some b) pl n none = (b, if n < 6 then some n else none)) := by
  refine ⟨?_, ?_⟩
  · cases shareY <;> simp [shareAndCols]
  · simp [shareAndCols]

/-- a name that no parameter has is an error -/
theorem checkParam_unknown (ps : List Info) (s : Str) (r : Renames) : (∃ e, checkParam ps (.str s) r = .error e) ↔ ∀ p ∈ ps, ¬ ∃ n, Means r s n ∧ KnownAs r p n := by
  have h := (parWithName_none ps s r).2
  rw [← h]
  unfold checkParam
  dsimp only
  cases e : parWithNameE ps s true r with
  | ok a => exact ⟨fun ⟨_, h⟩ => (by cases h), fun ⟨_, h⟩ => (by cases h)⟩
  | error x => exact ⟨fun _ => ⟨x, rfl⟩, fun _ => ⟨_, rfl⟩⟩

/-- without renames that are given those of the parameters are used; a class of names of which all are keys of what is given is left out (`keep_names_1st` is not set) -/
theorem useRenames_drops (l : List P) : useRenames pickHead l [] = ownRenames l ∧
    useRenames pickHead [] [(c!"a", [c!"b"]), (c!"b", [c!"a"])] = [] := by
  refine ⟨rfl, by decide⟩

end Verif.PlotGrid

namespace Verif.GaussMix
open Verif.Py

/-- `getLower` gives the upper limit for every mixture and name -/
theorem getLower_upper {d : Nat} (M : Mix d) (name : Str) : getLower M name = getUpper M name := rfl

/-- limits that are given come before those of the mixture; without any, or where a list is too short, nothing is limited -/
theorem limOf_spec {d : Nat} (M : Mix d) (l : List Lim) (i : Fin d) :
    (∀ lim, l[i.val]? = some lim → limOf M (some l) i = lim) ∧ (l[i.val]? = none → limOf M (some l) i = (none, none)) ∧
    (M.lims = none → limOf M none i = (none, none)) ∧ (M.lims = some l → limOf M none i = limOf M (some l) i) := by
  unfold limOf
  refine ⟨?_, ?_, ?_, ?_⟩
  · intro lim h; simp [List.getD_eq_getElem?_getD, h]
  · intro h; simp [List.getD_eq_getElem?_getD, h]
  · intro h; simp [h]
  · intro h; simp [h]

end Verif.GaussMix
