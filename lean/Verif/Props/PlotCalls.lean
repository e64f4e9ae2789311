import Verif.Model.PlotCalls
import Verif.Props.PlotLayout
import Mathlib.Tactic.NormNum
import Mathlib.Tactic.Ring
import Mathlib.Tactic.Linarith
import Mathlib.Tactic.FieldSimp

/-!
# C229, C230: single two-dimensional plots
-/

namespace Verif.PlotCalls
set_option linter.unusedSectionVars false
open Verif.Py Verif.PlotLayout

/-! ## Axes -/

section
variable {K : Type}

theorem setX_fields (params : List Str) (a : AxArgs K) (ax : Ax K) : (setX params a ax).lims = ax.lims ∧ (setX params a ax).ylabel = ax.ylabel ∧ (setX params a ax).ynumbers = ax.ynumbers ∧
    (setX params a ax).text = ax.text ∧ (setX params a ax).xlabel = (if a.doX = true ∧ 0 < params.length then params[0]? else ax.xlabel) ∧
    (setX params a ax).xnumbers = (ax.xnumbers && !(a.noNumbers && !(a.doX && decide (0 < params.length)))) := by
  obtain ⟨l, dx, dy, nn, cl⟩ := a
  by_cases hp : 0 < params.length <;> cases dx <;> cases nn <;> simp [setX, hp]

theorem setY_fields (params : List Str) (a : AxArgs K) (ax : Ax K) : (setY params a ax).lims = ax.lims ∧ (setY params a ax).xlabel = ax.xlabel ∧ (setY params a ax).xnumbers = ax.xnumbers ∧
    (setY params a ax).text = ax.text ∧ (setY params a ax).ylabel = (if a.doY = true ∧ 1 < params.length then params[1]? else ax.ylabel) ∧
    (setY params a ax).ynumbers = (ax.ynumbers && !(a.noNumbers && !a.doY && decide (1 < params.length))) := by
  obtain ⟨l, dx, dy, nn, cl⟩ := a
  by_cases hp : 1 < params.length <;> cases dy <;> cases nn <;> simp [setY, hp]

/-- everything that `set_axes` changes -/
theorem setAxes_fields (params : List Str) (a : AxArgs K) (ax : Ax K) :
    (setAxes params a ax).lims = (match a.lims with | some l => some l | none => ax.lims) ∧
    (setAxes params a ax).xlabel = (if a.doX = true ∧ 0 < params.length then params[0]? else ax.xlabel) ∧
    (setAxes params a ax).ylabel = (if a.doY = true ∧ 1 < params.length then params[1]? else ax.ylabel) ∧
    (setAxes params a ax).xnumbers = (ax.xnumbers && !(a.noNumbers && !(a.doX && decide (0 < params.length)))) ∧
    (setAxes params a ax).ynumbers = (ax.ynumbers && !(a.noNumbers && !a.doY && decide (1 < params.length))) ∧
    (setAxes params a ax).text = (if a.colorLabel = true ∧ 2 < params.length then params[2]? else ax.text) := by
  unfold setAxes
  dsimp only
  generalize hax : setLims a ax = ax1
  have h1 : ax1.lims = (match a.lims with | some l => some l | none => ax.lims) ∧ ax1.xlabel = ax.xlabel ∧ ax1.ylabel = ax.ylabel ∧ ax1.xnumbers = ax.xnumbers ∧
      ax1.ynumbers = ax.ynumbers ∧ ax1.text = ax.text := by
    subst hax
    unfold setLims
    cases a.lims <;> exact ⟨rfl, rfl, rfl, rfl, rfl, rfl⟩
  obtain ⟨e1, e2, e3, e4, e5, e6⟩ := h1
  obtain ⟨x1, x2, x3, x4, x5, x6⟩ := setX_fields params a ax1
  obtain ⟨y1, y2, y3, y4, y5, y6⟩ := setY_fields params a (setX params a ax1)
  split
  · refine ⟨?_, ?_, ?_, ?_, ?_, rfl⟩
    · dsimp only; rw [y1, x1, e1]
    · dsimp only; rw [y2, x5, e2]
    · dsimp only; rw [y5, x2, e3]
    · dsimp only; rw [y3, x6, e4]
    · dsimp only; rw [y6, x3, e5]
  · refine ⟨?_, ?_, ?_, ?_, ?_, ?_⟩
    · rw [y1, x1, e1]
    · rw [y2, x5, e2]
    · rw [y5, x2, e3]
    · rw [y3, x6, e4]
    · rw [y6, x3, e5]
    · rw [y4, x4, e6]

example : setAxes (K := ℚ) [c!"a", c!"b", c!"c"] { lims := some [some 1, none], doY := false, noNumbers := true, colorLabel := true } ⟨none, none, some c!"old", true, true, none⟩ =
    ⟨some [some 1, none], some c!"a", some c!"old", true, false, some c!"c"⟩ := by decide

/-- **C229**: an axis with a label that is set keeps its numbers; numbers are hidden only on request; what is not asked for stays -/
theorem setAxes_numbers (params : List Str) (a : AxArgs K) (ax : Ax K) :
    (a.noNumbers = false → (setAxes params a ax).xnumbers = ax.xnumbers ∧ (setAxes params a ax).ynumbers = ax.ynumbers) ∧
    (a.doX = true → params ≠ [] → (setAxes params a ax).xnumbers = ax.xnumbers ∧ (setAxes params a ax).xlabel = params.head?) ∧
    (a.doY = true → 2 ≤ params.length → (setAxes params a ax).ynumbers = ax.ynumbers ∧ (setAxes params a ax).ylabel = params[1]?) ∧
    (a.noNumbers = true → a.doX = false → a.doY = false → 2 ≤ params.length → (setAxes params a ax).xnumbers = false ∧ (setAxes params a ax).ynumbers = false) ∧
    (a.doX = false → (setAxes params a ax).xlabel = ax.xlabel) ∧ (a.doY = false → (setAxes params a ax).ylabel = ax.ylabel) := by
  obtain ⟨_, h2, h3, h4, h5, _⟩ := setAxes_fields params a ax
  refine ⟨?_, ?_, ?_, ?_, ?_, ?_⟩
  · intro h
    rw [h4, h5, h]
    simp
  · intro h hp
    have hl : 0 < params.length := List.length_pos_iff.mpr hp
    rw [h4, h2, h, if_pos ⟨rfl, hl⟩, decide_eq_true hl]
    cases params with
    | nil => exact absurd rfl hp
    | cons p ps => simp
  · intro h hp
    rw [h5, h3, h, if_pos ⟨rfl, by omega⟩]
    simp
  · intro hn hx hy hp
    have hl : 1 < params.length := by omega
    rw [h4, h5, hn, hx, hy, decide_eq_true hl]
    simp
  · intro h; rw [h2, h]; simp
  · intro h; rw [h3, h]; simp

example : setAxes (K := ℚ) [c!"a", c!"b"] { doX := false, doY := false, noNumbers := true } ⟨none, none, none, true, true, none⟩ = ⟨none, none, none, false, false, none⟩ := by decide

end

/-! ## Ranges -/

section
variable {K : Type} [LinearOrder K]

theorem hull2_eq (rs : List (Root2 K)) : hull2 rs = (hull (rs.map fun r => ⟨r.priorX, r.bounds.map (·.1)⟩), hull (rs.map fun r => ⟨r.priorY, r.bounds.map (·.2)⟩)) := by
  have : ∀ (rs : List (Root2 K)) (x y : Option (K × K)), rs.foldl (fun b r => updateLimits r.bounds b.1 b.2) (x, y) =
      ((rs.map fun r => (⟨r.priorX, r.bounds.map (·.1)⟩ : Curve K)).foldl (fun r c => updateLimit c.bounds r) x,
       (rs.map fun r => (⟨r.priorY, r.bounds.map (·.2)⟩ : Curve K)).foldl (fun r c => updateLimit c.bounds r) y) := by
    intro rs
    induction rs with
    | nil => intro x y; rfl
    | cons r rs ih =>
      intro x y
      rw [List.foldl_cons, List.map_cons, List.map_cons, List.foldl_cons, List.foldl_cons]
      cases hb : r.bounds with
      | none => exact ih x y
      | some b =>
        dsimp only
        rw [updateLimits_eq]
        exact ih _ _
  exact this rs none none

/-- the bounds of the densities that there are -/
def boundsX (rs : List (Root2 K)) : List (K × K) := rs.filterMap (fun r => r.bounds.map (·.1))
def boundsY (rs : List (Root2 K)) : List (K × K) := rs.filterMap (fun r => r.bounds.map (·.2))

theorem hull2_spec (rs : List (Root2 K)) : ((∀ r ∈ rs, r.bounds = none) → hull2 rs = (none, none)) ∧
    ((∃ r ∈ rs, r.bounds ≠ none) → ∃ x y, hull2 rs = (some x, some y) ∧ IsHull (boundsX rs) x ∧ IsHull (boundsY rs) y) := by
  have fx : (rs.map fun r => (⟨r.priorX, r.bounds.map (·.1)⟩ : Curve K)).filterMap (·.bounds) = boundsX rs := by
    rw [List.filterMap_map]; rfl
  have fy : (rs.map fun r => (⟨r.priorY, r.bounds.map (·.2)⟩ : Curve K)).filterMap (·.bounds) = boundsY rs := by
    rw [List.filterMap_map]; rfl
  have hx := hull_spec (rs.map fun r => (⟨r.priorX, r.bounds.map (·.1)⟩ : Curve K))
  have hy := hull_spec (rs.map fun r => (⟨r.priorY, r.bounds.map (·.2)⟩ : Curve K))
  rw [fx] at hx
  rw [fy] at hy
  constructor
  · intro h
    have e1 : boundsX rs = [] := List.filterMap_eq_nil_iff.mpr (fun r hr => by rw [h r hr]; rfl)
    have e2 : boundsY rs = [] := List.filterMap_eq_nil_iff.mpr (fun r hr => by rw [h r hr]; rfl)
    rw [hull2_eq, hx.1.mpr e1, hy.1.mpr e2]
  · rintro ⟨r, hr, hb⟩
    obtain ⟨b, hb'⟩ := Option.ne_none_iff_exists'.mp hb
    have n1 : boundsX rs ≠ [] := List.ne_nil_of_mem (List.mem_filterMap.mpr ⟨r, hr, by rw [hb']; rfl⟩)
    have n2 : boundsY rs ≠ [] := List.ne_nil_of_mem (List.mem_filterMap.mpr ⟨r, hr, by rw [hb']; rfl⟩)
    cases e1 : hull (rs.map fun r => (⟨r.priorX, r.bounds.map (·.1)⟩ : Curve K)) with
    | none => exact absurd (hx.1.mp e1) n1
    | some x => cases e2 : hull (rs.map fun r => (⟨r.priorY, r.bounds.map (·.2)⟩ : Curve K)) with
      | none => exact absurd (hy.1.mp e2) n2
      | some y => exact ⟨x, y, by rw [hull2_eq, e1, e2], ((hx.2 x).mp e1).2, ((hy.2 y).mp e2).2⟩

example : hull2 [⟨(none, none), (none, none), some (((0 : ℚ), 4), (2, 3))⟩, ⟨(none, none), (none, none), none⟩, ⟨(none, none), (none, none), some ((-1, 3), (1, 5))⟩] =
    (some (-1, 4), some (1, 5)) := by decide +kernel

/-- **C229**: without given limits a two-dimensional plot shows exactly the part of the hull of all densities that the priors of the first root allow, and returns the hull -/
theorem plot2_range (first : Root2 K) (rs : List (Root2 K)) (labels : List Str) (a : AxArgs K) (ax : Ax K) (h : ∃ r ∈ first :: rs, r.bounds ≠ none) :
    ∃ ax' x y rx ry, plot2 (first :: rs) labels .missing a ax = .ok (ax', some (x, y)) ∧ IsHull (boundsX (first :: rs)) x ∧ IsHull (boundsY (first :: rs)) y ∧
      ax'.lims = some [rx.1, rx.2, ry.1, ry.2] ∧ (∀ v, Within rx v ↔ Within first.priorX v ∧ x.1 ≤ v ∧ v ≤ x.2) ∧ (∀ v, Within ry v ↔ Within first.priorY v ∧ y.1 ≤ v ∧ v ≤ y.2) := by
  obtain ⟨x, y, e, h1, h2⟩ := (hull2_spec (first :: rs)).2 h
  refine ⟨setAxes labels { a with lims := lims2 first x y .missing } ax, x, y, checkRange first.priorX (some x.1, some x.2), checkRange first.priorY (some y.1, some y.2), ?_, h1, h2, ?_, ?_, ?_⟩
  · unfold plot2
    dsimp only
    rw [e]
  · rw [(setAxes_fields labels _ ax).1]; rfl
  · intro v
    rw [checkRange_within]
    simp [Within]
  · intro v
    rw [checkRange_within]
    simp [Within]

/-- **C229**: limits that are given are used; without any density nothing is changed -/
theorem plot2_other (first : Root2 K) (rs : List (Root2 K)) (labels : List Str) (a : AxArgs K) (ax : Ax K) (l : List (Option K)) :
    ((∃ r ∈ first :: rs, r.bounds ≠ none) → ∃ ax' b, plot2 (first :: rs) labels (.given l) a ax = .ok (ax', some b) ∧ ax'.lims = some l) ∧
    ((∀ r ∈ first :: rs, r.bounds = none) → ∀ lims, plot2 (first :: rs) labels lims a ax = .ok (ax, none)) := by
  constructor
  · intro h
    obtain ⟨x, y, e, _, _⟩ := (hull2_spec (first :: rs)).2 h
    refine ⟨setAxes labels { a with lims := some l } ax, (x, y), ?_, ?_⟩
    · unfold plot2
      dsimp only
      rw [e]; rfl
    · rw [(setAxes_fields labels _ ax).1]
  · intro h lims
    unfold plot2
    dsimp only
    rw [(hull2_spec (first :: rs)).1 h]

end

/-! ## Contours and shades -/

section
variable {K : Type} [Field K] [LinearOrder K] [IsStrictOrderedRing K]

theorem insertSorted_perm (x : K) : ∀ l : List K, (insertSorted x l).Perm (x :: l)
  | [] => List.Perm.refl _
  | y :: ys => by
    rw [insertSorted]
    split
    · exact List.Perm.refl _
    · exact ((insertSorted_perm x ys).cons y).trans (List.Perm.swap x y ys)

theorem insertSorted_sorted (x : K) : ∀ l : List K, l.Pairwise (· ≤ ·) → (insertSorted x l).Pairwise (· ≤ ·)
  | [], _ => List.pairwise_singleton ..
  | y :: ys, h => by
    rw [List.pairwise_cons] at h
    rw [insertSorted]
    split
    · rename_i hxy
      refine List.pairwise_cons.mpr ⟨?_, List.pairwise_cons.mpr h⟩
      intro z hz
      rcases List.mem_cons.mp hz with rfl | hz
      · exact hxy
      · exact hxy.trans (h.1 z hz)
    · rename_i hxy
      refine List.pairwise_cons.mpr ⟨?_, insertSorted_sorted x ys h.2⟩
      intro z hz
      rcases List.mem_cons.mp ((insertSorted_perm x ys).mem_iff.mp hz) with rfl | hz
      · exact (not_le.mp hxy).le
      · exact h.1 z hz

theorem sorted_spec : ∀ l : List K, (sorted l).Perm l ∧ (sorted l).Pairwise (· ≤ ·)
  | [] => ⟨List.Perm.refl _, List.Pairwise.nil⟩
  | x :: l => by
    obtain ⟨h1, h2⟩ := sorted_spec l
    exact ⟨(insertSorted_perm x _).trans (h1.cons x), insertSorted_sorted x _ h2⟩

/-- **C229**: filled contours have one band for each level: the levels in order, the innermost band reaching above the highest density -/
theorem filledLevels_spec (pmax : K) (levels : List K) (h : ∀ l ∈ levels, l ≤ pmax) : filledLevels pmax levels = sorted levels ++ [pmax + 1] ∧ (filledLevels pmax levels).Pairwise (· ≤ ·) ∧
    (filledLevels pmax levels).length = levels.length + 1 := by
  have key : ∀ l : List K, (∀ y ∈ l, y < pmax + 1) → insertSorted (pmax + 1) l = l ++ [pmax + 1] := by
    intro l
    induction l with
    | nil => intro _; rfl
    | cons y ys ih =>
      intro hy
      rw [insertSorted, if_neg (not_le.mpr (hy y (List.mem_cons_self ..))), ih (fun z hz => hy z (List.mem_cons_of_mem _ hz))]
      rfl
  have e : filledLevels pmax levels = sorted levels ++ [pmax + 1] :=
    key _ (fun y hy => lt_of_le_of_lt (h y ((sorted_spec levels).1.mem_iff.mp hy)) (lt_add_one pmax))
  refine ⟨e, (sorted_spec _).2, ?_⟩
  rw [e, List.length_append, (sorted_spec levels).1.length_eq]; rfl

/-- **C229**: levels that are given are used, else those of the density, else as many of those of the settings as are asked for -/
theorem contourLevels_spec (compute : List K → List K) (s : List K) (num : Nat) (given own : List K) (setting o : Option (List K)) :
    contourLevels compute setting num (some given) o = .ok (given, o) ∧ contourLevels compute setting num none (some own) = .ok (own, some own) ∧
    contourLevels compute (some s) num none none = .ok (compute (s.take num), some (compute (s.take num))) := ⟨rfl, rfl, rfl⟩

example : contourLevels (K := ℚ) (fun l => l.map (1 - ·)) (some [1 / 2, 3 / 4, 7 / 8]) 2 none none = .ok ([1 / 2, 1 / 4], some [1 / 2, 1 / 4]) := by decide +kernel

theorem fade_between (n i : Nat) (h : i ≤ n) (hn : 0 < n) (c : K) (hc : c ≤ 1) : c ≤ fade n i c ∧ fade n i c ≤ 1 := by
  have hp : (0 : K) < n := by exact_mod_cast hn
  have hi : (0 : K) ≤ i := by exact_mod_cast Nat.zero_le i
  have hin : (i : K) ≤ n := by exact_mod_cast h
  unfold fade
  constructor
  · rw [le_div_iff₀ hp]; nlinarith
  · rw [div_le_iff₀ hp]; nlinarith

/-- **C229**: the shade of lowest density is clear, the next is white, up to a third of them (at most twenty) fade in between white and their colour, each less white than the one before,
and the others have their colour -/
theorem shade_spec (num : Nat) (cols : List (List K)) (k : Nat) (c : List K) (hk : cols[k]? = some c) :
    (k = 0 → ∀ r g b a, c = [r, g, b, a] → shade num cols k = [r, g, b, 0]) ∧
    (k = 1 → 3 ≤ num → shade num cols k = c.map (fun _ => 1)) ∧
    (1 ≤ k → k ≤ fadeCount num → ∀ (j : Nat) (v : K), c[j]? = some v → v ≤ 1 → ∃ f, (shade num cols k)[j]? = some f ∧ v ≤ f ∧ f ≤ 1) ∧
    (fadeCount num < k → shade num cols k = c) := by
  have hg : cols.getD k [] = c := by rw [List.getD_eq_getElem?_getD, hk]; rfl
  refine ⟨?_, ?_, ?_, ?_⟩
  · rintro rfl r g b a rfl
    unfold shade
    dsimp only
    rw [if_pos rfl, hg]; rfl
  · rintro rfl h3
    have hn : 1 ≤ fadeCount num := by unfold fadeCount; omega
    unfold shade
    dsimp only
    rw [if_neg (by decide), if_pos hn, hg]
    apply List.map_congr_left
    intro v _
    unfold fade
    have : ((fadeCount num : Nat) : K) ≠ 0 := by exact_mod_cast (by omega : fadeCount num ≠ 0)
    simp [this]
  · intro h1 h2 j v hv hv1
    refine ⟨fade (fadeCount num) (k - 1) v, ?_, fade_between _ _ (by omega) (by omega) v hv1⟩
    unfold shade
    dsimp only
    rw [if_neg (by omega), if_pos h2, hg, List.getElem?_map, hv]; rfl
  · intro h
    unfold shade
    dsimp only
    rw [if_neg (by omega), if_neg (by omega), hg]

example : shade (K := ℚ) 6 [[0, 1, 0, 1], [0, 0, 0, 1], [1 / 2, 0, 0, 1], [1 / 4, 0, 0, 1]] 2 = [3 / 4, 1 / 2, 1 / 2, 1] ∧
    shade (K := ℚ) 6 [[0, 1, 0, 1], [0, 0, 0, 1], [1 / 2, 0, 0, 1], [1 / 4, 0, 0, 1]] 0 = [0, 1, 0, 0] ∧
    shade (K := ℚ) 6 [[0, 1, 0, 1], [0, 0, 0, 1], [1 / 2, 0, 0, 1], [1 / 4, 0, 0, 1]] 3 = [1 / 4, 0, 0, 1] := by decide +kernel

/-- each shade is less white -/
theorem fade_anti (n i : Nat) (hn : 0 < n) (c : K) (hc : c ≤ 1) : fade n (i + 1) c ≤ fade n i c := by
  have hp : (0 : K) < n := by exact_mod_cast hn
  unfold fade
  rw [div_le_div_iff_of_pos_right hp]
  push_cast
  nlinarith

example : fade 4 1 (1 / 2 : ℚ) = 7 / 8 ∧ fade 4 2 (1 / 2 : ℚ) = 3 / 4 := by decide +kernel

/-- **C229**: the levels of the shades increase from zero to one for every positive power -/
theorem shadeLevels_spec (pow : K → K) (h0 : pow 0 = 0) (h1 : pow 1 = 1) (hm : ∀ x y, 0 ≤ x → x < y → pow x < pow y) (num : Nat) (hn : 2 ≤ num) :
    (shadeLevels pow num).length = num ∧ (shadeLevels pow num)[0]? = some 0 ∧ (shadeLevels pow num)[num - 1]? = some 1 ∧
    ∀ i, i + 1 < num → ∃ x y, (shadeLevels pow num)[i]? = some x ∧ (shadeLevels pow num)[i + 1]? = some y ∧ x < y := by
  have hp : (0 : K) < ((num - 1 : Nat) : K) := by exact_mod_cast (by omega : 0 < num - 1)
  have get : ∀ i < num, (shadeLevels pow num)[i]? = some (pow ((i : K) / ((num - 1 : Nat) : K))) := by
    intro i hi
    unfold shadeLevels
    rw [List.getElem?_map, List.getElem?_range hi]; rfl
  refine ⟨by unfold shadeLevels; rw [List.length_map, List.length_range], ?_, ?_, ?_⟩
  · rw [get 0 (by omega), Nat.cast_zero, zero_div, h0]
  · rw [get (num - 1) (by omega), div_self hp.ne', h1]
  · intro i hi
    refine ⟨_, _, get i (by omega), get (i + 1) hi, hm _ _ (div_nonneg (by exact_mod_cast Nat.zero_le i) hp.le) ?_⟩
    rw [div_lt_div_iff_of_pos_right hp]
    exact_mod_cast Nat.lt_succ_self i

example : shadeLevels (fun x : ℚ => x ^ 2) 5 = [0, 1 / 16, 1 / 4, 9 / 16, 1] := by decide +kernel

/-- **C229**: numbers on y axes have powers of ten written with each exactly if all of the axis is below the lower limit or it reaches the upper -/
theorem formatter_spec (lo hi : K) (v : K × K) : formatter lo hi true v = .scalar ∧
    (formatter lo hi false v = .sci ↔ (|v.1| ≤ lo ∧ |v.2| ≤ lo) ∨ hi ≤ |v.1| ∨ hi ≤ |v.2|) := by
  refine ⟨rfl, ?_⟩
  unfold formatter
  rw [if_neg (by decide)]
  have e : (max |v.2| |v.1| ≤ lo ∨ hi ≤ max |v.1| |v.2|) ↔ (|v.1| ≤ lo ∧ |v.2| ≤ lo) ∨ hi ≤ |v.1| ∨ hi ≤ |v.2| := by
    rw [max_le_iff, le_max_iff, and_comm]
  rw [← e]
  split
  · rename_i h; exact ⟨fun _ => h, fun _ => rfl⟩
  · rename_i h; exact ⟨fun e => (by cases e), fun e => absurd e h⟩

end

/-! ## Names -/

section
variable {α : Type}

/-- all that is remembered is what the analyser would say now -/
def Fresh (m : Mem α) : Prop := ∀ r v, Dict.get? m.sets r = some v → v = m.answer r

def NoChange : MemOp α → Prop
  | .change _ => False
  | _ => True

theorem ask_fresh (m : Mem α) (h : Fresh m) (r : Str) : (ask m r).2 = m.answer r ∧ Fresh (ask m r).1 ∧ (ask m r).1.answer = m.answer := by
  unfold ask
  cases e : Dict.get? m.sets r with
  | some v => exact ⟨h r v e, h, rfl⟩
  | none =>
    refine ⟨rfl, ?_, rfl⟩
    intro r' v hv
    dsimp only at hv
    rw [Dict.get?_set] at hv
    split at hv
    · rename_i e'; cases hv; rw [e']
    · exact h r' v hv

/-- **C229**: after `new_plot`, until something changes, names and bounds are those of the samples -/
theorem names_fresh (m : Mem α) (ops : List (MemOp α)) (h : ∀ op ∈ ops, NoChange op) (r : Str) :
    (ask (ops.foldl memStep (memStep m .newPlot)) r).2 = m.answer r := by
  have gen : ∀ (ops : List (MemOp α)) (m' : Mem α), Fresh m' → m'.answer = m.answer → (∀ op ∈ ops, NoChange op) → (ask (ops.foldl memStep m') r).2 = m.answer r := by
    intro ops
    induction ops with
    | nil =>
      intro m' hf ha _
      rw [List.foldl_nil, (ask_fresh m' hf r).1, ha]
    | cons op ops ih =>
      intro m' hf ha hop
      rw [List.foldl_cons]
      have hrest := fun o ho => hop o (List.mem_cons_of_mem _ ho)
      have h1 := hop op (List.mem_cons_self ..)
      cases op with
      | ask q =>
        obtain ⟨_, a, b⟩ := ask_fresh m' hf q
        exact ih _ a (b.trans ha) hrest
      | newPlot => exact ih _ (by intro r v hv; cases hv) ha hrest
      | change f => exact h1.elim
  exact gen ops _ (by intro r v hv; cases hv) rfl h

example : (ask ([.ask c!"b", .ask c!"a"].foldl memStep (memStep ⟨[(c!"a", 7)], fun r => r.length⟩ .newPlot)) c!"a").2 = 1 := by decide +kernel

end

/-! ## Examples -/

/-- two roots; the prior of the first has a lower limit for x -/
def exRoots : List (Root2 ℚ) := [⟨(some 1, none), (none, none), some ((0, 4), (2, 3))⟩, ⟨(none, none), (none, none), none⟩, ⟨(none, none), (none, none), some ((-1, 3), (1, 5))⟩]

def blank : Ax ℚ := ⟨none, none, none, true, true, none⟩

example : plot2 exRoots [c!"a", c!"b"] .missing {} blank = .ok (⟨some [some 1, some 4, some 1, some 5], some c!"a", some c!"b", true, true, none⟩, some ((-1, 4), (1, 5))) := by decide +kernel

example : filledLevels (1 : ℚ) [1 / 2, 1 / 10] = [1 / 10, 1 / 2, 2] := by decide +kernel

example : formatter (1 / 1000 : ℚ) 10000 false (-5, 20000) = .sci := by decide +kernel

/-! ## What fails -/

/-- limits of `None` are the same as none given -/
def NoneIsDefault : Prop := ∀ (rs : List (Root2 ℚ)) (labels : List Str) (a : AxArgs ℚ) (ax : Ax ℚ), plot2 rs labels .none a ax = plot2 rs labels .missing a ax

/-- **C230 fails**: `plot_2d` computes limits only if there is no argument `lims` at all (plots.py:1688), while `plot_1d` and `set_axes`, whose default it is, take `None` for none given;
with `lims=None` the axes keep the limits that contours of the last root happened to leave -/
theorem lims_none_fails : ¬ NoneIsDefault := by
  intro h
  have := h exRoots [] {} blank
  revert this
  decide +kernel

/-- every density is within the axes -/
def AllShown : Prop := ∀ (rs : List (Root2 ℚ)) (labels : List Str) (a : AxArgs ℚ) (ax ax' : Ax ℚ) (b : (ℚ × ℚ) × (ℚ × ℚ)) (rx : Range ℚ) (l : List (Option ℚ)),
  plot2 rs labels .missing a ax = .ok (ax', some b) → ax'.lims = some (rx.1 :: rx.2 :: l) → ∀ r ∈ rs, ∀ c, r.bounds = some c → ∀ v, c.1.1 ≤ v → v ≤ c.1.2 → Within r.priorX v → Within rx v

/-- **C230 fails**: the limits are cut at the hard priors of the first root only (plots.py:1689-1690): what other samples allow outside them is not shown -/
theorem first_prior_fails : ¬ AllShown := by
  intro h
  have := h exRoots [] {} blank _ _ (some 1, some 4) _ rfl rfl ⟨(none, none), (none, none), some ((-1, 3), (1, 5))⟩ (by unfold exRoots; simp) _ rfl 0 (by norm_num) (by norm_num)
    ⟨(by intro a h; cases h), (by intro a h; cases h)⟩
  have := this.1 1 rfl
  revert this
  decide +kernel

/-- numbers are hidden on axes without labels if that is asked for -/
def HiddenIfAsked : Prop := ∀ (params : List Str) (a : AxArgs ℚ) (ax : Ax ℚ), a.noNumbers = true → a.doY = false → (setAxes params a ax).ynumbers = false

/-- **C230 fails**: with fewer than two parameters `set_axes` leaves the numbers of the y axis (plots.py:1484), though it hides those of the x axis -/
theorem y_numbers_fails : ¬ HiddenIfAsked := by
  intro h
  have := h [c!"a"] { doX := false, doY := false, noNumbers := true } blank rfl rfl
  revert this
  decide +kernel

/-- contours can be drawn for a density with any settings -/
def LevelsFound : Prop := ∀ (compute : List ℚ → List ℚ) (setting : Option (List ℚ)) (num : Nat), ∃ r, contourLevels compute setting num none none = .ok r

/-- **C230 fails**: for densities that come without levels, settings without `contours` (they may have `num_contours`, `contour1`, ... instead, mcsamples.py:384-385) are an error: what `ndarray` gives then is not `None` (plots.py:1062-1064) -/
theorem no_setting_fails : ¬ LevelsFound := by
  intro h
  obtain ⟨r, hr⟩ := h id none 2
  cases hr

/-- as many contours are drawn as are asked for -/
def NumberUsed : Prop := ∀ (s : List ℚ) (n1 n2 : Nat) (l : List ℚ) (o : Option (List ℚ)), contourLevels id (some s) n1 none none = .ok (l, o) →
  ∃ o', contourLevels id (some s) n2 none o = .ok (s.take n2, o')

/-- **C230 fails**: the levels are stored in the density (plots.py:1065) and used for all later plots of it, whatever number is set then -/
theorem stored_levels_fails : ¬ NumberUsed := by
  intro h
  obtain ⟨o', ho⟩ := h [68 / 100, 95 / 100] 1 2 [68 / 100] (some [68 / 100]) rfl
  have : ([68 / 100] : List ℚ) = [68 / 100, 95 / 100] := (Prod.mk.inj (Except.ok.inj ho)).1
  revert this
  decide +kernel

/-- any density can be shaded -/
def Shades : Prop := ∀ (meanlikes : Bool) (P : List ℚ) (likes : Option (List ℚ)), ∃ r, shadePoints meanlikes P likes = .ok r

/-- **C230 fails**: with `shade_meanlikes` a density that the user provides must have an attribute `likes` (plots.py:1160-1161), which `Density2D` does not set -/
theorem shade_fails : ¬ Shades := by
  intro h
  obtain ⟨r, hr⟩ := h true [] none
  cases hr

/-- labels follow the settings and samples -/
def NamesPresent : Prop := ∀ (m : Mem Str) (ops : List (MemOp Str)) (r : Str), (ask (ops.foldl memStep (memStep m .newPlot)) r).2 = (ops.foldl memStep (memStep m .newPlot)).answer r

/-- **C230 fails**: names and bounds are kept until `new_plot` (plots.py:906-908, 917-919): labels from `param_names_for_labels` set after the first plot of a root, or a root that was removed and
read again, have no effect on plots that follow in the same figure -/
theorem stale_names_fails : ¬ NamesPresent := by
  intro h
  have := h ⟨[], fun _ => c!"old"⟩ [.ask c!"r", .change (fun _ => c!"new")] c!"r"
  revert this
  decide +kernel

end Verif.PlotCalls
