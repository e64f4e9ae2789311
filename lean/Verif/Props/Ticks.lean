import Mathlib.Tactic.Linarith
import Mathlib.Tactic.FieldSimp
import Mathlib.Tactic.Positivity
import Mathlib.Tactic.LinearCombination
import Mathlib.Algebra.Order.Field.Basic
import Verif.Model.Ticks

/-!
# Axis ticks (C155)

The specification is in terms of evenly spaced points `prog a s n`.
-/

namespace Verif.Ticks
set_option linter.unusedSectionVars false
open Verif.Py

variable {K : Type} [Field K] [LinearOrder K] [IsStrictOrderedRing K] [FloorRing K]

/-- the points `a`, `a + s`, …, `n` of them -/
def prog (a s : K) (n : Nat) : List K := (List.range n).map fun k : Nat => a + k * s

omit [LinearOrder K] [IsStrictOrderedRing K] [FloorRing K] in
@[simp] theorem prog_length (a s : K) (n : Nat) : (prog a s n).length = n := by simp [prog]

omit [LinearOrder K] [IsStrictOrderedRing K] [FloorRing K] in
theorem prog_getD (a s : K) (n i : Nat) (h : i < n) : (prog a s n).getD i 0 = a + i * s := by simp [prog, List.getD, h]

omit [LinearOrder K] [IsStrictOrderedRing K] [FloorRing K] in
theorem prog_head (a s : K) (n : Nat) (h : 0 < n) : (prog a s n).headD 0 = a := by
  cases n with
  | zero => omega
  | succ n => simp [prog, List.range_succ_eq_map]

omit [LinearOrder K] [IsStrictOrderedRing K] [FloorRing K] in
theorem prog_last (a s : K) (n : Nat) : (prog a s (n + 1)).getLastD 0 = a + n * s := by simp [prog, List.range_succ]

omit [LinearOrder K] [IsStrictOrderedRing K] [FloorRing K] in
theorem prog_tail (a s : K) (n : Nat) : (prog a s (n + 1)).tail = prog (a + s) s n := by
  simp only [prog, List.range_succ_eq_map, List.map_cons, List.tail_cons, List.map_map]
  apply List.map_congr_left
  intro k _
  simp only [Function.comp]
  push_cast
  ring

omit [LinearOrder K] [IsStrictOrderedRing K] [FloorRing K] in
theorem prog_dropLast (a s : K) (n : Nat) : (prog a s (n + 1)).dropLast = prog a s n := by simp [prog, List.range_succ]

omit [LinearOrder K] [IsStrictOrderedRing K] [FloorRing K] in
theorem prog_shift (a s c : K) (n : Nat) : (prog a s n).map (· + c) = prog (a + c) s n := by
  simp only [prog, List.map_map]
  apply List.map_congr_left
  intro k _
  simp only [Function.comp]
  ring

omit [LinearOrder K] [IsStrictOrderedRing K] [FloorRing K] in
theorem prog_ne_nil {a s : K} {n : Nat} (h : 0 < n) : prog a s n ≠ [] := by
  intro e
  have := congrArg List.length e
  simp at this
  omega

/-! ### whole numbers of steps -/

omit [FloorRing K] in
theorem tol_pos (o s : K) : 0 < tol o s := by
  unfold tol
  split
  · exact lt_min (by norm_num) (lt_max_of_lt_left (by norm_num))
  · norm_num

omit [FloorRing K] in
theorem tol_lt (o s : K) : tol o s < 1 / 2 := by
  unfold tol
  split
  · exact lt_of_le_of_lt (min_le_left _ _) (by norm_num)
  · norm_num

omit [FloorRing K] in
/-- the tolerance is a rounding error: a ten thousand millionth of a step, or the twelfth digit of the offset -/
theorem tol_le (o s : K) (ho : 0 ≤ o) (hs : 0 < s) : tol o s * s ≤ s / 10 ^ 10 + o / 10 ^ 12 := by
  have e : o / s * s = o := div_mul_cancel₀ _ hs.ne'
  unfold tol
  split
  · have h1 : min (4999 / 10000 : K) (max (1 / 10 ^ 10) (o / s / 10 ^ 12)) ≤ 1 / 10 ^ 10 + o / s / 10 ^ 12 := by
      refine le_trans (min_le_right _ _) (max_le ?_ ?_)
      · have : 0 ≤ o / s / 10 ^ 12 := by positivity
        linarith
      · have : (0 : K) ≤ 1 / 10 ^ 10 := by positivity
        linarith
    refine le_trans (mul_le_mul_of_nonneg_right h1 hs.le) (le_of_eq ?_)
    field_simp
  · have : 0 ≤ o / 10 ^ 12 := by positivity
    linarith

example : tol (2 : ℚ) (1 / 10) * (1 / 10) ≤ (1 / 10) / 10 ^ 10 + 2 / 10 ^ 12 := by decide +kernel

/-- **C155** `_ge` is the smallest whole number of steps that is not below, up to the tolerance. -/
theorem geN_spec (x o s : K) (hs : 0 < s) (k : Int) : geN x o s ≤ k ↔ x - tol |o| s * s < k * s := by
  have hp := tol_pos |o| s
  have hl := tol_lt |o| s
  have h1 : (⌊x / s⌋ : K) * s ≤ x := by have := Int.floor_le (x / s); rwa [le_div_iff₀ hs] at this
  have h2 : x < ((⌊x / s⌋ : K) + 1) * s := by have := Int.lt_floor_add_one (x / s); rwa [div_lt_iff₀ hs] at this
  have hm : 0 ≤ (x - ⌊x / s⌋ * s) / s := div_nonneg (by linarith) hs.le
  have hts : tol |o| s * s < s / 2 := by nlinarith
  have htp : 0 < tol |o| s * s := mul_pos hp hs
  have mono : ∀ a b : Int, a ≤ b → (a : K) * s ≤ b * s := fun a b h => mul_le_mul_of_nonneg_right (by exact_mod_cast h) hs.le
  unfold geN closeTo
  simp only [sub_zero, abs_of_nonneg hm, decide_eq_true_eq]
  split
  · rename_i h
    rw [div_lt_iff₀ hs] at h
    constructor
    · intro hk
      have := mono _ _ hk
      linarith
    · intro hk
      by_contra hn
      have := mono k (⌊x / s⌋ - 1) (by omega)
      push_cast at this
      linarith
  · rename_i h
    rw [not_lt, le_div_iff₀ hs] at h
    constructor
    · intro hk
      have := mono _ _ hk
      push_cast at this
      linarith
    · intro hk
      by_contra hn
      have := mono k ⌊x / s⌋ (by omega)
      linarith

/-- **C155** `_le` is the largest whole number of steps that is not above, up to the tolerance. -/
theorem leN_spec (x o s : K) (hs : 0 < s) (k : Int) : k ≤ leN x o s ↔ k * s < x + tol |o| s * s := by
  have hp := tol_pos |o| s
  have hl := tol_lt |o| s
  have h1 : (⌊x / s⌋ : K) * s ≤ x := by have := Int.floor_le (x / s); rwa [le_div_iff₀ hs] at this
  have h2 : x < ((⌊x / s⌋ : K) + 1) * s := by have := Int.lt_floor_add_one (x / s); rwa [div_lt_iff₀ hs] at this
  have hm : (x - ⌊x / s⌋ * s) / s ≤ 1 := (div_le_one hs).mpr (by linarith)
  have hts : tol |o| s * s < s / 2 := by nlinarith
  have htp : 0 < tol |o| s * s := mul_pos hp hs
  have mono : ∀ a b : Int, a ≤ b → (a : K) * s ≤ b * s := fun a b h => mul_le_mul_of_nonneg_right (by exact_mod_cast h) hs.le
  unfold leN closeTo
  simp only [abs_of_nonpos (sub_nonpos.mpr hm), decide_eq_true_eq, neg_sub]
  split
  · rename_i h
    rw [sub_lt_comm, lt_div_iff₀ hs] at h
    constructor
    · intro hk
      have := mono _ _ hk
      push_cast at this
      linarith
    · intro hk
      by_contra hn
      have := mono (⌊x / s⌋ + 2) k (by omega)
      push_cast at this
      linarith
  · rename_i h
    rw [not_lt, le_sub_comm, div_le_iff₀ hs] at h
    constructor
    · intro hk
      have := mono _ _ hk
      linarith
    · intro hk
      by_contra hn
      have := mono (⌊x / s⌋ + 1) k (by omega)
      push_cast at this
      linarith

/-! ### the ticks of one step -/

/-- **C155** The ticks of a step are all the points of its lattice within the range, up to the tolerance, if neither too few nor too many. -/
theorem ticksOf_spec (x : Ctx K) (s start : K) (hs : 0 < s) (hm : 1 ≤ x.minTicks) (t : List K) (h : ticksOf x s start = some t) :
    (∃ a n, t = prog a s n ∧ x.minTicks ≤ (n : Int) ∧ (n : Int) ≤ x.nbins ∧ 0 < n) ∧
    (∀ y, y ∈ t ↔ (∃ k : Int, y = start + x.offset + k * s) ∧ x.vmin + x.offset - tol |x.offset| s * s < y ∧ y < x.vmax + x.offset + tol |x.offset| s * s) := by
  unfold ticksOf at h
  simp only at h
  split at h
  · rename_i hc
    obtain ⟨hc1, hc2⟩ := hc
    set low := geN (x.vmin - start) x.offset s with hlow
    set high := leN (x.vmax - start) x.offset s with hhigh
    injection h with h
    constructor
    · refine ⟨(low : K) * s + (start + x.offset), (high - low + 1).toNat, ?_, by omega, by omega, by omega⟩
      rw [← h]
      unfold prog
      apply List.map_congr_left
      intro k _
      push_cast
      ring
    · intro y
      rw [← h, List.mem_map]
      constructor
      · rintro ⟨k, hk, rfl⟩
        rw [List.mem_range] at hk
        have h1 := (geN_spec (x.vmin - start) x.offset s hs (low + k)).mp (by omega)
        have h2 := (leN_spec (x.vmax - start) x.offset s hs (low + k)).mp (by omega)
        exact ⟨⟨low + k, by ring⟩, by linarith, by linarith⟩
      · rintro ⟨⟨k, rfl⟩, h1, h2⟩
        have h1' := (geN_spec (x.vmin - start) x.offset s hs k).mpr (by linarith)
        have h2' := (leN_spec (x.vmax - start) x.offset s hs k).mpr (by linarith)
        refine ⟨(k - low).toNat, by rw [List.mem_range]; omega, ?_⟩
        have : ((k - low).toNat : Int) = k - low := by omega
        rw [this]
        push_cast
        ring
  · cases h

example : ticksOf (⟨(0, 10), 0, 10, 1, 0, 5, 1, 2, 2, 5, false⟩ : Ctx ℚ) 4 1 = some [1, 5, 9] ∧ ticksOf (⟨(0, 10), 0, 10, 1, 0, 5, 1, 2, 2, 5, false⟩ : Ctx ℚ) 1 0 = none := by decide +kernel

omit [IsStrictOrderedRing K] in
/-- **C155** Of the first group of steps, the ticks are whole multiples of the step, without half offsets. -/
theorem start_multiple (x : Ctx K) (s : K) : ∃ k : Int, startOf x 0 s none = k * s := ⟨⌊x.vmin / s⌋, by simp [startOf, baseOf]⟩

example : startOf (⟨(0, 10), 3, 10, 1, 0, 5, 1, 2, 2, 5, false⟩ : Ctx ℚ) 0 2 none = 2 := by decide +kernel

omit [IsStrictOrderedRing K] in
/-- **C155** For other groups, a round number in the range is one of the ticks. -/
theorem start_center (x : Ctx K) (ix : Nat) (s : K) (h : ix ≠ 0) (h1 : x.vmin ≤ x.center) (h2 : x.center ≤ x.vmax) :
    ∃ k : Int, startOf x ix s none + k * s = x.center := ⟨⌊(x.center - x.vmin) / s⌋, by simp [startOf, baseOf, h, h1, h2]⟩

example : startOf (⟨(0, 10), 3, 10, 1, 0, 6, 1, 2, 2, 5, false⟩ : Ctx ℚ) 1 2 none + 1 * 2 = 6 := by decide +kernel

theorem shiftLoop_map (l : Loc K) (r : K × K) (sc step : K) (ss : List Int) (t : List K) : ∃ c, shiftLoop l r sc step ss t = t.map (· + c) := by
  induction ss generalizing t with
  | nil => exact ⟨0, by simp [shiftLoop]⟩
  | cons s ss ih =>
    unfold shiftLoop
    split
    · exact ⟨0, by simp⟩
    · simp only
      split
      · obtain ⟨c, hc⟩ := ih (t.map (· + (s : K) * sc))
        refine ⟨(s : K) * sc + c, ?_⟩
        rw [hc, List.map_map]
        apply List.map_congr_left
        intro y _
        simp only [Function.comp]
        ring
      · exact ih t

theorem shiftTicks_map (l : Loc K) (x : Ctx K) (off : Bool) (s : K) (t : List K) :
    ∃ c, shiftTicks l x off s t = t.map (· + c) ∧ (x.changing = false → c = 0) := by
  unfold shiftTicks
  split
  · rename_i h
    obtain ⟨c, hc⟩ := shiftLoop_map l x.range (l.magnitude s) s [0, -1, 1, -2, 2] t
    exact ⟨c, hc, fun e => by rw [h.2.2.1] at e; cases e⟩
  · exact ⟨0, by simp, fun _ => rfl⟩

/-! ### the loops only keep ticks of some step -/

/-- ticks of a step that may be returned -/
def Cand (l : Loc K) (x : Ctx K) (t : List K) : Prop :=
  ∃ ix off s half t0, (∃ g ∈ stairs l.groups, ∃ y ∈ g.1, s = y * x.scale) ∧ x.len ≤ s ∧ ticksOf x s (startOf x ix s (if off then some half else none)) = some t0 ∧
    t = shiftTicks l x off s t0 ∧ (x.changing = true → valid l x.range t = true)

/-- the state or the ticks returned -/
def Good (P : List K → Prop) : St K ⊕ List K → Prop
  | .inl st => st.best = [] ∨ P st.best
  | .inr t => P t

theorem judge_inv (l : Loc K) (x : Ctx K) (ix : Nat) (off : Bool) (steps : List K) (s : K) (t : List K) (st : St K) (P : List K → Prop)
    (ht : (x.changing = true → valid l x.range t = true) → P t) (hst : st.best = [] ∨ P st.best) :
    Good P (judge l x ix off steps s t st) := by
  unfold judge
  simp only
  split
  · exact hst
  split
  · exact hst
  rename_i hv
  have hv' : x.changing = true → valid l x.range t = true := by
    intro hc
    rw [hc] at hv
    by_contra hn
    apply hv
    simp only [Bool.not_eq_true] at hn
    simp [hn]
  split
  · exact hst
  split
  · exact .inr (ht hv')
  · exact ht hv'

theorem stepLoop_inv (l : Loc K) (x : Ctx K) (ix : Nat) (off : Bool) (g : List K × List K) (hg : g ∈ stairs l.groups) (is : List Nat)
    (hi : ∀ i ∈ is, i < g.1.length) (st : St K) (hst : st.best = [] ∨ Cand l x st.best) :
    Good (Cand l x) (stepLoop l x ix off (g.1.map (· * x.scale)) g.2 is st) := by
  induction is generalizing st with
  | nil => exact hst
  | cons i is ih =>
    have hi' := hi i (by simp)
    have ih := ih (fun j hj => hi j (by simp [hj]))
    unfold stepLoop
    split
    · exact ih st hst
    split
    · exact hst
    rename_i hlen
    have hs : (g.1.map (· * x.scale)).getD i 0 = g.1[i] * x.scale := by simp [List.getD, hi']
    rw [hs, not_lt] at hlen
    rw [hs]
    have key : Good (Cand l x) (tryStep l x ix off (g.1.map (· * x.scale)) (g.1[i] * x.scale) (g.2.getD i 0) st) := by
      unfold tryStep
      split
      · exact hst
      · rename_i t0 ht0
        exact judge_inv l x ix off (g.1.map (· * x.scale)) (g.1[i] * x.scale) (shiftTicks l x off (g.1[i] * x.scale) t0) st (Cand l x)
          (fun hv => ⟨ix, off, g.1[i] * x.scale, g.2.getD i 0, t0, ⟨g, hg, g.1[i], by simp, rfl⟩, hlen, ht0, rfl, hv⟩) hst
    split
    · rename_i st' heq
      rw [heq] at key
      exact ih _ key
    · rename_i t heq
      rw [heq] at key
      exact key

theorem groupLoop_inv (l : Loc K) (x : Ctx K) (gs : List (List K × List K)) (hgs : ∀ g ∈ gs, g ∈ stairs l.groups) (ix : Nat) (raw : K) (st : St K)
    (hst : st.best = [] ∨ Cand l x st.best) :
    Good (Cand l x) (groupLoop l x ix gs raw st) := by
  induction gs generalizing ix raw st with
  | nil => exact hst
  | cons g gs ih =>
    have ih := ih (fun g hg => hgs g (by simp [hg]))
    unfold groupLoop
    simp only
    generalize hr : (if ix ≠ 0 ∧ st.best.length < 3 then max raw ((x.vmax - x.vmin) / 2) else raw) = raw'
    generalize hn : min ((g.1.map (· * x.scale)).length - 1) (List.findIdx (fun y => decide (raw' ≤ y)) (g.1.map (· * x.scale))) = istep
    split
    · exact ih _ _ _ hst
    rename_i h0
    have hb : ∀ i ∈ (List.range (istep + 1)).reverse, i < g.1.length := by
      intro i hi
      simp only [List.mem_reverse, List.mem_range] at hi
      have : istep ≤ (g.1.map (· * x.scale)).length - 1 := by rw [← hn]; exact min_le_left _ _
      simp only [List.length_map] at this
      omega
    have key : Good (Cand l x) (offLoop l x ix (g.1.map (· * x.scale)) g.2 istep st) := by
      unfold offLoop
      have k1 := stepLoop_inv l x ix false g (hgs g (by simp)) _ hb st hst
      cases hq : stepLoop l x ix false (g.1.map (· * x.scale)) g.2 (List.range (istep + 1)).reverse st with
      | inr t => rw [hq] at k1; exact k1
      | inl st' =>
        rw [hq] at k1
        simp only at k1 ⊢
        by_cases hbr : 2 < st'.best.length ∨ st'.best.length = 2 ∧ (x.center = 0 ∨ 1 < ix)
        · rw [if_pos hbr]; exact k1
        · rw [if_neg hbr]
          exact stepLoop_inv l x ix true g (hgs g (by simp)) _ hb st' k1
    cases hq : offLoop l x ix (g.1.map (· * x.scale)) g.2 istep st with
    | inr t => rw [hq] at key; exact key
    | inl st' => rw [hq] at key; exact ih _ _ _ key

/-- **C155** What `_spaced_ticks` returns: nothing, or evenly spaced points, one of the allowed steps apart, at least eleven tenths of a label, neither too few nor too many;
of labels of fixed length, within the range up to the tolerance; of labels whose length depends on the ticks, with room for these. -/
theorem spaced_spec (l : Loc K) (r : K × K) (vmin vmax len : K) (m n : Int) (ch : Bool) (hlen : 0 < len) (hm : 1 ≤ m) :
    (spacedTicks l r vmin vmax len m n ch).1 = [] ∨ ∃ a s k, (spacedTicks l r vmin vmax len m n ch).1 = prog a s k ∧ 0 < k ∧ m ≤ (k : Int) ∧ (k : Int) ≤ n ∧
      len * (11 / 10) ≤ s ∧ (∃ g ∈ stairs l.groups, ∃ y ∈ g.1, s = y * (l.scaleRange vmin vmax n).1) ∧
      (ch = true → valid l r (prog a s k) = true) ∧
      (ch = false → vmin - tol |(l.scaleRange vmin vmax n).2| s * s < a ∧ a + (k - 1) * s < vmax + tol |(l.scaleRange vmin vmax n).2| s * s) := by
  set x := ctxOf l r vmin vmax len m n ch with hx
  have key := groupLoop_inv l x (stairs l.groups) (fun _ h => h) 0 (rawStep x) ⟨[], none⟩ (.inl rfl)
  have use : ∀ t, Cand l x t → ∃ a s k, t = prog a s k ∧ 0 < k ∧ m ≤ (k : Int) ∧ (k : Int) ≤ n ∧ len * (11 / 10) ≤ s ∧
      (∃ g ∈ stairs l.groups, ∃ y ∈ g.1, s = y * (l.scaleRange vmin vmax n).1) ∧
      (ch = true → valid l r (prog a s k) = true) ∧
      (ch = false → vmin - tol |(l.scaleRange vmin vmax n).2| s * s < a ∧ a + (k - 1) * s < vmax + tol |(l.scaleRange vmin vmax n).2| s * s) := by
    rintro t ⟨ix, off, s, half, t0, hg, hl, ht0, rfl, hv⟩
    have hl' : len * (11 / 10) ≤ s := hl
    have hs : 0 < s := by linarith
    obtain ⟨⟨a, k, ha, hk1, hk2, hk3⟩, hmem⟩ := ticksOf_spec x s _ hs hm t0 ht0
    obtain ⟨c, hc, hc0⟩ := shiftTicks_map l x off s t0
    rw [hc, ha, prog_shift] at hv ⊢
    refine ⟨a + c, s, k, rfl, hk3, hk1, hk2, hl', hg, fun h => hv h, fun h => ?_⟩
    have hc0 := hc0 h
    subst hc0
    rw [add_zero]
    have e1 : x.vmin + x.offset = vmin := by simp [hx, ctxOf]
    have e2 : x.vmax + x.offset = vmax := by simp [hx, ctxOf]
    rw [e1, e2] at hmem
    constructor
    · have := ((hmem a).mp (by rw [ha]; unfold prog; rw [List.mem_map]; exact ⟨0, by simpa using hk3, by simp⟩)).2.1
      exact this
    · have := ((hmem (a + (k - 1) * s)).mp (by
        rw [ha]; unfold prog; rw [List.mem_map]
        refine ⟨k - 1, by rw [List.mem_range]; omega, ?_⟩
        rw [Nat.cast_sub (by omega)]; simp)).2.2
      exact this
  unfold spacedTicks
  simp only
  rw [← hx]
  cases hq : groupLoop l x 0 (stairs l.groups) (rawStep x) ⟨[], none⟩ with
  | inl st =>
    rw [hq] at key
    simp only at key ⊢
    rcases key with h | h
    · exact .inl h
    · exact .inr (use _ h)
  | inr t =>
    rw [hq] at key
    exact .inr (use _ key)

example : (spacedTicks (⟨false, none, [[1, 2, 5, 10]], fun _ _ _ => (1, 0), fun _ => 1, fun _ _ => c!"1", true, 1, 1⟩ : Loc ℚ) (0, 10) 0 10 1 2 5 false).1 = [0, 5, 10] := by decide +kernel

end Verif.Ticks
