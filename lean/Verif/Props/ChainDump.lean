import Mathlib.Tactic.Linarith
import Mathlib.Tactic.Positivity
import Mathlib.Tactic.NormNum
import Mathlib.Tactic.Ring
import Mathlib.Tactic.FieldSimp
import Mathlib.Algebra.Order.BigOperators.Group.Finset
import Mathlib.Algebra.BigOperators.Ring.Finset
import Mathlib.Data.Rat.Floor
import Verif.Model.ChainDump

/-!
# Density plots of spectra (C243, C244) and parameters for CAMB (C245, C246)
-/

namespace Verif.ChainDump
open Verif.Py

set_option linter.unusedSectionVars false

section density
variable {K : Type} [Field K] [LinearOrder K] [IsStrictOrderedRing K] [FloorRing K]

/-! ## Specification -/

/-- samples whose value lies in bin `k` of width `d` from `lo` on -/
def inBin (lo d : K) (k : Nat) (l : List (K × K)) : List (K × K) := l.filter fun s => decide (lo + k * d ≤ s.1 ∧ s.1 < lo + (k + 1) * d)

/-! ## Helpers -/

theorem foldl_max_ge (xs : List K) : ∀ x : K, x ≤ xs.foldl max x ∧ ∀ y ∈ xs, y ≤ xs.foldl max x := by
  induction xs with
  | nil => intro x; exact ⟨le_refl x, fun y hy => by cases hy⟩
  | cons a xs ih =>
    intro x
    obtain ⟨h1, h2⟩ := ih (max x a)
    refine ⟨le_trans (le_max_left _ _) h1, fun y hy => ?_⟩
    rcases List.mem_cons.mp hy with rfl | hy
    · exact le_trans (le_max_right _ _) h1
    · exact h2 y hy

theorem foldl_min_le (xs : List K) : ∀ x : K, xs.foldl min x ≤ x ∧ ∀ y ∈ xs, xs.foldl min x ≤ y := by
  induction xs with
  | nil => intro x; exact ⟨le_refl x, fun y hy => by cases hy⟩
  | cons a xs ih =>
    intro x
    obtain ⟨h1, h2⟩ := ih (min x a)
    refine ⟨le_trans h1 (min_le_left _ _), fun y hy => ?_⟩
    rcases List.mem_cons.mp hy with rfl | hy
    · exact le_trans h1 (min_le_right _ _)
    · exact h2 y hy

theorem foldl_min_mem (xs : List K) : ∀ x : K, xs.foldl min x ∈ x :: xs := by
  induction xs with
  | nil => intro x; simp
  | cons a xs ih =>
    intro x
    rcases List.mem_cons.mp (ih (min x a)) with h | h
    · change xs.foldl min (min x a) ∈ _
      rw [h]
      rcases min_choice x a with h | h <;> rw [h] <;> simp
    · exact List.mem_cons_of_mem _ (List.mem_cons_of_mem _ h)

theorem foldl_max_mem (xs : List K) : ∀ x : K, xs.foldl max x ∈ x :: xs := by
  induction xs with
  | nil => intro x; simp
  | cons a xs ih =>
    intro x
    rcases List.mem_cons.mp (ih (max x a)) with h | h
    · change xs.foldl max (max x a) ∈ _
      rw [h]
      rcases max_choice x a with h | h <;> rw [h] <;> simp
    · exact List.mem_cons_of_mem _ (List.mem_cons_of_mem _ h)

/-! ## C243 -/

/-- **C243**: for spectra that are not negative the bins start at zero -/
theorem minCl_zero (x : K) (xs : List K) (h : ∀ y ∈ x :: xs, 0 ≤ y) : minCl x xs = 0 := by
  have h0 : 0 ≤ minOf x xs := h _ (foldl_min_mem xs x)
  unfold minCl
  split
  · rfl
  · rename_i hn
    have : 0 ≤ minOf x xs / (104 / 100) := by positivity
    exact le_antisymm (not_lt.mp hn) this

example : minCl (3 : ℚ) [5, 7] = 0 := minCl_zero _ _ (by decide +kernel)

/-- **C243**: for spectra that are not negative (and not all zero) every value has a bin -/
theorem place_in (x : K) (xs : List K) (h : ∀ y ∈ x :: xs, 0 ≤ y) (hp : 0 < maxOf x xs) (n : Nat) (hn : 2 ≤ n) (v : K) (hv : v ∈ x :: xs) :
    0 ≤ place (minCl x xs) (delta (minCl x xs) (maxCl x xs) n) v ∧ place (minCl x xs) (delta (minCl x xs) (maxCl x xs) n) v < n := by
  have hvm : v ≤ maxOf x xs := by
    rcases List.mem_cons.mp hv with rfl | hv
    · exact (foldl_max_ge xs v).1
    · exact (foldl_max_ge xs x).2 v hv
  have hv0 := h v hv
  have hn1 : (0 : K) < (n : K) - 1 := by
    have : (2 : K) ≤ n := by exact_mod_cast hn
    linarith
  have hd : delta (minCl x xs) (maxCl x xs) n = maxOf x xs * (104 / 100) / ((n : K) - 1) := by
    unfold delta maxCl
    rw [minCl_zero x xs h, sub_zero]
  have hdp : 0 < delta (minCl x xs) (maxCl x xs) n := by
    rw [hd]
    positivity
  unfold place
  rw [minCl_zero x xs h, sub_zero]
  rw [minCl_zero x xs h] at hdp hd
  constructor
  · exact Int.floor_nonneg.mpr (div_nonneg hv0 hdp.le)
  · rw [Int.floor_lt, div_lt_iff₀ hdp, hd]
    have : maxOf x xs < (n : K) * (maxOf x xs * (104 / 100) / ((n : K) - 1)) := by
      rw [mul_div_assoc', lt_div_iff₀ hn1]
      nlinarith
    push_cast
    linarith

example : place (minCl (3 : ℚ) [5, 7]) (delta (minCl 3 [5, 7]) (maxCl 3 [5, 7]) 300) 7 < 300 := (place_in 3 [5, 7] (by decide +kernel) (by decide +kernel) 300 (by decide) 7 (by decide +kernel)).2

theorem place_iff (lo d v : K) (hd : 0 < d) (k : Nat) : place lo d v = k ↔ lo + k * d ≤ v ∧ v < lo + (k + 1) * d := by
  unfold place
  rw [Int.floor_eq_iff, le_div_iff₀ hd, div_lt_iff₀ hd]
  push_cast
  constructor
  · rintro ⟨h1, h2⟩; exact ⟨by linarith, by linarith⟩
  · rintro ⟨h1, h2⟩; exact ⟨by linarith, by linarith⟩

/-- **C243**: if all values have bins, the counts are numbers of samples in each bin and the sums are those of their parameters -/
theorem accum_spec (lo d : K) (hd : 0 < d) (n : Nat) (l : List (K × K)) (h : ∀ s ∈ l, 0 ≤ place lo d s.1 ∧ place lo d s.1 < n) :
    ∃ ps cs, accum lo d n l = .ok (ps, cs) ∧ (∀ k, cs k = ((inBin lo d k l).length : K)) ∧ ∀ k, ps k = ((inBin lo d k l).map Prod.snd).sum := by
  induction l with
  | nil => exact ⟨_, _, rfl, fun k => by simp [inBin], fun k => by simp [inBin]⟩
  | cons s l ih =>
    obtain ⟨ps, cs, he, hc, hp⟩ := ih fun t ht => h t (List.mem_cons_of_mem _ ht)
    obtain ⟨h0, h1⟩ := h s List.mem_cons_self
    have hix : arrayIx n (place lo d s.1) = .ok (place lo d s.1).toNat := by
      unfold arrayIx
      rw [if_pos h0, if_pos h1]
    refine ⟨_, _, by rw [accum, he]; dsimp only; rw [hix], fun k => ?_, fun k => ?_⟩
    · simp only [addAt, inBin, List.filter_cons]
      have hk : k = (place lo d s.1).toNat ↔ (lo + k * d ≤ s.1 ∧ s.1 < lo + (k + 1) * d) := by
        rw [← place_iff lo d s.1 hd k]
        omega
      by_cases hb : lo + k * d ≤ s.1 ∧ s.1 < lo + (k + 1) * d
      · rw [if_pos (hk.mpr hb), if_pos (by simpa using hb), hc k]
        simp [inBin]
      · rw [if_neg (fun e => hb (hk.mp e)), if_neg (by simpa using hb), hc k]
        rfl
    · simp only [addAt, inBin, List.filter_cons]
      have hk : k = (place lo d s.1).toNat ↔ (lo + k * d ≤ s.1 ∧ s.1 < lo + (k + 1) * d) := by
        rw [← place_iff lo d s.1 hd k]
        omega
      by_cases hb : lo + k * d ≤ s.1 ∧ s.1 < lo + (k + 1) * d
      · rw [if_pos (hk.mpr hb), if_pos (by simpa using hb), hp k]
        simp [inBin, add_comm]
      · rw [if_neg (fun e => hb (hk.mp e)), if_neg (by simpa using hb), hp k]
        rfl

example : ∃ ps cs, accum (0 : ℚ) 1 12 [(1 / 2, 7), (3 / 4, 9), (5, 1)] = .ok (ps, cs) ∧ cs 0 = 2 ∧ ps 0 = 16 := by
  obtain ⟨ps, cs, h1, h2, h3⟩ := accum_spec (0 : ℚ) 1 (by norm_num) 12 [(1 / 2, 7), (3 / 4, 9), (5, 1)] (by decide +kernel)
  refine ⟨ps, cs, h1, ?_, ?_⟩
  · rw [h2]; decide +kernel
  · rw [h3]; decide +kernel

/-- smoothing keeps order -/
theorem smooth_le (w : Nat → K) (hw : ∀ j, 0 ≤ w j) (n : Nat) (a b : Nat → K) (h : ∀ k, a k ≤ b k) (k : Nat) : smooth w n a k ≤ smooth w n b k := by
  unfold smooth
  refine Finset.sum_le_sum fun j _ => ?_
  split
  · exact mul_le_mul_of_nonneg_right (h _) (hw j)
  · exact le_refl 0

theorem smooth_smul (w : Nat → K) (n : Nat) (a : Nat → K) (c : K) (k : Nat) : smooth w n (fun m => c * a m) k = c * smooth w n a k := by
  unfold smooth
  rw [Finset.mul_sum]
  refine Finset.sum_congr rfl fun j _ => ?_
  split <;> ring

theorem smooth_nonneg (w : Nat → K) (hw : ∀ j, 0 ≤ w j) (n : Nat) (a : Nat → K) (h : ∀ k, 0 ≤ a k) (k : Nat) : 0 ≤ smooth w n a k := by
  unfold smooth
  refine Finset.sum_nonneg fun j _ => ?_
  split
  · exact mul_nonneg (h _) (hw j)
  · exact le_refl 0

theorem smooth_pos (w : Nat → K) (hw : ∀ j, 0 < w j) (n : Nat) (a : Nat → K) (h : ∀ k, 0 ≤ a k) (k m : Nat) (hm : m < n) (h1 : m ≤ k + 5) (h2 : k ≤ m + 5) (ha : 0 < a m) :
    0 < smooth w n a k := by
  unfold smooth
  refine Finset.sum_pos' (fun j _ => ?_) ⟨k + 5 - m, Finset.mem_range.mpr (by omega), ?_⟩
  · split
    · exact mul_nonneg (h _) (hw j).le
    · exact le_refl 0
  · rw [if_pos ⟨by omega, by omega⟩, show k + 5 - (k + 5 - m) = m by omega]
    exact mul_pos ha (hw _)

/-- **C243**: the value that gives the colour lies between the least and the largest parameter of the samples, wherever there is density, below all density and above
all density -/
theorem colour_between (w : Nat → K) (hw : ∀ j, 0 ≤ w j) (n : Nat) (ps cs f : Nat → K) (a b : K) (h1 : ∀ k, a * cs k ≤ ps k) (h2 : ∀ k, ps k ≤ b * cs k)
    (hf : shade w n ps cs = .ok f) (k : Nat)
    (hk : 0 < smooth w n cs k ∨ (∀ j < n, 0 < smooth w n cs j → k < j) ∨ (∀ j < n, 0 < smooth w n cs j → j ≤ k)) : a ≤ f k ∧ f k ≤ b := by
  have hv : ∀ m, 0 < smooth w n cs m → a ≤ smooth w n ps m / smooth w n cs m ∧ smooth w n ps m / smooth w n cs m ≤ b := by
    intro m hm
    rw [le_div_iff₀ hm, div_le_iff₀ hm, ← smooth_smul, ← smooth_smul]
    exact ⟨smooth_le w hw n _ _ h1 m, smooth_le w hw n _ _ h2 m⟩
  unfold shade at hf
  split at hf
  · rename_i lo hi hlo hhi
    cases hf
    have mlo : lo ∈ places n (smooth w n cs) := List.mem_of_mem_head? hlo
    have mhi : hi ∈ places n (smooth w n cs) := List.mem_of_getLast? hhi
    simp only [places, List.mem_filter, List.mem_range, decide_eq_true_eq] at mlo mhi
    have plo := hv lo mlo.2
    have phi := hv hi mhi.2
    dsimp only
    rcases hk with hk | hk | hk
    · have pk := hv k hk
      rw [if_pos mlo.2, if_pos mhi.2, if_pos hk]
      split
      · exact plo
      · split
        · exact phi
        · exact pk
    · rw [if_pos (hk lo mlo.1 mlo.2), if_pos mlo.2]
      exact plo
    · rw [if_neg (not_lt.mpr (hk lo mlo.1 mlo.2)), if_pos (hk hi mhi.1 mhi.2), if_pos mhi.2]
      exact phi
  · cases hf

/-- **C243**: the condition of `colour_between` holds for the sums of samples whose parameters lie between the limits -/
theorem sums_between (lo d : K) (l : List (K × K)) (a b : K) (h : ∀ s ∈ l, a ≤ s.2 ∧ s.2 ≤ b) (k : Nat) :
    a * ((inBin lo d k l).length : K) ≤ ((inBin lo d k l).map Prod.snd).sum ∧ ((inBin lo d k l).map Prod.snd).sum ≤ b * ((inBin lo d k l).length : K) := by
  have key : ∀ m : List (K × K), (∀ s ∈ m, a ≤ s.2 ∧ s.2 ≤ b) → a * (m.length : K) ≤ (m.map Prod.snd).sum ∧ (m.map Prod.snd).sum ≤ b * (m.length : K) := by
    intro m
    induction m with
    | nil => intro _; simp
    | cons s m ih =>
      intro hm
      obtain ⟨i1, i2⟩ := ih fun t ht => hm t (List.mem_cons_of_mem _ ht)
      obtain ⟨s1, s2⟩ := hm s List.mem_cons_self
      simp only [List.length_cons, List.map_cons, List.sum_cons]
      push_cast
      constructor <;> linarith
  exact key _ fun s hs => h s (List.mem_of_mem_filter hs)

example : (2 : ℚ) * ((inBin (0 : ℚ) 1 0 [(1 / 2, 7), (3 / 4, 9), (5, 2)]).length : ℚ) ≤ ((inBin (0 : ℚ) 1 0 [(1 / 2, 7), (3 / 4, 9), (5, 2)]).map Prod.snd).sum :=
  (sums_between 0 1 _ 2 9 (by decide +kernel) 0).1

/-- **C243**: if there is a sample the colours can be computed -/
theorem shade_ok (w : Nat → K) (hw : ∀ j, 0 < w j) (n : Nat) (ps cs : Nat → K) (h : ∀ k, 0 ≤ cs k) (m : Nat) (hm : m < n) (hp : 0 < cs m) : ∃ f, shade w n ps cs = .ok f := by
  have hmem : m ∈ places n (smooth w n cs) := by
    simp only [places, List.mem_filter, List.mem_range, decide_eq_true_eq]
    exact ⟨hm, smooth_pos w hw n cs h m m hm (by omega) (by omega) hp⟩
  unfold shade
  cases h1 : (places n (smooth w n cs)).head? with
  | none => rw [List.head?_eq_none_iff] at h1; rw [h1] at hmem; cases hmem
  | some lo =>
    cases h2 : (places n (smooth w n cs)).getLast? with
    | none => rw [List.getLast?_eq_none_iff] at h2; rw [h2] at hmem; cases hmem
    | some hi => exact ⟨_, rfl⟩

/-- one sample in bin 3 with parameter 7 -/
example : ∃ f : Nat → ℚ, shade (fun _ => 1 / 11) 20 (fun k => if k = 3 then 7 else 0) (fun k => if k = 3 then 1 else 0) = .ok f ∧ f 15 = 7 ∧ f 0 = 7 := by
  have hw : ∀ j : Nat, (0 : ℚ) < (fun _ => 1 / 11 : Nat → ℚ) j := fun _ => by norm_num
  obtain ⟨f, hf⟩ := shade_ok (fun _ => (1 / 11 : ℚ)) hw 20 (fun k => if k = 3 then 7 else 0) (fun k => if k = 3 then 1 else 0) (fun k => by split <;> norm_num) 3 (by norm_num) (by norm_num)
  have hb := fun k hk => colour_between (fun _ => (1 / 11 : ℚ)) (fun j => (hw j).le) 20 _ _ f 7 7 (fun k => by split <;> norm_num) (fun k => by split <;> norm_num) hf k hk
  refine ⟨f, hf, ?_, ?_⟩
  · obtain ⟨u, v⟩ := hb 15 (.inr (.inr (by decide +kernel)))
    exact le_antisymm v u
  · obtain ⟨u, v⟩ := hb 0 (.inl (by decide +kernel))
    exact le_antisymm v u

/-- **C243**: opacity is between zero and one, and one somewhere -/
theorem opacity_range (w : Nat → K) (hw : ∀ j, 0 < w j) (n : Nat) (cs : Nat → K) (h : ∀ k, 0 ≤ cs k) (m : Nat) (hm : m < n) (hp : 0 < cs m) :
    (∀ k < n, 0 ≤ opacity w n cs k ∧ opacity w n cs k ≤ 1) ∧ ∃ k < n, opacity w n cs k = 1 := by
  set M := maxOf (smooth w n cs 0) ((List.range n).map (smooth w n cs)) with hM
  have hge : ∀ k < n, smooth w n cs k ≤ M := fun k hk => (foldl_max_ge _ _).2 _ (List.mem_map.mpr ⟨k, List.mem_range.mpr hk, rfl⟩)
  have hpos : 0 < M := lt_of_lt_of_le (smooth_pos w hw n cs h m m hm (by omega) (by omega) hp) (hge m hm)
  refine ⟨fun k hk => ⟨div_nonneg (smooth_nonneg w (fun j => (hw j).le) n cs h k) hpos.le, (div_le_one hpos).mpr (hge k hk)⟩, ?_⟩
  have hmem := foldl_max_mem ((List.range n).map (smooth w n cs)) (smooth w n cs 0)
  have : ∃ k < n, smooth w n cs k = M := by
    rcases List.mem_cons.mp hmem with e | e
    · exact ⟨0, by omega, e.symm⟩
    · obtain ⟨k, hk, e⟩ := List.mem_map.mp e
      exact ⟨k, List.mem_range.mp hk, e⟩
  obtain ⟨k, hk, e⟩ := this
  refine ⟨k, hk, ?_⟩
  change smooth w n cs k / M = 1
  rw [e, div_self hpos.ne']

example : ∃ k < 20, opacity (fun _ => (1 / 11 : ℚ)) 20 (fun k => if k = 3 then 1 else 0) k = 1 :=
  (opacity_range _ (fun _ => by norm_num) 20 _ (fun k => by split <;> norm_num) 3 (by norm_num) (by norm_num)).2

/-! ## C244 -/

/-- **C244 fails**: the least value of spectra that go below zero is always left of the first bin (a negative number divided by 1.04 is larger), so it is counted from
the other end (chainDumpPlot.py:45-48, 54) -/
theorem negative_fails (x : K) (xs : List K) (h : minOf x xs < 0) (d : K) (hd : 0 < d) : place (minCl x xs) d (minOf x xs) < 0 := by
  have h1 : minOf x xs / (104 / 100) < 0 := div_neg_of_neg_of_pos h (by norm_num)
  have e : minCl x xs = minOf x xs / (104 / 100) := by
    unfold minCl
    rw [if_neg (not_lt.mpr h1.le)]
  unfold place
  rw [Int.floor_lt, e]
  push_cast
  apply div_neg_of_neg_of_pos _ hd
  have : minOf x xs < minOf x xs / (104 / 100) := by
    rw [lt_div_iff₀ (by norm_num)]
    linarith
  linarith

example : place (minCl (-100 : ℚ) [100]) (1 / 2) (-100) < 0 := negative_fails (-100) [100] (by decide +kernel) (1 / 2) (by norm_num)

/-- **C244 fails**: of two values -100 and 100 in 300 bins the first is counted in bin 294, that of values near 100.6 (chainDumpPlot.py:45-57) -/
theorem wraps_fails : arrayIx 300 (place (minCl (-100 : ℚ) [100]) (delta (minCl (-100) [100]) (maxCl (-100) [100]) 300) (-100)) = .ok 294 ∧
    (100 : ℚ) < minCl (-100 : ℚ) [100] + 294 * delta (minCl (-100) [100]) (maxCl (-100) [100]) 300 := by
  constructor <;> decide +kernel

example : minCl (-100 : ℚ) [100] = -100 / (104 / 100) := by decide +kernel

/-- **C244 fails**: spectra that are all negative end in an IndexError: the largest value is above the last bin (chainDumpPlot.py:47-57) -/
theorem all_negative_fails : (match accum (minCl (-100 : ℚ) [-50]) (delta (minCl (-100) [-50]) (maxCl (-100) [-50]) 300) 300 [(-50, 1)] with | .error e => some e | .ok _ => none) = some .index := by
  decide +kernel

example : 300 ≤ place (minCl (-100 : ℚ) [-50]) (delta (minCl (-100) [-50]) (maxCl (-100) [-50]) 300) (-50) := by decide +kernel

/-- **C244 fails**: with Python 3 nothing can be plotted: the number of multipoles is a float (chainDumpPlot.py:49-50) -/
theorem python3_fails (lmax deltaL : Nat) : numL true lmax deltaL = .error .type := rfl

example : numL false 200 1 = .ok 199 := rfl

/-- **C244 fails**: a bin without samples between others is shown in the colour of the value zero if the next multipole has samples there: opacity is smoothed over
multipoles but the colour is not (chainDumpPlot.py:62-77) -/
theorem gap_fails (w : Nat → K) (hw : ∀ j, 0 < w j) (nL i : Nat) (hi : i + 1 < nL) (s : Nat → Nat → K) (hs : ∀ m k, 0 ≤ s m k) (h15 : 0 < s (i + 1) 15) :
    0 < overL w nL 1 s i 15 ∧
    ∃ f, shade w 30 (fun k => if k = 0 ∨ k = 29 then 7 else 0) (fun k => if k = 0 ∨ k = 29 then (1 : K) else 0) = .ok f ∧ f 15 = 0 := by
  constructor
  · unfold overL
    rw [if_pos rfl]
    exact smooth_pos w hw nL (fun m => s m 15) (fun m => hs m 15) i (i + 1) hi (by omega) (by omega) h15
  · set cs : Nat → K := fun k => if k = 0 ∨ k = 29 then (1 : K) else 0 with hcs
    set ps : Nat → K := fun k => if k = 0 ∨ k = 29 then (7 : K) else 0 with hps
    have hc : ∀ k, 0 ≤ cs k := fun k => by rw [hcs]; dsimp only; split <;> norm_num
    have p0 : 0 < smooth w 30 cs 0 := smooth_pos w hw 30 cs hc 0 0 (by norm_num) (by norm_num) (by norm_num) (by simp [hcs])
    have p29 : 0 < smooth w 30 cs 29 := smooth_pos w hw 30 cs hc 29 29 (by norm_num) (by norm_num) (by norm_num) (by simp [hcs])
    have z : ∀ a : Nat → K, (∀ k, k ≠ 0 → k ≠ 29 → a k = 0) → smooth w 30 a 15 = 0 := by
      intro a ha
      unfold smooth
      refine Finset.sum_eq_zero fun j hj => ?_
      have := Finset.mem_range.mp hj
      split
      · rw [ha _ (by omega) (by omega), zero_mul]
      · rfl
    have z1 : smooth w 30 cs 15 = 0 := z cs fun k h1 h2 => by simp [hcs, h1, h2]
    have z2 : smooth w 30 ps 15 = 0 := z ps fun k h1 h2 => by simp [hps, h1, h2]
    have hhead : (places 30 (smooth w 30 cs)).head? = some 0 := by
      unfold places
      rw [show List.range 30 = 0 :: (List.range 29).map (· + 1) by decide, List.filter_cons, if_pos (by simpa using p0)]
      rfl
    have hlast : (places 30 (smooth w 30 cs)).getLast? = some 29 := by
      unfold places
      rw [show List.range 30 = List.range 29 ++ [29] by decide, List.filter_append, List.filter_cons, if_pos (by simpa using p29), List.filter_nil, List.getLast?_append]
      rfl
    refine ⟨_, by unfold shade; rw [hhead, hlast], ?_⟩
    dsimp only
    rw [if_neg (by norm_num), if_neg (by norm_num), z1, if_neg (lt_irrefl 0), z2]

example : 0 < overL (fun _ => (1 / 11 : ℚ)) 199 1 (fun m _ => if m = 8 then 1 else 0) 7 15 :=
  (gap_fails (fun _ => (1 / 11 : ℚ)) (fun _ => by norm_num) 199 7 (by norm_num) (fun m _ => if m = 8 then 1 else 0) (fun m k => by split <;> norm_num) (by norm_num)).1

end density

/-! ## C245 -/

section camb
variable {R : Type} [Field R] [DecidableEq R]

/-- names that are read -/
def used : List Str :=
  [c!"wa", c!"alpha1", c!"Alens", c!"Aphiphi", c!"H0", c!"omegabh2", c!"omegach2", c!"tau", c!"ns", c!"A", c!"mnu", c!"omegak", c!"deltazrei", c!"nnu", c!"yheused", c!"meffsterile",
    c!"r", c!"nrun", c!"nrunrun", c!"w"]

/-- names that must be given -/
def basic : List Str := [c!"H0", c!"omegabh2", c!"omegach2", c!"tau", c!"ns", c!"A"]

/-- models that the converter knows: values of the four parameters are the standard ones if given -/
def Supported (p : Dict Str R) : Prop :=
  (∀ v, p.get? c!"wa" = some v → v = 0) ∧ (∀ v, p.get? c!"alpha1" = some v → v = 0) ∧ (∀ v, p.get? c!"Alens" = some v → v = 1) ∧ (∀ v, p.get? c!"Aphiphi" = some v → v = 1)

theorem getD_iff (o : Option R) (c : R) : o.getD c = c ↔ ∀ v, o = some v → v = c := by
  cases o <;> simp

theorem supported_iff (p : Dict Str R) : Supported p ↔
    ¬ ((p.get? c!"wa").getD 0 ≠ 0 ∨ (p.get? c!"alpha1").getD 0 ≠ 0 ∨ (p.get? c!"Alens").getD 1 ≠ 1 ∨ (p.get? c!"Aphiphi").getD 1 ≠ 1) := by
  unfold Supported
  simp only [not_or, not_not, getD_iff]

/-- **C245**: parameters that are read are the named ones: two points that agree on them give the same cosmology -/
theorem camb_depends (p q : Dict Str R) (h : ∀ n ∈ used, p.get? n = q.get? n) : cambParams p = cambParams q := by
  have hn : ∀ n ∈ used, need p n = need q n := fun n hn => by unfold need; rw [h n hn]
  simp only [used, List.mem_cons, List.not_mem_nil, or_false, forall_eq_or_imp, forall_eq] at h hn
  obtain ⟨h1, h2, h3, h4, h5, h6, h7, h8, h9, h10, h11, h12, h13, h14, h15, h16, h17, h18, h19, h20⟩ := h
  obtain ⟨_, _, _, _, n5, n6, n7, n8, n9, n10, _⟩ := hn
  unfold cambParams
  simp only [h1, h2, h3, h4, h11, h12, h13, h14, h15, h16, h17, h18, h19, h20, n5, n6, n7, n8, n9, n10]

/-- **C245**: a point is converted exactly if its model is known and the six basic parameters are given -/
theorem camb_ok_iff (p : Dict Str R) : (∃ c, cambParams p = .ok c) ↔ Supported p ∧ ∀ n ∈ basic, (p.get? n).isSome := by
  rw [supported_iff]
  unfold cambParams
  dsimp only
  split
  · rename_i h
    simp only [reduceCtorEq, exists_false, false_iff]
    exact fun hh => hh.1 h
  · rename_i h
    simp only [h, not_false_eq_true, true_and, basic, List.mem_cons, List.not_mem_nil, or_false, forall_eq_or_imp, forall_eq]
    unfold need
    cases p.get? c!"H0" <;> cases p.get? c!"omegabh2" <;> cases p.get? c!"omegach2" <;> cases p.get? c!"tau" <;> cases p.get? c!"ns" <;> cases p.get? c!"A" <;>
      simp [bind, Except.bind, pure, Except.pure]

/-- **C245**: what each parameter becomes: values given or those of the standard model; the amplitude is that of `10^9 A_s` -/
theorem camb_values (p : Dict Str R) (c : Camb R) (h : cambParams p = .ok c) (h10 : (10 : R) ≠ 0) :
    p.get? c!"H0" = some c.h0 ∧ p.get? c!"omegabh2" = some c.ombh2 ∧ p.get? c!"omegach2" = some c.omch2 ∧ p.get? c!"tau" = some c.tau ∧ p.get? c!"ns" = some c.ns ∧
    p.get? c!"A" = some (c.as * 10 ^ 9) ∧ c.mnu = (p.get? c!"mnu").getD (6 / 100) ∧ c.omk = (p.get? c!"omegak").getD 0 ∧ c.nnu = (p.get? c!"nnu").getD (3046 / 1000) ∧
    c.w = (p.get? c!"w").getD (-1) ∧ c.r = (p.get? c!"r").getD 0 ∧ c.nrun = (p.get? c!"nrun").getD 0 ∧ c.nrunrun = (p.get? c!"nrunrun").getD 0 ∧
    c.meffsterile = (p.get? c!"meffsterile").getD 0 ∧ c.deltazrei = p.get? c!"deltazrei" ∧ c.yhe = p.get? c!"yheused" := by
  unfold cambParams at h
  dsimp only at h
  split at h
  · cases h
  unfold need at h
  cases e1 : p.get? c!"H0" <;> rw [e1] at h <;> try cases h
  cases e2 : p.get? c!"omegabh2" <;> rw [e2] at h <;> try cases h
  cases e3 : p.get? c!"omegach2" <;> rw [e3] at h <;> try cases h
  cases e4 : p.get? c!"tau" <;> rw [e4] at h <;> try cases h
  cases e5 : p.get? c!"ns" <;> rw [e5] at h <;> try cases h
  cases e6 : p.get? c!"A" <;> rw [e6] at h <;> try cases h
  rename_i a
  refine ⟨rfl, rfl, rfl, rfl, rfl, ?_, rfl, rfl, rfl, rfl, rfl, rfl, rfl, rfl, rfl, rfl⟩
  have : a * (1 / 10 ^ 9) * 10 ^ 9 = a := by field_simp
  rw [this]

/-- a standard point -/
def point : Dict Str ℚ := [(c!"omegabh2", 22 / 1000), (c!"omegach2", 12 / 100), (c!"H0", 67), (c!"tau", 5 / 100), (c!"ns", 96 / 100), (c!"A", 21 / 10), (c!"r", 1 / 100)]

example : ∃ c, cambParams point = .ok c := (camb_ok_iff point).mpr ⟨by rw [supported_iff]; decide +kernel, by decide +kernel⟩

example : cambParams point = cambParams (point ++ [(c!"chi2_CMB", 7)]) := camb_depends _ _ (by decide +kernel)

example : ∀ c, cambParams point = .ok c → c.r = 1 / 100 ∧ c.w = -1 := by
  intro c hc
  obtain ⟨_, _, _, _, _, _, _, _, _, hw, hr, _⟩ := camb_values point c hc (by norm_num)
  exact ⟨by rw [hr]; decide +kernel, by rw [hw]; decide +kernel⟩

/-! ## C246 -/

/-- **C246 fails**: tensor index and running, the fiducial lensing amplitude and dark matter annihilation are left out without a message, whatever their values
(cosmomc_to_camb.py:18-27) -/
theorem ignored_fails (p : Dict Str R) (n : Str) (hn : n ∈ [c!"nt", c!"ntrun", c!"Alensf", c!"fdm"]) (v : R) : cambParams (p.set n v) = cambParams p := by
  apply camb_depends
  intro m hm
  have : n ≠ m := by
    revert n m
    decide
  rw [Dict.get?_set, if_neg this.symm]

example (v : ℚ) : cambParams (point.set c!"nt" v) = cambParams point := ignored_fails point _ (by decide) v

/-- **C246 fails**: a point of sampled parameters (with `logA` and `theta`) cannot be converted: `A` and `H0` are derived (cosmomc_to_camb.py:20, 25) -/
theorem sampled_fails (p : Dict Str R) (h : p.get? c!"A" = none ∨ p.get? c!"H0" = none) : ¬ ∃ c, cambParams p = .ok c := by
  rw [camb_ok_iff]
  rintro ⟨_, hb⟩
  rcases h with h | h
  · have := hb c!"A" (by decide)
    rw [h] at this
    cases this
  · have := hb c!"H0" (by decide)
    rw [h] at this
    cases this

example : ¬ ∃ c, cambParams ([(c!"omegabh2", 22 / 1000), (c!"omegach2", 12 / 100), (c!"theta", 104 / 100), (c!"tau", 5 / 100), (c!"ns", 96 / 100), (c!"logA", 3)] : Dict Str ℚ) = .ok c :=
  sampled_fails _ (.inl (by decide +kernel))

end camb

end Verif.ChainDump
