import Verif.Model.Bandwidth
import Mathlib.Tactic.Linarith
import Mathlib.Tactic.Positivity
import Mathlib.Tactic.FieldSimp
import Mathlib.Tactic.Ring
import Mathlib.Tactic.NormNum
import Mathlib.Tactic.GCongr

/-!
# Automatic bandwidths (C188, C189)
-/

set_option linter.unusedSectionVars false
set_option linter.unusedSimpArgs false

namespace Verif.Bandwidth
open Verif.Py Verif.Py.Np Verif.Kde1D Real

/-! ## One dimension: the fixed point is the best width -/

/-- the mean integrated square error of a Gaussian kernel of width `h` with `N` samples of a density whose second derivative has square norm `f`,
to leading order: variance and squared bias -/
noncomputable def error1 (N f h : ℝ) : ℝ := 1 / (2 * N * √π * h) + h ^ 4 / 4 * f

theorem oddProd_pos : ∀ j, 0 < oddProd j
  | 0 => by decide
  | j + 1 => Nat.mul_pos (by omega) (oddProd_pos j)

theorem const1_pos (j : Nat) : 0 < const1 j := by
  unfold const1
  have : (0 : ℝ) < (oddProd j : ℝ) := by exact_mod_cast oddProd_pos j
  have h2 : (0 : ℝ) < (1 / 2 : ℝ) ^ ((j : ℝ) + 1 / 2) := Real.rpow_pos_of_pos (by norm_num) _
  have h3 : (0 : ℝ) < √π := Real.sqrt_pos.mpr Real.pi_pos
  positivity

/-- the coefficients of data that is not flat -/
structure Rough (a2 : List ℝ) : Prop where
  nonneg : ∀ x ∈ a2, 0 ≤ x
  pos : ∃ x ∈ a2, 0 < x

theorem sum_pos_of {l : List ℝ} (h : ∀ x ∈ l, 0 ≤ x) (hp : ∃ x ∈ l, 0 < x) : 0 < l.sum := by
  induction l with
  | nil => obtain ⟨x, hx, _⟩ := hp; cases hx
  | cons a l ih =>
    rw [List.sum_cons]
    have ha := h a (by simp)
    have hl : 0 ≤ l.sum := List.sum_nonneg (fun x hx => h x (by simp [hx]))
    obtain ⟨x, hx, hx0⟩ := hp
    rcases List.mem_cons.mp hx with rfl | hx
    · linarith
    · have := ih (fun x hx => h x (by simp [hx])) ⟨x, hx, hx0⟩
      linarith

theorem norm1_pos {a2 : List ℝ} (h : Rough a2) (j : Nat) (t : ℝ) : 0 < norm1 a2 j t := by
  unfold norm1
  have hpi := Real.pi_pos
  refine mul_pos (by positivity) (sum_pos_of ?_ ?_)
  · intro x hx
    obtain ⟨e, he, rfl⟩ := List.mem_map.mp hx
    have : e.1 ∈ a2 := by
      obtain ⟨a, b⟩ := e
      exact (List.mem_zipIdx' he).2 ▸ List.getElem_mem _
    exact mul_nonneg (h.nonneg _ this) (Real.exp_pos _).le
  · obtain ⟨x, hx, hx0⟩ := h.pos
    obtain ⟨k, hk, rfl⟩ := List.mem_iff_getElem.mp hx
    refine ⟨_, List.mem_map.mpr ⟨(a2[k], k), ?_, rfl⟩, mul_pos hx0 (Real.exp_pos _)⟩
    rw [List.mem_iff_getElem]
    exact ⟨k, by simpa using hk, by simp⟩

theorem stage_ok {a2 : List ℝ} (h : Rough a2) (N f : ℝ) (j : Nat) (hf : 0 < f) :
    stage N a2 f j = .ok (norm1 a2 j ((const1 j / N / f) ^ (2 / (3 + 2 * (j : ℝ))))) := by
  unfold stage
  rw [if_neg hf.ne']
  simp only []
  rw [if_neg (norm1_pos h j _).ne']

/-- for data that is not flat the estimate exists, is positive, and is the norm of the second derivative of the data smoothed by some positive time -/
theorem lastNorm_ok {a2 : List ℝ} (h : Rough a2) (N : ℝ) (hN : 0 < N) (x : ℝ) : ∃ t, 0 < t ∧ lastNorm N a2 x = .ok (norm1 a2 2 t) ∧ 0 < norm1 a2 2 t := by
  unfold lastNorm
  simp only [List.foldlM_cons, List.foldlM_nil]
  rw [stage_ok h N _ 6 (norm1_pos h _ _)]
  simp only [bind, Except.bind]
  rw [stage_ok h N _ 5 (norm1_pos h _ _)]
  simp only []
  rw [stage_ok h N _ 4 (norm1_pos h _ _)]
  simp only []
  rw [stage_ok h N _ 3 (norm1_pos h _ _)]
  simp only []
  rw [stage_ok h N _ 2 (norm1_pos h _ _)]
  refine ⟨_, ?_, rfl, norm1_pos h _ _⟩
  exact Real.rpow_pos_of_pos (div_pos (div_pos (const1_pos 2) hN) (norm1_pos h _ _)) _

example : ∃ t, 0 < t ∧ lastNorm 100 [1, 0] 3 = .ok (norm1 [1, 0] 2 t) ∧ 0 < norm1 [1, 0] 2 t :=
  lastNorm_ok ⟨by simp, 1, by simp, by norm_num⟩ 100 (by norm_num) 3

/-- the equation can be evaluated at every width, and its value is below the width -/
theorem fixedPoint_ok {a2 : List ℝ} (h : Rough a2) (N : ℝ) (hN : 0 < N) (x : ℝ) : ∃ y, fixedPoint N a2 x = .ok y ∧ y < x := by
  unfold fixedPoint
  split
  · exact ⟨_, rfl, by linarith⟩
  · obtain ⟨t, _, ht, hp⟩ := lastNorm_ok h N hN x
    rw [ht]
    refine ⟨_, rfl, ?_⟩
    have : (0 : ℝ) < (2 * N * √π * norm1 a2 2 t) ^ (-1 / 5 : ℝ) := Real.rpow_pos_of_pos (by
      have := Real.sqrt_pos.mpr Real.pi_pos
      positivity) _
    linarith

/-- flat data has no solution: the search ends with an exception at every positive width -/
theorem fixedPoint_flat (N : ℝ) (a2 : List ℝ) (h0 : ∀ x ∈ a2, x = 0) (x : ℝ) (hx : 0 < x) : fixedPoint N a2 x = .error .zeroF := by
  unfold fixedPoint
  rw [if_neg (by linarith)]
  have : norm1 a2 7 (x ^ 2) = 0 := by
    unfold norm1
    have : ∀ l : List (ℝ × Nat), (∀ e ∈ l, e.1 = 0) →
        (l.map (fun e => e.1 * exp (((7 : Nat) : ℝ) * log (sq e.2) - sq e.2 * (π ^ 2 * x ^ 2)))).sum = 0 := by
      intro l hl
      induction l with
      | nil => rfl
      | cons e l ih =>
        rw [List.map_cons, List.sum_cons, ih (fun e he => hl e (by simp [he])), hl e (by simp)]
        ring
    rw [this _ (fun e he => h0 _ (by
      obtain ⟨a, b⟩ := e
      exact (List.mem_zipIdx' he).2 ▸ List.getElem_mem _))]
    ring
  unfold lastNorm
  rw [this]
  simp only [List.foldlM_cons]
  unfold stage
  rw [if_pos rfl]
  rfl

theorem quintic (u v : ℝ) (hu : 0 < u) (hv : 0 < v) : 5 * u ^ 4 * v ≤ 4 * u ^ 5 + v ^ 5 := by
  have h : 4 * u ^ 5 + v ^ 5 - 5 * u ^ 4 * v = (v - u) ^ 2 * (v ^ 3 + 2 * u * v ^ 2 + 3 * u ^ 2 * v + 4 * u ^ 3) := by ring
  have : 0 ≤ (v - u) ^ 2 * (v ^ 3 + 2 * u * v ^ 2 + 3 * u ^ 2 * v + 4 * u ^ 3) := by positivity
  linarith

theorem best1 (N f u : ℝ) (hN : 0 < N) (hf : 0 < f) (hu : u = (2 * N * √π * f) ^ (-1 / 5 : ℝ)) : 0 < u ∧ ∀ v, 0 < v → error1 N f u ≤ error1 N f v := by
  have hs := Real.sqrt_pos.mpr Real.pi_pos
  have hb : (0 : ℝ) < 2 * N * √π * f := by positivity
  have hu0 : 0 < u := by rw [hu]; exact Real.rpow_pos_of_pos hb _
  have h5 : u ^ 5 * (2 * N * √π * f) = 1 := by
    have : u ^ 5 = (2 * N * √π * f)⁻¹ := by
      rw [hu, ← Real.rpow_natCast, ← Real.rpow_mul hb.le, show (-1 / 5 : ℝ) * ((5 : Nat) : ℝ) = -1 by norm_num, Real.rpow_neg_one]
    rw [this]
    exact inv_mul_cancel₀ hb.ne'
  refine ⟨hu0, fun v hv => ?_⟩
  have hk : 1 / (2 * N * √π) = u ^ 5 * f := by
    rw [div_eq_iff (by positivity)]
    linarith
  have he : ∀ w, 0 < w → error1 N f w = f * (u ^ 5 / w + w ^ 4 / 4) := by
    intro w hw
    unfold error1
    rw [← div_div, hk]
    ring
  rw [he u hu0, he v hv]
  refine mul_le_mul_of_nonneg_left ?_ hf.le
  have h1 : u ^ 5 / u = u ^ 4 := by field_simp
  rw [h1]
  have := quintic u v hu0 hv
  rw [← sub_nonneg]
  have h2 : u ^ 5 / v + v ^ 4 / 4 - (u ^ 4 + u ^ 4 / 4) = (4 * u ^ 5 + v ^ 5 - 5 * u ^ 4 * v) / (4 * v) := by
    field_simp
    ring
  rw [h2]
  exact div_nonneg (by linarith) (by positivity)

/-- a solution of the equation is positive, and the best of all widths for the norm of the second derivative estimated with it -/
theorem root_optimal {a2 : List ℝ} (h : Rough a2) (N : ℝ) (hN : 0 < N) (u : ℝ) (hu : fixedPoint N a2 u = .ok 0) :
    0 < u ∧ ∃ t, 0 < t ∧ ∀ v, 0 < v → error1 N (norm1 a2 2 t) u ≤ error1 N (norm1 a2 2 t) v := by
  unfold fixedPoint at hu
  split at hu
  · rename_i hle
    have : u - 1 = 0 := by injection hu
    linarith
  · obtain ⟨t, h0, ht, hp⟩ := lastNorm_ok h N hN u
    rw [ht] at hu
    have hu' : u - (2 * N * √π * norm1 a2 2 t) ^ (-1 / 5 : ℝ) = 0 := by
      have hh : (Except.ok (u - (2 * N * √π * norm1 a2 2 t) ^ (-1 / 5 : ℝ)) : Except Err ℝ) = .ok 0 := hu
      injection hh
    obtain ⟨h1, h2⟩ := best1 N _ u hN hp (by linarith)
    exact ⟨h1, t, h0, h2⟩

example : Rough [1, 0] := ⟨by simp, 1, by simp, by norm_num⟩

/-! ## Solvers -/

/-- `fsolve` and `brentq` give roots, or fail -/
structure Exact (S : Solvers) : Prop where
  fsolve : ∀ f x r, S.fsolve f x = .ok r → f r = .ok 0
  brentq : ∀ f a b r, S.brentq f a b = .ok r → f r = .ok 0

/-- when the solvers find roots the bandwidth is positive and the best for its estimate -/
theorem solve_optimal (S : Solvers) (hS : Exact S) {a2 : List ℝ} (h : Rough a2) (N : ℝ) (hN : 0 < N) (u : ℝ) (hu : solve S N a2 = some u) :
    0 < u ∧ ∃ t, 0 < t ∧ ∀ v, 0 < v → error1 N (norm1 a2 2 t) u ≤ error1 N (norm1 a2 2 t) v := by
  have key : fixedPoint N a2 u = .ok 0 := by
    unfold solve at hu
    simp only [] at hu
    cases hf : S.fsolve (fixedPoint N a2) (53 / 100 * N ^ (-1 / 5 : ℝ)) with
    | error e => rw [hf] at hu; cases hu
    | ok r =>
      rw [hf] at hu
      simp only [] at hu
      split at hu
      · cases hb : S.brentq (fixedPoint N a2) (19 / 1000 * N ^ (-1 / 5 : ℝ)) (1 / 2) with
        | error e =>
          rw [hb] at hu
          cases hu
          exact hS.fsolve _ _ _ hf
        | ok r' =>
          rw [hb] at hu
          cases hu
          exact hS.brentq _ _ _ _ hb
      · cases hu
        exact hS.fsolve _ _ _ hf
  exact root_optimal h N hN u key

/-- a small first solution is replaced just when `brentq` finds another one -/
theorem solve_choice (S : Solvers) (N : ℝ) (a2 : List ℝ) (r : ℝ) (hf : S.fsolve (fixedPoint N a2) (53 / 100 * N ^ (-1 / 5 : ℝ)) = .ok r) :
    (19 / 1000 * N ^ (-1 / 5 : ℝ) ≤ r → solve S N a2 = some r) ∧
    (r < 19 / 1000 * N ^ (-1 / 5 : ℝ) → ∀ r', S.brentq (fixedPoint N a2) (19 / 1000 * N ^ (-1 / 5 : ℝ)) (1 / 2) = .ok r' → solve S N a2 = some r') ∧
    (r < 19 / 1000 * N ^ (-1 / 5 : ℝ) → ∀ e, S.brentq (fixedPoint N a2) (19 / 1000 * N ^ (-1 / 5 : ℝ)) (1 / 2) = .error e → solve S N a2 = some r) := by
  unfold solve
  simp only []
  rw [hf]
  simp only []
  refine ⟨fun h => if_neg (by linarith), fun h r' hb => ?_, fun h e hb => ?_⟩
  · rw [if_pos h, hb]
  · rw [if_pos h, hb]

/-- the bandwidth does not depend on the normalisation of the bins -/
theorem binned_scale (S : Solvers) (dct : List ℝ → List ℝ) (data : List ℝ) (N c : ℝ) (hc : c ≠ 0) :
    binned S dct (data.map (fun x => c * x)) N = binned S dct data N := by
  have : (data.map (fun x => c * x)).map (fun x => x / (data.map (fun x => c * x)).sum) = data.map (fun x => x / data.sum) := by
    rw [List.sum_map_mul_left, List.map_map, List.map_id']
    apply List.map_congr_left
    intro x _
    exact mul_div_mul_left x data.sum hc
  unfold binned coeffs
  rw [this]

example (S : Solvers) (dct : List ℝ → List ℝ) : binned S dct [20, 40, 60] 100 = binned S dct [1, 2, 3] 100 := by
  rw [← binned_scale S dct [1, 2, 3] 100 20 (by norm_num)]
  norm_num

/-- the full statement: what `fsolve` returns is a solution -/
def AlwaysRoot : Prop := ∀ (S : Solvers) (N : ℝ) (a2 : List ℝ) (u : ℝ), Rough a2 → 0 < N → solve S N a2 = some u → fixedPoint N a2 u = .ok 0

/-- the flag of `fsolve` is not looked at (line 121 takes the first result, warnings are switched off at line 119), so its last guess is used as a bandwidth also when it did
not converge; even one that is not positive -/
theorem unconverged_fails : ¬ AlwaysRoot := by
  intro h
  have := h ⟨fun _ _ => .ok (-1), fun _ _ _ => .error .solver⟩ 1 [1] (-1) ⟨by simp, 1, by simp, by norm_num⟩ one_pos (by
    unfold solve
    simp only [Real.one_rpow]
    rw [if_pos (by norm_num)])
  unfold fixedPoint at this
  rw [if_pos (by norm_num)] at this
  have : (-1 : ℝ) - 1 = 0 := by injection this
  norm_num at this

/-! ## Units -/

theorem foldl_max_affine (a b : ℝ) (ha : 0 < a) : ∀ (l : List ℝ) (x : ℝ), (l.map (fun x => a * x + b)).foldl max (a * x + b) = a * l.foldl max x + b
  | [], _ => rfl
  | y :: l, x => by
    rw [List.map_cons, List.foldl_cons, List.foldl_cons]
    have : max (a * x + b) (a * y + b) = a * max x y + b := by
      rw [max_add_add_right, mul_max_of_nonneg _ _ ha.le]
    rw [this, foldl_max_affine a b ha l]

theorem foldl_min_affine (a b : ℝ) (ha : 0 < a) : ∀ (l : List ℝ) (x : ℝ), (l.map (fun x => a * x + b)).foldl min (a * x + b) = a * l.foldl min x + b
  | [], _ => rfl
  | y :: l, x => by
    rw [List.map_cons, List.foldl_cons, List.foldl_cons]
    have : min (a * x + b) (a * y + b) = a * min x y + b := by
      rw [min_add_add_right, mul_min_of_nonneg _ _ ha.le]
    rw [this, foldl_min_affine a b ha l]

/-- the bins of samples do not change with units and origin, their range changes with the units -/
theorem kdeBin_affine (a b : ℝ) (ha : 0 < a) (v : List ℝ) (rmin rmax : Option ℝ) (nbins : Nat) (edge : ℝ) :
    kdeBin (v.map (fun x => a * x + b)) (rmin.map (fun x => a * x + b)) (rmax.map (fun x => a * x + b)) nbins edge =
      (kdeBin v rmin rmax nbins edge).map (fun r => (r.1, a * r.2)) := by
  cases v with
  | nil => rfl
  | cons x v =>
    unfold kdeBin max? min?
    simp only [List.map_cons]
    rw [foldl_max_affine a b ha, foldl_min_affine a b ha]
    set M := v.foldl max x
    set m := v.foldl min x
    have hlo : (rmin.map (fun x => a * x + b)).getD (a * m + b - (a * M + b - (a * m + b)) * edge) = a * rmin.getD (m - (M - m) * edge) + b := by
      cases rmin with
      | none => simp only [Option.map_none, Option.getD_none]; ring
      | some r => rfl
    have hhi : (rmax.map (fun x => a * x + b)).getD (a * M + b + (a * M + b - (a * m + b)) * edge) = a * rmax.getD (M + (M - m) * edge) + b := by
      cases rmax with
      | none => simp only [Option.map_none, Option.getD_none]; ring
      | some r => rfl
    rw [hlo, hhi]
    generalize rmin.getD (m - (M - m) * edge) = lo
    generalize rmax.getD (M + (M - m) * edge) = hi
    have hx : ∀ y : ℝ, (a * y + b - (a * lo + b)) / ((a * hi + b - (a * lo + b)) / ((nbins : ℝ) - 1)) = (y - lo) / ((hi - lo) / ((nbins : ℝ) - 1)) := by
      intro y
      rw [show a * y + b - (a * lo + b) = a * (y - lo) by ring, show a * hi + b - (a * lo + b) = a * (hi - lo) by ring, mul_div_assoc a (hi - lo), mul_div_mul_left _ _ ha.ne']
    show Except.ok _ = Except.ok _
    congr 2
    · rw [hx, List.map_map]
      congr 1
      apply List.map_congr_left
      intro y _
      show trunc _ = _
      rw [hx]
    · ring

example : kdeBin [5, 7, 11] none none 10 (1 / 10) = (kdeBin [1, 2, (4 : ℝ)] none none 10 (1 / 10)).map (fun r => (r.1, 2 * r.2)) := by
  rw [← kdeBin_affine 2 3 (by norm_num) [1, 2, 4] none none 10 (1 / 10)]
  norm_num

theorem changes_affine (a b : ℝ) (ha : a ≠ 0) : ∀ v : List ℝ, changes (v.map (fun x => a * x + b)) = changes v
  | [] => rfl
  | [_] => rfl
  | x :: y :: l => by
    show (if a * y + b - (a * x + b) = 0 then 0 else 1) + changes ((y :: l).map (fun x => a * x + b)) = _
    rw [changes_affine a b ha (y :: l)]
    show _ = (if y - x = 0 then 0 else 1) + changes (y :: l)
    congr 1
    have : a * y + b - (a * x + b) = a * (y - x) := by ring
    rw [this]
    by_cases h : y - x = 0
    · rw [if_pos h, if_pos (by rw [h, mul_zero])]
    · rw [if_neg h, if_neg (mul_ne_zero ha h)]

/-- the bandwidth of a parameter is in its units: it does not change with the origin and is multiplied with a change of scale -/
theorem bandwidth_units (S : Solvers) (dct : List ℝ → List ℝ) (a b : ℝ) (ha : 0 < a) (v : List ℝ) (N rmin rmax : Option ℝ) (nbins : Nat) :
    bandwidth S dct (v.map (fun x => a * x + b)) N (rmin.map (fun x => a * x + b)) (rmax.map (fun x => a * x + b)) nbins =
      (bandwidth S dct v N rmin rmax nbins).map (fun r => r.map (fun h => a * h)) := by
  unfold bandwidth
  simp only []
  rw [kdeBin_affine a b ha, changes_affine a b ha.ne']
  cases hk : kdeBin v rmin rmax nbins (1 / 10) with
  | error e => rfl
  | ok r =>
    obtain ⟨bins, R⟩ := r
    simp only [Except.map]
    cases hb : bincount bins (List.replicate bins.length (1 : ℝ)) nbins with
    | error e => rfl
    | ok data =>
      simp only []
      cases binned S dct data (N.getD (changes v : ℝ)) with
      | none => rfl
      | some h =>
        simp only [Option.map_some]
        congr 2
        ring

example (S : Solvers) (dct : List ℝ → List ℝ) : bandwidth S dct [10, 20, 40] (some 3) none (some 50) 16 = (bandwidth S dct [1, 2, 4] (some 3) none (some 5) 16).map (fun r => r.map (fun h => 10 * h)) := by
  rw [← bandwidth_units S dct 10 0 (by norm_num) [1, 2, 4] (some 3) none (some 5) 16]
  norm_num

/-! ## `getAutoBandwidth1D` -/

/-- a width that is not too small is used, scaled for higher orders; otherwise the fallback or an error -/
theorem auto1D_found (p : Par ℝ) (s : Sett) (N h : ℝ) (m : Nat) (k : Int) (hh : 1 / 100 * N ^ (-1 / 5 : ℝ) * (p.rmax - p.rmin) / binRange p ≤ h) :
    auto1D p s N (some h) m k = .ok (ordered N h m k) := by
  unfold auto1D basicWidth
  rw [if_neg (by unfold tooSmall; simp only [not_lt]; exact hh)]
  rfl

example (p : Par ℝ) (h1 : p.rmin = 0) (h2 : p.rmax = 1) (h3 : p.pmin = 0) (h4 : p.pmax = 1) : auto1D p ⟨1, true, false⟩ 1 (some (1 / 2)) 0 1 = .ok (1 / 2) := by
  rw [auto1D_found p _ 1 (1 / 2) 0 1 (by unfold binRange; rw [h1, h2, h3, h4]; norm_num)]
  simp [ordered]

theorem auto1D_failed (p : Par ℝ) (s : Sett) (N : ℝ) (m : Nat) (k : Int) :
    auto1D p s N none m k = if s.quiet = false ∧ s.raises = true then .error .bandwidth else .ok (ordered N (fallback p s N) m k) := by
  unfold auto1D basicWidth
  rw [if_pos (by unfold tooSmall; trivial)]
  cases s.quiet <;> cases s.raises <;> rfl

/-- higher orders never make the width smaller -/
theorem ordered_ge (N h : ℝ) (m : Nat) (k : Int) (hN : 1 ≤ N) (hh : 0 ≤ h) : h ≤ ordered N h m k ∧ (m = 0 → k ≤ 1 → ordered N h m k = h) := by
  have key : ∀ q : Nat, h ≤ h * N ^ (1 / 5 - 1 / (4 * (q : ℝ) + 5)) := by
    intro q
    have h5 : (0 : ℝ) ≤ 1 / 5 - 1 / (4 * (q : ℝ) + 5) := by
      rw [sub_nonneg]
      have : (0 : ℝ) ≤ (q : ℝ) := Nat.cast_nonneg q
      exact one_div_le_one_div_of_le (by norm_num) (by linarith)
    have := Real.one_le_rpow hN h5
    exact le_mul_of_one_le_right hh this
  unfold ordered
  simp only []
  constructor
  · split <;> split
    · exact key _
    · exact le_refl _
    · exact key _
    · exact le_refl _
  · intro hm hk
    rw [if_neg (show ¬ k > 1 by omega), if_neg (by simp [hm])]

/-- the width that comes out is positive whenever the samples have a spread -/
theorem auto1D_pos (p : Par ℝ) (s : Sett) (N : ℝ) (h : Option ℝ) (m : Nat) (k : Int) (x : ℝ) (hN : 1 ≤ N) (hs : 0 < s.sigma) (hr : p.rmin < p.rmax) (hx : auto1D p s N h m k = .ok x) :
    0 < x := by
  have hb : 0 < binRange p := by
    unfold binRange
    have h1 : p.rmax ≤ max p.pmax p.rmax := le_max_right _ _
    have h2 : min p.pmin p.rmin ≤ p.rmin := min_le_right _ _
    linarith
  have hn : (0 : ℝ) < N ^ (-1 / 5 : ℝ) := Real.rpow_pos_of_pos (by linarith) _
  have key : ∀ b, basicWidth p s N h = .ok b → 0 < b := by
    intro b hbb
    unfold basicWidth at hbb
    split at hbb
    · split at hbb
      · cases hbb
      · have : fallback p s N = b := by injection hbb
        rw [← this]
        unfold fallback
        positivity
    · rename_i hns
      have : h.getD 0 = b := by injection hbb
      rw [← this]
      cases h with
      | none => exact absurd trivial hns
      | some h =>
        unfold tooSmall at hns
        simp only [not_lt] at hns
        refine lt_of_lt_of_le ?_ hns
        have : 0 < p.rmax - p.rmin := by linarith
        positivity
  unfold auto1D at hx
  cases hbw : basicWidth p s N h with
  | error e => rw [hbw] at hx; cases hx
  | ok b =>
    rw [hbw] at hx
    have : ordered N b m k = x := by
      have hh : (Except.ok (ordered N b m k) : Except Err ℝ) = .ok x := hx
      injection hh
    rw [← this]
    exact lt_of_lt_of_le (key b hbw) (ordered_ge N b m k hN (key b hbw).le).1

example (p : Par ℝ) (hr : p.rmin < p.rmax) (x : ℝ) (hx : auto1D p ⟨2, true, false⟩ 1000 none 1 1 = .ok x) : 0 < x :=
  auto1D_pos p _ 1000 none 1 1 x (by norm_num) (by norm_num) hr hx

/-- the full statement: the width of a failed search, in units of the parameter as the caller makes it (mcsamples.py:1452-1453), is the rule of thumb -/
def FallbackRule : Prop := ∀ (p : Par ℝ) (s : Sett) (N borderfrac x : ℝ), auto1D p s N none 0 1 = .ok x →
  x * (binmax p borderfrac - binmin p borderfrac) = 106 / 100 * s.sigma * N ^ (-1 / 5 : ℝ)

/-- the rule is divided by the range without borders (line 1167) and multiplied by the range with borders, so it is too wide at ends without limits -/
theorem fallback_units_fails : ¬ FallbackRule := by
  intro h
  have := h ⟨none, none, false, false, 0, 1, 0, 1⟩ ⟨1, true, false⟩ 1 (1 / 10) (106 / 100) (by
    rw [auto1D_failed]
    simp [ordered, fallback, binRange])
  simp only [binmax, binmin, Real.one_rpow] at this
  norm_num at this

/-- it is the rule of thumb when both ends have limits -/
theorem fallback_units_partial (p : Par ℝ) (s : Sett) (N borderfrac x : ℝ) (hb : p.bot = true) (ht : p.top = true) (hr : p.rmin < p.rmax) (hx : auto1D p s N none 0 1 = .ok x) :
    x * (binmax p borderfrac - binmin p borderfrac) = 106 / 100 * s.sigma * N ^ (-1 / 5 : ℝ) := by
  rw [auto1D_failed] at hx
  split at hx
  · cases hx
  · have hx' : ordered N (fallback p s N) 0 1 = x := by injection hx
    have h0 : ordered N (fallback p s N) 0 1 = fallback p s N := by simp [ordered]
    rw [← hx', h0]
    unfold binmax binmin fallback
    rw [if_pos hb, if_pos ht]
    have : binRange p ≠ 0 := by
      unfold binRange
      have h1 : p.rmax ≤ max p.pmax p.rmax := le_max_right _ _
      have h2 : min p.pmin p.rmin ≤ p.rmin := min_le_right _ _
      intro h
      linarith
    show _ / binRange p * binRange p = _
    exact div_mul_cancel₀ _ this

example (p : Par ℝ) (hb : p.bot = true) (ht : p.top = true) (hr : p.rmin < p.rmax) (x : ℝ) (hx : auto1D p ⟨2, true, false⟩ 1 none 0 1 = .ok x) :
    x * (binmax p 0 - binmin p 0) = 106 / 50 := by
  rw [fallback_units_partial p _ 1 0 x hb ht hr hx]
  norm_num

/-- the full statement: the setting `use_effective_samples_2D` decides which number of samples is used -/
def SettingUsed : Prop := ∀ corr e2 nx ny : ℝ, |corr| < 999 / 1000 → neff2D defaultArg true corr e2 nx ny = e2

/-- the argument is `False` when it is left out, not `None` (mcsamples.py:1196), and the caller leaves it out: the setting has no effect -/
theorem setting_fails : (∀ (setting : Bool) (corr e2 nx ny : ℝ), neff2D defaultArg setting corr e2 nx ny = min nx ny) ∧ ¬ SettingUsed := by
  have h : ∀ (setting : Bool) (corr e2 nx ny : ℝ), neff2D defaultArg setting corr e2 nx ny = min nx ny := by
    intro setting corr e2 nx ny
    unfold neff2D defaultArg
    rw [if_neg (by simp)]
  refine ⟨h, fun hs => ?_⟩
  have := hs 0 5 1 1 (by norm_num)
  rw [h] at this
  norm_num at this

/-! ## Two dimensions: signs -/

/-- the coefficients of data that is not flat -/
structure Rough2 (C : Coef) : Prop where
  nonneg : ∀ y x, y < C.n → x < C.n → 0 ≤ C.a2 y x
  pos : ∃ y x, y < C.n ∧ x < C.n ∧ 0 < C.a2 y x

theorem psi_sign {C : Coef} (h : Rough2 C) (s0 s1 : Nat) (t : ℝ) : 0 < (-1) ^ (s0 + s1) * psi C s0 s1 t := by
  unfold psi
  simp only []
  have hpi := Real.pi_pos
  have hpos : 0 < ∑ x ∈ Finset.range C.n, (∑ y ∈ Finset.range C.n, exp (-sq y * (π ^ 2 * t) + log (sq y) * (s1 : ℝ)) * C.a2 y x) *
      exp (-sq x * (π ^ 2 * t) + log (sq x) * (s0 : ℝ)) := by
    have hin : ∀ x ∈ Finset.range C.n, ∀ y ∈ Finset.range C.n, 0 ≤ exp (-sq y * (π ^ 2 * t) + log (sq y) * (s1 : ℝ)) * C.a2 y x := by
      intro x hx y hy
      exact mul_nonneg (Real.exp_pos _).le (h.nonneg y x (Finset.mem_range.mp hy) (Finset.mem_range.mp hx))
    obtain ⟨y, x, hy, hx, h0⟩ := h.pos
    refine Finset.sum_pos' (fun x hx => mul_nonneg (Finset.sum_nonneg (hin x hx)) (Real.exp_pos _).le) ⟨x, Finset.mem_range.mpr hx, ?_⟩
    refine mul_pos (Finset.sum_pos' (hin x (Finset.mem_range.mpr hx)) ⟨y, Finset.mem_range.mpr hy, mul_pos (Real.exp_pos _) h0⟩) (Real.exp_pos _)
  have hsgn : ((-1 : ℝ) ^ (s0 + s1)) * (-1) ^ (s0 + s1) = 1 := by
    rw [← mul_pow]
    norm_num
  generalize ∑ x ∈ Finset.range C.n, (∑ y ∈ Finset.range C.n, exp (-sq y * (π ^ 2 * t) + log (sq y) * (s1 : ℝ)) * C.a2 y x) *
      exp (-sq x * (π ^ 2 * t) + log (sq x) * (s0 : ℝ)) = Q at hpos ⊢
  have : (-1 : ℝ) ^ (s0 + s1) * ((-1) ^ (s0 + s1) * Q * π ^ (2 * (s0 + s1)) / 4) = Q * π ^ (2 * (s0 + s1)) / 4 := by
    calc _ = ((-1 : ℝ) ^ (s0 + s1) * (-1) ^ (s0 + s1)) * (Q * π ^ (2 * (s0 + s1)) / 4) := by ring
      _ = _ := by rw [hsgn, one_mul]
  rw [this]
  positivity

theorem func2d_sign {C : Coef} (h : Rough2 C) (N : ℝ) : ∀ (k s0 s1 : Nat) (t : ℝ), 0 < (-1) ^ (s0 + s1) * func2d C N k s0 s1 t
  | 0, s0, s1, t => psi_sign h s0 s1 t
  | _ + 1, s0, s1, _ => psi_sign h s0 s1 _

/-- the definition is the recursion of the code: moments of order above four directly, the others from the next two -/
theorem moment_rec (C : Coef) (N : ℝ) (s0 s1 : Nat) (t : ℝ) :
    (s0 + s1 ≤ 4 → moment C N s0 s1 t = psi C s0 s1 (time N s0 s1 (moment C N (s0 + 1) s1 t + moment C N s0 (s1 + 1) t))) ∧
    (4 < s0 + s1 → moment C N s0 s1 t = psi C s0 s1 t) := by
  unfold moment
  constructor
  · intro h
    have h1 : 5 - (s0 + s1) = (5 - (s0 + 1 + s1)) + 1 := by omega
    have h2 : 5 - (s0 + (s1 + 1)) = 5 - (s0 + 1 + s1) := by omega
    rw [h1, h2]
    rfl
  · intro h
    have h1 : 5 - (s0 + s1) = 0 := by omega
    rw [h1]
    rfl

example (C : Coef) (N t : ℝ) : moment C N 2 3 t = psi C 2 3 t := (moment_rec C N 2 3 t).2 (by norm_num)

theorem kern_sign (s : Nat) : 0 < (-1) ^ s * kern s := by
  unfold kern
  have h1 : (0 : ℝ) < (oddProd s : ℝ) := by exact_mod_cast oddProd_pos s
  have h2 : (0 : ℝ) < √(2 * π) := Real.sqrt_pos.mpr (by have := Real.pi_pos; positivity)
  have h3 : ((-1 : ℝ) ^ s) * (-1) ^ s = 1 := by rw [← mul_pow]; norm_num
  have : (-1 : ℝ) ^ s * ((-1) ^ s * (oddProd s : ℝ) / √(2 * π)) = oddProd s / √(2 * π) := by
    calc _ = ((-1 : ℝ) ^ s * (-1) ^ s) * (oddProd s / √(2 * π)) := by ring
      _ = _ := by rw [h3, one_mul]
  rw [this]
  positivity

/-- moments of even order are positive, those of odd order negative, and every power taken on the way is that of a positive number: no NaN -/
theorem moment_sign {C : Coef} (h : Rough2 C) (N : ℝ) (hN : 0 < N) (s0 s1 : Nat) (t : ℝ) :
    0 < (-1) ^ (s0 + s1) * moment C N s0 s1 t ∧
    0 < -2 * ((1 + (1 / 2 : ℝ) ^ (s0 + s1 + 1)) / 3) * kern s0 * kern s1 / N / (moment C N (s0 + 1) s1 t + moment C N s0 (s1 + 1) t) := by
  refine ⟨func2d_sign h N _ _ _ _, ?_⟩
  have ha := func2d_sign h N (5 - (s0 + 1 + s1)) (s0 + 1) s1 t
  have hb := func2d_sign h N (5 - (s0 + (s1 + 1))) s0 (s1 + 1) t
  have h0 := kern_sign s0
  have h1 := kern_sign s1
  show 0 < _ / (func2d C N (5 - (s0 + 1 + s1)) (s0 + 1) s1 t + func2d C N (5 - (s0 + (s1 + 1))) s0 (s1 + 1) t)
  generalize func2d C N (5 - (s0 + 1 + s1)) (s0 + 1) s1 t = A at ha ⊢
  generalize func2d C N (5 - (s0 + (s1 + 1))) s0 (s1 + 1) t = B at hb ⊢
  have e1 : (-1 : ℝ) ^ (s0 + 1 + s1) = -((-1) ^ s0 * (-1) ^ s1) := by
    rw [pow_add, pow_succ]; ring
  have e2 : (-1 : ℝ) ^ (s0 + (s1 + 1)) = -((-1) ^ s0 * (-1) ^ s1) := by
    rw [pow_add, pow_succ]; ring
  rw [e1] at ha
  rw [e2] at hb
  have hc : 0 < ((-1 : ℝ) ^ s0 * kern s0) * ((-1) ^ s1 * kern s1) := mul_pos h0 h1
  have hk : (0 : ℝ) < (1 + (1 / 2 : ℝ) ^ (s0 + s1 + 1)) / 3 := by positivity
  have hs : ((-1 : ℝ) ^ s0 * (-1) ^ s1) * ((-1) ^ s0 * (-1) ^ s1) = 1 := by
    have h3 : ((-1 : ℝ) ^ s0) * (-1) ^ s0 = 1 := by rw [← mul_pow]; norm_num
    have h4 : ((-1 : ℝ) ^ s1) * (-1) ^ s1 = 1 := by rw [← mul_pow]; norm_num
    calc _ = ((-1 : ℝ) ^ s0 * (-1) ^ s0) * ((-1) ^ s1 * (-1) ^ s1) := by ring
      _ = 1 := by rw [h3, h4, one_mul]
  generalize ((-1 : ℝ) ^ s0) = e at *
  generalize ((-1 : ℝ) ^ s1) = g at *
  generalize kern s0 = k0 at *
  generalize kern s1 = k1 at *
  generalize (1 + (1 / 2 : ℝ) ^ (s0 + s1 + 1)) / 3 = cc at *
  have hsum : 0 < -(e * g) * (A + B) := by linarith [ha, hb, show -(e * g) * (A + B) = -(e * g) * A + -(e * g) * B by ring]
  have hAB : -(e * g) * (A + B) ≠ 0 := hsum.ne'
  have hAB' : A + B ≠ 0 := right_ne_zero_of_mul hAB
  have heq : -2 * cc * k0 * k1 / N / (A + B) = (2 * cc * (e * k0 * (g * k1)) / N) / (-(e * g) * (A + B)) := by
    rw [div_div, div_div, div_eq_div_iff (mul_ne_zero hN.ne' hAB') (mul_ne_zero hN.ne' hAB)]
    have : e * k0 * (g * k1) = e * g * (k0 * k1) := by ring
    rw [this]
    ring
  rw [heq]
  positivity

example : 0 < moment ⟨2, fun y x => if y = x then 1 else 0⟩ 100 2 0 (1 / 10) := by
  have := (moment_sign (C := ⟨2, fun y x => if y = x then 1 else 0⟩) ⟨fun y x _ _ => by simp only []; split <;> norm_num, 0, 0, by norm_num, by norm_num, by norm_num⟩ 100 (by norm_num) 2 0 (1 / 10)).1
  simpa using this

/-- the equation in two dimensions can be evaluated, has the value -1 at zero, and is zero just where the time reproduces itself -/
theorem fixedPoint2D_spec {C : Coef} (h : Rough2 C) (N : ℝ) (hN : 0 < N) :
    (∀ t, 0 < newTime C N t) ∧ fixedPoint2D C N 0 = -1 ∧ ∀ t, fixedPoint2D C N t = 0 ↔ t = newTime C N t := by
  have hp : ∀ t, 0 < newTime C N t := by
    intro t
    unfold newTime
    refine Real.rpow_pos_of_pos ?_ _
    have h1 : 0 < moment C N 0 2 t := by simpa using (moment_sign h N hN 0 2 t).1
    have h2 : 0 < moment C N 2 0 t := by simpa using (moment_sign h N hN 2 0 t).1
    have h3 : 0 < moment C N 1 1 t := by simpa using (moment_sign h N hN 1 1 t).1
    have := Real.pi_pos
    positivity
  refine ⟨hp, ?_, fun t => ?_⟩
  · unfold fixedPoint2D
    rw [zero_sub, neg_div, div_self (hp 0).ne']
  · unfold fixedPoint2D
    rw [div_eq_zero_iff, sub_eq_zero]
    exact ⟨fun h => h.resolve_right (hp t).ne', Or.inl⟩

example : fixedPoint2D ⟨2, fun y x => if y = x then 1 else 0⟩ 100 0 = -1 :=
  (fixedPoint2D_spec (C := ⟨2, fun y x => if y = x then 1 else 0⟩) ⟨fun y x _ _ => by simp only []; split <;> norm_num, 0, 0, by norm_num, by norm_num, by norm_num⟩ 100 (by norm_num)).2.1

/-- which time is used: the root, the fallback when it is much smaller or when there is no root, and an error just without both -/
theorem tStar_spec (root : Except Err ℝ) (b : Option ℝ) :
    (∀ e, root = .error e → b = none → tStar root b = .error e) ∧
    (∀ e x, root = .error e → b = some x → tStar root b = .ok x) ∧
    (∀ t, root = .ok t → b = none ∨ t ≤ 1 / 100 ∨ (∃ x, b = some x ∧ t ≤ 2 * x) → tStar root b = .ok t) ∧
    (∀ t x, root = .ok t → b = some x → 0 < x → 1 / 100 < t → 2 * x < t → tStar root b = .ok x) := by
  refine ⟨?_, ?_, ?_, ?_⟩
  · rintro e rfl rfl; rfl
  · rintro e x rfl rfl; rfl
  · rintro t rfl h
    unfold tStar
    cases b with
    | none => rfl
    | some x =>
      simp only []
      rw [if_neg]
      rintro ⟨_, h1, h2⟩
      rcases h with h | h | ⟨y, hy, h⟩
      · cases h
      · linarith
      · cases hy; linarith
  · rintro t x rfl rfl hx h1 h2
    unfold tStar
    simp only []
    rw [if_pos ⟨hx.ne', h1, h2⟩]

example : tStar (.ok (1 / 5)) (some (1 / 50)) = .ok (1 / 50) ∧ tStar (.error .solver) (some (1 / 50)) = .ok (1 / 50) :=
  ⟨(tStar_spec _ _).2.2.2 _ _ rfl rfl (by norm_num) (by norm_num) (by norm_num), (tStar_spec _ _).2.1 _ _ rfl rfl⟩

/-! ## Two dimensions: the widths -/

theorem cubic (u v : ℝ) (hu : 0 < u) (hv : 0 < v) : 3 * u ^ 2 * v ≤ 2 * u ^ 3 + v ^ 3 := by
  have h : 2 * u ^ 3 + v ^ 3 - 3 * u ^ 2 * v = (v - u) ^ 2 * (v + 2 * u) := by ring
  have : 0 ≤ (v - u) ^ 2 * (v + 2 * u) := by positivity
  linarith

theorem pow_six_inj {x y : ℝ} (hx : 0 ≤ x) (hy : 0 ≤ y) (h : x ^ 6 = y ^ 6) : x = y := (pow_left_inj₀ hx hy (by norm_num)).mp h

theorem diagWidth_pow (N p q r : ℝ) (hN : 0 < N) (hp : 0 < p) (hq : 0 < q) (hr : 0 ≤ r) :
    0 < diagWidth N p q r ∧ diagWidth N p q r ^ 6 = (q ^ (1 / 4 : ℝ)) ^ 3 / (4 * π * N * (p ^ (1 / 4 : ℝ)) ^ 3 * (r + √(p * q))) := by
  have hpi := Real.pi_pos
  have h34 : ∀ x : ℝ, 0 < x → x ^ (3 / 4 : ℝ) = (x ^ (1 / 4 : ℝ)) ^ 3 := by
    intro x hx
    rw [← Real.rpow_natCast (x ^ (1 / 4 : ℝ)), ← Real.rpow_mul hx.le]
    norm_num
  have hs : 0 < √(p * q) := Real.sqrt_pos.mpr (mul_pos hp hq)
  have hb : 0 < q ^ (3 / 4 : ℝ) / (4 * π * N * p ^ (3 / 4 : ℝ) * (r + √(p * q))) := by
    have h1 := Real.rpow_pos_of_pos hq (3 / 4)
    have h2 := Real.rpow_pos_of_pos hp (3 / 4)
    positivity
  unfold diagWidth
  refine ⟨Real.rpow_pos_of_pos hb _, ?_⟩
  rw [← Real.rpow_natCast, ← Real.rpow_mul hb.le, show (1 / 6 : ℝ) * ((6 : Nat) : ℝ) = 1 by norm_num, Real.rpow_one, h34 p hp, h34 q hq]

/-- the widths without correlation are the best pair of widths for the moments -/
theorem diag_optimal (p : Mom) (N : ℝ) (hN : 0 < N) (h40 : 0 < p.p40) (h04 : 0 < p.p04) (h22 : 0 ≤ p.p22) (hx hy : ℝ) (ex : hx = diagWidth N p.p40 p.p04 p.p22)
    (ey : hy = diagWidth N p.p04 p.p40 p.p22) :
    0 < hx ∧ 0 < hy ∧ ∃ v, amise p N hx hy 0 = .ok v ∧ ∀ x y, 0 < x → 0 < y → ∃ w, amise p N x y 0 = .ok w ∧ v ≤ w := by
  have hpi := Real.pi_pos
  obtain ⟨x0, x6⟩ := diagWidth_pow N p.p40 p.p04 p.p22 hN h40 h04 h22
  obtain ⟨y0, y6⟩ := diagWidth_pow N p.p04 p.p40 p.p22 hN h04 h40 h22
  rw [← ex] at x0 x6
  rw [← ey] at y0 y6
  have hok : ∀ x y, 0 < x → 0 < y → amise p N x y 0 = .ok (1 / (4 * π * N) / (x * y) + 1 / 4 * (x ^ 4 * p.p40 + y ^ 4 * p.p04 + 2 * (x * y) ^ 2 * p.p22)) := by
    intro x y hx hy
    unfold amise
    have hb : biasOf p x y 0 = 1 / 4 * (x ^ 4 * p.p40 + y ^ 4 * p.p04 + 2 * (x * y) ^ 2 * p.p22) := by
      unfold biasOf
      ring
    have hnn : 0 ≤ 1 / 4 * (x ^ 4 * p.p40 + y ^ 4 * p.p04 + 2 * (x * y) ^ 2 * p.p22) := by positivity
    rw [hb, if_neg (by linarith)]
    congr 2
    unfold variance
    rw [show (1 : ℝ) - 0 ^ 2 = 1 by norm_num, Real.sqrt_one, div_div]
    congr 1
    ring
  refine ⟨x0, y0, _, hok hx hy x0 y0, fun x y hx0 hy0 => ⟨_, hok x y hx0 hy0, ?_⟩⟩
  set a := p.p40 ^ (1 / 4 : ℝ) with ha
  set b := p.p04 ^ (1 / 4 : ℝ) with hb
  have a0 : 0 < a := Real.rpow_pos_of_pos h40 _
  have b0 : 0 < b := Real.rpow_pos_of_pos h04 _
  have a4 : p.p40 = a ^ 4 := by
    rw [ha, ← Real.rpow_natCast, ← Real.rpow_mul h40.le]
    norm_num
  have b4 : p.p04 = b ^ 4 := by
    rw [hb, ← Real.rpow_natCast, ← Real.rpow_mul h04.le]
    norm_num
  have hs1 : √(p.p40 * p.p04) = (a * b) ^ 2 := by
    rw [a4, b4, show a ^ 4 * b ^ 4 = ((a * b) ^ 2) ^ 2 by ring, Real.sqrt_sq (by positivity)]
  have hs2 : √(p.p04 * p.p40) = (a * b) ^ 2 := by rw [mul_comm, hs1]
  rw [hs1] at x6
  rw [hs2] at y6
  set q := p.p22 + (a * b) ^ 2 with hq
  have q0 : 0 < q := by positivity
  have hN4 : (0 : ℝ) < 4 * π * N := by positivity
  -- equal parts
  have hab : hx * a = hy * b := by
    refine pow_six_inj (by positivity) (by positivity) ?_
    rw [mul_pow, mul_pow, x6, y6]
    field_simp
  set u := hx * hy with hu
  have u0 : 0 < u := by positivity
  have hu3 : u ^ 3 * q = 1 / (4 * π * N) := by
    have h6 : (u ^ 3 * q) ^ 2 = (1 / (4 * π * N)) ^ 2 := by
      have : (u ^ 3 * q) ^ 2 = hx ^ 6 * hy ^ 6 * q ^ 2 := by rw [hu]; ring
      rw [this, x6, y6]
      field_simp
    exact (pow_left_inj₀ (by positivity) (by positivity) (by norm_num)).mp h6
  have hmine : hx ^ 4 * p.p40 + hy ^ 4 * p.p04 = 2 * u ^ 2 * (a * b) ^ 2 := by
    rw [a4, b4]
    have h1 : hx ^ 4 * a ^ 4 = (hx * a) ^ 2 * (hx * a) ^ 2 := by ring
    have h2 : hy ^ 4 * b ^ 4 = (hy * b) ^ 2 * (hy * b) ^ 2 := by ring
    have h3 : 2 * u ^ 2 * (a * b) ^ 2 = 2 * ((hx * a) ^ 2 * (hy * b) ^ 2) := by rw [hu]; ring
    rw [h1, h2, h3, hab]
    ring
  set v := x * y with hv
  have v0 : 0 < v := by positivity
  have hother : 2 * v ^ 2 * (a * b) ^ 2 ≤ x ^ 4 * p.p40 + y ^ 4 * p.p04 := by
    rw [a4, b4]
    have : x ^ 4 * a ^ 4 + y ^ 4 * b ^ 4 - 2 * v ^ 2 * (a * b) ^ 2 = (x ^ 2 * a ^ 2 - y ^ 2 * b ^ 2) ^ 2 := by rw [hv]; ring
    nlinarith [sq_nonneg (x ^ 2 * a ^ 2 - y ^ 2 * b ^ 2)]
  rw [← hu3]
  have hl : u ^ 3 * q / u + 1 / 4 * (hx ^ 4 * p.p40 + hy ^ 4 * p.p04 + 2 * u ^ 2 * p.p22) = 3 / 2 * (q * u ^ 2) := by
    rw [hmine, show u ^ 3 * q / u = u ^ 2 * q by field_simp, hq]
    ring
  rw [hl]
  have hc := cubic u v u0 v0
  have h1 : 3 / 2 * (q * u ^ 2) ≤ u ^ 3 * q / v + 1 / 2 * (v ^ 2 * q) := by
    rw [← sub_nonneg]
    have : u ^ 3 * q / v + 1 / 2 * (v ^ 2 * q) - 3 / 2 * (q * u ^ 2) = q * (2 * u ^ 3 + v ^ 3 - 3 * u ^ 2 * v) / (2 * v) := by
      field_simp
    rw [this]
    exact div_nonneg (mul_nonneg q0.le (by linarith)) (by positivity)
  have h2 : 1 / 2 * (v ^ 2 * q) ≤ 1 / 4 * (x ^ 4 * p.p40 + y ^ 4 * p.p04 + 2 * v ^ 2 * p.p22) := by
    rw [hq]
    nlinarith [hother]
  linarith

example : ∃ v, amise ⟨3, 5, 1, 0, 0⟩ 100 (diagWidth 100 3 5 1) (diagWidth 100 5 3 1) 0 = .ok v ∧ ∃ w, amise ⟨3, 5, 1, 0, 0⟩ 100 1 2 0 = .ok w ∧ v ≤ w := by
  obtain ⟨_, _, v, hv, h⟩ := diag_optimal ⟨3, 5, 1, 0, 0⟩ 100 (by norm_num) (by norm_num) (by norm_num) (by norm_num) _ _ rfl rfl
  exact ⟨v, hv, h 1 2 (by norm_num) (by norm_num)⟩

/-- exchanging the axes exchanges the moments -/
theorem psi_transpose (C : Coef) (s0 s1 : Nat) (t : ℝ) : psi ⟨C.n, fun y x => C.a2 x y⟩ s1 s0 t = psi C s0 s1 t := by
  unfold psi
  simp only []
  rw [Nat.add_comm s1 s0]
  congr 3
  simp only [Finset.sum_mul]
  rw [Finset.sum_comm]
  apply Finset.sum_congr rfl
  intro x _
  apply Finset.sum_congr rfl
  intro y _
  ring

theorem func2d_transpose (C : Coef) (N : ℝ) : ∀ (k s0 s1 : Nat) (t : ℝ), func2d ⟨C.n, fun y x => C.a2 x y⟩ N k s1 s0 t = func2d C N k s0 s1 t
  | 0, s0, s1, t => psi_transpose C s0 s1 t
  | k + 1, s0, s1, t => by
    unfold func2d
    rw [func2d_transpose C N k s0 (s1 + 1) t, func2d_transpose C N k (s0 + 1) s1 t, psi_transpose C s0 s1]
    congr 1
    unfold time
    rw [Nat.add_comm s1 s0, add_comm (func2d C N k s0 (s1 + 1) t)]
    congr 3
    ring

/-- exchanging the axes of the data exchanges the two widths -/
theorem widths_transpose (C : Coef) (N t a b a' b' : ℝ) (m2 m2' : ℝ × ℝ → Option (ℝ × ℝ)) (m3 m3' : ℝ × ℝ × ℝ → Option (ℝ × ℝ × ℝ)) (corr : ℝ) :
    getH (moments ⟨C.n, fun y x => C.a2 x y⟩ N t a b) N corr false m2 m3 = (getH (moments C N t a' b') N corr false m2' m3').map (fun h => (h.2.1, h.1, h.2.2)) := by
  have h : ∀ s0 s1, moment ⟨C.n, fun y x => C.a2 x y⟩ N s1 s0 t = moment C N s0 s1 t := by
    intro s0 s1
    unfold moment
    rw [Nat.add_comm s1 s0]
    exact func2d_transpose C N _ _ _ _
  unfold getH moments
  simp only [h, Except.map]
  rfl

example (f : ℕ → ℝ) : getH (moments ⟨4, fun y _ => f y⟩ 100 1 0 0) 100 0 false (fun _ => none) (fun _ => none) =
    (getH (moments ⟨4, fun _ x => f x⟩ 100 1 0 0) 100 0 false (fun _ => none) (fun _ => none)).map (fun h => (h.2.1, h.1, h.2.2)) :=
  widths_transpose ⟨4, fun _ x => f x⟩ 100 1 0 0 0 0 _ _ _ _ 0

/-- the value kept beside a kernel is its error -/
def Valid (p : Mom) (N : ℝ) (b : Best) : Prop := amise p N b.hx b.hy b.c = .ok b.val

theorem tryFixed_spec (p : Mom) (N corr : ℝ) (m2 : ℝ × ℝ → Option (ℝ × ℝ)) (b : Best) (hb : Valid p N b) :
    Valid p N (tryFixed p N corr m2 b) ∧ (tryFixed p N corr m2 b).val ≤ b.val := by
  unfold tryFixed
  split
  · exact ⟨hb, le_refl _⟩
  · split
    · exact ⟨hb, le_refl _⟩
    · rename_i x _
      split
      · exact ⟨hb, le_refl _⟩
      · rename_i v hv
        split
        · rename_i hlt
          exact ⟨hv, hlt.le⟩
        · exact ⟨hb, le_refl _⟩

theorem tryFree_spec (p : Mom) (N corr : ℝ) (m3 : ℝ × ℝ × ℝ → Option (ℝ × ℝ × ℝ)) (b : Best) (hb : Valid p N b) :
    Valid p N (tryFree p N corr m3 b) ∧ ((tryFree p N corr m3 b).val ≤ b.val ∨ (tryFree p N corr m3 b).val ≤ 0) := by
  unfold tryFree
  split
  · exact ⟨hb, Or.inl (le_refl _)⟩
  · rename_i x _
    split
    · exact ⟨hb, Or.inl (le_refl _)⟩
    · rename_i v hv
      split
      · rename_i hlt
        refine ⟨hv, ?_⟩
        by_cases h0 : 0 ≤ b.val
        · left
          show v ≤ b.val
          linarith
        · right
          show v ≤ 0
          linarith
      · exact ⟨hb, Or.inl (le_refl _)⟩

/-- with positive moments there is always a kernel, and whatever the minimiser returns, its error is not above that of the best one without correlation, hence not above
that of any kernel without correlation -/
theorem getH_best (p : Mom) (N corr : ℝ) (hN : 0 < N) (h40 : 0 < p.p40) (h04 : 0 < p.p04) (h22 : 0 ≤ p.p22) (m2 : ℝ × ℝ → Option (ℝ × ℝ)) (m3 : ℝ × ℝ × ℝ → Option (ℝ × ℝ × ℝ)) :
    ∃ hx hy c v, getH p N corr true m2 m3 = .ok (hx, hy, c) ∧ amise p N hx hy c = .ok v ∧
      ∀ x y, 0 < x → 0 < y → ∃ w, amise p N x y 0 = .ok w ∧ v ≤ w := by
  obtain ⟨x0, y0, v, hv, hopt⟩ := diag_optimal p N hN h40 h04 h22 _ _ rfl rfl
  have hb : Valid p N ⟨diagWidth N p.p40 p.p04 p.p22, diagWidth N p.p04 p.p40 p.p22, 0, v⟩ := hv
  obtain ⟨v1, l1⟩ := tryFixed_spec p N corr m2 _ hb
  obtain ⟨v2, l2⟩ := tryFree_spec p N corr m3 _ v1
  refine ⟨_, _, _, _, ?_, v2, ?_⟩
  · unfold getH
    simp only [Bool.not_true, Bool.false_eq_true, if_false]
    rw [hv]
  · intro x y hx hy
    obtain ⟨w, hw, hle⟩ := hopt x y hx hy
    refine ⟨w, hw, ?_⟩
    have hv0 : 0 ≤ v := by
      have hpi := Real.pi_pos
      unfold amise at hv
      split at hv
      · cases hv
      · rename_i hb
        have : variance N (diagWidth N p.p40 p.p04 p.p22) (diagWidth N p.p04 p.p40 p.p22) 0 + biasOf p (diagWidth N p.p40 p.p04 p.p22) (diagWidth N p.p04 p.p40 p.p22) 0 = v := by
          injection hv
        have hvar : 0 ≤ variance N (diagWidth N p.p40 p.p04 p.p22) (diagWidth N p.p04 p.p40 p.p22) 0 := by
          unfold variance
          positivity
        linarith [not_lt.mp hb]
    rcases l2 with l2 | l2
    · exact le_trans l2 (le_trans l1 hle)
    · exact le_trans l2 (le_trans hv0 hle)

example : ∃ hx hy c v, getH ⟨3, 5, 1, 0, 0⟩ 100 (1 / 2) true (fun x => some x) (fun x => some x) = .ok (hx, hy, c) ∧ amise ⟨3, 5, 1, 0, 0⟩ 100 hx hy c = .ok v ∧
    ∃ w, amise ⟨3, 5, 1, 0, 0⟩ 100 1 2 0 = .ok w ∧ v ≤ w := by
  obtain ⟨hx, hy, c, v, h1, h2, h3⟩ := getH_best ⟨3, 5, 1, 0, 0⟩ 100 (1 / 2) (by norm_num) (by norm_num) (by norm_num) (by norm_num) (fun x => some x) (fun x => some x)
  exact ⟨hx, hy, c, v, h1, h2, h3 1 2 (by norm_num) (by norm_num)⟩

/-- the moments of data that is not flat are positive, so the kernel exists -/
theorem kernel_exists {C : Coef} (h : Rough2 C) (N t p31 p13 corr : ℝ) (hN : 0 < N) (doCorr : Bool) (m2 : ℝ × ℝ → Option (ℝ × ℝ)) (m3 : ℝ × ℝ × ℝ → Option (ℝ × ℝ × ℝ)) :
    ∃ k, getH (moments C N t p31 p13) N corr doCorr m2 m3 = .ok k := by
  cases doCorr with
  | false => exact ⟨_, rfl⟩
  | true =>
    have h1 : 0 < moment C N 0 2 t := by simpa using (moment_sign h N hN 0 2 t).1
    have h2 : 0 < moment C N 2 0 t := by simpa using (moment_sign h N hN 2 0 t).1
    have h3 : 0 < moment C N 1 1 t := by simpa using (moment_sign h N hN 1 1 t).1
    obtain ⟨x, y, c, v, hk, _⟩ := getH_best (moments C N t p31 p13) N corr hN h2 h1 h3.le m2 m3
    exact ⟨_, hk⟩

example : ∃ k, getH (moments ⟨2, fun y x => if y = x then 1 else 0⟩ 100 1 2 3) 100 (1 / 2) true (fun x => some x) (fun _ => none) = .ok k :=
  kernel_exists ⟨fun y x _ _ => by simp only []; split <;> norm_num, 0, 0, by norm_num, by norm_num, by norm_num⟩ 100 1 2 3 _ (by norm_num) _ _ _

example : Rough2 ⟨2, fun y x => if y = x then 1 else 0⟩ := ⟨fun y x _ _ => by simp only []; split <;> norm_num, 0, 0, by norm_num, by norm_num, by norm_num⟩

end Verif.Bandwidth
