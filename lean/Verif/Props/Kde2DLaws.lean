import Verif.Props.Kde2D
import Mathlib.Algebra.BigOperators.Field

/-!
# Two-dimensional densities: the window, planes and flat densities, range of values (C126)
-/

namespace Verif.Kde2D
set_option linter.unusedSectionVars false
open Verif.Py Verif.Py.Np Verif.Convolve Finset
open Verif.Kde1D (soften iter)

variable {K : Type} [Field K] [LinearOrder K] [IsStrictOrderedRing K] [FloorRing K]

/-! ## The window -/

theorem cells_sum (a : Arr K) : (cells a).sum = ∑ o ∈ range a.h, ∑ p ∈ range a.w, a.v o p := by
  unfold cells
  rw [← list_sum_range]
  have : ∀ l : List Nat, (l.flatMap (fun i => (List.range a.w).map (a.v i))).sum = (l.map (fun o => ∑ p ∈ range a.w, a.v o p)).sum := by
    intro l
    induction l with
    | nil => rfl
    | cons x l ih => rw [List.flatMap_cons, List.sum_append, ih, List.map_cons, List.sum_cons, list_sum_range]
  exact this _

/-- the correlated Gaussian -/
def gaussExp (rx ry corr x y : K) : K := -(x ^ 2 / rx ^ 2 - 2 * corr * (x / rx) * (y / ry) + y ^ 2 / ry ^ 2) / (2 * (1 - corr ^ 2))

theorem quad_gauss {rx ry corr : K} (hx : rx ≠ 0) (hy : ry ≠ 0) (hc : corr ^ 2 ≠ 1) : ∃ c00 c11 c10, cinv rx ry corr = .ok (c00, c11, c10) ∧
    ∀ x y, quad c00 c11 c10 y x = gaussExp rx ry corr x y := by
  have h1 : 1 - corr ^ 2 ≠ 0 := fun h => hc (by linarith)
  have hd : ry ^ 2 * rx ^ 2 - (rx * ry * corr) * (rx * ry * corr) = rx ^ 2 * ry ^ 2 * (1 - corr ^ 2) := by ring
  have hne : rx ^ 2 * ry ^ 2 * (1 - corr ^ 2) ≠ 0 := mul_ne_zero (mul_ne_zero (pow_ne_zero _ hx) (pow_ne_zero _ hy)) h1
  unfold cinv
  dsimp only
  rw [hd, if_neg hne]
  refine ⟨_, _, _, rfl, ?_⟩
  intro x y
  unfold quad gaussExp
  field_simp
  ring

/-- sum of the Gaussian over the offsets -/
def gS (exp : K → K) (rx ry corr : K) (w : Nat) : K :=
  ∑ o ∈ range (2 * w + 1), ∑ p ∈ range (2 * w + 1), exp (gaussExp rx ry corr (off w p) (off w o))

/-- **C126** The window is the correlated Gaussian of the two widths over the offsets, scaled to sum one: every entry positive. -/
theorem window_spec {exp : K → K} (he : ∀ x, 0 < exp x) {rx ry corr : K} (hx : rx ≠ 0) (hy : ry ≠ 0) (hc : corr ^ 2 ≠ 1) (w : Nat) :
    ∃ W, window exp rx ry corr w = .ok W ∧ W.h = 2 * w + 1 ∧ W.w = 2 * w + 1 ∧
      (∀ o p, W.v o p = exp (gaussExp rx ry corr (off w p) (off w o)) / gS exp rx ry corr w) ∧ (∀ o p, 0 < W.v o p) ∧
      ∑ o ∈ range (2 * w + 1), ∑ p ∈ range (2 * w + 1), W.v o p = 1 := by
  obtain ⟨c00, c11, c10, h1, h2⟩ := quad_gauss hx hy hc
  unfold window
  rw [h1]
  simp only [h2, cells_sum]
  have hS : 0 < ∑ o ∈ range (2 * w + 1), ∑ p ∈ range (2 * w + 1), exp (gaussExp rx ry corr (off w p) (off w o)) :=
    sum_pos (fun o _ => sum_pos (fun p _ => he _) (by simp)) (by simp)
  refine ⟨_, rfl, rfl, rfl, fun _ _ => rfl, fun o p => div_pos (he _) hS, ?_⟩
  simp only [← sum_div]
  exact div_self hS.ne'

/-- **C126** Fails for a window of a degenerate kernel: zero width or full correlation has no inverse (LinAlgError), so `smooth_scale_2D = 0`
and two equal parameters are refused deep inside numpy. -/
theorem window_fails (exp : K → K) (rx ry corr : K) (w : Nat) : window exp rx ry corr w = .error .linAlgError ↔ rx = 0 ∨ ry = 0 ∨ corr ^ 2 = 1 := by
  have hd : ry ^ 2 * rx ^ 2 - (rx * ry * corr) * (rx * ry * corr) = rx ^ 2 * ry ^ 2 * (1 - corr ^ 2) := by ring
  have hz : rx ^ 2 * ry ^ 2 * (1 - corr ^ 2) = 0 ↔ rx = 0 ∨ ry = 0 ∨ corr ^ 2 = 1 := by
    rw [mul_eq_zero, mul_eq_zero, pow_eq_zero_iff (by norm_num), pow_eq_zero_iff (by norm_num), sub_eq_zero, or_assoc, eq_comm (a := (1 : K))]
  unfold window cinv
  dsimp only
  rw [hd]
  by_cases h : rx ^ 2 * ry ^ 2 * (1 - corr ^ 2) = 0
  · rw [if_pos h]; exact ⟨fun _ => hz.mp h, fun _ => rfl⟩
  · rw [if_neg h]
    simp only [← hz, h, iff_false]
    intro e; cases e

theorem gaussExp_neg (rx ry corr x y : K) : gaussExp rx ry corr (-x) (-y) = gaussExp rx ry corr x y := by
  unfold gaussExp; congr 2; ring

theorem gaussExp_swap (rx ry corr x y : K) : gaussExp ry rx corr y x = gaussExp rx ry corr x y := by
  unfold gaussExp; congr 2; ring

theorem gaussExp_flip (rx ry corr x y : K) : gaussExp rx ry (-corr) (-x) y = gaussExp rx ry corr x y := by
  unfold gaussExp
  rw [show (-corr) ^ 2 = corr ^ 2 by ring]
  congr 2; ring

/-- the exponent is largest, zero, at the centre -/
theorem gaussExp_nonpos {rx ry corr : K} (hc : corr ^ 2 < 1) (x y : K) : gaussExp rx ry corr x y ≤ 0 := by
  unfold gaussExp
  apply div_nonpos_of_nonpos_of_nonneg
  · have e : x ^ 2 / rx ^ 2 - 2 * corr * (x / rx) * (y / ry) + y ^ 2 / ry ^ 2 = (x / rx - corr * (y / ry)) ^ 2 + (1 - corr ^ 2) * (y / ry) ^ 2 := by
      rw [div_pow, ← div_pow, ← div_pow]; ring
    rw [e]
    have := mul_nonneg (by linarith : (0 : K) ≤ 1 - corr ^ 2) (sq_nonneg (y / ry))
    have := sq_nonneg (x / rx - corr * (y / ry))
    linarith
  · linarith

/-! ## Moments -/

/-- the determinant of the moments of positive weights on three points not on a line -/
theorem gram_pos {ι : Type} {s : Finset ι} {ω X Y : ι → K} (hω : ∀ q ∈ s, 0 ≤ ω q) {c q1 q2 : ι} (hc : c ∈ s) (h1 : q1 ∈ s) (h2 : q2 ∈ s)
    (hc0 : 0 < ω c) (h10 : 0 < ω q1) (h20 : 0 < ω q2) (hXc : X c = 0) (hYc : Y c = 0) (hX1 : X q1 ≠ 0) (hY1 : Y q1 = 0) (hX2 : X q2 = 0)
    (hY2 : Y q2 ≠ 0) {a00 a10 a01 a20 a11 a02 : K} (e00 : a00 = ∑ q ∈ s, ω q) (e10 : a10 = ∑ q ∈ s, ω q * X q) (e01 : a01 = ∑ q ∈ s, ω q * Y q)
    (e20 : a20 = ∑ q ∈ s, ω q * X q ^ 2) (e11 : a11 = ∑ q ∈ s, ω q * X q * Y q) (e02 : a02 = ∑ q ∈ s, ω q * Y q ^ 2) :
    0 < a00 ∧ a20 * a01 ^ 2 + a10 ^ 2 * a02 - a00 * a02 * a20 + a11 ^ 2 * a00 - 2 * a01 * a10 * a11 < 0 := by
  have hQ : ∀ u v t : K, u ^ 2 * a00 + 2 * u * v * a10 + 2 * u * t * a01 + v ^ 2 * a20 + 2 * v * t * a11 + t ^ 2 * a02 =
      ∑ q ∈ s, ω q * (u + v * X q + t * Y q) ^ 2 := by
    intro u v t
    rw [e00, e10, e01, e20, e11, e02]
    simp only [mul_sum, ← sum_add_distrib]
    exact sum_congr rfl (fun q _ => by ring)
  have hpos : ∀ u v t : K, (u ≠ 0 ∨ v ≠ 0 ∨ t ≠ 0) →
      0 < u ^ 2 * a00 + 2 * u * v * a10 + 2 * u * t * a01 + v ^ 2 * a20 + 2 * v * t * a11 + t ^ 2 * a02 := by
    intro u v t h
    rw [hQ]
    have hnn : ∀ q ∈ s, 0 ≤ ω q * (u + v * X q + t * Y q) ^ 2 := fun q hq => mul_nonneg (hω q hq) (sq_nonneg _)
    refine lt_of_le_of_ne (sum_nonneg hnn) (fun e => ?_)
    have hz := (sum_eq_zero_iff_of_nonneg hnn).mp e.symm
    have z0 := hz c hc
    have z1 := hz q1 h1
    have z2 := hz q2 h2
    rw [mul_eq_zero, pow_eq_zero_iff (by norm_num)] at z0 z1 z2
    have u0 : u = 0 := by simpa [hXc, hYc] using z0.resolve_left hc0.ne'
    have v0 : v = 0 := by
      have := z1.resolve_left h10.ne'
      simpa [u0, hY1, hX1] using this
    have t0 : t = 0 := by
      have := z2.resolve_left h20.ne'
      simpa [u0, hX2, hY2] using this
    rcases h with h | h | h
    · exact h u0
    · exact h v0
    · exact h t0
  have p00 : 0 < a00 := by simpa using hpos 1 0 0 (.inl one_ne_zero)
  have p1 : 0 < a00 * a20 - a10 ^ 2 := by
    have := hpos (-a10) a00 0 (.inr (.inl p00.ne'))
    have e : (-a10) ^ 2 * a00 + 2 * -a10 * a00 * a10 + 2 * -a10 * 0 * a01 + a00 ^ 2 * a20 + 2 * a00 * 0 * a11 + 0 ^ 2 * a02 =
      a00 * (a00 * a20 - a10 ^ 2) := by ring
    rw [e] at this
    exact (pos_iff_pos_of_mul_pos this).mp p00
  refine ⟨p00, ?_⟩
  have := hpos (a10 * a11 - a20 * a01) (a10 * a01 - a00 * a11) (a00 * a20 - a10 ^ 2) (.inr (.inr p1.ne'))
  have e : (a10 * a11 - a20 * a01) ^ 2 * a00 + 2 * (a10 * a11 - a20 * a01) * (a10 * a01 - a00 * a11) * a10 +
      2 * (a10 * a11 - a20 * a01) * (a00 * a20 - a10 ^ 2) * a01 + (a10 * a01 - a00 * a11) ^ 2 * a20 +
      2 * (a10 * a01 - a00 * a11) * (a00 * a20 - a10 ^ 2) * a11 + (a00 * a20 - a10 ^ 2) ^ 2 * a02 =
      (a00 * a20 - a10 ^ 2) * -(a20 * a01 ^ 2 + a10 ^ 2 * a02 - a00 * a02 * a20 + a11 ^ 2 * a00 - 2 * a01 * a10 * a11) := by ring
  rw [e] at this
  have := (pos_iff_pos_of_mul_pos this).mp p1
  linarith

theorem corrected_plane {a00 a10 a01 a20 a11 a02 : K}
    (hd : a20 * a01 ^ 2 + a10 ^ 2 * a02 - a00 * a02 * a20 + a11 ^ 2 * a00 - 2 * a01 * a10 * a11 ≠ 0) (q d e : K) :
    corrected (q * a00 - d * a10 - e * a01) (q * a10 - d * a20 - e * a11) (q * a01 - d * a11 - e * a02) a00 a10 a01 a20 a02 a11 = q := by
  unfold corrected
  dsimp only
  rw [div_eq_iff hd]
  ring

section main
variable {conv : Conv2 K} {exp : K → K} {m n w : Nat} {W hist : Arr K} {xb xt yb yt : Bool}

theorem m1_nonneg (b t all : Bool) (n w k : Nat) : (0 : K) ≤ m1 b t all n w k := by
  unfold m1; split_ifs <;> norm_num

theorem m1_pos (b t all : Bool) {n w k : Nat} (h1 : w ≤ k) (h2 : k < n + w) : (0 : K) < m1 b t all n w k := by
  unfold m1; rw [if_neg (by omega)]; split_ifs <;> norm_num

/-- weight of an offset at a place -/
def om2 (W : Arr K) (xb xt yb yt : Bool) (m n w i j : Nat) (q : Nat × Nat) : K :=
  W.v q.1 q.2 * mask2 xb xt yb yt false m n w (i + (2 * w - q.1)) (j + (2 * w - q.2))

theorem aF_eq (k l i j : Nat) : aF W xb xt yb yt m n w k l i j =
    ∑ q ∈ range (2 * w + 1) ×ˢ range (2 * w + 1), om2 W xb xt yb yt m n w i j q * off w q.2 ^ k * off w q.1 ^ l := by
  rw [sum_product]
  unfold aF ws kW om2
  exact sum_congr rfl (fun o _ => sum_congr rfl (fun p _ => by ring))

theorem det2 (hWp : ∀ o p, 0 < W.v o p) (hw : 0 < w) (hm : 2 ≤ m) (hn : 2 ≤ n) {i j : Nat} (hi : i < m) (hj : j < n) :
    0 < aF W xb xt yb yt m n w 0 0 i j ∧
    aF W xb xt yb yt m n w 2 0 i j * aF W xb xt yb yt m n w 0 1 i j ^ 2 + aF W xb xt yb yt m n w 1 0 i j ^ 2 * aF W xb xt yb yt m n w 0 2 i j -
      aF W xb xt yb yt m n w 0 0 i j * aF W xb xt yb yt m n w 0 2 i j * aF W xb xt yb yt m n w 2 0 i j +
      aF W xb xt yb yt m n w 1 1 i j ^ 2 * aF W xb xt yb yt m n w 0 0 i j -
      2 * aF W xb xt yb yt m n w 0 1 i j * aF W xb xt yb yt m n w 1 0 i j * aF W xb xt yb yt m n w 1 1 i j < 0 := by
  have hmem : ∀ o p, o < 2 * w + 1 → p < 2 * w + 1 → (o, p) ∈ range (2 * w + 1) ×ˢ range (2 * w + 1) := by
    intro o p h1 h2; rw [mem_product, mem_range, mem_range]; exact ⟨h1, h2⟩
  have hpos : ∀ o p, o < 2 * w + 1 → p < 2 * w + 1 → w ≤ i + (2 * w - o) → i + (2 * w - o) < m + w → w ≤ j + (2 * w - p) →
      j + (2 * w - p) < n + w → 0 < om2 W xb xt yb yt m n w i j (o, p) := by
    intro o p h1 h2 h3 h4 h5 h6
    exact mul_pos (hWp o p) (mul_pos (m1_pos yb yt false h3 h4) (m1_pos xb xt false h5 h6))
  have hnn : ∀ q ∈ range (2 * w + 1) ×ˢ range (2 * w + 1), 0 ≤ om2 W xb xt yb yt m n w i j q :=
    fun q _ => mul_nonneg (hWp _ _).le (mul_nonneg (m1_nonneg ..) (m1_nonneg ..))
  obtain ⟨p, hp, hpw, hp1, hp2⟩ : ∃ p, p < 2 * w + 1 ∧ p ≠ w ∧ w ≤ j + (2 * w - p) ∧ j + (2 * w - p) < n + w := by
    by_cases h : 0 < j
    · exact ⟨w + 1, by omega, by omega, by omega, by omega⟩
    · exact ⟨w - 1, by omega, by omega, by omega, by omega⟩
  obtain ⟨o, ho, how, ho1, ho2⟩ : ∃ o, o < 2 * w + 1 ∧ o ≠ w ∧ w ≤ i + (2 * w - o) ∧ i + (2 * w - o) < m + w := by
    by_cases h : 0 < i
    · exact ⟨w + 1, by omega, by omega, by omega, by omega⟩
    · exact ⟨w - 1, by omega, by omega, by omega, by omega⟩
  have hoff : ∀ k : Nat, k ≠ w → (off w k : K) ≠ 0 := by
    intro k hk h
    unfold off at h
    exact hk (by exact_mod_cast (sub_eq_zero.mp h))
  have hoff0 : (off w w : K) = 0 := by unfold off; ring
  simp only [aF_eq]
  refine gram_pos (ω := om2 W xb xt yb yt m n w i j) (X := fun q => off w q.2) (Y := fun q => off w q.1) hnn
    (hmem w w (by omega) (by omega)) (hmem w p (by omega) hp) (hmem o w ho (by omega)) (hpos w w (by omega) (by omega) (by omega) (by omega) (by omega) (by omega))
    (hpos w p (by omega) hp (by omega) (by omega) hp1 hp2) (hpos o w ho (by omega) ho1 ho2 (by omega) (by omega)) hoff0 hoff0 (hoff p hpw) hoff0 hoff0 (hoff o how)
    ?_ ?_ ?_ ?_ ?_ ?_ <;> exact sum_congr rfl (fun q _ => by ring)

/-- share of a bin that lies inside the limits -/
def share (b t : Bool) (n k : Nat) : K := if (b = true ∧ k = 0) ∨ (t = true ∧ k + 1 = n) then 1 / 2 else 1

/-- the histogram of a density between hard limits -/
def IsHist2 (xb xt yb yt : Bool) (m n : Nat) (hist : Arr K) (f : K → K → K) : Prop :=
  hist.h = m ∧ hist.w = n ∧ ∀ i < m, ∀ j < n, hist.v i j = share yb yt m i * share xb xt n j * f (j : K) (i : K)

theorem m1_share (b t : Bool) {n w k : Nat} (all : Bool) (h1 : w ≤ k) (h2 : k < n + w) : (m1 b t all n w k : K) = share b t n (k - w) := by
  unfold m1 share
  rw [if_neg (by omega)]
  have e1 : k = w ↔ k - w = 0 := by omega
  have e2 : k + 1 = n + w ↔ k - w + 1 = n := by omega
  simp only [e1, e2]

theorem window_eq2 {f : K → K → K} (hb : IsHist2 xb xt yb yt m n hist f) {i j : Nat} (h1 : yb = true ∨ w ≤ i)
    (h2 : yt = true ∨ i + w < m) (h3 : xb = true ∨ w ≤ j) (h4 : xt = true ∨ j + w < n) {o p : Nat} (ho : o < 2 * w + 1) (hp : p < 2 * w + 1) :
    pad2 w hist (i + (2 * w - o)) (j + (2 * w - p)) =
      mask2 xb xt yb yt false m n w (i + (2 * w - o)) (j + (2 * w - p)) * f ((j : K) - off w p) ((i : K) - off w o) := by
  obtain ⟨e1, e2, e3⟩ := hb
  have hlow : ∀ b t n k, k < w → b = true → (m1 b t false n w k : K) = 0 := by
    intro b t n k hk hb; unfold m1; rw [if_pos (.inl ⟨.inl hb, hk⟩)]
  have hhigh : ∀ b t n k, n + w ≤ k → t = true → (m1 b t false n w k : K) = 0 := by
    intro b t n k hk hb; unfold m1; rw [if_pos (.inr ⟨.inl hb, hk⟩)]
  unfold pad2 mask2
  by_cases c1 : i + (2 * w - o) < w
  · rw [if_pos (.inl c1), hlow _ _ _ _ c1 (h1.resolve_right (by omega))]; ring
  by_cases c2 : j + (2 * w - p) < w
  · rw [if_pos (.inr c2), hlow _ _ _ _ c2 (h3.resolve_right (by omega))]; ring
  rw [if_neg (by omega)]
  by_cases c3 : m + w ≤ i + (2 * w - o)
  · rw [hhigh _ _ _ _ c3 (h2.resolve_right (by omega)), Arr.ent_h (by omega)]; ring
  by_cases c4 : n + w ≤ j + (2 * w - p)
  · rw [hhigh _ _ _ _ c4 (h4.resolve_right (by omega)), Arr.ent_w (by omega)]; ring
  rw [show Arr.ent hist _ _ = _ from if_pos ⟨by omega, by omega⟩, e3 _ (by omega) _ (by omega), m1_share _ _ _ (by omega) (by omega),
    m1_share _ _ _ (by omega) (by omega)]
  congr 2
  · unfold off
    have : j + (2 * w - p) - w + p = j + w := by omega
    have e : ((j + (2 * w - p) - w : Nat) : K) + (p : K) = (j : K) + (w : K) := by exact_mod_cast this
    linarith
  · unfold off
    have : i + (2 * w - o) - w + o = i + w := by omega
    have e : ((i + (2 * w - o) - w : Nat) : K) + (o : K) = (i : K) + (w : K) := by exact_mod_cast this
    linarith

theorem bF_eq {f : K → K → K} (hb : IsHist2 xb xt yb yt m n hist f) {i j : Nat} (h1 : yb = true ∨ w ≤ i)
    (h2 : yt = true ∨ i + w < m) (h3 : xb = true ∨ w ≤ j) (h4 : xt = true ∨ j + w < n) (k l : Nat) :
    bF W hist w k l i j = ∑ q ∈ range (2 * w + 1) ×ˢ range (2 * w + 1),
      om2 W xb xt yb yt m n w i j q * off w q.2 ^ k * off w q.1 ^ l * f ((j : K) - off w q.2) ((i : K) - off w q.1) := by
  rw [sum_product]
  unfold bF ws kW om2
  refine sum_congr rfl (fun o ho => sum_congr rfl (fun p hp => ?_))
  rw [window_eq2 hb h1 h2 h3 h4 (mem_range.mp ho) (mem_range.mp hp)]
  ring

theorem edgeF_in {P : Nat → Nat → K} {order : Int} (hl : (xb || xt || yb || yt) = true) (ho : 0 ≤ order) {i j : Nat}
    (h : maxF m n P * tiny < aF W xb xt yb yt m n w 0 0 i j * P i j) :
    edgeF exp order xb xt yb yt m n w W hist P i j =
      fix2 exp order (P i j) (fun k l => aF W xb xt yb yt m n w k l i j) (fun k l => bF W hist w k l i j) := by
  unfold edgeF; rw [if_pos (And.intro hl ho), if_pos h]

theorem edgeF_out {P : Nat → Nat → K} {order : Int} {i j : Nat} (h : ¬ maxF m n P * tiny < aF W xb xt yb yt m n w 0 0 i j * P i j) :
    edgeF exp order xb xt yb yt m n w W hist P i j = P i j := by
  unfold edgeF; split_ifs <;> rfl

/-- **C126** At hard limits the correction of order 1 replaces the normalised estimate `r0` (order 0) by `r0 exp(min(f / r0, 4) - 1)`, where `f` is
the exact density, whenever that is a plane.  At an open end this holds a window away.  (Values below 1e-8 of the largest are left alone.) -/
theorem plane_exact (hWp : ∀ o p, 0 < W.v o p) (hw : 0 < w) (hm : 2 ≤ m) (hn : 2 ≤ n) (c d e : K)
    (hb : IsHist2 xb xt yb yt m n hist (fun x y => c + d * x + e * y)) (hl : (xb || xt || yb || yt) = true) {i j : Nat} (hi : i < m) (hj : j < n)
    (h1 : yb = true ∨ w ≤ i) (h2 : yt = true ∨ i + w < m) (h3 : xb = true ∨ w ≤ j) (h4 : xt = true ∨ j + w < n)
    (hbig : maxF m n (bF W hist w 0 0) * tiny < aF W xb xt yb yt m n w 0 0 i j * bF W hist w 0 0 i j) :
    edgeF exp 1 xb xt yb yt m n w W hist (bF W hist w 0 0) i j =
      edgeF exp 0 xb xt yb yt m n w W hist (bF W hist w 0 0) i j *
        exp (min ((c + d * j + e * i) / edgeF exp 0 xb xt yb yt m n w W hist (bF W hist w 0 0) i j) 4 - 1) := by
  rw [edgeF_in hl (by norm_num) hbig, edgeF_in hl (by norm_num) hbig]
  unfold fix2
  rw [if_pos rfl, if_neg (by omega : ¬ (0 : Int) = 1)]
  unfold soften
  obtain ⟨-, hd⟩ := det2 (xb := xb) (xt := xt) (yb := yb) (yt := yt) hWp hw hm hn hi hj
  have hk : ∀ k l, bF W hist w k l i j = (c + d * j + e * i) * aF W xb xt yb yt m n w k l i j - d * aF W xb xt yb yt m n w (k + 1) l i j -
      e * aF W xb xt yb yt m n w k (l + 1) i j := by
    intro k l
    rw [bF_eq hb h1 h2 h3 h4, aF_eq, aF_eq, aF_eq, mul_sum, mul_sum, mul_sum, ← sum_sub_distrib, ← sum_sub_distrib]
    exact sum_congr rfl (fun q _ => by ring)
  have key := corrected_plane hd.ne (c + d * j + e * i) d e
  rw [← hk 0 0, ← hk 1 0] at key
  have e2 : bF W hist w 0 1 i j = (c + d * j + e * i) * aF W xb xt yb yt m n w 0 1 i j - d * aF W xb xt yb yt m n w 1 1 i j -
      e * aF W xb xt yb yt m n w 0 2 i j := hk 0 1
  rw [← e2] at key
  rw [key]

/-- **C126** the same for the program: `P` the smoothed histogram, `r0` and `r` the corrections of order 0 and 1.  At each place either the
estimate is left alone, as the part of it inside the limits is below 1e-8 of the maximum, or it is the one for the exact density -/
theorem plane_exact_run (hc : Conv2Ok conv) (hWh : W.h = 2 * w + 1) (hWw : W.w = 2 * w + 1) (hWp : ∀ o p, 0 < W.v o p) (hw : 0 < w) (hm : 2 ≤ m)
    (hn : 2 ≤ n) (c d e : K) (hb : IsHist2 xb xt yb yt m n hist (fun x y => c + d * x + e * y)) (hl : (xb || xt || yb || yt) = true) :
    ∃ P r0 r, run2 conv hist W .same = .ok P ∧ edgeCorrect2 conv exp 0 xb xt yb yt w W hist P = .ok r0 ∧
      edgeCorrect2 conv exp 1 xb xt yb yt w W hist P = .ok r ∧ r.h = m ∧ r.w = n ∧
      ∀ i < m, ∀ j < n, (yb = true ∨ w ≤ i) → (yt = true ∨ i + w < m) → (xb = true ∨ w ≤ j) → (xt = true ∨ j + w < n) →
        (r.v i j = P.v i j ∧ r0.v i j = P.v i j ∧ aF W xb xt yb yt m n w 0 0 i j * P.v i j ≤ maxA P / 10 ^ 8) ∨
        r.v i j = r0.v i j * exp (min ((c + d * j + e * i) / r0.v i j) 4 - 1) := by
  obtain ⟨P, hP, vP⟩ := run_same2 hc (x := hist) (y := W) (w := w) hb.1 hb.2.1 hWh hWw (by omega : 0 < m) (by omega : 0 < n)
  have vP' : Rep m n P (bF W hist w 0 0) := ⟨vP.1, vP.2.1, fun i hi j hj => by
    rw [vP.2.2 i hi j hj]
    unfold bF
    exact ws_congr (fun o _ p _ => by unfold kW; simp) (fun _ _ _ _ => rfl)⟩
  obtain ⟨r0, h0, v0⟩ := edge_eval2 (exp := exp) (xb := xb) (xt := xt) (yb := yb) (yt := yt) hc hWh hWw hb.1 hb.2.1 hw hm hn vP' (order := 0) (fun _ => by omega)
  obtain ⟨r, h1, v1⟩ := edge_eval2 (exp := exp) (xb := xb) (xt := xt) (yb := yb) (yt := yt) hc hWh hWw hb.1 hb.2.1 hw hm hn vP' (order := 1) (fun _ => by omega)
  refine ⟨P, r0, r, hP, h0, h1, v1.1, v1.2.1, ?_⟩
  intro i hi j hj c1 c2 c3 c4
  rw [v0.2.2 i hi j hj, v1.2.2 i hi j hj, vP'.2.2 i hi j hj, maxA_rep vP']
  by_cases hbig : maxF m n (bF W hist w 0 0) * tiny < aF W xb xt yb yt m n w 0 0 i j * bF W hist w 0 0 i j
  · exact .inr (plane_exact hWp hw hm hn c d e hb hl hi hj c1 c2 c3 c4 hbig)
  · left
    rw [edgeF_out hbig, edgeF_out hbig]
    refine ⟨rfl, rfl, ?_⟩
    have := not_lt.mp hbig
    unfold tiny at this
    rw [mul_one_div] at this
    exact this

/-! ## The whole density -/

/-- the density at a place -/
def dens (exp : K → K) (order : Int) (rounds : Nat) (xb xt yb yt : Bool) (m n w : Nat) (W hist : Arr K) (i j : Nat) : K :=
  rawF2 exp order rounds xb xt yb yt m n w W hist i j / maxF m n (rawF2 exp order rounds xb xt yb yt m n w W hist)

theorem grid_eval2 (hc : Conv2Ok conv) {rx ry corr : K} (hW : window exp rx ry corr (winw2 rx ry) = .ok W) (hWh : W.h = 2 * winw2 rx ry + 1)
    (hWw : W.w = 2 * winw2 rx ry + 1) (hh : hist.h = m) (hhw : hist.w = n)
    (hw : 0 < winw2 rx ry) (hm : 2 ≤ m) (hn : 2 ≤ n) {order : Int} (ho : (xb || xt || yb || yt) = true → order ≤ 1) (rounds : Nat) :
    (maxF m n (rawF2 exp order rounds xb xt yb yt m n (winw2 rx ry) W hist) = 0 →
      gridDensity2 conv exp order rounds xb xt yb yt rx ry corr hist = .error .densitiesError) ∧
    (maxF m n (rawF2 exp order rounds xb xt yb yt m n (winw2 rx ry) W hist) ≠ 0 →
      ∃ r, gridDensity2 conv exp order rounds xb xt yb yt rx ry corr hist = .ok r ∧
        Rep m n r (dens exp order rounds xb xt yb yt m n (winw2 rx ry) W hist)) := by
  obtain ⟨P, hP, vP⟩ := raw_eval2 (exp := exp) hc hWh hWw hh hhw hw hm hn ho rounds
  unfold gridDensity2
  rw [hW]
  simp only []
  rw [hP]
  simp only []
  unfold normMax
  rw [maxA_rep vP]
  constructor
  · intro h; rw [if_pos h]
  · intro h
    rw [if_neg h]
    refine ⟨_, rfl, vP.1, vP.2.1, ?_⟩
    intro i hi j hj
    dsimp only
    rw [vP.2.2 i hi j hj]
    rfl

theorem ws_nonneg {g f : Nat → Nat → K} {i j : Nat} (h1 : ∀ o < 2 * w + 1, ∀ p < 2 * w + 1, 0 ≤ g o p)
    (h2 : ∀ o < 2 * w + 1, ∀ p < 2 * w + 1, 0 ≤ f (i + (2 * w - o)) (j + (2 * w - p))) : 0 ≤ ws w g f i j :=
  sum_nonneg (fun o ho => sum_nonneg (fun p hp => mul_nonneg (h1 o (mem_range.mp ho) p (mem_range.mp hp)) (h2 o (mem_range.mp ho) p (mem_range.mp hp))))

/-- a window sum is at least its term at the centre -/
theorem ws_center {g f : Nat → Nat → K} {i j : Nat} (h1 : ∀ o < 2 * w + 1, ∀ p < 2 * w + 1, 0 ≤ g o p)
    (h2 : ∀ o < 2 * w + 1, ∀ p < 2 * w + 1, 0 ≤ f (i + (2 * w - o)) (j + (2 * w - p))) : g w w * f (i + w) (j + w) ≤ ws w g f i j := by
  unfold ws
  have e1 := single_le_sum (f := fun o => ∑ p ∈ range (2 * w + 1), g o p * f (i + (2 * w - o)) (j + (2 * w - p))) (s := range (2 * w + 1)) (a := w)
    (fun o ho => sum_nonneg (fun p hp => mul_nonneg (h1 o (mem_range.mp ho) p (mem_range.mp hp)) (h2 o (mem_range.mp ho) p (mem_range.mp hp))))
    (mem_range.mpr (by omega))
  have e2 := single_le_sum (f := fun p => g w p * f (i + (2 * w - w)) (j + (2 * w - p))) (s := range (2 * w + 1)) (a := w)
    (fun p hp => mul_nonneg (h1 w (by omega) p (mem_range.mp hp)) (h2 w (by omega) p (mem_range.mp hp))) (mem_range.mpr (by omega))
  rw [show 2 * w - w = w by omega] at e1 e2
  exact e2.trans e1

theorem pad2_nonneg {a : Arr K} (h : ∀ i < a.h, ∀ j < a.w, 0 ≤ a.v i j) (i j : Nat) : 0 ≤ pad2 w a i j := by
  unfold pad2 Arr.ent
  split_ifs with h1 h2
  · exact le_refl _
  · exact h _ h2.1 _ h2.2
  · exact le_refl _

theorem pad2_in {a : Arr K} {i j : Nat} (hi : i < a.h) (hj : j < a.w) : pad2 w a (i + w) (j + w) = a.v i j := by
  unfold pad2
  rw [if_neg (by omega)]
  simp only [Nat.add_sub_cancel]
  exact if_pos ⟨hi, hj⟩

/-- not negative, and positive where there are samples -/
def Pos2 (m n : Nat) (hist : Arr K) (P : Nat → Nat → K) : Prop := ∀ i < m, ∀ j < n, 0 ≤ P i j ∧ (0 < hist.v i j → 0 < P i j)

theorem mask_pos (hWp : ∀ o p, 0 < W.v o p) (all : Bool) {i j : Nat} (hi : i < m) (hj : j < n) : 0 < ws w W.v (mask2 xb xt yb yt all m n w) i j := by
  refine lt_of_lt_of_le ?_ (ws_center (fun o _ p _ => (hWp o p).le) (fun o _ p _ => mul_nonneg (m1_nonneg ..) (m1_nonneg ..)))
  exact mul_pos (hWp w w) (mul_pos (m1_pos _ _ _ (by omega) (by omega)) (m1_pos _ _ _ (by omega) (by omega)))

theorem aF_zero (i j : Nat) : aF W xb xt yb yt m n w 0 0 i j = ws w W.v (mask2 xb xt yb yt false m n w) i j := by
  unfold aF
  exact ws_congr (fun o _ p _ => by unfold kW; simp) (fun _ _ _ _ => rfl)

theorem bF_zero (i j : Nat) : bF W hist w 0 0 i j = ws w W.v (pad2 w hist) i j := by
  unfold bF
  exact ws_congr (fun o _ p _ => by unfold kW; simp) (fun _ _ _ _ => rfl)

theorem rawF2_pos (he : ∀ x, 0 < exp x) (hWp : ∀ o p, 0 < W.v o p) (hh : hist.h = m) (hhw : hist.w = n) (hpos : ∀ i < m, ∀ j < n, 0 ≤ hist.v i j)
    (order : Int) (rounds : Nat) : Pos2 m n hist (rawF2 exp order rounds xb xt yb yt m n w W hist) := by
  subst hh hhw
  unfold rawF2
  refine Kde1D.iter_fix (p := Pos2 hist.h hist.w hist) ?_ rounds _ ?_
  · intro P hP i hi j hj
    have hbox : ∀ a < (boxF hist hist.h hist.w P).h, ∀ b < (boxF hist hist.h hist.w P).w, 0 ≤ (boxF hist hist.h hist.w P).v a b := by
      intro a ha b hb
      simp only [boxF] at ha hb ⊢
      split_ifs
      · exact div_nonneg (hpos a ha b hb) (hP a ha b hb).1
      · exact hpos a ha b hb
    have h1 := ws_nonneg (w := w) (i := i) (j := j) (fun o _ p _ => (hWp o p).le) (fun o _ p _ => pad2_nonneg (w := w) hbox (i + (2 * w - o)) (j + (2 * w - p)))
    have h2 := ws_center (w := w) (i := i) (j := j) (fun o _ p _ => (hWp o p).le) (fun o _ p _ => pad2_nonneg (w := w) hbox (i + (2 * w - o)) (j + (2 * w - p)))
    have h3 := mask_pos (m := hist.h) (n := hist.w) (w := w) (xb := xb) (xt := xt) (yb := yb) (yt := yt) hWp true hi hj
    unfold biasF2
    refine ⟨div_nonneg (mul_nonneg (hP i hi j hj).1 h1) h3.le, fun hs => ?_⟩
    have hPp := (hP i hi j hj).2 hs
    refine div_pos (mul_pos hPp (lt_of_lt_of_le (mul_pos (hWp w w) ?_) h2)) h3
    rw [pad2_in (a := boxF hist hist.h hist.w P) hi hj]
    simp only [boxF]
    split_ifs
    · exact div_pos hs hPp
    · exact hs
  · intro i hi j hj
    have b0 : 0 ≤ bF W hist w 0 0 i j := by
      rw [bF_zero]
      exact ws_nonneg (fun o _ p _ => (hWp o p).le) (fun o _ p _ => pad2_nonneg hpos _ _)
    have b1 : 0 < hist.v i j → 0 < bF W hist w 0 0 i j := by
      intro hs
      rw [bF_zero]
      refine lt_of_lt_of_le (mul_pos (hWp w w) ?_) (ws_center (fun o _ p _ => (hWp o p).le) (fun o _ p _ => pad2_nonneg hpos _ _))
      rw [pad2_in hi hj]
      exact hs
    have ha : 0 < aF W xb xt yb yt hist.h hist.w w 0 0 i j := by rw [aF_zero]; exact mask_pos hWp false hi hj
    unfold edgeF
    split_ifs with c1 c2
    · have hmx : 0 ≤ maxF hist.h hist.w (bF W hist w 0 0) * tiny := by
        have := (maxF_spec (by omega : 0 < hist.h) (by omega : 0 < hist.w) (bF W hist w 0 0)).2 i hi j hj
        exact mul_nonneg (b0.trans this) (by unfold tiny; positivity)
      have hb : 0 < bF W hist w 0 0 i j := (pos_iff_pos_of_mul_pos (lt_of_le_of_lt hmx c2)).mp ha
      have hr : 0 < fix2 exp order (bF W hist w 0 0 i j) (fun k l => aF W xb xt yb yt hist.h hist.w w k l i j) (fun k l => bF W hist w k l i j) := by
        unfold fix2
        split_ifs
        · unfold soften; exact mul_pos (div_pos hb ha) (he _)
        · exact div_pos hb ha
      exact ⟨hr.le, fun _ => hr⟩
    · exact ⟨b0, b1⟩
    · exact ⟨b0, b1⟩

/-- **C126** A density from any histogram with samples lies between zero and one, has maximum one, and is positive where there are samples; for
every order up to one, any number of rounds of bias correction and any limits. -/
theorem density_range2 (hc : Conv2Ok conv) (he : ∀ x, 0 < exp x) {rx ry corr : K} (hx : rx ≠ 0) (hy : ry ≠ 0) (hcr : corr ^ 2 ≠ 1)
    (hh : hist.h = m) (hhw : hist.w = n) (hw : 0 < winw2 rx ry) (hm : 2 ≤ m) (hn : 2 ≤ n) {order : Int}
    (ho : (xb || xt || yb || yt) = true → order ≤ 1) (rounds : Nat) (hpos : ∀ i < m, ∀ j < n, 0 ≤ hist.v i j)
    (hsome : ∃ i < m, ∃ j < n, 0 < hist.v i j) :
    ∃ r, gridDensity2 conv exp order rounds xb xt yb yt rx ry corr hist = .ok r ∧ r.h = m ∧ r.w = n ∧
      (∀ i < m, ∀ j < n, 0 ≤ r.v i j ∧ r.v i j ≤ 1 ∧ (0 < hist.v i j → 0 < r.v i j)) ∧ ∃ i < m, ∃ j < n, r.v i j = 1 := by
  obtain ⟨W, hW, hWh, hWw, -, hWp, -⟩ := window_spec he hx hy hcr (winw2 rx ry)
  have hP := rawF2_pos (w := winw2 rx ry) (xb := xb) (xt := xt) (yb := yb) (yt := yt) he hWp hh hhw hpos order rounds
  obtain ⟨⟨i1, hi1, j1, hj1, e1⟩, hmax⟩ := maxF_spec (by omega : 0 < m) (by omega : 0 < n)
    (rawF2 exp order rounds xb xt yb yt m n (winw2 rx ry) W hist)
  obtain ⟨i0, hi0, j0, hj0, h0⟩ := hsome
  have hM := lt_of_lt_of_le ((hP i0 hi0 j0 hj0).2 h0) (hmax i0 hi0 j0 hj0)
  obtain ⟨r, hr, hrh, hrw, hrv⟩ := (grid_eval2 (xb := xb) (xt := xt) (yb := yb) (yt := yt) hc hW hWh hWw hh hhw hw hm hn ho rounds).2 hM.ne'
  refine ⟨r, hr, hrh, hrw, ?_, i1, hi1, j1, hj1, ?_⟩
  · intro i hi j hj
    rw [hrv i hi j hj]
    unfold dens
    refine ⟨div_nonneg (hP i hi j hj).1 hM.le, ?_, fun hs => div_pos ((hP i hi j hj).2 hs) hM⟩
    rw [div_le_one hM]
    exact hmax i hi j hj
  · rw [hrv i1 hi1 j1 hj1]
    unfold dens
    rw [e1, div_self hM.ne']

/-- **C126** Samples of a flat density between hard limits of both parameters give a density that is exactly one on the whole grid, up to and
including the limits and corners, for both orders of the boundary correction and any number of rounds of bias correction (provided that at
each place at least 1e-4 of the window lies inside the limits). -/
theorem flat_exact2 (hc : Conv2Ok conv) (he : ∀ x, 0 < exp x) (he0 : exp 0 = 1) {rx ry corr : K} (hx : rx ≠ 0) (hy : ry ≠ 0) (hcr : corr ^ 2 ≠ 1)
    (hw : 0 < winw2 rx ry) (hm : 2 ≤ m) (hn : 2 ≤ n) {order : Int} (ho : order = 0 ∨ order = 1) (rounds : Nat) (c : K) (hcp : 0 < c)
    (hb : IsHist2 true true true true m n hist (fun _ _ => c))
    (hin : ∀ W, window exp rx ry corr (winw2 rx ry) = .ok W → ∀ i < m, ∀ j < n,
      1 / 10 ^ 4 < ws (winw2 rx ry) W.v (mask2 true true true true false m n (winw2 rx ry)) i j) :
    ∃ r, gridDensity2 conv exp order rounds true true true true rx ry corr hist = .ok r ∧ r.h = m ∧ r.w = n ∧
      ∀ i < m, ∀ j < n, r.v i j = 1 := by
  obtain ⟨W, hW, hWh, hWw, -, hWp, hWs⟩ := window_spec he hx hy hcr (winw2 rx ry)
  have hin := hin W hW
  generalize hwe : winw2 rx ry = w at *
  have hbF : ∀ i < m, ∀ j < n, ∀ k l, bF W hist w k l i j = c * aF W true true true true m n w k l i j := by
    intro i hi j hj k l
    rw [bF_eq hb (.inl rfl) (.inl rfl) (.inl rfl) (.inl rfl), aF_eq, mul_sum]
    exact sum_congr rfl (fun q _ => by ring)
  have ha1 : ∀ i j, aF W true true true true m n w 0 0 i j ≤ 1 := by
    intro i j
    rw [aF_zero, ← hWs]
    unfold ws
    refine sum_le_sum (fun o _ => sum_le_sum (fun p _ => ?_))
    have h1 : ∀ n k, (m1 true true false n w k : K) ≤ 1 := by intro n k; unfold m1; split_ifs <;> norm_num
    have : mask2 true true true true false m n w (i + (2 * w - o)) (j + (2 * w - p)) ≤ (1 : K) := by
      unfold mask2
      exact mul_le_one₀ (h1 _ _) (m1_nonneg ..) (h1 _ _)
    have := mul_le_mul_of_nonneg_left this (hWp o p).le
    rwa [mul_one] at this
  have hmaxb : maxF m n (bF W hist w 0 0) ≤ c := by
    obtain ⟨⟨i, hi, j, hj, e⟩, -⟩ := maxF_spec (by omega : 0 < m) (by omega : 0 < n) (bF W hist w 0 0)
    rw [← e, hbF i hi j hj]
    have := mul_le_mul_of_nonneg_left (ha1 i j) hcp.le
    rwa [mul_one] at this
  have hedge : ∀ i < m, ∀ j < n, edgeF exp order true true true true m n w W hist (bF W hist w 0 0) i j = c := by
    intro i hi j hj
    obtain ⟨ha, hd⟩ := det2 (xb := true) (xt := true) (yb := true) (yt := true) hWp hw hm hn hi hj
    have hin' := hin i hi j hj
    rw [← aF_zero] at hin'
    have hsel : maxF m n (bF W hist w 0 0) * tiny < aF W true true true true m n w 0 0 i j * bF W hist w 0 0 i j := by
      have h1 : maxF m n (bF W hist w 0 0) * tiny ≤ c * (1 / 10 ^ 8) := mul_le_mul_of_nonneg_right hmaxb (by unfold tiny; positivity)
      have h2 : (1 / 10 ^ 8 : K) < aF W true true true true m n w 0 0 i j * aF W true true true true m n w 0 0 i j := by
        have e : (1 / 10 ^ 8 : K) = (1 / 10 ^ 4) * (1 / 10 ^ 4) := by norm_num
        rw [e]
        exact mul_lt_mul'' hin' hin' (by positivity) (by positivity)
      rw [hbF i hi j hj]
      calc _ ≤ c * (1 / 10 ^ 8) := h1
        _ < c * (aF W true true true true m n w 0 0 i j * aF W true true true true m n w 0 0 i j) := mul_lt_mul_of_pos_left h2 hcp
        _ = _ := by ring
    rw [edgeF_in rfl (by omega) hsel]
    have hnorm : bF W hist w 0 0 i j / aF W true true true true m n w 0 0 i j = c := by
      rw [hbF i hi j hj, mul_div_assoc, div_self ha.ne', mul_one]
    unfold fix2
    rw [hnorm]
    split_ifs
    · have hcor : corrected (bF W hist w 0 0 i j) (bF W hist w 1 0 i j) (bF W hist w 0 1 i j) (aF W true true true true m n w 0 0 i j)
          (aF W true true true true m n w 1 0 i j) (aF W true true true true m n w 0 1 i j) (aF W true true true true m n w 2 0 i j)
          (aF W true true true true m n w 0 2 i j) (aF W true true true true m n w 1 1 i j) = c := by
        have := corrected_plane hd.ne c 0 0
        simp only [zero_mul, sub_zero] at this
        rwa [hbF i hi j hj, hbF i hi j hj, hbF i hi j hj]
      rw [hcor]
      unfold soften
      rw [div_self hcp.ne', min_eq_left (by norm_num), sub_self, he0, mul_one]
    · rfl
  have hiter : ∀ i < m, ∀ j < n, rawF2 exp order rounds true true true true m n w W hist i j = c := by
    unfold rawF2
    refine Kde1D.iter_fix (p := fun P : Nat → Nat → K => ∀ i < m, ∀ j < n, P i j = c) ?_ rounds _ hedge
    intro P hP i hi j hj
    unfold biasF2
    have hm3 := mask_pos (W := W) (m := m) (n := n) (w := w) (xb := true) (xt := true) (yb := true) (yt := true) hWp true hi hj
    have hmx : maxF m n P = c := maxF_unique (by omega) (by omega) ⟨0, by omega, 0, by omega, hP 0 (by omega) 0 (by omega)⟩
      (fun a ha b hb => (hP a ha b hb).le)
    have hbox : IsHist2 true true true true m n (boxF hist m n P) (fun _ _ => 1) := by
      refine ⟨rfl, rfl, ?_⟩
      intro a ha b hb'
      simp only [boxF]
      rw [hmx, hP a ha b hb', if_pos, hb.2.2 a ha b hb']
      · rw [mul_div_assoc, div_self hcp.ne']
      · have : (tiny : K) < 1 := by unfold tiny; norm_num
        have := mul_lt_mul_of_pos_left this hcp
        rwa [mul_one] at this
    have e : ws w W.v (pad2 w (boxF hist m n P)) i j = ws w W.v (mask2 true true true true true m n w) i j := by
      refine ws_congr (fun _ _ _ _ => rfl) (fun o ho p hp => ?_)
      rw [window_eq2 hbox (.inl rfl) (.inl rfl) (.inl rfl) (.inl rfl) ho hp, mul_one]
      unfold mask2 m1
      simp
    rw [e, hP i hi j hj, mul_div_assoc, div_self hm3.ne', mul_one]
  have hmx : maxF m n (rawF2 exp order rounds true true true true m n w W hist) = c :=
    maxF_unique (by omega) (by omega) ⟨0, by omega, 0, by omega, hiter 0 (by omega) 0 (by omega)⟩ (fun a ha b hb => (hiter a ha b hb).le)
  subst hwe
  obtain ⟨r, hr, hrh, hrw, hrv⟩ := (grid_eval2 (xb := true) (xt := true) (yb := true) (yt := true) (exp := exp) hc hW hWh hWw hb.1 hb.2.1 hw hm hn (order := order)
    (fun _ => by omega) rounds).2 (by rw [hmx]; exact hcp.ne')
  refine ⟨r, hr, hrh, hrw, ?_⟩
  intro i hi j hj
  rw [hrv i hi j hj]
  unfold dens
  rw [hiter i hi j hj, hmx, div_self hcp.ne']

end main

end Verif.Kde2D
