import Verif.Model.OddMoments
import Mathlib.Tactic.Ring
import Mathlib.Tactic.FieldSimp
import Mathlib.Tactic.Push
import Mathlib.Tactic.NormNum
import Mathlib.Tactic.Positivity
import Mathlib.Tactic.Linarith

/-!
# The odd moments of correlated bandwidths (C271, C272)
-/

namespace Verif.OddMoments
open Real Verif.Bandwidth

noncomputable section

/-- specification: the data seen in a mirror, x running the other way -/
def mirrorX (n : ℕ) (d : ℕ → ℕ → ℝ) (y x : ℕ) : ℝ := d y (n - 1 - x)

/-- specification: x and y exchanged -/
def transpose (d : ℕ → ℕ → ℝ) (y x : ℕ) : ℝ := d x y

/-! ## The recursion -/

/-- **C271**: the recursion of the code: moments of order up to eight are computed at a time found from the moments of the order two above, higher
ones at the given time. -/
theorem moment_rec (n : ℕ) (d : ℕ → ℕ → ℝ) (p00 N t : ℝ) (s0 s1 : ℕ) :
    (s0 + s1 ≤ 8 → oddMoment n d p00 N t s0 s1 =
      psiOdd n d s0 s1 (oddTime p00 N s0 s1 (oddMoment n d p00 N t (s0 + 2) s1 + oddMoment n d p00 N t s0 (s1 + 2)))) ∧
    (8 < s0 + s1 → oddMoment n d p00 N t s0 s1 = psiOdd n d s0 s1 t) := by
  constructor
  · intro h
    unfold oddMoment
    have h1 : (10 - (s0 + s1)) / 2 = (10 - (s0 + 2 + s1)) / 2 + 1 := by omega
    have h2 : (10 - (s0 + (s1 + 2))) / 2 = (10 - (s0 + 2 + s1)) / 2 := by omega
    rw [h1, h2, funcOdd]
  · intro h
    unfold oddMoment
    have h1 : (10 - (s0 + s1)) / 2 = 0 := by omega
    rw [h1, funcOdd]

example (n : ℕ) (d : ℕ → ℕ → ℝ) (p00 N t : ℝ) : oddMoment n d p00 N t 5 5 = psiOdd n d 5 5 t := (moment_rec n d p00 N t 5 5).2 (by norm_num)

/-! ## Symmetries of the transform -/

theorem fourier_transpose (n : ℕ) (d : ℕ → ℕ → ℝ) (j k : ℤ) : fourier n (transpose d) j k = fourier n d k j := by
  unfold fourier transpose
  rw [Finset.sum_comm]
  refine Finset.sum_congr rfl fun y _ => Finset.sum_congr rfl fun x _ => ?_
  rw [show (j * (x : ℂ) + k * (y : ℂ)) = (k * (y : ℂ) + j * (x : ℂ)) from add_comm _ _]

theorem total_transpose (n : ℕ) (d : ℕ → ℕ → ℝ) : total n (transpose d) = total n d := by
  unfold total transpose; rw [Finset.sum_comm]

theorem total_mirror (n : ℕ) (d : ℕ → ℕ → ℝ) : total n (mirrorX n d) = total n d := by
  unfold total mirrorX
  exact Finset.sum_congr rfl fun y _ => Finset.sum_range_reflect (fun x => d y x) n

theorem fourier_mirror (n : ℕ) (d : ℕ → ℕ → ℝ) (j k : ℤ) :
    fourier n (mirrorX n d) j k = Complex.exp (-(2 * π * Complex.I * (k * ((n - 1 : ℕ) : ℂ)) / n)) * fourier n d j (-k) := by
  unfold fourier
  rw [Finset.mul_sum]
  refine Finset.sum_congr rfl fun y _ => ?_
  rw [Finset.mul_sum, ← Finset.sum_range_reflect]
  refine Finset.sum_congr rfl fun x hx => ?_
  have hx : x < n := Finset.mem_range.1 hx
  have he : n - 1 - (n - 1 - x) = x := by omega
  unfold mirrorX
  rw [he, mul_left_comm, ← Complex.exp_add]
  congr 2
  have hc : ((n - 1 - x : ℕ) : ℂ) = ((n - 1 : ℕ) : ℂ) - x := by rw [Nat.cast_sub (by omega)]
  rw [hc]
  push_cast
  ring

theorem normSq_exp_I (r : ℝ) : Complex.normSq (Complex.exp (r * Complex.I)) = 1 := by
  rw [Complex.normSq_eq_norm_sq, Complex.norm_exp_ofReal_mul_I]; norm_num

/-- **C271**: mirroring the data changes the sign of the frequency. -/
theorem power_mirror (n : ℕ) (d : ℕ → ℕ → ℝ) (j k : ℤ) : power n (mirrorX n d) j k = power n d j (-k) := by
  unfold power
  rw [fourier_mirror, Complex.normSq_mul, total_mirror]
  have : (-(2 * π * Complex.I * (k * ((n - 1 : ℕ) : ℂ)) / n)) = ((-(2 * π * (k * ((n - 1 : ℕ) : ℝ)) / n) : ℝ) : ℂ) * Complex.I := by
    push_cast; ring
  rw [this, normSq_exp_I, one_mul]

theorem fourier_conj (n : ℕ) (d : ℕ → ℕ → ℝ) (j k : ℤ) : fourier n d (-j) (-k) = (starRingEnd ℂ) (fourier n d j k) := by
  unfold fourier
  rw [map_sum]
  refine Finset.sum_congr rfl fun y _ => ?_
  rw [map_sum]
  refine Finset.sum_congr rfl fun x _ => ?_
  rw [map_mul, Complex.conj_ofReal, ← Complex.exp_conj]
  congr 2
  simp only [map_neg, map_div₀, map_mul, map_add, Complex.conj_I, Complex.conj_ofReal, map_ofNat, map_natCast, map_intCast]
  push_cast
  ring

/-- **C271**: the data are real, so both frequencies may change their sign. -/
theorem power_neg (n : ℕ) (d : ℕ → ℕ → ℝ) (j k : ℤ) : power n d (-j) (-k) = power n d j k := by
  unfold power; rw [fourier_conj, Complex.normSq_conj]

theorem fourier_shift (n : ℕ) (d : ℕ → ℕ → ℝ) (j k a b : ℤ) : fourier n d (j + a * n) (k + b * n) = fourier n d j k := by
  unfold fourier
  refine Finset.sum_congr rfl fun y _ => Finset.sum_congr rfl fun x hx => ?_
  have hn : (n : ℂ) ≠ 0 := by
    have : x < n := Finset.mem_range.1 hx
    exact Nat.cast_ne_zero.2 (by omega)
  congr 1
  have : (-(2 * π * Complex.I * (((j + a * n : ℤ) : ℂ) * y + ((k + b * n : ℤ) : ℂ) * x) / n)) =
      (-(2 * π * Complex.I * (j * y + k * x) / n)) + ((-(a * y + b * x) : ℤ) : ℂ) * (2 * π * Complex.I) := by
    push_cast
    field_simp
    ring
  rw [this, Complex.exp_periodic.int_mul]

theorem power_shift (n : ℕ) (d : ℕ → ℕ → ℝ) (j k a b : ℤ) : power n d (j + a * n) (k + b * n) = power n d j k := by
  unfold power; rw [fourier_shift]

theorem freq_eq (n m : ℕ) : ∃ a : ℤ, (m : ℤ) = freq n m + a * n := by
  unfold freq
  by_cases h : 2 * m < n
  · rw [if_pos h]; exact ⟨0, by ring⟩
  · rw [if_neg h]; exact ⟨1, by ring⟩

/-- the entry of the array is that of its frequency -/
theorem power_freq (n : ℕ) (d : ℕ → ℕ → ℝ) (m l : ℕ) : power n d m l = power n d (freq n m) (freq n l) := by
  obtain ⟨a, ha⟩ := freq_eq n m
  obtain ⟨b, hb⟩ := freq_eq n l
  rw [ha, hb, power_shift]

/-! ## Sums over all frequencies -/

/-- the position of the opposite frequency -/
def opp (n m : ℕ) : ℕ := if m = 0 then 0 else n - m

theorem freq_opp {n m : ℕ} (hm : m < n) : (2 * m ≠ n → freq n (opp n m) = -freq n m) ∧ (2 * m = n → opp n m = m ∧ freq n m = -(m : ℤ)) := by
  unfold freq opp
  refine ⟨fun h => ?_, fun h => ⟨?_, ?_⟩⟩ <;> split_ifs <;> omega

theorem sum_opp {n : ℕ} (g : ℕ → ℝ) : ∑ m ∈ Finset.range n, g (opp n m) = ∑ m ∈ Finset.range n, g m := by
  refine Finset.sum_nbij' (opp n) (opp n) ?_ ?_ ?_ ?_ ?_
  · intro m hm; simp only [Finset.mem_range] at hm ⊢; unfold opp; split_ifs <;> omega
  · intro m hm; simp only [Finset.mem_range] at hm ⊢; unfold opp; split_ifs <;> omega
  · intro m hm; simp only [Finset.mem_range] at hm; unfold opp; split_ifs <;> omega
  · intro m hm; simp only [Finset.mem_range] at hm; unfold opp; split_ifs <;> omega
  · intro m _; rfl

/-- frequencies are symmetric but for the one at half the number of bins -/
theorem sum_neg {n : ℕ} (G : ℤ → ℝ) : ∑ m ∈ Finset.range n, G (-freq n m) =
    ∑ m ∈ Finset.range n, G (freq n m) + ∑ m ∈ Finset.range n, if 2 * m = n then G m - G (-(m : ℤ)) else 0 := by
  rw [← sum_opp (fun m => G (-freq n m)), ← Finset.sum_add_distrib]
  refine Finset.sum_congr rfl fun m hm => ?_
  have hm : m < n := Finset.mem_range.1 hm
  obtain ⟨h1, h2⟩ := freq_opp hm
  by_cases h : 2 * m = n
  · obtain ⟨h3, h4⟩ := h2 h
    rw [if_pos h, h3, h4, neg_neg]
    ring
  · rw [if_neg h, add_zero, h1 h, neg_neg]

/-- odd functions -/
theorem sum_odd {n : ℕ} (G : ℤ → ℝ) (hG : ∀ f, G (-f) = -G f) : ∑ m ∈ Finset.range n, G (freq n m) =
    ∑ m ∈ Finset.range n, if 2 * m = n then G (freq n m) else 0 := by
  have h := sum_neg (n := n) G
  have h1 : ∑ m ∈ Finset.range n, G (-freq n m) = -∑ m ∈ Finset.range n, G (freq n m) := by
    rw [← Finset.sum_neg_distrib]; exact Finset.sum_congr rfl fun m _ => hG _
  have h2 : (∑ m ∈ Finset.range n, if 2 * m = n then G m - G (-(m : ℤ)) else 0) =
      -2 * ∑ m ∈ Finset.range n, if 2 * m = n then G (freq n m) else 0 := by
    rw [Finset.mul_sum]
    refine Finset.sum_congr rfl fun m hm => ?_
    by_cases h : 2 * m = n
    · rw [if_pos h, if_pos h, ((freq_opp (Finset.mem_range.1 hm)).2 h).2, hG]; ring
    · rw [if_neg h, if_neg h]; ring
  rw [h1, h2] at h
  linarith

theorem weight_odd (t : ℝ) {s : ℕ} (hs : Odd s) (f : ℤ) : weight t s (-f) = -weight t s f := by
  unfold weight
  rw [Int.cast_neg, hs.neg_pow, neg_sq]
  ring

/-! ## Exchange of the parameters -/

theorem power_transpose (n : ℕ) (d : ℕ → ℕ → ℝ) (j k : ℤ) : power n (transpose d) j k = power n d k j := by
  unfold power; rw [fourier_transpose, total_transpose]

theorem psi_transpose (n : ℕ) (d : ℕ → ℕ → ℝ) (s0 s1 : ℕ) (t : ℝ) : psiOdd n (transpose d) s0 s1 t = psiOdd n d s1 s0 t := by
  unfold psiOdd
  rw [Finset.sum_comm, add_comm s0 s1]
  congr 1
  refine Finset.sum_congr rfl fun m _ => Finset.sum_congr rfl fun l _ => ?_
  rw [power_transpose]
  ring

theorem time_comm (p00 N : ℝ) (s0 s1 : ℕ) (u : ℝ) : oddTime p00 N s0 s1 u = oddTime p00 N s1 s0 u := by
  unfold oddTime
  rw [add_comm s0 s1, mul_assoc _ (kodd s0), mul_comm (kodd s0), ← mul_assoc]

theorem func_transpose (n : ℕ) (d : ℕ → ℕ → ℝ) (p00 N t : ℝ) : ∀ k s0 s1, funcOdd n (transpose d) p00 N t k s0 s1 = funcOdd n d p00 N t k s1 s0
  | 0, s0, s1 => psi_transpose n d s0 s1 t
  | k + 1, s0, s1 => by
    rw [funcOdd, funcOdd, func_transpose n d p00 N t k, func_transpose n d p00 N t k, psi_transpose, time_comm, add_comm (funcOdd n d p00 N t k s1 _)]

/-- **C271**: exchanging the parameters exchanges the orders of the moments. -/
theorem moment_transpose (n : ℕ) (d : ℕ → ℕ → ℝ) (p00 N t : ℝ) (s0 s1 : ℕ) :
    oddMoment n (transpose d) p00 N t s0 s1 = oddMoment n d p00 N t s1 s0 := by
  unfold oddMoment; rw [func_transpose, add_comm s0 s1]

example (d : ℕ → ℕ → ℝ) (p00 N t : ℝ) : oddMoment 4 (transpose d) p00 N t 1 3 = oddMoment 4 d p00 N t 3 1 := moment_transpose ..

/-! ## Mirror images -/

/-- the entry of the array at the highest frequency in both directions, which is there only for an even number of bins -/
def corner (n : ℕ) (d : ℕ → ℕ → ℝ) (s0 s1 : ℕ) (t : ℝ) : ℝ :=
  (∑ m ∈ Finset.range n, ∑ l ∈ Finset.range n, if 2 * m = n ∧ 2 * l = n then
    weight t s1 (freq n m) * power n d m l * weight t s0 (freq n l) else 0) * (2 * π) ^ (s0 + s1)

theorem corner_odd {n : ℕ} (hn : Odd n) (d : ℕ → ℕ → ℝ) (s0 s1 : ℕ) (t : ℝ) : corner n d s0 s1 t = 0 := by
  unfold corner
  rw [Finset.sum_eq_zero fun m _ => Finset.sum_eq_zero fun l _ => if_neg ?_, zero_mul]
  rintro ⟨h, _⟩
  obtain ⟨k, hk⟩ := hn
  omega

theorem half_shift {n l : ℕ} (h : 2 * l = n) (d : ℕ → ℕ → ℝ) (j : ℤ) : power n d j (-(l : ℤ)) = power n d j l := by
  have := power_shift n d j (-(l : ℤ)) 0 1
  rw [zero_mul, add_zero] at this
  rw [← this]
  congr 1
  have : (n : ℤ) = 2 * l := by exact_mod_cast h.symm
  rw [this]; ring

/-- **C271**: odd moments at one time change their sign in a mirror, but for the contribution of the highest frequency. -/
theorem psi_mirror (n : ℕ) (d : ℕ → ℕ → ℝ) {s0 s1 : ℕ} (h0 : Odd s0) (h1 : Odd s1) (t : ℝ) :
    psiOdd n (mirrorX n d) s0 s1 t = -psiOdd n d s0 s1 t + 2 * corner n d s0 s1 t := by
  unfold psiOdd corner
  have key : ∑ m ∈ Finset.range n, ∑ l ∈ Finset.range n, weight t s1 (freq n m) * power n (mirrorX n d) m l * weight t s0 (freq n l) =
      -(∑ m ∈ Finset.range n, ∑ l ∈ Finset.range n, weight t s1 (freq n m) * power n d m l * weight t s0 (freq n l)) +
      2 * ∑ m ∈ Finset.range n, ∑ l ∈ Finset.range n, if 2 * m = n ∧ 2 * l = n then
        weight t s1 (freq n m) * power n d m l * weight t s0 (freq n l) else 0 := by
    have hrow : ∀ m ∈ Finset.range n, ∑ l ∈ Finset.range n, weight t s1 (freq n m) * power n (mirrorX n d) m l * weight t s0 (freq n l) =
        -(∑ l ∈ Finset.range n, weight t s1 (freq n m) * power n d m l * weight t s0 (freq n l)) +
        2 * ∑ l ∈ Finset.range n, if 2 * l = n then weight t s1 (freq n m) * power n d (freq n m) (freq n l) * weight t s0 (freq n l) else 0 := by
      intro m _
      let G : ℤ → ℝ := fun f => weight t s1 (freq n m) * power n d (freq n m) f * weight t s0 f
      have hG := sum_neg (n := n) G
      have e1 : ∑ l ∈ Finset.range n, weight t s1 (freq n m) * power n (mirrorX n d) m l * weight t s0 (freq n l) =
          -∑ l ∈ Finset.range n, G (-freq n l) := by
        rw [← Finset.sum_neg_distrib]
        refine Finset.sum_congr rfl fun l _ => ?_
        rw [power_freq, power_mirror]
        dsimp only [G]
        rw [weight_odd t h0]
        ring
      have e2 : ∑ l ∈ Finset.range n, weight t s1 (freq n m) * power n d m l * weight t s0 (freq n l) = ∑ l ∈ Finset.range n, G (freq n l) :=
        Finset.sum_congr rfl fun l _ => by rw [power_freq]
      have e3 : (∑ l ∈ Finset.range n, if 2 * l = n then G l - G (-(l : ℤ)) else 0) =
          -2 * ∑ l ∈ Finset.range n, if 2 * l = n then weight t s1 (freq n m) * power n d (freq n m) (freq n l) * weight t s0 (freq n l) else 0 := by
        rw [Finset.mul_sum]
        refine Finset.sum_congr rfl fun l hl => ?_
        by_cases h : 2 * l = n
        · rw [if_pos h, if_pos h, ((freq_opp (Finset.mem_range.1 hl)).2 h).2]
          dsimp only [G]
          rw [half_shift h, weight_odd t h0]
          ring
        · rw [if_neg h, if_neg h]; ring
      rw [e1, e2, hG, e3]
      ring
    rw [Finset.sum_congr rfl hrow, Finset.sum_add_distrib, Finset.sum_neg_distrib, ← Finset.mul_sum]
    congr 2
    rw [Finset.sum_comm]
    rw [Finset.sum_comm (s := Finset.range n) (t := Finset.range n)
      (f := fun m l => if 2 * m = n ∧ 2 * l = n then weight t s1 (freq n m) * power n d m l * weight t s0 (freq n l) else 0)]
    refine Finset.sum_congr rfl fun l hl => ?_
    by_cases h : 2 * l = n
    · have hodd : ∀ f, (fun f => weight t s1 f * power n d f (freq n l) * weight t s0 (freq n l)) (-f) =
          -(fun f => weight t s1 f * power n d f (freq n l) * weight t s0 (freq n l)) f := by
        intro f
        dsimp only
        have hp : power n d (-f) (freq n l) = power n d f (freq n l) := by
          rw [((freq_opp (Finset.mem_range.1 hl)).2 h).2, power_neg, half_shift h]
        rw [hp, weight_odd t h1]
        ring
      have := sum_odd (n := n) (fun f => weight t s1 f * power n d f (freq n l) * weight t s0 (freq n l)) hodd
      simp only [h, if_true, and_true]
      rw [this]
      refine Finset.sum_congr rfl fun m _ => ?_
      by_cases hm : 2 * m = n
      · rw [if_pos hm, if_pos hm, power_freq n d m l]
      · rw [if_neg hm, if_neg hm]
    · simp only [h, if_false, and_false]
  rw [key]
  ring

example (d : ℕ → ℕ → ℝ) (t : ℝ) : psiOdd 3 (mirrorX 3 d) 1 3 t = -psiOdd 3 d 1 3 t := by
  rw [psi_mirror 3 d (by decide) (by decide), corner_odd (by decide)]; ring

theorem func_mirror {n : ℕ} (hn : Odd n) (d : ℕ → ℕ → ℝ) (p00 N t : ℝ) : ∀ k s0 s1, Odd s0 → Odd s1 →
    funcOdd n (mirrorX n d) p00 N t k s0 s1 = -funcOdd n d p00 N t k s0 s1
  | 0, s0, s1, h0, h1 => by rw [funcOdd, funcOdd, psi_mirror n d h0 h1, corner_odd hn]; ring
  | k + 1, s0, s1, h0, h1 => by
    have h0' : Odd (s0 + 2) := h0.add_even (by decide)
    have h1' : Odd (s1 + 2) := h1.add_even (by decide)
    rw [funcOdd, funcOdd, func_mirror hn d p00 N t k _ _ h0' h1, func_mirror hn d p00 N t k _ _ h0 h1', psi_mirror n d h0 h1, corner_odd hn]
    have ht : ∀ u v : ℝ, oddTime p00 N s0 s1 (-u + -v) = oddTime p00 N s0 s1 (u + v) := by
      intro u v
      unfold oddTime
      rw [show (-u + -v) ^ 2 = (u + v) ^ 2 by ring]
    rw [ht]
    ring

/-- **C271**: for an odd number of bins the odd moments of the mirror image are minus those of the data. -/
theorem moment_mirror {n : ℕ} (hn : Odd n) (d : ℕ → ℕ → ℝ) (p00 N t : ℝ) {s0 s1 : ℕ} (h0 : Odd s0) (h1 : Odd s1) :
    oddMoment n (mirrorX n d) p00 N t s0 s1 = -oddMoment n d p00 N t s0 s1 := func_mirror hn d p00 N t _ s0 s1 h0 h1

example (d : ℕ → ℕ → ℝ) (p00 N t : ℝ) : oddMoment 5 (mirrorX 5 d) p00 N t 1 3 = -oddMoment 5 d p00 N t 1 3 :=
  moment_mirror (by decide) d p00 N t (by decide) (by decide)

/-! ## Independent parameters -/

theorem fourier_product (n : ℕ) (a b : ℕ → ℝ) (j k : ℤ) : fourier n (fun y x => a y * b x) j k =
    (∑ y ∈ Finset.range n, (a y : ℂ) * Complex.exp (((-(2 * π * (j * y) / n) : ℝ) : ℂ) * Complex.I)) *
    (∑ x ∈ Finset.range n, (b x : ℂ) * Complex.exp (((-(2 * π * (k * x) / n) : ℝ) : ℂ) * Complex.I)) := by
  unfold fourier
  rw [Finset.sum_mul]
  refine Finset.sum_congr rfl fun y _ => ?_
  rw [Finset.mul_sum]
  refine Finset.sum_congr rfl fun x _ => ?_
  rw [mul_mul_mul_comm, ← Complex.exp_add]
  push_cast
  congr 2
  ring

theorem half_conj (n : ℕ) (b : ℕ → ℝ) (k : ℤ) : (∑ x ∈ Finset.range n, (b x : ℂ) * Complex.exp (((-(2 * π * (((-k : ℤ) : ℝ) * x) / n) : ℝ) : ℂ) * Complex.I)) =
    (starRingEnd ℂ) (∑ x ∈ Finset.range n, (b x : ℂ) * Complex.exp (((-(2 * π * (k * x) / n) : ℝ) : ℂ) * Complex.I)) := by
  rw [map_sum]
  refine Finset.sum_congr rfl fun x _ => ?_
  rw [map_mul, Complex.conj_ofReal, ← Complex.exp_conj, map_mul, Complex.conj_ofReal, Complex.conj_I]
  push_cast
  congr 2
  ring

theorem power_product (n : ℕ) (a b : ℕ → ℝ) (j k : ℤ) : power n (fun y x => a y * b x) j (-k) = power n (fun y x => a y * b x) j k := by
  unfold power
  rw [fourier_product, fourier_product, half_conj, Complex.normSq_mul, Complex.normSq_mul, Complex.normSq_conj]

/-- **C271**: for an odd number of bins independent parameters have no odd moments: for data that are products of their margins these are zero. -/
theorem moment_independent {n : ℕ} (hn : Odd n) (a b : ℕ → ℝ) (p00 N t : ℝ) {s0 s1 : ℕ} (h0 : Odd s0) :
    oddMoment n (fun y x => a y * b x) p00 N t s0 s1 = 0 := by
  have hpsi : ∀ (u : ℝ), psiOdd n (fun y x => a y * b x) s0 s1 u = 0 := by
    intro u
    unfold psiOdd
    rw [Finset.sum_eq_zero fun m _ => ?_, zero_mul]
    have hodd : ∀ f, (fun f => weight u s1 (freq n m) * power n (fun y x => a y * b x) (freq n m) f * weight u s0 f) (-f) =
        -(fun f => weight u s1 (freq n m) * power n (fun y x => a y * b x) (freq n m) f * weight u s0 f) f := by
      intro f
      dsimp only
      rw [power_product, weight_odd u h0]
      ring
    have := sum_odd (n := n) (fun f => weight u s1 (freq n m) * power n (fun y x => a y * b x) (freq n m) f * weight u s0 f) hodd
    rw [Finset.sum_congr rfl fun l _ => by rw [power_freq], this]
    refine Finset.sum_eq_zero fun l _ => if_neg ?_
    obtain ⟨k, hk⟩ := hn
    omega
  unfold oddMoment
  cases (10 - (s0 + s1)) / 2 with
  | zero => rw [funcOdd]; exact hpsi t
  | succ k => rw [funcOdd]; exact hpsi _

example (a b : ℕ → ℝ) (p00 N t : ℝ) : oddMoment 7 (fun y x => a y * b x) p00 N t 3 1 = 0 := moment_independent (by decide) a b p00 N t (by decide)

/-! ## The kernel -/

/-- the moments of the mirror image -/
def mirrorMom (p : Mom) : Mom := { p with p31 := -p.p31, p13 := -p.p13 }

theorem amise_mirror (p : Mom) (N hx hy c : ℝ) : amise (mirrorMom p) N hx hy (-c) = amise p N hx hy c := by
  have hb : biasOf (mirrorMom p) hx hy (-c) = biasOf p hx hy c := by unfold biasOf mirrorMom; dsimp only; ring
  have hv : variance N hx hy (-c) = variance N hx hy c := by unfold variance; rw [neg_sq]
  unfold amise
  rw [hb, hv]

/-- **C271**: with moments of a mirror image and the opposite correlation, the kernel has the same widths and the opposite correlation, if the
minimizers treat mirror images alike. -/
theorem getH_mirror (p : Mom) (N corr : ℝ) (doCorr : Bool) (min2 min2' : ℝ × ℝ → Option (ℝ × ℝ)) (min3 min3' : ℝ × ℝ × ℝ → Option (ℝ × ℝ × ℝ))
    (h2 : ∀ x, min2' x = min2 x) (h3 : ∀ x y c, min3' (x, y, -c) = (min3 (x, y, c)).map (fun r => (r.1, r.2.1, -r.2.2))) :
    getH (mirrorMom p) N (-corr) doCorr min2' min3' = (getH p N corr doCorr min2 min3).map (fun r => (r.1, r.2.1, -r.2.2)) := by
  have hf : ∀ b : Best, tryFixed (mirrorMom p) N (-corr) min2' { b with c := -b.c } = { tryFixed p N corr min2 b with c := -(tryFixed p N corr min2 b).c } := by
    intro b
    unfold tryFixed
    dsimp only
    by_cases hc : corr = 0
    · rw [if_pos hc, if_pos (by rw [hc, neg_zero])]
    · rw [if_neg hc, if_neg (by rwa [neg_eq_zero]), abs_neg, h2]
      cases min2 (b.hx / √(1 - |corr|), b.hy / √(1 - |corr|)) with
      | none => rfl
      | some x =>
        dsimp only
        rw [amise_mirror]
        cases amise p N x.1 x.2 corr with
        | error e => rfl
        | ok v =>
          dsimp only
          by_cases hv : v < b.val
          · rw [if_pos hv, if_pos hv]
          · rw [if_neg hv, if_neg hv]
  have hg : ∀ b : Best, tryFree (mirrorMom p) N (-corr) min3' { b with c := -b.c } = { tryFree p N corr min3 b with c := -(tryFree p N corr min3 b).c } := by
    intro b
    unfold tryFree
    dsimp only
    rw [h3]
    cases min3 (b.hx, b.hy, corr) with
    | none => rfl
    | some x =>
      rw [Option.map_some]
      dsimp only
      rw [amise_mirror]
      cases amise p N x.1 x.2.1 x.2.2 with
      | error e => rfl
      | ok v =>
        dsimp only
        by_cases hv : v < b.val * (9 / 10)
        · rw [if_pos hv, if_pos hv]
        · rw [if_neg hv, if_neg hv]
  unfold getH
  have hp : (mirrorMom p).p40 = p.p40 ∧ (mirrorMom p).p04 = p.p04 ∧ (mirrorMom p).p22 = p.p22 := ⟨rfl, rfl, rfl⟩
  dsimp only
  rw [hp.1, hp.2.1, hp.2.2]
  cases doCorr with
  | false => simp [Except.map]
  | true =>
    simp only [Bool.not_true, Bool.false_eq_true, if_false]
    have ha := amise_mirror p N (diagWidth N p.p40 p.p04 p.p22) (diagWidth N p.p04 p.p40 p.p22) 0
    rw [neg_zero] at ha
    rw [ha]
    cases amise p N (diagWidth N p.p40 p.p04 p.p22) (diagWidth N p.p04 p.p40 p.p22) 0 with
    | error e => rfl
    | ok v =>
      dsimp only
      have := hf ⟨diagWidth N p.p40 p.p04 p.p22, diagWidth N p.p04 p.p40 p.p22, 0, v⟩
      dsimp only at this
      rw [neg_zero] at this
      rw [this, hg]
      rfl

example (p : Mom) (N : ℝ) : getH (mirrorMom p) N (-(1 / 2)) true (fun _ => none) (fun _ => none) =
    (getH p N (1 / 2) true (fun _ => none) (fun _ => none)).map (fun r => (r.1, r.2.1, -r.2.2)) :=
  getH_mirror p N _ true _ _ _ _ (fun _ => rfl) (fun _ _ _ => rfl)

/-! ## C272 -/

theorem psi_two (d : ℕ → ℕ → ℝ) (t : ℝ) : psiOdd 2 d 1 3 t = exp (-(4 * π ^ 2 * t)) ^ 2 * power 2 d 1 1 * (2 * π) ^ 4 := by
  have f0 : freq 2 0 = 0 := by decide
  have f1 : freq 2 1 = -1 := by decide
  have w0 : ∀ s, s ≠ 0 → weight t s 0 = 0 := by intro s hs; unfold weight; rw [Int.cast_zero, zero_pow hs, mul_zero]
  have w1 : ∀ s, Odd s → weight t s (-1) = -exp (-(4 * π ^ 2 * t)) := by
    intro s hs
    rw [weight_odd t hs]
    unfold weight
    rw [Int.cast_one, one_pow, one_pow, mul_one]
    congr 2
    ring
  unfold psiOdd
  rw [Finset.sum_range_succ, Finset.sum_range_one, Finset.sum_range_succ, Finset.sum_range_one, Finset.sum_range_succ, Finset.sum_range_one,
    f0, f1, w0 3 (by norm_num), w0 1 (by norm_num), w1 3 (by decide), w1 1 (by decide)]
  push_cast
  ring

/-- all in one bin: independent parameters -/
def point (y x : ℕ) : ℝ := (if y = 0 then 1 else 0) * (if x = 0 then 1 else 0)

theorem power_point : power 2 point 1 1 = 1 := by
  have ht : total 2 point = 1 := by
    unfold total point
    simp
  have hf : fourier 2 point 1 1 = 1 := by
    unfold fourier point
    simp [Finset.sum_range_succ]
  unfold power
  rw [ht, hf]
  simp

theorem psi_point (t : ℝ) : 0 < psiOdd 2 point 1 3 t := by
  rw [psi_two, power_point]
  positivity

/-- **C272 fails**: for an even number of bins (the code uses 256 by default) independent parameters have odd moments, because the highest frequency
is taken with one sign only (kde_bandwidth.py:204-207): two bins each with all in the first. -/
theorem independent_fails : ∃ (a b : ℕ → ℝ), ∀ t, psiOdd 2 (fun y x => a y * b x) 1 3 t ≠ 0 :=
  ⟨fun y => if y = 0 then 1 else 0, fun x => if x = 0 then 1 else 0, fun t => (psi_point t).ne'⟩

/-- **C272 fails**: for an even number of bins the odd moment of the mirror image is not minus that of the data (kde_bandwidth.py:204-207). -/
theorem mirror_fails : ∃ d : ℕ → ℕ → ℝ, ∀ t, psiOdd 2 (mirrorX 2 d) 1 3 t = psiOdd 2 d 1 3 t ∧ psiOdd 2 (mirrorX 2 d) 1 3 t ≠ -psiOdd 2 d 1 3 t := by
  refine ⟨point, fun t => ?_⟩
  have h : psiOdd 2 (mirrorX 2 point) 1 3 t = psiOdd 2 point 1 3 t := by
    rw [psi_two, psi_two, power_mirror]
    have := half_shift (n := 2) (l := 1) rfl point 1
    rw [Nat.cast_one] at this
    rw [this]
  refine ⟨h, ?_⟩
  rw [h]
  have := psi_point t
  intro he
  linarith

/-- **C272**, the part that holds: the sign changes exactly for any number of bins if the data have nothing at the highest frequency in both
directions. -/
theorem mirror_partial (n : ℕ) (d : ℕ → ℕ → ℝ) {s0 s1 : ℕ} (h0 : Odd s0) (h1 : Odd s1) (t : ℝ)
    (hc : ∀ m l : ℕ, 2 * m = n → 2 * l = n → power n d m l = 0) : psiOdd n (mirrorX n d) s0 s1 t = -psiOdd n d s0 s1 t := by
  rw [psi_mirror n d h0 h1]
  have : corner n d s0 s1 t = 0 := by
    unfold corner
    rw [Finset.sum_eq_zero fun m _ => Finset.sum_eq_zero fun l _ => ?_, zero_mul]
    by_cases h : 2 * m = n ∧ 2 * l = n
    · rw [if_pos h, hc m l h.1 h.2]; ring
    · rw [if_neg h]
  rw [this]
  ring

example (d : ℕ → ℕ → ℝ) (t : ℝ) : psiOdd 3 (mirrorX 3 d) 1 3 t = -psiOdd 3 d 1 3 t :=
  mirror_partial 3 d (by decide) (by decide) t (fun m l h _ => by omega)

end

end Verif.OddMoments
