import Verif.Props.Convolve
import Mathlib.RingTheory.RootsOfUnity.Complex
import Mathlib.Analysis.SpecialFunctions.Trigonometric.Basic

/-!
# C41: the documented discrete Fourier transforms have the properties assumed in `Props/Convolve`

`np.fft.rfft`, `np.fft.irfft`, `fftpack.rfft` and `fftpack.idct(type=1)` are written down by their documented formulas over the real numbers.
-/

namespace Verif.Convolve

open Finset
open scoped Real ComplexConjugate

theorem list_sum_range {M : Type} [AddCommMonoid M] (n : Nat) (f : Nat → M) : ((List.range n).map f).sum = ∑ i ∈ range n, f i := by
  induction n with
  | zero => rfl
  | succ n ih => rw [List.range_succ, List.map_append, List.sum_append, ih, sum_range_succ]; simp

/-- the root of unity -/
noncomputable def zeta (n : Nat) : ℂ := Complex.exp (2 * π * Complex.I / n)

theorem zeta_prim {n : Nat} (h : 0 < n) : IsPrimitiveRoot (zeta n) n := Complex.isPrimitiveRoot_exp n h.ne'

theorem zeta_ne (n : Nat) : zeta n ≠ 0 := Complex.exp_ne_zero _

theorem conj_zeta (n : Nat) : conj (zeta n) = (zeta n)⁻¹ := by
  unfold zeta
  rw [← Complex.exp_conj, ← Complex.exp_neg]
  congr 1
  have h2 : (starRingEnd ℂ) 2 = 2 := Complex.conj_ofNat 2
  simp [Complex.conj_ofReal, neg_div, h2]

/-- orthogonality -/
theorem orth {n : Nat} (h : 0 < n) (a b : Nat) : ∑ m ∈ range n, ((zeta n)⁻¹ ^ a * zeta n ^ b) ^ m = if a % n = b % n then (n : ℂ) else 0 := by
  have hz := zeta_prim h
  have hone : ((zeta n)⁻¹ ^ a * zeta n ^ b) ^ n = 1 := by
    rw [mul_pow, ← pow_mul, ← pow_mul, mul_comm a, mul_comm b, pow_mul, pow_mul, inv_pow, hz.pow_eq_one]
    simp
  split
  · rename_i he
    have : (zeta n)⁻¹ ^ a * zeta n ^ b = 1 := by
      have hm : zeta n ^ a = zeta n ^ b := by
        rw [← Nat.mod_add_div a n, ← Nat.mod_add_div b n, pow_add, pow_add, pow_mul, pow_mul, hz.pow_eq_one, one_pow, one_pow, he]
      rw [← hm, inv_pow, inv_mul_cancel₀ (pow_ne_zero _ (zeta_ne n))]
    simp only [this, one_pow, sum_const, card_range, nsmul_eq_mul, mul_one]
  · rename_i he
    have hne : (zeta n)⁻¹ ^ a * zeta n ^ b ≠ 1 := by
      intro hc
      apply he
      have hm : zeta n ^ a = zeta n ^ b := by
        rw [inv_pow, inv_mul_eq_one₀ (pow_ne_zero _ (zeta_ne n))] at hc
        exact hc
      have hm2 : zeta n ^ (a % n) = zeta n ^ (b % n) := by
        rw [← Nat.mod_add_div a n, ← Nat.mod_add_div b n, pow_add, pow_add, pow_mul, pow_mul, hz.pow_eq_one, one_pow, one_pow, mul_one, mul_one] at hm
        exact hm
      exact hz.pow_inj (Nat.mod_lt _ h) (Nat.mod_lt _ h) hm2
    have := geom_sum_mul ((zeta n)⁻¹ ^ a * zeta n ^ b) n
    rw [hone, sub_self] at this
    rcases mul_eq_zero.mp this with h | h
    · exact h
    · exact absurd (sub_eq_zero.mp h) hne

/-- the discrete Fourier transform of length `n` -/
noncomputable def dft (n : Nat) (x : Nat → ℝ) (k : Nat) : ℂ := ∑ j ∈ range n, (x j : ℂ) * (zeta n)⁻¹ ^ (j * k)

/-- the coefficients that `irfft` reconstructs from the first `n/2 + 1`: imaginary parts at both ends are ignored -/
noncomputable def herm (n : Nat) (a : Nat → ℂ) (k : Nat) : ℂ :=
  if k = 0 ∨ 2 * k = n then ((a k).re : ℂ) else if 2 * k < n then a k else conj (a (n - k))

/-- `irfft` of length `n` -/
noncomputable def idft (n : Nat) (a : Nat → ℂ) (j : Nat) : ℝ := ((1 / (n : ℂ)) * ∑ k ∈ range n, herm n a k * zeta n ^ (j * k)).re

theorem conj_dft {n : Nat} (h : 0 < n) (x : Nat → ℝ) {k : Nat} (hk : k ≤ n) : conj (dft n x (n - k)) = dft n x k := by
  unfold dft
  rw [map_sum]
  refine sum_congr rfl ?_
  intro j _
  rw [map_mul, Complex.conj_ofReal, map_pow, map_inv₀, conj_zeta, inv_inv]
  congr 1
  rw [inv_pow]
  refine eq_inv_of_mul_eq_one_left ?_
  rw [ ← pow_add, ← mul_add, Nat.sub_add_cancel hk, mul_comm, pow_mul,
    (zeta_prim h).pow_eq_one, one_pow]

theorem dft_period {n : Nat} (h : 0 < n) (x : Nat → ℝ) : dft n x n = dft n x 0 := by
  unfold dft
  refine sum_congr rfl ?_
  intro j _
  rw [mul_comm j n, pow_mul, inv_pow, (zeta_prim h).pow_eq_one]
  simp

theorem herm_eq {n : Nat} (h : 0 < n) {a : Nat → ℂ} (ha : ∀ k ≤ n, conj (a (n - k)) = a k) (hp : a n = a 0) {k : Nat} (hk : k < n) : herm n a k = a k := by
  unfold herm
  split
  · rename_i hc
    have hreal : conj (a k) = a k := by
      rcases hc with hc | hc
      · subst hc
        have := ha 0 (by omega)
        rw [Nat.sub_zero, hp] at this
        exact this
      · have := ha k (by omega)
        rw [show n - k = k by omega] at this
        exact this
    exact Complex.conj_eq_iff_re.mp hreal
  · split
    · rfl
    · exact ha k (by omega)

theorem mod_iff {n a b j : Nat} (ha : a < n) (hb : b < n) (hj : j < n) : (a + b) % n = j % n ↔ b = (j + n - a) % n := by
  rw [Nat.mod_eq_of_lt hj]
  rcases Nat.lt_or_ge (a + b) n with h | h
  · rw [Nat.mod_eq_of_lt h]
    rcases Nat.lt_or_ge j a with h2 | h2
    · rw [Nat.mod_eq_of_lt (by omega)]; omega
    · rw [show j + n - a = (j - a) + n by omega, Nat.add_mod_right, Nat.mod_eq_of_lt (by omega)]; omega
  · rw [Nat.mod_eq_sub_mod h, Nat.mod_eq_of_lt (by omega)]
    rcases Nat.lt_or_ge j a with h2 | h2
    · rw [Nat.mod_eq_of_lt (by omega)]; omega
    · rw [show j + n - a = (j - a) + n by omega, Nat.add_mod_right, Nat.mod_eq_of_lt (by omega)]; omega

/-- the transform of complex numbers -/
noncomputable def dftC (n : Nat) (x : Nat → ℂ) (k : Nat) : ℂ := ∑ j ∈ range n, x j * (zeta n)⁻¹ ^ (j * k)

/-- the convolution theorem -/
theorem conv_thmC {n : Nat} (h : 0 < n) (x y : Nat → ℂ) {j : Nat} (hj : j < n) :
    ∑ k ∈ range n, dftC n x k * dftC n y k * zeta n ^ (j * k) = (n : ℂ) * ∑ a ∈ range n, x a * y ((j + n - a) % n) := by
  have h1 : ∀ k, dftC n x k * dftC n y k * zeta n ^ (j * k) =
      ∑ a ∈ range n, ∑ b ∈ range n, (x a * y b) * ((zeta n)⁻¹ ^ (a + b) * zeta n ^ j) ^ k := by
    intro k
    unfold dftC
    rw [sum_mul_sum, sum_mul]
    refine sum_congr rfl fun a _ => ?_
    rw [sum_mul]
    refine sum_congr rfl fun b _ => ?_
    rw [mul_pow, ← pow_mul, ← pow_mul, add_mul, pow_add]
    ring
  simp_rw [h1]
  rw [sum_comm]
  rw [mul_sum]
  refine sum_congr rfl fun a ha => ?_
  rw [sum_comm]
  simp_rw [← mul_sum, orth h]
  rw [mem_range] at ha
  have : ∀ b ∈ range n, x a * y b * (if (a + b) % n = j % n then (n : ℂ) else 0) =
      if b = (j + n - a) % n then x a * y b * (n : ℂ) else 0 := by
    intro b hb
    rw [mem_range] at hb
    by_cases hc : b = (j + n - a) % n
    · rw [if_pos hc, if_pos ((mod_iff ha hb hj).mpr hc)]
    · rw [if_neg hc, if_neg (fun hh => hc ((mod_iff ha hb hj).mp hh)), mul_zero]
  rw [sum_congr rfl this, sum_ite_eq', if_pos (mem_range.mpr (Nat.mod_lt _ h))]
  ring

theorem conv_thm {n : Nat} (h : 0 < n) (x y : Nat → ℝ) {j : Nat} (hj : j < n) :
    ∑ k ∈ range n, dft n x k * dft n y k * zeta n ^ (j * k) = (n : ℂ) * ((∑ a ∈ range n, x a * y ((j + n - a) % n) : ℝ) : ℂ) := by
  have := conv_thmC h (fun j => (x j : ℂ)) (fun j => (y j : ℂ)) hj
  push_cast
  exact this

/-- numpy's `rfft` (first `n/2 + 1` coefficients), product and `irfft` -/
noncomputable def npFFT : FFT ℝ where
  F := List ℂ
  rfft x n := (List.range (n / 2 + 1)).map (dft n (ent x))
  mul a b := List.zipWith (· * ·) a b
  irfft a := (List.range (2 * (a.length - 1))).map (idft (2 * (a.length - 1)) (fun k => a.getD k 0))

theorem npFFT_ok : npFFT.Ok := by
  intro x y n h0 h2
  have hlen : (npFFT.mul (npFFT.rfft x n) (npFFT.rfft y n) : List ℂ) = (List.range (n / 2 + 1)).map (fun k => dft n (ent x) k * dft n (ent y) k) := by
    show List.zipWith (· * ·) _ _ = _
    rw [show npFFT.rfft x n = (List.range (n / 2 + 1)).map (dft n (ent x)) from rfl, show npFFT.rfft y n = (List.range (n / 2 + 1)).map (dft n (ent y)) from rfl]
    rw [List.zipWith_map, List.zipWith_self]
  rw [hlen]
  show (List.range (2 * (((List.range (n / 2 + 1)).map _).length - 1))).map _ = _
  rw [List.length_map, List.length_range, show 2 * (n / 2 + 1 - 1) = n by omega]
  refine List.map_congr_left fun j hj => ?_
  rw [List.mem_range] at hj
  unfold idft circ
  rw [list_sum_range]
  have hh : ∀ k ∈ range n, herm n (fun k => ((List.range (n / 2 + 1)).map (fun k => dft n (ent x) k * dft n (ent y) k)).getD k 0) k =
      dft n (ent x) k * dft n (ent y) k := by
    intro k hk
    rw [mem_range] at hk
    have hg : ∀ k < n / 2 + 1, ((List.range (n / 2 + 1)).map (fun k => dft n (ent x) k * dft n (ent y) k)).getD k 0 = dft n (ent x) k * dft n (ent y) k := by
      intro k hk
      rw [List.getD_eq_getElem?_getD, List.getElem?_map, List.getElem?_range hk]
      rfl
    rw [← herm_eq (a := fun k => dft n (ent x) k * dft n (ent y) k) h0 _ _ hk]
    · unfold herm
      split
      · exact congrArg (fun v : ℂ => ((v.re : ℝ) : ℂ)) (hg k (by omega))
      · split
        · exact hg k (by omega)
        · exact congrArg conj (hg (n - k) (by omega))
    · intro k hk
      rw [map_mul, conj_dft h0 _ hk, conj_dft h0 _ hk]
    · rw [dft_period h0, dft_period h0]
  have hs : ∑ k ∈ range n, herm n (fun k => ((List.range (n / 2 + 1)).map (fun k => dft n (ent x) k * dft n (ent y) k)).getD k 0) k * zeta n ^ (j * k) =
      ∑ k ∈ range n, dft n (ent x) k * dft n (ent y) k * zeta n ^ (j * k) := sum_congr rfl fun k hk => by rw [hh k hk]
  rw [hs, conv_thm h0 _ _ hj, ← mul_assoc, one_div, inv_mul_cancel₀ (by exact_mod_cast h0.ne'), one_mul, Complex.ofReal_re]

/-- numpy's `rfftn` (real transform over the last axis, complex over the first), product and `irfftn` -/
noncomputable def npFFT2 : FFT2 ℝ where
  F := Nat → Nat → ℂ
  rfftn x s := fun k l => dftC s.1 (fun i => dft s.2 (x.ent i) l) k
  mul a b := fun k l => a k l * b k l
  irfftn a s := ⟨s.1, s.2, fun i j => idft s.2 (fun l => (1 / (s.1 : ℂ)) * ∑ k ∈ range s.1, a k l * zeta s.1 ^ (i * k)) j⟩

theorem npFFT2_ok : npFFT2.Ok := by
  intro x y m n hm hn _
  refine ⟨_, rfl, ?_⟩
  intro i hi j hj
  have hA : ∀ l, (1 / (m : ℂ)) * ∑ k ∈ range m, npFFT2.mul (npFFT2.rfftn x (m, n)) (npFFT2.rfftn y (m, n)) k l * zeta m ^ (i * k) =
      ∑ a ∈ range m, dft n (x.ent a) l * dft n (y.ent ((i + m - a) % m)) l := by
    intro l
    have := conv_thmC hm (fun i => dft n (x.ent i) l) (fun i => dft n (y.ent i) l) hi
    show (1 / (m : ℂ)) * ∑ k ∈ range m, dftC m (fun i => dft n (x.ent i) l) k * dftC m (fun i => dft n (y.ent i) l) k * zeta m ^ (i * k) = _
    rw [this, ← mul_assoc, one_div, inv_mul_cancel₀ (by exact_mod_cast hm.ne'), one_mul]
  show idft n (fun l => (1 / (m : ℂ)) * ∑ k ∈ range m, npFFT2.mul (npFFT2.rfftn x (m, n)) (npFFT2.rfftn y (m, n)) k l * zeta m ^ (i * k)) j = _
  rw [funext hA]
  unfold idft circ2
  rw [list_sum_range]
  have hh : ∀ k ∈ range n, herm n (fun l => ∑ a ∈ range m, dft n (x.ent a) l * dft n (y.ent ((i + m - a) % m)) l) k * zeta n ^ (j * k) =
      ∑ a ∈ range m, dft n (x.ent a) k * dft n (y.ent ((i + m - a) % m)) k * zeta n ^ (j * k) := by
    intro k hk
    rw [mem_range] at hk
    rw [herm_eq hn _ _ hk, sum_mul]
    · intro k hk
      rw [map_sum]
      refine sum_congr rfl fun a _ => ?_
      rw [map_mul, conj_dft hn _ hk, conj_dft hn _ hk]
    · refine sum_congr rfl fun a _ => ?_
      rw [dft_period hn, dft_period hn]
  rw [sum_congr rfl hh, sum_comm, sum_congr rfl (fun a _ => conv_thm hn (x.ent a) (y.ent ((i + m - a) % m)) hj), ← mul_sum, ← mul_assoc, one_div,
    inv_mul_cancel₀ (by exact_mod_cast hn.ne'), one_mul, ← Complex.ofReal_sum, Complex.ofReal_re]
  exact sum_congr rfl fun a _ => (list_sum_range _ _).symm

/-! ## the transforms of `autoConvolve` -/

/-- `fftpack.rfft(x, s)`: `[y(0), Re y(1), Im y(1), ..., Re y(s/2)]` for even `s` -/
noncomputable def npPack (x : List ℝ) (s : Nat) : List ℝ :=
  (List.range s).map (fun i => if i % 2 = 1 ∨ i = 0 then (dft s (ent x) ((i + 1) / 2)).re else (dft s (ent x) (i / 2)).im)

/-- `fftpack.idct(a, type=1)` (not normalised) -/
noncomputable def npIdct1 (a : List ℝ) : List ℝ :=
  (List.range a.length).map (fun k : Nat => ent a 0 + (-1 : ℝ) ^ k * ent a (a.length - 1) +
    2 * ((List.range (a.length - 2)).map (fun m : Nat => ent a (m + 1) * Real.cos (π * (k : ℝ) * ((m + 1 : Nat) : ℝ) / ((a.length - 1 : Nat) : ℝ)))).sum)

theorem zeta_re {n : Nat} (q : Nat) : (zeta n ^ q).re = Real.cos (2 * π * q / n) := by
  unfold zeta
  rw [← Complex.exp_nat_mul]
  have : (q : ℂ) * (2 * π * Complex.I / n) = ((2 * π * q / n : ℝ) : ℂ) * Complex.I := by
    push_cast; ring
  rw [this, Complex.exp_ofReal_mul_I_re]

/-- the correlation theorem -/
theorem corr_thm {n : Nat} (h : 0 < n) (x : Nat → ℝ) (k : Nat) :
    ∑ m ∈ range n, (Complex.normSq (dft n x m) : ℂ) * zeta n ^ (k * m) = (n : ℂ) * ((∑ b ∈ range n, x b * x ((b + k) % n) : ℝ) : ℂ) := by
  have h1 : ∀ m, (Complex.normSq (dft n x m) : ℂ) * zeta n ^ (k * m) =
      ∑ b ∈ range n, ∑ a ∈ range n, ((x b : ℂ) * (x a : ℂ)) * ((zeta n)⁻¹ ^ a * zeta n ^ (b + k)) ^ m := by
    intro m
    rw [← Complex.mul_conj, mul_comm (dft n x m)]
    have hc : conj (dft n x m) = ∑ j ∈ range n, (x j : ℂ) * zeta n ^ (j * m) := by
      unfold dft
      rw [map_sum]
      refine sum_congr rfl fun j _ => ?_
      rw [map_mul, Complex.conj_ofReal, map_pow, map_inv₀, conj_zeta, inv_inv]
    rw [hc]
    unfold dft
    rw [sum_mul_sum, sum_mul]
    refine sum_congr rfl fun b _ => ?_
    rw [sum_mul]
    refine sum_congr rfl fun a _ => ?_
    rw [mul_pow, ← pow_mul, ← pow_mul, add_mul, pow_add]
    ring
  simp_rw [h1]
  rw [sum_comm]
  push_cast
  rw [mul_sum]
  refine sum_congr rfl fun b hb => ?_
  rw [sum_comm]
  simp_rw [← mul_sum, orth h]
  have : ∀ a ∈ range n, (x b : ℂ) * (x a : ℂ) * (if a % n = (b + k) % n then (n : ℂ) else 0) =
      if a = (b + k) % n then (x b : ℂ) * (x a : ℂ) * (n : ℂ) else 0 := by
    intro a ha
    rw [mem_range] at ha
    rw [Nat.mod_eq_of_lt ha, mul_ite, mul_zero]
  rw [sum_congr rfl this, sum_ite_eq', if_pos (mem_range.mpr (Nat.mod_lt _ h))]
  ring

theorem fold_sum (g : Nat → ℝ) {h : Nat} (h0 : 0 < h) (hg : ∀ m, 0 < m → m < 2 * h → g (2 * h - m) = g m) :
    ∑ m ∈ range (2 * h), g m = g 0 + g h + 2 * ∑ m ∈ range (h - 1), g (m + 1) := by
  obtain ⟨d, rfl⟩ : ∃ d, h = d + 1 := ⟨h - 1, by omega⟩
  rw [show 2 * (d + 1) = (d + 1) + (d + 1) by ring, sum_range_add, sum_range_succ', sum_range_succ' (fun x => g (d + 1 + x)), Nat.add_sub_cancel]
  have : ∑ m ∈ range d, g (d + 1 + (m + 1)) = ∑ m ∈ range d, g (m + 1) := by
    rw [← sum_range_reflect]
    refine sum_congr rfl fun m hm => ?_
    rw [mem_range] at hm
    rw [← hg (m + 1) (by omega) (by omega)]
    congr 1
    omega
  rw [this]
  simp only [Nat.add_zero]
  ring

theorem real_im {n : Nat} (x : Nat → ℝ) {k : Nat} (h : conj (dft n x k) = dft n x k) : (dft n x k).im = 0 := Complex.conj_eq_iff_im.mp h

theorem npPack_power {x : List ℝ} {s : Nat} (h0 : 0 < s) (h2 : s % 2 = 0) {m : Nat} (hm : m ≤ s / 2) :
    powerSpec (npPack x s) m = Complex.normSq (dft s (ent x) m) := by
  have hl : (npPack x s).length = s := by simp [npPack]
  have he : ∀ i < s, ent (npPack x s) i = if i % 2 = 1 ∨ i = 0 then (dft s (ent x) ((i + 1) / 2)).re else (dft s (ent x) (i / 2)).im := by
    intro i hi
    unfold ent npPack
    rw [List.getD_eq_getElem?_getD, List.getElem?_map, List.getElem?_range hi]
    rfl
  rw [Complex.normSq_apply]
  unfold powerSpec
  rw [hl]
  split
  · rename_i hm0
    subst hm0
    have hz : conj (dft s (ent x) 0) = dft s (ent x) 0 := by
      have := conj_dft h0 (ent x) (k := 0) (by omega)
      rw [Nat.sub_zero, dft_period h0] at this
      exact this
    rw [he 0 h0, if_pos (Or.inr rfl), real_im _ hz]
    simp [pow_two]
  · split
    · rename_i hm1 hm2
      have hz : conj (dft s (ent x) m) = dft s (ent x) m := by
        have := conj_dft h0 (ent x) (k := m) (by omega)
        rw [show s - m = m by omega] at this
        exact this
      rw [he (s - 1) (by omega), if_pos (Or.inl (by omega)), show (s - 1 + 1) / 2 = m by omega, real_im _ hz]
      ring
    · rename_i hm1 hm2
      rw [he (2 * m - 1) (by omega), if_pos (Or.inl (by omega)), he (2 * m) (by omega), if_neg (by omega),
        show (2 * m - 1 + 1) / 2 = m by omega, show 2 * m / 2 = m by omega]
      ring

/-- the documented transforms of scipy have the property used for `autoConvolve` -/
theorem npAuto_ok : AutoOk npPack npIdct1 := by
  intro x s h0 h2
  refine ⟨by simp [npPack], ?_⟩
  unfold npIdct1
  rw [List.length_map, List.length_range]
  refine List.map_congr_left fun k hk => ?_
  obtain ⟨h, rfl⟩ : ∃ h, s = 2 * h := ⟨s / 2, by omega⟩
  have hh : 2 * h / 2 = h := by omega
  rw [hh] at hk ⊢
  have he : ∀ m ≤ h, ent ((List.range (h + 1)).map (powerSpec (npPack x (2 * h)))) m = Complex.normSq (dft (2 * h) (ent x) m) := by
    intro m hm
    rw [← npPack_power h0 h2 (by omega)]
    unfold ent
    rw [List.getD_eq_getElem?_getD, List.getElem?_map, List.getElem?_range (by omega)]
    rfl
  have hsum := fold_sum (fun m => Complex.normSq (dft (2 * h) (ent x) m) * Real.cos (2 * π * (k * m : Nat) / (2 * h : Nat))) (h := h) (by omega) (by
    intro m hm0 hm1
    have hn : Complex.normSq (dft (2 * h) (ent x) (2 * h - m)) = Complex.normSq (dft (2 * h) (ent x) m) := by
      rw [← conj_dft h0 (ent x) (k := m) (by omega), Complex.normSq_conj]
    rw [hn]
    congr 1
    have hne : ((2 * h : Nat) : ℝ) ≠ 0 := by exact_mod_cast h0.ne'
    have : 2 * π * ((k * (2 * h - m) : Nat) : ℝ) / ((2 * h : Nat) : ℝ) = (k : ℝ) * (2 * π) - 2 * π * ((k * m : Nat) : ℝ) / ((2 * h : Nat) : ℝ) := by
      rw [Nat.cast_mul k (2 * h - m), Nat.cast_sub hm1.le, Nat.cast_mul k m]
      field_simp
    rw [this, Real.cos_nat_mul_two_pi_sub])
  have hre : ∑ m ∈ range (2 * h), Complex.normSq (dft (2 * h) (ent x) m) * Real.cos (2 * π * (k * m : Nat) / (2 * h : Nat)) =
      ((2 * h : Nat) : ℝ) * autoCirc (2 * h) x k := by
    have hc := congrArg Complex.re (corr_thm h0 (ent x) k)
    rw [Complex.re_sum] at hc
    rw [show ∑ m ∈ range (2 * h), Complex.normSq (dft (2 * h) (ent x) m) * Real.cos (2 * π * (k * m : Nat) / (2 * h : Nat)) =
      ∑ m ∈ range (2 * h), ((Complex.normSq (dft (2 * h) (ent x) m) : ℂ) * zeta (2 * h) ^ (k * m)).re from sum_congr rfl fun m _ => by
        rw [Complex.re_ofReal_mul, zeta_re], hc]
    unfold autoCirc
    rw [list_sum_range, show (((2 * h : Nat) : ℂ)) = (((2 * h : Nat) : ℝ) : ℂ) by push_cast; rfl, ← Complex.ofReal_mul, Complex.ofReal_re]
  rw [← hre, hsum, list_sum_range, he 0 (by omega), Nat.add_sub_cancel, he h (le_refl _), show h + 1 - 2 = h - 1 by omega]
  have hh0 : (h : ℝ) ≠ 0 := by
    have : h ≠ 0 := by omega
    exact_mod_cast this
  have hcos : Real.cos (2 * π * ((k * h : Nat) : ℝ) / ((2 * h : Nat) : ℝ)) = (-1 : ℝ) ^ k := by
    rw [show 2 * π * ((k * h : Nat) : ℝ) / ((2 * h : Nat) : ℝ) = (k : ℝ) * π by push_cast; field_simp, Real.cos_nat_mul_pi]
  congr 1
  · congr 1
    · simp
    · rw [hcos, mul_comm]
  · congr 1
    refine sum_congr rfl fun m hm => ?_
    rw [mem_range] at hm
    rw [he (m + 1) (by omega)]
    congr 2
    push_cast
    field_simp

/-- with the documented transforms the result is the linear convolution -/
example : ∃ c, convolveFFT npFFT ⟨0, [1, 2, 3, 4]⟩ ⟨1, [1, 1, 1]⟩ .same 0 none true true = .ok ([3, 6, 9, 7], c) := by
  obtain ⟨r, hr⟩ := convolveFFT_ok (A := npFFT) (x := ⟨0, [1, 2, 3, 4]⟩) (y := ⟨1, [1, 1, 1]⟩) (mode := .same) (largest := 0) (c := none)
    (use1 := true) (use2 := true) (by simp)
  have := (convolveFFT_spec npFFT_ok (heap := fun i => if i = 0 then [1, 2, 3, 4] else [1, 1, 1]) (by simp) (by simp) (by intro d hd; cases hd) rfl rfl hr).1
  refine ⟨r.2, ?_⟩
  rw [hr]
  refine congrArg Except.ok (Prod.ext ?_ rfl)
  rw [this]
  simp [spec, lin, ent, List.range_succ]
  norm_num

example : autoConvolve npPack npIdct1 [1, 2, 3] (some 2) true = .ok [14 / 3, 8 / 2] := by
  rw [autoConvolve_spec npAuto_ok (by simp) (by simp) (by simp)]
  simp [autoLin, ent, List.range_succ]
  norm_num

end Verif.Convolve
