import Mathlib.Tactic.Linarith
import Mathlib.Tactic.Positivity
import Mathlib.Tactic.NormNum
import Mathlib.Tactic.Ring
import Mathlib.Tactic.FieldSimp
import Mathlib.Algebra.Order.BigOperators.Ring.Finset
import Mathlib.Analysis.SpecialFunctions.Sqrt
import Verif.Model.DESNuis

/-!
# Theory of the DES likelihood (C241, C242)
-/

namespace Verif.DESNuis
open Verif.Py
open Verif.DES (Err)

variable (C : Cosmo) (S : Setup) (N : Nuis) (W : Weyl)

/-! ## Specification -/

/-- interpolation is linear in the values interpolated -/
structure Linear (spl : (ℝ → ℝ) → ℝ → ℝ) : Prop where
  smul : ∀ (c : ℝ) (f : ℝ → ℝ), spl (fun x => c * f x) = fun x => c * spl f x
  add : ∀ f g : ℝ → ℝ, spl (fun x => f x + g x) = fun x => spl f x + spl g x

/-- name with the number of a bin -/
def binName (pre : Str) (b : Nat) : Str := pre ++ [Char.ofNat (48 + b)]

/-- distances that grow from a positive one -/
structure Growing : Prop where
  two : 2 ≤ C.n
  pos : 0 < C.chis 0
  mono : ∀ i j, i ≤ j → j < C.n → C.chis i ≤ C.chis j

/-- power that is not negative -/
def PowerNonneg (p : Nat → ℝ → ℝ) : Prop := ∀ i k, 0 ≤ p i k

/-! ## Helpers -/

theorem transform_smul (j : Nat → ℝ) (f : ℝ → ℝ) (gs : List (Nat × Nat)) (c : ℝ) : DES.transform j (fun x => c * f x) gs = c * DES.transform j f gs := by
  unfold DES.transform
  induction gs with
  | nil => simp
  | cons g gs ih =>
    simp only [List.map_cons, List.sum_cons] at ih ⊢
    rw [ih]
    ring

theorem transform_add (j : Nat → ℝ) (f g : ℝ → ℝ) (gs : List (Nat × Nat)) : DES.transform j (fun x => f x + g x) gs = DES.transform j f gs + DES.transform j g gs := by
  unfold DES.transform
  induction gs with
  | nil => simp
  | cons q gs ih =>
    simp only [List.map_cons, List.sum_cons] at ih ⊢
    rw [ih]
    ring

theorem cl_comm (tmp : ℝ → Nat → ℝ) (f g : Nat → ℝ) : cl C tmp f g = cl C tmp g f := by
  funext l
  unfold cl
  exact Finset.sum_congr rfl fun i _ => by ring

theorem cl_smul (tmp : ℝ → Nat → ℝ) (f g : Nat → ℝ) (a b : ℝ) : cl C tmp (fun i => f i * a) (fun i => g i * b) = fun l => (a * b) * cl C tmp f g l := by
  funext l
  unfold cl
  rw [Finset.mul_sum]
  exact Finset.sum_congr rfl fun i _ => by ring

theorem xip_eq (f1 f2 th : Nat) : corr C S N W c!"xip" f1 f2 th =
    DES.transform (S.j0 th) (S.spl (cl C (tmpLens C W) (qs C S N W f1) (qs C S N W f2))) S.gs * (cal N f1 * cal N f2) := if_pos rfl

theorem xim_eq (f1 f2 th : Nat) : corr C S N W c!"xim" f1 f2 th =
    DES.transform (S.j4 th) (S.spl (cl C (tmpLens C W) (qs C S N W f1) (qs C S N W f2))) S.gs * (cal N f1 * cal N f2) := by
  unfold corr
  rw [if_neg (by decide), if_pos rfl]

theorem gammat_eq (f1 f2 th : Nat) : corr C S N W c!"gammat" f1 f2 th =
    DES.transform (S.j2 th) (S.spl (cl C (tmpAt C C.pk C.kmax) (qgal C S N f1) (qs C S N W f2))) S.gs * cal N f2 := by
  unfold corr
  rw [if_neg (by decide), if_neg (by decide), if_pos rfl]

theorem wtheta_eq (f1 f2 th : Nat) : corr C S N W c!"wtheta" f1 f2 th =
    DES.transform (S.j0 th) (S.spl (cl C (tmpAt C C.pk C.kmax) (qgal C S N f1) (qgal C S N f2))) S.gs := by
  unfold corr
  rw [if_neg (by decide), if_neg (by decide), if_neg (by decide)]

/-! ## C241 -/

/-- **C241**: correlations of shear and of galaxies do not depend on the order of the bins -/
theorem bins_symmetric (f1 f2 th : Nat) : corr C S N W c!"xip" f1 f2 th = corr C S N W c!"xip" f2 f1 th ∧ corr C S N W c!"xim" f1 f2 th = corr C S N W c!"xim" f2 f1 th ∧
    corr C S N W c!"wtheta" f1 f2 th = corr C S N W c!"wtheta" f2 f1 th := by
  rw [xip_eq, xip_eq, xim_eq, xim_eq, wtheta_eq, wtheta_eq, cl_comm C _ (qs C S N W f1), cl_comm C _ (qgal C S N f1), mul_comm (cal N f1)]
  exact ⟨rfl, rfl, rfl⟩

/-- a small case: two redshifts, one bin each -/
noncomputable def C0 : Cosmo := ⟨2, fun i => i + 1, fun i => i + 1, fun _ => 1, fun _ => 1, 1, 1 / 3, fun _ _ => 1, 100⟩
/-- sums over one multipole -/
noncomputable def S0 : Setup := ⟨2, 2, fun _ _ => 1, fun b _ => b + 1, fun _ _ => 1, fun _ _ => 1, fun _ _ => 1, fun f => f, [(2, 1)], [c!"xip", c!"wtheta"]⟩
/-- parameters -/
noncomputable def N0 : Nuis := ⟨[2, 3], [0, 1 / 10], 0, 1, 0.62, [0, 0], [0, 0]⟩

theorem S0_linear : Linear S0.spl := ⟨fun _ _ => rfl, fun _ _ => rfl⟩

example : corr C0 S0 N0 none c!"wtheta" 0 1 7 = corr C0 S0 N0 none c!"wtheta" 1 0 7 := (bins_symmetric C0 S0 N0 none 0 1 7).2.2

/-- **C241**: shear correlations are in proportion to the calibrations of both bins, the correlation of galaxies and shear to that of the bin of sources, and the
correlation of galaxies does not depend on them -/
theorem calibration (m : List ℝ) (f1 f2 th : Nat) (h1 : N.shear.getD f1 0 ≠ -1) (h2 : N.shear.getD f2 0 ≠ -1) :
    corr C S { N with shear := m } W c!"xip" f1 f2 th = corr C S N W c!"xip" f1 f2 th * ((1 + m.getD f1 0) * (1 + m.getD f2 0)) / ((1 + N.shear.getD f1 0) * (1 + N.shear.getD f2 0)) ∧
    corr C S { N with shear := m } W c!"xim" f1 f2 th = corr C S N W c!"xim" f1 f2 th * ((1 + m.getD f1 0) * (1 + m.getD f2 0)) / ((1 + N.shear.getD f1 0) * (1 + N.shear.getD f2 0)) ∧
    corr C S { N with shear := m } W c!"gammat" f1 f2 th = corr C S N W c!"gammat" f1 f2 th * (1 + m.getD f2 0) / (1 + N.shear.getD f2 0) ∧
    corr C S { N with shear := m } W c!"wtheta" f1 f2 th = corr C S N W c!"wtheta" f1 f2 th := by
  have k1 : 1 + N.shear.getD f1 0 ≠ 0 := fun h => h1 (by linarith)
  have k2 : 1 + N.shear.getD f2 0 ≠ 0 := fun h => h2 (by linarith)
  have e1 : qs C S { N with shear := m } W = qs C S N W := rfl
  have e2 : qgal C S { N with shear := m } = qgal C S N := rfl
  simp only [xip_eq, xim_eq, gammat_eq, wtheta_eq, e1, e2, cal]
  refine ⟨?_, ?_, ?_, trivial⟩ <;> field_simp

example (th : Nat) : corr C0 S0 { N0 with shear := [1, 1] } none c!"gammat" 1 0 th = corr C0 S0 N0 none c!"gammat" 1 0 th * 2 := by
  have := (calibration C0 S0 N0 none [1, 1] 1 0 th (by norm_num [N0]) (by norm_num [N0])).2.2.1
  rw [this]
  norm_num [N0]

/-- bias of one in all bins -/
def unbiased (N : Nuis) : Nuis := { N with bias := N.bias.map fun _ => 1 }

theorem qgal_bias (f : Nat) (h : f < N.bias.length) : qgal C S N f = fun i => qgal C S (unbiased N) f i * N.bias.getD f 0 := by
  funext i
  have : (N.bias.map fun _ => (1 : ℝ)).getD f 0 = 1 := by simp [List.getD_eq_getElem?_getD, h]
  simp only [qgal, unbiased, this]
  ring

/-- **C241**: the correlation of galaxies is in proportion to the bias of both bins, that of galaxies and shear to the bias of the bin of galaxies, and shear does not
depend on bias -/
theorem galaxy_bias (hs : Linear S.spl) (f1 f2 th : Nat) (h1 : f1 < N.bias.length) :
    (f2 < N.bias.length → corr C S N W c!"wtheta" f1 f2 th = N.bias.getD f1 0 * N.bias.getD f2 0 * corr C S (unbiased N) W c!"wtheta" f1 f2 th) ∧
    corr C S N W c!"gammat" f1 f2 th = N.bias.getD f1 0 * corr C S (unbiased N) W c!"gammat" f1 f2 th ∧
    corr C S N W c!"xip" f1 f2 th = corr C S (unbiased N) W c!"xip" f1 f2 th ∧ corr C S N W c!"xim" f1 f2 th = corr C S (unbiased N) W c!"xim" f1 f2 th := by
  have e1 : qs C S (unbiased N) W = qs C S N W := rfl
  have e2 : cal (unbiased N) = cal N := rfl
  refine ⟨fun h2 => ?_, ?_, ?_, ?_⟩
  · rw [wtheta_eq, wtheta_eq, qgal_bias C S N f1 h1, qgal_bias C S N f2 h2, cl_smul, hs.smul, transform_smul]
  · rw [gammat_eq, gammat_eq, qgal_bias C S N f1 h1, e1, e2]
    have := cl_smul C (tmpAt C C.pk C.kmax) (qgal C S (unbiased N) f1) (qs C S N W f2) (N.bias.getD f1 0) 1
    simp only [mul_one] at this
    rw [show (fun i => qs C S N W f2 i) = qs C S N W f2 from rfl] at this
    rw [this, hs.smul, transform_smul]
    ring
  · rw [xip_eq, xip_eq, e1, e2]
  · rw [xim_eq, xim_eq, e1, e2]

example (th : Nat) : corr C0 S0 N0 none c!"wtheta" 0 1 th = 6 * corr C0 S0 (unbiased N0) none c!"wtheta" 0 1 th := by
  rw [(galaxy_bias C0 S0 N0 none S0_linear 0 1 th (by decide)).1 (by decide)]
  norm_num [N0]

/-- **C241**: shear of two bins depends on the parameters of these two bins and the alignment only -/
theorem shear_own (N' : Nuis) (f1 f2 th : Nat) (a1 : N.wlErr.getD f1 0 = N'.wlErr.getD f1 0) (a2 : N.wlErr.getD f2 0 = N'.wlErr.getD f2 0)
    (m1 : N.shear.getD f1 0 = N'.shear.getD f1 0) (m2 : N.shear.getD f2 0 = N'.shear.getD f2 0) (h1 : N.amp = N'.amp) (h2 : N.alpha = N'.alpha) (h3 : N.z0 = N'.z0) :
    corr C S N W c!"xip" f1 f2 th = corr C S N' W c!"xip" f1 f2 th ∧ corr C S N W c!"xim" f1 f2 th = corr C S N' W c!"xim" f1 f2 th := by
  have eA : alignZ C N = alignZ C N' := by funext i; simp only [alignZ, h1, h2, h3]
  have e : ∀ f, N.wlErr.getD f 0 = N'.wlErr.getD f 0 → qs C S N W f = qs C S N' W f := by
    intro f hf
    funext i
    simp only [qs, wq, lens, wAlign, hf, eA]
  rw [xip_eq, xip_eq, xim_eq, xim_eq, e f1 a1, e f2 a2]
  simp only [cal, m1, m2, and_self]

example (th : Nat) : corr C0 S0 N0 none c!"xip" 0 0 th = corr C0 S0 { N0 with wlErr := [0, 1], shear := [0, 5], bias := [7, 7] } none c!"xip" 0 0 th :=
  (shear_own C0 S0 N0 none _ 0 0 th rfl rfl rfl rfl rfl rfl rfl).1

/-- **C241**: the correlation of galaxies depends on bias and redshift errors of the two bins only -/
theorem galaxies_own (N' : Nuis) (f1 f2 th : Nat) (a1 : N.lensErr.getD f1 0 = N'.lensErr.getD f1 0) (a2 : N.lensErr.getD f2 0 = N'.lensErr.getD f2 0)
    (b1 : N.bias.getD f1 0 = N'.bias.getD f1 0) (b2 : N.bias.getD f2 0 = N'.bias.getD f2 0) : corr C S N W c!"wtheta" f1 f2 th = corr C S N' W c!"wtheta" f1 f2 th := by
  rw [wtheta_eq, wtheta_eq]
  have e1 : qgal C S N f1 = qgal C S N' f1 := by funext i; simp only [qgal, a1, b1]
  have e2 : qgal C S N f2 = qgal C S N' f2 := by funext i; simp only [qgal, a2, b2]
  rw [e1, e2]

example (th : Nat) : corr C0 S0 N0 none c!"wtheta" 1 1 th = corr C0 S0 { N0 with lensErr := [4, 0], bias := [9, 3], amp := 2, wlErr := [1, 1] } none c!"wtheta" 1 1 th :=
  galaxies_own C0 S0 N0 none _ 1 1 th rfl rfl rfl rfl

/-- **C241**: galaxies of bin `f1` with shear of bin `f2`: only parameters of galaxies of `f1`, of shear of `f2`, and the alignment -/
theorem gammat_own (N' : Nuis) (f1 f2 th : Nat) (a1 : N.lensErr.getD f1 0 = N'.lensErr.getD f1 0) (a2 : N.wlErr.getD f2 0 = N'.wlErr.getD f2 0)
    (b1 : N.bias.getD f1 0 = N'.bias.getD f1 0) (m2 : N.shear.getD f2 0 = N'.shear.getD f2 0) (h1 : N.amp = N'.amp) (h2 : N.alpha = N'.alpha) (h3 : N.z0 = N'.z0) :
    corr C S N W c!"gammat" f1 f2 th = corr C S N' W c!"gammat" f1 f2 th := by
  rw [gammat_eq, gammat_eq]
  have e1 : qgal C S N f1 = qgal C S N' f1 := by funext i; simp only [qgal, a1, b1]
  have e2 : qs C S N W f2 = qs C S N' W f2 := by
    funext i
    have eA : alignZ C N = alignZ C N' := by funext i; simp only [alignZ, h1, h2, h3]
    simp only [qs, wq, lens, wAlign, a2, eA]
  rw [e1, e2]
  simp only [cal, m2]

example (th : Nat) : corr C0 S0 N0 none c!"gammat" 0 1 th = corr C0 S0 { N0 with lensErr := [0, 3], bias := [2, 9], wlErr := [8, 0], shear := [1, 1 / 10] } none c!"gammat" 0 1 th :=
  gammat_own C0 S0 N0 none _ 0 1 th rfl rfl rfl rfl rfl rfl rfl

/-- **C241**: where the Weyl potential is that of general relativity, lensing computed from it is the same as lensing computed from matter, alignment included -/
theorem weyl_same (pw : Nat → ℝ → ℝ) (h : ∀ i k, pw i k = (1.5 * C.omm * C.h2 * hubble2 * (1 + C.zs i)) ^ 2 * C.pk i k) (f1 f2 th : Nat) :
    corr C S N (some (pw, C.kmax)) c!"xip" f1 f2 th = corr C S N none c!"xip" f1 f2 th ∧
    corr C S N (some (pw, C.kmax)) c!"xim" f1 f2 th = corr C S N none c!"xim" f1 f2 th := by
  have e : cl C (tmpLens C (some (pw, C.kmax))) (qs C S N (some (pw, C.kmax)) f1) (qs C S N (some (pw, C.kmax)) f2) =
      cl C (tmpLens C none) (qs C S N none f1) (qs C S N none f2) := by
    funext l
    unfold cl
    refine Finset.sum_congr rfl fun i _ => ?_
    simp only [tmpLens, tmpAt, qs, h]
    ring
  rw [xip_eq, xip_eq, xim_eq, xim_eq, e]
  exact ⟨rfl, rfl⟩

example (th : Nat) : corr C0 S0 N0 (some (fun i _ => (1.5 * (1 / 3) * 1 * hubble2 * (1 + ((i : ℝ) + 1))) ^ 2 * 1, 100)) c!"xip" 0 1 th = corr C0 S0 N0 none c!"xip" 0 1 th :=
  (weyl_same C0 S0 N0 (fun i _ => (1.5 * (1 / 3) * 1 * hubble2 * (1 + ((i : ℝ) + 1))) ^ 2 * 1) (fun _ _ => rfl) 0 1 th).1

/-- **C241**: the kernel of lensing is the efficiency of the bin less the alignment: amplitude, power of the redshift, 0.0134 times the matter density, over growth,
times the number of sources -/
theorem alignment_nla (b i : Nat) (h1 : C.chis i ≠ 0) (h2 : 1 + C.zs i ≠ 0) (h3 : C.h2 ≠ 0) : qs C S N none b i =
    1.5 * C.omm * C.h2 * hubble2 * C.chis i * (1 + C.zs i) * lens C S N b i -
      N.amp * ((1 + C.zs i) / (1 + N.z0)) ^ N.alpha * (0.0134 * C.omm) / C.growth i * nChi C (S.zbin b) (N.wlErr.getD b 0) i := by
  have h4 : hubble2 ≠ 0 := by norm_num [hubble2]
  simp only [qs, wq, wAlign, alignZ]
  rw [mul_sub]
  congr 1
  set x := ((1 + C.zs i) / (1 + N.z0)) ^ N.alpha
  field_simp
  ring

example : qs C0 S0 { N0 with amp := 1 } none 0 1 = 1.5 * (1 / 3) * 1 * hubble2 * 2 * 3 * lens C0 S0 N0 0 1 - 3 / 1.62 * (0.0134 * (1 / 3)) := by
  rw [alignment_nla C0 S0 { N0 with amp := 1 } 0 1 (by norm_num [C0]) (by norm_num [C0]) (by norm_num [C0])]
  have e : nChi C0 (S0.zbin 0) (N0.wlErr.getD 0 0) 1 = 1 := by norm_num [nChi, C0, S0, N0]
  rw [show ({ N0 with amp := 1 } : Nuis).wlErr = N0.wlErr from rfl, e, show lens C0 S0 { N0 with amp := 1 } 0 1 = lens C0 S0 N0 0 1 from rfl]
  norm_num [C0, N0]

/-- **C241**: a redshift error moves the distribution: the number at `z` is that of the distribution at `z - err`, and none from below zero -/
theorem nChi_shift (dist : ℝ → ℝ) (err : ℝ) (i : Nat) : nChi C dist err i = C.hs i * (if 0 ≤ C.zs i - err then dist (C.zs i - err) else 0) := by
  unfold nChi
  by_cases h : C.zs i - err < 0
  · rw [if_pos h, if_neg (not_le.mpr h), mul_zero]
  · rw [if_neg h, if_pos (not_lt.mp h)]

example : nChi C0 (fun z => z) 3 1 = 0 := by
  rw [nChi_shift]
  norm_num [C0]

/-- **C241**: only wave numbers from 10⁻⁴ up to the largest of the spectrum used contribute -/
theorem range_used (p q : Nat → ℝ → ℝ) (kmax l : ℝ) (i : Nat) (h : ∀ k, 1e-4 ≤ k → k < kmax → p i k = q i k) : tmpAt C p kmax l i = tmpAt C q kmax l i := by
  unfold tmpAt
  split
  · simp
  · rename_i hk
    rw [not_or, not_lt, not_le] at hk
    rw [h _ hk.1 hk.2]

example (l : ℝ) : tmpAt C0 (fun _ k => if k < 5 then k else 0) 5 l 1 = tmpAt C0 (fun _ k => k) 5 l 1 := range_used C0 _ _ 5 l 1 fun _ _ h => if_pos h

/-- alignment of unit amplitude -/
theorem alignZ_amp (i : Nat) : alignZ C N i = N.amp * alignZ C { N with amp := 1 } i := by
  simp only [alignZ]
  ring

theorem qs_amp (a : ℝ) (b i : Nat) : qs C S { N with amp := a } W b i = qs C S { N with amp := 0 } W b i + a * (qs C S { N with amp := 1 } W b i - qs C S { N with amp := 0 } W b i) := by
  have e : ∀ c : ℝ, wq C S { N with amp := c } b i = lens C S N b i - c * (alignZ C { N with amp := 1 } i * nChi C (S.zbin b) (N.wlErr.getD b 0) i / (C.chis i * (1 + C.zs i) * 3 * C.h2 * hubble2 / 2)) := by
    intro c
    unfold wq wAlign
    rw [alignZ_amp]
    simp only
    rw [show lens C S { N with amp := c } b i = lens C S N b i from rfl]
    ring
  cases W <;> simp only [qs, e] <;> ring

/-- **C241**: shear correlations are a quadratic polynomial in the amplitude of the alignment (shear with shear, shear with alignment, alignment with alignment), the
correlation of galaxies and shear is linear -/
theorem alignment_polynomial (hs : Linear S.spl) (f1 f2 th : Nat) :
    (∃ gg gi ii : ℝ, ∀ a, corr C S { N with amp := a } W c!"xip" f1 f2 th = gg + a * gi + a ^ 2 * ii) ∧
    (∃ gg gi ii : ℝ, ∀ a, corr C S { N with amp := a } W c!"xim" f1 f2 th = gg + a * gi + a ^ 2 * ii) ∧
    (∃ dg di : ℝ, ∀ a, corr C S { N with amp := a } W c!"gammat" f1 f2 th = dg + a * di) := by
  set q0 := fun b => qs C S { N with amp := 0 } W b with hq0
  set q1 := fun b i => qs C S { N with amp := 1 } W b i - qs C S { N with amp := 0 } W b i with hq1
  have hq : ∀ a b, qs C S { N with amp := a } W b = fun i => q0 b i + a * q1 b i := fun a b => funext fun i => qs_amp C S N W a b i
  have e : ∀ a, cl C (tmpLens C W) (qs C S { N with amp := a } W f1) (qs C S { N with amp := a } W f2) =
      fun l => (cl C (tmpLens C W) (q0 f1) (q0 f2) l + a * (cl C (tmpLens C W) (q0 f1) (q1 f2) l + cl C (tmpLens C W) (q1 f1) (q0 f2) l)) +
        a ^ 2 * cl C (tmpLens C W) (q1 f1) (q1 f2) l := by
    intro a
    funext l
    rw [hq, hq]
    unfold cl
    rw [← Finset.sum_add_distrib, Finset.mul_sum, ← Finset.sum_add_distrib, Finset.mul_sum, ← Finset.sum_add_distrib]
    exact Finset.sum_congr rfl fun i _ => by ring
  have e2 : ∀ a, cl C (tmpAt C C.pk C.kmax) (qgal C S N f1) (qs C S { N with amp := a } W f2) =
      fun l => cl C (tmpAt C C.pk C.kmax) (qgal C S N f1) (q0 f2) l + a * cl C (tmpAt C C.pk C.kmax) (qgal C S N f1) (q1 f2) l := by
    intro a
    funext l
    rw [hq]
    unfold cl
    rw [Finset.mul_sum, ← Finset.sum_add_distrib]
    exact Finset.sum_congr rfl fun i _ => by ring
  have ec : ∀ a f, cal { N with amp := a } f = cal N f := fun _ _ => rfl
  have eg : ∀ a, qgal C S { N with amp := a } f1 = qgal C S N f1 := fun _ => rfl
  refine ⟨?_, ?_, ?_⟩
  · refine ⟨DES.transform (S.j0 th) (S.spl (cl C (tmpLens C W) (q0 f1) (q0 f2))) S.gs * (cal N f1 * cal N f2), (DES.transform (S.j0 th) (S.spl (cl C (tmpLens C W) (q0 f1) (q1 f2))) S.gs + DES.transform (S.j0 th) (S.spl (cl C (tmpLens C W) (q1 f1) (q0 f2))) S.gs) * (cal N f1 * cal N f2),
      DES.transform (S.j0 th) (S.spl (cl C (tmpLens C W) (q1 f1) (q1 f2))) S.gs * (cal N f1 * cal N f2), fun a => ?_⟩
    rw [xip_eq, e, hs.add, hs.add, hs.smul, hs.smul, hs.add, transform_add, transform_add, transform_smul, transform_smul, transform_add, ec a f1, ec a f2]
    ring
  · refine ⟨DES.transform (S.j4 th) (S.spl (cl C (tmpLens C W) (q0 f1) (q0 f2))) S.gs * (cal N f1 * cal N f2), (DES.transform (S.j4 th) (S.spl (cl C (tmpLens C W) (q0 f1) (q1 f2))) S.gs + DES.transform (S.j4 th) (S.spl (cl C (tmpLens C W) (q1 f1) (q0 f2))) S.gs) * (cal N f1 * cal N f2),
      DES.transform (S.j4 th) (S.spl (cl C (tmpLens C W) (q1 f1) (q1 f2))) S.gs * (cal N f1 * cal N f2), fun a => ?_⟩
    rw [xim_eq, e, hs.add, hs.add, hs.smul, hs.smul, hs.add, transform_add, transform_add, transform_smul, transform_smul, transform_add, ec a f1, ec a f2]
    ring
  · refine ⟨DES.transform (S.j2 th) (S.spl (cl C (tmpAt C C.pk C.kmax) (qgal C S N f1) (q0 f2))) S.gs * cal N f2, DES.transform (S.j2 th) (S.spl (cl C (tmpAt C C.pk C.kmax) (qgal C S N f1) (q1 f2))) S.gs * cal N f2, fun a => ?_⟩
    rw [gammat_eq, eg, e2, hs.add, hs.smul, transform_add, transform_smul, ec]
    ring

example (th : Nat) : ∃ gg gi ii : ℝ, ∀ a, corr C0 S0 { N0 with amp := a } none c!"xip" 0 1 th = gg + a * gi + a ^ 2 * ii := (alignment_polynomial C0 S0 N0 none S0_linear 0 1 th).1

theorem dchis_nonneg (h : Growing C) (i : Nat) (hi : i < C.n) : 0 ≤ DES.dchis C.chis C.n i := by
  have h2 := h.two
  unfold DES.dchis
  split
  · have := h.mono 0 1 (by omega) (by omega)
    have := h.pos
    linarith
  · split
    · have := h.mono (C.n - 2) (C.n - 1) (by omega) (by omega)
      linarith
    · have := h.mono (i - 1) (i + 1) (by omega) (by omega)
      linarith

theorem tmpAt_nonneg (h : Growing C) (p : Nat → ℝ → ℝ) (hp : PowerNonneg p) (k l : ℝ) (i : Nat) (hi : i < C.n) : 0 ≤ tmpAt C p k l i := by
  unfold tmpAt
  refine mul_nonneg ?_ (hp i _)
  split
  · exact le_refl 0
  · exact div_nonneg (dchis_nonneg C h i hi) (sq_nonneg _)

/-- **C241**: spectra of two signals computed from power that is not negative are those of fields: no auto spectrum is negative, and the cross spectrum is within the
limit that the auto spectra set, at every multipole -/
theorem spectra_possible (h : Growing C) (p : Nat → ℝ → ℝ) (hp : PowerNonneg p) (k l : ℝ) (f g : Nat → ℝ) :
    0 ≤ cl C (tmpAt C p k) f f l ∧ cl C (tmpAt C p k) f g l ^ 2 ≤ cl C (tmpAt C p k) f f l * cl C (tmpAt C p k) g g l := by
  have hn : ∀ i ∈ Finset.range C.n, 0 ≤ tmpAt C p k l i := fun i hi => tmpAt_nonneg C h p hp k l i (Finset.mem_range.mp hi)
  constructor
  · exact Finset.sum_nonneg fun i hi => mul_nonneg (hn i hi) (mul_self_nonneg _)
  · have := Finset.sum_mul_sq_le_sq_mul_sq (Finset.range C.n) (fun i => Real.sqrt (tmpAt C p k l i) * f i) (fun i => Real.sqrt (tmpAt C p k l i) * g i)
    have e1 : ∀ u v : Nat → ℝ, ∑ i ∈ Finset.range C.n, Real.sqrt (tmpAt C p k l i) * u i * (Real.sqrt (tmpAt C p k l i) * v i) = cl C (tmpAt C p k) u v l := by
      intro u v
      unfold cl
      refine Finset.sum_congr rfl fun i hi => ?_
      rw [mul_mul_mul_comm, Real.mul_self_sqrt (hn i hi)]
    simp only [sq (Real.sqrt _ * _)] at this
    rw [e1 f g, e1 f f, e1 g g] at this
    exact this

theorem C0_growing : Growing C0 where
  two := le_refl 2
  pos := by norm_num [C0]
  mono := fun i j hij _ => by
    have : (i : ℝ) ≤ j := by exact_mod_cast hij
    change (i : ℝ) + 1 ≤ j + 1
    linarith

example (l : ℝ) : 0 ≤ cl C0 (tmpAt C0 C0.pk 100) (fun i => i - 7) (fun i => i - 7) l :=
  (spectra_possible C0 C0_growing C0.pk (fun _ _ => zero_le_one) 100 l _ (fun _ => 0)).1

theorem need_ok {d : Dict Str ℝ} {n : Str} {v : ℝ} : need d n = .ok v ↔ d.get? n = some v := by
  unfold need
  cases d.get? n <;> simp

theorem needAll_ok {d : Dict Str ℝ} : ∀ {ns : List Str} {vs : List ℝ}, needAll d ns = .ok vs → vs.map some = ns.map d.get? := by
  intro ns
  induction ns with
  | nil => intro vs h; cases h; rfl
  | cons n ns ih =>
    intro vs h
    unfold needAll at h
    simp only [bind, Except.bind] at h
    split at h
    · cases h
    · rename_i v hv
      split at h
      · cases h
      · rename_i vs' hvs
        cases h
        rw [List.map_cons, List.map_cons, ih hvs, need_ok.mp hv]

/-- **C241**: each parameter is used for the bin of its number -/
theorem names_by_bin (d : Dict Str ℝ) (nu : Nuis) (h : nuisOf d = .ok nu) :
    nu.wlErr.map some = [1, 2, 3, 4].map (fun b => d.get? (binName c!"DES_DzS" b)) ∧
    nu.lensErr.map some = [1, 2, 3, 4, 5].map (fun b => d.get? (binName c!"DES_DzL" b)) ∧
    nu.bias.map some = [1, 2, 3, 4, 5].map (fun b => d.get? (binName c!"DES_b" b)) ∧
    nu.shear.map some = [1, 2, 3, 4].map (fun b => d.get? (binName c!"DES_m" b)) ∧
    some nu.amp = d.get? c!"DES_AIA" ∧ some nu.alpha = d.get? c!"DES_alphaIA" := by
  unfold nuisOf at h
  simp only [bind, Except.bind] at h
  split at h
  · cases h
  rename_i wl h1
  split at h
  · cases h
  rename_i le h2
  split at h
  · cases h
  rename_i b h3
  split at h
  · cases h
  rename_i m h4
  split at h
  · cases h
  rename_i a h5
  split at h
  · cases h
  rename_i al h6
  cases h
  exact ⟨needAll_ok h1, needAll_ok h2, needAll_ok h3, needAll_ok h4, (need_ok.mp h5).symm, (need_ok.mp h6).symm⟩

/-- names of all parameters -/
def allNames : List Str :=
  [1, 2, 3, 4].map (binName c!"DES_DzS") ++ [1, 2, 3, 4, 5].map (binName c!"DES_DzL") ++ [1, 2, 3, 4, 5].map (binName c!"DES_b") ++ [1, 2, 3, 4].map (binName c!"DES_m") ++
    [c!"DES_AIA", c!"DES_alphaIA"]

theorem needAll_total {d : Dict Str ℝ} : ∀ {ns : List Str}, (∀ n ∈ ns, (d.get? n).isSome) → ∃ vs, needAll d ns = .ok vs ∧ vs.length = ns.length := by
  intro ns
  induction ns with
  | nil => intro _; exact ⟨[], rfl, rfl⟩
  | cons n ns ih =>
    intro h
    obtain ⟨vs, hv, hl⟩ := ih fun m hm => h m (List.mem_cons_of_mem _ hm)
    obtain ⟨v, hv'⟩ := Option.isSome_iff_exists.mp (h n List.mem_cons_self)
    exact ⟨v :: vs, by simp only [needAll, need_ok.mpr hv', hv, bind, Except.bind, pure, Except.pure], by simp [hl]⟩

theorem nuis_total (d : Dict Str ℝ) (h : ∀ n ∈ allNames, (d.get? n).isSome) :
    ∃ nu, nuisOf d = .ok nu ∧ nu.wlErr.length = 4 ∧ nu.lensErr.length = 5 ∧ nu.bias.length = 5 ∧ nu.shear.length = 4 := by
  obtain ⟨wl, h1, l1⟩ := needAll_total (d := d) (ns := [c!"DES_DzS1", c!"DES_DzS2", c!"DES_DzS3", c!"DES_DzS4"]) fun n hn => h n (by revert n; decide)
  obtain ⟨le, h2, l2⟩ := needAll_total (d := d) (ns := [c!"DES_DzL1", c!"DES_DzL2", c!"DES_DzL3", c!"DES_DzL4", c!"DES_DzL5"]) fun n hn => h n (by revert n; decide)
  obtain ⟨b, h3, l3⟩ := needAll_total (d := d) (ns := [c!"DES_b1", c!"DES_b2", c!"DES_b3", c!"DES_b4", c!"DES_b5"]) fun n hn => h n (by revert n; decide)
  obtain ⟨m, h4, l4⟩ := needAll_total (d := d) (ns := [c!"DES_m1", c!"DES_m2", c!"DES_m3", c!"DES_m4"]) fun n hn => h n (by revert n; decide)
  obtain ⟨a, h5⟩ := Option.isSome_iff_exists.mp (h c!"DES_AIA" (by decide))
  obtain ⟨al, h6⟩ := Option.isSome_iff_exists.mp (h c!"DES_alphaIA" (by decide))
  refine ⟨⟨b, m, a, al, 0.62, wl, le⟩, ?_, l1, l2, l3, l4⟩
  simp only [nuisOf, h1, h2, h3, h4, need_ok.mpr h5, need_ok.mpr h6, bind, Except.bind, pure, Except.pure]

/-- all parameters, with values by place -/
def dAll : Dict Str ℝ := allNames.map fun n => (n, 1)

example : ∃ nu, nuisOf dAll = .ok nu ∧ nu.wlErr.map some = [1, 2, 3, 4].map (fun b => dAll.get? (binName c!"DES_DzS" b)) := by
  obtain ⟨nu, h, _⟩ := nuis_total dAll (by
    intro n hn
    simp only [dAll, allNames] at hn ⊢
    revert n
    decide)
  exact ⟨nu, h, (names_by_bin dAll nu h).1⟩

/-! ## C242 -/

/-- **C242 (what holds)**: with all parameters, at most four bins of sources and five of galaxies, and no Weyl potential, there is a theory -/
theorem theory_partial (d : Dict Str ℝ) (h : ∀ n ∈ allNames, (d.get? n).isSome) (hz : S.nz ≤ 4) (hw : S.nw ≤ 5) :
    ∃ nu, nuisOf d = .ok nu ∧ theoryForParams C S none d = .ok (corr C S nu none) := by
  obtain ⟨nu, h1, l1, l2, l3, _⟩ := nuis_total d h
  refine ⟨nu, h1, ?_⟩
  simp only [theoryForParams, h1, bind, Except.bind, getTheory]
  rw [if_neg (by omega), if_neg (by omega), if_neg (by simp)]

example : ∃ nu, nuisOf dAll = .ok nu ∧ theoryForParams C0 S0 none dAll = .ok (corr C0 S0 nu none) := theory_partial C0 S0 dAll (by
    intro n hn
    simp only [dAll, allNames] at hn ⊢
    revert n
    decide) (by simp [S0]) (by simp [S0])

theorem needAll_key {d : Dict Str ℝ} {n : Str} (hd : d.get? n = none) : ∀ {ns : List Str}, n ∈ ns → needAll d ns = .error .key := by
  intro ns
  induction ns with
  | nil => intro h; cases h
  | cons m ns ih =>
    intro h
    unfold needAll need
    rcases List.mem_cons.mp h with rfl | h
    · rw [hd]; rfl
    · cases hm : d.get? m with
      | none => rfl
      | some v => simp only [bind, Except.bind]; rw [ih h]

theorem needAll_cases (d : Dict Str ℝ) (ns : List Str) : needAll d ns = .error .key ∨ ∃ vs, needAll d ns = .ok vs := by
  by_cases h : ∀ n ∈ ns, (d.get? n).isSome
  · obtain ⟨vs, h, _⟩ := needAll_total h
    exact .inr ⟨vs, h⟩
  · simp only [not_forall] at h
    obtain ⟨n, hn, hs⟩ := h
    exact .inl (needAll_key (by simpa using hs) hn)

/-- **C242 fails**: data of shear only still need the bias of galaxies: without `DES_b1` there is a KeyError whatever data types are used (DES.py:463-473) -/
theorem shear_only_fails (d : Dict Str ℝ) (h : d.get? c!"DES_b1" = none) : theoryForParams C { S with usedTypes := [c!"xip", c!"xim"] } W d = .error .key := by
  have hb := needAll_key h (ns := [c!"DES_b1", c!"DES_b2", c!"DES_b3", c!"DES_b4", c!"DES_b5"]) List.mem_cons_self
  have : nuisOf d = .error .key := by
    unfold nuisOf
    rcases needAll_cases d [c!"DES_DzS1", c!"DES_DzS2", c!"DES_DzS3", c!"DES_DzS4"] with h1 | ⟨v, h1⟩
    · rw [h1]; rfl
    rcases needAll_cases d [c!"DES_DzL1", c!"DES_DzL2", c!"DES_DzL3", c!"DES_DzL4", c!"DES_DzL5"] with h2 | ⟨v', h2⟩
    · rw [h1, h2]; rfl
    rw [h1, h2, hb]
    rfl
  rw [theoryForParams, this]
  rfl

example : theoryForParams C0 { S0 with usedTypes := [c!"xip", c!"xim"] } none [(c!"DES_m1", 0)] = .error .key := shear_only_fails C0 S0 none _ (by decide)

/-- **C242 fails**: data with a fifth bin of sources (or a sixth of galaxies) end in an IndexError for all parameters (DES.py:463-473, 499, 515) -/
theorem more_bins_fails (d : Dict Str ℝ) (h : ∀ n ∈ allNames, (d.get? n).isSome) (hz : 4 < S.nz ∨ 5 < S.nw) : theoryForParams C S W d = .error .index := by
  obtain ⟨nu, h1, l1, l2, l3, _⟩ := nuis_total d h
  simp only [theoryForParams, h1, bind, Except.bind, getTheory]
  by_cases hw : 5 < S.nw
  · rw [if_pos (by omega)]
  · rw [if_neg (by omega), if_pos (by omega)]

example : theoryForParams C0 { S0 with nz := 5 } none dAll = .error .index := more_bins_fails C0 _ none dAll (by
    intro n hn
    simp only [dAll, allNames] at hn ⊢
    revert n
    decide) (by simp)

/-- **C242 fails**: with the Weyl potential the correlations of shear cannot be had if galaxy-shear data are among those used (DES.py:524-525) -/
theorem weyl_galaxies_fails (d : Dict Str ℝ) (h : ∀ n ∈ allNames, (d.get? n).isSome) (pw : Nat → ℝ → ℝ) (k : ℝ) (hz : S.nz ≤ 4) (hw : S.nw ≤ 5)
    (ht : c!"gammat" ∈ S.usedTypes) : theoryForParams C S (some (pw, k)) d = .error .value := by
  obtain ⟨nu, h1, l1, l2, l3, _⟩ := nuis_total d h
  simp only [theoryForParams, h1, bind, Except.bind, getTheory]
  rw [if_neg (by omega), if_neg (by omega), if_pos ⟨rfl, ht⟩]

example : theoryForParams C0 { S0 with usedTypes := [c!"xip", c!"gammat"] } (some (fun _ _ => 1, 10)) dAll = .error .value := weyl_galaxies_fails C0 _ dAll (by
    intro n hn
    simp only [dAll, allNames] at hn ⊢
    revert n
    decide) _ _ (by simp [S0]) (by simp [S0]) (by decide)

end Verif.DESNuis
