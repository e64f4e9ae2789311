import Mathlib.Tactic.Linarith
import Mathlib.Tactic.Positivity
import Mathlib.Tactic.NormNum
import Mathlib.Tactic.Ring
import Mathlib.Analysis.SpecialFunctions.Log.Basic
import Mathlib.Analysis.Complex.ExponentialBounds
import Verif.Model.Foregrounds

/-!
# Foregrounds of CamSpec (C239, C240)
-/

namespace Verif.Foregrounds
open Verif.Py
open Verif.CamSpec (Err)

/-! ## Specification -/

/-- names that must be given -/
def required : List Str :=
  [c!"aps100", c!"aps143", c!"aps217", c!"psr", c!"dust100", c!"dust143", c!"dust217", c!"dust143x217", c!"acib217", c!"cibr", c!"ncib", c!"cibrun", c!"asz143", c!"xi", c!"aksz"]

/-- two auto spectra and the cross spectrum of two maps can be those of signals: every combination of the maps has a power that is not negative -/
def Possible (x y xy : ℝ) : Prop := ∀ a b : ℝ, 0 ≤ a ^ 2 * x + 2 * a * b * xy + b ^ 2 * y

/-- amplitudes that are not negative -/
structure Physical (p : Pars) : Prop where
  a0 : 0 ≤ p.aps100
  a1 : 0 ≤ p.aps143
  a2 : 0 ≤ p.aps217
  r : |p.psr| ≤ 1
  c2 : 0 ≤ p.acib217
  cr : 0 ≤ p.cibr ∧ p.cibr ≤ 1
  s : 0 ≤ p.asz143
  k : 0 ≤ p.aksz

/-- all amplitudes times `c` -/
def scale (c : ℝ) (p : Pars) : Pars :=
  { p with aps100 := c * p.aps100, aps143 := c * p.aps143, aps217 := c * p.aps217, dust := fun i => c * p.dust i, acib143 := c * p.acib143, acib217 := c * p.acib217,
           asz143 := c * p.asz143, aksz := c * p.aksz }

/-! ## Helpers -/

theorem root_of {x : ℝ} (h : 0 ≤ x) : root x = some (Real.sqrt x) := if_pos h

theorem root_neg {x : ℝ} (h : x < 0) : root x = none := if_neg (not_le.mpr h)

theorem cib143_nonneg {p : Pars} (h : Physical p) : 0 ≤ cib143 p := by
  have h2 := h.c2
  unfold cib143 acib143Of
  split
  · positivity
  · rename_i h1
    have := not_lt.mp h1
    positivity

theorem sz143_nonneg {p : Pars} (h : Physical p) : 0 ≤ sz143 p := by
  have := h.s
  unfold sz143
  positivity

theorem cib217_nonneg {p : Pars} (h : Physical p) : 0 ≤ cib217 p := by
  have := h.c2
  unfold cib217
  positivity

/-- power of a combination from squares and a cross term bounded by them -/
theorem form_nonneg {x y xy : ℝ} (hx : 0 ≤ x) (hy : 0 ≤ y) (h : xy ^ 2 ≤ x * y) : Possible x y xy := by
  intro a b
  rcases eq_or_lt_of_le hx with h0 | h0
  · have hz : xy = 0 := by
      have : xy ^ 2 ≤ 0 := by rw [← h0] at h; simpa using h
      exact pow_eq_zero_iff (two_ne_zero) |>.mp (le_antisymm this (sq_nonneg _))
    rw [← h0, hz]
    have := mul_nonneg (sq_nonneg b) hy
    linarith
  · have h1 : 0 ≤ x * (a ^ 2 * x + 2 * a * b * xy + b ^ 2 * y) := by
      have h2 : x * (a ^ 2 * x + 2 * a * b * xy + b ^ 2 * y) = (a * x + b * xy) ^ 2 + b ^ 2 * (x * y - xy ^ 2) := by ring
      rw [h2]
      have := mul_nonneg (sq_nonneg b) (sub_nonneg.mpr h)
      have := sq_nonneg (a * x + b * xy)
      linarith
    exact nonneg_of_mul_nonneg_right h1 h0

/-! ## C239 -/

/-- **C239**: all parameters but `acib143` must be given, and then foregrounds are computed -/
theorem foregrounds_ok_iff (t : Templates) (d : Dict Str ℝ) : (∃ f, foregrounds t d = .ok f) ↔ ∀ n ∈ required, (d.get? n).isSome := by
  have key : ∀ n, (∃ v, need d n = .ok v) ↔ (d.get? n).isSome := by
    intro n
    unfold need
    cases h : d.get? n <;> simp
  constructor
  · rintro ⟨f, hf⟩
    intro n hn
    rw [← key]
    by_contra hc
    have hbad : need d n = .error .key := by
      unfold need at hc ⊢
      cases h : d.get? n with
      | none => rfl
      | some v => exact absurd ⟨v, by rw [h]⟩ hc
    unfold foregrounds readPars at hf
    have hall : ∀ m ∈ required, need d m = .error .key ∨ ∃ v, need d m = .ok v := by
      intro m _
      unfold need
      cases d.get? m <;> simp
    simp only [required, List.mem_cons, List.not_mem_nil, or_false, forall_eq_or_imp, forall_eq] at hall
    obtain ⟨h1, h2, h3, h4, h5, h6, h7, h8, h9, h10, h11, h12, h13, h14, h15⟩ := hall
    rcases h1 with h1 | ⟨v1, h1⟩ <;> simp only [h1, bind, Except.bind, reduceCtorEq] at hf
    rcases h2 with h2 | ⟨v2, h2⟩ <;> simp only [h2, reduceCtorEq] at hf
    rcases h3 with h3 | ⟨v3, h3⟩ <;> simp only [h3, reduceCtorEq] at hf
    rcases h4 with h4 | ⟨v4, h4⟩ <;> simp only [h4, reduceCtorEq] at hf
    rcases h5 with h5 | ⟨v5, h5⟩ <;> simp only [h5, reduceCtorEq] at hf
    rcases h6 with h6 | ⟨v6, h6⟩ <;> simp only [h6, reduceCtorEq] at hf
    rcases h7 with h7 | ⟨v7, h7⟩ <;> simp only [h7, reduceCtorEq] at hf
    rcases h8 with h8 | ⟨v8, h8⟩ <;> simp only [h8, reduceCtorEq] at hf
    rcases h9 with h9 | ⟨v9, h9⟩ <;> simp only [h9, reduceCtorEq] at hf
    rcases h10 with h10 | ⟨v10, h10⟩ <;> simp only [h10, reduceCtorEq] at hf
    rcases h11 with h11 | ⟨v11, h11⟩ <;> simp only [h11, reduceCtorEq] at hf
    rcases h12 with h12 | ⟨v12, h12⟩ <;> simp only [h12, reduceCtorEq] at hf
    rcases h13 with h13 | ⟨v13, h13⟩ <;> simp only [h13, reduceCtorEq] at hf
    rcases h14 with h14 | ⟨v14, h14⟩ <;> simp only [h14, reduceCtorEq] at hf
    rcases h15 with h15 | ⟨v15, h15⟩ <;> simp only [h15, reduceCtorEq] at hf
    simp only [required, List.mem_cons, List.not_mem_nil, or_false] at hn
    rcases hn with rfl | rfl | rfl | rfl | rfl | rfl | rfl | rfl | rfl | rfl | rfl | rfl | rfl | rfl | rfl <;>
      first | (rw [h1] at hbad; cases hbad) | (rw [h2] at hbad; cases hbad) | (rw [h3] at hbad; cases hbad) | (rw [h4] at hbad; cases hbad) |
        (rw [h5] at hbad; cases hbad) | (rw [h6] at hbad; cases hbad) | (rw [h7] at hbad; cases hbad) | (rw [h8] at hbad; cases hbad) |
        (rw [h9] at hbad; cases hbad) | (rw [h10] at hbad; cases hbad) | (rw [h11] at hbad; cases hbad) | (rw [h12] at hbad; cases hbad) |
        (rw [h13] at hbad; cases hbad) | (rw [h14] at hbad; cases hbad) | (rw [h15] at hbad; cases hbad)
  · intro h
    have h' : ∀ n ∈ required, ∃ v, need d n = .ok v := fun n hn => (key n).mpr (h n hn)
    simp only [required, List.mem_cons, List.not_mem_nil, or_false, forall_eq_or_imp, forall_eq] at h'
    obtain ⟨⟨_, h1⟩, ⟨_, h2⟩, ⟨_, h3⟩, ⟨_, h4⟩, ⟨_, h5⟩, ⟨_, h6⟩, ⟨_, h7⟩, ⟨_, h8⟩, ⟨_, h9⟩, ⟨_, h10⟩, ⟨_, h11⟩, ⟨_, h12⟩, ⟨_, h13⟩, ⟨_, h14⟩, ⟨_, h15⟩⟩ := h'
    unfold foregrounds readPars
    simp only [h1, h2, h3, h4, h5, h6, h7, h8, h9, h10, h11, h12, h13, h14, h15, bind, Except.bind, pure, Except.pure]
    exact ⟨_, rfl⟩

/-- nothing given, nothing computed -/
example (t : Templates) : ¬ ∃ f, foregrounds t [] = .ok f := by
  rw [foregrounds_ok_iff]
  intro h
  exact absurd (h c!"xi" (by decide)) (by decide)

/-- **C239**: without `acib143` the infrared background at 143 GHz is 0.094 times that at 217 GHz, both as seen in the bands -/
theorem cib_ratio (p : Pars) (h : p.acib143 < 0) : cib143 p = 0.094 * cib217 p := by
  unfold cib143 cib217 acib143Of
  rw [if_pos h]
  ring

example (p : Pars) : cib143 { p with acib143 := -1, acib217 := 1000 } = 125.02 := by
  rw [cib_ratio _ (by norm_num)]
  norm_num [cib217]

/-- **C239**: a value of `acib143` from zero on is used as given, in the band -/
theorem acib_given (p : Pars) (h : 0 ≤ p.acib143) : cib143 p = 1.134 * p.acib143 := by
  unfold cib143 acib143Of
  rw [if_neg (not_lt.mpr h)]
  ring

example (p : Pars) : cib143 { p with acib143 := 0 } = 0 := by
  rw [acib_given _ (le_refl 0)]
  norm_num

/-- **C239**: parameters are read by their names -/
theorem read_by_name (d : Dict Str ℝ) (p : Pars) (h : readPars d = .ok p) :
    [p.aps100, p.aps143, p.aps217, p.psr, p.dust 0, p.dust 1, p.dust 2, p.dust 3, p.acib217, p.cibr, p.ncib, p.cibrun, p.asz143, p.xi, p.aksz].map some = required.map d.get? ∧
    p.acib143 = (d.get? c!"acib143").getD (-1) := by
  have key : ∀ n v, need d n = .ok v → d.get? n = some v := by
    intro n v
    unfold need
    cases d.get? n <;> simp
  unfold readPars at h
  simp only [bind, Except.bind] at h
  split at h
  · cases h
  rename_i v1 h1
  split at h
  · cases h
  rename_i v2 h2
  split at h
  · cases h
  rename_i v3 h3
  split at h
  · cases h
  rename_i v4 h4
  split at h
  · cases h
  rename_i v5 h5
  split at h
  · cases h
  rename_i v6 h6
  split at h
  · cases h
  rename_i v7 h7
  split at h
  · cases h
  rename_i v8 h8
  split at h
  · cases h
  rename_i v9 h9
  split at h
  · cases h
  rename_i v10 h10
  split at h
  · cases h
  rename_i v11 h11
  split at h
  · cases h
  rename_i v12 h12
  split at h
  · cases h
  rename_i v13 h13
  split at h
  · cases h
  rename_i v14 h14
  split at h
  · cases h
  rename_i v15 h15
  cases h
  refine ⟨?_, rfl⟩
  simp only [required, List.map_cons, List.map_nil, key _ _ h1, key _ _ h2, key _ _ h3, key _ _ h4, key _ _ h5, key _ _ h6, key _ _ h7, key _ _ h8, key _ _ h9, key _ _ h10,
    key _ _ h11, key _ _ h12, key _ _ h13, key _ _ h14, key _ _ h15]
  rfl

/-- all parameters but `acib143` -/
def dAll : Dict Str ℝ := required.map fun n => (n, if n = c!"xi" then 7 else 1)

example : ∃ p, readPars dAll = .ok p ∧ p.xi = 7 ∧ p.acib143 = -1 := by
  refine ⟨⟨1, 1, 1, 1, fun i => [1, 1, 1, 1].getD i 0, -1, 1, 1, 1, 1, 1, 7, 1⟩, ?_, rfl, rfl⟩
  unfold dAll required
  simp [readPars, need, Dict.get?, bind, Except.bind, pure, Except.pure]

/-- **C239**: with amplitudes that are not negative every spectrum is a number at every multipole -/
theorem all_numbers (t : Templates) (p : Pars) (h : Physical p) (i l : Nat) (hi : i < 4) : (fgAt t p i l).isSome := by
  have h1 := mul_nonneg (cib143_nonneg h) (sz143_nonneg h)
  have h2 := mul_nonneg (cib143_nonneg h) (cib217_nonneg h)
  have h3 := mul_nonneg (cib217_nonneg h) (sz143_nonneg h)
  have h4 := mul_nonneg h.a1 h.a2
  rcases i with _ | _ | _ | _ | i
  · rfl
  · simp [fgAt, gas, aps, root_of h1]
  · rfl
  · simp [fgAt, gas, aps, root_of h2, root_of h3, root_of h4]
  · omega

/-- a point where all amplitudes are one -/
noncomputable def ones : Pars := ⟨1, 1, 1, 1, fun _ => 1, 1, 1, 1, 0, 0, 1, 0, 1⟩

theorem ones_physical : Physical ones := ⟨by simp [ones], by simp [ones], by simp [ones], by simp [ones], by simp [ones], by simp [ones], by simp [ones], by simp [ones]⟩

example (t : Templates) : (fgAt t ones 3 2000).isSome := all_numbers t ones ones_physical 3 2000 (by norm_num)

theorem sqrt_scale {c x y : ℝ} (hc : 0 ≤ c) : Real.sqrt (c * x * (c * y)) = c * Real.sqrt (x * y) := by
  rw [show c * x * (c * y) = c ^ 2 * (x * y) by ring, Real.sqrt_mul (sq_nonneg c), Real.sqrt_sq hc]

theorem cib143_scale {c : ℝ} (hc : 0 < c) (p : Pars) : cib143 (scale c p) = c * cib143 p := by
  have : c * p.acib143 < 0 ↔ p.acib143 < 0 := ⟨fun h => by_contra fun h2 => absurd (mul_nonneg hc.le (not_lt.mp h2)) (not_le.mpr h), fun h => mul_neg_of_pos_of_neg hc h⟩
  unfold cib143 acib143Of scale
  simp only [this]
  split <;> ring

theorem sz143_scale (c : ℝ) (p : Pars) : sz143 (scale c p) = c * sz143 p := by
  unfold sz143 scale
  ring

theorem cib217_scale (c : ℝ) (p : Pars) : cib217 (scale c p) = c * cib217 p := by
  unfold cib217 scale
  ring

theorem clCib_scale (c : ℝ) (t : Templates) (p : Pars) (l : Nat) : clCib t (scale c p) l = clCib t p l := rfl

/-- **C239**: foregrounds are in proportion to amplitudes: all amplitudes times `c` give all spectra times `c` -/
theorem scales (t : Templates) (p : Pars) (h : Physical p) (c : ℝ) (hc : 0 < c) (i l : Nat) : fgAt t (scale c p) i l = (fgAt t p i l).map (c * ·) := by
  have h1 := mul_nonneg (cib143_nonneg h) (sz143_nonneg h)
  have h2 := mul_nonneg (cib143_nonneg h) (cib217_nonneg h)
  have h3 := mul_nonneg (cib217_nonneg h) (sz143_nonneg h)
  have h4 := mul_nonneg h.a1 h.a2
  have hr : ∀ x y : ℝ, 0 ≤ x * y → root (c * x * (c * y)) = some (c * Real.sqrt (x * y)) := by
    intro x y hxy
    rw [root_of (by rw [show c * x * (c * y) = c ^ 2 * (x * y) by ring]; positivity), sqrt_scale hc.le]
  rcases i with _ | _ | _ | _ | i
  · simp only [fgAt, gas, aps, Option.bind_some, Option.map_some, scale]
    congr 1
    ring
  · simp only [fgAt, gas, aps, cib143_scale hc, sz143_scale, clCib_scale, hr _ _ h1, root_of h1, Option.bind_some, Option.map_some]
    simp only [scale]
    congr 1
    ring
  · simp only [fgAt, gas, aps, cib217_scale, clCib_scale, Option.bind_some, Option.map_some]
    simp only [scale]
    congr 1
    ring
  · have e : root ((scale c p).aps143 * (scale c p).aps217) = some (c * Real.sqrt (p.aps143 * p.aps217)) := hr _ _ h4
    simp only [fgAt, gas, aps, cib143_scale hc, sz143_scale, cib217_scale, clCib_scale, hr _ _ h2, hr _ _ h3, root_of h2, root_of h3, root_of h4, e, Option.bind_some, Option.map_some]
    simp only [scale]
    congr 1
    ring
  · rfl

example (t : Templates) (l : Nat) : fgAt t (scale 2 ones) 1 l = (fgAt t ones 1 l).map (2 * ·) := scales t ones ones_physical 2 (by norm_num) 1 l

/-- **C239**: the spectra at 143 and 217 GHz and their cross spectrum can be those of maps of the sky: the cross spectrum is never larger than the auto spectra
allow, if dust and the correlation of gas with the infrared background are possible themselves -/
theorem cross_possible (t : Templates) (p : Pars) (h : Physical p) (l : Nat) (hk : 0 ≤ t.ksz l) (hs : 0 ≤ t.sz l) (hc : 0 ≤ t.cib l)
    (hx : (p.xi * t.tszxcib l) ^ 2 ≤ t.sz l * (p.cibr * clCib t p l))
    (hd : Possible (p.dust 1 * t.dust 1 l) (p.dust 2 * t.dust 2 l) (p.dust 3 * t.dust 3 l)) :
    ∃ x y xy, fgAt t p 1 l = some x ∧ fgAt t p 2 l = some y ∧ fgAt t p 3 l = some xy ∧ Possible x y xy := by
  have n1 := cib143_nonneg h
  have n2 := cib217_nonneg h
  have n3 := sz143_nonneg h
  have h1 := mul_nonneg n1 n3
  have h2 := mul_nonneg n1 n2
  have h3 := mul_nonneg n2 n3
  have h4 := mul_nonneg h.a1 h.a2
  have hcl : 0 ≤ clCib t p l := mul_nonneg (Real.exp_pos _).le hc
  simp only [fgAt, gas, aps, root_of h1, root_of h2, root_of h3, root_of h4, Option.bind_some, Option.map_some, Option.some.injEq]
  refine ⟨_, _, _, rfl, rfl, rfl, ?_⟩
  intro a b
  rw [Real.sqrt_mul n1, Real.sqrt_mul n1, Real.sqrt_mul n2, Real.sqrt_mul h.a1]
  set c1 := Real.sqrt (cib143 p) with e1
  set c2 := Real.sqrt (cib217 p) with e2
  set s := Real.sqrt (sz143 p) with e3
  set q1 := Real.sqrt p.aps143 with e4
  set q2 := Real.sqrt p.aps217 with e5
  have f1 : cib143 p = c1 ^ 2 := (Real.sq_sqrt n1).symm
  have f2 : cib217 p = c2 ^ 2 := (Real.sq_sqrt n2).symm
  have f3 : sz143 p = s ^ 2 := (Real.sq_sqrt n3).symm
  have f4 : p.aps143 = q1 ^ 2 := (Real.sq_sqrt h.a1).symm
  have f5 : p.aps217 = q2 ^ 2 := (Real.sq_sqrt h.a2).symm
  rw [f1, f2, f3, f4, f5]
  set C := clCib t p l with eC
  set X := p.xi * t.tszxcib l with eX
  -- gas and infrared background
  have hL : (0 : ℝ) ≤ (l : ℝ) * ((l : ℝ) + 1) := by positivity
  have g1 := form_nonneg hs (mul_nonneg h.cr.1 hcl) hx (a * s) (-(a * c1 + b * c2))
  have g2 : 0 ≤ (1 - p.cibr) * C * (a ^ 2 * c1 ^ 2 + b ^ 2 * c2 ^ 2) := by
    have := sub_nonneg.mpr h.cr.2
    positivity
  have g3 : 0 ≤ (a + b) ^ 2 * (p.aksz * t.ksz l) := mul_nonneg (sq_nonneg _) (mul_nonneg h.k hk)
  have g4 := hd a b
  have g5 : Possible (q1 ^ 2) (q2 ^ 2) (p.psr * (q1 * q2)) := by
    apply form_nonneg (sq_nonneg _) (sq_nonneg _)
    have : p.psr ^ 2 ≤ 1 := by rw [← sq_abs]; exact pow_le_one₀ (abs_nonneg _) h.r
    nlinarith [sq_nonneg (q1 * q2)]
  have g6 : 0 ≤ (1e-6 / 9 * ((l : ℝ) * ((l : ℝ) + 1))) * (a ^ 2 * q1 ^ 2 + 2 * a * b * (p.psr * (q1 * q2)) + b ^ 2 * q2 ^ 2) := mul_nonneg (by positivity) (g5 a b)
  have e : ∀ D1 D2 D3 : ℝ, a ^ 2 * (c1 ^ 2 * C + p.aksz * t.ksz l + s ^ 2 * t.sz l - 2 * (c1 * s) * p.xi * t.tszxcib l + (D1 + q1 ^ 2 * (1e-6 / 9) * (l * (l + 1)))) +
      2 * a * b * (p.cibr * (c1 * c2 * C) + p.aksz * t.ksz l - c2 * s * p.xi * t.tszxcib l + (D3 + p.psr * (q1 * q2) * (1e-6 / 9) * (l * (l + 1)))) +
      b ^ 2 * (c2 ^ 2 * C + p.aksz * t.ksz l + (D2 + q2 ^ 2 * (1e-6 / 9) * (l * (l + 1)))) =
      ((a * s) ^ 2 * t.sz l + 2 * (a * s) * -(a * c1 + b * c2) * X + (-(a * c1 + b * c2)) ^ 2 * (p.cibr * C)) + (1 - p.cibr) * C * (a ^ 2 * c1 ^ 2 + b ^ 2 * c2 ^ 2) +
      (a + b) ^ 2 * (p.aksz * t.ksz l) + (a ^ 2 * D1 + 2 * a * b * D3 + b ^ 2 * D2) +
      (1e-6 / 9 * ((l : ℝ) * ((l : ℝ) + 1))) * (a ^ 2 * q1 ^ 2 + 2 * a * b * (p.psr * (q1 * q2)) + b ^ 2 * q2 ^ 2) := by
    intro D1 D2 D3
    rw [eX]
    ring
  have := e (p.dust 1 * t.dust 1 l) (p.dust 2 * t.dust 2 l) (p.dust 3 * t.dust 3 l)
  linarith

/-- templates that are all one -/
noncomputable def flat : Templates := ⟨fun _ => 1, fun _ => 1, fun _ => 1, fun _ => 1, fun _ _ => 1, fun _ => 0⟩

example : ∃ x y xy, fgAt flat ones 1 1500 = some x ∧ fgAt flat ones 2 1500 = some y ∧ fgAt flat ones 3 1500 = some xy ∧ Possible x y xy :=
  cross_possible flat ones ones_physical 1500 (by simp [flat]) (by simp [flat]) (by simp [flat]) (by simp [flat, ones, clCib])
    (by intro a b; simp only [flat, ones]; nlinarith [sq_nonneg (a + b)])

/-- **C239**: at 100 GHz only its own dust and point sources and the two effects of gas matter -/
theorem only_100 (t : Templates) (p q : Pars) (l : Nat) (h1 : p.aps100 = q.aps100) (h2 : p.dust 0 = q.dust 0) (h3 : p.aksz = q.aksz) (h4 : p.asz143 = q.asz143) :
    fgAt t p 0 l = fgAt t q 0 l := by
  simp only [fgAt, gas, aps, h1, h2, h3, h4]

example (t : Templates) (l : Nat) : fgAt t ones 0 l = fgAt t { ones with acib217 := 50, xi := 1 } 0 l := only_100 t _ _ l rfl rfl rfl rfl

/-- **C239**: at 217 GHz the thermal effect, correlations and what is given for other bands do not matter -/
theorem only_217 (t : Templates) (p q : Pars) (l : Nat) (h1 : p.aps217 = q.aps217) (h2 : p.dust 2 = q.dust 2) (h3 : p.aksz = q.aksz) (h4 : p.acib217 = q.acib217)
    (h5 : p.ncib = q.ncib) (h6 : p.cibrun = q.cibrun) : fgAt t p 2 l = fgAt t q 2 l := by
  simp only [fgAt, gas, aps, clCib, cib217, h1, h2, h3, h4, h5, h6]

example (t : Templates) (l : Nat) : fgAt t ones 2 l = fgAt t { ones with asz143 := 50, xi := 1, cibr := 0, psr := 0 } 2 l := only_217 t _ _ l rfl rfl rfl rfl rfl rfl

/-- **C239**: with templates that are one at the pivot, the power there is the sum of the amplitudes as seen in the bands -/
theorem at_pivot (t : Templates) (p : Pars) (h : Physical p) (l : Nat) (hs : t.sz l = 1) (hk : t.ksz l = 1) (hx : t.tszxcib l = 1) (hc : t.cib l = 1) (hl : t.lnrat l = 0)
    (hd : ∀ i, p.dust i = 0) (h0 : p.aps100 = 0) (h1 : p.aps143 = 0) (h2 : p.aps217 = 0) :
    fgAt t p 0 l = some (p.aksz + 2.022 * p.asz143) ∧
    fgAt t p 1 l = some (p.aksz + cib143 p + 0.95 * p.asz143 - 2 * p.xi * Real.sqrt (cib143 p * (0.95 * p.asz143))) ∧
    fgAt t p 2 l = some (p.aksz + 1.33 * p.acib217) ∧
    fgAt t p 3 l = some (p.aksz + p.cibr * Real.sqrt (cib143 p * (1.33 * p.acib217)) - p.xi * Real.sqrt (1.33 * p.acib217 * (0.95 * p.asz143))) := by
  have k1 := mul_nonneg (cib143_nonneg h) (sz143_nonneg h)
  have k2 := mul_nonneg (cib143_nonneg h) (cib217_nonneg h)
  have k3 := mul_nonneg (cib217_nonneg h) (sz143_nonneg h)
  have e1 : sz143 p = 0.95 * p.asz143 := by unfold sz143; ring
  have e2 : cib217 p = 1.33 * p.acib217 := by unfold cib217; ring
  have e3 : clCib t p l = 1 := by simp [clCib, hl, hc]
  have k4 : root ((0 : ℝ) * 0) = some 0 := by rw [root_of (by norm_num)]; simp
  refine ⟨?_, ?_, ?_, ?_⟩
  · simp only [fgAt, gas, aps, hs, hk, hd, h0, Option.bind_some, Option.map_some, Option.some.injEq]
    ring
  · simp only [fgAt, gas, aps, hs, hk, hx, hd, h1, e3, root_of k1, Option.bind_some, Option.map_some, Option.some.injEq]
    rw [e1]
    ring
  · simp only [fgAt, gas, aps, hk, hd, h2, e3, Option.bind_some, Option.map_some, Option.some.injEq]
    rw [e2]
    ring
  · simp only [fgAt, gas, aps, hk, hx, hd, h1, h2, e3, k4, root_of k2, root_of k3, Option.bind_some, Option.map_some, Option.some.injEq]
    rw [e1, e2]
    ring

example : fgAt flat { ones with aps100 := 0, aps143 := 0, aps217 := 0, dust := fun _ => 0 } 2 3000 = some 2.33 := by
  rw [(at_pivot flat _ ⟨by simp, by simp, by simp, by simp [ones], by simp [ones], by simp [ones], by simp [ones], by simp [ones]⟩ 3000 rfl rfl rfl rfl rfl (fun _ => rfl) rfl rfl rfl).2.2.1]
  norm_num [ones]

/-- **C239**: point sources add power in proportion to `l (l + 1)`, and dust in proportion to its template; nothing else depends on them -/
theorem dust_and_sources (t : Templates) (p : Pars) (h : Physical p) (l : Nat) :
    (∀ i < 4, fgAt t p i l = (fgAt t { p with aps100 := 0, aps143 := 0, aps217 := 0, dust := fun _ => 0 } i l).map fun g =>
      g + p.dust i * t.dust i l +
        [p.aps100, p.aps143, p.aps217, p.psr * Real.sqrt (p.aps143 * p.aps217)].getD i 0 / 9000000 * (l * (l + 1))) := by
  have k1 := mul_nonneg (cib143_nonneg h) (sz143_nonneg h)
  have k2 := mul_nonneg (cib143_nonneg h) (cib217_nonneg h)
  have k3 := mul_nonneg (cib217_nonneg h) (sz143_nonneg h)
  have k4 := mul_nonneg h.a1 h.a2
  have k5 : root ((0 : ℝ) * 0) = some 0 := by rw [root_of (by norm_num)]; simp
  have e1 : ∀ i, gas t { p with aps100 := 0, aps143 := 0, aps217 := 0, dust := fun _ => 0 } i l = gas t p i l := fun i => rfl
  intro i hi
  have hg : ∃ g, gas t p i l = some g := by
    rcases i with _ | _ | _ | _ | i
    · exact ⟨_, rfl⟩
    · exact ⟨_, by simp only [gas, root_of k1, Option.map_some]; rfl⟩
    · exact ⟨_, rfl⟩
    · exact ⟨_, by simp only [gas, root_of k2, root_of k3, Option.bind_some, Option.map_some]; rfl⟩
    · omega
  obtain ⟨g, hg⟩ := hg
  have ha : ∃ a, aps p i = some a ∧ a = [p.aps100, p.aps143, p.aps217, p.psr * Real.sqrt (p.aps143 * p.aps217)].getD i 0 / 9000000 := by
    rcases i with _ | _ | _ | _ | i
    · exact ⟨_, rfl, by norm_num; ring⟩
    · exact ⟨_, rfl, by norm_num; ring⟩
    · exact ⟨_, rfl, by norm_num; ring⟩
    · exact ⟨p.psr * Real.sqrt (p.aps143 * p.aps217) * (1e-6 / 9), by simp only [aps, root_of k4, Option.map_some], by norm_num; ring⟩
    · omega
  obtain ⟨a, ha, hv⟩ := ha
  have hz : aps { p with aps100 := 0, aps143 := 0, aps217 := 0, dust := fun _ => 0 } i = some 0 := by
    rcases i with _ | _ | _ | _ | i
    · simp [aps]
    · simp [aps]
    · simp [aps]
    · simp [aps, root_of (le_refl (0 : ℝ))]
    · omega
  rw [← hv]
  simp only [fgAt, e1, hg, ha, hz, Option.bind_some, Option.map_some, Option.some.injEq]
  ring

example (t : Templates) (l : Nat) := (dust_and_sources t ones ones_physical l) 3 (by norm_num)

/-! ## C240 -/

/-- **C240 (what holds)**: with the logarithm of the multipole the infrared background is a power law times its template -/
theorem tilt_partial (t : Templates) (p : Pars) (l : Nat) (hl : 0 < l) (h : t.lnrat l = Real.log (l / 3000)) (hr : p.cibrun = 0) :
    clCib t p l = ((l : ℝ) / 3000) ^ p.ncib * t.cib l := by
  have : (0 : ℝ) < (l : ℝ) / 3000 := by positivity
  rw [clCib, h, hr, Real.rpow_def_of_pos this]
  congr 2
  ring

example (t : Templates) (p : Pars) : clCib { t with lnrat := fun l => Real.log (l / 3000) } { p with cibrun := 0, ncib := 2 } 1500 = t.cib 1500 / 4 := by
  rw [tilt_partial _ _ _ (by norm_num) (by rfl) rfl]
  norm_num
  ring

/-- **C240 (what holds)**: the running changes the index by half its value times the logarithm -/
theorem running_partial (t : Templates) (p : Pars) (l : Nat) (hl : 0 < l) (h : t.lnrat l = Real.log (l / 3000)) :
    clCib t p l = ((l : ℝ) / 3000) ^ (p.ncib + p.cibrun / 2 * Real.log (l / 3000)) * t.cib l := by
  have : (0 : ℝ) < (l : ℝ) / 3000 := by positivity
  rw [clCib, h, Real.rpow_def_of_pos this]
  congr 2
  ring

example (t : Templates) (p : Pars) : clCib { t with lnrat := fun l => Real.log (l / 3000) } { p with cibrun := 5 } 3000 = t.cib 3000 := by
  rw [running_partial _ _ _ (by norm_num) (by rfl)]
  norm_num

/-- logarithms of ratios less than `e` are kept as zero -/
theorem lnrat_zero (lmin l : Nat) (h1 : 1104 ≤ l) (h2 : l ≤ 8154) : CamSpec.lnrat lmin l = 0 := by
  unfold CamSpec.lnrat
  split
  · unfold CamSpec.toInt
    have hpos : (0 : ℝ) < (l : ℝ) / 3000 := by
      have : (0 : ℝ) < (l : ℝ) := by exact_mod_cast (by omega : 0 < l)
      positivity
    have e1 := Real.exp_one_gt_d9
    split
    · rename_i h
      rw [Int.floor_eq_zero_iff]
      refine ⟨h, ?_⟩
      rw [Real.log_lt_iff_lt_exp hpos]
      have : (l : ℝ) ≤ 8154 := by exact_mod_cast h2
      linarith
    · rename_i h
      rw [Int.ceil_eq_zero_iff]
      refine ⟨?_, (not_le.mp h).le⟩
      rw [Real.lt_log_iff_exp_lt hpos, Real.exp_neg]
      have h3 : (1104 : ℝ) ≤ l := by exact_mod_cast h1
      have : (Real.exp 1)⁻¹ < 0.368 := by
        rw [inv_lt_comm₀ (Real.exp_pos 1) (by norm_num)]
        refine lt_trans ?_ e1
        norm_num
      linarith
  · rfl

example : CamSpec.lnrat 30 2000 = 0 := lnrat_zero 30 2000 (by norm_num) (by norm_num)

/-- **C240 fails**: the index of the infrared background and its running do nothing at all at multipoles from 1104 to 8154, since the logarithms are kept as whole
numbers (CMB_CamSpec.py:129-131, 171) -/
theorem tilt_fails (lmin : Nat) (t : Templates) (p : Pars) (n run : ℝ) (i l : Nat) (h1 : 1104 ≤ l) (h2 : l ≤ 8154) :
    fgAt (setLnrat lmin t) { p with ncib := n, cibrun := run } i l = fgAt (setLnrat lmin t) p i l := by
  have hz : (setLnrat lmin t).lnrat l = 0 := by simp [setLnrat, lnrat_zero lmin l h1 h2]
  have e : ∀ q : Pars, clCib (setLnrat lmin t) q l = (setLnrat lmin t).cib l := by intro q; simp [clCib, hz]
  have hg : gas (setLnrat lmin t) { p with ncib := n, cibrun := run } i l = gas (setLnrat lmin t) p i l := by
    rcases i with _ | _ | _ | _ | i <;> simp only [gas, e] <;> rfl
  unfold fgAt
  rw [hg]
  rfl

example (t : Templates) (l : Nat) (h : l = 1500) : fgAt (setLnrat 30 t) { ones with ncib := 5, cibrun := 0 } 2 l = fgAt (setLnrat 30 t) ones 2 l :=
  tilt_fails 30 t ones 5 0 2 l (by omega) (by omega)

/-- **C240 fails**: at multipole 1500 the power law with index 2 is a quarter of the template, but the template is used unchanged (CMB_CamSpec.py:129-131, 171) -/
theorem power_law_fails (t : Templates) (p : Pars) (h : t.cib 1500 ≠ 0) :
    clCib (setLnrat 30 t) { p with cibrun := 0, ncib := 2 } 1500 ≠ ((1500 : ℝ) / 3000) ^ (2 : ℝ) * t.cib 1500 := by
  have hz : (setLnrat 30 t).lnrat 1500 = 0 := by simp [setLnrat, lnrat_zero 30 1500 (by norm_num) (by norm_num)]
  have e : clCib (setLnrat 30 t) { p with cibrun := 0, ncib := 2 } 1500 = t.cib 1500 := by
    simp only [clCib, hz, mul_zero, ne_eq, OfNat.ofNat_ne_zero, not_false_eq_true, zero_pow, zero_div, add_zero, Real.exp_zero, one_mul]
    rfl
  rw [e]
  norm_num
  intro hc
  apply h
  linarith

example : clCib (setLnrat 30 flat) { ones with cibrun := 0, ncib := 2 } 1500 ≠ ((1500 : ℝ) / 3000) ^ (2 : ℝ) * flat.cib 1500 := power_law_fails flat ones (by simp [flat])

/-- **C240 fails**: an amplitude `acib143` given below zero is taken as not given: any two such values give the same foregrounds (CMB_CamSpec.py:159, 172-174) -/
theorem negative_acib_fails (t : Templates) (p : Pars) (x y : ℝ) (hx : x < 0) (hy : y < 0) (i l : Nat) :
    fgAt t { p with acib143 := x } i l = fgAt t { p with acib143 := y } i l := by
  have e : cib143 { p with acib143 := x } = cib143 { p with acib143 := y } := by rw [cib_ratio _ hx, cib_ratio _ hy]; rfl
  have hg : gas t { p with acib143 := x } i l = gas t { p with acib143 := y } i l := by
    rcases i with _ | _ | _ | _ | i <;> simp only [gas, e] <;> rfl
  unfold fgAt
  rw [hg]
  rfl

example (t : Templates) : fgAt t { ones with acib143 := -0.01 } 1 500 = fgAt t { ones with acib143 := -7 } 1 500 := negative_acib_fails t ones _ _ (by norm_num) (by norm_num) 1 500

/-- **C240 fails**: a thermal amplitude a little below zero makes the whole spectrum at 143 GHz not a number, also when no correlation is assumed (CMB_CamSpec.py:187-188) -/
theorem negative_sz_fails (t : Templates) (p : Pars) (h : 0 < cib143 p) (s : ℝ) (hs : s < 0) (l : Nat) : fgAt t { p with asz143 := s, xi := 0 } 1 l = none := by
  have : root (cib143 { p with asz143 := s, xi := 0 } * sz143 { p with asz143 := s, xi := 0 }) = none := by
    apply root_neg
    apply mul_neg_of_pos_of_neg h
    simp only [sz143]
    linarith
  simp only [fgAt, gas, this, Option.map_none, Option.bind_none]

example (t : Templates) (l : Nat) : fgAt t { ones with asz143 := -0.001, xi := 0 } 1 l = none := negative_sz_fails t ones (by norm_num [cib143, acib143Of, ones]) _ (by norm_num) l

end Verif.Foregrounds
