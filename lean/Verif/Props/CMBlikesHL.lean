import Verif.Model.CMBlikesHL
import Mathlib.Analysis.Matrix.Spectrum
import Mathlib.Analysis.SpecialFunctions.Pow.Real
import Mathlib.LinearAlgebra.Matrix.Trace
import Mathlib.Tactic.Positivity
import Mathlib.Tactic.FieldSimp
import Mathlib.Tactic.Linarith

/-!
# Hamimeche-Lewis and exact likelihoods (C76, C77)
-/

namespace Verif.CMBlikes.HL
open Matrix

variable {n : Nat}

/-- symmetric with a positive quadratic form -/
def PD (M : Mat n) : Prop := Mᵀ = M ∧ ∀ x : Fin n → ℝ, x ≠ 0 → 0 < x ⬝ᵥ (M *ᵥ x)

/-- an orthogonal diagonalisation -/
def Diag (M U : Mat n) (d : Fin n → ℝ) : Prop := Uᵀ * U = 1 ∧ M = U * diagonal d * Uᵀ

/-- what `numpy.linalg.eigh` documents -/
def EighSpec (eigh : Mat n → (Fin n → ℝ) × Mat n) : Prop := ∀ M : Mat n, Mᵀ = M → Diag M (eigh M).2 (eigh M).1

/-- `N` is the function `f` of the symmetric matrix `M` -/
def IsFun (f : ℝ → ℝ) (M N : Mat n) : Prop := ∃ U d, Diag M U d ∧ N = U * diagonal (fun i => f (d i)) * Uᵀ

theorem Diag.orth {M U : Mat n} {d : Fin n → ℝ} (h : Diag M U d) : U * Uᵀ = 1 := mul_eq_one_comm.mp h.1

theorem Diag.exists {M : Mat n} (h : Mᵀ = M) : ∃ (U : Mat n) (d : Fin n → ℝ), Diag M U d := by
  have hh : M.IsHermitian := by
    unfold IsHermitian
    rw [conjTranspose_eq_transpose_of_trivial]
    exact h
  refine ⟨(hh.eigenvectorUnitary : Mat n), hh.eigenvalues, ?_, ?_⟩
  · have := Unitary.coe_star_mul_self hh.eigenvectorUnitary
    rw [star_eq_conjTranspose, conjTranspose_eq_transpose_of_trivial] at this
    exact this
  · have := hh.spectral_theorem
    rw [Unitary.conjStarAlgAut_apply, star_eq_conjTranspose, conjTranspose_eq_transpose_of_trivial] at this
    exact this

/-- the assumption on `eigh` can be met -/
theorem eigh_exists : ∃ eigh : Mat n → (Fin n → ℝ) × Mat n, EighSpec eigh := by
  classical
  have h : ∀ M : Mat n, ∃ p : (Fin n → ℝ) × Mat n, Mᵀ = M → Diag M p.2 p.1 := by
    intro M
    by_cases hM : Mᵀ = M
    · obtain ⟨U, d, h⟩ := Diag.exists hM
      exact ⟨(d, U), fun _ => h⟩
    · exact ⟨(0, 0), fun h => absurd h hM⟩
  choose e he using h
  exact ⟨e, he⟩

/-- the function of a symmetric matrix does not depend on the choice of eigenvectors -/
theorem isFun_unique {f : ℝ → ℝ} {M N N' : Mat n} (h : IsFun f M N) (h' : IsFun f M N') : N = N' := by
  obtain ⟨U, a, hU, rfl⟩ := h
  obtain ⟨V, b, hV, rfl⟩ := h'
  have e : diagonal b * (Vᵀ * U) = (Vᵀ * U) * diagonal a := by
    have h1 : Vᵀ * M * U = diagonal b * (Vᵀ * U) := by
      conv_lhs => rw [hV.2]
      calc Vᵀ * (V * diagonal b * Vᵀ) * U = (Vᵀ * V) * diagonal b * (Vᵀ * U) := by simp only [Matrix.mul_assoc]
        _ = _ := by rw [hV.1, Matrix.one_mul]
    have h2 : Vᵀ * M * U = (Vᵀ * U) * diagonal a := by
      conv_lhs => rw [hU.2]
      calc Vᵀ * (U * diagonal a * Uᵀ) * U = (Vᵀ * U) * diagonal a * (Uᵀ * U) := by simp only [Matrix.mul_assoc]
        _ = _ := by rw [hU.1, Matrix.mul_one]
    rw [← h1, h2]
  have e' : diagonal (fun i => f (b i)) * (Vᵀ * U) = (Vᵀ * U) * diagonal (fun i => f (a i)) := by
    ext i j
    have := congrFun (congrFun e i) j
    rw [diagonal_mul, mul_diagonal] at this
    rw [diagonal_mul, mul_diagonal]
    by_cases hw : (Vᵀ * U) i j = 0
    · rw [hw]; ring
    · have : b i = a j := by
        have h2 : (b i - a j) * (Vᵀ * U) i j = 0 := by linarith
        rcases mul_eq_zero.mp h2 with h3 | h3
        · linarith
        · exact absurd h3 hw
      rw [this]; ring
  calc U * diagonal (fun i => f (a i)) * Uᵀ = (V * Vᵀ) * U * diagonal (fun i => f (a i)) * Uᵀ := by rw [hV.orth, Matrix.one_mul]
    _ = V * ((Vᵀ * U) * diagonal (fun i => f (a i))) * Uᵀ := by simp only [Matrix.mul_assoc]
    _ = V * (diagonal (fun i => f (b i)) * (Vᵀ * U)) * Uᵀ := by rw [e']
    _ = V * diagonal (fun i => f (b i)) * Vᵀ * (U * Uᵀ) := by simp only [Matrix.mul_assoc]
    _ = _ := by rw [hU.orth, Matrix.mul_one]

theorem Diag.symm {M U : Mat n} {d : Fin n → ℝ} (h : Diag M U d) : Mᵀ = M := by
  rw [h.2]
  simp only [transpose_mul, transpose_transpose, diagonal_transpose, Matrix.mul_assoc]

theorem quad_conj (B A : Mat n) (x : Fin n → ℝ) : x ⬝ᵥ ((B * A * Bᵀ) *ᵥ x) = (Bᵀ *ᵥ x) ⬝ᵥ (A *ᵥ (Bᵀ *ᵥ x)) := by
  rw [← mulVec_mulVec, ← mulVec_mulVec, dotProduct_mulVec, ← mulVec_transpose]

theorem mulVec_ne {B : Mat n} {B' : Mat n} (h : B' * B = 1) {x : Fin n → ℝ} (hx : x ≠ 0) : B *ᵥ x ≠ 0 := by
  intro h0
  apply hx
  have : B' *ᵥ (B *ᵥ x) = x := by rw [mulVec_mulVec, h, one_mulVec]
  rw [← this, h0, mulVec_zero]

/-- congruence with an invertible matrix keeps positive matrices -/
theorem PD.conj {A B B' : Mat n} (h : PD A) (hB : B * B' = 1) : PD (B * A * Bᵀ) := by
  refine ⟨by simp only [transpose_mul, transpose_transpose, h.1, Matrix.mul_assoc], fun x hx => ?_⟩
  rw [quad_conj]
  refine h.2 _ (mulVec_ne (B' := B'ᵀ) ?_ hx)
  rw [← transpose_mul, hB, transpose_one]

/-- eigenvalues of a positive matrix are positive -/
theorem PD.pos {M U : Mat n} {d : Fin n → ℝ} (h : PD M) (hd : Diag M U d) (i : Fin n) : 0 < d i := by
  have hs : (Pi.single i 1 : Fin n → ℝ) ≠ 0 := by
    intro e
    have := congrFun e i
    simp at this
  have hx : U *ᵥ (Pi.single i 1) ≠ 0 := mulVec_ne hd.1 hs
  have := h.2 _ hx
  rw [hd.2, quad_conj, mulVec_mulVec, hd.1, one_mulVec] at this
  simpa using this

theorem diagonal_pos (d : Fin n → ℝ) (h : ∀ i, 0 < d i) : diagonal d * diagonal (fun i => (d i)⁻¹) = 1 := by
  rw [diagonal_mul_diagonal]
  have : (fun i => d i * (d i)⁻¹) = fun _ => (1 : ℝ) := by funext i; exact mul_inv_cancel₀ (h i).ne'
  rw [this, diagonal_one]

/-! ## The scalar function -/

theorem log_lt {x : ℝ} (h : 0 < x) (h1 : x ≠ 1) : 0 < x - Real.log x - 1 := by
  have := Real.log_lt_sub_one_of_pos h h1
  linarith

theorem log_le {x : ℝ} (h : 0 < x) : 0 ≤ x - Real.log x - 1 := by
  have := Real.log_le_sub_one_of_pos h
  linarith

/-- `g` has the sign of `x - 1`, and `g x ^ 2` is the exact likelihood of one number -/
theorem g_sign {x : ℝ} (h : 0 < x) : (g x = 0 ↔ x = 1) ∧ (0 < g x ↔ 1 < x) ∧ g x ^ 2 = 2 * (x - Real.log x - 1) := by
  unfold g
  rw [max_eq_right (log_le h)]
  rcases lt_trichotomy x 1 with h1 | h1 | h1
  · have hp : 0 < Real.sqrt (2 * (x - Real.log x - 1)) := Real.sqrt_pos.mpr (by have := log_lt h h1.ne; linarith)
    have hs : SignType.sign (x - 1) = -1 := sign_neg (by linarith)
    rw [hs]
    refine ⟨⟨fun e => ?_, fun e => absurd e h1.ne⟩, ⟨fun e => ?_, fun e => absurd e (not_lt.mpr h1.le)⟩, ?_⟩
    · rcases mul_eq_zero.mp e with e | e
      · simp at e
      · exact absurd e hp.ne'
    · have : ((-1 : SignType) : ℝ) = -1 := by simp
      rw [this] at e
      linarith
    · rw [mul_pow, Real.sq_sqrt (by have := log_le h; linarith)]
      simp
  · subst h1
    simp
  · have hp : 0 < Real.sqrt (2 * (x - Real.log x - 1)) := Real.sqrt_pos.mpr (by have := log_lt h h1.ne'; linarith)
    have hs : SignType.sign (x - 1) = 1 := sign_pos (by linarith)
    rw [hs]
    refine ⟨⟨fun e => ?_, fun e => absurd e h1.ne'⟩, ⟨fun e => h1, fun _ => by simpa using hp⟩, ?_⟩
    · rcases mul_eq_zero.mp e with e | e
      · simp at e
      · exact absurd e hp.ne'
    · rw [mul_pow, Real.sq_sqrt (by have := log_le h; linarith)]
      simp

example : 0 < g 2 := (g_sign (x := 2) (by norm_num)).2.1.mpr (by norm_num)

/-! ## The transform (C77) -/

theorem divRoots_get (r : Fin n → ℝ) (R : Mat n) (a b : Fin n) : divRoots r R a b = R a b / r a / r b := by
  unfold divRoots
  have H : ∀ (l : List (Fin n)) (hl : l.Nodup) (R : Mat n), (l.foldl (divStep r) R) a b =
      R a b / (if a ∈ l then r a else 1) / (if b ∈ l then r b else 1) := by
    intro l
    induction l with
    | nil => intro _ R; simp
    | cons i l ih =>
      intro hl R
      rw [List.nodup_cons] at hl
      rw [List.foldl_cons, ih hl.2]
      simp only [divStep, Matrix.of_apply]
      by_cases ha : a = i <;> by_cases hb : b = i
      · subst ha; subst hb
        simp [hl.1]
      · subst ha
        simp only [hl.1, hb, if_true, if_false, List.mem_cons, true_or, false_or, div_one]
      · subst hb
        simp only [hl.1, ha, if_true, if_false, List.mem_cons, true_or, false_or, div_one]
        ring
      · simp only [ha, hb, if_false, List.mem_cons, false_or]
  rw [H _ (List.nodup_finRange n) R]
  simp

theorem scaleCols_eq (d : Fin n → ℝ) (U R : Mat n) : scaleCols d U R = U * diagonal d := by
  ext a b
  rw [mul_diagonal]
  unfold scaleCols
  have H : ∀ (l : List (Fin n)) (R : Mat n), (l.foldl (scaleStep d U) R) a b =
      if b ∈ l then U a b * d b else R a b := by
    intro l
    induction l with
    | nil => intro R; simp
    | cons i l ih =>
      intro R
      rw [List.foldl_cons, ih]
      simp only [scaleStep, Matrix.of_apply]
      by_cases hb : b = i
      · subst hb; simp
      · simp [hb]
  rw [H, if_pos (List.mem_finRange b)]

theorem divRoots_eq (r : Fin n → ℝ) (R : Mat n) : divRoots r R = diagonal (fun i => (r i)⁻¹) * R * diagonal (fun i => (r i)⁻¹) := by
  ext a b
  rw [divRoots_get, mul_diagonal, diagonal_mul]
  ring

/-- the inverse square root -/
noncomputable def invSqrt (x : ℝ) : ℝ := (Real.sqrt x)⁻¹

/-- C77: the transform is `F g(C^(-1/2) Chat C^(-1/2)) Fᵀ` for the matrix functions `C^(-1/2)` and `g`, whatever eigenvectors `eigh` returns -/
theorem hl_spec (eigh : Mat n → (Fin n → ℝ) × Mat n) (he : EighSpec eigh) (C Chat F R G : Mat n) (hC : PD C) (hS : Chatᵀ = Chat)
    (hR : IsFun invSqrt C R) (hG : IsFun g (R * Chat * R) G) : transform eigh C Chat F = F * G * Fᵀ := by
  unfold transform
  by_cases h1 : n = 1
  · rw [dif_pos h1]
    subst h1
    obtain ⟨U, d, hd, hRe⟩ := hR
    obtain ⟨V, e, hv, hGe⟩ := hG
    have one : ∀ A B : Mat 1, (A * B) 0 0 = A 0 0 * B 0 0 := by intro A B; simp [Matrix.mul_apply]
    have hU : U 0 0 * U 0 0 = 1 := by
      have := congrFun (congrFun hd.1 0) 0
      rw [one] at this
      simpa using this
    have hV : V 0 0 * V 0 0 = 1 := by
      have := congrFun (congrFun hv.1 0) 0
      rw [one] at this
      simpa using this
    have hC0 : C 0 0 = d 0 := by
      rw [hd.2, one, one]
      simp only [diagonal_apply_eq, transpose_apply]
      linear_combination d 0 * hU
    have hR0 : R 0 0 = invSqrt (C 0 0) := by
      rw [hC0, hRe, one, one]
      simp only [diagonal_apply_eq, transpose_apply]
      linear_combination invSqrt (d 0) * hU
    have hpos : 0 < C 0 0 := by rw [hC0]; exact hC.pos hd 0
    have hX : (R * Chat * R) 0 0 = e 0 := by
      rw [hv.2, one, one]
      simp only [diagonal_apply_eq, transpose_apply]
      linear_combination e 0 * hV
    have he0 : e 0 = Chat 0 0 / C 0 0 := by
      rw [← hX, one, one, hR0]
      unfold invSqrt
      have hs := Real.mul_self_sqrt hpos.le
      have hs0 : Real.sqrt (C 0 0) ≠ 0 := (Real.sqrt_pos.mpr hpos).ne'
      rw [div_eq_mul_inv, ← hs, mul_inv]
      rw [Real.sqrt_mul_self (Real.sqrt_nonneg _)]
      ring
    have hG0 : G 0 0 = g (Chat 0 0 / C 0 0) := by
      rw [← he0, hGe, one, one]
      simp only [diagonal_apply_eq, transpose_apply]
      linear_combination g (e 0) * hV
    ext a b
    obtain rfl : a = 0 := Subsingleton.elim _ _
    obtain rfl : b = 0 := Subsingleton.elim _ _
    rw [one, one, hG0]
    show (if (0 : Fin 1) = 0 ∧ (0 : Fin 1) = 0 then g (Chat 0 0 / C 0 0) * F 0 0 ^ 2 else C 0 0) = _
    rw [if_pos ⟨rfl, rfl⟩, transpose_apply]
    ring
  · rw [dif_neg h1]
    have hd := he C hC.1
    dsimp only
    generalize hU : (eigh C).2 = U at hd
    generalize hdd : (eigh C).1 = d at hd
    have hRe : R = U * diagonal (fun i => invSqrt (d i)) * Uᵀ := isFun_unique hR ⟨U, d, hd, rfl⟩
    have hrot : U * (divRoots (fun i => Real.sqrt (d i)) (Uᵀ * Chat * U) * Uᵀ) = R * Chat * R := by
      rw [divRoots_eq, hRe]
      simp only [Matrix.mul_assoc]
      rfl
    rw [hrot]
    have hRs : Rᵀ = R := by
      rw [hRe]
      simp only [transpose_mul, transpose_transpose, diagonal_transpose, Matrix.mul_assoc]
    have hsym : (R * Chat * R)ᵀ = R * Chat * R := by
      simp only [transpose_mul, hRs, hS, Matrix.mul_assoc]
    have hv := he _ hsym
    generalize (eigh (R * Chat * R)).2 = V at hv
    generalize (eigh (R * Chat * R)).1 = e at hv
    have hGe : G = V * diagonal (fun i => g (e i)) * Vᵀ := isFun_unique hG ⟨V, e, hv, rfl⟩
    rw [scaleCols_eq, hGe, transpose_mul]
    simp only [Matrix.mul_assoc]

theorem isFun_exists (f : ℝ → ℝ) {M : Mat n} (h : Mᵀ = M) : ∃ N, IsFun f M N := by
  obtain ⟨U, d, hd⟩ := Diag.exists h
  exact ⟨_, U, d, hd, rfl⟩

theorem isFun_symm {f : ℝ → ℝ} {M N : Mat n} (h : IsFun f M N) : Nᵀ = N := by
  obtain ⟨U, d, _, rfl⟩ := h
  simp only [transpose_mul, transpose_transpose, diagonal_transpose, Matrix.mul_assoc]

/-- `R = C^(-1/2)`: symmetric, invertible, `R C R = 1` -/
theorem invSqrt_spec {C R : Mat n} (hC : PD C) (hR : IsFun invSqrt C R) : Rᵀ = R ∧ R * C * R = 1 ∧ ∃ S : Mat n, R * S = 1 ∧ S * R = 1 ∧ S * S = C := by
  have hs := isFun_symm hR
  obtain ⟨U, d, hd, rfl⟩ := hR
  have hp := fun i => hC.pos hd i
  have hq : ∀ i, Real.sqrt (d i) * Real.sqrt (d i) = d i := fun i => Real.mul_self_sqrt (hp i).le
  have hq0 : ∀ i, Real.sqrt (d i) ≠ 0 := fun i => (Real.sqrt_pos.mpr (hp i)).ne'
  have comb : ∀ a b : Fin n → ℝ, (U * diagonal a * Uᵀ) * (U * diagonal b * Uᵀ) = U * diagonal (fun i => a i * b i) * Uᵀ := by
    intro a b
    calc (U * diagonal a * Uᵀ) * (U * diagonal b * Uᵀ) = U * diagonal a * (Uᵀ * U) * diagonal b * Uᵀ := by simp only [Matrix.mul_assoc]
      _ = _ := by rw [hd.1, Matrix.mul_one, Matrix.mul_assoc U, diagonal_mul_diagonal]
  have id1 : ∀ a : Fin n → ℝ, (∀ i, a i = 1) → U * diagonal a * Uᵀ = 1 := by
    intro a ha
    have : a = fun _ => 1 := funext ha
    rw [this, diagonal_one, Matrix.mul_one, hd.orth]
  refine ⟨hs, ?_, U * diagonal (fun i => Real.sqrt (d i)) * Uᵀ, ?_, ?_, ?_⟩
  · conv_lhs => rw [hd.2]
    rw [comb, comb]
    refine id1 _ fun i => ?_
    unfold invSqrt
    have := hq i
    have := hq0 i
    field_simp
    nlinarith [hq i]
  · rw [comb]
    refine id1 _ fun i => ?_
    unfold invSqrt
    exact inv_mul_cancel₀ (hq0 i)
  · rw [comb]
    refine id1 _ fun i => ?_
    unfold invSqrt
    exact mul_inv_cancel₀ (hq0 i)
  · rw [comb, hd.2]
    refine congrArg (fun x => U * diagonal x * Uᵀ) ?_
    funext i
    exact hq i

/-- C77: the transform is symmetric, and for an invertible `F` it vanishes exactly when theory and data agree -/
theorem hl_zero (eigh : Mat n → (Fin n → ℝ) × Mat n) (he : EighSpec eigh) (C Chat F F' : Mat n) (hC : PD C) (hCh : PD Chat) (hF : F * F' = 1) :
    (transform eigh C Chat F)ᵀ = transform eigh C Chat F ∧ (transform eigh C Chat F = 0 ↔ Chat = C) := by
  obtain ⟨R, hR⟩ := isFun_exists invSqrt hC.1
  obtain ⟨hRs, hRC, S, hRS, hSR, hSS⟩ := invSqrt_spec hC hR
  have hpd : PD (R * Chat * R) := by
    have := hCh.conj hRS
    rw [hRs] at this
    exact this
  obtain ⟨G, hG⟩ := isFun_exists g hpd.1
  have e := hl_spec eigh he C Chat F R G hC hCh.1 hR hG
  have hF' : F' * F = 1 := mul_eq_one_comm.mp hF
  refine ⟨by rw [e]; simp only [transpose_mul, transpose_transpose, isFun_symm hG, Matrix.mul_assoc], ?_⟩
  rw [e]
  constructor
  · intro h
    have hG0 : G = 0 := by
      calc G = (F' * F) * G * (F' * F)ᵀ := by rw [hF']; simp
        _ = F' * (F * G * Fᵀ) * F'ᵀ := by rw [transpose_mul]; simp only [Matrix.mul_assoc]
        _ = 0 := by rw [h]; simp
    obtain ⟨V, ev, hv, hGe⟩ := hG
    have hd : diagonal (fun i => g (ev i)) = (0 : Mat n) := by
      calc diagonal (fun i => g (ev i)) = (Vᵀ * V) * diagonal (fun i => g (ev i)) * (Vᵀ * V) := by rw [hv.1]; simp
        _ = Vᵀ * (V * diagonal (fun i => g (ev i)) * Vᵀ) * V := by simp only [Matrix.mul_assoc]
        _ = 0 := by rw [← hGe, hG0]; simp
    have h1 : ∀ i, ev i = 1 := by
      intro i
      have := congrFun (congrFun hd i) i
      rw [diagonal_apply_eq] at this
      exact (g_sign (hpd.pos hv i)).1.mp this
    have hone : R * Chat * R = 1 := by
      rw [hv.2]
      have : ev = fun _ => 1 := funext h1
      rw [this, diagonal_one, Matrix.mul_one, hv.orth]
    calc Chat = (S * R) * Chat * (R * S) := by rw [hSR, hRS]; simp
      _ = S * (R * Chat * R) * S := by simp only [Matrix.mul_assoc]
      _ = C := by rw [hone, Matrix.mul_one, hSS]
  · rintro rfl
    have h1 : IsFun g (R * Chat * R) (0 : Mat n) := by
      rw [hRC]
      refine ⟨1, fun _ => 1, ⟨by simp, by simp⟩, ?_⟩
      have : (fun _ : Fin n => g 1) = fun _ => 0 := by funext; exact (g_sign one_pos).1.mpr rfl
      simp [this]
    rw [isFun_unique hG h1]
    simp

/-! ## The exact likelihood (C76) -/

/-- C76: with `n` maps the exact likelihood is the sum of `x - 1 - log x` over the eigenvalues of `C^(-1/2) Chat C^(-1/2)` -/
theorem exact_sum (fsky : ℝ) (C Chat R V : Mat n) (e : Fin n → ℝ) (L : ℕ) (hC : PD C) (hCh : PD Chat) (hR : IsFun invSqrt C R)
    (hv : Diag (R * Chat * R) V e) : exactChi fsky C Chat L = (2 * L + 1) * fsky * ∑ i, (e i - 1 - Real.log (e i)) := by
  obtain ⟨hRs, hRC, S, hRS, hSR, hSS⟩ := invSqrt_spec hC hR
  have hinv : C⁻¹ = R * R := by
    refine inv_eq_left_inv ?_
    calc R * R * C = R * R * (S * S) := by rw [hSS]
      _ = R * (R * S) * S := by simp only [Matrix.mul_assoc]
      _ = 1 := by rw [hRS, Matrix.mul_one, hRS]
  have hpd : PD (R * Chat * R) := by
    have := hCh.conj hRS
    rw [hRs] at this
    exact this
  have hpos := fun i => hpd.pos hv i
  have htr : trace (C⁻¹ * Chat) = ∑ i, e i := by
    rw [hinv, Matrix.mul_assoc, trace_mul_comm, hv.2, trace_mul_comm, ← Matrix.mul_assoc, hv.1, Matrix.one_mul, trace_diagonal]
  have hdet : det (C⁻¹ * Chat) = ∏ i, e i := by
    have h1 : det (C⁻¹ * Chat) = det (R * Chat * R) := by
      rw [hinv]
      simp only [det_mul]
      ring
    have h2 : det V * det V = 1 := by
      have := congrArg det hv.1
      rwa [det_mul, det_transpose, det_one] at this
    rw [h1, hv.2, det_mul, det_mul, det_diagonal, det_transpose]
    linear_combination (∏ i, e i) * h2
  have hmain : trace (C⁻¹ * Chat) - n - Real.log |det (C⁻¹ * Chat)| = ∑ i, (e i - 1 - Real.log (e i)) := by
    rw [htr, hdet, Real.log_abs, Real.log_prod (fun i _ => (hpos i).ne')]
    simp [Finset.sum_sub_distrib]
  unfold exactChi
  by_cases h1 : n = 1
  · rw [dif_pos h1, ← hmain]
    subst h1
    have hc : C 0 0 ≠ 0 := by
      have := hC.2 (fun _ => 1) (by intro h; have := congrFun h 0; simp at this)
      simp [Matrix.mulVec, dotProduct] at this
      exact this.ne'
    have h0 : (C⁻¹ * Chat) 0 0 = Chat 0 0 / C 0 0 := by
      have hu : IsUnit C.det := by
        rw [isUnit_iff_ne_zero]
        simpa using hc
      have := congrFun (congrFun (mul_nonsing_inv C hu) 0) 0
      simp only [Matrix.mul_apply, Finset.univ_unique, Fin.default_eq_zero, Finset.sum_singleton, one_apply_eq] at this ⊢
      field_simp
      linear_combination Chat 0 0 * this
    rw [trace_fin_one, det_fin_one, h0, Real.log_abs]
    simp
  · rw [dif_neg h1]
    dsimp only
    rw [hmain]

/-- C76: the exact likelihood is not negative, and zero only when theory and data agree -/
theorem exact_nonneg (fsky : ℝ) (hf : 0 < fsky) (C Chat : Mat n) (L : ℕ) (hC : PD C) (hCh : PD Chat) :
    0 ≤ exactChi fsky C Chat L ∧ (exactChi fsky C Chat L = 0 ↔ Chat = C) := by
  obtain ⟨R, hR⟩ := isFun_exists invSqrt hC.1
  obtain ⟨hRs, hRC, S, hRS, hSR, hSS⟩ := invSqrt_spec hC hR
  have hpd : PD (R * Chat * R) := by
    have := hCh.conj hRS
    rw [hRs] at this
    exact this
  obtain ⟨V, e, hv⟩ := Diag.exists hpd.1
  have hpos := fun i => hpd.pos hv i
  have hfac : 0 < (2 * (L : ℝ) + 1) * fsky := by positivity
  have hterm : ∀ i ∈ Finset.univ, 0 ≤ e i - 1 - Real.log (e i) := fun i _ => by
    have := log_le (hpos i)
    linarith
  rw [exact_sum fsky C Chat R V e L hC hCh hR hv]
  refine ⟨mul_nonneg hfac.le (Finset.sum_nonneg hterm), ?_⟩
  rw [mul_eq_zero, or_iff_right hfac.ne', Finset.sum_eq_zero_iff_of_nonneg hterm]
  constructor
  · intro h
    have h1 : ∀ i, e i = 1 := by
      intro i
      by_contra hne
      have h2 := log_lt (hpos i) hne
      have := h i (Finset.mem_univ i)
      linarith
    have hone : R * Chat * R = 1 := by
      rw [hv.2]
      have : e = fun _ => 1 := funext h1
      rw [this, diagonal_one, Matrix.mul_one, hv.orth]
    calc Chat = (S * R) * Chat * (R * S) := by rw [hSR, hRS]; simp
      _ = S * (R * Chat * R) * S := by simp only [Matrix.mul_assoc]
      _ = C := by rw [hone, Matrix.mul_one, hSS]
  · rintro rfl i _
    have hd : diagonal e = (1 : Mat n) := by
      calc diagonal e = (Vᵀ * V) * diagonal e * (Vᵀ * V) := by rw [hv.1]; simp
        _ = Vᵀ * (V * diagonal e * Vᵀ) * V := by simp only [Matrix.mul_assoc]
        _ = 1 := by rw [← hv.2, hRC, Matrix.mul_one, hv.1]
    have : e i = 1 := by
      have := congrFun (congrFun hd i) i
      rwa [diagonal_apply_eq, one_apply_eq] at this
    rw [this]
    simp

/-- positive matrices exist in every size -/
theorem pd_one : PD (1 : Mat n) := by
  refine ⟨transpose_one, fun x hx => ?_⟩
  rw [one_mulVec]
  obtain ⟨i, hi⟩ : ∃ i, x i ≠ 0 := by
    by_contra h
    push Not at h
    exact hx (funext h)
  exact Finset.sum_pos' (fun j _ => mul_self_nonneg _) ⟨i, Finset.mem_univ i, mul_self_pos.mpr hi⟩

theorem PD.smul {M : Mat n} (h : PD M) {c : ℝ} (hc : 0 < c) : PD (c • M) := by
  refine ⟨by rw [transpose_smul, h.1], fun x hx => ?_⟩
  rw [smul_mulVec, dotProduct_smul, smul_eq_mul]
  exact mul_pos hc (h.2 x hx)

/-- data twice the theory, two maps -/
example (fsky : ℝ) (hf : 0 < fsky) : 0 < exactChi fsky (1 : Mat 2) ((2 : ℝ) • 1) 5 := by
  obtain ⟨h1, h2⟩ := exact_nonneg fsky hf (1 : Mat 2) ((2 : ℝ) • 1) 5 pd_one (pd_one.smul two_pos)
  refine lt_of_le_of_ne h1 (fun e => ?_)
  have := congrFun (congrFun (h2.mp e.symm) 0) 0
  norm_num at this

example : exactChi 1 (1 : Mat 2) 1 7 = 0 := ((exact_nonneg 1 one_pos 1 1 7 pd_one pd_one).2).mpr rfl

end Verif.CMBlikes.HL
