import Verif.Model.GelmanRubin
import Verif.Props.CMBlikesHL
import Mathlib.LinearAlgebra.Matrix.Charpoly.Basic
import Mathlib.Algebra.Polynomial.Roots
import Mathlib.Data.List.Sort

/-!
# C83: the convergence of several chains
-/

namespace Verif.GelmanRubin
open Matrix
open Verif.CMBlikes.HL (Mat Diag EighSpec PD quad_conj mulVec_ne)

variable {m p : Nat}

/-! ## Specification: variances of functions of the parameters, within and between chains -/

/-- weighted mean of a function over a chain -/
noncomputable def wmean (f : (Fin m → ℝ) → ℝ) (c : Chain m) : ℝ := (c.map (fun r => r.1 * f r.2)).sum / (c.map (fun r => r.1)).sum
/-- weighted covariance of two functions over a chain -/
noncomputable def wcov (f g : (Fin m → ℝ) → ℝ) (c : Chain m) : ℝ :=
  (c.map (fun r => r.1 * ((f r.2 - wmean f c) * (g r.2 - wmean g c)))).sum / (c.map (fun r => r.1)).sum
/-- mean over the chains of the covariance in the chain -/
noncomputable def within (f g : (Fin m → ℝ) → ℝ) (chains : List (Chain m)) : ℝ := (chains.map (wcov f g)).sum / chains.length
/-- covariance of the means of the chains -/
noncomputable def between (f g : (Fin m → ℝ) → ℝ) (chains : List (Chain m)) : ℝ :=
  (chains.map (fun c => (wmean f c - wmean f chains.flatten) * (wmean g c - wmean g chains.flatten))).sum / (chains.length - 1)

/-- a linear combination of the first parameters -/
def comb (h : p ≤ m) (v : Fin p → ℝ) (x : Fin m → ℝ) : ℝ := ∑ i, v i * x (Fin.castLE h i)

/-- `D` are the ratios of the variances of independent combinations, uncorrelated within chains and of means uncorrelated between chains -/
def IsSpectrum (h : p ≤ m) (chains : List (Chain m)) (D : Fin p → ℝ) : Prop :=
  ∃ V : Fin p → Fin p → ℝ, ∀ i j, within (comb h (V i)) (comb h (V j)) chains = (if i = j then 1 else 0) ∧
    between (comb h (V i)) (comb h (V j)) chains = (if i = j then D i else 0)

/-- weights are not negative, and each chain has some -/
def Weighted (chains : List (Chain m)) : Prop := ∀ c ∈ chains, (∀ r ∈ c, 0 ≤ r.1) ∧ 0 < (c.map (fun r => r.1)).sum

/-- what numpy documents of `eigvalsh` -/
def EigvalsSpec (f : Mat p → (Fin p → ℝ)) : Prop := ∀ M : Mat p, Mᵀ = M → Monotone (f M) ∧ ∃ U, Diag M U (f M)

/-! ## list sums -/

theorem sum_map_mul (c : ℝ) {α : Type} (f : α → ℝ) (l : List α) : (l.map (fun x => c * f x)).sum = c * (l.map f).sum := by
  induction l with
  | nil => simp
  | cons a l ih => simp [ih, mul_add]

theorem sum_map_add {α : Type} (f g : α → ℝ) (l : List α) : (l.map (fun x => f x + g x)).sum = (l.map f).sum + (l.map g).sum := by
  induction l with
  | nil => simp
  | cons a l ih => simp [ih]; ring

theorem sum_map_fin {α : Type} (f : Fin p → α → ℝ) (l : List α) : (l.map (fun x => ∑ i, f i x)).sum = ∑ i, (l.map (f i)).sum := by
  induction l with
  | nil => simp
  | cons a l ih => simp [ih, Finset.sum_add_distrib]

theorem sum_nonneg' {α : Type} (f : α → ℝ) (l : List α) (h : ∀ a ∈ l, 0 ≤ f a) : 0 ≤ (l.map f).sum := by
  induction l with
  | nil => simp
  | cons a l ih =>
    have := ih (fun b hb => h b (by simp [hb]))
    have := h a (by simp)
    simp; linarith

theorem sum_zero' {α : Type} (f : α → ℝ) (l : List α) (h : ∀ a ∈ l, 0 ≤ f a) : (l.map f).sum = 0 ↔ ∀ a ∈ l, f a = 0 := by
  induction l with
  | nil => simp
  | cons a l ih =>
    have h1 := sum_nonneg' f l (fun b hb => h b (by simp [hb]))
    have h2 := h a (by simp)
    have ih := ih (fun b hb => h b (by simp [hb]))
    simp only [List.map_cons, List.sum_cons, List.mem_cons, forall_eq_or_imp]
    rw [← ih]
    constructor
    · intro e; constructor <;> linarith
    · rintro ⟨e1, e2⟩; linarith

theorem wmean_add_const (f : (Fin m → ℝ) → ℝ) (k : ℝ) (c : Chain m) (h : (c.map (fun r => r.1)).sum ≠ 0) :
    wmean (fun x => f x + k) c = wmean f c + k := by
  unfold wmean
  have : (fun r : Row m => r.1 * (f r.2 + k)) = fun r => r.1 * f r.2 + k * r.1 := by funext r; ring
  rw [this, sum_map_add, sum_map_mul]
  field_simp

theorem wmean_comb (h : p ≤ m) (v : Fin p → ℝ) (c : Chain m) : wmean (comb h v) c = ∑ i, v i * means c (Fin.castLE h i) := by
  unfold wmean comb means norm
  have : (fun r : Row m => r.1 * ∑ i, v i * r.2 (Fin.castLE h i)) = fun r => ∑ i, v i * (r.1 * r.2 (Fin.castLE h i)) := by
    funext r; rw [Finset.mul_sum]; exact Finset.sum_congr rfl (fun i _ => by ring)
  rw [this, sum_map_fin, Finset.sum_div]
  refine Finset.sum_congr rfl (fun i _ => ?_)
  rw [sum_map_mul]; ring

/-! ## the matrices are those of the specification -/

theorem foldl_add {α : Type} (f : α → Mat p) (l : List α) (a : Mat p) : l.foldl (fun a c => a + f c) a = a + (l.map f).sum := by
  induction l generalizing a with
  | nil => simp
  | cons b l ih => simp [ih, add_assoc]

theorem dot_sum {α : Type} (f : α → Mat p) (l : List α) (v u : Fin p → ℝ) : v ⬝ᵥ ((l.map f).sum *ᵥ u) = (l.map (fun c => v ⬝ᵥ (f c *ᵥ u))).sum := by
  induction l with
  | nil => simp
  | cons b l ih => simp [add_mulVec, ih]

theorem cov_eq (c : Chain m) (i j : Fin m) : cov c i j = (c.map (fun r => r.1 * ((r.2 i - means c i) * (r.2 j - means c j)))).sum / norm c := by
  unfold cov
  simp only [of_apply]
  congr 1
  split
  · congr 1; congr 1; funext r; ring
  · congr 1; congr 1; funext r; ring

theorem dot_cov (h : p ≤ m) (c : Chain m) (v u : Fin p → ℝ) : v ⬝ᵥ (firstM h (cov c) *ᵥ u) = wcov (comb h v) (comb h u) c := by
  unfold wcov
  have e : (fun r : Row m => r.1 * ((comb h v r.2 - wmean (comb h v) c) * (comb h u r.2 - wmean (comb h u) c))) =
      fun r => ∑ i, ∑ j, v i * u j * (r.1 * ((r.2 (Fin.castLE h i) - means c (Fin.castLE h i)) * (r.2 (Fin.castLE h j) - means c (Fin.castLE h j)))) := by
    funext r
    rw [wmean_comb, wmean_comb]
    unfold comb
    rw [← Finset.sum_sub_distrib, ← Finset.sum_sub_distrib, Finset.sum_mul_sum, Finset.mul_sum]
    refine Finset.sum_congr rfl (fun i _ => ?_)
    rw [Finset.mul_sum]
    exact Finset.sum_congr rfl (fun j _ => by ring)
  rw [e, sum_map_fin, Finset.sum_div]
  simp only [dotProduct, mulVec, firstM, of_apply]
  refine Finset.sum_congr rfl (fun i _ => ?_)
  rw [sum_map_fin, Finset.sum_div, Finset.mul_sum]
  refine Finset.sum_congr rfl (fun j _ => ?_)
  rw [sum_map_mul, cov_eq]
  unfold norm
  ring

theorem dot_meanCov (h : p ≤ m) (chains : List (Chain m)) (v u : Fin p → ℝ) :
    v ⬝ᵥ (meanCov h chains *ᵥ u) = within (comb h v) (comb h u) chains := by
  unfold meanCov within
  rw [foldl_add, zero_add, smul_mulVec, dotProduct_smul, dot_sum, smul_eq_mul]
  have : (fun c : Chain m => v ⬝ᵥ (firstM h (cov c) *ᵥ u)) = wcov (comb h v) (comb h u) := by funext c; exact dot_cov h c v u
  rw [this]; ring

theorem dot_meansCov (h : p ≤ m) (chains : List (Chain m)) (v u : Fin p → ℝ) :
    v ⬝ᵥ (meansCov h chains *ᵥ u) = between (comb h v) (comb h u) chains := by
  unfold meansCov between
  rw [foldl_add, zero_add, smul_mulVec, dotProduct_smul, dot_sum, smul_eq_mul]
  have : (fun c : Chain m => v ⬝ᵥ (vecMulVec (firstV h (means c) - firstV h (means chains.flatten)) (firstV h (means c) - firstV h (means chains.flatten)) *ᵥ u)) =
      fun c => (wmean (comb h v) c - wmean (comb h v) chains.flatten) * (wmean (comb h u) c - wmean (comb h u) chains.flatten) := by
    funext c
    have e : ∀ w : Fin p → ℝ, (firstV h (means c) - firstV h (means chains.flatten)) ⬝ᵥ w = wmean (comb h w) c - wmean (comb h w) chains.flatten := by
      intro w
      rw [wmean_comb, wmean_comb, ← Finset.sum_sub_distrib]
      simp only [dotProduct, firstV, Pi.sub_apply]
      exact Finset.sum_congr rfl (fun i _ => by ring)
    rw [vecMulVec_mulVec, ← e, ← e]
    simp [dotProduct_comm]
  rw [this]; ring

theorem wcov_comm (f g : (Fin m → ℝ) → ℝ) (c : Chain m) : wcov f g c = wcov g f c := by
  unfold wcov
  congr 2
  apply List.map_congr_left
  intro r _; ring

theorem symm_of_dot {M : Mat p} (h : ∀ v u, v ⬝ᵥ (M *ᵥ u) = u ⬝ᵥ (M *ᵥ v)) : Mᵀ = M := by
  ext i j
  have := h (Pi.single j 1) (Pi.single i 1)
  simpa using this

theorem meanCov_symm (h : p ≤ m) (chains : List (Chain m)) : (meanCov h chains)ᵀ = meanCov h chains := by
  apply symm_of_dot
  intro v u
  rw [dot_meanCov, dot_meanCov]
  unfold within
  congr 2
  exact List.map_congr_left (fun c _ => wcov_comm _ _ c)

theorem meansCov_symm (h : p ≤ m) (chains : List (Chain m)) : (meansCov h chains)ᵀ = meansCov h chains := by
  apply symm_of_dot
  intro v u
  rw [dot_meansCov, dot_meansCov]
  unfold between
  congr 2
  exact List.map_congr_left (fun c _ => mul_comm _ _)

/-! ## positive variances -/

theorem wcov_nonneg (f : (Fin m → ℝ) → ℝ) (c : Chain m) (hc : ∀ r ∈ c, 0 ≤ r.1) (hn : 0 < (c.map (fun r => r.1)).sum) : 0 ≤ wcov f f c := by
  unfold wcov
  exact div_nonneg (sum_nonneg' _ _ (fun r hr => mul_nonneg (hc r hr) (mul_self_nonneg _))) hn.le

theorem within_nonneg (f : (Fin m → ℝ) → ℝ) (chains : List (Chain m)) (h : Weighted chains) : 0 ≤ within f f chains := by
  unfold within
  exact div_nonneg (sum_nonneg' _ _ (fun c hc => wcov_nonneg f c (h c hc).1 (h c hc).2)) (Nat.cast_nonneg _)

theorem between_nonneg (f : (Fin m → ℝ) → ℝ) (chains : List (Chain m)) (h : 1 ≤ chains.length) : 0 ≤ between f f chains := by
  unfold between
  refine div_nonneg (sum_nonneg' _ _ (fun c _ => mul_self_nonneg _)) ?_
  have : (1 : ℝ) ≤ chains.length := by exact_mod_cast h
  linarith

/-- constant within each chain, where there is weight -/
def Constant (f : (Fin m → ℝ) → ℝ) (chains : List (Chain m)) : Prop := ∀ c ∈ chains, ∃ k, ∀ r ∈ c, r.1 ≠ 0 → f r.2 = k

theorem within_zero (f : (Fin m → ℝ) → ℝ) (chains : List (Chain m)) (h : Weighted chains) (hne : chains ≠ []) :
    within f f chains = 0 ↔ Constant f chains := by
  have hlen : (chains.length : ℝ) ≠ 0 := by
    have := List.length_pos_of_ne_nil hne
    exact_mod_cast this.ne'
  unfold within Constant
  rw [div_eq_zero_iff, or_iff_left hlen, sum_zero' _ _ (fun c hc => wcov_nonneg f c (h c hc).1 (h c hc).2)]
  refine forall_congr' (fun c => forall_congr' (fun hc => ?_))
  obtain ⟨h1, h2⟩ := h c hc
  unfold wcov
  rw [div_eq_zero_iff, or_iff_left h2.ne', sum_zero' _ _ (fun r hr => mul_nonneg (h1 r hr) (mul_self_nonneg _))]
  constructor
  · intro e
    refine ⟨wmean f c, fun r hr hw => ?_⟩
    rcases mul_eq_zero.mp (e r hr) with e | e
    · exact absurd e hw
    · have := mul_self_eq_zero.mp e; linarith
  · rintro ⟨k, hk⟩
    have hm : wmean f c = k := by
      unfold wmean
      have : c.map (fun r => r.1 * f r.2) = c.map (fun r => k * r.1) := by
        apply List.map_congr_left
        intro r hr
        by_cases hw : r.1 = 0
        · rw [hw]; ring
        · rw [hk r hr hw]; ring
      rw [this, sum_map_mul]
      field_simp
    intro r hr
    by_cases hw : r.1 = 0
    · rw [hw]; ring
    · rw [hk r hr hw, hm]; ring

/-! ## what is returned -/

theorem diag_pd {M U : Mat p} {d : Fin p → ℝ} (h : Diag M U d) (hd : ∀ i, 0 < d i) : PD M := by
  refine ⟨h.symm, fun x hx => ?_⟩
  rw [h.2, quad_conj]
  have hy : Uᵀ *ᵥ x ≠ 0 := mulVec_ne h.orth hx
  set y := Uᵀ *ᵥ x
  obtain ⟨i, hi⟩ : ∃ i, y i ≠ 0 := by
    by_contra hc
    push Not at hc
    exact hy (funext hc)
  simp only [dotProduct, mulVec_diagonal]
  refine Finset.sum_pos' (fun j _ => ?_) ⟨i, Finset.mem_univ _, ?_⟩
  · have := mul_self_nonneg (y j); have := hd j
    calc 0 ≤ d j * (y j * y j) := mul_nonneg this.le (by assumption)
      _ = _ := by ring
  · have := mul_self_pos.mpr hi
    calc 0 < d i * (y i * y i) := mul_pos (hd i) this
      _ = _ := by ring

/-- the columns of `U` as combinations -/
theorem entry_dot (U A : Mat p) (i j : Fin p) : (Uᵀ * A * U) i j = (fun k => U k i) ⬝ᵥ (A *ᵥ (fun k => U k j)) := by
  rw [Matrix.mul_assoc, Matrix.mul_apply]
  rfl

theorem gram_spectrum (h : p ≤ m) (chains : List (Chain m)) (V : Mat p) (D : Fin p → ℝ) (h1 : Vᵀ * meanCov h chains * V = 1)
    (h2 : Vᵀ * meansCov h chains * V = diagonal D) : IsSpectrum h chains D := by
  refine ⟨fun i k => V k i, fun i j => ⟨?_, ?_⟩⟩
  · rw [← dot_meanCov, ← entry_dot, h1, one_apply]
  · rw [← dot_meansCov, ← entry_dot, h2, diagonal_apply]

theorem spectrum_gram (h : p ≤ m) (chains : List (Chain m)) (D : Fin p → ℝ) (hs : IsSpectrum h chains D) :
    ∃ V : Mat p, Vᵀ * meanCov h chains * V = 1 ∧ Vᵀ * meansCov h chains * V = diagonal D := by
  obtain ⟨V, hV⟩ := hs
  refine ⟨Matrix.of fun k i => V i k, ?_, ?_⟩
  · ext i j
    rw [entry_dot, one_apply, dot_meanCov]
    exact (hV i j).1
  · ext i j
    rw [entry_dot, diagonal_apply, dot_meansCov]
    exact (hV i j).2

/-- **C83** The values returned are in increasing order, and are the ratios of the variance of the chain means to the mean variance, for
combinations of the parameters that are uncorrelated in both. -/
theorem gr_spec (h : p ≤ m) (eigh : Mat p → (Fin p → ℝ) × Mat p) (eigvalsh : Mat p → (Fin p → ℝ)) (he : EighSpec eigh) (hv : EigvalsSpec eigvalsh)
    (chains : List (Chain m)) (D : Fin p → ℝ) (hr : eigenvalues h eigh eigvalsh chains = .ok (some D)) : Monotone D ∧ IsSpectrum h chains D := by
  unfold eigenvalues at hr
  split at hr
  · cases hr
  split at hr
  · cases hr
  dsimp only at hr
  split at hr
  · rename_i hpos
    have hd := he _ (meanCov_symm h chains)
    set w := (eigh (meanCov h chains)).1
    set Q := (eigh (meanCov h chains)).2
    set U : Mat p := Matrix.of fun i j => Q i j / Real.sqrt (w j) with hU
    have hUd : U = Q * diagonal (fun j => (Real.sqrt (w j))⁻¹) := by
      ext i j; rw [mul_diagonal, hU]; simp [div_eq_mul_inv]
    have h1 : Uᵀ * meanCov h chains * U = 1 := by
      conv_lhs => rw [hd.2]
      rw [hUd, transpose_mul, diagonal_transpose]
      calc diagonal (fun j => (Real.sqrt (w j))⁻¹) * Qᵀ * (Q * diagonal w * Qᵀ) * (Q * diagonal (fun j => (Real.sqrt (w j))⁻¹))
          = diagonal (fun j => (Real.sqrt (w j))⁻¹) * (Qᵀ * Q) * diagonal w * (Qᵀ * Q) * diagonal (fun j => (Real.sqrt (w j))⁻¹) := by
            simp only [Matrix.mul_assoc]
        _ = 1 := by
          rw [hd.1, Matrix.mul_one, Matrix.mul_one, diagonal_mul_diagonal, diagonal_mul_diagonal]
          have : (fun i => (Real.sqrt (w i))⁻¹ * w i * (Real.sqrt (w i))⁻¹) = fun _ => (1 : ℝ) := by
            funext i
            have h1 := Real.sqrt_pos.mpr (hpos i)
            have h2 := Real.mul_self_sqrt (hpos i).le
            field_simp
            nlinarith
          rw [this, diagonal_one]
    have hsym : (Uᵀ * meansCov h chains * U)ᵀ = Uᵀ * meansCov h chains * U := by
      simp only [transpose_mul, transpose_transpose, meansCov_symm, Matrix.mul_assoc]
    obtain ⟨hmono, W, hW⟩ := hv _ hsym
    have hD : D = eigvalsh (Uᵀ * meansCov h chains * U) := by
      injection hr with hr; injection hr with hr; exact hr.symm
    rw [← hD] at hmono hW
    refine ⟨hmono, gram_spectrum h chains (U * W) D ?_ ?_⟩
    · rw [transpose_mul]
      calc Wᵀ * Uᵀ * meanCov h chains * (U * W) = Wᵀ * (Uᵀ * meanCov h chains * U) * W := by simp only [Matrix.mul_assoc]
        _ = 1 := by rw [h1, Matrix.mul_one, hW.1]
    · rw [transpose_mul]
      calc Wᵀ * Uᵀ * meansCov h chains * (U * W) = Wᵀ * (Uᵀ * meansCov h chains * U) * W := by simp only [Matrix.mul_assoc]
        _ = Wᵀ * (W * diagonal D * Wᵀ) * W := by rw [← hW.2]
        _ = (Wᵀ * W) * diagonal D * (Wᵀ * W) := by simp only [Matrix.mul_assoc]
        _ = _ := by rw [hW.1, Matrix.one_mul, Matrix.mul_one]
  · cases hr

/-- **C83** There is at most one such list of values. -/
theorem spectrum_unique (h : p ≤ m) (chains : List (Chain m)) (D E : Fin p → ℝ) (hD : Monotone D) (hE : Monotone E) (h1 : IsSpectrum h chains D)
    (h2 : IsSpectrum h chains E) : D = E := by
  have key : ∀ D : Fin p → ℝ, IsSpectrum h chains D → ∀ V', V' * meanCov h chains = 1 →
      (V' * meansCov h chains).charpoly = (Multiset.map (fun a => Polynomial.X - Polynomial.C a) (Multiset.ofList (List.ofFn D))).prod := by
    intro D hD V' hV'
    obtain ⟨V, a, b⟩ := spectrum_gram h chains D hD
    have hinv : V * Vᵀ = V' := by
      have e1 : Vᵀ * (meanCov h chains * V) = 1 := by rw [← Matrix.mul_assoc]; exact a
      have e2 : (meanCov h chains * V) * Vᵀ = 1 := mul_eq_one_comm.mp e1
      have e3 : meanCov h chains * (V * Vᵀ) = 1 := by rw [← Matrix.mul_assoc]; exact e2
      calc V * Vᵀ = (V' * meanCov h chains) * (V * Vᵀ) := by rw [hV', Matrix.one_mul]
        _ = V' * (meanCov h chains * (V * Vᵀ)) := by rw [Matrix.mul_assoc]
        _ = V' := by rw [e3, Matrix.mul_one]
    rw [← hinv, Matrix.mul_assoc, charpoly_mul_comm, b, charpoly_diagonal]
    simp [List.prod_ofFn, List.map_ofFn, Function.comp_def]
  obtain ⟨V, a, _⟩ := spectrum_gram h chains D h1
  have e1 : Vᵀ * (meanCov h chains * V) = 1 := by rw [← Matrix.mul_assoc]; exact a
  have e2 : V * Vᵀ * meanCov h chains = 1 := by
    apply mul_eq_one_comm.mp
    rw [← Matrix.mul_assoc]
    exact mul_eq_one_comm.mp e1
  have := (key D h1 _ e2).symm.trans (key E h2 _ e2)
  have := congrArg Polynomial.roots this
  rw [Polynomial.roots_multiset_prod_X_sub_C, Polynomial.roots_multiset_prod_X_sub_C] at this
  have hp := Multiset.coe_eq_coe.mp this
  have := hp.eq_of_sortedLE (List.sortedLE_ofFn_iff.mpr hD) (List.sortedLE_ofFn_iff.mpr hE)
  exact List.ofFn_injective this

/-- **C83** No values are returned exactly if some combination of the parameters is constant within every chain. -/
theorem gr_none (h : p ≤ m) (hp : p ≠ 0) (eigh : Mat p → (Fin p → ℝ) × Mat p) (eigvalsh : Mat p → (Fin p → ℝ)) (he : EighSpec eigh)
    (chains : List (Chain m)) (hw : Weighted chains) (hlen : 2 ≤ chains.length) :
    (∃ D, eigenvalues h eigh eigvalsh chains = .ok D) ∧
    (eigenvalues h eigh eigvalsh chains = .ok none ↔ ∃ v : Fin p → ℝ, v ≠ 0 ∧ Constant (comb h v) chains) := by
  have hne : chains ≠ [] := by rintro rfl; simp at hlen
  have hd := he _ (meanCov_symm h chains)
  have hpd : (∀ i, 0 < (eigh (meanCov h chains)).1 i) ↔ ¬ ∃ v : Fin p → ℝ, v ≠ 0 ∧ Constant (comb h v) chains := by
    constructor
    · rintro hpos ⟨v, hv, hc⟩
      have := (diag_pd hd hpos).2 v hv
      rw [dot_meanCov, (within_zero _ _ hw hne).mpr hc] at this
      exact lt_irrefl _ this
    · intro hno
      have : PD (meanCov h chains) := by
        refine ⟨meanCov_symm h chains, fun x hx => ?_⟩
        rw [dot_meanCov]
        refine lt_of_le_of_ne (within_nonneg _ _ hw) (fun e => hno ⟨x, hx, (within_zero _ _ hw hne).mp e.symm⟩)
      exact fun i => this.pos hd i
  unfold eigenvalues
  rw [if_neg (by omega), if_neg hp]
  dsimp only
  by_cases hpos : ∀ i, 0 < (eigh (meanCov h chains)).1 i
  · rw [if_pos hpos]
    refine ⟨⟨_, rfl⟩, ?_⟩
    constructor
    · intro e; injection e with e; cases e
    · intro e; exact absurd e (hpd.mp hpos)
  · rw [if_neg hpos]
    refine ⟨⟨_, rfl⟩, ?_⟩
    constructor
    · intro _; by_contra hc; exact hpos (hpd.mpr hc)
    · intro _; rfl

/-- **C83** The result does not depend on the eigenvectors the library chooses. -/
theorem gr_library (h : p ≤ m) (eigh eigh' : Mat p → (Fin p → ℝ) × Mat p) (eigvalsh eigvalsh' : Mat p → (Fin p → ℝ)) (he : EighSpec eigh)
    (he' : EighSpec eigh') (hv : EigvalsSpec eigvalsh) (hv' : EigvalsSpec eigvalsh') (chains : List (Chain m)) (hw : Weighted chains) :
    eigenvalues h eigh eigvalsh chains = eigenvalues h eigh' eigvalsh' chains := by
  by_cases hlen : 2 ≤ chains.length
  · by_cases hp : p = 0
    · unfold eigenvalues
      rw [if_neg (by omega), if_pos hp, if_neg (by omega), if_pos hp]
    obtain ⟨⟨D, hD⟩, hn⟩ := gr_none h hp eigh eigvalsh he chains hw hlen
    obtain ⟨⟨E, hE⟩, hn'⟩ := gr_none h hp eigh' eigvalsh' he' chains hw hlen
    have hiff := hn.trans hn'.symm
    cases D with
    | none => rw [hD, hiff.mp hD]
    | some D =>
      cases E with
      | none => rw [hE, hiff.mpr hE]
      | some E =>
        obtain ⟨m1, s1⟩ := gr_spec h eigh eigvalsh he hv chains D hD
        obtain ⟨m2, s2⟩ := gr_spec h eigh' eigvalsh' he' hv' chains E hE
        rw [hD, hE, spectrum_unique h chains D E m1 m2 s1 s2]
  · unfold eigenvalues
    rw [if_pos (by omega), if_pos (by omega)]

/-! ## change of parameters -/

/-- the chains after a change of the parameters -/
def changed (T : (Fin m → ℝ) → (Fin m → ℝ)) (chains : List (Chain m)) : List (Chain m) := chains.map (fun c => c.map (fun r => (r.1, T r.2)))

theorem wsum_changed (T : (Fin m → ℝ) → (Fin m → ℝ)) (c : Chain m) (f : Row m → ℝ) :
    ((c.map (fun r => (r.1, T r.2))).map f).sum = (c.map (fun r => f (r.1, T r.2))).sum := by
  rw [List.map_map]; rfl

theorem wmean_changed (T : (Fin m → ℝ) → (Fin m → ℝ)) (c : Chain m) (f : (Fin m → ℝ) → ℝ) : wmean f (c.map (fun r => (r.1, T r.2))) = wmean (f ∘ T) c := by
  unfold wmean; rw [wsum_changed, wsum_changed]; rfl

theorem wcov_changed (T : (Fin m → ℝ) → (Fin m → ℝ)) (c : Chain m) (f g : (Fin m → ℝ) → ℝ) : wcov f g (c.map (fun r => (r.1, T r.2))) = wcov (f ∘ T) (g ∘ T) c := by
  unfold wcov; rw [wmean_changed, wmean_changed, wsum_changed, wsum_changed]; rfl

theorem flatten_changed (T : (Fin m → ℝ) → (Fin m → ℝ)) (chains : List (Chain m)) :
    (changed T chains).flatten = chains.flatten.map (fun r => (r.1, T r.2)) := by
  unfold changed; rw [List.map_flatten]

theorem within_changed (T : (Fin m → ℝ) → (Fin m → ℝ)) (chains : List (Chain m)) (f g : (Fin m → ℝ) → ℝ) :
    within f g (changed T chains) = within (f ∘ T) (g ∘ T) chains := by
  unfold within changed
  rw [List.map_map, List.length_map]
  congr 2
  exact List.map_congr_left (fun c _ => wcov_changed T c f g)

theorem between_changed (T : (Fin m → ℝ) → (Fin m → ℝ)) (chains : List (Chain m)) (f g : (Fin m → ℝ) → ℝ) :
    between f g (changed T chains) = between (f ∘ T) (g ∘ T) chains := by
  unfold between
  rw [flatten_changed, wmean_changed, wmean_changed]
  unfold changed
  rw [List.map_map, List.length_map]
  congr 2
  refine List.map_congr_left (fun c _ => ?_)
  simp only [Function.comp_apply]
  rw [wmean_changed, wmean_changed]

theorem norm_flatten (chains : List (Chain m)) (h : Weighted chains) (hne : chains ≠ []) : 0 < (chains.flatten.map (fun r => r.1)).sum := by
  have hnn : ∀ l : List (Chain m), Weighted l → 0 ≤ (l.flatten.map (fun r => r.1)).sum := by
    intro l hl
    apply sum_nonneg'
    intro r hr
    obtain ⟨c, hc, hrc⟩ := List.mem_flatten.mp hr
    exact (hl c hc).1 r hrc
  cases chains with
  | nil => exact absurd rfl hne
  | cons c l =>
    have h1 := (h c (by simp)).2
    have h2 := hnn l (fun d hd => h d (by simp [hd]))
    simp only [List.flatten_cons, List.map_append, List.sum_append]
    linarith

theorem wcov_const (f g : (Fin m → ℝ) → ℝ) (a b : ℝ) (c : Chain m) (hn : (c.map (fun r => r.1)).sum ≠ 0) :
    wcov (fun x => f x + a) (fun x => g x + b) c = wcov f g c := by
  unfold wcov
  rw [wmean_add_const f a c hn, wmean_add_const g b c hn]
  congr 2
  apply List.map_congr_left
  intro r _; ring

theorem within_const (f g : (Fin m → ℝ) → ℝ) (a b : ℝ) (chains : List (Chain m)) (h : Weighted chains) :
    within (fun x => f x + a) (fun x => g x + b) chains = within f g chains := by
  unfold within
  congr 2
  exact List.map_congr_left (fun c hc => wcov_const f g a b c (h c hc).2.ne')

theorem between_const (f g : (Fin m → ℝ) → ℝ) (a b : ℝ) (chains : List (Chain m)) (h : Weighted chains) :
    between (fun x => f x + a) (fun x => g x + b) chains = between f g chains := by
  unfold between
  congr 2
  refine List.map_congr_left (fun c hc => ?_)
  have hne : chains ≠ [] := List.ne_nil_of_mem hc
  have hf := (norm_flatten chains h hne).ne'
  rw [wmean_add_const f a c (h c hc).2.ne', wmean_add_const g b c (h c hc).2.ne', wmean_add_const f a _ hf, wmean_add_const g b _ hf]
  ring

/-- the first parameters change to independent linear combinations of the first parameters, plus constants -/
def Reparam (h : p ≤ m) (T : (Fin m → ℝ) → (Fin m → ℝ)) : Prop :=
  ∃ (A A' : Mat p) (b : Fin p → ℝ), A' * A = 1 ∧ ∀ x i, T x (Fin.castLE h i) = (∑ k, A i k * x (Fin.castLE h k)) + b i

theorem comb_changed (h : p ≤ m) {T : (Fin m → ℝ) → (Fin m → ℝ)} {A : Mat p} {b : Fin p → ℝ}
    (hT : ∀ x i, T x (Fin.castLE h i) = (∑ k, A i k * x (Fin.castLE h k)) + b i) (v : Fin p → ℝ) :
    comb h v ∘ T = fun x => comb h (v ᵥ* A) x + v ⬝ᵥ b := by
  funext x
  simp only [comb, Function.comp_apply, hT, mul_add, Finset.sum_add_distrib]
  congr 1
  simp only [Finset.mul_sum, vecMul, dotProduct, Finset.sum_mul]
  rw [Finset.sum_comm]
  exact Finset.sum_congr rfl (fun i _ => Finset.sum_congr rfl (fun j _ => by ring))

theorem weighted_changed (T : (Fin m → ℝ) → (Fin m → ℝ)) (chains : List (Chain m)) (h : Weighted chains) : Weighted (changed T chains) := by
  intro c hc
  obtain ⟨d, hd, rfl⟩ := List.mem_map.mp hc
  obtain ⟨h1, h2⟩ := h d hd
  refine ⟨fun r hr => ?_, ?_⟩
  · obtain ⟨s, hs, rfl⟩ := List.mem_map.mp hr
    exact h1 s hs
  · rw [wsum_changed]; exact h2

/-- **C83** The values do not change when the parameters are replaced by independent linear combinations of them (other units, other zero
points, rotated parameters). -/
theorem gr_reparam (h : p ≤ m) (eigh : Mat p → (Fin p → ℝ) × Mat p) (eigvalsh : Mat p → (Fin p → ℝ)) (he : EighSpec eigh) (hv : EigvalsSpec eigvalsh)
    (chains : List (Chain m)) (hw : Weighted chains) (T : (Fin m → ℝ) → (Fin m → ℝ)) (hT : Reparam h T) :
    eigenvalues h eigh eigvalsh (changed T chains) = eigenvalues h eigh eigvalsh chains := by
  have hl : (changed T chains).length = chains.length := List.length_map ..
  by_cases hlen : 2 ≤ chains.length
  · by_cases hp : p = 0
    · unfold eigenvalues
      rw [if_neg (by omega), if_pos hp, if_neg (by omega), if_pos hp]
    obtain ⟨A, A', b, hA, hT⟩ := hT
    have hw' := weighted_changed T chains hw
    have hc1 := comb_changed h hT
    have hwi : ∀ v u, within (comb h v) (comb h u) (changed T chains) = within (comb h (v ᵥ* A)) (comb h (u ᵥ* A)) chains := by
      intro v u; rw [within_changed, hc1, hc1, within_const _ _ _ _ _ hw]
    have hbt : ∀ v u, between (comb h v) (comb h u) (changed T chains) = between (comb h (v ᵥ* A)) (comb h (u ᵥ* A)) chains := by
      intro v u; rw [between_changed, hc1, hc1, between_const _ _ _ _ _ hw]
    have hA' : A * A' = 1 := mul_eq_one_comm.mp hA
    have hspec : ∀ D : Fin p → ℝ, IsSpectrum h chains D → IsSpectrum h (changed T chains) D := by
      rintro D ⟨V, hV⟩
      refine ⟨fun i => V i ᵥ* A', fun i j => ?_⟩
      rw [hwi, hbt, vecMul_vecMul, vecMul_vecMul, hA, vecMul_one, vecMul_one]
      exact hV i j
    obtain ⟨⟨D, hD⟩, hn⟩ := gr_none h hp eigh eigvalsh he chains hw hlen
    obtain ⟨⟨E, hE⟩, hn'⟩ := gr_none h hp eigh eigvalsh he (changed T chains) hw' (by omega)
    have hne : chains ≠ [] := by rintro rfl; simp at hlen
    have hne' : changed T chains ≠ [] := by intro e; rw [e] at hl; simp at hl; omega
    have hiff : (∃ v : Fin p → ℝ, v ≠ 0 ∧ Constant (comb h v) chains) ↔ ∃ v : Fin p → ℝ, v ≠ 0 ∧ Constant (comb h v) (changed T chains) := by
      constructor
      · rintro ⟨v, hv, hc⟩
        refine ⟨v ᵥ* A', ?_, ?_⟩
        · intro e
          apply hv
          have := congrArg (· ᵥ* A) e
          simpa [vecMul_vecMul, hA] using this
        · rw [← within_zero _ _ hw' hne', hwi, vecMul_vecMul, hA, vecMul_one, within_zero _ _ hw hne]
          exact hc
      · rintro ⟨v, hv, hc⟩
        refine ⟨v ᵥ* A, ?_, ?_⟩
        · intro e
          apply hv
          have := congrArg (· ᵥ* A') e
          simpa [vecMul_vecMul, hA'] using this
        · rw [← within_zero _ _ hw hne, ← hwi, within_zero _ _ hw' hne']
          exact hc
    have hiff := (hn.trans hiff).trans hn'.symm
    cases D with
    | none => rw [hD, hiff.mp hD]
    | some D =>
      cases E with
      | none => rw [hE, hiff.mpr hE]
      | some E =>
        obtain ⟨m1, s1⟩ := gr_spec h eigh eigvalsh he hv chains D hD
        obtain ⟨m2, s2⟩ := gr_spec h eigh eigvalsh he hv (changed T chains) E hE
        rw [hD, hE, spectrum_unique h (changed T chains) E D m2 m1 s2 (hspec D s1)]
  · unfold eigenvalues
    rw [if_pos (by omega), if_pos (by omega)]

/-! ## bounds -/

theorem spectrum_dir (h : p ≤ m) (chains : List (Chain m)) (D : Fin p → ℝ) (hs : IsSpectrum h chains D) (v : Fin p → ℝ) :
    ∃ a : Fin p → ℝ, within (comb h v) (comb h v) chains = ∑ i, a i ^ 2 ∧ between (comb h v) (comb h v) chains = ∑ i, D i * a i ^ 2 := by
  obtain ⟨V, h1, h2⟩ := spectrum_gram h chains D hs
  have e1 : Vᵀ * (meanCov h chains * V) = 1 := by rw [← Matrix.mul_assoc]; exact h1
  -- V is invertible
  have hl : (Vᵀ * meanCov h chains) * V = 1 := h1
  have hr : V * (Vᵀ * meanCov h chains) = 1 := mul_eq_one_comm.mp hl
  set W := Vᵀ * meanCov h chains with hW
  have hv : V *ᵥ (W *ᵥ v) = v := by rw [mulVec_mulVec, hr, one_mulVec]
  refine ⟨W *ᵥ v, ?_, ?_⟩
  · rw [← dot_meanCov]
    conv_lhs => rw [← hv]
    have : (V *ᵥ (W *ᵥ v)) ⬝ᵥ (meanCov h chains *ᵥ (V *ᵥ (W *ᵥ v))) = (W *ᵥ v) ⬝ᵥ ((Vᵀ * meanCov h chains * V) *ᵥ (W *ᵥ v)) := by
      have := quad_conj Vᵀ (meanCov h chains) (W *ᵥ v)
      rw [transpose_transpose] at this
      exact this.symm
    rw [this, h1, one_mulVec]
    simp [dotProduct, pow_two]
  · rw [← dot_meansCov]
    conv_lhs => rw [← hv]
    have : (V *ᵥ (W *ᵥ v)) ⬝ᵥ (meansCov h chains *ᵥ (V *ᵥ (W *ᵥ v))) = (W *ᵥ v) ⬝ᵥ ((Vᵀ * meansCov h chains * V) *ᵥ (W *ᵥ v)) := by
      have := quad_conj Vᵀ (meansCov h chains) (W *ᵥ v)
      rw [transpose_transpose] at this
      exact this.symm
    rw [this, h2]
    simp only [dotProduct, mulVec_diagonal]
    exact Finset.sum_congr rfl (fun i _ => by ring)

theorem worst_some (D : Fin p → ℝ) (hp : p ≠ 0) : ∃ i, worst (some D) = some (D i) ∧ ∀ k, D k ≤ D i := by
  unfold worst
  cases hmx : (List.ofFn D).max? with
  | none =>
    have hm := hmx
    rw [List.max?_eq_none_iff] at hm
    have := congrArg List.length hm
    simp at this
    exact absurd this hp
  | some x =>
    have hm := hmx
    rw [List.max?_eq_some_iff] at hm
    obtain ⟨hmem, hle⟩ := hm
    obtain ⟨i, rfl⟩ := (List.mem_ofFn' _ _).mp hmem
    exact ⟨i, hmx, fun k => hle _ ((List.mem_ofFn' _ _).mpr ⟨k, rfl⟩)⟩

/-- **C83** The value reported is the largest ratio of the variance of the chain means to the mean variance, over all combinations of the
parameters; so it is never negative. -/
theorem gr_worst (h : p ≤ m) (hp : p ≠ 0) (eigh : Mat p → (Fin p → ℝ) × Mat p) (eigvalsh : Mat p → (Fin p → ℝ)) (he : EighSpec eigh)
    (hv : EigvalsSpec eigvalsh) (chains : List (Chain m)) (D : Fin p → ℝ) (hr : eigenvalues h eigh eigvalsh chains = .ok (some D)) :
    ∃ R, worst (some D) = some R ∧ 0 ≤ R ∧ (∀ v : Fin p → ℝ, between (comb h v) (comb h v) chains ≤ R * within (comb h v) (comb h v) chains) ∧
      ∃ v : Fin p → ℝ, 0 < within (comb h v) (comb h v) chains ∧ between (comb h v) (comb h v) chains = R * within (comb h v) (comb h v) chains := by
  have hlen : 1 ≤ chains.length := by
    by_contra hc
    unfold eigenvalues at hr
    rw [if_pos (by omega)] at hr
    cases hr
  obtain ⟨hmono, hs⟩ := gr_spec h eigh eigvalsh he hv chains D hr
  obtain ⟨i, hi, hle⟩ := worst_some D hp
  obtain ⟨V, hV⟩ := hs
  have e := hV i i
  simp only [if_true] at e
  refine ⟨D i, hi, ?_, ?_, V i, ?_, ?_⟩
  · rw [← e.2]; exact between_nonneg _ _ hlen
  · intro v
    obtain ⟨a, h1, h2⟩ := spectrum_dir h chains D ⟨V, hV⟩ v
    rw [h1, h2, Finset.mul_sum]
    exact Finset.sum_le_sum (fun k _ => mul_le_mul_of_nonneg_right (hle k) (sq_nonneg _))
  · rw [e.1]; norm_num
  · rw [e.1, e.2]; ring

theorem mean_of_flatten (chains : List (Chain m)) (f : (Fin m → ℝ) → ℝ) (h : Weighted chains) (hne : chains ≠ []) (k : ℝ)
    (hk : ∀ c ∈ chains, wmean f c = k) : wmean f chains.flatten = k := by
  have hs : ∀ l : List (Chain m), Weighted l → (∀ c ∈ l, wmean f c = k) → (l.flatten.map (fun r => r.1 * f r.2)).sum = k * (l.flatten.map (fun r => r.1)).sum := by
    intro l hl hk
    induction l with
    | nil => simp
    | cons c l ih =>
      have h1 := hk c (by simp)
      have h2 := (hl c (by simp)).2
      have ih := ih (fun d hd => hl d (by simp [hd])) (fun d hd => hk d (by simp [hd]))
      simp only [List.flatten_cons, List.map_append, List.sum_append]
      unfold wmean at h1
      rw [div_eq_iff h2.ne'] at h1
      rw [h1, ih]; ring
  unfold wmean
  rw [hs chains h hk]
  exact mul_div_cancel_right₀ _ (norm_flatten chains h hne).ne'

/-- **C83** The value reported is zero exactly if all chains have the same means of the parameters. -/
theorem gr_zero (h : p ≤ m) (hp : p ≠ 0) (eigh : Mat p → (Fin p → ℝ) × Mat p) (eigvalsh : Mat p → (Fin p → ℝ)) (he : EighSpec eigh)
    (hv : EigvalsSpec eigvalsh) (chains : List (Chain m)) (hw : Weighted chains) (D : Fin p → ℝ) (hr : eigenvalues h eigh eigvalsh chains = .ok (some D)) :
    worst (some D) = some 0 ↔ ∀ c ∈ chains, ∀ d ∈ chains, ∀ i : Fin p, wmean (fun x => x (Fin.castLE h i)) c = wmean (fun x => x (Fin.castLE h i)) d := by
  have hlen : 2 ≤ chains.length := by
    by_contra hc
    unfold eigenvalues at hr
    rw [if_pos (by omega)] at hr
    cases hr
  have hl1 : (0 : ℝ) < chains.length - 1 := by
    have : (2 : ℝ) ≤ chains.length := by exact_mod_cast hlen
    linarith
  have hne : chains ≠ [] := by rintro rfl; simp at hlen
  obtain ⟨R, hR, h0, hall, v, hv1, hv2⟩ := gr_worst h hp eigh eigvalsh he hv chains D hr
  have hsingle : ∀ i : Fin p, comb h (Pi.single i 1) = fun x => x (Fin.castLE h i) := by
    intro i; funext x; simp [comb, Pi.single_apply]
  rw [hR]
  constructor
  · intro e
    injection e with e
    subst e
    have hz : ∀ c ∈ chains, ∀ i : Fin p, wmean (fun x => x (Fin.castLE h i)) c = wmean (fun x => x (Fin.castLE h i)) chains.flatten := by
      intro c hc i
      have h1 := hall (Pi.single i 1)
      rw [zero_mul, hsingle] at h1
      have h2 := between_nonneg (fun x => x (Fin.castLE h i)) chains (by omega)
      have h3 := le_antisymm h1 h2
      unfold between at h3
      rw [div_eq_zero_iff, or_iff_left hl1.ne', sum_zero' _ _ (fun c _ => mul_self_nonneg _)] at h3
      have := mul_self_eq_zero.mp (h3 c hc)
      linarith
    intro c hc d hd i
    rw [hz c hc i, hz d hd i]
  · intro e
    have hb : between (comb h v) (comb h v) chains = 0 := by
      have hm : ∀ c ∈ chains, ∀ d ∈ chains, wmean (comb h v) c = wmean (comb h v) d := by
        intro c hc d hd
        rw [wmean_comb, wmean_comb]
        exact Finset.sum_congr rfl (fun i _ => congrArg _ (e c hc d hd i))
      unfold between
      rw [div_eq_zero_iff]
      left
      rw [sum_zero' _ _ (fun c _ => mul_self_nonneg _)]
      intro c hc
      rw [mean_of_flatten chains (comb h v) hw hne (wmean (comb h v) c) (fun d hd => hm d hd c hc), sub_self, mul_zero]
    rw [hb] at hv2
    rcases mul_eq_zero.mp hv2.symm with h1 | h1
    · rw [h1]
    · exact absurd h1 hv1.ne'

/-- **C83** With a single chain nothing can be computed. -/
theorem gr_single (h : p ≤ m) (eigh : Mat p → (Fin p → ℝ) × Mat p) (eigvalsh : Mat p → (Fin p → ℝ)) (c : Chain m) :
    eigenvalues h eigh eigvalsh [c] = .error .nan := rfl

/-! ## the assumptions can be met -/

theorem eigvals_exists : ∃ f : Mat p → (Fin p → ℝ), EigvalsSpec f := by
  classical
  have key : ∀ M : Mat p, ∃ d : Fin p → ℝ, Mᵀ = M → Monotone d ∧ ∃ U, Diag M U d := by
    intro M
    by_cases hM : Mᵀ = M
    · obtain ⟨U, d, hd⟩ := CMBlikes.HL.Diag.exists hM
      set σ := Tuple.sort d
      refine ⟨d ∘ σ, fun _ => ⟨Tuple.monotone_sort d, U.submatrix id σ, ?_, ?_⟩⟩
      · ext i j
        have := congrFun (congrFun hd.1 (σ i)) (σ j)
        rw [Matrix.mul_apply] at this ⊢
        simp only [transpose_apply, submatrix_apply, id] at this ⊢
        rw [this, one_apply, one_apply]
        simp
      · ext i j
        have := congrFun (congrFun hd.2 i) j
        rw [this, Matrix.mul_apply, Matrix.mul_apply]
        simp only [mul_diagonal, transpose_apply, submatrix_apply, id, Function.comp_apply]
        exact (Equiv.sum_comp σ (fun k => U i k * d k * U j k)).symm
    · exact ⟨0, fun h => absurd h hM⟩
  choose f hf using key
  exact ⟨f, hf⟩

/-- two chains of two samples each -/
noncomputable def exChains : List (Chain 1) := [[(1, fun _ => 0), (1, fun _ => 2)], [(1, fun _ => 1), (1, fun _ => 3)]]

example (eigh : Mat 1 → (Fin 1 → ℝ) × Mat 1) (eigvalsh : Mat 1 → (Fin 1 → ℝ)) (he : EighSpec eigh) (hv : EigvalsSpec eigvalsh) :
    eigenvalues (le_refl 1) eigh eigvalsh exChains = .ok (some fun _ => 1 / 2) := by
  have hw : Weighted exChains := by
    intro c hc
    simp only [exChains, List.mem_cons, List.not_mem_nil, or_false] at hc
    rcases hc with rfl | rfl <;> refine ⟨?_, by norm_num⟩ <;> intro r hr <;>
      simp only [List.mem_cons, List.not_mem_nil, or_false] at hr <;> rcases hr with rfl | rfl <;> norm_num
  obtain ⟨⟨D, hD⟩, hn⟩ := gr_none (le_refl 1) (by norm_num) eigh eigvalsh he exChains hw (by decide)
  cases D with
  | none =>
    obtain ⟨v, hv0, hc⟩ := hn.mp hD
    obtain ⟨k, hk⟩ := hc [(1, fun _ => 0), (1, fun _ => 2)] (by simp [exChains])
    have h1 := hk (1, fun _ => 0) (by simp) (by norm_num)
    have h2 := hk (1, fun _ => 2) (by simp) (by norm_num)
    simp [comb] at h1 h2
    exfalso
    apply hv0
    funext i
    rw [Subsingleton.elim i 0, Pi.zero_apply]
    linarith
  | some D =>
    obtain ⟨m1, s1⟩ := gr_spec (le_refl 1) eigh eigvalsh he hv exChains D hD
    have s2 : IsSpectrum (le_refl 1) exChains (fun _ => 1 / 2) := by
      refine ⟨fun _ _ => 1, fun i j => ?_⟩
      rw [Subsingleton.elim i j]
      constructor <;> simp [within, between, wcov, wmean, comb, exChains] <;> norm_num
    rw [hD, spectrum_unique (le_refl 1) exChains D _ m1 (fun a b _ => le_refl _) s1 s2]

end Verif.GelmanRubin
