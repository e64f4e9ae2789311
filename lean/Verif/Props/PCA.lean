import Verif.Model.PCA
import Mathlib.LinearAlgebra.Matrix.ToLinearEquiv
import Mathlib.LinearAlgebra.Matrix.Trace
import Mathlib.Tactic.Linarith
import Mathlib.Tactic.FieldSimp
import Mathlib.Tactic.Ring
import Mathlib.Analysis.Matrix.Spectrum
import Mathlib.Data.Fin.Tuple.Sort

/-!
# Principal components: what the numbers and formulas of the report mean
-/

set_option linter.unusedSectionVars false

namespace Verif.PCA
open Verif.Py Matrix

/-! ## what numpy documents -/

/-- `np.linalg.eig`: independent eigenvectors in the columns; nothing is said of their being orthogonal -/
def EigSpec {p : Nat} (eig : Eig p) : Prop := ∀ A : Matrix (Fin p) (Fin p) ℝ, Aᵀ = A → A * (eig A).2 = (eig A).2 * diagonal (eig A).1 ∧ (eig A).2.det ≠ 0

def ArgsortSpec {p : Nat} (argsort : (Fin p → ℝ) → Fin p → Fin p) : Prop := ∀ d, Function.Bijective (argsort d) ∧ Monotone (fun i => d (argsort d i))

def ArgmaxSpec {p : Nat} (argmax : (Fin p → ℝ) → Fin p) : Prop := ∀ (f : Fin p → ℝ) (j : Fin p), f j ≤ f (argmax f)

/-- the three assumptions on numpy can be met: symmetric matrices have eigenvectors, and numbers can be sorted -/
theorem library_exists (p : Nat) : (∃ eig : Eig p, EigSpec eig) ∧ (∃ argsort : (Fin p → ℝ) → Fin p → Fin p, ArgsortSpec argsort) ∧
    (p ≠ 0 → ∃ argmax : (Fin p → ℝ) → Fin p, ArgmaxSpec argmax) := by
  classical
  refine ⟨?_, ⟨fun d => Tuple.sort d, fun d => ⟨(Tuple.sort d).bijective, Tuple.monotone_sort d⟩⟩, ?_⟩
  · have hA : ∀ A : Matrix (Fin p) (Fin p) ℝ, ∃ r : (Fin p → ℝ) × Matrix (Fin p) (Fin p) ℝ, Aᵀ = A → A * r.2 = r.2 * diagonal r.1 ∧ r.2.det ≠ 0 := by
      intro A
      by_cases h : Aᵀ = A
      · have hh : A.IsHermitian := by
          rw [IsHermitian, conjTranspose_eq_transpose_of_trivial]; exact h
        refine ⟨(hh.eigenvalues, (hh.eigenvectorUnitary : Matrix (Fin p) (Fin p) ℝ)), fun _ => ⟨?_, ?_⟩⟩
        · ext i j
          have := congrFun (hh.mulVec_eigenvectorBasis j) i
          simpa [Matrix.mul_apply, mulVec, dotProduct, diagonal_apply, mul_comm] using this
        · intro h0
          have := (Unitary.mem_iff.mp hh.eigenvectorUnitary.2).1
          have := congrArg Matrix.det this
          rw [Matrix.det_mul, h0, mul_zero, Matrix.det_one] at this
          exact zero_ne_one this
      · exact ⟨(0, 0), fun h' => absurd h' h⟩
    choose eig he using hA
    exact ⟨eig, he⟩
  · intro hp
    have : Nonempty (Fin p) := ⟨⟨0, Nat.pos_of_ne_zero hp⟩⟩
    have : ∀ f : Fin p → ℝ, ∃ i, ∀ j, f j ≤ f i := fun f => Finite.exists_max f
    choose argmax h using this
    exact ⟨argmax, h⟩

/-! ## averages -/

section data
variable {ι : Type}

/-- weights are not negative and not all zero -/
def Weighted (rows : Rows ι) : Prop := (∀ r ∈ rows, 0 ≤ r.1) ∧ 0 < (rows.map (fun r => r.1)).sum

/-- three samples of two parameters, used in the examples -/
def exR : Rows (Ix 2 0) := [(1, Sum.elim ![0, 1] ![]), (1, Sum.elim ![2, 1] ![]), (2, Sum.elim ![4, 5] ![])]

theorem exR_weighted : Weighted exR := by
  refine ⟨?_, by norm_num [exR]⟩
  intro r hr
  simp only [exR, List.mem_cons, List.not_mem_nil, or_false] at hr
  rcases hr with rfl | rfl | rfl <;> norm_num

theorem exR_sd (i : Fin 2) : sd exR (.inl i) ≠ 0 := by
  unfold sd
  rw [Real.sqrt_ne_zero']
  fin_cases i <;> norm_num [avg, mean, exR]

theorem exR_sd' (i : Ix 2 0) : sd exR i ≠ 0 := by
  match i with
  | .inl i => exact exR_sd i

theorem avg_add (rows : Rows ι) (f g : (ι → ℝ) → ℝ) : avg rows (fun x => f x + g x) = avg rows f + avg rows g := by
  unfold avg
  rw [← add_div]
  congr 1
  induction rows with
  | nil => simp
  | cons r rows ih => simp only [List.map_cons, List.sum_cons, ih]; ring

theorem avg_mul (rows : Rows ι) (c : ℝ) (f : (ι → ℝ) → ℝ) : avg rows (fun x => c * f x) = c * avg rows f := by
  unfold avg
  rw [← mul_div_assoc]
  congr 1
  induction rows with
  | nil => simp
  | cons r rows ih => simp only [List.map_cons, List.sum_cons, ih]; ring

theorem avg_zero (rows : Rows ι) : avg rows (fun _ => 0) = 0 := by simp [avg]

theorem avg_const (rows : Rows ι) (h : Weighted rows) (c : ℝ) : avg rows (fun _ => c) = c := by
  unfold avg
  have : (rows.map (fun r => r.1 * c)).sum = (rows.map (fun r => r.1)).sum * c := by
    clear h
    induction rows with
    | nil => simp
    | cons r rows ih => simp only [List.map_cons, List.sum_cons, ih]; ring
  rw [this, mul_div_cancel_left₀ _ h.2.ne']

theorem avg_sum {κ : Type} (rows : Rows ι) (s : Finset κ) (f : κ → (ι → ℝ) → ℝ) : avg rows (fun x => ∑ k ∈ s, f k x) = ∑ k ∈ s, avg rows (f k) := by
  classical
  induction s using Finset.induction_on with
  | empty => simp [avg_zero]
  | insert a s ha ih =>
    rw [Finset.sum_insert ha, ← ih, ← avg_add]
    congr 1
    funext x
    rw [Finset.sum_insert ha]

theorem avg_nonneg (rows : Rows ι) (h : Weighted rows) (f : (ι → ℝ) → ℝ) (hf : ∀ x, 0 ≤ f x) : 0 ≤ avg rows f := by
  refine div_nonneg (List.sum_nonneg ?_) h.2.le
  intro y hy
  obtain ⟨r, hr, rfl⟩ := List.mem_map.mp hy
  exact mul_nonneg (h.1 r hr) (hf _)

theorem avg_congr (rows : Rows ι) (f g : (ι → ℝ) → ℝ) (h : ∀ r ∈ rows, r.1 ≠ 0 → f r.2 = g r.2) : avg rows f = avg rows g := by
  unfold avg
  congr 2
  apply List.map_congr_left
  intro r hr
  by_cases h0 : r.1 = 0
  · simp [h0]
  · rw [h r hr h0]

theorem avg_eq_zero (rows : Rows ι) (h : Weighted rows) (f : (ι → ℝ) → ℝ) (hf : ∀ x, 0 ≤ f x) (hz : avg rows f = 0) : ∀ r ∈ rows, r.1 ≠ 0 → f r.2 = 0 := by
  unfold avg at hz
  rw [div_eq_zero_iff, or_iff_left h.2.ne'] at hz
  have key : ∀ l : Rows ι, (∀ r ∈ l, 0 ≤ r.1) → (l.map (fun r => r.1 * f r.2)).sum = 0 → ∀ r ∈ l, r.1 * f r.2 = 0 := by
    intro l hl
    induction l with
    | nil => simp
    | cons a l ih =>
      intro hs r hr
      have h1 : 0 ≤ a.1 * f a.2 := mul_nonneg (hl a (by simp)) (hf _)
      have h2 : 0 ≤ (l.map (fun r => r.1 * f r.2)).sum := by
        apply List.sum_nonneg
        intro y hy
        obtain ⟨b, hb, rfl⟩ := List.mem_map.mp hy
        exact mul_nonneg (hl b (by simp [hb])) (hf _)
      simp only [List.map_cons, List.sum_cons] at hs
      rcases List.mem_cons.mp hr with rfl | hr
      · linarith
      · exact ih (fun r hr => hl r (by simp [hr])) (by linarith) r hr
  intro r hr h0
  exact (mul_eq_zero.mp (key rows h.1 hz r hr)).resolve_left h0

/-! ## standardised parameters -/

theorem sd_sq (rows : Rows ι) (h : Weighted rows) (i : ι) : sd rows i ^ 2 = avg rows (fun x => (x i - mean rows i) ^ 2) :=
  Real.sq_sqrt (avg_nonneg rows h _ (fun _ => sq_nonneg _))

theorem std_mean (rows : Rows ι) (h : Weighted rows) (i : ι) : avg rows (fun x => std rows x i) = 0 := by
  have h0 : avg rows (fun x => x i - mean rows i) = 0 := by
    have : (fun x : ι → ℝ => x i - mean rows i) = fun x => x i + -mean rows i := by funext x; ring
    rw [this, avg_add, avg_const rows h]
    unfold mean; ring
  unfold std
  split
  · have : (fun x : ι → ℝ => (x i - mean rows i) / sd rows i) = fun x => (sd rows i)⁻¹ * (x i - mean rows i) := by funext x; ring
    rw [this, avg_mul, h0, mul_zero]
  · exact h0

theorem std_var (rows : Rows ι) (h : Weighted rows) (i : ι) : avg rows (fun x => std rows x i * std rows x i) = open Classical in if sd rows i ≠ 0 then 1 else 0 := by
  unfold std
  split
  · rename_i h0
    have : (fun x : ι → ℝ => (x i - mean rows i) / sd rows i * ((x i - mean rows i) / sd rows i)) = fun x => (sd rows i ^ 2)⁻¹ * (x i - mean rows i) ^ 2 := by
      funext x; field_simp
    rw [this, avg_mul, ← sd_sq rows h, inv_mul_cancel₀ (pow_ne_zero 2 h0)]
  · rename_i h0
    have h0 := not_not.mp h0
    have := sd_sq rows h i
    rw [h0] at this
    have e : (fun x : ι → ℝ => (x i - mean rows i) * (x i - mean rows i)) = fun x => (x i - mean rows i) ^ 2 := by funext x; ring
    rw [e, ← this]; ring

/-- the value of a parameter of no spread is the mean in all rows that count -/
theorem std_zero (rows : Rows ι) (h : Weighted rows) (i : ι) (h0 : sd rows i = 0) : ∀ r ∈ rows, r.1 ≠ 0 → std rows r.2 i = 0 := by
  intro r hr hne
  have hs := sd_sq rows h i
  rw [h0] at hs
  have := avg_eq_zero rows h _ (fun _ => sq_nonneg _) (by rw [← hs]; ring) r hr hne
  unfold std
  rw [if_neg (by simp [h0])]
  exact pow_eq_zero_iff (two_ne_zero) |>.mp this

variable [DecidableEq ι]

theorem corr_symm (rows : Rows ι) : (corr rows)ᵀ = corr rows := by
  ext i j
  simp only [transpose_apply, corr, of_apply, eq_comm (a := j)]
  split
  · rfl
  · congr 1; funext x; ring

theorem corr_gram (rows : Rows ι) (h : Weighted rows) (i j : ι) : corr rows i j = avg rows (fun x => std rows x i * std rows x j) +
    open Classical in if i = j ∧ sd rows i = 0 then 1 else 0 := by
  unfold corr
  simp only [of_apply]
  by_cases hij : i = j
  · subst hij
    rw [if_pos rfl, std_var rows h]
    by_cases h0 : sd rows i = 0 <;> simp [h0]
  · simp [hij]

/-- **C142** An entry of the matrix printed is the correlation of the two parameters. -/
theorem corr_spec (rows : Rows ι) (h : Weighted rows) (i j : ι) (hi : sd rows i ≠ 0) (hj : sd rows j ≠ 0) :
    corr rows i j * (sd rows i * sd rows j) = avg rows (fun x => (x i - avg rows (fun y => y i)) * (x j - avg rows (fun y => y j))) := by
  rw [corr_gram rows h]
  simp only [hi, and_false, if_false, add_zero]
  unfold std
  simp only [ne_eq, hi, hj, not_false_eq_true, if_true]
  have : (fun x : ι → ℝ => (x i - mean rows i) / sd rows i * ((x j - mean rows j) / sd rows j)) = fun x => (sd rows i * sd rows j)⁻¹ * ((x i - mean rows i) * (x j - mean rows j)) := by
    funext x; field_simp
  rw [this, avg_mul, mul_comm, mul_inv_cancel_left₀ (mul_ne_zero hi hj)]
  rfl

example : corr exR (.inl 0) (.inl 1) * (sd exR (.inl 0) * sd exR (.inl 1)) = 3 := by
  rw [corr_spec exR exR_weighted _ _ (exR_sd 0) (exR_sd 1)]
  norm_num [avg, exR]

variable [Fintype ι]

/-- a combination of the standardised parameters -/
noncomputable def combo (rows : Rows ι) (v : ι → ℝ) (x : ι → ℝ) : ℝ := ∑ i, v i * std rows x i

open Classical in
theorem dot_corr (rows : Rows ι) (h : Weighted rows) (v w : ι → ℝ) : v ⬝ᵥ (corr rows *ᵥ w) = avg rows (fun x => combo rows v x * combo rows w x) +
    ∑ i, if sd rows i = 0 then v i * w i else 0 := by
  have e1 : v ⬝ᵥ (corr rows *ᵥ w) = ∑ i, ∑ j, v i * (corr rows i j * w j) := by
    simp only [dotProduct, mulVec, Finset.mul_sum]
  have e2 : avg rows (fun x => combo rows v x * combo rows w x) = ∑ i, ∑ j, v i * (avg rows (fun x => std rows x i * std rows x j) * w j) := by
    have : (fun x => combo rows v x * combo rows w x) = fun x => ∑ i, ∑ j, (v i * w j) * (std rows x i * std rows x j) := by
      funext x
      unfold combo
      rw [Finset.sum_mul_sum]
      exact Finset.sum_congr rfl (fun i _ => Finset.sum_congr rfl (fun j _ => by ring))
    rw [this, avg_sum]
    refine Finset.sum_congr rfl (fun i _ => ?_)
    rw [avg_sum]
    refine Finset.sum_congr rfl (fun j _ => ?_)
    rw [avg_mul]; ring
  rw [e1, e2, ← Finset.sum_add_distrib]
  refine Finset.sum_congr rfl (fun i _ => ?_)
  have : (if sd rows i = 0 then v i * w i else 0) = ∑ j, v i * ((if i = j ∧ sd rows i = 0 then 1 else 0) * w j) := by
    rw [Finset.sum_eq_single i]
    · by_cases h0 : sd rows i = 0 <;> simp [h0]
    · intro j _ hj; simp [hj.symm]
    · simp
  rw [this, ← Finset.sum_add_distrib]
  refine Finset.sum_congr rfl (fun j _ => ?_)
  rw [corr_gram rows h]; ring

theorem corr_nonneg (rows : Rows ι) (h : Weighted rows) (v : ι → ℝ) : 0 ≤ v ⬝ᵥ (corr rows *ᵥ v) := by
  rw [dot_corr rows h]
  refine add_nonneg (avg_nonneg rows h _ (fun x => mul_self_nonneg _)) (Finset.sum_nonneg (fun i _ => ?_))
  split
  · exact mul_self_nonneg _
  · exact le_rfl

/-- **C142** Every entry is between minus one and one. -/
theorem corr_bound (rows : Rows ι) (h : Weighted rows) (i j : ι) : |corr rows i j| ≤ 1 := by
  by_cases hij : i = j
  · subst hij; simp [corr]
  have key : ∀ s : ℝ, 0 ≤ 1 + 2 * s * corr rows i j + s ^ 2 := by
    intro s
    have := corr_nonneg rows h (Pi.single i 1 + s • Pi.single j 1)
    have e : (Pi.single i 1 + s • Pi.single j 1 : ι → ℝ) ⬝ᵥ (corr rows *ᵥ (Pi.single i 1 + s • Pi.single j 1)) =
        corr rows i i + s * corr rows i j + s * corr rows j i + s * s * corr rows j j := by
      simp only [mulVec_add, mulVec_smul, add_dotProduct, smul_dotProduct, dotProduct_add, dotProduct_smul, mulVec_single_one, single_one_dotProduct, smul_eq_mul, col_apply]
      ring
    rw [e] at this
    have hs : corr rows j i = corr rows i j := congrFun (congrFun (corr_symm rows) i) j
    have d : ∀ k, corr rows k k = 1 := fun k => by simp [corr]
    rw [hs, d, d] at this
    linarith
  rw [abs_le]
  have h1 := key 1
  have h2 := key (-1)
  constructor <;> linarith

example : |corr exR (.inl 0) (.inl 1)| ≤ 1 := corr_bound exR exR_weighted _ _

end data

/-! ## components -/

section comps
variable {p q : Nat}

theorem matrix_symm (rows : Rows (Ix p q)) (A : Matrix (Fin p) (Fin p) ℝ) (h : matrix rows = .ok A) : Aᵀ = A := by
  have hs : ∀ B : Matrix (Ix p q) (Ix p q) ℝ, Bᵀ = B → B.toBlocks₁₁ᵀ = B.toBlocks₁₁ := by
    intro B hB
    ext i j
    exact congrFun (congrFun hB (.inl i)) (.inl j)
  unfold matrix at h
  split at h
  · injection h with h; subst h; exact hs _ (corr_symm rows)
  split at h
  · cases h
  split at h
  · cases h
  injection h with h
  subst h
  rw [transpose_nonsing_inv, hs]
  rw [transpose_nonsing_inv, corr_symm]

variable {eig : Eig p} {argsort : (Fin p → ℝ) → Fin p → Fin p} {argmax : (Fin p → ℝ) → Fin p}

/-- **C142** The eigenvalues are in increasing order, and row `i` of the vectors is an eigenvector of eigenvalue `i`, not zero. -/
theorem eigen_spec (he : EigSpec eig) (ha : ArgsortSpec argsort) (rows : Rows (Ix p q)) (A : Matrix (Fin p) (Fin p) ℝ) (hA : matrix rows = .ok A) (nm : Option (Fin p)) :
    ∃ R, report eig argsort argmax nm rows = .ok R ∧ Monotone R.evals ∧ (∀ i, A *ᵥ R.vecs i = R.evals i • R.vecs i ∧ R.vecs i ≠ 0) ∧
      R.u = scaled argmax (fun i => sd rows (.inl i)) nm R.vecs ∧ ∑ i, R.evals i = A.trace := by
  obtain ⟨h1, h2⟩ := he A (matrix_symm rows A hA)
  obtain ⟨hb, hm⟩ := ha (eig A).1
  refine ⟨_, by unfold report; rw [hA]; rfl, hm, fun i => ⟨?_, ?_⟩, rfl, ?_⟩
  · funext k
    have := congrFun (congrFun h1 k) (argsort (eig A).1 i)
    rw [mul_apply, mul_diagonal] at this
    simp only [mulVec, dotProduct, sortedVecs, of_apply, Pi.smul_apply, smul_eq_mul]
    rw [this]; ring
  · intro h0
    apply h2
    apply det_eq_zero_of_column_eq_zero (argsort (eig A).1 i)
    intro k
    exact congrFun h0 k
  · have hu : IsUnit (eig A).2.det := isUnit_iff_ne_zero.mpr h2
    have hA' : A = (eig A).2 * diagonal (eig A).1 * (eig A).2⁻¹ := by
      rw [← h1, mul_nonsing_inv_cancel_right _ _ hu]
    have ht : A.trace = ∑ i, (eig A).1 i := by
      conv_lhs => rw [hA', trace_mul_comm, nonsing_inv_mul_cancel_left _ _ hu]
      simp [trace]
    rw [ht]
    exact (Equiv.ofBijective _ hb).sum_comp (eig A).1

example {eig : Eig 2} {argsort : (Fin 2 → ℝ) → Fin 2 → Fin 2} {argmax : (Fin 2 → ℝ) → Fin 2} (he : EigSpec eig) (ha : ArgsortSpec argsort) : ∃ R, report eig argsort argmax none exR = .ok R ∧ ∑ i, R.evals i = (corr exR).toBlocks₁₁.trace := by
  obtain ⟨R, h, -, -, -, h4⟩ := eigen_spec (argmax := argmax) he ha exR (corr exR).toBlocks₁₁ (if_pos rfl) none
  exact ⟨R, h, h4⟩

/-- **C142** Without conditional parameters the eigenvalues add up to the number of parameters, and none is negative. -/
theorem evals_spec (he : EigSpec eig) (ha : ArgsortSpec argsort) (rows : Rows (Ix p 0)) (hw : Weighted rows) (nm : Option (Fin p)) :
    ∃ R, report eig argsort argmax nm rows = .ok R ∧ ∑ i, R.evals i = p ∧ ∀ i, 0 ≤ R.evals i := by
  have hA : matrix rows = .ok (corr rows).toBlocks₁₁ := by unfold matrix; rw [if_pos rfl]
  obtain ⟨R, hR, _, hv, _, ht⟩ := eigen_spec (argmax := argmax) he ha rows _ hA nm
  refine ⟨R, hR, ?_, fun i => ?_⟩
  · rw [ht]
    have : ∀ i, (corr rows).toBlocks₁₁ i i = 1 := fun i => by simp [corr, toBlocks₁₁]
    simp [trace, this]
  · obtain ⟨h1, h2⟩ := hv i
    have hq : 0 ≤ R.vecs i ⬝ᵥ ((corr rows).toBlocks₁₁ *ᵥ R.vecs i) := by
      have := corr_nonneg rows hw (Sum.elim (R.vecs i) 0)
      refine this.trans_eq ?_
      simp [dotProduct, mulVec, toBlocks₁₁]
    rw [h1, dotProduct_smul, smul_eq_mul] at hq
    have hp : 0 < R.vecs i ⬝ᵥ R.vecs i := by
      rcases lt_or_eq_of_le (show 0 ≤ R.vecs i ⬝ᵥ R.vecs i from Finset.sum_nonneg (fun _ _ => mul_self_nonneg _)) with h | h
      · exact h
      · exfalso
        apply h2
        funext k
        have := (Finset.sum_eq_zero_iff_of_nonneg (fun k _ => mul_self_nonneg (R.vecs i k))).mp h.symm k (Finset.mem_univ k)
        exact mul_self_eq_zero.mp this
    by_contra hc
    have := mul_neg_of_neg_of_pos (not_le.mp hc) hp
    linarith

example {eig : Eig 2} {argsort : (Fin 2 → ℝ) → Fin 2 → Fin 2} {argmax : (Fin 2 → ℝ) → Fin 2} (he : EigSpec eig) (ha : ArgsortSpec argsort) : ∃ R, report eig argsort argmax (some 0) exR = .ok R ∧ ∑ i, R.evals i = 2 ∧ ∀ i, 0 ≤ R.evals i :=
  evals_spec he ha exR exR_weighted (some 0)

/-- a row of `scaled` is a multiple of the row -/
theorem scaled_row (s : Fin p → ℝ) (nm : Option (Fin p)) (u : Matrix (Fin p) (Fin p) ℝ) (i : Fin p) : ∃ k, (∀ n, nm = some n → k = n) ∧ (nm = none → k = argmax (fun j => |u i j|)) ∧
    ∀ j, scaled argmax s nm u i j = s k / u i k * u i j := by
  unfold scaled
  cases nm with
  | some n => exact ⟨n, by simp, by simp, fun j => by simp only [of_apply]; ring⟩
  | none => exact ⟨argmax (fun j => |u i j|), by simp, by simp, fun j => by simp only [of_apply]; ring⟩

theorem lin_eq (u : Matrix (Fin p) (Fin p) ℝ) (rows : Rows (Ix p q)) (x : Ix p q → ℝ) (i : Fin p) : lin u rows x i = combo rows (Sum.elim (u i) 0) x := by
  simp [lin, combo]

/-- the covariance of two components is the eigenvalue of one times the product of the vectors -/
theorem comps_cov (he : EigSpec eig) (ha : ArgsortSpec argsort) (rows : Rows (Ix p 0)) (hw : Weighted rows) (hs : ∀ i, sd rows i ≠ 0) (nm : Option (Fin p)) (R : Report p)
    (hR : report eig argsort argmax nm rows = .ok R) (i j : Fin p) :
    avg rows (fun x => lin R.u rows x i * lin R.u rows x j) = R.evals j * ∑ k, R.u i k * R.u j k := by
  have hA : matrix rows = .ok (corr rows).toBlocks₁₁ := by unfold matrix; rw [if_pos rfl]
  obtain ⟨R', hR', _, hv, hu, _⟩ := eigen_spec (argmax := argmax) he ha rows _ hA nm
  obtain rfl : R = R' := by rw [hR] at hR'; injection hR'
  have h1 := dot_corr rows hw (Sum.elim (R.u i) 0) (Sum.elim (R.u j) 0)
  simp only [hs, if_false, Finset.sum_const_zero, add_zero] at h1
  simp only [lin_eq]
  rw [← h1]
  have e : (Sum.elim (R.u i) (0 : Fin 0 → ℝ)) ⬝ᵥ (corr rows *ᵥ (Sum.elim (R.u j) 0)) = R.u i ⬝ᵥ ((corr rows).toBlocks₁₁ *ᵥ R.u j) := by
    simp [dotProduct, mulVec, toBlocks₁₁]
  obtain ⟨k, _, _, hk⟩ := scaled_row (argmax := argmax) (fun i => sd rows (.inl i)) nm R.vecs j
  have huj : R.u j = (sd rows (.inl k) / R.vecs j k) • R.vecs j := by
    funext l; rw [hu, hk]; rfl
  have : (corr rows).toBlocks₁₁ *ᵥ R.u j = R.evals j • R.u j := by
    rw [huj, mulVec_smul, (hv j).1, smul_comm]
  rw [e, this, dotProduct_smul, smul_eq_mul]
  rfl

example {eig : Eig 2} {argsort : (Fin 2 → ℝ) → Fin 2 → Fin 2} {argmax : (Fin 2 → ℝ) → Fin 2} (he : EigSpec eig) (ha : ArgsortSpec argsort) (R : Report 2) (hR : report eig argsort argmax none exR = .ok R) :
    avg exR (fun x => lin R.u exR x 0 * lin R.u exR x 1) = R.evals 1 * ∑ k, R.u 0 k * R.u 1 k :=
  comps_cov he ha exR exR_weighted exR_sd' none R hR 0 1

/-- **C142** Without conditional parameters, and none constant: the components (their logarithms, if any parameter is logarithmic) have mean zero, those of different
eigenvalues are uncorrelated, and the variance is the eigenvalue times the squared length of the vector. -/
theorem comps_spec (he : EigSpec eig) (ha : ArgsortSpec argsort) (rows : Rows (Ix p 0)) (hw : Weighted rows) (hs : ∀ i, sd rows i ≠ 0) (nm : Option (Fin p)) :
    ∃ R, report eig argsort argmax nm rows = .ok R ∧ (∀ i, avg rows (fun x => lin R.u rows x i) = 0) ∧
      (∀ i j, R.evals i ≠ R.evals j → avg rows (fun x => lin R.u rows x i * lin R.u rows x j) = 0) ∧
      ∀ i, avg rows (fun x => lin R.u rows x i ^ 2) = R.evals i * ∑ j, R.u i j ^ 2 := by
  have hA : matrix rows = .ok (corr rows).toBlocks₁₁ := by unfold matrix; rw [if_pos rfl]
  obtain ⟨R, hR, _, _, _, _⟩ := eigen_spec (argmax := argmax) he ha rows _ hA nm
  have hcov := comps_cov (argmax := argmax) he ha rows hw hs nm R hR
  refine ⟨R, hR, fun i => ?_, fun i j hij => ?_, fun i => ?_⟩
  · unfold lin
    rw [avg_sum]
    refine Finset.sum_eq_zero (fun j _ => ?_)
    rw [avg_mul, std_mean rows hw, mul_zero]
  · have h1 := hcov i j
    have h2 := hcov j i
    have e1 : avg rows (fun x => lin R.u rows x j * lin R.u rows x i) = avg rows (fun x => lin R.u rows x i * lin R.u rows x j) := by
      congr 1; funext x; ring
    have e2 : ∑ k, R.u j k * R.u i k = ∑ k, R.u i k * R.u j k := Finset.sum_congr rfl (fun k _ => mul_comm _ _)
    rw [e1, e2, h1] at h2
    have : (R.evals j - R.evals i) * ∑ k, R.u i k * R.u j k = 0 := by rw [sub_mul, h2, sub_self]
    rcases mul_eq_zero.mp this with h | h
    · exact absurd (sub_eq_zero.mp h).symm hij
    · rw [h1, h, mul_zero]
  · have := hcov i i
    simp only [pow_two]
    exact this

example {eig : Eig 2} {argsort : (Fin 2 → ℝ) → Fin 2 → Fin 2} {argmax : (Fin 2 → ℝ) → Fin 2} (he : EigSpec eig) (ha : ArgsortSpec argsort) : ∃ R, report eig argsort argmax none exR = .ok R ∧ ∀ i, avg exR (fun x => lin R.u exR x i) = 0 := by
  obtain ⟨R, h, h1, -⟩ := comps_spec (argmax := argmax) he ha exR exR_weighted exR_sd' none
  exact ⟨R, h, h1⟩

/-- **C142** Without logarithms the mean and error printed for a component are zero and the root of eigenvalue times squared length. -/
theorem printed_spec (he : EigSpec eig) (ha : ArgsortSpec argsort) (rows : Rows (Ix p 0)) (hw : Weighted rows) (hs : ∀ i, sd rows i ≠ 0) (nm : Option (Fin p))
    (f : Fin p → PMap) (hf : ∀ i, f i = .N) : ∃ R, report eig argsort argmax nm rows = .ok R ∧
      ∀ i, newmean (fun x => comp f R.u rows x i) rows = 0 ∧ newsd (fun x => comp f R.u rows x i) rows = Real.sqrt (R.evals i * ∑ j, R.u i j ^ 2) := by
  obtain ⟨R, hR, h1, _, h3⟩ := comps_spec (argmax := argmax) he ha rows hw hs nm
  have hd : ¬ doexp f := by rintro ⟨i, hi⟩; exact hi (hf i)
  have hc : ∀ x i, comp f R.u rows x i = lin R.u rows x i := fun x i => by unfold comp; rw [if_neg hd]
  refine ⟨R, hR, fun i => ?_⟩
  have hm : newmean (fun x => comp f R.u rows x i) rows = 0 := by
    unfold newmean; simp only [hc]; exact h1 i
  refine ⟨hm, ?_⟩
  unfold newsd
  rw [hm]
  simp only [hc, sub_zero, h3]

example {eig : Eig 2} {argsort : (Fin 2 → ℝ) → Fin 2 → Fin 2} {argmax : (Fin 2 → ℝ) → Fin 2} (he : EigSpec eig) (ha : ArgsortSpec argsort) : ∃ R, report eig argsort argmax none exR = .ok R ∧
    ∀ i, newmean (fun x => comp (fun _ => .N) R.u exR x i) exR = 0 := by
  obtain ⟨R, h, h1⟩ := printed_spec (argmax := argmax) he ha exR exR_weighted exR_sd' none (fun _ => .N) (fun _ => rfl)
  exact ⟨R, h, fun i => (h1 i).1⟩

/-- **C142** The parameter chosen for normalisation has exponent (or divisor) one in every component in which it occurs. -/
theorem norm_spec (he : EigSpec eig) (ha : ArgsortSpec argsort) (rows : Rows (Ix p q)) (A : Matrix (Fin p) (Fin p) ℝ) (hA : matrix rows = .ok A) (k : Fin p)
    (hs : sd rows (.inl k) ≠ 0) (f : PMap) : ∃ R, report eig argsort argmax (some k) rows = .ok R ∧ ∀ i, R.vecs i k ≠ 0 → expo f (sd rows (.inl k)) (R.u i k) = 1 := by
  obtain ⟨R, hR, _, _, hu, _⟩ := eigen_spec (argmax := argmax) he ha rows A hA (some k)
  refine ⟨R, hR, fun i hi => ?_⟩
  have : R.u i k = sd rows (.inl k) := by
    rw [hu]; simp only [scaled, of_apply]; rw [div_self hi, one_mul]
  rw [this]
  cases f <;> simp [expo, hs]

example {eig : Eig 2} {argsort : (Fin 2 → ℝ) → Fin 2 → Fin 2} {argmax : (Fin 2 → ℝ) → Fin 2} (he : EigSpec eig) (ha : ArgsortSpec argsort) : ∃ R, report eig argsort argmax (some 1) exR = .ok R ∧ ∀ i, R.vecs i 1 ≠ 0 → expo .N (sd exR (.inl 1)) (R.u i 1) = 1 :=
  norm_spec he ha exR _ (if_pos rfl) 1 (exR_sd 1) .N

/-- **C142** Without it, in each component the parameter of largest weight has exponent (or divisor) one. -/
theorem default_norm (he : EigSpec eig) (ha : ArgsortSpec argsort) (hm : ArgmaxSpec argmax) (rows : Rows (Ix p q)) (A : Matrix (Fin p) (Fin p) ℝ) (hA : matrix rows = .ok A)
    (hs : ∀ i, sd rows (.inl i) ≠ 0) : ∃ R, report eig argsort argmax none rows = .ok R ∧
      ∀ i, ∃ k, (∀ j, |R.u i j| ≤ |R.u i k|) ∧ ∀ f, expo f (sd rows (.inl k)) (R.u i k) = 1 := by
  obtain ⟨R, hR, _, hv, hu, _⟩ := eigen_spec (argmax := argmax) he ha rows A hA none
  refine ⟨R, hR, fun i => ?_⟩
  set k := argmax (fun j => |R.vecs i j|) with hk
  have hmax : ∀ j, |R.vecs i j| ≤ |R.vecs i k| := hm (fun j => |R.vecs i j|)
  have h0 : R.vecs i k ≠ 0 := by
    intro h
    apply (hv i).2
    funext j
    have := hmax j
    rw [h, abs_zero] at this
    exact abs_eq_zero.mp (le_antisymm this (abs_nonneg _))
  have hval : ∀ j, R.u i j = R.vecs i j / R.vecs i k * sd rows (.inl k) := by
    intro j; rw [hu]; rfl
  refine ⟨k, fun j => ?_, fun f => ?_⟩
  · rw [hval j, hval k, abs_mul, abs_mul, abs_div, abs_div]
    exact mul_le_mul_of_nonneg_right (div_le_div_of_nonneg_right (hmax j) (abs_nonneg _)) (abs_nonneg _)
  · have : R.u i k = sd rows (.inl k) := by rw [hval k, div_self h0, one_mul]
    rw [this]
    cases f <;> simp [expo, hs]

example {eig : Eig 2} {argsort : (Fin 2 → ℝ) → Fin 2 → Fin 2} {argmax : (Fin 2 → ℝ) → Fin 2} (he : EigSpec eig) (ha : ArgsortSpec argsort) (hm : ArgmaxSpec argmax) : ∃ R, report eig argsort argmax none exR = .ok R ∧
    ∀ i, ∃ k, (∀ j, |R.u i j| ≤ |R.u i k|) ∧ ∀ f, expo f (sd exR (.inl k)) (R.u i k) = 1 :=
  default_norm he ha hm exR _ (if_pos rfl) exR_sd

/-! ### the formula printed -/

/-- logarithms can be taken -/
def InDomain (f : PMap) (x : ℝ) : Prop := match f with
  | .N => True
  | .L => 0 < x
  | .M => x < 0

theorem factor_eq (f : PMap) (m s u x : ℝ) (hd : InDomain f x) : factor f m s u x = Real.exp (u * ((applyMap f x - m) / s)) := by
  cases f with
  | N =>
    simp only [factor, expo, applyMap]
    congr 1
    rw [div_div_eq_mul_div]; ring
  | L =>
    simp only [factor, expo, divisor, applyMap]
    have hx : 0 < x := hd
    rw [Real.rpow_def_of_pos (div_pos hx (Real.exp_pos _)), Real.log_div hx.ne' (Real.exp_pos _).ne', Real.log_exp]
    congr 1; ring
  | M =>
    simp only [factor, expo, divisor, applyMap]
    have hx : 0 < -x := by have : x < 0 := hd; linarith
    have e : x / -Real.exp m = -x / Real.exp m := by rw [div_neg, neg_div]
    rw [e, Real.rpow_def_of_pos (div_pos hx (Real.exp_pos _)), Real.log_div hx.ne' (Real.exp_pos _).ne', Real.log_exp]
    congr 1
    rw [neg_one_mul]; ring

/-- what is done to all the parameters: conditional ones stay -/
def allMaps (f : Fin p → PMap) : Ix p q → PMap := Sum.elim f (fun _ => .N)

/-- **C142** The formula printed for a component, evaluated at the parameters of a sample, is the number whose mean and error are printed beside it. -/
theorem formula_spec (f : Fin p → PMap) (u : Matrix (Fin p) (Fin p) ℝ) (raw : Rows (Ix p q)) (X : Ix p q → ℝ) (hd : ∀ j, InDomain (f j) (X (.inl j)))
    (hs : ∀ j : Fin p, sd (mapped (allMaps f) raw) (.inl j) ≠ 0) (i : Fin p) :
    comp f u (mapped (allMaps f) raw) (fun k => applyMap (allMaps f k) (X k)) i =
      open Classical in if doexp f then ∏ j, factor (f j) (mean (mapped (allMaps f) raw) (.inl j)) (sd (mapped (allMaps f) raw) (.inl j)) (u i j) (X (.inl j))
      else ∑ j, term (mean (mapped (allMaps f) raw) (.inl j)) (sd (mapped (allMaps f) raw) (.inl j)) (u i j) (X (.inl j)) := by
  have hstd : ∀ j : Fin p, std (mapped (allMaps f) raw) (fun k => applyMap (allMaps f k) (X k)) (.inl j) =
      (applyMap (f j) (X (.inl j)) - mean (mapped (allMaps f) raw) (.inl j)) / sd (mapped (allMaps f) raw) (.inl j) := by
    intro j
    unfold std
    rw [if_pos (hs j)]
    rfl
  unfold comp lin
  simp only [hstd]
  by_cases h : doexp f
  · rw [if_pos h, if_pos h, Real.exp_sum]
    refine Finset.prod_congr rfl (fun j _ => ?_)
    rw [factor_eq _ _ _ _ _ (hd j)]
  · rw [if_neg h, if_neg h]
    refine Finset.sum_congr rfl (fun j _ => ?_)
    have hN : f j = .N := by
      by_contra hc
      exact h ⟨j, hc⟩
    rw [hN]
    simp only [applyMap, term, expo]
    rw [div_div_eq_mul_div]; ring

example (u : Matrix (Fin 2) (Fin 2) ℝ) : comp (fun _ => .N) u (mapped (allMaps fun _ => .N) exR) (fun k => applyMap (allMaps (fun _ => .N) k) (Sum.elim ![3, 4] ![] k)) 0 =
    ∑ j, term (mean exR (.inl j)) (sd exR (.inl j)) (u 0 j) (![3, 4] j) := by
  have e : mapped (allMaps (p := 2) (q := 0) fun _ => .N) exR = exR := by
    simp only [mapped, exR, List.map_cons, List.map_nil]
    congr <;> (ext k; match k with | .inl k => rfl)
  rw [formula_spec (fun _ => .N) u exR _ (fun _ => trivial) (by rw [e]; exact exR_sd) 0, if_neg (by rintro ⟨i, h⟩; exact h rfl), e]
  rfl

/-! ### conditional parameters -/

/-- **C142** With conditional parameters the matrix is that of what is left when they are known: its value on a combination is the least variance of the combination
with any multiples of the conditional parameters added. -/
theorem cond_spec (rows : Rows (Ix p q)) (hw : Weighted rows) (hs : ∀ i, sd rows i ≠ 0) (hq : q ≠ 0) (A : Matrix (Fin p) (Fin p) ℝ) (hA : matrix rows = .ok A) (v : Fin p → ℝ) :
    IsLeast (Set.range (fun w : Fin q → ℝ => avg rows (fun x => combo rows (Sum.elim v w) x ^ 2))) (v ⬝ᵥ (A *ᵥ v)) := by
  unfold matrix at hA
  rw [if_neg hq] at hA
  split at hA
  · cases hA
  split at hA
  · cases hA
  rename_i h1 h2
  injection hA with hA
  set C := corr rows with hC
  set P := C⁻¹ with hP
  have hCP : C * P = 1 := mul_nonsing_inv _ (isUnit_iff_ne_zero.mpr h1)
  have hPA : P.toBlocks₁₁ * A = 1 := by rw [← hA]; exact mul_nonsing_inv _ (isUnit_iff_ne_zero.mpr h2)
  have hvar : ∀ t : Ix p q → ℝ, avg rows (fun x => combo rows t x ^ 2) = t ⬝ᵥ (C *ᵥ t) := by
    intro t
    rw [hC, dot_corr rows hw]
    simp only [hs, if_false, Finset.sum_const_zero, add_zero, pow_two]
  set t : Ix p q → ℝ := P *ᵥ (Sum.elim (A *ᵥ v) 0) with ht
  have htl : ∀ i, t (.inl i) = v i := by
    intro i
    have : t (.inl i) = (P.toBlocks₁₁ *ᵥ (A *ᵥ v)) i := by
      rw [ht]; simp [mulVec, dotProduct, toBlocks₁₁]
    rw [this, mulVec_mulVec, hPA, one_mulVec]
  have htC : C *ᵥ t = Sum.elim (A *ᵥ v) 0 := by rw [ht, mulVec_mulVec, hCP, one_mulVec]
  have hte : t = Sum.elim v (fun k => t (.inr k)) := by
    funext k; cases k with
    | inl i => exact htl i
    | inr k => rfl
  have hval : t ⬝ᵥ (C *ᵥ t) = v ⬝ᵥ (A *ᵥ v) := by
    rw [htC]
    simp [dotProduct, htl]
  constructor
  · refine ⟨fun k => t (.inr k), ?_⟩
    simp only
    rw [← hte, hvar, hval]
  · rintro y ⟨w, rfl⟩
    simp only
    rw [hvar]
    set δ : Ix p q → ℝ := Sum.elim 0 (fun k => w k - t (.inr k)) with hδ
    have hsum : (Sum.elim v w : Ix p q → ℝ) = t + δ := by
      funext k; cases k with
      | inl i => simp [hδ, htl]
      | inr k => simp [hδ]
    have hz : δ ⬝ᵥ (C *ᵥ t) = 0 := by
      rw [htC]; simp [dotProduct, hδ]
    have hz' : t ⬝ᵥ (C *ᵥ δ) = 0 := by
      rw [dotProduct_mulVec, ← mulVec_transpose, hC, corr_symm, ← hC, dotProduct_comm]; exact hz
    have hp : 0 ≤ δ ⬝ᵥ (C *ᵥ δ) := corr_nonneg rows hw δ
    rw [hsum, mulVec_add, add_dotProduct, dotProduct_add, dotProduct_add, hz, hz', hval]
    linarith

/-- three samples of one parameter and one conditional parameter -/
def exQ : Rows (Ix 1 1) := [(1, Sum.elim ![0] ![1]), (1, Sum.elim ![2] ![1]), (2, Sum.elim ![4] ![5])]

example (A : Matrix (Fin 1) (Fin 1) ℝ) (hA : matrix exQ = .ok A) :
    IsLeast (Set.range (fun w : Fin 1 → ℝ => avg exQ (fun x => combo exQ (Sum.elim ![1] w) x ^ 2))) (![1] ⬝ᵥ (A *ᵥ ![1])) := by
  refine cond_spec exQ ⟨?_, by norm_num [exQ]⟩ ?_ (by decide) A hA ![1]
  · intro r hr
    simp only [exQ, List.mem_cons, List.not_mem_nil, or_false] at hr
    rcases hr with rfl | rfl | rfl <;> norm_num
  · intro i
    unfold sd
    rw [Real.sqrt_ne_zero']
    match i with
    | .inl 0 => norm_num [avg, mean, exQ]
    | .inr 0 => norm_num [avg, mean, exQ]

end comps

/-! ## choice of parameters -/

/-- **C142** By default a parameter is logarithmic exactly if it is never negative and its smallest value is at least a tenth of its range. -/
theorem default_spec (a b : ℝ) : (defaultMap a b = .L ↔ 0 ≤ b ∧ b - a ≤ 10 * a) ∧ (defaultMap a b = .L → 0 < b → 0 < a) ∧ defaultMap a b ≠ .M := by
  unfold defaultMap
  by_cases h : b < 0 ∨ a < (b - a) / 10
  · rw [if_pos h]
    refine ⟨⟨fun e => (by cases e), fun e => ?_⟩, fun e => (by cases e), by intro e; cases e⟩
    rcases h with h | h
    · linarith [e.1]
    · linarith [e.2]
  · rw [if_neg h]
    push Not at h
    refine ⟨⟨fun _ => ⟨h.1, by linarith [h.2]⟩, fun _ => rfl⟩, fun _ hb => by linarith [h.2], ?_⟩
    intro e; cases e

example : defaultMap 1 5 = .L ∧ defaultMap 1 20 ≠ .L := ⟨(default_spec 1 5).1.mpr (by norm_num), fun h => by have := (default_spec 1 20).1.mp h; norm_num at this⟩

end Verif.PCA
