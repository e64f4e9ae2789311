import Mathlib.Data.Fintype.BigOperators
import Mathlib.Algebra.BigOperators.Fin
import Verif.Props.Plik

/-!
# Coadded spectra of the Planck likelihood; defects
-/

namespace Verif.Plik
open Verif.Py Matrix

set_option linter.unusedSectionVars false

section generic
variable {F : Type} [Field F] [DecidableEq F]

/-! ### the loops over entries that are not zero are matrix products -/

theorem addRow_fold {m n : Nat} {α : Type} (ps : List α) (i : α → Fin m) (a : α → F) (row : α → Fin n → F) (M : Matrix (Fin m) (Fin n) F) (i' : Fin m) (k : Fin n) :
    (ps.foldl (fun M p => addRow (i p) (a p) (row p) M) M) i' k = M i' k + (ps.map fun p => if i p = i' then a p * row p k else 0).sum := by
  induction ps generalizing M with
  | nil => simp
  | cons p ps ih =>
    rw [List.foldl_cons, ih, List.map_cons, List.sum_cons]
    unfold addRow
    simp only [Matrix.of_apply]
    by_cases h : i p = i'
    · rw [if_pos h.symm, if_pos h]; ring
    · rw [if_neg (fun hh => h hh.symm), if_neg h]; ring

theorem sum_filter_zero {α : Type} (ps : List α) (p : α → Bool) (f : α → F) (h : ∀ x, p x = false → f x = 0) : ((ps.filter p).map f).sum = (ps.map f).sum := by
  induction ps with
  | nil => rfl
  | cons x ps ih =>
    rcases hx : p x with _ | _
    · rw [List.filter_cons_of_neg (by simp [hx]), ih, List.map_cons, List.sum_cons, h x hx, zero_add]
    · rw [List.filter_cons_of_pos hx, List.map_cons, List.sum_cons, ih, List.map_cons, List.sum_cons]

theorem sum_nonzeros {m n : Nat} (A : Matrix (Fin m) (Fin n) F) (i' : Fin m) (g : Fin n → F) :
    ((nonzeros A).map fun p => if p.1 = i' then A p.1 p.2 * g p.2 else 0).sum = ∑ j, A i' j * g j := by
  unfold nonzeros
  rw [sum_filter_zero]
  · have h1 : ∀ is : List (Fin m), ((is.flatMap fun i => (List.finRange n).map fun j => (i, j)).map fun p : Fin m × Fin n => if p.1 = i' then A p.1 p.2 * g p.2 else 0).sum =
        (is.map fun i => ∑ j, if i = i' then A i j * g j else 0).sum := by
      intro is
      induction is with
      | nil => rfl
      | cons i is ih =>
        rw [List.flatMap_cons, List.map_append, List.sum_append, ih, List.map_cons, List.sum_cons, List.map_map]
        rw [Fin.sum_univ_def]
        rfl
    rw [h1, ← Fin.sum_univ_def]
    rw [Finset.sum_eq_single i']
    · simp
    · intro b _ hb
      simp [hb]
    · intro h
      exact absurd (Finset.mem_univ _) h
  · rintro ⟨i, j⟩ h
    simp only [ne_eq, decide_not, Bool.not_eq_false', decide_eq_true_eq] at h
    simp [h]

theorem jtS_eq {m n : Nat} (A : Matrix (Fin m) (Fin n) F) (S : Matrix (Fin n) (Fin n) F) : jtS A S = A * S := by
  ext i k
  unfold jtS
  rw [addRow_fold (nonzeros A) (fun p => p.1) (fun p => A p.1 p.2) (fun p k => S p.2 k) 0 i k, sum_nonzeros A i fun j => S j k]
  simp [Matrix.mul_apply]

theorem jtSJ_eq {m n : Nat} (A T : Matrix (Fin m) (Fin n) F) : jtSJ A T = A * Tᵀ := by
  ext i k
  unfold jtSJ
  rw [addRow_fold (nonzeros A) (fun p => p.1) (fun p => A p.1 p.2) (fun p k => T k p.2) 0 i k, sum_nonzeros A i fun j => T k j]
  simp [Matrix.mul_apply]

/-- Example: a matrix with zeros. -/
example : jtS (!![1, 0; 0, 2] : Matrix (Fin 2) (Fin 2) ℚ) !![3, 1; 1, 4] = !![3, 1; 2, 8] := by decide +kernel

/-! ### scaling of the covariance -/

theorem scale_fold {n : Nat} (is : List (Fin n)) (hn : is.Nodup) (fac : Fin n → F) (C : Matrix (Fin n) (Fin n) F) (a b : Fin n) :
    (is.foldl (fun C i => scaleCol i fac (scaleRow i fac C)) C) a b = C a b * (if a ∈ is then fac b else 1) * (if b ∈ is then fac a else 1) := by
  induction is generalizing C with
  | nil => simp
  | cons i is ih =>
    have hni := (List.nodup_cons.mp hn).1
    rw [List.foldl_cons, ih (List.nodup_cons.mp hn).2]
    unfold scaleCol scaleRow
    simp only [Matrix.of_apply, List.mem_cons]
    by_cases ha : a = i
    · by_cases hb : b = i
      · subst ha
        subst hb
        simp [hni]
      · subst ha
        simp only [hni, hb, if_true, if_false, true_or, false_or]
        ring
    · by_cases hb : b = i
      · subst hb
        simp only [hni, ha, if_true, if_false, true_or, false_or]
        ring
      · simp [ha, hb]

/-- The loop scales rows and columns: the covariance of the scaled spectrum. -/
theorem scaleLoop_spec {n : Nat} (fac : Fin n → F) (C : Matrix (Fin n) (Fin n) F) : scaleLoop fac C = Matrix.diagonal fac * C * Matrix.diagonal fac := by
  ext a b
  unfold scaleLoop
  rw [scale_fold _ (List.nodup_finRange n), if_pos (List.mem_finRange a), if_pos (List.mem_finRange b), Matrix.mul_diagonal, Matrix.diagonal_mul]
  ring

/-- Example: two bins. -/
example : scaleLoop (![2, 3]) (!![1, 1; 1, 4] : Matrix (Fin 2) (Fin 2) ℚ) = !![4, 6; 6, 36] := by decide +kernel

/-! ### rows kept -/

theorem goodRows_nodup {N n : Nat} (J : Matrix (Fin N) (Fin n) F) : (goodRows J).Nodup := (List.nodup_finRange N).filter _

/-- The values go back to the rows they belong to; the others are zero. -/
theorem spreadGood_spec {N : Nat} (good : List (Fin N)) (hn : good.Nodup) (r : Nat → F) :
    (∀ k (hk : k < good.length), spreadGood good r good[k] = r k) ∧ ∀ i, i ∉ good → spreadGood good r i = 0 := by
  constructor
  · intro k hk
    unfold spreadGood
    rw [if_pos (List.getElem_mem hk), hn.idxOf_getElem k hk]
  · intro i hi
    unfold spreadGood
    rw [if_neg hi]

example : spreadGood [(0 : Fin 4), 3] (fun k => (k + 7 : ℚ)) 3 = 8 ∧ spreadGood [(0 : Fin 4), 3] (fun k => (k + 7 : ℚ)) 2 = 0 := by decide +kernel

/-- If the rows of the first spectrum are all kept, they are the first in the result. -/
theorem goodRows_first {N n : Nat} (J : Matrix (Fin N) (Fin n) F) (m : Nat) (hm : m ≤ N) (h : ∀ i : Fin N, i.val < m → (∑ k, J i k) ≠ 0) (k : Nat) (hk : k < m) :
    ((goodRows J)[k]?).map Fin.val = some k := by
  have hsplit : goodRows J = (List.finRange N).take m ++ ((List.finRange N).drop m).filter fun i => (∑ k, J i k) ≠ 0 := by
    unfold goodRows
    conv_lhs => rw [← List.take_append_drop m (List.finRange N), List.filter_append]
    congr 1
    rw [List.filter_eq_self]
    intro i hi
    rw [List.mem_take_iff_getElem] at hi
    obtain ⟨j, hj, rfl⟩ := hi
    simp only [ne_eq, decide_not, Bool.not_eq_true', decide_eq_false_iff_not]
    apply h
    simp
    omega
  have hl : k < ((List.finRange N).take m).length := by simp; omega
  rw [hsplit, List.getElem?_append_left hl, List.getElem?_take_of_lt hk, List.getElem?_eq_getElem (by simp; omega)]
  simp

example : goodRows !![1, 2; 0, 3; (0 : ℚ), 0] = [0, 1] := by decide +kernel

theorem sum_good {N n : Nat} (J : Matrix (Fin N) (Fin n) F) (f : Fin N → F) (hf : ∀ i, (∑ k, J i k) = 0 → f i = 0) :
    (∑ i : Fin (goodRows J).length, f (goodRows J)[i.val]) = ∑ i, f i := by
  have h1 : (∑ i : Fin (goodRows J).length, f (goodRows J)[i.val]) = ((goodRows J).map f).sum := by
    rw [← List.sum_ofFn]
    congr 1
    apply List.ext_getElem
    · simp
    · intro i h1 h2
      simp
  rw [h1]
  unfold goodRows
  rw [sum_filter_zero, ← Fin.sum_univ_def]
  intro i hi
  simp only [ne_eq, decide_not, Bool.not_eq_false', decide_eq_true_eq] at hi
  exact hf i hi

/-- The difference of model and data, for a model spectrum `t`, is linear in the rows kept of the spectrum. -/
theorem delta_spec {N n : Nat} (J : Matrix (Fin N) (Fin n) F) (hJ : ∀ i, (∑ k, J i k) = 0 → ∀ k, J i k = 0) (oo : Fin n → Nat × Nat × Nat)
    (g cmb nuis hat : Nat → Nat → Nat → F) (t : Fin N → F) (hc : ∀ k, cmb (oo k).1 (oo k).2.1 (oo k).2.2 = ∑ i, t i * J i k) :
    deltaVec oo (modelRq g cmb nuis) hat =
      (fun i : Fin (goodRows J).length => t (goodRows J)[i.val]) ᵥ* scaledRows J (fun k => g (oo k).1 (oo k).2.1 (oo k).2.2) +
        deltaVec oo (fun b i j => g b i j * nuis b i j) hat := by
  funext k
  simp only [deltaVec, modelRq, Pi.add_apply, Matrix.vecMul, dotProduct, scaledRows, Matrix.of_apply]
  rw [hc k]
  have := sum_good J (fun i => t i * (J i k * g (oo k).1 (oo k).2.1 (oo k).2.2)) (fun i hi => by rw [hJ i hi k]; ring)
  rw [this, mul_add, Finset.mul_sum]
  have h2 : (∑ i, g (oo k).1 (oo k).2.1 (oo k).2.2 * (t i * J i k)) = ∑ i, t i * (J i k * g (oo k).1 (oo k).2.1 (oo k).2.2) :=
    Finset.sum_congr rfl fun i _ => by ring
  rw [h2]
  ring

example : (List.finRange 2).map (deltaVec (fun k : Fin 2 => (k.val, 0, 0)) (modelRq (fun _ _ _ => 2) (fun b _ _ => ∑ i, (![5, 7, 9] : Fin 3 → ℚ) i * !![1, 0; 0, 1; 0, 0] i ⟨b % 2, Nat.mod_lt _ (by decide)⟩)
    (fun _ _ _ => 1)) (fun _ _ _ => 3)) = [5 * 2 + (2 - 3), 7 * 2 + (2 - 3)] := by decide +kernel

end generic

/-! ### the coadded spectrum is the best fit -/

variable {m n : Nat}

theorem chiSq_add (S : Matrix (Fin n) (Fin n) ℝ) (hS : Sᵀ = S) (u w : Fin n → ℝ) : chiSq S (u + w) = chiSq S u + chiSq S w + 2 * (w ⬝ᵥ (S *ᵥ u)) := by
  unfold chiSq
  rw [Matrix.mulVec_add, dotProduct_add, add_dotProduct, add_dotProduct]
  have : u ⬝ᵥ (S *ᵥ w) = w ⬝ᵥ (S *ᵥ u) := by
    rw [Matrix.dotProduct_mulVec, ← Matrix.mulVec_transpose, hS, dotProduct_comm]
  rw [this]
  ring

theorem normal_posDef (A : Matrix (Fin m) (Fin n) ℝ) (S : Matrix (Fin n) (Fin n) ℝ) (hS : S.PosDef) (hA : ∀ r : Fin m → ℝ, r ᵥ* A = 0 → r = 0) : (A * S * Aᵀ).PosDef := by
  have := hS.mul_mul_conjTranspose_same (B := A) (by
    intro a b hab
    have : (a - b) ᵥ* A = 0 := by
      rw [Matrix.sub_vecMul]
      simpa [sub_eq_zero] using hab
    exact sub_eq_zero.mp (hA _ this))
  simpa [Matrix.conjTranspose_eq_transpose_of_trivial] using this

theorem symm_of_posDef (S : Matrix (Fin n) (Fin n) ℝ) (hS : S.PosDef) : Sᵀ = S := by
  have := hS.1
  rwa [Matrix.IsHermitian, Matrix.conjTranspose_eq_transpose_of_trivial] at this

/-- The returned matrix is `J S Jᵀ`. -/
theorem jtSJ_normal (A : Matrix (Fin m) (Fin n) ℝ) (S : Matrix (Fin n) (Fin n) ℝ) (hS : Sᵀ = S) : jtSJ A (jtS A S) = A * S * Aᵀ := by
  rw [jtSJ_eq, jtS_eq, Matrix.transpose_mul, hS, Matrix.mul_assoc]

theorem rVec_eq (A : Matrix (Fin m) (Fin n) ℝ) (S : Matrix (Fin n) (Fin n) ℝ) (hS : S.PosDef) (hA : ∀ r : Fin m → ℝ, r ᵥ* A = 0 → r = 0) (Yo : Fin n → ℝ) :
    (A * S * Aᵀ) *ᵥ rVec A S Yo = -((A * S) *ᵥ Yo) := by
  have hN := normal_posDef A S hS hA
  unfold rVec
  rw [jtSJ_normal A S (symm_of_posDef S hS), jtS_eq, Matrix.mulVec_neg, Matrix.mulVec_mulVec, Matrix.mul_nonsing_inv _ ((Matrix.isUnit_iff_isUnit_det _).mp hN.isUnit),
    Matrix.one_mulVec]

/-- Chi squared of any spectrum is that of the coadded spectrum plus the quadratic form of the returned inverse covariance. -/
theorem chiSq_split (A : Matrix (Fin m) (Fin n) ℝ) (S : Matrix (Fin n) (Fin n) ℝ) (hS : S.PosDef) (hA : ∀ r : Fin m → ℝ, r ᵥ* A = 0 → r = 0) (Yo : Fin n → ℝ)
    (r : Fin m → ℝ) :
    chiSq S (r ᵥ* A + Yo) = chiSq S (rVec A S Yo ᵥ* A + Yo) + chiSq (jtSJ A (jtS A S)) (r - rVec A S Yo) := by
  have hsym := symm_of_posDef S hS
  have h1 : r ᵥ* A + Yo = (rVec A S Yo ᵥ* A + Yo) + (r - rVec A S Yo) ᵥ* A := by
    rw [Matrix.sub_vecMul]
    abel
  rw [h1, chiSq_add S hsym]
  have h2 : (r - rVec A S Yo) ᵥ* A ⬝ᵥ (S *ᵥ (rVec A S Yo ᵥ* A + Yo)) = 0 := by
    rw [← Matrix.dotProduct_mulVec, Matrix.mulVec_mulVec, Matrix.mulVec_add]
    have h3 : (A * S) *ᵥ (rVec A S Yo ᵥ* A) = (A * S * Aᵀ) *ᵥ rVec A S Yo := by
      rw [← Matrix.mulVec_transpose, Matrix.mulVec_mulVec]
    rw [h3, rVec_eq A S hS hA, neg_add_cancel, dotProduct_zero]
  rw [h2, mul_zero, add_zero, jtSJ_normal A S hsym]
  congr 1
  unfold chiSq
  generalize r - rVec A S Yo = e
  rw [← Matrix.dotProduct_mulVec, ← Matrix.mulVec_transpose, Matrix.mulVec_mulVec, Matrix.mulVec_mulVec]

/-- The coadded spectrum fits better than every other. -/
theorem rVec_best (A : Matrix (Fin m) (Fin n) ℝ) (S : Matrix (Fin n) (Fin n) ℝ) (hS : S.PosDef) (hA : ∀ r : Fin m → ℝ, r ᵥ* A = 0 → r = 0) (Yo : Fin n → ℝ)
    (r : Fin m → ℝ) (hr : r ≠ rVec A S Yo) : chiSq S (rVec A S Yo ᵥ* A + Yo) < chiSq S (r ᵥ* A + Yo) := by
  rw [chiSq_split A S hS hA Yo r, jtSJ_normal A S (symm_of_posDef S hS)]
  have := (normal_posDef A S hS hA).dotProduct_mulVec_pos (sub_ne_zero.mpr hr)
  simp only [star_trivial] at this
  unfold chiSq
  linarith

/-- Data that are exactly a spectrum give this spectrum back. -/
theorem rVec_exact (A : Matrix (Fin m) (Fin n) ℝ) (S : Matrix (Fin n) (Fin n) ℝ) (hS : S.PosDef) (hA : ∀ r : Fin m → ℝ, r ᵥ* A = 0 → r = 0) (r : Fin m → ℝ) :
    rVec A S (-(r ᵥ* A)) = r := by
  by_contra hne
  have h1 := rVec_best A S hS hA (-(r ᵥ* A)) r (fun h => hne h.symm)
  rw [add_neg_cancel] at h1
  have h2 : chiSq S 0 = 0 := by simp [chiSq]
  rw [h2] at h1
  have h3 := hS.posSemidef.dotProduct_mulVec_nonneg (rVec A S (-(r ᵥ* A)) ᵥ* A + -(r ᵥ* A))
  simp only [star_trivial] at h3
  unfold chiSq at h1
  linarith

/-- The coadded spectrum is linear in the data, and with the covariance of the data its covariance is the inverse of the returned matrix. -/
theorem rVec_cov (A : Matrix (Fin m) (Fin n) ℝ) (S : Matrix (Fin n) (Fin n) ℝ) (hS : S.PosDef) (hA : ∀ r : Fin m → ℝ, r ᵥ* A = 0 → r = 0) :
    ∃ L : Matrix (Fin m) (Fin n) ℝ, (∀ Yo, rVec A S Yo = L *ᵥ Yo) ∧ L * S⁻¹ * Lᵀ = (jtSJ A (jtS A S))⁻¹ := by
  have hsym := symm_of_posDef S hS
  have hN := normal_posDef A S hS hA
  have hNs := symm_of_posDef _ hN
  have hdS := (Matrix.isUnit_iff_isUnit_det _).mp hS.isUnit
  have hdN := (Matrix.isUnit_iff_isUnit_det _).mp hN.isUnit
  refine ⟨-((A * S * Aᵀ)⁻¹ * (A * S)), ?_, ?_⟩
  · intro Yo
    unfold rVec
    rw [jtSJ_normal A S hsym, jtS_eq, Matrix.mulVec_mulVec, Matrix.neg_mulVec]
  · rw [jtSJ_normal A S hsym, Matrix.transpose_neg, Matrix.transpose_mul, Matrix.transpose_mul, hsym, Matrix.transpose_nonsing_inv, hNs]
    rw [Matrix.neg_mul, Matrix.neg_mul, Matrix.mul_neg, neg_neg]
    rw [Matrix.mul_assoc _ (A * S) S⁻¹, Matrix.mul_assoc A S S⁻¹, Matrix.mul_nonsing_inv _ hdS, Matrix.mul_one]
    rw [Matrix.mul_assoc, ← Matrix.mul_assoc A, ← Matrix.mul_assoc A, Matrix.mul_nonsing_inv _ hdN, Matrix.mul_one]

/-- No theory spectrum fits better than the coadded spectrum: chi squared of the likelihood is at least its chi squared. -/
theorem coadd_best {N : Nat} (J : Matrix (Fin N) (Fin n) ℝ) (hJ : ∀ i, (∑ k, J i k) = 0 → ∀ k, J i k = 0) (oo : Fin n → Nat × Nat × Nat)
    (g cmb nuis hat : Nat → Nat → Nat → ℝ) (S : Matrix (Fin n) (Fin n) ℝ) (hS : S.PosDef)
    (hA : ∀ r, r ᵥ* scaledRows J (fun k => g (oo k).1 (oo k).2.1 (oo k).2.2) = 0 → r = 0)
    (t : Fin N → ℝ) (hc : ∀ k, cmb (oo k).1 (oo k).2.1 (oo k).2.2 = ∑ i, t i * J i k) :
    let A := scaledRows J (fun k => g (oo k).1 (oo k).2.1 (oo k).2.2)
    let Yo := deltaVec oo (fun b i j => g b i j * nuis b i j) hat
    chiSq S (rVec A S Yo ᵥ* A + Yo) ≤ chiSq S (deltaVec oo (modelRq g cmb nuis) hat) := by
  intro A Yo
  rw [delta_spec J hJ oo g cmb nuis hat t hc, chiSq_split A S hS hA Yo (fun i : Fin (goodRows J).length => t (goodRows J)[i.val])]
  have := (normal_posDef A S hS hA).posSemidef.dotProduct_mulVec_nonneg ((fun i : Fin (goodRows J).length => t (goodRows J)[i.val]) - rVec A S Yo)
  rw [jtSJ_normal A S (symm_of_posDef S hS)]
  simp only [star_trivial] at this
  unfold chiSq
  linarith

/-- Example: two measurements of one value with equal weights give the mean. -/
example : rVec (!![1, 1] : Matrix (Fin 1) (Fin 2) ℚ) 1 ![-1, -3] = ![2] := by
  unfold rVec
  rw [jtSJ_eq, jtS_eq]
  ext i
  fin_cases i
  have : ((!![1, 1] : Matrix (Fin 1) (Fin 2) ℚ) * ((!![1, 1] : Matrix (Fin 1) (Fin 2) ℚ) * (1 : Matrix (Fin 2) (Fin 2) ℚ))ᵀ) = !![2] := by decide +kernel
  rw [this]
  simp
  norm_num

/-! ### temperature -/

section tt
variable {F : Type} [Field F] [DecidableEq F]

/-- With bins of one multipole, the spectrum has the value of each multipole at its place. -/
theorem ttOf_spec (l0 : Nat) (vals : List F) (h : vals ≠ []) :
    ttOf ((List.range vals.length).map (l0 + ·)) vals = .ok (List.replicate l0 0 ++ vals) := by
  have hl : 0 < vals.length := List.length_pos_of_ne_nil h
  obtain ⟨k, hk⟩ : ∃ k, vals.length = k + 1 := ⟨vals.length - 1, by omega⟩
  unfold ttOf
  rw [hk]
  have h1 : ((List.range (k + 1)).map (l0 + ·)).headD 0 = l0 := by simp [List.range_succ_eq_map]
  have h2 : ((List.range (k + 1)).map (l0 + ·)).getLastD 0 = l0 + k := by simp [List.range_succ]
  simp only [h1, h2]
  rw [if_pos (by omega), show min l0 (l0 + k + 1) = l0 by omega]

end tt

/-- Example. -/
example : ttOf [2, 3, 4] [(5 : ℚ), 6, 7] = .ok [0, 0, 5, 6, 7] := by decide +kernel

/-! ### defects -/

/-- Under python 3 the likelihood cannot be set up: the number of bins is the quotient of two integers, a float, and is used to cut an array.  (CMB_plik.py:50, 61) -/
theorem setup_fails (nbins nspec : Int) : numBins nbins nspec = .error .type := rfl

/-- The length of the coadded temperature spectrum is a float (multipoles are a product with the bin weights), which numpy does not accept.  (CMB_plik.py:61, 281) -/
theorem ttLength_fails (lsLast : ℚ) : ttLength lsLast = .error .type := rfl

/-- The full statement: the coadded temperature can be had for all bins. -/
def AllBins : Prop := ∀ (ls : List Nat) (vals : List ℚ), ls.Pairwise (· < ·) → ls.length = vals.length → ∃ tt, ttOf ls vals = .ok tt

/-- Bins of more than one multipole cannot be put into the array of multipoles.  (CMB_plik.py:281-283) -/
theorem wideBins_fails : ¬ AllBins := by
  intro h
  obtain ⟨tt, ht⟩ := h [32, 37] [1, 2] (by decide) rfl
  have : ttOf [32, 37] [(1 : ℚ), 2] = .error .value := by decide +kernel
  rw [this] at ht
  cases ht

/-- The full statement: the first block of the covariance is that of the temperature bins. -/
def FirstBlock : Prop := ∀ (N n : Nat) (J : Matrix (Fin N) (Fin n) ℚ) (nTT k : Nat) (i : Fin N), nTT ≤ N → k < nTT → (goodRows J)[k]? = some i → i.val < nTT

/-- Rows without data are left out of the covariance, but the temperature block is cut as if all were there: with a temperature bin not used, bins of another spectrum
are returned as the last bins of temperature.  (CMB_plik.py:239-240, 285) -/
theorem firstBlock_fails : ¬ FirstBlock := by
  intro h
  have := h 2 1 !![0; 1] 1 0 1 (by decide) (by decide) (by decide +kernel)
  exact absurd this (by decide)

/-- The full statement: only the letter of the version differs from the name of the file. -/
def OnlyVersion : Prop := candidate c!"data_v22a_TT" c!"a_" = c!"data_v22_TT"

/-- The letter is taken out everywhere before an underscore.  (CMB_plik.py:24) -/
theorem candidate_fails : ¬ OnlyVersion := by
  unfold OnlyVersion
  decide

/-- The full statement: a parameter of the library without a name in the file is found when the likelihood is set up. -/
def NamesChecked : Prop := ∀ (clikNames parnames : List Str) (values : Dict Str ℚ), (∀ p ∈ parnames, ∃ v, values.get? p = some v) →
  ∃ vs, nuisanceVector (translate clikNames parnames) values clikNames = .ok vs

/-- With fewer names than the library has, the likelihood fails with a KeyError at the first call.  (CMB_plik.py:92, 99) -/
theorem fewNames_fails : ¬ NamesChecked := by
  intro h
  obtain ⟨vs, hv⟩ := h [c!"a", c!"b"] [c!"x"] [(c!"x", 1)] (by
    intro p hp
    simp only [List.mem_singleton] at hp
    subst hp
    exact ⟨1, by decide +kernel⟩)
  have : nuisanceVector (translate [c!"a", c!"b"] [c!"x"]) [(c!"x", (1 : ℚ))] [c!"a", c!"b"] = .error .key := by decide +kernel
  rw [this] at hv
  cases hv

end Verif.Plik
