import Verif.Props.PCA
import Verif.Props.CMBlikesHL

/-!
# Principal components: where the report is not what is promised
-/

namespace Verif.PCA
open Verif.Py Matrix

/-! ## choice of parameters -/

/-- **C142** If all parameters exist, each is used with its own letter, and the one chosen for normalisation is found. -/
theorem choose_spec (index : Dict Str Nat) (range : Nat → ℝ × ℝ) (params : List Str) (m : List Char) (ix : List Nat) (hix : params.map index.get? = ix.map some)
    (hm : params.length ≤ m.length) (n : Str) (hn : n ∈ params) :
    ∃ c, choose index range params (some m) (some n) [] = .ok c ∧ c.indices = ix ∧ c.maps = (m.take params.length).map letter ∧
      ∃ k, c.norm = some k ∧ params[k]? = some n := by
  have hp : ∀ n ∈ params, (index.get? n).isSome := by
    intro n hn
    have : index.get? n ∈ ix.map some := hix ▸ List.mem_map_of_mem hn
    obtain ⟨i, _, hi⟩ := List.mem_map.mp this
    rw [← hi]; rfl
  have h1 : params.filter (fun n => (index.get? n).isSome) = params := List.filter_eq_self.mpr hp
  have h2 : params.filterMap index.get? = ix := by
    have : params.filterMap index.get? = (params.map index.get?).filterMap id := by rw [List.filterMap_map]; rfl
    rw [this, hix, List.filterMap_map]
    simp
  have h3 : ix.length = params.length := by simpa using (congrArg List.length hix).symm
  refine ⟨⟨ix, (m.take params.length).map letter, [], some (params.idxOf n)⟩, ?_, rfl, rfl, _, rfl, ?_⟩
  · unfold choose
    rw [h1]
    simp only [h2, List.mapM_nil, bind, Except.bind, pure, Except.pure, h3, not_lt.mpr hm, if_false, hn, if_true]
  · rw [List.getElem?_eq_getElem (List.idxOf_lt_length_of_mem hn), List.getElem_idxOf]

example (range : Nat → ℝ × ℝ) : choose [(c!"x", 0), (c!"y", 1)] range [c!"y", c!"x"] (some c!"LN") (some c!"x") [] = .ok ⟨[1, 0], [.L, .N], [], some 1⟩ := rfl

def twoPars : Dict Str Nat := [(c!"x", 0), (c!"y", 1)]

/-- **C143** If one of the parameters does not exist it is left out, but the letters of the map are not moved: the letter of the missing parameter is used for the next. -/
theorem map_shift_fails (range : Nat → ℝ × ℝ) :
    choose twoPars range [c!"z", c!"x", c!"y"] (some c!"LNN") none [] = .ok ⟨[0, 1], [.L, .N], [], none⟩ ∧
    choose twoPars range [c!"x", c!"y"] (some c!"NN") none [] = .ok ⟨[0, 1], [.N, .N], [], none⟩ := ⟨rfl, rfl⟩

/-- **C143** A parameter that is always negative does not cross zero but is never logarithmic by default. -/
theorem negative_fails (a b : ℝ) (hb : b < 0) : defaultMap a b = .N := by unfold defaultMap; rw [if_pos (Or.inl hb)]

/-- **C143** A parameter that is always positive is not logarithmic by default if it varies by more than a factor of eleven. -/
theorem wide_fails (a b : ℝ) (ha : 0 < a) (h : 11 * a < b) : 0 < a ∧ defaultMap a b = .N := by
  unfold defaultMap; rw [if_pos (Or.inr (by linarith))]; exact ⟨ha, rfl⟩

/-- **C143** A parameter that is always zero is logarithmic by default: the logarithm of zero is taken. -/
theorem zero_fails : defaultMap 0 0 = .L := by unfold defaultMap; rw [if_neg (by norm_num)]

/-- **C143** A normalisation parameter that is not there is ignored without a message. -/
theorem norm_missing_fails (range : Nat → ℝ × ℝ) :
    choose twoPars range [c!"x", c!"y"] (some c!"NN") (some c!"z") [] = choose twoPars range [c!"x", c!"y"] (some c!"NN") none [] := rfl

/-- **C143** The command line makes a map of `PCA_num` letters whatever the number of parameters, so that asking for less than all is an error. -/
theorem command_num_fails (range : Nat → ℝ × ℝ) (index : Dict Str Nat) (params : List Str) (hp : ∀ n ∈ params, (index.get? n).isSome) (num : Nat) (h : num < params.length) :
    choose index range params (some (commandMap [] num)) none [] = .error .index := by
  have h1 : params.filter (fun n => (index.get? n).isSome) = params := List.filter_eq_self.mpr hp
  have h2 : (params.filterMap index.get?).length = params.length := by
    clear h h1
    induction params with
    | nil => rfl
    | cons a l ih =>
      obtain ⟨i, hi⟩ := Option.isSome_iff_exists.mp (hp a (by simp))
      rw [List.filterMap_cons_some hi, List.length_cons, List.length_cons, ih (fun n hn => hp n (by simp [hn]))]
  unfold choose
  rw [h1]
  simp only [List.mapM_nil, bind, Except.bind, pure, Except.pure, commandMap, if_true, List.length_replicate, h2, h]

/-! ## errors printed with conditional parameters -/

/-- two parameters of correlation one half -/
def half : Rows (Ix 1 1) := [(3, fun _ => 1), (3, fun _ => -1), (1, Sum.elim 1 (-1)), (1, Sum.elim (-1) 1)]

theorem half_weighted : Weighted half := by
  refine ⟨?_, by norm_num [half]⟩
  intro r hr
  simp only [half, List.mem_cons, List.not_mem_nil, or_false] at hr
  rcases hr with rfl | rfl | rfl | rfl <;> norm_num

theorem half_mean (i : Ix 1 1) : mean half i = 0 := by
  cases i <;> norm_num [mean, avg, half]

theorem half_sd (i : Ix 1 1) : sd half i = 1 := by
  unfold sd
  rw [half_mean]
  cases i <;> norm_num [avg, half]

theorem half_std (x : Ix 1 1 → ℝ) (i : Ix 1 1) : std half x i = x i := by
  unfold std
  rw [half_sd, half_mean]
  norm_num

theorem half_corr : corr half = fromBlocks (diagonal fun _ => 1) (diagonal fun _ => 1 / 2) (diagonal fun _ => 1 / 2) (diagonal fun _ => 1) := by
  ext i j
  unfold corr
  simp only [half_std, of_apply]
  rcases i with i | i <;> rcases j with j | j <;> fin_cases i <;> fin_cases j <;> norm_num [avg, half] <;> simp

theorem half_inv : (corr half)⁻¹ = fromBlocks (diagonal fun _ => 4 / 3) (diagonal fun _ => -(2 / 3)) (diagonal fun _ => -(2 / 3)) (diagonal fun _ => 4 / 3) := by
  apply inv_eq_right_inv
  rw [half_corr, fromBlocks_multiply]
  simp only [diagonal_mul_diagonal, diagonal_add]
  norm_num

theorem half_matrix : matrix half = .ok (diagonal fun _ => 3 / 4) := by
  have h1 : (corr half).det ≠ 0 := by
    apply det_ne_zero_of_right_inverse (B := (corr half)⁻¹)
    rw [half_inv, half_corr, fromBlocks_multiply]
    simp only [diagonal_mul_diagonal, diagonal_add]
    norm_num
  have h2 : ((corr half)⁻¹).toBlocks₁₁ = diagonal fun _ => 4 / 3 := by rw [half_inv, toBlocks_fromBlocks₁₁]
  unfold matrix
  rw [if_neg (by decide), if_neg h1, h2, if_neg (by rw [det_diagonal]; norm_num)]
  congr 1
  apply inv_eq_right_inv
  rw [diagonal_mul_diagonal]
  norm_num

/-- **C143** With conditional parameters the error printed for a component is not the conditional one, to which the eigenvalue belongs (`printed_spec`): it is as large as without them. -/
theorem cond_error_fails (eig : Eig 1) (he : EigSpec eig) (argsort : (Fin 1 → ℝ) → Fin 1 → Fin 1) (ha : ArgsortSpec argsort) (argmax : (Fin 1 → ℝ) → Fin 1) :
    ∃ R, report eig argsort argmax none half = .ok R ∧ R.evals 0 = 3 / 4 ∧ R.u 0 0 = 1 ∧ newsd (fun x => comp (fun _ => .N) R.u half x 0) half = 1 := by
  obtain ⟨R, hR, _, hv, hu, _⟩ := eigen_spec (argmax := argmax) he ha half _ half_matrix none
  have h0 : R.vecs 0 0 ≠ 0 := by
    intro h
    apply (hv 0).2
    funext j
    fin_cases j
    exact h
  have h1 : R.u 0 0 = 1 := by
    rw [hu]
    simp only [scaled, of_apply, Subsingleton.elim (argmax _) 0, half_sd]
    rw [div_self h0, one_mul]
  refine ⟨R, hR, ?_, h1, ?_⟩
  · have := congrFun (hv 0).1 0
    simp only [mulVec_diagonal, Pi.smul_apply, smul_eq_mul] at this
    exact (mul_right_cancel₀ h0 this).symm
  · have hc : ∀ x, comp (fun _ => .N) R.u half x 0 = x (.inl 0) := by
      intro x
      unfold comp
      rw [if_neg (by rintro ⟨i, hi⟩; exact hi rfl)]
      simp [lin, half_std, h1]
    simp only [hc]
    have e := half_sd (.inl 0)
    exact e

/-! ## equal eigenvalues -/

/-- two parameters that are not correlated -/
def square : Rows (Ix 2 0) := [(1, fun _ => 1), (1, fun _ => -1), (1, fun i => if i = .inl 0 then 1 else -1), (1, fun i => if i = .inl 0 then -1 else 1)]

theorem square_weighted : Weighted square := by
  refine ⟨?_, by norm_num [square]⟩
  intro r hr
  simp only [square, List.mem_cons, List.not_mem_nil, or_false] at hr
  rcases hr with rfl | rfl | rfl | rfl <;> norm_num

theorem square_mean (i : Ix 2 0) : mean square i = 0 := by
  rcases i with i | i
  · fin_cases i <;> norm_num [mean, avg, square]
  · exact i.elim0

theorem square_sd (i : Ix 2 0) : sd square i = 1 := by
  unfold sd
  rw [square_mean]
  rcases i with i | i
  · fin_cases i <;> norm_num [avg, square]
  · exact i.elim0

theorem square_std (x : Ix 2 0 → ℝ) (i : Ix 2 0) : std square x i = x i := by
  unfold std
  rw [square_sd, square_mean]
  norm_num

theorem square_matrix : matrix square = .ok 1 := by
  unfold matrix
  rw [if_pos rfl]
  congr 1
  ext i j
  simp only [toBlocks₁₁, of_apply, corr, square_std]
  fin_cases i <;> fin_cases j <;> norm_num [avg, square]

/-- parameters to which `comps_spec` applies -/
example : Weighted square ∧ ∀ i, sd square i ≠ 0 := ⟨square_weighted, fun i => by rw [square_sd]; norm_num⟩

/-- `cond_spec` for two parameters of correlation one half: knowing the second leaves three quarters of the variance -/
example : IsLeast (Set.range (fun w : Fin 1 → ℝ => avg half (fun x => combo half (Sum.elim 1 w) x ^ 2))) (3 / 4) := by
  have := cond_spec half half_weighted (fun i => by rw [half_sd]; norm_num) (by decide) _ half_matrix 1
  simpa [dotProduct, mulVec_diagonal] using this

/-- **C143** Components of the same eigenvalue need not be uncorrelated: nothing that is documented of the routine for general matrices makes the vectors orthogonal. Here is
one that keeps to the documentation, and two parameters that are not correlated whose components are. -/
theorem degenerate_fails : ∃ eig : Eig 2, EigSpec eig ∧ ∀ argsort, ArgsortSpec argsort → ∀ argmax, ArgmaxSpec argmax →
    ∃ R, report eig argsort argmax none square = .ok R ∧ avg square (fun x => lin R.u square x 0 * lin R.u square x 1) ≠ 0 := by
  classical
  obtain ⟨eigh, hh⟩ := CMBlikes.HL.eigh_exists (n := 2)
  let V : Matrix (Fin 2) (Fin 2) ℝ := !![1, 1; 0, 1]
  let eig : Eig 2 := fun A => if A = 1 then (fun _ => 1, V) else eigh A
  have hspec : EigSpec eig := by
    intro A hA
    by_cases h : A = 1
    · simp only [eig, h, if_true]
      refine ⟨?_, by simp [V, det_fin_two]⟩
      have : (diagonal fun _ : Fin 2 => (1 : ℝ)) = 1 := diagonal_one
      rw [this, one_mul, mul_one]
    · simp only [eig, h, if_false]
      have hd := hh A hA
      have e1 := hd.1
      have e2 := hd.2
      refine ⟨?_, ?_⟩
      · generalize eigh A = E at e1 e2
        rw [e2, Matrix.mul_assoc, e1, Matrix.mul_one]
      · exact det_ne_zero_of_left_inverse (A := (eigh A).2) (B := (eigh A).2ᵀ) e1
  refine ⟨eig, hspec, fun argsort ha argmax hm => ?_⟩
  obtain ⟨R, hR, _, hv, hu, _⟩ := eigen_spec (argmax := argmax) hspec ha square _ square_matrix none
  refine ⟨R, hR, ?_⟩
  rw [comps_cov hspec ha square square_weighted (fun i => by rw [square_sd]; norm_num) none R hR 0 1]
  have hrep : R = ⟨fun i => (eig 1).1 (argsort (eig 1).1 i), sortedVecs (eig 1).2 (argsort (eig 1).1), R.u⟩ := by
    have : report eig argsort argmax none square = .ok ⟨fun i => (eig 1).1 (argsort (eig 1).1 i), sortedVecs (eig 1).2 (argsort (eig 1).1),
        scaled argmax (fun i => sd square (.inl i)) none (sortedVecs (eig 1).2 (argsort (eig 1).1))⟩ := by
      unfold report; rw [square_matrix]; rfl
    rw [hR] at this
    injection this with this
    rw [this]
  have he1 : eig 1 = (fun _ => 1, V) := by simp only [eig, if_true]
  have hev : R.evals 1 = 1 := by rw [hrep]; simp only [he1]
  have hvec : ∀ i j, R.vecs i j = V j (argsort (fun _ => 1) i) := by
    intro i j; rw [hrep]; simp only [he1, sortedVecs, of_apply]
  have hbij := (ha (fun _ => 1)).1
  set σ := argsort (fun _ => (1 : ℝ)) with hσ
  have hdot : ∑ k, R.vecs 0 k * R.vecs 1 k = 1 := by
    have hne01 : σ 0 ≠ σ 1 := fun h => by simpa using hbij.1 h
    simp only [hvec, Fin.sum_univ_two]
    have c : (σ 0 = 0 ∧ σ 1 = 1) ∨ (σ 0 = 1 ∧ σ 1 = 0) := by
      generalize σ 0 = a at *
      generalize σ 1 = b at *
      revert hne01
      fin_cases a <;> fin_cases b <;> simp
    rcases c with ⟨h0, h1⟩ | ⟨h0, h1⟩ <;> rw [h0, h1] <;> simp [V]
  have hscale : ∀ i, ∃ c, c ≠ 0 ∧ ∀ j, R.u i j = c * R.vecs i j := by
    intro i
    have hmax : ∀ j, |R.vecs i j| ≤ |R.vecs i (argmax (fun j => |R.vecs i j|))| := hm (fun j => |R.vecs i j|)
    set k := argmax (fun j => |R.vecs i j|) with hk
    have h0 : R.vecs i k ≠ 0 := by
      intro h
      apply (hv i).2
      funext j
      have := hmax j
      rw [h, abs_zero] at this
      exact abs_eq_zero.mp (le_antisymm this (abs_nonneg _))
    refine ⟨1 / R.vecs i k, by simpa using h0, fun j => ?_⟩
    have : R.u i j = R.vecs i j / R.vecs i k * sd square (.inl k) := by
      conv_lhs => rw [hu]
      rfl
    rw [this, square_sd]; ring
  obtain ⟨a, ha0, hua⟩ := hscale 0
  obtain ⟨b, hb0, hub⟩ := hscale 1
  have : ∑ k, R.u 0 k * R.u 1 k = a * b := by
    simp only [hua, hub]
    have : (fun k => a * R.vecs 0 k * (b * R.vecs 1 k)) = fun k => a * b * (R.vecs 0 k * R.vecs 1 k) := by funext k; ring
    rw [this, ← Finset.mul_sum, hdot, mul_one]
  rw [hev, this, one_mul]
  exact mul_ne_zero ha0 hb0

end Verif.PCA
