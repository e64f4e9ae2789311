import Verif.Props.CamSpec
import Verif.Props.PlikCoadd

/-!
# Coadded temperature of the CamSpec likelihood; defects
-/

namespace Verif.CamSpec
open Verif.Py Matrix

set_option linter.unusedSectionVars false

/-! ### consecutive multipoles -/

theorem contiguousOne_full (lo hi : Nat) (h : lo ≤ hi) : contiguousOne (fullElls lo hi) = .ok true := by
  have h1 : (fullElls lo hi).head? = some lo := by
    unfold fullElls
    obtain ⟨k, hk⟩ : ∃ k, hi + 1 - lo = k + 1 := ⟨hi - lo, by omega⟩
    rw [hk]
    simp [List.range_succ_eq_map]
  have h2 : (fullElls lo hi).getLast? = some hi := by
    unfold fullElls
    obtain ⟨k, hk⟩ : ∃ k, hi + 1 - lo = k + 1 := ⟨hi - lo, by omega⟩
    rw [hk, List.range_succ, List.map_append, List.map_cons, List.map_nil, List.getLast?_append]
    simp
    omega
  unfold contiguousOne
  rw [h1, h2]
  simp only
  rw [if_pos (by rw [fullElls_length])]
  congr 1
  rw [List.all_eq_true]
  rintro ⟨x, k⟩ hx
  rw [List.mem_zipIdx_iff_getElem?] at hx
  unfold fullElls at hx
  simp only [List.getElem?_map] at hx
  rcases hk : (List.range (hi + 1 - lo))[k]? with _ | y
  · rw [hk] at hx; simp at hx
  · rw [hk] at hx
    simp only [Option.map_some, Option.some.injEq] at hx
    have hy : y = k := by
      rw [List.getElem?_eq_some_iff] at hk
      obtain ⟨h1, h2⟩ := hk
      simpa using h2.symm
    simp [← hx, hy]

theorem sorted_length (l : List Nat) (h : l.Pairwise (· < ·)) (a b : Nat) (ha : l.head? = some a) (hb : l.getLast? = some b) : a + l.length ≤ b + 1 ∧ (a + l.length = b + 1 → l = fullElls a b) := by
  induction l generalizing a with
  | nil => cases ha
  | cons x l ih =>
    simp only [List.head?_cons, Option.some.injEq] at ha
    subst ha
    rcases l with _ | ⟨y, l⟩
    · simp at hb
      subst hb
      refine ⟨by simp, fun _ => ?_⟩
      simp [fullElls]
    · have hxy : x < y := (List.pairwise_cons.mp h).1 y (by simp)
      obtain ⟨h1, h2⟩ := ih (List.pairwise_cons.mp h).2 y rfl (by simpa using hb)
      rw [List.length_cons]
      refine ⟨by omega, fun he => ?_⟩
      have : y = x + 1 := by omega
      rw [h2 (by omega)]
      subst this
      unfold fullElls
      obtain ⟨k, hk⟩ : ∃ k, b + 1 - x = k + 1 := ⟨b - x, by omega⟩
      rw [hk, List.range_succ_eq_map, List.map_cons, List.map_map, show b + 1 - (x + 1) = k by omega]
      simp only [Nat.add_zero, List.cons.injEq, true_and]
      apply List.map_congr_left
      intro j _
      simp only [Function.comp_apply]
      omega

/-- The check for consecutive multipoles passes or the function fails: multipoles with gaps never reach the second branch. -/
theorem contiguousOne_spec (l : List Nat) (h : l.Pairwise (· < ·)) (hne : l ≠ []) :
    (∃ a b, a ≤ b ∧ l = fullElls a b ∧ contiguousOne l = .ok true) ∨ contiguousOne l = .error .value := by
  rcases ha : l.head? with _ | a
  · rw [List.head?_eq_none_iff] at ha
    exact absurd ha hne
  rcases hb : l.getLast? with _ | b
  · rw [List.getLast?_eq_none_iff] at hb
    exact absurd hb hne
  obtain ⟨h1, h2⟩ := sorted_length l h a b ha hb
  have hl : 0 < l.length := List.length_pos_of_ne_nil hne
  by_cases he : a + l.length = b + 1
  · left
    have hle : a ≤ b := by omega
    refine ⟨a, b, hle, h2 he, ?_⟩
    rw [h2 he]
    exact contiguousOne_full a b hle
  · right
    unfold contiguousOne
    rw [ha, hb]
    simp only
    rw [if_neg (by omega), if_neg]
    intro hc
    rcases hc with hc | hc
    · rcases l with _ | ⟨x, _ | ⟨y, l⟩⟩
      · simp at hl
      · simp at ha hb
        subst ha
        subst hb
        simp at he
      · simp at hc
    · omega

variable {F : Type} [Field F]

/-! ### the loops are matrix products -/

/-- calibration and position of each of the data -/
def flat (bs : List (Block F)) : List (F × Nat) := bs.flatMap fun b => (List.range b.2.2).map fun k : Nat => (b.1, b.2.1 + k)

theorem flat_cons (b : Block F) (bs : List (Block F)) : flat (b :: bs) = ((List.range b.2.2).map fun k : Nat => (b.1, b.2.1 + k)) ++ flat bs := rfl

theorem flat_length (bs : List (Block F)) : (flat bs).length = total bs := by
  induction bs with
  | nil => rfl
  | cons b bs ih =>
    rw [flat_cons, List.length_append, ih]
    simp [total]

/-- weight of a datum in a multipole -/
def wt (fl : List (F × Nat)) (p k : Nat) : F := if (fl.getD k (0, 0)).2 = p then 1 / (fl.getD k (0, 0)).1 else 0

/-- sums over data of a list -/
def overFlat (fl : List (F × Nat)) (p : Nat) (g : Nat → F) : F := ((List.range fl.length).map fun k : Nat => wt fl p k * g k).sum

theorem overFlat_append (a b : List (F × Nat)) (p : Nat) (g : Nat → F) : overFlat (a ++ b) p g = overFlat a p g + overFlat b p fun k => g (a.length + k) := by
  unfold overFlat
  rw [List.length_append, List.range_add, List.map_append, List.sum_append, List.map_map]
  congr 2
  · apply List.map_congr_left
    intro k hk
    have hk := List.mem_range.mp hk
    have : (a ++ b).getD k (0, 0) = a.getD k (0, 0) := by rw [List.getD, List.getD, List.getElem?_append_left hk]
    simp only [wt, this]
  · apply List.map_congr_left
    intro k _
    have : (a ++ b).getD (a.length + k) (0, 0) = b.getD k (0, 0) := by rw [List.getD, List.getD, List.getElem?_append_right (by omega), Nat.add_sub_cancel_left]
    simp only [Function.comp_apply, wt, this]

theorem overFlat_block (b : Block F) (p : Nat) (g : Nat → F) :
    overFlat ((List.range b.2.2).map fun k : Nat => (b.1, b.2.1 + k)) p g = if b.2.1 ≤ p ∧ p < b.2.1 + b.2.2 then g (p - b.2.1) / b.1 else 0 := by
  obtain ⟨c, a, n⟩ := b
  simp only
  have hw : ∀ k, k < n → wt ((List.range n).map fun k : Nat => (c, a + k)) p k = if a + k = p then 1 / c else 0 := by
    intro k hk
    have : ((List.range n).map fun k : Nat => (c, a + k)).getD k (0, 0) = (c, a + k) := by
      rw [List.getD, List.getElem?_map, List.getElem?_range hk]
      rfl
    simp only [wt, this]
  unfold overFlat
  rw [List.length_map, List.length_range]
  have : ((List.range n).map fun k : Nat => wt ((List.range n).map fun k : Nat => (c, a + k)) p k * g k) = (List.range n).map fun k : Nat => if a + k = p then g k / c else 0 := by
    apply List.map_congr_left
    intro k hk
    rw [hw k (List.mem_range.mp hk)]
    split_ifs
    · ring
    · ring
  rw [this]
  clear this hw
  induction n with
  | zero =>
    rw [if_neg (by omega)]
    rfl
  | succ n ih =>
    rw [List.range_succ, List.map_append, List.sum_append, ih]
    simp only [List.map_cons, List.map_nil, List.sum_cons, List.sum_nil, add_zero]
    by_cases h1 : a ≤ p ∧ p < a + n
    · rw [if_pos h1, if_neg (by omega), if_pos (by omega), add_zero]
    · rw [if_neg h1, zero_add]
      by_cases h2 : a + n = p
      · rw [if_pos h2, if_pos (by omega)]
        congr 2
        omega
      · rw [if_neg h2, if_neg (by omega)]

theorem dLoop_spec (d : Nat → F) (bs : List (Block F)) (ix : Nat) (x : Nat → F) (p : Nat) : dLoop d bs ix x p = x p + overFlat (flat bs) p fun k => d (ix + k) := by
  induction bs generalizing ix x with
  | nil => simp [dLoop, flat, overFlat]
  | cons b bs ih =>
    rw [dLoop, ih, flat_cons, overFlat_append, overFlat_block]
    simp only [List.length_map, List.length_range]
    have : (fun k => d (ix + b.2.2 + k)) = fun k => d (ix + (b.2.2 + k)) := by funext k; rw [Nat.add_assoc]
    rw [this, sliceAdd]
    split_ifs <;> ring

theorem innerLoop_spec (S : Nat → Nat → F) (r : Block F) (ix1 : Nat) (cs : List (Block F)) (ix : Nat) (x : Nat → Nat → F) (p q : Nat) :
    innerLoop S r ix1 cs ix x p q =
      x p q + if r.2.1 ≤ p ∧ p < r.2.1 + r.2.2 then (overFlat (flat cs) q fun k => S (ix1 + (p - r.2.1)) (ix + k)) / r.1 else 0 := by
  induction cs generalizing ix x with
  | nil => simp [innerLoop, flat, overFlat]
  | cons c cs ih =>
    rw [innerLoop, ih, flat_cons, overFlat_append, overFlat_block]
    simp only [List.length_map, List.length_range]
    have : (fun k => S (ix1 + (p - r.2.1)) (ix + c.2.2 + k)) = fun k => S (ix1 + (p - r.2.1)) (ix + (c.2.2 + k)) := by funext k; rw [Nat.add_assoc]
    rw [this, blockAdd]
    by_cases h1 : r.2.1 ≤ p ∧ p < r.2.1 + r.2.2
    · by_cases h2 : c.2.1 ≤ q ∧ q < c.2.1 + c.2.2
      · rw [if_pos ⟨h1, h2⟩, if_pos h1, if_pos h1, if_pos h2, add_div, div_div]
        ring
      · rw [if_neg (fun h => h2 h.2), if_pos h1, if_pos h1, if_neg h2]
        ring
    · rw [if_neg (fun h => h1 h.1), if_neg h1, if_neg h1]

theorem outerLoop_spec (S : Nat → Nat → F) (all bs : List (Block F)) (ix1 : Nat) (x : Nat → Nat → F) (p q : Nat) :
    outerLoop S all bs ix1 x p q = x p q + overFlat (flat bs) p fun k => overFlat (flat all) q fun j => S (ix1 + k) j := by
  induction bs generalizing ix1 x with
  | nil => simp [outerLoop, flat, overFlat]
  | cons r rs ih =>
    rw [outerLoop, ih, flat_cons, overFlat_append, overFlat_block, innerLoop_spec]
    simp only [List.length_map, List.length_range, Nat.zero_add]
    have : (fun k => overFlat (flat all) q fun j => S (ix1 + r.2.2 + k) j) = fun k => overFlat (flat all) q fun j => S (ix1 + (r.2.2 + k)) j := by
      funext k; rw [Nat.add_assoc]
    rw [this]
    ring

/-- The design matrix: a datum is the multipole divided by the calibration. -/
def design (bs : List (Block F)) (np : Nat) : Matrix (Fin np) (Fin (total bs)) F := Matrix.of fun p k => wt (flat bs) p k

/-- block of the inverse covariance -/
def block (S : Nat → Nat → F) (n : Nat) : Matrix (Fin n) (Fin n) F := Matrix.of fun i j => S i j

theorem sum_range_fin (n : Nat) (f : Nat → F) : ((List.range n).map f).sum = ∑ i : Fin n, f i := by
  induction n with
  | zero => rfl
  | succ n ih =>
    rw [List.range_succ, List.map_append, List.sum_append, ih, Fin.sum_univ_castSucc]
    simp

theorem overFlat_fin (bs : List (Block F)) (p : Nat) (g : Nat → F) : overFlat (flat bs) p g = ∑ k : Fin (total bs), wt (flat bs) p k * g k := by
  unfold overFlat
  rw [flat_length, sum_range_fin]

/-- The matrix of the loops is the design matrix times the inverse covariance times the design matrix. -/
theorem pcov_spec (S : Nat → Nat → F) (bs : List (Block F)) (np : Nat) : pcov S bs np = design bs np * block S (total bs) * (design bs np)ᵀ := by
  ext p q
  unfold pcov
  rw [Matrix.of_apply, outerLoop_spec, zero_add, overFlat_fin, Matrix.mul_assoc, Matrix.mul_apply]
  apply Finset.sum_congr rfl
  intro k _
  rw [overFlat_fin, Nat.zero_add, Matrix.mul_apply]
  simp only [design, block, Matrix.of_apply, Matrix.transpose_apply]
  congr 1
  apply Finset.sum_congr rfl
  intro j _
  ring

/-- The vector of the loop is the design matrix times the inverse covariance times the data. -/
theorem dL_spec (S : Nat → Nat → F) (delta : Nat → F) (bs : List (Block F)) (np : Nat) :
    dL S delta bs np = (design bs np * block S (total bs)) *ᵥ fun k : Fin (total bs) => delta k := by
  funext p
  unfold dL
  rw [dLoop_spec, zero_add, overFlat_fin, ← Matrix.mulVec_mulVec]
  simp only [Matrix.mulVec, dotProduct, design, block, Matrix.of_apply]
  apply Finset.sum_congr rfl
  intro k _
  rw [Nat.zero_add, sum_range_fin]

/-- data as a vector -/
def vecOf (n : Nat) (delta : Nat → F) : Fin n → F := fun k => delta k

/-! ### the coadded temperature is the best fit -/

theorem coadd_rVec (S : Nat → Nat → ℝ) (delta : Nat → ℝ) (bs : List (Block ℝ)) (np : Nat) (hS : (block S (total bs)).PosDef) :
    coadd S delta bs np = Plik.rVec (design bs np) (block S (total bs)) (-vecOf (total bs) delta) := by
  have hsym := Plik.symm_of_posDef _ hS
  unfold coadd Plik.rVec
  rw [pcov_spec, dL_spec, Plik.jtSJ_normal _ _ hsym, Plik.jtS_eq, Matrix.mulVec_neg, Matrix.mulVec_neg, neg_neg]
  rfl

/-- every multipole is in some spectrum -/
def Covered (bs : List (Block ℝ)) (np : Nat) : Prop := (∀ b ∈ bs, b.1 ≠ 0) ∧ ∀ p < np, ∃ b ∈ bs, b.2.1 ≤ p ∧ p < b.2.1 + b.2.2

theorem flat_mem (bs : List (Block ℝ)) (c : ℝ) (o : Nat) : (c, o) ∈ flat bs ↔ ∃ b ∈ bs, b.1 = c ∧ b.2.1 ≤ o ∧ o < b.2.1 + b.2.2 := by
  unfold flat
  simp only [List.mem_flatMap, List.mem_map, List.mem_range, Prod.mk.injEq]
  constructor
  · rintro ⟨b, hb, k, hk, rfl, rfl⟩
    exact ⟨b, hb, rfl, by omega, by omega⟩
  · rintro ⟨b, hb, rfl, h1, h2⟩
    exact ⟨b, hb, o - b.2.1, by omega, rfl, by omega⟩

theorem design_inj (bs : List (Block ℝ)) (np : Nat) (hc : Covered bs np) (r : Fin np → ℝ) (h : r ᵥ* design bs np = 0) : r = 0 := by
  funext p
  obtain ⟨b, hb, h1, h2⟩ := hc.2 p.val p.isLt
  have hm : (b.1, p.val) ∈ flat bs := (flat_mem bs _ _).mpr ⟨b, hb, rfl, h1, h2⟩
  obtain ⟨k, hk, hke⟩ := List.mem_iff_getElem.mp hm
  have hk' : k < total bs := by rw [← flat_length]; exact hk
  have := congrFun h ⟨k, hk'⟩
  simp only [Matrix.vecMul, dotProduct, design, Matrix.of_apply, Pi.zero_apply] at this
  rw [Finset.sum_eq_single p] at this
  · have hg : (flat bs).getD k (0, 0) = (b.1, p.val) := by rw [List.getD, List.getElem?_eq_getElem hk, hke, Option.getD_some]
    simp only [wt, hg, if_true] at this
    have hb0 := hc.1 b hb
    simpa [hb0] using this
  · intro q _ hq
    have hg : (flat bs).getD k (0, 0) = (b.1, p.val) := by rw [List.getD, List.getElem?_eq_getElem hk, hke, Option.getD_some]
    simp only [wt, hg]
    rw [if_neg (fun he => hq (Fin.ext he.symm)), mul_zero]
  · intro hh
    exact absurd (Finset.mem_univ _) hh

/-- The coadded temperature has smaller chi squared than every other spectrum. -/
theorem coadd_best (S : Nat → Nat → ℝ) (delta : Nat → ℝ) (bs : List (Block ℝ)) (np : Nat) (hS : (block S (total bs)).PosDef) (hc : Covered bs np) (C : Fin np → ℝ)
    (hC : C ≠ coadd S delta bs np) :
    Plik.chiSq (block S (total bs)) (coadd S delta bs np ᵥ* design bs np - vecOf (total bs) delta) <
      Plik.chiSq (block S (total bs)) (C ᵥ* design bs np - vecOf (total bs) delta) := by
  rw [coadd_rVec S delta bs np hS] at hC ⊢
  rw [sub_eq_add_neg, sub_eq_add_neg]
  exact Plik.rVec_best _ _ hS (design_inj bs np hc) _ _ hC

/-- Data that are a spectrum divided by the calibrations give it back. -/
theorem coadd_exact (S : Nat → Nat → ℝ) (delta : Nat → ℝ) (bs : List (Block ℝ)) (np : Nat) (hS : (block S (total bs)).PosDef) (hc : Covered bs np) (C : Fin np → ℝ)
    (hd : vecOf (total bs) delta = C ᵥ* design bs np) : coadd S delta bs np = C := by
  rw [coadd_rVec S delta bs np hS, hd]
  exact Plik.rVec_exact _ _ hS (design_inj bs np hc) C

/-- The coadded temperature is linear in the data; with temperature data only, the returned covariance is its covariance. -/
theorem coadd_cov (S : Nat → Nat → ℝ) (bs : List (Block ℝ)) (np : Nat) (hS : (block S (total bs)).PosDef) (hc : Covered bs np) :
    ∃ L : Matrix (Fin np) (Fin (total bs)) ℝ, (∀ delta, coadd S delta bs np = L *ᵥ vecOf (total bs) delta) ∧ L * (block S (total bs))⁻¹ * Lᵀ = (pcov S bs np)⁻¹ := by
  obtain ⟨L, h1, h2⟩ := Plik.rVec_cov (design bs np) (block S (total bs)) hS (design_inj bs np hc)
  refine ⟨-L, ?_, ?_⟩
  · intro delta
    rw [coadd_rVec S delta bs np hS, h1, Matrix.mulVec_neg, Matrix.neg_mulVec]
  · rw [pcov_spec, ← Plik.jtSJ_normal _ _ (Plik.symm_of_posDef _ hS), ← h2, Matrix.transpose_neg, Matrix.neg_mul, Matrix.neg_mul, Matrix.mul_neg, neg_neg]

/-- With calibrations one, the weights of the spectra add up to one at every multipole (`get_weights`). -/
theorem weights_sum (S : Nat → Nat → ℝ) (bs : List (Block ℝ)) (np : Nat) (hS : (block S (total bs)).PosDef) (hc : Covered bs np) (h1 : ∀ b ∈ bs, b.1 = 1 ∧ b.2.1 + b.2.2 ≤ np)
    (m : Nat) (v : Fin m → Nat → ℝ) (hv : ∀ k < total bs, ∑ i, v i k = 1) (p : Fin np) : ∑ i, coadd S (v i) bs np p = 1 := by
  obtain ⟨L, hL, -⟩ := coadd_cov S bs np hS hc
  have hone : L *ᵥ vecOf (total bs) (fun _ => 1) = fun _ => 1 := by
    rw [← hL]
    apply coadd_exact S _ bs np hS hc
    funext k
    simp only [vecOf, Matrix.vecMul, dotProduct, design, Matrix.of_apply, one_mul]
    have hk : k.val < (flat bs).length := by rw [flat_length]; exact k.isLt
    have hm : (flat bs)[k.val] ∈ flat bs := List.getElem_mem hk
    rw [show (flat bs)[k.val] = ((flat bs)[k.val].1, (flat bs)[k.val].2) from rfl, flat_mem] at hm
    obtain ⟨b, hb, hb1, hb2, hb3⟩ := hm
    have hlt : (flat bs)[k.val].2 < np := by have := (h1 b hb).2; omega
    rw [Finset.sum_eq_single ⟨(flat bs)[k.val].2, hlt⟩]
    · simp [wt, List.getD, List.getElem?_eq_getElem hk, ← hb1, (h1 b hb).1]
    · intro q _ hq
      have : (flat bs)[k.val].2 ≠ q.val := fun he => hq (Fin.ext he.symm)
      simp [wt, List.getD, List.getElem?_eq_getElem hk, this]
    · intro hh
      exact absurd (Finset.mem_univ _) hh
  have hsum : ∑ i, coadd S (v i) bs np p = (L *ᵥ vecOf (total bs) (fun _ => 1)) p := by
    simp only [hL, Matrix.mulVec, dotProduct, vecOf]
    rw [Finset.sum_comm]
    apply Finset.sum_congr rfl
    intro k _
    rw [← Finset.mul_sum, hv k.val k.isLt]
  rw [hsum, hone]

/-- Example: two spectra of one multipole each; the design matrix. -/
example : (List.range 2).map (wt (flat [((2 : ℚ), 0, 1), (1, 0, 1)]) 0) = [1 / 2, 1] := by decide +kernel

/-! ### defects -/

/-- The full statement: a single multipole can be given in a range. -/
def SingleEll : Prop := ∀ n, ∃ e, rangeToElls (strNat n) = .ok e

/-- A single multipole has no dimension and cannot be concatenated.  (CMB_CamSpec.py:24-25) -/
theorem single_fails : ¬ SingleEll := by
  intro h
  obtain ⟨e, he⟩ := h 30
  have : rangeToElls (strNat 30) = .error .value := by decide
  rw [this] at he
  cases he

/-- The full statement: the coadded temperature can be had for multipoles with gaps, as the code for them is there. -/
def GapsCoadded : Prop := ∀ lss : List (List Nat), (∀ l ∈ lss, l ≠ [] ∧ l.Pairwise (· < ·)) → ∃ b, contiguousAll lss = .ok b

/-- The test for gaps subtracts arrays of different lengths and fails.  (CMB_CamSpec.py:264-265) -/
theorem gaps_fails : ¬ GapsCoadded := by
  intro h
  obtain ⟨b, hb⟩ := h [[2, 4, 5]] (by decide)
  have : contiguousAll [[2, 4, 5]] = .error .value := by decide
  rw [this] at hb
  cases hb

/-- The full statement: the coadded temperature can be had when some of the four temperature spectra are used. -/
def SomeUsed : Prop := ∀ rs : List (Option (List Nat)), (∃ e, some e ∈ rs ∧ e ≠ []) → ∃ l, limitsAll rs = .ok l

/-- All four spectra must be used: the range of a spectrum that is not used is None.  (CMB_CamSpec.py:248) -/
theorem allFour_fails : ¬ SomeUsed := by
  intro h
  obtain ⟨l, hl⟩ := h [none, some [30, 31], some [30], some [30]] ⟨[30, 31], by simp, by simp⟩
  have : limitsAll [none, some [30, 31], some [30], some [30]] = .error .type := by decide
  rw [this] at hl
  cases hl

/-- The constructor always ends with an AttributeError: the name of the data set is never stored.  (CMB_CamSpec.py:134) -/
theorem setup_fails : attr c!"dataset_file" = .error .attribute := by decide

/-- The full statement: the logarithm of the ratio to the pivot is stored. -/
def LogStored : Prop := ∀ lmin l : Nat, lmin ≤ l → (lnrat lmin l : ℝ) = Real.log (l / 3000)

/-- The array for the logarithm is made of integers, so the logarithm is cut off: between 1104 and 8154 it is zero, and the tilt of the infrared background has no
effect there.  (CMB_CamSpec.py:129-131) -/
theorem lnrat_fails : ¬ LogStored := by
  intro h
  have h1 := h 30 2000 (by norm_num)
  have he := Real.exp_one_gt_d9
  have he1 : Real.exp (-1) < 2 / 3 := by
    rw [Real.exp_neg, inv_lt_comm₀ (Real.exp_pos _) (by norm_num)]
    linarith
  rw [lnrat_zero 30 2000 (by push_cast; linarith) (by push_cast; linarith)] at h1
  have : Real.log (((2000 : ℕ) : ℝ) / 3000) < 0 := Real.log_neg (by norm_num) (by norm_num)
  rw [← h1] at this
  simp at this

/-- The full statement: differences are taken for any number of spectra. -/
def AnyNumber : Prop := ∀ (th : Nat → Nat → ℚ) (ranges : List (List Nat)) (data : List ℚ), data.length = (entriesOf 0 ranges).length →
  deltaVector th ranges data = List.zipWith (· - ·) data ((entriesOf 0 ranges).map fun e => th e.1 e.2)

/-- A seventh spectrum is compared with zero.  (CMB_CamSpec.py:220) -/
theorem seventh_fails : ¬ AnyNumber := by
  intro h
  have := h (fun _ _ => 1) [[], [], [], [], [], [], [2]] [5] rfl
  exact absurd this (by decide +kernel)

/-- The full statement: a spectrum is compared with the theory of its name. -/
def ByName : Prop := ∀ (lns : List Line) (i l : Nat) (ln : Line) (TE : Nat → ℚ), lns[i]? = some ln → ln.tp = c!"TE" →
  theoryAt (fun _ => 1) (fun _ => 0) TE (fun _ => 0) (fun _ _ => 0) i l = TE l

/-- The place in the file decides, not the name.  (CMB_CamSpec.py:222-228) -/
theorem byName_fails : ¬ ByName := by
  intro h
  have := h [⟨c!"TE", 30, 2000⟩] 0 30 ⟨c!"TE", 30, 2000⟩ (fun _ => 1) rfl rfl
  norm_num [theoryAt] at this

/-- The full statement: setting up twice gives the same inverse. -/
def SameInverse : Prop := ∀ (inv : ℚ) (round : ℚ → ℚ), (cachedInverse inv round (cachedInverse inv round none).2).1 = (cachedInverse inv round none).1

/-- The inverse is stored in single precision: the second time it is another.  (CMB_CamSpec.py:136-140) -/
theorem cache_fails : ¬ SameInverse := by
  intro h
  have := h (1 / 3) (fun x => x / 2)
  norm_num [cachedInverse] at this

/-- The weights are computed with an object of the test program, and not available to others.  (CMB_CamSpec.py:296-297) -/
theorem weights_fails : weightsObject [c!"np", c!"CamSpec_likelihood"] = .error .name := by decide

/-- The full statement: the covariance of differences is taken at the positions of the multipoles. -/
def DiffPositions : Prop := ∀ (off lmin : Nat) (ells : List Nat) (l : Nat), ells.Pairwise (· < ·) → l ∈ ells → lmin ∈ ells → lmin ≤ l → diffPos off lmin ells l = off + ells.idxOf l

/-- With gaps in the multipoles the positions are those of other multipoles.  (CMB_CamSpec.py:328-332) -/
theorem diffGaps_fails : ¬ DiffPositions := by
  intro h
  have := h 0 2 [2, 4, 5] 4 (by decide) (by decide) (by decide) (by decide)
  exact absurd this (by decide)

/-- The full statement: a template that is too short is noticed by the assertion. -/
def ShortNoticed : Prop := ∀ (vals : List ℚ) (p : Nat), vals.length + 2 ≤ p → readNormalized 2 vals (some p) = .error .assertion

/-- The assertion adds two multipoles that were added before: a template short by one or two fails with an IndexError.  (CMB_CamSpec.py:39) -/
theorem pivot_fails : ¬ ShortNoticed := by
  intro h
  have := h [1] 3 (by decide)
  exact absurd this (by decide +kernel)

/-- The full statement: the returned covariance is that of the coadded temperature, whatever data are used. -/
def CovOfEstimate : Prop :=
  ∀ (N : Nat) (C S : Nat → Nat → ℝ) (bs : List (Block ℝ)) (np : Nat) (L : Matrix (Fin np) (Fin (total bs)) ℝ), total bs ≤ N → block C N * block S N = 1 →
    (∀ delta, coadd S delta bs np = L *ᵥ vecOf (total bs) delta) → L * block C (total bs) * Lᵀ = (pcov S bs np)⁻¹

/-- With polarisation used as well, the block of the inverse is that for known polarisation, and the covariance returned is too small.  (CMB_CamSpec.py:260, 280) -/
theorem polarised_fails : ¬ CovOfEstimate := by
  intro h
  have hp : pcov (fun i j => if i = j then (2 / 3 : ℝ) else -1 / 3) [((1 : ℝ), 0, 1)] 1 = !![2 / 3] := by
    ext i j
    fin_cases i
    fin_cases j
    simp [pcov, outerLoop, innerLoop, blockAdd]
  have hi : (!![2 / 3] : Matrix (Fin 1) (Fin 1) ℝ)⁻¹ = !![3 / 2] := by
    rw [Matrix.inv_eq_right_inv]
    ext i j
    fin_cases i
    fin_cases j
    simp
  have h1 := h 2 (fun i j => if i = j then 2 else 1) (fun i j => if i = j then 2 / 3 else -1 / 3) [(1, 0, 1)] 1 (Matrix.of fun _ _ => 1) (by decide) (by
      ext i j
      fin_cases i <;> fin_cases j <;> simp [block, Matrix.mul_apply, Fin.sum_univ_two] <;> norm_num) (by
    intro delta
    unfold coadd
    rw [hp, hi]
    funext p
    fin_cases p
    have hr : ((Matrix.of fun _ _ => 1 : Matrix (Fin 1) (Fin (total [((1 : ℝ), 0, 1)])) ℝ) *ᵥ vecOf (total [((1 : ℝ), 0, 1)]) delta) 0 = delta 0 := by
      change (∑ x : Fin 1, (1 : ℝ) * delta x) = delta 0
      simp
    change _ = ((Matrix.of fun _ _ => 1 : Matrix (Fin 1) (Fin (total [((1 : ℝ), 0, 1)])) ℝ) *ᵥ vecOf (total [((1 : ℝ), 0, 1)]) delta) 0
    rw [hr]
    have hl : dL (fun i j => if i = j then (2 / 3 : ℝ) else -1 / 3) delta [((1 : ℝ), 0, 1)] 1 0 = 2 / 3 * delta 0 := by
      simp [dL, dLoop, sliceAdd, total]
    simp [Matrix.mulVec, dotProduct, hl]
    ring)
  rw [hp, hi] at h1
  have h2 := congrFun (congrFun h1 0) 0
  have h3 : ((Matrix.of fun _ _ => (1 : ℝ) : Matrix (Fin 1) (Fin 1) ℝ) * (block (fun i j => if i = j then (2 : ℝ) else 1) 1 : Matrix (Fin 1) (Fin 1) ℝ) *
      (Matrix.of fun _ _ => (1 : ℝ) : Matrix (Fin 1) (Fin 1) ℝ)ᵀ : Matrix (Fin 1) (Fin 1) ℝ) 0 0 = 2 := by
    simp [block, Matrix.mul_apply]
  have h4 : (2 : ℝ) = 3 / 2 := h3.symm.trans h2
  norm_num at h4

end Verif.CamSpec
