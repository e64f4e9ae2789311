import Verif.Model.Raftery
import Verif.Props.Thin
import Mathlib.LinearAlgebra.Matrix.Notation
import Mathlib.Analysis.SpecialFunctions.Log.Deriv
import Mathlib.Tactic.FinCases
import Mathlib.Tactic.IntervalCases
import Mathlib.Tactic.Linarith
import Mathlib.Tactic.FieldSimp

/-!
# The Raftery and Lewis test: counts, statistics and burn in
-/

namespace Verif.Raftery
open Verif.Py Verif.Py.Np Verif.Thin

/-! ### counting transitions -/

/-- Spec: in how many places does the list run through `i`, `j`, `k`? -/
def runs3 (b : List Nat) (i j k : Nat) : Nat :=
  ((List.range (b.length - 2)).filter fun n => b[n]? = some i ∧ b[n + 1]? = some j ∧ b[n + 2]? = some k).length

/-- Spec: in how many places does the list run through `i`, `j`? -/
def runs2 (b : List Nat) (i j : Nat) : Nat :=
  ((List.range (b.length - 1)).filter fun n => b[n]? = some i ∧ b[n + 1]? = some j).length

theorem index3_eq (b : List Nat) :
    index3 b = (List.range (b.length - 2)).map fun n => b.getD n 0 * 4 + b.getD (n + 1) 0 * 2 + b.getD (n + 2) 0 := by
  apply List.ext_getElem
  · simp [index3]; omega
  · intro n h1 h2
    simp at h2
    have h0 : n < b.length := by omega
    have h1' : n + 1 < b.length := by omega
    have h2' : n + 2 < b.length := by omega
    simp [index3, List.getD_eq_getElem?_getD, h0, h1', h2', Nat.add_comm 2 n]

theorem index2_eq (b : List Nat) :
    index2 b = (List.range (b.length - 1)).map fun n => b.getD n 0 * 2 + b.getD (n + 1) 0 := by
  apply List.ext_getElem
  · simp [index2]
  · intro n h1 h2
    simp at h2
    have h0 : n < b.length := by omega
    have h1' : n + 1 < b.length := by omega
    simp [index2, List.getD_eq_getElem?_getD, h0, h1']

/-- **C135** The counts are the numbers of places where the binary chain runs through the three values. -/
theorem tran3_spec (b : List Nat) (hb : ∀ v ∈ b, v < 2) (i j k : Nat) (_hi : i < 2) (hj : j < 2) (hk : k < 2) :
    tran3 b i j k = runs3 b i j k := by
  unfold tran3 runs3
  rw [index3_eq, List.count, List.countP_map, List.countP_eq_length_filter]
  congr 1
  apply List.filter_congr
  intro n hn
  simp at hn
  have h0 : n < b.length := by omega
  have h1 : n + 1 < b.length := by omega
  have h2 : n + 2 < b.length := by omega
  have e0 := hb _ (List.getElem_mem h0)
  have e1 := hb _ (List.getElem_mem h1)
  have e2 := hb _ (List.getElem_mem h2)
  simp only [Function.comp, List.getD_eq_getElem?_getD, List.getElem?_eq_getElem h0, List.getElem?_eq_getElem h1,
    List.getElem?_eq_getElem h2, Option.getD_some, Option.some.injEq]
  rw [Bool.eq_iff_iff]
  simp only [beq_iff_eq, decide_eq_true_eq]
  omega

/-- **C135** The same for two successive values. -/
theorem tran2_spec (b : List Nat) (hb : ∀ v ∈ b, v < 2) (i j : Nat) (_hi : i < 2) (hj : j < 2) : tran2 b i j = runs2 b i j := by
  unfold tran2 runs2
  rw [index2_eq, List.count, List.countP_map, List.countP_eq_length_filter]
  congr 1
  apply List.filter_congr
  intro n hn
  simp at hn
  have h0 : n < b.length := by omega
  have h1 : n + 1 < b.length := by omega
  have e0 := hb _ (List.getElem_mem h0)
  have e1 := hb _ (List.getElem_mem h1)
  simp only [Function.comp, List.getD_eq_getElem?_getD, List.getElem?_eq_getElem h0, List.getElem?_eq_getElem h1,
    Option.getD_some, Option.some.injEq]
  rw [Bool.eq_iff_iff]
  simp only [beq_iff_eq, decide_eq_true_eq]
  omega

example : tran3 [0, 0, 1, 0, 0, 1] 0 0 1 = 2 := by decide
example : tran2 [0, 0, 1, 0, 0, 1] 0 1 = 2 := by decide

theorem binary_lt (u : ℝ) (x : List ℝ) : ∀ v ∈ binary u x, v < 2 := by
  intro v hv
  obtain ⟨y, _, rfl⟩ := List.mem_map.mp hv
  split <;> omega

theorem sum_counts (l : List Nat) (m : Nat) (h : ∀ v ∈ l, v < m) : ((List.range m).map fun v => l.count v).sum = l.length := by
  induction l with
  | nil => simp
  | cons a l ih =>
    have ha := h a (by simp)
    have ih' := ih (fun v hv => h v (by simp [hv]))
    have : ∀ v, (a :: l).count v = l.count v + if a = v then 1 else 0 := by
      intro v; rw [List.count_cons]; simp
    simp only [this, List.length_cons]
    rw [List.sum_map_add, ih']
    congr 1
    have h1 : ∀ m, ((List.range m).map fun v => if a = v then 1 else 0).sum = if a < m then 1 else 0 := by
      intro m
      induction m with
      | zero => simp
      | succ m ihm =>
        rw [List.range_succ, List.map_append, List.sum_append, ihm]
        simp only [List.map_cons, List.map_nil, List.sum_cons, List.sum_nil]
        split <;> split <;> split <;> omega
    rw [h1, if_pos ha]

/-- **C135** Together the counts of three values are all places but two. -/
theorem tran3_total (b : List Nat) (hb : ∀ v ∈ b, v < 2) :
    tran3 b 0 0 0 + tran3 b 0 0 1 + tran3 b 0 1 0 + tran3 b 0 1 1 + tran3 b 1 0 0 + tran3 b 1 0 1 + tran3 b 1 1 0 + tran3 b 1 1 1
      = b.length - 2 := by
  have h := sum_counts (index3 b) 8 (by
    intro v hv
    rw [index3_eq] at hv
    obtain ⟨n, hn, rfl⟩ := List.mem_map.mp hv
    simp at hn
    have h0 : n < b.length := by omega
    have h1 : n + 1 < b.length := by omega
    have h2 : n + 2 < b.length := by omega
    have e0 := hb _ (List.getElem_mem h0)
    have e1 := hb _ (List.getElem_mem h1)
    have e2 := hb _ (List.getElem_mem h2)
    simp only [List.getD_eq_getElem?_getD, List.getElem?_eq_getElem h0, List.getElem?_eq_getElem h1,
      List.getElem?_eq_getElem h2, Option.getD_some]
    omega)
  have hl : (index3 b).length = b.length - 2 := by rw [index3_eq]; simp
  rw [hl] at h
  rw [show List.range 8 = [0, 1, 2, 3, 4, 5, 6, 7] from rfl] at h
  simp only [List.map_cons, List.map_nil, List.sum_cons, List.sum_nil] at h
  change (index3 b).count 0 + (index3 b).count 1 + (index3 b).count 2 + (index3 b).count 3 + (index3 b).count 4 + (index3 b).count 5
    + (index3 b).count 6 + (index3 b).count 7 = _
  omega

theorem tran2_total (b : List Nat) (hb : ∀ v ∈ b, v < 2) :
    tran2 b 0 0 + tran2 b 0 1 + tran2 b 1 0 + tran2 b 1 1 = b.length - 1 := by
  have h := sum_counts (index2 b) 4 (by
    intro v hv
    rw [index2_eq] at hv
    obtain ⟨n, hn, rfl⟩ := List.mem_map.mp hv
    simp at hn
    have h0 : n < b.length := by omega
    have h1 : n + 1 < b.length := by omega
    have e0 := hb _ (List.getElem_mem h0)
    have e1 := hb _ (List.getElem_mem h1)
    simp only [List.getD_eq_getElem?_getD, List.getElem?_eq_getElem h0, List.getElem?_eq_getElem h1, Option.getD_some]
    omega)
  have hl : (index2 b).length = b.length - 1 := by rw [index2_eq]; simp
  rw [hl] at h
  rw [show List.range 4 = [0, 1, 2, 3] from rfl] at h
  simp only [List.map_cons, List.map_nil, List.sum_cons, List.sum_nil] at h
  change (index2 b).count 0 + (index2 b).count 1 + (index2 b).count 2 + (index2 b).count 3 = _
  omega

/-! ### the statistics -/

/-- `O log (O/E) ≥ O - E` with equality only for `O = E` -/
theorem gibbs (o e : ℝ) (ho : 0 < o) (he : 0 < e) : o - e ≤ Real.log (o / e) * o ∧ (Real.log (o / e) * o = o - e → o = e) := by
  have hq : 0 < e / o := by positivity
  have h : Real.log (o / e) = - Real.log (e / o) := by rw [← Real.log_inv, inv_div]
  have h1 : (e / o - 1) * o = e - o := by field_simp
  constructor
  · have := Real.log_le_sub_one_of_pos hq
    rw [h]
    nlinarith
  · intro heq
    by_contra hne
    have hne' : e / o ≠ 1 := by
      intro h2
      rw [div_eq_one_iff_eq ho.ne'] at h2
      exact hne h2.symm
    have := Real.log_lt_sub_one_of_pos hq hne'
    rw [h] at heq
    nlinarith

/-- what would be expected if the third value depended only on the second -/
noncomputable def fitted3 (t : Nat → Nat → Nat → Nat) (i j k : Nat) : ℝ :=
  ((t i j 0 + t i j 1) * (t 0 j k + t 1 j k) : ℝ) / (t 0 j 0 + t 0 j 1 + t 1 j 0 + t 1 j 1 : ℝ)

theorem term3_ge (t : Nat → Nat → Nat → Nat) (i j k : Nat) (hi : i < 2) (hk : k < 2) :
    (t i j k : ℝ) - fitted3 t i j k ≤ term3 t i j k ∧ (term3 t i j k = t i j k - fitted3 t i j k → (t i j k : ℝ) = fitted3 t i j k) := by
  have hf : 0 ≤ fitted3 t i j k := by unfold fitted3; positivity
  unfold term3
  by_cases h : t i j k = 0
  · simp only [h, ne_eq, not_true_eq_false, if_false, Nat.cast_zero]
    exact ⟨by linarith, fun h => by linarith⟩
  · rw [if_pos h]
    have ho : (0 : ℝ) < t i j k := by exact_mod_cast Nat.pos_of_ne_zero h
    have h1 : 0 < (t i j 0 + t i j 1 : ℝ) := by
      interval_cases k
      · have : (0 : ℝ) ≤ t i j 1 := by positivity
        linarith
      · have : (0 : ℝ) ≤ t i j 0 := by positivity
        linarith
    have h2 : 0 < (t 0 j k + t 1 j k : ℝ) := by
      interval_cases i
      · have : (0 : ℝ) ≤ t 1 j k := by positivity
        linarith
      · have : (0 : ℝ) ≤ t 0 j k := by positivity
        linarith
    have h3 : 0 < (t 0 j 0 + t 0 j 1 + t 1 j 0 + t 1 j 1 : ℝ) := by
      have a0 : (0 : ℝ) ≤ t 0 j 0 := by positivity
      have a1 : (0 : ℝ) ≤ t 0 j 1 := by positivity
      have a2 : (0 : ℝ) ≤ t 1 j 0 := by positivity
      have a3 : (0 : ℝ) ≤ t 1 j 1 := by positivity
      interval_cases i <;> linarith
    have he : 0 < fitted3 t i j k := by unfold fitted3; positivity
    exact gibbs _ _ ho he

theorem sum_fitted3 (t : Nat → Nat → Nat → Nat) (j : Nat) :
    fitted3 t 0 j 0 + fitted3 t 0 j 1 + fitted3 t 1 j 0 + fitted3 t 1 j 1 = (t 0 j 0 + t 0 j 1 + t 1 j 0 + t 1 j 1 : ℝ) := by
  unfold fitted3
  by_cases h : (t 0 j 0 + t 0 j 1 + t 1 j 0 + t 1 j 1 : ℝ) = 0
  · rw [h]; simp
  · field_simp
    ring

/-- **C135** The statistic that tells whether a chain is Markov is never negative. -/
theorem g2Markov_nonneg (t : Nat → Nat → Nat → Nat) : 0 ≤ g2Markov t := by
  have h := fun i j k hi hk => (term3_ge t i j k hi hk).1
  have h0 := sum_fitted3 t 0
  have h1 := sum_fitted3 t 1
  simp only [g2Markov, Finset.sum_range_succ, Finset.sum_range_zero, zero_add]
  have a1 := h 0 0 0 (by omega) (by omega)
  have a2 := h 0 0 1 (by omega) (by omega)
  have a3 := h 1 0 0 (by omega) (by omega)
  have a4 := h 1 0 1 (by omega) (by omega)
  have b1 := h 0 1 0 (by omega) (by omega)
  have b2 := h 0 1 1 (by omega) (by omega)
  have b3 := h 1 1 0 (by omega) (by omega)
  have b4 := h 1 1 1 (by omega) (by omega)
  linarith

/-- Spec: given the middle value, the first and the third are counted as if independent -/
def Conditional (t : Nat → Nat → Nat → Nat) : Prop := ∀ i < 2, ∀ j < 2, ∀ k < 2,
  t i j k * (t 0 j 0 + t 0 j 1 + t 1 j 0 + t 1 j 1) = (t i j 0 + t i j 1) * (t 0 j k + t 1 j k)

theorem fitted3_iff (t : Nat → Nat → Nat → Nat) (i j k : Nat) (hi : i < 2) (hk : k < 2) : (t i j k : ℝ) = fitted3 t i j k ↔
    t i j k * (t 0 j 0 + t 0 j 1 + t 1 j 0 + t 1 j 1) = (t i j 0 + t i j 1) * (t 0 j k + t 1 j k) := by
  unfold fitted3
  by_cases h : t 0 j 0 + t 0 j 1 + t 1 j 0 + t 1 j 1 = 0
  · have hz : t 0 j 0 = 0 ∧ t 0 j 1 = 0 ∧ t 1 j 0 = 0 ∧ t 1 j 1 = 0 := by omega
    obtain ⟨a, b, c, d⟩ := hz
    interval_cases i <;> interval_cases k <;> simp [a, b, c, d]
  · have h' : (t 0 j 0 + t 0 j 1 + t 1 j 0 + t 1 j 1 : ℝ) ≠ 0 := by exact_mod_cast h
    rw [eq_div_iff h']
    norm_cast

/-- **C135** It is zero exactly if, given the middle value, the first and the third are independent in the counts. -/
theorem g2Markov_zero (t : Nat → Nat → Nat → Nat) : g2Markov t = 0 ↔ Conditional t := by
  have h := fun i j k hi hk => (term3_ge t i j k hi hk).1
  have h0 := sum_fitted3 t 0
  have h1 := sum_fitted3 t 1
  constructor
  · intro hz
    simp only [g2Markov, Finset.sum_range_succ, Finset.sum_range_zero, zero_add] at hz
    have a1 := h 0 0 0 (by omega) (by omega)
    have a2 := h 0 0 1 (by omega) (by omega)
    have a3 := h 1 0 0 (by omega) (by omega)
    have a4 := h 1 0 1 (by omega) (by omega)
    have b1 := h 0 1 0 (by omega) (by omega)
    have b2 := h 0 1 1 (by omega) (by omega)
    have b3 := h 1 1 0 (by omega) (by omega)
    have b4 := h 1 1 1 (by omega) (by omega)
    intro i hi j hj k hk
    rw [← fitted3_iff t i j k hi hk]
    apply (term3_ge t i j k hi hk).2
    interval_cases i <;> interval_cases j <;> interval_cases k <;> linarith
  · intro hc
    have hz : ∀ i < 2, ∀ j < 2, ∀ k < 2, term3 t i j k = 0 := by
      intro i hi j hj k hk
      have he := (fitted3_iff t i j k hi hk).mpr (hc i hi j hj k hk)
      unfold term3
      split
      · rename_i hne
        change Real.log ((t i j k : ℝ) / fitted3 t i j k) * _ = 0
        rw [← he, div_self (by exact_mod_cast hne), Real.log_one, zero_mul]
      · rfl
    simp only [g2Markov, Finset.sum_range_succ, Finset.sum_range_zero, zero_add]
    rw [hz 0 (by omega) 0 (by omega) 0 (by omega), hz 0 (by omega) 0 (by omega) 1 (by omega), hz 0 (by omega) 1 (by omega) 0 (by omega),
      hz 0 (by omega) 1 (by omega) 1 (by omega), hz 1 (by omega) 0 (by omega) 0 (by omega), hz 1 (by omega) 0 (by omega) 1 (by omega),
      hz 1 (by omega) 1 (by omega) 0 (by omega), hz 1 (by omega) 1 (by omega) 1 (by omega)]
    norm_num

example : g2Markov (tran3 [0, 0, 0, 1, 0, 1, 1, 1, 0, 0]) = 0 := (g2Markov_zero _).mpr (by unfold Conditional; decide)

theorem fitted2_pos (t : Nat → Nat → Nat) (rows i j : Nat) (hr : 2 ≤ rows) (hi : i < 2) (hj : j < 2) (h : t i j ≠ 0) : 0 < fitted2 t rows i j := by
  have ho : (0 : ℝ) < t i j := by exact_mod_cast Nat.pos_of_ne_zero h
  have h1 : 0 < (t i 0 + t i 1 : ℝ) := by
    interval_cases j
    · have : (0 : ℝ) ≤ t i 1 := by positivity
      linarith
    · have : (0 : ℝ) ≤ t i 0 := by positivity
      linarith
  have h2 : 0 < (t 0 j + t 1 j : ℝ) := by
    interval_cases i
    · have : (0 : ℝ) ≤ t 1 j := by positivity
      linarith
    · have : (0 : ℝ) ≤ t 0 j := by positivity
      linarith
  have h3 : (0 : ℝ) < (rows : ℝ) - 1 := by
    have : (2 : ℝ) ≤ rows := by exact_mod_cast hr
    linarith
  unfold fitted2
  positivity

/-- **C135** The case in which the function would return nothing never occurs. -/
theorem no_problem (t : Nat → Nat → Nat) (rows : Nat) (hr : 2 ≤ rows) : ¬ problem t rows := by
  rintro ⟨i, hi, j, hj, h, h1 | h1⟩
  · exact absurd h1 (not_le.mpr (fitted2_pos t rows i j hr hi hj h))
  · exact h (by exact_mod_cast le_antisymm h1 (by positivity))

/-- Spec: successive values are counted as if independent -/
def Independent (t : Nat → Nat → Nat) (n : Nat) : Prop := ∀ i < 2, ∀ j < 2, t i j * n = (t i 0 + t i 1) * (t 0 j + t 1 j)

theorem term2_ge (t : Nat → Nat → Nat) (rows i j : Nat) (hr : 2 ≤ rows) (hi : i < 2) (hj : j < 2) :
    (t i j : ℝ) - fitted2 t rows i j ≤ (if t i j ≠ 0 then Real.log ((t i j : ℝ) / fitted2 t rows i j) * t i j else 0) ∧
    ((if t i j ≠ 0 then Real.log ((t i j : ℝ) / fitted2 t rows i j) * t i j else 0) = t i j - fitted2 t rows i j →
      (t i j : ℝ) = fitted2 t rows i j) := by
  have h3 : (0 : ℝ) < (rows : ℝ) - 1 := by
    have : (2 : ℝ) ≤ rows := by exact_mod_cast hr
    linarith
  have hf : 0 ≤ fitted2 t rows i j := by unfold fitted2; positivity
  by_cases h : t i j = 0
  · simp only [h, ne_eq, not_true_eq_false, if_false, Nat.cast_zero]
    exact ⟨by linarith, fun h => by linarith⟩
  · rw [if_pos h]
    exact gibbs _ _ (by exact_mod_cast Nat.pos_of_ne_zero h) (fitted2_pos t rows i j hr hi hj h)

theorem sum_fitted2 (t : Nat → Nat → Nat) (rows : Nat) (hr : 2 ≤ rows) (ht : t 0 0 + t 0 1 + t 1 0 + t 1 1 = rows - 1) :
    fitted2 t rows 0 0 + fitted2 t rows 0 1 + fitted2 t rows 1 0 + fitted2 t rows 1 1 = (t 0 0 + t 0 1 + t 1 0 + t 1 1 : ℝ) := by
  have h : (t 0 0 + t 0 1 + t 1 0 + t 1 1 : ℝ) = (rows : ℝ) - 1 := by
    have : ((t 0 0 + t 0 1 + t 1 0 + t 1 1 : Nat) : ℝ) = ((rows - 1 : Nat) : ℝ) := by rw [ht]
    rw [Nat.cast_sub (by omega)] at this
    push_cast at this
    exact this
  have h3 : (rows : ℝ) - 1 ≠ 0 := by
    have : (2 : ℝ) ≤ rows := by exact_mod_cast hr
    linarith
  unfold fitted2
  rw [← h] at h3 ⊢
  field_simp
  ring

/-- **C135** The statistic that tells whether samples are independent is never negative. -/
theorem g2Indep_nonneg (t : Nat → Nat → Nat) (rows : Nat) (hr : 2 ≤ rows) (ht : t 0 0 + t 0 1 + t 1 0 + t 1 1 = rows - 1) : 0 ≤ g2Indep t rows := by
  have h := fun i j hi hj => (term2_ge t rows i j hr hi hj).1
  have h0 := sum_fitted2 t rows hr ht
  simp only [g2Indep, Finset.sum_range_succ, Finset.sum_range_zero, zero_add]
  have a1 := h 0 0 (by omega) (by omega)
  have a2 := h 0 1 (by omega) (by omega)
  have a3 := h 1 0 (by omega) (by omega)
  have a4 := h 1 1 (by omega) (by omega)
  linarith

/-- **C135** It is zero exactly if successive values are independent in the counts. -/
theorem g2Indep_zero (t : Nat → Nat → Nat) (rows : Nat) (hr : 2 ≤ rows) (ht : t 0 0 + t 0 1 + t 1 0 + t 1 1 = rows - 1) :
    g2Indep t rows = 0 ↔ Independent t (rows - 1) := by
  have h := fun i j hi hj => (term2_ge t rows i j hr hi hj).1
  have h0 := sum_fitted2 t rows hr ht
  have h3 : (rows : ℝ) - 1 ≠ 0 := by
    have : (2 : ℝ) ≤ rows := by exact_mod_cast hr
    linarith
  have hfit : ∀ i j, (t i j : ℝ) = fitted2 t rows i j ↔ t i j * (rows - 1) = (t i 0 + t i 1) * (t 0 j + t 1 j) := by
    intro i j
    unfold fitted2
    rw [eq_div_iff h3]
    have : ((rows : ℝ) - 1) = ((rows - 1 : Nat) : ℝ) := by rw [Nat.cast_sub (by omega)]; simp
    rw [this]
    norm_cast
  constructor
  · intro hz
    simp only [g2Indep, Finset.sum_range_succ, Finset.sum_range_zero, zero_add] at hz
    have a1 := h 0 0 (by omega) (by omega)
    have a2 := h 0 1 (by omega) (by omega)
    have a3 := h 1 0 (by omega) (by omega)
    have a4 := h 1 1 (by omega) (by omega)
    intro i hi j hj
    rw [← hfit]
    apply (term2_ge t rows i j hr hi hj).2
    interval_cases i <;> interval_cases j <;> linarith
  · intro hc
    have hz : ∀ i < 2, ∀ j < 2, (if t i j ≠ 0 then Real.log ((t i j : ℝ) / fitted2 t rows i j) * t i j else 0) = 0 := by
      intro i hi j hj
      have he := (hfit i j).mpr (hc i hi j hj)
      split
      · rename_i hne
        rw [← he, div_self (by exact_mod_cast hne), Real.log_one, zero_mul]
      · rfl
    simp only [g2Indep, Finset.sum_range_succ, Finset.sum_range_zero, zero_add]
    rw [hz 0 (by omega) 0 (by omega), hz 0 (by omega) 1 (by omega), hz 1 (by omega) 0 (by omega), hz 1 (by omega) 1 (by omega)]
    norm_num

example : g2Indep (tran2 [0, 0, 1, 1, 0]) 5 = 0 := (g2Indep_zero _ 5 (by omega) (by decide)).mpr (by unfold Independent; decide)

/-! ### burn in of a chain with two states -/

/-- Spec: one step of a chain with two states that leaves the first with probability `a` and the second with probability `b` -/
def step (a b : ℝ) : Matrix (Fin 2) (Fin 2) ℝ := !![1 - a, a; b, 1 - b]

/-- Spec: the probabilities that do not change in a step -/
noncomputable def stationary (a b : ℝ) : Fin 2 → ℝ := ![b / (a + b), a / (a + b)]

/-- Spec: after `n` steps, wherever the chain began, each state has its stationary probability up to `eps` -/
def Forgotten (a b eps : ℝ) (n : Nat) : Prop := ∀ i j, |(step a b ^ n) i j - stationary a b j| < eps

theorem step_pow (a b : ℝ) (h : a + b ≠ 0) (n : Nat) : step a b ^ n =
    !![(b + a * (1 - (a + b)) ^ n) / (a + b), (a - a * (1 - (a + b)) ^ n) / (a + b);
       (b - b * (1 - (a + b)) ^ n) / (a + b), (a + b * (1 - (a + b)) ^ n) / (a + b)] := by
  induction n with
  | zero =>
    rw [pow_zero]
    ext i j
    fin_cases i <;> fin_cases j <;> simp <;> field_simp <;> ring
  | succ n ih =>
    rw [pow_succ, ih]
    ext i j
    fin_cases i <;> fin_cases j <;> simp [step, Matrix.mul_apply, Fin.sum_univ_two, pow_succ] <;> field_simp <;> ring

theorem forgotten_iff (a b eps : ℝ) (ha : 0 < a) (hb : 0 < b) (n : Nat) :
    Forgotten a b eps n ↔ |1 - (a + b)| ^ n * max a b / (a + b) < eps := by
  have hs : 0 < a + b := by positivity
  unfold Forgotten
  rw [step_pow a b hs.ne']
  have e : ∀ c : ℝ, 0 < c → |c * (1 - (a + b)) ^ n / (a + b)| = |1 - (a + b)| ^ n * c / (a + b) := by
    intro c hc
    rw [abs_div, abs_mul, abs_pow, abs_of_pos hc, abs_of_pos hs, mul_comm]
  have e' : ∀ c : ℝ, 0 < c → |-(c * (1 - (a + b)) ^ n / (a + b))| = |1 - (a + b)| ^ n * c / (a + b) := by
    intro c hc
    rw [abs_neg, e c hc]
  have hl : 0 ≤ |1 - (a + b)| ^ n := by positivity
  have hma : |1 - (a + b)| ^ n * a / (a + b) ≤ |1 - (a + b)| ^ n * max a b / (a + b) := by gcongr; exact le_max_left _ _
  have hmb : |1 - (a + b)| ^ n * b / (a + b) ≤ |1 - (a + b)| ^ n * max a b / (a + b) := by gcongr; exact le_max_right _ _
  constructor
  · intro h
    have h00 := h 0 0
    have h10 := h 1 0
    simp only [stationary, Matrix.of_apply, Matrix.cons_val', Matrix.cons_val_zero, Matrix.cons_val_one, Matrix.cons_val_fin_one] at h00 h10
    rw [show (b + a * (1 - (a + b)) ^ n) / (a + b) - b / (a + b) = a * (1 - (a + b)) ^ n / (a + b) by ring, e a ha] at h00
    rw [show (b - b * (1 - (a + b)) ^ n) / (a + b) - b / (a + b) = -(b * (1 - (a + b)) ^ n / (a + b)) by ring, e' b hb] at h10
    rcases max_cases a b with ⟨hm, _⟩ | ⟨hm, _⟩ <;> rw [hm] <;> assumption
  · intro h i j
    fin_cases i <;> fin_cases j <;> simp [stationary]
    · rw [show (b + a * (1 - (a + b)) ^ n) / (a + b) - b / (a + b) = a * (1 - (a + b)) ^ n / (a + b) by ring, e a ha]; linarith
    · rw [show (a - a * (1 - (a + b)) ^ n) / (a + b) - a / (a + b) = -(a * (1 - (a + b)) ^ n / (a + b)) by ring, e' a ha]; linarith
    · rw [show (b - b * (1 - (a + b)) ^ n) / (a + b) - b / (a + b) = -(b * (1 - (a + b)) ^ n / (a + b)) by ring, e' b hb]; linarith
    · rw [show (a + b * (1 - (a + b)) ^ n) / (a + b) - a / (a + b) = b * (1 - (a + b)) ^ n / (a + b) by ring, e b hb]; linarith

/-- **C135** The burn in is the exact number of steps after which the two-state chain has forgotten where it began: enough steps are those that
reach it, and no fewer. -/
theorem burnSteps_spec (a b eps : ℝ) (ha : 0 < a) (hb : 0 < b) (hs : a + b < 2) (hs1 : a + b ≠ 1) (he : 0 < eps) (he2 : eps < 1 / 2) (n : Nat) :
    Forgotten a b eps n ↔ burnSteps a b eps ≤ n := by
  rw [forgotten_iff a b eps ha hb]
  have hsum : 0 < a + b := by positivity
  have hm : 0 < max a b := lt_max_of_lt_left ha
  have hl0 : 0 < |1 - (a + b)| := abs_pos.mpr (by intro h; exact hs1 (by linarith))
  have hl1 : |1 - (a + b)| < 1 := abs_lt.mpr ⟨by linarith, by linarith⟩
  have hlog : Real.log |1 - (a + b)| < 0 := Real.log_neg hl0 hl1
  have hx : 0 < (a + b) * eps / max a b := by positivity
  have hx1 : (a + b) * eps / max a b < 1 := by
    rw [div_lt_one hm]
    have : a + b ≤ 2 * max a b := by linarith [le_max_left a b, le_max_right a b]
    nlinarith
  have hlx : Real.log ((a + b) * eps / max a b) < 0 := Real.log_neg hx hx1
  have htmp : 0 < Real.log ((a + b) * eps / max a b) / Real.log |1 - (a + b)| := div_pos_of_neg_of_neg hlx hlog
  unfold burnSteps trunc
  rw [if_pos (by linarith), Int.floor_add_one, Int.add_one_le_iff, Int.floor_lt]
  rw [show (((n : Int) : ℝ)) = (n : ℝ) by simp, div_lt_iff_of_neg hlog, ← Real.log_pow, Real.log_lt_log_iff (by positivity) hx, lt_div_iff₀ hm,
    div_lt_iff₀ hsum, mul_comm eps]

theorem burnSteps_pos (a b eps : ℝ) (ha : 0 < a) (hb : 0 < b) (hs : a + b < 2) (hs1 : a + b ≠ 1) (he : 0 < eps) (he2 : eps < 1 / 2) :
    1 ≤ burnSteps a b eps := by
  by_contra h
  have h0 : burnSteps a b eps ≤ (0 : Nat) := by push_cast; omega
  have := (burnSteps_spec a b eps ha hb hs hs1 he he2 0).mpr h0
  rw [forgotten_iff a b eps ha hb, pow_zero, one_mul, div_lt_iff₀ (by positivity)] at this
  have : a + b ≤ 2 * max a b := by linarith [le_max_left a b, le_max_right a b]
  nlinarith

example : burnSteps (1 / 4) (1 / 4) (1 / 1000) ≤ 9 :=
  (burnSteps_spec (1 / 4) (1 / 4) (1 / 1000) (by norm_num) (by norm_num) (by norm_num) (by norm_num) (by norm_num) (by norm_num) 9).mp (by
    rw [forgotten_iff _ _ _ (by norm_num) (by norm_num)]; norm_num)

end Verif.Raftery
