import Verif.Props.Singles
import Mathlib.Tactic.Positivity

/-!
# Splits of the samples, most correlated pairs, effective numbers of weighted samples
-/

namespace Verif.Singles
open Verif.Py Verif.Py.Np Verif.Confidence
set_option linter.unusedSectionVars false

variable {K : Type} [Field K] [LinearOrder K] [IsStrictOrderedRing K]

/-! ## Boundaries -/

/-- total weight of the first `k` rows -/
def before (w : List K) (k : Nat) : K := (w.take k).sum

theorem search_before : ∀ (w : List K) (acc t : K), searchsorted (cumsumFrom acc w) t ≤ w.length ∧
    (0 < searchsorted (cumsumFrom acc w) t → acc + before w (searchsorted (cumsumFrom acc w) t) < t) ∧
    (searchsorted (cumsumFrom acc w) t < w.length → t ≤ acc + before w (searchsorted (cumsumFrom acc w) t + 1))
  | [], acc, t => by simp [searchsorted, cumsumFrom]
  | a :: w, acc, t => by
    obtain ⟨h1, h2, h3⟩ := search_before w (acc + a) t
    by_cases h : acc + a < t
    · have e : searchsorted (cumsumFrom acc (a :: w)) t = searchsorted (cumsumFrom (acc + a) w) t + 1 := by
        simp [searchsorted, cumsumFrom, h]
      rw [e]
      have eb : ∀ k, acc + before (a :: w) (k + 1) = acc + a + before w k := by
        intro k; simp [before, add_assoc]
      refine ⟨by simpa using h1, fun _ => ?_, fun hl => ?_⟩
      · rw [eb]
        rcases Nat.eq_zero_or_pos (searchsorted (cumsumFrom (acc + a) w) t) with h0 | h0
        · rw [h0]; simpa [before] using h
        · exact h2 h0
      · rw [eb]
        exact h3 (by simpa using hl)
    · have e : searchsorted (cumsumFrom acc (a :: w)) t = 0 := by simp [searchsorted, cumsumFrom, h]
      rw [e]
      refine ⟨by simp, fun h0 => absurd h0 (lt_irrefl _), fun _ => ?_⟩
      simpa [before] using h

theorem before_all (w : List K) : before w w.length = w.sum := by simp [before]

theorem before_succ (w : List K) {k : Nat} (h : k < w.length) : before w (k + 1) = before w k + w[k] := by
  unfold before
  rw [← List.take_concat_get' w k h, List.sum_append]
  simp

theorem before_mono {w : List K} (hw : ∀ x ∈ w, 0 ≤ x) {a b : Nat} (h : a ≤ b) : before w a ≤ before w b := by
  induction b, h using Nat.le_induction with
  | base => exact le_refl _
  | succ b hb ih =>
    refine ih.trans ?_
    by_cases hl : b < w.length
    · rw [before_succ w hl]
      have := hw _ (List.getElem_mem hl)
      linarith
    · unfold before
      rw [List.take_of_length_le (by omega), List.take_of_length_le (by omega)]

/-- boundary `k` of the split into `n` parts, from what the function returns -/
def bound (w : List K) (n k : Nat) : Nat := (fractionIndices w w n).getD k 0

theorem fraction_length (w v : List K) (n : Nat) : (fractionIndices w v n).length = n + 1 := by simp [fractionIndices]

theorem bound_lt (w : List K) {n k : Nat} (h : k < n) : bound w n k = searchsorted (cumsum w) ((k : K) / (n : K) * w.sum) := by
  unfold bound fractionIndices
  rw [List.getD_eq_getElem?_getD, List.getElem?_append_left (by simpa using h)]
  simp [h]

theorem bound_last (w : List K) (n : Nat) : bound w n n = w.length := by
  unfold bound fractionIndices
  rw [List.getD_eq_getElem?_getD, List.getElem?_append_right (by simp)]
  simp

theorem sum_nonneg' {w : List K} (hw : ∀ x ∈ w, 0 ≤ x) : 0 ≤ w.sum := List.sum_nonneg hw

/-- **C130**: boundary `k` is where the weight of the rows before it is at most `k/n` of the total, and with the row at the boundary at least `k/n`. -/
theorem bound_spec {w : List K} (hw : ∀ x ∈ w, 0 ≤ x) {n k : Nat} (h : k < n) :
    bound w n k ≤ w.length ∧ before w (bound w n k) ≤ (k : K) / n * w.sum ∧
      (bound w n k < w.length → (k : K) / n * w.sum ≤ before w (bound w n k + 1)) ∧ (w ≠ [] → bound w n k < w.length) := by
  rw [bound_lt w h]
  have hn : (0 : K) < n := by exact_mod_cast (by omega : 0 < n)
  have hs := sum_nonneg' hw
  have ht : (0 : K) ≤ (k : K) / n * w.sum := mul_nonneg (by positivity) hs
  obtain ⟨h1, h2, h3⟩ := search_before w 0 ((k : K) / n * w.sum)
  simp only [zero_add] at h2 h3
  have hle : before w (searchsorted (cumsum w) ((k : K) / n * w.sum)) ≤ (k : K) / n * w.sum := by
    rcases Nat.eq_zero_or_pos (searchsorted (cumsum w) ((k : K) / n * w.sum)) with h0 | h0
    · rw [h0]; simpa [before] using ht
    · exact (h2 h0).le
  refine ⟨h1, hle, h3, fun hne => ?_⟩
  rcases h1.lt_or_eq with h4 | h4
  · exact h4
  · exfalso
    have hpos : 0 < w.length := List.length_pos_of_ne_nil hne
    have h5 := h2 (by unfold cumsum at *; omega)
    have e : before w (searchsorted (cumsumFrom 0 w) ((k : K) / n * w.sum)) = w.sum := by
      rw [h4]; exact before_all w
    unfold cumsum at *
    rw [e] at h5
    have : (k : K) / n ≤ 1 := by
      rw [div_le_one hn]; exact_mod_cast h.le
    have := mul_le_mul_of_nonneg_right this hs
    linarith

example : bound [1, 2, 1, (4 : ℚ)] 2 1 = 2 ∧ before [1, 2, 1, (4 : ℚ)] 2 = 3 ∧ before [1, 2, 1, (4 : ℚ)] 3 = 4 := by decide +kernel

example : bound [(1 : ℚ), 2, 1, 3, 1, 2] 2 1 = 3 ∧ before [(1 : ℚ), 2, 1, 3, 1, 2] 3 = 4 ∧ before [(1 : ℚ), 2, 1, 3, 1, 2] 4 = 7 := by decide +kernel

theorem bound_zero {w : List K} (hw : ∀ x ∈ w, 0 ≤ x) {n : Nat} (h : 0 < n) : bound w n 0 = 0 := by
  rw [bound_lt w h]
  cases w with
  | nil => rfl
  | cons a w =>
    have := hw a List.mem_cons_self
    simp [searchsorted, cumsum, cumsumFrom, not_lt.mpr this]

/-- **C130**: the boundaries are in order, from the first row to the last. -/
theorem bound_mono {w : List K} (hw : ∀ x ∈ w, 0 ≤ x) {n k : Nat} (h : k < n) : bound w n k ≤ bound w n (k + 1) := by
  by_cases hk : k + 1 < n
  · by_contra hc
    have hc' : bound w n (k + 1) + 1 ≤ bound w n k := by omega
    obtain ⟨a1, _, _, _⟩ := bound_spec hw h
    obtain ⟨b1, _, b3, _⟩ := bound_spec hw hk
    have := b3 (by omega)
    have h4 := before_mono hw hc'
    have hlt : before w (bound w n k) < (k : K) / n * w.sum := by
      rw [bound_lt w h]
      have := (search_before w 0 ((k : K) / n * w.sum)).2.1 (by rw [bound_lt w h] at hc'; unfold cumsum at hc'; omega)
      simpa [cumsum] using this
    have hn : (0 : K) < n := by exact_mod_cast (by omega : 0 < n)
    have : (k : K) / n * w.sum ≤ ((k + 1 : Nat) : K) / n * w.sum := by
      apply mul_le_mul_of_nonneg_right _ (sum_nonneg' hw)
      rw [div_le_div_iff_of_pos_right hn]; push_cast; linarith
    linarith
  · have : k + 1 = n := by omega
    rw [this, bound_last]
    exact (bound_spec hw h).1

example : (List.range 5).map (bound [1, 2, 1, (4 : ℚ)] 4) = [0, 1, 2, 3, 4] := by decide +kernel

example : (List.range 4).map (bound [(1 : ℚ), 2, 1, 3, 1, 2] 3) = [0, 2, 3, 6] := by decide +kernel

/-- the rows of part `k` -/
def part {α : Type} (l : List α) (w : List K) (n k : Nat) : List α := slice l (bound w n k) (some (bound w n (k + 1)))

theorem slice_join {α : Type} (l : List α) {a b : Nat} (h : a ≤ b) : l.take a ++ slice l a (some b) = l.take b := by
  have e : l.take a = (l.take b).take a := by rw [List.take_take, Nat.min_eq_left h]
  show l.take a ++ (l.take b).drop a = l.take b
  rw [e, List.take_append_drop]

/-- **C130**: the parts in order are all the rows, none lost and none counted twice. -/
theorem parts_all {α : Type} (l : List α) {w : List K} (hl : l.length = w.length) (hw : ∀ x ∈ w, 0 ≤ x) {n : Nat} (hn : 0 < n) :
    (List.range n).flatMap (part l w n) = l := by
  have key : ∀ m, m ≤ n → (List.range m).flatMap (part l w n) = l.take (bound w n m) := by
    intro m
    induction m with
    | zero => intro _; rw [bound_zero hw hn]; rfl
    | succ m ih =>
      intro hm
      rw [List.range_succ, List.flatMap_append, ih (by omega)]
      simp only [List.flatMap_cons, List.flatMap_nil, List.append_nil]
      exact slice_join l (bound_mono hw (by omega))
  rw [key n (le_refl n), bound_last, ← hl, List.take_length]

example : (List.range 3).map (part c!"abcdef" [(1 : ℚ), 2, 1, 3, 1, 2] 3) = [c!"ab", c!"c", c!"def"] := by decide +kernel

/-- **C130**: the weight of every part is the `n`-th part of the total up to the heaviest weight. -/
theorem part_weight {w : List K} (hw : ∀ x ∈ w, 0 ≤ x) {m : K} (hm : Greatest w m) {n k : Nat} (h : k < n) :
    |(part w w n k).sum - w.sum / n| ≤ m := by
  have hne : w ≠ [] := List.ne_nil_of_mem hm.1
  have hn : (0 : K) < n := by exact_mod_cast (by omega : 0 < n)
  have hp : (part w w n k).sum = before w (bound w n (k + 1)) - before w (bound w n k) := by
    have := congrArg List.sum (slice_join w (bound_mono hw h))
    rw [List.sum_append] at this
    unfold before part
    linarith
  have lo : ∀ j, j < n → (j : K) / n * w.sum - m ≤ before w (bound w n j) ∧ before w (bound w n j) ≤ (j : K) / n * w.sum := by
    intro j hj
    obtain ⟨_, a2, a3, a4⟩ := bound_spec hw hj
    have hlt := a4 hne
    have := a3 hlt
    rw [before_succ w hlt] at this
    have hmx := hm.2 _ (List.getElem_mem hlt)
    exact ⟨by linarith, a2⟩
  have hm0 : 0 ≤ m := hw _ hm.1
  have lo' : ∀ j, j ≤ n → (j : K) / n * w.sum - m ≤ before w (bound w n j) ∧ before w (bound w n j) ≤ (j : K) / n * w.sum := by
    intro j hj
    rcases hj.lt_or_eq with h1 | h1
    · exact lo j h1
    · subst h1
      rw [bound_last, before_all, div_self hn.ne', one_mul]
      exact ⟨by linarith, le_refl _⟩
  obtain ⟨a1, a2⟩ := lo' k h.le
  obtain ⟨b1, b2⟩ := lo' (k + 1) h
  have e : ((k + 1 : Nat) : K) / n * w.sum = (k : K) / n * w.sum + w.sum / n := by push_cast; field_simp
  rw [hp, abs_le]
  rw [e] at b1 b2
  constructor <;> linarith

example : (part [(1 : ℚ), 2, 1, 3, 1, 2] [(1 : ℚ), 2, 1, 3, 1, 2] 2 0).sum = 4 ∧ [(1 : ℚ), 2, 1, 3, 1, 2].sum / 2 = 5 := by decide +kernel

example : fractionIndices [(1 : ℚ), 1, 1, 1, 1, 1] [1, 1, 1, 1, 1, 1] 3 = [0, 1, 3, 6] := by decide +kernel
example : fractionIndices [(1 : ℚ), 2, 1, 3, 1, 2] [1, 2, 1, 3, 1, 2] 2 = [0, 3, 6] := by decide +kernel

/-- **C131**: with weights other than the stored ones the parts are not equal: the total of the stored weights is used.  Here the weights double and the first
part holds an eighth. -/
theorem other_weights_fails : fractionIndices [(1 : ℚ), 1, 1, 1, 1, 1, 1, 1] [2, 2, 2, 2, 2, 2, 2, 2] 2 = [0, 1, 8] ∧
    fractionIndices [(2 : ℚ), 2, 2, 2, 2, 2, 2, 2] [2, 2, 2, 2, 2, 2, 2, 2] 2 = [0, 3, 8] := by decide +kernel

/-! ## Split tests -/

/-- if no row holds the `n`-th part of the weight, no part is empty -/
theorem bound_strict {w : List K} (hw : ∀ x ∈ w, 0 ≤ x) {n : Nat} (hne : w ≠ []) (hlight : ∀ x ∈ w, x < w.sum / n) {k : Nat} (h : k < n) :
    bound w n k < bound w n (k + 1) := by
  obtain ⟨_, a2, _, a4⟩ := bound_spec hw h
  have hlt := a4 hne
  by_cases hk : k + 1 < n
  · by_contra hc
    obtain ⟨_, _, b3, b4⟩ := bound_spec hw hk
    have hb := b4 hne
    have hn : (0 : K) < n := by exact_mod_cast (by omega : 0 < n)
    have h1 := b3 hb
    have h2 := before_mono hw (show bound w n (k + 1) + 1 ≤ bound w n k + 1 by omega)
    rw [before_succ w hlt] at h2
    have h3 := hlight _ (List.getElem_mem hlt)
    have e : ((k + 1 : Nat) : K) / n * w.sum = (k : K) / n * w.sum + w.sum / n := by push_cast; field_simp
    linarith
  · have : k + 1 = n := by omega
    rw [this, bound_last]
    exact hlt

theorem zip_tail_bounds (w : List K) (n : Nat) :
    (fractionIndices w w n).zip (fractionIndices w w n).tail = (List.range n).map (fun k => (bound w n k, bound w n (k + 1))) := by
  have e : fractionIndices w w n = (List.range (n + 1)).map (bound w n) := by
    apply List.ext_getElem
    · simp [fraction_length]
    · intro i h1 h2
      simp only [List.getElem_map, List.getElem_range]
      unfold bound
      rw [List.getD_eq_getElem?_getD, List.getElem?_eq_getElem h1]
      rfl
  rw [e]
  apply List.ext_getElem
  · simp
  · intro i h1 h2
    simp

theorem mapM_ok' {α β ε : Type} {f : α → Except ε β} : ∀ {l : List α} {g : α → β}, (∀ a ∈ l, f a = .ok (g a)) → l.mapM f = .ok (l.map g)
  | [], _, _ => rfl
  | a :: l, g, h => by
    rw [List.mapM_cons, h a List.mem_cons_self, mapM_ok' (fun b hb => h b (List.mem_cons_of_mem _ hb))]
    rfl

theorem mapM_err {α β ε : Type} {f : α → Except ε β} {e : ε} : ∀ {l : List α}, (∀ a ∈ l, f a = .error e ∨ ∃ b, f a = .ok b) → (∃ a ∈ l, f a = .error e) → l.mapM f = .error e
  | [], _, h => by obtain ⟨a, ha, _⟩ := h; cases ha
  | a :: l, h, ⟨b, hb, he⟩ => by
    rw [List.mapM_cons]
    rcases h a List.mem_cons_self with h1 | ⟨c, h1⟩
    · rw [h1]; rfl
    · rw [h1]
      have : b ∈ l := by
        rcases List.mem_cons.mp hb with rfl | hb
        · rw [h1] at he; cases he
        · exact hb
      have ih := mapM_err (f := f) (l := l) (fun a ha => h a (List.mem_cons_of_mem _ ha)) ⟨b, this, he⟩
      simp only [bind, Except.bind, ih]

/-- **C130**: if no row holds the `n`-th part of the weight, the split test is the root mean square difference, in standard deviations, between the quantile
of the parts and the quantile of all samples. -/
theorem splitTest_spec (sqrt : K → K) (argsort : List K → List Nat) (hA : IsArgsort argsort) {w vec : List K} (hl : vec.length = w.length) (hw : ∀ x ∈ w, 0 ≤ x)
    {n : Nat} (hne : w ≠ []) (hlight : ∀ x ∈ w, x < w.sum / n) {p : K} (hp0 : 0 ≤ p) (hp1 : p ≤ 1) (sd : K) :
    ∃ (q : K) (f : Nat → K), IsQuantile (vec.zip w) p q ∧
      (∀ k, k < n → IsQuantile ((part vec w n k).zip (part w w n k)) p (f k)) ∧
      splitTest sqrt argsort w vec p sd n = .ok (sqrt (((List.range n).map (fun k => (f k - q) ^ 2)).sum / n) / sd) := by
  have hvne : vec ≠ [] := by
    intro e; rw [e] at hl
    exact hne (List.length_eq_zero_iff.mp (by simpa using hl.symm))
  obtain ⟨q, hq, hq2⟩ := confidence_is_quantile argsort hA w vec 0 none none hl (by simpa [slice] using hvne) hw p false hp0 hp1
  have hparts : ∀ k, k < n → ∃ x, confidence argsort w vec p false (bound w n k) (some (bound w n (k + 1))) none = .ok x ∧
      IsQuantile ((part vec w n k).zip (part w w n k)) p x := by
    intro k hk
    have hb := bound_strict hw hne hlight hk
    have hle : bound w n (k + 1) ≤ w.length := by
      by_cases h : k + 1 < n
      · exact (bound_spec hw h).1
      · rw [show k + 1 = n by omega, bound_last]
    have hs : slice vec (bound w n k) (some (bound w n (k + 1))) ≠ [] := by
      intro e
      have := congrArg List.length e
      simp [slice] at this
      omega
    obtain ⟨x, h1, h2⟩ := confidence_is_quantile argsort hA w vec (bound w n k) (some (bound w n (k + 1))) none hl hs hw p false hp0 hp1
    exact ⟨x, h1, by simpa [inRange, part] using h2⟩
  choose! f hf using hparts
  refine ⟨q, f, by simpa [inRange, slice] using hq2, fun k hk => (hf k hk).2, ?_⟩
  unfold splitTest
  rw [hq]
  simp only [bind, Except.bind, zip_tail_bounds]
  have e : ((List.range n).map (fun k => (bound w n k, bound w n (k + 1)))).mapM (fun f => confidence argsort w vec p false f.1 (some f.2) none) = .ok ((List.range n).map f) := by
    rw [List.mapM_map]
    exact mapM_ok' (fun k hk => (hf k (List.mem_range.mp hk)).1)
  rw [e]
  simp only [pure, Except.pure, List.map_map]
  rfl

/-- **C130**: the test is zero if every part has the quantile of all. -/
theorem splitTest_zero (sqrt : K → K) (h0 : sqrt 0 = 0) (argsort : List K → List Nat) (hA : IsArgsort argsort) {w vec : List K} (hl : vec.length = w.length) (hw : ∀ x ∈ w, 0 ≤ x)
    {n : Nat} (hne : w ≠ []) (hlight : ∀ x ∈ w, x < w.sum / n) {p : K} (hp0 : 0 ≤ p) (hp1 : p ≤ 1) (sd : K) (q : K) (hq : IsQuantile (vec.zip w) p q)
    (hk : ∀ k, k < n → IsQuantile ((part vec w n k).zip (part w w n k)) p q) : splitTest sqrt argsort w vec p sd n = .ok 0 := by
  obtain ⟨q', f, h1, h2, h3⟩ := splitTest_spec sqrt argsort hA hl hw hne hlight hp0 hp1 sd
  rw [h3]
  obtain rfl := quantile_unique hq h1
  have : (List.range n).map (fun k => (f k - q) ^ 2) = (List.range n).map (fun _ => (0 : K)) := by
    apply List.map_congr_left
    intro k hk'
    have hlt := List.mem_range.mp hk'
    rw [quantile_unique (h2 k hlt) (hk k hlt), sub_self]
    ring
  rw [this]
  simp [h0]

/-- **C131**: if the first row holds the `n`-th part of the weight or more, its part is empty and the convergence tests stop with an `IndexError`. -/
theorem split_heavy_fails (sqrt : K → K) (argsort : List K → List Nat) (hA : IsArgsort argsort) {w vec : List K} (hl : vec.length = w.length) (hw : ∀ x ∈ w, 0 ≤ x)
    {n : Nat} (hn : 2 ≤ n) (a : K) (rest : List K) (hwa : w = a :: rest) (hheavy : w.sum / n ≤ a) {p : K} (hp0 : 0 ≤ p) (hp1 : p ≤ 1) (sd : K) :
    splitTest sqrt argsort w vec p sd n = .error .indexError := by
  have hne : w ≠ [] := by rw [hwa]; simp
  have hvne : vec ≠ [] := by
    intro e; rw [e] at hl
    exact hne (List.length_eq_zero_iff.mp (by simpa using hl.symm))
  obtain ⟨q, hq, hq2⟩ := confidence_is_quantile argsort hA w vec 0 none none hl (by simpa [slice] using hvne) hw p false hp0 hp1
  have hb1 : bound w n 1 = 0 := by
    rw [bound_lt w (by omega), hwa]
    have : ¬ (a < ((1 : Nat) : K) / n * (a :: rest).sum) := by
      rw [← hwa]
      push_cast
      rw [not_lt, one_div_mul_eq_div]
      exact hheavy
    simp [searchsorted, cumsum, cumsumFrom] at this ⊢
    simp [not_lt.mpr this]
  unfold splitTest
  rw [hq]
  simp only [bind, Except.bind, zip_tail_bounds]
  have e : ((List.range n).map (fun k => (bound w n k, bound w n (k + 1)))).mapM (fun f => confidence argsort w vec p false f.1 (some f.2) none) = .error .indexError := by
    rw [List.mapM_map]
    apply mapM_err
    · intro k _
      by_cases hs : slice vec (bound w n k) (some (bound w n (k + 1))) = []
      · exact Or.inl (confidence_empty argsort hA w vec _ _ none hs p false)
      · obtain ⟨x, h1, _⟩ := confidence_is_quantile argsort hA w vec (bound w n k) (some (bound w n (k + 1))) none hl hs hw p false hp0 hp1
        exact Or.inr ⟨x, h1⟩
    · refine ⟨0, List.mem_range.mpr (by omega), ?_⟩
      apply confidence_empty argsort hA
      show slice vec (bound w n 0) (some (bound w n 1)) = []
      rw [hb1]
      simp [slice]
  rw [e]

example : (splitTest (fun x : ℚ => x) argsortIns [1, 1, 1, 1, 1, 1] [1, 2, 3, 3, 2, 1] (1/2) 1 2).toOption = some (1/2) := by decide +kernel
example : (splitTest (fun x : ℚ => x) argsortIns [3, 1, 1, 1] [1, 2, 3, 3] (1/2) 1 2).toOption = none := by decide +kernel

/-! ## Most correlated pairs -/

theorem mem_pairs {n : Nat} {p : Nat × Nat} : p ∈ pairs n ↔ p.1 < p.2 ∧ p.2 < n := by
  unfold pairs
  simp only [List.mem_flatMap, List.mem_range, List.mem_map]
  constructor
  · rintro ⟨i, hi, k, hk, rfl⟩
    dsimp only; omega
  · rintro ⟨h1, h2⟩
    exact ⟨p.1, by omega, p.2 - (p.1 + 1), by omega, by ext <;> simp; omega⟩

theorem scan_spec (c : Nat → Nat → K) (tryT : K) (last : Nat × Nat) : ∀ (l : List (Nat × Nat)) (st : K × (Nat × Nat)),
    (l.foldl (scan c tryT) st = st ∧ ∀ q ∈ l, |c q.1 q.2| < tryT → |c q.1 q.2| ≤ st.1) ∨
    ((l.foldl (scan c tryT) st).2 ∈ l ∧ (l.foldl (scan c tryT) st).1 = |c (l.foldl (scan c tryT) st).2.1 (l.foldl (scan c tryT) st).2.2| ∧
      st.1 < (l.foldl (scan c tryT) st).1 ∧ (l.foldl (scan c tryT) st).1 < tryT ∧
      ∀ q ∈ l, |c q.1 q.2| < tryT → |c q.1 q.2| ≤ (l.foldl (scan c tryT) st).1)
  | [], st => by left; simp
  | p :: l, st => by
    rw [List.foldl_cons]
    by_cases h : st.1 < |c p.1 p.2| ∧ |c p.1 p.2| < tryT
    · have e : scan c tryT st p = (|c p.1 p.2|, p) := by unfold scan; rw [if_pos h]
      rw [e]
      right
      rcases scan_spec c tryT last l (|c p.1 p.2|, p) with ⟨h1, h2⟩ | ⟨h1, h2, h3, h4, h5⟩
      · rw [h1]
        refine ⟨List.mem_cons_self, rfl, h.1, h.2, fun q hq hqt => ?_⟩
        rcases List.mem_cons.mp hq with rfl | hq
        · exact le_refl _
        · exact h2 q hq hqt
      · refine ⟨List.mem_cons_of_mem _ h1, h2, h.1.trans h3, h4, fun q hq hqt => ?_⟩
        rcases List.mem_cons.mp hq with rfl | hq
        · exact h3.le
        · exact h5 q hq hqt
    · have e : scan c tryT st p = st := by unfold scan; rw [if_neg h]
      rw [e]
      have hp : |c p.1 p.2| < tryT → |c p.1 p.2| ≤ st.1 := by
        intro hlt
        by_contra hc
        exact h ⟨not_le.mp hc, hlt⟩
      rcases scan_spec c tryT last l st with ⟨h1, h2⟩ | ⟨h1, h2, h3, h4, h5⟩
      · left
        refine ⟨h1, fun q hq hqt => ?_⟩
        rcases List.mem_cons.mp hq with rfl | hq
        · exact hp hqt
        · exact h2 q hq hqt
      · right
        refine ⟨List.mem_cons_of_mem _ h1, h2, h3, h4, fun q hq hqt => ?_⟩
        rcases List.mem_cons.mp hq with rfl | hq
        · exact (hp hqt).trans h3.le
        · exact h5 q hq hqt

/-- strength of a pair -/
def strength (c : Nat → Nat → K) (p : Nat × Nat) : K := |c p.1 p.2|

/-- a list of pairs of parameters below `n`, of strictly falling strength below `T`, at most `m` of them; every pair weaker than `T` that is not listed has the strength of
a listed one, or the list is full and it is weaker than all listed -/
structure Ranking (c : Nat → Nat → K) (n m : Nat) (T : K) (l : List (Nat × Nat)) : Prop where
  below : ∀ p ∈ l, p.1 < p.2 ∧ p.2 < n ∧ strength c p < T
  falling : l.Pairwise (fun p q => strength c q < strength c p)
  short : l.length ≤ m
  complete : ∀ p : Nat × Nat, p.1 < p.2 → p.2 < n → strength c p < T → (∃ q ∈ l, strength c q = strength c p) ∨ (l.length = m ∧ ∀ q ∈ l, strength c p < strength c q)

theorem corrLoop_ranking (c : Nat → Nat → K) (n : Nat) : ∀ (m : Nat) (T : K) (last : Nat × Nat), Ranking c n m T (corrLoop c n m T last)
  | 0, T, last => by
    refine ⟨by simp [corrLoop], by simp [corrLoop], by simp [corrLoop], fun p _ _ _ => Or.inr ⟨rfl, by simp [corrLoop]⟩⟩
  | m + 1, T, last => by
    have habs : ∀ p : Nat × Nat, (-100000 : K) < |c p.1 p.2| := fun p => lt_of_lt_of_le (by norm_num) (abs_nonneg _)
    unfold corrLoop
    dsimp only
    rcases scan_spec c T last (pairs n) (-100000, last) with ⟨h1, h2⟩ | ⟨h1, h2, h3, h4, h5⟩
    · rw [h1, if_pos rfl]
      refine ⟨by simp, by simp, by simp, fun p hp1 hp2 hpt => ?_⟩
      exact absurd (h2 p (mem_pairs.mpr ⟨hp1, hp2⟩) hpt) (not_le.mpr (habs p))
    · rw [if_neg (ne_of_gt h3)]
      set r := (pairs n).foldl (scan c T) (-100000, last) with hr
      obtain ⟨b1, b2, b3, b4⟩ := corrLoop_ranking c n m r.1 r.2
      have hs : strength c r.2 = r.1 := h2.symm
      have hm := mem_pairs.mp h1
      refine ⟨?_, ?_, ?_, ?_⟩
      · intro p hp
        rcases List.mem_cons.mp hp with rfl | hp
        · exact ⟨hm.1, hm.2, by rw [hs]; exact h4⟩
        · obtain ⟨a1, a2, a3⟩ := b1 p hp
          exact ⟨a1, a2, a3.trans h4⟩
      · refine List.pairwise_cons.mpr ⟨fun q hq => ?_, b2⟩
        rw [hs]; exact (b1 q hq).2.2
      · simpa using b3
      · intro p hp1 hp2 hpt
        have hle := h5 p (mem_pairs.mpr ⟨hp1, hp2⟩) hpt
        rcases hle.lt_or_eq with hlt | heq
        · rcases b4 p hp1 hp2 hlt with ⟨q, hq, e⟩ | ⟨e, ha⟩
          · exact Or.inl ⟨q, List.mem_cons_of_mem _ hq, e⟩
          · refine Or.inr ⟨by simpa using e, fun q hq => ?_⟩
            rcases List.mem_cons.mp hq with rfl | hq
            · rw [hs]; exact hlt
            · exact ha q hq
        · exact Or.inl ⟨r.2, List.mem_cons_self, by rw [hs]; exact heq.symm⟩

/-- **C132**: the pairs listed are ranked by the strength of their correlation. -/
theorem pairs_ranked (c : Nat → Nat → K) (hc : ∀ i j, |c i j| ≤ 1) (nd : Nat) (m : Nat) (nparam : Option Nat) :
    ∃ l, correlatedPairs (some c) nd m nparam = .ok l ∧ Ranking c (if nparam.getD 0 = 0 then nd else nparam.getD 0) m 2 l := by
  refine ⟨_, rfl, ?_⟩
  have key : ∀ n, Ranking c n m 2 (corrLoop c n m 100000 (0, 0)) := by
    intro n
    have h2 : ∀ p, strength c p < 2 := fun p => lt_of_le_of_lt (hc _ _) (by norm_num)
    obtain ⟨a1, a2, a3, a4⟩ := corrLoop_ranking c n m 100000 (0, 0)
    exact ⟨fun p hp => ⟨(a1 p hp).1, (a1 p hp).2.1, h2 p⟩, a2, a3, fun p h1 h3 _ => a4 p h1 h3 ((h2 p).trans (by norm_num))⟩
  rcases nparam with _ | (_ | k)
  · exact key nd
  · exact key nd
  · exact key (k + 1)

/-- **C132**: if no two pairs have the same strength, the list is the `m` strongest pairs: every pair left out is weaker than every pair listed, and there are `m` of
them or all. -/
theorem pairs_strongest (c : Nat → Nat → K) (n m : Nat) (T : K) (l : List (Nat × Nat)) (h : Ranking c n m T l) (hT : ∀ p, strength c p < T)
    (hd : ∀ p q : Nat × Nat, p.1 < p.2 → p.2 < n → q.1 < q.2 → q.2 < n → strength c p = strength c q → p = q) :
    (∀ p : Nat × Nat, p.1 < p.2 → p.2 < n → p ∉ l → l.length = m ∧ ∀ q ∈ l, strength c p < strength c q) := by
  intro p h1 h2 hp
  rcases h.complete p h1 h2 (hT p) with ⟨q, hq, e⟩ | h3
  · obtain ⟨a1, a2, _⟩ := h.below q hq
    exact absurd (hd q p a1 a2 h1 h2 e ▸ hq) hp
  · exact h3

example : (correlatedPairs (some (fun i j => if (i, j) = (0, 1) then (7/10 : ℚ) else if (i, j) = (1, 2) then -8/10 else 1/5)) 3 2 none).toOption = some [(1, 2), (0, 1)] := by
  decide +kernel

/-- **C132**: no pair is listed twice. -/
theorem pairs_nodup (c : Nat → Nat → K) (n m : Nat) (T : K) (l : List (Nat × Nat)) (h : Ranking c n m T l) : l.Nodup := by
  refine h.falling.imp ?_
  rintro p q hlt rfl
  exact lt_irrefl _ hlt

example : (correlatedPairs (some (fun i j => if (i, j) = (0, 1) then (7/10 : ℚ) else if (i, j) = (1, 2) then -8/10 else 1/5)) 3 5 none).toOption = some [(1, 2), (0, 1), (0, 2)] := by
  decide +kernel

/-- **C133**: of pairs with the same strength only one is ever listed, however many plots are asked for: here all three pairs have correlation one half. -/
theorem pairs_tie_fails : (correlatedPairs (some (fun _ _ => (1/2 : ℚ))) 3 12 none).toOption = some [(0, 1)] := by decide +kernel

/-- **C133**: the pairs cannot be found before the correlation matrix has been computed. -/
theorem pairs_unset_fails (nd m : Nat) (hn : 2 ≤ nd) (hm : 0 < m) : correlatedPairs (none : Option (Nat → Nat → K)) nd m none = .error .typeError := by
  have : pairs nd ≠ [] := List.ne_nil_of_mem ((mem_pairs (p := (0, 1))).mpr ⟨by decide, hn⟩)
  simp [correlatedPairs, this, hm.ne']

example : (correlatedPairs (some (fun i j => if (i, j) = (0, 2) then (-9/10 : ℚ) else if (i, j) = (1, 2) then 1/2 else 1/5)) 3 2 none).toOption = some [(0, 2), (1, 2)] := by
  decide +kernel

/-! ## Effective numbers -/

theorem sq_le {w : List K} (hw : ∀ x ∈ w, 0 ≤ x) {m : K} (hm : ∀ x ∈ w, x ≤ m) : dot w w ≤ m * w.sum := by
  unfold dot
  induction w with
  | nil => simp
  | cons a w ih =>
    have := ih (fun x hx => hw x (List.mem_cons_of_mem _ hx)) (fun x hx => hm x (List.mem_cons_of_mem _ hx))
    have h1 := mul_le_mul_of_nonneg_right (hm a List.mem_cons_self) (hw a List.mem_cons_self)
    simp only [List.zipWith_cons_cons, List.sum_cons]
    nlinarith

/-- Cauchy-Schwarz with the constant one -/
theorem sum_sq_le (w : List K) : w.sum ^ 2 ≤ (w.length : K) * dot w w := by
  have key : ∀ (w : List K), 0 ≤ (w.length : K) * dot w w - w.sum ^ 2 ∧ ∀ a : K, 0 ≤ dot w w - 2 * a * w.sum + (w.length : K) * a ^ 2 := by
    intro w
    have h2 : ∀ (w : List K) (a : K), 0 ≤ dot w w - 2 * a * w.sum + (w.length : K) * a ^ 2 := by
      intro w a
      induction w with
      | nil => simp [dot]
      | cons b w ih =>
        simp only [dot, List.zipWith_cons_cons, List.sum_cons, List.length_cons] at ih ⊢
        push_cast
        nlinarith [sq_nonneg (b - a)]
    refine ⟨?_, h2 w⟩
    rcases Nat.eq_zero_or_pos w.length with h0 | h0
    · have : w = [] := List.length_eq_zero_iff.mp h0
      subst this; simp
    · have hn : (0 : K) < w.length := by exact_mod_cast h0
      have := h2 w (w.sum / w.length)
      have e : dot w w - 2 * (w.sum / w.length) * w.sum + (w.length : K) * (w.sum / w.length) ^ 2 = dot w w - w.sum ^ 2 / w.length := by
        field_simp; ring
      rw [e] at this
      have h3 := mul_nonneg hn.le this
      have e2 : (w.length : K) * (dot w w - w.sum ^ 2 / w.length) = (w.length : K) * dot w w - w.sum ^ 2 := by field_simp
      rw [e2] at h3
      exact h3
  have := (key w).1
  linarith

/-- **C134**: the two numbers of effective samples in the summary lie in the order one, equivalent single samples, effective weighted samples, rows. -/
theorem effective_order {w : List K} (hw : ∀ x ∈ w, 0 ≤ x) {m : K} (hm : Greatest w m) (hp : 0 < m) :
    ∃ e, equivSingles w = .ok e ∧ 1 ≤ e ∧ e ≤ effWeighted w ∧ effWeighted w ≤ w.length := by
  refine ⟨w.sum / m, by simp [equivSingles, greatest_max hm, bind, Except.bind, pure, Except.pure], ?_, ?_, ?_⟩
  · rw [le_div_iff₀ hp, one_mul]
    exact List.single_le_sum hw m hm.1
  · have hs : 0 < w.sum := lt_of_lt_of_le hp (List.single_le_sum hw m hm.1)
    have hq : 0 < dot w w := by
      have h1 := sum_sq_le w
      have h2 : 0 < w.sum ^ 2 := by positivity
      have h3 : (0 : K) < w.length := by exact_mod_cast List.length_pos_of_mem hm.1
      by_contra hc
      have := mul_nonpos_of_nonneg_of_nonpos h3.le (not_lt.mp hc)
      linarith
    unfold effWeighted
    rw [div_le_div_iff₀ hp hq]
    have := sq_le hw hm.2
    have h2 := mul_le_mul_of_nonneg_left this hs.le
    nlinarith
  · unfold effWeighted
    rcases eq_or_ne (dot w w) 0 with h | h
    · rw [h, div_zero]; positivity
    · have h1 := sum_sq_le w
      have hq : 0 < dot w w := by
        refine lt_of_le_of_ne ?_ (Ne.symm h)
        unfold dot
        apply List.sum_nonneg
        intro x hx
        obtain ⟨a, b, rfl⟩ : ∃ a : K, ∃ b : Unit, x = a * a := by
          obtain ⟨i, hi, rfl⟩ := List.getElem_of_mem hx
          exact ⟨w[i]'(by simpa using hi), (), by simp⟩
        exact mul_self_nonneg a
      rw [div_le_iff₀ hq]
      exact h1

theorem dot_smul (a : K) (w : List K) : dot (w.map (a * ·)) (w.map (a * ·)) = a ^ 2 * dot w w := by
  induction w with
  | nil => simp [dot]
  | cons b w ih =>
    simp only [dot, List.map_cons, List.zipWith_cons_cons, List.sum_cons] at ih ⊢
    rw [ih]; ring

/-- **C134**: neither depends on the normalization of the weights. -/
theorem effective_scale {w : List K} {m : K} (hm : Greatest w m) {a : K} (ha : 0 < a) :
    equivSingles (w.map (a * ·)) = equivSingles w ∧ effWeighted (w.map (a * ·)) = effWeighted w := by
  have hs : (w.map (a * ·)).sum = a * w.sum := by
    clear hm
    induction w with
    | nil => simp
    | cons b w ih => simp [ih, mul_add]
  have hm' : Greatest (w.map (a * ·)) (a * m) := by
    refine ⟨List.mem_map.mpr ⟨m, hm.1, rfl⟩, fun x hx => ?_⟩
    obtain ⟨y, hy, rfl⟩ := List.mem_map.mp hx
    exact mul_le_mul_of_nonneg_left (hm.2 y hy) ha.le
  constructor
  · simp only [equivSingles, greatest_max hm, greatest_max hm', bind, Except.bind, pure, Except.pure, hs]
    rw [mul_div_mul_left _ _ ha.ne']
  · unfold effWeighted
    rw [hs, dot_smul, mul_pow, mul_div_mul_left _ _ (pow_pos ha 2).ne']

/-- **C134**: for unit weights both are the number of rows. -/
theorem effective_unit (n : Nat) (hn : 0 < n) : equivSingles (List.replicate n (1 : K)) = .ok n ∧ effWeighted (List.replicate n (1 : K)) = n := by
  have hm : Greatest (List.replicate n (1 : K)) 1 := ⟨List.mem_replicate.mpr ⟨hn.ne', rfl⟩, fun x hx => (List.eq_of_mem_replicate hx).le⟩
  have hd : dot (List.replicate n (1 : K)) (List.replicate n (1 : K)) = n := by
    unfold dot
    rw [List.zipWith_replicate']
    simp
  constructor
  · simp [equivSingles, greatest_max hm, bind, Except.bind, pure, Except.pure]
  · unfold effWeighted
    rw [hd]
    have : (n : K) ≠ 0 := by exact_mod_cast hn.ne'
    simp only [List.sum_replicate, nsmul_eq_mul, mul_one]
    field_simp

/-- **C134**: the number of rows reported as outliers is below 500 and below half of the rows. -/
theorem outliers_few {w : List K} (hw : ∀ x ∈ w, 0 ≤ x) (hl : 2 ≤ w.length) : outliers w < 500 ∧ outliers w < w.length / 2 ∨ outliers w = 0 := by
  set m : Nat := min (w.length / 2) 500 with hm
  have hmpos : 0 < m := by omega
  have hmK : (0 : K) < m := by exact_mod_cast hmpos
  have key : ∀ (l : List K), (∀ x ∈ l, 0 ≤ x) → ((l.countP (fun x => decide (w.sum / m < x)) : Nat) : K) * (w.sum / m) ≤ l.sum ∧
      (0 < l.countP (fun x => decide (w.sum / m < x)) → ((l.countP (fun x => decide (w.sum / m < x)) : Nat) : K) * (w.sum / m) < l.sum) := by
    intro l
    induction l with
    | nil => intro _; simp
    | cons a l ih =>
      intro h
      obtain ⟨i1, i2⟩ := ih (fun x hx => h x (List.mem_cons_of_mem _ hx))
      have ha := h a List.mem_cons_self
      rw [List.countP_cons, List.sum_cons]
      by_cases hc : w.sum / m < a
      · simp only [hc, decide_true, if_true]
        push_cast
        constructor
        · linarith
        · intro _; linarith
      · simp only [hc, decide_false, Bool.false_eq_true, if_false, Nat.add_zero]
        exact ⟨by linarith, fun hp => by have := i2 hp; linarith⟩
  obtain ⟨_, k2⟩ := key w hw
  have eo : outliers w = w.countP (fun x => decide (w.sum / m < x)) := rfl
  by_cases h0 : outliers w = 0
  · exact Or.inr h0
  · left
    have hlt := k2 (by rw [← eo]; omega)
    rw [← eo] at hlt
    have hs : 0 < w.sum / m := by
      by_contra hc
      have h1 : 0 ≤ w.sum / m := div_nonneg (sum_nonneg' hw) hmK.le
      have h2 : w.sum / m = 0 := le_antisymm (not_lt.mp hc) h1
      rw [h2, mul_zero] at hlt
      have := (div_eq_zero_iff.mp h2).resolve_right hmK.ne'
      linarith
    have : (outliers w : K) < m := by
      have e : w.sum = m * (w.sum / m) := by field_simp
      rw [e] at hlt
      have : (outliers w : K) * (m * (w.sum / m) / m) < m * (w.sum / m) := hlt
      rw [mul_div_cancel_left₀ _ hmK.ne'] at this
      exact lt_of_mul_lt_mul_right this hs.le
    have : outliers w < m := by exact_mod_cast this
    omega

example : outliers [(1 : ℚ), 1, 1, 9, 1, 1] = 1 := by decide +kernel
example : effWeighted [(1 : ℚ), 2, 1] = 8/3 := by decide +kernel

end Verif.Singles
