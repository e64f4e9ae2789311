import Verif.Props.Ticks

/-!
# Axis ticks: all of `tick_values` (C155, C156)
-/

namespace Verif.Ticks
set_option linter.unusedSectionVars false
open Verif.Py

variable {K : Type} [Field K] [LinearOrder K] [IsStrictOrderedRing K] [FloorRing K]

theorem labelLen_pos (l : Loc K) (r : K × K) (t : List K) (h0 : 0 < l.sizeRatio) (hr : r.1 < r.2) (ht : t ≠ []) : 0 < labelLen l r t := by
  unfold labelLen
  rw [if_neg ht]
  exact mul_pos (lt_max_of_lt_left (by norm_num)) (mul_pos h0 (by linarith))

/-- pruning of evenly spaced ticks leaves evenly spaced ticks; of two or more of them, the outer ones are half a label away from the ends -/
theorem prune_prog (l : Loc K) (r : K × K) (a s len : K) (n : Nat) (hs : 0 ≤ s) (hn : 0 < n) :
    ∃ a' n', boundedPrune l r (prog a s n) len = prog a' s n' ∧ 0 < n' ∧ n' ≤ n ∧ a ≤ a' ∧ a' + (n' - 1) * s ≤ a + (n - 1) * s ∧
      (l.prune = true → 2 ≤ n' → r.1 + len / 2 ≤ a + s → a + (n - 1) * s - s ≤ r.2 - len / 2 → r.1 + len / 2 ≤ a' ∧ a' + (n' - 1) * s ≤ r.2 - len / 2) := by
  obtain ⟨m, rfl⟩ : ∃ m, n = m + 1 := ⟨n - 1, by omega⟩
  by_cases hc : 1 < (prog a s (m + 1)).length ∧ l.prune = true
  swap
  · refine ⟨a, m + 1, by rw [boundedPrune, if_neg hc], hn, le_refl _, le_refl _, le_refl _, fun hp h2 => ?_⟩
    exact absurd ⟨by rw [prog_length]; omega, hp⟩ hc
  have hm : 0 < m := by have := hc.1; simp at this; omega
  obtain ⟨k, rfl⟩ : ∃ k, m = k + 1 := ⟨m - 1, by omega⟩
  -- the lower end
  have hk0 : (0 : K) ≤ k := Nat.cast_nonneg k
  have low : ∃ b j, pruneLow r len (prog a s (k + 1 + 1)) = prog b s (j + 1) ∧ k ≤ j ∧ j ≤ k + 1 ∧ a ≤ b ∧ b + j * s = a + (k + 1) * s ∧
      (r.1 + len / 2 ≤ a + s → r.1 + len / 2 ≤ b) := by
    unfold pruneLow
    rw [prog_head _ _ _ (by omega)]
    split
    · refine ⟨a + s, k, by rw [prog_tail], le_refl _, by omega, by linarith, by ring, fun h => h⟩
    · rename_i h
      refine ⟨a, k + 1, rfl, by omega, le_refl _, le_refl _, by push_cast; ring, fun _ => by linarith⟩
  obtain ⟨b, j, e1, hj1, hj2, hab, hbj, hlo⟩ := low
  rw [boundedPrune, if_pos hc, e1]
  unfold pruneHigh
  rw [prog_last, prog_length]
  have hj0 : (0 : K) ≤ j := Nat.cast_nonneg j
  split
  · rename_i h
    obtain ⟨h1, h2⟩ := h
    obtain ⟨i, rfl⟩ : ∃ i, j = i + 1 := ⟨j - 1, by omega⟩
    refine ⟨b, i + 1, by rw [prog_dropLast], by omega, by omega, hab, by push_cast at hbj ⊢; linarith, fun _ _ ha hb => ⟨hlo ha, ?_⟩⟩
    push_cast at hbj hb ⊢
    linarith
  · rename_i h
    refine ⟨b, j + 1, rfl, by omega, by omega, hab, by push_cast; linarith, fun _ h2 ha hb => ⟨hlo ha, ?_⟩⟩
    have : ¬ (r.2 - (b + j * s) < len * (1 / 2)) := fun h' => h ⟨h', by omega⟩
    push_cast
    linarith

theorem deltaOf_prune (l : Loc K) (len : K) (h : l.prune = true) : deltaOf l len = len / 2 := by simp [deltaOf, h]

/-- ticks with room for labels of the length `len` -/
def Fits (l : Loc K) (r : K × K) (len : K) (t : List K) : Prop :=
  ∃ a s n, t = prog a s n ∧ 2 ≤ n ∧ len * (11 / 10) ≤ s ∧ (l.prune = true → r.1 + len / 2 ≤ a ∧ a + (n - 1) * s ≤ r.2 - len / 2)

theorem valid_prog (l : Loc K) (r : K × K) (a s : K) (n : Nat) (h : 2 ≤ n) (hv : valid l r (prog a s n) = true) :
    Fits l r (labelLen l r (prog a s n)) (prog a s n) ∧ boundedPrune l r (prog a s n) (labelLen l r (prog a s n)) = prog a s n := by
  obtain ⟨m, rfl⟩ : ∃ m, n = m + 1 := ⟨n - 1, by omega⟩
  unfold valid at hv
  simp only [Bool.and_eq_true, decide_eq_true_eq, prog_length, Bool.or_eq_true, Bool.not_eq_true', prog_head a s (m + 1) (by omega), prog_last,
    prog_getD a s (m + 1) 1 (by omega)] at hv
  obtain ⟨h1, h2⟩ := hv
  have h1 : labelLen l r (prog a s (m + 1)) * (11 / 10) < s := by
    rcases h1 with h1 | h1
    · omega
    · push_cast at h1; linarith
  have h2 : l.prune = true → labelLen l r (prog a s (m + 1)) / 2 < a - r.1 ∧ labelLen l r (prog a s (m + 1)) / 2 < r.2 - (a + m * s) := by
    intro hp
    rcases h2 with h2 | h2
    · rw [hp] at h2; cases h2
    · exact h2
  refine ⟨⟨a, s, m + 1, rfl, h, h1.le, fun hp => ⟨by linarith [(h2 hp).1], by push_cast; linarith [(h2 hp).2]⟩⟩, ?_⟩
  unfold boundedPrune
  split
  · rename_i hc
    have e1 : pruneLow r (labelLen l r (prog a s (m + 1))) (prog a s (m + 1)) = prog a s (m + 1) := by
      unfold pruneLow
      rw [prog_head _ _ _ (by omega), if_neg (by linarith [(h2 hc.2).1])]
    have e2 : pruneHigh r (labelLen l r (prog a s (m + 1))) (prog a s (m + 1)) = prog a s (m + 1) := by
      unfold pruneHigh
      rw [prog_last, if_neg (by rintro ⟨h, -⟩; linarith [(h2 hc.2).2])]
    rw [e1, e2]
  · rfl

/-! ### the first loop -/

theorem guess_pos (l : Loc K) (r : K × K) (h0 : 0 < l.sizeRatio) (hr : r.1 < r.2) : 0 < (guess l r).1 ∧ (guess l r).1 < (guess l r).2 := by
  have : 0 < r.2 - r.1 := by linarith
  unfold guess
  split
  · have h : 0 < l.sizeRatio * (3 / 2) * (r.2 - r.1) := by positivity
    exact ⟨h, by simp only; linarith⟩
  · have h : 0 < l.sizeRatio * (27 / 20) * (r.2 - r.1) := by positivity
    exact ⟨h, by simp only; linarith⟩

theorem trunc_nonneg' (x : K) (h : -1 < x) : 0 ≤ Thin.trunc x := by
  unfold Thin.trunc
  split
  · rename_i h0; exact Int.floor_nonneg.mpr h0
  · have : (-1 : Int) < ⌈x⌉ := Int.lt_ceil.mpr (by push_cast; exact h)
    omega

/-- the room is never less than one tick, because labels that do not fit count as a part of a label -/
theorem room_aux (l : Loc K) (r : K × K) (len d : K) (hr : r.1 < r.2) (hl : 0 < len) (hd : len ≤ d) : 0 ≤ Thin.trunc ((r.2 - r.1 - 2 * deltaOf l len) / d) := by
  apply trunc_nonneg'
  rw [lt_div_iff₀ (by linarith)]
  unfold deltaOf
  split <;> linarith

/-- **C155** There is always room for at least one tick. -/
theorem roomFor_pos (l : Loc K) (r : K × K) (h0 : 0 < l.sizeRatio) (hr : r.1 < r.2) : 1 ≤ roomFor l r := by
  obtain ⟨h1, h2⟩ := guess_pos l r h0 hr
  unfold roomFor
  simp only
  have k1 := room_aux l r (guess l r).1 (guess l r).2 hr h1 h2.le
  split
  · rename_i h4
    have : ∀ f : K, 1 ≤ f → (guess l r).1 ≤ f * (guess l r).2 := fun f hf => by nlinarith
    split
    · have := room_aux l r (guess l r).1 (3 / 2 * (guess l r).2) hr h1 (this _ (by norm_num))
      omega
    · have := room_aux l r (guess l r).1 (13 / 10 * (guess l r).2) hr h1 (this _ (by norm_num))
      omega
  · omega

/-- **C155** The first loop ends after at most three rounds. -/
theorem firstLoop_ends (l : Loc K) (r : K × K) (len : K) (k : Nat) (m n : Int) (hk : 3 ≤ k) (h1 : 1 ≤ m) (h2 : m ≤ 2) :
    ∃ t, firstLoop l r len k m n = some t := by
  obtain ⟨j, rfl⟩ : ∃ j, k = j + 1 + 1 + 1 := ⟨k - 3, by omega⟩
  have one : ∀ (j : Nat) (n : Int), ∃ t, firstLoop l r len (j + 1) 1 n = some t := fun j n => ⟨((spacedTicks l r (r.1 + deltaOf l len) (r.2 - deltaOf l len) len 1 n false).1, 1, n), by rw [firstLoop]; simp⟩
  have two : ∀ j : Nat, ∃ t, firstLoop l r len (j + 1 + 1) 2 2 = some t := by
    intro j
    rw [firstLoop]
    simp only
    split
    · exact ⟨_, rfl⟩
    · exact one j _
  rcases (by omega : m = 1 ∨ m = 2) with rfl | rfl
  · exact one _ n
  rw [firstLoop]
  simp only
  split
  · exact ⟨_, rfl⟩
  · by_cases hn : n = 2
    · rw [if_pos hn]; exact one _ _
    · rw [if_neg hn]; exact two j

theorem firstLoop_spec (l : Loc K) (r : K × K) (len : K) (hlen : 0 < len) (k : Nat) (m n : Int) (h1 : 1 ≤ m) (h2 : m ≤ 2) (t : List K × Int × Int)
    (h : firstLoop l r len k m n = some t) :
    1 ≤ t.2.1 ∧ t.2.1 ≤ 2 ∧ t.2.2 ≤ max n 2 ∧ (t.1 = [] ∨ ∃ a s j o, t.1 = prog a s j ∧ 0 < j ∧ (j : Int) ≤ max n 2 ∧ len * (11 / 10) ≤ s ∧
      (∃ e, o = |(l.scaleRange (r.1 + deltaOf l len) (r.2 - deltaOf l len) e).2|) ∧
      r.1 + deltaOf l len - tol o s * s < a ∧ a + (j - 1) * s < r.2 - deltaOf l len + tol o s * s) := by
  induction k generalizing m n with
  | zero => cases h
  | succ k ih =>
    rw [firstLoop] at h
    simp only at h
    split at h
    · injection h with h
      subst h
      refine ⟨h1, h2, le_max_left _ _, ?_⟩
      rcases spaced_spec l r (r.1 + deltaOf l len) (r.2 - deltaOf l len) len m n false hlen h1 with h | ⟨a, s, j, e, hj, hj1, hj2, hs, -, -, hb⟩
      · exact .inl h
      · exact .inr ⟨a, s, j, _, e, hj, le_trans hj2 (le_max_left _ _), hs, ⟨n, rfl⟩, hb rfl⟩
    · rename_i hc
      have hm : m ≠ 1 := fun e => hc (.inr e)
      have hm2 : m = 2 := by omega
      subst hm2
      have := ih (if n = 2 then 2 - 1 else 2) (max (if n = 2 then 2 - 1 else 2) 2) (by split <;> omega) (by split <;> omega) h
      have e : max (max (if n = 2 then 2 - 1 else 2) 2) 2 ≤ max n (2 : Int) := by split <;> omega
      obtain ⟨p1, p2, p3, p4⟩ := this
      refine ⟨p1, p2, le_trans p3 e, ?_⟩
      rcases p4 with p4 | ⟨a, s, j, o, q1, q2, q3, q⟩
      · exact .inl p4
      · exact .inr ⟨a, s, j, o, q1, q2, le_trans q3 e, q⟩

/-! ### the second loop -/

theorem round2_spec (l : Loc K) (r : K × K) (n m : Int) (v : Vars K) (h0 : 0 < l.sizeRatio) (hr : r.1 < r.2) (hm : 2 ≤ m) (hv : 0 < v.len) :
    (∃ v', round2 l r n m v = .inl v' ∧ 0 < v'.len ∧ v'.retry.toNat + v'.shorter.toNat < v.retry.toNat + v.shorter.toNat) ∨
    (∃ t v', round2 l r n m v = .inr (t, v') ∧ 0 < v'.len ∧ v'.retry.toNat + v'.shorter.toNat ≤ v.retry.toNat + v.shorter.toNat ∧
      (t = [] ∨ ∃ a s j, t = prog a s j ∧ m ≤ (j : Int) ∧ (j : Int) ≤ n ∧ valid l r t = true)) := by
  unfold round2
  simp only
  rcases spaced_spec l r (r.1 + v.delta) (r.2 - v.delta) v.len m n true hv (by omega) with e | ⟨a, s, j, e, hj, hj1, hj2, hs, -, hval, -⟩
  · rw [e, if_neg (by simp)]
    split
    · rename_i hsh
      rcases spaced_spec l r (r.1 + v.delta / 2) (r.2 - v.delta / 2) (v.len / 2) m n true (by linarith) (by omega) with e' | ⟨a, s, j, e', hj, -⟩
      · rw [e', if_neg (by simp)]
        exact .inr ⟨_, _, rfl, by simp only; linarith, by simp [hsh], .inl rfl⟩
      · rw [if_pos (by rw [e']; exact prog_ne_nil hj)]
        refine .inl ⟨_, rfl, ?_, by simp [hsh]⟩
        simp only
        apply labelLen_pos l r _ h0 hr
        rw [e']
        exact prog_ne_nil hj
    · exact .inr ⟨_, _, rfl, hv, le_refl _, .inl rfl⟩
  · rw [e, if_pos (prog_ne_nil hj)]
    have hval := hval rfl
    have hne : 0 < labelLen l r (prog a s j) := labelLen_pos l r _ h0 hr (prog_ne_nil hj)
    split
    · exact .inr ⟨_, _, rfl, hv, le_refl _, .inr ⟨a, s, j, rfl, hj1, hj2, hval⟩⟩
    split
    · rename_i hre
      exact .inl ⟨_, rfl, hne, by simp [hre]⟩
    · refine .inr ⟨_, _, rfl, hne, le_refl _, .inr ⟨a, s, j, ?_, hj1, hj2, ?_⟩⟩
      · exact (valid_prog l r a s j (by omega) hval).2
      · rw [(valid_prog l r a s j (by omega) hval).2]; exact hval

/-- **C155** The second loop ends, and gives nothing or evenly spaced ticks with room for their labels. -/
theorem secondLoop_spec (l : Loc K) (r : K × K) (n : Int) (h0 : 0 < l.sizeRatio) (hr : r.1 < r.2) (k : Nat) (m : Int) (v : Vars K) (hv : 0 < v.len)
    (hk : (m - 1).toNat + v.retry.toNat + v.shorter.toNat < k) :
    ∃ t, secondLoop l r n k m v = some t ∧ (t = [] ∨ Fits l r (labelLen l r t) t ∧ (t.length : Int) ≤ n) := by
  induction k generalizing m v with
  | zero => omega
  | succ k ih =>
    rw [secondLoop]
    split
    · exact ⟨_, rfl, .inl rfl⟩
    rename_i hm
    rcases round2_spec l r n m v h0 hr (by omega) hv with ⟨v', e, hv', hlt⟩ | ⟨t, v', e, hv', hle, ht⟩
    · rw [e]
      exact ih m v' hv' (by omega)
    · rw [e]
      simp only
      split
      · refine ⟨t, rfl, ?_⟩
        rcases ht with ht | ⟨a, s, j, rfl, hj1, hj2, hval⟩
        · exact .inl ht
        · exact .inr ⟨(valid_prog l r a s j (by omega) hval).1, by rw [prog_length]; exact hj2⟩
      · exact ih (m - 1) v' hv' (by omega)

/-! ### the last resort -/

theorem quarters_prog (r : K × K) (sc : K) (hsc : 0 < sc) (hr : r.1 < r.2) (h : (quarters r sc).headD 0 ≠ (quarters r sc).getLastD 0) :
    ∃ a s, 0 < s ∧ quarters r sc = prog a s 2 := by
  simp only [quarters, List.headD_cons, List.getLastD_cons, List.getLastD_nil] at h
  have hle : roundEven ((r.1 * 3 + r.2) / (4 * sc)) ≤ roundEven ((r.1 + 3 * r.2) / (4 * sc)) := by
    apply roundEven_mono
    apply div_le_div_of_nonneg_right _ (by linarith)
    linarith
  have hne : roundEven ((r.1 * 3 + r.2) / (4 * sc)) ≠ roundEven ((r.1 + 3 * r.2) / (4 * sc)) := fun e => h (by rw [e])
  refine ⟨(roundEven ((r.1 * 3 + r.2) / (4 * sc)) : K) * sc, ((roundEven ((r.1 + 3 * r.2) / (4 * sc)) : K) - (roundEven ((r.1 * 3 + r.2) / (4 * sc)) : K)) * sc,
    mul_pos ?_ hsc, ?_⟩
  · rw [sub_pos]; exact_mod_cast lt_of_le_of_ne hle hne
  · simp [quarters, prog, List.range_succ]
    ring

/-- with a scale of at most a tenth of the axis, the two points are different and on the axis -/
theorem quarters_inside (r : K × K) (sc : K) (hsc : 0 < sc) (h10 : 10 * sc ≤ r.2 - r.1) :
    (quarters r sc).headD 0 ≠ (quarters r sc).getLastD 0 ∧ r.1 < (quarters r sc).headD 0 ∧ (quarters r sc).getLastD 0 < r.2 := by
  simp only [quarters, List.headD_cons, List.getLastD_cons, List.getLastD_nil]
  have b1 := abs_le.mp (roundEven_error ((r.1 * 3 + r.2) / (4 * sc)))
  have b2 := abs_le.mp (roundEven_error ((r.1 + 3 * r.2) / (4 * sc)))
  generalize (roundEven ((r.1 * 3 + r.2) / (4 * sc)) : K) = p at *
  generalize (roundEven ((r.1 + 3 * r.2) / (4 * sc)) : K) = q at *
  have e1 : (r.1 * 3 + r.2) / (4 * sc) * sc = (r.1 * 3 + r.2) / 4 := by field_simp
  have e2 : (r.1 + 3 * r.2) / (4 * sc) * sc = (r.1 + 3 * r.2) / 4 := by field_simp
  have c1 := mul_le_mul_of_nonneg_right b1.1 hsc.le
  have c2 := mul_le_mul_of_nonneg_right b1.2 hsc.le
  have c3 := mul_le_mul_of_nonneg_right b2.1 hsc.le
  have c4 := mul_le_mul_of_nonneg_right b2.2 hsc.le
  rw [sub_mul, e1] at c1 c2
  rw [sub_mul, e2] at c3 c4
  refine ⟨?_, by linarith, by linarith⟩
  intro h
  linarith

theorem prog_one (l : Loc K) (r : K × K) (y len : K) : boundedPrune l r [y] len = [y] := by simp [boundedPrune]

/-- **C155** The last resort: two points on the axis, or a single point. -/
theorem anyTwo_spec (l : Loc K) (r : K × K) (hr : r.1 < r.2) (hs : 0 < (l.scaleRange r.1 r.2 1).1) (hs' : (l.scaleRange r.1 r.2 1).1 ≤ r.2 - r.1) :
    (∃ a s n, anyTwo l r = prog a s n ∧ 0 < s ∧ 0 < n ∧ n ≤ 2) ∧ (∀ y ∈ anyTwo l r, r.1 ≤ y ∧ y ≤ r.2) ∧
    (2 ≤ (anyTwo l r).length → Fits l r (labelLen l r (anyTwo l r)) (anyTwo l r) ∨
      anyTwo l r = quarters r ((l.scaleRange r.1 r.2 1).1 / 10) ∧ valid l r (anyTwo l r) = false) := by
  generalize hsc : (l.scaleRange r.1 r.2 1).1 = sc at *
  have hin := quarters_inside r (sc / 10) (by linarith) (by linarith)
  have q2 : ∀ sc : K, ∀ y ∈ quarters r sc, y = (quarters r sc).headD 0 ∨ y = (quarters r sc).getLastD 0 := by
    intro sc y hy
    simpa [quarters] using hy
  have fit : ∀ sc' : K, 0 < sc' → quartersFit l r sc' = true → (∃ a s n, quarters r sc' = prog a s n ∧ 0 < s ∧ 0 < n ∧ n ≤ 2) ∧
      (∀ y ∈ quarters r sc', r.1 ≤ y ∧ y ≤ r.2) ∧ Fits l r (labelLen l r (quarters r sc')) (quarters r sc') := by
    intro sc' hp hf
    unfold quartersFit at hf
    simp only [Bool.and_eq_true, decide_eq_true_eq] at hf
    obtain ⟨⟨g1, g2, g3⟩, g4⟩ := hf
    obtain ⟨a, s, h1, h2⟩ := quarters_prog r sc' hp hr g1
    refine ⟨⟨a, s, 2, h2, h1, by omega, by omega⟩, ?_, ?_⟩
    · have e1 : (quarters r sc').headD 0 = a := by rw [h2, prog_head _ _ _ (by omega)]
      have e2 : (quarters r sc').getLastD 0 = a + 1 * s := by rw [h2]; have := prog_last a s 1; simpa using this
      intro y hy
      rcases q2 _ y hy with e | e <;> rw [e]
      · exact ⟨g2, by rw [e1]; rw [e2] at g3; linarith⟩
      · exact ⟨by rw [e2]; rw [e1] at g2; linarith, g3⟩
    · rw [h2] at g4 ⊢
      exact (valid_prog l r a s 2 (le_refl _) g4).1
  unfold anyTwo
  simp only [hsc]
  split
  · rename_i hf
    obtain ⟨f1, f2, f3⟩ := fit sc hs hf
    exact ⟨f1, f2, fun _ => .inl f3⟩
  split
  · rename_i hf
    obtain ⟨f1, f2, f3⟩ := fit (sc / 10) (by linarith) hf
    exact ⟨f1, f2, fun _ => .inl f3⟩
  rename_i hnf
  split
  · rename_i hl
    rw [prog_one]
    refine ⟨⟨_, 1, 1, by simp [prog]; rfl, by norm_num, by omega, by omega⟩, ?_, fun h => by simp at h⟩
    intro y hy
    rw [List.mem_singleton] at hy
    rw [hy]
    exact ⟨hl.1.le, hl.2.le⟩
  · obtain ⟨a, s, h1, h2⟩ := quarters_prog r (sc / 10) (by linarith) hr hin.1
    have e1 : (quarters r (sc / 10)).headD 0 = a := by rw [h2, prog_head _ _ _ (by omega)]
    have e2 : (quarters r (sc / 10)).getLastD 0 = a + 1 * s := by rw [h2]; have := prog_last a s 1; simpa using this
    refine ⟨⟨a, s, 2, h2, h1, by omega, by omega⟩, ?_, fun _ => .inr ⟨rfl, ?_⟩⟩
    · intro y hy
      rw [e1, e2] at hin
      rcases q2 _ y hy with e | e <;> rw [e]
      · rw [e1]; exact ⟨hin.2.1.le, by linarith [hin.2.2]⟩
      · rw [e2]; exact ⟨by linarith [hin.2.1], hin.2.2.le⟩
    · by_contra hv
      apply hnf
      unfold quartersFit
      simp only [Bool.not_eq_false] at hv
      simp only [hv, Bool.and_true, decide_eq_true_eq]
      exact ⟨hin.1, hin.2.1.le, hin.2.2.le⟩

/-! ### all ticks -/

/-- what is known of the ticks of an axis -/
structure Spec (l : Loc K) (r : K × K) (t : List K) : Prop where
  /-- none, or evenly spaced and increasing -/
  even : t = [] ∨ ∃ a s n, t = prog a s n ∧ 0 < s ∧ 0 < n
  /-- no more than asked for, but two are always allowed -/
  count : ∀ b, l.nbins = some b → (t.length : Int) ≤ max b 2
  /-- if labels may not overlap the ends, two or more ticks are on the axis -/
  inside : l.prune = true → 2 ≤ t.length → ∀ y ∈ t, r.1 ≤ y ∧ y ≤ r.2
  /-- two or more ticks have room for labels of the length that was found, unless the last resort does not fit -/
  room : 2 ≤ t.length → (∃ len t0, Fits l r len t ∧ t <:+: t0 ∧ (if 1 / 20 < l.cosRot ∧ l.scalar = true then len = labelLen l r t0 else len = (guess l r).1)) ∨
    (t = quarters r ((l.scaleRange r.1 r.2 1).1 / 10) ∧ valid l r t = false)

theorem fits_inside (l : Loc K) (r : K × K) (len : K) (t : List K) (hl : 0 ≤ len) (h : Fits l r len t) (hp : l.prune = true) : ∀ y ∈ t, r.1 ≤ y ∧ y ≤ r.2 := by
  obtain ⟨a, s, n, rfl, hn, hs, hb⟩ := h
  obtain ⟨b1, b2⟩ := hb hp
  intro y hy
  unfold prog at hy
  rw [List.mem_map] at hy
  obtain ⟨k, hk, rfl⟩ := hy
  rw [List.mem_range] at hk
  have hs0 : 0 ≤ s := by linarith
  have h1 : 0 ≤ (k : K) * s := mul_nonneg (Nat.cast_nonneg k) hs0
  have h2 : (k : K) ≤ n - 1 := by
    have : (k + 1 : Nat) ≤ n := hk
    have : ((k + 1 : Nat) : K) ≤ n := by exact_mod_cast this
    push_cast at this
    linarith
  have h3 := mul_le_mul_of_nonneg_right h2 hs0
  exact ⟨by linarith, by linarith⟩

theorem prune_infix (l : Loc K) (r : K × K) (t : List K) (len : K) : boundedPrune l r t len <:+: t := by
  have low : ∀ t : List K, pruneLow r len t <:+: t := by
    intro t; unfold pruneLow; split
    · exact (List.tail_suffix t).isInfix
    · exact List.infix_refl _
  have high : ∀ t : List K, pruneHigh r len t <:+: t := by
    intro t; unfold pruneHigh; split
    · exact (List.dropLast_prefix t).isInfix
    · exact List.infix_refl _
  unfold boundedPrune
  split
  · exact List.IsInfix.trans (high _) (low t)
  · exact List.infix_refl _

theorem again_spec (l : Loc K) (r : K × K) (rounds : Nat) (m : Int) (len : K) (h0 : 0 < l.sizeRatio) (hr : r.1 < r.2) (hl : 0 < len) (hm : m ≤ 2)
    (hk : 4 ≤ rounds)
    (hs : 0 < (l.scaleRange r.1 r.2 1).1) (hs' : (l.scaleRange r.1 r.2 1).1 ≤ r.2 - r.1) (hc : 1 / 20 < l.cosRot ∧ l.scalar = true) :
    ∃ t, again l r rounds m len = some t ∧ Spec l r t := by
  obtain ⟨t, e, ht⟩ := secondLoop_spec l r (roomAgain l r len) h0 hr rounds (min m (roomAgain l r len)) ⟨len, deltaOf l len, true, true⟩ hl (by simp; omega)
  unfold again
  simp only [e]
  split
  · refine ⟨_, rfl, ?_⟩
    obtain ⟨⟨a, s, n, a1, a2, a3, a4⟩, a5, a6⟩ := anyTwo_spec l r hr hs hs'
    refine ⟨.inr ⟨a, s, n, a1, a2, a3⟩, fun b _ => by rw [a1, prog_length]; omega, fun _ _ => a5, fun h2 => ?_⟩
    rcases a6 h2 with h | h
    · exact .inl ⟨_, _, h, List.infix_refl _, by rw [if_pos hc]⟩
    · exact .inr h
  · refine ⟨_, rfl, ?_⟩
    rcases ht with rfl | ⟨hf, hn⟩
    · exact ⟨.inl rfl, fun b _ => by simp, fun _ h => by simp at h, fun h => by simp at h⟩
    have hf' := hf
    obtain ⟨a, s, n, e1, hn2, hls, -⟩ := hf'
    have hlp : 0 < labelLen l r t := labelLen_pos l r t h0 hr (by rw [e1]; exact prog_ne_nil (by omega))
    refine ⟨.inr ⟨a, s, n, e1, by linarith, by omega⟩, fun b hb' => ?_, fun hp _ => fits_inside l r _ t hlp.le hf hp,
      fun _ => .inl ⟨_, _, hf, List.infix_refl _, by rw [if_pos hc]⟩⟩
    have : roomAgain l r len ≤ b := by
      unfold roomAgain
      simp only [hb']
      exact min_le_left _ _
    omega

/-- **C155** Ticks of an axis: the search always ends; the ticks are evenly spaced and increasing, not more than asked for (but two are always allowed), and if labels may not
overlap the ends, two or more ticks are on the axis, and there is room for the labels, between neighbours and at the ends, unless even the last resort does not fit. -/
theorem tickValues_spec (l : Loc K) (rounds : Nat) (vmin vmax : K) (h0 : 0 < l.sizeRatio) (hr : vmin < vmax) (hk : 4 ≤ rounds)
   
    (hs : 0 < (l.scaleRange vmin vmax 1).1) (hs' : (l.scaleRange vmin vmax 1).1 ≤ vmax - vmin) :
    ∃ t, tickValues l rounds vmin vmax = some t ∧ Spec l (vmin, vmax) t := by
  have hroom := roomFor_pos l (vmin, vmax) h0 hr
  obtain ⟨hg, -⟩ := guess_pos l (vmin, vmax) h0 hr
  unfold tickValues
  simp only
  generalize hN : firstBins l (roomFor l (vmin, vmax)) = N
  have hNb : ∀ b, l.nbins = some b → N ≤ b := by intro b hb'; rw [← hN]; unfold firstBins; rw [hb']; exact min_le_left _ _
  obtain ⟨t, ht⟩ := firstLoop_ends l (vmin, vmax) (guess l (vmin, vmax)).1 rounds (min (roomFor l (vmin, vmax)) 2) N (by omega) (by omega) (by omega)
  rw [ht]
  simp only
  obtain ⟨p1, p2, p3, p4⟩ := firstLoop_spec l (vmin, vmax) (guess l (vmin, vmax)).1 hg rounds (min (roomFor l (vmin, vmax)) 2) N (by omega) (by omega) t ht
  generalize hG : (guess l (vmin, vmax)).1 = len at *
  unfold finish
  split
  · rename_i hc
    rcases p4 with e | ⟨a, s, j, o, e, hj, hjN, hls, -, hlo, hhi⟩
    · rw [e] at hc; simp at hc
    have hlp : 0 < labelLen l (vmin, vmax) t.1 := labelLen_pos l _ _ h0 hr (by rw [e]; exact prog_ne_nil hj)
    simp only
    split
    · exact again_spec l (vmin, vmax) rounds t.2.1 _ h0 hr hlp p2 (by omega) hs hs' ⟨hc.1, hc.2.1⟩
    · rename_i hpoor
      refine ⟨_, rfl, ?_⟩
      generalize hL : labelLen l (vmin, vmax) t.1 = len' at *
      have hs0 : 0 ≤ s := by linarith
      obtain ⟨a', n', e', hn', hnj, haa, hend, hpr⟩ := prune_prog l (vmin, vmax) a s len' j hs0 hj
      have hinf := prune_infix l (vmin, vmax) t.1 len'
      rw [e] at hpoor hinf ⊢
      rw [e'] at hpoor hinf ⊢
      have hδ := tol_lt o s
      have htol : tol o s * s ≤ s / 2 := by nlinarith
      have hsp : 0 < s := by linarith
      have hd0 : 0 ≤ deltaOf l len := by unfold deltaOf; split <;> linarith
      have fits : 2 ≤ n' → Fits l (vmin, vmax) len' (prog a' s n') := by
        intro h2
        have hsl : len' * (11 / 10) ≤ s := by
          unfold poor at hpoor
          simp only [Bool.or_eq_true, decide_eq_true_eq, not_or, not_lt, prog_length, prog_head a' s n' hn', prog_getD a' s n' 1 (by omega)] at hpoor
          have h := hpoor.1.1.2
          have h' : len' * (if n' < 4 then 11 / 10 else 3 / 2) ≤ s := by
            push_cast at h; linarith
          split at h'
          · exact h'
          · linarith
        refine ⟨a', s, n', rfl, h2, hsl, fun hp => hpr hp h2 ?_ ?_⟩
        · simp only at hlo ⊢; linarith
        · simp only at hhi ⊢; linarith
      refine ⟨.inr ⟨a', s, n', rfl, hsp, hn'⟩, fun b hb' => ?_, fun hp h2 => ?_, fun h2 => .inl ⟨len', t.1, fits (by simpa using h2), ?_, ?_⟩⟩
      · have := hNb b hb'
        rw [prog_length]
        omega
      · exact fits_inside l (vmin, vmax) len' _ hlp.le (fits (by simpa using h2)) hp
      · rw [e]; exact hinf
      · rw [if_pos ⟨hc.1, hc.2.1⟩, hL]
  · rename_i hc
    refine ⟨_, rfl, ?_⟩
    rcases p4 with e | ⟨a, s, j, o, e, hj, hjN, hls, -, hlo, hhi⟩
    · rw [e]
      have : boundedPrune l (vmin, vmax) [] len = [] := by simp [boundedPrune]
      rw [this]
      exact ⟨.inl rfl, fun b _ => by simp, fun _ h => by simp at h, fun h => by simp at h⟩
    have hs0 : 0 ≤ s := by linarith
    obtain ⟨a', n', e', hn', hnj, haa, hend, hpr⟩ := prune_prog l (vmin, vmax) a s len j hs0 hj
    have hinf := prune_infix l (vmin, vmax) t.1 len
    rw [e] at hinf ⊢
    rw [e'] at hinf ⊢
    have htol : tol o s * s ≤ s / 2 := by nlinarith [tol_lt o s]
    have hsp : 0 < s := by linarith
    have hd0 : 0 ≤ deltaOf l len := by unfold deltaOf; split <;> linarith
    have fits : 2 ≤ n' → Fits l (vmin, vmax) len (prog a' s n') := by
      intro h2
      refine ⟨a', s, n', rfl, h2, hls, fun hp => hpr hp h2 ?_ ?_⟩
      · simp only at hlo ⊢; linarith
      · simp only at hhi ⊢; linarith
    refine ⟨.inr ⟨a', s, n', rfl, hsp, hn'⟩, fun b hb' => ?_, fun hp h2 => ?_, fun h2 => .inl ⟨len, prog a s j, fits (by simpa using h2), hinf, ?_⟩⟩
    · have := hNb b hb'
      rw [prog_length]
      omega
    · exact fits_inside l (vmin, vmax) len _ hg.le (fits (by simpa using h2)) hp
    · have hj2 : 1 < t.1.length := by
        rw [e, prog_length]
        simp only [prog_length] at h2
        omega
      rw [if_neg (fun h => hc ⟨h.1, h.2, hj2⟩)]
      exact hG.symm

end Verif.Ticks
