import Verif.Model.Singles
import Verif.Props.Confidence
import Verif.Lemmas.Split
import Mathlib.Tactic.FieldSimp
import Mathlib.Data.List.Sort

/-!
# Weight-one samples, thinned output, splits of the samples and pairs of parameters

The specification speaks about the rows that are chosen, the numbers read back from the text, the total weights of the parts, and the ranking of the pairs.
-/

namespace Verif.Singles
open Verif.Py Verif.Py.Np Verif.Confidence
set_option linter.unusedSectionVars false

variable {K : Type} [Field K] [LinearOrder K] [IsStrictOrderedRing K]

/-! ## Choosing rows -/

/-- the heaviest weight -/
def Greatest (w : List K) (m : K) : Prop := m ∈ w ∧ ∀ x ∈ w, x ≤ m

theorem foldl_max_all : ∀ (l : List K) (a : K), a ≤ l.foldl max a ∧ (∀ x ∈ l, x ≤ l.foldl max a) ∧ (l.foldl max a = a ∨ l.foldl max a ∈ l)
  | [], a => by simp
  | b :: l, a => by
    obtain ⟨h1, h2, h3⟩ := foldl_max_all l (max a b)
    rw [List.foldl_cons]
    refine ⟨(le_max_left _ _).trans h1, fun x hx => ?_, ?_⟩
    · rcases List.mem_cons.mp hx with rfl | hx
      · exact (le_max_right _ _).trans h1
      · exact h2 x hx
    · rcases h3 with h | h
      · rw [h]
        rcases le_total a b with hab | hab
        · right; rw [max_eq_right hab]; exact List.mem_cons_self
        · left; exact max_eq_left hab
      · exact Or.inr (List.mem_cons_of_mem _ h)

theorem greatest_max {w : List K} {m : K} (h : Greatest w m) : max? w = .ok m := by
  cases w with
  | nil => cases h.1
  | cons a l =>
    obtain ⟨m', hm⟩ : ∃ m', max? (a :: l) = .ok m' := ⟨_, rfl⟩
    have h1 : m' = l.foldl max a := by cases hm; rfl
    obtain ⟨a1, a2, a3⟩ := foldl_max_all l a
    have hmem : m' ∈ a :: l := by
      rw [h1]
      rcases a3 with e | e
      · rw [e]; exact List.mem_cons_self
      · exact List.mem_cons_of_mem _ e
    have hge : m ≤ m' := by
      rw [h1]
      rcases List.mem_cons.mp h.1 with e | e
      · rw [e]; exact a1
      · exact a2 _ e
    rw [hm, le_antisymm (h.2 _ hmem) hge]

theorem nonzero_aux : ∀ (m : List Bool) (k : Nat), (∀ i, i ∈ (m.zipIdx k).filterMap (fun p => if p.1 then some p.2 else none) ↔ k ≤ i ∧ m[i - k]? = some true) ∧
    ((m.zipIdx k).filterMap (fun p => if p.1 then some p.2 else none)).Pairwise (· < ·)
  | [], k => by simp
  | b :: m, k => by
    obtain ⟨h1, h2⟩ := nonzero_aux m (k + 1)
    rw [List.zipIdx_cons, List.filterMap_cons]
    have key : ∀ i, (k + 1 ≤ i ∧ m[i - (k + 1)]? = some true) ↔ (i ≠ k ∧ k ≤ i ∧ (b :: m)[i - k]? = some true) := by
      intro i
      constructor
      · rintro ⟨a, e⟩
        refine ⟨by omega, by omega, ?_⟩
        rw [show i - k = (i - (k + 1)) + 1 by omega, List.getElem?_cons_succ]; exact e
      · rintro ⟨a, c, e⟩
        refine ⟨by omega, ?_⟩
        rw [show i - k = (i - (k + 1)) + 1 by omega, List.getElem?_cons_succ] at e; exact e
    cases b with
    | false =>
      simp only [Bool.false_eq_true, if_false]
      refine ⟨fun i => ?_, h2⟩
      rw [h1, key]
      constructor
      · exact fun h => h.2
      · rintro ⟨a, e⟩
        refine ⟨?_, a, e⟩
        rintro rfl
        simp at e
    | true =>
      simp only [if_true]
      constructor
      · intro i
        rw [List.mem_cons, h1, key]
        constructor
        · rintro (rfl | h)
          · simp
          · exact h.2
        · rintro ⟨a, e⟩
          by_cases hi : i = k
          · exact Or.inl hi
          · exact Or.inr ⟨hi, a, e⟩
      · refine List.pairwise_cons.mpr ⟨fun j hj => ?_, h2⟩
        have := ((h1 j).mp hj).1
        omega

theorem nonzero_spec (m : List Bool) : (∀ i, i ∈ nonzero m ↔ m[i]? = some true) ∧ (nonzero m).Pairwise (· < ·) := by
  obtain ⟨h1, h2⟩ := nonzero_aux m 0
  exact ⟨fun i => by rw [nonzero, h1]; simp, h2⟩

theorem keepMask_get (rand w : List K) (m t : K) (i : Nat) :
    (keepMask rand w m t)[i]? = some true ↔ ∃ r x, rand[i]? = some r ∧ w[i]? = some x ∧ r ≤ x / (m * t) := by
  unfold keepMask
  rw [List.getElem?_zipWith]
  cases rand[i]? <;> cases w[i]? <;> simp

/-- the thinning factor `t` used for the arguments -/
inductive Factor (w : List K) (m : K) : Option K → Option K → K → Prop
  | default : Factor w m none none 1
  | given {a : K} : a ≠ 0 → Factor w m (some a) none a
  | limited {c : K} : Factor w m none (some c) (max 1 (w.sum / m / c))

theorem thinOf_factor {w : List K} {m : K} (hm : Greatest w m) {thin ms : Option K} {t : K} (h : Factor w m thin ms t) : thinOf w thin ms = .ok t := by
  cases h with
  | default => rfl
  | given ha => simp [thinOf, ha]
  | limited => simp [thinOf, greatest_max hm, bind, Except.bind, pure, Except.pure]

/-- **C128**: the indices are in order, without repetition, and row `i` is one of them exactly if the number drawn for it is at most its weight over the
heaviest weight, over the thinning factor. -/
theorem random_spec {rand w : List K} (hl : rand.length = w.length) {m : K} (hm : Greatest w m) {thin ms : Option K} {t : K} (h : Factor w m thin ms t) :
    ∃ ix, randomSingle rand w thin ms = .ok ix ∧ ix.Pairwise (· < ·) ∧ (∀ i ∈ ix, i < w.length) ∧
      ∀ i, (hi : i < w.length) → (i ∈ ix ↔ rand[i] ≤ w[i] / (m * t)) := by
  refine ⟨nonzero (keepMask rand w m t), ?_, (nonzero_spec _).2, ?_, ?_⟩
  · simp [randomSingle, thinOf_factor hm h, greatest_max hm, bind, Except.bind, pure, Except.pure]
  · intro i hi
    obtain ⟨r, x, _, hx, _⟩ := (keepMask_get _ _ _ _ _).mp (((nonzero_spec _).1 i).mp hi)
    exact (List.getElem?_eq_some_iff.mp hx).1
  · intro i hi
    rw [(nonzero_spec _).1, keepMask_get]
    simp [List.getElem?_eq_getElem hi, List.getElem?_eq_getElem (show i < rand.length by omega)]

/-- **C128**: without thinning a row of the heaviest weight is always chosen (the numbers drawn are below one). -/
theorem heaviest_chosen {rand w : List K} (hl : rand.length = w.length) (hr : ∀ r ∈ rand, r < 1) {m : K} (hm : Greatest w m) (hp : 0 < m) (i : Nat)
    (hi : w[i]? = some m) : ∃ ix, randomSingle rand w none none = .ok ix ∧ i ∈ ix := by
  obtain ⟨ix, h1, _, _, h2⟩ := random_spec hl hm Factor.default
  obtain ⟨hlt, he⟩ := List.getElem?_eq_some_iff.mp hi
  refine ⟨ix, h1, (h2 i hlt).mpr ?_⟩
  rw [he, mul_one, div_self hp.ne']
  exact (hr _ (List.getElem_mem _)).le

/-- **C128**: unit weights without thinning choose every row. -/
theorem unit_chosen {rand : List K} (hr : ∀ r ∈ rand, r < 1) (hne : rand ≠ []) :
    randomSingle rand (List.replicate rand.length 1) none none = .ok (List.range rand.length) := by
  have hm : Greatest (List.replicate rand.length (1 : K)) 1 := by
    refine ⟨List.mem_replicate.mpr ⟨by simpa using hne, rfl⟩, fun x hx => (List.eq_of_mem_replicate hx).le⟩
  obtain ⟨ix, h1, h2, h3, h4⟩ := random_spec (rand := rand) (by simp) hm Factor.default
  rw [h1]
  congr 1
  apply h2.eq_of_mem_iff List.pairwise_lt_range
  intro i
  constructor
  · intro hi
    have := h3 i hi
    simpa using this
  · intro hi
    have hlt := List.mem_range.mp hi
    refine (h4 i (by simpa using hlt)).mpr ?_
    simpa using (hr _ (List.getElem_mem hlt)).le

/-- **C128**: a thinning factor and a number of samples cannot both be given. -/
theorem both_refused (rand w : List K) (a c : K) : randomSingle rand w (some a) (some c) = .error .weightedSampleError := rfl

/-- **C129**: a row of weight zero is chosen when the number drawn is zero, which the generator can return. -/
theorem zero_weight_fails {rand w : List K} (hl : rand.length = w.length) {m : K} (hm : Greatest w m) {thin ms : Option K} {t : K} (h : Factor w m thin ms t)
    (i : Nat) (hr : rand[i]? = some 0) (hw : w[i]? = some 0) : ∃ ix, randomSingle rand w thin ms = .ok ix ∧ i ∈ ix := by
  obtain ⟨ix, h1, _, _, h2⟩ := random_spec hl hm h
  obtain ⟨hlt, he⟩ := List.getElem?_eq_some_iff.mp hw
  obtain ⟨hlt', he'⟩ := List.getElem?_eq_some_iff.mp hr
  exact ⟨ix, h1, (h2 i hlt).mpr (by rw [he, he', zero_div])⟩

/-- **C129**: with a factor below one the chosen rows are no longer in proportion to the weights: every row with weight above the factor times the heaviest
is always chosen. -/
theorem factor_below_one_fails {rand w : List K} (hl : rand.length = w.length) (hr : ∀ r ∈ rand, r < 1) {m : K} (hm : Greatest w m) (hp : 0 < m) {a : K} (ha : 0 < a)
    (i : Nat) (x : K) (hw : w[i]? = some x) (hx : m * a ≤ x) : ∃ ix, randomSingle rand w (some a) none = .ok ix ∧ i ∈ ix := by
  obtain ⟨ix, h1, _, _, h2⟩ := random_spec hl hm (Factor.given ha.ne')
  obtain ⟨hlt, he⟩ := List.getElem?_eq_some_iff.mp hw
  refine ⟨ix, h1, (h2 i hlt).mpr ?_⟩
  rw [he]
  have hr' : rand[i] < 1 := hr _ (List.getElem_mem _)
  have : 1 ≤ x / (m * a) := (one_le_div (mul_pos hp ha)).mpr hx
  linarith

example : (randomSingle [(1/2 : ℚ), 1/2, 1/5, 9/10] [1, 3, 2, 3] none none).toOption = some [1, 2, 3] := by decide +kernel
example : (randomSingle [(1/2 : ℚ), 1/2, 1/5, 9/10] [1, 3, 2, 3] none (some 1)).toOption = some [2] := by decide +kernel
example : (randomSingle [(0 : ℚ), 1/2] [0, 3] none none).toOption = some [0, 1] := by decide +kernel
example : (randomSingle [(1/2 : ℚ), 9/10] [2, 3] (some (1/2)) none).toOption = some [0, 1] := by decide +kernel

/-! ## The file of weight-one samples -/

/-- the rows (likelihood, parameters) for which the number drawn is at most the weight over the heaviest, over the factor -/
def chosenRows (m t : K) (rand w ll : List K) (xs : List (List K)) : List (K × List K) :=
  ((rand.zip w).zip (ll.zip xs)).filterMap (fun p => if p.1.1 ≤ p.1.2 / (m * t) then some p.2 else none)

theorem fileRows_chosen [FloorRing K] (m t : K) : ∀ (rand w ll : List K) (xs : List (List K)),
    fileRows m t rand w ll xs = (chosenRows m t rand w ll xs).flatMap (fun p => rowText p.1 p.2)
  | r :: rs, w :: ws, l :: ls, x :: xs => by
    have ih := fileRows_chosen m t rs ws ls xs
    unfold fileRows
    rw [ih]
    unfold chosenRows
    simp only [List.zip_cons_cons, List.filterMap_cons, div_div]
    by_cases h : r ≤ w / (m * t) <;> simp [h]
  | [], _, _, _ => by simp [fileRows, chosenRows]
  | _ :: _, [], _, _ => by simp [fileRows, chosenRows]
  | _ :: _, _ :: _, [], _ => by simp [fileRows, chosenRows]
  | _ :: _, _ :: _, _ :: _, [] => by simp [fileRows, chosenRows]

theorem mask_chosen (m t : K) : ∀ (rand w ll : List K) (xs : List (List K)), rand.length = w.length → w.length = xs.length → ll.length = xs.length →
    mask xs (keepMask rand w m t) = .ok ((chosenRows m t rand w ll xs).map (·.2)) := by
  intro rand w ll xs h1 h2 h3
  unfold mask
  rw [if_pos (by simp [keepMask]; omega)]
  congr 1
  induction rand generalizing w ll xs with
  | nil =>
    obtain rfl : w = [] := List.length_eq_zero_iff.mp (by simpa using h1.symm)
    simp [keepMask, chosenRows]
  | cons r rs ih =>
    cases w with
    | nil => simp at h1
    | cons w ws =>
      cases xs with
      | nil => simp at h2
      | cons x xs =>
        cases ll with
        | nil => simp at h3
        | cons l ls =>
          have e := ih ws ls xs (by simpa using h1) (by simpa using h2) (by simpa using h3)
          unfold keepMask chosenRows at *
          simp only [List.zipWith_cons_cons, List.zip_cons_cons, List.filterMap_cons]
          by_cases h : r ≤ w / (m * t) <;> simp [h, e]

section text
variable [FloorRing K]

/-- numbers whose exponent has at most three digits, as every double -/
def Dbl (x : K) : Prop := x = 0 ∨ ((10 : K) ^ (-400 : Int) ≤ |x| ∧ |x| < (10 : K) ^ (400 : Int))

theorem sci_exp {x : K} (hx : x ≠ 0) (h : Dbl x) : (sci 7 |x|).2.natAbs < 1000 := by
  obtain ⟨h1, h2⟩ := h.resolve_left hx
  have hp : 0 < |x| := abs_pos.mpr hx
  have a1 : (-400 : Int) ≤ Int.log 10 |x| := by
    by_contra hc
    have := lt_log |x|
    have h3 : (10 : K) ^ (Int.log 10 |x| + 1) ≤ (10 : K) ^ (-400 : Int) := zpow_le_zpow_right₀ (by norm_num) (by omega)
    linarith
  have a2 : Int.log 10 |x| < 400 := by
    by_contra hc
    have := log_le hp
    have h3 : (10 : K) ^ (400 : Int) ≤ (10 : K) ^ (Int.log 10 |x|) := zpow_le_zpow_right₀ (by norm_num) (by omega)
    linarith
  unfold sci
  dsimp only
  split <;> dsimp only <;> omega

theorem strNat_length_le {n k : Nat} (hk : 0 < k) (h : n < 10 ^ k) : (strNat n).length ≤ k :=
  (Nat.length_toDigits_le_iff (by norm_num) hk).mpr h

theorem expStr_length {e : Int} (h : e.natAbs < 1000) : (expStr e).length ≤ 4 := by
  unfold expStr
  rw [List.length_cons]
  split
  · rename_i h1
    have := strNat_length_le (n := e.natAbs) (k := 1) (by omega) (by omega)
    simp only [List.length_cons]; omega
  · have := strNat_length_le (n := e.natAbs) (k := 3) (by omega) (by omega)
    omega

theorem pointed_length {s : Str} : (pointed s).length ≤ s.length + 1 := by
  cases s with
  | nil => simp [pointed]
  | cons c r => unfold pointed; dsimp only; split <;> simp_all

theorem fmtE_length {x : K} (h : Dbl x) : (fmtE 7 x).length ≤ 15 := by
  unfold fmtE
  rw [List.length_append]
  have hs : (if x < 0 then ['-'] else ([] : Str)).length ≤ 1 := by split <;> simp
  by_cases hx : x = 0
  · rw [if_pos hx]
    have : (pointed (List.replicate (7 + 1) '0') ++ 'E' :: expStr 0).length = 13 := by decide
    omega
  · rw [if_neg hx, List.length_append, List.length_cons]
    have h1 := pointed_length (s := strNat (sci 7 |x|).1)
    rw [length_sci 7 (abs_pos.mpr hx)] at h1
    have h2 := expStr_length (sci_exp hx h)
    omega

theorem field_eq {x : K} (h : Dbl x) : ∃ b : Str, b ≠ [] ∧ Blank b ∧ field x = b ++ fmtE 7 x ∧ Token (fmtE 7 x) := by
  refine ⟨List.replicate (16 - (fmtE 7 x).length) ' ', ?_, ?_, rfl, fmtE_ne_nil 7 x, fun c hc => numChar_not_ws (fmtE_chars 7 x c hc)⟩
  · have := fmtE_length h
    intro e
    have := congrArg List.length e
    simp at this
    omega
  · intro c hc
    rw [(List.mem_replicate.mp hc).2]; decide

theorem field_chars {x : K} : ∀ c ∈ field x, numChar c = true ∨ c = ' ' := by
  intro c hc
  unfold field rjust at hc
  rcases List.mem_append.mp hc with h | h
  · exact Or.inr (List.mem_replicate.mp h).2
  · exact Or.inl (fmtE_chars 7 x c h)

theorem splitWs_numbers (l : List K) (h : ∀ x ∈ l, Dbl x) (tail : Str) (ht : Blank tail) : splitWs (l.flatMap field ++ tail) = l.map (fmtE 7) := by
  have e : l.flatMap field = fields (l.map (fun x => (List.replicate (16 - (fmtE 7 x).length) ' ', fmtE 7 x))) := by
    simp only [fields, List.flatMap_map]; rfl
  rw [e, splitWs_fields_cont _ ht, List.map_map]
  · rfl
  · intro p hp
    obtain ⟨x, hx, rfl⟩ := List.mem_map.mp hp
    obtain ⟨b, h1, h2, h3, h4⟩ := field_eq (h x hx)
    have : b = List.replicate (16 - (fmtE 7 x).length) ' ' := (List.append_cancel_right (h3.symm.trans rfl))
    subst this
    exact ⟨h1, h2, h4⟩

theorem floatStr_fmtE' (x : K) : floatStr (fmtE 7 x) = some (roundSig 7 x) := by
  have := floatStr_fmtE 7 0 x
  simpa [rjust] using this

/-- numbers of the lines of a text file -/
def readRows (text : Str) : List (List (Option K)) := (fileIter text).map (fun l => (splitWs l).map floatStr)

theorem roundSig_one : roundSig 7 (1 : K) = 1 := by
  have := roundSig_exact_pos (K := K) 7 (10 ^ 7) 0 (by norm_num) (by norm_num)
  norm_num at this
  exact this

theorem numChar_oneLine {c : Char} (h : numChar c = true ∨ c = ' ') : c ≠ '\n' ∧ c ≠ '\r' := by
  rcases h with h | rfl
  · constructor <;> (rintro rfl; revert h; decide)
  · decide

theorem rowText_eq (l : K) (x : List K) : rowText l x = (1 :: l :: x).flatMap field ++ ['\n'] := by
  simp [rowText]

theorem numbers_oneLine (l : List K) : OneLine (l.flatMap field) := by
  constructor
  · intro hc
    obtain ⟨x, _, h⟩ := List.mem_flatMap.mp hc
    exact (numChar_oneLine (field_chars _ h)).1 rfl
  · intro hc
    obtain ⟨x, _, h⟩ := List.mem_flatMap.mp hc
    exact (numChar_oneLine (field_chars _ h)).2 rfl

theorem readRows_rows (rows : List (K × List K)) (h : ∀ p ∈ rows, Dbl p.1 ∧ ∀ x ∈ p.2, Dbl x) :
    readRows (rows.flatMap (fun p => rowText p.1 p.2)) = rows.map (fun p => (1 :: roundSig 7 p.1 :: p.2.map (roundSig 7)).map some) := by
  have e : rows.flatMap (fun p => rowText p.1 p.2) = (rows.map (fun p => ((1 : K) :: p.1 :: p.2).flatMap field)).flatMap (fun l => l ++ ['\n']) := by
    rw [List.flatMap_map]
    congr 1
    funext p
    exact rowText_eq p.1 p.2
  unfold readRows
  rw [e, fileIter_terminated, List.map_map, List.map_map]
  · apply List.map_congr_left
    intro p hp
    simp only [Function.comp]
    rw [splitWs_numbers]
    · simp only [List.map_cons, List.map_map, floatStr_fmtE', roundSig_one]
      congr 3
      funext x
      exact floatStr_fmtE' x
    · intro x hx
      rcases List.mem_cons.mp hx with rfl | hx
      · right; rw [abs_one]; exact ⟨zpow_le_one_of_nonpos₀ (by norm_num) (by norm_num), one_lt_zpow₀ (by norm_num) (by norm_num)⟩
      · rcases List.mem_cons.mp hx with rfl | hx
        · exact (h p hp).1
        · exact (h p hp).2 x hx
    · intro c hc; rw [List.mem_singleton.mp hc]; decide
  · intro l hl
    obtain ⟨p, _, rfl⟩ := List.mem_map.mp hl
    exact numbers_oneLine _

/-- all arrays of one length, numbers that are doubles -/
structure Good (rand : List K) (s : MC K) (ll : List K) : Prop where
  rand : rand.length = s.weights.length
  rows : s.weights.length = s.samples.length
  likes : s.loglikes = some ll
  len : ll.length = s.samples.length
  dblL : ∀ x ∈ ll, Dbl x
  dbl : ∀ r ∈ s.samples, ∀ x ∈ r, Dbl x

/-- **C128**: with the same numbers drawn, the file and the array hold the same rows in the same order: reading the file gives weight one, the likelihood
and the parameters to eight figures of exactly the rows of the array. -/
theorem file_array {rand : List K} {s : MC K} {ll : List K} (h : Good rand s ll) {m : K} (hm : Greatest s.weights m) (maxScatter : K) (thin : Option K) :
    ∃ (text : Str) (rows : List (K × List K)), makeSingleFile rand s maxScatter thin = .ok text ∧
      makeSingleArray rand s maxScatter thin = .ok (rows.map (·.2)) ∧
      rows = chosenRows m (thin.getD (max 1 (s.weights.sum / m / maxScatter))) rand s.weights ll s.samples ∧
      readRows text = rows.map (fun p => (1 :: roundSig 7 p.1 :: p.2.map (roundSig 7)).map some) := by
  have ht : singleThin s m maxScatter thin = thin.getD (max 1 (s.weights.sum / m / maxScatter)) := by cases thin <;> rfl
  refine ⟨fileRows m (thin.getD (max 1 (s.weights.sum / m / maxScatter))) rand s.weights ll s.samples, _, ?_, ?_, rfl, ?_⟩
  · simp [makeSingleFile, greatest_max hm, h.likes, ht, bind, Except.bind, pure, Except.pure]
  · simp only [makeSingleArray, greatest_max hm, bind, Except.bind, ht]
    exact mask_chosen m _ rand s.weights ll s.samples h.rand h.rows h.len
  · rw [fileRows_chosen, readRows_rows]
    intro p hp
    obtain ⟨q, hq, e⟩ := List.mem_filterMap.mp hp
    split at e
    · cases e
      have hz := List.of_mem_zip hq
      have hz2 := List.of_mem_zip hz.2
      exact ⟨h.dblL _ hz2.1, h.dbl _ hz2.2⟩
    · cases e

/-- **C129**: without likelihoods the array can be made but not the file. -/
theorem no_likelihood_fails {rand : List K} {s : MC K} (hl : rand.length = s.weights.length) (h2 : s.weights.length = s.samples.length) (hs : s.loglikes = none)
    {m : K} (hm : Greatest s.weights m) (hp : 0 < m) (hr : ∀ r ∈ rand, r < 1) (maxScatter : K) :
    (∃ rows, makeSingleArray rand s maxScatter (some 1) = .ok rows) ∧ makeSingleFile rand s maxScatter (some 1) = .error .typeError := by
  constructor
  · refine ⟨(chosenRows m 1 rand s.weights (List.replicate s.samples.length 0) s.samples).map (·.2), ?_⟩
    simp only [makeSingleArray, greatest_max hm, bind, Except.bind, singleThin]
    exact mask_chosen m _ rand s.weights _ s.samples hl h2 (by simp)
  · have : (keepMask rand s.weights m 1).any id = true := by
      obtain ⟨i, hi, he⟩ := List.getElem_of_mem hm.1
      have := (keepMask_get rand s.weights m 1 i).mpr ⟨rand[i], m, List.getElem?_eq_getElem _, by rw [List.getElem?_eq_getElem hi, he], by
        rw [mul_one, div_self hp.ne']; exact (hr _ (List.getElem_mem _)).le⟩
      rw [List.any_eq_true]
      exact ⟨true, List.mem_of_getElem? this, rfl⟩
    simp [makeSingleFile, greatest_max hm, hs, singleThin, this, bind, Except.bind, throw, throwThe, MonadExceptOf.throw]

/-! ## Thinned output -/

/-- **C129**: the parameters written by `writeThinData` are those of the first rows, whatever the indices: they do not depend on the rows selected. -/
theorem thin_rows_fails (exp : K → K) (fmt6 : K → Str) (cool : K) (ll : List K) (xs ys : List (List K)) (ix : List Nat) (h : xs.take ix.length = ys.take ix.length) :
    writeThin exp fmt6 cool ll xs ix = writeThin exp fmt6 cool ll ys ix := by
  have key : ∀ (l : List (Nat × Nat)) (mL : K), (∀ p ∈ l, p.2 < ix.length) →
      l.mapM (fun p => thinRow exp fmt6 cool mL ll xs p.1 p.2) = l.mapM (fun p => thinRow exp fmt6 cool mL ll ys p.1 p.2) := by
    intro l mL
    induction l with
    | nil => intro _; rfl
    | cons p l ih =>
      intro hl
      rw [List.mapM_cons, List.mapM_cons, ih (fun q hq => hl q (List.mem_cons_of_mem _ hq))]
      have hp := hl p List.mem_cons_self
      have : xs[p.2]? = ys[p.2]? := by
        rw [← List.getElem?_take_of_lt hp, ← List.getElem?_take_of_lt (l := ys) hp, h]
      unfold thinRow
      rw [this]
  unfold writeThin
  cases max? ll with
  | error e => rfl
  | ok mL =>
    simp only [bind, Except.bind]
    have hk := key ix.zipIdx mL (by
      intro p hp
      have := List.snd_lt_of_mem_zipIdx hp
      simpa using this)
    rw [hk]

/-- **C129**: no line end is ever written, so the rows of `writeThinData` run together in one line. -/
theorem thin_line_fails (exp : K → K) (fmt6 : K → Str) (h6 : ∀ x, '\n' ∉ fmt6 x) (cool : K) (ll : List K) (xs : List (List K)) (ix : List Nat) (text : Str)
    (h : writeThin exp fmt6 cool ll xs ix = .ok text) : '\n' ∉ text := by
  unfold writeThin at h
  cases hm : max? ll with
  | error e => rw [hm] at h; cases h
  | ok mL =>
    rw [hm] at h
    simp only [bind, Except.bind] at h
    have key : ∀ (l : List (Nat × Nat)) (rows : List Str), l.mapM (fun p => thinRow exp fmt6 cool mL ll xs p.1 p.2) = .ok rows → ∀ r ∈ rows, '\n' ∉ r := by
      intro l
      induction l with
      | nil => intro rows hr; cases hr; simp
      | cons p l ih =>
        intro rows hr
        rw [List.mapM_cons] at hr
        cases hrow : thinRow exp fmt6 cool mL ll xs p.1 p.2 with
        | error e => rw [hrow] at hr; cases hr
        | ok a =>
          rw [hrow] at hr
          cases hrest : l.mapM (fun p => thinRow exp fmt6 cool mL ll xs p.1 p.2) with
          | error e => rw [hrest] at hr; cases hr
          | ok bs =>
            rw [hrest] at hr
            cases hr
            intro r hr
            rcases List.mem_cons.mp hr with rfl | hr
            · unfold thinRow at hrow
              cases h1 : ll[p.1]? with
              | none => rw [h1] at hrow; cases hrow
              | some l0 =>
                cases h2 : xs[p.2]? with
                | none => rw [h1, h2] at hrow; cases hrow
                | some x0 =>
                  rw [h1, h2] at hrow
                  simp only [Except.ok.injEq] at hrow
                  subst hrow
                  have hn := (numbers_oneLine x0).1
                  have hf : ∀ y : K, '\n' ∉ field y := fun y hy => (numChar_oneLine (field_chars _ hy)).1 rfl
                  split <;> simp [hf, hn, h6]
            · exact ih bs hrest r hr
    cases hrows : ix.zipIdx.mapM (fun p => thinRow exp fmt6 cool mL ll xs p.1 p.2) with
    | error e => rw [hrows] at h; cases h
    | ok rows =>
      rw [hrows] at h
      cases h
      intro hc
      obtain ⟨r, hr, hc⟩ := List.mem_flatten.mp hc
      exact key _ _ hrows r hr hc

/-- **C128**: the weight written for a cooled row is `exp((L - max L)(1 - T))`, so for a factor up to one no weight exceeds one and the least likely row has weight one. -/
theorem coolWeight_spec (exp : K → K) (hexp : Monotone exp) (h0 : exp 0 = 1) (cool m l : K) (hl : l ≤ m) (hc : cool ≤ 1) :
    coolWeight exp cool m l = exp ((l - m) * (1 - cool)) ∧ coolWeight exp cool m l ≤ 1 ∧ coolWeight exp cool m m = 1 := by
  have e : ∀ l, coolWeight exp cool m l = exp ((l - m) * (1 - cool)) := by
    intro l
    unfold coolWeight
    congr 1
    ring
  refine ⟨e l, ?_, ?_⟩
  · rw [e, ← h0]
    exact hexp (mul_nonpos_of_nonpos_of_nonneg (by linarith) (by linarith))
  · rw [e, sub_self, zero_mul, h0]

end text

example : (makeSingleFile [(1/2 : ℚ), 9/10] ⟨[2, 1], some [3, 4], [[5, -6], [7, 8]]⟩ 2000 none).toOption =
    some (c!"   1.0000000E+00   3.0000000E+00   5.0000000E+00  -6.0000000E+00\n") := by decide +kernel

/-- **C129**: without cooling the weight and the likelihood are not separated: the text is not a number. -/
theorem thin_separator_fails : (writeThin (fun x : ℚ => x) (NumFmt.fmtF 6) 1 [3, 4] [[5, 6], [7, 8]] [1]).toOption =
    some (c!"1.0000004.000000   5.0000000E+00   6.0000000E+00") ∧ (floatStr (c!"1.0000004.000000") : Option ℚ) = none := by decide +kernel

end Verif.Singles
