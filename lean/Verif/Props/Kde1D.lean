import Verif.Props.Kde1DBins
import Verif.Props.ConvolveDFT

/-!
# Corrections at hard prior limits (C68)
-/

namespace Verif.Kde1D
set_option linter.unusedSectionVars false
open Verif.Py Verif.Py.Np Verif.Convolve Finset

variable {K : Type} [Field K] [LinearOrder K] [IsStrictOrderedRing K] [FloorRing K]

/-! ## Window sums -/

/-- what is used of `convolve1D`: with a kernel not longer than the data it gives the sums of products -/
def ConvOk (conv : Conv K) : Prop := ∀ x y mode, y ≠ [] → y.length ≤ x.length → conv x y mode = .ok (spec mode x y)

/-- the model of `convolve1D` has it, for sizes in the table of transforms -/
theorem convolve1D_fits {A : FFT K} (hA : A.Ok) {x y : List K} {mode : Mode} (hy : y ≠ []) (hl : y.length ≤ x.length)
    (hs : x.length + y.length ≤ 2013265921) :
    (convolve1D A ⟨0, x⟩ ⟨1, y⟩ mode 0 none true true).map Prod.fst = .ok (spec mode x y) := by
  have hok : ∃ r, convolve1D A ⟨0, x⟩ ⟨1, y⟩ mode 0 none true true = .ok r := by
    unfold convolve1D
    split
    · exact convolveFFT_ok (by simpa using hs)
    · rw [show (⟨0, x⟩ : Obj K).val = x from rfl, show (⟨1, y⟩ : Obj K).val = y from rfl, npConvolve_spec hy hl]
      exact ⟨_, rfl⟩
  obtain ⟨r, hr⟩ := hok
  have := (convolve1D_spec hA (heap := fun i => if i = 0 then x else y) hy hl (by intro d hd; cases hd) rfl rfl hr).1
  rw [hr]
  exact congrArg Except.ok this

theorem npConvolve_fits : ConvOk (npConvolve : Conv K) := fun _ _ _ hy hl => npConvolve_spec hy hl

/-- the sum over a window: kernel `g`, data `f` -/
def wsum (w : Nat) (g f : Nat → K) (i : Nat) : K := ∑ o ∈ range (2 * w + 1), g o * f (i + (2 * w - o))

/-- the data with `w` zeros before -/
def pad (w : Nat) (x : List K) (p : Nat) : K := if p < w then 0 else ent x (p - w)

theorem lin_sum (x y : List K) (k : Nat) : lin x y k = ∑ o ∈ range (k + 1), ent y o * ent x (k - o) := by
  rw [lin_comm]; unfold lin; rw [list_sum_range]

theorem valid_entry {w : Nat} {x y : List K} (hy : y.length = 2 * w + 1) (i : Nat) :
    lin x y (y.length - 1 + i) = wsum w (ent y) (ent x) i := by
  rw [lin_sum, hy]
  unfold wsum
  symm
  have e : ∀ o ∈ range (2 * w + 1), ent y o * ent x (i + (2 * w - o)) = ent y o * ent x (2 * w + 1 - 1 + i - o) := by
    intro o ho
    rw [mem_range] at ho
    rw [show i + (2 * w - o) = 2 * w + 1 - 1 + i - o by omega]
  rw [sum_congr rfl e]
  apply sum_subset
  · intro o ho; rw [mem_range] at ho ⊢; omega
  · intro o _ ho
    rw [mem_range] at ho
    rw [ent_ge (by omega), zero_mul]

theorem same_entry {w : Nat} {x y : List K} (hy : y.length = 2 * w + 1) (i : Nat) :
    lin x y ((y.length - 1) / 2 + i) = wsum w (ent y) (pad w x) i := by
  have h2 : (y.length - 1) / 2 = w := by omega
  rw [lin_sum, h2]
  unfold wsum
  have e1 : ∑ o ∈ range (w + i + 1), ent y o * ent x (w + i - o) = ∑ o ∈ range (2 * w + i + 1), ent y o * (if o ≤ w + i then ent x (w + i - o) else 0) := by
    calc _ = ∑ o ∈ range (w + i + 1), ent y o * (if o ≤ w + i then ent x (w + i - o) else 0) := by
          apply sum_congr rfl
          intro o ho; rw [mem_range] at ho
          rw [if_pos (by omega)]
      _ = _ := by
          apply sum_subset
          · intro o ho; rw [mem_range] at ho ⊢; omega
          · intro o _ ho; rw [mem_range] at ho; rw [if_neg (by omega), mul_zero]
  rw [e1]
  symm
  have e2 : ∀ o ∈ range (2 * w + 1), ent y o * pad w x (i + (2 * w - o)) = ent y o * (if o ≤ w + i then ent x (w + i - o) else 0) := by
    intro o ho
    rw [mem_range] at ho
    unfold pad
    by_cases hc : o ≤ w + i
    · rw [if_neg (by omega), if_pos hc, show i + (2 * w - o) - w = w + i - o by omega]
    · rw [if_pos (by omega), if_neg hc]
  rw [sum_congr rfl e2]
  apply sum_subset
  · intro o ho; rw [mem_range] at ho ⊢; omega
  · intro o _ ho
    rw [mem_range] at ho
    rw [ent_ge (by omega), zero_mul]

theorem ent_range {n i : Nat} (f : Nat → K) (h : i < n) : ent ((List.range n).map f) i = f i := by
  unfold ent
  rw [List.getD_eq_getElem?_getD, List.getElem?_map, List.getElem?_range h]
  rfl

/-- the convolutions of the prior mask and of the histogram as window sums -/
theorem run_valid {conv : Conv K} (hc : ConvOk conv) {n w : Nat} {x y : List K} (hx : x.length = n + 2 * w) (hy : y.length = 2 * w + 1)
    (hn : 0 < n) : run conv x y .valid = .ok ((List.range n).map (wsum w (ent y) (ent x))) := by
  unfold run
  rw [hc x y .valid (by intro e; rw [e] at hy; simp at hy) (by omega)]
  show Except.ok ((List.range (x.length + 1 - y.length)).map _) = _
  rw [show x.length + 1 - y.length = n by omega]
  refine congrArg Except.ok (List.map_congr_left (fun i _ => valid_entry hy i))

theorem run_same {conv : Conv K} (hc : ConvOk conv) {n w : Nat} {x y : List K} (hx : x.length = n) (hy : y.length = 2 * w + 1)
    (hn : 2 * w + 1 ≤ n) : run conv x y .same = .ok ((List.range n).map (wsum w (ent y) (pad w x))) := by
  unfold run
  rw [hc x y .same (by intro e; rw [e] at hy; simp at hy) (by omega)]
  show Except.ok ((List.range x.length).map _) = _
  rw [hx]
  exact congrArg Except.ok (List.map_congr_left (fun i _ => same_entry hy i))

/-! ## The kernel and the mask -/

theorem offs_length (w : Nat) : (offs w : List K).length = 2 * w + 1 := by simp [offs]

theorem win_length (exp : K → K) (w : Nat) (h : K) : (win exp w h).length = 2 * w + 1 := by simp [win, offs]

theorem xWin_length {W : List K} {w : Nat} (hW : W.length = 2 * w + 1) (k : Nat) : (xWin W w k).length = 2 * w + 1 := by
  unfold xWin; rw [List.length_zipWith, hW, offs_length]; omega

theorem ent_xWin {W : List K} {w : Nat} (hW : W.length = 2 * w + 1) (k : Nat) {o : Nat} (ho : o < 2 * w + 1) :
    ent (xWin W w k) o = ent W o * ((o : K) - (w : K)) ^ k := by
  unfold ent xWin offs
  rw [List.getD_eq_getElem?_getD, List.getElem?_zipWith, List.getElem?_map, List.getElem?_range ho, List.getD_eq_getElem?_getD,
    List.getElem?_eq_getElem (by omega)]
  rfl

theorem wsum_xWin {W : List K} {w : Nat} (hW : W.length = 2 * w + 1) (k : Nat) (f : Nat → K) (i : Nat) :
    wsum w (ent (xWin W w k)) f i = ∑ o ∈ range (2 * w + 1), ent W o * f (i + (2 * w - o)) * ((o : K) - (w : K)) ^ k := by
  unfold wsum
  apply sum_congr rfl
  intro o ho
  rw [ent_xWin hW k (mem_range.mp ho)]; ring

theorem sum_pos_list {l : List K} (h : ∀ x ∈ l, 0 < x) (hne : l ≠ []) : 0 < l.sum := by
  induction l with
  | nil => exact absurd rfl hne
  | cons a l ih =>
    rw [List.sum_cons]
    have ha := h a (by simp)
    by_cases hl : l = []
    · rw [hl]; simpa using ha
    · have := ih (fun x hx => h x (by simp [hx])) hl
      linarith

theorem win_ent {exp : K → K} (he : ∀ x, 0 < exp x) (w : Nat) (h : K) : ∃ S, 0 < S ∧ ∀ o < 2 * w + 1,
    ent (win exp w h) o = exp (-(((o : K) - w) / h) ^ 2 / 2) / S := by
  set g : List K := (offs w).map (fun x : K => exp (-(x / h) ^ 2 / 2)) with hg
  have hpos : ∀ x ∈ g, 0 < x := by
    intro x hx
    rw [hg, List.mem_map] at hx
    obtain ⟨y, _, rfl⟩ := hx
    exact he _
  have hne : g ≠ [] := by
    intro e
    have := congrArg List.length e
    rw [hg, List.length_map, offs_length] at this
    simp at this
  refine ⟨g.sum, sum_pos_list hpos hne, ?_⟩
  intro o ho
  unfold ent win
  dsimp only
  rw [← hg, List.getD_eq_getElem?_getD, List.getElem?_map, hg, List.getElem?_map, offs, List.getElem?_map, List.getElem?_range ho]
  rfl

theorem win_pos {exp : K → K} (he : ∀ x, 0 < exp x) (w : Nat) (h : K) {o : Nat} (ho : o < 2 * w + 1) : 0 < ent (win exp w h) o := by
  obtain ⟨S, hS, hw⟩ := win_ent he w h
  rw [hw o ho]
  exact div_pos (he _) hS

theorem ent_getElem? {l : List K} {i : Nat} : ent l i = (l[i]?).getD 0 := by
  unfold ent; rw [List.getD_eq_getElem?_getD]

/-- entries of the prior mask: zero beyond a hard limit, a half at it, one elsewhere -/
theorem priorMask_ent (bot top : Bool) {n w : Nat} (hw : 0 < w) (hn : 2 ≤ n) : (priorMask bot top n w : List K).length = n + 2 * w ∧
    ∀ p < n + 2 * w, ent (priorMask bot top n w : List K) p =
      if bot ∧ p < w then 0 else if top ∧ n + w ≤ p then 0 else if bot ∧ p = w then 1 / 2 else if top ∧ p + 1 = n + w then 1 / 2 else 1 := by
  have hm1 : ∀ p < n + 2 * w, ∀ b : Bool, (if b then zeroTo ((List.replicate (n + 2 * w) (1 : K)).set w (1 / 2)) w else List.replicate (n + 2 * w) 1)[p]?
      = some (if b ∧ p < w then 0 else if b ∧ p = w then 1 / 2 else 1) := by
    intro p hp b
    cases b with
    | false => simp [hp]
    | true =>
      simp only [if_true, true_and]
      unfold zeroTo
      rw [List.length_set, List.length_replicate, min_eq_left (by omega)]
      by_cases h1 : p < w
      · rw [List.getElem?_append_left (by simpa using h1), List.getElem?_replicate, if_pos h1, if_pos h1]
      · rw [List.getElem?_append_right (by simpa using h1), List.length_replicate, List.getElem?_drop, show w + (p - w) = p by omega, if_neg h1]
        by_cases h2 : p = w
        · rw [h2, List.getElem?_set_self (by simp; omega), if_pos rfl]
        · rw [List.getElem?_set_ne (Ne.symm h2), List.getElem?_replicate, if_pos hp, if_neg h2]
  have hl1 : ∀ b : Bool, (if b then zeroTo ((List.replicate (n + 2 * w) (1 : K)).set w (1 / 2)) w else List.replicate (n + 2 * w) 1).length = n + 2 * w := by
    intro b
    cases b with
    | false => simp
    | true => simp [zeroTo]; omega
  unfold priorMask
  dsimp only
  generalize hM : (if bot then zeroTo ((List.replicate (n + 2 * w) (1 : K)).set w (1 / 2)) w else List.replicate (n + 2 * w) 1) = M
  have hlM : M.length = n + 2 * w := by rw [← hM]; exact hl1 bot
  have hgM : ∀ p < n + 2 * w, M[p]? = some (if bot ∧ p < w then 0 else if bot ∧ p = w then 1 / 2 else 1) := by
    intro p hp; rw [← hM]; exact hm1 p hp bot
  cases top with
  | false =>
    refine ⟨by simpa using hlM, ?_⟩
    intro p hp
    simp only [Bool.false_eq_true, if_false, false_and]
    rw [ent_getElem?, hgM p hp, Option.getD_some]
  | true =>
    simp only [if_true, true_and]
    unfold zeroLast
    rw [if_neg (by omega), List.length_set, hlM]
    constructor
    · simp [hlM]; omega
    · intro p hp
      rw [ent_getElem?]
      by_cases h1 : n + w ≤ p
      · rw [List.getElem?_append_right (by simp [hlM]; omega), List.getElem?_replicate, if_pos (by simp [hlM]; omega)]
        rw [if_neg (by rintro ⟨-, h⟩; omega), if_pos h1]; rfl
      · rw [List.getElem?_append_left (by simp [hlM]; omega), List.getElem?_take, if_pos (by omega), if_neg h1]
        by_cases h2 : p + 1 = n + w
        · rw [show n + 2 * w - (w + 1) = p by omega, List.getElem?_set_self (by omega), if_neg (by rintro ⟨-, h⟩; omega),
            if_neg (by rintro ⟨-, h⟩; omega), if_pos h2]; rfl
        · rw [List.getElem?_set_ne (by omega), hgM p hp, Option.getD_some, if_neg h2]

theorem edgeMask_ent (bot top : Bool) {n : Nat} (hn : 2 ≤ n) : (edgeMask bot top n : List K).length = n ∧
    ∀ p < n, ent (edgeMask bot top n : List K) p = if bot ∧ p = 0 then 1 / 2 else if top ∧ p + 1 = n then 1 / 2 else 1 := by
  have h1 : ∀ p < n, ent (List.replicate n (1 : K)) p = 1 := by
    intro p hp; rw [ent_getElem?, List.getElem?_replicate, if_pos hp]; rfl
  unfold edgeMask
  dsimp only
  generalize hM : (if bot then (List.replicate n (1 : K)).set 0 (ent (List.replicate n (1 : K)) 0 * (1 / 2)) else List.replicate n 1) = M
  have hlM : M.length = n := by rw [← hM]; split <;> simp
  have hgM : ∀ p < n, ent M p = if bot ∧ p = 0 then 1 / 2 else 1 := by
    intro p hp
    rw [← hM]
    cases bot with
    | false => simp only [Bool.false_eq_true, if_false, false_and]; exact h1 p hp
    | true =>
      simp only [if_true, true_and]
      by_cases h0 : p = 0
      · rw [h0, ent_getElem?, List.getElem?_set_self (by simp; omega), h1 0 (by omega), if_pos rfl]; simp
      · rw [ent_getElem?, List.getElem?_set_ne (Ne.symm h0), ← ent_getElem?, h1 p hp, if_neg h0]
  cases top with
  | false =>
    simp only [Bool.false_eq_true, if_false, false_and]
    exact ⟨hlM, hgM⟩
  | true =>
    simp only [if_true, true_and]
    refine ⟨by simp [hlM], ?_⟩
    intro p hp
    by_cases h2 : p + 1 = n
    · rw [show n - 1 = p by omega, ent_getElem?, List.getElem?_set_self (by omega), hgM p hp, if_neg (by rintro ⟨-, h⟩; omega),
        if_neg (by rintro ⟨-, h⟩; omega), if_pos h2]; simp
    · rw [ent_getElem?, List.getElem?_set_ne (by omega), ← ent_getElem?, hgM p hp, if_neg h2]

example : priorMask true true 3 2 = ([0, 0, 1/2, 1, 1/2, 0, 0] : List ℚ) ∧ edgeMask true false 3 = ([1/2, 1, 1] : List ℚ) := by decide +kernel

/-- without a window the assignments to the last `winw` entries clear the whole mask: there is no correction at an upper limit -/
theorem priorMask_nowindow_fails (bot : Bool) (n : Nat) : (priorMask bot true n 0 : List K) = List.replicate n 0 := by
  unfold priorMask
  cases bot <;> simp [zeroLast, zeroTo]

/-! ## Sums with weights -/

theorem cs_pos {s : Finset Nat} {ω X : Nat → K} (hω : ∀ o ∈ s, 0 ≤ ω o) {j k : Nat} (hj : j ∈ s) (hk : k ∈ s) (hj0 : 0 < ω j) (hk0 : 0 < ω k)
    (hjk : X j ≠ X k) : (∑ o ∈ s, ω o * X o) ^ 2 < (∑ o ∈ s, ω o) * ∑ o ∈ s, ω o * X o ^ 2 := by
  set a0 := ∑ o ∈ s, ω o with h0
  set a1 := ∑ o ∈ s, ω o * X o with h1
  set a2 := ∑ o ∈ s, ω o * X o ^ 2 with h2
  have ha0 : 0 < a0 := sum_pos' hω ⟨j, hj, hj0⟩
  set t := a1 / a0 with ht
  have hta : t * a0 = a1 := by rw [ht]; field_simp
  have hexp : ∑ o ∈ s, ω o * (X o - t) ^ 2 = a2 - 2 * t * a1 + t ^ 2 * a0 := by
    have : ∀ o ∈ s, ω o * (X o - t) ^ 2 = ω o * X o ^ 2 - 2 * t * (ω o * X o) + t ^ 2 * ω o := by intro o _; ring
    rw [sum_congr rfl this, sum_add_distrib, sum_sub_distrib, ← mul_sum, ← mul_sum]
  have hpos : 0 < ∑ o ∈ s, ω o * (X o - t) ^ 2 := by
    have hnn : ∀ o ∈ s, 0 ≤ ω o * (X o - t) ^ 2 := fun o ho => mul_nonneg (hω o ho) (sq_nonneg _)
    by_cases hjt : X j = t
    · have hkt : X k - t ≠ 0 := fun e => hjk (by rw [hjt]; linarith)
      exact sum_pos' hnn ⟨k, hk, mul_pos hk0 (by positivity)⟩
    · have hjt : X j - t ≠ 0 := sub_ne_zero.mpr hjt
      exact sum_pos' hnn ⟨j, hj, mul_pos hj0 (by positivity)⟩
  rw [hexp] at hpos
  have : 0 < a0 * (a2 - 2 * t * a1 + t ^ 2 * a0) := mul_pos ha0 hpos
  have e : a0 * (a2 - 2 * t * a1 + t ^ 2 * a0) = a0 * a2 - a1 ^ 2 := by
    rw [← hta]; ring
  rw [e] at this
  linarith

/-- moments of weights -/
def mom (s : Finset Nat) (ω X : Nat → K) (k : Nat) : K := ∑ o ∈ s, ω o * X o ^ k

/-- the linear correction is exact for linear data -/
theorem corrected1_exact {s : Finset Nat} {ω X : Nat → K} (q d : K) (h : mom s ω X 1 ^ 2 < mom s ω X 0 * mom s ω X 2) :
    corrected1 (∑ o ∈ s, ω o * (q - d * X o)) (∑ o ∈ s, ω o * X o * (q - d * X o)) (mom s ω X 0) (mom s ω X 1) (mom s ω X 2) = q := by
  have e0 : ∑ o ∈ s, ω o * (q - d * X o) = q * mom s ω X 0 - d * mom s ω X 1 := by
    unfold mom; rw [mul_sum, mul_sum, ← sum_sub_distrib]; exact sum_congr rfl (fun o _ => by ring)
  have e1 : ∑ o ∈ s, ω o * X o * (q - d * X o) = q * mom s ω X 1 - d * mom s ω X 2 := by
    unfold mom; rw [mul_sum, mul_sum, ← sum_sub_distrib]; exact sum_congr rfl (fun o _ => by ring)
  unfold corrected1
  rw [e0, e1, div_eq_iff (by intro e; linarith)]
  ring

/-- the determinant of the quadratic correction is positive -/
theorem denom_pos {s : Finset Nat} {ω X : Nat → K} (hω : ∀ o ∈ s, 0 ≤ ω o) {c : Nat} (hc : c ∈ s) (hc0 : 0 < ω c) (hXc : X c = 0)
    (hA : mom s ω X 3 ^ 2 < mom s ω X 2 * mom s ω X 4) :
    0 < mom s ω X 4 * mom s ω X 2 * mom s ω X 0 - mom s ω X 4 * mom s ω X 1 ^ 2 - mom s ω X 2 ^ 3 - mom s ω X 3 ^ 2 * mom s ω X 0
      + 2 * mom s ω X 1 * mom s ω X 2 * mom s ω X 3 := by
  set a0 := mom s ω X 0 with h0
  set a1 := mom s ω X 1 with h1
  set a2 := mom s ω X 2 with h2
  set a3 := mom s ω X 3 with h3
  set a4 := mom s ω X 4 with h4
  set D := a4 * a2 * a0 - a4 * a1 ^ 2 - a2 ^ 3 - a3 ^ 2 * a0 + 2 * a1 * a2 * a3 with hD
  set A := a4 * a2 - a3 ^ 2 with hAd
  set B := a2 * a3 - a4 * a1 with hB
  set C := a3 * a1 - a2 ^ 2 with hC
  have hApos : 0 < A := by rw [hAd]; linarith [mul_comm a2 a4]
  have hexp : ∑ o ∈ s, ω o * (A + B * X o + C * X o ^ 2) ^ 2 = A * D := by
    have : ∀ o ∈ s, ω o * (A + B * X o + C * X o ^ 2) ^ 2 = A ^ 2 * (ω o * X o ^ 0) + 2 * A * B * (ω o * X o ^ 1) +
        (B ^ 2 + 2 * A * C) * (ω o * X o ^ 2) + 2 * B * C * (ω o * X o ^ 3) + C ^ 2 * (ω o * X o ^ 4) := by
      intro o _; ring
    rw [sum_congr rfl this, sum_add_distrib, sum_add_distrib, sum_add_distrib, sum_add_distrib, ← mul_sum, ← mul_sum, ← mul_sum,
      ← mul_sum, ← mul_sum]
    show A ^ 2 * a0 + 2 * A * B * a1 + (B ^ 2 + 2 * A * C) * a2 + 2 * B * C * a3 + C ^ 2 * a4 = A * D
    rw [hAd, hB, hC, hD]; ring
  have hpos : 0 < ∑ o ∈ s, ω o * (A + B * X o + C * X o ^ 2) ^ 2 := by
    refine sum_pos' (fun o ho => mul_nonneg (hω o ho) (sq_nonneg _)) ⟨c, hc, mul_pos hc0 ?_⟩
    rw [hXc]
    have : A + B * 0 + C * 0 ^ 2 = A := by ring
    rw [this]; positivity
  rw [hexp] at hpos
  exact (mul_pos_iff_of_pos_left hApos).mp hpos

/-- the quadratic correction is exact for quadratic data -/
theorem corrected2_exact {s : Finset Nat} {ω X : Nat → K} (q d e : K)
    (h : 0 < mom s ω X 4 * mom s ω X 2 * mom s ω X 0 - mom s ω X 4 * mom s ω X 1 ^ 2 - mom s ω X 2 ^ 3 - mom s ω X 3 ^ 2 * mom s ω X 0
      + 2 * mom s ω X 1 * mom s ω X 2 * mom s ω X 3) :
    corrected2 (∑ o ∈ s, ω o * (q - d * X o + e * X o ^ 2)) (∑ o ∈ s, ω o * X o * (q - d * X o + e * X o ^ 2))
      (∑ o ∈ s, ω o * X o ^ 2 * (q - d * X o + e * X o ^ 2))
      (mom s ω X 0) (mom s ω X 1) (mom s ω X 2) (mom s ω X 3) (mom s ω X 4) = q := by
  have e0 : ∑ o ∈ s, ω o * (q - d * X o + e * X o ^ 2) = q * mom s ω X 0 - d * mom s ω X 1 + e * mom s ω X 2 := by
    unfold mom; rw [mul_sum, mul_sum, mul_sum, ← sum_sub_distrib, ← sum_add_distrib]; exact sum_congr rfl (fun o _ => by ring)
  have e1 : ∑ o ∈ s, ω o * X o * (q - d * X o + e * X o ^ 2) = q * mom s ω X 1 - d * mom s ω X 2 + e * mom s ω X 3 := by
    unfold mom; rw [mul_sum, mul_sum, mul_sum, ← sum_sub_distrib, ← sum_add_distrib]; exact sum_congr rfl (fun o _ => by ring)
  have e2 : ∑ o ∈ s, ω o * X o ^ 2 * (q - d * X o + e * X o ^ 2) = q * mom s ω X 2 - d * mom s ω X 3 + e * mom s ω X 4 := by
    unfold mom; rw [mul_sum, mul_sum, mul_sum, ← sum_sub_distrib, ← sum_add_distrib]; exact sum_congr rfl (fun o _ => by ring)
  unfold corrected2
  dsimp only
  rw [e0, e1, e2, div_eq_iff h.ne']
  ring

/-! ## The corrected density -/

section main
variable {conv : Conv K} {exp : K → K} {n w : Nat} {W bins : List K} {bot top : Bool}

/-- moments of the kernel cut by the prior mask, and of the histogram -/
def aM (W : List K) (bot top : Bool) (n w k i : Nat) : K := wsum w (ent (xWin W w k)) (ent (priorMask bot top n w)) i
def bM (W bins : List K) (w k i : Nat) : K := wsum w (ent (xWin W w k)) (pad w bins) i

theorem xWin_zero (hW : W.length = 2 * w + 1) : xWin W w 0 = W := by
  unfold xWin
  apply List.ext_getElem?
  intro i
  rw [List.getElem?_zipWith, offs]
  by_cases hi : i < 2 * w + 1
  · rw [List.getElem?_map, List.getElem?_range hi, List.getElem?_eq_getElem (by omega)]
    simp
  · rw [List.getElem?_eq_none (by omega)]

theorem run_a (hc : ConvOk conv) (hW : W.length = 2 * w + 1) (hw : 0 < w) (hn : 2 ≤ n) (k : Nat) :
    run conv (priorMask bot top n w) (xWin W w k) .valid = .ok ((List.range n).map (aM W bot top n w k)) :=
  run_valid hc (priorMask_ent bot top hw hn).1 (xWin_length hW k) (by omega)

theorem run_b (hc : ConvOk conv) (hW : W.length = 2 * w + 1) (hb : bins.length = n) (hn : 2 * w + 1 ≤ n) (k : Nat) :
    run conv bins (xWin W w k) .same = .ok ((List.range n).map (bM W bins w k)) :=
  run_same hc hb (xWin_length hW k) hn

/-- the correction at one point -/
def fix (exp : K → K) (order : Int) (P : K) (a b : Nat → K) : K :=
  if a 0 * P = 0 then P
  else if order = 0 then P / a 0
  else if order = 1 then soften exp 4 (P / a 0) (corrected1 P (b 1) (a 0) (a 1) (a 2))
  else soften exp 4 (P / a 0) (corrected2 P (b 1) (b 2) (a 0) (a 1) (a 2) (a 3) (a 4))

theorem boundary_eval (hc : ConvOk conv) (hW : W.length = 2 * w + 1) (hw : 0 < w) (hn : 2 * w + 1 ≤ n) (hb : bins.length = n)
    (P : List K) {order : Int} (h2 : order ≤ 2) :
    boundaryCorrect conv exp order bot top n w W bins P =
      .ok ((List.range n).map (fun i => fix exp order (ent P i) (fun k => aM W bot top n w k i) (fun k => bM W bins w k i))) := by
  have ra := fun k => run_a (conv := conv) (bot := bot) (top := top) hc hW hw (by omega : 2 ≤ n) k
  have rb := fun k => run_b (conv := conv) hc hW hb hn k
  have ra0 := ra 0
  rw [xWin_zero hW] at ra0
  unfold boundaryCorrect
  simp only [ra0, ra, rb, bind, Except.bind, pure, Except.pure]
  by_cases o0 : order = 0
  · simp only [if_pos o0]
    refine congrArg Except.ok (List.map_congr_left (fun i hi => ?_))
    have hi := List.mem_range.mp hi
    rw [ent_range _ hi]
    unfold fix
    simp only [if_pos o0]
  · by_cases o1 : order = 1
    · simp only [if_neg o0, if_pos h2, if_pos o1]
      refine congrArg Except.ok (List.map_congr_left (fun i hi => ?_))
      have hi := List.mem_range.mp hi
      simp only [ent_range _ hi]
      unfold fix
      simp only [if_neg o0, if_pos o1]
    · simp only [if_neg o0, if_pos h2, if_neg o1]
      refine congrArg Except.ok (List.map_congr_left (fun i hi => ?_))
      have hi := List.mem_range.mp hi
      simp only [ent_range _ hi]
      unfold fix
      simp only [if_neg o0, if_neg o1]

/-- weights of the offsets at point `i` -/
def om (W : List K) (bot top : Bool) (n w i : Nat) (o : Nat) : K := ent W o * ent (priorMask bot top n w : List K) (i + (2 * w - o))
def X (w : Nat) (o : Nat) : K := (o : K) - (w : K)

theorem aM_mom (hW : W.length = 2 * w + 1) (k i : Nat) : aM W bot top n w k i = mom (range (2 * w + 1)) (om W bot top n w i) (X w) k :=
  wsum_xWin hW k _ i

theorem mask_nonneg (hw : 0 < w) (hn : 2 ≤ n) (p : Nat) : 0 ≤ ent (priorMask bot top n w : List K) p := by
  obtain ⟨hl, he⟩ := priorMask_ent (K := K) bot top hw hn
  by_cases hp : p < n + 2 * w
  · rw [he p hp]
    split_ifs <;> norm_num
  · rw [ent_ge (by omega)]

theorem mask_in (hw : 0 < w) (hn : 2 ≤ n) {p : Nat} (h1 : w ≤ p) (h2 : p < n + w) :
    ent (priorMask bot top n w : List K) p = ent (edgeMask bot top n) (p - w) ∧ 0 < ent (priorMask bot top n w : List K) p := by
  obtain ⟨hl, he⟩ := priorMask_ent (K := K) bot top hw hn
  obtain ⟨hl', he'⟩ := edgeMask_ent (K := K) bot top hn
  rw [he p (by omega), he' (p - w) (by omega), if_neg (by rintro ⟨-, h⟩; omega), if_neg (by rintro ⟨-, h⟩; omega)]
  constructor
  · have e1 : (p = w) = (p - w = 0) := by apply propext; omega
    have e2 : (p + 1 = n + w) = (p - w + 1 = n) := by apply propext; omega
    simp only [e1, e2]
  · split_ifs <;> norm_num

variable (hWp : ∀ o < 2 * w + 1, 0 < ent W o)
include hWp

theorem om_nonneg (hw : 0 < w) (hn : 2 ≤ n) (i : Nat) : ∀ o ∈ range (2 * w + 1), 0 ≤ om W bot top n w i o :=
  fun o ho => mul_nonneg (hWp o (mem_range.mp ho)).le (mask_nonneg hw hn _)

theorem om_pos (hw : 0 < w) (hn : 2 ≤ n) {i o : Nat} (ho : o < 2 * w + 1) (h1 : o ≤ i + w) (h2 : i + w < n + o) :
    0 < om W bot top n w i o := mul_pos (hWp o ho) (mask_in hw hn (by omega) (by omega)).2

theorem a0_pos (hW : W.length = 2 * w + 1) (hw : 0 < w) (hn : 2 ≤ n) {i : Nat} (hi : i < n) : 0 < aM W bot top n w 0 i := by
  rw [aM_mom hW]
  refine sum_pos' (fun o ho => ?_) ⟨w, by simp; omega, ?_⟩
  · rw [pow_zero, mul_one]; exact om_nonneg hWp hw hn i o ho
  · rw [pow_zero, mul_one]; exact om_pos hWp hw hn (by omega) (by omega) (by omega)

theorem det1_pos (hw : 0 < w) (hn : 2 ≤ n) {i : Nat} (hi : i < n) :
    mom (range (2 * w + 1)) (om W bot top n w i) (X w) 1 ^ 2 <
      mom (range (2 * w + 1)) (om W bot top n w i) (X w) 0 * mom (range (2 * w + 1)) (om W bot top n w i) (X w) 2 := by
  have key : ∀ k, k ∈ range (2 * w + 1) → 0 < om W bot top n w i k → k ≠ w →
      (∑ o ∈ range (2 * w + 1), om W bot top n w i o * X w o) ^ 2 <
      (∑ o ∈ range (2 * w + 1), om W bot top n w i o) * ∑ o ∈ range (2 * w + 1), om W bot top n w i o * X w o ^ 2 := by
    intro k hk hk0 hkw
    refine cs_pos (om_nonneg hWp hw hn i) (j := w) (k := k) (by simp; omega) hk (om_pos hWp hw hn (by omega) (by omega) (by omega)) hk0 ?_
    unfold X
    intro e
    have : (w : K) = (k : K) := by linarith
    exact hkw (by exact_mod_cast this.symm)
  have := if h : i = 0 then key (w - 1) (by simp; omega) (om_pos hWp hw hn (by omega) (by omega) (by omega)) (by omega)
    else key (w + 1) (by simp; omega) (om_pos hWp hw hn (by omega) (by omega) (by omega)) (by omega)
  unfold mom
  simpa using this

theorem det2_pos (hw : 2 ≤ w) (hn : 3 ≤ n) {i : Nat} (hi : i < n) :
    mom (range (2 * w + 1)) (om W bot top n w i) (X w) 3 ^ 2 <
      mom (range (2 * w + 1)) (om W bot top n w i) (X w) 2 * mom (range (2 * w + 1)) (om W bot top n w i) (X w) 4 := by
  have hx : ∀ o, o ≠ w → (X w o : K) ≠ 0 := by
    intro o ho e
    unfold X at e
    have : (o : K) = (w : K) := by linarith
    exact ho (by exact_mod_cast this)
  have key : ∀ j k, j ∈ range (2 * w + 1) → k ∈ range (2 * w + 1) → 0 < om W bot top n w i j → 0 < om W bot top n w i k → j ≠ w → k ≠ w → j ≠ k →
      (∑ o ∈ range (2 * w + 1), om W bot top n w i o * X w o ^ 2 * X w o) ^ 2 <
      (∑ o ∈ range (2 * w + 1), om W bot top n w i o * X w o ^ 2) * ∑ o ∈ range (2 * w + 1), om W bot top n w i o * X w o ^ 2 * X w o ^ 2 := by
    intro j k hj hk hj0 hk0 hjw hkw hjk
    refine cs_pos (ω := fun o => om W bot top n w i o * X w o ^ 2) (fun o ho => mul_nonneg (om_nonneg hWp (by omega) (by omega) i o ho) (sq_nonneg _))
      hj hk (mul_pos hj0 (by have := hx j hjw; positivity)) (mul_pos hk0 (by have := hx k hkw; positivity)) ?_
    unfold X
    intro e
    have : (j : K) = (k : K) := by linarith
    exact hjk (by exact_mod_cast this)
  have hp : ∀ o, o < 2 * w + 1 → o ≤ i + w → i + w < n + o → 0 < om W bot top n w i o := fun o h1 h2 h3 => om_pos hWp (by omega) (by omega) h1 h2 h3
  have := if h : i = 0 then key (w - 1) (w - 2) (by simp; omega) (by simp; omega) (hp _ (by omega) (by omega) (by omega))
      (hp _ (by omega) (by omega) (by omega)) (by omega) (by omega) (by omega)
    else if h' : i + 1 = n then key (w + 1) (w + 2) (by simp; omega) (by simp; omega) (hp _ (by omega) (by omega) (by omega))
      (hp _ (by omega) (by omega) (by omega)) (by omega) (by omega) (by omega)
    else key (w - 1) (w + 1) (by simp; omega) (by simp; omega) (hp _ (by omega) (by omega) (by omega))
      (hp _ (by omega) (by omega) (by omega)) (by omega) (by omega) (by omega)
  have e3 : mom (range (2 * w + 1)) (om W bot top n w i) (X w) 3 = ∑ o ∈ range (2 * w + 1), om W bot top n w i o * X w o ^ 2 * X w o :=
    sum_congr rfl (fun o _ => by ring)
  have e4 : mom (range (2 * w + 1)) (om W bot top n w i) (X w) 4 = ∑ o ∈ range (2 * w + 1), om W bot top n w i o * X w o ^ 2 * X w o ^ 2 :=
    sum_congr rfl (fun o _ => by ring)
  rw [e3, e4]
  exact this

theorem det_pos (hw : 2 ≤ w) (hn : 3 ≤ n) {i : Nat} (hi : i < n) :
    let a := mom (range (2 * w + 1)) (om W bot top n w i) (X w)
    0 < a 4 * a 2 * a 0 - a 4 * a 1 ^ 2 - a 2 ^ 3 - a 3 ^ 2 * a 0 + 2 * a 1 * a 2 * a 3 :=
  denom_pos (om_nonneg hWp (by omega) (by omega) i) (c := w) (by simp; omega) (om_pos hWp (by omega) (by omega) (by omega) (by omega) (by omega))
    (by unfold X; ring) (det2_pos hWp hw hn hi)

end main

/-- the histogram of a density `f` cut off at hard limits: the bins at the limits have half the width -/
def IsHist (bot top : Bool) (n : Nat) (bins : List K) (f : K → K) : Prop :=
  bins.length = n ∧ ∀ j < n, ent bins j = (if bot ∧ j = 0 then 1 / 2 else if top ∧ j + 1 = n then 1 / 2 else 1) * f (j : K)

theorem window_eq {bot top : Bool} {n w : Nat} {bins : List K} {f : K → K} (hb : IsHist bot top n bins f) (hw : 0 < w) (hn : 2 ≤ n) {i : Nat}
    (hi : i < n) (h1 : bot = true ∨ w ≤ i) (h2 : top = true ∨ i + w < n) {o : Nat} (ho : o < 2 * w + 1) :
    pad w bins (i + (2 * w - o)) = ent (priorMask bot top n w : List K) (i + (2 * w - o)) * f ((i : K) - X w o) := by
  obtain ⟨hl, he⟩ := priorMask_ent (K := K) bot top hw hn
  unfold pad
  by_cases hp : i + (2 * w - o) < w
  · rw [if_pos hp, he _ (by omega)]
    have hbt : bot = true := by rcases h1 with h | h; exact h; omega
    rw [if_pos ⟨hbt, hp⟩, zero_mul]
  · rw [if_neg hp]
    by_cases hp2 : n + w ≤ i + (2 * w - o)
    · have htp : top = true := by rcases h2 with h | h; exact h; omega
      rw [ent_ge (by rw [hb.1]; omega), he _ (by omega), if_neg (by rintro ⟨-, h⟩; exact hp h), if_pos ⟨htp, hp2⟩, zero_mul]
    · obtain ⟨m1, _⟩ := mask_in (K := K) (bot := bot) (top := top) hw hn (p := i + (2 * w - o)) (by omega) (by omega)
      rw [m1, hb.2 _ (by omega), (edgeMask_ent bot top hn).2 _ (by omega)]
      congr 2
      unfold X
      have : i + (2 * w - o) - w + o = i + w := by omega
      have e : ((i + (2 * w - o) - w : Nat) : K) + (o : K) = (i : K) + (w : K) := by exact_mod_cast this
      linarith

theorem bM_eq {bot top : Bool} {n w : Nat} {W bins : List K} {f : K → K} (hW : W.length = 2 * w + 1) (hb : IsHist bot top n bins f) (hw : 0 < w)
    (hn : 2 ≤ n) {i : Nat} (hi : i < n) (h1 : bot = true ∨ w ≤ i) (h2 : top = true ∨ i + w < n) (k : Nat) :
    bM W bins w k i = ∑ o ∈ range (2 * w + 1), om W bot top n w i o * X w o ^ k * f ((i : K) - X w o) := by
  unfold bM
  rw [wsum_xWin hW]
  apply sum_congr rfl
  intro o ho
  rw [window_eq hb hw hn hi h1 h2 (mem_range.mp ho)]
  unfold om X
  ring

/-- **C68**: at hard limits the correction of order 1 replaces the normalised estimate `r0` (order 0) by `r0 exp(min(f / r0, 4) - 1)`, where `f` is the
exact density, whenever that is linear: the boundary has no effect on the estimated value and slope.  At an open end this holds a window away -/
theorem order1_exact {conv : Conv K} {exp : K → K} {n w : Nat} {h : K} {bins : List K} {bot top : Bool} (hc : ConvOk conv)
    (he : ∀ x, 0 < exp x) (hw : 0 < w) (hn : 2 * w + 1 ≤ n) (c d : K) (hb : IsHist bot top n bins (fun t => c + d * t)) :
    ∃ P r0 r, run conv bins (win exp w h) .same = .ok P ∧ boundaryCorrect conv exp 0 bot top n w (win exp w h) bins P = .ok r0 ∧
      boundaryCorrect conv exp 1 bot top n w (win exp w h) bins P = .ok r ∧ ∀ i < n, (bot = true ∨ w ≤ i) → (top = true ∨ i + w < n) →
        ent r i = ent r0 i * exp (min ((c + d * i) / ent r0 i) 4 - 1) := by
  have hW := win_length exp w h
  have hWp : ∀ o < 2 * w + 1, 0 < ent (win exp w h) o := fun o ho => win_pos he w h ho
  have hP := run_b (conv := conv) hc hW hb.1 hn 0
  rw [xWin_zero hW] at hP
  refine ⟨_, _, _, hP, boundary_eval hc hW hw hn hb.1 _ (by omega), boundary_eval hc hW hw hn hb.1 _ (by omega), ?_⟩
  intro i hi h1 h2
  simp only [ent_range _ hi]
  unfold fix
  have ha0 := a0_pos (bot := bot) (top := top) hWp hW hw (by omega : 2 ≤ n) hi
  by_cases hz : bM (win exp w h) bins w 0 i = 0
  · simp [hz]
  · have hne : ¬ aM (win exp w h) bot top n w 0 i * bM (win exp w h) bins w 0 i = 0 := mul_ne_zero ha0.ne' hz
    simp only [if_neg hne, if_true, one_ne_zero, if_false]
    unfold soften
    have hb' := fun k => bM_eq hW hb hw (by omega : 2 ≤ n) hi h1 h2 k
    have e0 : bM (win exp w h) bins w 0 i = ∑ o ∈ range (2 * w + 1), om (win exp w h) bot top n w i o * ((c + d * i) - d * X w o) := by
      rw [hb' 0]; exact sum_congr rfl (fun o _ => by ring)
    have e1 : bM (win exp w h) bins w 1 i = ∑ o ∈ range (2 * w + 1), om (win exp w h) bot top n w i o * X w o * ((c + d * i) - d * X w o) := by
      rw [hb' 1]; exact sum_congr rfl (fun o _ => by ring)
    have key : corrected1 (bM (win exp w h) bins w 0 i) (bM (win exp w h) bins w 1 i) (aM (win exp w h) bot top n w 0 i)
        (aM (win exp w h) bot top n w 1 i) (aM (win exp w h) bot top n w 2 i) = c + d * i := by
      rw [aM_mom hW, aM_mom hW, aM_mom hW, e0, e1]
      exact corrected1_exact (c + d * i) d (det1_pos hWp hw (by omega) hi)
    rw [key]

/-- **C68**: the correction of order 2 does the same for quadratic densities -/
theorem order2_exact {conv : Conv K} {exp : K → K} {n w : Nat} {h : K} {bins : List K} {bot top : Bool} (hc : ConvOk conv)
    (he : ∀ x, 0 < exp x) (hw : 2 ≤ w) (hn : 2 * w + 1 ≤ n) (c d e : K) (hb : IsHist bot top n bins (fun t => c + d * t + e * t ^ 2)) :
    ∃ P r0 r, run conv bins (win exp w h) .same = .ok P ∧ boundaryCorrect conv exp 0 bot top n w (win exp w h) bins P = .ok r0 ∧
      boundaryCorrect conv exp 2 bot top n w (win exp w h) bins P = .ok r ∧ ∀ i < n, (bot = true ∨ w ≤ i) → (top = true ∨ i + w < n) →
        ent r i = ent r0 i * exp (min ((c + d * i + e * (i : K) ^ 2) / ent r0 i) 4 - 1) := by
  have hW := win_length exp w h
  have hWp : ∀ o < 2 * w + 1, 0 < ent (win exp w h) o := fun o ho => win_pos he w h ho
  have hP := run_b (conv := conv) hc hW hb.1 hn 0
  rw [xWin_zero hW] at hP
  refine ⟨_, _, _, hP, boundary_eval hc hW (by omega) hn hb.1 _ (by omega), boundary_eval hc hW (by omega) hn hb.1 _ (by omega), ?_⟩
  intro i hi h1 h2
  simp only [ent_range _ hi]
  unfold fix
  have ha0 := a0_pos (bot := bot) (top := top) hWp hW (by omega) (by omega : 2 ≤ n) hi
  by_cases hz : bM (win exp w h) bins w 0 i = 0
  · simp [hz]
  · have hne : ¬ aM (win exp w h) bot top n w 0 i * bM (win exp w h) bins w 0 i = 0 := mul_ne_zero ha0.ne' hz
    simp only [if_neg hne, if_true, if_neg (by omega : ¬ (2 : Int) = 0), if_neg (by omega : ¬ (2 : Int) = 1)]
    unfold soften
    have hb' := fun k => bM_eq hW hb (by omega) (by omega : 2 ≤ n) hi h1 h2 k
    set q := c + d * i + e * (i : K) ^ 2 with hq
    set d' := d + 2 * e * i with hd'
    have e0 : bM (win exp w h) bins w 0 i = ∑ o ∈ range (2 * w + 1), om (win exp w h) bot top n w i o * (q - d' * X w o + e * X w o ^ 2) := by
      rw [hb' 0]; exact sum_congr rfl (fun o _ => by rw [hq, hd']; ring)
    have e1 : bM (win exp w h) bins w 1 i = ∑ o ∈ range (2 * w + 1), om (win exp w h) bot top n w i o * X w o * (q - d' * X w o + e * X w o ^ 2) := by
      rw [hb' 1]; exact sum_congr rfl (fun o _ => by rw [hq, hd']; ring)
    have e2 : bM (win exp w h) bins w 2 i = ∑ o ∈ range (2 * w + 1), om (win exp w h) bot top n w i o * X w o ^ 2 * (q - d' * X w o + e * X w o ^ 2) := by
      rw [hb' 2]; exact sum_congr rfl (fun o _ => by rw [hq, hd']; ring)
    have key : corrected2 (bM (win exp w h) bins w 0 i) (bM (win exp w h) bins w 1 i) (bM (win exp w h) bins w 2 i)
        (aM (win exp w h) bot top n w 0 i) (aM (win exp w h) bot top n w 1 i) (aM (win exp w h) bot top n w 2 i)
        (aM (win exp w h) bot top n w 3 i) (aM (win exp w h) bot top n w 4 i) = q := by
      simp only [aM_mom hW]
      rw [e0, e1, e2]
      exact corrected2_exact q d' e (det_pos hWp hw (by omega) hi)
    rw [key]

/-- **C68** An order of the boundary correction above two is refused, never treated as no correction. -/
theorem boundary_order_refused {conv : Conv K} {exp : K → K} {order : Int} {bot top : Bool} {n w : Nat} {W bins P : List K} (ho : 2 < order) (r : List K) :
    boundaryCorrect conv exp order bot top n w W bins P ≠ .ok r := by
  intro h
  have h0 : ¬ order = 0 := by omega
  have h2 : ¬ order ≤ 2 := by omega
  simp only [boundaryCorrect, h0, h2, if_false] at h
  cases hr : run conv (priorMask bot top n w) W .valid with
  | error e => rw [hr] at h; cases h
  | ok a => rw [hr] at h; cases h

example : boundaryCorrect (npConvolve : Conv ℚ) (fun x => 1 + x) 3 true true 3 1 [1, 2, 1] [1, 1, 1] [1, 1, 1] = .error .settingError := by
  rfl

end Verif.Kde1D
