import Verif.Model.Convolve
import Mathlib.Tactic.Linarith
import Mathlib.Tactic.Ring
import Mathlib.Tactic.NormNum
import Mathlib.Algebra.BigOperators.Ring.List
import Mathlib.Algebra.Order.Ring.Rat
import Mathlib.Data.Rat.Floor

/-!
# C40, C41: FFT sizes and convolutions
-/

set_option linter.unusedSectionVars false

namespace Verif.Convolve

open Verif.Py (NErr Dict)
open Verif.Py.Np (searchsorted slice)

/-! ## C40: the size of the transform -/

theorem fast_sorted : fastFFT.Pairwise (· < ·) := by decide +kernel
theorem fast_even : ∀ f ∈ fastFFT, f % 2 = 0 ∧ 0 < f := by decide +kernel
theorem fast_last : fastFFT.getLast? = some 2013265920 := by decide +kernel

theorem ss_spec (x : Nat) : ∀ a : List Nat, (∀ j < searchsorted a x, ∃ v, a[j]? = some v ∧ v < x) ∧
    (∀ v, a[searchsorted a x]? = some v → x ≤ v)
  | [] => ⟨fun j hj => by simp [searchsorted] at hj, fun v h => by simp at h⟩
  | b :: a => by
    unfold searchsorted
    by_cases hb : b < x
    · rw [List.takeWhile_cons_of_pos (by simpa using hb)]
      have hs := ss_spec x a
      unfold searchsorted at hs
      obtain ⟨h1, h2⟩ := hs
      constructor
      · intro j hj
        cases j with
        | zero => exact ⟨b, rfl, hb⟩
        | succ j => exact h1 j (by simpa using hj)
      · intro v hv
        exact h2 v (by simpa using hv)
    · rw [List.takeWhile_cons_of_neg (by simpa using hb)]
      exact ⟨fun j hj => absurd hj (by simp), fun v hv => by simp at hv; omega⟩

/-- **C40**: the number chosen is a number of the table, at least the request, and no smaller number of the table is -/
theorem nearest_spec {x r : Nat} (h : nearestFFTnumber x = .ok r) : r ∈ fastFFT ∧ x ≤ r ∧ ∀ f ∈ fastFFT, x ≤ f → r ≤ f := by
  unfold nearestFFTnumber at h
  obtain ⟨h1, h2⟩ := ss_spec x fastFFT
  split at h
  · rename_i f hf
    injection h with h
    have hx := h2 f hf
    rw [max_eq_right hx] at h
    subst h
    refine ⟨List.mem_of_getElem? hf, hx, fun g hg hxg => ?_⟩
    obtain ⟨k, hk, rfl⟩ := List.mem_iff_getElem.mp hg
    obtain ⟨hl, rfl⟩ := List.getElem?_eq_some_iff.mp hf
    rcases Nat.lt_trichotomy k (searchsorted fastFFT x) with hlt | heq | hgt
    · obtain ⟨v, hv, hvx⟩ := h1 k hlt
      rw [List.getElem?_eq_getElem hk] at hv
      injection hv with hv
      omega
    · subst heq; exact le_refl _
    · exact (List.pairwise_iff_getElem.mp fast_sorted _ _ hl hk hgt).le
  · cases h

/-- **C40**: exactly the requests above the largest number of the table are refused -/
theorem nearest_refused (x : Nat) : nearestFFTnumber x = .error .indexError ↔ 2013265920 < x := by
  unfold nearestFFTnumber
  obtain ⟨h1, h2⟩ := ss_spec x fastFFT
  have hlen : fastFFT.length = 180 := by decide +kernel
  constructor
  · intro h
    split at h
    · cases h
    · rename_i hf
      obtain ⟨v, hv, hvx⟩ := h1 179 (by have := List.getElem?_eq_none_iff.mp hf; omega)
      have : fastFFT[179]? = some 2013265920 := by decide +kernel
      rw [this] at hv
      injection hv with hv
      omega
  · intro h
    have hall : ∀ f ∈ fastFFT, f ≤ 2013265920 := by decide +kernel
    split
    · rename_i f hf
      have := h2 f hf
      have := hall f (List.mem_of_getElem? hf)
      omega
    · rfl

theorem nearest_ok {x : Nat} (h : x ≤ 2013265920) : ∃ r, nearestFFTnumber x = .ok r := by
  cases hn : nearestFFTnumber x with
  | ok r => exact ⟨r, rfl⟩
  | error e =>
    exfalso
    have : e = .indexError := by
      unfold nearestFFTnumber at hn
      split at hn
      · cases hn
      · injection hn with hn; exact hn.symm
    subst this
    have := (nearest_refused x).mp hn
    omega

/-- applying it again changes nothing -/
theorem nearest_idem {x r : Nat} (h : nearestFFTnumber x = .ok r) : nearestFFTnumber r = .ok r := by
  obtain ⟨h1, _, _⟩ := nearest_spec h
  obtain ⟨r', h'⟩ := nearest_ok (x := r) (by
    have hall : ∀ f ∈ fastFFT, f ≤ 2013265920 := by decide +kernel
    exact hall r h1)
  obtain ⟨_, h2, h3⟩ := nearest_spec h'
  rw [h', le_antisymm (h3 r h1 (le_refl r)) h2]

/-- repeated division -/
def divOut (p : Nat) : Nat → Nat → Nat
  | 0, n => n
  | k + 1, n => if n % p = 0 then divOut p k (n / p) else n

theorem divOut_spec (p : Nat) : ∀ k n, ∃ e, n = p ^ e * divOut p k n
  | 0, n => ⟨0, by simp [divOut]⟩
  | k + 1, n => by
    unfold divOut
    split
    · rename_i h
      obtain ⟨e, he⟩ := divOut_spec p k (n / p)
      refine ⟨e + 1, ?_⟩
      have := Nat.div_add_mod n p
      rw [h, Nat.add_zero] at this
      rw [pow_succ, mul_comm (p ^ e) p, mul_assoc, ← he, this]
    · exact ⟨0, by simp⟩

/-- **C40**: all numbers but one are `2^a 3^b 5^c` -/
theorem smooth_partial {x r : Nat} (h : nearestFFTnumber x = .ok r) (hr : r ≠ 234881024) : ∃ a b c, r = 2 ^ a * 3 ^ b * 5 ^ c := by
  have hall : ∀ f ∈ fastFFT, f ≠ 234881024 → divOut 5 3 (divOut 3 10 (divOut 2 32 f)) = 1 := by decide +kernel
  have := hall r (nearest_spec h).1 hr
  obtain ⟨a, ha⟩ := divOut_spec 2 32 r
  obtain ⟨b, hb⟩ := divOut_spec 3 10 (divOut 2 32 r)
  obtain ⟨c, hc⟩ := divOut_spec 5 3 (divOut 3 10 (divOut 2 32 r))
  rw [this] at hc
  exact ⟨a, b, c, by rw [ha, hb, hc]; ring⟩

/-- **C40 fails**: requests between 226492417 and 234881024 get a multiple of seven -/
theorem smooth_fails (x : Nat) (h1 : 226492416 < x) (h2 : x ≤ 234881024) : nearestFFTnumber x = .ok 234881024 ∧ 234881024 = 7 * 2 ^ 25 := by
  refine ⟨?_, by norm_num⟩
  obtain ⟨r, h⟩ := nearest_ok (x := x) (by omega)
  obtain ⟨hr, hx, hl⟩ := nearest_spec h
  have hle := hl 234881024 (by decide +kernel) h2
  have hall : ∀ f ∈ fastFFT, 226492416 < f → 234881024 ≤ f := by decide +kernel
  have := hall r hr (by omega)
  rw [h, le_antisymm hle this]

example : nearestFFTnumber 1025 = .ok 1152 ∧ nearestFFTnumber 2000 = .ok 2048 ∧ nearestFFTnumber 0 = .ok 2 ∧
    nearestFFTnumber 2013265921 = .error .indexError := by decide +kernel

/-! ## C41: the linear convolution -/

variable {K : Type} [Field K] [LinearOrder K]

/-- circular convolution of length `n` of the arrays padded (or cut) to length `n` -/
def circ (n : Nat) (x y : List K) (k : Nat) : K := ((List.range n).map (fun i => ent x i * ent y ((k + n - i) % n))).sum

/-- what is assumed of numpy's transform: the convolution theorem for even lengths -/
def FFT.Ok (A : FFT K) : Prop := ∀ x y n, 0 < n → n % 2 = 0 →
  A.irfft (A.mul (A.rfft x n) (A.rfft y n)) = (List.range n).map (circ n x y)

theorem ent_ge {l : List K} {i : Nat} (h : l.length ≤ i) : ent l i = 0 := by
  unfold ent
  rw [List.getD_eq_getElem?_getD, List.getElem?_eq_none h]
  rfl

theorem sum_zero {l : List K} (h : ∀ v ∈ l, v = 0) : l.sum = 0 := by
  induction l with
  | nil => rfl
  | cons a l ih => rw [List.sum_cons, h a (by simp), ih (fun v hv => h v (by simp [hv])), add_zero]

/-- no wrap-around when the length is at least the sum of the supports minus one -/
theorem wrap {M : Type} [AddCommMonoid M] (g : Nat → Nat → M) {nx ny n k : Nat} (hx : ∀ i j, nx ≤ i → g i j = 0) (hy : ∀ i j, ny ≤ j → g i j = 0)
    (hn : nx + ny - 1 ≤ n) (hk : k < n) :
    ((List.range n).map (fun i => g i ((k + n - i) % n))).sum = ((List.range (k + 1)).map (fun i => g i (k - i))).sum := by
  have hsplit : n = (k + 1) + (n - (k + 1)) := by omega
  have hr : List.range n = List.range (k + 1) ++ (List.range (n - (k + 1))).map (k + 1 + ·) := by
    conv_lhs => rw [hsplit, List.range_add]
  rw [hr, List.map_append, List.sum_append]
  have h2 : (((List.range (n - (k + 1))).map (k + 1 + ·)).map (fun i => g i ((k + n - i) % n))).sum = 0 := by
    refine List.sum_eq_zero ?_
    intro v hv
    rw [List.map_map] at hv
    obtain ⟨i, hi, rfl⟩ := List.mem_map.mp hv
    rw [List.mem_range] at hi
    show g (k + 1 + i) ((k + n - (k + 1 + i)) % n) = 0
    rcases Nat.lt_or_ge (k + 1 + i) nx with hlt | hge
    · apply hy
      rw [Nat.mod_eq_of_lt (by omega)]
      omega
    · exact hx _ _ hge
  rw [h2, add_zero]
  refine congrArg List.sum (List.map_congr_left ?_)
  intro i hi
  rw [List.mem_range] at hi
  congr 1
  rw [show k + n - i = (k - i) + n by omega, Nat.add_mod_right, Nat.mod_eq_of_lt (by omega)]

theorem circ_eq {n k : Nat} {x y : List K} (hn : x.length + y.length - 1 ≤ n) (hk : k < n) : circ n x y k = lin x y k := by
  unfold circ lin
  exact wrap (fun i j => ent x i * ent y j) (nx := x.length) (ny := y.length) (fun i j h => by rw [ent_ge h, zero_mul])
    (fun i j h => by rw [ent_ge h, mul_zero]) hn hk

theorem slice_range {α : Type} (f : Nat → α) {N a m : Nat} (h : a + m ≤ N) :
    slice ((List.range N).map f) a (some (a + m)) = (List.range m).map (fun k => f (a + k)) := by
  unfold slice
  apply List.ext_getElem?
  intro i
  simp only [List.getElem?_drop, List.getElem?_take, List.getElem?_map]
  by_cases hi : i < m
  · rw [if_pos (by omega), List.getElem?_range (by omega), List.getElem?_range hi]
    rfl
  · rw [if_neg (by omega), List.getElem?_eq_none (by simpa using hi)]
    rfl

/-- the documented result of a mode: position of the first entry in the full linear convolution and number of entries -/
def spec (mode : Mode) (x y : List K) : List K :=
  match mode with
  | .full => (List.range (x.length + y.length - 1)).map (lin x y)
  | .same => (List.range x.length).map (fun k => lin x y ((y.length - 1) / 2 + k))
  | .valid => (List.range (x.length + 1 - y.length)).map (fun k => lin x y (y.length - 1 + k))

theorem part_spec (mode : Mode) {x y : List K} (hx : x ≠ []) (hy : y ≠ []) :
    part mode x.length y.length ((List.range (x.length + y.length - 1)).map (lin x y)) = spec mode x y := by
  have h1 := List.length_pos_iff.mpr hx
  have h2 := List.length_pos_iff.mpr hy
  cases mode with
  | full => rfl
  | same => exact slice_range _ (by omega)
  | valid =>
    unfold part spec
    rcases Nat.lt_or_ge x.length y.length with h | h
    · rw [show x.length + 1 - y.length = 0 by omega]
      unfold slice
      dsimp only
      rw [List.drop_eq_nil_of_le (by simp; omega)]
      rfl
    · have := slice_range (lin x y) (N := x.length + y.length - 1) (a := y.length - 1) (m := x.length + 1 - y.length) (by omega)
      rw [show y.length - 1 + (x.length + 1 - y.length) = x.length by omega] at this
      exact this

/-- the cache holds transforms of the arrays that have the given ids now -/
def CacheOk (A : FFT K) (heap : Nat → List K) (c : Option (Cache A)) : Prop :=
  ∀ d, c = some d → ∀ f n id v, d.get? (f, n, id) = some v → v = A.rfft (heap id) f

theorem getFFT_ok {A : FFT K} {heap : Nat → List K} {use : Bool} {c : Option (Cache A)} {fsize : Nat} {o : Obj K}
    (hc : CacheOk A heap c) (ho : heap o.id = o.val) :
    (getFFT A use c fsize o).1 = A.rfft o.val fsize ∧ CacheOk A heap (getFFT A use c fsize o).2 := by
  unfold getFFT
  cases c with
  | none => exact ⟨rfl, hc⟩
  | some d =>
    cases use with
    | false => exact ⟨rfl, hc⟩
    | true =>
      dsimp only
      rw [if_pos rfl]
      cases hg : d.get? (fsize, o.val.length, o.id) with
      | some v =>
        dsimp only
        exact ⟨by rw [hc d rfl _ _ _ v hg, ho], hc⟩
      | none =>
        dsimp only
        refine ⟨rfl, ?_⟩
        intro d' hd' f n id v hv
        injection hd' with hd'
        subst hd'
        rw [Verif.Py.Dict.get?_set] at hv
        split at hv
        · rename_i heq
          injection hv with hv
          injection heq with e1 e2
          injection e2 with e2 e3
          subst e1; subst e3
          rw [← hv, ho]
        · exact hc d rfl f n id v hv

/-- **C41**: `convolveFFT` gives the entries of the linear convolution that the mode documents, whatever `largest_size`, and whatever is in the
cache as long as the cached transforms belong to the arrays that have these ids; the cache keeps that property -/
theorem convolveFFT_spec {A : FFT K} (hA : A.Ok) {heap : Nat → List K} {x y : Obj K} {mode : Mode} {largest : Nat} {c : Option (Cache A)}
    {use1 use2 : Bool} {r : List K × Option (Cache A)} (hx : x.val ≠ []) (hy : y.val ≠ []) (hc : CacheOk A heap c)
    (hhx : heap x.id = x.val) (hhy : heap y.id = y.val) (h : convolveFFT A x y mode largest c use1 use2 = .ok r) :
    r.1 = spec mode x.val y.val ∧ CacheOk A heap r.2 := by
  unfold convolveFFT at h
  dsimp only at h
  cases hf : nearestFFTnumber (max largest (x.val.length + y.val.length - 1)) with
  | error e => rw [hf] at h; cases h
  | ok fsize =>
    rw [hf] at h
    injection h with h
    obtain ⟨hmem, hge, _⟩ := nearest_spec hf
    obtain ⟨hev, hpos⟩ := fast_even _ hmem
    have hsz : x.val.length + y.val.length - 1 ≤ fsize := le_trans (le_max_right _ _) hge
    obtain ⟨e1, c1⟩ := getFFT_ok (use := use2) (fsize := fsize) hc hhy
    obtain ⟨e2, c2⟩ := getFFT_ok (use := use1) (fsize := fsize) c1 hhx
    rw [← h]
    refine ⟨?_, c2⟩
    show part mode _ _ (slice (A.irfft (A.mul (getFFT A use1 _ fsize x).1 (getFFT A use2 c fsize y).1)) 0 _) = _
    rw [e1, e2, hA _ _ _ hpos hev]
    have hs := slice_range (circ fsize x.val y.val) (N := fsize) (a := 0) (m := x.val.length + y.val.length - 1) (by omega)
    rw [Nat.zero_add] at hs
    rw [hs, ← part_spec mode hx hy]
    congr 1
    refine List.map_congr_left ?_
    intro k hk
    rw [List.mem_range] at hk
    rw [Nat.zero_add, circ_eq hsz (by omega)]

/-- it is only refused when the size exceeds the table -/
theorem convolveFFT_ok {A : FFT K} {x y : Obj K} {mode : Mode} {largest : Nat} {c : Option (Cache A)} {use1 use2 : Bool}
    (h : max largest (x.val.length + y.val.length - 1) ≤ 2013265920) : ∃ r, convolveFFT A x y mode largest c use1 use2 = .ok r := by
  obtain ⟨f, hf⟩ := nearest_ok h
  unfold convolveFFT
  dsimp only
  rw [hf]
  exact ⟨_, rfl⟩

/-! ### the value -/

/-- entry `k` of the convolution only uses products of entries whose positions add up to `k` -/
theorem lin_comm (x y : List K) (k : Nat) : lin x y k = lin y x k := by
  unfold lin
  rw [← List.sum_reverse]
  refine congrArg List.sum ?_
  apply List.ext_getElem?
  intro i
  by_cases hi : i < k + 1
  · rw [List.getElem?_reverse (by simpa using hi)]
    simp only [List.length_map, List.length_range, List.getElem?_map]
    rw [List.getElem?_range (by omega), List.getElem?_range hi]
    simp only [Option.map_some]
    rw [show k + 1 - 1 - i = k - i by omega, show k - (k - i) = i by omega, mul_comm]
  · rw [List.getElem?_eq_none (by simpa using hi), List.getElem?_eq_none (by simpa using hi)]

theorem npConvolve_spec {x y : List K} {mode : Mode} (hy : y ≠ []) (hxy : y.length ≤ x.length) : npConvolve x y mode = .ok (spec mode x y) := by
  have hx : x ≠ [] := by
    have := List.length_pos_iff.mpr hy
    exact List.length_pos_iff.mp (by omega)
  unfold npConvolve
  have hn : ¬ y.length > x.length := by omega
  simp only [if_neg hn]
  rw [if_neg hy, ← part_spec mode hx hy]
  cases mode <;> rfl

theorem npConvolve_swap {x y : List K} {mode : Mode} (hx : x ≠ []) (hxy : x.length < y.length) : npConvolve x y mode = .ok (spec mode y x) := by
  have hy : y ≠ [] := List.length_pos_iff.mp (by omega)
  unfold npConvolve
  have hn : y.length > x.length := hxy
  simp only [if_pos hn]
  rw [if_neg hx, ← part_spec mode hy hx]
  cases mode <;> rfl

/-- **C41**: for a kernel not longer than the data, `convolve1D` gives the documented part of the linear convolution; the switch to Fourier
transforms cannot be seen -/
theorem convolve1D_spec {A : FFT K} (hA : A.Ok) {heap : Nat → List K} {x y : Obj K} {mode : Mode} {largest : Nat} {c : Option (Cache A)}
    {use1 use2 : Bool} {r : List K × Option (Cache A)} (hy : y.val ≠ []) (hxy : y.val.length ≤ x.val.length) (hc : CacheOk A heap c)
    (hhx : heap x.id = x.val) (hhy : heap y.id = y.val) (h : convolve1D A x y mode largest c use1 use2 = .ok r) :
    r.1 = spec mode x.val y.val ∧ CacheOk A heap r.2 := by
  have hx : x.val ≠ [] := by
    have := List.length_pos_iff.mpr hy
    exact List.length_pos_iff.mp (by omega)
  unfold convolve1D at h
  split at h
  · exact convolveFFT_spec hA hx hy hc hhx hhy h
  · rw [npConvolve_spec hy hxy] at h
    injection h with h
    rw [← h]
    exact ⟨rfl, hc⟩

theorem spec_length (mode : Mode) (x y : List K) : (spec mode x y).length = match mode with
    | .full => x.length + y.length - 1
    | .same => x.length
    | .valid => x.length + 1 - y.length := by
  cases mode <;> simp [spec]

/-- **C41 fails** for a kernel longer than the data: up to 1000 data points the result of mode `same` has the length of the kernel, above it has
the length of the data -/
theorem convolve1D_length_fails {A : FFT K} (hA : A.Ok) {x y : Obj K} {largest : Nat} {use1 use2 : Bool} {r : List K × Option (Cache A)}
    (hx : x.val ≠ []) (hxy : x.val.length < y.val.length) (h : convolve1D A x y .same largest none use1 use2 = .ok r)
    (hid : x.id ≠ y.id) : r.1.length = if x.val.length ≤ 1000 then y.val.length else x.val.length := by
  have hy : y.val ≠ [] := List.length_pos_iff.mp (by omega)
  unfold convolve1D at h
  rw [min_eq_left hxy.le] at h
  by_cases hl : x.val.length ≤ 1000
  · rw [if_neg (by omega), npConvolve_swap hx hxy] at h
    injection h with h
    rw [← h, if_pos hl]
    exact spec_length .same y.val x.val
  · rw [if_pos (by omega)] at h
    rw [if_neg hl]
    have := convolveFFT_spec hA (heap := fun i => if i = x.id then x.val else y.val) hx hy (by intro d hd; cases hd) (by simp)
      (by simp [Ne.symm hid]) h
    rw [this.1]
    exact spec_length .same x.val y.val

/-- **C41**: the full convolution keeps the product of the totals -/
theorem full_mass (x y : List K) (hx : x ≠ []) : (spec .full x y).sum = x.sum * y.sum := by
  have key : ∀ (x y : List K) (N : Nat), x.length + y.length - 1 ≤ N → x ≠ [] → ((List.range N).map (lin x y)).sum = x.sum * y.sum := by
    intro x
    induction x with
    | nil => intro y N h1 h2; exact absurd rfl h2
    | cons a x ih =>
      intro y N hN _
      have hstep : ∀ k, lin (a :: x) y k = a * ent y k + (match k with | 0 => 0 | k + 1 => lin x y k) := by
        intro k
        unfold lin
        rw [List.range_succ_eq_map, List.map_cons, List.sum_cons, List.map_map]
        congr 1
        cases k with
        | zero => rfl
        | succ k =>
          refine congrArg List.sum (List.map_congr_left ?_)
          intro i hi
          show ent (a :: x) (i + 1) * ent y (k + 1 - (i + 1)) = ent x i * ent y (k - i)
          rw [show k + 1 - (i + 1) = k - i by omega]
          rfl
      have hent : ∀ (y : List K) (N : Nat), y.length ≤ N → ((List.range N).map (ent y)).sum = y.sum := by
        intro y
        induction y with
        | nil => intro N _; exact sum_zero (by intro v hv; obtain ⟨k, _, rfl⟩ := List.mem_map.mp hv; rfl)
        | cons b y ihy =>
          intro N hN
          cases N with
          | zero => simp at hN
          | succ N =>
            rw [List.range_succ_eq_map, List.map_cons, List.sum_cons, List.map_map, List.sum_cons]
            rw [← ihy N (by simpa using hN)]
            rfl
      have hsum : ((List.range N).map (lin (a :: x) y)).sum = a * ((List.range N).map (ent y)).sum +
          ((List.range N).map (fun k => match k with | 0 => 0 | k + 1 => lin x y k)).sum := by
        rw [← List.sum_map_mul_left, ← List.sum_map_add]
        exact congrArg List.sum (List.map_congr_left (fun k _ => hstep k))
      rw [hsum, hent y N (by simp at hN; omega), List.sum_cons, add_mul]
      congr 1
      cases N with
      | zero =>
        have hx0 : x = [] := List.length_eq_zero_iff.mp (by rw [List.length_cons] at hN; omega)
        subst hx0
        simp
      | succ N =>
        rw [List.range_succ_eq_map, List.map_cons, List.sum_cons, List.map_map, zero_add]
        by_cases hx0 : x = []
        · subst hx0
          rw [List.sum_nil, zero_mul]
          refine sum_zero ?_
          intro v hv
          obtain ⟨k, _, rfl⟩ := List.mem_map.mp hv
          show lin [] y k = 0
          unfold lin
          refine sum_zero ?_
          intro v hv
          obtain ⟨i, _, rfl⟩ := List.mem_map.mp hv
          rw [ent_ge (by simp), zero_mul]
        · have := ih y N (by simp at hN; have := List.length_pos_iff.mpr hx0; omega) hx0
          exact this
  exact key x y _ (le_refl _) hx

example : (spec .full [1, 2, 3] [4, (5 : ℚ)]).sum = 6 * 9 := by decide +kernel

/-! ### a transform with the assumed property, for the examples -/

/-- keeps the padded arrays and multiplies by circular convolution -/
def circFFT : FFT K where
  F := Nat × List K
  rfft x n := (n, x)
  mul a b := (a.1, (List.range a.1).map (circ a.1 a.2 b.2))
  irfft a := a.2

theorem circFFT_ok : (circFFT : FFT K).Ok := fun _ _ _ _ _ => rfl

example : (convolveFFT (circFFT : FFT ℚ) ⟨0, [1, 2, 3, 4]⟩ ⟨1, [1, 1, 1]⟩ .same 0 none true true).map (·.1) = .ok [3, 6, 9, 7] ∧
    (convolveFFT (circFFT : FFT ℚ) ⟨0, [1, 2, 3, 4]⟩ ⟨1, [1, 1, 1]⟩ .full 0 none true true).map (·.1) = .ok [1, 3, 6, 9, 7, 4] ∧
    (convolveFFT (circFFT : FFT ℚ) ⟨0, [1, 2, 3, 4]⟩ ⟨1, [1, 1, 1]⟩ .valid 0 none true true).map (·.1) = .ok [6, 9] ∧
    npConvolve [1, 2, 3, 4] [1, 1, 1] .same = .ok ([3, 6, 9, 7] : List ℚ) ∧
    npConvolve [1, 2] [1, 1, 1] .same = .ok ([1, 3, 3] : List ℚ) ∧
    (convolveFFT (circFFT : FFT ℚ) ⟨0, [1, 2]⟩ ⟨1, [1, 1, 1]⟩ .same 0 none true true).map (·.1) = .ok [3, 3] := by decide +kernel

/-- **C41 fails** when the id of a freed array is used again: the second call uses the transform of the first kernel -/
theorem cache_id_fails :
    (do let r ← convolveFFT (circFFT : FFT ℚ) ⟨0, [1, 2, 3, 4]⟩ ⟨1, [1, 1, 1]⟩ .valid 0 (some []) true true
        let r2 ← convolveFFT circFFT ⟨0, [1, 2, 3, 4]⟩ ⟨1, [2, 0, 0]⟩ .valid 0 r.2 true true
        pure (r.1, r2.1)) = .ok ([6, 9], [6, 9]) ∧
    spec .valid [1, 2, 3, 4] [2, 0, 0] = ([6, 8] : List ℚ) := by decide +kernel

/-! ## C41 in two dimensions -/

/-- circular convolution of two-dimensional arrays -/
def circ2 (m n : Nat) (x y : Arr K) (k l : Nat) : K :=
  ((List.range m).map (fun i => ((List.range n).map (fun j => x.ent i j * y.ent ((k + m - i) % m) ((l + n - j) % n))).sum)).sum

/-- linear convolution of two-dimensional arrays -/
def lin2 (x y : Arr K) (k l : Nat) : K :=
  ((List.range (k + 1)).map (fun i => ((List.range (l + 1)).map (fun j => x.ent i j * y.ent (k - i) (l - j))).sum)).sum

/-- what is assumed of the two-dimensional transform -/
def FFT2.Ok (A : FFT2 K) : Prop := ∀ x y m n, 0 < m → 0 < n → n % 2 = 0 →
  ∃ v, A.irfftn (A.mul (A.rfftn x (m, n)) (A.rfftn y (m, n))) (m, n) = ⟨m, n, v⟩ ∧ ∀ k < m, ∀ l < n, v k l = circ2 m n x y k l

theorem Arr.ent_h {a : Arr K} {i j : Nat} (h : a.h ≤ i) : a.ent i j = 0 := if_neg (by omega)
theorem Arr.ent_w {a : Arr K} {i j : Nat} (h : a.w ≤ j) : a.ent i j = 0 := if_neg (by omega)

theorem circ2_eq {m n k l : Nat} {x y : Arr K} (hm : x.h + y.h - 1 ≤ m) (hn : x.w + y.w - 1 ≤ n) (hk : k < m) (hl : l < n) :
    circ2 m n x y k l = lin2 x y k l := by
  unfold circ2 lin2
  rw [wrap (fun i i' => ((List.range n).map (fun j => x.ent i j * y.ent i' ((l + n - j) % n))).sum) (nx := x.h) (ny := y.h) _ _ hm hk]
  · refine congrArg List.sum (List.map_congr_left ?_)
    intro i _
    exact wrap (fun j j' => x.ent i j * y.ent (k - i) j') (nx := x.w) (ny := y.w) (fun j j' h => by rw [Arr.ent_w h, zero_mul])
      (fun j j' h => by rw [Arr.ent_w h, mul_zero]) hn hl
  · intro i i' h
    refine sum_zero ?_
    intro v hv
    obtain ⟨j, _, rfl⟩ := List.mem_map.mp hv
    rw [Arr.ent_h h, zero_mul]
  · intro i i' h
    refine sum_zero ?_
    intro v hv
    obtain ⟨j, _, rfl⟩ := List.mem_map.mp hv
    rw [Arr.ent_h h, mul_zero]

def CacheOk2 (A : FFT2 K) (heap : Nat → Arr K) (c : Option (Cache2 A)) : Prop :=
  ∀ d, c = some d → ∀ f n id v, d.get? (f, n, id) = some v → v = A.rfftn (heap id) f

theorem getFFT2_ok {A : FFT2 K} {heap : Nat → Arr K} {use : Bool} {c : Option (Cache2 A)} {fsize : Nat × Nat} {o : Obj2 K}
    (hc : CacheOk2 A heap c) (ho : heap o.id = o.val) :
    (getFFT2 A use c fsize o).1 = A.rfftn o.val fsize ∧ CacheOk2 A heap (getFFT2 A use c fsize o).2 := by
  unfold getFFT2
  cases c with
  | none => exact ⟨rfl, hc⟩
  | some d =>
    cases use with
    | false => exact ⟨rfl, hc⟩
    | true =>
      dsimp only
      rw [if_pos rfl]
      cases hg : d.get? (fsize, (o.val.h, o.val.w), o.id) with
      | some v =>
        dsimp only
        exact ⟨by rw [hc d rfl _ _ _ v hg, ho], hc⟩
      | none =>
        dsimp only
        refine ⟨rfl, ?_⟩
        intro d' hd' f n id v hv
        injection hd' with hd'
        subst hd'
        rw [Verif.Py.Dict.get?_set] at hv
        split at hv
        · rename_i heq
          injection hv with hv
          injection heq with e1 e2
          injection e2 with e2 e3
          subst e1; subst e3
          rw [← hv, ho]
        · exact hc d rfl f n id v hv

/-- shape and offset documented for the modes -/
def shape2 (mode : Mode) (x y : Arr K) : Nat × Nat := match mode with
  | .full => (x.h + y.h - 1, x.w + y.w - 1)
  | .same => (x.h, x.w)
  | .valid => (x.h + 1 - y.h, x.w + 1 - y.w)

def offset2 (mode : Mode) (y : Arr K) : Nat × Nat := match mode with
  | .full => (0, 0)
  | .same => ((y.h - 1) / 2, (y.w - 1) / 2)
  | .valid => (y.h - 1, y.w - 1)

/-- **C41**: `convolve2D` gives the part of the two-dimensional linear convolution that the mode documents -/
theorem convolve2D_spec {A : FFT2 K} (hA : A.Ok) {heap : Nat → Arr K} {x y : Obj2 K} {mode : Mode} {largest : Nat} {c : Option (Cache2 A)}
    {use1 use2 : Bool} {r : Arr K × Option (Cache2 A)} (hxh : 0 < x.val.h) (hxw : 0 < x.val.w) (hyh : 0 < y.val.h) (hyw : 0 < y.val.w)
    (hc : CacheOk2 A heap c) (hhx : heap x.id = x.val) (hhy : heap y.id = y.val)
    (h : convolve2D A x y mode largest c use1 use2 = .ok r) :
    (r.1.h, r.1.w) = shape2 mode x.val y.val ∧ CacheOk2 A heap r.2 ∧
    ∀ k < r.1.h, ∀ l < r.1.w, r.1.v k l = lin2 x.val y.val ((offset2 mode y.val).1 + k) ((offset2 mode y.val).2 + l) := by
  unfold convolve2D at h
  dsimp only at h
  cases hf : nearestFFTnumber (max largest (x.val.h + y.val.h - 1)) with
  | error e => simp only [hf] at h; cases h
  | ok fh =>
    cases hg : nearestFFTnumber (max largest (x.val.w + y.val.w - 1)) with
    | error e => simp only [hf, hg] at h; cases h
    | ok fw =>
      simp only [hf, hg] at h
      injection h with h
      obtain ⟨hmem, hge, _⟩ := nearest_spec hf
      obtain ⟨hmem', hge', _⟩ := nearest_spec hg
      obtain ⟨hev, hpos⟩ := fast_even _ hmem
      obtain ⟨hev', hpos'⟩ := fast_even _ hmem'
      have hsz : x.val.h + y.val.h - 1 ≤ fh := le_trans (le_max_right _ _) hge
      have hsz' : x.val.w + y.val.w - 1 ≤ fw := le_trans (le_max_right _ _) hge'
      obtain ⟨e1, c1⟩ := getFFT2_ok (use := use1) (fsize := (fh, fw)) hc hhx
      obtain ⟨e2, c2⟩ := getFFT2_ok (use := use2) (fsize := (fh, fw)) c1 hhy
      obtain ⟨v, hv, hvv⟩ := hA x.val y.val fh fw hpos hpos' hev'
      rw [e1, e2, hv] at h
      have hval : ∀ k l, k < x.val.h + y.val.h - 1 → l < x.val.w + y.val.w - 1 → v k l = lin2 x.val y.val k l := by
        intro k l hk hl
        rw [hvv k (by omega) l (by omega), circ2_eq hsz hsz' (by omega) (by omega)]
      have a1 : min fh (0 + (x.val.h + y.val.h - 1)) = x.val.h + y.val.h - 1 := by omega
      have a2 : min fw (0 + (x.val.w + y.val.w - 1)) = x.val.w + y.val.w - 1 := by omega
      subst h
      refine ⟨?_, c2, ?_⟩
      · cases mode <;> simp only [shape2, centered, Arr.sub, Prod.mk.injEq] <;> omega
      · intro k hk l hl
        cases mode with
        | full =>
          simp only [Arr.sub] at hk hl
          simp only [Arr.sub, offset2]
          rw [hval _ _ (by omega) (by omega)]
        | same =>
          simp only [Arr.sub, centered, a1, a2] at hk hl
          simp only [Arr.sub, offset2, centered, a1, a2]
          rw [hval _ _ (by omega) (by omega)]
          congr 1 <;> omega
        | valid =>
          simp only [Arr.sub, centered, a1, a2] at hk hl
          simp only [Arr.sub, offset2, centered, a1, a2]
          rw [hval _ _ (by omega) (by omega)]
          congr 1 <;> omega

example : lin2 (⟨2, 3, fun i j => 3 * i + j⟩ : Arr ℚ) ⟨2, 2, fun _ _ => 1⟩ 1 2 = 12 := by decide +kernel

/-- a two-dimensional transform with the assumed property -/
def circFFT2 : FFT2 K where
  F := List (Arr K)
  rfftn x _ := [x]
  mul a b := a ++ b
  irfftn l s := ⟨s.1, s.2, circ2 s.1 s.2 (l.headD ⟨0, 0, fun _ _ => 0⟩) (l.getLastD ⟨0, 0, fun _ _ => 0⟩)⟩

theorem circFFT2_ok : (circFFT2 : FFT2 K).Ok := fun _ _ _ _ _ _ _ => ⟨_, rfl, fun _ _ _ _ => rfl⟩

/-- the entries of an array as rows -/
def Arr.rows (a : Arr K) : List (List K) := (List.range a.h).map (fun i => (List.range a.w).map (a.v i))

example : (convolve2D (circFFT2 : FFT2 ℚ) ⟨0, ⟨2, 3, fun i j => 3 * i + j⟩⟩ ⟨1, ⟨2, 2, fun _ _ => 1⟩⟩ .full 0 none true true).map (·.1.rows) =
      .ok [[0, 1, 3, 2], [3, 8, 12, 7], [3, 7, 9, 5]] ∧
    (convolve2D (circFFT2 : FFT2 ℚ) ⟨0, ⟨2, 3, fun i j => 3 * i + j⟩⟩ ⟨1, ⟨2, 2, fun _ _ => 1⟩⟩ .valid 0 none true true).map (·.1.rows) =
      .ok [[8, 12]] := by decide +kernel

/-! ## C41: correlations of an array with itself -/

/-- the power spectrum that the packed transform of scipy stands for: `[y(0), Re y(1), Im y(1), ..., Re y(n/2)]` for even `n` -/
def powerSpec (p : List K) (m : Nat) : K :=
  if m = 0 then ent p 0 ^ 2 else if 2 * m = p.length then ent p (p.length - 1) ^ 2 else ent p (2 * m - 1) ^ 2 + ent p (2 * m) ^ 2

/-- circular correlation -/
def autoCirc (s : Nat) (x : List K) (k : Nat) : K := ((List.range s).map (fun i => ent x i * ent x ((i + k) % s))).sum

/-- what is assumed of `fftpack.rfft` and `fftpack.idct(type=1)` for even lengths: the power spectrum is transformed to `s` times the circular
correlation -/
def AutoOk (pack : List K → Nat → List K) (idct1 : List K → List K) : Prop := ∀ x s, 0 < s → s % 2 = 0 → (pack x s).length = s ∧
  idct1 ((List.range (s / 2 + 1)).map (powerSpec (pack x s))) = (List.range (s / 2 + 1)).map (fun k => (s : K) * autoCirc s x k)

theorem autoPower_spec {p : List K} (h0 : 0 < p.length) (h2 : p.length % 2 = 0) :
    autoPower p = (List.range (p.length / 2 + 1)).map (powerSpec p) := by
  unfold autoPower stride2
  have hl1 : (p.length - 2 - 1 + 1) / 2 = p.length / 2 - 1 := by omega
  have hl2 : (p.length - 1 - 2 + 1) / 2 = p.length / 2 - 1 := by omega
  rw [hl2]
  by_cases h4 : p.length = 2
  · rw [h4]
    match p, h4 with
    | [a, b], _ => simp [powerSpec, ent, List.range_succ]
  · rw [hl1, List.zipWith_map, List.range_succ_eq_map, List.map_cons, List.map_map,
      show p.length / 2 = p.length / 2 - 1 + 1 by omega, List.range_succ, List.map_append]
    simp only [Nat.add_sub_cancel]
    congr 1
    · unfold powerSpec ent
      rw [if_pos rfl]
      cases p <;> rfl
    · congr 1
      · simp only [List.zipWith_self]
        refine List.map_congr_left ?_
        intro k hk
        rw [List.mem_range] at hk
        show _ = powerSpec p (k + 1)
        unfold powerSpec ent
        rw [if_neg (by omega), if_neg (by omega)]
        rw [show 2 * (k + 1) - 1 = 1 + 2 * k by omega, show 2 * (k + 1) = 2 + 2 * k by omega]
      · show _ = [powerSpec p (p.length / 2 - 1 + 1)]
        unfold powerSpec ent
        rw [if_neg (by omega), if_pos (by omega)]
        congr 2
        rw [List.getLastD_eq_getLast?, List.getLast?_eq_getElem?, List.getD_eq_getElem?_getD]

/-- sum of products at distance `k` -/
def autoLin (x : List K) (k : Nat) : K := ((List.range (x.length - k)).map (fun i => ent x i * ent x (i + k))).sum

theorem autoCirc_eq {s k : Nat} {x : List K} (hs : 2 * x.length ≤ s) (hk : k ≤ x.length) : autoCirc s x k = autoLin x k := by
  unfold autoCirc autoLin
  have hsplit : s = (x.length - k) + (s - (x.length - k)) := by omega
  have hr : List.range s = List.range (x.length - k) ++ (List.range (s - (x.length - k))).map (x.length - k + ·) := by
    conv_lhs => rw [hsplit, List.range_add]
  rw [hr, List.map_append, List.sum_append]
  have h2 : (((List.range (s - (x.length - k))).map (x.length - k + ·)).map (fun i => ent x i * ent x ((i + k) % s))).sum = 0 := by
    refine sum_zero ?_
    intro v hv
    rw [List.map_map] at hv
    obtain ⟨i, hi, rfl⟩ := List.mem_map.mp hv
    rw [List.mem_range] at hi
    show ent x (x.length - k + i) * ent x ((x.length - k + i + k) % s) = 0
    rcases Nat.lt_or_ge (x.length - k + i) x.length with hlt | hge
    · rw [Nat.mod_eq_of_lt (by omega), ent_ge (i := x.length - k + i + k) (by omega), mul_zero]
    · rw [ent_ge hge, zero_mul]
  rw [h2, add_zero]
  refine congrArg List.sum (List.map_congr_left ?_)
  intro i hi
  rw [List.mem_range] at hi
  rw [Nat.mod_eq_of_lt (by omega)]

variable [IsStrictOrderedRing K]

/-- **C41**: `autoConvolve` gives the sums of products at distance `k`, divided by their number when normalised -/
theorem autoConvolve_spec {pack : List K → Nat → List K} {idct1 : List K → List K} (h : AutoOk pack idct1) {x : List K} {n : Nat} {norm : Bool}
    (hn : n ≤ x.length) (hx : x ≠ []) (hbig : 2 * x.length ≤ 2013265920) :
    autoConvolve pack idct1 x (some n) norm =
      .ok ((List.range (if n = 0 then x.length else n)).map (fun k => if norm then autoLin x k / ((x.length - k : Nat) : K) else autoLin x k)) := by
  obtain ⟨s, hs⟩ := nearest_ok hbig
  obtain ⟨hmem, hge, _⟩ := nearest_spec hs
  obtain ⟨hev, hpos⟩ := fast_even _ hmem
  obtain ⟨hl, hi⟩ := h x s hpos hev
  have hs0 : (s : K) ≠ 0 := by exact_mod_cast hpos.ne'
  have hxl := List.length_pos_iff.mpr hx
  unfold autoConvolve
  rw [hs]
  have hap : idct1 (autoPower (pack x s)) = (List.range (s / 2 + 1)).map (fun k => (s : K) * autoCirc s x k) := by
    rw [autoPower_spec (by omega) (by omega), hl, hi]
  show (let n := orSize (some n) x.length; _) = _
  have hm : orSize (some n) x.length = (if n = 0 then x.length else n) := rfl
  rw [hm]
  generalize hm' : (if n = 0 then x.length else n) = m
  have hmx : m ≤ x.length := by
    subst hm'
    split <;> omega
  show (if norm = true then _ else _) = _
  have hsl := slice_range (fun k => (s : K) * autoCirc s x k) (N := s / 2 + 1) (a := 0) (m := m) (by omega)
  rw [Nat.zero_add] at hsl
  rw [hap, hsl, List.map_map]
  have hmap : (List.range m).map ((fun v => v / (s : K)) ∘ (fun k => (s : K) * autoCirc s x (0 + k))) = (List.range m).map (autoLin x) := by
    refine List.map_congr_left ?_
    intro k hk
    rw [List.mem_range] at hk
    show (s : K) * autoCirc s x (0 + k) / (s : K) = _
    rw [Nat.zero_add, autoCirc_eq hge (by omega), mul_div_cancel_left₀ _ hs0]
  rw [hmap]
  cases norm with
  | false => rfl
  | true =>
    rw [if_pos rfl, if_neg (by omega), if_neg (by simp)]
    simp only [List.zipWith_map, List.zipWith_self, if_true]
    rfl

/-- more terms than entries are refused (numpy divides by zero) -/
theorem autoConvolve_large {pack : List K → Nat → List K} {idct1 : List K → List K} {x : List K} {n : Nat} (hn : x.length < n)
    (hbig : 2 * x.length ≤ 2013265920) : autoConvolve pack idct1 x (some n) true = .error .valueError := by
  obtain ⟨s, hs⟩ := nearest_ok hbig
  unfold autoConvolve
  rw [hs]
  have hm : orSize (some n) x.length = n := if_neg (by omega)
  show (if (orSize (some n) x.length > x.length) then _ else _) = _
  rw [hm, if_pos hn]

/-- **C41**: the correlation at distance zero is one after normalisation, if the variance is not zero -/
theorem autoCorrelation_first {pack : List K → Nat → List K} {idct1 : List K → List K} (h : AutoOk pack idct1) {x : List K} {n : Nat}
    (hn : n ≤ x.length) (hx : x ≠ []) (hbig : 2 * x.length ≤ 2013265920)
    (hv : (x.map (fun v => (v - x.sum / (x.length : K)) ^ 2)).sum ≠ 0) :
    ∃ l, autoCorrelation pack idct1 x (some n) true 0 = .ok (1 :: l) := by
  unfold autoCorrelation
  dsimp only
  have hxl := List.length_pos_iff.mpr hx
  have hlen : (x.map (· - x.sum / (x.length : K))).length = x.length := by simp
  rw [autoConvolve_spec h (by rw [hlen]; exact hn) (by simpa using hx) (by rw [hlen]; exact hbig), hlen]
  obtain ⟨m, hm⟩ : ∃ m, (if n = 0 then x.length else n) = m + 1 := by
    refine ⟨(if n = 0 then x.length else n) - 1, ?_⟩
    split <;> omega
  rw [hm, List.range_succ_eq_map, List.map_cons]
  generalize List.map _ (List.map Nat.succ (List.range m)) = tl
  rw [if_pos rfl]
  refine ⟨tl.map (· / (autoLin (List.map (fun x_1 => x_1 - x.sum / ↑x.length) x) 0 / ((x.length - 0 : Nat) : K))), ?_⟩
  change Except.ok (List.drop 0 (if true = true then List.map _ (_ :: _) else _)) = _
  rw [if_pos rfl, List.map_cons, List.drop_zero, List.headD_cons]
  refine congrArg Except.ok (congrArg (· :: _) ?_)
  refine div_self ?_
  refine div_ne_zero ?_ (by exact_mod_cast hxl.ne')
  have : autoLin (x.map (· - x.sum / (x.length : K))) 0 = (x.map (fun v => (v - x.sum / (x.length : K)) ^ 2)).sum := by
    unfold autoLin
    refine congrArg List.sum ?_
    apply List.ext_getElem?
    intro i
    by_cases hi : i < x.length
    · simp [ent, hi, pow_two]
    · rw [List.getElem?_eq_none (by simpa using hi), List.getElem?_eq_none (by simpa using hi)]
  rw [this]
  exact hv

/-! ## C41: Gaussian smoothing -/

variable [FloorRing K]

/-- the window is normalised and symmetric -/
theorem gaussWin_spec (exp : K → K) (hexp : ∀ v, 0 < exp v) (fill : Nat) (sigma : K) : (gaussWin exp fill sigma).length = 2 * fill + 1 ∧
    (gaussWin exp fill sigma).sum = 1 ∧ ∀ d ≤ fill, ent (gaussWin exp fill sigma) (fill + d) = ent (gaussWin exp fill sigma) (fill - d) := by
  unfold gaussWin
  dsimp only
  refine ⟨by simp, ?_, ?_⟩
  · have hpos : ∀ (l : List Nat) (f : Nat → K), l ≠ [] → (∀ i, 0 < f i) → 0 < (l.map f).sum := by
      intro l f hl hf
      cases l with
      | nil => exact absurd rfl hl
      | cons a l =>
        rw [List.map_cons, List.sum_cons]
        have : 0 ≤ (l.map f).sum := List.sum_nonneg (by intro v hv; obtain ⟨i, _, rfl⟩ := List.mem_map.mp hv; exact (hf i).le)
        have := hf a
        linarith
    have h := hpos (List.range (2 * fill + 1)) (fun p => exp (-(((p : K) - (fill : K)) / sigma) ^ 2 / 2)) (by simp) (fun _ => hexp _)
    simp only [div_eq_mul_inv] at *
    rw [List.sum_map_mul_right, List.map_id']
    exact mul_inv_cancel₀ h.ne'
  · intro d hd
    unfold ent
    rw [List.getD_eq_getElem?_getD, List.getD_eq_getElem?_getD]
    simp only [List.getElem?_map]
    rw [List.getElem?_range (by omega), List.getElem?_range (by omega)]
    simp only [Option.map_some, Option.getD_some]
    congr 2
    rw [Nat.cast_sub hd, Nat.cast_add]
    ring

theorem sliceNeg_range (f : Nat → K) {N a b : Nat} (hb : 0 < b) (h : a + b ≤ N) :
    sliceNeg ((List.range N).map f) a b = (List.range (N - b - a)).map (fun k => f (a + k)) := by
  unfold sliceNeg
  rw [if_neg (by omega), List.length_map, List.length_range]
  have := slice_range f (N := N) (a := a) (m := N - b - a) (by omega)
  rw [show a + (N - b - a) = N - b by omega] at this
  exact this

/-- the parts of the convolution with a window of `2 fill + 1` points centred on the data point -/
def truncSpec (mode : Mode) (x win : List K) (fill : Nat) : List K :=
  match mode with
  | .same => (List.range x.length).map (fun k => lin x win (fill + k))
  | .full => (List.range (x.length + 2 * fill)).map (lin x win)
  | .valid => (List.range (x.length - 2 * fill)).map (fun k => lin x win (2 * fill + k))

/-- **C41**: truncated Gaussian smoothing without cache is the convolution with the window: entry `k` of mode `same` uses the window centred on
`k`, mode `valid` leaves out the places where the window reaches over the ends -/
theorem gaussianTrunc_spec {A : FFT K} (hA : A.Ok) {exp : K → K} {x : List K} {sigma range : K} (h0 : 0 < fillOf range sigma)
    (hbig : x.length + 2 * fillOf range sigma ≤ 2013265920) (mode : Mode) (hv : mode = .valid → 2 * fillOf range sigma ≤ x.length) :
    gaussianTrunc A exp x sigma range mode none = .ok (truncSpec mode x (gaussWin exp (fillOf range sigma) sigma) (fillOf range sigma), none) := by
  unfold gaussianTrunc
  generalize fillOf range sigma = fill at *
  obtain ⟨s, hs⟩ := nearest_ok hbig
  obtain ⟨hmem, hge, _⟩ := nearest_spec hs
  obtain ⟨hev, hpos⟩ := fast_even _ hmem
  rw [hs]
  show Except.ok (truncPart mode fill (slice (A.irfft (A.mul (A.rfft x s) (A.rfft (gaussWin exp fill sigma) s))) 0 _), none) = _
  rw [hA _ _ _ hpos hev]
  have hwl : (gaussWin exp fill sigma).length = 2 * fill + 1 := by simp [gaussWin]
  have hsl := slice_range (circ s x (gaussWin exp fill sigma)) (N := s) (a := 0) (m := x.length + 2 * fill) (by omega)
  rw [Nat.zero_add] at hsl
  have hmap : (List.range (x.length + 2 * fill)).map (fun k => circ s x (gaussWin exp fill sigma) (0 + k)) =
      (List.range (x.length + 2 * fill)).map (lin x (gaussWin exp fill sigma)) := by
    refine List.map_congr_left ?_
    intro k hk
    rw [List.mem_range] at hk
    rw [Nat.zero_add, circ_eq (by omega) (by omega)]
  rw [hsl, hmap]
  refine congrArg Except.ok (congrArg (·, none) ?_)
  unfold truncPart truncSpec
  cases mode with
  | full => rfl
  | same =>
    dsimp only
    rw [sliceNeg_range _ h0 (by omega), show x.length + 2 * fill - fill - fill = x.length by omega]
  | valid =>
    dsimp only
    have := hv rfl
    rw [sliceNeg_range _ (by omega) (by omega), show x.length + 2 * fill - 2 * fill - 2 * fill = x.length - 2 * fill by omega]

/-- **C41 fails** for widths below a quarter pixel (with the default range): the result is empty instead of the data -/
theorem gaussianTrunc_narrow_fails {A : FFT K} {exp : K → K} {x : List K} {sigma range : K} (hf : fillOf range sigma = 0)
    (hbig : x.length ≤ 2013265920) : gaussianTrunc A exp x sigma range .same none = .ok ([], none) ∧
    gaussianTrunc A exp x sigma range .valid none = .ok ([], none) := by
  obtain ⟨s, hs⟩ := nearest_ok (x := x.length + 2 * 0) (by omega)
  unfold gaussianTrunc
  rw [hf, hs]
  exact ⟨rfl, rfl⟩

/-- **C41 fails** when `convolveGaussian` and `convolveGaussianTrunc` share a cache: they use the same key for different kernels -/
theorem gaussian_shared_cache_fails {A : FFT K} {exp : K → K} {apply : List K → Nat → List K → List K} {packed : Nat → K → List K} {x : List K}
    {sigma range : K} {r : List K × Option (KCache A)} {mode : Mode} (hbig : x.length + 2 * fillOf range sigma ≤ 2013265920)
    (h : gaussian A apply packed x sigma range (some []) = .ok r) : gaussianTrunc A exp x sigma range mode r.2 = .error .valueError := by
  unfold gaussian at h
  obtain ⟨s, hs⟩ := nearest_ok hbig
  unfold gaussianTrunc
  rw [hs]
  generalize fillOf range sigma = fill at *
  split at h
  · cases h
  · rename_i s' hs'
    have hk : kernGet A (some []) (fill, x.length + 2 * fill, sigma) (Kern.packed (packed s' sigma)) =
        (Kern.packed (packed s' sigma), some (Dict.set [] (fill, x.length + 2 * fill, sigma) (Kern.packed (packed s' sigma)))) := rfl
    rw [hk] at h
    injection h with h
    subst h
    dsimp only
    unfold kernGet
    simp only [Verif.Py.Dict.get?_set, if_true]

/-- **C41 fails** for the cosine transform with the default argument `cache=None`: it always raises `TypeError` -/
theorem gaussianDCT_no_cache_fails (apply : List K → List K → List K) (gauss : Nat → K → List K) (x : List K) (sigma pad : K) (mode : Mode)
    (hbig : x.length + fillOf pad sigma * 2 ≤ 2013265920) : gaussianDCT apply gauss x sigma pad mode none = .error .typeError := by
  unfold gaussianDCT
  by_cases h : fillOf pad sigma > 0
  · obtain ⟨s, hs⟩ := nearest_ok hbig
    rw [if_pos h, hs]
    rfl
  · rw [if_neg h]
    rfl

theorem list_ent (l : List K) : l = (List.range l.length).map (ent l) := by
  apply List.ext_getElem?
  intro i
  by_cases hi : i < l.length
  · simp [ent, hi]
  · rw [List.getElem?_eq_none (by omega), List.getElem?_eq_none (by simpa using hi)]

/-- **C41**: with a cache, the smoothed data padded with zeros are computed; mode `same` gives the entries at the places of the data, mode `valid`
leaves out the padding width at both ends -/
theorem gaussianDCT_place {apply : List K → List K → List K} {gauss : Nat → K → List K} {x : List K} {sigma pad : K} {mode : Mode} {fill : Nat}
    (hf : fillOf pad sigma = fill) (h0 : 0 < fill) (hbig : x.length + fill * 2 ≤ 2013265920) (hv : mode = .valid → 2 * fill ≤ x.length)
    (happ : ∀ l g, (apply l g).length = l.length) (hm : mode ≠ .full) :
    ∃ padded c s, padded.length = s ∧ x.length + fill * 2 ≤ s ∧ (∀ k < x.length, ent padded (fill + k) = ent x k) ∧
      (∀ k, k < fill ∨ fill + x.length ≤ k → ent padded k = 0) ∧
      gaussianDCT apply gauss x sigma pad mode (some []) = .ok
        ((List.range (if mode = .valid then x.length - 2 * fill else x.length)).map (fun k =>
          ent (apply padded (gauss s (sigma / (s : K)))) ((if mode = .valid then 2 * fill else fill) + k)), c) := by
  obtain ⟨s, hs⟩ := nearest_ok hbig
  obtain ⟨hmem, hge, _⟩ := nearest_spec hs
  have hpad : dctPad x fill s = List.replicate fill 0 ++ x ++ List.replicate (s - x.length - fill) 0 := if_pos h0
  have hlen : (dctPad x fill s).length = s := by rw [hpad]; simp; omega
  refine ⟨dctPad x fill s, Dict.set [] (s, sigma / (s : K)) (gauss s (sigma / (s : K))), s, hlen, hge, ?_, ?_, ?_⟩
  · intro k hk
    rw [hpad]
    unfold ent
    rw [List.getD_eq_getElem?_getD, List.getD_eq_getElem?_getD, List.append_assoc, List.getElem?_append_right (by simp),
      List.length_replicate, Nat.add_sub_cancel_left, List.getElem?_append_left hk]
  · intro k hk
    rw [hpad]
    unfold ent
    rw [List.getD_eq_getElem?_getD]
    rcases hk with hk | hk
    · rw [List.append_assoc, List.getElem?_append_left (by simpa using hk), List.getElem?_replicate]
      split <;> rfl
    · rw [List.getElem?_append_right (by simpa using hk), List.getElem?_replicate]
      split <;> rfl
  · unfold gaussianDCT
    rw [hf, if_pos h0, hs]
    dsimp only
    rw [hlen]
    have hk : dctKern gauss (some []) s (sigma / (s : K)) = .ok (gauss s (sigma / (s : K)), Dict.set [] (s, sigma / (s : K)) (gauss s (sigma / (s : K)))) := rfl
    rw [hk]
    dsimp only
    generalize gauss s (sigma / (s : K)) = g
    have hr : (apply (dctPad x fill s) g).length = s := by rw [happ, hlen]
    have hlist := list_ent (apply (dctPad x fill s) g)
    rw [hr] at hlist
    unfold dctPart
    rw [if_neg (by omega)]
    cases mode with
    | full => exact absurd rfl hm
    | same =>
      dsimp only
      conv_lhs => rw [hlist]
      rw [sliceNeg_range _ (by omega) (by omega), show s - (s - x.length - fill) - fill = x.length by omega]
      rfl
    | valid =>
      have := hv rfl
      dsimp only
      conv_lhs => rw [hlist]
      rw [sliceNeg_range _ (by omega) (by omega), show s - (s - x.length - fill + fill) - fill * 2 = x.length - 2 * fill by omega, Nat.mul_comm fill 2]
      rfl

example : (gaussianTrunc (circFFT : FFT ℚ) (fun _ => 1) [3, 6, 9, 0] (1 / 2) 2 .same none).map (·.1) = .ok [3, 6, 5, 3] ∧
    (gaussianTrunc (circFFT : FFT ℚ) (fun _ => 1) [3, 6, 9, 0] (1 / 2) 2 .valid none).map (·.1) = .ok [6, 5] ∧
    (gaussianTrunc (circFFT : FFT ℚ) (fun _ => 1) [3, 6, 9, 0] (1 / 8) 2 .same none).map (·.1) = .ok [] ∧
    (gaussianDCT (fun x _ => x) (fun _ _ => []) [3, 6, 9, 0] (1 / 2 : ℚ) 2 .same (some [])).map (·.1) = .ok [3, 6, 9, 0] := by decide +kernel

/-- **C41**: the auto-correlation function from a given lag: averages of products of deviations from the mean, divided by the variance -/
theorem autoCorrelation_spec {pack : List K → Nat → List K} {idct1 : List K → List K} (h : AutoOk pack idct1) {x : List K} {n start : Nat}
    {normalized : Bool} (hn : n ≤ x.length) (hx : x ≠ []) (hbig : 2 * x.length ≤ 2013265920) :
    autoCorrelation pack idct1 x (some n) normalized start = .ok (((List.range (if n = 0 then x.length else n)).drop start).map (fun k =>
      autoLin (x.map (· - x.sum / (x.length : K))) k / ((x.length - k : Nat) : K) /
        (if normalized then autoLin (x.map (· - x.sum / (x.length : K))) 0 / ((x.length - 0 : Nat) : K) else 1))) := by
  unfold autoCorrelation
  dsimp only
  have hxl := List.length_pos_iff.mpr hx
  have hlen : (x.map (· - x.sum / (x.length : K))).length = x.length := by simp
  rw [autoConvolve_spec h (by rw [hlen]; exact hn) (by simpa using hx) (by rw [hlen]; exact hbig), hlen]
  obtain ⟨m, hm⟩ : ∃ m, (if n = 0 then x.length else n) = m + 1 := by
    refine ⟨(if n = 0 then x.length else n) - 1, ?_⟩
    split <;> omega
  rw [hm]
  simp only [bind, Except.bind, pure, Except.pure, if_true]
  refine congrArg Except.ok ?_
  rw [List.map_drop]
  congr 1
  cases normalized with
  | false => simp
  | true =>
    rw [if_pos rfl, List.map_map]
    have : List.headD ((List.range (m + 1)).map (fun k => autoLin (x.map (· - x.sum / (x.length : K))) k / ((x.length - k : Nat) : K))) 0 =
        autoLin (x.map (· - x.sum / (x.length : K))) 0 / ((x.length - 0 : Nat) : K) := by
      rw [List.range_succ_eq_map, List.map_cons, List.headD_cons]
    rw [this]
    rfl

/-- **C41**: the periodic Gaussian smoothing returns the first `x.size` values of the filtered padded array -/
theorem gaussian_place {A : FFT K} {apply : List K → Nat → List K → List K} {packed : Nat → K → List K} {x : List K}
    {sigma range : K} (hbig : x.length + 2 * fillOf range sigma ≤ 2013265920) (happ : ∀ s l, x.length ≤ s → (apply x s l).length = s) :
    ∃ s, x.length + 2 * fillOf range sigma ≤ s ∧ (fillOf range sigma = 0 → s = x.length) ∧ gaussian A apply packed x sigma range none =
      .ok ((List.range x.length).map (ent (apply x s (packed s sigma))), none) := by
  have key : ∀ s, x.length ≤ s → slice (apply x s (packed s sigma)) 0 (some x.length) = (List.range x.length).map (ent (apply x s (packed s sigma))) := by
    intro s hs
    have := slice_range (ent (apply x s (packed s sigma))) (N := s) (a := 0) (m := x.length) (by omega)
    conv_lhs => rw [list_ent (apply x s (packed s sigma)), happ s _ hs]
    simpa using this
  unfold gaussian
  by_cases h0 : fillOf range sigma > 0
  · rw [if_pos h0]
    obtain ⟨s, hs⟩ := nearest_ok hbig
    obtain ⟨_, h1, _⟩ := nearest_spec hs
    rw [hs]
    refine ⟨s, h1, by omega, ?_⟩
    simp only [kernGet]
    rw [key s (by omega)]
  · rw [if_neg h0]
    refine ⟨x.length + 2 * fillOf range sigma, le_refl _, by omega, ?_⟩
    simp only [kernGet]
    rw [key _ (by omega)]

end Verif.Convolve
