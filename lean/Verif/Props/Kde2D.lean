import Verif.Model.Kde2D
import Verif.Props.Kde1DFlat
import Verif.Props.ConvolveDFT

/-!
# Two-dimensional densities: evaluation (C126)

What `convolve2D` is used for are sums over windows; with them every step of the model is a function of the position.
-/

namespace Verif.Kde2D
set_option linter.unusedSectionVars false
open Verif.Py Verif.Py.Np Verif.Convolve Finset
open Verif.Kde1D (soften iter)

variable {K : Type} [Field K] [LinearOrder K] [IsStrictOrderedRing K] [FloorRing K]

/-- what is used of `convolve2D` -/
def Conv2Ok (conv : Conv2 K) : Prop := ∀ x y mode, 0 < x.h → 0 < x.w → 0 < y.h → 0 < y.w →
  ∃ r, conv x y mode = .ok r ∧ (r.h, r.w) = shape2 mode x y ∧
    ∀ k < r.h, ∀ l < r.w, r.v k l = lin2 x y ((offset2 mode y).1 + k) ((offset2 mode y).2 + l)

/-- the model of `convolve2D` has it, for sizes in the table of transforms -/
theorem convolve2D_fits {A : FFT2 K} (hA : A.Ok) {x y : Arr K} {mode : Mode} {largest : Nat} (h1 : 0 < x.h) (h2 : 0 < x.w) (h3 : 0 < y.h)
    (h4 : 0 < y.w) (hs : max largest (x.h + y.h) ≤ 2013265920) (hs' : max largest (x.w + y.w) ≤ 2013265920) :
    ∃ r, (convolve2D A ⟨0, x⟩ ⟨1, y⟩ mode largest none true true).map Prod.fst = .ok r ∧ (r.h, r.w) = shape2 mode x y ∧
      ∀ k < r.h, ∀ l < r.w, r.v k l = lin2 x y ((offset2 mode y).1 + k) ((offset2 mode y).2 + l) := by
  obtain ⟨fh, hfh⟩ := nearest_ok (x := max largest (x.h + y.h - 1)) (by omega)
  obtain ⟨fw, hfw⟩ := nearest_ok (x := max largest (x.w + y.w - 1)) (by omega)
  have hok : ∃ r, convolve2D A ⟨0, x⟩ ⟨1, y⟩ mode largest none true true = .ok r := by
    unfold convolve2D
    simp only [hfh, hfw, bind, Except.bind, pure, Except.pure]
    exact ⟨_, rfl⟩
  obtain ⟨r, hr⟩ := hok
  obtain ⟨e1, -, e2⟩ := convolve2D_spec hA (heap := fun i => if i = 0 then x else y) h1 h2 h3 h4 (by intro d hd; cases hd) rfl rfl hr
  exact ⟨r.1, by rw [hr]; rfl, e1, e2⟩

/-- the sums themselves, as the simplest `convolve2D` -/
def linConv : Conv2 K := fun x y mode =>
  .ok ⟨(shape2 mode x y).1, (shape2 mode x y).2, fun k l => lin2 x y ((offset2 mode y).1 + k) ((offset2 mode y).2 + l)⟩

theorem linConv_ok : Conv2Ok (linConv : Conv2 K) := fun _ _ _ _ _ _ _ => ⟨_, rfl, rfl, fun _ _ _ _ => rfl⟩

/-! ## Window sums -/

def ws (w : Nat) (g f : Nat → Nat → K) (i j : Nat) : K :=
  ∑ o ∈ range (2 * w + 1), ∑ p ∈ range (2 * w + 1), g o p * f (i + (2 * w - o)) (j + (2 * w - p))

/-- data surrounded by zeros -/
def pad2 (w : Nat) (a : Arr K) (i j : Nat) : K := if i < w ∨ j < w then 0 else a.ent (i - w) (j - w)

theorem flip_valid {M : Type} [AddCommMonoid M] (w k : Nat) (h : Nat → Nat → M) (hz : ∀ i o, 2 * w + 1 ≤ o → h i o = 0) :
    ∑ i ∈ range (2 * w + k + 1), h i (2 * w + k - i) = ∑ o ∈ range (2 * w + 1), h (k + (2 * w - o)) o := by
  rw [← sum_range_reflect]
  symm
  have e : ∀ o ∈ range (2 * w + 1), h (k + (2 * w - o)) o = h (2 * w + k + 1 - 1 - o) (2 * w + k - (2 * w + k + 1 - 1 - o)) := by
    intro o ho
    rw [mem_range] at ho
    rw [show k + (2 * w - o) = 2 * w + k + 1 - 1 - o by omega, show 2 * w + k - (2 * w + k + 1 - 1 - o) = o by omega]
  rw [sum_congr rfl e]
  apply sum_subset
  · intro o ho; rw [mem_range] at ho ⊢; omega
  · intro o h1 ho
    rw [mem_range] at ho h1
    rw [show 2 * w + k - (2 * w + k + 1 - 1 - o) = o by omega]
    exact hz _ _ (by omega)

theorem flip_same {M : Type} [AddCommMonoid M] (w k : Nat) (h : Nat → Nat → M) (hz : ∀ i o, 2 * w + 1 ≤ o → h i o = 0) :
    ∑ i ∈ range (w + k + 1), h i (w + k - i) = ∑ o ∈ range (2 * w + 1), (if k + (2 * w - o) < w then 0 else h (k + (2 * w - o) - w) o) := by
  have := flip_valid w k (fun i o => if i < w then 0 else h (i - w) o) (fun i o ho => by
    split_ifs
    · rfl
    · exact hz _ _ ho)
  rw [← this]
  conv_rhs => rw [show 2 * w + k + 1 = w + (w + k + 1) by omega, sum_range_add]
  have e1 : ∑ x ∈ range w, (if x < w then (0 : M) else h (x - w) (2 * w + k - x)) = 0 :=
    sum_eq_zero (fun x hx => by rw [if_pos (mem_range.mp hx)])
  rw [e1, zero_add]
  apply sum_congr rfl
  intro i _
  rw [if_neg (by omega), show w + i - w = i by omega, show 2 * w + k - (w + i) = w + k - i by omega]

theorem lin2_sum (x y : Arr K) (k l : Nat) :
    lin2 x y k l = ∑ i ∈ range (k + 1), ∑ j ∈ range (l + 1), x.ent i j * y.ent (k - i) (l - j) := by
  unfold lin2
  rw [list_sum_range]
  exact sum_congr rfl (fun i _ => list_sum_range ..)

theorem valid_entry2 {w : Nat} {x y : Arr K} (hh : y.h = 2 * w + 1) (hw : y.w = 2 * w + 1) (i j : Nat) :
    lin2 x y (2 * w + i) (2 * w + j) = ws w y.v x.ent i j := by
  rw [lin2_sum]
  rw [flip_valid w i (fun a o => ∑ b ∈ range (2 * w + j + 1), x.ent a b * y.ent o (2 * w + j - b))
    (fun a o ho => sum_eq_zero (fun b _ => by rw [Arr.ent_h (a := y) (by omega), mul_zero]))]
  unfold ws
  apply sum_congr rfl
  intro o ho
  rw [flip_valid w j (fun b p => x.ent (i + (2 * w - o)) b * y.ent o p) (fun b p hp => by rw [Arr.ent_w (a := y) (by omega), mul_zero])]
  apply sum_congr rfl
  intro p hp
  rw [mem_range] at ho hp
  have : y.ent o p = y.v o p := if_pos ⟨by omega, by omega⟩
  rw [this, mul_comm]

theorem same_entry2 {w : Nat} {x y : Arr K} (hh : y.h = 2 * w + 1) (hw : y.w = 2 * w + 1) (i j : Nat) :
    lin2 x y (w + i) (w + j) = ws w y.v (pad2 w x) i j := by
  rw [lin2_sum]
  rw [flip_same w i (fun a o => ∑ b ∈ range (w + j + 1), x.ent a b * y.ent o (w + j - b))
    (fun a o ho => sum_eq_zero (fun b _ => by rw [Arr.ent_h (a := y) (by omega), mul_zero]))]
  unfold ws
  apply sum_congr rfl
  intro o ho
  rw [flip_same w j (fun b p => x.ent (i + (2 * w - o) - w) b * y.ent o p) (fun b p hp => by rw [Arr.ent_w (a := y) (by omega), mul_zero])]
  rw [mem_range] at ho
  by_cases h1 : i + (2 * w - o) < w
  · rw [if_pos h1]
    symm
    exact sum_eq_zero (fun p _ => by unfold pad2; rw [if_pos (.inl h1), mul_zero])
  · rw [if_neg h1]
    apply sum_congr rfl
    intro p hp
    rw [mem_range] at hp
    unfold pad2
    by_cases h2 : j + (2 * w - p) < w
    · rw [if_pos h2, if_pos (.inr h2), mul_zero]
    · rw [if_neg h2, if_neg (by omega)]
      have : y.ent o p = y.v o p := if_pos ⟨by omega, by omega⟩
      rw [this, mul_comm]

/-- an array of a shape whose entries are given by a function -/
def Rep (m n : Nat) (a : Arr K) (f : Nat → Nat → K) : Prop := a.h = m ∧ a.w = n ∧ ∀ i < m, ∀ j < n, a.v i j = f i j

section eval
variable {conv : Conv2 K} {exp : K → K} {m n w : Nat} {W hist : Arr K} {xb xt yb yt : Bool}

theorem run_valid2 (hc : Conv2Ok conv) {x y : Arr K} (hxh : x.h = m + 2 * w) (hxw : x.w = n + 2 * w) (hyh : y.h = 2 * w + 1)
    (hyw : y.w = 2 * w + 1) (hm : 0 < m) (hn : 0 < n) : ∃ r, run2 conv x y .valid = .ok r ∧ Rep m n r (ws w y.v x.ent) := by
  obtain ⟨r, hr, hs, hv⟩ := hc x y .valid (by omega) (by omega) (by omega) (by omega)
  simp only [shape2, Prod.mk.injEq] at hs
  refine ⟨r, by unfold run2; rw [hr], by omega, by omega, ?_⟩
  intro i hi j hj
  rw [hv i (by omega) j (by omega)]
  simp only [offset2]
  rw [show y.h - 1 = 2 * w by omega, show y.w - 1 = 2 * w by omega, valid_entry2 hyh hyw]

theorem run_same2 (hc : Conv2Ok conv) {x y : Arr K} (hxh : x.h = m) (hxw : x.w = n) (hyh : y.h = 2 * w + 1)
    (hyw : y.w = 2 * w + 1) (hm : 0 < m) (hn : 0 < n) : ∃ r, run2 conv x y .same = .ok r ∧ Rep m n r (ws w y.v (pad2 w x)) := by
  obtain ⟨r, hr, hs, hv⟩ := hc x y .same (by omega) (by omega) (by omega) (by omega)
  simp only [shape2, Prod.mk.injEq] at hs
  refine ⟨r, by unfold run2; rw [hr], by omega, by omega, ?_⟩
  intro i hi j hj
  rw [hv i (by omega) j (by omega)]
  simp only [offset2]
  rw [show (y.h - 1) / 2 = w by omega, show (y.w - 1) / 2 = w by omega, same_entry2 hyh hyw]

/-! ## Maximum -/

def maxF (m n : Nat) (f : Nat → Nat → K) : K := maxA ⟨m, n, f⟩

theorem mem_cells {a : Arr K} {x : K} : x ∈ cells a ↔ ∃ i < a.h, ∃ j < a.w, a.v i j = x := by
  unfold cells
  simp [List.mem_flatMap]

theorem maxA_rep {a : Arr K} {f : Nat → Nat → K} (h : Rep m n a f) : maxA a = maxF m n f := by
  obtain ⟨h1, h2, h3⟩ := h
  unfold maxF maxA cells
  rw [h1, h2]
  congr 1
  dsimp only
  rw [List.flatMap_def, List.flatMap_def]
  congr 1
  refine List.map_congr_left (fun i hi => List.map_congr_left (fun j hj => ?_))
  exact h3 i (List.mem_range.mp hi) j (List.mem_range.mp hj)

theorem maxF_congr {f g : Nat → Nat → K} (h : ∀ i < m, ∀ j < n, f i j = g i j) : maxF m n f = maxF m n g :=
  maxA_rep (a := ⟨m, n, f⟩) ⟨rfl, rfl, h⟩

theorem maxF_spec (hm : 0 < m) (hn : 0 < n) (f : Nat → Nat → K) :
    (∃ i < m, ∃ j < n, f i j = maxF m n f) ∧ ∀ i < m, ∀ j < n, f i j ≤ maxF m n f := by
  have hne : cells (⟨m, n, f⟩ : Arr K) ≠ [] := by
    intro e
    have : f 0 0 ∈ cells (⟨m, n, f⟩ : Arr K) := mem_cells.mpr ⟨0, hm, 0, hn, rfl⟩
    rw [e] at this; cases this
  obtain ⟨h1, h2⟩ := Kde1D.maxOf_spec hne
  exact ⟨mem_cells.mp h1, fun i hi j hj => h2 _ (mem_cells.mpr ⟨i, hi, j, hj, rfl⟩)⟩

theorem maxF_unique (hm : 0 < m) (hn : 0 < n) {f : Nat → Nat → K} {x : K} (h1 : ∃ i < m, ∃ j < n, f i j = x)
    (h2 : ∀ i < m, ∀ j < n, f i j ≤ x) : maxF m n f = x := by
  obtain ⟨⟨i, hi, j, hj, e⟩, h4⟩ := maxF_spec hm hn f
  obtain ⟨i', hi', j', hj', e'⟩ := h1
  exact le_antisymm (e ▸ h2 i hi j hj) (e' ▸ h4 i' hi' j' hj')

/-! ## The mask -/

/-- factor of the mask along one axis with `n` bins and `w` more at each end -/
def m1 (b t all : Bool) (n w k : Nat) : K :=
  if ((b = true ∨ all = true) ∧ k < w) ∨ ((t = true ∨ all = true) ∧ n + w ≤ k) then 0
  else if (b = true ∧ k = w) ∨ (t = true ∧ k + 1 = n + w) then 1 / 2 else 1

theorem halveCol_mul (a : Arr K) (j : Nat) : halveCol a j = ⟨a.h, a.w, fun i k => a.v i k * (if k = j then 1 / 2 else 1)⟩ := by
  unfold halveCol; congr 1; funext i k; split_ifs <;> ring
theorem halveRow_mul (a : Arr K) (j : Nat) : halveRow a j = ⟨a.h, a.w, fun i k => a.v i k * (if i = j then 1 / 2 else 1)⟩ := by
  unfold halveRow; congr 1; funext i k; split_ifs <;> ring
theorem zeroColsTo_mul (a : Arr K) (w : Nat) : zeroColsTo a w = ⟨a.h, a.w, fun i k => a.v i k * (if k < w then 0 else 1)⟩ := by
  unfold zeroColsTo; congr 1; funext i k; split_ifs <;> ring
theorem zeroRowsTo_mul (a : Arr K) (w : Nat) : zeroRowsTo a w = ⟨a.h, a.w, fun i k => a.v i k * (if i < w then 0 else 1)⟩ := by
  unfold zeroRowsTo; congr 1; funext i k; split_ifs <;> ring
theorem zeroColsLast_mul (a : Arr K) (w : Nat) : zeroColsLast a w = ⟨a.h, a.w, fun i k => a.v i k * (if w = 0 ∨ a.w ≤ k + w then 0 else 1)⟩ := by
  unfold zeroColsLast; congr 1; funext i k; split_ifs <;> ring
theorem zeroRowsLast_mul (a : Arr K) (w : Nat) : zeroRowsLast a w = ⟨a.h, a.w, fun i k => a.v i k * (if w = 0 ∨ a.h ≤ i + w then 0 else 1)⟩ := by
  unfold zeroRowsLast; congr 1; funext i k; split_ifs <;> ring

/-- the factors of the single steps along one axis -/
def fac (b t all : Bool) (n w k : Nat) : K :=
  (if b = true then (if k = w then 1 / 2 else 1) * (if k < w then 0 else 1) else 1) *
  (if t = true then (if k = n + 2 * w - (w + 1) then 1 / 2 else 1) * (if w = 0 ∨ n + 2 * w ≤ k + w then 0 else 1) else 1) *
  (if all = true then (if k < w then 0 else 1) * (if w = 0 ∨ n + 2 * w ≤ k + w then 0 else 1) else 1)

theorem fac_eq (b t all : Bool) (hw : 0 < w) (hn : 2 ≤ n) (k : Nat) : (fac b t all n w k : K) = m1 b t all n w k := by
  unfold fac m1
  have e1 : (w = 0 ∨ n + 2 * w ≤ k + w) ↔ n + w ≤ k := by omega
  have e2 : k = n + 2 * w - (w + 1) ↔ k + 1 = n + w := by omega
  simp only [e1, e2]
  cases b <;> cases t <;> cases all <;> simp only [Bool.false_eq_true, false_and, false_or, or_false, true_and, or_self, if_true, if_false,
    or_true, mul_one, one_mul] <;> split_ifs <;> first | omega | norm_num

theorem edgeMask2_ent (all : Bool) (hw : 0 < w) (hm : 2 ≤ m) (hn : 2 ≤ n) :
    Rep (m + 2 * w) (n + 2 * w) (edgeMask2 xb xt yb yt (ones (m + 2 * w) (n + 2 * w) : Arr K) w all)
      (fun i j => m1 yb yt all m w i * m1 xb xt all n w j) := by
  refine ⟨?_, ?_, ?_⟩
  · unfold edgeMask2; dsimp only; cases xb <;> cases xt <;> cases yb <;> cases yt <;> cases all <;> rfl
  · unfold edgeMask2; dsimp only; cases xb <;> cases xt <;> cases yb <;> cases yt <;> cases all <;> rfl
  · intro i hi j hj
    show _ = m1 yb yt all m w i * m1 xb xt all n w j
    rw [← fac_eq _ _ _ hw hm, ← fac_eq _ _ _ hw hn]
    unfold edgeMask2 fac
    cases xb <;> cases xt <;> cases yb <;> cases yt <;> cases all <;>
      simp only [halveCol_mul, halveRow_mul, zeroColsTo_mul, zeroRowsTo_mul, zeroColsLast_mul, zeroRowsLast_mul, ones, if_true, if_false,
        Bool.false_eq_true] <;> ring

/-! ## The steps -/

def kW (W : Arr K) (w k l : Nat) (o p : Nat) : K := W.v o p * off w p ^ k * off w o ^ l

def mask2 (xb xt yb yt all : Bool) (m n w : Nat) (i j : Nat) : K := m1 yb yt all m w i * m1 xb xt all n w j

/-- moments of the window over the mask, and over the histogram -/
def aF (W : Arr K) (xb xt yb yt : Bool) (m n w k l : Nat) (i j : Nat) : K := ws w (kW W w k l) (mask2 xb xt yb yt false m n w) i j
def bF (W hist : Arr K) (w k l : Nat) (i j : Nat) : K := ws w (kW W w k l) (pad2 w hist) i j

def fix2 (exp : K → K) (order : Int) (P : K) (a b : Nat → Nat → K) : K :=
  if order = 1 then soften exp 4 (P / a 0 0) (corrected P (b 1 0) (b 0 1) (a 0 0) (a 1 0) (a 0 1) (a 2 0) (a 0 2) (a 1 1))
  else P / a 0 0

def edgeF (exp : K → K) (order : Int) (xb xt yb yt : Bool) (m n w : Nat) (W hist : Arr K) (P : Nat → Nat → K) (i j : Nat) : K :=
  if (xb || xt || yb || yt) = true ∧ 0 ≤ order then
    if maxF m n P * tiny < aF W xb xt yb yt m n w 0 0 i j * P i j then
      fix2 exp order (P i j) (fun k l => aF W xb xt yb yt m n w k l i j) (fun k l => bF W hist w k l i j)
    else P i j
  else P i j

def boxF (hist : Arr K) (m n : Nat) (P : Nat → Nat → K) : Arr K :=
  ⟨m, n, fun i j => if maxF m n P * tiny < P i j then hist.v i j / P i j else hist.v i j⟩

def biasF2 (xb xt yb yt : Bool) (m n w : Nat) (W hist : Arr K) (P : Nat → Nat → K) (i j : Nat) : K :=
  P i j * ws w W.v (pad2 w (boxF hist m n P)) i j / ws w W.v (mask2 xb xt yb yt true m n w) i j

/-- the density before it is scaled -/
def rawF2 (exp : K → K) (order : Int) (rounds : Nat) (xb xt yb yt : Bool) (m n w : Nat) (W hist : Arr K) : Nat → Nat → K :=
  iter (biasF2 xb xt yb yt m n w W hist) rounds (edgeF exp order xb xt yb yt m n w W hist (bF W hist w 0 0))

theorem ws_congr {g g' f f' : Nat → Nat → K} {i j : Nat} (h1 : ∀ o < 2 * w + 1, ∀ p < 2 * w + 1, g o p = g' o p)
    (h2 : ∀ o < 2 * w + 1, ∀ p < 2 * w + 1, f (i + (2 * w - o)) (j + (2 * w - p)) = f' (i + (2 * w - o)) (j + (2 * w - p))) :
    ws w g f i j = ws w g' f' i j :=
  sum_congr rfl (fun o ho => sum_congr rfl (fun p hp => by
    rw [mem_range] at ho hp
    rw [h1 o ho p hp, h2 o ho p hp]))

theorem mask_rep (all : Bool) (hw : 0 < w) (hm : 2 ≤ m) (hn : 2 ≤ n) {g : Nat → Nat → K} {i j : Nat} (hi : i < m) (hj : j < n) :
    ws w g (edgeMask2 xb xt yb yt (ones (m + 2 * w) (n + 2 * w) : Arr K) w all).ent i j = ws w g (mask2 xb xt yb yt all m n w) i j := by
  obtain ⟨e1, e2, e3⟩ := edgeMask2_ent (K := K) (xb := xb) (xt := xt) (yb := yb) (yt := yt) all hw hm hn
  refine ws_congr (fun _ _ _ _ => rfl) (fun o ho p hp => ?_)
  rw [show Arr.ent _ _ _ = _ from if_pos ⟨by omega, by omega⟩, e3 _ (by omega) _ (by omega)]
  rfl

theorem edge_eval2 (hc : Conv2Ok conv) (hWh : W.h = 2 * w + 1) (hWw : W.w = 2 * w + 1) (hh : hist.h = m) (hhw : hist.w = n) (hw : 0 < w)
    (hm : 2 ≤ m) (hn : 2 ≤ n) {P : Arr K} {f : Nat → Nat → K} (hP : Rep m n P f) {order : Int}
    (ho : (xb || xt || yb || yt) = true → order ≤ 1) :
    ∃ r, edgeCorrect2 conv exp order xb xt yb yt w W hist P = .ok r ∧ Rep m n r (edgeF exp order xb xt yb yt m n w W hist f) := by
  unfold edgeCorrect2
  by_cases h : (xb || xt || yb || yt) = true ∧ 0 ≤ order
  · rw [if_pos h]
    have hmk := edgeMask2_ent (K := K) (xb := xb) (xt := xt) (yb := yb) (yt := yt) false hw hm hn
    rw [hh, hhw]
    have hA : ∀ k l, ∃ r, run2 conv (edgeMask2 xb xt yb yt (ones (m + 2 * w) (n + 2 * w)) w false) (xyWin W w k l) .valid = .ok r ∧
        Rep m n r (aF W xb xt yb yt m n w k l) := by
      intro k l
      obtain ⟨r, h1, h2, h3, h4⟩ := run_valid2 hc (x := edgeMask2 xb xt yb yt (ones (m + 2 * w) (n + 2 * w)) w false) (y := xyWin W w k l) (w := w)
        hmk.1 hmk.2.1 hWh hWw (by omega : 0 < m) (by omega : 0 < n)
      refine ⟨r, h1, h2, h3, ?_⟩
      intro i hi j hj
      rw [h4 i hi j hj, mask_rep false hw hm hn hi hj]
      rfl
    have hB : ∀ k l, ∃ r, run2 conv hist (xyWin W w k l) .same = .ok r ∧ Rep m n r (bF W hist w k l) := by
      intro k l
      exact run_same2 hc (x := hist) (y := xyWin W w k l) hh hhw hWh hWw (by omega : 0 < m) (by omega : 0 < n)
    obtain ⟨a00, r00, v00⟩ := run_valid2 hc (x := edgeMask2 xb xt yb yt (ones (m + 2 * w) (n + 2 * w)) w false) (y := W) (w := w)
        hmk.1 hmk.2.1 hWh hWw (by omega : 0 < m) (by omega : 0 < n)
    have v00' : ∀ i < m, ∀ j < n, a00.v i j = aF W xb xt yb yt m n w 0 0 i j := by
      intro i hi j hj
      rw [v00.2.2 i hi j hj, mask_rep false hw hm hn hi hj]
      unfold aF
      exact ws_congr (fun o _ p _ => by unfold kW; simp) (fun _ _ _ _ => rfl)
    obtain ⟨a10, r10, _, _, v10⟩ := hA 1 0
    obtain ⟨a01, r01, _, _, v01⟩ := hA 0 1
    obtain ⟨a20, r20, _, _, v20⟩ := hA 2 0
    obtain ⟨a02, r02, _, _, v02⟩ := hA 0 2
    obtain ⟨a11, r11, _, _, v11⟩ := hA 1 1
    obtain ⟨xP, rx, _, _, vx⟩ := hB 1 0
    obtain ⟨yP, ry, _, _, vy⟩ := hB 0 1
    have hmax := maxA_rep hP
    obtain ⟨hP1, hP2, hP3⟩ := hP
    have hor : order = 0 ∨ order = 1 := by have := ho h.1; omega
    rcases hor with rfl | rfl
    · simp only [r00, bind, Except.bind, pure, Except.pure, if_neg (by omega : ¬ (0 : Int) = 1), if_true]
      refine ⟨_, rfl, hP1, hP2, ?_⟩
      intro i hi j hj
      dsimp only
      unfold edgeF fix2
      rw [if_pos h, hmax, v00' i hi j hj, hP3 i hi j hj, if_neg (by omega : ¬ (0 : Int) = 1)]
    · simp only [r00, r10, r01, r20, r02, r11, rx, ry, bind, Except.bind, pure, Except.pure, if_true]
      refine ⟨_, rfl, hP1, hP2, ?_⟩
      intro i hi j hj
      dsimp only
      unfold edgeF fix2
      rw [if_pos h, hmax, v00' i hi j hj, hP3 i hi j hj, if_pos rfl, v10 i hi j hj, v01 i hi j hj, v20 i hi j hj, v02 i hi j hj, v11 i hi j hj,
        vx i hi j hj, vy i hi j hj]
  · rw [if_neg h]
    refine ⟨P, rfl, hP.1, hP.2.1, ?_⟩
    intro i hi j hj
    unfold edgeF
    rw [if_neg h]
    exact hP.2.2 i hi j hj

theorem pad2_congr {a b : Arr K} (h1 : a.h = b.h) (h2 : a.w = b.w) (h3 : ∀ i < a.h, ∀ j < a.w, a.v i j = b.v i j) (i j : Nat) :
    pad2 w a i j = pad2 w b i j := by
  unfold pad2 Arr.ent
  split_ifs with c1 c2 c3 c3
  · rfl
  · exact h3 _ c2.1 _ c2.2
  · omega
  · omega
  · rfl

theorem bias_eval2 (hc : Conv2Ok conv) (hWh : W.h = 2 * w + 1) (hWw : W.w = 2 * w + 1) (hh : hist.h = m) (hhw : hist.w = n) (hw : 0 < w)
    (hm : 2 ≤ m) (hn : 2 ≤ n) {P : Arr K} {f : Nat → Nat → K} (hP : Rep m n P f) (rounds : Nat) :
    ∃ r, biasCorrect2 conv rounds xb xt yb yt w W hist P = .ok r ∧ Rep m n r (iter (biasF2 xb xt yb yt m n w W hist) rounds f) := by
  unfold biasCorrect2
  by_cases h0 : rounds = 0
  · rw [if_pos h0, h0]; exact ⟨P, rfl, hP⟩
  · rw [if_neg h0, hh, hhw]
    have hmk := edgeMask2_ent (K := K) (xb := xb) (xt := xt) (yb := yb) (yt := yt) true hw hm hn
    obtain ⟨a00, r00, v00⟩ := run_valid2 hc (x := edgeMask2 xb xt yb yt (ones (m + 2 * w) (n + 2 * w)) w true) (y := W) (w := w)
        hmk.1 hmk.2.1 hWh hWw (by omega : 0 < m) (by omega : 0 < n)
    rw [r00]
    simp only []
    clear h0
    induction rounds generalizing P f with
    | zero => exact ⟨P, rfl, hP⟩
    | succ k ih =>
      unfold biasRounds2 biasStep2
      have hmax := maxA_rep hP
      obtain ⟨hP1, hP2, hP3⟩ := hP
      rw [hmax]
      obtain ⟨c, rc, _, _, vc⟩ := run_same2 hc (x := ⟨hist.h, hist.w, fun i j => if maxF m n f * tiny < P.v i j then hist.v i j / P.v i j else hist.v i j⟩)
        (y := W) (w := w) hh hhw hWh hWw (by omega : 0 < m) (by omega : 0 < n)
      simp only [rc, bind, Except.bind, pure, Except.pure]
      unfold iter
      apply ih
      refine ⟨hP1, hP2, ?_⟩
      intro i hi j hj
      dsimp only
      unfold biasF2
      rw [hP3 i hi j hj, vc i hi j hj, v00.2.2 i hi j hj, mask_rep true hw hm hn hi hj]
      congr 2
      refine ws_congr (fun _ _ _ _ => rfl) (fun o _ p _ => pad2_congr hh hhw ?_ _ _)
      intro a ha b hb
      dsimp only at ha hb
      simp only [boxF]
      rw [hP3 a (by omega) b (by omega)]

/-- every step evaluated -/
theorem raw_eval2 (hc : Conv2Ok conv) (hWh : W.h = 2 * w + 1) (hWw : W.w = 2 * w + 1) (hh : hist.h = m) (hhw : hist.w = n) (hw : 0 < w)
    (hm : 2 ≤ m) (hn : 2 ≤ n) {order : Int} (ho : (xb || xt || yb || yt) = true → order ≤ 1) (rounds : Nat) :
    ∃ r, raw2 conv exp order rounds xb xt yb yt w W hist = .ok r ∧ Rep m n r (rawF2 exp order rounds xb xt yb yt m n w W hist) := by
  unfold raw2
  obtain ⟨P0, r0, v0⟩ := run_same2 hc (x := hist) (y := W) (w := w) hh hhw hWh hWw (by omega : 0 < m) (by omega : 0 < n)
  have v0' : Rep m n P0 (bF W hist w 0 0) := ⟨v0.1, v0.2.1, fun i hi j hj => by
    rw [v0.2.2 i hi j hj]
    unfold bF
    exact ws_congr (fun o _ p _ => by unfold kW; simp) (fun _ _ _ _ => rfl)⟩
  rw [r0]
  simp only []
  obtain ⟨P1, r1, v1⟩ := edge_eval2 (exp := exp) hc hWh hWw hh hhw hw hm hn v0' ho
  rw [r1]
  exact bias_eval2 hc hWh hWw hh hhw hw hm hn v1 rounds

end eval

end Verif.Kde2D
