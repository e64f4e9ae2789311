import Verif.Props.Kde2DLaws

/-!
# Symmetries of two-dimensional densities (C126, C127)

Exchange of the two parameters, reversal of the direction of a parameter, and the scale of the weights.
-/

namespace Verif.Kde2D
set_option linter.unusedSectionVars false
open Verif.Py Verif.Py.Np Verif.Convolve Finset
open Verif.Kde1D (soften iter)

section sym
variable {K : Type} [Field K] [LinearOrder K] [IsStrictOrderedRing K] [FloorRing K]
variable {conv : Conv2 K} {exp : K → K} {m n w : Nat} {W W' hist hist' : Arr K} {xb xt yb yt : Bool}

theorem iter_rel {α β : Type} {f : α → α} {g : β → β} {R : α → β → Prop} (h : ∀ a b, R a b → R (f a) (g b)) :
    ∀ (k : Nat) (a : α) (b : β), R a b → R (iter f k a) (iter g k b)
  | 0, _, _, hr => hr
  | k + 1, a, b, hr => iter_rel h k (f a) (g b) (h a b hr)

/-! ## Exchange of the parameters -/

/-- the array with rows and columns exchanged -/
def tr (a : Arr K) : Arr K := ⟨a.w, a.h, fun i j => a.v j i⟩

theorem pad2_tr (a : Arr K) (i j : Nat) : pad2 w (tr a) j i = pad2 w a i j := by
  unfold pad2 Arr.ent tr
  simp only [or_comm, and_comm]

theorem ws_swap {g g' f f' : Nat → Nat → K} {i j : Nat} (h1 : ∀ o < 2 * w + 1, ∀ p < 2 * w + 1, g' p o = g o p)
    (h2 : ∀ a b, f' b a = f a b) : ws w g' f' j i = ws w g f i j := by
  unfold ws
  rw [sum_comm]
  exact sum_congr rfl (fun o ho => sum_congr rfl (fun p hp => by rw [h1 o (mem_range.mp ho) p (mem_range.mp hp), h2]))

theorem maxF_swap (hm : 0 < m) (hn : 0 < n) {P P' : Nat → Nat → K} (h : ∀ i < m, ∀ j < n, P' j i = P i j) : maxF n m P' = maxF m n P := by
  obtain ⟨⟨i, hi, j, hj, e⟩, hmx⟩ := maxF_spec hm hn P
  refine maxF_unique hn hm ⟨j, hj, i, hi, by rw [h i hi j hj, e]⟩ ?_
  intro b hb a ha
  rw [h a ha b hb]
  exact hmx a ha b hb

theorem kW_swap (hWW : ∀ o < 2 * w + 1, ∀ p < 2 * w + 1, W'.v p o = W.v o p) (k l : Nat) {o p : Nat} (ho : o < 2 * w + 1) (hp : p < 2 * w + 1) :
    kW W' w l k p o = kW W w k l o p := by
  unfold kW
  rw [hWW o ho p hp]
  ring

theorem aF_swap (hWW : ∀ o < 2 * w + 1, ∀ p < 2 * w + 1, W'.v p o = W.v o p) (k l i j : Nat) :
    aF W' yb yt xb xt n m w l k j i = aF W xb xt yb yt m n w k l i j :=
  ws_swap (fun _ ho _ hp => kW_swap hWW k l ho hp) (fun a b => by unfold mask2; ring)

theorem bF_swap (hWW : ∀ o < 2 * w + 1, ∀ p < 2 * w + 1, W'.v p o = W.v o p) (k l i j : Nat) :
    bF W' (tr hist) w l k j i = bF W hist w k l i j :=
  ws_swap (fun _ ho _ hp => kW_swap hWW k l ho hp) (fun a b => pad2_tr hist a b)

theorem rawF2_swap (hm : 0 < m) (hn : 0 < n) (hWW : ∀ o < 2 * w + 1, ∀ p < 2 * w + 1, W'.v p o = W.v o p) (order : Int) (rounds : Nat) :
    ∀ i < m, ∀ j < n, rawF2 exp order rounds yb yt xb xt n m w W' (tr hist) j i = rawF2 exp order rounds xb xt yb yt m n w W hist i j := by
  unfold rawF2
  refine iter_rel (R := fun P P' : Nat → Nat → K => ∀ i < m, ∀ j < n, P j i = P' i j) ?_ rounds _ _ ?_
  · intro P' P h i hi j hj
    unfold biasF2
    rw [h i hi j hj, ws_swap (g := W.v) (f := mask2 xb xt yb yt true m n w) (f' := mask2 yb yt xb xt true n m w) hWW (fun a b => by unfold mask2; ring),
      ws_swap (g := W.v) (f := pad2 w (boxF hist m n P)) hWW]
    intro a b
    rw [← pad2_tr]
    apply pad2_congr (K := K) (by rfl) (by rfl)
    intro c hc d hd
    simp only [boxF, tr] at hc hd ⊢
    rw [maxF_swap hm hn h, h c hc d hd]
  · intro i hi j hj
    have hb0 := bF_swap (w := w) (hist := hist) hWW 0 0 i j
    unfold edgeF
    rw [maxF_swap hm hn (fun i _ j _ => bF_swap (hist := hist) hWW 0 0 i j), hb0, aF_swap hWW 0 0]
    have e : (yb || yt || xb || xt) = (xb || xt || yb || yt) := by cases xb <;> cases xt <;> cases yb <;> cases yt <;> rfl
    rw [e]
    have e2 : fix2 exp order (bF W hist w 0 0 i j) (fun k l => aF W' yb yt xb xt n m w k l j i) (fun k l => bF W' (tr hist) w k l j i) =
        fix2 exp order (bF W hist w 0 0 i j) (fun k l => aF W xb xt yb yt m n w k l i j) (fun k l => bF W hist w k l i j) := by
      unfold fix2
      simp only [aF_swap hWW, bF_swap hWW]
      congr 2
      unfold corrected
      dsimp only
      congr 1 <;> ring
    rw [e2]

/-- **C126** Exchanging the two parameters exchanges the axes of the density and nothing else. -/
theorem density_swap (hc : Conv2Ok conv) (he : ∀ x, 0 < exp x) {rx ry corr : K} (hx : rx ≠ 0) (hy : ry ≠ 0) (hcr : corr ^ 2 ≠ 1)
    (hw : 0 < winw2 rx ry) (hm : 2 ≤ hist.h) (hn : 2 ≤ hist.w) {order : Int} (ho : (xb || xt || yb || yt) = true → order ≤ 1) (rounds : Nat)
    {r : Arr K} (hr : gridDensity2 conv exp order rounds xb xt yb yt rx ry corr hist = .ok r) :
    ∃ r', gridDensity2 conv exp order rounds yb yt xb xt ry rx corr (tr hist) = .ok r' ∧ r'.h = r.w ∧ r'.w = r.h ∧
      ∀ i < r.h, ∀ j < r.w, r'.v j i = r.v i j := by
  have hww : winw2 ry rx = winw2 rx ry := by unfold winw2; rw [max_comm]
  obtain ⟨W, hW, hWh, hWw, hWv, -, -⟩ := window_spec he hx hy hcr (winw2 rx ry)
  obtain ⟨W', hW', hWh', hWw', hWv', -, -⟩ := window_spec he hy hx hcr (winw2 rx ry)
  have hg : ∀ y x, gaussExp ry rx corr y x = gaussExp rx ry corr x y := fun y x => gaussExp_swap rx ry corr x y
  have hS : gS exp ry rx corr (winw2 rx ry) = gS exp rx ry corr (winw2 rx ry) := by
    unfold gS
    rw [sum_comm]
    exact sum_congr rfl (fun o _ => sum_congr rfl (fun p _ => by rw [hg]))
  have hWW : ∀ o < 2 * winw2 rx ry + 1, ∀ p < 2 * winw2 rx ry + 1, W'.v p o = W.v o p := by
    intro o _ p _
    rw [hWv, hWv', hg, hS]
  have hsw := rawF2_swap (m := hist.h) (n := hist.w) (exp := exp) (hist := hist) (xb := xb) (xt := xt) (yb := yb) (yt := yt) (by omega) (by omega) hWW order rounds
  have hmx := maxF_swap (by omega) (by omega) hsw
  obtain ⟨g1, g2⟩ := grid_eval2 (xb := xb) (xt := xt) (yb := yb) (yt := yt) (exp := exp) hc hW hWh hWw rfl rfl hw hm hn ho rounds
  have ho' : (yb || yt || xb || xt) = true → order ≤ 1 := by
    intro h; apply ho; revert h; cases xb <;> cases xt <;> cases yb <;> cases yt <;> simp
  obtain ⟨-, g2'⟩ := grid_eval2 (xb := yb) (xt := yt) (yb := xb) (yt := xt) (exp := exp) (rx := ry) (ry := rx) (hist := tr hist) (m := hist.w) (n := hist.h) hc
    (by rw [hww]; exact hW') (by rw [hww]; exact hWh') (by rw [hww]; exact hWw') rfl rfl (by rw [hww]; exact hw) hn hm ho' rounds
  rw [hww] at g2'
  by_cases h0 : maxF hist.h hist.w (rawF2 exp order rounds xb xt yb yt hist.h hist.w (winw2 rx ry) W hist) = 0
  · rw [g1 h0] at hr; cases hr
  obtain ⟨r1, e1, v1⟩ := g2 h0
  rw [e1] at hr
  cases hr
  obtain ⟨r', e', v'⟩ := g2' (by rw [hmx]; exact h0)
  refine ⟨r', e', by rw [v'.1, v1.2.1], by rw [v'.2.1, v1.1], ?_⟩
  intro i hi j hj
  rw [v1.1] at hi
  rw [v1.2.1] at hj
  rw [v1.2.2 i hi j hj, v'.2.2 j hj i hi]
  unfold dens
  rw [hmx, hsw i hi j hj]

/-! ## Reversal of the direction of x -/

/-- the array with the order of its columns reversed -/
def mir (a : Arr K) : Arr K := ⟨a.h, a.w, fun i j => a.v i (a.w - 1 - j)⟩

theorem off_mir {p : Nat} (hp : p < 2 * w + 1) : (off w (2 * w - p) : K) = -off w p := by
  unfold off
  rw [Nat.cast_sub (by omega)]
  push_cast
  ring

theorem pad2_mir (a : Arr K) {i j : Nat} (hj : j < a.w + 2 * w) : pad2 w (mir a) i j = pad2 w a i (a.w + 2 * w - 1 - j) := by
  unfold pad2
  by_cases hi : i < w
  · rw [if_pos (.inl hi), if_pos (.inl hi)]
  by_cases h1 : j < w
  · rw [if_pos (.inr h1), if_neg (by omega), Arr.ent_w (by omega)]
  by_cases h2 : a.w + w ≤ j
  · rw [if_neg (by omega), if_pos (.inr (by omega))]
    exact Arr.ent_w (by simp only [mir]; omega)
  rw [if_neg (by omega), if_neg (by omega)]
  unfold Arr.ent mir
  dsimp only
  rw [show a.w - 1 - (j - w) = a.w + 2 * w - 1 - j - w by omega]
  by_cases h3 : i - w < a.h
  · rw [if_pos ⟨h3, by omega⟩, if_pos ⟨h3, by omega⟩]
  · rw [if_neg (fun h => h3 h.1), if_neg (fun h => h3 h.1)]

theorem m1_mir (b t all : Bool) {k : Nat} (hk : k < n + 2 * w) : (m1 t b all n w k : K) = m1 b t all n w (n + 2 * w - 1 - k) := by
  unfold m1
  have e1 : (n + 2 * w - 1 - k < w) ↔ (n + w ≤ k) := by omega
  have e2 : (n + w ≤ n + 2 * w - 1 - k) ↔ (k < w) := by omega
  have e3 : (n + 2 * w - 1 - k = w) ↔ (k + 1 = n + w) := by omega
  have e4 : (n + 2 * w - 1 - k + 1 = n + w) ↔ (k = w) := by omega
  simp only [e1, e2, e3, e4]
  congr 1
  · exact propext or_comm
  · congr 1
    exact propext or_comm

theorem ws_mir {g g' f f' : Nat → Nat → K} {i j : Nat} (hj : j < n) {s : K} (h1 : ∀ o < 2 * w + 1, ∀ p < 2 * w + 1, g' o p = s * g o (2 * w - p))
    (h2 : ∀ a, ∀ b < n + 2 * w, f' a b = f a (n + 2 * w - 1 - b)) : ws w g' f' i j = s * ws w g f i (n - 1 - j) := by
  unfold ws
  rw [mul_sum]
  refine sum_congr rfl (fun o ho => ?_)
  rw [mul_sum, ← sum_range_reflect]
  refine sum_congr rfl (fun p hp => ?_)
  rw [mem_range] at ho hp
  rw [h1 o ho _ (by omega), h2 _ _ (by omega)]
  rw [show 2 * w - (2 * w + 1 - 1 - p) = p by omega, show n + 2 * w - 1 - (j + p) = n - 1 - j + (2 * w - p) by omega]
  ring

theorem maxF_mir (hm : 0 < m) (hn : 0 < n) {P P' : Nat → Nat → K} (h : ∀ i < m, ∀ j < n, P' i j = P i (n - 1 - j)) : maxF m n P' = maxF m n P := by
  obtain ⟨⟨i, hi, j, hj, e⟩, hmx⟩ := maxF_spec hm hn P
  refine maxF_unique hm hn ⟨i, hi, n - 1 - j, by omega, by rw [h i hi _ (by omega), show n - 1 - (n - 1 - j) = j by omega, e]⟩ ?_
  intro a ha b hb
  rw [h a ha b hb]
  exact hmx a ha _ (by omega)

theorem kW_mir (hWW : ∀ o < 2 * w + 1, ∀ p < 2 * w + 1, W'.v o p = W.v o (2 * w - p)) (k l : Nat) {o p : Nat} (ho : o < 2 * w + 1)
    (hp : p < 2 * w + 1) : kW W' w k l o p = (-1) ^ k * kW W w k l o (2 * w - p) := by
  unfold kW
  rw [hWW o ho p hp, off_mir hp, neg_pow (off w p) k]
  have : ((-1 : K) ^ k) * (-1) ^ k = 1 := by rw [← mul_pow]; simp
  linear_combination (-(W.v o (2 * w - p) * off w p ^ k * off w o ^ l)) * this

theorem aF_mir (hWW : ∀ o < 2 * w + 1, ∀ p < 2 * w + 1, W'.v o p = W.v o (2 * w - p)) (k l i : Nat) {j : Nat} (hj : j < n) :
    aF W' xt xb yb yt m n w k l i j = (-1) ^ k * aF W xb xt yb yt m n w k l i (n - 1 - j) :=
  ws_mir hj (fun _ ho _ hp => kW_mir hWW k l ho hp) (fun a b hb => by unfold mask2; rw [m1_mir xb xt false hb])

theorem bF_mir (hWW : ∀ o < 2 * w + 1, ∀ p < 2 * w + 1, W'.v o p = W.v o (2 * w - p)) (k l i : Nat) {j : Nat} (hj : j < hist.w) :
    bF W' (mir hist) w k l i j = (-1) ^ k * bF W hist w k l i (hist.w - 1 - j) :=
  ws_mir hj (fun _ ho _ hp => kW_mir hWW k l ho hp) (fun _ _ hb => pad2_mir hist hb)

theorem rawF2_mir (hh : 0 < hist.h) (hn : 0 < hist.w) (hWW : ∀ o < 2 * w + 1, ∀ p < 2 * w + 1, W'.v o p = W.v o (2 * w - p)) (order : Int)
    (rounds : Nat) : ∀ i < hist.h, ∀ j < hist.w, rawF2 exp order rounds xt xb yb yt hist.h hist.w w W' (mir hist) i j =
      rawF2 exp order rounds xb xt yb yt hist.h hist.w w W hist i (hist.w - 1 - j) := by
  have hWW1 : ∀ o < 2 * w + 1, ∀ p < 2 * w + 1, W'.v o p = 1 * W.v o (2 * w - p) := fun o ho p hp => by rw [one_mul]; exact hWW o ho p hp
  unfold rawF2
  refine iter_rel (R := fun P P' : Nat → Nat → K => ∀ i < hist.h, ∀ j < hist.w, P i j = P' i (hist.w - 1 - j)) ?_ rounds _ _ ?_
  · intro P' P h i hi j hj
    unfold biasF2
    rw [h i hi j hj, ws_mir (g := W.v) (f := mask2 xb xt yb yt true hist.h hist.w w) (f' := mask2 xt xb yb yt true hist.h hist.w w) hj hWW1 (fun a b hb => by unfold mask2; rw [m1_mir xb xt true hb]),
      ws_mir (g := W.v) (f := pad2 w (boxF hist hist.h hist.w P)) hj hWW1, one_mul, one_mul]
    intro a b hb
    refine Eq.trans ?_ (pad2_mir (boxF hist hist.h hist.w P) (by simpa only [boxF] using hb))
    apply pad2_congr (K := K) (by rfl) (by rfl)
    intro c hc d hd
    simp only [boxF, mir] at hc hd ⊢
    rw [maxF_mir hh hn h, h c hc d hd]
  · intro i hi j hj
    have hb0 : ∀ i, ∀ j < hist.w, bF W' (mir hist) w 0 0 i j = bF W hist w 0 0 i (hist.w - 1 - j) := fun i j hj => by
      rw [bF_mir hWW 0 0 i hj, pow_zero, one_mul]
    unfold edgeF
    rw [maxF_mir hh hn (fun i _ j hj => hb0 i j hj), hb0 i j hj, aF_mir hWW 0 0 i hj, pow_zero, one_mul]
    have e : (xt || xb || yb || yt) = (xb || xt || yb || yt) := by cases xb <;> cases xt <;> cases yb <;> cases yt <;> rfl
    rw [e]
    have e2 : fix2 exp order (bF W hist w 0 0 i (hist.w - 1 - j)) (fun k l => aF W' xt xb yb yt hist.h hist.w w k l i j)
          (fun k l => bF W' (mir hist) w k l i j) =
        fix2 exp order (bF W hist w 0 0 i (hist.w - 1 - j)) (fun k l => aF W xb xt yb yt hist.h hist.w w k l i (hist.w - 1 - j))
          (fun k l => bF W hist w k l i (hist.w - 1 - j)) := by
      unfold fix2
      simp only [aF_mir hWW _ _ _ hj, bF_mir hWW _ _ _ hj, pow_zero, pow_one, one_mul]
      congr 2
      unfold corrected
      dsimp only
      congr 1 <;> ring
    rw [e2]

/-- **C126** Reversing the direction of x (with its limits exchanged and the correlation negated) mirrors the density and changes nothing else. -/
theorem density_mirror (hc : Conv2Ok conv) (he : ∀ x, 0 < exp x) {rx ry corr : K} (hx : rx ≠ 0) (hy : ry ≠ 0) (hcr : corr ^ 2 ≠ 1)
    (hw : 0 < winw2 rx ry) (hm : 2 ≤ hist.h) (hn : 2 ≤ hist.w) {order : Int} (ho : (xb || xt || yb || yt) = true → order ≤ 1) (rounds : Nat)
    {r : Arr K} (hr : gridDensity2 conv exp order rounds xb xt yb yt rx ry corr hist = .ok r) :
    ∃ r', gridDensity2 conv exp order rounds xt xb yb yt rx ry (-corr) (mir hist) = .ok r' ∧ r'.h = r.h ∧ r'.w = r.w ∧
      ∀ i < r.h, ∀ j < r.w, r'.v i j = r.v i (r.w - 1 - j) := by
  obtain ⟨W, hW, hWh, hWw, hWv, -, -⟩ := window_spec he hx hy hcr (winw2 rx ry)
  obtain ⟨W', hW', hWh', hWw', hWv', -, -⟩ := window_spec he hx hy (corr := -corr) (by rwa [neg_sq]) (winw2 rx ry)
  have hg : ∀ o, ∀ p < 2 * winw2 rx ry + 1, gaussExp rx ry (-corr) (off (winw2 rx ry) p) o = gaussExp rx ry corr (off (winw2 rx ry) (2 * winw2 rx ry - p)) o := by
    intro o p hp
    rw [off_mir hp]
    unfold gaussExp
    ring
  have hS : gS exp rx ry (-corr) (winw2 rx ry) = gS exp rx ry corr (winw2 rx ry) := by
    unfold gS
    refine sum_congr rfl (fun o _ => ?_)
    rw [← sum_range_reflect]
    refine sum_congr rfl (fun p hp => ?_)
    rw [mem_range] at hp
    rw [hg _ _ (by omega), show 2 * winw2 rx ry - (2 * winw2 rx ry + 1 - 1 - p) = p by omega]
  have hWW : ∀ o < 2 * winw2 rx ry + 1, ∀ p < 2 * winw2 rx ry + 1, W'.v o p = W.v o (2 * winw2 rx ry - p) := by
    intro o _ p hp
    rw [hWv, hWv', hg _ p hp, hS]
  have hsw := rawF2_mir (exp := exp) (hist := hist) (xb := xb) (xt := xt) (yb := yb) (yt := yt) (by omega) (by omega) hWW order rounds
  have hmx := maxF_mir (by omega) (by omega) hsw
  obtain ⟨g1, g2⟩ := grid_eval2 (xb := xb) (xt := xt) (yb := yb) (yt := yt) (exp := exp) hc hW hWh hWw rfl rfl hw hm hn ho rounds
  have ho' : (xt || xb || yb || yt) = true → order ≤ 1 := by
    intro h; apply ho; revert h; cases xb <;> cases xt <;> cases yb <;> cases yt <;> simp
  obtain ⟨-, g2'⟩ := grid_eval2 (xb := xt) (xt := xb) (yb := yb) (yt := yt) (exp := exp) (hist := mir hist) (m := hist.h) (n := hist.w) hc
    hW' hWh' hWw' rfl rfl hw hm hn ho' rounds
  by_cases h0 : maxF hist.h hist.w (rawF2 exp order rounds xb xt yb yt hist.h hist.w (winw2 rx ry) W hist) = 0
  · rw [g1 h0] at hr; cases hr
  obtain ⟨r1, e1, v1⟩ := g2 h0
  rw [e1] at hr
  cases hr
  obtain ⟨r', e', v'⟩ := g2' (by rw [hmx]; exact h0)
  refine ⟨r', e', by rw [v'.1, v1.1], by rw [v'.2.1, v1.2.1], ?_⟩
  intro i hi j hj
  rw [v1.1] at hi
  rw [v1.2.1] at hj ⊢
  rw [v1.2.2 i hi _ (by omega), v'.2.2 i hi j hj]
  unfold dens
  rw [hmx, hsw i hi j hj]

/-! ## Scale of the weights -/

/-- all weights multiplied by a number -/
def scale (s : K) (a : Arr K) : Arr K := ⟨a.h, a.w, fun i j => s * a.v i j⟩

theorem pad2_scale (s : K) (a : Arr K) (i j : Nat) : pad2 w (scale s a) i j = s * pad2 w a i j := by
  unfold pad2 Arr.ent scale
  split_ifs <;> simp

theorem bF_scale (s : K) (k l i j : Nat) : bF W (scale s hist) w k l i j = s * bF W hist w k l i j := by
  unfold bF ws
  rw [mul_sum]
  refine sum_congr rfl (fun o _ => ?_)
  rw [mul_sum]
  exact sum_congr rfl (fun p _ => by rw [pad2_scale]; ring)

theorem maxF_scale (hm : 0 < m) (hn : 0 < n) {s : K} (hs : 0 < s) {P P' : Nat → Nat → K} (h : ∀ i < m, ∀ j < n, P' i j = s * P i j) :
    maxF m n P' = s * maxF m n P := by
  obtain ⟨⟨i, hi, j, hj, e⟩, hmx⟩ := maxF_spec hm hn P
  refine maxF_unique hm hn ⟨i, hi, j, hj, by rw [h i hi j hj, e]⟩ ?_
  intro a ha b hb
  rw [h a ha b hb]
  exact mul_le_mul_of_nonneg_left (hmx a ha b hb) hs.le

theorem edgeF_scale (hm : 0 < m) (hn : 0 < n) {s : K} (hs : 0 < s) (order : Int) : ∀ i < m, ∀ j < n,
    edgeF exp order xb xt yb yt m n w W (scale s hist) (bF W (scale s hist) w 0 0) i j =
      s * edgeF exp order xb xt yb yt m n w W hist (bF W hist w 0 0) i j := by
  intro i hi j hj
  unfold edgeF
  rw [maxF_scale hm hn hs (fun i _ j _ => bF_scale s 0 0 i j), bF_scale]
  have e2 : fix2 exp order (s * bF W hist w 0 0 i j) (fun k l => aF W xb xt yb yt m n w k l i j) (fun k l => bF W (scale s hist) w k l i j) =
      s * fix2 exp order (bF W hist w 0 0 i j) (fun k l => aF W xb xt yb yt m n w k l i j) (fun k l => bF W hist w k l i j) := by
    unfold fix2
    simp only [bF_scale]
    split_ifs
    · have hcs : ∀ P xP yP a00 a10 a01 a20 a02 a11 : K, corrected (s * P) (s * xP) (s * yP) a00 a10 a01 a20 a02 a11 =
          s * corrected P xP yP a00 a10 a01 a20 a02 a11 := by
        intros; unfold corrected; dsimp only; ring
      rw [hcs]
      unfold soften
      rw [mul_div_assoc s, mul_div_mul_left _ _ hs.ne']
      ring
    · rw [mul_div_assoc]
  rw [e2]
  have e3 : (s * maxF m n (bF W hist w 0 0) * tiny < aF W xb xt yb yt m n w 0 0 i j * (s * bF W hist w 0 0 i j)) ↔
      (maxF m n (bF W hist w 0 0) * tiny < aF W xb xt yb yt m n w 0 0 i j * bF W hist w 0 0 i j) := by
    rw [← mul_lt_mul_iff_right₀ hs (b := maxF m n (bF W hist w 0 0) * tiny)]
    constructor <;> intro h <;> linarith
  simp only [e3]
  split_ifs <;> rfl

/-- no samples where the estimate is negligible -/
def NoTail (m n : Nat) (hist : Arr K) (P : Nat → Nat → K) : Prop := ∀ i < m, ∀ j < n, P i j ≤ maxF m n P / 10 ^ 8 → hist.v i j = 0

theorem biasF2_scale (hm : 0 < m) (hn : 0 < n) {s : K} (hs : 0 < s) {P P' : Nat → Nat → K} (h : ∀ i < m, ∀ j < n, P' i j = s * P i j)
    (hb : NoTail m n hist P) : ∀ i < m, ∀ j < n,
    biasF2 xb xt yb yt m n w W (scale s hist) P' i j = s * biasF2 xb xt yb yt m n w W hist P i j := by
  intro i hi j hj
  unfold biasF2
  rw [h i hi j hj, ws_congr (f' := pad2 w (boxF hist m n P)) (fun _ _ _ _ => rfl)]
  · ring
  · intro o _ p _
    apply pad2_congr (K := K) (by rfl) (by rfl)
    intro a ha b hb'
    simp only [boxF, scale] at ha hb' ⊢
    rw [maxF_scale hm hn hs h, h a ha b hb']
    have e3 : (s * maxF m n P * tiny < s * P a b) ↔ (maxF m n P * tiny < P a b) := by
      rw [mul_assoc, mul_lt_mul_iff_right₀ hs]
    simp only [e3]
    split_ifs with hc
    · rw [mul_div_mul_left _ _ hs.ne']
    · rw [hb a ha b hb' (by unfold tiny at hc; rw [mul_one_div] at hc; exact not_lt.mp hc), mul_zero]

/-- **C126** Multiplying all weights by a positive number leaves the density unchanged, without bias correction, and also with it if at no
round there are samples where the estimate is below 1e-8 of its maximum.  (The condition is needed: `bias_scale_fails`.) -/
theorem density_scale (hc : Conv2Ok conv) (he : ∀ x, 0 < exp x) {rx ry corr : K} (hx : rx ≠ 0) (hy : ry ≠ 0) (hcr : corr ^ 2 ≠ 1)
    (hw : 0 < winw2 rx ry) (hm : 2 ≤ hist.h) (hn : 2 ≤ hist.w) {order : Int} (ho : (xb || xt || yb || yt) = true → order ≤ 1) (rounds : Nat)
    {s : K} (hs : 0 < s)
    (hb : ∀ k < rounds, ∀ W, window exp rx ry corr (winw2 rx ry) = .ok W → ∀ P, raw2 conv exp order k xb xt yb yt (winw2 rx ry) W hist = .ok P →
      NoTail hist.h hist.w hist P.v)
    {r : Arr K} (hr : gridDensity2 conv exp order rounds xb xt yb yt rx ry corr hist = .ok r) :
    ∃ r', gridDensity2 conv exp order rounds xb xt yb yt rx ry corr (scale s hist) = .ok r' ∧ r'.h = r.h ∧ r'.w = r.w ∧
      ∀ i < r.h, ∀ j < r.w, r'.v i j = r.v i j := by
  obtain ⟨W, hW, hWh, hWw, -, -, -⟩ := window_spec he hx hy hcr (winw2 rx ry)
  have hb' : ∀ k < rounds, NoTail hist.h hist.w hist (rawF2 exp order k xb xt yb yt hist.h hist.w (winw2 rx ry) W hist) := by
    intro k hk
    obtain ⟨P, hP, vP⟩ := raw_eval2 (exp := exp) (xb := xb) (xt := xt) (yb := yb) (yt := yt) hc hWh hWw rfl rfl hw hm hn ho k
    have := hb k hk W hW P hP
    have hm1 : maxF hist.h hist.w P.v = maxF hist.h hist.w (rawF2 exp order k xb xt yb yt hist.h hist.w (winw2 rx ry) W hist) := maxF_congr vP.2.2
    intro i hi j hj h
    refine this i hi j hj ?_
    rw [hm1, vP.2.2 i hi j hj]
    exact h
  have hsw : ∀ i < hist.h, ∀ j < hist.w, rawF2 exp order rounds xb xt yb yt hist.h hist.w (winw2 rx ry) W (scale s hist) i j =
      s * rawF2 exp order rounds xb xt yb yt hist.h hist.w (winw2 rx ry) W hist i j := by
    clear hr hb
    induction rounds with
    | zero => exact edgeF_scale (by omega) (by omega) hs order
    | succ k ih =>
      have hit : ∀ (f : (Nat → Nat → K) → Nat → Nat → K) (k : Nat) (a : Nat → Nat → K), iter f (k + 1) a = f (iter f k a) := by
        intro f k
        induction k with
        | zero => intro a; rfl
        | succ k ih => intro a; exact ih (f a)
      unfold rawF2
      rw [hit, hit]
      exact biasF2_scale (by omega) (by omega) hs (ih (fun k' hk' => hb' k' (by omega))) (hb' k (by omega))
  have hmx := maxF_scale (by omega) (by omega) hs hsw
  obtain ⟨g1, g2⟩ := grid_eval2 (xb := xb) (xt := xt) (yb := yb) (yt := yt) (exp := exp) hc hW hWh hWw rfl rfl hw hm hn ho rounds
  obtain ⟨-, g2'⟩ := grid_eval2 (xb := xb) (xt := xt) (yb := yb) (yt := yt) (exp := exp) (hist := scale s hist) (m := hist.h) (n := hist.w) hc
    hW hWh hWw rfl rfl hw hm hn ho rounds
  by_cases h0 : maxF hist.h hist.w (rawF2 exp order rounds xb xt yb yt hist.h hist.w (winw2 rx ry) W hist) = 0
  · rw [g1 h0] at hr; cases hr
  obtain ⟨r1, e1, v1⟩ := g2 h0
  rw [e1] at hr
  cases hr
  obtain ⟨r', e', v'⟩ := g2' (by rw [hmx]; exact mul_ne_zero hs.ne' h0)
  refine ⟨r', e', by rw [v'.1, v1.1], by rw [v'.2.1, v1.2.1], ?_⟩
  intro i hi j hj
  rw [v1.1] at hi
  rw [v1.2.1] at hj
  rw [v1.2.2 i hi j hj, v'.2.2 i hi j hj]
  unfold dens
  rw [hmx, hsw i hi j hj, mul_div_mul_left _ _ hs.ne']

end sym

end Verif.Kde2D
