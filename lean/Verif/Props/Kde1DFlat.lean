import Verif.Props.Kde1D

/-!
# The whole one-dimensional density: flat priors, range of values, scale of the weights (C68)
-/

namespace Verif.Kde1D
set_option linter.unusedSectionVars false
open Verif.Py Verif.Py.Np Verif.Convolve Finset

variable {K : Type} [Field K] [LinearOrder K] [IsStrictOrderedRing K] [FloorRing K]

/-! ## Maxima -/

theorem foldl_max_mem (l : List K) (a : K) : l.foldl max a = a ∨ l.foldl max a ∈ l := by
  induction l generalizing a with
  | nil => left; rfl
  | cons b l ih =>
    rw [List.foldl_cons]
    rcases ih (max a b) with h | h
    · rw [h]
      rcases le_total a b with hab | hab
      · right; rw [max_eq_right hab]; exact List.mem_cons_self
      · left; exact max_eq_left hab
    · right; exact List.mem_cons_of_mem _ h

theorem maxOf_spec {l : List K} (h : l ≠ []) : Density.maxOf l ∈ l ∧ ∀ x ∈ l, x ≤ Density.maxOf l := by
  cases l with
  | nil => exact absurd rfl h
  | cons a l =>
    obtain ⟨h1, h2⟩ := foldl_max_ge l a
    constructor
    · rcases foldl_max_mem l a with h | h
      · show l.foldl max a ∈ a :: l
        rw [h]; exact List.mem_cons_self
      · exact List.mem_cons_of_mem _ h
    · intro x hx
      rcases List.mem_cons.mp hx with rfl | hx
      · exact h1
      · exact h2 x hx

theorem maxOf_mul {k : K} (hk : 0 < k) (l : List K) : Density.maxOf (l.map (k * ·)) = k * Density.maxOf l := by
  cases l with
  | nil => simp [Density.maxOf]
  | cons a l =>
    show (l.map (k * ·)).foldl max (k * a) = k * l.foldl max a
    induction l generalizing a with
    | nil => rfl
    | cons b l ih =>
      rw [List.map_cons, List.foldl_cons, List.foldl_cons, ← ih (max a b)]
      congr 1
      rcases le_total a b with h | h
      · rw [max_eq_right h, max_eq_right (by nlinarith)]
      · rw [max_eq_left h, max_eq_left (by nlinarith)]

/-! ## The pieces as functions of the position -/

section eval
variable {conv : Conv K} {exp : K → K} {n w : Nat} {W bins : List K} {bot top : Bool}

/-- the part of the correction chosen by the settings -/
def edgeFix (exp : K → K) (order : Int) (bot top : Bool) (n w : Nat) (W bins : List K) (P : Nat → K) (i : Nat) : K :=
  if (bot || top) ∧ 0 ≤ order then fix exp order (P i) (fun k => aM W bot top n w k i) (fun k => bM W bins w k i)
  else if order = 2 then
    if 0 < P i then P i * exp (min (correctedFree (P i) (bM W bins w 2 i) (xWin W w 2).sum (xWin W w 4).sum / P i) 2 - 1) else P i
  else P i

theorem fix_congr {order : Int} {P : K} {a b a' b' : Nat → K} (h1 : ∀ k, a k = a' k) (h2 : ∀ k, b k = b' k) :
    fix exp order P a b = fix exp order P a' b' := by rw [funext h1, funext h2]

theorem edge_eval (hc : ConvOk conv) (hW : W.length = 2 * w + 1) (hw : 0 < w) (hn : 2 * w + 1 ≤ n) (hb : bins.length = n)
    (P : Nat → K) {order : Int} (h2 : order ≤ 2) :
    edgeCorrect conv exp order bot top n w W bins ((List.range n).map P) = .ok ((List.range n).map (edgeFix exp order bot top n w W bins P)) := by
  unfold edgeCorrect
  by_cases h : (bot || top) = true ∧ 0 ≤ order
  · rw [if_pos h, boundary_eval hc hW hw hn hb _ h2]
    refine congrArg Except.ok (List.map_congr_left (fun i hi => ?_))
    unfold edgeFix
    rw [if_pos h, ent_range _ (List.mem_range.mp hi)]
  · rw [if_neg h]
    by_cases h3 : order = 2
    · rw [if_pos h3]
      unfold freeCorrect
      simp only [run_b (conv := conv) hc hW hb hn 2, bind, Except.bind, pure, Except.pure]
      refine congrArg Except.ok (List.map_congr_left (fun i hi => ?_))
      unfold edgeFix
      rw [if_neg h, if_pos h3, ent_range _ (List.mem_range.mp hi), ent_range _ (List.mem_range.mp hi)]
    · rw [if_neg h3]
      refine congrArg Except.ok (List.map_congr_left (fun i _ => ?_))
      unfold edgeFix
      rw [if_neg h, if_neg h3]

/-- the flattened histogram -/
def fineF (bins : List K) (P : Nat → K) (i : Nat) : K := ent bins i / (if P i = 0 then 1 else P i)

def biasF (bot top : Bool) (n w : Nat) (W bins : List K) (P : Nat → K) (i : Nat) : K :=
  P i * wsum w (ent W) (pad w ((List.range n).map (fineF bins P))) i / wsum w (ent W) (pad w (edgeMask bot top n)) i

def iter {α : Type} (f : α → α) : Nat → α → α
  | 0, a => a
  | k + 1, a => iter f k (f a)

theorem rounds_eval (hc : ConvOk conv) (hW : W.length = 2 * w + 1) (hn : 2 * w + 1 ≤ n) (a0 : Nat → K) : ∀ (k : Nat) (P : Nat → K),
    biasRounds conv n W bins ((List.range n).map a0) k ((List.range n).map P) =
      .ok ((List.range n).map (iter (fun P i => P i * wsum w (ent W) (pad w ((List.range n).map (fineF bins P))) i / a0 i) k P))
  | 0, P => rfl
  | k + 1, P => by
    have hs : biasStep conv n W bins ((List.range n).map a0) ((List.range n).map P) =
        .ok ((List.range n).map (fun i => P i * wsum w (ent W) (pad w ((List.range n).map (fineF bins P))) i / a0 i)) := by
      unfold biasStep
      have hf : (List.range n).map (fun i => ent bins i / (if ent ((List.range n).map P) i = 0 then 1 else ent ((List.range n).map P) i)) =
          (List.range n).map (fineF bins P) := by
        refine List.map_congr_left (fun i hi => ?_)
        rw [ent_range _ (List.mem_range.mp hi)]; rfl
      simp only [hf]
      rw [run_same hc (by simp) hW hn]
      simp only [bind, Except.bind, pure, Except.pure]
      refine congrArg Except.ok (List.map_congr_left (fun i hi => ?_))
      have hi := List.mem_range.mp hi
      rw [ent_range _ hi, ent_range _ hi, ent_range _ hi]
    unfold biasRounds
    rw [hs]
    simp only []
    rw [rounds_eval hc hW hn a0 k]
    rfl

theorem bias_eval (hc : ConvOk conv) (hW : W.length = 2 * w + 1) (hw : 0 < w) (hn : 2 * w + 1 ≤ n) (k : Nat) (P : Nat → K) :
    biasCorrect conv k bot top n W bins ((List.range n).map P) = .ok ((List.range n).map (iter (biasF bot top n w W bins) k P)) := by
  unfold biasCorrect
  by_cases hk : k = 0
  · rw [if_pos hk, hk]; rfl
  · rw [if_neg hk, run_same hc (edgeMask_ent bot top (by omega)).1 hW hn]
    simp only []
    rw [rounds_eval hc hW hn]
    rfl

/-- the density before it is scaled -/
def rawF (exp : K → K) (order : Int) (rounds : Nat) (bot top : Bool) (n w : Nat) (W bins : List K) : Nat → K :=
  iter (biasF bot top n w W bins) rounds (edgeFix exp order bot top n w W bins (bM W bins w 0))

theorem grid_eval (hc : ConvOk conv) (hw : 0 < w) (hn : 2 * w + 1 ≤ n) (hb : bins.length = n) {order : Int} (h2 : order ≤ 2) (rounds : Nat) (h : K) :
    gridDensity conv exp order rounds bot top n w h bins =
      if Density.maxOf ((List.range n).map (rawF exp order rounds bot top n w (win exp w h) bins)) = 0 then .error (.densities .densitiesError)
      else .ok ((List.range n).map (fun i => rawF exp order rounds bot top n w (win exp w h) bins i /
        Density.maxOf ((List.range n).map (rawF exp order rounds bot top n w (win exp w h) bins)))) := by
  have hW := win_length exp w h
  have hP := run_b (conv := conv) hc hW hb hn 0
  rw [xWin_zero hW] at hP
  unfold gridDensity
  rw [hP]
  simp only []
  rw [edge_eval hc hW hw hn hb _ h2]
  simp only []
  rw [bias_eval hc hW hw hn]
  simp only []
  unfold Density.normalize
  simp only []
  have e0 : iter (biasF bot top n w (win exp w h) bins) rounds (edgeFix exp order bot top n w (win exp w h) bins (bM (win exp w h) bins w 0)) =
      rawF exp order rounds bot top n w (win exp w h) bins := rfl
  simp only [e0]
  split_ifs with hm
  · rfl
  · simp only [List.map_map]; rfl

end eval

/-! ## Flat densities -/

theorem iter_fix {α : Type} {f : α → α} {p : α → Prop} (h : ∀ a, p a → p (f a)) : ∀ k a, p a → p (iter f k a)
  | 0, _, ha => ha
  | k + 1, a, ha => iter_fix h k (f a) (h a ha)

theorem edgeMask_hist (bot top : Bool) {n : Nat} (hn : 2 ≤ n) : IsHist bot top n (edgeMask bot top n : List K) (fun _ => 1) :=
  ⟨(edgeMask_ent bot top hn).1, fun j hj => by rw [(edgeMask_ent bot top hn).2 j hj, mul_one]⟩

/-- **C68**: samples of a flat density between two hard limits give a density that is exactly one on the whole grid, up to and including the limits,
for every order of the boundary correction and any number of rounds of bias correction -/
theorem flat_exact {conv : Conv K} {exp : K → K} {n w : Nat} {bins : List K} (hc : ConvOk conv) (he : ∀ x, 0 < exp x) (he0 : exp 0 = 1)
    (hw : 2 ≤ w) (hn : 2 * w + 1 ≤ n) (h c : K) (hcp : 0 < c) (hb : IsHist true true n bins (fun _ => c)) (order : Int) (h0 : 0 ≤ order)
    (h2 : order ≤ 2) (rounds : Nat) : gridDensity conv exp order rounds true true n w h bins = .ok (List.replicate n 1) := by
  have hW := win_length exp w h
  have hWp : ∀ o < 2 * w + 1, 0 < ent (win exp w h) o := fun o ho => win_pos he w h ho
  set W := win exp w h with hWd
  have hbM : ∀ i < n, ∀ k, bM W bins w k i = c * aM W true true n w k i := by
    intro i hi k
    rw [bM_eq hW hb (by omega) (by omega) hi (.inl rfl) (.inl rfl), aM_mom hW]
    unfold mom
    rw [mul_sum]
    exact sum_congr rfl (fun o _ => by ring)
  have hmask : ∀ i < n, wsum w (ent W) (pad w (edgeMask true true n)) i = aM W true true n w 0 i := by
    intro i hi
    have := bM_eq hW (edgeMask_hist (K := K) true true (by omega : 2 ≤ n)) (by omega) (by omega) hi (.inl rfl) (.inl rfl) 0
    unfold bM at this
    rw [xWin_zero hW] at this
    rw [this, aM_mom hW]
    exact sum_congr rfl (fun o _ => by ring)
  have ha0 : ∀ i < n, 0 < aM W true true n w 0 i := fun i hi => a0_pos hWp hW (by omega) (by omega) hi
  have hedge : ∀ i < n, edgeFix exp order true true n w W bins (bM W bins w 0) i = c := by
    intro i hi
    have hp := ha0 i hi
    unfold edgeFix
    rw [if_pos ⟨rfl, h0⟩]
    unfold fix
    have hne : ¬ aM W true true n w 0 i * bM W bins w 0 i = 0 := by
      rw [hbM i hi]; exact mul_ne_zero hp.ne' (mul_ne_zero hcp.ne' hp.ne')
    have hnorm : bM W bins w 0 i / aM W true true n w 0 i = c := by
      rw [hbM i hi, mul_div_assoc, div_self hp.ne', mul_one]
    have hsoft : ∀ q : K, q = c → soften exp 4 c q = c := by
      rintro q rfl
      unfold soften
      rw [div_self hcp.ne', min_eq_left (by norm_num), sub_self, he0, mul_one]
    rw [if_neg hne, hnorm]
    split_ifs with o0 o1
    · rfl
    · apply hsoft
      unfold corrected1
      simp only [hbM i hi]
      have hd := det1_pos (bot := true) (top := true) hWp (by omega : 0 < w) (by omega : 2 ≤ n) hi
      rw [← aM_mom hW, ← aM_mom hW, ← aM_mom hW] at hd
      rw [div_eq_iff (by intro e; linarith)]
      ring
    · apply hsoft
      unfold corrected2
      dsimp only
      simp only [hbM i hi]
      have hd := det_pos (bot := true) (top := true) hWp hw (by omega : 3 ≤ n) hi
      dsimp only at hd
      simp only [← aM_mom hW] at hd
      rw [div_eq_iff hd.ne']
      ring
  have hiter : ∀ i < n, rawF exp order rounds true true n w W bins i = c := by
    unfold rawF
    refine iter_fix (p := fun P : Nat → K => ∀ i < n, P i = c) ?_ rounds _ hedge
    intro P hP i hi
    unfold biasF
    have hf : (List.range n).map (fineF bins P) = edgeMask true true n := by
      conv_rhs => rw [list_ent (edgeMask true true n : List K), (edgeMask_ent true true (by omega : 2 ≤ n)).1]
      refine List.map_congr_left (fun j hj => ?_)
      have hj := List.mem_range.mp hj
      unfold fineF
      rw [hP j hj, if_neg hcp.ne', hb.2 j hj, (edgeMask_ent true true (by omega)).2 j hj, mul_div_assoc, div_self hcp.ne', mul_one]
    rw [hf, hP i hi, hmask i hi, mul_div_assoc, div_self (ha0 i hi).ne', mul_one]
  have hlist : (List.range n).map (rawF exp order rounds true true n w W bins) = List.replicate n c := by
    apply List.ext_getElem?
    intro i
    by_cases hi : i < n
    · rw [List.getElem?_map, List.getElem?_range hi, List.getElem?_replicate, if_pos hi, Option.map_some, hiter i hi]
    · rw [List.getElem?_eq_none (by simp; omega), List.getElem?_eq_none (by simp; omega)]
  have hmax : Density.maxOf (List.replicate n c) = c := by
    have hne : List.replicate n c ≠ [] := by
      intro e; have := congrArg List.length e; simp at this; omega
    exact (List.mem_replicate.mp (maxOf_spec hne).1).2
  rw [grid_eval hc (by omega) hn hb.1 h2 rounds h]
  rw [← hWd, hlist, hmax, if_neg hcp.ne']
  refine congrArg Except.ok ?_
  apply List.ext_getElem?
  intro i
  by_cases hi : i < n
  · rw [List.getElem?_map, List.getElem?_range hi, List.getElem?_replicate, if_pos hi, Option.map_some, hiter i hi, div_self hcp.ne']
  · rw [List.getElem?_eq_none (by simp; omega), List.getElem?_eq_none (by simp; omega)]

/-! ## Range of values -/

section pos
variable {conv : Conv K} {exp : K → K} {n w : Nat} {W bins : List K} {bot top : Bool}

/-- not negative, and positive where there are samples -/
def Pos (n : Nat) (bins : List K) (P : Nat → K) : Prop := ∀ i < n, 0 ≤ P i ∧ (0 < ent bins i → 0 < P i)

theorem wsum_pos (hWp : ∀ o < 2 * w + 1, 0 < ent W o) {x : List K} (hx : ∀ j, 0 ≤ ent x j) (i : Nat) :
    0 ≤ wsum w (ent W) (pad w x) i ∧ (0 < ent x i → 0 < wsum w (ent W) (pad w x) i) := by
  have hp : ∀ p, 0 ≤ pad w x p := by
    intro p; unfold pad; split
    · exact le_refl _
    · exact hx _
  have hn : ∀ o ∈ range (2 * w + 1), 0 ≤ ent W o * pad w x (i + (2 * w - o)) := fun o ho => mul_nonneg (hWp o (mem_range.mp ho)).le (hp _)
  refine ⟨sum_nonneg hn, fun hi => sum_pos' hn ⟨w, by simp; omega, mul_pos (hWp w (by omega)) ?_⟩⟩
  unfold pad
  rw [if_neg (by omega), show i + (2 * w - w) - w = i by omega]
  exact hi

theorem edgeFix_pos (hWp : ∀ o < 2 * w + 1, 0 < ent W o) (hW : W.length = 2 * w + 1) (hw : 0 < w) (hn : 2 ≤ n) (he : ∀ x, 0 < exp x)
    (order : Int) {P : Nat → K} (hP : Pos n bins P) : Pos n bins (edgeFix exp order bot top n w W bins P) := by
  intro i hi
  obtain ⟨h0, h1⟩ := hP i hi
  have ha := a0_pos (bot := bot) (top := top) hWp hW hw hn hi
  have key : ∀ q : K, 0 < P i → 0 < soften exp 4 (P i / aM W bot top n w 0 i) q := fun q hp => mul_pos (div_pos hp ha) (he _)
  have hsuff : (P i = 0 → edgeFix exp order bot top n w W bins P i = 0) ∧ (0 < P i → 0 < edgeFix exp order bot top n w W bins P i) := by
    unfold edgeFix fix
    constructor
    · intro hz
      simp only [hz, mul_zero, if_true, lt_irrefl, if_false]
      split_ifs <;> rfl
    · intro hp
      have hne : ¬ aM W bot top n w 0 i * P i = 0 := mul_ne_zero ha.ne' hp.ne'
      rw [if_neg hne, if_pos hp]
      split_ifs
      · exact div_pos hp ha
      · exact key _ hp
      · exact key _ hp
      · exact mul_pos hp (he _)
      · exact hp
  rcases h0.eq_or_lt with hz | hp
  · refine ⟨(hsuff.1 hz.symm).ge, fun hb => ?_⟩
    exact absurd hz.symm (h1 hb).ne'
  · exact ⟨(hsuff.2 hp).le, fun _ => hsuff.2 hp⟩

theorem edgeMask_nonneg (hn : 2 ≤ n) (j : Nat) : 0 ≤ ent (edgeMask bot top n : List K) j ∧ (j < n → 0 < ent (edgeMask bot top n : List K) j) := by
  obtain ⟨h1, h2⟩ := edgeMask_ent (K := K) bot top hn
  have : j < n → 0 < ent (edgeMask bot top n : List K) j := by
    intro hj; rw [h2 j hj]; split_ifs <;> norm_num
  refine ⟨?_, this⟩
  by_cases hj : j < n
  · exact (this hj).le
  · rw [ent_ge (by omega)]

theorem biasF_pos (hWp : ∀ o < 2 * w + 1, 0 < ent W o) (hn : 2 ≤ n) (hb : ∀ j, 0 ≤ ent bins j) {P : Nat → K} (hP : Pos n bins P) :
    Pos n bins (biasF bot top n w W bins P) := by
  have hf : ∀ j, 0 ≤ ent ((List.range n).map (fineF bins P)) j := by
    intro j
    by_cases hj : j < n
    · rw [ent_range _ hj]
      unfold fineF
      refine div_nonneg (hb j) ?_
      split
      · exact zero_le_one
      · exact (hP j hj).1
    · rw [ent_ge (by simp; omega)]
  intro i hi
  obtain ⟨h0, h1⟩ := hP i hi
  obtain ⟨w0, w1⟩ := wsum_pos (w := w) hWp hf i
  have hm := (wsum_pos (w := w) hWp (fun j => (edgeMask_nonneg (bot := bot) (top := top) (K := K) hn j).1) i).2 ((edgeMask_nonneg hn i).2 hi)
  unfold biasF
  refine ⟨div_nonneg (mul_nonneg h0 w0) hm.le, fun hbi => ?_⟩
  have hPi := h1 hbi
  refine div_pos (mul_pos hPi (w1 ?_)) hm
  rw [ent_range _ hi]
  unfold fineF
  rw [if_neg hPi.ne']
  exact div_pos hbi hPi

theorem rawF_pos (hWp : ∀ o < 2 * w + 1, 0 < ent W o) (hW : W.length = 2 * w + 1) (hw : 0 < w) (hn : 2 ≤ n) (he : ∀ x, 0 < exp x)
    (hb : ∀ j, 0 ≤ ent bins j) (order : Int) (rounds : Nat) : Pos n bins (rawF exp order rounds bot top n w W bins) := by
  unfold rawF
  refine iter_fix (p := Pos n bins) (fun P hP => biasF_pos hWp hn hb hP) rounds _ (edgeFix_pos hWp hW hw hn he order ?_)
  intro i _
  unfold bM
  rw [xWin_zero hW]
  exact wsum_pos hWp hb i

end pos

/-- **C68**: for a histogram with non-negative weights, not all zero, the density is computed; it has values between zero and one, and one is reached -/
theorem density_range {conv : Conv K} {exp : K → K} {n w : Nat} {bins : List K} (hc : ConvOk conv) (he : ∀ x, 0 < exp x) (hw : 0 < w)
    (hn : 2 * w + 1 ≤ n) (h : K) (hl : bins.length = n) (hb : ∀ x ∈ bins, 0 ≤ x) (hs : ∃ x ∈ bins, x ≠ 0) (bot top : Bool) (order : Int)
    (h2 : order ≤ 2) (rounds : Nat) : ∃ r, gridDensity conv exp order rounds bot top n w h bins = .ok r ∧ r.length = n ∧
      (∀ x ∈ r, 0 ≤ x ∧ x ≤ 1) ∧ 1 ∈ r ∧ ∀ i < n, 0 < ent bins i → 0 < ent r i := by
  have hW := win_length exp w h
  have hWp : ∀ o < 2 * w + 1, 0 < ent (win exp w h) o := fun o ho => win_pos he w h ho
  have hb' : ∀ j, 0 ≤ ent bins j := by
    intro j
    by_cases hj : j < bins.length
    · rw [ent_getElem?, List.getElem?_eq_getElem hj]; exact hb _ (List.getElem_mem hj)
    · rw [ent_ge (by omega)]
  have hpos := rawF_pos (bot := bot) (top := top) hWp hW hw (by omega : 2 ≤ n) he hb' order rounds
  rw [grid_eval hc hw hn hl h2 rounds h]
  set F := rawF exp order rounds bot top n w (win exp w h) bins with hF
  have hne : (List.range n).map F ≠ [] := by intro e; have := congrArg List.length e; simp at this; omega
  obtain ⟨m1, m2⟩ := maxOf_spec hne
  obtain ⟨x, hx, hx0⟩ := hs
  obtain ⟨j, hj, ej⟩ := List.getElem_of_mem hx
  have hxp : 0 < ent bins j := by
    rw [ent_getElem?, List.getElem?_eq_getElem hj, ej]; exact lt_of_le_of_ne (hb x hx) (Ne.symm hx0)
  have hjn : j < n := by omega
  have hmp : 0 < Density.maxOf ((List.range n).map F) :=
    lt_of_lt_of_le ((hpos j hjn).2 hxp) (m2 (F j) (List.mem_map.mpr ⟨j, List.mem_range.mpr hjn, rfl⟩))
  rw [if_neg hmp.ne']
  refine ⟨_, rfl, by simp, ?_, ?_, ?_⟩
  · intro y hy
    obtain ⟨i, hi, rfl⟩ := List.mem_map.mp hy
    have hi' := List.mem_range.mp hi
    exact ⟨div_nonneg (hpos i hi').1 hmp.le, (div_le_one hmp).mpr (m2 (F i) (List.mem_map.mpr ⟨i, hi, rfl⟩))⟩
  · obtain ⟨i, hi, e⟩ := List.mem_map.mp m1
    exact List.mem_map.mpr ⟨i, hi, by rw [e, div_self hmp.ne']⟩
  · intro i hi hbi
    rw [ent_range _ hi]
    exact div_pos ((hpos i hi).2 hbi) hmp

/-! ## Scale of the weights -/

section scale
variable {conv : Conv K} {exp : K → K} {n w : Nat} {W bins : List K} {bot top : Bool}

theorem ent_map_mul (k : K) (l : List K) (i : Nat) : ent (l.map (k * ·)) i = k * ent l i := by
  rw [ent_getElem?, ent_getElem?, List.getElem?_map]
  cases l[i]? <;> simp

theorem bM_scale (k : K) (j i : Nat) : bM W (bins.map (k * ·)) w j i = k * bM W bins w j i := by
  unfold bM wsum
  rw [mul_sum]
  apply sum_congr rfl
  intro o _
  have : pad w (bins.map (k * ·)) (i + (2 * w - o)) = k * pad w bins (i + (2 * w - o)) := by
    unfold pad; split
    · rw [mul_zero]
    · exact ent_map_mul _ _ _
  rw [this]; ring

theorem soften_scale {k : K} (hk : k ≠ 0) (cap a b : K) : soften exp cap (k * a) (k * b) = k * soften exp cap a b := by
  unfold soften
  rw [mul_div_mul_left _ _ hk, mul_assoc]

theorem fix_scale {k : K} (hk : k ≠ 0) (order : Int) (P : K) (a b : Nat → K) :
    fix exp order (k * P) a (fun j => k * b j) = k * fix exp order P a b := by
  have e1 : corrected1 (k * P) (k * b 1) (a 0) (a 1) (a 2) = k * corrected1 P (b 1) (a 0) (a 1) (a 2) := by unfold corrected1; ring
  have e2 : corrected2 (k * P) (k * b 1) (k * b 2) (a 0) (a 1) (a 2) (a 3) (a 4) = k * corrected2 P (b 1) (b 2) (a 0) (a 1) (a 2) (a 3) (a 4) := by
    unfold corrected2; ring
  unfold fix
  rw [e1, e2, mul_div_assoc, soften_scale hk, soften_scale hk]
  have hz : (a 0 * (k * P) = 0) = (a 0 * P = 0) := by
    apply propext
    constructor
    · intro h
      have : k * (a 0 * P) = 0 := by rw [← h]; ring
      exact (mul_eq_zero.mp this).resolve_left hk
    · intro h
      rw [show a 0 * (k * P) = k * (a 0 * P) by ring, h, mul_zero]
  simp only [hz]
  split_ifs <;> rfl

theorem edgeFix_scale {k : K} (hk : 0 < k) (order : Int) (P : Nat → K) (i : Nat) :
    edgeFix exp order bot top n w W (bins.map (k * ·)) (fun i => k * P i) i = k * edgeFix exp order bot top n w W bins P i := by
  unfold edgeFix
  have e : correctedFree (k * P i) (bM W (bins.map (k * ·)) w 2 i) (xWin W w 2).sum (xWin W w 4).sum / (k * P i) =
      correctedFree (P i) (bM W bins w 2 i) (xWin W w 2).sum (xWin W w 4).sum / P i := by
    rw [bM_scale]
    rw [show correctedFree (k * P i) (k * bM W bins w 2 i) (xWin W w 2).sum (xWin W w 4).sum =
      k * correctedFree (P i) (bM W bins w 2 i) (xWin W w 2).sum (xWin W w 4).sum by unfold correctedFree; ring,
      mul_div_mul_left _ _ hk.ne']
  have hp : (0 < k * P i) = (0 < P i) := propext (mul_pos_iff_of_pos_left hk)
  simp only [bM_scale, fix_scale hk.ne', hp]
  rw [bM_scale] at e
  split_ifs
  · rfl
  · rw [e]; ring
  · rfl
  · rfl

end scale

/-- **C68**: multiplying all weights by a positive number does not change the density -/
theorem weight_scale {conv : Conv K} {exp : K → K} {n w : Nat} {bins : List K} (hc : ConvOk conv) (he : ∀ x, 0 < exp x) (hw : 0 < w)
    (hn : 2 * w + 1 ≤ n) (h : K) (hl : bins.length = n) (hb : ∀ x ∈ bins, 0 ≤ x) (bot top : Bool) (order : Int)
    (h2 : order ≤ 2) (rounds : Nat) (k : K) (hk : 0 < k) :
    gridDensity conv exp order rounds bot top n w h (bins.map (k * ·)) = gridDensity conv exp order rounds bot top n w h bins := by
  have hW := win_length exp w h
  have hWp : ∀ o < 2 * w + 1, 0 < ent (win exp w h) o := fun o ho => win_pos he w h ho
  have hb' : ∀ j, 0 ≤ ent bins j := by
    intro j
    by_cases hj : j < bins.length
    · rw [ent_getElem?, List.getElem?_eq_getElem hj]; exact hb _ (List.getElem_mem hj)
    · rw [ent_ge (by omega)]
  set W := win exp w h with hWd
  -- scaled and positive
  have hstep : ∀ m (P Q : Nat → K), Pos n bins P → (∀ i < n, Q i = k * P i) →
      ∀ i < n, iter (biasF bot top n w W (bins.map (k * ·))) m Q i = k * iter (biasF bot top n w W bins) m P i := by
    intro m
    induction m with
    | zero => intro P Q _ hQ; exact hQ
    | succ m ih =>
      intro P Q hP hQ
      refine ih _ _ (biasF_pos hWp (by omega) hb' hP) ?_
      intro i hi
      unfold biasF
      have hf : (List.range n).map (fineF (bins.map (k * ·)) Q) = (List.range n).map (fineF bins P) := by
        refine List.map_congr_left (fun j hj => ?_)
        have hj := List.mem_range.mp hj
        unfold fineF
        rw [hQ j hj, ent_map_mul]
        by_cases hz : P j = 0
        · have : ent bins j = 0 := by
            by_contra hne
            exact absurd hz ((hP j hj).2 (lt_of_le_of_ne (hb' j) (Ne.symm hne))).ne'
          rw [this]; simp
        · rw [if_neg (mul_ne_zero hk.ne' hz), if_neg hz, mul_div_mul_left _ _ hk.ne']
      rw [hf, hQ i hi]; ring
  have hraw : ∀ i < n, rawF exp order rounds bot top n w W (bins.map (k * ·)) i = k * rawF exp order rounds bot top n w W bins i := by
    unfold rawF
    refine hstep rounds _ _ (edgeFix_pos hWp hW hw (by omega) he order ?_) ?_
    · intro i _
      unfold bM
      rw [xWin_zero hW]
      exact wsum_pos hWp hb' i
    · intro i _
      rw [show bM W (bins.map (k * ·)) w 0 = fun i => k * bM W bins w 0 i from funext (fun i => bM_scale k 0 i)]
      exact edgeFix_scale hk order _ i
  have hlist : (List.range n).map (rawF exp order rounds bot top n w W (bins.map (k * ·))) =
      ((List.range n).map (rawF exp order rounds bot top n w W bins)).map (k * ·) := by
    rw [List.map_map]
    exact List.map_congr_left (fun i hi => hraw i (List.mem_range.mp hi))
  rw [grid_eval hc hw hn (by simpa using hl) h2 rounds h, grid_eval hc hw hn hl h2 rounds h, ← hWd, hlist, maxOf_mul hk]
  by_cases hm : Density.maxOf ((List.range n).map (rawF exp order rounds bot top n w W bins)) = 0
  · rw [if_pos hm, if_pos (by rw [hm, mul_zero])]
  · rw [if_neg hm, if_neg (mul_ne_zero hk.ne' hm)]
    refine congrArg Except.ok (List.map_congr_left (fun i hi => ?_))
    rw [hraw i (List.mem_range.mp hi), mul_div_mul_left _ _ hk.ne']

/-! ## The window width -/

/-- **C68**: whatever the estimated smoothing scale, the kernel reaches at least two bins to each side and fits inside the grid -/
theorem window_bounds (s : K) {n : Nat} (hn : 8 ≤ n) : 1 ≤ clampSmooth s n ∧ 2 ≤ winwOf (clampSmooth s n) n ∧
    2 * winwOf (clampSmooth s n) n + 4 ≤ n := by
  have h1 : (1 : K) ≤ clampSmooth s n := by
    unfold clampSmooth
    refine le_min (le_max_left _ _) ?_
    have : 1 ≤ n / 2 := by omega
    exact_mod_cast this
  have h2 : 2 ≤ roundEven (5 / 2 * clampSmooth s n) := by
    have : roundEven ((2 : Int) : K) ≤ roundEven (5 / 2 * clampSmooth s n) := roundEven_mono (by push_cast; linarith)
    rwa [roundEven_int] at this
  refine ⟨h1, ?_, ?_⟩ <;> unfold winwOf
  · omega
  · omega

/-- with fewer bins the kernel degenerates: a single point at seven bins and a negative half width at three -/
theorem window_bounds_fails (s : K) : winwOf s 5 ≤ 0 ∧ winwOf s 3 ≤ -1 := by
  constructor <;> unfold winwOf <;> omega

example : winwOf (clampSmooth (7 : ℚ) 1024) 1024 = 18 := by decide +kernel

/-- **C68**: the smoothing width in bins does not depend on the units of the parameter -/
theorem smoothWidth_units (scale auto range err width fine k : K) (hk : 0 < k) :
    smoothWidth scale (k * auto) (k * range) (k * err) (k * width) (k * fine) = smoothWidth scale auto range err width fine := by
  unfold smoothWidth
  have hm : min (k * auto) (k * range / 4) = k * min auto (range / 4) := by
    rw [mul_min_of_nonneg _ _ hk.le, mul_div_assoc]
  rw [hm]
  split_ifs
  · rw [mul_assoc, mul_div_mul_left _ _ hk.ne']
  · rw [← mul_left_comm, mul_div_mul_left _ _ hk.ne']
  · rw [← mul_left_comm, mul_div_mul_left _ _ hk.ne']

/-- **C68**: an automatic width is the bandwidth estimate times the factor asked for, and never more than that part of a quarter of the range; a
setting below one is in units of the standard deviation, others in units of the plotted bins -/
theorem smoothWidth_spec {scale auto range err width fine : K} (hf : 0 < fine) :
    (scale ≤ 0 → smoothWidth scale auto range err width fine * fine ≤ -scale * auto ∧
      smoothWidth scale auto range err width fine * fine ≤ -scale * range / 4 ∧
      (auto ≤ range / 4 → smoothWidth scale auto range err width fine * fine = -scale * auto)) ∧
    (0 < scale → scale < 1 → smoothWidth scale auto range err width fine * fine = scale * err) ∧
    (1 ≤ scale → smoothWidth scale auto range err width fine * fine = scale * width) := by
  unfold smoothWidth
  refine ⟨fun h => ?_, fun h1 h2 => ?_, fun h => ?_⟩
  · rw [if_pos h, div_mul_cancel₀ _ hf.ne', abs_of_nonpos h]
    have h1 := min_le_left auto (range / 4)
    have h2 := min_le_right auto (range / 4)
    refine ⟨by nlinarith, by nlinarith, fun h3 => ?_⟩
    rw [min_eq_left h3]; ring
  · rw [if_neg (not_le.mpr h1), if_pos h2, div_mul_cancel₀ _ hf.ne']
  · rw [if_neg (not_le.mpr (by linarith)), if_neg (not_lt.mpr h), div_mul_cancel₀ _ hf.ne']

example : smoothWidth (-1 : ℚ) 3 8 5 7 (1/2) = 4 ∧ smoothWidth (1/2 : ℚ) 3 8 5 7 (1/2) = 5 ∧ smoothWidth (2 : ℚ) 3 8 5 7 (1/2) = 28 := by decide +kernel

/-! ## No hard limits -/

section free
variable {conv : Conv K} {exp : K → K} {n w : Nat} {W bins : List K}

theorem sum_win (hW : W.length = 2 * w + 1) (k : Nat) : (xWin W w k).sum = ∑ o ∈ range (2 * w + 1), ent W o * X w o ^ k := by
  rw [list_ent (xWin W w k), list_sum_range, xWin_length hW]
  exact sum_congr rfl (fun o ho => ent_xWin hW k (mem_range.mp ho))

theorem win_sum (he : ∀ x, 0 < exp x) (w : Nat) (h : K) : ∑ o ∈ range (2 * w + 1), ent (win exp w h) o = 1 := by
  have hl := win_length exp w h
  rw [← hl, ← list_sum_range, ← list_ent]
  unfold win
  dsimp only
  set g : List K := (offs w).map (fun x : K => exp (-(x / h) ^ 2 / 2)) with hg
  have hpos : 0 < g.sum := by
    refine sum_pos_list ?_ ?_
    · intro x hx
      rw [hg, List.mem_map] at hx
      obtain ⟨y, _, rfl⟩ := hx
      exact he _
    · intro e
      have := congrArg List.length e
      rw [hg, List.length_map, offs_length] at this
      simp at this
  have : (g.map (fun x => x / g.sum)).sum = g.sum / g.sum := by
    have aux : ∀ (l : List K) (S : K), (l.map (fun x => x / S)).sum = l.sum / S := by
      intro l S
      induction l with
      | nil => simp
      | cons a l ih => rw [List.map_cons, List.sum_cons, List.sum_cons, ih, add_div]
    exact aux g _
  rw [this, div_self hpos.ne']

theorem odd_moment (he : ∀ x, 0 < exp x) (w : Nat) (h : K) (k : Nat) :
    ∑ o ∈ range (2 * w + 1), ent (win exp w h) o * X w o ^ (2 * k + 1) = 0 := by
  obtain ⟨S, _, hS⟩ := win_ent he w h
  have key := sum_range_reflect (fun o => ent (win exp w h) o * X w o ^ (2 * k + 1)) (2 * w + 1)
  have : ∑ o ∈ range (2 * w + 1), ent (win exp w h) (2 * w + 1 - 1 - o) * X w (2 * w + 1 - 1 - o) ^ (2 * k + 1) =
      - ∑ o ∈ range (2 * w + 1), ent (win exp w h) o * X w o ^ (2 * k + 1) := by
    rw [← sum_neg_distrib]
    apply sum_congr rfl
    intro o ho
    have ho := mem_range.mp ho
    have hx : X w (2 * w + 1 - 1 - o) = - (X w o : K) := by
      unfold X
      rw [show 2 * w + 1 - 1 - o = 2 * w - o by omega, Nat.cast_sub (by omega)]
      push_cast; ring
    have hxx : (((2 * w + 1 - 1 - o : Nat) : K) - w) = - ((o : K) - w) := hx
    rw [hS _ (by omega), hS _ ho, hx, hxx, Odd.neg_pow ⟨k, rfl⟩, show (-((o : K) - w) / h) ^ 2 = (((o : K) - w) / h) ^ 2 by ring]
    ring
  rw [this] at key
  linarith

end free

/-- **C68**: without hard limits the second order kernel reproduces densities of up to third degree exactly, a window away from the ends: the
smoothing error of the plain kernel there is removed -/
theorem free_exact {conv : Conv K} {exp : K → K} {n w : Nat} {h : K} {bins : List K} (hc : ConvOk conv)
    (he : ∀ x, 0 < exp x) (hw : 0 < w) (hn : 2 * w + 1 ≤ n) (c d e f : K)
    (hb : IsHist false false n bins (fun t => c + d * t + e * t ^ 2 + f * t ^ 3)) :
    ∃ P r, run conv bins (win exp w h) .same = .ok P ∧ freeCorrect conv exp n w (win exp w h) bins P = .ok r ∧
      ∀ i < n, w ≤ i → i + w < n →
        ent r i = if 0 < ent P i then ent P i * exp (min ((c + d * i + e * (i : K) ^ 2 + f * (i : K) ^ 3) / ent P i) 2 - 1) else ent P i := by
  have hW := win_length exp w h
  have hWp : ∀ o < 2 * w + 1, 0 < ent (win exp w h) o := fun o ho => win_pos he w h ho
  have hP := run_b (conv := conv) hc hW hb.1 hn 0
  rw [xWin_zero hW] at hP
  have hr : freeCorrect conv exp n w (win exp w h) bins ((List.range n).map (bM (win exp w h) bins w 0)) = .ok ((List.range n).map (fun i =>
      if 0 < bM (win exp w h) bins w 0 i then bM (win exp w h) bins w 0 i *
        exp (min (correctedFree (bM (win exp w h) bins w 0 i) (bM (win exp w h) bins w 2 i) (xWin (win exp w h) w 2).sum
          (xWin (win exp w h) w 4).sum / bM (win exp w h) bins w 0 i) 2 - 1) else bM (win exp w h) bins w 0 i)) := by
    unfold freeCorrect
    simp only [run_b (conv := conv) hc hW hb.1 hn 2, bind, Except.bind, pure, Except.pure]
    refine congrArg Except.ok (List.map_congr_left (fun i hi => ?_))
    simp only [ent_range _ (List.mem_range.mp hi)]
  refine ⟨_, _, hP, hr, ?_⟩
  intro i hi h1 h2
  simp only [ent_range _ hi]
  set W := win exp w h with hWd
  set a2 := (xWin W w 2).sum with ha2
  set a4 := (xWin W w 4).sum with ha4
  have e2 := sum_win hW 2
  have e4 := sum_win hW 4
  have s0 : ∑ o ∈ range (2 * w + 1), ent W o = 1 := win_sum he w h
  have s1 := odd_moment he w h 0
  have s3 := odd_moment he w h 1
  have s5 := odd_moment he w h 2
  rw [← hWd] at s1 s3 s5
  simp only [Nat.mul_zero, Nat.zero_add, pow_one, Nat.mul_one] at s1 s3 s5
  have hb0 : ∀ k, bM W bins w k i = ∑ o ∈ range (2 * w + 1), ent W o * X w o ^ k *
      (c + d * ((i : K) - X w o) + e * ((i : K) - X w o) ^ 2 + f * ((i : K) - X w o) ^ 3) := by
    intro k
    rw [bM_eq hW hb hw (by omega) hi (.inr h1) (.inr h2)]
    apply sum_congr rfl
    intro o ho
    have ho := mem_range.mp ho
    have hm : om W false false n w i o = ent W o := by
      unfold om
      rw [(priorMask_ent false false hw (by omega)).2 _ (by omega)]; simp
    rw [hm]
  have E0 : bM W bins w 0 i = (c + d * i + e * (i : K) ^ 2 + f * (i : K) ^ 3) + (e + 3 * f * i) * a2 := by
    rw [hb0, ha2, e2]
    have : ∀ o, ent W o * X w o ^ 0 * (c + d * ((i : K) - X w o) + e * ((i : K) - X w o) ^ 2 + f * ((i : K) - X w o) ^ 3) =
        (c + d * i + e * (i : K) ^ 2 + f * (i : K) ^ 3) * ent W o + (- (d + 2 * e * i + 3 * f * (i : K) ^ 2)) * (ent W o * X w o) +
          (e + 3 * f * i) * (ent W o * X w o ^ 2) + (- f) * (ent W o * X w o ^ 3) := fun o => by ring
    simp only [this, sum_add_distrib, ← mul_sum]
    rw [s0, s1, s3]; ring
  have E2 : bM W bins w 2 i = (c + d * i + e * (i : K) ^ 2 + f * (i : K) ^ 3) * a2 + (e + 3 * f * i) * a4 := by
    rw [hb0, ha2, ha4, e2, e4]
    have : ∀ o, ent W o * X w o ^ 2 * (c + d * ((i : K) - X w o) + e * ((i : K) - X w o) ^ 2 + f * ((i : K) - X w o) ^ 3) =
        (c + d * i + e * (i : K) ^ 2 + f * (i : K) ^ 3) * (ent W o * X w o ^ 2) + (- (d + 2 * e * i + 3 * f * (i : K) ^ 2)) * (ent W o * X w o ^ 3) +
          (e + 3 * f * i) * (ent W o * X w o ^ 4) + (- f) * (ent W o * X w o ^ 5) := fun o => by ring
    simp only [this, sum_add_distrib, ← mul_sum]
    rw [s3, s5]; ring
  have hdet : 0 < a4 - a2 ^ 2 := by
    have := cs_pos (s := range (2 * w + 1)) (ω := ent W) (X := fun o => X w o ^ 2) (fun o ho => (hWp o (mem_range.mp ho)).le)
      (j := w) (k := w + 1) (by simp; omega) (by simp; omega) (hWp _ (by omega)) (hWp _ (by omega)) (by unfold X; push_cast; simp)
    rw [s0, one_mul] at this
    have e' : ∑ o ∈ range (2 * w + 1), ent W o * (X w o ^ 2) ^ 2 = a4 := by
      rw [ha4, e4]; exact sum_congr rfl (fun o _ => by ring)
    rw [e', ← e2, ← ha2] at this
    linarith
  have hcorr : correctedFree (bM W bins w 0 i) (bM W bins w 2 i) a2 a4 = c + d * i + e * (i : K) ^ 2 + f * (i : K) ^ 3 := by
    unfold correctedFree
    rw [E0, E2, div_eq_iff hdet.ne']
    ring
  rw [hcorr]

/-- a kernel with rational values, for the examples -/
def exQ (x : ℚ) : ℚ := if x = 0 then 1 else 1 / 2

example : (∀ x, 0 < exQ x) ∧ exQ 0 = 1 ∧
    (gridDensity npConvolve exQ 1 1 true true 5 2 1 [3/2, 3, 3, 3, 3/2]).toOption = some [1, 1, 1, 1, 1] := by
  refine ⟨fun x => ?_, rfl, by decide +kernel⟩
  unfold exQ; split <;> norm_num

example : IsHist true true 5 ([3/2, 3, 3, 3, 3/2] : List ℚ) (fun _ => 3) := ⟨rfl, by decide +kernel⟩

/-- without limits a flat histogram falls off at the ends -/
example : (gridDensity npConvolve exQ 1 0 false false 5 2 1 [3, 3, 3, 3, 3]).toOption = some [2/3, 5/6, 1, 5/6, 2/3] := by decide +kernel

/-- with `exp` replaced by its tangent the softening disappears and the line and the parabola come out exactly, up to the limits -/
example : (run npConvolve [1/2, 2, 3, 4, 5/2] (win (fun x : ℚ => 1 + x) 2 2) .same).toOption.bind
    (fun P => (boundaryCorrect npConvolve (fun x => 1 + x) 1 true true 5 2 (win (fun x : ℚ => 1 + x) 2 2) [1/2, 2, 3, 4, 5/2] P).toOption) =
      some [1, 2, 3, 4, 5] := by decide +kernel

example : (run npConvolve [1, 3, 6, 11, 9] (win (fun x : ℚ => 1 + x) 2 2) .same).toOption.bind
    (fun P => (boundaryCorrect npConvolve (fun x => 1 + x) 2 true true 5 2 (win (fun x : ℚ => 1 + x) 2 2) [1, 3, 6, 11, 9] P).toOption) =
      some [2, 3, 6, 11, 18] := by decide +kernel

/-- without limits, away from the ends -/
example : (run npConvolve [2, 3, 6, 11, 18] (win (fun x : ℚ => 1 + x) 2 2) .same).toOption.bind
    (fun P => (freeCorrect npConvolve (fun x => 1 + x) 5 2 (win (fun x : ℚ => 1 + x) 2 2) [2, 3, 6, 11, 18] P).toOption.map (fun r => r[2]?)) =
      some (some 6) := by decide +kernel

end Verif.Kde1D
