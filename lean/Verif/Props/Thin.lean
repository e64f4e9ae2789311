import Verif.Model.Thin
import Mathlib.Tactic.Linarith
import Mathlib.Tactic.Ring
import Mathlib.Tactic.NormNum

/-!
# C13: thinning to single samples

Specification: write every row index as many times as its weight (`expand`), and keep every `f`-th entry
(`everyNth`).
-/

namespace Verif.Thin
open Verif.Py Verif.Py.Np
set_option linter.unusedSectionVars false

variable {K : Type} [Field K] [LinearOrder K] [IsStrictOrderedRing K] [FloorRing K]

/-- rows repeated by their weight, numbered from `i` -/
def expandFrom : Nat → List Nat → List Nat
  | _, [] => []
  | i, w :: ws => List.replicate w i ++ expandFrom (i + 1) ws

/-- each row index repeated as many times as its weight -/
def expand (ws : List Nat) : List Nat := expandFrom 0 ws

/-- the entries number `f`, `2f`, `3f`, ... (counting from one) -/
def everyNth (f : Nat) (l : List Nat) : List Nat :=
  (List.range (l.length / f)).filterMap (fun j => l[(j + 1) * f - 1]?)

/-! ### a counting form of `everyNth` -/

/-- keep every `f`-th entry, `t` entries having been counted already -/
def ev (f : Nat) : Nat → List Nat → List Nat
  | _, [] => []
  | t, a :: l => if t + 1 = f then a :: ev f 0 l else ev f (t + 1) l

theorem ev_short {f t : Nat} {l : List Nat} (h : t + l.length < f) : ev f t l = [] := by
  induction l generalizing t with
  | nil => rfl
  | cons a l ih =>
    simp only [List.length_cons] at h
    rw [ev, if_neg (by omega)]
    exact ih (by omega)

theorem ev_cross {f t : Nat} (ht : t < f) (l r : List Nat) (a : Nat) (h : t + l.length + 1 = f) :
    ev f t (l ++ a :: r) = a :: ev f 0 r := by
  induction l generalizing t with
  | nil => simp at h; simp [ev, h]
  | cons b l ih =>
    simp only [List.length_cons] at h
    rw [List.cons_append, ev, if_neg (by omega)]
    exact ih (by omega) (by omega)

theorem everyNth_short {f : Nat} {l : List Nat} (h : l.length < f) : everyNth f l = [] := by
  unfold everyNth
  rw [Nat.div_eq_of_lt h]; rfl

theorem everyNth_step {f : Nat} (hf : 0 < f) (l r : List Nat) (a : Nat) (h : l.length + 1 = f) :
    everyNth f (l ++ a :: r) = a :: everyNth f r := by
  unfold everyNth
  have hlen : (l ++ a :: r).length = r.length + f := by simp; omega
  rw [hlen, Nat.add_div_right _ hf, List.range_succ_eq_map, List.filterMap_cons]
  have h0 : (l ++ a :: r)[(0 + 1) * f - 1]? = some a := by
    rw [List.getElem?_append_right (by omega)]
    have : (0 + 1) * f - 1 - l.length = 0 := by omega
    rw [this]; rfl
  rw [h0]
  simp only [List.filterMap_map]
  congr 1
  apply List.filterMap_congr
  intro j _
  simp only [Function.comp_apply, Nat.succ_eq_add_one]
  have e : (j + 1 + 1) * f - 1 = l.length + (((j + 1) * f - 1) + 1) := by
    have : 1 ≤ (j + 1) * f := Nat.one_le_iff_ne_zero.mpr (by positivity)
    have : (j + 1 + 1) * f = (j + 1) * f + f := by ring
    omega
  rw [e, List.getElem?_append_right (by omega)]
  simp

theorem ev_eq_everyNth {f : Nat} (hf : 0 < f) : ∀ (n : Nat) (l : List Nat), l.length ≤ n → ev f 0 l = everyNth f l := by
  intro n
  induction n with
  | zero =>
    intro l hl
    have : l = [] := List.length_eq_zero_iff.mp (by omega)
    subst this
    rw [everyNth_short (by simpa)]; rfl
  | succ n ih =>
    intro l hl
    by_cases h : l.length < f
    · rw [everyNth_short h, ev_short (by omega)]
    · have hk : f - 1 < l.length := by omega
      have e : l = l.take (f - 1) ++ l[f - 1] :: l.drop f := by
        conv_lhs => rw [← List.take_append_drop (f - 1) l, List.drop_eq_getElem_cons hk]
        congr 3; omega
      have hl1 : (l.take (f - 1)).length + 1 = f := by rw [List.length_take]; omega
      rw [e, everyNth_step hf _ _ _ hl1, ev_cross hf _ _ _ (by omega)]
      congr 1
      apply ih
      rw [List.length_drop]; omega

theorem ev_append {f : Nat} (hf : 0 < f) : ∀ (l r : List Nat) (t : Nat), t < f →
    ev f t (l ++ r) = ev f t l ++ ev f ((t + l.length) % f) r := by
  intro l
  induction l with
  | nil => intro r t ht; simp [ev, Nat.mod_eq_of_lt ht]
  | cons a l ih =>
    intro r t ht
    simp only [List.cons_append, ev, List.length_cons]
    split
    · rename_i h
      rw [ih r 0 hf, List.cons_append]
      congr 3
      rw [show t + (l.length + 1) = l.length + f from by omega, Nat.add_mod_right, Nat.zero_add]
    · rw [ih r (t + 1) (by omega), show t + 1 + l.length = t + (l.length + 1) from by omega]

theorem ev_replicate {f : Nat} (hf : 0 < f) (a : Nat) : ∀ (w t : Nat), t < f →
    ev f t (List.replicate w a) = List.replicate ((t + w) / f) a := by
  intro w
  induction w with
  | zero => intro t ht; simp [ev, Nat.div_eq_of_lt ht]
  | succ w ih =>
    intro t ht
    rw [List.replicate_succ, ev]
    split
    · rename_i h
      rw [ih 0 hf, show t + (w + 1) = (0 + w) + f from by omega, Nat.add_div_right _ hf, List.replicate_succ]
    · rw [ih (t + 1) (by omega), show t + 1 + w = t + (w + 1) from by omega]

theorem expandFrom_length (i : Nat) (ws : List Nat) : (expandFrom i ws).length = ws.sum := by
  induction ws generalizing i with
  | nil => rfl
  | cons w ws ih => simp [expandFrom, ih]

theorem ev_length {f : Nat} (hf : 0 < f) : ∀ (l : List Nat) (t : Nat), t < f →
    (ev f t l).length = (t + l.length) / f := by
  intro l
  induction l with
  | nil => intro t ht; simp [ev, Nat.div_eq_of_lt ht]
  | cons a l ih =>
    intro t ht
    rw [ev]
    split
    · rename_i h
      rw [List.length_cons, ih 0 hf, List.length_cons,
        show t + (l.length + 1) = (0 + l.length) + f from by omega, Nat.add_div_right _ hf]
    · rw [ih (t + 1) (by omega), List.length_cons, show t + 1 + l.length = t + (l.length + 1) from by omega]

/-! ### the loop -/

/-- the row numbers still to be counted when the loop is at row `i` with `mult` left of it -/
def remaining (ws : List Nat) (i mult : Nat) : List Nat :=
  if i < ws.length then List.replicate mult i ++ expandFrom (i + 1) (ws.drop (i + 1)) else []

theorem remaining_next (ws : List Nat) (i : Nat) (m : Nat) (h : ∀ x, ws[i]? = some x → x = m) :
    remaining ws i m = expandFrom i (ws.drop i) := by
  unfold remaining
  by_cases hi : i < ws.length
  · rw [if_pos hi, List.drop_eq_getElem_cons hi, expandFrom, h _ (List.getElem?_eq_getElem hi)]
  · rw [if_neg hi, List.drop_eq_nil_of_le (by omega)]; rfl

theorem loop_spec (ws : List Nat) (f : Nat) (hf : 0 < f) (cap : Nat) : ∀ (fuel i tot mult : Nat) (out : List Nat),
    tot < f → out.length + (ev f tot (remaining ws i mult)).length ≤ cap →
    (ws.length - i) + (cap - out.length) ≤ fuel →
    loop (ws.map Int.ofNat) f cap fuel i tot mult out = .ok (out ++ ev f tot (remaining ws i mult)) := by
  have hnext : ∀ i (m : Nat), ∃ m' : Nat, nextMult (ws.map Int.ofNat) i (m : Int) = (m' : Int) ∧
      ∀ x, ws[i]? = some x → x = m' := by
    intro i m
    unfold nextMult
    rw [List.getElem?_map]
    cases h : ws[i]? with
    | none => exact ⟨m, rfl, by simp⟩
    | some x => exact ⟨x, rfl, by simp⟩
  intro fuel
  induction fuel with
  | zero =>
    intro i tot mult out ht hcap hfuel
    have : ¬ i < ws.length := by omega
    simp [loop, this, remaining, ev]
  | succ fuel ih =>
    intro i tot mult out ht hcap hfuel
    rw [loop]
    by_cases hi : i < ws.length
    · rw [if_pos (by simpa using hi)]
      obtain ⟨m', hm', hmx⟩ := hnext (i + 1) mult
      have hrem : remaining ws i mult = List.replicate mult i ++ expandFrom (i + 1) (ws.drop (i + 1)) := by
        rw [remaining, if_pos hi]
      by_cases hlt : mult + tot < f
      · rw [if_pos (by exact_mod_cast hlt), hm']
        have hE : ev f tot (remaining ws i mult) = ev f (tot + mult) (remaining ws (i + 1) m') := by
          rw [hrem, ev_append hf _ _ _ ht, ev_short (by simp; omega), remaining_next ws (i + 1) m' hmx,
            List.length_replicate, Nat.mod_eq_of_lt (by omega), List.nil_append]
        rw [hE] at hcap ⊢
        have := ih (i + 1) (tot + mult) m' out (by omega) hcap (by omega)
        rw [← this]; push_cast; rfl
      · have hR : remaining ws i mult = List.replicate (f - tot - 1) i ++
            i :: (List.replicate (mult - (f - tot)) i ++ expandFrom (i + 1) (ws.drop (i + 1))) := by
          rw [hrem, ← List.cons_append, ← List.replicate_succ, ← List.append_assoc,
            ← List.replicate_add, show f - tot - 1 + (mult - (f - tot) + 1) = mult from by omega]
        have hE : ev f tot (remaining ws i mult) =
            i :: ev f 0 (List.replicate (mult - (f - tot)) i ++ expandFrom (i + 1) (ws.drop (i + 1))) := by
          rw [hR]; exact ev_cross ht _ _ _ (by simp; omega)
        rw [hE, List.length_cons] at hcap
        rw [if_neg (by push_cast [not_lt]; omega), if_pos (by omega), hE]
        by_cases heq : mult = f - tot
        · rw [if_pos (by omega), hm']
          have hE2 : List.replicate (mult - (f - tot)) i ++ expandFrom (i + 1) (ws.drop (i + 1)) =
              remaining ws (i + 1) m' := by
            rw [heq, remaining_next ws (i + 1) m' hmx]; simp
          rw [hE2] at hcap ⊢
          have := ih (i + 1) 0 m' (out ++ [i]) hf (by simp; omega) (by simp; omega)
          rw [Nat.cast_zero] at this
          rw [this]; simp
        · rw [if_neg (by omega)]
          have hE2 : List.replicate (mult - (f - tot)) i ++ expandFrom (i + 1) (ws.drop (i + 1)) =
              remaining ws i (mult - (f - tot)) := by
            rw [remaining, if_pos hi]
          rw [hE2] at hcap ⊢
          have := ih i 0 (mult - (f - tot)) (out ++ [i]) hf (by simp; omega) (by simp; omega)
          rw [Nat.cast_zero, show ((mult - (f - tot) : Nat) : Int) = (mult : Int) - ((f : Int) - tot) from by omega] at this
          rw [this]; simp
    · rw [if_neg (by simpa using hi)]
      simp [remaining, hi, ev]

/-! ### the sparse branch -/

/-- cumulative sums divided by the factor -/
def quot (f : Nat) : Nat → List Nat → List Nat
  | _, [] => []
  | c, w :: ws => (c + w) / f :: quot f (c + w) ws

theorem quot_ge (f : Nat) : ∀ (ws : List Nat) (c : Nat), ∀ q ∈ quot f c ws, c / f ≤ q := by
  intro ws
  induction ws with
  | nil => intro c q hq; simp [quot] at hq
  | cons w ws ih =>
    intro c q hq
    rw [quot] at hq
    have h1 : c / f ≤ (c + w) / f := Nat.div_le_div_right (by omega)
    rcases List.mem_cons.mp hq with h | h
    · omega
    · exact le_trans h1 (ih _ q h)

theorem quot_sorted (f : Nat) : ∀ (ws : List Nat) (c : Nat), (quot f c ws).Pairwise (· ≤ ·) := by
  intro ws
  induction ws with
  | nil => intro c; simp [quot]
  | cons w ws ih => intro c; rw [quot]; exact List.pairwise_cons.mpr ⟨quot_ge f ws _, ih _⟩

/-- positions where a list changes value -/
def changes {α : Type} [DecidableEq α] : α → Nat → List α → List Nat
  | _, _, [] => []
  | p, i, a :: l => if a = p then changes a (i + 1) l else i :: changes a (i + 1) l

theorem changes_quot {f : Nat} (hf : 0 < f) : ∀ (ws : List Nat) (c i : Nat), (∀ w ∈ ws, w ≤ f) →
    changes (c / f) i (quot f c ws) = ev f (c % f) (expandFrom i ws) := by
  intro ws
  induction ws with
  | nil => intro c i _; rfl
  | cons w ws ih =>
    intro c i hw
    have hwf := hw w (by simp)
    have hmod := Nat.mod_lt c hf
    have ih' := ih (c + w) (i + 1) (fun x hx => hw x (by simp [hx]))
    rw [quot, changes, expandFrom, ev_append hf _ _ _ hmod, ev_replicate hf _ _ _ hmod, List.length_replicate]
    have hdm := Nat.div_add_mod c f
    have hq : (c + w) / f = c / f + (c % f + w) / f := by
      conv_lhs => rw [← hdm, Nat.add_assoc, Nat.mul_add_div hf]
    have hm : (c + w) % f = (c % f + w) % f := by rw [Nat.mod_add_mod]
    by_cases hlt : c % f + w < f
    · have h0 : (c % f + w) / f = 0 := Nat.div_eq_of_lt hlt
      rw [if_pos (by omega), ih', h0, hm]; rfl
    · have h1 : (c % f + w) / f = 1 := by
        rw [Nat.div_eq_iff hf]; omega
      rw [if_neg (by omega), ih', h1, hm]; rfl

/-- on a sorted list the first positions of the distinct values are where the list changes -/
theorem firstPos_sorted {α : Type} [LinearOrder α] : ∀ (l pre : List α) (p : α), (pre ++ p :: l).Pairwise (· ≤ ·) →
    ((l.zipIdx (pre.length + 1)).filter (fun q => (pre ++ p :: l).idxOf q.1 == q.2)).map (·.2)
      = changes p (pre.length + 1) l := by
  intro l
  induction l with
  | nil => intro pre p _; rfl
  | cons a l ih =>
    intro pre p hs
    have hs' : ((pre ++ [p]) ++ a :: l).Pairwise (· ≤ ·) := by simpa using hs
    have ih' := ih (pre ++ [p]) a hs'
    have e : (pre ++ [p]) ++ a :: l = pre ++ p :: a :: l := by simp
    rw [e] at ih'
    simp only [List.length_append, List.length_cons, List.length_nil, Nat.zero_add] at ih'
    rw [List.zipIdx_cons, List.filter_cons, changes]
    have hpa : p ≤ a := by
      have := (List.pairwise_append.mp hs).2.1
      exact (List.pairwise_cons.mp this).1 a (by simp)
    have hpre : ∀ x ∈ pre, x ≤ p := by
      intro x hx
      exact (List.pairwise_append.mp hs).2.2 x hx p (by simp)
    by_cases h : a = p
    · subst h
      have : ((pre ++ a :: a :: l).idxOf a == pre.length + 1) = false := by
        rw [beq_eq_false_iff_ne]
        intro hh
        have := List.idxOf_append (l₁ := pre) (l₂ := a :: a :: l) (a := a)
        by_cases hm : a ∈ pre
        · rw [if_pos hm] at this
          have := List.idxOf_lt_length_iff.mpr hm
          omega
        · rw [if_neg hm] at this
          simp at this; omega
      simp only [this, if_true]
      exact ih'
    · have hnp : a ∉ pre := fun hm => h (le_antisymm (hpre a hm) hpa)
      have : ((pre ++ p :: a :: l).idxOf a == pre.length + 1) = true := by
        rw [beq_iff_eq, List.idxOf_append, if_neg hnp, List.idxOf_cons_ne _ (Ne.symm h), List.idxOf_cons_self]
        omega
      simp only [this, if_true, List.map_cons, if_neg h]
      rw [ih']

theorem uniqueIndex_sorted {α : Type} [LinearOrder α] (a : α) (l : List α) (h : (a :: l).Pairwise (· ≤ ·)) :
    uniqueIndex (a :: l) = 0 :: changes a 1 l := by
  unfold uniqueIndex
  have hp : ((a :: l).zipIdx.filter (fun p => (a :: l).idxOf p.1 == p.2)).Pairwise
      (fun x y => decide (x.1 ≤ y.1) = true) := by
    apply List.Pairwise.filter
    have h2 : ((a :: l).zipIdx.map Prod.fst).Pairwise (· ≤ ·) := by
      rw [List.zipIdx_map_fst]; exact h
    exact (List.pairwise_map.mp h2).imp (by simp)
  rw [List.mergeSort_of_pairwise hp]
  have := firstPos_sorted l [] a (by simpa using h)
  simp only [List.nil_append, List.length_nil, Nat.zero_add] at this
  rw [List.zipIdx_cons, List.filter_cons]
  simp only [List.idxOf_cons_self, beq_self_eq_true, if_true, List.map_cons, Nat.zero_add]
  rw [this]

theorem changes_map {α β : Type} [DecidableEq α] [DecidableEq β] (g : α → β) (hg : ∀ x y, g x = g y → x = y) :
    ∀ (l : List α) (p : α) (i : Nat), changes (g p) i (l.map g) = changes p i l := by
  intro l
  induction l with
  | nil => intro p i; rfl
  | cons a l ih =>
    intro p i
    simp only [List.map_cons, changes, ih]
    by_cases h : a = p
    · subst h; simp
    · rw [if_neg h, if_neg (fun e => h (hg _ _ e))]

/-! ### connecting with the code's number types -/

theorem trunc_natCast (n : Nat) : trunc (n : K) = (n : Int) := by
  unfold trunc
  rw [if_pos (by positivity)]
  exact_mod_cast Int.floor_natCast n

theorem cumsum_quot (f : Nat) : ∀ (ws : List Nat) (c : Nat),
    (cumsumFrom (c : Int) (ws.map Int.ofNat)).map (fun c => c.fdiv f) = (quot f c ws).map Int.ofNat := by
  intro ws
  induction ws with
  | nil => intro c; rfl
  | cons w ws ih =>
    intro c
    have := ih (c + w)
    simp only [List.map_cons, cumsumFrom, quot, Int.ofNat_eq_natCast]
    push_cast at this
    rw [← this]
    congr 1
    rw [Int.fdiv_eq_ediv_of_nonneg _ (by positivity)]
    push_cast; rfl

theorem max?_nat (w : Nat) (ws : List Nat) : ∃ m : Nat, max? ((w :: ws).map Int.ofNat) = .ok (m : Int) ∧
    (∀ x ∈ w :: ws, x ≤ m) ∧ m ∈ w :: ws := by
  unfold max?
  simp only [List.map_cons]
  have : ∀ (ws : List Nat) (w : Nat), ∃ m : Nat, (ws.map Int.ofNat).foldl max (Int.ofNat w) = (m : Int) ∧
      (∀ x ∈ w :: ws, x ≤ m) ∧ m ∈ w :: ws := by
    intro ws
    induction ws with
    | nil => intro w; exact ⟨w, rfl, by simp, by simp⟩
    | cons a ws ih =>
      intro w
      obtain ⟨m, h1, h2, h3⟩ := ih (max w a)
      refine ⟨m, ?_, ?_, ?_⟩
      · rw [← h1]
        simp only [List.map_cons, List.foldl_cons]
        congr 1
        simp
      · intro x hx
        have hm := h2 (max w a) (by simp)
        rcases List.mem_cons.mp hx with h | h
        · omega
        · rcases List.mem_cons.mp h with h | h
          · omega
          · exact h2 x (by simp [h])
      · rcases List.mem_cons.mp h3 with h | h
        · rcases le_total w a with hwa | hwa
          · rw [max_eq_right hwa] at h; simp [h]
          · rw [max_eq_left hwa] at h; simp [h]
        · simp [h]
  obtain ⟨m, h1, h2, h3⟩ := this ws w
  exact ⟨m, by rw [h1], h2, h3⟩

theorem map_trunc (ws : List Nat) : (ws.map (Nat.cast : Nat → K)).map trunc = ws.map Int.ofNat := by
  rw [List.map_map]
  apply List.map_congr_left
  intro n _
  exact trunc_natCast n

theorem sum_ofNat (ws : List Nat) : (ws.map Int.ofNat).sum = (ws.sum : Int) := by
  induction ws with
  | nil => rfl
  | cons w ws ih => simp [ih]

theorem sum_cast (ws : List Nat) : (ws.map (Nat.cast : Nat → K)).sum = (ws.sum : K) := by
  induction ws with
  | nil => simp
  | cons w ws ih => simp [ih]

/-- **C13**, factor below the largest weight: the indices are exactly every `f`-th entry of the list of rows
repeated by weight, and every entry of the result array is written. -/
theorem thin_dense (ws : List Nat) (f : Nat) (hf : 0 < f) (hmax : ∃ w ∈ ws, f < w) :
    thinIndices (f : K) (ws.map (Nat.cast : Nat → K)) = .ok ((everyNth f (expand ws)).map some) := by
  cases ws with
  | nil => obtain ⟨w, hw, _⟩ := hmax; simp at hw
  | cons w0 ws =>
  obtain ⟨m, hm, hle, _⟩ := max?_nat w0 ws
  obtain ⟨wm, hwm, hfw⟩ := hmax
  have hfm : f < m := lt_of_lt_of_le hfw (hle wm hwm)
  unfold thinIndices
  dsimp only
  rw [map_trunc, sum_cast, sum_ofNat, trunc_natCast, hm]
  have h1 : ¬ (|((w0 :: ws).sum : K) - ((w0 :: ws).sum : K)| > 1 / 10000) := by simp
  have hsz : (((w0 :: ws).sum : Nat) : Int).fdiv (f : Int) = (((w0 :: ws).sum / f : Nat) : Int) := by
    rw [Int.fdiv_eq_ediv_of_nonneg _ (by positivity)]; push_cast; rfl
  have hlen : (ev f 0 (expand (w0 :: ws))).length = (w0 :: ws).sum / f := by
    rw [ev_length hf _ _ hf, Nat.zero_add, expand, expandFrom_length]
  have hr : remaining (w0 :: ws) 0 w0 = expand (w0 :: ws) := by simp [remaining, expand, expandFrom]
  have hl := loop_spec (w0 :: ws) f hf ((w0 :: ws).sum / f) ((w0 :: ws).length + (w0 :: ws).sum / f + 1) 0 0 w0 []
    hf (by rw [hr, hlen]; simp) (by simp)
  rw [hr] at hl
  have hnm : nextMult ((w0 :: ws).map Int.ofNat) 0 0 = (w0 : Int) := rfl
  simp only [h1, if_false, ne_eq, Int.cast_natCast, not_true_eq_false, bind, Except.bind, pure, Except.pure,
    ge_iff_le, show ¬ ((m : Int) ≤ (f : Int)) by omega, hsz, show ¬ ((((w0 :: ws).sum / f : Nat) : Int) < 0) by omega,
    Int.toNat_natCast, hnm, List.length_map]
  rw [Nat.cast_zero] at hl
  rw [hl]
  simp only [List.nil_append, hlen, Nat.sub_self, List.replicate_zero, List.append_nil]
  rw [ev_eq_everyNth hf _ _ (le_refl _)]

/-- **C13**, factor at least the largest weight: every `f`-th entry again, preceded by row 0 unless that row
is itself the first one kept. -/
theorem thin_sparse (w0 : Nat) (ws : List Nat) (f : Nat) (hf : 0 < f) (hmax : ∀ w ∈ w0 :: ws, w ≤ f) :
    thinIndices (f : K) ((w0 :: ws).map (Nat.cast : Nat → K)) =
      .ok (((if w0 < f then [0] else []) ++ everyNth f (expand (w0 :: ws))).map some) := by
  obtain ⟨m, hm, hle, hmem⟩ := max?_nat w0 ws
  have hfm : m ≤ f := hmax m hmem
  unfold thinIndices
  dsimp only
  rw [map_trunc, sum_cast, sum_ofNat, trunc_natCast, hm]
  have h1 : ¬ (|((w0 :: ws).sum : K) - ((w0 :: ws).sum : K)| > 1 / 10000) := by simp
  simp only [h1, if_false, ne_eq, Int.cast_natCast, not_true_eq_false, bind, Except.bind, pure, Except.pure,
    ge_iff_le, show ((m : Int) ≤ (f : Int)) by omega, if_true]
  have hc := cumsum_quot f (w0 :: ws) 0
  rw [Nat.cast_zero] at hc
  unfold cumsum
  rw [hc, quot, List.map_cons]
  have hs : (Int.ofNat ((0 + w0) / f) :: (quot f (0 + w0) ws).map Int.ofNat).Pairwise (· ≤ ·) := by
    have := quot_sorted f (w0 :: ws) 0
    rw [quot] at this
    rw [← List.map_cons, List.pairwise_map]
    exact this.imp (by intro a b h; simpa using h)
  rw [uniqueIndex_sorted _ _ hs, changes_map _ (by simp), Nat.zero_add,
    changes_quot hf ws w0 1 (fun w hw => hmax w (by simp [hw]))]
  rw [← ev_eq_everyNth hf _ _ (le_refl _), expand, expandFrom, ev_append hf _ _ _ hf, ev_replicate hf _ _ _ hf,
    List.length_replicate, Nat.zero_add]
  have hw0 := hmax w0 (by simp)
  by_cases h : w0 < f
  · rw [if_pos h, Nat.div_eq_of_lt h]; simp
  · have : w0 = f := by omega
    rw [if_neg h, this, Nat.div_self hf]; simp

/-! ### consequences in the words of the property -/

theorem expandFrom_ge : ∀ (ws : List Nat) (i : Nat), ∀ x ∈ expandFrom i ws, i ≤ x ∧ x < i + ws.length := by
  intro ws
  induction ws with
  | nil => intro i x hx; simp [expandFrom] at hx
  | cons w ws ih =>
    intro i x hx
    rw [expandFrom] at hx
    rcases List.mem_append.mp hx with h | h
    · have := List.eq_of_mem_replicate h; simp; omega
    · have := ih (i + 1) x h; simp; omega

theorem expandFrom_sorted : ∀ (ws : List Nat) (i : Nat), (expandFrom i ws).Pairwise (· ≤ ·) := by
  intro ws
  induction ws with
  | nil => intro i; simp [expandFrom]
  | cons w ws ih =>
    intro i
    rw [expandFrom, List.pairwise_append]
    refine ⟨?_, ih _, ?_⟩
    · rw [List.pairwise_replicate]; simp
    · intro a ha b hb
      have := List.eq_of_mem_replicate ha
      have := expandFrom_ge ws (i + 1) b hb
      omega

theorem ev_sublist (f : Nat) : ∀ (l : List Nat) (t : Nat), (ev f t l).Sublist l := by
  intro l
  induction l with
  | nil => intro t; simp [ev]
  | cons a l ih =>
    intro t
    rw [ev]
    split
    · exact (ih _).cons_cons a
    · exact (ih _).cons a

theorem count_ev_expand {f : Nat} (hf : 0 < f) : ∀ (ws : List Nat) (k t i w : Nat), t < f → ws[i]? = some w →
    ∃ u, u < f ∧ (ev f t (expandFrom k ws)).count (k + i) = (u + w) / f := by
  intro ws
  induction ws with
  | nil => intro k t i w _ h; simp at h
  | cons a ws ih =>
    intro k t i w ht h
    rw [expandFrom, ev_append hf _ _ _ ht, List.count_append, ev_replicate hf _ _ _ ht, List.length_replicate]
    cases i with
    | zero =>
      simp only [List.getElem?_cons_zero, Option.some.injEq] at h
      subst h
      refine ⟨t, ht, ?_⟩
      rw [Nat.add_zero, List.count_replicate_self]
      have : (ev f ((t + a) % f) (expandFrom (k + 1) ws)).count k = 0 := by
        apply List.count_eq_zero_of_not_mem
        intro hm
        have := expandFrom_ge ws (k + 1) k ((ev_sublist f _ _).subset hm)
        omega
      omega
    | succ i =>
      simp only [List.getElem?_cons_succ] at h
      obtain ⟨u, hu, hc⟩ := ih (k + 1) ((t + a) % f) i w (Nat.mod_lt _ hf) h
      refine ⟨u, hu, ?_⟩
      rw [show k + (i + 1) = k + 1 + i from by omega, hc, List.count_replicate]
      have : (k == k + 1 + i) = false := by simp; omega
      simp [this]

/-- **C13**, in the words of the property, factor below the largest weight -/
theorem thin_dense_counts (ws : List Nat) (f : Nat) (hf : 0 < f) (hmax : ∃ w ∈ ws, f < w) :
    ∃ ix : List Nat, thinIndices (f : K) (ws.map (Nat.cast : Nat → K)) = .ok (ix.map some) ∧
      ix.length = ws.sum / f ∧ ix.Pairwise (· ≤ ·) ∧ (∀ i ∈ ix, i < ws.length) ∧
      ∀ i w, ws[i]? = some w → w / f ≤ ix.count i ∧ ix.count i ≤ w / f + 1 := by
  refine ⟨everyNth f (expand ws), thin_dense ws f hf hmax, ?_⟩
  rw [← ev_eq_everyNth hf _ _ (le_refl _)]
  refine ⟨?_, ?_, ?_, ?_⟩
  · rw [ev_length hf _ _ hf, Nat.zero_add, expand, expandFrom_length]
  · exact (expandFrom_sorted ws 0).sublist (ev_sublist f _ _)
  · intro i hi
    have := expandFrom_ge ws 0 i ((ev_sublist f _ _).subset hi)
    omega
  · intro i w h
    obtain ⟨u, hu, hc⟩ := count_ev_expand hf ws 0 0 i w hf h
    rw [Nat.zero_add] at hc
    rw [expand, hc]
    constructor
    · exact Nat.div_le_div_right (by omega)
    · rw [← Nat.add_div_right _ hf]; exact Nat.div_le_div_right (by omega)

/-- **C13**, in the words of the property, factor at least the largest weight: strictly increasing row
numbers, `total // f` of them or one more. -/
theorem thin_sparse_counts (w0 : Nat) (ws : List Nat) (f : Nat) (hf : 0 < f) (hmax : ∀ w ∈ w0 :: ws, w ≤ f) :
    ∃ ix : List Nat, thinIndices (f : K) ((w0 :: ws).map (Nat.cast : Nat → K)) = .ok (ix.map some) ∧
      (ix.length = (w0 :: ws).sum / f ∨ ix.length = (w0 :: ws).sum / f + 1) ∧ ix.Pairwise (· < ·) ∧
      ∀ i ∈ ix, i < (w0 :: ws).length := by
  refine ⟨_, thin_sparse w0 ws f hf hmax, ?_⟩
  rw [← ev_eq_everyNth hf _ _ (le_refl _)]
  have hlen : (ev f 0 (expand (w0 :: ws))).length = (w0 :: ws).sum / f := by
    rw [ev_length hf _ _ hf, Nat.zero_add, expand, expandFrom_length]
  have hin : ∀ i ∈ ev f 0 (expand (w0 :: ws)), i < (w0 :: ws).length := by
    intro i hi
    have := expandFrom_ge (w0 :: ws) 0 i ((ev_sublist f _ _).subset hi)
    omega
  have hsorted : (ev f 0 (expand (w0 :: ws))).Pairwise (· ≤ ·) :=
    (expandFrom_sorted (w0 :: ws) 0).sublist (ev_sublist f _ _)
  have hcount : ∀ i, (ev f 0 (expand (w0 :: ws))).count i ≤ 1 := by
    intro i
    by_cases hi : i < (w0 :: ws).length
    · obtain ⟨u, hu, hc⟩ := count_ev_expand hf (w0 :: ws) 0 0 i _ hf (List.getElem?_eq_getElem hi)
      rw [Nat.zero_add] at hc
      rw [expand, hc]
      have := hmax _ (List.getElem_mem hi)
      have : (u + (w0 :: ws)[i]) / f < 2 := by rw [Nat.div_lt_iff_lt_mul hf]; omega
      omega
    · have : i ∉ ev f 0 (expand (w0 :: ws)) := fun h => hi (hin i h)
      rw [List.count_eq_zero_of_not_mem this]; omega
  have hnodup : (ev f 0 (expand (w0 :: ws))).Nodup := List.nodup_iff_count.mpr hcount
  have hstrict : (ev f 0 (expand (w0 :: ws))).Pairwise (· < ·) :=
    (hsorted.and hnodup).imp (fun h => lt_of_le_of_ne h.1 h.2)
  by_cases h : w0 < f
  · rw [if_pos h]
    refine ⟨Or.inr ?_, ?_, ?_⟩
    · simp only [List.length_append, hlen, List.length_cons, List.length_nil]; omega
    · rw [List.singleton_append, List.pairwise_cons]
      refine ⟨?_, hstrict⟩
      intro i hi
      rw [expand, expandFrom, ev_append hf _ _ _ hf, ev_replicate hf _ _ _ hf, Nat.zero_add,
        Nat.div_eq_of_lt h] at hi
      have := expandFrom_ge ws (0 + 1) i ((ev_sublist f _ _).subset (by simpa using hi))
      omega
    · intro i hi
      rcases List.mem_append.mp hi with hi | hi
      · have : i = 0 := by simpa using hi
        subst this; simp
      · exact hin i hi
  · rw [if_neg h]
    exact ⟨Or.inl hlen, hstrict, hin⟩

/-- **C13**, error branch: weights that are not integers (total fractional part above 1e-4) are refused -/
theorem thin_refuses_noninteger (ws : List K) (f : K) (hpos : ∀ w ∈ ws, 0 ≤ w)
    (h : 1 / 10000 < (ws.map Int.fract).sum) : thinIndices f ws = .error .weightedSampleError := by
  have key : ∀ ws : List K, (∀ w ∈ ws, 0 ≤ w) → ws.sum - (((ws.map trunc).sum : Int) : K) = (ws.map Int.fract).sum := by
    intro ws
    induction ws with
    | nil => intro _; simp
    | cons w ws ih =>
      intro hp
      have := ih (fun x hx => hp x (by simp [hx]))
      simp only [List.map_cons, List.sum_cons]
      have h2 : (trunc w : K) = ⌊w⌋ := by unfold trunc; rw [if_pos (hp w (by simp))]
      push_cast
      rw [← this, h2, Int.fract]; ring
  have h1 : |(((ws.map trunc).sum : Int) : K) - ws.sum| > 1 / 10000 := by
    rw [abs_sub_comm, key ws hpos]
    exact lt_of_lt_of_le h (le_abs_self _)
  unfold thinIndices
  simp only [h1, if_true]
  rfl

/-- **C13**, error branch: a non-integer factor is always refused -/
theorem thin_refuses_factor (ws : List K) (f : K) (h : f ≠ ⌊f⌋) :
    thinIndices f ws = .error .weightedSampleError := by
  have h1 : f ≠ (trunc f : K) := by
    unfold trunc
    split
    · exact h
    · intro e
      apply h
      have : ((⌈f⌉ : Int) : K) = f := e.symm
      have h3 : f = ((⌈f⌉ : Int) : K) := e
      have : ⌊f⌋ = ⌈f⌉ := by
        conv_lhs => rw [h3]
        exact Int.floor_intCast _
      rw [this]; exact e
  unfold thinIndices
  simp only []
  split
  · rfl
  · rfl

theorem loop_terminates (w : List Int) (f : Int) (cap : Nat) : ∀ (fuel i : Nat) (tot mult : Int) (out : List Nat),
    (w.length - i) + (cap - out.length) ≤ fuel → loop w f cap fuel i tot mult out ≠ .error .diverges := by
  intro fuel
  induction fuel with
  | zero =>
    intro i tot mult out h
    rw [loop, if_neg (by omega)]; simp
  | succ fuel ih =>
    intro i tot mult out h
    rw [loop]
    split
    · split
      · exact ih _ _ _ _ (by omega)
      · split
        · split
          · exact ih _ _ _ _ (by simp; omega)
          · exact ih _ _ _ _ (by simp; omega)
        · simp
    · simp

/-- **C13**: thinning terminates for every weight vector and factor, including negative ones -/
theorem thin_terminates (ws : List K) (f : K) : thinIndices f ws ≠ .error .diverges := by
  unfold thinIndices
  dsimp only
  split
  · simp [throw, throwThe, MonadExceptOf.throw, bind, Except.bind]
  · split
    · simp [throw, throwThe, MonadExceptOf.throw, bind, Except.bind]
    · cases hm : max? (ws.map trunc) with
      | error e =>
        have : e = .valueError := by
          unfold max? at hm; split at hm <;> simp_all
        subst this
        simp [bind, Except.bind]
      | ok m =>
        simp only [bind, Except.bind]
        split
        · simp [pure, Except.pure]
        · split
          · simp [throw, throwThe, MonadExceptOf.throw]
          · split
            · rename_i e he
              intro h
              cases h
              exact loop_terminates _ _ _ _ _ _ _ _ (by simp) he
            · simp [pure, Except.pure]

/-! ### concrete cases meeting the hypotheses -/
example : thinIndices (2 : ℚ) [3, 1, 1] = .ok [some 0, some 1] := by decide +kernel
example : ∃ ix : List Nat, thinIndices ((2 : Nat) : ℚ) ([3, 1, 4].map (Nat.cast : Nat → ℚ)) = .ok (ix.map some) ∧
    ix.length = 4 :=
  let ⟨ix, h1, h2, _⟩ := thin_dense_counts [3, 1, 4] 2 (by decide) ⟨3, by decide, by decide⟩
  ⟨ix, h1, h2⟩
example : thinIndices ((3 : Nat) : ℚ) ([1, 2, 3, 2].map (Nat.cast : Nat → ℚ)) = .ok [some 0, some 1, some 2] := by
  rw [thin_sparse 1 [2, 3, 2] 3 (by decide) (by decide)]; decide +kernel
example := thin_sparse_counts (K := ℚ) 1 [2, 3, 2] 3 (by decide) (by decide)
example : thinIndices (2 : ℚ) [1/2, 1] = .error .weightedSampleError :=
  thin_refuses_noninteger [1/2, 1] (2 : ℚ) (by simp) (by norm_num [Int.fract])
example : thinIndices (3/2 : ℚ) [2, 1] = .error .weightedSampleError :=
  thin_refuses_factor [2, 1] (3/2 : ℚ) (by norm_num)

end Verif.Thin
