import Verif.Model.Scatter
import Verif.Props.Thin
import Verif.Props.RafteryChains
import Verif.Props.Reweight
import Verif.Props.Chains
import Mathlib.Tactic.Ring
import Mathlib.Tactic.Linarith
import Mathlib.Tactic.FieldSimp
import Mathlib.Algebra.BigOperators.Group.List.Basic

/-!
# Properties of scatter plots, bands and exported file names (`Verif/Model/Scatter.lean`)
-/

set_option linter.unusedSectionVars false

namespace Verif.Scatter
open Verif.Py Verif.Py.Np Verif.Thin

section Points
variable {K : Type} [Field K] [LinearOrder K] [IsStrictOrderedRing K] [FloorRing K]

/-! ## Opacity by weight -/

/-- the number of copies of a sample of weight `w` when the largest weight is `m` -/
def copies (m w : K) : Nat := if m / 400 < w then ⌈4 * w / m⌉.toNat else 0

/-- the opacity of each copy -/
def copyAlpha (alpha m w : K) : K := alpha * (w / m) / (copies m w : K)

theorem allSome_map (ix : List Nat) : Samples.allSome (ix.map some) = .ok ix := by
  unfold Samples.allSome
  induction ix with
  | nil => rfl
  | cons i ix ih => rw [List.map_cons, List.mapM_cons, ih]; rfl

theorem gather_expand {α : Type} (l : List α) : ∀ (pre : List α) (ns : List Nat), ns.length = l.length →
    gather (pre ++ l) (expandFrom pre.length ns) = .ok ((l.zip ns).flatMap (fun p => List.replicate p.2 p.1)) := by
  induction l with
  | nil =>
    intro pre ns h
    obtain rfl : ns = [] := List.length_eq_zero_iff.mp h
    rfl
  | cons a l ih =>
    intro pre ns h
    cases ns with
    | nil => simp at h
    | cons n ns =>
      have hi := ih (pre ++ [a]) ns (by simpa using h)
      have hz : (pre ++ [a]) ++ l = pre ++ a :: l := by simp
      rw [hz, List.length_append, List.length_singleton] at hi
      rw [expandFrom]
      have hr : ∀ (n : Nat) (rest : List Nat) (out : List α), gather (pre ++ a :: l) rest = .ok out →
          gather (pre ++ a :: l) (List.replicate n pre.length ++ rest) = .ok (List.replicate n a ++ out) := by
        intro n rest out ho
        induction n with
        | zero => exact ho
        | succ n ihn =>
          unfold gather at ihn ⊢
          rw [List.replicate_succ, List.cons_append, List.mapM_cons, ihn]
          have : (pre ++ a :: l)[pre.length]? = some a := by simp
          rw [this]; rfl
      rw [hr n _ _ hi]
      rfl

theorem scaled_mem {P : Type} {m : K} {rows : List (P × K)} {r : P × K} (h : r ∈ scaled m rows) (hm : 0 < m) : 0 < r.2 := by
  unfold scaled at h
  obtain ⟨q, hq, rfl⟩ := List.mem_map.mp h
  have := of_decide_eq_true (List.mem_filter.mp hq).2
  have h0 : 0 < q.2 := lt_trans (by positivity) this
  dsimp only
  positivity

theorem cast_toNat {z : Int} (h : 0 ≤ z) : ((z : Int) : K) = ((z.toNat : Nat) : K) := by
  obtain ⟨n, rfl⟩ := Int.eq_ofNat_of_zero_le h
  simp

theorem ceilK_nat {w : K} (h : 0 < w) : ceilK w = ((⌈w⌉.toNat : Nat) : K) := by
  unfold ceilK
  have : (0 : Int) ≤ ⌈w⌉ := (Int.ceil_pos.mpr h).le
  exact cast_toNat this

theorem alphaPoints_eq {P : Type} (alpha : K) (rows : List (P × K)) (m : K) (hm : max? (rows.map (·.2)) = .ok m) (hp : 0 < m) :
    alphaPoints alpha rows = .ok ((scaled m rows).flatMap (fun r => List.replicate ⌈r.2⌉.toNat (r.1, r.2 / ceilK r.2 / 4 * alpha))) := by
  have hc : (scaled m rows).map (fun r => ceilK r.2) = ((scaled m rows).map (fun r => ⌈r.2⌉.toNat)).map (Nat.cast : Nat → K) := by
    rw [List.map_map]
    apply List.map_congr_left
    intro r hr
    exact ceilK_nat (scaled_mem hr hp)
  have hmem := (Chains.max?_spec hm).1
  obtain ⟨q, hq, hqm⟩ := List.mem_map.mp hmem
  have hbig : ∃ w ∈ (scaled m rows).map (fun r => ⌈r.2⌉.toNat), 1 < w := by
    refine ⟨⌈q.2 / m * 4⌉.toNat, List.mem_map.mpr ⟨(q.1, q.2 / m * 4), ?_, rfl⟩, ?_⟩
    · refine List.mem_map.mpr ⟨q, List.mem_filter.mpr ⟨hq, ?_⟩, rfl⟩
      apply decide_eq_true
      rw [hqm]
      rw [div_lt_iff₀ (by norm_num)]
      nlinarith
    · rw [hqm, div_self hp.ne', one_mul]
      have : (⌈(4 : K)⌉) = 4 := by exact_mod_cast Int.ceil_natCast (R := K) 4
      rw [this]; decide
  have ht := thin_dense (K := K) ((scaled m rows).map (fun r => ⌈r.2⌉.toNat)) 1 (by decide) hbig
  rw [Nat.cast_one] at ht
  unfold alphaPoints
  simp only [hm, bind, Except.bind]
  rw [hc, ht, Raftery.everyNth_one]
  simp only [allSome_map]
  have hg := gather_expand ((scaled m rows).map (fun r => (r.1, r.2 / ceilK r.2 / 4 * alpha))) []
    ((scaled m rows).map (fun r => ⌈r.2⌉.toNat)) (by simp)
  rw [List.nil_append, List.length_nil] at hg
  unfold expand
  rw [hg, List.zip_map', List.flatMap_map]

/-- **C215**: with `alpha_samples` each sample is drawn as a number of copies of itself, next to each other and in the order of the samples:
none if its weight is at most 1/400 of the largest weight, and otherwise four times its relative weight rounded up -/
theorem alpha_points {P : Type} (alpha : K) (rows : List (P × K)) (m : K) (hm : ∃ r ∈ rows, r.2 = m) (hmax : ∀ r ∈ rows, r.2 ≤ m) (hp : 0 < m) :
    alphaPoints alpha rows = .ok (rows.flatMap (fun r => List.replicate (copies m r.2) (r.1, copyAlpha alpha m r.2))) := by
  have hmx : max? (rows.map (·.2)) = .ok m := by
    obtain ⟨r, hr, rfl⟩ := hm
    obtain ⟨m', h'⟩ := Samples.max?_isSome (l := rows.map (·.2)) (by
      intro h0; rw [List.map_eq_nil_iff] at h0; subst h0; cases hr)
    have := Chains.max?_spec h'
    obtain ⟨q, hq, hqm⟩ := List.mem_map.mp this.1
    rw [h']
    congr 1
    apply le_antisymm
    · rw [← hqm]; exact hmax q hq
    · exact this.2 _ (List.mem_map.mpr ⟨r, hr, rfl⟩)
  rw [alphaPoints_eq alpha rows m hmx hp]
  congr 1
  clear hm hmx hmax
  induction rows with
  | nil => rfl
  | cons r rows ih =>
    rw [List.flatMap_cons, ← ih]
    unfold scaled
    by_cases h : m / 400 < r.2
    · rw [List.filter_cons_of_pos (by exact decide_eq_true h), List.map_cons, List.flatMap_cons]
      congr 1
      have h0 : 0 < r.2 := lt_trans (by positivity) h
      have h1 : 0 < r.2 / m * 4 := by positivity
      have hcp : copies m r.2 = ⌈r.2 / m * 4⌉.toNat := by
        unfold copies; rw [if_pos h]; congr 2; ring
      dsimp only
      rw [ceilK_nat h1, copyAlpha, hcp]
      congr 2
      have : ((⌈r.2 / m * 4⌉.toNat : Nat) : K) ≠ 0 := by
        have : 0 < ⌈r.2 / m * 4⌉ := Int.ceil_pos.mpr h1
        have : 0 < ⌈r.2 / m * 4⌉.toNat := by omega
        exact_mod_cast this.ne'
      field_simp
    · rw [List.filter_cons_of_neg (by simpa using h)]
      have : copies m r.2 = 0 := by unfold copies; rw [if_neg h]
      rw [this]; rfl

/-- **C215**: the opacities of the copies of one sample add up to `alpha` times its weight relative to the largest weight; there are one to
four of them, and no copy has more than a quarter of `alpha` -/
theorem copies_total (alpha m w : K) (hp : 0 < m) (hw : w ≤ m) (hk : m / 400 < w) :
    (List.replicate (copies m w) (copyAlpha alpha m w)).sum = alpha * (w / m) ∧ 1 ≤ copies m w ∧ copies m w ≤ 4 ∧
    (0 ≤ alpha → copyAlpha alpha m w ≤ alpha / 4) := by
  have h0 : 0 < w := lt_trans (by positivity) hk
  have h1 : 0 < 4 * w / m := by positivity
  have hc : copies m w = ⌈4 * w / m⌉.toNat := by unfold copies; rw [if_pos hk]
  have hpos : 0 < ⌈4 * w / m⌉ := Int.ceil_pos.mpr h1
  have hge : 1 ≤ copies m w := by rw [hc]; omega
  have hk0 : (0 : K) < (copies m w : K) := by exact_mod_cast hge
  have hle : 4 * w / m ≤ (copies m w : K) := by
    have hh := Int.le_ceil (4 * w / m)
    have he : ((⌈4 * w / m⌉ : Int) : K) = (copies m w : K) := by
      rw [hc]; exact cast_toNat hpos.le
    rwa [he] at hh
  refine ⟨?_, hge, ?_, ?_⟩
  · rw [List.sum_replicate, nsmul_eq_mul, copyAlpha]
    field_simp
  · rw [hc]
    have : ⌈4 * w / m⌉ ≤ 4 := by
      rw [Int.ceil_le]; push_cast
      rw [div_le_iff₀ hp]; linarith
    omega
  · intro ha
    unfold copyAlpha
    rw [div_le_div_iff₀ hk0 (by norm_num)]
    have : alpha * (w / m) * 4 = alpha * (4 * w / m) := by ring
    rw [this]
    exact mul_le_mul_of_nonneg_left hle ha

example : copies (4 : ℚ) 3 = 3 ∧ copyAlpha (1 : ℚ) 4 3 = 1 / 4 ∧ copies (4 : ℚ) (1 / 2) = 1 ∧ copyAlpha (1 : ℚ) 4 (1 / 2) = 1 / 8 := by decide +kernel

/-- with weights 4, 1 and 0: the first sample is four copies, the second one copy with a quarter of the opacity -/
example : (alphaPoints (1 : ℚ) [('a', 4), ('b', 1), ('c', 0)]).toOption =
    some [('a', 1/4), ('a', 1/4), ('a', 1/4), ('a', 1/4), ('b', 1/4)] := by decide +kernel

/-! ## Bounds -/

/-- **C215**: the bounds returned lie a twentieth of the range outside of the smallest and the largest value -/
theorem bounds_enclose (l : List K) (b : K × K) (h : bounds l = .ok b) :
    ∃ lo ∈ l, ∃ hi ∈ l, (∀ x ∈ l, lo ≤ x ∧ x ≤ hi) ∧ b = (lo - (hi - lo) / 20, hi + (hi - lo) / 20) ∧ ∀ x ∈ l, b.1 ≤ x ∧ x ≤ b.2 := by
  unfold bounds at h
  cases hlo : min? l with
  | error e => rw [hlo] at h; cases h
  | ok lo =>
    cases hhi : max? l with
    | error e => rw [hlo, hhi] at h; cases h
    | ok hi =>
      rw [hlo, hhi] at h
      injection h with h
      have h1 := Samples.min?_spec hlo
      have h2 := Chains.max?_spec hhi
      refine ⟨lo, h1.1, hi, h2.1, fun x hx => ⟨h1.2 x hx, h2.2 x hx⟩, h.symm, ?_⟩
      intro x hx
      have ha := h1.2 x hx
      have hb := h2.2 x hx
      rw [← h]
      dsimp only
      constructor <;> linarith

example : (bounds [(3 : ℚ), 1, 21]).toOption = some (0, 22) := by decide +kernel

theorem bounds_ok {l : List K} (h : l ≠ []) : ∃ b, bounds l = .ok b := by
  obtain ⟨lo, h1⟩ := Samples.min?_isSome h
  obtain ⟨hi, h2⟩ := Samples.max?_isSome h
  exact ⟨_, by unfold bounds; rw [h1, h2]; rfl⟩

/-- **C215**: `extra_thin = k` keeps the points number 0, k, 2k, ... -/
theorem thinBy_get {P : Type} (k : Nat) (l : List P) (hk : 1 ≤ k) (p : P) : p ∈ thinBy k l ↔ ∃ j, l[k * j]? = some p := by
  unfold thinBy
  by_cases h : 1 < k
  · rw [if_pos h]
    simp only [List.mem_map, List.mem_filter, decide_eq_true_eq]
    constructor
    · rintro ⟨⟨q, i⟩, ⟨hq, hi⟩, rfl⟩
      refine ⟨i / k, ?_⟩
      rw [Nat.mul_div_cancel' (Nat.dvd_of_mod_eq_zero hi)]
      exact List.mem_zipIdx_iff_getElem?.mp hq
    · rintro ⟨j, hj⟩
      exact ⟨(p, k * j), ⟨List.mem_zipIdx_iff_getElem?.mpr hj, Nat.mul_mod_right k j⟩, rfl⟩
  · obtain rfl : k = 1 := by omega
    rw [if_neg h]
    simp only [one_mul]
    exact List.mem_iff_getElem?

example : thinBy 3 c!"abcdefgh" = c!"adg" := by decide +kernel

theorem thinBy_sublist {P : Type} (k : Nat) (l : List P) : List.Sublist (thinBy k l) l := by
  unfold thinBy
  split
  · have : List.Sublist ((l.zipIdx.filter (fun r => r.2 % k = 0)).map (·.1)) (l.zipIdx.map (·.1)) :=
      List.Sublist.map _ List.filter_sublist
    rwa [List.zipIdx_map_fst] at this
  · exact List.Sublist.refl _

example : thinBy 2 c!"abcde" = c!"ace" ∧ thinBy 0 c!"abc" = c!"abc" := by decide +kernel

/-- **C215**: every point that is drawn is one of the samples, and lies inside the bounds that are returned -/
theorem add3d_points (alphaSamples fixed : Bool) (nparams k : Nat) (alpha : K) (rows : List (List K × K)) (single : List (List K)) (d : Drawn K)
    (hpos : alphaSamples = true → ∃ r ∈ rows, 0 < r.2)
    (h : add3d alphaSamples fixed nparams k alpha rows single = .ok d) (p : List K × K) (hp : p ∈ d.points) :
    (if alphaSamples then ∃ r ∈ rows, r.1 = p.1 else p.1 ∈ single) ∧
    d.xbounds.1 ≤ p.1.getD 0 0 ∧ p.1.getD 0 0 ≤ d.xbounds.2 ∧ d.ybounds.1 ≤ p.1.getD 1 0 ∧ p.1.getD 1 0 ≤ d.ybounds.2 := by
  have key : ∀ (pts : List (List K × K)) (all : List (List K)), withBounds pts all = .ok d →
      d.points = pts ∧ ∀ v ∈ all, d.xbounds.1 ≤ v.getD 0 0 ∧ v.getD 0 0 ≤ d.xbounds.2 ∧ d.ybounds.1 ≤ v.getD 1 0 ∧ v.getD 1 0 ≤ d.ybounds.2 := by
    intro pts all hw
    unfold withBounds at hw
    cases hx : bounds (all.map (fun r => r.getD 0 0)) with
    | error e => rw [hx] at hw; cases hw
    | ok xb =>
      cases hy : bounds (all.map (fun r => r.getD 1 0)) with
      | error e => rw [hx, hy] at hw; cases hw
      | ok yb =>
        rw [hx, hy] at hw
        injection hw with hw
        subst hw
        refine ⟨rfl, fun v hv => ?_⟩
        obtain ⟨_, _, _, _, _, _, h1⟩ := bounds_enclose _ _ hx
        obtain ⟨_, _, _, _, _, _, h2⟩ := bounds_enclose _ _ hy
        have a := h1 _ (List.mem_map.mpr ⟨v, hv, rfl⟩)
        have b := h2 _ (List.mem_map.mpr ⟨v, hv, rfl⟩)
        exact ⟨a.1, a.2, b.1, b.2⟩
  unfold add3d at h
  cases alphaSamples with
  | true =>
    rw [if_pos rfl] at h
    by_cases hn : nparams < 3
    · rw [if_pos hn] at h; cases h
    · rw [if_neg hn] at h
      cases ha : alphaPoints alpha rows with
      | error e => rw [ha] at h; cases h
      | ok pts =>
        rw [ha] at h
        obtain ⟨h1, h2⟩ := key pts _ h
        obtain ⟨r0, hr0, hr0p⟩ := hpos rfl
        obtain ⟨m, hm⟩ := Samples.max?_isSome (l := rows.map (·.2)) (by
          intro h0; rw [List.map_eq_nil_iff] at h0; subst h0; cases hr0)
        have hs := Chains.max?_spec hm
        have hmp : 0 < m := lt_of_lt_of_le hr0p (hs.2 _ (List.mem_map.mpr ⟨r0, hr0, rfl⟩))
        rw [alpha_points alpha rows m (List.mem_map.mp hs.1) (fun r hr => hs.2 _ (List.mem_map.mpr ⟨r, hr, rfl⟩)) hmp] at ha
        injection ha with ha
        rw [h1, ← ha] at hp
        obtain ⟨r, hr, hpr⟩ := List.mem_flatMap.mp hp
        obtain rfl := List.eq_of_mem_replicate hpr
        exact ⟨by rw [if_pos rfl]; exact ⟨r, hr, rfl⟩, h2 r.1 (List.mem_map.mpr ⟨r, hr, rfl⟩)⟩
  | false =>
    rw [if_neg (by decide)] at h
    by_cases hn : nparams < 2 ∨ (nparams < 3 ∧ fixed = false)
    · rw [if_pos hn] at h; cases h
    · rw [if_neg hn] at h
      obtain ⟨h1, h2⟩ := key _ _ h
      rw [h1] at hp
      obtain ⟨v, hv, rfl⟩ := List.mem_map.mp hp
      exact ⟨by rw [if_neg (by decide)]; exact (thinBy_sublist k single).subset hv, h2 v hv⟩

/-- three points thinned by two: the first and the third are drawn, and set the bounds -/
example : (add3d false true 2 2 (1 : ℚ) [] [[0, 0], [50, 50], [20, 40]]).toOption.map (fun d => (d.points, d.xbounds, d.ybounds)) =
    some ([([0, 0], 1), ([20, 40], 1)], (-1, 21), (-2, 42)) := by decide +kernel

/-- "opacity by weight can be used for plots of two parameters" -/
def OpacityIn2d : Prop := ∀ (rows : List (List ℚ × ℚ)) (single : List (List ℚ)), (∃ r ∈ rows, 0 < r.2) →
  ∃ d, scatter2d true 1 (1 : ℚ) rows single = .ok d

/-- **C216 fails**: `plot_2d_scatter(..., alpha_samples=True)` always ends in an `IndexError`, because the values of a third parameter are taken
even when a fixed colour is given (plots.py:2808) -/
theorem opacityIn2d_fails : ¬ OpacityIn2d := by
  intro h
  obtain ⟨d, hd⟩ := h [([1, 2], 1)] [] ⟨_, List.mem_singleton.mpr rfl, by norm_num⟩
  cases hd

/-! ## Limits and colours in three dimensions -/

/-- inside both ends, where they are given -/
def Within (lim : Lim K) (x : K) : Prop := match lim with
  | .pair lo hi => (∀ a, lo = some a → a < x) ∧ ∀ b, hi = some b → x < b
  | .other => False

/-- **C215**: when the limits are accepted, the points kept are exactly those that lie strictly inside the limits of every parameter named,
in their order, whether or not that parameter is plotted -/
theorem limLoop_mem (val : Str → Option (Nat → K)) : ∀ (lims : List (Str × Lim K)) (ix out : List Nat), limLoop val lims ix = .ok out →
    List.Sublist out ix ∧
    ∀ i, i ∈ out ↔ i ∈ ix ∧ ∀ e ∈ lims, (∀ f, val e.1 = some f → Within e.2 (f i)) := by
  intro lims
  induction lims with
  | nil => intro ix out h; injection h with h; subst h; exact ⟨List.Sublist.refl _, fun i => by simp⟩
  | cons e l ih =>
    intro ix out h
    rw [limLoop] at h
    cases hs : limStep val ix e with
    | error x => rw [hs] at h; cases h
    | ok ix' =>
      rw [hs] at h
      obtain ⟨h1, h2⟩ := ih ix' out h
      have hstep : List.Sublist ix' ix ∧ ∀ i, i ∈ ix' ↔ i ∈ ix ∧ ∀ f, val e.1 = some f → Within e.2 (f i) := by
        obtain ⟨name, lim⟩ := e
        unfold limStep at hs
        cases lim with
        | other => cases hs
        | pair lo hi =>
          cases hv : val name with
          | none =>
            cases lo <;> cases hi <;> simp only [hv] at hs <;> cases hs
            exact ⟨List.Sublist.refl _, fun i => by simp⟩
          | some f =>
            cases lo <;> cases hi <;> simp only [hv] at hs <;> cases hs
            · exact ⟨List.Sublist.refl _, fun i => by simp [Within]⟩
            · exact ⟨List.filter_sublist, fun i => by simp [Within]⟩
            · exact ⟨List.filter_sublist, fun i => by simp [Within]⟩
            · exact ⟨List.filter_sublist.trans List.filter_sublist, fun i => by simp only [List.mem_filter, decide_eq_true_eq, Within, Option.some.injEq, forall_eq']; rw [and_assoc]⟩
      refine ⟨h1.trans hstep.1, fun i => ?_⟩
      rw [h2 i, hstep.2 i, List.forall_mem_cons]
      exact and_assoc

example : (limLoop (K := ℚ) (fun n => if n = c!"x" then some (fun i => (i : ℚ)) else none) [(c!"x", .pair (some 1) (some 5)), (c!"x", .pair none (some 4))] [5, 4, 3, 2, 1]).toOption = some [3, 2] := by decide +kernel

/-- **C215**: limits on parameters that exist, each with a pair of ends, are always accepted -/
theorem limLoop_ok (val : Str → Option (Nat → K)) : ∀ (lims : List (Str × Lim K)) (ix : List Nat),
    (∀ e ∈ lims, (∃ f, val e.1 = some f) ∧ ∃ lo hi, e.2 = .pair lo hi) → ∃ out, limLoop val lims ix = .ok out := by
  intro lims
  induction lims with
  | nil => intro ix _; exact ⟨ix, rfl⟩
  | cons e l ih =>
    intro ix h
    obtain ⟨⟨f, hf⟩, lo, hi, hl⟩ := h e (by simp)
    have : ∃ ix', limStep val ix e = .ok ix' := by
      unfold limStep
      rw [hl]
      cases lo <;> cases hi <;> simp only [hf] <;> exact ⟨_, rfl⟩
    obtain ⟨ix', h'⟩ := this
    rw [limLoop, h']
    exact ih ix' (fun e' he' => h e' (by simp [he']))

example : (limLoop (K := ℚ) (fun n => if n = c!"x" then some (fun i => (i : ℚ)) else none) [(c!"x", .pair none none), (c!"x", .pair (some 1) none)] [1, 2]).toOption = some [2] := by decide +kernel

/-- **C215**: the order in which the limits are given does not matter -/
theorem limLoop_perm (val : Str → Option (Nat → K)) (l1 l2 : List (Str × Lim K)) (hp : l1.Perm l2) (ix o1 o2 : List Nat) (hn : ix.Nodup)
    (h1 : limLoop val l1 ix = .ok o1) (h2 : limLoop val l2 ix = .ok o2) : o1 = o2 := by
  obtain ⟨s1, m1⟩ := limLoop_mem val l1 ix o1 h1
  obtain ⟨s2, m2⟩ := limLoop_mem val l2 ix o2 h2
  have hmem : ∀ i, i ∈ o1 ↔ i ∈ o2 := by
    intro i
    rw [m1, m2]
    exact and_congr_right fun _ => forall_congr' fun e => by rw [hp.mem_iff]
  clear m1 m2 h1 h2
  induction ix generalizing o1 o2 with
  | nil => rw [List.sublist_nil.mp s1, List.sublist_nil.mp s2]
  | cons a ix ih =>
    have hna := (List.nodup_cons.mp hn).1
    cases s1 with
    | cons _ s1 =>
      cases s2 with
      | cons _ s2 => exact ih o1 o2 (List.nodup_cons.mp hn).2 s1 s2 hmem
      | cons_cons _ s2 => exact absurd (s1.subset ((hmem a).mpr (by simp))) hna
    | cons_cons _ s1 =>
      cases s2 with
      | cons _ s2 => exact absurd (s2.subset ((hmem a).mp (by simp))) hna
      | cons_cons _ s2 =>
        congr 1
        refine ih _ _ (List.nodup_cons.mp hn).2 s1 s2 (fun i => ?_)
        constructor
        · intro hi
          rcases List.mem_cons.mp ((hmem i).mp (List.mem_cons_of_mem _ hi)) with rfl | h
          · exact absurd (s1.subset hi) hna
          · exact h
        · intro hi
          rcases List.mem_cons.mp ((hmem i).mpr (List.mem_cons_of_mem _ hi)) with rfl | h
          · exact absurd (s2.subset hi) hna
          · exact h

example : (limLoop (K := ℚ) (fun n => if n = c!"x" then some (fun i => (i : ℚ)) else some (fun i => (i : ℚ) ^ 2)) [(c!"x", .pair (some 1) none), (c!"q", .pair none (some 10))] [1, 2, 3, 4]).toOption = some [2, 3] ∧
    (limLoop (K := ℚ) (fun n => if n = c!"x" then some (fun i => (i : ℚ)) else some (fun i => (i : ℚ) ^ 2)) [(c!"q", .pair none (some 10)), (c!"x", .pair (some 1) none)] [1, 2, 3, 4]).toOption = some [2, 3] := by decide +kernel

/-- **C215**: the colour of a root: the given one if there is one; black if there are only three parameters; otherwise the fourth parameter -/
theorem color4d_spec (nparams : Nat) (fixed : Option Str) : (nparams < 3 → color4d nparams fixed = .error .plotError) ∧
    (3 ≤ nparams → ∀ c, fixed = some c → color4d nparams fixed = .ok (.fixed c)) ∧
    (fixed = none → color4d 3 fixed = .ok (.fixed c!"k")) ∧ (4 ≤ nparams → fixed = none → color4d nparams fixed = .ok .byParam) := by
  refine ⟨?_, ?_, ?_, ?_⟩
  · intro h; unfold color4d; rw [if_pos h]
  · rintro h c rfl; unfold color4d; rw [if_neg (by omega)]
  · rintro rfl; rfl
  · rintro h rfl; unfold color4d; rw [if_neg (by omega)]; exact if_neg (by omega)

example : color4d 2 (some c!"r") = .error .plotError ∧ color4d 3 none = .ok (.fixed c!"k") ∧ color4d 4 none = .ok .byParam := by decide +kernel

/-- limits on two parameters, of which only one is plotted -/
example : (add4d (K := ℚ) (fun n => if n = c!"x" then some (fun i => (i : ℚ)) else if n = c!"q" then some (fun i => (i : ℚ) ^ 2) else none) 4
    [(c!"x", .pair (some 1) none), (c!"q", .pair none (some 16))] none [0, 1, 2, 3, 4]).toOption = some (.byParam, [2, 3]) := by decide +kernel

/-- **C215**: with a colour for every root after the first, or with none, every root is drawn: the first with `fixed_color`, the others with
their own -/
theorem plot4d_colors (nparams : Nat) (lims : List (Str × Lim K)) (fixed : Option Str) (cmp : Option (List Str))
    (roots : List ((Str → Option (Nat → K)) × List Nat)) (hn : 3 ≤ nparams)
    (hl : ∀ r ∈ roots, ∀ e ∈ lims, (∃ f, r.1 e.1 = some f) ∧ ∃ lo hi, e.2 = .pair lo hi)
    (hc : ∀ l, cmp = some l → roots.length ≤ l.length + 1) :
    ∃ out, plot4dFrom nparams lims fixed cmp 0 roots = .ok out ∧ out.length = roots.length ∧
      ∀ i d, out[i]? = some d → (color4d nparams (if i = 0 then fixed else cmp.bind (·[i - 1]?))) = .ok d.1 := by
  have key : ∀ (rs : List ((Str → Option (Nat → K)) × List Nat)) (k : Nat), (∀ r ∈ rs, r ∈ roots) → k + rs.length ≤ roots.length →
      ∃ out, plot4dFrom nparams lims fixed cmp k rs = .ok out ∧ out.length = rs.length ∧
      ∀ i d, out[i]? = some d → (color4d nparams (if k + i = 0 then fixed else cmp.bind (·[k + i - 1]?))) = .ok d.1 := by
    intro rs
    induction rs with
    | nil => intro k _ _; exact ⟨[], rfl, rfl, fun i d h => by simp at h⟩
    | cons r rs ih =>
      intro k hsub hk
      simp only [List.length_cons] at hk
      obtain ⟨out, ho, hlen, hcol⟩ := ih (k + 1) (fun r' h' => hsub r' (by simp [h'])) (by omega)
      have hpass : ∃ f, passColor fixed cmp k = .ok f ∧ f = (if k = 0 then fixed else cmp.bind (·[k - 1]?)) := by
        cases k with
        | zero => exact ⟨fixed, rfl, rfl⟩
        | succ k =>
          cases hcm : cmp with
          | none => exact ⟨none, rfl, rfl⟩
          | some l =>
            have hlt : k < l.length := by have := hc l hcm; omega
            refine ⟨some l[k], ?_, ?_⟩
            · unfold passColor; simp [List.getElem?_eq_getElem hlt]
            · simp [List.getElem?_eq_getElem hlt]
      obtain ⟨f, hf, hfe⟩ := hpass
      have hcolor : ∃ c, color4d nparams f = .ok c := by
        unfold color4d; rw [if_neg (by omega)]
        cases f with
        | some c => exact ⟨_, rfl⟩
        | none => dsimp only; split <;> exact ⟨_, rfl⟩
      obtain ⟨c, hcc⟩ := hcolor
      obtain ⟨ix, hix⟩ := limLoop_ok r.1 lims r.2 (hl r (hsub r (by simp)))
      refine ⟨(c, ix) :: out, ?_, by simp [hlen], ?_⟩
      · rw [plot4dFrom, hf]
        simp only [bind, Except.bind, add4d, hcc, hix, pure, Except.pure, ho]
      · intro i d hd
        cases i with
        | zero =>
          simp only [List.getElem?_cons_zero, Option.some.injEq] at hd
          subst hd
          rw [Nat.add_zero, ← hfe]; exact hcc
        | succ i =>
          rw [List.getElem?_cons_succ] at hd
          have := hcol i d hd
          rwa [show k + (i + 1) = k + 1 + i by omega]
  obtain ⟨out, h1, h2, h3⟩ := key roots 0 (fun r h => h) (by omega)
  exact ⟨out, h1, h2, fun i d hd => by have := h3 i d hd; rwa [Nat.zero_add] at this⟩

example : (plot4dFrom (K := ℚ) 4 [] none (some [c!"red"]) 0 [(fun _ => none, [0, 1]), (fun _ => none, [4])]).toOption =
    some [(.byParam, [0, 1]), (.fixed c!"red", [4])] := by decide +kernel

/-- "like alpha and marker, a list of colours that is too short is extended" -/
def ShortColorsOk : Prop := ∀ (roots : List ((Str → Option (Nat → ℚ)) × List Nat)) (cmp : List Str), cmp ≠ [] →
  ∃ out, plot4dFrom 4 [] none (some cmp) 0 roots = .ok out

/-- **C216 fails**: three roots and one comparison colour give an `IndexError` (plots.py:3128), although one alpha and one marker would do -/
theorem shortColorsOk_fails : ¬ ShortColorsOk := by
  intro h
  obtain ⟨out, ho⟩ := h [(fun _ => none, []), (fun _ => none, []), (fun _ => none, [])] [c!"k"] (by simp)
  cases ho

/-- **C215**: an axis ends at the limits given for its parameter, and otherwise where the view ends -/
theorem axisLim_spec (lims : List (Str × Lim K)) (name : Str) (view : K × K) :
    ((∀ e ∈ lims, e.1 ≠ name) → axisLim lims name view = view) ∧
    (∀ lo hi rest, lims = (name, .pair lo hi) :: rest → axisLim lims name view = (lo.getD view.1, hi.getD view.2)) := by
  constructor
  · intro h
    unfold axisLim
    rw [List.find?_eq_none.mpr (by intro e he; simp [h e he])]
  · rintro lo hi rest rfl
    unfold axisLim
    rw [List.find?_cons_of_pos (by simp)]

example : axisLim [(c!"x", .pair (some 2) none)] c!"x" ((0 : ℚ), 9) = (2, 9) ∧ axisLim [(c!"x", .pair (some 2) none)] c!"y" ((0 : ℚ), 9) = (0, 9) := by decide +kernel

/-! ## Bands -/

/-- **C215**: the shaded bands of one and two standard deviations are centred, the inner one lies inside the outer one and is drawn after it, and
a band with no opacity is left out -/
theorem bands12_spec (x σ a1 a2 : K) (h : 0 ≤ σ) : (∀ b ∈ bands12 x σ a1 a2, b.1 + b.2.1 = 2 * x ∧ b.1 ≤ b.2.1 ∧ 0 < b.2.2) ∧
    (bands12 x σ a1 a2).Pairwise (fun outer inner => outer.1 ≤ inner.1 ∧ inner.2.1 ≤ outer.2.1) ∧
    ((bands12 x σ a1 a2).length = (if 0 < a2 then 1 else 0) + (if 0 < a1 then 1 else 0)) ∧
    (0 < a1 → (x - σ, x + σ, a1) ∈ bands12 x σ a1 a2) ∧ (0 < a2 → (x - 2 * σ, x + 2 * σ, a2) ∈ bands12 x σ a1 a2) := by
  unfold bands12
  have h2 : σ * 2 = 2 * σ := by ring
  rw [h2]
  by_cases h1 : 0 < a1 <;> by_cases h2 : 0 < a2 <;> simp [h1, h2] <;> (repeat' apply And.intro) <;> linarith

example : bands12 (5 : ℚ) 1 (1 / 2) (1 / 4) = [(3, 7, 1 / 4), (4, 6, 1 / 2)] ∧ bands12 (5 : ℚ) 1 (1 / 2) 0 = [(4, 6, 1 / 2)] := by decide +kernel

/-- **C215**: `add_bands` shades one band for each opacity that is used, band number `i` being `y ± (i + 1) errors`, the widest first -/
theorem addBands_spec (alphas : List K) (y e : K) (n : Nat) (h : n ≤ alphas.length) : ∃ l, addBands alphas y e n = .ok l ∧
    l.length = n ∧ (∀ j, j < n → l[n - 1 - j]? = (alphas[j]?).map (fun a => (y - ((j : K) + 1) * e, y + ((j : K) + 1) * e, a))) ∧
    (0 ≤ e → l.Pairwise (fun outer inner => outer.1 ≤ inner.1 ∧ inner.2.1 ≤ outer.2.1) ∧
      ∀ b ∈ l, y - (n : K) * e ≤ b.1 ∧ b.1 ≤ y ∧ y ≤ b.2.1 ∧ b.2.1 ≤ y + (n : K) * e) := by
  induction n with
  | zero => exact ⟨[], rfl, rfl, fun j hj => absurd hj (by omega), fun _ => ⟨List.Pairwise.nil, fun b hb => by cases hb⟩⟩
  | succ n ih =>
    obtain ⟨l, h1, h2, h3, h4⟩ := ih (by omega)
    have ha : alphas[n]? = some alphas[n] := List.getElem?_eq_getElem (by omega)
    refine ⟨(y - ((n : K) + 1) * e, y + ((n : K) + 1) * e, alphas[n]) :: l, ?_, by simp [h2], ?_, ?_⟩
    · rw [addBands, ha, h1]
    · intro j hj
      by_cases hjn : j = n
      · subst hjn
        rw [show j + 1 - 1 - j = 0 by omega, List.getElem?_cons_zero, ha]; rfl
      · rw [show n + 1 - 1 - j = (n - 1 - j) + 1 by omega, List.getElem?_cons_succ]
        exact h3 j (by omega)
    · intro he
      obtain ⟨hp, hb⟩ := h4 he
      have hn : (0 : K) ≤ (n : K) * e := mul_nonneg (Nat.cast_nonneg n) he
      refine ⟨List.pairwise_cons.mpr ⟨fun b hm => ?_, hp⟩, fun b hm => ?_⟩
      · have := hb b hm
        dsimp only
        rw [add_mul, one_mul]
        constructor <;> linarith [this.1, this.2.2.2]
      · push_cast
        rw [add_mul, one_mul]
        rcases List.mem_cons.mp hm with rfl | hm
        · dsimp only
          rw [add_mul, one_mul]
          refine ⟨le_refl _, ?_, ?_, le_refl _⟩ <;> linarith
        · have := hb b hm
          refine ⟨?_, this.2.1, this.2.2.1, ?_⟩ <;> linarith [this.1, this.2.2.2]

example : (addBands [(1 : ℚ) / 4, 3 / 20, 1 / 10] 5 2 2).toOption = some [(1, 9, 3 / 20), (3, 7, 1 / 4)] := by decide +kernel

/-- "the number of bands may be chosen freely" -/
def AnyNumberOfBands : Prop := ∀ (n : Nat) (y e : ℚ), ∃ l, addBands [1 / 4, 3 / 20, 1 / 10] y e n = .ok l

/-- **C216 fails**: four bands with the default opacities are an `IndexError` (plots.py:1322), since only three are given -/
theorem anyNumberOfBands_fails : ¬ AnyNumberOfBands := by
  intro h
  obtain ⟨l, hl⟩ := h 4 0 1
  cases hl

end Points

/-! ## Exported files -/

/-- the extension of a file: what follows the last dot of its last component -/
def ext (p : Str) : Str := if '.' ∈ Path.basename p then ((Path.basename p).reverse.takeWhile (· ≠ '.')).reverse else []

/-- **C215**: a plain name gets the tag and the default extension, and goes into the directory given -/
theorem export_plain (script dflt f tag : Str) (adir : Option Str) (hd : '.' ∉ f) (hs : '/' ∉ f) (ht : '.' ∉ tag) (hts : '/' ∉ tag) (he : '/' ∉ dflt) :
    exportName script dflt (some f) adir tag =
      (match adir with | none => id | some d => Path.join d) ((if tag = [] then f else f ++ c!"_" ++ tag) ++ c!"." ++ dflt) := by
  have hf1 : '.' ∉ (if tag = [] then f else f ++ '_' :: tag) := by
    by_cases h : tag = []
    · rw [if_pos h]; exact hd
    · rw [if_neg h]; simp only [List.mem_append, List.mem_cons, not_or]; exact ⟨hd, by decide, ht⟩
  have hf2 : '/' ∉ (if tag = [] then f else f ++ '_' :: tag) := by
    by_cases h : tag = []
    · rw [if_pos h]; exact hs
    · rw [if_neg h]; simp only [List.mem_append, List.mem_cons, not_or]; exact ⟨hs, by decide, hts⟩
  have hrw : (if tag = [] then f else f ++ c!"_" ++ tag) = (if tag = [] then f else f ++ '_' :: tag) := by
    by_cases h : tag = []
    · rw [if_pos h, if_pos h]
    · rw [if_neg h, if_neg h, List.append_assoc]; rfl
  rw [hrw]
  unfold exportName
  simp only [if_neg hf1]
  have hslash : '/' ∉ (if tag = [] then f else f ++ '_' :: tag) ++ '.' :: dflt := by
    simp only [List.mem_append, List.mem_cons, not_or]; exact ⟨hf2, by decide, he⟩
  cases adir with
  | none => simp
  | some d => simp only [if_neg hslash]; simp

/-- **C215**: a name with an extension and no tag is used as it is, inside the directory if it has none itself -/
theorem export_asis (script dflt f : Str) (adir : Option Str) (hd : '.' ∈ f) : exportName script dflt (some f) adir [] =
    (match adir with | none => f | some d => if '/' ∈ f then f else Path.join d f) := by
  unfold exportName
  simp only [if_true, if_pos hd]
  cases adir <;> rfl

/-- **C215**: the directory of the file is made when it is missing, and only then -/
theorem exportDir_spec (exist : Str → Bool) (name d : Str) : exportDir exist name = some d ↔ d = Path.dirname name ∧ d ≠ [] ∧ exist d = false := by
  unfold exportDir
  split
  · rename_i h
    simp only [Option.some.injEq]
    constructor
    · rintro rfl; exact ⟨rfl, h⟩
    · rintro ⟨rfl, _⟩; rfl
  · rename_i h
    simp only [reduceCtorEq, false_iff, not_and]
    rintro rfl h1 h2
    exact h ⟨h1, h2⟩

example : exportDir (fun _ => false) c!"out/fig.pdf" = some c!"out" ∧ exportDir (fun _ => true) c!"out/fig.pdf" = none ∧ exportDir (fun _ => false) c!"fig.pdf" = none := by decide +kernel

example : exportName c!"plots/my_fig.py" c!"pdf" none (some c!"outputs") c!"v2" = c!"outputs/my_fig_v2.pdf" := by decide +kernel

/-- "the extension of the name determines the type of the file" -/
def ExtensionKept : Prop := ∀ (script dflt f tag : Str), '/' ∉ f → '/' ∉ tag → '.' ∉ tag → ext f ≠ [] →
  ext (exportName script dflt (some f) none tag) = ext f

/-- **C216 fails**: the tag is added after the extension (plots.py:3225-3226), so `export('fig.pdf', tag='v2')` asks for the type `pdf_v2` -/
theorem extensionKept_fails : ¬ ExtensionKept := by
  intro h
  have := h c!"s.py" c!"pdf" c!"fig.pdf" c!"v2" (by decide) (by decide) (by decide) (by decide)
  revert this; decide +kernel

/-- "a name without an extension gets the default one" -/
def DefaultExtension : Prop := ∀ (script dflt f : Str), '.' ∉ dflt → '/' ∉ dflt → ext f = [] →
  ext (exportName script dflt (some f) none []) = dflt

/-- **C216 fails**: a dot in the directory suppresses the default extension (plots.py:3227), as in `export('../plots/fig')` -/
theorem defaultExtension_fails : ¬ DefaultExtension := by
  intro h
  have := h c!"s.py" c!"pdf" c!"../plots/fig" (by decide) (by decide) (by decide +kernel)
  revert this; decide +kernel

/-- "the file is saved below the directory given" -/
def SavedInDirectory : Prop := ∀ (script dflt f d : Str), f.head? ≠ some '/' → Path.Plain d →
  ∃ rest, exportName script dflt (some f) (some d) [] = d ++ '/' :: rest

/-- **C216 fails**: the directory is ignored when the name has a directory of its own (plots.py:3229): `export('a/fig.pdf', adir='out')` writes
`a/fig.pdf` -/
theorem savedInDirectory_fails : ¬ SavedInDirectory := by
  intro h
  obtain ⟨rest, hr⟩ := h c!"s.py" c!"pdf" c!"a/fig.pdf" c!"out" (by decide) ⟨by decide, by intro c hc; injection hc with hc; subst hc; decide⟩
  have : (exportName c!"s.py" c!"pdf" (some c!"a/fig.pdf") (some c!"out") [])[0]? = some 'o' := by rw [hr]; rfl
  revert this; decide +kernel

/-- "without a name the file is called after the script" -/
def NamedAfterScript : Prop := ∀ (stem dflt : Str), '.' ∉ dflt → '/' ∉ stem →
  exportName (stem ++ c!".py") dflt none none [] = stem ++ c!"." ++ dflt

/-- **C216 fails**: `.py` is removed wherever it occurs and any other dot keeps the default extension away (plots.py:3224-3228): the script
`fig.pyramid.py` exports to `figramid.pdf`, and `fig_v1.2.py` to `fig_v1.2` -/
theorem namedAfterScript_fails : ¬ NamedAfterScript := by
  intro h
  have := h c!"fig_v1.2" c!"pdf" (by decide) (by decide)
  revert this; decide +kernel

/-- **C216**, what holds: the script `stem.py` with a stem that has no dot exports to `stem` with the default extension -/
theorem named_after_script_partial (stem dflt dir : Str) (h : '.' ∉ stem) (hs : '/' ∉ stem) :
    exportName (dir ++ '/' :: stem ++ c!".py") dflt none none [] = stem ++ c!"." ++ dflt := by
  have hb : Path.basename (dir ++ '/' :: stem ++ c!".py") = stem ++ c!".py" := by
    have he : dir ++ '/' :: stem ++ c!".py" = dir ++ '/' :: (stem ++ c!".py") := by simp
    rw [he]
    exact Path.basename_join (by
      simp only [List.mem_append, not_or]; exact ⟨hs, by decide⟩)
  have hr : replaceStr c!".py" [] (stem ++ c!".py") = stem := by
    clear hb hs
    unfold replaceStr
    induction stem with
    | nil => decide
    | cons c cs ih =>
      have hc : c ≠ '.' := fun e => h (by simp [e])
      have hst : startsWith c!".py" (c :: cs ++ c!".py") = false := by
        cases hst : startsWith c!".py" (c :: cs ++ c!".py") with
        | false => rfl
        | true =>
          obtain ⟨t, ht⟩ := startsWith_iff.mp hst
          injection ht with h1 _
          exact absurd h1 hc
      rw [List.cons_append] at hst ⊢
      rw [replaceAux, if_neg (by rw [hst]; decide), ih (fun h' => h (by simp [h']))]
  unfold exportName
  simp only [hb, hr, if_true, if_neg h]
  rw [List.append_assoc]; rfl

end Verif.Scatter
