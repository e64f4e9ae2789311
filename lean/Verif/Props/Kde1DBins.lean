import Verif.Model.Kde1D
import Mathlib.Algebra.BigOperators.Group.List.Lemmas
import Mathlib.Tactic.Linarith
import Mathlib.Tactic.FieldSimp
import Mathlib.Tactic.Ring

/-!
# Ranges and histograms (C45, C69)
-/

namespace Verif.Kde1D
set_option linter.unusedSectionVars false
open Verif.Py Verif.Py.Np Verif.Convolve

variable {K : Type} [Field K] [LinearOrder K] [IsStrictOrderedRing K] [FloorRing K]

/-! ## Prior limits -/

/-- the samples are far from the lower limit `l` -/
def FarBot (l cmin pmin smooth : K) : Prop := cmin - l > 2 * smooth ∧ pmin - l > smooth
def FarTop (l cmax pmax smooth : K) : Prop := l - cmax > 2 * smooth ∧ l - pmax > smooth

/-- **C69**: once the range of a parameter has been determined, a limit is reported exactly when there is one and the samples come near it -/
theorem bounds_spec (p : Par K) (lo hi : Option K) (pmin pmax cmin cmax s : K) :
    (∀ l, (getBounds (initParam (initLimits p lo hi) pmin pmax cmin cmax s)).1 = some l ↔ lo = some l ∧ ¬ FarBot l cmin pmin s) ∧
    (∀ l, (getBounds (initParam (initLimits p lo hi) pmin pmax cmin cmax s)).2 = some l ↔ hi = some l ∧ ¬ FarTop l cmax pmax s) := by
  constructor <;> intro l
  · cases lo with
    | none => simp [getBounds, initParam, initLimits, initBot]
    | some m =>
      by_cases h : FarBot m cmin pmin s
      · have h' : 2 * s < cmin - m ∧ s < pmin - m := h
        simp only [getBounds, initParam, initLimits, initBot, Option.isSome_some, gt_iff_lt, if_pos h']
        constructor
        · intro e; simp at e
        · rintro ⟨e, h2⟩; injection e with e; subst e; exact absurd h h2
      · have h' : ¬ (2 * s < cmin - m ∧ s < pmin - m) := h
        simp only [getBounds, initParam, initLimits, initBot, Option.isSome_some, gt_iff_lt, if_neg h', if_true]
        constructor
        · intro e; injection e with e; subst e; exact ⟨rfl, h⟩
        · exact fun e => e.1
  · cases hi with
    | none => simp [getBounds, initParam, initLimits, initTop]
    | some m =>
      by_cases h : FarTop m cmax pmax s
      · have h' : 2 * s < m - cmax ∧ s < m - pmax := h
        simp only [getBounds, initParam, initLimits, initTop, Option.isSome_some, gt_iff_lt, if_pos h']
        constructor
        · intro e; simp at e
        · rintro ⟨e, h2⟩; injection e with e; subst e; exact absurd h h2
      · have h' : ¬ (2 * s < m - cmax ∧ s < m - pmax) := h
        simp only [getBounds, initParam, initLimits, initTop, Option.isSome_some, gt_iff_lt, if_neg h', if_true]
        constructor
        · intro e; injection e with e; subst e; exact ⟨rfl, h⟩
        · exact fun e => e.1

/-- **C69** The range on which densities are calculated starts (ends) at the prior limit if that is a bound, and otherwise two smoothing
widths beyond the confidence limit of the samples. -/
theorem range_spec (p : Par K) (lo hi : Option K) (pmin pmax cmin cmax s : K) :
    let q := initParam (initLimits p lo hi) pmin pmax cmin cmax s
    (∀ l, (getBounds q).1 = some l → q.rmin = l) ∧ ((getBounds q).1 = none → q.rmin = cmin - 2 * s) ∧
    (∀ l, (getBounds q).2 = some l → q.rmax = l) ∧ ((getBounds q).2 = none → q.rmax = cmax + 2 * s) := by
  intro q
  refine ⟨?_, ?_, ?_, ?_⟩ <;> simp only [q, getBounds, initParam, initLimits]
  · cases lo with
    | none => simp
    | some l =>
      simp only [Option.isSome_some, initBot]
      split <;> simp
  · cases lo with
    | none => intro _; simp [initBot, mul_comm]
    | some l =>
      simp only [Option.isSome_some, initBot]
      split <;> simp [mul_comm]
  · cases hi with
    | none => simp
    | some l =>
      simp only [Option.isSome_some, initTop]
      split <;> simp
  · cases hi with
    | none => intro _; simp [initTop, mul_comm]
    | some l =>
      simp only [Option.isSome_some, initTop]
      split <;> simp [mul_comm]

/-- determining the range again changes nothing -/
theorem initParam_idem (p : Par K) (pmin pmax cmin cmax s : K) :
    initParam (initParam p pmin pmax cmin cmax s) pmin pmax cmin cmax s = initParam p pmin pmax cmin cmax s := by
  have hb : ∀ (l : Option K) f, initBot l (initBot l f cmin pmin s).1 cmin pmin s = initBot l f cmin pmin s := by
    intro l f
    cases l with
    | none => cases f <;> rfl
    | some l =>
      cases f with
      | false => rfl
      | true =>
        by_cases h : cmin - l > 2 * s ∧ pmin - l > s
        · simp [initBot, h]
        · simp only [initBot, if_neg h]
  have ht : ∀ (l : Option K) f, initTop l (initTop l f cmax pmax s).1 cmax pmax s = initTop l f cmax pmax s := by
    intro l f
    cases l with
    | none => cases f <;> rfl
    | some l =>
      cases f with
      | false => rfl
      | true =>
        by_cases h : l - cmax > 2 * s ∧ l - pmax > s
        · simp [initTop, h]
        · simp only [initTop, if_neg h]
  simp only [initParam, hb, ht]

def exPar : Par ℚ := ⟨none, none, false, false, 0, 0, 0, 0⟩

/-- **C69 fails** before that: `getBounds` after loading reports every prior limit, however far the samples are from it; asking for a
density changes the answer -/
theorem bounds_history_fails : ∃ p : Par ℚ, p = initLimits exPar (some 0) (some 100) ∧ getBounds p = (some 0, some 100) ∧
    getBounds (initParam p 40 60 45 55 1) = (none, none) := ⟨_, rfl, by decide +kernel, by decide +kernel⟩

example : getBounds (initParam (initLimits exPar (some 0) (some 100)) 1 60 2 55 1) = (some 0, none) := by decide +kernel

/-! ## Bins -/

theorem binmin_le (p : Par K) {bf : K} (hr : p.rmin ≤ p.rmax) (hb : 0 ≤ bf) : binmin p bf ≤ p.pmin ∧ binmin p bf ≤ p.rmin := by
  have h := mul_nonneg (sub_nonneg.mpr hr) hb
  unfold binmin
  split
  · exact ⟨min_le_left _ _, min_le_right _ _⟩
  · exact ⟨by linarith [min_le_left p.pmin p.rmin], by linarith [min_le_right p.pmin p.rmin]⟩

theorem le_binmax (p : Par K) {bf : K} (hr : p.rmin ≤ p.rmax) (hb : 0 ≤ bf) : p.pmax ≤ binmax p bf ∧ p.rmax ≤ binmax p bf := by
  have h := mul_nonneg (sub_nonneg.mpr hr) hb
  unfold binmax
  split
  · exact ⟨le_max_left _ _, le_max_right _ _⟩
  · exact ⟨by linarith [le_max_left p.pmax p.rmax], by linarith [le_max_right p.pmax p.rmax]⟩

theorem fineWidth_pos (p : Par K) {bf : K} {n : Nat} (hr : p.rmin < p.rmax) (hb : 0 ≤ bf) (hn : 2 ≤ n) : 0 < fineWidth p n bf := by
  have h1 := (binmin_le p hr.le hb).2
  have h2 := (le_binmax p hr.le hb).2
  have h3 : (2 : K) ≤ (n : K) := by exact_mod_cast hn
  exact div_pos (by linarith) (by linarith)

theorem zip_map_self {α β : Type} (f : α → β) : ∀ l : List α, l.zip (l.map f) = l.map (fun a => (a, f a))
  | [] => rfl
  | a :: l => by rw [List.map_cons, List.zip_cons_cons, zip_map_self f l, List.map_cons]

/-- **C45**: every sample falls in a bin of the array, and lies within half a bin of its centre -/
theorem binSamples_valid (p : Par K) (n : Nat) (bf : K) (v : List K) (hr : p.rmin < p.rmax) (hb : 0 ≤ bf) (hn : 2 ≤ n)
    (hv : ∀ x ∈ v, p.pmin ≤ x ∧ x ≤ p.pmax) :
    (binSamples v p n bf).length = v.length ∧ ∀ q ∈ v.zip (binSamples v p n bf), 0 ≤ q.2 ∧ q.2 < n ∧
      |q.1 - (binmin p bf + (q.2 : K) * fineWidth p n bf)| ≤ fineWidth p n bf / 2 := by
  refine ⟨by simp [binSamples], ?_⟩
  intro q hq
  unfold binSamples at hq
  rw [zip_map_self, List.mem_map] at hq
  obtain ⟨x, h1, rfl⟩ := hq
  obtain ⟨hx1, hx2⟩ := hv x h1
  have hw := fineWidth_pos p hr hb hn
  have h1 := (binmin_le p hr.le hb).1
  have h2 := (le_binmax p hr.le hb).1
  have h3 : (2 : K) ≤ (n : K) := by exact_mod_cast hn
  set w := fineWidth p n bf with hwd
  set t := (x - binmin p bf) / w with htd
  have ht0 : 0 ≤ t := div_nonneg (by linarith) hw.le
  have htw : t * w = x - binmin p bf := by rw [htd]; field_simp
  have htn : t ≤ (n : K) - 1 := by
    have hww : w * ((n : K) - 1) = binmax p bf - binmin p bf := by
      rw [hwd]; unfold fineWidth; rw [div_mul_cancel₀]; linarith
    rw [htd, div_le_iff₀ hw, mul_comm, hww]
    linarith
  have htr : trunc (t + 1 / 2) = ⌊t + 1 / 2⌋ := by unfold trunc; rw [if_pos (by linarith)]
  show 0 ≤ trunc (t + 1 / 2) ∧ trunc (t + 1 / 2) < (n : Int) ∧ |x - (binmin p bf + ((trunc (t + 1 / 2) : Int) : K) * w)| ≤ w / 2
  rw [htr]
  have f1 := Int.floor_le (t + 1 / 2)
  have f2 := Int.lt_floor_add_one (t + 1 / 2)
  refine ⟨Int.floor_nonneg.mpr (by linarith), ?_, ?_⟩
  · rw [Int.floor_lt]; push_cast; linarith
  · have : x - (binmin p bf + ((⌊t + 1 / 2⌋ : Int) : K) * w) = (t - ((⌊t + 1 / 2⌋ : Int) : K)) * w := by
      rw [sub_mul, htw]; ring
    rw [this, abs_mul, abs_of_pos hw]
    have : |t - ((⌊t + 1 / 2⌋ : Int) : K)| ≤ 1 / 2 := by rw [abs_le]; constructor <;> linarith
    nlinarith

example : binSamples ([0, 1, 3] : List ℚ) ⟨some 0, none, true, false, 0, 3, 0, 4⟩ 6 (1/10) = [0, 1, 3] := by decide +kernel

/-- a hard limit that the samples respect is the centre of the first (last) bin -/
theorem bin_at_limit (p : Par K) (bf : K) : (p.bot = true → p.rmin ≤ p.pmin → binmin p bf = p.rmin) ∧
    (p.top = true → p.pmax ≤ p.rmax → binmax p bf = p.rmax) := by
  constructor
  · intro h1 h2; unfold binmin; rw [if_pos h1, min_eq_right h2]
  · intro h1 h2; unfold binmax; rw [if_pos h1, max_eq_right h2]

/-- the bins do not depend on the units of the parameter -/
theorem binSamples_affine (p : Par K) (n : Nat) (bf : K) (v : List K) (a b : K) (ha : 0 < a) :
    binSamples (v.map (fun x => a * x + b)) { p with pmin := a * p.pmin + b, pmax := a * p.pmax + b, rmin := a * p.rmin + b, rmax := a * p.rmax + b } n bf
      = binSamples v p n bf := by
  have hmin : ∀ x y : K, min (a * x + b) (a * y + b) = a * min x y + b := by
    intro x y
    rcases le_total x y with h | h
    · rw [min_eq_left h, min_eq_left (by nlinarith)]
    · rw [min_eq_right h, min_eq_right (by nlinarith)]
  have hmax : ∀ x y : K, max (a * x + b) (a * y + b) = a * max x y + b := by
    intro x y
    rcases le_total x y with h | h
    · rw [max_eq_right h, max_eq_right (by nlinarith)]
    · rw [max_eq_left h, max_eq_left (by nlinarith)]
  set q : Par K := { p with pmin := a * p.pmin + b, pmax := a * p.pmax + b, rmin := a * p.rmin + b, rmax := a * p.rmax + b } with hq
  have e1 : binmin q bf = a * binmin p bf + b := by
    show (if p.bot then min (a * p.pmin + b) (a * p.rmin + b) else min (a * p.pmin + b) (a * p.rmin + b) - (a * p.rmax + b - (a * p.rmin + b)) * bf) = _
    unfold binmin
    rw [hmin]
    split <;> ring
  have e2 : binmax q bf = a * binmax p bf + b := by
    show (if p.top then max (a * p.pmax + b) (a * p.rmax + b) else max (a * p.pmax + b) (a * p.rmax + b) + (a * p.rmax + b - (a * p.rmin + b)) * bf) = _
    unfold binmax
    rw [hmax]
    split <;> ring
  have e3 : fineWidth q n bf = a * fineWidth p n bf := by
    unfold fineWidth; rw [e1, e2]; ring
  unfold binSamples
  rw [List.map_map]
  apply List.map_congr_left
  intro x _
  simp only [Function.comp_apply]
  rw [e1, e3]
  congr 2
  rw [show a * x + b - (a * binmin p bf + b) = a * (x - binmin p bf) by ring, mul_div_mul_left _ _ ha.ne']

/-! ## The bins of the bandwidth estimate -/

theorem foldl_max_ge (l : List K) (a : K) : a ≤ l.foldl max a ∧ ∀ x ∈ l, x ≤ l.foldl max a := by
  induction l generalizing a with
  | nil => simp
  | cons b l ih =>
    obtain ⟨h1, h2⟩ := ih (max a b)
    refine ⟨le_trans (le_max_left _ _) h1, fun x hx => ?_⟩
    rcases List.mem_cons.mp hx with rfl | hx
    · exact le_trans (le_max_right _ _) h1
    · exact h2 x hx

theorem foldl_min_le (l : List K) (a : K) : l.foldl min a ≤ a ∧ ∀ x ∈ l, l.foldl min a ≤ x := by
  induction l generalizing a with
  | nil => simp
  | cons b l ih =>
    obtain ⟨h1, h2⟩ := ih (min a b)
    refine ⟨le_trans h1 (min_le_left _ _), fun x hx => ?_⟩
    rcases List.mem_cons.mp hx with rfl | hx
    · exact le_trans h1 (min_le_right _ _)
    · exact h2 x hx

/-- **C45** for `kde.bin_samples`: with limits that contain the samples (the default, or given) the indices are valid and the sample lies
between the positions of its index and the next -/
theorem kdeBin_valid (v : List K) (rmin rmax : Option K) (nbins : Nat) (edge : K) (hn : 2 ≤ nbins) (he : 0 < edge)
    (r : List Int × K) (h : kdeBin v rmin rmax nbins edge = .ok r) (hlo : ∀ l, rmin = some l → ∀ x ∈ v, l ≤ x)
    (hhi : ∀ l, rmax = some l → ∀ x ∈ v, x ≤ l) (hR : 0 < r.2) :
    ∃ lo, (∀ l, rmin = some l → lo = l) ∧ r.1.length = v.length ∧ ∀ i, ∀ hi : i < v.length, ∃ k : Int, r.1[i]? = some k ∧ 0 ≤ k ∧ k < nbins ∧
      lo + (k : K) * (r.2 / ((nbins : K) - 1)) ≤ v[i] ∧ v[i] < lo + ((k : K) + 1) * (r.2 / ((nbins : K) - 1)) := by
  unfold kdeBin at h
  cases v with
  | nil => simp [max?, min?] at h
  | cons a l =>
    simp only [max?, min?] at h
    injection h with h
    obtain ⟨gx1, gx2⟩ := foldl_max_ge l a
    obtain ⟨gn1, gn2⟩ := foldl_min_le l a
    set mx := l.foldl max a
    set mn := l.foldl min a
    have hd : 0 ≤ (mx - mn) * edge := mul_nonneg (by linarith) he.le
    set lo := rmin.getD (mn - (mx - mn) * edge) with hlod
    set hi' := rmax.getD (mx + (mx - mn) * edge) with hhid
    have hr2 : r.2 = hi' - lo := by rw [← h]
    have hr1 : r.1 = (a :: l).map (fun x => trunc ((x - lo) / ((hi' - lo) / ((nbins : K) - 1)))) := by rw [← h]
    have lo_le : ∀ x ∈ a :: l, lo ≤ x := by
      intro x hx
      cases hm : rmin with
      | some m => rw [hlod, hm]; exact hlo m hm x hx
      | none =>
        rw [hlod, hm]
        show mn - (mx - mn) * edge ≤ x
        have : mn ≤ x := by
          rcases List.mem_cons.mp hx with rfl | hx
          · exact gn1
          · exact gn2 x hx
        linarith
    have le_hi : ∀ x ∈ a :: l, x ≤ hi' := by
      intro x hx
      cases hm : rmax with
      | some m => rw [hhid, hm]; exact hhi m hm x hx
      | none =>
        rw [hhid, hm]
        show x ≤ mx + (mx - mn) * edge
        have : x ≤ mx := by
          rcases List.mem_cons.mp hx with rfl | hx
          · exact gx1
          · exact gx2 x hx
        linarith
    refine ⟨lo, ?_, by rw [hr1, List.length_map], ?_⟩
    · intro m hm; rw [hlod, hm]; rfl
    · intro i hi
      have hxm : (a :: l)[i] ∈ a :: l := List.getElem_mem hi
      set x := (a :: l)[i] with hx
      have h3 : (2 : K) ≤ (nbins : K) := by exact_mod_cast hn
      have hn1 : (0 : K) < (nbins : K) - 1 := by linarith
      rw [hr2] at hR ⊢
      set dx := (hi' - lo) / ((nbins : K) - 1) with hdx
      have hdp : 0 < dx := div_pos hR hn1
      have hdn : dx * ((nbins : K) - 1) = hi' - lo := by rw [hdx]; field_simp
      set t := (x - lo) / dx with ht
      have ht0 : 0 ≤ t := div_nonneg (by linarith [lo_le x hxm]) hdp.le
      have htd : t * dx = x - lo := by rw [ht]; field_simp
      have htn : t ≤ (nbins : K) - 1 := by
        rw [ht, div_le_iff₀ hdp, mul_comm, hdn]; linarith [le_hi x hxm]
      refine ⟨⌊t⌋, ?_, Int.floor_nonneg.mpr ht0, ?_, ?_, ?_⟩
      · rw [hr1, List.getElem?_map, List.getElem?_eq_getElem hi]
        show some (trunc ((x - lo) / dx)) = some ⌊t⌋
        unfold trunc
        rw [if_pos ht0]
      · rw [Int.floor_lt]; push_cast; linarith
      · have := Int.floor_le t; nlinarith
      · have := Int.lt_floor_add_one t; nlinarith

/-- the positions of `kde.bin_samples` are lower edges: a sample can be almost a bin from the position of its index -/
theorem kdeBin_centre_fails : (kdeBin ([0, 19/10, 4] : List ℚ) (some 0) (some 4) 5 (1/10)).toOption = some ([0, 1, 4], 4) := by decide +kernel

/-- limits inside the samples give indices outside of the array: refused when counting -/
theorem kdeBin_limits_fails : (kdeBin ([0, 1, 4] : List ℚ) (some 1) none 5 (1/10)).toOption = some ([-1, 0, 3], 17/5) ∧
    bincount [-1, 0, 3] ([1, 1, 1] : List ℚ) 5 = .error .valueError := by decide +kernel

/-! ## Histograms -/

/-- the weight of the samples with index `b` -/
def massAt (ix : List Int) (ws : List K) (b : Int) : K := (((ix.zip ws).filter (fun q => decide (q.1 = b))).map Prod.snd).sum

theorem addAll_spec : ∀ (ix : List Int) (ws acc : List K), ix.length = ws.length → (∀ i ∈ ix, 0 ≤ i ∧ i.toNat < acc.length) →
    (addAll ix ws acc).length = acc.length ∧ (addAll ix ws acc).sum = acc.sum + ws.sum ∧
    ∀ b : Nat, (addAll ix ws acc).getD b 0 = acc.getD b 0 + massAt ix ws b
  | [], [], acc, _, _ => by simp [addAll, massAt]
  | [], _ :: _, _, h, _ => by simp at h
  | _ :: _, [], _, h, _ => by simp at h
  | i :: ix, w :: ws, acc, h, hi => by
    obtain ⟨hi0, hi1⟩ := hi i (by simp)
    obtain ⟨h1, h2, h3⟩ := addAll_spec ix ws (acc.set i.toNat (acc.getD i.toNat 0 + w)) (by simpa using h)
      (fun j hj => by rw [List.length_set]; exact hi j (by simp [hj]))
    rw [addAll]
    refine ⟨by rw [h1, List.length_set], ?_, ?_⟩
    · rw [h2, List.sum_set', dif_pos hi1, show acc.getD i.toNat 0 = acc[i.toNat] by rw [List.getD_eq_getElem?_getD, List.getElem?_eq_getElem hi1]; rfl, List.sum_cons]; ring
    · intro b
      rw [h3]
      have hm : massAt (i :: ix) (w :: ws) (b : Int) = (if i = (b : Int) then w else 0) + massAt ix ws b := by
        unfold massAt
        rw [List.zip_cons_cons, List.filter_cons]
        by_cases hb : i = (b : Int) <;> simp [hb]
      rw [hm]
      by_cases hb : i = (b : Int)
      · have hbn : i.toNat = b := by omega
        rw [if_pos hb, List.getD_eq_getElem?_getD, hbn, List.getElem?_set_self (by omega), List.getD_eq_getElem?_getD]
        simp only [Option.getD_some]; ring
      · have hbn : i.toNat ≠ b := by omega
        rw [if_neg hb, List.getD_eq_getElem?_getD, List.getElem?_set_ne hbn, ← List.getD_eq_getElem?_getD]; ring

theorem foldl_len (ix : List Int) (m : Nat) : (∀ i ∈ ix, i.toNat < ix.foldl (fun m i => max m (i.toNat + 1)) m) ∧
    m ≤ ix.foldl (fun m i => max m (i.toNat + 1)) m ∧ ∀ n, m ≤ n → (∀ i ∈ ix, i.toNat < n) → ix.foldl (fun m i => max m (i.toNat + 1)) m ≤ n := by
  induction ix generalizing m with
  | nil => simp
  | cons a l ih =>
    obtain ⟨h1, h2, h3⟩ := ih (max m (a.toNat + 1))
    refine ⟨?_, le_trans (le_max_left _ _) h2, ?_⟩
    · intro i hi
      rcases List.mem_cons.mp hi with rfl | hi
      · exact lt_of_lt_of_le (Nat.lt_succ_self _) (le_trans (le_max_right m _) h2)
      · exact h1 i hi
    · intro n hn hl
      refine h3 n (max_le hn ?_) (fun i hi => hl i (by simp [hi]))
      have := hl a (by simp)
      omega

/-- **C45**: for indices that are not negative the histogram holds in each bin the weight of the samples with that index; its total is the total
weight; with indices inside the array it has the size asked for -/
theorem bincount_spec (ix : List Int) (ws : List K) (n : Nat) (hl : ix.length = ws.length) (h0 : ∀ i ∈ ix, 0 ≤ i) :
    ∃ h, bincount ix ws n = .ok h ∧ h.sum = ws.sum ∧ (∀ b : Nat, h.getD b 0 = massAt ix ws b) ∧ n ≤ h.length ∧
      ((∀ i ∈ ix, i < n) → h.length = n) := by
  have hneg : ¬ ix.any (fun i => decide (i < 0)) = true := by
    rw [List.any_eq_true]
    rintro ⟨i, hi, hd⟩
    have := h0 i hi
    rw [decide_eq_true_eq] at hd
    omega
  obtain ⟨f1, f2, f3⟩ := foldl_len ix 0
  set M := ix.foldl (fun m i => max m (i.toNat + 1)) 0 with hM
  obtain ⟨a1, a2, a3⟩ := addAll_spec ix ws (List.replicate (max n M) 0) hl (fun i hi => ⟨h0 i hi, by
    rw [List.length_replicate]; exact lt_of_lt_of_le (f1 i hi) (le_max_right _ _)⟩)
  refine ⟨addAll ix ws (List.replicate (max n M) 0), ?_, ?_, ?_, ?_, ?_⟩
  · unfold bincount; rw [if_neg hneg, if_neg (by simpa using hl)]
  · rw [a2]; simp
  · intro b
    rw [a3, List.getD_eq_getElem?_getD, List.getElem?_replicate]
    split <;> simp
  · rw [a1, List.length_replicate]; exact le_max_left _ _
  · intro hlt
    rw [a1, List.length_replicate]
    refine max_eq_left (f3 n (Nat.zero_le _) (fun i hi => ?_))
    have h1 := hlt i hi
    have h2 := h0 i hi
    omega

example : bincount [0, 2, 2] ([1, 2, 3] : List ℚ) 4 = .ok [1, 0, 5, 0] := by decide +kernel

/-- **C45**: the histogram of samples binned by `_binSamples` has the size asked for and the total weight -/
theorem histogram_spec (p : Par K) (n : Nat) (bf : K) (v ws : List K) (hr : p.rmin < p.rmax) (hb : 0 ≤ bf) (hn : 2 ≤ n)
    (hv : ∀ x ∈ v, p.pmin ≤ x ∧ x ≤ p.pmax) (hw : v.length = ws.length) :
    ∃ h, bincount (binSamples v p n bf) ws n = .ok h ∧ h.length = n ∧ h.sum = ws.sum ∧
      ∀ b : Nat, h.getD b 0 = massAt (binSamples v p n bf) ws b := by
  obtain ⟨h1, h2⟩ := binSamples_valid p n bf v hr hb hn hv
  have hmem : ∀ i ∈ binSamples v p n bf, 0 ≤ i ∧ i < n := by
    intro i hi
    obtain ⟨k, hk, e⟩ := List.getElem_of_mem hi
    have hk' : k < v.length := by rw [← h1]; exact hk
    have := h2 (v[k], (binSamples v p n bf)[k]) (by
      rw [List.mem_iff_getElem]
      exact ⟨k, by rw [List.length_zip]; omega, by rw [List.getElem_zip]⟩)
    rw [e] at this
    exact ⟨this.1, this.2.1⟩
  obtain ⟨h, e1, e2, e3, e4, e5⟩ := bincount_spec (binSamples v p n bf) ws n (by rw [h1, hw]) (fun i hi => (hmem i hi).1)
  exact ⟨h, e1, e5 (fun i hi => (hmem i hi).2), e2, e3⟩

/-- **C45** in two dimensions: with valid indices the entry in row `y` and column `x` is the weight of the samples in that bin; nothing is lost -/
theorem make2Dhist_spec (ixs iys : List Int) (ws : List K) (nx ny : Nat) (h1 : ixs.length = ws.length) (h2 : iys.length = ws.length)
    (hx : ∀ i ∈ ixs, 0 ≤ i ∧ i < nx) (hy : ∀ i ∈ iys, 0 ≤ i ∧ i < ny) :
    ∃ h, make2Dhist ixs iys ws nx ny = .ok h ∧ h.length = nx * ny ∧ h.sum = ws.sum ∧ ∀ x y : Nat, x < nx → y < ny →
      h.getD (x + y * nx) 0 = ((((ixs.zip iys).zip ws).filter (fun q => decide (q.1 = ((x : Int), (y : Int))))).map Prod.snd).sum := by
  set fl := List.zipWith (fun x y => x + y * (nx : Int)) ixs iys with hfl
  have hmem : ∀ i ∈ fl, 0 ≤ i ∧ i < ((nx * ny : Nat) : Int) := by
    intro i hi
    rw [hfl, ← List.map_uncurry_zip_eq_zipWith] at hi
    obtain ⟨⟨a, b⟩, hm, rfl⟩ := List.mem_map.mp hi
    have hab := List.of_mem_zip hm
    obtain ⟨a0, a1⟩ := hx a hab.1
    obtain ⟨b0, b1⟩ := hy b hab.2
    show 0 ≤ a + b * (nx : Int) ∧ a + b * (nx : Int) < ((nx * ny : Nat) : Int)
    have hb : b * (nx : Int) ≤ ((ny : Int) - 1) * nx := by
      have : (0 : Int) ≤ nx := Int.natCast_nonneg _
      exact mul_le_mul_of_nonneg_right (by omega) this
    have hb0 : 0 ≤ b * (nx : Int) := mul_nonneg b0 (Int.natCast_nonneg _)
    push_cast
    constructor
    · omega
    · nlinarith
  obtain ⟨h, e1, e2, e3, e4, e5⟩ := bincount_spec fl ws (nx * ny) (by rw [hfl, List.length_zipWith]; omega) (fun i hi => (hmem i hi).1)
  have hlen := e5 (fun i hi => (hmem i hi).2)
  refine ⟨h, ?_, hlen, e2, ?_⟩
  · unfold make2Dhist
    rw [← hfl, e1]
    simp only []
    rw [if_pos hlen]
  · intro x y hxn hyn
    rw [e3]
    unfold massAt
    clear e1 e2 e3 e4 e5 hlen hmem
    rw [hfl]
    clear hfl fl
    induction ixs generalizing iys ws with
    | nil => simp
    | cons a ixs ih =>
      cases iys with
      | nil => simp
      | cons b iys =>
        cases ws with
        | nil => simp
        | cons w ws =>
          have hrest := ih iys ws (by simpa using h1) (by simpa using h2) (fun i hi => hx i (by simp [hi])) (fun i hi => hy i (by simp [hi]))
          obtain ⟨a0, a1⟩ := hx a (by simp)
          obtain ⟨b0, b1⟩ := hy b (by simp)
          have hiff : a + b * (nx : Int) = ((x + y * nx : Nat) : Int) ↔ a = x ∧ b = y := by
            push_cast
            constructor
            · intro e
              have hnx : (0 : Int) < nx := by omega
              have hmod : (a + b * (nx : Int)) % nx = ((x : Int) + y * nx) % nx := by rw [e]
              rw [Int.add_mul_emod_self_right, Int.add_mul_emod_self_right, Int.emod_eq_of_lt a0 a1,
                Int.emod_eq_of_lt (by omega) (by omega)] at hmod
              refine ⟨hmod, ?_⟩
              rw [hmod] at e
              have : b * (nx : Int) = y * nx := by omega
              exact mul_right_cancel₀ hnx.ne' this
            · rintro ⟨rfl, rfl⟩; rfl
          rw [List.zipWith_cons_cons, List.zip_cons_cons, List.filter_cons, List.zip_cons_cons, List.zip_cons_cons, List.filter_cons]
          by_cases hab : a = x ∧ b = y
          · rw [if_pos (by simpa using hiff.mpr hab), if_pos (by simp [hab.1, hab.2]), List.map_cons, List.map_cons, List.sum_cons,
              List.sum_cons, hrest]
          · have hn : ¬ a + b * (nx : Int) = ((x + y * nx : Nat) : Int) := fun e => hab (hiff.mp e)
            rw [if_neg (by simpa using hn), if_neg (by simpa using hab), hrest]

example : make2Dhist [0, 1, 1] [1, 0, 0] ([1, 2, 3] : List ℚ) 2 2 = .ok [0, 5, 1, 0] ∧
    make2Dhist [0, 1, 1] [2, 0, 0] ([1, 2, 3] : List ℚ) 2 2 = .error .valueError := by decide +kernel

end Verif.Kde1D
